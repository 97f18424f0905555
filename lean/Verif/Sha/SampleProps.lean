import Verif.Sha.Sample
import Verif.Sha.Props

/-! # Property theorem C87: the sample circuits prove knowledge of a preimage -/

namespace Verif.Sha
open Api
variable {p : ℕ}

theorem assertAll_iff : ∀ rs es : List (F p), assertAll rs es = some () ↔ rs <+: es
  | [], es => by simp [assertAll]
  | r :: rs, [] => by simp [assertAll]
  | r :: rs, e :: es => by
    rw [assertAll, List.cons_prefix_cons, ← assertAll_iff rs es]
    unfold assertEq
    by_cases h : r = e <;> simp [h]

theorem sample_session (P : Prm) (expectedResult inp : List (F p)) :
    sampleDefine P expectedResult inp =
      (session P [.write inp, .sum]).bind fun rs => assertAll (rs.headD []) expectedResult := by
  unfold sampleDefine session
  cases (new P : Option (Digest p P)) with
  | none => rfl
  | some d =>
    simp only [run, call, Option.bind_eq_bind, Option.bind_some]
    cases write P d inp with
    | none => rfl
    | some d =>
      simp only [Option.map_some, Option.bind_some]
      cases sum P d with
      | none => rfl
      | some r => rfl

section
variable [Fact (1 < p)]

theorem sample_spec {P : Prm} (hG : Good P p) (expectedResult inp : List (F p)) (hl : inp.length < 2 ^ 61)
    (he : expectedResult.length = (Spec.hash (toAlg P) (inp.map byteOf)).length) :
    sampleDefine P expectedResult inp = some () ↔
      (∀ v ∈ inp, v.val < 256) ∧ expectedResult = (Spec.hash (toAlg P) (inp.map byteOf)).map fun b => ((b.toNat : ℕ) : F p) := by
  have hw : written [Call.write inp, Call.sum] = inp := by simp [written]
  rw [sample_session]
  by_cases hb : ∀ v ∈ inp, v.val < 256
  · rw [session_spec hG _ (by rw [hw]; exact hb) (by rw [hw]; exact hl)]
    simp only [expected, List.nil_append, Option.bind_some, List.headD_cons, assertAll_iff]
    constructor
    · intro h
      exact ⟨hb, (h.eq_of_length (by simp [he])).symm⟩
    · rintro ⟨-, h⟩
      rw [h]
  · rw [session_none _ (by rw [hw]; push Not at hb; exact hb)]
    simp [hb]

theorem hash_length (A : Spec.Alg) (m : List (BitVec 8)) : (Spec.hash A m).length = 8 * (A.w / 8) := by
  simp [Spec.hash, Spec.output, Spec.beBytes, Spec.wordBytes]
  omega

/-- C87. The SHA-256 sample circuit accepts a private input and a public result of 32 values exactly when the input consists of bytes
and the result is their SHA-256 digest. -/
theorem C87_sha256 (hp : 2 ^ 68 < p) (expectedResult inp : List (F p)) (hl : inp.length < 2 ^ 61)
    (he : expectedResult.length = 32) :
    sampleDefine prm256 expectedResult inp = some () ↔
      (∀ v ∈ inp, v.val < 256) ∧ expectedResult = (Spec.hash Spec.sha256 (inp.map byteOf)).map fun b => ((b.toNat : ℕ) : F p) :=
  sample_spec (good256 hp) expectedResult inp hl (by rw [he, hash_length]; rfl)

/-- C87. The same for the SHA-512 sample circuit. -/
theorem C87_sha512 (hp : 2 ^ 68 < p) (expectedResult inp : List (F p)) (hl : inp.length < 2 ^ 61)
    (he : expectedResult.length = 64) :
    sampleDefine prm512 expectedResult inp = some () ↔
      (∀ v ∈ inp, v.val < 256) ∧ expectedResult = (Spec.hash Spec.sha512 (inp.map byteOf)).map fun b => ((b.toNat : ℕ) : F p) :=
  sample_spec (good512 hp) expectedResult inp hl (by rw [he, hash_length]; rfl)

theorem byteOf_inj (v w : F p) (hv : v.val < 256) (hw : w.val < 256) (h : byteOf v = byteOf w) : v = w := by
  have := congrArg BitVec.toNat h
  simp only [byteOf, BitVec.toNat_ofNat] at this
  rw [Nat.mod_eq_of_lt hv, Nat.mod_eq_of_lt hw] at this
  exact ZMod.val_injective p this

/-- C87. Two different private inputs accepted with the same public result are a collision of SHA-256. -/
theorem C87_sha256_binding (hp : 2 ^ 68 < p) (expectedResult inp inp' : List (F p)) (hl : inp.length < 2 ^ 61)
    (hl' : inp'.length < 2 ^ 61) (he : expectedResult.length = 32) (h : sampleDefine prm256 expectedResult inp = some ())
    (h' : sampleDefine prm256 expectedResult inp' = some ()) (hne : inp ≠ inp') :
    inp.map byteOf ≠ inp'.map byteOf ∧
      Spec.hash Spec.sha256 (inp.map byteOf) = Spec.hash Spec.sha256 (inp'.map byteOf) := by
  rw [C87_sha256 hp _ _ hl he] at h
  rw [C87_sha256 hp _ _ hl' he] at h'
  haveI : NeZero p := ⟨by omega⟩
  refine ⟨fun e => hne ?_, ?_⟩
  · have hlen : inp.length = inp'.length := by simpa using congrArg List.length e
    apply List.ext_getElem hlen
    intro i h1 h2
    have := List.getElem_of_eq e (i := i) (by simpa using h1)
    rw [List.getElem_map, List.getElem_map] at this
    exact byteOf_inj _ _ (h.1 _ (List.getElem_mem _)) (h'.1 _ (List.getElem_mem _)) this
  · have e := h.2.symm.trans h'.2
    have inj : Function.Injective (fun b : BitVec 8 => ((b.toNat : ℕ) : F p)) := by
      intro a b hab
      have := congrArg ZMod.val hab
      simp only at this
      rw [ZMod.val_natCast_of_lt (by have := a.isLt; omega), ZMod.val_natCast_of_lt (by have := b.isLt; omega)] at this
      exact BitVec.eq_of_toNat_eq this
    exact List.map_injective_iff.2 inj e

end

/-- Non-vacuity: some public result is accepted for the input of two zero bytes, over a field of the required size. -/
example [Fact (1 < 2 ^ 68 + 1)] : ∃ e : List (F (2 ^ 68 + 1)), e.length = 32 ∧ sampleDefine prm256 e [0, 0] = some () := by
  refine ⟨(Spec.hash Spec.sha256 [0, 0]).map fun b => ((b.toNat : ℕ) : F (2 ^ 68 + 1)), ?_, ?_⟩
  · rw [List.length_map, hash_length]; rfl
  · rw [C87_sha256 (by norm_num) _ _ (by norm_num) (by rw [List.length_map, hash_length]; rfl)]
    refine ⟨by simp, ?_⟩
    simp [byteOf]

end Verif.Sha
