import Verif.EdHost.Mult
import Verif.EdHost.ScalarProps

/-! # C63 and C65: points and scalar multiplications of the host library, for every history of calls -/

namespace Verif.EdHost
open Verif.Ed

/-- `MadePt p Q`: some sequence of calls of the point API produces the value `p`, and the same operations of the group give
`Q`.  (`Set` copies.) -/
inductive MadePt : Point → Pt25519 → Prop
  | identity : MadePt identity 0
  | generator : MadePt generator B
  | setBytes {x p Q} : (∀ b ∈ x, b < 256) → x.length = 32 → ptSetBytes x = some p →
      Q.y = ((leVal x % 2 ^ 255 : ℕ) : Fp) → (Q.x = 0 ∨ Q.x.val % 2 = leVal x / 2 ^ 255) → MadePt p Q
  | add {p q r Q R} : MadePt p Q → MadePt q R → ptAdd p q = some r → MadePt r (Q + R)
  | sub {p q r Q R} : MadePt p Q → MadePt q R → ptSub p q = some r → MadePt r (Q - R)
  | neg {p r Q} : MadePt p Q → ptNeg p = some r → MadePt r (-Q)
  | scalarBaseMult {s k r} : MadeSc s k → scalarBaseMult s = some r → MadePt r (k.val • B)
  | scalarMult {s k q Q r} : MadeSc s k → MadePt q Q → scalarMult s q = some r → MadePt r (k.val • Q)
  | varTime {s t k l q Q r} : MadeSc s k → MadePt q Q → MadeSc t l → varTime s q t = some r → MadePt r (k.val • Q + l.val • B)

theorem MadeSc.sc {s : List ℕ} {k : Zl} (h : MadeSc s k) : Sc s ∧ leVal s = k.val := by
  have hc := h.canon
  obtain ⟨a1, a2, a3⟩ := scal_lt k
  rw [← hc] at a1 a2 a3
  exact ⟨⟨a1, a2, by rw [a3]; exact lt_trans (ZMod.val_lt k) (by decide +kernel)⟩, a3⟩

theorem MadePt.rep {p : Point} {Q : Pt25519} (h : MadePt p Q) : PRep p Q := by
  induction h with
  | identity => exact identity_rep
  | generator => exact generator_rep
  | setBytes hx hl he hy hs =>
    obtain ⟨p', e, hp⟩ := (setBytes_rep hx hl).1 _ hy hs
    rw [he, Option.some.injEq] at e
    exact e ▸ hp
  | add _ _ he ha hb =>
    obtain ⟨r, e, hr⟩ := add_rep ha hb
    rw [he, Option.some.injEq] at e
    exact e ▸ hr
  | sub _ _ he ha hb =>
    obtain ⟨r, e, hr⟩ := sub_rep ha hb
    rw [he, Option.some.injEq] at e
    exact e ▸ hr
  | neg _ he ha =>
    obtain ⟨r, e, hr⟩ := neg_rep ha
    rw [he, Option.some.injEq] at e
    exact e ▸ hr
  | scalarBaseMult hs he =>
    obtain ⟨r, e, hr⟩ := scalarBaseMult_rep hs.sc.1
    rw [he, Option.some.injEq] at e
    rw [hs.sc.2] at hr
    exact e ▸ hr
  | scalarMult hs _ he ha =>
    obtain ⟨r, e, hr⟩ := scalarMult_rep hs.sc.1 ha
    rw [he, Option.some.injEq] at e
    rw [hs.sc.2] at hr
    exact e ▸ hr
  | varTime hs _ ht he ha =>
    obtain ⟨r, e, hr⟩ := varTime_rep hs.sc.1 ht.sc.1 ha
    rw [he, Option.some.injEq] at e
    rw [hs.sc.2, ht.sc.2] at hr
    exact e ▸ hr

/-! ## C63 -/

/-- **C63.** Whatever sequence of calls produced a point, `Bytes` returns the RFC 8032 encoding of the group element the
sequence denotes (and does not panic). -/
theorem C63_bytes {p : Point} {Q : Pt25519} (h : MadePt p Q) : ptBytes p = some (encode Q) := bytes_rep h.rep

open Classical in
/-- **C63.** `Equal` answers 1 exactly for equal group elements, 0 otherwise, whatever the representations. -/
theorem C63_equal {p q : Point} {Q R : Pt25519} (hp : MadePt p Q) (hq : MadePt q R) : ptEqual p q = some (if Q = R then 1 else 0) :=
  equal_rep hp.rep hq.rep

/-- **C63.** `Add`, `Subtract` and `Negate` never panic on points made by the API, and are the group operations. -/
theorem C63_group {p q : Point} {Q R : Pt25519} (hp : MadePt p Q) (hq : MadePt q R) :
    (∃ r, ptAdd p q = some r ∧ MadePt r (Q + R)) ∧ (∃ r, ptSub p q = some r ∧ MadePt r (Q - R)) ∧ (∃ r, ptNeg p = some r ∧ MadePt r (-Q)) := by
  obtain ⟨r1, e1, -⟩ := add_rep hp.rep hq.rep
  obtain ⟨r2, e2, -⟩ := sub_rep hp.rep hq.rep
  obtain ⟨r3, e3, -⟩ := neg_rep hp.rep
  exact ⟨⟨r1, e1, .add hp hq e1⟩, ⟨r2, e2, .sub hp hq e2⟩, ⟨r3, e3, .neg hp e3⟩⟩

/-- **C63.** `SetBytes` returns an error for every length but 32; for 32 bytes exactly when no point of the curve has the `y`
coordinate read from the low 255 bits. -/
theorem C63_setBytes_accepts {x : List ℕ} (hx : ∀ b ∈ x, b < 256) :
    (ptSetBytes x).isSome ↔ x.length = 32 ∧ ∃ Q : Pt25519, Q.y = ((leVal x % 2 ^ 255 : ℕ) : Fp) := by
  by_cases hl : x.length = 32
  · obtain ⟨h1, h2⟩ := setBytes_rep hx hl
    constructor
    · intro h
      refine ⟨hl, ?_⟩
      by_contra hn
      rw [h2 hn] at h
      exact absurd h (by simp)
    · rintro ⟨-, Q, hQ⟩
      have hb := leVal_lt hx
      rw [hl] at hb
      have hbit : leVal x / 2 ^ 255 ≤ 1 := by
        generalize leVal x = N at *
        omega
      by_cases hp : Q.x = 0 ∨ Q.x.val % 2 = leVal x / 2 ^ 255
      · obtain ⟨p, e, -⟩ := h1 Q hQ hp
        rw [e]; rfl
      · rw [not_or] at hp
        have : (-Q).x.val % 2 = leVal x / 2 ^ 255 := by
          show (-Q.x).val % 2 = _
          have := NeZero.mk hp.1
          rw [ZMod.val_neg_of_ne_zero]
          have h1 := P_odd
          have h2 := ZMod.val_lt Q.x
          have h3 : Q.x.val ≠ 0 := fun h => hp.1 ((ZMod.val_eq_zero Q.x).1 h)
          have h4 := hp.2
          generalize leVal x / 2 ^ 255 = b at *
          omega
        obtain ⟨p, e, -⟩ := h1 (-Q) hQ (Or.inr this)
        rw [e]; rfl
  · have : ptSetBytes x = none := by
      unfold ptSetBytes feSetBytes
      rw [if_pos hl]
    rw [this]
    simp [hl]

/-- **C63.** What `SetBytes` returns is a point with that `y` coordinate whose `x` is zero or has the parity of the top bit;
such a point is unique. -/
theorem C63_setBytes_value {x : List ℕ} (hx : ∀ b ∈ x, b < 256) {p : Point} (h : ptSetBytes x = some p) :
    ∃ Q : Pt25519, MadePt p Q ∧ Q.y = ((leVal x % 2 ^ 255 : ℕ) : Fp) ∧ (Q.x = 0 ∨ Q.x.val % 2 = leVal x / 2 ^ 255) ∧
      ∀ R : Pt25519, R.y = ((leVal x % 2 ^ 255 : ℕ) : Fp) → (R.x = 0 ∨ R.x.val % 2 = leVal x / 2 ^ 255) → R = Q := by
  obtain ⟨hl, Q₀, hy⟩ := (C63_setBytes_accepts hx).1 (by rw [h]; rfl)
  have hb := leVal_lt hx
  rw [hl] at hb
  have hbit : leVal x / 2 ^ 255 ≤ 1 := by
    generalize leVal x = N at *
    omega
  have key : ∃ Q : Pt25519, Q.y = ((leVal x % 2 ^ 255 : ℕ) : Fp) ∧ (Q.x = 0 ∨ Q.x.val % 2 = leVal x / 2 ^ 255) := by
    by_cases hp : Q₀.x = 0 ∨ Q₀.x.val % 2 = leVal x / 2 ^ 255
    · exact ⟨Q₀, hy, hp⟩
    · rw [not_or] at hp
      refine ⟨-Q₀, hy, Or.inr ?_⟩
      show (-Q₀.x).val % 2 = _
      have := NeZero.mk hp.1
      rw [ZMod.val_neg_of_ne_zero]
      have h1 := P_odd
      have h2 := ZMod.val_lt Q₀.x
      have h3 : Q₀.x.val ≠ 0 := fun h => hp.1 ((ZMod.val_eq_zero Q₀.x).1 h)
      have h4 := hp.2
      generalize leVal x / 2 ^ 255 = b at *
      omega
  obtain ⟨Q, hQy, hQx⟩ := key
  have hQ : MadePt p Q := .setBytes hx hl h hQy hQx
  refine ⟨Q, hQ, hQy, hQx, fun R hRy hRx => ?_⟩
  have hR : MadePt p R := .setBytes hx hl h hRy hRx
  have := (bytes_rep hR.rep).symm.trans (bytes_rep hQ.rep)
  rw [Option.some.injEq] at this
  exact encode_inj this

/-- **C63.** `Bytes` then `SetBytes` gives back the same group element. -/
theorem C63_roundtrip {p : Point} {Q : Pt25519} (h : MadePt p Q) :
    ∃ b p', ptBytes p = some b ∧ ptSetBytes b = some p' ∧ ptEqual p p' = some 1 := by
  obtain ⟨p', e, h'⟩ := decode_encode Q
  refine ⟨_, p', bytes_rep h.rep, e, ?_⟩
  classical
  rw [equal_rep h.rep h', if_pos rfl]

/-- **C63.** `SetBytes` is laxer than RFC 8032, 5.1.3: it accepts two kinds of strings that are no encoding of any point,
`y ≥ p`, and `x = 0` with the sign bit set; both give the point of the canonical string. -/
theorem C63_setBytes_lax :
    (∃ p, ptSetBytes (leBytes 32 (P + 1)) = some p ∧ MadePt p 0 ∧ ∀ Q : Pt25519, encode Q ≠ leBytes 32 (P + 1)) ∧
      (∃ p, ptSetBytes (leBytes 32 (2 ^ 255 + 1)) = some p ∧ MadePt p 0 ∧ ∀ Q : Pt25519, encode Q ≠ leBytes 32 (2 ^ 255 + 1)) := by
  have lt : ∀ v, ∀ b ∈ leBytes 32 v, b < 256 := by
    intro v b hb
    simp only [leBytes, List.mem_map] at hb
    obtain ⟨i, -, rfl⟩ := hb
    exact Nat.mod_lt _ (by norm_num)
  have lv1 : leVal (leBytes 32 (P + 1)) = P + 1 := leVal_leBytes _ _ (by decide +kernel)
  have lv2 : leVal (leBytes 32 (2 ^ 255 + 1)) = 2 ^ 255 + 1 := leVal_leBytes _ _ (by decide +kernel)
  have y1 : (0 : Pt25519).y = ((leVal (leBytes 32 (P + 1)) % 2 ^ 255 : ℕ) : Fp) := by
    rw [lv1, Nat.mod_eq_of_lt (by decide +kernel), Nat.cast_add, ZMod.natCast_self, Nat.cast_one, zero_add]; rfl
  have y2 : (0 : Pt25519).y = ((leVal (leBytes 32 (2 ^ 255 + 1)) % 2 ^ 255 : ℕ) : Fp) := by
    rw [lv2, show (2 ^ 255 + 1) % 2 ^ 255 = 1 by decide +kernel, Nat.cast_one]; rfl
  constructor
  · obtain ⟨p, e, -⟩ := (setBytes_rep (lt _) (leBytes_len _ _)).1 0 y1 (Or.inl rfl)
    refine ⟨p, e, .setBytes (lt _) (leBytes_len _ _) e y1 (Or.inl rfl), fun Q h => ?_⟩
    have := congrArg leVal h
    rw [encode_val, lv1] at this
    have h1 := ZMod.val_lt Q.y
    have h2 := P_eq
    have h3 : Q.x.val % 2 = 0 ∨ Q.x.val % 2 = 1 := by omega
    rcases h3 with h3 | h3 <;> rw [h3] at this <;> omega
  · obtain ⟨p, e, -⟩ := (setBytes_rep (lt _) (leBytes_len _ _)).1 0 y2 (Or.inl rfl)
    refine ⟨p, e, .setBytes (lt _) (leBytes_len _ _) e y2 (Or.inl rfl), fun Q h => ?_⟩
    have := congrArg leVal h
    rw [encode_val, lv2] at this
    have h1 := val_P Q.y
    have h3 : Q.x.val % 2 = 1 ∧ Q.y.val = 1 := by
      have h4 : Q.x.val % 2 = 0 ∨ Q.x.val % 2 = 1 := by omega
      rcases h4 with h4 | h4 <;> rw [h4] at this <;> omega
    have hy : Q.y = 1 := by
      have := ZMod.natCast_zmod_val Q.y
      rw [h3.2, Nat.cast_one] at this
      exact this.symm
    have hx : Q.x = 0 := by
      have hon := (on_iff Q.x Q.y).1 Q.on
      rw [hy] at hon
      have hz : (1 ^ 2 * cD + 1) * (Q.x * Q.x) = 0 := by rw [hon]; ring
      rcases mul_eq_zero.1 hz with h | h
      · exact absurd h (dden 1)
      · exact mul_self_eq_zero.1 h
    rw [hx, ZMod.val_zero] at h3
    omega

/-- **C63.** The zero value of `Point` (a declaration without constructor) makes every method panic. -/
theorem C63_uninitialized (q : Point) (s t : List ℕ) :
    let z : Point := ⟨feZero, feZero, feZero, feZero⟩
    ptBytes z = none ∧ ptAdd z q = none ∧ ptAdd q z = none ∧ ptSub z q = none ∧ ptSub q z = none ∧ ptNeg z = none ∧
      ptEqual z q = none ∧ ptEqual q z = none ∧ scalarMult s z = none ∧ varTime s z t = none := by
  have h : initialized ⟨feZero, feZero, feZero, feZero⟩ = false := by decide
  simp only [ptBytes, ptAdd, ptSub, ptNeg, ptEqual, scalarMult, varTime, h, Bool.false_and, Bool.and_false]
  simp

/-- **C63.** The affine coordinates handed to the circuit are those of the group element. -/
theorem C63_affine {p : Point} {Q : Pt25519} (h : MadePt p Q) :
    feBytes (fromExtended p).X = leBytes 32 Q.x.val ∧ feBytes (fromExtended p).Y = leBytes 32 Q.y.val :=
  ⟨(affine_rep h.rep).1.bytes, (affine_rep h.rep).2.bytes⟩

/-! ## C65 -/

/-- **C65.** `ScalarBaseMult` never panics and returns the multiple of the generator. -/
theorem C65_scalarBaseMult {s : List ℕ} {k : Zl} (h : MadeSc s k) : ∃ r, scalarBaseMult s = some r ∧ ptBytes r = some (encode (k.val • B)) := by
  obtain ⟨r, e, hr⟩ := scalarBaseMult_rep h.sc.1
  rw [h.sc.2] at hr
  exact ⟨r, e, bytes_rep hr⟩

/-- **C65.** `ScalarMult` never panics and returns the multiple, for every point (also of small order) and every scalar. -/
theorem C65_scalarMult {s : List ℕ} {k : Zl} {q : Point} {Q : Pt25519} (h : MadeSc s k) (hq : MadePt q Q) :
    ∃ r, scalarMult s q = some r ∧ ptBytes r = some (encode (k.val • Q)) := by
  obtain ⟨r, e, hr⟩ := scalarMult_rep h.sc.1 hq.rep
  rw [h.sc.2] at hr
  exact ⟨r, e, bytes_rep hr⟩

/-- **C65.** `VarTimeDoubleScalarBaseMult(a, A, b)` never panics and returns `aA + bB`. -/
theorem C65_varTime {s t : List ℕ} {k l : Zl} {q : Point} {Q : Pt25519} (hs : MadeSc s k) (hq : MadePt q Q) (ht : MadeSc t l) :
    ∃ r, varTime s q t = some r ∧ ptBytes r = some (encode (k.val • Q + l.val • B)) := by
  obtain ⟨r, e, hr⟩ := varTime_rep hs.sc.1 ht.sc.1 hq.rep
  rw [hs.sc.2, ht.sc.2] at hr
  exact ⟨r, e, bytes_rep hr⟩

/-- **C65.** The three multiplications agree: `a·B` computed from the table, by `ScalarMult` on the generator, and by
`VarTimeDoubleScalarBaseMult` with a zero first scalar, are the same point. -/
theorem C65_agree {s : List ℕ} {k : Zl} {q : Point} {Q : Pt25519} (h : MadeSc s k) (hq : MadePt q Q) :
    ∃ r1 r2 r3, scalarBaseMult s = some r1 ∧ scalarMult s generator = some r2 ∧ varTime scZero q s = some r3 ∧
      ptEqual r1 r2 = some 1 ∧ ptEqual r2 r3 = some 1 := by
  obtain ⟨r1, e1, h1⟩ := scalarBaseMult_rep h.sc.1
  obtain ⟨r2, e2, h2⟩ := scalarMult_rep h.sc.1 generator_rep
  obtain ⟨r3, e3, h3⟩ := varTime_rep MadeSc.zero.sc.1 h.sc.1 hq.rep
  refine ⟨r1, r2, r3, e1, e2, e3, ?_, ?_⟩
  · classical
    rw [equal_rep h1 h2, if_pos rfl]
  · classical
    rw [equal_rep h2 h3, if_pos]
    rw [MadeSc.zero.sc.2, ZMod.val_zero, zero_smul, zero_add]

/-- **C65.** A scalar whose top bit is set (which the scalar API never produces) is refused by a panic. -/
theorem C65_high_bit {x : List ℕ} (hx : x.getD 31 0 > 127) (q : Point) : scalarBaseMult x = none ∧ scalarMult x q = none := by
  have h : signedRadix16 x = none := by unfold signedRadix16; rw [if_pos hx]
  constructor
  · unfold scalarBaseMult; rw [h]; rfl
  · unfold scalarMult; rw [h]; split <;> rfl

/-- Concrete cases: the identity, the generator and a computed multiple have the encodings of RFC 8032. -/
example : ptBytes generator = some (88 :: List.replicate 31 102) := by decide +kernel
example : MadePt identity 0 ∧ ∃ s, MadeSc s ((5 : ℕ) : Zl) := ⟨.identity, leBytes 32 5, by
  have h := MadeSc.canonical (x := leBytes 32 5) (s := leBytes 32 5) (by decide) (by decide +kernel)
  rwa [show leVal (leBytes 32 5) = 5 by decide +kernel] at h⟩

end Verif.EdHost
