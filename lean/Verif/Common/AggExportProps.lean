import Verif.Common.AggExport
import Verif.Common.QueryIdProps

/-! # Property theorem C80: the exported batch proof -/

namespace Verif.AggExport
open QueryId

/-! ## Specification: what a reader does -/

/-- Split at the commas. -/
def split : List ℕ → List (List ℕ)
  | [] => [[]]
  | c :: r => if c = 44 then [] :: split r else match split r with
    | [] => [[c]]
    | f :: fs => (c :: f) :: fs

/-- The twelve coordinates in the order that Ethereum's pairing precompile (EIP-197) wants: the imaginary part of an element of Fp2
comes first. -/
def coordinates (p : Proof) (c0 : ℕ × ℕ) : List ℕ :=
  [p.ar.1, p.ar.2, p.bs.1.2, p.bs.1.1, p.bs.2.2, p.bs.2.1, p.krs.1, p.krs.2, c0.1, c0.2, p.commitmentPok.1,
    p.commitmentPok.2]

/-- The seven public inputs in the order of the export. -/
def pubFields (u : Pubs) : List (List ℕ) :=
  [u.queryId, u.smtRoot.1, u.smtRoot.2, u.aggVkHash, u.outputCommit.1, u.outputCommit.2, u.appVkHash]

/-! ## Lemmas -/

theorem split_field (f r : List ℕ) (h : 44 ∉ f) : split (f ++ 44 :: r) = f :: split r := by
  induction f with
  | nil => simp [split]
  | cons c f ih =>
    rw [List.mem_cons, not_or] at h
    rw [List.cons_append, split, if_neg (Ne.symm h.1), ih h.2]

theorem split_fields (fs : List (List ℕ)) (h : ∀ f ∈ fs, 44 ∉ f) :
    split (fs.flatMap fun f => f ++ [44]) = fs ++ [[]] := by
  induction fs with
  | nil => simp [split]
  | cons f fs ih =>
    rw [List.flatMap_cons, List.append_assoc, List.singleton_append, split_field f _ (h f (by simp)),
      ih (fun g hg => h g (by simp [hg])), List.cons_append]

theorem hexOf_no_comma (x : ℕ) : 44 ∉ hexOf x := by
  intro h
  unfold hexOf Hex.bytes2Hex0x at h
  simp only [List.mem_cons] at h
  rcases h with h | h | h
  · omega
  · omega
  · have := Hex.bytes2Hex_digits _ (natBytes_bytes x) 44 h
    unfold Hex.HexDigit at this
    omega

theorem hexOf_value (x : ℕ) : Hex.hex2BigInt (hexOf x) = x := by
  unfold Hex.hex2BigInt hexOf
  rw [(Hex.C36_roundtrip _ (natBytes_bytes x)).2.1, natBytes_val]

theorem generate_eq (u : Pubs) (p : Proof) (c0 : ℕ × ℕ) (cs : List (ℕ × ℕ)) (hc : p.commitments = c0 :: cs) :
    generate u p = some (((coordinates p c0).map hexOf ++ pubFields u).flatMap fun f => f ++ [44]) := by
  simp [generate, exportProof, hc, coordinates, pubFields]

/-! ## The property -/

/-- C80. For every proof with a commitment and all public inputs without commas: splitting the exported string gives exactly 19 fields
and an empty rest; reading the first twelve with `Hex2BigInt` gives the coordinates of the proof in the verifier contract's
order; the other seven are the public inputs. -/
theorem C80_roundtrip (u : Pubs) (p : Proof) (c0 : ℕ × ℕ) (cs : List (ℕ × ℕ)) (hc : p.commitments = c0 :: cs)
    (hu : ∀ f ∈ pubFields u, 44 ∉ f) :
    ∃ s, generate u p = some s ∧ (split s).length = 20 ∧
      ((split s).take 12).map Hex.hex2BigInt = coordinates p c0 ∧
      ((split s).drop 12).take 7 = pubFields u ∧ (split s).drop 19 = [[]] := by
  refine ⟨_, generate_eq u p c0 cs hc, ?_⟩
  rw [split_fields]
  · have hl : ((coordinates p c0).map hexOf).length = 12 := rfl
    have hp : (pubFields u).length = 7 := rfl
    refine ⟨?_, ?_, ?_, ?_⟩
    · simp only [List.length_append, hl, hp, List.length_singleton]
    · rw [List.append_assoc, List.take_left' hl, List.map_map]
      have : Hex.hex2BigInt ∘ hexOf = id := funext hexOf_value
      rw [this, List.map_id]
    · rw [List.append_assoc, List.drop_left' hl, List.take_left' hp]
    · rw [List.drop_left' (by rw [List.length_append, hl, hp])]
  · intro f hf
    rcases List.mem_append.1 hf with hf | hf
    · obtain ⟨x, -, rfl⟩ := List.mem_map.1 hf
      exact hexOf_no_comma x
    · exact hu f hf

/-- C80. Equal exports come from equal proofs (first commitment) and equal public inputs. -/
theorem C80_injective (u u' : Pubs) (p p' : Proof) (c0 c0' : ℕ × ℕ) (cs cs' : List (ℕ × ℕ))
    (hc : p.commitments = c0 :: cs) (hc' : p'.commitments = c0' :: cs') (hu : ∀ f ∈ pubFields u, 44 ∉ f)
    (hu' : ∀ f ∈ pubFields u', 44 ∉ f) (h : generate u p = generate u' p') :
    u = u' ∧ p.ar = p'.ar ∧ p.bs = p'.bs ∧ p.krs = p'.krs ∧ c0 = c0' ∧ p.commitmentPok = p'.commitmentPok := by
  obtain ⟨s, h1, -, h2, h3, -⟩ := C80_roundtrip u p c0 cs hc hu
  obtain ⟨s', h1', -, h2', h3', -⟩ := C80_roundtrip u' p' c0' cs' hc' hu'
  rw [h1, h1', Option.some.injEq] at h
  subst h
  rw [h2] at h2'
  rw [h3] at h3'
  simp only [coordinates, List.cons.injEq, and_true] at h2'
  simp only [pubFields, List.cons.injEq, and_true] at h3'
  obtain ⟨a1, a2, b1, b2, b3, b4, k1, k2, d1, d2, e1, e2⟩ := h2'
  obtain ⟨q1, q2, q3, q4, q5, q6, q7⟩ := h3'
  refine ⟨?_, Prod.ext a1 a2, Prod.ext (Prod.ext b2 b1) (Prod.ext b4 b3), Prod.ext k1 k2, Prod.ext d1 d2, Prod.ext e1 e2⟩
  cases u; cases u'
  simp only at q1 q2 q3 q4 q5 q6 q7
  rw [q1, q4, q7]
  congr 1
  · exact Prod.ext q2 q3
  · exact Prod.ext q5 q6

/-! ## Where the expected property fails -/

/-- C80, disagreement. A proof of a circuit without commitments (a valid Groth16 proof) cannot be exported: the call panics. -/
theorem C80_no_commitment_panics (u : Pubs) (p : Proof) (h : p.commitments = []) : generate u p = none := by
  simp [generate, exportProof, h]

/-- C80, disagreement. Only the first commitment is exported: proofs that differ in the others have the same export. -/
theorem C80_other_commitments_lost (u : Pubs) (p : Proof) (c0 : ℕ × ℕ) (cs cs' : List (ℕ × ℕ))
    (hc : p.commitments = c0 :: cs) : generate u { p with commitments := c0 :: cs' } = generate u p := by
  simp [generate, exportProof, hc]

/-- C80, disagreement. Public inputs are not escaped: a comma moves the fields, so different inputs have the same export. -/
theorem C80_comma_ambiguous (p : Proof) (x y z : List ℕ) (r : List ℕ × List ℕ) (v w : List ℕ)
    (hr : r = (y ++ 44 :: z, v)) :
    generate ⟨w, r, w, (w, w), x⟩ p = generate ⟨w, (z, v), w, (w, w), x ++ 44 :: y⟩ p := by
  subst hr
  simp [generate]

/-- C80, disagreement. A coordinate 0 is written as `0x`, which is no hexadecimal number. -/
theorem C80_zero : hexOf 0 = [48, 120] := by simp [hexOf, natBytes, Hex.bytes2Hex0x, Hex.bytes2Hex]

/-! ## Non-vacuity -/

def sampleProof : Proof := ⟨(1, 2), ((3, 4), (500, 6)), (7, 8), [(9, 10), (13, 14)], (11, 0)⟩

def samplePubs : Pubs := ⟨[48, 120, 49], ([48], [49]), [50], ([51], [52]), [53]⟩

example : ∃ s, generate samplePubs sampleProof = some s ∧ ((split s).take 12).map Hex.hex2BigInt =
    [1, 2, 4, 3, 6, 500, 7, 8, 9, 10, 11, 0] := by
  obtain ⟨s, h1, -, h2, -⟩ := C80_roundtrip samplePubs sampleProof (9, 10) [(13, 14)] rfl (by decide)
  exact ⟨s, h1, h2⟩

/-- The two different inputs of `C80_comma_ambiguous`. -/
example : ((⟨[], ([1] ++ 44 :: [2], [3]), [], ([], []), [0]⟩ : Pubs).queryId) ≠
    ((⟨[], ([2], [3]), [], ([], []), [0] ++ 44 :: [1]⟩ : Pubs).queryId) := by decide

end Verif.AggExport
