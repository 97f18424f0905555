import Verif.Bls.SampleVec
import Verif.Bls.PairInf
import Verif.Bls.PairExample

/-! # C88: the sample circuits around the pairing and the hash to the curve -/

namespace Verif.Bls
open RFC Verif.Ec Verif.Api QuadraticAlgebra

/-! ## The equality assertions -/

theorem E2.assertIsEqual_iff (x y : E2 Fq) : E2.assertIsEqual x y ↔ x = y :=
  ⟨fun ⟨h, k⟩ => E2.ext h k, by rintro rfl; exact ⟨rfl, rfl⟩⟩

theorem E6.assertIsEqual_iff (x y : E6 Fq) : E6.assertIsEqual x y ↔ x = y := by
  unfold E6.assertIsEqual
  rw [E2.assertIsEqual_iff, E2.assertIsEqual_iff, E2.assertIsEqual_iff]
  exact ⟨fun ⟨h, k, l⟩ => E6.ext h k l, by rintro rfl; exact ⟨rfl, rfl, rfl⟩⟩

/-- **C88**: the equality assertion of the target field holds exactly for equal elements; the assertion about the first half does not
look at the second one. -/
theorem C88_assert (x y : E12 Fq) :
    (E12.assertIsEqual x y ↔ x.elt = y.elt) ∧ (E12.assertC0IsEqual x y ↔ x.c0 = y.c0) := by
  constructor
  · rw [E12.elt_inj]
    unfold E12.assertIsEqual
    rw [E6.assertIsEqual_iff, E6.assertIsEqual_iff]
    exact ⟨fun ⟨h, k⟩ => E12.ext h k, by rintro rfl; exact ⟨rfl, rfl⟩⟩
  · unfold E12.assertC0IsEqual
    rw [E6.assertIsEqual_iff]

/-- **C88**, `AssertC0IsEqual` accepts different elements. -/
theorem C88_assertC0_fails (x : E12 Fq) : ∃ y, y.elt ≠ x.elt ∧ E12.assertC0IsEqual x y := by
  by_cases h : x.c1 = ⟨E2.zero, E2.zero, E2.zero⟩
  · refine ⟨⟨x.c0, ⟨E2.one, E2.zero, E2.zero⟩⟩, ?_, (C88_assert _ _).2.2 rfl⟩
    rw [Ne, E12.elt_inj]
    intro e
    have e1 := congrArg E12.c1 e
    rw [h] at e1
    have e2 : (E2.one : E2 Fq) = E2.zero := congrArg E6.b0 e1
    have e3 := congrArg E2.val e2
    rw [E2.val_one, E2.val_zero] at e3
    exact one_ne_zero e3
  · refine ⟨⟨x.c0, ⟨E2.zero, E2.zero, E2.zero⟩⟩, ?_, (C88_assert _ _).2.2 rfl⟩
    rw [Ne, E12.elt_inj]
    intro e
    exact h (congrArg E12.c1 e).symm

/-! ## The pairing circuits -/

theorem pairCircuit_iff (g1 : G1Affine Fq) (g2 : G2Affine Fq) (res : E12 Fq) :
    pairCircuit g1 g2 res ↔ pair [g1] [g2] = some res := by
  unfold pairCircuit
  constructor
  · rintro ⟨z, hz, he⟩
    rw [← E12.elt_inj.1 ((C88_assert z res).1.1 he)]
    exact hz
  · exact fun h => ⟨res, h, (C88_assert res res).1.2 rfl⟩

/-- **C88**, `PairCircuit`: for a point `Q` of the subgroup of order `r` of the twist, and any coordinates of the first point, the circuit
accepts exactly one third input, the cube of the reduced ate pairing, or none. -/
theorem C88_pair (g1 : G1Affine Fq) (g2 : G2Affine Fq) (Q : (curve (bTw Fq)).Point) (hQ : IsPt (bTw Fq) g2.x.val g2.y.val Q)
    (hr : r • Q = 0) (res : E12 Fq) :
    pairCircuit g1 g2 res ↔ res.elt = ate g1.x g1.y Q ^ 3 ∧ pair [g1] [g2] ≠ none := by
  have hV : ValidPairs [⟨g1, g2, Q⟩] := by
    intro d hd
    rw [List.mem_singleton] at hd
    subst hd
    exact ⟨hQ, hr⟩
  have key : ∀ z, pair [g1] [g2] = some z → z.elt = ate g1.x g1.y Q ^ 3 := by
    intro z hz
    have := C53_pair [⟨g1, g2, Q⟩] hV z hz
    rwa [List.map_cons, List.map_nil, List.prod_cons, List.prod_nil, mul_one] at this
  rw [pairCircuit_iff]
  constructor
  · intro h
    exact ⟨key res h, by rw [h]; exact Option.some_ne_none _⟩
  · rintro ⟨he, hn⟩
    obtain ⟨z, hz⟩ := Option.ne_none_iff_exists'.1 hn
    rw [hz, E12.elt_inj.1 ((key z hz).trans he.symm)]

/-- **C88**, the part that fails: where the second point is the point at infinity, or the first one is, the pairing is 1 but the
circuit accepts nothing. -/
theorem C88_pair_infinity_fails (g1 : G1Affine Fq) (g2 : G2Affine Fq) (res : E12 Fq) :
    ¬ pairCircuit g1 ⟨E2.zero, E2.zero⟩ res ∧ ¬ pairCircuit ⟨0, 0⟩ g2 res := by
  rw [pairCircuit_iff, pairCircuit_iff, C53_infinity_G2_fails _ _ (List.mem_singleton.2 rfl),
    C53_infinity_G1_fails [⟨0, 0⟩] [g2] (by intro p hp; exact List.mem_singleton.1 hp)]
  exact ⟨by simp, by simp⟩

/-- **C88**, `FinalExponentiationCircuit`: an accepted result is the power `3 (q¹² - 1)/r` of a nonzero input, an `r`-th root of unity. -/
theorem C88_finalExp (e res : E12 Fq) (h : finalExpCircuit e res) :
    e.elt ≠ 0 ∧ res.elt = e.elt ^ (3 * ((q ^ 12 - 1) / r)) ∧ res.elt ^ r = 1 := by
  obtain ⟨z, hz, he⟩ := h
  obtain ⟨h1, h2, h3, -⟩ := C52_sound e z hz
  rw [(C88_assert z res).1.1 he] at h2 h3
  exact ⟨h1, h2, h3⟩

/-- **C88**, `FinalExponentiationCircuit` fails to accept the right result 1 for elements of the subfield. -/
theorem C88_finalExp_subfield_fails (e res : E12 Fq) (h : e.c1 = ⟨E2.zero, E2.zero, E2.zero⟩) : ¬ finalExpCircuit e res := by
  rintro ⟨z, hz, -⟩
  rw [(C52_subfield_fails e h).1] at hz
  exact absurd hz (by simp)

/-- **C88**, `MillerLoopCircuit`: for a point of the subgroup the circuit accepts exactly one result, and its power `(q¹² - 1)/r` is the
reduced ate pairing. -/
theorem C88_millerLoop (g1 : G1Affine Fq) (g2 : G2Affine Fq) (Q : (curve (bTw Fq)).Point) (hQ : IsPt (bTw Fq) g2.x.val g2.y.val Q)
    (hr : r • Q = 0) : ∃ z, (∀ res, millerLoopCircuit g1 g2 res ↔ res = z) ∧ z.elt ^ ((q ^ 12 - 1) / r) = ate g1.x g1.y Q := by
  have hV : ValidPairs [⟨g1, g2, Q⟩] := by
    intro d hd
    rw [List.mem_singleton] at hd
    subst hd
    exact ⟨hQ, hr⟩
  obtain ⟨z, hz, hv⟩ := C53_miller [⟨g1, g2, Q⟩] (by simp) hV
  rw [List.map_cons, List.map_nil, List.prod_cons, List.prod_nil, mul_one] at hv
  refine ⟨z, fun res => ?_, hv⟩
  have hz' : millerLoop [g1] [g2] = some z := hz
  unfold millerLoopCircuit
  constructor
  · rintro ⟨y, hy, he⟩
    rw [hz'] at hy
    rw [Option.some.inj hy]
    exact (E12.elt_inj.1 ((C88_assert y res).1.1 he)).symm
  · rintro rfl
    exact ⟨_, hz', (C88_assert _ _).1.2 rfl⟩

/-- The generators meet the hypotheses, and the circuit accepts a third input for them, which is not 1. -/
theorem C88_pair_example : ∃ Q res, IsPt (bTw Fq) g2.x.val g2.y.val Q ∧ r • Q = 0 ∧ pairCircuit g1 g2 res ∧ res ≠ E12.one := by
  obtain ⟨Q, -, hQ, hr, -⟩ := g2Points
  obtain ⟨z, hz⟩ := Option.ne_none_iff_exists'.1 pair_one.1
  refine ⟨Q, z, hQ, hr, (pairCircuit_iff _ _ _).2 hz, ?_⟩
  rintro rfl
  exact pair_one.2 hz

theorem offCurve_num : pair [⟨1, 1⟩] [g2] ≠ none ∧ (1 : Fq) ^ 2 ≠ 1 ^ 3 + 4 := by decide +kernel

/-- **C88**, the part that fails: `InG1` need not be a point of the curve `y² = x³ + 4`; the circuit accepts `(1, 1)`. -/
theorem C88_pair_off_curve_fails : ∃ res, pairCircuit ⟨1, 1⟩ g2 res ∧ (1 : Fq) ^ 2 ≠ 1 ^ 3 + 4 := by
  obtain ⟨z, hz⟩ := Option.ne_none_iff_exists'.1 offCurve_num.1
  exact ⟨z, (pairCircuit_iff _ _ _).2 hz, offCurve_num.2⟩

/-! ## The hash circuits -/

section
variable {p : ℕ} [Fact (1 < p)]

theorem hashCircuit_iff (msg : Fin 32 → F p) : hashCircuit msg ↔ encodeToG2OnJac msg ⟨expectedX, expectedY⟩ := by
  unfold hashCircuit
  constructor
  · rintro ⟨⟨x, y⟩, hz, h1, h2⟩
    rw [(E2.assertIsEqual_iff _ _).1 h1, (E2.assertIsEqual_iff _ _).1 h2]
    exact hz
  · exact fun h => ⟨_, h, (E2.assertIsEqual_iff _ _).2 rfl, (E2.assertIsEqual_iff _ _).2 rfl⟩

/-- **C88**, the circuits of hash2curve_test.go relate a message to what `EncodeToG2` and `HashToG2` return, nothing else. -/
theorem C88_tests (inG2 : G2Affine Fq) (msg : Fin 32 → F p) :
    (encodeTestCircuit inG2 msg ↔ encodeToG2 msg inG2) ∧ (hashTestCircuit inG2 msg ↔ hashToG2 msg inG2) := by
  have key : ∀ R : G2Affine Fq → Prop, (∃ z, R z ∧ E2.assertIsEqual inG2.x z.x ∧ E2.assertIsEqual inG2.y z.y) ↔ R inG2 := by
    intro R
    constructor
    · rintro ⟨⟨x, y⟩, hz, h1, h2⟩
      have e : inG2 = ⟨x, y⟩ := by
        rw [G2Affine.ext_iff]
        exact ⟨(E2.assertIsEqual_iff _ _).1 h1, (E2.assertIsEqual_iff _ _).1 h2⟩
      rw [e]
      exact hz
    · exact fun h => ⟨_, h, (E2.assertIsEqual_iff _ _).2 rfl, (E2.assertIsEqual_iff _ _).2 rfl⟩
  exact ⟨key _, key _⟩

/-- `msg` is assigned the bytes of `signingRoot`. -/
def IsRoot (msg : Fin 32 → F p) : Prop := ∀ i, (msg i).val = signingRoot.getD i.val 0

theorem root_lt : ∀ i : Fin 32, signingRoot.getD i.val 0 < 256 := by decide

theorem root_bytes {msg : Fin 32 → F p} (h : IsRoot msg) : msgBytes msg = rootBytes := by
  have e : rootBytes = List.ofFn fun i : Fin 32 => BitVec.ofNat 8 (signingRoot.getD i.val 0) := by decide +kernel
  rw [e]
  unfold msgBytes Verif.Sha.byteOf
  exact congrArg List.ofFn (funext fun i => by rw [h i])

/-- **C88**, `Bls12381Hash2CurveCircuit` of main/main.go: assigned the bytes of `signingRoot`, as `doHash2Curve` does, it is satisfiable; and
the point it compares with is `encode_to_curve(signingRoot)` of RFC 9380. -/
theorem C88_hash (hp : 2 ^ 68 < p) (msg : Fin 32 → F p) (h : IsRoot msg) :
    hashCircuit msg ∧ ∃ P, EncodeToCurve (msgBytes msg) P ∧ IsPt (bTw Fq) expectedX.val expectedY.val P := by
  have hm : ∀ i, (msg i).val < 256 := fun i => by rw [h i]; exact root_lt i
  have hb := root_bytes h
  obtain ⟨P, hP, hX⟩ := vec_encode
  refine ⟨?_, P, by rwa [hb], hX⟩
  obtain ⟨z, hz, hA⟩ := C60_encode_jac_complete hp msg hm (by
    rw [hb, vec_field]
    intro u hu
    rw [List.mem_singleton.1 hu]
    exact vec_den_ne) P (by rwa [hb]) hX.ne_zero
  rw [hashCircuit_iff]
  obtain ⟨e1, e2⟩ := IsPt.inj hA hX
  have e : z = ⟨expectedX, expectedY⟩ := by
    rw [G2Affine.ext_iff]
    exact ⟨E2.val_inj.1 e1, E2.val_inj.1 e2⟩
  rwa [← e]

/-- The hypotheses are met over the scalar field of BN254, for which main/main.go compiles the circuit. -/
theorem C88_hash_example : ∃ (_ : Fact (1 < bn254r)) (msg : Fin 32 → F bn254r), 2 ^ 68 < bn254r ∧ IsRoot msg := by
  have hp : 2 ^ 68 < bn254r := by decide +kernel
  refine ⟨⟨by decide +kernel⟩, fun i => ((signingRoot.getD i.val 0 : ℕ) : F bn254r), hp, fun i => ?_⟩
  exact ZMod.val_natCast_of_lt (lt_trans (root_lt i) (lt_trans (by norm_num) hp))

/-- **C88**, every satisfying assignment of the sample circuit, partial: if the mapped point lies on the twist and meets no exceptional
case, the expected point is `clear_cofactor(P0)` or `clear_cofactor(-P0)` for the point `P0` to which the RFC maps the message.
Missing: the sign and the two conditions, which the code does not ensure (`C57_map_fails`, `C60_hash_fails`). -/
theorem C88_hash_sound_partial (hp : 2 ^ 68 < p) (msg : Fin 32 → F p) (h : hashCircuit msg) :
    (∀ i, (msg i).val < 256) ∧
    ∃ u0, RFC.hashToField (msgBytes msg) 1 = [u0.val] ∧ (∃ q0, mapIso u0 q0 ∧ encTailJac q0 ⟨expectedX, expectedY⟩) ∧
      ∀ q0, mapIso u0 q0 → encTailJac q0 ⟨expectedX, expectedY⟩ → ∀ P0 Q0, MapTo u0.val P0 → AR q0 Q0 → CofGeneric Q0 →
        IsPt (bTw Fq) expectedX.val expectedY.val (clearCofactorRFC P0) ∨
        IsPt (bTw Fq) expectedX.val expectedY.val (clearCofactorRFC (-P0)) := by
  rw [hashCircuit_iff] at h
  have hm : ∀ i, (msg i).val < 256 := by
    intro i
    by_contra hn
    obtain ⟨e, he, -⟩ := h
    have he' : hashToField msg 2 = some e := he
    rw [C59_rejects msg ⟨i, by omega⟩] at he'
    exact absurd he' (by simp)
  refine ⟨hm, ?_⟩
  obtain ⟨u0, h1, h2, -, h3⟩ := C60_encode_partial hp msg hm
  refine ⟨u0, h1, (h2 _).1 h, fun q0 k0 kt P0 Q0 m0 a0 hg => ?_⟩
  obtain ⟨e, hA⟩ := (h3 q0 _ P0 Q0 k0 m0 a0).1 kt hg
  rcases e with rfl | rfl
  · exact Or.inl hA
  · exact Or.inr hA

end

end Verif.Bls
