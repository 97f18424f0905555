import Verif.Bls.PairingL

/-! # C53: the pairing gadget -/

namespace Verif.Bls
open Verif.Ec QuadraticAlgebra

attribute [local irreducible] q r E2.mulByNonResidueAt

/-- The reduced ate pairing of BLS12-381 with parameter `x = -0xd201000000010000`: `(1 / f_{|x|,Q}(P))^((q¹²-1)/r)`, with `f` computed
by Miller's algorithm (PairingSpec.lean) in `Fq12`, `Q` on the twist `y² = x³ + 4(1+u)` and `P = (px, py)`. -/
noncomputable def ate (px py : Fq) (Q : (curve (bTw Fq)).Point) : L :=
  (millerF (algebraMap (Fq2 Fq) L) (gen Fq) Q 0xd201000000010000 (inj L px) (inj L py))⁻¹ ^ ((q ^ 12 - 1) / r)

/-- The points given to the gadget: `Q` is the point of the twist with the coordinates `q`, and it is in the subgroup of order `r`. -/
def ValidPairs (D : List (Pr Fq)) : Prop := ∀ d ∈ D, IsPt (bTw Fq) d.q.x.val d.q.y.val d.Q ∧ r • d.Q = 0

theorem loop_lt_r : (0xd201000000010000 : ℕ) < r := by decide +kernel

theorem ValidPairs.input {D : List (Pr Fq)} (h : ValidPairs D) : Input D 0xd201000000010000 := by
  refine ⟨fun d hd => (h d hd).1, fun d hd j hj hle hz => ?_⟩
  obtain ⟨hp, hr⟩ := h d hd
  have hrp : r.Prime := fact_r.out
  have h1 : addOrderOf d.Q ∣ r := addOrderOf_dvd_of_nsmul_eq_zero hr
  have h2 : addOrderOf d.Q ∣ j := addOrderOf_dvd_of_nsmul_eq_zero hz
  rcases (Nat.dvd_prime hrp).1 h1 with e | e
  · exact hp.ne_zero (AddMonoid.addOrderOf_eq_one_iff.1 e)
  · rw [e] at h2
    exact absurd (Nat.le_of_dvd hj h2) (not_le.2 (lt_of_le_of_lt hle loop_lt_r))

theorem prod_ate (D : List (Pr Fq)) :
    (D.map fun d => ate d.p.x d.p.y d.Q).prod =
      ((D.map fun d => millerF (algebraMap (Fq2 Fq) L) (gen Fq) d.Q 0xd201000000010000 (inj L d.p.x) (inj L d.p.y)).prod)⁻¹ ^
        ((q ^ 12 - 1) / r) := by
  induction D with
  | nil => simp
  | cons d D ih =>
    rw [List.map_cons, List.prod_cons, List.map_cons, List.prod_cons, ih, mul_inv, mul_pow]
    rfl

theorem conj_final (res : E12 Fq) (c f : L) (hc : Half c) (hv : res.elt = c * f) :
    (E12.conjugate res).elt ^ ((q ^ 12 - 1) / r) = f⁻¹ ^ ((q ^ 12 - 1) / r) := by
  rw [E12.elt_conjugate, hv, mul_pow, mul_pow]
  have e1 : (c ^ q ^ 6) ^ ((q ^ 12 - 1) / r) = 1 := by
    rw [conj_killed c hc.1]
    exact (half_negl.inv c hc).killed
  rw [e1, one_mul]
  by_cases hf : f = 0
  · rw [hf, inv_zero]
    have : (0 : L) ^ q ^ 6 = 0 := zero_pow order_half.2.1.ne'
    rw [this]
  · exact conj_killed f hf

/-- **C53**, Miller loop: up to the final exponentiation it is the product of the inverses of the Miller functions. -/
theorem C53_miller (D : List (Pr Fq)) (hne : D ≠ []) (hD : ValidPairs D) :
    ∃ z, millerLoop (D.map Pr.p) (D.map Pr.q) = some z ∧
      z.elt ^ ((q ^ 12 - 1) / r) = (D.map fun d => ate d.p.x d.p.y d.Q).prod := by
  obtain ⟨res, h, c, hc, hv⟩ := millerLoop_spec two_ne gen_isGen half_negl D hne hD.input
  exact ⟨_, h, (conj_final res c _ hc hv).trans (prod_ate D).symm⟩

section
variable {K : Type} [Field K] [DecidableEq K]

theorem pair_eq (P : List (G1Affine K)) (Q : List (G2Affine K)) :
    pair P Q = (millerLoop P Q).bind E12.finalExponentiation := rfl

theorem millerLoop_lengths (P : List (G1Affine K)) (Q : List (G2Affine K)) (h : P = [] ∨ P.length ≠ Q.length) :
    millerLoop P Q = none := by
  unfold millerLoop
  rw [← List.length_eq_zero_iff] at h
  simp only [h, if_true]

theorem pair_nil (Q : List (G2Affine K)) : pair [] Q = none := by
  rw [pair_eq, millerLoop_lengths _ _ (.inl rfl)]
  rfl

end

/-- **C53**: what `Pair` returns is the cube of the product of the reduced ate pairings. -/
theorem C53_pair (D : List (Pr Fq)) (hD : ValidPairs D) (z : E12 Fq) (h : pair (D.map Pr.p) (D.map Pr.q) = some z) :
    z.elt = (D.map fun d => ate d.p.x d.p.y d.Q).prod ^ 3 := by
  have hne : D ≠ [] := by
    rintro rfl
    rw [List.map_nil, List.map_nil, pair_nil] at h
    exact absurd h (by simp)
  obtain ⟨m, hm, hv⟩ := C53_miller D hne hD
  rw [pair_eq, hm, Option.bind_some] at h
  obtain ⟨-, e, -⟩ := C52_sound m z h
  rw [e, mul_comm, pow_mul, hv]

/-- **C53**: the pairing check: `Pair` returns 1 only if the product of the reduced ate pairings is 1, and if it returns anything
else the product is not 1. -/
theorem C53_check (D : List (Pr Fq)) (hD : ValidPairs D) (z : E12 Fq) (h : pair (D.map Pr.p) (D.map Pr.q) = some z) :
    z = E12.one ↔ (D.map fun d => ate d.p.x d.p.y d.Q).prod = 1 := by
  have hne : D ≠ [] := by
    rintro rfl
    rw [List.map_nil, List.map_nil, pair_nil] at h
    exact absurd h (by simp)
  obtain ⟨m, hm, hv⟩ := C53_miller D hne hD
  rw [pair_eq, hm, Option.bind_some] at h
  obtain ⟨-, -, -, e⟩ := C52_sound m z h
  rw [e, hv]

end Verif.Bls
