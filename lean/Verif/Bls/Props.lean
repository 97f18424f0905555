import Verif.Bls.FinalExpProps
import Verif.Bls.Fields

/-! # C42, C50, C51, C52: the BLS12-381 tower, Frobenius maps, cyclotomic arithmetic, final exponentiation -/

namespace Verif.Bls
open Polynomial QuadraticAlgebra

attribute [local irreducible] q r E2.mulByNonResidueAt

/-! ## C42: the tower -/

section tower
variable {K : Type} [Field K] [DecidableEq K]

/-- **C42**, quadratic layer: the records of two base-field elements are `K[u]/(u²+1)`, bijectively, and every gadget
computes the operation of its name there; `Inverse` returns only inverses. -/
theorem C42_fq2 (x y : E2 K) (c : K) :
    Function.Bijective (E2.val : E2 K → Fq2 K) ∧
    (E2.add x y).val = x.val + y.val ∧ (E2.sub x y).val = x.val - y.val ∧ (E2.neg x).val = -x.val ∧
    (E2.double x).val = 2 * x.val ∧ (E2.mul x y).val = x.val * y.val ∧ (E2.square x).val = x.val ^ 2 ∧
    (E2.mulByElement x c).val = c • x.val ∧ (E2.conjugate x).val = star x.val ∧
    (E2.mulByNonResidue x).val = x.val * (1 + ⟨0, 1⟩) ∧
    (E2.mulBybTwistCurveCoeff x).val = x.val * (4 * (1 + ⟨0, 1⟩)) ∧
    (E2.one : E2 K).val = 1 ∧ (E2.zero : E2 K).val = 0 ∧
    (∀ z, E2.inverse x = some z → x.val * z.val = 1) ∧
    (∀ z, E2.div x y = some z → z.val * y.val = x.val) := by
  have hx : (ξ : Fq2 K) = 1 + ⟨0, 1⟩ := by
    ext <;> simp [ξ]
  refine ⟨⟨fun a b h => E2.val_inj.1 h, E2.val_surj⟩, E2.val_add x y, E2.val_sub x y, E2.val_neg x, ?_, E2.val_mul x y, ?_,
    E2.val_mulByElement x c, E2.val_conjugate x, ?_, ?_, E2.val_one, E2.val_zero, fun z h => E2.inverse_spec h, ?_⟩
  · rw [E2.val_double]; ring
  · rw [E2.val_square]; ring
  · rw [E2.val_mulByNonResidue, hx]
  · rw [E2.val_mulBybTwistCurveCoeff, hx]
  · intro z h
    unfold E2.div at h
    obtain ⟨i, hi, h⟩ := Option.bind_eq_some_iff.1 h
    have hs := E2.inverse_spec hi
    have e : z = E2.mul x i := (Option.some.inj h).symm
    rw [e, E2.val_mul]
    calc x.val * i.val * y.val = x.val * (y.val * i.val) := by ring
      _ = x.val := by rw [hs, mul_one]

/-- **C42**, cubic layer: in every commutative `Fq2`-algebra with an element `v` satisfying `v³ = ξ`, the gadgets on
triples compute the operations on `b0 + b1 v + b2 v²`. -/
theorem C42_fq6 {A : Type} [CommRing A] [Algebra (Fq2 K) A] (v : A) (hv : v ^ 3 = algebraMap (Fq2 K) A ξ) (x y : E6 K)
    (c d : E2 K) :
    (E6.add x y).val v = x.val v + y.val v ∧ (E6.sub x y).val v = x.val v - y.val v ∧ (E6.neg x).val v = -x.val v ∧
    (E6.double x).val v = 2 * x.val v ∧ (E6.mul x y).val v = x.val v * y.val v ∧ (E6.square x).val v = x.val v ^ 2 ∧
    (E6.mulByNonResidue x).val v = x.val v * v ∧
    (E6.mulByE2 x c).val v = x.val v * algebraMap (Fq2 K) A c.val ∧
    (E6.mulBy1 x c).val v = x.val v * (algebraMap (Fq2 K) A c.val * v) ∧
    (E6.mulBy01 x c d).val v = x.val v * (algebraMap (Fq2 K) A c.val + algebraMap (Fq2 K) A d.val * v) ∧
    (∀ z, E6.inverse x = some z → x.val v * z.val v = 1) := by
  refine ⟨E6.val_add v x y, E6.val_sub v x y, E6.val_neg v x, ?_, E6.val_mul hv x y, ?_, E6.val_mulByNonResidue hv x,
    E6.val_mulByE2 x c, E6.val_mulBy1 hv x c, E6.val_mulBy01 hv x c d, fun z h => E6.inverse_spec hv h⟩
  · rw [E6.val_double]; ring
  · rw [E6.val_square hv]; ring

/-- **C42**, top layer: the pairs of triples are exactly `Fq2[w]/(w⁶ - ξ)` (with `v = w²`), bijectively, and the gadgets,
including the sparse products of the Miller loop, compute the operations of that ring. -/
theorem C42_fq12 (x y : E12 K) (a b c a' b' c' : E2 K) :
    let elt : E12 K → Fq12 K := fun x => x.val (gen K)
    let co : E2 K → Fq12 K := fun x => algebraMap (Fq2 K) (Fq12 K) x.val
    let w : Fq12 K := gen K
    w ^ 6 = algebraMap (Fq2 K) (Fq12 K) ξ ∧ Function.Bijective elt ∧
    elt (E12.mul x y) = elt x * elt y ∧ elt (E12.square x) = elt x ^ 2 ∧ elt E12.one = 1 ∧
    elt (E12.conjugate x) = x.c0.val (w ^ 2) - x.c1.val (w ^ 2) * w ∧
    elt (E12.mulBy034 x a b c) = elt x * (co a + co b * w + co c * w ^ 3) ∧
    elt (E12.mulBy014 x a b c) = elt x * (co a + co b * w ^ 2 + co c * w ^ 3) ∧
    elt (E12.mulBy034by034 a b c a' b' c') = (co a + co b * w + co c * w ^ 3) * (co a' + co b' * w + co c' * w ^ 3) ∧
    elt (E12.mul014By014 a b c a' b' c') =
      (co a + co b * w ^ 2 + co c * w ^ 3) * (co a' + co b' * w ^ 2 + co c' * w ^ 3) ∧
    (∀ z, E12.inverse x = some z → elt x * elt z = 1) := by
  intro elt co w
  have hw : IsGen K w := gen_isGen
  refine ⟨hw, ⟨E12.val_gen_injective, E12.val_gen_surjective⟩, E12.val_mul hw x y, ?_, ?_, E12.val_conjugate w x,
    E12.val_mulBy034 hw x a b c, E12.val_mulBy014 hw x a b c, E12.val_mulBy034by034 hw a b c a' b' c',
    E12.val_mul014By014 hw a b c a' b' c', fun z h => E12.inverse_spec hw h⟩
  · show (E12.square x).val w = (x.val w) ^ 2
    rw [E12.val_square hw]; ring
  · show (E12.one : E12 K).val w = 1
    rw [E12.val_expand]
    have o0 : (E12.one : E12 K) = ⟨⟨E2.one, E2.zero, E2.zero⟩, ⟨E2.zero, E2.zero, E2.zero⟩⟩ := rfl
    rw [o0]
    simp only [E2.val_zero, E2.val_one, map_zero, zero_mul, add_zero, map_one]

end tower

/-- **C42** for the actual modulus: the quotient ring is a field, and `Inverse` is satisfiable exactly on nonzero
elements, at each layer. -/
theorem C42_inverse_complete :
    Irreducible (X ^ 6 - C (ξ : Fq2 Fq)) ∧ (∀ l : L, l ≠ 0 → ∃ m, l * m = 1) ∧
    (∀ x : E2 Fq, E2.inverse x = none ↔ x.val = 0) ∧
    (∀ x : E6 Fq, E6.inverse x = none → x.val (gen Fq ^ 2) = (0 : L)) ∧
    (∀ x : E12 Fq, E12.inverse x = none ↔ x.elt = 0) :=
  ⟨sextic_irreducible, L_exists_inv, E2.inverse_none_iff, fun _ h => E6.inverse_none' h, E12.inverse_none_iff⟩

theorem E2.halve_eq {K : Type} [Field K] [DecidableEq K] (x : E2 K) (h2 : (2 : K) ≠ 0) :
    E2.halve x = some ⟨x.a0 / 2, x.a1 / 2⟩ := by
  unfold E2.halve fpDiv
  simp only [one_mul, h2, if_false]
  rfl

theorem inv_alg {K : Type} [Field K] (a b : K) (n : Fq2 K) (hn : n * (1 + 1) = 1) :
    (⟨a + b, b - a⟩ : Fq2 K) * n * ξ = ⟨a, b⟩ := by
  have : (⟨a + b, b - a⟩ : Fq2 K) * ξ = ⟨a, b⟩ * (1 + 1) := by
    ext <;> simp [ξ] <;> ring
  calc (⟨a + b, b - a⟩ : Fq2 K) * n * ξ = (⟨a + b, b - a⟩ : Fq2 K) * ξ * n := by ring
    _ = ⟨a, b⟩ := by rw [this, mul_assoc, mul_comm _ n, hn, mul_one]

/-- **C42**: halving and multiplication by the inverse of the non-residue. -/
theorem C42_halve_nonresidueInv (x : E2 Fq) :
    (∃ z, E2.halve x = some z ∧ z.val + z.val = x.val) ∧ (E2.mulByNonResidueInv x).val * ξ = x.val := by
  constructor
  · refine ⟨⟨x.a0 / 2, x.a1 / 2⟩, E2.halve_eq x two_ne, ?_⟩
    have h2 := two_ne
    have k : ∀ a : Fq, a / 2 + a / 2 = a := fun a => by rw [← two_mul, mul_div_cancel₀ a h2]
    exact QuadraticAlgebra.ext (k _) (k _)
  · have e : (E2.mulByNonResidueInv x).val = ⟨x.a0 + x.a1, x.a1 - x.a0⟩ * nr 0 (-1) :=
      E2.val_mulByNonResidueAt ⟨x.a0 + x.a1, x.a1 - x.a0⟩ 0 (-1)
    rw [e]
    exact inv_alg _ _ _ nr0m1

end Verif.Bls
