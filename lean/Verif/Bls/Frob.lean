import Verif.Bls.Consts
import Mathlib.NumberTheory.LegendreSymbol.Basic
import Mathlib.Algebra.QuadraticAlgebra.NormDeterminant

/-! # The Frobenius maps -/

namespace Verif.Bls
open Polynomial QuadraticAlgebra

attribute [local irreducible] q

theorem fact_nonsquare : Fact (∀ r : Fq, r ^ 2 ≠ (-1 : Fq) + 0 * r) := by
  exact ⟨fun r => by simpa using Fq_not_square r⟩

instance fq2_charP : CharP (Fq2 Fq) q := charP_of_injective_algebraMap (algebraMap Fq (Fq2 Fq)).injective q

theorem fq2_decomp (x : Fq2 Fq) : x = algebraMap Fq (Fq2 Fq) x.re + algebraMap Fq (Fq2 Fq) x.im * ⟨0, 1⟩ := by
  ext <;> simp [algebraMap_re, algebraMap_im]

theorem u_pow_q : (⟨0, 1⟩ : Fq2 Fq) ^ q = ⟨0, -1⟩ := by
  have h2 : (⟨0, 1⟩ : Fq2 Fq) ^ 2 = -1 := by
    rw [pow_two]; ext <;> simp
  have e : q = 2 * (2 * (q / 4) + 1) + 1 := by decide +kernel
  have key : ∀ n k : ℕ, n = 2 * (2 * k + 1) + 1 → (⟨0, 1⟩ : Fq2 Fq) ^ n = ⟨0, -1⟩ := by
    intro n k hn
    rw [hn, pow_succ, pow_mul, h2, pow_succ, pow_mul]
    ext <;> simp
  exact key q _ e

/-- Raising to the power `q` is conjugation. -/
theorem fq2_pow_q (x : Fq2 Fq) : x ^ q = star x := by
  conv_lhs => rw [fq2_decomp x]
  rw [add_pow_char, mul_pow, ← map_pow, ← map_pow, Fq_pow, Fq_pow, u_pow_q]
  ext <;> simp [algebraMap_re, algebraMap_im]

theorem fq2_pow_q2 (x : Fq2 Fq) : x ^ q ^ 2 = x := by
  rw [pow_two, pow_mul, fq2_pow_q, fq2_pow_q, star_star]

variable {A : Type} [CommRing A] [Algebra (Fq2 Fq) A] {w : A}

local notation "ι" => algebraMap (Fq2 Fq) A

theorem E12.val_expand {K : Type} [Field K] {A : Type} [CommRing A] [Algebra (Fq2 K) A] (w : A) (x : E12 K) :
    x.val w = algebraMap (Fq2 K) A x.c0.b0.val + algebraMap (Fq2 K) A x.c1.b0.val * w
      + algebraMap (Fq2 K) A x.c0.b1.val * w ^ 2 + algebraMap (Fq2 K) A x.c1.b1.val * w ^ 3
      + algebraMap (Fq2 K) A x.c0.b2.val * w ^ 4 + algebraMap (Fq2 K) A x.c1.b2.val * w ^ 5 := by
  simp only [E12.val, E6.val]
  ring

theorem E2.val_mulByNonResidueAt (x : E2 Fq) (power : ℕ) (coef : ℤ) :
    (E2.mulByNonResidueAt x power coef).val = x.val * nr power coef := by
  simp only [E2.mulByNonResidueAt, E2.val_mul]
  rfl

theorem gen_pow_q (hw : IsGen Fq w) : w ^ q = ι (nr 1 1) * w := by
  have e : q = 6 * ((q - 1) / 6) + 1 := by decide +kernel
  have key : ∀ n k : ℕ, n = 6 * k + 1 → w ^ n = ι (ξ ^ k) * w := by
    intro n k hn
    rw [hn, pow_succ, pow_mul, hw, map_pow]
  rw [nr11]
  exact key q _ e

theorem algebraMap_pow_q (y : Fq2 Fq) : (ι y) ^ q = ι (star y) := by
  rw [← map_pow, fq2_pow_q]

theorem gen_pow_q2 (hw : IsGen Fq w) : w ^ q ^ 2 = ι (nr 2 1) * w := by
  rw [pow_two, pow_mul, gen_pow_q hw, mul_pow, algebraMap_pow_q, gen_pow_q hw, nr21, map_mul]
  ring

/-- `Frobenius` is the power `q`. -/
theorem E12.val_frobenius [CharP A q] (hw : IsGen Fq w) (x : E12 Fq) : (E12.frobenius x).val w = x.val w ^ q := by
  have key : ∀ φ : A →+* A, (∀ y, φ (ι y) = ι (star y)) → φ w = ι (nr 1 1) * w →
      (E12.frobenius x).val w = φ (x.val w) := by
    intro φ h1 h2
    rw [E12.val_expand, E12.val_expand]
    simp only [map_add, map_mul, map_pow, h1, h2]
    simp only [E12.frobenius, E2.mulByNonResidue1Power1, E2.mulByNonResidue1Power2, E2.mulByNonResidue1Power3,
      E2.mulByNonResidue1Power4, E2.mulByNonResidue1Power5, E2.val_mulByNonResidueAt, E2.val_conjugate, nr12, nr13, nr14,
      nr15, map_mul, map_pow]
    ring
  exact key (_root_.frobenius A q) algebraMap_pow_q (gen_pow_q hw)

theorem E12.val_frobeniusSquare_eval (x : E12 Fq) : (E12.frobeniusSquare x).val w = x.val (ι (nr 2 1) * w) := by
  have key : ∀ (z : Fq2 Fq) (y01 y02 y10 y11 y12 : E2 Fq), y01.val = x.c0.b1.val * z ^ 2 → y02.val = x.c0.b2.val * z ^ 4 →
      y10.val = x.c1.b0.val * z → y11.val = x.c1.b1.val * z ^ 3 → y12.val = x.c1.b2.val * z ^ 5 →
      (⟨⟨x.c0.b0, y01, y02⟩, ⟨y10, y11, y12⟩⟩ : E12 Fq).val w = x.val (ι z * w) := by
    intro z y01 y02 y10 y11 y12 h1 h2 h3 h4 h5
    rw [E12.val_expand, E12.val_expand]
    simp only [h1, h2, h3, h4, h5, map_mul, map_pow]
    ring
  refine key (nr 2 1) _ _ _ _ _ ?_ ?_ ?_ ?_ ?_
  · rw [← nr22]; exact E2.val_mulByNonResidueAt _ _ _
  · rw [← nr24]; exact E2.val_mulByNonResidueAt _ _ _
  · exact E2.val_mulByNonResidueAt _ _ _
  · rw [← nr23]; exact E2.val_mulByNonResidueAt _ _ _
  · rw [← nr25]; exact E2.val_mulByNonResidueAt _ _ _

theorem E12.val_conjugate_eval {K : Type} [Field K] [DecidableEq K] {A : Type} [CommRing A] [Algebra (Fq2 K) A] (w : A) (x : E12 K) :
    (E12.conjugate x).val w = x.val (-w) := by
  rw [E12.val_conjugate]
  simp only [E12.val, E6.val]
  ring

theorem E12.val_pow_q2 [CharP A q] (x : E12 Fq) : x.val w ^ q ^ 2 = x.val (w ^ q ^ 2) := by
  have key : ∀ φ : A →+* A, (∀ y, φ (ι y) = ι y) → φ (x.val w) = x.val (φ w) := by
    intro φ h1
    rw [E12.val_expand, E12.val_expand]
    simp only [map_add, map_mul, map_pow, h1]
  exact key (iterateFrobenius A q 2) fun y => by rw [iterateFrobenius_def, ← map_pow, fq2_pow_q2]

/-- `FrobeniusSquare` is the power `q²`. -/
theorem E12.val_frobeniusSquare [CharP A q] (hw : IsGen Fq w) (x : E12 Fq) :
    (E12.frobeniusSquare x).val w = x.val w ^ q ^ 2 := by
  rw [E12.val_pow_q2, gen_pow_q2 hw, E12.val_frobeniusSquare_eval]

theorem pow_six (n : ℕ) (y : A) : y ^ n ^ 6 = ((y ^ n ^ 2) ^ n ^ 2) ^ n ^ 2 := by
  rw [← pow_mul, ← pow_mul]
  congr 1
  ring

theorem nr2_cube' : nr 2 1 * nr 2 1 * nr 2 1 = -1 := by
  rw [← nr2_cube]
  generalize nr 2 1 = z
  ring

/-- `Conjugate` is the power `q⁶`. -/
theorem E12.val_conjugate_pow [CharP A q] (hw : IsGen Fq w) (x : E12 Fq) :
    (E12.conjugate x).val w = x.val w ^ q ^ 6 := by
  have key : ∀ φ : A →+* A, (∀ y, φ (ι y) = ι y) → φ w = ι (nr 2 1) * w →
      (E12.conjugate x).val w = φ (φ (φ (x.val w))) := by
    intro φ h1 h2
    have h : ∀ z, φ (x.val (ι z * w)) = x.val (ι (z * nr 2 1) * w) := by
      intro z
      rw [E12.val_expand, E12.val_expand]
      simp only [map_add, map_mul, map_pow, h1, h2, mul_assoc]
    have h' : φ (x.val w) = x.val (ι (nr 2 1) * w) := by
      have := h 1
      rwa [map_one, one_mul, one_mul] at this
    rw [h', h, h, nr2_cube', E12.val_conjugate_eval, map_neg, map_one, neg_one_mul]
  rw [pow_six q]
  exact key (iterateFrobenius A q 2) (fun y => by rw [iterateFrobenius_def, ← map_pow, fq2_pow_q2])
    (by rw [iterateFrobenius_def, gen_pow_q2 hw])

/-- The circuit's `FrobeniusCube` computes the same function as `Frobenius`. -/
theorem E12.frobeniusCube_eq (x : E12 Fq) : E12.frobeniusCube x = E12.frobenius x := rfl

end Verif.Bls
