import Verif.Bls.Spec
import Mathlib.Tactic.LinearCombination
import Mathlib.Tactic.Ring

namespace Verif.Bls
open Polynomial QuadraticAlgebra

set_option linter.unusedSectionVars false
variable {K : Type} [Field K] [DecidableEq K]

/-! ## Fq2 -/

theorem E2.val_inj {x y : E2 K} : x.val = y.val ↔ x = y := by
  constructor
  · intro h
    have h0 := congrArg QuadraticAlgebra.re h
    have h1 := congrArg QuadraticAlgebra.im h
    exact E2.ext h0 h1
  · rintro rfl; rfl

theorem E2.val_surj (z : Fq2 K) : ∃ x : E2 K, x.val = z := ⟨⟨z.re, z.im⟩, rfl⟩

@[simp] theorem E2.val_add (x y : E2 K) : (E2.add x y).val = x.val + y.val := by
  ext <;> simp [E2.add, E2.val]

@[simp] theorem E2.val_sub (x y : E2 K) : (E2.sub x y).val = x.val - y.val := by
  ext <;> simp [E2.sub, E2.val]

@[simp] theorem E2.val_neg (x : E2 K) : (E2.neg x).val = -x.val := by
  ext <;> simp [E2.neg, E2.val]

@[simp] theorem E2.val_mul (x y : E2 K) : (E2.mul x y).val = x.val * y.val := by
  ext <;> simp [E2.mul, E2.val] <;> ring

@[simp] theorem E2.val_square (x : E2 K) : (E2.square x).val = x.val * x.val := by
  ext <;> simp [E2.square, E2.val] <;> ring

@[simp] theorem E2.val_double (x : E2 K) : (E2.double x).val = x.val + x.val := by
  ext <;> simp [E2.double, E2.val] <;> ring

@[simp] theorem E2.val_one : (E2.one : E2 K).val = 1 := by
  ext <;> simp [E2.one, E2.val]

@[simp] theorem E2.val_zero : (E2.zero : E2 K).val = 0 := by
  ext <;> simp [E2.zero, E2.val]

@[simp] theorem E2.val_conjugate (x : E2 K) : (E2.conjugate x).val = star x.val := by
  ext <;> simp [E2.conjugate, E2.val]

@[simp] theorem E2.val_mulByElement (x : E2 K) (y : K) : (E2.mulByElement x y).val = y • x.val := by
  ext <;> simp [E2.mulByElement, E2.val, mul_comm]

@[simp] theorem E2.val_mulByNonResidue (x : E2 K) : (E2.mulByNonResidue x).val = x.val * ξ := by
  ext <;> simp [E2.mulByNonResidue, E2.mulByNonResidueAt, nonResidue, ξ, E2.val, E2.mul] <;> ring

@[simp] theorem E2.val_mulBybTwistCurveCoeff (x : E2 K) : (E2.mulBybTwistCurveCoeff x).val = x.val * (4 * ξ) := by
  have h4 : (4 : Fq2 K) = 1 + 1 + 1 + 1 := by norm_num
  rw [h4]
  ext <;> simp [E2.mulBybTwistCurveCoeff, E2.double, ξ, E2.val] <;> ring

theorem E2.inverse_eq (x : E2 K) : E2.inverse x =
    if x.a0 * x.a0 + x.a1 * x.a1 = 0 then none
    else some ⟨x.a0 * (x.a0 * x.a0 + x.a1 * x.a1)⁻¹, -(x.a1 * (x.a0 * x.a0 + x.a1 * x.a1)⁻¹)⟩ := by
  simp only [E2.inverse, fpInverse]
  by_cases h : x.a0 * x.a0 + x.a1 * x.a1 = 0
  · rw [if_pos h, if_pos h]; rfl
  · rw [if_neg h, if_neg h]; rfl

theorem E2.inverse_spec {x z : E2 K} (h : E2.inverse x = some z) : x.val * z.val = 1 := by
  rw [E2.inverse_eq] at h
  split at h
  · cases h
  · rename_i hn
    simp only [Option.some.injEq] at h
    subst h
    ext
    · simp [E2.val]
      field_simp
      rw [show x.a0 ^ 2 + x.a1 ^ 2 = x.a0 * x.a0 + x.a1 * x.a1 by ring]
      exact div_self hn
    · simp [E2.val]
      ring

/-! ## Fq6 -/

section alg
variable {A : Type} [CommRing A] [Algebra (Fq2 K) A] (v w : A)

@[simp] theorem E6.val_add (x y : E6 K) : (E6.add x y).val v = x.val v + y.val v := by
  simp only [E6.add, E6.val, E2.val_add, map_add]; ring

@[simp] theorem E6.val_sub (x y : E6 K) : (E6.sub x y).val v = x.val v - y.val v := by
  simp only [E6.sub, E6.val, E2.val_sub, map_sub]; ring

@[simp] theorem E6.val_neg (x : E6 K) : (E6.neg x).val v = -x.val v := by
  simp only [E6.neg, E6.val, E2.val_neg, map_neg]; ring

@[simp] theorem E6.val_double (x : E6 K) : (E6.double x).val v = x.val v + x.val v := by
  simp only [E6.double, E6.val, E2.val_double, map_add]; ring

variable {v}

theorem E6.val_mul (hv : v ^ 3 = algebraMap (Fq2 K) A ξ) (x y : E6 K) :
    (E6.mul x y).val v = x.val v * y.val v := by
  simp only [E6.mul, E6.val, E2.val_add, E2.val_sub, E2.val_mul, E2.val_mulByNonResidue, map_add, map_sub, map_mul,
    ← hv]
  ring

theorem E6.val_square (hv : v ^ 3 = algebraMap (Fq2 K) A ξ) (x : E6 K) :
    (E6.square x).val v = x.val v * x.val v := by
  simp only [E6.square, E6.val, E2.val_add, E2.val_sub, E2.val_mul, E2.val_square, E2.val_double,
    E2.val_mulByNonResidue, map_add, map_sub, map_mul, ← hv]
  ring

theorem E6.val_mulByNonResidue (hv : v ^ 3 = algebraMap (Fq2 K) A ξ) (x : E6 K) :
    (E6.mulByNonResidue x).val v = x.val v * v := by
  simp only [E6.mulByNonResidue, E6.val, E2.val_mulByNonResidue, map_mul, ← hv]
  ring

theorem E6.val_mulByE2 (x : E6 K) (y : E2 K) :
    (E6.mulByE2 x y).val v = x.val v * algebraMap (Fq2 K) A y.val := by
  simp only [E6.mulByE2, E6.val, E2.val_mul, map_mul]
  ring

theorem E6.val_mulBy1 (hv : v ^ 3 = algebraMap (Fq2 K) A ξ) (z : E6 K) (c1 : E2 K) :
    (E6.mulBy1 z c1).val v = z.val v * (algebraMap (Fq2 K) A c1.val * v) := by
  simp only [E6.mulBy1, E6.val, E2.val_add, E2.val_sub, E2.val_mul, E2.val_mulByNonResidue, map_add, map_sub, map_mul,
    ← hv]
  ring

theorem E6.val_mulBy01 (hv : v ^ 3 = algebraMap (Fq2 K) A ξ) (z : E6 K) (c0 c1 : E2 K) :
    (E6.mulBy01 z c0 c1).val v =
      z.val v * (algebraMap (Fq2 K) A c0.val + algebraMap (Fq2 K) A c1.val * v) := by
  simp only [E6.mulBy01, E6.val, E2.val_add, E2.val_sub, E2.val_mul, E2.val_mulByNonResidue, map_add, map_sub, map_mul,
    ← hv]
  ring

theorem E6.inverse_spec (hv : v ^ 3 = algebraMap (Fq2 K) A ξ) {x z : E6 K} (h : E6.inverse x = some z) :
    x.val v * z.val v = 1 := by
  unfold E6.inverse at h
  obtain ⟨t, ht, h⟩ := Option.bind_eq_some_iff.mp h
  have hi := congrArg (algebraMap (Fq2 K) A) (E2.inverse_spec ht)
  simp only [pure, Option.some.injEq] at h
  subst h
  simp only [E2.val_add, E2.val_sub, E2.val_mul, E2.val_square, E2.val_neg,
    E2.val_mulByNonResidue, map_add, map_sub, map_mul, map_neg, map_one, ← hv, E6.val] at hi ⊢
  linear_combination hi

/-! ## Fq12 -/

@[simp] theorem E12.val_conjugate (x : E12 K) : (E12.conjugate x).val w = x.c0.val (w ^ 2) - x.c1.val (w ^ 2) * w := by
  simp only [E12.conjugate, E12.val, E6.val_neg]; ring

variable {w}

theorem IsGen.cube (hw : IsGen K w) : (w ^ 2) ^ 3 = algebraMap (Fq2 K) A ξ := by
  rw [← pow_mul]; exact hw

theorem E12.val_mul (hw : IsGen K w) (x y : E12 K) : (E12.mul x y).val w = x.val w * y.val w := by
  have hv := hw.cube
  simp only [E12.mul, E12.val, E6.val_add, E6.val_sub, E6.val_mul hv, E6.val_mulByNonResidue hv]
  ring

theorem E12.val_square (hw : IsGen K w) (x : E12 K) : (E12.square x).val w = x.val w * x.val w := by
  have hv := hw.cube
  simp only [E12.square, E12.val, E6.val_add, E6.val_sub, E6.val_neg, E6.val_double, E6.val_mul hv,
    E6.val_mulByNonResidue hv]
  ring

theorem E12.val_mulBy034 (hw : IsGen K w) (z : E12 K) (c0 c3 c4 : E2 K) :
    (E12.mulBy034 z c0 c3 c4).val w =
      z.val w * (algebraMap (Fq2 K) A c0.val + algebraMap (Fq2 K) A c3.val * w + algebraMap (Fq2 K) A c4.val * w ^ 3) := by
  have hv := hw.cube
  simp only [E12.mulBy034, E12.val, E6.val_add, E6.val_sub, E6.val_neg, E6.val_mulBy01 hv, E6.val_mulByE2,
    E6.val_mulByNonResidue hv, E2.val_add, map_add]
  ring

theorem E12.val_mulBy034by034 (hw : IsGen K w) (d0 d3 d4 c0 c3 c4 : E2 K) :
    (E12.mulBy034by034 d0 d3 d4 c0 c3 c4).val w =
      (algebraMap (Fq2 K) A d0.val + algebraMap (Fq2 K) A d3.val * w + algebraMap (Fq2 K) A d4.val * w ^ 3) *
      (algebraMap (Fq2 K) A c0.val + algebraMap (Fq2 K) A c3.val * w + algebraMap (Fq2 K) A c4.val * w ^ 3) := by
  have hw' : algebraMap (Fq2 K) A ξ = w ^ 6 := hw.symm
  simp only [E12.mulBy034by034, E12.val, E6.val, E2.val_add, E2.val_sub, E2.val_mul, E2.val_zero,
    E2.val_mulByNonResidue, map_add, map_sub, map_mul, map_zero, hw']
  ring

theorem E12.val_mul014By014 (hw : IsGen K w) (d0 d1 d4 c0 c1 c4 : E2 K) :
    (E12.mul014By014 d0 d1 d4 c0 c1 c4).val w =
      (algebraMap (Fq2 K) A d0.val + algebraMap (Fq2 K) A d1.val * w ^ 2 + algebraMap (Fq2 K) A d4.val * w ^ 3) *
      (algebraMap (Fq2 K) A c0.val + algebraMap (Fq2 K) A c1.val * w ^ 2 + algebraMap (Fq2 K) A c4.val * w ^ 3) := by
  have hw' : algebraMap (Fq2 K) A ξ = w ^ 6 := hw.symm
  simp only [E12.mul014By014, E12.val, E6.val, E2.val_add, E2.val_sub, E2.val_mul, E2.val_zero,
    E2.val_mulByNonResidue, map_add, map_sub, map_mul, map_zero, hw']
  ring

theorem E12.val_mulBy014 (hw : IsGen K w) (z : E12 K) (c0 c1 c4 : E2 K) :
    (E12.mulBy014 z c0 c1 c4).val w =
      z.val w * (algebraMap (Fq2 K) A c0.val + algebraMap (Fq2 K) A c1.val * w ^ 2 +
        algebraMap (Fq2 K) A c4.val * w ^ 3) := by
  have hv := hw.cube
  simp only [E12.mulBy014, E12.val, E6.val_add, E6.val_sub, E6.val_mulBy01 hv, E6.val_mulBy1 hv,
    E6.val_mulByNonResidue hv, E2.val_add, map_add]
  ring

theorem E12.inverse_spec (hw : IsGen K w) {x z : E12 K} (h : E12.inverse x = some z) : x.val w * z.val w = 1 := by
  have hv := hw.cube
  unfold E12.inverse at h
  obtain ⟨t, ht, h⟩ := Option.bind_eq_some_iff.mp h
  have hi := E6.inverse_spec hv ht
  simp only [pure, Option.some.injEq] at h
  subst h
  simp only [E12.val, E6.val_sub, E6.val_mul hv, E6.val_square hv, E6.val_neg, E6.val_mulByNonResidue hv] at hi ⊢
  linear_combination hi

end alg

/-! ## The representation is faithful -/

theorem gen_isGen : IsGen K (gen K) := by
  have h : AdjoinRoot.mk (X ^ 6 - C (ξ : Fq2 K)) (X ^ 6 - C (ξ : Fq2 K)) = 0 := AdjoinRoot.mk_self
  rw [map_sub, map_pow, AdjoinRoot.mk_X, AdjoinRoot.mk_C] at h
  exact sub_eq_zero.mp h

theorem modulus_monic : (X ^ 6 - C (ξ : Fq2 K)).Monic := monic_X_pow_sub_C _ (by norm_num)

theorem modulus_natDegree : (X ^ 6 - C (ξ : Fq2 K)).natDegree = 6 := natDegree_X_pow_sub_C

/-- The polynomial with the coordinates of `x` as coefficients. -/
noncomputable def E12.poly (x : E12 K) : (Fq2 K)[X] :=
  C x.c0.b0.val + C x.c1.b0.val * X + C x.c0.b1.val * X ^ 2 + C x.c1.b1.val * X ^ 3 + C x.c0.b2.val * X ^ 4 +
    C x.c1.b2.val * X ^ 5

theorem E12.val_gen (x : E12 K) : x.val (gen K) = AdjoinRoot.mk _ x.poly := by
  have e : ∀ y : Fq2 K, algebraMap (Fq2 K) (Fq12 K) y = AdjoinRoot.of _ y := fun _ => rfl
  simp only [E12.val, E6.val, E12.poly, map_add, map_mul, map_pow, AdjoinRoot.mk_X, AdjoinRoot.mk_C, e, gen]
  ring

theorem E12.poly_natDegree (x : E12 K) : x.poly.natDegree < 6 := by
  have : x.poly.natDegree ≤ 5 := by unfold E12.poly; compute_degree
  omega

theorem E12.poly_inj {x y : E12 K} (h : x.poly = y.poly) : x = y := by
  have c : ∀ n, x.poly.coeff n = y.poly.coeff n := fun n => by rw [h]
  have h0 := c 0
  have h1 := c 1
  have h2 := c 2
  have h3 := c 3
  have h4 := c 4
  have h5 := c 5
  simp [E12.poly, coeff_X, coeff_C, coeff_X_pow, coeff_one] at h0 h1 h2 h3 h4 h5
  ext1 <;> ext1 <;> apply E2.val_inj.mp <;> assumption

/-- The coordinates determine the element of `Fq12`. -/
theorem E12.val_gen_injective : Function.Injective (E12.val (gen K) : E12 K → Fq12 K) := by
  intro x y h
  rw [E12.val_gen, E12.val_gen, AdjoinRoot.mk_eq_mk] at h
  apply E12.poly_inj
  by_contra hne
  have hne' : x.poly - y.poly ≠ 0 := sub_ne_zero.mpr hne
  refine Monic.not_dvd_of_natDegree_lt modulus_monic hne' ?_ h
  rw [modulus_natDegree]
  exact lt_of_le_of_lt (natDegree_sub_le _ _) (max_lt x.poly_natDegree y.poly_natDegree)

/-- Every element of `Fq12` has coordinates. -/
theorem E12.val_gen_surjective : Function.Surjective (E12.val (gen K) : E12 K → Fq12 K) := by
  intro z
  obtain ⟨p, rfl⟩ := AdjoinRoot.mk_surjective z
  obtain ⟨x0, h0⟩ := E2.val_surj ((p %ₘ (X ^ 6 - C (ξ : Fq2 K))).coeff 0)
  obtain ⟨x1, h1⟩ := E2.val_surj ((p %ₘ (X ^ 6 - C (ξ : Fq2 K))).coeff 1)
  obtain ⟨x2, h2⟩ := E2.val_surj ((p %ₘ (X ^ 6 - C (ξ : Fq2 K))).coeff 2)
  obtain ⟨x3, h3⟩ := E2.val_surj ((p %ₘ (X ^ 6 - C (ξ : Fq2 K))).coeff 3)
  obtain ⟨x4, h4⟩ := E2.val_surj ((p %ₘ (X ^ 6 - C (ξ : Fq2 K))).coeff 4)
  obtain ⟨x5, h5⟩ := E2.val_surj ((p %ₘ (X ^ 6 - C (ξ : Fq2 K))).coeff 5)
  refine ⟨⟨⟨x0, x2, x4⟩, ⟨x1, x3, x5⟩⟩, ?_⟩
  have hdeg : (p %ₘ (X ^ 6 - C (ξ : Fq2 K))).natDegree < 6 := by
    have := natDegree_modByMonic_lt p modulus_monic (fun h => by
      have := congrArg natDegree h
      rw [modulus_natDegree, natDegree_one] at this
      omega)
    rwa [modulus_natDegree] at this
  rw [E12.val_gen, AdjoinRoot.mk_eq_mk]
  have e : E12.poly (⟨⟨x0, x2, x4⟩, ⟨x1, x3, x5⟩⟩ : E12 K) = p %ₘ (X ^ 6 - C (ξ : Fq2 K)) := by
    conv_rhs => rw [as_sum_range_C_mul_X_pow' _ hdeg]
    simp only [E12.poly, Finset.sum_range_succ, Finset.sum_range_zero, h0, h1, h2, h3, h4, h5, pow_zero, mul_one,
      zero_add, pow_one]
  rw [e]
  exact dvd_modByMonic_sub _ _

end Verif.Bls
