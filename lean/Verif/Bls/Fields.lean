import Verif.Bls.Irred
import Verif.Bls.Expt

/-! # `Fq12` is a field; the tower inverses are satisfiable exactly on nonzero elements -/

namespace Verif.Bls
open Polynomial QuadraticAlgebra

attribute [local irreducible] q r E2.mulByNonResidueAt

theorem two_ne : (2 : Fq) ≠ 0 := by
  intro h
  have : ((2 : ℕ) : Fq) = 0 := by simpa using h
  have := (CharP.cast_eq_zero_iff Fq q 2).1 this
  exact absurd (Nat.le_of_dvd (by norm_num) this) (by decide +kernel)

theorem three_ne : (3 : Fq) ≠ 0 := by
  intro h
  have : ((3 : ℕ) : Fq) = 0 := by simpa using h
  have := (CharP.cast_eq_zero_iff Fq q 3).1 this
  exact absurd (Nat.le_of_dvd (by norm_num) this) (by decide +kernel)

/-- `Fq2` is a field. -/
noncomputable def fieldFq2 : Field (Fq2 Fq) :=
  haveI := fact_nonsquare
  inferInstance

noncomputable def fintypeFq2 : Fintype (Fq2 Fq) := Fintype.ofEquiv (Fq × Fq)
  ⟨fun a => ⟨a.1, a.2⟩, fun x => (x.re, x.im), fun _ => rfl, fun _ => rfl⟩

theorem card_Fq2 : @Fintype.card (Fq2 Fq) fintypeFq2 = q * q := by
  rw [fintypeFq2, Fintype.ofEquiv_card, Fintype.card_prod, card_Fq]

theorem zeta_pow : (ξ : Fq2 Fq) ^ ((q - 1) / 6 * (q + 1)) = zeta := by
  rw [pow_mul, ← nr11, pow_succ, fq2_pow_q, zeta_def, nr21]
  generalize nr 1 1 = a
  ring

theorem card_eq : q * q = 6 * ((q - 1) / 6 * (q + 1)) + 1 := by decide +kernel

theorem sextic_irreducible : Irreducible (X ^ 6 - C (ξ : Fq2 Fq)) := by
  letI := fieldFq2
  letI := fintypeFq2
  refine irreducible_sextic (ξ : Fq2 Fq) zeta zeta_sq ?_ ?_ ((q - 1) / 6 * (q + 1)) (card_Fq2.trans card_eq) zeta_pow
  · intro h
    have := congrArg QuadraticAlgebra.re h
    exact two_ne this
  · intro h
    have := congrArg QuadraticAlgebra.re h
    exact three_ne this

/-- Every nonzero element of the target field is invertible. -/
theorem L_exists_inv (l : L) (h : l ≠ 0) : ∃ m : L, l * m = 1 := by
  letI := fieldFq2
  haveI : Fact (Irreducible (X ^ 6 - C (ξ : Fq2 Fq))) := ⟨sextic_irreducible⟩
  letI F : Field (AdjoinRoot (X ^ 6 - C (ξ : Fq2 Fq))) := AdjoinRoot.instField
  exact ⟨F.inv l, F.mul_inv_cancel l h⟩

theorem L_mul_eq_zero {a b : L} (h : a * b = 0) : a = 0 ∨ b = 0 := by
  by_cases ha : a = 0
  · exact Or.inl ha
  · right
    obtain ⟨m, hm⟩ := L_exists_inv a ha
    calc b = (a * m) * b := by rw [hm, one_mul]
      _ = m * (a * b) := by ring
      _ = 0 := by rw [h, mul_zero]

instance L_isDomain : IsDomain L := by
  haveI : Nontrivial L := ⟨⟨0, 1, fun h => by
    have : (0 : L) = algebraMap (Fq2 Fq) L 0 := (map_zero _).symm
    rw [this, ← map_one (algebraMap (Fq2 Fq) L)] at h
    exact zero_ne_one (algebraMap_L_injective h)⟩⟩
  haveI : NoZeroDivisors L := ⟨L_mul_eq_zero⟩
  exact NoZeroDivisors.to_isDomain L

/-! ## Inverses -/

theorem Fq2_exists_inv (x : Fq2 Fq) (h : x ≠ 0) : ∃ y, x * y = 1 := by
  letI F := fieldFq2
  exact ⟨F.inv x, F.mul_inv_cancel x h⟩

theorem Fq2_mul_eq_zero {a b : Fq2 Fq} (h : a * b = 0) : a = 0 ∨ b = 0 := by
  by_cases ha : a = 0
  · exact Or.inl ha
  · right
    obtain ⟨m, hm⟩ := Fq2_exists_inv a ha
    calc b = (a * m) * b := by rw [hm, one_mul]
      _ = m * (a * b) := by ring
      _ = 0 := by rw [h, mul_zero]

/-- The cubic norm whose inverse `E6.Inverse` asks for. -/
theorem E6.inverse_none {x : E6 Fq} (h : E6.inverse x = none) :
    x.b0.val * (x.b0.val * x.b0.val - ξ * (x.b1.val * x.b2.val)) + ξ * (x.b2.val * (ξ * (x.b2.val * x.b2.val)
      - x.b0.val * x.b1.val) + x.b1.val * (x.b1.val * x.b1.val - x.b0.val * x.b2.val)) = 0 := by
  unfold E6.inverse at h
  have h := Option.bind_eq_none_iff.1 h
  have h2 := Option.eq_none_iff_forall_ne_some.2 fun i hi => absurd (h i hi) (Option.some_ne_none _)
  rw [E2.inverse_none_iff] at h2
  simp only [E2.val_add, E2.val_sub, E2.val_neg, E2.val_mul, E2.val_square, E2.val_mulByNonResidue] at h2
  rw [← h2]
  ring

theorem E6.val_eq_zero {x : E6 Fq} (h : x.val (gen Fq ^ 2) = (0 : L)) :
    x.b0.val = 0 ∧ x.b1.val = 0 ∧ x.b2.val = 0 := by
  have e : ∀ z : E6 Fq, (⟨z, ⟨E2.zero, E2.zero, E2.zero⟩⟩ : E12 Fq).elt = z.val (gen Fq ^ 2) := by
    intro z
    unfold E12.elt
    rw [E12.val]
    have : (⟨E2.zero, E2.zero, E2.zero⟩ : E6 Fq).val (gen Fq ^ 2) = (0 : L) := by
      simp only [E6.val, E2.val_zero, map_zero, zero_mul, add_zero]
    rw [this, zero_mul, add_zero]
  have e0 : (⟨E2.zero, E2.zero, E2.zero⟩ : E6 Fq).val (gen Fq ^ 2) = (0 : L) := by
    simp only [E6.val, E2.val_zero, map_zero, zero_mul, add_zero]
  rw [← e0, ← e, ← e, E12.elt_inj, E12.mk.injEq] at h
  rw [h.1]
  exact ⟨E2.val_zero, E2.val_zero, E2.val_zero⟩

theorem xi_ne_zero : (ξ : Fq2 Fq) ≠ 0 := by
  intro h
  exact one_ne_zero (congrArg QuadraticAlgebra.re h)

theorem xi_not_cube (b : Fq2 Fq) : b ^ 3 ≠ ξ := by
  intro h
  have h1 : (b ^ 3) ^ ((q - 1) / 6 * (q + 1)) = zeta := by rw [h, zeta_pow]
  have b0 : b ≠ 0 := by
    rintro rfl
    rw [zero_pow (by norm_num)] at h
    exact xi_ne_zero h.symm
  obtain ⟨c, hc⟩ := Fq2_exists_inv b b0
  have hq2 : b ^ (6 * ((q - 1) / 6 * (q + 1))) = 1 := by
    have e := fq2_pow_q2 b
    rw [pow_two q, card_eq, pow_succ] at e
    calc _ = b ^ (6 * ((q - 1) / 6 * (q + 1))) * (b * c) := by rw [hc, mul_one]
      _ = 1 := by rw [← mul_assoc, e, hc]
  have h2 : zeta * zeta = 1 := by
    have k : ∀ n : ℕ, (b ^ 3) ^ n * (b ^ 3) ^ n = b ^ (6 * n) := by
      intro n
      rw [← pow_mul, ← pow_add]
      congr 1
      ring
    rw [← h1, k, hq2]
  rw [zeta_sq] at h2
  have h3 : zeta = 1 + 1 := by
    calc zeta = zeta - 1 + 1 := by ring
      _ = 1 + 1 := by rw [h2]
  have h4 := zeta_sq
  rw [h3] at h4
  have := congrArg QuadraticAlgebra.re h4
  simp only [re_mul, re_add, re_sub, im_add, re_one, im_one] at this
  exact three_ne (by linear_combination this)

theorem cubic_adj {a b c : Fq2 Fq} (h0 : a * a - ξ * (b * c) = 0) (h1 : ξ * (c * c) - a * b = 0)
    (h2 : b * b - a * c = 0) : a = 0 ∧ b = 0 ∧ c = 0 := by
  by_cases hb : b = 0
  · subst hb
    have ha : a = 0 := by
      rcases Fq2_mul_eq_zero (show a * a = 0 by linear_combination h0) with h | h <;> exact h
    refine ⟨ha, rfl, ?_⟩
    rcases Fq2_mul_eq_zero (show ξ * (c * c) = 0 by linear_combination h1) with h | h
    · exact absurd h xi_ne_zero
    · rcases Fq2_mul_eq_zero h with h | h <;> exact h
  · exfalso
    obtain ⟨i, hi⟩ := Fq2_exists_inv b hb
    apply xi_not_cube (a * i)
    have e : a ^ 3 = ξ * b ^ 3 := by linear_combination a * h0 - ξ * b * h2
    calc (a * i) ^ 3 = a ^ 3 * i ^ 3 := by ring
      _ = ξ * (b * i) ^ 3 := by rw [e]; ring
      _ = ξ := by rw [hi]; ring

/-- `E6.Inverse` is unsatisfiable only at 0. -/
theorem E6.inverse_none' {x : E6 Fq} (h : E6.inverse x = none) : x.val (gen Fq ^ 2) = (0 : L) := by
  have hN := E6.inverse_none h
  obtain ⟨c0, hc0⟩ := E2.val_surj (x.b0.val * x.b0.val - ξ * (x.b1.val * x.b2.val))
  obtain ⟨c1, hc1⟩ := E2.val_surj (ξ * (x.b2.val * x.b2.val) - x.b0.val * x.b1.val)
  obtain ⟨c2, hc2⟩ := E2.val_surj (x.b1.val * x.b1.val - x.b0.val * x.b2.val)
  have hv : (gen Fq ^ 2) ^ 3 = algebraMap (Fq2 Fq) L ξ := (gen_isGen (K := Fq)).cube
  have hprod : x.val (gen Fq ^ 2) * (⟨c0, c1, c2⟩ : E6 Fq).val (gen Fq ^ 2) = (0 : L) := by
    have e : x.val (gen Fq ^ 2) * (⟨c0, c1, c2⟩ : E6 Fq).val (gen Fq ^ 2) =
        algebraMap (Fq2 Fq) L (x.b0.val * (x.b0.val * x.b0.val - ξ * (x.b1.val * x.b2.val)) + ξ * (x.b2.val * (ξ * (x.b2.val * x.b2.val)
      - x.b0.val * x.b1.val) + x.b1.val * (x.b1.val * x.b1.val - x.b0.val * x.b2.val))) := by
      simp only [E6.val, hc0, hc1, hc2, map_add, map_sub, map_mul, ← hv]
      ring
    rw [e, hN, map_zero]
  rcases L_mul_eq_zero hprod with h | h
  · exact h
  · obtain ⟨z0, z1, z2⟩ := E6.val_eq_zero h
    rw [hc0] at z0
    rw [hc1] at z1
    rw [hc2] at z2
    obtain ⟨a0, a1, a2⟩ := cubic_adj z0 z1 z2
    simp only [E6.val, a0, a1, a2, map_zero, zero_mul, add_zero]

/-- `E12.Inverse` is satisfiable exactly on nonzero elements. -/
theorem E12.inverse_none_iff (x : E12 Fq) : E12.inverse x = none ↔ x.elt = 0 := by
  have hw : IsGen Fq (gen Fq) := gen_isGen
  have hv := hw.cube
  constructor
  · intro h
    unfold E12.inverse at h
    have h := Option.bind_eq_none_iff.1 h
    have h2 := E6.inverse_none' (Option.eq_none_iff_forall_ne_some.2 fun i hi =>
      absurd (h i hi) (Option.some_ne_none _))
    simp only [E6.val_sub, E6.val_square hv, E6.val_mulByNonResidue hv] at h2
    have h3 : x.elt * (E12.conjugate x).elt = 0 := by
      rw [← h2]
      unfold E12.elt
      rw [E12.val_conjugate, E12.val]
      ring
    rcases L_mul_eq_zero h3 with h4 | h4
    · exact h4
    · rw [E12.elt_conjugate] at h4
      exact eq_zero_of_pow_eq_zero h4
  · intro h
    by_contra hne
    obtain ⟨z, hz⟩ := Option.ne_none_iff_exists'.1 hne
    have := E12.elt_inverse hz
    rw [h, zero_mul] at this
    exact zero_ne_one this

end Verif.Bls
