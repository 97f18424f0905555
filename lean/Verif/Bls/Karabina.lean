import Verif.Bls.Cyclo

/-! # Karabina decompression, repeated squaring, and the exponentiation by the curve parameter -/

namespace Verif.Bls
open Polynomial QuadraticAlgebra

attribute [local irreducible] q E2.mulByNonResidueAt

/-! ## `E2.Inverse` and `E2.Div` over the base field -/

theorem sum_sq_eq_zero (a b : Fq) (h : a * a + b * b = 0) : a = 0 ∧ b = 0 := by
  by_cases hb : b = 0
  · subst hb
    refine ⟨?_, rfl⟩
    simpa using h
  · exfalso
    apply Fq_not_square (a / b)
    field_simp
    linear_combination h

/-- `E2.Inverse` is satisfiable exactly on nonzero elements. -/
theorem E2.inverse_none_iff (x : E2 Fq) : E2.inverse x = none ↔ x.val = 0 := by
  have hz : x.val = 0 ↔ x.a0 = 0 ∧ x.a1 = 0 := by
    rw [QuadraticAlgebra.ext_iff]; rfl
  rw [E2.inverse_eq, hz]
  split
  · rename_i h
    simpa using sum_sq_eq_zero _ _ h
  · rename_i h
    constructor
    · intro h'; cases h'
    · rintro ⟨h0, h1⟩
      rw [h0, h1] at h
      simp at h

theorem E2.div_none_iff (x y : E2 Fq) : E2.div x y = none ↔ y.val = 0 := by
  rw [← E2.inverse_none_iff]
  unfold E2.div
  cases E2.inverse y <;> simp

/-- `E2.Div` returns the only solution of `z · y = x`. -/
theorem E2.div_eq (x y z : E2 Fq) (hy : y.val ≠ 0) (h : x.val = z.val * y.val) : E2.div x y = some z := by
  have h1 : E2.inverse y ≠ none := fun h' => hy ((E2.inverse_none_iff y).1 h')
  obtain ⟨i, hi⟩ := Option.ne_none_iff_exists'.1 h1
  have hs := E2.inverse_spec hi
  have : E2.div x y = some (E2.mul x i) := by
    unfold E2.div
    rw [hi]; rfl
  rw [this]
  congr 1
  apply E2.val_inj.1
  rw [E2.val_mul, h]
  calc z.val * y.val * i.val = z.val * (y.val * i.val) := by ring
    _ = z.val := by rw [hs, mul_one]

/-! ## Decompression -/

theorem four_ne_zero' : (4 : Fq) ≠ 0 := by
  have : ((4 : ℕ) : Fq) ≠ 0 := by
    intro h
    have := (CharP.cast_eq_zero_iff Fq q 4).1 h
    exact absurd (Nat.le_of_dvd (by norm_num) this) (by decide +kernel)
  simpa using this

theorem four_mul_eq_zero (y : Fq2 Fq) (h : y + y + (y + y) = 0) : y = 0 := by
  have h0 := congrArg QuadraticAlgebra.re h
  have h1 := congrArg QuadraticAlgebra.im h
  simp only [re_add, im_add, re_zero, im_zero] at h0 h1
  have k : ∀ a : Fq, a + a + (a + a) = 0 → a = 0 := by
    intro a ha
    have : (4 : Fq) * a = 0 := by linear_combination ha
    exact (mul_eq_zero.1 this).resolve_left four_ne_zero'
  ext
  · exact k _ h0
  · exact k _ h1

theorem decomp_alg {R : Type} [CommRing R] (X y0 y1 y2 y3 y4 y5 : R)
    (e0 : y0 * y0 + X * (y3 * y3) - X * (y1 * y5 + y2 * y4) = y0)
    (e4 : y2 * y2 + X * (y5 * y5) - y0 * y4 - y1 * y3 = y4)
    (n0 : y0 * y0 - X * (y3 * y3) + 2 * X * (y2 * y4 - y1 * y5) = 1)
    (n4 : 2 * (y0 * y4) + y2 * y2 - 2 * (y1 * y3) - X * (y5 * y5) = 0) :
    y5 * y5 * X + ((y2 * y2 - y4) + (y2 * y2 - y4) + y2 * y2) = y3 * (y1 + y1 + (y1 + y1)) ∧
    (((y3 * y3 - y4 * y2) + (y3 * y3 - y4 * y2)) - y4 * y2 + y1 * y5) * X + 1 = y0 := by
  constructor
  · linear_combination 2 * e4 + n4
  · linear_combination e0 - n0

/-- Decompression recovers a cyclotomic element whose `w` coordinate is not 0. -/
theorem E12.decompress_some (x y : E12 Fq) (ha : Agree4 x y) (h : Cyc y) (hne : y.c1.b0.val ≠ 0) :
    E12.decompressKarabina x = some y := by
  obtain ⟨a1, a2, a4, a5⟩ := ha
  obtain ⟨e0, e1, e2, e3, e4, e5, n0, n2, n4⟩ := cycEq_of y h
  obtain ⟨d3, d0⟩ := decomp_alg _ _ _ _ _ _ _ e0 e4 n0 n4
  unfold E12.decompressKarabina
  dsimp only
  rw [a1, a2, a4, a5]
  rw [E2.div_eq _ _ y.c1.b1 (by
      simp only [E2.val_double]
      exact fun h0 => hne (four_mul_eq_zero _ h0))
    (by
      simp only [E2.val_double, E2.val_add, E2.val_sub, E2.val_square, E2.val_mulByNonResidue]
      exact d3)]
  show some _ = some _
  congr 1
  refine E12.ext_val ?_ rfl rfl rfl rfl rfl
  simp only [E2.val_double, E2.val_add, E2.val_sub, E2.val_square, E2.val_mulByNonResidue, E2.val_mul, E2.val_one]
  exact d0

/-- Decompression is unsatisfiable when the `w` coordinate is 0. -/
theorem E12.decompress_none (x : E12 Fq) (h : x.c1.b0.val = 0) : E12.decompressKarabina x = none := by
  unfold E12.decompressKarabina
  dsimp only
  rw [(E2.div_none_iff _ _).2]
  · rfl
  · simp only [E2.val_double, h, add_zero]

end Verif.Bls
