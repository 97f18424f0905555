import Verif.Bls.Frob

/-! # The cyclotomic subgroup: squaring, compressed squaring, decompression -/

namespace Verif.Bls
open Polynomial QuadraticAlgebra

attribute [local irreducible] q E2.mulByNonResidueAt

/-- `ξ^((q²-1)/6)`, a primitive sixth root of unity. -/
irreducible_def zeta : Fq2 Fq := nr 2 1

theorem zeta_sq : zeta * zeta = zeta - 1 := by
  have h : nr 2 1 ^ 2 + 1 = nr 2 1 := by
    rw [← nr22]
    unfold nr
    have e : ∀ a : ℕ × ℕ, ofN a + 1 = ofN ((a.1 + 1) % q, a.2) := by
      intro a
      ext <;> simp [ofN, cast_mod]
    rw [e]
    exact congrArg ofN (by decide +kernel)
  rw [zeta_def, ← pow_two]
  generalize nr 2 1 = z at h ⊢
  linear_combination h

/-! ## Coordinates of the products -/

section coords
variable {K : Type} [Field K] [DecidableEq K]

theorem E12.mul_coords (x y : E12 K) :
    (E12.mul x y).c0.b0.val = x.c0.b0.val * y.c0.b0.val + ξ * (x.c1.b0.val * y.c1.b2.val + x.c0.b1.val * y.c0.b2.val
      + x.c1.b1.val * y.c1.b1.val + x.c0.b2.val * y.c0.b1.val + x.c1.b2.val * y.c1.b0.val) ∧
    (E12.mul x y).c1.b0.val = x.c0.b0.val * y.c1.b0.val + x.c1.b0.val * y.c0.b0.val + ξ * (x.c0.b1.val * y.c1.b2.val
      + x.c1.b1.val * y.c0.b2.val + x.c0.b2.val * y.c1.b1.val + x.c1.b2.val * y.c0.b1.val) ∧
    (E12.mul x y).c0.b1.val = x.c0.b0.val * y.c0.b1.val + x.c1.b0.val * y.c1.b0.val + x.c0.b1.val * y.c0.b0.val
      + ξ * (x.c1.b1.val * y.c1.b2.val + x.c0.b2.val * y.c0.b2.val + x.c1.b2.val * y.c1.b1.val) ∧
    (E12.mul x y).c1.b1.val = x.c0.b0.val * y.c1.b1.val + x.c1.b0.val * y.c0.b1.val + x.c0.b1.val * y.c1.b0.val
      + x.c1.b1.val * y.c0.b0.val + ξ * (x.c0.b2.val * y.c1.b2.val + x.c1.b2.val * y.c0.b2.val) ∧
    (E12.mul x y).c0.b2.val = x.c0.b0.val * y.c0.b2.val + x.c1.b0.val * y.c1.b1.val + x.c0.b1.val * y.c0.b1.val
      + x.c1.b1.val * y.c1.b0.val + x.c0.b2.val * y.c0.b0.val + ξ * (x.c1.b2.val * y.c1.b2.val) ∧
    (E12.mul x y).c1.b2.val = x.c0.b0.val * y.c1.b2.val + x.c1.b0.val * y.c0.b2.val + x.c0.b1.val * y.c1.b1.val
      + x.c1.b1.val * y.c0.b1.val + x.c0.b2.val * y.c1.b0.val + x.c1.b2.val * y.c0.b0.val := by
  refine ⟨?_, ?_, ?_, ?_, ?_, ?_⟩ <;>
  · simp only [E12.mul, E6.mul, E6.add, E6.sub, E6.mulByNonResidue, E2.val_add, E2.val_sub, E2.val_mul,
      E2.val_mulByNonResidue]
    ring

theorem E12.conjugate_coords (x : E12 K) :
    (E12.conjugate x).c0 = x.c0 ∧ (E12.conjugate x).c1.b0.val = -x.c1.b0.val ∧
    (E12.conjugate x).c1.b1.val = -x.c1.b1.val ∧ (E12.conjugate x).c1.b2.val = -x.c1.b2.val := by
  refine ⟨rfl, ?_, ?_, ?_⟩ <;> simp only [E12.conjugate, E6.neg, E2.val_neg]

theorem E12.ext_val {x y : E12 K} (h0 : x.c0.b0.val = y.c0.b0.val) (h1 : x.c1.b0.val = y.c1.b0.val)
    (h2 : x.c0.b1.val = y.c0.b1.val) (h3 : x.c1.b1.val = y.c1.b1.val) (h4 : x.c0.b2.val = y.c0.b2.val)
    (h5 : x.c1.b2.val = y.c1.b2.val) : x = y :=
  E12.ext (E6.ext (E2.val_inj.1 h0) (E2.val_inj.1 h2) (E2.val_inj.1 h4))
    (E6.ext (E2.val_inj.1 h1) (E2.val_inj.1 h3) (E2.val_inj.1 h5))

theorem E12.frobeniusSquare_coords' (x : E12 K) :
    (E12.frobeniusSquare x).c0.b0 = x.c0.b0 ∧ (E12.frobeniusSquare x).c1.b0 = E2.mulByNonResidueAt x.c1.b0 2 1 ∧
    (E12.frobeniusSquare x).c0.b1 = E2.mulByNonResidueAt x.c0.b1 2 2 ∧
    (E12.frobeniusSquare x).c1.b1 = E2.mulByNonResidueAt x.c1.b1 2 3 ∧
    (E12.frobeniusSquare x).c0.b2 = E2.mulByNonResidueAt x.c0.b2 2 4 ∧
    (E12.frobeniusSquare x).c1.b2 = E2.mulByNonResidueAt x.c1.b2 2 5 := ⟨rfl, rfl, rfl, rfl, rfl, rfl⟩

end coords

theorem E12.frobeniusSquare_coords (x : E12 Fq) :
    (E12.frobeniusSquare x).c0.b0.val = x.c0.b0.val ∧ (E12.frobeniusSquare x).c1.b0.val = x.c1.b0.val * zeta ∧
    (E12.frobeniusSquare x).c0.b1.val = x.c0.b1.val * zeta ^ 2 ∧
    (E12.frobeniusSquare x).c1.b1.val = x.c1.b1.val * zeta ^ 3 ∧
    (E12.frobeniusSquare x).c0.b2.val = x.c0.b2.val * zeta ^ 4 ∧
    (E12.frobeniusSquare x).c1.b2.val = x.c1.b2.val * zeta ^ 5 := by
  rw [zeta_def, ← nr22, ← nr23, ← nr24, ← nr25]
  obtain ⟨h0, h1, h2, h3, h4, h5⟩ := E12.frobeniusSquare_coords' x
  rw [h0, h1, h2, h3, h4, h5]
  exact ⟨rfl, E2.val_mulByNonResidueAt x.c1.b0 2 1, E2.val_mulByNonResidueAt x.c0.b1 2 2,
    E2.val_mulByNonResidueAt x.c1.b1 2 3, E2.val_mulByNonResidueAt x.c0.b2 2 4, E2.val_mulByNonResidueAt x.c1.b2 2 5⟩

/-! ## The cyclotomic equations -/

/-- The coordinate form of `x^(q⁴) · x = x^(q²)`. -/
def Cyc (x : E12 Fq) : Prop :=
  E12.mul (E12.frobeniusSquare (E12.frobeniusSquare x)) x = E12.frobeniusSquare x ∧
  E12.mul x (E12.conjugate x) = E12.one

/-- The equations between the coordinates of a cyclotomic element. -/
structure CycEq (y0 y1 y2 y3 y4 y5 : Fq2 Fq) : Prop where
  e0 : y0 * y0 + ξ * (y3 * y3) - ξ * (y1 * y5 + y2 * y4) = y0
  e1 : y0 * y1 + ξ * (y3 * y4) - 2 * ξ * (y2 * y5) = y1
  e2 : y1 * y1 + ξ * (y4 * y4) - y0 * y2 - ξ * (y3 * y5) = y2
  e3 : y1 * y2 + ξ * (y4 * y5) - 2 * (y0 * y3) = y3
  e4 : y2 * y2 + ξ * (y5 * y5) - y0 * y4 - y1 * y3 = y4
  e5 : y0 * y5 + y2 * y3 - 2 * (y1 * y4) = y5
  n0 : y0 * y0 - ξ * (y3 * y3) + 2 * ξ * (y2 * y4 - y1 * y5) = 1
  n2 : 2 * (y0 * y2) - y1 * y1 + ξ * (y4 * y4) - 2 * ξ * (y3 * y5) = 0
  n4 : 2 * (y0 * y4) + y2 * y2 - 2 * (y1 * y3) - ξ * (y5 * y5) = 0

theorem cyc_alg {R : Type} [CommRing R] (X z y0 y1 y2 y3 y4 y5 : R) (hz : z * z = z - 1)
    (m0 : y0 = y0 * y0 + X * (y1 * (z - 1) * y5 + y2 * (-z) * y4 + y3 * y3 + y4 * (z - 1) * y2 + y5 * (-z) * y1))
    (m1 : y1 * z = y0 * y1 + y1 * (z - 1) * y0 + X * (y2 * (-z) * y5 + y3 * y4 + y4 * (z - 1) * y3 + y5 * (-z) * y2))
    (m2 : y2 * (z - 1) = y0 * y2 + y1 * (z - 1) * y1 + y2 * (-z) * y0 + X * (y3 * y5 + y4 * (z - 1) * y4
      + y5 * (-z) * y3))
    (m3 : y3 * (-1) = y0 * y3 + y1 * (z - 1) * y2 + y2 * (-z) * y1 + y3 * y0 + X * (y4 * (z - 1) * y5
      + y5 * (-z) * y4))
    (m4 : y4 * (-z) = y0 * y4 + y1 * (z - 1) * y3 + y2 * (-z) * y2 + y3 * y1 + y4 * (z - 1) * y0
      + X * (y5 * (-z) * y5))
    (m5 : y5 * (1 - z) = y0 * y5 + y1 * (z - 1) * y4 + y2 * (-z) * y3 + y3 * y2 + y4 * (z - 1) * y1
      + y5 * (-z) * y0) :
    y0 * y0 + X * (y3 * y3) - X * (y1 * y5 + y2 * y4) = y0 ∧
    y0 * y1 + X * (y3 * y4) - 2 * X * (y2 * y5) = y1 ∧
    y1 * y1 + X * (y4 * y4) - y0 * y2 - X * (y3 * y5) = y2 ∧
    y1 * y2 + X * (y4 * y5) - 2 * (y0 * y3) = y3 ∧
    y2 * y2 + X * (y5 * y5) - y0 * y4 - y1 * y3 = y4 ∧
    y0 * y5 + y2 * y3 - 2 * (y1 * y4) = y5 := by
  have hu : ∀ E F : R, z * E = z * F → E = F := by
    intro E F h
    linear_combination (1 - z) * h + (E - F) * hz
  have hv : ∀ E F : R, (1 - z) * E = (1 - z) * F → E = F := by
    intro E F h
    linear_combination z * h + (E - F) * hz
  refine ⟨?_, ?_, ?_, ?_, ?_, ?_⟩
  · linear_combination -m0
  · apply hu; linear_combination -m1
  · apply hv; linear_combination m2
  · linear_combination m3
  · apply hu; linear_combination m4
  · apply hv; linear_combination -m5

theorem zeta_alg {R : Type} [CommRing R] (z : R) (hz : z * z = z - 1) :
    (∀ y, y * z ^ 2 = y * (z - 1)) ∧ (∀ y, y * z ^ 3 = y * (-1)) ∧ (∀ y, y * z ^ 4 = y * (-z)) ∧
    (∀ y, y * z ^ 5 = y * (1 - z)) ∧
    (∀ y, y * z * z = y * (z - 1)) ∧ (∀ y, y * (z - 1) * (z - 1) = y * (-z)) ∧ (∀ y, y * (-1) * (-1) = y) ∧
    (∀ y, y * (-z) * (-z) = y * (z - 1)) ∧ (∀ y, y * (1 - z) * (1 - z) = y * (-z)) := by
  have z2 : z ^ 2 = z - 1 := by rw [pow_two, hz]
  have z3 : z ^ 3 = -1 := by linear_combination (z + 1) * z2
  have z4 : z ^ 4 = -z := by linear_combination z * z3
  have z5 : z ^ 5 = 1 - z := by linear_combination z ^ 2 * z3 - z2
  rw [z2, z3, z4, z5]
  refine ⟨fun _ => rfl, fun _ => rfl, fun _ => rfl, fun _ => rfl, ?_, ?_, ?_, ?_, ?_⟩ <;> intro y
  · linear_combination y * hz
  · linear_combination y * hz
  · ring
  · linear_combination y * hz
  · linear_combination y * hz

theorem E12.frobSq_coords (x : E12 Fq) :
    (E12.frobeniusSquare x).c0.b0.val = x.c0.b0.val ∧ (E12.frobeniusSquare x).c1.b0.val = x.c1.b0.val * zeta ∧
    (E12.frobeniusSquare x).c0.b1.val = x.c0.b1.val * (zeta - 1) ∧
    (E12.frobeniusSquare x).c1.b1.val = x.c1.b1.val * (-1) ∧
    (E12.frobeniusSquare x).c0.b2.val = x.c0.b2.val * (-zeta) ∧
    (E12.frobeniusSquare x).c1.b2.val = x.c1.b2.val * (1 - zeta) := by
  obtain ⟨a0, a1, a2, a3, a4, a5⟩ := E12.frobeniusSquare_coords x
  obtain ⟨z2, z3, z4, z5, _⟩ := zeta_alg zeta zeta_sq
  rw [z2] at a2
  rw [z3] at a3
  rw [z4] at a4
  rw [z5] at a5
  exact ⟨a0, a1, a2, a3, a4, a5⟩

theorem E12.frobSq2_coords (x : E12 Fq) :
    (E12.frobeniusSquare (E12.frobeniusSquare x)).c0.b0.val = x.c0.b0.val ∧
    (E12.frobeniusSquare (E12.frobeniusSquare x)).c1.b0.val = x.c1.b0.val * (zeta - 1) ∧
    (E12.frobeniusSquare (E12.frobeniusSquare x)).c0.b1.val = x.c0.b1.val * (-zeta) ∧
    (E12.frobeniusSquare (E12.frobeniusSquare x)).c1.b1.val = x.c1.b1.val ∧
    (E12.frobeniusSquare (E12.frobeniusSquare x)).c0.b2.val = x.c0.b2.val * (zeta - 1) ∧
    (E12.frobeniusSquare (E12.frobeniusSquare x)).c1.b2.val = x.c1.b2.val * (-zeta) := by
  obtain ⟨a0, a1, a2, a3, a4, a5⟩ := E12.frobSq_coords x
  obtain ⟨b0, b1, b2, b3, b4, b5⟩ := E12.frobSq_coords (E12.frobeniusSquare x)
  obtain ⟨_, _, _, _, z1, z2, z3, z4, z5⟩ := zeta_alg zeta zeta_sq
  rw [a0] at b0
  rw [a1, z1] at b1
  rw [a2, z2] at b2
  rw [a3, mul_assoc, neg_mul_neg, mul_one, mul_one] at b3
  rw [a4, z4] at b4
  rw [a5, z5] at b5
  exact ⟨b0, b1, b2, b3, b4, b5⟩

theorem norm_coords {K : Type} [Field K] [DecidableEq K] (x : E12 K) (hn : E12.mul x (E12.conjugate x) = E12.one) :
    (x.c0.b0.val * x.c0.b0.val - ξ * (x.c1.b1.val * x.c1.b1.val)
      + 2 * ξ * (x.c0.b1.val * x.c0.b2.val - x.c1.b0.val * x.c1.b2.val) = 1) ∧
    (2 * (x.c0.b0.val * x.c0.b1.val) - x.c1.b0.val * x.c1.b0.val + ξ * (x.c0.b2.val * x.c0.b2.val)
      - 2 * ξ * (x.c1.b1.val * x.c1.b2.val) = 0) ∧
    (2 * (x.c0.b0.val * x.c0.b2.val) + x.c0.b1.val * x.c0.b1.val - 2 * (x.c1.b0.val * x.c1.b1.val)
      - ξ * (x.c1.b2.val * x.c1.b2.val) = 0) := by
  obtain ⟨c0, c1, c3, c5⟩ := E12.conjugate_coords x
  obtain ⟨n0, n1, n2, n3, n4, n5⟩ := E12.mul_coords x (E12.conjugate x)
  rw [hn, c0, c1, c3, c5] at n0 n2 n4
  have o0 : (E12.one : E12 K).c0.b0.val = 1 := E2.val_one
  have o1 : (E12.one : E12 K).c0.b1.val = 0 := E2.val_zero
  have o2 : (E12.one : E12 K).c0.b2.val = 0 := E2.val_zero
  rw [o0] at n0
  rw [o1] at n2
  rw [o2] at n4
  refine ⟨?_, ?_, ?_⟩
  · linear_combination -n0
  · linear_combination -n2
  · linear_combination -n4

theorem cycEq_of (x : E12 Fq) (h : Cyc x) :
    CycEq x.c0.b0.val x.c1.b0.val x.c0.b1.val x.c1.b1.val x.c0.b2.val x.c1.b2.val := by
  obtain ⟨h, hn⟩ := h
  obtain ⟨a0, a1, a2, a3, a4, a5⟩ := E12.frobSq_coords x
  obtain ⟨b0, b1, b2, b3, b4, b5⟩ := E12.frobSq2_coords x
  obtain ⟨m0, m1, m2, m3, m4, m5⟩ := E12.mul_coords (E12.frobeniusSquare (E12.frobeniusSquare x)) x
  rw [h, b0, b1, b2, b3, b4, b5] at m0 m1 m2 m3 m4 m5
  rw [a0] at m0
  rw [a1] at m1
  rw [a2] at m2
  rw [a3] at m3
  rw [a4] at m4
  rw [a5] at m5
  obtain ⟨n0, n2, n4⟩ := norm_coords x hn
  obtain ⟨e0, e1, e2, e3, e4, e5⟩ := cyc_alg _ _ _ _ _ _ _ _ zeta_sq m0 m1 m2 m3 m4 m5
  exact ⟨e0, e1, e2, e3, e4, e5, n0, n2, n4⟩

/-! ## Squaring -/

theorem E12.cyclotomicSquare_coords {K : Type} [Field K] [DecidableEq K] (x : E12 K) :
    (E12.cyclotomicSquare x).c0.b0.val =
      3 * (x.c0.b0.val * x.c0.b0.val + ξ * (x.c1.b1.val * x.c1.b1.val)) - 2 * x.c0.b0.val ∧
    (E12.cyclotomicSquare x).c1.b0.val = 6 * (ξ * (x.c0.b1.val * x.c1.b2.val)) + 2 * x.c1.b0.val ∧
    (E12.cyclotomicSquare x).c0.b1.val =
      3 * (x.c1.b0.val * x.c1.b0.val + ξ * (x.c0.b2.val * x.c0.b2.val)) - 2 * x.c0.b1.val ∧
    (E12.cyclotomicSquare x).c1.b1.val = 6 * (x.c0.b0.val * x.c1.b1.val) + 2 * x.c1.b1.val ∧
    (E12.cyclotomicSquare x).c0.b2.val =
      3 * (x.c0.b1.val * x.c0.b1.val + ξ * (x.c1.b2.val * x.c1.b2.val)) - 2 * x.c0.b2.val ∧
    (E12.cyclotomicSquare x).c1.b2.val = 6 * (x.c1.b0.val * x.c0.b2.val) + 2 * x.c1.b2.val := by
  refine ⟨?_, ?_, ?_, ?_, ?_, ?_⟩ <;>
  · simp only [E12.cyclotomicSquare, E2.val_add, E2.val_sub, E2.val_mul, E2.val_square, E2.val_double,
      E2.val_mulByNonResidue]
    ring

theorem E12.compressed_coords {K : Type} [Field K] [DecidableEq K] (z x : E12 K) :
    (E12.cyclotomicSquareCompressed z x).c1.b0.val = 6 * (ξ * (x.c0.b1.val * x.c1.b2.val)) + 2 * x.c1.b0.val ∧
    (E12.cyclotomicSquareCompressed z x).c0.b1.val =
      3 * (x.c1.b0.val * x.c1.b0.val + ξ * (x.c0.b2.val * x.c0.b2.val)) - 2 * x.c0.b1.val ∧
    (E12.cyclotomicSquareCompressed z x).c0.b2.val =
      3 * (x.c0.b1.val * x.c0.b1.val + ξ * (x.c1.b2.val * x.c1.b2.val)) - 2 * x.c0.b2.val ∧
    (E12.cyclotomicSquareCompressed z x).c1.b2.val = 6 * (x.c1.b0.val * x.c0.b2.val) + 2 * x.c1.b2.val := by
  refine ⟨?_, ?_, ?_, ?_⟩ <;>
  · simp only [E12.cyclotomicSquareCompressed, E2.val_add, E2.val_sub, E2.val_mul, E2.val_square, E2.val_double,
      E2.val_mulByNonResidue]
    ring

theorem square_alg {R : Type} [CommRing R] (X y0 y1 y2 y3 y4 y5 : R)
    (e0 : y0 * y0 + X * (y3 * y3) - X * (y1 * y5 + y2 * y4) = y0)
    (e1 : y0 * y1 + X * (y3 * y4) - 2 * X * (y2 * y5) = y1)
    (e2 : y1 * y1 + X * (y4 * y4) - y0 * y2 - X * (y3 * y5) = y2)
    (e3 : y1 * y2 + X * (y4 * y5) - 2 * (y0 * y3) = y3)
    (e4 : y2 * y2 + X * (y5 * y5) - y0 * y4 - y1 * y3 = y4)
    (e5 : y0 * y5 + y2 * y3 - 2 * (y1 * y4) = y5) :
    (3 * (y0 * y0 + X * (y3 * y3)) - 2 * y0 = y0 * y0 + X * (y1 * y5 + y2 * y4 + y3 * y3 + y4 * y2 + y5 * y1)) ∧
    (6 * (X * (y2 * y5)) + 2 * y1 = y0 * y1 + y1 * y0 + X * (y2 * y5 + y3 * y4 + y4 * y3 + y5 * y2)) ∧
    (3 * (y1 * y1 + X * (y4 * y4)) - 2 * y2 = y0 * y2 + y1 * y1 + y2 * y0 + X * (y3 * y5 + y4 * y4 + y5 * y3)) ∧
    (6 * (y0 * y3) + 2 * y3 = y0 * y3 + y1 * y2 + y2 * y1 + y3 * y0 + X * (y4 * y5 + y5 * y4)) ∧
    (3 * (y2 * y2 + X * (y5 * y5)) - 2 * y4 = y0 * y4 + y1 * y3 + y2 * y2 + y3 * y1 + y4 * y0 + X * (y5 * y5)) ∧
    (6 * (y1 * y4) + 2 * y5 = y0 * y5 + y1 * y4 + y2 * y3 + y3 * y2 + y4 * y1 + y5 * y0) := by
  refine ⟨?_, ?_, ?_, ?_, ?_, ?_⟩
  · linear_combination 2 * e0
  · linear_combination -2 * e1
  · linear_combination 2 * e2
  · linear_combination -2 * e3
  · linear_combination 2 * e4
  · linear_combination -2 * e5

/-- On cyclotomic elements the Granger–Scott squaring is the product with itself. -/
theorem E12.cyclotomicSquare_eq (x : E12 Fq) (h : Cyc x) : E12.cyclotomicSquare x = E12.mul x x := by
  obtain ⟨e0, e1, e2, e3, e4, e5, _, _, _⟩ := cycEq_of x h
  obtain ⟨s0, s1, s2, s3, s4, s5⟩ := square_alg _ _ _ _ _ _ _ e0 e1 e2 e3 e4 e5
  obtain ⟨m0, m1, m2, m3, m4, m5⟩ := E12.mul_coords x x
  obtain ⟨c0, c1, c2, c3, c4, c5⟩ := E12.cyclotomicSquare_coords x
  exact E12.ext_val (c0.trans (s0.trans m0.symm)) (c1.trans (s1.trans m1.symm)) (c2.trans (s2.trans m2.symm))
    (c3.trans (s3.trans m3.symm)) (c4.trans (s4.trans m4.symm)) (c5.trans (s5.trans m5.symm))

/-! ## Compressed squaring -/

/-- Agreement on the four coordinates the compressed form keeps. -/
def Agree4 (x y : E12 Fq) : Prop :=
  x.c1.b0 = y.c1.b0 ∧ x.c0.b1 = y.c0.b1 ∧ x.c0.b2 = y.c0.b2 ∧ x.c1.b2 = y.c1.b2

/-- Compressed squaring keeps the compressed form of the square. -/
theorem E12.compressed_agree (z x y : E12 Fq) (ha : Agree4 x y) (h : Cyc y) :
    Agree4 (E12.cyclotomicSquareCompressed z x) (E12.mul y y) := by
  obtain ⟨a1, a2, a4, a5⟩ := ha
  obtain ⟨e0, e1, e2, e3, e4, e5, _, _, _⟩ := cycEq_of y h
  obtain ⟨s0, s1, s2, s3, s4, s5⟩ := square_alg _ _ _ _ _ _ _ e0 e1 e2 e3 e4 e5
  obtain ⟨m0, m1, m2, m3, m4, m5⟩ := E12.mul_coords y y
  obtain ⟨c1, c2, c4, c5⟩ := E12.compressed_coords z x
  rw [a1, a2, a5] at c1
  rw [a1, a2, a4] at c2
  rw [a2, a4, a5] at c4
  rw [a1, a4, a5] at c5
  exact ⟨E2.val_inj.1 (c1.trans (s1.trans m1.symm)), E2.val_inj.1 (c2.trans (s2.trans m2.symm)),
    E2.val_inj.1 (c4.trans (s4.trans m4.symm)), E2.val_inj.1 (c5.trans (s5.trans m5.symm))⟩

end Verif.Bls
