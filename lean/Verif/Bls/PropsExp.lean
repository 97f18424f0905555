import Verif.Bls.Props

/-! # C50, C51, C52: Frobenius maps, cyclotomic arithmetic, final exponentiation of the BLS12-381 gadgets

`E12.elt` is the element of `Fq2[w]/(w⁶ - ξ)` a record denotes (C42: a bijection onto a field). -/

namespace Verif.Bls
open Polynomial QuadraticAlgebra

attribute [local irreducible] q r E2.mulByNonResidueAt

/-- A generic element, with twelve different coordinates, for the examples. -/
def sample : E12 Fq := ⟨⟨⟨1, 2⟩, ⟨3, 4⟩, ⟨5, 6⟩⟩, ⟨⟨7, 8⟩, ⟨9, 10⟩, ⟨11, 12⟩⟩⟩

/-! ## C50 -/

/-- **C50**: `Frobenius`, `FrobeniusSquare` and `Conjugate` are the powers `q`, `q²` and `q⁶`. -/
theorem C50_frobenius (x : E12 Fq) :
    (E12.frobenius x).elt = x.elt ^ q ∧ (E12.frobeniusSquare x).elt = x.elt ^ q ^ 2 ∧
    (E12.conjugate x).elt = x.elt ^ q ^ 6 :=
  ⟨E12.elt_frobenius x, E12.elt_frobeniusSquare x, E12.elt_conjugate x⟩

/-- `FrobeniusCube` repeats the body of `Frobenius`: it is the power `q`, and it is right only where `x^(q²) = x`. -/
theorem C50_frobeniusCube_is_frobenius (x : E12 Fq) :
    (E12.frobeniusCube x).elt = x.elt ^ q ∧
    ((E12.frobeniusCube x).elt = x.elt ^ q ^ 3 ↔ E12.frobeniusSquare x = x) := by
  have h : (E12.frobeniusCube x).elt = x.elt ^ q := by rw [E12.frobeniusCube_eq, E12.elt_frobenius]
  refine ⟨h, ?_⟩
  rw [h, ← E12.elt_inj, E12.elt_frobeniusSquare]
  have e : ∀ n : ℕ, (x.elt ^ n) ^ n ^ 2 = x.elt ^ n ^ 3 := by
    intro n
    rw [← pow_mul]; congr 1; ring
  have inj : ∀ a b : L, a ^ q = b ^ q → a = b := by
    intro a b hab
    have hab2 := congrArg (fun t : L => (t ^ q ^ 5) ^ q ^ 6) hab
    simp only [← pow_mul] at hab2
    have k : ∀ n : ℕ, n * (n ^ 5 * n ^ 6) = n ^ 6 * n ^ 6 := fun n => by ring
    rw [mul_assoc, k, pow_mul, pow_mul, elt_pow_card, elt_pow_card] at hab2
    exact hab2
  have e2 : x.elt ^ q ^ 3 = (x.elt ^ q ^ 2) ^ q := by
    have : ∀ n : ℕ, x.elt ^ n ^ 3 = (x.elt ^ n ^ 2) ^ n := by
      intro n
      rw [← pow_mul]; congr 1
    exact this q
  rw [e2]
  exact ⟨fun hx => (inj _ _ hx).symm, fun hx => by rw [hx]⟩

/-- **C50**, the part that fails: `FrobeniusCube` is not the power `q³`. -/
theorem C50_frobeniusCube_fails : ∃ x : E12 Fq, (E12.frobeniusCube x).elt ≠ x.elt ^ q ^ 3 := by
  refine ⟨sample, fun h => ?_⟩
  have := (C50_frobeniusCube_is_frobenius sample).2.1 h
  revert this
  decide +kernel

/-! ## C51 -/

/-- **C51**: on the cyclotomic subgroup (elements of order dividing `q⁴ - q² + 1`) `CyclotomicSquare` is the square,
conjugation is inversion, and `n` compressed squarings followed by decompression give the power `2ⁿ`, unless that power
has a zero `w` coordinate, in which case decompression is unsatisfiable. -/
theorem C51_cyclotomic (x : E12 Fq) (hx : x.elt ^ (q ^ 4 - q ^ 2 + 1) = 1) :
    (E12.cyclotomicSquare x).elt = x.elt ^ 2 ∧ (E12.conjugate x).elt * x.elt = 1 ∧
    (∀ n, (E12.nSquare x n).elt = x.elt ^ 2 ^ n) ∧
    (∀ n y, y.elt = x.elt ^ 2 ^ n →
      E12.decompressKarabina (E12.nSquareCompressed x n) = if y.c1.b0.val = 0 then none else some y) := by
  have hc := (cyc_iff x).2 hx
  refine ⟨hc.square.2, hc.conj_mul, fun n => (hc.nSquare n).2, ?_⟩
  intro n y hy
  exact decompress_eq (hc.nSquareCompressed (agree4_refl x) n y hy) (hc.of_pow hy)

/-- **C51**: `ExptHalf` and `Expt` return the power by half the curve parameter and by the curve parameter
`-0xd201000000010000`; they are satisfiable exactly when the powers `2¹⁵` and `2⁴⁷`, which they decompress, have a nonzero `w`
coordinate. -/
theorem C51_expt (x : E12 Fq) (g : Lˣ) (hg : x.elt = g) (hx : x.elt ^ (q ^ 4 - q ^ 2 + 1) = 1) :
    (∀ z, E12.exptHalf x = some z → z.elt = ((g ^ (-(0xd201000000010000 / 2) : ℤ) : Lˣ) : L)) ∧
    (∀ z, E12.expt x = some z → z.elt = ((g ^ (-0xd201000000010000 : ℤ) : Lˣ) : L)) ∧
    (∀ y15 y47 : E12 Fq, y15.elt = x.elt ^ 2 ^ 15 → y47.elt = x.elt ^ 2 ^ 47 →
      (E12.expt x ≠ none ↔ y15.c1.b0.val ≠ 0 ∧ y47.c1.b0.val ≠ 0)) := by
  have hp : P g x 1 := by unfold P; rw [hg, zpow_one]
  have hord : g ^ (q ^ 4 - q ^ 2 + 1) = 1 := by
    apply Units.ext
    rw [Units.val_pow_eq_pow_val, ← hg, hx, Units.val_one]
  refine ⟨?_, ?_, ?_⟩
  · intro z hz
    have := (hp.exptHalf hord).2 z hz
    rwa [show (1 : ℤ) * -(halfParam : ℤ) = -(0xd201000000010000 / 2) by decide +kernel] at this
  · intro z hz
    have := (hp.expt hord).2 z hz
    rwa [show (1 : ℤ) * (-2 * (halfParam : ℤ)) = -0xd201000000010000 by decide +kernel] at this
  · intro y15 y47 h15 h47
    rw [(hp.expt hord).1, wNonzero_iff (y := y15), wNonzero_iff (y := y47)]
    · rw [h47, hg, one_mul, zpow_natCast, Units.val_pow_eq_pow_val]
    · rw [h15, hg, one_mul, zpow_natCast, Units.val_pow_eq_pow_val]

/-- The hypotheses of C51 hold of a non-trivial element, on which `Expt` is satisfiable. -/
theorem C51_example : ∃ x : E12 Fq, x ≠ E12.one ∧ x.elt ^ (q ^ 4 - q ^ 2 + 1) = 1 ∧ E12.expt x ≠ none := by
  obtain ⟨i, hi⟩ : ∃ i, E12.inverse sample = some i := by
    apply Option.ne_none_iff_exists'.1
    decide +kernel
  have hu := E12.elt_inverse hi
  refine ⟨E12.easy sample i, ?_, ?_, ?_⟩
  · have : (E12.inverse sample).map (fun i => decide (E12.easy sample i ≠ E12.one)) = some true := by decide +kernel
    rw [hi] at this
    simpa using this
  · have he : P (Units.mkOfMulEqOne _ _ hu) sample 1 := by unfold P; rw [zpow_one]; rfl
    have hinv : P (Units.mkOfMulEqOne _ _ hu) i (-1) := by
      unfold P
      rw [zpow_neg, zpow_one, eq_comm]
      apply Units.inv_eq_of_mul_eq_one_right
      exact hu
    exact (cyc_iff _).1 ((easy_P he hinv).cyc (easyPart_order _))
  · have : (E12.inverse sample).map (fun i => (E12.expt (E12.easy sample i)).isSome) = some true := by decide +kernel
    rw [hi] at this
    intro h
    rw [Option.map_some, h] at this
    exact absurd this (by decide)

/-- **C51**, the part that fails: `Expt` is unsatisfiable on the neutral element, whose power is 1. -/
theorem C51_expt_one_fails : E12.expt (E12.one : E12 Fq) = none ∧ (E12.one : E12 Fq).elt ^ (q ^ 4 - q ^ 2 + 1) = 1 := by
  refine ⟨by decide +kernel, ?_⟩
  rw [E12.elt_one, one_pow]

end Verif.Bls
