import Verif.Bls.Karabina

/-! # Exponentiation by the curve parameter and the final exponentiation -/

namespace Verif.Bls
open Polynomial QuadraticAlgebra

attribute [local irreducible] q E2.mulByNonResidueAt

/-- The target field of the pairing. -/
abbrev L := Fq12 Fq

/-- The element a coordinate record denotes. -/
noncomputable def E12.elt (x : E12 Fq) : L := x.val (gen Fq)

theorem algebraMap_L_injective : Function.Injective (algebraMap (Fq2 Fq) L) := by
  intro a b h
  obtain ⟨x, rfl⟩ := E2.val_surj a
  obtain ⟨y, rfl⟩ := E2.val_surj b
  have e : ∀ z : E2 Fq, algebraMap (Fq2 Fq) L z.val =
      (⟨⟨z, E2.zero, E2.zero⟩, ⟨E2.zero, E2.zero, E2.zero⟩⟩ : E12 Fq).val (gen Fq) := by
    intro z
    rw [E12.val_expand]
    simp only [E2.val_zero, map_zero, zero_mul, add_zero]
  rw [e, e] at h
  have := E12.val_gen_injective h
  rw [E12.mk.injEq, E6.mk.injEq] at this
  rw [this.1.1]

instance L_charP : CharP L q := charP_of_injective_ringHom algebraMap_L_injective q

theorem E12.elt_inj {x y : E12 Fq} : x.elt = y.elt ↔ x = y :=
  ⟨fun h => E12.val_gen_injective h, fun h => by rw [h]⟩

theorem E12.elt_mul (x y : E12 Fq) : (E12.mul x y).elt = x.elt * y.elt := E12.val_mul gen_isGen x y

theorem E12.elt_one : (E12.one : E12 Fq).elt = 1 := by
  unfold E12.elt
  rw [E12.val_expand]
  have o0 : ∀ {K : Type} [Field K] [DecidableEq K], (E12.one : E12 K) =
      ⟨⟨E2.one, E2.zero, E2.zero⟩, ⟨E2.zero, E2.zero, E2.zero⟩⟩ := rfl
  rw [o0]
  simp only [E2.val_zero, E2.val_one, map_zero, zero_mul, add_zero, map_one]

theorem E12.elt_frobeniusSquare (x : E12 Fq) : (E12.frobeniusSquare x).elt = x.elt ^ q ^ 2 :=
  E12.val_frobeniusSquare gen_isGen x

theorem E12.elt_frobenius (x : E12 Fq) : (E12.frobenius x).elt = x.elt ^ q := E12.val_frobenius gen_isGen x

theorem E12.elt_conjugate (x : E12 Fq) : (E12.conjugate x).elt = x.elt ^ q ^ 6 :=
  E12.val_conjugate_pow gen_isGen x

theorem E12.elt_inverse {x z : E12 Fq} (h : E12.inverse x = some z) : x.elt * z.elt = 1 :=
  E12.inverse_spec gen_isGen h

/-! ## The cyclotomic subgroup -/

theorem cyc_pow_alg {R : Type} [CommRing R] (n : ℕ) (hn : 1 ≤ n) (u : R) :
    ((u ^ n ^ 2) ^ n ^ 2 * u = u ^ n ^ 2 ∧ u * u ^ n ^ 6 = 1) ↔ u ^ (n ^ 4 - n ^ 2 + 1) = 1 := by
  have h42 : n ^ 2 ≤ n ^ 4 := Nat.pow_le_pow_right hn (by norm_num)
  have e1 : (u ^ n ^ 2) ^ n ^ 2 * u = u ^ (n ^ 4 - n ^ 2 + 1) * u ^ n ^ 2 := by
    rw [show (u ^ n ^ 2) ^ n ^ 2 * u = u ^ (n ^ 4 + 1) by
      rw [← pow_mul, ← pow_succ]; congr 1; ring, ← pow_add]
    congr 1
    omega
  have e2 : u * u ^ n ^ 6 = (u ^ (n ^ 4 - n ^ 2 + 1)) ^ (n ^ 2 + 1) := by
    rw [← pow_mul, ← pow_succ']
    congr 1
    zify [h42]
    ring
  rw [e1, e2]
  constructor
  · rintro ⟨h1, h2⟩
    have hu : IsUnit u := by
      rw [← e2] at h2
      exact IsUnit.of_mul_eq_one _ h2
    have hu2 : IsUnit (u ^ n ^ 2) := hu.pow _
    exact hu2.mul_right_cancel (by rw [h1, one_mul])
  · intro h
    rw [h, one_mul, one_pow]
    exact ⟨rfl, rfl⟩

/-- The coordinate equations say that the element has order dividing `Φ₁₂(q) = q⁴ - q² + 1`. -/
theorem cyc_iff (x : E12 Fq) : Cyc x ↔ x.elt ^ (q ^ 4 - q ^ 2 + 1) = 1 := by
  rw [← cyc_pow_alg q q_pos, Cyc, ← E12.elt_inj, ← E12.elt_inj, E12.elt_mul, E12.elt_mul, E12.elt_frobeniusSquare,
    E12.elt_frobeniusSquare, E12.elt_conjugate, E12.elt_one]

theorem Cyc.mul {x y : E12 Fq} (hx : Cyc x) (hy : Cyc y) : Cyc (E12.mul x y) := by
  rw [cyc_iff] at *
  rw [E12.elt_mul, mul_pow, hx, hy, one_mul]

theorem Cyc.of_pow {x y : E12 Fq} {k : ℕ} (hx : Cyc x) (h : y.elt = x.elt ^ k) : Cyc y := by
  rw [cyc_iff] at *
  rw [h, ← pow_mul, mul_comm, pow_mul, hx, one_pow]

theorem Cyc.square {x : E12 Fq} (hx : Cyc x) :
    Cyc (E12.cyclotomicSquare x) ∧ (E12.cyclotomicSquare x).elt = x.elt ^ 2 := by
  rw [E12.cyclotomicSquare_eq x hx]
  exact ⟨hx.mul hx, by rw [E12.elt_mul, pow_two]⟩

theorem Cyc.nSquare {x : E12 Fq} (hx : Cyc x) (n : ℕ) :
    Cyc (E12.nSquare x n) ∧ (E12.nSquare x n).elt = x.elt ^ 2 ^ n := by
  induction n generalizing x with
  | zero => exact ⟨hx, by simp [E12.nSquare]⟩
  | succ n ih =>
    obtain ⟨h1, h2⟩ := hx.square
    obtain ⟨h3, h4⟩ := ih h1
    refine ⟨h3, ?_⟩
    show (E12.nSquare (E12.cyclotomicSquare x) n).elt = _
    rw [h4, h2, ← pow_mul, ← pow_succ']

/-- Some coordinate record for a power. -/
theorem exists_pow (x : E12 Fq) (k : ℕ) : ∃ y : E12 Fq, y.elt = x.elt ^ k :=
  E12.val_gen_surjective _

theorem Cyc.nSquareCompressed {x y : E12 Fq} (hy : Cyc y) (ha : Agree4 x y) (n : ℕ) (z : E12 Fq)
    (hz : z.elt = y.elt ^ 2 ^ n) : Agree4 (E12.nSquareCompressed x n) z := by
  induction n generalizing x y with
  | zero =>
    have : z = y := E12.elt_inj.1 (by simpa using hz)
    rw [this]; exact ha
  | succ n ih =>
    show Agree4 (E12.nSquareCompressed (E12.cyclotomicSquareCompressed x x) n) z
    refine ih (hy.mul hy) (E12.compressed_agree x x y ha hy) ?_
    rw [hz, E12.elt_mul, ← pow_two, ← pow_mul, ← pow_succ']

theorem nSquareCompressedWithoutAssert_eq (x : E12 Fq) (n : ℕ) :
    E12.nSquareCompressedWithoutAssert x n = E12.nSquareCompressed x n := by
  induction n generalizing x with
  | zero => rfl
  | succ n ih => exact ih _

/-- The absolute value of half the curve parameter. -/
def halfParam : ℕ := 2 ^ 15 + 2 ^ 47 + 2 ^ 56 + 2 ^ 59 + 2 ^ 61 + 2 ^ 62

theorem Cyc.conj_mul {x : E12 Fq} (hx : Cyc x) : (E12.conjugate x).elt * x.elt = 1 := by
  have := hx.2
  rw [← E12.elt_inj, E12.elt_mul, E12.elt_one] at this
  rw [mul_comm]; exact this

theorem decompress_eq {x y : E12 Fq} (ha : Agree4 x y) (h : Cyc y) :
    E12.decompressKarabina x = if y.c1.b0.val = 0 then none else some y := by
  split
  · rename_i h0
    exact E12.decompress_none x (by rw [ha.1, h0])
  · rename_i h0
    exact E12.decompress_some x y ha h h0

theorem agree4_refl (x : E12 Fq) : Agree4 x x := ⟨rfl, rfl, rfl, rfl⟩

theorem exptHalf_unfold {K : Type} [Field K] [DecidableEq K] (x : E12 K) :
    E12.exptHalf x = (E12.decompressKarabina (E12.nSquareCompressed x 15)).bind fun b0 =>
      (E12.decompressKarabina (E12.nSquareCompressedWithoutAssert (E12.nSquareCompressed x 15) 32)).bind fun b1 =>
      some (E12.conjugate (E12.mul (E12.mul (E12.mul (E12.mul (E12.mul b0 b1) (E12.nSquare b1 9))
        (E12.nSquare (E12.nSquare b1 9) 3)) (E12.nSquare (E12.nSquare (E12.nSquare b1 9) 3) 2))
        (E12.cyclotomicSquare (E12.nSquare (E12.nSquare (E12.nSquare b1 9) 3) 2)))) := by
  have eta : ∀ y : E12 K, (⟨y.c0, y.c1⟩ : E12 K) = y := fun _ => rfl
  unfold E12.exptHalf
  simp only [eta]
  generalize E12.nSquareCompressed x 15 = t
  generalize E12.nSquareCompressedWithoutAssert t 32 = t'
  rfl

/-- `ExptHalf`, step by step: satisfiable exactly when the two powers that are decompressed have a nonzero `w`
coordinate, and then the result is the inverse of the power `halfParam`. -/
theorem exptHalf_eq {x y15 y47 : E12 Fq} (hx : Cyc x) (h15 : y15.elt = x.elt ^ 2 ^ 15) (h47 : y47.elt = x.elt ^ 2 ^ 47) :
    (y15.c1.b0.val = 0 ∨ y47.c1.b0.val = 0 → E12.exptHalf x = none) ∧
    (y15.c1.b0.val ≠ 0 → y47.c1.b0.val ≠ 0 →
      ∃ z, E12.exptHalf x = some z ∧ Cyc z ∧ z.elt * x.elt ^ halfParam = 1) := by
  have a15 : Agree4 (E12.nSquareCompressed x 15) y15 := hx.nSquareCompressed (agree4_refl x) 15 y15 h15
  have c15 : Cyc y15 := hx.of_pow h15
  have a47 : Agree4 (E12.nSquareCompressed (E12.nSquareCompressed x 15) 32) y47 := by
    refine c15.nSquareCompressed a15 32 y47 ?_
    rw [h47, h15, ← pow_mul]
    exact congrArg (x.elt ^ ·) (by norm_num)
  have c47 : Cyc y47 := hx.of_pow h47
  have d15 := decompress_eq a15 c15
  have d47 := decompress_eq a47 c47
  have e := exptHalf_unfold x
  rw [nSquareCompressedWithoutAssert_eq] at e
  rw [e, d15, d47]
  refine ⟨?_, ?_⟩
  · rintro (h | h)
    · rw [if_pos h]; rfl
    · rw [if_pos h]
      split <;> rfl
  · intro n15 n47
    rw [if_neg n15, if_neg n47]
    refine ⟨_, rfl, ?_⟩
    obtain ⟨k9, p9⟩ := c47.nSquare 9
    obtain ⟨k3, p3⟩ := k9.nSquare 3
    obtain ⟨k2, p2⟩ := k3.nSquare 2
    obtain ⟨k1, p1⟩ := k2.square
    have call := ((((c15.mul c47).mul k9).mul k3).mul k2).mul k1
    refine ⟨call.of_pow (k := q ^ 6) (E12.elt_conjugate _), ?_⟩
    have hc := call.conj_mul
    have hp : ∀ X : E12 Fq, X.elt = x.elt ^ halfParam → (E12.conjugate X).elt * X.elt = 1 →
        (E12.conjugate X).elt * x.elt ^ halfParam = 1 := by
      intro X h1 h2
      rw [← h1]; exact h2
    refine hp _ ?_ hc
    rw [E12.elt_mul, E12.elt_mul, E12.elt_mul, E12.elt_mul, E12.elt_mul, p1, p2, p3, p9, h15, h47]
    generalize x.elt = u
    rw [← pow_mul, ← pow_mul, ← pow_mul, ← pow_mul, ← pow_add, ← pow_add, ← pow_add, ← pow_add, ← pow_add]
    exact congrArg (u ^ ·) (by unfold halfParam; norm_num)

end Verif.Bls
