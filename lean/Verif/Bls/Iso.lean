import Verif.Bls.Sswu

/-! # The isogeny of hash2curve.go -/

namespace Verif.Bls.RFC
open Verif.Bls

/-- The square root of `-1` in `Fq2`. -/
def I : Fq2 Fq := ⟨0, 1⟩

/-- The denominator `x + 6 - 6 I` of the 3-isogeny: its zero is the abscissa of the kernel. -/
def isoD (x : Fq2 Fq) : Fq2 Fq := x + 6 - 6 * I

/-- RFC 9380, appendix E.3, abscissa (the RFC lists the same coefficients reduced modulo the prime). -/
noncomputable def isoX (x : Fq2 Fq) : Fq2 Fq := (x ^ 3 + 12 * (1 - I) * x ^ 2 - 24 * I * x + 304 * (1 + I)) / (9 * isoD x ^ 2)

/-- RFC 9380, appendix E.3, ordinate. -/
noncomputable def isoY (x y : Fq2 Fq) : Fq2 Fq :=
  -y * (x ^ 3 + 18 * (1 - I) * x ^ 2 - 264 * I * x - 752 * (1 + I)) / (27 * isoD x ^ 3)

end Verif.Bls.RFC

namespace Verif.Bls
open QuadraticAlgebra RFC

theorem I_sq : I * I = -1 := by
  ext
  · show (0 : Fq) * 0 + -1 * (1 * 1) = _
    simp
  · show (0 : Fq) * 1 + 1 * 0 + 0 * (1 * 1) = _
    simp

theorem mk_lin (a b : Fq) (c m n m' n' : ℕ) (ha : (c : Fq) * a + m = n) (hb : (c : Fq) * b + m' = n') :
    (c : Fq2 Fq) * ⟨a, b⟩ = ((n : Fq2 Fq) - m) + ((n' : Fq2 Fq) - m') * I := by
  have ha' : (c : Fq) * a = n - m := by rw [← ha]; ring
  have hb' : (c : Fq) * b = n' - m' := by rw [← hb]; ring
  ext
  · simp [I, ha']
  · simp [I, hb']

theorem isoXD_0 : ((1 : ℕ) : Fq2 Fq) * (isoXD 0).val = (((0 : ℕ) : Fq2 Fq) - ((0 : ℕ) : Fq2 Fq)) + (((0 : ℕ) : Fq2 Fq) - ((72 : ℕ) : Fq2 Fq)) * I :=
  mk_lin _ _ 1 0 0 72 0 (mont_lin _ _ _ _ (by decide +kernel)) (mont_lin _ _ _ _ (by decide +kernel))
theorem isoXD_1 : ((1 : ℕ) : Fq2 Fq) * (isoXD 1).val = (((12 : ℕ) : Fq2 Fq) - ((0 : ℕ) : Fq2 Fq)) + (((0 : ℕ) : Fq2 Fq) - ((12 : ℕ) : Fq2 Fq)) * I :=
  mk_lin _ _ 1 0 12 12 0 (mont_lin _ _ _ _ (by decide +kernel)) (mont_lin _ _ _ _ (by decide +kernel))
theorem isoXN_0 : ((9 : ℕ) : Fq2 Fq) * (isoXN 0).val = (((304 : ℕ) : Fq2 Fq) - ((0 : ℕ) : Fq2 Fq)) + (((304 : ℕ) : Fq2 Fq) - ((0 : ℕ) : Fq2 Fq)) * I :=
  mk_lin _ _ 9 0 304 0 304 (mont_lin _ _ _ _ (by decide +kernel)) (mont_lin _ _ _ _ (by decide +kernel))
theorem isoXN_1 : ((9 : ℕ) : Fq2 Fq) * (isoXN 1).val = (((0 : ℕ) : Fq2 Fq) - ((0 : ℕ) : Fq2 Fq)) + (((0 : ℕ) : Fq2 Fq) - ((24 : ℕ) : Fq2 Fq)) * I :=
  mk_lin _ _ 9 0 0 24 0 (mont_lin _ _ _ _ (by decide +kernel)) (mont_lin _ _ _ _ (by decide +kernel))
theorem isoXN_2 : ((9 : ℕ) : Fq2 Fq) * (isoXN 2).val = (((12 : ℕ) : Fq2 Fq) - ((0 : ℕ) : Fq2 Fq)) + (((0 : ℕ) : Fq2 Fq) - ((12 : ℕ) : Fq2 Fq)) * I :=
  mk_lin _ _ 9 0 12 12 0 (mont_lin _ _ _ _ (by decide +kernel)) (mont_lin _ _ _ _ (by decide +kernel))
theorem isoXN_3 : ((9 : ℕ) : Fq2 Fq) * (isoXN 3).val = (((1 : ℕ) : Fq2 Fq) - ((0 : ℕ) : Fq2 Fq)) + (((0 : ℕ) : Fq2 Fq) - ((0 : ℕ) : Fq2 Fq)) * I :=
  mk_lin _ _ 9 0 1 0 0 (mont_lin _ _ _ _ (by decide +kernel)) (mont_lin _ _ _ _ (by decide +kernel))
theorem isoYD_0 : ((1 : ℕ) : Fq2 Fq) * (isoYD 0).val = (((0 : ℕ) : Fq2 Fq) - ((432 : ℕ) : Fq2 Fq)) + (((0 : ℕ) : Fq2 Fq) - ((432 : ℕ) : Fq2 Fq)) * I :=
  mk_lin _ _ 1 432 0 432 0 (mont_lin _ _ _ _ (by decide +kernel)) (mont_lin _ _ _ _ (by decide +kernel))
theorem isoYD_1 : ((1 : ℕ) : Fq2 Fq) * (isoYD 1).val = (((0 : ℕ) : Fq2 Fq) - ((0 : ℕ) : Fq2 Fq)) + (((0 : ℕ) : Fq2 Fq) - ((216 : ℕ) : Fq2 Fq)) * I :=
  mk_lin _ _ 1 0 0 216 0 (mont_lin _ _ _ _ (by decide +kernel)) (mont_lin _ _ _ _ (by decide +kernel))
theorem isoYD_2 : ((1 : ℕ) : Fq2 Fq) * (isoYD 2).val = (((18 : ℕ) : Fq2 Fq) - ((0 : ℕ) : Fq2 Fq)) + (((0 : ℕ) : Fq2 Fq) - ((18 : ℕ) : Fq2 Fq)) * I :=
  mk_lin _ _ 1 0 18 18 0 (mont_lin _ _ _ _ (by decide +kernel)) (mont_lin _ _ _ _ (by decide +kernel))
theorem isoYN_0 : ((27 : ℕ) : Fq2 Fq) * (isoYN 0).val = (((752 : ℕ) : Fq2 Fq) - ((0 : ℕ) : Fq2 Fq)) + (((752 : ℕ) : Fq2 Fq) - ((0 : ℕ) : Fq2 Fq)) * I :=
  mk_lin _ _ 27 0 752 0 752 (mont_lin _ _ _ _ (by decide +kernel)) (mont_lin _ _ _ _ (by decide +kernel))
theorem isoYN_1 : ((27 : ℕ) : Fq2 Fq) * (isoYN 1).val = (((0 : ℕ) : Fq2 Fq) - ((0 : ℕ) : Fq2 Fq)) + (((264 : ℕ) : Fq2 Fq) - ((0 : ℕ) : Fq2 Fq)) * I :=
  mk_lin _ _ 27 0 0 0 264 (mont_lin _ _ _ _ (by decide +kernel)) (mont_lin _ _ _ _ (by decide +kernel))
theorem isoYN_2 : ((27 : ℕ) : Fq2 Fq) * (isoYN 2).val = (((0 : ℕ) : Fq2 Fq) - ((18 : ℕ) : Fq2 Fq)) + (((18 : ℕ) : Fq2 Fq) - ((0 : ℕ) : Fq2 Fq)) * I :=
  mk_lin _ _ 27 18 0 0 18 (mont_lin _ _ _ _ (by decide +kernel)) (mont_lin _ _ _ _ (by decide +kernel))
theorem isoYN_3 : ((27 : ℕ) : Fq2 Fq) * (isoYN 3).val = (((0 : ℕ) : Fq2 Fq) - ((1 : ℕ) : Fq2 Fq)) + (((0 : ℕ) : Fq2 Fq) - ((0 : ℕ) : Fq2 Fq)) * I :=
  mk_lin _ _ 27 1 0 0 0 (mont_lin _ _ _ _ (by decide +kernel)) (mont_lin _ _ _ _ (by decide +kernel))

theorem nat_ne {n : ℕ} (h0 : 0 < n) (h1 : n < q) : ((n : ℕ) : Fq2 Fq) ≠ 0 := by
  intro h
  have := (CharP.cast_eq_zero_iff (Fq2 Fq) q n).1 h
  exact absurd (Nat.le_of_dvd h0 this) (not_le.2 h1)

theorem nine_ne : (9 : Fq2 Fq) ≠ 0 := by
  have := nat_ne (n := 9) (by norm_num) (by decide +kernel)
  simpa using this

theorem c27_ne : (27 : Fq2 Fq) ≠ 0 := by
  have := nat_ne (n := 27) (by norm_num) (by decide +kernel)
  simpa using this

attribute [local irreducible] q r isoXD isoXN isoYD isoYN

theorem xDen_val (x : E2 Fq) : (g2IsogenyXDenominator x).val = isoD x.val ^ 2 := by
  have h0 := isoXD_0
  have h1 := isoXD_1
  unfold g2IsogenyXDenominator isoD
  simp only [E2.val_add, E2.val_mul]
  push_cast at h0 h1
  linear_combination h0 + x.val * h1 - 36 * I_sq

theorem xNum_val (x : E2 Fq) : 9 * (g2IsogenyXNumerator x).val = x.val ^ 3 + 12 * (1 - I) * x.val ^ 2 - 24 * I * x.val + 304 * (1 + I) := by
  have h0 := isoXN_0
  have h1 := isoXN_1
  have h2 := isoXN_2
  have h3 := isoXN_3
  unfold g2IsogenyXNumerator
  simp only [E2.val_add, E2.val_mul]
  push_cast at h0 h1 h2 h3
  linear_combination h0 + x.val * h1 + x.val ^ 2 * h2 + x.val ^ 3 * h3

theorem yDen_val (x : E2 Fq) : (g2IsogenyYDenominator x).val = isoD x.val ^ 3 := by
  have h0 := isoYD_0
  have h1 := isoYD_1
  have h2 := isoYD_2
  unfold g2IsogenyYDenominator isoD
  simp only [E2.val_add, E2.val_mul]
  push_cast at h0 h1 h2
  linear_combination h0 + x.val * h1 + x.val ^ 2 * h2 - (108 * x.val + 648 - 216 * I) * I_sq

theorem yNum_val (x y : E2 Fq) : 27 * (g2IsogenyYNumerator x y).val =
    -y.val * (x.val ^ 3 + 18 * (1 - I) * x.val ^ 2 - 264 * I * x.val - 752 * (1 + I)) := by
  have h0 := isoYN_0
  have h1 := isoYN_1
  have h2 := isoYN_2
  have h3 := isoYN_3
  unfold g2IsogenyYNumerator
  simp only [E2.val_add, E2.val_mul]
  push_cast at h0 h1 h2 h3
  linear_combination y.val * (h0 + x.val * h1 + x.val ^ 2 * h2 + x.val ^ 3 * h3)

theorem inv_some_iff (x z : E2 Fq) : E2.inverse x = some z ↔ x.val ≠ 0 ∧ z.val = x.val⁻¹ := by
  constructor
  · intro h
    have h2 := E2.inverse_spec h
    have hx : x.val ≠ 0 := left_ne_zero_of_mul (by rw [h2]; exact one_ne_zero)
    exact ⟨hx, eq_inv_of_mul_eq_one_right h2⟩
  · rintro ⟨hx, hz⟩
    cases h : E2.inverse x with
    | none => exact absurd ((E2.inverse_none_iff x).1 h) hx
    | some w =>
      have h2 := E2.inverse_spec h
      have : w.val = z.val := by rw [hz]; exact eq_inv_of_mul_eq_one_right h2
      rw [E2.val_inj.1 this]

/-- `G2Isogeny` computes the isogeny of the RFC; it is unsatisfiable exactly at the abscissa of the kernel. -/
theorem iso_iff (p p' : G2Affine Fq) : g2Isogeny p = some p' ↔
    isoD p.x.val ≠ 0 ∧ p'.x.val = isoX p.x.val ∧ p'.y.val = isoY p.x.val p.y.val := by
  have h9 := nine_ne
  have h27 := c27_ne
  have ex : (g2IsogenyXNumerator p.x).val * (isoD p.x.val ^ 2)⁻¹ = isoX p.x.val := by
    unfold isoX
    rw [← xNum_val]
    field_simp
  have ey : (g2IsogenyYNumerator p.x p.y).val * (isoD p.x.val ^ 3)⁻¹ = isoY p.x.val p.y.val := by
    unfold isoY
    rw [← yNum_val]
    field_simp
  unfold g2Isogeny
  constructor
  · intro h
    obtain ⟨d1, h1, h⟩ := Option.bind_eq_some_iff.1 h
    obtain ⟨d0, h0, h⟩ := Option.bind_eq_some_iff.1 h
    obtain ⟨h1, e1⟩ := (inv_some_iff _ _).1 h1
    obtain ⟨h0, e0⟩ := (inv_some_iff _ _).1 h0
    rw [yDen_val] at h1 e1
    rw [xDen_val] at h0 e0
    have hp := (Option.some.inj h).symm
    subst hp
    refine ⟨fun h => h0 (by rw [h]; ring), ?_, ?_⟩
    · show (E2.mul _ _).val = _
      rw [E2.val_mul, e0, ex]
    · show (E2.mul _ _).val = _
      rw [E2.val_mul, e1, ey]
  · rintro ⟨hd, hx, hy⟩
    obtain ⟨d1, e1⟩ := E2.val_surj (K := Fq) (isoD p.x.val ^ 3)⁻¹
    obtain ⟨d0, e0⟩ := E2.val_surj (K := Fq) (isoD p.x.val ^ 2)⁻¹
    refine Option.bind_eq_some_iff.2 ⟨d1, ?_, Option.bind_eq_some_iff.2 ⟨d0, ?_, ?_⟩⟩
    · rw [inv_some_iff, yDen_val]
      exact ⟨pow_ne_zero _ hd, e1⟩
    · rw [inv_some_iff, xDen_val]
      exact ⟨pow_ne_zero _ hd, e0⟩
    · show some _ = some p'
      congr 1
      have a1 : E2.mul (g2IsogenyXNumerator p.x) d0 = p'.x := by
        rw [← E2.val_inj, E2.val_mul, e0, ex, hx]
      have a2 : E2.mul (g2IsogenyYNumerator p.x p.y) d1 = p'.y := by
        rw [← E2.val_inj, E2.val_mul, e1, ey, hy]
      rw [a1, a2]

/-- The identity behind the isogeny. -/
theorem iso_identity (x : Fq2 Fq) (hd : isoD x ≠ 0) :
    ((x ^ 3 + 18 * (1 - I) * x ^ 2 - 264 * I * x - 752 * (1 + I)) / (27 * isoD x ^ 3)) ^ 2 * g x = isoX x ^ 3 + 4 * (1 + I) := by
  have h9 := nine_ne
  have h27 := c27_ne
  have hI := I_sq
  have hA : RFC.A = 240 * I := by
    ext <;> simp [RFC.A, I]
  have hB : RFC.B = 1012 * (1 + I) := by
    ext <;> simp [RFC.B, I]
  unfold isoX RFC.g
  rw [hA, hB]
  have key : (x ^ 3 + 18 * (1 - I) * x ^ 2 - 264 * I * x - 752 * (1 + I)) ^ 2 * (x ^ 3 + 240 * I * x + 1012 * (1 + I)) =
      (x ^ 3 + 12 * (1 - I) * x ^ 2 - 24 * I * x + 304 * (1 + I)) ^ 3 + 2916 * (1 + I) * isoD x ^ 6 := by
    unfold isoD
    linear_combination ((408146688) * x ^ 0 * I ^ 0 + (2312831232) * x ^ 0 * I ^ 1 + (-1088391168) * x ^ 0 * I ^ 3 + (680244480) * x ^ 0 * I ^ 4 + (-136048896) * x ^ 0 * I ^ 5 + (-136048896) * x ^ 1 * I ^ 0 + (1088391168) * x ^ 1 * I ^ 1 + (544195584) * x ^ 1 * I ^ 2 + (-544195584) * x ^ 1 * I ^ 3 + (136048896) * x ^ 1 * I ^ 4 + (-87410880) * x ^ 2 * I ^ 0 + (139337280) * x ^ 2 * I ^ 1 + (170061120) * x ^ 2 * I ^ 2 + (-56687040) * x ^ 2 * I ^ 3 + (-13830912) * x ^ 3 * I ^ 0 + (7136640) * x ^ 3 * I ^ 1 + (12597120) * x ^ 3 * I ^ 2 + (-1378080) * x ^ 4 * I ^ 0 + (923616) * x ^ 4 * I ^ 1 + (-117504) * x ^ 5 * I ^ 0 + (88128) * x ^ 5 * I ^ 1 + (-6048) * x ^ 6 * I ^ 0 + (1728) * x ^ 6 * I ^ 1 + (-108) * x ^ 7 * I ^ 0) * hI
  generalize isoD x = D at *
  have e27 : (27 : Fq2 Fq) = 9 * 3 := by norm_num
  have h3 : (3 : Fq2 Fq) ≠ 0 := by
    intro h; apply h27; rw [e27, h, mul_zero]
  rw [e27]
  field_simp
  linear_combination 9 * key

end Verif.Bls
