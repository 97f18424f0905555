import Verif.Ed.Group
import Mathlib.NumberTheory.LegendreSymbol.Basic

/-! # edwards25519: the addition law is complete, the base point has order `L` -/

namespace Verif.Ed
open Verif.Ec

/-- A square root of `-1`. -/
def sqrtM1N : ℕ := 19681161376707505956807079304988542015446066515923890162744021073123829784752

/-- A square root of `-1`. -/
def sqrtM1 : Fp := (sqrtM1N : ℕ)

/-- The representative of the curve constant `d`. -/
def dN : ℕ := 37095705934669439343138083508754565189542113879843219016388785533085940283555

theorem cast_mod_eq {a b : ℕ} (h : a % P = b % P) : ((a : ℕ) : Fp) = (b : ℕ) := (ZMod.natCast_eq_natCast_iff' a b P).2 h

theorem sqrtM1_sq : sqrtM1 * sqrtM1 = -1 := by
  have h : (((sqrtM1N * sqrtM1N + 1 : ℕ)) : Fp) = ((0 : ℕ) : Fp) := cast_mod_eq (by decide +kernel)
  push_cast at h
  unfold sqrtM1
  linear_combination h

theorem pow_half_aux (e : ℕ) (he : e < 2 ^ 255) (h : (powMod P 255 dN e + 1) % P = 0 % P) : cD ^ e = -1 := by
  have h1 := powMod_cast P 255 dN e he
  have h2 := cast_mod_eq h
  rw [Nat.cast_add, h1] at h2
  push_cast at h2
  have hE : cD = ((dN : ℕ) : Fp) := rfl
  rw [hE]
  linear_combination h2

theorem pow_half : cD ^ (P / 2) = -1 := pow_half_aux (P / 2) (by decide +kernel) (by decide +kernel)

theorem two_ne : (2 : Fp) ≠ 0 := by
  intro h
  have h2 : ((2 : ℕ) : Fp) = ((0 : ℕ) : Fp) := by push_cast; exact h
  rw [ZMod.natCast_eq_natCast_iff'] at h2
  revert h2
  decide +kernel

theorem cD_ne : cD ≠ 0 := by
  intro h
  have h2 : ((dN : ℕ) : Fp) = ((0 : ℕ) : Fp) := by rw [Nat.cast_zero, ← h]; rfl
  rw [ZMod.natCast_eq_natCast_iff'] at h2
  revert h2
  decide +kernel

instance edComplete : EdComplete cA cD where
  two := two_ne
  ne := by unfold cA; exact neg_ne_zero.2 one_ne_zero
  sq := ⟨sqrtM1, sqrtM1_sq.symm⟩
  nsq := by
    rw [ZMod.euler_criterion P cD_ne, pow_half]
    intro h
    apply two_ne
    linear_combination -h

/-- Points of edwards25519. -/
abbrev Pt25519 := EdPt cA cD

/-- Representatives of the coordinates of the base point. -/
def bxN : ℕ := 15112221349535400772501151409588531511454012693041857206046113283949847762202

/-- See `bxN`. -/
def byN : ℕ := 46316835694926478169428394003475163141307993866256225615783033603165251855960

theorem on_of_nat {x y : ℕ} (h : (y * y) % P = (1 + dN * (x * x) * (y * y) + x * x) % P) :
    cA * (x : Fp) ^ 2 + (y : Fp) ^ 2 = 1 + cD * (x : Fp) ^ 2 * (y : Fp) ^ 2 := by
  have h1 := cast_mod_eq h
  push_cast at h1
  change _ = 1 + ((dN : ℕ) : Fp) * _ * _
  unfold cA
  linear_combination h1

/-- The base point. -/
def B : Pt25519 := ⟨(bxN : ℕ), (byN : ℕ), on_of_nat (by decide +kernel)⟩

theorem base_eq : base = ofPt B := rfl

/-! ## A projective multiplication for the kernel to run -/

/-- `X : Y : Z` stands for `Q`. -/
def Rep (t : ℕ × ℕ × ℕ) (Q : Pt25519) : Prop :=
  (t.2.2 : Fp) ≠ 0 ∧ (t.1 : Fp) = Q.x * (t.2.2 : Fp) ∧ (t.2.1 : Fp) = Q.y * (t.2.2 : Fp)

/-- Addition in projective coordinates. -/
def padd (s t : ℕ × ℕ × ℕ) : ℕ × ℕ × ℕ :=
  let A := s.2.2 * t.2.2 % P
  let b := A * A % P
  let C := s.1 * t.1 % P
  let D := s.2.1 * t.2.1 % P
  let E := dN * C % P * D % P
  let F := (b + (P - E)) % P
  let G := (b + E) % P
  (A * F % P * ((s.1 * t.2.1 + s.2.1 * t.1) % P) % P, A * G % P * ((D + C) % P) % P, F * G % P)

theorem cast_sub_mod (E : ℕ) : ((P - E % P : ℕ) : Fp) = -(E : Fp) := by
  have h : E % P < P := Nat.mod_lt _ (by decide +kernel)
  rw [Nat.cast_sub h.le, ZMod.natCast_mod, ZMod.natCast_self, zero_sub]

theorem padd_rep {s t : ℕ × ℕ × ℕ} {Q R : Pt25519} (hs : Rep s Q) (ht : Rep t R) : Rep (padd s t) (Q + R) := by
  obtain ⟨X1, Y1, Z1⟩ := s
  obtain ⟨X2, Y2, Z2⟩ := t
  obtain ⟨hz1, hx1, hy1⟩ := hs
  obtain ⟨hz2, hx2, hy2⟩ := ht
  dsimp only at *
  have hp := EdPt.den_add Q R
  have hm := EdPt.den_sub Q R
  have ex : (Q + R).x * (1 + cD * Q.x * R.x * Q.y * R.y) = Q.x * R.y + R.x * Q.y := by
    rw [EdPt.add_x, div_mul_cancel₀ _ hp]
  have ey : (Q + R).y * (1 - cD * Q.x * R.x * Q.y * R.y) = Q.y * R.y - cA * Q.x * R.x := by
    rw [EdPt.add_y, div_mul_cancel₀ _ hm]
  have hE : ((dN : ℕ) : Fp) = cD := rfl
  have hF : ((Z1 : Fp) * Z2 * (Z1 * Z2) + -(cD * (X1 * X2) * (Y1 * Y2))) = (Z1 * Z2) ^ 2 * (1 - cD * Q.x * R.x * Q.y * R.y) := by
    rw [hx1, hx2, hy1, hy2]; ring
  have hG : ((Z1 : Fp) * Z2 * (Z1 * Z2) + cD * (X1 * X2) * (Y1 * Y2)) = (Z1 * Z2) ^ 2 * (1 + cD * Q.x * R.x * Q.y * R.y) := by
    rw [hx1, hx2, hy1, hy2]; ring
  refine ⟨?_, ?_, ?_⟩
  · simp only [padd, ZMod.natCast_mod, Nat.cast_mul, Nat.cast_add, cast_sub_mod, hE]
    rw [hF, hG]
    exact mul_ne_zero (mul_ne_zero (pow_ne_zero _ (mul_ne_zero hz1 hz2)) hm) (mul_ne_zero (pow_ne_zero _ (mul_ne_zero hz1 hz2)) hp)
  · simp only [padd, ZMod.natCast_mod, Nat.cast_mul, Nat.cast_add, cast_sub_mod, hE]
    rw [hF, hG, hx1, hx2, hy1, hy2]
    linear_combination (-(Z1 : Fp) ^ 4 * Z2 ^ 4 * (1 - cD * Q.x * R.x * Q.y * R.y)) * ex
  · simp only [padd, ZMod.natCast_mod, Nat.cast_mul, Nat.cast_add, cast_sub_mod, hE]
    rw [hF, hG, hx1, hx2, hy1, hy2]
    have hA : cA = -1 := rfl
    linear_combination (-(Z1 : Fp) ^ 4 * Z2 ^ 4 * (1 + cD * Q.x * R.x * Q.y * R.y)) * (ey - Q.x * R.x * hA)

/-- Double-and-add in projective coordinates, on at most `f` bits. -/
def pmul (t : ℕ × ℕ × ℕ) : ℕ → ℕ → ℕ × ℕ × ℕ
  | 0, _ => (0, 1, 1)
  | f + 1, n =>
    let h := pmul t f (n / 2)
    if n % 2 = 1 then padd (padd h h) t else padd h h

theorem pmul_rep {t : ℕ × ℕ × ℕ} {Q : Pt25519} (ht : Rep t Q) : ∀ (f n : ℕ), n < 2 ^ f → Rep (pmul t f n) (n • Q) := by
  intro f
  induction f with
  | zero =>
    intro n hn
    have : n = 0 := by simpa using hn
    subst this
    simp [pmul, Rep]
  | succ f ih =>
    intro n hn
    have h := ih (n / 2) (by rw [pow_succ] at hn; omega)
    rw [pmul]
    have h2 := padd_rep h h
    rw [← add_smul] at h2
    split
    · have h3 := padd_rep h2 ht
      have e : n • Q = (n / 2 + n / 2) • Q + Q := by
        conv_lhs => rw [show n = (n / 2 + n / 2) + 1 by omega]
        rw [add_smul (n / 2 + n / 2), one_smul]
      rw [e]; exact h3
    · rw [show n = n / 2 + n / 2 by omega]
      rw [show (n / 2 + n / 2) / 2 = n / 2 by omega]
      exact h2

theorem rep_B : Rep (bxN, byN, 1) B := by simp [Rep, B]

theorem rep_zero {t : ℕ × ℕ × ℕ} {Q : Pt25519} (h : Rep t Q) (h0 : t.1 % P = 0) (h1 : t.2.1 % P = t.2.2 % P) : Q = 0 := by
  obtain ⟨hz, hx, hy⟩ := h
  have a0 : (t.1 : Fp) = ((0 : ℕ) : Fp) := cast_mod_eq (by rw [h0]; rfl)
  have a1 : (t.2.1 : Fp) = (t.2.2 : Fp) := cast_mod_eq h1
  apply EdPt.ext
  · rw [EdPt.zero_x]
    rw [a0, Nat.cast_zero] at hx
    exact (mul_eq_zero.1 hx.symm).resolve_right hz
  · rw [EdPt.zero_y]
    rw [a1] at hy
    exact (mul_eq_right₀ hz).1 hy.symm

/-- The base point has order dividing `L`. -/
theorem L_smul_B : L • B = 0 :=
  rep_zero (pmul_rep rep_B 253 L (by decide +kernel)) (by decide +kernel) (by decide +kernel)

theorem B_ne : B ≠ 0 := by
  intro h
  have : B.x = 0 := by rw [h]; rfl
  have h2 : ((bxN : ℕ) : Fp) = ((0 : ℕ) : Fp) := by rw [Nat.cast_zero]; exact this
  rw [ZMod.natCast_eq_natCast_iff'] at h2
  revert h2
  decide +kernel

/-- The base point has order `L`. -/
theorem order_B : addOrderOf B = L := by
  have : Fact L.Prime := fact_L
  exact addOrderOf_eq_prime L_smul_B B_ne

end Verif.Ed
