import Verif.Ed.Spec
import Mathlib.GroupTheory.OrderOfElement
import Mathlib.Data.Fintype.Prod
import Mathlib.SetTheory.Cardinal.Finite

/-! # edwards25519 has `8 L` points, and a point is determined by its encoding -/

namespace Verif.Ed
open Verif.Ec

/-- The denominator of `x² = (1 - y²) / (a - d y²)`. -/
theorem den_y (y : Fp) : cA - cD * y ^ 2 ≠ 0 := by
  intro h
  have hy : y ≠ 0 := by
    rintro rfl
    apply edComplete.ne
    linear_combination h
  apply edComplete.nsq
  refine ⟨sqrtM1 / y, ?_⟩
  rw [div_mul_div_comm, eq_div_iff (mul_ne_zero hy hy), sqrtM1_sq]
  change _ = cA
  linear_combination -h

theorem sq_eq (Q : Pt25519) : Q.x ^ 2 * (cA - cD * Q.y ^ 2) = 1 - Q.y ^ 2 := by linear_combination Q.on

theorem P_odd : P % 2 = 1 := by decide +kernel

/-- A point is determined by its ordinate and the parity of its abscissa. -/
theorem ext_parity {Q R : Pt25519} (hy : Q.y = R.y) (hx : Q.x.val % 2 = R.x.val % 2) : Q = R := by
  apply EdPt.ext _ hy
  have h1 : Q.x ^ 2 * (cA - cD * R.y ^ 2) = R.x ^ 2 * (cA - cD * R.y ^ 2) := by
    rw [sq_eq R, ← hy, sq_eq Q]
  have h2 := mul_right_cancel₀ (den_y R.y) h1
  rcases sq_eq_sq_iff_eq_or_eq_neg.1 h2 with h | h
  · exact h
  · by_cases h0 : R.x = 0
    · rw [h, h0, neg_zero]
    · exfalso
      rw [h, ZMod.neg_val, if_neg h0] at hx
      have := ZMod.val_lt R.x
      have hP := P_odd
      omega

theorem val_P (y : Fp) : y.val < 2 ^ 255 := lt_trans (ZMod.val_lt y) (by decide +kernel)

theorem leVal_leBytes (n v : ℕ) (h : v < 256 ^ n) : leVal (leBytes n v) = v := by
  induction n generalizing v with
  | zero =>
    have : v = 0 := by simpa using h
    subst this; rfl
  | succ n ih =>
    have e : leBytes (n + 1) v = (v % 256) :: leBytes n (v / 256) := by
      unfold leBytes
      rw [List.range_succ_eq_map, List.map_cons, List.map_map]
      congr 1
      · simp
      · apply List.map_congr_left
        intro i _
        simp only [Function.comp_apply]
        rw [pow_succ', Nat.div_div_eq_div_mul]
    rw [e, leVal, ih _ (Nat.div_lt_of_lt_mul (by rwa [← pow_succ'])), Nat.mod_add_div]

theorem encodeXY_val {x y : ℕ} (hy : y < 2 ^ 255) : leVal (encodeXY x y) = y + 2 ^ 255 * (x % 2) := by
  have : (256 : ℕ) ^ 32 = 2 ^ 255 * 2 := by norm_num
  exact leVal_leBytes 32 _ (by rw [this]; have := Nat.mod_lt x (show 0 < 2 by norm_num); omega)

/-- RFC 8032: a string decodes to at most one point. -/
theorem encode_inj {Q R : Pt25519} (h : encode Q = encode R) : Q = R := by
  have h1 := congrArg leVal h
  unfold encode at h1
  rw [encodeXY_val (val_P _), encodeXY_val (val_P _)] at h1
  have a := val_P Q.y
  have b := val_P R.y
  have c := Nat.mod_lt Q.x.val (show 0 < 2 by norm_num)
  have d := Nat.mod_lt R.x.val (show 0 < 2 by norm_num)
  apply ext_parity
  · apply ZMod.val_injective P; omega
  · omega

/-- The injection behind the bound on the number of points. -/
def key (Q : Pt25519) : Fp × Fin 2 := (Q.y, ⟨Q.x.val % 2, Nat.mod_lt _ (by norm_num)⟩)

theorem key_inj : Function.Injective key := by
  intro Q R h
  simp only [key, Prod.mk.injEq, Fin.mk.injEq] at h
  exact ext_parity h.1 h.2

noncomputable instance : Fintype Pt25519 := Fintype.ofInjective key key_inj

theorem card_le : Fintype.card Pt25519 ≤ P * 2 := by
  have h := Nat.card_le_card_of_injective key key_inj
  rwa [Nat.card_eq_fintype_card, Nat.card_prod, Nat.card_zmod, Nat.card_fin] at h

/-- Coordinates of a point of order eight. -/
def txN : ℕ := 14399317868200118260347934320527232580618823971194345261214217575416788799818

/-- See `txN`. -/
def tyN : ℕ := 55188659117513257062467267217118295137698188065244968500265048394206261417927

/-- A point of order eight. -/
def T8 : Pt25519 := ⟨(txN : ℕ), (tyN : ℕ), on_of_nat (by decide +kernel)⟩

theorem rep_T8 : Rep (txN, tyN, 1) T8 := by simp [Rep, T8]

theorem T8_eight : 8 • T8 = 0 :=
  rep_zero (pmul_rep rep_T8 4 8 (by decide +kernel)) (by decide +kernel) (by decide +kernel)

theorem T8_four : 4 • T8 ≠ 0 := by
  intro h
  have hr := pmul_rep rep_T8 4 4 (by decide +kernel)
  obtain ⟨hz, hx, hy⟩ := hr
  have h1 : (4 • T8).y = 1 := by rw [h]; rfl
  rw [h1, one_mul, ZMod.natCast_eq_natCast_iff'] at hy
  revert hy
  decide +kernel

theorem order_T8 : addOrderOf T8 = 2 ^ 3 := by
  apply addOrderOf_eq_prime_pow (p := 2) (n := 2)
  · exact T8_four
  · exact T8_eight

/-- The number of points. -/
theorem card_points : Fintype.card Pt25519 = 8 * L := by
  have h1 : L ∣ Fintype.card Pt25519 := by rw [← order_B]; exact addOrderOf_dvd_card
  have h2 : 2 ^ 3 ∣ Fintype.card Pt25519 := by rw [← order_T8]; exact addOrderOf_dvd_card
  have hc : Nat.Coprime (2 ^ 3) L := by decide +kernel
  obtain ⟨c, hcd⟩ := hc.mul_dvd_of_dvd_of_dvd h2 h1
  have hpos : 0 < Fintype.card Pt25519 := Fintype.card_pos
  have hle := card_le
  rw [hcd] at hle hpos ⊢
  have hb : P * 2 < 2 ^ 3 * L * 2 := by decide +kernel
  have c1 : c < 2 := by
    by_contra hge
    have : 2 ^ 3 * L * 2 ≤ 2 ^ 3 * L * c := Nat.mul_le_mul_left _ (by omega)
    omega
  have c0 : c ≠ 0 := by rintro rfl; omega
  have : c = 1 := by omega
  subst this
  norm_num

theorem eightL (Q : Pt25519) : (8 * L) • Q = 0 := by
  rw [← card_points]
  exact card_nsmul_eq_zero

/-- Scalars only matter modulo `L` in the equation multiplied by the cofactor. -/
theorem eight_smul_congr {k h : ℕ} (hk : k ≡ h [MOD L]) (Q : Pt25519) : 8 • k • Q = 8 • h • Q := by
  have : 8 * k ≡ 8 * h [MOD addOrderOf Q] :=
    (Nat.ModEq.mul_left' 8 hk).of_dvd (addOrderOf_dvd_of_nsmul_eq_zero (eightL Q))
  rw [← mul_smul, ← mul_smul]
  exact (nsmul_eq_nsmul_iff_modEq).2 this

end Verif.Ed
