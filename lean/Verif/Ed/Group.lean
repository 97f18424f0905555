import Verif.Ed.Model
import Verif.Ec.Edwards

/-! # The point gadgets compute in the group of the curve -/

namespace Verif.Ed
open Verif.Ec

variable {K : Type} [Field K] {a d : K}

/-- The coordinates of a curve point. -/
def ofPt (Q : EdPt a d) : Pt K := ⟨Q.x, Q.y⟩

theorem ofPt_inj {Q R : EdPt a d} : ofPt Q = ofPt R ↔ Q = R := by
  constructor
  · intro h
    simp only [ofPt, Pt.mk.injEq] at h
    exact EdPt.ext h.1 h.2
  · rintro rfl; rfl

theorem div_iff {x y e : K} (h : y ≠ 0) : div x y e ↔ e = x / y := by
  rw [div, eq_div_iff h]

theorem neg_ofPt [EdComplete a d] (Q : EdPt a d) : neg (ofPt Q) = ofPt (-Q) := rfl

theorem zeroPt_ofPt [EdComplete a d] : (zeroPt : Pt K) = ofPt (0 : EdPt a d) := rfl

theorem add_iff [EdComplete a d] (Q R : EdPt a d) (S : Pt K) : add a d (ofPt Q) (ofPt R) S ↔ S = ofPt (Q + R) := by
  have h1 : 1 + d * (R.y * Q.x) * (R.x * Q.y) ≠ 0 := by
    have := EdPt.den_add Q R
    intro h0; apply this; linear_combination h0
  have h2 : 1 - d * (R.y * Q.x) * (R.x * Q.y) ≠ 0 := by
    have := EdPt.den_sub Q R
    intro h0; apply this; linear_combination h0
  have ex : (R.y * Q.x + R.x * Q.y) / (1 + d * (R.y * Q.x) * (R.x * Q.y)) = (Q + R).x := by
    rw [EdPt.add_x]; congr 1 <;> ring
  have ey : (a * (R.y * Q.x) - R.x * Q.y + (Q.y - Q.x * a) * (R.x + R.y)) / (1 - d * (R.y * Q.x) * (R.x * Q.y)) = (Q + R).y := by
    rw [EdPt.add_y]; congr 1 <;> ring
  constructor
  · rintro ⟨px, hx, py, hy, rfl⟩
    replace hx := (div_iff h1).1 hx
    replace hy := (div_iff h2).1 hy
    subst hx; subst hy
    simp only [ofPt, Pt.mk.injEq]
    exact ⟨ex, ey⟩
  · rintro rfl
    exact ⟨_, (div_iff h1).2 ex.symm, _, (div_iff h2).2 ey.symm, rfl⟩

theorem double_iff [EdComplete a d] (Q : EdPt a d) (S : Pt K) : double a (ofPt Q) S ↔ S = ofPt (Q + Q) := by
  have e1 : Q.y * Q.y + Q.x * Q.x * a = 1 + d * Q.x * Q.x * Q.y * Q.y := by linear_combination Q.on
  have e2 : 2 - (Q.y * Q.y + Q.x * Q.x * a) = 1 - d * Q.x * Q.x * Q.y * Q.y := by linear_combination -Q.on
  have h1 : Q.y * Q.y + Q.x * Q.x * a ≠ 0 := by rw [e1]; exact EdPt.den_add Q Q
  have h2 : 2 - (Q.y * Q.y + Q.x * Q.x * a) ≠ 0 := by rw [e2]; exact EdPt.den_sub Q Q
  have ex : 2 * (Q.x * Q.y) / (Q.y * Q.y + Q.x * Q.x * a) = (Q + Q).x := by
    rw [EdPt.add_x, e1]; congr 1; ring
  have ey : (Q.y * Q.y - Q.x * Q.x * a) / (2 - (Q.y * Q.y + Q.x * Q.x * a)) = (Q + Q).y := by
    rw [EdPt.add_y, e2]; congr 1; ring
  constructor
  · rintro ⟨px, hx, py, hy, rfl⟩
    replace hx := (div_iff h1).1 hx
    replace hy := (div_iff h2).1 hy
    subst hx; subst hy
    simp only [ofPt, Pt.mk.injEq]
    exact ⟨ex, ey⟩
  · rintro rfl
    exact ⟨_, (div_iff h1).2 ex.symm, _, (div_iff h2).2 ey.symm, rfl⟩

theorem assertIsOnCurve_iff (S : Pt K) : assertIsOnCurve a d S () ↔ ∃ Q : EdPt a d, S = ofPt Q := by
  unfold assertIsOnCurve Rel.assert
  constructor
  · intro h
    exact ⟨⟨S.x, S.y, by linear_combination h⟩, rfl⟩
  · rintro ⟨Q, rfl⟩
    simp only [ofPt]
    linear_combination Q.on

theorem lookup2_ofPt (b0 b1 : Bool) (i0 i1 i2 i3 : EdPt a d) : lookup2 b0 b1 (ofPt i0) (ofPt i1) (ofPt i2) (ofPt i3)
    = ofPt (match b0, b1 with
      | false, false => i0
      | true, false => i1
      | false, true => i2
      | true, true => i3) := by
  cases b0 <;> cases b1 <;> rfl

theorem lookup_sum [EdComplete a d] (b0 b1 : Bool) (Q R : EdPt a d) : lookup2 b0 b1 zeroPt (ofPt Q) (ofPt R) (ofPt (Q + R))
    = ofPt (b0.toNat • Q + b1.toNat • R) := by
  rw [zeroPt_ofPt (a := a) (d := d), lookup2_ofPt]
  cases b0 <;> cases b1 <;> simp

theorem mod_succ (v k : ℕ) : v % 2 ^ (k + 1) = v % 2 ^ k + 2 ^ k * (v.testBit k).toNat := by
  rw [Nat.testBit_eq_decide_div_mod_eq, pow_succ, Nat.mod_mul]
  rcases Nat.mod_two_eq_zero_or_one (v / 2 ^ k) with h | h <;> simp [h]

theorem dbLoop_iff [EdComplete a d] (Q R : EdPt a d) (v w : ℕ) : ∀ (k : ℕ) (T : EdPt a d) (S : Pt K),
    dbLoop a d (ofPt Q) (ofPt R) (ofPt (Q + R)) v.testBit w.testBit k (ofPt T) S
      ↔ S = ofPt (2 ^ k • T + (v % 2 ^ k) • Q + (w % 2 ^ k) • R) := by
  intro k
  induction k with
  | zero =>
    intro T S
    simp only [dbLoop, pow_zero, one_smul, Nat.mod_one, zero_smul, add_zero]
    exact Iff.rfl
  | succ k ih =>
    intro T S
    have key : 2 ^ k • (T + T + ((v.testBit k).toNat • Q + (w.testBit k).toNat • R)) + (v % 2 ^ k) • Q + (w % 2 ^ k) • R
        = 2 ^ (k + 1) • T + (v % 2 ^ (k + 1)) • Q + (w % 2 ^ (k + 1)) • R := by
      rw [mod_succ, mod_succ, pow_succ]
      simp only [add_smul, smul_add, mul_smul, two_smul]
      abel
    rw [← key]
    constructor
    · rintro ⟨T1, h1, h2⟩
      rw [double_iff] at h1
      subst h1
      rw [lookup_sum] at h2
      obtain ⟨T2, h3, h4⟩ := h2
      rw [add_iff] at h3
      subst h3
      exact (ih _ _).1 h4
    · rintro rfl
      refine ⟨_, (double_iff _ _).2 rfl, ?_⟩
      rw [lookup_sum]
      exact ⟨_, (add_iff _ _ _).2 rfl, (ih _ _).2 rfl⟩

/-- The double-base gadget on the first `n` bits of `v` and `w`. -/
theorem doubleBase_iff [EdComplete a d] (Q R : EdPt a d) (v w n m : ℕ) (S : Pt K) :
    doubleBaseScalarMul a d (ofPt Q) (ofPt R) n m v.testBit w.testBit S
      ↔ (0 < n ∧ n ≤ m) ∧ S = ofPt ((v % 2 ^ n) • Q + (w % 2 ^ n) • R) := by
  have key : ∀ k, 2 ^ k • ((v.testBit k).toNat • Q + (w.testBit k).toNat • R) + (v % 2 ^ k) • Q + (w % 2 ^ k) • R
        = (v % 2 ^ (k + 1)) • Q + (w % 2 ^ (k + 1)) • R := by
    intro k
    rw [mod_succ, mod_succ]
    simp only [add_smul, smul_add, mul_smul]
    abel
  constructor
  · rintro ⟨T, h1, _, h2, h3⟩
    rw [add_iff] at h1
    subst h1
    refine ⟨h2, ?_⟩
    rw [lookup_sum, dbLoop_iff, key, Nat.sub_add_cancel h2.1] at h3
    exact h3
  · rintro ⟨h2, rfl⟩
    refine ⟨_, (add_iff _ _ _).2 rfl, (), h2, ?_⟩
    show dbLoop a d _ _ _ _ _ (n - 1) (lookup2 _ _ _ _ _ _) _
    rw [lookup_sum, dbLoop_iff, key, Nat.sub_add_cancel h2.1]

theorem lookup_win [EdComplete a d] (b0 b1 : Bool) (Q : EdPt a d) : lookup2 b0 b1 zeroPt (ofPt (Q + Q)) (ofPt Q) (ofPt (Q + Q + Q))
    = ofPt ((2 * b0.toNat + b1.toNat) • Q) := by
  rw [zeroPt_ofPt (a := a) (d := d), lookup2_ofPt]
  have h3 : (3 : ℕ) • Q = Q + Q + Q := by rw [show (3 : ℕ) = 2 + 1 from rfl, add_smul, two_smul, one_smul]
  cases b0 <;> cases b1 <;> simp [two_smul, h3]

/-- The loop of `scalarMul` started at bit index `i` consumes bits `i, i-1, …` in pairs, down to bit `(i+1) % 2`. -/
theorem smLoop_iff [EdComplete a d] (Q : EdPt a d) (v : ℕ) : ∀ (fuel k : ℕ) (T : EdPt a d) (S : Pt K), k ≤ 2 * fuel →
    (smLoop a d (ofPt Q) (ofPt (Q + Q)) (ofPt (Q + Q + Q)) v.testBit fuel ((k : ℤ) - 1) (ofPt T) S
      ↔ S = ofPt (2 ^ (k - k % 2) • T + (v % 2 ^ k / 2 ^ (k % 2)) • Q)) := by
  intro fuel
  induction fuel with
  | zero =>
    intro k T S hk
    have : k = 0 := by omega
    subst this
    simp only [smLoop, pow_zero, one_smul, Nat.mod_one, Nat.zero_mod, Nat.sub_zero, Nat.div_one, zero_smul, add_zero]
    exact Iff.rfl
  | succ fuel ih =>
    intro k T S hk
    rw [smLoop]
    split
    · rename_i h1
      obtain ⟨j, rfl⟩ : ∃ j, k = j + 2 := ⟨k - 2, by omega⟩
      have e1 : (((j + 2 : ℕ) : ℤ) - 1).toNat = j + 1 := by omega
      have e2 : (((j + 2 : ℕ) : ℤ) - 1 - 1).toNat = j := by omega
      have e3 : (((j + 2 : ℕ) : ℤ) - 1 - 2) = (j : ℤ) - 1 := by omega
      rw [e1, e2, e3, lookup_win]
      have hpar : (j + 2) % 2 = j % 2 := by omega
      have key : 2 ^ (j - j % 2) • (T + T + (T + T) + (2 * (v.testBit (j + 1)).toNat + (v.testBit j).toNat) • Q)
            + (v % 2 ^ j / 2 ^ (j % 2)) • Q
          = 2 ^ (j + 2 - (j + 2) % 2) • T + (v % 2 ^ (j + 2) / 2 ^ ((j + 2) % 2)) • Q := by
        have hj : 2 ^ j = 2 ^ (j % 2) * 2 ^ (j - j % 2) := by rw [← pow_add]; congr 1; have := Nat.mod_le j 2; omega
        have hv : v % 2 ^ (j + 2) / 2 ^ (j % 2) = v % 2 ^ j / 2 ^ (j % 2)
            + 2 ^ (j - j % 2) * (2 * (v.testBit (j + 1)).toNat + (v.testBit j).toNat) := by
          rw [mod_succ, mod_succ, add_assoc]
          rw [show 2 ^ j * (v.testBit j).toNat + 2 ^ (j + 1) * (v.testBit (j + 1)).toNat
            = 2 ^ (j % 2) * (2 ^ (j - j % 2) * (2 * (v.testBit (j + 1)).toNat + (v.testBit j).toNat)) by
              rw [pow_succ, hj]; ring]
          rw [Nat.add_mul_div_left _ _ (by positivity)]
        rw [hpar, hv, show j + 2 - j % 2 = j - j % 2 + 2 by have := Nat.mod_le j 2; omega, pow_add]
        simp only [add_smul, smul_add, mul_smul, show (2 : ℕ) ^ 2 = 4 from rfl]
        have : (4 : ℕ) • T = T + T + (T + T) := by rw [show (4 : ℕ) = 2 + 2 from rfl, add_smul, two_smul]
        rw [this]
        simp only [smul_add]
        abel
      rw [← key]
      constructor
      · rintro ⟨T1, h2, T2, h3, T3, h4, h5⟩
        rw [double_iff] at h2
        subst h2
        rw [double_iff] at h3
        subst h3
        rw [add_iff] at h4
        subst h4
        exact (ih _ _ _ (by omega)).1 h5
      · rintro rfl
        exact ⟨_, (double_iff _ _).2 rfl, _, (double_iff _ _).2 rfl, _, (add_iff _ _ _).2 rfl, (ih _ _ _ (by omega)).2 rfl⟩
    · rename_i h1
      have : k = 0 ∨ k = 1 := by omega
      rcases this with rfl | rfl
      · simp only [pow_zero, one_smul, Nat.mod_one, Nat.zero_mod, Nat.sub_zero, Nat.div_one, zero_smul, add_zero]
        exact Iff.rfl
      · have : v % 2 ^ 1 / 2 ^ (1 % 2) = 0 := by
          apply Nat.div_eq_of_lt
          exact Nat.mod_lt _ (by norm_num)
        rw [this]
        simp only [Nat.mod_succ, Nat.sub_self, pow_zero, one_smul, zero_smul, add_zero]
        exact Iff.rfl

/-- The windowed gadget on the first `len` bits of `v`. -/
theorem scalarMul_iff [EdComplete a d] (Q : EdPt a d) (v len : ℕ) (S : Pt K) :
    scalarMul a d (ofPt Q) len v.testBit S ↔ 2 ≤ len ∧ S = ofPt ((v % 2 ^ len) • Q) := by
  have split2 : ∀ k, v % 2 ^ (k + 2) = v % 2 ^ k + 2 ^ k * (2 * (v.testBit (k + 1)).toNat + (v.testBit k).toNat) := by
    intro k
    rw [mod_succ, mod_succ, pow_succ]; ring
  have odd : ∀ k, k % 2 = 0 → 2 ^ (k - k % 2) • (2 * (v.testBit (k + 1)).toNat + (v.testBit k).toNat) • Q
      + (v % 2 ^ k / 2 ^ (k % 2)) • Q = (v % 2 ^ (k + 2)) • Q := by
    intro k hk
    rw [hk, Nat.sub_zero, pow_zero, Nat.div_one, split2, add_smul (v % 2 ^ k), mul_smul (2 ^ k), add_comm]
  have even : ∀ k, k % 2 = 1 → ∀ T, T = 2 ^ (k - k % 2) • (2 * (v.testBit (k + 1)).toNat + (v.testBit k).toNat) • Q
      + (v % 2 ^ k / 2 ^ (k % 2)) • Q → (if v.testBit 0 then T + T + Q else T + T) = (v % 2 ^ (k + 2)) • Q := by
    rintro k hk T rfl
    have h1 : 2 ^ k = 2 * 2 ^ (k - 1) := by rw [← pow_succ']; congr 1; omega
    have h2 : v % 2 ^ k = 2 * (v % 2 ^ k / 2) + (v.testBit 0).toNat := by
      have e : (v.testBit 0).toNat = v % 2 ^ k % 2 := by
        rw [Nat.mod_mod_of_dvd _ (by rw [h1]; exact Dvd.intro _ rfl), Nat.testBit_zero]
        have := Nat.mod_two_eq_zero_or_one v
        rcases this with h | h <;> simp [h]
      rw [e]; omega
    rw [hk, pow_one, split2]
    set c := 2 * (v.testBit (k + 1)).toNat + (v.testBit k).toNat
    have : (v % 2 ^ k + 2 ^ k * c) • Q = (2 ^ (k - 1) • c • Q + (v % 2 ^ k / 2) • Q)
        + (2 ^ (k - 1) • c • Q + (v % 2 ^ k / 2) • Q) + (v.testBit 0).toNat • Q := by
      have h3 : v % 2 ^ k + 2 ^ k * c = (2 ^ (k - 1) * c + v % 2 ^ k / 2) + (2 ^ (k - 1) * c + v % 2 ^ k / 2)
          + (v.testBit 0).toNat := by
        have : 2 ^ k * c = 2 * (2 ^ (k - 1) * c) := by rw [h1]; ring
        omega
      rw [h3]
      simp only [add_smul, mul_smul]
    rw [this]
    cases v.testBit 0 <;> simp
  constructor
  · rintro ⟨A, h1, B, h2, _, h3, h4⟩
    rw [double_iff] at h1
    subst h1
    rw [add_iff] at h2
    subst h2
    refine ⟨h3, ?_⟩
    obtain ⟨k, rfl⟩ : ∃ k, len = k + 2 := ⟨len - 2, by simp only [Rel.assert] at h3; omega⟩
    simp only [show k + 2 - 1 = k + 1 by omega, Nat.add_sub_cancel] at h4
    rw [lookup_win, show (((k + 1 : ℕ) : ℤ) - 2) = (k : ℤ) - 1 by omega] at h4
    obtain ⟨R, h5, h6⟩ := h4
    rw [smLoop_iff _ _ _ _ _ _ (by omega)] at h5
    subst h5
    split at h6
    · rename_i hpar
      obtain ⟨T1, h7, T2, h8, rfl⟩ := h6
      rw [double_iff] at h7
      subst h7
      rw [add_iff] at h8
      subst h8
      rw [← even k (by omega) _ rfl]
      split <;> rfl
    · rename_i hpar
      rw [← odd k (by omega)]
      exact h6
  · rintro ⟨h3, rfl⟩
    obtain ⟨k, rfl⟩ : ∃ k, len = k + 2 := ⟨len - 2, by omega⟩
    refine ⟨_, (double_iff _ _).2 rfl, _, (add_iff _ _ _).2 rfl, (), h3, ?_⟩
    simp only [show k + 2 - 1 = k + 1 by omega, Nat.add_sub_cancel]
    rw [lookup_win, show (((k + 1 : ℕ) : ℤ) - 2) = (k : ℤ) - 1 by omega]
    refine ⟨_, (smLoop_iff _ _ _ _ _ _ (by omega)).2 rfl, ?_⟩
    split
    · rename_i hpar
      refine ⟨_, (double_iff _ _).2 rfl, _, (add_iff _ _ _).2 rfl, ?_⟩
      rw [← even k (by omega) _ rfl]
      show _ = _
      split <;> rfl
    · rename_i hpar
      rw [← odd k (by omega)]
      rfl

end Verif.Ed
