import Verif.EdHost.FieldModel

/-! # Limb arithmetic of the host field: no operation overflows, and each computes in GF(2^255-19) -/

namespace Verif.EdHost
open Verif.Ed

/-- The integer an element stands for (fe.go:24-25). -/
def Elt.nat (e : Elt) : ℕ := e.l0 + e.l1 * 2 ^ 51 + e.l2 * 2 ^ 102 + e.l3 * 2 ^ 153 + e.l4 * 2 ^ 204

/-- Its residue. -/
def Elt.val (e : Elt) : Fp := (e.nat : ℕ)

/-- The limb bound every operation keeps. -/
def lim : ℕ := 2 ^ 51 + 2 ^ 39

/-- Every limb is below `2^51 + 2^39`. -/
structure Ok (e : Elt) : Prop where
  h0 : e.l0 < lim
  h1 : e.l1 < lim
  h2 : e.l2 < lim
  h3 : e.l3 < lim
  h4 : e.l4 < lim

theorem and_mask (x : ℕ) : x &&& mask51 = x % 2 ^ 51 := Nat.and_two_pow_sub_one_eq_mod x 51

theorem shr51 (x : ℕ) : x >>> 51 = x / 2 ^ 51 := Nat.shiftRight_eq_div_pow x 51

theorem two255 : (2 : Fp) ^ 255 = 19 := by
  have h : ((2 ^ 255 : ℕ) : Fp) = ((19 : ℕ) : Fp) := cast_mod_eq (by decide +kernel)
  rw [Nat.cast_pow, Nat.cast_ofNat, Nat.cast_ofNat] at h
  exact h

/-- Limbs as 64-bit words. -/
structure W64 (e : Elt) : Prop where
  h0 : e.l0 < 2 ^ 64
  h1 : e.l1 < 2 ^ 64
  h2 : e.l2 < 2 ^ 64
  h3 : e.l3 < 2 ^ 64
  h4 : e.l4 < 2 ^ 64

theorem Ok.w {e : Elt} (h : Ok e) : W64 e := by
  obtain ⟨h0, h1, h2, h3, h4⟩ := h
  unfold lim at *
  constructor <;> omega

theorem carry_eq {v : Elt} (h : W64 v) : carryPropagate v =
    ⟨v.l0 % 2 ^ 51 + v.l4 / 2 ^ 51 * 19, v.l1 % 2 ^ 51 + v.l0 / 2 ^ 51, v.l2 % 2 ^ 51 + v.l1 / 2 ^ 51,
      v.l3 % 2 ^ 51 + v.l2 / 2 ^ 51, v.l4 % 2 ^ 51 + v.l3 / 2 ^ 51⟩ := by
  obtain ⟨h0, h1, h2, h3, h4⟩ := h
  unfold carryPropagate add64 mulw
  simp only [and_mask, shr51, Elt.mk.injEq]
  refine ⟨?_, ?_, ?_, ?_, ?_⟩ <;> omega

/-- After a carry, limbs are below `2^51 + 2^18`. -/
theorem carry_lt {v : Elt} (h : W64 v) : (carryPropagate v).l0 < 2 ^ 51 + 2 ^ 18 ∧ (carryPropagate v).l1 < 2 ^ 51 + 2 ^ 18 ∧
    (carryPropagate v).l2 < 2 ^ 51 + 2 ^ 18 ∧ (carryPropagate v).l3 < 2 ^ 51 + 2 ^ 18 ∧ (carryPropagate v).l4 < 2 ^ 51 + 2 ^ 18 := by
  rw [carry_eq h]
  obtain ⟨h0, h1, h2, h3, h4⟩ := h
  dsimp only
  refine ⟨?_, ?_, ?_, ?_, ?_⟩ <;> omega

theorem carry_ok {v : Elt} (h : W64 v) : Ok (carryPropagate v) := by
  obtain ⟨h0, h1, h2, h3, h4⟩ := carry_lt h
  constructor <;> (unfold lim; omega)

theorem carry_nat {v : Elt} (h : W64 v) : (carryPropagate v).nat + v.l4 / 2 ^ 51 * 2 ^ 255 = v.nat + v.l4 / 2 ^ 51 * 19 := by
  rw [carry_eq h]
  unfold Elt.nat
  dsimp only
  omega

theorem carry_val {v : Elt} (h : W64 v) : (carryPropagate v).val = v.val := by
  have h1 := congrArg (Nat.cast (R := Fp)) (carry_nat h)
  unfold Elt.val
  rw [Nat.cast_add, Nat.cast_add, Nat.cast_mul, Nat.cast_mul, Nat.cast_pow, Nat.cast_ofNat, two255, Nat.cast_ofNat] at h1
  exact add_right_cancel h1

theorem add_val {a b : Elt} (ha : Ok a) (hb : Ok b) : Ok (feAdd a b) ∧ (feAdd a b).val = a.val + b.val := by
  obtain ⟨a0, a1, a2, a3, a4⟩ := ha
  obtain ⟨b0, b1, b2, b3, b4⟩ := hb
  unfold lim at *
  have hw : W64 ⟨add64 a.l0 b.l0, add64 a.l1 b.l1, add64 a.l2 b.l2, add64 a.l3 b.l3, add64 a.l4 b.l4⟩ := by
    constructor <;> exact Nat.mod_lt _ (by norm_num)
  refine ⟨carry_ok hw, ?_⟩
  unfold feAdd
  rw [carry_val hw]
  unfold Elt.val
  rw [← Nat.cast_add]
  congr 1
  unfold Elt.nat add64
  dsimp only
  omega

/-- `2p` in the limbs of `Subtract`. -/
theorem twoP : 0xFFFFFFFFFFFDA + 0xFFFFFFFFFFFFE * 2 ^ 51 + 0xFFFFFFFFFFFFE * 2 ^ 102 + 0xFFFFFFFFFFFFE * 2 ^ 153 + 0xFFFFFFFFFFFFE * 2 ^ 204 = 2 * P := by
  decide +kernel

theorem sub_val {a b : Elt} (ha : Ok a) (hb : Ok b) : Ok (feSub a b) ∧ (feSub a b).val = a.val - b.val := by
  obtain ⟨a0, a1, a2, a3, a4⟩ := ha
  obtain ⟨b0, b1, b2, b3, b4⟩ := hb
  unfold lim at *
  have hw : W64 ⟨sub64 (add64 a.l0 0xFFFFFFFFFFFDA) b.l0, sub64 (add64 a.l1 0xFFFFFFFFFFFFE) b.l1,
    sub64 (add64 a.l2 0xFFFFFFFFFFFFE) b.l2, sub64 (add64 a.l3 0xFFFFFFFFFFFFE) b.l3, sub64 (add64 a.l4 0xFFFFFFFFFFFFE) b.l4⟩ := by
    constructor <;> exact Nat.mod_lt _ (by norm_num)
  refine ⟨carry_ok hw, ?_⟩
  unfold feSub
  rw [carry_val hw]
  have key : Elt.nat ⟨sub64 (add64 a.l0 0xFFFFFFFFFFFDA) b.l0, sub64 (add64 a.l1 0xFFFFFFFFFFFFE) b.l1,
    sub64 (add64 a.l2 0xFFFFFFFFFFFFE) b.l2, sub64 (add64 a.l3 0xFFFFFFFFFFFFE) b.l3, sub64 (add64 a.l4 0xFFFFFFFFFFFFE) b.l4⟩ + b.nat = a.nat + 2 * P := by
    rw [← twoP]
    unfold Elt.nat add64 sub64
    dsimp only
    omega
  have h1 := congrArg (Nat.cast (R := Fp)) key
  unfold Elt.val
  push_cast at h1
  rw [show ((P : ℕ) : Fp) = 0 from ZMod.natCast_self P] at h1
  linear_combination h1

theorem zero_ok : Ok feZero := by constructor <;> (unfold lim feZero; norm_num)
theorem one_ok : Ok feOne := by constructor <;> (unfold lim feOne; norm_num)
theorem zero_val : feZero.val = 0 := by simp [Elt.val, Elt.nat, feZero]
theorem one_val : feOne.val = 1 := by simp [Elt.val, Elt.nat, feOne]

theorem neg_val {a : Elt} (ha : Ok a) : Ok (feNeg a) ∧ (feNeg a).val = -a.val := by
  have h := sub_val zero_ok ha
  rw [zero_val, zero_sub] at h
  exact h

/-! ## 128-bit accumulators -/

/-- The number a `uint128` stands for. -/
def U128.nat (u : U128) : ℕ := u.lo + 2 ^ 64 * u.hi

/-- The words fit. -/
def U128.Wf (u : U128) : Prop := u.lo < 2 ^ 64 ∧ u.hi < 2 ^ 64

theorem mul64_nat (a b : ℕ) : (mul64 a b).nat = a * b := by
  unfold mul64 U128.nat
  exact Nat.mod_add_div _ _

theorem mul64_wf {a b : ℕ} (h : a * b < 2 ^ 128) : (mul64 a b).Wf := by
  unfold mul64 U128.Wf
  generalize a * b = x at *
  dsimp only
  omega

theorem addMul64_nat {v : U128} {a b : ℕ} (hv : v.Wf) (h : v.nat + a * b < 2 ^ 128) :
    (addMul64 v a b).nat = v.nat + a * b ∧ (addMul64 v a b).Wf := by
  unfold addMul64 U128.nat U128.Wf at *
  generalize a * b = x at *
  dsimp only
  omega

theorem shr_nat {v : U128} (hv : v.Wf) (h : v.nat < 2 ^ 115) : shiftRightBy51 v = v.nat / 2 ^ 51 := by
  unfold shiftRightBy51 shl64 U128.nat U128.Wf at *
  have e : v.hi <<< (64 - 51) % 2 ^ 64 = v.hi <<< 13 := by
    rw [show 64 - 51 = 13 from rfl, Nat.shiftLeft_eq]
    omega
  rw [e, shr51, ← Nat.shiftLeft_add_eq_or_of_lt (by omega : v.lo / 2 ^ 51 < 2 ^ 13), Nat.shiftLeft_eq]
  omega

theorem lo_mask {v : U128} : v.lo &&& mask51 = v.nat % 2 ^ 51 := by
  rw [and_mask]
  unfold U128.nat
  omega

/-- The columns after multiplication: what `finish` makes of them. -/
theorem finish_val {r0 r1 r2 r3 r4 : U128} (w0 : r0.Wf) (w1 : r1.Wf) (w2 : r2.Wf) (w3 : r3.Wf) (w4 : r4.Wf)
    (b0 : r0.nat < 2 ^ 112) (b1 : r1.nat < 2 ^ 112) (b2 : r2.nat < 2 ^ 112) (b3 : r3.nat < 2 ^ 112) (b4 : r4.nat < 2 ^ 108) :
    Ok (finish r0 r1 r2 r3 r4) ∧ (finish r0 r1 r2 r3 r4).val =
      ((r0.nat + r1.nat * 2 ^ 51 + r2.nat * 2 ^ 102 + r3.nat * 2 ^ 153 + r4.nat * 2 ^ 204 : ℕ) : Fp) := by
  have s0 := shr_nat w0 (by omega)
  have s1 := shr_nat w1 (by omega)
  have s2 := shr_nat w2 (by omega)
  have s3 := shr_nat w3 (by omega)
  have s4 := shr_nat w4 (by omega)
  unfold finish
  simp only [lo_mask, s0, s1, s2, s3, s4]
  clear s0 s1 s2 s3 s4 w0 w1 w2 w3 w4
  generalize r0.nat = x0 at *
  generalize r1.nat = x1 at *
  generalize r2.nat = x2 at *
  generalize r3.nat = x3 at *
  generalize r4.nat = x4 at *
  have hw : W64 ⟨add64 (x0 % 2 ^ 51) (mulw (x4 / 2 ^ 51) 19), add64 (x1 % 2 ^ 51) (x0 / 2 ^ 51), add64 (x2 % 2 ^ 51) (x1 / 2 ^ 51),
      add64 (x3 % 2 ^ 51) (x2 / 2 ^ 51), add64 (x4 % 2 ^ 51) (x3 / 2 ^ 51)⟩ := by
    constructor <;> exact Nat.mod_lt _ (by norm_num)
  refine ⟨carry_ok hw, ?_⟩
  rw [carry_val hw]
  have key : Elt.nat ⟨add64 (x0 % 2 ^ 51) (mulw (x4 / 2 ^ 51) 19), add64 (x1 % 2 ^ 51) (x0 / 2 ^ 51), add64 (x2 % 2 ^ 51) (x1 / 2 ^ 51),
      add64 (x3 % 2 ^ 51) (x2 / 2 ^ 51), add64 (x4 % 2 ^ 51) (x3 / 2 ^ 51)⟩ + x4 / 2 ^ 51 * 2 ^ 255 =
      x0 + x1 * 2 ^ 51 + x2 * 2 ^ 102 + x3 * 2 ^ 153 + x4 * 2 ^ 204 + x4 / 2 ^ 51 * 19 := by
    unfold Elt.nat add64 mulw
    dsimp only
    omega
  have h1 := congrArg (Nat.cast (R := Fp)) key
  unfold Elt.val
  rw [Nat.cast_add, Nat.cast_add _ (x4 / 2 ^ 51 * 19), Nat.cast_mul, Nat.cast_mul (x4 / 2 ^ 51), Nat.cast_pow, Nat.cast_ofNat, two255, Nat.cast_ofNat] at h1
  exact add_right_cancel h1

theorem mul_lim {a b x y : ℕ} (h1 : a < x) (h2 : b < y) : a * b < x * y := Nat.mul_lt_mul'' h1 h2

theorem col5 {a1 b1 a2 b2 a3 b3 a4 b4 a5 b5 : ℕ} (h1 : a1 * b1 < 2 ^ 108) (h2 : a2 * b2 < 2 ^ 108) (h3 : a3 * b3 < 2 ^ 108)
    (h4 : a4 * b4 < 2 ^ 108) (h5 : a5 * b5 < 2 ^ 108) :
    let r := addMul64 (addMul64 (addMul64 (addMul64 (mul64 a1 b1) a2 b2) a3 b3) a4 b4) a5 b5
    r.nat = a1 * b1 + a2 * b2 + a3 * b3 + a4 * b4 + a5 * b5 ∧ r.Wf := by
  intro r
  have e1 := mul64_nat a1 b1
  have w1 : (mul64 a1 b1).Wf := mul64_wf (by omega)
  obtain ⟨e2, w2⟩ := addMul64_nat (a := a2) (b := b2) w1 (by omega)
  obtain ⟨e3, w3⟩ := addMul64_nat (a := a3) (b := b3) w2 (by omega)
  obtain ⟨e4, w4⟩ := addMul64_nat (a := a4) (b := b4) w3 (by omega)
  obtain ⟨e5, w5⟩ := addMul64_nat (a := a5) (b := b5) w4 (by omega)
  exact ⟨by rw [e5, e4, e3, e2, e1], w5⟩

theorem col3 {a1 b1 a2 b2 a3 b3 : ℕ} (h1 : a1 * b1 < 2 ^ 109) (h2 : a2 * b2 < 2 ^ 109) (h3 : a3 * b3 < 2 ^ 109) :
    let r := addMul64 (addMul64 (mul64 a1 b1) a2 b2) a3 b3
    r.nat = a1 * b1 + a2 * b2 + a3 * b3 ∧ r.Wf := by
  intro r
  have e1 := mul64_nat a1 b1
  have w1 : (mul64 a1 b1).Wf := mul64_wf (by omega)
  obtain ⟨e2, w2⟩ := addMul64_nat (a := a2) (b := b2) w1 (by omega)
  obtain ⟨e3, w3⟩ := addMul64_nat (a := a3) (b := b3) w2 (by omega)
  exact ⟨by rw [e3, e2, e1], w3⟩

theorem mulw_eq {a : ℕ} (k : ℕ) (h : a < lim) (hk : k ≤ 38) : mulw a k = a * k := by
  unfold mulw
  apply Nat.mod_eq_of_lt
  have h1 : a * k ≤ lim * 38 := Nat.mul_le_mul h.le hk
  unfold lim at h1
  omega

/-- The bound on plain products. -/
theorem pb {a b : ℕ} (ha : a < lim) (hb : b < lim) : a * b < lim * lim := Nat.mul_lt_mul'' ha hb

/-- The bound on products with a small factor. -/
theorem pbk {a b : ℕ} (k : ℕ) (ha : a < lim) (hb : b < lim) : a * k * b ≤ k * (lim * lim) := by
  have := (pb ha hb).le
  calc a * k * b = k * (a * b) := by ring
    _ ≤ _ := Nat.mul_le_mul_left _ this

theorem lim_sq : lim * lim < 2 ^ 102 + 2 ^ 92 := by unfold lim; norm_num

theorem mul_val {a b : Elt} (ha : Ok a) (hb : Ok b) : Ok (feMul a b) ∧ (feMul a b).val = a.val * b.val := by
  obtain ⟨a0, a1, a2, a3, a4⟩ := ha
  obtain ⟨b0, b1, b2, b3, b4⟩ := hb
  have hl := lim_sq
  unfold feMul
  simp only [mulw_eq 19 a1 (by norm_num), mulw_eq 19 a2 (by norm_num), mulw_eq 19 a3 (by norm_num), mulw_eq 19 a4 (by norm_num)]
  have p00 := pb a0 b0
  have p01 := pb a0 b1
  have p02 := pb a0 b2
  have p03 := pb a0 b3
  have p04 := pb a0 b4
  have p10 := pb a1 b0
  have p11 := pb a1 b1
  have p12 := pb a1 b2
  have p13 := pb a1 b3
  have p14 := pbk 19 a1 b4
  have p20 := pb a2 b0
  have p21 := pb a2 b1
  have p22 := pb a2 b2
  have p23 := pbk 19 a2 b3
  have p24 := pbk 19 a2 b4
  have p30 := pb a3 b0
  have p31 := pb a3 b1
  have p32 := pbk 19 a3 b2
  have p33 := pbk 19 a3 b3
  have p34 := pbk 19 a3 b4
  have p40 := pb a4 b0
  have p41 := pbk 19 a4 b1
  have p42 := pbk 19 a4 b2
  have p43 := pbk 19 a4 b3
  have p44 := pbk 19 a4 b4
  generalize lim * lim = M at *
  obtain ⟨e0, w0⟩ := col5 (a1 := a.l0) (b1 := b.l0) (a2 := a.l1 * 19) (b2 := b.l4) (a3 := a.l2 * 19) (b3 := b.l3) (a4 := a.l3 * 19) (b4 := b.l2)
    (a5 := a.l4 * 19) (b5 := b.l1) (by omega) (by omega) (by omega) (by omega) (by omega)
  obtain ⟨e1, w1⟩ := col5 (a1 := a.l0) (b1 := b.l1) (a2 := a.l1) (b2 := b.l0) (a3 := a.l2 * 19) (b3 := b.l4) (a4 := a.l3 * 19) (b4 := b.l3)
    (a5 := a.l4 * 19) (b5 := b.l2) (by omega) (by omega) (by omega) (by omega) (by omega)
  obtain ⟨e2, w2⟩ := col5 (a1 := a.l0) (b1 := b.l2) (a2 := a.l1) (b2 := b.l1) (a3 := a.l2) (b3 := b.l0) (a4 := a.l3 * 19) (b4 := b.l4)
    (a5 := a.l4 * 19) (b5 := b.l3) (by omega) (by omega) (by omega) (by omega) (by omega)
  obtain ⟨e3, w3⟩ := col5 (a1 := a.l0) (b1 := b.l3) (a2 := a.l1) (b2 := b.l2) (a3 := a.l2) (b3 := b.l1) (a4 := a.l3) (b4 := b.l0)
    (a5 := a.l4 * 19) (b5 := b.l4) (by omega) (by omega) (by omega) (by omega) (by omega)
  obtain ⟨e4, w4⟩ := col5 (a1 := a.l0) (b1 := b.l4) (a2 := a.l1) (b2 := b.l3) (a3 := a.l2) (b3 := b.l2) (a4 := a.l3) (b4 := b.l1)
    (a5 := a.l4) (b5 := b.l0) (by omega) (by omega) (by omega) (by omega) (by omega)
  obtain ⟨ho, hv⟩ := finish_val w0 w1 w2 w3 w4 (by omega) (by omega) (by omega) (by omega) (by omega)
  refine ⟨ho, ?_⟩
  rw [hv, e0, e1, e2, e3, e4]
  unfold Elt.val Elt.nat
  have h255 := two255
  have q : ∀ x : Fp, x * 2 ^ 255 = x * 19 := fun x => by rw [h255]
  push_cast
  generalize ((a.l0 : ℕ) : Fp) = A0
  generalize ((a.l1 : ℕ) : Fp) = A1
  generalize ((a.l2 : ℕ) : Fp) = A2
  generalize ((a.l3 : ℕ) : Fp) = A3
  generalize ((a.l4 : ℕ) : Fp) = A4
  generalize ((b.l0 : ℕ) : Fp) = B0
  generalize ((b.l1 : ℕ) : Fp) = B1
  generalize ((b.l2 : ℕ) : Fp) = B2
  generalize ((b.l3 : ℕ) : Fp) = B3
  generalize ((b.l4 : ℕ) : Fp) = B4
  linear_combination (-(A1 * B4 + A2 * B3 + A3 * B2 + A4 * B1) - 2 ^ 51 * (A2 * B4 + A3 * B3 + A4 * B2) - 2 ^ 102 * (A3 * B4 + A4 * B3) - 2 ^ 153 * (A4 * B4)) * h255

theorem sq_val {a : Elt} (ha : Ok a) : Ok (feSquare a) ∧ (feSquare a).val = a.val * a.val := by
  obtain ⟨a0, a1, a2, a3, a4⟩ := ha
  have hl := lim_sq
  unfold feSquare
  simp only [mulw_eq 19 a3 (by norm_num), mulw_eq 19 a4 (by norm_num), mulw_eq 38 a1 (by norm_num), mulw_eq 38 a2 (by norm_num),
    mulw_eq 38 a3 (by norm_num), mulw_eq 2 a0 (by norm_num), mulw_eq 2 a1 (by norm_num)]
  have p00 := pb a0 a0
  have p01 := pbk 2 a0 a1
  have p02 := pbk 2 a0 a2
  have p03 := pbk 2 a0 a3
  have p04 := pbk 2 a0 a4
  have p11 := pb a1 a1
  have p12 := pbk 2 a1 a2
  have p13 := pbk 2 a1 a3
  have p14 := pbk 38 a1 a4
  have p22 := pb a2 a2
  have p23 := pbk 38 a2 a3
  have p24 := pbk 38 a2 a4
  have p33 := pbk 19 a3 a3
  have p34 := pbk 38 a3 a4
  have p44 := pbk 19 a4 a4
  generalize lim * lim = M at *
  obtain ⟨e0, w0⟩ := col3 (a1 := a.l0) (b1 := a.l0) (a2 := a.l1 * 38) (b2 := a.l4) (a3 := a.l2 * 38) (b3 := a.l3) (by omega) (by omega) (by omega)
  obtain ⟨e1, w1⟩ := col3 (a1 := a.l0 * 2) (b1 := a.l1) (a2 := a.l2 * 38) (b2 := a.l4) (a3 := a.l3 * 19) (b3 := a.l3) (by omega) (by omega) (by omega)
  obtain ⟨e2, w2⟩ := col3 (a1 := a.l0 * 2) (b1 := a.l2) (a2 := a.l1) (b2 := a.l1) (a3 := a.l3 * 38) (b3 := a.l4) (by omega) (by omega) (by omega)
  obtain ⟨e3, w3⟩ := col3 (a1 := a.l0 * 2) (b1 := a.l3) (a2 := a.l1 * 2) (b2 := a.l2) (a3 := a.l4 * 19) (b3 := a.l4) (by omega) (by omega) (by omega)
  obtain ⟨e4, w4⟩ := col3 (a1 := a.l0 * 2) (b1 := a.l4) (a2 := a.l1 * 2) (b2 := a.l3) (a3 := a.l2) (b3 := a.l2) (by omega) (by omega) (by omega)
  obtain ⟨ho, hv⟩ := finish_val w0 w1 w2 w3 w4 (by omega) (by omega) (by omega) (by omega) (by omega)
  refine ⟨ho, ?_⟩
  rw [hv, e0, e1, e2, e3, e4]
  unfold Elt.val Elt.nat
  have h255 := two255
  push_cast
  generalize ((a.l0 : ℕ) : Fp) = A0
  generalize ((a.l1 : ℕ) : Fp) = A1
  generalize ((a.l2 : ℕ) : Fp) = A2
  generalize ((a.l3 : ℕ) : Fp) = A3
  generalize ((a.l4 : ℕ) : Fp) = A4
  linear_combination (-(A1 * A4 + A2 * A3 + A3 * A2 + A4 * A1) - 2 ^ 51 * (A2 * A4 + A3 * A3 + A4 * A2) - 2 ^ 102 * (A3 * A4 + A4 * A3) - 2 ^ 153 * (A4 * A4)) * h255

theorem mul51_eq {a b : ℕ} (ha : a < lim) (hb : b < 2 ^ 32) : mul51 a b = (a * b % 2 ^ 51, a * b / 2 ^ 51) ∧ a * b / 2 ^ 51 < 2 ^ 33 := by
  have h : a * b < lim * 2 ^ 32 := Nat.mul_lt_mul'' ha hb
  unfold lim at h
  unfold mul51 shl64
  generalize a * b = x at *
  have e : (x / 2 ^ 64) <<< 13 % 2 ^ 64 = (x / 2 ^ 64) <<< 13 := by
    rw [Nat.shiftLeft_eq]
    omega
  simp only [and_mask, shr51]
  rw [e, ← Nat.shiftLeft_add_eq_or_of_lt (by omega : x % 2 ^ 64 / 2 ^ 51 < 2 ^ 13), Nat.shiftLeft_eq]
  refine ⟨?_, by omega⟩
  rw [Prod.mk.injEq]
  constructor <;> omega

theorem mult32_val {x : Elt} {y : ℕ} (hx : Ok x) (hy : y < 2 ^ 32) : Ok (feMult32 x y) ∧ (feMult32 x y).val = x.val * (y : ℕ) := by
  obtain ⟨x0, x1, x2, x3, x4⟩ := hx
  obtain ⟨m0, c0⟩ := mul51_eq x0 hy
  obtain ⟨m1, c1⟩ := mul51_eq x1 hy
  obtain ⟨m2, c2⟩ := mul51_eq x2 hy
  obtain ⟨m3, c3⟩ := mul51_eq x3 hy
  obtain ⟨m4, c4⟩ := mul51_eq x4 hy
  unfold feMult32
  simp only [m0, m1, m2, m3, m4]
  have e : x.val * (y : ℕ) = ((x.l0 * y + x.l1 * y * 2 ^ 51 + x.l2 * y * 2 ^ 102 + x.l3 * y * 2 ^ 153 + x.l4 * y * 2 ^ 204 : ℕ) : Fp) := by
    unfold Elt.val Elt.nat
    push_cast
    ring
  rw [e]
  clear m0 m1 m2 m3 m4 e
  generalize x.l0 * y = y0 at *
  generalize x.l1 * y = y1 at *
  generalize x.l2 * y = y2 at *
  generalize x.l3 * y = y3 at *
  generalize x.l4 * y = y4 at *
  constructor
  · have e : mulw 19 (y4 / 2 ^ 51) = 19 * (y4 / 2 ^ 51) := Nat.mod_eq_of_lt (by omega)
    rw [e]
    have f : ∀ u v : ℕ, u < 2 ^ 51 → v < 2 ^ 39 → add64 u v < lim := by
      intro u v hu hv
      unfold add64 lim
      omega
    constructor
    · exact f _ _ (Nat.mod_lt _ (by norm_num)) (by omega)
    · exact f _ _ (Nat.mod_lt _ (by norm_num)) (by omega)
    · exact f _ _ (Nat.mod_lt _ (by norm_num)) (by omega)
    · exact f _ _ (Nat.mod_lt _ (by norm_num)) (by omega)
    · exact f _ _ (Nat.mod_lt _ (by norm_num)) (by omega)
  · have key : Elt.nat ⟨add64 (y0 % 2 ^ 51) (mulw 19 (y4 / 2 ^ 51)), add64 (y1 % 2 ^ 51) (y0 / 2 ^ 51), add64 (y2 % 2 ^ 51) (y1 / 2 ^ 51),
        add64 (y3 % 2 ^ 51) (y2 / 2 ^ 51), add64 (y4 % 2 ^ 51) (y3 / 2 ^ 51)⟩ + y4 / 2 ^ 51 * 2 ^ 255 =
        y0 + y1 * 2 ^ 51 + y2 * 2 ^ 102 + y3 * 2 ^ 153 + y4 * 2 ^ 204 + y4 / 2 ^ 51 * 19 := by
      unfold Elt.nat add64 mulw
      dsimp only
      omega
    have h1 := congrArg (Nat.cast (R := Fp)) key
    unfold Elt.val
    rw [Nat.cast_add, Nat.cast_add _ (y4 / 2 ^ 51 * 19), Nat.cast_mul, Nat.cast_mul (y4 / 2 ^ 51), Nat.cast_pow, Nat.cast_ofNat, two255, Nat.cast_ofNat] at h1
    exact add_right_cancel h1

/-! ## Powers -/

/-- `e` is a sound representation of `x`. -/
def Repr (e : Elt) (x : Fp) : Prop := Ok e ∧ e.val = x

theorem Repr.mul {a b : Elt} {x y : Fp} (ha : Repr a x) (hb : Repr b y) : Repr (feMul a b) (x * y) := by
  obtain ⟨h1, h2⟩ := mul_val ha.1 hb.1
  exact ⟨h1, by rw [h2, ha.2, hb.2]⟩

theorem Repr.sq {a : Elt} {x : Fp} (ha : Repr a x) : Repr (feSquare a) (x * x) := by
  obtain ⟨h1, h2⟩ := sq_val ha.1
  exact ⟨h1, by rw [h2, ha.2]⟩

theorem Repr.add {a b : Elt} {x y : Fp} (ha : Repr a x) (hb : Repr b y) : Repr (feAdd a b) (x + y) := by
  obtain ⟨h1, h2⟩ := add_val ha.1 hb.1
  exact ⟨h1, by rw [h2, ha.2, hb.2]⟩

theorem Repr.sub {a b : Elt} {x y : Fp} (ha : Repr a x) (hb : Repr b y) : Repr (feSub a b) (x - y) := by
  obtain ⟨h1, h2⟩ := sub_val ha.1 hb.1
  exact ⟨h1, by rw [h2, ha.2, hb.2]⟩

theorem Repr.neg {a : Elt} {x : Fp} (ha : Repr a x) : Repr (feNeg a) (-x) := by
  obtain ⟨h1, h2⟩ := neg_val ha.1
  exact ⟨h1, by rw [h2, ha.2]⟩

theorem Repr.mult32 {a : Elt} {x : Fp} {y : ℕ} (ha : Repr a x) (hy : y < 2 ^ 32) : Repr (feMult32 a y) (x * (y : ℕ)) := by
  obtain ⟨h1, h2⟩ := mult32_val ha.1 hy
  exact ⟨h1, by rw [h2, ha.2]⟩

theorem Repr.pmul {a b : Elt} {x : Fp} {m n : ℕ} (ha : Repr a (x ^ m)) (hb : Repr b (x ^ n)) : Repr (feMul a b) (x ^ (m + n)) := by
  rw [pow_add]
  exact ha.mul hb

theorem Repr.psq {a : Elt} {x : Fp} {m : ℕ} (ha : Repr a (x ^ m)) : Repr (feSquare a) (x ^ (2 * m)) := by
  rw [two_mul, pow_add]
  exact ha.sq

theorem Repr.psqn (n : ℕ) : ∀ {a : Elt} {x : Fp} {m : ℕ}, Repr a (x ^ m) → Repr (sqn n a) (x ^ (2 ^ n * m)) := by
  induction n with
  | zero => intro a x m h; rw [pow_zero, one_mul]; exact h
  | succ n ih =>
    intro a x m h
    have := ih h.psq
    rw [show 2 ^ (n + 1) * m = 2 ^ n * (2 * m) by ring]
    exact this

theorem Repr.cast {a : Elt} {x : Fp} {m n : ℕ} (ha : Repr a (x ^ m)) (h : m = n) : Repr a (x ^ n) := h ▸ ha

theorem invert_pow {z : Elt} {x : Fp} (hz : Repr z x) : Repr (feInvert z) (x ^ (2 ^ 255 - 21)) := by
  have h1 : Repr z (x ^ 1) := by rw [pow_one]; exact hz
  have z2 := h1.psq
  have t1 := z2.psq
  have t2 := t1.psq
  have z9 := t2.pmul h1
  have z11 := z9.pmul z2
  have t3 := z11.psq
  have z5 := (t3.pmul z9).cast (show _ = 2 ^ 5 - 1 by norm_num)
  have z10 := ((z5.psq.psqn 4).pmul z5).cast (show _ = 2 ^ 10 - 1 by norm_num)
  have z20 := ((z10.psq.psqn 9).pmul z10).cast (show _ = 2 ^ 20 - 1 by norm_num)
  have z40 := ((z20.psq.psqn 19).pmul z20).cast (show _ = 2 ^ 40 - 1 by norm_num)
  have z50 := ((z40.psq.psqn 9).pmul z10).cast (show _ = 2 ^ 50 - 1 by norm_num)
  have z100 := ((z50.psq.psqn 49).pmul z50).cast (show _ = 2 ^ 100 - 1 by norm_num)
  have z200 := ((z100.psq.psqn 99).pmul z100).cast (show _ = 2 ^ 200 - 1 by norm_num)
  have z250 := ((z200.psq.psqn 49).pmul z50).cast (show _ = 2 ^ 250 - 1 by norm_num)
  have r := (z250.psq.psq.psq.psq.psq.pmul z11).cast (show _ = 2 ^ 255 - 21 by norm_num)
  exact r

theorem pow22523_pow {z : Elt} {x : Fp} (hz : Repr z x) : Repr (fePow22523 z) (x ^ (2 ^ 252 - 3)) := by
  have h1 : Repr z (x ^ 1) := by rw [pow_one]; exact hz
  have z2 := h1.psq
  have z9 := h1.pmul z2.psq.psq
  have z11 := z2.pmul z9
  have z5 := (z9.pmul z11.psq).cast (show _ = 2 ^ 5 - 1 by norm_num)
  have z10 := ((z5.psq.psqn 4).pmul z5).cast (show _ = 2 ^ 10 - 1 by norm_num)
  have z20 := ((z10.psq.psqn 9).pmul z10).cast (show _ = 2 ^ 20 - 1 by norm_num)
  have z40 := ((z20.psq.psqn 19).pmul z20).cast (show _ = 2 ^ 40 - 1 by norm_num)
  have z50 := ((z40.psq.psqn 9).pmul z10).cast (show _ = 2 ^ 50 - 1 by norm_num)
  have z100 := ((z50.psq.psqn 49).pmul z50).cast (show _ = 2 ^ 100 - 1 by norm_num)
  have z200 := ((z100.psq.psqn 99).pmul z100).cast (show _ = 2 ^ 200 - 1 by norm_num)
  have z250 := ((z200.psq.psqn 49).pmul z50).cast (show _ = 2 ^ 250 - 1 by norm_num)
  exact (z250.psq.psq.pmul h1).cast (show _ = 2 ^ 252 - 3 by norm_num)

theorem P_eq : P = 2 ^ 255 - 19 := by decide +kernel

theorem pow_inv_aux (x : Fp) (e : ℕ) (he : e + 1 = P - 1) (he0 : e ≠ 0) : x ^ e = x⁻¹ := by
  by_cases hx : x = 0
  · rw [hx, zero_pow he0, inv_zero]
  · have h := ZMod.pow_card_sub_one_eq_one hx
    rw [← he, pow_succ] at h
    exact eq_inv_of_mul_eq_one_left h

theorem invert_val {z : Elt} {x : Fp} (hz : Repr z x) : Repr (feInvert z) x⁻¹ := by
  have h := invert_pow hz
  rwa [pow_inv_aux x (2 ^ 255 - 21) (by rw [P_eq]; norm_num) (by norm_num)] at h

end Verif.EdHost
