import Verif.EdHost.FieldArith
import Verif.Ed.Order
import Verif.Ed.Bytes

/-! # Canonical reduction, encodings, selection and square roots of the host field -/

namespace Verif.EdHost
open Verif.Ed

/-- Limbs of a canonical element. -/
structure Can (e : Elt) : Prop where
  h0 : e.l0 < 2 ^ 51
  h1 : e.l1 < 2 ^ 51
  h2 : e.l2 < 2 ^ 51
  h3 : e.l3 < 2 ^ 51
  h4 : e.l4 < 2 ^ 51

theorem reduce_aux {v0 v1 v2 v3 v4 c0 c1 c2 c3 c : ℕ} (h0 : v0 < 2 ^ 51 + 2 ^ 18) (h1 : v1 < 2 ^ 51 + 2 ^ 18) (h2 : v2 < 2 ^ 51 + 2 ^ 18)
    (h3 : v3 < 2 ^ 51 + 2 ^ 18) (h4 : v4 < 2 ^ 51 + 2 ^ 18) (e0 : c0 = (v0 + 19) / 2 ^ 51) (e1 : c1 = (v1 + c0) / 2 ^ 51)
    (e2 : c2 = (v2 + c1) / 2 ^ 51) (e3 : c3 = (v3 + c2) / 2 ^ 51) (e4 : c = (v4 + c3) / 2 ^ 51) :
    c ≤ 1 ∧ (c = 0 → v0 + v1 * 2 ^ 51 + v2 * 2 ^ 102 + v3 * 2 ^ 153 + v4 * 2 ^ 204 + 19 < 2 ^ 255) ∧
      (c = 1 → 2 ^ 255 ≤ v0 + v1 * 2 ^ 51 + v2 * 2 ^ 102 + v3 * 2 ^ 153 + v4 * 2 ^ 204 + 19) := by
  refine ⟨by omega, ?_, ?_⟩ <;> omega

theorem reduce_tail {v0 v1 v2 v3 v4 c l0 l1 l2 l3 l4 : ℕ} (h0 : v0 < 2 ^ 51 + 2 ^ 18) (h1 : v1 < 2 ^ 51 + 2 ^ 18) (h2 : v2 < 2 ^ 51 + 2 ^ 18)
    (h3 : v3 < 2 ^ 51 + 2 ^ 18) (h4 : v4 < 2 ^ 51 + 2 ^ 18) (hc : c ≤ 1)
    (e0 : l0 = v0 + 19 * c) (e1 : l1 = v1 + l0 / 2 ^ 51) (e2 : l2 = v2 + l1 / 2 ^ 51) (e3 : l3 = v3 + l2 / 2 ^ 51) (e4 : l4 = v4 + l3 / 2 ^ 51)
    (hz : c = 0 → v0 + v1 * 2 ^ 51 + v2 * 2 ^ 102 + v3 * 2 ^ 153 + v4 * 2 ^ 204 + 19 < 2 ^ 255)
    (ho : c = 1 → 2 ^ 255 ≤ v0 + v1 * 2 ^ 51 + v2 * 2 ^ 102 + v3 * 2 ^ 153 + v4 * 2 ^ 204 + 19) :
    l0 % 2 ^ 51 + l1 % 2 ^ 51 * 2 ^ 51 + l2 % 2 ^ 51 * 2 ^ 102 + l3 % 2 ^ 51 * 2 ^ 153 + l4 % 2 ^ 51 * 2 ^ 204 + c * (2 ^ 255 - 19) =
      v0 + v1 * 2 ^ 51 + v2 * 2 ^ 102 + v3 * 2 ^ 153 + v4 * 2 ^ 204 ∧
    l0 % 2 ^ 51 + l1 % 2 ^ 51 * 2 ^ 51 + l2 % 2 ^ 51 * 2 ^ 102 + l3 % 2 ^ 51 * 2 ^ 153 + l4 % 2 ^ 51 * 2 ^ 204 < 2 ^ 255 - 19 := by
  have hs : l0 % 2 ^ 51 + l1 % 2 ^ 51 * 2 ^ 51 + l2 % 2 ^ 51 * 2 ^ 102 + l3 % 2 ^ 51 * 2 ^ 153 + l4 % 2 ^ 51 * 2 ^ 204 + l4 / 2 ^ 51 * 2 ^ 255 =
      v0 + v1 * 2 ^ 51 + v2 * 2 ^ 102 + v3 * 2 ^ 153 + v4 * 2 ^ 204 + 19 * c := by omega
  have hb : l0 % 2 ^ 51 + l1 % 2 ^ 51 * 2 ^ 51 + l2 % 2 ^ 51 * 2 ^ 102 + l3 % 2 ^ 51 * 2 ^ 153 + l4 % 2 ^ 51 * 2 ^ 204 < 2 ^ 255 := by omega
  have hv : v0 + v1 * 2 ^ 51 + v2 * 2 ^ 102 + v3 * 2 ^ 153 + v4 * 2 ^ 204 < 2 ^ 255 + 2 ^ 230 := by omega
  clear e0 e1 e2 e3 e4 h0 h1 h2 h3 h4
  generalize v0 + v1 * 2 ^ 51 + v2 * 2 ^ 102 + v3 * 2 ^ 153 + v4 * 2 ^ 204 = V at *
  generalize l0 % 2 ^ 51 + l1 % 2 ^ 51 * 2 ^ 51 + l2 % 2 ^ 51 * 2 ^ 102 + l3 % 2 ^ 51 * 2 ^ 153 + l4 % 2 ^ 51 * 2 ^ 204 = R at *
  generalize l4 / 2 ^ 51 = q at *
  rcases Nat.le_one_iff_eq_zero_or_eq_one.1 hc with h | h
  · have := hz h
    subst h
    omega
  · have := ho h
    subst h
    omega

theorem reduce_nat {w : Elt} (hw : W64 w) : Can (reduce w) ∧ (reduce w).nat = w.nat % P := by
  obtain ⟨b0, b1, b2, b3, b4⟩ := carry_lt hw
  have hn := carry_nat hw
  unfold reduce
  simp only [and_mask, shr51]
  have m : ∀ x : ℕ, x % 2 ^ 51 < 2 ^ 51 := fun x => Nat.mod_lt _ (by norm_num)
  refine ⟨⟨m _, m _, m _, m _, m _⟩, ?_⟩
  unfold Elt.nat at hn ⊢
  dsimp only
  have hv : (carryPropagate w) = carryPropagate w := rfl
  generalize (carryPropagate w).l0 = v0 at *
  generalize (carryPropagate w).l1 = v1 at *
  generalize (carryPropagate w).l2 = v2 at *
  generalize (carryPropagate w).l3 = v3 at *
  generalize (carryPropagate w).l4 = v4 at *
  have a0 : add64 v0 19 = v0 + 19 := Nat.mod_eq_of_lt (by omega)
  rw [a0]
  have k0 : (v0 + 19) / 2 ^ 51 ≤ 1 := by omega
  generalize hc0 : (v0 + 19) / 2 ^ 51 = c0 at *
  have a1 : add64 v1 c0 = v1 + c0 := Nat.mod_eq_of_lt (by omega)
  rw [a1]
  have k1 : (v1 + c0) / 2 ^ 51 ≤ 1 := by omega
  generalize hc1 : (v1 + c0) / 2 ^ 51 = c1 at *
  have a2 : add64 v2 c1 = v2 + c1 := Nat.mod_eq_of_lt (by omega)
  rw [a2]
  have k2 : (v2 + c1) / 2 ^ 51 ≤ 1 := by omega
  generalize hc2 : (v2 + c1) / 2 ^ 51 = c2 at *
  have a3 : add64 v3 c2 = v3 + c2 := Nat.mod_eq_of_lt (by omega)
  rw [a3]
  have k3 : (v3 + c2) / 2 ^ 51 ≤ 1 := by omega
  generalize hc3 : (v3 + c2) / 2 ^ 51 = c3 at *
  have a4 : add64 v4 c3 = v4 + c3 := Nat.mod_eq_of_lt (by omega)
  rw [a4]
  have k4 : (v4 + c3) / 2 ^ 51 ≤ 1 := by omega
  generalize hc4 : (v4 + c3) / 2 ^ 51 = c at *
  obtain ⟨-, hz, ho⟩ := reduce_aux b0 b1 b2 b3 b4 hc0.symm hc1.symm hc2.symm hc3.symm hc4.symm
  have mc : mulw 19 c = 19 * c := Nat.mod_eq_of_lt (by omega)
  rw [mc]
  have d0 : add64 v0 (19 * c) = v0 + 19 * c := Nat.mod_eq_of_lt (by omega)
  rw [d0]
  generalize hl0 : v0 + 19 * c = l0 at *
  have d1 : add64 v1 (l0 / 2 ^ 51) = v1 + l0 / 2 ^ 51 := Nat.mod_eq_of_lt (by omega)
  rw [d1]
  have j1 : l0 / 2 ^ 51 ≤ 1 := by omega
  generalize hl1 : v1 + l0 / 2 ^ 51 = l1 at *
  have d2 : add64 v2 (l1 / 2 ^ 51) = v2 + l1 / 2 ^ 51 := Nat.mod_eq_of_lt (by omega)
  rw [d2]
  have j2 : l1 / 2 ^ 51 ≤ 1 := by omega
  generalize hl2 : v2 + l1 / 2 ^ 51 = l2 at *
  have d3 : add64 v3 (l2 / 2 ^ 51) = v3 + l2 / 2 ^ 51 := Nat.mod_eq_of_lt (by omega)
  rw [d3]
  have j3 : l2 / 2 ^ 51 ≤ 1 := by omega
  generalize hl3 : v3 + l2 / 2 ^ 51 = l3 at *
  have d4 : add64 v4 (l3 / 2 ^ 51) = v4 + l3 / 2 ^ 51 := Nat.mod_eq_of_lt (by omega)
  rw [d4]
  have j4 : l3 / 2 ^ 51 ≤ 1 := by omega
  generalize hl4 : v4 + l3 / 2 ^ 51 = l4 at *
  obtain ⟨t1, t2⟩ := reduce_tail b0 b1 b2 b3 b4 k4 hl0.symm hl1.symm hl2.symm hl3.symm hl4.symm hz ho
  rw [← P_eq] at t1 t2
  generalize v0 + v1 * 2 ^ 51 + v2 * 2 ^ 102 + v3 * 2 ^ 153 + v4 * 2 ^ 204 = V at *
  generalize l0 % 2 ^ 51 + l1 % 2 ^ 51 * 2 ^ 51 + l2 % 2 ^ 51 * 2 ^ 102 + l3 % 2 ^ 51 * 2 ^ 153 + l4 % 2 ^ 51 * 2 ^ 204 = R at *
  generalize w.l0 + w.l1 * 2 ^ 51 + w.l2 * 2 ^ 102 + w.l3 * 2 ^ 153 + w.l4 * 2 ^ 204 = W at *
  generalize w.l4 / 2 ^ 51 = k at *
  have h255 : 2 ^ 255 = P + 19 := by rw [P_eq]; norm_num
  rw [h255] at hn
  have h1 : W = R + (c + k) * P := by
    have : R + c * P + k * (P + 19) = W + k * 19 := by rw [t1]; exact hn
    have e2 : R + c * P + k * (P + 19) = R + (c + k) * P + k * 19 := by ring
    omega
  rw [h1, Nat.add_mul_mod_self_right, Nat.mod_eq_of_lt t2]

theorem repr_nat {e : Elt} {x : Fp} (h : Repr e x) : e.nat % P = x.val := by
  rw [← h.2, Elt.val, ZMod.val_natCast]

/-! ## Bytes -/

theorem or_byte (a b j : ℕ) : (a ||| b) / 256 ^ j % 256 = (a / 256 ^ j % 256) ||| (b / 256 ^ j % 256) := by
  rw [show (256 : ℕ) ^ j = 2 ^ (8 * j) by rw [pow_mul]; norm_num, show (256 : ℕ) = 2 ^ 8 by norm_num]
  rw [Nat.or_div_two_pow, Nat.or_mod_two_pow]

theorem limb_byte {l : ℕ} (i j : ℕ) (hl : l < 2 ^ 51) : (l * 2 ^ (i * 51)) / 256 ^ j % 256 =
    if i * 51 / 8 ≤ j ∧ j < i * 51 / 8 + 8 then (leBytes 8 (shl64 l (i * 51 % 8))).getD (j - i * 51 / 8) 0 else 0 := by
  generalize i * 51 = o
  have ho : o = 8 * (o / 8) + o % 8 := (Nat.div_add_mod _ _).symm
  have hm : o % 8 < 8 := Nat.mod_lt _ (by norm_num)
  generalize o / 8 = q at *
  generalize o % 8 = m at *
  subst ho
  have hlm : l * 2 ^ m < 2 ^ 64 := by
    calc l * 2 ^ m < 2 ^ 51 * 2 ^ m := Nat.mul_lt_mul_of_pos_right hl (by positivity)
      _ ≤ 2 ^ 51 * 2 ^ 8 := Nat.mul_le_mul_left _ (Nat.pow_le_pow_right (by norm_num) hm.le)
      _ ≤ _ := by norm_num
  have e : l * 2 ^ (8 * q + m) = l * 2 ^ m * 256 ^ q := by
    rw [pow_add, pow_mul]; norm_num; ring
  rw [e]
  have hs : shl64 l m = l * 2 ^ m := by
    unfold shl64
    rw [Nat.shiftLeft_eq, Nat.mod_eq_of_lt hlm]
  rw [hs]
  generalize l * 2 ^ m = x at *
  by_cases h1 : q ≤ j
  · obtain ⟨d, rfl⟩ := Nat.exists_eq_add_of_le h1
    rw [pow_add, mul_comm x, Nat.mul_div_mul_left _ _ (by positivity)]
    by_cases h2 : d < 8
    · rw [if_pos ⟨h1, by omega⟩, Nat.add_sub_cancel_left, List.getD_eq_getElem _ _ (by rw [leBytes_len]; exact h2), leBytes_get h2]
    · rw [if_neg (by omega)]
      have : x < 256 ^ d := lt_of_lt_of_le hlm (by
        rw [show (2 : ℕ) ^ 64 = 256 ^ 8 by norm_num]; exact Nat.pow_le_pow_right (by norm_num) (by omega))
      rw [Nat.div_eq_of_lt this]
  · rw [if_neg (by omega)]
    obtain ⟨d, rfl⟩ := Nat.exists_eq_add_of_lt (Nat.lt_of_not_le h1)
    rw [show j + d + 1 = j + (d + 1) by ring, pow_add, ← mul_assoc, mul_comm x, mul_assoc, Nat.mul_div_cancel_left _ (by positivity), pow_succ, ← mul_assoc,
      Nat.mul_mod_left]

theorem orLimb_eq {N l : ℕ} (i : ℕ) (hl : l < 2 ^ 51) : orLimb (leBytes 32 N) i l = leBytes 32 (N ||| l * 2 ^ (i * 51)) := by
  apply List.ext_getElem
  · simp [orLimb, leBytes]
  · intro j h1 h2
    have hj : j < 32 := by simpa [leBytes] using h2
    simp only [orLimb]
    rw [List.getElem_mapIdx, leBytes_get hj, leBytes_get hj, or_byte, limb_byte i j hl]
    split
    · rfl
    · rw [Nat.or_zero]

theorem or_add {a b k : ℕ} (h : a < 2 ^ k) : a ||| b * 2 ^ k = a + b * 2 ^ k := by
  rw [Nat.or_comm, ← Nat.shiftLeft_eq, ← Nat.shiftLeft_add_eq_or_of_lt h, add_comm]

theorem bytes_nat {e : Elt} (he : W64 e) : feBytes e = leBytes 32 (e.nat % P) := by
  obtain ⟨⟨h0, h1, h2, h3, h4⟩, hn⟩ := reduce_nat he
  unfold feBytes
  have hz : List.replicate 32 0 = leBytes 32 0 := by decide
  dsimp only
  rw [hz, orLimb_eq 0 h0, orLimb_eq 1 h1, orLimb_eq 2 h2, orLimb_eq 3 h3, orLimb_eq 4 h4, ← hn]
  rw [Nat.zero_or, show 0 * 51 = 0 by rfl, show 1 * 51 = 51 by rfl, show 2 * 51 = 102 by rfl, show 3 * 51 = 153 by rfl, show 4 * 51 = 204 by rfl,
    pow_zero, mul_one]
  generalize reduce e = r at *
  rw [or_add h0, or_add (k := 102) (by omega), or_add (k := 153) (by omega), or_add (k := 204) (by omega)]
  rfl

theorem Repr.bytes {e : Elt} {x : Fp} (h : Repr e x) : feBytes e = leBytes 32 x.val := by
  rw [bytes_nat h.1.w, repr_nat h]

theorem leBytes_inj {x y : Fp} (h : leBytes 32 x.val = leBytes 32 y.val) : x = y := by
  have b : ∀ z : Fp, z.val < 256 ^ 32 := fun z => lt_of_lt_of_le (val_P z) (by norm_num)
  have h1 := congrArg leVal h
  rw [leVal_leBytes _ _ (b x), leVal_leBytes _ _ (b y)] at h1
  exact ZMod.val_injective P h1

theorem Repr.equal {a b : Elt} {x y : Fp} (ha : Repr a x) (hb : Repr b y) : feEqual a b = if x = y then 1 else 0 := by
  unfold feEqual
  rw [ha.bytes, hb.bytes]
  by_cases h : x = y
  · rw [if_pos (by rw [h]), if_pos h]
  · rw [if_neg (fun hh => h (leBytes_inj hh).symm), if_neg h]

theorem Repr.isNeg {a : Elt} {x : Fp} (ha : Repr a x) : feIsNegative a = x.val % 2 := by
  unfold feIsNegative
  rw [ha.bytes, List.getD_eq_getElem _ _ (by rw [leBytes_len]; norm_num), leBytes_get (by norm_num), Nat.and_one_is_mod]
  rw [pow_zero, Nat.div_one]
  omega

theorem and_ones {x : ℕ} (h : x < 2 ^ 64) : (2 ^ 64 - 1) &&& x = x := by
  rw [Nat.and_comm, Nat.and_two_pow_sub_one_eq_mod, Nat.mod_eq_of_lt h]

theorem mask_one : mask64Bits 1 = 2 ^ 64 - 1 := by decide
theorem mask_zero : mask64Bits 0 = 0 := by decide

theorem select_one {a b : Elt} (ha : W64 a) : feSelect a b 1 = a := by
  obtain ⟨h0, h1, h2, h3, h4⟩ := ha
  unfold feSelect
  simp only [mask_one, and_ones h0, and_ones h1, and_ones h2, and_ones h3, and_ones h4, show not64 (2 ^ 64 - 1) = 0 by decide, Nat.zero_and, Nat.or_zero]

theorem select_zero {a b : Elt} (hb : W64 b) : feSelect a b 0 = b := by
  obtain ⟨h0, h1, h2, h3, h4⟩ := hb
  unfold feSelect
  simp only [mask_zero, show not64 0 = 2 ^ 64 - 1 by decide, and_ones h0, and_ones h1, and_ones h2, and_ones h3, and_ones h4, Nat.zero_and, Nat.zero_or]

theorem swap_one {a b : Elt} (ha : W64 a) (hb : W64 b) : feSwap a b 1 = (b, a) := by
  obtain ⟨h0, h1, h2, h3, h4⟩ := ha
  obtain ⟨g0, g1, g2, g3, g4⟩ := hb
  unfold feSwap
  simp only [mask_one]
  rw [and_ones (Nat.xor_lt_two_pow h0 g0), and_ones (Nat.xor_lt_two_pow h1 g1), and_ones (Nat.xor_lt_two_pow h2 g2), and_ones (Nat.xor_lt_two_pow h3 g3),
    and_ones (Nat.xor_lt_two_pow h4 g4)]
  have e1 : ∀ x y : ℕ, x ^^^ (x ^^^ y) = y := fun x y => by rw [← Nat.xor_assoc, Nat.xor_self, Nat.zero_xor]
  have e2 : ∀ x y : ℕ, y ^^^ (x ^^^ y) = x := fun x y => by rw [Nat.xor_comm x y, e1]
  simp only [e1, e2]

theorem swap_zero (a b : Elt) : feSwap a b 0 = (a, b) := by
  unfold feSwap
  simp only [mask_zero, Nat.zero_and, Nat.xor_zero]

/-- `|x|` of the library: the one of `x`, `-x` with even representative. -/
def absF (x : Fp) : Fp := if x.val % 2 = 1 then -x else x

theorem Repr.select {a b : Elt} {x y : Fp} {c : ℕ} (ha : Repr a x) (hb : Repr b y) (hc : c ≤ 1) :
    Repr (feSelect a b c) (if c = 1 then x else y) := by
  rcases Nat.le_one_iff_eq_zero_or_eq_one.1 hc with h | h
  · rw [h, select_zero hb.1.w, if_neg (by norm_num)]; exact hb
  · rw [h, select_one ha.1.w, if_pos rfl]; exact ha

theorem Repr.abs {a : Elt} {x : Fp} (ha : Repr a x) : Repr (feAbs a) (absF x) := by
  unfold feAbs absF
  rw [ha.isNeg]
  exact ha.neg.select ha (by omega)

/-! ## Decoding -/

theorem leVal_append (a b : List ℕ) : leVal (a ++ b) = leVal a + 256 ^ a.length * leVal b := by
  induction a with
  | nil => simp [leVal]
  | cons x a ih =>
    simp only [List.cons_append, leVal, ih, List.length_cons, pow_succ]
    ring

theorem leVal_lt {l : List ℕ} (h : ∀ b ∈ l, b < 256) : leVal l < 256 ^ l.length := by
  induction l with
  | nil => simp [leVal]
  | cons x a ih =>
    have h1 := ih fun b hb => h b (List.mem_cons_of_mem _ hb)
    have h2 := h x List.mem_cons_self
    simp only [leVal, List.length_cons, pow_succ]
    omega

theorem leVal_slice {x : List ℕ} (h : ∀ b ∈ x, b < 256) (a n : ℕ) (hn : a + n ≤ x.length) :
    leVal ((x.drop a).take n) = leVal x / 256 ^ a % 256 ^ n := by
  have e : x = x.take a ++ ((x.drop a).take n ++ (x.drop a).drop n) := by rw [List.take_append_drop, List.take_append_drop]
  have l1 : (x.take a).length = a := by rw [List.length_take]; omega
  have l2 : ((x.drop a).take n).length = n := by rw [List.length_take, List.length_drop]; omega
  have b1 : leVal (x.take a) < 256 ^ a := by
    have := leVal_lt (l := x.take a) fun b hb => h b (List.mem_of_mem_take hb)
    rwa [l1] at this
  have b2 : leVal ((x.drop a).take n) < 256 ^ n := by
    have := leVal_lt (l := (x.drop a).take n) fun b hb => h b (List.mem_of_mem_drop (List.mem_of_mem_take hb))
    rwa [l2] at this
  conv_rhs => rw [e, leVal_append, leVal_append, l1, l2]
  rw [Nat.add_mul_div_left _ _ (by positivity), Nat.div_eq_of_lt b1, zero_add, Nat.add_mul_mod_self_left, Nat.mod_eq_of_lt b2]

theorem setBytes_nat {x : List ℕ} (h : ∀ b ∈ x, b < 256) (hl : x.length = 32) :
    ∃ e, feSetBytes x = some e ∧ Can e ∧ e.nat = leVal x % 2 ^ 255 := by
  unfold feSetBytes
  rw [if_neg (by omega)]
  refine ⟨_, rfl, ?_, ?_⟩
  · simp only [and_mask]
    have m : ∀ x : ℕ, x % 2 ^ 51 < 2 ^ 51 := fun x => Nat.mod_lt _ (by norm_num)
    exact ⟨m _, m _, m _, m _, m _⟩
  · have hb := leVal_lt h
    rw [hl] at hb
    simp only [and_mask, le64, Nat.shiftRight_eq_div_pow]
    rw [leVal_slice h 0 8 (by omega), leVal_slice h 6 8 (by omega), leVal_slice h 12 8 (by omega), leVal_slice h 19 8 (by omega), leVal_slice h 24 8 (by omega)]
    unfold Elt.nat
    dsimp only
    norm_num only at hb ⊢
    omega

theorem Can.ok {e : Elt} (h : Can e) : Ok e := by
  obtain ⟨h0, h1, h2, h3, h4⟩ := h
  constructor <;> (unfold lim; omega)

theorem setBytes_repr {x : List ℕ} (h : ∀ b ∈ x, b < 256) (hl : x.length = 32) :
    ∃ e, feSetBytes x = some e ∧ Repr e ((leVal x % 2 ^ 255 : ℕ) : Fp) := by
  obtain ⟨e, h1, h2, h3⟩ := setBytes_nat h hl
  exact ⟨e, h1, h2.ok, by rw [Elt.val, h3]⟩

/-! ## Square roots -/

theorem sqrtM1_repr : Repr feSqrtM1 sqrtM1 := by
  refine ⟨?_, ?_⟩
  · constructor <;> (unfold feSqrtM1 lim; norm_num)
  · unfold Elt.val sqrtM1
    have : feSqrtM1.nat = sqrtM1N := by decide +kernel
    rw [this]

theorem absF_even (x : Fp) : (absF x).val % 2 = 0 := by
  unfold absF
  split
  · rename_i h
    have hx : x ≠ 0 := by
      rintro rfl
      rw [ZMod.val_zero] at h
      norm_num at h
    haveI : NeZero x := ⟨hx⟩
    rw [ZMod.val_neg_of_ne_zero]
    have h1 := P_odd
    have h2 := ZMod.val_lt x
    omega
  · omega

theorem absF_sq (x : Fp) : absF x * absF x = x * x := by
  unfold absF
  split <;> ring

theorem absF_zero : absF 0 = 0 := by
  unfold absF
  split
  · exact neg_zero
  · rfl

/-- What the three comparisons of `SqrtRatio` see: `s` is the quotient of `check` by `u`. -/
theorem four_cases {s : Fp} (h : s ^ 4 = 1) : s = 1 ∨ s = -1 ∨ s = sqrtM1 ∨ s = -sqrtM1 := by
  have hi := sqrtM1_sq
  have h0 : (s - 1) * (s + 1) * ((s - sqrtM1) * (s + sqrtM1)) = 0 := by
    linear_combination h + (1 - s ^ 2) * hi
  rcases mul_eq_zero.1 h0 with h1 | h1
  · rcases mul_eq_zero.1 h1 with h2 | h2
    · left; linear_combination h2
    · right; left; linear_combination h2
  · rcases mul_eq_zero.1 h1 with h2 | h2
    · right; right; left; linear_combination h2
    · right; right; right; linear_combination h2

/-- The root `SqrtRatio` computes, in the field. -/
theorem sqrt_field {u v : Fp} (e : ℕ) (he : 8 * e + 5 = P) (r : Fp) (hr : r = u * (v * v * v) * (u * (v * v * v) * (v * v * (v * v))) ^ e) :
    let check := v * (r * r)
    let R := if check = -u ∨ check = -u * sqrtM1 then r * sqrtM1 else r
    ((check = u ∨ check = -u) ↔ ∃ t, v * (t * t) = u) ∧
      (v ≠ 0 → v * (R * R) = if (check = u ∨ check = -u) then u else sqrtM1 * u) ∧ (v = 0 → R = 0) := by
  have hi := sqrtM1_sq
  intro check R
  have hm1 : (-1 : Fp) ≠ 1 := fun h => two_ne (by linear_combination -h)
  have ni : sqrtM1 ≠ 1 := fun h => hm1 (by rw [h, mul_one] at hi; exact hi.symm)
  have nm : sqrtM1 ≠ -1 := fun h => hm1 (by rw [h] at hi; linear_combination -hi)
  have hi0 : sqrtM1 ≠ 0 := by
    intro h
    rw [h, mul_zero] at hi
    exact one_ne_zero (α := Fp) (by linear_combination hi)
  have h2 := two_ne
  by_cases hv : v = 0
  · have hr0 : r = 0 := by rw [hr, hv]; ring
    have hc : check = 0 := by simp only [check, hr0, mul_zero]
    have hR : R = 0 := by
      simp only [R, hr0, zero_mul]
      split <;> rfl
    refine ⟨?_, fun h => absurd hv h, fun _ => hR⟩
    rw [hc]
    constructor
    · rintro (h | h)
      · exact ⟨0, by rw [← h]; ring⟩
      · exact ⟨0, by rw [mul_zero, mul_zero]; linear_combination -h⟩
    · rintro ⟨t, ht⟩
      left
      rw [← ht, hv, zero_mul]
  by_cases hu : u = 0
  · have hr0 : r = 0 := by rw [hr, hu]; ring
    have hc : check = 0 := by simp only [check, hr0, mul_zero]
    have hR : R = 0 := by
      simp only [R, hr0, zero_mul]
      split <;> rfl
    refine ⟨?_, fun _ => ?_, fun h => absurd h hv⟩
    · rw [hc, hu]
      exact ⟨fun _ => ⟨0, by ring⟩, fun _ => Or.inl rfl⟩
    · rw [hR, hc, hu, if_pos (Or.inl rfl)]
      ring
  have hw0 : u * (v * v * v) * (v * v * (v * v)) ≠ 0 := by
    simp only [ne_eq, mul_eq_zero, hu, hv, or_self, not_false_eq_true]
  generalize hs : (u * (v * v * v) * (v * v * (v * v))) ^ (2 * e + 1) = s
  have hcs : check = u * s := by
    simp only [check]
    rw [hr, ← hs, pow_succ, two_mul, pow_add]
    ring
  have hs4 : s ^ 4 = 1 := by
    rw [← hs, ← pow_mul, show (2 * e + 1) * 4 = P - 1 by omega]
    exact ZMod.pow_card_sub_one_eq_one hw0
  have hs2 : s ^ 2 = 1 ↔ ∃ t, v * (t * t) = u := by
    rw [← hs, ← pow_mul, show (2 * e + 1) * 2 = P / 2 by omega, ← ZMod.euler_criterion P hw0]
    constructor
    · rintro ⟨t, ht⟩
      refine ⟨t / (v * v * (v * v)), ?_⟩
      field_simp
      linear_combination -ht
    · rintro ⟨t, ht⟩
      exact ⟨t * (v * v * (v * v)), by rw [← ht]; ring⟩
  have c1 : check = u ↔ s = 1 := by
    rw [hcs]
    constructor
    · intro h; exact mul_left_cancel₀ hu (by rw [h, mul_one])
    · intro h; rw [h, mul_one]
  have c2 : check = -u ↔ s = -1 := by
    rw [hcs]
    constructor
    · intro h; exact mul_left_cancel₀ hu (by rw [h]; ring)
    · intro h; rw [h]; ring
  have c3 : check = -u * sqrtM1 ↔ s = -sqrtM1 := by
    rw [hcs]
    constructor
    · intro h; exact mul_left_cancel₀ hu (by rw [h]; ring)
    · intro h; rw [h]; ring
  have hsq : (check = u ∨ check = -u) ↔ s ^ 2 = 1 := by
    rw [c1, c2, sq_eq_one_iff]
  refine ⟨by rw [hsq]; exact hs2, fun _ => ?_, fun h => absurd h hv⟩
  have hvr : v * (r * r) = u * s := hcs
  simp only [R, c1, c2, c3]
  rcases four_cases hs4 with h | h | h | h
  · have n1 : ¬ (s = -1 ∨ s = -sqrtM1) := by
      rintro (h' | h')
      · exact hm1 (by rw [← h', h])
      · exact nm (by linear_combination h' - h)
    rw [if_neg n1, if_pos (Or.inl h), hvr, h, mul_one]
  · rw [if_pos (Or.inl h), if_pos (Or.inr h)]
    linear_combination sqrtM1 ^ 2 * hvr + sqrtM1 ^ 2 * u * h - u * hi
  · have n1 : ¬ (s = -1 ∨ s = -sqrtM1) := by
      rintro (h' | h')
      · exact nm (by rw [← h', h])
      · rw [h] at h'
        exact (mul_ne_zero h2 hi0) (by linear_combination h')
    have n2 : ¬ (s = 1 ∨ s = -1) := by
      rintro (h' | h')
      · exact ni (by rw [← h', h])
      · exact nm (by rw [← h', h])
    rw [if_neg n1, if_neg n2, hvr, h]
    ring
  · have n2 : ¬ (s = 1 ∨ s = -1) := by
      rintro (h' | h')
      · exact nm (by linear_combination h - h')
      · exact ni (by linear_combination h - h')
    rw [if_pos (Or.inr h), if_neg n2]
    linear_combination sqrtM1 ^ 2 * hvr + sqrtM1 ^ 2 * u * h - sqrtM1 * u * hi

theorem bit_or (p q : Prop) [Decidable p] [Decidable q] : ((if p then 1 else 0) ||| (if q then 1 else 0)) = if p ∨ q then 1 else 0 := by
  by_cases hp : p <;> by_cases hq : q <;> simp [hp, hq]

theorem sqrtRatio_spec {eu ev : Elt} {u v : Fp} (hu : Repr eu u) (hv : Repr ev v) :
    ∃ R : Fp, Repr (feSqrtRatio eu ev).1 R ∧ R.val % 2 = 0 ∧
      ((feSqrtRatio eu ev).2 = 1 ↔ ∃ t, v * (t * t) = u) ∧ ((feSqrtRatio eu ev).2 = 0 ∨ (feSqrtRatio eu ev).2 = 1) ∧
      (v ≠ 0 → v * (R * R) = if (feSqrtRatio eu ev).2 = 1 then u else sqrtM1 * u) ∧ (v = 0 → R = 0) := by
  have h3 := hu.mul (hv.sq.mul hv)
  have h7 := h3.mul hv.sq.sq
  have hr := h3.mul (pow22523_pow h7)
  obtain ⟨f1, f2, f3⟩ := sqrt_field (u := u) (v := v) (2 ^ 252 - 3) (by rw [P_eq]; norm_num) _ rfl
  generalize u * (v * v * v) * (u * (v * v * v) * (v * v * (v * v))) ^ (2 ^ 252 - 3) = r at *
  have hc := hv.mul hr.sq
  have hn := hu.neg
  have q1 := hc.equal hu
  have q2 := hc.equal hn
  have q3 := hc.equal (hn.mul sqrtM1_repr)
  have hp := hr.mul sqrtM1_repr
  unfold feSqrtRatio
  simp only [q1, q2, q3, bit_or]
  generalize v * (r * r) = check at *
  have hsel := hp.select hr (c := if check = -u ∨ check = -u * sqrtM1 then 1 else 0) (by split <;> norm_num)
  have ei : ∀ p : Prop, [Decidable p] → ((if p then 1 else 0) = 1 ↔ p) := by
    intro p hp
    by_cases h : p <;> simp [h]
  simp only [ei] at hsel
  refine ⟨absF _, hsel.abs, absF_even _, ?_, ?_, ?_, ?_⟩
  · rw [ei]; exact f1
  · by_cases h : check = u ∨ check = -u
    · right; rw [if_pos h]
    · left; rw [if_neg h]
  · intro h
    rw [absF_sq]
    simp only [ei]
    exact f2 h
  · intro h
    rw [f3 h]
    exact absF_zero

end Verif.EdHost
