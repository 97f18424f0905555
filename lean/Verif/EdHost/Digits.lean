import Verif.EdHost.MultModel
import Verif.EdHost.ScalarVal

/-! # `signedRadix16` and `nonAdjacentForm` -/

namespace Verif.EdHost
open Verif.Ed

/-- The number with signed digits `l` in base `b`, least significant first. -/
def bval (b : ℤ) : List ℤ → ℤ
  | [] => 0
  | x :: l => x + b * bval b l

theorem bval_set (b : ℤ) (s : List ℤ) (i : ℕ) (y : ℤ) (h : i < s.length) : bval b (s.set i y) = bval b s + (y - dg s i) * b ^ i := by
  induction s generalizing i with
  | nil => simp at h
  | cons x s ih =>
    cases i with
    | zero => simp [bval, dg]; ring
    | succ i =>
      have := ih i (by simpa using h)
      simp only [List.set_cons_succ, bval, this, dg, List.getD_cons_succ, pow_succ]
      ring

theorem dg_set_ne (s : List ℤ) {i j : ℕ} (y : ℤ) (h : i ≠ j) : dg (s.set j y) i = dg s i := by
  unfold dg
  rw [List.getD_eq_getElem?_getD, List.getD_eq_getElem?_getD, List.getElem?_set_ne (Ne.symm h)]

theorem dg_set_self (s : List ℤ) {i : ℕ} (y : ℤ) (h : i < s.length) : dg (s.set i y) i = y := by
  unfold dg
  rw [List.getD_eq_getElem _ _ (by rw [List.length_set]; exact h), List.getElem_set_self]

theorem i8_eq {x : ℤ} (h : -128 ≤ x ∧ x ≤ 127) : i8 x = x := by unfold i8; omega

/-! ## Radix 16 -/

theorem nib_lo (b : ℕ) : i8 ((b &&& 15 : ℕ) : ℤ) = ((b % 16 : ℕ) : ℤ) := by
  rw [show (15 : ℕ) = 2 ^ 4 - 1 by norm_num, Nat.and_two_pow_sub_one_eq_mod]
  have := Nat.mod_lt b (show 2 ^ 4 > 0 by norm_num)
  rw [i8_eq (by omega)]

theorem nib_hi {b : ℕ} (h : b < 256) : i8 (((b >>> 4) &&& 15 : ℕ) : ℤ) = ((b / 16 : ℕ) : ℤ) := by
  rw [show (15 : ℕ) = 2 ^ 4 - 1 by norm_num, Nat.and_two_pow_sub_one_eq_mod, Nat.shiftRight_eq_div_pow, Nat.mod_eq_of_lt (by omega)]
  rw [i8_eq (by omega)]

theorem radix16_cons {b : ℕ} (h : b < 256) (s : List ℕ) : radix16 (b :: s) = ((b % 16 : ℕ) : ℤ) :: ((b / 16 : ℕ) : ℤ) :: radix16 s := by
  unfold radix16
  rw [List.map_cons, List.flatten_cons, nib_lo, nib_hi h]
  rfl

theorem radix16_val {s : List ℕ} (h : ∀ b ∈ s, b < 256) : bval 16 (radix16 s) = leVal s ∧ (radix16 s).length = 2 * s.length ∧
    ∀ i, i < s.length → dg (radix16 s) (2 * i) = ((s.getD i 0 % 16 : ℕ) : ℤ) ∧ dg (radix16 s) (2 * i + 1) = ((s.getD i 0 / 16 : ℕ) : ℤ) := by
  induction s with
  | nil => exact ⟨rfl, rfl, fun i hi => absurd hi (by simp)⟩
  | cons b s ih =>
    obtain ⟨h1, h2, h3⟩ := ih fun x hx => h x (List.mem_cons_of_mem _ hx)
    have hb := h b List.mem_cons_self
    rw [radix16_cons hb]
    refine ⟨?_, ?_, ?_⟩
    · simp only [bval, leVal, h1]
      push_cast
      omega
    · simp only [List.length_cons, h2]; ring
    · intro i hi
      cases i with
      | zero => exact ⟨rfl, rfl⟩
      | succ i =>
        obtain ⟨q1, q2⟩ := h3 i (by simpa using hi)
        rw [show 2 * (i + 1) = 2 * i + 1 + 1 by ring]
        simp only [dg, List.getD_cons_succ] at q1 q2 ⊢
        exact ⟨q1, q2⟩

theorem recenter_inv {s : List ℕ} (h : ∀ b ∈ s, b < 256) (hl : s.length = 32) (ht : s.getD 31 0 ≤ 127) (n : ℕ) (hn : n ≤ 63) :
    ((List.range n).foldl recenterStep (radix16 s)).length = 64 ∧ bval 16 ((List.range n).foldl recenterStep (radix16 s)) = leVal s ∧
      (∀ j < n, -8 ≤ dg ((List.range n).foldl recenterStep (radix16 s)) j ∧ dg ((List.range n).foldl recenterStep (radix16 s)) j ≤ 7) ∧
      (0 ≤ dg ((List.range n).foldl recenterStep (radix16 s)) n ∧
        dg ((List.range n).foldl recenterStep (radix16 s)) n ≤ dg (radix16 s) n + 1) ∧
      (∀ j, n < j → dg ((List.range n).foldl recenterStep (radix16 s)) j = dg (radix16 s) j) := by
  obtain ⟨v1, v2, v3⟩ := radix16_val h
  have dbound : ∀ j, 0 ≤ dg (radix16 s) j ∧ dg (radix16 s) j ≤ 15 := by
    intro j
    have gb : ∀ i, s.getD i 0 < 256 := by
      intro i
      by_cases hi : i < s.length
      · rw [List.getD_eq_getElem _ _ hi]; exact h _ (List.getElem_mem hi)
      · rw [List.getD_eq_default _ _ (by omega)]; norm_num
    by_cases hj : j < 64
    · have hg := gb (j / 2)
      obtain ⟨q1, q2⟩ := v3 (j / 2) (by omega)
      rcases Nat.mod_two_eq_zero_or_one j with hp | hp
      · rw [show 2 * (j / 2) = j by omega] at q1
        rw [q1]
        omega
      · rw [show 2 * (j / 2) + 1 = j by omega] at q2
        rw [q2]
        omega
    · unfold dg
      rw [List.getD_eq_default _ _ (by omega)]
      omega
  induction n with
  | zero =>
    refine ⟨by simp [v2, hl], by simpa using v1, fun j hj => absurd hj (by omega), ?_, fun j _ => rfl⟩
    simp only [List.range_zero, List.foldl_nil]
    have := dbound 0
    omega
  | succ n ih =>
    obtain ⟨i1, i2, i3, i4, i5⟩ := ih (by omega)
    rw [List.range_succ, List.foldl_append, List.foldl_cons, List.foldl_nil]
    generalize (List.range n).foldl recenterStep (radix16 s) = d at *
    have hd := dbound n
    have hd' := dbound (n + 1)
    have e5 := i5 (n + 1) (by omega)
    unfold recenterStep
    dsimp only
    rw [i8_eq (by omega : -128 ≤ dg d n + 8 ∧ dg d n + 8 ≤ 127)]
    generalize hc : (dg d n + 8) / 2 ^ 4 = c
    have hc01 : c = 0 ∨ c = 1 := by omega
    have e1 : i8 (c * 2 ^ 4) = c * 2 ^ 4 := i8_eq (by omega)
    rw [e1, i8_eq (by omega : -128 ≤ dg d n - c * 2 ^ 4 ∧ dg d n - c * 2 ^ 4 ≤ 127)]
    rw [dg_set_ne d _ (show n + 1 ≠ n by omega), i8_eq (by omega : -128 ≤ dg d (n + 1) + c ∧ dg d (n + 1) + c ≤ 127)]
    refine ⟨by rw [List.length_set, List.length_set, i1], ?_, ?_, ?_, ?_⟩
    · rw [bval_set _ _ _ _ (by rw [List.length_set, i1]; omega), bval_set _ _ _ _ (by rw [i1]; omega), dg_set_ne d _ (show n + 1 ≠ n by omega), i2, pow_succ]
      ring
    · intro j hj
      rw [dg_set_ne _ _ (by omega)]
      by_cases hjn : j = n
      · subst hjn
        rw [dg_set_self _ _ (by rw [i1]; omega)]
        omega
      · rw [dg_set_ne _ _ hjn]
        exact i3 j (by omega)
    · rw [dg_set_self _ _ (by rw [List.length_set, i1]; omega)]
      omega
    · intro j hj
      rw [dg_set_ne _ _ (by omega), dg_set_ne _ _ (by omega)]
      exact i5 j (by omega)

/-- **`signedRadix16`**: 64 digits between -8 and 8, whose value in base 16 is the scalar. -/
theorem signedRadix16_spec {s : List ℕ} (h : ∀ b ∈ s, b < 256) (hl : s.length = 32) (ht : s.getD 31 0 ≤ 127) :
    ∃ d, signedRadix16 s = some d ∧ d.length = 64 ∧ bval 16 d = leVal s ∧ ∀ j, -8 ≤ dg d j ∧ dg d j ≤ 8 := by
  unfold signedRadix16
  rw [if_neg (by omega)]
  refine ⟨_, rfl, ?_⟩
  obtain ⟨i1, i2, i3, i4, i5⟩ := recenter_inv h hl ht 63 (le_refl _)
  refine ⟨i1, i2, fun j => ?_⟩
  by_cases hj : j < 63
  · have := i3 j hj; omega
  · by_cases hj2 : j = 63
    · subst hj2
      obtain ⟨-, -, v3⟩ := radix16_val h
      have q := (v3 31 (by omega)).2
      rw [show 2 * 31 + 1 = 63 by rfl] at q
      rw [q] at i4
      omega
    · unfold dg
      rw [List.getD_eq_default _ _ (by omega)]
      omega

/-! ## Non-adjacent form -/

theorem nafDigits_get {s : List ℕ} (h : ∀ b ∈ s, b < 256) (hl : s.length = 32) (k : ℕ) (hk : k ≤ 4) :
    (nafDigits s).getD k 0 = leVal s / 2 ^ (64 * k) % 2 ^ 64 := by
  have hb := leVal_lt h
  rw [hl] at hb
  have e : ∀ j, j ≤ 3 → le64 s (8 * j) = leVal s / 2 ^ (64 * j) % 2 ^ 64 := by
    intro j hj
    unfold le64
    rw [leVal_slice h (8 * j) 8 (by omega), show (256 : ℕ) = 2 ^ 8 by norm_num, ← pow_mul, ← pow_mul, show 8 * (8 * j) = 64 * j by ring]
  have e0 := e 0 (by omega)
  have e1 := e 1 (by omega)
  have e2 := e 2 (by omega)
  have e3 := e 3 (by omega)
  unfold nafDigits
  interval_cases k
  · exact e0
  · exact e1
  · exact e2
  · exact e3
  · rw [Nat.div_eq_of_lt (lt_of_lt_of_le hb (by norm_num))]
    rfl

theorem nafWindow_eq {s : List ℕ} (h : ∀ b ∈ s, b < 256) (hl : s.length = 32) {w pos : ℕ} (hw : 2 ≤ w ∧ w ≤ 8) (hp : pos < 256) (c : ℕ) :
    nafWindow (nafDigits s) w pos c = c + leVal s / 2 ^ pos % 2 ^ w := by
  unfold nafWindow
  dsimp only
  rw [Nat.and_two_pow_sub_one_eq_mod, nafDigits_get h hl _ (by omega), nafDigits_get h hl _ (by omega)]
  generalize leVal s = N
  have hpos : pos = 64 * (pos / 64) + pos % 64 := by omega
  have hb : pos % 64 < 64 := Nat.mod_lt _ (by norm_num)
  generalize pos / 64 = k at *
  generalize pos % 64 = r at *
  subst hpos
  have eN : N / 2 ^ (64 * k + r) = N / 2 ^ (64 * k) / 2 ^ r := by rw [Nat.div_div_eq_div_mul, ← pow_add]
  rw [show 64 * (1 + k) = 64 * k + 64 by ring, show N / 2 ^ (64 * k + 64) = N / 2 ^ (64 * k) / 2 ^ 64 by rw [Nat.div_div_eq_div_mul, ← pow_add]]
  rw [eN]
  generalize N / 2 ^ (64 * k) = M
  congr 1
  have key : M % 2 ^ 64 / 2 ^ r = M / 2 ^ r % 2 ^ (64 - r) := by
    have : (2 : ℕ) ^ 64 = 2 ^ r * 2 ^ (64 - r) := by rw [← pow_add]; congr 1; omega
    rw [this, Nat.mod_mul_right_div_self]
  split
  · rename_i hlt
    rw [Nat.shiftRight_eq_div_pow, key, Nat.mod_mod_of_dvd _ (pow_dvd_pow 2 (by omega))]
  · rw [Nat.shiftRight_eq_div_pow, Nat.shiftLeft_eq]
    have lt : M % 2 ^ 64 / 2 ^ r < 2 ^ (64 - r) := by rw [key]; exact Nat.mod_lt _ (by positivity)
    have hs : M / 2 ^ 64 % 2 ^ 64 * 2 ^ (64 - r) % 2 ^ 64 = (M / 2 ^ 64 % 2 ^ 64 % 2 ^ r) * 2 ^ (64 - r) := by
      conv_lhs => rw [show (2 : ℕ) ^ 64 = 2 ^ r * 2 ^ (64 - r) by rw [← pow_add]; congr 1; omega]
      rw [Nat.mul_mod_mul_right]
      congr 1
      rw [show (2 : ℕ) ^ r * 2 ^ (64 - r) = 2 ^ 64 by rw [← pow_add]; congr 1; omega]
    rw [hs, or_add lt, Nat.mod_mod_of_dvd _ (pow_dvd_pow 2 (by omega : r ≤ 64)), key]
    have e2 : M / 2 ^ 64 = M / 2 ^ r / 2 ^ (64 - r) := by
      rw [Nat.div_div_eq_div_mul, ← pow_add]; congr 2; omega
    rw [e2]
    generalize M / 2 ^ r = K
    have e3 : K % 2 ^ (64 - r) + K / 2 ^ (64 - r) % 2 ^ r * 2 ^ (64 - r) = K % (2 ^ (64 - r) * 2 ^ r) := by
      rw [Nat.mod_mul]; ring
    rw [e3, ← pow_add, Nat.mod_mod_of_dvd _ (pow_dvd_pow 2 (by omega))]

/-- A NAF digit of width `w`. -/
def NafDigit (w : ℕ) (d : ℤ) : Prop := d = 0 ∨ (d % 2 = 1 ∧ -2 ^ (w - 1) < d ∧ d < 2 ^ (w - 1))

theorem nafLoop_spec {s : List ℕ} (h : ∀ b ∈ s, b < 256) (hl : s.length = 32) (hN : leVal s < 2 ^ 255) {w : ℕ} (hw : 2 ≤ w ∧ w ≤ 8) :
    ∀ (fuel pos c : ℕ) (naf : List ℤ), naf.length = 256 → (∀ j, NafDigit w (dg naf j)) → (∀ j, pos ≤ j → dg naf j = 0) →
      c ≤ 1 → (256 ≤ pos → c = 0) → 256 ≤ pos + fuel →
      bval 2 naf + (c + leVal s / 2 ^ pos : ℕ) * 2 ^ pos = leVal s →
      (nafLoop (nafDigits s) w fuel pos c naf).length = 256 ∧ bval 2 (nafLoop (nafDigits s) w fuel pos c naf) = leVal s ∧
        ∀ j, NafDigit w (dg (nafLoop (nafDigits s) w fuel pos c naf) j) := by
  intro fuel
  induction fuel with
  | zero =>
    intro pos c naf h1 h2 _ _ h5 h6 h7
    have hp : 256 ≤ pos := by omega
    have hz : leVal s / 2 ^ pos = 0 := Nat.div_eq_of_lt (lt_of_lt_of_le hN (Nat.pow_le_pow_right (by norm_num) (by omega)))
    rw [hz, h5 hp, Nat.cast_zero, zero_mul, add_zero] at h7
    exact ⟨h1, h7, h2⟩
  | succ fuel ih =>
    intro pos c naf h1 h2 h3 h4 h5 h6 h7
    unfold nafLoop
    by_cases hp : pos < 256
    · rw [if_pos hp]
      dsimp only
      rw [nafWindow_eq h hl hw hp]
      generalize hNg : leVal s = N at *
      have hq : N / 2 ^ pos < 2 ^ (255 - pos) ∨ pos = 255 ∧ N / 2 ^ pos = 0 := by
        by_cases hpp : pos = 255
        · exact Or.inr ⟨hpp, by rw [hpp]; exact Nat.div_eq_of_lt hN⟩
        · left
          rw [Nat.div_lt_iff_lt_mul (by positivity), ← pow_add, show 255 - pos + pos = 255 by omega]
          exact hN
      have dvw : ∀ k, N / 2 ^ (pos + k) = N / 2 ^ pos / 2 ^ k := by intro k; rw [Nat.div_div_eq_div_mul, ← pow_add]
      have d1 := dvw 1
      have dw := dvw w
      have hlarge : pos + w ≥ 256 → N / 2 ^ pos < 2 ^ (w - 1) := by
        intro hge
        rcases hq with hq | hq
        · exact lt_of_lt_of_le hq (Nat.pow_le_pow_right (by norm_num) (by omega))
        · rw [hq.2]; positivity
      generalize hM : N / 2 ^ pos = M at *
      have hw2 : (2 : ℕ) ^ w = 2 * 2 ^ (w - 1) := by rw [← pow_succ']; congr 1; omega
      have hp2 : (2 : ℕ) ∣ 2 ^ w := dvd_pow_self 2 (by omega)
      have hwz : (2 : ℤ) ^ w = 2 * 2 ^ (w - 1) := by exact_mod_cast hw2
      have hw128 : (2 : ℕ) ^ (w - 1) ≤ 128 := by
        calc (2 : ℕ) ^ (w - 1) ≤ 2 ^ 7 := Nat.pow_le_pow_right (by norm_num) (by omega)
          _ = 128 := by norm_num
      have hw1 : (2 : ℕ) ≤ 2 ^ (w - 1) := by
        calc (2 : ℕ) = 2 ^ 1 := rfl
          _ ≤ 2 ^ (w - 1) := Nat.pow_le_pow_right (by norm_num) (by omega)
      have hMw : M % 2 ^ w < 2 ^ w := Nat.mod_lt _ (by positivity)
      have hMd : M = 2 ^ w * (M / 2 ^ w) + M % 2 ^ w := (Nat.div_add_mod M (2 ^ w)).symm
      have hpar : M % 2 ^ w % 2 = M % 2 := Nat.mod_mod_of_dvd _ hp2
      have hpw : (2 : ℤ) ^ (pos + w) = 2 ^ w * 2 ^ pos := by rw [pow_add]; ring
      by_cases heven : (c + M % 2 ^ w) % 2 = 0
      · rw [if_pos heven]
        refine ih (pos + 1) c naf h1 h2 (fun j hj => h3 j (by omega)) h4 ?_ (by omega) ?_
        · intro hp1
          rcases hq with hq | hq
          · have : (2 : ℕ) ^ (255 - pos) = 1 := by rw [show 255 - pos = 0 by omega, pow_zero]
            omega
          · omega
        · rw [d1, pow_one, ← h7, pow_succ]
          have hM' : c + M = 2 * (c + M / 2) := by omega
          have : ((c + M : ℕ) : ℤ) = 2 * ((c + M / 2 : ℕ) : ℤ) := by exact_mod_cast hM'
          rw [this]
          ring
      · rw [if_neg heven]
        have hhalf : 2 ^ w / 2 = 2 ^ (w - 1) := by omega
        rw [hhalf]
        have hzero := h3 pos (le_refl _)
        generalize hh : (2 : ℕ) ^ (w - 1) = H at *
        have hhz : (2 : ℤ) ^ (w - 1) = (H : ℤ) := by rw [← hh]; push_cast; rfl
        rw [hw2] at hMw hMd hpar heven ⊢
        generalize hr : M % (2 * H) = r at *
        rw [hw2] at dw
        generalize hQ : M / (2 * H) = q at *
        by_cases hsmall : c + r < H
        · rw [if_pos hsmall]
          have e8 : i8 ((c + r : ℕ) : ℤ) = ((c + r : ℕ) : ℤ) := i8_eq (by omega)
          rw [e8]
          refine ih (pos + w) 0 _ (by rw [List.length_set, h1]) ?_ ?_ (by omega) (fun _ => rfl) (by omega) ?_
          · intro j
            by_cases hj : j = pos
            · rw [hj, dg_set_self _ _ (by omega)]
              right
              rw [hhz]
              omega
            · rw [dg_set_ne _ _ hj]; exact h2 j
          · intro j hj
            rw [dg_set_ne _ _ (by omega)]
            exact h3 j (by omega)
          · rw [bval_set _ _ _ _ (by omega), hzero, dw, ← h7, hpw, hwz, hhz]
            have : ((c + M : ℕ) : ℤ) = ((c + r : ℕ) : ℤ) + 2 * (H : ℤ) * (q : ℤ) := by rw [hMd]; push_cast; ring
            rw [this]
            push_cast
            ring
        · rw [if_neg hsmall]
          have e8 : i8 (i8 ((c + r : ℕ) : ℤ) - i8 ((2 * H : ℕ) : ℤ)) = ((c + r : ℕ) : ℤ) - 2 * (H : ℤ) := by
            have hH : H ∣ 128 := by rw [← hh, show (128 : ℕ) = 2 ^ 7 by norm_num]; exact pow_dvd_pow 2 (by omega)
            unfold i8
            omega
          rw [e8]
          have hnl : ¬ 256 ≤ pos + w := by
            intro hge
            have hMs := hlarge hge
            have hq0 : q = 0 := by rw [← hQ]; exact Nat.div_eq_of_lt (by omega)
            rw [hq0, Nat.mul_zero, Nat.zero_add] at hMd
            have hr2 : c + r = H := by omega
            have hHe : 2 ∣ H := by rw [← hh]; exact dvd_pow_self 2 (by omega)
            omega
          refine ih (pos + w) 1 _ (by rw [List.length_set, h1]) ?_ ?_ (by omega) (fun hge => absurd hge hnl) (by omega) ?_
          · intro j
            by_cases hj : j = pos
            · rw [hj, dg_set_self _ _ (by omega)]
              right
              rw [hhz]
              have hHe : 2 ∣ H := by rw [← hh]; exact dvd_pow_self 2 (by omega)
              have : c + r ≠ 2 * H := by omega
              have : c + r ≠ H := by omega
              omega
            · rw [dg_set_ne _ _ hj]; exact h2 j
          · intro j hj
            rw [dg_set_ne _ _ (by omega)]
            exact h3 j (by omega)
          · rw [bval_set _ _ _ _ (by omega), hzero, dw, ← h7, hpw, hwz, hhz]
            have : ((c + M : ℕ) : ℤ) = ((c + r : ℕ) : ℤ) + 2 * (H : ℤ) * (q : ℤ) := by rw [hMd]; push_cast; ring
            rw [this]
            push_cast
            ring
    · rw [if_neg hp]
      have hp' : 256 ≤ pos := by omega
      have hz : leVal s / 2 ^ pos = 0 := Nat.div_eq_of_lt (lt_of_lt_of_le hN (Nat.pow_le_pow_right (by norm_num) (by omega)))
      rw [hz, h5 hp', Nat.cast_zero, zero_mul, add_zero] at h7
      exact ⟨h1, h7, h2⟩

theorem top_lt {s : List ℕ} (h : ∀ b ∈ s, b < 256) (hl : s.length = 32) : s.getD 31 0 ≤ 127 ↔ leVal s < 2 ^ 255 := by
  have e := leVal_slice h 31 1 (by omega)
  rw [take_drop_cons (by omega), List.take_zero] at e
  simp only [leVal] at e
  have hb := leVal_lt h
  rw [hl] at hb
  generalize leVal s = N at *
  rw [mul_zero, add_zero] at e
  rw [e, pow_one]
  constructor
  · intro h1
    omega
  · intro h1
    omega

theorem bval_zeros (b : ℤ) (n : ℕ) : bval b (List.replicate n 0) = 0 := by
  induction n with
  | zero => rfl
  | succ n ih => rw [List.replicate_succ, bval, ih]; ring

/-- **`nonAdjacentForm`**: 256 digits, each zero or odd and below `2^(w-1)` in absolute value, whose value in base 2 is the
scalar. -/
theorem naf_spec {s : List ℕ} (h : ∀ b ∈ s, b < 256) (hl : s.length = 32) (hN : leVal s < 2 ^ 255) {w : ℕ} (hw : 2 ≤ w ∧ w ≤ 8) :
    ∃ d, nonAdjacentForm s w = some d ∧ d.length = 256 ∧ bval 2 d = leVal s ∧ ∀ j, NafDigit w (dg d j) := by
  unfold nonAdjacentForm
  have ht := (top_lt h hl).2 hN
  rw [if_neg (by omega), if_neg (by omega), if_neg (by omega)]
  have z : ∀ j, dg (List.replicate 256 0) j = 0 := by
    intro j
    unfold dg
    rw [List.getD_eq_getElem?_getD, List.getElem?_replicate]
    split <;> rfl
  refine ⟨_, rfl, nafLoop_spec h hl hN hw 256 0 0 _ List.length_replicate (fun j => Or.inl (z j)) (fun j _ => z j) (by omega) (fun _ => rfl) (by omega) ?_⟩
  rw [bval_zeros]
  simp

end Verif.EdHost
