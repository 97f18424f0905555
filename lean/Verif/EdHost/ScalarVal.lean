import Verif.EdHost.Scalar

/-! # `scMulAdd` and `scReduce`: loading, multiplying, and the values of all scalar operations -/

namespace Verif.EdHost
open Verif.Ed

theorem take_drop_cons {x : List ℕ} {o n : ℕ} (h : o < x.length) : (x.drop o).take (n + 1) = x.getD o 0 :: (x.drop (o + 1)).take n := by
  rw [List.drop_eq_getElem_cons h, List.take_succ_cons, List.getD_eq_getElem _ _ h]

theorem load3_eq {x : List ℕ} (h : ∀ b ∈ x, b < 256) {o : ℕ} (ho : o + 3 ≤ x.length) : load3 x o = leVal x / 256 ^ o % 2 ^ 24 := by
  have e := leVal_slice h o 3 ho
  rw [take_drop_cons (by omega), take_drop_cons (by omega), take_drop_cons (by omega), List.take_zero, show o + 1 + 1 = o + 2 by rfl] at e
  rw [show (2 : ℕ) ^ 24 = 256 ^ 3 by norm_num, ← e]
  unfold load3
  have g : ∀ i, x.getD i 0 < 256 := by
    intro i
    by_cases hi : i < x.length
    · rw [List.getD_eq_getElem _ _ hi]; exact h _ (List.getElem_mem hi)
    · rw [List.getD_eq_default _ _ (by omega)]; norm_num
  have g0 := g o
  have g1 := g (o + 1)
  have g2 := g (o + 2)
  rw [Nat.shiftLeft_eq, Nat.shiftLeft_eq, or_add (show x.getD o 0 < 2 ^ 8 by omega), or_add (by omega)]
  simp only [leVal]
  omega

theorem load4_eq {x : List ℕ} (h : ∀ b ∈ x, b < 256) {o : ℕ} (ho : o + 4 ≤ x.length) : load4 x o = leVal x / 256 ^ o % 2 ^ 32 := by
  have e := leVal_slice h o 4 ho
  rw [take_drop_cons (by omega), take_drop_cons (by omega), take_drop_cons (by omega), take_drop_cons (by omega), List.take_zero, show o + 1 + 1 = o + 2 by rfl, show o + 2 + 1 = o + 3 by rfl] at e
  rw [show (2 : ℕ) ^ 32 = 256 ^ 4 by norm_num, ← e]
  unfold load4
  have g : ∀ i, x.getD i 0 < 256 := by
    intro i
    by_cases hi : i < x.length
    · rw [List.getD_eq_getElem _ _ hi]; exact h _ (List.getElem_mem hi)
    · rw [List.getD_eq_default _ _ (by omega)]; norm_num
  have g0 := g o
  have g1 := g (o + 1)
  have g2 := g (o + 2)
  have g3 := g (o + 3)
  rw [Nat.shiftLeft_eq, Nat.shiftLeft_eq, Nat.shiftLeft_eq, or_add (show x.getD o 0 < 2 ^ 8 by omega),
    or_add (show x.getD o 0 + x.getD (o + 1) 0 * 2 ^ 8 < 2 ^ 16 by omega), or_add (by omega)]
  simp only [leVal]
  omega

theorem m21_eq (N o w r k : ℕ) (hk : 8 * o + r = k) (hw : r + 21 ≤ w) : m21 ((N / 256 ^ o % 2 ^ w) >>> r) = N / 2 ^ k % 2 ^ 21 := by
  unfold m21
  rw [Nat.and_comm, show 2097151 = 2 ^ 21 - 1 by norm_num, Nat.and_two_pow_sub_one_eq_mod, Nat.shiftRight_eq_div_pow]
  obtain ⟨v, rfl⟩ : ∃ v, w = r + v := ⟨w - r, by omega⟩
  rw [pow_add, Nat.mod_mul_right_div_self, Nat.mod_mod_of_dvd _ (pow_dvd_pow 2 (by omega)), Nat.div_div_eq_div_mul,
    show (256 : ℕ) = 2 ^ 8 by norm_num, ← pow_mul, ← pow_add, hk]

theorem m21_eq0 (N o w k : ℕ) (hk : 8 * o = k) (hw : 21 ≤ w) : m21 (N / 256 ^ o % 2 ^ w) = N / 2 ^ k % 2 ^ 21 := by
  have := m21_eq N o w 0 k (by omega) (by omega)
  rwa [Nat.shiftRight_zero] at this

theorem top_eq (N o w r k : ℕ) (hk : 8 * o + r = k) (hw : r ≤ w) (hN : N < 2 ^ (8 * o + w)) : (N / 256 ^ o % 2 ^ w) >>> r = N / 2 ^ k := by
  have e : (256 : ℕ) ^ o = 2 ^ (8 * o) := by rw [pow_mul]; rfl
  rw [Nat.shiftRight_eq_div_pow, e, Nat.mod_eq_of_lt, Nat.div_div_eq_div_mul, ← pow_add, hk]
  rw [Nat.div_lt_iff_lt_mul (by positivity), ← pow_add, add_comm w]
  exact hN

theorem p512 : 256 ^ 64 ≤ 2 ^ (8 * 60 + 32) := by decide +kernel

/-- The base `2^21` digits, the last one taking all the rest. -/
def dig (N n : ℕ) : List ℕ := (List.range n).map (fun i => N / 2 ^ (21 * i) % 2 ^ 21) ++ [N / 2 ^ (21 * n)]

theorem limbs32_eq {a : List ℕ} (h : ∀ b ∈ a, b < 256) (hl : a.length = 32) : limbs32 a = dig (leVal a) 11 := by
  have hb := leVal_lt h
  rw [hl] at hb
  unfold limbs32 dig
  rw [load3_eq h (by omega), load4_eq h (by omega), load3_eq h (by omega), load4_eq h (by omega), load4_eq h (by omega), load3_eq h (by omega),
    load4_eq h (by omega), load3_eq h (by omega), load3_eq h (by omega), load4_eq h (by omega), load3_eq h (by omega), load4_eq h (by omega)]
  rw [m21_eq0 _ _ _ (21 * 0) (by norm_num) (by norm_num), m21_eq _ _ _ _ (21 * 1) (by norm_num) (by norm_num),
    m21_eq _ _ _ _ (21 * 2) (by norm_num) (by norm_num), m21_eq _ _ _ _ (21 * 3) (by norm_num) (by norm_num),
    m21_eq _ _ _ _ (21 * 4) (by norm_num) (by norm_num), m21_eq _ _ _ _ (21 * 5) (by norm_num) (by norm_num),
    m21_eq _ _ _ _ (21 * 6) (by norm_num) (by norm_num), m21_eq _ _ _ _ (21 * 7) (by norm_num) (by norm_num),
    m21_eq0 _ _ _ (21 * 8) (by norm_num) (by norm_num), m21_eq _ _ _ _ (21 * 9) (by norm_num) (by norm_num),
    m21_eq _ _ _ _ (21 * 10) (by norm_num) (by norm_num), top_eq _ _ _ _ (21 * 11) (by norm_num) (by norm_num) (lt_of_lt_of_le hb (by norm_num))]
  rfl

theorem limbs64_eq {a : List ℕ} (h : ∀ b ∈ a, b < 256) (hl : a.length = 64) : limbs64 a = dig (leVal a) 23 := by
  have hb := leVal_lt h
  rw [hl] at hb
  unfold limbs64 dig
  rw [load3_eq h (by omega), load4_eq h (by omega), load3_eq h (by omega), load4_eq h (by omega), load4_eq h (by omega), load3_eq h (by omega),
    load4_eq h (by omega), load3_eq h (by omega), load3_eq h (by omega), load4_eq h (by omega), load3_eq h (by omega), load4_eq h (by omega),
    load4_eq h (by omega), load3_eq h (by omega), load4_eq h (by omega), load3_eq h (by omega), load3_eq h (by omega), load4_eq h (by omega),
    load3_eq h (by omega), load4_eq h (by omega), load4_eq h (by omega), load3_eq h (by omega), load4_eq h (by omega), load4_eq h (by omega)]
  rw [m21_eq0 _ _ _ (21 * 0) (by norm_num) (by norm_num), m21_eq _ _ _ _ (21 * 1) (by norm_num) (by norm_num),
    m21_eq _ _ _ _ (21 * 2) (by norm_num) (by norm_num), m21_eq _ _ _ _ (21 * 3) (by norm_num) (by norm_num),
    m21_eq _ _ _ _ (21 * 4) (by norm_num) (by norm_num), m21_eq _ _ _ _ (21 * 5) (by norm_num) (by norm_num),
    m21_eq _ _ _ _ (21 * 6) (by norm_num) (by norm_num), m21_eq _ _ _ _ (21 * 7) (by norm_num) (by norm_num),
    m21_eq0 _ _ _ (21 * 8) (by norm_num) (by norm_num), m21_eq _ _ _ _ (21 * 9) (by norm_num) (by norm_num),
    m21_eq _ _ _ _ (21 * 10) (by norm_num) (by norm_num), m21_eq _ _ _ _ (21 * 11) (by norm_num) (by norm_num),
    m21_eq _ _ _ _ (21 * 12) (by norm_num) (by norm_num), m21_eq _ _ _ _ (21 * 13) (by norm_num) (by norm_num),
    m21_eq _ _ _ _ (21 * 14) (by norm_num) (by norm_num), m21_eq _ _ _ _ (21 * 15) (by norm_num) (by norm_num),
    m21_eq0 _ _ _ (21 * 16) (by norm_num) (by norm_num), m21_eq _ _ _ _ (21 * 17) (by norm_num) (by norm_num),
    m21_eq _ _ _ _ (21 * 18) (by norm_num) (by norm_num), m21_eq _ _ _ _ (21 * 19) (by norm_num) (by norm_num),
    m21_eq _ _ _ _ (21 * 20) (by norm_num) (by norm_num), m21_eq _ _ _ _ (21 * 21) (by norm_num) (by norm_num),
    m21_eq _ _ _ _ (21 * 22) (by norm_num) (by norm_num), top_eq _ _ _ _ (21 * 23) (by norm_num) (by norm_num) (lt_of_lt_of_le hb p512)]
  rfl

theorem dig_succ (N n : ℕ) : dig N (n + 1) = N % 2 ^ 21 :: dig (N / 2 ^ 21) n := by
  unfold dig
  rw [List.range_succ_eq_map, List.map_cons, List.map_map, List.cons_append]
  congr 1
  · simp
  · congr 1
    · refine List.map_congr_left fun i _ => ?_
      simp only [Function.comp_apply, Nat.succ_eq_add_one]
      rw [Nat.div_div_eq_div_mul, ← pow_add, show 21 * (i + 1) = 21 + 21 * i by ring]
    · rw [Nat.div_div_eq_div_mul, ← pow_add, show 21 * (n + 1) = 21 + 21 * n by ring]

theorem dig_val (n : ℕ) : ∀ N : ℕ, lval ((dig N n).map fun l : ℕ => (l : ℤ)) = N := by
  induction n with
  | zero => intro N; simp [dig, lval]
  | succ n ih =>
    intro N
    rw [dig_succ, List.map_cons, lval, ih]
    omega

/-- **`scReduce`.** -/
theorem scReduce_eq {x : List ℕ} (h : ∀ b ∈ x, b < 256) (hl : x.length = 64) : scReduce x = leBytes 32 (leVal x % L) := by
  have hb := leVal_lt h
  rw [hl] at hb
  unfold scReduce
  rw [limbs64_eq h hl]
  have hin : In ((dig (leVal x) 23).map fun l : ℕ => (l : ℤ)) ivRed := by
    have m : ∀ i, (0 : ℤ) ≤ ((leVal x / 2 ^ (21 * i) % 2 ^ 21 : ℕ) : ℤ) ∧ ((leVal x / 2 ^ (21 * i) % 2 ^ 21 : ℕ) : ℤ) ≤ 2 ^ 21 - 1 := by
      intro i
      have := Nat.mod_lt (leVal x / 2 ^ (21 * i)) (show 2 ^ 21 > 0 by norm_num)
      omega
    have t : (0 : ℤ) ≤ ((leVal x / 2 ^ (21 * 23) : ℕ) : ℤ) ∧ ((leVal x / 2 ^ (21 * 23) : ℕ) : ℤ) ≤ 2 ^ 29 - 1 := by
      have : leVal x / 2 ^ (21 * 23) < 2 ^ 29 := by
        rw [Nat.div_lt_iff_lt_mul (by positivity), ← pow_add]
        exact lt_of_lt_of_le hb p512
      omega
    unfold dig ivRed
    rw [List.map_append, List.map_map]
    refine List.rel_append ?_ (.cons t .nil)
    rw [List.forall₂_iff_get]
    refine ⟨by simp, fun i h1 h2 => ?_⟩
    simp only [List.get_eq_getElem, List.getElem_map, List.getElem_range, List.getElem_replicate, Function.comp_apply]
    exact m i
  obtain ⟨h1, h2⟩ := stages hin stageA_red
  refine pack_eq h1 ?_
  rw [h2, dig_val]
  rfl

/-! ## The product -/

theorem foldl_col (a b : List ℕ) (k : ℕ) (ha : ∀ i, a.getD i 0 < 2 ^ 25) (hb : ∀ i, b.getD i 0 < 2 ^ 25) :
    ∀ (l : List ℕ) (z : ℤ), 0 ≤ z → z + l.length * 2 ^ 50 < 2 ^ 63 →
      l.foldl (fun (acc : ℤ) i => i64 (acc + i64 ((a.getD i 0 : ℤ) * (b.getD (k - i) 0 : ℤ)))) z =
        z + (l.map fun i => (a.getD i 0 : ℤ) * (b.getD (k - i) 0 : ℤ)).sum ∧
      z ≤ z + (l.map fun i => (a.getD i 0 : ℤ) * (b.getD (k - i) 0 : ℤ)).sum ∧
      z + (l.map fun i => (a.getD i 0 : ℤ) * (b.getD (k - i) 0 : ℤ)).sum ≤ z + l.length * 2 ^ 50 := by
  intro l
  induction l with
  | nil => intro z _ _; simp
  | cons i l ih =>
    intro z hz hb'
    have hp : 0 ≤ (a.getD i 0 : ℤ) * (b.getD (k - i) 0 : ℤ) ∧ (a.getD i 0 : ℤ) * (b.getD (k - i) 0 : ℤ) ≤ 2 ^ 50 := by
      have h1 := Nat.mul_lt_mul'' (ha i) (hb (k - i))
      have h2 : a.getD i 0 * b.getD (k - i) 0 ≤ 2 ^ 50 := le_of_lt (lt_of_lt_of_le h1 (by norm_num))
      exact ⟨by positivity, by exact_mod_cast h2⟩
    rw [List.length_cons, Nat.cast_succ] at hb'
    generalize hP : (a.getD i 0 : ℤ) * (b.getD (k - i) 0 : ℤ) = p at hp
    have e1 : i64 p = p := by unfold i64; omega
    have e2 : i64 (z + p) = z + p := by
      have : (0 : ℤ) ≤ l.length * 2 ^ 50 := by positivity
      unfold i64; omega
    rw [List.foldl_cons, hP, e1, e2, List.map_cons, List.sum_cons, hP, List.length_cons, Nat.cast_succ]
    obtain ⟨q1, q2, q3⟩ := ih (z + p) (by omega) (by omega)
    refine ⟨by rw [q1]; ring, by omega, by omega⟩

theorem column_eq (a b c : List ℕ) (k : ℕ) (hk : k < 23) (ha : ∀ i, a.getD i 0 < 2 ^ 25) (hb : ∀ i, b.getD i 0 < 2 ^ 25) (hc : ∀ i, c.getD i 0 < 2 ^ 25) :
    column a b c k = (c.getD k 0 : ℤ) + ((List.range (k + 1)).map fun i => (a.getD i 0 : ℤ) * (b.getD (k - i) 0 : ℤ)).sum ∧
      0 ≤ column a b c k ∧ column a b c k ≤ 2 ^ 55 := by
  have h := hc k
  have hl : ((List.range (k + 1)).length : ℤ) ≤ 23 := by rw [List.length_range]; omega
  obtain ⟨q1, q2, q3⟩ := foldl_col a b k ha hb (List.range (k + 1)) (c.getD k 0 : ℤ) (by positivity) (by omega)
  unfold column
  rw [q1]
  refine ⟨rfl, by omega, by omega⟩

theorem dig_len (N n : ℕ) : (dig N n).length = n + 1 := by simp [dig]

theorem dig_bound {N n : ℕ} (h : N < 2 ^ (21 * n + 25)) (i : ℕ) : (dig N n).getD i 0 < 2 ^ 25 := by
  unfold dig
  by_cases hi : i < n
  · rw [List.getD_append _ _ _ _ (by simpa using hi), List.getD_eq_getElem _ _ (by simpa using hi), List.getElem_map]
    exact lt_of_lt_of_le (Nat.mod_lt _ (by norm_num)) (by norm_num)
  · rw [List.getD_append_right _ _ _ _ (by simpa using hi)]
    simp only [List.length_map, List.length_range]
    cases hd : i - n with
    | zero =>
      simp only [List.getD_cons_zero]
      rw [Nat.div_lt_iff_lt_mul (by positivity), ← pow_add, add_comm 25]
      exact h
    | succ j => simp

theorem len12 {a : List ℕ} (h : a.length = 12) : ∃ a0 a1 a2 a3 a4 a5 a6 a7 a8 a9 a10 a11, a = [a0, a1, a2, a3, a4, a5, a6, a7, a8, a9, a10, a11] := by
  match a, h with
  | [a0, a1, a2, a3, a4, a5, a6, a7, a8, a9, a10, a11], _ => exact ⟨_, _, _, _, _, _, _, _, _, _, _, _, rfl⟩

theorem columns_val {a b c : List ℕ} (la : a.length = 12) (lb : b.length = 12) (lc : c.length = 12) (ha : ∀ i, a.getD i 0 < 2 ^ 25)
    (hb : ∀ i, b.getD i 0 < 2 ^ 25) (hc : ∀ i, c.getD i 0 < 2 ^ 25) :
    lval ((List.range 23).map (column a b c) ++ [0]) =
      lval (a.map fun l : ℕ => (l : ℤ)) * lval (b.map fun l : ℕ => (l : ℤ)) + lval (c.map fun l : ℕ => (l : ℤ)) := by
  rw [List.map_congr_left (g := fun k => (c.getD k 0 : ℤ) + ((List.range (k + 1)).map fun i => (a.getD i 0 : ℤ) * (b.getD (k - i) 0 : ℤ)).sum)
    (fun k hk => (column_eq a b c k (by simpa using hk) ha hb hc).1)]
  clear ha hb hc
  obtain ⟨a0, a1, a2, a3, a4, a5, a6, a7, a8, a9, a10, a11, rfl⟩ := len12 la
  obtain ⟨b0, b1, b2, b3, b4, b5, b6, b7, b8, b9, b10, b11, rfl⟩ := len12 lb
  obtain ⟨c0, c1, c2, c3, c4, c5, c6, c7, c8, c9, c10, c11, rfl⟩ := len12 lc
  simp only [List.range_succ, List.range_zero, List.nil_append, List.cons_append, List.map_cons, List.map_nil, List.sum_cons, List.sum_nil, lval,
    Nat.reduceAdd, Nat.reduceSub, List.getD_cons_zero, List.getD_cons_succ, List.getD_nil, Nat.cast_zero]
  ring

/-- **`scMulAdd`.** -/
theorem scMulAdd_eq {a b c : List ℕ} (ha : ∀ x ∈ a, x < 256) (hb : ∀ x ∈ b, x < 256) (hc : ∀ x ∈ c, x < 256)
    (la : a.length = 32) (lb : b.length = 32) (lc : c.length = 32) :
    scMulAdd a b c = leBytes 32 ((leVal a * leVal b + leVal c) % L) := by
  have bd : ∀ {a : List ℕ}, (∀ x ∈ a, x < 256) → a.length = 32 → ∀ i, (dig (leVal a) 11).getD i 0 < 2 ^ 25 := by
    intro a h hl
    have hb := leVal_lt h
    rw [hl] at hb
    exact dig_bound (lt_of_lt_of_le hb (by norm_num))
  unfold scMulAdd
  dsimp only
  rw [limbs32_eq ha la, limbs32_eq hb lb, limbs32_eq hc lc]
  have hin : In ((List.range 23).map (column (dig (leVal a) 11) (dig (leVal b) 11) (dig (leVal c) 11)) ++ [0]) ivMul := by
    unfold ivMul
    refine List.rel_append ?_ (.cons ⟨le_refl _, le_refl _⟩ .nil)
    rw [List.forall₂_iff_get]
    refine ⟨by simp, fun i h1 h2 => ?_⟩
    simp only [List.get_eq_getElem, List.getElem_map, List.getElem_range, List.getElem_replicate]
    exact (column_eq _ _ _ i (by simpa using h1) (bd ha la) (bd hb lb) (bd hc lc)).2
  obtain ⟨h1, h2⟩ := stages hin stageA_mul
  refine pack_eq h1 ?_
  rw [h2, columns_val (dig_len _ _) (dig_len _ _) (dig_len _ _) (bd ha la) (bd hb lb) (bd hc lc), dig_val, dig_val, dig_val]
  push_cast
  rfl

end Verif.EdHost
