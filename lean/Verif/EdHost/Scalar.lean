import Verif.EdHost.ScalarBlk
import Verif.EdHost.FieldBytes

/-! # `scMulAdd` and `scReduce` compute modulo `L` -/

namespace Verif.EdHost
open Verif.Ed

/-! ## The carry and fold stages -/

/-- The intervals of `scReduce` after loading. -/
def ivRed : Ivs := List.replicate 23 (0, 2 ^ 21 - 1) ++ [(0, 2 ^ 29 - 1)]

/-- The intervals of `scMulAdd` after the multiplication. -/
def ivMul : Ivs := List.replicate 23 (0, 2 ^ 55) ++ [(0, 0)]

/-- The intervals after the first rounding-down pass. -/
def ivB : Ivs := List.replicate 12 (0, 2 ^ 21 - 1) ++ (-1, 0) :: List.replicate 11 (0, 0)

/-- The intervals at the end. -/
def ivC : Ivs := List.replicate 11 (0, 2 ^ 21 - 1) ++ (-1, 2 ^ 21) :: List.replicate 12 (0, 0)

/-- What the analysis yields after stage A. -/
def stageA (b : Ivs) : Bool :=
  decide (b.length = 24) && decide (-2 ^ 252 ≤ lval (b.map Prod.fst)) && decide (lval (b.map Prod.snd) < 2 ^ 252) &&
    decide (absRun b blksB = some ivB)

set_option maxRecDepth 100000 in
theorem stageA_red : (absRun ivRed blksA).map stageA = some true := by decide +kernel

set_option maxRecDepth 100000 in
theorem stageA_mul : (absRun ivMul (blksMul ++ blksA)).map stageA = some true := by decide +kernel

/-- The rounding-down part of stage C. -/
def blksCF : List Blk := [.F 0, .F 1, .F 2, .F 3, .F 4, .F 5, .F 6, .F 7, .F 8, .F 9, .F 10]

set_option maxRecDepth 100000 in
theorem stageC : ((absFold ivB 12).bind fun b => absRun b blksCF) = some ivC := by decide +kernel

theorem stageC' : ∃ b, absFold ivB 12 = some b ∧ absRun b blksCF = some ivC := by
  have h := stageC
  rw [Option.bind_eq_some_iff] at h
  exact h

theorem carryCF {s : List ℤ} {b : Ivs} (h : In s b) (hb : absRun b blksCF = some ivC) : In (runBlks s blksCF) ivC ∧ lval (runBlks s blksCF) = lval s :=
  run_carry (by unfold blksCF; simp) h hb

theorem carryB {s : List ℤ} {b : Ivs} (h : In s b) (hb : absRun b blksB = some ivB) : In (runBlks s blksB) ivB ∧ lval (runBlks s blksB) = lval s :=
  run_carry (by unfold blksB; simp) h hb

theorem lval_sum (s : List ℤ) : lval s = ∑ i ∈ Finset.range s.length, lg s i * 2 ^ (21 * i) := by
  induction s with
  | nil => rfl
  | cons x s ih =>
    rw [List.length_cons, Finset.sum_range_succ', lval, ih, Finset.mul_sum, add_comm]
    congr 1
    · refine Finset.sum_congr rfl fun i _ => ?_
      rw [show lg (x :: s) (i + 1) = lg s i from by simp [lg], show 21 * (i + 1) = 21 + 21 * i by ring, pow_add]
      ring
    · simp [lg]

theorem runBlks_append (s : List ℤ) (a b : List Blk) : runBlks s (a ++ b) = runBlks (runBlks s a) b := List.foldl_append ..

theorem runBlks_cons (s : List ℤ) (k : Blk) (l : List Blk) : runBlks s (k :: l) = runBlks (blk s k) l := rfl

theorem blksC_eq : blksC = .D 12 :: blksCF := rfl

theorem L_gt : (2 : ℤ) ^ 252 < L := by decide +kernel

/-- All stages together: the result is the value modulo `L`. -/
theorem stages {s : List ℤ} {iv : Ivs} {l : List Blk} (h : In s iv) (hA : (absRun iv l).map stageA = some true) :
    In (runBlks s (l ++ blksB ++ blksC)) ivC ∧ lval (runBlks s (l ++ blksB ++ blksC)) = lval s % L := by
  rw [Option.map_eq_some_iff] at hA
  obtain ⟨bA, hA, hs⟩ := hA
  unfold stageA at hs
  simp only [Bool.and_eq_true, decide_eq_true_eq] at hs
  obtain ⟨⟨⟨hlen, hlo⟩, hhi⟩, hB⟩ := hs
  obtain ⟨i1, m, e1⟩ := run_sound h hA
  have hle := i1.lval_le
  obtain ⟨i2, e2⟩ := carryB i1 hB
  obtain ⟨bC, hC1, hC2⟩ := stageC'
  obtain ⟨i3, e3⟩ := fold_sound i2 hC1
  obtain ⟨i4, e4⟩ := carryCF i3 hC2
  have hrun : runBlks s (l ++ blksB ++ blksC) = runBlks (blk (runBlks (runBlks s l) blksB) (.D 12)) blksCF := by
    rw [runBlks_append, runBlks_append, blksC_eq, runBlks_cons]
  rw [hrun]
  refine ⟨i4, ?_⟩
  rw [e4, e3]
  generalize hs2 : runBlks (runBlks s l) blksB = s2 at *
  have h12 := i2.get (i := 12) (by decide)
  have hv : lval s2 = lval (s2.take 12) + 2 ^ 252 * lg s2 12 := by
    have hl : s2.length = 24 := by rw [i2.len]; decide
    have ez : ∀ i, 13 ≤ i → i < 24 → lg s2 i = 0 := by
      intro i h1 h2
      have := i2.get (i := i) (by rw [show ivB.length = 24 by decide]; exact h2)
      interval_cases i <;> exact le_antisymm this.2 this.1
    have lt : (s2.take 12).length = 12 := by rw [List.length_take, hl]; rfl
    have lgt : ∀ i, i < 12 → lg (s2.take 12) i = lg s2 i := by
      intro i hi
      unfold lg
      rw [List.getD_eq_getElem?_getD, List.getD_eq_getElem?_getD, List.getElem?_take_of_lt hi]
    have e12 : lval (s2.take 12) = ∑ i ∈ Finset.range 12, lg s2 i * 2 ^ (21 * i) := by
      rw [lval_sum, lt]
      exact Finset.sum_congr rfl fun i hi => by rw [lgt i (Finset.mem_range.1 hi)]
    rw [e12, lval_sum, hl]
    simp only [Finset.sum_range_succ, ez 13 (by norm_num) (by norm_num),
      ez 14 (by norm_num) (by norm_num), ez 15 (by norm_num) (by norm_num), ez 16 (by norm_num) (by norm_num), ez 17 (by norm_num) (by norm_num),
      ez 18 (by norm_num) (by norm_num), ez 19 (by norm_num) (by norm_num), ez 20 (by norm_num) (by norm_num), ez 21 (by norm_num) (by norm_num),
      ez 22 (by norm_num) (by norm_num), ez 23 (by norm_num) (by norm_num), zero_mul, add_zero]
    ring
  have ht : In (s2.take 12) (ivB.take 12) := List.forall₂_take 12 i2
  have hb := ht.lval_le
  rw [show lval ((ivB.take 12).map Prod.fst) = 0 by decide +kernel, show lval ((ivB.take 12).map Prod.snd) = 2 ^ 252 - 1 by decide +kernel] at hb
  have hL := L_gt
  have hmod : lval s % (L : ℤ) = (lval s2 - lg s2 12 * 2 ^ (21 * (12 - 12)) * L) % L := by
    rw [e2, e1]
    rw [show lval s - m * (L : ℤ) - lg s2 12 * 2 ^ (21 * (12 - 12)) * L = lval s + L * (-m - lg s2 12) by ring, Int.add_mul_emod_self_left]
  rw [hmod]
  refine (Int.emod_eq_of_lt ?_ ?_).symm
  · rw [show (21 * (12 - 12)) = 0 by rfl, pow_zero, mul_one]
    have h12' : lg s2 12 = -1 ∨ lg s2 12 = 0 := by
      rw [show ivg ivB 12 = (-1, 0) by decide] at h12
      dsimp only at h12
      omega
    rcases h12' with h | h <;> rw [h] at hv ⊢ <;> omega
  · rw [show (21 * (12 - 12)) = 0 by rfl, pow_zero, mul_one]
    have h12' : lg s2 12 = -1 ∨ lg s2 12 = 0 := by
      rw [show ivg ivB 12 = (-1, 0) by decide] at h12
      dsimp only at h12
      omega
    rcases h12' with h | h <;> rw [h] at hv ⊢ <;> omega

/-! ## Packing -/

theorem byteShr_nat (n k : ℕ) : byteShr (n : ℤ) k = n / 2 ^ k % 256 := by
  unfold byteShr
  rw [show ((n : ℤ) / 2 ^ k % 256) = ((n / 2 ^ k % 256 : ℕ) : ℤ) by push_cast; rfl, Int.toNat_natCast]

theorem byteShl_nat (n k : ℕ) : byteShl (n : ℤ) k = n * 2 ^ k % 256 := by
  unfold byteShl
  rw [show ((n : ℤ) * 2 ^ k % 256) = ((n * 2 ^ k % 256 : ℕ) : ℤ) by push_cast; rfl, Int.toNat_natCast]

theorem or_shl {a b k : ℕ} (hk : k ≤ 8) (ha : a < 2 ^ k) : a ||| (b * 2 ^ k % 256) = a + (b % 2 ^ (8 - k)) * 2 ^ k := by
  have : b * 2 ^ k % 256 = (b % 2 ^ (8 - k)) * 2 ^ k := by
    rw [show 256 = 2 ^ (8 - k) * 2 ^ k by rw [← pow_add, Nat.sub_add_cancel hk]; rfl, Nat.mul_mod_mul_right]
  rw [this, or_add ha]

theorem leBytes_leVal (l : List ℕ) (h : ∀ b ∈ l, b < 256) : leBytes l.length (leVal l) = l := by
  apply List.ext_getElem (leBytes_len _ _)
  intro i h1 h2
  rw [leBytes_get (by rwa [leBytes_len] at h1)]
  have := leVal_slice h i 1 (by omega)
  rw [pow_one] at this
  rw [← this]
  have e : (l.drop i).take 1 = [l[i]] := by
    rw [List.take_one, List.head?_drop, List.getElem?_eq_getElem h2]; rfl
  rw [e]
  simp [leVal]

theorem pack_eq {s : List ℤ} {V : ℕ} (h : In s ivC) (hv : lval s = V) : pack s = leBytes 32 V := by
  have hl : s.length = 24 := by rw [h.len]; decide
  have hg : ∀ i, i < 24 → (ivg ivC i).1 ≤ lg s i ∧ lg s i ≤ (ivg ivC i).2 := fun i hi => h.get (by rw [show ivC.length = 24 by decide]; exact hi)
  have ez : ∀ i, 12 ≤ i → i < 24 → lg s i = 0 := by
    intro i h1 h2
    have := hg i h2
    interval_cases i <;> exact le_antisymm this.2 this.1
  have ex : ∀ i, i < 11 → ∃ n : ℕ, lg s i = n ∧ n < 2 ^ 21 := by
    intro i hi
    have := hg i (by omega)
    have h0 : ivg ivC i = (0, 2 ^ 21 - 1) := by interval_cases i <;> decide
    rw [h0] at this
    dsimp only at this
    exact ⟨(lg s i).toNat, by omega, by omega⟩
  have h11 := hg 11 (by norm_num)
  rw [show ivg ivC 11 = (-1, 2 ^ 21) by decide] at h11
  dsimp only at h11
  rw [lval_sum, hl] at hv
  simp only [Finset.sum_range_succ, Finset.sum_range_zero, ez 12 (by norm_num) (by norm_num), ez 13 (by norm_num) (by norm_num),
    ez 14 (by norm_num) (by norm_num), ez 15 (by norm_num) (by norm_num), ez 16 (by norm_num) (by norm_num), ez 17 (by norm_num) (by norm_num),
    ez 18 (by norm_num) (by norm_num), ez 19 (by norm_num) (by norm_num), ez 20 (by norm_num) (by norm_num), ez 21 (by norm_num) (by norm_num),
    ez 22 (by norm_num) (by norm_num), ez 23 (by norm_num) (by norm_num), zero_mul, add_zero, zero_add] at hv
  obtain ⟨x0, e0, b0⟩ := ex 0 (by norm_num)
  obtain ⟨x1, e1, b1⟩ := ex 1 (by norm_num)
  obtain ⟨x2, e2, b2⟩ := ex 2 (by norm_num)
  obtain ⟨x3, e3, b3⟩ := ex 3 (by norm_num)
  obtain ⟨x4, e4, b4⟩ := ex 4 (by norm_num)
  obtain ⟨x5, e5, b5⟩ := ex 5 (by norm_num)
  obtain ⟨x6, e6, b6⟩ := ex 6 (by norm_num)
  obtain ⟨x7, e7, b7⟩ := ex 7 (by norm_num)
  obtain ⟨x8, e8, b8⟩ := ex 8 (by norm_num)
  obtain ⟨x9, e9, b9⟩ := ex 9 (by norm_num)
  obtain ⟨x10, e10, b10⟩ := ex 10 (by norm_num)
  rw [e0, e1, e2, e3, e4, e5, e6, e7, e8, e9, e10] at hv
  have h11' : 0 ≤ lg s 11 := by
    by_contra hn
    have : lg s 11 = -1 := by omega
    rw [this] at hv
    norm_num at hv
    omega
  obtain ⟨x11, e11⟩ := Int.eq_ofNat_of_zero_le h11'
  rw [e11] at hv h11
  have b11 : x11 ≤ 2 ^ 21 := by omega
  have hV : V = x0 + x1 * 2 ^ 21 + x2 * 2 ^ 42 + x3 * 2 ^ 63 + x4 * 2 ^ 84 + x5 * 2 ^ 105 + x6 * 2 ^ 126 + x7 * 2 ^ 147 + x8 * 2 ^ 168 +
      x9 * 2 ^ 189 + x10 * 2 ^ 210 + x11 * 2 ^ 231 := by
    norm_num at hv ⊢
    omega
  clear hv
  have hp : pack s = [x0 / 2 ^ 0 % 256, x0 / 2 ^ 8 % 256, x0 / 2 ^ 16 % 256 + x1 % 2 ^ 3 * 2 ^ 5, x1 / 2 ^ 3 % 256,
      x1 / 2 ^ 11 % 256, x1 / 2 ^ 19 % 256 + x2 % 2 ^ 6 * 2 ^ 2, x2 / 2 ^ 6 % 256, x2 / 2 ^ 14 % 256 + x3 % 2 ^ 1 * 2 ^ 7,
      x3 / 2 ^ 1 % 256, x3 / 2 ^ 9 % 256, x3 / 2 ^ 17 % 256 + x4 % 2 ^ 4 * 2 ^ 4, x4 / 2 ^ 4 % 256,
      x4 / 2 ^ 12 % 256, x4 / 2 ^ 20 % 256 + x5 % 2 ^ 7 * 2 ^ 1, x5 / 2 ^ 7 % 256, x5 / 2 ^ 15 % 256 + x6 % 2 ^ 2 * 2 ^ 6,
      x6 / 2 ^ 2 % 256, x6 / 2 ^ 10 % 256, x6 / 2 ^ 18 % 256 + x7 % 2 ^ 5 * 2 ^ 3, x7 / 2 ^ 5 % 256,
      x7 / 2 ^ 13 % 256, x8 / 2 ^ 0 % 256, x8 / 2 ^ 8 % 256, x8 / 2 ^ 16 % 256 + x9 % 2 ^ 3 * 2 ^ 5,
      x9 / 2 ^ 3 % 256, x9 / 2 ^ 11 % 256, x9 / 2 ^ 19 % 256 + x10 % 2 ^ 6 * 2 ^ 2, x10 / 2 ^ 6 % 256,
      x10 / 2 ^ 14 % 256 + x11 % 2 ^ 1 * 2 ^ 7, x11 / 2 ^ 1 % 256, x11 / 2 ^ 9 % 256, x11 / 2 ^ 17 % 256] := by
    unfold pack
    rw [e0, e1, e2, e3, e4, e5, e6, e7, e8, e9, e10, e11]
    simp only [byteShr_nat, byteShl_nat]
    rw [or_shl (by norm_num : 5 ≤ 8) (by omega : x0 / 2 ^ 16 % 256 < 2 ^ 5), or_shl (by norm_num : 2 ≤ 8) (by omega : x1 / 2 ^ 19 % 256 < 2 ^ 2),
      or_shl (by norm_num : 7 ≤ 8) (by omega : x2 / 2 ^ 14 % 256 < 2 ^ 7), or_shl (by norm_num : 4 ≤ 8) (by omega : x3 / 2 ^ 17 % 256 < 2 ^ 4),
      or_shl (by norm_num : 1 ≤ 8) (by omega : x4 / 2 ^ 20 % 256 < 2 ^ 1), or_shl (by norm_num : 6 ≤ 8) (by omega : x5 / 2 ^ 15 % 256 < 2 ^ 6),
      or_shl (by norm_num : 3 ≤ 8) (by omega : x6 / 2 ^ 18 % 256 < 2 ^ 3), or_shl (by norm_num : 5 ≤ 8) (by omega : x8 / 2 ^ 16 % 256 < 2 ^ 5),
      or_shl (by norm_num : 2 ≤ 8) (by omega : x9 / 2 ^ 19 % 256 < 2 ^ 2), or_shl (by norm_num : 7 ≤ 8) (by omega : x10 / 2 ^ 14 % 256 < 2 ^ 7)]
  rw [hp]
  refine (Eq.trans ?_ (leBytes_leVal _ ?_)).symm
  · refine congrArg (leBytes 32) ?_
    rw [hV]
    simp only [leVal]
    omega
  · simp only [List.mem_cons, List.not_mem_nil, or_false]
    rintro b (h | h | h | h | h | h | h | h | h | h | h | h | h | h | h | h | h | h | h | h | h | h | h | h | h | h | h | h | h | h | h | h) <;> (rw [h]; omega)

end Verif.EdHost
