import Verif.EdHost.ScalarModel

/-! # The straight-line code of `scMulAdd` and `scReduce`: an interval analysis, proved sound, shows that no `int64`
operation overflows, and each block changes the number by a multiple of `L` -/

namespace Verif.EdHost
open Verif.Ed

/-- The number the limbs stand for. -/
def lval : List ℤ → ℤ
  | [] => 0
  | x :: s => x + 2 ^ 21 * lval s

theorem lval_set (s : List ℤ) (i : ℕ) (y : ℤ) (h : i < s.length) : lval (s.set i y) = lval s + (y - lg s i) * 2 ^ (21 * i) := by
  induction s generalizing i with
  | nil => simp at h
  | cons x s ih =>
    cases i with
    | zero => simp [lval, lg]; ring
    | succ i =>
      have := ih i (by simpa using h)
      simp only [List.set_cons_succ, lval, this, lg, List.getD_cons_succ]
      rw [show 21 * (i + 1) = 21 + 21 * i by ring, pow_add]
      ring

theorem lval_append (a b : List ℤ) : lval (a ++ b) = lval a + 2 ^ (21 * a.length) * lval b := by
  induction a with
  | nil => simp [lval]
  | cons x a ih =>
    simp only [List.cons_append, lval, ih, List.length_cons]
    rw [show 21 * (a.length + 1) = 21 + 21 * a.length by ring, pow_add]
    ring

/-- Intervals for the limbs. -/
abbrev Ivs := List (ℤ × ℤ)

/-- The limbs lie in their intervals. -/
def In (s : List ℤ) (b : Ivs) : Prop := List.Forall₂ (fun x iv => iv.1 ≤ x ∧ x ≤ iv.2) s b

/-- The interval of limb `i`. -/
def ivg (b : Ivs) (i : ℕ) : ℤ × ℤ := b.getD i (0, 0)

theorem In.get {s : List ℤ} {b : Ivs} (h : In s b) : ∀ {i : ℕ}, i < b.length → (ivg b i).1 ≤ lg s i ∧ lg s i ≤ (ivg b i).2 := by
  induction h with
  | nil => intro i hi; simp at hi
  | cons hx _ ih =>
    intro i hi
    cases i with
    | zero => simpa [ivg, lg] using hx
    | succ i => simpa [ivg, lg] using ih (by simpa using hi)

theorem In.set {s : List ℤ} {b : Ivs} (h : In s b) {y : ℤ} {iv : ℤ × ℤ} (hy : iv.1 ≤ y ∧ y ≤ iv.2) : ∀ i : ℕ, In (s.set i y) (b.set i iv) := by
  induction h with
  | nil => intro i; exact List.Forall₂.nil
  | cons hx hs ih =>
    intro i
    cases i with
    | zero => exact List.Forall₂.cons hy hs
    | succ i => exact List.Forall₂.cons hx (ih i)

theorem In.len {s : List ℤ} {b : Ivs} (h : In s b) : s.length = b.length := List.Forall₂.length_eq h

/-- Is the interval within `int64`? -/
def fits (iv : ℤ × ℤ) : Bool := decide (-2 ^ 63 ≤ iv.1) && decide (iv.2 < 2 ^ 63)

theorem i64_of_fits {iv : ℤ × ℤ} {x : ℤ} (h : fits iv = true) (hx : iv.1 ≤ x ∧ x ≤ iv.2) : i64 x = x := by
  unfold fits at h
  rw [Bool.and_eq_true, decide_eq_true_eq, decide_eq_true_eq] at h
  unfold i64
  omega

/-- Interval addition at limb `j`. -/
def absAdd (b : Ivs) (j : ℕ) (iv : ℤ × ℤ) : Option Ivs :=
  let r := ((ivg b j).1 + iv.1, (ivg b j).2 + iv.2)
  if j < b.length ∧ fits r = true then some (b.set j r) else none

/-- Multiplication by a positive constant. -/
def absMul (iv : ℤ × ℤ) (c : ℤ) : ℤ × ℤ := (iv.1 * c, iv.2 * c)

theorem addAt_sound {s : List ℤ} {b b' : Ivs} {j : ℕ} {x : ℤ} {iv : ℤ × ℤ} (h : In s b) (hx : iv.1 ≤ x ∧ x ≤ iv.2)
    (hb : absAdd b j iv = some b') : In (addAt s j x) b' ∧ lval (addAt s j x) = lval s + x * 2 ^ (21 * j) := by
  unfold absAdd at hb
  dsimp only at hb
  split at hb
  · rename_i hc
    rw [Option.some.injEq] at hb
    have hg := h.get hc.1
    have hr : ((ivg b j).1 + iv.1, (ivg b j).2 + iv.2).1 ≤ lg s j + x ∧ lg s j + x ≤ ((ivg b j).1 + iv.1, (ivg b j).2 + iv.2).2 := by
      dsimp only; omega
    unfold addAt
    rw [i64_of_fits hc.2 hr, ← hb]
    refine ⟨h.set hr j, ?_⟩
    rw [lval_set _ _ _ (by rw [h.len]; exact hc.1)]
    ring
  · exact absurd hb (by simp)

theorem subAt_sound {s : List ℤ} {b b' : Ivs} {j : ℕ} {x : ℤ} {iv : ℤ × ℤ} (h : In s b) (hx : iv.1 ≤ x ∧ x ≤ iv.2)
    (hb : absAdd b j (-iv.2, -iv.1) = some b') : In (subAt s j x) b' ∧ lval (subAt s j x) = lval s - x * 2 ^ (21 * j) := by
  have h1 := addAt_sound (x := -x) h (by dsimp only; omega) hb
  unfold addAt at h1
  unfold subAt
  rw [sub_eq_add_neg]
  exact ⟨h1.1, by rw [h1.2]; ring⟩

theorem lg_set_ne (s : List ℤ) {i j : ℕ} (y : ℤ) (h : i ≠ j) : lg (s.set j y) i = lg s i := by
  unfold lg
  rw [List.getD_eq_getElem?_getD, List.getD_eq_getElem?_getD, List.getElem?_set_ne (Ne.symm h)]

theorem lg_set_self (s : List ℤ) {i : ℕ} (y : ℤ) (h : i < s.length) : lg (s.set i y) i = y := by
  unfold lg
  rw [List.getD_eq_getElem _ _ (by rw [List.length_set]; exact h), List.getElem_set_self]

theorem lg_add_ne (s : List ℤ) {i j : ℕ} (y : ℤ) (h : i ≠ j) : lg (addAt s j y) i = lg s i := lg_set_ne _ _ h
theorem lg_sub_ne (s : List ℤ) {i j : ℕ} (y : ℤ) (h : i ≠ j) : lg (subAt s j y) i = lg s i := lg_set_ne _ _ h

/-- A carry: rounding offset `d`, resulting interval `[r, r + 2^21 - 1]`. -/
def absCarry (b : Ivs) (i : ℕ) (d r : ℤ) : Option Ivs :=
  let iv := ivg b i
  let c := ((iv.1 + d) / 2 ^ 21, (iv.2 + d) / 2 ^ 21)
  if i < b.length ∧ fits (iv.1 + d, iv.2 + d) = true ∧ fits (absMul c (2 ^ 21)) = true then
    match absAdd b (i + 1) c with
    | none => none
    | some b => some (b.set i (r, r + 2 ^ 21 - 1))
  else none

theorem carry_sound {s : List ℤ} {b b' : Ivs} {i : ℕ} {d r : ℤ} (h : In s b) (hb : absCarry b i d r = some b')
    (hr : r = -d) (hd : 0 ≤ d ∧ d ≤ 2 ^ 20) :
    In (carryBlk s i (i64 (lg s i + d) / 2 ^ 21)) b' ∧ lval (carryBlk s i (i64 (lg s i + d) / 2 ^ 21)) = lval s := by
  unfold absCarry at hb
  dsimp only at hb
  split at hb
  · rename_i hc
    obtain ⟨hi, hf1, hf2⟩ := hc
    have hg := h.get hi
    rw [i64_of_fits hf1 (by dsimp only; omega)]
    split at hb
    · exact absurd hb (by simp)
    · rename_i b1 hb1
      rw [Option.some.injEq] at hb
      generalize hcv : (lg s i + d) / 2 ^ 21 = c
      have hcr : ((ivg b i).1 + d) / 2 ^ 21 ≤ c ∧ c ≤ ((ivg b i).2 + d) / 2 ^ 21 := by omega
      obtain ⟨a1, a2⟩ := addAt_sound (x := c) h hcr hb1
      unfold carryBlk
      have hm : i64 (c * 2 ^ 21) = c * 2 ^ 21 := i64_of_fits hf2 (by unfold absMul; dsimp only; omega)
      rw [hm]
      unfold subAt
      rw [lg_add_ne s c (by omega : i ≠ i + 1)]
      have hs : i64 (lg s i - c * 2 ^ 21) = lg s i - c * 2 ^ 21 := by
        unfold i64; omega
      rw [hs, ← hb]
      refine ⟨a1.set (by dsimp only; omega) i, ?_⟩
      rw [lval_set _ _ _ (by unfold addAt; rw [List.length_set, h.len]; exact hi), a2, lg_add_ne s c (by omega : i ≠ i + 1)]
      rw [show 21 * (i + 1) = 21 + 21 * i by ring, pow_add]
      ring
  · exact absurd hb (by simp)

/-- A fold of limb `i`. -/
def absFold (b : Ivs) (i : ℕ) : Option Ivs :=
  let iv := ivg b i
  if 12 ≤ i ∧ i < b.length ∧ fits (absMul iv 666643) = true ∧ fits (absMul iv 470296) = true ∧ fits (absMul iv 654183) = true ∧
      fits (absMul iv 997805) = true ∧ fits (absMul iv 136657) = true ∧ fits (absMul iv 683901) = true then do
    let b ← absAdd b (i - 12) (absMul iv 666643)
    let b ← absAdd b (i - 11) (absMul iv 470296)
    let b ← absAdd b (i - 10) (absMul iv 654183)
    let b ← absAdd b (i - 9) (-(absMul iv 997805).2, -(absMul iv 997805).1)
    let b ← absAdd b (i - 8) (absMul iv 136657)
    let b ← absAdd b (i - 7) (-(absMul iv 683901).2, -(absMul iv 683901).1)
    some (b.set i (0, 0))
  else none

theorem L_eq : (L : ℤ) = 2 ^ 252 - (666643 + 470296 * 2 ^ 21 + 654183 * 2 ^ 42 - 997805 * 2 ^ 63 + 136657 * 2 ^ 84 - 683901 * 2 ^ 105) := by
  decide +kernel

theorem absMul_in {iv : ℤ × ℤ} {x : ℤ} (hx : iv.1 ≤ x ∧ x ≤ iv.2) (c : ℤ) (hc : 0 ≤ c) : (absMul iv c).1 ≤ x * c ∧ x * c ≤ (absMul iv c).2 :=
  ⟨mul_le_mul_of_nonneg_right hx.1 hc, mul_le_mul_of_nonneg_right hx.2 hc⟩

theorem fold_sound {s : List ℤ} {b b' : Ivs} {i : ℕ} (h : In s b) (hb : absFold b i = some b') :
    In (blk s (.D i)) b' ∧ lval (blk s (.D i)) = lval s - lg s i * 2 ^ (21 * (i - 12)) * L := by
  unfold absFold at hb
  dsimp only at hb
  split at hb
  · rename_i hc
    obtain ⟨h12, hi, f1, f2, f3, f4, f5, f6⟩ := hc
    have hg := h.get hi
    simp only [blk]
    generalize hx : lg s i = x at *
    have m1 := absMul_in hg 666643 (by norm_num)
    have m2 := absMul_in hg 470296 (by norm_num)
    have m3 := absMul_in hg 654183 (by norm_num)
    have m4 := absMul_in hg 997805 (by norm_num)
    have m5 := absMul_in hg 136657 (by norm_num)
    have m6 := absMul_in hg 683901 (by norm_num)
    rw [i64_of_fits f1 m1, i64_of_fits f2 m2, i64_of_fits f3 m3, i64_of_fits f4 m4, i64_of_fits f5 m5, i64_of_fits f6 m6]
    simp only [Option.bind_eq_bind, Option.bind_eq_some_iff, Option.some.injEq] at hb
    obtain ⟨b1, q1, b2, q2, b3, q3, b4, q4, b5, q5, b6, q6, hb⟩ := hb
    obtain ⟨i1, v1⟩ := addAt_sound h m1 q1
    have g1 := lg_add_ne s (x * 666643) (by omega : i ≠ i - 12)
    generalize addAt s (i - 12) (x * 666643) = s1 at *
    obtain ⟨i2, v2⟩ := addAt_sound i1 m2 q2
    have g2 := lg_add_ne s1 (x * 470296) (by omega : i ≠ i - 11)
    generalize addAt s1 (i - 11) (x * 470296) = s2 at *
    obtain ⟨i3, v3⟩ := addAt_sound i2 m3 q3
    have g3 := lg_add_ne s2 (x * 654183) (by omega : i ≠ i - 10)
    generalize addAt s2 (i - 10) (x * 654183) = s3 at *
    obtain ⟨i4, v4⟩ := subAt_sound i3 m4 q4
    have g4 := lg_sub_ne s3 (x * 997805) (by omega : i ≠ i - 9)
    generalize subAt s3 (i - 9) (x * 997805) = s4 at *
    obtain ⟨i5, v5⟩ := addAt_sound i4 m5 q5
    have g5 := lg_add_ne s4 (x * 136657) (by omega : i ≠ i - 8)
    generalize addAt s4 (i - 8) (x * 136657) = s5 at *
    obtain ⟨i6, v6⟩ := subAt_sound i5 m6 q6
    have g6 := lg_sub_ne s5 (x * 683901) (by omega : i ≠ i - 7)
    generalize subAt s5 (i - 7) (x * 683901) = s6 at *
    rw [← hb]
    refine ⟨i6.set (by simp) i, ?_⟩
    have hlen : i < s6.length := by
      have l1 : b6.length = b.length := by
        have al : ∀ {b b' : Ivs} {j iv}, absAdd b j iv = some b' → b'.length = b.length := by
          intro b b' j iv hh
          unfold absAdd at hh
          dsimp only at hh
          split at hh
          · rw [Option.some.injEq] at hh
            rw [← hh, List.length_set]
          · exact absurd hh (by simp)
        rw [al q6, al q5, al q4, al q3, al q2, al q1]
      rw [i6.len, l1]
      exact hi
    rw [lval_set _ _ _ hlen, g6, g5, g4, g3, g2, g1, hx, v6, v5, v4, v3, v2, v1, L_eq]
    obtain ⟨k, rfl⟩ : ∃ k, i = k + 12 := ⟨i - 12, by omega⟩
    rw [show k + 12 - 12 = k by omega, show k + 12 - 11 = k + 1 by omega, show k + 12 - 10 = k + 2 by omega, show k + 12 - 9 = k + 3 by omega,
      show k + 12 - 8 = k + 4 by omega, show k + 12 - 7 = k + 5 by omega]
    simp only [mul_add, pow_add]
    ring
  · exact absurd hb (by simp)

/-- The analysis of one block. -/
def absBlk (b : Ivs) : Blk → Option Ivs
  | .R i => absCarry b i (2 ^ 20) (-2 ^ 20)
  | .F i => absCarry b i 0 0
  | .D i => absFold b i

/-- The analysis of a list of blocks. -/
def absRun : Ivs → List Blk → Option Ivs
  | b, [] => some b
  | b, k :: l => match absBlk b k with
    | none => none
    | some b' => absRun b' l

theorem blk_sound {s : List ℤ} {b b' : Ivs} {k : Blk} (h : In s b) (hb : absBlk b k = some b') :
    In (blk s k) b' ∧ ∃ m : ℤ, lval (blk s k) = lval s - m * L := by
  cases k with
  | R i =>
    obtain ⟨h1, h2⟩ := carry_sound h hb rfl ⟨by norm_num, le_refl _⟩
    exact ⟨h1, 0, by rw [zero_mul, sub_zero]; exact h2⟩
  | F i =>
    have hc := hb
    unfold absBlk absCarry at hc
    dsimp only at hc
    split at hc
    · rename_i hh
      have hg := h.get hh.1
      have h0 := carry_sound h hb (by norm_num) ⟨le_refl _, by norm_num⟩
      have e : i64 (lg s i + 0) = lg s i := by
        rw [i64_of_fits hh.2.1 (by dsimp only; omega), add_zero]
      rw [e] at h0
      exact ⟨h0.1, 0, by rw [zero_mul, sub_zero]; exact h0.2⟩
    · exact absurd hc (by simp)
  | D i =>
    obtain ⟨h1, h2⟩ := fold_sound h hb
    exact ⟨h1, _, h2⟩

/-- **Soundness of the analysis**: if it succeeds, the code has not overflowed, and has changed the number by a multiple
of `L`. -/
theorem run_sound {l : List Blk} : ∀ {s : List ℤ} {b b' : Ivs}, In s b → absRun b l = some b' →
    In (runBlks s l) b' ∧ ∃ m : ℤ, lval (runBlks s l) = lval s - m * L := by
  induction l with
  | nil =>
    intro s b b' h hb
    rw [absRun, Option.some.injEq] at hb
    exact ⟨hb ▸ h, 0, by rw [zero_mul, sub_zero]; rfl⟩
  | cons k l ih =>
    intro s b b' h hb
    rw [absRun] at hb
    split at hb
    · exact absurd hb (by simp)
    · rename_i b1 hb1
      obtain ⟨h1, m1, e1⟩ := blk_sound h hb1
      obtain ⟨h2, m2, e2⟩ := ih h1 hb
      refine ⟨h2, m1 + m2, ?_⟩
      show lval (runBlks (blk s k) l) = _
      rw [e2, e1]
      ring

/-- Carries keep the number. -/
theorem run_carry {l : List Blk} (hl : ∀ k ∈ l, ∃ i, k = .F i) : ∀ {s : List ℤ} {b b' : Ivs}, In s b → absRun b l = some b' →
    In (runBlks s l) b' ∧ lval (runBlks s l) = lval s := by
  induction l with
  | nil =>
    intro s b b' h hb
    rw [absRun, Option.some.injEq] at hb
    exact ⟨hb ▸ h, rfl⟩
  | cons k l ih =>
    intro s b b' h hb
    rw [absRun] at hb
    split at hb
    · exact absurd hb (by simp)
    · rename_i b1 hb1
      obtain ⟨i, rfl⟩ := hl k List.mem_cons_self
      have hF : In (blk s (.F i)) b1 ∧ lval (blk s (.F i)) = lval s := by
        have hc := hb1
        unfold absBlk absCarry at hc
        dsimp only at hc
        split at hc
        · rename_i hh
          have hg := h.get hh.1
          have h0 := carry_sound h hb1 (by norm_num) ⟨le_refl _, by norm_num⟩
          have e : i64 (lg s i + 0) = lg s i := by
            rw [i64_of_fits hh.2.1 (by dsimp only; omega), add_zero]
          rw [e] at h0
          exact h0
        · exact absurd hc (by simp)
      obtain ⟨h2, e2⟩ := ih (fun k hk => hl k (List.mem_cons_of_mem _ hk)) hF.1 hb
      exact ⟨h2, by show lval (runBlks (blk s (.F i)) l) = _; rw [e2, hF.2]⟩

theorem In.lval_le {s : List ℤ} {b : Ivs} (h : In s b) : lval (b.map Prod.fst) ≤ lval s ∧ lval s ≤ lval (b.map Prod.snd) := by
  induction h with
  | nil => exact ⟨le_refl _, le_refl _⟩
  | cons hx _ ih =>
    simp only [List.map_cons, lval]
    omega

end Verif.EdHost
