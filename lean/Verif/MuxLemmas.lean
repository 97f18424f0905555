import Verif.Util
import Verif.Mux
import Verif.MuxSpec

/-! Helper lemmas for the selection and shift gadgets. -/

set_option linter.unusedSectionVars false

namespace Verif
open Api
variable {p : ℕ} [Fact p.Prime]

theorem sum_indicator (n : ℕ) (c : F p → F p) (v : ℕ → F p) (k : ℕ)
    (hc : ∀ i < n, c (i : F p) = if i = k then 1 else 0) :
    ((List.range n).map fun i => v i * c (i : F p)).sum = if k < n then v k else 0 := by
  induction n with
  | zero => simp
  | succ n ih =>
    rw [List.range_succ, List.map_append, List.sum_append, ih (fun i hi => hc i (by omega))]
    simp only [List.map_cons, List.map_nil, List.sum_cons, List.sum_nil, add_zero, hc n (by omega)]
    by_cases h1 : n = k
    · subst h1; simp
    · by_cases h2 : k < n
      · simp [h1, h2, Nat.lt_succ_of_lt h2]
      · have : ¬ k < n + 1 := by omega
        simp [h1, h2, this]

theorem isZero_sub_natCast {i : ℕ} (hi : i < p) (x : F p) :
    isZero ((i : F p) - x) = if i = x.val then 1 else 0 := by
  unfold isZero
  simp only [sub_eq_zero, natCast_eq_iff_val hi]

theorem decoder_eq (n : ℕ) (hn : n ≤ p) (x : F p) :
    Rlp.decoder n x = some ((List.range n).map (fun i => if i = x.val then 1 else 0),
      if x.val < n then 1 else 0) := by
  have h1 : (List.range n).map (fun (i : ℕ) => Rlp.equal (i : F p) x)
      = (List.range n).map (fun i => if i = x.val then (1 : F p) else 0) := by
    apply List.map_congr_left
    intro i hi
    exact isZero_sub_natCast (lt_of_lt_of_le (List.mem_range.1 hi) hn) x
  have h2 : ((List.range n).map (fun i => if i = x.val then (1 : F p) else 0)).foldl
      (fun acc v => acc + v) 0 = if x.val < n then 1 else 0 := by
    rw [foldl_add_eq (f := fun v => v), List.map_id', zero_add]
    have := sum_indicator (p := p) n (fun y => isZero (y - x)) (fun _ => 1) x.val
      (fun i hi => isZero_sub_natCast (lt_of_lt_of_le hi hn) x)
    rw [← this]
    congr 1
    apply List.map_congr_left
    intro i hi
    rw [isZero_sub_natCast (lt_of_lt_of_le (List.mem_range.1 hi) hn), one_mul]
  unfold Rlp.decoder
  simp only [h1, h2, assertBool]
  split_ifs <;> simp_all

theorem escalar_eq (n : ℕ) (row : List (F p)) (hrow : n ≤ row.length) (k : ℕ) :
    Rlp.escalarProduct n row ((List.range n).map (fun i => if i = k then (1 : F p) else 0))
      = some (if k < n then row.getD k 0 else 0) := by
  unfold Rlp.escalarProduct
  rw [foldlM_some (g := fun acc i => acc + row.getD i 0 * (if i = k then (1 : F p) else 0))]
  · rw [foldl_add_eq, zero_add]
    congr 1
    by_cases hk : k < n
    · rw [if_pos hk]
      clear hrow
      induction n with
      | zero => omega
      | succ n ih =>
        rw [List.range_succ, List.map_append, List.sum_append]
        by_cases h : k = n
        · subst h
          have : ((List.range k).map fun i => row.getD i 0 * (if i = k then (1 : F p) else 0)).sum = 0 := by
            apply List.sum_eq_zero
            intro x hx
            obtain ⟨i, hi, rfl⟩ := List.mem_map.1 hx
            have : i ≠ k := by have := List.mem_range.1 hi; omega
            simp [this]
          rw [this]; simp
        · rw [ih (by omega)]
          have : n ≠ k := by omega
          simp [this]
    · rw [if_neg hk]
      apply List.sum_eq_zero
      intro x hx
      obtain ⟨i, hi, rfl⟩ := List.mem_map.1 hx
      have : i ≠ k := by have := List.mem_range.1 hi; omega
      simp [this]
  · intro acc i hi
    have hi := List.mem_range.1 hi
    have h1 : row[i]? = some (row.getD i 0) := by
      rw [List.getElem?_eq_getElem (by omega), List.getD_eq_getElem _ _ (by omega)]
    rw [h1]
    simp [hi]

theorem one_ne_zero_F : (1 : F p) ≠ 0 := one_ne_zero

theorem multiplexer_eq (sel : F p) (w n : ℕ) (input : List (List (F p))) (hn : n ≤ p)
    (hw : w ≤ input.length) (hrow : ∀ row ∈ input.take w, n ≤ row.length) :
    Rlp.multiplexer sel w n input =
      if sel.val < n then some ((input.take w).map fun row => row.getD sel.val 0) else none := by
  unfold Rlp.multiplexer
  rw [decoder_eq n hn]
  simp only [Option.bind_eq_bind, Option.bind_some]
  rw [mapM_some (g := fun i => (if sel.val < n then ((input.getD i []).getD sel.val 0) else 0))]
  · by_cases h : sel.val < n
    · simp only [h, if_true, assertEq, Option.bind_some, Option.pure_def, Option.some.injEq]
      apply List.ext_getElem?
      intro i
      by_cases hi : i < w
      · rw [List.getElem?_map, List.getElem?_range hi, List.getElem?_map,
          List.getElem?_take_of_lt hi, List.getElem?_eq_getElem (by omega)]
        simp [List.getElem?_eq_getElem (show i < input.length by omega)]
      · rw [List.getElem?_eq_none (by simp; omega), List.getElem?_eq_none (by simp; omega)]
    · simp [h, assertEq, (zero_ne_one : (0 : F p) ≠ 1)]
  · intro i hi
    have hi := List.mem_range.1 hi
    have h1 : input[i]? = some (input.getD i []) := by
      rw [List.getElem?_eq_getElem (by omega), List.getD_eq_getElem _ _ (by omega)]
    rw [h1]
    simp only [Option.bind_some]
    apply escalar_eq
    apply hrow
    rw [List.getD_eq_getElem _ _ (by omega), List.mem_iff_getElem]
    exact ⟨i, by simp; omega, by simp⟩


theorem mux_decode_eq (n : ℕ) (hn : n ≤ p) (x : F p) :
    Mux.decode n x = some ((List.range n).map (fun i => if i = x.val then 1 else 0),
      if x.val < n then 1 else 0) := decoder_eq n hn x

theorem mux_dot_eq (n : ℕ) (row : List (F p)) (hrow : row.length = n) (k : ℕ) :
    Mux.dotProduct n row ((List.range n).map (fun i => if i = k then (1 : F p) else 0))
      = some (if k < n then row.getD k 0 else 0) := by
  unfold Mux.dotProduct
  rw [if_neg (by simp [hrow])]
  exact escalar_eq n row hrow.ge k

/-! ### LogCeil -/

theorem logCeilLoop_eq (fuel i n : ℕ) (h : n.size < fuel) :
    Rlp.logCeilLoop fuel i n = i + n.size := by
  induction fuel generalizing i n with
  | zero => omega
  | succ f ih =>
    unfold Rlp.logCeilLoop
    by_cases h0 : n = 0
    · simp [h0]
    · have hs : n.size = (n / 2).size + 1 := by
        conv_lhs => rw [← Nat.bit_bodd_div2 n]
        rw [Nat.size_bit (by rw [Nat.bit_bodd_div2]; exact h0), Nat.div2_val]
      rw [if_neg h0, ih _ _ (by omega)]; omega

theorem logCeil_eq_size (n : ℕ) (h : n < 2 ^ 253) : Rlp.logCeil n = n.size := by
  unfold Rlp.logCeil
  have : n.size ≤ 253 := Nat.size_le.2 h
  rw [logCeilLoop_eq _ _ _ (by omega)]; omega

/-! ### rotations -/

theorem getElem?_rotate_take (l : List (F p)) (n k j : ℕ) (hn : n ≤ l.length) (hj : j < n) :
    ((l.take n).rotate k)[j]? = l[(j + k) % n]? := by
  have hlen : (l.take n).length = n := by simp [hn]
  rw [List.getElem?_rotate (by omega), hlen, List.getElem?_take_of_lt (Nat.mod_lt _ (by omega))]

theorem rot_stage (n k m : ℕ) (l : List (F p)) (hl : l.length = n) (b : Bool) :
    Rlp.shlStage n k (if b then (1 : F p) else 0) (l.rotate m)
      = some (l.rotate (m + if b then 2 ^ k else 0)) := by
  unfold Rlp.shlStage
  rw [mapM_some (g := fun j => l.getD ((j + (m + if b then 2 ^ k else 0)) % n) 0)]
  · congr 1
    apply List.ext_getElem?
    intro j
    by_cases hj : j < n
    · rw [List.getElem?_map, List.getElem?_range hj, List.getElem?_rotate (by omega), hl]
      have : (j + (m + if b then 2 ^ k else 0)) % n < l.length := by
        rw [hl]; exact Nat.mod_lt _ (by omega)
      rw [List.getElem?_eq_getElem this]
      simp only [Option.map_some]
      rw [List.getD_eq_getElem _ _ this]
    · rw [List.getElem?_eq_none (by simp; omega), List.getElem?_eq_none (by simp; omega)]
  · intro j hj
    have hj := List.mem_range.1 hj
    have hn : 0 < n := by omega
    have h1 : ∀ t, l[t % n]? = some (l.getD (t % n) 0) := by
      intro t
      have : t % n < l.length := by rw [hl]; exact Nat.mod_lt _ hn
      rw [List.getElem?_eq_getElem this, List.getD_eq_getElem _ _ this]
    rw [List.getElem?_rotate (by rw [hl]; exact Nat.mod_lt _ hn),
      List.getElem?_rotate (by omega), hl, h1, h1]
    cases b
    · simp
    · simp only [if_true, Option.bind_eq_bind, Option.bind_some, one_mul, Option.pure_def,
        sub_add_cancel]
      congr 2
      rw [Nat.mod_add_mod]
      congr 1; omega


theorem toBinary_get (x : F p) (n i : ℕ) (hi : i < n) :
    ((List.range n).map (bit x))[i]? = some (if x.val.testBit i then 1 else 0) := by
  simp [hi, bit]

theorem shlStage0_eq (n m : ℕ) (inp : List (F p)) (hl : n ≤ inp.length) (b : Bool) :
    Rlp.shlStage0 n m (if b then (1 : F p) else 0) inp
      = some ((inp.take n).rotate (m + if b then 1 else 0)) := by
  have h := rot_stage n 0 m (inp.take n) (by simp [hl]) b
  rw [pow_zero] at h
  rw [← h]
  unfold Rlp.shlStage0 Rlp.shlStage
  apply mapM_congr'
  intro j hj
  have hj := List.mem_range.1 hj
  have hn : 0 < n := by omega
  have hlen : (inp.take n).length = n := by simp [hl]
  rw [List.getElem?_rotate (by rw [hlen]; exact Nat.mod_lt _ hn), hlen, Nat.mod_add_mod,
    List.getElem?_rotate (by omega), hlen,
    List.getElem?_take_of_lt (Nat.mod_lt _ hn), List.getElem?_take_of_lt (Nat.mod_lt _ hn)]
  have : j + m + 2 ^ 0 = j + 2 ^ 0 + m := by omega
  rw [this]

theorem mapM_getElem? (l : List (F p)) (n : ℕ) (h : n ≤ l.length) :
    ((List.range n).mapM fun i => l[i]?) = some (l.take n) := by
  rw [mapM_some (g := fun i => l.getD i 0)]
  · congr 1
    apply List.ext_getElem?
    intro i
    by_cases hi : i < n
    · rw [List.getElem?_map, List.getElem?_range hi, List.getElem?_take_of_lt hi,
        List.getElem?_eq_getElem (by omega)]
      simp only [Option.map_some]
      rw [List.getD_eq_getElem _ _ (by omega)]
    · rw [List.getElem?_eq_none (by simp; omega), List.getElem?_eq_none (by simp; omega)]
  · intro i hi
    have hi := List.mem_range.1 hi
    rw [List.getElem?_eq_getElem (by omega), List.getD_eq_getElem _ _ (by omega)]

theorem shiftLeft_same (n m : ℕ) (inp : List (F p)) (s : F p) (hl : n ≤ inp.length) :
    Rlp.shiftLeft n m m inp s = some ((inp.take n).rotate m) := by
  unfold Rlp.shiftLeft
  simp only [if_true]
  have h := mapM_getElem? (p := p) ((inp.take n).rotate m) n (by simp [hl])
  rw [List.take_of_length_le (l := (inp.take n).rotate m) (by simp)] at h
  rw [← h]
  apply mapM_congr'
  intro j hj
  have hj := List.mem_range.1 hj
  rw [getElem?_rotate_take _ _ _ _ hl hj]

theorem shiftLeft_bits (n m M : ℕ) (inp : List (F p)) (s : F p) (hl : n ≤ inp.length)
    (hM : M < 2 ^ 253) (hmM : m < M) :
    Rlp.shiftLeft n m M inp s =
      if (s - (m : F p)).val < 2 ^ (M - m).size then
        some ((inp.take n).rotate (m + (s - (m : F p)).val)) else none := by
  unfold Rlp.shiftLeft
  rw [logCeil_eq_size _ (by omega)]
  simp only [if_neg (show ¬ m = M by omega)]
  set b := s - (m : F p) with hb
  set k := (M - m).size with hk
  have hk0 : 0 < k := by rw [hk, Nat.size_pos]; omega
  unfold toBinary
  by_cases hlt : b.val < 2 ^ k
  · simp only [if_pos hlt, Option.bind_eq_bind, Option.bind_some]
    rw [foldlM_range_some (fun i => if i = 0 then [] else (inp.take n).rotate (m + b.val % 2 ^ i))
      k [] (by simp)]
    · simp only [Option.bind_some, if_neg (show ¬ k = 0 by omega)]
      rw [Nat.mod_eq_of_lt hlt, mapM_getElem? _ _ (by simp [hl])]
      rw [List.take_of_length_le (by simp)]
    · intro i hi
      rw [toBinary_get _ _ _ hi]
      simp only [Option.bind_some]
      by_cases hi0 : i = 0
      · subst hi0
        simp only [if_true]
        rw [shlStage0_eq n m inp hl]
        have := mod_two_pow_succ' b.val 0
        simp only [Nat.zero_add, pow_zero, Nat.mod_one] at this
        simp only [Nat.zero_add, one_ne_zero, if_false, this]
      · simp only [if_neg hi0, if_neg (Nat.succ_ne_zero i)]
        rw [rot_stage n i _ (inp.take n) (by simp [hl]), mod_two_pow_succ']
        simp only [Nat.add_assoc]
  · simp [if_neg hlt]


/-! ### ShiftRight -/

theorem shr_getElem? (l : List (F p)) (s j : ℕ) (hj : j < l.length) :
    (Spec.shiftRightZero l s)[j]? = some (if j < s then 0 else l.getD (j - s) 0) := by
  unfold Spec.shiftRightZero
  rw [List.getElem?_take_of_lt hj]
  by_cases h : j < s
  · rw [List.getElem?_append_left (by simpa using h)]
    simp [h]
  · rw [List.getElem?_append_right (by simp; omega)]
    simp only [List.length_replicate, h, if_false]
    rw [List.getElem?_eq_getElem (by omega), List.getD_eq_getElem _ _ (by omega)]

theorem shr_length (l : List (F p)) (s : ℕ) : (Spec.shiftRightZero l s).length = l.length := by
  simp [Spec.shiftRightZero]

theorem shr_zero (l : List (F p)) : Spec.shiftRightZero l 0 = l := by
  simp [Spec.shiftRightZero]

theorem shr_stage (n k m : ℕ) (l prev : List (F p)) (hl : l.length = n) (b : Bool)
    (hprev : prev.take n = Spec.shiftRightZero l m) :
    Rlp.shrStage n k (if b then (1 : F p) else 0) prev
      = some (Spec.shiftRightZero l (m + if b then 2 ^ k else 0)) := by
  have hp : ∀ j < n, prev[j]? = some (if j < m then 0 else l.getD (j - m) 0) := by
    intro j hj
    rw [← shr_getElem? l m j (by omega), ← hprev, List.getElem?_take_of_lt hj]
  have h := mapM_getElem? (p := p) (Spec.shiftRightZero l (m + if b then 2 ^ k else 0)) n
    (by rw [shr_length]; omega)
  rw [List.take_of_length_le (l := Spec.shiftRightZero l (m + if b then 2 ^ k else 0))
    (by rw [shr_length]; omega)] at h
  rw [← h]
  unfold Rlp.shrStage
  apply mapM_congr'
  intro j hj
  have hj := List.mem_range.1 hj
  have h2k := Nat.two_pow_pos k
  rw [shr_getElem? _ _ _ (by omega), hp j hj]
  by_cases hjk : j < 2 ^ k
  · rw [if_pos hjk]
    cases b
    · simp
    · simp only [if_true, one_mul, Option.bind_eq_bind, Option.bind_some, sub_self,
        Option.pure_def, Option.some.injEq]
      rw [if_pos (by omega)]
  · rw [if_neg hjk, hp _ (by omega)]
    cases b
    · simp
    · simp only [if_true, one_mul, Option.bind_eq_bind, Option.bind_some, sub_add_cancel,
        Option.pure_def, Option.some.injEq]
      by_cases h3 : j < m + 2 ^ k
      · rw [if_pos h3, if_pos (by omega)]
      · rw [if_neg h3, if_neg (by omega)]
        congr 1; omega

theorem shiftRight_bits (n k : ℕ) (inp : List (F p)) (s : F p) (hl : n ≤ inp.length) (hk : 0 < k) :
    Rlp.shiftRight n k inp s =
      if s.val < 2 ^ k then some (Spec.shiftRightZero (inp.take n) s.val) else none := by
  unfold Rlp.shiftRight toBinary
  have hlen : (inp.take n).length = n := by simp [hl]
  by_cases hlt : s.val < 2 ^ k
  · simp only [if_pos hlt, Option.bind_eq_bind, Option.bind_some]
    rw [foldlM_range_some
      (fun i => if i = 0 then [] else Spec.shiftRightZero (inp.take n) (s.val % 2 ^ i)) k [] (by simp)]
    · simp only [Option.bind_some, if_neg (show ¬ k = 0 by omega)]
      rw [Nat.mod_eq_of_lt hlt, mapM_getElem? _ _ (by rw [shr_length]; omega)]
      rw [List.take_of_length_le (by rw [shr_length]; omega)]
    · intro i hi
      rw [toBinary_get _ _ _ hi]
      simp only [Option.bind_some, if_neg (Nat.succ_ne_zero i)]
      rw [mod_two_pow_succ']
      by_cases hi0 : i = 0
      · subst hi0
        rw [shr_stage n 0 0 (inp.take n) _ hlen]
        · simp only [pow_zero, Nat.mod_one]
        · simp [shr_zero]
      · rw [shr_stage n i (s.val % 2 ^ i) (inp.take n) _ hlen]
        simp only [if_neg hi0]
        rw [List.take_of_length_le (by rw [shr_length]; omega)]
  · simp [if_neg hlt]

/-! ### SubArray -/

theorem rotStage_eq (n k m : ℕ) (l prev : List (F p)) (hl : l.length = n) (b : Bool)
    (hprev : prev.take n = l.rotate m) :
    Rlp.rotStage n k (if b then (1 : F p) else 0) prev
      = some (l.rotate (m + if b then 2 ^ k else 0)) := by
  rw [← rot_stage n k m l hl b]
  unfold Rlp.rotStage Rlp.shlStage
  apply mapM_congr'
  intro j hj
  have hj := List.mem_range.1 hj
  rw [← hprev, List.getElem?_take_of_lt (Nat.mod_lt _ (by omega)), List.getElem?_take_of_lt hj]

theorem toBinaryFull_get (x : F p) (i : ℕ) (hi : i < p.size) :
    (toBinaryFull x)[i]? = some (if x.val.testBit i then 1 else 0) := by
  unfold toBinaryFull
  rw [toBinary_get _ _ _ hi]

theorem subArray_cols (n k : ℕ) (inp : List (F p)) (s : F p) (hl : n ≤ inp.length)
    (hk7 : k ≤ 7) (hp : k ≤ p.size) :
    (List.range k).foldlM (Rlp.subArrayColumn n inp (toBinaryFull s)) []
      = some ((List.range k).map fun i => (inp.take n).rotate (s.val % 2 ^ (i + 1))) := by
  have hlen : (inp.take n).length = n := by simp [hl]
  refine foldlM_range_some
    (fun k => (List.range k).map fun i => (inp.take n).rotate (s.val % 2 ^ (i + 1))) k [] (by simp) ?_
  intro i hi
  unfold Rlp.subArrayColumn
  rw [if_neg (by omega), toBinaryFull_get _ _ (by omega), List.range_succ, List.map_append]
  by_cases hi0 : i = 0
  · subst hi0
    simp only [if_true, Option.bind_eq_bind, Option.bind_some]
    rw [rotStage_eq n 0 0 (inp.take n) inp hlen _ (by simp)]
    have := mod_two_pow_succ' s.val 0
    simp only [Nat.mod_one, pow_zero] at this
    simp only [List.map_cons, List.map_nil, this]
    simp
  · simp only [if_neg hi0, Option.bind_eq_bind]
    rw [List.getElem?_map, List.getElem?_range (by omega)]
    simp only [Option.map_some, Option.bind_some, show i - 1 + 1 = i by omega]
    rw [rotStage_eq n i (s.val % 2 ^ i) (inp.take n) _ hlen _
      (by rw [List.take_of_length_le (by simp)])]
    simp only [List.map_cons, List.map_nil, mod_two_pow_succ' s.val i]
    simp

theorem val_natCast_lt {a : ℕ} (h : a < p) : ((a : F p)).val = a := ZMod.val_natCast_of_lt h

theorem val_sub_of_le {a b : F p} (h : b.val ≤ a.val) : (a - b).val = a.val - b.val :=
  ZMod.val_sub h

/-! ### ArrayEqual -/

theorem cmp_add_one_eq_zero (hp2 : 2 < p) (a b : F p) : Api.cmp a b + 1 = 0 ↔ a.val < b.val := by
  have h2 : (2 : F p) ≠ 0 := by
    have := (natCast_inj_of_lt (p := p) (a := 2) (b := 0) (by omega) (by omega)).not.2 (by omega)
    simpa using this
  unfold Api.cmp
  split_ifs with h1 h2'
  · simp [h1]
  · simp [h1]
  · simp only [h1, iff_false]
    intro h; apply h2; rw [← h]; norm_num

theorem equal_eq (a b : F p) : Rlp.equal a b = if a = b then 1 else 0 := by
  unfold Rlp.equal isZero
  simp only [sub_eq_zero]

theorem lessThan_eq (hp2 : 2 < p) (a b : F p) :
    Rlp.lessThan a b = if a.val < b.val then 1 else 0 := by
  unfold Rlp.lessThan isZero
  simp only [cmp_add_one_eq_zero hp2]

/-- number of agreeing positions among the first `k` -/
def agree (a b : List (F p)) (k : ℕ) : ℕ :=
  ((List.range k).filter fun i => a[i]? = b[i]?).length

theorem agree_succ (a b : List (F p)) (k : ℕ) :
    agree a b (k + 1) = agree a b k + if a[k]? = b[k]? then 1 else 0 := by
  unfold agree
  rw [List.range_succ, List.filter_append, List.length_append]
  by_cases h : a[k]? = b[k]? <;> simp [h]

theorem agree_le (a b : List (F p)) (k : ℕ) : agree a b k ≤ k := by
  unfold agree
  exact (List.length_filter_le _ _).trans (by simp)

theorem agree_eq_iff (a b : List (F p)) (k : ℕ) : agree a b k = k ↔ a.take k = b.take k := by
  have h1 : agree a b k = k ↔ ∀ i < k, a[i]? = b[i]? := by
    unfold agree
    conv_lhs => rhs; rw [← List.length_range (n := k)]
    rw [List.length_filter_eq_length_iff]
    simp
  rw [h1]
  constructor
  · intro h
    apply List.ext_getElem?
    intro i
    by_cases hi : i < k
    · rw [List.getElem?_take_of_lt hi, List.getElem?_take_of_lt hi, h i hi]
    · rw [List.getElem?_eq_none (by simp; omega), List.getElem?_eq_none (by simp; omega)]
  · intro h i hi
    have := congrArg (fun l => l[i]?) h
    simpa only [List.getElem?_take_of_lt hi] using this

theorem arrayEqual_eq (a b : List (F p)) (n : ℕ) (t : F p) (ha : n ≤ a.length) (hb : n ≤ b.length)
    (hap : a.length < p) (hbp : b.length < p) :
    Rlp.arrayEqual a b n t =
      if t.val ≤ n then some (if a.take t.val = b.take t.val then 1 else 0) else none := by
  unfold Rlp.arrayEqual assertLe
  rw [val_natCast_lt (by omega), val_natCast_lt hap, val_natCast_lt hbp]
  simp only [if_pos ha, if_pos hb, Option.bind_eq_bind, Option.bind_some]
  rw [foldlM_range_some (fun k => (List.range k).map fun i => ((agree a b (i + 1) : ℕ) : F p)) n []
    (by simp)]
  · simp only [Option.bind_some]
    rw [multiplexer_eq _ _ _ _ (by omega) (by simp) (by simp)]
    by_cases ht : t.val ≤ n
    · rw [if_pos (by omega), if_pos ht]
      simp only [List.take_succ_cons, List.take_zero, List.map_cons, List.map_nil, Option.bind_some,
        List.getElem?_cons_zero, Option.pure_def, Option.some.injEq]
      have : (0 :: (List.range n).map fun i => ((agree a b (i + 1) : ℕ) : F p)).getD t.val 0
          = ((agree a b t.val : ℕ) : F p) := by
        cases hv : t.val with
        | zero => simp [agree]
        | succ m =>
          rw [List.getD_cons_succ, List.getD_eq_getElem _ _ (by simp; omega)]
          simp
      rw [this, equal_eq]
      have h2 : (t = ((agree a b t.val : ℕ) : F p)) ↔ a.take t.val = b.take t.val := by
        rw [← agree_eq_iff, eq_comm, natCast_eq_iff_val]
        have := agree_le a b t.val
        omega
      simp only [h2]
    · rw [if_neg (by omega), if_neg ht]; rfl
  · intro i hi
    have hx : a[i]? = some (a[i]) := List.getElem?_eq_getElem (by omega)
    have hy : b[i]? = some (b[i]) := List.getElem?_eq_getElem (by omega)
    have hs := agree_succ a b i
    rw [hx, hy]
    simp only [Option.bind_some, List.range_succ, List.map_append, List.map_cons, List.map_nil]
    rw [hs, hx, hy, equal_eq]
    simp only [Option.some.injEq]
    by_cases hi0 : i = 0
    · subst hi0
      simp only [if_true]
      simp [agree]
    · rw [if_neg hi0, List.getElem?_map, List.getElem?_range (by omega)]
      simp [show i - 1 + 1 = i by omega]

end Verif
