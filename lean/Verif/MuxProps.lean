import Mathlib.Tactic.NormNum.Prime
import Verif.MuxLemmas

/-! # Property theorems C01–C07 (selection, comparison, shift gadgets) -/

set_option linter.unusedSectionVars false

namespace Verif
open Api
variable {p : ℕ} [Fact p.Prime]

/-- small prime field used only in the satisfiability examples -/
instance fact101 : Fact (Nat.Prime 101) := ⟨by norm_num⟩

/-- Closed form of `Multiplex` on well-shaped input. -/
theorem multiplex_eq (sel : F p) (wIn nIn : ℕ) (input : List (List (F p))) (hn : nIn ≤ p)
    (hw : wIn ≤ input.length) (hrow : ∀ row ∈ input, row.length = nIn) :
    Mux.multiplex sel wIn nIn input =
      if sel.val < nIn then some ((input.take wIn).map fun row => row.getD sel.val 0) else none := by
  rw [← multiplexer_eq sel wIn nIn input hn hw
    (fun row hr => (hrow row (List.mem_of_mem_take hr)).ge)]
  unfold Mux.multiplex Rlp.multiplexer
  rw [mux_decode_eq nIn hn, decoder_eq nIn hn]
  simp only [Option.bind_eq_bind, Option.bind_some]
  congr 1
  apply mapM_congr'
  intro i hi
  have hi := List.mem_range.1 hi
  have hg : input[i]? = some input[i] := List.getElem?_eq_getElem (by omega)
  rw [hg]
  simp only [Option.bind_some]
  rw [mux_dot_eq _ _ (hrow _ (List.getElem_mem _)),
    escalar_eq _ _ (hrow _ (List.getElem_mem _)).ge]

/-- **C01.** `mux.Multiplex` on `wIn` rows of exactly `nIn` entries (`nIn` at most the field size):
satisfiable iff the selector is below `nIn`; the output is the selected column. -/
theorem C01_multiplex_selects (sel : F p) (wIn nIn : ℕ) (input : List (List (F p))) (hn : nIn ≤ p)
    (hw : wIn ≤ input.length) (hrow : ∀ row ∈ input, row.length = nIn) :
    (¬ sel.val < nIn → Mux.multiplex sel wIn nIn input = none) ∧
    (sel.val < nIn → ∃ out, Mux.multiplex sel wIn nIn input = some out ∧ out.length = wIn ∧
      ∀ i < wIn, ∃ row, input[i]? = some row ∧ out[i]? = row[sel.val]?) := by
  have key := multiplex_eq sel wIn nIn input hn hw hrow
  constructor
  · intro h; rw [key, if_neg h]
  · intro h
    refine ⟨_, by rw [key, if_pos h], by simp [hw], ?_⟩
    intro i hi
    have hg : input[i]? = some input[i] := List.getElem?_eq_getElem (by omega)
    refine ⟨input[i], hg, ?_⟩
    have hl := hrow input[i] (List.getElem_mem _)
    rw [List.getElem?_map, List.getElem?_take_of_lt hi, hg, List.getElem?_eq_getElem (by omega)]
    simp only [Option.map_some]
    rw [List.getD_eq_getElem _ _ (by omega)]

example : Mux.multiplex (p := 101) 1 2 3 [[10, 20, 30], [40, 50, 60]] = some [20, 50] := by decide
example : Mux.multiplex (p := 101) 3 2 3 [[10, 20, 30], [40, 50, 60]] = none := by decide

/-- A row of the wrong length makes `Multiplex` panic (guard of `dotProduct`). -/
theorem C01_multiplex_length_guard (sel : F p) (wIn nIn : ℕ) (input : List (List (F p)))
    (i : ℕ) (hi : i < wIn) (row : List (F p)) (hrow : input[i]? = some row)
    (hlen : row.length ≠ nIn) : Mux.multiplex sel wIn nIn input = none := by
  unfold Mux.multiplex Mux.decode
  simp only [Option.bind_eq_bind, Option.pure_def]
  cases assertBool (List.foldl (fun acc v => acc + v) 0
      ((List.range nIn).map fun (i : ℕ) => Mux.isEqual (i : F p) sel)) with
  | none => rfl
  | some _ =>
    simp only [Option.bind_some]
    rw [mapM_none (a := i) (List.mem_range.2 hi)]
    · rfl
    · rw [hrow]; simp [Mux.dotProduct, hlen]

example : Mux.multiplex (p := 101) 1 1 2 [[10, 20, 30]] = none :=
  C01_multiplex_length_guard 1 1 2 _ 0 (by norm_num) [10, 20, 30] rfl (by simp)

/-- **C02.** `rlp.Multiplexer` on rows with at least `nIn` entries. -/
theorem C02_multiplexer_selects (sel : F p) (wIn nIn : ℕ) (input : List (List (F p))) (hn : nIn ≤ p)
    (hw : wIn ≤ input.length) (hrow : ∀ row ∈ input.take wIn, nIn ≤ row.length) :
    (¬ sel.val < nIn → Rlp.multiplexer sel wIn nIn input = none) ∧
    (sel.val < nIn → ∃ out, Rlp.multiplexer sel wIn nIn input = some out ∧ out.length = wIn ∧
      ∀ i < wIn, ∃ row, input[i]? = some row ∧ out[i]? = row[sel.val]?) := by
  have key := multiplexer_eq sel wIn nIn input hn hw hrow
  constructor
  · intro h; rw [key, if_neg h]
  · intro h
    refine ⟨_, by rw [key, if_pos h], by simp [hw], ?_⟩
    intro i hi
    have hg : input[i]? = some input[i] := List.getElem?_eq_getElem (by omega)
    refine ⟨input[i], hg, ?_⟩
    have hl : nIn ≤ input[i].length := hrow input[i] (by
      rw [List.mem_iff_getElem]; exact ⟨i, by simp; omega, by simp⟩)
    rw [List.getElem?_map, List.getElem?_take_of_lt hi, hg, List.getElem?_eq_getElem (by omega)]
    simp only [Option.map_some]
    rw [List.getD_eq_getElem _ _ (by omega)]

example : Rlp.multiplexer (p := 101) 2 1 3 [[10, 20, 30, 99]] = some [30] := by decide

/-- **C03.** `ShiftLeft` with `minShift < maxShift`: satisfiable exactly for shifts in
`[minShift, minShift + 2^bitlen(maxShift-minShift))` and then the rotation by `shift` of the first `nIn` inputs. -/
theorem C03_shiftLeft_rotates (nIn minS maxS : ℕ) (inp : List (F p)) (shift : F p)
    (hl : nIn ≤ inp.length) (hlt : minS < maxS) (hM : maxS < 2 ^ 253)
    (hp : minS + 2 ^ (maxS - minS).size ≤ p) :
    Rlp.shiftLeft nIn minS maxS inp shift =
      if minS ≤ shift.val ∧ shift.val < minS + 2 ^ (maxS - minS).size
      then some ((inp.take nIn).rotate shift.val) else none := by
  rw [shiftLeft_bits nIn minS maxS inp shift hl hM hlt]
  have hpos := Nat.two_pow_pos (maxS - minS).size
  have hm : ((minS : F p)).val = minS := val_natCast_lt (by omega)
  have hsv := ZMod.val_lt shift
  by_cases h1 : minS ≤ shift.val
  · rw [val_sub_of_le (by rw [hm]; exact h1), hm]
    by_cases h2 : shift.val < minS + 2 ^ (maxS - minS).size
    · rw [if_pos (by omega), if_pos ⟨h1, h2⟩]
      congr 2; omega
    · rw [if_neg (by omega), if_neg (by omega)]
  · rw [if_neg, if_neg (by omega)]
    have h2 : ((minS : F p) - shift).val = minS - shift.val := by
      rw [val_sub_of_le (by rw [hm]; omega), hm]
    have h3 : shift - (minS : F p) = -((minS : F p) - shift) := by ring
    have hne : NeZero ((minS : F p) - shift) := ⟨by
      intro h0; rw [h0, ZMod.val_zero] at h2; omega⟩
    rw [h3, ZMod.val_neg_of_ne_zero, h2]
    omega

/-- In particular every shift in the documented range `[minShift, maxShift]` is accepted, and the result is a
rotation whatever the shift. -/
theorem C03_shiftLeft_complete (nIn minS maxS : ℕ) (inp : List (F p)) (shift : F p)
    (hl : nIn ≤ inp.length) (hlt : minS < maxS) (hM : maxS < 2 ^ 253)
    (hp : minS + 2 ^ (maxS - minS).size ≤ p) (h1 : minS ≤ shift.val) (h2 : shift.val ≤ maxS) :
    ∃ out, Rlp.shiftLeft nIn minS maxS inp shift = some out ∧ out.length = nIn ∧
      ∀ j < nIn, out[j]? = inp[(j + shift.val) % nIn]? := by
  have := Nat.lt_size_self (maxS - minS)
  refine ⟨_, by rw [C03_shiftLeft_rotates nIn minS maxS inp shift hl hlt hM hp, if_pos (by omega)],
    by simp [hl], ?_⟩
  intro j hj
  exact getElem?_rotate_take _ _ _ _ hl hj

/-- When `minShift = maxShift` the gadget rotates by that constant and puts no constraint on the
`shift` argument at all. -/
theorem C03_shiftLeft_constant (nIn m : ℕ) (inp : List (F p)) (shift : F p) (hl : nIn ≤ inp.length) :
    Rlp.shiftLeft nIn m m inp shift = some ((inp.take nIn).rotate m) :=
  shiftLeft_same nIn m inp shift hl

example : Rlp.shiftLeft (p := 101) 5 1 4 [10, 20, 30, 40, 50] 3 = some [40, 50, 10, 20, 30] := by decide
example : Rlp.shiftLeft (p := 101) 5 1 4 [10, 20, 30, 40, 50] 0 = none := by decide
example : 1 + 2 ^ (4 - 1).size ≤ 101 := by decide

/-- `LogCeil` is the bit length. -/
theorem C03_logCeil (n : ℕ) (h : n < 2 ^ 63) : Rlp.logCeil n = n.size :=
  logCeil_eq_size n (h.trans (by norm_num))

/-- **C04.** `ShiftRight` is a right shift with zero fill, satisfiable iff `shift < 2^nInBits`. -/
theorem C04_shiftRight (nIn nInBits : ℕ) (inp : List (F p)) (shift : F p)
    (hl : nIn ≤ inp.length) (hb : 0 < nInBits) :
    (¬ shift.val < 2 ^ nInBits → Rlp.shiftRight nIn nInBits inp shift = none) ∧
    (shift.val < 2 ^ nInBits → ∃ out, Rlp.shiftRight nIn nInBits inp shift = some out ∧
      out.length = nIn ∧ ∀ j < nIn, out[j]? = if j < shift.val then some 0 else inp[j - shift.val]?) := by
  have key := shiftRight_bits nIn nInBits inp shift hl hb
  constructor
  · intro h; rw [key, if_neg h]
  · intro h
    refine ⟨_, by rw [key, if_pos h], by rw [shr_length]; simp [hl], ?_⟩
    intro j hj
    rw [shr_getElem? _ _ _ (by simp; omega)]
    split
    · rfl
    · rw [List.getD_eq_getElem _ _ (by simp; omega), List.getElem_take,
        List.getElem?_eq_getElem (by omega)]

example : Rlp.shiftRight (p := 101) 4 3 [10, 20, 30, 40] 2 = some [0, 0, 10, 20] := by decide
example : Rlp.shiftRight (p := 101) 4 3 [10, 20, 30, 40] 7 = some [0, 0, 0, 0] := by decide

/-- **C05.** `SubArray.SubArray` with `nIn ≤ 2^nInBits`, `nInBits ≤ 7`: accepted exactly for windows
`from ≤ end ≤ nIn` of length at most `maxSelect`; the first `end-from` output cells are `in[from..end)`,
the rest is the cyclic continuation. -/
theorem C05_subArray (nIn maxSelect nInBits : ℕ) (inp : List (F p)) (from_ end_ : F p)
    (hl : nIn ≤ inp.length) (h1 : 1 ≤ nInBits) (h7 : nInBits ≤ 7) (hbits : nIn ≤ 2 ^ nInBits)
    (hms : maxSelect ≤ nIn) (hp : 2 ^ nInBits < p) :
    (¬ (from_.val ≤ end_.val ∧ end_.val ≤ nIn ∧ end_.val - from_.val ≤ maxSelect) →
      Rlp.subArray nIn maxSelect nInBits inp from_ end_ = none) ∧
    ((from_.val ≤ end_.val ∧ end_.val ≤ nIn ∧ end_.val - from_.val ≤ maxSelect) →
      ∃ out len, Rlp.subArray nIn maxSelect nInBits inp from_ end_ = some (out, len) ∧
        len.val = end_.val - from_.val ∧ out.length = maxSelect ∧
        out.take (end_.val - from_.val) = Spec.window inp from_.val end_.val ∧
        ∀ j < maxSelect, out[j]? = inp[(j + from_.val) % nIn]?) := by
  have hn : ((nIn : F p)).val = nIn := val_natCast_lt (by omega)
  have hm : ((maxSelect : F p)).val = maxSelect := val_natCast_lt (by omega)
  have hsize : nInBits ≤ p.size := by
    by_contra h
    have : p < 2 ^ nInBits := lt_of_lt_of_le (Nat.lt_size_self p)
      (Nat.pow_le_pow_right (by norm_num) (by omega))
    omega
  have key : (from_.val ≤ end_.val ∧ end_.val ≤ nIn ∧ end_.val - from_.val ≤ maxSelect) →
      Rlp.subArray nIn maxSelect nInBits inp from_ end_ =
        some (((inp.take nIn).rotate from_.val).take maxSelect, end_ - from_) := by
    rintro ⟨ha, hb, hc⟩
    unfold Rlp.subArray assertLe
    rw [if_pos ha, hn, if_pos hb, val_sub_of_le ha, hm, if_pos hc]
    simp only [Option.bind_eq_bind, Option.bind_some]
    rw [subArray_cols nIn nInBits inp from_ hl h7 hsize]
    simp only [Option.bind_some]
    have hlast : ((List.range nInBits).map fun i =>
        (inp.take nIn).rotate (from_.val % 2 ^ (i + 1)))[nInBits - 1]?
        = some ((inp.take nIn).rotate from_.val) := by
      rw [List.getElem?_map, List.getElem?_range (by omega)]
      simp only [Option.map_some, show nInBits - 1 + 1 = nInBits by omega, Option.some.injEq]
      by_cases hfe : from_.val = 2 ^ nInBits
      · rw [hfe, Nat.mod_self, List.rotate_zero]
        have hh : 2 ^ nInBits = (inp.take nIn).length := by simp [hl]; omega
        rw [hh, List.rotate_length]
      · rw [Nat.mod_eq_of_lt (by omega)]
    rw [hlast]
    simp only [if_neg (show ¬ nInBits = 0 by omega), Option.bind_some]
    rw [mapM_getElem? _ _ (by simp; omega)]
    simp
  constructor
  · intro h
    unfold Rlp.subArray assertLe
    by_cases ha : from_.val ≤ end_.val
    · by_cases hb : end_.val ≤ nIn
      · have hc : ¬ end_.val - from_.val ≤ maxSelect := fun hc => h ⟨ha, hb, hc⟩
        rw [if_pos ha, hn, if_pos hb, val_sub_of_le ha, hm, if_neg hc]
        rfl
      · rw [if_pos ha, hn, if_neg hb]; rfl
    · rw [if_neg ha]; rfl
  · intro h
    obtain ⟨ha, hb, hc⟩ := h
    have hget : ∀ j < maxSelect, (((inp.take nIn).rotate from_.val).take maxSelect)[j]?
        = inp[(j + from_.val) % nIn]? := by
      intro j hj
      rw [List.getElem?_take_of_lt hj, getElem?_rotate_take _ _ _ _ hl (by omega)]
    refine ⟨_, _, key ⟨ha, hb, hc⟩, val_sub_of_le ha, by simp; omega, ?_, hget⟩
    apply List.ext_getElem?
    intro j
    by_cases hj : j < end_.val - from_.val
    · rw [List.getElem?_take_of_lt hj, hget j (by omega)]
      unfold Spec.window
      rw [List.getElem?_drop, List.getElem?_take_of_lt (by omega), Nat.mod_eq_of_lt (by omega),
        Nat.add_comm]
    · rw [List.getElem?_eq_none (by simp; omega), List.getElem?_eq_none
        (by simp [Spec.window]; omega)]

example : Rlp.subArray (p := 101) 5 3 3 [10, 20, 30, 40, 50] 2 4 = some ([30, 40, 50], 2) := by decide
example : Rlp.subArray (p := 101) 5 3 3 [10, 20, 30, 40, 50] 3 2 = none := by decide

/-- `SubArray` allocates 7 columns: with `nInBits > 7` (arrays of more than 128 cells) the Go code always
panics, for any non-empty array. -/
theorem C05_subArray_panics (nIn maxSelect nInBits : ℕ) (inp : List (F p)) (from_ end_ : F p)
    (hn : 0 < nIn) (h7 : 7 < nInBits) : Rlp.subArray nIn maxSelect nInBits inp from_ end_ = none := by
  unfold Rlp.subArray
  have : ∀ (f : List (List (F p)) → ℕ → Option (List (List (F p)))),
      (∀ c, f c 7 = none) → (List.range nInBits).foldlM f [] = none := by
    intro f hf
    have hr : List.range nInBits = List.range 7 ++ (7 :: (List.range (nInBits - 8)).map (· + 8)) := by
      apply List.ext_getElem?
      intro i
      by_cases hi : i < 7
      · rw [List.getElem?_append_left (by simpa using hi), List.getElem?_range hi,
          List.getElem?_range (by omega)]
      · rw [List.getElem?_append_right (by simp; omega)]
        by_cases h8 : i = 7
        · subst h8; rw [List.getElem?_range (by omega)]; simp
        · obtain ⟨k, rfl⟩ : ∃ k, i = 8 + k := ⟨i - 8, by omega⟩
          simp only [List.length_range, show 8 + k - 7 = k + 1 by omega, List.getElem?_cons_succ,
            List.getElem?_map]
          by_cases hk : k < nInBits - 8
          · rw [List.getElem?_range hk, List.getElem?_range (by omega)]; simp; omega
          · rw [List.getElem?_eq_none (by simp; omega), List.getElem?_eq_none (by simp; omega)]; rfl
    rw [hr, List.foldlM_append]
    cases (List.range 7).foldlM f [] with
    | none => rfl
    | some c => simp [hf c]
  simp only [Option.bind_eq_bind]
  cases assertLe from_ end_ with
  | none => rfl
  | some _ =>
    cases assertLe end_ (nIn : F p) with
    | none => rfl
    | some _ =>
      cases assertLe (end_ - from_) (maxSelect : F p) with
      | none => rfl
      | some _ =>
        simp only [Option.bind_some]
        rw [this]
        · rfl
        · intro c; unfold Rlp.subArrayColumn; rw [if_pos ⟨le_refl _, hn⟩]

/-- **C06.** `ArrayEqual` compares exactly the first `targetLength` cells. -/
theorem C06_arrayEqual (a b : List (F p)) (maxLength : ℕ) (len : F p)
    (ha : maxLength ≤ a.length) (hb : maxLength ≤ b.length) (hap : a.length < p) (hbp : b.length < p) :
    Rlp.arrayEqual a b maxLength len =
      if len.val ≤ maxLength then some (if a.take len.val = b.take len.val then 1 else 0) else none :=
  arrayEqual_eq a b maxLength len ha hb hap hbp

example : Rlp.arrayEqual (p := 101) [1, 2, 3, 9] [1, 2, 3, 4] 4 3 = some 1 := by decide
example : Rlp.arrayEqual (p := 101) [1, 2, 3, 9] [1, 2, 3, 4] 4 4 = some 0 := by decide

/-- **C07.** `Equal` and `LessThan` are exact and boolean (field with more than two elements). -/
theorem C07_equal (a b : F p) : Rlp.equal a b = if a = b then 1 else 0 := equal_eq a b

theorem C07_lessThan (hp : 2 < p) (a b : F p) :
    Rlp.lessThan a b = if a.val < b.val then 1 else 0 := lessThan_eq hp a b

/-- In the two-element field `LessThan` would be wrong, which is why `2 < p` is assumed above. -/
example : ∃ a b : F 2, Rlp.lessThan a b ≠ if a.val < b.val then 1 else 0 := ⟨1, 0, by decide⟩
example : Rlp.lessThan (p := 101) 5 7 = 1 ∧ Rlp.lessThan (p := 101) 7 5 = 0 := by decide

end Verif
