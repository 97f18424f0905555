import Mathlib.Data.Nat.Prime.Infinite
import Verif.Rlp.BlkNest

/-! # Property theorems C08–C14 (RLP gadgets)

Specification: `Verif/Rlp/Spec.lean` (nibble-stream parser and byte-level encoder). -/

set_option linter.unusedSectionVars false

namespace Verif.Rlp
open Api Spec.Rlp
variable {p : ℕ} [Fact p.Prime]

/-! ## C08, C09: prefixes -/

/-- **C08.** List prefix gadget on any two nibbles: validity, long form, and payload length (short form) or
length-of-length (long form), in nibbles, as RLP defines for the byte `16*h + l`. -/
theorem C08_arrayPrefix (hp : 256 < p) (h l : ℕ) (hh : h < 16) (hl : l < 16) :
    let v := 16 * h + l
    let r := rlpArrayPrefix (h : F p) (l : F p)
    r.isValid = (if 0xc0 ≤ v then 1 else 0) ∧
    r.isBig = (if 0xf8 ≤ v then 1 else 0) ∧
    r.hexLen = (if v < 0xc0 then 0 else if v < 0xf8 then ((2 * (v - 0xc0) : ℕ) : F p)
      else ((2 * lenOfLen v : ℕ) : F p)) := by
  simp only [rlpArrayPrefix_eq hp h l hh hl, true_and]
  unfold apHexLen lenOfLen
  generalize 16 * h + l = v
  by_cases h1 : v < 0xc0
  · rw [if_pos h1, if_pos h1, Nat.cast_zero]
  · by_cases h2 : v < 0xf8
    · rw [if_neg h1, if_neg h1, if_pos h2, if_pos h2]
    · rw [if_neg h1, if_neg h1, if_neg h2, if_neg h2, if_neg (by omega), if_neg h1, if_neg h2]

/-- Non-vacuity: byte 0xf9 announces two length bytes, in every admissible field (and such fields exist). -/
example (hp : 256 < p) : (rlpArrayPrefix ((15 : ℕ) : F p) ((9 : ℕ) : F p)).hexLen = ((4 : ℕ) : F p) := by
  have := (C08_arrayPrefix (p := p) hp 15 9 (by norm_num) (by norm_num)).2.2
  simpa [lenOfLen] using this
example : ∃ p, Nat.Prime p ∧ 2 ^ 128 < p :=
  let ⟨p, h1, h2⟩ := Nat.exists_infinite_primes (2 ^ 128 + 1); ⟨p, h2, by omega⟩

/-- **C09 (partial).** Field prefix gadget on any two nibbles: literal/long/list/empty-list/zero flags are boolean
and correct; the length is the payload length (short forms), the length-of-length (long forms), 0 for a literal.
Missing from the full property: the validity flag is 2 instead of 1 on the empty list, see
`C09_isValid_emptyList`. -/
theorem C09_fieldPrefix_partial (hp : 256 < p) (h l : ℕ) (hh : h < 16) (hl : l < 16) :
    let v := 16 * h + l
    let r := rlpFieldPrefix (h : F p) (l : F p)
    r.isLiteral = (if v < 0x80 then 1 else 0) ∧
    r.isBig = (if 0 < lenOfLen v then 1 else 0) ∧
    r.isArray = (if 0xc0 ≤ v then 1 else 0) ∧
    r.isEmptyList = (if v = 0xc0 then 1 else 0) ∧
    r.isZeroByte = (if v = 0 then 1 else 0) ∧
    r.hexLen = (if v < 0x80 then 0 else if v < 0xb8 then ((2 * (v - 0x80) : ℕ) : F p)
      else if v < 0xc0 then ((2 * lenOfLen v : ℕ) : F p)
      else if v < 0xf8 then ((2 * (v - 0xc0) : ℕ) : F p) else ((2 * lenOfLen v : ℕ) : F p)) ∧
    (v ≠ 0xc0 → r.isValid = 1) := by
  simp only [rlpFieldPrefix_eq hp h l hh hl, true_and]
  refine ⟨?_, fun h => if_neg h⟩
  unfold fpHexLen apHexLen lenOfLen
  generalize 16 * h + l = v
  by_cases h0 : v < 0x80
  · rw [if_pos h0, if_pos h0, Nat.cast_zero]
  · rw [if_neg h0, if_neg h0]
    by_cases h1 : v < 0xb8
    · rw [if_pos h1, if_pos h1]
    · rw [if_neg h1, if_neg h1]
      by_cases h2 : v < 0xc0
      · rw [if_pos h2, if_pos h2, if_neg h1, if_pos h2]
      · rw [if_neg h2, if_neg h2, if_neg h2]
        by_cases h3 : v < 0xf8
        · rw [if_pos h3, if_pos h3]
        · rw [if_neg h3, if_neg h3, if_neg h1, if_neg h2, if_neg h3]

/-- The "validity" of the empty list is counted twice. -/
theorem C09_isValid_emptyList (hp : 256 < p) : (rlpFieldPrefix (12 : F p) 0).isValid = 2 := by
  have := rlpFieldPrefix_eq (p := p) hp 12 0 (by omega) (by omega)
  rw [show ((12 : ℕ) : F p) = 12 by norm_cast, show ((0 : ℕ) : F p) = 0 by norm_cast] at this
  rw [this]
  simp

/-! ## C10: decimal decoding -/

/-- Big-endian base-16 value of field elements. -/
def Spec.beField (l : List (F p)) : F p := l.foldl (fun a x => 16 * a + x) 0

theorem beField_cast (S : ℕ → ℕ) (n : ℕ) :
    Spec.beField ((List.range n).map fun k => ((S k : ℕ) : F p)) = ((beNum S 0 n : ℕ) : F p) := by
  unfold Spec.beField
  induction n with
  | zero => simp [beNum]
  | succ n ih =>
    rw [List.range_succ, List.map_append, List.foldl_append, ih]
    simp [beNum]

theorem horner_loop (inp : List (F p)) (off n : ℕ) (h : off + n ≤ inp.length) :
    (List.range n).foldlM (fun (acc : F p × List (F p)) idx => do
      let x ← inp[idx + off]?
      let temp := 16 * acc.1 + x
      pure (temp, acc.2 ++ [temp])) (0, []) =
    some (Spec.beField ((inp.drop off).take n),
      (List.range n).map fun j => Spec.beField ((inp.drop off).take (j + 1))) := by
  rw [foldlM_range_some (fun k => (Spec.beField ((inp.drop off).take k),
      (List.range k).map fun j => Spec.beField ((inp.drop off).take (j + 1)))) n (0, [])]
  · rfl
  · intro i hi
    have hg : inp[i + off]? = some (inp[i + off]'(by omega)) := List.getElem?_eq_getElem (by omega)
    have hs : Spec.beField ((inp.drop off).take (i + 1)) =
        16 * Spec.beField ((inp.drop off).take i) + inp[i + off]'(by omega) := by
      have hd : (inp.drop off)[i]? = some (inp[i + off]'(by omega)) := by
        rw [List.getElem?_drop, Nat.add_comm, hg]
      rw [List.take_succ, hd]
      unfold Spec.beField
      rw [List.foldl_append]; rfl
    simp only [hg, Option.bind_eq_bind, Option.bind_some, Option.pure_def, hs, List.range_succ,
      List.map_append, List.map_cons, List.map_nil]

/-- **C10.** `HexToDecimal` returns the big-endian value of the first `realLen` cells, for every
`realLen ≤ maxLen` (`maxLen ≥ 2`, at least `maxLen` cells). -/
theorem C10_hexToDecimal (inp : List (F p)) (maxLen n : ℕ) (hm : 2 ≤ maxLen) (hmp : maxLen < p)
    (hlen : maxLen ≤ inp.length) (hn : n ≤ maxLen) :
    hexToDecimal inp maxLen ((n : ℕ) : F p) = some (Spec.beField (inp.take n)) := by
  unfold hexToDecimal
  have h := horner_loop inp 0 maxLen (by omega)
  simp only [Nat.add_zero, List.drop_zero] at h
  rw [h]
  have l1 : lessThan ((n : ℕ) : F p) 1 = if n < 1 then 1 else 0 := by
    have := lessThan_nat (p := p) (a := n) (n := 1) (by omega) (by omega) (by omega)
    simpa using this
  simp only [Option.bind_eq_bind, Option.bind_some, l1]
  rcases Nat.eq_zero_or_pos n with h0 | h0
  · subst h0
    have l2 : lessThan ((maxLen : ℕ) : F p) 1 = 0 := by
      have := lessThan_nat (p := p) (a := maxLen) (n := 1) (by omega) (by omega) (by omega)
      rw [if_neg (by omega)] at this
      simpa using this
    have v1 : (1 : F p).val = 1 := by
      have := val_natCast_lt (p := p) (a := 1) (by omega); simpa using this
    simp [select, l2, muxSel, v1, isZero, show 1 < maxLen by omega, Spec.beField]
  · have hne : ((n : ℕ) : F p) ≠ 0 := by
      have := (natCast_inj_of_lt (p := p) (a := n) (b := 0) (by omega) (by omega)).not.2 (by omega)
      simpa using this
    have l2 : lessThan ((maxLen : ℕ) : F p) (((n : ℕ) : F p) - 1) = 0 := by
      have := lessThan_nat (p := p) (a := maxLen) (n := n - 1) (by omega) (by omega) (by omega)
      rw [if_neg (by omega), Nat.cast_sub h0] at this
      simpa using this
    have v1 : (((n : ℕ) : F p) - 1).val = n - 1 := by
      have := val_natCast_lt (p := p) (a := n - 1) (by omega)
      rw [Nat.cast_sub h0] at this
      simpa using this
    simp [select, l2, muxSel, v1, isZero, hne, show ¬ n < 1 by omega, show n - 1 < maxLen by omega,
      show n - 1 + 1 = n by omega]

example : hexToDecimal (p := 101) [2, 3, 4, 5] 4 2 = some 35 := by decide

/-- The clamp of `HexToDecimal` is off by one: length `maxLen + 1` is unsatisfiable, larger lengths are
silently truncated to `maxLen`. -/
theorem C10_hexToDecimal_overlong (inp : List (F p)) (maxLen n : ℕ) (hm : 2 ≤ maxLen) (hnp : n < p)
    (hlen : maxLen ≤ inp.length) (hn : maxLen < n) :
    hexToDecimal inp maxLen ((n : ℕ) : F p) =
      if n = maxLen + 1 then none else some (Spec.beField (inp.take maxLen)) := by
  unfold hexToDecimal
  have h := horner_loop inp 0 maxLen (by omega)
  simp only [Nat.add_zero, List.drop_zero] at h
  rw [h]
  have l1 : lessThan ((n : ℕ) : F p) 1 = 0 := by
    have := lessThan_nat (p := p) (a := n) (n := 1) (by omega) (by omega) (by omega)
    rw [if_neg (by omega)] at this
    simpa using this
  have hne : ((n : ℕ) : F p) ≠ 0 := by
    have := (natCast_inj_of_lt (p := p) (a := n) (b := 0) (by omega) (by omega)).not.2 (by omega)
    simpa using this
  have l2 : lessThan ((maxLen : ℕ) : F p) (((n : ℕ) : F p) - 1) = if maxLen < n - 1 then 1 else 0 := by
    have := lessThan_nat (p := p) (a := maxLen) (n := n - 1) (by omega) (by omega) (by omega)
    rw [Nat.cast_sub (by omega)] at this
    simpa using this
  simp only [Option.bind_eq_bind, Option.bind_some, l1]
  by_cases h1 : n = maxLen + 1
  · have v1 : (((n : ℕ) : F p) - 1).val = n - 1 := by
      have := val_natCast_lt (p := p) (a := n - 1) (by omega)
      rw [Nat.cast_sub (by omega)] at this
      simpa using this
    rw [if_pos h1]
    simp [select, l2, muxSel, v1, show ¬ maxLen < n - 1 by omega, show ¬ n - 1 < maxLen by omega]
  · have v1 : (((maxLen : ℕ) : F p) - 1).val = maxLen - 1 := by
      have := val_natCast_lt (p := p) (a := maxLen - 1) (by omega)
      rw [Nat.cast_sub (by omega)] at this
      simpa using this
    rw [if_neg h1]
    simp [select, l2, muxSel, v1, isZero, hne, show maxLen < n - 1 by omega,
      show maxLen - 1 < maxLen by omega, show maxLen - 1 + 1 = maxLen by omega]

theorem beField_append (x y : List (F p)) :
    Spec.beField (x ++ y) = Spec.beField x * 16 ^ y.length + Spec.beField y := by
  induction y using List.reverseRecOn with
  | nil => simp [Spec.beField]
  | append_singleton y b ih =>
    have e : ∀ (l : List (F p)) (b : F p), Spec.beField (l ++ [b]) = 16 * Spec.beField l + b := by
      intro l b; simp [Spec.beField]
    rw [← List.append_assoc, e, e, ih, List.length_append, List.length_singleton, pow_succ]
    ring

/-- **C10.** `Hex64To2Fr` on at least 64 cells and a length `n ≤ 64`: the pair `(lo, hi)` satisfies
`lo + 2^248 * hi = value of the first n cells`, for every length except 63. -/
theorem C10_hex64To2Fr (inp : List (F p)) (n : ℕ) (hp : 256 < p) (hlen : 64 ≤ inp.length)
    (hn : n ≤ 64) (h63 : n ≠ 63) :
    ∃ lo hi, hex64To2Fr inp ((n : ℕ) : F p) = some (lo, hi) ∧
      lo + 2 ^ 248 * hi = Spec.beField (inp.take n) ∧ (n < 63 → hi = 0) ∧
      (n = 64 → hi = Spec.beField (inp.take 2)) := by
  have hgoal : hex64To2Fr inp ((n : ℕ) : F p) = some
      (if n < 63 then Spec.beField (inp.take n) else Spec.beField ((inp.drop 2).take (n - 2)),
       if n < 63 then 0 else Spec.beField (inp.take 2)) := by
    unfold hex64To2Fr
    have h := horner_loop inp 2 62 (by omega)
    rw [h]
    obtain ⟨a, b, t, rfl⟩ : ∃ a b t, inp = a :: b :: t := by
      match inp, hlen with
      | a :: b :: t, _ => exact ⟨a, b, t, rfl⟩
    have l1 : lessThan ((n : ℕ) : F p) 1 = if n < 1 then 1 else 0 := by
      have := lessThan_nat (p := p) (a := n) (n := 1) (by omega) (by omega) (by omega)
      simpa using this
    have l3 : lessThan ((n : ℕ) : F p) 3 = if n < 3 then 1 else 0 := by
      have := lessThan_nat (p := p) (a := n) (n := 3) (by omega) (by omega) (by omega)
      simpa using this
    have l63 : lessThan ((n : ℕ) : F p) 63 = if n < 63 then 1 else 0 := by
      have := lessThan_nat (p := p) (a := n) (n := 63) (by omega) (by omega) (by omega)
      simpa using this
    have v1 : (1 : F p).val = 1 := by
      have := val_natCast_lt (p := p) (a := 1) (by omega); simpa using this
    simp only [l1, l3, l63]
    rw [C10_hexToDecimal _ 64 n (by norm_num) (by omega) hlen hn]
    simp only [List.getElem?_cons_zero, List.getElem?_cons_succ, Option.bind_eq_bind, Option.bind_some]
    have hmux : ∀ j < 62, muxSel ((j : ℕ) : F p) ((List.range 62).map fun j =>
        Spec.beField (((a :: b :: t).drop 2).take (j + 1))) =
        some (Spec.beField (((a :: b :: t).drop 2).take (j + 1))) := by
      intro j hj
      unfold muxSel
      rw [val_natCast_lt (by omega), List.getElem?_map, List.getElem?_range hj]; rfl
    by_cases h63' : n < 63
    · have hx : ∃ y, ((select (if n < 3 then 1 else 0) (1 : F p) ((n : F p) - 3)).bind fun s =>
          (select (if n < 1 then 1 else 0) 1 s).bind fun s' => muxSel s' ((List.range 62).map fun j =>
            Spec.beField (((a :: b :: t).drop 2).take (j + 1)))) = some y := by
        by_cases h3 : n < 3
        · refine ⟨Spec.beField (((a :: b :: t).drop 2).take (1 + 1)), ?_⟩
          have := hmux 1 (by norm_num)
          rw [Nat.cast_one] at this
          by_cases h1 : n < 1 <;> simp [select, h3, h1] <;> simpa using this
        · refine ⟨Spec.beField (((a :: b :: t).drop 2).take (n - 3 + 1)), ?_⟩
          have := hmux (n - 3) (by omega)
          rw [Nat.cast_sub (by omega)] at this
          simp [select, h3, show ¬ n < 1 by omega]
          simpa using this
      obtain ⟨y, hy⟩ := hx
      have hy' : ∀ (k : F p → Option (F p × F p)), ((select (if n < 3 then 1 else 0) (1 : F p) ((n : F p) - 3)).bind fun s =>
          (select (if n < 1 then 1 else 0) 1 s).bind fun s' => (muxSel s' ((List.range 62).map fun j =>
            Spec.beField (((a :: b :: t).drop 2).take (j + 1)))).bind k) = k y := by
        intro k
        have := congrArg (fun z => z.bind k) hy
        simpa [Option.bind_assoc] using this
      rw [hy']
      simp [select, h63']
    · obtain rfl : n = 64 := by omega
      have := hmux 61 (by norm_num)
      have e : ((64 : ℕ) : F p) - 3 = ((61 : ℕ) : F p) := by norm_num
      simp only [select, show ¬ (64 : ℕ) < 3 by omega, show ¬ (64 : ℕ) < 1 by omega, if_false,
        Option.bind_some, if_true, zero_ne_one, e]
      rw [this]
      simp [Spec.beField]
      ring
  refine ⟨_, _, hgoal, ?_, fun h => if_pos h, fun h => if_neg (by omega)⟩
  by_cases h : n < 63
  · simp [h]
  · obtain rfl : n = 64 := by omega
    have hsplit : inp.take 64 = inp.take 2 ++ (inp.drop 2).take 62 := by
      rw [← List.take_add]
    simp only [show ¬ (64 : ℕ) < 63 by omega, if_false]
    rw [hsplit, beField_append]
    have : ((inp.drop 2).take 62).length = 62 := by simp; omega
    rw [this, show (16 : F p) ^ 62 = 2 ^ 248 by rw [show (16 : F p) = 2 ^ 4 by norm_num, ← pow_mul]]
    ring

end Verif.Rlp
