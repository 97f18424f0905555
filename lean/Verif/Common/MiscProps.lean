import Verif.Common.Misc
import Verif.Common.HexProps
import Mathlib.Data.Nat.Digits.Lemmas

/-! # Property theorem C83: conversions of strings and times, list helpers -/

namespace Verif.Misc

/-! ## Specification -/

/-- The decimal representation. -/
def decimal (n : ℕ) : List ℕ := if n = 0 then [48] else (Nat.digits 10 n).reverse.map (· + 48)

/-- The decimal representation with a minus sign for negative numbers. -/
def decimalInt (z : ℤ) : List ℕ := if z < 0 then 45 :: decimal z.natAbs else decimal z.natAbs

/-! ## Lemmas -/

theorem decimal_digit (n : ℕ) : ∀ c ∈ decimal n, 48 ≤ c ∧ c ≤ 57 := by
  intro c hc
  unfold decimal at hc
  split at hc
  · simp at hc; omega
  · obtain ⟨d, hd, rfl⟩ := List.mem_map.1 hc
    have := Nat.digits_lt_base (b := 10) (by norm_num) (List.mem_reverse.1 hd)
    omega

theorem decimal_ne (n : ℕ) : decimal n ≠ [] := by
  unfold decimal
  split
  · simp
  · rename_i h
    simp only [ne_eq, List.map_eq_nil_iff, List.reverse_eq_nil_iff]
    exact Nat.digits_ne_nil_iff_ne_zero.2 h

theorem fold_digits (l : List ℕ) (a : ℕ) :
    (l.map (· + 48)).foldl (fun a c => 10 * a + (c - 48)) a = a * 10 ^ l.length + Nat.ofDigits 10 l.reverse := by
  induction l generalizing a with
  | nil => simp
  | cons d l ih =>
    rw [List.map_cons, List.foldl_cons, ih, List.reverse_cons, Nat.ofDigits_append, List.length_cons, List.length_reverse,
      Nat.ofDigits_singleton]
    simp only [Nat.add_sub_cancel, pow_succ]
    ring

theorem digits_decimal (n : ℕ) : digits (decimal n) = some n := by
  unfold digits
  rw [if_pos ⟨decimal_ne n, decimal_digit n⟩, Option.some.injEq]
  unfold decimal
  split
  · rename_i h; simp [h]
  · rw [fold_digits, List.reverse_reverse, Nat.ofDigits_digits]; omega

theorem signed_decimal (n : ℕ) : signed (decimal n) = some (n : ℤ) := by
  have h := decimal_digit n
  have hd := digits_decimal n
  unfold signed
  split
  · rename_i r hr
    rw [hr] at h
    have := h 43 (by simp)
    omega
  · rename_i r hr
    rw [hr] at h
    have := h 45 (by simp)
    omega
  · rw [hd]; rfl

theorem signed_decimalInt (z : ℤ) : signed (decimalInt z) = some z := by
  unfold decimalInt
  split
  · rw [signed, digits_decimal, Option.map_some, Option.some.injEq]
    omega
  · rw [signed_decimal, Option.some.injEq]; omega

/-! ## Strings -/

/-- C83. `Str2BigInt` reads every integer back from its decimal form, with or without a plus sign; the form determines the number. -/
theorem C83_bigint (z : ℤ) (n : ℕ) : str2BigInt (decimalInt z) = some z ∧ str2BigInt (43 :: decimal n) = some (n : ℤ) :=
  ⟨signed_decimalInt z, by simp [str2BigInt, signed, digits_decimal]⟩

/-- C83. `Str2Int` reads every `int` back from its decimal form. -/
theorem C83_int (z : ℤ) (h1 : -2 ^ 63 ≤ z) (h2 : z < 2 ^ 63) : str2Int (decimalInt z) = z := by
  rw [str2Int, signed_decimalInt]
  simp only
  omega

/-- C83. `Str2Uint64` reads every number below 2^63 back. -/
theorem C83_uint64 (n : ℕ) (h : n < 2 ^ 63) : str2Uint64 (decimal n) = n := by
  rw [str2Uint64, str2Int, signed_decimal]
  simp only
  omega

/-- C83, disagreement. The upper half of the range is lost: every `uint64` from 2^63 on (and everything larger) is read as
2^63 - 1, without an error. -/
theorem C83_uint64_upper_half (n : ℕ) (h : 2 ^ 63 ≤ n) : str2Uint64 (decimal n) = 2 ^ 63 - 1 := by
  rw [str2Uint64, str2Int, signed_decimal]
  simp only
  omega

/-- C83, disagreement. Negative numbers are read as large positive ones. -/
theorem C83_uint64_negative (n : ℕ) (h : 0 < n) (h' : n ≤ 2 ^ 63) :
    str2Uint64 (45 :: decimal n) = 2 ^ 64 - n := by
  have : signed (45 :: decimal n) = some (-(n : ℤ)) := by simp [signed, digits_decimal]
  rw [str2Uint64, str2Int, this]
  simp only
  omega

/-- C83, disagreement. What is no number at all is read as 0. -/
theorem C83_invalid (s : List ℕ) (h : signed s = none) : str2Int s = 0 ∧ str2Uint64 s = 0 := by
  have : str2Int s = 0 := by rw [str2Int, h]
  exact ⟨this, by rw [str2Uint64, this]; rfl⟩

/-! ## Times -/

/-- C83. Milliseconds round trip and mean what they say up to the year 2262; seconds always do below 2^63. -/
theorem C83_times (ts : ℕ) (h : ts * 1000000 < 2 ^ 63) :
    tsMilliToTime ts = (ts : ℤ) * 1000000 ∧ tsMilli (tsMilliToTime ts) = ts ∧ tsSecToTime ts = (ts : ℤ) * 1000000000 := by
  have h1 : tsMilliToTime ts = (ts : ℤ) * 1000000 := by
    unfold tsMilliToTime toInt64
    rw [Nat.mod_eq_of_lt (by omega), if_pos h]
    push_cast; rfl
  refine ⟨h1, ?_, ?_⟩
  · rw [h1, tsMilli]; omega
  · unfold tsSecToTime toInt64
    rw [if_pos (by omega)]

/-- C83. `TsMilli` rounds down every time between 1970 and 2262. -/
theorem C83_tsMilli (t : ℤ) (h0 : 0 ≤ t) (h : t < 2 ^ 63) : (tsMilli t : ℤ) * 1000000 ≤ t ∧ t < ((tsMilli t : ℤ) + 1) * 1000000 := by
  unfold tsMilli
  omega

/-- C83, disagreement. Every time before 1970 within the range of `UnixNano` becomes a time stamp after the year 2262. -/
theorem C83_before_1970 (t : ℤ) (h : t < 0) (h' : -2 ^ 63 ≤ t) : 2 ^ 63 / 1000000 ≤ tsMilli t := by
  unfold tsMilli
  omega

/-- C83, disagreement. A time stamp after the year 2262 becomes a time before 1970. -/
theorem C83_after_2262 (ts : ℕ) (h : 2 ^ 63 ≤ ts * 1000000) (h' : ts * 1000000 < 2 ^ 64) : tsMilliToTime ts < 0 := by
  unfold tsMilliToTime toInt64
  rw [Nat.mod_eq_of_lt h', if_neg (by omega)]
  omega

/-! ## Start blocks -/

/-- C83. The initial chunk contains the start block, for every chain. -/
theorem C83_start_chunk (chain : ℕ) :
    (getStartBlockInfo chain).2.1 * 128 ≤ (getStartBlockInfo chain).1 ∧
    (getStartBlockInfo chain).1 < ((getStartBlockInfo chain).2.1 + 1) * 128 ∧ (getStartBlockInfo chain).2.2 = chain := by
  refine ⟨?_, ?_, rfl⟩ <;> simp only [getStartBlockInfo] <;> omega

/-- C83, disagreement. The start block is the first block of that chunk on every chain except the two BNB chains (97 and 56), where it
lies inside. -/
theorem C83_start_aligned (chain : ℕ) :
    (getStartBlockInfo chain).2.1 * 128 = (getStartBlockInfo chain).1 ↔ chain ≠ 97 ∧ chain ≠ 56 := by
  simp only [getStartBlockInfo]
  by_cases h1 : chain = 42161
  · subst h1; decide
  · by_cases h2 : chain = 10
    · subst h2; decide
    · by_cases h3 : chain = 97
      · subst h3; decide
      · by_cases h4 : chain = 56
        · subst h4; decide
        · simp [h1, h2, h3, h4]

/-! ## Lists -/

/-- C83. `Contains` tells membership. -/
theorem C83_contains {α : Type} [DecidableEq α] (l : List α) (x : α) : contains l x = true ↔ x ∈ l := by
  induction l with
  | nil => simp [contains]
  | cons a l ih =>
    rw [contains]
    by_cases h : a = x
    · simp [h]
    · simp [h, ih, Ne.symm h]

/-- The inner loop of `Partition`. -/
theorem partition_inner {K V : Type} [DecidableEq K] (keys : List K) (hn : keys.Nodup) (f : K → V → Bool) (v : V)
    (ret : K → Option (List V)) (k : K) :
    (keys.foldl (fun ret k => if f k v then Function.update ret k (some ((ret k).getD [] ++ [v])) else ret) ret) k =
      if k ∈ keys ∧ f k v then some ((ret k).getD [] ++ [v]) else ret k := by
  induction keys generalizing ret with
  | nil => simp
  | cons a keys ih =>
    rw [List.nodup_cons] at hn
    rw [List.foldl_cons, ih hn.2]
    by_cases hka : k = a
    · subst hka
      rw [if_neg (by simp [hn.1])]
      by_cases hf : f k v
      · simp [hf]
      · simp [hf]
    · have hu : (if f a v then Function.update ret a (some ((ret a).getD [] ++ [v])) else ret) k = ret k := by
        split
        · rw [Function.update_of_ne hka]
        · rfl
      rw [hu]
      simp [hka]

/-- C83. With distinct keys, `Partition` gives each key the values that its predicate selects, in their order; a key that selects nothing
(or is not asked for) is missing. -/
theorem C83_partition {K V : Type} [DecidableEq K] (vs : List V) (keys : List K) (hn : keys.Nodup) (f : K → V → Bool) (k : K) :
    partition vs keys f k =
      if k ∈ keys ∧ vs.filter (f k) ≠ [] then some (vs.filter (f k)) else none := by
  induction vs using List.reverseRecOn with
  | nil => simp [partition]
  | append_singleton vs v ih =>
    unfold partition at ih ⊢
    rw [List.foldl_append, List.foldl_cons, List.foldl_nil, partition_inner keys hn f v _ k, ih]
    by_cases hk : k ∈ keys
    · by_cases hf : f k v
      · by_cases he : vs.filter (f k) = []
        · simp [hk, hf, he]
        · simp [hk, hf, he]
      · simp [hk, hf]
    · simp [hk]

/-- C83, disagreement. A key that is listed twice gets every value twice. -/
theorem C83_partition_duplicate {K V : Type} [DecidableEq K] (v : V) (k : K) (f : K → V → Bool) (h : f k v = true) :
    partition [v] [k, k] f k = some [v, v] := by
  simp [partition, h]

theorem hex_no_comma (b : List ℕ) (h : Hex.Bytes b) : 44 ∉ Hex.bytes2Hex0x b := by
  intro hm
  unfold Hex.bytes2Hex0x at hm
  simp only [List.mem_cons] at hm
  rcases hm with hm | hm | hm
  · omega
  · omega
  · have := Hex.bytes2Hex_digits _ h 44 hm
    unfold Hex.HexDigit at this
    omega

theorem field_inj (a b r s : List ℕ) (ha : 44 ∉ a) (hb : 44 ∉ b) (h : a ++ 44 :: r = b ++ 44 :: s) : a = b ∧ r = s := by
  induction a generalizing b with
  | nil =>
    cases b with
    | nil => simpa using h
    | cons c b => simp only [List.nil_append, List.cons_append, List.cons.injEq] at h; exact absurd h.1 (by simp at hb; tauto)
  | cons c a ih =>
    cases b with
    | nil => simp only [List.nil_append, List.cons_append, List.cons.injEq] at h; exact absurd h.1 (by simp at ha; tauto)
    | cons d b =>
      simp only [List.cons_append, List.cons.injEq] at h
      obtain ⟨h1, h2⟩ := ih b (by simp at ha; tauto) (by simp at hb; tauto) h.2
      exact ⟨by rw [h.1, h1], h2⟩

/-- C83. `Convert2DimensionalByteArrayToString` loses nothing: equal strings come from equal arrays. -/
theorem C83_convert2_injective (a b : List (List ℕ)) (ha : ∀ x ∈ a, Hex.Bytes x) (hb : ∀ x ∈ b, Hex.Bytes x)
    (h : convert2 a = convert2 b) : a = b := by
  have inj : ∀ x y, Hex.Bytes x → Hex.Bytes y → Hex.bytes2Hex0x x = Hex.bytes2Hex0x y → x = y := by
    intro x y hx hy e
    unfold Hex.bytes2Hex0x at e
    simp only [List.cons.injEq, true_and] at e
    exact Hex.C36_encode_injective x y hx hy e
  have ne : ∀ x, Hex.bytes2Hex0x x ≠ [] := by intro x; simp [Hex.bytes2Hex0x]
  have jn : ∀ x (l : List (List ℕ)), join (Hex.bytes2Hex0x x :: l) ≠ [] := by
    intro x l
    cases l <;> simp [join, Hex.bytes2Hex0x]
  unfold convert2 at h
  induction a generalizing b with
  | nil =>
    cases b with
    | nil => rfl
    | cons y b => exact absurd h.symm (jn y _)
  | cons x a ih =>
    cases b with
    | nil => exact absurd h (jn x _)
    | cons y b =>
      have hx := ha x (by simp)
      have hy := hb y (by simp)
      cases a with
      | nil =>
        cases b with
        | nil => rw [inj x y hx hy h]
        | cons y' b =>
          simp only [List.map_cons, List.map_nil, join] at h
          exact absurd (h ▸ hex_no_comma x hx) (by simp)
      | cons x' a =>
        cases b with
        | nil =>
          simp only [List.map_cons, List.map_nil, join] at h
          exact absurd (h ▸ hex_no_comma y hy) (by simp)
        | cons y' b =>
          have e : ∀ s t (l : List (List ℕ)), join (s :: t :: l) = s ++ 44 :: join (t :: l) := fun s t l => by rw [join]; simp
          simp only [List.map_cons] at h
          rw [e, e] at h
          obtain ⟨h1, h2⟩ := field_inj _ _ _ _ (hex_no_comma x hx) (hex_no_comma y hy) h
          rw [inj x y hx hy h1, ih (y' :: b) (fun z hz => ha z (by simp [hz])) (fun z hz => hb z (by simp [hz])) h2]

/-! ## Concrete cases -/

example : decimal 0 = [48] ∧ decimalInt (-12) = [45, 49, 50] := by
  constructor
  · rfl
  · norm_num [decimalInt, decimal]

example : partition [1, 2, 3, 4] ["odd", "even", "big"] (fun k v => match k with
    | "odd" => v % 2 == 1 | "even" => v % 2 == 0 | _ => decide (10 < v)) "even" = some [2, 4] := by decide

example : convert2 [[255], []] = [48, 120, 102, 102, 44, 48, 120] := by decide

end Verif.Misc
