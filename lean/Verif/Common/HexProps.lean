import Verif.Common.Hex
import Verif.SlicesProps
import Mathlib.Tactic.IntervalCases

/-! # C36: hex and byte-string helpers -/

namespace Verif.Hex

/-! ## Specification -/

/-- A hexadecimal digit, upper or lower case. -/
def HexDigit (c : ℕ) : Prop := (48 ≤ c ∧ c ≤ 57) ∨ (97 ≤ c ∧ c ≤ 102) ∨ (65 ≤ c ∧ c ≤ 70)

/-- Value of a hexadecimal digit. -/
def digitVal (c : ℕ) : ℕ := if c ≤ 57 then c - 48 else if c ≤ 70 then c - 55 else c - 87

/-- Value of a string of hexadecimal digits. -/
def hexNum (s : List ℕ) : ℕ := s.foldl (fun a c => 16 * a + digitVal c) 0

/-- Every entry is a byte. -/
def Bytes (b : List ℕ) : Prop := ∀ x ∈ b, x < 256

/-! ## Lemmas -/

theorem fromHexChar_digit {c : ℕ} (h : HexDigit c) : fromHexChar c = some (digitVal c) := by
  unfold HexDigit at h
  unfold fromHexChar digitVal
  rcases h with h | h | h
  · rw [if_pos h, if_pos h.2]
  · rw [if_neg (by omega), if_pos h, if_neg (by omega), if_neg (by omega)]
  · rw [if_neg (by omega), if_neg (by omega), if_pos h, if_neg (by omega), if_pos (by omega)]

theorem fromHexChar_none {c : ℕ} (h : ¬ HexDigit c) : fromHexChar c = none := by
  unfold HexDigit at h
  unfold fromHexChar
  rw [if_neg (by omega), if_neg (by omega), if_neg (by omega)]

theorem digitVal_lt {c : ℕ} (h : HexDigit c) : digitVal c < 16 := by
  unfold HexDigit at h; unfold digitVal; split <;> [skip; split] <;> omega

theorem hexDigit_hexChar {d : ℕ} (h : d < 16) : HexDigit (hexChar d) := by
  unfold HexDigit hexChar; split <;> omega

theorem digitVal_hexChar {d : ℕ} (h : d < 16) : digitVal (hexChar d) = d := by
  unfold digitVal hexChar; split <;> split <;> (try split) <;> omega

theorem isHexCharacter_iff (c : ℕ) : isHexCharacter c = true ↔ HexDigit c := by
  simp [isHexCharacter, HexDigit, or_assoc]

theorem noPrefix {s : List ℕ} (h : ∀ c ∈ s, HexDigit c) : has0xPrefix s = false := by
  unfold has0xPrefix
  split
  · next a b r =>
    have hb := h b (by simp)
    unfold HexDigit at hb
    simp only [Bool.and_eq_false_iff, Bool.or_eq_false_iff, beq_eq_false_iff_ne]
    right
    constructor <;> omega
  · rfl

theorem decode_even (s : List ℕ) (h : ∀ c ∈ s, HexDigit c) (he : s.length % 2 = 0) (t : List ℕ) :
    ∃ b, decodeString (s ++ t) = b ++ decodeString t ∧ b.length = s.length / 2 ∧ Bytes b ∧
      ∀ a, b.foldl (fun a x => 256 * a + x) a = s.foldl (fun a c => 16 * a + digitVal c) a := by
  match s with
  | [] => exact ⟨[], by simp, rfl, by intro x hx; simp at hx, fun a => rfl⟩
  | [x] => simp at he
  | x :: y :: r =>
    have hx := h x (by simp)
    have hy := h y (by simp)
    obtain ⟨b, h1, h2, h3, h4⟩ := decode_even r (fun c hc => h c (by simp [hc])) (by simp at he; omega) t
    refine ⟨(16 * digitVal x + digitVal y) :: b, ?_, by simp [h2]; omega, ?_, ?_⟩
    · simp [decodeString, fromHexChar_digit hx, fromHexChar_digit hy, h1]
    · intro z hz
      rcases List.mem_cons.1 hz with rfl | hz
      · have := digitVal_lt hx; have := digitVal_lt hy; omega
      · exact h3 z hz
    · intro a
      simp only [List.foldl_cons]
      rw [h4]
      congr 1
      ring

theorem decode_append (s : List ℕ) (h : ∀ c ∈ s, HexDigit c) (he : s.length % 2 = 0) (t : List ℕ) :
    decodeString (s ++ t) = decodeString s ++ decodeString t := by
  match s with
  | [] => rfl
  | [z] => simp at he
  | z :: w :: q =>
    have hz := h z (by simp)
    have hw := h w (by simp)
    simp only [List.cons_append, decodeString, fromHexChar_digit hz, fromHexChar_digit hw]
    rw [decode_append q (fun c hc => h c (by simp [hc])) (by simp at he; omega)]

theorem decodeString_nil_of (t : List ℕ) (h : ∀ a b r, t = a :: b :: r → ¬ HexDigit a ∨ ¬ HexDigit b) :
    decodeString t = [] := by
  match t with
  | [] => rfl
  | [a] => rfl
  | a :: b :: r =>
    rcases h a b r rfl with ha | hb
    · simp [decodeString, fromHexChar_none ha]
    · simp [decodeString, fromHexChar_none hb]

theorem decode_bytes (b : List ℕ) (h : Bytes b) (t : List ℕ) :
    decodeString (bytes2Hex b ++ t) = b ++ decodeString t := by
  induction b with
  | nil => simp [bytes2Hex]
  | cons x b ih =>
    have hx : x < 256 := h x (by simp)
    have h1 := hexDigit_hexChar (d := x / 16) (by omega)
    have h2 := hexDigit_hexChar (d := x % 16) (by omega)
    have e : bytes2Hex (x :: b) = hexChar (x / 16) :: hexChar (x % 16) :: bytes2Hex b := rfl
    rw [e]
    simp only [List.cons_append, decodeString, fromHexChar_digit h1, fromHexChar_digit h2,
      digitVal_hexChar (show x / 16 < 16 by omega), digitVal_hexChar (show x % 16 < 16 by omega)]
    rw [ih (fun y hy => h y (by simp [hy]))]
    congr 1
    omega

theorem bytes2Hex_length (b : List ℕ) : (bytes2Hex b).length = 2 * b.length := by
  induction b with
  | nil => rfl
  | cons x b ih =>
    rw [show bytes2Hex (x :: b) = hexChar (x / 16) :: hexChar (x % 16) :: bytes2Hex b from rfl]
    simp only [List.length_cons, ih]; omega

theorem bytes2Hex_digits (b : List ℕ) (h : Bytes b) : ∀ c ∈ bytes2Hex b, HexDigit c := by
  intro c hc
  unfold bytes2Hex at hc
  obtain ⟨x, hx, hc⟩ := List.mem_flatMap.1 hc
  have hlt := h x hx
  simp only [List.mem_cons, List.not_mem_nil, or_false] at hc
  rcases hc with rfl | rfl
  · exact hexDigit_hexChar (by omega)
  · exact hexDigit_hexChar (by omega)

theorem hex2Bytes_digits (s : List ℕ) (h : ∀ c ∈ s, HexDigit c) :
    hex2Bytes s = decodeString (if s.length % 2 = 1 then 48 :: s else s) := by
  unfold hex2Bytes
  rw [noPrefix h]
  rfl

theorem hex2Bytes_prefix (x : ℕ) (hx : x = 120 ∨ x = 88) (s : List ℕ) :
    hex2Bytes (48 :: x :: s) = decodeString (if s.length % 2 = 1 then 48 :: s else s) := by
  unfold hex2Bytes
  rw [show has0xPrefix (48 :: x :: s) = true by rcases hx with rfl | rfl <;> rfl]
  rfl

theorem beVal_replicate_zero (n : ℕ) (b : List ℕ) : beVal (List.replicate n 0 ++ b) = beVal b := by
  unfold beVal
  rw [List.foldl_append]
  congr 1
  induction n with
  | zero => rfl
  | succ n ih => rw [List.replicate_succ, List.foldl_cons]; simpa using ih

theorem beVal_foldl (a : ℕ) (b : List ℕ) :
    b.foldl (fun a x => 256 * a + x) a = a * 256 ^ b.length + beVal b := by
  induction b generalizing a with
  | nil => simp [beVal]
  | cons x b ih =>
    unfold beVal
    simp only [List.foldl_cons, List.length_cons]
    rw [ih, ih (256 * 0 + x)]
    ring

theorem beVal_append (a b : List ℕ) : beVal (a ++ b) = beVal a * 256 ^ b.length + beVal b := by
  conv_lhs => unfold beVal
  rw [List.foldl_append, beVal_foldl]
  rfl

theorem beVal_lt (b : List ℕ) (h : Bytes b) : beVal b < 256 ^ b.length := by
  induction b with
  | nil => simp [beVal]
  | cons x b ih =>
    have h1 := beVal_append [x] b
    have h2 : beVal [x] = x := by simp [beVal]
    rw [List.singleton_append, h2] at h1
    have h3 := ih (fun y hy => h y (by simp [hy]))
    have h4 : x < 256 := h x (by simp)
    rw [h1, List.length_cons, pow_succ]
    have : x * 256 ^ b.length ≤ 255 * 256 ^ b.length := Nat.mul_le_mul_right _ (by omega)
    omega

theorem beVal_cons (x : ℕ) (b : List ℕ) : beVal (x :: b) = x * 256 ^ b.length + beVal b := by
  have h1 := beVal_append [x] b
  have h2 : beVal [x] = x := by simp [beVal]
  rwa [List.singleton_append, h2] at h1

theorem beVal_inj (a b : List ℕ) (ha : Bytes a) (hb : Bytes b) (hl : a.length = b.length)
    (h : beVal a = beVal b) : a = b := by
  induction a generalizing b with
  | nil => cases b <;> simp_all
  | cons x a ih =>
    cases b with
    | nil => simp at hl
    | cons y b =>
      have hl' : a.length = b.length := by simpa using hl
      have ha' : Bytes a := fun z hz => ha z (by simp [hz])
      have hb' : Bytes b := fun z hz => hb z (by simp [hz])
      rw [beVal_cons, beVal_cons, hl'] at h
      have l1 := beVal_lt a ha'
      have l2 := beVal_lt b hb'
      rw [hl'] at l1
      have hx : x = y := by
        have e1 : (x * 256 ^ b.length + beVal a) / 256 ^ b.length = x := by
          rw [Nat.mul_comm, Nat.mul_add_div (by positivity), Nat.div_eq_of_lt l1, add_zero]
        have e2 : (y * 256 ^ b.length + beVal b) / 256 ^ b.length = y := by
          rw [Nat.mul_comm, Nat.mul_add_div (by positivity), Nat.div_eq_of_lt l2, add_zero]
        rw [← e1, ← e2, h]
      subst hx
      rw [ih b ha' hb' hl' (by omega)]

/-! ## Theorems -/

/-- **C36**: decoding undoes encoding, without prefix, with `0x` and with `0X`. -/
theorem C36_roundtrip (b : List ℕ) (h : Bytes b) :
    hex2Bytes (bytes2Hex b) = b ∧ hex2Bytes (bytes2Hex0x b) = b ∧
      hex2Bytes (48 :: 88 :: bytes2Hex b) = b := by
  have e := decode_bytes b h []
  simp only [List.append_nil, decodeString] at e
  have hl : ¬ (bytes2Hex b).length % 2 = 1 := by rw [bytes2Hex_length]; omega
  refine ⟨?_, ?_, ?_⟩
  · rw [hex2Bytes_digits _ (bytes2Hex_digits b h), if_neg hl, e]
  · unfold bytes2Hex0x; rw [hex2Bytes_prefix _ (Or.inl rfl), if_neg hl, e]
  · rw [hex2Bytes_prefix _ (Or.inr rfl), if_neg hl, e]

/-- **C36**: encoding is injective. -/
theorem C36_encode_injective (a b : List ℕ) (ha : Bytes a) (hb : Bytes b) (h : bytes2Hex a = bytes2Hex b) :
    a = b := by
  rw [← (C36_roundtrip a ha).1, h, (C36_roundtrip b hb).1]

theorem decode_value (s : List ℕ) (h : ∀ c ∈ s, HexDigit c) :
    let d := decodeString (if s.length % 2 = 1 then 48 :: s else s)
    d.length = (s.length + 1) / 2 ∧ Bytes d ∧ beVal d = hexNum s := by
  intro d
  by_cases ho : s.length % 2 = 1
  · have hd : d = decodeString (48 :: s) := by simp only [d]; rw [if_pos ho]
    obtain ⟨b, h1, h2, h3, h4⟩ := decode_even (48 :: s)
      (by
        intro c hc
        rcases List.mem_cons.1 hc with rfl | hc
        · exact Or.inl ⟨by omega, by omega⟩
        · exact h c hc) (by simp; omega) []
    simp only [List.append_nil, decodeString] at h1
    rw [hd, h1]
    refine ⟨by rw [h2]; rfl, h3, ?_⟩
    unfold beVal hexNum
    rw [h4]
    rfl
  · have hd : d = decodeString s := by simp only [d]; rw [if_neg ho]
    obtain ⟨b, h1, h2, h3, h4⟩ := decode_even s h (by omega) []
    simp only [List.append_nil, decodeString] at h1
    rw [hd, h1]
    refine ⟨by rw [h2]; omega, h3, ?_⟩
    unfold beVal hexNum
    rw [h4]

/-- **C36**: a string of hex digits (any length, any case), with or without prefix, decodes to
`⌈length/2⌉` bytes whose big-endian value is the value of the string: odd strings are padded on the left. -/
theorem C36_value (s : List ℕ) (h : ∀ c ∈ s, HexDigit c) :
    ((hex2Bytes s).length = (s.length + 1) / 2 ∧ Bytes (hex2Bytes s) ∧ beVal (hex2Bytes s) = hexNum s) ∧
    (∀ x, x = 120 ∨ x = 88 → hex2Bytes (48 :: x :: s) = hex2Bytes s) ∧
    hex2BigInt s = hexNum s := by
  have e := decode_value s h
  rw [← hex2Bytes_digits s h] at e
  exact ⟨e, fun x hx => by rw [hex2Bytes_prefix x hx, hex2Bytes_digits s h], e.2.2⟩

/-- **C36**: malformed input is not reported: everything from the first pair with an invalid character on
is silently dropped. -/
theorem C36_invalid_truncates (s : List ℕ) (h : ∀ c ∈ s, HexDigit c) (he : s.length % 2 = 0)
    (a b : ℕ) (r : List ℕ) (hr : r.length % 2 = 0) (hab : ¬ HexDigit a ∨ ¬ HexDigit b) (x : ℕ) (hx : x = 120 ∨ x = 88) :
    hex2Bytes (48 :: x :: (s ++ a :: b :: r)) = hex2Bytes s := by
  rw [hex2Bytes_prefix x hx, if_neg (by simp; omega), hex2Bytes_digits s h, if_neg (by omega)]
  rw [decode_append s h he, decodeString_nil_of (a :: b :: r) (by
    intro a' b' r' e
    simp only [List.cons.injEq] at e
    obtain ⟨rfl, rfl, -⟩ := e
    exact hab), List.append_nil]

theorem toFixed_length (n : ℕ) (b : List ℕ) : (toFixed n b).length = n := by
  unfold toFixed
  simp only [List.length_append, List.length_replicate]
  split
  · rw [List.length_drop]; omega
  · omega

theorem toFixed_bytes (n : ℕ) (b : List ℕ) (h : Bytes b) : Bytes (toFixed n b) := by
  intro x hx
  unfold toFixed at hx
  rcases List.mem_append.1 hx with hx | hx
  · rw [(List.mem_replicate.1 hx).2]; decide
  · split at hx
    · exact h x (List.mem_of_mem_drop hx)
    · exact h x hx

theorem toFixed_val (n : ℕ) (b : List ℕ) (h : Bytes b) : beVal (toFixed n b) = beVal b % 256 ^ n := by
  unfold toFixed
  rw [beVal_replicate_zero]
  split
  · next hlt =>
    have e : b = b.take (b.length - n) ++ b.drop (b.length - n) := (List.take_append_drop _ _).symm
    have l : (b.drop (b.length - n)).length = n := by rw [List.length_drop]; omega
    conv_rhs => rw [e, beVal_append, l]
    rw [Nat.mul_add_mod_self_right, Nat.mod_eq_of_lt]
    have := beVal_lt (b.drop (b.length - n)) (fun x hx => h x (List.mem_of_mem_drop hx))
    rwa [l] at this
  · next hge =>
    rw [Nat.mod_eq_of_lt]
    exact lt_of_lt_of_le (beVal_lt b h) (Nat.pow_le_pow_right (by decide) (by omega))

theorem toFixed_self (n : ℕ) (b : List ℕ) (h : b.length = n) : toFixed n b = b := by
  unfold toFixed
  rw [if_neg (by omega)]
  simp [h]

/-- **C36**: conversions to addresses and hashes always give 20 (32) bytes, whose value is the value of
the hex string modulo `256^20` (`256^32`): shorter input is padded on the left, longer input loses its
leading digits. -/
theorem C36_fixed_width (s : List ℕ) (h : ∀ c ∈ s, HexDigit c) :
    ((hex2Addr s).length = 20 ∧ Bytes (hex2Addr s) ∧ beVal (hex2Addr s) = hexNum s % 256 ^ 20) ∧
    ((hex2Hash s).length = 32 ∧ Bytes (hex2Hash s) ∧ beVal (hex2Hash s) = hexNum s % 256 ^ 32) := by
  obtain ⟨⟨-, hb, hv⟩, -⟩ := C36_value s h
  refine ⟨⟨toFixed_length _ _, toFixed_bytes _ _ hb, ?_⟩, toFixed_length _ _, toFixed_bytes _ _ hb, ?_⟩
  · unfold hex2Addr; rw [toFixed_val _ _ hb, hv]
  · unfold hex2Hash; rw [toFixed_val _ _ hb, hv]

/-- **C36**: addresses survive the text round trip, and formatting an address string is idempotent. -/
theorem C36_addr_roundtrip (a : List ℕ) (h : Bytes a) (hl : a.length = 20) :
    hex2Addr (addr2Hex a) = a ∧ hex2Addr (addr2Hex0x a) = a ∧ bytes2Addr a = a ∧
    bytes2AddrHex a = addr2Hex a := by
  have h2 : bytes2Addr a = a := toFixed_self 20 a hl
  refine ⟨?_, ?_, h2, by unfold bytes2AddrHex; rw [h2]⟩
  · unfold hex2Addr addr2Hex; rw [(C36_roundtrip a h).1, toFixed_self 20 a hl]
  · have := (C36_roundtrip a h).2.1
    unfold hex2Addr addr2Hex0x addr2Hex
    unfold bytes2Hex0x at this
    rw [this, toFixed_self 20 a hl]

/-- **C36**: `Bytes2Hash` of any byte slice has 32 bytes and the value of the slice modulo `256^32`; a slice of 32
bytes is returned unchanged. -/
theorem C36_bytes2Hash (b : List ℕ) (h : Bytes b) :
    (bytes2Hash b).length = 32 ∧ Bytes (bytes2Hash b) ∧ beVal (bytes2Hash b) = beVal b % 256 ^ 32 ∧
    (b.length = 32 → bytes2Hash b = b) :=
  ⟨toFixed_length _ _, toFixed_bytes _ _ h, toFixed_val _ _ h, toFixed_self 32 b⟩

theorem C36_formatAddrHex (s : List ℕ) (h : ∀ c ∈ s, HexDigit c) :
    formatAddrHex (formatAddrHex s) = formatAddrHex s ∧ (formatAddrHex s).length = 40 := by
  obtain ⟨⟨h1, h2, -⟩, -⟩ := C36_fixed_width s h
  unfold formatAddrHex
  rw [(C36_addr_roundtrip _ h2 h1).1]
  exact ⟨rfl, by unfold addr2Hex; rw [bytes2Hex_length, h1]⟩

/-- **C36**: `Pad20Bytes` / `Pad32Bytes` keep the value and panic exactly on longer input. -/
theorem C36_padBytes (n : ℕ) (b : List ℕ) :
    (padBytes n b = none ↔ n < b.length) ∧
    ∀ r, padBytes n b = some r → r.length = n ∧ beVal r = beVal b ∧ ∃ k, r = List.replicate k 0 ++ b := by
  unfold padBytes
  by_cases h1 : b.length = n
  · rw [if_pos h1]
    refine ⟨by simp; omega, ?_⟩
    intro r hr
    cases hr
    exact ⟨h1, rfl, 0, rfl⟩
  · rw [if_neg h1]
    by_cases h2 : n < b.length
    · rw [if_pos h2]; simp [h2]
    · rw [if_neg h2]
      refine ⟨by simp [h2], ?_⟩
      intro r hr
      cases hr
      exact ⟨by simp; omega, beVal_replicate_zero _ _, _, rfl⟩

theorem isHex_iff (s : List ℕ) : isHex s = true ↔ s.length % 2 = 0 ∧ ∀ c ∈ s, HexDigit c := by
  unfold isHex
  by_cases h : s.length % 2 = 0
  · rw [if_neg (by simpa using h)]
    simp only [List.all_eq_true, isHexCharacter_iff, h, true_and]
  · rw [if_pos h]; simp [h]

/-- **C36**: a string is a valid transaction hash exactly when, after an optional `0x`/`0X`, it consists of
64 hex digits. -/
theorem C36_isValidTxHash (s : List ℕ) :
    isValidTxHash s = true ↔ ∃ t, (s = t ∨ s = 48 :: 120 :: t ∨ s = 48 :: 88 :: t) ∧ t.length = 64 ∧
      ∀ c ∈ t, HexDigit c := by
  unfold isValidTxHash
  by_cases h0 : s = []
  · rw [if_pos h0]
    subst h0
    simp only [Bool.false_eq_true, false_iff]
    rintro ⟨t, ht, hl, -⟩
    rcases ht with h | h | h
    · subst h; simp at hl
    · cases h
    · cases h
  rw [if_neg h0]
  simp only [Bool.and_eq_true, beq_iff_eq, isHex_iff]
  constructor
  · rintro ⟨h1, -, h2⟩
    refine ⟨_, ?_, h1, h2⟩
    split
    · next hp =>
      unfold has0xPrefix at hp
      split at hp
      · next a b r =>
        simp only [Bool.and_eq_true, beq_iff_eq, Bool.or_eq_true] at hp
        obtain ⟨rfl, rfl | rfl⟩ := hp
        · right; left; rfl
        · right; right; rfl
      · cases hp
    · left; rfl
  · rintro ⟨t, ht, hl, hd⟩
    rcases ht with rfl | rfl | rfl
    · rw [noPrefix hd]; exact ⟨hl, by simp [hl], hd⟩
    · exact ⟨hl, by simp [has0xPrefix, hl], hd⟩
    · exact ⟨hl, by simp [has0xPrefix, hl], hd⟩

/-- **C36**: for a valid transaction hash, `Hex2Hash` loses nothing: the hash bytes have the value of the
64 digits, and two valid strings with the same hash have the same digit values. -/
theorem C36_validTxHash_exact (t : List ℕ) (hl : t.length = 64) (h : ∀ c ∈ t, HexDigit c) :
    hex2Hash t = hex2Bytes t ∧ beVal (hex2Hash t) = hexNum t := by
  obtain ⟨⟨h1, h2, h3⟩, -⟩ := C36_value t h
  have e : hex2Hash t = hex2Bytes t := toFixed_self 32 _ (by rw [h1, hl])
  exact ⟨e, by rw [e, h3]⟩

/-- **C36**: list versions act element by element. -/
theorem C36_lists (l : List (List ℕ)) (i : ℕ) :
    (arrayHex2Hash l)[i]? = l[i]?.map hex2Hash ∧ (strings2Bytes l)[i]? = l[i]?.map hex2Bytes ∧
    (arrayBytes2Hex0x l)[i]? = l[i]?.map bytes2Hex0x := by
  simp [arrayHex2Hash, strings2Bytes, arrayBytes2Hex0x]

/-- Lower-case hex digit characters. -/
def LowerHex (c : ℕ) : Prop := (48 ≤ c ∧ c ≤ 57) ∨ (97 ≤ c ∧ c ≤ 102)

/-- **C36**: the text written for a byte string has two lower-case digits per byte and, read as one hexadecimal
number, the value of the byte string. -/
theorem C36_encoding (b : List ℕ) (h : Bytes b) :
    (bytes2Hex b).length = 2 * b.length ∧ (∀ c ∈ bytes2Hex b, LowerHex c) ∧ hexNum (bytes2Hex b) = beVal b ∧
    bytes2Hex0x b = [48, 120] ++ bytes2Hex b := by
  refine ⟨bytes2Hex_length b, ?_, ?_, rfl⟩
  · intro c hc
    unfold bytes2Hex at hc
    simp only [List.mem_flatMap, List.mem_cons, List.not_mem_nil, or_false] at hc
    obtain ⟨x, hx, hc⟩ := hc
    have hx := h x hx
    rcases hc with rfl | rfl <;> (unfold hexChar LowerHex; split <;> omega)
  · have h1 := (C36_value (bytes2Hex b) (bytes2Hex_digits b h)).1.2.2
    rw [(C36_roundtrip b h).1] at h1
    exact h1.symm

/-- **C36**: the address texts `Bytes2AddrHex(0x)` and `FormatAddrHex` have 40 lower-case digits and stand for the last
20 bytes of what they are given. -/
theorem C36_address_text (b s : List ℕ) (hb : Bytes b) (hs : ∀ c ∈ s, HexDigit c) :
    ((bytes2AddrHex b).length = 40 ∧ (∀ c ∈ bytes2AddrHex b, LowerHex c) ∧
      hexNum (bytes2AddrHex b) = beVal b % 256 ^ 20 ∧ bytes2AddrHex0x b = [48, 120] ++ bytes2AddrHex b) ∧
    ((formatAddrHex s).length = 40 ∧ (∀ c ∈ formatAddrHex s, LowerHex c) ∧
      hexNum (formatAddrHex s) = hexNum s % 256 ^ 20) := by
  obtain ⟨⟨h1, h2, h3⟩, -⟩ := C36_fixed_width s hs
  have hb2 : Bytes (bytes2Addr b) := toFixed_bytes _ _ hb
  obtain ⟨a1, a2, a3, -⟩ := C36_encoding (bytes2Addr b) hb2
  obtain ⟨f1, f2, f3, -⟩ := C36_encoding (hex2Addr s) h2
  refine ⟨⟨?_, a2, ?_, rfl⟩, ?_, f2, ?_⟩
  · exact a1.trans (by rw [show (bytes2Addr b).length = 20 from toFixed_length _ _])
  · exact a3.trans (toFixed_val _ _ hb)
  · exact f1.trans (by rw [h1])
  · exact f3.trans h3

/-- **C36**: `Reverse` never panics, reverses, and is an involution. -/
theorem C36_reverse {α : Type*} (s : List α) : reverse s = some s.reverse ∧ (reverse s >>= reverse) = some s := by
  have e : ∀ s : List α, reverse s = some s.reverse := fun s => Slices.flip_eq s
  exact ⟨e s, by rw [e]; simp [e]⟩

/-- Concrete cases ("0xAb1" is padded to 0x0ab1; "0x12zz34" is cut after 0x12). -/
example : hex2Bytes [48, 120, 65, 98, 49] = [0x0a, 0xb1] := by decide
example : hex2Bytes [48, 120, 49, 50, 122, 122, 51, 52] = [0x12] := by decide
example : bytes2AddrHex0x [0xAB] = [48, 120] ++ List.replicate 38 48 ++ [97, 98] := by decide
example : arrayBytes2Hex0x [[0xAB], []] = [[48, 120, 97, 98], [48, 120]] := by decide
example : Bytes [0, 255, 16] ∧ bytes2Hex [0, 255, 16] = [48, 48, 102, 102, 49, 48] := by
  refine ⟨?_, by decide⟩
  intro x hx; simp at hx; omega

end Verif.Hex
