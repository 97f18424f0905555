import Mathlib.Data.Nat.Digits.Defs
import Verif.Keccak.Pad
import Verif.Keccak.SpongeProps
import Verif.SlicesProps

/-! # C20, C21: Keccak padding -/

namespace Verif.Keccak
open Api Spec.Keccak
variable {p : ℕ}

theorem foldl_append_replicate {α : Type*} (n : ℕ) (d : List α) (x : α) :
    (List.range n).foldl (fun d _ => d ++ [x]) d = d ++ List.replicate n x := by
  induction n with
  | zero => simp
  | succ n ih => rw [List.range_succ, List.foldl_append, ih]; simp [List.replicate_succ']

theorem modify_last {α : Type*} (l : List α) (x : α) (f : α → α) :
    (l ++ [x]).modify ((l ++ [x]).length - 1) f = l ++ [f x] := by
  have : (l ++ [x]).length - 1 = l.length := by simp
  rw [this]
  clear this
  induction l with
  | nil => rfl
  | cons a l ih => simp [List.modify_succ_cons, ih]

theorem pad101Bytes_eq (data : List ℕ) :
    pad101Bytes data = data ++ if data.length % 136 = 135 then [0x81]
      else 1 :: (List.replicate (134 - data.length % 136) 0 ++ [0x80]) := by
  unfold pad101Bytes
  have hm : (if data.length % 136 = 0 then 136 else 136 - data.length % 136) =
      136 - data.length % 136 := by split <;> omega
  rw [hm]
  simp only [foldl_append_replicate]
  have hlt : data.length % 136 < 136 := Nat.mod_lt _ (by decide)
  generalize data.length % 136 = r at hlt
  by_cases h : r = 135
  · subst h
    simp only [Nat.reduceSub, List.replicate_zero, List.append_nil, if_true]
    rw [modify_last]
    rfl
  · rw [if_neg h]
    have : 136 - r - 1 = (134 - r) + 1 := by omega
    rw [this, List.replicate_succ']
    rw [show data ++ [1] ++ (List.replicate (134 - r) 0 ++ [0]) =
      (data ++ 1 :: List.replicate (134 - r) 0) ++ [0] by simp]
    rw [modify_last]
    simp

theorem bytesToBits_append (a b : List ℕ) : bytesToBits (a ++ b) = bytesToBits a ++ bytesToBits b := by
  simp [bytesToBits]

theorem bytesToBits_length (a : List ℕ) : (bytesToBits a).length = 8 * a.length := by
  induction a with
  | nil => rfl
  | cons x a ih =>
    rw [show x :: a = [x] ++ a from rfl, bytesToBits_append, List.length_append, ih]
    simp [bytesToBits]; omega

theorem bytesToBits_zeros (n : ℕ) : bytesToBits (List.replicate n 0) = List.replicate (8 * n) false := by
  induction n with
  | zero => rfl
  | succ n ih =>
    rw [List.replicate_succ, show (0 :: List.replicate n 0) = [0] ++ List.replicate n 0 from rfl,
      bytesToBits_append, ih, show 8 * (n + 1) = 8 + 8 * n by ring, List.replicate_add]
    rfl

/-- **C20.** `Pad101Bytes` is the Keccak `pad10*1` rule at rate 1088: the bits of the result are the padded
bits of the message. -/
theorem C20_pad101Bytes (data : List ℕ) :
    bytesToBits (pad101Bytes data) = pad (bytesToBits data) := by
  rw [pad101Bytes_eq, bytesToBits_append]
  unfold pad
  refine congrArg (bytesToBits data ++ ·) ?_
  rw [bytesToBits_length]
  by_cases h : data.length % 136 = 135
  · rw [if_pos h, show (1088 - (8 * data.length + 2) % 1088) % 1088 = 6 by omega]
    rfl
  · rw [if_neg h, show (1088 - (8 * data.length + 2) % 1088) % 1088 =
      7 + (8 * (134 - data.length % 136) + 7) by omega]
    rw [show (1 :: (List.replicate (134 - data.length % 136) 0 ++ [0x80]) : List ℕ) =
      [1] ++ (List.replicate (134 - data.length % 136) 0 ++ [0x80]) from rfl]
    rw [bytesToBits_append, bytesToBits_append, bytesToBits_zeros, List.replicate_add,
      List.replicate_add]
    simp only [List.append_assoc]
    rfl

/-- **C20.** Length: a positive multiple of 136, more than the message, by at most one block. -/
theorem C20_pad101Bytes_length (data : List ℕ) :
    (pad101Bytes data).length % 136 = 0 ∧ data.length < (pad101Bytes data).length ∧
      (pad101Bytes data).length ≤ data.length + 136 := by
  rw [pad101Bytes_eq]
  split <;> simp <;> omega

/-- **C20.** The message is a prefix of its padding, and padding is injective. -/
theorem C20_pad101Bytes_injective (a b : List ℕ) (h : pad101Bytes a = pad101Bytes b) : a = b := by
  have ha := C20_pad101Bytes_length a
  have hb := C20_pad101Bytes_length b
  rw [h] at ha
  have e : pad101Bytes a = pad101Bytes b := h
  rw [pad101Bytes_eq, pad101Bytes_eq] at e
  -- compare the last bytes and walk back over the zeros
  have key : ∀ (r s : ℕ), r < 136 → s < 136 → ∀ (a b : List ℕ),
      (a ++ if r = 135 then [0x81] else 1 :: (List.replicate (134 - r) 0 ++ [0x80])) =
      (b ++ if s = 135 then [0x81] else 1 :: (List.replicate (134 - s) 0 ++ [0x80])) → a = b := by
    intro r s hr hs a b e
    have e := congrArg List.reverse e
    simp only [List.reverse_append] at e
    by_cases h1 : r = 135 <;> by_cases h2 : s = 135
    · rw [if_pos h1, if_pos h2] at e; simpa using e
    · rw [if_pos h1, if_neg h2] at e; simp at e
    · rw [if_neg h1, if_pos h2] at e; simp at e
    · rw [if_neg h1, if_neg h2] at e
      simp only [List.reverse_cons, List.reverse_append, List.reverse_replicate, List.append_assoc,
        List.reverse_nil, List.nil_append, List.cons_append, List.cons.injEq, true_and] at e
      have walk : ∀ (m n : ℕ) (x y : List ℕ),
          List.replicate m 0 ++ 1 :: x = List.replicate n 0 ++ 1 :: y → x = y := by
        intro m
        induction m with
        | zero => intro n x y h; cases n <;> simp_all [List.replicate_succ]
        | succ m ih =>
          intro n x y h
          cases n with
          | zero => simp [List.replicate_succ] at h
          | succ n => simp [List.replicate_succ] at h; exact ih n x y h
      exact List.reverse_injective (walk _ _ _ _ e)
  exact key _ _ (Nat.mod_lt _ (by decide)) (Nat.mod_lt _ (by decide)) a b e

example : pad101Bytes (List.replicate 135 7) = List.replicate 135 7 ++ [0x81] := by
  rw [pad101Bytes_eq]; simp
example : pad101Bytes [7, 8] = [7, 8, 1] ++ List.replicate 132 0 ++ [0x80] := by
  rw [pad101Bytes_eq]; rfl

/-- **C20.** The round index computed from the padded bytes is the index of the last block. -/
theorem C20_roundIndex (data : List ℕ) :
    getKeccakRoundForPaddedBytes (pad101Bytes data) + 1 =
      ((pad (bytesToBits data)).length / 1088 : ℕ) ∧
    getKeccakRoundForPaddedBytes (pad101Bytes data) = (data.length / 136 : ℕ) := by
  rw [← C20_pad101Bytes, bytesToBits_length]
  have h := C20_pad101Bytes_length data
  unfold getKeccakRoundForPaddedBytes
  omega

theorem byte2Bits_eq (b : ℕ) : byte2Bits b = ((List.range 8).map b.testBit).map Bool.toNat := by
  unfold byte2Bits
  rw [List.map_map]
  apply List.map_congr_left
  intro i _
  simp only [Function.comp, Nat.testBit_eq_decide_div_mod_eq, Nat.and_one_is_mod,
    Nat.shiftRight_eq_div_pow]
  rcases Nat.mod_two_eq_zero_or_one (b / 2 ^ i) with h | h <;> simp [h]

/-- **C20.** `Bytes2BlockBits` of whole blocks lists the bits of every byte, least significant first. -/
theorem C20_bytes2BlockBits (bytes : List ℕ) :
    bytes2BlockBits bytes = if bytes.length % 136 = 0 then some ((bytesToBits bytes).map Bool.toNat)
      else none := by
  unfold bytes2BlockBits bytes2Bits
  have key : ∀ acc : List ℕ, bytes.foldl (fun bits b => bits ++ byte2Bits b) acc =
      acc ++ (bytesToBits bytes).map Bool.toNat := by
    induction bytes with
    | nil => simp [bytesToBits]
    | cons x l ih =>
      intro acc
      rw [List.foldl_cons, ih, byte2Bits_eq, show x :: l = [x] ++ l from rfl, bytesToBits_append]
      simp [bytesToBits]
  by_cases h : bytes.length % 136 = 0
  · rw [if_neg (by simpa using h), if_neg (by omega), if_pos h, key]; simp
  · rw [if_pos h, if_neg h]

/-- **C21 (disagreement).** `GetRoundIndex` is the index of the last block of the padding exactly when the
byte length is not 135 modulo 136; there it is one too large. -/
theorem C21_getRoundIndex_partial (data : List ℕ) :
    (getRoundIndex (8 * data.length) : ℤ) = getKeccakRoundForPaddedBytes (pad101Bytes data) ↔
      data.length % 136 ≠ 135 := by
  rw [(C20_roundIndex data).2]
  unfold getRoundIndex
  omega

theorem C21_getRoundIndex_135 (data : List ℕ) (h : data.length % 136 = 135) :
    (getRoundIndex (8 * data.length) : ℤ) =
      getKeccakRoundForPaddedBytes (pad101Bytes data) + 1 := by
  rw [(C20_roundIndex data).2]
  unfold getRoundIndex
  omega

/-- **C21.** `PadBits101` on `m` bits is the Keccak padding, zero-extended to `maxRound` blocks, whenever
at least 16 bits are missing in the last block. -/
theorem C21_padBits101_partial [Fact p.Prime] (m : List Bool) (R : ℕ) (h : m.length % 1088 ≤ 1072) :
    padBits101 (m.map (ofB (p := p))) R =
      (pad m ++ List.replicate (R * 1088 - (pad m).length) false).map ofB := by
  have e : m.map (ofB (p := p)) ++ [1, 0, 0, 0, 0, 0, 0, 0] ++
      List.replicate (1088 - (m.map (ofB (p := p))).length % 1088 - 8 * 2) 0 ++
      [0, 0, 0, 0, 0, 0, 0, 1] = (pad m).map ofB := by
    unfold pad
    rw [show (1088 - (m.length + 2) % 1088) % 1088 = 7 + ((1088 - m.length % 1088 - 16) + 7) by omega]
    rw [List.replicate_add, List.replicate_add]
    simp only [List.map_append, List.map_cons, List.map_replicate, List.length_map, List.append_assoc,
      List.map_nil, ofB_true, ofB_false]
    rfl
  unfold padBits101
  dsimp only
  rw [e]
  simp

/-- **C21 (disagreement).** When fewer than 16 bits are missing (every message of 135 bytes modulo 136),
`PadBits101` is not the Keccak padding, whatever zero bits follow. -/
theorem C21_padBits101_wrong [Fact p.Prime] (m : List Bool) (R k : ℕ) (h : 1072 < m.length % 1088) :
    padBits101 (m.map (ofB (p := p))) R ≠ (pad m ++ List.replicate k false).map ofB := by
  intro e
  unfold padBits101 at e
  simp only [List.length_map] at e
  rw [show 1088 - m.length % 1088 - 8 * 2 = 0 by omega] at e
  have h1 := congrArg (fun l => l[m.length + 15]?) e
  have hl : (List.map (ofB (p := p)) m ++ [1, 0, 0, 0, 0, 0, 0, 0] ++ List.replicate 0 0 ++
      [0, 0, 0, 0, 0, 0, 0, 1] ++ List.replicate (R * 1088 - (List.map (ofB (p := p)) m ++
        [1, 0, 0, 0, 0, 0, 0, 0] ++ List.replicate 0 0 ++ [0, 0, 0, 0, 0, 0, 0, 1]).length) 0)[m.length + 15]? =
      some 1 := by
    simp only [List.append_assoc]
    rw [List.getElem?_append_right (by simp)]
    simp
  rw [hl] at h1
  have hz : (1088 - (m.length + 2) % 1088) % 1088 ≠ 14 := by omega
  unfold pad at h1
  generalize (1088 - (m.length + 2) % 1088) % 1088 = z at hz h1
  rw [List.getElem?_map, List.append_assoc, List.getElem?_append_right (by omega),
    Nat.add_sub_cancel_left] at h1
  simp only [List.cons_append, List.getElem?_cons_succ, List.append_assoc, List.nil_append] at h1
  by_cases hz2 : 14 < z
  · rw [List.getElem?_append_left (by simpa using hz2)] at h1
    simp [hz2, (one_ne_zero' (p := p))] at h1
  · rw [List.getElem?_append_right (by simp; omega)] at h1
    rw [List.length_replicate, show 14 - z = (13 - z) + 1 by omega, List.getElem?_cons_succ,
      List.getElem?_replicate] at h1
    split at h1
    · simp [(one_ne_zero' (p := p))] at h1
    · cases h1

end Verif.Keccak
