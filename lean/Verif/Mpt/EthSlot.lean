import Verif.Mpt.EthModel
import Verif.Mpt.EthSpec
import Verif.Mpt.Nodes
import Verif.Rlp.Props
import Verif.Mpt.Read

/-! # Property theorems C71 (first part): the slot value decoded by `CheckEthStorageProof` -/

set_option linter.unusedSectionVars false
set_option linter.unusedVariables false

namespace Verif.Mpt
open Api Rlp Keccak Spec.Keccak Spec.Rlp Spec.Mpt
variable {p : ℕ} [Fact p.Prime]

theorem beValue_cons (b : ℕ) (bs : List ℕ) : Spec.Eth.beValue (b :: bs) = 256 ^ bs.length * b + Spec.Eth.beValue bs := by
  unfold Spec.Eth.beValue
  rw [List.reverse_cons, Nat.ofDigits_append, List.length_reverse]
  simp [Nat.ofDigits]
  ring

theorem beValue_lt {bs : List ℕ} (h : ∀ b ∈ bs, b < 256) : Spec.Eth.beValue bs < 256 ^ bs.length := by
  unfold Spec.Eth.beValue
  have := Nat.ofDigits_lt_base_pow_length (b := 256) (l := bs.reverse) (by norm_num) (fun x hx => h x (List.mem_reverse.1 hx))
  rwa [List.length_reverse] at this

theorem beField_acc (l : List (F p)) (a : F p) :
    l.foldl (fun a x => 16 * a + x) a = 16 ^ l.length * a + Spec.beField l := by
  unfold Spec.beField
  induction l generalizing a with
  | nil => simp
  | cons x t ih =>
    rw [List.foldl_cons, List.foldl_cons, ih, ih (16 * 0 + x), List.length_cons]
    ring

theorem beField_nib (bs : List ℕ) :
    Spec.beField ((nibblesOf bs).map (Nat.cast : ℕ → F p)) = ((Spec.Eth.beValue bs : ℕ) : F p) := by
  induction bs with
  | nil => simp [Spec.beField, Spec.Eth.beValue, nibblesOf]
  | cons b bs ih =>
    rw [nibblesOf_cons, List.map_append]
    show List.foldl (fun a x => 16 * a + x) 0 _ = _
    rw [List.foldl_append, beField_acc, ih, beValue_cons, List.length_map, nibblesOf_length]
    have : ((b : ℕ) : F p) = 16 * ((b / 16 : ℕ) : F p) + ((b % 16 : ℕ) : F p) := by
      have := Nat.div_add_mod b 16
      exact_mod_cast congrArg (Nat.cast : ℕ → F p) this.symm
    simp only [List.map_cons, List.map_nil, List.foldl_cons, List.foldl_nil]
    push_cast
    rw [this, pow_mul]
    norm_num

/-- The slot value of a buffer whose first byte is `a b` (two nibbles). -/
theorem slot_run (hp : 2 ^ 128 < p) {value : List (F p)} (hl : value.length = 66) {n : ℕ} (hb : n < 0xb8) (hn : fpHexLen n ≤ 64)
    (h0 : value[0]? = some ((n / 16 : ℕ) : F p)) (h1 : value[1]? = some ((n % 16 : ℕ) : F p)) :
    ∃ lo hi, hex64To2Fr (value.rotate (if n < 0x80 then 0 else 2)) ((fpHexLen n : ℕ) : F p) = some (lo, hi) ∧
      slotValueOf value = some (if fpHexLen n = 0 then Spec.beField ((value.rotate (if n < 0x80 then 0 else 2)).take 2) else lo,
        if fpHexLen n = 0 then 0 else hi) := by
  obtain ⟨lo, hi, e, -⟩ := C10_hex64To2Fr (value.rotate (if n < 0x80 then 0 else 2)) (fpHexLen n) (by omega)
    (by rw [List.length_rotate, hl]; norm_num) hn (by
      unfold fpHexLen
      split_ifs <;> omega)
  refine ⟨lo, hi, e, ?_⟩
  have hsh : (((if n < 0x80 then 0 else 2 : ℕ)) : F p).val = if n < 0x80 then 0 else 2 := val_natCast_lt (by split <;> omega)
  have hlpm : (logCeil (66 / 8) + 1) * 2 = 10 ∨ (logCeil (66 / 8) + 1) * 2 = 8 := by decide
  have hs : shiftLeft 66 0 ((logCeil (66 / 8) + 1) * 2) value (((if n < 0x80 then 0 else 2 : ℕ)) : F p) =
      some (value.rotate (if n < 0x80 then 0 else 2)) := by
    rw [C03_shiftLeft_rotates _ _ _ _ _ (by omega) (by omega) (by omega) (by
      have : ((logCeil (66 / 8) + 1) * 2 - 0).size ≤ 4 := by decide
      have := Nat.pow_le_pow_right (n := 2) (by omega) this
      omega), hsh, if_pos, List.take_of_length_le (by omega)]
    refine ⟨by omega, ?_⟩
    have : 4 ≤ ((logCeil (66 / 8) + 1) * 2 - 0).size := by decide
    have := Nat.pow_le_pow_right (n := 2) (by omega) this
    split <;> omega
  have hd := C10_hexToDecimal (value.rotate (if n < 0x80 then 0 else 2)) 2 2 (by omega) (by omega)
    (by rw [List.length_rotate]; omega) (by omega)
  unfold slotValueOf
  rw [h0, h1]
  simp only [Option.bind_eq_bind, Option.bind_some]
  have hfp := rlpFieldPrefix_eq (p := p) (by omega) (n / 16) (n % 16) (by omega) (by omega)
  rw [Nat.div_add_mod] at hfp
  have hll : lenOfLen n = 0 := by unfold lenOfLen; rw [if_pos hb]
  rw [hll, if_neg (lt_irrefl 0)] at hfp
  rw [hfp]
  simp only
  have hshift : (2 : F p) + 0 * ((fpHexLen n : ℕ) : F p) - (if n < 0x80 then (1 : F p) else 0) * (2 + 0 * ((fpHexLen n : ℕ) : F p)) =
      (((if n < 0x80 then 0 else 2 : ℕ)) : F p) := by
    split <;> simp
  rw [hshift, hs]
  simp only [Option.bind_some]
  rw [e]
  simp only [Option.bind_some]
  rw [show ((2 : ℕ) : F p) = 2 by norm_num] at hd
  rw [hd]
  simp only [Option.bind_some]
  have hz : isZero ((fpHexLen n : ℕ) : F p) = if fpHexLen n = 0 then 1 else 0 := by
    unfold isZero
    have : (((fpHexLen n : ℕ) : F p) = 0) ↔ fpHexLen n = 0 := by
      have := natCast_inj_of_lt (p := p) (a := fpHexLen n) (b := 0) (by omega) (by omega)
      simpa using this
    simp only [this]
  rw [hz, select_ite, select_ite]
  rfl

theorem rotate_take_drop {α : Type*} {l : List α} {k n : ℕ} (h : k + n ≤ l.length) :
    (l.rotate k).take n = (l.drop k).take n := by
  rw [List.rotate_eq_drop_append_take (by omega), List.take_append_of_le_length (by rw [List.length_drop]; omega)]

/-- **C71.** The decoded slot value: on a buffer that starts with the RLP encoding of a non-empty byte string of at most 32
bytes, the two reported field elements are the low 248 bits and the top byte of its big-endian value. The cells after
the encoding do not matter. -/
theorem C71_slot_value (hp : 2 ^ 128 < p) (val : List ℕ) (hne : val ≠ []) (h32 : val.length ≤ 32) (hb : ∀ b ∈ val, b < 256)
    (value : List (F p)) (hl : value.length = 66)
    (hv : value.take (2 * (encodeString val).length) = (nibblesOf (encodeString val)).map Nat.cast) :
    slotValueOf value = some (((Spec.Eth.beValue val % 2 ^ 248 : ℕ) : F p), ((Spec.Eth.beValue val / 2 ^ 248 : ℕ) : F p)) := by
  rw [← nibblesOf_length] at hv
  have hcell : ∀ j < (nibblesOf (encodeString val)).length, value[j]? = some (((nibblesOf (encodeString val)).getD j 0 : ℕ) : F p) := by
    intro j hj
    have := congrArg (fun l => l[j]?) hv
    simp only [List.getElem?_take, if_pos hj, List.getElem?_map] at this
    rw [this, List.getElem?_eq_getElem hj, List.getD_eq_getElem _ _ hj]
    rfl
  have h248 : (256 : ℕ) ^ 31 = 2 ^ 248 := by norm_num
  have hlt := beValue_lt hb
  have hpos := List.length_pos_iff.2 hne
  by_cases hs : val.length = 1 ∧ val.headD 0 < 0x80
  · obtain ⟨b, rfl⟩ := List.length_eq_one_iff.1 hs.1
    have hb80 : b < 0x80 := hs.2
    have henc : encodeString [b] = [b] := by unfold encodeString; rw [if_pos hs]
    rw [henc] at hv hcell
    have h0 := hcell 0 (by simp [nibblesOf])
    have h1 := hcell 1 (by simp [nibblesOf])
    have hf0 : fpHexLen b = 0 := by unfold fpHexLen; rw [if_pos hb80]
    obtain ⟨lo, hi, -, e⟩ := slot_run hp hl (n := b) (by omega) (by omega) h0 h1
    rw [e, if_pos hf0, if_pos hf0, if_pos hb80, List.rotate_zero]
    have h2 : (nibblesOf [b]).length = 2 := by simp [nibblesOf]
    rw [h2] at hv
    have hbv : Spec.Eth.beValue [b] = b := by simp [Spec.Eth.beValue]
    rw [hv, beField_nib, hbv, Nat.mod_eq_of_lt (by omega), Nat.div_eq_of_lt (by omega), Nat.cast_zero]
  · have henc : encodeString val = (0x80 + val.length) :: val := by
      unfold encodeString lenHeader
      rw [if_neg hs, if_pos (by omega)]; rfl
    rw [henc] at hv hcell
    rw [nibblesOf_length, List.length_cons] at hcell hv
    have h0 := hcell 0 (by omega)
    have h1 := hcell 1 (by omega)
    rw [nibblesOf_cons] at h0 h1
    have hf : fpHexLen (0x80 + val.length) = 2 * val.length := by
      unfold fpHexLen; rw [if_neg (by omega), if_pos (by omega)]; omega
    obtain ⟨lo, hi, e1, e⟩ := slot_run hp hl (n := 0x80 + val.length) (by omega) (by omega) h0 h1
    rw [hf] at e1 e
    rw [if_neg (by omega)] at e1 e
    have hvz : ¬ 2 * val.length = 0 := by omega
    simp only [if_neg hvz] at e
    obtain ⟨lo', hi', g1, g2, g3, g4⟩ := C10_hex64To2Fr (value.rotate 2) (2 * val.length) (by omega)
      (by rw [List.length_rotate, hl]; norm_num) (by omega) (by omega)
    rw [g1] at e1
    obtain ⟨rfl, rfl⟩ := Prod.mk.inj (Option.some.inj e1)
    have hdv : (value.drop 2).take (2 * val.length) = (nibblesOf val).map Nat.cast := by
      have := congrArg (List.drop 2) hv
      rw [List.drop_take, nibblesOf_cons, List.map_append] at this
      rw [show 2 * val.length = 2 * (val.length + 1) - 2 by omega, this]
      rfl
    rw [rotate_take_drop (by omega), hdv, beField_nib] at g2
    rw [e]
    rcases Nat.lt_or_ge val.length 32 with h | h
    · have hh := g3 (by omega)
      rw [hh, mul_zero, add_zero] at g2
      have hlt2 : Spec.Eth.beValue val < 2 ^ 248 := by
        rw [← h248]
        exact lt_of_lt_of_le hlt (Nat.pow_le_pow_right (by norm_num) (by omega))
      rw [g2, hh, Nat.mod_eq_of_lt hlt2, Nat.div_eq_of_lt hlt2, Nat.cast_zero]
    · have hlen : val.length = 32 := by omega
      obtain ⟨b, t, rfl⟩ : ∃ b t, val = b :: t := by
        cases val with
        | nil => simp at hpos
        | cons b t => exact ⟨b, t, rfl⟩
      have hh := g4 (by omega)
      have ht2 : (value.drop 2).take 2 = ([b / 16, b % 16] : List ℕ).map (Nat.cast : ℕ → F p) := by
        have := congrArg (List.take 2) hdv
        rw [List.take_take, Nat.min_eq_left (by omega), nibblesOf_cons, List.map_append] at this
        rw [this]; rfl
      rw [rotate_take_drop (by omega), ht2, show ([b / 16, b % 16] : List ℕ) = nibblesOf [b] from rfl, beField_nib] at hh
      have hbv : Spec.Eth.beValue [b] = b := by simp [Spec.Eth.beValue]
      rw [hbv] at hh
      have htl : t.length = 31 := by simp at hlen; exact hlen
      have htv := beValue_lt (bs := t) (fun x hx => hb x (List.mem_cons_of_mem _ hx))
      rw [htl, h248] at htv
      have hc := beValue_cons b t
      rw [htl, h248] at hc
      have hdiv : Spec.Eth.beValue (b :: t) / 2 ^ 248 = b := by
        rw [hc, Nat.mul_add_div (by norm_num), Nat.div_eq_of_lt htv, add_zero]
      have hmod : Spec.Eth.beValue (b :: t) % 2 ^ 248 = Spec.Eth.beValue t := by
        rw [hc, Nat.mul_add_mod, Nat.mod_eq_of_lt htv]
      rw [hdiv, hmod, hh]
      rw [hc, hh] at g2
      push_cast at g2
      rw [show lo' = ((Spec.Eth.beValue t : ℕ) : F p) by linear_combination g2]

/-- **C71.** On the marker of an absent slot (`80` followed by zeros) the reported value is 0. -/
theorem C71_slot_zero (hp : 2 ^ 128 < p) (value : List (F p)) (hl : value.length = 66) (hz : ZeroValue value) :
    slotValueOf value = some (0, 0) := by
  obtain ⟨z1, z2⟩ := hz
  have h0 : value[0]? = some ((0x80 / 16 : ℕ) : F p) := by
    have := congrArg (fun l => l[0]?) z1
    simp only [List.getElem?_take] at this
    rw [if_pos (by omega)] at this
    rw [this]; norm_num
  have h1 : value[1]? = some ((0x80 % 16 : ℕ) : F p) := by
    have := congrArg (fun l => l[1]?) z1
    simp only [List.getElem?_take] at this
    rw [if_pos (by omega)] at this
    rw [this]; norm_num
  obtain ⟨lo, hi, -, e⟩ := slot_run hp hl (n := 0x80) (by omega) (by decide) h0 h1
  have hf : fpHexLen 0x80 = 0 := by decide
  rw [e, if_pos hf, if_pos hf, if_neg (by omega), rotate_take_drop (by omega)]
  have : (value.drop 2).take 2 = [0, 0] := by
    have := congrArg (List.take 2) z2
    rw [List.take_take] at this
    exact this
  rw [this]
  simp [Spec.beField]

/-- **C71 (negation).** Cells after the one-byte encoding `80` are not ignored: the reported value is then the next byte of
the buffer, which no check covers. -/
theorem C71_slot_empty_unchecked (hp : 2 ^ 128 < p) (value : List (F p)) (hl : value.length = 66) (b : ℕ) (hb : b < 256)
    (hv : value.take 4 = [8, 0, ((b / 16 : ℕ) : F p), ((b % 16 : ℕ) : F p)]) :
    slotValueOf value = some (((b : ℕ) : F p), 0) := by
  have g : ∀ j, j < 4 → value[j]? = ([8, 0, ((b / 16 : ℕ) : F p), ((b % 16 : ℕ) : F p)] : List (F p))[j]? := by
    intro j hj
    have := congrArg (fun l => l[j]?) hv
    simp only [List.getElem?_take, if_pos hj] at this
    exact this
  obtain ⟨lo, hi, -, e⟩ := slot_run hp hl (n := 0x80) (by omega) (by decide) (by rw [g 0 (by omega)]; norm_num)
    (by rw [g 1 (by omega)]; norm_num)
  have hf : fpHexLen 0x80 = 0 := by decide
  rw [e, if_pos hf, if_pos hf, if_neg (by omega), rotate_take_drop (by omega)]
  have : (value.drop 2).take 2 = (nibblesOf [b]).map Nat.cast := by
    have := congrArg (List.drop 2) hv
    rw [List.drop_take] at this
    exact this
  rw [this, beField_nib]
  simp [Spec.Eth.beValue]

example (hp : 2 ^ 128 < p) : ∃ value : List (F p), value.length = 66 ∧
    slotValueOf value = some (((0x0203 : ℕ) : F p), 0) := by
  refine ⟨(nibblesOf (encodeString [2, 3]) ++ List.replicate 60 9).map Nat.cast, by simp [nibblesOf, encodeString, lenHeader], ?_⟩
  have h := C71_slot_value hp [2, 3] (by simp) (by simp) (by simp)
    ((nibblesOf (encodeString [2, 3]) ++ List.replicate 60 9).map Nat.cast) (by simp [nibblesOf, encodeString, lenHeader])
    (by rw [List.map_append, ← nibblesOf_length, List.take_left' (by simp)])
  rw [h]
  have : Spec.Eth.beValue [2, 3] = 0x0203 := by decide
  rw [this, Nat.mod_eq_of_lt (by norm_num), Nat.div_eq_of_lt (by norm_num), Nat.cast_zero]

end Verif.Mpt
