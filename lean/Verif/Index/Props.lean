import Verif.Index.Model
import Verif.Bits
import Verif.MuxProps
import Verif.Rlp.Spec
import Mathlib.Tactic.NormNum.Prime

/-! # C40: the transaction index gadget computes the RLP encoding of the index -/

namespace Verif.Index
open Api

/-- Specification: the RLP nibbles of an integer (RLP of its minimal big-endian bytes, so 0 is `0x80`),
padded with zeros on the right to seven nibbles. -/
def rlpNibbles7 (n : ℕ) : List ℕ :=
  let e := Spec.Rlp.nibblesOf (Spec.Rlp.encodeString (Spec.Rlp.lenBytes n))
  e ++ List.replicate (7 - e.length) 0

theorem lenBytes_small {n : ℕ} (h0 : n ≠ 0) (h : n < 256) : Spec.Rlp.lenBytes n = [n] := by
  simp [Spec.Rlp.lenBytes, Nat.digits_of_lt 256 n h0 h]

theorem lenBytes_two {n : ℕ} (h0 : 256 ≤ n) (h : n < 65536) :
    Spec.Rlp.lenBytes n = [n / 256, n % 256] := by
  unfold Spec.Rlp.lenBytes
  rw [Nat.digits_def' (by decide) (by omega), Nat.digits_of_lt 256 (n / 256) (by omega) (by omega)]
  rfl

theorem rlp7_zero : rlpNibbles7 0 = [8, 0, 0, 0, 0, 0, 0] := by
  simp [rlpNibbles7, Spec.Rlp.lenBytes, Spec.Rlp.encodeString, Spec.Rlp.lenHeader, Spec.Rlp.nibblesOf]

theorem rlp7_lt7 {n : ℕ} (h0 : n ≠ 0) (h : n < 128) : rlpNibbles7 n = [n / 16, n % 16, 0, 0, 0, 0, 0] := by
  simp [rlpNibbles7, lenBytes_small h0 (by omega), Spec.Rlp.encodeString, Spec.Rlp.nibblesOf, h]

theorem rlp7_lt8 {n : ℕ} (h0 : 128 ≤ n) (h : n < 256) :
    rlpNibbles7 n = [8, 1, n / 16, n % 16, 0, 0, 0] := by
  simp [rlpNibbles7, lenBytes_small (by omega : n ≠ 0) h, Spec.Rlp.encodeString, Spec.Rlp.nibblesOf,
    Spec.Rlp.lenHeader, Nat.not_lt.2 h0]

theorem rlp7_lt16 {n : ℕ} (h0 : 256 ≤ n) (h : n < 65536) :
    rlpNibbles7 n = [8, 2, n / 256 / 16, n / 256 % 16, n % 256 / 16, n % 256 % 16, 0] := by
  simp [rlpNibbles7, lenBytes_two h0 h, Spec.Rlp.encodeString, Spec.Rlp.nibblesOf,
    Spec.Rlp.lenHeader]

variable {p : ℕ}

theorem bit_sum (x k : ℕ) : (x.testBit k).toNat = x / 2 ^ k % 2 := by
  rw [Nat.testBit_eq_decide_div_mod_eq]
  rcases Nat.mod_two_eq_zero_or_one (x / 2 ^ k) with h | h <;> simp [h]

section
variable [Fact (1 < p)]

theorem bit_cast {x : ℕ} (hx : x < p) (k : ℕ) : bit (x : F p) k = ((x / 2 ^ k % 2 : ℕ) : F p) := by
  rw [← bit_sum]
  unfold bit
  rw [ZMod.val_natCast_of_lt hx]
  cases x.testBit k <;> simp

theorem byteNibbles_bits {x : ℕ} (hx : x < p) (k : ℕ) (hs : k + 8 ≤ p.size) :
    byteNibbles ((toBinaryFull (x : F p)).drop k) =
      some (((x / 2 ^ k % 256 / 16 : ℕ) : F p), ((x / 2 ^ k % 16 : ℕ) : F p)) := by
  have hl : ∀ j, j < 8 → ((toBinaryFull (x : F p)).drop k)[j]? = some (bit (x : F p) (k + j)) := by
    intro j hj
    rw [List.getElem?_drop, toBinaryFull, List.getElem?_map, List.getElem?_range (by omega)]
    rfl
  obtain ⟨l, hL⟩ : ∃ l, l = (toBinaryFull (x : F p)).drop k := ⟨_, rfl⟩
  rw [← hL] at hl ⊢
  have hlen : 8 ≤ l.length := by rw [hL]; simp [toBinaryFull]; omega
  match l, hlen with
  | a0 :: a1 :: a2 :: a3 :: a4 :: a5 :: a6 :: a7 :: r, _ =>
    have e0 := hl 0 (by omega)
    have e1 := hl 1 (by omega)
    have e2 := hl 2 (by omega)
    have e3 := hl 3 (by omega)
    have e4 := hl 4 (by omega)
    have e5 := hl 5 (by omega)
    have e6 := hl 6 (by omega)
    have e7 := hl 7 (by omega)
    simp only [List.getElem?_cons_zero, List.getElem?_cons_succ, Option.some.injEq] at e0 e1 e2 e3 e4 e5 e6 e7
    subst e0 e1 e2 e3 e4 e5 e6 e7
    simp only [byteNibbles, sumNibble, List.drop_succ_cons, List.drop_zero, List.take_succ_cons,
      List.take_zero, Option.bind_eq_bind, Option.bind_some, Option.pure_def, Option.some.injEq,
      Prod.mk.injEq, bit_cast hx]
    have hd : ∀ j, x / 2 ^ (k + j) = x / 2 ^ k / 2 ^ j := fun j => by rw [pow_add, Nat.div_div_eq_div_mul]
    simp only [hd]
    generalize x / 2 ^ k = y
    constructor
    · rw [show (y % 256 / 16 : ℕ) = y / 2 ^ 4 % 2 * 1 + y / 2 ^ 5 % 2 * 2 + y / 2 ^ 6 % 2 * 4 + y / 2 ^ 7 % 2 * 8 by omega]
      push_cast; ring
    · rw [show (y % 16 : ℕ) = y / 2 ^ 0 % 2 * 1 + y / 2 ^ 1 % 2 * 2 + y / 2 ^ 2 % 2 * 4 + y / 2 ^ 3 % 2 * 8 by omega]
      push_cast; ring

end

theorem size_ge (hp : 65536 < p) : 17 ≤ p.size := Nat.lt_size.2 (by omega)

/-- **C40**: for every index, `CalTxOrReceiptIndexRlp` is satisfiable iff the index is below 65536, and
then its seven outputs are the RLP nibbles of the index, zero padded on the right. -/
theorem C40_index_rlp [Fact p.Prime] (hp : 65536 < p) (n : ℕ) (hn : n < p) :
    calTxOrReceiptIndexRlp (n : F p) =
      if n < 65536 then some ((rlpNibbles7 n).map (fun d : ℕ => (d : F p))) else none := by
  haveI : Fact (1 < p) := ⟨by omega⟩
  haveI : NeZero p := ⟨by omega⟩
  have hv : ∀ k : ℕ, k ≤ 65536 → (k : F p).val = k := fun k hk => ZMod.val_natCast_of_lt (by omega)
  have hvn : (n : F p).val = n := ZMod.val_natCast_of_lt hn
  have hsz := size_ge hp
  have h10 : (1 : F p) ≠ 0 := one_ne_zero'
  have v128 : (128 : F p).val = 128 := by exact_mod_cast hv 128 (by omega)
  have v256 : (256 : F p).val = 256 := by exact_mod_cast hv 256 (by omega)
  have v65536 : (65536 : F p).val = 65536 := by exact_mod_cast hv 65536 (by omega)
  have v65535 : (65535 : F p).val = 65535 := by exact_mod_cast hv 65535 (by omega)
  have v1 : (1 : F p).val = 1 := by exact_mod_cast hv 1 (by omega)
  by_cases hlt : n < 65536
  swap
  · rw [if_neg hlt]
    unfold calTxOrReceiptIndexRlp
    simp only [assertLe, hvn, v65535, if_neg (show ¬ n ≤ 65535 by omega)]
    rfl
  rw [if_pos hlt]
  have e0 := byteNibbles_bits (p := p) (x := 0x80) (by omega) 0 (by omega)
  have e1 := byteNibbles_bits (p := p) (x := 0x81) (by omega) 0 (by omega)
  have e2 := byteNibbles_bits (p := p) (x := 0x82) (by omega) 0 (by omega)
  have e3 := byteNibbles_bits (p := p) hn 0 (by omega)
  have e4 := byteNibbles_bits (p := p) hn 8 (by omega)
  simp only [List.drop_zero, pow_zero, Nat.div_one] at e0 e1 e2 e3
  norm_num at e0 e1 e2
  have hz : isZero (n : F p) = if n = 0 then 1 else 0 := by
    unfold isZero
    have : ((n : F p) = 0) ↔ n = 0 := by
      have := natCast_inj_of_lt (p := p) (a := n) (b := 0) hn (by omega)
      simpa using this
    simp only [this]
  have hisz : ∀ m : ℕ, m < 65536 → isZero (m : F p) = if m = 0 then 1 else 0 := by
    intro m hm
    unfold isZero
    have : ((m : F p) = 0) ↔ m = 0 := by
      have := natCast_inj_of_lt (p := p) (a := m) (b := 0) (by omega) (by omega)
      simpa using this
    simp only [this]
  unfold calTxOrReceiptIndexRlp
  simp only [assertLe, hvn, v65535, if_pos (show n ≤ 65535 by omega), lessThan_eq (show 2 < p by omega),
    v128, v256, v65536, e0, e1, e2, e3, e4, Option.bind_eq_bind, Option.bind_some, hz,
    if_pos hlt]
  have hN : n / 2 ^ 8 % 256 = n / 256 := by omega
  rw [hisz _ (by omega), hisz _ (by omega)]
  have hex : (if (1 : F p).val < (((if n / 2 ^ 8 % 256 / 16 = 0 then 1 else 0) +
      (if n / 2 ^ 8 % 16 = 0 then 1 else 0) : F p)).val then (1 : F p) else 0) = if n < 256 then 1 else 0 := by
    have v0 : (0 : F p).val = 0 := ZMod.val_zero
    have v2 : (1 + 1 : F p).val = 2 := by
      have := hv 2 (by omega)
      rw [← this]; congr 1; norm_num
    by_cases h1 : n / 2 ^ 8 % 256 / 16 = 0 <;> by_cases h2 : n / 2 ^ 8 % 16 = 0
    · rw [if_pos h1, if_pos h2, if_pos (show n < 256 by omega), v1, v2]; rfl
    · rw [if_pos h1, if_neg h2, if_neg (show ¬ n < 256 by omega), add_zero, v1]; rfl
    · rw [if_neg h1, if_pos h2, if_neg (show ¬ n < 256 by omega), zero_add, v1]; rfl
    · rw [if_neg h1, if_neg h2, if_neg (show ¬ n < 256 by omega), add_zero, v1, v0]; rfl
  rw [hex]
  have z0 : isZero (0 : F p) = 1 := if_pos rfl
  have z1 : isZero (1 : F p) = 0 := if_neg h10
  have s0 : ∀ x y : F p, select 0 x y = some y := fun x y => by simp [select]
  have s1 : ∀ x y : F p, select 1 x y = some x := fun x y => by simp [select]
  by_cases c0 : n = 0
  · subst c0
    rw [rlp7_zero]
    simp [z0, z1, s0]
  by_cases c1 : n < 128
  · rw [rlp7_lt7 c0 c1]
    simp only [if_neg c0, if_pos c1, if_pos (show n < 256 by omega), z0, z1, s0, s1, sub_zero, sub_self,
      Option.bind_some, mul_zero, mul_one, zero_add, Option.pure_def, List.map_cons, List.map_nil,
      Nat.cast_zero, Nat.mod_eq_of_lt (show n < 256 by omega)]
  by_cases c2 : n < 256
  · rw [rlp7_lt8 (by omega) c2]
    simp only [if_neg c0, if_neg c1, if_pos c2, z0, z1, s0, s1, sub_zero, sub_self,
      Option.bind_some, mul_zero, mul_one, zero_add, add_zero, Option.pure_def, List.map_cons, List.map_nil,
      Nat.cast_zero, Nat.mod_eq_of_lt c2]
    rw [show n / 2 ^ 8 % 256 / 16 = 0 by omega, show n / 2 ^ 8 % 16 = 0 by omega]
    norm_num
  · rw [rlp7_lt16 (by omega) hlt]
    simp only [if_neg c0, if_neg c1, if_neg c2, z0, z1, s0, s1, sub_zero, sub_self,
      Option.bind_some, mul_zero, mul_one, zero_add, add_zero, Option.pure_def, List.map_cons, List.map_nil,
      Nat.cast_zero]
    rw [show n / 2 ^ 8 % 256 / 16 = n / 256 / 16 by omega, show n / 2 ^ 8 % 16 = n / 256 % 16 by omega,
      show n % 16 = n % 256 % 16 by omega]
    norm_num

theorem forM_assertEq (r s : ℕ → F p) (l : List ℕ) :
    (l.forM fun i => assertEq (r i) (s i)) = some () ↔ ∀ i ∈ l, r i = s i := by
  induction l with
  | nil => simp
  | cons a l ih =>
    rw [show ((a :: l).forM fun i => assertEq (r i) (s i)) =
      (assertEq (r a) (s a)).bind fun _ => l.forM fun i => assertEq (r i) (s i) from rfl]
    simp only [List.mem_cons, forall_eq_or_imp]
    by_cases h : r a = s a
    · rw [show assertEq (r a) (s a) = some () from if_pos h, Option.bind_some, ih]; simp [h]
    · rw [show assertEq (r a) (s a) = none from if_neg h]; simp [h]

/-- The encodings of indices below 65536 never exceed six nibbles, so the seventh is always padding. -/
theorem rlpNibbles7_length {n : ℕ} (h : n < 65536) : (rlpNibbles7 n).length = 7 := by
  by_cases c0 : n = 0
  · subst c0; rw [rlp7_zero]; rfl
  by_cases c1 : n < 128
  · rw [rlp7_lt7 c0 c1]; rfl
  by_cases c2 : n < 256
  · rw [rlp7_lt8 (by omega) c2]; rfl
  · rw [rlp7_lt16 (by omega) h]; rfl

/-- **C40**: the circuit `IndexCheckCircuit` is satisfied by exactly the correct padded RLP string. -/
theorem C40_index_check [Fact p.Prime] (hp : 65536 < p) (n : ℕ) (hn : n < p) (s : List (F p)) (hs : s.length = 7) :
    indexCheck (n : F p) s = some () ↔ n < 65536 ∧ s = (rlpNibbles7 n).map (fun d : ℕ => (d : F p)) := by
  unfold indexCheck
  rw [C40_index_rlp hp n hn]
  by_cases h : n < 65536
  · rw [if_pos h]
    simp only [Option.bind_eq_bind, Option.bind_some, h, true_and]
    rw [forM_assertEq (fun i => ((rlpNibbles7 n).map (fun d : ℕ => (d : F p))).getD i 0) (fun i => s.getD i 0)]
    constructor
    · intro hh
      apply List.ext_getElem
      · rw [hs, List.length_map, rlpNibbles7_length h]
      · intro i h1 h2
        have := hh i (List.mem_range.2 (by omega))
        rw [List.getD_eq_getElem _ _ h1, List.getD_eq_getElem _ _ h2] at this
        exact this.symm
    · rintro rfl i _
      rfl
  · rw [if_neg h]; simp [h]

/-- **C40**: different indices have different outputs: a prover cannot reuse the key of another index. -/
theorem C40_index_injective [Fact p.Prime] (hp : 65536 < p) (m n : ℕ) (hm : m < p) (hn : n < p) (r : List (F p))
    (h1 : calTxOrReceiptIndexRlp (m : F p) = some r) (h2 : calTxOrReceiptIndexRlp (n : F p) = some r) :
    m = n := by
  rw [C40_index_rlp hp _ ‹_›] at h1 h2
  split at h1 <;> [skip; cases h1]
  split at h2 <;> [skip; cases h2]
  rename_i lm ln
  simp only [Option.some.injEq] at h1 h2
  have key : rlpNibbles7 m = rlpNibbles7 n := by
    have e := h1.trans h2.symm
    have dig : ∀ k, k < 65536 → ∀ d ∈ rlpNibbles7 k, d < p := by
      intro k hk d hd
      by_cases c0 : k = 0
      · subst c0; rw [rlp7_zero] at hd; simp at hd; omega
      by_cases c1 : k < 128
      · rw [rlp7_lt7 c0 c1] at hd; simp at hd; omega
      by_cases c2 : k < 256
      · rw [rlp7_lt8 (by omega) c2] at hd; simp at hd; omega
      · rw [rlp7_lt16 (by omega) hk] at hd; simp at hd; omega
    apply List.ext_getElem (by rw [rlpNibbles7_length lm, rlpNibbles7_length ln])
    intro i a b
    have := congrArg (fun l => l[i]?) e
    simp only [List.getElem?_map, List.getElem?_eq_getElem a, List.getElem?_eq_getElem b, Option.map_some,
      Option.some.injEq] at this
    exact (natCast_inj_of_lt (dig m lm _ (List.getElem_mem a)) (dig n ln _ (List.getElem_mem b))).1 this
  have dec : ∀ k, k < 65536 → ∃ a b c d e f g, rlpNibbles7 k = [a, b, c, d, e, f, g] ∧
      k = if 16 * a + b < 128 then 16 * a + b else if 16 * a + b = 128 then 0
        else if 16 * a + b = 129 then 16 * c + d else 4096 * c + 256 * d + 16 * e + f := by
    intro k hk
    by_cases c0 : k = 0
    · subst c0; rw [rlp7_zero]; exact ⟨_, _, _, _, _, _, _, rfl, by norm_num⟩
    by_cases c1 : k < 128
    · rw [rlp7_lt7 c0 c1]; exact ⟨_, _, _, _, _, _, _, rfl, by rw [if_pos (by omega)]; omega⟩
    by_cases c2 : k < 256
    · rw [rlp7_lt8 (by omega) c2]; exact ⟨_, _, _, _, _, _, _, rfl, by norm_num; omega⟩
    · rw [rlp7_lt16 (by omega) hk]; exact ⟨_, _, _, _, _, _, _, rfl, by norm_num; omega⟩
  obtain ⟨a, b, c, d, e, f, g, ha, ha'⟩ := dec m lm
  obtain ⟨a', b', c', d', e', f', g', hb, hb'⟩ := dec n ln
  rw [key, hb] at ha
  simp only [List.cons.injEq, and_true] at ha
  obtain ⟨rfl, rfl, rfl, rfl, rfl, rfl, rfl⟩ := ha
  exact ha'.trans hb'.symm

/-- Non-vacuity: the specification on indices of each kind. -/
example : rlpNibbles7 0 = [8, 0, 0, 0, 0, 0, 0] ∧ rlpNibbles7 0x7f = [7, 15, 0, 0, 0, 0, 0] ∧
    rlpNibbles7 0x80 = [8, 1, 8, 0, 0, 0, 0] ∧ rlpNibbles7 0x0400 = [8, 2, 0, 4, 0, 0, 0] :=
  ⟨rlp7_zero, rlp7_lt7 (by decide) (by decide), rlp7_lt8 (by decide) (by decide),
    rlp7_lt16 (by decide) (by decide)⟩


/-- The hypotheses are met by the smallest admissible field. -/
example : calTxOrReceiptIndexRlp ((0x0400 : ℕ) : F 65537) = some [8, 2, 0, 4, 0, 0, 0] ∧
    calTxOrReceiptIndexRlp ((65536 : ℕ) : F 65537) = none := by
  haveI : Fact (Nat.Prime 65537) := ⟨by norm_num⟩
  refine ⟨?_, ?_⟩
  · rw [C40_index_rlp (by decide) _ (by decide), if_pos (by decide), rlp7_lt16 (by decide) (by decide)]
    norm_num
  · rw [C40_index_rlp (by decide) _ (by decide), if_neg (by decide)]

end Verif.Index
