import Verif.Common.Compose
import Verif.Common.HexProps
import Verif.Bits
import Mathlib.Tactic.Zify
import Mathlib.Algebra.BigOperators.Ring.Finset

/-! # C37: bit decomposition and recomposition (host side) -/

namespace Verif.Compose
open Api

theorem bn254R_size : bn254R.size = 254 := by
  apply le_antisymm
  · exact Nat.size_le.2 (by unfold bn254R; norm_num)
  · exact Nat.lt_size.2 (by unfold bn254R; norm_num)

theorem bn254R_gt : 2 ^ 253 < bn254R := by unfold bn254R; norm_num

/-- Bits as Go `uint`s. -/
def toU (l : List Bool) : List ℕ := l.map Bool.toNat

theorem toU_inj {a b : List Bool} (h : toU a = toU b) : a = b := by
  unfold toU at h
  exact List.map_injective_iff.2 (fun x y h => by cases x <;> cases y <;> simp_all) h

/-! ## decompose -/

theorem decompose_loop (w b : ℕ) (hb : b ≤ 64) (hw : b ≤ w) (n : ℕ) (data : ℤ) :
    (List.range n).foldl
      (fun (s : ℤ × List ℕ) _ =>
        let rem := s.1 % (2 ^ b : ℤ)
        (s.1 / (2 ^ b : ℤ), s.2 ++ [rem.toNat % 2 ^ 64 % 2 ^ w])) (data, []) =
    (data / 2 ^ (n * b), (List.range n).map fun i => (data / 2 ^ (i * b) % 2 ^ b).toNat) := by
  induction n with
  | zero => simp
  | succ n ih =>
    rw [List.range_succ, List.foldl_append, ih, List.map_append]
    simp only [List.foldl_cons, List.foldl_nil, List.map_cons, List.map_nil, Prod.mk.injEq]
    refine ⟨?_, ?_⟩
    · rw [Int.ediv_ediv_of_nonneg (by positivity), ← pow_add]
      congr 2; ring
    · congr 2
      have h1 : (data / 2 ^ (n * b) % 2 ^ b).toNat < 2 ^ b := by
        have := Int.emod_lt_of_pos (data / 2 ^ (n * b)) (show (0 : ℤ) < 2 ^ b by positivity)
        have h0 := Int.emod_nonneg (data / 2 ^ (n * b)) (show (2 ^ b : ℤ) ≠ 0 by positivity)
        zify
        rw [Int.toNat_of_nonneg h0]
        exact this
      rw [Nat.mod_eq_of_lt (lt_of_lt_of_le h1 (Nat.pow_le_pow_right (by decide) hb)),
        Nat.mod_eq_of_lt (lt_of_lt_of_le h1 (Nat.pow_le_pow_right (by decide) hw))]

/-- **C37**: `DecomposeBits` panics exactly when the magnitude does not fit, and otherwise returns the
little-endian bits of the value modulo `2^n` (for a negative value that is its two's complement). -/
theorem C37_decomposeBits (x : ℤ) (n : ℕ) :
    (decomposeBits x n = none ↔ 2 ^ n ≤ x.natAbs) ∧
    (x.natAbs < 2 ^ n → decomposeBits x n = some (toU ((List.range n).map (x % 2 ^ n).toNat.testBit))) := by
  unfold decomposeBits decompose
  have hs : n * 1 < x.natAbs.size ↔ 2 ^ n ≤ x.natAbs := by rw [mul_one, Nat.lt_size]
  constructor
  · rw [← hs]; split <;> simp_all
  · intro h
    rw [if_neg (by rw [hs]; omega), decompose_loop 64 1 (by omega) (by omega)]
    congr 1
    unfold toU
    rw [List.map_map]
    apply List.map_congr_left
    intro i hi
    have hi' := List.mem_range.1 hi
    simp only [mul_one, pow_one, Function.comp_apply]
    set y := (x % 2 ^ n).toNat with hy
    have hyx : (y : ℤ) = x % 2 ^ n := Int.toNat_of_nonneg (Int.emod_nonneg _ (by positivity))
    have e1 : x / 2 ^ i % 2 = (y : ℤ) / 2 ^ i % 2 := by
      have hx : x = 2 ^ n * (x / 2 ^ n) + y := by rw [hyx]; exact (Int.mul_ediv_add_emod x (2 ^ n)).symm
      have hn : (2 ^ n : ℤ) = 2 ^ i * (2 * 2 ^ (n - i - 1)) := by
        rw [← pow_succ', ← pow_add]; congr 1; omega
      conv_lhs => rw [hx, hn, mul_assoc, Int.add_comm, Int.add_mul_ediv_left _ _ (by positivity), mul_assoc,
        Int.add_mul_emod_self_left]
    rw [e1]
    have e2 : (y : ℤ) / 2 ^ i % 2 = ((y / 2 ^ i % 2 : ℕ) : ℤ) := by push_cast; rfl
    rw [e2, Int.toNat_natCast]
    rw [Nat.testBit_eq_decide_div_mod_eq]
    rcases Nat.mod_two_eq_zero_or_one (y / 2 ^ i) with h | h <;> simp [h]

theorem decomposeBits_nat (x n : ℕ) (h : x < 2 ^ n) :
    decomposeBits (x : ℤ) n = some (toU ((List.range n).map x.testBit)) := by
  rw [(C37_decomposeBits x n).2 (by simpa using h)]
  congr 2
  have : ((x : ℤ) % 2 ^ n).toNat = x := by
    have : (x : ℤ) % 2 ^ n = ((x % 2 ^ n : ℕ) : ℤ) := by push_cast; rfl
    rw [this, Int.toNat_natCast, Nat.mod_eq_of_lt h]
  rw [this]

/-! ## recompose -/

theorem toInt64_bit (b : Bool) : toInt64 b.toNat = b.toNat := by cases b <;> rfl

theorem recompose_general (d : List ℕ) (b : ℕ) (h : ∀ x ∈ d, x < 2 ^ 63) :
    recompose d b = ((∑ i ∈ Finset.range d.length, d.getD i 0 * 2 ^ (i * b) : ℕ) : ℤ) % bn254R := by
  unfold recompose
  have key : ∀ n ≤ d.length, (List.range n).foldl
      (fun r i => (r + toInt64 (d.getD i 0) * 2 ^ (i * b)) % (bn254R : ℤ)) 0 =
      ((∑ i ∈ Finset.range n, d.getD i 0 * 2 ^ (i * b) : ℕ) : ℤ) % bn254R := by
    intro n
    induction n with
    | zero => intro _; simp
    | succ n ih =>
      intro hn
      rw [List.range_succ, List.foldl_append, ih (by omega), Finset.sum_range_succ]
      simp only [List.foldl_cons, List.foldl_nil]
      have : toInt64 (d.getD n 0) = (d.getD n 0 : ℕ) := by
        unfold toInt64
        rw [if_pos]
        rw [List.getD_eq_getElem _ _ (show n < d.length by omega)]
        exact h _ (List.getElem_mem _)
      rw [this]
      push_cast
      rw [Int.emod_add_emod]
  exact key _ le_rfl

theorem sum_bits (l : List Bool) :
    (∑ i ∈ Finset.range (toU l).length, (toU l).getD i 0 * 2 ^ (i * 1)) = natOfBits l := by
  induction l with
  | nil => simp [toU, natOfBits]
  | cons b l ih =>
    rw [show toU (b :: l) = b.toNat :: toU l from rfl, List.length_cons, Finset.sum_range_succ', natOfBits, ← ih]
    simp only [List.getD_cons_succ, List.getD_cons_zero, zero_mul, pow_zero, mul_one]
    rw [Finset.mul_sum, add_comm]
    congr 1
    apply Finset.sum_congr rfl
    intro i _
    rw [pow_succ]; ring

/-- **C37**: recomposing bits gives their little-endian value modulo the BN254 scalar field. -/
theorem C37_recompose_bits (l : List Bool) : recompose (toU l) 1 = (natOfBits l : ℤ) % bn254R := by
  rw [recompose_general _ _ (by
    intro x hx
    obtain ⟨b, _, rfl⟩ := List.mem_map.1 hx
    cases b <;> norm_num), sum_bits]

theorem recompose_exact (l : List Bool) (h : l.length ≤ 253) : recompose (toU l) 1 = natOfBits l := by
  rw [C37_recompose_bits]
  have h1 := natOfBits_lt l
  have h2 : 2 ^ l.length ≤ 2 ^ 253 := Nat.pow_le_pow_right (by decide) h
  have h3 := bn254R_gt
  have : natOfBits l < bn254R := by omega
  have : ((natOfBits l % bn254R : ℕ) : ℤ) = natOfBits l := by rw [Nat.mod_eq_of_lt this]
  rw [← this]; push_cast; simp

/-- **C37**: decomposing and recomposing any in-range value gives it back modulo the BN254 scalar field,
hence exactly for values below it. -/
theorem C37_decompose_recompose (x n : ℕ) (h : x < 2 ^ n) :
    ∃ bits, decomposeBits (x : ℤ) n = some bits ∧ bits.length = n ∧ (∀ b ∈ bits, b = 0 ∨ b = 1) ∧
      recompose bits 1 = (x : ℤ) % bn254R := by
  refine ⟨_, decomposeBits_nat x n h, by simp [toU], ?_, ?_⟩
  · intro b hb
    obtain ⟨c, _, rfl⟩ := List.mem_map.1 hb
    cases c <;> simp
  · rw [C37_recompose_bits, natOfBits_testBit n x h]

/-! ## PackBitsToInt -/

theorem foldl_snoc {α β : Type*} (l : List α) (f : α → β) (acc : List β) :
    l.foldl (fun r k => r ++ [f k]) acc = acc ++ l.map f := by
  induction l generalizing acc with
  | nil => simp
  | cons a l ih => simp [ih]

theorem toU_take_drop (l : List Bool) (a b : ℕ) : ((toU l).take a).drop b = toU ((l.take a).drop b) := by
  unfold toU; rw [List.map_drop, List.map_take]

theorem take_ite (l : List Bool) (i c : ℕ) :
    (l.take (if i + c > l.length then l.length else i + c)).drop i = (l.drop i).take c := by
  split
  · next h =>
    rw [List.take_of_length_le le_rfl, List.take_of_length_le]
    rw [List.length_drop]; omega
  · rw [List.drop_take]; congr 1; omega

/-- **C37**: `PackBitsToInt` cuts the bits into groups of 253 and returns the exact little-endian value of
each group (no modular reduction ever happens). -/
theorem C37_packBitsToInt (l : List Bool) :
    packBitsToInt (toU l) =
      (List.range ((l.length + 252) / 253)).map fun k => ((natOfBits ((l.drop (k * 253)).take 253) : ℕ) : ℤ) := by
  unfold packBitsToInt
  rw [bn254R_size]
  have hl : (toU l).length = l.length := by simp [toU]
  simp only [hl]
  rw [foldl_snoc, List.nil_append, show l.length + (254 - 1) - 1 = l.length + 252 by omega]
  apply List.map_congr_left
  intro k _
  rw [toU_take_drop, take_ite, recompose_exact]
  rw [List.length_take]; omega

/-- **C37**: two bit strings of the same length with the same packing are equal. -/
theorem C37_packBitsToInt_injective (a b : List Bool) (hl : a.length = b.length)
    (h : packBitsToInt (toU a) = packBitsToInt (toU b)) : a = b := by
  rw [C37_packBitsToInt, C37_packBitsToInt, hl] at h
  apply List.ext_getElem hl
  intro i h1 h2
  have hk : i / 253 < (b.length + 252) / 253 := by
    rw [Nat.div_lt_iff_lt_mul (by decide)]
    have := Nat.div_add_mod (b.length + 252) 253
    have := Nat.mod_lt (b.length + 252) (show 0 < 253 by decide)
    omega
  have e := congrArg (fun l => l[i / 253]?) h
  simp only [List.getElem?_map, List.getElem?_range hk, Option.map_some, Option.some.injEq, Nat.cast_inj] at e
  have e' := natOfBits_inj (by simp only [List.length_take, List.length_drop, hl]) e
  have e2 := congrArg (fun l => l[i % 253]?) e'
  have hm := Nat.mod_lt i (show 0 < 253 by decide)
  simp only [List.getElem?_take, if_pos hm, List.getElem?_drop] at e2
  rw [show i / 253 * 253 + i % 253 = i by omega] at e2
  rw [List.getElem?_eq_getElem h1, List.getElem?_eq_getElem h2] at e2
  exact Option.some.inj e2

/-! ## ParseBytes32 / Byte32ToFrBits -/

theorem natOfBits_take (x n k : ℕ) (hx : x < 2 ^ n) (hk : k ≤ n) :
    natOfBits (((List.range n).map x.testBit).take k) = x % 2 ^ k ∧
    natOfBits (((List.range n).map x.testBit).drop k) = x / 2 ^ k := by
  have h1 := natOfBits_append (((List.range n).map x.testBit).take k) (((List.range n).map x.testBit).drop k)
  rw [List.take_append_drop, natOfBits_testBit n x hx] at h1
  have h2 := natOfBits_lt (((List.range n).map x.testBit).take k)
  have hl : (((List.range n).map x.testBit).take k).length = k := by
    rw [List.length_take, List.length_map, List.length_range]; omega
  rw [hl] at h1 h2
  set u := natOfBits (((List.range n).map x.testBit).take k)
  set v := natOfBits (((List.range n).map x.testBit).drop k)
  constructor
  · rw [h1, Nat.add_mul_mod_self_left, Nat.mod_eq_of_lt h2]
  · rw [h1, Nat.add_mul_div_left _ _ (by positivity), Nat.div_eq_of_lt h2, zero_add]

/-- **C37**: `ParseBytes32` panics exactly on more than 32 bytes or a split position beyond 256; otherwise
the two halves are the low `frSize` bits and the remaining bits of the big-endian value, each reduced modulo
the BN254 scalar field. -/
theorem C37_parseBytes32 (data : List ℕ) (hd : Hex.Bytes data) (frSize : ℕ) :
    parseBytes32 data frSize =
      if 32 < data.length ∨ 256 < frSize then none
      else some (((Hex.beVal data % 2 ^ frSize : ℕ) : ℤ) % bn254R, ((Hex.beVal data / 2 ^ frSize : ℕ) : ℤ) % bn254R) := by
  unfold parseBytes32
  by_cases h1 : 32 < data.length
  · rw [if_pos (Or.inl h1), if_pos h1]
  by_cases h2 : 256 < frSize
  · rw [if_pos (Or.inr h2), if_neg h1]
    simp only [if_pos h2]
    cases decomposeBits (Hex.beVal data : ℤ) 256 <;> rfl
  have hlt : Hex.beVal data < 2 ^ 256 := by
    refine lt_of_lt_of_le (Hex.beVal_lt data hd) ?_
    rw [show (256 : ℕ) = 2 ^ 8 by norm_num, ← pow_mul]
    exact Nat.pow_le_pow_right (by decide) (by omega)
  rw [if_neg (show ¬ (32 < data.length ∨ 256 < frSize) by omega), if_neg h1, decomposeBits_nat _ _ hlt]
  simp only [if_neg h2]
  obtain ⟨e1, e2⟩ := natOfBits_take _ 256 frSize hlt (by omega)
  have t1 : ∀ l : List Bool, (toU l).take frSize = toU (l.take frSize) := fun l => by unfold toU; rw [List.map_take]
  have t2 : ∀ l : List Bool, (toU l).drop frSize = toU (l.drop frSize) := fun l => by unfold toU; rw [List.map_drop]
  simp only [Option.bind_eq_bind, Option.bind_some, Option.pure_def, t1, t2, C37_recompose_bits, e1, e2]

/-- **C37**: with at most 253 bits on either side nothing is lost: the two halves recombine to the value,
and `Byte32ToFrBits` returns the 256 little-endian bits of the data. -/
theorem C37_parseBytes32_exact (data : List ℕ) (hd : Hex.Bytes data) (hl : data.length ≤ 32) (frSize : ℕ)
    (h1 : 3 ≤ frSize) (h2 : frSize ≤ 253) :
    ∃ lo hi : ℕ, parseBytes32 data frSize = some ((lo : ℤ), (hi : ℤ)) ∧
      lo < 2 ^ frSize ∧ hi < 2 ^ (256 - frSize) ∧ lo + 2 ^ frSize * hi = Hex.beVal data ∧
      byte32ToFrBits ((lo : ℤ), (hi : ℤ)) frSize = some (toU ((List.range 256).map (Hex.beVal data).testBit)) := by
  have hlt : Hex.beVal data < 2 ^ 256 := by
    refine lt_of_lt_of_le (Hex.beVal_lt data hd) ?_
    rw [show (256 : ℕ) = 2 ^ 8 by norm_num, ← pow_mul]
    exact Nat.pow_le_pow_right (by decide) (by omega)
  set v := Hex.beVal data
  have hlo : v % 2 ^ frSize < 2 ^ frSize := Nat.mod_lt _ (by positivity)
  have hhi : v / 2 ^ frSize < 2 ^ (256 - frSize) := by
    rw [Nat.div_lt_iff_lt_mul (by positivity), ← pow_add, show 256 - frSize + frSize = 256 by omega]; exact hlt
  have hR := bn254R_gt
  have p1 : 2 ^ frSize ≤ 2 ^ 253 := Nat.pow_le_pow_right (by decide) h2
  have p2 : 2 ^ (256 - frSize) ≤ 2 ^ 253 := Nat.pow_le_pow_right (by decide) (by omega)
  refine ⟨v % 2 ^ frSize, v / 2 ^ frSize, ?_, hlo, hhi, Nat.mod_add_div _ _, ?_⟩
  · rw [C37_parseBytes32 data hd, if_neg (by omega)]
    have m1 : ((v % 2 ^ frSize : ℕ) : ℤ) % (bn254R : ℤ) = ((v % 2 ^ frSize : ℕ) : ℤ) := by
      rw [← Int.natCast_mod, Nat.mod_eq_of_lt (by omega)]
    have m2 : ((v / 2 ^ frSize : ℕ) : ℤ) % (bn254R : ℤ) = ((v / 2 ^ frSize : ℕ) : ℤ) := by
      rw [← Int.natCast_mod, Nat.mod_eq_of_lt (by omega)]
    rw [m1, m2]
  · unfold byte32ToFrBits
    rw [decomposeBits_nat _ _ hlo, decomposeBits_nat _ _ hhi]
    simp only [if_neg (show ¬ 256 < frSize by omega), Option.bind_eq_bind, Option.bind_some, Option.pure_def, Option.some.injEq]
    rw [show toU ((List.range frSize).map (v % 2 ^ frSize).testBit) ++
      toU ((List.range (256 - frSize)).map (v / 2 ^ frSize).testBit) =
      toU ((List.range frSize).map (v % 2 ^ frSize).testBit ++
      (List.range (256 - frSize)).map (v / 2 ^ frSize).testBit) by unfold toU; rw [List.map_append]]
    congr 1
    apply natOfBits_inj
    · simp; omega
    · rw [natOfBits_append, natOfBits_testBit _ _ hlo, natOfBits_testBit _ _ hhi, natOfBits_testBit _ _ hlt]
      simp only [List.length_map, List.length_range]
      exact Nat.mod_add_div _ _

theorem C37_byte32_injective (a b : List ℕ) (ha : Hex.Bytes a) (hb : Hex.Bytes b) (la : a.length ≤ 32)
    (lb : b.length ≤ 32) (r : ℤ × ℤ) (h1 : parseBytes32 a 248 = some r) (h2 : parseBytes32 b 248 = some r) :
    Hex.beVal a = Hex.beVal b := by
  obtain ⟨lo, hi, e1, -, -, e2, -⟩ := C37_parseBytes32_exact a ha la 248 (by omega) (by omega)
  obtain ⟨lo', hi', e1', -, -, e2', -⟩ := C37_parseBytes32_exact b hb lb 248 (by omega) (by omega)
  rw [e1] at h1
  rw [e1', ← h1] at h2
  simp only [Option.some.injEq, Prod.mk.injEq, Nat.cast_inj] at h2
  rw [← e2, ← e2', h2.1, h2.2]

/-- **C37**, limit of the split position: with 254 or more low bits a value can be lost: the 32 bytes of the
scalar field modulus itself parse to `(0, 0)` at position 256, like the empty input. -/
theorem C37_parseBytes32_254_lossy (data : List ℕ) (hd : Hex.Bytes data) (hl : data.length ≤ 32)
    (hv : Hex.beVal data = bn254R) : parseBytes32 data 256 = some (0, 0) ∧ parseBytes32 [] 256 = some (0, 0) := by
  have hR : bn254R < 2 ^ 256 := by unfold bn254R; norm_num
  constructor
  · rw [C37_parseBytes32 data hd, if_neg (by omega), hv, Nat.mod_eq_of_lt hR, Nat.div_eq_of_lt hR]
    simp
  · rw [C37_parseBytes32 [] (by intro x hx; simp at hx), if_neg (by simp)]
    simp [Hex.beVal]

/-! ## BitsToFrBigInt, DecodeByteToBinary -/

theorem bitsToFr_loop (l : List Bool) (m : ℕ) (hm : 0 < m) : ∀ n ≤ l.length,
    let r := (List.range n).foldl
      (fun res i =>
        if (toU l).getD i 0 ≠ 0 then
          let res := res + 2 ^ (l.length - i - 1)
          if res > m then res % m else res
        else res) 0
    let v := natOfBits (l.take n).reverse * 2 ^ (l.length - n)
    r % m = v % m ∧ r ≤ m ∧ (v ≤ m → r = v) := by
  intro n
  induction n with
  | zero => intro _; simp [natOfBits]
  | succ n ih =>
    intro hn
    obtain ⟨h1, h2, h3⟩ := ih (by omega)
    simp only [List.range_succ, List.foldl_append, List.foldl_cons, List.foldl_nil] at h1 h2 h3 ⊢
    set r := (List.range n).foldl
      (fun res i =>
        if (toU l).getD i 0 ≠ 0 then
          if res + 2 ^ (l.length - i - 1) > m then (res + 2 ^ (l.length - i - 1)) % m
          else res + 2 ^ (l.length - i - 1)
        else res) 0 with hr
    have hg : (toU l).getD n 0 = (l[n]'(by omega)).toNat := by
      rw [List.getD_eq_getElem _ _ (by simp [toU]; omega)]; simp [toU]
    have htake : (l.take (n + 1)).reverse = l[n]'(by omega) :: (l.take n).reverse := by
      rw [List.take_succ, List.getElem?_eq_getElem (by omega)]
      simp
    have hv : natOfBits (l.take (n + 1)).reverse * 2 ^ (l.length - (n + 1)) =
        natOfBits (l.take n).reverse * 2 ^ (l.length - n) + (l[n]'(by omega)).toNat * 2 ^ (l.length - n - 1) := by
      rw [htake, natOfBits, show l.length - (n + 1) = l.length - n - 1 by omega]
      conv_rhs => rw [show l.length - n = l.length - n - 1 + 1 by omega, pow_succ]
      rw [show l.length - n - 1 + 1 - 1 = l.length - n - 1 by omega]
      ring
    rw [hv, hg]
    cases l[n]'(by omega) with
    | false => simpa using ⟨h1, h2, h3⟩
    | true =>
      simp only [Bool.toNat_true, ne_eq, one_ne_zero, not_false_eq_true, if_true, one_mul]
      generalize natOfBits (l.take n).reverse * 2 ^ (l.length - n) = v at h1 h3 ⊢
      generalize 2 ^ (l.length - n - 1) = d
      have hmod : (r + d) % m = (v + d) % m := by rw [Nat.add_mod, h1, ← Nat.add_mod]
      split
      · next hgt =>
        refine ⟨by rw [Nat.mod_mod, hmod], (Nat.mod_lt _ hm).le, ?_⟩
        intro hle
        have := h3 (by omega)
        omega
      · next hle =>
        refine ⟨hmod, by omega, ?_⟩
        intro hle'
        rw [h3 (by omega)]

/-- **C37**: `BitsToFrBigInt` is congruent to the big-endian value of the bits modulo the given modulus, never
exceeds the modulus, and is exact for values up to the modulus. -/
theorem C37_bitsToFrBigInt (l : List Bool) (m : ℕ) (hm : 0 < m) :
    bitsToFrBigInt (toU l) m % m = natOfBits l.reverse % m ∧ bitsToFrBigInt (toU l) m ≤ m ∧
    (natOfBits l.reverse ≤ m → bitsToFrBigInt (toU l) m = natOfBits l.reverse) := by
  have := bitsToFr_loop l m hm l.length le_rfl
  simp only [List.take_length, Nat.sub_self, pow_zero, mul_one] at this
  have hl : (toU l).length = l.length := by simp [toU]
  unfold bitsToFrBigInt
  rw [hl]
  exact this

/-- **C37**, the documented reduction is off by one: the bits of the modulus itself are returned unreduced
(the modulus, not 0). -/
theorem C37_bitsToFrBigInt_modulus (l : List Bool) (m : ℕ) (hm : 0 < m) (hl : natOfBits l.reverse = m) :
    bitsToFrBigInt (toU l) m = m ∧ bitsToFrBigInt (toU l) m ≠ natOfBits l.reverse % m := by
  have h := (C37_bitsToFrBigInt l m hm).2.2 (by omega)
  rw [h, hl]
  exact ⟨rfl, by rw [Nat.mod_self]; omega⟩

theorem and_pow_ne (b i : ℕ) : (if b &&& 2 ^ i ≠ 0 then 1 else 0) = (b.testBit i).toNat := by
  by_cases h : b.testBit i
  · rw [if_pos, h]; rfl
    intro h0
    have := congrArg (fun n => n.testBit i) h0
    simp [Nat.testBit_and, h, Nat.testBit_two_pow_self] at this
  · have h' : b.testBit i = false := by simpa using h
    rw [if_neg, h']; rfl
    intro hne
    apply hne
    apply Nat.eq_of_testBit_eq
    intro j
    rw [Nat.testBit_and, Nat.testBit_two_pow]
    by_cases hij : i = j
    · subst hij; simp [h']
    · simp [hij]

/-- **C37**: `DecodeByteToBinary` gives the eight bits of a byte, most significant first. -/
theorem C37_decodeByteToBinary (b : ℕ) :
    decodeByteToBinary b = some (toU ((List.range 8).map b.testBit).reverse) := by
  unfold decodeByteToBinary
  rw [(Hex.C36_reverse _).1]
  congr 1
  unfold toU
  rw [List.map_reverse, List.map_map]
  congr 1
  apply List.map_congr_left
  intro i _
  rw [and_pow_ne]; rfl

theorem C37_decodeByte_value (b : ℕ) (hb : b < 256) :
    ∃ bits : List Bool, decodeByteToBinary b = some (toU bits) ∧ bits.length = 8 ∧ natOfBits bits.reverse = b := by
  refine ⟨_, C37_decodeByteToBinary b, by simp, ?_⟩
  rw [List.reverse_reverse, natOfBits_testBit 8 b (by simpa using hb)]

/-! Concrete cases. -/
example : decomposeBits 6 4 = some [0, 1, 1, 0] ∧ decomposeBits (-1) 3 = some [1, 1, 1] ∧
    decomposeBits 16 4 = none := by decide
example : bitsToFrBigInt [1, 0, 1] 5 = 5 ∧ bitsToFrBigInt [1, 1, 0] 5 = 1 := by decide
example : toU [true, false, true] = [1, 0, 1] ∧ natOfBits [true, false, true].reverse = 5 := by decide

end Verif.Compose
