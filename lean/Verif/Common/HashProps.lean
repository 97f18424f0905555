import Verif.Common.ComposeProps

/-! # C49: host-side hashing helpers commit to their input -/

namespace Verif.Compose

/-- Specification: the bits of a byte string, most significant bit of each byte first. -/
def msbBits (input : List ℕ) : List Bool := input.flatMap fun b => ((List.range 8).map b.testBit).reverse

/-- Specification: the big-endian values of the consecutive groups of 253 bits (the last one shorter). -/
def chunkValues (input : List ℕ) : List ℕ :=
  (List.range (((msbBits input).length + 252) / 253)).map fun k =>
    natOfBits (((msbBits input).drop (k * 253)).take 253).reverse

theorem bits_fold (input : List ℕ) (acc : List ℕ) :
    input.foldlM (fun acc b => do let bs ← decodeByteToBinary b; pure (acc ++ bs)) acc =
      some (acc ++ toU (msbBits input)) := by
  induction input generalizing acc with
  | nil => simp [msbBits, toU]
  | cons b input ih =>
    rw [List.foldlM_cons, C37_decodeByteToBinary]
    simp only [Option.bind_eq_bind, Option.bind_some, Option.pure_def]
    have := ih (acc ++ toU ((List.range 8).map b.testBit).reverse)
    simp only [Option.bind_eq_bind, Option.pure_def] at this
    rw [this]
    simp [msbBits, toU]

theorem chunk_exact (l : List Bool) (h : l.length ≤ 253) : bitsToFrBigInt (toU l) bn254R = natOfBits l.reverse := by
  have h1 := natOfBits_lt l.reverse
  rw [List.length_reverse] at h1
  have h2 : 2 ^ l.length ≤ 2 ^ 253 := Nat.pow_le_pow_right (by decide) h
  have h3 := bn254R_gt
  exact (C37_bitsToFrBigInt l bn254R (by omega)).2.2 (by omega)

/-- **C49**, exact behaviour: `GenerateBls12377Hash` hashes the 253-bit group values **that are below the
BLS12-377 scalar field**; the others are dropped. -/
theorem C49_bls12377_exact (H : List ℕ → List ℕ) (input : List ℕ) :
    generateBls12377Hash H input = some (H ((chunkValues input).filter fun x => decide (x < bls377R))) := by
  unfold generateBls12377Hash
  rw [bits_fold, List.nil_append]
  simp only [Option.bind_eq_bind, Option.bind_some, Option.pure_def, Option.some.injEq]
  congr 2
  have hl : (toU (msbBits input)).length = (msbBits input).length := by simp [toU]
  rw [hl]
  unfold chunkValues
  apply List.map_congr_left
  intro k _
  have td : ∀ n, (toU (msbBits input)).drop n = toU ((msbBits input).drop n) := fun n => by
    unfold toU; rw [List.map_drop]
  split
  · next h =>
    rw [td, chunk_exact _ (by rw [List.length_drop]; omega), List.take_of_length_le (by rw [List.length_drop]; omega)]
  · next h =>
    rw [toU_take_drop, chunk_exact _ (by simp only [List.length_drop, List.length_take]; omega), List.drop_take,
      show k * 253 + 253 - k * 253 = 253 by omega]

theorem chunkValues_inj_bits (a b : List Bool) (hl : a.length = b.length)
    (h : (List.range ((a.length + 252) / 253)).map (fun k => natOfBits ((a.drop (k * 253)).take 253).reverse) =
      (List.range ((b.length + 252) / 253)).map (fun k => natOfBits ((b.drop (k * 253)).take 253).reverse)) :
    a = b := by
  rw [hl] at h
  apply List.ext_getElem hl
  intro i h1 h2
  have hk : i / 253 < (b.length + 252) / 253 := by
    rw [Nat.div_lt_iff_lt_mul (by decide)]
    have := Nat.div_add_mod (b.length + 252) 253
    have := Nat.mod_lt (b.length + 252) (show 0 < 253 by decide)
    omega
  have e := congrArg (fun l => l[i / 253]?) h
  simp only [List.getElem?_map, List.getElem?_range hk, Option.map_some, Option.some.injEq] at e
  have e' := List.reverse_injective (natOfBits_inj (by
    simp only [List.length_reverse, List.length_take, List.length_drop, hl]) e)
  have e2 := congrArg (fun l => l[i % 253]?) e'
  have hm := Nat.mod_lt i (show 0 < 253 by decide)
  simp only [List.getElem?_take, if_pos hm, List.getElem?_drop] at e2
  rw [show i / 253 * 253 + i % 253 = i by omega] at e2
  rw [List.getElem?_eq_getElem h1, List.getElem?_eq_getElem h2] at e2
  exact Option.some.inj e2

theorem msbBits_length (a : List ℕ) : (msbBits a).length = 8 * a.length := by
  induction a with
  | nil => rfl
  | cons x a ih =>
    rw [show msbBits (x :: a) = ((List.range 8).map x.testBit).reverse ++ msbBits a from rfl, List.length_append, ih]
    simp; omega

theorem msbBits_inj (a b : List ℕ) (ha : Hex.Bytes a) (hb : Hex.Bytes b) (hl : a.length = b.length)
    (h : msbBits a = msbBits b) : a = b := by
  induction a generalizing b with
  | nil => cases b <;> simp_all
  | cons x a ih =>
    cases b with
    | nil => simp at hl
    | cons y b =>
      rw [show msbBits (x :: a) = ((List.range 8).map x.testBit).reverse ++ msbBits a from rfl,
        show msbBits (y :: b) = ((List.range 8).map y.testBit).reverse ++ msbBits b from rfl] at h
      obtain ⟨e1, e2⟩ := List.append_inj h (by simp)
      have e3 := List.reverse_injective e1
      have hx : x < 2 ^ 8 := by simpa using ha x (by simp)
      have hy : y < 2 ^ 8 := by simpa using hb y (by simp)
      have : x = y := by rw [← natOfBits_testBit 8 x hx, e3, natOfBits_testBit 8 y hy]
      rw [this, ih b (fun z hz => ha z (by simp [hz])) (fun z hz => hb z (by simp [hz])) (by simpa using hl) e2]

/-- **C49** (partial): two inputs of the same length none of whose group values reaches the BLS12-377 scalar
field and that have the same hash are equal, or their group values differ and have the same hash.  Missing from the full property:
groups at or above the field (see `C49_bls12377_collision`) and inputs of different lengths. -/
theorem C49_bls12377_binding_partial (H : List ℕ → List ℕ) (a b : List ℕ) (ha : Hex.Bytes a) (hb : Hex.Bytes b)
    (hl : a.length = b.length) (ca : ∀ x ∈ chunkValues a, x < bls377R) (cb : ∀ x ∈ chunkValues b, x < bls377R)
    (h : generateBls12377Hash H a = generateBls12377Hash H b) :
    a = b ∨ (chunkValues a ≠ chunkValues b ∧ H (chunkValues a) = H (chunkValues b)) := by
  rw [C49_bls12377_exact, C49_bls12377_exact, List.filter_eq_self.2 (by simpa using ca),
    List.filter_eq_self.2 (by simpa using cb)] at h
  by_cases e : chunkValues a = chunkValues b
  · left
    exact msbBits_inj a b ha hb hl (chunkValues_inj_bits _ _ (by rw [msbBits_length, msbBits_length, hl]) e)
  · right
    exact ⟨e, Option.some.inj h⟩

/-- The property fails for every hash function: a leading group at or above the field is ignored. -/
theorem first_chunk (x : ℕ) (r : List ℕ) (hr : r.length = 31) :
    chunkValues (x :: r) = [natOfBits ((msbBits (x :: r)).take 253).reverse,
      natOfBits ((msbBits (x :: r)).drop 253).reverse] := by
  have hl : (msbBits (x :: r)).length = 256 := by rw [msbBits_length]; simp [hr]
  unfold chunkValues
  rw [hl]
  rw [show (256 + 252) / 253 = 2 by norm_num]
  simp only [List.range_succ, List.range_zero, List.nil_append, List.singleton_append, List.map_cons, List.map_nil,
    Nat.zero_mul, List.drop_zero, Nat.one_mul]
  rw [List.take_of_length_le (l := (msbBits (x :: r)).drop 253) (by rw [List.length_drop, hl]; omega)]

/-- **C49**, the English property is false: for every hash function, two different 32-byte inputs that start
with `0xff` and `0xfe` and agree afterwards have the same hash: their first group is at least `2^252 + 2^251`, above
the BLS12-377 scalar field, and is silently dropped. -/
theorem C49_bls12377_collision (H : List ℕ → List ℕ) (r : List ℕ) (hr : r.length = 31) :
    generateBls12377Hash H (0xff :: r) = generateBls12377Hash H (0xfe :: r) := by
  have big : ∀ x, x = 0xff ∨ x = 0xfe → ¬ natOfBits ((msbBits (x :: r)).take 253).reverse < bls377R := by
    intro x hx hlt
    have hl : (msbBits r).length = 248 := by rw [msbBits_length, hr]
    have e : (msbBits (x :: r)).take 253 = ((List.range 8).map x.testBit).reverse ++ (msbBits r).take 245 := by
      rw [show msbBits (x :: r) = ((List.range 8).map x.testBit).reverse ++ msbBits r from rfl, List.take_append]
      rw [List.take_of_length_le (by simp)]
      congr 1
    rw [e, List.reverse_append, natOfBits_append, List.reverse_reverse,
      natOfBits_testBit 8 x (by rcases hx with rfl | rfl <;> norm_num), List.length_reverse, List.length_take, hl,
      show min 245 248 = 245 by norm_num] at hlt
    have : 2 ^ 245 * 254 ≤ 2 ^ 245 * x := Nat.mul_le_mul_left _ (by rcases hx with rfl | rfl <;> norm_num)
    have hb : bls377R < 2 ^ 245 * 254 := by unfold bls377R; norm_num
    omega
  have tail : ∀ x, (msbBits (x :: r)).drop 253 = (msbBits r).drop 245 := by
    intro x
    rw [show msbBits (x :: r) = ((List.range 8).map x.testBit).reverse ++ msbBits r from rfl, List.drop_append]
    rw [List.drop_eq_nil_of_le (by simp), List.nil_append]
    congr 1
  rw [C49_bls12377_exact, C49_bls12377_exact, first_chunk _ r hr, first_chunk _ r hr]
  rw [tail, tail]
  have f1 : ∀ x, (x = 0xff ∨ x = 0xfe) → ∀ y : ℕ, List.filter (fun x => decide (x < bls377R))
      [natOfBits ((msbBits (x :: r)).take 253).reverse, y] = List.filter (fun x => decide (x < bls377R)) [y] :=
    fun x hx y => List.filter_cons_of_neg (by simpa using big x hx)
  rw [f1 _ (Or.inl rfl), f1 _ (Or.inr rfl)]

/-! ## MiMCBlockPad0 and the verification key hash -/

/-- **C49**: `MiMCBlockPad0` never panics; it pads with zeros on the left, and keeps only the last `n` bytes
of longer data. -/
theorem C49_blockPad0 (data : List ℕ) (n : ℕ) :
    miMCBlockPad0 data n = some (Hex.toFixed n data) := by
  unfold miMCBlockPad0
  rw [mapM_some (g := fun i => (Hex.toFixed n data).getD i 0)]
  · congr 1
    apply List.ext_getElem
    · simp [Hex.toFixed_length]
    · intro i h1 h2
      simp only [List.getElem_map, List.getElem_range]
      rw [List.getD_eq_getElem]
  · intro i hi
    have hi' := List.mem_range.1 hi
    unfold Hex.toFixed
    split
    · next h =>
      rw [if_neg (by omega), List.getD_eq_getElem?_getD, List.getElem?_append_left (by simp; omega),
        List.getElem?_replicate, if_pos (by omega)]
      rfl
    · next h =>
      by_cases hlt : n < data.length
      · rw [if_pos hlt]
        have hz : n - (data.drop (data.length - n)).length = 0 := by rw [List.length_drop]; omega
        simp only [hz, List.replicate_zero, List.nil_append]
        rw [List.getD_eq_getElem?_getD, List.getElem?_drop,
          show ((data.length : ℤ) - n + i).toNat = data.length - n + i by omega,
          List.getElem?_eq_getElem (by omega)]
        rfl
      · rw [if_neg hlt]
        simp only []
        rw [List.getD_eq_getElem?_getD, List.getElem?_append_right (by simp; omega), List.length_replicate,
          show ((data.length : ℤ) - n + i).toNat = i - (n - data.length) by omega,
          List.getElem?_eq_getElem (by omega)]
        rfl

/-- **C49**: in terms of values: the block has `n` bytes and the big-endian value of the data modulo `256^n`. -/
theorem C49_blockPad0_value (data : List ℕ) (hd : Hex.Bytes data) (n : ℕ) :
    ∃ r, miMCBlockPad0 data n = some r ∧ r.length = n ∧ Hex.beVal r = Hex.beVal data % 256 ^ n :=
  ⟨_, C49_blockPad0 data n, Hex.toFixed_length _ _, Hex.toFixed_val _ _ hd⟩

theorem toFixed_val24 (b : List ℕ) (h : Hex.Bytes b) (hl : b.length = 24) :
    Hex.beVal (Hex.toFixed 32 b) = Hex.beVal b ∧ Hex.beVal b < bn254R := by
  have h1 := Hex.beVal_lt b h
  rw [hl] at h1
  refine ⟨?_, ?_⟩
  · rw [Hex.toFixed_val 32 b h, Nat.mod_eq_of_lt (lt_trans h1 (by norm_num))]
  · exact lt_trans h1 (by unfold bn254R; norm_num)

/-- **C49**: on 48-byte hashes `CalculateAppVkHashFrom761To254` hashes the values of the two 24-byte halves
(always accepted by the field), so equal results mean equal inputs or two different pairs of halves with the same hash. -/
theorem C49_appVkHash (H : List ℕ → List ℕ) (a b : List ℕ) (ha : Hex.Bytes a) (hb : Hex.Bytes b)
    (la : a.length = 48) (lb : b.length = 48) :
    appVkHash761To254 H a = some (H [Hex.beVal (a.take 24), Hex.beVal (a.drop 24)]) ∧
    (appVkHash761To254 H a = appVkHash761To254 H b → a = b ∨
      (a ≠ b ∧ [Hex.beVal (a.take 24), Hex.beVal (a.drop 24)] ≠ [Hex.beVal (b.take 24), Hex.beVal (b.drop 24)] ∧
        H [Hex.beVal (a.take 24), Hex.beVal (a.drop 24)] = H [Hex.beVal (b.take 24), Hex.beVal (b.drop 24)])) := by
  have key : ∀ a, Hex.Bytes a → a.length = 48 →
      appVkHash761To254 H a = some (H [Hex.beVal (a.take 24), Hex.beVal (a.drop 24)]) := by
    intro a ha la
    have b1 : Hex.Bytes (a.take 24) := fun x hx => ha x (List.mem_of_mem_take hx)
    have b2 : Hex.Bytes (a.drop 24) := fun x hx => ha x (List.mem_of_mem_drop hx)
    obtain ⟨e1, l1⟩ := toFixed_val24 _ b1 (by rw [List.length_take, la]; rfl)
    obtain ⟨e2, l2⟩ := toFixed_val24 _ b2 (by rw [List.length_drop, la])
    unfold appVkHash761To254
    rw [if_neg (by omega), C49_blockPad0, C49_blockPad0]
    simp only [Option.bind_eq_bind, Option.bind_some, Option.pure_def, e1, e2]
    rw [List.filter_eq_self.2]
    intro x hx
    simp only [List.mem_cons, List.not_mem_nil, or_false] at hx
    rcases hx with rfl | rfl <;> simpa
  refine ⟨key a ha la, ?_⟩
  rw [key a ha la, key b hb lb]
  intro h
  by_cases e : [Hex.beVal (a.take 24), Hex.beVal (a.drop 24)] = [Hex.beVal (b.take 24), Hex.beVal (b.drop 24)]
  · left
    simp only [List.cons.injEq, and_true] at e
    have t1 := Hex.beVal_inj _ _ (fun x hx => ha x (List.mem_of_mem_take hx)) (fun x hx => hb x (List.mem_of_mem_take hx))
      (by simp [la, lb]) e.1
    have t2 := Hex.beVal_inj _ _ (fun x hx => ha x (List.mem_of_mem_drop hx)) (fun x hx => hb x (List.mem_of_mem_drop hx))
      (by simp [la, lb]) e.2
    rw [← List.take_append_drop 24 a, t1, t2, List.take_append_drop]
  · right
    exact ⟨fun hab => e (by rw [hab]), e, Option.some.inj h⟩

/-! Concrete cases. -/
example : chunkValues [0x01, 0x80] = [0x0180] := by decide
example : miMCBlockPad0 [7, 8] 4 = some [0, 0, 7, 8] ∧ miMCBlockPad0 [6, 7, 8] 2 = some [7, 8] := by decide
example : Hex.Bytes (List.replicate 48 1) ∧ (List.replicate 48 1).length = 48 :=
  ⟨fun x hx => by rw [(List.mem_replicate.1 hx).2]; decide, List.length_replicate⟩
/-- Two inputs meeting the hypotheses of the binding theorem. -/
example : (∀ x ∈ chunkValues [1, 2, 3], x < bls377R) ∧ (∀ x ∈ chunkValues [1, 2, 4], x < bls377R) := by
  constructor <;> decide

end Verif.Compose
