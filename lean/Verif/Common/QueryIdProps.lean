import Verif.Common.QueryId
import Verif.Common.ComposeProps
import Verif.Common.HexProps
import Mathlib.Data.Nat.Digits.Lemmas

/-! # C38: query identifiers bind the query (query_id.go)

Specification: what a query denotes (the numbers its strings stand for) and what a collision of the external
hash `H` is. -/

namespace Verif.QueryId
open Compose

/-- The values of a log entry. -/
structure LogVal where
  address : ℕ
  logIndex : ℕ
  topicPrefix : ℕ
  fromTopic : Bool
  valueIndex : ℕ
  value : ℕ
deriving DecidableEq

/-- The values of a receipt query. -/
structure ReceiptVal where
  blockNumber : ℕ
  baseFee : ℤ
  mptKey : ℤ
  logs : List LogVal
  blockTime : ℕ

/-- The values of a storage query. -/
structure StorageVal where
  blockNumber : ℕ
  baseFee : ℤ
  account : ℤ
  slot : ℕ
  value : ℕ
  blockTime : ℕ

/-- The values of a transaction query. -/
structure TxVal where
  blockNumber : ℕ
  baseFee : ℤ
  mptKey : ℤ
  leafHash : ℕ
  blockTime : ℕ

/-- `l` stands for the values `v`: the hex strings decode, the address and the value are read big-endian, and
the topic contributes its first six bytes. -/
def LogDenotes (l : LogInfo) (v : LogVal) : Prop :=
  ∃ a t x, hexutilDecode l.contractAddress = some a ∧ hexutilDecode l.logTopic0 = some t ∧
    hexutilDecode l.value = some x ∧ 6 ≤ t.length ∧ x.length ≤ 32 ∧
    v = ⟨Hex.beVal a, l.logIndex, Hex.beVal (t.take 6), l.valueFromTopic, l.valueIndex, Hex.beVal x⟩

/-- The log's values fit their widths (160, 16, 48, 1, 7 and 256 bits). -/
def LogFits (v : LogVal) : Prop :=
  v.address < 2 ^ 160 ∧ v.logIndex < 2 ^ 16 ∧ v.topicPrefix < 2 ^ 48 ∧ v.valueIndex < 2 ^ 7 ∧ v.value < 2 ^ 256

def ReceiptDenotes (P : List ℕ → Option ℤ) (r : ReceiptInfo) (v : ReceiptVal) : Prop :=
  P r.blockBaseFee = some v.baseFee ∧ P r.mptKey = some v.mptKey ∧ v.blockNumber = r.blockNumber ∧
    v.blockTime = r.blockTime ∧ List.Forall₂ LogDenotes r.logs v.logs

def ReceiptFits (v : ReceiptVal) : Prop :=
  v.blockNumber < 2 ^ 32 ∧ v.baseFee.natAbs < 2 ^ 128 ∧ v.mptKey.natAbs < 2 ^ 32 ∧ v.blockTime < 2 ^ 64 ∧
    ∀ l ∈ v.logs, LogFits l

/-- The slot is hex of at most 32 bytes, the slot value is decimal (its sign is ignored). -/
def StorageDenotes (P P10 : List ℕ → Option ℤ) (s : StorageInfo) (v : StorageVal) : Prop :=
  P s.blockBaseFee = some v.baseFee ∧ P s.accountAddress = some v.account ∧ v.blockNumber = s.blockNumber ∧
    v.blockTime = s.blockTime ∧ (Hex.hex2Bytes s.slot).length ≤ 32 ∧ v.slot = Hex.beVal (Hex.hex2Bytes s.slot) ∧
    ∃ x, P10 s.slotValue = some x ∧ v.value = x.natAbs

def StorageFits (v : StorageVal) : Prop :=
  v.blockNumber < 2 ^ 32 ∧ v.baseFee.natAbs < 2 ^ 128 ∧ v.account.natAbs < 2 ^ 160 ∧ v.slot < 2 ^ 256 ∧
    v.value < 2 ^ 256 ∧ v.blockTime < 2 ^ 64

def TxDenotes (P : List ℕ → Option ℤ) (t : TxInfo) (v : TxVal) : Prop :=
  P t.blockBaseFee = some v.baseFee ∧ P t.mptKey = some v.mptKey ∧ v.blockNumber = t.blockNumber ∧
    v.blockTime = t.blockTime ∧ (Hex.hex2Bytes t.leafHash).length ≤ 32 ∧
    v.leafHash = Hex.beVal (Hex.hex2Bytes t.leafHash)

def TxFits (v : TxVal) : Prop :=
  v.blockNumber < 2 ^ 32 ∧ v.baseFee.natAbs < 2 ^ 128 ∧ v.mptKey.natAbs < 2 ^ 32 ∧ v.leafHash < 2 ^ 256 ∧
    v.blockTime < 2 ^ 64

/-- The bit strings of two queries are packed into different lists of numbers on which the hash succeeds with the same
result. The two lists are those of the queries at hand; that the hash has some collision would always hold. -/
def Collide (H : List ℤ → Option ℕ) (bits bits' : Option (List ℕ)) : Prop :=
  ∃ a b w, bits = some a ∧ bits' = some b ∧ packBitsToInt a ≠ packBitsToInt b ∧
    H (packBitsToInt a) = some w ∧ H (packBitsToInt b) = some w

/-! ## layout of the packed input -/

/-- Fields of given widths laid out one after the other, the first in the lowest bits; a negative value in two's
complement. -/
def layout : List (ℕ × ℤ) → ℕ
  | [] => 0
  | (n, x) :: fs => (x % 2 ^ n).toNat + 2 ^ n * layout fs

/-- The number of bits of a layout. -/
def width (fs : List (ℕ × ℤ)) : ℕ := (fs.map Prod.fst).sum

/-- The layout cut into field elements of 253 bits, the last one possibly shorter. -/
def elements (fs : List (ℕ × ℤ)) : List ℤ :=
  (List.range ((width fs + 252) / 253)).map fun k => ((layout fs / 2 ^ (253 * k) % 2 ^ 253 : ℕ) : ℤ)

/-- The fields of one log: address, index, first six bytes of the topic, source flag, value index, value. -/
def logFields (v : LogVal) : List (ℕ × ℤ) :=
  [(160, v.address), (16, v.logIndex), (48, v.topicPrefix), (1, if v.fromTopic then 1 else 0), (7, v.valueIndex),
    (256, v.value)]

def receiptFields (v : ReceiptVal) : List (ℕ × ℤ) :=
  [(32, (v.blockNumber : ℤ)), (128, v.baseFee), (32, v.mptKey)] ++ v.logs.flatMap logFields ++ [(64, (v.blockTime : ℤ))]

def storageFields (v : StorageVal) : List (ℕ × ℤ) :=
  [(32, v.blockNumber), (128, v.baseFee), (160, v.account), (256, v.slot), (256, v.value), (64, v.blockTime)]

def txFields (v : TxVal) : List (ℕ × ℤ) :=
  [(32, v.blockNumber), (128, v.baseFee), (32, v.mptKey), (256, v.leafHash), (64, v.blockTime)]

/-! ## bit strings -/

/-- The `n` low bits of `x`, least significant first. -/
def bitsN (n x : ℕ) : List Bool := (List.range n).map x.testBit

theorem bitsN_length (n x : ℕ) : (bitsN n x).length = n := by simp [bitsN]

theorem bitsN_inj {n x y : ℕ} (hx : x < 2 ^ n) (hy : y < 2 ^ n) (h : bitsN n x = bitsN n y) : x = y := by
  have := congrArg natOfBits h
  unfold bitsN at this
  rwa [natOfBits_testBit n x hx, natOfBits_testBit n y hy] at this

theorem toU_append (a b : List Bool) : toU (a ++ b) = toU a ++ toU b := by unfold toU; rw [List.map_append]

theorem toU_length (a : List Bool) : (toU a).length = a.length := by simp [toU]

/-- residue of a signed value -/
def res (n : ℕ) (x : ℤ) : ℕ := (x % 2 ^ n).toNat

theorem res_lt (n : ℕ) (x : ℤ) : res n x < 2 ^ n := by
  unfold res
  have h1 : 0 ≤ x % 2 ^ n := Int.emod_nonneg _ (by positivity)
  have h2 : x % 2 ^ n < 2 ^ n := Int.emod_lt_of_pos _ (by positivity)
  have : ((x % 2 ^ n).toNat : ℤ) < ((2 ^ n : ℕ) : ℤ) := by rw [Int.toNat_of_nonneg h1]; push_cast; exact h2
  exact_mod_cast this

theorem res_nonneg (n : ℕ) (x : ℤ) (h0 : 0 ≤ x) (h : x.natAbs < 2 ^ n) : (res n x : ℤ) = x := by
  unfold res
  rw [Int.toNat_of_nonneg (Int.emod_nonneg _ (by positivity)), Int.emod_eq_of_lt h0]
  have : (x.natAbs : ℤ) < ((2 ^ n : ℕ) : ℤ) := by exact_mod_cast h
  rw [Int.natAbs_of_nonneg h0] at this
  push_cast at this
  exact this

theorem db_int (x : ℤ) (n : ℕ) (b : List ℕ) :
    decomposeBits x n = some b ↔ x.natAbs < 2 ^ n ∧ b = toU (bitsN n (res n x)) := by
  obtain ⟨h1, h2⟩ := C37_decomposeBits x n
  by_cases h : x.natAbs < 2 ^ n
  · rw [h2 h]; simp only [Option.some.injEq, h, true_and, bitsN, res]; exact eq_comm
  · rw [h1.2 (by omega)]; simp [h]

theorem db_nat (x n : ℕ) (b : List ℕ) :
    decomposeBits (x : ℤ) n = some b ↔ x < 2 ^ n ∧ b = toU (bitsN n x) := by
  rw [db_int]
  simp only [Int.natAbs_natCast]
  constructor
  · rintro ⟨h, rfl⟩
    refine ⟨h, ?_⟩
    have := res_nonneg n x (by omega) (by simpa using h)
    rw [Nat.cast_inj.1 this]
  · rintro ⟨h, rfl⟩
    refine ⟨h, ?_⟩
    have := res_nonneg n x (by omega) (by simpa using h)
    rw [Nat.cast_inj.1 this]

theorem bitsN_res (n x : ℕ) : bitsN n (res n (x : ℤ)) = bitsN n x := by
  have e : res n (x : ℤ) = x % 2 ^ n := by
    unfold res
    rw [show ((x : ℤ) % 2 ^ n) = ((x % 2 ^ n : ℕ) : ℤ) by push_cast; rfl, Int.toNat_natCast]
  rw [e]
  unfold bitsN
  apply List.map_congr_left
  intro i hi
  rw [Nat.testBit_mod_two_pow]
  simp [List.mem_range.1 hi]

/-- the 256-bit fields -/
theorem b32 (data : List ℕ) (hd : Hex.Bytes data) (b : List ℕ) :
    ((parseBytes32 data 248).bind fun v => byte32ToFrBits v 248) = some b ↔
      data.length ≤ 32 ∧ b = toU (bitsN 256 (Hex.beVal data)) := by
  by_cases hl : data.length ≤ 32
  · obtain ⟨lo, hi, e1, -, -, -, e2⟩ := C37_parseBytes32_exact data hd hl 248 (by omega) (by omega)
    rw [e1, Option.bind_some, e2]
    simp only [Option.some.injEq, hl, true_and, bitsN]; exact eq_comm
  · rw [C37_parseBytes32 data hd, if_pos (by omega)]; simp [hl]

theorem beVal_lt_256 (data : List ℕ) (hd : Hex.Bytes data) (hl : data.length ≤ 32) : Hex.beVal data < 2 ^ 256 := by
  refine lt_of_lt_of_le (Hex.beVal_lt data hd) ?_
  rw [show (256 : ℕ) = 2 ^ 8 by norm_num, ← pow_mul]
  exact Nat.pow_le_pow_right (by decide) (by omega)

theorem fromHexChar_lt (c x : ℕ) (h : Hex.fromHexChar c = some x) : x < 16 := by
  unfold Hex.fromHexChar at h
  split at h
  · simp only [Option.some.injEq] at h; omega
  split at h
  · simp only [Option.some.injEq] at h; omega
  split at h
  · simp only [Option.some.injEq] at h; omega
  · simp at h

theorem decodeString_bytes (s : List ℕ) : Hex.Bytes (Hex.decodeString s) := by
  induction s using Hex.decodeString.induct with
  | case1 a b r x y hy hx ih =>
    rw [Hex.decodeString, hx, hy]
    have h1 := fromHexChar_lt a x hx
    have h2 := fromHexChar_lt b y hy
    intro z hz
    rcases List.mem_cons.1 hz with rfl | hz
    · omega
    · exact ih z hz
  | case2 a b r h =>
    rw [Hex.decodeString]
    split
    · rename_i x y hx hy; exact absurd hy (h x y hx)
    · intro z hz; simp at hz
  | case3 s h =>
    rw [Hex.decodeString]
    · intro z hz; simp at hz
    · exact h

theorem hex2Bytes_bytes (s : List ℕ) : Hex.Bytes (Hex.hex2Bytes s) := decodeString_bytes _

theorem hexutil_bytes (s a : List ℕ) (h : hexutilDecode s = some a) : Hex.Bytes a := by
  unfold hexutilDecode at h
  split at h
  · rw [← Option.some.inj h]; exact decodeString_bytes _
  · simp at h

theorem bytes_take (a : List ℕ) (n : ℕ) (h : Hex.Bytes a) : Hex.Bytes (a.take n) :=
  fun x hx => h x (List.mem_of_mem_take hx)

/-! ## what each query's bits are -/

def logSpec (v : LogVal) : List Bool :=
  bitsN 160 v.address ++ bitsN 16 v.logIndex ++ bitsN 48 v.topicPrefix ++ [v.fromTopic] ++ bitsN 7 v.valueIndex ++
    bitsN 256 v.value

theorem logSpec_length (v : LogVal) : (logSpec v).length = 488 := by
  simp [logSpec, bitsN_length]

theorem bool_bit (b : Bool) : bitsN 1 (if b then 1 else 0) = [b] := by cases b <;> rfl

theorem logBits_iff (l : LogInfo) (b : List ℕ) :
    logBits l = some b ↔ ∃ v, LogDenotes l v ∧ LogFits v ∧ b = toU (logSpec v) := by
  unfold logBits
  have hb : ∀ b4, decomposeBits (if l.valueFromTopic = true then 1 else 0) 1 = some b4 ↔
      b4 = toU [l.valueFromTopic] := by
    intro b4
    have e : (if l.valueFromTopic = true then (1 : ℤ) else 0) = ((if l.valueFromTopic = true then 1 else 0 : ℕ) : ℤ) := by
      split <;> rfl
    rw [e, db_nat, bool_bit]
    constructor
    · exact fun h => h.2
    · intro h; refine ⟨?_, h⟩; split <;> norm_num
  simp only [Option.bind_eq_bind, Option.pure_def, Option.bind_eq_some_iff, hb]
  simp only [db_int, Int.natAbs_natCast, bitsN_res, Option.some.injEq]
  constructor
  · rintro ⟨a, ha, b1, ⟨h1, rfl⟩, b2, ⟨h2, rfl⟩, t, ht, t6, ht6, b3, ⟨h3, rfl⟩, b4, rfl, b5, ⟨h5, rfl⟩, x, hx,
      v32, hv, b6, h6, e⟩
    have h6' : ((parseBytes32 x 248).bind fun v => byte32ToFrBits v 248) = some b6 := by rw [hv]; exact h6
    rw [b32 x (hexutil_bytes _ _ hx)] at h6'
    obtain ⟨hl, rfl⟩ := h6'
    unfold first6 at ht6
    split at ht6
    · simp at ht6
    rename_i h
    rw [← Option.some.inj ht6] at e h3
    refine ⟨⟨Hex.beVal a, l.logIndex, Hex.beVal (t.take 6), l.valueFromTopic, l.valueIndex, Hex.beVal x⟩,
      ⟨a, t, x, ha, ht, hx, by omega, hl, rfl⟩, ⟨h1, h2, h3, h5, beVal_lt_256 x (hexutil_bytes _ _ hx) hl⟩, ?_⟩
    rw [← e]
    simp only [logSpec, toU_append]
  · rintro ⟨v, ⟨a, t, x, ha, ht, hx, h6, hl, rfl⟩, ⟨h1, h2, h3, h5, hv⟩, rfl⟩
    have := (b32 x (hexutil_bytes _ _ hx) _).2 ⟨hl, rfl⟩
    rw [Option.bind_eq_some_iff] at this
    obtain ⟨v32, e1, e2⟩ := this
    refine ⟨a, ha, _, ⟨h1, rfl⟩, _, ⟨h2, rfl⟩, t, ht, t.take 6, by unfold first6; rw [if_neg (by omega)], _, ⟨h3, rfl⟩, _, rfl, _,
      ⟨h5, rfl⟩, x, hx, v32, e1, _, e2, ?_⟩
    simp only [logSpec, toU_append]

theorem logs_iff (ls : List LogInfo) (acc b : List ℕ) :
    ls.foldlM (fun acc l => do let b ← logBits l; pure (acc ++ b)) acc = some b ↔
      ∃ vs, List.Forall₂ LogDenotes ls vs ∧ (∀ v ∈ vs, LogFits v) ∧ b = acc ++ toU (vs.flatMap logSpec) := by
  induction ls generalizing acc with
  | nil =>
    simp only [List.foldlM_nil, Option.pure_def, Option.some.injEq]
    constructor
    · rintro rfl; exact ⟨[], .nil, by simp, by simp [toU]⟩
    · rintro ⟨vs, h, -, rfl⟩; cases h; simp [toU]
  | cons l ls ih =>
    rw [List.foldlM_cons]
    simp only [Option.bind_eq_bind, Option.pure_def, Option.bind_eq_some_iff, logBits_iff, Option.some.injEq]
    constructor
    · rintro ⟨c, ⟨d, ⟨v, hv, hf, rfl⟩, rfl⟩, h⟩
      obtain ⟨vs, h1, h2, rfl⟩ := (ih _).1 h
      refine ⟨v :: vs, .cons hv h1, ?_, ?_⟩
      · intro w hw
        rcases List.mem_cons.1 hw with rfl | hw
        · exact hf
        · exact h2 w hw
      · rw [List.flatMap_cons, toU_append, List.append_assoc]
    · rintro ⟨vs, h, h2, rfl⟩
      cases h with
      | @cons _ v _ vs hv h1 =>
        refine ⟨_, ⟨_, ⟨v, hv, h2 v (by simp), rfl⟩, rfl⟩, (ih _).2 ⟨vs, h1, fun w hw => h2 w (by simp [hw]), ?_⟩⟩
        rw [List.flatMap_cons, toU_append, List.append_assoc]

def receiptSpec (v : ReceiptVal) : List Bool :=
  bitsN 32 v.blockNumber ++ bitsN 128 (res 128 v.baseFee) ++ bitsN 32 (res 32 v.mptKey) ++ v.logs.flatMap logSpec ++
    bitsN 64 v.blockTime

theorem receiptBits_iff (P : List ℕ → Option ℤ) (r : ReceiptInfo) (b : List ℕ) :
    receiptBits P r = some b ↔ ∃ v, ReceiptDenotes P r v ∧ ReceiptFits v ∧ b = toU (receiptSpec v) := by
  unfold receiptBits
  simp only [Option.bind_eq_bind, Option.pure_def, Option.bind_eq_some_iff, db_int, Int.natAbs_natCast, bitsN_res, Option.some.injEq]
  constructor
  · rintro ⟨b1, ⟨h1, rfl⟩, fee, hf, b2, ⟨h2, rfl⟩, key, hk, b3, ⟨h3, rfl⟩, ls, hls, b4, ⟨h4, rfl⟩, rfl⟩
    obtain ⟨vs, d1, d2, rfl⟩ := (logs_iff _ _ _).1 hls
    refine ⟨⟨r.blockNumber, fee, key, vs, r.blockTime⟩, ⟨hf, hk, rfl, rfl, d1⟩, ⟨h1, h2, h3, h4, d2⟩, ?_⟩
    simp only [receiptSpec, toU_append]
  · rintro ⟨⟨n, fee, key, vs, t⟩, ⟨hf, hk, e1, e2, d1⟩, ⟨h1, h2, h3, h4, d2⟩, rfl⟩
    simp only at e1 e2 hf hk d1 h1 h2 h3 h4 d2
    subst e1 e2
    refine ⟨_, ⟨h1, rfl⟩, fee, hf, _, ⟨h2, rfl⟩, key, hk, _, ⟨h3, rfl⟩, _, (logs_iff _ _ _).2 ⟨vs, d1, d2, rfl⟩, _,
      ⟨h4, rfl⟩, ?_⟩
    simp only [receiptSpec, toU_append]

def storageSpec (v : StorageVal) : List Bool :=
  bitsN 32 v.blockNumber ++ bitsN 128 (res 128 v.baseFee) ++ bitsN 160 (res 160 v.account) ++ bitsN 256 v.slot ++
    bitsN 256 v.value ++ bitsN 64 v.blockTime

theorem natBytes_bytes (n : ℕ) : Hex.Bytes (natBytes n) := by
  intro x hx
  exact Nat.digits_lt_base (by norm_num) (List.mem_reverse.1 hx)

theorem natBytes_val (n : ℕ) : Hex.beVal (natBytes n) = n := by
  unfold natBytes
  conv_rhs => rw [← Nat.ofDigits_digits 256 n]
  generalize Nat.digits 256 n = l
  induction l with
  | nil => rfl
  | cons a l ih =>
    rw [List.reverse_cons, Hex.beVal_append, ih, Nat.ofDigits_cons]
    simp [Hex.beVal]; ring

theorem natBytes_length (n : ℕ) : (natBytes n).length ≤ 32 ↔ n < 2 ^ 256 := by
  unfold natBytes
  rw [List.length_reverse, Nat.digits_length_le_iff (by norm_num)]
  norm_num

theorem padded_bytes (b : List ℕ) (h : Hex.Bytes b) (n : ℕ) : Hex.Bytes (List.replicate n 0 ++ b) := by
  intro x hx
  rcases List.mem_append.1 hx with hx | hx
  · rw [List.eq_of_mem_replicate hx]; norm_num
  · exact h x hx

theorem paddedSlot_iff (s b : List ℕ) :
    ((paddedSlotBytes s).bind fun y => (parseBytes32 y 248).bind fun v => byte32ToFrBits v 248) = some b ↔
      (Hex.hex2Bytes s).length ≤ 32 ∧ b = toU (bitsN 256 (Hex.beVal (Hex.hex2Bytes s))) := by
  unfold paddedSlotBytes
  simp only
  by_cases h : 32 < (Hex.hex2Bytes s).length
  · simp only [if_pos h, Option.bind_none]; constructor
    · intro h; simp at h
    · intro h'; omega
  · simp only [if_neg h, Option.bind_some]
    rw [b32 _ (padded_bytes _ (hex2Bytes_bytes s) _), Hex.beVal_replicate_zero]
    simp only [List.length_append, List.length_replicate]
    constructor
    · exact fun h => ⟨by omega, h.2⟩
    · exact fun h => ⟨by omega, h.2⟩

theorem storageBits_iff (P P10 : List ℕ → Option ℤ) (s : StorageInfo) (b : List ℕ) :
    storageBits P P10 s = some b ↔ ∃ v, StorageDenotes P P10 s v ∧ StorageFits v ∧ b = toU (storageSpec v) := by
  unfold storageBits
  simp only [Option.bind_eq_bind, Option.pure_def, Option.bind_eq_some_iff, db_int, Int.natAbs_natCast, bitsN_res, Option.some.injEq]
  constructor
  · rintro ⟨b1, ⟨h1, rfl⟩, fee, hf, b2, ⟨h2, rfl⟩, acc, ha, b3, ⟨h3, rfl⟩, y, hy, sl, hsl, b4, h4, sv, hsv, va, hva,
      b5, h5, b6, ⟨h6, rfl⟩, rfl⟩
    have p4 : ((paddedSlotBytes s.slot).bind fun y => (parseBytes32 y 248).bind fun v => byte32ToFrBits v 248) =
      some b4 := by rw [hy, Option.bind_some, hsl]; exact h4
    have p5 : ((parseBytes32 (natBytes sv.natAbs) 248).bind fun v => byte32ToFrBits v 248) = some b5 := by
      rw [hva]; exact h5
    obtain ⟨l4, rfl⟩ := (paddedSlot_iff _ _).1 p4
    obtain ⟨l5, rfl⟩ := (b32 _ (natBytes_bytes _) _).1 p5
    refine ⟨⟨s.blockNumber, fee, acc, Hex.beVal (Hex.hex2Bytes s.slot), sv.natAbs, s.blockTime⟩, ⟨hf, ha, rfl, rfl, l4, rfl, sv, hsv, rfl⟩,
      ⟨h1, h2, h3, beVal_lt_256 _ (hex2Bytes_bytes _) l4, (natBytes_length _).1 l5, h6⟩, ?_⟩
    simp only [storageSpec, toU_append, natBytes_val]
  · rintro ⟨⟨n, fee, acc, sl, va, t⟩, ⟨hf, ha, e1, e2, l4, e3, sv, hsv, e4⟩, ⟨h1, h2, h3, h4, h5, h6⟩, rfl⟩
    simp only at e1 e2 e3 e4 hf ha h1 h2 h3 h4 h5 h6
    subst e1 e2 e3 e4
    have p4 := (paddedSlot_iff s.slot _).2 ⟨l4, rfl⟩
    have p5 := (b32 (natBytes sv.natAbs) (natBytes_bytes _) _).2 ⟨(natBytes_length _).2 h5, rfl⟩
    simp only [Option.bind_eq_some_iff] at p4 p5
    obtain ⟨y, hy, w, hw, e4⟩ := p4
    obtain ⟨w', hw', e5⟩ := p5
    refine ⟨_, ⟨h1, rfl⟩, fee, hf, _, ⟨h2, rfl⟩, acc, ha, _, ⟨h3, rfl⟩, y, hy, w, hw, _, e4, sv, hsv, w', hw', _, e5, _,
      ⟨h6, rfl⟩, ?_⟩
    simp only [storageSpec, toU_append, natBytes_val]

def txSpec (v : TxVal) : List Bool :=
  bitsN 32 v.blockNumber ++ bitsN 128 (res 128 v.baseFee) ++ bitsN 32 (res 32 v.mptKey) ++ bitsN 256 v.leafHash ++
    bitsN 64 v.blockTime

theorem txBits_iff (P : List ℕ → Option ℤ) (t : TxInfo) (b : List ℕ) :
    txBits P t = some b ↔ ∃ v, TxDenotes P t v ∧ TxFits v ∧ b = toU (txSpec v) := by
  unfold txBits
  simp only [Option.bind_eq_bind, Option.pure_def, Option.bind_eq_some_iff, db_int, Int.natAbs_natCast, bitsN_res, Option.some.injEq]
  constructor
  · rintro ⟨b1, ⟨h1, rfl⟩, fee, hf, b2, ⟨h2, rfl⟩, acc, ha, b3, ⟨h3, rfl⟩, va, hva, b5, h5, b6, ⟨h6, rfl⟩, rfl⟩
    have p5 : ((parseBytes32 (Hex.hex2Bytes t.leafHash) 248).bind fun v => byte32ToFrBits v 248) = some b5 := by
      rw [hva]; exact h5
    obtain ⟨l5, rfl⟩ := (b32 _ (hex2Bytes_bytes _) _).1 p5
    refine ⟨⟨t.blockNumber, fee, acc, Hex.beVal (Hex.hex2Bytes t.leafHash), t.blockTime⟩, ⟨hf, ha, rfl, rfl, l5, rfl⟩,
      ⟨h1, h2, h3, beVal_lt_256 _ (hex2Bytes_bytes _) l5, h6⟩, ?_⟩
    simp only [txSpec, toU_append]
  · rintro ⟨⟨n, fee, acc, sl, ti⟩, ⟨hf, ha, e1, e2, l4, e3⟩, ⟨h1, h2, h3, h4, h6⟩, rfl⟩
    simp only at e1 e2 e3 hf ha h1 h2 h3 h4 h6
    subst e1 e2 e3
    have p5 := (b32 (Hex.hex2Bytes t.leafHash) (hex2Bytes_bytes _) _).2 ⟨l4, rfl⟩
    simp only [Option.bind_eq_some_iff] at p5
    obtain ⟨w', hw', e5⟩ := p5
    refine ⟨_, ⟨h1, rfl⟩, fee, hf, _, ⟨h2, rfl⟩, acc, ha, _, ⟨h3, rfl⟩, w', hw', _, e5, _, ⟨h6, rfl⟩, ?_⟩
    simp only [txSpec, toU_append]

/-! ## lengths and injectivity -/

theorem flat_length (vs : List LogVal) : (vs.flatMap logSpec).length = 488 * vs.length := by
  induction vs with
  | nil => rfl
  | cons v vs ih => rw [List.flatMap_cons, List.length_append, ih, logSpec_length, List.length_cons]; ring

theorem receiptSpec_length (v : ReceiptVal) : (receiptSpec v).length = 256 + 488 * v.logs.length := by
  simp only [receiptSpec, List.length_append, bitsN_length, flat_length]; ring

theorem storageSpec_length (v : StorageVal) : (storageSpec v).length = 896 := by
  simp [storageSpec, bitsN_length]

theorem txSpec_length (v : TxVal) : (txSpec v).length = 512 := by
  simp [txSpec, bitsN_length]

theorem logSpec_inj (v w : LogVal) (hv : LogFits v) (hw : LogFits w) (h : logSpec v = logSpec w) : v = w := by
  obtain ⟨v1, v2, v3, v5, v6⟩ := hv
  obtain ⟨w1, w2, w3, w5, w6⟩ := hw
  unfold logSpec at h
  obtain ⟨h, e6⟩ := List.append_inj' h (by simp only [bitsN_length])
  obtain ⟨h, e5⟩ := List.append_inj' h (by simp only [bitsN_length])
  obtain ⟨h, e4⟩ := List.append_inj' h rfl
  obtain ⟨h, e3⟩ := List.append_inj' h (by simp only [bitsN_length])
  obtain ⟨e1, e2⟩ := List.append_inj' h (by simp only [bitsN_length])
  replace e1 := bitsN_inj v1 w1 e1
  replace e2 := bitsN_inj v2 w2 e2
  replace e3 := bitsN_inj v3 w3 e3
  replace e5 := bitsN_inj v5 w5 e5
  replace e6 := bitsN_inj v6 w6 e6
  replace e4 : v.fromTopic = w.fromTopic := by simpa using e4
  cases v; cases w
  simp only at e1 e2 e3 e4 e5 e6
  subst e1 e2 e3 e4 e5 e6; rfl

theorem flat_inj (vs ws : List LogVal) (hv : ∀ v ∈ vs, LogFits v) (hw : ∀ w ∈ ws, LogFits w)
    (hl : vs.length = ws.length) (h : vs.flatMap logSpec = ws.flatMap logSpec) : vs = ws := by
  induction vs generalizing ws with
  | nil => rw [List.length_nil] at hl; exact (List.length_eq_zero_iff.1 hl.symm).symm
  | cons v vs ih =>
    cases ws with
    | nil => simp at hl
    | cons w ws =>
      rw [List.flatMap_cons, List.flatMap_cons] at h
      obtain ⟨h1, h2⟩ := List.append_inj h (by simp only [logSpec_length])
      rw [logSpec_inj v w (hv v (by simp)) (hw w (by simp)) h1,
        ih ws (fun v h => hv v (by simp [h])) (fun v h => hw v (by simp [h])) (by simpa using hl) h2]

theorem res_inj (n : ℕ) (x y : ℤ) (h0 : 0 ≤ x) (h0' : 0 ≤ y) (h : x.natAbs < 2 ^ n) (h' : y.natAbs < 2 ^ n)
    (e : bitsN n (res n x) = bitsN n (res n y)) : x = y := by
  have := bitsN_inj (res_lt n x) (res_lt n y) e
  rw [← res_nonneg n x h0 h, ← res_nonneg n y h0' h', this]

theorem receiptSpec_inj (v w : ReceiptVal) (hv : ReceiptFits v) (hw : ReceiptFits w) (v0 : 0 ≤ v.baseFee)
    (v0' : 0 ≤ v.mptKey) (w0 : 0 ≤ w.baseFee) (w0' : 0 ≤ w.mptKey) (hl : v.logs.length = w.logs.length)
    (h : receiptSpec v = receiptSpec w) : v = w := by
  obtain ⟨v1, v2, v3, v4, v5⟩ := hv
  obtain ⟨w1, w2, w3, w4, w5⟩ := hw
  unfold receiptSpec at h
  obtain ⟨h, e5⟩ := List.append_inj' h (by simp only [bitsN_length])
  obtain ⟨h, e4⟩ := List.append_inj' h (by simp only [flat_length, hl])
  obtain ⟨h, e3⟩ := List.append_inj' h (by simp only [bitsN_length])
  obtain ⟨e1, e2⟩ := List.append_inj' h (by simp only [bitsN_length])
  replace e1 := bitsN_inj v1 w1 e1
  replace e2 := res_inj _ _ _ v0 w0 v2 w2 e2
  replace e3 := res_inj _ _ _ v0' w0' v3 w3 e3
  replace e4 := flat_inj _ _ v5 w5 hl e4
  replace e5 := bitsN_inj v4 w4 e5
  cases v; cases w
  simp only at e1 e2 e3 e4 e5
  subst e1 e2 e3 e4 e5; rfl

theorem storageSpec_inj (v w : StorageVal) (hv : StorageFits v) (hw : StorageFits w) (v0 : 0 ≤ v.baseFee)
    (v0' : 0 ≤ v.account) (w0 : 0 ≤ w.baseFee) (w0' : 0 ≤ w.account) (h : storageSpec v = storageSpec w) : v = w := by
  obtain ⟨v1, v2, v3, v4, v5, v6⟩ := hv
  obtain ⟨w1, w2, w3, w4, w5, w6⟩ := hw
  unfold storageSpec at h
  obtain ⟨h, e6⟩ := List.append_inj' h (by simp only [bitsN_length])
  obtain ⟨h, e5⟩ := List.append_inj' h (by simp only [bitsN_length])
  obtain ⟨h, e4⟩ := List.append_inj' h (by simp only [bitsN_length])
  obtain ⟨h, e3⟩ := List.append_inj' h (by simp only [bitsN_length])
  obtain ⟨e1, e2⟩ := List.append_inj' h (by simp only [bitsN_length])
  replace e1 := bitsN_inj v1 w1 e1
  replace e2 := res_inj _ _ _ v0 w0 v2 w2 e2
  replace e3 := res_inj _ _ _ v0' w0' v3 w3 e3
  replace e4 := bitsN_inj v4 w4 e4
  replace e5 := bitsN_inj v5 w5 e5
  replace e6 := bitsN_inj v6 w6 e6
  cases v; cases w
  simp only at e1 e2 e3 e4 e5 e6
  subst e1 e2 e3 e4 e5 e6; rfl

theorem txSpec_inj (v w : TxVal) (hv : TxFits v) (hw : TxFits w) (v0 : 0 ≤ v.baseFee)
    (v0' : 0 ≤ v.mptKey) (w0 : 0 ≤ w.baseFee) (w0' : 0 ≤ w.mptKey) (h : txSpec v = txSpec w) : v = w := by
  obtain ⟨v1, v2, v3, v4, v5⟩ := hv
  obtain ⟨w1, w2, w3, w4, w5⟩ := hw
  unfold txSpec at h
  obtain ⟨h, e5⟩ := List.append_inj' h (by simp only [bitsN_length])
  obtain ⟨h, e4⟩ := List.append_inj' h (by simp only [bitsN_length])
  obtain ⟨h, e3⟩ := List.append_inj' h (by simp only [bitsN_length])
  obtain ⟨e1, e2⟩ := List.append_inj' h (by simp only [bitsN_length])
  replace e1 := bitsN_inj v1 w1 e1
  replace e2 := res_inj _ _ _ v0 w0 v2 w2 e2
  replace e3 := res_inj _ _ _ v0' w0' v3 w3 e3
  replace e4 := bitsN_inj v4 w4 e4
  replace e5 := bitsN_inj v5 w5 e5
  cases v; cases w
  simp only at e1 e2 e3 e4 e5
  subst e1 e2 e3 e4 e5; rfl

theorem finish_eq (H : List ℤ → Option ℕ) (a b id : List ℕ) (h1 : finish H a = some id) (h2 : finish H b = some id) :
    packBitsToInt a = packBitsToInt b ∨ Collide H (some a) (some b) := by
  unfold finish at h1 h2
  simp only [Option.bind_eq_bind, Option.pure_def, Option.bind_eq_some_iff, Option.some.injEq] at h1 h2
  obtain ⟨x, hx, rfl⟩ := h1
  obtain ⟨y, hy, e⟩ := h2
  have : y = x := Nat.digits_inj_iff.1 (List.reverse_injective e)
  subst this
  by_cases h : packBitsToInt a = packBitsToInt b
  · exact Or.inl h
  · exact Or.inr ⟨_, _, y, rfl, rfl, h, hx, hy⟩

theorem pack_length (l : List Bool) : (packBitsToInt (toU l)).length = (l.length + 252) / 253 := by
  rw [C37_packBitsToInt]; simp

/-! ## C38 -/

/-- The bits of a layout. -/
def fieldBits (fs : List (ℕ × ℤ)) : List Bool := fs.flatMap fun f => bitsN f.1 (res f.1 f.2)

theorem fieldBits_length (fs : List (ℕ × ℤ)) : (fieldBits fs).length = width fs := by
  induction fs with
  | nil => rfl
  | cons f fs ih =>
    unfold fieldBits at ih
    simp [fieldBits, width, bitsN_length, List.flatMap_cons, ih]

theorem fieldBits_val (fs : List (ℕ × ℤ)) : natOfBits (fieldBits fs) = layout fs := by
  induction fs with
  | nil => rfl
  | cons f fs ih =>
    obtain ⟨n, x⟩ := f
    rw [show fieldBits ((n, x) :: fs) = bitsN n (res n x) ++ fieldBits fs from rfl, natOfBits_append, ih, bitsN_length]
    unfold bitsN
    rw [natOfBits_testBit n _ (res_lt n x)]
    rfl

theorem natOfBits_cut (l : List Bool) (a b : ℕ) : natOfBits ((l.drop a).take b) = natOfBits l / 2 ^ a % 2 ^ b := by
  have key : ∀ (l : List Bool) (a : ℕ), natOfBits (l.take a) = natOfBits l % 2 ^ a ∧ natOfBits (l.drop a) = natOfBits l / 2 ^ a := by
    intro l a
    rcases Nat.lt_or_ge l.length a with h | h
    · have hl := natOfBits_lt l
      have hp : 2 ^ l.length ≤ 2 ^ a := Nat.pow_le_pow_right (by norm_num) (by omega)
      rw [List.take_of_length_le (by omega), List.drop_eq_nil_of_le (by omega), Nat.mod_eq_of_lt (by omega),
        Nat.div_eq_of_lt (by omega)]
      exact ⟨rfl, rfl⟩
    · have h1 : natOfBits l = natOfBits (l.take a) + 2 ^ a * natOfBits (l.drop a) := by
        conv_lhs => rw [← List.take_append_drop a l, natOfBits_append, List.length_take, Nat.min_eq_left h]
      have h2 : natOfBits (l.take a) < 2 ^ a := by
        have := natOfBits_lt (l.take a)
        rwa [List.length_take, Nat.min_eq_left h] at this
      constructor
      · rw [h1, Nat.add_mul_mod_self_left, Nat.mod_eq_of_lt h2]
      · rw [h1, Nat.add_mul_div_left _ _ (by positivity), Nat.div_eq_of_lt h2, Nat.zero_add]
  rw [(key _ _).1, (key _ _).2]

theorem pack_fields (fs : List (ℕ × ℤ)) : packBitsToInt (toU (fieldBits fs)) = elements fs := by
  rw [C37_packBitsToInt, fieldBits_length]
  unfold elements
  refine List.map_congr_left fun k _ => ?_
  rw [natOfBits_cut, fieldBits_val, Nat.mul_comm]

theorem bool_res (b : Bool) : bitsN 1 (res 1 (if b then 1 else 0)) = [b] := by cases b <;> decide

theorem logSpec_fields (v : LogVal) : logSpec v = fieldBits (logFields v) := by
  have e := bool_res v.fromTopic
  simp only [logSpec, fieldBits, logFields, List.flatMap_cons, List.flatMap_nil, List.append_nil, bitsN_res, e,
    List.append_assoc]

theorem receiptSpec_fields (v : ReceiptVal) : receiptSpec v = fieldBits (receiptFields v) := by
  have e : v.logs.flatMap logSpec = fieldBits (v.logs.flatMap logFields) := by
    unfold fieldBits
    rw [List.flatMap_assoc]
    exact List.flatMap_congr fun l _ => logSpec_fields l
  simp only [receiptSpec, e, receiptFields, fieldBits, List.flatMap_append, List.flatMap_cons, List.flatMap_nil,
    List.append_nil, bitsN_res, List.append_assoc]

theorem storageSpec_fields (v : StorageVal) : storageSpec v = fieldBits (storageFields v) := by
  simp only [storageSpec, storageFields, fieldBits, List.flatMap_cons, List.flatMap_nil, List.append_nil, bitsN_res,
    List.append_assoc]

theorem txSpec_fields (v : TxVal) : txSpec v = fieldBits (txFields v) := by
  simp only [txSpec, txFields, fieldBits, List.flatMap_cons, List.flatMap_nil, List.append_nil, bitsN_res,
    List.append_assoc]

/-- **C38**: a receipt query has an identifier exactly when its strings parse to values that fit their widths
and the hash succeeds on the values, laid out in 32, 128, 32, (160, 16, 48, 1, 7, 256 for each log), 64 bits and cut into
elements of 253 bits; the identifier is the hash as big-endian bytes. -/
theorem C38_receipt_defined (P : List ℕ → Option ℤ) (H : List ℤ → Option ℕ) (r : ReceiptInfo) (id : List ℕ) :
    receiptId H P r = some id ↔
      ∃ v h, ReceiptDenotes P r v ∧ ReceiptFits v ∧ H (elements (receiptFields v)) = some h ∧ id = natBytes h := by
  unfold receiptId finish natBytes
  simp only [Option.bind_eq_bind, Option.pure_def, Option.bind_eq_some_iff, receiptBits_iff, Option.some.injEq,
    ← pack_fields, ← receiptSpec_fields]
  constructor
  · rintro ⟨b, ⟨v, h1, h2, rfl⟩, x, hx, rfl⟩; exact ⟨v, x, h1, h2, hx, rfl⟩
  · rintro ⟨v, x, h1, h2, hx, rfl⟩; exact ⟨_, ⟨v, h1, h2, rfl⟩, x, hx, rfl⟩

/-- The same for storage queries: 32, 128, 160, 256, 256, 64 bits. -/
theorem C38_storage_defined (P P10 : List ℕ → Option ℤ) (H : List ℤ → Option ℕ) (s : StorageInfo) (id : List ℕ) :
    storageId H P P10 s = some id ↔
      ∃ v h, StorageDenotes P P10 s v ∧ StorageFits v ∧ H (elements (storageFields v)) = some h ∧ id = natBytes h := by
  unfold storageId finish natBytes
  simp only [Option.bind_eq_bind, Option.pure_def, Option.bind_eq_some_iff, storageBits_iff, Option.some.injEq,
    ← pack_fields, ← storageSpec_fields]
  constructor
  · rintro ⟨b, ⟨v, h1, h2, rfl⟩, x, hx, rfl⟩; exact ⟨v, x, h1, h2, hx, rfl⟩
  · rintro ⟨v, x, h1, h2, hx, rfl⟩; exact ⟨_, ⟨v, h1, h2, rfl⟩, x, hx, rfl⟩

/-- The same for transaction queries: 32, 128, 32, 256, 64 bits. -/
theorem C38_tx_defined (P : List ℕ → Option ℤ) (H : List ℤ → Option ℕ) (t : TxInfo) (id : List ℕ) :
    txId H P t = some id ↔
      ∃ v h, TxDenotes P t v ∧ TxFits v ∧ H (elements (txFields v)) = some h ∧ id = natBytes h := by
  unfold txId finish natBytes
  simp only [Option.bind_eq_bind, Option.pure_def, Option.bind_eq_some_iff, txBits_iff, Option.some.injEq,
    ← pack_fields, ← txSpec_fields]
  constructor
  · rintro ⟨b, ⟨v, h1, h2, rfl⟩, x, hx, rfl⟩; exact ⟨v, x, h1, h2, hx, rfl⟩
  · rintro ⟨v, x, h1, h2, hx, rfl⟩; exact ⟨_, ⟨v, h1, h2, rfl⟩, x, hx, rfl⟩

theorem receiptDenotes_unique (P : List ℕ → Option ℤ) (r : ReceiptInfo) (v w : ReceiptVal)
    (h1 : ReceiptDenotes P r v) (h2 : ReceiptDenotes P r w) : v = w := by
  obtain ⟨a1, a2, a3, a4, a5⟩ := h1
  obtain ⟨b1, b2, b3, b4, b5⟩ := h2
  have hu : ∀ l v w, LogDenotes l v → LogDenotes l w → v = w := by
    rintro l v w ⟨a, t, x, h1, h2, h3, -, -, rfl⟩ ⟨a', t', x', h1', h2', h3', -, -, rfl⟩
    rw [h1] at h1'; rw [h2] at h2'; rw [h3] at h3'
    rw [Option.some.inj h1', Option.some.inj h2', Option.some.inj h3']
  have hlogs : v.logs = w.logs := by
    generalize v.logs = vs at a5
    generalize w.logs = ws at b5
    clear a1 a2 a3 a4 b1 b2 b3 b4
    generalize r.logs = ls at a5 b5
    induction a5 generalizing ws with
    | nil => cases b5; rfl
    | cons h _ ih =>
      cases b5 with
      | cons h' t' => rw [hu _ _ _ h h', ih _ t']
  rw [a1] at b1; rw [a2] at b2
  cases v; cases w
  simp only [Option.some.injEq] at *
  subst a3 b3 a4 b4 b1 b2 hlogs; rfl

/-- **C38**: two receipt queries (with non-negative base fee and key) and the same identifier stand for the
same values — the same block, fee, key, time and the same logs — unless the hash maps the two packed
bit strings, which then differ, to the same value. -/
theorem C38_receipt_binding (H : List ℤ → Option ℕ) (P : List ℕ → Option ℤ) (r s : ReceiptInfo) (v w : ReceiptVal)
    (id : List ℕ) (h1 : receiptId H P r = some id) (h2 : receiptId H P s = some id)
    (dv : ReceiptDenotes P r v) (dw : ReceiptDenotes P s w)
    (v0 : 0 ≤ v.baseFee) (v0' : 0 ≤ v.mptKey) (w0 : 0 ≤ w.baseFee) (w0' : 0 ≤ w.mptKey) :
    v = w ∨ Collide H (receiptBits P r) (receiptBits P s) := by
  unfold receiptId at h1 h2
  simp only [Option.bind_eq_bind, Option.bind_eq_some_iff, receiptBits_iff] at h1 h2
  obtain ⟨_, ⟨v', d1, f1, rfl⟩, h1⟩ := h1
  obtain ⟨_, ⟨w', d2, f2, rfl⟩, h2⟩ := h2
  obtain rfl := receiptDenotes_unique P r _ _ dv d1
  obtain rfl := receiptDenotes_unique P s _ _ dw d2
  rcases finish_eq H _ _ _ h1 h2 with e | e
  · left
    have hl := congrArg List.length e
    rw [pack_length, pack_length, receiptSpec_length, receiptSpec_length] at hl
    have hlen : v.logs.length = w.logs.length := by omega
    refine receiptSpec_inj v w f1 f2 v0 v0' w0 w0' hlen ?_
    apply C37_packBitsToInt_injective _ _ _ e
    rw [receiptSpec_length, receiptSpec_length, hlen]
  · refine Or.inr ?_
    rw [(receiptBits_iff P r _).2 ⟨v, dv, f1, rfl⟩, (receiptBits_iff P s _).2 ⟨w, dw, f2, rfl⟩]
    exact e

/-- **C38** for storage queries. -/
theorem C38_storage_binding (H : List ℤ → Option ℕ) (P P10 : List ℕ → Option ℤ) (r s : StorageInfo)
    (v w : StorageVal) (id : List ℕ) (h1 : storageId H P P10 r = some id) (h2 : storageId H P P10 s = some id)
    (dv : StorageDenotes P P10 r v) (dw : StorageDenotes P P10 s w)
    (v0 : 0 ≤ v.baseFee) (v0' : 0 ≤ v.account) (w0 : 0 ≤ w.baseFee) (w0' : 0 ≤ w.account) :
    v = w ∨ Collide H (storageBits P P10 r) (storageBits P P10 s) := by
  have hu : ∀ r v w, StorageDenotes P P10 r v → StorageDenotes P P10 r w → v = w := by
    rintro r v w ⟨a1, a2, a3, a4, -, a5, x, a6, a7⟩ ⟨b1, b2, b3, b4, -, b5, y, b6, b7⟩
    rw [a1] at b1; rw [a2] at b2; rw [a6] at b6
    cases v; cases w
    simp only [Option.some.injEq] at *
    subst a3 b3 a4 b4 b1 b2 b6 a5 b5 a7 b7; rfl
  unfold storageId at h1 h2
  simp only [Option.bind_eq_bind, Option.bind_eq_some_iff, storageBits_iff] at h1 h2
  obtain ⟨_, ⟨v', d1, f1, rfl⟩, h1⟩ := h1
  obtain ⟨_, ⟨w', d2, f2, rfl⟩, h2⟩ := h2
  obtain rfl := hu r _ _ dv d1
  obtain rfl := hu s _ _ dw d2
  rcases finish_eq H _ _ _ h1 h2 with e | e
  · left
    refine storageSpec_inj v w f1 f2 v0 v0' w0 w0' ?_
    exact C37_packBitsToInt_injective _ _ (by rw [storageSpec_length, storageSpec_length]) e
  · refine Or.inr ?_
    rw [(storageBits_iff P P10 r _).2 ⟨v, dv, f1, rfl⟩, (storageBits_iff P P10 s _).2 ⟨w, dw, f2, rfl⟩]
    exact e

/-- **C38** for transaction queries. -/
theorem C38_tx_binding (H : List ℤ → Option ℕ) (P : List ℕ → Option ℤ) (r s : TxInfo)
    (v w : TxVal) (id : List ℕ) (h1 : txId H P r = some id) (h2 : txId H P s = some id)
    (dv : TxDenotes P r v) (dw : TxDenotes P s w)
    (v0 : 0 ≤ v.baseFee) (v0' : 0 ≤ v.mptKey) (w0 : 0 ≤ w.baseFee) (w0' : 0 ≤ w.mptKey) :
    v = w ∨ Collide H (txBits P r) (txBits P s) := by
  have hu : ∀ r v w, TxDenotes P r v → TxDenotes P r w → v = w := by
    rintro r v w ⟨a1, a2, a3, a4, -, a5⟩ ⟨b1, b2, b3, b4, -, b5⟩
    rw [a1] at b1; rw [a2] at b2
    cases v; cases w
    simp only [Option.some.injEq] at *
    subst a3 b3 a4 b4 b1 b2 a5 b5; rfl
  unfold txId at h1 h2
  simp only [Option.bind_eq_bind, Option.bind_eq_some_iff, txBits_iff] at h1 h2
  obtain ⟨_, ⟨v', d1, f1, rfl⟩, h1⟩ := h1
  obtain ⟨_, ⟨w', d2, f2, rfl⟩, h2⟩ := h2
  obtain rfl := hu r _ _ dv d1
  obtain rfl := hu s _ _ dw d2
  rcases finish_eq H _ _ _ h1 h2 with e | e
  · left
    refine txSpec_inj v w f1 f2 v0 v0' w0 w0' ?_
    exact C37_packBitsToInt_injective _ _ (by rw [txSpec_length, txSpec_length]) e
  · refine Or.inr ?_
    rw [(txBits_iff P r _).2 ⟨v, dv, f1, rfl⟩, (txBits_iff P s _).2 ⟨w, dw, f2, rfl⟩]
    exact e

/-- **C38**, kinds: a storage query never shares its identifier with a receipt or a transaction query, unless
the hash maps the two packed bit strings, which then differ, to the same value. -/
theorem C38_storage_separate (H : List ℤ → Option ℕ) (P P10 : List ℕ → Option ℤ) (s : StorageInfo) (id : List ℕ)
    (h : storageId H P P10 s = some id) :
    (∀ r, receiptId H P r = some id → Collide H (storageBits P P10 s) (receiptBits P r)) ∧
    (∀ t, txId H P t = some id → Collide H (storageBits P P10 s) (txBits P t)) := by
  unfold storageId at h
  simp only [Option.bind_eq_bind, Option.bind_eq_some_iff, storageBits_iff] at h
  obtain ⟨_, ⟨v, dv, fv, rfl⟩, h⟩ := h
  constructor
  · intro r hr
    unfold receiptId at hr
    simp only [Option.bind_eq_bind, Option.bind_eq_some_iff, receiptBits_iff] at hr
    obtain ⟨_, ⟨w, dw, fw, rfl⟩, hr⟩ := hr
    rw [(storageBits_iff P P10 s _).2 ⟨v, dv, fv, rfl⟩, (receiptBits_iff P r _).2 ⟨w, dw, fw, rfl⟩]
    refine (finish_eq H _ _ _ h hr).resolve_left fun e => ?_
    have hl := congrArg List.length e
    rw [pack_length, pack_length, receiptSpec_length, storageSpec_length] at hl
    omega
  · intro r hr
    unfold txId at hr
    simp only [Option.bind_eq_bind, Option.bind_eq_some_iff, txBits_iff] at hr
    obtain ⟨_, ⟨w, dw, fw, rfl⟩, hr⟩ := hr
    rw [(storageBits_iff P P10 s _).2 ⟨v, dv, fv, rfl⟩, (txBits_iff P r _).2 ⟨w, dw, fw, rfl⟩]
    refine (finish_eq H _ _ _ h hr).resolve_left fun e => ?_
    have hl := congrArg List.length e
    rw [pack_length, pack_length, txSpec_length, storageSpec_length] at hl
    omega

theorem take_append_length {α : Type*} (a b : List α) (n : ℕ) (h : a.length = n) : (a ++ b).take n = a ∧ (a ++ b).drop n = b := by
  subst h; simp

theorem natOfBits_zeros (n : ℕ) : natOfBits (List.replicate n false) = 0 := by
  induction n with
  | zero => rfl
  | succ n ih => rw [List.replicate_succ]; simp [natOfBits, ih]

theorem pack_zeros (a : List Bool) (ha : a.length = 512) :
    packBitsToInt (toU (a ++ List.replicate 232 false)) = packBitsToInt (toU a) := by
  rw [C37_packBitsToInt, C37_packBitsToInt]
  have e : ((a ++ List.replicate 232 false).length + 252) / 253 = (a.length + 252) / 253 := by
    rw [List.length_append, List.length_replicate, ha]
  rw [e, ha]
  apply List.map_congr_left
  intro k hk
  have hk' : k < 3 := List.mem_range.1 hk
  congr 1
  rw [List.drop_append_of_le_length (by omega), List.take_append, natOfBits_append]
  rw [List.take_replicate, natOfBits_zeros]; simp

/-- a group of low bits followed by zeros -/
theorem third_chunk (a b : List Bool) (ha : a.length = 512) (hb : b.length = 744) :
    packBitsToInt (toU a) = packBitsToInt (toU b) ↔ b = a ++ List.replicate 232 false := by
  constructor
  · intro h
    refine C37_packBitsToInt_injective _ _ ?_ (by rw [pack_zeros a ha, h])
    rw [List.length_append, List.length_replicate, ha, hb]
  · rintro rfl; rw [pack_zeros a ha]

/-- **C38**, kinds: a receipt query whose block time is not zero never shares its identifier with a transaction
query, unless the hash maps the two packed
bit strings, which then differ, to the same value. -/
theorem C38_receipt_tx_separate (H : List ℤ → Option ℕ) (P : List ℕ → Option ℤ) (r : ReceiptInfo) (t : TxInfo)
    (id : List ℕ) (h1 : receiptId H P r = some id) (h2 : txId H P t = some id) (h0 : r.blockTime ≠ 0) :
    Collide H (receiptBits P r) (txBits P t) := by
  unfold receiptId at h1
  unfold txId at h2
  simp only [Option.bind_eq_bind, Option.bind_eq_some_iff, receiptBits_iff, txBits_iff] at h1 h2
  obtain ⟨_, ⟨v, d1, f1, rfl⟩, h1⟩ := h1
  obtain ⟨_, ⟨w, d2, f2, rfl⟩, h2⟩ := h2
  rw [(receiptBits_iff P r _).2 ⟨v, d1, f1, rfl⟩, (txBits_iff P t _).2 ⟨w, d2, f2, rfl⟩]
  refine (finish_eq H _ _ _ h1 h2).resolve_left fun e => ?_
  have hl := congrArg List.length e
  rw [pack_length, pack_length, receiptSpec_length, txSpec_length] at hl
  have h1 : v.logs.length = 1 := by omega
  have e := (third_chunk _ _ (txSpec_length w) (by rw [receiptSpec_length, h1])).1 e.symm
  rw [show 232 = 168 + 64 by rfl, List.replicate_add, ← List.append_assoc] at e
  unfold receiptSpec at e
  obtain ⟨-, e⟩ := List.append_inj' e (by rw [bitsN_length, List.length_replicate])
  have e := congrArg natOfBits e
  rw [natOfBits_zeros] at e
  unfold bitsN at e
  rw [natOfBits_testBit _ _ f1.2.2.2.1, d1.2.2.2.1] at e
  exact h0 e

/-- **C38**, the converse: without that hypothesis the kinds are not separated.  A receipt query with one log,
block time 0 and a logged value below `2^88` has, for every hash, the same identifier as a transaction query
for the same block, fee and key whose leaf hash and block time are made of the log's bits. -/
theorem C38_receipt_tx_confusion (H : List ℤ → Option ℕ) (P : List ℕ → Option ℤ) (r : ReceiptInfo) (t : TxInfo)
    (n : ℕ) (fee key : ℤ) (l : LogVal) (lh tm : ℕ)
    (dr : ReceiptDenotes P r ⟨n, fee, key, [l], 0⟩) (fr : ReceiptFits ⟨n, fee, key, [l], 0⟩)
    (dt : TxDenotes P t ⟨n, fee, key, lh, tm⟩) (hv : l.value < 2 ^ 88)
    (hlh : lh = l.address + 2 ^ 160 * l.logIndex + 2 ^ 176 * l.topicPrefix + 2 ^ 224 * l.fromTopic.toNat +
      2 ^ 225 * l.valueIndex + 2 ^ 232 * (l.value % 2 ^ 24))
    (htm : tm = l.value / 2 ^ 24) : receiptId H P r = txId H P t := by
  obtain ⟨f1, f2, f3, -, f5⟩ := fr
  obtain ⟨l1, l2, l3, l5, l6⟩ := f5 l (by simp)
  simp only at f1 f2 f3
  have hft : l.fromTopic.toNat < 2 := by cases l.fromTopic <;> decide
  have hlt : lh < 2 ^ 256 := by omega
  have htt : tm < 2 ^ 64 := by omega
  have e1 : receiptBits P r = some (toU (receiptSpec ⟨n, fee, key, [l], 0⟩)) :=
    (receiptBits_iff P r _).2 ⟨_, dr, ⟨f1, f2, f3, by simp, f5⟩, rfl⟩
  have e2 : txBits P t = some (toU (txSpec ⟨n, fee, key, lh, tm⟩)) :=
    (txBits_iff P t _).2 ⟨_, dt, ⟨f1, f2, f3, hlt, htt⟩, rfl⟩
  unfold receiptId txId
  rw [e1, e2]
  simp only [Option.bind_eq_bind, Option.bind_some, finish]
  have key : receiptSpec ⟨n, fee, key, [l], 0⟩ = txSpec ⟨n, fee, key, lh, tm⟩ ++ List.replicate 232 false := by
    unfold receiptSpec txSpec
    simp only [List.append_assoc, List.append_cancel_left_eq, List.flatMap_cons, List.flatMap_nil, List.nil_append]
    apply natOfBits_inj
    · simp only [List.length_append, logSpec_length, bitsN_length, List.length_replicate]
    · have nb : ∀ k x, x < 2 ^ k → natOfBits (bitsN k x) = x := fun k x h => natOfBits_testBit k x h
      have n1 : natOfBits [l.fromTopic] = l.fromTopic.toNat := by cases l.fromTopic <;> rfl
      simp only [logSpec, natOfBits_append, List.length_append, bitsN_length, nb _ _ l1, nb _ _ l2, nb _ _ l3, nb _ _ l5,
        nb _ _ l6, nb _ _ hlt, nb _ _ htt, natOfBits_zeros, nb 64 0 (by norm_num), n1, List.length_singleton,
        List.length_replicate]
      subst hlh htm
      have := Nat.mod_add_div l.value (2 ^ 24)
      omega
  rw [(third_chunk _ _ (txSpec_length _) (by rw [receiptSpec_length]; rfl)).2 key]

/-- **C38**, sign: the hypothesis that the fee is not negative cannot be dropped.  A fee `-k` has, for every
hash, the identifier of the fee `2^128 - k`. -/
theorem C38_negative_alias (H : List ℤ → Option ℕ) (P : List ℕ → Option ℤ) (t u : TxInfo) (v : TxVal) (k : ℕ)
    (hk : 0 < k) (hk' : k < 2 ^ 128) (hv : v.baseFee = -k) (dt : TxDenotes P t v)
    (du : TxDenotes P u { v with baseFee := 2 ^ 128 - k }) (hf : TxFits v) : txId H P t = txId H P u := by
  have e1 : txBits P t = some (toU (txSpec v)) := (txBits_iff P t _).2 ⟨_, dt, hf, rfl⟩
  have hn : ((2 : ℤ) ^ 128 - k).natAbs < 2 ^ 128 := by
    omega
  have e2 : txBits P u = some (toU (txSpec { v with baseFee := 2 ^ 128 - k })) :=
    (txBits_iff P u _).2 ⟨_, du, ⟨hf.1, hn, hf.2.2⟩, rfl⟩
  unfold txId
  rw [e1, e2]
  have : res 128 (-k : ℤ) = res 128 (2 ^ 128 - k) := by
    unfold res
    rw [show (2 : ℤ) ^ 128 - k = -k + 2 ^ 128 by ring, Int.add_emod_right]
  unfold txSpec
  simp only [hv, this]

/-! ## the hypotheses are met -/

/-- A number parser for the examples: "0", "1" and "-1". -/
def P0 : List ℕ → Option ℤ := fun s =>
  if s = [48] then some 0 else if s = [49] then some 1 else if s = [45, 49] then some (-1) else none

def log0 : LogInfo := ⟨[48, 120, 48, 55], 3, [48, 120, 48, 49, 48, 50, 48, 51, 48, 52, 48, 53, 48, 54, 97, 98], true, 2, [48, 120, 48, 57]⟩

def rec0 : ReceiptInfo := ⟨5, [49], [48], [log0, log0], 17⟩

theorem log0_denotes : LogDenotes log0 ⟨7, 3, 0x010203040506, true, 2, 9⟩ :=
  ⟨[7], [1, 2, 3, 4, 5, 6, 0xab], [9], by decide, by decide, by decide, by decide, by decide, by decide⟩

theorem rec0_denotes : ReceiptDenotes P0 rec0
    ⟨5, 1, 0, [⟨7, 3, 0x010203040506, true, 2, 9⟩, ⟨7, 3, 0x010203040506, true, 2, 9⟩], 17⟩ :=
  ⟨by decide, by decide, rfl, rfl, .cons log0_denotes (.cons log0_denotes .nil)⟩

/-- a receipt query with two logs has an identifier as soon as the hash succeeds -/
example (H : List ℤ → Option ℕ) (hH : ∀ l, H l = some 258) : receiptId H P0 rec0 = some [1, 2] := by
  refine (C38_receipt_defined P0 H rec0 _).2 ⟨_, 258, rec0_denotes, ⟨by norm_num, by norm_num, by norm_num, by norm_num, ?_⟩, hH _, ?_⟩
  · intro l hl
    have : l = ⟨7, 3, 0x010203040506, true, 2, 9⟩ := by simpa using hl
    subst this
    exact ⟨by norm_num, by norm_num, by norm_num, by norm_num, by norm_num⟩
  · norm_num [natBytes]

/-- its packed elements: 1232 bits in five numbers -/
example : elements (receiptFields ⟨5, 1, 0, [⟨7, 3, 0x010203040506, true, 2, 9⟩, ⟨7, 3, 0x010203040506, true, 2, 9⟩], 17⟩) =
    [2 ^ 32 + 5 + 2 ^ 192 * 7, 3 * 2 ^ 99 + 0x010203040506 * 2 ^ 115 + 2 ^ 163 + 2 * 2 ^ 164 + 9 * 2 ^ 171,
      7 * 2 ^ 174, 3 * 2 ^ 81 + 0x010203040506 * 2 ^ 97 + 2 ^ 145 + 2 * 2 ^ 146 + 9 * 2 ^ 153, 17 * 2 ^ 156] := by
  decide +kernel

example : TxDenotes P0 ⟨5, [45, 49], [48], [48, 120, 97, 98], 17⟩ ⟨5, -1, 0, 0xab, 17⟩ :=
  ⟨by decide, by decide, rfl, rfl, by decide, by decide⟩

example : StorageDenotes P0 P0 ⟨5, [49], [48], [48, 120, 97, 98], [49], 17⟩ ⟨5, 1, 0, 0xab, 1, 17⟩ :=
  ⟨by decide, by decide, rfl, rfl, by decide, by decide, 1, by decide, rfl⟩

/-- a transaction query confused with a receipt query: the receipt of block 5 with one log -/
example (H : List ℤ → Option ℕ) (l : LogInfo) (hl : l = ⟨[48, 120, 48, 55], 0, [48, 120, 48, 48, 48, 48, 48, 48, 48, 48, 48, 48, 48, 48],
      false, 0, [48, 120, 48, 57, 48, 48, 48, 48, 48, 48]⟩) (lh : List ℕ) (hh : (Hex.hex2Bytes lh).length ≤ 32)
      (hv : Hex.beVal (Hex.hex2Bytes lh) = 7) :
    receiptId H P0 ⟨5, [49], [48], [l], 0⟩ = txId H P0 ⟨5, [49], [48], lh, 9⟩ := by
  subst hl
  refine C38_receipt_tx_confusion H P0 _ _ 5 1 0 ⟨7, 0, 0, false, 0, 0x09000000⟩ 7 9 ?_ ?_ ?_ (by norm_num) (by norm_num)
    (by norm_num)
  · exact ⟨by decide, by decide, rfl, rfl,
      .cons ⟨[7], [0, 0, 0, 0, 0, 0], [9, 0, 0, 0], by decide, by decide, by decide, by decide, by decide, by decide⟩ .nil⟩
  · refine ⟨by norm_num, by norm_num, by norm_num, by norm_num, ?_⟩
    intro l hl
    have : l = ⟨7, 0, 0, false, 0, 0x09000000⟩ := by simpa using hl
    subst this
    exact ⟨by norm_num, by norm_num, by norm_num, by norm_num, by norm_num⟩
  · exact ⟨rfl, rfl, rfl, rfl, hh, hv.symm⟩

end Verif.QueryId
