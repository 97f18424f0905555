import Verif.Common.Compose
import Mathlib.Data.Nat.Digits.Defs

/-! # Model of common/proof/query_id.go

Strings are byte lists.  `P` is `big.Int.SetString(·, 0)` as used by `Var2BigInt` on strings (external;
`none` makes `Var2BigInt` panic), `P10` is `big.Int.SetString(·, 10)` (external), `H` is the Poseidon hash of
a list of field elements (external; `none` is its error, e.g. too many inputs).  `none` as a result means that
no identifier is returned (error or panic). -/

namespace Verif.QueryId
open Compose

/-- `hexutil.Decode` (go-ethereum, external): needs the `0x`/`0X` prefix, an even number of digits and only
hex digits; anything else is an error. -/
def hexutilDecode (s : List ℕ) : Option (List ℕ) :=
  if Hex.has0xPrefix s = true ∧ (s.drop 2).length % 2 = 0 ∧ (s.drop 2).all Hex.isHexCharacter = true then
    some (Hex.decodeString (s.drop 2))
  else none

/-- `SDKQueryLogExtractInfo` (types.go:333-341), the fields that are read. -/
structure LogInfo where
  contractAddress : List ℕ
  logIndex : ℕ
  logTopic0 : List ℕ
  valueFromTopic : Bool
  valueIndex : ℕ
  value : List ℕ

/-- `SDKQueryProvingInfoForReceipt` (types.go:306-331), the fields that are read. -/
structure ReceiptInfo where
  blockNumber : ℕ
  blockBaseFee : List ℕ
  mptKey : List ℕ
  logs : List LogInfo
  blockTime : ℕ

/-- `SDKQueryProvingInfoForStorageSlot` (types.go:343-366), the fields that are read. -/
structure StorageInfo where
  blockNumber : ℕ
  blockBaseFee : List ℕ
  accountAddress : List ℕ
  slot : List ℕ
  slotValue : List ℕ
  blockTime : ℕ

/-- `SDKQueryProvingInfoForTransaction` (types.go:368-394), the fields that are read. -/
structure TxInfo where
  blockNumber : ℕ
  blockBaseFee : List ℕ
  mptKey : List ℕ
  leafHash : List ℕ
  blockTime : ℕ

/-- `logTopic0[:6]` (query_id.go:33): on fewer than six bytes the slice expression panics, or, if the decoder's
buffer has spare capacity (this depends on the Go version), reads leftover bytes; simplified here to a
failure. -/
def first6 (topic : List ℕ) : Option (List ℕ) := if topic.length < 6 then none else some (topic.take 6)

/-- One iteration of the log loop (query_id.go:19-50). -/
def logBits (l : LogInfo) : Option (List ℕ) := do
  let addr ← hexutilDecode l.contractAddress
  let b1 ← decomposeBits (Hex.beVal addr : ℤ) 160
  let b2 ← decomposeBits (l.logIndex : ℤ) 16
  let topic ← hexutilDecode l.logTopic0
  let t6 ← first6 topic
  let b3 ← decomposeBits (Hex.beVal t6 : ℤ) 48
  let b4 ← decomposeBits (if l.valueFromTopic then 1 else 0) 1
  let b5 ← decomposeBits (l.valueIndex : ℤ) 7
  let value ← hexutilDecode l.value
  let v32 ← parseBytes32 value 248
  let b6 ← byte32ToFrBits v32 248
  pure (b1 ++ b2 ++ b3 ++ b4 ++ b5 ++ b6)

/-- The bits of `MiMCHashReceiptCustomInputs` (query_id.go:14-52). -/
def receiptBits (P : List ℕ → Option ℤ) (r : ReceiptInfo) : Option (List ℕ) := do
  let b1 ← decomposeBits (r.blockNumber : ℤ) 32
  let fee ← P r.blockBaseFee
  let b2 ← decomposeBits fee 128
  let key ← P r.mptKey
  let b3 ← decomposeBits key 32
  let ls ← r.logs.foldlM (fun acc l => do let b ← logBits l; pure (acc ++ b)) (b1 ++ b2 ++ b3)
  let b4 ← decomposeBits (r.blockTime : ℤ) 64
  pure (ls ++ b4)

/-- Packing, hashing and output of the three functions (query_id.go:54-63, 88-97, 131-140): each packed value
goes through `LeftPadBytes`/`SetBytes` unchanged; `result.Bytes()` are the minimal big-endian bytes. -/
def finish (H : List ℤ → Option ℕ) (bits : List ℕ) : Option (List ℕ) := do
  let h ← H (packBitsToInt bits)
  pure (Nat.digits 256 h).reverse

/-- `MiMCHashReceiptCustomInputs` (query_id.go:11-64). -/
def receiptId (H : List ℤ → Option ℕ) (P : List ℕ → Option ℤ) (r : ReceiptInfo) : Option (List ℕ) := do
  let bits ← receiptBits P r
  finish H bits

/-- `GetPaddedSlotBytes` (query_id.go:144-149): the slice bound panics on more than 32 bytes. -/
def paddedSlotBytes (slot : List ℕ) : Option (List ℕ) :=
  let b := Hex.hex2Bytes slot
  if 32 < b.length then none else some (List.replicate (32 - b.length) 0 ++ b)

/-- Minimal big-endian bytes of a natural number (`big.Int.Bytes`, external). -/
def natBytes (n : ℕ) : List ℕ := (Nat.digits 256 n).reverse

/-- The bits of `MiMCHashStorageCustomInputs` (query_id.go:71-86).  A decimal string that does not parse gives
a nil pointer, whose `Bytes()` panics; `Bytes()` ignores the sign. -/
def storageBits (P P10 : List ℕ → Option ℤ) (s : StorageInfo) : Option (List ℕ) := do
  let b1 ← decomposeBits (s.blockNumber : ℤ) 32
  let fee ← P s.blockBaseFee
  let b2 ← decomposeBits fee 128
  let acc ← P s.accountAddress
  let b3 ← decomposeBits acc 160
  let slotBytes ← paddedSlotBytes s.slot
  let slot ← parseBytes32 slotBytes 248
  let b4 ← byte32ToFrBits slot 248
  let sv ← P10 s.slotValue
  let value ← parseBytes32 (natBytes sv.natAbs) 248
  let b5 ← byte32ToFrBits value 248
  let b6 ← decomposeBits (s.blockTime : ℤ) 64
  pure (b1 ++ b2 ++ b3 ++ b4 ++ b5 ++ b6)

/-- `MiMCHashStorageCustomInputs` (query_id.go:66-98). -/
def storageId (H : List ℤ → Option ℕ) (P P10 : List ℕ → Option ℤ) (s : StorageInfo) : Option (List ℕ) := do
  let bits ← storageBits P P10 s
  finish H bits

/-- The bits of `MiMCHashTxCustomInputs` (query_id.go:103-129). -/
def txBits (P : List ℕ → Option ℤ) (t : TxInfo) : Option (List ℕ) := do
  let b1 ← decomposeBits (t.blockNumber : ℤ) 32
  let fee ← P t.blockBaseFee
  let b2 ← decomposeBits fee 128
  let key ← P t.mptKey
  let b3 ← decomposeBits key 32
  let leaf ← parseBytes32 (Hex.hex2Bytes t.leafHash) 248
  let b4 ← byte32ToFrBits leaf 248
  let b5 ← decomposeBits (t.blockTime : ℤ) 64
  pure (b1 ++ b2 ++ b3 ++ b4 ++ b5)

/-- `MiMCHashTxCustomInputs` (query_id.go:100-141). -/
def txId (H : List ℤ → Option ℕ) (P : List ℕ → Option ℤ) (t : TxInfo) : Option (List ℕ) := do
  let bits ← txBits P t
  finish H bits

end Verif.QueryId
