import Verif.Rlp.Spec
import Verif.Common.QueryId

/-! # Model of common/proof/util.go: PrepareUnsignedTransactionRlp and RecoverTransactionSignerAddress

External code, modelled by its documentation: go-ethereum's RLP encoder (the RLP specification applied to the struct
fields in order), the getters of `types.Transaction`, `FillBytes`, `Bytes`. Keccak-256, `crypto.Ecrecover` and the step from
an uncompressed public key to an address are parameters. `none` is an error or a panic. -/

namespace Verif.TxSigner
open Spec.Rlp QueryId

/-- What the getters of go-ethereum's `types.Transaction` return; `chainId` is the stored chain id of a typed transaction.
Numbers are non-negative (true of every transaction decoded from RLP). -/
structure Tx where
  type : ℕ
  nonce : ℕ
  gasPrice : ℕ
  gasTipCap : ℕ
  gasFeeCap : ℕ
  gas : ℕ
  dest : Option (List ℕ)
  value : ℕ
  data : List ℕ
  accessList : List (List ℕ × List (List ℕ))
  chainId : ℕ
  v : ℕ
  r : ℕ
  s : ℕ

/-- go-ethereum v1.14.8 core/types/transaction_signing.go `deriveChainId` (external). -/
def deriveChainId (v : ℕ) : ℕ :=
  if v < 2 ^ 64 then if v = 27 ∨ v = 28 then 0 else ((2 ^ 64 + v - 35) % 2 ^ 64) / 2 else (v - 35) / 2

/-- `transaction.ChainId()` (external): derived from `v` for a legacy transaction. -/
def Tx.chainID (tx : Tx) : ℕ := if tx.type = 0 then deriveChainId tx.v else tx.chainId

/-- RLP of a number. -/
def encNum (n : ℕ) : List ℕ := encodeString (natBytes n)

/-- RLP of `*common.Address` with the tag `rlp:"nil"`. -/
def encTo (a : Option (List ℕ)) : List ℕ := encodeString (a.getD [])

/-- RLP of `types.AccessList`. -/
def encAccess (l : List (List ℕ × List (List ℕ))) : List ℕ :=
  encodeList (l.map fun e => encodeList [encodeString e.1, encodeList (e.2.map encodeString)])

/-- util.go:27-60 `PrepareUnsignedTransactionRlp` (struct fields: 15-25, 62-72). -/
def prepareUnsigned (tx : Tx) : Option (List ℕ) :=
  if tx.type = 0 then
    some (encodeList [encNum tx.nonce, encNum tx.gasPrice, encNum tx.gas, encTo tx.dest, encNum tx.value,
      encodeString tx.data, encNum tx.chainID, encNum 0, encNum 0])
  else if tx.type = 2 then
    some (encodeList [encNum tx.chainID, encNum tx.nonce, encNum tx.gasTipCap, encNum tx.gasFeeCap, encNum tx.gas,
      encTo tx.dest, encNum tx.value, encodeString tx.data, encAccess tx.accessList])
  else none

/-- `x.FillBytes(buf[:])` for a 32-byte buffer: panics when `x` does not fit. -/
def fill32 (x : ℕ) : Option (List ℕ) :=
  let b := natBytes x
  if b.length ≤ 32 then some (List.replicate (32 - b.length) 0 ++ b) else none

/-- util.go:91-96: the recovery id; `uint64` arithmetic wraps. -/
def recoveryValue (tx : Tx) : ℕ :=
  if tx.type = 0 then (tx.v % 2 ^ 64 + 2 * 2 ^ 64 - 35 - (tx.chainID % 2 ^ 64 * 2) % 2 ^ 64) % 2 ^ 64 else tx.v

/-- util.go:98-106: the signature handed to `Ecrecover`. -/
def sigBytes (tx : Tx) : Option (List ℕ) := do
  let r ← fill32 tx.r
  let s ← fill32 tx.s
  let v := recoveryValue tx
  pure (r ++ s ++ (if v % 2 ^ 64 = 0 then [0] else natBytes v))

/-- util.go:74-119 `RecoverTransactionSignerAddress`. `toAddr` is `UnmarshalPubkey` followed by `PubkeyToAddress`. -/
def recoverSigner (keccak : List ℕ → List ℕ) (ecrecover : List ℕ → List ℕ → Option (List ℕ))
    (toAddr : List ℕ → Option (List ℕ)) (tx : Tx) : Option (List ℕ) := do
  let u ← prepareUnsigned tx
  let bytes := (if tx.type = 0 then [] else [tx.type]) ++ u
  let sig ← sigBytes tx
  let pk ← ecrecover (keccak bytes) sig
  toAddr pk

end Verif.TxSigner
