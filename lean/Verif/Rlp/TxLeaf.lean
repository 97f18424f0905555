import Verif.Rlp.NestComplete
import Verif.Rlp.Props

/-! # Model of circuits/gadgets/rlp/rlp.go:10-142: decoding the leaf of a transaction trie -/

namespace Verif.Rlp
open Api
variable {p : ℕ}

/-- circuits/gadgets/rlp/rlp.go:11-22 `Transaction` (numbers are returned as left-aligned nibbles). -/
structure TxFields (p : ℕ) where
  chainId : List (F p)
  nonce : List (F p)
  maxPriorityGasPrice : List (F p)
  maxFeePerGas : List (F p)
  gasLimit : List (F p)
  toAddr : List (F p)
  value : List (F p)
  r : F p × F p
  s : F p × F p
  v : F p

/-- The three results of `DecodeTxLeafRlp`. -/
structure TxDecoded (p : ℕ) where
  tx : TxFields p
  signedTxRlp : List (F p)
  fieldsHexLen : List (F p)

/-- Go slicing `x[:n]` (a panic when `x` is too short). -/
def sliceTo (x : List (F p)) (n : ℕ) : Option (List (F p)) := if n ≤ x.length then some (x.take n) else none

/-- Go slicing `x[n:]`. -/
def sliceFrom (x : List (F p)) (n : ℕ) : Option (List (F p)) := if n ≤ x.length then some (x.drop n) else none

/-- circuits/gadgets/rlp/rlp.go:48-142 `DecodeTxLeafRlp`. The printing statements and the arrays copied from the
fields but never used (rlp.go:82-117) are left out. -/
def decodeTxLeafRlp (data : List (F p)) : Option (TxDecoded p) := do
  let o ← rlpNestArrayCheck txLeafParams data
  assertEq o.out 1
  let signedTxRlp ← o.fields[1]?
  let body ← sliceFrom signedTxRlp 2
  let i ← rlpNestArrayCheck signedTxParams body
  assertEq i.out 1
  let f0 ← i.fields[0]?
  let chainId ← sliceTo f0 16
  let f1 ← i.fields[1]?
  let nonce ← sliceTo f1 16
  let f2 ← i.fields[2]?
  let tip ← sliceTo f2 16
  let f3 ← i.fields[3]?
  let fee ← sliceTo f3 16
  let f4 ← i.fields[4]?
  let gas ← sliceTo f4 8
  let f5 ← i.fields[5]?
  let toAddr ← sliceTo f5 40
  let f6 ← i.fields[6]?
  let value ← sliceTo f6 64
  let f9 ← i.fields[9]?
  let l9 ← i.lens[9]?
  let v ← hexToDecimal f9 2 l9
  let f10 ← i.fields[10]?
  let l10 ← i.lens[10]?
  let r ← hex64To2Fr f10 l10
  let f11 ← i.fields[11]?
  let l11 ← i.lens[11]?
  let s ← hex64To2Fr f11 l11
  pure { tx := { chainId := chainId, nonce := nonce, maxPriorityGasPrice := tip, maxFeePerGas := fee, gasLimit := gas,
                 toAddr := toAddr, value := value, r := r, s := s, v := v }
         signedTxRlp := signedTxRlp
         fieldsHexLen := i.lens.take 7 ++ [40] }

end Verif.Rlp
