import Verif.Mux

/-! # Model of circuits/gadgets/index-proof/core/circuit_index_mpt.go -/

namespace Verif.Index
open Api

variable {p : ℕ}

/-- `SumNibble` (circuit_index_mpt.go:14-20): weighted sum of the first four variables. -/
def sumNibble (nb : List (F p)) : Option (F p) :=
  match nb with
  | a :: b :: c :: d :: _ => some (a * 1 + b * 2 + c * 4 + d * 8)
  | _ => none

/-- The two nibble sums of eight little-endian bits, high nibble first
(circuit_index_mpt.go:69-77 and 96-101: `{p[4:8], p[0:4]}` followed by `SumNibble`). -/
def byteNibbles (bits : List (F p)) : Option (F p × F p) := do
  let hi ← sumNibble ((bits.drop 4).take 4)
  let lo ← sumNibble (bits.take 4)
  pure (hi, lo)

/-- `CalTxOrReceiptIndexRlp` (circuit_index_mpt.go:30-121).  `api.ToBinary` without width is
`toBinaryFull`; the copies into `[8]` arrays (lines 56-67) are slices of the bit list. -/
def calTxOrReceiptIndexRlp (index : F p) : Option (List (F p)) := do
  let eq0 := isZero index                                   -- line 32
  let lt7 := Rlp.lessThan index 128
  let lt8 := Rlp.lessThan index 256
  let lt16 := Rlp.lessThan index 65536                      -- line 35
  let lt8 := lt8 - lt7
  let lt7 := lt7 - eq0
  let lt16 := lt16 - eq0 - lt7 - lt8                        -- line 38
  assertLe index 65535                                      -- line 40
  let bin := toBinaryFull index                             -- line 42
  let np0 ← byteNibbles (toBinaryFull (0x80 : F p))         -- lines 48-59, 69, 74
  let np1 ← byteNibbles (toBinaryFull (0x81 : F p))
  let np2 ← byteNibbles (toBinaryFull (0x82 : F p))
  let np3 ← byteNibbles bin                                 -- lines 63, 72, 77
  let npA := np0.1 * eq0 + np1.1 * lt8 + np2.1 * lt16 + np3.1 * lt7   -- lines 81-91
  let npB := np0.2 * eq0 + np1.2 * lt8 + np2.2 * lt16 + np3.2 * lt7
  let n0 ← byteNibbles (bin.drop 8)                         -- lines 64, 93, 96
  let n1 ← byteNibbles bin                                  -- lines 65, 94, 97
  let exchange := Rlp.lessThan 1 (isZero n0.1 + isZero n0.2)          -- line 100
  let a0 ← select (isZero exchange) n0.1 n1.1               -- lines 101-104
  let a1 ← select (isZero exchange) n0.2 n1.2
  let b0 ← select (isZero exchange) n1.1 n0.1
  let b1 ← select (isZero exchange) n1.2 n0.2
  let z := isZero lt7                                       -- lines 106-109
  pure [npA, npB, a0 * z, a1 * z, b0 * z, b1 * z, 0]        -- lines 111-120

/-- `IndexCheckCircuit.Define` (circuit_index_mpt.go:22-28). -/
def indexCheck (index : F p) (rlpString : List (F p)) : Option Unit := do
  let res ← calTxOrReceiptIndexRlp index
  (List.range 7).forM fun i => assertEq (res.getD i 0) (rlpString.getD i 0)

end Verif.Index
