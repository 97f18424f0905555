import Verif.Keccak.Pad
import Verif.Rlp.Spec
import Verif.Common.QueryId

/-! # Model of circuits/fabric/smt/utils.go and common/circuits/smt.go

Slices are lists, bytes natural numbers.  go-ethereum's RLP encoder for block headers (external) is modelled
by the RLP specification applied to the header's fields; MiMC over BLS12-377 (external) is a parameter. -/

namespace Verif.Fabric
open Spec.Rlp QueryId

/-- go-ethereum v1.14.8 `types.Header`; hashes, addresses, bloom and nonce are byte lists, `none` is a nil
pointer. -/
structure Header where
  parentHash : List ℕ
  uncleHash : List ℕ
  coinbase : List ℕ
  root : List ℕ
  txHash : List ℕ
  receiptHash : List ℕ
  bloom : List ℕ
  difficulty : Option ℤ
  number : Option ℤ
  gasLimit : ℕ
  gasUsed : ℕ
  time : ℕ
  extra : List ℕ
  mixDigest : List ℕ
  nonce : List ℕ
  baseFee : Option ℤ
  withdrawalsHash : Option (List ℕ)
  blobGasUsed : Option ℕ
  excessBlobGas : Option ℕ
  parentBeaconRoot : Option (List ℕ)

/-- `getUintByteLen` (utils.go:74-81). -/
def getUintByteLen (x : ℕ) : ℕ := if h : 0 < x then getUintByteLen (x / 256) + 1 else 0
termination_by x
decreasing_by omega

/-- `checkLen` (utils.go:83-89) without the message. -/
def checkLen (actual max : ℕ) : ℕ := if max < actual then 1 else 0

/-- `len(x.Bytes())` of a `*big.Int`; a nil pointer panics. -/
def bigLen (x : Option ℤ) : Option ℕ := x.map fun v => (natBytes v.natAbs).length

/-- `checkDynamicFieldLen` (utils.go:63-72). -/
def checkDynamicFieldLen (h : Header) : Option Bool := do
  let d ← bigLen h.difficulty
  let n ← bigLen h.number
  let b ← bigLen h.baseFee
  pure (checkLen d 7 + checkLen n 8 + checkLen (getUintByteLen h.gasLimit) 4 + checkLen (getUintByteLen h.gasUsed) 4 +
    checkLen (getUintByteLen h.time) 4 + checkLen b 7 == 0)

/-- RLP of a `*big.Int` (external): nil is 0x80, a negative number is an error. -/
def encBig (x : Option ℤ) : Option (List ℕ) :=
  match x with
  | none => some (encodeString [])
  | some v => if v < 0 then none else some (encodeString (natBytes v.natAbs))

/-- RLP of a `uint64` (external). -/
def encUint (x : ℕ) : List ℕ := encodeString (natBytes x)

/-- The optional trailing fields (external, generated code of go-ethereum): a field is written when it or a later
one is present; a missing one is then written as the empty string. -/
def encTail : List (Option (List ℕ)) → List (List ℕ)
  | [] => []
  | x :: r =>
    if x.isSome || r.any Option.isSome then x.getD (encodeString []) :: encTail r else []

/-- `rlp.EncodeToBytes(&header)` (external). -/
def headerRlp (h : Header) : Option (List ℕ) := do
  let d ← encBig h.difficulty
  let n ← encBig h.number
  let b ← encBig h.baseFee
  pure (encodeList ([encodeString h.parentHash, encodeString h.uncleHash, encodeString h.coinbase, encodeString h.root,
    encodeString h.txHash, encodeString h.receiptHash, encodeString h.bloom, d, n, encUint h.gasLimit, encUint h.gasUsed,
    encUint h.time, encodeString h.extra, encodeString h.mixDigest, encodeString h.nonce] ++
    encTail [if h.baseFee.isSome then some b else none, h.withdrawalsHash.map encodeString, h.blobGasUsed.map encUint,
      h.excessBlobGas.map encUint, h.parentBeaconRoot.map encodeString]))

/-- One iteration of `EncodeHeaders` (utils.go:34-58): the row of bits and its block index. -/
def encodeHeader (h : Header) : Option (List ℕ × ℤ) := do
  let ok ← checkDynamicFieldLen h
  if ok then do
    let rlp ← headerRlp h
    let bits ← Keccak.bytes2BlockBits (Keccak.pad101Bytes rlp)
    -- a negative number of zeros is an empty loop
    pure (bits ++ List.replicate (5 * 1088 - bits.length) 0, (bits.length / 1088 : ℕ) - 1)
  else none

/-- `EncodeHeaders` (utils.go:33-61): `none` is an error or a panic. -/
def encodeHeaders (hs : List Header) : Option (List (List ℕ) × List ℤ) :=
  hs.foldlM (fun (acc : List (List ℕ) × List ℤ) h => do
    let (row, idx) ← encodeHeader h
    pure (acc.1 ++ [row], acc.2 ++ [idx])) ([], [])

/-- `NewHash` (utils.go:23-31): quotient and remainder by `2^128`. -/
def newHash (bs : List ℕ) : Option (ℕ × ℕ) :=
  if bs.length ≠ 32 then none
  else some (Hex.beVal bs / 2 ^ 128, Hex.beVal bs % 2 ^ 128)

/-- The MiMC hasher (external): `absorb` is what `Write` appends for the given bytes (`none` is its error), `sum` is
`Sum(nil)` of what was absorbed since `Reset`. -/
structure Hasher (E : Type) where
  absorb : List ℕ → Option (List E)
  sum : List E → List ℕ

/-- One level of `MimcRoot` (utils.go:139-148): adjacent leaves are hashed in pairs; an error of `Write` ends the
process (`CheckErrf`), an index beyond the end panics. -/
def mimcLevel {E : Type} (M : Hasher E) : List (List ℕ) → Option (List (List ℕ))
  | [] => some []
  | [_] => none
  | a :: b :: r => do
    let x ← M.absorb a
    let y ← M.absorb b
    let t ← mimcLevel M r
    pure (M.sum (x ++ y) :: t)

/-- `MimcRoot` (utils.go:126-150); the recursion is on the number of leaves, which halves (`fuel` only makes the
definition structural). -/
def mimcRootAux {E : Type} (M : Hasher E) : ℕ → List (List ℕ) → Option (List ℕ)
  | 0, _ => none
  | fuel + 1, leaves =>
    let length := leaves.length
    if length = 0 then none
    else if length &&& (length - 1) ≠ 0 then none
    else if length = 1 then leaves[0]?
    else (mimcLevel M leaves).bind (mimcRootAux M fuel)

def mimcRoot {E : Type} (M : Hasher E) (leaves : List (List ℕ)) : Option (List ℕ) :=
  mimcRootAux M leaves.length leaves

/-- `padLeft` (utils.go:170-174): `n` zeros in front. -/
def padLeft (x : List ℕ) (n : ℕ) : List ℕ := List.replicate n 0 ++ x

/-- `MimcHashBytes32` (utils.go:152-159); `elem` is `fr.Element.SetBytes` (reduction modulo the field order `r`)
followed by `Bytes` and `Write`, which absorbs exactly that element (external). -/
def mimcHashBytes32 {E : Type} (M : Hasher E) (elem : ℕ → E) (r : ℕ) (inp : List ℕ) : Option (List ℕ) :=
  if inp.length < 16 then none
  else some (M.sum [elem (Hex.beVal (padLeft (inp.take 16) 16) % r), elem (Hex.beVal (padLeft (inp.drop 16) 16) % r)])

/-- `ChunkIndexFound` (common/circuits/smt.go:10-17). -/
def chunkIndexFound (target : ℕ) : List ℕ → Bool
  | [] => false
  | v :: r => if v = target then true else chunkIndexFound target r

/-- `ObjectKey` (common/s3api/utils.go:5-7); `%d` prints decimal digits. -/
def objectKey (pre : List ℕ) (slot : ℕ) : List ℕ :=
  pre ++ [47] ++ (if slot = 0 then [48] else (Nat.digits 10 slot).reverse.map (· + 48)) ++ [46, 106, 115, 111, 110]

end Verif.Fabric
