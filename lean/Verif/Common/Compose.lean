import Verif.Api
import Verif.Common.Hex
import Mathlib.Data.Nat.Size

/-! # Model of common/utils/compose.go, binary.go and the recomposition helpers of utils.go

`*big.Int` is `ℤ`; `uint`/`byte` values are natural numbers.  `none` is a Go panic (or, for circuit code,
unsatisfiable constraints). -/

namespace Verif.Compose
open Api

/-- `ecc.BN254.ScalarField()` (external constant). -/
def bn254R : ℕ := 21888242871839275222246405745257275088548364400416034343698204186575808495617

/-- `int64(x)` for a `uint`/`byte` value `x` below 2^64. -/
def toInt64 (x : ℕ) : ℤ := if x < 2 ^ 63 then (x : ℤ) else (x : ℤ) - 2 ^ 64

/-- `decompose[T]` (compose.go:25-39); `w` is the bit width of `T` (64 for `uint`, 8 for `byte`).
`DivMod` is Euclidean; `BitLen` ignores the sign. -/
def decompose (w : ℕ) (data : ℤ) (bitSize length : ℕ) : Option (List ℕ) :=
  if length * bitSize < data.natAbs.size then none
  else
    some ((List.range length).foldl
      (fun (s : ℤ × List ℕ) _ =>
        let rem := s.1 % (2 ^ bitSize : ℤ)
        (s.1 / (2 ^ bitSize : ℤ), s.2 ++ [rem.toNat % 2 ^ 64 % 2 ^ w])) (data, [])).2

/-- `DecomposeBits` (compose.go:11-13). -/
def decomposeBits (data : ℤ) (length : ℕ) : Option (List ℕ) := decompose 64 data 1 length

/-- `recompose[T]` (compose.go:15-23). -/
def recompose (data : List ℕ) (bitSize : ℕ) : ℤ :=
  (List.range data.length).foldl
    (fun r i => (r + toInt64 (data.getD i 0) * 2 ^ (i * bitSize)) % (bn254R : ℤ)) 0

/-- `PackBitsToInt` (compose.go:41-54), with `bitLen` = bit length of the scalar field minus one.  The loop
`for i := 0; i < len(bits); i += bitLen` runs `⌈len/bitLen⌉` times. -/
def packBitsToInt (bits : List ℕ) : List ℤ :=
  let bitLen := bn254R.size - 1
  (List.range ((bits.length + bitLen - 1) / bitLen)).foldl
    (fun r k =>
      let i := k * bitLen
      let e := if i + bitLen > bits.length then bits.length else i + bitLen
      r ++ [recompose ((bits.take e).drop i) 1]) []

/-- `Byte32ToFrBits` (compose.go:99-104); `Var2BigInt` of a `*big.Int` is the identity. -/
def byte32ToFrBits (b32 : ℤ × ℤ) (frSize : ℕ) : Option (List ℕ) := do
  let a ← decomposeBits b32.1 frSize
  -- `32*8-frSize` is negative for frSize > 256: `make` panics
  let b ← if 256 < frSize then none else decomposeBits b32.2 (256 - frSize)
  pure (a ++ b)

/-- `ParseBytes32` (compose.go:108-121): `{lo, hi}`; slicing beyond the 256 bits panics. -/
def parseBytes32 (data : List ℕ) (frSize : ℕ) : Option (ℤ × ℤ) :=
  if 32 < data.length then none
  else do
    let bits ← decomposeBits (Hex.beVal data) 256
    if 256 < frSize then none
    else pure (recompose (bits.take frSize) 1, recompose (bits.drop frSize) 1)

/-- `FlipByGroups` (binary.go:40-51): copy, then swap; `none` is a division by zero or an index panic. -/
def flipByGroups {α : Type*} (inp : List α) (g : ℕ) : Option (List α) :=
  if g = 0 then none
  else
    (List.range (inp.length / g / 2)).foldlM (fun res i =>
      (List.range g).foldlM (fun res j => do
        let a := i * g + j
        let b := res.length - (i + 1) * g + j
        let x ← res[a]?
        let y ← res[b]?
        pure ((res.set a y).set b x)) res) inp

/-- `BitsToFrBigInt` (binary.go:54-68). -/
def bitsToFrBigInt (b : List ℕ) (m : ℕ) : ℕ :=
  (List.range b.length).foldl
    (fun res i =>
      if b.getD i 0 ≠ 0 then
        let res := res + 2 ^ (b.length - i - 1)
        if res > m then res % m else res
      else res) 0

/-- `DecodeByteToBinary` (binary.go:71-86): eight bits, then reversed in place. -/
def decodeByteToBinary (b : ℕ) : Option (List ℕ) :=
  Hex.reverse ((List.range 8).map fun i => if b &&& 2 ^ i ≠ 0 then 1 else 0)

section circuit
variable {p : ℕ}

/-- `PackBitsToFr` (binary.go:14-26). -/
def packBitsToFr (bits : List (F p)) : Option (List (F p)) :=
  let bitSize := p.size - 1
  (List.range ((bits.length + bitSize - 1) / bitSize)).foldlM
    (fun r k => do
      let i := k * bitSize
      let e := if i + bitSize > bits.length then bits.length else i + bitSize
      let z ← fromBinary ((bits.take e).drop i)
      pure (r ++ [z])) []

/-- `Byte32ToBits` (binary.go:88-93). -/
def byte32ToBits (b32 : F p × F p) (frSize : ℕ) : Option (List (F p)) := do
  let a ← toBinary b32.1 frSize
  let b ← toBinary b32.2 (256 - frSize)
  pure (a ++ b)

/-- `n` groups of `g` bits recomposed with `FromBinary`, then reversed in place by swaps
(the loops at utils.go:88-93, 109-115, 146-151). -/
def regroup (bits : List (F p)) (g n : ℕ) : Option (List (F p)) := do
  let ns ← (List.range n).mapM fun i => fromBinary ((bits.drop (i * g)).take g)
  Hex.reverse ns

/-- `Recompose32ByteToNibbles` (utils.go:72-95). -/
def recompose32ByteToNibbles (trunk : List (F p)) : Option (List (F p)) :=
  if trunk.length = 0 then none
  else if 256 % trunk.length ≠ 0 then none
  else do
    let w := 256 / trunk.length
    let bits ← (List.range trunk.length).foldlM (fun acc i => do
      let x ← trunk[trunk.length - i - 1]?
      let bs ← toBinary x w
      pure (acc ++ bs)) []
    regroup bits 4 64

/-- `RecomposeSDKByte32ToNibble` (utils.go:97-118). -/
def recomposeSDKByte32ToNibble (b32 : F p × F p) : Option (List (F p)) := do
  let hBits ← toBinary b32.1 248
  let lBits ← toBinary b32.2 8
  regroup (hBits ++ lBits) 4 64

/-- `RecomposeSDKByte32To2Fr` (utils.go:120-141): two 128-bit groups, swapped. -/
def recomposeSDKByte32To2Fr (b32 : F p × F p) : Option (List (F p)) := do
  let hBits ← toBinary b32.2 8
  let lBits ← toBinary b32.1 248
  regroup (lBits ++ hBits) 128 2

/-- `Recompose6BytesToNibbles` (utils.go:143-153). -/
def recompose6BytesToNibbles (d : F p) : Option (List (F p)) := do
  let bits ← toBinary d 48
  regroup bits 4 12

end circuit

/-- `ecc` scalar field of BLS12-377 (external constant). -/
def bls377R : ℕ := 8444461749428370424248824938781546531375899335154063827935233455917409239041

/-- `GenerateBls12377Hash` (utils.go:170-198).  `H` is the MiMC hash of the accepted blocks (external).
gnark-crypto's `Write` refuses a block that is not the canonical encoding of a field element and leaves the
hash state unchanged (external contract); the error is ignored at utils.go:194. -/
def generateBls12377Hash (H : List ℕ → List ℕ) (input : List ℕ) : Option (List ℕ) := do
  let bits ← input.foldlM (fun acc b => do
    let bs ← decodeByteToBinary b
    pure (acc ++ bs)) []
  let fr := (List.range ((bits.length + 252) / 253)).map fun k =>
    let i := k * 253
    if i + 253 > bits.length then bitsToFrBigInt (bits.drop i) bn254R
    else bitsToFrBigInt ((bits.take (i + 253)).drop i) bn254R
  pure (H (fr.filter fun x => decide (x < bls377R)))

/-- `MiMCBlockPad0` (utils.go:201-211): `none` is an index panic. -/
def miMCBlockPad0 (data : List ℕ) (blockSize : ℕ) : Option (List ℕ) :=
  (List.range blockSize).mapM fun i : ℕ =>
    if (i : ℤ) < (blockSize : ℤ) - data.length then some 0
    else data[((data.length : ℤ) - blockSize + i).toNat]?

/-- `CalculateAppVkHashFrom761To254` (plonk_util.go:106-116).  `H` is the BN254 MiMC hash of the accepted
blocks (external); as above, a block that is not canonical for the scalar field is refused and the error is
ignored.  A length other than 48 is only logged; slicing fewer than 24 bytes panics. -/
def appVkHash761To254 (H : List ℕ → List ℕ) (h : List ℕ) : Option (List ℕ) :=
  if h.length < 24 then none
  else do
    let a ← miMCBlockPad0 (h.take 24) 32
    let b ← miMCBlockPad0 (h.drop 24) 32
    pure (H ([Hex.beVal a, Hex.beVal b].filter fun x => decide (x < bn254R)))

end Verif.Compose
