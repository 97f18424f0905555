import Verif.Common.Compose
import Verif.Common.QueryId

/-! # Model of ChunkProof.EncodeABI and Groth16Proof.AsBigInts (common/proof/types.go) -/

namespace Verif.Abi
open Compose

/-- `Groth16Proof` (types.go:198-204); strings are byte lists. -/
structure Proof where
  a : List ℕ × List ℕ
  b : (List ℕ × List ℕ) × (List ℕ × List ℕ)
  c : List ℕ × List ℕ
  commitment : List ℕ × List ℕ
  commitmentPok : List ℕ × List ℕ

/-- `ChunkProof` (types.go:157-164). -/
structure Chunk where
  chunkRoot : List ℕ
  prevHash : List ℕ
  endHash : List ℕ
  startBlockNum : ℕ
  endBlockNum : ℕ
  proof : Proof

/-- `big.NewInt(int64(x)).Bytes()` for a `uint64` (types.go:184, 186): the conversion reinterprets the value
as two's complement, `Bytes` drops the sign. -/
def blockNumBytes (x : ℕ) : List ℕ := QueryId.natBytes (toInt64 x).natAbs

/-- The arguments collected by `EncodeABI` (types.go:167-187). -/
def args (p : Chunk) : List (List ℕ) :=
  let h := Hex.hex2Bytes
  let chunkRoot := Hex.hex2Hash p.chunkRoot
  let prevHash := Hex.hex2Hash p.prevHash
  let endHash := Hex.hex2Hash p.endHash
  [h p.proof.a.1, h p.proof.a.2] ++ [h p.proof.b.1.1, h p.proof.b.1.2] ++ [h p.proof.b.2.1, h p.proof.b.2.2] ++
    [h p.proof.c.1, h p.proof.c.2] ++ [[], []] ++
    [chunkRoot.take 16, chunkRoot.drop 16] ++ [prevHash.take 16, prevHash.drop 16] ++
    [endHash.take 16, endHash.drop 16] ++ [blockNumBytes p.startBlockNum] ++ [blockNumBytes p.endBlockNum]

/-- `EncodeABI` (types.go:166-196); `none` is the panic of `Pad32Bytes`. -/
def encodeABI (p : Chunk) : Option (List ℕ) :=
  (args p).foldlM (fun ret arg => do let w ← Hex.padBytes 32 arg; pure (ret ++ w)) []

/-- `AsBigInts` (types.go:206-213). -/
def asBigInts (p : Proof) : (ℕ × ℕ) × ((ℕ × ℕ) × (ℕ × ℕ)) × (ℕ × ℕ) × (ℕ × ℕ) × (ℕ × ℕ) :=
  let g := Hex.hex2BigInt
  ((g p.a.1, g p.a.2), ((g p.b.1.1, g p.b.1.2), (g p.b.2.1, g p.b.2.2)), (g p.c.1, g p.c.2),
    (g p.commitment.1, g p.commitment.2), (g p.commitmentPok.1, g p.commitmentPok.2))

end Verif.Abi
