import Verif.Common.QueryId

/-! # Model of common/utils/plonk_util.go:14-104, `CalculateAppVkHashFor761`

External: gnark's recursive PLONK verifying key (the fields are listed here), `FillBytes`, `Element.Bytes` of gnark-crypto, and
the MiMC hash over BW6-761, of which only `Write` is spelled out; the compression of the accepted blocks is a parameter. -/

namespace Verif.VkHash

/-- The scalar field of BW6-761 (external constant). -/
def bw6R : ℕ :=
  258664426012969094010652733694893533536393512754914660539884262666720468348340822774968888139573360124440321458177

/-- A point of G1, coordinates as canonical representatives. -/
abbrev G1 := ℕ × ℕ

/-- `sw_bls12377.G2Affine`: the point (X.A0, X.A1, Y.A0, Y.A1) and the precomputed lines. -/
structure G2 where
  xA0 : ℕ
  xA1 : ℕ
  yA0 : ℕ
  yA1 : ℕ
  lines : List ℕ
  deriving DecidableEq

/-- gnark std/recursion/plonk `VerifyingKey` (external type): `BaseVerifyingKey`, then `CircuitVerifyingKey`. Limbs of the coset
shift are `*big.Int`. -/
structure VK where
  nbPublicVariables : ℕ
  cosetShift : List ℕ
  kzgG1 : G1
  kzgG2 : G2 × G2
  size : ℕ
  sizeInv : List ℕ
  generator : List ℕ
  s : G1 × G1 × G1
  ql : G1
  qr : G1
  qm : G1
  qo : G1
  qk : G1
  qcp : List G1
  commitmentConstraintIndexes : List ℕ

/-- `x.FillBytes(data[:])` for 48 bytes: panics when `x` does not fit. -/
def fill48 (x : ℕ) : Option (List ℕ) :=
  let b := QueryId.natBytes x
  if b.length ≤ 48 then some (List.replicate (48 - b.length) 0 ++ b) else none

/-- `element.Bytes()`: 48 bytes big-endian of a canonical representative (external). -/
def elementBytes (x : ℕ) : List ℕ := List.replicate (48 - (QueryId.natBytes x).length) 0 ++ QueryId.natBytes x

/-- plonk_util.go:25-31 and the same lines for every other point of G1. -/
def g1Bytes (g : G1) : List ℕ := elementBytes g.1 ++ elementBytes g.2

/-- plonk_util.go:34-48. -/
def g2Bytes (g : G2) : List ℕ := elementBytes g.xA0 ++ elementBytes g.xA1 ++ elementBytes g.yA0 ++ elementBytes g.yA1

/-- plonk_util.go:16-99: the data to be hashed. -/
def hashData (vk : VK) : Option (List ℕ) := do
  let d ← fill48 vk.nbPublicVariables
  let d ← vk.cosetShift.foldlM (fun d limb => do
    let b ← fill48 limb
    pure (d ++ b)) d
  let d := d ++ g1Bytes vk.kzgG1
  let d := [vk.kzgG2.1, vk.kzgG2.2].foldl (fun d g => d ++ g2Bytes g) d
  let d := [vk.s.1, vk.s.2.1, vk.s.2.2].foldl (fun d g => d ++ g1Bytes g) d
  let d := d ++ g1Bytes vk.ql
  let d := d ++ g1Bytes vk.qr
  let d := d ++ g1Bytes vk.qm
  let d := d ++ g1Bytes vk.qo
  let d := d ++ g1Bytes vk.qk
  pure d

/-- gnark-crypto bw6-761/fr/mimc `Write` (external): blocks of 48 bytes are absorbed up to the first that is not below the
modulus; then an error is returned. -/
def accepted (data : List ℕ) : List ℕ :=
  ((List.range (data.length / 48)).map fun k => Hex.beVal ((data.drop (48 * k)).take 48)).takeWhile (fun x => decide (x < bw6R))

/-- plonk_util.go:14-104 `CalculateAppVkHashFor761`; the error of `Write` is ignored (line 101). `H` is the MiMC hash of the
absorbed elements. -/
def appVkHash (H : List ℕ → List ℕ) (vk : VK) : Option (List ℕ) := do
  let d ← hashData vk
  pure (H (accepted d))

end Verif.VkHash
