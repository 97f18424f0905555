import Verif.Bls.H2C
import Verif.Bls.G2
import Verif.Sha.Model

/-! # Model of circuits/gadgets/pairing_bls12381/hash2curve.go: message expansion and hashing to the field -/

namespace Verif.Bls
open Verif.Api Verif.Sha

variable {p : ℕ}

/-- hash2curve.go:31 `DST`, as bytes. -/
def dstBytes : List ℕ := "BLS_SIG_BLS12381G2_XMD:SHA-256_SSWU_RO_POP_".toList.map Char.toNat

/-- hash2curve.go:34-35 `Bytes = 1 + (fp.Bits-1)/8`, `L = 16 + Bytes` with `fp.Bits = 381`. -/
def lBytes : ℕ := 16 + (1 + (381 - 1) / 8)

/-- `sha256.New(api)`, `Write(l)`, `Sum()`: hash2curve.go:64-66, 79-81, 106-108. -/
def sha256Sum (l : List (F p)) : Option (List (F p)) := do
  let d ← new prm256
  let d ← write prm256 d l
  let r ← sum prm256 d
  pure r.2

/-- hash2curve.go:45-62 `b0Preimage`; `uint8(·)` is reduction modulo 256. -/
def b0Preimage (msg : Fin 32 → F p) (lenInBytes : ℕ) : List (F p) :=
  List.replicate 64 0 ++ List.ofFn msg ++ [((lenInBytes / 256 % 256 : ℕ) : F p), ((lenInBytes % 256 : ℕ) : F p), 0]
    ++ dstBytes.map (fun b => ((b : ℕ) : F p)) ++ [43]

/-- hash2curve.go:69-77 and 94-104: `b1Preimage`, from its first 32 entries and the counter. -/
def b1Preimage (head : List (F p)) (i : ℕ) : List (F p) :=
  head ++ [((i % 256 : ℕ) : F p)] ++ dstBytes.map (fun b => ((b : ℕ) : F p)) ++ [43]

/-- hash2curve.go:94-98: the exclusive or of two bytes. -/
def xor8 (a b : F p) : Option (F p) := do
  let x ← asW 8 a
  let y ← asW 8 b
  let z ← xorW [x, y]
  pure (fromW z)

/-- Go `copy(dst[a:b], src)`. -/
def copyAt {α : Type} (dst : List α) (a b : ℕ) (src : List α) : List α :=
  dst.take a ++ src.take (b - a) ++ dst.drop (a + min (b - a) src.length)

/-- hash2curve.go:93-111: one iteration of the loop; the state is `(b1, pseudoRandomBytes)`. -/
def xmdStep (b0 : List (F p)) (lenInBytes : ℕ) (s : List (F p) × List (F p)) (i : ℕ) : Option (List (F p) × List (F p)) := do
  let head ← (List.range 32).mapM fun j => xor8 (b0.getD j 0) (s.1.getD j 0)
  let b1 ← sha256Sum (b1Preimage head i)
  pure (b1, copyAt s.2 (32 * (i - 1)) (min (32 * i) lenInBytes) b1)

/-- hash2curve.go:41-114 `ExpandMsgXmd`.  With `count = 0` the code panics (index out of range at line 85). -/
def expandMsgXmd (msg : Fin 32 → F p) (count : ℕ) : Option (List (F p)) := do
  let lenInBytes := count * lBytes
  let ell := (lenInBytes + 32 - 1) / 32
  let b0 ← sha256Sum (b0Preimage msg lenInBytes)
  let b1 ← sha256Sum (b1Preimage (b0.take 32) 1)
  if lenInBytes < 32 then none
  else do
    let bytes := b1.take 32 ++ List.replicate (lenInBytes - 32) 0
    let s ← (List.range' 2 (ell - 1)).foldlM (xmdStep b0 lenInBytes) (b1, bytes)
    pure s.2

/-- hash2curve.go:125-135 `GetUint64From8Bytes`: the bits of byte `j` go to positions `64-8(j+1) … 64-8j-1`. -/
def getUint64From8Bytes (v : List (F p)) : Option (F p) := do
  let bs ← v.mapM fun x => toBinary x 8
  pure (packLE bs.reverse.flatten)

/-- hash2curve.go:139-147 `Get64BitsFrom8Bytes`: the same bits, not packed. -/
def get64BitsFrom8Bytes (v : List (F p)) : Option (List (F p)) := do
  let bs ← v.mapM fun x => toBinary x 8
  pure bs.reverse.flatten

/-- hash2curve.go:151-157 `GetRawLimbsBy8Uint64`: eight 64-bit limbs, least significant first, reduced into the emulated field
(gnark, contract: the element is the value of the limbs modulo `q`). -/
def getRawLimbs (limbs : List (F p)) : Fq := ((limbs.foldr (fun l acc => l.val + 2 ^ 64 * acc) 0 : ℕ) : Fq)

/-- hash2curve.go:669-677: the element number `i`. -/
def fieldElem (emx : List (F p)) (i : ℕ) : Option Fq := do
  let limbs ← (List.range 8).mapM fun j =>
    getUint64From8Bytes ((emx.take (64 * (i + 1) - 8 * j)).drop (64 * (i + 1) - 8 * (j + 1)))
  pure (getRawLimbs limbs)

/-- hash2curve.go:666-690 `HashToField`. -/
def hashToField (msg : Fin 32 → F p) (count : ℕ) : Option (List (E2 Fq)) := do
  let emx ← expandMsgXmd msg count
  let u ← (List.range count).mapM (fieldElem emx)
  pure ((List.range (count / 2)).map fun n => ⟨u.getD (n * 2) 0, u.getD (n * 2 + 1) 0⟩)

/-- hash2curve.go:350-374 applied to the result of `MapElementToCurve2`, as in 695-698, 708-711, 718-728 and 745-755. -/
def mapIso (e : E2 Fq) : ND (G2Affine Fq) := do
  let xy ← mapElementToCurve2 e
  ND.ofOption (g2Isogeny ⟨xy.1, xy.2⟩)

/-- hash2curve.go:692-704 `EncodeToG2OnJac`. -/
def encodeToG2OnJac (msg : Fin 32 → F p) : ND (G2Affine Fq) := do
  let e2 ← ND.ofOption (hashToField msg 2)
  let g2 ← mapIso (e2.getD 0 E2.zero)
  let j ← g2JacFromAffine g2
  let j ← clearCofactorJac j
  g2AffineFromJac j

/-- hash2curve.go:706-713 `EncodeToG2`. -/
def encodeToG2 (msg : Fin 32 → F p) : ND (G2Affine Fq) := do
  let e2 ← ND.ofOption (hashToField msg 2)
  let g2 ← mapIso (e2.getD 0 E2.zero)
  g2ClearCofactor g2

/-- hash2curve.go:715-740 `HashToG2OnJac`. -/
def hashToG2OnJac (msg : Fin 32 → F p) : ND (G2Affine Fq) := do
  let e2 ← ND.ofOption (hashToField msg 4)
  let q0 ← mapIso (e2.getD 0 E2.zero)
  let q1 ← mapIso (e2.getD 1 E2.zero)
  let j0 ← g2JacFromAffine q0
  let j1 ← g2JacFromAffine q1
  let s ← g2JacAdd j0 j1
  let s ← clearCofactorJac s
  g2AffineFromJac s

/-- hash2curve.go:742-760 `HashToG2`. -/
def hashToG2 (msg : Fin 32 → F p) : ND (G2Affine Fq) := do
  let e2 ← ND.ofOption (hashToField msg 4)
  let q0 ← mapIso (e2.getD 0 E2.zero)
  let q1 ← mapIso (e2.getD 1 E2.zero)
  let s ← ND.ofOption (g2Add q0 q1)
  g2ClearCofactor s

end Verif.Bls
