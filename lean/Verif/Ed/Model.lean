import Verif.ND
import Verif.Sha.Props
import Verif.Primes
import Mathlib.Algebra.Field.ZMod

/-! # Model of circuits/gadgets/ed25519

`Field` is the emulated field of gnark: an element is its residue (`ZMod P`), except where the code looks at the bits of an input
element, where the integer represented by its limbs is used.  `Div` is a hint followed by `AssertIsEqual(Mul(e, b), a)`, so it is the
relation `e * b = a`: it determines the quotient only when the divisor is not zero. -/

namespace Verif.Ed

/-- twistededwards.go:23-25 `Point` (coordinates in a field `K`). -/
@[ext] structure Pt (K : Type) where
  x : K
  y : K
deriving DecidableEq

section curve
variable {K : Type} [Field K]

/-- gnark `emulated.Field.Div` (contract, see the header). -/
def div (a b : K) : Rel K := fun e => e * b = a

/-- point.go:52-86 `add`. -/
def add (a d : K) (P1 P2 : Pt K) : Rel (Pt K) := do
  let u1 := P1.x * a
  let u1 := P1.y - u1
  let u2 := P2.x + P2.y
  let u := u1 * u2
  let v0 := P2.y * P1.x
  let v1 := P2.x * P1.y
  let v0d := d * v0
  let v2 := v0d * v1
  let px := v0 + v1
  let px ← div px (1 + v2)
  let py := a * v0
  let py := py - v1
  let py := py + u
  let py ← div py (1 - v2)
  pure ⟨px, py⟩

/-- point.go:88-95 `neg`. -/
def neg (p1 : Pt K) : Pt K := ⟨-p1.x, p1.y⟩

/-- point.go:97-121 `double`. -/
def double (a : K) (p1 : Pt K) : Rel (Pt K) := do
  let u := p1.x * p1.y
  let v := p1.x * p1.x
  let w := p1.y * p1.y
  let two : K := 2
  let n1 := two * u
  let av := v * a
  let n2 := w - av
  let d1 := w + av
  let d2 := two - d1
  let pX ← div n1 d1
  let pY ← div n2 d2
  pure ⟨pX, pY⟩

/-- emulated `Lookup2` on both coordinates (contract): entry `b0 + 2*b1`. -/
def lookup2 (b0 b1 : Bool) (i0 i1 i2 i3 : Pt K) : Pt K :=
  match b0, b1 with
  | false, false => i0
  | true, false => i1
  | false, true => i2
  | true, true => i3

/-- The constant point `(Zero(), One())` of the lookups. -/
def zeroPt : Pt K := ⟨0, 1⟩

/-- point.go:141-146, the loop of `doubleBaseScalarMul` over `i = k-1, …, 0`. -/
def dbLoop (a d : K) (p1 p2 sum : Pt K) (b1 b2 : ℕ → Bool) : ℕ → Pt K → Rel (Pt K)
  | 0, res => pure res
  | i + 1, res => do
    let res ← double a res
    let tmp := lookup2 (b1 i) (b2 i) zeroPt p1 p2 sum
    let res ← add a d res tmp
    dbLoop a d p1 p2 sum b1 b2 i res

/-- point.go:123-152 `doubleBaseScalarMul`.  `b1` are the `n` bits of the first scalar and `b2` the `m` bits of the second; the Go code
indexes `b2[n-1]`, so it panics when `m < n`. -/
def doubleBaseScalarMul (a d : K) (p1 p2 : Pt K) (n m : ℕ) (b1 b2 : ℕ → Bool) : Rel (Pt K) := do
  let sum ← add a d p1 p2
  Rel.assert (0 < n ∧ n ≤ m)
  let res := lookup2 (b1 (n - 1)) (b2 (n - 1)) zeroPt p1 p2 sum
  dbLoop a d p1 p2 sum b1 b2 (n - 1) res

/-- point.go:170-179, the loop of `scalarMul`: `i = k, k-2, …`, while `i ≥ 1`.  The first argument bounds the number of iterations. -/
def smLoop (a d : K) (p1 A B : Pt K) (b : ℕ → Bool) : ℕ → ℤ → Pt K → Rel (Pt K)
  | 0, _, res => pure res
  | fuel + 1, i, res =>
    if 1 ≤ i then do
      let res ← double a res
      let res ← double a res
      let tmp := lookup2 (b i.toNat) (b (i - 1).toNat) zeroPt A p1 B
      let res ← add a d res tmp
      smLoop a d p1 A B b fuel (i - 2) res
    else pure res

/-- point.go:154-192 `scalarMul`; `b` are the `len` bits of the scalar (`b[n-1]` panics when there are fewer than two). -/
def scalarMul (a d : K) (p1 : Pt K) (len : ℕ) (b : ℕ → Bool) : Rel (Pt K) := do
  let A ← double a p1
  let B ← add a d A p1
  Rel.assert (2 ≤ len)
  let n := len - 1
  let res := lookup2 (b n) (b (n - 1)) zeroPt A p1 B
  let res ← smLoop a d p1 A B b len ((n : ℤ) - 2) res
  if n % 2 = 0 then do
    let res ← double a res
    let tmp ← add a d res p1
    pure (if b 0 then tmp else res)
  else pure res

/-- point.go:194-208 `assertIsOnCurve`. -/
def assertIsOnCurve (a d : K) (p : Pt K) : Rel Unit :=
  let xx := p.x * p.x
  let yy := p.y * p.y
  let axx := xx * a
  let lhs := axx + yy
  let dxx := xx * d
  let dxxyy := dxx * yy
  let rhs := dxxyy + 1
  Rel.assert (lhs = rhs)

/-- point.go:210-213 `assertQ`. -/
def assertQ (p : Pt K) : Rel Unit := Rel.assert (p.x = 0 ∧ p.y = 1)

end curve

/-- params.go:10 `qCurve25519`. -/
def P : ℕ := 0x7fffffffffffffffffffffffffffffffffffffffffffffffffffffffffffffed

/-- params.go:11 `rCurve25519`. -/
def L : ℕ := 0x1000000000000000000000000000000014def9dea2f79cd65812631a5cf5d3ed

/-- The emulated base field. -/
abbrev Fp := ZMod P

/-- twistededwards.go:53. -/
def cA : Fp := -1

/-- twistededwards.go:54. -/
def cD : Fp := (37095705934669439343138083508754565189542113879843219016388785533085940283555 : ℕ)

/-- twistededwards.go:57-58. -/
def base : Pt Fp :=
  ⟨(15112221349535400772501151409588531511454012693041857206046113283949847762202 : ℕ),
   (46316835694926478169428394003475163141307993866256225615783033603165251855960 : ℕ)⟩

/-- twistededwards.go:55. -/
def cofactor : ℕ := 8

instance fact_P : Fact P.Prime :=
  ⟨prime_57896044618658097711785492504343953926634992332820282019728792003956564819949⟩

instance fact_L : Fact L.Prime :=
  ⟨prime_7237005577332262213973186563042994240857116359379907606001950938285454250989⟩

section circuit
variable {p : ℕ}
open Api

/-- curve.go:37-39 `ScalarMul` for a circuit variable `s`: `api.ToBinary(s)` has as many bits as the circuit modulus. -/
def ScalarMul (p1 : Pt Fp) (s : F p) : Rel (Pt Fp) := scalarMul cA cD p1 p.size s.val.testBit

/-- curve.go:40-42 `DoubleBaseScalarMul`; `s2` is the integer held in the five 51-bit limbs of the emulated scalar, and `ToBits` gives
its 255 bits. -/
def DoubleBaseScalarMul (p1 p2 : Pt Fp) (s1 : F p) (s2 : ℕ) : Rel (Pt Fp) :=
  doubleBaseScalarMul cA cD p1 p2 p.size 255 s1.val.testBit s2.testBit

/-- ed25519.go:59-71 `copyFieldElement`.  `v` is the integer held in the limbs (5 limbs of 51 bits) of a witness element; gnark
range-checks a witness element to the 255 bits of the modulus, but not below the modulus. -/
def copyFieldElement (v : ℕ) : Option (List (F p)) := do
  if 2 ^ 255 ≤ v then none
  let bits : List (F p) := (List.range 255).map fun i => ofB (v.testBit i)
  (List.range 32).mapM fun i =>
    if i = 31 then fromBinary (bits.drop (i * 8)) else fromBinary ((bits.drop (i * 8)).take 8)

/-- ed25519.go:47-57 `bytes`. -/
def bytes (x y : ℕ) : Option (List (F p)) := do
  let outX ← copyFieldElement x
  let outX0Bits ← toBinary (outX.getD 0 0) 8
  let isNegative := outX0Bits.getD 0 0
  let out ← copyFieldElement y
  let outY31Bits ← toBinary (out.getD 31 0) 8
  let top ← Api.or (outY31Bits.getD 7 0) isNegative
  let outY31Bits := outY31Bits.set 7 top
  let b ← fromBinary outY31Bits
  pure (out.set 31 b)

/-- ed25519.go:85-92 and 109-112, the slicing of a bit list into `n` bytes (`bits[i*8:(i+1)*8]`; for the last one of `recomposeMsg`
`bits[i*8:]`, the same eight bits). -/
def byteSlices (bits : List (F p)) (n : ℕ) : Option (List (F p)) :=
  (List.range n).mapM fun i => fromBinary ((bits.drop (i * 8)).take 8)

/-- ed25519.go:73-100 `recomposeMsg`; `msg` has five elements (`[5]frontend.Variable` at its only call). -/
def recomposeMsg (msg : Fin 5 → F p) : Option (List (F p)) := do
  let b4 ← toBinary (msg 4) 176
  let b3 ← toBinary (msg 3) 200
  let b2 ← toBinary (msg 2) 200
  let b1 ← toBinary (msg 1) 200
  let b0 ← toBinary (msg 0) 200
  let buf ← byteSlices (b4 ++ b3 ++ b2 ++ b1 ++ b0) 122
  pure buf.reverse

/-- ed25519.go:102-120 `recomposePbKey`; `vbs[1]`, `vbs[0]` panic on a shorter slice. -/
def recomposePbKey (vbs : List (F p)) : Option (List (F p)) := do
  let v1 ← vbs[1]?
  let b1 ← toBinary v1 128
  let v0 ← vbs[0]?
  let b0 ← toBinary v0 128
  let buf ← byteSlices (b1 ++ b0) 32
  pure buf.reverse

/-- ed25519.go:147-150: the bits of the digest bytes. -/
def hashBits (hRam : List (F p)) : Option (List (F p)) := do
  let bs ← hRam.mapM fun b => toBinary b 8
  pure bs.flatten

/-- ed25519.go:152-153: `FromBitsOverflow` followed by `Reduce` (gnark, contract).  The result is a representative of the residue
modulo the group order that fits the 253 bits of that modulus; which one is the prover's choice. -/
def reduceScalar (bits : List (F p)) : Rel ℕ := fun v =>
  v < 2 ^ 253 ∧ v ≡ natOfBits (bits.map fun b => decide (b = 1)) [MOD L]

/-- The first half of ed25519.go:122-194 `Verify`: the bytes, the public key check, and the hash.  `rx ry` and `ax ay` are the integers
held in the coordinates of `sig.R` and `pubKey.A`. -/
def hashPart (originPubs : List (F p)) (rx ry ax ay : ℕ) (msg : Fin 5 → F p) : Option (List (F p)) := do
  let sigBytes ← bytes rx ry
  let pubKeyBytes ← bytes ax ay
  let recomposedPbs ← recomposePbKey originPubs
  (List.range 32).forM fun i => assertEq (pubKeyBytes.getD i 0) (recomposedPbs.getD i 0)
  let m ← recomposeMsg msg
  let sums ← Sha.session Sha.prm512 [.write sigBytes, .write pubKeyBytes, .write m, .sum]
  hashBits (sums.getD 0 [])

/-- ed25519.go:122-194 `Verify`, whose cofactor is 8; `S` is unpacked to the bit length of the circuit field, the hash to the 255 bits
of five 51-bit limbs. -/
def verify (originPubs : List (F p)) (rx ry : ℕ) (S : F p) (msg : Fin 5 → F p) (ax ay : ℕ) : Rel Unit := do
  let bits ← Rel.ofOption (hashPart originPubs rx ry ax ay msg)
  let hRamScalar ← reduceScalar bits
  let nA := neg ⟨(ax : Fp), (ay : Fp)⟩
  let Q ← DoubleBaseScalarMul base nA S hRamScalar
  assertIsOnCurve cA cD Q
  let Q ← add cA cD (neg Q) ⟨(rx : Fp), (ry : Fp)⟩
  let Q ← (if cofactor = 4 then do
      let Q ← double cA Q
      double cA Q
    else if cofactor = 8 then do
      let Q ← double cA Q
      let Q ← double cA Q
      double cA Q
    else pure Q : Rel (Pt Fp))
  assertQ Q

end circuit
end Verif.Ed
