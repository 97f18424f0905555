import Verif.EdHost.FieldModel

/-! # Model of /repo/circuits/gadgets/ed25519/test/edwards25519.go

Methods that may panic (`checkInitialized`) return an `Option`, `none` being the panic. -/

namespace Verif.EdHost
open Verif.Ed

/-- edwards25519.go:15-17 `projP1xP1`. -/
structure P1xP1 where
  X : Elt
  Y : Elt
  Z : Elt
  T : Elt

/-- edwards25519.go:19-21 `projP2`. -/
structure P2 where
  X : Elt
  Y : Elt
  Z : Elt

/-- edwards25519.go:29-37 `Point`. -/
structure Point where
  x : Elt
  y : Elt
  z : Elt
  t : Elt

/-- edwards25519.go:39-41 `PointAffine`. -/
structure PointAffine where
  X : Elt
  Y : Elt

/-- edwards25519.go:61-63 `projCached`. -/
structure Cached where
  YplusX : Elt
  YminusX : Elt
  Z : Elt
  T2d : Elt

/-- edwards25519.go:65-67 `affineCached`. -/
structure ACached where
  YplusX : Elt
  YminusX : Elt
  T2d : Elt

/-- edwards25519.go:43-49 `FromExtended`. -/
def fromExtended (p1 : Point) : PointAffine :=
  let I := feInvert p1.z
  ⟨feMul p1.x I, feMul p1.y I⟩

/-- edwards25519.go:53-59 `checkInitialized`, for one point: does it return (rather than panic)? -/
def initialized (p : Point) : Bool := !(decide (p.x = feZero) && decide (p.y = feZero))

/-- edwards25519.go:71-76. -/
def p2Zero : P2 := ⟨feZero, feOne, feOne⟩

/-- edwards25519.go:101-107. -/
def cachedZero : Cached := ⟨feOne, feOne, feOne, feZero⟩

/-- edwards25519.go:109-114. -/
def acachedZero : ACached := ⟨feOne, feOne, feZero⟩

/-- edwards25519.go:239-243 `d`. -/
def feD : Elt := (feSetBytes [
  0xa3, 0x78, 0x59, 0x13, 0xca, 0x4d, 0xeb, 0x75,
  0xab, 0xd8, 0x41, 0x41, 0x4d, 0x0a, 0x70, 0x00,
  0x98, 0xe8, 0x79, 0x77, 0x79, 0x40, 0xc7, 0x8c,
  0x73, 0xfe, 0x6f, 0x2b, 0xee, 0x6c, 0x03, 0x52]).getD feZero

/-- edwards25519.go:244 `d2`. -/
def feD2 : Elt := feAdd feD feD

/-- `out[31] |= b`. -/
def orLast (out : List ℕ) (b : ℕ) : List ℕ := out.set 31 (out.getD 31 0 ||| b)

/-- edwards25519.go:128-146, 201-204 `Bytes`. -/
def ptBytes (v : Point) : Option (List ℕ) :=
  if initialized v then
    let zInv := feInvert v.z
    let x := feMul v.x zInv
    let y := feMul v.y zInv
    some (orLast (feBytes y) (feIsNegative x <<< 7 % 256))
  else none

/-- edwards25519.go:157-199 `SetBytes`; `none` is the error return. -/
def ptSetBytes (x : List ℕ) : Option Point :=
  match feSetBytes x with
  | none => none
  | some y =>
    let y2 := feSquare y
    let u := feSub y2 feOne
    let vv := feMul y2 feD
    let vv := feAdd vv feOne
    let r := feSqrtRatio u vv
    let xx := r.1
    if r.2 = 0 then none
    else
      let xxNeg := feNeg xx
      let xx := feSelect xxNeg xx (x.getD 31 0 >>> 7)
      some ⟨xx, y, feOne, feMul xx y⟩

/-- edwards25519.go:79-81 `identity`. -/
def identity : Point := (ptSetBytes [
  1, 0, 0, 0, 0, 0, 0, 0, 0, 0, 0, 0, 0, 0, 0, 0,
  0, 0, 0, 0, 0, 0, 0, 0, 0, 0, 0, 0, 0, 0, 0, 0]).getD ⟨feZero, feZero, feZero, feZero⟩

/-- edwards25519.go:90-94 `generator`. -/
def generator : Point := (ptSetBytes [
  0x58, 0x66, 0x66, 0x66, 0x66, 0x66, 0x66, 0x66,
  0x66, 0x66, 0x66, 0x66, 0x66, 0x66, 0x66, 0x66,
  0x66, 0x66, 0x66, 0x66, 0x66, 0x66, 0x66, 0x66,
  0x66, 0x66, 0x66, 0x66, 0x66, 0x66, 0x66, 0x66]).getD ⟨feZero, feZero, feZero, feZero⟩

/-- edwards25519.go:208-213 `projP2.FromP1xP1`. -/
def p2FromP1 (p : P1xP1) : P2 := ⟨feMul p.X p.T, feMul p.Y p.Z, feMul p.Z p.T⟩

/-- edwards25519.go:215-220 `projP2.FromP3`. -/
def p2FromP3 (p : Point) : P2 := ⟨p.x, p.y, p.z⟩

/-- edwards25519.go:222-228 `fromP1xP1`. -/
def fromP1 (p : P1xP1) : Point := ⟨feMul p.X p.T, feMul p.Y p.Z, feMul p.Z p.T, feMul p.X p.Y⟩

/-- edwards25519.go:230-236 `fromP2`. -/
def fromP2 (p : P2) : Point := ⟨feMul p.X p.Z, feMul p.Y p.Z, feSquare p.Z, feMul p.X p.Y⟩

/-- edwards25519.go:246-252 `projCached.FromP3`. -/
def cachedFromP3 (p : Point) : Cached := ⟨feAdd p.y p.x, feSub p.y p.x, p.z, feMul p.t feD2⟩

/-- edwards25519.go:254-265 `affineCached.FromP3`. -/
def acachedFromP3 (p : Point) : ACached :=
  let invZ := feInvert p.z
  ⟨feMul (feAdd p.y p.x) invZ, feMul (feSub p.y p.x) invZ, feMul (feMul p.t feD2) invZ⟩

/-- edwards25519.go:285-303 `projP1xP1.Add`. -/
def p1Add (p : Point) (q : Cached) : P1xP1 :=
  let YplusX := feAdd p.y p.x
  let YminusX := feSub p.y p.x
  let PP := feMul YplusX q.YplusX
  let MM := feMul YminusX q.YminusX
  let TT2d := feMul p.t q.T2d
  let ZZ2 := feMul p.z q.Z
  let ZZ2 := feAdd ZZ2 ZZ2
  ⟨feSub PP MM, feAdd PP MM, feAdd ZZ2 TT2d, feSub ZZ2 TT2d⟩

/-- edwards25519.go:305-323 `projP1xP1.Sub`. -/
def p1Sub (p : Point) (q : Cached) : P1xP1 :=
  let YplusX := feAdd p.y p.x
  let YminusX := feSub p.y p.x
  let PP := feMul YplusX q.YminusX
  let MM := feMul YminusX q.YplusX
  let TT2d := feMul p.t q.T2d
  let ZZ2 := feMul p.z q.Z
  let ZZ2 := feAdd ZZ2 ZZ2
  ⟨feSub PP MM, feAdd PP MM, feSub ZZ2 TT2d, feAdd ZZ2 TT2d⟩

/-- edwards25519.go:325-342 `projP1xP1.AddAffine`. -/
def p1AddAffine (p : Point) (q : ACached) : P1xP1 :=
  let YplusX := feAdd p.y p.x
  let YminusX := feSub p.y p.x
  let PP := feMul YplusX q.YplusX
  let MM := feMul YminusX q.YminusX
  let TT2d := feMul p.t q.T2d
  let Z2 := feAdd p.z p.z
  ⟨feSub PP MM, feAdd PP MM, feAdd Z2 TT2d, feSub Z2 TT2d⟩

/-- edwards25519.go:344-361 `projP1xP1.SubAffine`. -/
def p1SubAffine (p : Point) (q : ACached) : P1xP1 :=
  let YplusX := feAdd p.y p.x
  let YminusX := feSub p.y p.x
  let PP := feMul YplusX q.YminusX
  let MM := feMul YminusX q.YplusX
  let TT2d := feMul p.t q.T2d
  let Z2 := feAdd p.z p.z
  ⟨feSub PP MM, feAdd PP MM, feSub Z2 TT2d, feAdd Z2 TT2d⟩

/-- edwards25519.go:365-381 `projP1xP1.Double`. -/
def p1Double (p : P2) : P1xP1 :=
  let XX := feSquare p.X
  let YY := feSquare p.Y
  let ZZ2 := feSquare p.Z
  let ZZ2 := feAdd ZZ2 ZZ2
  let XplusYsq := feAdd p.X p.Y
  let XplusYsq := feSquare XplusYsq
  let Y := feAdd YY XX
  let Z := feSub YY XX
  ⟨feSub XplusYsq Y, Y, Z, feSub ZZ2 Z⟩

/-- edwards25519.go:270-275 `Add`. -/
def ptAdd (p q : Point) : Option Point :=
  if initialized p && initialized q then some (fromP1 (p1Add p (cachedFromP3 q))) else none

/-- edwards25519.go:278-283 `Subtract`. -/
def ptSub (p q : Point) : Option Point :=
  if initialized p && initialized q then some (fromP1 (p1Sub p (cachedFromP3 q))) else none

/-- edwards25519.go:386-393 `Negate`. -/
def ptNeg (p : Point) : Option Point :=
  if initialized p then some ⟨feNeg p.x, p.y, p.z, feNeg p.t⟩ else none

/-- edwards25519.go:396-406 `Equal`. -/
def ptEqual (v u : Point) : Option ℕ :=
  if initialized v && initialized u then
    some (feEqual (feMul v.x u.z) (feMul u.x v.z) &&& feEqual (feMul v.y u.z) (feMul u.y v.z))
  else none

/-- edwards25519.go:415-421 `projCached.Select`. -/
def cachedSelect (a b : Cached) (c : ℕ) : Cached :=
  ⟨feSelect a.YplusX b.YplusX c, feSelect a.YminusX b.YminusX c, feSelect a.Z b.Z c, feSelect a.T2d b.T2d c⟩

/-- edwards25519.go:424-429 `affineCached.Select`. -/
def acachedSelect (a b : ACached) (c : ℕ) : ACached :=
  ⟨feSelect a.YplusX b.YplusX c, feSelect a.YminusX b.YminusX c, feSelect a.T2d b.T2d c⟩

/-- edwards25519.go:432-436 `projCached.CondNeg`. -/
def cachedCondNeg (v : Cached) (c : ℕ) : Cached :=
  let s := feSwap v.YplusX v.YminusX c
  ⟨s.1, s.2, v.Z, feSelect (feNeg v.T2d) v.T2d c⟩

/-- edwards25519.go:439-443 `affineCached.CondNeg`. -/
def acachedCondNeg (v : ACached) (c : ℕ) : ACached :=
  let s := feSwap v.YplusX v.YminusX c
  ⟨s.1, s.2, feSelect (feNeg v.T2d) v.T2d c⟩

end Verif.EdHost
