import Mathlib.Algebra.Field.Basic
import Mathlib.Data.ZMod.Basic

/-! # Model of circuits/gadgets/pairing_bls12381/tower.go (and of the sparse products of pairing.go)

`K` is the emulated base field: gnark's emulated arithmetic (external) is exact modulo the prime `q` on the value an
element represents, so an element is modelled by that value.  `Inverse` multiplies a prover-supplied inverse with its
argument and compares with 1, so it is unsatisfiable (`none`) at 0.  The bodies are transliterated line by line. -/

namespace Verif.Bls

/-- The BLS12-381 base field modulus (params.go:13-21, `ecc.BLS12_381.BaseField()`). -/
def q : ℕ := 0x1a0111ea397fe69a4b1ba7b6434bacd764774b84f38512bf6730d2a0f6b0f6241eabfffeb153ffffb9feffffffffaaab

/-- The BLS12-381 scalar field modulus (params.go:23-28, `ecc.BLS12_381.ScalarField()`). -/
def r : ℕ := 0x73eda753299d7d483339d80809a1d80553bda402fffe5bfeffffffff00000001

/-- tower.go:13-15 `E2`. -/
@[ext] structure E2 (K : Type) where
  a0 : K
  a1 : K
deriving DecidableEq

/-- tower.go:17-19 `E6`. -/
@[ext] structure E6 (K : Type) where
  b0 : E2 K
  b1 : E2 K
  b2 : E2 K
deriving DecidableEq

/-- tower.go:21-23 `E12`. -/
@[ext] structure E12 (K : Type) where
  c0 : E6 K
  c1 : E6 K
deriving DecidableEq

variable {K : Type} [Field K] [DecidableEq K]

/-- `emulated.Field.Inverse` (external): a value whose product with `x` is 1. -/
def fpInverse (x : K) : Option K := if x = 0 then none else some x⁻¹

/-- `emulated.Field.Div` (external): a value whose product with `y` is `x`.  Simplified: `none` for `y = 0` (only
called with `y = 2`). -/
def fpDiv (x y : K) : Option K := if y = 0 then none else some (x / y)

/-- tower.go:84-93 `MulByElement`. -/
def E2.mulByElement (x : E2 K) (y : K) : E2 K :=
  let z0 := x.a0 * y
  let z1 := x.a1 * y
  ⟨z0, z1⟩

/-- tower.go:95-102 `Conjugate`. -/
def E2.conjugate (x : E2 K) : E2 K :=
  let z0 := x.a0
  let z1 := -x.a1
  ⟨z0, z1⟩

/-- tower.go:184-198 `Mul`. -/
def E2.mul (x y : E2 K) : E2 K :=
  let a := x.a0 + x.a1
  let b := y.a0 + y.a1
  let a := a * b
  let b := x.a0 * y.a0
  let c := x.a1 * y.a1
  let z1 := a - b
  let z1 := z1 - c
  let z0 := b - c
  ⟨z0, z1⟩

/-- tower.go:200-207 `Add`. -/
def E2.add (x y : E2 K) : E2 K :=
  let z0 := x.a0 + y.a0
  let z1 := x.a1 + y.a1
  ⟨z0, z1⟩

/-- tower.go:218-225 `Sub`. -/
def E2.sub (x y : E2 K) : E2 K :=
  let z0 := x.a0 - y.a0
  let z1 := x.a1 - y.a1
  ⟨z0, z1⟩

/-- tower.go:227-234 `Neg`. -/
def E2.neg (x : E2 K) : E2 K :=
  let z0 := -x.a0
  let z1 := -x.a1
  ⟨z0, z1⟩

/-- tower.go:236-243 `One`. -/
def E2.one : E2 K :=
  let z0 := (1 : K)
  let z1 := (0 : K)
  ⟨z0, z1⟩

/-- tower.go:245-252 `Zero`. -/
def E2.zero : E2 K :=
  let z0 := (0 : K)
  let z1 := (0 : K)
  ⟨z0, z1⟩

/-- tower.go:254-268 `Square`. -/
def E2.square (x : E2 K) : E2 K :=
  let a := x.a0 + x.a1
  let b := x.a0 - x.a1
  let a := a * b
  let b := x.a0 * x.a1
  let b := b * 2
  ⟨a, b⟩

/-- tower.go:278-286 `Double`. -/
def E2.double (x : E2 K) : E2 K :=
  let z0 := x.a0 * 2
  let z1 := x.a1 * 2
  ⟨z0, z1⟩

/-- tower.go:317-330 `Inverse`. -/
def E2.inverse (x : E2 K) : Option (E2 K) := do
  let t0 := x.a0 * x.a0
  let t1 := x.a1 * x.a1
  let t0 := t0 + t1
  let t1 ← fpInverse t0
  let z0 := x.a0 * t1
  let z1 := x.a1 * t1
  let z1 := -z1
  pure ⟨z0, z1⟩

/-- tower.go:270-276 `Div`. -/
def E2.div (x y : E2 K) : Option (E2 K) := do
  let r ← E2.inverse y
  let r := E2.mul x r
  pure r

/-- tower.go:288-300 `Halve`. -/
def E2.halve (x : E2 K) : Option (E2 K) := do
  let one := (1 : K)
  let two := one * 2
  let z0 ← fpDiv x.a0 two
  let z1 ← fpDiv x.a1 two
  pure ⟨z0, z1⟩

/-- tower.go:302-315 `MulBybTwistCurveCoeff`. -/
def E2.mulBybTwistCurveCoeff (x : E2 K) : E2 K :=
  let a0 := x.a0 - x.a1
  let a1 := x.a0 + x.a1
  let res : E2 K := ⟨a0, a1⟩
  let z := E2.double res
  let z := E2.double z
  z

/-- tower.go:34-54: the table of non-residue powers, by power and coefficient; a missing entry would be a nil pointer
and is never requested. -/
def nonResidue : ℕ → ℤ → ℕ × ℕ
  | 0, -1 => (2001204777610833696708894912867952078278441409969503942666029068062015825245418932221343814564507832018947136279894, 0)
  | 0, 1 => (1, 1)
  | 1, 1 => (3850754370037169011952147076051364057158807420970682438676050522613628423219637725072182697113062777891589506424760,
      151655185184498381465642749684540099398075398968325446656007613510403227271200139370504932015952886146304766135027)
  | 1, 2 => (0,
      4002409555221667392624310435006688643935503118305586438271171395842971157480381377015405980053539358417135540939436)
  | 1, 3 => (1028732146235106349975324479215795277384839936929757896155643118032610843298655225875571310552543014690878354869257,
      1028732146235106349975324479215795277384839936929757896155643118032610843298655225875571310552543014690878354869257)
  | 1, 4 => (4002409555221667392624310435006688643935503118305586438271171395842971157480381377015405980053539358417135540939437,
      0)
  | 1, 5 => (877076961050607968509681729531255177986764537961432449499635504522207616027455086505066378536590128544573588734230,
      3125332594171059424908108096204648978570118281977575435832422631601824034463382777937621250592425535493320683825557)
  | 2, 1 => (793479390729215512621379701633421447060886740281060493010456487427281649075476305620758731620351,
      0)
  | 2, 2 => (793479390729215512621379701633421447060886740281060493010456487427281649075476305620758731620350,
      0)
  | 2, 3 => (4002409555221667393417789825735904156556882819939007885332058136124031650490837864442687629129015664037894272559786,
      0)
  | 2, 4 => (4002409555221667392624310435006688643935503118305586438271171395842971157480381377015405980053539358417135540939436,
      0)
  | 2, 5 => (4002409555221667392624310435006688643935503118305586438271171395842971157480381377015405980053539358417135540939437,
      0)
  | _, _ => (0, 0)

/-- tower.go:104-108 `mulByNonResidue`. -/
def E2.mulByNonResidueAt (x : E2 K) (power : ℕ) (coef : ℤ) : E2 K :=
  let y : E2 K := ⟨((nonResidue power coef).1 : K), ((nonResidue power coef).2 : K)⟩
  E2.mul x y

/-- tower.go:110-129 `MulByNonResidue`. -/
def E2.mulByNonResidue (x : E2 K) : E2 K := E2.mulByNonResidueAt x 0 1

/-- tower.go:131-138 `MulByNonResidueInv`. -/
def E2.mulByNonResidueInv (x : E2 K) : E2 K :=
  let z0 := x.a0 + x.a1
  let z1 := x.a1 - x.a0
  E2.mulByNonResidueAt ⟨z0, z1⟩ 0 (-1)

/-- tower.go:140-142. -/
def E2.mulByNonResidue1Power1 (x : E2 K) : E2 K := E2.mulByNonResidueAt x 1 1

/-- tower.go:144-146. -/
def E2.mulByNonResidue1Power2 (x : E2 K) : E2 K := E2.mulByNonResidueAt x 1 2

/-- tower.go:148-150. -/
def E2.mulByNonResidue1Power3 (x : E2 K) : E2 K := E2.mulByNonResidueAt x 1 3

/-- tower.go:152-154. -/
def E2.mulByNonResidue1Power4 (x : E2 K) : E2 K := E2.mulByNonResidueAt x 1 4

/-- tower.go:156-158. -/
def E2.mulByNonResidue1Power5 (x : E2 K) : E2 K := E2.mulByNonResidueAt x 1 5

/-- tower.go:160-163. -/
def E2.mulByNonResidue2Power1 (x : E2 K) : E2 K := E2.mulByNonResidueAt x 2 1

/-- tower.go:164-167. -/
def E2.mulByNonResidue2Power2 (x : E2 K) : E2 K := E2.mulByNonResidueAt x 2 2

/-- tower.go:169-172. -/
def E2.mulByNonResidue2Power3 (x : E2 K) : E2 K := E2.mulByNonResidueAt x 2 3

/-- tower.go:174-177. -/
def E2.mulByNonResidue2Power4 (x : E2 K) : E2 K := E2.mulByNonResidueAt x 2 4

/-- tower.go:179-182. -/
def E2.mulByNonResidue2Power5 (x : E2 K) : E2 K := E2.mulByNonResidueAt x 2 5

/-- tower.go:337-346 `Add`. -/
def E6.add (x y : E6 K) : E6 K :=
  let z0 := E2.add x.b0 y.b0
  let z1 := E2.add x.b1 y.b1
  let z2 := E2.add x.b2 y.b2
  ⟨z0, z1, z2⟩

/-- tower.go:348-357 `Neg`. -/
def E6.neg (x : E6 K) : E6 K :=
  let z0 := E2.neg x.b0
  let z1 := E2.neg x.b1
  let z2 := E2.neg x.b2
  ⟨z0, z1, z2⟩

/-- tower.go:359-368 `Sub`. -/
def E6.sub (x y : E6 K) : E6 K :=
  let z0 := E2.sub x.b0 y.b0
  let z1 := E2.sub x.b1 y.b1
  let z2 := E2.sub x.b2 y.b2
  ⟨z0, z1, z2⟩

/-- tower.go:370-400 `Mul`. -/
def E6.mul (x y : E6 K) : E6 K :=
  let t0 := E2.mul x.b0 y.b0
  let t1 := E2.mul x.b1 y.b1
  let t2 := E2.mul x.b2 y.b2
  let c0 := E2.add x.b1 x.b2
  let tmp := E2.add y.b1 y.b2
  let c0 := E2.mul c0 tmp
  let c0 := E2.sub c0 t1
  let c0 := E2.sub c0 t2
  let c0 := E2.mulByNonResidue c0
  let c0 := E2.add c0 t0
  let c1 := E2.add x.b0 x.b1
  let tmp := E2.add y.b0 y.b1
  let c1 := E2.mul c1 tmp
  let c1 := E2.sub c1 t0
  let c1 := E2.sub c1 t1
  let tmp := E2.mulByNonResidue t2
  let c1 := E2.add c1 tmp
  let tmp := E2.add x.b0 x.b2
  let c2 := E2.add y.b0 y.b2
  let c2 := E2.mul c2 tmp
  let c2 := E2.sub c2 t0
  let c2 := E2.sub c2 t2
  let c2 := E2.add c2 t1
  ⟨c0, c1, c2⟩

/-- tower.go:402-411 `Double`. -/
def E6.double (x : E6 K) : E6 K :=
  let z0 := E2.double x.b0
  let z1 := E2.double x.b1
  let z2 := E2.double x.b2
  ⟨z0, z1, z2⟩

/-- tower.go:413-439 `Square`. -/
def E6.square (x : E6 K) : E6 K :=
  let c4 := E2.mul x.b0 x.b1
  let c4 := E2.double c4
  let c5 := E2.square x.b2
  let c1 := E2.mulByNonResidue c5
  let c1 := E2.add c1 c4
  let c2 := E2.sub c4 c5
  let c3 := E2.square x.b0
  let c4 := E2.sub x.b0 x.b1
  let c4 := E2.add c4 x.b2
  let c5 := E2.mul x.b1 x.b2
  let c5 := E2.double c5
  let c4 := E2.square c4
  let c0 := E2.mulByNonResidue c5
  let c0 := E2.add c0 c3
  let z2 := E2.add c2 c4
  let z2 := E2.add z2 c5
  let z2 := E2.sub z2 c3
  let z0 := c0
  let z1 := c1
  ⟨z0, z1, z2⟩

/-- tower.go:441-470 `Inverse`. -/
def E6.inverse (x : E6 K) : Option (E6 K) := do
  let t0 := E2.square x.b0
  let t1 := E2.square x.b1
  let t2 := E2.square x.b2
  let t3 := E2.mul x.b0 x.b1
  let t4 := E2.mul x.b0 x.b2
  let t5 := E2.mul x.b1 x.b2
  let c0 := E2.mulByNonResidue t5
  let c0 := E2.neg c0
  let c0 := E2.add c0 t0
  let c1 := E2.mulByNonResidue t2
  let c1 := E2.sub c1 t3
  let c2 := E2.sub t1 t4
  let t6 := E2.mul x.b0 c0
  let d1 := E2.mul x.b2 c1
  let d2 := E2.mul x.b1 c2
  let d1 := E2.add d1 d2
  let d1 := E2.mulByNonResidue d1
  let t6 := E2.add t6 d1
  let t6 ← E2.inverse t6
  let z0 := E2.mul c0 t6
  let z1 := E2.mul c1 t6
  let z2 := E2.mul c2 t6
  pure ⟨z0, z1, z2⟩

/-- tower.go:471-482 `MulByE2`. -/
def E6.mulByE2 (x : E6 K) (y : E2 K) : E6 K :=
  let z0 := E2.mul x.b0 y
  let z1 := E2.mul x.b1 y
  let z2 := E2.mul x.b2 y
  ⟨z0, z1, z2⟩

/-- tower.go:484-506 `MulBy1`. -/
def E6.mulBy1 (z : E6 K) (c1 : E2 K) : E6 K :=
  let b := E2.mul z.b1 c1
  let tmp := E2.add z.b1 z.b2
  let t0 := E2.mul c1 tmp
  let t0 := E2.sub t0 b
  let t0 := E2.mulByNonResidue t0
  let tmp := E2.add z.b0 z.b1
  let t1 := E2.mul c1 tmp
  let t1 := E2.sub t1 b
  let z0 := t0
  let z1 := t1
  let z2 := b
  ⟨z0, z1, z2⟩

/-- tower.go:508-531 `MulBy01`. -/
def E6.mulBy01 (z : E6 K) (c0 c1 : E2 K) : E6 K :=
  let a := E2.mul z.b0 c0
  let b := E2.mul z.b1 c1
  let tmp := E2.add z.b1 z.b2
  let t0 := E2.mul c1 tmp
  let t0 := E2.sub t0 b
  let t0 := E2.mulByNonResidue t0
  let t0 := E2.add t0 a
  let tmp := E2.add z.b0 z.b2
  let t2 := E2.mul c0 tmp
  let t2 := E2.sub t2 a
  let t2 := E2.add t2 b
  let t1 := E2.add c0 c1
  let tmp := E2.add z.b0 z.b1
  let t1 := E2.mul t1 tmp
  let t1 := E2.sub t1 a
  let t1 := E2.sub t1 b
  ⟨t0, t1, t2⟩

/-- tower.go:533-541 `MulByNonResidue`. -/
def E6.mulByNonResidue (x : E6 K) : E6 K :=
  let z2 := x.b1
  let z1 := x.b0
  let z0 := x.b2
  let z0 := E2.mulByNonResidue z0
  ⟨z0, z1, z2⟩

/-- tower.go:549-555 `Conjugate`. -/
def E12.conjugate (x : E12 K) : E12 K :=
  let z1 := E6.neg x.c1
  ⟨x.c0, z1⟩

/-- tower.go:557-571 `Inverse`. -/
def E12.inverse (x : E12 K) : Option (E12 K) := do
  let t0 := E6.square x.c0
  let t1 := E6.square x.c1
  let tmp := E6.mulByNonResidue t1
  let t0 := E6.sub t0 tmp
  let t1 ← E6.inverse t0
  let z0 := E6.mul x.c0 t1
  let z1 := E6.mul x.c1 t1
  let z1 := E6.neg z1
  pure ⟨z0, z1⟩

/-- tower.go:573-588 `Mul`. -/
def E12.mul (x y : E12 K) : E12 K :=
  let a := E6.add x.c0 x.c1
  let b := E6.add y.c0 y.c1
  let a := E6.mul a b
  let b := E6.mul x.c0 y.c0
  let c := E6.mul x.c1 y.c1
  let z1 := E6.sub a b
  let z1 := E6.sub z1 c
  let z0 := E6.mulByNonResidue c
  let z0 := E6.add z0 b
  ⟨z0, z1⟩

/-- tower.go:590-647 `CyclotomicSquare`. -/
def E12.cyclotomicSquare (x : E12 K) : E12 K :=
  let t0 := E2.square x.c1.b1
  let t1 := E2.square x.c0.b0
  let t6 := E2.add x.c1.b1 x.c0.b0
  let t6 := E2.square t6
  let t6 := E2.sub t6 t0
  let t6 := E2.sub t6 t1
  let t2 := E2.square x.c0.b2
  let t3 := E2.square x.c1.b0
  let t7 := E2.add x.c0.b2 x.c1.b0
  let t7 := E2.square t7
  let t7 := E2.sub t7 t2
  let t7 := E2.sub t7 t3
  let t4 := E2.square x.c1.b2
  let t5 := E2.square x.c0.b1
  let t8 := E2.add x.c1.b2 x.c0.b1
  let t8 := E2.square t8
  let t8 := E2.sub t8 t4
  let t8 := E2.sub t8 t5
  let t8 := E2.mulByNonResidue t8
  let t0 := E2.mulByNonResidue t0
  let t0 := E2.add t0 t1
  let t2 := E2.mulByNonResidue t2
  let t2 := E2.add t2 t3
  let t4 := E2.mulByNonResidue t4
  let t4 := E2.add t4 t5
  let z00 := E2.sub t0 x.c0.b0
  let z00 := E2.double z00
  let z00 := E2.add z00 t0
  let z01 := E2.sub t2 x.c0.b1
  let z01 := E2.double z01
  let z01 := E2.add z01 t2
  let z02 := E2.sub t4 x.c0.b2
  let z02 := E2.double z02
  let z02 := E2.add z02 t4
  let z10 := E2.add t8 x.c1.b0
  let z10 := E2.double z10
  let z10 := E2.add z10 t8
  let z11 := E2.add t6 x.c1.b1
  let z11 := E2.double z11
  let z11 := E2.add z11 t6
  let z12 := E2.add t7 x.c1.b2
  let z12 := E2.double z12
  let z12 := E2.add z12 t7
  ⟨⟨z00, z01, z02⟩, ⟨z10, z11, z12⟩⟩

/-- tower.go:649-674 `Frobenius`. -/
def E12.frobenius (x : E12 K) : E12 K :=
  let t0 := E2.conjugate x.c0.b0
  let t1 := E2.conjugate x.c0.b1
  let t2 := E2.conjugate x.c0.b2
  let t3 := E2.conjugate x.c1.b0
  let t4 := E2.conjugate x.c1.b1
  let t5 := E2.conjugate x.c1.b2
  let t1 := E2.mulByNonResidue1Power2 t1
  let t2 := E2.mulByNonResidue1Power4 t2
  let t3 := E2.mulByNonResidue1Power1 t3
  let t4 := E2.mulByNonResidue1Power3 t4
  let t5 := E2.mulByNonResidue1Power5 t5
  ⟨⟨t0, t1, t2⟩, ⟨t3, t4, t5⟩⟩

/-- tower.go:676-687 `FrobeniusSquare`. -/
def E12.frobeniusSquare (x : E12 K) : E12 K :=
  let z00 := x.c0.b0
  let z01 := E2.mulByNonResidue2Power2 x.c0.b1
  let z02 := E2.mulByNonResidue2Power4 x.c0.b2
  let z10 := E2.mulByNonResidue2Power1 x.c1.b0
  let z11 := E2.mulByNonResidue2Power3 x.c1.b1
  let z12 := E2.mulByNonResidue2Power5 x.c1.b2
  ⟨⟨z00, z01, z02⟩, ⟨z10, z11, z12⟩⟩

/-- tower.go:689-714 `FrobeniusCube`. -/
def E12.frobeniusCube (x : E12 K) : E12 K :=
  let t0 := E2.conjugate x.c0.b0
  let t1 := E2.conjugate x.c0.b1
  let t2 := E2.conjugate x.c0.b2
  let t3 := E2.conjugate x.c1.b0
  let t4 := E2.conjugate x.c1.b1
  let t5 := E2.conjugate x.c1.b2
  let t1 := E2.mulByNonResidue1Power2 t1
  let t2 := E2.mulByNonResidue1Power4 t2
  let t3 := E2.mulByNonResidue1Power1 t3
  let t4 := E2.mulByNonResidue1Power3 t4
  let t5 := E2.mulByNonResidue1Power5 t5
  ⟨⟨t0, t1, t2⟩, ⟨t3, t4, t5⟩⟩

/-- tower.go:716-764 `DecompressKarabina`. -/
def E12.decompressKarabina (x : E12 K) : Option (E12 K) := do
  let one := E2.one
  let t0 := E2.square x.c0.b1
  let t1 := E2.sub t0 x.c0.b2
  let t1 := E2.double t1
  let t1 := E2.add t1 t0
  let t2 := E2.square x.c1.b2
  let t0 := E2.mulByNonResidue t2
  let t0 := E2.add t0 t1
  let t1 := E2.double x.c1.b0
  let t1 := E2.double t1
  let zc11 ← E2.div t0 t1
  let t1 := E2.mul x.c0.b2 x.c0.b1
  let t2 := E2.square zc11
  let t2 := E2.sub t2 t1
  let t2 := E2.double t2
  let t2 := E2.sub t2 t1
  let t1 := E2.mul x.c1.b0 x.c1.b2
  let t2 := E2.add t2 t1
  let z00 := E2.mulByNonResidue t2
  let z00 := E2.add z00 one
  pure ⟨⟨z00, x.c0.b1, x.c0.b2⟩, ⟨x.c1.b0, zc11, x.c1.b2⟩⟩

/-- tower.go:820-869 `CyclotomicSquareCompressed`. -/
def E12.cyclotomicSquareCompressed (z x : E12 K) : E12 K :=
  let t0 := E2.square x.c0.b1
  let t1 := E2.square x.c1.b2
  let t5 := E2.add x.c0.b1 x.c1.b2
  let t2 := E2.square t5
  let t3 := E2.add t0 t1
  let t5 := E2.sub t2 t3
  let t6 := E2.add x.c1.b0 x.c0.b2
  let t3 := E2.square t6
  let t2 := E2.square x.c1.b0
  let t6 := E2.mulByNonResidue t5
  let t5 := E2.add t6 x.c1.b0
  let t5 := E2.double t5
  let z10 := E2.add t5 t6
  let t4 := E2.mulByNonResidue t1
  let t5 := E2.add t0 t4
  let t6 := E2.sub t5 x.c0.b2
  let t1 := E2.square x.c0.b2
  let t6 := E2.double t6
  let z02 := E2.add t6 t5
  let t4 := E2.mulByNonResidue t1
  let t5 := E2.add t2 t4
  let t6 := E2.sub t5 x.c0.b1
  let t6 := E2.double t6
  let z01 := E2.add t6 t5
  let t0 := E2.add t2 t1
  let t5 := E2.sub t3 t0
  let t6 := E2.add t5 x.c1.b2
  let t6 := E2.double t6
  let z12 := E2.add t5 t6
  ⟨⟨z.c0.b0, z01, z02⟩, ⟨z10, z.c1.b1, z12⟩⟩

/-- tower.go:806-811 `nSquareCompressed` (and 813-818 `nSquareCompressedWithoutAssert`, the same code). -/
def E12.nSquareCompressed (z : E12 K) : ℕ → E12 K
  | 0 => z
  | n + 1 => E12.nSquareCompressed (E12.cyclotomicSquareCompressed z z) n

/-- tower.go:813-818 `nSquareCompressedWithoutAssert`. -/
def E12.nSquareCompressedWithoutAssert (z : E12 K) : ℕ → E12 K
  | 0 => z
  | n + 1 => E12.nSquareCompressedWithoutAssert (E12.cyclotomicSquareCompressed z z) n

/-- tower.go:975-980 `nSquare`. -/
def E12.nSquare (z : E12 K) : ℕ → E12 K
  | 0 => z
  | n + 1 => E12.nSquare (E12.cyclotomicSquare z) n

/-- tower.go:766-799 `ExptHalf`. -/
def E12.exptHalf (x : E12 K) : Option (E12 K) := do
  let result : E12 K := ⟨x.c0, x.c1⟩
  let result := E12.nSquareCompressed result 15
  let t0 : E12 K := ⟨result.c0, result.c1⟩
  let result := E12.nSquareCompressedWithoutAssert result 32
  let t1 : E12 K := ⟨result.c0, result.c1⟩
  let b0 ← E12.decompressKarabina t0
  let b1 ← E12.decompressKarabina t1
  let result := E12.mul b0 b1
  let b1 := E12.nSquare b1 9
  let result := E12.mul result b1
  let b1 := E12.nSquare b1 3
  let result := E12.mul result b1
  let b1 := E12.nSquare b1 2
  let result := E12.mul result b1
  let b1 := E12.cyclotomicSquare b1
  let result := E12.mul result b1
  pure (E12.conjugate result)

/-- tower.go:801-804 `Expt`. -/
def E12.expt (x : E12 K) : Option (E12 K) := do
  let result ← E12.exptHalf x
  pure (E12.cyclotomicSquare result)

/-- tower.go:871-886 `One`. -/
def E12.one : E12 K :=
  let z000 := (1 : K)
  let zero := (0 : K)
  ⟨⟨⟨z000, zero⟩, ⟨zero, zero⟩, ⟨zero, zero⟩⟩, ⟨⟨zero, zero⟩, ⟨zero, zero⟩, ⟨zero, zero⟩⟩⟩

/-- tower.go:888-905 `MulBy034`. -/
def E12.mulBy034 (z : E12 K) (c0 c3 c4 : E2 K) : E12 K :=
  let a := E6.mulByE2 z.c0 c0
  let b := E6.mulBy01 z.c1 c3 c4
  let c0 := E2.add c0 c3
  let d := E6.add z.c0 z.c1
  let d := E6.mulBy01 d c0 c4
  let z1 := E6.add a b
  let z1 := E6.neg z1
  let z1 := E6.add z1 d
  let z0 := E6.mulByNonResidue b
  let z0 := E6.add z0 a
  ⟨z0, z1⟩

/-- tower.go:907-923 `Square`. -/
def E12.square (x : E12 K) : E12 K :=
  let c0 := E6.sub x.c0 x.c1
  let c3 := E6.mulByNonResidue x.c1
  let c3 := E6.neg c3
  let c3 := E6.add x.c0 c3
  let c2 := E6.mul x.c0 x.c1
  let c0 := E6.mul c0 c3
  let c0 := E6.add c0 c2
  let z1 := E6.double c2
  let c2 := E6.mulByNonResidue c2
  let z0 := E6.add c0 c2
  ⟨z0, z1⟩

/-- tower.go:925-964 `MulBy034by034`. -/
def E12.mulBy034by034 (d0 d3 d4 c0 c3 c4 : E2 K) : E12 K :=
  let x0 := E2.mul c0 d0
  let x3 := E2.mul c3 d3
  let x4 := E2.mul c4 d4
  let tmp := E2.add c0 c4
  let x04 := E2.add d0 d4
  let x04 := E2.mul x04 tmp
  let x04 := E2.sub x04 x0
  let x04 := E2.sub x04 x4
  let tmp := E2.add c0 c3
  let x03 := E2.add d0 d3
  let x03 := E2.mul x03 tmp
  let x03 := E2.sub x03 x0
  let x03 := E2.sub x03 x3
  let tmp := E2.add c3 c4
  let x34 := E2.add d3 d4
  let x34 := E2.mul x34 tmp
  let x34 := E2.sub x34 x3
  let x34 := E2.sub x34 x4
  let z00 := E2.mulByNonResidue x4
  let z00 := E2.add z00 x0
  let z01 := x3
  let z02 := x34
  let z10 := x03
  let z11 := x04
  let z12 := E2.zero
  ⟨⟨z00, z01, z02⟩, ⟨z10, z11, z12⟩⟩

/-- pairing.go:97-139 `Mul014By014`. -/
def E12.mul014By014 (d0 d1 d4 c0 c1 c4 : E2 K) : E12 K :=
  let x0 := E2.mul c0 d0
  let x1 := E2.mul c1 d1
  let x4 := E2.mul c4 d4
  let tmp := E2.add c0 c4
  let x04 := E2.add d0 d4
  let x04 := E2.mul x04 tmp
  let x04 := E2.sub x04 x0
  let x04 := E2.sub x04 x4
  let tmp := E2.add c0 c1
  let x01 := E2.add d0 d1
  let x01 := E2.mul x01 tmp
  let x01 := E2.sub x01 x0
  let x01 := E2.sub x01 x1
  let tmp := E2.add c1 c4
  let x14 := E2.add d1 d4
  let x14 := E2.mul x14 tmp
  let x14 := E2.sub x14 x1
  let x14 := E2.sub x14 x4
  let z00 := E2.mulByNonResidue x4
  let z00 := E2.add z00 x0
  let z01 := x01
  let z02 := x1
  let z10 := E2.zero
  let z11 := x04
  let z12 := x14
  ⟨⟨z00, z01, z02⟩, ⟨z10, z11, z12⟩⟩

/-- pairing.go:142-164 `MulBy014`. -/
def E12.mulBy014 (z : E12 K) (c0 c1 c4 : E2 K) : E12 K :=
  let a := z.c0
  let a := E6.mulBy01 a c0 c1
  let b := z.c1
  let b := E6.mulBy1 b c4
  let d := E2.add c1 c4
  let z1 := E6.add z.c1 z.c0
  let z1 := E6.mulBy01 z1 c0 d
  let z1 := E6.sub z1 a
  let z1 := E6.sub z1 b
  let z0 := E6.mulByNonResidue b
  let z0 := E6.add z0 a
  ⟨z0, z1⟩

/-- pairing.go:277-310 `FinalExponentiation`. -/
def E12.finalExponentiation (e : E12 K) : Option (E12 K) := do
  let t0 := E12.conjugate e
  let result ← E12.inverse e
  let t0 := E12.mul t0 result
  let result := E12.frobeniusSquare t0
  let result := E12.mul result t0
  let t0 := E12.cyclotomicSquare result
  let t1 ← E12.exptHalf t0
  let t2 := E12.conjugate result
  let t1 := E12.mul t1 t2
  let t2 ← E12.expt t1
  let t1 := E12.conjugate t1
  let t1 := E12.mul t1 t2
  let t2 ← E12.expt t1
  let t1 := E12.frobenius t1
  let t1 := E12.mul t1 t2
  let result := E12.mul result t0
  let t0 ← E12.expt t1
  let t2 ← E12.expt t0
  let t0 := E12.frobeniusSquare t1
  let t1 := E12.conjugate t1
  let t1 := E12.mul t1 t2
  let t1 := E12.mul t1 t0
  let result := E12.mul result t1
  pure result


end Verif.Bls
