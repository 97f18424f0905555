import Verif.Bls.Miller
import Verif.Bls.Consts

/-! # Model of circuits/gadgets/pairing_bls12381/g2.go and of the G2 part of hash2curve.go

Tests of field elements go through `Reduce` and `ToBits`: the bits are those of *some* representative below `2³⁸¹`, chosen by
the prover, so a gadget using them is a relation between inputs and outputs rather than a function. -/

namespace Verif.Bls

/-- What a prover can reach: the set of outcomes of a circuit that satisfy its constraints. -/
def ND (α : Type) : Type := α → Prop

instance : Monad ND where
  pure a := fun b => b = a
  bind m f := fun b => ∃ a, m a ∧ f a b

/-- A circuit whose outputs are determined by its inputs (`none`: unsatisfiable). -/
def ND.ofOption {α : Type} (o : Option α) : ND α := fun a => o = some a

/-- emulated `Reduce` (gnark, contract): a value of 381 bits congruent to the element.  Simplification: a fresh representative may be
chosen at every call.  In gnark an element that is already reduced keeps the limbs fixed when it was computed (these come from a hint,
so they are the prover's choice too) or, for a constant, its canonical limbs; so the model allows at least what a prover can do. -/
def reduceRep (x : Fq) : ND ℕ := fun v => v < 2 ^ 381 ∧ (v : Fq) = x

/-- hash2curve.go:522-535 `G1NotZero`; `ToBits` gives the 384 bits of the six 64-bit limbs. -/
def g1NotZero (x : Fq) : ND Bool := do
  let v ← reduceRep x
  pure ((List.range 384).foldl (fun acc i => acc || v.testBit i) false)

/-- hash2curve.go:516-520 `E2NotZero`. -/
def e2NotZero (x : E2 Fq) : ND Bool := do
  let a0 ← g1NotZero x.a0
  let a1 ← g1NotZero x.a1
  pure (a0 || a1)

/-- hash2curve.go:545-562 `G1NotEqual`. -/
def g1NotEqual (x y : Fq) : ND Bool := do
  let v ← reduceRep x
  let w ← reduceRep y
  pure ((List.range 384).foldl (fun acc i => acc || (v.testBit i ^^ w.testBit i)) false)

/-- hash2curve.go:564-569 `E2NotEqual`. -/
def e2NotEqual (x y : E2 Fq) : ND Bool := do
  let a0 ← g1NotEqual x.a0 y.a0
  let a1 ← g1NotEqual x.a1 y.a1
  pure (a0 || a1)

/-- hash2curve.go:571-576 `E2NotOne` and 537-543 `G1NotEqualOne` (the constant 1 is treated like any other element). -/
def e2NotOne (x : E2 Fq) : ND Bool := do
  let a0 ← g1NotEqual x.a0 1
  let a1 ← g1NotZero x.a1
  pure (a0 || a1)

/-- tower.go:209-216 `Select` of ext2. -/
def E2.select {K : Type} (b : Bool) (x y : E2 K) : E2 K := ⟨if b then x.a0 else y.a0, if b then x.a1 else y.a1⟩

/-- g2.go:17-19 `G2Jacobian`. -/
@[ext] structure G2Jac (K : Type) where
  x : E2 K
  y : E2 K
  z : E2 K
deriving DecidableEq

section generic
variable {K : Type} [Field K] [DecidableEq K]

/-- g2.go:126-159 `G2JacobianDouble`. -/
def g2JacDouble (p : G2Jac K) : G2Jac K :=
  let XX := E2.square p.x
  let YY := E2.square p.y
  let YYYY := E2.square YY
  let ZZ := E2.square p.z
  let S := E2.add p.x YY
  let S := E2.square S
  let S := E2.sub S XX
  let S := E2.sub S YYYY
  let S := E2.double S
  let M := E2.double XX
  let M := E2.add M XX
  let pz := E2.add p.z p.y
  let pz := E2.square pz
  let pz := E2.sub pz YY
  let pz := E2.sub pz ZZ
  let T := E2.square M
  let px := T
  let T := E2.double S
  let px := E2.sub px T
  let py := E2.sub S px
  let py := E2.mul py M
  let YYYY := E2.double YYYY
  let YYYY := E2.double YYYY
  let YYYY := E2.double YYYY
  let py := E2.sub py YYYY
  ⟨px, py, pz⟩

/-- g2.go:104-112 `G2JacobianNeg`. -/
def g2JacNeg (p : G2Jac K) : G2Jac K := ⟨p.x, E2.neg p.y, p.z⟩

/-- g2.go:294-318 `G2AddAssign`. -/
def g2Add (p p1 : G2Affine K) : Option (G2Affine K) := do
  let n := E2.sub p1.y p.y
  let d := E2.sub p1.x p.x
  let l ← E2.div n d
  let xr := E2.square l
  let xr := E2.sub xr p1.x
  let xr := E2.sub xr p.x
  let yr := E2.sub p.x xr
  let yr := E2.mul l yr
  let yr := E2.sub yr p.y
  pure ⟨xr, yr⟩

/-- g2.go:337-348 `G2Neg`. -/
def g2Neg (p : G2Affine K) : G2Affine K := ⟨p.x, E2.neg p.y⟩

/-- g2.go:352-379 `G2Double`. -/
def g2Double' (p1 : G2Affine K) : Option (G2Affine K) := do
  let n := E2.square p1.x
  let n := E2.mulByElement n 3
  let d := E2.mulByElement p1.y 2
  let l ← E2.div n d
  let xr := E2.square l
  let xr := E2.sub xr p1.x
  let xr := E2.sub xr p1.x
  let yr := E2.sub p1.x xr
  let yr := E2.mul l yr
  let yr := E2.sub yr p1.y
  pure ⟨xr, yr⟩

/-- g2.go:382-414 `DoubleAndAdd`. -/
def g2DoubleAndAdd (p1 p2 : G2Affine K) : Option (G2Affine K) := do
  let n := E2.sub p1.y p2.y
  let d := E2.sub p1.x p2.x
  let l1 ← E2.div n d
  let x3 := E2.square l1
  let x3 := E2.sub x3 p1.x
  let x3 := E2.sub x3 p2.x
  let n := E2.double p1.y
  let d := E2.sub x3 p1.x
  let l2 ← E2.div n d
  let l2 := E2.add l2 l1
  let l2 := E2.neg l2
  let x4 := E2.square l2
  let x4 := E2.sub x4 p1.x
  let x4 := E2.sub x4 x3
  let y4 := E2.sub p1.x x4
  let y4 := E2.mul l2 y4
  let y4 := E2.sub y4 p1.y
  pure ⟨x4, y4⟩

/-- g2.go:460-469 `G2SubAssign`. -/
def g2Sub (p p1 : G2Affine K) : Option (G2Affine K) := g2Add p ⟨p1.x, E2.neg p1.y⟩

/-- The conditional additions of iteration `j` of `G2ConstScalarMulV2` (see `g2ScalarLoop`). -/
def g2ScalarStep (table0 table1 : G2Affine K) (j : ℕ) (res : G2Affine K) : Option (G2Affine K) :=
  if j = 1 then g2Add res table0
  else if j = 3 then g2Add res table1
  else if j = 7 then g2Add res table0
  else if j = 23 then g2Add res table0
  else pure res

/-- g2.go:259-272: the loop of `G2ConstScalarMulV2`, `k` iterations left, starting at index `j`. -/
def g2ScalarLoop (table0 table1 : G2Affine K) : ℕ → ℕ → G2Affine K → Option (G2Affine K)
  | 0, _, res => pure res
  | k + 1, j, res => do
    let res ← g2Double' res
    let res ← g2Double' res
    let res ← g2ScalarStep table0 table1 j res
    g2ScalarLoop table0 table1 k (j + 1) res

/-- g2.go:253-274 `G2ConstScalarMulV2`. -/
def g2ConstScalarMulV2 (a : G2Affine K) : Option (G2Affine K) := do
  let table0 := a
  let table1 ← g2Double' a
  let res ← g2Add table1 table0
  g2ScalarLoop table0 table1 31 1 res

end generic

/-- The cube root of unity of g2.go:283 (a decimal string parsed into `fp.Element`). -/
def thirdRootOneG1 : Fq :=
  ((4002409555221667392624310435006688643935503118305586438271171395842971157480381377015405980053539358417135540939436 : ℕ) : Fq)

/-- g2.go:276-290 `G2JacobianPhi`. -/
def g2JacPhi (p : G2Jac Fq) : G2Jac Fq := ⟨E2.mulByElement p.x (thirdRootOneG1 * thirdRootOneG1), p.y, p.z⟩

/-- g2.go:320-334 `G2Phi`. -/
def g2Phi (p : G2Affine Fq) : G2Affine Fq := ⟨E2.mulByElement p.x (thirdRootOneG1 * thirdRootOneG1), p.y⟩

/-- g2.go:170-171 and 204-205, the constant `u` of the two psi functions. -/
def psiU : E2 Fq :=
  ⟨((0 : ℕ) : Fq),
   ((4002409555221667392624310435006688643935503118305586438271171395842971157480381377015405980053539358417135540939437 : ℕ) : Fq)⟩

/-- g2.go:172-173 and 206-207, the constant `v` of the two psi functions. -/
def psiV : E2 Fq :=
  ⟨((2973677408986561043442465346520108879172042883009249989176415018091420807192182638567116318576472649347015917690530 : ℕ) : Fq),
   ((1028732146235106349975324479215795277384839936929757896155643118032610843298655225875571310552543014690878354869257 : ℕ) : Fq)⟩

/-- g2.go:161-193 `G2JacobianPsi`. -/
def g2JacPsi (a : G2Jac Fq) : G2Jac Fq :=
  ⟨E2.mul (E2.conjugate a.x) psiU, E2.mul (E2.conjugate a.y) psiV, E2.conjugate a.z⟩

/-- g2.go:195-225 `G2Psi`. -/
def g2Psi (a : G2Affine Fq) : G2Affine Fq := ⟨E2.mul (E2.conjugate a.x) psiU, E2.mul (E2.conjugate a.y) psiV⟩

/-- g2.go:39-102 `G2JacobianAddAssign`. -/
def g2JacAdd (p a : G2Jac Fq) : ND (G2Jac Fq) := do
  let pZNotZero ← e2NotZero p.z
  let res1 := a
  let aZNotZero ← e2NotZero a.z
  let res2 := p
  let Z1Z1 := E2.square a.z
  let Z2Z2 := E2.square p.z
  let U1 := E2.mul a.x Z2Z2
  let U2 := E2.mul p.x Z1Z1
  let S1 := E2.mul a.y p.z
  let S1 := E2.mul S1 Z2Z2
  let S2 := E2.mul p.y a.z
  let S2 := E2.mul S2 Z1Z1
  let U1NotEqualU2 ← e2NotEqual U1 U2
  let S1NotEqualS2 ← e2NotEqual S1 S2
  let pNotEqualA := U1NotEqualU2 || S1NotEqualS2
  let res3 := g2JacDouble p
  let H := E2.sub U2 U1
  let I := E2.double H
  let I := E2.square I
  let J := E2.mul H I
  let r := E2.sub S2 S1
  let r := E2.double r
  let V := E2.mul U1 I
  let px := E2.square r
  let px := E2.sub px J
  let px := E2.sub px V
  let px := E2.sub px V
  let py := E2.sub V px
  let py := E2.mul py r
  let S1 := E2.mul S1 J
  let S1 := E2.double S1
  let py := E2.sub py S1
  let pz := E2.add p.z a.z
  let pz := E2.square pz
  let pz := E2.sub pz Z1Z1
  let pz := E2.sub pz Z2Z2
  let pz := E2.mul pz H
  let resX := E2.select pNotEqualA px res3.x
  let resY := E2.select pNotEqualA py res3.y
  let resZ := E2.select pNotEqualA pz res3.z
  let resX := E2.select aZNotZero resX res2.x
  let resY := E2.select aZNotZero resY res2.y
  let resZ := E2.select aZNotZero resZ res2.z
  let resX := E2.select pZNotZero resX res1.x
  let resY := E2.select pZNotZero resY res1.y
  let resZ := E2.select pZNotZero resZ res1.z
  pure ⟨resX, resY, resZ⟩

/-- g2.go:115-124 `G2JacobianSubAssign`. -/
def g2JacSub (p p1 : G2Jac Fq) : ND (G2Jac Fq) := g2JacAdd p ⟨p1.x, E2.neg p1.y, p1.z⟩

/-- The conditional additions of iteration `j` of `G2JacobianConstScalarMul` (see `g2JacScalarLoop`). -/
def g2JacScalarStep (table0 table1 : G2Jac Fq) (j : ℕ) (res : G2Jac Fq) : ND (G2Jac Fq) :=
  if j = 1 then g2JacAdd res table0
  else if j = 3 then g2JacAdd res table1
  else if j = 7 then g2JacAdd res table0
  else if j = 23 then g2JacAdd res table0
  else pure res

/-- g2.go:236-249: the loop of `G2JacobianConstScalarMul`, `k` iterations left, starting at index `j`. -/
def g2JacScalarLoop (table0 table1 : G2Jac Fq) : ℕ → ℕ → G2Jac Fq → ND (G2Jac Fq)
  | 0, _, res => pure res
  | k + 1, j, res => do
    let res := g2JacDouble res
    let res := g2JacDouble res
    let res ← g2JacScalarStep table0 table1 j res
    g2JacScalarLoop table0 table1 k (j + 1) res

/-- g2.go:227-251 `G2JacobianConstScalarMul`. -/
def g2JacConstScalarMul (a : G2Jac Fq) : ND (G2Jac Fq) := do
  let table0 := a
  let table1 := g2JacDouble table0
  let res ← g2JacAdd table1 table0
  g2JacScalarLoop table0 table1 31 1 res

/-- hash2curve.go:660-664 `G2AffineNotInfinity`. -/
def g2AffineNotInfinity (a : G2Affine Fq) : ND Bool := do
  let xNotZero ← e2NotZero a.x
  let yNotZero ← e2NotZero a.y
  pure (xNotZero || yNotZero)

/-- hash2curve.go:578-595 `GetG2JacFromG2Affine`. -/
def g2JacFromAffine (Q : G2Affine Fq) : ND (G2Jac Fq) := do
  let g2NotInfinity ← g2AffineNotInfinity Q
  let z := E2.select g2NotInfinity E2.one E2.zero
  let x := E2.select g2NotInfinity Q.x E2.one
  let y := E2.select g2NotInfinity Q.y E2.one
  pure ⟨x, y, z⟩

/-- hash2curve.go:597-620 `GetG2AffineFromG2Jac`. -/
def g2AffineFromJac (Q : G2Jac Fq) : ND (G2Affine Fq) := do
  let a ← ND.ofOption (E2.inverse Q.z)
  let b := E2.square a
  let res2x := E2.mul Q.x b
  let res2y := E2.mul Q.y b
  let res2y := E2.mul res2y a
  let jacZNotZero ← e2NotZero Q.z
  pure ⟨E2.select jacZNotZero res2x E2.zero, E2.select jacZNotZero res2y E2.zero⟩

/-- hash2curve.go:623-658 `ClearCofactor`. -/
def clearCofactorJac (a : G2Jac Fq) : ND (G2Jac Fq) := do
  let xg ← g2JacConstScalarMul a
  let xg := g2JacNeg xg
  let xxg ← g2JacConstScalarMul xg
  let xxg := g2JacNeg xxg
  let res ← g2JacSub xxg xg
  let res ← g2JacSub res a
  let t ← g2JacSub xg a
  let t := g2JacPsi t
  let res ← g2JacAdd res t
  let t := g2JacDouble a
  let t : G2Jac Fq := ⟨E2.mulByElement t.x thirdRootOneG1, t.y, t.z⟩
  g2JacSub res t

/-- g2.go:472-518 `G2ClearCofactor`. -/
def g2ClearCofactor (a : G2Affine Fq) : ND (G2Affine Fq) := do
  let a' ← g2JacFromAffine a
  let xg' ← g2JacConstScalarMul a'
  let xg' := g2JacNeg xg'
  let xxg' ← g2JacConstScalarMul xg'
  let xxg' := g2JacNeg xxg'
  let xg ← g2AffineFromJac xg'
  let xxg ← g2AffineFromJac xxg'
  let res ← ND.ofOption (g2Sub xxg xg)
  let res ← ND.ofOption (g2Sub res a)
  let t ← ND.ofOption (g2Sub xg a)
  let t := g2Psi t
  let res ← ND.ofOption (g2Add res t)
  let t ← ND.ofOption (g2Double' a)
  let t : G2Affine Fq := ⟨E2.mulByElement t.x thirdRootOneG1, t.y⟩
  ND.ofOption (g2Sub res t)

/-- g2.go:446-448: the loop of `G2ConstScalarMul`, from bit `i` down to bit 1. -/
def g2SignedLoop (k0 k1 : ℕ) (table : ℕ → G2Affine Fq) : ℕ → G2Affine Fq → Option (G2Affine Fq)
  | 0, acc => pure acc
  | i + 1, acc => do
    let acc ← g2DoubleAndAdd acc (table ((k0.testBit (i + 1)).toNat + 2 * (k1.testBit (i + 1)).toNat))
    g2SignedLoop k0 k1 table i acc

/-- g2.go:417-457 `G2ConstScalarMul`. The branch for equal bit lengths (lines 441-445) is dead, since `k[1] = 0`. -/
def g2ConstScalarMul (Q : G2Affine Fq) : Option (G2Affine Fq) := do
  let phiQ := g2Phi Q
  let k0 := 15132376222941642752
  let k1 := 0
  let negQ := g2Neg Q
  let negPhiQ := g2Neg phiQ
  let t0 ← g2Add negQ negPhiQ
  let t1 ← g2Add Q negPhiQ
  let t2 ← g2Add negQ phiQ
  let t3 ← g2Add Q phiQ
  let acc := t3
  let acc ← g2SignedLoop k0 k1 (fun i => if i = 0 then t0 else if i = 1 then t1 else if i = 2 then t2 else t3) 63 acc
  let negQ ← g2Add negQ acc
  let negPhiQ ← g2Add negPhiQ negQ
  pure ⟨negPhiQ.x, negPhiQ.y⟩

end Verif.Bls
