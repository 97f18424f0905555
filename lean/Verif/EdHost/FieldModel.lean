import Verif.Ed.Spec

/-! # Model of /repo/circuits/gadgets/ed25519/test/field (the portable Go code path)

`uint64` values are natural numbers below `2^64`; every arithmetic operation wraps.  The methods write their result to
the receiver and read the arguments first, so they are modelled as functions of the argument values (that aliasing is
harmless is C68, AliasModel.lean: fe_generic.go:29-39 and fe.go read all limbs they need before overwriting; `Add`, `Subtract` and `Select` go
limb by limb, where limb `i` of the result depends only on limb `i` of the arguments).  The assembly versions of `feMul`,
`feSquare` (fe_amd64.s) and `carryPropagate` (fe_arm64.s) are in AsmModel.lean (C67); here is the `noasm` build. -/

namespace Verif.EdHost
open Verif.Ed

/-- Go `uint64` addition. -/
def add64 (a b : ℕ) : ℕ := (a + b) % 2 ^ 64

/-- Go `uint64` subtraction. -/
def sub64 (a b : ℕ) : ℕ := (a + (2 ^ 64 - b)) % 2 ^ 64

/-- Go `uint64` multiplication. -/
def mulw (a b : ℕ) : ℕ := a * b % 2 ^ 64

/-- Go `uint64` left shift. -/
def shl64 (a k : ℕ) : ℕ := a <<< k % 2 ^ 64

/-- Go `^x` on `uint64`. -/
def not64 (a : ℕ) : ℕ := 2 ^ 64 - 1 - a

/-- fe.go:23-33 `Element`. -/
structure Elt where
  l0 : ℕ
  l1 : ℕ
  l2 : ℕ
  l3 : ℕ
  l4 : ℕ
deriving DecidableEq

/-- fe.go:35 `maskLow51Bits`. -/
def mask51 : ℕ := (1 <<< 51) - 1

/-- fe.go:37 `feZero`, and the zero value. -/
def feZero : Elt := ⟨0, 0, 0, 0, 0⟩

/-- fe.go:45 `feOne`. -/
def feOne : Elt := ⟨1, 0, 0, 0, 0⟩

/-- fe_generic.go:11-13 `uint128`. -/
structure U128 where
  lo : ℕ
  hi : ℕ

/-- fe_generic.go:16-19 (`bits.Mul64` returns the high and low words of the product). -/
def mul64 (a b : ℕ) : U128 := ⟨a * b % 2 ^ 64, a * b / 2 ^ 64⟩

/-- fe_generic.go:22-27 (`bits.Add64` returns the wrapped sum and the carry out). -/
def addMul64 (v : U128) (a b : ℕ) : U128 :=
  let hi := a * b / 2 ^ 64
  let lo := a * b % 2 ^ 64
  let c := (lo + v.lo) / 2 ^ 64
  let lo' := (lo + v.lo) % 2 ^ 64
  ⟨lo', (hi + v.hi + c) % 2 ^ 64⟩

/-- fe_generic.go:30-32. -/
def shiftRightBy51 (a : U128) : ℕ := shl64 a.hi (64 - 51) ||| (a.lo >>> 51)

/-- fe_generic.go:250-266 `carryPropagateGeneric`; fe_arm64_noasm.go `carryPropagate` calls it. -/
def carryPropagate (v : Elt) : Elt :=
  let c0 := v.l0 >>> 51
  let c1 := v.l1 >>> 51
  let c2 := v.l2 >>> 51
  let c3 := v.l3 >>> 51
  let c4 := v.l4 >>> 51
  ⟨add64 (v.l0 &&& mask51) (mulw c4 19), add64 (v.l1 &&& mask51) c0, add64 (v.l2 &&& mask51) c1,
    add64 (v.l3 &&& mask51) c2, add64 (v.l4 &&& mask51) c3⟩

/-- fe_generic.go:146-162 and 232-245: the common tail of `feMulGeneric` and `feSquareGeneric`. -/
def finish (r0 r1 r2 r3 r4 : U128) : Elt :=
  let c0 := shiftRightBy51 r0
  let c1 := shiftRightBy51 r1
  let c2 := shiftRightBy51 r2
  let c3 := shiftRightBy51 r3
  let c4 := shiftRightBy51 r4
  let rr0 := add64 (r0.lo &&& mask51) (mulw c4 19)
  let rr1 := add64 (r1.lo &&& mask51) c0
  let rr2 := add64 (r2.lo &&& mask51) c1
  let rr3 := add64 (r3.lo &&& mask51) c2
  let rr4 := add64 (r4.lo &&& mask51) c3
  carryPropagate ⟨rr0, rr1, rr2, rr3, rr4⟩

/-- fe_generic.go:34-163 `feMulGeneric`; fe.go:302-305 `Multiply`. -/
def feMul (a b : Elt) : Elt :=
  let a1_19 := mulw a.l1 19
  let a2_19 := mulw a.l2 19
  let a3_19 := mulw a.l3 19
  let a4_19 := mulw a.l4 19
  let r0 := mul64 a.l0 b.l0
  let r0 := addMul64 r0 a1_19 b.l4
  let r0 := addMul64 r0 a2_19 b.l3
  let r0 := addMul64 r0 a3_19 b.l2
  let r0 := addMul64 r0 a4_19 b.l1
  let r1 := mul64 a.l0 b.l1
  let r1 := addMul64 r1 a.l1 b.l0
  let r1 := addMul64 r1 a2_19 b.l4
  let r1 := addMul64 r1 a3_19 b.l3
  let r1 := addMul64 r1 a4_19 b.l2
  let r2 := mul64 a.l0 b.l2
  let r2 := addMul64 r2 a.l1 b.l1
  let r2 := addMul64 r2 a.l2 b.l0
  let r2 := addMul64 r2 a3_19 b.l4
  let r2 := addMul64 r2 a4_19 b.l3
  let r3 := mul64 a.l0 b.l3
  let r3 := addMul64 r3 a.l1 b.l2
  let r3 := addMul64 r3 a.l2 b.l1
  let r3 := addMul64 r3 a.l3 b.l0
  let r3 := addMul64 r3 a4_19 b.l4
  let r4 := mul64 a.l0 b.l4
  let r4 := addMul64 r4 a.l1 b.l3
  let r4 := addMul64 r4 a.l2 b.l2
  let r4 := addMul64 r4 a.l3 b.l1
  let r4 := addMul64 r4 a.l4 b.l0
  finish r0 r1 r2 r3 r4

/-- fe_generic.go:165-246 `feSquareGeneric`; fe.go:308-311 `Square`. -/
def feSquare (a : Elt) : Elt :=
  let l0_2 := mulw a.l0 2
  let l1_2 := mulw a.l1 2
  let l1_38 := mulw a.l1 38
  let l2_38 := mulw a.l2 38
  let l3_38 := mulw a.l3 38
  let l3_19 := mulw a.l3 19
  let l4_19 := mulw a.l4 19
  let r0 := mul64 a.l0 a.l0
  let r0 := addMul64 r0 l1_38 a.l4
  let r0 := addMul64 r0 l2_38 a.l3
  let r1 := mul64 l0_2 a.l1
  let r1 := addMul64 r1 l2_38 a.l4
  let r1 := addMul64 r1 l3_19 a.l3
  let r2 := mul64 l0_2 a.l2
  let r2 := addMul64 r2 a.l1 a.l1
  let r2 := addMul64 r2 l3_38 a.l4
  let r3 := mul64 l0_2 a.l3
  let r3 := addMul64 r3 l1_2 a.l2
  let r3 := addMul64 r3 l4_19 a.l4
  let r4 := mul64 l0_2 a.l4
  let r4 := addMul64 r4 l1_2 a.l3
  let r4 := addMul64 r4 a.l2 a.l2
  finish r0 r1 r2 r3 r4

/-- fe.go:54-84 `reduce`. -/
def reduce (w : Elt) : Elt :=
  let v := carryPropagate w
  let c := add64 v.l0 19 >>> 51
  let c := add64 v.l1 c >>> 51
  let c := add64 v.l2 c >>> 51
  let c := add64 v.l3 c >>> 51
  let c := add64 v.l4 c >>> 51
  let l0 := add64 v.l0 (mulw 19 c)
  let l1 := add64 v.l1 (l0 >>> 51)
  let l0 := l0 &&& mask51
  let l2 := add64 v.l2 (l1 >>> 51)
  let l1 := l1 &&& mask51
  let l3 := add64 v.l3 (l2 >>> 51)
  let l2 := l2 &&& mask51
  let l4 := add64 v.l4 (l3 >>> 51)
  let l3 := l3 &&& mask51
  let l4 := l4 &&& mask51
  ⟨l0, l1, l2, l3, l4⟩

/-- fe.go:87-98 `Add`. -/
def feAdd (a b : Elt) : Elt :=
  carryPropagate ⟨add64 a.l0 b.l0, add64 a.l1 b.l1, add64 a.l2 b.l2, add64 a.l3 b.l3, add64 a.l4 b.l4⟩

/-- fe.go:101-110 `Subtract`. -/
def feSub (a b : Elt) : Elt :=
  carryPropagate ⟨sub64 (add64 a.l0 0xFFFFFFFFFFFDA) b.l0, sub64 (add64 a.l1 0xFFFFFFFFFFFFE) b.l1,
    sub64 (add64 a.l2 0xFFFFFFFFFFFFE) b.l2, sub64 (add64 a.l3 0xFFFFFFFFFFFFE) b.l3, sub64 (add64 a.l4 0xFFFFFFFFFFFFE) b.l4⟩

/-- fe.go:113-115 `Negate`. -/
def feNeg (a : Elt) : Elt := feSub feZero a

/-- `n` times `t.Square(&t)` (the loops of `Invert` and `Pow22523`). -/
def sqn : ℕ → Elt → Elt
  | 0, t => t
  | n + 1, t => sqn n (feSquare t)

/-- fe.go:120-182 `Invert`. -/
def feInvert (z : Elt) : Elt :=
  let z2 := feSquare z
  let t := feSquare z2
  let t := feSquare t
  let z9 := feMul t z
  let z11 := feMul z9 z2
  let t := feSquare z11
  let z2_5_0 := feMul t z9
  let t := sqn 4 (feSquare z2_5_0)
  let z2_10_0 := feMul t z2_5_0
  let t := sqn 9 (feSquare z2_10_0)
  let z2_20_0 := feMul t z2_10_0
  let t := sqn 19 (feSquare z2_20_0)
  let t := feMul t z2_20_0
  let t := sqn 9 (feSquare t)
  let z2_50_0 := feMul t z2_10_0
  let t := sqn 49 (feSquare z2_50_0)
  let z2_100_0 := feMul t z2_50_0
  let t := sqn 99 (feSquare z2_100_0)
  let t := feMul t z2_100_0
  let t := sqn 49 (feSquare t)
  let t := feMul t z2_50_0
  let t := feSquare t
  let t := feSquare t
  let t := feSquare t
  let t := feSquare t
  let t := feSquare t
  feMul t z11

/-- `binary.LittleEndian.Uint64(x[a:a+8])`. -/
def le64 (x : List ℕ) (a : ℕ) : ℕ := leVal ((x.drop a).take 8)

/-- fe.go:198-221 `SetBytes`; `none` is the error. -/
def feSetBytes (x : List ℕ) : Option Elt :=
  if x.length ≠ 32 then none
  else some ⟨le64 x 0 &&& mask51, (le64 x 6 >>> 3) &&& mask51, (le64 x 12 >>> 6) &&& mask51,
    (le64 x 19 >>> 1) &&& mask51, (le64 x 24 >>> 12) &&& mask51⟩

/-- fe.go:236-246, one turn of the outer loop: limb `l` at bit `51 i` is or-ed into `out`. -/
def orLimb (out : List ℕ) (i l : ℕ) : List ℕ :=
  let bitsOffset := i * 51
  let buf := leBytes 8 (shl64 l (bitsOffset % 8))
  out.mapIdx fun off b => if bitsOffset / 8 ≤ off ∧ off < bitsOffset / 8 + 8 then b ||| buf.getD (off - bitsOffset / 8) 0 else b

/-- fe.go:224-249 `Bytes`. -/
def feBytes (v : Elt) : List ℕ :=
  let t := reduce v
  orLimb (orLimb (orLimb (orLimb (orLimb (List.replicate 32 0) 0 t.l0) 1 t.l1) 2 t.l2) 3 t.l3) 4 t.l4

/-- fe.go:252-255 `Equal` (`subtle.ConstantTimeCompare` returns 1 exactly for equal slices). -/
def feEqual (v u : Elt) : ℕ := if feBytes u = feBytes v then 1 else 0

/-- fe.go:258 `mask64Bits`. -/
def mask64Bits (cond : ℕ) : ℕ := not64 (sub64 cond 1)

/-- fe.go:261-269 `Select`. -/
def feSelect (a b : Elt) (cond : ℕ) : Elt :=
  let m := mask64Bits cond
  ⟨(m &&& a.l0) ||| (not64 m &&& b.l0), (m &&& a.l1) ||| (not64 m &&& b.l1), (m &&& a.l2) ||| (not64 m &&& b.l2),
    (m &&& a.l3) ||| (not64 m &&& b.l3), (m &&& a.l4) ||| (not64 m &&& b.l4)⟩

/-- fe.go:272-289 `Swap`: the new values of the two elements. -/
def feSwap (v u : Elt) (cond : ℕ) : Elt × Elt :=
  let m := mask64Bits cond
  let t0 := m &&& (v.l0 ^^^ u.l0)
  let t1 := m &&& (v.l1 ^^^ u.l1)
  let t2 := m &&& (v.l2 ^^^ u.l2)
  let t3 := m &&& (v.l3 ^^^ u.l3)
  let t4 := m &&& (v.l4 ^^^ u.l4)
  (⟨v.l0 ^^^ t0, v.l1 ^^^ t1, v.l2 ^^^ t2, v.l3 ^^^ t3, v.l4 ^^^ t4⟩,
    ⟨u.l0 ^^^ t0, u.l1 ^^^ t1, u.l2 ^^^ t2, u.l3 ^^^ t3, u.l4 ^^^ t4⟩)

/-- fe.go:292-294 `IsNegative`. -/
def feIsNegative (v : Elt) : ℕ := (feBytes v).getD 0 0 &&& 1

/-- fe.go:297-299 `Absolute`. -/
def feAbs (u : Elt) : Elt := feSelect (feNeg u) u (feIsNegative u)

/-- fe.go:331-336 `mul51`. -/
def mul51 (a b : ℕ) : ℕ × ℕ :=
  let mh := a * b / 2 ^ 64
  let ml := a * b % 2 ^ 64
  (ml &&& mask51, shl64 mh 13 ||| (ml >>> 51))

/-- fe.go:314-328 `Mult32`. -/
def feMult32 (x : Elt) (y : ℕ) : Elt :=
  let x0 := mul51 x.l0 y
  let x1 := mul51 x.l1 y
  let x2 := mul51 x.l2 y
  let x3 := mul51 x.l3 y
  let x4 := mul51 x.l4 y
  ⟨add64 x0.1 (mulw 19 x4.2), add64 x1.1 x0.2, add64 x2.1 x1.2, add64 x3.1 x2.2, add64 x4.1 x3.2⟩

/-- fe.go:339-387 `Pow22523`. -/
def fePow22523 (x : Elt) : Elt :=
  let t0 := feSquare x
  let t1 := feSquare t0
  let t1 := feSquare t1
  let t1 := feMul x t1
  let t0 := feMul t0 t1
  let t0 := feSquare t0
  let t0 := feMul t1 t0
  let t1 := sqn 4 (feSquare t0)
  let t0 := feMul t1 t0
  let t1 := sqn 9 (feSquare t0)
  let t1 := feMul t1 t0
  let t2 := sqn 19 (feSquare t1)
  let t1 := feMul t2 t1
  let t1 := sqn 9 (feSquare t1)
  let t0 := feMul t1 t0
  let t1 := sqn 49 (feSquare t0)
  let t1 := feMul t1 t0
  let t2 := sqn 99 (feSquare t1)
  let t1 := feMul t2 t1
  let t1 := sqn 49 (feSquare t1)
  let t0 := feMul t1 t0
  let t0 := feSquare t0
  let t0 := feSquare t0
  feMul t0 x

/-- fe.go:390-391 `sqrtM1`. -/
def feSqrtM1 : Elt := ⟨1718705420411056, 234908883556509, 2233514472574048, 2117202627021982, 765476049583133⟩

/-- fe.go:398-420 `SqrtRatio`. -/
def feSqrtRatio (u v : Elt) : Elt × ℕ :=
  let v2 := feSquare v
  let uv3 := feMul u (feMul v2 v)
  let uv7 := feMul uv3 (feSquare v2)
  let rr := feMul uv3 (fePow22523 uv7)
  let check := feMul v (feSquare rr)
  let uNeg := feNeg u
  let correctSignSqrt := feEqual check u
  let flippedSignSqrt := feEqual check uNeg
  let flippedSignSqrtI := feEqual check (feMul uNeg feSqrtM1)
  let rPrime := feMul rr feSqrtM1
  let rr := feSelect rPrime rr (flippedSignSqrt ||| flippedSignSqrtI)
  (feAbs rr, correctSignSqrt ||| flippedSignSqrt)

end Verif.EdHost
