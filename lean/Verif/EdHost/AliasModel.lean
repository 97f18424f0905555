import Verif.EdHost.MultModel

/-! # The field and point packages with pointers

Model of /repo/circuits/gadgets/ed25519/test/field/fe.go, fe_generic.go and ../edwards25519.go in which methods take
pointers and every assignment is a write to memory, in the order of the source.  Memory is a sequence of cells, one per `Element` (Go has no
pointer arithmetic, so two `*Element` are equal or disjoint); a `Point` is four consecutive cells.  `next` is the first
cell not yet allocated; local variables and `new` take cells from there. -/

namespace Verif.EdHost.Alias
open Verif.EdHost

/-- Memory. -/
structure Heap where
  mem : ℕ → Elt
  next : ℕ

namespace Heap

/-- `*p = e`. -/
def set (h : Heap) (p : ℕ) (e : Elt) : Heap := { h with mem := fun q => if q = p then e else h.mem q }

/-- `p.l0 = x`. -/
def set0 (h : Heap) (p x : ℕ) : Heap := h.set p { h.mem p with l0 := x }
/-- `p.l1 = x`. -/
def set1 (h : Heap) (p x : ℕ) : Heap := h.set p { h.mem p with l1 := x }
/-- `p.l2 = x`. -/
def set2 (h : Heap) (p x : ℕ) : Heap := h.set p { h.mem p with l2 := x }
/-- `p.l3 = x`. -/
def set3 (h : Heap) (p x : ℕ) : Heap := h.set p { h.mem p with l3 := x }
/-- `p.l4 = x`. -/
def set4 (h : Heap) (p x : ℕ) : Heap := h.set p { h.mem p with l4 := x }

/-- Allocation of `k` zeroed cells, the first at `h.next` (`var`, `new`, composite literals). -/
def alloc (h : Heap) (k : ℕ) : Heap :=
  { mem := fun q => if h.next ≤ q ∧ q < h.next + k then feZero else h.mem q, next := h.next + k }

end Heap

/-- The cells of the package variables `feZero`, `feOne`, `sqrtM1` (fe.go:37, 45, 390) and `d`, `d2`, `feOne`
(edwards25519.go:145, 214-219), and the points `identity`, `generator` (edwards25519.go:83, 93). -/
def pZero : ℕ := 0
def pOne : ℕ := 1
def pSqrtM1 : ℕ := 2
def pD : ℕ := 3
def pD2 : ℕ := 4
def pOne' : ℕ := 5
def pIdentity : ℕ := 6
def pGenerator : ℕ := 10
/-- The first cell that is not a package variable. -/
def globals : ℕ := 14

/-! ## fe_generic.go -/

/-- fe_generic.go:250-266 `carryPropagateGeneric`. -/
def goCarry (v : ℕ) (h : Heap) : Heap :=
  let c0 := (h.mem v).l0 >>> 51
  let c1 := (h.mem v).l1 >>> 51
  let c2 := (h.mem v).l2 >>> 51
  let c3 := (h.mem v).l3 >>> 51
  let c4 := (h.mem v).l4 >>> 51
  let h := h.set0 v (add64 ((h.mem v).l0 &&& mask51) (mulw c4 19))
  let h := h.set1 v (add64 ((h.mem v).l1 &&& mask51) c0)
  let h := h.set2 v (add64 ((h.mem v).l2 &&& mask51) c1)
  let h := h.set3 v (add64 ((h.mem v).l3 &&& mask51) c2)
  let h := h.set4 v (add64 ((h.mem v).l4 &&& mask51) c3)
  h

/-- fe_generic.go:146-162 and 232-245, the tail of the two products. -/
def goFinish (v : ℕ) (r0 r1 r2 r3 r4 : U128) (h : Heap) : Heap :=
  let c0 := shiftRightBy51 r0
  let c1 := shiftRightBy51 r1
  let c2 := shiftRightBy51 r2
  let c3 := shiftRightBy51 r3
  let c4 := shiftRightBy51 r4
  let rr0 := add64 (r0.lo &&& mask51) (mulw c4 19)
  let rr1 := add64 (r1.lo &&& mask51) c0
  let rr2 := add64 (r2.lo &&& mask51) c1
  let rr3 := add64 (r3.lo &&& mask51) c2
  let rr4 := add64 (r4.lo &&& mask51) c3
  let h := h.set v ⟨rr0, rr1, rr2, rr3, rr4⟩
  goCarry v h

/-- fe_generic.go:34-163 `feMulGeneric`, fe.go:302-305 `Multiply`. -/
def goMul (v a b : ℕ) (h : Heap) : Heap :=
  let a0 := (h.mem a).l0
  let a1 := (h.mem a).l1
  let a2 := (h.mem a).l2
  let a3 := (h.mem a).l3
  let a4 := (h.mem a).l4
  let b0 := (h.mem b).l0
  let b1 := (h.mem b).l1
  let b2 := (h.mem b).l2
  let b3 := (h.mem b).l3
  let b4 := (h.mem b).l4
  let a1_19 := mulw a1 19
  let a2_19 := mulw a2 19
  let a3_19 := mulw a3 19
  let a4_19 := mulw a4 19
  let r0 := mul64 a0 b0
  let r0 := addMul64 r0 a1_19 b4
  let r0 := addMul64 r0 a2_19 b3
  let r0 := addMul64 r0 a3_19 b2
  let r0 := addMul64 r0 a4_19 b1
  let r1 := mul64 a0 b1
  let r1 := addMul64 r1 a1 b0
  let r1 := addMul64 r1 a2_19 b4
  let r1 := addMul64 r1 a3_19 b3
  let r1 := addMul64 r1 a4_19 b2
  let r2 := mul64 a0 b2
  let r2 := addMul64 r2 a1 b1
  let r2 := addMul64 r2 a2 b0
  let r2 := addMul64 r2 a3_19 b4
  let r2 := addMul64 r2 a4_19 b3
  let r3 := mul64 a0 b3
  let r3 := addMul64 r3 a1 b2
  let r3 := addMul64 r3 a2 b1
  let r3 := addMul64 r3 a3 b0
  let r3 := addMul64 r3 a4_19 b4
  let r4 := mul64 a0 b4
  let r4 := addMul64 r4 a1 b3
  let r4 := addMul64 r4 a2 b2
  let r4 := addMul64 r4 a3 b1
  let r4 := addMul64 r4 a4 b0
  goFinish v r0 r1 r2 r3 r4 h

/-- fe_generic.go:165-246 `feSquareGeneric`, fe.go:308-311 `Square`. -/
def goSquare (v a : ℕ) (h : Heap) : Heap :=
  let l0 := (h.mem a).l0
  let l1 := (h.mem a).l1
  let l2 := (h.mem a).l2
  let l3 := (h.mem a).l3
  let l4 := (h.mem a).l4
  let l0_2 := mulw l0 2
  let l1_2 := mulw l1 2
  let l1_38 := mulw l1 38
  let l2_38 := mulw l2 38
  let l3_38 := mulw l3 38
  let l3_19 := mulw l3 19
  let l4_19 := mulw l4 19
  let r0 := mul64 l0 l0
  let r0 := addMul64 r0 l1_38 l4
  let r0 := addMul64 r0 l2_38 l3
  let r1 := mul64 l0_2 l1
  let r1 := addMul64 r1 l2_38 l4
  let r1 := addMul64 r1 l3_19 l3
  let r2 := mul64 l0_2 l2
  let r2 := addMul64 r2 l1 l1
  let r2 := addMul64 r2 l3_38 l4
  let r3 := mul64 l0_2 l3
  let r3 := addMul64 r3 l1_2 l2
  let r3 := addMul64 r3 l4_19 l4
  let r4 := mul64 l0_2 l4
  let r4 := addMul64 r4 l1_2 l3
  let r4 := addMul64 r4 l2 l2
  goFinish v r0 r1 r2 r3 r4 h

/-! ## fe.go -/

/-- fe.go:40-43 `Zero`. -/
def goZero (v : ℕ) (h : Heap) : Heap := h.set v (h.mem pZero)

/-- fe.go:48-51 `One`. -/
def goOne (v : ℕ) (h : Heap) : Heap := h.set v (h.mem pOne)

/-- fe.go:54-84 `reduce`. -/
def goReduce (v : ℕ) (h : Heap) : Heap :=
  let h := goCarry v h
  let c := add64 (h.mem v).l0 19 >>> 51
  let c := add64 (h.mem v).l1 c >>> 51
  let c := add64 (h.mem v).l2 c >>> 51
  let c := add64 (h.mem v).l3 c >>> 51
  let c := add64 (h.mem v).l4 c >>> 51
  let h := h.set0 v (add64 (h.mem v).l0 (mulw 19 c))
  let h := h.set1 v (add64 (h.mem v).l1 ((h.mem v).l0 >>> 51))
  let h := h.set0 v ((h.mem v).l0 &&& mask51)
  let h := h.set2 v (add64 (h.mem v).l2 ((h.mem v).l1 >>> 51))
  let h := h.set1 v ((h.mem v).l1 &&& mask51)
  let h := h.set3 v (add64 (h.mem v).l3 ((h.mem v).l2 >>> 51))
  let h := h.set2 v ((h.mem v).l2 &&& mask51)
  let h := h.set4 v (add64 (h.mem v).l4 ((h.mem v).l3 >>> 51))
  let h := h.set3 v ((h.mem v).l3 &&& mask51)
  let h := h.set4 v ((h.mem v).l4 &&& mask51)
  h

/-- fe.go:87-98 `Add`. -/
def goAdd (v a b : ℕ) (h : Heap) : Heap :=
  let h := h.set0 v (add64 (h.mem a).l0 (h.mem b).l0)
  let h := h.set1 v (add64 (h.mem a).l1 (h.mem b).l1)
  let h := h.set2 v (add64 (h.mem a).l2 (h.mem b).l2)
  let h := h.set3 v (add64 (h.mem a).l3 (h.mem b).l3)
  let h := h.set4 v (add64 (h.mem a).l4 (h.mem b).l4)
  goCarry v h

/-- fe.go:101-110 `Subtract`. -/
def goSub (v a b : ℕ) (h : Heap) : Heap :=
  let h := h.set0 v (sub64 (add64 (h.mem a).l0 0xFFFFFFFFFFFDA) (h.mem b).l0)
  let h := h.set1 v (sub64 (add64 (h.mem a).l1 0xFFFFFFFFFFFFE) (h.mem b).l1)
  let h := h.set2 v (sub64 (add64 (h.mem a).l2 0xFFFFFFFFFFFFE) (h.mem b).l2)
  let h := h.set3 v (sub64 (add64 (h.mem a).l3 0xFFFFFFFFFFFFE) (h.mem b).l3)
  let h := h.set4 v (sub64 (add64 (h.mem a).l4 0xFFFFFFFFFFFFE) (h.mem b).l4)
  goCarry v h

/-- fe.go:113-115 `Negate`. -/
def goNeg (v a : ℕ) (h : Heap) : Heap := goSub v pZero a h

/-- The loops of `Invert` and `Pow22523`: `n` times `t.Square(&t)`. -/
def goSqn (t : ℕ) : ℕ → Heap → Heap
  | 0, h => h
  | n + 1, h => goSqn t n (goSquare t t h)

/-- fe.go:120-182 `Invert`; the nine local variables are the cells from `h.next`. -/
def goInvert (v z : ℕ) (h : Heap) : Heap :=
  let z2 := h.next
  let z9 := h.next + 1
  let z11 := h.next + 2
  let z2_5_0 := h.next + 3
  let z2_10_0 := h.next + 4
  let z2_20_0 := h.next + 5
  let z2_50_0 := h.next + 6
  let z2_100_0 := h.next + 7
  let t := h.next + 8
  let h := h.alloc 9
  let h := goSquare z2 z h
  let h := goSquare t z2 h
  let h := goSquare t t h
  let h := goMul z9 t z h
  let h := goMul z11 z9 z2 h
  let h := goSquare t z11 h
  let h := goMul z2_5_0 t z9 h
  let h := goSquare t z2_5_0 h
  let h := goSqn t 4 h
  let h := goMul z2_10_0 t z2_5_0 h
  let h := goSquare t z2_10_0 h
  let h := goSqn t 9 h
  let h := goMul z2_20_0 t z2_10_0 h
  let h := goSquare t z2_20_0 h
  let h := goSqn t 19 h
  let h := goMul t t z2_20_0 h
  let h := goSquare t t h
  let h := goSqn t 9 h
  let h := goMul z2_50_0 t z2_10_0 h
  let h := goSquare t z2_50_0 h
  let h := goSqn t 49 h
  let h := goMul z2_100_0 t z2_50_0 h
  let h := goSquare t z2_100_0 h
  let h := goSqn t 99 h
  let h := goMul t t z2_100_0 h
  let h := goSquare t t h
  let h := goSqn t 49 h
  let h := goMul t t z2_50_0 h
  let h := goSquare t t h
  let h := goSquare t t h
  let h := goSquare t t h
  let h := goSquare t t h
  let h := goSquare t t h
  goMul v t z11 h

/-- fe.go:185-188 `Set`. -/
def goSet (v a : ℕ) (h : Heap) : Heap := h.set v (h.mem a)

/-- fe.go:198-221 `SetBytes` (the second component tells whether an error is returned). -/
def goSetBytes (v : ℕ) (x : List ℕ) (h : Heap) : Heap × Bool :=
  if x.length ≠ 32 then (h, true)
  else
    let h := h.set0 v (le64 x 0)
    let h := h.set0 v ((h.mem v).l0 &&& mask51)
    let h := h.set1 v (le64 x 6 >>> 3)
    let h := h.set1 v ((h.mem v).l1 &&& mask51)
    let h := h.set2 v (le64 x 12 >>> 6)
    let h := h.set2 v ((h.mem v).l2 &&& mask51)
    let h := h.set3 v (le64 x 19 >>> 1)
    let h := h.set3 v ((h.mem v).l3 &&& mask51)
    let h := h.set4 v (le64 x 24 >>> 12)
    let h := h.set4 v ((h.mem v).l4 &&& mask51)
    (h, false)

/-- fe.go:224-249 `Bytes`: the copy `t := *v` is a fresh cell. -/
def goBytes (v : ℕ) (h : Heap) : Heap × List ℕ :=
  let t := h.next
  let h := h.alloc 1
  let h := h.set t (h.mem v)
  let h := goReduce t h
  (h, orLimb (orLimb (orLimb (orLimb (orLimb (List.replicate 32 0) 0 (h.mem t).l0) 1 (h.mem t).l1) 2 (h.mem t).l2) 3 (h.mem t).l3) 4 (h.mem t).l4)

/-- fe.go:252-255 `Equal`. -/
def goEqual (v u : ℕ) (h : Heap) : Heap × ℕ :=
  let r := goBytes u h
  let sa := r.2
  let h := r.1
  let r := goBytes v h
  let sv := r.2
  (r.1, if sa = sv then 1 else 0)

/-- fe.go:261-269 `Select`. -/
def goSelect (v a b cond : ℕ) (h : Heap) : Heap :=
  let m := mask64Bits cond
  let h := h.set0 v ((m &&& (h.mem a).l0) ||| (not64 m &&& (h.mem b).l0))
  let h := h.set1 v ((m &&& (h.mem a).l1) ||| (not64 m &&& (h.mem b).l1))
  let h := h.set2 v ((m &&& (h.mem a).l2) ||| (not64 m &&& (h.mem b).l2))
  let h := h.set3 v ((m &&& (h.mem a).l3) ||| (not64 m &&& (h.mem b).l3))
  let h := h.set4 v ((m &&& (h.mem a).l4) ||| (not64 m &&& (h.mem b).l4))
  h

/-- fe.go:272-289 `Swap`. -/
def goSwap (v u cond : ℕ) (h : Heap) : Heap :=
  let m := mask64Bits cond
  let t := m &&& ((h.mem v).l0 ^^^ (h.mem u).l0)
  let h := h.set0 v ((h.mem v).l0 ^^^ t)
  let h := h.set0 u ((h.mem u).l0 ^^^ t)
  let t := m &&& ((h.mem v).l1 ^^^ (h.mem u).l1)
  let h := h.set1 v ((h.mem v).l1 ^^^ t)
  let h := h.set1 u ((h.mem u).l1 ^^^ t)
  let t := m &&& ((h.mem v).l2 ^^^ (h.mem u).l2)
  let h := h.set2 v ((h.mem v).l2 ^^^ t)
  let h := h.set2 u ((h.mem u).l2 ^^^ t)
  let t := m &&& ((h.mem v).l3 ^^^ (h.mem u).l3)
  let h := h.set3 v ((h.mem v).l3 ^^^ t)
  let h := h.set3 u ((h.mem u).l3 ^^^ t)
  let t := m &&& ((h.mem v).l4 ^^^ (h.mem u).l4)
  let h := h.set4 v ((h.mem v).l4 ^^^ t)
  let h := h.set4 u ((h.mem u).l4 ^^^ t)
  h

/-- fe.go:292-294 `IsNegative`. -/
def goIsNegative (v : ℕ) (h : Heap) : Heap × ℕ :=
  let r := goBytes v h
  (r.1, r.2.getD 0 0 &&& 1)

/-- fe.go:297-299 `Absolute`; Go evaluates the arguments of `Select` from left to right. -/
def goAbs (v u : ℕ) (h : Heap) : Heap :=
  let n := h.next
  let h := h.alloc 1
  let h := goNeg n u h
  let r := goIsNegative u h
  goSelect v n u r.2 r.1

/-- fe.go:314-328 `Mult32`. -/
def goMult32 (v x y : ℕ) (h : Heap) : Heap :=
  let x0 := mul51 (h.mem x).l0 y
  let x1 := mul51 (h.mem x).l1 y
  let x2 := mul51 (h.mem x).l2 y
  let x3 := mul51 (h.mem x).l3 y
  let x4 := mul51 (h.mem x).l4 y
  let h := h.set0 v (add64 x0.1 (mulw 19 x4.2))
  let h := h.set1 v (add64 x1.1 x0.2)
  let h := h.set2 v (add64 x2.1 x1.2)
  let h := h.set3 v (add64 x3.1 x2.2)
  let h := h.set4 v (add64 x4.1 x3.2)
  h

/-- fe.go:339-387 `Pow22523`. -/
def goPow22523 (v x : ℕ) (h : Heap) : Heap :=
  let t0 := h.next
  let t1 := h.next + 1
  let t2 := h.next + 2
  let h := h.alloc 3
  let h := goSquare t0 x h
  let h := goSquare t1 t0 h
  let h := goSquare t1 t1 h
  let h := goMul t1 x t1 h
  let h := goMul t0 t0 t1 h
  let h := goSquare t0 t0 h
  let h := goMul t0 t1 t0 h
  let h := goSquare t1 t0 h
  let h := goSqn t1 4 h
  let h := goMul t0 t1 t0 h
  let h := goSquare t1 t0 h
  let h := goSqn t1 9 h
  let h := goMul t1 t1 t0 h
  let h := goSquare t2 t1 h
  let h := goSqn t2 19 h
  let h := goMul t1 t2 t1 h
  let h := goSquare t1 t1 h
  let h := goSqn t1 9 h
  let h := goMul t0 t1 t0 h
  let h := goSquare t1 t0 h
  let h := goSqn t1 49 h
  let h := goMul t1 t1 t0 h
  let h := goSquare t2 t1 h
  let h := goSqn t2 99 h
  let h := goMul t1 t2 t1 h
  let h := goSquare t1 t1 h
  let h := goSqn t1 49 h
  let h := goMul t0 t1 t0 h
  let h := goSquare t0 t0 h
  let h := goSquare t0 t0 h
  goMul v t0 x h

/-- fe.go:398-420 `SqrtRatio`; the second component is `wasSquare`. -/
def goSqrtRatio (r u v : ℕ) (h : Heap) : Heap × ℕ :=
  let t0 := h.next
  let v2 := h.next + 1
  let uv3 := h.next + 2
  let uv7 := h.next + 3
  let rr := h.next + 4
  let check := h.next + 5
  let uNeg := h.next + 6
  let rPrime := h.next + 7
  let h := h.alloc 8
  let h := goSquare v2 v h
  let h := goMul t0 v2 v h
  let h := goMul uv3 u t0 h
  let h := goSquare t0 v2 h
  let h := goMul uv7 uv3 t0 h
  let h := goPow22523 t0 uv7 h
  let h := goMul rr uv3 t0 h
  let h := goSquare t0 rr h
  let h := goMul check v t0 h
  let h := goNeg uNeg u h
  let e1 := goEqual check u h
  let h := e1.1
  let e2 := goEqual check uNeg h
  let h := e2.1
  let h := goMul t0 uNeg pSqrtM1 h
  let e3 := goEqual check t0 h
  let h := e3.1
  let h := goMul rPrime rr pSqrtM1 h
  let h := goSelect rr rPrime rr (e2.2 ||| e3.2) h
  let h := goAbs r rr h
  (h, e1.2 ||| e2.2)

/-! ## edwards25519.go -/

/-- The point stored at `p` (cells `x`, `y`, `z`, `t`). -/
def ptAt (h : Heap) (p : ℕ) : Point := ⟨h.mem p, h.mem (p + 1), h.mem (p + 2), h.mem (p + 3)⟩

/-- edwards25519.go:119-122 `Set`: `*v = *u`. -/
def goPtSet (v u : ℕ) (h : Heap) : Heap :=
  let w := ptAt h u
  (((h.set v w.x).set (v + 1) w.y).set (v + 2) w.z).set (v + 3) w.t

/-- edwards25519.go:84-86 `NewIdentityPoint`: `new(Point).Set(identity)`; the result is the pointer. -/
def goNewIdentity (h : Heap) : Heap × ℕ := (goPtSet h.next pIdentity (h.alloc 4), h.next)

/-- edwards25519.go:97-99 `NewGeneratorPoint`: `new(Point).Set(generator)`. -/
def goNewGenerator (h : Heap) : Heap × ℕ := (goPtSet h.next pGenerator (h.alloc 4), h.next)

/-- edwards25519.go:53-59 `checkInitialized`, one point. -/
def goInit (p : ℕ) (h : Heap) : Bool := !(decide (h.mem p = feZero) && decide (h.mem (p + 1) = feZero))

/-- edwards25519.go:43-49 `FromExtended`; a `PointAffine` is two cells. -/
def goFromExtended (p p1 : ℕ) (h : Heap) : Heap :=
  let I := h.next
  let h := h.alloc 1
  let h := goInvert I (p1 + 2) h
  let h := goMul p p1 I h
  goMul (p + 1) (p1 + 1) I h

/-- edwards25519.go:128-146, 201-204 `Bytes`; `none` is a panic. -/
def goPtBytes (v : ℕ) (h : Heap) : Option (Heap × List ℕ) :=
  if goInit v h then
    let zInv := h.next
    let x := h.next + 1
    let y := h.next + 2
    let h := h.alloc 3
    let h := goInvert zInv (v + 2) h
    let h := goMul x v zInv h
    let h := goMul y (v + 1) zInv h
    let out := goBytes y h
    let neg := goIsNegative x out.1
    some (neg.1, orLast out.2 (neg.2 <<< 7 % 256))
  else none

/-- edwards25519.go:157-199 `SetBytes`; the flag tells whether an error is returned. -/
def goPtSetBytes (v : ℕ) (x : List ℕ) (h : Heap) : Heap × Bool :=
  let y := h.next
  let y2 := h.next + 1
  let u := h.next + 2
  let vv := h.next + 3
  let xx := h.next + 4
  let xxNeg := h.next + 5
  let h := h.alloc 6
  let r := goSetBytes y x h
  if r.2 then (r.1, true)
  else
    let h := goSquare y2 y r.1
    let h := goSub u y2 pOne' h
    let h := goMul vv y2 pD h
    let h := goAdd vv vv pOne' h
    let r := goSqrtRatio xx u vv h
    if r.2 = 0 then (r.1, true)
    else
      let h := goNeg xxNeg xx r.1
      let h := goSelect xx xxNeg xx (x.getD 31 0 >>> 7) h
      let h := goSet v xx h
      let h := goSet (v + 1) y h
      let h := goOne (v + 2) h
      let h := goMul (v + 3) xx y h
      (h, false)

/-- edwards25519.go:222-228 `fromP1xP1`. -/
def goFromP1 (v p : ℕ) (h : Heap) : Heap :=
  let h := goMul v p (p + 3) h
  let h := goMul (v + 1) (p + 1) (p + 2) h
  let h := goMul (v + 2) (p + 2) (p + 3) h
  goMul (v + 3) p (p + 1) h

/-- edwards25519.go:230-236 `fromP2`. -/
def goFromP2 (v p : ℕ) (h : Heap) : Heap :=
  let h := goMul v p (p + 2) h
  let h := goMul (v + 1) (p + 1) (p + 2) h
  let h := goSquare (v + 2) (p + 2) h
  goMul (v + 3) p (p + 1) h

/-- edwards25519.go:246-252 `projCached.FromP3` (a `projCached` is the cells `YplusX`, `YminusX`, `Z`, `T2d`). -/
def goCachedFromP3 (v p : ℕ) (h : Heap) : Heap :=
  let h := goAdd v (p + 1) p h
  let h := goSub (v + 1) (p + 1) p h
  let h := goSet (v + 2) (p + 2) h
  goMul (v + 3) (p + 3) pD2 h

/-- edwards25519.go:285-303 `projP1xP1.Add`. -/
def goP1Add (v p q : ℕ) (h : Heap) : Heap :=
  let YplusX := h.next
  let YminusX := h.next + 1
  let PP := h.next + 2
  let MM := h.next + 3
  let TT2d := h.next + 4
  let ZZ2 := h.next + 5
  let h := h.alloc 6
  let h := goAdd YplusX (p + 1) p h
  let h := goSub YminusX (p + 1) p h
  let h := goMul PP YplusX q h
  let h := goMul MM YminusX (q + 1) h
  let h := goMul TT2d (p + 3) (q + 3) h
  let h := goMul ZZ2 (p + 2) (q + 2) h
  let h := goAdd ZZ2 ZZ2 ZZ2 h
  let h := goSub v PP MM h
  let h := goAdd (v + 1) PP MM h
  let h := goAdd (v + 2) ZZ2 TT2d h
  goSub (v + 3) ZZ2 TT2d h

/-- edwards25519.go:305-323 `projP1xP1.Sub`. -/
def goP1Sub (v p q : ℕ) (h : Heap) : Heap :=
  let YplusX := h.next
  let YminusX := h.next + 1
  let PP := h.next + 2
  let MM := h.next + 3
  let TT2d := h.next + 4
  let ZZ2 := h.next + 5
  let h := h.alloc 6
  let h := goAdd YplusX (p + 1) p h
  let h := goSub YminusX (p + 1) p h
  let h := goMul PP YplusX (q + 1) h
  let h := goMul MM YminusX q h
  let h := goMul TT2d (p + 3) (q + 3) h
  let h := goMul ZZ2 (p + 2) (q + 2) h
  let h := goAdd ZZ2 ZZ2 ZZ2 h
  let h := goSub v PP MM h
  let h := goAdd (v + 1) PP MM h
  let h := goSub (v + 2) ZZ2 TT2d h
  goAdd (v + 3) ZZ2 TT2d h

/-- edwards25519.go:270-275 `Add`; `none` is a panic. -/
def goPtAdd (v p q : ℕ) (h : Heap) : Option Heap :=
  if goInit p h && goInit q h then
    let qCached := h.next
    let result := h.next + 4
    let h := h.alloc 8
    let h := goCachedFromP3 qCached q h
    let h := goP1Add result p qCached h
    some (goFromP1 v result h)
  else none

/-- edwards25519.go:278-283 `Subtract`. -/
def goPtSub (v p q : ℕ) (h : Heap) : Option Heap :=
  if goInit p h && goInit q h then
    let qCached := h.next
    let result := h.next + 4
    let h := h.alloc 8
    let h := goCachedFromP3 qCached q h
    let h := goP1Sub result p qCached h
    some (goFromP1 v result h)
  else none

/-- edwards25519.go:386-393 `Negate`. -/
def goPtNeg (v p : ℕ) (h : Heap) : Option Heap :=
  if goInit p h then
    let h := goNeg v p h
    let h := goSet (v + 1) (p + 1) h
    let h := goSet (v + 2) (p + 2) h
    some (goNeg (v + 3) (p + 3) h)
  else none

/-- edwards25519.go:396-406 `Equal`. -/
def goPtEqual (v u : ℕ) (h : Heap) : Option (Heap × ℕ) :=
  if goInit v h && goInit u h then
    let t1 := h.next
    let t2 := h.next + 1
    let t3 := h.next + 2
    let t4 := h.next + 3
    let h := h.alloc 4
    let h := goMul t1 v (u + 2) h
    let h := goMul t2 u (v + 2) h
    let h := goMul t3 (v + 1) (u + 2) h
    let h := goMul t4 (u + 1) (v + 2) h
    let e1 := goEqual t1 t2 h
    let e2 := goEqual t3 t4 e1.1
    some (e2.1, e1.2 &&& e2.2)
  else none

/-! ## scalarmult.go

Only the receiver `v` and the argument points live in memory here; the local variables `table`, `multiple`, `tmp1`, `tmp2`, whose addresses are not passed to
anything that keeps them, and the precomputed tables are values. -/

/-- `v.fromP1xP1(tmp1)` with `tmp1` a value. -/
def wrP1 (v : ℕ) (t : P1xP1) (h : Heap) : Heap :=
  let h := h.set v (feMul t.X t.T)
  let h := h.set (v + 1) (feMul t.Y t.Z)
  let h := h.set (v + 2) (feMul t.Z t.T)
  h.set (v + 3) (feMul t.X t.Y)

/-- `v.fromP2(tmp2)` with `tmp2` a value. -/
def wrP2 (v : ℕ) (t : P2) (h : Heap) : Heap :=
  let h := h.set v (feMul t.X t.Z)
  let h := h.set (v + 1) (feMul t.Y t.Z)
  let h := h.set (v + 2) (feSquare t.Z)
  h.set (v + 3) (feMul t.X t.Y)

/-- scalarmult.go:59-63, 77-81: `SelectInto`, `tmp1.AddAffine(v, multiple)`, `v.fromP1xP1(tmp1)`. -/
def goBaseStep (v : ℕ) (digits : List ℤ) (h : Option Heap) (i : ℕ) : Option Heap :=
  h.bind fun h => (baseTab (i / 2)).map fun t => wrP1 v (p1AddAffine (ptAt h v) (affSelect t (dg digits i))) h

/-- scalarmult.go:33-84 `ScalarBaseMult`. -/
def goScalarBaseMult (v : ℕ) (x : List ℕ) (h : Heap) : Option Heap :=
  (signedRadix16 x).bind fun digits =>
    let h := goPtSet v pIdentity h
    let h := ((List.range 32).map fun i => 2 * i + 1).foldl (goBaseStep v digits) (some h)
    let h := h.map fun h => wrP1 v (four (p2FromP3 (ptAt h v))) h
    ((List.range 32).map fun i => 2 * i).foldl (goBaseStep v digits) h

/-- scalarmult.go:118-130: the body of the loop of `ScalarMult`: the new `tmp1` and memory. -/
def goMultStep (v : ℕ) (t : ℕ → Cached) (d : ℤ) (s : P1xP1 × Heap) : P1xP1 × Heap :=
  let h := wrP1 v (four (p2FromP1 s.1)) s.2
  (p1Add (ptAt h v) (projSelect t d), h)

/-- scalarmult.go:89-134 `ScalarMult`. -/
def goScalarMult (v : ℕ) (x : List ℕ) (q : ℕ) (h : Heap) : Option Heap :=
  if goInit q h then
    let table := projTab (ptAt h q)
    (signedRadix16 x).map fun digits =>
      let h := goPtSet v pIdentity h
      let tmp1 := p1Add (ptAt h v) (projSelect table (dg digits 63))
      let s := (List.range 63).reverse.foldl (fun s i => goMultStep v table (dg digits i) s) (tmp1, h)
      wrP1 v s.1 s.2
  else none

/-- scalarmult.go:190-197: the first digit. -/
def goVtA (v : ℕ) (t : ℕ → Cached) (d : ℤ) (s : P1xP1 × Heap) : Option (P1xP1 × Heap) :=
  if d > 0 then
    let h := wrP1 v s.1 s.2
    (nafSelect 8 t d).map fun m => (p1Add (ptAt h v) m, h)
  else if d < 0 then
    let h := wrP1 v s.1 s.2
    (nafSelect 8 t (i8 (-d))).map fun m => (p1Sub (ptAt h v) m, h)
  else some s

/-- scalarmult.go:199-207: the second digit. -/
def goVtB (v : ℕ) (t : ℕ → ACached) (d : ℤ) (s : P1xP1 × Heap) : Option (P1xP1 × Heap) :=
  if d > 0 then
    let h := wrP1 v s.1 s.2
    (nafSelect 64 t d).map fun m => (p1AddAffine (ptAt h v) m, h)
  else if d < 0 then
    let h := wrP1 v s.1 s.2
    (nafSelect 64 t (i8 (-d))).map fun m => (p1SubAffine (ptAt h v) m, h)
  else some s

/-- scalarmult.go:186-210: the loop. -/
def goVtLoop (v : ℕ) (ta : ℕ → Cached) (tb : ℕ → ACached) (a b : List ℤ) : ℕ → P2 × Heap → Option (P2 × Heap)
  | 0, s => some s
  | i + 1, s => (goVtA v ta (dg a i) (p1Double s.1, s.2)).bind fun s => (goVtB v tb (dg b i) s).bind fun s =>
      goVtLoop v ta tb a b i (p2FromP1 s.1, s.2)

/-- scalarmult.go:154-214 `VarTimeDoubleScalarBaseMult`. -/
def goVarTime (v : ℕ) (a : List ℕ) (A : ℕ) (b : List ℕ) (h : Heap) : Option Heap :=
  if goInit A h then
    (ptAdd generator generator).bind fun g2 => (ptAdd (ptAt h A) (ptAt h A)).bind fun a2 =>
      let aTable := naf5Tab (ptAt h A) a2
      (nonAdjacentForm a 5).bind fun aNaf => (nonAdjacentForm b 8).bind fun bNaf =>
        (goVtLoop v aTable (naf8Tab generator g2) aNaf bNaf 256 (p2Zero, h)).map fun s => wrP2 v s.1 s.2
  else none

end Verif.EdHost.Alias
