import Verif.EdHost.ScalarModel
import Verif.EdHost.PointModel

/-! # Model of the digit decompositions of scalar.go, of tables.go and of scalarmult.go

`none` is a panic.  Receivers and arguments are values (all methods allow aliasing; every method below reads its arguments
before it writes its receiver).  The tables built under `sync.Once` are modelled as the value they are built to. -/

namespace Verif.EdHost
open Verif.Ed

/-- Wrap-around of Go `int8`. -/
def i8 (x : ℤ) : ℤ := (x + 2 ^ 7) % 2 ^ 8 - 2 ^ 7

/-- Conversion of an `int8` to `uint8`. -/
def u8 (x : ℤ) : ℕ := (x % 2 ^ 8).toNat

/-- `digits[i]` (zero outside: indices are always in range here). -/
def dg (s : List ℤ) (i : ℕ) : ℤ := s.getD i 0

/-- scalar.go:1021-1024: the unsigned radix 16 digits. -/
def radix16 (s : List ℕ) : List ℤ := (s.map fun b => [i8 ((b &&& 15 : ℕ) : ℤ), i8 (((b >>> 4) &&& 15 : ℕ) : ℤ)]).flatten

/-- scalar.go:1028-1030: the body of the recentering loop. -/
def recenterStep (d : List ℤ) (i : ℕ) : List ℤ :=
  let carry := i8 (dg d i + 8) / 2 ^ 4
  let d := d.set i (i8 (dg d i - i8 (carry * 2 ^ 4)))
  d.set (i + 1) (i8 (dg d (i + 1) + carry))

/-- scalar.go:1013-1034 `signedRadix16`. -/
def signedRadix16 (s : List ℕ) : Option (List ℤ) :=
  if s.getD 31 0 > 127 then none else some ((List.range 63).foldl recenterStep (radix16 s))

/-- scalar.go:967-969: `digits`, five `uint64`. -/
def nafDigits (s : List ℕ) : List ℕ := [le64 s 0, le64 s 8, le64 s 16, le64 s 24, 0]

/-- scalar.go:977-991: `window`. -/
def nafWindow (digits : List ℕ) (w pos carry : ℕ) : ℕ :=
  let indexU64 := pos / 64
  let indexBit := pos % 64
  let bitBuf := if indexBit < 64 - w then digits.getD indexU64 0 >>> indexBit
    else (digits.getD indexU64 0 >>> indexBit) ||| (digits.getD (1 + indexU64) 0 <<< (64 - indexBit) % 2 ^ 64)
  carry + (bitBuf &&& (2 ^ w - 1))

/-- scalar.go:976-1008: the loop.  `fuel` bounds the number of iterations (`pos` grows in each, so 256 suffice). -/
def nafLoop (digits : List ℕ) (w : ℕ) : ℕ → ℕ → ℕ → List ℤ → List ℤ
  | 0, _, _, naf => naf
  | fuel + 1, pos, carry, naf =>
    if pos < 256 then
      let window := nafWindow digits w pos carry
      if window % 2 = 0 then nafLoop digits w fuel (pos + 1) carry naf
      else if window < 2 ^ w / 2 then nafLoop digits w fuel (pos + w) 0 (naf.set pos (i8 window))
      else nafLoop digits w fuel (pos + w) 1 (naf.set pos (i8 (i8 window - i8 (2 ^ w : ℕ))))
    else naf

/-- scalar.go:949-1010 `nonAdjacentForm`. -/
def nonAdjacentForm (s : List ℕ) (w : ℕ) : Option (List ℤ) :=
  if s.getD 31 0 > 127 then none
  else if w < 2 then none
  else if w > 8 then none
  else some (nafLoop (nafDigits s) w 256 0 0 (List.replicate 256 0))

/-- tables.go:34-46 `projLookupTable.FromP3`: `points[i]`. -/
def projTab (q : Point) : ℕ → Cached
  | 0 => cachedFromP3 q
  | i + 1 => cachedFromP3 (fromP1 (p1Add q (projTab q i)))

/-- tables.go:49-59 `affineLookupTable.FromP3`: `points[i]`. -/
def affTab (q : Point) : ℕ → ACached
  | 0 => acachedFromP3 q
  | i + 1 => acachedFromP3 (fromP1 (p1AddAffine q (affTab q i)))

/-- tables.go:62-73 `nafLookupTable5.FromP3`: `points[i]`, given `q2`. -/
def naf5Tab (q q2 : Point) : ℕ → Cached
  | 0 => cachedFromP3 q
  | i + 1 => cachedFromP3 (fromP1 (p1Add q2 (naf5Tab q q2 i)))

/-- tables.go:76-85 `nafLookupTable8.FromP3`: `points[i]`, given `q2`. -/
def naf8Tab (q q2 : Point) : ℕ → ACached
  | 0 => acachedFromP3 q
  | i + 1 => acachedFromP3 (fromP1 (p1AddAffine q2 (naf8Tab q q2 i)))

/-- tables.go:92-93 `xmask := x >> 7`. -/
def xmask (x : ℤ) : ℤ := x / 2 ^ 7

/-- tables.go:93 `xabs := uint8((x + xmask) ^ xmask)`. -/
def xabs (x : ℤ) : ℕ := u8 (i8 (x + xmask x)) ^^^ u8 (xmask x)

/-- `subtle.ConstantTimeByteEq`. -/
def byteEq (a b : ℕ) : ℕ := if a = b then 1 else 0

/-- tables.go:90-103 `projLookupTable.SelectInto`. -/
def projSelect (t : ℕ → Cached) (x : ℤ) : Cached :=
  let dest := (List.range 8).foldl (fun dest j => cachedSelect (t j) dest (byteEq (xabs x) (j + 1))) cachedZero
  cachedCondNeg dest (u8 (xmask x) &&& 1)

/-- tables.go:106-119 `affineLookupTable.SelectInto`. -/
def affSelect (t : ℕ → ACached) (x : ℤ) : ACached :=
  let dest := (List.range 8).foldl (fun dest j => acachedSelect (t j) dest (byteEq (xabs x) (j + 1))) acachedZero
  acachedCondNeg dest (u8 (xmask x) &&& 1)

/-- tables.go:122-124, 127-129: indexing `points[x/2]` of an array of length `n`; Go's `/` rounds to zero, so a negative index
needs `x ≤ -2`. -/
def nafSelect {α : Type} (n : ℕ) (t : ℕ → α) (x : ℤ) : Option α :=
  let i := x.tdiv 2
  if 0 ≤ i ∧ i < n then some (t i.toNat) else none

/-- scalarmult.go:12-19: eight times `p.Add(p, p)`. -/
def times256 (p : Point) : Option Point := (List.range 8).foldl (fun p _ => p.bind fun p => ptAdd p p) (some p)

/-- scalarmult.go:12-19: the point the `i`-th table is built from. -/
def basePt : ℕ → Option Point
  | 0 => some generator
  | i + 1 => (basePt i).bind times256

/-- scalarmult.go:11-22 `basepointTable()[i]`; `none` if building any table panics. -/
def baseTab (i : ℕ) : Option (ℕ → ACached) := (basePt i).map affTab

/-- scalarmult.go:59-63, 77-81: one step of an accumulation of `ScalarBaseMult`. -/
def baseStep (digits : List ℤ) (v : Option Point) (i : ℕ) : Option Point :=
  v.bind fun v => (baseTab (i / 2)).map fun t => fromP1 (p1AddAffine v (affSelect t (dg digits i)))

/-- scalarmult.go:66-74 and 119-126: four doublings, `tmp2` to `tmp1`. -/
def four (t2 : P2) : P1xP1 :=
  let t1 := p1Double t2
  let t2 := p2FromP1 t1
  let t1 := p1Double t2
  let t2 := p2FromP1 t1
  let t1 := p1Double t2
  let t2 := p2FromP1 t1
  p1Double t2

/-- scalarmult.go:33-84 `ScalarBaseMult`. -/
def scalarBaseMult (x : List ℕ) : Option Point :=
  (signedRadix16 x).bind fun digits =>
    let v := ((List.range 32).map fun i => 2 * i + 1).foldl (baseStep digits) (some identity)
    let v := v.map fun v => fromP1 (four (p2FromP3 v))
    ((List.range 32).map fun i => 2 * i).foldl (baseStep digits) v

/-- scalarmult.go:119-129: the body of the loop of `ScalarMult`. -/
def multStep (t : ℕ → Cached) (x : ℤ) (t1 : P1xP1) : P1xP1 := p1Add (fromP1 (four (p2FromP1 t1))) (projSelect t x)

/-- scalarmult.go:118-130: the loop of `ScalarMult`, from `i - 1` down to 0. -/
def multLoop (t : ℕ → Cached) (digits : List ℤ) (i : ℕ) (t1 : P1xP1) : P1xP1 :=
  (List.range i).reverse.foldl (fun t1 i => multStep t (dg digits i) t1) t1

/-- scalarmult.go:89-134 `ScalarMult`. -/
def scalarMult (x : List ℕ) (q : Point) : Option Point :=
  if initialized q then
    (signedRadix16 x).map fun digits =>
      fromP1 (multLoop (projTab q) digits 63 (p1Add identity (projSelect (projTab q) (dg digits 63))))
  else none

/-- scalarmult.go:190-197: the first digit. -/
def vtA (t : ℕ → Cached) (t1 : P1xP1) (d : ℤ) : Option P1xP1 :=
  if d > 0 then (nafSelect 8 t d).map fun m => p1Add (fromP1 t1) m
  else if d < 0 then (nafSelect 8 t (i8 (-d))).map fun m => p1Sub (fromP1 t1) m
  else some t1

/-- scalarmult.go:199-207: the second digit. -/
def vtB (t : ℕ → ACached) (t1 : P1xP1) (d : ℤ) : Option P1xP1 :=
  if d > 0 then (nafSelect 64 t d).map fun m => p1AddAffine (fromP1 t1) m
  else if d < 0 then (nafSelect 64 t (i8 (-d))).map fun m => p1SubAffine (fromP1 t1) m
  else some t1

/-- scalarmult.go:186-210: the loop, from `i - 1` down to 0. -/
def vtLoop (ta : ℕ → Cached) (tb : ℕ → ACached) (a b : List ℤ) : ℕ → P2 → Option P2
  | 0, t2 => some t2
  | i + 1, t2 => (vtA ta (p1Double t2) (dg a i)).bind fun t1 => (vtB tb t1 (dg b i)).bind fun t1 => vtLoop ta tb a b i (p2FromP1 t1)

/-- scalarmult.go:154-214 `VarTimeDoubleScalarBaseMult`.  (The search loop of 173-177 shadows nothing but uses its own
variable `j`: `i` stays 255.) -/
def varTime (a : List ℕ) (A : Point) (b : List ℕ) : Option Point :=
  if initialized A then
    (ptAdd generator generator).bind fun g2 => (ptAdd A A).bind fun a2 =>
      (nonAdjacentForm a 5).bind fun aNaf => (nonAdjacentForm b 8).bind fun bNaf =>
        (vtLoop (naf5Tab A a2) (naf8Tab generator g2) aNaf bNaf 256 p2Zero).map fromP2
  else none

end Verif.EdHost
