import Verif.EdHost.FieldModel

/-! # Model of /repo/circuits/gadgets/ed25519/test/scalar.go

A `Scalar` is its 32 bytes.  `int64` values are integers; every operation wraps to the signed 64-bit range.  The unrolled
straight-line code of `scMulAdd` and `scReduce` consists, after the limbs are loaded, of three kinds of code blocks; it is
modelled as the list of these blocks, in the order of the source. -/

namespace Verif.EdHost
open Verif.Ed

/-- Wrap-around of Go `int64`. -/
def i64 (x : ℤ) : ℤ := (x + 2 ^ 63) % 2 ^ 64 - 2 ^ 63

/-- A code block on the limbs `s0 … s23`. -/
inductive Blk
  /-- `carry[i] = (s_i + (1 << 20)) >> 21; s_{i+1} += carry[i]; s_i -= carry[i] << 21` -/
  | R (i : ℕ)
  /-- `carry[i] = s_i >> 21; s_{i+1} += carry[i]; s_i -= carry[i] << 21` -/
  | F (i : ℕ)
  /-- `s_{i-12} += s_i * 666643; s_{i-11} += s_i * 470296; s_{i-10} += s_i * 654183; s_{i-9} -= s_i * 997805;
  s_{i-8} += s_i * 136657; s_{i-7} -= s_i * 683901; s_i = 0` -/
  | D (i : ℕ)

/-- Limb `i`. -/
def lg (s : List ℤ) (i : ℕ) : ℤ := s.getD i 0

/-- `s_i += x`, wrapping. -/
def addAt (s : List ℤ) (i : ℕ) (x : ℤ) : List ℤ := s.set i (i64 (lg s i + x))

/-- `s_i -= x`, wrapping. -/
def subAt (s : List ℤ) (i : ℕ) (x : ℤ) : List ℤ := s.set i (i64 (lg s i - x))

/-- The carry blocks, given the carry (scalar.go:259-261 and others); `<<` wraps. -/
def carryBlk (s : List ℤ) (i : ℕ) (c : ℤ) : List ℤ := subAt (addAt s (i + 1) c) i (i64 (c * 2 ^ 21))

/-- One block.  `>>` on `int64` is arithmetic: division by `2^21` rounding down. -/
def blk (s : List ℤ) : Blk → List ℤ
  | .R i => carryBlk s i (i64 (lg s i + 2 ^ 20) / 2 ^ 21)
  | .F i => carryBlk s i (lg s i / 2 ^ 21)
  | .D i =>
    let x := lg s i
    let s := addAt s (i - 12) (i64 (x * 666643))
    let s := addAt s (i - 11) (i64 (x * 470296))
    let s := addAt s (i - 10) (i64 (x * 654183))
    let s := subAt s (i - 9) (i64 (x * 997805))
    let s := addAt s (i - 8) (i64 (x * 136657))
    let s := subAt s (i - 7) (i64 (x * 683901))
    s.set i 0

/-- The blocks in order. -/
def runBlks (s : List ℤ) (l : List Blk) : List ℤ := l.foldl blk s

/-- scalar.go:259-329: the two rounds of carries after the multiplication. -/
def blksMul : List Blk := [.R 0, .R 2, .R 4, .R 6, .R 8, .R 10, .R 12, .R 14, .R 16, .R 18, .R 20, .R 22,
  .R 1, .R 3, .R 5, .R 7, .R 9, .R 11, .R 13, .R 15, .R 17, .R 19, .R 21]

/-- scalar.go:330-505 and 654-831, up to the fold before the first rounding-down pass. -/
def blksA : List Blk := [.D 23, .D 22, .D 21, .D 20, .D 19, .D 18,
  .R 6, .R 8, .R 10, .R 12, .R 14, .R 16, .R 7, .R 9, .R 11, .R 13, .R 15,
  .D 17, .D 16, .D 15, .D 14, .D 13, .D 12,
  .R 0, .R 2, .R 4, .R 6, .R 8, .R 10, .R 1, .R 3, .R 5, .R 7, .R 9, .R 11, .D 12]

/-- scalar.go:507-542 and 833-868: the first rounding-down pass. -/
def blksB : List Blk := [.F 0, .F 1, .F 2, .F 3, .F 4, .F 5, .F 6, .F 7, .F 8, .F 9, .F 10, .F 11]

/-- scalar.go:544-584 and 870-910: the last fold and the second rounding-down pass. -/
def blksC : List Blk := [.D 12, .F 0, .F 1, .F 2, .F 3, .F 4, .F 5, .F 6, .F 7, .F 8, .F 9, .F 10]

/-- scalar.go:170-175 `load3(in[o:])`. -/
def load3 (x : List ℕ) (o : ℕ) : ℕ := x.getD o 0 ||| (x.getD (o + 1) 0 <<< 8) ||| (x.getD (o + 2) 0 <<< 16)

/-- scalar.go:177-183 `load4(in[o:])`. -/
def load4 (x : List ℕ) (o : ℕ) : ℕ := x.getD o 0 ||| (x.getD (o + 1) 0 <<< 8) ||| (x.getD (o + 2) 0 <<< 16) ||| (x.getD (o + 3) 0 <<< 24)

/-- `2097151 & x`. -/
def m21 (x : ℕ) : ℕ := 2097151 &&& x

/-- scalar.go:196-207 (and 208-231 for the other operands): the limbs of a 32-byte operand. -/
def limbs32 (a : List ℕ) : List ℕ :=
  [m21 (load3 a 0), m21 (load4 a 2 >>> 5), m21 (load3 a 5 >>> 2), m21 (load4 a 7 >>> 7), m21 (load4 a 10 >>> 4), m21 (load3 a 13 >>> 1),
    m21 (load4 a 15 >>> 6), m21 (load3 a 18 >>> 3), m21 (load3 a 21), m21 (load4 a 23 >>> 5), m21 (load3 a 26 >>> 2), load4 a 28 >>> 7]

/-- scalar.go:629-652: the limbs of the 64-byte operand of `scReduce`. -/
def limbs64 (s : List ℕ) : List ℕ :=
  [m21 (load3 s 0), m21 (load4 s 2 >>> 5), m21 (load3 s 5 >>> 2), m21 (load4 s 7 >>> 7), m21 (load4 s 10 >>> 4), m21 (load3 s 13 >>> 1),
    m21 (load4 s 15 >>> 6), m21 (load3 s 18 >>> 3), m21 (load3 s 21), m21 (load4 s 23 >>> 5), m21 (load3 s 26 >>> 2), m21 (load4 s 28 >>> 7),
    m21 (load4 s 31 >>> 4), m21 (load3 s 34 >>> 1), m21 (load4 s 36 >>> 6), m21 (load3 s 39 >>> 3), m21 (load3 s 42), m21 (load4 s 44 >>> 5),
    m21 (load3 s 47 >>> 2), m21 (load4 s 49 >>> 7), m21 (load4 s 52 >>> 4), m21 (load3 s 55 >>> 1), m21 (load4 s 57 >>> 6), load4 s 60 >>> 3]

/-- scalar.go:234-257: column `k` of the product, `c_k` first, then the products in the order of the source.  (Columns 12 to
22 have no `c_k` and fewer products; here the absent terms are zeros.) -/
def column (a b c : List ℕ) (k : ℕ) : ℤ :=
  (List.range (k + 1)).foldl (fun (acc : ℤ) i => i64 (acc + i64 ((a.getD i 0 : ℤ) * (b.getD (k - i) 0 : ℤ)))) (c.getD k 0 : ℤ)

/-- `byte(x >> k)` of an `int64`. -/
def byteShr (x : ℤ) (k : ℕ) : ℕ := (x / 2 ^ k % 256).toNat

/-- `byte(x << k)` of an `int64`. -/
def byteShl (x : ℤ) (k : ℕ) : ℕ := (x * 2 ^ k % 256).toNat

/-- scalar.go:586-617 and 912-943: the limbs packed into bytes (`byte(u | v) = byte(u) | byte(v)`). -/
def pack (s : List ℤ) : List ℕ :=
  [
    byteShr (lg s 0) 0, byteShr (lg s 0) 8, (byteShr (lg s 0) 16 ||| byteShl (lg s 1) 5), byteShr (lg s 1) 3,
    byteShr (lg s 1) 11, (byteShr (lg s 1) 19 ||| byteShl (lg s 2) 2), byteShr (lg s 2) 6, (byteShr (lg s 2) 14 ||| byteShl (lg s 3) 7),
    byteShr (lg s 3) 1, byteShr (lg s 3) 9, (byteShr (lg s 3) 17 ||| byteShl (lg s 4) 4), byteShr (lg s 4) 4,
    byteShr (lg s 4) 12, (byteShr (lg s 4) 20 ||| byteShl (lg s 5) 1), byteShr (lg s 5) 7, (byteShr (lg s 5) 15 ||| byteShl (lg s 6) 6),
    byteShr (lg s 6) 2, byteShr (lg s 6) 10, (byteShr (lg s 6) 18 ||| byteShl (lg s 7) 3), byteShr (lg s 7) 5,
    byteShr (lg s 7) 13, byteShr (lg s 8) 0, byteShr (lg s 8) 8, (byteShr (lg s 8) 16 ||| byteShl (lg s 9) 5),
    byteShr (lg s 9) 3, byteShr (lg s 9) 11, (byteShr (lg s 9) 19 ||| byteShl (lg s 10) 2), byteShr (lg s 10) 6,
    (byteShr (lg s 10) 14 ||| byteShl (lg s 11) 7), byteShr (lg s 11) 1, byteShr (lg s 11) 9, byteShr (lg s 11) 17]

/-- scalar.go:195-618 `scMulAdd`. -/
def scMulAdd (a b c : List ℕ) : List ℕ :=
  let s := (List.range 23).map (column (limbs32 a) (limbs32 b) (limbs32 c)) ++ [0]
  pack (runBlks s (blksMul ++ blksA ++ blksB ++ blksC))

/-- scalar.go:628-944 `scReduce`. -/
def scReduce (x : List ℕ) : List ℕ :=
  pack (runBlks ((limbs64 x).map fun l : ℕ => (l : ℤ)) (blksA ++ blksB ++ blksC))

/-- scalar.go:31 `scZero`. -/
def scZero : List ℕ := [0, 0, 0, 0, 0, 0, 0, 0, 0, 0, 0, 0, 0, 0, 0, 0, 0, 0, 0, 0, 0, 0, 0, 0, 0, 0, 0, 0, 0, 0, 0, 0]

/-- scalar.go:33 `scOne`. -/
def scOne : List ℕ := [1, 0, 0, 0, 0, 0, 0, 0, 0, 0, 0, 0, 0, 0, 0, 0, 0, 0, 0, 0, 0, 0, 0, 0, 0, 0, 0, 0, 0, 0, 0, 0]

/-- scalar.go:35 `scMinusOne`. -/
def scMinusOne : List ℕ := [236, 211, 245, 92, 26, 99, 18, 88, 214, 156, 247, 162, 222, 249, 222, 20, 0, 0, 0, 0, 0, 0, 0, 0, 0, 0, 0, 0, 0, 0, 0, 16]

/-- scalar.go:43-46. -/
def scMultiplyAdd (x y z : List ℕ) : List ℕ := scMulAdd x y z

/-- scalar.go:49-53. -/
def scAdd (x y : List ℕ) : List ℕ := scMulAdd scOne x y

/-- scalar.go:56-60. -/
def scSub (x y : List ℕ) : List ℕ := scMulAdd scMinusOne y x

/-- scalar.go:63-67. -/
def scNeg (x : List ℕ) : List ℕ := scMulAdd scMinusOne x scZero

/-- scalar.go:70-74. -/
def scMul (x y : List ℕ) : List ℕ := scMulAdd x y scZero

/-- scalar.go:88-96 `SetUniformBytes`; `none` is the error. -/
def scSetUniform (x : List ℕ) : Option (List ℕ) := if x.length ≠ 64 then none else some (scReduce x)

/-- scalar.go:115-125 `isReduced`: the loop at index `i - 1`. -/
def isReducedFrom (s : List ℕ) : ℕ → Bool
  | 0 => true
  | i + 1 =>
    if s.getD i 0 > scMinusOne.getD i 0 then false
    else if s.getD i 0 < scMinusOne.getD i 0 then true
    else isReducedFrom s i

/-- scalar.go:101-112 `SetCanonicalBytes`; `none` is the error. -/
def scSetCanonical (x : List ℕ) : Option (List ℕ) :=
  if x.length ≠ 32 then none else if !isReducedFrom x 32 then none else some x

/-- scalar.go:138-153 `SetBytesWithClamping`; `none` is the error. -/
def scSetClamped (x : List ℕ) : Option (List ℕ) :=
  if x.length ≠ 32 then none
  else
    let wide := x ++ List.replicate 32 0
    let wide := wide.set 0 (wide.getD 0 0 &&& 248)
    let wide := wide.set 31 (wide.getD 31 0 &&& 63)
    let wide := wide.set 31 (wide.getD 31 0 ||| 64)
    some (scReduce wide)

/-- scalar.go:163-165 `Equal`. -/
def scEqual (s t : List ℕ) : ℕ := if s = t then 1 else 0

end Verif.EdHost
