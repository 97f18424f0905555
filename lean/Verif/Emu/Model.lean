import Verif.Limbs.Model
import Verif.Slices

/-! # Model of circuits/gadgets/emulated/element.go -/

namespace Verif.Emu
open Api Limbs
variable {p : ℕ}

/-- `emulated.FieldParams`: bits per limb, number of limbs, and the width of the most significant limb
(`(bitlen(modulus)-1) % bitsPerLimb + 1`). -/
structure FieldPrm where
  bitsPerLimb : ℕ
  nbLimbs : ℕ
  topBits : ℕ

/-- gnark `Field.NewElement([]Variable)` (not in /repo): the limbs, least significant first; panics on another number
of limbs and range-checks every limb. -/
def newElement (P : FieldPrm) (limbs : List (F p)) : Option (List (F p)) :=
  if limbs.length = P.nbLimbs ∧
    (∀ i < limbs.length, (limbs.getD i 0).val < 2 ^ (if i + 1 = limbs.length then P.topBits else P.bitsPerLimb))
  then some limbs else none

/-- element.go:12-18 `FromElement`. -/
def fromElement (hint : ℕ → Hint p) (P : FieldPrm) (inp : List (F p)) (outBitSize : ℕ) : Option (List (F p)) := do
  let ls := newLimbs inp P.bitsPerLimb
  let ls ← Slices.flipSubSlice ls P.nbLimbs
  let r ← resplit hint ls outBitSize
  pure (values r)

/-- element.go:20-31 `ToElement`. -/
def toElement (hint : ℕ → Hint p) (P : FieldPrm) (inp : List (F p)) (inBitSize : ℕ) : Option (List (F p)) := do
  let ls := newLimbs inp inBitSize
  let elLimbs ← resplit hint ls P.bitsPerLimb
  let elLimbs ← Slices.flip elLimbs
  newElement P (values elLimbs)

/-- element.go:33-55 `ToElements` (a slice expression beyond the end is a panic; division by zero is a panic). -/
def toElements (P : FieldPrm) (inp : List (F p)) (s : ℕ) : Option (List (List (F p))) :=
  if s = 0 ∨ P.bitsPerLimb = 0 then none
  else do
    let inBits := inp.length * s
    let varsPerLimb := P.bitsPerLimb / s
    let ls := newLimbs inp s
    let elLimbs ← (List.range (inBits / P.bitsPerLimb)).mapM fun i =>
      if (i + 1) * varsPerLimb ≤ ls.length then
        (merge ((ls.take ((i + 1) * varsPerLimb)).drop (i * varsPerLimb))).map Limb.val
      else none
    let elLimbs ← Slices.flipSubSlice elLimbs P.nbLimbs
    (List.range (elLimbs.length / P.nbLimbs)).mapM fun k =>
      newElement P ((elLimbs.drop (k * P.nbLimbs)).take P.nbLimbs)

end Verif.Emu
