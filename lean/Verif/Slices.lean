import Verif.Api

/-! # Model of circuits/gadgets/utils/slice.go -/

namespace Verif.Slices
open Api
variable {p : ℕ} {α : Type*}

/-- slice.go:7-16 `Flip`: copy, then swap `res[i]` with `res[len-1-i]` for `i < len/2`.
(`none` would be an index panic.) -/
def flip (inp : List α) : Option (List α) :=
  (List.range (inp.length / 2)).foldlM (fun res i => do
    let tmp ← res[i]?
    let other ← res[res.length - 1 - i]?
    pure ((res.set i other).set (res.length - 1 - i) tmp)) inp

/-- slice.go:18-27 `FlipSubSlice`; `len % 0` is a Go panic. -/
def flipSubSlice (arr : List α) (chunk : ℕ) : Option (List α) :=
  if chunk = 0 then none
  else if arr.length % chunk ≠ 0 then none
  else (List.range (arr.length / chunk)).foldlM (fun ret k => do
    let c ← flip ((arr.drop (k * chunk)).take chunk)
    pure (ret ++ c)) []

/-- slice.go:29-36 `FlipKeccakFvBits`. -/
def flipKeccakFvBits (d : F p) (n : ℕ) : Option (List (F p)) := do
  let arr ← toBinary d n
  let bits ← flip arr
  if arr.length % 8 ≠ 0 then none else flipSubSlice bits 8

/-- slice.go:38-44 `Slice2FVs` (the conversion of the element type to a variable is `f`). -/
def slice2FVs (f : α → F p) (a : List α) : List (F p) :=
  a.foldl (fun vars v => vars ++ [f v]) []

end Verif.Slices
