import Verif.Slices

/-! # Model of circuits/gadgets/conv/bits.go

A Go slice expression beyond the length is modelled as a panic (it may also reach into spare capacity). -/

namespace Verif.Conv
open Api
variable {p : ℕ}

/-- A Go slice expression `l[a:b]`. -/
def slice {α : Type} (l : List α) (a b : ℕ) : Option (List α) :=
  if a ≤ b ∧ b ≤ l.length then some ((l.take b).drop a) else none

/-- bits.go:9-15 `Bits2Bytes2`: `for i := 0; i < len; i += 8` runs `⌈len/8⌉` times. -/
def bits2Bytes2 (bits : List (F p)) : Option (List (F p)) :=
  (List.range ((bits.length + 7) / 8)).foldlM (fun bytes k => do
    let s ← slice bits (8 * k) (8 * k + 8)
    let f ← Slices.flip s
    let b ← fromBinary f
    pure (bytes ++ [b])) []

/-- bits.go:17-23 `Bits2Bytes`. -/
def bits2Bytes (bits : List (F p)) : Option (List (F p)) :=
  (List.range ((bits.length + 7) / 8)).foldlM (fun bytes k => do
    let s ← slice bits (8 * k) (8 * k + 8)
    let b ← fromBinary s
    pure (bytes ++ [b])) []

/-- bits.go:28: the slice `bits[i-8:i]`; a negative lower bound panics. -/
def sliceDown {α : Type} (l : List α) (i : ℕ) : Option (List α) := if i < 8 then none else slice l (i - 8) i

/-- bits.go:25-31 `Bits2BytesArray`: `for i := len; i > 0; i -= 8`, slice `[i-8:i]`; a negative lower bound panics. -/
def bits2BytesArray (bits : List (F p)) : Option (List (F p)) :=
  (List.range ((bits.length + 7) / 8)).foldlM (fun bytes k => do
    let i := bits.length - 8 * k
    let s ← sliceDown bits i
    let b ← fromBinary s
    pure (bytes ++ [b])) []

/-- bits.go:42-48 `Bits2Uint128s` (the argument is a `[256]` array). -/
def bits2Uint128s (bits : List (F p)) : Option (List (F p)) := do
  let h ← Slices.flipSubSlice bits 8
  let a ← slice h 0 128
  let a ← Slices.flip a
  let a ← fromBinary a
  let b ← slice h 128 h.length
  let b ← Slices.flip b
  let b ← fromBinary b
  pure [a, b]

/-- bits.go:50-56 `Bits2Nibbles`: passes the slice `bits[i:i+4]` as ONE variable of `FromBinary`; gnark panics on a
variable whose dynamic type is a slice, so every iteration of the loop panics. -/
def bits2Nibbles (bits : List (F p)) : Option (List (F p)) :=
  (List.range ((bits.length + 7) / 8)).foldlM (fun _ k => do
    let _ ← slice bits (8 * k) (8 * k + 4)
    none) []

end Verif.Conv
