import Verif.Keccak.Perm
import Verif.Mux

/-! # Model of circuits/gadgets/keccak/keccak256_bits.go and keccak256_bits_optimized.go -/

namespace Verif.Keccak
open Api
variable {p : ℕ}

/-- keccak256_bits.go:37-43 `getRoundBits`; reading past the end of `data` panics. -/
def getRoundBits (data : List (F p)) (round : ℕ) : Option (Fin 1088 → F p) :=
  seqFin fun i => data[i.val + round * 1088]?

/-- keccak256_bits.go:45-51 `newEmptyState`. -/
def newEmptyState : Fin 1600 → F p := fun _ => 0

/-- keccak256_bits.go:67-76 `absorbBits`. -/
def absorbBits (s : Fin 1600 → F p) (block : Fin 1088 → F p) : Option (Fin 1600 → F p) := do
  let x ← seqFin fun i : Fin 1088 => Api.xor (s ⟨i.val, by omega⟩) (block i)
  permute fun i => if h : i.val < 1088 then x ⟨i.val, h⟩ else s i

/-- keccak256_bits.go:53-65 `transpose2`. -/
def transpose2 (input : List (Fin 1600 → F p)) : List (List (F p)) :=
  (List.finRange 1600).map fun i => input.map fun row => row i

/-- keccak256_bits.go:19-26: the list `states`, grown by one state per round. -/
def spongeStates (maxRounds : ℕ) (data : List (F p)) : Option (List (Fin 1600 → F p)) :=
  (List.range maxRounds).foldlM (fun states i => do
    let s ← states[i]?
    let r ← getRoundBits data i
    let s' ← absorbBits s r
    pure (states ++ [s'])) [newEmptyState]

/-- keccak256_bits.go:12-35 `Keccak256Bits`. The `[256]` result is modelled as a list of 256 entries. -/
def keccak256Bits (maxRounds : ℕ) (roundIndex : F p) (data : List (F p)) : Option (List (F p)) :=
  if maxRounds * 1088 < data.length then none
  else if data.length % 1088 ≠ 0 then none
  else do
    let states ← spongeStates maxRounds data
    if maxRounds = 1 then
      let s ← states[1]?
      pure ((List.finRange 256).map fun i => s ⟨i.val, by omega⟩)
    else
      let selected ← Mux.multiplex roundIndex 256 maxRounds (transpose2 (states.drop 1))
      pure (selected.take 256)

/-- keccak256_bits_optimized.go:11-35 `Keccak256BitsOptimized`. `minRounds` is a natural number here;
`states[minRounds:]` panics when `minRounds > len(states)`, and `maxRounds-minRounds+1` is only
evaluated with `minRounds ≤ maxRounds+1`, so truncated subtraction is exact. -/
def keccak256BitsOptimized (minRounds maxRounds : ℕ) (roundIndex : F p) (data : List (F p)) :
    Option (List (F p)) :=
  if maxRounds * 1088 < data.length then none
  else if data.length % 1088 ≠ 0 then none
  else do
    let states ← spongeStates maxRounds data
    if maxRounds = 1 then
      let s ← states[1]?
      pure ((List.finRange 256).map fun i => s ⟨i.val, by omega⟩)
    else
      let roundIndex := roundIndex - ((minRounds : F p) - 1)
      if states.length < minRounds then none else
      let selected ← Mux.multiplex roundIndex 256 (maxRounds + 1 - minRounds)
        (transpose2 (states.drop minRounds))
      pure (selected.take 256)

end Verif.Keccak
