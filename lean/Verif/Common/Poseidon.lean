import Verif.Common.Codec
import Mathlib.Data.Int.Notation

/-! # Model of common/utils/poseidon_bn254.go

The hasher keeps pointers to the caller's numbers in a Go slice, so the model has the numbers (`cells`), the arrays behind the
slices (`heap`, with the `append` of `Common/Codec.lean`; an array entry is the address of a number) and any number of hashers.
External: `poseidon.Hash` (go-iden3-crypto), a parameter; `none` is its error (no input, more than 16 inputs, an input outside
the field). Callers pass non-nil pointers. -/

namespace Verif.Common.Poseidon
open Codec (Heap Slice nilSlice content append)

/-- The memory of the program: arrays of pointers, numbers, the field `preimages` of every hasher, and what the calls of `Sum`
returned, oldest first. -/
structure St where
  heap : Heap
  cells : ℕ → ℤ
  hashers : List Slice
  results : List (Option ℤ)

/-- Before the first call. -/
def start (cells : ℕ → ℤ) : St := ⟨[[]], cells, [], []⟩

/-- What can happen. `copy k` is the Go assignment `h2 := *h` of the struct; `setCell` is the caller changing one of its numbers. -/
inductive Op where
  | new
  | copy (k : ℕ)
  | write (k ptr extra : ℕ)
  | reset (k : ℕ)
  | sum (k : ℕ)
  | setCell (ptr : ℕ) (v : ℤ)

/-- poseidon_bn254.go:16-18 `Write`. -/
def write (st : St) (k ptr extra : ℕ) : St :=
  if k < st.hashers.length then
    let r := append st.heap (st.hashers.getD k nilSlice) [ptr] extra
    { st with heap := r.1, hashers := st.hashers.set k r.2 }
  else st

/-- poseidon_bn254.go:24-26 `Sum`. -/
def sum (H : List ℤ → Option ℤ) (st : St) (k : ℕ) : Option ℤ :=
  H ((content st.heap (st.hashers.getD k nilSlice)).map st.cells)

/-- One event: poseidon_bn254.go:12-14 `NewPoseidonBn254`, 16-18 `Write`, 20-22 `Reset` (an empty slice without capacity), 24-26
`Sum`. -/
def step (H : List ℤ → Option ℤ) (st : St) : Op → St
  | .new => { st with hashers := st.hashers ++ [nilSlice] }
  | .copy k => { st with hashers := st.hashers ++ [st.hashers.getD k nilSlice] }
  | .write k ptr extra => write st k ptr extra
  | .reset k => { st with hashers := st.hashers.set k nilSlice }
  | .sum k => { st with results := st.results ++ [sum H st k] }
  | .setCell ptr v => { st with cells := fun i => if i = ptr then v else st.cells i }

def run (H : List ℤ → Option ℤ) (st : St) (ops : List Op) : St := ops.foldl (step H) st

end Verif.Common.Poseidon
