import Verif.Keccak.Sponge
import Verif.Keccak.Pad

/-! # Model of circuits/gadgets/keccak/keccak256.go (word-level Keccak-256) and of the nibble-to-word
helpers of periphery.go -/

namespace Verif.Keccak
open Api
variable {p : ℕ}

/-- `keccakf.PermuteOld` of the gnark fork (external, not in /repo): assumed to decompose the 25 lanes into
64 bits each, apply the permutation, and recompose. -/
def permuteOld (s : Fin 25 → F p) : Option (Fin 25 → F p) := do
  let bits ← seqFin fun k => toBinary (s k) 64
  let out ← permute fun i => (bits ⟨i.val / 64, by omega⟩).getD (i.val % 64) 0
  seqFin fun k : Fin 25 => fromBinary ((List.range 64).map fun z =>
    if h : k.val * 64 + z < 1600 then out ⟨k.val * 64 + z, h⟩ else 0)

/-- keccak256.go:82-91 `absorb`, one word: both decomposed to 64 bits, xored, recomposed. -/
def xorWord (s block : F p) : Option (F p) := do
  let rbits ← toBinary s 64
  let bbits ← toBinary block 64
  let xored ← (List.range 64).mapM fun j => do
    let a ← rbits[j]?
    let b ← bbits[j]?
    Api.xor a b
  fromBinary xored

/-- keccak256.go:80-91 `absorb`. -/
def absorbWords (s : Fin 25 → F p) (block : Fin 17 → F p) : Option (Fin 25 → F p) := do
  let x ← seqFin fun i : Fin 17 => xorWord (s ⟨i.val, by omega⟩) (block i)
  permuteOld fun i => if h : i.val < 17 then x ⟨i.val, h⟩ else s i

/-- keccak256.go:14-62: `Keccak256` (N = 10), `Keccak256ForNormalTransaction` (N = 13) and
`Keccak256ForMaxTransaction` (N = 13) are the same code with the constant N. Out is the first 4 words. -/
def keccak256Words (N : ℕ) (blocks : Fin N → Fin 17 → F p) (roundIndex : F p) : Option (List (F p)) := do
  let states ← (List.finRange N).foldlM (fun (sts : List (Fin 25 → F p)) i => do
    let s ← sts[i.val]?
    let s' ← absorbWords s (blocks i)
    pure (sts ++ [s'])) [fun _ => 0]
  let t ← transpose ((states.drop 1).map fun s => (List.finRange 25).map s)
  let selected ← Mux.multiplex roundIndex 25 N t
  pure (selected.take 4)

/-- periphery.go:91-127, 130-165, 167-202, 204-239: `RecomposeHexToKeccakU64s` and the three `NibblesToU64Array*`
functions differ only in the number of rounds `width`; more words than `17*width` index out of range. -/
def nibblesToWords (width : ℕ) (hex : List (F p)) : Option (List (F p)) := do
  let u64s ← (List.range (hex.length * 4 / 64)).mapM fun i => do
    let u64bits ← (List.range 8).foldlM (fun (acc : List (F p)) j => do
      let h1 ← hex[i * 16 + j * 2]?
      let part1 ← toBinary h1 4
      let h2 ← hex[i * 16 + j * 2 + 1]?
      let part2 ← toBinary h2 4
      pure (acc ++ (part2 ++ part1))) []
    fromBinary u64bits
  if width * 17 < u64s.length then none
  else pure (u64s ++ List.replicate (width * 17 - u64s.length) 0)

end Verif.Keccak
