import Verif.Keccak.Sponge

/-! # Model of circuits/gadgets/merkle/keccak_root.go -/

namespace Verif.Keccak
open Api
variable {p : ℕ}

/-- keccak_root.go:48-50 `isPowerOfTwo`. -/
def isPowerOfTwo (a : ℕ) : Bool := (a != 0) && ((a &&& (a - 1)) == 0)

/-- keccak_root.go:40-46 `pad`. -/
def mroot_pad (data : List (F p)) : List (F p) :=
  let data := data ++ [1]
  let data := (List.range 574).foldl (fun d _ => d ++ [0]) data
  data ++ [1]

/-- keccak_root.go:27-36: one layer; an odd number of nodes indexes out of range. -/
def merkleLayer : List (List (F p)) → Option (List (List (F p)))
  | [] => some []
  | [_] => none
  | a :: b :: rest => do
    let h ← keccak256Bits 1 0 (mroot_pad (a ++ b))
    let hs ← merkleLayer rest
    pure (h :: hs)

/-- keccak_root.go:21-38 `keccakMerkleRoot`; `fuel` bounds the recursion (the number of leaves suffices).
With no leaves the Go recursion does not terminate: `none`. -/
def merkleRootRec : ℕ → List (List (F p)) → Option (List (F p))
  | 0, _ => none
  | fuel + 1, leaves =>
    match leaves with
    | [x] => some x
    | _ => do
      let hs ← merkleLayer leaves
      merkleRootRec fuel hs

/-- keccak_root.go:12-19 `KeccakMerkleRoot`; every leaf is a `[256]` array. -/
def keccakMerkleRoot (leaves : List (List (F p))) : Option (List (F p)) :=
  if isPowerOfTwo leaves.length then merkleRootRec (leaves.length + 1) leaves else none

end Verif.Keccak
