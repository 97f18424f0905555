import Mathlib.Data.List.Basic

/-! # Independent specification of a complete binary Merkle tree -/

namespace Verif.Spec

/-- Root of the complete binary tree of height `n` over `2^n` leaves with node hash `H`. -/
def merkleRoot {α : Type*} (H : α → α → α) (d : α) : ℕ → List α → α
  | 0, l => l.headD d
  | n + 1, l => H (merkleRoot H d n (l.take (2 ^ n))) (merkleRoot H d n (l.drop (2 ^ n)))

end Verif.Spec
