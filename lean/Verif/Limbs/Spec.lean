import Verif.Limbs.Model

/-! # What limbs mean: the bit string obtained by writing every limb in its declared width, most significant first -/

namespace Verif.Limbs
variable {p : ℕ}

/-- The `w`-bit big-endian binary writing of `x`. -/
def bitsBE (w x : ℕ) : List Bool := (List.range w).map fun i => x.testBit (w - 1 - i)

/-- The bit string of a list of limbs. -/
def bitStr (ws : List (Limb p)) : List Bool := ws.flatMap fun l => bitsBE l.size l.val.val

/-- Every limb fits in its declared width. -/
def InRange (ws : List (Limb p)) : Prop := ∀ l ∈ ws, l.val.val < 2 ^ l.size

/-- The number written by a bit string, most significant bit first. -/
def numBE (bs : List Bool) : ℕ := bs.foldl (fun n b => 2 * n + b.toNat) 0

/-- The limbs as one field element: each limb times two to the number of bits to its right. -/
def weighted : List (Limb p) → F p
  | [] => 0
  | l :: ls => l.val * 2 ^ (ls.map Limb.size).sum + weighted ls

end Verif.Limbs
