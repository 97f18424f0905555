import Mathlib.Data.List.Basic
import Mathlib.Algebra.Ring.Defs

/-! # Independent specification: binary hash trees addressed by position, and the MiMC hash -/

namespace Verif.Spec

/-- The node number `k` of height `n` (counting from the left) of the binary tree with the given leaves:
height 0 is the leaf itself, and node `k` of height `n+1` hashes nodes `2k` and `2k+1` of height `n`. -/
def treeNode {α : Type*} (H : α → α → α) (leaf : ℕ → α) : ℕ → ℕ → α
  | 0, k => leaf k
  | n + 1, k => H (treeNode H leaf n (2 * k)) (treeNode H leaf n (2 * k + 1))

/-- Recompute the root from a node and its siblings, bottom up; `true` means the sibling is on the left. -/
def climb {α : Type*} (H : α → α → α) (v : α) : List (Bool × α) → α
  | [] => v
  | (right, s) :: rest => climb H (if right then H s v else H v s) rest

/-- The position written by the direction bits, lowest level first. -/
def position : List Bool → ℕ
  | [] => 0
  | b :: bs => b.toNat + 2 * position bs

/-- The sibling path of leaf number `pos` in a tree of height `n`, starting at height `h`. -/
def siblings {α : Type*} (H : α → α → α) (leaf : ℕ → α) (pos : ℕ) : ℕ → ℕ → List (Bool × α)
  | _, 0 => []
  | h, n + 1 =>
    (pos / 2 ^ h % 2 == 1, treeNode H leaf h (if pos / 2 ^ h % 2 = 1 then pos / 2 ^ h - 1 else pos / 2 ^ h + 1)) ::
      siblings H leaf pos (h + 1) n

/-- The two trees of height `n` over the given leaves have, at the same place (the children of node `m` of height
`j + 1`), different pairs of children with the same hash. The pairs are named, so this says more than that the hash has
some collision: that always holds for a hash into a smaller set. -/
def TreesCollide {α : Type*} (H : α → α → α) (n : ℕ) (leaf leaf' : ℕ → α) : Prop :=
  ∃ j m, j < n ∧ m < 2 ^ (n - (j + 1)) ∧
    (treeNode H leaf j (2 * m), treeNode H leaf j (2 * m + 1)) ≠ (treeNode H leaf' j (2 * m), treeNode H leaf' j (2 * m + 1)) ∧
    H (treeNode H leaf j (2 * m)) (treeNode H leaf j (2 * m + 1))
      = H (treeNode H leaf' j (2 * m)) (treeNode H leaf' j (2 * m + 1))

/-- The pair hashed by one step of a climb. -/
def stepPair {α : Type*} (right : Bool) (s u : α) : α × α := if right then (s, u) else (u, s)

/-- At some step `j` of the climb from `v` along `path`, the pair hashed differs from the pair of children of the tree
at the place the remaining directions address, and has the same hash. -/
def PathCollides {α : Type*} (H : α → α → α) (leaf : ℕ → α) (v : α) (path : List (Bool × α)) : Prop :=
  ∃ j m b s, path[j]? = some (b, s) ∧ m = position ((path.drop (j + 1)).map Prod.fst) ∧
    stepPair b s (climb H v (path.take j)) ≠ (treeNode H leaf j (2 * m), treeNode H leaf j (2 * m + 1)) ∧
    H (stepPair b s (climb H v (path.take j))).1 (stepPair b s (climb H v (path.take j))).2
      = H (treeNode H leaf j (2 * m)) (treeNode H leaf j (2 * m + 1))

/-- Two climbs along the same directions hash, at some step, different pairs with the same hash. -/
def ClimbsCollide {α : Type*} (H : α → α → α) (v w : α) (dirs : List Bool) (ss ts : List α) : Prop :=
  ∃ j b s t, dirs[j]? = some b ∧ ss[j]? = some s ∧ ts[j]? = some t ∧
    stepPair b s (climb H v ((dirs.zip ss).take j)) ≠ stepPair b t (climb H w ((dirs.zip ts).take j)) ∧
    H (stepPair b s (climb H v ((dirs.zip ss).take j))).1 (stepPair b s (climb H v ((dirs.zip ss).take j))).2
      = H (stepPair b t (climb H w ((dirs.zip ts).take j))).1 (stepPair b t (climb H w ((dirs.zip ts).take j))).2

/-- The MiMC block cipher with exponent `e` and the given round constants. -/
def mimcEncrypt {R : Type*} [CommRing R] (e : ℕ) (key : R) : List R → R → R
  | [], x => x + key
  | c :: cs, x => mimcEncrypt e key cs ((x + key + c) ^ e)

/-- The Miyaguchi–Preneel hash built on it, from chaining value `h`. -/
def mimcHash {R : Type*} [CommRing R] (e : ℕ) (consts : List R) : R → List R → R
  | h, [] => h
  | h, m :: ms => mimcHash e consts (mimcEncrypt e h consts m + h + m) ms

end Verif.Spec
