import Mathlib.Data.ZMod.Basic
import Mathlib.Algebra.Field.ZMod
import Mathlib.Tactic.Ring
import Mathlib.Tactic.LinearCombination

/-!
# The gnark circuit API, as assumed by the model (trusted base)

A circuit variable is an element of `ZMod p`.  A circuit gadget is a function into `Option`:
`none` = the constraints are unsatisfiable (or the Go code panics while building them),
`some v` = the constraints are satisfiable and `v` is the only possible value.

These definitions model `github.com/consensys/gnark/frontend.API`
(not in /repo; its documented contract is assumed, see DESIGN.md section 1).
-/

namespace Verif

/-- Field of circuit variables (`frontend.Variable`), for an arbitrary modulus `p`. -/
abbrev F (p : ℕ) := ZMod p

namespace Api

variable {p : ℕ}

/-- `api.IsZero(x)`: 1 if `x = 0`, else 0. -/
def isZero (x : F p) : F p := if x = 0 then 1 else 0

/-- `api.Cmp(a,b)`: -1, 0, 1 by comparing canonical representatives. -/
def cmp (a b : F p) : F p :=
  if a.val < b.val then -1 else if a.val = b.val then 0 else 1

/-- `api.AssertIsEqual(a,b)`. -/
def assertEq (a b : F p) : Option Unit := if a = b then some () else none

/-- `api.AssertIsLessOrEqual(a,b)` on canonical representatives. -/
def assertLe (a b : F p) : Option Unit := if a.val ≤ b.val then some () else none

/-- `api.AssertIsBoolean(a)`. -/
def assertBool (a : F p) : Option Unit := if a = 0 ∨ a = 1 then some () else none

/-- `api.AssertIsDifferent(a,b)`. -/
def assertNe (a b : F p) : Option Unit := if a = b then none else some ()

/-- `api.Select(b,x,y)`: `b` must be boolean. -/
def select (b x y : F p) : Option (F p) :=
  if b = 1 then some x else if b = 0 then some y else none

/-- `api.Or(a,b)`: both must be boolean. -/
def or (a b : F p) : Option (F p) := do
  assertBool a; assertBool b; pure (a + b - a * b)

/-- `api.And(a,b)`: both must be boolean. -/
def and (a b : F p) : Option (F p) := do
  assertBool a; assertBool b; pure (a * b)

/-- `api.Xor(a,b)`: both must be boolean. -/
def xor (a b : F p) : Option (F p) := do
  assertBool a; assertBool b; pure (a + b - 2 * a * b)

/-- The bit `i` of the canonical representative of `x`, as a field element. -/
def bit (x : F p) (i : ℕ) : F p := if x.val.testBit i then 1 else 0

/-- `api.ToBinary(x, n)`: satisfiable iff `x < 2^n`; little-endian bits. -/
def toBinary (x : F p) (n : ℕ) : Option (List (F p)) :=
  if x.val < 2 ^ n then some ((List.range n).map (bit x)) else none

/-- `api.ToBinary(x)` without width: all bits of the field size, canonical decomposition.
The width is the bit length of the modulus. -/
def toBinaryFull (x : F p) : List (F p) := (List.range p.size).map (bit x)

/-- Little-endian weighted sum of field elements (no booleanity). -/
def packLE : List (F p) → F p
  | [] => 0
  | b :: bs => b + 2 * packLE bs

/-- `api.FromBinary(bits...)`: every argument must be boolean; little-endian recomposition. -/
def fromBinary (bs : List (F p)) : Option (F p) :=
  if ∀ b ∈ bs, b = 0 ∨ b = 1 then some (packLE bs) else none

/-- `selector.Mux(api, sel, inputs...)` (gnark std/selector): unsatisfiable when `sel` is out of range. -/
def muxSel (sel : F p) (inputs : List (F p)) : Option (F p) := inputs[sel.val]?

/-- `api.Lookup2(b0,b1,i0,i1,i2,i3)`: entry `b0 + 2*b1`; `b0,b1` must be boolean. -/
def lookup2 (b0 b1 i0 i1 i2 i3 : F p) : Option (F p) :=
  if b0 = 0 ∧ b1 = 0 then some i0
  else if b0 = 1 ∧ b1 = 0 then some i1
  else if b0 = 0 ∧ b1 = 1 then some i2
  else if b0 = 1 ∧ b1 = 1 then some i3
  else none

end Api
end Verif
