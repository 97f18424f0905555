import Verif.Ec.Short
import Verif.Bls.Spec
import Verif.Bls.Miller

/-! # The ate pairing of BLS12-381, textbook form

`k` is the field of definition of the twist `y² = x³ + b`, `Ω` an extension in which an element `w` with `b = 4 w⁶` exists; the twist is
carried to `y² = x³ + 4` over `Ω` by `(x, y) ↦ (x/w², y/w³)`.  Nothing here refers to the circuit. -/

namespace Verif.Bls
open Verif.Ec

section
variable {k : Type} [Field k] {b : k}

/-- Abscissa of a point (0 for the neutral element). -/
def xOf : (curve b).Point → k
  | .zero => 0
  | .some x _ _ => x

/-- Ordinate of a point (0 for the neutral element). -/
def yOf : (curve b).Point → k
  | .zero => 0
  | .some _ y _ => y

variable {Ω : Type} [Field Ω] [DecidableEq Ω]

/-- The line through the points `(x₁, y₁)` and `(x₂, y₂)` of `y² = x³ + 4` (the tangent if they are equal), evaluated at
`(x, y)`. -/
def lineVal (x₁ y₁ x₂ y₂ x y : Ω) : Ω := y - y₁ - (curve (4 : Ω)).slope x₁ x₂ y₁ y₂ * (x - x₁)

/-- The vertical line through a point with abscissa `x₁`, evaluated at a point with abscissa `x`. -/
def vertVal (x₁ x : Ω) : Ω := x - x₁

variable [DecidableEq k] (ι : k →+* Ω) (w : Ω)

/-- Line through the images of two points of the twist, at `(x, y)`. -/
def twLine (S T : (curve b).Point) (x y : Ω) : Ω :=
  lineVal (ι (xOf S) / w ^ 2) (ι (yOf S) / w ^ 3) (ι (xOf T) / w ^ 2) (ι (yOf T) / w ^ 3) x y

/-- Vertical line through the image of a point of the twist. -/
def twVert (S : (curve b).Point) (x : Ω) : Ω := vertVal (ι (xOf S) / w ^ 2) x

/-- One step of Miller's algorithm: from `(m, f_{m,Q}(x,y))` to `(2m, f_{2m,Q}(x,y))`, or to `(2m+1, …)`, by
`f_{i+j} = f_i · f_j · ℓ_{iQ,jQ} / v_{(i+j)Q}`. -/
def millerStep (Q : (curve b).Point) (x y : Ω) (s : ℕ × Ω) (bit : Bool) : ℕ × Ω :=
  let m := s.1
  let f := s.2 * s.2 * (twLine ι w (m • Q) (m • Q) x y / twVert ι w ((2 * m) • Q) x)
  if bit then
    (2 * m + 1, f * (twLine ι w ((2 * m) • Q) Q x y / twVert ι w ((2 * m + 1) • Q) x))
  else (2 * m, f)

/-- Miller's algorithm along the binary digits of `n` after the leading one. -/
def millerF (Q : (curve b).Point) (n : ℕ) (x y : Ω) : Ω :=
  (n.bits.reverse.tail.foldl (millerStep ι w Q x y) (1, 1)).2

end

end Verif.Bls
