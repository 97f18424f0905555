import Mathlib.Algebra.QuadraticAlgebra.Basic
import Mathlib.RingTheory.AdjoinRoot
import Verif.Bls.Tower

/-! # What the BLS12-381 tower is supposed to be

`Fq2` is `K[u]/(u² + 1)` (Mathlib's `QuadraticAlgebra`), `ξ = 1 + u`.  The tower is
`Fq6 = Fq2[v]/(v³ - ξ)` and `Fq12 = Fq6[w]/(w² - v)`, that is `Fq12 = Fq2[w]/(w⁶ - ξ)` with `v = w²`.
A coordinate record denotes an element of any commutative `Fq2`-algebra in which a root `v` (resp. `w`) has been
chosen; `Fq12` is the universal one. -/

namespace Verif.Bls
open Polynomial

/-- `K[u]/(u² + 1)`. -/
abbrev Fq2 (K : Type) [Field K] := QuadraticAlgebra K (-1) 0

variable {K : Type} [Field K]

/-- The element `a0 + a1 u`. -/
def E2.val (x : E2 K) : Fq2 K := ⟨x.a0, x.a1⟩

/-- The sextic non-residue `1 + u`. -/
def ξ : Fq2 K := ⟨1, 1⟩

variable {A : Type} [CommRing A] [Algebra (Fq2 K) A]

/-- The element `b0 + b1 v + b2 v²`. -/
def E6.val (v : A) (x : E6 K) : A :=
  algebraMap (Fq2 K) A x.b0.val + algebraMap (Fq2 K) A x.b1.val * v + algebraMap (Fq2 K) A x.b2.val * v ^ 2

/-- The element `c0 + c1 w`, with `v = w²`. -/
def E12.val (w : A) (x : E12 K) : A := x.c0.val (w ^ 2) + x.c1.val (w ^ 2) * w

/-- `w` generates the extension: `w⁶ = ξ`. -/
def IsGen (K : Type) [Field K] {A : Type} [CommRing A] [Algebra (Fq2 K) A] (w : A) : Prop :=
  w ^ 6 = algebraMap (Fq2 K) A ξ

/-- `Fq2[w]/(w⁶ - ξ)`. -/
abbrev Fq12 (K : Type) [Field K] := AdjoinRoot (X ^ 6 - C (ξ : Fq2 K))

/-- The generator of `Fq12`. -/
noncomputable def gen (K : Type) [Field K] : Fq12 K := AdjoinRoot.root (X ^ 6 - C (ξ : Fq2 K))

end Verif.Bls
