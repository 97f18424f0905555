import Mathlib.Algebra.Group.Even
import Mathlib.Algebra.Field.Basic
import Verif.Bls.PairingL
import Verif.Bls.G2Flags

/-! # Specification of the map to the isogenous curve (RFC 9380)

RFC 9380, section 6.6.2 (simplified SWU), section 4.1 (`sgn0`), section 8.8.2 (parameters of the suite
`BLS12381G2_XMD:SHA-256_SSWU_RO_`), written out from the RFC and not from the code. -/

namespace Verif.Bls.RFC
open Verif.Bls

/-- Section 8.8.2: `A' = 240 * I`. -/
def A : Fq2 Fq := ⟨0, 240⟩
/-- Section 8.8.2: `B' = 1012 * (1 + I)`. -/
def B : Fq2 Fq := ⟨1012, 1012⟩
/-- Section 8.8.2: `Z = -(2 + I)`. -/
def Z : Fq2 Fq := ⟨-2, -1⟩

/-- The right-hand side of the isogenous curve `y² = x³ + A' x + B'`. -/
def g (x : Fq2 Fq) : Fq2 Fq := x ^ 3 + A * x + B

/-- Section 4.1, `sgn0` for extension degree 2: the parity of the first nonzero coordinate (the second one if the first
is zero). -/
def sgn0 (x : Fq2 Fq) : Bool :=
  (canon x.re % 2 == 1) || ((canon x.re == 0) && (canon x.im % 2 == 1))

/-- The denominator of the map; the RFC's exceptional case is that it vanishes. -/
def den (u : Fq2 Fq) : Fq2 Fq := Z ^ 2 * u ^ 4 + Z * u ^ 2

open Classical in
/-- Steps 1-3: the first candidate abscissa. -/
noncomputable def x1 (u : Fq2 Fq) : Fq2 Fq := if den u = 0 then B / (Z * A) else -B / A * (1 + 1 / den u)

/-- Step 5: the second candidate abscissa. -/
noncomputable def x2 (u : Fq2 Fq) : Fq2 Fq := Z * u ^ 2 * x1 u

open Classical in
/-- Steps 7, 8: the abscissa. -/
noncomputable def sswuX (u : Fq2 Fq) : Fq2 Fq := if IsSquare (g (x1 u)) then x1 u else x2 u

/-- `(x, y)` is the value of `map_to_curve_simple_swu(u)`. -/
def SSWU (u x y : Fq2 Fq) : Prop := x = sswuX u ∧ y ^ 2 = g x ∧ sgn0 y = sgn0 u

end Verif.Bls.RFC
