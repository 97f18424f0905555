import Verif.Bls.FinalExp

/-! # What `FinalExponentiation` returns, and when it is unsatisfiable -/

namespace Verif.Bls
open Polynomial QuadraticAlgebra

attribute [local irreducible] q r E2.mulByNonResidueAt

/-- The element after the easy part, `e^((q⁶-1)(q²+1))`. -/
noncomputable def easyPart (u : Lˣ) : Lˣ := u ^ ((((q ^ 6 : ℕ) : ℤ) - 1) * (((q ^ 2 : ℕ) : ℤ) + 1))

theorem easyPart_order (u : Lˣ) : easyPart u ^ (q ^ 4 - q ^ 2 + 1) = 1 := by
  rw [← zpow_natCast]
  refine easy_cyc u ((q ^ 6 : ℕ) : ℤ) _ _ _ ?_ easy_order
  rw [zpow_mul, zpow_natCast, zpow_natCast]
  apply Units.ext
  rw [Units.val_pow_eq_pow_val, Units.val_pow_eq_pow_val, elt_pow_card]

theorem P.of_one {u : Lˣ} {y : E12 Fq} {k : ℤ} (h : P u y k) : P (u ^ k) y 1 := by
  unfold P at *
  rw [h, zpow_one]

theorem easy_P {u : Lˣ} {e i : E12 Fq} (he : P u e 1) (hi : P u i (-1)) : P (easyPart u) (E12.easy e i) 1 := by
  have k : ∀ a b : ℤ, (1 * a + -1) * b + (1 * a + -1) = (a - 1) * (b + 1) := fun a b => by ring
  have ht := he.conjPow.mul hi
  have := (ht.frobSq.mul ht).of_one
  rw [k] at this
  exact this

/-- The whole circuit, in one statement. -/
theorem finalExponentiation_spec (e : E12 Fq) (u : Lˣ) (hu : e.elt = u) (i : E12 Fq) (hi : E12.inverse e = some i) :
    (E12.finalExponentiation e ≠ none ↔ ChainOk (easyPart u)) ∧
    (∀ z, E12.finalExponentiation e = some z → z.elt = e.elt ^ (3 * ((q ^ 12 - 1) / r))) := by
  have he : P u e 1 := by unfold P; rw [hu, zpow_one]
  have hinv : P u i (-1) := by
    unfold P
    rw [zpow_neg, zpow_one, eq_comm]
    apply Units.inv_eq_of_mul_eq_one_right
    rw [← hu]
    exact E12.elt_inverse hi
  have hg' := easy_P he hinv
  obtain ⟨c1, c2⟩ := chain_spec (easyPart_order u) hg'
  rw [finalExponentiation_unfold, hi, Option.bind_some]
  refine ⟨c1, ?_⟩
  intro z hz
  have := c2 z hz
  rw [hard_part] at this
  unfold P at this
  rw [this, easyPart, ← zpow_mul, easy_hard, zpow_natCast, Units.val_pow_eq_pow_val, hu]

end Verif.Bls
