import Verif.Ec.Endo
import Verif.Bls.PairExample

/-! # The endomorphism ψ of the twist and clearing the cofactor, as in RFC 9380, appendix G.3

Nothing here refers to the circuit. -/

namespace Verif.Bls
open Verif.Ec QuadraticAlgebra

attribute [local irreducible] q r E2.mulByNonResidueAt

theorem q_sub_div : (q - 1) / 3 * 3 = q - 1 ∧ (q - 1) / 2 * 2 = q - 1 ∧ q - 1 + 1 = q := by decide +kernel

/-- RFC 9380 G.3, `psi`: `(x, y) ↦ (c1·x^q, c2·y^q)`, `c1 = 1/(1+I)^((q-1)/3)`, `c2 = 1/(1+I)^((q-1)/2)`; it maps the twist
to itself. -/
theorem psi_ok : EndoOk (bTw Fq) (frobenius (Fq2 Fq) q) (ξ ^ ((q - 1) / 3))⁻¹ (ξ ^ ((q - 1) / 2))⁻¹ := by
  obtain ⟨h3, h2, h1⟩ := q_sub_div
  have hx := xi_ne_zero
  have key : ∀ m n k p : ℕ, m * 3 = k → n * 2 = k → k + 1 = p →
      ((ξ : Fq2 Fq) ^ n)⁻¹ ^ 2 = ((ξ : Fq2 Fq) ^ m)⁻¹ ^ 3 ∧ ((ξ : Fq2 Fq) ^ n)⁻¹ ^ 2 * (4 * ξ ^ p) = 4 * ξ := by
    intro m n k p hm hn hk
    rw [inv_pow, inv_pow, ← pow_mul, ← pow_mul, hm, hn, ← hk]
    refine ⟨rfl, ?_⟩
    field_simp
    rw [pow_succ]; ring
  obtain ⟨k1, k2⟩ := key _ _ _ _ h3 h2 h1
  refine ⟨k1, ?_, inv_ne_zero (pow_ne_zero _ hx), inv_ne_zero (pow_ne_zero _ hx)⟩
  rw [frobenius_def]
  unfold bTw
  rw [mul_pow, four_eq, ← pow_mul, mul_comm 2 q, pow_mul]
  have e2 : (2 : Fq2 Fq) ^ q = 2 := by
    have : (2 : Fq2 Fq) = algebraMap Fq (Fq2 Fq) 2 := (map_ofNat _ 2).symm
    rw [this, ← map_pow, Fq_pow]
  rw [e2, ← four_eq]
  exact k2

/-- ψ on the points of the twist. -/
noncomputable def psi : (curve (bTw Fq)).Point →+ (curve (bTw Fq)).Point := endo two2_ne three2_ne b2_ne psi_ok

/-- The parameter of the curve. -/
def blsX : ℤ := -0xd201000000010000

/-- RFC 9380 G.3, `clear_cofactor_bls12381_g2`, step by step. -/
noncomputable def clearCofactorRFC (P : (curve (bTw Fq)).Point) : (curve (bTw Fq)).Point :=
  let t1 := blsX • P
  let t2 := psi P
  let t3 := (2 : ℕ) • P
  let t3 := psi (psi t3)
  let t3 := t3 - t2
  let t2 := t1 + t2
  let t2 := blsX • t2
  let t3 := t3 + t2
  let t3 := t3 - t1
  t3 - P

/-- The same as a formula. -/
theorem clearCofactorRFC_eq (P : (curve (bTw Fq)).Point) :
    clearCofactorRFC P = (blsX ^ 2 - blsX - 1) • P + psi ((blsX - 1) • P) + psi (psi (P + P)) := by
  unfold clearCofactorRFC
  dsimp only
  rw [map_zsmul, two_nsmul]
  generalize blsX = x
  generalize psi (psi (P + P)) = S
  generalize psi P = T
  rw [sub_zsmul, sub_zsmul, sub_zsmul, pow_two, mul_zsmul, zsmul_add, one_zsmul, one_zsmul]
  abel

end Verif.Bls
