import Verif.Bls.PropsG2

/-! # C54-C56: the generator of G2 meets the hypotheses -/

namespace Verif.Bls
open Verif.Ec QuadraticAlgebra

attribute [local irreducible] E2.mulByNonResidueAt

theorem g2_psi : (g2ConstScalarMulV2 g2).map g2Neg = some (g2Psi g2) := by decide +kernel

theorem g2_signed : g2ConstScalarMul g2 = g2ConstScalarMulV2 g2 := by decide +kernel

theorem g2_ambiguous : canon (E2.mul g2.x (E2.square E2.one)).a0 < 2 ^ 381 - q := by decide +kernel

theorem g2_double : g2Double' g2 = some g2Double := by decide +kernel

theorem g2_x_ne : g2.x ≠ g2Double.x := by decide +kernel

attribute [local irreducible] q r

/-- The generator is in G2. -/
theorem g2_in_G2 : ∃ P, AR g2 P ∧ r • P = 0 ∧ psi P = blsX • P ∧ AR g2Double (P + P) := by
  obtain ⟨P, -, hP, hr, -⟩ := g2Points
  have ha : AR g2 P := hP
  refine ⟨P, ha, hr, ?_, (g2Double_sound ha g2_double).1⟩
  obtain ⟨z, hz, hn⟩ := Option.map_eq_some_iff.1 g2_psi
  have h1 := g2Neg_spec (scalarMulV2_sound ha hz)
  rw [hn] at h1
  rw [blsX_smul]
  exact (psi_spec ha).unique h1

/-- The hypotheses of the C54 theorems are met: two different finite points. -/
theorem C54_example : ∃ (p a : G2Jac Fq) (P Q : (curve (bTw Fq)).Point), JR p P ∧ JR a Q ∧ P ≠ 0 ∧ Q ≠ 0 ∧ P ≠ Q ∧
    (∀ j, 0 < j → j ≤ 0xd201000000010000 → j • P ≠ 0) ∧ ∃ z, g2JacAdd p a z := by
  obtain ⟨P, ha, hr, hpsi, hd⟩ := g2_in_G2
  obtain ⟨hg, -⟩ := cofGeneric_of_G2 hr ha.ne_zero hpsi
  refine ⟨⟨g2.x, g2.y, E2.one⟩, ⟨g2Double.x, g2Double.y, E2.one⟩, P, P + P, jr_affine ha, jr_affine hd, ha.ne_zero, hd.ne_zero, ?_,
    hg.mul1, ?_⟩
  · intro e
    rw [← e] at hd
    exact g2_x_ne (E2.val_inj.1 (IsPt.inj ha hd).1)
  · obtain ⟨z, hz, -⟩ := jacAdd_complete (jr_affine ha) (jr_affine hd)
    exact ⟨z, hz⟩

/-- **C54**, the part that fails, concretely: `G2JacobianAddAssign` of the generator with itself can be the neutral element. -/
theorem C54_equal_example : ∃ z, g2JacAdd ⟨g2.x, g2.y, E2.one⟩ ⟨g2.x, g2.y, E2.one⟩ z ∧ JR z 0 := by
  obtain ⟨P, ha, -⟩ := g2_in_G2
  exact C54_equal_fails _ _ (jr_affine ha) (jr_affine ha) ha.ne_zero g2_ambiguous

/-- The two affine multiplications accept the generator and agree on it. -/
theorem C55_example : ∃ z P, AR g2 P ∧ g2ConstScalarMul g2 = some z ∧ g2ConstScalarMulV2 g2 = some z ∧
    AR z ((0xd201000000010000 : ℕ) • P) := by
  obtain ⟨P, ha, -⟩ := g2_in_G2
  obtain ⟨z, hz, -⟩ := Option.map_eq_some_iff.1 g2_psi
  exact ⟨z, P, ha, g2_signed.trans hz, hz, scalarMulV2_sound ha hz⟩

/-- The generator meets the hypotheses of the C56 theorems. -/
theorem C56_example : ∃ P, AR g2 P ∧ CofGeneric P ∧ CofApart P ∧ (∃ z, g2ClearCofactor g2 z) := by
  obtain ⟨P, ha, hr, hpsi, -⟩ := g2_in_G2
  obtain ⟨hg, hp⟩ := cofGeneric_of_G2 hr ha.ne_zero hpsi
  obtain ⟨z, hz, -⟩ := clearAff_complete ha hp
  exact ⟨P, ha, hg, hp, z, hz⟩

/-- On G2 the result is the multiple by `4x² - 2x - 1`. -/
theorem C56_on_G2 (P : (curve (bTw Fq)).Point) (hpsi : psi P = blsX • P) :
    clearCofactorRFC P = (4 * blsX ^ 2 - 2 * blsX - 1) • P := by
  rw [clearCofactorRFC_eq]
  generalize blsX = x at *
  rw [map_zsmul, hpsi, map_add, hpsi, map_add, map_zsmul, hpsi, ← mul_zsmul, ← mul_zsmul, ← add_zsmul, ← add_zsmul, ← add_zsmul]
  congr 1
  ring

end Verif.Bls
