import Verif.Bls.G2Psi

/-! # Clearing the cofactor, and the signed-digit scalar multiplication -/

namespace Verif.Bls
open Verif.Ec QuadraticAlgebra

attribute [local irreducible] q r E2.mulByNonResidueAt

variable {P Q : (curve (bTw Fq)).Point}

theorem blsX_smul (P : (curve (bTw Fq)).Point) : blsX • P = -((0xd201000000010000 : ℕ) • P) := by
  have key : ∀ n : ℕ, (-(n : ℤ)) • P = -(n • P) := fun n => by rw [neg_zsmul, natCast_zsmul]
  have e : blsX = -((0xd201000000010000 : ℕ) : ℤ) := by norm_num [blsX]
  rw [e]
  exact key _

theorem sub_zs (m n : ℤ) (P : (curve (bTw Fq)).Point) : (m - n) • P = m • P - n • P := by
  rw [sub_zsmul, sub_eq_add_neg]

/-- The operands of an addition are finite and different. -/
def Distinct (S T : (curve (bTw Fq)).Point) : Prop := S ≠ 0 ∧ T ≠ 0 ∧ S ≠ T

/-- No exceptional case occurs while clearing the cofactor of `P`: small multiples of `P` and `xP` are finite, and the
operands of the five additions are finite and different. -/
structure CofGeneric (P : (curve (bTw Fq)).Point) : Prop where
  mul1 : NonDeg 0xd201000000010000 P
  mul2 : NonDeg 0xd201000000010000 (blsX • P)
  add1 : Distinct (blsX ^ 2 • P) (-(blsX • P))
  add2 : Distinct ((blsX ^ 2 - blsX) • P) (-P)
  add3 : Distinct (blsX • P) (-P)
  add4 : Distinct ((blsX ^ 2 - blsX - 1) • P) (psi ((blsX - 1) • P))
  add5 : Distinct ((blsX ^ 2 - blsX - 1) • P + psi ((blsX - 1) • P)) (psi (psi (P + P)))

variable {a p z : G2Jac Fq}

theorem mulX_sound (ha : JR a P) (hg : Good 0xd201000000010000 P) (h : g2JacConstScalarMul a z) : JR (g2JacNeg z) (blsX • P) := by
  rw [blsX_smul]
  exact jacNeg_spec (scalarMul_sound ha hg h)

theorem mulX_complete (ha : JR a P) : ∃ z, g2JacConstScalarMul a z ∧ JR (g2JacNeg z) (blsX • P) := by
  obtain ⟨z, h, hz⟩ := scalarMul_complete ha
  refine ⟨z, h, ?_⟩
  rw [blsX_smul]
  exact jacNeg_spec hz

theorem Distinct.add {S T : (curve (bTw Fq)).Point} (hd : Distinct S T) (hp : JR p S) (ha : JR a T) (h : g2JacAdd p a z) :
    JR z (S + T) := jacAdd_generic hp ha h hd.1 hd.2.1 hd.2.2

theorem sq_smul (P : (curve (bTw Fq)).Point) : blsX • blsX • P = blsX ^ 2 • P := by
  rw [pow_two, mul_zsmul]

theorem good_zero (N : ℕ) : Good N 0 := .inl rfl

/-- `ClearCofactor` of the point at infinity. -/
theorem clearJac_zero (ha : JR a 0) (h : clearCofactorJac a z) : JR z 0 := by
  obtain ⟨xg, h1, xxg, h2, r1, h3, r2, h4, t, h5, r3, h6, h7⟩ := h
  have e1 : JR (g2JacNeg xg) 0 := by
    have := mulX_sound ha (good_zero _) h1
    rwa [zsmul_zero] at this
  have e2 : JR (g2JacNeg xxg) 0 := by
    have := mulX_sound e1 (good_zero _) h2
    rwa [zsmul_zero] at this
  have neg0 : ∀ {y : G2Jac Fq}, JR y 0 → JR (g2JacNeg y) 0 := by
    intro y hy
    have := jacNeg_spec hy
    rwa [neg_zero] at this
  have e3 := jacAdd_zero e2 (neg0 e1) h3
  have e4 := jacAdd_zero e3 (neg0 ha) h4
  have e5 := jacAdd_zero e1 (neg0 ha) h5
  have e5' := jacPsi_spec e5
  rw [map_zero] at e5'
  have e6 := jacAdd_zero e4 e5' h6
  have e7 := jacDouble_spec ha
  have e8 := jacOmega_spec e7
  rw [add_zero, map_zero, map_zero] at e8
  exact jacAdd_zero e6 e8 h7

/-- `ClearCofactor`, when no exceptional case occurs. -/
theorem clearJac_sound (ha : JR a P) (hg : CofGeneric P) (h : clearCofactorJac a z) : JR z (clearCofactorRFC P) := by
  obtain ⟨xg, h1, xxg, h2, r1, h3, r2, h4, t, h5, r3, h6, h7⟩ := h
  have e1 := mulX_sound ha (.inr hg.mul1) h1
  have e2 := mulX_sound e1 (.inr hg.mul2) h2
  rw [sq_smul] at e2
  have e3 := hg.add1.add e2 (jacNeg_spec e1) h3
  rw [← sub_eq_add_neg, ← sub_zs] at e3
  have e4 := hg.add2.add e3 (jacNeg_spec ha) h4
  have f4 : (blsX ^ 2 - blsX) • P + -P = (blsX ^ 2 - blsX - 1) • P := by rw [← sub_eq_add_neg, sub_zs _ 1, one_zsmul]
  rw [f4] at e4
  have e5 := hg.add3.add e1 (jacNeg_spec ha) h5
  have f5 : blsX • P + -P = (blsX - 1) • P := by rw [← sub_eq_add_neg, sub_zs _ 1, one_zsmul]
  rw [f5] at e5
  have e6 := hg.add4.add e4 (jacPsi_spec e5) h6
  have e8 := jacOmega_spec (jacDouble_spec ha)
  rw [clearCofactorRFC_eq]
  exact hg.add5.add e6 e8 h7

/-- The honest prover always gets the right point. -/
theorem clearJac_complete (ha : JR a P) : ∃ z, clearCofactorJac a z ∧ JR z (clearCofactorRFC P) := by
  obtain ⟨xg, h1, e1⟩ := mulX_complete ha
  obtain ⟨xxg, h2, e2⟩ := mulX_complete e1
  rw [sq_smul] at e2
  obtain ⟨r1, h3, e3⟩ := jacAdd_complete e2 (jacNeg_spec e1)
  obtain ⟨r2, h4, e4⟩ := jacAdd_complete e3 (jacNeg_spec ha)
  obtain ⟨t, h5, e5⟩ := jacAdd_complete e1 (jacNeg_spec ha)
  obtain ⟨r3, h6, e6⟩ := jacAdd_complete e4 (jacPsi_spec e5)
  obtain ⟨z, h7, e7⟩ := jacAdd_complete e6 (jacOmega_spec (jacDouble_spec ha))
  refine ⟨z, ⟨xg, h1, xxg, h2, r1, h3, r2, h4, t, h5, r3, h6, h7⟩, ?_⟩
  rw [clearCofactorRFC_eq]
  have f : blsX • P + -P = (blsX - 1) • P := by rw [sub_zs, one_zsmul, sub_eq_add_neg]
  have f4 : blsX ^ 2 • P + -(blsX • P) + -P = (blsX ^ 2 - blsX - 1) • P := by
    rw [sub_zs, sub_zs, one_zsmul, sub_eq_add_neg, sub_eq_add_neg]
  rw [f, f4] at e7
  exact e7

/-! ## The affine version -/

variable {b c : G2Affine Fq}

theorem affine_ne {S : (curve (bTw Fq)).Point} (h : JR p S) (hb : g2AffineFromJac p b) : AR b S :=
  (affineFromJac_spec h).2.1 b hb

/-- `G2ClearCofactor`: whatever it accepts is right, if the two scalar multiplications meet no exceptional case. -/
theorem clearAff_sound (ha : AR b P) (hg : NonDeg 0xd201000000010000 P) (hg2 : NonDeg 0xd201000000010000 (blsX • P))
    (h : g2ClearCofactor b c) : AR c (clearCofactorRFC P) := by
  obtain ⟨a', h0, xg', h1, xxg', h2, xg, h3, xxg, h4, r1, h5, r2, h6, t, h7, r3, h8, d, h9, h10⟩ := h
  rw [jacFromAffine_spec ha] at h0
  have hJ : JR a' P := by rw [h0]; exact jr_affine ha
  have e1 := mulX_sound hJ (.inr hg) h1
  have e2 := mulX_sound e1 (.inr hg2) h2
  rw [sq_smul] at e2
  have e3 := affine_ne e1 h3
  have e4 := affine_ne e2 h4
  have e5 := (g2Sub_sound e4 e3 h5).1
  have e6 := (g2Sub_sound e5 ha h6).1
  have e7 := (g2Sub_sound e3 ha h7).1
  have e8 := (g2Add_sound e6 (psi_spec e7) h8).1
  have e9 := (g2Double_sound ha h9).1
  have e10 := (g2Sub_sound e8 (omega_spec e9) h10).1
  rw [clearCofactorRFC_eq]
  have f : blsX • P - P = (blsX - 1) • P := by rw [sub_zs, one_zsmul]
  have f4 : blsX ^ 2 • P - blsX • P - P = (blsX ^ 2 - blsX - 1) • P := by
    rw [sub_zs, sub_zs, one_zsmul]
  rw [f, f4, sub_neg_eq_add] at e10
  exact e10

/-- Operands of an affine addition. -/
def Apart (S T : (curve (bTw Fq)).Point) : Prop := S ≠ T ∧ S ≠ -T

/-- Every case in which the affine additions apply. -/
structure CofApart (P : (curve (bTw Fq)).Point) : Prop where
  nz : blsX ^ 2 • P ≠ 0
  add1 : Apart (blsX ^ 2 • P) (blsX • P)
  add2 : Apart ((blsX ^ 2 - blsX) • P) P
  add3 : Apart (blsX • P) P
  add4 : Apart ((blsX ^ 2 - blsX - 1) • P) (psi ((blsX - 1) • P))
  dbl : P + P ≠ 0
  add5 : Apart ((blsX ^ 2 - blsX - 1) • P + psi ((blsX - 1) • P)) (psi (psi (P + P)))

theorem clearAff_complete (ha : AR b P) (hg : CofApart P) : ∃ c, g2ClearCofactor b c ∧ AR c (clearCofactorRFC P) := by
  obtain ⟨xg', h1, e1⟩ := mulX_complete (jr_affine ha)
  obtain ⟨xxg', h2, e2⟩ := mulX_complete e1
  rw [sq_smul] at e2
  have hx : blsX • P ≠ 0 := by
    intro e
    apply hg.nz
    rw [← sq_smul, e, zsmul_zero]
  obtain ⟨xg, h3⟩ := (affineFromJac_spec e1).2.2 hx
  obtain ⟨xxg, h4⟩ := (affineFromJac_spec e2).2.2 hg.nz
  have e3 := affine_ne e1 h3
  have e4 := affine_ne e2 h4
  obtain ⟨r1, h5, e5⟩ := g2Sub_complete e4 e3 hg.add1.1 hg.add1.2
  rw [← sub_zs] at e5
  obtain ⟨r2, h6, e6⟩ := g2Sub_complete e5 ha hg.add2.1 hg.add2.2
  have f4 : (blsX ^ 2 - blsX) • P - P = (blsX ^ 2 - blsX - 1) • P := by rw [sub_zs _ 1, one_zsmul]
  rw [f4] at e6
  obtain ⟨t, h7, e7⟩ := g2Sub_complete e3 ha hg.add3.1 hg.add3.2
  have f5 : blsX • P - P = (blsX - 1) • P := by rw [sub_zs _ 1, one_zsmul]
  rw [f5] at e7
  obtain ⟨r3, h8, e8⟩ := g2Add_complete e6 (psi_spec e7) hg.add4.1 hg.add4.2
  obtain ⟨d, h9, e9⟩ := g2Double_complete ha hg.dbl
  obtain ⟨c, h10, e10⟩ := g2Sub_complete e8 (omega_spec e9) (by
    exact hg.add5.2) (by rw [neg_neg]; exact hg.add5.1)
  rw [sub_neg_eq_add] at e10
  refine ⟨c, ⟨_, (jacFromAffine_spec ha _).2 rfl, xg', h1, xxg', h2, xg, h3, xxg, h4, r1, h5, r2, h6, t, h7, r3, h8, d, h9, h10⟩, ?_⟩
  rw [clearCofactorRFC_eq]
  exact e10

/-! ## `G2ConstScalarMul` -/

/-- The multiple of `Q` accumulated by the loop. -/
def signed (k : ℕ) : ℕ → ℤ → ℤ
  | 0, m => m
  | i + 1, m => signed k i (2 * m + if k.testBit (i + 1) then 1 else -1)

theorem signed_value : signed 15132376222941642752 63 1 = 0xd201000000010001 := by decide +kernel

theorem signedLoop_sound {table : ℕ → G2Affine Fq} {R : (curve (bTw Fq)).Point} (h0 : AR (table 0) (-Q + -R))
    (h1 : AR (table 1) (Q + -R)) (k i : ℕ) (m : ℤ) {acc c : G2Affine Fq} (ha : AR acc (m • Q + R))
    (h : g2SignedLoop k 0 table i acc = some c) : AR c (signed k i m • Q + R) := by
  induction i generalizing m acc with
  | zero =>
    obtain rfl := Option.some.inj h
    exact ha
  | succ i ih =>
    rw [g2SignedLoop] at h
    obtain ⟨acc', hd, h⟩ := Option.bind_eq_some_iff.1 h
    rw [signed]
    refine ih _ ?_ h
    rw [Nat.zero_testBit] at hd
    cases hb : k.testBit (i + 1) with
    | false =>
      rw [hb] at hd
      have := g2DoubleAndAdd_sound ha h0 hd
      have e : m • Q + R + (m • Q + R) + (-Q + -R) = (2 * m + if false = true then 1 else -1) • Q + R := by
        rw [if_neg (by simp), add_zsmul, two_mul, add_zsmul, neg_zsmul, one_zsmul]; abel
      rwa [e] at this
    | true =>
      rw [hb] at hd
      have := g2DoubleAndAdd_sound ha h1 hd
      have e : m • Q + R + (m • Q + R) + (Q + -R) = (2 * m + if true = true then 1 else -1) • Q + R := by
        rw [if_pos rfl, add_zsmul, two_mul, add_zsmul, one_zsmul]; abel
      rwa [e] at this

/-- `G2ConstScalarMul`: whatever it accepts is right. -/
theorem scalarMul_signed_sound (ha : AR b Q) (h : g2ConstScalarMul b = some c) : AR c ((0xd201000000010000 : ℕ) • Q) := by
  unfold g2ConstScalarMul at h
  obtain ⟨t0, h0, h⟩ := Option.bind_eq_some_iff.1 h
  obtain ⟨t1, h1, h⟩ := Option.bind_eq_some_iff.1 h
  obtain ⟨t2, h2, h⟩ := Option.bind_eq_some_iff.1 h
  obtain ⟨t3, h3, h⟩ := Option.bind_eq_some_iff.1 h
  obtain ⟨acc, h4, h⟩ := Option.bind_eq_some_iff.1 h
  obtain ⟨n1, h5, h⟩ := Option.bind_eq_some_iff.1 h
  obtain ⟨n2, h6, h⟩ := Option.bind_eq_some_iff.1 h
  obtain rfl := Option.some.inj h
  have hp := phi_spec ha
  have e0 := (g2Add_sound (g2Neg_spec ha) (g2Neg_spec hp) h0).1
  have e1 := (g2Add_sound ha (g2Neg_spec hp) h1).1
  have e3 := (g2Add_sound ha hp h3).1
  have e3' : AR t3 ((1 : ℤ) • Q + phi Q) := by rwa [one_zsmul]
  have e4 := signedLoop_sound (table := fun i => if i = 0 then t0 else if i = 1 then t1 else if i = 2 then t2 else t3) e0 e1
    15132376222941642752 63 1 e3' h4
  rw [signed_value] at e4
  have e5 := (g2Add_sound (g2Neg_spec ha) e4 h5).1
  have e6 := (g2Add_sound (g2Neg_spec hp) e5 h6).1
  have f : -phi Q + (-Q + ((0xd201000000010001 : ℤ) • Q + phi Q)) = (0xd201000000010000 : ℕ) • Q := by
    rw [← natCast_zsmul, show (0xd201000000010001 : ℤ) = ((0xd201000000010000 : ℕ) : ℤ) + 1 by norm_num, add_zsmul, one_zsmul]
    abel
  rw [f] at e6
  exact e6

end Verif.Bls
