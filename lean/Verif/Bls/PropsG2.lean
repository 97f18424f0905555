import Verif.Bls.G2Cof

/-! # C54-C56: arithmetic in G2 and clearing the cofactor -/

namespace Verif.Bls
open Verif.Ec QuadraticAlgebra

attribute [local irreducible] q r E2.mulByNonResidueAt

variable {P Q : (curve (bTw Fq)).Point}

/-! ## C54: Jacobian coordinates -/

/-- **C54**, doubling and negation: for every representation of every point of the twist. -/
theorem C54_double (p : G2Jac Fq) (P : (curve (bTw Fq)).Point) (hp : JR p P) :
    JR (g2JacDouble p) (P + P) ∧ JR (g2JacNeg p) (-P) := ⟨jacDouble_spec hp, jacNeg_spec hp⟩

/-- **C54**, completeness: an honest prover gets the sum, for every pair of points. -/
theorem C54_add_complete (p a : G2Jac Fq) (hp : JR p P) (ha : JR a Q) : ∃ z, g2JacAdd p a z ∧ JR z (P + Q) :=
  jacAdd_complete hp ha

/-- **C54**, partial: what a prover can reach is the sum, for finite and different operands (the statement without these
hypotheses fails, see `C54_neutral_fails` and `C54_equal_fails`). -/
theorem C54_add_partial (p a z : G2Jac Fq) (hp : JR p P) (ha : JR a Q) (hP : P ≠ 0) (hQ : Q ≠ 0) (hPQ : P ≠ Q)
    (h : g2JacAdd p a z) : JR z (P + Q) := jacAdd_generic hp ha h hP hQ hPQ

/-- **C54**: all that a prover can reach, in every case. -/
theorem C54_add_outcomes (p a z : G2Jac Fq) (hp : JR p P) (ha : JR a Q) (h : g2JacAdd p a z) :
    JR z (P + Q) ∨ (JR z 0 ∧ (P = 0 ∨ Q = 0 ∨ P = Q)) ∨ (JR z (P + P) ∧ Q = 0 ∧ a.x = E2.zero ∧ a.y = E2.zero) := by
  rcases jacAdd_outcomes hp ha h with e | ⟨e, h'⟩ | ⟨h1, h2, h3, e⟩
  · exact .inl e
  · exact .inr (.inl ⟨JR.of_zero e, h'⟩)
  · exact .inr (.inr ⟨e, h1, E2.val_inj.1 (h2.trans E2.val_zero.symm), E2.val_inj.1 (h3.trans E2.val_zero.symm)⟩)

/-- **C54**, the part that fails: adding to the neutral element, a prover can get the neutral element, whatever the other
operand. -/
theorem C54_neutral_fails (p a : G2Jac Fq) (hp : JR p 0) : ∃ z, g2JacAdd p a z ∧ JR z 0 := by
  classical
  have hz := hp.zero_iff.2 rfl
  by_cases ha : a.z.val = 0
  · obtain ⟨z, h, hz'⟩ := jacAdd_complete hp (JR.of_zero ha)
    rw [add_zero] at hz'
    exact ⟨z, h, hz'⟩
  refine ⟨_, (g2JacAdd_iff _ _ _).2 ⟨true, true, _, _, e2NotZero_zero hz true, ?_, e2NotEqual_honest _ _, e2NotEqual_honest _ _,
    rfl⟩, ?_⟩
  · have := e2NotZero_honest a.z
    rwa [decide_eq_true ha] at this
  · refine JR.of_zero ?_
    unfold g2JacPick
    simp only [if_true]
    split
    · rw [general_z, hz]; ring
    · exact (jacDouble_spec hp).zero_iff.2 (add_zero 0)

/-- **C54**, the part that fails: adding a point to itself, a prover can get the neutral element if the canonical value of one of
the compared coordinates is below `2³⁸¹ - q` (about one value in four). -/
theorem C54_equal_fails (p a : G2Jac Fq) (hp : JR p P) (ha : JR a P) (hP : P ≠ 0)
    (hc : canon (E2.mul a.x (E2.square p.z)).a0 < 2 ^ 381 - q) : ∃ z, g2JacAdd p a z ∧ JR z 0 := by
  classical
  have np : p.z.val ≠ 0 := fun e => hP (hp.zero_iff.1 e)
  have na : a.z.val ≠ 0 := fun e => hP (ha.zero_iff.1 e)
  obtain ⟨e1, e2⟩ := (same_iff hp ha np na).1 rfl
  have e1' := E2.val_inj.1 e1
  have h0 := (g1NotEqual_self _).2 hc
  have hu : e2NotEqual (E2.mul a.x (E2.square p.z)) (E2.mul p.x (E2.square a.z)) true := by
    rw [← e1']
    exact (e2NotEqual_iff _ _ _).2 ⟨true, _, h0, g1NotEqual_honest _ _, rfl⟩
  have hpz : e2NotZero p.z true := by
    have := e2NotZero_honest p.z
    rwa [decide_eq_true np] at this
  have haz : e2NotZero a.z true := by
    have := e2NotZero_honest a.z
    rwa [decide_eq_true na] at this
  refine ⟨_, (g2JacAdd_iff _ _ _).2 ⟨true, true, true, _, hpz, haz, hu, e2NotEqual_honest _ _, rfl⟩, JR.of_zero ?_⟩
  simp only [g2JacPick, if_true, Bool.true_or]
  rw [general_z]
  simp only [E2.val_mul, E2.val_square] at e1
  linear_combination (-2 * p.z.val * a.z.val) * e1

/-- **C54**, the part that fails: with the neutral second operand written `(0, 0, 0)`, a prover can get the double of the first. -/
theorem C54_zero_triple_fails (p : G2Jac Fq) (hp : JR p P) : ∃ z, g2JacAdd p ⟨E2.zero, E2.zero, E2.zero⟩ z ∧ JR z (P + P) := by
  classical
  by_cases hz : p.z.val = 0
  · have h0 := hp.zero_iff.1 hz
    subst h0
    obtain ⟨z, h, hz'⟩ := jacAdd_complete hp (JR.of_zero (T := ⟨E2.zero, E2.zero, E2.zero⟩) E2.val_zero)
    exact ⟨z, h, hz'⟩
  have hpz : e2NotZero p.z true := by
    have := e2NotZero_honest p.z
    rwa [decide_eq_true hz] at this
  refine ⟨_, (g2JacAdd_iff _ _ _).2 ⟨true, true, false, false, hpz, e2NotZero_zero E2.val_zero true, ?_, ?_, rfl⟩, ?_⟩
  · have := e2NotEqual_honest (E2.mul E2.zero (E2.square p.z)) (E2.mul p.x (E2.square E2.zero))
    rwa [decide_eq_false] at this
    simp [E2.val_mul, E2.val_square]
  · have := e2NotEqual_honest (E2.mul (E2.mul E2.zero p.z) (E2.square p.z)) (E2.mul (E2.mul p.y E2.zero) (E2.square E2.zero))
    rwa [decide_eq_false] at this
    simp [E2.val_mul, E2.val_square]
  · exact jacDouble_spec hp

/-- **C54**, multiplication by `|x|`: complete for every point; what a prover can reach is right for the neutral element and
for every point whose multiples up to `|x|` are finite. -/
theorem C54_scalar_mul (a : G2Jac Fq) (ha : JR a P) :
    (∃ z, g2JacConstScalarMul a z ∧ JR z ((0xd201000000010000 : ℕ) • P)) ∧
    ((P = 0 ∨ ∀ j, 0 < j → j ≤ 0xd201000000010000 → j • P ≠ 0) →
      ∀ z, g2JacConstScalarMul a z → JR z ((0xd201000000010000 : ℕ) • P)) :=
  ⟨scalarMul_complete ha, fun hg _ h => scalarMul_sound ha hg h⟩

/-! ## C55: affine coordinates -/

/-- **C55**: the sum of two finite points, unsatisfiable exactly if they are equal or opposite. -/
theorem C55_add (p a : G2Affine Fq) (hp : AR p P) (ha : AR a Q) :
    (g2Add p a = none ↔ P = Q ∨ P = -Q) ∧ ∀ z, g2Add p a = some z → AR z (P + Q) :=
  ⟨by rw [g2Add_none, hp.same_x ha], fun _ h => (g2Add_sound hp ha h).1⟩

/-- **C55**: the difference. -/
theorem C55_sub (p a : G2Affine Fq) (hp : AR p P) (ha : AR a Q) :
    (g2Sub p a = none ↔ P = Q ∨ P = -Q) ∧ ∀ z, g2Sub p a = some z → AR z (P - Q) := by
  refine ⟨?_, fun _ h => (g2Sub_sound hp ha h).1⟩
  rw [g2Sub_eq, g2Add_none, hp.same_x (g2Neg_spec ha), neg_neg, or_comm]

/-- **C55**: the double of a finite point, unsatisfiable exactly for points of order two. -/
theorem C55_double (p : G2Affine Fq) (hp : AR p P) :
    (g2Double' p = none ↔ P + P = 0) ∧ ∀ z, g2Double' p = some z → AR z (P + P) := by
  refine ⟨?_, fun _ h => (g2Double_sound hp h).1⟩
  rw [g2Double_none, ← not_iff_not]
  exact (IsPt.y_ne two2_ne hp).symm

/-- **C55**: `2P + Q`, unsatisfiable exactly if `P` and `Q` are equal or opposite or the result is the neutral element. -/
theorem C55_double_and_add (p a : G2Affine Fq) (hp : AR p P) (ha : AR a Q) :
    (g2DoubleAndAdd p a = none ↔ P = Q ∨ P = -Q ∨ P + P + Q = 0) ∧
    ∀ z, g2DoubleAndAdd p a = some z → AR z (P + P + Q) :=
  ⟨g2DoubleAndAdd_none hp ha, fun _ h => g2DoubleAndAdd_sound hp ha h⟩

/-- **C55**: the opposite. -/
theorem C55_neg (p : G2Affine Fq) (hp : AR p P) : AR (g2Neg p) (-P) := g2Neg_spec hp

/-- **C55**, both multiplications by `|x|`: what is accepted is right, for every finite point, and `G2ConstScalarMulV2` accepts every
point whose multiples up to `|x|` are finite. -/
theorem C55_scalar_mul (a : G2Affine Fq) (ha : AR a P) :
    (∀ z, g2ConstScalarMulV2 a = some z → AR z ((0xd201000000010000 : ℕ) • P)) ∧
    (∀ z, g2ConstScalarMul a = some z → AR z ((0xd201000000010000 : ℕ) • P)) ∧
    ((∀ j, 0 < j → j ≤ 0xd201000000010000 → j • P ≠ 0) → ∃ z, g2ConstScalarMulV2 a = some z) :=
  ⟨fun _ h => scalarMulV2_sound ha h, fun _ h => scalarMul_signed_sound ha h,
    fun hg => (scalarMulV2_complete ha hg).imp fun _ h => h.1⟩

/-! ## C56: clearing the cofactor -/

/-- **C56**, ψ and φ in both coordinate systems (ψ is the map of RFC 9380 G.3, G2Spec.lean). -/
theorem C56_psi (a : G2Jac Fq) (b : G2Affine Fq) :
    (JR a P → JR (g2JacPsi a) (psi P)) ∧ (AR b P → AR (g2Psi b) (psi P)) ∧
    (JR a P → JR (g2JacPhi a) (phi P)) ∧ (AR b P → AR (g2Phi b) (phi P)) :=
  ⟨jacPsi_spec, psi_spec, jacPhi_spec, phi_spec⟩

/-- φ is an automorphism of order three, different from the identity. -/
theorem C56_phi_cube (P : (curve (bTw Fq)).Point) : phi (phi (phi P)) = P := by
  by_cases hP : P = 0
  · rw [hP, map_zero, map_zero, map_zero]
  obtain ⟨x, y, h⟩ := exists_isPt hP
  refine (phi_isPt (phi_isPt (phi_isPt h))).unique (h.congr ?_ rfl)
  rw [← mul_assoc, ← mul_assoc, ← map_mul, ← map_mul]
  have e : thirdRootOneG1 * thirdRootOneG1 * (thirdRootOneG1 * thirdRootOneG1) * (thirdRootOneG1 * thirdRootOneG1) =
      (thirdRootOneG1 * thirdRootOneG1 * thirdRootOneG1) ^ 2 := by ring
  rw [e, third_cube, one_pow, map_one, one_mul]

/-- **C56**, the conversions: a finite point has one Jacobian form; the conversion back is determined, right, and unsatisfiable
exactly for the point at infinity. -/
theorem C56_convert (a : G2Affine Fq) (p : G2Jac Fq) :
    (AR a P → (∃ z, g2JacFromAffine a z) ∧ ∀ z, g2JacFromAffine a z → JR z P) ∧
    (JR p P → ((∃ z, g2AffineFromJac p z) ↔ P ≠ 0) ∧ ∀ z, g2AffineFromJac p z → AR z P) := by
  refine ⟨fun h => ⟨⟨_, (jacFromAffine_spec h _).2 rfl⟩, fun z hz => ?_⟩, fun h => ?_⟩
  · rw [(jacFromAffine_spec h z).1 hz]
    exact jr_affine h
  · obtain ⟨h1, h2, h3⟩ := affineFromJac_spec h
    exact ⟨⟨fun hz h0 => h1 h0 hz, h3⟩, h2⟩

/-- **C56**, the part that fails: from the affine point at infinity `(0, 0)` a prover can get `(0, 0, 1)`, which is not on the
curve, instead of the point at infinity. -/
theorem C56_infinity_fails : g2JacFromAffine ⟨E2.zero, E2.zero⟩ ⟨E2.one, E2.one, E2.zero⟩ ∧
    g2JacFromAffine ⟨E2.zero, E2.zero⟩ ⟨E2.zero, E2.zero, E2.one⟩ ∧
    ¬∃ P, JR ⟨E2.zero, E2.zero, E2.one⟩ P := by
  refine ⟨(jacFromAffine_iff _ _).2 ⟨false, ?_, rfl⟩, (jacFromAffine_iff _ _).2 ⟨true, ?_, rfl⟩, ?_⟩
  · exact ⟨false, e2NotZero_zero E2.val_zero _, false, e2NotZero_zero E2.val_zero _, rfl⟩
  · exact ⟨true, e2NotZero_zero E2.val_zero _, true, e2NotZero_zero E2.val_zero _, rfl⟩
  · rintro ⟨P, h⟩
    rcases h with ⟨hz, -⟩ | ⟨-, hp⟩
    · dsimp only at hz
      rw [E2.val_one] at hz
      exact one_ne_zero hz
    · have := hp.eq
      dsimp only at this
      rw [E2.val_zero, E2.val_one] at this
      apply b2_ne
      linear_combination -this

/-- **C56**, completeness: an honest prover gets the point of RFC 9380, for every point of the twist. -/
theorem C56_clear_complete (a : G2Jac Fq) (ha : JR a P) : ∃ z, clearCofactorJac a z ∧ JR z (clearCofactorRFC P) :=
  clearJac_complete ha

/-- **C56**, partial: what a prover can reach with `ClearCofactor` is the point of RFC 9380, for the neutral element and for
points that meet no exceptional case (`CofGeneric`); missing: the exceptional cases, where C54 fails. -/
theorem C56_clear_partial (a z : G2Jac Fq) (ha : JR a P) (hg : P = 0 ∨ CofGeneric P) (h : clearCofactorJac a z) :
    JR z (clearCofactorRFC P) := by
  rcases hg with rfl | hg
  · have e : clearCofactorRFC (0 : (curve (bTw Fq)).Point) = 0 := by
      rw [clearCofactorRFC_eq, add_zero, zsmul_zero, zsmul_zero, map_zero, map_zero, add_zero, add_zero]
    rw [e]
    exact clearJac_zero ha h
  · exact clearJac_sound ha hg h

/-- **C56**, partial: whatever `G2ClearCofactor` accepts is the point of RFC 9380, for every finite point `P` such that the
multiples of `P` and `xP` up to `|x|` are finite. -/
theorem C56_clear_affine_partial (a z : G2Affine Fq) (ha : AR a P)
    (h1 : ∀ j, 0 < j → j ≤ 0xd201000000010000 → j • P ≠ 0)
    (h2 : ∀ j, 0 < j → j ≤ 0xd201000000010000 → j • (blsX • P) ≠ 0) (h : g2ClearCofactor a z) :
    AR z (clearCofactorRFC P) := clearAff_sound ha h1 h2 h

/-- **C56**: `G2ClearCofactor` is satisfiable where no exceptional case of the affine formulas occurs. -/
theorem C56_clear_affine_complete (a : G2Affine Fq) (ha : AR a P) (hg : CofApart P) :
    ∃ z, g2ClearCofactor a z ∧ AR z (clearCofactorRFC P) := clearAff_complete ha hg

/-! ## Concrete cases -/

/-- Nonzero multiples of a point of order `r`. -/
theorem zsmul_ne_zero (hr : r • P = 0) (h0 : P ≠ 0) {k : ℤ} (hk : ¬(r : ℤ) ∣ k) : k • P ≠ 0 := by
  intro h
  have h1 : addOrderOf P ∣ r := addOrderOf_dvd_of_nsmul_eq_zero hr
  have h2 : (addOrderOf P : ℤ) ∣ k := addOrderOf_dvd_iff_zsmul_eq_zero.2 h
  rcases (Nat.dvd_prime fact_r.out).1 h1 with e | e
  · exact h0 (AddMonoid.addOrderOf_eq_one_iff.1 e)
  · rw [e] at h2
    exact hk h2

theorem zsmul_ne (hr : r • P = 0) (h0 : P ≠ 0) {k l : ℤ} (hk : ¬(r : ℤ) ∣ k - l) : k • P ≠ l • P := by
  intro h
  refine zsmul_ne_zero hr h0 hk ?_
  rw [sub_zs, h, sub_self]

theorem small_not_dvd {j : ℕ} (h : 0 < j) (hle : j ≤ 0xd201000000010000) : ¬(r : ℤ) ∣ (j : ℤ) := by
  intro hd
  have := Nat.le_of_dvd h (Int.natCast_dvd_natCast.1 hd)
  exact absurd this (not_le.2 (lt_of_le_of_lt hle loop_lt_r))

theorem x_not_dvd : ¬(r : ℤ) ∣ blsX := by decide +kernel

theorem r_prime_int : Prime (r : ℤ) := Nat.prime_iff_prime_int.1 fact_r.out

theorem numeric : ¬(r : ℤ) ∣ blsX ^ 2 ∧ ¬(r : ℤ) ∣ -blsX ∧ ¬(r : ℤ) ∣ blsX ^ 2 - -blsX ∧
    ¬(r : ℤ) ∣ blsX ^ 2 - blsX ∧ ¬(r : ℤ) ∣ -1 ∧ ¬(r : ℤ) ∣ blsX ^ 2 - blsX - -1 ∧ ¬(r : ℤ) ∣ blsX - -1 ∧
    ¬(r : ℤ) ∣ blsX ^ 2 - blsX - 1 ∧ ¬(r : ℤ) ∣ blsX * (blsX - 1) ∧ ¬(r : ℤ) ∣ blsX ^ 2 - blsX - 1 - blsX * (blsX - 1) ∧
    ¬(r : ℤ) ∣ blsX ^ 2 - blsX - 1 + blsX * (blsX - 1) ∧ ¬(r : ℤ) ∣ blsX * (blsX * 2) ∧
    ¬(r : ℤ) ∣ blsX ^ 2 - blsX - 1 + blsX * (blsX - 1) - blsX * (blsX * 2) ∧
    ¬(r : ℤ) ∣ blsX ^ 2 - blsX - 1 + blsX * (blsX - 1) + blsX * (blsX * 2) ∧ ¬(r : ℤ) ∣ blsX - 1 ∧
    ¬(r : ℤ) ∣ blsX ^ 2 + blsX ∧ ¬(r : ℤ) ∣ blsX ^ 2 - blsX + 1 ∧ ¬(r : ℤ) ∣ blsX + 1 ∧ ¬(r : ℤ) ∣ 2 ∧
    ¬(r : ℤ) ∣ blsX ^ 2 - blsX - 1 - -(blsX * (blsX - 1)) := by
  refine ⟨?_, ?_, ?_, ?_, ?_, ?_, ?_, ?_, ?_, ?_, ?_, ?_, ?_, ?_, ?_, ?_, ?_, ?_, ?_, ?_⟩ <;> decide +kernel

/-- The points of order `r` on which ψ is multiplication by `x` (the group G2) meet the hypotheses of the C56 theorems. -/
theorem cofGeneric_of_G2 (hr : r • P = 0) (h0 : P ≠ 0) (hpsi : psi P = blsX • P) : CofGeneric P ∧ CofApart P := by
  obtain ⟨n1, n2, n3, n4, n5, n6, n7, n8, n9, n10, n11, n12, n13, n14, n15, n16, n17, n18, n19, n20⟩ := numeric
  have hz : ∀ {k : ℤ}, ¬(r : ℤ) ∣ k → k • P ≠ 0 := fun hk => zsmul_ne_zero hr h0 hk
  have hd : ∀ {k l : ℤ}, ¬(r : ℤ) ∣ k - l → k • P ≠ l • P := fun hk => zsmul_ne hr h0 hk
  have hneg : ∀ k : ℤ, -(k • P) = (-k) • P := fun k => (neg_zsmul P k).symm
  have hP : -P = (-1 : ℤ) • P := by rw [neg_zsmul, one_zsmul]
  have hP1 : P = (1 : ℤ) • P := (one_zsmul P).symm
  have p1 : psi ((blsX - 1) • P) = (blsX * (blsX - 1)) • P := by
    rw [map_zsmul, hpsi, ← mul_zsmul, mul_comm]
  have p2 : psi (psi (P + P)) = (blsX * (blsX * 2)) • P := by
    have key : ∀ x : ℤ, psi P = x • P → psi (psi (P + P)) = (x * (x * 2)) • P := by
      intro x hx
      rw [map_add, hx, map_add, map_zsmul, hx, ← mul_zsmul, ← add_zsmul]
      congr 1
      ring
    exact key _ hpsi
  refine ⟨⟨?_, ?_, ⟨hz n1, ?_, ?_⟩, ⟨hz n4, ?_, ?_⟩, ⟨hz x_not_dvd, ?_, ?_⟩, ⟨hz n8, ?_, ?_⟩, ⟨?_, ?_, ?_⟩⟩,
    ⟨hz n1, ⟨hd n4, ?_⟩, ⟨?_, ?_⟩, ⟨?_, ?_⟩, ⟨?_, ?_⟩, ?_, ⟨?_, ?_⟩⟩⟩
  · intro j hj hle
    rw [← natCast_zsmul]
    exact hz (small_not_dvd hj hle)
  · intro j hj hle
    rw [← natCast_zsmul, ← mul_zsmul]
    refine hz fun hdv => ?_
    rcases r_prime_int.2.2 _ _ hdv with e | e
    · exact small_not_dvd hj hle e
    · exact x_not_dvd e
  · rw [hneg]; exact hz n2
  · rw [hneg]; exact hd n3
  · rw [hP]; exact hz n5
  · rw [hP]; exact hd n6
  · rw [hP]; exact hz n5
  · rw [hP]; exact hd n7
  · rw [p1]; exact hz n9
  · rw [p1]; exact hd n10
  · rw [p1, ← add_zsmul]; exact hz n11
  · rw [p2]; exact hz n12
  · rw [p1, p2, ← add_zsmul]; exact hd n13
  · rw [hneg]; exact hd n3
  · conv_rhs => rw [hP1]
    exact hd n8
  · rw [hP]; exact hd n6
  · conv_rhs => rw [hP1]
    exact hd n15
  · rw [hP]; exact hd n7
  · rw [p1]; exact hd n10
  · rw [p1, hneg]; exact hd n20
  · rw [← two_zsmul]; exact hz n19
  · rw [p1, p2, ← add_zsmul]; exact hd n13
  · rw [p1, p2, ← add_zsmul, hneg]
    refine hd ?_
    rw [sub_neg_eq_add]
    exact n14

end Verif.Bls
