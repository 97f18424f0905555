import Verif.Bls.CofOrder
import Verif.Bls.PropsHash
import Verif.Bls.PropsG2Signed

/-! # C91: what clearing the cofactor achieves -/

namespace Verif.Bls
open Verif.Ec QuadraticAlgebra

/-- RFC 9380, 8.8.2: `h_eff` of the suites BLS12381G2. -/
def hEff : ℤ :=
  0xbc69f08f2ee75b3584c6a0ea91b352888e2a8e9145ad7689986ff031508ffe1329c2f178731db956d82bf015d1212b02ec0ec69d7477c1ae954cbc06689f6a359894c0adebbf6b4e8020005aaa95551

theorem hEff_num : (cofExp : ℤ) ∣ hEff ∧ (r : ℤ) ∣ 4 * blsX ^ 2 - 2 * blsX - 1 - hEff ∧ ¬ r ^ 2 ∣ cofactorG2 * r := by decide +kernel

theorem clear_unit : ∃ u : ℤ, (r : ℤ) ∣ u * (4 * blsX ^ 2 - 2 * blsX - 1) - 1 := by
  have h : IsCoprime (4 * blsX ^ 2 - 2 * blsX - 1) (r : ℤ) := by
    rw [Int.isCoprime_iff_gcd_eq_one]
    decide +kernel
  obtain ⟨u, v, h⟩ := h
  exact ⟨u, -v, by linear_combination h⟩

theorem r_eq : (r : ℤ) = blsX * blsX * (blsX * blsX) - blsX * blsX + 1 := by decide +kernel

attribute [local irreducible] q r blsX cofPrime cofLambda cofactorG2 cofExp cofSmall hEff E2.mulByNonResidueAt

/-- **C91**: the twist has `h2 · r` points over `Fq2`, with the cofactor `h2` of RFC 9380, 8.8.2. -/
theorem C91_order : Nat.card (curve (bTw Fq)).Point = cofactorG2 * r := (eq_top_of ⊤ (by simp) (by simp)).2

/-- **C91**: clearing the cofactor, of any point, is the multiplication by `h_eff` of RFC 9380, 8.8.2. -/
theorem C91_heff (P : (curve (bTw Fq)).Point) : clearCofactorRFC P = hEff • P := by
  have h := (eq_top_of (AddMonoidHom.eqLocus clearHom (zsmulAddGroupHom hEff)) ?_ ?_).1
  · have hP : P ∈ AddMonoidHom.eqLocus clearHom (zsmulAddGroupHom hEff) := by rw [h]; exact AddSubgroup.mem_top P
    exact hP
  · intro P hr hpsi
    show clearCofactorRFC P = hEff • P
    rw [C56_on_G2 P hpsi, ← sub_eq_zero, ← sub_smul]
    exact kill_of hEff_num.2.1 (by rw [natCast_zsmul]; exact hr)
  · intro P h0 hk
    show clearCofactorRFC P = hEff • P
    rw [h0, kill_of hEff_num.1 hk]

/-- **C91**: the result is in the group of order `r`, whatever the point. -/
theorem C91_clear (P : (curve (bTw Fq)).Point) : r • clearCofactorRFC P = 0 := by
  have h := (eq_top_of ((AddMonoidHom.comp (nsmulAddMonoidHom r) clearHom).ker) ?_ ?_).1
  · have hP : P ∈ (AddMonoidHom.comp (nsmulAddMonoidHom r) clearHom).ker := by rw [h]; exact AddSubgroup.mem_top P
    exact hP
  · intro P hr _
    have : r • clearHom P = 0 := by rw [← map_nsmul, hr, map_zero]
    exact this
  · intro P h0 _
    show r • clearCofactorRFC P = 0
    rw [h0]
    exact nsmul_zero r

theorem psi_psi (P : (curve (bTw Fq)).Point) : psi (psi P) = -phi (phi P) := by
  by_cases h0 : P = 0
  · rw [h0, map_zero, map_zero, map_zero, map_zero, neg_zero]
  obtain ⟨x, y, hp⟩ := exists_isPt h0
  refine (psi_psi_isPt hp).unique ((phi_isPt (phi_isPt hp)).neg.congr ?_ rfl)
  have h3 := third_cube
  rw [← mul_assoc, ← map_mul]
  generalize thirdRootOneG1 = w at *
  have e : w * w * (w * w) = w := by linear_combination w * h3
  rw [e]

/-- Where the order of the twist has a prime `p` only once, ψ is a multiplication on what `p` annihilates. -/
theorem eigen_all {p : ℕ} (hp : p.Prime) (hsq : ¬ p ^ 2 ∣ cofactorG2 * r) {g P : (curve (bTw Fq)).Point} {k : ℤ} (g0 : g ≠ 0)
    (gz : (p : ℤ) • g = 0) (ge : psi g = k • g) (Pz : (p : ℤ) • P = 0) : psi P = k • P := by
  by_contra hne
  have hrp := Nat.prime_iff_prime_int.1 hp
  have hd : p ^ 2 ∣ Nat.card (⊤ : AddSubgroup (curve (bTw Fq)).Point) := by
    refine prime_sq_dvd_card ⊤ (AddSubgroup.mem_top g) (AddSubgroup.mem_top P) gz Pz ?_
    intro a b hab
    have hb : (p : ℤ) ∣ b := by
      by_contra hb
      obtain ⟨u, v, huv⟩ := (Prime.coprime_iff_not_dvd hrp).2 hb
      have hP : P = (-(v * a)) • g := by
        have e1 : v • (a • g + b • P) = 0 := by rw [hab, zsmul_zero]
        have e2 : (u * (p : ℤ) + v * b) • P = P := by rw [huv, one_zsmul]
        rw [add_zsmul, mul_zsmul, Pz, zsmul_zero, zero_add] at e2
        rw [← e2]
        have : (v * b) • P - (-(v * a)) • g = v • (a • g + b • P) := by module
        rw [← sub_eq_zero, this, e1]
      apply hne
      rw [hP, map_zsmul, ge, ← mul_zsmul, ← mul_zsmul, mul_comm]
    refine ⟨?_, hb⟩
    rw [kill_of hb Pz, add_zero] at hab
    by_contra ha
    obtain ⟨u, v, huv⟩ := (Prime.coprime_iff_not_dvd hrp).2 ha
    apply g0
    have : (u * (p : ℤ) + v * a) • g = 0 := by
      rw [add_zsmul, mul_zsmul, mul_zsmul, gz, hab, zsmul_zero, zsmul_zero, add_zero]
    rwa [huv, one_zsmul] at this
  rw [AddSubgroup.card_top, C91_order] at hd
  exact hsq hd

/-- **C91**: the points that `r` annihilates are those on which ψ is the multiplication by `x`. -/
theorem C91_member (P : (curve (bTw Fq)).Point) : psi P = blsX • P ↔ r • P = 0 := by
  constructor
  · intro h
    have h2 : psi (psi P) = (blsX * blsX) • P := by rw [h, map_zsmul, h, ← mul_zsmul]
    have h4 : psi (psi (psi (psi P))) = (blsX * blsX * (blsX * blsX)) • P := by
      rw [h2, map_zsmul, map_zsmul, h2, ← mul_zsmul]
    rw [psi_psi, psi_psi, map_neg, map_neg, neg_neg, C56_phi_cube] at h4
    rw [psi_psi] at h2
    have e := phi_relation P
    rw [neg_eq_iff_eq_neg.1 h2, h4] at e
    rw [← natCast_zsmul, r_eq, ← e]
    module
  · intro hr
    obtain ⟨g, ga, gr, ge, -⟩ := g2_in_G2
    exact eigen_all fact_r.out hEff_num.2.2 ga.ne_zero (by rw [natCast_zsmul]; exact gr) ge (by rw [natCast_zsmul]; exact hr)

/-- **C91**: clearing the cofactor reaches all of the group of order `r`, and nothing else. -/
theorem C91_image (Q : (curve (bTw Fq)).Point) : (∃ P, clearCofactorRFC P = Q) ↔ r • Q = 0 := by
  constructor
  · rintro ⟨P, rfl⟩
    exact C91_clear P
  · intro hr
    obtain ⟨u, hu⟩ := clear_unit
    have hr' : (r : ℤ) • Q = 0 := by rw [natCast_zsmul]; exact hr
    refine ⟨u • Q, ?_⟩
    have e : clearHom (u • Q) = u • clearHom Q := map_zsmul _ _ _
    have e' : clearCofactorRFC (u • Q) = u • clearCofactorRFC Q := e
    rw [e', C56_on_G2 Q ((C91_member Q).2 hr), ← mul_zsmul, ← sub_eq_zero]
    have := kill_of hu hr'
    rwa [sub_smul, one_zsmul] at this

end Verif.Bls
