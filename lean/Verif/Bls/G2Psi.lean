import Verif.Bls.G2Spec
import Verif.Bls.G2Affine

/-! # ψ, φ and the coordinate conversions of the gadget -/

namespace Verif.Bls
open Verif.Ec QuadraticAlgebra

attribute [local irreducible] E2.mulByNonResidueAt

/-- `ξ^((q-1)/6)` as coordinates. -/
def nrE : E2 Fq := ⟨((nonResidue 1 1).1 : Fq), ((nonResidue 1 1).2 : Fq)⟩

theorem nrE_val : nrE.val = nr 1 1 := ofN_val _

theorem psiU_num : E2.mul psiU (E2.mul nrE nrE) = E2.one := by decide +kernel

theorem psiV_num : E2.mul psiV (E2.mul nrE (E2.mul nrE nrE)) = E2.one := by decide +kernel

theorem psiU_norm : E2.mul psiU (E2.conjugate psiU) = ⟨thirdRootOneG1, 0⟩ := by decide +kernel

theorem psiV_norm : E2.mul psiV (E2.conjugate psiV) = ⟨-1, 0⟩ := by decide +kernel

theorem third_cube : thirdRootOneG1 * thirdRootOneG1 * thirdRootOneG1 = 1 := by decide +kernel

theorem third_ne_one : thirdRootOneG1 ≠ 1 := by decide +kernel

attribute [local irreducible] q r

theorem q_div6 : (q - 1) / 3 = (q - 1) / 6 * 2 ∧ (q - 1) / 2 = (q - 1) / 6 * 3 := by decide +kernel

theorem psiU_val : psiU.val = ((ξ : Fq2 Fq) ^ ((q - 1) / 3))⁻¹ := by
  refine eq_inv_of_mul_eq_one_left ?_
  have h := congrArg E2.val psiU_num
  rw [E2.val_mul, E2.val_mul, E2.val_one, nrE_val, nr11] at h
  rw [q_div6.1, pow_mul, pow_two]
  exact h

theorem psiV_val : psiV.val = ((ξ : Fq2 Fq) ^ ((q - 1) / 2))⁻¹ := by
  refine eq_inv_of_mul_eq_one_left ?_
  have h := congrArg E2.val psiV_num
  rw [E2.val_mul, E2.val_mul, E2.val_mul, E2.val_one, nrE_val, nr11] at h
  rw [q_div6.2, pow_mul, pow_succ, pow_two, mul_assoc]
  exact h

variable {P Q : (curve (bTw Fq)).Point}

theorem frob_star (x : Fq2 Fq) : frobenius (Fq2 Fq) q x = star x := (frobenius_def q x).trans (fq2_pow_q x)

theorem psi_isPt {x y : Fq2 Fq} (h : IsPt (bTw Fq) x y P) : IsPt (bTw Fq) (psiU.val * star x) (psiV.val * star y) (psi P) := by
  refine (psi_ok.isPt_endo two2_ne three2_ne b2_ne h).congr ?_ ?_
  · rw [psiU_val, frob_star]
  · rw [psiV_val, frob_star]

theorem jacPsi_spec {a : G2Jac Fq} (h : JR a P) : JR (g2JacPsi a) (psi P) := by
  unfold JR g2JacPsi
  dsimp only
  rw [E2.val_mul, E2.val_mul, E2.val_conjugate, E2.val_conjugate, E2.val_conjugate, mul_comm _ psiU.val, mul_comm _ psiV.val]
  rcases h with ⟨hz, rfl⟩ | ⟨hz, hp⟩
  · left
    exact ⟨by rw [hz, star_zero], by rw [map_zero]⟩
  · right
    refine ⟨star_ne_zero.2 hz, (psi_isPt hp).congr ?_ ?_⟩
    · rw [← frob_star, ← frob_star, ← frob_star, map_div₀, map_pow, mul_div_assoc]
    · rw [← frob_star, ← frob_star, ← frob_star, map_div₀, map_pow, mul_div_assoc]

theorem psi_spec {a : G2Affine Fq} (h : AR a P) : AR (g2Psi a) (psi P) := by
  unfold AR g2Psi
  rw [E2.val_mul, E2.val_mul, E2.val_conjugate, E2.val_conjugate, mul_comm _ psiU.val, mul_comm _ psiV.val]
  exact psi_isPt h

/-- The third root of unity in `Fq2`. -/
theorem psiU_star : psiU.val * star psiU.val = algebraMap Fq (Fq2 Fq) thirdRootOneG1 := by
  have h := congrArg E2.val psiU_norm
  rw [E2.val_mul, E2.val_conjugate] at h
  rw [h]
  generalize thirdRootOneG1 = c
  ext <;> simp [E2.val, algebraMap_re, algebraMap_im]

theorem psiV_star : psiV.val * star psiV.val = -1 := by
  have h := congrArg E2.val psiV_norm
  rw [E2.val_mul, E2.val_conjugate] at h
  rw [h]
  ext <;> simp [E2.val]

/-- ψ² is `(x, y) ↦ (ω x, -y)`. -/
theorem psi_psi_isPt {x y : Fq2 Fq} (h : IsPt (bTw Fq) x y P) :
    IsPt (bTw Fq) (algebraMap Fq (Fq2 Fq) thirdRootOneG1 * x) (-y) (psi (psi P)) := by
  refine (psi_isPt (psi_isPt h)).congr ?_ ?_
  · rw [star_mul', star_star, ← psiU_star]; ring
  · rw [star_mul', star_star]; linear_combination y * -psiV_star

/-- The subtraction of the last step of `ClearCofactor` adds ψ². -/
theorem jacOmega_spec {a : G2Jac Fq} (h : JR a P) :
    JR (g2JacNeg ⟨E2.mulByElement a.x thirdRootOneG1, a.y, a.z⟩) (psi (psi P)) := by
  unfold JR g2JacNeg
  dsimp only
  rw [E2.val_neg, val_smul]
  rcases h with ⟨hz, rfl⟩ | ⟨hz, hp⟩
  · left
    exact ⟨hz, by rw [map_zero, map_zero]⟩
  · right
    refine ⟨hz, (psi_psi_isPt hp).congr ?_ ?_⟩
    · rw [mul_div_assoc]
    · rw [neg_div]

theorem omega_spec {a : G2Affine Fq} (h : AR a P) : AR ⟨E2.mulByElement a.x thirdRootOneG1, a.y⟩ (-psi (psi P)) := by
  have := (psi_psi_isPt h).neg
  unfold AR
  dsimp only
  rw [val_smul]
  rwa [neg_neg] at this

/-! ## φ -/

theorem phi_ok : EndoOk (bTw Fq) (RingHom.id (Fq2 Fq)) (algebraMap Fq (Fq2 Fq) (thirdRootOneG1 * thirdRootOneG1)) 1 := by
  have h3 : (thirdRootOneG1 * thirdRootOneG1) ^ 3 = 1 := by
    have e : (thirdRootOneG1 * thirdRootOneG1) ^ 3 = (thirdRootOneG1 * thirdRootOneG1 * thirdRootOneG1) ^ 2 := by ring
    rw [e, third_cube, one_pow]
  refine ⟨?_, ?_, ?_, one_ne_zero⟩
  · rw [← map_pow, h3, map_one, one_pow]
  · rw [one_pow, one_mul, RingHom.id_apply]
  · intro h
    rw [map_eq_zero] at h
    rw [h, zero_pow (by norm_num)] at h3
    exact zero_ne_one h3

/-- φ: `(x, y) ↦ (ω² x, y)`. -/
noncomputable def phi : (curve (bTw Fq)).Point →+ (curve (bTw Fq)).Point := endo two2_ne three2_ne b2_ne phi_ok

theorem phi_isPt {x y : Fq2 Fq} (h : IsPt (bTw Fq) x y P) :
    IsPt (bTw Fq) (algebraMap Fq (Fq2 Fq) (thirdRootOneG1 * thirdRootOneG1) * x) y (phi P) := by
  have := phi_ok.isPt_endo two2_ne three2_ne b2_ne h
  rw [RingHom.id_apply, RingHom.id_apply, one_mul] at this
  exact this

theorem phi_spec {a : G2Affine Fq} (h : AR a P) : AR (g2Phi a) (phi P) := by
  unfold AR g2Phi
  rw [val_smul]
  exact phi_isPt h

theorem jacPhi_spec {a : G2Jac Fq} (h : JR a P) : JR (g2JacPhi a) (phi P) := by
  have := phi_ok.jrep two2_ne three2_ne b2_ne h
  rw [RingHom.id_apply, RingHom.id_apply, RingHom.id_apply, one_mul] at this
  unfold JR g2JacPhi
  rw [val_smul]
  exact this

/-! ## Conversions -/

/-- Points of the curve are not flagged as infinity. -/
theorem notInfinity_forced {a : G2Affine Fq} (h : AR a P) {b : Bool} (hb : g2AffineNotInfinity a b) : b = true := by
  obtain ⟨c, hc, d, hd, rfl⟩ := hb
  by_cases hx : a.x.val = 0
  · have hy : a.y.val ≠ 0 := by
      intro hy
      have := IsPt.eq h
      rw [hx, hy] at this
      apply b2_ne
      linear_combination -this
    rw [e2NotZero_forced hy hd, Bool.or_true]
  · rw [e2NotZero_forced hx hc, Bool.true_or]

theorem jacFromAffine_iff (a : G2Affine Fq) (z : G2Jac Fq) : g2JacFromAffine a z ↔
    ∃ b, g2AffineNotInfinity a b ∧ z = if b then ⟨a.x, a.y, E2.one⟩ else ⟨E2.one, E2.one, E2.zero⟩ := by
  constructor
  · rintro ⟨b, hb, h⟩
    refine ⟨b, hb, ?_⟩
    cases b
    · exact h
    · exact h
  · rintro ⟨b, hb, h⟩
    refine ⟨b, hb, ?_⟩
    cases b
    · exact h
    · exact h

theorem jacFromAffine_spec {a : G2Affine Fq} (h : AR a P) (z : G2Jac Fq) :
    g2JacFromAffine a z ↔ z = ⟨a.x, a.y, E2.one⟩ := by
  rw [jacFromAffine_iff]
  constructor
  · rintro ⟨b, hb, hz⟩
    rw [notInfinity_forced h hb] at hz
    exact hz
  · intro hz
    obtain ⟨c, hc⟩ : ∃ c, e2NotZero a.x c := ⟨_, e2NotZero_honest a.x⟩
    obtain ⟨d, hd⟩ : ∃ d, e2NotZero a.y d := ⟨_, e2NotZero_honest a.y⟩
    have hb : g2AffineNotInfinity a (c || d) := ⟨c, hc, d, hd, rfl⟩
    refine ⟨_, hb, ?_⟩
    rw [notInfinity_forced h hb]
    exact hz

theorem jr_affine {a : G2Affine Fq} (h : AR a P) : JR ⟨a.x, a.y, E2.one⟩ P := by
  right
  dsimp only
  rw [E2.val_one]
  exact ⟨one_ne_zero, IsPt.congr h (by rw [one_pow, div_one]) (by rw [one_pow, div_one])⟩

theorem jr_infinity : JR ⟨E2.one, E2.one, E2.zero⟩ 0 := JR.of_zero E2.val_zero

theorem affineFromJac_iff (p : G2Jac Fq) (z : G2Affine Fq) : g2AffineFromJac p z ↔
    ∃ i, E2.inverse p.z = some i ∧ z = ⟨E2.mul p.x (E2.square i), E2.mul (E2.mul p.y (E2.square i)) i⟩ := by
  have hne : ∀ {i}, E2.inverse p.z = some i → p.z.val ≠ 0 := by
    intro i h e
    rw [(E2.inverse_none_iff _).2 e] at h
    simp at h
  constructor
  · rintro ⟨i, hi, f, hf, hz⟩
    refine ⟨i, hi, ?_⟩
    rw [e2NotZero_forced (hne hi) hf] at hz
    exact hz
  · rintro ⟨i, hi, hz⟩
    refine ⟨i, hi, true, ?_, hz⟩
    have := e2NotZero_honest p.z
    rwa [decide_eq_true (hne hi)] at this

/-- The conversion of a finite point is determined and right; it is unsatisfiable for the point at infinity. -/
theorem affineFromJac_spec {p : G2Jac Fq} (h : JR p P) :
    (P = 0 → ¬∃ z, g2AffineFromJac p z) ∧ (∀ z, g2AffineFromJac p z → AR z P) ∧ (P ≠ 0 → ∃ z, g2AffineFromJac p z) := by
  refine ⟨?_, ?_, ?_⟩
  · rintro h0 ⟨z, hz⟩
    obtain ⟨i, hi, -⟩ := (affineFromJac_iff p z).1 hz
    rw [(E2.inverse_none_iff _).2 (h.zero_iff.2 h0)] at hi
    simp at hi
  · intro z hz
    obtain ⟨i, hi, rfl⟩ := (affineFromJac_iff p z).1 hz
    have hs := E2.inverse_spec hi
    rcases h with ⟨hz0, -⟩ | ⟨hz0, hp⟩
    · rw [hz0, zero_mul] at hs
      exact absurd hs zero_ne_one
    · have e : i.val = (p.z.val)⁻¹ := eq_inv_of_mul_eq_one_right hs
      refine IsPt.congr hp ?_ ?_
      · simp only [E2.val_mul, E2.val_square, e]
        field_simp
      · simp only [E2.val_mul, E2.val_square, e]
        field_simp
  · intro hP
    have hn : p.z.val ≠ 0 := fun e => hP (h.zero_iff.1 e)
    have h1 : E2.inverse p.z ≠ none := fun h' => hn ((E2.inverse_none_iff _).1 h')
    obtain ⟨i, hi⟩ := Option.ne_none_iff_exists'.1 h1
    exact ⟨_, (affineFromJac_iff p _).2 ⟨i, hi, rfl⟩⟩

end Verif.Bls
