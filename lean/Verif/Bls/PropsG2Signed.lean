import Verif.Bls.PropsG2Ex

/-! # C55: `G2ConstScalarMul` is satisfiable

The loop of `G2ConstScalarMul` computes `m Q + φ(Q)`; its additions apply as long as no small combination `a Q + b φ(Q)` vanishes.
Since `φ² + φ + 1 = 0`, such a combination is only possible if `a² - ab + b²` kills `Q`. -/

namespace Verif.Bls
open Verif.Ec QuadraticAlgebra

attribute [local irreducible] q r E2.mulByNonResidueAt

theorem third_sum : 1 + thirdRootOneG1 * thirdRootOneG1 +
    thirdRootOneG1 * thirdRootOneG1 * (thirdRootOneG1 * thirdRootOneG1) = 0 := by
  have h3 := third_cube
  have h1 := third_ne_one
  generalize thirdRootOneG1 = w at *
  have : (w - 1) * (1 + w + w * w) = 0 := by linear_combination h3
  have e := (mul_eq_zero.1 this).resolve_left (sub_ne_zero.2 h1)
  linear_combination e + w * h3

theorem third_sq_ne_one : thirdRootOneG1 * thirdRootOneG1 ≠ 1 := by
  have h3 := third_cube
  have h1 := third_ne_one
  intro h
  rw [h, one_mul] at h3
  exact h1 h3

/-- `φ² + φ + 1 = 0`. -/
theorem phi_relation (P : (curve (bTw Fq)).Point) : P + phi P + phi (phi P) = 0 := by
  by_cases h0 : P = 0
  · rw [h0, map_zero, map_zero, add_zero, add_zero]
  obtain ⟨x, y, hp⟩ := exists_isPt h0
  have hp1 := phi_isPt hp
  have hp2 := phi_isPt hp1
  by_cases hx : x = 0
  · subst hx
    rw [mul_zero] at hp1
    have e1 : phi P = P := hp1.unique hp
    rw [e1, e1]
    have hy : y ≠ 0 := by
      rintro rfl
      have := hp.eq
      exact b2_ne (by linear_combination -this)
    have hd : IsPt (bTw Fq) 0 (-y) (P + P) :=
      IsPt.double two2_ne hp hy (l := 0) (by simp) (by simp) (by simp)
    rw [hd.unique hp.neg, neg_add_cancel]
  · have hc : (algebraMap Fq (Fq2 Fq) (thirdRootOneG1 * thirdRootOneG1)) ≠ 1 := by
      rw [Ne, ← map_one (algebraMap Fq (Fq2 Fq))]
      intro h
      exact third_sq_ne_one ((algebraMap Fq (Fq2 Fq)).injective h)
    have hs := congrArg (algebraMap Fq (Fq2 Fq)) third_sum
    rw [map_add, map_add, map_one, map_mul (algebraMap Fq (Fq2 Fq)) (thirdRootOneG1 * thirdRootOneG1), map_zero] at hs
    generalize algebraMap Fq (Fq2 Fq) (thirdRootOneG1 * thirdRootOneG1) = c at *
    have hd : IsPt (bTw Fq) (c * (c * x)) (-y) (P + phi P) := by
      refine IsPt.add hp hp1 ?_ (l := 0) (by simp) ?_ (by simp)
      · intro h
        have : (c - 1) * x = 0 := by linear_combination -h
        rcases mul_eq_zero.1 this with e | e
        · exact hc (sub_eq_zero.1 e)
        · exact hx e
      · linear_combination x * hs
    rw [hd.unique hp2.neg, neg_add_cancel]

/-- No combination with coefficients up to `M` vanishes. -/
def Indep (M : ℤ) (P : (curve (bTw Fq)).Point) : Prop :=
  ∀ a b : ℤ, |a| ≤ M → |b| ≤ M → a • P + b • phi P = 0 → a = 0 ∧ b = 0

theorem norm_kills {P : (curve (bTw Fq)).Point} {a b : ℤ} (h : a • P + b • phi P = 0) : (a ^ 2 - a * b + b ^ 2) • P = 0 := by
  have h1 := congrArg phi h
  rw [map_add, map_zsmul, map_zsmul, map_zero] at h1
  have h2 : phi (phi P) = -P - phi P := by
    rw [eq_sub_iff_add_eq, eq_neg_iff_add_eq_zero, ← phi_relation P]
    abel
  rw [h2] at h1
  generalize phi P = R at *
  have e : (a ^ 2 - a * b + b ^ 2) • P = (a - b) • (a • P + b • R) - b • (a • R + b • (-P - R)) := by module
  rw [e, h, h1]
  rw [zsmul_zero, zsmul_zero, sub_zero]

theorem indep_of_nonDeg {P : (curve (bTw Fq)).Point} {M : ℕ} (h : NonDeg (3 * M ^ 2) P) : Indep M P := by
  intro a b ha hb hz
  have hk := norm_kills hz
  have hnn : 0 ≤ a ^ 2 - a * b + b ^ 2 := by nlinarith [sq_nonneg (a - b), sq_nonneg a, sq_nonneg b]
  obtain ⟨n, hn⟩ := Int.eq_ofNat_of_zero_le hnn
  have ha2 : a ^ 2 ≤ (M : ℤ) ^ 2 := sq_le_sq' (by linarith [abs_le.1 ha]) (abs_le.1 ha).2
  have hb2 : b ^ 2 ≤ (M : ℤ) ^ 2 := sq_le_sq' (by linarith [abs_le.1 hb]) (abs_le.1 hb).2
  have hle : n ≤ 3 * M ^ 2 := by
    have : (n : ℤ) ≤ 3 * (M : ℤ) ^ 2 := by
      rw [← hn]
      nlinarith [sq_nonneg (a + b), sq_nonneg a, sq_nonneg b]
    exact_mod_cast this
  have hn0 : n = 0 := by
    by_contra hne
    refine h n (Nat.pos_of_ne_zero hne) hle ?_
    rw [hn, natCast_zsmul] at hk
    exact hk
  have hzero : a ^ 2 - a * b + b ^ 2 = 0 := by rw [hn, hn0]; rfl
  constructor
  · nlinarith [sq_nonneg (a - 2 * b), sq_nonneg a, sq_nonneg b, sq_nonneg (2 * a - b)]
  · nlinarith [sq_nonneg (a - 2 * b), sq_nonneg a, sq_nonneg b, sq_nonneg (2 * a - b)]

/-- Two combinations that are neither equal nor opposite. -/
theorem Indep.add {M : ℤ} {P : (curve (bTw Fq)).Point} (hi : Indep M P) {a b c d : ℤ} {p s : G2Affine Fq}
    (hp : AR p (a • P + b • phi P)) (hs : AR s (c • P + d • phi P)) (h1 : |a - c| ≤ M) (h2 : |b - d| ≤ M) (h3 : |a + c| ≤ M)
    (h4 : |b + d| ≤ M) (hm : a ≠ c ∨ b ≠ d) (hn : a + c ≠ 0 ∨ b + d ≠ 0) :
    ∃ z, g2Add p s = some z ∧ AR z ((a + c) • P + (b + d) • phi P) := by
  have e : (a + c) • P + (b + d) • phi P = a • P + b • phi P + (c • P + d • phi P) := by module
  rw [e]
  refine g2Add_complete hp hs ?_ ?_
  · intro h
    have : (a - c) • P + (b - d) • phi P = 0 := by
      have : (a - c) • P + (b - d) • phi P = a • P + b • phi P - (c • P + d • phi P) := by module
      rw [this, h, sub_self]
    obtain ⟨k1, k2⟩ := hi _ _ h1 h2 this
    rcases hm with hm | hm
    · exact hm (by omega)
    · exact hm (by omega)
  · intro h
    have : (a + c) • P + (b + d) • phi P = 0 := by rw [e, h, neg_add_cancel]
    obtain ⟨k1, k2⟩ := hi _ _ h3 h4 this
    rcases hn with hn | hn
    · exact hn k1
    · exact hn k2

theorem le_signed (k i : ℕ) (m : ℤ) (h : 1 ≤ m) : m ≤ signed k i m := by
  induction i generalizing m with
  | zero => exact le_refl m
  | succ i ih =>
    rw [signed]
    refine le_trans ?_ (ih _ ?_)
    all_goals split <;> omega

/-- The loop, for an honest prover. -/
theorem signedLoop_complete {table : ℕ → G2Affine Fq} {P : (curve (bTw Fq)).Point} {M : ℤ} (hi : Indep M P) (hM : 2 ≤ M)
    (h0 : AR (table 0) (-P + -phi P)) (h1 : AR (table 1) (P + -phi P)) (k i : ℕ) (m : ℤ) {acc : G2Affine Fq}
    (ha : AR acc (m • P + phi P)) (hm : 2 ≤ m ∨ (m = 1 ∧ k.testBit i = true)) (hs : signed k i m ≤ M) :
    ∃ c, g2SignedLoop k 0 table i acc = some c := by
  induction i generalizing m acc with
  | zero => exact ⟨acc, rfl⟩
  | succ i ih =>
    rw [signed] at hs
    have key : ∀ (e : ℤ) (t : G2Affine Fq), AR t (e • P + -phi P) → e = 1 ∨ e = -1 → (m = 1 → e = 1) → 2 * m + e ≤ M →
        ∃ acc', g2DoubleAndAdd acc t = some acc' ∧ AR acc' ((2 * m + e) • P + phi P) := by
      intro e t ht he hme hle
      cases hr : g2DoubleAndAdd acc t with
      | none =>
        exfalso
        have hm1 : 1 ≤ m := by omega
        rcases (g2DoubleAndAdd_none ha ht).1 hr with h | h | h
        · have : (m - e) • P + (2 : ℤ) • phi P = 0 := by
            have : (m - e) • P + (2 : ℤ) • phi P = m • P + phi P - (e • P + -phi P) := by module
            rw [this, h, sub_self]
          exact absurd (hi _ _ (by rw [abs_le]; omega) (by rw [abs_le]; omega) this).2 (by norm_num)
        · have : (m + e) • P + (0 : ℤ) • phi P = 0 := by
            have : (m + e) • P + (0 : ℤ) • phi P = m • P + phi P + (e • P + -phi P) := by module
            rw [this, h, neg_add_cancel]
          have := (hi _ _ (by rw [abs_le]; omega) (by rw [abs_le]; omega) this).1
          omega
        · have : (2 * m + e) • P + (1 : ℤ) • phi P = 0 := by
            have : (2 * m + e) • P + (1 : ℤ) • phi P = m • P + phi P + (m • P + phi P) + (e • P + -phi P) := by module
            rw [this, h]
          exact absurd (hi _ _ (by rw [abs_le]; omega) (by rw [abs_le]; omega) this).2 (by norm_num)
      | some acc' =>
        refine ⟨acc', rfl, ?_⟩
        have := g2DoubleAndAdd_sound ha ht hr
        have e1 : (2 * m + e) • P + phi P = m • P + phi P + (m • P + phi P) + (e • P + -phi P) := by module
        rwa [e1]
    have hm1 : 1 ≤ m := by omega
    cases hb : k.testBit (i + 1) with
    | false =>
      rw [hb, if_neg (by simp)] at hs
      have hm2 : 2 ≤ m := by
        rcases hm with h | ⟨-, h⟩
        · exact h
        · rw [hb] at h
          exact absurd h (by simp)
      have hle := le_trans (le_signed k i _ (by omega)) hs
      obtain ⟨acc', hd, hA⟩ := key (-1) (table 0) (by rwa [neg_one_zsmul]) (Or.inr rfl) (by omega) hle
      obtain ⟨c, hc⟩ := ih _ hA (Or.inl (by omega)) hs
      refine ⟨c, ?_⟩
      rw [g2SignedLoop]
      refine Option.bind_eq_some_iff.2 ⟨acc', ?_, hc⟩
      rw [hb, Nat.zero_testBit]
      exact hd
    | true =>
      rw [hb, if_pos rfl] at hs
      have hle := le_trans (le_signed k i _ (by omega)) hs
      obtain ⟨acc', hd, hA⟩ := key 1 (table 1) (by rwa [one_zsmul]) (Or.inl rfl) (fun _ => rfl) hle
      obtain ⟨c, hc⟩ := ih _ hA (Or.inl (by omega)) hs
      refine ⟨c, ?_⟩
      rw [g2SignedLoop]
      refine Option.bind_eq_some_iff.2 ⟨acc', ?_, hc⟩
      rw [hb, Nat.zero_testBit]
      exact hd

/-- **C55**, `G2ConstScalarMul`: it accepts every finite point whose multiples up to `2^132` are finite, and returns the multiple by
`|x|`. -/
theorem C55_signed_complete (a : G2Affine Fq) (P : (curve (bTw Fq)).Point) (ha : AR a P)
    (h : ∀ j : ℕ, 0 < j → j ≤ 2 ^ 132 → j • P ≠ 0) :
    ∃ z, g2ConstScalarMul a = some z ∧ AR z ((0xd201000000010000 : ℕ) • P) := by
  have hi : Indep (2 ^ 65 : ℕ) P := indep_of_nonDeg fun j h1 h2 => h j h1 (le_trans h2 (by norm_num))
  have hMv : ((2 ^ 65 : ℕ) : ℤ) = 36893488147419103232 := by norm_num
  rw [hMv] at hi
  have hp := phi_spec ha
  have ha' : AR a ((1 : ℤ) • P + (0 : ℤ) • phi P) := by rwa [one_zsmul, zero_zsmul, add_zero]
  have hna : AR (g2Neg a) ((-1 : ℤ) • P + (0 : ℤ) • phi P) := by
    rw [neg_one_zsmul, zero_zsmul, add_zero]; exact g2Neg_spec ha
  have hp' : AR (g2Phi a) ((0 : ℤ) • P + (1 : ℤ) • phi P) := by rwa [one_zsmul, zero_zsmul, zero_add]
  have hnp : AR (g2Neg (g2Phi a)) ((0 : ℤ) • P + (-1 : ℤ) • phi P) := by
    rw [neg_one_zsmul, zero_zsmul, zero_add]; exact g2Neg_spec hp
  obtain ⟨t0, e0, A0⟩ := hi.add hna hnp (by norm_num) (by norm_num) (by norm_num) (by norm_num) (by norm_num) (by norm_num)
  obtain ⟨t1, e1, A1⟩ := hi.add ha' hnp (by norm_num) (by norm_num) (by norm_num) (by norm_num) (by norm_num) (by norm_num)
  obtain ⟨t2, e2, A2⟩ := hi.add hna hp' (by norm_num) (by norm_num) (by norm_num) (by norm_num) (by norm_num) (by norm_num)
  obtain ⟨t3, e3, A3⟩ := hi.add ha' hp' (by norm_num) (by norm_num) (by norm_num) (by norm_num) (by norm_num) (by norm_num)
  have B0 : AR t0 (-P + -phi P) := by
    have : -P + -phi P = ((-1 : ℤ) + 0) • P + ((0 : ℤ) + -1) • phi P := by module
    rwa [this]
  have B1 : AR t1 (P + -phi P) := by
    have : P + -phi P = ((1 : ℤ) + 0) • P + ((0 : ℤ) + -1) • phi P := by module
    rwa [this]
  have B3 : AR t3 ((1 : ℤ) • P + phi P) := by
    have : (1 : ℤ) • P + phi P = ((1 : ℤ) + 0) • P + ((0 : ℤ) + 1) • phi P := by module
    rwa [this]
  obtain ⟨acc, e4⟩ := signedLoop_complete (table := fun i => if i = 0 then t0 else if i = 1 then t1 else if i = 2 then t2 else t3)
    hi (by norm_num) B0 B1 15132376222941642752 63 1 B3 (Or.inr ⟨rfl, by decide +kernel⟩) (by rw [signed_value]; norm_num)
  have A4 := signedLoop_sound (table := fun i => if i = 0 then t0 else if i = 1 then t1 else if i = 2 then t2 else t3) B0 B1
    15132376222941642752 63 1 B3 e4
  rw [signed_value] at A4
  have B4 : AR acc ((0xd201000000010001 : ℤ) • P + (1 : ℤ) • phi P) := by rwa [one_zsmul]
  obtain ⟨n1, e5, A5⟩ := hi.add hna B4 (by norm_num) (by norm_num) (by norm_num) (by norm_num) (by norm_num) (by norm_num)
  obtain ⟨n2, e6, A6⟩ := hi.add hnp A5 (by norm_num) (by norm_num) (by norm_num) (by norm_num) (by norm_num) (by norm_num)
  have hz : g2ConstScalarMul a = some ⟨n2.x, n2.y⟩ :=
    Option.bind_eq_some_iff.2 ⟨t0, e0, Option.bind_eq_some_iff.2 ⟨t1, e1, Option.bind_eq_some_iff.2 ⟨t2, e2,
      Option.bind_eq_some_iff.2 ⟨t3, e3, Option.bind_eq_some_iff.2 ⟨acc, e4, Option.bind_eq_some_iff.2 ⟨n1, e5,
        Option.bind_eq_some_iff.2 ⟨n2, e6, rfl⟩⟩⟩⟩⟩⟩⟩
  exact ⟨_, hz, scalarMul_signed_sound ha hz⟩

theorem two132_lt_r : 2 ^ 132 < r := by decide +kernel

/-- **C55**: every finite point of the subgroup of order `r` is accepted by both multiplications, with the same result. -/
theorem C55_subgroup (a : G2Affine Fq) (P : (curve (bTw Fq)).Point) (ha : AR a P) (hr : r • P = 0) :
    ∃ z, g2ConstScalarMul a = some z ∧ g2ConstScalarMulV2 a = some z ∧ AR z ((0xd201000000010000 : ℕ) • P) := by
  have hn : ∀ j : ℕ, 0 < j → j ≤ 2 ^ 132 → j • P ≠ 0 := by
    intro j h0 hj hz
    have hrp : r.Prime := fact_r.out
    have h1 : addOrderOf P ∣ r := addOrderOf_dvd_of_nsmul_eq_zero hr
    have h2 : addOrderOf P ∣ j := addOrderOf_dvd_of_nsmul_eq_zero hz
    rcases (Nat.dvd_prime hrp).1 h1 with e | e
    · exact ha.ne_zero (AddMonoid.addOrderOf_eq_one_iff.1 e)
    · rw [e] at h2
      exact absurd (Nat.le_of_dvd h0 h2) (not_le.2 (lt_of_le_of_lt hj two132_lt_r))
  obtain ⟨z, hz, hA⟩ := C55_signed_complete a P ha hn
  obtain ⟨z', hz', hA'⟩ := scalarMulV2_complete ha fun j h0 hj => hn j h0 (le_trans hj (by norm_num))
  obtain ⟨e1, e2⟩ := IsPt.inj hA hA'
  have e : z = z' := by
    rw [G2Affine.ext_iff]
    exact ⟨E2.val_inj.1 e1, E2.val_inj.1 e2⟩
  exact ⟨z, hz, by rw [hz', e], hA⟩

/-- The generator of G2 meets the hypotheses. -/
theorem C55_subgroup_example : ∃ P, AR g2 P ∧ r • P = 0 := by
  obtain ⟨P, ha, hr, -⟩ := g2_in_G2
  exact ⟨P, ha, hr⟩

end Verif.Bls
