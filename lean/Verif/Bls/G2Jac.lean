import Verif.Bls.G2Flags

/-! # Jacobian arithmetic on the twist -/

namespace Verif.Bls
open Verif.Ec QuadraticAlgebra

attribute [local irreducible] q r E2.mulByNonResidueAt

/-- Jacobian coordinates of a point of the twist. -/
def JR (T : G2Jac Fq) (P : (curve (bTw Fq)).Point) : Prop := JRep (bTw Fq) T.x.val T.y.val T.z.val P

theorem JR.zero_iff {T : G2Jac Fq} {P : (curve (bTw Fq)).Point} (h : JR T P) : T.z.val = 0 ↔ P = 0 := by
  rcases h with ⟨hz, hp⟩ | ⟨hz, hp⟩
  · exact ⟨fun _ => hp, fun _ => hz⟩
  · exact ⟨fun e => absurd e hz, fun e => absurd e hp.ne_zero⟩

theorem JR.of_zero {T : G2Jac Fq} (h : T.z.val = 0) : JR T 0 := .inl ⟨h, rfl⟩

theorem jacDouble_spec {T : G2Jac Fq} {P : (curve (bTw Fq)).Point} (h : JR T P) : JR (g2JacDouble T) (P + P) := by
  refine JRep.double two2_ne h ?_ ?_ ?_ <;>
  · simp only [g2JacDouble, E2.val_sub, E2.val_add, E2.val_square, E2.val_double, E2.val_mul]
    ring

theorem jacNeg_spec {T : G2Jac Fq} {P : (curve (bTw Fq)).Point} (h : JR T P) : JR (g2JacNeg T) (-P) := by
  unfold JR g2JacNeg
  rw [E2.val_neg]
  exact JRep.neg h

/-- The addition formula for two different finite points. -/
def g2JacGeneral (p a : G2Jac Fq) : G2Jac Fq :=
  let Z1Z1 := E2.square a.z
  let Z2Z2 := E2.square p.z
  let U1 := E2.mul a.x Z2Z2
  let U2 := E2.mul p.x Z1Z1
  let S1 := E2.mul (E2.mul a.y p.z) Z2Z2
  let S2 := E2.mul (E2.mul p.y a.z) Z1Z1
  let H := E2.sub U2 U1
  let I := E2.square (E2.double H)
  let J := E2.mul H I
  let r := E2.double (E2.sub S2 S1)
  let V := E2.mul U1 I
  let px := E2.sub (E2.sub (E2.sub (E2.square r) J) V) V
  let py := E2.sub (E2.mul (E2.sub V px) r) (E2.double (E2.mul S1 J))
  let pz := E2.mul (E2.sub (E2.sub (E2.square (E2.add p.z a.z)) Z1Z1) Z2Z2) H
  ⟨px, py, pz⟩

/-- The value selected by the flags. -/
def g2JacPick (pf af nf : Bool) (p a : G2Jac Fq) : G2Jac Fq :=
  if pf then (if af then (if nf then g2JacGeneral p a else g2JacDouble p) else p) else a

theorem select_true (x y : E2 Fq) : E2.select true x y = x := rfl
theorem select_false (x y : E2 Fq) : E2.select false x y = y := rfl

theorem g2JacAdd_iff (p a z : G2Jac Fq) : g2JacAdd p a z ↔ ∃ pf af uf sf, e2NotZero p.z pf ∧ e2NotZero a.z af ∧
    e2NotEqual (E2.mul a.x (E2.square p.z)) (E2.mul p.x (E2.square a.z)) uf ∧
    e2NotEqual (E2.mul (E2.mul a.y p.z) (E2.square p.z)) (E2.mul (E2.mul p.y a.z) (E2.square a.z)) sf ∧
    z = g2JacPick pf af (uf || sf) p a := by
  have key : ∀ pf af nf : Bool, (⟨
      E2.select pf (E2.select af (E2.select nf (g2JacGeneral p a).x (g2JacDouble p).x) p.x) a.x,
      E2.select pf (E2.select af (E2.select nf (g2JacGeneral p a).y (g2JacDouble p).y) p.y) a.y,
      E2.select pf (E2.select af (E2.select nf (g2JacGeneral p a).z (g2JacDouble p).z) p.z) a.z⟩ : G2Jac Fq) =
      g2JacPick pf af nf p a := by
    intro pf af nf
    cases pf <;> cases af <;> cases nf <;> rfl
  constructor
  · rintro ⟨pf, h1, af, h2, uf, h3, sf, h4, h5⟩
    exact ⟨pf, af, uf, sf, h1, h2, h3, h4, by rw [← key]; exact h5⟩
  · rintro ⟨pf, af, uf, sf, h1, h2, h3, h4, h5⟩
    exact ⟨pf, h1, af, h2, uf, h3, sf, h4, by rw [h5, ← key]; rfl⟩

variable {p a z : G2Jac Fq} {P Q : (curve (bTw Fq)).Point}

theorem general_z (p a : G2Jac Fq) : (g2JacGeneral p a).z.val =
    2 * p.z.val * a.z.val * (p.x.val * a.z.val ^ 2 - a.x.val * p.z.val ^ 2) := by
  simp only [g2JacGeneral, E2.val_sub, E2.val_add, E2.val_square, E2.val_mul]
  ring

theorem general_spec (hp : JR p P) (ha : JR a Q) (np : p.z.val ≠ 0) (na : a.z.val ≠ 0) (hne : P ≠ Q) :
    JR (g2JacGeneral p a) (P + Q) := by
  rw [add_comm]
  have hne' : a.x.val * p.z.val ^ 2 ≠ p.x.val * a.z.val ^ 2 ∨ a.y.val * p.z.val ^ 3 ≠ p.y.val * a.z.val ^ 3 := by
    by_contra hn
    push Not at hn
    apply hne
    obtain ⟨z, _⟩ | ⟨_, p₁⟩ := hp
    · exact absurd z np
    obtain ⟨z, _⟩ | ⟨_, p₂⟩ := ha
    · exact absurd z na
    refine p₁.unique (p₂.congr ?_ ?_)
    · rw [div_eq_div_iff (pow_ne_zero _ np) (pow_ne_zero _ na), ← hn.1]
    · rw [div_eq_div_iff (pow_ne_zero _ np) (pow_ne_zero _ na), ← hn.2]
  refine JRep.add_general two2_ne ha hp na np rfl rfl rfl rfl hne' rfl rfl ?_ ?_ ?_ <;>
  · simp only [g2JacGeneral, E2.val_sub, E2.val_add, E2.val_square, E2.val_double, E2.val_mul]
    ring

/-- Equality of the points in terms of the compared values. -/
theorem same_iff (hp : JR p P) (ha : JR a Q) (np : p.z.val ≠ 0) (na : a.z.val ≠ 0) :
    P = Q ↔ (E2.mul a.x (E2.square p.z)).val = (E2.mul p.x (E2.square a.z)).val ∧
      (E2.mul (E2.mul a.y p.z) (E2.square p.z)).val = (E2.mul (E2.mul p.y a.z) (E2.square a.z)).val := by
  obtain ⟨z, _⟩ | ⟨_, p₁⟩ := hp
  · exact absurd z np
  obtain ⟨z, _⟩ | ⟨_, p₂⟩ := ha
  · exact absurd z na
  simp only [E2.val_mul, E2.val_square]
  have e1 : a.x.val * (p.z.val * p.z.val) = p.x.val * (a.z.val * a.z.val) ↔
      p.x.val / p.z.val ^ 2 = a.x.val / a.z.val ^ 2 := by
    rw [div_eq_div_iff (pow_ne_zero _ np) (pow_ne_zero _ na), pow_two, pow_two]
    exact eq_comm
  have e2 : a.y.val * p.z.val * (p.z.val * p.z.val) = p.y.val * a.z.val * (a.z.val * a.z.val) ↔
      p.y.val / p.z.val ^ 3 = a.y.val / a.z.val ^ 3 := by
    rw [div_eq_div_iff (pow_ne_zero _ np) (pow_ne_zero _ na)]
    constructor
    · intro h; linear_combination -h
    · intro h; linear_combination -h
  rw [e1, e2]
  constructor
  · rintro rfl
    exact p₁.inj p₂
  · rintro ⟨h1, h2⟩
    exact p₁.unique (p₂.congr h1 h2)

/-- Everything a prover can reach: the sum, or the neutral element if an operand is neutral or they are equal, or the double of
`P` if the neutral second operand is given as `(0, 0, 0)`. -/
theorem jacAdd_outcomes (hp : JR p P) (ha : JR a Q) (h : g2JacAdd p a z) :
    JR z (P + Q) ∨ (z.z.val = 0 ∧ (P = 0 ∨ Q = 0 ∨ P = Q)) ∨
      (Q = 0 ∧ a.x.val = 0 ∧ a.y.val = 0 ∧ JR z (P + P)) := by
  obtain ⟨pf, af, uf, sf, h1, h2, h3, h4, rfl⟩ := (g2JacAdd_iff p a z).1 h
  unfold g2JacPick
  cases pf with
  | false =>
    left
    have hz : p.z.val = 0 := by
      by_contra hn
      exact absurd (e2NotZero_forced hn h1) (by simp)
    rw [hp.zero_iff.1 hz, zero_add]
    exact ha
  | true =>
    cases af with
    | false =>
      left
      have hz : a.z.val = 0 := by
        by_contra hn
        exact absurd (e2NotZero_forced hn h2) (by simp)
      rw [ha.zero_iff.1 hz, add_zero]
      exact hp
    | true =>
      simp only [if_true]
      by_cases hP : p.z.val = 0
      · right; left
        refine ⟨?_, .inl (hp.zero_iff.1 hP)⟩
        split
        · rw [general_z, hP]; ring
        · exact (jacDouble_spec hp).zero_iff.2 (by rw [hp.zero_iff.1 hP, add_zero])
      by_cases hA : a.z.val = 0
      · right
        have hQ := ha.zero_iff.1 hA
        split
        · left
          exact ⟨by rw [general_z, hA]; ring, .inr (.inl hQ)⟩
        · right
          rename_i hnf
          rw [Bool.or_eq_true, not_or] at hnf
          have hy : (E2.mul (E2.mul a.y p.z) (E2.square p.z)).val = (E2.mul (E2.mul p.y a.z) (E2.square a.z)).val := by
            by_contra hn
            exact hnf.2 (e2NotEqual_forced hn h4)
          have hx : (E2.mul a.x (E2.square p.z)).val = (E2.mul p.x (E2.square a.z)).val := by
            by_contra hn
            exact hnf.1 (e2NotEqual_forced hn h3)
          simp only [E2.val_mul, E2.val_square, hA, mul_zero] at hx hy
          refine ⟨hQ, ?_, ?_, jacDouble_spec hp⟩
          · exact (mul_eq_zero.1 hx).resolve_right (mul_ne_zero hP hP)
          · exact (mul_eq_zero.1 ((mul_eq_zero.1 hy).resolve_right (mul_ne_zero hP hP))).resolve_right hP
      by_cases hPQ : P = Q
      · split
        · right; left
          refine ⟨?_, .inr (.inr hPQ)⟩
          have := ((same_iff hp ha hP hA).1 hPQ).1
          simp only [E2.val_mul, E2.val_square] at this
          rw [general_z]
          linear_combination (-2 * p.z.val * a.z.val) * this
        · left
          rw [← hPQ]
          exact jacDouble_spec hp
      · left
        have hnf : (uf || sf) = true := by
          rw [(same_iff hp ha hP hA), not_and_or] at hPQ
          rcases hPQ with hn | hn
          · rw [e2NotEqual_forced hn h3, Bool.true_or]
          · rw [e2NotEqual_forced hn h4, Bool.or_true]
        rw [if_pos hnf]
        exact general_spec hp ha hP hA hPQ

theorem jacAdd_generic (hp : JR p P) (ha : JR a Q) (h : g2JacAdd p a z) (h1 : P ≠ 0) (h2 : Q ≠ 0) (h3 : P ≠ Q) :
    JR z (P + Q) := by
  rcases jacAdd_outcomes hp ha h with e | ⟨_, e⟩ | ⟨e, _⟩
  · exact e
  · rcases e with e | e | e
    · exact absurd e h1
    · exact absurd e h2
    · exact absurd e h3
  · exact absurd e h2

theorem jacAdd_zero (hp : JR p 0) (ha : JR a 0) (h : g2JacAdd p a z) : JR z 0 := by
  rcases jacAdd_outcomes hp ha h with e | ⟨e, _⟩ | ⟨_, _, _, e⟩
  · rwa [add_zero] at e
  · exact JR.of_zero e
  · rwa [add_zero] at e

/-- The honest prover gets the sum. -/
theorem jacAdd_complete (hp : JR p P) (ha : JR a Q) : ∃ z, g2JacAdd p a z ∧ JR z (P + Q) := by
  classical
  refine ⟨_, (g2JacAdd_iff _ _ _).2 ⟨_, _, _, _, e2NotZero_honest p.z, e2NotZero_honest a.z, e2NotEqual_honest _ _,
    e2NotEqual_honest _ _, rfl⟩, ?_⟩
  unfold g2JacPick
  by_cases hP : p.z.val = 0
  · rw [if_neg (by simpa using hP), hp.zero_iff.1 hP, zero_add]
    exact ha
  rw [if_pos (by simpa using hP)]
  by_cases hA : a.z.val = 0
  · rw [if_neg (by simpa using hA), ha.zero_iff.1 hA, add_zero]
    exact hp
  rw [if_pos (by simpa using hA)]
  by_cases hPQ : P = Q
  · have hs := (same_iff hp ha hP hA).1 hPQ
    rw [if_neg (by simpa [hs.1] using hs.2), ← hPQ]
    exact jacDouble_spec hp
  · have hs := hPQ
    rw [same_iff hp ha hP hA, not_and_or] at hs
    rw [if_pos (by simpa [-E2.val_mul, -E2.val_square] using hs)]
    exact general_spec hp ha hP hA hPQ

theorem jacSub_eq (p a : G2Jac Fq) : g2JacSub p a = g2JacAdd p (g2JacNeg a) := rfl

/-! ## The constant scalar -/

/-- The scalar accumulated by the loop of `G2JacobianConstScalarMul`. -/
def scal : ℕ → ℕ → ℕ → ℕ
  | 0, _, m => m
  | k + 1, j, m => scal k (j + 1) (4 * m + if j = 1 then 1 else if j = 3 then 2 else if j = 7 then 1 else if j = 23 then 1 else 0)

theorem scal_value : scal 31 1 3 = 0xd201000000010000 := by decide +kernel

theorem le_scal (k j m : ℕ) : m ≤ scal k j m := by
  induction k generalizing j m with
  | zero => exact le_refl m
  | succ k ih => exact le_trans (by omega) (ih (j + 1) _)

/-- The multiples of `P` up to `N` are not neutral (or all of them are). -/
def Good (N : ℕ) (P : (curve (bTw Fq)).Point) : Prop := P = 0 ∨ NonDeg N P

theorem Good.add {N m n : ℕ} (hg : Good N P) (hm : n < m) (hn : 0 < n) (hN : m ≤ N) (hp : JR p (m • P)) (ha : JR a (n • P))
    (h : g2JacAdd p a z) : JR z ((m + n) • P) := by
  rw [add_smul]
  rcases hg with rfl | hg
  · rw [nsmul_zero] at hp ha
    rw [nsmul_zero, nsmul_zero, add_zero]
    exact jacAdd_zero hp ha h
  · refine jacAdd_generic hp ha h (hg m (by omega) hN) (hg n hn (by omega)) ?_
    intro e
    refine hg (m - n) (by omega) (by omega) ?_
    have : m • P = (m - n) • P + n • P := by rw [← add_smul, Nat.sub_add_cancel hm.le]
    rw [this] at e
    exact add_eq_right.1 e

theorem JR.quad {m : ℕ} (h : JR z (m • P)) : JR (g2JacDouble (g2JacDouble z)) ((4 * m) • P) := by
  have := jacDouble_spec (jacDouble_spec h)
  rw [← add_smul, ← add_smul] at this
  rw [show 4 * m = m + m + (m + m) by ring]
  exact this

theorem JR.two (h : JR z P) : JR (g2JacDouble z) (2 • P) := by
  rw [two_smul]
  exact jacDouble_spec h

theorem scalarLoop_sound {t0 t1 : G2Jac Fq} (h0 : JR t0 P) (h1 : JR t1 (2 • P)) {N : ℕ} (hg : Good N P) (k j m : ℕ) (hm : 1 ≤ m)
    (hN : scal k j m ≤ N) {res : G2Jac Fq} (hr : JR res (m • P)) (h : g2JacScalarLoop t0 t1 k j res z) :
    JR z (scal k j m • P) := by
  induction k generalizing j m res with
  | zero =>
    obtain rfl : z = res := h
    exact hr
  | succ k ih =>
    obtain ⟨res', h', hz⟩ := h
    unfold g2JacScalarStep at h'
    have hq := hr.quad
    have hle := le_trans (le_scal k (j + 1) _) hN
    rw [scal] at hN ⊢
    have h0' : JR t0 (1 • P) := by rwa [one_smul]
    refine ih (j + 1) _ (by omega) hN ?_ hz
    split at h'
    · rename_i hj
      rw [if_pos hj] at hle ⊢
      exact hg.add (by omega) (by omega) (by omega) hq h0' h'
    rename_i hj
    rw [if_neg hj] at hle ⊢
    split at h'
    · rename_i hj
      rw [if_pos hj] at hle ⊢
      exact hg.add (by omega) (by omega) (by omega) hq h1 h'
    rename_i hj
    rw [if_neg hj] at hle ⊢
    split at h'
    · rename_i hj
      rw [if_pos hj] at hle ⊢
      exact hg.add (by omega) (by omega) (by omega) hq h0' h'
    rename_i hj
    rw [if_neg hj] at hle ⊢
    split at h'
    · rename_i hj
      rw [if_pos hj] at hle ⊢
      exact hg.add (by omega) (by omega) (by omega) hq h0' h'
    · rename_i hj
      rw [if_neg hj]
      obtain rfl : res' = _ := h'
      exact hq

theorem scalarLoop_complete {t0 t1 : G2Jac Fq} (h0 : JR t0 P) (h1 : JR t1 (2 • P)) (k j m : ℕ) {res : G2Jac Fq}
    (hr : JR res (m • P)) : ∃ z, g2JacScalarLoop t0 t1 k j res z ∧ JR z (scal k j m • P) := by
  induction k generalizing j m res with
  | zero => exact ⟨res, rfl, hr⟩
  | succ k ih =>
    have hq := hr.quad
    have h0' : JR t0 (1 • P) := by rwa [one_smul]
    obtain ⟨y, hy, hJ⟩ : ∃ y, g2JacScalarStep t0 t1 j (g2JacDouble (g2JacDouble res)) y ∧
        JR y ((4 * m + if j = 1 then 1 else if j = 3 then 2 else if j = 7 then 1 else if j = 23 then 1 else 0) • P) := by
      unfold g2JacScalarStep
      split
      · rw [add_smul]; exact jacAdd_complete hq h0'
      split
      · rw [add_smul]; exact jacAdd_complete hq h1
      split
      · rw [add_smul]; exact jacAdd_complete hq h0'
      split
      · rw [add_smul]; exact jacAdd_complete hq h0'
      · exact ⟨_, rfl, hq⟩
    obtain ⟨z, hz, hJz⟩ := ih (j + 1) _ hJ
    exact ⟨z, ⟨y, hy, hz⟩, hJz⟩

theorem scalarMul_sound (ha : JR a P) (hg : Good 0xd201000000010000 P) (h : g2JacConstScalarMul a z) :
    JR z ((0xd201000000010000 : ℕ) • P) := by
  obtain ⟨res, h1, h2⟩ := h
  have ha' : JR a (1 • P) := by rwa [one_smul]
  have e := hg.add (m := 2) (n := 1) (by omega) (by omega) (by omega) ha.two ha' h1
  have := scalarLoop_sound ha ha.two hg 31 1 (2 + 1) (by omega) (le_of_eq scal_value) e h2
  rwa [show 2 + 1 = 3 from rfl, scal_value] at this

theorem scalarMul_complete (ha : JR a P) : ∃ z, g2JacConstScalarMul a z ∧ JR z ((0xd201000000010000 : ℕ) • P) := by
  obtain ⟨res, h1, e⟩ := jacAdd_complete ha.two ha
  have e' : JR res (3 • P) := by
    have : 3 • P = 2 • P + P := by rw [show 3 = 2 + 1 from rfl, add_smul, one_smul]
    rwa [this]
  obtain ⟨z, h2, hz⟩ := scalarLoop_complete ha ha.two 31 1 3 e'
  rw [scal_value] at hz
  exact ⟨z, ⟨res, h1, h2⟩, hz⟩

end Verif.Bls
