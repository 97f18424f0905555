import Verif.Bls.PairingSpec
import Verif.Bls.TowerProps

/-! # The Miller loop computes Miller's algorithm up to factors of a subgroup -/

namespace Verif.Bls
open Verif.Ec QuadraticAlgebra

set_option linter.unusedSectionVars false

section alg
variable {Ω : Type} [Field Ω] [DecidableEq Ω]

theorem tangent_alg (h2 : (2 : Ω) ≠ 0) {X Y Z w x y : Ω} (hw : w ≠ 0) (hY : Y ≠ 0) (hZ : Z ≠ 0)
    (hc : Y ^ 2 * Z = X ^ 3 + 4 * w ^ 6 * Z ^ 3) :
    (3 * (4 * w ^ 6) * Z ^ 2 - Y ^ 2) + 3 * X ^ 2 * x * w ^ 2 - 2 * Y * Z * y * w ^ 3 =
      (-2 * Y * Z) * w ^ 3 * lineVal (X / Z / w ^ 2) (Y / Z / w ^ 3) (X / Z / w ^ 2) (Y / Z / w ^ 3) x y := by
  have hy : Y / Z / w ^ 3 ≠ 0 := div_ne_zero (div_ne_zero hY hZ) (pow_ne_zero _ hw)
  have hs : (curve (4 : Ω)).slope (X / Z / w ^ 2) (X / Z / w ^ 2) (Y / Z / w ^ 3) (Y / Z / w ^ 3) =
      3 * X ^ 2 / (2 * Y * Z * w) := by
    rw [WeierstrassCurve.Affine.slope_of_Y_ne rfl (by rw [negY_eq]; exact ne_neg_self h2 hy), negY_eq]
    simp only [curve]
    have e : Y / Z / w ^ 3 - -(Y / Z / w ^ 3) = 2 * (Y / Z / w ^ 3) := by ring
    rw [e]
    field_simp
    ring
  unfold lineVal
  rw [hs]
  field_simp
  linear_combination (-3 : Ω) * hc

theorem chord_alg {X Y Z x₂ y₂ w x y : Ω} (hw : w ≠ 0) (hZ : Z ≠ 0) {O L : Ω} (hO : O = Y - y₂ * Z) (hL : L = X - x₂ * Z)
    (hne : L ≠ 0) :
    (x₂ * O - L * y₂) + (-O) * x * w ^ 2 + L * y * w ^ 3 =
      L * w ^ 3 * lineVal (X / Z / w ^ 2) (Y / Z / w ^ 3) (x₂ / w ^ 2) (y₂ / w ^ 3) x y := by
  have e1 : X / Z / w ^ 2 - x₂ / w ^ 2 = L / (Z * w ^ 2) := by rw [hL]; field_simp
  have e2 : Y / Z / w ^ 3 - y₂ / w ^ 3 = O / (Z * w ^ 3) := by rw [hO]; field_simp
  have hx : X / Z / w ^ 2 ≠ x₂ / w ^ 2 := by
    rw [← sub_ne_zero, e1]
    exact div_ne_zero hne (mul_ne_zero hZ (pow_ne_zero _ hw))
  have hs : (curve (4 : Ω)).slope (X / Z / w ^ 2) (x₂ / w ^ 2) (Y / Z / w ^ 3) (y₂ / w ^ 3) = O / (L * w) := by
    rw [WeierstrassCurve.Affine.slope_of_X_ne hx, e1, e2]
    field_simp
  unfold lineVal
  rw [hs]
  have hX : X = L + x₂ * Z := by rw [hL]; ring
  have hY : Y = O + y₂ * Z := by rw [hO]; ring
  rw [hX, hY]
  clear * - hw hZ hne
  field_simp
  ring

end alg

section gen
variable {K : Type} [Field K] [DecidableEq K] [Fact (∀ r : K, r ^ 2 ≠ (-1 : K) + 0 * r)]
variable {Ω : Type} [Field Ω] [DecidableEq Ω] [Algebra (Fq2 K) Ω] {w : Ω}

local notation "ι" => algebraMap (Fq2 K) Ω

/-- The coordinate of a point of the base curve, in the large field. -/
def inj (Ω : Type) [Field Ω] [Algebra (Fq2 K) Ω] (a : K) : Ω := algebraMap (Fq2 K) Ω (algebraMap K (Fq2 K) a)

theorem xOf_isPt {b x y : Fq2 K} {P : (curve b).Point} (h : IsPt b x y P) : xOf P = x ∧ yOf P = y := by
  obtain ⟨h, rfl⟩ := h
  exact ⟨rfl, rfl⟩

theorem val_smul (c : K) (x : E2 K) : (E2.mulByElement x c).val = algebraMap K (Fq2 K) c * x.val := by
  rw [E2.val_mulByElement, Algebra.smul_def]

theorem E2.val_halve (h2 : (2 : K) ≠ 0) (x : E2 K) : ∃ z, E2.halve x = some z ∧ z.val = x.val / 2 := by
  refine ⟨⟨x.a0 / 2, x.a1 / 2⟩, ?_, ?_⟩
  · unfold E2.halve fpDiv
    simp only [one_mul, h2, if_false]
    rfl
  · have h2' : (2 : Fq2 K) ≠ 0 := by
      intro h
      have := congrArg QuadraticAlgebra.re h
      simp at this
      exact h2 this
    rw [eq_div_iff h2']
    have e : (2 : Fq2 K) = algebraMap K (Fq2 K) 2 := (map_ofNat _ 2).symm
    rw [e]
    ext <;> simp [E2.val, algebraMap_re, algebraMap_im, div_mul_cancel₀, h2]

/-- The twist. -/
abbrev bTw (K : Type) [Field K] : Fq2 K := 4 * ξ

/-- Homogeneous coordinates of a point of the twist. -/
def Rep (T : G2Projective K) (P : (curve (bTw K)).Point) : Prop := HRep (bTw K) T.x.val T.y.val T.z.val P

/-- The value of a line of the circuit at a point of the base curve. -/
def LineEvaluation.at (w : Ω) (l : LineEvaluation K) (p : G1Affine K) : Ω :=
  ι l.r0.val + ι (E2.mulByElement l.r1 p.x).val * w ^ 2 + ι (E2.mulByElement l.r2 p.y).val * w ^ 3

theorem two_fq2 (h2 : (2 : K) ≠ 0) : (2 : Fq2 K) ≠ 0 := by
  intro h
  have := congrArg QuadraticAlgebra.re h
  simp at this
  exact h2 this

theorem gen_ne_zero (h2 : (2 : K) ≠ 0) (hw : IsGen K w) : w ≠ 0 := by
  rintro rfl
  unfold IsGen at hw
  rw [zero_pow (by norm_num), eq_comm, map_eq_zero] at hw
  have := congrArg QuadraticAlgebra.re hw
  simp [ξ] at this

theorem iota_b (hw : IsGen K w) : ι (bTw K) = 4 * w ^ 6 := by
  rw [map_mul, ← hw, map_ofNat]

theorem doubleStep_spec (h2 : (2 : K) ≠ 0) (hw : IsGen K w) {T : G2Projective K} {P : (curve (bTw K)).Point} (hT : Rep T P)
    (hP : P + P ≠ 0) :
    ∃ T' l, doubleStep T = some (T', l) ∧ Rep T' (P + P) ∧
      ∃ c : Fq2 K, c ≠ 0 ∧ ∀ p, l.at w p = ι c * w ^ 3 * twLine ι w P P (inj Ω p.x) (inj Ω p.y) := by
  obtain ⟨A, hA, vA⟩ := E2.val_halve h2 (E2.mul T.x T.y)
  set B := E2.square T.y with hB
  set C := E2.square T.z with hC
  set E := E2.mulBybTwistCurveCoeff (E2.add (E2.double C) C) with hE
  set F := E2.add (E2.double E) E with hF
  obtain ⟨G, hG, vG⟩ := E2.val_halve h2 (E2.add B F)
  set H := E2.sub (E2.square (E2.add T.y T.z)) (E2.add B C) with hH
  have vE : E.val = 3 * T.z.val ^ 2 * bTw K := by
    simp only [hE, hC, E2.val_mulBybTwistCurveCoeff, E2.val_add, E2.val_double, E2.val_square]; ring
  have vH : H.val = 2 * T.y.val * T.z.val := by
    simp only [hH, hB, hC, E2.val_sub, E2.val_add, E2.val_square]; ring
  have vF : F.val = 9 * T.z.val ^ 2 * bTw K := by
    simp only [hF, E2.val_add, E2.val_double, vE]; ring
  have vB : B.val = T.y.val ^ 2 := by rw [hB, E2.val_square]; ring
  have h2' := two_fq2 h2
  have hZ := hT.1
  have hy : T.y.val ≠ 0 := by
    intro h
    exact (hT.2.y_ne h2').1 hP (by rw [h, zero_div])
  refine ⟨⟨E2.mul (E2.sub B F) A, E2.sub (E2.square G) (E2.add (E2.double (E2.square E)) (E2.square E)), E2.mul B H⟩,
    ⟨E2.sub E B, E2.add (E2.double (E2.square T.x)) (E2.square T.x), E2.neg H⟩, ?_, ?_, -2 * T.y.val * T.z.val, ?_, ?_⟩
  · unfold doubleStep
    simp only [hA, ← hB, ← hC, ← hE, ← hF, hG, ← hH]
    rfl
  · refine HRep.double h2' hT hy ?_ ?_ ?_
    · simp only [E2.val_mul, E2.val_sub, vA, vB, vF, E2.val_mul]; ring
    · simp only [E2.val_square, E2.val_sub, vG, vB, vF, E2.val_add, E2.val_double, vE]; ring
    · simp only [E2.val_mul, vB, vH]; ring
  · exact mul_ne_zero (mul_ne_zero (neg_ne_zero.2 h2') hy) hZ
  · intro p
    have hc := hT.2.eq
    have hcurve : T.y.val ^ 2 * T.z.val = T.x.val ^ 3 + bTw K * T.z.val ^ 3 := by
      field_simp at hc
      linear_combination hc
    have hcΩ : (ι T.y.val) ^ 2 * ι T.z.val = (ι T.x.val) ^ 3 + 4 * w ^ 6 * (ι T.z.val) ^ 3 := by
      rw [← iota_b hw, ← map_pow, ← map_pow, ← map_pow, ← map_mul, ← map_mul, ← map_add, hcurve]
    have h2Ω : (2 : Ω) ≠ 0 := by
      rw [← map_ofNat ι 2]
      exact (map_ne_zero _).2 h2'
    have key := tangent_alg h2Ω (gen_ne_zero h2 hw) ((map_ne_zero _).2 hy) ((map_ne_zero _).2 hZ) hcΩ (x := inj Ω p.x)
      (y := inj Ω p.y)
    obtain ⟨ex, ey⟩ := xOf_isPt hT.2
    unfold twLine
    rw [ex, ey, map_div₀, map_div₀]
    have : ι (-2 * T.y.val * T.z.val) = -2 * ι T.y.val * ι T.z.val := by
      rw [map_mul, map_mul, map_neg, map_ofNat]
    rw [this, ← key]
    unfold LineEvaluation.at
    simp only [val_smul, E2.val_sub, E2.val_neg, E2.val_add, E2.val_double, E2.val_square, vH, vE, vB, map_mul, map_neg, map_sub,
      map_add, map_pow, map_ofNat, inj]
    have hb := hw
    unfold IsGen at hb
    rw [← hb]
    ring

theorem addStep_spec (h2 : (2 : K) ≠ 0) (hw : IsGen K w) {T : G2Projective K} {q : G2Affine K} {P Q : (curve (bTw K)).Point}
    (hT : Rep T P) (hq : IsPt (bTw K) q.x.val q.y.val Q) (h1 : P ≠ Q) (h1' : P ≠ -Q) :
    Rep (addStep T q).1 (P + Q) ∧
      ∃ c : Fq2 K, c ≠ 0 ∧ ∀ p, (addStep T q).2.at w p = ι c * w ^ 3 * twLine ι w P Q (inj Ω p.x) (inj Ω p.y) := by
  have hZ := hT.1
  have hne : T.x.val - q.x.val * T.z.val ≠ 0 := by
    intro h
    have hx : T.x.val / T.z.val = q.x.val := by
      rw [div_eq_iff hZ]
      linear_combination h
    have hT' := hT.2
    rw [hx] at hT'
    rcases hq.same_x hT' with e | e
    · exact h1 e
    · exact h1' e
  refine ⟨?_, T.x.val - q.x.val * T.z.val, hne, ?_⟩
  · refine HRep.add_mixed hT hq rfl rfl hne ?_ ?_ ?_ <;>
    · simp only [addStep, E2.val_mul, E2.val_sub, E2.val_add, E2.val_double, E2.val_square]; ring
  · intro p
    have key := chord_alg (gen_ne_zero h2 hw) ((map_ne_zero ι).2 hZ) (X := ι T.x.val) (Y := ι T.y.val) (x₂ := ι q.x.val)
      (y₂ := ι q.y.val) (x := inj Ω p.x) (y := inj Ω p.y) rfl rfl
      (by rw [← map_mul, ← map_sub]; exact (map_ne_zero ι).2 hne)
    obtain ⟨ex, ey⟩ := xOf_isPt hT.2
    obtain ⟨ex', ey'⟩ := xOf_isPt hq
    unfold twLine
    rw [ex, ey, ex', ey', map_div₀, map_div₀]
    rw [map_sub, map_mul, ← key]
    unfold LineEvaluation.at
    simp only [addStep, val_smul, E2.val_sub, E2.val_neg, E2.val_mul, map_mul, map_neg, map_sub, inj]
    ring

/-- One pair of the input with the point of the twist its second half denotes. -/
structure Pr (K : Type) [Field K] [DecidableEq K] [Fact (∀ r : K, r ^ 2 ≠ (-1 : K) + 0 * r)] where
  p : G1Affine K
  q : G2Affine K
  Q : (curve (bTw K)).Point

/-- A multiplicative set of factors that do not matter. -/
structure Negl (w : Ω) (S : Ω → Prop) : Prop where
  mul : ∀ a b, S a → S b → S (a * b)
  inv : ∀ a, S a → S a⁻¹
  iota : ∀ c : Fq2 K, c ≠ 0 → S (ι c)
  gen : S w
  vert : ∀ (R : (curve (bTw K)).Point) (x : K), R ≠ 0 → S (twVert ι w R (inj Ω x))
  ne : ∀ a, S a → a ≠ 0

/-- The factor by which one step of Miller's algorithm multiplies the square of its accumulator. -/
def stepF (w : Ω) (m : ℕ) (bit : Bool) (d : Pr K) : Ω :=
  (twLine ι w (m • d.Q) (m • d.Q) (inj Ω d.p.x) (inj Ω d.p.y) / twVert ι w ((2 * m) • d.Q) (inj Ω d.p.x)) *
  (if bit then twLine ι w ((2 * m) • d.Q) d.Q (inj Ω d.p.x) (inj Ω d.p.y) / twVert ι w ((2 * m + 1) • d.Q) (inj Ω d.p.x)
    else 1)

theorem stepF_spec (w : Ω) (d : Pr K) (m : ℕ) (f : Ω) (bit : Bool) :
    millerStep ι w d.Q (inj Ω d.p.x) (inj Ω d.p.y) (m, f) bit =
      (2 * m + bit.toNat, f * f * stepF w m bit d) := by
  cases bit <;> simp [millerStep, stepF, mul_assoc]

/-- The multiples of `Q` up to `N` are not neutral. -/
def NonDeg (N : ℕ) (Q : (curve (bTw K)).Point) : Prop := ∀ j, 0 < j → j ≤ N → j • Q ≠ 0

theorem dbl_case (h2 : (2 : K) ≠ 0) (hw : IsGen K w) {S : Ω → Prop} (hS : Negl (K := K) w S) {d : Pr K} {N m : ℕ}
    (hN : NonDeg N d.Q) (hm : 1 ≤ m) (hle : 2 * m ≤ N) {T : G2Projective K} (hT : Rep T (m • d.Q)) :
    ∃ T' l, doubleStep T = some (T', l) ∧ Rep T' ((2 * m) • d.Q) ∧ ∃ c, S c ∧ l.at w d.p = c * stepF w m false d := by
  have e : m • d.Q + m • d.Q = (2 * m) • d.Q := by rw [two_mul, add_smul]
  have hne := hN (2 * m) (by omega) hle
  obtain ⟨T', l, h, hT', c, hc, hl⟩ := doubleStep_spec h2 hw hT (by rw [e]; exact hne)
  rw [e] at hT'
  have hv := hS.vert ((2 * m) • d.Q) d.p.x hne
  have hg3 : S (w ^ 3) := by
    rw [pow_succ, pow_two]; exact hS.mul _ _ (hS.mul _ _ hS.gen hS.gen) hS.gen
  refine ⟨T', l, h, hT', ι c * w ^ 3 * twVert ι w ((2 * m) • d.Q) (inj Ω d.p.x),
    hS.mul _ _ (hS.mul _ _ (hS.iota c hc) hg3) hv, ?_⟩
  rw [hl]
  have := hS.ne _ hv
  simp only [stepF, Bool.false_eq_true, if_false, mul_one]
  field_simp

theorem add_case (h2 : (2 : K) ≠ 0) (hw : IsGen K w) {S : Ω → Prop} (hS : Negl (K := K) w S) {d : Pr K}
    (hq : IsPt (bTw K) d.q.x.val d.q.y.val d.Q) {N m : ℕ}
    (hN : NonDeg N d.Q) (hm : 1 ≤ m) (hle : 2 * m + 1 ≤ N) {T : G2Projective K} (hT : Rep T ((2 * m) • d.Q)) :
    Rep (addStep T d.q).1 ((2 * m + 1) • d.Q) ∧
    ∃ c, S c ∧ stepF w m false d * (addStep T d.q).2.at w d.p = c * stepF w m true d := by
  have e : (2 * m) • d.Q + d.Q = (2 * m + 1) • d.Q := by rw [add_smul, one_smul]
  have hne := hN (2 * m + 1) (by omega) hle
  have n1 : (2 * m) • d.Q ≠ d.Q := by
    intro h
    refine hN (2 * m - 1) (by omega) (by omega) ?_
    have : (2 * m) • d.Q = (2 * m - 1) • d.Q + d.Q := by
      conv_lhs => rw [show 2 * m = (2 * m - 1) + 1 by omega, add_smul, one_smul]
    rw [this] at h
    exact left_eq_add.1 (by rw [add_comm] at h; exact h.symm)
  have n2 : (2 * m) • d.Q ≠ -d.Q := by
    intro h
    rw [← e, h, neg_add_cancel] at hne
    exact hne rfl
  obtain ⟨hT', c, hc, hl⟩ := addStep_spec h2 hw hT hq n1 n2
  rw [e] at hT'
  have hv := hS.vert ((2 * m + 1) • d.Q) d.p.x hne
  have hg3 : S (w ^ 3) := by
    rw [pow_succ, pow_two]; exact hS.mul _ _ (hS.mul _ _ hS.gen hS.gen) hS.gen
  refine ⟨hT', ι c * w ^ 3 * twVert ι w ((2 * m + 1) • d.Q) (inj Ω d.p.x),
    hS.mul _ _ (hS.mul _ _ (hS.iota c hc) hg3) hv, ?_⟩
  rw [hl]
  have := hS.ne _ hv
  simp only [stepF, Bool.false_eq_true, if_false, mul_one, if_true]
  field_simp

/-- The hypotheses on the input of the loop. -/
structure Input (D : List (Pr K)) (N : ℕ) : Prop where
  pt : ∀ d ∈ D, IsPt (bTw K) d.q.x.val d.q.y.val d.Q
  nd : ∀ d ∈ D, NonDeg N d.Q

theorem Input.tail {d : Pr K} {D : List (Pr K)} {N : ℕ} (h : Input (d :: D) N) : Input D N :=
  ⟨fun e he => h.pt e (List.mem_cons_of_mem _ he), fun e he => h.nd e (List.mem_cons_of_mem _ he)⟩

theorem S_one {S : Ω → Prop} (hS : Negl (K := K) w S) : S 1 := by
  have := hS.iota 1 one_ne_zero
  rwa [map_one] at this

theorem millerBody_spec (h2 : (2 : K) ≠ 0) (hw : IsGen K w) {S : Ω → Prop} (hS : Negl (K := K) w S) {N m : ℕ} (hm : 1 ≤ m)
    (bit : Bool) (hle : 2 * m + bit.toNat ≤ N) (D : List (Pr K)) (hD : Input D N) (Ts : List (G2Projective K))
    (hT : List.Forall₂ (fun d T => Rep T (m • d.Q)) D Ts) (res : E12 K) :
    ∃ Ts' res', millerBody bit.toNat (D.map Pr.p) (D.map Pr.q) Ts res = some (Ts', res') ∧
      List.Forall₂ (fun d T => Rep T ((2 * m + bit.toNat) • d.Q)) D Ts' ∧
      ∃ c, S c ∧ res'.val w = c * (res.val w * (D.map (stepF w m bit)).prod) := by
  induction hT generalizing res with
  | nil => exact ⟨[], res, rfl, .nil, 1, S_one hS, by simp⟩
  | @cons d T D Ts h1 h2' ih =>
    have hd := hD.pt d List.mem_cons_self
    have hn := hD.nd d List.mem_cons_self
    obtain ⟨T', l, hst, hT', c, hc, hl⟩ := dbl_case h2 hw hS hn hm (by omega) h1
    cases bit with
    | false =>
      obtain ⟨Ts', res', hb, hr, c', hc', hv⟩ := ih hD.tail (E12.mulBy014 res l.r0 (E2.mulByElement l.r1 d.p.x)
        (E2.mulByElement l.r2 d.p.y))
      refine ⟨T' :: Ts', res', ?_, .cons hT' hr, c' * c, hS.mul _ _ hc' hc, ?_⟩
      · simp only [Bool.toNat_false] at hb
        simp only [List.map_cons, millerBody, hst, Bool.toNat_false, if_true]
        simp [hb]
      · rw [hv, E12.val_mulBy014 hw]
        have : algebraMap (Fq2 K) Ω l.r0.val + algebraMap (Fq2 K) Ω (E2.mulByElement l.r1 d.p.x).val * w ^ 2 +
            algebraMap (Fq2 K) Ω (E2.mulByElement l.r2 d.p.y).val * w ^ 3 = l.at w d.p := rfl
        rw [this, hl, List.map_cons, List.prod_cons]
        ring
    | true =>
      obtain ⟨hT'', c2, hc2, hl2⟩ := add_case h2 hw hS hd hn hm hle hT'
      set T2 := (addStep T' d.q).1 with hT2
      set l2 := (addStep T' d.q).2 with hl2'
      obtain ⟨Ts', res', hb, hr, c', hc', hv⟩ := ih hD.tail (E12.mul res (E12.mul014By014 l.r0
        (E2.mulByElement l.r1 d.p.x) (E2.mulByElement l.r2 d.p.y) l2.r0 (E2.mulByElement l2.r1 d.p.x)
        (E2.mulByElement l2.r2 d.p.y)))
      refine ⟨T2 :: Ts', res', ?_, .cons hT'' hr, c' * (c * c2), hS.mul _ _ hc' (hS.mul _ _ hc hc2), ?_⟩
      · simp only [Bool.toNat_true] at hb
        simp only [List.map_cons, millerBody, hst, Bool.toNat_true, one_ne_zero, if_false]
        simp [← hT2, ← hl2', hb]
      · rw [hv, E12.val_mul hw, E12.val_mul014By014 hw]
        have e1 : algebraMap (Fq2 K) Ω l.r0.val + algebraMap (Fq2 K) Ω (E2.mulByElement l.r1 d.p.x).val * w ^ 2 +
            algebraMap (Fq2 K) Ω (E2.mulByElement l.r2 d.p.y).val * w ^ 3 = l.at w d.p := rfl
        have e2 : algebraMap (Fq2 K) Ω l2.r0.val + algebraMap (Fq2 K) Ω (E2.mulByElement l2.r1 d.p.x).val * w ^ 2 +
            algebraMap (Fq2 K) Ω (E2.mulByElement l2.r2 d.p.y).val * w ^ 3 = l2.at w d.p := rfl
        rw [e1, e2, hl, List.map_cons, List.prod_cons]
        linear_combination (c' * res.val w * c * (D.map (stepF w m true)).prod) * hl2

/-- The first round is the general round with a set bit. -/
theorem millerFirst_eq (ps : List (G1Affine K)) (qs : List (G2Affine K)) (Ts : List (G2Projective K)) (res : E12 K) :
    millerFirst ps qs Ts res = millerBody 1 ps qs Ts res := by
  induction ps generalizing qs Ts res with
  | nil => simp [millerFirst, millerBody]
  | cons p ps ih =>
    cases qs with
    | nil => simp [millerFirst, millerBody]
    | cons q qs =>
      cases Ts with
      | nil => simp [millerFirst, millerBody]
      | cons T Ts => simp [millerFirst, millerBody, ih]

theorem prod_sq_mul (D : List (Pr K)) (f g : Pr K → Ω) :
    (D.map f).prod * (D.map f).prod * (D.map g).prod = (D.map fun d => f d * f d * g d).prod := by
  induction D with
  | nil => simp
  | cons d D ih => simp only [List.map_cons, List.prod_cons, ← ih]; ring

/-- The state of Miller's algorithm after some digits. -/
def millerS (w : Ω) (d : Pr K) (bits : List Bool) (s : ℕ × Ω) : ℕ × Ω :=
  bits.foldl (millerStep ι w d.Q (inj Ω d.p.x) (inj Ω d.p.y)) s

theorem millerRest_spec (h2 : (2 : K) ≠ 0) (hw : IsGen K w) {S : Ω → Prop} (hS : Negl (K := K) w S) {N : ℕ} (D : List (Pr K))
    (hD : Input D N) (bits : List Bool) (m : ℕ) (hm : 1 ≤ m) (hle : bits.foldl (fun m b => 2 * m + b.toNat) m ≤ N)
    (Ts : List (G2Projective K)) (hT : List.Forall₂ (fun d T => Rep T (m • d.Q)) D Ts) (res : E12 K) (f : Pr K → Ω) (c : Ω)
    (hc : S c) (hr : res.val w = c * (D.map f).prod) :
    ∃ Ts' res', millerRest (D.map Pr.p) (D.map Pr.q) (bits.map Bool.toNat) Ts res = some (Ts', res') ∧
      ∃ c, S c ∧ res'.val w = c * (D.map fun d => (millerS w d bits (m, f d)).2).prod := by
  induction bits generalizing m Ts res f c with
  | nil => exact ⟨Ts, res, rfl, c, hc, hr⟩
  | cons b bits ih =>
    have hmono : ∀ (l : List Bool) (m : ℕ), m ≤ l.foldl (fun m b => 2 * m + b.toNat) m := by
      intro l
      induction l with
      | nil => intro m; exact le_refl _
      | cons b l ih => intro m; exact le_trans (by omega) (ih (2 * m + b.toNat))
    have hle' : 2 * m + b.toNat ≤ N := le_trans (hmono bits _) hle
    obtain ⟨Ts', res', hb, hT', c', hc', hv⟩ := millerBody_spec h2 hw hS hm b hle' D hD Ts hT (E12.square res)
    rw [E12.val_square hw, hr] at hv
    have hv' : res'.val w = (c' * (c * c)) * (D.map fun d => f d * f d * stepF w m b d).prod := by
      rw [← prod_sq_mul, hv]; ring
    obtain ⟨Ts'', res'', hb', c'', hc'', hv''⟩ := ih (2 * m + b.toNat) (by omega) hle Ts' hT' res' _ _
      (hS.mul _ _ hc' (hS.mul _ _ hc hc)) hv'
    refine ⟨Ts'', res'', ?_, c'', hc'', ?_⟩
    · simp only [List.map_cons, millerRest, hb]
      exact hb'
    · rw [hv'']
      have e : ∀ d, millerS w d bits (2 * m + b.toNat, f d * f d * stepF w m b d) = millerS w d (b :: bits) (m, f d) := by
        intro d
        rw [← stepF_spec]
        rfl
      simp only [e]

/-- The digits of the loop counter below the leading one, most significant first. -/
def counterBits : List Bool := (loopCounter.take 63).reverse.map (· == 1)

theorem counterBits_eq : counterBits = (0xd201000000010000 : ℕ).bits.reverse.tail := by decide +kernel

theorem counter_split : counterBits = true :: ((loopCounter.take (loopCounter.length - 2)).reverse.map (· == 1)) ∧
    ((loopCounter.take (loopCounter.length - 2)).reverse.map (· == 1)).map Bool.toNat =
      (loopCounter.take (loopCounter.length - 2)).reverse ∧
    counterBits.foldl (fun m b => 2 * m + b.toNat) 1 = 0xd201000000010000 := by
  refine ⟨?_, ?_, ?_⟩ <;> decide +kernel

theorem affine_rep (d : Pr K) (h : IsPt (bTw K) d.q.x.val d.q.y.val d.Q) : Rep (affineToProjective d.q) (1 • d.Q) := by
  rw [one_smul]
  unfold Rep HRep affineToProjective
  rw [E2.val_one]
  exact ⟨one_ne_zero, h.congr (div_one _) (div_one _)⟩

theorem val_one12 (w : Ω) : (E12.one : E12 K).val w = 1 := by
  have o : (E12.one : E12 K) = ⟨⟨E2.one, E2.zero, E2.zero⟩, ⟨E2.zero, E2.zero, E2.zero⟩⟩ := rfl
  rw [o]
  simp only [E12.val, E6.val, E2.val_one, E2.val_zero, map_one, map_zero, zero_mul, add_zero]

theorem millerLoop_aux (h2 : (2 : K) ≠ 0) (hw : IsGen K w) {S : Ω → Prop} (hS : Negl (K := K) w S) (D : List (Pr K))
    (hne : D ≠ []) (N : ℕ) (hle : 2 * 1 + true.toNat ≤ N) (hNb : counterBits = N.bits.reverse.tail)
    (cs3 : counterBits.foldl (fun m b => 2 * m + b.toNat) 1 = N) (hD : Input D N) :
    ∃ res : E12 K, millerLoop (D.map Pr.p) (D.map Pr.q) = some (E12.conjugate res) ∧
      ∃ c, S c ∧ res.val w = c * (D.map fun d => millerF ι w d.Q N (inj Ω d.p.x) (inj Ω d.p.y)).prod := by
  obtain ⟨bits, cs1, cs2⟩ : ∃ bits, counterBits = true :: bits ∧
      bits.map Bool.toNat = (loopCounter.take (loopCounter.length - 2)).reverse := ⟨_, counter_split.1, counter_split.2.1⟩
  have hT0 : List.Forall₂ (fun d T => Rep T (1 • d.Q)) D ((D.map Pr.q).map affineToProjective) := by
    clear hne
    induction D with
    | nil => exact .nil
    | cons d D ih => exact .cons (affine_rep d (hD.pt d List.mem_cons_self)) (ih hD.tail)
  obtain ⟨Ts1, res1, hb1, hT1, c1, hc1, hv1⟩ := millerBody_spec h2 hw hS (le_refl 1) true hle D hD _ hT0 E12.one
  rw [val_one12, one_mul] at hv1
  rw [cs1, List.foldl_cons] at cs3
  obtain ⟨Ts2, res2, hb2, c2, hc2, hv2⟩ := millerRest_spec h2 hw hS D hD bits (2 * 1 + true.toNat) (by omega)
    (le_of_eq cs3) Ts1 hT1 res1 _ c1 hc1 hv1
  refine ⟨res2, ?_, c2, hc2, ?_⟩
  · unfold millerLoop
    have hl : ¬((D.map Pr.p).length = 0 ∨ (D.map Pr.p).length ≠ (D.map Pr.q).length) := by
      simp [hne]
    rw [cs2] at hb2
    simp only [Bool.toNat_true] at hb1
    simp only [hl, if_false, millerFirst_eq, hb1]
    simp [hb2]
  · rw [hv2]
    have e : ∀ d : Pr K, (millerS w d bits (2 * 1 + true.toNat, stepF w 1 true d)).2 =
        millerF ι w d.Q N (inj Ω d.p.x) (inj Ω d.p.y) := by
      intro d
      unfold millerF
      rw [← hNb, cs1]
      have := stepF_spec w d 1 1 true
      rw [one_mul, one_mul] at this
      rw [List.foldl_cons, this]
      rfl
    simp only [e]

/-- The Miller loop, up to negligible factors. -/
theorem millerLoop_spec (h2 : (2 : K) ≠ 0) (hw : IsGen K w) {S : Ω → Prop} (hS : Negl (K := K) w S) (D : List (Pr K))
    (hne : D ≠ []) (hD : Input D 0xd201000000010000) :
    ∃ res : E12 K, millerLoop (D.map Pr.p) (D.map Pr.q) = some (E12.conjugate res) ∧
      ∃ c, S c ∧ res.val w = c * (D.map fun d => millerF ι w d.Q 0xd201000000010000 (inj Ω d.p.x) (inj Ω d.p.y)).prod :=
  millerLoop_aux h2 hw hS D hne _ (by decide) counterBits_eq counter_split.2.2 hD

end gen

end Verif.Bls
