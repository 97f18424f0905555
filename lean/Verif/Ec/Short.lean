import Mathlib.AlgebraicGeometry.EllipticCurve.Affine.Point
import Mathlib.Tactic.LinearCombination

/-! # The curve `y² = x³ + b` and its coordinate systems

The group is Mathlib's group of points of a Weierstrass curve; this file relates affine, Jacobian and homogeneous
coordinates to it. -/

namespace Verif.Ec

variable {k : Type} [Field k] [DecidableEq k]

/-- The curve `y² = x³ + b`. -/
def curve (b : k) : WeierstrassCurve.Affine k := ⟨0, 0, 0, 0, b⟩

variable {b : k}

/-- `(x, y)` are the affine coordinates of `P`. -/
def IsPt (b x y : k) (P : (curve b).Point) : Prop := ∃ h, P = .some x y h

/-- `(X, Y, Z)` are Jacobian coordinates of `P`: `x = X/Z²`, `y = Y/Z³`, and `Z = 0` is the neutral element. -/
def JRep (b X Y Z : k) (P : (curve b).Point) : Prop :=
  (Z = 0 ∧ P = 0) ∨ (Z ≠ 0 ∧ IsPt b (X / Z ^ 2) (Y / Z ^ 3) P)

/-- `(X, Y, Z)` are homogeneous coordinates of the affine point `P`: `x = X/Z`, `y = Y/Z`. -/
def HRep (b X Y Z : k) (P : (curve b).Point) : Prop := Z ≠ 0 ∧ IsPt b (X / Z) (Y / Z) P

theorem nonsingular_iff (h2 : (2 : k) ≠ 0) (h3 : (3 : k) ≠ 0) (hb : b ≠ 0) (x y : k) :
    (curve b).Nonsingular x y ↔ y ^ 2 = x ^ 3 + b := by
  rw [WeierstrassCurve.Affine.nonsingular_iff', WeierstrassCurve.Affine.equation_iff]
  simp only [curve]
  constructor
  · rintro ⟨h, _⟩
    linear_combination h
  · intro h
    refine ⟨by linear_combination h, ?_⟩
    by_contra hc
    push Not at hc
    obtain ⟨hx, hy⟩ := hc
    have hy0 : y = 0 := by
      have : 2 * y = 0 := by linear_combination hy
      exact (mul_eq_zero.1 this).resolve_left h2
    have hx0 : x = 0 := by
      have : 3 * x ^ 2 = 0 := by linear_combination -hx
      exact pow_eq_zero_iff (two_ne_zero) |>.1 ((mul_eq_zero.1 this).resolve_left h3)
    subst hx0 hy0
    apply hb
    linear_combination -h

theorem IsPt.eq {x y : k} {P : (curve b).Point} (h : IsPt b x y P) : y ^ 2 = x ^ 3 + b := by
  obtain ⟨h, _⟩ := h
  have := (WeierstrassCurve.Affine.equation_iff _ _).1 h.1
  simp only [curve] at this
  linear_combination this

theorem isPt_of (h2 : (2 : k) ≠ 0) (h3 : (3 : k) ≠ 0) (hb : b ≠ 0) {x y : k} (h : y ^ 2 = x ^ 3 + b) :
    ∃ P, IsPt b x y P := ⟨.some x y ((nonsingular_iff h2 h3 hb x y).2 h), _, rfl⟩

theorem IsPt.congr {x y x' y' : k} {P : (curve b).Point} (h : IsPt b x y P) (hx : x' = x) (hy : y' = y) :
    IsPt b x' y' P := by rw [hx, hy]; exact h

theorem IsPt.ne_zero {x y : k} {P : (curve b).Point} (h : IsPt b x y P) : P ≠ 0 := by
  obtain ⟨h, rfl⟩ := h
  exact WeierstrassCurve.Affine.Point.some_ne_zero h

theorem IsPt.inj {x y x' y' : k} {P : (curve b).Point} (h : IsPt b x y P) (h' : IsPt b x' y' P) : x = x' ∧ y = y' := by
  obtain ⟨h, rfl⟩ := h
  obtain ⟨h', e⟩ := h'
  cases e
  exact ⟨rfl, rfl⟩

theorem IsPt.unique {x y : k} {P Q : (curve b).Point} (h : IsPt b x y P) (h' : IsPt b x y Q) : P = Q := by
  obtain ⟨h, rfl⟩ := h
  obtain ⟨h', rfl⟩ := h'
  rfl

theorem exists_isPt {P : (curve b).Point} (h : P ≠ 0) : ∃ x y, IsPt b x y P := by
  cases P with
  | zero => exact absurd rfl h
  | some x y h' => exact ⟨x, y, h', rfl⟩

theorem negY_eq (x y : k) : (curve b).negY x y = -y := by
  simp [WeierstrassCurve.Affine.negY, curve]

theorem IsPt.neg {x y : k} {P : (curve b).Point} (h : IsPt b x y P) : IsPt b x (-y) (-P) := by
  obtain ⟨h, rfl⟩ := h
  rw [WeierstrassCurve.Affine.Point.neg_some]
  exact IsPt.congr ⟨_, rfl⟩ rfl (negY_eq x y).symm

/-- Two points with the same abscissa are equal or opposite. -/
theorem IsPt.same_x {x y y' : k} {P Q : (curve b).Point} (h : IsPt b x y P) (h' : IsPt b x y' Q) : Q = P ∨ Q = -P := by
  have : (y' - y) * (y' + y) = 0 := by linear_combination h'.eq - h.eq
  rcases mul_eq_zero.1 this with e | e
  · left
    have : y' = y := by linear_combination e
    subst this
    exact h'.unique h
  · right
    have : y' = -y := by linear_combination e
    subst this
    exact h'.unique h.neg

theorem IsPt.add {x₁ y₁ x₂ y₂ : k} {P Q : (curve b).Point} (h₁ : IsPt b x₁ y₁ P) (h₂ : IsPt b x₂ y₂ Q) (hx : x₁ ≠ x₂)
    {l x y : k} (hl : l = (y₁ - y₂) / (x₁ - x₂)) (hx3 : x = l ^ 2 - x₁ - x₂) (hy3 : y = l * (x₁ - x) - y₁) :
    IsPt b x y (P + Q) := by
  obtain ⟨h₁, rfl⟩ := h₁
  obtain ⟨h₂, rfl⟩ := h₂
  rw [WeierstrassCurve.Affine.Point.add_of_X_ne hx]
  refine IsPt.congr ⟨_, rfl⟩ ?_ ?_
  · rw [WeierstrassCurve.Affine.slope_of_X_ne hx, ← hl, hx3]
    simp only [WeierstrassCurve.Affine.addX, curve]
    ring
  · rw [WeierstrassCurve.Affine.slope_of_X_ne hx, ← hl, hy3, hx3]
    simp only [WeierstrassCurve.Affine.addY, WeierstrassCurve.Affine.negAddY, WeierstrassCurve.Affine.addX,
      WeierstrassCurve.Affine.negY, curve]
    ring

theorem ne_neg_self (h2 : (2 : k) ≠ 0) {y : k} (hy : y ≠ 0) : y ≠ -y := by
  intro h
  have : 2 * y = 0 := by linear_combination h
  exact hy ((mul_eq_zero.1 this).resolve_left h2)

theorem IsPt.double (h2 : (2 : k) ≠ 0) {x₁ y₁ : k} {P : (curve b).Point} (h₁ : IsPt b x₁ y₁ P) (hy : y₁ ≠ 0)
    {l x y : k} (hl : l = 3 * x₁ ^ 2 / (2 * y₁)) (hx3 : x = l ^ 2 - 2 * x₁) (hy3 : y = l * (x₁ - x) - y₁) :
    IsPt b x y (P + P) := by
  obtain ⟨h₁, rfl⟩ := h₁
  have hne : y₁ ≠ (curve b).negY x₁ y₁ := by rw [negY_eq]; exact ne_neg_self h2 hy
  have hs : (curve b).slope x₁ x₁ y₁ y₁ = l := by
    rw [WeierstrassCurve.Affine.slope_of_Y_ne rfl hne, negY_eq, hl]
    simp only [curve]
    congr 1 <;> ring
  rw [WeierstrassCurve.Affine.Point.add_self_of_Y_ne hne]
  refine IsPt.congr ⟨_, rfl⟩ ?_ ?_
  · rw [hs, hx3]
    simp only [WeierstrassCurve.Affine.addX, curve]
    ring
  · rw [hs, hy3, hx3]
    simp only [WeierstrassCurve.Affine.addY, WeierstrassCurve.Affine.negAddY, WeierstrassCurve.Affine.addX,
      WeierstrassCurve.Affine.negY, curve]
    ring

theorem IsPt.double_zero {x : k} {P : (curve b).Point} (h : IsPt b x 0 P) : P + P = 0 := by
  obtain ⟨h, rfl⟩ := h
  exact WeierstrassCurve.Affine.Point.add_self_of_Y_eq (by rw [negY_eq, neg_zero])

theorem IsPt.y_ne (h2 : (2 : k) ≠ 0) {x y : k} {P : (curve b).Point} (h : IsPt b x y P) : P + P ≠ 0 ↔ y ≠ 0 := by
  constructor
  · rintro hn rfl
    exact hn h.double_zero
  · intro hy
    exact (h.double h2 hy rfl rfl rfl).ne_zero

/-! ## Jacobian coordinates -/

theorem JRep.double (h2 : (2 : k) ≠ 0) {X Y Z : k} {P : (curve b).Point} (h : JRep b X Y Z P) {X' Y' Z' : k}
    (hX : X' = 9 * X ^ 4 - 8 * X * Y ^ 2) (hY : Y' = 3 * X ^ 2 * (4 * X * Y ^ 2 - X') - 8 * Y ^ 4) (hZ : Z' = 2 * Y * Z) :
    JRep b X' Y' Z' (P + P) := by
  rcases h with ⟨hz, hp⟩ | ⟨hz, hp⟩
  · left
    exact ⟨by rw [hZ, hz, mul_zero], by rw [hp, add_zero]⟩
  · by_cases hy : Y = 0
    · left
      refine ⟨by rw [hZ, hy]; ring, ?_⟩
      subst hy
      rw [zero_div] at hp
      exact hp.double_zero
    · right
      have hZ' : Z' ≠ 0 := by rw [hZ]; exact mul_ne_zero (mul_ne_zero h2 hy) hz
      refine ⟨hZ', hp.double h2 (div_ne_zero hy (pow_ne_zero _ hz)) (l := 3 * X ^ 2 / (2 * Y * Z)) ?_ ?_ ?_⟩
      · field_simp
      · rw [hX, hZ]
        field_simp
        ring
      · rw [hY, hX, hZ]
        field_simp
        ring

theorem JRep.neg {X Y Z : k} {P : (curve b).Point} (h : JRep b X Y Z P) : JRep b X (-Y) Z (-P) := by
  rcases h with ⟨hz, hp⟩ | ⟨hz, hp⟩
  · exact .inl ⟨hz, by rw [hp, neg_zero]⟩
  · exact .inr ⟨hz, by rw [neg_div]; exact hp.neg⟩

/-- The general addition formula; it is also right for opposite points. -/
theorem JRep.add_general (h2 : (2 : k) ≠ 0) {X₁ Y₁ Z₁ X₂ Y₂ Z₂ : k} {P Q : (curve b).Point}
    (h₁ : JRep b X₁ Y₁ Z₁ P) (h₂ : JRep b X₂ Y₂ Z₂ Q) (n₁ : Z₁ ≠ 0) (n₂ : Z₂ ≠ 0)
    {U₁ U₂ S₁ S₂ H R X Y Z : k} (hU₁ : U₁ = X₁ * Z₂ ^ 2) (hU₂ : U₂ = X₂ * Z₁ ^ 2) (hS₁ : S₁ = Y₁ * Z₂ ^ 3)
    (hS₂ : S₂ = Y₂ * Z₁ ^ 3) (hne : U₁ ≠ U₂ ∨ S₁ ≠ S₂) (hH : H = U₂ - U₁) (hR : R = 2 * (S₂ - S₁))
    (hX : X = R ^ 2 - 4 * H ^ 3 - 2 * (4 * U₁ * H ^ 2)) (hY : Y = R * (4 * U₁ * H ^ 2 - X) - 8 * S₁ * H ^ 3)
    (hZ : Z = 2 * Z₁ * Z₂ * H) : JRep b X Y Z (P + Q) := by
  obtain ⟨z, _⟩ | ⟨_, p₁⟩ := h₁
  · exact absurd z n₁
  obtain ⟨z, _⟩ | ⟨_, p₂⟩ := h₂
  · exact absurd z n₂
  by_cases hu : U₁ = U₂
  · left
    refine ⟨by rw [hZ, hH, hu]; ring, ?_⟩
    have hx : X₂ / Z₂ ^ 2 = X₁ / Z₁ ^ 2 := by
      rw [div_eq_div_iff (pow_ne_zero _ n₂) (pow_ne_zero _ n₁), ← hU₁, ← hU₂, hu]
    rw [hx] at p₂
    rcases p₁.same_x p₂ with e | e
    · exfalso
      rw [e] at p₂
      obtain ⟨_, hy⟩ := p₁.inj p₂
      rw [div_eq_div_iff (pow_ne_zero _ n₁) (pow_ne_zero _ n₂), ← hS₁, ← hS₂] at hy
      exact (hne.resolve_left (not_not_intro hu)) hy
    · rw [e, add_neg_cancel]
  · right
    have hH0 : H ≠ 0 := by rw [hH]; exact sub_ne_zero.2 (Ne.symm hu)
    refine ⟨by rw [hZ]; exact mul_ne_zero (mul_ne_zero (mul_ne_zero h2 n₁) n₂) hH0, ?_⟩
    have hx : X₁ / Z₁ ^ 2 ≠ X₂ / Z₂ ^ 2 := by
      intro e
      rw [div_eq_div_iff (pow_ne_zero _ n₁) (pow_ne_zero _ n₂), ← hU₁, ← hU₂] at e
      exact hu e
    have e1 : Y₁ / Z₁ ^ 3 - Y₂ / Z₂ ^ 3 = (S₁ - S₂) / (Z₁ ^ 3 * Z₂ ^ 3) := by
      rw [hS₁, hS₂]; field_simp
    have e2 : X₁ / Z₁ ^ 2 - X₂ / Z₂ ^ 2 = -H / (Z₁ ^ 2 * Z₂ ^ 2) := by
      rw [hH, hU₁, hU₂]; field_simp; ring
    have x1 : X₁ / Z₁ ^ 2 = U₁ / (Z₁ ^ 2 * Z₂ ^ 2) := by rw [hU₁]; field_simp
    have x2 : X₂ / Z₂ ^ 2 = (U₁ + H) / (Z₁ ^ 2 * Z₂ ^ 2) := by rw [hH, hU₂]; field_simp; ring
    have y1 : Y₁ / Z₁ ^ 3 = S₁ / (Z₁ ^ 3 * Z₂ ^ 3) := by rw [hS₁]; field_simp
    refine p₁.add p₂ hx (l := R / (2 * Z₁ * Z₂ * H)) ?_ ?_ ?_
    · rw [e1, e2, hR]
      field_simp
      ring
    · rw [x1, x2, hX, hZ]
      clear e1 e2 x1 x2 y1 p₁ p₂ hx hX hY hZ hR hne hu hH hU₁ hU₂ hS₁ hS₂
      field_simp
      ring
    · rw [x1, y1, hY, hX, hZ]
      clear e1 e2 x1 x2 y1 p₁ p₂ hx hX hY hZ hR hne hu hH hU₁ hU₂ hS₁ hS₂
      field_simp
      ring

/-! ## Homogeneous coordinates -/

theorem HRep.double (h2 : (2 : k) ≠ 0) {X Y Z : k} {P : (curve b).Point} (h : HRep b X Y Z P) (hy : Y ≠ 0) {X' Y' Z' : k}
    (hX : X' = (Y ^ 2 - 9 * b * Z ^ 2) * (X * Y / 2)) (hY : Y' = ((Y ^ 2 + 9 * b * Z ^ 2) / 2) ^ 2 - 27 * b ^ 2 * Z ^ 4)
    (hZ : Z' = 2 * Y ^ 3 * Z) : HRep b X' Y' Z' (P + P) := by
  obtain ⟨hz, hp⟩ := h
  have hc := hp.eq
  have hcurve : Y ^ 2 * Z = X ^ 3 + b * Z ^ 3 := by
    field_simp at hc
    linear_combination hc
  have hZ' : Z' ≠ 0 := by rw [hZ]; exact mul_ne_zero (mul_ne_zero h2 (pow_ne_zero _ hy)) hz
  refine ⟨hZ', hp.double h2 (div_ne_zero hy hz) (l := 3 * X ^ 2 / (2 * Y * Z)) (by field_simp) ?_ ?_⟩
  · rw [hX, hZ]
    field_simp
    linear_combination (9 * X) * hcurve
  · rw [hY, hX, hZ]
    field_simp
    linear_combination (9 * Y ^ 2 + 27 * b * Z ^ 2) * hcurve

theorem HRep.add_mixed {X Y Z x y : k} {P Q : (curve b).Point} (h : HRep b X Y Z P) (hq : IsPt b x y Q)
    {O L X' Y' Z' : k} (hO : O = Y - y * Z) (hL : L = X - x * Z) (hne : L ≠ 0)
    (hX : X' = L * (L ^ 3 + Z * O ^ 2 - 2 * (X * L ^ 2)))
    (hY : Y' = (X * L ^ 2 - (L ^ 3 + Z * O ^ 2 - 2 * (X * L ^ 2))) * O - Y * L ^ 3)
    (hZ : Z' = L ^ 3 * Z) : HRep b X' Y' Z' (P + Q) := by
  obtain ⟨hz, hp⟩ := h
  have hZ' : Z' ≠ 0 := by rw [hZ]; exact mul_ne_zero (pow_ne_zero _ hne) hz
  have e1 : X / Z - x = L / Z := by rw [hL]; field_simp
  have e2 : Y / Z - y = O / Z := by rw [hO]; field_simp
  have hx : X / Z ≠ x := by
    intro e
    rw [e, sub_self] at e1
    exact div_ne_zero hne hz e1.symm
  have x2 : x = (X - L) / Z := by rw [hL]; field_simp; ring
  refine ⟨hZ', hp.add hq hx (l := O / L) ?_ ?_ ?_⟩
  · rw [e1, e2]; field_simp
  · rw [x2, hX, hZ]
    clear * - hz hne
    field_simp
    ring
  · rw [hY, hX, hZ]
    clear * - hz hne
    field_simp

end Verif.Ec
