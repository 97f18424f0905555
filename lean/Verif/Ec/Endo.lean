import Verif.Ec.Short

/-! # Maps `(x, y) ↦ (u·σ(x), v·σ(y))` of the curve `y² = x³ + b` to itself -/

namespace Verif.Ec

variable {k : Type} [Field k] [DecidableEq k] {b : k}

/-- `v² = u³` and `v²·σ(b) = b`: the map sends the curve to itself. -/
structure EndoOk (b : k) (σ : k →+* k) (u v : k) : Prop where
  vu : v ^ 2 = u ^ 3
  vb : v ^ 2 * σ b = b
  u0 : u ≠ 0
  v0 : v ≠ 0

theorem EndoOk.isPt (h2 : (2 : k) ≠ 0) (h3 : (3 : k) ≠ 0) (hb : b ≠ 0) {σ : k →+* k} {u v : k} (h : EndoOk b σ u v) {x y : k}
    {P : (curve b).Point} (hp : IsPt b x y P) : ∃ P', IsPt b (u * σ x) (v * σ y) P' := by
  refine isPt_of h2 h3 hb ?_
  have e := congrArg σ hp.eq
  rw [map_add, map_pow, map_pow] at e
  linear_combination v ^ 2 * e + σ x ^ 3 * h.vu + h.vb

/-- The map on points (the neutral element goes to itself). -/
noncomputable def endoFun (b : k) (σ : k →+* k) (u v : k) (P : (curve b).Point) : (curve b).Point :=
  open Classical in
  match P with
  | .zero => 0
  | .some x y _ => if h : (curve b).Nonsingular (u * σ x) (v * σ y) then .some _ _ h else 0

theorem endoFun_zero (σ : k →+* k) (u v : k) : endoFun b σ u v 0 = 0 := rfl

theorem EndoOk.isPt_endo (h2 : (2 : k) ≠ 0) (h3 : (3 : k) ≠ 0) (hb : b ≠ 0) {σ : k →+* k} {u v : k} (h : EndoOk b σ u v) {x y : k}
    {P : (curve b).Point} (hp : IsPt b x y P) : IsPt b (u * σ x) (v * σ y) (endoFun b σ u v P) := by
  obtain ⟨P', hP', _⟩ := h.isPt h2 h3 hb hp
  obtain ⟨_, rfl⟩ := hp
  unfold endoFun
  dsimp only
  rw [dif_pos hP']
  exact ⟨_, rfl⟩

/-- The map is additive. -/
theorem EndoOk.map_add (h2 : (2 : k) ≠ 0) (h3 : (3 : k) ≠ 0) (hb : b ≠ 0) {σ : k →+* k} {u v : k} (h : EndoOk b σ u v)
    (P Q : (curve b).Point) : endoFun b σ u v (P + Q) = endoFun b σ u v P + endoFun b σ u v Q := by
  by_cases hP : P = 0
  · rw [hP, endoFun_zero, zero_add, zero_add]
  by_cases hQ : Q = 0
  · rw [hQ, endoFun_zero, add_zero, add_zero]
  obtain ⟨x₁, y₁, p₁⟩ := exists_isPt hP
  obtain ⟨x₂, y₂, p₂⟩ := exists_isPt hQ
  have e₁ := h.isPt_endo h2 h3 hb p₁
  have e₂ := h.isPt_endo h2 h3 hb p₂
  have hu := h.u0
  have hv := h.v0
  have hl : ∀ {s t : k}, v * s / (u * t) = v / u * (s / t) := fun {s t} => by rw [mul_div_mul_comm]
  have hvu : (v / u) ^ 2 = u := by
    rw [div_pow, h.vu]; field_simp
  by_cases hx : x₁ = x₂
  · subst hx
    rcases p₁.same_x p₂ with rfl | rfl
    · obtain ⟨-, rfl⟩ := p₁.inj p₂
      by_cases hy : y₁ = 0
      · subst hy
        rw [p₁.double_zero, endoFun_zero]
        rw [map_zero, mul_zero] at e₁
        rw [e₁.double_zero]
      · have d := p₁.double h2 hy rfl rfl rfl
        have hy' : v * σ y₁ ≠ 0 := mul_ne_zero hv ((map_ne_zero σ).2 hy)
        have d' := h.isPt_endo h2 h3 hb d
        have d'' := e₁.double h2 hy' rfl rfl rfl
        refine d'.unique (d''.congr ?_ ?_)
        · have key : 3 * (u * σ x₁) ^ 2 / (2 * (v * σ y₁)) = v / u * σ (3 * x₁ ^ 2 / (2 * y₁)) := by
            rw [map_div₀, _root_.map_mul, _root_.map_mul, map_pow, map_ofNat, map_ofNat]
            have hs := (map_ne_zero σ).2 hy
            field_simp
            rw [h.vu]
            ring
          rw [key]
          generalize 3 * x₁ ^ 2 / (2 * y₁) = l
          rw [map_sub, map_pow, _root_.map_mul, map_ofNat, mul_pow, hvu]
          ring
        · have key : 3 * (u * σ x₁) ^ 2 / (2 * (v * σ y₁)) = v / u * σ (3 * x₁ ^ 2 / (2 * y₁)) := by
            rw [map_div₀, _root_.map_mul, _root_.map_mul, map_pow, map_ofNat, map_ofNat]
            have hs := (map_ne_zero σ).2 hy
            field_simp
            rw [h.vu]
            ring
          rw [key]
          generalize 3 * x₁ ^ 2 / (2 * y₁) = l
          simp only [map_sub, map_pow, _root_.map_mul, map_ofNat, mul_pow, hvu]
          field_simp
    · have e : endoFun b σ u v (-P) = -endoFun b σ u v P := by
        have e' := h.isPt_endo h2 h3 hb p₁.neg
        rw [map_neg, mul_neg] at e'
        exact e'.unique e₁.neg
      rw [e, add_neg_cancel, add_neg_cancel, endoFun_zero]
  · have d := p₁.add p₂ hx rfl rfl rfl
    have hx' : u * σ x₁ ≠ u * σ x₂ := by
      intro e
      exact hx (σ.injective (mul_left_cancel₀ hu e))
    have d' := h.isPt_endo h2 h3 hb d
    have d'' := e₁.add e₂ hx' rfl rfl rfl
    have key : (v * σ y₁ - v * σ y₂) / (u * σ x₁ - u * σ x₂) = v / u * σ ((y₁ - y₂) / (x₁ - x₂)) := by
      rw [← mul_sub, ← mul_sub, hl, map_div₀, map_sub, map_sub]
    refine d'.unique (d''.congr ?_ ?_)
    · rw [key]
      generalize (y₁ - y₂) / (x₁ - x₂) = l
      simp only [map_sub, map_pow, mul_pow, hvu]
      ring
    · rw [key]
      generalize (y₁ - y₂) / (x₁ - x₂) = l
      simp only [map_sub, map_pow, _root_.map_mul, mul_pow, hvu]
      field_simp

/-- The endomorphism of the group. -/
noncomputable def endo (h2 : (2 : k) ≠ 0) (h3 : (3 : k) ≠ 0) (hb : b ≠ 0) {σ : k →+* k} {u v : k} (h : EndoOk b σ u v) :
    (curve b).Point →+ (curve b).Point where
  toFun := endoFun b σ u v
  map_zero' := rfl
  map_add' := h.map_add h2 h3 hb

/-- In Jacobian coordinates. -/
theorem EndoOk.jrep (h2 : (2 : k) ≠ 0) (h3 : (3 : k) ≠ 0) (hb : b ≠ 0) {σ : k →+* k} {u v : k} (h : EndoOk b σ u v)
    {X Y Z : k} {P : (curve b).Point} (hp : JRep b X Y Z P) : JRep b (u * σ X) (v * σ Y) (σ Z) (endo h2 h3 hb h P) := by
  rcases hp with ⟨hz, rfl⟩ | ⟨hz, hp⟩
  · left
    exact ⟨by rw [hz, map_zero], rfl⟩
  · right
    refine ⟨(map_ne_zero σ).2 hz, (h.isPt_endo h2 h3 hb hp).congr ?_ ?_⟩ <;>
    · rw [map_div₀, map_pow, mul_div_assoc]

end Verif.Ec
