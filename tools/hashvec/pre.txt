/-! ## The map to the curve -/

/-- The value of `den`. -/
def denN (u : E2 Fq) : E2 Fq := E2.add (E2.mul (E2.square cZ) (E2.square (E2.square u))) (E2.mul cZ (E2.square u))

def gN (x : E2 Fq) : E2 Fq := E2.add (E2.add (E2.mul (E2.square x) x) (E2.mul cA x)) cB

/-- What is checked if the first candidate `w` is taken. -/
def check (u w x y : E2 Fq) (R : G2Affine Fq) : Bool :=
  decide (denN u ≠ E2.zero ∧ E2.mul w (E2.mul cA (denN u)) = E2.neg (E2.mul cB (E2.add (denN u) E2.one)) ∧ x = w ∧
    E2.square y = gN x ∧ sgn0 y.val = sgn0 u.val ∧ g2Isogeny ⟨x, y⟩ = some R)

/-- What is checked if the second candidate is taken. -/
def checkN (u w x y : E2 Fq) (R : G2Affine Fq) : Bool :=
  decide (denN u ≠ E2.zero ∧ E2.mul w (E2.mul cA (denN u)) = E2.neg (E2.mul cB (E2.add (denN u) E2.one)) ∧
    x = E2.mul (E2.mul cZ (E2.square u)) w ∧
    E2.square y = gN x ∧ sgn0 y.val = sgn0 u.val ∧ g2Isogeny ⟨x, y⟩ = some R)

section
attribute [local irreducible] q r

theorem denN_val (u : E2 Fq) : (denN u).val = den u.val := by
  unfold denN den
  rw [E2.val_add, E2.val_mul, E2.val_mul, E2.val_square, E2.val_square, E2.val_square, cZ_val]
  ring

theorem gN_val (x : E2 Fq) : (gN x).val = g x.val := by
  unfold gN g
  rw [E2.val_add, E2.val_add, E2.val_mul, E2.val_mul, E2.val_square, cA_val, cB_val]
  ring

theorem cand {u w : E2 Fq} (hd : den u.val ≠ 0)
    (h : E2.mul w (E2.mul cA (denN u)) = E2.neg (E2.mul cB (E2.add (denN u) E2.one))) : x1 u.val = w.val := by
  have hA := A_ne
  have h := congrArg E2.val h
  rw [E2.val_mul, E2.val_mul, E2.val_neg, E2.val_mul, E2.val_add, E2.val_one, denN_val, cA_val, cB_val] at h
  unfold x1
  rw [if_neg hd]
  field_simp
  linear_combination -h

theorem den_of {u : E2 Fq} (h : denN u ≠ E2.zero) : den u.val ≠ 0 := by
  rw [← denN_val]
  intro h0
  exact h (E2.val_inj.1 (h0.trans E2.val_zero.symm))

theorem map_of {u x y : E2 Fq} {R : G2Affine Fq} (hs : SSWU u.val x.val y.val) (hi : g2Isogeny ⟨x, y⟩ = some R) :
    ∃ P, MapTo u.val P ∧ AR R P := by
  obtain ⟨p', h, hx, hy, -, P, hP⟩ := C58_isogeny ⟨x, y⟩ hs.2.1
  rw [hi] at h
  obtain rfl := Option.some.inj h
  exact ⟨P, ⟨_, _, hs, IsPt.congr hP hx.symm hy.symm⟩, hP⟩

theorem ar_inj {a b : G2Affine Fq} {P : (curve (bTw Fq)).Point} (h : AR a P) (h' : AR b P) : a = b := by
  obtain ⟨e1, e2⟩ := IsPt.inj h h'
  rw [G2Affine.ext_iff]
  exact ⟨E2.val_inj.1 e1, E2.val_inj.1 e2⟩

theorem check_map {u w x y : E2 Fq} {R : G2Affine Fq} (h : check u w x y R = true) : ∃ P, MapTo u.val P ∧ AR R P := by
  obtain ⟨h1, h2, rfl, h4, h5, h6⟩ := of_decide_eq_true h
  have hy : y.val ^ 2 = g x.val := by
    have h := congrArg E2.val h4
    rw [E2.val_square, gN_val] at h
    rw [← h]; ring
  refine map_of ⟨?_, hy, h5⟩ h6
  unfold sswuX
  rw [cand (den_of h1) h2, if_pos ⟨y.val, by rw [← hy]; ring⟩]

theorem checkN_map {u w x y : E2 Fq} {R : G2Affine Fq} (h : checkN u w x y R = true) : ∃ P, MapTo u.val P ∧ AR R P := by
  obtain ⟨h1, h2, h3, h4, h5, h6⟩ := of_decide_eq_true h
  have hd := den_of h1
  have hw := cand hd h2
  have hy : y.val ^ 2 = g x.val := by
    have h := congrArg E2.val h4
    rw [E2.val_square, gN_val] at h
    rw [← h]; ring
  have hx : x.val = x2 u.val := by
    rw [h3, E2.val_mul, E2.val_mul, E2.val_square, cZ_val]
    unfold x2
    rw [hw]; ring
  refine map_of ⟨?_, hy, h5⟩ h6
  have hns : ¬ IsSquare (g (x1 u.val)) := by
    rintro ⟨s, hs⟩
    have hs0 : s ≠ 0 := by
      rintro rfl
      exact g_ne _ (hs.trans (mul_zero 0))
    have hu0 : u.val ≠ 0 := fun h0 => hd ((C57_exceptional _).2 h0)
    have hZ : (Z : Fq2 Fq) ≠ 0 := fun h0 => Z_not_square 0 (by rw [h0, zero_mul])
    have hg : g (x2 u.val) = (Z * u.val ^ 2) ^ 3 * g (x1 u.val) := g_x2 hd
    rw [← hx, ← hy, hs] at hg
    have k0 : Z * u.val ^ 3 * s ≠ 0 := mul_ne_zero (mul_ne_zero hZ (pow_ne_zero _ hu0)) hs0
    refine Z_not_square (y.val / (Z * u.val ^ 3 * s)) ?_
    rw [div_mul_div_comm, div_eq_iff (mul_ne_zero k0 k0)]
    linear_combination hg
  unfold sswuX
  rw [if_neg hns, hx]
end
