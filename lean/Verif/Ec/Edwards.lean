import Mathlib.Algebra.Field.Basic
import Mathlib.Algebra.Group.Even
import Mathlib.Tactic.FieldSimp
import Mathlib.Tactic.Ring
import Mathlib.Tactic.LinearCombination

/-! # Twisted Edwards curves `a x² + y² = 1 + d x² y²` with complete addition law

Nothing here refers to the circuits: the points of the curve over a field in which `a` is a nonzero square and `d` is not a square,
with the textbook addition, form a commutative group. -/

namespace Verif.Ec

variable {K : Type} [Field K]

/-- The conditions under which the addition law is complete. -/
class EdComplete (a d : K) : Prop where
  two : (2 : K) ≠ 0
  ne : a ≠ 0
  sq : IsSquare a
  nsq : ¬ IsSquare d

/-- A point of the curve. -/
@[ext] structure EdPt (a d : K) where
  x : K
  y : K
  on : a * x ^ 2 + y ^ 2 = 1 + d * x ^ 2 * y ^ 2

variable {a d : K}

/-- The denominators of the addition law do not vanish. -/
theorem ed_den [h : EdComplete a d] {x1 y1 x2 y2 : K} (h1 : a * x1 ^ 2 + y1 ^ 2 = 1 + d * x1 ^ 2 * y1 ^ 2)
    (h2 : a * x2 ^ 2 + y2 ^ 2 = 1 + d * x2 ^ 2 * y2 ^ 2) {e : K} (he : e ^ 2 = 1) : d * x1 * x2 * y1 * y2 ≠ e := by
  intro h0
  obtain ⟨i, hi⟩ := h.sq
  have hi0 : i ≠ 0 := fun h0 => h.ne (by rw [hi, h0, mul_zero])
  have hne : e ≠ 0 := by
    rintro rfl
    simp at he
  have hx : x1 * y1 ≠ 0 := by
    intro hz
    apply hne
    rw [← h0]
    linear_combination d * x2 * y2 * hz
  have key : ∀ s : K, s ^ 2 = 1 → i * x2 + s * y2 ≠ 0 → False := by
    intro s hs hn
    apply h.nsq
    refine ⟨(i * x1 + s * e * y1) / (x1 * y1 * (i * x2 + s * y2)), ?_⟩
    have hn' : x1 * y1 * (i * x2 + s * y2) * (x1 * y1 * (i * x2 + s * y2)) ≠ 0 :=
      mul_ne_zero (mul_ne_zero hx hn) (mul_ne_zero hx hn)
    rw [div_mul_div_comm, eq_div_iff hn']
    subst hi
    have e1 : (i * x1 + s * e * y1) ^ 2 = d * (x1 * y1) ^ 2 * (i * x2 + s * y2) ^ 2 := by
      linear_combination (y1 ^ 2 * e ^ 2 - d * x1 ^ 2 * y1 ^ 2 * y2 ^ 2) * hs + (y1 ^ 2 - 1) * he
        - d * x1 ^ 2 * y1 ^ 2 * h2 + h1 - (2 * s * i * x1 * y1 + d * x1 * x2 * y1 * y2 + e) * h0
    linear_combination -e1
  by_cases hp : i * x2 + 1 * y2 = 0
  · by_cases hm : i * x2 + (-1) * y2 = 0
    · have hy : y2 = 0 := by
        have : (2 : K) * y2 = 0 := by linear_combination hp - hm
        exact (mul_eq_zero.1 this).resolve_left h.two
      apply hne
      rw [← h0, hy]
      ring
    · exact key (-1) (by ring) hm
  · exact key 1 (by ring) hp

namespace EdPt
variable [h : EdComplete a d]

theorem den_add (P Q : EdPt a d) : 1 + d * P.x * Q.x * P.y * Q.y ≠ 0 := by
  intro h0
  exact ed_den P.on Q.on (e := -1) (by ring) (by linear_combination h0)

theorem den_sub (P Q : EdPt a d) : 1 - d * P.x * Q.x * P.y * Q.y ≠ 0 := by
  intro h0
  exact ed_den P.on Q.on (e := 1) (by ring) (by linear_combination -h0)

/-- The addition law. -/
instance : Add (EdPt a d) where
  add P Q := ⟨(P.x * Q.y + Q.x * P.y) / (1 + d * P.x * Q.x * P.y * Q.y), (P.y * Q.y - a * P.x * Q.x) / (1 - d * P.x * Q.x * P.y * Q.y), by
    have hp := den_add P Q
    have hm := den_sub P Q
    obtain ⟨x1, y1, h1⟩ := P
    obtain ⟨x2, y2, h2⟩ := Q
    dsimp only at *
    have key : ∀ X Y D E : K, D ≠ 0 → E ≠ 0 → a * X ^ 2 * E ^ 2 + Y ^ 2 * D ^ 2 = D ^ 2 * E ^ 2 + d * X ^ 2 * Y ^ 2 →
        a * (X / D) ^ 2 + (Y / E) ^ 2 = 1 + d * (X / D) ^ 2 * (Y / E) ^ 2 := by
      intro X Y D E hD hE h
      field_simp
      linear_combination h
    refine key _ _ _ _ hp hm ?_
    linear_combination (x1 ^ 2 * y1 ^ 2 * x2 ^ 4 * y2 ^ 4 * d ^ 3 + x1 ^ 2 * x2 ^ 4 * y2 ^ 4 * a * d ^ 2 - x1 ^ 2 * x2 ^ 4 * y2 ^ 2 * a ^ 2 * d - x1 ^ 2 * x2 ^ 2 * y2 ^ 4 * a * d + y1 ^ 2 * x2 ^ 4 * y2 ^ 4 * d ^ 2 - y1 ^ 2 * x2 ^ 4 * y2 ^ 2 * a * d - y1 ^ 2 * x2 ^ 2 * y2 ^ 4 * d + 2 * x2 ^ 4 * y2 ^ 4 * a * d - x2 ^ 4 * y2 ^ 4 * d ^ 2 - 2 * x2 ^ 4 * y2 ^ 2 * a ^ 2 + x2 ^ 4 * a ^ 2 - 2 * x2 ^ 2 * y2 ^ 4 * a + 4 * x2 ^ 2 * y2 ^ 2 * a - 2 * x2 ^ 2 * y2 ^ 2 * d + y2 ^ 4) * h1
      + (x1 ^ 4 * x2 ^ 2 * y2 ^ 2 * a ^ 2 * d + 2 * x1 ^ 2 * x2 ^ 2 * y2 ^ 2 * a ^ 2 - 2 * x1 ^ 2 * x2 ^ 2 * y2 ^ 2 * a * d - x1 ^ 2 * x2 ^ 2 * a ^ 2 - x1 ^ 2 * y2 ^ 2 * a + y1 ^ 4 * x2 ^ 2 * y2 ^ 2 * d + 2 * y1 ^ 2 * x2 ^ 2 * y2 ^ 2 * a - 2 * y1 ^ 2 * x2 ^ 2 * y2 ^ 2 * d - y1 ^ 2 * x2 ^ 2 * a - y1 ^ 2 * y2 ^ 2 - 2 * x2 ^ 2 * y2 ^ 2 * a + x2 ^ 2 * y2 ^ 2 * d + x2 ^ 2 * a + y2 ^ 2 + 1) * h2⟩

/-- The neutral element. -/
instance : Zero (EdPt a d) := ⟨⟨0, 1, by ring⟩⟩

/-- The opposite. -/
instance : Neg (EdPt a d) := ⟨fun P => ⟨-P.x, P.y, by linear_combination P.on⟩⟩

omit h in
@[simp] theorem zero_x : (0 : EdPt a d).x = 0 := rfl
omit h in
@[simp] theorem zero_y : (0 : EdPt a d).y = 1 := rfl
omit h in
@[simp] theorem neg_x (P : EdPt a d) : (-P).x = -P.x := rfl
omit h in
@[simp] theorem neg_y (P : EdPt a d) : (-P).y = P.y := rfl
theorem add_x (P Q : EdPt a d) : (P + Q).x = (P.x * Q.y + Q.x * P.y) / (1 + d * P.x * Q.x * P.y * Q.y) := rfl
theorem add_y (P Q : EdPt a d) : (P + Q).y = (P.y * Q.y - a * P.x * Q.x) / (1 - d * P.x * Q.x * P.y * Q.y) := rfl

theorem add_comm' (P Q : EdPt a d) : P + Q = Q + P := by
  ext
  · rw [add_x, add_x]
    congr 1 <;> ring
  · rw [add_y, add_y]
    congr 1 <;> ring

theorem zero_add' (P : EdPt a d) : 0 + P = P := by
  ext
  · rw [add_x]; simp
  · rw [add_y]; simp

theorem neg_add' (P : EdPt a d) : -P + P = 0 := by
  ext
  · rw [add_x, neg_x, neg_y]
    have : -P.x * P.y + P.x * P.y = 0 := by ring
    rw [this, zero_div, zero_x]
  · rw [add_y]
    have hm := den_sub (-P) P
    rw [div_eq_iff hm, zero_y, neg_x, neg_y]
    linear_combination P.on

theorem add_assoc' (P Q R : EdPt a d) : P + Q + R = P + (Q + R) := by
  have a1 := den_add P Q
  have a2 := den_sub P Q
  have a3 := den_add Q R
  have a4 := den_sub Q R
  have b1 := den_add (P + Q) R
  have b2 := den_sub (P + Q) R
  have b3 := den_add P (Q + R)
  have b4 := den_sub P (Q + R)
  rw [add_x, add_y] at b1 b2 b3 b4
  obtain ⟨x1, y1, h1⟩ := P
  obtain ⟨x2, y2, h2⟩ := Q
  obtain ⟨x3, y3, h3⟩ := R
  dsimp only at *
  have k1 : ∀ X Y D E : K, D ≠ 0 → E ≠ 0 → 1 + d * (X / D) * x3 * (Y / E) * y3 ≠ 0 → D * E + d * X * Y * x3 * y3 ≠ 0 := by
    intro X Y D E hD hE h h0
    apply h
    field_simp
    linear_combination h0
  have k2 : ∀ X Y D E : K, D ≠ 0 → E ≠ 0 → 1 - d * (X / D) * x3 * (Y / E) * y3 ≠ 0 → D * E - d * X * Y * x3 * y3 ≠ 0 := by
    intro X Y D E hD hE h h0
    apply h
    field_simp
    linear_combination h0
  have k3 : ∀ X Y D E : K, D ≠ 0 → E ≠ 0 → 1 + d * x1 * (X / D) * y1 * (Y / E) ≠ 0 → D * E + d * X * Y * x1 * y1 ≠ 0 := by
    intro X Y D E hD hE h h0
    apply h
    field_simp
    linear_combination h0
  have k4 : ∀ X Y D E : K, D ≠ 0 → E ≠ 0 → 1 - d * x1 * (X / D) * y1 * (Y / E) ≠ 0 → D * E - d * X * Y * x1 * y1 ≠ 0 := by
    intro X Y D E hD hE h h0
    apply h
    field_simp
    linear_combination h0
  have c1 : (1 + d * x1 * x2 * y1 * y2) * (1 - d * x1 * x2 * y1 * y2) + d * (x1 * y2 + x2 * y1) * (y1 * y2 - a * x1 * x2) * x3 * y3 ≠ 0 := by
    exact k1 _ _ _ _ a1 a2 b1
  have c2 : (1 + d * x1 * x2 * y1 * y2) * (1 - d * x1 * x2 * y1 * y2) - d * (x1 * y2 + x2 * y1) * (y1 * y2 - a * x1 * x2) * x3 * y3 ≠ 0 := by
    exact k2 _ _ _ _ a1 a2 b2
  have c3 : (1 + d * x2 * x3 * y2 * y3) * (1 - d * x2 * x3 * y2 * y3) + d * (x2 * y3 + x3 * y2) * (y2 * y3 - a * x2 * x3) * x1 * y1 ≠ 0 := by
    exact k3 _ _ _ _ a3 a4 b3
  have c4 : (1 + d * x2 * x3 * y2 * y3) * (1 - d * x2 * x3 * y2 * y3) - d * (x2 * y3 + x3 * y2) * (y2 * y3 - a * x2 * x3) * x1 * y1 ≠ 0 := by
    exact k4 _ _ _ _ a3 a4 b4
  have e1 : ∀ X Y D E : K, D ≠ 0 → E ≠ 0 → (X / D * y3 + x3 * (Y / E)) / (1 + d * (X / D) * x3 * (Y / E) * y3)
      = (X * E * y3 + x3 * Y * D) / (D * E + d * X * Y * x3 * y3) := by
    intro X Y D E hD hE
    have n1 : X / D * y3 + x3 * (Y / E) = (X * E * y3 + x3 * Y * D) / (D * E) := by field_simp
    have n2 : 1 + d * (X / D) * x3 * (Y / E) * y3 = (D * E + d * X * Y * x3 * y3) / (D * E) := by field_simp
    rw [n1, n2, div_div_div_cancel_right₀ (mul_ne_zero hD hE)]
  have e2 : ∀ X Y D E : K, D ≠ 0 → E ≠ 0 → (Y / E * y3 - a * (X / D) * x3) / (1 - d * (X / D) * x3 * (Y / E) * y3)
      = (Y * D * y3 - a * X * E * x3) / (D * E - d * X * Y * x3 * y3) := by
    intro X Y D E hD hE
    have n1 : Y / E * y3 - a * (X / D) * x3 = (Y * D * y3 - a * X * E * x3) / (D * E) := by field_simp
    have n2 : 1 - d * (X / D) * x3 * (Y / E) * y3 = (D * E - d * X * Y * x3 * y3) / (D * E) := by field_simp
    rw [n1, n2, div_div_div_cancel_right₀ (mul_ne_zero hD hE)]
  have e3 : ∀ X Y D E : K, D ≠ 0 → E ≠ 0 → (x1 * (Y / E) + X / D * y1) / (1 + d * x1 * (X / D) * y1 * (Y / E))
      = (x1 * Y * D + y1 * X * E) / (D * E + d * X * Y * x1 * y1) := by
    intro X Y D E hD hE
    have n1 : x1 * (Y / E) + X / D * y1 = (x1 * Y * D + y1 * X * E) / (D * E) := by field_simp
    have n2 : 1 + d * x1 * (X / D) * y1 * (Y / E) = (D * E + d * X * Y * x1 * y1) / (D * E) := by field_simp
    rw [n1, n2, div_div_div_cancel_right₀ (mul_ne_zero hD hE)]
  have e4 : ∀ X Y D E : K, D ≠ 0 → E ≠ 0 → (y1 * (Y / E) - a * x1 * (X / D)) / (1 - d * x1 * (X / D) * y1 * (Y / E))
      = (y1 * Y * D - a * x1 * X * E) / (D * E - d * X * Y * x1 * y1) := by
    intro X Y D E hD hE
    have n1 : y1 * (Y / E) - a * x1 * (X / D) = (y1 * Y * D - a * x1 * X * E) / (D * E) := by field_simp
    have n2 : 1 - d * x1 * (X / D) * y1 * (Y / E) = (D * E - d * X * Y * x1 * y1) / (D * E) := by field_simp
    rw [n1, n2, div_div_div_cancel_right₀ (mul_ne_zero hD hE)]
  ext
  · rw [add_x, add_x, add_x, add_y, add_x, add_y]
    dsimp only
    rw [e1 _ _ _ _ a1 a2, e3 _ _ _ _ a3 a4, div_eq_div_iff c1 c3]
    linear_combination (x1 * x2 ^ 4 * y2 ^ 3 * x3 ^ 2 * y3 * a * d ^ 2 - x1 * x2 ^ 4 * y2 * x3 ^ 2 * y3 * a ^ 2 * d - x1 * x2 ^ 3 * y2 ^ 4 * x3 * y3 ^ 2 * d ^ 2 - x1 * x2 ^ 3 * y2 ^ 2 * x3 ^ 3 * a ^ 2 * d + x1 * x2 ^ 3 * y2 ^ 2 * x3 * a * d + x1 * x2 ^ 2 * y2 ^ 3 * y3 ^ 3 * d - x1 * x2 ^ 2 * y2 ^ 3 * y3 * d + x1 * x2 * y2 ^ 4 * x3 * y3 ^ 2 * d + y1 * x2 ^ 4 * y2 ^ 3 * x3 * y3 ^ 2 * d ^ 2 - y1 * x2 ^ 4 * y2 * x3 * y3 ^ 2 * a * d + y1 * x2 ^ 3 * y2 ^ 4 * x3 ^ 2 * y3 * d ^ 2 + y1 * x2 ^ 3 * y2 ^ 2 * y3 ^ 3 * d - y1 * x2 ^ 3 * y2 ^ 2 * y3 * d + y1 * x2 ^ 2 * y2 ^ 3 * x3 ^ 3 * a * d - y1 * x2 ^ 2 * y2 ^ 3 * x3 * d - y1 * x2 * y2 ^ 4 * x3 ^ 2 * y3 * d) * h1
      + (x1 ^ 3 * x2 ^ 2 * y2 * x3 ^ 2 * y3 * a ^ 2 * d - x1 ^ 3 * x2 * y2 ^ 2 * x3 * y3 ^ 2 * a * d + x1 ^ 3 * x2 * x3 ^ 3 * y3 ^ 2 * a ^ 2 * d - x1 ^ 3 * x2 * x3 ^ 3 * a ^ 3 - x1 ^ 3 * x2 * x3 * y3 ^ 2 * a ^ 2 + x1 ^ 3 * x2 * x3 * a ^ 2 - x1 ^ 3 * y2 * x3 ^ 2 * y3 ^ 3 * a * d + x1 ^ 3 * y2 * x3 ^ 2 * y3 * a ^ 2 + x1 ^ 3 * y2 * y3 ^ 3 * a - x1 ^ 3 * y2 * y3 * a - x1 ^ 2 * y1 * x2 ^ 2 * y2 * x3 ^ 3 * y3 ^ 2 * a * d ^ 2 + x1 ^ 2 * y1 * x2 ^ 2 * y2 * x3 * y3 ^ 2 * a * d - x1 ^ 2 * y1 * x2 * y2 ^ 2 * x3 ^ 2 * y3 ^ 3 * d ^ 2 + x1 ^ 2 * y1 * x2 * y2 ^ 2 * x3 ^ 2 * y3 * a * d - x1 ^ 2 * y1 * x2 * x3 ^ 2 * y3 ^ 3 * a * d + x1 ^ 2 * y1 * x2 * x3 ^ 2 * y3 * a ^ 2 + x1 ^ 2 * y1 * x2 * y3 ^ 3 * a - x1 ^ 2 * y1 * x2 * y3 * a - x1 ^ 2 * y1 * y2 * x3 ^ 3 * y3 ^ 2 * a * d + x1 ^ 2 * y1 * y2 * x3 ^ 3 * a ^ 2 + x1 ^ 2 * y1 * y2 * x3 * y3 ^ 2 * a - x1 ^ 2 * y1 * y2 * x3 * a - x1 * y1 ^ 2 * x2 ^ 2 * y2 * x3 ^ 2 * y3 ^ 3 * d ^ 2 + x1 * y1 ^ 2 * x2 ^ 2 * y2 * x3 ^ 2 * y3 * a * d + x1 * y1 ^ 2 * x2 * y2 ^ 2 * x3 ^ 3 * y3 ^ 2 * d ^ 2 - x1 * y1 ^ 2 * x2 * y2 ^ 2 * x3 * y3 ^ 2 * d + x1 * y1 ^ 2 * x2 * x3 ^ 3 * y3 ^ 2 * a * d - x1 * y1 ^ 2 * x2 * x3 ^ 3 * a ^ 2 - x1 * y1 ^ 2 * x2 * x3 * y3 ^ 2 * a + x1 * y1 ^ 2 * x2 * x3 * a - x1 * y1 ^ 2 * y2 * x3 ^ 2 * y3 ^ 3 * d + x1 * y1 ^ 2 * y2 * x3 ^ 2 * y3 * a + x1 * y1 ^ 2 * y2 * y3 ^ 3 - x1 * y1 ^ 2 * y2 * y3 - x1 * x2 ^ 2 * y2 * x3 ^ 2 * y3 * a * d + x1 * x2 * y2 ^ 2 * x3 * y3 ^ 2 * d - x1 * x2 * x3 ^ 3 * y3 ^ 2 * a * d + x1 * x2 * x3 ^ 3 * a ^ 2 + x1 * x2 * x3 * y3 ^ 2 * a - x1 * x2 * x3 * a + x1 * y2 * x3 ^ 2 * y3 ^ 3 * d - x1 * y2 * x3 ^ 2 * y3 * a - x1 * y2 * y3 ^ 3 + x1 * y2 * y3 + y1 ^ 3 * x2 ^ 2 * y2 * x3 * y3 ^ 2 * d + y1 ^ 3 * x2 * y2 ^ 2 * x3 ^ 2 * y3 * d - y1 ^ 3 * x2 * x3 ^ 2 * y3 ^ 3 * d + y1 ^ 3 * x2 * x3 ^ 2 * y3 * a + y1 ^ 3 * x2 * y3 ^ 3 - y1 ^ 3 * x2 * y3 - y1 ^ 3 * y2 * x3 ^ 3 * y3 ^ 2 * d + y1 ^ 3 * y2 * x3 ^ 3 * a + y1 ^ 3 * y2 * x3 * y3 ^ 2 - y1 ^ 3 * y2 * x3 - y1 * x2 ^ 2 * y2 * x3 * y3 ^ 2 * d - y1 * x2 * y2 ^ 2 * x3 ^ 2 * y3 * d + y1 * x2 * x3 ^ 2 * y3 ^ 3 * d - y1 * x2 * x3 ^ 2 * y3 * a - y1 * x2 * y3 ^ 3 + y1 * x2 * y3 + y1 * y2 * x3 ^ 3 * y3 ^ 2 * d - y1 * y2 * x3 ^ 3 * a - y1 * y2 * x3 * y3 ^ 2 + y1 * y2 * x3) * h2
      + (x1 ^ 3 * x2 ^ 3 * x3 * a ^ 3 - x1 ^ 3 * x2 ^ 2 * y2 * y3 * a ^ 2 + x1 ^ 3 * x2 * y2 ^ 2 * x3 * a ^ 2 - x1 ^ 3 * x2 * x3 * a ^ 2 - x1 ^ 3 * y2 ^ 3 * y3 * a + x1 ^ 3 * y2 * y3 * a - x1 ^ 2 * y1 * x2 ^ 3 * y3 * a ^ 2 - x1 ^ 2 * y1 * x2 ^ 2 * y2 * x3 * a ^ 2 + x1 ^ 2 * y1 * x2 ^ 2 * y2 * x3 * a * d - x1 ^ 2 * y1 * x2 * y2 ^ 2 * y3 * a + x1 ^ 2 * y1 * x2 * y2 ^ 2 * y3 * d + x1 ^ 2 * y1 * x2 * y3 * a - x1 ^ 2 * y1 * y2 ^ 3 * x3 * a + x1 ^ 2 * y1 * y2 * x3 * a + x1 * y1 ^ 2 * x2 ^ 3 * x3 * a ^ 2 - x1 * y1 ^ 2 * x2 ^ 2 * y2 * y3 * a + x1 * y1 ^ 2 * x2 ^ 2 * y2 * y3 * d + x1 * y1 ^ 2 * x2 * y2 ^ 2 * x3 * a - x1 * y1 ^ 2 * x2 * y2 ^ 2 * x3 * d - x1 * y1 ^ 2 * x2 * x3 * a - x1 * y1 ^ 2 * y2 ^ 3 * y3 + x1 * y1 ^ 2 * y2 * y3 - x1 * x2 ^ 3 * x3 * a ^ 2 + x1 * x2 ^ 2 * y2 * y3 * a - x1 * x2 * y2 ^ 2 * x3 * a + x1 * x2 * x3 * a + x1 * y2 ^ 3 * y3 - x1 * y2 * y3 - y1 ^ 3 * x2 ^ 3 * y3 * a - y1 ^ 3 * x2 ^ 2 * y2 * x3 * a - y1 ^ 3 * x2 * y2 ^ 2 * y3 + y1 ^ 3 * x2 * y3 - y1 ^ 3 * y2 ^ 3 * x3 + y1 ^ 3 * y2 * x3 + y1 * x2 ^ 3 * y3 * a + y1 * x2 ^ 2 * y2 * x3 * a + y1 * x2 * y2 ^ 2 * y3 - y1 * x2 * y3 + y1 * y2 ^ 3 * x3 - y1 * y2 * x3) * h3
  · rw [add_y, add_y, add_x, add_y, add_x, add_y]
    dsimp only
    rw [e2 _ _ _ _ a1 a2, e4 _ _ _ _ a3 a4, div_eq_div_iff c2 c4]
    linear_combination (- x1 * x2 ^ 4 * y2 ^ 3 * x3 * y3 ^ 2 * a * d ^ 2 + x1 * x2 ^ 4 * y2 * x3 * y3 ^ 2 * a ^ 2 * d - x1 * x2 ^ 3 * y2 ^ 4 * x3 ^ 2 * y3 * a * d ^ 2 - x1 * x2 ^ 3 * y2 ^ 2 * y3 ^ 3 * a * d + x1 * x2 ^ 3 * y2 ^ 2 * y3 * a * d - x1 * x2 ^ 2 * y2 ^ 3 * x3 ^ 3 * a ^ 2 * d + x1 * x2 ^ 2 * y2 ^ 3 * x3 * a * d + x1 * x2 * y2 ^ 4 * x3 ^ 2 * y3 * a * d + y1 * x2 ^ 4 * y2 ^ 3 * x3 ^ 2 * y3 * a * d ^ 2 - y1 * x2 ^ 4 * y2 * x3 ^ 2 * y3 * a ^ 2 * d - y1 * x2 ^ 3 * y2 ^ 4 * x3 * y3 ^ 2 * d ^ 2 - y1 * x2 ^ 3 * y2 ^ 2 * x3 ^ 3 * a ^ 2 * d + y1 * x2 ^ 3 * y2 ^ 2 * x3 * a * d + y1 * x2 ^ 2 * y2 ^ 3 * y3 ^ 3 * d - y1 * x2 ^ 2 * y2 ^ 3 * y3 * d + y1 * x2 * y2 ^ 4 * x3 * y3 ^ 2 * d) * h1
      + (- x1 ^ 3 * x2 ^ 2 * y2 * x3 * y3 ^ 2 * a ^ 2 * d - x1 ^ 3 * x2 * y2 ^ 2 * x3 ^ 2 * y3 * a ^ 2 * d + x1 ^ 3 * x2 * x3 ^ 2 * y3 ^ 3 * a ^ 2 * d - x1 ^ 3 * x2 * x3 ^ 2 * y3 * a ^ 3 - x1 ^ 3 * x2 * y3 ^ 3 * a ^ 2 + x1 ^ 3 * x2 * y3 * a ^ 2 + x1 ^ 3 * y2 * x3 ^ 3 * y3 ^ 2 * a ^ 2 * d - x1 ^ 3 * y2 * x3 ^ 3 * a ^ 3 - x1 ^ 3 * y2 * x3 * y3 ^ 2 * a ^ 2 + x1 ^ 3 * y2 * x3 * a ^ 2 - x1 ^ 2 * y1 * x2 ^ 2 * y2 * x3 ^ 2 * y3 ^ 3 * a * d ^ 2 + x1 ^ 2 * y1 * x2 ^ 2 * y2 * x3 ^ 2 * y3 * a ^ 2 * d + x1 ^ 2 * y1 * x2 * y2 ^ 2 * x3 ^ 3 * y3 ^ 2 * a * d ^ 2 - x1 ^ 2 * y1 * x2 * y2 ^ 2 * x3 * y3 ^ 2 * a * d + x1 ^ 2 * y1 * x2 * x3 ^ 3 * y3 ^ 2 * a ^ 2 * d - x1 ^ 2 * y1 * x2 * x3 ^ 3 * a ^ 3 - x1 ^ 2 * y1 * x2 * x3 * y3 ^ 2 * a ^ 2 + x1 ^ 2 * y1 * x2 * x3 * a ^ 2 - x1 ^ 2 * y1 * y2 * x3 ^ 2 * y3 ^ 3 * a * d + x1 ^ 2 * y1 * y2 * x3 ^ 2 * y3 * a ^ 2 + x1 ^ 2 * y1 * y2 * y3 ^ 3 * a - x1 ^ 2 * y1 * y2 * y3 * a + x1 * y1 ^ 2 * x2 ^ 2 * y2 * x3 ^ 3 * y3 ^ 2 * a * d ^ 2 - x1 * y1 ^ 2 * x2 ^ 2 * y2 * x3 * y3 ^ 2 * a * d + x1 * y1 ^ 2 * x2 * y2 ^ 2 * x3 ^ 2 * y3 ^ 3 * d ^ 2 - x1 * y1 ^ 2 * x2 * y2 ^ 2 * x3 ^ 2 * y3 * a * d + x1 * y1 ^ 2 * x2 * x3 ^ 2 * y3 ^ 3 * a * d - x1 * y1 ^ 2 * x2 * x3 ^ 2 * y3 * a ^ 2 - x1 * y1 ^ 2 * x2 * y3 ^ 3 * a + x1 * y1 ^ 2 * x2 * y3 * a + x1 * y1 ^ 2 * y2 * x3 ^ 3 * y3 ^ 2 * a * d - x1 * y1 ^ 2 * y2 * x3 ^ 3 * a ^ 2 - x1 * y1 ^ 2 * y2 * x3 * y3 ^ 2 * a + x1 * y1 ^ 2 * y2 * x3 * a + x1 * x2 ^ 2 * y2 * x3 * y3 ^ 2 * a * d + x1 * x2 * y2 ^ 2 * x3 ^ 2 * y3 * a * d - x1 * x2 * x3 ^ 2 * y3 ^ 3 * a * d + x1 * x2 * x3 ^ 2 * y3 * a ^ 2 + x1 * x2 * y3 ^ 3 * a - x1 * x2 * y3 * a - x1 * y2 * x3 ^ 3 * y3 ^ 2 * a * d + x1 * y2 * x3 ^ 3 * a ^ 2 + x1 * y2 * x3 * y3 ^ 2 * a - x1 * y2 * x3 * a + y1 ^ 3 * x2 ^ 2 * y2 * x3 ^ 2 * y3 * a * d - y1 ^ 3 * x2 * y2 ^ 2 * x3 * y3 ^ 2 * d + y1 ^ 3 * x2 * x3 ^ 3 * y3 ^ 2 * a * d - y1 ^ 3 * x2 * x3 ^ 3 * a ^ 2 - y1 ^ 3 * x2 * x3 * y3 ^ 2 * a + y1 ^ 3 * x2 * x3 * a - y1 ^ 3 * y2 * x3 ^ 2 * y3 ^ 3 * d + y1 ^ 3 * y2 * x3 ^ 2 * y3 * a + y1 ^ 3 * y2 * y3 ^ 3 - y1 ^ 3 * y2 * y3 - y1 * x2 ^ 2 * y2 * x3 ^ 2 * y3 * a * d + y1 * x2 * y2 ^ 2 * x3 * y3 ^ 2 * d - y1 * x2 * x3 ^ 3 * y3 ^ 2 * a * d + y1 * x2 * x3 ^ 3 * a ^ 2 + y1 * x2 * x3 * y3 ^ 2 * a - y1 * x2 * x3 * a + y1 * y2 * x3 ^ 2 * y3 ^ 3 * d - y1 * y2 * x3 ^ 2 * y3 * a - y1 * y2 * y3 ^ 3 + y1 * y2 * y3) * h2
      + (x1 ^ 3 * x2 ^ 3 * y3 * a ^ 3 + x1 ^ 3 * x2 ^ 2 * y2 * x3 * a ^ 3 + x1 ^ 3 * x2 * y2 ^ 2 * y3 * a ^ 2 - x1 ^ 3 * x2 * y3 * a ^ 2 + x1 ^ 3 * y2 ^ 3 * x3 * a ^ 2 - x1 ^ 3 * y2 * x3 * a ^ 2 + x1 ^ 2 * y1 * x2 ^ 3 * x3 * a ^ 3 - x1 ^ 2 * y1 * x2 ^ 2 * y2 * y3 * a ^ 2 + x1 ^ 2 * y1 * x2 ^ 2 * y2 * y3 * a * d + x1 ^ 2 * y1 * x2 * y2 ^ 2 * x3 * a ^ 2 - x1 ^ 2 * y1 * x2 * y2 ^ 2 * x3 * a * d - x1 ^ 2 * y1 * x2 * x3 * a ^ 2 - x1 ^ 2 * y1 * y2 ^ 3 * y3 * a + x1 ^ 2 * y1 * y2 * y3 * a + x1 * y1 ^ 2 * x2 ^ 3 * y3 * a ^ 2 + x1 * y1 ^ 2 * x2 ^ 2 * y2 * x3 * a ^ 2 - x1 * y1 ^ 2 * x2 ^ 2 * y2 * x3 * a * d + x1 * y1 ^ 2 * x2 * y2 ^ 2 * y3 * a - x1 * y1 ^ 2 * x2 * y2 ^ 2 * y3 * d - x1 * y1 ^ 2 * x2 * y3 * a + x1 * y1 ^ 2 * y2 ^ 3 * x3 * a - x1 * y1 ^ 2 * y2 * x3 * a - x1 * x2 ^ 3 * y3 * a ^ 2 - x1 * x2 ^ 2 * y2 * x3 * a ^ 2 - x1 * x2 * y2 ^ 2 * y3 * a + x1 * x2 * y3 * a - x1 * y2 ^ 3 * x3 * a + x1 * y2 * x3 * a + y1 ^ 3 * x2 ^ 3 * x3 * a ^ 2 - y1 ^ 3 * x2 ^ 2 * y2 * y3 * a + y1 ^ 3 * x2 * y2 ^ 2 * x3 * a - y1 ^ 3 * x2 * x3 * a - y1 ^ 3 * y2 ^ 3 * y3 + y1 ^ 3 * y2 * y3 - y1 * x2 ^ 3 * x3 * a ^ 2 + y1 * x2 ^ 2 * y2 * y3 * a - y1 * x2 * y2 ^ 2 * x3 * a + y1 * x2 * x3 * a + y1 * y2 ^ 3 * y3 - y1 * y2 * y3) * h3

instance : AddCommGroup (EdPt a d) where
  add_assoc := add_assoc'
  zero_add := zero_add'
  add_zero P := by rw [add_comm', zero_add']
  nsmul := nsmulRec
  zsmul := zsmulRec
  neg_add_cancel := neg_add'
  add_comm := add_comm'

end EdPt
end Verif.Ec
