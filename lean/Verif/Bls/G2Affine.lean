import Verif.Bls.G2Jac

/-! # Affine arithmetic on the twist -/

namespace Verif.Bls
open Verif.Ec QuadraticAlgebra

attribute [local irreducible] q r E2.mulByNonResidueAt

/-- Affine coordinates of a (finite) point of the twist. -/
def AR (a : G2Affine Fq) (P : (curve (bTw Fq)).Point) : Prop := IsPt (bTw Fq) a.x.val a.y.val P

theorem AR.ne_zero {a : G2Affine Fq} {P : (curve (bTw Fq)).Point} (h : AR a P) : P ≠ 0 := IsPt.ne_zero h

theorem E2.div_some_iff (x y z : E2 Fq) : E2.div x y = some z ↔ y.val ≠ 0 ∧ z.val = x.val / y.val := by
  constructor
  · intro h
    have hy : y.val ≠ 0 := by
      intro h0
      rw [(E2.div_none_iff x y).2 h0] at h
      simp at h
    refine ⟨hy, ?_⟩
    obtain ⟨w, hw⟩ := E2.val_surj (K := Fq) (x.val / y.val)
    have := E2.div_eq x y w hy (by rw [hw, div_mul_cancel₀ _ hy])
    rw [h, Option.some.injEq] at this
    rw [this, hw]
  · rintro ⟨hy, hz⟩
    exact E2.div_eq x y z hy (by rw [hz, div_mul_cancel₀ _ hy])

variable {p a z : G2Affine Fq} {P Q : (curve (bTw Fq)).Point}

/-- Two finite points have the same abscissa iff they are equal or opposite. -/
theorem AR.same_x (hp : AR p P) (ha : AR a Q) : p.x.val = a.x.val ↔ P = Q ∨ P = -Q := by
  constructor
  · intro h
    have ha' : IsPt (bTw Fq) p.x.val a.y.val Q := by rw [h]; exact ha
    exact ha'.same_x hp
  · rintro (rfl | rfl)
    · exact (IsPt.inj hp ha).1
    · exact (IsPt.inj hp (IsPt.neg ha)).1

theorem g2Neg_spec (h : AR a P) : AR (g2Neg a) (-P) := by
  unfold AR g2Neg
  rw [E2.val_neg]
  exact IsPt.neg h

/-- The coordinates computed by `G2AddAssign` from the slope. -/
def addFrom (p a : G2Affine Fq) (l : E2 Fq) : G2Affine Fq :=
  ⟨E2.sub (E2.sub (E2.square l) a.x) p.x,
   E2.sub (E2.mul l (E2.sub p.x (E2.sub (E2.sub (E2.square l) a.x) p.x))) p.y⟩

theorem g2Add_eq (p a : G2Affine Fq) : g2Add p a = (E2.div (E2.sub a.y p.y) (E2.sub a.x p.x)).map (addFrom p a) := by
  unfold g2Add
  show (E2.div (E2.sub a.y p.y) (E2.sub a.x p.x)).bind _ = _
  cases E2.div (E2.sub a.y p.y) (E2.sub a.x p.x) <;> rfl

theorem g2Add_sound (hp : AR p P) (ha : AR a Q) (h : g2Add p a = some z) : AR z (P + Q) ∧ p.x.val ≠ a.x.val := by
  rw [g2Add_eq, Option.map_eq_some_iff] at h
  obtain ⟨l, hl, rfl⟩ := h
  obtain ⟨h0, hl⟩ := (E2.div_some_iff _ _ _).1 hl
  rw [E2.val_sub] at h0 hl
  rw [E2.val_sub] at hl
  have hx : p.x.val ≠ a.x.val := fun e => h0 (by rw [e, sub_self])
  refine ⟨IsPt.add hp ha hx (l := l.val) ?_ ?_ ?_, hx⟩
  · rw [hl, ← neg_sub a.y.val, ← neg_sub a.x.val, neg_div_neg_eq]
  · simp only [addFrom, E2.val_sub, E2.val_square]; ring
  · simp only [addFrom, E2.val_sub, E2.val_square, E2.val_mul]

theorem g2Add_none (p a : G2Affine Fq) : g2Add p a = none ↔ p.x.val = a.x.val := by
  rw [g2Add_eq, Option.map_eq_none_iff, E2.div_none_iff, E2.val_sub, sub_eq_zero, eq_comm]

theorem g2Add_complete (hp : AR p P) (ha : AR a Q) (h1 : P ≠ Q) (h2 : P ≠ -Q) : ∃ z, g2Add p a = some z ∧ AR z (P + Q) := by
  have : g2Add p a ≠ none := by
    rw [Ne, g2Add_none, hp.same_x ha]
    exact not_or.2 ⟨h1, h2⟩
  obtain ⟨z, hz⟩ := Option.ne_none_iff_exists'.1 this
  exact ⟨z, hz, (g2Add_sound hp ha hz).1⟩

theorem g2Sub_eq (p a : G2Affine Fq) : g2Sub p a = g2Add p (g2Neg a) := rfl

theorem g2Sub_sound (hp : AR p P) (ha : AR a Q) (h : g2Sub p a = some z) : AR z (P - Q) ∧ p.x.val ≠ a.x.val := by
  rw [sub_eq_add_neg]
  rw [g2Sub_eq] at h
  exact g2Add_sound (a := g2Neg a) hp (g2Neg_spec ha) h

theorem g2Sub_complete (hp : AR p P) (ha : AR a Q) (h1 : P ≠ Q) (h2 : P ≠ -Q) : ∃ z, g2Sub p a = some z ∧ AR z (P - Q) := by
  rw [sub_eq_add_neg]
  exact g2Add_complete hp (g2Neg_spec ha) h2 (by rwa [neg_neg])

/-! ## Doubling -/

/-- The coordinates computed by `G2Double` from the slope. -/
def dblFrom (p : G2Affine Fq) (l : E2 Fq) : G2Affine Fq :=
  ⟨E2.sub (E2.sub (E2.square l) p.x) p.x,
   E2.sub (E2.mul l (E2.sub p.x (E2.sub (E2.sub (E2.square l) p.x) p.x))) p.y⟩

theorem g2Double_eq (p : G2Affine Fq) :
    g2Double' p = (E2.div (E2.mulByElement (E2.square p.x) 3) (E2.mulByElement p.y 2)).map (dblFrom p) := by
  unfold g2Double'
  show (E2.div (E2.mulByElement (E2.square p.x) 3) (E2.mulByElement p.y 2)).bind _ = _
  cases E2.div (E2.mulByElement (E2.square p.x) 3) (E2.mulByElement p.y 2) <;> rfl

theorem smul2 (x : Fq2 Fq) : (2 : Fq) • x = 2 * x := by
  rw [Algebra.smul_def, map_ofNat]

theorem smul3 (x : Fq2 Fq) : (3 : Fq) • x = 3 * x := by
  rw [Algebra.smul_def, map_ofNat]

theorem g2Double_sound (hp : AR p P) (h : g2Double' p = some z) : AR z (P + P) ∧ p.y.val ≠ 0 := by
  rw [g2Double_eq, Option.map_eq_some_iff] at h
  obtain ⟨l, hl, rfl⟩ := h
  obtain ⟨h0, hl⟩ := (E2.div_some_iff _ _ _).1 hl
  rw [E2.val_mulByElement, smul2] at h0
  have hy : p.y.val ≠ 0 := (mul_ne_zero_iff.1 h0).2
  refine ⟨IsPt.double two2_ne hp hy (l := l.val) ?_ ?_ ?_, hy⟩
  · rw [hl, E2.val_mulByElement, E2.val_mulByElement, smul2, smul3, E2.val_square, pow_two]
  · simp only [dblFrom, E2.val_sub, E2.val_square]; ring
  · simp only [dblFrom, E2.val_sub, E2.val_square, E2.val_mul]

theorem g2Double_none (p : G2Affine Fq) : g2Double' p = none ↔ p.y.val = 0 := by
  rw [g2Double_eq, Option.map_eq_none_iff, E2.div_none_iff, E2.val_mulByElement, smul2, mul_eq_zero]
  exact ⟨fun h => h.resolve_left two2_ne, .inr⟩

theorem g2Double_complete (hp : AR p P) (h : P + P ≠ 0) : ∃ z, g2Double' p = some z ∧ AR z (P + P) := by
  have : g2Double' p ≠ none := by
    rw [Ne, g2Double_none]
    exact (IsPt.y_ne two2_ne hp).1 h
  obtain ⟨z, hz⟩ := Option.ne_none_iff_exists'.1 this
  exact ⟨z, hz, (g2Double_sound hp hz).1⟩

/-! ## Double and add -/

/-- The abscissa of the intermediate sum. -/
def daaX (p a : G2Affine Fq) (l : E2 Fq) : E2 Fq := E2.sub (E2.sub (E2.square l) p.x) a.x

/-- The coordinates computed by `DoubleAndAdd` from the two quotients. -/
def daaFrom (p a : G2Affine Fq) (l1 l2 : E2 Fq) : G2Affine Fq :=
  let m := E2.neg (E2.add l2 l1)
  let x4 := E2.sub (E2.sub (E2.square m) p.x) (daaX p a l1)
  ⟨x4, E2.sub (E2.mul m (E2.sub p.x x4)) p.y⟩

theorem g2DoubleAndAdd_eq (p a : G2Affine Fq) : g2DoubleAndAdd p a =
    (E2.div (E2.sub p.y a.y) (E2.sub p.x a.x)).bind fun l1 =>
      (E2.div (E2.double p.y) (E2.sub (daaX p a l1) p.x)).map (daaFrom p a l1) := by
  unfold g2DoubleAndAdd
  show (E2.div (E2.sub p.y a.y) (E2.sub p.x a.x)).bind _ = _
  cases E2.div (E2.sub p.y a.y) (E2.sub p.x a.x) with
  | none => rfl
  | some l1 =>
    show (E2.div (E2.double p.y) (E2.sub (daaX p a l1) p.x)).bind _ = _
    rw [Option.bind_some]
    cases E2.div (E2.double p.y) (E2.sub (daaX p a l1) p.x) <;> rfl

/-- The first chord. -/
theorem daa_sum (hp : AR p P) (ha : AR a Q) {l : E2 Fq} (h : E2.div (E2.sub p.y a.y) (E2.sub p.x a.x) = some l) :
    p.x.val ≠ a.x.val ∧ IsPt (bTw Fq) (daaX p a l).val (l.val * (p.x.val - (daaX p a l).val) - p.y.val) (P + Q) := by
  obtain ⟨h0, hl⟩ := (E2.div_some_iff _ _ _).1 h
  rw [E2.val_sub] at h0 hl
  rw [E2.val_sub] at hl
  have hx : p.x.val ≠ a.x.val := sub_ne_zero.1 h0
  refine ⟨hx, IsPt.add hp ha hx (l := l.val) hl ?_ rfl⟩
  simp only [daaX, E2.val_sub, E2.val_square]; ring

theorem g2DoubleAndAdd_sound (hp : AR p P) (ha : AR a Q) (h : g2DoubleAndAdd p a = some z) : AR z (P + P + Q) := by
  rw [g2DoubleAndAdd_eq, Option.bind_eq_some_iff] at h
  obtain ⟨l1, h1, h⟩ := h
  rw [Option.map_eq_some_iff] at h
  obtain ⟨l2, h2, rfl⟩ := h
  obtain ⟨hx, hs⟩ := daa_sum hp ha h1
  obtain ⟨h0, hl2⟩ := (E2.div_some_iff _ _ _).1 h2
  rw [E2.val_sub] at h0 hl2
  rw [E2.val_double] at hl2
  have hx3 : p.x.val ≠ (daaX p a l1).val := (sub_ne_zero.1 h0).symm
  rw [add_assoc]
  refine IsPt.add hp hs hx3 (l := -(l2.val + l1.val)) ?_ ?_ ?_
  · have h0' : p.x.val - (daaX p a l1).val ≠ 0 := sub_ne_zero.2 hx3
    rw [hl2]
    field_simp
    ring
  · simp only [daaFrom, E2.val_sub, E2.val_square, E2.val_neg, E2.val_add]; ring
  · simp only [daaFrom, E2.val_sub, E2.val_square, E2.val_neg, E2.val_add, E2.val_mul]

theorem g2DoubleAndAdd_complete (hp : AR p P) (ha : AR a Q) (h1 : P ≠ Q) (h2 : P ≠ -Q) (h3 : P + P + Q ≠ 0) :
    ∃ z, g2DoubleAndAdd p a = some z ∧ AR z (P + P + Q) := by
  have : g2DoubleAndAdd p a ≠ none := by
    rw [g2DoubleAndAdd_eq]
    intro hn
    cases hd : E2.div (E2.sub p.y a.y) (E2.sub p.x a.x) with
    | none =>
      rw [E2.div_none_iff, E2.val_sub, sub_eq_zero, hp.same_x ha] at hd
      exact hd.elim h1 h2
    | some l1 =>
      rw [hd, Option.bind_some, Option.map_eq_none_iff, E2.div_none_iff, E2.val_sub, sub_eq_zero] at hn
      obtain ⟨-, hs⟩ := daa_sum hp ha hd
      rw [hn] at hs
      rcases IsPt.same_x hp hs with e | e
      · exact ha.ne_zero (add_eq_left.1 e)
      · apply h3
        rw [add_assoc, e, add_neg_cancel]
  obtain ⟨z, hz⟩ := Option.ne_none_iff_exists'.1 this
  exact ⟨z, hz, g2DoubleAndAdd_sound hp ha hz⟩

theorem g2DoubleAndAdd_none (hp : AR p P) (ha : AR a Q) : g2DoubleAndAdd p a = none ↔ P = Q ∨ P = -Q ∨ P + P + Q = 0 := by
  constructor
  · intro h
    by_contra hn
    push Not at hn
    obtain ⟨z, hz, -⟩ := g2DoubleAndAdd_complete hp ha hn.1 hn.2.1 hn.2.2
    rw [hz] at h
    simp at h
  · intro h
    by_contra hn
    obtain ⟨z, hz⟩ := Option.ne_none_iff_exists'.1 hn
    have h0 := (g2DoubleAndAdd_sound hp ha hz).ne_zero
    rw [g2DoubleAndAdd_eq, Option.bind_eq_some_iff] at hz
    obtain ⟨l1, h1, -⟩ := hz
    have hx := (daa_sum hp ha h1).1
    rw [Ne, hp.same_x ha, not_or] at hx
    rcases h with h | h | h
    · exact hx.1 h
    · exact hx.2 h
    · exact h0 h

/-! ## The constant scalar -/

theorem aLoop_sound {t0 t1 : G2Affine Fq} (h0 : AR t0 P) (h1 : AR t1 (2 • P)) (k j m : ℕ) {res : G2Affine Fq}
    (hr : AR res (m • P)) (h : g2ScalarLoop t0 t1 k j res = some z) : AR z (scal k j m • P) := by
  induction k generalizing j m res with
  | zero =>
    obtain rfl := Option.some.inj h
    exact hr
  | succ k ih =>
    rw [g2ScalarLoop] at h
    obtain ⟨r1, hd1, h⟩ := Option.bind_eq_some_iff.1 h
    obtain ⟨r2, hd2, h⟩ := Option.bind_eq_some_iff.1 h
    obtain ⟨r3, hs, h⟩ := Option.bind_eq_some_iff.1 h
    have q1 := (g2Double_sound hr hd1).1
    have q2 := (g2Double_sound q1 hd2).1
    have hq : AR r2 ((4 * m) • P) := by
      rw [← add_smul, ← add_smul] at q2
      rwa [show 4 * m = m + m + (m + m) by ring]
    have h0' : AR t0 (1 • P) := by rwa [one_smul]
    rw [scal]
    refine ih (j + 1) _ ?_ h
    unfold g2ScalarStep at hs
    split at hs
    · rename_i hj; rw [if_pos hj, add_smul]; exact (g2Add_sound hq h0' hs).1
    rename_i hj; rw [if_neg hj]
    split at hs
    · rename_i hj; rw [if_pos hj, add_smul]; exact (g2Add_sound hq h1 hs).1
    rename_i hj; rw [if_neg hj]
    split at hs
    · rename_i hj; rw [if_pos hj, add_smul]; exact (g2Add_sound hq h0' hs).1
    rename_i hj; rw [if_neg hj]
    split at hs
    · rename_i hj; rw [if_pos hj, add_smul]; exact (g2Add_sound hq h0' hs).1
    · rename_i hj; rw [if_neg hj]
      obtain rfl := Option.some.inj hs
      exact hq

theorem scalarMulV2_sound (ha : AR a P) (h : g2ConstScalarMulV2 a = some z) : AR z ((0xd201000000010000 : ℕ) • P) := by
  unfold g2ConstScalarMulV2 at h
  obtain ⟨t1, hd, h⟩ := Option.bind_eq_some_iff.1 h
  obtain ⟨res, hs, h⟩ := Option.bind_eq_some_iff.1 h
  have h1 : AR t1 (2 • P) := by rw [two_smul]; exact (g2Double_sound ha hd).1
  have h3 : AR res (3 • P) := by
    have := (g2Add_sound h1 ha hs).1
    rwa [show 3 • P = 2 • P + P by rw [show 3 = 2 + 1 from rfl, add_smul, one_smul]]
  have := aLoop_sound ha h1 31 1 3 h3 h
  rwa [scal_value] at this

/-- The additions apply. -/
theorem NonDeg.add {N m n : ℕ} (hg : NonDeg N P) (hm : n < m) (hn : 0 < n) (hN : m + n ≤ N) (hp : AR p (m • P))
    (ha : AR a (n • P)) : ∃ z, g2Add p a = some z ∧ AR z ((m + n) • P) := by
  rw [add_smul]
  refine g2Add_complete hp ha ?_ ?_
  · intro e
    refine hg (m - n) (by omega) (by omega) ?_
    have : m • P = (m - n) • P + n • P := by rw [← add_smul, Nat.sub_add_cancel hm.le]
    rw [this] at e
    exact add_eq_right.1 e
  · intro e
    refine hg (m + n) (by omega) hN ?_
    rw [add_smul, e, neg_add_cancel]

theorem NonDeg.dbl {N m : ℕ} (hg : NonDeg N P) (hm : 0 < m) (hN : 2 * m ≤ N) (hp : AR p (m • P)) :
    ∃ z, g2Double' p = some z ∧ AR z ((2 * m) • P) := by
  rw [two_mul, add_smul]
  refine g2Double_complete hp ?_
  rw [← add_smul, ← two_mul]
  exact hg _ (by omega) hN

theorem aLoop_complete {t0 t1 : G2Affine Fq} (h0 : AR t0 P) (h1 : AR t1 (2 • P)) {N : ℕ} (hg : NonDeg N P) (k j m : ℕ)
    (hm : 1 ≤ m) (hN : scal k j m ≤ N) {res : G2Affine Fq} (hr : AR res (m • P)) :
    ∃ z, g2ScalarLoop t0 t1 k j res = some z ∧ AR z (scal k j m • P) := by
  induction k generalizing j m res with
  | zero => exact ⟨res, rfl, hr⟩
  | succ k ih =>
    rw [scal] at hN ⊢
    have hle := le_trans (le_scal k (j + 1) _) hN
    have h4 : 4 * m ≤ N := le_trans (Nat.le_add_right _ _) hle
    obtain ⟨r1, hd1, q1⟩ := hg.dbl (by omega) (by omega) hr
    obtain ⟨r2, hd2, q2⟩ := hg.dbl (by omega) (by omega) q1
    have hq : AR r2 ((4 * m) • P) := by rwa [show 4 * m = 2 * (2 * m) by ring]
    have h0' : AR t0 (1 • P) := by rwa [one_smul]
    obtain ⟨r3, hs, q3⟩ : ∃ r3, g2ScalarStep t0 t1 j r2 = some r3 ∧
        AR r3 ((4 * m + if j = 1 then 1 else if j = 3 then 2 else if j = 7 then 1 else if j = 23 then 1 else 0) • P) := by
      unfold g2ScalarStep
      split
      · rename_i hj
        rw [if_pos hj] at hle
        exact hg.add (by omega) (by omega) hle hq h0'
      rename_i hj
      rw [if_neg hj] at hle
      split
      · rename_i hj
        rw [if_pos hj] at hle
        exact hg.add (by omega) (by omega) hle hq h1
      rename_i hj
      rw [if_neg hj] at hle
      split
      · rename_i hj
        rw [if_pos hj] at hle
        exact hg.add (by omega) (by omega) hle hq h0'
      rename_i hj
      rw [if_neg hj] at hle
      split
      · rename_i hj
        rw [if_pos hj] at hle
        exact hg.add (by omega) (by omega) hle hq h0'
      · exact ⟨r2, rfl, hq⟩
    obtain ⟨z, hz, hJ⟩ := ih (j + 1) _ (by omega) hN q3
    refine ⟨z, ?_, hJ⟩
    rw [g2ScalarLoop]
    exact Option.bind_eq_some_iff.2 ⟨r1, hd1, Option.bind_eq_some_iff.2 ⟨r2, hd2, Option.bind_eq_some_iff.2 ⟨r3, hs, hz⟩⟩⟩

theorem scalarMulV2_complete (ha : AR a P) (hg : NonDeg 0xd201000000010000 P) :
    ∃ z, g2ConstScalarMulV2 a = some z ∧ AR z ((0xd201000000010000 : ℕ) • P) := by
  have ha' : AR a (1 • P) := by rwa [one_smul]
  obtain ⟨t1, hd, h1⟩ := hg.dbl (by omega) (by omega) ha'
  rw [mul_one] at h1
  obtain ⟨res, hs, h3⟩ := hg.add (m := 2) (n := 1) (by omega) (by omega) (by omega) h1 ha'
  obtain ⟨z, hz, hJ⟩ := aLoop_complete ha h1 hg 31 1 (2 + 1) (by omega) (le_of_eq scal_value) h3
  rw [show 2 + 1 = 3 from rfl] at hJ
  rw [scal_value] at hJ
  exact ⟨z, Option.bind_eq_some_iff.2 ⟨t1, hd, Option.bind_eq_some_iff.2 ⟨res, hs, hz⟩⟩, hJ⟩

end Verif.Bls
