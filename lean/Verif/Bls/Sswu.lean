import Verif.Bls.SqrtRatio
import Verif.Bls.G2Affine
import Mathlib.FieldTheory.Finite.Basic

/-! # What `g2SqrtRatio`, `g2Sgn0` and `MapElementToCurve2` compute -/

namespace Verif.Bls
open QuadraticAlgebra

attribute [local irreducible] q r sqN sqrtC3 sqrtC6 sqrtC7 sswuA sswuB sswuZ

/-! ## Square roots of ratios -/

theorem Fq2_pow_card (w : Fq2 Fq) (hw : w ≠ 0) : w ^ (8 * sqN) = 1 := by
  letI := fintypeFq2
  have h := FiniteField.pow_card_sub_one_eq_one w hw
  rw [card_Fq2] at h
  have key : ∀ a b : ℕ, a = b + 1 → w ^ (a - 1) = 1 → w ^ b = 1 := by
    rintro a b rfl h
    exact h
  exact key _ _ sqN_card h

theorem Fq2_ringChar_ne : ringChar (Fq2 Fq) ≠ 2 := by
  intro h
  have h2 : ((2 : ℕ) : Fq2 Fq) = 0 := by
    rw [← h]
    exact ringChar.Nat.cast_ringChar
  have := congrArg QuadraticAlgebra.re h2
  apply two_ne
  simpa using this

theorem isSquare_iff (w : Fq2 Fq) (hw : w ≠ 0) : IsSquare w ↔ w ^ (4 * sqN) = 1 := by
  letI := fintypeFq2
  have h := FiniteField.isSquare_iff Fq2_ringChar_ne hw
  rw [card_Fq2] at h
  rw [h]
  have key : ∀ a b : ℕ, a = 8 * b + 1 → (w ^ (a / 2) = 1 ↔ w ^ (4 * b) = 1) := by
    rintro a b rfl
    rw [show (8 * b + 1) / 2 = 4 * b by omega]
  exact key _ _ sqN_card

theorem sqN_ne : sqN ≠ 0 := by
  intro h
  have := sqN_card
  rw [h] at this
  have h2 := fact_q.out.one_lt
  nlinarith

theorem isSquare_ratio (u v : Fq2 Fq) (hv : v ≠ 0) : IsSquare (u * v ^ 15) ↔ IsSquare (u / v) := by
  constructor
  · rintro ⟨w, hw⟩
    refine ⟨w / v ^ 8, ?_⟩
    field_simp
    linear_combination hw
  · rintro ⟨w, hw⟩
    refine ⟨w * v ^ 8, ?_⟩
    have : u = w * w * v := by rw [← hw]; field_simp
    rw [this]; ring

variable {u v : Fq2 Fq}

theorem chi_four (hu : u ≠ 0) (hv : v ≠ 0) : chi u v ^ 4 = 1 ↔ IsSquare (u / v) := by
  rw [← isSquare_ratio u v hv, isSquare_iff _ (mul_ne_zero hu (pow_ne_zero _ hv))]
  unfold chi
  rw [pow_mul']

theorem chi_eight (hu : u ≠ 0) (hv : v ≠ 0) : chi u v ^ 8 = 1 := by
  have := Fq2_pow_card _ (mul_ne_zero hu (pow_ne_zero 15 hv))
  rw [pow_mul'] at this
  exact this

theorem chi_zero : chi 0 v = 0 := by
  unfold chi
  rw [zero_mul, zero_pow sqN_ne]

theorem chi_four' (hu : u ≠ 0) (hv : v ≠ 0) (h : ¬ IsSquare (u / v)) : chi u v ^ 4 = -1 := by
  have h8 := chi_eight hu hv
  have : (chi u v ^ 4 - 1) * (chi u v ^ 4 + 1) = 0 := by linear_combination h8
  rcases mul_eq_zero.1 this with h1 | h1
  · exact absurd ((chi_four hu hv).1 (sub_eq_zero.1 h1)) h
  · exact eq_neg_of_add_eq_zero_left h1

/-- Everything `g2SqrtRatio` can return. -/
theorem sqrt_all (u v z : E2 Fq) (b : Bool) (hu : u.val ≠ 0) (hv : v.val ≠ 0) (h : g2SqrtRatio u v (z, b)) :
    ∃ ζ : Fq2 Fq, ζ ^ 8 = 1 ∧ z.val ^ 2 * v.val = (if b then RFC.Z * u.val else u.val) * ζ ∧
      (b = false → IsSquare (u.val / v.val)) ∧ (b = true → IsSquare (u.val / v.val) → ζ ^ 4 = -1) := by
  obtain ⟨n1, n2, s3, t3, s4, t4, hb, hs3, ht3, hn1, hs4, ht4, hn2, hz⟩ := (g2SqrtRatio_iff u v z b).1 h
  have c4 := c6_four
  have c7 := c7_sq
  have hc := cand_sq u.val v.val
  have h8 := chi_eight hu hv
  have hsq := chi_four hu hv
  generalize sqrtC6.val = c at *
  generalize sqrtC7.val = d at *
  generalize chi u.val v.val = t at *
  generalize cand u.val v.val = s at *
  have c8 : c ^ 8 = 1 := by linear_combination (c ^ 4 - 1) * c4
  have e3 : s3 ^ 2 * v.val = (if b then RFC.Z * u.val else u.val) * t3 := by
    rw [hs3, ht3]
    cases b
    · simp only [Bool.false_eq_true, if_false]; exact hc
    · simp only [if_true]
      linear_combination d ^ 2 * hc + u.val * t * c7
  have e4 : s4 ^ 2 * v.val = (if b then RFC.Z * u.val else u.val) * t4 := by
    rw [hs4, ht4]
    cases n1
    · simp only [Bool.false_eq_true, if_false]; exact e3
    · simp only [if_true]
      linear_combination c ^ 2 * e3
  have f4 : t4 ^ 4 = t3 ^ 4 := by
    rw [ht4]
    cases n1
    · simp only [Bool.false_eq_true, if_false]
    · simp only [if_true]
      linear_combination t3 ^ 4 * c8
  have f3 : t3 ^ 8 = 1 := by
    rw [ht3]
    cases b
    · simp only [Bool.false_eq_true, if_false]; exact h8
    · simp only [if_true]
      linear_combination c ^ 8 * h8 + c8
  refine ⟨if n2 then t4 * c ^ 4 else t4, ?_, ?_, ?_, ?_⟩
  · cases n2
    · simp only [Bool.false_eq_true, if_false]
      linear_combination (t4 ^ 4 + t3 ^ 4) * f4 + f3
    · simp only [if_true]
      linear_combination ((c ^ 4) ^ 8 * (t4 ^ 4 + t3 ^ 4)) * f4 + (c ^ 4) ^ 8 * f3 + (c ^ 24 + c ^ 16 + c ^ 8 + 1) * c8
  · rw [hz]
    cases n2
    · simp only [Bool.false_eq_true, if_false]; exact e4
    · simp only [if_true]
      linear_combination c ^ 4 * e4
  · rintro rfl
    exact hsq.1 (hb.resolve_right (by simp))
  · rintro rfl hi
    have ht : t ^ 4 = 1 := hsq.2 hi
    have f5 : t3 ^ 4 = -1 := by
      rw [ht3, if_pos rfl]
      linear_combination c ^ 4 * ht + c4
    cases n2
    · simp only [Bool.false_eq_true, if_false]
      exact f4.trans f5
    · simp only [if_true]
      linear_combination c ^ 16 * f4 + c ^ 16 * f5 - (c ^ 8 + 1) * c8

/-- The honest outcome. -/
theorem sqrt_honest (u v : E2 Fq) (hu : u.val ≠ 0) (hv : v.val ≠ 0) :
    ∃ z b, g2SqrtRatio u v (z, b) ∧ (b = true ↔ ¬ IsSquare (u.val / v.val)) ∧
      z.val ^ 2 * v.val = (if b then RFC.Z * u.val else u.val) := by
  classical
  have h4' := chi_four' hu hv
  have hsq := chi_four hu hv
  have c4 := c6_four
  have c7 := c7_sq
  have hc := cand_sq u.val v.val
  have H := fun z b => g2SqrtRatio_iff u v z b
  generalize sqrtC6.val = c at *
  generalize sqrtC7.val = d at *
  generalize chi u.val v.val = t at *
  generalize cand u.val v.val = s at *
  have hN : ∀ x : Fq2 Fq, N1 x (decide (x ≠ 1)) := by
    intro x
    by_cases h : x = 1
    · exact Or.inl h
    · exact Or.inr (decide_eq_true h)
  have pm : ∀ x : Fq2 Fq, x ^ 2 = 1 → x = 1 ∨ x = -1 := by
    intro x hx
    have : (x - 1) * (x + 1) = 0 := by linear_combination hx
    rcases mul_eq_zero.1 this with h | h
    · exact Or.inl (sub_eq_zero.1 h)
    · exact Or.inr (eq_neg_of_add_eq_zero_left h)
  -- first test
  obtain ⟨b, s3, t3, hb, hs3, ht3, hbs, f3, e3⟩ : ∃ b : Bool, ∃ s3 t3 : Fq2 Fq, N1 (t ^ 4) b ∧ s3 = (if b then s * d else s) ∧
      t3 = (if b then t * c else t) ∧ (b = true ↔ ¬ IsSquare (u.val / v.val)) ∧ t3 ^ 4 = 1 ∧
      s3 ^ 2 * v.val = (if b then RFC.Z * u.val else u.val) * t3 := by
    by_cases hi : IsSquare (u.val / v.val)
    · exact ⟨false, s, t, Or.inl (hsq.2 hi), rfl, rfl, by simp [hi], hsq.2 hi, by simpa using hc⟩
    · refine ⟨true, s * d, t * c, Or.inr rfl, rfl, rfl, by simp [hi], ?_, ?_⟩
      · linear_combination c ^ 4 * h4' hi - c4
      · simp only [if_true]
        linear_combination d ^ 2 * hc + u.val * t * c7
  -- second test
  obtain ⟨n1, s4, t4, hn1, hs4, ht4, f4, e4⟩ : ∃ n1 : Bool, ∃ s4 t4 : Fq2 Fq, N1 (t3 ^ 2) n1 ∧ s4 = (if n1 then s3 * c else s3) ∧
      t4 = (if n1 then t3 * c ^ 2 else t3) ∧ t4 ^ 2 = 1 ∧
      s4 ^ 2 * v.val = (if b then RFC.Z * u.val else u.val) * t4 := by
    rcases pm (t3 ^ 2) (by linear_combination f3) with h | h
    · exact ⟨false, s3, t3, Or.inl h, rfl, rfl, h, e3⟩
    · refine ⟨true, s3 * c, t3 * c ^ 2, Or.inr rfl, rfl, rfl, ?_, ?_⟩
      · linear_combination c ^ 4 * h - c4
      · linear_combination c ^ 2 * e3
  -- third test
  rcases pm t4 f4 with h | h
  · obtain ⟨z, hz⟩ := E2.val_surj s4
    exact ⟨z, b, (H z b).2 ⟨n1, false, s3, t3, s4, t4, hb, hs3, ht3, hn1, hs4, ht4, Or.inl h, hz⟩, hbs, by
      rw [hz, e4, h, mul_one]⟩
  · obtain ⟨z, hz⟩ := E2.val_surj (s4 * c ^ 2)
    refine ⟨z, b, (H z b).2 ⟨n1, true, s3, t3, s4, t4, hb, hs3, ht3, hn1, hs4, ht4, Or.inr rfl, by rw [hz, if_pos rfl]⟩, hbs, ?_⟩
    rw [hz]
    rw [h] at e4
    linear_combination c ^ 4 * e4 - (if b then RFC.Z * u.val else u.val) * c4

/-- If the ratio is a square the prover can nevertheless claim that it is not. -/
theorem sqrt_dishonest (u v : E2 Fq) (hu : u.val ≠ 0) (hv : v.val ≠ 0) : ∃ z, g2SqrtRatio u v (z, true) := by
  have H := fun z b => g2SqrtRatio_iff u v z b
  obtain ⟨z, hz⟩ := E2.val_surj (cand u.val v.val * sqrtC7.val * sqrtC6.val * sqrtC6.val ^ 2)
  exact ⟨z, (H z true).2 ⟨true, true, _, _, _, _, Or.inr rfl, rfl, rfl, Or.inr rfl, rfl, rfl, Or.inr rfl, hz⟩⟩

/-- A zero numerator is reported as a non-square, with root zero. -/
theorem sqrt_zero (u v z : E2 Fq) (b : Bool) (hu : u.val = 0) (h : g2SqrtRatio u v (z, b)) : z.val = 0 ∧ b = true := by
  obtain ⟨n1, n2, s3, t3, s4, t4, hb, hs3, ht3, hn1, hs4, ht4, hn2, hz⟩ := (g2SqrtRatio_iff u v z b).1 h
  have hc : cand u.val v.val = 0 := by unfold cand; rw [hu, mul_zero]
  constructor
  · rw [hz, hs4, hs3, hc]
    simp
  · refine hb.resolve_left ?_
    rw [hu, chi_zero]
    simp

/-! ## The sign -/

/-- `g2Sgn0` is the parity of whatever representative of the first coordinate the prover supplies; it does not look at the
second coordinate. -/
theorem g2Sgn0_iff (x : E2 Fq) (b : Bool) : g2Sgn0 x b ↔ ∃ v : ℕ, v < 2 ^ 381 ∧ (v : Fq) = x.a0 ∧ b = v.testBit 0 := by
  have hz : ∀ v : ℕ, v < 2 ^ 381 → ((List.range 384).foldl (fun _ i => v.testBit 0 || v.testBit i) false) = v.testBit 0 := by
    intro v hv
    rw [show List.range 384 = List.range 383 ++ [383] from List.range_succ, List.foldl_append]
    show (v.testBit 0 || v.testBit 383) = _
    rw [show v.testBit 383 = false from Nat.testBit_lt_two_pow (lt_of_lt_of_le hv (Nat.pow_le_pow_right (by norm_num) (by norm_num))),
      Bool.or_false]
  unfold g2Sgn0
  constructor
  · rintro ⟨a0, ⟨h1, h2⟩, a1, _, h⟩
    refine ⟨a0, h1, h2, ?_⟩
    have h : b = (((false || (true && a0.testBit 0)) || ((true && ((List.range 384).foldl (fun _ i => a0.testBit 0 || a0.testBit i) false)) && a1.testBit 0))) := h
    rw [h, hz a0 h1]
    cases a0.testBit 0 <;> simp
  · rintro ⟨a0, h1, h2, rfl⟩
    refine ⟨a0, ⟨h1, h2⟩, canon x.a1, canon_rep x.a1, ?_⟩
    show _ = (((false || (true && a0.testBit 0)) || ((true && ((List.range 384).foldl (fun _ i => a0.testBit 0 || a0.testBit i) false)) && (canon x.a1).testBit 0)))
    rw [hz a0 h1]
    cases a0.testBit 0 <;> simp

/-! ## The map -/

theorem A_ne : RFC.A ≠ 0 := by
  intro h
  have h2 : (240 : Fq) = 0 := congrArg QuadraticAlgebra.im h
  have h3 : ((240 : ℕ) : Fq) = 0 := by simpa using h2
  have := (CharP.cast_eq_zero_iff Fq q 240).1 h3
  exact absurd (Nat.le_of_dvd (by norm_num) this) (by decide +kernel)

theorem Z_ne : RFC.Z ≠ 0 := by
  intro h
  have h2 : (-1 : Fq) = 0 := congrArg QuadraticAlgebra.im h
  exact one_ne_zero (neg_eq_zero.1 h2)

/-- The numerator and the denominator of `g(x1)`. -/
def gNum (u : Fq2 Fq) : Fq2 Fq :=
  (RFC.B * (RFC.den u + 1)) ^ 3 + RFC.A * (RFC.B * (RFC.den u + 1)) * (-RFC.den u * RFC.A) ^ 2 + RFC.B * (-RFC.den u * RFC.A) ^ 3
def gDen (u : Fq2 Fq) : Fq2 Fq := (-RFC.den u * RFC.A) ^ 3

variable {u : Fq2 Fq}

theorem gDen_ne (h : RFC.den u ≠ 0) : gDen u ≠ 0 := pow_ne_zero _ (mul_ne_zero (neg_ne_zero.2 h) A_ne)

theorem x1_eq (h : RFC.den u ≠ 0) : RFC.x1 u = RFC.B * (RFC.den u + 1) / (-RFC.den u * RFC.A) := by
  have hA := A_ne
  unfold RFC.x1
  rw [if_neg h]
  field_simp

theorem g_x1 (h : RFC.den u ≠ 0) : RFC.g (RFC.x1 u) = gNum u / gDen u := by
  have hA := A_ne
  rw [x1_eq h]
  unfold RFC.g gNum gDen
  have hn : -RFC.den u ≠ 0 := neg_ne_zero.2 h
  generalize -RFC.den u = D at *
  field_simp

theorem g_x2 (h : RFC.den u ≠ 0) : RFC.g (RFC.x2 u) = (RFC.Z * u ^ 2) ^ 3 * RFC.g (RFC.x1 u) := by
  have hA := A_ne
  unfold RFC.x2
  rw [x1_eq h]
  unfold RFC.g
  have hd : RFC.den u = (RFC.Z * u ^ 2) ^ 2 + RFC.Z * u ^ 2 := by unfold RFC.den; ring
  have hn : -RFC.den u ≠ 0 := neg_ne_zero.2 h
  rw [hd] at *
  generalize RFC.Z * u ^ 2 = t at *
  generalize RFC.A = A at *
  generalize RFC.B = B at *
  have e : t ^ 2 + t = t * (t + 1) := by ring
  rw [e] at hn ⊢
  have ht : t ≠ 0 := left_ne_zero_of_mul (neg_ne_zero.1 hn)
  have ht1 : t + 1 ≠ 0 := right_ne_zero_of_mul (neg_ne_zero.1 hn)
  field_simp
  ring

/-- The map, test by test: `z` and `b` are the answers of `g2SqrtRatio`, `su` and `sy` those of `g2Sgn0`. -/
theorem map_iff (u x y : E2 Fq) : mapElementToCurve2 u (x, y) ↔
    RFC.den u.val ≠ 0 ∧ ∃ n d z y0 : E2 Fq, ∃ b su sy : Bool, n.val = gNum u.val ∧ d.val = gDen u.val ∧
      g2SqrtRatio n d (z, b) ∧ y0.val = (if b then RFC.Z * u.val ^ 3 * z.val else z.val) ∧
      g2Sgn0 u su ∧ g2Sgn0 y0 sy ∧
      x.val = (if b then RFC.x2 u.val else RFC.x1 u.val) ∧ y.val = (if su ^^ sy then -y0.val else y0.val) := by
  have sel : ∀ (b : Bool) (x y : E2 Fq), (E2.select b x y).val = if b then x.val else y.val := by
    intro b x y; cases b <;> rfl
  have hden : RFC.den u.val = (RFC.Z * (u.val * u.val)) * (RFC.Z * (u.val * u.val)) + RFC.Z * (u.val * u.val) := by
    unfold RFC.den; ring
  unfold mapElementToCurve2
  constructor
  · rintro ⟨⟨z, b⟩, hz, su, hsu, sy, hsy, x', hx', h⟩
    obtain ⟨rfl, hy⟩ := Prod.mk.inj (show (x, y) = (x', _) from h)
    have hx : E2.div _ _ = some x := hx'
    rw [E2.div_some_iff] at hx
    obtain ⟨h1, h2⟩ := hx
    simp only [E2.val_mul, E2.val_neg, E2.val_add, E2.val_square, sswuA_val, sswuZ_val, mul_comm _ RFC.Z, ← hden] at h1
    have hd : RFC.den u.val ≠ 0 := by
      intro h0
      rw [h0] at h1
      simp at h1
    refine ⟨hd, _, _, z, _, b, su, sy, ?_, ?_, hz, ?_, hsu, hsy, ?_, ?_⟩
    · simp only [E2.val_mul, E2.val_neg, E2.val_add, E2.val_square, E2.val_one, sswuA_val, sswuB_val, sswuZ_val, mul_comm _ RFC.Z, ← hden]
      unfold gNum
      ring
    · simp only [E2.val_mul, E2.val_neg, E2.val_add, E2.val_square, E2.val_one, sswuA_val, sswuB_val, sswuZ_val, mul_comm _ RFC.Z, ← hden]
      unfold gDen
      ring
    · simp only [sel, E2.val_mul, E2.val_neg, E2.val_add, E2.val_square, E2.val_one, sswuA_val, sswuB_val, sswuZ_val]
      congr 1
      ring
    · rw [h2]
      simp only [sel, E2.val_mul, E2.val_neg, E2.val_add, E2.val_square, E2.val_one, sswuA_val, sswuB_val, sswuZ_val, mul_comm _ RFC.Z, ← hden]
      unfold RFC.x2
      rw [x1_eq hd]
      cases b
      · simp only [Bool.false_eq_true, if_false]
        ring
      · simp only [if_true]
        ring
    · rw [hy, sel, E2.val_neg]
  · rintro ⟨hd, n, d, z, y0, b, su, sy, hn, hdd, hz, hy0, hsu, hsy, hx, hy⟩
    have en : n = E2.add (E2.mul (E2.add (E2.square (E2.mul (E2.add (E2.add (E2.square (E2.mul (E2.square u) sswuZ)) (E2.mul (E2.square u) sswuZ)) E2.one) sswuB))
        (E2.mul (E2.square (E2.mul (E2.neg (E2.add (E2.square (E2.mul (E2.square u) sswuZ)) (E2.mul (E2.square u) sswuZ))) sswuA)) sswuA))
        (E2.mul (E2.add (E2.add (E2.square (E2.mul (E2.square u) sswuZ)) (E2.mul (E2.square u) sswuZ)) E2.one) sswuB))
        (E2.mul (E2.mul (E2.square (E2.mul (E2.neg (E2.add (E2.square (E2.mul (E2.square u) sswuZ)) (E2.mul (E2.square u) sswuZ))) sswuA))
          (E2.mul (E2.neg (E2.add (E2.square (E2.mul (E2.square u) sswuZ)) (E2.mul (E2.square u) sswuZ))) sswuA)) sswuB) := by
      rw [← E2.val_inj, hn]
      simp only [E2.val_mul, E2.val_neg, E2.val_add, E2.val_square, E2.val_one, sswuA_val, sswuB_val, sswuZ_val, mul_comm _ RFC.Z, ← hden]
      unfold gNum
      ring
    have ed : d = E2.mul (E2.square (E2.mul (E2.neg (E2.add (E2.square (E2.mul (E2.square u) sswuZ)) (E2.mul (E2.square u) sswuZ))) sswuA))
          (E2.mul (E2.neg (E2.add (E2.square (E2.mul (E2.square u) sswuZ)) (E2.mul (E2.square u) sswuZ))) sswuA) := by
      rw [← E2.val_inj, hdd]
      simp only [E2.val_mul, E2.val_neg, E2.val_add, E2.val_square, E2.val_one, sswuA_val, sswuB_val, sswuZ_val, mul_comm _ RFC.Z, ← hden]
      unfold gDen
      ring
    have ey : y0 = E2.select b (E2.mul (E2.mul (E2.mul (E2.square u) sswuZ) u) z) z := by
      rw [← E2.val_inj, hy0]
      simp only [sel, E2.val_mul, E2.val_neg, E2.val_add, E2.val_square, E2.val_one, sswuA_val, sswuB_val, sswuZ_val]
      congr 1
      ring
    subst en ed ey
    refine ⟨(z, b), hz, su, hsu, sy, hsy, x, ?_, ?_⟩
    · show E2.div _ _ = some x
      rw [E2.div_some_iff]
      simp only [sel, E2.val_mul, E2.val_neg, E2.val_add, E2.val_square, E2.val_one, sswuA_val, sswuB_val, sswuZ_val, mul_comm _ RFC.Z, ← hden]
      refine ⟨mul_ne_zero (neg_ne_zero.2 hd) A_ne, ?_⟩
      rw [hx]
      unfold RFC.x2
      rw [x1_eq hd]
      cases b
      · simp only [Bool.false_eq_true, if_false]
        ring
      · simp only [if_true]
        ring
    · show (x, y) = (x, _)
      congr 1
      rw [← E2.val_inj, hy]
      simp only [sel, E2.val_neg]

end Verif.Bls
