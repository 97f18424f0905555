import Verif.Bls.Iso
import Verif.Bls.PairExample

/-! # C57 (map to the isogenous curve) and C58 (the isogeny) -/

namespace Verif.Bls
open QuadraticAlgebra RFC

attribute [local irreducible] q r sqN sqrtC3 sqrtC6 sqrtC7 sswuA sswuB sswuZ isoXD isoXN isoYD isoYN

/-! ## Two numerical facts -/

theorem xi_eq : (1 : Fq2 Fq) + I = ofN (1, 1) := by
  ext <;> simp [I, ofN]

theorem four_xi_eq : (4 : Fq2 Fq) * (1 + I) = ofN (4, 4) := by
  ext <;> simp [I, ofN]

theorem xi_pow_num : powN 800 (1, 1) (4 * sqN) = (q - 1, 0) := by
  unfold sqN
  decide +kernel

theorem four_xi_pow_num : (powN 800 (4, 4) ((q ^ 2 - 1) / 3)).2 = 0 ∧ (powN 800 (4, 4) ((q ^ 2 - 1) / 3)).1 % q ≠ 1 := by
  decide +kernel

theorem xi_pow : ((1 : Fq2 Fq) + I) ^ (4 * sqN) = -1 := by
  rw [xi_eq, ← ofN_pow 800 (1, 1) (4 * sqN) (by unfold sqN; decide +kernel), xi_pow_num]
  ext
  · show ((q - 1 : ℕ) : Fq) = -1
    rw [Nat.cast_sub q_pos, cast_q, zero_sub, Nat.cast_one]
  · simp [ofN]

theorem neg_one_ne : (-1 : Fq2 Fq) ≠ 1 := by
  intro h
  have h2 : (-1 : Fq) = 1 := congrArg QuadraticAlgebra.re h
  apply two_ne
  linear_combination -h2

theorem xi_ne : (1 : Fq2 Fq) + I ≠ 0 := by
  intro h
  have h2 := xi_pow
  rw [h, zero_pow (by have := sqN_ne; omega)] at h2
  have h3 : (0 : Fq) = -1 := congrArg QuadraticAlgebra.re h2
  exact one_ne_zero (neg_eq_zero.1 h3.symm)

/-- The kernel of the isogeny has no rational point: `g(-6 + 6 I) = 4 (1 + I)` is not a square. -/
theorem kernel_irrational (x y : Fq2 Fq) (h : y ^ 2 = g x) : isoD x ≠ 0 := by
  intro h0
  have hx : x = -6 + 6 * I := by unfold isoD at h0; linear_combination h0
  have hA : RFC.A = 240 * I := by
    ext <;> simp [RFC.A, I]
  have hB : RFC.B = 1012 * (1 + I) := by
    ext <;> simp [RFC.B, I]
  have e : g x = 4 * (1 + I) := by
    unfold g
    rw [hx, hA, hB]
    linear_combination (792 + 216 * I) * I_sq
  have h4 : (2 : Fq2 Fq) ≠ 0 := two2_ne
  have hs : IsSquare ((1 : Fq2 Fq) + I) := by
    refine ⟨y / 2, ?_⟩
    field_simp
    linear_combination -h - e
  rw [isSquare_iff _ xi_ne, xi_pow] at hs
  exact neg_one_ne hs

/-- The twist has no point of order two: `-4 (1 + I)` is not a cube. -/
theorem no_two_torsion (w : Fq2 Fq) : w ^ 3 + 4 * (1 + I) ≠ 0 := by
  intro h
  have hc : (4 : Fq2 Fq) * (1 + I) = (-w) ^ 3 := by linear_combination h
  have hne : -w ≠ 0 := by
    intro h1
    rw [h1] at hc
    have : (4 : Fq2 Fq) * (1 + I) ≠ 0 := by
      have h2 := two2_ne
      have : (4 : Fq2 Fq) = 2 * 2 := by norm_num
      rw [this]
      exact mul_ne_zero (mul_ne_zero h2 h2) xi_ne
    exact this (by rw [hc]; ring)
  have h8 := Fq2_pow_card _ hne
  have key : ∀ a b : ℕ, 3 * a = b → (-w) ^ b = 1 → ((4 : Fq2 Fq) * (1 + I)) ^ a = 1 := by
    rintro a b rfl h
    rw [hc, ← pow_mul]
    exact h
  have h9 := key ((q ^ 2 - 1) / 3) (8 * sqN) (by unfold sqN; decide +kernel) h8
  rw [four_xi_eq, ← ofN_pow 800 (4, 4) _ (by decide +kernel)] at h9
  obtain ⟨e2, e1⟩ := four_xi_pow_num
  generalize powN 800 (4, 4) ((q ^ 2 - 1) / 3) = w at *
  have h10 : (w.1 : Fq) = 1 := congrArg QuadraticAlgebra.re h9
  have h11 : canon ((w.1 : ℕ) : Fq) = w.1 % q := ZMod.val_natCast q w.1
  rw [h10, canon_one] at h11
  exact e1 h11.symm

/-- The isogenous curve has no point of order two. -/
theorem g_ne (x : Fq2 Fq) : g x ≠ 0 := by
  intro h0
  have hd : isoD x ≠ 0 := kernel_irrational x 0 (by rw [h0]; ring)
  have h := iso_identity x hd
  rw [h0, mul_zero] at h
  exact no_two_torsion _ h.symm

theorem gNum_ne {u : Fq2 Fq} (h : den u ≠ 0) : gNum u ≠ 0 := by
  intro h0
  have := g_x1 h
  rw [h0, zero_div] at this
  exact g_ne _ this

/-! ## C57: square roots of ratios -/

/-- **C57** (`sqrt_ratio`, completeness).  For nonzero `u`, `v` some satisfying assignment returns the flag "non-square" exactly when
`u/v` is not a square, together with a square root of `u/v`, respectively of `Z u/v` (RFC 9380, appendix F.2.1). -/
theorem C57_sqrt_ratio_complete (u v : E2 Fq) (hu : u.val ≠ 0) (hv : v.val ≠ 0) :
    ∃ z b, g2SqrtRatio u v (z, b) ∧ (b = true ↔ ¬ IsSquare (u.val / v.val)) ∧
      z.val ^ 2 = (if b then RFC.Z * (u.val / v.val) else u.val / v.val) := by
  obtain ⟨z, b, h, hb, hz⟩ := sqrt_honest u v hu hv
  refine ⟨z, b, h, hb, ?_⟩
  cases b
  · simp only [Bool.false_eq_true, if_false] at hz ⊢
    field_simp
    exact hz
  · simp only [if_true] at hz ⊢
    field_simp
    exact hz

/-- **C57** (`sqrt_ratio`, every satisfying assignment).  The result is a square root up to an eighth root of unity `ζ`;
"square" is only reported when it is true; and if the result is a square root in the sense of the RFC then the flag is right. -/
theorem C57_sqrt_ratio_partial (u v z : E2 Fq) (b : Bool) (hu : u.val ≠ 0) (hv : v.val ≠ 0) (h : g2SqrtRatio u v (z, b)) :
    (∃ ζ : Fq2 Fq, ζ ^ 8 = 1 ∧ z.val ^ 2 = (if b then RFC.Z * (u.val / v.val) else u.val / v.val) * ζ) ∧
      (b = false → IsSquare (u.val / v.val)) ∧
      (z.val ^ 2 = (if b then RFC.Z * (u.val / v.val) else u.val / v.val) → (b = true ↔ ¬ IsSquare (u.val / v.val))) := by
  obtain ⟨ζ, h8, hz, hf, ht⟩ := sqrt_all u v z b hu hv h
  have hz' : z.val ^ 2 = (if b then RFC.Z * (u.val / v.val) else u.val / v.val) * ζ := by
    cases b
    · simp only [Bool.false_eq_true, if_false] at hz ⊢
      field_simp
      exact hz
    · simp only [if_true] at hz ⊢
      field_simp
      exact hz
  refine ⟨⟨ζ, h8, hz'⟩, hf, ?_⟩
  intro hr
  cases b with
  | false => simp [hf rfl]
  | true =>
    simp only [true_iff]
    intro hi
    have h4 := ht rfl hi
    have hne : (if true then RFC.Z * (u.val / v.val) else u.val / v.val) ≠ 0 :=
      mul_ne_zero Z_ne (div_ne_zero hu hv)
    have h1 : ζ = 1 := by
      rw [hr] at hz'
      exact mul_left_cancel₀ hne (by rw [mul_one, ← hz'])
    rw [h1, one_pow] at h4
    exact neg_one_ne h4.symm

/-- **C57 fails for the code** (`sqrt_ratio`): whenever `u/v` is a square the prover can have it reported as a non-square, and then what
is returned is not a square root of `Z u/v`. -/
theorem C57_sqrt_ratio_fails (u v : E2 Fq) (hu : u.val ≠ 0) (hv : v.val ≠ 0) (hi : IsSquare (u.val / v.val)) :
    ∃ z, g2SqrtRatio u v (z, true) ∧ z.val ^ 2 ≠ RFC.Z * (u.val / v.val) := by
  obtain ⟨z, h⟩ := sqrt_dishonest u v hu hv
  refine ⟨z, h, fun hz => ?_⟩
  have := ((C57_sqrt_ratio_partial u v z true hu hv h).2.2 (by simpa using hz)).1 rfl
  exact this hi

/-! ## C57: the sign -/

/-- **C57 fails for the code** (`sgn0`): the answer is the parity of a representative of the first coordinate; the second coordinate,
which decides the sign when the first is zero, has no influence. -/
theorem C57_sgn0_fails (x : E2 Fq) (b : Bool) :
    (g2Sgn0 x b ↔ ∃ v : ℕ, v < 2 ^ 381 ∧ (v : Fq) = x.a0 ∧ b = decide (v % 2 = 1)) ∧
      ∀ a1, (g2Sgn0 ⟨x.a0, a1⟩ b ↔ g2Sgn0 x b) := by
  refine ⟨?_, fun a1 => ?_⟩
  · rw [g2Sgn0_iff]
    simp only [Nat.testBit_zero]
  · rw [g2Sgn0_iff, g2Sgn0_iff]

theorem rep_cases {x : Fq} {v : ℕ} (h1 : v < 2 ^ 381) (h2 : (v : Fq) = x) : v = canon x ∨ (v = canon x + q ∧ canon x < 2 ^ 381 - q) := by
  have hq := q_lt
  have e : v % q = canon x := by
    have : canon ((v : ℕ) : Fq) = v % q := ZMod.val_natCast q v
    rw [← this, h2]
  by_cases hlt : v < q
  · left; rw [← e, Nat.mod_eq_of_lt hlt]
  · right
    have h2q : v < 2 * q := lt_of_lt_of_le h1 (by decide +kernel)
    have e2 : v % q = v - q := by
      rw [Nat.mod_eq_sub_mod (not_lt.1 hlt), Nat.mod_eq_of_lt (by omega)]
    generalize 2 ^ 381 = B at *
    omega

/-- For first coordinates whose canonical value is at least `2³⁸¹ - q` the sign is the RFC's. -/
theorem C57_sgn0_partial (x : E2 Fq) (b : Bool) (hx : 2 ^ 381 - q ≤ canon x.a0) : g2Sgn0 x b ↔ b = sgn0 x.val := by
  have h0 : canon x.a0 ≠ 0 := by
    have := q_lt
    generalize 2 ^ 381 = B at *
    omega
  have hs : sgn0 x.val = (canon x.a0).testBit 0 := by
    unfold sgn0
    show ((canon x.a0 % 2 == 1) || ((canon x.a0 == 0) && _)) = _
    have : (canon x.a0 == 0) = false := by simpa using h0
    rw [this, Bool.false_and, Bool.or_false, Nat.testBit_zero]
    rfl
  rw [g2Sgn0_iff, hs]
  constructor
  · rintro ⟨v, h1, h2, rfl⟩
    rcases rep_cases h1 h2 with h | ⟨_, h⟩
    · rw [h]
    · exact absurd h (not_lt.2 hx)
  · rintro rfl
    exact ⟨canon x.a0, (canon_rep _).1, (canon_rep _).2, rfl⟩

/-- The sign of the RFC is always one of the possible answers. -/
theorem sgn0_possible (x : E2 Fq) : g2Sgn0 x (sgn0 x.val) := by
  rw [g2Sgn0_iff]
  by_cases h0 : canon x.a0 = 0
  · have hx : x.a0 = 0 := by rw [← canon_cast x.a0, h0, Nat.cast_zero]
    rw [hx]
    have hodd : q.testBit 0 = true := by decide +kernel
    cases sgn0 x.val
    · exact ⟨0, by norm_num, Nat.cast_zero, by simp⟩
    · exact ⟨q, q_lt, cast_q, hodd.symm⟩
  · refine ⟨canon x.a0, (canon_rep _).1, (canon_rep _).2, ?_⟩
    unfold sgn0
    show ((canon x.a0 % 2 == 1) || ((canon x.a0 == 0) && _)) = _
    have : (canon x.a0 == 0) = false := by simpa using h0
    rw [this, Bool.false_and, Bool.or_false, Nat.testBit_zero]
    rfl

theorem canon_neg {a : Fq} (h : a ≠ 0) : canon (-a) = q - canon a := by
  haveI : NeZero (show ZMod q from a) := ⟨h⟩
  exact ZMod.val_neg_of_ne_zero (show ZMod q from a)

theorem canon_ne_zero {a : Fq} (h : a ≠ 0) : canon a ≠ 0 := by
  intro h0
  exact h (by rw [← canon_cast a, h0, Nat.cast_zero])

theorem parity_neg {a : Fq} (h : a ≠ 0) : (canon (-a) % 2 == 1) = !(canon a % 2 == 1) := by
  rw [canon_neg h]
  have h1 := canon_lt a
  have hodd : q % 2 = 1 := by decide +kernel
  have h2 : (q - canon a) % 2 = 1 - canon a % 2 := by omega
  rw [h2]
  rcases Nat.mod_two_eq_zero_or_one (canon a) with h | h <;> rw [h] <;> rfl

/-- The RFC's sign separates a nonzero element from its opposite. -/
theorem sgn0_neg {x : Fq2 Fq} (h : x ≠ 0) : sgn0 (-x) = !sgn0 x := by
  unfold sgn0
  by_cases h0 : x.re = 0
  · have h1 : x.im ≠ 0 := by
      intro h1
      exact h (by ext; exacts [h0, h1])
    rw [re_neg, im_neg, h0, neg_zero, canon_zero, parity_neg h1]
    rfl
  · rw [re_neg, im_neg, parity_neg h0]
    have e1 : (canon x.re == 0) = false := by simpa using canon_ne_zero h0
    have e2 : (canon (-x.re) == 0) = false := by simpa using canon_ne_zero (neg_ne_zero.2 h0)
    rw [e1, e2, Bool.false_and, Bool.false_and, Bool.or_false, Bool.or_false]

/-! ## C57: the map -/

/-- What the specification leaves open is nothing: the value of the RFC's map is unique. -/
theorem C57_spec_unique (u x y x' y' : Fq2 Fq) (h : SSWU u x y) (h' : SSWU u x' y') : x = x' ∧ y = y' := by
  obtain ⟨h1, h2, h3⟩ := h
  obtain ⟨h1', h2', h3'⟩ := h'
  have hx : x = x' := h1.trans h1'.symm
  subst hx
  refine ⟨rfl, ?_⟩
  have : (y - y') * (y + y') = 0 := by linear_combination h2 - h2'
  rcases mul_eq_zero.1 this with h | h
  · exact sub_eq_zero.1 h
  · exfalso
    have hy : y' = -y := by linear_combination h
    have hy0 : y ≠ 0 := by
      rintro rfl
      exact g_ne x (by rw [← h2]; ring)
    rw [hy, sgn0_neg hy0, ← h3] at h3'
    cases h4 : sgn0 y <;> rw [h4] at h3' <;> simp at h3'

theorem map_core {u x y n d z y0 : E2 Fq} {b su sy : Bool} (hd : den u.val ≠ 0) (hn : n.val = gNum u.val) (hdd : d.val = gDen u.val)
    (hz : g2SqrtRatio n d (z, b)) (hy0 : y0.val = (if b then RFC.Z * u.val ^ 3 * z.val else z.val))
    (hx : x.val = (if b then x2 u.val else x1 u.val)) (hy : y.val = (if su ^^ sy then -y0.val else y0.val)) :
    ∃ ζ : Fq2 Fq, y.val ^ 2 = g x.val * ζ ∧ ζ ^ 8 = 1 ∧
      (b = false → IsSquare (g (x1 u.val))) ∧ (b = true → IsSquare (g (x1 u.val)) → ζ ^ 4 = -1) := by
  have hnn : n.val ≠ 0 := by rw [hn]; exact gNum_ne hd
  have hdn : d.val ≠ 0 := by rw [hdd]; exact gDen_ne hd
  obtain ⟨ζ, h8, hζ, hf, ht⟩ := sqrt_all n d z b hnn hdn hz
  have hg : g (x1 u.val) = n.val / d.val := by rw [g_x1 hd, hn, hdd]
  rw [← hg] at hf ht
  refine ⟨ζ, ?_, h8, hf, ht⟩
  have hyy : y.val ^ 2 = y0.val ^ 2 := by
    rw [hy]
    cases su ^^ sy <;> simp
  have hnd : n.val = g (x1 u.val) * d.val := by rw [hg]; field_simp
  rw [hyy, hy0, hx]
  rw [hnd] at hζ
  cases b
  · simp only [Bool.false_eq_true, if_false] at hζ ⊢
    exact mul_right_cancel₀ hdn (by linear_combination hζ)
  · simp only [if_true] at hζ ⊢
    rw [g_x2 hd]
    exact mul_right_cancel₀ hdn (by linear_combination (RFC.Z * u.val ^ 3) ^ 2 * hζ)

theorem map_cases {u x y : E2 Fq} (h : mapElementToCurve2 u (x, y)) : den u.val ≠ 0 ∧ ∃ b : Bool, ∃ ζ : Fq2 Fq,
    x.val = (if b then x2 u.val else x1 u.val) ∧ y.val ^ 2 = g x.val * ζ ∧ ζ ^ 8 = 1 ∧
    (b = false → IsSquare (g (x1 u.val))) ∧ (b = true → IsSquare (g (x1 u.val)) → ζ ^ 4 = -1) := by
  obtain ⟨hd, n, d, z, y0, b, su, sy, hn, hdd, hz, hy0, hsu, hsy, hx, hy⟩ := (map_iff u x y).1 h
  obtain ⟨ζ, h1⟩ := map_core hd hn hdd hz hy0 hx hy
  exact ⟨hd, b, ζ, hx, h1⟩

/-- **C57** (completeness).  Unless the denominator vanishes, some satisfying assignment yields the RFC's point. -/
theorem C57_map_complete (u : E2 Fq) (hd : den u.val ≠ 0) :
    ∃ x y, mapElementToCurve2 u (x, y) ∧ SSWU u.val x.val y.val := by
  obtain ⟨n, hn⟩ := E2.val_surj (gNum u.val)
  obtain ⟨d, hdd⟩ := E2.val_surj (gDen u.val)
  have hnn : n.val ≠ 0 := by rw [hn]; exact gNum_ne hd
  have hdn : d.val ≠ 0 := by rw [hdd]; exact gDen_ne hd
  obtain ⟨z, b, hz, hb, hzz⟩ := sqrt_honest n d hnn hdn
  have hg : g (x1 u.val) = n.val / d.val := by rw [g_x1 hd, hn, hdd]
  obtain ⟨y0, hy0⟩ := E2.val_surj (if b then RFC.Z * u.val ^ 3 * z.val else z.val)
  obtain ⟨x, hx⟩ := E2.val_surj (if b then x2 u.val else x1 u.val)
  obtain ⟨y, hy⟩ := E2.val_surj (if sgn0 u.val ^^ sgn0 y0.val then -y0.val else y0.val)
  have h := (map_iff u x y).2 ⟨hd, n, d, z, y0, b, sgn0 u.val, sgn0 y0.val, hn, hdd, hz, hy0, sgn0_possible u, sgn0_possible y0, hx, hy⟩
  have hxs : x.val = sswuX u.val := by
    rw [hx]
    unfold sswuX
    rw [hg]
    by_cases hi : IsSquare (n.val / d.val)
    · have : b = false := by
        cases b
        · rfl
        · exact absurd hi (hb.1 rfl)
      rw [if_pos hi, this]
      rfl
    · rw [if_neg hi, hb.2 hi]
      rfl
  have hnd : n.val = g (x1 u.val) * d.val := by rw [hg]; field_simp
  have hy2 : y0.val ^ 2 = g x.val := by
    rw [hy0, hx]
    rw [hnd] at hzz
    cases b
    · simp only [Bool.false_eq_true, if_false] at hzz ⊢
      exact mul_right_cancel₀ hdn (by linear_combination hzz)
    · simp only [if_true] at hzz ⊢
      rw [g_x2 hd]
      exact mul_right_cancel₀ hdn (by linear_combination (RFC.Z * u.val ^ 3) ^ 2 * hzz)
  have hne : y0.val ≠ 0 := by
    intro h0
    rw [h0] at hy2
    exact g_ne _ (hy2.symm.trans (by ring))
  refine ⟨x, y, h, hxs, ?_, ?_⟩
  · rw [hy, ← hy2]
    cases sgn0 u.val ^^ sgn0 y0.val <;> simp
  · rw [hy]
    cases h1 : sgn0 u.val <;> cases h2 : sgn0 y0.val <;> simp [h2, sgn0_neg hne]

/-- **C57** (every satisfying assignment): if the output lies on the isogenous curve then it is the RFC's point or its opposite.
What is missing: the output need not lie on the curve (`C57_map_fails`), and the sign is the RFC's only under the conditions of
`C57_map_sign_partial`. -/
theorem C57_map_sound_partial (u x y : E2 Fq) (h : mapElementToCurve2 u (x, y)) (hc : y.val ^ 2 = g x.val) :
    SSWU u.val x.val y.val ∨ SSWU u.val x.val (-y.val) := by
  obtain ⟨hd, b, ζ, hx, hy, h8, hf, ht⟩ := map_cases h
  have h1 : ζ = 1 := by
    rw [hc] at hy
    exact mul_left_cancel₀ (g_ne x.val) (by rw [mul_one, ← hy])
  have hxs : x.val = sswuX u.val := by
    rw [hx]
    unfold sswuX
    cases b with
    | false => rw [if_pos (hf rfl)]; rfl
    | true =>
      have hi : ¬ IsSquare (g (x1 u.val)) := by
        intro hi
        have := ht rfl hi
        rw [h1, one_pow] at this
        exact neg_one_ne this.symm
      rw [if_neg hi]; rfl
  have hne : y.val ≠ 0 := by
    intro h0
    rw [h0] at hc
    exact g_ne _ (hc.symm.trans (by ring))
  by_cases hs : sgn0 y.val = sgn0 u.val
  · exact Or.inl ⟨hxs, hc, hs⟩
  · refine Or.inr ⟨hxs, by rw [← hc]; ring, ?_⟩
    rw [sgn0_neg hne]
    cases h1 : sgn0 u.val <;> cases h2 : sgn0 y.val <;> simp [h1, h2] at hs ⊢

/-- **C57** (every satisfying assignment): the sign is right as well if the first coordinates of `u`, `y` and `-y` have a single
representative below `2³⁸¹`. -/
theorem C57_map_sign_partial (u x y : E2 Fq) (h : mapElementToCurve2 u (x, y)) (hc : y.val ^ 2 = g x.val)
    (hu : 2 ^ 381 - q ≤ canon u.a0) (hy1 : 2 ^ 381 - q ≤ canon y.a0) (hy2 : 2 ^ 381 - q ≤ canon (-y.a0)) :
    SSWU u.val x.val y.val := by
  rcases C57_map_sound_partial u x y h hc with hs | hs
  · exact hs
  exfalso
  obtain ⟨hd, n, d, z, y0, b, su, sy, hn, hdd, hz, hy0, hsu, hsy, hx, hy⟩ := (map_iff u x y).1 h
  have hne : y.val ≠ 0 := by
    intro h0
    rw [h0] at hc
    exact g_ne _ (hc.symm.trans (by ring))
  have hsu' := (C57_sgn0_partial u su hu).1 hsu
  have hs3 := hs.2.2
  rw [sgn0_neg hne] at hs3
  cases hxor : su ^^ sy
  · rw [hxor] at hy
    have e : y = y0 := E2.val_inj.1 hy
    rw [← e] at hsy
    have hsy' := (C57_sgn0_partial y sy hy1).1 hsy
    rw [hsu', hsy', ← hs3] at hxor
    cases h5 : sgn0 y.val <;> rw [h5] at hxor <;> simp at hxor
  · rw [hxor, if_pos rfl] at hy
    have e : y0.a0 = -y.a0 := by
      have := congrArg QuadraticAlgebra.re hy
      have h6 : y.a0 = -y0.a0 := this
      rw [h6, neg_neg]
    have hsy' := (C57_sgn0_partial y0 sy (by rw [e]; exact hy2)).1 hsy
    have e2 : y0.val = -y.val := by rw [hy, neg_neg]
    rw [e2, sgn0_neg hne] at hsy'
    rw [hsu', hsy', ← hs3] at hxor
    cases h5 : sgn0 y.val <;> rw [h5] at hxor <;> simp at hxor

/-- **C57 fails for the code**: for every `u` whose first candidate is on the curve (about half of all `u`), the prover can make the
gadget return a pair that is not on the curve. -/
theorem C57_map_fails (u : E2 Fq) (hd : den u.val ≠ 0) (hi : IsSquare (g (x1 u.val))) :
    ∃ x y, mapElementToCurve2 u (x, y) ∧ y.val ^ 2 ≠ g x.val := by
  obtain ⟨n, hn⟩ := E2.val_surj (gNum u.val)
  obtain ⟨d, hdd⟩ := E2.val_surj (gDen u.val)
  have hnn : n.val ≠ 0 := by rw [hn]; exact gNum_ne hd
  have hdn : d.val ≠ 0 := by rw [hdd]; exact gDen_ne hd
  obtain ⟨z, hz⟩ := sqrt_dishonest n d hnn hdn
  obtain ⟨y0, hy0⟩ := E2.val_surj (RFC.Z * u.val ^ 3 * z.val)
  obtain ⟨x, hx⟩ := E2.val_surj (x2 u.val)
  obtain ⟨y, hy⟩ := E2.val_surj (if sgn0 u.val ^^ sgn0 y0.val then -y0.val else y0.val)
  have h := (map_iff u x y).2 ⟨hd, n, d, z, y0, true, sgn0 u.val, sgn0 y0.val, hn, hdd, hz, hy0, sgn0_possible u, sgn0_possible y0,
    by rw [hx]; rfl, hy⟩
  refine ⟨x, y, h, fun hc => ?_⟩
  obtain ⟨ζ, hyy, -, -, ht⟩ := map_core (u := u) (x := x) (y := y) (b := true) hd hn hdd hz (by rw [hy0]; rfl) (by rw [hx]; rfl) hy
  have h1 : ζ = 1 := by
    rw [hc] at hyy
    exact mul_left_cancel₀ (g_ne x.val) (by rw [mul_one, ← hyy])
  have h4 := ht rfl hi
  rw [h1, one_pow] at h4
  exact neg_one_ne h4.symm

/-- **C57 fails for the code**: where the RFC's map takes its exceptional value (for instance at `u = 0`) the gadget is unsatisfiable. -/
theorem C57_map_exceptional_fails (u : E2 Fq) (hd : den u.val = 0) : ¬ ∃ xy, mapElementToCurve2 u xy := by
  rintro ⟨⟨x, y⟩, h⟩
  exact ((map_iff u x y).1 h).1 hd

/-! ### The hypotheses are met -/

theorem den_one : den 1 = 1 + 3 * I := by
  unfold den
  have hZ : RFC.Z = -2 - I := by
    ext <;> simp [RFC.Z, I]
  rw [hZ]
  linear_combination I_sq

/-- At `u = 0` the gadget has no satisfying assignment, while the RFC's map has a value there. -/
theorem C57_zero_example : ¬ ∃ xy, mapElementToCurve2 E2.zero xy :=
  C57_map_exceptional_fails E2.zero (by rw [E2.val_zero]; unfold den; ring)

theorem one_den_ne : den (E2.one : E2 Fq).val ≠ 0 := by
  rw [E2.val_one, den_one]
  intro h
  have := congrArg QuadraticAlgebra.re h
  simp [I] at this

/-- A square root of `g(x1(1))`, and the equation `w² (-den A)³ = numerator` in numbers. -/
theorem one_square_num :
    let w : E2 Fq := ⟨((483950511133246063278500667890425269817047677648651481553368849123043384491524467549724515390600657308756785679369 : ℕ) : Fq),
      ((3906985860187570787735561476856923467787148002658702404484402624719385166527484043253636273152595842569682378807146 : ℕ) : Fq)⟩
    let B : E2 Fq := ⟨1012, 1012⟩
    let A : E2 Fq := ⟨0, 240⟩
    let t3 := E2.mul B ⟨2, 3⟩
    let t4 := E2.mul ⟨-1, -3⟩ A
    E2.mul (E2.square w) (E2.mul (E2.square t4) t4) =
      E2.add (E2.add (E2.mul (E2.square t3) t3) (E2.mul (E2.mul A t3) (E2.square t4))) (E2.mul B (E2.mul (E2.square t4) t4)) := by
  decide +kernel

theorem one_square : IsSquare (g (x1 (E2.one : E2 Fq).val)) := by
  have hd := one_den_ne
  rw [g_x1 hd]
  have h := congrArg E2.val one_square_num
  simp only [E2.val_mul, E2.val_add, E2.val_square] at h
  have e1 : (⟨1012, 1012⟩ : E2 Fq).val = RFC.B := rfl
  have e2 : (⟨0, 240⟩ : E2 Fq).val = RFC.A := rfl
  have e3 : (⟨2, 3⟩ : E2 Fq).val = den (E2.one : E2 Fq).val + 1 := by
    rw [E2.val_one, den_one]
    ext
    · show (2 : Fq) = _
      simp [I]; norm_num
    · show (3 : Fq) = _
      simp [I]
  have e4 : (⟨-1, -3⟩ : E2 Fq).val = -den (E2.one : E2 Fq).val := by
    rw [E2.val_one, den_one]
    ext
    · show (-1 : Fq) = _
      simp [I]
    · show (-3 : Fq) = _
      simp [I]
  rw [e1, e2, e3, e4] at h
  refine ⟨(⟨((483950511133246063278500667890425269817047677648651481553368849123043384491524467549724515390600657308756785679369 : ℕ) : Fq),
      ((3906985860187570787735561476856923467787148002658702404484402624719385166527484043253636273152595842569682378807146 : ℕ) : Fq)⟩ : E2 Fq).val, ?_⟩
  have hD := gDen_ne hd
  rw [div_eq_iff hD]
  unfold gNum gDen
  generalize (E2.val (⟨((483950511133246063278500667890425269817047677648651481553368849123043384491524467549724515390600657308756785679369 : ℕ) : Fq),
      ((3906985860187570787735561476856923467787148002658702404484402624719385166527484043253636273152595842569682378807146 : ℕ) : Fq)⟩ : E2 Fq)) = w at *
  linear_combination -h

/-- The attack applies at `u = 1`: a satisfying assignment with output off the curve, and another one with the RFC's output. -/
theorem C57_one_example : (∃ x y, mapElementToCurve2 E2.one (x, y) ∧ y.val ^ 2 ≠ g x.val) ∧
    ∃ x y, mapElementToCurve2 E2.one (x, y) ∧ SSWU (E2.one : E2 Fq).val x.val y.val :=
  ⟨C57_map_fails E2.one one_den_ne one_square, C57_map_complete E2.one one_den_ne⟩

/-! ## C58: the isogeny -/

/-- **C58**: on every point of the isogenous curve `G2Isogeny` is satisfiable, its output is determined, it is the RFC's, and it is a
point of the twist `y² = x³ + 4 (1 + I)`. -/
theorem C58_isogeny (p : G2Affine Fq) (hp : p.y.val ^ 2 = g p.x.val) :
    ∃ p', g2Isogeny p = some p' ∧ p'.x.val = isoX p.x.val ∧ p'.y.val = isoY p.x.val p.y.val ∧
      p'.y.val ^ 2 = p'.x.val ^ 3 + 4 * (1 + I) ∧ ∃ P, AR p' P := by
  have hd := kernel_irrational _ _ hp
  obtain ⟨x', hx⟩ := E2.val_surj (isoX p.x.val)
  obtain ⟨y', hy⟩ := E2.val_surj (isoY p.x.val p.y.val)
  have hcurve : y'.val ^ 2 = x'.val ^ 3 + 4 * (1 + I) := by
    rw [hx, hy, ← iso_identity _ hd, ← hp]
    unfold isoY
    ring
  refine ⟨⟨x', y'⟩, (iso_iff p ⟨x', y'⟩).2 ⟨hd, hx, hy⟩, hx, hy, hcurve, ?_⟩
  refine Verif.Ec.isPt_of two2_ne three2_ne b2_ne ?_
  rw [hcurve]
  have : bTw Fq = 4 * (1 + I) := by
    ext <;> simp [bTw, ξ, I]
  rw [this]

/-- **C58**, converse direction: whatever satisfying assignment there is, the output is the RFC's; and the output is on the twist
exactly when the input is on the isogenous curve. -/
theorem C58_isogeny_sound (p p' : G2Affine Fq) (h : g2Isogeny p = some p') :
    p'.x.val = isoX p.x.val ∧ p'.y.val = isoY p.x.val p.y.val ∧
      (p'.y.val ^ 2 = p'.x.val ^ 3 + 4 * (1 + I) ↔ p.y.val ^ 2 = g p.x.val) := by
  obtain ⟨hd, hx, hy⟩ := (iso_iff p p').1 h
  refine ⟨hx, hy, ?_⟩
  have hid := iso_identity _ hd
  rw [hx, hy, ← hid]
  unfold isoY
  generalize (p.x.val ^ 3 + 18 * (1 - I) * p.x.val ^ 2 - 264 * I * p.x.val - 752 * (1 + I)) = N at *
  have hN : N / (27 * isoD p.x.val ^ 3) ≠ 0 := by
    intro h0
    rw [h0] at hid
    exact no_two_torsion _ (hid.symm.trans (by ring))
  constructor
  · intro h2
    have : (N / (27 * isoD p.x.val ^ 3)) ^ 2 * (p.y.val ^ 2 - g p.x.val) = 0 := by
      linear_combination h2
    rcases mul_eq_zero.1 this with h3 | h3
    · exact absurd (pow_eq_zero_iff (two_ne_zero)|>.1 h3) hN
    · exact sub_eq_zero.1 h3
  · intro h2
    rw [← h2]; ring

/-- A point of the isogenous curve. -/
theorem C58_example : ∃ p : G2Affine Fq, p.y.val ^ 2 = g p.x.val := by
  obtain ⟨x, y, -, h⟩ := C57_map_complete E2.one one_den_ne
  exact ⟨⟨x, y⟩, h.2.1⟩

end Verif.Bls
