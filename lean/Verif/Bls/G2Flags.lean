import Verif.Bls.G2
import Verif.Bls.PairingL

/-! # The zero and equality tests of the BLS12-381 gadget: what a prover can make them say -/

namespace Verif.Bls
open Verif.Ec QuadraticAlgebra

attribute [local irreducible] q r E2.mulByNonResidueAt

theorem foldl_or (f : ℕ → Bool) (l : List ℕ) (b : Bool) : l.foldl (fun acc i => acc || f i) b = (b || l.any f) := by
  induction l generalizing b with
  | nil => simp
  | cons a l ih => rw [List.foldl_cons, ih, List.any_cons, Bool.or_assoc]

theorem or_bits (f : ℕ → Bool) (hf : ∀ i, 384 ≤ i → f i = false) :
    (List.range 384).foldl (fun acc i => acc || f i) false = true ↔ ∃ i, f i = true := by
  rw [foldl_or, Bool.false_or, List.any_eq_true]
  constructor
  · rintro ⟨i, _, h⟩
    exact ⟨i, h⟩
  · rintro ⟨i, h⟩
    refine ⟨i, ?_, h⟩
    rw [List.mem_range]
    by_contra hn
    rw [hf i (not_lt.1 hn)] at h
    simp at h

theorem testBit_high {v : ℕ} (hv : v < 2 ^ 381) (i : ℕ) (hi : 384 ≤ i) : v.testBit i = false :=
  Nat.testBit_lt_two_pow (lt_of_lt_of_le hv (Nat.pow_le_pow_right (by norm_num) (by omega)))

theorem or_bits_ne {v : ℕ} (hv : v < 2 ^ 381) :
    (List.range 384).foldl (fun acc i => acc || v.testBit i) false = decide (v ≠ 0) := by
  rw [Bool.eq_iff_iff, or_bits _ (testBit_high hv), decide_eq_true_eq]
  constructor
  · rintro ⟨i, h⟩ rfl
    simp at h
  · intro h
    exact Nat.exists_testBit_of_ne_zero h

theorem or_bits_neq {v w : ℕ} (hv : v < 2 ^ 381) (hw : w < 2 ^ 381) :
    (List.range 384).foldl (fun acc i => acc || (v.testBit i ^^ w.testBit i)) false = decide (v ≠ w) := by
  rw [Bool.eq_iff_iff, or_bits (fun i => v.testBit i ^^ w.testBit i) (fun i hi => by
    simp only [testBit_high hv i hi, testBit_high hw i hi, Bool.xor_self]), decide_eq_true_eq]
  constructor
  · rintro ⟨i, h⟩ rfl
    simp at h
  · intro h
    by_contra hn
    apply h
    apply Nat.eq_of_testBit_eq
    intro i
    by_contra hi
    exact hn ⟨i, by simpa using hi⟩

theorem q_lt : q < 2 ^ 381 := by decide +kernel

/-- The canonical representative of an element. -/
def canon (x : Fq) : ℕ := ZMod.val (show ZMod q from x)

theorem canon_lt (x : Fq) : canon x < q := ZMod.val_lt _

theorem canon_cast (x : Fq) : ((canon x : ℕ) : Fq) = x := ZMod.natCast_zmod_val (show ZMod q from x)

theorem canon_rep (x : Fq) : reduceRep x (canon x) := ⟨lt_trans (canon_lt x) q_lt, canon_cast x⟩

theorem canon_zero : canon 0 = 0 := ZMod.val_zero

theorem g1NotZero_iff (x : Fq) (b : Bool) : g1NotZero x b ↔ ∃ v : ℕ, v < 2 ^ 381 ∧ (v : Fq) = x ∧ b = decide (v ≠ 0) := by
  constructor
  · rintro ⟨v, ⟨h1, h2⟩, h3⟩
    exact ⟨v, h1, h2, by rw [← or_bits_ne h1]; exact h3⟩
  · rintro ⟨v, h1, h2, h3⟩
    exact ⟨v, ⟨h1, h2⟩, by rw [h3, ← or_bits_ne h1]; rfl⟩

theorem g1NotEqual_iff (x y : Fq) (b : Bool) :
    g1NotEqual x y b ↔ ∃ v w : ℕ, v < 2 ^ 381 ∧ w < 2 ^ 381 ∧ (v : Fq) = x ∧ (w : Fq) = y ∧ b = decide (v ≠ w) := by
  constructor
  · rintro ⟨v, ⟨h1, h2⟩, w, ⟨h3, h4⟩, h5⟩
    exact ⟨v, w, h1, h3, h2, h4, by rw [← or_bits_neq h1 h3]; exact h5⟩
  · rintro ⟨v, w, h1, h3, h2, h4, h5⟩
    exact ⟨v, ⟨h1, h2⟩, w, ⟨h3, h4⟩, by rw [h5, ← or_bits_neq h1 h3]; rfl⟩

theorem g1NotZero_forced {x : Fq} {b : Bool} (hx : x ≠ 0) (h : g1NotZero x b) : b = true := by
  obtain ⟨v, -, hv, rfl⟩ := (g1NotZero_iff x b).1 h
  rw [decide_eq_true_eq]
  rintro rfl
  exact hx (by rw [← hv, Nat.cast_zero])

theorem g1NotZero_honest (x : Fq) : g1NotZero x (decide (x ≠ 0)) := by
  refine (g1NotZero_iff _ _).2 ⟨canon x, (canon_rep x).1, (canon_rep x).2, ?_⟩
  rw [Bool.eq_iff_iff, decide_eq_true_eq, decide_eq_true_eq, not_iff_not]
  constructor
  · rintro rfl
    exact canon_zero
  · intro h
    rw [← canon_cast x, h, Nat.cast_zero]

/-- For zero the prover may answer as he likes. -/
theorem g1NotZero_zero (b : Bool) : g1NotZero 0 b := by
  cases b with
  | false => simpa using g1NotZero_honest 0
  | true =>
    refine (g1NotZero_iff _ _).2 ⟨q, q_lt, cast_q, ?_⟩
    rw [eq_comm, decide_eq_true_eq]
    exact q_pos.ne'

theorem g1NotEqual_forced {x y : Fq} {b : Bool} (hx : x ≠ y) (h : g1NotEqual x y b) : b = true := by
  obtain ⟨v, w, -, -, hv, hw, rfl⟩ := (g1NotEqual_iff x y b).1 h
  rw [decide_eq_true_eq]
  rintro rfl
  exact hx (by rw [← hv, ← hw])

theorem g1NotEqual_honest (x y : Fq) : g1NotEqual x y (decide (x ≠ y)) := by
  refine (g1NotEqual_iff _ _ _).2 ⟨canon x, canon y, (canon_rep x).1, (canon_rep y).1, (canon_rep x).2, (canon_rep y).2, ?_⟩
  rw [Bool.eq_iff_iff, decide_eq_true_eq, decide_eq_true_eq, not_iff_not]
  constructor
  · rintro rfl
    rfl
  · intro h
    rw [← canon_cast x, h, canon_cast]

/-- Two equal elements can be declared different exactly when the value is below `2³⁸¹ - q`. -/
theorem g1NotEqual_self (x : Fq) : g1NotEqual x x true ↔ canon x < 2 ^ 381 - q := by
  have hq := q_lt
  constructor
  · intro h
    obtain ⟨v, w, h1, h2, hv, hw, h3⟩ := (g1NotEqual_iff x x true).1 h
    rw [eq_comm, decide_eq_true_eq] at h3
    by_contra hn
    have key : ∀ u : ℕ, u < 2 ^ 381 → (u : Fq) = x → u = canon x := by
      intro u hu hc
      have e : u % q = canon x := by
        have : canon ((u : ℕ) : Fq) = u % q := ZMod.val_natCast q u
        rw [← this, hc]
      by_cases hlt : u < q
      · rw [← e, Nat.mod_eq_of_lt hlt]
      · exfalso
        have h2q : u < 2 * q := lt_of_lt_of_le hu (by decide +kernel)
        have e2 : u % q = u - q := by
          rw [Nat.mod_eq_sub_mod (not_lt.1 hlt), Nat.mod_eq_of_lt (by omega)]
        generalize 2 ^ 381 = B at *
        omega
    exact h3 ((key v h1 hv).trans (key w h2 hw).symm)
  · intro h
    refine (g1NotEqual_iff _ _ _).2 ⟨canon x, canon x + q, (canon_rep x).1, ?_, (canon_rep x).2, ?_, ?_⟩
    · generalize 2 ^ 381 = B at *
      omega
    · rw [Nat.cast_add, cast_q, add_zero, canon_cast]
    · rw [eq_comm, decide_eq_true_eq]
      have := q_pos
      omega

theorem e2NotZero_iff (x : E2 Fq) (b : Bool) : e2NotZero x b ↔ ∃ c d, g1NotZero x.a0 c ∧ g1NotZero x.a1 d ∧ b = (c || d) := by
  constructor
  · rintro ⟨c, hc, d, hd, h⟩
    exact ⟨c, d, hc, hd, h⟩
  · rintro ⟨c, d, hc, hd, h⟩
    exact ⟨c, hc, d, hd, h⟩

theorem e2NotEqual_iff (x y : E2 Fq) (b : Bool) :
    e2NotEqual x y b ↔ ∃ c d, g1NotEqual x.a0 y.a0 c ∧ g1NotEqual x.a1 y.a1 d ∧ b = (c || d) := by
  constructor
  · rintro ⟨c, hc, d, hd, h⟩
    exact ⟨c, d, hc, hd, h⟩
  · rintro ⟨c, d, hc, hd, h⟩
    exact ⟨c, hc, d, hd, h⟩

theorem e2_ne_zero {x : E2 Fq} (h : x.val ≠ 0) : x.a0 ≠ 0 ∨ x.a1 ≠ 0 := by
  by_contra hn
  push Not at hn
  apply h
  ext
  · exact hn.1
  · exact hn.2

theorem e2_ne {x y : E2 Fq} (h : x.val ≠ y.val) : x.a0 ≠ y.a0 ∨ x.a1 ≠ y.a1 := by
  by_contra hn
  push Not at hn
  apply h
  ext
  · exact hn.1
  · exact hn.2

theorem e2NotZero_forced {x : E2 Fq} {b : Bool} (hx : x.val ≠ 0) (h : e2NotZero x b) : b = true := by
  obtain ⟨c, d, hc, hd, rfl⟩ := (e2NotZero_iff x b).1 h
  rcases e2_ne_zero hx with h0 | h0
  · rw [g1NotZero_forced h0 hc, Bool.true_or]
  · rw [g1NotZero_forced h0 hd, Bool.or_true]

open Classical in
theorem e2NotZero_honest (x : E2 Fq) : e2NotZero x (decide (x.val ≠ 0)) := by
  refine (e2NotZero_iff _ _).2 ⟨_, _, g1NotZero_honest x.a0, g1NotZero_honest x.a1, ?_⟩
  rw [Bool.eq_iff_iff, Bool.or_eq_true, decide_eq_true_eq, decide_eq_true_eq, decide_eq_true_eq]
  constructor
  · exact e2_ne_zero
  · rintro (h | h) e
    · exact h (congrArg QuadraticAlgebra.re e)
    · exact h (congrArg QuadraticAlgebra.im e)

theorem e2NotZero_zero {x : E2 Fq} (hx : x.val = 0) (b : Bool) : e2NotZero x b := by
  have h0 : x.a0 = 0 := congrArg QuadraticAlgebra.re hx
  have h1 : x.a1 = 0 := congrArg QuadraticAlgebra.im hx
  refine (e2NotZero_iff _ _).2 ⟨b, false, ?_, ?_, by rw [Bool.or_false]⟩
  · rw [h0]; exact g1NotZero_zero b
  · rw [h1]; exact g1NotZero_zero false

theorem e2NotEqual_forced {x y : E2 Fq} {b : Bool} (hx : x.val ≠ y.val) (h : e2NotEqual x y b) : b = true := by
  obtain ⟨c, d, hc, hd, rfl⟩ := (e2NotEqual_iff x y b).1 h
  rcases e2_ne hx with h0 | h0
  · rw [g1NotEqual_forced h0 hc, Bool.true_or]
  · rw [g1NotEqual_forced h0 hd, Bool.or_true]

open Classical in
theorem e2NotEqual_honest (x y : E2 Fq) : e2NotEqual x y (decide (x.val ≠ y.val)) := by
  refine (e2NotEqual_iff _ _ _).2 ⟨_, _, g1NotEqual_honest x.a0 y.a0, g1NotEqual_honest x.a1 y.a1, ?_⟩
  rw [Bool.eq_iff_iff, Bool.or_eq_true, decide_eq_true_eq, decide_eq_true_eq, decide_eq_true_eq]
  constructor
  · exact e2_ne
  · rintro (h | h) e
    · exact h (congrArg QuadraticAlgebra.re e)
    · exact h (congrArg QuadraticAlgebra.im e)

end Verif.Bls
