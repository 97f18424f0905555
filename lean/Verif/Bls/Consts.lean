import Verif.Bls.TowerProps
import Verif.Primes
import Mathlib.NumberTheory.LegendreSymbol.Basic
import Mathlib.Algebra.CharP.Frobenius
import Mathlib.Algebra.Star.BigOperators

/-! # Numeric facts about the BLS12-381 constants of tower.go, and the Frobenius maps -/

namespace Verif.Bls
open Polynomial QuadraticAlgebra

/-! ## Computing in `Fq2` with natural numbers -/

/-- Product of `a.1 + a.2 u` and `b.1 + b.2 u` modulo `q`. -/
def mulN (a b : ℕ × ℕ) : ℕ × ℕ :=
  ((a.1 * b.1 + (q - a.2 * b.2 % q)) % q, (a.1 * b.2 + a.2 * b.1) % q)

/-- Square-and-multiply. -/
def powN : ℕ → ℕ × ℕ → ℕ → ℕ × ℕ
  | 0, _, _ => (1, 0)
  | f + 1, b, e => if e % 2 = 1 then mulN b (powN f (mulN b b) (e / 2)) else powN f (mulN b b) (e / 2)

instance fact_q : Fact (Nat.Prime q) :=
  ⟨prime_4002409555221667393417789825735904156556882819939007885332058136124031650490837864442687629129015664037894272559787⟩

instance fact_r : Fact (Nat.Prime r) :=
  ⟨prime_52435875175126190479447740508185965837690552500527637822603658699938581184513⟩

/-- The base field `ZMod q`, with its instances sealed (so that nothing tries to compute with the modulus). -/
def Fq : Type := ZMod q

instance : Field Fq := inferInstanceAs (Field (ZMod q))
instance : DecidableEq Fq := inferInstanceAs (DecidableEq (ZMod q))
instance : CharP Fq q := inferInstanceAs (CharP (ZMod q) q)
instance : NeZero q := ⟨fact_q.out.pos.ne'⟩
instance : Fintype Fq := inferInstanceAs (Fintype (ZMod q))

theorem card_Fq : Fintype.card Fq = q := ZMod.card q

theorem cast_q : ((q : ℕ) : Fq) = 0 := CharP.cast_eq_zero Fq q

theorem cast_mod (n : ℕ) : ((n % q : ℕ) : Fq) = n := ZMod.natCast_mod n q

theorem Fq_pow (x : Fq) : x ^ q = x := ZMod.pow_card x

theorem ZMod_not_square (r : ZMod q) : r ^ 2 ≠ -1 := by
  intro h
  have h2 : IsSquare (-1 : ZMod q) := ⟨r, by rw [← pow_two, h]⟩
  rw [ZMod.exists_sq_eq_neg_one_iff] at h2
  exact h2 (by decide +kernel)

theorem Fq_not_square (r : Fq) : r ^ 2 ≠ -1 := ZMod_not_square r

/-- The element of `Fq2` given by a pair of numbers. -/
def ofN (a : ℕ × ℕ) : Fq2 Fq := ⟨(a.1 : Fq), (a.2 : Fq)⟩

theorem q_pos : 0 < q := fact_q.out.pos

theorem ofN_mul (a b : ℕ × ℕ) : ofN (mulN a b) = ofN a * ofN b := by
  have e : ((q - a.2 * b.2 % q : ℕ) : Fq) = -((a.2 : Fq) * (b.2 : Fq)) := by
    rw [Nat.cast_sub (Nat.mod_lt _ q_pos).le, cast_q, cast_mod]
    push_cast
    ring
  ext
  · simp only [ofN, mulN, re_mul, cast_mod, Nat.cast_add, Nat.cast_mul, e]
    ring
  · simp only [ofN, mulN, im_mul, cast_mod, Nat.cast_add, Nat.cast_mul]
    ring

theorem ofN_one : ofN (1, 0) = 1 := by
  ext <;> simp [ofN]

theorem ofN_pow (f : ℕ) : ∀ (b : ℕ × ℕ) (e : ℕ), e < 2 ^ f → ofN (powN f b e) = ofN b ^ e := by
  induction f with
  | zero =>
    intro b e he
    have : e = 0 := by simpa using he
    subst this
    simp [powN, ofN_one]
  | succ f ih =>
    intro b e he
    have h2 : e / 2 < 2 ^ f := by
      rw [pow_succ] at he
      omega
    have key : ofN (powN f (mulN b b) (e / 2)) = ofN b ^ (2 * (e / 2)) := by
      rw [ih _ _ h2, ofN_mul, ← pow_two, ← pow_mul]
    unfold powN
    split
    · rename_i h
      rw [ofN_mul, key, ← pow_succ']
      congr 1
      omega
    · rw [key]
      congr 1
      omega

theorem ofN_val (a : ℕ × ℕ) : (⟨(a.1 : Fq), (a.2 : Fq)⟩ : E2 Fq).val = ofN a := rfl

/-! ## The table entries -/

/-- The table entry as a field element. -/
def nr (power : ℕ) (coef : ℤ) : Fq2 Fq := ofN (nonResidue power coef)

theorem ofN_xi : ofN (1, 1) = (ξ : Fq2 Fq) := by
  ext <;> simp [ofN, ξ]

/-- The first coefficient is `ξ^((q-1)/6)`. -/
theorem nr11 : nr 1 1 = ξ ^ ((q - 1) / 6) := by
  rw [← ofN_xi, ← ofN_pow 400 (1, 1) ((q - 1) / 6) (by decide +kernel)]
  unfold nr
  exact congrArg ofN (by decide +kernel)

theorem nr12 : nr 1 2 = nr 1 1 ^ 2 := by
  unfold nr; rw [← ofN_pow 2 _ 2 (by decide)]; exact congrArg ofN (by decide +kernel)
theorem nr13 : nr 1 3 = nr 1 1 ^ 3 := by
  unfold nr; rw [← ofN_pow 2 _ 3 (by decide)]; exact congrArg ofN (by decide +kernel)
theorem nr14 : nr 1 4 = nr 1 1 ^ 4 := by
  unfold nr; rw [← ofN_pow 3 _ 4 (by decide)]; exact congrArg ofN (by decide +kernel)
theorem nr15 : nr 1 5 = nr 1 1 ^ 5 := by
  unfold nr; rw [← ofN_pow 3 _ 5 (by decide)]; exact congrArg ofN (by decide +kernel)
theorem nr22 : nr 2 2 = nr 2 1 ^ 2 := by
  unfold nr; rw [← ofN_pow 2 _ 2 (by decide)]; exact congrArg ofN (by decide +kernel)
theorem nr23 : nr 2 3 = nr 2 1 ^ 3 := by
  unfold nr; rw [← ofN_pow 2 _ 3 (by decide)]; exact congrArg ofN (by decide +kernel)
theorem nr24 : nr 2 4 = nr 2 1 ^ 4 := by
  unfold nr; rw [← ofN_pow 3 _ 4 (by decide)]; exact congrArg ofN (by decide +kernel)
theorem nr25 : nr 2 5 = nr 2 1 ^ 5 := by
  unfold nr; rw [← ofN_pow 3 _ 5 (by decide)]; exact congrArg ofN (by decide +kernel)

theorem star_ofN (a : ℕ × ℕ) (h : a.2 ≤ q) : star (ofN a) = ofN (a.1, q - a.2) := by
  ext
  · simp [ofN]
  · simp only [ofN, im_star, Nat.cast_sub h, cast_q, zero_sub]

theorem nr21 : nr 2 1 = nr 1 1 * star (nr 1 1) := by
  unfold nr
  rw [star_ofN _ (by decide +kernel), ← ofN_mul]
  exact congrArg ofN (by decide +kernel)

theorem nr2_cube : nr 2 1 ^ 3 = -1 := by
  rw [← nr23]
  ext
  · simp only [nr, ofN, re_neg, re_one]
    rw [show (nonResidue 2 3).1 = q - 1 by decide +kernel, Nat.cast_sub (by decide +kernel), cast_q]
    simp
  · simp only [nr, ofN, im_neg, im_one, neg_zero]
    rw [show (nonResidue 2 3).2 = 0 by decide +kernel]
    simp

theorem nr0m1 : nr 0 (-1) * (1 + 1) = 1 := by
  have e : (1 + 1 : Fq2 Fq) = ofN (2, 0) := by
    ext <;> simp [ofN] <;> norm_num
  rw [e, nr, ← ofN_mul, ← ofN_one]
  exact congrArg ofN (by decide +kernel)

end Verif.Bls
