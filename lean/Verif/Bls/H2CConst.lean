import Verif.Bls.H2C
import Verif.Bls.H2CSpec

/-! # The constants of hash2curve.go are the RFC's -/

namespace Verif.Bls
open QuadraticAlgebra

/-- The number written by the limbs. -/
def limbs (l : List ℕ) : ℕ := l.foldr (fun d acc => d + 2 ^ 64 * acc) 0

theorem r384_ne : ((2 ^ 384 : ℕ) : Fq) ≠ 0 := by
  intro h
  have h2 := (CharP.cast_eq_zero_iff Fq q (2 ^ 384)).1 h
  have h3 := (fact_q.out.dvd_of_dvd_pow h2)
  exact absurd (Nat.le_of_dvd (by norm_num) h3) (by decide +kernel)

theorem natCast_eq_of_mod {a b : ℕ} (h : a % q = b % q) : (a : Fq) = b := by
  rw [← cast_mod a, h, cast_mod]

theorem mont_lin (l : List ℕ) (c m n : ℕ) (h : (c * limbs l + m * 2 ^ 384) % q = (n * 2 ^ 384) % q) :
    (c : Fq) * mont l + m = n := by
  have h2 := natCast_eq_of_mod h
  have hr := r384_ne
  unfold mont
  change (c : Fq) * (((limbs l : ℕ) : Fq) * ((2 ^ 384 : ℕ) : Fq)⁻¹) + m = n
  rw [Nat.cast_add, Nat.cast_mul, Nat.cast_mul, Nat.cast_mul] at h2
  generalize ((2 ^ 384 : ℕ) : Fq) = R at *
  generalize ((limbs l : ℕ) : Fq) = x at *
  field_simp
  linear_combination h2

theorem mont_eq (l : List ℕ) (n : ℕ) (h : (1 * limbs l + 0 * 2 ^ 384) % q = (n * 2 ^ 384) % q) : mont l = n := by
  have := mont_lin l 1 0 n h
  simpa using this

theorem sswuA_val : sswuA.val = RFC.A := by
  ext
  · exact (mont_eq _ 0 (by decide +kernel)).trans Nat.cast_zero
  · exact (mont_eq _ 240 (by decide +kernel))

theorem sswuB_val : sswuB.val = RFC.B := by
  ext
  · exact (mont_eq _ 1012 (by decide +kernel))
  · exact (mont_eq _ 1012 (by decide +kernel))

theorem mont_neg (l : List ℕ) (m : ℕ) (h : (1 * limbs l + m * 2 ^ 384) % q = (0 * 2 ^ 384) % q) : mont l = -(m : Fq) := by
  have := mont_lin l 1 m 0 h
  exact eq_neg_of_add_eq_zero_left (by simpa using this)

theorem sswuZ_val : sswuZ.val = RFC.Z := by
  ext
  · exact mont_neg _ 2 (by decide +kernel)
  · exact (mont_neg _ 1 (by decide +kernel)).trans (congrArg _ Nat.cast_one)

/-- The constants of `g2SqrtRatio` as pairs of numbers. -/
def c6N : ℕ × ℕ := (1028732146235106349975324479215795277384839936929757896155643118032610843298655225875571310552543014690878354869257, 1028732146235106349975324479215795277384839936929757896155643118032610843298655225875571310552543014690878354869257)
def c7N : ℕ × ℕ := (3056659667563321987249772579925648764743501102978097015962339259696499184926306265952060086002605894757692300553566, 1094990774406846945195722631661055869817460233973571214612739209165339342571801705456419180905382805863896627811201)
def zN : ℕ × ℕ := (q - 2, q - 1)

theorem sqrtC6_val : sqrtC6.val = ofN c6N := by
  ext
  · exact mont_eq _ c6N.1 (by decide +kernel)
  · exact mont_eq _ c6N.2 (by decide +kernel)

theorem sqrtC7_val : sqrtC7.val = ofN c7N := by
  ext
  · exact mont_eq _ c7N.1 (by decide +kernel)
  · exact mont_eq _ c7N.2 (by decide +kernel)

theorem Z_ofN : RFC.Z = ofN zN := by
  have hq := q_pos
  have h2 : 2 ≤ q := fact_q.out.two_le
  ext
  · show (-2 : Fq) = ((q - 2 : ℕ) : Fq)
    rw [Nat.cast_sub h2, cast_q, zero_sub, Nat.cast_ofNat]
  · show (-1 : Fq) = ((q - 1 : ℕ) : Fq)
    rw [Nat.cast_sub (by omega), cast_q, zero_sub, Nat.cast_one]

/-- The odd-power exponent: `q² - 1 = 8 N`. -/
def sqN : ℕ := (q ^ 2 - 1) / 8

theorem sqN_card : q * q = 8 * sqN + 1 := by decide +kernel
theorem sqrtC3_eq : 2 * sqrtC3 + 1 = sqN := by decide +kernel

theorem c6_eq : sqrtC6.val = RFC.Z ^ sqN := by
  rw [sqrtC6_val, Z_ofN, ← ofN_pow 800 zN sqN (by decide +kernel)]
  exact congrArg ofN (by decide +kernel)

theorem c6_four : sqrtC6.val ^ 4 = -1 := by
  have h : ofN (q - 1, 0) = -1 := by
    ext
    · show ((q - 1 : ℕ) : Fq) = -1
      rw [Nat.cast_sub q_pos, cast_q, zero_sub, Nat.cast_one]
    · simp [ofN]
  rw [sqrtC6_val, ← ofN_pow 4 c6N 4 (by norm_num), ← h]
  exact congrArg ofN (by decide +kernel)

theorem c7_sq : sqrtC7.val * sqrtC7.val = RFC.Z * sqrtC6.val := by
  rw [sqrtC7_val, sqrtC6_val, Z_ofN, ← ofN_mul, ← ofN_mul]
  exact congrArg ofN (by decide +kernel)

end Verif.Bls
