import Verif.Bls.H2CConst
import Verif.Bls.G2Jac

/-! # `E2Exp`, `E2NotOne` and `g2SqrtRatio` -/

namespace Verif.Bls
open QuadraticAlgebra

attribute [local irreducible] q r sqN sqrtC3 sqrtC6 sqrtC7

/-! ## `E2Exp` -/

theorem e2ExpByte_pow (x : E2 Fq) (w a : ℕ) (hw : w < 256) (res : E2 Fq) (h : res.val = x.val ^ a) :
    (e2ExpByte x res w).val = x.val ^ (256 * a + w) := by
  have gen : ∀ (l : List ℕ) (res : E2 Fq) (a : ℕ), res.val = x.val ^ a →
      (l.foldl (fun res j => if w.testBit (7 - j) then E2.mul (E2.square res) x else E2.square res) res).val =
        x.val ^ (l.foldl (fun a j => 2 * a + (w.testBit (7 - j)).toNat) a) := by
    intro l
    induction l with
    | nil => intro res a h; exact h
    | cons j l ih =>
      intro res a h
      rw [List.foldl_cons, List.foldl_cons]
      apply ih
      cases w.testBit (7 - j)
      · simp only [Bool.false_eq_true, if_false, Bool.toNat_false, add_zero, E2.val_square, h]
        rw [two_mul, pow_add]
      · simp only [if_true, Bool.toNat_true, E2.val_square, E2.val_mul, h]
        rw [two_mul, pow_add, pow_add, pow_one]
  have h2 := gen (List.range 8) res a h
  have e : (List.range 8).foldl (fun a j => 2 * a + (w.testBit (7 - j)).toNat) a = 256 * a + w := by
    simp only [Nat.toNat_testBit]
    show 2 * (2 * (2 * (2 * (2 * (2 * (2 * (2 * a + w / 2 ^ 7 % 2) + w / 2 ^ 6 % 2) + w / 2 ^ 5 % 2) + w / 2 ^ 4 % 2)
      + w / 2 ^ 3 % 2) + w / 2 ^ 2 % 2) + w / 2 ^ 1 % 2) + w / 2 ^ 0 % 2 = 256 * a + w
    omega
  rw [e] at h2
  exact h2

theorem ofBytes_bytes (k : ℕ) : ofBytesBE (bytesBE k) = k := by
  unfold ofBytesBE bytesBE
  rw [List.foldl_reverse]
  conv_rhs => rw [← Nat.ofDigits_digits 256 k]
  rw [Nat.ofDigits_eq_foldr]
  congr 1
  funext a b
  simp only [Nat.cast_id]
  ring

theorem e2Exp_val (x : E2 Fq) (k : ℕ) : (e2Exp x k).val = x.val ^ k := by
  unfold e2Exp
  split
  · rename_i h
    rw [h, pow_zero, E2.val_one]
  · have gen : ∀ (l : List ℕ) (res : E2 Fq) (a : ℕ), (∀ b ∈ l, b < 256) → res.val = x.val ^ a →
        (l.foldl (e2ExpByte x) res).val = x.val ^ (l.foldl (fun acc b => 256 * acc + b) a) := by
      intro l
      induction l with
      | nil => intro res a _ h; exact h
      | cons b l ih =>
        intro res a hb h
        rw [List.foldl_cons, List.foldl_cons]
        exact ih _ _ (fun c hc => hb c (List.mem_cons_of_mem _ hc))
          (e2ExpByte_pow x b a (hb b List.mem_cons_self) res h)
    have := gen (bytesBE k) E2.one 0 (fun b hb => Nat.digits_lt_base (by norm_num) (List.mem_reverse.1 hb))
      (by rw [pow_zero, E2.val_one])
    rw [this]
    congr 1
    exact ofBytes_bytes k

/-! ## `E2NotOne` -/

theorem e2NotOne_iff (x : E2 Fq) (b : Bool) : e2NotOne x b ↔ ∃ c d, g1NotEqual x.a0 1 c ∧ g1NotZero x.a1 d ∧ b = (c || d) := by
  constructor
  · rintro ⟨c, hc, d, hd, h⟩
    exact ⟨c, d, hc, hd, h⟩
  · rintro ⟨c, d, hc, hd, h⟩
    exact ⟨c, hc, d, hd, h⟩

theorem canon_one : canon 1 = 1 := by
  have : Fact (1 < q) := ⟨fact_q.out.one_lt⟩
  exact ZMod.val_one q

/-- The prover can only lie by declaring `1` to be different from `1`, and he can always do that. -/
theorem e2NotOne_spec (x : E2 Fq) (b : Bool) : e2NotOne x b ↔ (x.val = 1 ∨ b = true) := by
  rw [e2NotOne_iff]
  constructor
  · rintro ⟨c, d, hc, hd, rfl⟩
    by_cases h : x.val = 1
    · exact Or.inl h
    · right
      have : x.a0 ≠ 1 ∨ x.a1 ≠ 0 := by
        by_contra hn
        push Not at hn
        exact h (by ext; exacts [hn.1, hn.2])
      rcases this with h | h
      · rw [g1NotEqual_forced h hc, Bool.true_or]
      · rw [g1NotZero_forced h hd, Bool.or_true]
  · intro h
    by_cases h1 : x.val = 1
    · have h0 : x.a0 = 1 := congrArg QuadraticAlgebra.re h1
      have h2 : x.a1 = 0 := congrArg QuadraticAlgebra.im h1
      rw [h0, h2]
      refine ⟨b, false, ?_, g1NotZero_zero false, by rw [Bool.or_false]⟩
      cases b
      · simpa using g1NotEqual_honest 1 1
      · rw [g1NotEqual_self, canon_one]
        decide +kernel
    · have hb : b = true := h.resolve_left h1
      subst hb
      refine ⟨_, _, g1NotEqual_honest x.a0 1, g1NotZero_honest x.a1, ?_⟩
      rw [eq_comm, Bool.or_eq_true, decide_eq_true_eq, decide_eq_true_eq]
      by_contra hn
      push Not at hn
      exact h1 (by ext; exacts [hn.1, hn.2])

/-! ## `g2SqrtRatio` -/

/-- `N1 t b`: the test "is `t` different from one?" may be answered `b`. -/
def N1 (t : Fq2 Fq) (b : Bool) : Prop := t = 1 ∨ b = true

/-- Steps 6-9 of sqrt_ratio: the candidate root. -/
noncomputable def cand (u v : Fq2 Fq) : Fq2 Fq := (u * v ^ 15) ^ sqrtC3 * v ^ 7 * u
/-- Step 10. -/
noncomputable def chi (u v : Fq2 Fq) : Fq2 Fq := (u * v ^ 15) ^ sqN

theorem pow_sqN (w : Fq2 Fq) : w ^ sqN = w ^ sqrtC3 * w ^ sqrtC3 * w := by
  have key : ∀ k N : ℕ, 2 * k + 1 = N → w ^ N = w ^ k * w ^ k * w := by
    rintro k N rfl
    ring
  exact key _ _ sqrtC3_eq

theorem cand_sq (u v : Fq2 Fq) : cand u v ^ 2 * v = u * chi u v := by
  unfold cand chi
  rw [pow_sqN]
  generalize (u * v ^ 15) ^ sqrtC3 = w
  ring

theorem g2SqrtRatio_iff (u v z : E2 Fq) (b : Bool) : g2SqrtRatio u v (z, b) ↔ ∃ n1 n2 : Bool, ∃ s3 t3 s4 t4 : Fq2 Fq,
    N1 (chi u.val v.val ^ 4) b ∧
    s3 = (if b then cand u.val v.val * sqrtC7.val else cand u.val v.val) ∧
    t3 = (if b then chi u.val v.val * sqrtC6.val else chi u.val v.val) ∧
    N1 (t3 ^ 2) n1 ∧
    s4 = (if n1 then s3 * sqrtC6.val else s3) ∧ t4 = (if n1 then t3 * sqrtC6.val ^ 2 else t3) ∧
    N1 t4 n2 ∧
    z.val = (if n2 then s4 * sqrtC6.val ^ 2 else s4) := by
  have sel : ∀ (b : Bool) (x y : E2 Fq), (E2.select b x y).val = if b then x.val else y.val := by
    intro b x y; cases b <;> rfl
  have e4 : (E2.mul (E2.mul (E2.mul (e2Exp (E2.mul u (E2.mul (E2.square (e2Exp v 7)) v)) sqrtC3) (e2Exp v 7)) u)
      (E2.mul (E2.mul (e2Exp (E2.mul u (E2.mul (E2.square (e2Exp v 7)) v)) sqrtC3) (e2Exp v 7)) v)).val = chi u.val v.val := by
    simp only [E2.val_mul, E2.val_square, e2Exp_val]
    unfold chi
    have e15 : v.val ^ 7 * v.val ^ 7 * v.val = v.val ^ 15 := by ring
    rw [e15, pow_sqN]
    generalize (u.val * v.val ^ 15) ^ sqrtC3 = w
    ring
  have e3 : (E2.mul (E2.mul (e2Exp (E2.mul u (E2.mul (E2.square (e2Exp v 7)) v)) sqrtC3) (e2Exp v 7)) u).val = cand u.val v.val := by
    simp only [E2.val_mul, E2.val_square, e2Exp_val]
    unfold cand
    have e15 : v.val ^ 7 * v.val ^ 7 * v.val = v.val ^ 15 := by ring
    rw [e15]
  unfold g2SqrtRatio sqrtStep
  constructor
  · rintro ⟨b', hb, s, ⟨n1, hn1, hs⟩, s', ⟨n2, hn2, hs'⟩, hz⟩
    obtain ⟨hz', rfl⟩ := Prod.mk.inj (show (z, b) = (s'.2.1, b') from hz)
    subst hs'
    subst hs
    refine ⟨n1, n2, _, _, _, _, ?_, rfl, rfl, ?_, rfl, rfl, ?_, ?_⟩
    · rw [e2NotOne_spec, e2Exp_val, e4] at hb
      exact hb
    · rw [e2NotOne_spec, e2Exp_val, sel, E2.val_mul, e4] at hn1
      exact hn1
    · rw [e2NotOne_spec, e2Exp_val, pow_one] at hn2
      simp only [sel, E2.val_mul, e4] at hn2
      rw [pow_two]
      exact hn2
    · rw [hz']
      simp only [sel, E2.val_mul, e3, pow_two]
  · rintro ⟨n1, n2, s3, t3, s4, t4, hb, rfl, rfl, hn1, rfl, rfl, hn2, hz⟩
    refine ⟨b, ?_, _, ⟨n1, ?_, rfl⟩, _, ⟨n2, ?_, rfl⟩, ?_⟩
    · rw [e2NotOne_spec, e2Exp_val, e4]
      exact hb
    · rw [e2NotOne_spec, e2Exp_val, sel, E2.val_mul, e4]
      exact hn1
    · rw [e2NotOne_spec, e2Exp_val, pow_one]
      simp only [sel, E2.val_mul, e4]
      rw [pow_two] at hn2
      exact hn2
    · show (z, b) = (_, b)
      congr 1
      rw [← E2.val_inj, hz]
      simp only [sel, E2.val_mul, e3, pow_two]

end Verif.Bls
