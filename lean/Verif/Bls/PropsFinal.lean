import Verif.Bls.PropsExp

/-! # C52: final exponentiation of the BLS12-381 gadget -/

namespace Verif.Bls
open Polynomial QuadraticAlgebra

attribute [local irreducible] q r E2.mulByNonResidueAt

theorem card_order : q ^ 6 * q ^ 6 = (3 * ((q ^ 12 - 1) / r)) * r / 3 + 1 ∧ (q ^ 12 - 1) / r * r = q ^ 12 - 1 ∧
    q ^ 6 * q ^ 6 = (q ^ 12 - 1) / r * r + 1 ∧ 3 * (2 * (r / 3) + 1) = 1 + r * 2 := by
  refine ⟨?_, ?_, ?_, ?_⟩ <;> decide +kernel

theorem L_pow_order (u : Lˣ) : (u ^ ((q ^ 12 - 1) / r)) ^ r = 1 := by
  have h := elt_pow_card (u : L)
  rw [← pow_mul, card_order.2.2.1, pow_succ, pow_mul] at h
  apply Units.ext
  rw [Units.val_pow_eq_pow_val, Units.val_pow_eq_pow_val, Units.val_one]
  have hu : ((u : L) ^ ((q ^ 12 - 1) / r)) ^ r * u = 1 * u := by rw [h, one_mul]
  exact (Units.mul_left_inj u).1 hu

theorem isUnit_of_inverse {e i : E12 Fq} (hi : E12.inverse e = some i) : ∃ u : Lˣ, e.elt = u :=
  ⟨Units.mkOfMulEqOne _ _ (E12.elt_inverse hi), rfl⟩

/-- **C52**: whatever `FinalExponentiation` returns is the power `3(q¹²-1)/r` of a nonzero argument; it is an `r`-th root of
unity, and it is 1 exactly when the power `(q¹²-1)/r` is. -/
theorem C52_sound (e z : E12 Fq) (h : E12.finalExponentiation e = some z) :
    e.elt ≠ 0 ∧ z.elt = e.elt ^ (3 * ((q ^ 12 - 1) / r)) ∧ z.elt ^ r = 1 ∧
    (z = E12.one ↔ e.elt ^ ((q ^ 12 - 1) / r) = 1) := by
  have h' := h
  rw [finalExponentiation_unfold] at h'
  obtain ⟨i, hi, _⟩ := Option.bind_eq_some_iff.1 h'
  obtain ⟨u, hu⟩ := isUnit_of_inverse hi
  have hz := (finalExponentiation_spec e u hu i hi).2 z h
  have hzu : z.elt = (((u ^ ((q ^ 12 - 1) / r)) ^ 3 : Lˣ) : L) := by
    rw [hz, hu, Units.val_pow_eq_pow_val, Units.val_pow_eq_pow_val, ← pow_mul, mul_comm]
  have ho := L_pow_order u
  refine ⟨?_, hz, ?_, ?_⟩
  · rw [Ne, ← E12.inverse_none_iff, hi]
    exact Option.some_ne_none _
  · rw [hzu, ← Units.val_pow_eq_pow_val, pow_right_comm, ho, one_pow, Units.val_one]
  · rw [← E12.elt_inj, E12.elt_one, hzu, hu, ← Units.val_pow_eq_pow_val, Units.val_eq_one, Units.val_eq_one]
    generalize u ^ ((q ^ 12 - 1) / r) = v at ho ⊢
    constructor
    · intro h3
      have k := congrArg (fun t : Lˣ => t ^ (2 * (r / 3) + 1)) h3
      simp only [one_pow] at k
      rwa [← pow_mul, card_order.2.2.2, pow_add, pow_one, pow_mul, ho, one_pow, mul_one] at k
    · intro h1
      rw [h1, one_pow]

/-- **C52**: exactly when it is satisfiable.  `chainExponents` lists the five intermediate exponents whose powers by `2¹⁵` and
`2⁴⁷` are decompressed; all ten elements must have a nonzero `w` coordinate. -/
theorem C52_satisfiable_iff (e : E12 Fq) :
    E12.finalExponentiation e ≠ none ↔
      ∃ u : Lˣ, e.elt = u ∧ ∀ k ∈ chainExponents, ∀ n ∈ [15, 47], ∀ y : E12 Fq,
        y.elt = (((u ^ ((((q ^ 6 : ℕ) : ℤ) - 1) * (((q ^ 2 : ℕ) : ℤ) + 1))) ^ (k * (2 ^ n : ℕ)) : Lˣ) : L) →
          y.c1.b0.val ≠ 0 := by
  have key : ∀ u : Lˣ, (∀ k ∈ chainExponents, ∀ n ∈ [15, 47], ∀ y : E12 Fq,
        y.elt = (((u ^ ((((q ^ 6 : ℕ) : ℤ) - 1) * (((q ^ 2 : ℕ) : ℤ) + 1))) ^ (k * (2 ^ n : ℕ)) : Lˣ) : L) →
          y.c1.b0.val ≠ 0) ↔ ChainOk (easyPart u) := by
    intro u
    unfold ChainOk WNonzero easyPart
    simp only [List.forall_mem_cons (a := 15), List.forall_mem_cons (a := 47), List.not_mem_nil, false_imp_iff,
      implies_true, and_true]
  constructor
  · intro h
    have h' := h
    rw [finalExponentiation_unfold] at h'
    obtain ⟨i, hi, _⟩ := Option.bind_ne_none.1 h'
    obtain ⟨u, hu⟩ := isUnit_of_inverse hi
    exact ⟨u, hu, (key u).2 ((finalExponentiation_spec e u hu i hi).1.1 h)⟩
  · rintro ⟨u, hu, hc⟩
    have hi : E12.inverse e ≠ none := by
      rw [Ne, E12.inverse_none_iff, hu]
      exact u.ne_zero
    obtain ⟨i, hi⟩ := Option.ne_none_iff_exists'.1 hi
    exact (finalExponentiation_spec e u hu i hi).1.2 ((key u).1 hc)

/-- A generic element is exponentiated. -/
theorem C52_example : E12.finalExponentiation sample ≠ none := by decide +kernel

/-- **C52**, the part that fails: if the argument lies in the subfield `Fq6` (its `C1` half is zero) the result would be 1, but
the circuit is unsatisfiable. -/
theorem C52_subfield_fails (e : E12 Fq) (h : e.c1 = ⟨E2.zero, E2.zero, E2.zero⟩) :
    E12.finalExponentiation e = none ∧ (e.elt ≠ 0 → e.elt ^ (3 * ((q ^ 12 - 1) / r)) = 1) := by
  have hconj : E12.conjugate e = e := by
    obtain ⟨a, b, c, d⟩ := E12.conjugate_coords e
    have z : (E2.zero : E2 Fq).val = 0 := E2.val_zero
    rw [h] at b c d
    simp only [z, neg_zero] at b c d
    refine E12.ext a ?_
    rw [h]
    exact E6.ext (E2.val_inj.1 (b.trans z.symm)) (E2.val_inj.1 (c.trans z.symm)) (E2.val_inj.1 (d.trans z.symm))
  have hpow : ∀ u : Lˣ, e.elt = u → u ^ q ^ 6 = u := by
    intro u hu
    have := E12.elt_conjugate e
    rw [hconj, hu] at this
    apply Units.ext
    rw [Units.val_pow_eq_pow_val]
    exact this.symm
  have heasy : ∀ u : Lˣ, e.elt = u → easyPart u = 1 := by
    intro u hu
    unfold easyPart
    rw [zpow_mul, zpow_sub, zpow_natCast, zpow_one, hpow u hu, mul_inv_cancel, one_zpow]
  constructor
  · by_contra hn
    obtain ⟨u, hu, hc⟩ := (C52_satisfiable_iff e).1 hn
    have := hc 2 (by unfold chainExponents; exact List.mem_cons_self) 15 (by simp) E12.one (by
      have := heasy u hu
      unfold easyPart at this
      rw [this, one_zpow, Units.val_one, E12.elt_one])
    exact this E2.val_zero
  · intro hne
    have hi : E12.inverse e ≠ none := by rwa [Ne, E12.inverse_none_iff]
    obtain ⟨i, hi⟩ := Option.ne_none_iff_exists'.1 hi
    obtain ⟨u, hu⟩ := isUnit_of_inverse hi
    rw [hu, ← Units.val_pow_eq_pow_val, ← zpow_natCast, ← easy_hard, zpow_mul]
    have := heasy u hu
    unfold easyPart at this
    rw [this, one_zpow, Units.val_one]

/-- In particular on 1. -/
theorem C52_one_fails : E12.finalExponentiation (E12.one : E12 Fq) = none :=
  (C52_subfield_fails E12.one rfl).1

end Verif.Bls
