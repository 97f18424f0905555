import Mathlib.FieldTheory.Finite.Basic
import Mathlib.RingTheory.AdjoinRoot
import Mathlib.Tactic.LinearCombination
import Mathlib.Tactic.FinCases

/-! # A sextic Kummer polynomial over a finite field is irreducible when `ξ^((N-1)/6)` is a primitive sixth root of 1 -/

namespace Verif.Bls
open Polynomial

theorem sixth_root_injective {E : Type} [Field E] (z : E) (hz : z * z = z - 1) (h2 : (2 : E) ≠ 0) (h3 : (3 : E) ≠ 0) :
    Function.Injective (fun i : Fin 6 => z ^ (i : ℕ)) := by
  have z0 : z ≠ 0 := by
    rintro rfl
    simp at hz
  have z2 : z ^ 2 = z - 1 := by rw [pow_two, hz]
  have z3 : z ^ 3 = -1 := by linear_combination (z + 1) * z2
  have z4 : z ^ 4 = -z := by linear_combination z * z3
  have z5 : z ^ 5 = 1 - z := by linear_combination z ^ 2 * z3 - z2
  have n1 : z ≠ 1 := by
    rintro rfl
    simp at hz
  have n2 : z ≠ 2 := by
    rintro rfl
    apply h3
    linear_combination hz
  have n3 : z ≠ -1 := by
    rintro rfl
    apply h3
    linear_combination hz
  have n4 : z * 2 ≠ 1 := by
    intro h
    apply h3
    linear_combination 4 * hz + (1 - 2 * z) * h
  have key : ∀ i j : ℕ, i < j → j < 6 → z ^ i ≠ z ^ j := by
    intro i j hij hj h
    have : z ^ (j - i) = 1 := by
      have e : z ^ j = z ^ i * z ^ (j - i) := by rw [← pow_add]; congr 1; omega
      rw [e] at h
      exact (mul_eq_left₀ (pow_ne_zero _ z0)).1 h.symm
    have hd : j - i = 1 ∨ j - i = 2 ∨ j - i = 3 ∨ j - i = 4 ∨ j - i = 5 := by omega
    rcases hd with hd | hd | hd | hd | hd <;> rw [hd] at this
    · exact n1 (by simpa using this)
    · exact n2 (by linear_combination this - z2)
    · exact h2 (by linear_combination z3 - this)
    · exact n3 (by linear_combination z4 - this)
    · exact z0 (by linear_combination z5 - this)
  intro i j h
  rcases lt_trichotomy (i : ℕ) j with hh | hh | hh
  · exact absurd h (key _ _ hh j.2)
  · exact Fin.ext hh
  · exact absurd h.symm (key _ _ hh i.2)

theorem irreducible_sextic {F : Type} [Field F] [Fintype F] (x z : F) (hz : z * z = z - 1) (h2 : (2 : F) ≠ 0)
    (h3 : (3 : F) ≠ 0) (n : ℕ) (hN : Fintype.card F = 6 * n + 1) (hx : x ^ n = z) :
    Irreducible (X ^ 6 - C x) := by
  classical
  have hne : (X ^ 6 - C x : F[X]) ≠ 0 := X_pow_sub_C_ne_zero (by norm_num) x
  have hnu : ¬ IsUnit (X ^ 6 - C x : F[X]) := by
    rw [Polynomial.isUnit_iff_degree_eq_zero, degree_X_pow_sub_C (by norm_num)]
    norm_num
  have z0 : z ≠ 0 := by
    rintro rfl
    simp at hz
  obtain ⟨g, hg, hgf⟩ := WfDvdMonoid.exists_irreducible_factor hnu hne
  haveI : Fact (Irreducible g) := ⟨hg⟩
  let E := AdjoinRoot g
  let a : E := AdjoinRoot.root g
  let φ : F →+* E := AdjoinRoot.of g
  have ha : a ^ 6 = φ x := by
    have h0 : eval₂ φ a (X ^ 6 - C x) = 0 := by
      obtain ⟨k, hk⟩ := hgf
      rw [hk, eval₂_mul, show eval₂ φ a g = 0 from AdjoinRoot.eval₂_root g, zero_mul]
    rw [eval₂_sub, eval₂_pow, eval₂_X, eval₂_C] at h0
    exact sub_eq_zero.1 h0
  have a0 : a ≠ 0 := by
    intro h
    rw [h] at ha
    have : x = 0 := φ.injective (by rw [map_zero, ← ha]; norm_num)
    rcases Nat.eq_zero_or_pos n with hn | hn
    · rw [hn, mul_zero, zero_add] at hN
      have := Fintype.one_lt_card (α := F)
      omega
    · rw [this, zero_pow hn.ne'] at hx
      exact z0 hx.symm
  have haN : a ^ Fintype.card F = φ z * a := by
    rw [hN, pow_succ, pow_mul, ha, ← map_pow, hx]
  -- the roots of g
  have hroot : ∀ b : E, eval₂ φ b g = 0 → eval₂ φ (b ^ Fintype.card F) g = 0 := by
    intro b hb
    obtain ⟨p, hp⟩ := CharP.exists F
    haveI : CharP E p := charP_of_injective_ringHom φ.injective p
    haveI : Fact p.Prime := ⟨CharP.char_is_prime F p⟩
    obtain ⟨m, _, hm⟩ := FiniteField.card F p
    have e := hom_eval₂ g φ (iterateFrobenius E p m) b
    have c : (iterateFrobenius E p m).comp φ = φ := by
      ext y
      rw [RingHom.comp_apply, iterateFrobenius_def, ← hm, ← map_pow, FiniteField.pow_card]
    rw [c, hb, map_zero, iterateFrobenius_def, ← hm] at e
    exact e.symm
  have hall : ∀ i : ℕ, eval₂ φ (φ z ^ i * a) g = 0 := by
    intro i
    induction i with
    | zero => rw [pow_zero, one_mul]; exact AdjoinRoot.eval₂_root g
    | succ i ih =>
      have := hroot _ ih
      rw [mul_pow, haN, ← map_pow, ← map_pow, FiniteField.pow_card, map_pow] at this
      rw [pow_succ, mul_assoc]
      exact this
  have hz' : φ z * φ z = φ z - 1 := by rw [← map_mul, hz, map_sub, map_one]
  have hinj := sixth_root_injective (φ z) hz' (by
    intro h; exact h2 (φ.injective (by rw [map_zero, ← h, map_ofNat]))) (by
    intro h; exact h3 (φ.injective (by rw [map_zero, ← h, map_ofNat])))
  have hinj2 : Function.Injective (fun i : Fin 6 => φ z ^ (i : ℕ) * a) := by
    intro i j h
    exact hinj (mul_right_cancel₀ a0 h)
  have hgm : g.map φ ≠ 0 := (Polynomial.map_ne_zero_iff φ.injective).2 hg.ne_zero
  have hcard : 6 ≤ g.natDegree := by
    have hsub : (Finset.univ.image (fun i : Fin 6 => φ z ^ (i : ℕ) * a)) ⊆ (g.map φ).roots.toFinset := by
      intro y hy
      obtain ⟨i, _, rfl⟩ := Finset.mem_image.1 hy
      rw [Multiset.mem_toFinset, mem_roots hgm, IsRoot, eval_map]
      exact hall i
    have h1 := Finset.card_le_card hsub
    rw [Finset.card_image_of_injective _ hinj2, Finset.card_univ, Fintype.card_fin] at h1
    calc 6 ≤ _ := h1
      _ ≤ Multiset.card (g.map φ).roots := Multiset.toFinset_card_le _
      _ ≤ (g.map φ).natDegree := card_roots' _
      _ = g.natDegree := natDegree_map φ
  have hass : Associated g (X ^ 6 - C x) := by
    refine associated_of_dvd_of_natDegree_le hgf hne ?_
    rw [natDegree_X_pow_sub_C]
    exact hcard
  exact hass.irreducible hg

end Verif.Bls
