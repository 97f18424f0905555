import Verif.Bls.MillerProof
import Verif.Bls.PropsFinal

/-! # The Miller loop in the target field: what is killed by the final exponentiation -/

namespace Verif.Bls
open Verif.Ec QuadraticAlgebra

attribute [local irreducible] q r E2.mulByNonResidueAt

instance fact_nonsq : Fact (∀ r : Fq, r ^ 2 ≠ (-1 : Fq) + 0 * r) := fact_nonsquare

theorem L_isField : IsField L where
  exists_pair_ne := exists_pair_ne L
  mul_comm := mul_comm
  mul_inv_cancel := fun {a} h => L_exists_inv a h

/-- The target field. -/
noncomputable instance fieldL : Field L := L_isField.toField

open Classical in
noncomputable instance decL : DecidableEq L := inferInstance

theorem xi_not_square (b : Fq2 Fq) : b ^ 2 ≠ ξ := by
  intro h
  have h1 : (b ^ 2) ^ ((q - 1) / 6 * (q + 1)) = zeta := by rw [h, zeta_pow]
  have b0 : b ≠ 0 := by
    rintro rfl
    rw [zero_pow (by norm_num)] at h
    exact xi_ne_zero h.symm
  obtain ⟨c, hc⟩ := Fq2_exists_inv b b0
  have hq2 : b ^ (6 * ((q - 1) / 6 * (q + 1))) = 1 := by
    have e := fq2_pow_q2 b
    rw [pow_two q, card_eq, pow_succ] at e
    calc _ = b ^ (6 * ((q - 1) / 6 * (q + 1))) * (b * c) := by rw [hc, mul_one]
      _ = 1 := by rw [← mul_assoc, e, hc]
  have h2 : zeta * zeta * zeta = 1 := by
    have k : ∀ n : ℕ, (b ^ 2) ^ n * (b ^ 2) ^ n * (b ^ 2) ^ n = b ^ (6 * n) := by
      intro n
      rw [← pow_mul, ← pow_add, ← pow_add]
      congr 1
      ring
    rw [← h1, k, hq2]
  have h3 : (1 + 1 : Fq2 Fq) = 0 := by
    have e := zeta_sq
    generalize zeta = z at *
    linear_combination (-1 : Fq2 Fq) * h2 + (z + 1) * e
  have := congrArg QuadraticAlgebra.re h3
  simp only [re_add, re_one, re_zero] at this
  exact two_ne (by linear_combination this)

/-- Elements fixed up to sign by the power `q⁶`. -/
def Half (l : L) : Prop := l ≠ 0 ∧ (l ^ q ^ 6 = l ∨ l ^ q ^ 6 = -l)

local notation "ι" => algebraMap (Fq2 Fq) L

theorem iota_pow6 (c : Fq2 Fq) : (ι c) ^ q ^ 6 = ι c := by
  rw [pow_six q, ← map_pow, ← map_pow, ← map_pow, fq2_pow_q2, fq2_pow_q2, fq2_pow_q2]

theorem gen_pow6 : (gen Fq : L) ^ q ^ 6 = -gen Fq := by
  have h := gen_pow_q2 (w := (gen Fq : L)) gen_isGen
  have s : ∀ y : L, y ^ q ^ 2 = ι (nr 2 1) * y → ∀ c : Fq2 Fq, (ι c * y) ^ q ^ 2 = ι c * (ι (nr 2 1) * y) := by
    intro y hy c
    rw [mul_pow, ← map_pow, fq2_pow_q2, hy]
  rw [pow_six q, h, s _ h, ← mul_assoc, ← map_mul, s _ h, ← mul_assoc, ← map_mul, nr2_cube', map_neg, map_one, neg_one_mul]

theorem pow6_add (a b : L) : (a + b) ^ q ^ 6 = a ^ q ^ 6 + b ^ q ^ 6 := add_pow_char_pow a b q 6

theorem pow6_sub (a b : L) : (a - b) ^ q ^ 6 = a ^ q ^ 6 - b ^ q ^ 6 := sub_pow_char_pow a b 6

theorem four_eq : (4 : Fq2 Fq) = 2 ^ 2 := by norm_num

theorem two2_ne : (2 : Fq2 Fq) ≠ 0 := two_fq2 two_ne

theorem xOf_ne_zero (R : (curve (bTw Fq)).Point) (hR : R ≠ 0) : xOf R ≠ 0 := by
  intro h
  obtain ⟨x, y, hp⟩ := exists_isPt hR
  obtain ⟨ex, -⟩ := xOf_isPt hp
  rw [ex] at h
  have e := hp.eq
  rw [h] at e
  refine xi_not_square (y / 2) ?_
  rw [div_pow, div_eq_iff (pow_ne_zero _ two2_ne), e, ← four_eq]
  ring

theorem half_negl : Negl (K := Fq) (gen Fq : L) Half where
  mul := by
    rintro a b ⟨a0, ha⟩ ⟨b0, hb⟩
    refine ⟨mul_ne_zero a0 b0, ?_⟩
    rw [mul_pow]
    rcases ha with ha | ha <;> rcases hb with hb | hb <;> rw [ha, hb]
    · left; rfl
    · right; ring
    · right; ring
    · left; ring
  inv := by
    rintro a ⟨a0, ha⟩
    refine ⟨inv_ne_zero a0, ?_⟩
    rw [inv_pow]
    rcases ha with ha | ha <;> rw [ha]
    · left; rfl
    · right; rw [inv_neg]
  iota := fun c hc => ⟨(map_ne_zero _).2 hc, .inl (iota_pow6 c)⟩
  gen := ⟨gen_ne_zero two_ne gen_isGen, .inr gen_pow6⟩
  vert := by
    intro R x hR
    have hx := xOf_ne_zero R hR
    have hg : (gen Fq : L) ≠ 0 := gen_ne_zero two_ne gen_isGen
    unfold twVert vertVal inj
    constructor
    · intro h
      have h1 : ι (algebraMap Fq (Fq2 Fq) x) * gen Fq ^ 2 = ι (xOf R) := by
        field_simp at h
        linear_combination h
      have hx0 : algebraMap Fq (Fq2 Fq) x ≠ 0 := by
        intro h0
        rw [h0, map_zero, zero_mul] at h1
        exact hx ((map_eq_zero _).1 h1.symm)
      refine xi_not_cube (xOf R / algebraMap Fq (Fq2 Fq) x) ?_
      apply algebraMap_L_injective
      rw [map_pow, map_div₀, ← h1, mul_div_cancel_left₀ _ ((map_ne_zero _).2 hx0), ← pow_mul]
      exact gen_isGen
    · left
      rw [pow6_sub, iota_pow6, div_pow, iota_pow6, ← pow_mul, mul_comm 2, pow_mul, gen_pow6, neg_sq]
  ne := fun _ h => h.1

theorem order_half : (q ^ 12 - 1) / r = (q ^ 6 - 1) * 2 * ((q ^ 12 - 1) / r / ((q ^ 6 - 1) * 2)) ∧ 0 < q ^ 6 ∧
    q ^ 6 * ((q ^ 12 - 1) / r) + ((q ^ 12 - 1) / r) = (q ^ 12 - 1) * ((q ^ 6 + 1) / r) := by
  refine ⟨?_, ?_, ?_⟩ <;> decide +kernel

theorem Half.killed {l : L} (h : Half l) : l ^ ((q ^ 12 - 1) / r) = 1 := by
  obtain ⟨h0, h⟩ := h
  have h1 : (l ^ (q ^ 6 - 1)) ^ 2 = 1 := by
    have e : l ^ (q ^ 6 - 1) * l = l ^ q ^ 6 := by rw [← pow_succ, Nat.sub_add_cancel order_half.2.1]
    have : (l ^ (q ^ 6 - 1)) ^ 2 * l ^ 2 = 1 * l ^ 2 := by
      rw [← mul_pow, e, one_mul]
      rcases h with h | h <;> rw [h]
      rw [neg_sq]
    exact mul_right_cancel₀ (pow_ne_zero _ h0) this
  rw [order_half.1, pow_mul, pow_mul, h1, one_pow]

theorem L_pow_card (l : L) (h : l ≠ 0) : l ^ (q ^ 12 - 1) = 1 := by
  have e := elt_pow_card l
  rw [← pow_mul, card_order.2.2.1, card_order.2.1, pow_succ] at e
  exact mul_right_cancel₀ h (e.trans (one_mul l).symm)

theorem conj_killed (l : L) (h : l ≠ 0) : (l ^ q ^ 6) ^ ((q ^ 12 - 1) / r) = l⁻¹ ^ ((q ^ 12 - 1) / r) := by
  rw [inv_pow, ← pow_mul]
  apply eq_inv_of_mul_eq_one_left
  rw [← pow_add, order_half.2.2, pow_mul, L_pow_card l h, one_pow]

end Verif.Bls
