import Verif.Bls.PropsCof

/-! # C91: the exceptional cases of clearing the cofactor, exactly

Which points meet the hypotheses of the C54-C56 theorems: all those that the product of the five small primes of the cofactor does
not annihilate. -/

namespace Verif.Bls
open Verif.Ec QuadraticAlgebra

/-- The coefficients of the combinations of `P`, `ψP`, `ψ²P` that must not vanish. -/
def cofForms (x : ℤ) : List (ℤ × ℤ × ℤ) :=
  [(1, 0, 0), (2, 0, 0), (x, 0, 0), (x ^ 2, 0, 0), (x + 1, 0, 0), (x - 1, 0, 0), (x ^ 2 + x, 0, 0), (x ^ 2 - x, 0, 0),
    (x ^ 2 - x + 1, 0, 0), (x ^ 2 - x - 1, 0, 0), (0, x - 1, 0), (x ^ 2 - x - 1, -(x - 1), 0), (x ^ 2 - x - 1, x - 1, 0),
    (0, 0, 2), (x ^ 2 - x - 1, x - 1, -2)]

theorem forms_r : ∀ t ∈ cofForms blsX, ¬ (r : ℤ) ∣ t.1 + t.2.1 * blsX + t.2.2 * blsX ^ 2 := by decide +kernel

theorem forms_p : ∀ t ∈ cofForms blsX, ¬ (cofPrime : ℤ) ∣ t.1 + t.2.1 * cofLambda + t.2.2 * cofLambda ^ 2 := by decide +kernel

theorem clear_r : ¬ (r : ℤ) ∣ (blsX ^ 2 - blsX - 1) + (blsX - 1) * blsX + 2 * blsX ^ 2 := by decide +kernel

theorem big_num : 0xd201000000010000 < r ∧ 0xd201000000010000 < cofPrime ∧ cofSmall ≤ 0xd201000000010000 ∧ 0 < cofSmall ∧
    Nat.Coprime cofPrime r ∧ ¬ cofPrime ^ 2 ∣ cofactorG2 * r ∧ ¬ (cofPrime : ℤ) ∣ blsX ∧ ¬ (r : ℤ) ∣ blsX := by decide +kernel

theorem exp_num : cofExp = cofSmall * cofPrime ∧ (cofExp : ℤ) ∣ (cofactorG2 : ℤ) := by decide +kernel

attribute [local irreducible] q r blsX cofPrime cofLambda cofactorG2 cofExp cofSmall hEff E2.mulByNonResidueAt

variable {P Q : (curve (bTw Fq)).Point}

/-- **C91**: the exponent of the twist. -/
theorem C91_exponent (P : (curve (bTw Fq)).Point) : (cofSmall * cofPrime * r) • P = 0 := by
  have h := (eq_top_of ((nsmulAddMonoidHom (α := (curve (bTw Fq)).Point) (cofSmall * cofPrime * r)).ker) ?_ ?_).1
  · have hP : P ∈ (nsmulAddMonoidHom (α := (curve (bTw Fq)).Point) (cofSmall * cofPrime * r)).ker := by
      rw [h]; exact AddSubgroup.mem_top P
    exact hP
  · intro P hr _
    show (cofSmall * cofPrime * r) • P = 0
    rw [mul_comm, mul_nsmul, hr, nsmul_zero]
  · intro P _ hk
    show (cofSmall * cofPrime * r) • P = 0
    rw [← exp_num.1, mul_nsmul, ← natCast_zsmul P, hk, nsmul_zero]

/-- A multiple of `P` is of prime order `p` and an eigenvector of ψ. -/
def Part (p : ℕ) (k : ℤ) (P : (curve (bTw Fq)).Point) : Prop :=
  ∃ n : ℤ, n • P ≠ 0 ∧ (p : ℤ) • n • P = 0 ∧ psi (n • P) = k • n • P

theorem Part.ne {p : ℕ} {k : ℤ} (h : Part p k P) (hp : p.Prime) {a b c : ℤ} (hd : ¬ (p : ℤ) ∣ a + b * k + c * k ^ 2) :
    a • P + b • psi P + c • psi (psi P) ≠ 0 := by
  obtain ⟨n, h0, hz, he⟩ := h
  intro h
  have h1 : n • (a • P + b • psi P + c • psi (psi P)) = 0 := by rw [h, zsmul_zero]
  have h2 : n • (a • P + b • psi P + c • psi (psi P)) = a • n • P + b • psi (n • P) + c • psi (psi (n • P)) := by
    rw [map_zsmul, map_zsmul]
    module
  rw [h2, he, map_zsmul, he] at h1
  generalize n • P = B at *
  have h3 : (a + b * k + c * k ^ 2) • B = 0 := by
    rw [← h1]
    module
  obtain ⟨u, v, huv⟩ := (Prime.coprime_iff_not_dvd (Nat.prime_iff_prime_int.1 hp)).2 hd
  apply h0
  have : (u * (p : ℤ) + v * (a + b * k + c * k ^ 2)) • B = 0 := by
    rw [add_zsmul, mul_zsmul, mul_zsmul, hz, h3, zsmul_zero, zsmul_zero, add_zero]
  rwa [huv, one_zsmul] at this

theorem Part.mul_ne {p : ℕ} {k : ℤ} (h : Part p k P) (hp : p.Prime) {a : ℤ} (hd : ¬ (p : ℤ) ∣ a) : a • P ≠ 0 := by
  have := h.ne hp (a := a) (b := 0) (c := 0) (by simpa using hd)
  simpa using this

theorem Part.nonDeg {p : ℕ} {k : ℤ} (h : Part p k P) (hp : p.Prime) {N : ℕ} (hN : N < p) : NonDeg N P := by
  intro j hj hle
  rw [← natCast_zsmul]
  refine h.mul_ne hp fun hd => ?_
  have := Nat.le_of_dvd hj (Int.natCast_dvd_natCast.1 hd)
  omega

theorem Part.nonDeg_x {p : ℕ} {k : ℤ} (h : Part p k P) (hp : p.Prime) (hx : ¬ (p : ℤ) ∣ blsX) {N : ℕ} (hN : N < p) :
    NonDeg N (blsX • P) := by
  intro j hj hle
  rw [← natCast_zsmul, ← mul_zsmul]
  refine h.mul_ne hp fun hd => ?_
  rcases (Nat.prime_iff_prime_int.1 hp).2.2 _ _ hd with e | e
  · have := Nat.le_of_dvd hj (Int.natCast_dvd_natCast.1 e)
    omega
  · exact hx e

theorem Part.generic {p : ℕ} {k : ℤ} (h : Part p k P) (hp : p.Prime) (hx : ¬ (p : ℤ) ∣ blsX)
    (hN : 0xd201000000010000 < p) (hf : ∀ t ∈ cofForms blsX, ¬ (p : ℤ) ∣ t.1 + t.2.1 * k + t.2.2 * k ^ 2) : CofGeneric P := by
  have key : ∀ t ∈ cofForms blsX, t.1 • P + t.2.1 • psi P + t.2.2 • psi (psi P) ≠ 0 := fun t ht => h.ne hp (hf t ht)
  simp only [cofForms, List.forall_mem_cons, List.not_mem_nil, false_imp_iff, implies_true, and_true] at key
  have n1 := h.nonDeg hp hN
  have n2 := h.nonDeg_x hp hx hN
  clear h hf hN hx
  obtain ⟨k1, k2, k3, k4, k5, k6, k7, k8, k9, k10, k11, k12, k13, k14, k15⟩ := key
  have tr : ∀ {A B : (curve (bTw Fq)).Point}, A ≠ 0 → A = B → B ≠ 0 := fun h e => e ▸ h
  have tr' : ∀ {A B C : (curve (bTw Fq)).Point}, A ≠ 0 → A = B - C → B ≠ C := fun h e e' => h (by rw [e, e', sub_self])
  refine ⟨n1, n2, ⟨tr k4 ?_, tr k3 ?_ |> neg_ne_zero.2, tr' k7 ?_⟩, ⟨tr k8 ?_, tr k1 ?_ |> neg_ne_zero.2, tr' k9 ?_⟩,
    ⟨tr k3 ?_, tr k1 ?_ |> neg_ne_zero.2, tr' k5 ?_⟩, ⟨tr k10 ?_, tr k11 ?_, tr' k12 ?_⟩, ⟨tr k13 ?_, tr k14 ?_, tr' k15 ?_⟩⟩ <;>
  · try simp only [map_zsmul, map_add]
    module

/-- Where the group of order `r` contributes, the affine formulas apply. -/
theorem Part.apart (h : Part r blsX P) : CofApart P := by
  have key : ∀ t ∈ cofForms blsX, t.1 • P + t.2.1 • psi P + t.2.2 • psi (psi P) ≠ 0 := fun t ht => h.ne fact_r.out (forms_r t ht)
  have kc := h.ne fact_r.out clear_r
  simp only [cofForms, List.forall_mem_cons, List.not_mem_nil, false_imp_iff, implies_true, and_true] at key
  clear h
  obtain ⟨k1, k2, k3, k4, k5, k6, k7, k8, k9, k10, k11, k12, k13, k14, k15⟩ := key
  have tr : ∀ {A B : (curve (bTw Fq)).Point}, A ≠ 0 → A = B → B ≠ 0 := fun h e => e ▸ h
  have tr' : ∀ {A B C : (curve (bTw Fq)).Point}, A ≠ 0 → A = B - C → B ≠ C := fun h e e' => h (by rw [e, e', sub_self])
  refine ⟨tr k4 ?_, ⟨tr' k8 ?_, tr' k7 ?_⟩, ⟨tr' k10 ?_, tr' k9 ?_⟩, ⟨tr' k6 ?_, tr' k5 ?_⟩, ⟨tr' k12 ?_, tr' k13 ?_⟩, tr k2 ?_,
    ⟨tr' k15 ?_, tr' kc ?_⟩⟩ <;>
  · try simp only [map_zsmul, map_add]
    module

/-- The part of order `r` of a point that clearing the cofactor does not send to zero. -/
theorem part_r (h : cofExp • P ≠ 0) : Part r blsX P := by
  have hz : r • (cofExp • P) = 0 := by
    rw [← mul_nsmul, exp_num.1]
    exact C91_exponent P
  refine ⟨cofExp, ?_, ?_, ?_⟩
  · rwa [natCast_zsmul]
  · rw [natCast_zsmul, natCast_zsmul]
    exact hz
  · rw [natCast_zsmul]
    exact (C91_member _).2 hz

/-- The part of order `cofPrime`. -/
theorem part_p (h : (cofSmall * r) • P ≠ 0) : Part cofPrime cofLambda P := by
  have hz : cofPrime • ((cofSmall * r) • P) = 0 := by
    rw [← mul_nsmul, show cofSmall * r * cofPrime = cofSmall * cofPrime * r by ring]
    exact C91_exponent P
  obtain ⟨g, g0, gl, ge⟩ := eigenCheck_spec cofLarge_check
  refine ⟨(cofSmall * r : ℕ), ?_, ?_, ?_⟩
  · rwa [natCast_zsmul]
  · rw [natCast_zsmul, natCast_zsmul]
    exact hz
  · refine eigen_all cofPrime_prime big_num.2.2.2.2.2.1 g0 gl ge ?_
    rw [natCast_zsmul, natCast_zsmul]
    exact hz

theorem part_of (h : cofSmall • P ≠ 0) : Part r blsX P ∨ Part cofPrime cofLambda P := by
  by_contra hn
  rw [not_or] at hn
  have h1 : cofExp • P = 0 := by_contra fun h1 => hn.1 (part_r h1)
  have h2 : (cofSmall * r) • P = 0 := by_contra fun h2 => hn.2 (part_p h2)
  have hc : IsCoprime (cofPrime : ℤ) (r : ℤ) := Nat.isCoprime_iff_coprime.2 big_num.2.2.2.2.1
  obtain ⟨u, v, huv⟩ := hc
  apply h
  rw [exp_num.1, mul_nsmul, ← natCast_zsmul] at h1
  rw [mul_nsmul, ← natCast_zsmul] at h2
  generalize cofSmall • P = B at *
  have : (u * (cofPrime : ℤ) + v * (r : ℤ)) • B = 0 := by
    rw [add_zsmul, mul_zsmul, mul_zsmul, h1, h2, zsmul_zero, zsmul_zero, add_zero]
  rwa [huv, one_zsmul] at this

theorem generic_of_small (h : cofSmall • P ≠ 0) : CofGeneric P := by
  obtain ⟨b1, b2, -, -, -, -, b3, b4⟩ := big_num
  rcases part_of h with h | h
  · exact h.generic fact_r.out b4 b1 forms_r
  · exact h.generic cofPrime_prime b3 b2 forms_p

/-- **C91**: the multiples of a point up to `|x|` are finite exactly if the product of the small primes does not annihilate it. -/
theorem C91_multiples (P : (curve (bTw Fq)).Point) :
    (∀ j, 0 < j → j ≤ 0xd201000000010000 → j • P ≠ 0) ↔ (13 * 23 * 2713 * 11953 * 262069) • P ≠ 0 := by
  have e : 13 * 23 * 2713 * 11953 * 262069 = cofSmall := by unfold cofSmall; rfl
  rw [e]
  exact ⟨fun h => h _ big_num.2.2.2.1 big_num.2.2.1, fun h => (generic_of_small h).mul1⟩

end Verif.Bls
