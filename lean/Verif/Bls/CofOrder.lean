import Mathlib.GroupTheory.Perm.Cycle.Type
import Mathlib.GroupTheory.Coset.Card
import Mathlib.Data.ZMod.Basic
import Verif.Bls.CofPoints

/-! # The order of the twist over `Fq2`, and what clearing the cofactor achieves

The multiples of the points of `CofPoints.lean` and of the generator of G2 make a subgroup whose order is a multiple of
`N = h2 · r`; the twist has at most `2 q² + 2 < 3 N` points, and none of order two.  So it has `N` points, and what clearing the
cofactor does on these few points decides what it does everywhere. -/

namespace Verif.Bls
open Verif.Ec QuadraticAlgebra

/-! ## Finite groups -/

section
variable {G : Type} [AddCommGroup G]

theorem prime_dvd_card (K : AddSubgroup G) {p : ℕ} (hp : p.Prime) {P : G} (hK : P ∈ K) (h0 : P ≠ 0) (h : (p : ℤ) • P = 0) :
    p ∣ Nat.card K := by
  haveI := Fact.mk hp
  have e : addOrderOf (⟨P, hK⟩ : K) = p := by
    refine addOrderOf_eq_prime ?_ ?_
    · apply Subtype.ext
      rw [AddSubgroup.coe_nsmul, ← natCast_zsmul]
      exact h
    · intro e
      exact h0 (congrArg Subtype.val e)
  rw [← e]
  exact addOrderOf_dvd_natCard _

theorem prime_sq_dvd_card (K : AddSubgroup G) {p : ℕ} {P Q : G} (hP : P ∈ K) (hQ : Q ∈ K)
    (h : (p : ℤ) • P = 0) (h' : (p : ℤ) • Q = 0) (hi : ∀ a b : ℤ, a • P + b • Q = 0 → (p : ℤ) ∣ a ∧ (p : ℤ) ∣ b) :
    p ^ 2 ∣ Nat.card K := by
  let f : ZMod p →+ K := ZMod.lift p ⟨zmultiplesHom K ⟨P, hP⟩, by
    apply Subtype.ext
    rw [zmultiplesHom_apply]
    exact h⟩
  let g : ZMod p →+ K := ZMod.lift p ⟨zmultiplesHom K ⟨Q, hQ⟩, by
    apply Subtype.ext
    rw [zmultiplesHom_apply]
    exact h'⟩
  have e : Nat.card (ZMod p × ZMod p) = p ^ 2 := by rw [Nat.card_prod, Nat.card_zmod, pow_two]
  rw [← e]
  refine AddSubgroup.card_dvd_of_injective (f.coprod g) ((injective_iff_map_eq_zero _).2 ?_)
  rintro ⟨a, b⟩ hab
  obtain ⟨a, rfl⟩ := ZMod.intCast_surjective a
  obtain ⟨b, rfl⟩ := ZMod.intCast_surjective b
  rw [AddMonoidHom.coprod_apply] at hab
  have hab' := congrArg Subtype.val hab
  simp only [f, g, ZMod.lift_coe, zmultiplesHom_apply] at hab'
  obtain ⟨k1, k2⟩ := hi a b hab'
  rw [Prod.mk_eq_zero]
  exact ⟨(ZMod.intCast_zmod_eq_zero_iff_dvd _ _).2 k1, (ZMod.intCast_zmod_eq_zero_iff_dvd _ _).2 k2⟩

end

/-! ## The number of points -/

/-- The cofactor of G2 (RFC 9380, 8.8.2). -/
def cofactorG2 : ℕ :=
  0x5d543a95414e7f1091d50792876a202cd91de4547085abaa68a205b2e5a7ddfa628f1cb4d9e82ef21537e293a6691ae1616ec6e786f0c70cf1c38e31c7238e5

/-- The product of the small primes of the cofactor. -/
def cofSmall : ℕ := 13 * 23 * 2713 * 11953 * 262069

/-- The product of the primes of the cofactor. -/
def cofExp : ℕ := cofSmall * cofPrime

theorem count_num : 2 * (q * q + 1) < 3 * (cofactorG2 * r) ∧ cofactorG2 * r % 2 = 1 := by decide +kernel

theorem pow32 : powMod q 500 32 ((q - 1) / 3) ≠ 1 ∧ powMod q 500 32 ((q - 1) / 3) < q ∧ (q - 1) / 3 < 2 ^ 500 ∧
    3 * ((q - 1) / 3) = q - 1 ∧ 32 < q ∧ 1 < q := by decide +kernel

/-- The numbers with which the kernel checks that clearing the cofactor annihilates the points. -/
theorem cof_num :
    (13 : ℤ) ∣ (blsX ^ 2 - blsX - 1) + (blsX - 1) * (7 : ℕ) + 2 * (7 : ℕ) ^ 2 ∧
    (13 : ℤ) ∣ (blsX ^ 2 - blsX - 1) + (blsX - 1) * (11 : ℕ) + 2 * (11 : ℕ) ^ 2 ∧
    (2713 : ℤ) ∣ (blsX ^ 2 - blsX - 1) + (blsX - 1) * (2017 : ℕ) + 2 * (2017 : ℕ) ^ 2 ∧
    (11953 : ℤ) ∣ (blsX ^ 2 - blsX - 1) + (blsX - 1) * (3605 : ℕ) + 2 * (3605 : ℕ) ^ 2 ∧
    (262069 : ℤ) ∣ (blsX ^ 2 - blsX - 1) + (blsX - 1) * (88066 : ℕ) + 2 * (88066 : ℕ) ^ 2 ∧
    (cofPrime : ℤ) ∣ (blsX ^ 2 - blsX - 1) + (blsX - 1) * (cofLambda : ℕ) + 2 * (cofLambda : ℕ) ^ 2 ∧
    (23 : ℤ) ∣ (blsX ^ 2 - blsX - 1) + 2 * 22 ∧ (23 : ℤ) ∣ (blsX - 1) + 2 * 16 := by
  refine ⟨?_, ?_, ?_, ?_, ?_, ?_, ?_, ?_⟩ <;> decide +kernel

theorem coprime_num : Nat.Coprime (13 ^ 2) (23 ^ 2) ∧ Nat.Coprime (13 ^ 2 * 23 ^ 2) 2713 ∧
    Nat.Coprime (13 ^ 2 * 23 ^ 2 * 2713) 11953 ∧ Nat.Coprime (13 ^ 2 * 23 ^ 2 * 2713 * 11953) 262069 ∧
    Nat.Coprime (13 ^ 2 * 23 ^ 2 * 2713 * 11953 * 262069) cofPrime ∧
    Nat.Coprime (13 ^ 2 * 23 ^ 2 * 2713 * 11953 * 262069 * cofPrime) r := by decide +kernel

theorem irreducible_23 : ∀ a b : ZMod 23, a * a + 16 * a * b - 22 * b * b = 0 → a = 0 ∧ b = 0 := by decide +kernel

theorem cof_dvd : ((13 : ℕ) : ℤ) ∣ cofExp ∧ ((2713 : ℕ) : ℤ) ∣ cofExp ∧ ((11953 : ℕ) : ℤ) ∣ cofExp ∧
    ((262069 : ℕ) : ℤ) ∣ cofExp ∧ ((cofPrime : ℕ) : ℤ) ∣ cofExp ∧ (23 : ℤ) ∣ cofExp := by
  refine ⟨?_, ?_, ?_, ?_, ?_, ?_⟩ <;> decide +kernel

attribute [local irreducible] q r blsX cofPrime cofLambda cofactorG2 cofExp E2.mulByNonResidueAt

instance : Finite (Fq2 Fq) := @Finite.of_fintype _ fintypeFq2

theorem card_fq2 : Nat.card (Fq2 Fq) = q * q := by
  rw [@Nat.card_eq_fintype_card _ fintypeFq2, card_Fq2]

/-- The points inject into pairs of coordinates and the neutral element. -/
instance : Finite (curve (bTw Fq)).Point := by
  classical
  let f : (curve (bTw Fq)).Point → Option (Fq2 Fq × Fq2 Fq) := fun P =>
    match P with
    | .zero => none
    | .some x y _ => some (x, y)
  refine Finite.of_injective f ?_
  intro P Q h
  cases P <;> cases Q <;> simp_all [f]

/-- At most two points for every `x`. -/
theorem card_le : Nat.card (curve (bTw Fq)).Point ≤ 2 * (q * q + 1) := by
  classical
  haveI := Fintype.ofFinite (curve (bTw Fq)).Point
  haveI := Fintype.ofFinite (Fq2 Fq)
  let f : (curve (bTw Fq)).Point → Option (Fq2 Fq) := fun P =>
    match P with
    | .zero => none
    | .some x _ _ => some x
  have hf : ∀ P Q, f P = f Q → Q = P ∨ Q = -P := by
    intro P Q h
    by_cases hP : P = 0
    · subst hP
      by_cases hQ : Q = 0
      · exact Or.inl hQ
      · obtain ⟨x, y, hn, rfl⟩ := exists_isPt hQ
        exact absurd h (by intro h; cases h)
    · obtain ⟨x, y, hn, rfl⟩ := exists_isPt hP
      by_cases hQ : Q = 0
      · subst hQ
        exact absurd h (by intro h; cases h)
      · obtain ⟨x', y', hn', rfl⟩ := exists_isPt hQ
        obtain rfl : x = x' := Option.some.inj h
        exact IsPt.same_x ⟨hn, rfl⟩ ⟨hn', rfl⟩
  have h1 := Finset.card_le_mul_card_image (f := f) (Finset.univ : Finset (curve (bTw Fq)).Point) 2 (by
    intro a ha
    obtain ⟨P, -, rfl⟩ := Finset.mem_image.1 ha
    refine le_trans (Finset.card_le_card (t := {P, -P}) ?_) (Finset.card_le_two)
    intro Q hQ
    rw [Finset.mem_filter] at hQ
    rw [Finset.mem_insert, Finset.mem_singleton]
    exact hf P Q hQ.2.symm)
  have h2 : (Finset.univ.image f).card ≤ q * q + 1 := by
    refine le_trans (Finset.card_le_univ _) ?_
    rw [Fintype.card_option, ← Nat.card_eq_fintype_card, card_fq2]
  rw [Nat.card_eq_fintype_card, ← Finset.card_univ]
  exact le_trans h1 (Nat.mul_le_mul_left 2 h2)

/-- `32` is no cube in the base field. -/
theorem not_cube (n : Fq) : n ^ 3 ≠ 32 := by
  obtain ⟨h1, h2, h3, h4, h5, h6⟩ := pow32
  intro h
  have hn : n ≠ 0 := by
    rintro rfl
    have e : ((32 : ℕ) : ZMod q) = ((0 : ℕ) : ZMod q) := by
      rw [zero_pow (by norm_num)] at h
      rw [Nat.cast_zero, Nat.cast_ofNat]
      exact h.symm
    rw [ZMod.natCast_eq_natCast_iff'] at e
    rw [Nat.mod_eq_of_lt h5] at e
    simp at e
  have k1 : n ^ (q - 1) = 1 := ZMod.pow_card_sub_one_eq_one (p := q) hn
  have k2 : ((powMod q 500 32 ((q - 1) / 3) : ℕ) : ZMod q) = ((32 : ℕ) : ZMod q) ^ ((q - 1) / 3) := powMod_cast q 500 32 _ h3
  have k3 : ((32 : ℕ) : ZMod q) ^ ((q - 1) / 3) = 1 := by
    rw [← h4, pow_mul, h] at k1
    rw [Nat.cast_ofNat]
    exact k1
  rw [k3] at k2
  have k4 : ((powMod q 500 32 ((q - 1) / 3) : ℕ) : ZMod q) = ((1 : ℕ) : ZMod q) := by rw [k2, Nat.cast_one]
  rw [ZMod.natCast_eq_natCast_iff', Nat.mod_eq_of_lt h2, Nat.mod_eq_of_lt h6] at k4
  exact h1 k4

/-- No point of order two. -/
theorem twist_two_torsion {P : (curve (bTw Fq)).Point} (h : P + P = 0) : P = 0 := by
  by_contra h0
  obtain ⟨x, y, hp⟩ := exists_isPt h0
  have hy : y = 0 := by
    by_contra hy
    exact (hp.y_ne two2_ne).2 hy h
  subst hy
  have he := hp.eq
  have e : x * x * x = ⟨-4, -4⟩ := by
    have e4 : (4 * ξ : Fq2 Fq) = ⟨4, 4⟩ := by
      have : (4 : Fq2 Fq) = algebraMap Fq (Fq2 Fq) 4 := (map_ofNat _ 4).symm
      rw [this, ξ]
      ext <;> simp [algebraMap_re, algebraMap_im]
    have : x * x * x = -(4 * ξ) := by
      unfold bTw at he
      linear_combination -he
    rw [this, e4]
    ext <;> simp
  have h1 := congrArg QuadraticAlgebra.re e
  have h2 := congrArg QuadraticAlgebra.im e
  simp only [re_mul, im_mul] at h1 h2
  refine not_cube (x.re ^ 2 + x.im ^ 2) ?_
  generalize x.re = u at *
  generalize x.im = v at *
  have h1' : u ^ 3 - 3 * u * v ^ 2 = -4 := by linear_combination h1
  have h2' : 3 * u ^ 2 * v - v ^ 3 = -4 := by linear_combination h2
  linear_combination (u ^ 3 - 3 * u * v ^ 2 - 4) * h1' + (3 * u ^ 2 * v - v ^ 3 - 4) * h2'

theorem card_of_dvd {N : ℕ} (h1 : 2 * (q * q + 1) < 3 * N) (h2 : N % 2 = 1) (hN : N ∣ Nat.card (curve (bTw Fq)).Point) :
    Nat.card (curve (bTw Fq)).Point = N := by
  obtain ⟨m, hm⟩ := hN
  have hle := card_le
  have hpos : 0 < Nat.card (curve (bTw Fq)).Point := Nat.card_pos
  have hm3 : m < 3 := by
    by_contra hge
    have := Nat.mul_le_mul_left N (not_lt.1 hge)
    rw [← hm] at this
    omega
  have hm0 : m ≠ 0 := by
    rintro rfl
    omega
  have hm2 : m ≠ 2 := by
    rintro rfl
    haveI := Fintype.ofFinite (curve (bTw Fq)).Point
    haveI := Fact.mk Nat.prime_two
    obtain ⟨P, hP⟩ := exists_prime_addOrderOf_dvd_card' (G := (curve (bTw Fq)).Point) 2 (by rw [hm]; exact Dvd.intro_left N rfl)
    have hPP : P + P = 0 := by
      rw [← two_nsmul, ← hP]
      exact addOrderOf_nsmul_eq_zero P
    have := twist_two_torsion hPP
    rw [this, addOrderOf_zero] at hP
    omega
  obtain rfl : m = 1 := by omega
  rw [hm, mul_one]

/-! ## Clearing the cofactor -/

/-- Clearing the cofactor is a homomorphism. -/
noncomputable def clearHom : (curve (bTw Fq)).Point →+ (curve (bTw Fq)).Point where
  toFun := clearCofactorRFC
  map_zero' := by rw [clearCofactorRFC_eq, add_zero, zsmul_zero, zsmul_zero, map_zero, map_zero, add_zero, add_zero]
  map_add' P Q := by
    simp only [clearCofactorRFC_eq, map_add, map_zsmul, zsmul_add]
    abel

theorem clear_eigen {P : (curve (bTw Fq)).Point} {k : ℕ} (h : psi P = (k : ℤ) • P) :
    clearCofactorRFC P = ((blsX ^ 2 - blsX - 1) + (blsX - 1) * (k : ℕ) + 2 * (k : ℕ) ^ 2) • P := by
  rw [clearCofactorRFC_eq, map_zsmul, map_add, map_add, h, map_zsmul, h]
  module

theorem clear_eigen_zero {P : (curve (bTw Fq)).Point} {k l : ℕ} (h : psi P = (k : ℤ) • P) (hl : (l : ℤ) • P = 0)
    (hd : (l : ℤ) ∣ (blsX ^ 2 - blsX - 1) + (blsX - 1) * (k : ℕ) + 2 * (k : ℕ) ^ 2) : clearCofactorRFC P = 0 := by
  rw [clear_eigen h]
  obtain ⟨c, hc⟩ := hd
  rw [hc, mul_comm, mul_zsmul, hl, zsmul_zero]

theorem clear_zero_of {P : (curve (bTw Fq)).Point} (h : psi (psi P) = (16 : ℤ) • psi P + (22 : ℤ) • P) (hl : (23 : ℤ) • P = 0) :
    clearCofactorRFC P = 0 := by
  have hl' : (23 : ℤ) • psi P = 0 := by rw [← map_zsmul, hl, map_zero]
  obtain ⟨-, -, -, -, -, -, ⟨c, hc⟩, ⟨d, hd⟩⟩ := cof_num
  have e : clearCofactorRFC P = ((blsX ^ 2 - blsX - 1) + 2 * 22) • P + ((blsX - 1) + 2 * 16) • psi P := by
    rw [clearCofactorRFC_eq, map_zsmul, map_add, map_add, h]
    module
  rw [e, hc, hd, mul_comm, mul_zsmul, hl, zsmul_zero, zero_add, mul_comm, mul_zsmul, hl', zsmul_zero]

theorem kill_of {P : (curve (bTw Fq)).Point} {l c : ℤ} (hd : l ∣ c) (hl : l • P = 0) : c • P = 0 := by
  obtain ⟨k, rfl⟩ := hd
  rw [mul_comm, mul_zsmul, hl, zsmul_zero]

theorem card_eigen (K : AddSubgroup (curve (bTw Fq)).Point)
    (hc : ∀ P : (curve (bTw Fq)).Point, clearCofactorRFC P = 0 → (cofExp : ℤ) • P = 0 → P ∈ K) {a : G2Affine Fq} {l k : ℕ}
    (hp : l.Prime) (h : eigenCheck a l k = true) (hd : (l : ℤ) ∣ (blsX ^ 2 - blsX - 1) + (blsX - 1) * (k : ℕ) + 2 * (k : ℕ) ^ 2)
    (hm : (l : ℤ) ∣ cofExp) : l ∣ Nat.card K := by
  obtain ⟨P, h0, hl, he⟩ := eigenCheck_spec h
  exact prime_dvd_card K hp (hc _ (clear_eigen_zero he hl hd) (kill_of hm hl)) h0 hl

theorem dvd_four {a : ℤ} (h : ((13 : ℕ) : ℤ) ∣ 4 * a) : ((13 : ℕ) : ℤ) ∣ a := by
  push_cast at h ⊢
  omega

/-- A subgroup that contains the group of order `r` and the points of `CofPoints.lean` is everything, and has `h2 · r` elements. -/
theorem eq_top_of (K : AddSubgroup (curve (bTw Fq)).Point) (hr : ∀ P : (curve (bTw Fq)).Point, r • P = 0 → psi P = blsX • P → P ∈ K)
    (hc : ∀ P : (curve (bTw Fq)).Point, clearCofactorRFC P = 0 → (cofExp : ℤ) • P = 0 → P ∈ K) :
    K = ⊤ ∧ Nat.card (curve (bTw Fq)).Point = cofactorG2 * r := by
  obtain ⟨n1, n2, n3, n4, n5, n6, -⟩ := cof_num
  obtain ⟨c1, c2, c3, c4, c5, c6⟩ := coprime_num
  obtain ⟨m1, m3, m4, m5, m6, m2⟩ := cof_dvd
  obtain ⟨P7, p70, p7l, p7e⟩ := eigenCheck_spec cof13a_check
  obtain ⟨P11, p110, p11l, p11e⟩ := eigenCheck_spec cof13b_check
  obtain ⟨P2, p20, p2l, p2e⟩ := cof23_spec
  obtain ⟨P1, pa, p1r, p1e, -⟩ := g2_in_G2
  have d13 : 13 ^ 2 ∣ Nat.card K := by
    refine prime_sq_dvd_card K (hc _ (clear_eigen_zero p7e p7l n1) (kill_of m1 p7l))
      (hc _ (clear_eigen_zero p11e p11l n2) (kill_of m1 p11l)) p7l p11l ?_
    intro a b hab
    have h1 := congrArg psi hab
    rw [map_add, map_zsmul, map_zsmul, p7e, p11e, map_zero] at h1
    have hz : ∀ {P : (curve (bTw Fq)).Point} {k : ℤ}, P ≠ 0 → ((13 : ℕ) : ℤ) • P = 0 → k • P = 0 → ((13 : ℕ) : ℤ) ∣ k := by
      intro P k hP h13 hk
      by_contra hd
      have hg : IsCoprime ((13 : ℕ) : ℤ) k :=
        (Prime.coprime_iff_not_dvd (Nat.prime_iff_prime_int.1 prime_13)).2 hd
      obtain ⟨u, v, huv⟩ := hg
      apply hP
      have : (u * ((13 : ℕ) : ℤ) + v * k) • P = 0 := by
        rw [add_zsmul, mul_zsmul, mul_zsmul, h13, hk, zsmul_zero, zsmul_zero, add_zero]
      rwa [huv, one_zsmul] at this
    have ka : (4 * a) • P7 = 0 := by
      have : (4 * a) • P7 = (11 : ℤ) • (a • P7 + b • P11) - (a • ((7 : ℕ) : ℤ) • P7 + b • ((11 : ℕ) : ℤ) • P11) := by
        push_cast
        module
      rw [this, hab, h1, zsmul_zero, sub_zero]
    have kb : (4 * b) • P11 = 0 := by
      have : (4 * b) • P11 = (a • ((7 : ℕ) : ℤ) • P7 + b • ((11 : ℕ) : ℤ) • P11) - (7 : ℤ) • (a • P7 + b • P11) := by
        push_cast
        module
      rw [this, hab, h1, zsmul_zero, sub_zero]
    have ha := hz p70 p7l ka
    have hb := hz p110 p11l kb
    exact ⟨dvd_four ha, dvd_four hb⟩
  have d23 : 23 ^ 2 ∣ Nat.card K := by
    have h2l' : (23 : ℤ) • psi P2 = 0 := by rw [← map_zsmul, p2l, map_zero]
    have hcl := clear_zero_of p2e p2l
    have hcl' : clearCofactorRFC (psi P2) = 0 := by
      refine clear_zero_of ?_ h2l'
      rw [p2e, map_add, map_zsmul, map_zsmul, p2e]
    refine prime_sq_dvd_card K (hc _ hcl (kill_of m2 p2l)) (hc _ hcl' (kill_of m2 h2l')) p2l h2l' ?_
    intro a b hab
    have h1 := congrArg psi hab
    rw [map_add, map_zsmul, map_zsmul, p2e, map_zero] at h1
    have hk : (a * a + 16 * a * b - 22 * b * b) • P2 = 0 := by
      have : (a * a + 16 * a * b - 22 * b * b) • P2 = (a + 16 * b) • (a • P2 + b • psi P2) -
          b • (a • psi P2 + b • ((16 : ℤ) • psi P2 + (22 : ℤ) • P2)) := by module
      rw [this, hab, h1, zsmul_zero, zsmul_zero, sub_zero]
    have hd : (23 : ℤ) ∣ a * a + 16 * a * b - 22 * b * b := by
      by_contra hd
      have hg : IsCoprime (23 : ℤ) (a * a + 16 * a * b - 22 * b * b) :=
        (Prime.coprime_iff_not_dvd (Nat.prime_iff_prime_int.1 prime_23)).2 hd
      obtain ⟨u, v, huv⟩ := hg
      apply p20
      have : (u * 23 + v * (a * a + 16 * a * b - 22 * b * b)) • P2 = 0 := by
        rw [add_zsmul, mul_zsmul, mul_zsmul, p2l, hk, zsmul_zero, zsmul_zero, add_zero]
      rwa [huv, one_zsmul] at this
    have hz := (ZMod.intCast_zmod_eq_zero_iff_dvd (a * a + 16 * a * b - 22 * b * b) 23).2 hd
    push_cast at hz
    obtain ⟨k1, k2⟩ := irreducible_23 _ _ hz
    exact ⟨(ZMod.intCast_zmod_eq_zero_iff_dvd _ 23).1 k1, (ZMod.intCast_zmod_eq_zero_iff_dvd _ 23).1 k2⟩
  have d3 := card_eigen K hc prime_2713 cof2713_check n3 m3
  have d4 := card_eigen K hc prime_11953 cof11953_check n4 m4
  have d5 := card_eigen K hc prime_262069 cof262069_check n5 m5
  have d6 := card_eigen K hc cofPrime_prime cofLarge_check n6 m6
  have d1 := prime_dvd_card K fact_r.out (hr _ p1r p1e) pa.ne_zero (by rw [natCast_zsmul]; exact p1r)
  have hN : cofactorG2 * r ∣ Nat.card K := by
    have e : cofactorG2 = 13 ^ 2 * 23 ^ 2 * 2713 * 11953 * 262069 * cofPrime := by
      unfold cofactorG2
      exact cof_factors
    rw [e]
    exact c6.mul_dvd_of_dvd_of_dvd (c5.mul_dvd_of_dvd_of_dvd (c4.mul_dvd_of_dvd_of_dvd (c3.mul_dvd_of_dvd_of_dvd
      (c2.mul_dvd_of_dvd_of_dvd (c1.mul_dvd_of_dvd_of_dvd d13 d23) d3) d4) d5) d6) d1
  have hK : Nat.card K ∣ Nat.card (curve (bTw Fq)).Point := AddSubgroup.card_addSubgroup_dvd_card K
  obtain ⟨h1, h2⟩ := count_num
  have hcard := card_of_dvd h1 h2 (hN.trans hK)
  refine ⟨?_, hcard⟩
  apply AddSubgroup.eq_top_of_card_eq
  refine Nat.dvd_antisymm hK ?_
  rw [hcard]
  exact hN

end Verif.Bls
