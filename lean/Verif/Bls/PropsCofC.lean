import Verif.Bls.CofGen

/-! # C91: the circuits that clear the cofactor, multiply by `|x|` and hash -/

namespace Verif.Bls
open Verif.Ec Verif.Api QuadraticAlgebra RFC

theorem two132_lt : 2 ^ 132 < r ∧ 2 ^ 132 < cofPrime := by decide +kernel

theorem bad_num : cofactorG2 * r = (13 ^ 2 * 23 ^ 2 * 2713 * 11953 * 262069) * (cofPrime * r) ∧
    Nat.Coprime cofSmall (cofPrime * r) ∧ Nat.Coprime (13 ^ 2 * 23 ^ 2 * 2713 * 11953 * 262069) (cofPrime * r) ∧
    cofSmall ∣ 13 ^ 2 * 23 ^ 2 * 2713 * 11953 * 262069 ∧ 0 < cofPrime * r := by decide +kernel

theorem cop_num : Nat.Coprime 2713 r := by decide +kernel

theorem small_eq : 13 * 23 * 2713 * 11953 * 262069 = cofSmall := by unfold cofSmall; rfl

attribute [local irreducible] q r blsX cofPrime cofLambda cofactorG2 cofExp cofSmall hEff E2.mulByNonResidueAt

variable {P Q : (curve (bTw Fq)).Point}

theorem coprime_card {G : Type} [AddCommGroup G] [Finite G] {n m : ℕ} (hn : ∀ P : G, n • P = 0) (hc : Nat.Coprime n m) :
    Nat.Coprime (Nat.card G) m := by
  refine Nat.Coprime.symm (Nat.coprime_of_dvd fun l hl hm hG => ?_)
  haveI := Fintype.ofFinite G
  haveI := Fact.mk hl
  obtain ⟨P, hP⟩ := exists_prime_addOrderOf_dvd_card' (G := G) l hG
  have h1 : l ∣ n := by rw [← hP]; exact addOrderOf_dvd_of_nsmul_eq_zero (hn P)
  exact Nat.not_coprime_of_dvd_of_dvd hl.one_lt h1 hm hc

/-- **C91**: of the `h2 · r` points of the twist, exactly `13² · 23² · 2713 · 11953 · 262069` (fewer than `2^60`) are annihilated by
the product of the small primes of the cofactor. -/
theorem C91_exceptional : Nat.card {P : (curve (bTw Fq)).Point // (13 * 23 * 2713 * 11953 * 262069) • P = 0} =
    13 ^ 2 * 23 ^ 2 * 2713 * 11953 * 262069 := by
  rw [small_eq]
  obtain ⟨e1, e2, e3, -, e5⟩ := bad_num
  generalize hB : 13 ^ 2 * 23 ^ 2 * 2713 * 11953 * 262069 = B at *
  let f : (curve (bTw Fq)).Point →+ (curve (bTw Fq)).Point := nsmulAddMonoidHom cofSmall
  have hT : Nat.card f.ker * Nat.card f.range = B * (cofPrime * r) := by
    rw [← e1, ← C91_order, ← AddSubgroup.index_ker, mul_comm, AddSubgroup.index_mul_card]
  have c1 : Nat.Coprime (Nat.card f.ker) (cofPrime * r) := by
    refine coprime_card (n := cofSmall) ?_ e2
    rintro ⟨P, hP⟩
    exact Subtype.ext hP
  have c2 : Nat.Coprime (Nat.card f.range) cofSmall := by
    refine coprime_card (n := cofPrime * r) ?_ e2.symm
    rintro ⟨_, P, rfl⟩
    apply Subtype.ext
    show (cofPrime * r) • cofSmall • P = 0
    rw [← mul_nsmul, ← mul_assoc]
    exact C91_exponent P
  have c3 : Nat.Coprime (Nat.card f.range) B := by
    refine Nat.coprime_of_dvd fun l hl h1 h2 => ?_
    refine Nat.not_coprime_of_dvd_of_dvd hl.one_lt h1 ?_ c2
    rw [← hB] at h2
    rw [← small_eq]
    rcases (hl.dvd_mul).1 h2 with h | h
    · rcases (hl.dvd_mul).1 h with h | h
      · rcases (hl.dvd_mul).1 h with h | h
        · rcases (hl.dvd_mul).1 h with h | h
          · exact (hl.dvd_of_dvd_pow h).trans ⟨23 * 2713 * 11953 * 262069, rfl⟩
          · exact (hl.dvd_of_dvd_pow h).trans ⟨13 * 2713 * 11953 * 262069, rfl⟩
        · exact h.trans ⟨13 * 23 * 11953 * 262069, rfl⟩
      · exact h.trans ⟨13 * 23 * 2713 * 262069, rfl⟩
    · exact h.trans ⟨13 * 23 * 2713 * 11953, rfl⟩
  have d1 : Nat.card f.ker ∣ B := c1.dvd_of_dvd_mul_right (Dvd.intro _ hT)
  have d2 : B ∣ Nat.card f.ker := c3.symm.dvd_of_dvd_mul_right (Dvd.intro _ hT.symm)
  exact Nat.dvd_antisymm d1 d2

/-- **C91**: multiplication by `|x|` in both coordinate systems, for every finite point but those: both affine functions accept it and
return the multiple, and so does whatever is accepted in Jacobian coordinates. -/
theorem C91_scalar_mul (a : G2Affine Fq) (ha : AR a P) (h : (13 * 23 * 2713 * 11953 * 262069) • P ≠ 0) :
    (∃ z, g2ConstScalarMul a = some z ∧ g2ConstScalarMulV2 a = some z ∧ AR z ((0xd201000000010000 : ℕ) • P)) ∧
    ∀ b z, JR b P → g2JacConstScalarMul b z → JR z ((0xd201000000010000 : ℕ) • P) := by
  have h' := h
  rw [small_eq] at h'
  have hn : NonDeg (2 ^ 132) P := by
    rcases part_of h' with h | h
    · exact h.nonDeg fact_r.out two132_lt.1
    · exact h.nonDeg cofPrime_prime two132_lt.2
  obtain ⟨z, hz, hA⟩ := C55_signed_complete a P ha hn
  obtain ⟨z', hz', hA'⟩ := scalarMulV2_complete ha ((C91_multiples P).2 h)
  obtain ⟨e1, e2⟩ := IsPt.inj hA hA'
  have e : z = z' := by
    rw [G2Affine.ext_iff]
    exact ⟨E2.val_inj.1 e1, E2.val_inj.1 e2⟩
  refine ⟨⟨z, hz, by rw [hz', e], hA⟩, fun b w hb hw => ?_⟩
  exact (C54_scalar_mul b hb).2 (Or.inr ((C91_multiples P).2 h)) w hw

/-- **C91**: what a prover can reach with `ClearCofactor` is the multiple by `h_eff`, a point of the group of order `r`, for the neutral
element and for every point but the exceptional ones. -/
theorem C91_clear_jac (a z : G2Jac Fq) (ha : JR a P) (h : P = 0 ∨ (13 * 23 * 2713 * 11953 * 262069) • P ≠ 0)
    (hz : clearCofactorJac a z) : JR z (hEff • P) ∧ r • hEff • P = 0 := by
  rw [small_eq] at h
  rw [← C91_heff]
  exact ⟨C56_clear_partial a z ha (h.imp_right generic_of_small) hz, C91_clear P⟩

/-- **C91**: `G2ClearCofactor` returns the multiple by `h_eff`, and is unsatisfiable exactly where this is the neutral element, for every
finite point but the exceptional ones. -/
theorem C91_clear_affine (a : G2Affine Fq) (ha : AR a P) (h : (13 * 23 * 2713 * 11953 * 262069) • P ≠ 0) :
    (∀ z, g2ClearCofactor a z → AR z (hEff • P)) ∧ ((∃ z, g2ClearCofactor a z) ↔ hEff • P ≠ 0) := by
  rw [small_eq] at h
  have hg := generic_of_small h
  have hs : ∀ z, g2ClearCofactor a z → AR z (hEff • P) := by
    intro z hz
    rw [← C91_heff]
    exact C56_clear_affine_partial a z ha hg.mul1 hg.mul2 hz
  refine ⟨hs, fun ⟨z, hz⟩ => (hs z hz).ne_zero, fun h0 => ?_⟩
  have hp : Part r blsX P := by
    refine part_r fun he => h0 (kill_of hEff_num.1 ?_)
    rw [natCast_zsmul]
    exact he
  exact (C56_clear_affine_complete a ha hp.apart).imp fun _ h => h.1

/-- **C91**: both hash functions of RFC 9380 end in the group of order `r`. -/
theorem C91_hash_spec (msg : RFC.Bytes) (P : (curve (bTw Fq)).Point) (h : HashToCurve msg P ∨ EncodeToCurve msg P) :
    r • P = 0 ∧ psi P = blsX • P := by
  have hr : r • P = 0 := by
    rcases h with ⟨u0, u1, P0, P1, -, -, -, rfl⟩ | ⟨u0, P0, -, -, rfl⟩
    · exact C91_clear _
    · exact C91_clear _
  exact ⟨hr, (C91_member P).2 hr⟩

theorem apart_of_clear (h : clearCofactorRFC P ≠ 0) : CofApart P := by
  rw [C91_heff] at h
  refine (part_r fun he => h (kill_of hEff_num.1 ?_)).apart
  rw [natCast_zsmul]
  exact he

variable {p : ℕ} [Fact (1 < p)] (hp : 2 ^ 68 < p) (msg : Fin 32 → F p) (hm : ∀ i, (msg i).val < 256)

include hp hm

/-- **C91**: what `HashToG2OnJac` accepts: it comes from two mapped values; whenever these are different points of the twist and have no
exceptional sum, it is up to the signs of the two points the hash of RFC 9380, and a point of the group of order `r`. -/
theorem C91_hash_jac : ∃ u0 u1, RFC.hashToField (msgBytes msg) 2 = [u0.val, u1.val] ∧
    (∀ z, hashToG2OnJac msg z ↔ ∃ q0 q1, mapIso u0 q0 ∧ mapIso u1 q1 ∧ hashTailJac q0 q1 z) ∧
    ∀ q0 q1 z, mapIso u0 q0 → mapIso u1 q1 → hashTailJac q0 q1 z →
      ∀ P0 P1 Q0 Q1, MapTo u0.val P0 → MapTo u1.val P1 → AR q0 Q0 → AR q1 Q1 → Q0 ≠ Q1 →
        (Q0 + Q1 = 0 ∨ (13 * 23 * 2713 * 11953 * 262069) • (Q0 + Q1) ≠ 0) →
        (Q0 = P0 ∨ Q0 = -P0) ∧ (Q1 = P1 ∨ Q1 = -P1) ∧ AR z (hEff • (Q0 + Q1)) ∧ r • hEff • (Q0 + Q1) = 0 := by
  obtain ⟨u0, u1, hf, hi, hz⟩ := C60_hash_jac_partial hp msg hm
  refine ⟨u0, u1, hf, hi, ?_⟩
  intro q0 q1 z n0 n1 ht P0 P1 Q0 Q1 k0 k1 a0 a1 hne hs
  rw [small_eq] at hs
  rw [← C91_heff]
  obtain ⟨e1, e2, e3⟩ := hz q0 q1 z n0 n1 ht P0 P1 Q0 Q1 k0 k1 a0 a1 hne (hs.imp_right generic_of_small)
  exact ⟨e1, e2, e3, C91_clear _⟩

/-- **C91**: what the two encoding circuits accept, for a message whose mapped point `P0` is not exceptional: it comes from a mapped value, and
whenever this is a point of the twist at all, the output is the encoding of RFC 9380 or its opposite. -/
theorem C91_encode (P0 : (curve (bTw Fq)).Point) (hP : ∃ u0, RFC.hashToField (msgBytes msg) 1 = [u0] ∧ MapTo u0 P0)
    (hs : (13 * 23 * 2713 * 11953 * 262069) • P0 ≠ 0) : ∃ u0, RFC.hashToField (msgBytes msg) 1 = [u0.val] ∧
    (∀ z, encodeToG2OnJac msg z ↔ ∃ q0, mapIso u0 q0 ∧ encTailJac q0 z) ∧
    (∀ z, encodeToG2 msg z ↔ ∃ q0, mapIso u0 q0 ∧ g2ClearCofactor q0 z) ∧
    ∀ q0 z, mapIso u0 q0 → (encTailJac q0 z ∨ g2ClearCofactor q0 z) → (∃ Q0, AR q0 Q0) →
      AR z (hEff • P0) ∨ AR z (-(hEff • P0)) := by
  obtain ⟨u0, hf, h1, h2, h3⟩ := C60_encode_partial hp msg hm
  refine ⟨u0, hf, h1, h2, ?_⟩
  rintro q0 z hm0 ht ⟨Q0, a0⟩
  obtain ⟨v0, hv, m0⟩ := hP
  rw [hf] at hv
  obtain ⟨rfl, -⟩ := List.cons.inj hv
  have hQ := mapIso_sound hm0 a0 m0
  have hs' : cofSmall • Q0 ≠ 0 := by
    rw [← small_eq]
    rcases hQ with rfl | rfl
    · exact hs
    · rw [neg_nsmul]; exact neg_ne_zero.2 hs
  have hg := generic_of_small hs'
  obtain ⟨g1, g2⟩ := h3 q0 z P0 Q0 hm0 m0 a0
  have hA : AR z (clearCofactorRFC Q0) := by
    rcases ht with ht | ht
    · exact (g1 ht hg).2
    · exact (g2 ht hg.mul1 hg.mul2).2
  rw [C91_heff] at hA
  rcases hQ with rfl | rfl
  · exact Or.inl hA
  · right
    rwa [zsmul_neg] at hA

/-- **C91**: `HashToG2` is satisfiable with the hash of RFC 9380 when this is finite, the two points are neither equal nor opposite and no
exceptional case of the map occurs. -/
theorem C91_hash_affine_complete (hd : ∀ u ∈ RFC.hashToField (msgBytes msg) 2, den u ≠ 0) (u0 u1 : Fq2 Fq)
    (P0 P1 : (curve (bTw Fq)).Point) (hv : RFC.hashToField (msgBytes msg) 2 = [u0, u1]) (m0 : MapTo u0 P0) (m1 : MapTo u1 P1)
    (h1 : P0 ≠ P1) (h2 : P0 ≠ -P1) (h3 : clearCofactorRFC (P0 + P1) ≠ 0) :
    ∃ z, hashToG2 msg z ∧ AR z (clearCofactorRFC (P0 + P1)) :=
  C60_hash_affine_complete hp msg hm hd u0 u1 P0 P1 hv m0 m1 h1 h2 (apart_of_clear h3)

/-- **C91**: `EncodeToG2` is satisfiable with the encoding of RFC 9380 when this is finite and no exceptional case of the map occurs. -/
theorem C91_encode_affine_complete (hd : ∀ u ∈ RFC.hashToField (msgBytes msg) 1, den u ≠ 0) (P : (curve (bTw Fq)).Point)
    (hP : EncodeToCurve (msgBytes msg) P) (hn : P ≠ 0) : ∃ z, encodeToG2 msg z ∧ AR z P := by
  obtain ⟨u0, P0, hv, m0, rfl⟩ := hP
  exact C60_encode_affine_complete hp msg hm hd u0 P0 hv m0 (apart_of_clear hn)

omit hp hm

/-! ## Concrete cases -/

/-- The generator of G2 is no exceptional point. -/
theorem C91_example : ∃ P, AR g2 P ∧ (13 * 23 * 2713 * 11953 * 262069) • P ≠ 0 ∧ hEff • P ≠ 0 := by
  obtain ⟨P, ha, hr, hpsi, -⟩ := g2_in_G2
  have hg := (cofGeneric_of_G2 hr ha.ne_zero hpsi).1
  refine ⟨P, ha, (C91_multiples P).1 hg.mul1, ?_⟩
  rw [← C91_heff, C56_on_G2 P hpsi]
  intro h
  obtain ⟨u, hu⟩ := clear_unit
  have hr' : (r : ℤ) • P = 0 := by rw [natCast_zsmul]; exact hr
  have := kill_of hu hr'
  rw [sub_smul, mul_zsmul, h, zsmul_zero, zero_sub, one_zsmul, neg_eq_zero] at this
  exact ha.ne_zero this

/-- There are exceptional points, and points of the twist outside the group of order `r`. -/
theorem C91_exceptional_example : ∃ P : (curve (bTw Fq)).Point, P ≠ 0 ∧ (13 * 23 * 2713 * 11953 * 262069) • P = 0 ∧ r • P ≠ 0 := by
  obtain ⟨P, h0, hl, -⟩ := eigenCheck_spec cof2713_check
  rw [natCast_zsmul] at hl
  refine ⟨P, h0, ?_, fun hr => ?_⟩
  · rw [show 13 * 23 * 2713 * 11953 * 262069 = 2713 * (13 * 23 * 11953 * 262069) by norm_num, mul_nsmul, hl, nsmul_zero]
  · have hc : Nat.Coprime 2713 r := cop_num
    have h1 := addOrderOf_dvd_of_nsmul_eq_zero hl
    have h2 := addOrderOf_dvd_of_nsmul_eq_zero hr
    exact h0 (AddMonoid.addOrderOf_eq_one_iff.1 (Nat.eq_one_of_dvd_coprimes hc h1 h2))

end Verif.Bls
