import Verif.Bls.PropsCofC

/-! # C57, C60: the exceptional case of the map is `u = 0` only -/

namespace Verif.Bls
open Verif.Ec Verif.Api QuadraticAlgebra RFC

theorem pow5 : powMod q 500 5 ((q - 1) / 2) ≠ 1 ∧ powMod q 500 5 ((q - 1) / 2) < q ∧ (q - 1) / 2 < 2 ^ 500 ∧
    2 * ((q - 1) / 2) = q - 1 ∧ 5 < q ∧ 1 < q := by decide +kernel

attribute [local irreducible] q r E2.mulByNonResidueAt

/-- `5` is no square in the base field. -/
theorem five_not_square (n : Fq) : n ^ 2 ≠ 5 := by
  obtain ⟨h1, h2, h3, h4, h5, h6⟩ := pow5
  intro h
  have hn : n ≠ 0 := by
    rintro rfl
    have e : ((5 : ℕ) : ZMod q) = ((0 : ℕ) : ZMod q) := by
      rw [zero_pow (by norm_num)] at h
      rw [Nat.cast_zero, Nat.cast_ofNat]
      exact h.symm
    rw [ZMod.natCast_eq_natCast_iff', Nat.mod_eq_of_lt h5] at e
    simp at e
  have k1 : n ^ (q - 1) = 1 := ZMod.pow_card_sub_one_eq_one (p := q) hn
  have k2 : ((powMod q 500 5 ((q - 1) / 2) : ℕ) : ZMod q) = ((5 : ℕ) : ZMod q) ^ ((q - 1) / 2) := powMod_cast q 500 5 _ h3
  have k3 : ((5 : ℕ) : ZMod q) ^ ((q - 1) / 2) = 1 := by
    rw [← h4, pow_mul, h] at k1
    rw [Nat.cast_ofNat]
    exact k1
  rw [k3] at k2
  have k4 : ((powMod q 500 5 ((q - 1) / 2) : ℕ) : ZMod q) = ((1 : ℕ) : ZMod q) := by rw [k2, Nat.cast_one]
  rw [ZMod.natCast_eq_natCast_iff', Nat.mod_eq_of_lt h2, Nat.mod_eq_of_lt h6] at k4
  exact h1 k4

/-- The constant `Z` of the suite is no square. -/
theorem Z_not_square (s : Fq2 Fq) : s * s ≠ Z := by
  intro h
  have e : (Z : Fq2 Fq) = ⟨-2, -1⟩ := rfl
  rw [e] at h
  have h1 := congrArg QuadraticAlgebra.re h
  have h2 := congrArg QuadraticAlgebra.im h
  simp only [re_mul, im_mul] at h1 h2
  refine five_not_square (s.re ^ 2 + s.im ^ 2) ?_
  generalize s.re = u at *
  generalize s.im = v at *
  have h1' : u ^ 2 - v ^ 2 = -2 := by linear_combination h1
  have h2' : 2 * u * v = -1 := by linear_combination h2
  linear_combination (u ^ 2 - v ^ 2 - 2) * h1' + (2 * u * v - 1) * h2'

/-- **C57**: the exceptional case of the simplified SWU map of the suite is `u = 0` only. -/
theorem C57_exceptional (u : Fq2 Fq) : den u = 0 ↔ u = 0 := by
  constructor
  · intro h
    by_contra hu
    have hZ : (Z : Fq2 Fq) ≠ 0 := fun h0 => Z_not_square 0 (by rw [h0, zero_mul])
    have h1 : (Z * u ^ 2) * (Z * u ^ 2 + 1) = 0 := by
      unfold den at h
      linear_combination h
    rcases mul_eq_zero.1 h1 with h2 | h2
    · rcases mul_eq_zero.1 h2 with h3 | h3
      · exact hZ h3
      · exact hu (pow_eq_zero_iff (two_ne_zero) |>.1 h3)
    · refine Z_not_square (I / u) ?_
      rw [div_mul_div_comm, I_sq, div_eq_iff (mul_ne_zero hu hu)]
      linear_combination -h2
  · rintro rfl
    unfold den
    ring

/-- **C57**: `MapElementToCurve2` is satisfiable exactly for `u ≠ 0`. -/
theorem C57_satisfiable (u : E2 Fq) : (∃ xy, mapElementToCurve2 u xy) ↔ u ≠ E2.zero := by
  have e : u = E2.zero ↔ den u.val = 0 := by
    rw [C57_exceptional, ← E2.val_zero, E2.val_inj]
  rw [Ne, e]
  constructor
  · intro h hd
    exact C57_map_exceptional_fails u hd h
  · intro hd
    obtain ⟨x, y, h, -⟩ := C57_map_complete u hd
    exact ⟨(x, y), h⟩

section
variable {p : ℕ} [Fact (1 < p)] (hp : 2 ^ 68 < p) (msg : Fin 32 → F p) (hm : ∀ i, (msg i).val < 256)
include hp hm

/-- **C60**: where the hash of RFC 9380 is finite, `HashToG2OnJac` can reach it exactly if both field elements are nonzero. -/
theorem C60_hash_jac_reach (P : (curve (bTw Fq)).Point) (hP : HashToCurve (msgBytes msg) P) (hn : P ≠ 0) :
    (∃ z, hashToG2OnJac msg z ∧ AR z P) ↔ ∀ u ∈ RFC.hashToField (msgBytes msg) 2, u ≠ 0 := by
  constructor
  · rintro ⟨z, hz, -⟩ u hu rfl
    exact (C60_exceptional_fails hp msg hm ⟨0, hu, (C57_exceptional 0).2 rfl⟩).1 ⟨z, hz⟩
  · intro h
    exact C60_hash_jac_complete hp msg hm (fun u hu hd => h u hu ((C57_exceptional u).1 hd)) P hP hn

/-- **C60**: where the encoding of RFC 9380 is finite, both `EncodeToG2OnJac` and `EncodeToG2` can reach it exactly if the field element is
nonzero. -/
theorem C60_encode_reach (P : (curve (bTw Fq)).Point) (hP : EncodeToCurve (msgBytes msg) P) (hn : P ≠ 0) :
    ((∃ z, encodeToG2OnJac msg z ∧ AR z P) ↔ ∀ u ∈ RFC.hashToField (msgBytes msg) 1, u ≠ 0) ∧
    ((∃ z, encodeToG2 msg z ∧ AR z P) ↔ ∀ u ∈ RFC.hashToField (msgBytes msg) 1, u ≠ 0) := by
  have ok : (∀ u ∈ RFC.hashToField (msgBytes msg) 1, u ≠ 0) → ∀ u ∈ RFC.hashToField (msgBytes msg) 1, den u ≠ 0 :=
    fun h u hu hd => h u hu ((C57_exceptional u).1 hd)
  obtain ⟨u0, hf, hu⟩ := field_one hp msg hm
  have bad : ∀ q0, mapIso u0 q0 → ∀ u ∈ RFC.hashToField (msgBytes msg) 1, u ≠ 0 := by
    intro q0 h0 u hm0 h
    obtain ⟨x0, y0, h0, -⟩ := (mapIso_iff _ _).1 h0
    rw [hu, List.mem_singleton] at hm0
    rw [hm0] at h
    exact (map_cases h0).1 ((C57_exceptional _).2 h)
  refine ⟨⟨?_, fun h => C60_encode_jac_complete hp msg hm (ok h) P hP hn⟩,
    ⟨?_, fun h => C91_encode_affine_complete hp msg hm (ok h) P hP hn⟩⟩
  · rintro ⟨z, h, -⟩
    obtain ⟨q0, j0, t, h0, -⟩ := (encJac_iff hf z).1 h
    exact bad q0 h0
  · rintro ⟨z, h, -⟩
    obtain ⟨q0, h0, -⟩ := (encAff_iff hf z).1 h
    exact bad q0 h0

/-- **C60 fails for the code**: the encoding is not determined either: under the same condition on the field element the RFC's point and
its opposite are both accepted, by `EncodeToG2OnJac` and by `EncodeToG2`. -/
theorem C60_encode_fails (u0 : Fq2 Fq) (P : (curve (bTw Fq)).Point) (hv : RFC.hashToField (msgBytes msg) 1 = [u0]) (h0 : u0 ≠ 0)
    (hu0 : canon u0.re < 2 ^ 381 - q) (hP : EncodeToCurve (msgBytes msg) P) (hn : P ≠ 0) :
    ((∃ z, encodeToG2OnJac msg z ∧ AR z P) ∧ ∃ z, encodeToG2OnJac msg z ∧ AR z (-P)) ∧
    ((∃ z, encodeToG2 msg z ∧ AR z P) ∧ ∃ z, encodeToG2 msg z ∧ AR z (-P)) := by
  obtain ⟨w0, hf, hu⟩ := field_one hp msg hm
  rw [hu] at hv
  obtain ⟨rfl, -⟩ := List.cons.inj hv
  have hd0 : den w0.val ≠ 0 := fun h => h0 ((C57_exceptional _).1 h)
  have ok : ∀ u ∈ RFC.hashToField (msgBytes msg) 1, u ≠ 0 := by
    intro u h
    rw [hu, List.mem_singleton] at h
    rw [h]
    exact h0
  obtain ⟨r1, r2⟩ := C60_encode_reach hp msg hm P hP hn
  obtain ⟨v0, P0, hv', m0, rfl⟩ := hP
  rw [hu] at hv'
  obtain ⟨rfl, -⟩ := List.cons.inj hv'
  have eneg : clearCofactorRFC (-P0) = -clearCofactorRFC P0 := map_neg clearHom P0
  obtain ⟨x, y, hs, hx, hy⟩ := C57_sign_fails w0 hd0 hu0
  obtain ⟨x', y', hs', hP⟩ := m0
  obtain ⟨ex, ey⟩ := C57_spec_unique _ _ _ _ _ hs hs'
  obtain ⟨p1, i1, jx, jy, -, -⟩ := C58_isogeny ⟨x, E2.neg y⟩ (by rw [E2.val_neg, ← hs.2.1]; ring)
  have b0 : AR p1 (-P0) := hP.neg.congr (by rw [jx, ex]) (by rw [jy, E2.val_neg, isoY_neg, ex, ey])
  have hm1 : mapIso w0 p1 := (mapIso_iff _ _).2 ⟨x, E2.neg y, hy, i1⟩
  have hn' : clearCofactorRFC (-P0) ≠ 0 := by rw [eneg]; exact neg_ne_zero.2 hn
  rw [← eneg]
  refine ⟨⟨r1.2 ok, ?_⟩, r2.2 ok, ?_⟩
  · obtain ⟨⟨j0, g0⟩, k0⟩ := (C56_convert (P := -P0) p1 ⟨E2.zero, E2.zero, E2.zero⟩).1 b0
    obtain ⟨t, ht, jt⟩ := C56_clear_complete _ (k0 _ g0)
    obtain ⟨e, f⟩ := (C56_convert (P := clearCofactorRFC (-P0)) p1 t).2 jt
    obtain ⟨z, hz⟩ := e.2 hn'
    exact ⟨z, (encJac_iff hf z).2 ⟨p1, j0, t, hm1, g0, ht, hz⟩, f _ hz⟩
  · obtain ⟨z, hz, hA⟩ := C56_clear_affine_complete p1 b0 (apart_of_clear hn')
    exact ⟨z, (encAff_iff hf z).2 ⟨p1, hm1, hz⟩, hA⟩

/-- **C60**: for `HashToG2` the two points of the map must moreover be neither equal nor opposite. -/
theorem C60_hash_affine_reach (u0 u1 : Fq2 Fq) (P0 P1 : (curve (bTw Fq)).Point) (hv : RFC.hashToField (msgBytes msg) 2 = [u0, u1])
    (m0 : MapTo u0 P0) (m1 : MapTo u1 P1) (h0 : u0 ≠ 0) (h1 : u1 ≠ 0) (hne : P0 ≠ P1) (hne' : P0 ≠ -P1)
    (hn : clearCofactorRFC (P0 + P1) ≠ 0) : ∃ z, hashToG2 msg z ∧ AR z (clearCofactorRFC (P0 + P1)) := by
  refine C91_hash_affine_complete hp msg hm ?_ u0 u1 P0 P1 hv m0 m1 hne hne' hn
  intro u hu hd
  rw [hv] at hu
  have := (C57_exceptional u).1 hd
  rcases List.mem_cons.1 hu with rfl | hu
  · exact h0 this
  · rw [List.mem_singleton] at hu
    exact h1 (hu ▸ this)

end

end Verif.Bls
