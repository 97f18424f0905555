import Verif.Bls.PropsSswu
import Verif.Bls.PropsG2
import Verif.Bls.Xmd

/-! # C57 (the specification is total), C60 (hashing to the curve) -/

namespace Verif.Bls.RFC
open Verif.Bls Verif.Ec

/-- `map_to_curve(u)` of RFC 9380 for this suite: simplified SWU followed by the 3-isogeny. -/
def MapTo (u : Fq2 Fq) (P : (curve (bTw Fq)).Point) : Prop := ∃ x y, SSWU u x y ∧ IsPt (bTw Fq) (isoX x) (isoY x y) P

/-- `hash_to_curve(msg)`, RFC 9380 section 3. -/
def HashToCurve (msg : Bytes) (P : (curve (bTw Fq)).Point) : Prop :=
  ∃ u0 u1 P0 P1, hashToField msg 2 = [u0, u1] ∧ MapTo u0 P0 ∧ MapTo u1 P1 ∧ P = clearCofactorRFC (P0 + P1)

/-- `encode_to_curve(msg)`, RFC 9380 section 3. -/
def EncodeToCurve (msg : Bytes) (P : (curve (bTw Fq)).Point) : Prop :=
  ∃ u0 P0, hashToField msg 1 = [u0] ∧ MapTo u0 P0 ∧ P = clearCofactorRFC P0

end Verif.Bls.RFC

namespace Verif.Bls
open Verif.Ec Verif.Api QuadraticAlgebra RFC

attribute [local irreducible] q r sqN sqrtC3 sqrtC6 sqrtC7 sswuA sswuB sswuZ isoXD isoXN isoYD isoYN

/-! ## The specification is a function -/

def excW : E2 Fq := ⟨((3611395798403580372189180981549434777847917790633063236702417299179272465463714843962369288472002469087378085294992 : ℕ) : Fq),
  ((423613093348586218576377851437437729690830432842722856441196780662664494552025968214749014884639894158037286276385 : ℕ) : Fq)⟩

/-- `g(B/(Z A))` is a square, in numbers. -/
theorem exc_num :
    let B : E2 Fq := ⟨1012, 1012⟩
    let A : E2 Fq := ⟨0, 240⟩
    let t := E2.mul ⟨-2, -1⟩ A
    E2.mul (E2.square excW) (E2.mul (E2.square t) t) =
      E2.add (E2.add (E2.mul (E2.square B) B) (E2.mul (E2.mul A B) (E2.square t))) (E2.mul B (E2.mul (E2.square t) t)) := by
  decide +kernel

theorem exc_square : excW.val ^ 2 = g (RFC.B / (RFC.Z * RFC.A)) := by
  have h := congrArg E2.val exc_num
  simp only [E2.val_mul, E2.val_add, E2.val_square] at h
  have e1 : (⟨1012, 1012⟩ : E2 Fq).val = RFC.B := rfl
  have e2 : (⟨0, 240⟩ : E2 Fq).val = RFC.A := rfl
  have e3 : (⟨-2, -1⟩ : E2 Fq).val = RFC.Z := rfl
  rw [e1, e2, e3] at h
  have hz := Z_ne
  have ha := A_ne
  unfold g
  field_simp
  linear_combination h

/-- **C57**, the specification: `map_to_curve_simple_swu` has exactly one value at every `u`, the exceptional ones included. -/
theorem C57_spec_total (u : Fq2 Fq) : ∃ x y, SSWU u x y := by
  by_cases hd : den u = 0
  · have hx : x1 u = RFC.B / (RFC.Z * RFC.A) := by
      unfold x1
      rw [if_pos hd]
    have hw := exc_square
    rw [← hx] at hw
    have hs : sswuX u = x1 u := by
      unfold sswuX
      rw [if_pos ⟨excW.val, by rw [← hw]; ring⟩]
    have hne : excW.val ≠ 0 := by
      intro h0
      rw [h0] at hw
      exact g_ne _ (hw.symm.trans (by ring))
    by_cases h : sgn0 excW.val = sgn0 u
    · exact ⟨x1 u, excW.val, hs.symm, hw, h⟩
    · refine ⟨x1 u, -excW.val, hs.symm, by rw [← hw]; ring, ?_⟩
      rw [sgn0_neg hne]
      cases h1 : sgn0 excW.val <;> cases h2 : sgn0 u <;> simp [h1, h2] at h ⊢
  · obtain ⟨u', rfl⟩ := E2.val_surj u
    obtain ⟨x, y, -, h⟩ := C57_map_complete u' hd
    exact ⟨_, _, h⟩

theorem bTw_eq : bTw Fq = 4 * (1 + I) := by
  ext <;> simp [bTw, ξ, I]

theorem iso_curve {x y : Fq2 Fq} (h : y ^ 2 = g x) : isoY x y ^ 2 = isoX x ^ 3 + bTw Fq := by
  rw [bTw_eq, ← iso_identity _ (kernel_irrational _ _ h), ← h]
  unfold isoY
  ring

/-- The RFC's map to the twist is a function. -/
theorem mapTo_exists (u : Fq2 Fq) : ∃ P, MapTo u P := by
  obtain ⟨x, y, h⟩ := C57_spec_total u
  obtain ⟨P, hP⟩ := isPt_of two2_ne three2_ne b2_ne (iso_curve h.2.1)
  exact ⟨P, x, y, h, hP⟩

theorem mapTo_unique {u : Fq2 Fq} {P Q : (curve (bTw Fq)).Point} (h : MapTo u P) (h' : MapTo u Q) : P = Q := by
  obtain ⟨x, y, hs, hP⟩ := h
  obtain ⟨x', y', hs', hQ⟩ := h'
  obtain ⟨rfl, rfl⟩ := C57_spec_unique _ _ _ _ _ hs hs'
  exact hP.unique hQ

/-- **C60**, the specification: every message has exactly one hash and one encoding. -/
theorem C60_spec_unique (msg : RFC.Bytes) : (∃! P, HashToCurve msg P) ∧ ∃! P, EncodeToCurve msg P := by
  constructor
  · have hl : ∃ u0 u1, RFC.hashToField msg 2 = [u0, u1] := ⟨_, _, rfl⟩
    obtain ⟨u0, u1, hu⟩ := hl
    obtain ⟨P0, h0⟩ := mapTo_exists u0
    obtain ⟨P1, h1⟩ := mapTo_exists u1
    refine ⟨_, ⟨u0, u1, P0, P1, hu, h0, h1, rfl⟩, ?_⟩
    rintro P ⟨v0, v1, Q0, Q1, hv, g0, g1, rfl⟩
    rw [hu] at hv
    obtain ⟨e0, hv⟩ := List.cons.inj hv
    obtain ⟨e1, -⟩ := List.cons.inj hv
    rw [← e0] at g0
    rw [← e1] at g1
    rw [mapTo_unique h0 g0, mapTo_unique h1 g1]
  · have hl : ∃ u0, RFC.hashToField msg 1 = [u0] := ⟨_, rfl⟩
    obtain ⟨u0, hu⟩ := hl
    obtain ⟨P0, h0⟩ := mapTo_exists u0
    refine ⟨_, ⟨u0, P0, hu, h0, rfl⟩, ?_⟩
    rintro P ⟨v0, Q0, hv, g0, rfl⟩
    rw [hu] at hv
    obtain ⟨rfl, -⟩ := List.cons.inj hv
    rw [mapTo_unique h0 g0]

/-! ## The composition of the map and the isogeny -/

theorem mapIso_iff (e : E2 Fq) (p : G2Affine Fq) :
    mapIso e p ↔ ∃ x y, mapElementToCurve2 e (x, y) ∧ g2Isogeny ⟨x, y⟩ = some p := by
  constructor
  · rintro ⟨⟨x, y⟩, h1, h2⟩
    exact ⟨x, y, h1, h2⟩
  · rintro ⟨x, y, h1, h2⟩
    exact ⟨(x, y), h1, h2⟩

theorem isoY_neg (x y : Fq2 Fq) : isoY x (-y) = -isoY x y := by
  unfold isoY
  ring

theorem mapIso_complete {u : E2 Fq} {P : (curve (bTw Fq)).Point} (hd : den u.val ≠ 0) (h : MapTo u.val P) : ∃ p, mapIso u p ∧ AR p P := by
  obtain ⟨x, y, hm, hs⟩ := C57_map_complete u hd
  obtain ⟨x', y', hs', hP⟩ := h
  obtain ⟨hx, hy⟩ := C57_spec_unique _ _ _ _ _ hs hs'
  obtain ⟨p, h1, h2, h3, -, -⟩ := C58_isogeny ⟨x, y⟩ hs.2.1
  refine ⟨p, (mapIso_iff _ _).2 ⟨x, y, hm, h1⟩, ?_⟩
  exact hP.congr (by rw [h2, hx]) (by rw [h3, hx, hy])

/-- A map result on the twist is the RFC's point or its opposite. -/
theorem mapIso_sound {u : E2 Fq} {p : G2Affine Fq} {P Q : (curve (bTw Fq)).Point} (h : mapIso u p) (hp : AR p Q) (hP : MapTo u.val P) :
    Q = P ∨ Q = -P := by
  obtain ⟨x, y, hm, hi⟩ := (mapIso_iff _ _).1 h
  obtain ⟨h1, h2, h3⟩ := C58_isogeny_sound _ _ hi
  have hc := h3.1 (by rw [hp.eq, bTw_eq])
  obtain ⟨x', y', hs, hP⟩ := hP
  rcases C57_map_sound_partial u x y hm hc with h | h
  · obtain ⟨hx, hy⟩ := C57_spec_unique _ _ _ _ _ h hs
    left
    exact hp.unique (hP.congr (by rw [h1, hx]) (by rw [h2, hx, hy]))
  · obtain ⟨hx, hy⟩ := C57_spec_unique _ _ _ _ _ h hs
    right
    refine hp.unique (hP.neg.congr (by rw [h1, hx]) ?_)
    rw [h2, ← hx, ← hy, isoY_neg, neg_neg]

/-- Both signs are possible answers for a first coordinate below `2³⁸¹ - q`. -/
theorem sgn0_both (u : E2 Fq) (hu : canon u.a0 < 2 ^ 381 - q) (b : Bool) : g2Sgn0 u b := by
  rw [g2Sgn0_iff]
  have hodd : q % 2 = 1 := by decide +kernel
  by_cases h : b = (canon u.a0).testBit 0
  · exact ⟨canon u.a0, (canon_rep _).1, (canon_rep _).2, h⟩
  · refine ⟨canon u.a0 + q, ?_, ?_, ?_⟩
    · generalize 2 ^ 381 = B at *
      omega
    · rw [Nat.cast_add, cast_q, add_zero]
      exact (canon_rep _).2
    · rw [Nat.testBit_zero] at h ⊢
      have : (canon u.a0 + q) % 2 = 1 - canon u.a0 % 2 := by omega
      rw [this]
      rcases Nat.mod_two_eq_zero_or_one (canon u.a0) with h1 | h1 <;> rw [h1] at h ⊢ <;> cases b <;> simp at h ⊢

/-- **C57 fails for the code** (the sign): if the first coordinate of `u` is below `2³⁸¹ - q` (about 23% of all values), both the RFC's
point and its opposite are accepted. -/
theorem C57_sign_fails (u : E2 Fq) (hd : den u.val ≠ 0) (hu : canon u.a0 < 2 ^ 381 - q) :
    ∃ x y, SSWU u.val x.val y.val ∧ mapElementToCurve2 u (x, y) ∧ mapElementToCurve2 u (x, E2.neg y) := by
  obtain ⟨x, y, hm, hs⟩ := C57_map_complete u hd
  refine ⟨x, y, hs, hm, ?_⟩
  obtain ⟨-, n, d, z, y0, b, su, sy, hn, hdd, hz, hy0, hsu, hsy, hx, hy⟩ := (map_iff u x y).1 hm
  refine (map_iff _ _ _).2 ⟨hd, n, d, z, y0, b, !su, sy, hn, hdd, hz, hy0, ?_, hsy, hx, ?_⟩
  · exact sgn0_both u hu _
  · rw [E2.val_neg, hy]
    cases su <;> cases sy <;> simp

/-- At `u = 1` for instance. -/
theorem C57_sign_example : ∃ x y : E2 Fq, mapElementToCurve2 E2.one (x, y) ∧ mapElementToCurve2 E2.one (x, E2.neg y) ∧ y ≠ E2.neg y := by
  obtain ⟨x, y, hs, h1, h2⟩ := C57_sign_fails E2.one one_den_ne (by decide +kernel)
  refine ⟨x, y, h1, h2, fun e => ?_⟩
  have h3 := congrArg E2.val e
  rw [E2.val_neg] at h3
  have h4 : y.val = 0 := by
    have : (2 : Fq2 Fq) * y.val = 0 := by linear_combination h3
    exact (mul_eq_zero.1 this).resolve_left two2_ne
  have := hs.2.1
  rw [h4] at this
  exact g_ne _ (this.symm.trans (by ring))

/-! ## C60: hashing and encoding -/

section
variable {p : ℕ} [Fact (1 < p)] (hp : 2 ^ 68 < p) (msg : Fin 32 → F p) (hm : ∀ i, (msg i).val < 256)
include hp hm

theorem field_two : ∃ u0 u1 : E2 Fq, hashToField msg 4 = some [u0, u1] ∧ RFC.hashToField (msgBytes msg) 2 = [u0.val, u1.val] := by
  have h := C59_hash_to_field hp msg hm 2 (by norm_num)
  obtain ⟨l, h1, h2⟩ := Option.map_eq_some_iff.1 h
  have hl : l.length = 2 := by
    rw [← List.length_map (f := E2.val), h2]
    simp [RFC.hashToField]
  match l, hl with
  | [u0, u1], _ => exact ⟨u0, u1, h1, h2.symm⟩

theorem field_one : ∃ u0 : E2 Fq, hashToField msg 2 = some [u0] ∧ RFC.hashToField (msgBytes msg) 1 = [u0.val] := by
  have h := C59_hash_to_field hp msg hm 1 (by norm_num)
  obtain ⟨l, h1, h2⟩ := Option.map_eq_some_iff.1 h
  have hl : l.length = 1 := by
    rw [← List.length_map (f := E2.val), h2]
    simp [RFC.hashToField]
  match l, hl with
  | [u0], _ => exact ⟨u0, h1, h2.symm⟩

end

theorem hashJac_iff {p : ℕ} {msg : Fin 32 → F p} {u0 u1 : E2 Fq} (hf : hashToField msg 4 = some [u0, u1]) (z : G2Affine Fq) :
    hashToG2OnJac msg z ↔ ∃ q0 q1 j0 j1 s t, mapIso u0 q0 ∧ mapIso u1 q1 ∧ g2JacFromAffine q0 j0 ∧ g2JacFromAffine q1 j1 ∧
      g2JacAdd j0 j1 s ∧ clearCofactorJac s t ∧ g2AffineFromJac t z := by
  constructor
  · rintro ⟨e, he, q0, h0, q1, h1, j0, g0, j1, g1, s, hs, t, ht, hz⟩
    have : e = [u0, u1] := Option.some.inj ((show hashToField msg 4 = some e from he).symm.trans hf)
    subst this
    exact ⟨q0, q1, j0, j1, s, t, h0, h1, g0, g1, hs, ht, hz⟩
  · rintro ⟨q0, q1, j0, j1, s, t, h0, h1, g0, g1, hs, ht, hz⟩
    exact ⟨_, hf, q0, h0, q1, h1, j0, g0, j1, g1, s, hs, t, ht, hz⟩

theorem hashAff_iff {p : ℕ} {msg : Fin 32 → F p} {u0 u1 : E2 Fq} (hf : hashToField msg 4 = some [u0, u1]) (z : G2Affine Fq) :
    hashToG2 msg z ↔ ∃ q0 q1 s, mapIso u0 q0 ∧ mapIso u1 q1 ∧ g2Add q0 q1 = some s ∧ g2ClearCofactor s z := by
  constructor
  · rintro ⟨e, he, q0, h0, q1, h1, s, hs, hz⟩
    have : e = [u0, u1] := Option.some.inj ((show hashToField msg 4 = some e from he).symm.trans hf)
    subst this
    exact ⟨q0, q1, s, h0, h1, hs, hz⟩
  · rintro ⟨q0, q1, s, h0, h1, hs, hz⟩
    exact ⟨_, hf, q0, h0, q1, h1, s, hs, hz⟩

theorem encJac_iff {p : ℕ} {msg : Fin 32 → F p} {u0 : E2 Fq} (hf : hashToField msg 2 = some [u0]) (z : G2Affine Fq) :
    encodeToG2OnJac msg z ↔ ∃ q0 j0 t, mapIso u0 q0 ∧ g2JacFromAffine q0 j0 ∧ clearCofactorJac j0 t ∧ g2AffineFromJac t z := by
  constructor
  · rintro ⟨e, he, q0, h0, j0, g0, t, ht, hz⟩
    have : e = [u0] := Option.some.inj ((show hashToField msg 2 = some e from he).symm.trans hf)
    subst this
    exact ⟨q0, j0, t, h0, g0, ht, hz⟩
  · rintro ⟨q0, j0, t, h0, g0, ht, hz⟩
    exact ⟨_, hf, q0, h0, j0, g0, t, ht, hz⟩

theorem encAff_iff {p : ℕ} {msg : Fin 32 → F p} {u0 : E2 Fq} (hf : hashToField msg 2 = some [u0]) (z : G2Affine Fq) :
    encodeToG2 msg z ↔ ∃ q0, mapIso u0 q0 ∧ g2ClearCofactor q0 z := by
  constructor
  · rintro ⟨e, he, q0, h0, hz⟩
    have : e = [u0] := Option.some.inj ((show hashToField msg 2 = some e from he).symm.trans hf)
    subst this
    exact ⟨q0, h0, hz⟩
  · rintro ⟨q0, h0, hz⟩
    exact ⟨_, hf, q0, h0, hz⟩

/-- The second half of `HashToG2OnJac` (hash2curve.go:730-739): what it does with the two mapped values. -/
def hashTailJac (q0 q1 : G2Affine Fq) : ND (G2Affine Fq) := do
  let j0 ← g2JacFromAffine q0
  let j1 ← g2JacFromAffine q1
  let s ← g2JacAdd j0 j1
  let t ← clearCofactorJac s
  g2AffineFromJac t

/-- The second half of `HashToG2` (hash2curve.go:757-759). -/
def hashTailAff (q0 q1 : G2Affine Fq) : ND (G2Affine Fq) := do
  let s ← ND.ofOption (g2Add q0 q1)
  g2ClearCofactor s

/-- The second half of `EncodeToG2OnJac` (hash2curve.go:699-703). -/
def encTailJac (q0 : G2Affine Fq) : ND (G2Affine Fq) := do
  let j0 ← g2JacFromAffine q0
  let t ← clearCofactorJac j0
  g2AffineFromJac t

/-- From two affine points to the output, for an honest prover. -/
theorem jac_tail {q0 q1 : G2Affine Fq} {P0 P1 : (curve (bTw Fq)).Point} (h0 : AR q0 P0) (h1 : AR q1 P1) (hn : clearCofactorRFC (P0 + P1) ≠ 0) :
    ∃ j0 j1 s t z, g2JacFromAffine q0 j0 ∧ g2JacFromAffine q1 j1 ∧ g2JacAdd j0 j1 s ∧ clearCofactorJac s t ∧ g2AffineFromJac t z ∧
      AR z (clearCofactorRFC (P0 + P1)) := by
  obtain ⟨⟨j0, g0⟩, k0⟩ := (C56_convert (P := P0) q0 ⟨E2.zero, E2.zero, E2.zero⟩).1 h0
  obtain ⟨⟨j1, g1⟩, k1⟩ := (C56_convert (P := P1) q1 ⟨E2.zero, E2.zero, E2.zero⟩).1 h1
  obtain ⟨s, hs, js⟩ := C54_add_complete _ _ (k0 _ g0) (k1 _ g1)
  obtain ⟨t, ht, jt⟩ := C56_clear_complete _ js
  obtain ⟨e, f⟩ := (C56_convert (P := clearCofactorRFC (P0 + P1)) q0 t).2 jt
  obtain ⟨z, hz⟩ := e.2 hn
  exact ⟨j0, j1, s, t, z, g0, g1, hs, ht, hz, f _ hz⟩

section
variable {p : ℕ} [Fact (1 < p)] (hp : 2 ^ 68 < p) (msg : Fin 32 → F p) (hm : ∀ i, (msg i).val < 256)
include hp hm

/-- **C60** (`HashToG2OnJac`, completeness): for every message whose two field elements are not exceptional and whose hash is finite, some
satisfying assignment yields the hash of RFC 9380. -/
theorem C60_hash_jac_complete (hd : ∀ u ∈ RFC.hashToField (msgBytes msg) 2, den u ≠ 0) (P : (curve (bTw Fq)).Point)
    (hP : HashToCurve (msgBytes msg) P) (hn : P ≠ 0) : ∃ z, hashToG2OnJac msg z ∧ AR z P := by
  obtain ⟨u0, u1, hf, hu⟩ := field_two hp msg hm
  obtain ⟨v0, v1, P0, P1, hv, m0, m1, rfl⟩ := hP
  rw [hu] at hv hd
  obtain ⟨rfl, hv'⟩ := List.cons.inj hv
  obtain ⟨rfl, -⟩ := List.cons.inj hv'
  obtain ⟨q0, h0, a0⟩ := mapIso_complete (hd _ (by simp)) m0
  obtain ⟨q1, h1, a1⟩ := mapIso_complete (hd _ (by simp)) m1
  obtain ⟨j0, j1, s, t, z, g0, g1, hs, ht, hz, hA⟩ := jac_tail a0 a1 hn
  exact ⟨z, (hashJac_iff hf z).2 ⟨q0, q1, j0, j1, s, t, h0, h1, g0, g1, hs, ht, hz⟩, hA⟩

/-- **C60** (`EncodeToG2OnJac`, completeness). -/
theorem C60_encode_jac_complete (hd : ∀ u ∈ RFC.hashToField (msgBytes msg) 1, den u ≠ 0) (P : (curve (bTw Fq)).Point)
    (hP : EncodeToCurve (msgBytes msg) P) (hn : P ≠ 0) : ∃ z, encodeToG2OnJac msg z ∧ AR z P := by
  obtain ⟨u0, hf, hu⟩ := field_one hp msg hm
  obtain ⟨v0, P0, hv, m0, rfl⟩ := hP
  rw [hu] at hv hd
  obtain ⟨rfl, -⟩ := List.cons.inj hv
  obtain ⟨q0, h0, a0⟩ := mapIso_complete (hd _ (by simp)) m0
  obtain ⟨⟨j0, g0⟩, k0⟩ := (C56_convert (P := P0) q0 ⟨E2.zero, E2.zero, E2.zero⟩).1 a0
  obtain ⟨t, ht, jt⟩ := C56_clear_complete _ (k0 _ g0)
  obtain ⟨e, f⟩ := (C56_convert (P := clearCofactorRFC P0) q0 t).2 jt
  obtain ⟨z, hz⟩ := e.2 hn
  exact ⟨z, (encJac_iff hf z).2 ⟨q0, j0, t, h0, g0, ht, hz⟩, f _ hz⟩

/-- **C60** (`HashToG2`, completeness): additionally no exceptional case of the affine formulas may occur. -/
theorem C60_hash_affine_complete (hd : ∀ u ∈ RFC.hashToField (msgBytes msg) 2, den u ≠ 0) (u0 u1 : Fq2 Fq)
    (P0 P1 : (curve (bTw Fq)).Point) (hv : RFC.hashToField (msgBytes msg) 2 = [u0, u1]) (m0 : MapTo u0 P0) (m1 : MapTo u1 P1)
    (h1 : P0 ≠ P1) (h2 : P0 ≠ -P1) (h3 : CofApart (P0 + P1)) : ∃ z, hashToG2 msg z ∧ AR z (clearCofactorRFC (P0 + P1)) := by
  obtain ⟨w0, w1, hf, hu⟩ := field_two hp msg hm
  rw [hu] at hv hd
  obtain ⟨rfl, hv'⟩ := List.cons.inj hv
  obtain ⟨rfl, -⟩ := List.cons.inj hv'
  obtain ⟨q0, g0, a0⟩ := mapIso_complete (hd _ (by simp)) m0
  obtain ⟨q1, g1, a1⟩ := mapIso_complete (hd _ (by simp)) m1
  obtain ⟨e1, e2⟩ := C55_add q0 q1 a0 a1
  cases hs : g2Add q0 q1 with
  | none => exact absurd (e1.1 hs) (by rintro (h | h); exacts [h1 h, h2 h])
  | some s =>
    obtain ⟨z, hz, hA⟩ := C56_clear_affine_complete s (e2 _ hs) h3
    exact ⟨z, (hashAff_iff hf z).2 ⟨q0, q1, s, g0, g1, hs, hz⟩, hA⟩

/-- **C60** (`EncodeToG2`, completeness). -/
theorem C60_encode_affine_complete (hd : ∀ u ∈ RFC.hashToField (msgBytes msg) 1, den u ≠ 0) (u0 : Fq2 Fq)
    (P0 : (curve (bTw Fq)).Point) (hv : RFC.hashToField (msgBytes msg) 1 = [u0]) (m0 : MapTo u0 P0)
    (h3 : CofApart P0) : ∃ z, encodeToG2 msg z ∧ AR z (clearCofactorRFC P0) := by
  obtain ⟨w0, hf, hu⟩ := field_one hp msg hm
  rw [hu] at hv hd
  obtain ⟨rfl, -⟩ := List.cons.inj hv
  obtain ⟨q0, g0, a0⟩ := mapIso_complete (hd _ (by simp)) m0
  obtain ⟨z, hz, hA⟩ := C56_clear_affine_complete q0 a0 h3
  exact ⟨z, (encAff_iff hf z).2 ⟨q0, g0, hz⟩, hA⟩

/-- **C60 fails for the code**: if the first coordinate of the first field element is below `2³⁸¹ - q`, the hash of a message is not
determined: with `P0`, `P1` the RFC's two points, both `clear_cofactor(P0 + P1)` and `clear_cofactor(P1 - P0)` are accepted. -/
theorem C60_hash_fails (u0 u1 : Fq2 Fq) (P0 P1 : (curve (bTw Fq)).Point) (hv : RFC.hashToField (msgBytes msg) 2 = [u0, u1])
    (hd0 : den u0 ≠ 0) (hd1 : den u1 ≠ 0) (m0 : MapTo u0 P0) (m1 : MapTo u1 P1) (hu0 : canon u0.re < 2 ^ 381 - q)
    (n1 : clearCofactorRFC (P0 + P1) ≠ 0) (n2 : clearCofactorRFC (-P0 + P1) ≠ 0) :
    (∃ z, hashToG2OnJac msg z ∧ AR z (clearCofactorRFC (P0 + P1))) ∧ ∃ z, hashToG2OnJac msg z ∧ AR z (clearCofactorRFC (-P0 + P1)) := by
  obtain ⟨w0, w1, hf, hu⟩ := field_two hp msg hm
  rw [hu] at hv
  obtain ⟨rfl, hv'⟩ := List.cons.inj hv
  obtain ⟨rfl, -⟩ := List.cons.inj hv'
  obtain ⟨q1, g1, a1⟩ := mapIso_complete hd1 m1
  obtain ⟨x, y, hs, hx, hy⟩ := C57_sign_fails w0 hd0 hu0
  obtain ⟨x', y', hs', hP⟩ := m0
  obtain ⟨ex, ey⟩ := C57_spec_unique _ _ _ _ _ hs hs'
  obtain ⟨r0, i0, ix, iy, -, -⟩ := C58_isogeny ⟨x, y⟩ hs.2.1
  obtain ⟨r1, i1, jx, jy, -, -⟩ := C58_isogeny ⟨x, E2.neg y⟩ (by rw [E2.val_neg, ← hs.2.1]; ring)
  have a0 : AR r0 P0 := hP.congr (by rw [ix, ex]) (by rw [iy, ex, ey])
  have b0 : AR r1 (-P0) := hP.neg.congr (by rw [jx, ex]) (by rw [jy, E2.val_neg, isoY_neg, ex, ey])
  constructor
  · obtain ⟨j0, j1, s, t, z, k0, k1, ks, kt, kz, hA⟩ := jac_tail a0 a1 n1
    exact ⟨z, (hashJac_iff hf z).2 ⟨r0, q1, j0, j1, s, t, (mapIso_iff _ _).2 ⟨x, y, hx, i0⟩, g1, k0, k1, ks, kt, kz⟩, hA⟩
  · obtain ⟨j0, j1, s, t, z, k0, k1, ks, kt, kz, hA⟩ := jac_tail b0 a1 n2
    exact ⟨z, (hashJac_iff hf z).2 ⟨r1, q1, j0, j1, s, t, (mapIso_iff _ _).2 ⟨x, E2.neg y, hy, i1⟩, g1, k0, k1, ks, kt, kz⟩, hA⟩

/-- **C60** (`HashToG2OnJac`, every satisfying assignment): a satisfying assignment maps the two field elements of RFC 9380 and goes on with
the mapped values `q0`, `q1`; whenever these lie on the twist and no exceptional case of the Jacobian formulas occurs, the output is
`clear_cofactor(±P0 ± P1)` for the RFC's `P0`, `P1`.  What is missing: the mapped values need not lie on the twist
(`C60_hash_off_curve_fails`), and the signs need not be the RFC's (`C60_hash_fails`). -/
theorem C60_hash_jac_partial : ∃ u0 u1, RFC.hashToField (msgBytes msg) 2 = [u0.val, u1.val] ∧
    (∀ z, hashToG2OnJac msg z ↔ ∃ q0 q1, mapIso u0 q0 ∧ mapIso u1 q1 ∧ hashTailJac q0 q1 z) ∧
    ∀ q0 q1 z, mapIso u0 q0 → mapIso u1 q1 → hashTailJac q0 q1 z →
      ∀ P0 P1 Q0 Q1, MapTo u0.val P0 → MapTo u1.val P1 → AR q0 Q0 → AR q1 Q1 → Q0 ≠ Q1 → (Q0 + Q1 = 0 ∨ CofGeneric (Q0 + Q1)) →
        (Q0 = P0 ∨ Q0 = -P0) ∧ (Q1 = P1 ∨ Q1 = -P1) ∧ AR z (clearCofactorRFC (Q0 + Q1)) := by
  obtain ⟨u0, u1, hf, hu⟩ := field_two hp msg hm
  refine ⟨u0, u1, hu, fun z => ?_, ?_⟩
  · rw [hashJac_iff hf z]
    constructor
    · rintro ⟨q0, q1, j0, j1, s, t, h0, h1, g0, g1, hs, ht, hz⟩
      exact ⟨q0, q1, h0, h1, j0, g0, j1, g1, s, hs, t, ht, hz⟩
    · rintro ⟨q0, q1, h0, h1, j0, g0, j1, g1, s, hs, t, ht, hz⟩
      exact ⟨q0, q1, j0, j1, s, t, h0, h1, g0, g1, hs, ht, hz⟩
  · rintro q0 q1 z h0 h1 ⟨j0, g0, j1, g1, s, hs, t, ht, hz⟩ P0 P1 Q0 Q1 m0 m1 a0 a1 hne hg
    refine ⟨mapIso_sound h0 a0 m0, mapIso_sound h1 a1 m1, ?_⟩
    have k0 := ((C56_convert (P := Q0) q0 ⟨E2.zero, E2.zero, E2.zero⟩).1 a0).2 _ g0
    have k1 := ((C56_convert (P := Q1) q1 ⟨E2.zero, E2.zero, E2.zero⟩).1 a1).2 _ g1
    have js := C54_add_partial _ _ _ k0 k1 a0.ne_zero a1.ne_zero hne hs
    exact ((C56_convert (P := clearCofactorRFC (Q0 + Q1)) q0 t).2 (C56_clear_partial _ _ js hg ht)).2 _ hz

/-- **C60** (`HashToG2`, every satisfying assignment), the same. -/
theorem C60_hash_affine_partial : ∃ u0 u1, RFC.hashToField (msgBytes msg) 2 = [u0.val, u1.val] ∧
    (∀ z, hashToG2 msg z ↔ ∃ q0 q1, mapIso u0 q0 ∧ mapIso u1 q1 ∧ hashTailAff q0 q1 z) ∧
    ∀ q0 q1 z, mapIso u0 q0 → mapIso u1 q1 → hashTailAff q0 q1 z →
      ∀ P0 P1 Q0 Q1, MapTo u0.val P0 → MapTo u1.val P1 → AR q0 Q0 → AR q1 Q1 →
        (∀ j, 0 < j → j ≤ 0xd201000000010000 → j • (Q0 + Q1) ≠ 0) → (∀ j, 0 < j → j ≤ 0xd201000000010000 → j • (blsX • (Q0 + Q1)) ≠ 0) →
        (Q0 = P0 ∨ Q0 = -P0) ∧ (Q1 = P1 ∨ Q1 = -P1) ∧ AR z (clearCofactorRFC (Q0 + Q1)) := by
  obtain ⟨u0, u1, hf, hu⟩ := field_two hp msg hm
  refine ⟨u0, u1, hu, fun z => ?_, ?_⟩
  · rw [hashAff_iff hf z]
    constructor
    · rintro ⟨q0, q1, s, h0, h1, hs, hz⟩
      exact ⟨q0, q1, h0, h1, s, hs, hz⟩
    · rintro ⟨q0, q1, h0, h1, s, hs, hz⟩
      exact ⟨q0, q1, s, h0, h1, hs, hz⟩
  · rintro q0 q1 z h0 h1 ⟨s, hs, hz⟩ P0 P1 Q0 Q1 m0 m1 a0 a1 n1 n2
    exact ⟨mapIso_sound h0 a0 m0, mapIso_sound h1 a1 m1, C56_clear_affine_partial s z ((C55_add q0 q1 a0 a1).2 _ hs) n1 n2 hz⟩

/-- **C60** (`EncodeToG2OnJac`, `EncodeToG2`, every satisfying assignment), the same; the second half of `EncodeToG2` is `G2ClearCofactor`. -/
theorem C60_encode_partial : ∃ u0, RFC.hashToField (msgBytes msg) 1 = [u0.val] ∧
    (∀ z, encodeToG2OnJac msg z ↔ ∃ q0, mapIso u0 q0 ∧ encTailJac q0 z) ∧
    (∀ z, encodeToG2 msg z ↔ ∃ q0, mapIso u0 q0 ∧ g2ClearCofactor q0 z) ∧
    ∀ q0 z P0 Q0, mapIso u0 q0 → MapTo u0.val P0 → AR q0 Q0 →
      (encTailJac q0 z → CofGeneric Q0 → (Q0 = P0 ∨ Q0 = -P0) ∧ AR z (clearCofactorRFC Q0)) ∧
      (g2ClearCofactor q0 z → (∀ j, 0 < j → j ≤ 0xd201000000010000 → j • Q0 ≠ 0) →
        (∀ j, 0 < j → j ≤ 0xd201000000010000 → j • (blsX • Q0) ≠ 0) → (Q0 = P0 ∨ Q0 = -P0) ∧ AR z (clearCofactorRFC Q0)) := by
  obtain ⟨u0, hf, hu⟩ := field_one hp msg hm
  refine ⟨u0, hu, fun z => ?_, encAff_iff hf, ?_⟩
  · rw [encJac_iff hf z]
    constructor
    · rintro ⟨q0, j0, t, h0, g0, ht, hz⟩
      exact ⟨q0, h0, j0, g0, t, ht, hz⟩
    · rintro ⟨q0, h0, j0, g0, t, ht, hz⟩
      exact ⟨q0, j0, t, h0, g0, ht, hz⟩
  · intro q0 z P0 Q0 h0 m0 a0
    constructor
    · rintro ⟨j0, g0, t, ht, hz⟩ hg
      refine ⟨mapIso_sound h0 a0 m0, ?_⟩
      have k0 := ((C56_convert (P := Q0) q0 ⟨E2.zero, E2.zero, E2.zero⟩).1 a0).2 _ g0
      exact ((C56_convert (P := clearCofactorRFC Q0) q0 t).2 (C56_clear_partial _ _ k0 (Or.inr hg) ht)).2 _ hz
    · intro hz n1 n2
      exact ⟨mapIso_sound h0 a0 m0, C56_clear_affine_partial q0 z a0 n1 n2 hz⟩

/-- **C60 fails for the code**: a message whose field elements include an exceptional one (where the RFC's hash is defined) is rejected. -/
theorem C60_exceptional_fails (hd : ∃ u ∈ RFC.hashToField (msgBytes msg) 2, den u = 0) :
    (¬ ∃ z, hashToG2OnJac msg z) ∧ ¬ ∃ z, hashToG2 msg z := by
  obtain ⟨u0, u1, hf, hu⟩ := field_two hp msg hm
  rw [hu] at hd
  have key : ∀ q0 q1, mapIso u0 q0 → mapIso u1 q1 → False := by
    intro q0 q1 h0 h1
    obtain ⟨x0, y0, h0, -⟩ := (mapIso_iff _ _).1 h0
    obtain ⟨x1, y1, h1, -⟩ := (mapIso_iff _ _).1 h1
    have e0 := (map_cases h0).1
    have e1 := (map_cases h1).1
    obtain ⟨u, hu, hd⟩ := hd
    rcases List.mem_cons.1 hu with rfl | hu
    · exact e0 hd
    · rcases List.mem_cons.1 hu with rfl | hu
      · exact e1 hd
      · simp at hu
  constructor
  · rintro ⟨z, h⟩
    obtain ⟨q0, q1, j0, j1, s, t, h0, h1, -⟩ := (hashJac_iff hf z).1 h
    exact key q0 q1 h0 h1
  · rintro ⟨z, h⟩
    obtain ⟨q0, q1, s, h0, h1, -⟩ := (hashAff_iff hf z).1 h
    exact key q0 q1 h0 h1

end

/-- **C60**: a value outside the byte range makes all four circuits unsatisfiable. -/
theorem C60_rejects {p : ℕ} [Fact (1 < p)] (msg : Fin 32 → F p) (hm : ∃ i, 256 ≤ (msg i).val) (z : G2Affine Fq) :
    ¬ hashToG2OnJac msg z ∧ ¬ hashToG2 msg z ∧ ¬ encodeToG2OnJac msg z ∧ ¬ encodeToG2 msg z := by
  have h := C59_rejects msg hm
  have key : ∀ n e, (ND.ofOption (hashToField msg n)) e → False := by
    intro n e he
    have he' : hashToField msg n = some e := he
    rw [h n] at he'
    exact absurd he' (by simp)
  exact ⟨fun ⟨e, he, _⟩ => key _ e he, fun ⟨e, he, _⟩ => key _ e he, fun ⟨e, he, _⟩ => key _ e he, fun ⟨e, he, _⟩ => key _ e he⟩

end Verif.Bls
