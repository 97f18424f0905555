import Verif.Ed.Verify
import Verif.Ed.Order

/-! # Properties C27, C28 and C61 -/

namespace Verif.Ed
open Verif.Ec Api

section C27
variable {K : Type} [Field K] {a d : K}

/-- **C27.** On points of the curve `a x² + y² = 1 + d x² y²` (with `a` a nonzero square and `d` not a square) `Add` is satisfiable,
with one outcome: the sum in the group of the curve.  Exceptional pairs (equal, opposite, neutral, small order) are included. -/
theorem C27_add [EdComplete a d] (Q R : EdPt a d) (S : Pt K) :
    add a d ⟨Q.x, Q.y⟩ ⟨R.x, R.y⟩ S ↔ S = ⟨(Q + R).x, (Q + R).y⟩ := add_iff Q R S

/-- **C27.** `Double` has the double of the point as its only outcome. -/
theorem C27_double [EdComplete a d] (Q : EdPt a d) (S : Pt K) :
    double a ⟨Q.x, Q.y⟩ S ↔ S = ⟨(2 • Q).x, (2 • Q).y⟩ := by
  rw [two_smul]; exact double_iff Q S

/-- **C27.** `Neg` returns the inverse of the point. -/
theorem C27_neg [EdComplete a d] (Q : EdPt a d) : neg ⟨Q.x, Q.y⟩ = ⟨(-Q).x, (-Q).y⟩ ∧ -Q + Q = 0 := ⟨rfl, neg_add_cancel Q⟩

/-- **C27.** The results stay on the curve. -/
theorem C27_closed [EdComplete a d] (Q R : EdPt a d) (S : Pt K) (h : add a d ⟨Q.x, Q.y⟩ ⟨R.x, R.y⟩ S ∨ double a ⟨Q.x, Q.y⟩ S
    ∨ S = neg ⟨Q.x, Q.y⟩) : a * S.x ^ 2 + S.y ^ 2 = 1 + d * S.x ^ 2 * S.y ^ 2 := by
  rcases h with h | h | h
  · rw [C27_add] at h; subst h; exact (Q + R).on
  · rw [C27_double] at h; subst h; exact (2 • Q).on
  · rw [(C27_neg Q).1] at h; subst h; exact (-Q).on

/-- **C27.** `AssertIsOnCurve` accepts exactly the points of the curve. -/
theorem C27_on_curve (S : Pt K) : assertIsOnCurve a d S () ↔ a * S.x ^ 2 + S.y ^ 2 = 1 + d * S.x ^ 2 * S.y ^ 2 := by
  rw [assertIsOnCurve_iff]
  constructor
  · rintro ⟨Q, rfl⟩; exact Q.on
  · intro h; exact ⟨⟨S.x, S.y, h⟩, rfl⟩

/-- **C27.** The parameters of the package make the theorems above apply to edwards25519. -/
theorem C27_params : EdComplete cA cD := edComplete

/-- **C27.** Off the curve the gadgets are not functions: `Double` of `(0, 0)` may be any point `(t, 0)`. -/
theorem C27_off_curve (t : K) : double a ⟨0, 0⟩ ⟨t, 0⟩ :=
  ⟨t, by simp [div], 0, by simp [div], rfl⟩

example : add cA cD base base ⟨(2 • B).x, (2 • B).y⟩ := by
  rw [two_smul]; exact (C27_add B B _).2 rfl

/-- The sum of a point of order eight and its inverse: an exceptional case for incomplete formulas. -/
example : add cA cD ⟨T8.x, T8.y⟩ ⟨(-T8).x, (-T8).y⟩ ⟨0, 1⟩ := by
  rw [C27_add, add_neg_cancel]; rfl

end C27

section C28
variable {p : ℕ}

/-- **C28.** For every circuit field and every scalar, `ScalarMul` is satisfiable with one outcome: the multiple of the point by the
canonical integer of the scalar. -/
theorem C28_scalar_mul [Fact p.Prime] (Q : Pt25519) (s : F p) (S : Pt Fp) :
    ScalarMul ⟨Q.x, Q.y⟩ s S ↔ S = ⟨(s.val • Q).x, (s.val • Q).y⟩ := by
  have h2 : 2 ≤ p := (Fact.out : p.Prime).two_le
  have hsz : 2 ≤ p.size := Nat.lt_size.2 (by simpa using h2)
  have hs : s.val < 2 ^ p.size := lt_trans (ZMod.val_lt s) (Nat.lt_size_self p)
  have := scalarMul_iff Q s.val p.size S
  rw [Nat.mod_eq_of_lt hs] at this
  exact this.trans (and_iff_right hsz)

/-- **C28.** The same for any curve, any width of at least two bits and any bit string: the multiple by the integer of the first `len`
bits of `v`. -/
theorem C28_scalar_mul_bits {K : Type} [Field K] {a d : K} [EdComplete a d] (Q : EdPt a d) (v len : ℕ) (hl : 2 ≤ len) (S : Pt K) :
    scalarMul a d ⟨Q.x, Q.y⟩ len v.testBit S ↔ S = ⟨((v % 2 ^ len) • Q).x, ((v % 2 ^ len) • Q).y⟩ :=
  (scalarMul_iff Q v len S).trans (and_iff_right hl)

/-- **C28.** `DoubleBaseScalarMul` computes `s1·P1 + s2·P2` when the representative of the second scalar fits the bit length of the
circuit field (of at most 255 bits).  Missing for the full property: the case of a longer second scalar, where it is false
(`C28_double_base_truncates_fails`). -/
theorem C28_double_base_partial [Fact p.Prime] (hp : p.size ≤ 255) (Q R : Pt25519) (s1 : F p) (s2 : ℕ) (hs : s2 < 2 ^ p.size)
    (S : Pt Fp) : DoubleBaseScalarMul ⟨Q.x, Q.y⟩ ⟨R.x, R.y⟩ s1 s2 S
      ↔ S = ⟨(s1.val • Q + s2 • R).x, (s1.val • Q + s2 • R).y⟩ := by
  have h2 : 2 ≤ p := (Fact.out : p.Prime).two_le
  have hsz : 2 ≤ p.size := Nat.lt_size.2 (by simpa using h2)
  have h1 : s1.val < 2 ^ p.size := lt_trans (ZMod.val_lt s1) (Nat.lt_size_self p)
  have := doubleBase_iff Q R s1.val s2 p.size 255 S
  rw [Nat.mod_eq_of_lt h1, Nat.mod_eq_of_lt hs] at this
  exact this.trans (and_iff_right ⟨by omega, hp⟩)

/-- **C28.** In general the second scalar is cut to the bit length of the circuit field. -/
theorem C28_double_base_cut [Fact p.Prime] (hp : p.size ≤ 255) (Q R : Pt25519) (s1 : F p) (s2 : ℕ) (S : Pt Fp) :
    DoubleBaseScalarMul ⟨Q.x, Q.y⟩ ⟨R.x, R.y⟩ s1 s2 S
      ↔ S = ⟨(s1.val • Q + (s2 % 2 ^ p.size) • R).x, (s1.val • Q + (s2 % 2 ^ p.size) • R).y⟩ := by
  have h2 : 2 ≤ p := (Fact.out : p.Prime).two_le
  have hsz : 2 ≤ p.size := Nat.lt_size.2 (by simpa using h2)
  have h1 : s1.val < 2 ^ p.size := lt_trans (ZMod.val_lt s1) (Nat.lt_size_self p)
  have := doubleBase_iff Q R s1.val s2 p.size 255 S
  rw [Nat.mod_eq_of_lt h1] at this
  exact this.trans (and_iff_right ⟨by omega, hp⟩)

/-- **C28.** So over the BN254 scalar field an emulated scalar whose limbs hold `2²⁵⁴` is treated as zero: the outcome is not the
multiple by the scalar. -/
theorem C28_double_base_truncates_fails : ∃ (s2 : ℕ) (S : Pt Fp), s2 < 2 ^ 255 ∧
    DoubleBaseScalarMul ⟨B.x, B.y⟩ ⟨B.x, B.y⟩ (0 : F bn254r) s2 S ∧
    S ≠ ⟨((0 : F bn254r).val • B + s2 • B).x, ((0 : F bn254r).val • B + s2 • B).y⟩ := by
  refine ⟨2 ^ 254, _, by norm_num, (C28_double_base_cut (by decide +kernel) B B 0 _ _).2 rfl, ?_⟩
  have hm : 2 ^ 254 % 2 ^ bn254r.size = 0 := by decide +kernel
  rw [hm, zero_smul, add_zero, ZMod.val_zero, zero_smul, zero_add]
  intro h
  have h0 : (0 : Pt25519) = 2 ^ 254 • B := ofPt_inj.1 h
  have h1 := addOrderOf_dvd_of_nsmul_eq_zero h0.symm
  rw [order_B] at h1
  revert h1
  decide +kernel

/-- **C28.** Over a circuit field of more than 255 bits `DoubleBaseScalarMul` cannot be used (the Go code indexes past the end of the
bits of the second scalar). -/
theorem C28_double_base_wide (hp : 255 < p.size) (Q R : Pt25519) (s1 : F p) (s2 : ℕ) (S : Pt Fp) :
    ¬ DoubleBaseScalarMul ⟨Q.x, Q.y⟩ ⟨R.x, R.y⟩ s1 s2 S := by
  intro h
  have := (doubleBase_iff Q R s1.val s2 p.size 255 S).1 h
  omega

example : ScalarMul base (5 : F bn254r) ⟨(5 • B).x, (5 • B).y⟩ := by
  have h := (C28_scalar_mul (p := bn254r) B 5 _).2 rfl
  have e : (5 : F bn254r).val = 5 := by
    have := ZMod.val_natCast_of_lt (n := bn254r) (a := 5) (by decide +kernel)
    simpa using this
  rw [e] at h
  exact h

end C28

section C61
variable {p : ℕ}

/-- The circuit fields the verifier works over: 253 to 255 bits. -/
class EdField (p : ℕ) : Prop where
  prime : p.Prime
  lo : 2 ^ 252 ≤ p
  hi : p < 2 ^ 255

instance : EdField bn254r := ⟨fact_bn254r.out, by decide +kernel, by decide +kernel⟩

variable [hF : EdField p]

theorem EdField.sha : 2 ^ 68 < p := lt_of_lt_of_le (by norm_num) hF.lo

omit hF in
theorem eight_iff (T : Pt25519) : (∃ Q2, double cA (ofPt T) Q2 ∧ ∃ Q3, double cA Q2 Q3 ∧ double cA Q3 ⟨0, 1⟩) ↔ 8 • T = 0 := by
  have e8 : 8 • T = T + T + (T + T) + (T + T + (T + T)) := by
    rw [show (8 : ℕ) = 2 * (2 * 2) by norm_num, mul_smul, mul_smul, two_smul, two_smul, two_smul]
  have hz : (⟨0, 1⟩ : Pt Fp) = ofPt (0 : Pt25519) := rfl
  constructor
  · rintro ⟨Q2, h2, Q3, h3, h4⟩
    rw [double_iff] at h2
    subst h2
    rw [double_iff] at h3
    subst h3
    rw [double_iff, hz, ofPt_inj] at h4
    rw [e8, ← h4]
  · intro h
    refine ⟨_, (double_iff _ _).2 rfl, _, (double_iff _ _).2 rfl, (double_iff _ _).2 ?_⟩
    rw [hz, ofPt_inj, ← e8, h]

omit hF in
theorem groupEq_iff (S k : ℕ) (R A : Pt25519) : 8 • (-(S • B - k • A) + R) = 0 ↔ GroupEq S k R A := by
  have e : 8 • (-(S • B - k • A) + R) = (8 • R + 8 • k • A) - 8 • S • B := by
    simp only [smul_add, smul_sub, smul_neg]
    abel
  rw [e, sub_eq_zero, GroupEq, eq_comm]

/-- **C61.** For a key `A` and a commitment `R` on the curve, given by any integers below `2²⁵⁵` congruent to their coordinates, the
circuit is satisfiable exactly when the key words, the message words are in range, the two key words are the big-endian halves of the
encoding of `A`, and the RFC 8032 group equation holds for the SHA-512 challenge.  In particular the prover's freedom in the reduction
of the challenge does not matter, whatever the order of `A`.  Missing for the full property: `R` need not be on the curve
(`C61_forgery_fails`), `S` need not be below the group order (`C61_malleable_fails`) and the integers need not be canonical
(`C61_noncanonical_fails`). -/
theorem C61_verify_partial (v0 v1 : F p) (rx ry ax ay : ℕ) (S : F p) (msg : Fin 5 → F p) (A R : Pt25519)
    (hA : A.x = (ax : Fp) ∧ A.y = (ay : Fp)) (hR : R.x = (rx : Fp) ∧ R.y = (ry : Fp)) :
    verify [v0, v1] rx ry S msg ax ay () ↔
      (rx < 2 ^ 255 ∧ ry < 2 ^ 255 ∧ ax < 2 ^ 255 ∧ ay < 2 ^ 255) ∧ (v0.val < 2 ^ 128 ∧ v1.val < 2 ^ 128) ∧
      ((∀ i : Fin 4, (msg i.castSucc).val < 2 ^ 200) ∧ (msg 4).val < 2 ^ 176) ∧
      encodeXY ax ay = pkBytes v0.val v1.val ∧
      GroupEq S.val (challenge (encodeXY rx ry) (pkBytes v0.val v1.val) (msgBytes fun i => (msg i).val)) R A := by
  haveI : Fact (1 < p) := ⟨hF.prime.one_lt⟩
  have hA' : ofPt A = ⟨(ax : Fp), (ay : Fp)⟩ := Pt.ext hA.1 hA.2
  have hR' : (⟨(rx : Fp), (ry : Fp)⟩ : Pt Fp) = ofPt R := (Pt.ext hR.1 hR.2).symm
  rw [verify_iff EdField.sha hF.lo hF.hi v0 v1 [] rx ry S msg ax ay A hA', hR']
  have hk : ∀ k h : ℕ, k ≡ h [MOD L] → (8 • (-(S.val • B - k • A) + R) = 0 ↔ GroupEq S.val h R A) := by
    intro k h hkh
    rw [groupEq_iff, GroupEq, GroupEq, eight_smul_congr hkh A]
  constructor
  · rintro ⟨⟨h1, h2, h3, h4⟩, k, hk1, hk2, Q1, hQ1, hrest⟩
    rw [add_iff] at hQ1
    subst hQ1
    exact ⟨h1, h2, h4, h3, (hk _ _ hk2).1 ((eight_iff _).1 hrest)⟩
  · rintro ⟨h1, h2, h4, h3, h5⟩
    refine ⟨⟨h1, h2, h3, h4⟩, challenge (encodeXY rx ry) (pkBytes v0.val v1.val) (msgBytes fun i => (msg i).val) % L,
      lt_trans (Nat.mod_lt _ (by decide +kernel)) (by decide +kernel), Nat.mod_modEq _ _, _, (add_iff _ _ _).2 rfl, ?_⟩
    exact (eight_iff _).2 ((hk _ _ (Nat.mod_modEq _ _)).2 h5)

/-- **C61.** With canonical coordinates and `S` below the group order, acceptance is RFC 8032 verification of the signature under the
key string given by the two public words. -/
theorem C61_rfc_partial (v0 v1 : F p) (S : F p) (hS : S.val < L) (msg : Fin 5 → F p) (R : Pt25519)
    (hv : v0.val < 2 ^ 128 ∧ v1.val < 2 ^ 128) (hm : (∀ i : Fin 4, (msg i.castSucc).val < 2 ^ 200) ∧ (msg 4).val < 2 ^ 176) :
    (∃ A : Pt25519, verify [v0, v1] R.x.val R.y.val S msg A.x.val A.y.val ())
      ↔ RfcValid (pkBytes v0.val v1.val) (msgBytes fun i => (msg i).val) R S.val := by
  have hc : ∀ x : Fp, ((x.val : ℕ) : Fp) = x := fun x => ZMod.natCast_zmod_val x
  have key : ∀ A : Pt25519, _ := fun A =>
    C61_verify_partial v0 v1 R.x.val R.y.val A.x.val A.y.val S msg A R ⟨(hc _).symm, (hc _).symm⟩ ⟨(hc _).symm, (hc _).symm⟩
  constructor
  · rintro ⟨A, h⟩
    obtain ⟨_, _, _, h1, h2⟩ := (key A).1 h
    exact ⟨hS, A, h1, h2⟩
  · rintro ⟨_, A, h1, h2⟩
    exact ⟨A, (key A).2 ⟨⟨val_P _, val_P _, val_P _, val_P _⟩, hv, hm, h1, h2⟩⟩

/-- **C61.** Completeness for honest signers: for every secret scalar `s`, nonce `r` and message in range, the signature
`(r·B, r + k·s mod L)` is accepted, provided the scalar fits the circuit field. -/
theorem C61_honest (s r : ℕ) (v0 v1 : F p) (hv : v0.val < 2 ^ 128 ∧ v1.val < 2 ^ 128)
    (hpk : encode (s • B) = pkBytes v0.val v1.val) (msg : Fin 5 → F p)
    (hm : (∀ i : Fin 4, (msg i.castSucc).val < 2 ^ 200) ∧ (msg 4).val < 2 ^ 176) (hL : L ≤ p) :
    verify [v0, v1] (r • B).x.val (r • B).y.val
      (((r + challenge (encode (r • B)) (encode (s • B)) (msgBytes fun i => (msg i).val) * s) % L : ℕ) : F p) msg
      (s • B).x.val (s • B).y.val () := by
  have hc : ∀ x : Fp, x = ((x.val : ℕ) : Fp) := fun x => (ZMod.natCast_zmod_val x).symm
  rw [C61_verify_partial v0 v1 _ _ _ _ _ msg (s • B) (r • B) ⟨hc _, hc _⟩ ⟨hc _, hc _⟩]
  refine ⟨⟨val_P _, val_P _, val_P _, val_P _⟩, hv, hm, hpk, ?_⟩
  rw [ZMod.val_natCast_of_lt (lt_of_lt_of_le (Nat.mod_lt _ (by decide +kernel)) hL)]
  change GroupEq _ (challenge (encode (r • B)) (pkBytes v0.val v1.val) _) _ _
  rw [← hpk]
  set k := challenge (encode (r • B)) (encode (s • B)) (msgBytes fun i => (msg i).val)
  unfold GroupEq
  rw [eight_smul_congr (Nat.mod_modEq _ _), add_smul, mul_smul, smul_add]

/-- **C61.** The property fails: `R` is not checked to be on the curve.  Under *every* public key and for *every* message and *every*
`S` the "signature" `(R, S)` with `R = (0, 0)` is accepted: `Add(-Q, (0,0))` is `(0,0)`, doubling it divides zero by zero, so the
prover may continue with the point `(√-1, 0)` of order four. -/
theorem C61_forgery_fails (v0 v1 : F p) (hv : v0.val < 2 ^ 128 ∧ v1.val < 2 ^ 128) (A : Pt25519)
    (hpk : encode A = pkBytes v0.val v1.val) (msg : Fin 5 → F p)
    (hm : (∀ i : Fin 4, (msg i.castSucc).val < 2 ^ 200) ∧ (msg 4).val < 2 ^ 176) (S : F p) :
    verify [v0, v1] 0 0 S msg A.x.val A.y.val () := by
  haveI : Fact (1 < p) := ⟨hF.prime.one_lt⟩
  have hc : ∀ x : Fp, x = ((x.val : ℕ) : Fp) := fun x => (ZMod.natCast_zmod_val x).symm
  rw [verify_iff EdField.sha hF.lo hF.hi v0 v1 [] 0 0 S msg A.x.val A.y.val A (Pt.ext (hc _) (hc _))]
  refine ⟨⟨⟨by norm_num, by norm_num, val_P _, val_P _⟩, hv, hpk, hm⟩,
    challenge (encodeXY 0 0) (pkBytes v0.val v1.val) (msgBytes fun i => (msg i).val) % L,
    lt_trans (Nat.mod_lt _ (by decide +kernel)) (by decide +kernel), Nat.mod_modEq _ _, ⟨0, 0⟩, ?_, ⟨sqrtM1, 0⟩, C27_off_curve _,
    ⟨0, -1⟩, ?_, ?_⟩
  · exact ⟨0, by simp [div], 0, by simp [div], rfl⟩
  · have h := sqrtM1_sq
    refine ⟨0, by simp [div], -1, ?_, rfl⟩
    simp only [div, cA]
    rw [h]
    ring
  · refine ⟨0, by simp [div], 1, ?_, rfl⟩
    simp only [div, cA]
    ring

/-- **C61.** `(0, 0)` is not a point of the curve. -/
theorem C61_forged_R_invalid : ¬ (cA * (0 : Fp) ^ 2 + 0 ^ 2 = 1 + cD * 0 ^ 2 * 0 ^ 2) := by
  intro h
  apply one_ne_zero (α := Fp)
  linear_combination -h

/-- **C61.** By contrast RFC 8032 accepts at most one `S` for a given key, message and `R`. -/
theorem C61_rfc_unique (pk m : List ℕ) (R : Pt25519) (S S' : ℕ) (h : RfcValid pk m R S) (h' : RfcValid pk m R S') : S = S' := by
  obtain ⟨hS, A, hA, h1⟩ := h
  obtain ⟨hS', A', hA', h2⟩ := h'
  have hAA : A = A' := encode_inj (hA.trans hA'.symm)
  subst hAA
  unfold GroupEq at h1 h2
  have h3 : (8 * S) • B = (8 * S') • B := by rw [mul_smul, mul_smul, h1, h2]
  rw [nsmul_eq_nsmul_iff_modEq, order_B] at h3
  have h4 : S ≡ S' [MOD L] := Nat.ModEq.cancel_left_of_coprime (by decide +kernel) h3
  rw [Nat.ModEq, Nat.mod_eq_of_lt hS, Nat.mod_eq_of_lt hS'] at h4
  exact h4

/-- **C61.** So the circuit accepts what RFC 8032 rejects: over the BN254 scalar field, for every key, message and decoding of the
forged `R`, one of the two accepted signatures with `S = 0` and `S = 1` is not valid. -/
theorem C61_forgery_unsound (v0 v1 : F p) (hv : v0.val < 2 ^ 128 ∧ v1.val < 2 ^ 128) (A : Pt25519)
    (hpk : encode A = pkBytes v0.val v1.val) (msg : Fin 5 → F p)
    (hm : (∀ i : Fin 4, (msg i.castSucc).val < 2 ^ 200) ∧ (msg 4).val < 2 ^ 176) :
    ∃ S : F p, verify [v0, v1] 0 0 S msg A.x.val A.y.val () ∧
      ∀ R : Pt25519, encode R = encodeXY 0 0 → ¬ RfcValid (pkBytes v0.val v1.val) (msgBytes fun i => (msg i).val) R S.val := by
  haveI : Fact (1 < p) := ⟨hF.prime.one_lt⟩
  by_cases h : ∃ R : Pt25519, encode R = encodeXY 0 0 ∧ RfcValid (pkBytes v0.val v1.val) (msgBytes fun i => (msg i).val) R 0
  · obtain ⟨R, hR, h0⟩ := h
    refine ⟨1, C61_forgery_fails v0 v1 hv A hpk msg hm 1, ?_⟩
    intro R' hR' h1
    have e : R' = R := encode_inj (hR'.trans hR.symm)
    subst e
    rw [ZMod.val_one p] at h1
    exact absurd (C61_rfc_unique _ _ _ _ _ h0 h1) (by norm_num)
  · refine ⟨0, C61_forgery_fails v0 v1 hv A hpk msg hm 0, ?_⟩
    intro R hR h0
    rw [ZMod.val_zero] at h0
    exact h ⟨R, hR, h0⟩

/-- **C61.** The property fails: `S` is not checked to be below the group order, so a valid signature has a second form. -/
theorem C61_malleable_fails (v0 v1 : F p) (ax ay rx ry : ℕ) (A R : Pt25519)
    (hA : A.x = (ax : Fp) ∧ A.y = (ay : Fp)) (hR : R.x = (rx : Fp) ∧ R.y = (ry : Fp)) (S : F p) (hS : S.val + L < p)
    (msg : Fin 5 → F p) (h : verify [v0, v1] rx ry S msg ax ay ()) :
    verify [v0, v1] rx ry (S + (L : ℕ)) msg ax ay () := by
  have hval : (S + ((L : ℕ) : F p)).val = S.val + L := by
    have hL : ((L : ℕ) : F p).val = L := ZMod.val_natCast_of_lt (by omega)
    rw [ZMod.val_add_of_lt (by rw [hL]; exact hS), hL]
  rw [C61_verify_partial v0 v1 rx ry ax ay _ msg A R hA hR] at h ⊢
  refine ⟨h.1, h.2.1, h.2.2.1, h.2.2.2.1, ?_⟩
  have h5 := h.2.2.2.2
  unfold GroupEq at h5 ⊢
  rw [hval, add_smul, L_smul_B, add_zero]
  exact h5

/-- **C61.** The property fails: a coordinate may be held as any integer below `2²⁵⁵` congruent to it.  The neutral element written
`(P, 1)` is accepted as the key `01 00 … 00 80`, a string no point encodes to, so RFC 8032 rejects every signature under it. -/
theorem C61_noncanonical_fails (msg : Fin 5 → F p)
    (hm : (∀ i : Fin 4, (msg i.castSucc).val < 2 ^ 200) ∧ (msg 4).val < 2 ^ 176) (v0 v1 : F p)
    (hv0 : v0.val = 2 ^ 120) (hv1 : v1.val = 2 ^ 7) :
    verify [v0, v1] 0 1 0 msg P 1 () ∧ ∀ Q : Pt25519, encode Q ≠ pkBytes v0.val v1.val := by
  have hpk : encodeXY P 1 = pkBytes (2 ^ 120) (2 ^ 7) := by decide +kernel
  constructor
  · rw [C61_verify_partial v0 v1 0 1 P 1 0 msg 0 0 ⟨by simp, by simp⟩ ⟨by simp, by simp⟩]
    refine ⟨⟨by norm_num, by norm_num, by decide +kernel, by norm_num⟩, ⟨by rw [hv0]; norm_num, by rw [hv1]; norm_num⟩, hm, ?_, ?_⟩
    · rw [hv0, hv1, hpk]
    · simp [GroupEq]
  · intro Q h
    rw [hv0, hv1, ← hpk] at h
    have h1 := congrArg leVal h
    unfold encode at h1
    rw [encodeXY_val (val_P _), encodeXY_val (by norm_num), P_odd] at h1
    have a := val_P Q.y
    have c := Nat.mod_lt Q.x.val (show 0 < 2 by norm_num)
    have hy : Q.y.val = 1 := by omega
    have hx : Q.x.val % 2 = 1 := by omega
    have hy1 : Q.y = 1 := by
      rw [← ZMod.natCast_zmod_val Q.y, hy, Nat.cast_one]
    have h0 := sq_eq Q
    rw [hy1] at h0
    have h2 : Q.x ^ 2 * (cA - cD * 1 ^ 2) = 0 := by rw [h0]; ring
    have h3 : Q.x = 0 := by
      rcases mul_eq_zero.1 h2 with h | h
      · exact pow_eq_zero_iff (two_ne_zero) |>.1 h
      · exact absurd h (den_y 1)
    rw [h3, ZMod.val_zero] at hx
    omega

/-- The hypotheses of the honest-signer and forgery theorems are met over BN254 by every point: its encoding splits into two words. -/
theorem exists_words (A : Pt25519) : ∃ v0 v1 : F bn254r, (v0.val < 2 ^ 128 ∧ v1.val < 2 ^ 128) ∧ encode A = pkBytes v0.val v1.val := by
  have hbig : (256 : ℕ) ^ 16 ≤ bn254r := by decide +kernel
  have e128 : (256 : ℕ) ^ 16 = 2 ^ 128 := by norm_num
  -- the value of the reversed string
  set V := leVal (encode A).reverse with hV
  have hlen : (encode A).length = 32 := by simp [encode, encodeXY, leBytes]
  have hlt : ∀ b ∈ encode A, b < 256 := encodeXY_lt _ _
  have back : ∀ l : List ℕ, (∀ b ∈ l, b < 256) → leBytes l.length (leVal l) = l ∧ leVal l < 256 ^ l.length := by
    intro l
    induction l with
    | nil => intro _; exact ⟨rfl, by simp [leVal]⟩
    | cons b l ih =>
      intro h
      obtain ⟨i1, i2⟩ := ih fun c hc => h c (by simp [hc])
      have hb := h b (by simp)
      constructor
      · have e : leBytes (1 + l.length) (b + 256 ^ 1 * leVal l) = leBytes 1 b ++ leBytes l.length (leVal l) :=
          leBytes_append _ _ (by omega)
        rw [List.length_cons, leVal, add_comm l.length 1, show b + 256 * leVal l = b + 256 ^ 1 * leVal l by ring, e, i1]
        simp [leBytes, Nat.mod_eq_of_lt hb]
      · rw [leVal, List.length_cons, pow_succ]
        omega
  obtain ⟨b1, b2⟩ := back (encode A).reverse (fun b hb => hlt b (List.mem_reverse.1 hb))
  rw [List.length_reverse, hlen, ← hV] at b1 b2
  have d1 : V % 256 ^ 16 < 256 ^ 16 := Nat.mod_lt _ (by positivity)
  have d0 : V / 256 ^ 16 < 256 ^ 16 := Nat.div_lt_of_lt_mul (by rw [← pow_add]; exact b2)
  refine ⟨((V / 256 ^ 16 : ℕ) : F bn254r), ((V % 256 ^ 16 : ℕ) : F bn254r), ?_⟩
  rw [ZMod.val_natCast_of_lt (lt_of_lt_of_le d0 hbig), ZMod.val_natCast_of_lt (lt_of_lt_of_le d1 hbig)]
  refine ⟨⟨e128 ▸ d0, e128 ▸ d1⟩, ?_⟩
  have e : leBytes (16 + 16) (V % 256 ^ 16 + 256 ^ 16 * (V / 256 ^ 16)) = leBytes 16 (V % 256 ^ 16) ++ leBytes 16 (V / 256 ^ 16) :=
    leBytes_append _ _ d1
  rw [Nat.mod_add_div, b1] at e
  rw [← List.reverse_reverse (encode A), e, List.reverse_append]
  rfl

/-- A forged signature on the all-zero message under the key `B`. -/
example : ∃ v0 v1 : F bn254r, encode B = pkBytes v0.val v1.val ∧ verify [v0, v1] 0 0 0 (fun _ => 0) B.x.val B.y.val () := by
  obtain ⟨v0, v1, hv, he⟩ := exists_words B
  exact ⟨v0, v1, he, C61_forgery_fails v0 v1 hv B he _ (by simp) 0⟩

/-- **C61.** Over the BN254 scalar field every honest signature on every message in range is accepted, with the public words of the key. -/
theorem C61_honest_bn254 (s r : ℕ) (msg : Fin 5 → F bn254r)
    (hm : (∀ i : Fin 4, (msg i.castSucc).val < 2 ^ 200) ∧ (msg 4).val < 2 ^ 176) :
    ∃ v0 v1 : F bn254r, encode (s • B) = pkBytes v0.val v1.val ∧ verify [v0, v1] (r • B).x.val (r • B).y.val
      (((r + challenge (encode (r • B)) (encode (s • B)) (msgBytes fun i => (msg i).val) * s) % L : ℕ) : F bn254r) msg
      (s • B).x.val (s • B).y.val () := by
  obtain ⟨v0, v1, hv, he⟩ := exists_words (s • B)
  have hL : L ≤ bn254r := by decide +kernel
  exact ⟨v0, v1, he, C61_honest s r v0 v1 hv he msg hm hL⟩

end C61
end Verif.Ed
