import Verif.EdHost.PointModel
import Verif.EdHost.FieldProps

/-! # The point formulas of the host library are the group law of edwards25519 -/

namespace Verif.EdHost
open Verif.Ed Verif.Ec

/-- `p` holds `Q` in extended coordinates. -/
def PRep (p : Point) (Q : Pt25519) : Prop :=
  ∃ Z : Fp, Z ≠ 0 ∧ Repr p.x (Q.x * Z) ∧ Repr p.y (Q.y * Z) ∧ Repr p.z Z ∧ Repr p.t (Q.x * Q.y * Z)

/-- `p` holds `Q` in projective coordinates. -/
def P2Rep (p : P2) (Q : Pt25519) : Prop :=
  ∃ Z : Fp, Z ≠ 0 ∧ Repr p.X (Q.x * Z) ∧ Repr p.Y (Q.y * Z) ∧ Repr p.Z Z

/-- `p` holds `Q` in completed coordinates. -/
def P1Rep (p : P1xP1) (Q : Pt25519) : Prop :=
  ∃ Z T : Fp, Z ≠ 0 ∧ T ≠ 0 ∧ Repr p.X (Q.x * Z) ∧ Repr p.Y (Q.y * T) ∧ Repr p.Z Z ∧ Repr p.T T

/-- `c` holds `Q` in the form for readdition. -/
def CRep (c : Cached) (Q : Pt25519) : Prop :=
  ∃ Z : Fp, Z ≠ 0 ∧ Repr c.YplusX ((Q.y + Q.x) * Z) ∧ Repr c.YminusX ((Q.y - Q.x) * Z) ∧ Repr c.Z Z ∧ Repr c.T2d (2 * cD * Q.x * Q.y * Z)

/-- `c` holds `Q` in the affine form for readdition. -/
def ACRep (c : ACached) (Q : Pt25519) : Prop :=
  Repr c.YplusX (Q.y + Q.x) ∧ Repr c.YminusX (Q.y - Q.x) ∧ Repr c.T2d (2 * cD * Q.x * Q.y)

theorem Repr.to {e : Elt} {x y : Fp} (h : Repr e x) (hxy : x = y) : Repr e y := hxy ▸ h

theorem d_repr : Repr feD cD := by
  refine ⟨?_, ?_⟩
  · constructor <;> (unfold lim; decide +kernel)
  · unfold Elt.val
    have : feD.nat = dN := by decide +kernel
    rw [this]
    rfl

theorem d2_repr : Repr feD2 (2 * cD) := (d_repr.add d_repr).to (by ring)

theorem one_repr : Repr feOne 1 := ⟨one_ok, one_val⟩
theorem zero_repr : Repr feZero 0 := ⟨zero_ok, zero_val⟩

theorem on' (Q : Pt25519) : Q.y ^ 2 - Q.x ^ 2 = 1 + cD * Q.x ^ 2 * Q.y ^ 2 := by
  have hA : cA = -1 := rfl
  linear_combination Q.on - Q.x ^ 2 * hA

theorem xy_ne (Q : Pt25519) : ¬ (Q.x = 0 ∧ Q.y = 0) := by
  rintro ⟨hx, hy⟩
  have := on' Q
  rw [hx, hy] at this
  exact one_ne_zero (α := Fp) (by linear_combination -this)

theorem PRep.init {p : Point} {Q : Pt25519} (h : PRep p Q) : initialized p = true := by
  obtain ⟨Z, hz, hx, hy, -, -⟩ := h
  unfold initialized
  rw [Bool.not_eq_true', Bool.and_eq_false_iff]
  by_contra hc
  push Not at hc
  obtain ⟨h1, h2⟩ := hc
  have h1' : p.x = feZero := by simpa using h1
  have h2' : p.y = feZero := by simpa using h2
  have e1 := hx.2
  have e2 := hy.2
  rw [h1', zero_val] at e1
  rw [h2', zero_val] at e2
  exact xy_ne Q ⟨(mul_eq_zero.1 e1.symm).resolve_right hz, (mul_eq_zero.1 e2.symm).resolve_right hz⟩

theorem fromP1_rep {p : P1xP1} {Q : Pt25519} (h : P1Rep p Q) : PRep (fromP1 p) Q := by
  obtain ⟨Z, T, hz, ht, hX, hY, hZ, hT⟩ := h
  exact ⟨Z * T, mul_ne_zero hz ht, (hX.mul hT).to (by ring), (hY.mul hZ).to (by ring), hZ.mul hT, (hX.mul hY).to (by ring)⟩

theorem p2FromP1_rep {p : P1xP1} {Q : Pt25519} (h : P1Rep p Q) : P2Rep (p2FromP1 p) Q := by
  obtain ⟨Z, T, hz, ht, hX, hY, hZ, hT⟩ := h
  exact ⟨Z * T, mul_ne_zero hz ht, (hX.mul hT).to (by ring), (hY.mul hZ).to (by ring), hZ.mul hT⟩

theorem p2FromP3_rep {p : Point} {Q : Pt25519} (h : PRep p Q) : P2Rep (p2FromP3 p) Q := by
  obtain ⟨Z, hz, hx, hy, hZ, -⟩ := h
  exact ⟨Z, hz, hx, hy, hZ⟩

theorem fromP2_rep {p : P2} {Q : Pt25519} (h : P2Rep p Q) : PRep (fromP2 p) Q := by
  obtain ⟨Z, hz, hX, hY, hZ⟩ := h
  exact ⟨Z * Z, mul_ne_zero hz hz, (hX.mul hZ).to (by ring), (hY.mul hZ).to (by ring), hZ.sq, (hX.mul hY).to (by ring)⟩

theorem cachedFromP3_rep {p : Point} {Q : Pt25519} (h : PRep p Q) : CRep (cachedFromP3 p) Q := by
  obtain ⟨Z, hz, hx, hy, hZ, ht⟩ := h
  exact ⟨Z, hz, (hy.add hx).to (by ring), (hy.sub hx).to (by ring), hZ, (ht.mul d2_repr).to (by ring)⟩

theorem acachedFromP3_rep {p : Point} {Q : Pt25519} (h : PRep p Q) : ACRep (acachedFromP3 p) Q := by
  obtain ⟨Z, hz, hx, hy, hZ, ht⟩ := h
  have hi := invert_val hZ
  exact ⟨((hy.add hx).mul hi).to (by field_simp), ((hy.sub hx).mul hi).to (by field_simp), ((ht.mul d2_repr).mul hi).to (by field_simp)⟩

theorem add_num (Q R : Pt25519) : (Q + R).x * (1 + cD * Q.x * R.x * Q.y * R.y) = Q.x * R.y + R.x * Q.y ∧
    (Q + R).y * (1 - cD * Q.x * R.x * Q.y * R.y) = Q.y * R.y + Q.x * R.x := by
  have hA : cA = -1 := rfl
  refine ⟨?_, ?_⟩
  · rw [EdPt.add_x, div_mul_cancel₀ _ (EdPt.den_add Q R)]
  · rw [EdPt.add_y, div_mul_cancel₀ _ (EdPt.den_sub Q R)]
    linear_combination -Q.x * R.x * hA

/-- The completed sum of `Q` (with denominator `Z1`) and `R` (with denominator `Z2`). -/
theorem p1_core {e : P1xP1} {Q R : Pt25519} {Z1 Z2 : Fp} (h1 : Z1 ≠ 0) (h2 : Z2 ≠ 0)
    (hX : Repr e.X (Z1 * Z2 * (2 * (Q.x * R.y + R.x * Q.y)))) (hY : Repr e.Y (Z1 * Z2 * (2 * (Q.y * R.y + Q.x * R.x))))
    (hZ : Repr e.Z (2 * (Z1 * Z2) * (1 + cD * Q.x * R.x * Q.y * R.y))) (hT : Repr e.T (2 * (Z1 * Z2) * (1 - cD * Q.x * R.x * Q.y * R.y))) :
    P1Rep e (Q + R) := by
  obtain ⟨ex, ey⟩ := add_num Q R
  refine ⟨_, _, mul_ne_zero (mul_ne_zero two_ne (mul_ne_zero h1 h2)) (EdPt.den_add Q R), mul_ne_zero (mul_ne_zero two_ne (mul_ne_zero h1 h2)) (EdPt.den_sub Q R), hX.to ?_, hY.to ?_, hZ, hT⟩
  · linear_combination -2 * Z1 * Z2 * ex
  · linear_combination -2 * Z1 * Z2 * ey

theorem p1Add_rep {p : Point} {q : Cached} {Q R : Pt25519} (hp : PRep p Q) (hq : CRep q R) : P1Rep (p1Add p q) (Q + R) := by
  obtain ⟨Z1, hz1, hx, hy, hz, ht⟩ := hp
  obtain ⟨Z2, hz2, hP, hM, hZ, hT⟩ := hq
  have PP := (hy.add hx).mul hP
  have MM := (hy.sub hx).mul hM
  have TT := ht.mul hT
  have ZZ := (hz.mul hZ).add (hz.mul hZ)
  exact p1_core hz1 hz2 ((PP.sub MM).to (by ring)) ((PP.add MM).to (by ring)) ((ZZ.add TT).to (by ring)) ((ZZ.sub TT).to (by ring))

theorem p1Sub_rep {p : Point} {q : Cached} {Q R : Pt25519} (hp : PRep p Q) (hq : CRep q R) : P1Rep (p1Sub p q) (Q - R) := by
  obtain ⟨Z1, hz1, hx, hy, hz, ht⟩ := hp
  obtain ⟨Z2, hz2, hP, hM, hZ, hT⟩ := hq
  have PP := (hy.add hx).mul hM
  have MM := (hy.sub hx).mul hP
  have TT := ht.mul hT
  have ZZ := (hz.mul hZ).add (hz.mul hZ)
  rw [sub_eq_add_neg]
  have nx : (-R).x = -R.x := rfl
  have ny : (-R).y = R.y := rfl
  exact p1_core hz1 hz2 ((PP.sub MM).to (by rw [nx, ny]; ring)) ((PP.add MM).to (by rw [nx, ny]; ring))
    ((ZZ.sub TT).to (by rw [nx, ny]; ring)) ((ZZ.add TT).to (by rw [nx, ny]; ring))

theorem p1AddAffine_rep {p : Point} {q : ACached} {Q R : Pt25519} (hp : PRep p Q) (hq : ACRep q R) : P1Rep (p1AddAffine p q) (Q + R) := by
  obtain ⟨Z1, hz1, hx, hy, hz, ht⟩ := hp
  obtain ⟨hP, hM, hT⟩ := hq
  have PP := (hy.add hx).mul hP
  have MM := (hy.sub hx).mul hM
  have TT := ht.mul hT
  have ZZ := hz.add hz
  exact p1_core (Z2 := 1) hz1 one_ne_zero ((PP.sub MM).to (by ring)) ((PP.add MM).to (by ring)) ((ZZ.add TT).to (by ring)) ((ZZ.sub TT).to (by ring))

theorem p1SubAffine_rep {p : Point} {q : ACached} {Q R : Pt25519} (hp : PRep p Q) (hq : ACRep q R) : P1Rep (p1SubAffine p q) (Q - R) := by
  obtain ⟨Z1, hz1, hx, hy, hz, ht⟩ := hp
  obtain ⟨hP, hM, hT⟩ := hq
  have PP := (hy.add hx).mul hM
  have MM := (hy.sub hx).mul hP
  have TT := ht.mul hT
  have ZZ := hz.add hz
  rw [sub_eq_add_neg]
  have nx : (-R).x = -R.x := rfl
  have ny : (-R).y = R.y := rfl
  exact p1_core (Z2 := 1) hz1 one_ne_zero ((PP.sub MM).to (by rw [nx, ny]; ring)) ((PP.add MM).to (by rw [nx, ny]; ring))
    ((ZZ.sub TT).to (by rw [nx, ny]; ring)) ((ZZ.add TT).to (by rw [nx, ny]; ring))

theorem p1Double_rep {p : P2} {Q : Pt25519} (hp : P2Rep p Q) : P1Rep (p1Double p) (Q + Q) := by
  obtain ⟨Z, hz, hX, hY, hZ⟩ := hp
  obtain ⟨ex, ey⟩ := add_num Q Q
  have d1 := EdPt.den_add Q Q
  have d2 := EdPt.den_sub Q Q
  have ho := on' Q
  have Y := hY.sq.add hX.sq
  have Zr := hY.sq.sub hX.sq
  have Xr := (hX.add hY).sq.sub Y
  have T := (hZ.sq.add hZ.sq).sub Zr
  refine ⟨Z ^ 2 * (1 + cD * Q.x * Q.x * Q.y * Q.y), Z ^ 2 * (1 - cD * Q.x * Q.x * Q.y * Q.y), mul_ne_zero (pow_ne_zero _ hz) d1, mul_ne_zero (pow_ne_zero _ hz) d2, Xr.to ?_, Y.to ?_, Zr.to ?_, T.to ?_⟩
  · linear_combination -Z ^ 2 * ex
  · linear_combination -Z ^ 2 * ey
  · linear_combination Z ^ 2 * ho
  · linear_combination -Z ^ 2 * ho

theorem add_rep {p q : Point} {Q R : Pt25519} (hp : PRep p Q) (hq : PRep q R) : ∃ r, ptAdd p q = some r ∧ PRep r (Q + R) := by
  unfold ptAdd
  rw [hp.init, hq.init]
  exact ⟨_, rfl, fromP1_rep (p1Add_rep hp (cachedFromP3_rep hq))⟩

theorem sub_rep {p q : Point} {Q R : Pt25519} (hp : PRep p Q) (hq : PRep q R) : ∃ r, ptSub p q = some r ∧ PRep r (Q - R) := by
  unfold ptSub
  rw [hp.init, hq.init]
  exact ⟨_, rfl, fromP1_rep (p1Sub_rep hp (cachedFromP3_rep hq))⟩

theorem neg_rep {p : Point} {Q : Pt25519} (hp : PRep p Q) : ∃ r, ptNeg p = some r ∧ PRep r (-Q) := by
  unfold ptNeg
  rw [hp.init]
  refine ⟨_, rfl, ?_⟩
  obtain ⟨Z, hz, hx, hy, hZ, ht⟩ := hp
  have nx : (-Q).x = -Q.x := rfl
  have ny : (-Q).y = Q.y := rfl
  exact ⟨Z, hz, hx.neg.to (by rw [nx]; ring), hy, hZ, ht.neg.to (by rw [nx, ny]; ring)⟩

open Classical in
theorem equal_rep {p q : Point} {Q R : Pt25519} (hp : PRep p Q) (hq : PRep q R) : ptEqual p q = some (if Q = R then 1 else 0) := by
  unfold ptEqual
  rw [hp.init, hq.init]
  obtain ⟨Z1, hz1, hx1, hy1, hZ1, -⟩ := hp
  obtain ⟨Z2, hz2, hx2, hy2, hZ2, -⟩ := hq
  simp only [Bool.and_self, if_true]
  rw [(hx1.mul hZ2).equal (hx2.mul hZ1), (hy1.mul hZ2).equal (hy2.mul hZ1)]
  have e1 : Q.x * Z1 * Z2 = R.x * Z2 * Z1 ↔ Q.x = R.x := by
    constructor
    · intro h; exact mul_right_cancel₀ (mul_ne_zero hz1 hz2) (by linear_combination h)
    · intro h; rw [h]; ring
  have e2 : Q.y * Z1 * Z2 = R.y * Z2 * Z1 ↔ Q.y = R.y := by
    constructor
    · intro h; exact mul_right_cancel₀ (mul_ne_zero hz1 hz2) (by linear_combination h)
    · intro h; rw [h]; ring
  rw [if_congr e1 rfl rfl, if_congr e2 rfl rfl]
  by_cases h : Q = R
  · rw [h, if_pos rfl, if_pos rfl, if_pos rfl]; rfl
  · rw [if_neg h]
    by_cases hx : Q.x = R.x
    · have : Q.y ≠ R.y := fun hy => h (EdPt.ext hx hy)
      rw [if_pos hx, if_neg this]; rfl
    · rw [if_neg hx, Nat.zero_and]

/-! ## Encodings -/

theorem affine_rep {p : Point} {Q : Pt25519} (hp : PRep p Q) : Repr (fromExtended p).X Q.x ∧ Repr (fromExtended p).Y Q.y := by
  obtain ⟨Z, hz, hx, hy, hZ, -⟩ := hp
  have hi := invert_val hZ
  exact ⟨(hx.mul hi).to (by field_simp), (hy.mul hi).to (by field_simp)⟩

theorem orLast_eq {y b : ℕ} (hy : y < 2 ^ 255) (hb : b < 2) : orLast (leBytes 32 y) (b <<< 7 % 256) = leBytes 32 (y + 2 ^ 255 * b) := by
  have hs : b <<< 7 % 256 = b * 128 := by
    rw [Nat.shiftLeft_eq]; omega
  rw [hs]
  unfold orLast
  apply List.ext_getElem
  · rw [List.length_set, leBytes_len, leBytes_len]
  · intro i h1 h2
    have hi : i < 32 := by rw [leBytes_len] at h2; exact h2
    rw [List.getElem_set, List.getD_eq_getElem _ _ (by rw [leBytes_len]; norm_num), leBytes_get (by norm_num : 31 < 32)]
    split
    · rename_i h
      subst h
      have h7 : y / 256 ^ 31 % 256 < 2 ^ 7 := by norm_num; omega
      rw [show b * 128 = b * 2 ^ 7 by norm_num, or_add h7, leBytes_get (by norm_num : 31 < 32)]
      norm_num at h7 ⊢
      omega
    · rename_i h
      rw [leBytes_get hi, leBytes_get hi]
      have hk : 2 ^ 255 * b = 256 ^ i * (256 * (2 ^ (247 - 8 * i) * b)) := by
        rw [show (256 : ℕ) ^ i = 2 ^ (8 * i) by rw [pow_mul]; norm_num, show (256 : ℕ) = 2 ^ 8 by norm_num, ← mul_assoc, ← mul_assoc, ← pow_add, ← pow_add]
        congr 2
        omega
      rw [hk, Nat.add_mul_div_left _ _ (by positivity), Nat.add_mul_mod_self_left]

theorem bytes_rep {p : Point} {Q : Pt25519} (hp : PRep p Q) : ptBytes p = some (encode Q) := by
  unfold ptBytes
  rw [hp.init]
  obtain ⟨hx, hy⟩ := affine_rep hp
  unfold fromExtended at hx hy
  simp only [if_true]
  rw [hy.bytes, hx.isNeg, orLast_eq (val_P _) (Nat.mod_lt _ (by norm_num))]
  rfl

/-! ## Decoding -/

theorem dden (y : Fp) : y ^ 2 * cD + 1 ≠ 0 := by
  have h := den_y y
  have hA : cA = -1 := rfl
  intro hc
  apply h
  linear_combination hA - hc

/-- The values of `x` that go with `y` on the curve. -/
theorem on_iff (x y : Fp) : cA * x ^ 2 + y ^ 2 = 1 + cD * x ^ 2 * y ^ 2 ↔ (y ^ 2 * cD + 1) * (x * x) = y ^ 2 - 1 := by
  have hA : cA = -1 := rfl
  constructor
  · intro h; linear_combination -h + x ^ 2 * hA
  · intro h; linear_combination -h + x ^ 2 * hA

/-- `SetBytes` decodes: the sign bit and the value of `y` are read off, and the point on the curve with that `y` and
parity of `x` is returned (`x = 0` for either sign bit); an error is returned iff there is no such point. -/
theorem setBytes_rep {b : List ℕ} (hb : ∀ c ∈ b, c < 256) (hl : b.length = 32) :
    (∀ Q : Pt25519, Q.y = ((leVal b % 2 ^ 255 : ℕ) : Fp) → (Q.x = 0 ∨ Q.x.val % 2 = leVal b / 2 ^ 255) →
      ∃ p, ptSetBytes b = some p ∧ PRep p Q) ∧
    ((¬ ∃ Q : Pt25519, Q.y = ((leVal b % 2 ^ 255 : ℕ) : Fp)) → ptSetBytes b = none) := by
  obtain ⟨e, he, hy⟩ := setBytes_repr hb hl
  unfold ptSetBytes
  rw [he]
  generalize ((leVal b % 2 ^ 255 : ℕ) : Fp) = y at *
  have hy2 := hy.sq
  have hu := (hy2.sub one_repr).to (show _ = y ^ 2 - 1 by ring)
  have hv := ((hy2.mul d_repr).add one_repr).to (show _ = y ^ 2 * cD + 1 by ring)
  obtain ⟨R, h1, h2, h3, h4, h5, -⟩ := sqrtRatio_spec hu hv
  have h5 := h5 (dden y)
  dsimp only
  generalize feSqrtRatio (feSub (feSquare e) feOne) (feAdd (feMul (feSquare e) feD) feOne) = r at *
  constructor
  · intro Q hQy hQx
    have hon : (y ^ 2 * cD + 1) * (Q.x * Q.x) = y ^ 2 - 1 := by rw [← hQy]; exact (on_iff _ _).1 Q.on
    have hf : r.2 = 1 := h3.2 ⟨Q.x, hon⟩
    rw [hf, if_pos rfl] at h5
    rw [hf, if_neg one_ne_zero]
    refine ⟨_, rfl, ?_⟩
    have hsq : R * R = Q.x * Q.x := mul_left_cancel₀ (dden y) (by rw [h5, hon])
    have hbit : b.getD 31 0 >>> 7 = leVal b / 2 ^ 255 := by
      have hs := leVal_slice hb 31 1 (by omega)
      have hlt := leVal_lt hb
      rw [hl] at hlt
      have e1 : ((b.drop 31).take 1) = [b.getD 31 0] := by
        rw [List.getD_eq_getElem _ _ (by omega), List.drop_eq_getElem_cons (by omega : 31 < b.length)]
        rfl
      rw [e1] at hs
      simp only [leVal, mul_zero, add_zero] at hs
      rw [hs, Nat.shiftRight_eq_div_pow]
      norm_num at hlt ⊢
      omega
    have hc : leVal b / 2 ^ 255 ≤ 1 := by
      have hlt := leVal_lt hb
      rw [hl] at hlt
      norm_num at hlt ⊢
      omega
    rw [hbit]
    have hsel := h1.neg.select h1 hc
    have hQ : (if leVal b / 2 ^ 255 = 1 then -R else R) = Q.x := by
      have h0 : (R - Q.x) * (R + Q.x) = 0 := by linear_combination hsq
      rcases hQx with hz | hpar
      · have : R = 0 := by
          rw [hz, mul_zero] at hsq
          exact mul_self_eq_zero.1 hsq
        rw [hz, this, neg_zero, ite_self]
      · have hR0 : ∀ S : Fp, S ≠ 0 → (-S).val % 2 ≠ S.val % 2 := by
          intro S hS
          haveI : NeZero S := ⟨hS⟩
          rw [ZMod.val_neg_of_ne_zero]
          have g1 := P_odd
          have g2 := ZMod.val_lt S
          omega
        rcases mul_eq_zero.1 h0 with h6 | h6
        · have e : R = Q.x := by linear_combination h6
          rw [if_neg, e]
          rw [← hpar, ← e, h2]
          norm_num
        · have e : Q.x = -R := by linear_combination h6
          by_cases hz : R = 0
          · rw [e, hz, neg_zero, ite_self]
          · have h7 := hR0 R hz
            rw [← e, hpar, h2] at h7
            rw [if_pos (by omega), e]
    have hx := hsel.to hQ
    exact ⟨1, one_ne_zero, hx.to (by ring), hy.to (by rw [← hQy]; ring), one_repr, (hx.mul hy).to (by rw [← hQy]; ring)⟩
  · intro hne
    have hf : r.2 ≠ 1 := by
      intro h
      obtain ⟨t, ht⟩ := h3.1 h
      exact hne ⟨⟨t, y, (on_iff t y).2 ht⟩, rfl⟩
    rw [if_pos (h4.resolve_right hf)]

theorem encode_lt (Q : Pt25519) : ∀ c ∈ encode Q, c < 256 := by
  intro c hc
  simp only [encode, encodeXY, leBytes, List.mem_map] at hc
  obtain ⟨i, -, rfl⟩ := hc
  exact Nat.mod_lt _ (by norm_num)

theorem encode_val (Q : Pt25519) : leVal (encode Q) = Q.y.val + 2 ^ 255 * (Q.x.val % 2) := encodeXY_val (val_P _)

theorem decode_encode (Q : Pt25519) : ∃ p, ptSetBytes (encode Q) = some p ∧ PRep p Q := by
  have hlt := val_P Q.y
  refine (setBytes_rep (encode_lt Q) (by simp [encode, encodeXY, leBytes])).1 Q ?_ (Or.inr ?_)
  · rw [encode_val, Nat.add_mul_mod_self_left, Nat.mod_eq_of_lt hlt, ZMod.natCast_zmod_val]
  · rw [encode_val, Nat.add_mul_div_left _ _ (by positivity), Nat.div_eq_of_lt hlt, zero_add]

theorem identity_rep : PRep identity 0 := by
  have e : encode 0 = [1, 0, 0, 0, 0, 0, 0, 0, 0, 0, 0, 0, 0, 0, 0, 0, 0, 0, 0, 0, 0, 0, 0, 0, 0, 0, 0, 0, 0, 0, 0, 0] := by
    have h1 : (0 : Pt25519).x.val = 0 := ZMod.val_zero
    have h2 : (0 : Pt25519).y.val = 1 := by
      show (1 : Fp).val = 1
      decide +kernel
    unfold encode
    rw [h1, h2]
    decide +kernel
  obtain ⟨p, h1, h2⟩ := decode_encode 0
  unfold identity
  rw [← e, h1]
  exact h2

theorem generator_rep : PRep generator B := by
  have e : encode B = [0x58, 0x66, 0x66, 0x66, 0x66, 0x66, 0x66, 0x66, 0x66, 0x66, 0x66, 0x66, 0x66, 0x66, 0x66, 0x66,
    0x66, 0x66, 0x66, 0x66, 0x66, 0x66, 0x66, 0x66, 0x66, 0x66, 0x66, 0x66, 0x66, 0x66, 0x66, 0x66] := by
    have h1 : B.x.val = bxN := by
      show ((bxN : ℕ) : Fp).val = bxN
      rw [ZMod.val_natCast]
      decide +kernel
    have h2 : B.y.val = byN := by
      show ((byN : ℕ) : Fp).val = byN
      rw [ZMod.val_natCast]
      decide +kernel
    unfold encode
    rw [h1, h2]
    decide +kernel
  obtain ⟨p, h1, h2⟩ := decode_encode B
  unfold generator
  rw [← e, h1]
  exact h2

end Verif.EdHost
