import Verif.EdHost.Digits
import Verif.EdHost.Point

/-! # Lookup tables and scalar multiplications -/

namespace Verif.EdHost
open Verif.Ed

/-! ## Tables -/

theorem projTab_rep {q : Point} {Q : Pt25519} (h : PRep q Q) (i : ℕ) : CRep (projTab q i) ((i + 1) • Q) := by
  induction i with
  | zero => rw [zero_add, one_smul]; exact cachedFromP3_rep h
  | succ i ih =>
    have := cachedFromP3_rep (fromP1_rep (p1Add_rep h ih))
    rwa [← succ_nsmul'] at this

theorem affTab_rep {q : Point} {Q : Pt25519} (h : PRep q Q) (i : ℕ) : ACRep (affTab q i) ((i + 1) • Q) := by
  induction i with
  | zero => rw [zero_add, one_smul]; exact acachedFromP3_rep h
  | succ i ih =>
    have := acachedFromP3_rep (fromP1_rep (p1AddAffine_rep h ih))
    rwa [← succ_nsmul'] at this

theorem naf5Tab_rep {q q2 : Point} {Q : Pt25519} (h : PRep q Q) (h2 : PRep q2 (Q + Q)) (i : ℕ) : CRep (naf5Tab q q2 i) ((2 * i + 1) • Q) := by
  induction i with
  | zero => rw [mul_zero, zero_add, one_smul]; exact cachedFromP3_rep h
  | succ i ih =>
    have := cachedFromP3_rep (fromP1_rep (p1Add_rep h2 ih))
    rwa [← two_nsmul, ← add_nsmul, show 2 + (2 * i + 1) = 2 * (i + 1) + 1 by ring] at this

theorem naf8Tab_rep {q q2 : Point} {Q : Pt25519} (h : PRep q Q) (h2 : PRep q2 (Q + Q)) (i : ℕ) : ACRep (naf8Tab q q2 i) ((2 * i + 1) • Q) := by
  induction i with
  | zero => rw [mul_zero, zero_add, one_smul]; exact acachedFromP3_rep h
  | succ i ih =>
    have := acachedFromP3_rep (fromP1_rep (p1AddAffine_rep h2 ih))
    rwa [← two_nsmul, ← add_nsmul, show 2 + (2 * i + 1) = 2 * (i + 1) + 1 by ring] at this

theorem cachedSelect_rep {a b : Cached} {Q R : Pt25519} (ha : CRep a Q) (hb : CRep b R) (p : Prop) [Decidable p] :
    CRep (cachedSelect a b (if p then 1 else 0)) (if p then Q else R) := by
  obtain ⟨Z, z, a1, a2, a3, a4⟩ := ha
  obtain ⟨Z', z', b1, b2, b3, b4⟩ := hb
  unfold cachedSelect
  by_cases hp : p
  · rw [if_pos hp, if_pos hp, select_one a1.1.w, select_one a2.1.w, select_one a3.1.w, select_one a4.1.w]
    exact ⟨Z, z, a1, a2, a3, a4⟩
  · rw [if_neg hp, if_neg hp, select_zero b1.1.w, select_zero b2.1.w, select_zero b3.1.w, select_zero b4.1.w]
    exact ⟨Z', z', b1, b2, b3, b4⟩

theorem acachedSelect_rep {a b : ACached} {Q R : Pt25519} (ha : ACRep a Q) (hb : ACRep b R) (p : Prop) [Decidable p] :
    ACRep (acachedSelect a b (if p then 1 else 0)) (if p then Q else R) := by
  obtain ⟨a1, a2, a3⟩ := ha
  obtain ⟨b1, b2, b3⟩ := hb
  unfold acachedSelect
  by_cases hp : p
  · rw [if_pos hp, if_pos hp, select_one a1.1.w, select_one a2.1.w, select_one a3.1.w]
    exact ⟨a1, a2, a3⟩
  · rw [if_neg hp, if_neg hp, select_zero b1.1.w, select_zero b2.1.w, select_zero b3.1.w]
    exact ⟨b1, b2, b3⟩

theorem cachedZero_rep : CRep cachedZero 0 := by
  refine ⟨1, one_ne_zero, one_repr.to ?_, one_repr.to ?_, one_repr, zero_repr.to ?_⟩
  · show (1 : Fp) = 1 * (1 + 0); ring
  · show (1 : Fp) = 1 * (1 - 0); ring
  · show (0 : Fp) = 1 * (2 * cD * 0 * 1); ring

theorem acachedZero_rep : ACRep acachedZero 0 := by
  refine ⟨one_repr.to ?_, one_repr.to ?_, zero_repr.to ?_⟩
  · show (1 : Fp) = 1 + 0; ring
  · show (1 : Fp) = 1 - 0; ring
  · show (0 : Fp) = 2 * cD * 0 * 1; ring

theorem cachedCondNeg_rep {a : Cached} {Q : Pt25519} (ha : CRep a Q) (p : Prop) [Decidable p] :
    CRep (cachedCondNeg a (if p then 1 else 0)) (if p then -Q else Q) := by
  obtain ⟨Z, z, a1, a2, a3, a4⟩ := ha
  unfold cachedCondNeg
  dsimp only
  by_cases hp : p
  · rw [if_pos hp, if_pos hp, swap_one a1.1.w a2.1.w, select_one a4.neg.1.w]
    refine ⟨Z, z, a2.to ?_, a1.to ?_, a3, a4.neg.to ?_⟩
    · show (Q.y - Q.x) * Z = (Q.y + -Q.x) * Z; ring
    · show (Q.y + Q.x) * Z = (Q.y - -Q.x) * Z; ring
    · show -(2 * cD * Q.x * Q.y * Z) = 2 * cD * -Q.x * Q.y * Z; ring
  · rw [if_neg hp, if_neg hp, swap_zero, select_zero a4.1.w]
    exact ⟨Z, z, a1, a2, a3, a4⟩

theorem acachedCondNeg_rep {a : ACached} {Q : Pt25519} (ha : ACRep a Q) (p : Prop) [Decidable p] :
    ACRep (acachedCondNeg a (if p then 1 else 0)) (if p then -Q else Q) := by
  obtain ⟨a1, a2, a4⟩ := ha
  unfold acachedCondNeg
  dsimp only
  by_cases hp : p
  · rw [if_pos hp, if_pos hp, swap_one a1.1.w a2.1.w, select_one a4.neg.1.w]
    refine ⟨a2.to ?_, a1.to ?_, a4.neg.to ?_⟩
    · show Q.y - Q.x = Q.y + -Q.x; ring
    · show Q.y + Q.x = Q.y - -Q.x; ring
    · show -(2 * cD * Q.x * Q.y) = 2 * cD * -Q.x * Q.y; ring
  · rw [if_neg hp, if_neg hp, swap_zero, select_zero a4.1.w]
    exact ⟨a1, a2, a4⟩

theorem xabs_eq {x : ℤ} (h : -8 ≤ x ∧ x ≤ 8) : xabs x = x.natAbs ∧ (u8 (xmask x) &&& 1) = if x < 0 then 1 else 0 := by
  obtain ⟨h1, h2⟩ := h
  interval_cases x <;> decide

theorem neg_abs_smul (x : ℤ) (Q : Pt25519) : (if x < 0 then -(x.natAbs • Q) else x.natAbs • Q) = x • Q := by
  by_cases h : x < 0
  · rw [if_pos h, ← natCast_zsmul, ← neg_zsmul]
    congr 1
    omega
  · rw [if_neg h, ← natCast_zsmul]
    congr 1
    omega

theorem projSelect_rep {t : ℕ → Cached} {Q : Pt25519} (ht : ∀ j < 8, CRep (t j) ((j + 1) • Q)) {x : ℤ} (h : -8 ≤ x ∧ x ≤ 8) :
    CRep (projSelect t x) (x • Q) := by
  obtain ⟨e1, e2⟩ := xabs_eq h
  unfold projSelect
  dsimp only
  rw [e1, e2]
  have key : ∀ n ≤ 8, CRep ((List.range n).foldl (fun dest j => cachedSelect (t j) dest (byteEq x.natAbs (j + 1))) cachedZero)
      (if x.natAbs ≤ n then x.natAbs • Q else 0) := by
    intro n
    induction n with
    | zero =>
      intro _
      have : (if x.natAbs ≤ 0 then x.natAbs • Q else 0) = 0 := by
        split
        · rename_i h0
          rw [Nat.le_zero.1 h0, zero_smul]
        · rfl
      rw [this]
      exact cachedZero_rep
    | succ n ih =>
      intro hn
      rw [List.range_succ, List.foldl_append, List.foldl_cons, List.foldl_nil]
      have := cachedSelect_rep (ht n (by omega)) (ih (by omega)) (x.natAbs = n + 1)
      refine Eq.mp (congrArg _ ?_) this
      by_cases hx : x.natAbs = n + 1
      · rw [if_pos hx, if_pos (by omega : x.natAbs ≤ n + 1), hx]
      · rw [if_neg hx]
        by_cases hx2 : x.natAbs ≤ n
        · rw [if_pos hx2, if_pos (by omega : x.natAbs ≤ n + 1)]
        · rw [if_neg hx2, if_neg (by omega : ¬ x.natAbs ≤ n + 1)]
  have k8 := key 8 (le_refl _)
  rw [if_pos (by omega)] at k8
  rw [← neg_abs_smul]
  exact cachedCondNeg_rep k8 (x < 0)

theorem affSelect_rep {t : ℕ → ACached} {Q : Pt25519} (ht : ∀ j < 8, ACRep (t j) ((j + 1) • Q)) {x : ℤ} (h : -8 ≤ x ∧ x ≤ 8) :
    ACRep (affSelect t x) (x • Q) := by
  obtain ⟨e1, e2⟩ := xabs_eq h
  unfold affSelect
  dsimp only
  rw [e1, e2]
  have key : ∀ n ≤ 8, ACRep ((List.range n).foldl (fun dest j => acachedSelect (t j) dest (byteEq x.natAbs (j + 1))) acachedZero)
      (if x.natAbs ≤ n then x.natAbs • Q else 0) := by
    intro n
    induction n with
    | zero =>
      intro _
      have : (if x.natAbs ≤ 0 then x.natAbs • Q else 0) = 0 := by
        split
        · rename_i h0
          rw [Nat.le_zero.1 h0, zero_smul]
        · rfl
      rw [this]
      exact acachedZero_rep
    | succ n ih =>
      intro hn
      rw [List.range_succ, List.foldl_append, List.foldl_cons, List.foldl_nil]
      have := acachedSelect_rep (ht n (by omega)) (ih (by omega)) (x.natAbs = n + 1)
      refine Eq.mp (congrArg _ ?_) this
      by_cases hx : x.natAbs = n + 1
      · rw [if_pos hx, if_pos (by omega : x.natAbs ≤ n + 1), hx]
      · rw [if_neg hx]
        by_cases hx2 : x.natAbs ≤ n
        · rw [if_pos hx2, if_pos (by omega : x.natAbs ≤ n + 1)]
        · rw [if_neg hx2, if_neg (by omega : ¬ x.natAbs ≤ n + 1)]
  have k8 := key 8 (le_refl _)
  rw [if_pos (by omega)] at k8
  rw [← neg_abs_smul]
  exact acachedCondNeg_rep k8 (x < 0)

/-- `NafDigit`s are looked up within the table. -/
theorem nafSelect_eq {α : Type} (t : ℕ → α) (n w : ℕ) (hn : 2 * n = 2 ^ (w - 1)) {d : ℤ} (h : NafDigit w d) (hd : 0 < d) :
    ∃ i : ℕ, nafSelect n t d = some (t i) ∧ (2 * i + 1 : ℕ) = d := by
  rcases h with h | ⟨h1, h2, h3⟩
  · omega
  · have hz : (2 : ℤ) ^ (w - 1) = 2 * n := by exact_mod_cast hn.symm
    rw [hz] at h3
    unfold nafSelect
    dsimp only
    have et : d.tdiv 2 = d / 2 := Int.tdiv_eq_ediv_of_nonneg (by omega)
    rw [et, if_pos (by omega)]
    exact ⟨_, rfl, by omega⟩

/-! ## The multiplications -/

theorem four_rep {t : P2} {Q : Pt25519} (h : P2Rep t Q) : P1Rep (four t) ((16 : ℤ) • Q) := by
  have h1 := p1Double_rep h
  have h2 := p1Double_rep (p2FromP1_rep h1)
  have h3 := p1Double_rep (p2FromP1_rep h2)
  have h4 := p1Double_rep (p2FromP1_rep h3)
  have e : Q + Q + (Q + Q) + (Q + Q + (Q + Q)) + (Q + Q + (Q + Q) + (Q + Q + (Q + Q))) = (16 : ℤ) • Q := by
    rw [← two_zsmul, ← two_zsmul, ← two_zsmul, ← two_zsmul, smul_smul, smul_smul, smul_smul]; norm_num
  rw [e] at h4
  exact h4

theorem bval_drop (b : ℤ) (d : List ℤ) (i : ℕ) (h : i < d.length) : bval b (d.drop i) = dg d i + b * bval b (d.drop (i + 1)) := by
  rw [List.drop_eq_getElem_cons h, bval]
  unfold dg
  rw [List.getD_eq_getElem _ _ h]

theorem multLoop_succ (t : ℕ → Cached) (d : List ℤ) (n : ℕ) (t1 : P1xP1) : multLoop t d (n + 1) t1 = multLoop t d n (multStep t (dg d n) t1) := by
  unfold multLoop
  rw [List.range_succ, List.reverse_append, List.foldl_append, List.reverse_singleton, List.foldl_cons, List.foldl_nil]

theorem multLoop_rep {t : ℕ → Cached} {Q : Pt25519} (ht : ∀ j < 8, CRep (t j) ((j + 1) • Q)) {d : List ℤ} (hl : d.length = 64)
    (hd : ∀ j, -8 ≤ dg d j ∧ dg d j ≤ 8) : ∀ (n : ℕ) (t1 : P1xP1), n ≤ 63 → P1Rep t1 (bval 16 (d.drop n) • Q) →
      P1Rep (multLoop t d n t1) (bval 16 d • Q) := by
  intro n
  induction n with
  | zero => intro t1 _ h; rw [List.drop_zero] at h; exact h
  | succ n ih =>
    intro t1 hn h
    rw [multLoop_succ]
    refine ih _ (by omega) ?_
    have := p1Add_rep (fromP1_rep (four_rep (p2FromP1_rep h))) (projSelect_rep ht (hd n))
    rw [smul_smul, ← add_smul] at this
    rw [bval_drop 16 d n (by omega), add_comm]
    exact this

/-- A scalar in memory: 32 bytes, below `2^255`. -/
def Sc (x : List ℕ) : Prop := (∀ b ∈ x, b < 256) ∧ x.length = 32 ∧ leVal x < 2 ^ 255

theorem scalarMult_rep {x : List ℕ} {q : Point} {Q : Pt25519} (hx : Sc x) (hq : PRep q Q) :
    ∃ r, scalarMult x q = some r ∧ PRep r (leVal x • Q) := by
  obtain ⟨h1, h2, h3⟩ := hx
  obtain ⟨d, e, dl, dv, db⟩ := signedRadix16_spec h1 h2 ((top_lt h1 h2).2 h3)
  unfold scalarMult
  rw [if_pos hq.init, e, Option.map_some]
  refine ⟨_, rfl, ?_⟩
  have ht : ∀ j < 8, CRep (projTab q j) ((j + 1) • Q) := fun j _ => projTab_rep hq j
  have := multLoop_rep ht dl db 63 (p1Add identity (projSelect (projTab q) (dg d 63))) (le_refl _) (by
    have h0 := p1Add_rep identity_rep (projSelect_rep ht (db 63))
    rw [zero_add] at h0
    rw [bval_drop 16 d 63 (by omega), List.drop_eq_nil_of_le (by omega), bval, mul_zero, add_zero]
    exact h0)
  rw [dv, natCast_zsmul] at this
  exact fromP1_rep this

theorem times256_rep {p : Point} {Q : Pt25519} (h : PRep p Q) : ∃ r, times256 p = some r ∧ PRep r ((256 : ℤ) • Q) := by
  have key : ∀ n, ∃ r, (List.range n).foldl (fun (p : Option Point) _ => p.bind fun p => ptAdd p p) (some p) = some r ∧ PRep r (((2 : ℤ) ^ n) • Q) := by
    intro n
    induction n with
    | zero => exact ⟨p, rfl, by rw [pow_zero, one_smul]; exact h⟩
    | succ n ih =>
      obtain ⟨r, e, hr⟩ := ih
      obtain ⟨r', e', hr'⟩ := add_rep hr hr
      rw [List.range_succ, List.foldl_append, List.foldl_cons, List.foldl_nil, e]
      refine ⟨r', e', ?_⟩
      rwa [← two_zsmul, smul_smul, ← pow_succ'] at hr'
  obtain ⟨r, e, hr⟩ := key 8
  rw [show (2 : ℤ) ^ 8 = 256 by norm_num] at hr
  exact ⟨r, e, hr⟩

theorem basePt_rep (i : ℕ) : ∃ r, basePt i = some r ∧ PRep r (((256 : ℤ) ^ i) • B) := by
  induction i with
  | zero => exact ⟨_, rfl, by rw [pow_zero, one_smul]; exact generator_rep⟩
  | succ i ih =>
    obtain ⟨r, e, hr⟩ := ih
    obtain ⟨r', e', hr'⟩ := times256_rep hr
    refine ⟨r', by rw [basePt, e]; exact e', ?_⟩
    rwa [smul_smul, ← pow_succ'] at hr'

theorem baseStep_rep {d : List ℤ} (hd : ∀ j, -8 ≤ dg d j ∧ dg d j ≤ 8) {v : Point} {V : Pt25519} (hv : PRep v V) (i : ℕ) :
    ∃ r, baseStep d (some v) i = some r ∧ PRep r (V + (dg d i * 256 ^ (i / 2)) • B) := by
  obtain ⟨p, e, hp⟩ := basePt_rep (i / 2)
  unfold baseStep baseTab
  rw [e]
  refine ⟨_, rfl, ?_⟩
  have ht := fun j (_ : j < 8) => affTab_rep hp j
  have := fromP1_rep (p1AddAffine_rep hv (affSelect_rep ht (hd i)))
  rwa [smul_smul] at this

theorem baseFold_rep {d : List ℤ} (hd : ∀ j, -8 ≤ dg d j ∧ dg d j ≤ 8) (c : ℕ) (hc : c ≤ 1) (n : ℕ) {v : Point} {V : Pt25519} (hv : PRep v V) :
    ∃ r, ((List.range n).map fun i => 2 * i + c).foldl (baseStep d) (some v) = some r ∧
      PRep r (V + (∑ i ∈ Finset.range n, dg d (2 * i + c) * 256 ^ i) • B) := by
  induction n with
  | zero => exact ⟨v, rfl, by rw [Finset.sum_range_zero, zero_smul, add_zero]; exact hv⟩
  | succ n ih =>
    obtain ⟨r, e, hr⟩ := ih
    obtain ⟨r', e', hr'⟩ := baseStep_rep hd hr (2 * n + c)
    rw [List.range_succ, List.map_append, List.foldl_append, e]
    refine ⟨r', e', ?_⟩
    rwa [add_assoc, ← add_smul, show (2 * n + c) / 2 = n by omega, ← Finset.sum_range_succ (fun i => dg d (2 * i + c) * 256 ^ i)] at hr'

theorem bval_pairs (n : ℕ) : ∀ d : List ℤ, d.length = 2 * n →
    bval 16 d = ∑ i ∈ Finset.range n, dg d (2 * i) * 256 ^ i + 16 * ∑ i ∈ Finset.range n, dg d (2 * i + 1) * 256 ^ i := by
  induction n with
  | zero =>
    intro d hd
    have : d = [] := List.length_eq_zero_iff.1 (by omega)
    rw [this]
    simp [bval]
  | succ n ih =>
    intro d hd
    match d, hd with
    | x :: y :: d, hd =>
      have := ih d (by simp only [List.length_cons] at hd; omega)
      rw [bval, bval, this, Finset.sum_range_succ', Finset.sum_range_succ']
      have e0 : ∀ i, dg (x :: y :: d) (2 * (i + 1)) = dg d (2 * i) := fun i => by rw [show 2 * (i + 1) = 2 * i + 1 + 1 by ring]; simp [dg]
      have e1 : ∀ i, dg (x :: y :: d) (2 * (i + 1) + 1) = dg d (2 * i + 1) := fun i => by rw [show 2 * (i + 1) + 1 = 2 * i + 1 + 1 + 1 by ring]; simp [dg]
      simp only [e0, e1, pow_succ]
      rw [show dg (x :: y :: d) (2 * 0) = x from rfl, show dg (x :: y :: d) (2 * 0 + 1) = y from rfl]
      simp only [← mul_assoc, ← Finset.sum_mul, pow_zero]
      ring

theorem scalarBaseMult_rep {x : List ℕ} (hx : Sc x) : ∃ r, scalarBaseMult x = some r ∧ PRep r (leVal x • B) := by
  obtain ⟨h1, h2, h3⟩ := hx
  obtain ⟨d, e, dl, dv, db⟩ := signedRadix16_spec h1 h2 ((top_lt h1 h2).2 h3)
  unfold scalarBaseMult
  rw [e]
  obtain ⟨r1, e1, q1⟩ := baseFold_rep db 1 (le_refl _) 32 identity_rep
  have q2 := fromP1_rep (four_rep (p2FromP3_rep q1))
  obtain ⟨r3, e3, q3⟩ := baseFold_rep db 0 (by omega) 32 q2
  refine ⟨r3, ?_, ?_⟩
  · simp only [Option.bind_some]
    rw [e1, Option.map_some]
    simpa only [add_zero] using e3
  · rw [zero_add, smul_smul, ← add_smul] at q3
    have hv := bval_pairs 32 d (by omega)
    rw [dv] at hv
    rw [← natCast_zsmul, hv, add_comm]
    exact q3

theorem vtA_rep {t : ℕ → Cached} {A : Pt25519} (ht : ∀ i, CRep (t i) ((2 * i + 1) • A)) {d : ℤ} (hd : NafDigit 5 d) {t1 : P1xP1} {V : Pt25519}
    (h : P1Rep t1 V) : ∃ r, vtA t t1 d = some r ∧ P1Rep r (V + d • A) := by
  unfold vtA
  by_cases h1 : d > 0
  · rw [if_pos h1]
    obtain ⟨i, e, hi⟩ := nafSelect_eq t 8 5 (by norm_num) hd h1
    rw [e]
    refine ⟨_, rfl, ?_⟩
    have := p1Add_rep (fromP1_rep h) (ht i)
    rwa [← natCast_zsmul, hi] at this
  · rw [if_neg h1]
    by_cases h2 : d < 0
    · rw [if_pos h2]
      have hd' : NafDigit 5 (-d) := by
        rcases hd with hd | ⟨q1, q2, q3⟩
        · exact Or.inl (by omega)
        · exact Or.inr ⟨by omega, by omega, by omega⟩
      have e8 : i8 (-d) = -d := by
        rcases hd with hd | ⟨q1, q2, q3⟩
        · omega
        · norm_num at q2 q3; exact i8_eq (by omega)
      rw [e8]
      obtain ⟨i, e, hi⟩ := nafSelect_eq t 8 5 (by norm_num) hd' (by omega)
      rw [e]
      refine ⟨_, rfl, ?_⟩
      have := p1Sub_rep (fromP1_rep h) (ht i)
      rwa [← natCast_zsmul, hi, neg_smul, sub_neg_eq_add] at this
    · rw [if_neg h2]
      have : d = 0 := by omega
      exact ⟨t1, rfl, by rw [this, zero_smul, add_zero]; exact h⟩

theorem vtB_rep {t : ℕ → ACached} {A : Pt25519} (ht : ∀ i, ACRep (t i) ((2 * i + 1) • A)) {d : ℤ} (hd : NafDigit 8 d) {t1 : P1xP1} {V : Pt25519}
    (h : P1Rep t1 V) : ∃ r, vtB t t1 d = some r ∧ P1Rep r (V + d • A) := by
  unfold vtB
  by_cases h1 : d > 0
  · rw [if_pos h1]
    obtain ⟨i, e, hi⟩ := nafSelect_eq t 64 8 (by norm_num) hd h1
    rw [e]
    refine ⟨_, rfl, ?_⟩
    have := p1AddAffine_rep (fromP1_rep h) (ht i)
    rwa [← natCast_zsmul, hi] at this
  · rw [if_neg h1]
    by_cases h2 : d < 0
    · rw [if_pos h2]
      have hd' : NafDigit 8 (-d) := by
        rcases hd with hd | ⟨q1, q2, q3⟩
        · exact Or.inl (by omega)
        · exact Or.inr ⟨by omega, by omega, by omega⟩
      have e8 : i8 (-d) = -d := by
        rcases hd with hd | ⟨q1, q2, q3⟩
        · omega
        · norm_num at q2 q3; exact i8_eq (by omega)
      rw [e8]
      obtain ⟨i, e, hi⟩ := nafSelect_eq t 64 8 (by norm_num) hd' (by omega)
      rw [e]
      refine ⟨_, rfl, ?_⟩
      have := p1SubAffine_rep (fromP1_rep h) (ht i)
      rwa [← natCast_zsmul, hi, neg_smul, sub_neg_eq_add] at this
    · rw [if_neg h2]
      have : d = 0 := by omega
      exact ⟨t1, rfl, by rw [this, zero_smul, add_zero]; exact h⟩

theorem vtLoop_rep {ta : ℕ → Cached} {tb : ℕ → ACached} {A C : Pt25519} (hta : ∀ i, CRep (ta i) ((2 * i + 1) • A))
    (htb : ∀ i, ACRep (tb i) ((2 * i + 1) • C)) {a b : List ℤ} (la : a.length = 256) (lb : b.length = 256)
    (ha : ∀ j, NafDigit 5 (dg a j)) (hb : ∀ j, NafDigit 8 (dg b j)) :
    ∀ (n : ℕ) (t2 : P2), n ≤ 256 → P2Rep t2 (bval 2 (a.drop n) • A + bval 2 (b.drop n) • C) →
      ∃ r, vtLoop ta tb a b n t2 = some r ∧ P2Rep r (bval 2 a • A + bval 2 b • C) := by
  intro n
  induction n with
  | zero => intro t2 _ h; rw [List.drop_zero, List.drop_zero] at h; exact ⟨t2, rfl, h⟩
  | succ n ih =>
    intro t2 hn h
    obtain ⟨r1, e1, q1⟩ := vtA_rep hta (ha n) (p1Double_rep h)
    obtain ⟨r2, e2, q2⟩ := vtB_rep htb (hb n) q1
    have q3 := p2FromP1_rep q2
    obtain ⟨r, e, q⟩ := ih (p2FromP1 r2) (by omega) (by
      convert q3 using 1
      rw [bval_drop 2 a n (by omega), bval_drop 2 b n (by omega), add_smul, add_smul, mul_smul, mul_smul, two_zsmul, two_zsmul]
      abel)
    refine ⟨r, ?_, q⟩
    rw [vtLoop, e1, Option.bind_some, e2, Option.bind_some]
    exact e

theorem p2Zero_rep : P2Rep p2Zero 0 := by
  refine ⟨1, one_ne_zero, zero_repr.to ?_, one_repr.to ?_, one_repr⟩
  · show (0 : Fp) = 0 * 1; ring
  · show (1 : Fp) = 1 * 1; ring

theorem varTime_rep {a b : List ℕ} {A : Point} {Q : Pt25519} (ha : Sc a) (hb : Sc b) (hA : PRep A Q) :
    ∃ r, varTime a A b = some r ∧ PRep r (leVal a • Q + leVal b • B) := by
  obtain ⟨a1, a2, a3⟩ := ha
  obtain ⟨b1, b2, b3⟩ := hb
  obtain ⟨da, ea, la, va, na⟩ := naf_spec a1 a2 a3 (w := 5) (by norm_num)
  obtain ⟨db, eb, lb, vb, nb⟩ := naf_spec b1 b2 b3 (w := 8) (by norm_num)
  obtain ⟨g2, eg, hg⟩ := add_rep generator_rep generator_rep
  obtain ⟨q2, eq, hq⟩ := add_rep hA hA
  unfold varTime
  rw [if_pos hA.init, eg, eq, ea, eb]
  obtain ⟨r, er, hr⟩ := vtLoop_rep (naf5Tab_rep hA hq) (naf8Tab_rep generator_rep hg) la lb na nb 256 p2Zero (le_refl _) (by
    rw [List.drop_eq_nil_of_le (by omega), List.drop_eq_nil_of_le (by omega), bval, zero_smul, zero_smul, add_zero]
    exact p2Zero_rep)
  refine ⟨fromP2 r, ?_, ?_⟩
  · simp only [Option.bind_some]
    rw [er, Option.map_some]
  · rw [va, vb, natCast_zsmul, natCast_zsmul] at hr
    exact fromP2_rep hr

end Verif.EdHost
