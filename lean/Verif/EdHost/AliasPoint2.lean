import Verif.EdHost.AliasPoint

/-! # The pointer versions of the remaining point methods -/

namespace Verif.EdHost.Alias
open Verif.EdHost Heap

theorem goPtSet_upd {h : Heap} (v u : ℕ) : Upd h (goPtSet v u h) v (Pt.list (ptAt h u)) := by
  have u1 : Upd h _ v [(ptAt h u).x] := set_upd h v rfl
  have u2 : Upd h _ v [(ptAt h u).x, (ptAt h u).y] := u1.comp (set_upd _ (v + 1) rfl)
  have u3 : Upd h _ v [(ptAt h u).x, (ptAt h u).y, (ptAt h u).z] := u2.comp (set_upd _ (v + 2) rfl)
  exact u3.comp (set_upd _ (v + 3) rfl)

theorem goPtNeg_upd {h : Heap} (v p : ℕ) (g : Glob h) (hg : globals ≤ v) (hp : p + 4 ≤ h.next) (hd : v = p ∨ p + 4 ≤ v ∨ v + 4 ≤ p) :
    (ptNeg (ptAt h p) = none ∧ goPtNeg v p h = none) ∨
      ∃ R h', ptNeg (ptAt h p) = some R ∧ goPtNeg v p h = some h' ∧ Upd h h' v (Pt.list R) := by
  unfold goPtNeg ptNeg
  simp only [goInit_eq]
  have gl := g.le
  have hz : pZero < globals := by decide
  by_cases hi : initialized (ptAt h p) = true
  · right
    simp only [hi, if_true]
    refine ⟨_, _, rfl, rfl, ?_⟩
    have u1 : Upd h _ v [feNeg (ptAt h p).x] := negU v rfl g.zero rfl
    have u2 : Upd h _ v [feNeg (ptAt h p).x, (ptAt h p).y] := u1.comp (setU (v + 1) (u1.read (p := p + 1) (by omega) (by simp; omega) rfl))
    have u3 : Upd h _ v [feNeg (ptAt h p).x, (ptAt h p).y, (ptAt h p).z] :=
      u2.comp (setU (v + 2) (u2.read (p := p + 2) (by omega) (by simp; omega) rfl))
    exact u3.comp (negU (v + 3) (u3.read (p := p + 3) (by omega) (by simp; omega) rfl) (u3.read (by omega) (by simp; omega) g.zero) rfl)
  · left
    simp only [hi, Bool.false_eq_true, if_false, and_self]

theorem goFromExtended_upd {h : Heap} (p p1 : ℕ) (hp : p1 + 4 ≤ h.next) (hd : p1 + 4 ≤ p ∨ p + 2 ≤ p1) (hp' : p + 2 ≤ h.next) :
    Upd h (goFromExtended p p1 h) p [(fromExtended (ptAt h p1)).X, (fromExtended (ptAt h p1)).Y] := by
  obtain ⟨o, ho⟩ : ∃ o, o = feZero := ⟨_, rfl⟩
  have s0 : St h _ h.next [o] := ho ▸ St.start h 1
  have n0 : h.next + 1 ≤ _ := s0.next
  obtain ⟨a1, q1⟩ : ∃ e, e = feInvert (ptAt h p1).z := ⟨_, rfl⟩
  have s1 : St h _ h.next [a1] := s0.call0 (goInvert_upd h.next (z := p1 + 2) (by omega) (s0.ext _ (by omega)) q1) (Nat.le_of_ble_eq_true rfl)
  have n1 : h.next + 1 ≤ _ := s1.next
  refine s1.ret ?_
  have g0 := s1.get0 (Nat.le_of_ble_eq_true rfl)
  simp only [fromExtended, ← q1]
  have u1 : Upd _ _ p [feMul (ptAt h p1).x a1] := mulU p (s1.ext p1 (by omega)) g0 rfl
  exact u1.comp (mulU (p + 1) (u1.read (by omega) (by simp; omega) (s1.ext (p1 + 1) (by omega))) (u1.read (by omega) (by simp; omega) g0) rfl)

theorem goPtBytes_spec {h : Heap} (v : ℕ) (hv : v + 4 ≤ h.next) :
    (ptBytes (ptAt h v) = none ∧ goPtBytes v h = none) ∨
      ∃ h' b, ptBytes (ptAt h v) = some b ∧ goPtBytes v h = some (h', b) ∧ Same h h' := by
  unfold goPtBytes ptBytes
  simp only [goInit_eq]
  by_cases hi : initialized (ptAt h v) = true
  · right
    simp only [hi, if_true]
    obtain ⟨o, ho⟩ : ∃ o, o = feZero := ⟨_, rfl⟩
    have s0 : St h _ h.next [o, o, o] := ho ▸ St.start h 3
    have n0 : h.next + 3 ≤ _ := s0.next
    obtain ⟨a1, q1⟩ : ∃ e, e = feInvert (ptAt h v).z := ⟨_, rfl⟩
    have s1 : St h _ h.next [a1, o, o] := s0.call0 (goInvert_upd h.next (z := v + 2) (by omega) (s0.ext _ (by omega)) q1) (Nat.le_of_ble_eq_true rfl)
    obtain ⟨a2, q2⟩ : ∃ e, e = feMul (ptAt h v).x a1 := ⟨_, rfl⟩
    have s2 : St h _ h.next [a1, a2, o] :=
      s1.call 1 (mulU _ (s1.ext v (by omega)) (s1.get0 (Nat.le_of_ble_eq_true rfl)) q2) (Nat.le_of_ble_eq_true rfl)
    obtain ⟨a3, q3⟩ : ∃ e, e = feMul (ptAt h v).y a1 := ⟨_, rfl⟩
    have s3 : St h _ h.next [a1, a2, a3] :=
      s2.call 2 (mulU _ (s2.ext (v + 1) (by omega)) (s2.get0 (Nat.le_of_ble_eq_true rfl)) q3) (Nat.le_of_ble_eq_true rfl)
    have n3 : h.next + 3 ≤ _ := s3.next
    have b1 := goBytes_val (h.next + 2) _ (show h.next + 2 < _ from n3)
    rw [s3.get 2 (Nat.le_of_ble_eq_true rfl)] at b1
    have s4 : St h _ h.next [a1, a2, a3] := s3.same (goBytes_same (h.next + 2) _)
    have n4 : h.next + 3 ≤ _ := s4.next
    have b2 := goIsNegative_val (h.next + 1) _ (show h.next + 1 < _ from lt_of_lt_of_le (by omega) n4)
    rw [s4.get 1 (Nat.le_of_ble_eq_true rfl)] at b2
    have s5 : St h _ h.next [a1, a2, a3] := s4.same (goIsNegative_same (h.next + 1) _)
    simp only [← q1, ← q2, ← q3]
    refine ⟨_, _, rfl, ?_, s5.retSame⟩
    have b1' : _ = feBytes a3 := b1
    have b2' : _ = feIsNegative a2 := b2
    rw [← b1', ← b2']
  · left
    simp only [hi, Bool.false_eq_true, if_false, and_self]

theorem goPtEqual_spec {h : Heap} (v u : ℕ) (hv : v + 4 ≤ h.next) (hu : u + 4 ≤ h.next) :
    (ptEqual (ptAt h v) (ptAt h u) = none ∧ goPtEqual v u h = none) ∨
      ∃ h' b, ptEqual (ptAt h v) (ptAt h u) = some b ∧ goPtEqual v u h = some (h', b) ∧ Same h h' := by
  unfold goPtEqual ptEqual
  simp only [goInit_eq]
  by_cases hi : (initialized (ptAt h v) && initialized (ptAt h u)) = true
  · right
    simp only [hi, if_true]
    obtain ⟨o, ho⟩ : ∃ o, o = feZero := ⟨_, rfl⟩
    have s0 : St h _ h.next [o, o, o, o] := ho ▸ St.start h 4
    obtain ⟨a1, q1⟩ : ∃ e, e = feMul (ptAt h v).x (ptAt h u).z := ⟨_, rfl⟩
    have s1 : St h _ h.next [a1, o, o, o] := s0.call0 (mulU _ (s0.ext v (by omega)) (s0.ext (u + 2) (by omega)) q1) (Nat.le_of_ble_eq_true rfl)
    obtain ⟨a2, q2⟩ : ∃ e, e = feMul (ptAt h u).x (ptAt h v).z := ⟨_, rfl⟩
    have s2 : St h _ h.next [a1, a2, o, o] := s1.call 1 (mulU _ (s1.ext u (by omega)) (s1.ext (v + 2) (by omega)) q2) (Nat.le_of_ble_eq_true rfl)
    obtain ⟨a3, q3⟩ : ∃ e, e = feMul (ptAt h v).y (ptAt h u).z := ⟨_, rfl⟩
    have s3 : St h _ h.next [a1, a2, a3, o] := s2.call 2 (mulU _ (s2.ext (v + 1) (by omega)) (s2.ext (u + 2) (by omega)) q3) (Nat.le_of_ble_eq_true rfl)
    obtain ⟨a4, q4⟩ : ∃ e, e = feMul (ptAt h u).y (ptAt h v).z := ⟨_, rfl⟩
    have s4 : St h _ h.next [a1, a2, a3, a4] := s3.call 3 (mulU _ (s3.ext (u + 1) (by omega)) (s3.ext (v + 2) (by omega)) q4) (Nat.le_of_ble_eq_true rfl)
    have n4 : h.next + 4 ≤ _ := s4.next
    have b1 := goEqual_val h.next (h.next + 1) _ (lt_of_lt_of_le (show h.next < h.next + 4 by omega) n4) (lt_of_lt_of_le (show h.next + 1 < h.next + 4 by omega) n4)
    rw [s4.get0 (Nat.le_of_ble_eq_true rfl), s4.get 1 (Nat.le_of_ble_eq_true rfl)] at b1
    have s5 : St h _ h.next [a1, a2, a3, a4] := s4.same (goEqual_same h.next (h.next + 1) _)
    have n5 : h.next + 4 ≤ _ := s5.next
    have b2 := goEqual_val (h.next + 2) (h.next + 3) _ (lt_of_lt_of_le (show h.next + 2 < h.next + 4 by omega) n5)
      (lt_of_lt_of_le (show h.next + 3 < h.next + 4 by omega) n5)
    rw [s5.get 2 (Nat.le_of_ble_eq_true rfl), s5.get 3 (Nat.le_of_ble_eq_true rfl)] at b2
    have s6 : St h _ h.next [a1, a2, a3, a4] := s5.same (goEqual_same (h.next + 2) (h.next + 3) _)
    simp only [← q1, ← q2, ← q3, ← q4]
    refine ⟨_, _, rfl, ?_, s6.retSame⟩
    have b1' : _ = feEqual a1 a2 := b1
    have b2' : _ = feEqual a3 a4 := b2
    rw [← b1', ← b2']
  · left
    simp only [hi, Bool.false_eq_true, if_false, and_self]

theorem goPtSetBytes_spec {h : Heap} (v : ℕ) (x : List ℕ) (g : Glob h) (hg : globals ≤ v) (hv : v + 4 ≤ h.next) :
    (ptSetBytes x = none ∧ (goPtSetBytes v x h).2 = true ∧ Same h (goPtSetBytes v x h).1) ∨
      ∃ R, ptSetBytes x = some R ∧ (goPtSetBytes v x h).2 = false ∧ Upd h (goPtSetBytes v x h).1 v (Pt.list R) := by
  obtain ⟨o, ho⟩ : ∃ o, o = feZero := ⟨_, rfl⟩
  have s0 : St h _ h.next [o, o, o, o, o, o] := ho ▸ St.start h 6
  have gl := g.le
  have hone : pOne' < h.next := g.lt (by decide)
  have hd : pD < h.next := g.lt (by decide)
  have hone1 : pOne < globals := by decide
  unfold goPtSetBytes ptSetBytes
  simp only [goSetBytes_eq]
  cases hs : feSetBytes x with
  | none => left; simp only [if_true]; exact ⟨trivial, trivial, s0.retSame⟩
  | some y =>
    simp only [Bool.false_eq_true, if_false]
    have s1 : St h _ h.next [y, o, o, o, o, o] := s0.call0 (set_upd (h.alloc 6) h.next rfl) (Nat.le_of_ble_eq_true rfl)
    obtain ⟨a2, q2⟩ : ∃ e, e = feSquare y := ⟨_, rfl⟩
    have s2 : St h _ h.next [y, a2, o, o, o, o] := s1.call 1 (sqU _ (s1.get0 (Nat.le_of_ble_eq_true rfl)) q2) (Nat.le_of_ble_eq_true rfl)
    obtain ⟨a3, q3⟩ : ∃ e, e = feSub a2 feOne := ⟨_, rfl⟩
    have s3 : St h _ h.next [y, a2, a3, o, o, o] :=
      s2.call 2 (subU _ (s2.get 1 (Nat.le_of_ble_eq_true rfl)) (s2.ext _ hone |>.trans g.one') q3) (Nat.le_of_ble_eq_true rfl)
    obtain ⟨a4, q4⟩ : ∃ e, e = feMul a2 feD := ⟨_, rfl⟩
    have s4 : St h _ h.next [y, a2, a3, a4, o, o] :=
      s3.call 3 (mulU _ (s3.get 1 (Nat.le_of_ble_eq_true rfl)) (s3.ext _ hd |>.trans g.d) q4) (Nat.le_of_ble_eq_true rfl)
    obtain ⟨a5, q5⟩ : ∃ e, e = feAdd a4 feOne := ⟨_, rfl⟩
    have s5 : St h _ h.next [y, a2, a3, a5, o, o] :=
      s4.call 3 (addU _ (s4.get 3 (Nat.le_of_ble_eq_true rfl)) (s4.ext _ hone |>.trans g.one') q5) (Nat.le_of_ble_eq_true rfl)
    have n5 : h.next + 6 ≤ _ := s5.next
    obtain ⟨a6, w, q6⟩ : ∃ e w, (e, w) = feSqrtRatio a3 a5 := ⟨_, _, rfl⟩
    have c := goSqrtRatio_spec (h.next + 4) (u := h.next + 2) (v := h.next + 3) (lt_of_lt_of_le (show h.next + 2 < h.next + 6 by omega) n5)
      (lt_of_lt_of_le (show h.next + 3 < h.next + 6 by omega) n5) (g.of s5.retSame) (s5.get 2 (Nat.le_of_ble_eq_true rfl)) (s5.get 3 (Nat.le_of_ble_eq_true rfl)) q6
    have s6 : St h _ h.next [y, a2, a3, a5, a6, o] := s5.call 4 c.1 (Nat.le_of_ble_eq_true rfl)
    simp only [← q2, ← q3, ← q4, ← q5, ← q6]
    rw [c.2]
    by_cases hw : w = 0
    · left
      rw [if_pos hw, if_pos hw]
      exact ⟨rfl, rfl, s6.retSame⟩
    · right
      rw [if_neg hw, if_neg hw]
      refine ⟨_, rfl, rfl, ?_⟩
      obtain ⟨a7, q7⟩ : ∃ e, e = feNeg a6 := ⟨_, rfl⟩
      have s7 : St h _ h.next [y, a2, a3, a5, a6, a7] :=
        s6.call 5 (negU _ (s6.get 4 (Nat.le_of_ble_eq_true rfl)) (s6.ext _ (g.lt (by decide)) |>.trans g.zero) q7) (Nat.le_of_ble_eq_true rfl)
      obtain ⟨a8, q8⟩ : ∃ e, e = feSelect a7 a6 (x.getD 31 0 >>> 7) := ⟨_, rfl⟩
      have s8 : St h _ h.next [y, a2, a3, a5, a8, a7] :=
        s7.call 4 (selU _ _ (s7.get 5 (Nat.le_of_ble_eq_true rfl)) (s7.get 4 (Nat.le_of_ble_eq_true rfl)) q8) (Nat.le_of_ble_eq_true rfl)
      have n8 : h.next + 6 ≤ _ := s8.next
      simp only [← q7, ← q8]
      refine s8.ret ?_
      have g4 := s8.get 4 (Nat.le_of_ble_eq_true rfl)
      have g0 := s8.get0 (Nat.le_of_ble_eq_true rfl)
      have g1 : _ = feOne := s8.ext pOne (by omega) |>.trans g.one
      have u1 : Upd _ _ v [a8] := setU v g4
      have u2 : Upd _ _ v [a8, y] := u1.comp (setU (v + 1) (u1.read (by omega) (by simp; omega) g0))
      have u3 : Upd _ _ v [a8, y, feOne] := u2.comp (by
        have := u2.read (by omega) (by simp; omega) g1
        exact setU (v + 2) this)
      exact u3.comp (mulU (v + 3) (u3.read (by omega) (by simp; omega) g4) (u3.read (by omega) (by simp; omega) g0) rfl)

/-! ## Scalar multiplication -/

theorem wrP1_upd (h : Heap) (v : ℕ) (t : P1xP1) : Upd h (wrP1 v t h) v (Pt.list (fromP1 t)) := by
  have u1 : Upd h _ v [feMul t.X t.T] := set_upd h v rfl
  have u2 : Upd h _ v [feMul t.X t.T, feMul t.Y t.Z] := u1.comp (set_upd _ (v + 1) rfl)
  have u3 : Upd h _ v [feMul t.X t.T, feMul t.Y t.Z, feMul t.Z t.T] := u2.comp (set_upd _ (v + 2) rfl)
  exact u3.comp (set_upd _ (v + 3) rfl)

theorem wrP2_upd (h : Heap) (v : ℕ) (t : P2) : Upd h (wrP2 v t h) v (Pt.list (fromP2 t)) := by
  have u1 : Upd h _ v [feMul t.X t.Z] := set_upd h v rfl
  have u2 : Upd h _ v [feMul t.X t.Z, feMul t.Y t.Z] := u1.comp (set_upd _ (v + 1) rfl)
  have u3 : Upd h _ v [feMul t.X t.Z, feMul t.Y t.Z, feSquare t.Z] := u2.comp (set_upd _ (v + 2) rfl)
  exact u3.comp (set_upd _ (v + 3) rfl)

/-- Only the point at `v` has changed. -/
def Only (h h' : Heap) (v : ℕ) : Prop := h.next ≤ h'.next ∧ ∀ p, p < h.next → (p < v ∨ v + 4 ≤ p) → h'.mem p = h.mem p

theorem Only.refl (h : Heap) (v : ℕ) : Only h h v := ⟨le_rfl, fun _ _ _ => rfl⟩

theorem Only.upd {h h1 h2 : Heap} {v : ℕ} {P : Point} (o : Only h h1 v) (u : Upd h1 h2 v (Pt.list P)) : Upd h h2 v (Pt.list P) := by
  refine ⟨o.1.trans u.1, fun p hp => ?_⟩
  rw [u.2 p (lt_of_lt_of_le hp o.1)]
  split
  · rfl
  · rename_i hn
    have : (Pt.list P).length = 4 := rfl
    exact o.2 p hp (by omega)

theorem Upd.only {h h1 : Heap} {v : ℕ} {P : Point} (u : Upd h h1 v (Pt.list P)) : Only h h1 v :=
  ⟨u.1, fun p hp hd => u.read hp (by have : (Pt.list P).length = 4 := rfl; omega) rfl⟩

theorem Only.comp {h h1 h2 : Heap} {v : ℕ} {P : Point} (o : Only h h1 v) (u : Upd h1 h2 v (Pt.list P)) : Only h h2 v := (o.upd u).only

theorem goMultLoop_spec {h : Heap} (v : ℕ) (hv : v + 4 ≤ h.next) (t : ℕ → Cached) (digits : List ℤ) (l : List ℕ) (t1 : P1xP1) (h1 : Heap) (o : Only h h1 v) :
    (l.foldl (fun s i => goMultStep v t (dg digits i) s) (t1, h1)).1 = l.foldl (fun t1 i => multStep t (dg digits i) t1) t1 ∧
      Only h (l.foldl (fun s i => goMultStep v t (dg digits i) s) (t1, h1)).2 v := by
  induction l generalizing t1 h1 with
  | nil => exact ⟨rfl, o⟩
  | cons i l ih =>
    have u := wrP1_upd h1 v (four (p2FromP1 t1))
    have e : goMultStep v t (dg digits i) (t1, h1) = (multStep t (dg digits i) t1, wrP1 v (four (p2FromP1 t1)) h1) := by
      simp only [goMultStep, multStep, u.ptAt (hv.trans o.1)]
    simp only [List.foldl_cons, e]
    exact ih _ _ (o.comp u)

theorem goScalarMult_upd {h : Heap} (v : ℕ) (x : List ℕ) (q : ℕ) (g : Glob h) (hv : v + 4 ≤ h.next) :
    (scalarMult x (ptAt h q) = none ∧ goScalarMult v x q h = none) ∨
      ∃ R h', scalarMult x (ptAt h q) = some R ∧ goScalarMult v x q h = some h' ∧ Upd h h' v (Pt.list R) := by
  unfold scalarMult goScalarMult
  rw [goInit_eq]
  by_cases hi : initialized (ptAt h q) = true
  · simp only [hi, if_true]
    cases hs : signedRadix16 x with
    | none => left; exact ⟨rfl, rfl⟩
    | some digits =>
      right
      refine ⟨_, _, rfl, rfl, ?_⟩
      have u0 := goPtSet_upd (h := h) v pIdentity
      rw [g.identity] at u0
      have c := goMultLoop_spec v hv (projTab (ptAt h q)) digits (List.range 63).reverse
        (p1Add (ptAt (goPtSet v pIdentity h) v) (projSelect (projTab (ptAt h q)) (dg digits 63))) (goPtSet v pIdentity h) u0.only
      have c1 := c.1
      rw [u0.ptAt hv] at c1 c
      simp only [u0.ptAt hv, c1]
      exact c.2.upd (wrP1_upd _ v _)
  · left
    simp only [hi, Bool.false_eq_true, if_false, and_self]

theorem goBaseLoop_spec {h : Heap} (v : ℕ) (hv : v + 4 ≤ h.next) (digits : List ℤ) (l : List ℕ) (V : Point) (h1 : Heap) (o : Only h h1 v) (hV : ptAt h1 v = V) :
    (l.foldl (baseStep digits) (some V) = none ∧ l.foldl (goBaseStep v digits) (some h1) = none) ∨
      ∃ W h2, l.foldl (baseStep digits) (some V) = some W ∧ l.foldl (goBaseStep v digits) (some h1) = some h2 ∧ Only h h2 v ∧ ptAt h2 v = W := by
  induction l generalizing V h1 with
  | nil => right; exact ⟨V, h1, rfl, rfl, o, hV⟩
  | cons i l ih =>
    simp only [List.foldl_cons, baseStep, goBaseStep, Option.bind_some, hV]
    cases hb : baseTab (i / 2) with
    | none =>
      left
      have e1 : ∀ l : List ℕ, l.foldl (baseStep digits) none = none := fun l => by
        induction l with
        | nil => rfl
        | cons a l ih => exact ih
      have e2 : ∀ l : List ℕ, l.foldl (goBaseStep v digits) none = none := fun l => by
        induction l with
        | nil => rfl
        | cons a l ih => exact ih
      exact ⟨e1 l, e2 l⟩
    | some t =>
      have u := wrP1_upd h1 v (p1AddAffine V (affSelect t (dg digits i)))
      exact ih _ _ (o.comp u) (u.ptAt (hv.trans o.1))

theorem baseNone (digits : List ℤ) (l : List ℕ) : l.foldl (baseStep digits) none = none := by
  induction l with
  | nil => rfl
  | cons a l ih => exact ih

theorem goBaseNone (v : ℕ) (digits : List ℤ) (l : List ℕ) : l.foldl (goBaseStep v digits) none = none := by
  induction l with
  | nil => rfl
  | cons a l ih => exact ih

theorem Only.toUpd {h h' : Heap} {v : ℕ} (o : Only h h' v) (hv : v + 4 ≤ h.next) : Upd h h' v (Pt.list (ptAt h' v)) := by
  have hl : (Pt.list (ptAt h' v)).length = 4 := rfl
  refine ⟨o.1, fun p hp => ?_⟩
  by_cases h1 : v ≤ p ∧ p < v + 4
  · rw [if_pos (by omega)]
    obtain ⟨k, rfl, hk⟩ : ∃ k, p = v + k ∧ k < 4 := ⟨p - v, by omega, by omega⟩
    have e : v + k - v = k := by omega
    rw [e]
    match k, hk with
    | 0, _ => rfl
    | 1, _ => rfl
    | 2, _ => rfl
    | 3, _ => rfl
  · rw [if_neg (by omega)]; exact o.2 p hp (by omega)

theorem goScalarBaseMult_upd {h : Heap} (v : ℕ) (x : List ℕ) (g : Glob h) (hv : v + 4 ≤ h.next) :
    (scalarBaseMult x = none ∧ goScalarBaseMult v x h = none) ∨
      ∃ R h', scalarBaseMult x = some R ∧ goScalarBaseMult v x h = some h' ∧ Upd h h' v (Pt.list R) := by
  unfold scalarBaseMult goScalarBaseMult
  cases hs : signedRadix16 x with
  | none => left; exact ⟨rfl, rfl⟩
  | some digits =>
    simp only [Option.bind_some]
    generalize (List.range 32).map (fun i => 2 * i + 1) = l1
    generalize (List.range 32).map (fun i => 2 * i) = l2
    have u0 := goPtSet_upd (h := h) v pIdentity
    rw [g.identity] at u0
    rcases goBaseLoop_spec v hv digits l1 identity _ u0.only (u0.ptAt hv) with ⟨e1, e2⟩ | ⟨W, h2, e1, e2, o, hW⟩
    · left
      rw [e1, e2, Option.map_none, Option.map_none]
      exact ⟨baseNone _ _, goBaseNone _ _ _⟩
    · rw [e1, e2, Option.map_some, Option.map_some, hW]
      have u := wrP1_upd h2 v (four (p2FromP3 W))
      rcases goBaseLoop_spec v hv digits l2 _ _ (o.comp u) (u.ptAt (hv.trans o.1)) with ⟨e3, e4⟩ | ⟨W', h3, e3, e4, o', hW'⟩
      · left; exact ⟨e3, e4⟩
      · right
        refine ⟨W', h3, e3, e4, ?_⟩
        have := o'.toUpd hv
        rwa [hW'] at this

theorem goVtA_spec {h : Heap} (v : ℕ) (hv : v + 4 ≤ h.next) (t : ℕ → Cached) (d : ℤ) (t1 : P1xP1) (h1 : Heap) (o : Only h h1 v) :
    (vtA t t1 d = none ∧ goVtA v t d (t1, h1) = none) ∨ ∃ t2 h2, vtA t t1 d = some t2 ∧ goVtA v t d (t1, h1) = some (t2, h2) ∧ Only h h2 v := by
  unfold vtA goVtA
  have u := wrP1_upd h1 v t1
  simp only [u.ptAt (hv.trans o.1)]
  split
  · cases nafSelect 8 t d with
    | none => left; exact ⟨rfl, rfl⟩
    | some m => right; exact ⟨_, _, rfl, rfl, o.comp u⟩
  · split
    · cases nafSelect 8 t (i8 (-d)) with
      | none => left; exact ⟨rfl, rfl⟩
      | some m => right; exact ⟨_, _, rfl, rfl, o.comp u⟩
    · right; exact ⟨_, _, rfl, rfl, o⟩

theorem goVtB_spec {h : Heap} (v : ℕ) (hv : v + 4 ≤ h.next) (t : ℕ → ACached) (d : ℤ) (t1 : P1xP1) (h1 : Heap) (o : Only h h1 v) :
    (vtB t t1 d = none ∧ goVtB v t d (t1, h1) = none) ∨ ∃ t2 h2, vtB t t1 d = some t2 ∧ goVtB v t d (t1, h1) = some (t2, h2) ∧ Only h h2 v := by
  unfold vtB goVtB
  have u := wrP1_upd h1 v t1
  simp only [u.ptAt (hv.trans o.1)]
  split
  · cases nafSelect 64 t d with
    | none => left; exact ⟨rfl, rfl⟩
    | some m => right; exact ⟨_, _, rfl, rfl, o.comp u⟩
  · split
    · cases nafSelect 64 t (i8 (-d)) with
      | none => left; exact ⟨rfl, rfl⟩
      | some m => right; exact ⟨_, _, rfl, rfl, o.comp u⟩
    · right; exact ⟨_, _, rfl, rfl, o⟩

theorem goVtLoop_spec {h : Heap} (v : ℕ) (hv : v + 4 ≤ h.next) (ta : ℕ → Cached) (tb : ℕ → ACached) (a b : List ℤ) (i : ℕ) (t2 : P2) (h1 : Heap)
    (o : Only h h1 v) :
    (vtLoop ta tb a b i t2 = none ∧ goVtLoop v ta tb a b i (t2, h1) = none) ∨
      ∃ t h2, vtLoop ta tb a b i t2 = some t ∧ goVtLoop v ta tb a b i (t2, h1) = some (t, h2) ∧ Only h h2 v := by
  induction i generalizing t2 h1 with
  | zero => right; exact ⟨t2, h1, rfl, rfl, o⟩
  | succ i ih =>
    simp only [vtLoop, goVtLoop]
    rcases goVtA_spec v hv ta (dg a i) (p1Double t2) h1 o with ⟨e1, e2⟩ | ⟨s, h2, e1, e2, o2⟩
    · left; rw [e1, e2]; exact ⟨rfl, rfl⟩
    · rw [e1, e2]
      simp only [Option.bind_some]
      rcases goVtB_spec v hv tb (dg b i) s h2 o2 with ⟨e3, e4⟩ | ⟨s', h3, e3, e4, o3⟩
      · left; rw [e3, e4]; exact ⟨rfl, rfl⟩
      · rw [e3, e4]
        exact ih _ _ o3

theorem goVarTime_upd {h : Heap} (v : ℕ) (a : List ℕ) (A : ℕ) (b : List ℕ) (hv : v + 4 ≤ h.next) :
    (varTime a (ptAt h A) b = none ∧ goVarTime v a A b h = none) ∨
      ∃ R h', varTime a (ptAt h A) b = some R ∧ goVarTime v a A b h = some h' ∧ Upd h h' v (Pt.list R) := by
  unfold varTime goVarTime
  rw [goInit_eq]
  by_cases hi : initialized (ptAt h A) = true
  · simp only [hi, if_true]
    cases ptAdd generator generator with
    | none => left; exact ⟨rfl, rfl⟩
    | some g2 =>
      cases ptAdd (ptAt h A) (ptAt h A) with
      | none => left; exact ⟨rfl, rfl⟩
      | some a2 =>
        cases nonAdjacentForm a 5 with
        | none => left; exact ⟨rfl, rfl⟩
        | some aNaf =>
          cases nonAdjacentForm b 8 with
          | none => left; exact ⟨rfl, rfl⟩
          | some bNaf =>
            simp only [Option.bind_some]
            generalize 256 = m
            rcases goVtLoop_spec v hv (naf5Tab (ptAt h A) a2) (naf8Tab generator g2) aNaf bNaf m p2Zero h (Only.refl h v) with ⟨e1, e2⟩ | ⟨t, h2, e1, e2, o⟩
            · left; rw [e1, e2]; exact ⟨rfl, rfl⟩
            · right
              rw [e1, e2]
              exact ⟨_, _, rfl, rfl, o.upd (wrP2_upd h2 v t)⟩
  · left
    simp only [hi, Bool.false_eq_true, if_false, and_self]

end Verif.EdHost.Alias
