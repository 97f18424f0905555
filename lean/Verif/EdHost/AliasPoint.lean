import Verif.EdHost.AliasField

/-! # The pointer versions of the point methods compute the value versions -/

namespace Verif.EdHost.Alias
open Verif.EdHost Heap

/-- The package variables have their initial values. -/
structure Glob (h : Heap) : Prop where
  le : globals ≤ h.next
  zero : h.mem pZero = feZero
  one : h.mem pOne = feOne
  sqrtM1 : h.mem pSqrtM1 = feSqrtM1
  d : h.mem pD = feD
  d2 : h.mem pD2 = feD2
  one' : h.mem pOne' = feOne
  identity : ptAt h pIdentity = identity
  generator : ptAt h pGenerator = generator

theorem Glob.lt {h : Heap} (g : Glob h) {p : ℕ} (hp : p < globals) : p < h.next := lt_of_lt_of_le hp g.le

theorem Glob.congr {h k : Heap} (g : Glob h) (hn : h.next ≤ k.next) (hm : ∀ p, p < globals → k.mem p = h.mem p) : Glob k := by
  refine ⟨le_trans g.le hn, by rw [hm _ (by decide), g.zero], by rw [hm _ (by decide), g.one], by rw [hm _ (by decide), g.sqrtM1],
    by rw [hm _ (by decide), g.d], by rw [hm _ (by decide), g.d2], by rw [hm _ (by decide), g.one'], ?_, ?_⟩
  · rw [← g.identity]; unfold ptAt
    rw [hm pIdentity (by decide), hm (pIdentity + 1) (by decide), hm (pIdentity + 2) (by decide), hm (pIdentity + 3) (by decide)]
  · rw [← g.generator]; unfold ptAt
    rw [hm pGenerator (by decide), hm (pGenerator + 1) (by decide), hm (pGenerator + 2) (by decide), hm (pGenerator + 3) (by decide)]

theorem Glob.of {h k : Heap} (g : Glob h) (s : Same h k) : Glob k := g.congr s.1 fun p hp => s.2 p (g.lt hp)

theorem Glob.upd {h k : Heap} {v : ℕ} {es : List Elt} (g : Glob h) (hv : globals ≤ v) (u : Upd h k v es) : Glob k :=
  g.congr u.1 fun p hp => by rw [u.2 p (g.lt hp), if_neg (by omega)]

theorem St.pt {h0 h : Heap} {n : ℕ} {l : List Elt} (s : St h0 h n l) {p : ℕ} (hp : p + 4 ≤ n) : ptAt h p = ptAt h0 p := by
  unfold ptAt; rw [s.ext p (by omega), s.ext (p + 1) (by omega), s.ext (p + 2) (by omega), s.ext (p + 3) (by omega)]

theorem goSqrtRatio_spec {h : Heap} (r : ℕ) {u v : ℕ} {x y e : Elt} {w : ℕ} (hu : u < h.next) (hv : v < h.next) (g : Glob h) (hx : h.mem u = x)
    (hy : h.mem v = y) (he : (e, w) = feSqrtRatio x y) : Upd h (goSqrtRatio r u v h).1 r [e] ∧ (goSqrtRatio r u v h).2 = w := by
  obtain ⟨o, ho⟩ : ∃ o, o = feZero := ⟨_, rfl⟩
  have i0 : pZero < h.next := g.lt (by decide)
  have i1 : pSqrtM1 < h.next := g.lt (by decide)
  have s0 : St h _ h.next [o, o, o, o, o, o, o, o] := ho ▸ St.start h 8
  obtain ⟨e1, q1⟩ : ∃ e, e = feSquare y := ⟨_, rfl⟩
  have s1 : St h _ h.next [o, e1, o, o, o, o, o, o] := s0.call 1 (sqU _ (s0.ext _ hv |>.trans hy) q1) (Nat.le_of_ble_eq_true rfl)
  obtain ⟨e2, q2⟩ : ∃ e, e = feMul e1 y := ⟨_, rfl⟩
  have s2 : St h _ h.next [e2, e1, o, o, o, o, o, o] :=
    s1.call0 (mulU _ (s1.get 1 (Nat.le_of_ble_eq_true rfl)) (s1.ext _ hv |>.trans hy) q2) (Nat.le_of_ble_eq_true rfl)
  obtain ⟨e3, q3⟩ : ∃ e, e = feMul x e2 := ⟨_, rfl⟩
  have s3 : St h _ h.next [e2, e1, e3, o, o, o, o, o] :=
    s2.call 2 (mulU _ (s2.ext _ hu |>.trans hx) (s2.get0 (Nat.le_of_ble_eq_true rfl)) q3) (Nat.le_of_ble_eq_true rfl)
  obtain ⟨e4, q4⟩ : ∃ e, e = feSquare e1 := ⟨_, rfl⟩
  have s4 : St h _ h.next [e4, e1, e3, o, o, o, o, o] := s3.call0 (sqU _ (s3.get 1 (Nat.le_of_ble_eq_true rfl)) q4) (Nat.le_of_ble_eq_true rfl)
  obtain ⟨e5, q5⟩ : ∃ e, e = feMul e3 e4 := ⟨_, rfl⟩
  have s5 : St h _ h.next [e4, e1, e3, e5, o, o, o, o] :=
    s4.call 3 (mulU _ (s4.get 2 (Nat.le_of_ble_eq_true rfl)) (s4.get0 (Nat.le_of_ble_eq_true rfl)) q5) (Nat.le_of_ble_eq_true rfl)
  obtain ⟨e6, q6⟩ : ∃ e, e = fePow22523 e5 := ⟨_, rfl⟩
  have s6 : St h _ h.next [e6, e1, e3, e5, o, o, o, o] :=
    s5.call0 (goPow22523_upd _ (lt_of_lt_of_le (Nat.add_lt_add_left (Nat.le_of_ble_eq_true rfl) _) s5.next) (s5.get 3 (Nat.le_of_ble_eq_true rfl)) q6)
      (Nat.le_of_ble_eq_true rfl)
  obtain ⟨e7, q7⟩ : ∃ e, e = feMul e3 e6 := ⟨_, rfl⟩
  have s7 : St h _ h.next [e6, e1, e3, e5, e7, o, o, o] :=
    s6.call 4 (mulU _ (s6.get 2 (Nat.le_of_ble_eq_true rfl)) (s6.get0 (Nat.le_of_ble_eq_true rfl)) q7) (Nat.le_of_ble_eq_true rfl)
  obtain ⟨e8, q8⟩ : ∃ e, e = feSquare e7 := ⟨_, rfl⟩
  have s8 : St h _ h.next [e8, e1, e3, e5, e7, o, o, o] := s7.call0 (sqU _ (s7.get 4 (Nat.le_of_ble_eq_true rfl)) q8) (Nat.le_of_ble_eq_true rfl)
  obtain ⟨e9, q9⟩ : ∃ e, e = feMul y e8 := ⟨_, rfl⟩
  have s9 : St h _ h.next [e8, e1, e3, e5, e7, e9, o, o] :=
    s8.call 5 (mulU _ (s8.ext _ hv |>.trans hy) (s8.get0 (Nat.le_of_ble_eq_true rfl)) q9) (Nat.le_of_ble_eq_true rfl)
  obtain ⟨e10, q10⟩ : ∃ e, e = feNeg x := ⟨_, rfl⟩
  have s10 : St h _ h.next [e8, e1, e3, e5, e7, e9, e10, o] :=
    s9.call 6 (negU _ (s9.ext _ hu |>.trans hx) (s9.ext _ i0 |>.trans g.zero) q10) (Nat.le_of_ble_eq_true rfl)
  have c1 := goEqual_val (h.next + 5) u _ (lt_of_lt_of_le (Nat.add_lt_add_left (Nat.le_of_ble_eq_true rfl) _) s10.next) (lt_of_lt_of_le hu s10.retSame.1)
  rw [s10.get 5 (Nat.le_of_ble_eq_true rfl), s10.ext _ hu |>.trans hx] at c1
  have s11 : St h _ h.next [e8, e1, e3, e5, e7, e9, e10, o] := s10.same (goEqual_same (h.next + 5) u _)
  have c2 := goEqual_val (h.next + 5) (h.next + 6) _ (lt_of_lt_of_le (Nat.add_lt_add_left (Nat.le_of_ble_eq_true rfl) _) s11.next)
    (lt_of_lt_of_le (Nat.add_lt_add_left (Nat.le_of_ble_eq_true rfl) _) s11.next)
  rw [s11.get 5 (Nat.le_of_ble_eq_true rfl), s11.get 6 (Nat.le_of_ble_eq_true rfl)] at c2
  have s12 : St h _ h.next [e8, e1, e3, e5, e7, e9, e10, o] := s11.same (goEqual_same (h.next + 5) (h.next + 6) _)
  obtain ⟨e13, q13⟩ : ∃ e, e = feMul e10 feSqrtM1 := ⟨_, rfl⟩
  have s13 : St h _ h.next [e13, e1, e3, e5, e7, e9, e10, o] :=
    s12.call0 (mulU _ (s12.get 6 (Nat.le_of_ble_eq_true rfl)) (s12.ext _ i1 |>.trans g.sqrtM1) q13) (Nat.le_of_ble_eq_true rfl)
  have c3 := goEqual_val (h.next + 5) h.next _ (lt_of_lt_of_le (Nat.add_lt_add_left (Nat.le_of_ble_eq_true rfl) _) s13.next)
    (lt_of_lt_of_le (Nat.lt_add_of_pos_right (Nat.le_of_ble_eq_true rfl)) s13.next)
  rw [s13.get 5 (Nat.le_of_ble_eq_true rfl), s13.get0 (Nat.le_of_ble_eq_true rfl)] at c3
  have s14 : St h _ h.next [e13, e1, e3, e5, e7, e9, e10, o] := s13.same (goEqual_same (h.next + 5) h.next _)
  obtain ⟨e15, q15⟩ : ∃ e, e = feMul e7 feSqrtM1 := ⟨_, rfl⟩
  have s15 : St h _ h.next [e13, e1, e3, e5, e7, e9, e10, e15] :=
    s14.call 7 (mulU _ (s14.get 4 (Nat.le_of_ble_eq_true rfl)) (s14.ext _ i1 |>.trans g.sqrtM1) q15) (Nat.le_of_ble_eq_true rfl)
  obtain ⟨e16, q16⟩ : ∃ e, e = feSelect e15 e7 (feEqual e9 e10 ||| feEqual e9 e13) := ⟨_, rfl⟩
  have s16 : St h _ h.next [e13, e1, e3, e5, e16, e9, e10, e15] :=
    s15.call 4 (selU _ _ (s15.get 7 (Nat.le_of_ble_eq_true rfl)) (s15.get 4 (Nat.le_of_ble_eq_true rfl)) q16) (Nat.le_of_ble_eq_true rfl)
  obtain ⟨e17, q17⟩ : ∃ e, e = feAbs e16 := ⟨_, rfl⟩
  have fin : Upd h _ r [e17] := s16.ret (goAbs_upd r (lt_of_lt_of_le (Nat.add_lt_add_left (Nat.le_of_ble_eq_true rfl) _) s16.next)
    (lt_of_lt_of_le i0 s16.retSame.1) (s16.ext _ i0 |>.trans g.zero) (s16.get 4 (Nat.le_of_ble_eq_true rfl)) q17)
  simp only [feSqrtRatio, ← q1, ← q2, ← q3, ← q4, ← q5, ← q6, ← q7, ← q8, ← q9, ← q10, ← q13, ← q15, ← q16, ← q17] at he
  obtain ⟨h1, h2⟩ := Prod.mk.inj he
  constructor
  · rw [h1]
    have c2' : (goEqual (h.next + 5) (h.next + 6) _).2 = feEqual e9 e10 := c2
    have c3' : (goEqual (h.next + 5) h.next _).2 = feEqual e9 e13 := c3
    rw [← c2', ← c3'] at fin
    exact fin
  · rw [h2]
    have c1' : (goEqual (h.next + 5) u _).2 = feEqual e9 x := c1
    have c2' : (goEqual (h.next + 5) (h.next + 6) _).2 = feEqual e9 e10 := c2
    rw [← c1', ← c2']
    rfl

/-- The four elements of a point, in memory order. -/
def Pt.list (p : Point) : List Elt := [p.x, p.y, p.z, p.t]

theorem Upd.comp {h h1 h2 : Heap} {v : ℕ} {es fs : List Elt} (u : Upd h h1 v es) (w : Upd h1 h2 (v + es.length) fs) : Upd h h2 v (es ++ fs) := by
  refine ⟨u.1.trans w.1, fun p hp => ?_⟩
  rw [w.2 p (lt_of_lt_of_le hp u.1), u.2 p hp]
  simp only [List.length_append, List.getD_eq_getElem?_getD]
  by_cases h1 : v ≤ p ∧ p < v + es.length
  · rw [if_neg (by omega), if_pos h1, if_pos (by omega), List.getElem?_append_left (by omega)]
  · by_cases h2 : v + es.length ≤ p ∧ p < v + es.length + fs.length
    · rw [if_pos h2, if_pos (by omega), List.getElem?_append_right (by omega)]
      congr 2; omega
    · rw [if_neg h2, if_neg h1, if_neg (by omega)]

theorem Upd.read {h h' : Heap} {v p : ℕ} {es : List Elt} {e : Elt} (u : Upd h h' v es) (hp : p < h.next) (hd : p < v ∨ v + es.length ≤ p) (he : h.mem p = e) :
    h'.mem p = e := by
  rw [u.2 p hp, if_neg (by omega), he]

theorem Upd.ptAt {h h' : Heap} {v : ℕ} {P : Point} (u : Upd h h' v (Pt.list P)) (hv : v + 4 ≤ h.next) : ptAt h' v = P := by
  have hl : (Pt.list P).length = 4 := rfl
  unfold Alias.ptAt
  rw [u.2 v (by omega), u.2 (v + 1) (by omega), u.2 (v + 2) (by omega), u.2 (v + 3) (by omega), if_pos (by omega), if_pos (by omega), if_pos (by omega),
    if_pos (by omega)]
  simp [Pt.list]

theorem setU {h : Heap} (v : ℕ) {a : ℕ} {x : Elt} (ha : h.mem a = x) : Upd h (goSet v a h) v [x] := by
  rw [goSet, ha]; exact set_upd _ _ rfl

theorem goInit_eq (p : ℕ) (h : Heap) : goInit p h = initialized (ptAt h p) := rfl

theorem goFromP1_upd {h : Heap} (v : ℕ) {p : ℕ} {t : P1xP1} (hp : p + 4 ≤ h.next) (hd : p + 4 ≤ v ∨ v + 4 ≤ p)
    (hX : h.mem p = t.X) (hY : h.mem (p + 1) = t.Y) (hZ : h.mem (p + 2) = t.Z) (hT : h.mem (p + 3) = t.T) :
    Upd h (goFromP1 v p h) v (Pt.list (fromP1 t)) := by
  have u1 : Upd h _ v [feMul t.X t.T] := mulU v hX hT rfl
  have u2 : Upd h _ v [feMul t.X t.T, feMul t.Y t.Z] := u1.comp
    (mulU (v + 1) (u1.read (by omega) (by simp; omega) hY) (u1.read (by omega) (by simp; omega) hZ) rfl)
  have u3 : Upd h _ v [feMul t.X t.T, feMul t.Y t.Z, feMul t.Z t.T] := u2.comp
    (mulU (v + 2) (u2.read (by omega) (by simp; omega) hZ) (u2.read (by omega) (by simp; omega) hT) rfl)
  exact u3.comp (mulU (v + 3) (u3.read (by omega) (by simp; omega) hX) (u3.read (by omega) (by simp; omega) hY) rfl)

theorem goFromP2_upd {h : Heap} (v : ℕ) {p : ℕ} {t : P2} (hp : p + 3 ≤ h.next) (hd : p + 3 ≤ v ∨ v + 4 ≤ p)
    (hX : h.mem p = t.X) (hY : h.mem (p + 1) = t.Y) (hZ : h.mem (p + 2) = t.Z) :
    Upd h (goFromP2 v p h) v (Pt.list (fromP2 t)) := by
  have u1 : Upd h _ v [feMul t.X t.Z] := mulU v hX hZ rfl
  have u2 : Upd h _ v [feMul t.X t.Z, feMul t.Y t.Z] := u1.comp
    (mulU (v + 1) (u1.read (by omega) (by simp; omega) hY) (u1.read (by omega) (by simp; omega) hZ) rfl)
  have u3 : Upd h _ v [feMul t.X t.Z, feMul t.Y t.Z, feSquare t.Z] := u2.comp
    (sqU (v + 2) (u2.read (by omega) (by simp; omega) hZ) rfl)
  exact u3.comp (mulU (v + 3) (u3.read (by omega) (by simp; omega) hX) (u3.read (by omega) (by simp; omega) hY) rfl)

theorem goCachedFromP3_upd {h : Heap} (v : ℕ) {p : ℕ} {P : Point} (g : Glob h) (hg : globals ≤ v) (hp : p + 4 ≤ h.next) (hd : p + 4 ≤ v ∨ v + 4 ≤ p)
    (hP : ptAt h p = P) :
    Upd h (goCachedFromP3 v p h) v [(cachedFromP3 P).YplusX, (cachedFromP3 P).YminusX, (cachedFromP3 P).Z, (cachedFromP3 P).T2d] := by
  subst hP
  have gl := g.le
  have hd2 : pD2 < globals := by decide
  have u1 : Upd h _ v [(cachedFromP3 (ptAt h p)).YplusX] := addU v rfl rfl rfl
  have u2 : Upd h _ v [(cachedFromP3 (ptAt h p)).YplusX, (cachedFromP3 (ptAt h p)).YminusX] := u1.comp
    (subU (v + 1) (u1.read (p := p + 1) (by omega) (by simp; omega) rfl) (u1.read (p := p) (by omega) (by simp; omega) rfl) rfl)
  have u3 : Upd h _ v [(cachedFromP3 (ptAt h p)).YplusX, (cachedFromP3 (ptAt h p)).YminusX, (cachedFromP3 (ptAt h p)).Z] := u2.comp
    (setU (v + 2) (u2.read (p := p + 2) (by omega) (by simp; omega) rfl))
  exact u3.comp (mulU (v + 3) (u3.read (p := p + 3) (by omega) (by simp; omega) rfl) (u3.read (by omega) (by simp; omega) g.d2) rfl)

theorem goP1Add_upd {h : Heap} (v : ℕ) {p q : ℕ} {P : Point} {Q : Cached} {e0 e1 e2 e3 : Elt} (hv : v + 4 ≤ h.next) (hp : p + 4 ≤ h.next) (hq : q + 4 ≤ h.next) (hP : ptAt h p = P)
    (h0 : h.mem q = Q.YplusX) (h1 : h.mem (q + 1) = Q.YminusX) (h2 : h.mem (q + 2) = Q.Z) (h3 : h.mem (q + 3) = Q.T2d)
    (he : p1Add P Q = ⟨e0, e1, e2, e3⟩) : Upd h (goP1Add v p q h) v [e0, e1, e2, e3] := by
  subst hP
  obtain ⟨o, ho⟩ : ∃ o, o = feZero := ⟨_, rfl⟩
  have s0 : St h _ h.next [o, o, o, o, o, o] := ho ▸ St.start h 6
  obtain ⟨a1, q1⟩ : ∃ e, e = feAdd (ptAt h p).y (ptAt h p).x := ⟨_, rfl⟩
  have s1 : St h _ h.next [a1, o, o, o, o, o] := s0.call0 (addU _ (s0.ext (p + 1) (by omega)) (s0.ext p (by omega)) q1) (Nat.le_of_ble_eq_true rfl)
  obtain ⟨a2, q2⟩ : ∃ e, e = feSub (ptAt h p).y (ptAt h p).x := ⟨_, rfl⟩
  have s2 : St h _ h.next [a1, a2, o, o, o, o] := s1.call 1 (subU _ (s1.ext (p + 1) (by omega)) (s1.ext p (by omega)) q2) (Nat.le_of_ble_eq_true rfl)
  obtain ⟨a3, q3⟩ : ∃ e, e = feMul a1 Q.YplusX := ⟨_, rfl⟩
  have s3 : St h _ h.next [a1, a2, a3, o, o, o] :=
    s2.call 2 (mulU _ (s2.get0 (Nat.le_of_ble_eq_true rfl)) (s2.ext q (by omega) |>.trans h0) q3) (Nat.le_of_ble_eq_true rfl)
  obtain ⟨a4, q4⟩ : ∃ e, e = feMul a2 Q.YminusX := ⟨_, rfl⟩
  have s4 : St h _ h.next [a1, a2, a3, a4, o, o] :=
    s3.call 3 (mulU _ (s3.get 1 (Nat.le_of_ble_eq_true rfl)) (s3.ext (q + 1) (by omega) |>.trans h1) q4) (Nat.le_of_ble_eq_true rfl)
  obtain ⟨a5, q5⟩ : ∃ e, e = feMul (ptAt h p).t Q.T2d := ⟨_, rfl⟩
  have s5 : St h _ h.next [a1, a2, a3, a4, a5, o] :=
    s4.call 4 (mulU _ (s4.ext (p + 3) (by omega)) (s4.ext (q + 3) (by omega) |>.trans h3) q5) (Nat.le_of_ble_eq_true rfl)
  obtain ⟨a6, q6⟩ : ∃ e, e = feMul (ptAt h p).z Q.Z := ⟨_, rfl⟩
  have s6 : St h _ h.next [a1, a2, a3, a4, a5, a6] :=
    s5.call 5 (mulU _ (s5.ext (p + 2) (by omega)) (s5.ext (q + 2) (by omega) |>.trans h2) q6) (Nat.le_of_ble_eq_true rfl)
  obtain ⟨a7, q7⟩ : ∃ e, e = feAdd a6 a6 := ⟨_, rfl⟩
  have s7 : St h _ h.next [a1, a2, a3, a4, a5, a7] :=
    s6.call 5 (addU _ (s6.get 5 (Nat.le_of_ble_eq_true rfl)) (s6.get 5 (Nat.le_of_ble_eq_true rfl)) q7) (Nat.le_of_ble_eq_true rfl)
  simp only [p1Add, ← q1, ← q2, ← q3, ← q4, ← q5, ← q6, ← q7] at he
  obtain ⟨r0, r1, r2, r3⟩ := P1xP1.mk.inj he
  have nx : h.next + 6 ≤ _ := s7.next
  have g2 := s7.get 2 (Nat.le_of_ble_eq_true rfl)
  have g3 := s7.get 3 (Nat.le_of_ble_eq_true rfl)
  have g4 := s7.get 4 (Nat.le_of_ble_eq_true rfl)
  have g5 := s7.get 5 (Nat.le_of_ble_eq_true rfl)
  refine s7.ret ?_
  have u1 : Upd _ _ v [e0] := subU v g2 g3 r0.symm
  have u2 : Upd _ _ v [e0, e1] := u1.comp (addU (v + 1) (u1.read (by omega) (by simp; omega) g2) (u1.read (by omega) (by simp; omega) g3) r1.symm)
  have u3 : Upd _ _ v [e0, e1, e2] := u2.comp (addU (v + 2) (u2.read (by omega) (by simp; omega) g5) (u2.read (by omega) (by simp; omega) g4) r2.symm)
  exact u3.comp (subU (v + 3) (u3.read (by omega) (by simp; omega) g5) (u3.read (by omega) (by simp; omega) g4) r3.symm)

theorem goP1Sub_upd {h : Heap} (v : ℕ) {p q : ℕ} {P : Point} {Q : Cached} {e0 e1 e2 e3 : Elt} (hv : v + 4 ≤ h.next) (hp : p + 4 ≤ h.next) (hq : q + 4 ≤ h.next) (hP : ptAt h p = P)
    (h0 : h.mem q = Q.YplusX) (h1 : h.mem (q + 1) = Q.YminusX) (h2 : h.mem (q + 2) = Q.Z) (h3 : h.mem (q + 3) = Q.T2d)
    (he : p1Sub P Q = ⟨e0, e1, e2, e3⟩) : Upd h (goP1Sub v p q h) v [e0, e1, e2, e3] := by
  subst hP
  obtain ⟨o, ho⟩ : ∃ o, o = feZero := ⟨_, rfl⟩
  have s0 : St h _ h.next [o, o, o, o, o, o] := ho ▸ St.start h 6
  obtain ⟨a1, q1⟩ : ∃ e, e = feAdd (ptAt h p).y (ptAt h p).x := ⟨_, rfl⟩
  have s1 : St h _ h.next [a1, o, o, o, o, o] := s0.call0 (addU _ (s0.ext (p + 1) (by omega)) (s0.ext p (by omega)) q1) (Nat.le_of_ble_eq_true rfl)
  obtain ⟨a2, q2⟩ : ∃ e, e = feSub (ptAt h p).y (ptAt h p).x := ⟨_, rfl⟩
  have s2 : St h _ h.next [a1, a2, o, o, o, o] := s1.call 1 (subU _ (s1.ext (p + 1) (by omega)) (s1.ext p (by omega)) q2) (Nat.le_of_ble_eq_true rfl)
  obtain ⟨a3, q3⟩ : ∃ e, e = feMul a1 Q.YminusX := ⟨_, rfl⟩
  have s3 : St h _ h.next [a1, a2, a3, o, o, o] :=
    s2.call 2 (mulU _ (s2.get0 (Nat.le_of_ble_eq_true rfl)) (s2.ext (q + 1) (by omega) |>.trans h1) q3) (Nat.le_of_ble_eq_true rfl)
  obtain ⟨a4, q4⟩ : ∃ e, e = feMul a2 Q.YplusX := ⟨_, rfl⟩
  have s4 : St h _ h.next [a1, a2, a3, a4, o, o] :=
    s3.call 3 (mulU _ (s3.get 1 (Nat.le_of_ble_eq_true rfl)) (s3.ext q (by omega) |>.trans h0) q4) (Nat.le_of_ble_eq_true rfl)
  obtain ⟨a5, q5⟩ : ∃ e, e = feMul (ptAt h p).t Q.T2d := ⟨_, rfl⟩
  have s5 : St h _ h.next [a1, a2, a3, a4, a5, o] :=
    s4.call 4 (mulU _ (s4.ext (p + 3) (by omega)) (s4.ext (q + 3) (by omega) |>.trans h3) q5) (Nat.le_of_ble_eq_true rfl)
  obtain ⟨a6, q6⟩ : ∃ e, e = feMul (ptAt h p).z Q.Z := ⟨_, rfl⟩
  have s6 : St h _ h.next [a1, a2, a3, a4, a5, a6] :=
    s5.call 5 (mulU _ (s5.ext (p + 2) (by omega)) (s5.ext (q + 2) (by omega) |>.trans h2) q6) (Nat.le_of_ble_eq_true rfl)
  obtain ⟨a7, q7⟩ : ∃ e, e = feAdd a6 a6 := ⟨_, rfl⟩
  have s7 : St h _ h.next [a1, a2, a3, a4, a5, a7] :=
    s6.call 5 (addU _ (s6.get 5 (Nat.le_of_ble_eq_true rfl)) (s6.get 5 (Nat.le_of_ble_eq_true rfl)) q7) (Nat.le_of_ble_eq_true rfl)
  simp only [p1Sub, ← q1, ← q2, ← q3, ← q4, ← q5, ← q6, ← q7] at he
  obtain ⟨r0, r1, r2, r3⟩ := P1xP1.mk.inj he
  have nx : h.next + 6 ≤ _ := s7.next
  have g2 := s7.get 2 (Nat.le_of_ble_eq_true rfl)
  have g3 := s7.get 3 (Nat.le_of_ble_eq_true rfl)
  have g4 := s7.get 4 (Nat.le_of_ble_eq_true rfl)
  have g5 := s7.get 5 (Nat.le_of_ble_eq_true rfl)
  refine s7.ret ?_
  have u1 : Upd _ _ v [e0] := subU v g2 g3 r0.symm
  have u2 : Upd _ _ v [e0, e1] := u1.comp (addU (v + 1) (u1.read (by omega) (by simp; omega) g2) (u1.read (by omega) (by simp; omega) g3) r1.symm)
  have u3 : Upd _ _ v [e0, e1, e2] := u2.comp (subU (v + 2) (u2.read (by omega) (by simp; omega) g5) (u2.read (by omega) (by simp; omega) g4) r2.symm)
  exact u3.comp (addU (v + 3) (u3.read (by omega) (by simp; omega) g5) (u3.read (by omega) (by simp; omega) g4) r3.symm)

theorem goPtAdd_upd {h : Heap} (v p q : ℕ) (g : Glob h) (hv : v + 4 ≤ h.next) (hp : p + 4 ≤ h.next) (hq : q + 4 ≤ h.next) :
    (ptAdd (ptAt h p) (ptAt h q) = none ∧ goPtAdd v p q h = none) ∨
      ∃ R h', ptAdd (ptAt h p) (ptAt h q) = some R ∧ goPtAdd v p q h = some h' ∧ Upd h h' v (Pt.list R) := by
  unfold goPtAdd ptAdd
  simp only [goInit_eq]
  by_cases hi : (initialized (ptAt h p) && initialized (ptAt h q)) = true
  · right
    simp only [hi, if_true]
    refine ⟨_, _, rfl, rfl, ?_⟩
    obtain ⟨o, ho⟩ : ∃ o, o = feZero := ⟨_, rfl⟩
    have gl := g.le
    have s0 : St h _ h.next [o, o, o, o, o, o, o, o] := ho ▸ St.start h 8
    have n0 : h.next + 8 ≤ _ := s0.next
    have g0 : Glob (h.alloc 8) := g.of s0.retSame
    obtain ⟨C, hC⟩ : ∃ C, C = cachedFromP3 (ptAt h q) := ⟨_, rfl⟩
    have c1 := goCachedFromP3_upd h.next g0 gl (p := q) (P := ptAt h q) (by omega) (by omega) (s0.pt hq)
    rw [← hC] at c1 ⊢
    have s1 : St h _ h.next [C.YplusX, C.YminusX, C.Z, C.T2d, o, o, o, o] := s0.call0 c1 (Nat.le_of_ble_eq_true rfl)
    have n1 : h.next + 8 ≤ _ := s1.next
    obtain ⟨e0, e1, e2, e3, hr⟩ : ∃ e0 e1 e2 e3, p1Add (ptAt h p) C = ⟨e0, e1, e2, e3⟩ := ⟨_, _, _, _, rfl⟩
    have s2 : St h _ h.next [C.YplusX, C.YminusX, C.Z, C.T2d, e0, e1, e2, e3] := s1.call 4 (goP1Add_upd (h.next + 4) (p := p) (q := h.next) (by omega) (by omega) (by omega)
      (s1.pt hp)
      (s1.get0 (Nat.le_of_ble_eq_true rfl)) (s1.get 1 (Nat.le_of_ble_eq_true rfl)) (s1.get 2 (Nat.le_of_ble_eq_true rfl)) (s1.get 3 (Nat.le_of_ble_eq_true rfl)) hr)
      (Nat.le_of_ble_eq_true rfl)
    have n2 : h.next + 8 ≤ _ := s2.next
    rw [hr]
    exact s2.ret (goFromP1_upd v (p := h.next + 4) (t := ⟨e0, e1, e2, e3⟩) (by omega) (by omega) (s2.get 4 (Nat.le_of_ble_eq_true rfl))
      (s2.get 5 (Nat.le_of_ble_eq_true rfl)) (s2.get 6 (Nat.le_of_ble_eq_true rfl)) (s2.get 7 (Nat.le_of_ble_eq_true rfl)))
  · left
    simp only [hi, Bool.false_eq_true, if_false, and_self]

theorem goPtSub_upd {h : Heap} (v p q : ℕ) (g : Glob h) (hv : v + 4 ≤ h.next) (hp : p + 4 ≤ h.next) (hq : q + 4 ≤ h.next) :
    (ptSub (ptAt h p) (ptAt h q) = none ∧ goPtSub v p q h = none) ∨
      ∃ R h', ptSub (ptAt h p) (ptAt h q) = some R ∧ goPtSub v p q h = some h' ∧ Upd h h' v (Pt.list R) := by
  unfold goPtSub ptSub
  simp only [goInit_eq]
  by_cases hi : (initialized (ptAt h p) && initialized (ptAt h q)) = true
  · right
    simp only [hi, if_true]
    refine ⟨_, _, rfl, rfl, ?_⟩
    obtain ⟨o, ho⟩ : ∃ o, o = feZero := ⟨_, rfl⟩
    have gl := g.le
    have s0 : St h _ h.next [o, o, o, o, o, o, o, o] := ho ▸ St.start h 8
    have n0 : h.next + 8 ≤ _ := s0.next
    have g0 : Glob (h.alloc 8) := g.of s0.retSame
    obtain ⟨C, hC⟩ : ∃ C, C = cachedFromP3 (ptAt h q) := ⟨_, rfl⟩
    have c1 := goCachedFromP3_upd h.next g0 gl (p := q) (P := ptAt h q) (by omega) (by omega) (s0.pt hq)
    rw [← hC] at c1 ⊢
    have s1 : St h _ h.next [C.YplusX, C.YminusX, C.Z, C.T2d, o, o, o, o] := s0.call0 c1 (Nat.le_of_ble_eq_true rfl)
    have n1 : h.next + 8 ≤ _ := s1.next
    obtain ⟨e0, e1, e2, e3, hr⟩ : ∃ e0 e1 e2 e3, p1Sub (ptAt h p) C = ⟨e0, e1, e2, e3⟩ := ⟨_, _, _, _, rfl⟩
    have s2 : St h _ h.next [C.YplusX, C.YminusX, C.Z, C.T2d, e0, e1, e2, e3] := s1.call 4 (goP1Sub_upd (h.next + 4) (p := p) (q := h.next) (by omega) (by omega) (by omega)
      (s1.pt hp)
      (s1.get0 (Nat.le_of_ble_eq_true rfl)) (s1.get 1 (Nat.le_of_ble_eq_true rfl)) (s1.get 2 (Nat.le_of_ble_eq_true rfl)) (s1.get 3 (Nat.le_of_ble_eq_true rfl)) hr)
      (Nat.le_of_ble_eq_true rfl)
    have n2 : h.next + 8 ≤ _ := s2.next
    rw [hr]
    exact s2.ret (goFromP1_upd v (p := h.next + 4) (t := ⟨e0, e1, e2, e3⟩) (by omega) (by omega) (s2.get 4 (Nat.le_of_ble_eq_true rfl))
      (s2.get 5 (Nat.le_of_ble_eq_true rfl)) (s2.get 6 (Nat.le_of_ble_eq_true rfl)) (s2.get 7 (Nat.le_of_ble_eq_true rfl)))
  · left
    simp only [hi, Bool.false_eq_true, if_false, and_self]

end Verif.EdHost.Alias
