import Verif.EdHost.AliasModel

/-! # The pointer versions of the field methods compute the value versions, whatever aliases what -/

namespace Verif.EdHost.Alias
open Verif.EdHost

namespace Heap
theorem ext' {h k : Heap} (h1 : h.mem = k.mem) (h2 : h.next = k.next) : h = k := by
  cases h; cases k; simp_all

theorem mem_set (h : Heap) (p : ℕ) (e : Elt) (q : ℕ) : (h.set p e).mem q = if q = p then e else h.mem q := rfl
theorem mem_set_self (h : Heap) (p : ℕ) (e : Elt) : (h.set p e).mem p = e := by simp [mem_set]
theorem mem_set_ne (h : Heap) {p q : ℕ} (e : Elt) (hn : q ≠ p) : (h.set p e).mem q = h.mem q := by simp [mem_set, hn]
theorem next_set (h : Heap) (p : ℕ) (e : Elt) : (h.set p e).next = h.next := rfl
theorem set_set (h : Heap) (p : ℕ) (e f : Elt) : (h.set p e).set p f = h.set p f := by
  apply ext'
  · funext q; simp only [mem_set]; split <;> rfl
  · rfl
theorem set_self (h : Heap) (p : ℕ) : h.set p (h.mem p) = h := by
  apply ext'
  · funext q; simp only [mem_set]; split
    · subst_vars; rfl
    · rfl
  · rfl
theorem next_alloc (h : Heap) (k : ℕ) : (h.alloc k).next = h.next + k := rfl
theorem mem_alloc_lt (h : Heap) (k : ℕ) {q : ℕ} (hq : q < h.next) : (h.alloc k).mem q = h.mem q := by
  unfold alloc; simp only; rw [if_neg]; omega
end Heap
open Heap

/-- `h'` is `h` with the cells from `v` on changed to the elements of `es` (cells allocated since do not matter). -/
def Upd (h h' : Heap) (v : ℕ) (es : List Elt) : Prop :=
  h.next ≤ h'.next ∧ ∀ p, p < h.next → h'.mem p = if v ≤ p ∧ p < v + es.length then es.getD (p - v) feZero else h.mem p

/-- `h'` is `h` (cells allocated since do not matter). -/
def Same (h h' : Heap) : Prop := h.next ≤ h'.next ∧ ∀ p, p < h.next → h'.mem p = h.mem p

/-- In a function entered with heap `h0`: the local variables, at `n = h0.next` and following, have the values `l`; the rest is unchanged. -/
structure St (h0 h : Heap) (n : ℕ) (l : List Elt) : Prop where
  n_eq : n = h0.next
  next : n + l.length ≤ h.next
  ext : ∀ p, p < n → h.mem p = h0.mem p
  loc : ∀ i, i < l.length → h.mem (n + i) = l.getD i feZero

theorem St.start (h : Heap) (k : ℕ) : St h (h.alloc k) h.next (List.replicate k feZero) := by
  refine ⟨rfl, by simp [next_alloc], fun p hp => mem_alloc_lt _ _ hp, fun i hi => ?_⟩
  simp only [List.length_replicate] at hi
  unfold alloc
  simp only
  rw [if_pos (by omega)]
  simp [List.getD, hi]

theorem St.get {h0 h : Heap} {n : ℕ} {l : List Elt} (s : St h0 h n l) (i : ℕ) (hi : i < l.length) : h.mem (n + i) = l.getD i feZero := s.loc i hi

theorem St.get0 {h0 h : Heap} {n : ℕ} {l : List Elt} (s : St h0 h n l) (hi : 0 < l.length) : h.mem n = l.getD 0 feZero := s.loc 0 hi

theorem getD_splice (l es : List Elt) (d i : ℕ) (hd : d + es.length ≤ l.length) :
    (l.take d ++ es ++ l.drop (d + es.length)).getD i feZero = if d ≤ i ∧ i < d + es.length then es.getD (i - d) feZero else l.getD i feZero := by
  have ht : (l.take d).length = d := by simp; omega
  simp only [List.getD_eq_getElem?_getD, List.append_assoc]
  by_cases h1 : i < d
  · rw [if_neg (by omega), List.getElem?_append_left (by omega), List.getElem?_take, if_pos h1]
  · rw [List.getElem?_append_right (by omega), ht]
    by_cases h2 : i < d + es.length
    · rw [if_pos (by omega), List.getElem?_append_left (by omega)]
    · rw [if_neg (by omega), List.getElem?_append_right (by omega), List.getElem?_drop]
      congr 2; omega

theorem St.call {h0 h h' : Heap} {n : ℕ} {l es : List Elt} (s : St h0 h n l) (d : ℕ) (u : Upd h h' (n + d) es) (hd : d + es.length ≤ l.length) :
    St h0 h' n (l.take d ++ es ++ l.drop (d + es.length)) := by
  have hl : (l.take d ++ es ++ l.drop (d + es.length)).length = l.length := by simp; omega
  have hn := s.next
  refine ⟨s.n_eq, by rw [hl]; exact s.next.trans u.1, fun p hp => ?_, fun i hi => ?_⟩
  · rw [u.2 p (by omega), if_neg (by omega), s.ext p hp]
  · rw [hl] at hi
    rw [u.2 _ (by omega), getD_splice _ _ _ _ hd]
    by_cases h1 : d ≤ i ∧ i < d + es.length
    · rw [if_pos (by omega), if_pos h1]; congr 1; omega
    · rw [if_neg (by omega), if_neg h1, s.loc i hi]

theorem St.call0 {h0 h h' : Heap} {n : ℕ} {l es : List Elt} (s : St h0 h n l) (u : Upd h h' n es) (hd : 0 + es.length ≤ l.length) :
    St h0 h' n (l.take 0 ++ es ++ l.drop (0 + es.length)) := s.call 0 u hd

theorem St.same {h0 h h' : Heap} {n : ℕ} {l : List Elt} (s : St h0 h n l) (u : Same h h') : St h0 h' n l :=
  ⟨s.n_eq, s.next.trans u.1, fun p hp => by rw [u.2 p (by have := s.next; omega), s.ext p hp],
    fun i hi => by rw [u.2 _ (by have := s.next; omega), s.loc i hi]⟩

theorem St.ret {h0 h h' : Heap} {n : ℕ} {l es : List Elt} {v : ℕ} (s : St h0 h n l) (u : Upd h h' v es) : Upd h0 h' v es := by
  have := s.next
  have := s.n_eq
  refine ⟨by have := u.1; omega, fun p hp => ?_⟩
  rw [u.2 p (by omega)]
  split
  · rfl
  · exact s.ext p (by omega)

theorem St.retSame {h0 h : Heap} {n : ℕ} {l : List Elt} (s : St h0 h n l) : Same h0 h :=
  ⟨by have := s.next; have := s.n_eq; omega, fun p hp => s.ext p (by have := s.n_eq; omega)⟩

theorem set_upd (h : Heap) (v : ℕ) {e f : Elt} (he : e = f) : Upd h (h.set v f) v [e] := by
  subst he
  refine ⟨le_rfl, fun p _ => ?_⟩
  rw [mem_set]
  by_cases h1 : p = v
  · subst h1; rw [if_pos rfl, if_pos (by simp)]; simp
  · rw [if_neg h1, if_neg (by simp only [List.length_singleton]; omega)]

theorem goCarry_eq (v : ℕ) (h : Heap) : goCarry v h = h.set v (carryPropagate (h.mem v)) := by
  simp only [goCarry, carryPropagate, set0, set1, set2, set3, set4, mem_set_self, set_set]

theorem goFinish_eq (v : ℕ) (r0 r1 r2 r3 r4 : U128) (h : Heap) : goFinish v r0 r1 r2 r3 r4 h = h.set v (finish r0 r1 r2 r3 r4) := by
  simp only [goFinish, finish, goCarry_eq, mem_set_self, set_set]

theorem goMul_eq (v a b : ℕ) (h : Heap) : goMul v a b h = h.set v (feMul (h.mem a) (h.mem b)) := by
  simp only [goMul, feMul, goFinish_eq]

theorem goSquare_eq (v a : ℕ) (h : Heap) : goSquare v a h = h.set v (feSquare (h.mem a)) := by
  simp only [goSquare, feSquare, goFinish_eq]

theorem set0_set (h : Heap) (v x : ℕ) (e : Elt) : (h.set v e).set0 v x = h.set v ⟨x, e.l1, e.l2, e.l3, e.l4⟩ := by
  simp only [set0, mem_set_self, set_set]
theorem set1_set (h : Heap) (v x : ℕ) (e : Elt) : (h.set v e).set1 v x = h.set v ⟨e.l0, x, e.l2, e.l3, e.l4⟩ := by
  simp only [set1, mem_set_self, set_set]
theorem set2_set (h : Heap) (v x : ℕ) (e : Elt) : (h.set v e).set2 v x = h.set v ⟨e.l0, e.l1, x, e.l3, e.l4⟩ := by
  simp only [set2, mem_set_self, set_set]
theorem set3_set (h : Heap) (v x : ℕ) (e : Elt) : (h.set v e).set3 v x = h.set v ⟨e.l0, e.l1, e.l2, x, e.l4⟩ := by
  simp only [set3, mem_set_self, set_set]
theorem set4_set (h : Heap) (v x : ℕ) (e : Elt) : (h.set v e).set4 v x = h.set v ⟨e.l0, e.l1, e.l2, e.l3, x⟩ := by
  simp only [set4, mem_set_self, set_set]

theorem goReduce_eq (v : ℕ) (h : Heap) : goReduce v h = h.set v (reduce (h.mem v)) := by
  unfold goReduce reduce
  simp only [goCarry_eq]
  generalize carryPropagate (h.mem v) = w
  simp only [mem_set_self]
  obtain ⟨c, hc⟩ : ∃ c, c = add64 w.l4 (add64 w.l3 (add64 w.l2 (add64 w.l1 (add64 w.l0 19 >>> 51) >>> 51) >>> 51) >>> 51) >>> 51 := ⟨_, rfl⟩
  simp only [← hc]
  simp only [set0_set, set1_set, set2_set, set3_set, set4_set, mem_set_self]

theorem goAdd_eq (v a b : ℕ) (h : Heap) : goAdd v a b h = h.set v (feAdd (h.mem a) (h.mem b)) := by
  simp only [goAdd, feAdd, goCarry_eq, set0, set1, set2, set3, set4, mem_set_self, set_set]
  congr 2
  by_cases h1 : a = v <;> by_cases h2 : b = v <;> simp only [h1, h2, mem_set_self, set_set, ne_eq, not_false_eq_true, mem_set_ne]

theorem goSub_eq (v a b : ℕ) (h : Heap) : goSub v a b h = h.set v (feSub (h.mem a) (h.mem b)) := by
  unfold goSub feSub
  generalize (0xFFFFFFFFFFFDA : ℕ) = A
  generalize (0xFFFFFFFFFFFFE : ℕ) = B
  by_cases h1 : a = v <;> by_cases h2 : b = v <;>
    simp only [goCarry_eq, set0, set1, set2, set3, set4, h1, h2, mem_set_self, set_set, ne_eq, not_false_eq_true, mem_set_ne]

theorem goSelect_eq (v a b c : ℕ) (h : Heap) : goSelect v a b c h = h.set v (feSelect (h.mem a) (h.mem b) c) := by
  simp only [goSelect, feSelect, set0, set1, set2, set3, set4, mem_set_self, set_set]
  congr 1
  by_cases h1 : a = v <;> by_cases h2 : b = v <;> simp only [h1, h2, mem_set_self, set_set, ne_eq, not_false_eq_true, mem_set_ne]

theorem goMult32_eq (v x y : ℕ) (h : Heap) : goMult32 v x y h = h.set v (feMult32 (h.mem x) y) := by
  simp only [goMult32, feMult32, set0, set1, set2, set3, set4, mem_set_self, set_set]

theorem goNeg_eq (v a : ℕ) (h : Heap) (hz : h.mem pZero = feZero) : goNeg v a h = h.set v (feNeg (h.mem a)) := by
  rw [goNeg, goSub_eq, hz, feNeg]

theorem goSwap_eq (v u c : ℕ) (h : Heap) (hne : v ≠ u) :
    goSwap v u c h = (h.set v (feSwap (h.mem v) (h.mem u) c).1).set u (feSwap (h.mem v) (h.mem u) c).2 := by
  apply ext'
  · funext q
    by_cases h1 : q = u
    · subst h1
      simp only [goSwap, feSwap, set0, set1, set2, set3, set4, mem_set_self, mem_set_ne _ _ hne, mem_set_ne _ _ hne.symm]
    · by_cases h2 : q = v
      · subst h2
        simp only [goSwap, feSwap, set0, set1, set2, set3, set4, mem_set_self, mem_set_ne _ _ hne, mem_set_ne _ _ hne.symm]
      · simp only [goSwap, feSwap, set0, set1, set2, set3, set4, mem_set_ne _ _ h1, mem_set_ne _ _ h2]
  · rfl

theorem goSwap_self (v c : ℕ) (h : Heap) : goSwap v v c h = h := by
  simp only [goSwap, set0, set1, set2, set3, set4, mem_set_self, set_set, Nat.xor_self, Nat.and_zero, Nat.xor_zero]
  exact set_self h v

theorem goSqn_eq (t n : ℕ) (h : Heap) : goSqn t n h = h.set t (sqn n (h.mem t)) := by
  induction n generalizing h with
  | zero => simp only [goSqn, sqn, set_self]
  | succ n ih => simp only [goSqn, sqn, ih, goSquare_eq, mem_set_self, set_set]

/-- The two cases of `SetBytes`. -/
theorem goSetBytes_eq (v : ℕ) (x : List ℕ) (h : Heap) :
    goSetBytes v x h = match feSetBytes x with | none => (h, true) | some e => (h.set v e, false) := by
  unfold goSetBytes feSetBytes
  by_cases hx : x.length ≠ 32
  · simp only [if_pos hx]
  · simp only [if_neg hx, set0, set1, set2, set3, set4, mem_set_self, set_set]

theorem goBytes_val (v : ℕ) (h : Heap) (hv : v < h.next) : (goBytes v h).2 = feBytes (h.mem v) := by
  simp only [goBytes, feBytes, goReduce_eq, mem_set_self, mem_alloc_lt _ _ hv]

theorem goBytes_same (v : ℕ) (h : Heap) : Same h (goBytes v h).1 := by
  refine ⟨by simp only [goBytes, goReduce_eq, next_set, next_alloc]; omega, fun p hp => ?_⟩
  simp only [goBytes, goReduce_eq]
  rw [mem_set_ne _ _ (by omega), mem_set_ne _ _ (by omega), mem_alloc_lt _ _ hp]

theorem Same.trans {h k l : Heap} (h1 : Same h k) (h2 : Same k l) : Same h l :=
  ⟨h1.1.trans h2.1, fun p hp => by rw [h2.2 p (lt_of_lt_of_le hp h1.1), h1.2 p hp]⟩

theorem goEqual_val (v u : ℕ) (h : Heap) (hv : v < h.next) (hu : u < h.next) : (goEqual v u h).2 = feEqual (h.mem v) (h.mem u) := by
  have s := goBytes_same u h
  simp only [goEqual, feEqual]
  rw [goBytes_val u h hu, goBytes_val v _ (lt_of_lt_of_le hv s.1), s.2 v hv]

theorem goEqual_same (v u : ℕ) (h : Heap) : Same h (goEqual v u h).1 := (goBytes_same u h).trans (goBytes_same v _)

theorem goIsNegative_val (v : ℕ) (h : Heap) (hv : v < h.next) : (goIsNegative v h).2 = feIsNegative (h.mem v) := by
  simp only [goIsNegative, feIsNegative, goBytes_val v h hv]

theorem goIsNegative_same (v : ℕ) (h : Heap) : Same h (goIsNegative v h).1 := goBytes_same v h

theorem mulU {h : Heap} (v : ℕ) {a b : ℕ} {x y e : Elt} (ha : h.mem a = x) (hb : h.mem b = y) (he : e = feMul x y) : Upd h (goMul v a b h) v [e] := by
  rw [goMul_eq, ha, hb]; exact set_upd _ _ he

theorem sqU {h : Heap} (v : ℕ) {a : ℕ} {x e : Elt} (ha : h.mem a = x) (he : e = feSquare x) : Upd h (goSquare v a h) v [e] := by
  rw [goSquare_eq, ha]; exact set_upd _ _ he

theorem sqnU {h : Heap} (t n : ℕ) {x e : Elt} (ha : h.mem t = x) (he : e = sqn n x) : Upd h (goSqn t n h) t [e] := by
  rw [goSqn_eq, ha]; exact set_upd _ _ he

theorem addU {h : Heap} (v : ℕ) {a b : ℕ} {x y e : Elt} (ha : h.mem a = x) (hb : h.mem b = y) (he : e = feAdd x y) : Upd h (goAdd v a b h) v [e] := by
  rw [goAdd_eq, ha, hb]; exact set_upd _ _ he

theorem subU {h : Heap} (v : ℕ) {a b : ℕ} {x y e : Elt} (ha : h.mem a = x) (hb : h.mem b = y) (he : e = feSub x y) : Upd h (goSub v a b h) v [e] := by
  rw [goSub_eq, ha, hb]; exact set_upd _ _ he

theorem selU {h : Heap} (v c : ℕ) {a b : ℕ} {x y e : Elt} (ha : h.mem a = x) (hb : h.mem b = y) (he : e = feSelect x y c) :
    Upd h (goSelect v a b c h) v [e] := by
  rw [goSelect_eq, ha, hb]; exact set_upd _ _ he

theorem negU {h : Heap} (v : ℕ) {a : ℕ} {x e : Elt} (ha : h.mem a = x) (hz : h.mem pZero = feZero) (he : e = feNeg x) : Upd h (goNeg v a h) v [e] := by
  rw [goNeg_eq _ _ _ hz, ha]; exact set_upd _ _ he

theorem goAbs_upd {h : Heap} (v : ℕ) {u : ℕ} {x e : Elt} (hu : u < h.next) (h0 : pZero < h.next) (hz : h.mem pZero = feZero) (hx : h.mem u = x)
    (he : e = feAbs x) : Upd h (goAbs v u h) v [e] := by
  subst hx
  obtain ⟨m, hm⟩ : ∃ m, m = feNeg (h.mem u) := ⟨_, rfl⟩
  have s0 := St.start h 1
  have s1 : St h _ h.next [m] := s0.call0 (negU h.next (s0.ext u hu) ((s0.ext _ h0).trans hz) hm) le_rfl
  have hb : u < (goNeg h.next u (h.alloc 1)).next := lt_of_lt_of_le hu s1.retSame.1
  have e2 := goIsNegative_val u _ hb
  rw [s1.ext u hu] at e2
  have s2 : St h _ h.next [m] := s1.same (goIsNegative_same u _)
  refine s2.ret ?_
  refine selU v _ (s2.get0 (Nat.le_of_ble_eq_true rfl)) (s2.ext u hu) ?_
  rw [he, e2, feAbs, hm]
  rfl

theorem goInvert_upd {h : Heap} (v : ℕ) {z : ℕ} {ez e : Elt} (hz : z < h.next) (hx : h.mem z = ez) (he : e = feInvert ez) :
    Upd h (goInvert v z h) v [e] := by
  obtain ⟨o, ho⟩ : ∃ o, o = feZero := ⟨_, rfl⟩
  have s0 : St h _ h.next [o, o, o, o, o, o, o, o, o] := ho ▸ St.start h 9
  obtain ⟨e1, q1⟩ : ∃ e, e = feSquare ez := ⟨_, rfl⟩
  have s1 : St h _ h.next [e1, o, o, o, o, o, o, o, o] := s0.call0 (sqU _ (s0.ext _ hz |>.trans hx) q1) (Nat.le_of_ble_eq_true rfl)
  obtain ⟨e2, q2⟩ : ∃ e, e = feSquare e1 := ⟨_, rfl⟩
  have s2 : St h _ h.next [e1, o, o, o, o, o, o, o, e2] := s1.call 8 (sqU _ (s1.get0 (Nat.le_of_ble_eq_true rfl)) q2) (Nat.le_of_ble_eq_true rfl)
  obtain ⟨e3, q3⟩ : ∃ e, e = feSquare e2 := ⟨_, rfl⟩
  have s3 : St h _ h.next [e1, o, o, o, o, o, o, o, e3] := s2.call 8 (sqU _ (s2.get 8 (Nat.le_of_ble_eq_true rfl)) q3) (Nat.le_of_ble_eq_true rfl)
  obtain ⟨e4, q4⟩ : ∃ e, e = feMul e3 ez := ⟨_, rfl⟩
  have s4 : St h _ h.next [e1, e4, o, o, o, o, o, o, e3] := s3.call 1 (mulU _ (s3.get 8 (Nat.le_of_ble_eq_true rfl)) (s3.ext _ hz |>.trans hx) q4) (Nat.le_of_ble_eq_true rfl)
  obtain ⟨e5, q5⟩ : ∃ e, e = feMul e4 e1 := ⟨_, rfl⟩
  have s5 : St h _ h.next [e1, e4, e5, o, o, o, o, o, e3] := s4.call 2 (mulU _ (s4.get 1 (Nat.le_of_ble_eq_true rfl)) (s4.get0 (Nat.le_of_ble_eq_true rfl)) q5) (Nat.le_of_ble_eq_true rfl)
  obtain ⟨e6, q6⟩ : ∃ e, e = feSquare e5 := ⟨_, rfl⟩
  have s6 : St h _ h.next [e1, e4, e5, o, o, o, o, o, e6] := s5.call 8 (sqU _ (s5.get 2 (Nat.le_of_ble_eq_true rfl)) q6) (Nat.le_of_ble_eq_true rfl)
  obtain ⟨e7, q7⟩ : ∃ e, e = feMul e6 e4 := ⟨_, rfl⟩
  have s7 : St h _ h.next [e1, e4, e5, e7, o, o, o, o, e6] := s6.call 3 (mulU _ (s6.get 8 (Nat.le_of_ble_eq_true rfl)) (s6.get 1 (Nat.le_of_ble_eq_true rfl)) q7) (Nat.le_of_ble_eq_true rfl)
  obtain ⟨e8, q8⟩ : ∃ e, e = feSquare e7 := ⟨_, rfl⟩
  have s8 : St h _ h.next [e1, e4, e5, e7, o, o, o, o, e8] := s7.call 8 (sqU _ (s7.get 3 (Nat.le_of_ble_eq_true rfl)) q8) (Nat.le_of_ble_eq_true rfl)
  obtain ⟨e9, q9⟩ : ∃ e, e = sqn 4 e8 := ⟨_, rfl⟩
  have s9 : St h _ h.next [e1, e4, e5, e7, o, o, o, o, e9] := s8.call 8 (sqnU _ 4 (s8.get 8 (Nat.le_of_ble_eq_true rfl)) q9) (Nat.le_of_ble_eq_true rfl)
  obtain ⟨e10, q10⟩ : ∃ e, e = feMul e9 e7 := ⟨_, rfl⟩
  have s10 : St h _ h.next [e1, e4, e5, e7, e10, o, o, o, e9] := s9.call 4 (mulU _ (s9.get 8 (Nat.le_of_ble_eq_true rfl)) (s9.get 3 (Nat.le_of_ble_eq_true rfl)) q10) (Nat.le_of_ble_eq_true rfl)
  obtain ⟨e11, q11⟩ : ∃ e, e = feSquare e10 := ⟨_, rfl⟩
  have s11 : St h _ h.next [e1, e4, e5, e7, e10, o, o, o, e11] := s10.call 8 (sqU _ (s10.get 4 (Nat.le_of_ble_eq_true rfl)) q11) (Nat.le_of_ble_eq_true rfl)
  obtain ⟨e12, q12⟩ : ∃ e, e = sqn 9 e11 := ⟨_, rfl⟩
  have s12 : St h _ h.next [e1, e4, e5, e7, e10, o, o, o, e12] := s11.call 8 (sqnU _ 9 (s11.get 8 (Nat.le_of_ble_eq_true rfl)) q12) (Nat.le_of_ble_eq_true rfl)
  obtain ⟨e13, q13⟩ : ∃ e, e = feMul e12 e10 := ⟨_, rfl⟩
  have s13 : St h _ h.next [e1, e4, e5, e7, e10, e13, o, o, e12] := s12.call 5 (mulU _ (s12.get 8 (Nat.le_of_ble_eq_true rfl)) (s12.get 4 (Nat.le_of_ble_eq_true rfl)) q13) (Nat.le_of_ble_eq_true rfl)
  obtain ⟨e14, q14⟩ : ∃ e, e = feSquare e13 := ⟨_, rfl⟩
  have s14 : St h _ h.next [e1, e4, e5, e7, e10, e13, o, o, e14] := s13.call 8 (sqU _ (s13.get 5 (Nat.le_of_ble_eq_true rfl)) q14) (Nat.le_of_ble_eq_true rfl)
  obtain ⟨e15, q15⟩ : ∃ e, e = sqn 19 e14 := ⟨_, rfl⟩
  have s15 : St h _ h.next [e1, e4, e5, e7, e10, e13, o, o, e15] := s14.call 8 (sqnU _ 19 (s14.get 8 (Nat.le_of_ble_eq_true rfl)) q15) (Nat.le_of_ble_eq_true rfl)
  obtain ⟨e16, q16⟩ : ∃ e, e = feMul e15 e13 := ⟨_, rfl⟩
  have s16 : St h _ h.next [e1, e4, e5, e7, e10, e13, o, o, e16] := s15.call 8 (mulU _ (s15.get 8 (Nat.le_of_ble_eq_true rfl)) (s15.get 5 (Nat.le_of_ble_eq_true rfl)) q16) (Nat.le_of_ble_eq_true rfl)
  obtain ⟨e17, q17⟩ : ∃ e, e = feSquare e16 := ⟨_, rfl⟩
  have s17 : St h _ h.next [e1, e4, e5, e7, e10, e13, o, o, e17] := s16.call 8 (sqU _ (s16.get 8 (Nat.le_of_ble_eq_true rfl)) q17) (Nat.le_of_ble_eq_true rfl)
  obtain ⟨e18, q18⟩ : ∃ e, e = sqn 9 e17 := ⟨_, rfl⟩
  have s18 : St h _ h.next [e1, e4, e5, e7, e10, e13, o, o, e18] := s17.call 8 (sqnU _ 9 (s17.get 8 (Nat.le_of_ble_eq_true rfl)) q18) (Nat.le_of_ble_eq_true rfl)
  obtain ⟨e19, q19⟩ : ∃ e, e = feMul e18 e10 := ⟨_, rfl⟩
  have s19 : St h _ h.next [e1, e4, e5, e7, e10, e13, e19, o, e18] := s18.call 6 (mulU _ (s18.get 8 (Nat.le_of_ble_eq_true rfl)) (s18.get 4 (Nat.le_of_ble_eq_true rfl)) q19) (Nat.le_of_ble_eq_true rfl)
  obtain ⟨e20, q20⟩ : ∃ e, e = feSquare e19 := ⟨_, rfl⟩
  have s20 : St h _ h.next [e1, e4, e5, e7, e10, e13, e19, o, e20] := s19.call 8 (sqU _ (s19.get 6 (Nat.le_of_ble_eq_true rfl)) q20) (Nat.le_of_ble_eq_true rfl)
  obtain ⟨e21, q21⟩ : ∃ e, e = sqn 49 e20 := ⟨_, rfl⟩
  have s21 : St h _ h.next [e1, e4, e5, e7, e10, e13, e19, o, e21] := s20.call 8 (sqnU _ 49 (s20.get 8 (Nat.le_of_ble_eq_true rfl)) q21) (Nat.le_of_ble_eq_true rfl)
  obtain ⟨e22, q22⟩ : ∃ e, e = feMul e21 e19 := ⟨_, rfl⟩
  have s22 : St h _ h.next [e1, e4, e5, e7, e10, e13, e19, e22, e21] := s21.call 7 (mulU _ (s21.get 8 (Nat.le_of_ble_eq_true rfl)) (s21.get 6 (Nat.le_of_ble_eq_true rfl)) q22) (Nat.le_of_ble_eq_true rfl)
  obtain ⟨e23, q23⟩ : ∃ e, e = feSquare e22 := ⟨_, rfl⟩
  have s23 : St h _ h.next [e1, e4, e5, e7, e10, e13, e19, e22, e23] := s22.call 8 (sqU _ (s22.get 7 (Nat.le_of_ble_eq_true rfl)) q23) (Nat.le_of_ble_eq_true rfl)
  obtain ⟨e24, q24⟩ : ∃ e, e = sqn 99 e23 := ⟨_, rfl⟩
  have s24 : St h _ h.next [e1, e4, e5, e7, e10, e13, e19, e22, e24] := s23.call 8 (sqnU _ 99 (s23.get 8 (Nat.le_of_ble_eq_true rfl)) q24) (Nat.le_of_ble_eq_true rfl)
  obtain ⟨e25, q25⟩ : ∃ e, e = feMul e24 e22 := ⟨_, rfl⟩
  have s25 : St h _ h.next [e1, e4, e5, e7, e10, e13, e19, e22, e25] := s24.call 8 (mulU _ (s24.get 8 (Nat.le_of_ble_eq_true rfl)) (s24.get 7 (Nat.le_of_ble_eq_true rfl)) q25) (Nat.le_of_ble_eq_true rfl)
  obtain ⟨e26, q26⟩ : ∃ e, e = feSquare e25 := ⟨_, rfl⟩
  have s26 : St h _ h.next [e1, e4, e5, e7, e10, e13, e19, e22, e26] := s25.call 8 (sqU _ (s25.get 8 (Nat.le_of_ble_eq_true rfl)) q26) (Nat.le_of_ble_eq_true rfl)
  obtain ⟨e27, q27⟩ : ∃ e, e = sqn 49 e26 := ⟨_, rfl⟩
  have s27 : St h _ h.next [e1, e4, e5, e7, e10, e13, e19, e22, e27] := s26.call 8 (sqnU _ 49 (s26.get 8 (Nat.le_of_ble_eq_true rfl)) q27) (Nat.le_of_ble_eq_true rfl)
  obtain ⟨e28, q28⟩ : ∃ e, e = feMul e27 e19 := ⟨_, rfl⟩
  have s28 : St h _ h.next [e1, e4, e5, e7, e10, e13, e19, e22, e28] := s27.call 8 (mulU _ (s27.get 8 (Nat.le_of_ble_eq_true rfl)) (s27.get 6 (Nat.le_of_ble_eq_true rfl)) q28) (Nat.le_of_ble_eq_true rfl)
  obtain ⟨e29, q29⟩ : ∃ e, e = feSquare e28 := ⟨_, rfl⟩
  have s29 : St h _ h.next [e1, e4, e5, e7, e10, e13, e19, e22, e29] := s28.call 8 (sqU _ (s28.get 8 (Nat.le_of_ble_eq_true rfl)) q29) (Nat.le_of_ble_eq_true rfl)
  obtain ⟨e30, q30⟩ : ∃ e, e = feSquare e29 := ⟨_, rfl⟩
  have s30 : St h _ h.next [e1, e4, e5, e7, e10, e13, e19, e22, e30] := s29.call 8 (sqU _ (s29.get 8 (Nat.le_of_ble_eq_true rfl)) q30) (Nat.le_of_ble_eq_true rfl)
  obtain ⟨e31, q31⟩ : ∃ e, e = feSquare e30 := ⟨_, rfl⟩
  have s31 : St h _ h.next [e1, e4, e5, e7, e10, e13, e19, e22, e31] := s30.call 8 (sqU _ (s30.get 8 (Nat.le_of_ble_eq_true rfl)) q31) (Nat.le_of_ble_eq_true rfl)
  obtain ⟨e32, q32⟩ : ∃ e, e = feSquare e31 := ⟨_, rfl⟩
  have s32 : St h _ h.next [e1, e4, e5, e7, e10, e13, e19, e22, e32] := s31.call 8 (sqU _ (s31.get 8 (Nat.le_of_ble_eq_true rfl)) q32) (Nat.le_of_ble_eq_true rfl)
  obtain ⟨e33, q33⟩ : ∃ e, e = feSquare e32 := ⟨_, rfl⟩
  have s33 : St h _ h.next [e1, e4, e5, e7, e10, e13, e19, e22, e33] := s32.call 8 (sqU _ (s32.get 8 (Nat.le_of_ble_eq_true rfl)) q33) (Nat.le_of_ble_eq_true rfl)
  obtain ⟨e34, q34⟩ : ∃ e, e = feMul e33 e5 := ⟨_, rfl⟩
  have fin : Upd h _ v [e34] := s33.ret (mulU v (s33.get 8 (Nat.le_of_ble_eq_true rfl)) (s33.get 2 (Nat.le_of_ble_eq_true rfl)) q34)
  have hv : e = e34 := by
    rw [he]
    simp only [feInvert, ← q1, ← q2, ← q3, ← q4, ← q5, ← q6, ← q7, ← q8, ← q9, ← q10, ← q11, ← q12, ← q13, ← q14, ← q15, ← q16, ← q17, ← q18, ← q19, ← q20, ← q21, ← q22, ← q23, ← q24, ← q25, ← q26, ← q27, ← q28, ← q29, ← q30, ← q31, ← q32, ← q33, ← q34]
  rw [hv]
  exact fin

theorem goPow22523_upd {h : Heap} (v : ℕ) {z : ℕ} {ez e : Elt} (hz : z < h.next) (hx : h.mem z = ez) (he : e = fePow22523 ez) :
    Upd h (goPow22523 v z h) v [e] := by
  obtain ⟨o, ho⟩ : ∃ o, o = feZero := ⟨_, rfl⟩
  have s0 : St h _ h.next [o, o, o] := ho ▸ St.start h 3
  obtain ⟨e1, q1⟩ : ∃ e, e = feSquare ez := ⟨_, rfl⟩
  have s1 : St h _ h.next [e1, o, o] := s0.call0 (sqU _ (s0.ext _ hz |>.trans hx) q1) (Nat.le_of_ble_eq_true rfl)
  obtain ⟨e2, q2⟩ : ∃ e, e = feSquare e1 := ⟨_, rfl⟩
  have s2 : St h _ h.next [e1, e2, o] := s1.call 1 (sqU _ (s1.get0 (Nat.le_of_ble_eq_true rfl)) q2) (Nat.le_of_ble_eq_true rfl)
  obtain ⟨e3, q3⟩ : ∃ e, e = feSquare e2 := ⟨_, rfl⟩
  have s3 : St h _ h.next [e1, e3, o] := s2.call 1 (sqU _ (s2.get 1 (Nat.le_of_ble_eq_true rfl)) q3) (Nat.le_of_ble_eq_true rfl)
  obtain ⟨e4, q4⟩ : ∃ e, e = feMul ez e3 := ⟨_, rfl⟩
  have s4 : St h _ h.next [e1, e4, o] := s3.call 1 (mulU _ (s3.ext _ hz |>.trans hx) (s3.get 1 (Nat.le_of_ble_eq_true rfl)) q4) (Nat.le_of_ble_eq_true rfl)
  obtain ⟨e5, q5⟩ : ∃ e, e = feMul e1 e4 := ⟨_, rfl⟩
  have s5 : St h _ h.next [e5, e4, o] := s4.call0 (mulU _ (s4.get0 (Nat.le_of_ble_eq_true rfl)) (s4.get 1 (Nat.le_of_ble_eq_true rfl)) q5) (Nat.le_of_ble_eq_true rfl)
  obtain ⟨e6, q6⟩ : ∃ e, e = feSquare e5 := ⟨_, rfl⟩
  have s6 : St h _ h.next [e6, e4, o] := s5.call0 (sqU _ (s5.get0 (Nat.le_of_ble_eq_true rfl)) q6) (Nat.le_of_ble_eq_true rfl)
  obtain ⟨e7, q7⟩ : ∃ e, e = feMul e4 e6 := ⟨_, rfl⟩
  have s7 : St h _ h.next [e7, e4, o] := s6.call0 (mulU _ (s6.get 1 (Nat.le_of_ble_eq_true rfl)) (s6.get0 (Nat.le_of_ble_eq_true rfl)) q7) (Nat.le_of_ble_eq_true rfl)
  obtain ⟨e8, q8⟩ : ∃ e, e = feSquare e7 := ⟨_, rfl⟩
  have s8 : St h _ h.next [e7, e8, o] := s7.call 1 (sqU _ (s7.get0 (Nat.le_of_ble_eq_true rfl)) q8) (Nat.le_of_ble_eq_true rfl)
  obtain ⟨e9, q9⟩ : ∃ e, e = sqn 4 e8 := ⟨_, rfl⟩
  have s9 : St h _ h.next [e7, e9, o] := s8.call 1 (sqnU _ 4 (s8.get 1 (Nat.le_of_ble_eq_true rfl)) q9) (Nat.le_of_ble_eq_true rfl)
  obtain ⟨e10, q10⟩ : ∃ e, e = feMul e9 e7 := ⟨_, rfl⟩
  have s10 : St h _ h.next [e10, e9, o] := s9.call0 (mulU _ (s9.get 1 (Nat.le_of_ble_eq_true rfl)) (s9.get0 (Nat.le_of_ble_eq_true rfl)) q10) (Nat.le_of_ble_eq_true rfl)
  obtain ⟨e11, q11⟩ : ∃ e, e = feSquare e10 := ⟨_, rfl⟩
  have s11 : St h _ h.next [e10, e11, o] := s10.call 1 (sqU _ (s10.get0 (Nat.le_of_ble_eq_true rfl)) q11) (Nat.le_of_ble_eq_true rfl)
  obtain ⟨e12, q12⟩ : ∃ e, e = sqn 9 e11 := ⟨_, rfl⟩
  have s12 : St h _ h.next [e10, e12, o] := s11.call 1 (sqnU _ 9 (s11.get 1 (Nat.le_of_ble_eq_true rfl)) q12) (Nat.le_of_ble_eq_true rfl)
  obtain ⟨e13, q13⟩ : ∃ e, e = feMul e12 e10 := ⟨_, rfl⟩
  have s13 : St h _ h.next [e10, e13, o] := s12.call 1 (mulU _ (s12.get 1 (Nat.le_of_ble_eq_true rfl)) (s12.get0 (Nat.le_of_ble_eq_true rfl)) q13) (Nat.le_of_ble_eq_true rfl)
  obtain ⟨e14, q14⟩ : ∃ e, e = feSquare e13 := ⟨_, rfl⟩
  have s14 : St h _ h.next [e10, e13, e14] := s13.call 2 (sqU _ (s13.get 1 (Nat.le_of_ble_eq_true rfl)) q14) (Nat.le_of_ble_eq_true rfl)
  obtain ⟨e15, q15⟩ : ∃ e, e = sqn 19 e14 := ⟨_, rfl⟩
  have s15 : St h _ h.next [e10, e13, e15] := s14.call 2 (sqnU _ 19 (s14.get 2 (Nat.le_of_ble_eq_true rfl)) q15) (Nat.le_of_ble_eq_true rfl)
  obtain ⟨e16, q16⟩ : ∃ e, e = feMul e15 e13 := ⟨_, rfl⟩
  have s16 : St h _ h.next [e10, e16, e15] := s15.call 1 (mulU _ (s15.get 2 (Nat.le_of_ble_eq_true rfl)) (s15.get 1 (Nat.le_of_ble_eq_true rfl)) q16) (Nat.le_of_ble_eq_true rfl)
  obtain ⟨e17, q17⟩ : ∃ e, e = feSquare e16 := ⟨_, rfl⟩
  have s17 : St h _ h.next [e10, e17, e15] := s16.call 1 (sqU _ (s16.get 1 (Nat.le_of_ble_eq_true rfl)) q17) (Nat.le_of_ble_eq_true rfl)
  obtain ⟨e18, q18⟩ : ∃ e, e = sqn 9 e17 := ⟨_, rfl⟩
  have s18 : St h _ h.next [e10, e18, e15] := s17.call 1 (sqnU _ 9 (s17.get 1 (Nat.le_of_ble_eq_true rfl)) q18) (Nat.le_of_ble_eq_true rfl)
  obtain ⟨e19, q19⟩ : ∃ e, e = feMul e18 e10 := ⟨_, rfl⟩
  have s19 : St h _ h.next [e19, e18, e15] := s18.call0 (mulU _ (s18.get 1 (Nat.le_of_ble_eq_true rfl)) (s18.get0 (Nat.le_of_ble_eq_true rfl)) q19) (Nat.le_of_ble_eq_true rfl)
  obtain ⟨e20, q20⟩ : ∃ e, e = feSquare e19 := ⟨_, rfl⟩
  have s20 : St h _ h.next [e19, e20, e15] := s19.call 1 (sqU _ (s19.get0 (Nat.le_of_ble_eq_true rfl)) q20) (Nat.le_of_ble_eq_true rfl)
  obtain ⟨e21, q21⟩ : ∃ e, e = sqn 49 e20 := ⟨_, rfl⟩
  have s21 : St h _ h.next [e19, e21, e15] := s20.call 1 (sqnU _ 49 (s20.get 1 (Nat.le_of_ble_eq_true rfl)) q21) (Nat.le_of_ble_eq_true rfl)
  obtain ⟨e22, q22⟩ : ∃ e, e = feMul e21 e19 := ⟨_, rfl⟩
  have s22 : St h _ h.next [e19, e22, e15] := s21.call 1 (mulU _ (s21.get 1 (Nat.le_of_ble_eq_true rfl)) (s21.get0 (Nat.le_of_ble_eq_true rfl)) q22) (Nat.le_of_ble_eq_true rfl)
  obtain ⟨e23, q23⟩ : ∃ e, e = feSquare e22 := ⟨_, rfl⟩
  have s23 : St h _ h.next [e19, e22, e23] := s22.call 2 (sqU _ (s22.get 1 (Nat.le_of_ble_eq_true rfl)) q23) (Nat.le_of_ble_eq_true rfl)
  obtain ⟨e24, q24⟩ : ∃ e, e = sqn 99 e23 := ⟨_, rfl⟩
  have s24 : St h _ h.next [e19, e22, e24] := s23.call 2 (sqnU _ 99 (s23.get 2 (Nat.le_of_ble_eq_true rfl)) q24) (Nat.le_of_ble_eq_true rfl)
  obtain ⟨e25, q25⟩ : ∃ e, e = feMul e24 e22 := ⟨_, rfl⟩
  have s25 : St h _ h.next [e19, e25, e24] := s24.call 1 (mulU _ (s24.get 2 (Nat.le_of_ble_eq_true rfl)) (s24.get 1 (Nat.le_of_ble_eq_true rfl)) q25) (Nat.le_of_ble_eq_true rfl)
  obtain ⟨e26, q26⟩ : ∃ e, e = feSquare e25 := ⟨_, rfl⟩
  have s26 : St h _ h.next [e19, e26, e24] := s25.call 1 (sqU _ (s25.get 1 (Nat.le_of_ble_eq_true rfl)) q26) (Nat.le_of_ble_eq_true rfl)
  obtain ⟨e27, q27⟩ : ∃ e, e = sqn 49 e26 := ⟨_, rfl⟩
  have s27 : St h _ h.next [e19, e27, e24] := s26.call 1 (sqnU _ 49 (s26.get 1 (Nat.le_of_ble_eq_true rfl)) q27) (Nat.le_of_ble_eq_true rfl)
  obtain ⟨e28, q28⟩ : ∃ e, e = feMul e27 e19 := ⟨_, rfl⟩
  have s28 : St h _ h.next [e28, e27, e24] := s27.call0 (mulU _ (s27.get 1 (Nat.le_of_ble_eq_true rfl)) (s27.get0 (Nat.le_of_ble_eq_true rfl)) q28) (Nat.le_of_ble_eq_true rfl)
  obtain ⟨e29, q29⟩ : ∃ e, e = feSquare e28 := ⟨_, rfl⟩
  have s29 : St h _ h.next [e29, e27, e24] := s28.call0 (sqU _ (s28.get0 (Nat.le_of_ble_eq_true rfl)) q29) (Nat.le_of_ble_eq_true rfl)
  obtain ⟨e30, q30⟩ : ∃ e, e = feSquare e29 := ⟨_, rfl⟩
  have s30 : St h _ h.next [e30, e27, e24] := s29.call0 (sqU _ (s29.get0 (Nat.le_of_ble_eq_true rfl)) q30) (Nat.le_of_ble_eq_true rfl)
  obtain ⟨e31, q31⟩ : ∃ e, e = feMul e30 ez := ⟨_, rfl⟩
  have fin : Upd h _ v [e31] := s30.ret (mulU v (s30.get0 (Nat.le_of_ble_eq_true rfl)) (s30.ext _ hz |>.trans hx) q31)
  have hv : e = e31 := by
    rw [he]
    simp only [fePow22523, ← q1, ← q2, ← q3, ← q4, ← q5, ← q6, ← q7, ← q8, ← q9, ← q10, ← q11, ← q12, ← q13, ← q14, ← q15, ← q16, ← q17, ← q18, ← q19, ← q20, ← q21, ← q22, ← q23, ← q24, ← q25, ← q26, ← q27, ← q28, ← q29, ← q30, ← q31]
  rw [hv]
  exact fin

end Verif.EdHost.Alias
