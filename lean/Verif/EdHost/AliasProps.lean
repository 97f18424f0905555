import Verif.EdHost.AliasPoint2
import Verif.EdHost.Mult

/-! # C68: receivers and arguments may alias -/

namespace Verif.EdHost.Alias
open Verif.EdHost Verif.Ed Heap

/-- **C68.** The arithmetic methods of field elements, for all pointers, equal or not: afterwards memory is what it was except for
the receiver, which holds the result of the operation on the values the arguments had before. -/
theorem C68_field (h : Heap) (v a b c y : ℕ) :
    goAdd v a b h = h.set v (feAdd (h.mem a) (h.mem b)) ∧
    goSub v a b h = h.set v (feSub (h.mem a) (h.mem b)) ∧
    goMul v a b h = h.set v (feMul (h.mem a) (h.mem b)) ∧
    goSquare v a h = h.set v (feSquare (h.mem a)) ∧
    goSelect v a b c h = h.set v (feSelect (h.mem a) (h.mem b) c) ∧
    goMult32 v a y h = h.set v (feMult32 (h.mem a) y) ∧
    goSet v a h = h.set v (h.mem a) :=
  ⟨goAdd_eq .., goSub_eq .., goMul_eq .., goSquare_eq .., goSelect_eq .., goMult32_eq .., rfl⟩

/-- **C68.** `Swap` exchanges two different elements or leaves everything alone; swapping an element with itself changes nothing. -/
theorem C68_swap (h : Heap) (v u c : ℕ) : goSwap v v c h = h ∧
    (v ≠ u → goSwap v u c h = (h.set v (feSwap (h.mem v) (h.mem u) c).1).set u (feSwap (h.mem v) (h.mem u) c).2) :=
  ⟨goSwap_self .., goSwap_eq v u c h⟩

/-- **C68.** The methods of field elements with local variables: for all allocated pointers, only the receiver changes, and it gets the result on the old values. -/
theorem C68_field_locals (h : Heap) (g : Glob h) (v : ℕ) {a b : ℕ} (ha : a < h.next) (hb : b < h.next) :
    Upd h (goNeg v a h) v [feNeg (h.mem a)] ∧
    Upd h (goInvert v a h) v [feInvert (h.mem a)] ∧
    Upd h (goPow22523 v a h) v [fePow22523 (h.mem a)] ∧
    Upd h (goAbs v a h) v [feAbs (h.mem a)] ∧
    Upd h (goSqrtRatio v a b h).1 v [(feSqrtRatio (h.mem a) (h.mem b)).1] ∧ (goSqrtRatio v a b h).2 = (feSqrtRatio (h.mem a) (h.mem b)).2 := by
  have s := goSqrtRatio_spec v (x := h.mem a) (y := h.mem b) ha hb g rfl rfl (Prod.mk.eta)
  exact ⟨negU v rfl g.zero rfl, goInvert_upd v ha rfl rfl, goPow22523_upd v ha rfl rfl, goAbs_upd v ha (g.lt (by decide)) g.zero rfl rfl, s.1, s.2⟩

/-- **C68.** The methods that only look (`Bytes`, `Equal`, `IsNegative`) change no allocated object, `reduce` working on a copy. -/
theorem C68_field_readers (h : Heap) {a b : ℕ} (ha : a < h.next) (hb : b < h.next) :
    (goBytes a h).2 = feBytes (h.mem a) ∧ Same h (goBytes a h).1 ∧
    (goEqual a b h).2 = feEqual (h.mem a) (h.mem b) ∧ Same h (goEqual a b h).1 ∧
    (goIsNegative a h).2 = feIsNegative (h.mem a) ∧ Same h (goIsNegative a h).1 :=
  ⟨goBytes_val a h ha, goBytes_same a h, goEqual_val a b h ha hb, goEqual_same a b h, goIsNegative_val a h ha, goIsNegative_same a h⟩

/-- **C68.** `SetBytes` of a field element writes the receiver exactly when it returns no error. -/
theorem C68_field_setBytes (h : Heap) (v : ℕ) (x : List ℕ) :
    goSetBytes v x h = match feSetBytes x with | none => (h, true) | some e => (h.set v e, false) := goSetBytes_eq v x h

/-- The outcome of a method with receiver `v`: it panics when the value version does, and otherwise the four cells of `v` get the result and no other changes. -/
def Outcome (h : Heap) (v : ℕ) (value : Option Point) (run : Option Heap) : Prop :=
  (value = none ∧ run = none) ∨ ∃ R h', value = some R ∧ run = some h' ∧ Upd h h' v (Pt.list R)

/-- **C68.** `Add` and `Subtract` of points, for all allocated receiver and arguments, equal or not. -/
theorem C68_add_sub (h : Heap) (g : Glob h) {v p q : ℕ} (hv : v + 4 ≤ h.next) (hp : p + 4 ≤ h.next) (hq : q + 4 ≤ h.next) :
    Outcome h v (ptAdd (ptAt h p) (ptAt h q)) (goPtAdd v p q h) ∧ Outcome h v (ptSub (ptAt h p) (ptAt h q)) (goPtSub v p q h) :=
  ⟨goPtAdd_upd v p q g hv hp hq, goPtSub_upd v p q g hv hp hq⟩

/-- **C68.** `Negate` and `Set`, where two points are the same object or disjoint. -/
theorem C68_neg_set (h : Heap) (g : Glob h) {v p : ℕ} (hg : globals ≤ v) (hp : p + 4 ≤ h.next) (hd : v = p ∨ p + 4 ≤ v ∨ v + 4 ≤ p) :
    Outcome h v (ptNeg (ptAt h p)) (goPtNeg v p h) ∧ Outcome h v (some (ptAt h p)) (some (goPtSet v p h)) :=
  ⟨goPtNeg_upd v p g hg hp hd, .inr ⟨_, _, rfl, rfl, goPtSet_upd v p⟩⟩

/-- **C68.** The three scalar multiplications may write over their argument point. -/
theorem C68_mult (h : Heap) (g : Glob h) {v : ℕ} (q : ℕ) (a b : List ℕ) (hv : v + 4 ≤ h.next) :
    Outcome h v (scalarBaseMult a) (goScalarBaseMult v a h) ∧
    Outcome h v (scalarMult a (ptAt h q)) (goScalarMult v a q h) ∧
    Outcome h v (varTime a (ptAt h q) b) (goVarTime v a q b h) :=
  ⟨goScalarBaseMult_upd v a g hv, goScalarMult_upd v a q g hv, goVarTime_upd v a q b hv⟩

/-- **C68.** `Bytes` and `Equal` change nothing, `SetBytes` writes the receiver exactly when it succeeds. -/
theorem C68_readers (h : Heap) (g : Glob h) {v u : ℕ} (x : List ℕ) (hg : globals ≤ v) (hv : v + 4 ≤ h.next) (hu : u + 4 ≤ h.next) :
    ((ptBytes (ptAt h v) = none ∧ goPtBytes v h = none) ∨
      ∃ h' b, ptBytes (ptAt h v) = some b ∧ goPtBytes v h = some (h', b) ∧ Same h h') ∧
    ((ptEqual (ptAt h v) (ptAt h u) = none ∧ goPtEqual v u h = none) ∨
      ∃ h' b, ptEqual (ptAt h v) (ptAt h u) = some b ∧ goPtEqual v u h = some (h', b) ∧ Same h h') ∧
    ((ptSetBytes x = none ∧ (goPtSetBytes v x h).2 = true ∧ Same h (goPtSetBytes v x h).1) ∨
      ∃ R, ptSetBytes x = some R ∧ (goPtSetBytes v x h).2 = false ∧ Upd h (goPtSetBytes v x h).1 v (Pt.list R)) :=
  ⟨goPtBytes_spec v hv, goPtEqual_spec v u hv hu, goPtSetBytes_spec v x g hg hv⟩

/-- **C68.** `FromExtended` writes the two affine coordinates and nothing else. -/
theorem C68_fromExtended (h : Heap) {p p1 : ℕ} (hp : p1 + 4 ≤ h.next) (hd : p1 + 4 ≤ p ∨ p + 2 ≤ p1) (hp' : p + 2 ≤ h.next) :
    Upd h (goFromExtended p p1 h) p [(fromExtended (ptAt h p1)).X, (fromExtended (ptAt h p1)).Y] := goFromExtended_upd p p1 hp hd hp'

/-- **C68.** `Zero` and `One` write the constants of the package, and `fromP2` writes the extended point of the
projective one, and nothing else. -/
theorem C68_constants_fromP2 (h : Heap) (g : Glob h) (v : ℕ) {p : ℕ} {t : P2} (hp : p + 3 ≤ h.next) (hd : p + 3 ≤ v ∨ v + 4 ≤ p)
    (hX : h.mem p = t.X) (hY : h.mem (p + 1) = t.Y) (hZ : h.mem (p + 2) = t.Z) :
    Upd h (goZero v h) v [feZero] ∧ Upd h (goOne v h) v [feOne] ∧
    Upd h (goFromP2 v p h) v (Pt.list (fromP2 t)) := by
  refine ⟨?_, ?_, goFromP2_upd v hp hd hX hY hZ⟩
  · unfold goZero; rw [g.zero]; exact set_upd _ _ rfl
  · unfold goOne; rw [g.one]; exact set_upd _ _ rfl

/-- Memory before and after any number of calls that write at most one allocated object each, never a package variable. -/
inductive Calls : Heap → Heap → Prop
  | done (h : Heap) : Calls h h
  | read {h k l : Heap} : Calls h k → Same k l → Calls h l
  | write {h k l : Heap} {v : ℕ} {es : List Elt} : Calls h k → globals ≤ v → Upd k l v es → Calls h l

/-- **C68.** The hypothesis `Glob` of the other theorems lasts: no sequence of calls with receivers other than the package variables
changes a package variable. -/
theorem C68_package_variables (h k : Heap) (c : Calls h k) (g : Glob h) : Glob k := by
  induction c with
  | done => exact g
  | read _ s ih => exact ih.of s
  | write _ hv u ih => exact ih.upd hv u

/-- **C68.** `NewIdentityPoint` and `NewGeneratorPoint` return a new object: it holds the neutral element (the generator), nothing
else changes, and the pointer is none that was in use, so later writes through it do not reach the package variables. -/
theorem C68_new_points (h : Heap) (g : Glob h) :
    (ptAt (goNewIdentity h).1 (goNewIdentity h).2 = identity ∧ Same h (goNewIdentity h).1 ∧ Glob (goNewIdentity h).1 ∧
      h.next ≤ (goNewIdentity h).2 ∧ globals ≤ (goNewIdentity h).2 ∧ (goNewIdentity h).2 + 4 ≤ (goNewIdentity h).1.next) ∧
    (ptAt (goNewGenerator h).1 (goNewGenerator h).2 = generator ∧ Same h (goNewGenerator h).1 ∧ Glob (goNewGenerator h).1 ∧
      h.next ≤ (goNewGenerator h).2 ∧ globals ≤ (goNewGenerator h).2 ∧ (goNewGenerator h).2 + 4 ≤ (goNewGenerator h).1.next) := by
  have key : ∀ (q : ℕ) (R : Point), ptAt h q = R → q + 4 ≤ h.next →
      ptAt (goPtSet h.next q (h.alloc 4)) h.next = R ∧ Same h (goPtSet h.next q (h.alloc 4)) ∧
        h.next + 4 ≤ (goPtSet h.next q (h.alloc 4)).next := by
    intro q R hR hq
    have s0 := St.start h 4
    have e : ptAt (h.alloc 4) q = R := (s0.pt hq).trans hR
    have u := goPtSet_upd (h := h.alloc 4) h.next q
    rw [e] at u
    have n : (h.alloc 4).next = h.next + 4 := next_alloc _ _
    refine ⟨u.ptAt (by omega), ⟨by have := u.1; omega, fun p hp => ?_⟩, by have := u.1; omega⟩
    rw [u.2 p (by omega), if_neg (by omega), mem_alloc_lt _ _ hp]
  have gl := g.le
  have c1 := key pIdentity _ g.identity (le_trans (by decide) gl)
  have c2 := key pGenerator _ g.generator (le_trans (by decide) gl)
  exact ⟨⟨c1.1, c1.2.1, g.of c1.2.1, le_rfl, gl, c1.2.2⟩, c2.1, c2.2.1, g.of c2.2.1, le_rfl, gl, c2.2.2⟩

/-- Memory with the package variables, two elements at 14 and 15, and a point at 16..19. -/
def mkHeap (z o s d d2 o' : Elt) (i g : Point) (e f : Elt) (p : Point) : Heap where
  mem := fun q => [z, o, s, d, d2, o', i.x, i.y, i.z, i.t, g.x, g.y, g.z, g.t, e, f, p.x, p.y, p.z, p.t].getD q e
  next := 20

/-- Memory with the package variables, an element `2` at 14, an element `3` at 15, and the generator at 16..19. -/
def exHeap : Heap := mkHeap feZero feOne feSqrtM1 feD feD2 feOne identity generator ⟨2, 0, 0, 0, 0⟩ ⟨3, 0, 0, 0, 0⟩ generator

theorem mkHeap_mem (z o s d d2 o' : Elt) (i g : Point) (e f : Elt) (p : Point) :
    (mkHeap z o s d d2 o' i g e f p).mem 0 = z ∧ (mkHeap z o s d d2 o' i g e f p).mem 1 = o ∧ (mkHeap z o s d d2 o' i g e f p).mem 2 = s ∧
    (mkHeap z o s d d2 o' i g e f p).mem 3 = d ∧ (mkHeap z o s d d2 o' i g e f p).mem 4 = d2 ∧ (mkHeap z o s d d2 o' i g e f p).mem 5 = o' ∧
    ptAt (mkHeap z o s d d2 o' i g e f p) 6 = i ∧ ptAt (mkHeap z o s d d2 o' i g e f p) 10 = g ∧ (mkHeap z o s d d2 o' i g e f p).mem 14 = e ∧ (mkHeap z o s d d2 o' i g e f p).mem 15 = f ∧
    ptAt (mkHeap z o s d d2 o' i g e f p) 16 = p := ⟨rfl, rfl, rfl, rfl, rfl, rfl, rfl, rfl, rfl, rfl, rfl⟩

/-- The hypotheses can be met. -/
theorem exHeap_glob : Glob exHeap := by
  have m := mkHeap_mem feZero feOne feSqrtM1 feD feD2 feOne identity generator ⟨2, 0, 0, 0, 0⟩ ⟨3, 0, 0, 0, 0⟩ generator
  exact ⟨by unfold exHeap mkHeap globals; decide, m.1, m.2.1, m.2.2.1, m.2.2.2.1, m.2.2.2.2.1, m.2.2.2.2.2.1, m.2.2.2.2.2.2.1, m.2.2.2.2.2.2.2.1⟩

theorem exHeap_14 : exHeap.mem 14 = ⟨2, 0, 0, 0, 0⟩ := (mkHeap_mem ..).2.2.2.2.2.2.2.2.1
theorem exHeap_15 : exHeap.mem 15 = ⟨3, 0, 0, 0, 0⟩ := (mkHeap_mem ..).2.2.2.2.2.2.2.2.2.1
theorem exHeap_16 : ptAt exHeap 16 = generator := (mkHeap_mem ..).2.2.2.2.2.2.2.2.2.2
theorem exHeap_next : exHeap.next = 20 := rfl

/-- In place: `x.Invert(x)` and then `x.Multiply(x, x)` with `x = 2` give `1/4`; the neighbour is untouched. -/
example : feBytes ((goMul 14 14 14 (goInvert 14 14 exHeap)).mem 14) = leBytes 32 ((3 * P + 1) / 4) ∧
    (goMul 14 14 14 (goInvert 14 14 exHeap)).mem 15 = ⟨3, 0, 0, 0, 0⟩ := by
  have u := (C68_field_locals exHeap exHeap_glob 14 (a := 14) (b := 14) (by rw [exHeap_next]; decide) (by rw [exHeap_next]; decide)).2.1
  rw [exHeap_14] at u
  have e14 := u.2 14 (by rw [exHeap_next]; decide)
  have e15 := u.2 15 (by rw [exHeap_next]; decide)
  rw [if_pos ⟨le_rfl, by simp⟩] at e14
  rw [if_neg (by simp), exHeap_15] at e15
  rw [(C68_field _ 14 14 14 0 0).2.2.1, mem_set_self, mem_set_ne _ _ (by decide), e14, e15]
  exact ⟨by decide +kernel, rfl⟩

/-- In place: `p.Add(p, p)` at the generator. -/
example : ∃ h' R, goPtAdd 16 16 16 exHeap = some h' ∧ ptAdd generator generator = some R ∧ ptAt h' 16 = R ∧ h'.mem 14 = ⟨2, 0, 0, 0, 0⟩ := by
  have hi : initialized generator = true := by decide +kernel
  have c := (C68_add_sub exHeap exHeap_glob (v := 16) (p := 16) (q := 16) (by rw [exHeap_next]) (by rw [exHeap_next]) (by rw [exHeap_next])).1
  rw [exHeap_16] at c
  rcases c with ⟨e, -⟩ | ⟨R, h', e1, e2, u⟩
  · rw [ptAdd, hi] at e
    simp at e
  · refine ⟨h', R, e2, e1, u.ptAt (by rw [exHeap_next]), ?_⟩
    rw [u.2 14 (by rw [exHeap_next]; decide), if_neg (by omega), exHeap_14]

end Verif.EdHost.Alias
