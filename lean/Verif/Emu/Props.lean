import Verif.Emu.Model
import Verif.Limbs.Resplit
import Verif.SlicesProps

/-! # C41: conversions between native variables and emulated elements -/

namespace Verif.Emu
open Api Limbs Spec
variable {p : ℕ}

/-- The integer written by the limbs of an emulated element, least significant limb first. -/
def elemVal (b : ℕ) : List (F p) → ℕ
  | [] => 0
  | x :: xs => x.val + 2 ^ b * elemVal b xs

/-- The integer written by a list of variables of `s` bits each, most significant first. -/
def inputNum (s : ℕ) (inp : List (F p)) : ℕ := numBE (bitStr (newLimbs inp s))

theorem elemVal_append (b : ℕ) (x y : List (F p)) : elemVal b (x ++ y) = elemVal b x + 2 ^ (b * x.length) * elemVal b y := by
  induction x with
  | nil => simp [elemVal]
  | cons a x ih => simp only [List.cons_append, elemVal, ih, List.length_cons, Nat.mul_succ, pow_add]; ring

theorem tot_replicate {ls : List (Limb p)} {k b : ℕ} (h : sizes ls = List.replicate k b) : tot ls = k * b := by
  have : tot ls = (sizes ls).sum := rfl
  rw [this, h]; simp

theorem elemVal_reverse (b : ℕ) (ls : List (Limb p)) : ∀ k, sizes ls = List.replicate k b →
    elemVal b (values ls).reverse = nsum ls := by
  induction ls with
  | nil => intro k _; rfl
  | cons l ls ih =>
    intro k h
    cases k with
    | zero => simp [sizes] at h
    | succ k =>
      have hs : l.size = b ∧ sizes ls = List.replicate k b := by
        simpa [sizes, List.replicate_succ] using h
      simp only [values, List.map_cons, List.reverse_cons, elemVal_append, nsum]
      have e := ih k hs.2
      simp only [values] at e
      have ht := tot_replicate hs.2
      have hl : ls.length = k := by
        have := congrArg List.length hs.2
        simpa [sizes] using this
      rw [e, ht]
      simp only [elemVal, Nat.mul_zero, Nat.add_zero, List.length_reverse, List.length_map, hl]
      rw [Nat.mul_comm b k]; ring

theorem values_newLimbs (inp : List (F p)) (s : ℕ) : values (newLimbs inp s) = inp := by
  simp [values, newLimbs, Function.comp_def]

theorem sizes_newLimbs (inp : List (F p)) (s : ℕ) : sizes (newLimbs inp s) = List.replicate inp.length s := by
  unfold sizes newLimbs
  rw [List.map_map, List.eq_replicate_iff]
  refine ⟨by simp, ?_⟩
  intro x hx
  obtain ⟨_, _, rfl⟩ := List.mem_map.1 hx
  rfl

theorem inRange_newLimbs (inp : List (F p)) (s : ℕ) : InRange (newLimbs inp s) ↔ ∀ x ∈ inp, x.val < 2 ^ s := by
  simp [InRange, newLimbs]

theorem elemVal_eq (b : ℕ) (limbs : List (F p)) (h : ∀ x ∈ limbs, x.val < 2 ^ b) :
    elemVal b limbs = inputNum b limbs.reverse := by
  unfold inputNum
  rw [← nsum_eq ((inRange_newLimbs _ _).2 (by simpa using h)),
    ← elemVal_reverse b _ _ (sizes_newLimbs _ _), values_newLimbs, List.reverse_reverse]

/-- `NewElement` on the reversed limbs of a list in range: exactly a bound on the number. -/
theorem newElement_eq (P : FieldPrm) (ls : List (Limb p)) (hr : InRange ls) (hn : 0 < P.nbLimbs)
    (hs : sizes ls = List.replicate P.nbLimbs P.bitsPerLimb) :
    newElement P (values ls).reverse =
      if nsum ls < 2 ^ ((P.nbLimbs - 1) * P.bitsPerLimb + P.topBits) then some (values ls).reverse else none := by
  have hlen : ls.length = P.nbLimbs := by
    have := congrArg List.length hs
    simpa [sizes] using this
  unfold newElement
  cases ls with
  | nil => simp at hlen; omega
  | cons l ls =>
    obtain ⟨k, hk⟩ : ∃ k, P.nbLimbs = k + 1 := ⟨P.nbLimbs - 1, by omega⟩
    rw [hk] at hs hlen ⊢
    have hs' : l.size = P.bitsPerLimb ∧ sizes ls = List.replicate k P.bitsPerLimb := by
      simpa [sizes, List.replicate_succ] using hs
    have hll : ls.length = k := by simpa using hlen
    have ht := tot_replicate hs'.2
    have hir : InRange ls := fun x hx => hr x (by simp [hx])
    have hlt := nsum_lt hir
    rw [ht] at hlt
    have key : l.val.val < 2 ^ P.topBits ↔ nsum (l :: ls) < 2 ^ ((k + 1 - 1) * P.bitsPerLimb + P.topBits) := by
      simp only [nsum, ht, Nat.add_sub_cancel]
      rw [pow_add]
      constructor
      · intro h
        have : (l.val.val + 1) * 2 ^ (k * P.bitsPerLimb) ≤ 2 ^ P.topBits * 2 ^ (k * P.bitsPerLimb) :=
          Nat.mul_le_mul_right _ h
        rw [Nat.mul_comm (2 ^ (k * _)), Nat.succ_mul] at *
        omega
      · intro h
        by_contra hc
        have : 2 ^ P.topBits * 2 ^ (k * P.bitsPerLimb) ≤ l.val.val * 2 ^ (k * P.bitsPerLimb) :=
          Nat.mul_le_mul_right _ (by omega)
        rw [Nat.mul_comm (2 ^ (k * _))] at h
        omega
    have hrev : (values (l :: ls)).reverse = (values ls).reverse ++ [l.val] := by simp [values]
    have hvl : (values ls).reverse.length = k := by simp [values, hll]
    by_cases hc : l.val.val < 2 ^ P.topBits
    · rw [if_pos (key.1 hc), if_pos]
      refine ⟨by rw [hrev]; simp [values, hll], ?_⟩
      intro i hi
      rw [hrev] at hi ⊢
      rw [List.length_append, List.length_singleton, hvl] at hi ⊢
      by_cases hik : i = k
      · subst hik
        rw [if_pos rfl, List.getD_append_right _ _ _ _ (by omega), hvl]
        simpa using hc
      · rw [if_neg (by omega), List.getD_append _ _ _ _ (by omega)]
        have hi' : i < (values ls).reverse.length := by omega
        rw [List.getD_eq_getElem _ _ hi']
        have hm : (values ls).reverse[i] ∈ values ls := List.mem_reverse.1 (List.getElem_mem hi')
        obtain ⟨x, hx, he⟩ := List.mem_map.1 hm
        rw [← he]
        have hsx : x.size = P.bitsPerLimb := by
          have : x.size ∈ sizes ls := List.mem_map.2 ⟨x, hx, rfl⟩
          rw [hs'.2] at this
          exact (List.mem_replicate.1 this).2
        have := hir x hx
        rwa [hsx] at this
    · rw [if_neg (fun h => hc (key.2 h)), if_neg]
      rintro ⟨_, hall⟩
      rw [hrev] at hall
      have := hall k (by simp [hvl])
      rw [List.length_append, List.length_singleton, hvl, if_pos rfl,
        List.getD_append_right _ _ _ _ (by omega), hvl] at this
      exact hc (by simpa using this)

/-- An accepted `NewElement` bounds every limb. -/
theorem newElement_range (P : FieldPrm) (limbs e : List (F p)) (ht : P.topBits ≤ P.bitsPerLimb)
    (h : newElement P limbs = some e) :
    e = limbs ∧ limbs.length = P.nbLimbs ∧ ∀ x ∈ limbs, x.val < 2 ^ P.bitsPerLimb := by
  unfold newElement at h
  split at h
  · rename_i hc
    refine ⟨(Option.some.inj h).symm, hc.1, ?_⟩
    intro x hx
    obtain ⟨i, hi, rfl⟩ := List.mem_iff_getElem.1 hx
    have := hc.2 i hi
    rw [List.getD_eq_getElem _ _ hi] at this
    refine lt_of_lt_of_le this (Nat.pow_le_pow_right (by decide) ?_)
    split <;> omega
  · cases h

/-! ## `ToElement` -/

theorem split_one (hint : Hint p) (l : Limb p) {ret : List (Limb p)} (h : split hint l 1 [] = some ret) :
    ret.length = l.size ∧ (∀ x ∈ ret, x.size = 1) ∧ weighted ret = l.val ∧ tot ret = l.size := by
  obtain ⟨h1, h2⟩ := split_any hint l 1 h
  by_cases he : l.size = 1
  · have h' := h
    unfold split at h'
    rw [if_neg (by simp), if_pos he, Option.some.injEq] at h'
    subst h'
    exact ⟨by simp [he], by simp [he], h1, h2⟩
  · by_cases h0 : l.size = 0
    · unfold split at h
      rw [if_neg (by simp), if_neg he, if_neg (by decide)] at h
      simp only [nbLimbsOf, h0] at h
      simp at h
    · obtain ⟨q1, _, _⟩ := C29_split hint l 1 [] (l.size / 1) (Or.inr ⟨rfl, rfl⟩) (by decide) he
        (by simp; omega) (Nat.div_mul_le_self _ _) h
      rw [splitSizes_one] at q1
      refine ⟨?_, sizes_one_of q1, h1, h2⟩
      have := congrArg List.length q1
      simpa [sizes] using this

/-- Grouping the one-bit limbs of `v` inputs at a time gives the weighted sums of these inputs. -/
theorem mergeGroups_aligned (s v b : ℕ) (hb : v * s = b) (hb0 : 0 < b) (k : ℕ) : ∀ (ws : List (Limb p)) (bits : List (List (Limb p))),
    ws.length = k * v → bits.length = ws.length → (∀ w ∈ ws, w.size = s) →
    (∀ i (hi : i < ws.length) (hr : i < bits.length), bits[i].length = ws[i].size ∧ weighted bits[i] = ws[i].val ∧
      tot bits[i] = ws[i].size) →
    mergeGroups b bits.flatten = some ((chunks v k ws).map fun c => ⟨weighted c, b⟩) := by
  induction k with
  | zero =>
    intro ws bits hl hbl _ _
    have : bits = [] := List.length_eq_zero_iff.1 (by omega)
    subst this
    rw [List.flatten_nil, mergeGroups, dif_neg (by simp), if_neg (by simp)]
    rfl
  | succ k ih =>
    intro ws bits hl hbl hsz h
    rw [Nat.succ_mul] at hl
    have hfl : ∀ (ws : List (Limb p)) (bits : List (List (Limb p))), bits.length = ws.length → (∀ w ∈ ws, w.size = s) →
        (∀ i (hi : i < ws.length) (hr : i < bits.length), bits[i].length = ws[i].size) →
        bits.flatten.length = ws.length * s := by
      intro ws
      induction ws with
      | nil =>
        intro bits hb _ _
        have hb : bits = [] := List.length_eq_zero_iff.1 (by simpa using hb)
        subst hb; simp
      | cons w ws ihw =>
        intro bits hb hs hh
        cases bits with
        | nil => simp at hb
        | cons x bits =>
          have h0 := hh 0 (by simp) (by simp)
          simp only [List.getElem_cons_zero] at h0
          rw [List.flatten_cons, List.length_append, h0, hs w (by simp),
            ihw bits (by simpa using hb) (fun w hw => hs w (by simp [hw])) (fun i hi hr => by
              have := hh (i + 1) (by simpa using hi) (by simpa using hr); simpa using this),
            List.length_cons, Nat.succ_mul]
          omega
    have hv : v ≤ ws.length := by omega
    have hflat : bits.flatten = (bits.take v).flatten ++ (bits.drop v).flatten := by
      rw [← List.flatten_append, List.take_append_drop]
    have htake : ∀ i (hi : i < (ws.take v).length) (hr : i < (bits.take v).length),
        (bits.take v)[i].length = (ws.take v)[i].size ∧ weighted (bits.take v)[i] = (ws.take v)[i].val ∧
        tot (bits.take v)[i] = (ws.take v)[i].size := by
      intro i hi hr
      simp only [List.getElem_take]
      exact h i (by simp at hi; omega) (by simp at hr; omega)
    have hlt : (bits.take v).flatten.length = b := by
      rw [hfl (ws.take v) (bits.take v) (by simp [hbl]) (fun w hw => hsz w (List.mem_of_mem_take hw))
        (fun i hi hr => (htake i hi hr).1), List.length_take, Nat.min_eq_left hv, hb]
    have hwt := flatten_weighted (ws.take v) (bits.take v) (by simp [hbl]) (fun i hi hr => (htake i hi hr).2)
    have htotv : tot (ws.take v) = b := by
      have : sizes (ws.take v) = List.replicate v s := by
        rw [List.eq_replicate_iff]
        refine ⟨by simp [sizes, hv], ?_⟩
        intro x hx
        obtain ⟨w, hw, rfl⟩ := List.mem_map.1 hx
        exact hsz w (List.mem_of_mem_take hw)
      rw [tot_replicate this, hb]
    rw [hflat, mergeGroups, dif_pos ⟨by rw [List.length_append, hlt]; omega, hb0⟩,
      if_pos (by rw [List.length_append, hlt]; omega), List.take_append_of_le_length hlt.ge,
      List.take_of_length_le hlt.le, List.drop_append_of_le_length hlt.ge, List.drop_of_length_le hlt.le,
      List.nil_append, merge_eq _ (by intro h0; rw [h0] at hlt; simp at hlt; omega), hwt.1, hwt.2, htotv,
      ih (ws.drop v) (bits.drop v) (by simp; omega) (by simp [hbl]) (fun w hw => hsz w (List.mem_of_mem_drop hw))
        (fun i hi hr => by
          simp only [List.getElem_drop]
          exact h (v + i) (by simp at hi; omega) (by simp at hr; omega))]
    rfl

/-- The weighted sums of aligned groups of in-range inputs are the input number in limbs of `b` bits. -/
theorem chunk_limbs [NeZero p] (s v b : ℕ) (hb : v * s = b) (hv : 0 < v) (hp : 2 ^ b ≤ p) (k : ℕ) : ∀ (ws : List (Limb p)),
    ws.length = k * v → (∀ w ∈ ws, w.size = s) → InRange ws →
    InRange ((chunks v k ws).map fun c => (⟨weighted c, b⟩ : Limb p)) ∧
    bitStr ((chunks v k ws).map fun c => (⟨weighted c, b⟩ : Limb p)) = bitStr ws ∧
    sizes ((chunks v k ws).map fun c => (⟨weighted c, b⟩ : Limb p)) = List.replicate k b := by
  induction k with
  | zero =>
    intro ws hl _ _
    have : ws = [] := List.length_eq_zero_iff.1 (by omega)
    subst this
    exact ⟨by intro l hl; simp [chunks] at hl, rfl, rfl⟩
  | succ k ih =>
    intro ws hl hs hr
    rw [Nat.succ_mul] at hl
    have hIR : InRange (ws.take v) ∧ InRange (ws.drop v) := by
      rw [← inRange_append, List.take_append_drop]; exact hr
    obtain ⟨i1, i2, i3⟩ := ih (ws.drop v) (by simp; omega) (fun w hw => hs w (List.mem_of_mem_drop hw)) hIR.2
    have hsz : sizes (ws.take v) = List.replicate v s := by
      rw [List.eq_replicate_iff]
      refine ⟨by simp [sizes]; omega, ?_⟩
      intro x hx
      obtain ⟨w, hw, rfl⟩ := List.mem_map.1 hx
      exact hs w (List.mem_of_mem_take hw)
    have ht : tot (ws.take v) = b := by rw [tot_replicate hsz, hb]
    have hne : ws.take v ≠ [] := by
      intro h0
      have := congrArg List.length h0
      rw [List.length_take, List.length_nil] at this
      omega
    obtain ⟨m, hm, hmr, hmb⟩ := (C29_merge_bits (ws.take v) hne hIR.1).2 (by rw [bitStr_length, ht]; exact hp)
    rw [merge_eq _ hne, Option.some.injEq, ht] at hm
    subst hm
    simp only [chunks, List.map_cons]
    refine ⟨?_, ?_, ?_⟩
    · rw [show ∀ (a : Limb p) l, a :: l = [a] ++ l from fun _ _ => rfl, inRange_append]
      exact ⟨hmr, i1⟩
    · rw [show ∀ (a : Limb p) l, a :: l = [a] ++ l from fun _ _ => rfl, bitStr_append, hmb, i2, ← bitStr_append,
        List.take_append_drop]
    · simp only [sizes, List.map_cons] at i3 ⊢
      rw [i3, List.replicate_succ]

/-- **C41, `ToElement` when the input is wider than the native field.**  Inputs of `s` bits, `s` dividing the limb
width: whatever the prover answers, the element is the number written by the inputs; and the shipped hint is accepted
exactly when that number fits the width of the emulated field. -/
theorem C41_toElement_wide [NeZero p] (P : FieldPrm) (inp : List (F p)) (s v : ℕ) (hv : v * s = P.bitsPerLimb)
    (hb : 0 < P.bitsPerLimb) (hp : 2 ^ P.bitsPerLimb ≤ p) (hlen : inp.length = P.nbLimbs * v) (h2 : 2 ≤ inp.length)
    (hr : ∀ x ∈ inp, x.val < 2 ^ s) (hwide : p.size < inp.length * s) :
    (∀ hint e, toElement hint P inp s = some e → e.length = P.nbLimbs ∧ elemVal P.bitsPerLimb e = inputNum s inp) ∧
    (∃ e, toElement (fun _ => splitHint) P inp s =
      if inputNum s inp < 2 ^ ((P.nbLimbs - 1) * P.bitsPerLimb + P.topBits) then some e else none) := by
  have hv0 : 0 < v := Nat.pos_of_ne_zero (by rintro rfl; simp at hv; omega)
  have hs0 : 0 < s := Nat.pos_of_ne_zero (by rintro rfl; simp at hv; omega)
  have hn : 0 < P.nbLimbs := Nat.pos_of_ne_zero (by intro h; rw [h, Nat.zero_mul] at hlen; omega)
  have hsz : ∀ w ∈ newLimbs inp s, w.size = s := by
    intro w hw
    obtain ⟨_, _, rfl⟩ := List.mem_map.1 hw
    rfl
  have hnl : (newLimbs inp s).length = P.nbLimbs * v := by simp [newLimbs, hlen]
  have hIR : InRange (newLimbs inp s) := (inRange_newLimbs _ _).2 hr
  have htot : tot (newLimbs inp s) = inp.length * s := tot_replicate (sizes_newLimbs inp s)
  obtain ⟨c1, c2, c3⟩ := chunk_limbs s v P.bitsPerLimb hv hv0 hp P.nbLimbs (newLimbs inp s) hnl hsz hIR
  set L := (chunks v P.nbLimbs (newLimbs inp s)).map fun c => (⟨weighted c, P.bitsPerLimb⟩ : Limb p) with hL
  have hnum : nsum L = inputNum s inp := by rw [nsum_eq c1, c2]; rfl
  have hres : ∀ hint r, resplit hint (newLimbs inp s) P.bitsPerLimb = some r → r = L := by
    intro hint r h
    unfold resplit at h
    rw [if_neg (by rw [hnl, ← hlen]; omega), if_neg (by rw [totalSize_eq, htot]; omega)] at h
    cases hbits : (List.range (newLimbs inp s).length).mapM (fun i => do
      let w ← (newLimbs inp s)[i]?
      split (hint i) w 1 []) with
    | none =>
      simp only [Option.bind_eq_bind] at hbits h
      rw [hbits] at h; cases h
    | some bits =>
      have hb' := hbits
      simp only [Option.bind_eq_bind] at hb' h
      rw [hb'] at h
      simp only [Option.bind_some] at h
      obtain ⟨hl, hspl⟩ := mapM_range_getElem (newLimbs inp s) (fun i w => split (hint i) w 1 []) bits hbits
      rw [mergeGroups_aligned s v P.bitsPerLimb hv hb P.nbLimbs (newLimbs inp s) bits hnl hl hsz
        (fun i hi hr => by
          obtain ⟨a, _, b, c⟩ := split_one _ _ (hspl i hi hr)
          exact ⟨a, b, c⟩), Option.some.injEq] at h
      exact h.symm
  have hto : ∀ hint, resplit hint (newLimbs inp s) P.bitsPerLimb = some L → toElement hint P inp s =
      if inputNum s inp < 2 ^ ((P.nbLimbs - 1) * P.bitsPerLimb + P.topBits) then some (values L).reverse else none := by
    intro hint h
    unfold toElement
    simp only [h, Option.bind_eq_bind, Option.bind_some, Slices.flip_eq]
    rw [show values L.reverse = (values L).reverse by simp [values], newElement_eq P L c1 hn c3, hnum]
  constructor
  · intro hint e he
    have hsome : resplit hint (newLimbs inp s) P.bitsPerLimb = some L := by
      cases hc : resplit hint (newLimbs inp s) P.bitsPerLimb with
      | none => unfold toElement at he; simp [hc] at he
      | some r => rw [hres hint r hc]
    rw [hto hint hsome] at he
    split at he
    · rw [Option.some.injEq] at he
      subst he
      have hLl : L.length = P.nbLimbs := by
        have := congrArg List.length c3
        simpa [sizes] using this
      exact ⟨by simp [values, hLl], by rw [elemVal_reverse _ L _ c3, hnum]⟩
    · cases he
  · refine ⟨(values L).reverse, hto _ ?_⟩
    obtain ⟨r, hr', _⟩ := C29_resplit_wide (newLimbs inp s) (by rw [hnl, ← hlen]; omega) hIR P.bitsPerLimb hb hp
      (by rw [show (sizes (newLimbs inp s)).sum = tot (newLimbs inp s) from rfl, htot]; exact hwide)
      (by
        rw [show (sizes (newLimbs inp s)).sum = tot (newLimbs inp s) from rfl, htot, hlen, Nat.mul_assoc, hv]
        exact Dvd.intro_left _ rfl)
      (fun w hw => by rw [hsz w hw]; exact hs0)
    rw [hr', hres _ r hr']

/-- **C41, `ToElement` when the input is narrower than the native field.**  Any input width: whatever the prover answers,
the element is the number written by the inputs (the range checks of `NewElement` pin the hint down); and the shipped
hint is accepted exactly when that number fits the width of the emulated field. -/
theorem C41_toElement_narrow [NeZero p] (P : FieldPrm) (inp : List (F p)) (s : ℕ) (hb : 0 < P.bitsPerLimb)
    (ht : P.topBits ≤ P.bitsPerLimb) (hn : 0 < P.nbLimbs) (hlen : inp.length * s = P.nbLimbs * P.bitsPerLimb)
    (h2 : 2 ≤ inp.length) (hr : ∀ x ∈ inp, x.val < 2 ^ s) (hnar : inp.length * s < p.size) :
    (∀ hint e, toElement hint P inp s = some e → e.length = P.nbLimbs ∧ elemVal P.bitsPerLimb e = inputNum s inp) ∧
    (∃ e, toElement (fun _ => splitHint) P inp s =
      if inputNum s inp < 2 ^ ((P.nbLimbs - 1) * P.bitsPerLimb + P.topBits) then some e else none) := by
  have hnl : (newLimbs inp s).length = inp.length := by simp [newLimbs]
  have hIR : InRange (newLimbs inp s) := (inRange_newLimbs _ _).2 hr
  have htot : tot (newLimbs inp s) = inp.length * s := tot_replicate (sizes_newLimbs inp s)
  have hne : newLimbs inp s ≠ [] := by intro h; rw [h] at hnl; simp at hnl; omega
  have hpp : 2 ^ (inp.length * s) ≤ p := Nat.lt_size.1 hnar
  have hdiv : inp.length * s / P.bitsPerLimb = P.nbLimbs := by rw [hlen, Nat.mul_div_cancel _ hb]
  have hss : splitSizes (inp.length * s) P.bitsPerLimb P.nbLimbs = List.replicate P.nbLimbs P.bitsPerLimb := by
    simp [splitSizes, hlen]
  constructor
  · intro hint e he
    unfold toElement at he
    simp only [Option.bind_eq_bind, Slices.flip_eq] at he
    cases hc : resplit hint (newLimbs inp s) P.bitsPerLimb with
    | none => rw [hc] at he; simp at he
    | some r =>
      rw [hc] at he
      simp only [Option.bind_some] at he
      obtain ⟨he', hl, hrange⟩ := newElement_range P _ e ht he
      obtain ⟨hw, hts⟩ := C29_resplit_weighted hint (newLimbs inp s) P.bitsPerLimb hc
      have hts' : tot r = inp.length * s := by rw [← htot]; exact hts
      -- sizes of r
      have hsr : sizes r = List.replicate P.nbLimbs P.bitsPerLimb := by
        unfold resplit at hc
        rw [if_neg (by rw [hnl]; omega), if_pos (by rw [totalSize_eq, htot]; omega), merge_eq _ hne] at hc
        simp only [Option.bind_eq_bind, Option.bind_some] at hc
        by_cases hone : tot (newLimbs inp s) = P.bitsPerLimb
        · unfold split at hc
          simp only [hone, if_true, List.length_nil, Nat.not_lt_zero, if_false] at hc
          rw [Option.some.injEq] at hc
          subst hc
          have : P.nbLimbs = 1 := by
            rw [htot, hlen] at hone
            have : (P.nbLimbs - 1) * P.bitsPerLimb = 0 := by
              rw [Nat.sub_mul]; omega
            rcases Nat.mul_eq_zero.1 this with h | h <;> omega
          rw [this]; rfl
        · obtain ⟨q1, _, _⟩ := C29_split (hint 0) ⟨weighted (newLimbs inp s), tot (newLimbs inp s)⟩ P.bitsPerLimb []
            P.nbLimbs (Or.inr ⟨rfl, by simp only [htot]; exact hdiv.symm⟩) hb hone hn
            (by simp only [htot, hlen]; exact le_rfl) hc
          rw [q1]
          simp only [htot]
          exact hss
      have hIRr : InRange r := by
        intro l hl
        have hsl : l.size = P.bitsPerLimb := by
          have : l.size ∈ sizes r := List.mem_map.2 ⟨l, hl, rfl⟩
          rw [hsr] at this
          exact (List.mem_replicate.1 this).2
        rw [hsl]
        refine hrange l.val ?_
        simp only [values, List.mem_map]
        exact ⟨l, by simpa using hl, rfl⟩
      have hltr := nsum_lt hIRr
      have hlti := nsum_lt hIR
      rw [hts'] at hltr
      rw [htot] at hlti
      have hval : nsum r = nsum (newLimbs inp s) := by
        rw [weighted_eq_nsum, weighted_eq_nsum] at hw
        exact (natCast_inj_of_lt (lt_of_lt_of_le hltr hpp) (lt_of_lt_of_le hlti hpp)).1 hw
      rw [he']
      refine ⟨hl, ?_⟩
      rw [show values r.reverse = (values r).reverse by simp [values], elemVal_reverse _ r _ hsr, hval, nsum_eq hIR]
      rfl
  · obtain ⟨r, h1, h2', h3, h4⟩ := C29_resplit_partial (newLimbs inp s) (by rw [hnl]; omega) hIR P.bitsPerLimb hb
      (by rw [show (sizes (newLimbs inp s)).sum = tot (newLimbs inp s) from rfl, htot, hlen]; exact Nat.le_mul_of_pos_left _ hn)
      (by rw [show (sizes (newLimbs inp s)).sum = tot (newLimbs inp s) from rfl, htot]; exact hnar)
    rw [show (sizes (newLimbs inp s)).sum = tot (newLimbs inp s) from rfl, htot, hdiv, hss] at h4
    refine ⟨(values r).reverse, ?_⟩
    unfold toElement
    simp only [h1, Option.bind_eq_bind, Option.bind_some, Slices.flip_eq]
    rw [show values r.reverse = (values r).reverse by simp [values], newElement_eq P r h2' hn h4, nsum_eq h2', h3]
    rfl

/-! ## `ToElements` -/

theorem chunks_length {α : Type*} (c n : ℕ) (l : List α) : (chunks c n l).length = n := by
  induction n generalizing l with
  | zero => rfl
  | succ n ih => simp [chunks, ih]

theorem chunks_getElem {α : Type*} (c n : ℕ) (l : List α) (i : ℕ) (h : i < (chunks c n l).length) :
    (chunks c n l)[i] = (l.drop (i * c)).take c := by
  induction n generalizing l i with
  | zero => simp [chunks] at h
  | succ n ih =>
    cases i with
    | zero => simp [chunks]
    | succ i =>
      simp only [chunks, List.getElem_cons_succ]
      rw [ih, List.drop_drop]
      congr 2; ring

theorem chunks_mul {α β : Type*} (v n : ℕ) (f : List α → β) (k : ℕ) : ∀ (l : List α),
    chunks n k ((chunks v (k * n) l).map f) = (chunks (n * v) k l).map fun c => (chunks v n c).map f := by
  have split : ∀ (a b : ℕ) (l : List α), chunks v (a + b) l = chunks v a (l.take (a * v)) ++ chunks v b (l.drop (a * v)) := by
    intro a
    induction a with
    | zero => intro b l; simp [chunks]
    | succ a ih =>
      intro b l
      rw [show a + 1 + b = (a + b) + 1 by omega, chunks, chunks, ih b (l.drop v)]
      simp only [List.cons_append, List.take_take, List.drop_take, List.drop_drop]
      rw [show min v ((a + 1) * v) = v by rw [Nat.succ_mul]; omega, show (a + 1) * v - v = a * v by rw [Nat.succ_mul]; omega,
        show v + a * v = (a + 1) * v by rw [Nat.succ_mul]; omega]
  induction k with
  | zero => intro l; rfl
  | succ k ih =>
    intro l
    rw [show (k + 1) * n = n + k * n by ring, split n (k * n) l, List.map_append, chunks, chunks, List.map_cons]
    have hl : ((chunks v n (l.take (n * v))).map f).length = n := by rw [List.length_map, chunks_length]
    rw [List.take_append_of_le_length hl.ge, List.take_of_length_le hl.le, List.drop_append_of_le_length hl.ge,
      List.drop_of_length_le hl.le, List.nil_append, ih]

/-- **C41, `ToElements`.**  For inputs of `s` bits, `s` dividing the limb width, that make up exactly `k` elements:
satisfiable exactly when each group of inputs writes a number that fits the emulated field's width, and then element
number `i` is the number written by the `i`-th group of inputs. -/
theorem C41_toElements [NeZero p] (P : FieldPrm) (inp : List (F p)) (s v k : ℕ) (hv : v * s = P.bitsPerLimb)
    (hb : 0 < P.bitsPerLimb) (hn : 0 < P.nbLimbs) (hp : 2 ^ P.bitsPerLimb ≤ p)
    (hlen : inp.length = k * (P.nbLimbs * v)) (hr : ∀ x ∈ inp, x.val < 2 ^ s) :
    ((∀ c ∈ chunks (P.nbLimbs * v) k inp, inputNum s c < 2 ^ ((P.nbLimbs - 1) * P.bitsPerLimb + P.topBits)) →
      ∃ els, toElements P inp s = some els ∧ (∀ e ∈ els, e.length = P.nbLimbs) ∧
        els.map (elemVal P.bitsPerLimb) = (chunks (P.nbLimbs * v) k inp).map (inputNum s)) ∧
    ((∃ c ∈ chunks (P.nbLimbs * v) k inp, 2 ^ ((P.nbLimbs - 1) * P.bitsPerLimb + P.topBits) ≤ inputNum s c) →
      toElements P inp s = none) := by
  have hv0 : 0 < v := Nat.pos_of_ne_zero (by rintro rfl; simp at hv; omega)
  have hs0 : 0 < s := Nat.pos_of_ne_zero (by rintro rfl; simp at hv; omega)
  have hbs : P.bitsPerLimb / s = v := by rw [← hv, Nat.mul_div_cancel _ hs0]
  have hcnt : inp.length * s / P.bitsPerLimb = k * P.nbLimbs := by
    rw [hlen, ← hv, show k * (P.nbLimbs * v) * s = k * P.nbLimbs * (v * s) by ring, Nat.mul_div_cancel _ (by rw [hv]; exact hb)]
  set ws := newLimbs inp s with hws
  have hwl : ws.length = k * P.nbLimbs * v := by simp [hws, newLimbs, hlen]; ring
  -- the merged limbs
  have hmerge : (List.range (k * P.nbLimbs)).mapM (fun i =>
      if (i + 1) * v ≤ ws.length then (merge ((ws.take ((i + 1) * v)).drop (i * v))).map Limb.val else none)
      = some ((chunks v (k * P.nbLimbs) ws).map weighted) := by
    have e : (chunks v (k * P.nbLimbs) ws).map weighted
        = (List.range (k * P.nbLimbs)).map fun i => weighted ((ws.drop (i * v)).take v) := by
      apply List.ext_getElem
      · simp [chunks_length]
      · intro i h1 h2
        simp only [List.getElem_map, chunks_getElem, List.getElem_range]
    rw [e]
    apply mapM_some
    intro i hi
    have hi := List.mem_range.1 hi
    have hle : (i + 1) * v ≤ ws.length := by rw [hwl]; exact Nat.mul_le_mul_right _ hi
    rw [if_pos hle]
    have hsl : (ws.take ((i + 1) * v)).drop (i * v) = (ws.drop (i * v)).take v := by
      rw [List.drop_take, show (i + 1) * v - i * v = v by rw [Nat.succ_mul]; omega]
    rw [hsl, merge_eq]
    · rfl
    · intro h0
      have := congrArg List.length h0
      rw [List.length_take, List.length_drop, List.length_nil] at this
      rw [Nat.succ_mul] at hle
      omega
  have hfc : flipChunks P.nbLimbs ((chunks v (k * P.nbLimbs) ws).map weighted)
      = ((chunks (P.nbLimbs * v) k ws).map fun c => ((chunks v P.nbLimbs c).map weighted).reverse).flatten := by
    unfold flipChunks
    rw [List.length_map, chunks_length, Nat.mul_div_cancel _ hn, chunks_mul, List.map_map]
    rfl
  -- the flipped groups
  set E := (chunks (P.nbLimbs * v) k ws).map fun c => ((chunks v P.nbLimbs c).map weighted).reverse with hE
  have hEl : ∀ e ∈ E, e.length = P.nbLimbs := by
    intro e he
    obtain ⟨c, _, rfl⟩ := List.mem_map.1 he
    simp [chunks_length]
  have hElen : E.length = k := by simp [hE, chunks_length]
  have hflatlen : E.flatten.length = k * P.nbLimbs := by
    have : ∀ (E : List (List (F p))), (∀ e ∈ E, e.length = P.nbLimbs) → E.flatten.length = E.length * P.nbLimbs := by
      intro E
      induction E with
      | nil => intro _; simp
      | cons e E ih =>
        intro h
        rw [List.flatten_cons, List.length_append, h e (by simp), ih (fun e he => h e (by simp [he])), List.length_cons,
          Nat.succ_mul]
        omega
    rw [this E hEl, hElen]
  have hto : toElements P inp s = (List.range k).mapM fun i =>
      newElement P ((E.flatten.drop (i * P.nbLimbs)).take P.nbLimbs) := by
    unfold toElements
    rw [if_neg (by omega)]
    simp only [hbs, hcnt, ← hws, Option.bind_eq_bind]
    rw [hmerge]
    simp only [Option.bind_some]
    rw [Slices.flipSubSlice_eq, if_pos ⟨by omega, by rw [List.length_map, chunks_length, Nat.mul_mod_left]⟩, hfc]
    simp only [Option.bind_some]
    rw [hflatlen, Nat.mul_div_cancel _ hn]
  have hget : ∀ i (hi : i < E.length), (E.flatten.drop (i * P.nbLimbs)).take P.nbLimbs = E[i] := by
    have : ∀ (E : List (List (F p))), (∀ e ∈ E, e.length = P.nbLimbs) → ∀ i (hi : i < E.length),
        (E.flatten.drop (i * P.nbLimbs)).take P.nbLimbs = E[i] := by
      intro E
      induction E with
      | nil => intro _ i hi; simp at hi
      | cons e E ih =>
        intro h i hi
        have hl := h e (by simp)
        cases i with
        | zero => simp [List.take_append_of_le_length hl.ge, List.take_of_length_le hl.le]
        | succ i =>
          rw [List.flatten_cons, show (i + 1) * P.nbLimbs = e.length + i * P.nbLimbs by rw [hl]; ring,
            ← List.drop_drop, List.drop_append_of_le_length le_rfl, List.drop_length, List.nil_append,
            ih (fun e he => h e (by simp [he])) i (by simpa using hi)]
          rfl
    exact this E hEl
  -- each group
  have hgrp : ∀ i (hi : i < E.length) (hi2 : i < (chunks (P.nbLimbs * v) k inp).length),
      newElement P E[i] = (if inputNum s (chunks (P.nbLimbs * v) k inp)[i] < 2 ^ ((P.nbLimbs - 1) * P.bitsPerLimb + P.topBits)
        then some E[i] else none) ∧ elemVal P.bitsPerLimb E[i] = inputNum s (chunks (P.nbLimbs * v) k inp)[i] := by
    intro i hi hi2
    rw [hElen] at hi
    set c := (inp.drop (i * (P.nbLimbs * v))).take (P.nbLimbs * v) with hc
    have hcl : c.length = P.nbLimbs * v := by
      rw [hc, List.length_take, List.length_drop, hlen]
      have : (i + 1) * (P.nbLimbs * v) ≤ k * (P.nbLimbs * v) := Nat.mul_le_mul_right _ hi
      rw [Nat.succ_mul] at this
      omega
    have hcr : ∀ x ∈ c, x.val < 2 ^ s := fun x hx => hr x (List.mem_of_mem_drop (List.mem_of_mem_take hx))
    have hEi : E[i] = ((chunks v P.nbLimbs (newLimbs c s)).map weighted).reverse := by
      simp only [hE, List.getElem_map, chunks_getElem, hws, newLimbs, ← List.map_drop, ← List.map_take, hc]
    have hci : (chunks (P.nbLimbs * v) k inp)[i] = c := by rw [chunks_getElem]
    rw [hci, hEi]
    obtain ⟨c1, c2, c3⟩ := chunk_limbs s v P.bitsPerLimb hv hv0 hp P.nbLimbs (newLimbs c s) (by simp [newLimbs, hcl])
      (by intro w hw; obtain ⟨_, _, rfl⟩ := List.mem_map.1 hw; rfl) ((inRange_newLimbs _ _).2 hcr)
    have hvals : (chunks v P.nbLimbs (newLimbs c s)).map weighted
        = values ((chunks v P.nbLimbs (newLimbs c s)).map fun c => (⟨weighted c, P.bitsPerLimb⟩ : Limb p)) := by
      simp [values, Function.comp_def]
    rw [hvals, newElement_eq P _ c1 hn c3, elemVal_reverse _ _ _ c3, nsum_eq c1, c2]
    exact ⟨rfl, rfl⟩
  have hcl2 : (chunks (P.nbLimbs * v) k inp).length = k := chunks_length _ _ _
  constructor
  · intro hall
    refine ⟨E, ?_, hEl, ?_⟩
    · rw [hto]
      have : E = (List.range k).map fun i => E.getD i [] := by
        apply List.ext_getElem
        · simp [hElen]
        · intro i h1 h2
          simp only [List.getElem_map, List.getElem_range, List.getD_eq_getElem _ _ h1]
      conv_rhs => rw [this]
      apply mapM_some
      intro i hi
      have hi := List.mem_range.1 hi
      rw [hget i (by omega), (hgrp i (by omega) (by omega)).1, if_pos (hall _ (List.getElem_mem _)),
        List.getD_eq_getElem _ _ (by omega)]
    · apply List.ext_getElem
      · simp [hElen, hcl2]
      · intro i h1 h2
        simp only [List.length_map] at h1 h2
        simp only [List.getElem_map]
        exact (hgrp i h1 h2).2
  · rintro ⟨c, hc, hbig⟩
    obtain ⟨i, hi, rfl⟩ := List.mem_iff_getElem.1 hc
    rw [hto]
    refine mapM_none (a := i) (List.mem_range.2 (by omega)) ?_
    rw [hget i (by omega), (hgrp i (by omega) hi).1, if_neg (by omega)]

/-! ## `FromElement` -/

/-- **C41 (part), `FromElement`.**  For an element whose limbs fit, with the shipped hint and an output width that
divides the element's width: the outputs write the element's integer, most significant first.
Missing: the circuit does not force the hint, see `C41_fromElement_any_head`; total width equal to the bit length of
the native field (`C29_resplit_wraps`). -/
theorem C41_fromElement_partial [NeZero p] (P : FieldPrm) (inp : List (F p)) (out : ℕ) (hn : 2 ≤ P.nbLimbs)
    (hlen : inp.length = P.nbLimbs) (hb : 0 < P.bitsPerLimb) (hr : ∀ x ∈ inp, x.val < 2 ^ P.bitsPerLimb)
    (ho : 0 < out) (hp : 2 ^ out ≤ p) (hd : out ∣ P.nbLimbs * P.bitsPerLimb)
    (hne : P.nbLimbs * P.bitsPerLimb ≠ p.size) :
    ∃ r, fromElement (fun _ => splitHint) P inp out = some r ∧ (∀ x ∈ r, x.val < 2 ^ out) ∧
      r.length * out = P.nbLimbs * P.bitsPerLimb ∧ inputNum out r = elemVal P.bitsPerLimb inp := by
  have hflip : Slices.flipSubSlice (newLimbs inp P.bitsPerLimb) P.nbLimbs = some (newLimbs inp.reverse P.bitsPerLimb) := by
    rw [Slices.flipSubSlice_eq, if_pos ⟨by omega, by simp [newLimbs, hlen]⟩]
    have : (newLimbs inp P.bitsPerLimb).length = P.nbLimbs := by simp [newLimbs, hlen]
    simp only [flipChunks, this, Nat.div_self (by omega : 0 < P.nbLimbs), chunks, List.map_cons, List.map_nil,
      List.flatten_cons, List.flatten_nil, List.append_nil]
    rw [List.take_of_length_le (by omega)]
    simp [newLimbs]
  set ws := newLimbs inp.reverse P.bitsPerLimb with hws
  have hwl : ws.length = P.nbLimbs := by simp [hws, newLimbs, hlen]
  have hIR : InRange ws := (inRange_newLimbs _ _).2 (by simpa using hr)
  have htot : (sizes ws).sum = P.nbLimbs * P.bitsPerLimb := by
    rw [show (sizes ws).sum = tot ws from rfl, tot_replicate (sizes_newLimbs _ _), List.length_reverse, hlen]
  have hres : ∃ r, resplit (fun _ => splitHint) ws out = some r ∧ InRange r ∧ bitStr r = bitStr ws ∧
      sizes r = List.replicate ((sizes ws).sum / out) out := by
    by_cases hc : p.size < (sizes ws).sum
    · exact C29_resplit_wide ws (by omega) hIR out ho hp hc (by rw [htot]; exact hd)
        (fun l hl => by obtain ⟨_, _, rfl⟩ := List.mem_map.1 hl; exact hb)
    · obtain ⟨r, h1, h2, h3, h4⟩ := C29_resplit_partial ws (by omega) hIR out ho
        (by rw [htot]; exact Nat.le_of_dvd (Nat.mul_pos (by omega) hb) hd) (by omega)
      refine ⟨r, h1, h2, h3, ?_⟩
      rw [h4]
      unfold splitSizes
      rw [htot, Nat.div_mul_cancel hd]
      simp
  obtain ⟨r, h1, h2, h3, h4⟩ := hres
  have hrn : newLimbs (values r) out = r := by
    have : ∀ l ∈ r, l.size = out := by
      intro l hl
      have : l.size ∈ sizes r := List.mem_map.2 ⟨l, hl, rfl⟩
      rw [h4] at this
      exact (List.mem_replicate.1 this).2
    unfold newLimbs values
    rw [List.map_map]
    conv_rhs => rw [← List.map_id r]
    apply List.map_congr_left
    intro l hl
    have := this l hl
    obtain ⟨a, b⟩ := l
    simp only at this
    simp [this]
  refine ⟨values r, ?_, ?_, ?_, ?_⟩
  · unfold fromElement
    simp only [Option.bind_eq_bind]
    rw [hflip]
    simp only [Option.bind_some]
    rw [h1]; rfl
  · intro x hx
    have := (inRange_newLimbs (values r) out).1 (by rw [hrn]; exact h2)
    exact this x hx
  · have : r.length = (sizes ws).sum / out := by
      have := congrArg List.length h4
      simpa [sizes] using this
    simp only [values, List.length_map, this, htot]
    exact Nat.div_mul_cancel hd
  · unfold inputNum
    rw [hrn, h3, elemVal_eq _ _ hr]
    rfl

/-- **C41, negated for `FromElement`.**  When the element is narrower than the native field the outputs are not bound:
every choice of all outputs but the last is accepted for some answer of the prover. -/
theorem C41_fromElement_any_head (P : FieldPrm) (inp : List (F p)) (out : ℕ) (hn : 2 ≤ P.nbLimbs)
    (hlen : inp.length = P.nbLimbs) (ho : 0 < out) (hne : P.nbLimbs * P.bitsPerLimb ≠ out)
    (hle : out ≤ P.nbLimbs * P.bitsPerLimb) (hnar : P.nbLimbs * P.bitsPerLimb ≤ p.size) (head : List (F p))
    (hhead : head.length + 1 = (splitSizes (P.nbLimbs * P.bitsPerLimb) out (P.nbLimbs * P.bitsPerLimb / out)).length) :
    ∃ hint r, fromElement hint P inp out = some r ∧ r.dropLast = head := by
  have hflip : Slices.flipSubSlice (newLimbs inp P.bitsPerLimb) P.nbLimbs = some (newLimbs inp.reverse P.bitsPerLimb) := by
    rw [Slices.flipSubSlice_eq, if_pos ⟨by omega, by simp [newLimbs, hlen]⟩]
    have : (newLimbs inp P.bitsPerLimb).length = P.nbLimbs := by simp [newLimbs, hlen]
    simp only [flipChunks, this, Nat.div_self (by omega : 0 < P.nbLimbs), chunks, List.map_cons, List.map_nil,
      List.flatten_cons, List.flatten_nil, List.append_nil]
    rw [List.take_of_length_le (by omega)]
    simp [newLimbs]
  set ws := newLimbs inp.reverse P.bitsPerLimb with hws
  have hwl : ws.length = P.nbLimbs := by simp [hws, newLimbs, hlen]
  have hwne : ws ≠ [] := by intro h; rw [h] at hwl; simp at hwl; omega
  have htot : tot ws = P.nbLimbs * P.bitsPerLimb := by
    rw [tot_replicate (sizes_newLimbs _ _), List.length_reverse, hlen]
  have hnb : 0 < P.nbLimbs * P.bitsPerLimb / out := Nat.div_pos hle ho
  obtain ⟨hint, ret, hs, hv⟩ := C30_split_not_unique (⟨weighted ws, tot ws⟩ : Limb p) out (tot ws / out) ho
    (by simp only [htot]; exact hne) (by rw [htot]; exact hnb) (Nat.div_mul_le_self _ _) head
    (by simp only [htot]; exact hhead)
  refine ⟨fun _ => hint, values ret, ?_, hv⟩
  unfold fromElement
  simp only [Option.bind_eq_bind]
  rw [hflip]
  simp only [Option.bind_some]
  unfold resplit
  rw [if_neg (by omega), if_pos (by rw [totalSize_eq, htot]; exact hnar), merge_eq _ hwne]
  simp only [Option.bind_eq_bind, Option.bind_some]
  have e : split hint (⟨weighted ws, tot ws⟩ : Limb p) out [] = split hint ⟨weighted ws, tot ws⟩ out [tot ws / out] := by
    rw [split_eq hint ⟨weighted ws, tot ws⟩ out [] (tot ws / out) (Or.inr ⟨rfl, rfl⟩) ho (by simp only [htot]; exact hne)
      (by rw [htot]; exact hnb) (Nat.div_mul_le_self _ _),
      split_eq hint ⟨weighted ws, tot ws⟩ out [tot ws / out] (tot ws / out) (Or.inl rfl) ho (by simp only [htot]; exact hne)
      (by rw [htot]; exact hnb) (Nat.div_mul_le_self _ _)]
  rw [e, hs]
  rfl

/-- Parameters of the BLS12-377 scalar field: four limbs of 64 bits, 253-bit modulus; inputs are 32 bytes and the
native field has 254 bits, as in the repository's tests: the wide theorem applies, and so does `ToElements`. -/
example (hp : p.size = 254) (inp : List (F p)) (h : inp.length = 32) :
    ((8 * 8 = (⟨64, 4, 61⟩ : FieldPrm).bitsPerLimb) ∧ 2 ^ (⟨64, 4, 61⟩ : FieldPrm).bitsPerLimb ≤ p) ∧
    inp.length = (⟨64, 4, 61⟩ : FieldPrm).nbLimbs * 8 ∧ p.size < inp.length * 8 := by
  refine ⟨⟨rfl, ?_⟩, by simp [h], by omega⟩
  have : 2 ^ 253 ≤ p := Nat.lt_size.1 (by omega)
  exact le_trans (Nat.pow_le_pow_right (by decide) (by decide)) this

end Verif.Emu
