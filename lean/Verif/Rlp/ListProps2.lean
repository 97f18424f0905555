import Verif.Rlp.ListProps

/-! # C11–C14, continued: disagreements, `RlpNestArrayCheck`, `BlkHeaderRlpCheck` -/

set_option linter.unusedSectionVars false

namespace Verif.Rlp
open Api Spec.Rlp
variable {p : ℕ} [Fact p.Prime]

/-- **C13 (disagreement).** With exactly one empty-list item, `RlpArrayCheck` rejects the well-formed list and accepts
every list header that announces a *wrong* payload length. -/
theorem C13_one_empty_list (hp : 2 ^ 128 < p) (a : ArrayCheck) (hwf : a.WF) (ns : List ℕ)
    (hnib : ∀ x ∈ ns, x < 16) (hlen : ns.length = a.maxHexLen) (inp : List (F p))
    (hin : inp.take a.maxHexLen = ns.map (Nat.cast : ℕ → F p)) (fieldNum : F p)
    (hnum : fieldNum.val ≤ a.maxFields) (r : AcOut p) (hr : rlpArrayCheck a inp fieldNum = some r)
    (hfix : ∀ i < fieldNum.val, a.fieldMin.getD i 0 = a.fieldMax.getD i 0 →
      r.lens[i]? = some ((a.fieldMin.getD i 0 : ℕ) : F p))
    (hone : ((List.range fieldNum.val).filter fun i =>
        decide (byteAt (cyc ns) (itemOffset (cyc ns) i) = 0xc0)).length = 1) :
    (IsListOf (cyc ns) fieldNum.val → r.out ≠ 1) ∧
    (isList (cyc ns) 0 → ¬ IsListOf (cyc ns) fieldNum.val → r.out = 1) := by
  have h := C13_rlpArrayCheck_exact hp a hwf ns hnib hlen inp hin fieldNum hnum r hr hfix
  have hS : ∀ k, cyc ns k < 16 := fun k => getD_lt hnib _
  rw [hone] at h
  have hiff := isListOf_iff (cyc ns) hS fieldNum.val
  constructor
  · intro hl ho
    have h2 := h.1 ho
    have h3 := hiff.1 hl
    rw [if_pos (show isList (cyc ns) 0 from h3.1), if_pos h3.2] at h2
    omega
  · intro hl hnl
    have hnf : ¬ itemOffset (cyc ns) fieldNum.val = listHdr (byteAt (cyc ns) 0) + declared (cyc ns) :=
      fun hf => hnl (hiff.2 ⟨hl, hf⟩)
    rw [h, if_pos hl, if_neg hnf]

theorem two_iff (A B : Prop) [Decidable A] [Decidable B] :
    (if A then 1 else 0) + (if B then 1 else 0) = 2 ↔ A ∧ B := by
  by_cases A <;> by_cases B <;> simp_all

/-- Evaluation of `RlpArrayCheck` on concrete buffers, in every admissible field. -/
theorem rlpArrayCheck_run (hp : 2 ^ 128 < p) (a : ArrayCheck) (hwf : a.WF) (ns : List ℕ)
    (hnib : ∀ x ∈ ns, x < 16) (hlen : ns.length = a.maxHexLen) (num : ℕ) (hnum : num ≤ a.maxFields)
    (hcond : (0 < a.arrayPrefixMaxHexLen ∧ ahPrefix1 (byteAt (cyc ns) 0) ≤ a.arrayPrefixMaxHexLen) ∧
          ∀ i < a.maxFields, acCond a (cyc ns) num 10 i)
    (hfix : ∀ i < num, mn a i = mx a i → payLen (cyc ns) (acOff a (cyc ns) num i) = mn a i) :
    ∃ r, rlpArrayCheck a (ns.map (Nat.cast : ℕ → F p)) ((num : ℕ) : F p) = some r ∧
      (r.out = 1 ↔ (if isList (cyc ns) 0 then 1 else 0) + emptyLists (cyc ns) num +
      (if itemOffset (cyc ns) num = listHdr (byteAt (cyc ns) 0) + declared (cyc ns) then 1 else 0) = 2) ∧
      r.total = ((listHdr (byteAt (cyc ns) 0) + declared (cyc ns) : ℕ) : F p) := by
  have hv : ((num : ℕ) : F p).val = num := val_natCast_lt (by have := hwf.fields; omega)
  have htk : (ns.map (Nat.cast : ℕ → F p)).take a.maxHexLen = ns.map (Nat.cast : ℕ → F p) :=
    List.take_of_length_le (by simp [hlen])
  have hc : CellsOf ((ns.map (Nat.cast : ℕ → F p)).take a.maxHexLen) a.maxHexLen (cyc ns) := by
    rw [htk]; exact cells_cyc hnib hlen (by have := hwf.apm; omega)
  have h1 := rlpArrayCheck_eq hp a hwf _ (cyc ns) hc ((num : ℕ) : F p)
  rw [hv, if_pos hcond] at h1
  refine ⟨_, h1, ?_⟩
  have h2 := arrayCheck_exact hp a hwf _ (cyc ns) hc ((num : ℕ) : F p) (by rw [hv]; exact hnum)
    (by rw [hv]; exact hfix) _ h1
  rw [hv] at h2
  exact ⟨h2.1, h2.2.1⟩

/-- two items of at most one byte each -/
def tinyParams : ArrayCheck := ⟨8, 2, 2, [0, 0], [2, 2]⟩

/-- `c2 c0 01` (the list `[[], 1]`) is rejected. -/
theorem C13_witness_rejected (hp : 2 ^ 128 < p) :
    IsListOf (cyc [12, 2, 12, 0, 0, 1, 0, 0]) 2 ∧
    ∃ r, rlpArrayCheck tinyParams (([12, 2, 12, 0, 0, 1, 0, 0] : List ℕ).map (Nat.cast : ℕ → F p))
      ((2 : ℕ) : F p) = some r ∧ r.out ≠ 1 := by
  refine ⟨⟨by decide, by decide⟩, ?_⟩
  obtain ⟨r, h1, h2, -⟩ := rlpArrayCheck_run (p := p) hp tinyParams (by decide) [12, 2, 12, 0, 0, 1, 0, 0]
    (by decide) (by decide) 2 (by decide) (by unfold acCond gAlign itemFits; decide) (by decide)
  exact ⟨r, h1, fun h => absurd (h2.1 h) (by decide)⟩

/-- `c5 c0 01` (announces 5 payload bytes, contains 2) is accepted. -/
theorem C13_witness_accepted (hp : 2 ^ 128 < p) :
    ¬ IsListOf (cyc [12, 5, 12, 0, 0, 1, 0, 0]) 2 ∧
    ∃ r, rlpArrayCheck tinyParams (([12, 5, 12, 0, 0, 1, 0, 0] : List ℕ).map (Nat.cast : ℕ → F p))
      ((2 : ℕ) : F p) = some r ∧ r.out = 1 := by
  refine ⟨fun h => absurd h.2 (by decide), ?_⟩
  obtain ⟨r, h1, h2, -⟩ := rlpArrayCheck_run (p := p) hp tinyParams (by decide) [12, 5, 12, 0, 0, 1, 0, 0]
    (by decide) (by decide) 2 (by decide) (by unfold acCond gAlign itemFits; decide) (by decide)
  exact ⟨r, h1, h2.2 (by decide)⟩

/-- `05 c0 c0` is not a list at all, but is accepted as a list of two items. -/
theorem C13_witness_nonlist (hp : 2 ^ 128 < p) :
    ¬ isList (cyc [0, 5, 12, 0, 12, 0, 0, 0]) 0 ∧
    ∃ r, rlpArrayCheck tinyParams (([0, 5, 12, 0, 12, 0, 0, 0] : List ℕ).map (Nat.cast : ℕ → F p))
      ((2 : ℕ) : F p) = some r ∧ r.out = 1 := by
  refine ⟨by decide, ?_⟩
  obtain ⟨r, h1, h2, -⟩ := rlpArrayCheck_run (p := p) hp tinyParams (by decide) [0, 5, 12, 0, 12, 0, 0, 0]
    (by decide) (by decide) 2 (by decide) (by unfold acCond gAlign itemFits; decide) (by decide)
  exact ⟨r, h1, h2.2 (by decide)⟩

/-- **C11 (disagreement).** `f8 01 05`: a list header in long form for a one-byte payload (not canonical RLP) is accepted. -/
theorem C11_noncanonical_accepted (hp : 2 ^ 128 < p) :
    ∃ r, rlpArrayCheck ⟨8, 1, 2, [0], [2]⟩ (([15, 8, 0, 1, 0, 5, 0, 0] : List ℕ).map (Nat.cast : ℕ → F p))
      ((1 : ℕ) : F p) = some r ∧ r.out = 1 ∧ r.total = ((6 : ℕ) : F p) ∧ encodeList [[5]] = [0xc1, 5] := by
  obtain ⟨r, h1, h2, h3⟩ := rlpArrayCheck_run (p := p) hp ⟨8, 1, 2, [0], [2]⟩ (by decide) [15, 8, 0, 1, 0, 5, 0, 0]
    (by decide) (by decide) 1 (by decide) (by unfold acCond gAlign itemFits; decide) (by decide)
  exact ⟨r, h1, h2.2 (by decide), h3, by decide⟩

/-- **C12 (disagreement).** If the first field's maximum is below 128 nibbles, every input whose first item has a
long header (in particular a canonical string of 56..63 bytes, at most 126 nibbles) is unsatisfiable. -/
theorem C12_max_112_rejects (hp : 2 ^ 128 < p) (a : ArrayCheck) (hwf : a.WF) (ns : List ℕ)
    (hnib : ∀ x ∈ ns, x < 16) (hlen : ns.length = a.maxHexLen) (inp : List (F p))
    (hin : inp.take a.maxHexLen = ns.map (Nat.cast : ℕ → F p)) (fieldNum : F p)
    (h0 : 0 < fieldNum.val) (hm0 : 0 < a.maxFields) (hmax : a.fieldMax.getD 0 0 < 128)
    (hlong : 0 < lenOfLen (byteAt (cyc ns) (itemOffset (cyc ns) 0))) :
    rlpArrayCheck a inp fieldNum = none := by
  have hc : CellsOf (inp.take a.maxHexLen) a.maxHexLen (cyc ns) := by
    rw [hin]; exact cells_cyc hnib hlen (by have := hwf.apm; omega)
  rw [rlpArrayCheck_eq hp a hwf inp (cyc ns) hc, if_neg]
  rintro ⟨-, h⟩
  have h1 := (h 0 hm0).2 h0
  unfold itemFits at h1
  have hoff : acOff a (cyc ns) fieldNum.val 0 = itemOffset (cyc ns) 0 := by
    simp [acOff, gOff, itemOffset, listHdr_eq]
  rw [hoff] at h1
  have hl : lenPrefixMaxHexs (mx a 0) = 2 := by
    unfold lenPrefixMaxHexs mx
    rw [logCeil_eq_size _ (hmax.trans (by norm_num))]
    have : (a.fieldMax.getD 0 0).size ≤ 7 := Nat.size_le.2 (by omega)
    omega
  rw [hl] at h1
  have h2 := h1.2
  unfold hdrLen at h2
  rw [if_neg (big_not_lit _ hlong), show Nat.size 2 = 2 by decide] at h2
  omega

/-! ## `RlpNestArrayCheck` -/

theorem gC0_eq (a : ArrayCheck) (S : ℕ → ℕ) (hd ln : ℕ → ℕ → ℕ) (k : ℕ)
    (hoff : ∀ i < k, gOff a S hd ln i = itemOffset S i) : gC0 a S hd ln k = emptyLists S k := by
  induction k with
  | zero => rfl
  | succ k ih =>
    rw [gC0, emptyLists_succ, ih (fun i hi => hoff i (by omega)), hoff k (by omega)]

theorem gC0_le (a : ArrayCheck) (S : ℕ → ℕ) (hd ln : ℕ → ℕ → ℕ) (k : ℕ) : gC0 a S hd ln k ≤ k := by
  induction k with
  | zero => rfl
  | succ k ih => rw [gC0]; split <;> omega

theorem gOut_accept (hp : 2 ^ 128 < p) (a : ArrayCheck) (hF : a.maxFields < 2 ^ 60) (S : ℕ → ℕ)
    (hS : ∀ k, S k < 16) (hd ln su : ℕ → ℕ → ℕ) (hsu : ∀ i o, su i o ≤ 2 ^ 66) (cells : List (F p)) :
    (gOut a S hd ln su cells).out = 1 ↔
      (if isList S 0 then 1 else 0) + gC0 a S hd ln a.maxFields +
      (if declared S = gSum a S hd ln su a.maxFields then 1 else 0) = 2 := by
  have hsum : ∀ k, gSum a S hd ln su k ≤ k * 2 ^ 66 := by
    intro k
    induction k with
    | zero => simp [gSum]
    | succ k ih => rw [gSum]; have := hsu k (gOff a S hd ln k); omega
  have h := accept_iff hp S hS a.maxFields (gC0 a S hd ln a.maxFields) (declared S)
    (gSum a S hd ln su a.maxFields) hF (by have := gC0_le a S hd ln a.maxFields; omega)
    (by have := declared_lt S hS; omega) (by have := hsum a.maxFields; omega)
  unfold gOut
  simp only
  rw [ahTotal_eq, h]
  rfl

theorem nOff_eq (a : ArrayCheck) (S : ℕ → ℕ) (k : ℕ)
    (hz : ∀ i < k, byteAt S (itemOffset S i) ≠ 0)
    (hfix : ∀ i < k, mn a i = mx a i → nLn S i (gOff a S (nHd S) (nLn S) i) = mn a i) :
    gOff a S (nHd S) (nLn S) k = itemOffset S k := by
  induction k with
  | zero => simp [gOff, itemOffset, listHdr_eq]
  | succ k ih =>
    have ih := ih (fun i hi => hz i (by omega)) (fun i hi => hfix i (by omega))
    have h1 := hz k (by omega)
    have h2 := hfix k (by omega)
    have h3 : nHd S k (itemOffset S k) + nLn S k (itemOffset S k) = itemLen S (itemOffset S k) := by
      unfold nHd nLn itemLen
      split_ifs <;> omega
    rw [gOff, itemOffset, gAdv, ih]
    rw [ih] at h2
    split
    · rename_i h; rw [← h2 h]; omega
    · omega

theorem nSum_eq (a : ArrayCheck) (S : ℕ → ℕ) (k : ℕ)
    (hz : ∀ i < k, byteAt S (itemOffset S i) ≠ 0)
    (hfix : ∀ i < k, mn a i = mx a i → nLn S i (gOff a S (nHd S) (nLn S) i) = mn a i) :
    listHdr (byteAt S 0) + gSum a S (nHd S) (nLn S) (fun _ o => nSum S o) k + emptyLists S k
      = itemOffset S k := by
  induction k with
  | zero => simp [gSum, itemOffset, emptyLists]
  | succ k ih =>
    have ih := ih (fun i hi => hz i (by omega)) (fun i hi => hfix i (by omega))
    have h1 := hz k (by omega)
    have h2 := nOff_eq a S k (fun i hi => hz i (by omega)) (fun i hi => hfix i (by omega))
    rw [gSum, itemOffset, emptyLists_succ, h2]
    have : nSum S (itemOffset S k) + (if byteAt S (itemOffset S k) = 0xc0 then 1 else 0)
        = itemLen S (itemOffset S k) := by
      unfold nSum
      by_cases hc : byteAt S (itemOffset S k) = 0xc0
      · rw [if_pos hc, if_pos hc]
        unfold itemLen hdrLen payLen lenOfLen
        simp [hc]
      · rw [if_neg hc, if_neg hc, if_neg h1, Nat.add_zero]
    omega

theorem nSum_le (S : ℕ → ℕ) (hS : ∀ k, S k < 16) (o : ℕ) : nSum S o ≤ 2 ^ 66 := by
  have h1 := payLen_lt S hS o
  have h2 := hdrLen_le _ (byteAt_lt S hS o)
  unfold nSum itemLen
  split_ifs <;> omega

/-- **C13 (exact acceptance of `RlpNestArrayCheck`).** When no item is the literal byte `00` and fixed-width fields
have the configured width, the flag is 1 iff
`[list header] + k + [items fill the announced payload plus k nibbles] = 2` with `k` the number of empty-list items. -/
theorem C13_rlpNest_exact (hp : 2 ^ 128 < p) (a : ArrayCheck) (hwf : a.WF) (ns : List ℕ)
    (hnib : ∀ x ∈ ns, x < 16) (hlen : ns.length = a.maxHexLen) (inp : List (F p))
    (hin : inp.take a.maxHexLen = ns.map (Nat.cast : ℕ → F p))
    (r : AcOut p) (hr : rlpNestArrayCheck a inp = some r)
    (hfix : ∀ i < a.maxFields, a.fieldMin.getD i 0 = a.fieldMax.getD i 0 →
      r.lens[i]? = some ((a.fieldMin.getD i 0 : ℕ) : F p))
    (hz : ∀ i < a.maxFields, byteAt (cyc ns) (itemOffset (cyc ns) i) ≠ 0) :
    (r.out = 1 ↔ (if isList (cyc ns) 0 then 1 else 0) + emptyLists (cyc ns) a.maxFields +
      (if itemOffset (cyc ns) a.maxFields = listHdr (byteAt (cyc ns) 0) + declared (cyc ns) +
        emptyLists (cyc ns) a.maxFields then 1 else 0) = 2) ∧
    r.total = ((listHdr (byteAt (cyc ns) 0) + declared (cyc ns) : ℕ) : F p) ∧
    ∀ i < a.maxFields,
      r.lens[i]? = some (((if isList (cyc ns) (itemOffset (cyc ns) i) then itemLen (cyc ns) (itemOffset (cyc ns) i)
        else payLen (cyc ns) (itemOffset (cyc ns) i)) : ℕ) : F p) ∧
      r.fields[i]? = some ((ns.map (Nat.cast : ℕ → F p)).rotate (itemOffset (cyc ns) i +
        (if isList (cyc ns) (itemOffset (cyc ns) i) then 0 else hdrLen (byteAt (cyc ns) (itemOffset (cyc ns) i))))) := by
  have hc : CellsOf (inp.take a.maxHexLen) a.maxHexLen (cyc ns) := by
    rw [hin]; exact cells_cyc hnib hlen (by have := hwf.apm; omega)
  rw [rlpNestArrayCheck_eq hp a hwf inp (cyc ns) hc] at hr
  split at hr
  · have hr := (Option.some.inj hr).symm
    subst hr
    have hfix' : ∀ i < a.maxFields, mn a i = mx a i →
        nLn (cyc ns) i (gOff a (cyc ns) (nHd (cyc ns)) (nLn (cyc ns)) i) = mn a i := by
      intro i hi he
      have h1 := hfix i hi he
      simp only [gOut, List.getElem?_map, List.getElem?_range hi, Option.map_some, Option.some.injEq] at h1
      refine (natCast_inj_of_lt ?_ ?_).1 h1
      · have := nLn_lt _ hc.nib i (gOff a (cyc ns) (nHd (cyc ns)) (nLn (cyc ns)) i); omega
      · have := hwf.small i hi; have := hwf.le i hi; unfold mn; omega
    have hoff : ∀ i ≤ a.maxFields, gOff a (cyc ns) (nHd (cyc ns)) (nLn (cyc ns)) i = itemOffset (cyc ns) i :=
      fun i hi => nOff_eq a _ i (fun j hj => hz j (by omega)) (fun j hj => hfix' j (by omega))
    have hsum := nSum_eq a (cyc ns) a.maxFields hz hfix'
    refine ⟨?_, ?_, ?_⟩
    · rw [gOut_accept hp a hwf.fields _ hc.nib _ _ _ (fun _ o => nSum_le _ hc.nib o),
        gC0_eq _ _ _ _ _ (fun i hi => hoff i hi.le), ← hsum]
      have : (declared (cyc ns) = gSum a (cyc ns) (nHd (cyc ns)) (nLn (cyc ns)) (fun _ o => nSum (cyc ns) o) a.maxFields)
        ↔ (listHdr (byteAt (cyc ns) 0) + gSum a (cyc ns) (nHd (cyc ns)) (nLn (cyc ns)) (fun _ o => nSum (cyc ns) o)
            a.maxFields + emptyLists (cyc ns) a.maxFields =
          listHdr (byteAt (cyc ns) 0) + declared (cyc ns) + emptyLists (cyc ns) a.maxFields) := by omega
      simp only [this]
    · simp only [gOut, listHdr_eq, ahTotal_eq]
    · intro i hi
      have h1 := hz i hi
      simp only [gOut, List.getElem?_map, List.getElem?_range hi, Option.map_some, hoff i hi.le, nLn, nHd, hin,
        isList, if_neg h1, and_self]
  · cases hr

/-- **C13/C11 for `RlpNestArrayCheck` (partial).** Success without empty-list and `00` items means a well-formed list
of `MaxFields` items filling the announced payload. -/
theorem C11_rlpNest_sound_partial (hp : 2 ^ 128 < p) (a : ArrayCheck) (hwf : a.WF) (ns : List ℕ)
    (hnib : ∀ x ∈ ns, x < 16) (hlen : ns.length = a.maxHexLen) (inp : List (F p))
    (hin : inp.take a.maxHexLen = ns.map (Nat.cast : ℕ → F p))
    (r : AcOut p) (hr : rlpNestArrayCheck a inp = some r)
    (hfix : ∀ i < a.maxFields, a.fieldMin.getD i 0 = a.fieldMax.getD i 0 →
      r.lens[i]? = some ((a.fieldMin.getD i 0 : ℕ) : F p))
    (hz : ∀ i < a.maxFields, byteAt (cyc ns) (itemOffset (cyc ns) i) ≠ 0)
    (hne : ∀ i < a.maxFields, byteAt (cyc ns) (itemOffset (cyc ns) i) ≠ 0xc0) :
    r.out = 1 ↔ IsListOf (cyc ns) a.maxFields := by
  have h := (C13_rlpNest_exact hp a hwf ns hnib hlen inp hin r hr hfix hz).1
  have hS : ∀ k, cyc ns k < 16 := fun k => getD_lt hnib _
  rw [h, emptyLists_zero _ _ hne, isListOf_iff _ hS]
  unfold isList
  simp only [Nat.add_zero]
  exact two_iff _ _

/-- With exactly one empty-list item (the usual empty access list of a transaction) the nested checker does not check the
announced length at all: every list header is accepted, unless it announces exactly one nibble less than the items
occupy (impossible for byte lengths). -/
theorem C13_nest_one_empty_list (hp : 2 ^ 128 < p) (a : ArrayCheck) (hwf : a.WF) (ns : List ℕ)
    (hnib : ∀ x ∈ ns, x < 16) (hlen : ns.length = a.maxHexLen) (inp : List (F p))
    (hin : inp.take a.maxHexLen = ns.map (Nat.cast : ℕ → F p))
    (r : AcOut p) (hr : rlpNestArrayCheck a inp = some r)
    (hfix : ∀ i < a.maxFields, a.fieldMin.getD i 0 = a.fieldMax.getD i 0 →
      r.lens[i]? = some ((a.fieldMin.getD i 0 : ℕ) : F p))
    (hz : ∀ i < a.maxFields, byteAt (cyc ns) (itemOffset (cyc ns) i) ≠ 0)
    (hone : emptyLists (cyc ns) a.maxFields = 1) (hl : isList (cyc ns) 0)
    (hodd : itemOffset (cyc ns) a.maxFields ≠ listHdr (byteAt (cyc ns) 0) + declared (cyc ns) + 1) :
    r.out = 1 := by
  have h := (C13_rlpNest_exact hp a hwf ns hnib hlen inp hin r hr hfix hz).1
  rw [h, hone, if_pos hl, if_neg hodd]

/-- **C12 (disagreement).** A list whose first item is the byte string `00` (e.g. one-byte call data) of a nested
list: the item is reported with length 0 and the next item is read from the same place. -/
theorem C13_nest_zero_byte (hp : 2 ^ 128 < p) (a : ArrayCheck) (hwf : a.WF) (ns : List ℕ)
    (hnib : ∀ x ∈ ns, x < 16) (hlen : ns.length = a.maxHexLen) (inp : List (F p))
    (hin : inp.take a.maxHexLen = ns.map (Nat.cast : ℕ → F p))
    (r : AcOut p) (hr : rlpNestArrayCheck a inp = some r) (h2 : 2 ≤ a.maxFields)
    (hvar : a.fieldMin.getD 0 0 ≠ a.fieldMax.getD 0 0)
    (hzero : byteAt (cyc ns) (itemOffset (cyc ns) 0) = 0) :
    payLen (cyc ns) (itemOffset (cyc ns) 0) = 2 ∧ r.lens[0]? = some 0 ∧ r.fields[1]? = r.fields[0]? := by
  have hc : CellsOf (inp.take a.maxHexLen) a.maxHexLen (cyc ns) := by
    rw [hin]; exact cells_cyc hnib hlen (by have := hwf.apm; omega)
  rw [rlpNestArrayCheck_eq hp a hwf inp (cyc ns) hc] at hr
  split at hr
  · have hr := (Option.some.inj hr).symm
    subst hr
    set S := cyc ns
    have h0 : gOff a S (nHd S) (nLn S) 0 = itemOffset S 0 := by simp [gOff, itemOffset, listHdr_eq]
    have hn : ∀ i, nHd S i (itemOffset S 0) = 0 := by intro i; simp [nHd, hzero, hdrLen]
    have hl : ∀ i, nLn S i (itemOffset S 0) = 0 := by intro i; simp [nLn, hzero]
    have h1 : gOff a S (nHd S) (nLn S) 1 = itemOffset S 0 := by
      rw [gOff, gAdv, if_neg (show ¬ mn a 0 = mx a 0 from hvar), h0, hn, hl]; rfl
    refine ⟨by unfold payLen; simp [hzero], ?_, ?_⟩
    · simp only [gOut, List.getElem?_map, List.getElem?_range (show 0 < a.maxFields by omega), Option.map_some, h0, hl,
        Nat.cast_zero]
    · simp only [gOut, List.getElem?_map, List.getElem?_range (show 0 < a.maxFields by omega),
        List.getElem?_range (show 1 < a.maxFields by omega), Option.map_some, h0, h1, hn]
  · cases hr

/-! ## `BlkHeaderRlpCheck` -/

/-- position and fixed-width bookkeeping of the header checker -/
theorem bOff_eq (a : ArrayCheck) (S : ℕ → ℕ) (num k : ℕ) (hk : k ≤ num)
    (hfix : ∀ i < k, mn a i = mx a i → payLen S (gOff a S (bHd S) (len' S num) i) = mn a i) :
    gOff a S (bHd S) (len' S num) k = itemOffset S k := by
  induction k with
  | zero => simp [gOff, itemOffset, listHdr_eq]
  | succ k ih =>
    have ih := ih (by omega) (fun i hi => hfix i (by omega))
    have h := hfix k (by omega)
    have hkn : k < num := by omega
    rw [gOff, itemOffset, itemLen, gAdv, bHd, len', if_pos hkn]
    rw [ih] at h ⊢
    split
    · rename_i h2; rw [h h2, Nat.add_assoc]
    · omega

/-- Total header nibbles the checker counts for the inactive positions `num ≤ i < k`. -/
def trailing (a : ArrayCheck) (S : ℕ → ℕ) (num : ℕ) : ℕ → ℕ
  | 0 => 0
  | k + 1 => trailing a S num k +
      if k < num then 0 else hdrLen (byteAt S (gOff a S (bHd S) (len' S num) k))

theorem bSum_eq (a : ArrayCheck) (S : ℕ → ℕ) (num k : ℕ)
    (hfix : ∀ i < k, i < num → mn a i = mx a i → payLen S (gOff a S (bHd S) (len' S num) i) = mn a i) :
    listHdr (byteAt S 0) + gSum a S (bHd S) (len' S num) (fun i o => hdrLen (byteAt S o) + len' S num i o) k
      = itemOffset S (min k num) + trailing a S num k := by
  induction k with
  | zero => simp [gSum, itemOffset, trailing]
  | succ k ih =>
    have ih := ih (fun i hi => hfix i (by omega))
    rw [gSum, trailing]
    by_cases hkn : k < num
    · have h2 := bOff_eq a S num k (by omega) (fun i hi => hfix i (by omega) (by omega))
      rw [if_pos hkn, show min (k + 1) num = k + 1 by omega, itemOffset, h2, len', if_pos hkn]
      rw [show min k num = k by omega] at ih
      unfold itemLen
      omega
    · rw [if_neg hkn, show min (k + 1) num = min k num by omega, len', if_neg hkn]
      omega

/-- **C14 (exact acceptance of `BlkHeaderRlpCheck`).** The flag is 1 iff
`[list header] + (0xc0 bytes at all MaxFields positions) + [the first FieldsNum items plus the header bytes of the
inactive positions fill the payload] = 2`. -/
theorem C14_blkHeader_exact (hp : 2 ^ 128 < p) (a : ArrayCheck) (hwf : a.WF) (ns : List ℕ)
    (hnib : ∀ x ∈ ns, x < 16) (hlen : ns.length = a.maxHexLen) (inp : List (F p))
    (hin : inp.take a.maxHexLen = ns.map (Nat.cast : ℕ → F p)) (fieldNum : F p)
    (hnum : fieldNum.val ≤ a.maxFields)
    (r : AcOut p) (hr : blkHeaderRlpCheck a inp fieldNum = some r)
    (hfix : ∀ i < fieldNum.val, a.fieldMin.getD i 0 = a.fieldMax.getD i 0 →
      r.lens[i]? = some ((a.fieldMin.getD i 0 : ℕ) : F p)) :
    (r.out = 1 ↔ (if isList (cyc ns) 0 then 1 else 0) +
      gC0 a (cyc ns) (bHd (cyc ns)) (len' (cyc ns) fieldNum.val) a.maxFields +
      (if itemOffset (cyc ns) fieldNum.val + trailing a (cyc ns) fieldNum.val a.maxFields =
        listHdr (byteAt (cyc ns) 0) + declared (cyc ns) then 1 else 0) = 2) ∧
    r.total = ((listHdr (byteAt (cyc ns) 0) + declared (cyc ns) : ℕ) : F p) ∧
    (∀ i ≤ fieldNum.val, gOff a (cyc ns) (bHd (cyc ns)) (len' (cyc ns) fieldNum.val) i = itemOffset (cyc ns) i) ∧
    (∀ i < fieldNum.val,
      r.lens[i]? = some ((payLen (cyc ns) (itemOffset (cyc ns) i) : ℕ) : F p) ∧
      r.fields[i]? = some ((ns.map (Nat.cast : ℕ → F p)).rotate (itemOffset (cyc ns) i +
        hdrLen (byteAt (cyc ns) (itemOffset (cyc ns) i))))) := by
  have hc : CellsOf (inp.take a.maxHexLen) a.maxHexLen (cyc ns) := by
    rw [hin]; exact cells_cyc hnib hlen (by have := hwf.apm; omega)
  rw [blkHeaderRlpCheck_eq hp a hwf inp (cyc ns) hc] at hr
  split at hr
  · have hr := (Option.some.inj hr).symm
    subst hr
    have hfix' : ∀ i < fieldNum.val, mn a i = mx a i →
        payLen (cyc ns) (gOff a (cyc ns) (bHd (cyc ns)) (len' (cyc ns) fieldNum.val) i) = mn a i := by
      intro i hi he
      have h1 := hfix i hi he
      simp only [gOut, List.getElem?_map, List.getElem?_range (show i < a.maxFields by omega), Option.map_some,
        Option.some.injEq, len', if_pos hi] at h1
      refine (natCast_inj_of_lt ?_ ?_).1 h1
      · have := payLen_lt _ hc.nib (gOff a (cyc ns) (bHd (cyc ns)) (len' (cyc ns) fieldNum.val) i); omega
      · have := hwf.small i (by omega); have := hwf.le i (by omega); unfold mn; omega
    have hoff : ∀ i ≤ fieldNum.val,
        gOff a (cyc ns) (bHd (cyc ns)) (len' (cyc ns) fieldNum.val) i = itemOffset (cyc ns) i :=
      fun i hi => bOff_eq a _ _ i hi (fun j hj => hfix' j (by omega))
    have hsum := bSum_eq a (cyc ns) fieldNum.val a.maxFields (fun i _ h => hfix' i h)
    rw [Nat.min_eq_right hnum] at hsum
    refine ⟨?_, ?_, hoff, ?_⟩
    · rw [gOut_accept hp a hwf.fields _ hc.nib, ← hsum]
      · simp only [Nat.add_left_cancel_iff, eq_comm]
      · intro i o
        have h1 := len'_lt _ hc.nib fieldNum.val i o
        have h2 := hdrLen_le _ (byteAt_lt _ hc.nib o)
        omega
    · simp only [gOut, listHdr_eq, ahTotal_eq]
    · intro i hi
      simp only [gOut, List.getElem?_map, List.getElem?_range (show i < a.maxFields by omega), Option.map_some,
        hoff i hi.le, len', if_pos hi, bHd, hin, and_self]
  · cases hr

/-- **C14 (partial).** Success implies a list of exactly `FieldsNum` items filling the payload, provided no position
starts with `0xc0` and every inactive position starts with a byte below 0x80 (zero padding). Missing: without the padding
condition the property is false (`C14_trailing_item_accepted`). -/
theorem C14_blkHeader_sound_partial (hp : 2 ^ 128 < p) (a : ArrayCheck) (hwf : a.WF) (ns : List ℕ)
    (hnib : ∀ x ∈ ns, x < 16) (hlen : ns.length = a.maxHexLen) (inp : List (F p))
    (hin : inp.take a.maxHexLen = ns.map (Nat.cast : ℕ → F p)) (fieldNum : F p)
    (hnum : fieldNum.val ≤ a.maxFields)
    (r : AcOut p) (hr : blkHeaderRlpCheck a inp fieldNum = some r)
    (hfix : ∀ i < fieldNum.val, a.fieldMin.getD i 0 = a.fieldMax.getD i 0 →
      r.lens[i]? = some ((a.fieldMin.getD i 0 : ℕ) : F p))
    (hne : ∀ i < fieldNum.val, byteAt (cyc ns) (itemOffset (cyc ns) i) ≠ 0xc0)
    (hpad : ∀ k, itemOffset (cyc ns) fieldNum.val ≤ k →
      k ≤ itemOffset (cyc ns) fieldNum.val + a.fieldMin.sum → byteAt (cyc ns) k < 0x80) :
    r.out = 1 ↔ IsListOf (cyc ns) fieldNum.val := by
  obtain ⟨h1, -, h3, -⟩ := C14_blkHeader_exact hp a hwf ns hnib hlen inp hin fieldNum hnum r hr hfix
  have hS : ∀ k, cyc ns k < 16 := fun k => getD_lt hnib _
  set S := cyc ns
  -- positions after the active fields stay within the padding
  have hpos : ∀ d, fieldNum.val + d ≤ a.maxFields →
      itemOffset S fieldNum.val ≤ gOff a S (bHd S) (len' S fieldNum.val) (fieldNum.val + d) ∧
      gOff a S (bHd S) (len' S fieldNum.val) (fieldNum.val + d) ≤
        itemOffset S fieldNum.val + ((a.fieldMin.drop fieldNum.val).take d).sum := by
    intro d
    induction d with
    | zero => intro _; rw [Nat.add_zero, h3 _ le_rfl]; simp
    | succ d ih =>
      intro hd
      obtain ⟨i1, i2⟩ := ih (by omega)
      have hsub : ((a.fieldMin.drop fieldNum.val).take d).sum ≤ a.fieldMin.sum :=
        ((List.take_sublist _ _).trans (List.drop_sublist _ _)).sum_le_sum (by simp)
      have hb := hpad _ i1 (by omega)
      have hl := hwf.hmin
      have hidx : (a.fieldMin.drop fieldNum.val)[d]? = some (a.fieldMin.getD (fieldNum.val + d) 0) := by
        rw [List.getElem?_drop, List.getElem?_eq_getElem (by omega), List.getD_eq_getElem _ _ (by omega)]
      rw [← Nat.add_assoc, gOff, bHd, hdrLen, if_pos hb, List.take_succ, hidx, List.sum_append]
      rw [gAdv, show len' S fieldNum.val (fieldNum.val + d)
        (gOff a S (bHd S) (len' S fieldNum.val) (fieldNum.val + d)) = 0 by
          rw [len', if_neg (by omega)]]
      have hmn : mn a (fieldNum.val + d) = a.fieldMin.getD (fieldNum.val + d) 0 := rfl
      simp only [Option.toList_some, List.sum_cons, List.sum_nil]
      split <;> omega
  have hb : ∀ i, fieldNum.val ≤ i → i < a.maxFields →
      byteAt S (gOff a S (bHd S) (len' S fieldNum.val) i) < 0x80 := by
    intro i h h'
    obtain ⟨d, rfl⟩ : ∃ d, i = fieldNum.val + d := ⟨i - fieldNum.val, by omega⟩
    obtain ⟨i1, i2⟩ := hpos d (by omega)
    have hsub : ((a.fieldMin.drop fieldNum.val).take d).sum ≤ a.fieldMin.sum :=
      ((List.take_sublist _ _).trans (List.drop_sublist _ _)).sum_le_sum (by simp)
    exact hpad _ i1 (by omega)
  have htr : ∀ k ≤ a.maxFields, trailing a S fieldNum.val k = 0 := by
    intro k
    induction k with
    | zero => intro _; rfl
    | succ k ih =>
      intro hk
      rw [trailing, ih (by omega)]
      split
      · rfl
      · rw [hdrLen, if_pos (hb k (by omega) (by omega))]
  have hc0 : ∀ k ≤ a.maxFields, gC0 a S (bHd S) (len' S fieldNum.val) k = 0 := by
    intro k
    induction k with
    | zero => intro _; rfl
    | succ k ih =>
      intro hk
      rw [gC0, ih (by omega), if_neg]
      by_cases hkn : k < fieldNum.val
      · rw [h3 k hkn.le]; exact hne k hkn
      · have := hb k (by omega) (by omega); omega
  rw [h1, htr _ le_rfl, hc0 _ le_rfl, isListOf_iff _ hS]
  unfold isList
  simp only [Nat.add_zero]
  exact two_iff _ _

/-- **C14 (disagreement).** `c2 05 80` with `FieldsNum = 1`, `MaxFields = 2`: a list of two items, accepted as a header
with one field. -/
theorem C14_trailing_item_accepted (hp : 2 ^ 128 < p) :
    ¬ IsListOf (cyc [12, 2, 0, 5, 8, 0, 0, 0]) 1 ∧ IsListOf (cyc [12, 2, 0, 5, 8, 0, 0, 0]) 2 ∧
    ∃ r, blkHeaderRlpCheck tinyParams (([12, 2, 0, 5, 8, 0, 0, 0] : List ℕ).map (Nat.cast : ℕ → F p))
      ((1 : ℕ) : F p) = some r ∧ r.out = 1 := by
  refine ⟨fun h => absurd h.2 (by decide), ⟨by decide, by decide⟩, ?_⟩
  have hv : ((1 : ℕ) : F p).val = 1 := val_natCast_lt (by omega)
  have hwf : tinyParams.WF := by decide
  have htk : (([12, 2, 0, 5, 8, 0, 0, 0] : List ℕ).map (Nat.cast : ℕ → F p)).take tinyParams.maxHexLen
      = ([12, 2, 0, 5, 8, 0, 0, 0] : List ℕ).map (Nat.cast : ℕ → F p) := rfl
  have hc : CellsOf ((([12, 2, 0, 5, 8, 0, 0, 0] : List ℕ).map (Nat.cast : ℕ → F p)).take tinyParams.maxHexLen)
      tinyParams.maxHexLen (cyc [12, 2, 0, 5, 8, 0, 0, 0]) := by
    rw [htk]; exact cells_cyc (by decide) (by decide) (by decide)
  have h1 := blkHeaderRlpCheck_eq hp tinyParams hwf _ _ hc ((1 : ℕ) : F p)
  rw [hv, if_pos (by unfold gAlign itemFits; decide)] at h1
  refine ⟨_, h1, ?_⟩
  rw [gOut_accept hp tinyParams (by decide) _ hc.nib]
  · decide
  · intro i o
    have h1 := len'_lt _ hc.nib 1 i o
    have h2 := hdrLen_le _ (byteAt_lt _ hc.nib o)
    omega

end Verif.Rlp
