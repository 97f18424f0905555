import Verif.Rlp.ArrayLemmas

/-! Exact acceptance condition of the list checkers, in terms of the stream specification (lemmas). -/

set_option linter.unusedSectionVars false

namespace Verif.Rlp
open Api Spec.Rlp
variable {p : ℕ} [Fact p.Prime]

theorem listHdr_eq (v : ℕ) : listHdr v = 2 + ahPrefix1 v := by
  unfold listHdr ahPrefix1; split_ifs <;> rfl

theorem listHdr_hdrLen (v : ℕ) (hv : v < 256) (h : 0xc0 ≤ v) : listHdr v = hdrLen v := by
  unfold listHdr hdrLen lenOfLen; split_ifs <;> omega

theorem hdrLen_le (v : ℕ) (hv : v < 256) : hdrLen v ≤ 18 := by
  have := lenOfLen_le v hv
  unfold hdrLen; split_ifs <;> omega

theorem itemLen_ge (S : ℕ → ℕ) (o : ℕ) : 2 ≤ itemLen S o := by
  unfold itemLen hdrLen payLen
  simp only
  split_ifs <;> omega

theorem itemOffset_mono (S : ℕ → ℕ) {i j : ℕ} (h : i ≤ j) : itemOffset S i ≤ itemOffset S j := by
  induction j with
  | zero => obtain rfl : i = 0 := by omega
            rfl
  | succ j ih =>
    rcases Nat.lt_or_ge i (j + 1) with h' | h'
    · have := ih (by omega)
      rw [itemOffset]; omega
    · obtain rfl : i = j + 1 := by omega
      rfl

theorem acOff_eq (a : ArrayCheck) (S : ℕ → ℕ) (num k : ℕ) (hk : k ≤ num)
    (hfix : ∀ i < k, mn a i = mx a i → payLen S (acOff a S num i) = mn a i) :
    acOff a S num k = itemOffset S k := by
  induction k with
  | zero => simp [acOff, gOff, itemOffset, listHdr_eq]
  | succ k ih =>
    have ih := ih (by omega) (fun i hi => hfix i (by omega))
    have h := hfix k (by omega)
    have hkn : k < num := by omega
    rw [acOff, gOff, itemOffset, itemLen, gAdv, hdr', len', if_pos hkn, if_pos hkn]
    simp only [acOff] at ih h ⊢
    rw [ih] at h ⊢
    split
    · rename_i h2; rw [h h2, Nat.add_assoc]
    · omega

theorem lenSumNat_eq (a : ArrayCheck) (S : ℕ → ℕ) (num k : ℕ) (hk : k ≤ num)
    (hfix : ∀ i, i + 1 < k → mn a i = mx a i → payLen S (acOff a S num i) = mn a i) :
    listHdr (byteAt S 0) + lenSumNat a S num k = itemOffset S k := by
  induction k with
  | zero => simp [lenSumNat, itemOffset]
  | succ k ih =>
    have ih := ih (by omega) (fun i hi => hfix i (by omega))
    rw [lenSumNat, itemOffset, itemLen, ← ih, hdr', len', if_pos (by omega), if_pos (by omega),
      acOff_eq a S num k (by omega) (fun i hi => hfix i (by omega)), ← ih]
    ring

theorem lenSumNat_stop (a : ArrayCheck) (S : ℕ → ℕ) (num k : ℕ) (hk : num ≤ k) :
    lenSumNat a S num k = lenSumNat a S num num := by
  induction k with
  | zero => obtain rfl : num = 0 := by omega
            rfl
  | succ k ih =>
    rcases Nat.lt_or_ge k num with h | h
    · obtain rfl : num = k + 1 := by omega
      rfl
    · rw [lenSumNat, ih h, hdr', len', if_neg (by omega), if_neg (by omega)]; rfl

theorem lenSumNat_lt (a : ArrayCheck) (S : ℕ → ℕ) (hS : ∀ k, S k < 16) (num k : ℕ) :
    lenSumNat a S num k ≤ k * 2 ^ 66 := by
  induction k with
  | zero => simp [lenSumNat]
  | succ k ih =>
    have h1 := len'_lt S hS num k (acOff a S num k)
    have h2 : hdr' S num k (acOff a S num k) ≤ 18 := by
      unfold hdr'
      split
      · exact hdrLen_le _ (byteAt_lt S hS _)
      · omega
    rw [lenSumNat]
    omega

theorem c0Count_le (a : ArrayCheck) (S : ℕ → ℕ) (num k : ℕ) : c0Count a S num k ≤ k := by
  unfold c0Count
  exact (List.length_filter_le _ _).trans (by simp)

/-- number of empty-list items among the first `num` items of the stream -/
def emptyLists (S : ℕ → ℕ) (num : ℕ) : ℕ :=
  ((List.range num).filter fun i => decide (byteAt S (itemOffset S i) = 0xc0)).length

theorem emptyLists_succ (S : ℕ → ℕ) (k : ℕ) : emptyLists S (k + 1) =
    emptyLists S k + if byteAt S (itemOffset S k) = 0xc0 then 1 else 0 := by
  unfold emptyLists
  rw [List.range_succ, List.filter_append, List.length_append]
  by_cases h : byteAt S (itemOffset S k) = 0xc0 <;> simp [h]

theorem c0Count_eq (a : ArrayCheck) (S : ℕ → ℕ) (num k : ℕ) (hk : k ≤ num)
    (hfix : ∀ i, i + 1 < k → mn a i = mx a i → payLen S (acOff a S num i) = mn a i) :
    c0Count a S num k = emptyLists S k := by
  induction k with
  | zero => rfl
  | succ k ih =>
    rw [c0Count_succ, emptyLists_succ, ih (by omega) (fun i hi => hfix i (by omega)),
      acOff_eq a S num k (by omega) (fun i hi => hfix i (by omega))]
    simp [show k < num by omega]

theorem c0Count_stop (a : ArrayCheck) (S : ℕ → ℕ) (num k : ℕ) (hk : num ≤ k) :
    c0Count a S num k = c0Count a S num num := by
  induction k with
  | zero => obtain rfl : num = 0 := by omega
            rfl
  | succ k ih =>
    rcases Nat.lt_or_ge k num with h | h
    · obtain rfl : num = k + 1 := by omega
      rfl
    · rw [c0Count_succ, ih h]
      simp [show ¬ k < num by omega]

/-- payload announced when the stream is read as a list (0 if it is not a list) -/
def declared (S : ℕ → ℕ) : ℕ := if 0xc0 ≤ byteAt S 0 then payLen S 0 else 0

theorem ahTotal_eq (S : ℕ → ℕ) : ahTotal S = declared S := by
  unfold ahTotal declared
  split_ifs <;> omega

theorem isListOf_iff (S : ℕ → ℕ) (hS : ∀ k, S k < 16) (n : ℕ) : IsListOf S n ↔
    0xc0 ≤ byteAt S 0 ∧ itemOffset S n = listHdr (byteAt S 0) + declared S := by
  unfold IsListOf isList itemLen declared
  constructor
  · rintro ⟨h1, h2⟩
    refine ⟨h1, ?_⟩
    rw [if_pos h1, listHdr_hdrLen _ (byteAt_lt S hS 0) h1, h2]
  · rintro ⟨h1, h2⟩
    refine ⟨h1, ?_⟩
    rw [if_pos h1, listHdr_hdrLen _ (byteAt_lt S hS 0) h1] at h2
    exact h2

theorem isZero_cast_eq_one {x y : ℕ} (hx : x < p) (hy : y < p) :
    isZero ((x : F p) - (y : F p)) = 1 ↔ x = y := by
  rw [isZero_nat_sub hx hy]
  split <;> simp_all

/-- acceptance flag, in numbers -/
theorem accept_iff (hp : 2 ^ 128 < p) (S : ℕ → ℕ) (hS : ∀ k, S k < 16) (num c0 tot sum : ℕ)
    (hnum : num < 2 ^ 60) (hc0 : c0 ≤ 2 ^ 60) (htot : tot < 2 ^ 127) (hsum : sum < 2 ^ 127) :
    isZero ((((if 0xc0 ≤ byteAt S 0 then 1 else 0) + ((num + c0 : ℕ) : F p)) +
      isZero (((tot : ℕ) : F p) - ((sum : ℕ) : F p))) - (((num : ℕ) : F p) + 2)) = 1 ↔
    (if 0xc0 ≤ byteAt S 0 then 1 else 0) + c0 + (if tot = sum then 1 else 0) = 2 := by
  rw [isZero_nat_sub (by omega) (by omega)]
  have e1 : ((if 0xc0 ≤ byteAt S 0 then (1 : F p) else 0)) =
      (((if 0xc0 ≤ byteAt S 0 then 1 else 0) : ℕ) : F p) := by split <;> simp
  have e2 : ((if tot = sum then (1 : F p) else 0)) =
      (((if tot = sum then 1 else 0) : ℕ) : F p) := by split <;> simp
  rw [e1, e2]
  have e3 : (((if 0xc0 ≤ byteAt S 0 then 1 else 0 : ℕ) : F p) + ((num + c0 : ℕ) : F p)) +
      (((if tot = sum then 1 else 0) : ℕ) : F p) =
      (((if 0xc0 ≤ byteAt S 0 then 1 else 0) + (num + c0) + (if tot = sum then 1 else 0) : ℕ) : F p) := by
    push_cast; ring
  have e4 : ((num : ℕ) : F p) + 2 = ((num + 2 : ℕ) : F p) := by push_cast; ring
  rw [e3, e4, isZero_cast_eq_one (by split_ifs <;> omega) (by omega)]
  split_ifs <;> omega

theorem declared_lt (S : ℕ → ℕ) (hS : ∀ k, S k < 16) : declared S < 2 ^ 65 := by
  unfold declared
  split
  · exact payLen_lt S hS 0
  · norm_num

/-- lens of the result, as numbers (the fixed-width condition is not needed for the last item) -/
theorem arrayCheck_exact' (hp : 2 ^ 128 < p) (a : ArrayCheck) (hwf : a.WF) (inp : List (F p)) (S : ℕ → ℕ)
    (hc : CellsOf (inp.take a.maxHexLen) a.maxHexLen S) (fieldNum : F p)
    (hnum : fieldNum.val ≤ a.maxFields)
    (hfix : ∀ i, i + 1 < fieldNum.val → mn a i = mx a i → payLen S (acOff a S fieldNum.val i) = mn a i)
    (r : AcOut p) (hr : rlpArrayCheck a inp fieldNum = some r) :
    (r.out = 1 ↔ (if isList S 0 then 1 else 0) + emptyLists S fieldNum.val +
      (if itemOffset S fieldNum.val = listHdr (byteAt S 0) + declared S then 1 else 0) = 2) ∧
    r.total = ((listHdr (byteAt S 0) + declared S : ℕ) : F p) ∧
    r.lens.length = a.maxFields ∧ r.fields.length = a.maxFields ∧
    (∀ i < fieldNum.val, r.lens[i]? = some ((payLen S (itemOffset S i) : ℕ) : F p) ∧
      r.fields[i]? = some ((inp.take a.maxHexLen).rotate
        (itemOffset S i + hdrLen (byteAt S (itemOffset S i))))) ∧
    (∀ i < a.maxFields, fieldNum.val ≤ i → r.lens[i]? = some 0) := by
  rw [rlpArrayCheck_eq hp a hwf inp S hc] at hr
  split at hr
  · rename_i hcond
    have hr := (Option.some.inj hr).symm
    subst hr
    have hF := hwf.fields
    have hfn : fieldNum = ((fieldNum.val : ℕ) : F p) := by simp
    have hacc := accept_iff hp S hc.nib fieldNum.val (emptyLists S fieldNum.val) (declared S)
      (lenSumNat a S fieldNum.val fieldNum.val) (by omega)
      (by rw [← c0Count_eq a S fieldNum.val _ le_rfl hfix]
          have := c0Count_le a S fieldNum.val fieldNum.val; omega)
      (by have := declared_lt S hc.nib; omega)
      (by have := lenSumNat_lt a S hc.nib fieldNum.val fieldNum.val; omega)
    have hls := lenSumNat_eq a S fieldNum.val fieldNum.val le_rfl hfix
    refine ⟨?_, ?_, by simp, by simp, ?_, ?_⟩
    · simp only
      rw [Nat.min_eq_right hnum, c0Count_stop _ _ _ _ hnum, lenSumNat_stop _ _ _ _ hnum, ahTotal_eq,
        c0Count_eq _ _ _ _ le_rfl hfix]
      rw [← hfn] at hacc
      rw [hacc]
      unfold isList
      rw [← hls]
      simp only [Nat.add_left_cancel_iff, eq_comm]
    · simp only [listHdr_eq, ahTotal_eq]
    · intro i hi
      have hoff := acOff_eq a S fieldNum.val i (by omega) (fun j hj => hfix j (by omega))
      simp only [List.getElem?_map, List.getElem?_range (show i < a.maxFields by omega), Option.map_some,
        len', hdr', if_pos hi, hoff, and_self]
    · intro i hi h
      simp only [List.getElem?_map, List.getElem?_range hi, Option.map_some, len',
        if_neg (show ¬ i < fieldNum.val by omega), Nat.cast_zero]
  · cases hr

theorem arrayCheck_exact (hp : 2 ^ 128 < p) (a : ArrayCheck) (hwf : a.WF) (inp : List (F p)) (S : ℕ → ℕ)
    (hc : CellsOf (inp.take a.maxHexLen) a.maxHexLen S) (fieldNum : F p)
    (hnum : fieldNum.val ≤ a.maxFields)
    (hfix : ∀ i < fieldNum.val, mn a i = mx a i → payLen S (acOff a S fieldNum.val i) = mn a i)
    (r : AcOut p) (hr : rlpArrayCheck a inp fieldNum = some r) :
    (r.out = 1 ↔ (if isList S 0 then 1 else 0) + emptyLists S fieldNum.val +
      (if itemOffset S fieldNum.val = listHdr (byteAt S 0) + declared S then 1 else 0) = 2) ∧
    r.total = ((listHdr (byteAt S 0) + declared S : ℕ) : F p) ∧
    r.lens.length = a.maxFields ∧ r.fields.length = a.maxFields ∧
    (∀ i < fieldNum.val, r.lens[i]? = some ((payLen S (itemOffset S i) : ℕ) : F p) ∧
      r.fields[i]? = some ((inp.take a.maxHexLen).rotate
        (itemOffset S i + hdrLen (byteAt S (itemOffset S i))))) ∧
    (∀ i < a.maxFields, fieldNum.val ≤ i → r.lens[i]? = some 0) :=
  arrayCheck_exact' hp a hwf inp S hc fieldNum hnum (fun i hi => hfix i (by omega)) r hr

end Verif.Rlp
