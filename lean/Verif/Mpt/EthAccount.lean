import Verif.Mpt.EthRow
import Verif.Mpt.Forge

/-! # Property theorems C70: `CheckEthAccountProof` -/

set_option linter.unusedSectionVars false
set_option linter.unusedVariables false

namespace Verif.Mpt
open Api Rlp Keccak Spec.Keccak Spec.Rlp Spec.Mpt
variable {p : ℕ} [Fact p.Prime]

abbrev acP : ArrayCheck := Verif.Mpt.accountParams

theorem accountParams_wf : acP.WF := by
  refine ⟨by decide, by decide, by decide, by decide, by decide, by decide +kernel, by decide, by decide⟩

theorem isZero_bit (x : F p) : isZero x = 0 ∨ isZero x = 1 := by
  unfold isZero; split
  · exact Or.inr rfl
  · exact Or.inl rfl

theorem mul_bits {a b : F p} (ha : a = 0 ∨ a = 1) (hb : b = 0 ∨ b = 1) (h : a * b = 1) : a = 1 ∧ b = 1 := by
  rcases ha with rfl | rfl <;> rcases hb with rfl | rfl <;> simp_all

/-- Validity count of an item prefix, for arbitrary cells. -/
theorem fp_isValid (hp : 2 ^ 128 < p) (h0 h1 : F p) :
    (rlpFieldPrefix h0 h1).isValid = if h0 = 12 ∧ h1 = 0 then 2 else 1 := by
  have h12 : ((12 : ℕ) : F p) = 12 := by norm_num
  unfold rlpFieldPrefix rlpArrayPrefix
  simp only
  by_cases h : h0 = 12 ∧ h1 = 0
  · obtain ⟨rfl, rfl⟩ := h
    rw [if_pos ⟨rfl, rfl⟩, lessThan_eq (by omega) (12 : F p) 12, if_neg (by omega)]
    simp only [isZero, sub_self, if_true]
    norm_num
  · rw [if_neg h]
    have he : isZero (h0 - 12) * isZero h1 = 0 := by
      unfold isZero
      by_cases a : h0 - 12 = 0
      · by_cases b : h1 = 0
        · exact absurd ⟨sub_eq_zero.1 a, b⟩ h
        · simp [b]
      · simp [a]
    rw [he]
    ring

/-- The stream of a zero value. -/
def zv : ℕ → ℕ := fun k => if k = 0 then 8 else 0

theorem zeroValue_get {value : List (F p)} (h : ZeroValue value) (hl : value.length = 228) (j : ℕ) (hj : j < 66) :
    value[j]? = some ((zv j : ℕ) : F p) := by
  obtain ⟨h1, h2⟩ := h
  rcases Nat.lt_or_ge j 2 with h | h
  · have := congrArg (fun l => l[j]?) h1
    simp only [List.getElem?_take, if_pos h] at this
    rw [this]
    interval_cases j <;> simp [zv]
  · have := congrArg (fun l => l[j - 2]?) h2
    simp only [List.getElem?_take, if_pos (show j - 2 < 64 by omega), List.getElem?_drop,
      show 2 + (j - 2) = j by omega, List.getElem?_replicate] at this
    rw [this]
    simp [zv, show j ≠ 0 by omega]

/-- A zero value is never accepted as an account, whatever the unchecked cells after it contain. -/
theorem zeroValue_not_account (hp : 2 ^ 128 < p) {value : List (F p)} (h : ZeroValue value) (hl : value.length = 228)
    {r : AcOut p} (hr : rlpArrayCheck acP value ((4 : ℕ) : F p) = some r) : r.out ≠ 1 := by
  have hv4 : ((4 : ℕ) : F p).val = 4 := val_natCast_lt (by omega)
  have hnib : ∀ k, zv k < 16 := fun k => by unfold zv; split <;> omega
  have hM : acP.maxHexLen = 228 := rfl
  have htk : value.take acP.maxHexLen = value := List.take_of_length_le (by rw [hM, hl])
  have hget := zeroValue_get h hl
  have hoff : acOff acP zv 4 0 = 2 ∧ acOff acP zv 4 1 = 4 ∧ acOff acP zv 4 2 = 6 := by decide
  have hlp : ∀ i < 3, lenPrefixMaxHexs (mx acP i) = 2 := by decide
  have hloop := rlpArrayLoop_local hp acP accountParams_wf value zv (by rw [htk, hM, hl]) hnib ((4 : ℕ) : F p)
    (if 0xc0 ≤ byteAt zv 0 then 1 else 0) 3 (by decide) (by
      intro i hi j hj
      rw [hlp i hi] at hj
      rw [hv4, htk]
      have hle : acOff acP zv 4 i ≤ 6 := by
        obtain ⟨a, b, c⟩ := hoff
        interval_cases i <;> omega
      rw [List.getElem?_rotate (by omega), hl, Nat.mod_eq_of_lt (by omega), Nat.add_comm]
      exact hget _ (by omega))
  unfold rlpArrayCheck at hr
  rw [arrayHeader_eq (by omega) zv hnib _ _ (fun j hj => hget j (by
    have : acP.arrayPrefixMaxHexLen = 4 := rfl
    omega)) (by have : acP.arrayPrefixMaxHexLen = 4 := rfl; omega)] at hr
  have hA : 0 < acP.arrayPrefixMaxHexLen ∧ ahPrefix1 (byteAt zv 0) ≤ acP.arrayPrefixMaxHexLen := by decide
  rw [if_pos hA] at hr
  simp only [Option.bind_eq_bind, Option.bind_some] at hr
  have hmF : acP.maxFields = 3 + 1 := rfl
  rw [hmF, List.range_succ, List.foldlM_append, hloop] at hr
  split at hr
  swap
  · cases hr
  obtain ⟨st, hst, hr⟩ := Option.bind_eq_some_iff.1 hr
  have hr := (Option.some.inj hr).symm
  rw [hv4] at hst
  simp only [Option.bind_eq_bind, Option.bind_some, List.foldlM_cons, List.foldlM_nil] at hst
  replace hst : rlpArrayStep acP ((4 : ℕ) : F p) value ((ahPrefix1 (byteAt zv 0) : ℕ) : F p)
      (acState acP zv 4 (value.take acP.maxHexLen) (if 0xc0 ≤ byteAt zv 0 then (1 : F p) else 0) 3) 3 = some st := by
    rw [← hst]
    have key : ∀ o : Option (AcState p), o = o.bind some := fun o => by cases o <;> rfl
    exact key _
  obtain ⟨s3, hs3⟩ : ∃ s, s = acState acP zv 4 (value.take acP.maxHexLen) (if 0xc0 ≤ byteAt zv 0 then (1 : F p) else 0) 3 :=
    ⟨_, rfl⟩
  have hchk : s3.check = 3 := by
    rw [hs3]
    have e1 : c0Count acP zv 4 3 = 0 := by decide
    have e2 : ¬ 0xc0 ≤ byteAt zv 0 := by decide
    simp only [acState, e1, if_neg e2]
    norm_num
  have hsum : s3.lenSum = 6 := by
    rw [hs3]
    have e1 : lenSumNat acP zv 4 3 = 6 := by decide
    simp only [acState, e1]
    norm_num
  rw [← hs3] at hst
  unfold rlpArrayStep at hst
  obtain ⟨rl, -, hst⟩ := Option.bind_eq_some_iff.1 hst
  obtain ⟨h0, -, hst⟩ := Option.bind_eq_some_iff.1 hst
  obtain ⟨h1, -, hst⟩ := Option.bind_eq_some_iff.1 hst
  have hact : lessThan ((3 : ℕ) : F p) ((4 : ℕ) : F p) = 1 := by
    rw [lessThan_eq (by omega), val_natCast_lt (by omega), hv4, if_pos (by omega)]
  rw [hact] at hst
  obtain ⟨isl, hisl, hst⟩ := Option.bind_eq_some_iff.1 hst
  obtain ⟨mxv, -, hst⟩ := Option.bind_eq_some_iff.1 hst
  obtain ⟨o1, -, hst⟩ := Option.bind_eq_some_iff.1 hst
  obtain ⟨fl, -, hst⟩ := Option.bind_eq_some_iff.1 hst
  obtain ⟨cands, -, hst⟩ := Option.bind_eq_some_iff.1 hst
  obtain ⟨m, -, hst⟩ := Option.bind_eq_some_iff.1 hst
  obtain ⟨m0, -, hst⟩ := Option.bind_eq_some_iff.1 hst
  have hst := (Option.some.inj hst).symm
  have hc : st.check = 3 + (rlpFieldPrefix h0 h1).isValid := by rw [hst]; simp only [hchk, mul_one]
  have htot : ahTotal zv = 0 := by decide
  have e6 : (acP.maxFields : F p) = 4 := by
    have : acP.maxFields = 4 := rfl
    rw [this]; norm_num
  rw [hr]
  simp only [htot, Nat.cast_zero, hc]
  rw [fp_isValid hp]
  have hn6 : ∀ n : ℕ, n < 6 → isZero (((n : ℕ) : F p) - ((6 : ℕ) : F p)) ≠ 1 := by
    intro n hn
    rw [Ne, isZero_cast_eq_one (by omega) (by omega)]
    omega
  have hlc : ∀ x : F p, isZero ((3 : F p) + 1 + isZero x - (4 + 2)) ≠ 1 := by
    intro x
    rcases isZero_bit x with h | h
    · rw [h]
      have := hn6 4 (by omega)
      norm_num at this ⊢
      exact this
    · rw [h]
      have := hn6 5 (by omega)
      norm_num at this ⊢
      exact this
  by_cases hE : h0 = 12 ∧ h1 = 0
  · rw [if_pos hE]
    have hls : st.lenSum = ((8 : ℕ) : F p) := by
      obtain ⟨rfl, rfl⟩ := hE
      have hfp := rlpFieldPrefix_eq (p := p) (by omega) 12 0 (by omega) (by omega)
      have hcast : (((12 : ℕ) : F p)) = 12 := by norm_num
      rw [hcast, Nat.cast_zero] at hfp
      have e1 : lenOfLen (16 * 12 + 0) = 0 := by decide
      have e2 : fpHexLen (16 * 12 + 0) = 0 := by decide
      rw [e1, e2] at hfp
      rw [hfp] at hst hisl
      have hlit := or_act (p := p) (16 * 12 + 0 < 0x80)
      rw [hisl] at hlit
      rw [if_neg (by omega)] at hlit
      have hl0 : isl = 0 := Option.some.inj hlit
      rw [hst]
      simp only [hl0, hsum]
      norm_num
    rw [hls]
    have : isZero ((0 : F p) - ((8 : ℕ) : F p)) = 0 := by
      unfold isZero
      rw [if_neg]
      intro h
      have := (isZero_cast_eq_one (p := p) (x := 0) (y := 8) (by omega) (by omega)).1 (by
        unfold isZero; rw [if_pos]; simpa using h)
      omega
    have h5 := hn6 5 (by omega)
    rw [this]
    norm_num at h5 ⊢
    exact h5
  · rw [if_neg hE]
    exact hlc _

/-! ## Reading an account -/

/-- The four fields. -/
def acFields (a : Spec.Eth.Account) : List (List ℕ) := [a.nonce, a.balance, a.storageRoot, a.codeHash]

theorem acEncode_eq (a : Spec.Eth.Account) : a.encode = encodeList ((acFields a).map encodeString) := rfl

theorem ac_pay_le {a : Spec.Eth.Account} (ha : a.Ok) : ∀ q ∈ acFields a, q.length ≤ 32 := by
  intro q hq
  have h1 := ha.nonce
  have h2 := ha.balance
  have h3 := ha.storageRoot
  have h4 := ha.codeHash
  simp only [acFields, List.mem_cons, List.not_mem_nil, or_false] at hq
  rcases hq with rfl | rfl | rfl | rfl <;> omega

theorem ac_flat {a : Spec.Eth.Account} (ha : a.Ok) : 66 ≤ ((acFields a).map encodeString).flatten.length ∧
    ((acFields a).map encodeString).flatten.length ≤ 132 := by
  have h1 := ha.nonce
  have h2 := ha.balance
  have h3 := ha.storageRoot
  have h4 := ha.codeHash
  have e1 := encodeString_length a.nonce (by omega)
  have e2 := encodeString_length a.balance (by omega)
  have e3 := encodeString_length a.storageRoot (by omega)
  have e4 := encodeString_length a.codeHash (by omega)
  have g : ∀ l : List ℕ, l.length = 32 → (encodeString l).length = 33 := by
    intro l hl
    unfold encodeString lenHeader
    rw [if_neg (fun h => by omega), if_pos (by omega)]
    simp [hl]
  have := g _ h3
  have := g _ h4
  simp only [acFields, List.map_cons, List.map_nil, List.flatten_cons, List.flatten_nil, List.length_append,
    List.length_nil]
  omega

theorem ac_bytes {a : Spec.Eth.Account} (ha : a.Ok) : ∀ b ∈ a.encode, b < 256 := by
  refine encodeList_bytes ?_ (by have := (ac_flat ha).2; rw [acFields] at this; simp only [List.map_cons, List.map_nil] at this; omega)
  intro i hi
  rw [show [encodeString a.nonce, encodeString a.balance, encodeString a.storageRoot, encodeString a.codeHash] =
    (acFields a).map encodeString from rfl] at hi
  obtain ⟨f, hf, rfl⟩ := List.mem_map.1 hi
  refine encodeString_bytes (ha.bytes f hf) ?_
  have := ac_pay_le ha f hf
  omega

theorem prefix_cells {value : List (F p)} {ns : List ℕ} (h : value.take ns.length = ns.map Nat.cast) (j : ℕ)
    (hj : j < ns.length) : value[j]? = some ((ns.getD j 0 : ℕ) : F p) := by
  have := congrArg (fun l => l[j]?) h
  simp only [List.getElem?_take, if_pos hj, List.getElem?_map] at this
  rw [this, List.getElem?_eq_getElem hj, List.getD_eq_getElem _ _ hj]
  rfl

/-- What the account checker reports about a buffer that starts with an encoded account; the cells after it are
arbitrary. -/
theorem account_read (hp : 2 ^ 128 < p) {value : List (F p)} (hl : value.length = 228) {a : Spec.Eth.Account}
    (ha : a.Ok) (hv : value.take (2 * a.encode.length) = (nibblesOf a.encode).map Nat.cast) {r : AcOut p}
    (hr : rlpArrayCheck acP value ((4 : ℕ) : F p) = some r) (k : ℕ) (pay : List ℕ) (hk : (acFields a)[k]? = some pay) :
    r.lens[k]? = some ((2 * pay.length : ℕ) : F p) ∧ ∃ f, r.fields[k]? = some f ∧
      f.take (2 * pay.length) = (nibblesOf pay).map Nat.cast := by
  have hv4 : ((4 : ℕ) : F p).val = 4 := val_natCast_lt (by omega)
  have hM : acP.maxHexLen = 228 := rfl
  have htk : value.take acP.maxHexLen = value := List.take_of_length_le (by rw [hM, hl])
  have hvl : 2 * a.encode.length ≤ 228 := by
    have := congrArg List.length hv
    rw [List.length_take, List.length_map, nibblesOf_length, hl] at this
    omega
  rw [← nibblesOf_length] at hv hvl
  obtain ⟨S, hSd⟩ : ∃ S : ℕ → ℕ, S = fun j => (nibblesOf a.encode).getD j 0 := ⟨_, rfl⟩
  have hS : ∀ j, S j < 16 := by
    intro j
    rw [hSd]
    simp only [List.getD_eq_getElem?_getD]
    rcases Nat.lt_or_ge j (nibblesOf a.encode).length with h | h
    · rw [List.getElem?_eq_getElem h]
      exact nibblesOf_lt _ (ac_bytes ha) _ (List.getElem_mem h)
    · rw [List.getElem?_eq_none h]; decide
  have hcell : ∀ j < (nibblesOf a.encode).length, value[j]? = some ((S j : ℕ) : F p) := by
    intro j hj
    rw [prefix_cells hv j hj, hSd]
  have hread : ReadsAt S 0 (nibblesOf (encodeList ((acFields a).map encodeString))) := by
    intro j hj
    rw [hSd, Nat.zero_add, acEncode_eq]
  have hflat := ac_flat ha
  have hpl := ac_pay_le ha
  have hL := listRead S hS _ (acFields a) (encodes_map _) (by omega) (fun q hq => by have := hpl q hq; omega) hread
  obtain ⟨-, -, -, -, h5⟩ := list_read S hS _ (acFields a) (encodes_map _) (by omega)
    (fun q hq => by have := hpl q hq; omega) hread
  have hlen4 : ((acFields a).map encodeString).length = 4 := rfl
  have htot : (nibblesOf a.encode).length = itemOffset S 4 := by
    rw [nibblesOf_length, hL.offs 4 le_rfl, List.take_of_length_le (by omega), acEncode_eq, ← hL.total]
    have := hL.isL
    obtain ⟨-, e2, -⟩ := list_read S hS _ (acFields a) (encodes_map _) (by omega)
      (fun q hq => by have := hpl q hq; omega) hread
    unfold declared
    rw [if_pos (show 0xc0 ≤ byteAt S 0 from hL.isL), e2]
  have hoffs : ∀ i, acOff acP S 4 i = itemOffset S i ∨ 4 < i := by
    have hp2 := (hL.item 2 a.storageRoot rfl).1
    have hp3 := (hL.item 3 a.codeHash rfl).1
    have e2 : ∀ i ≤ 2, acOff acP S 4 i = itemOffset S i := by
      intro i hi
      apply acOff_eq _ _ _ _ (by omega)
      intro j hj hm
      exfalso
      have : j = 0 ∨ j = 1 := by omega
      rcases this with rfl | rfl <;> exact absurd hm (by decide)
    have e3 : ∀ i ≤ 3, acOff acP S 4 i = itemOffset S i := by
      intro i hi
      apply acOff_eq _ _ _ _ (by omega)
      intro j hj hm
      have : j = 0 ∨ j = 1 ∨ j = 2 := by omega
      rcases this with rfl | rfl | rfl
      · exact absurd hm (by decide)
      · exact absurd hm (by decide)
      · rw [e2 2 le_rfl, hp2, ha.storageRoot]; rfl
    intro i
    rcases Nat.lt_or_ge 4 i with h | h
    · exact Or.inr h
    left
    apply acOff_eq _ _ _ _ (by omega)
    intro j hj hm
    have : j = 0 ∨ j = 1 ∨ j = 2 ∨ j = 3 := by omega
    rcases this with rfl | rfl | rfl | rfl
    · exact absurd hm (by decide)
    · exact absurd hm (by decide)
    · rw [e2 2 le_rfl, hp2, ha.storageRoot]; rfl
    · rw [e3 3 le_rfl, hp3, ha.codeHash]; rfl
  have hlast : itemOffset S 3 + 66 ≤ itemOffset S 4 := by
    have hp3 := (hL.item 3 a.codeHash rfl).1
    rw [show itemOffset S 4 = itemOffset S 3 + itemLen S (itemOffset S 3) from rfl, itemLen, hp3, ha.codeHash]
    have : 2 ≤ hdrLen (byteAt S (itemOffset S 3)) := by
      unfold payLen at hp3
      unfold hdrLen
      simp only at hp3
      split at hp3
      · rw [ha.codeHash] at hp3; omega
      · rename_i h
        rw [if_neg h]; omega
    omega
  have hlp : ∀ i < 4, lenPrefixMaxHexs (mx acP i) = 2 := by decide
  rw [rlpArrayCheck_local hp acP accountParams_wf value S (by rw [htk, hM, hl]) hS ((4 : ℕ) : F p) (by
      intro j hj
      have : acP.arrayPrefixMaxHexLen = 4 := rfl
      exact hcell j (by rw [nibblesOf_length, acEncode_eq]; unfold encodeList; rw [List.length_append]; omega)) (by
      intro i hi j hj
      have hi : i < 4 := hi
      rw [hlp i hi] at hj
      rw [hv4, htk, (hoffs i).resolve_right (by omega)]
      have hmono := itemOffset_mono S (show i ≤ 3 by omega)
      rw [List.getElem?_rotate (by omega), hl, Nat.mod_eq_of_lt (by omega), Nat.add_comm j]
      exact hcell _ (by omega)), hv4] at hr
  split at hr
  swap
  · cases hr
  have hr := (Option.some.inj hr).symm
  have hk4 : k < 4 := (List.getElem?_eq_some_iff.1 hk).1
  obtain ⟨i1, i2⟩ := hL.item k pay hk
  have hoff := (hoffs k).resolve_right (by omega)
  rw [hr]
  simp only [List.getElem?_map, show acP.maxFields = 4 from rfl, List.getElem?_range hk4, Option.map_some, hoff, len',
    hdr', if_pos hk4, i1, htk, Option.some.injEq, exists_eq_left', true_and]
  rw [← i2]
  unfold itemNibbles
  rw [i1]
  apply List.ext_getElem?
  intro j
  rw [List.getElem?_take, List.getElem?_map]
  have hend : itemOffset S k + hdrLen (byteAt S (itemOffset S k)) + 2 * pay.length ≤ itemOffset S 4 := by
    have := itemOffset_mono S (show k + 1 ≤ 4 by omega)
    rw [itemOffset, itemLen, i1] at this
    omega
  split
  · rename_i h
    rw [List.getElem?_rotate (by omega), hl, Nat.mod_eq_of_lt (by omega), List.getElem?_map, List.getElem?_range h,
      Nat.add_comm j, hcell _ (by omega)]
    rfl
  · rename_i h
    rw [List.getElem?_eq_none (by simp; omega)]; rfl

/-- The verdict of the inclusion check is a bit. -/
theorem inclusion_bit {D kl mv : ℕ} {st : Bool} {x : InclusionIn p} {r : InclusionOut p}
    (h : checkInclusionFixed D kl mv st x = some r) : r.output = 0 ∨ r.output = 1 := by
  unfold checkInclusionFixed at h
  obtain ⟨_, -, h⟩ := Option.bind_eq_some_iff.1 h
  obtain ⟨_, -, h⟩ := Option.bind_eq_some_iff.1 h
  obtain ⟨⟨_, _⟩, -, h⟩ := Option.bind_eq_some_iff.1 h
  obtain ⟨_, -, h⟩ := Option.bind_eq_some_iff.1 h
  obtain ⟨_, -, h⟩ := Option.bind_eq_some_iff.1 h
  obtain ⟨_, -, h⟩ := Option.bind_eq_some_iff.1 h
  obtain ⟨out, hf, h⟩ := Option.bind_eq_some_iff.1 h
  have h := (Option.some.inj h).symm
  rw [h]
  exact finish_bit hf

theorem arrayCheck_bit {a : ArrayCheck} {inp : List (F p)} {n : F p} {r : AcOut p}
    (h : rlpArrayCheck a inp n = some r) : r.out = 0 ∨ r.out = 1 := by
  unfold rlpArrayCheck at h
  obtain ⟨⟨_, _, _⟩, -, h⟩ := Option.bind_eq_some_iff.1 h
  obtain ⟨_, -, h⟩ := Option.bind_eq_some_iff.1 h
  have h := (Option.some.inj h).symm
  rw [h]
  exact isZero_bit _

/-- The parts of a run of the account checker. -/
theorem account_parts {D : ℕ} {x : InclusionIn p} {r : AccountOut p} (h : checkEthAccountProof D x = some r) :
    ∃ (ac : AcOut p) (inc : InclusionOut p) (f0 f1 f2 f3 : List (F p)),
      rlpArrayCheck acP x.value ((4 : ℕ) : F p) = some ac ∧ checkInclusionFixed D 64 228 false x = some inc ∧
      ac.fields[0]? = some f0 ∧ ac.fields[1]? = some f1 ∧ ac.fields[2]? = some f2 ∧ ac.fields[3]? = some f3 ∧
      ac.lens[0]? = some r.nonceLength ∧ ac.lens[1]? = some r.balanceLength ∧ r.output = ac.out * inc.output ∧
      r.nonce = f0.take 64 ∧ r.balance = f1.take 24 ∧ r.storageRoot = f2.take 64 ∧ r.codeHash = f3.take 64 := by
  unfold checkEthAccountProof at h
  obtain ⟨ac, hac, h⟩ := Option.bind_eq_some_iff.1 h
  obtain ⟨f0, h0, h⟩ := Option.bind_eq_some_iff.1 h
  obtain ⟨f1, h1, h⟩ := Option.bind_eq_some_iff.1 h
  obtain ⟨f2, h2, h⟩ := Option.bind_eq_some_iff.1 h
  obtain ⟨f3, h3, h⟩ := Option.bind_eq_some_iff.1 h
  obtain ⟨nl, hnl, h⟩ := Option.bind_eq_some_iff.1 h
  obtain ⟨bl, hbl, h⟩ := Option.bind_eq_some_iff.1 h
  obtain ⟨inc, hinc, h⟩ := Option.bind_eq_some_iff.1 h
  have h := (Option.some.inj h).symm
  subst h
  exact ⟨ac, inc, f0, f1, f2, f3, hac, hinc, h0, h1, h2, h3, hnl, hbl, rfl, rfl, rfl, rfl, rfl⟩

/-- What an account result says when it describes the account `a`. -/
structure Describes (r : AccountOut p) (a : Spec.Eth.Account) : Prop where
  nonceLength : r.nonceLength = ((2 * a.nonce.length : ℕ) : F p)
  nonce : r.nonce.take (2 * a.nonce.length) = (nibblesOf a.nonce).map Nat.cast
  balanceLength : r.balanceLength = ((2 * a.balance.length : ℕ) : F p)
  balance : r.balance.take (2 * a.balance.length) = ((nibblesOf a.balance).take 24).map Nat.cast
  storageRoot : r.storageRoot = (nibblesOf a.storageRoot).map Nat.cast
  codeHash : r.codeHash = (nibblesOf a.codeHash).map Nat.cast

theorem account_describes (hp : 2 ^ 128 < p) {D : ℕ} {x : InclusionIn p} (hl : x.value.length = 228) {r : AccountOut p}
    (h : checkEthAccountProof D x = some r) {a : Spec.Eth.Account} (ha : a.Ok)
    (hv : x.value.take (2 * a.encode.length) = (nibblesOf a.encode).map Nat.cast) : Describes r a := by
  obtain ⟨ac, inc, f0, f1, f2, f3, hac, hinc, h0, h1, h2, h3, hnl, hbl, -, e0, e1, e2, e3⟩ := account_parts h
  have key := account_read hp hl ha hv hac
  have k0 := key 0 _ rfl
  have k1 := key 1 _ rfl
  have k2 := key 2 _ rfl
  have k3 := key 3 _ rfl
  rw [h0, hnl] at k0
  rw [h1, hbl] at k1
  rw [h2] at k2
  rw [h3] at k3
  obtain ⟨l0, g0, q0, t0⟩ := k0
  obtain ⟨l1, g1, q1, t1⟩ := k1
  obtain ⟨-, g2, q2, t2⟩ := k2
  obtain ⟨-, g3, q3, t3⟩ := k3
  obtain rfl := Option.some.inj q0
  obtain rfl := Option.some.inj q1
  obtain rfl := Option.some.inj q2
  obtain rfl := Option.some.inj q3
  have hn := ha.nonce
  refine ⟨Option.some.inj l0, ?_, Option.some.inj l1, ?_, ?_, ?_⟩
  · rw [e0, List.take_take, Nat.min_eq_left (by omega), t0]
  · rw [e1, List.take_take, Nat.min_comm, ← List.take_take, t1, List.map_take]
  · rw [e2, show 64 = 2 * a.storageRoot.length by rw [ha.storageRoot], t2]
  · rw [e3, show 64 = 2 * a.codeHash.length by rw [ha.codeHash], t3]

/-- **C70.** Soundness of `CheckEthAccountProof`: if it accepts a proof against the root hash of a state trie at depth two or
more, then the trie stores, under the given key, the value that is claimed, and if that value is the encoding of an
account, then the reported nonce, balance, storage root and code hash are that account's (the balance only to 24 nibbles)
— or one of the supplied node buffers is an explicit Keccak collision with a node of the trie. In particular the
"zero value" of the absence case is never accepted as an account. -/
theorem C70_account_sound (hp : 2 ^ 128 < p) (D : ℕ) (hD2 : 2 ≤ D) (hD : D ≤ 10) (x : InclusionIn p) (hsh : Shape 228 x)
    (t : Trie) (hF : t.Fixed 64) (hR : t.Roomy) (hroot : x.rootHash = (nibblesOf t.root).map Nat.cast) (r : AccountOut p)
    (h : checkEthAccountProof D x = some r) (hout : r.output = 1) (hd2 : 2 ≤ x.depth.val) :
    CollidesWith x t ∨ ∃ v, t.get (x.key.map ZMod.val) = some v ∧
      x.value.take (2 * v.length) = (nibblesOf v).map Nat.cast ∧
      ∀ a : Spec.Eth.Account, a.Ok → v = a.encode → Describes r a := by
  obtain ⟨ac, inc, f0, f1, f2, f3, hac, hinc, -, -, -, -, -, -, ho, -⟩ := account_parts h
  rw [hout] at ho
  obtain ⟨o1, o2⟩ := mul_bits (arrayCheck_bit hac) (inclusion_bit hinc) ho.symm
  rcases C18_inclusion_sound hp D 228 hD2 hD (by omega) (by omega) (by omega) x hsh t hF hR hroot inc hinc o2 hd2 with
    hc | ⟨v, hv, -, hvv⟩ | hz
  · exact Or.inl hc
  · right
    refine ⟨v, hv, hvv, ?_⟩
    rintro a ha rfl
    exact account_describes hp hsh.value h ha hvv
  · exact absurd o1 (zeroValue_not_account hp hz hsh.value hac)

end Verif.Mpt
