import Verif.Mpt.CompleteProps

/-! Satisfiability of the storage override on two-item nodes (lemmas for C71). -/

set_option linter.unusedSectionVars false
set_option linter.unusedVariables false

namespace Verif.Mpt
open Api Rlp Keccak Spec.Keccak Spec.Rlp Spec.Mpt
variable {p : ℕ} [Fact p.Prime]

theorem fits_small {S : ℕ → ℕ} {o m : ℕ} (h : lenOfLen (byteAt S o) = 0) : itemFits S o (lenPrefixMaxHexs m) := by
  unfold itemFits
  have h2 : 2 ≤ lenPrefixMaxHexs m := by unfold lenPrefixMaxHexs; omega
  rw [h]
  refine ⟨by omega, ?_⟩
  have h3 : hdrLen (byteAt S o) ≤ 2 := by unfold hdrLen; rw [h]; split <;> omega
  have : 2 ≤ (lenPrefixMaxHexs m).size := Nat.lt_size.2 (by omega)
  have : 2 ^ 2 ≤ 2 ^ (lenPrefixMaxHexs m).size := Nat.pow_le_pow_right (by omega) this
  omega

/-- A list checker with variable-width fields is satisfiable when all item headers are one byte and all payloads (but the
last) are short. -/
theorem ac_sat (hp : 2 ^ 128 < p) (a : ArrayCheck) (hwf : a.WF) (inp : List (F p)) (S : ℕ → ℕ)
    (hc : CellsOf (inp.take a.maxHexLen) a.maxHexLen S) (hapm : 0 < a.arrayPrefixMaxHexLen)
    (hpre : ahPrefix1 (byteAt S 0) ≤ a.arrayPrefixMaxHexLen) (hpre2 : ahPrefix1 (byteAt S 0) ≤ 8)
    (hmn : ∀ i < a.maxFields, mn a i = 0) (hmx : ∀ i, i + 1 < a.maxFields → 64 ≤ mx a i)
    (hone : ∀ i < a.maxFields, lenOfLen (byteAt S (itemOffset S i)) = 0)
    (hshort : ∀ i, i + 1 < a.maxFields → payLen S (itemOffset S i) < 128) :
    (rlpArrayCheck a inp ((a.maxFields : ℕ) : F p)).isSome := by
  have hv : ((a.maxFields : ℕ) : F p).val = a.maxFields := val_natCast_lt (by have := hwf.fields; omega)
  have hoff : ∀ i < a.maxFields, acOff a S a.maxFields i = itemOffset S i := by
    intro i hi
    apply acOff_eq _ _ _ _ (by omega)
    intro j hj he
    have := hmn j (by omega)
    have := hmx j (by omega)
    omega
  rw [rlpArrayCheck_eq hp a hwf inp S hc, hv, if_pos]
  · rfl
  refine ⟨⟨hapm, hpre⟩, ?_⟩
  intro i hi
  refine ⟨?_, fun _ => ?_⟩
  · unfold gAlign
    split
    · show 2 + ahPrefix1 (byteAt S 0) < _
      have : (10 : ℕ).size = 4 := by decide
      rw [this]; omega
    · rename_i h0
      right
      rw [hmn (i - 1) (by omega)]
      refine ⟨Nat.zero_le _, ?_⟩
      rw [show gOff a S (hdr' S a.maxFields) (len' S a.maxFields) (i - 1) = itemOffset S (i - 1) from hoff (i - 1) (by omega),
        len', if_pos (by omega), Nat.sub_zero, Nat.zero_add]
      have h1 := hshort (i - 1) (by omega)
      have h2 := hmx (i - 1) (by omega)
      have : 7 ≤ (mx a (i - 1)).size := Nat.lt_size.2 (by omega)
      have : 2 ^ 7 ≤ 2 ^ (mx a (i - 1)).size := Nat.pow_le_pow_right (by omega) this
      omega
  · rw [hoff i hi]
    exact fits_small (hone i hi)

/-- The facts about a row that holds a two-item node, seen through a window of `W` nibbles. -/
structure TwoRow (S : ℕ → ℕ) (hp v : List ℕ) : Prop where
  pre : ahPrefix1 (byteAt S 0) ≤ 2
  item0 : itemNibbles S 0 = nibblesOf hp
  pay0 : payLen S (itemOffset S 0) = 2 * hp.length
  pay1 : payLen S (itemOffset S 1) = 2 * v.length
  one0 : lenOfLen (byteAt S (itemOffset S 0)) = 0
  one1 : lenOfLen (byteAt S (itemOffset S 1)) = 0
  end1 : itemOffset S 2 = 2 * (encodeList [encodeString hp, encodeString v]).length

theorem str_hdr_byte {S : ℕ → ℕ} {o : ℕ} {pay : List ℕ} (hn : pay.length ≤ 55) (h : ReadsAt S o (nibblesOf (strHdr pay))) :
    lenOfLen (byteAt S o) = 0 := by
  unfold strHdr at h
  split at h
  · rename_i hs
    obtain ⟨b, rfl⟩ := List.length_eq_one_iff.1 hs.1
    have h := byteAt_of_reads h
    simp only [List.headD_cons] at hs
    rw [h]; unfold lenOfLen; split_ifs <;> omega
  · unfold lenHeader at h
    rw [if_pos (by omega)] at h
    have h := byteAt_of_reads h
    rw [h]; unfold lenOfLen; split_ifs <;> omega

theorem two_row {ns hp v Y rest : List ℕ} {W : ℕ}
    (hns : ns = nibblesOf (encodeList [encodeString hp, encodeString v] ++ Y) ++ rest) (hnib : ∀ x ∈ ns, x < 16)
    (hW : W ≤ ns.length) (hhp : hp.length ≤ 33) (hv : v.length ≤ 33) (h136 : 136 ≤ W) :
    TwoRow (cyc (ns.take W)) hp v := by
  set S := cyc (ns.take W) with hSd
  have hS : ∀ k, S k < 16 := cyc_lt (fun x hx => hnib x (List.mem_of_mem_take hx))
  have h1 := encodeString_length hp (by omega)
  have h2 := encodeString_length v (by omega)
  obtain ⟨L, hL⟩ : ∃ L, L = [encodeString hp, encodeString v].flatten.length := ⟨_, rfl⟩
  have hLe : L = (encodeString hp).length + (encodeString v).length := by rw [hL]; simp
  have hH := lenHeader_length_le 0xc0 0xf7 L 1 (by omega)
  have hG := strHdr_length v 1 (by omega)
  obtain ⟨t, ht⟩ := strHdr_prefix v
  obtain ⟨t', ht'⟩ := strHdr_prefix hp
  have hr := win_reads (X := lenHeader 0xc0 0xf7 L ++ encodeString hp ++ strHdr v) (Y := t ++ Y) (rest := rest) (W := W)
    (ns := ns) (by
      rw [hns]
      congr 2
      unfold encodeList
      rw [← hL]
      simp [ht]) (by rw [List.length_append, List.length_append]; omega) hW
  rw [nibblesOf_append, readsAt_append, nibblesOf_append, readsAt_append] at hr
  obtain ⟨⟨hr1, hr2⟩, hr3⟩ := hr
  obtain ⟨hisl, -, ho, hlh⟩ := list_start hS (by omega) hr1
  rw [nibblesOf_length, Nat.zero_add, ← ho] at hr2
  have hi := item_read S _ _ hp (Or.inl rfl) (by omega) hr2
  have ho1 : itemOffset S 1 = itemOffset S 0 + 2 * (encodeString hp).length := by
    show itemOffset S 0 + itemLen S (itemOffset S 0) = _
    rw [hi.2.1]
  rw [List.length_append, nibblesOf_length, nibblesOf_length, Nat.zero_add, ← ho, ← ho1] at hr3
  have hi2 := str_read (by omega) hr3
  have hr2' := hr2
  rw [ht', nibblesOf_append, readsAt_append] at hr2'
  refine ⟨?_, itemNibbles_of_reads hi.1 hi.2.2.2.1, hi.1, hi2.1, str_hdr_byte (by omega) hr2'.1, str_hdr_byte (by omega) hr3, ?_⟩
  · rw [listHdr_eq] at hlh
    omega
  · show itemOffset S 1 + itemLen S (itemOffset S 1) = _
    rw [hi2.2.1, ho1, ho]
    unfold encodeList
    rw [← hL, List.length_append, ← hL]
    omega

theorem kpad_small (n : ℕ) : ∀ b ∈ kpad n, b ≤ 0x81 := by
  intro b hb
  unfold kpad at hb
  split at hb
  · simp only [List.mem_singleton] at hb; omega
  · simp only [List.mem_cons, List.mem_append, List.not_mem_nil, or_false] at hb
    rcases hb with rfl | hb | rfl
    · omega
    · rw [List.eq_of_mem_replicate hb]; omega
    · omega

/-- The rows of nodes as bytes. -/
theorem rowNibs_bytes (L : ℕ) (u : Trie) (h2 : L % 2 = 0) :
    rowNibs L u = nibblesOf (u.encode ++ (kpad u.encode.length ++ List.replicate ((L - padLen u) / 2) 0)) := by
  have hz : ∀ z, nibblesOf (List.replicate z 0) = List.replicate (2 * z) 0 := by
    intro z
    induction z with
    | zero => rfl
    | succ z ih =>
      rw [List.replicate_succ, nibblesOf_cons, ih, show 2 * (z + 1) = 2 * z + 1 + 1 by ring, List.replicate_succ,
        List.replicate_succ]
      rfl
  unfold rowNibs
  rw [← List.append_assoc, nibblesOf_append (u.encode ++ _), hz]
  have : padLen u % 2 = 0 := by unfold padLen; omega
  rw [show 2 * ((L - padLen u) / 2) = L - padLen u by omega]

theorem byte_at {B : List ℕ} {W m : ℕ} (hW : W ≤ 2 * B.length) (hm : 2 * (m + 1) ≤ W) :
    byteAt (cyc ((nibblesOf B).take W)) (2 * m) = B.getD m 0 := by
  have hmB : m < B.length := by omega
  have e : B = (B.take m ++ [B[m]]) ++ B.drop (m + 1) := by
    rw [List.append_assoc, List.singleton_append, ← List.drop_eq_getElem_cons hmB, List.take_append_drop]
  have hr := win_reads (ns := nibblesOf B) (X := B.take m ++ [B[m]]) (Y := B.drop (m + 1)) (rest := []) (W := W)
    (by rw [List.append_nil, ← e]) (by rw [List.length_append, List.length_take]; simp; omega)
    (by rw [nibblesOf_length]; exact hW)
  rw [nibblesOf_append, readsAt_append, nibblesOf_length, List.length_take, Nat.min_eq_left hmB.le, Nat.zero_add] at hr
  rw [byteAt_of_reads hr.2, List.getD_eq_getElem _ _ hmB]

theorem small_item {S : ℕ → ℕ} {o : ℕ} (h : byteAt S o ≤ 0x81) :
    lenOfLen (byteAt S o) = 0 ∧ payLen S o ≤ 2 ∧ (itemLen S o = 2 ∨ itemLen S o = 4) := by
  have h1 : lenOfLen (byteAt S o) = 0 := by unfold lenOfLen; split_ifs <;> omega
  have h2 : payLen S o = if byteAt S o < 0x80 then 2 else 2 * (byteAt S o - 0x80) := by
    unfold payLen
    simp only
    split
    · rfl
    · rw [if_pos (by omega)]
  have h3 : hdrLen (byteAt S o) = if byteAt S o < 0x80 then 0 else 2 := by
    unfold hdrLen; rw [h1]
  refine ⟨h1, ?_, ?_⟩
  · rw [h2]; split <;> omega
  · unfold itemLen; rw [h2, h3]; split <;> omega

/-- The branch check is satisfiable on the row of a two-item node. -/
theorem branch_sat_two (hp : 2 ^ 128 < p) {LL : ℕ} {u : Trie} {hpre v : List ℕ}
    (hu : u.encode = encodeList [encodeString hpre, encodeString v]) (hb : ∀ b ∈ u.encode, b < 256)
    (hhp : hpre.length ≤ 33) (hv : v.length ≤ 33) (hLL : 1064 ≤ LL) (h2 : LL % 2 = 0) (hfit : padLen u ≤ LL) :
    (rlpArrayCheck branchParams ((rowNibs LL u).map (Nat.cast : ℕ → F p)) ((17 : ℕ) : F p)).isSome ∧
    CellsOf (((rowNibs LL u).map (Nat.cast : ℕ → F p)).take 1064) 1064 (cyc ((rowNibs LL u).take 1064)) := by
  have hlen := rowNibs_length hfit
  have hnib := rowNibs_lt (L := LL) hb
  have hc : CellsOf (((rowNibs LL u).map (Nat.cast : ℕ → F p)).take 1064) 1064 (cyc ((rowNibs LL u).take 1064)) := by
    rw [← List.map_take]
    exact cells_cyc (fun x hx => hnib x (List.mem_of_mem_take hx)) (by rw [List.length_take]; omega) (by norm_num)
  have hT := two_row (W := 1064) (ns := rowNibs LL u) (hp := hpre) (v := v) (Y := kpad u.encode.length)
    (rest := List.replicate (LL - padLen u) 0) (by rw [← hu]; rfl) hnib (by omega) hhp hv (by norm_num)
  have hel : u.encode.length ≤ 70 := by
    have h1 := encodeString_length hpre (by omega)
    have h2 := encodeString_length v (by omega)
    have hLe : [encodeString hpre, encodeString v].flatten.length = (encodeString hpre).length + (encodeString v).length := by simp
    have hH := lenHeader_length_le 0xc0 0xf7 [encodeString hpre, encodeString v].flatten.length 1 (by omega)
    rw [hu]
    unfold encodeList
    rw [List.length_append]
    omega
  have hBlen : (u.encode ++ (kpad u.encode.length ++ List.replicate ((LL - padLen u) / 2) 0)).length * 2 = LL := by
    have := congrArg List.length (rowNibs_bytes LL u h2)
    rw [hlen, nibblesOf_length] at this
    omega
  have hbyte : ∀ m, u.encode.length ≤ m → m < 532 → byteAt (cyc ((rowNibs LL u).take 1064)) (2 * m) ≤ 0x81 := by
    intro m h1 h3
    rw [rowNibs_bytes LL u h2, byte_at (by omega) (by omega), List.getD_eq_getElem?_getD,
      List.getElem?_append_right h1]
    rcases hx : (kpad u.encode.length ++ List.replicate ((LL - padLen u) / 2) 0)[m - u.encode.length]? with _ | y
    · simp
    · rcases List.mem_append.1 (List.mem_of_getElem? hx) with hy | hy
      · exact kpad_small _ _ hy
      · rw [List.eq_of_mem_replicate hy]; simp
  set S := cyc ((rowNibs LL u).take 1064) with hSd
  have hwalk : ∀ j, j ≤ 14 → ∃ m, itemOffset S (2 + j) = 2 * m ∧ u.encode.length ≤ m ∧ m ≤ u.encode.length + 2 * j := by
    intro j
    induction j with
    | zero => intro _; exact ⟨u.encode.length, by rw [hu]; exact hT.end1, le_rfl, by omega⟩
    | succ j ih =>
      intro hj
      obtain ⟨m, e1, e2, e3⟩ := ih (by omega)
      obtain ⟨-, -, h⟩ := small_item (hbyte m e2 (by omega))
      rw [← Nat.add_assoc, itemOffset, e1]
      rcases h with h | h
      · exact ⟨m + 1, by rw [h]; ring, by omega, by omega⟩
      · exact ⟨m + 2, by rw [h]; ring, by omega, by omega⟩
  refine ⟨ac_sat hp branchParams branchParams_wf _ S hc (by decide) ?_ ?_ (by decide)
    (by intro i hi; have hi : i + 1 < 17 := hi; have : i < 16 := by omega
        interval_cases i <;> decide) ?_ ?_, hc⟩
  · have := hT.pre
    have : branchParams.arrayPrefixMaxHexLen = 8 := rfl
    omega
  · have := hT.pre; omega
  · intro i hi
    have hi : i < 17 := hi
    rcases Nat.lt_or_ge i 2 with h | h
    · interval_cases i
      · exact hT.one0
      · exact hT.one1
    · obtain ⟨m, e1, e2, e3⟩ := hwalk (i - 2) (by omega)
      rw [show 2 + (i - 2) = i by omega] at e1
      rw [e1]
      exact (small_item (hbyte m e2 (by omega))).1
  · intro i hi
    have hi : i + 1 < 17 := hi
    rcases Nat.lt_or_ge i 2 with h | h
    · interval_cases i
      · rw [hT.pay0]; omega
      · rw [hT.pay1]; omega
    · obtain ⟨m, e1, e2, e3⟩ := hwalk (i - 2) (by omega)
      rw [show 2 + (i - 2) = i by omega] at e1
      rw [e1]
      have := (small_item (hbyte m e2 (by omega))).2.1
      omega

/-- The leaf and extension checks are satisfiable on the row of a two-item node. -/
theorem two_sat_two (hp : 2 ^ 128 < p) {LL W : ℕ} {u : Trie} {hpre v : List ℕ} (a : ArrayCheck) (hwf : a.WF)
    (h2 : a.maxFields = 2) (hM : a.maxHexLen = W) (hapm : 2 ≤ a.arrayPrefixMaxHexLen) (hmn : ∀ i < 2, mn a i = 0)
    (hmx : 64 ≤ mx a 0) (hu : u.encode = encodeList [encodeString hpre, encodeString v]) (hb : ∀ b ∈ u.encode, b < 256)
    (hhp : hpre.length ≤ 33) (hv : v.length ≤ 33) (hLL : W ≤ LL) (hW : 136 ≤ W) (hfit : padLen u ≤ LL) :
    (rlpArrayCheck a ((rowNibs LL u).map (Nat.cast : ℕ → F p)) ((2 : ℕ) : F p)).isSome ∧
    CellsOf (((rowNibs LL u).map (Nat.cast : ℕ → F p)).take W) W (cyc ((rowNibs LL u).take W)) ∧
    TwoRow (cyc ((rowNibs LL u).take W)) hpre v := by
  have hlen := rowNibs_length hfit
  have hnib := rowNibs_lt (L := LL) hb
  have hc : CellsOf (((rowNibs LL u).map (Nat.cast : ℕ → F p)).take W) W (cyc ((rowNibs LL u).take W)) := by
    rw [← List.map_take]
    exact cells_cyc (fun x hx => hnib x (List.mem_of_mem_take hx)) (by rw [List.length_take]; omega) (by omega)
  have hT := two_row (W := W) (ns := rowNibs LL u) (hp := hpre) (v := v) (Y := kpad u.encode.length)
    (rest := List.replicate (LL - padLen u) 0) (by rw [← hu]; rfl) hnib (by omega) hhp hv hW
  refine ⟨?_, hc, hT⟩
  have := ac_sat hp a hwf ((rowNibs LL u).map (Nat.cast : ℕ → F p)) (cyc ((rowNibs LL u).take W)) (by rw [hM]; exact hc)
    (by omega) (by have := hT.pre; omega) (by have := hT.pre; omega) (by rw [h2]; exact hmn)
    (by intro i hi; obtain rfl : i = 0 := by omega
        exact hmx)
    (by
      intro i hi
      have : i = 0 ∨ i = 1 := by omega
      rcases this with rfl | rfl
      · exact hT.one0
      · exact hT.one1)
    (by intro i hi; obtain rfl : i = 0 := by omega
        rw [hT.pay0]; omega)
  rwa [h2] at this

end Verif.Mpt
