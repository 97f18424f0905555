import Verif.Mpt.EthBlock
import Verif.Rlp.ListProps2

/-! # Property theorems C72: which genuine headers `CheckEthBlockHash` accepts -/

set_option linter.unusedSectionVars false
set_option linter.unusedVariables false

namespace Verif.Mpt
open Api Rlp Keccak Spec.Keccak Spec.Rlp Spec.Mpt
variable {p : ℕ} [Fact p.Prime]

theorem bounds_eq (i : ℕ) (hi : i < 17) : 2 * (Spec.Eth.headerBounds.getD i (0, 0)).1 = mn blockParams i ∧
    2 * (Spec.Eth.headerBounds.getD i (0, 0)).2 = mx blockParams i := by
  interval_cases i <;> exact ⟨rfl, rfl⟩

theorem bound_small (i : ℕ) (hi : i < 17) : ((Spec.Eth.headerBounds.getD i (0, 0)).2 < 56 ∨
    (Spec.Eth.headerBounds.getD i (0, 0)).2 < 256 ^ 2 ∧ lenPrefixMaxHexs (mx blockParams i) = 4) ∧
    mx blockParams i < mn blockParams i + 2 ^ (mx blockParams i - mn blockParams i).size ∧
    2 < 2 ^ (lenPrefixMaxHexs (mx blockParams i)).size := by
  interval_cases i <;> exact ⟨by decide, by decide, by decide⟩

/-- The honest buffer of a header. -/
def headerBuf (hd : List (List ℕ)) : List ℕ := padded 2176 (Spec.Eth.encodeHeader hd)

section
variable {hd : List (List ℕ)} (hH : Spec.Eth.IsHeader hd) (h17 : hd.length ≤ 17) (hB : Spec.Eth.Bounded hd)
  (hroom : 272 * ((Spec.Eth.encodeHeader hd).length / 136 + 1) ≤ 2176)
include hH h17 hB hroom

theorem headerBuf_reads : ReadsAt (cyc (headerBuf hd)) 0 (nibblesOf (Spec.Eth.encodeHeader hd)) := by
  unfold headerBuf padded
  rw [nibblesOf_append, List.append_assoc]
  exact cyc_reads rfl

theorem headerBuf_pad : ∃ b, (kpad (Spec.Eth.encodeHeader hd).length).head? = some b ∧
    byteAt (cyc (headerBuf hd)) (2 * (Spec.Eth.encodeHeader hd).length) = b := by
  have hne : (kpad (Spec.Eth.encodeHeader hd).length).length ≠ 0 := by rw [kpad_length]; omega
  obtain ⟨b, t, hbt⟩ : ∃ b t, kpad (Spec.Eth.encodeHeader hd).length = b :: t := by
    cases h : kpad (Spec.Eth.encodeHeader hd).length with
    | nil => rw [h] at hne; simp at hne
    | cons b t => exact ⟨b, t, rfl⟩
  refine ⟨b, by rw [hbt]; rfl, ?_⟩
  have hr : ReadsAt (cyc (headerBuf hd)) 0 (nibblesOf (Spec.Eth.encodeHeader hd ++ kpad (Spec.Eth.encodeHeader hd).length)) :=
    cyc_reads rfl
  rw [nibblesOf_append, readsAt_append, nibblesOf_length, Nat.zero_add] at hr
  have hr := hr.2
  rw [hbt] at hr
  exact byteAt_of_reads hr

theorem header_items (hS : ∀ k, cyc (headerBuf hd) k < 16) : 
    (∀ i < hd.length, payLen (cyc (headerBuf hd)) (itemOffset (cyc (headerBuf hd)) i) = 2 * (hd.getD i []).length ∧
      byteAt (cyc (headerBuf hd)) (itemOffset (cyc (headerBuf hd)) i) ≠ 0xc0 ∧
      itemFits (cyc (headerBuf hd)) (itemOffset (cyc (headerBuf hd)) i) (lenPrefixMaxHexs (mx blockParams i))) ∧
    itemOffset (cyc (headerBuf hd)) hd.length = 2 * (Spec.Eth.encodeHeader hd).length ∧
    isList (cyc (headerBuf hd)) 0 ∧
    listHdr (byteAt (cyc (headerBuf hd)) 0) + declared (cyc (headerBuf hd)) = 2 * (Spec.Eth.encodeHeader hd).length ∧
    listHdr (byteAt (cyc (headerBuf hd)) 0) ≤ 6 := by
  have hread := headerBuf_reads hH h17 hB hroom
  set S := cyc (headerBuf hd)
  have hL := header_read S hS hH hread
  have hsz := hH.size
  obtain ⟨h1, h2, h3, h4, h5⟩ := list_read S hS _ hd (encodes_map hd) (by omega) (by
    intro q hq
    have h1 := encodeString_ge q
    have h2 := length_le_flatten (List.mem_map_of_mem (f := encodeString) hq)
    omega) hread
  have hflat : (hd.map encodeString).flatten.length < 256 ^ 2 := by
    have : (Spec.Eth.encodeHeader hd).length ≤ 1088 := by omega
    unfold Spec.Eth.encodeHeader encodeList at this
    rw [List.length_append] at this
    omega
  refine ⟨?_, ?_, h1, hL.total, ?_⟩
  · intro i hi
    obtain ⟨pay, e1, e2, e3, -, e5⟩ := h5 i (by simpa using hi)
    have hpay : pay = hd.getD i [] := by
      rw [List.getElem?_eq_getElem hi] at e1
      rw [List.getD_eq_getElem _ _ hi]; exact (Option.some.inj e1).symm
    rw [hpay] at e2 e5
    refine ⟨e2, e3, ?_⟩
    obtain ⟨b1, b2⟩ := hB i hi
    obtain ⟨c1, -, c3⟩ := bound_small i (by omega)
    unfold itemFits
    have hlo : lenOfLen (byteAt S (itemOffset S i)) = 0 ∨ (lenOfLen (byteAt S (itemOffset S i)) ≤ 2 ∧
        lenPrefixMaxHexs (mx blockParams i) = 4) := by
      rcases c1 with c1 | ⟨c1, c2⟩
      · left; rw [e5, if_pos (by omega)]
      · right
        refine ⟨?_, c2⟩
        rw [e5]
        split
        · omega
        · exact lenBytes_length_le _ _ (by omega)
    have hh : hdrLen (byteAt S (itemOffset S i)) ≤ 2 + 2 * lenOfLen (byteAt S (itemOffset S i)) := by
      unfold hdrLen; split <;> omega
    rcases hlo with h0 | ⟨h0, h4⟩
    · constructor
      · omega
      · omega
    · rw [h4]
      refine ⟨by omega, ?_⟩
      have : (2 : ℕ) ^ (4 : ℕ).size = 8 := by decide
      omega
  · have := hL.offs hd.length (by simp)
    rw [this, List.take_of_length_le (by simp)]
    have h3' := h3
    rw [h3']
    unfold Spec.Eth.encodeHeader encodeList
    rw [List.length_append]; ring
  · rw [h3]
    have := Rlp.lenHeader_length_le 0xc0 0xf7 (hd.map encodeString).flatten.length 2 hflat
    omega

end

/-- **C72 (genuine headers).** For the honest buffer of a genuine header of 15, 16 or 17 fields within the bounds, with the
right number of fields: if it has all 17 fields or its length is not 135 modulo 136, `CheckEthBlockHash` succeeds with
verdict 1 and reports the block hash. -/
theorem C72_header_accepted_partial (hp : 2 ^ 128 < p) (hd : List (List ℕ)) (hH : Spec.Eth.IsHeader hd)
    (h17 : hd.length ≤ 17) (hB : Spec.Eth.Bounded hd)
    (hroom : 272 * ((Spec.Eth.encodeHeader hd).length / 136 + 1) ≤ 2176)
    (hok : hd.length = 17 ∨ (Spec.Eth.encodeHeader hd).length % 136 ≠ 135) :
    ∃ r, checkEthBlockHash ((headerBuf hd).map (Nat.cast : ℕ → F p)) ((hd.length : ℕ) : F p)
      (((Spec.Eth.encodeHeader hd).length / 136 : ℕ) : F p) = some r ∧ r.output = 1 ∧
      r.blockHash = (nibblesOf (Spec.Eth.blockHash hd)).map Nat.cast := by
  have hnib : ∀ x ∈ headerBuf hd, x < 16 := padded_lt (header_bytes hH)
  have hS : ∀ k, cyc (headerBuf hd) k < 16 := fun k => cyc_lt hnib k
  have hlen : (headerBuf hd).length = 2176 := padded_length hroom
  obtain ⟨hit, hend, hl, htot, hh6⟩ := header_items hH h17 hB hroom hS
  obtain ⟨b, hb1, hb2⟩ := headerBuf_pad hH h17 hB hroom
  have h15 := hH.count
  have hv : ((hd.length : ℕ) : F p).val = hd.length := val_natCast_lt (by omega)
  have hM : blockParams.maxHexLen = 2176 := rfl
  have hF : blockParams.maxFields = 17 := rfl
  have hA : blockParams.arrayPrefixMaxHexLen = 4 := rfl
  have htk : ((headerBuf hd).map (Nat.cast : ℕ → F p)).take blockParams.maxHexLen = (headerBuf hd).map Nat.cast :=
    List.take_of_length_le (by rw [hM, List.length_map, hlen])
  have hc : CellsOf (((headerBuf hd).map (Nat.cast : ℕ → F p)).take blockParams.maxHexLen) blockParams.maxHexLen
      (cyc (headerBuf hd)) := by
    rw [htk]; exact cells_cyc hnib hlen (by decide)
  have hcheck := blkHeaderRlpCheck_eq hp blockParams blockParams_wf _ _ hc ((hd.length : ℕ) : F p)
  rw [hv] at hcheck
  set S := cyc (headerBuf hd) with hSd
  have hwid : ∀ i < hd.length, mn blockParams i ≤ 2 * (hd.getD i []).length ∧
      2 * (hd.getD i []).length ≤ mx blockParams i := by
    intro i hi
    have h1 := hB i hi
    have h2 := bounds_eq i (by omega)
    omega
  have hoff : ∀ i ≤ hd.length, gOff blockParams S (bHd S) (len' S hd.length) i = itemOffset S i := by
    intro i hi
    apply bOff_fixed
    intro j hj
    split
    · rename_i h
      rw [(hit j (by omega)).1]
      have := hwid j (by omega)
      omega
    · omega
  -- inactive positions
  have hb01 : hd.length < 17 → byteAt S (2 * (Spec.Eth.encodeHeader hd).length) = 1 := by
    intro hlt
    rw [hb2]
    have hne : ¬ (Spec.Eth.encodeHeader hd).length % 136 = 135 := by rcases hok with h | h <;> omega
    unfold kpad at hb1
    rw [if_neg hne] at hb1
    simpa using hb1.symm
  have hin : ∀ i, hd.length ≤ i → i < 17 →
      gOff blockParams S (bHd S) (len' S hd.length) i = 2 * (Spec.Eth.encodeHeader hd).length := by
    intro i h1 h2
    rcases Nat.eq_or_lt_of_le h1 with rfl | h1
    · rw [hoff _ le_rfl, hend]
    · -- only i = 16, 15 fields
      obtain rfl : i = 15 + 1 := by omega
      have h15e : hd.length = 15 := by omega
      have e15 : gOff blockParams S (bHd S) (len' S hd.length) 15 = 2 * (Spec.Eth.encodeHeader hd).length := by
        have := hoff hd.length le_rfl
        rw [hend] at this
        rwa [h15e] at this ⊢
      rw [gOff, e15, bHd, hb01 (by omega), gAdv, if_neg (by decide), len', if_neg (by omega)]
      rfl
  have hcond : (0 < blockParams.arrayPrefixMaxHexLen ∧ ahPrefix1 (byteAt S 0) ≤ blockParams.arrayPrefixMaxHexLen) ∧
      ∀ i < blockParams.maxFields, gAlign blockParams S (bHd S) (len' S hd.length) blockParams.arrayPrefixMaxHexLen i ∧
        itemFits S (gOff blockParams S (bHd S) (len' S hd.length) i) (lenPrefixMaxHexs (mx blockParams i)) := by
    rw [listHdr_eq] at hh6
    refine ⟨⟨by decide, by rw [hA]; omega⟩, ?_⟩
    intro i hi
    rw [hF] at hi
    constructor
    · unfold gAlign
      split
      · have h8 : (2 : ℕ) ^ blockParams.arrayPrefixMaxHexLen.size = 8 := by decide
        rw [h8, gOff]
        omega
      · rename_i hi0
        by_cases hm : mn blockParams (i - 1) = mx blockParams (i - 1)
        · exact Or.inl hm
        · right
          obtain ⟨-, c2, -⟩ := bound_small (i - 1) (by omega)
          rcases Nat.lt_or_ge (i - 1) hd.length with hlt | hge
          · have := hwid (i - 1) hlt
            rw [len', if_pos hlt, hoff _ hlt.le, (hit _ hlt).1]
            omega
          · rw [len', if_neg (by omega)]
            have h15' : i - 1 = 15 := by
              rcases Nat.lt_or_ge (i - 1) 16 with h | h
              · omega
              · exfalso
                have h16 : i - 1 = 16 := by omega
                omega
            rw [h15']
            decide
    · rcases Nat.lt_or_ge i hd.length with hlt | hge
      · rw [hoff _ hlt.le]
        exact (hit i hlt).2.2
      · rw [hin i hge hi]
        unfold itemFits
        rw [hb01 (by omega)]
        have h1 : lenOfLen 1 = 0 := rfl
        have h2 : hdrLen 1 = 0 := rfl
        rw [h1, h2]
        exact ⟨by omega, Nat.two_pow_pos _⟩
  rw [if_pos hcond] at hcheck
  have hbuf : hashNode ((gOut blockParams S (bHd S) (len' S hd.length)
      (fun i o => hdrLen (byteAt S o) + len' S hd.length i o)
      (((headerBuf hd).map (Nat.cast : ℕ → F p)).take blockParams.maxHexLen)).total)
      ((headerBuf hd).map (Nat.cast : ℕ → F p)) (((Spec.Eth.encodeHeader hd).length / 136 : ℕ) : F p) = _ :=
    hash_padded hp hroom (by norm_num) (by norm_num) (header_bytes hH) _
  have hget : ∀ i < 17, (gOut blockParams S (bHd S) (len' S hd.length)
      (fun i o => hdrLen (byteAt S o) + len' S hd.length i o)
      (((headerBuf hd).map (Nat.cast : ℕ → F p)).take blockParams.maxHexLen)).fields[i]? = some
      ((((headerBuf hd).map (Nat.cast : ℕ → F p)).take blockParams.maxHexLen).rotate
        (gOff blockParams S (bHd S) (len' S hd.length) i + bHd S i (gOff blockParams S (bHd S) (len' S hd.length) i))) ∧
      (gOut blockParams S (bHd S) (len' S hd.length)
      (fun i o => hdrLen (byteAt S o) + len' S hd.length i o)
      (((headerBuf hd).map (Nat.cast : ℕ → F p)).take blockParams.maxHexLen)).lens[i]? =
        some ((len' S hd.length i (gOff blockParams S (bHd S) (len' S hd.length) i) : ℕ) : F p) := by
    intro i hi
    simp only [gOut, List.getElem?_map, hF, List.getElem?_range hi, Option.map_some, and_self]
  have hout : (gOut blockParams S (bHd S) (len' S hd.length)
      (fun i o => hdrLen (byteAt S o) + len' S hd.length i o)
      (((headerBuf hd).map (Nat.cast : ℕ → F p)).take blockParams.maxHexLen)).out = 1 := by
    have hac := gOut_accept (p := p) hp blockParams (by decide) S hS (bHd S) (len' S hd.length)
      (fun i o => hdrLen (byteAt S o) + len' S hd.length i o) (by
        intro i o
        have h1 := len'_lt _ hS hd.length i o
        have h2 := hdrLen_le _ (byteAt_lt _ hS o)
        omega)
    rw [hac]
    have hsum := bSum_eq blockParams S hd.length blockParams.maxFields (by
      intro i _ hi he
      rw [hoff i hi.le, (hit i hi).1]
      have := hwid i hi
      omega)
    have htr : ∀ k ≤ 17, trailing blockParams S hd.length k = 0 := by
      intro k
      induction k with
      | zero => intro _; rfl
      | succ k ih =>
        intro hk
        rw [trailing, ih (by omega)]
        split
        · rfl
        · rename_i h
          rw [hin k (by omega) (by omega), hb01 (by omega)]; rfl
    have hc0 : ∀ k ≤ 17, gC0 blockParams S (bHd S) (len' S hd.length) k = 0 := by
      intro k
      induction k with
      | zero => intro _; rfl
      | succ k ih =>
        intro hk
        rw [gC0, ih (by omega), if_neg]
        rcases Nat.lt_or_ge k hd.length with hlt | hge
        · rw [hoff k hlt.le]; exact (hit k hlt).2.1
        · rw [hin k hge (by omega), hb01 (by omega)]; norm_num
    rw [hF] at hsum ⊢
    rw [htr _ le_rfl, Nat.min_eq_right h17, hend] at hsum
    rw [hc0 _ le_rfl, if_pos (show isList S 0 from hl), if_pos (by omega)]
  generalize gOut blockParams S (bHd S) (len' S hd.length)
      (fun i o => hdrLen (byteAt S o) + len' S hd.length i o)
      (((headerBuf hd).map (Nat.cast : ℕ → F p)).take blockParams.maxHexLen) = g at *
  unfold checkEthBlockHash
  rw [hcheck]
  simp only [Option.bind_eq_bind, Option.bind_some]
  rw [hbuf]
  simp only [Option.bind_some]
  rw [(hget 3 (by omega)).1, (hget 4 (by omega)).1, (hget 5 (by omega)).1, (hget 8 (by omega)).1,
    (hget 11 (by omega)).1, (hget 8 (by omega)).2]
  simp only [Option.bind_some, Option.pure_def]
  exact ⟨_, rfl, hout, rfl⟩

/-- **C72 (genuine headers rejected).** A genuine header with 15 or 16 fields whose length is 135 modulo 136 (its Keccak
padding is the single byte 0x81) is never accepted by `CheckEthBlockHash` from its honest buffer: the padding byte is
read as the header of an absent field and counted. -/
theorem C72_header_rejected (hp : 2 ^ 128 < p) (hd : List (List ℕ)) (hH : Spec.Eth.IsHeader hd)
    (h16 : hd.length ≤ 16) (hB : Spec.Eth.Bounded hd)
    (hroom : 272 * ((Spec.Eth.encodeHeader hd).length / 136 + 1) ≤ 2176)
    (hbad : (Spec.Eth.encodeHeader hd).length % 136 = 135) (ri : F p) (r : BlockOut p)
    (hr : checkEthBlockHash ((headerBuf hd).map (Nat.cast : ℕ → F p)) ((hd.length : ℕ) : F p) ri = some r) :
    r.output ≠ 1 := by
  have hnib : ∀ x ∈ headerBuf hd, x < 16 := padded_lt (header_bytes hH)
  have hS : ∀ k, cyc (headerBuf hd) k < 16 := fun k => cyc_lt hnib k
  have hlen : (headerBuf hd).length = 2176 := padded_length hroom
  obtain ⟨hit, hend, hl, htot, hh6⟩ := header_items hH (by omega) hB hroom hS
  obtain ⟨b, hb1, hb2⟩ := headerBuf_pad hH (by omega) hB hroom
  have h15 := hH.count
  have hv : ((hd.length : ℕ) : F p).val = hd.length := val_natCast_lt (by omega)
  have hM : blockParams.maxHexLen = 2176 := rfl
  have hF : blockParams.maxFields = 17 := rfl
  have htk : ((headerBuf hd).map (Nat.cast : ℕ → F p)).take blockParams.maxHexLen = (headerBuf hd).map Nat.cast :=
    List.take_of_length_le (by rw [hM, List.length_map, hlen])
  have hc : CellsOf (((headerBuf hd).map (Nat.cast : ℕ → F p)).take blockParams.maxHexLen) blockParams.maxHexLen
      (cyc (headerBuf hd)) := by
    rw [htk]; exact cells_cyc hnib hlen (by decide)
  have hcheck := blkHeaderRlpCheck_eq hp blockParams blockParams_wf _ _ hc ((hd.length : ℕ) : F p)
  rw [hv] at hcheck
  -- the byte after the padding is not 0xc0
  have hafter : byteAt (cyc (headerBuf hd)) (2 * (Spec.Eth.encodeHeader hd).length + 2) ≠ 0xc0 := by
    have hrows : (headerBuf hd) = nibblesOf (Spec.Eth.encodeHeader hd ++ kpad (Spec.Eth.encodeHeader hd).length) ++
      List.replicate (2176 - 272 * ((Spec.Eth.encodeHeader hd).length / 136 + 1)) 0 := rfl
    have hh := padded_head (Spec.Eth.encodeHeader hd)
    have e : 2 * (Spec.Eth.encodeHeader hd).length + 2 = 272 * ((Spec.Eth.encodeHeader hd).length / 136 + 1) := by omega
    rcases Nat.lt_or_ge (272 * ((Spec.Eth.encodeHeader hd).length / 136 + 1)) 2176 with hlt | hge
    · have hz : cyc (headerBuf hd) (2 * (Spec.Eth.encodeHeader hd).length + 2) = 0 := by
        unfold cyc
        rw [hlen, Nat.mod_eq_of_lt (by omega), hrows, List.getD_eq_getElem?_getD,
          List.getElem?_append_right (by omega), List.getElem?_replicate]
        split <;> rfl
      unfold byteAt
      rw [hz]
      have := hS (2 * (Spec.Eth.encodeHeader hd).length + 2 + 1)
      omega
    · have e2 : 2 * (Spec.Eth.encodeHeader hd).length + 2 = 2176 := by omega
      have hw : byteAt (cyc (headerBuf hd)) (2 * (Spec.Eth.encodeHeader hd).length + 2) =
          byteAt (cyc (headerBuf hd)) 0 := by
        unfold byteAt cyc
        rw [hlen, e2]
      rw [hw]
      intro hc0
      have hd0 : declared (cyc (headerBuf hd)) = 0 := by
        unfold declared payLen
        rw [hc0]; rfl
      have hl2 : listHdr (byteAt (cyc (headerBuf hd)) 0) = 2 := by rw [hc0]; rfl
      omega
  set S := cyc (headerBuf hd) with hSd
  have hwid : ∀ i < hd.length, mn blockParams i ≤ 2 * (hd.getD i []).length ∧
      2 * (hd.getD i []).length ≤ mx blockParams i := by
    intro i hi
    have h1 := hB i hi
    have h2 := bounds_eq i (by omega)
    omega
  have hoff : ∀ i ≤ hd.length, gOff blockParams S (bHd S) (len' S hd.length) i = itemOffset S i := by
    intro i hi
    apply bOff_fixed
    intro j hj
    split
    · rename_i h
      rw [(hit j (by omega)).1]
      have := hwid j (by omega)
      omega
    · omega
  have hb81 : byteAt S (2 * (Spec.Eth.encodeHeader hd).length) = 0x81 := by
    rw [hb2]
    unfold kpad at hb1
    rw [if_pos hbad] at hb1
    simpa using hb1.symm
  have hn : gOff blockParams S (bHd S) (len' S hd.length) hd.length = 2 * (Spec.Eth.encodeHeader hd).length := by
    rw [hoff _ le_rfl, hend]
  have hc0 : ∀ k ≤ 17, gC0 blockParams S (bHd S) (len' S hd.length) k = 0 := by
    intro k
    induction k with
    | zero => intro _; rfl
    | succ k ih =>
      intro hk
      rw [gC0, ih (by omega), if_neg]
      rcases Nat.lt_trichotomy k hd.length with hlt | rfl | hgt
      · rw [hoff k hlt.le]; exact (hit k hlt).2.1
      · rw [hn, hb81]; norm_num
      · obtain rfl : k = 15 + 1 := by omega
        have h15e : hd.length = 15 := by omega
        have e15 : gOff blockParams S (bHd S) (len' S hd.length) 15 = 2 * (Spec.Eth.encodeHeader hd).length := by
          rwa [h15e] at hn ⊢
        have h81 : hdrLen 0x81 = 2 := rfl
        rw [gOff, e15, bHd, hb81, h81, gAdv, if_neg (by decide), len', if_neg (by omega)]
        exact hafter
  have htr : 2 ≤ trailing blockParams S hd.length 17 := by
    have hmono : ∀ k, trailing blockParams S hd.length k ≤ trailing blockParams S hd.length (k + 1) :=
      fun k => by rw [trailing]; omega
    have h1 : 2 ≤ trailing blockParams S hd.length (hd.length + 1) := by
      have h81 : hdrLen 0x81 = 2 := rfl
      rw [trailing, if_neg (by omega), hn, hb81, h81]; omega
    exact h1.trans (monotone_nat_of_le_succ hmono (by omega))
  have hsum := bSum_eq blockParams S hd.length blockParams.maxFields (by
    intro i _ hi he
    rw [hoff i hi.le, (hit i hi).1]
    have := hwid i hi
    omega)
  rw [hF, Nat.min_eq_right (by omega), hend] at hsum
  unfold checkEthBlockHash at hr
  obtain ⟨r0, hr0, hr⟩ := Option.bind_eq_some_iff.1 hr
  have hout : r0.out ≠ 1 := by
    rw [hcheck] at hr0
    split at hr0
    · have hr0 := (Option.some.inj hr0).symm
      rw [hr0, Ne, gOut_accept (p := p) hp blockParams (by decide) S hS (bHd S) (len' S hd.length)
        (fun i o => hdrLen (byteAt S o) + len' S hd.length i o) (by
          intro i o
          have h1 := len'_lt _ hS hd.length i o
          have h2 := hdrLen_le _ (byteAt_lt _ hS o)
          omega), hF, hc0 _ le_rfl, if_neg (show ¬ declared S = _ by omega)]
      split <;> omega
    · cases hr0
  obtain ⟨_, -, hr⟩ := Option.bind_eq_some_iff.1 hr
  obtain ⟨_, -, hr⟩ := Option.bind_eq_some_iff.1 hr
  obtain ⟨_, -, hr⟩ := Option.bind_eq_some_iff.1 hr
  obtain ⟨_, -, hr⟩ := Option.bind_eq_some_iff.1 hr
  obtain ⟨_, -, hr⟩ := Option.bind_eq_some_iff.1 hr
  obtain ⟨_, -, hr⟩ := Option.bind_eq_some_iff.1 hr
  obtain ⟨_, -, hr⟩ := Option.bind_eq_some_iff.1 hr
  have hr := (Option.some.inj hr).symm
  rw [hr]
  exact hout

/-- A header with the field widths of a pre-London block, with `extra` bytes of extra data. -/
def sampleHeader (extra : ℕ) : List (List ℕ) :=
  [32, 32, 20, 32, 32, 32, 256, 7, 3, 4, 3, 4, extra, 32, 8].map fun n => List.replicate n 200

example : Spec.Eth.IsHeader (sampleHeader 26) ∧ Spec.Eth.Bounded (sampleHeader 26) ∧
    (Spec.Eth.encodeHeader (sampleHeader 26)).length = 543 ∧ (sampleHeader 26).length ≤ 16 ∧ 543 % 136 = 135 ∧
    272 * ((Spec.Eth.encodeHeader (sampleHeader 26)).length / 136 + 1) ≤ 2176 :=
  ⟨⟨by decide +kernel, by decide +kernel, by decide +kernel, by decide +kernel⟩, by unfold Spec.Eth.Bounded; decide +kernel,
    by decide +kernel, by decide +kernel, by decide, by decide +kernel⟩

example : Spec.Eth.IsHeader (sampleHeader 5) ∧ Spec.Eth.Bounded (sampleHeader 5) ∧
    (Spec.Eth.encodeHeader (sampleHeader 5)).length % 136 ≠ 135 ∧
    272 * ((Spec.Eth.encodeHeader (sampleHeader 5)).length / 136 + 1) ≤ 2176 :=
  ⟨⟨by decide +kernel, by decide +kernel, by decide +kernel, by decide +kernel⟩, by unfold Spec.Eth.Bounded; decide +kernel,
    by decide +kernel, by decide +kernel⟩

end Verif.Mpt
