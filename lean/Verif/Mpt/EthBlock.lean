import Verif.Mpt.EthRow

/-! # Property theorems C72: `CheckEthBlockHash` -/

set_option linter.unusedSectionVars false
set_option linter.unusedVariables false

namespace Verif.Mpt
open Api Rlp Keccak Spec.Keccak Spec.Rlp Spec.Mpt
variable {p : ℕ} [Fact p.Prime]

theorem rotate_take {cells : List (F p)} {n : ℕ} {S : ℕ → ℕ} (hc : CellsOf cells n S) (o m : ℕ) (hm : m ≤ n) :
    (cells.rotate o).take m = (List.range m).map fun j => ((S (o + j) : ℕ) : F p) := by
  apply List.ext_getElem?
  intro j
  rw [List.getElem?_take, List.getElem?_map]
  split
  · rename_i h
    rw [hc.rot o j (by omega), List.getElem?_range h]; rfl
  · rename_i h
    rw [List.getElem?_eq_none (by simp; omega)]; rfl

/-- Where the header checker reads field `k`, when the fixed-width fields before it have their width and the
variable-width ones are counted as present. -/
theorem bOff_fixed (a : ArrayCheck) (S : ℕ → ℕ) (num k : ℕ)
    (hfix : ∀ i < k, if mn a i = mx a i then payLen S (itemOffset S i) = mn a i else i < num) :
    gOff a S (bHd S) (len' S num) k = itemOffset S k := by
  induction k with
  | zero => simp [gOff, itemOffset, listHdr_eq]
  | succ k ih =>
    have ih := ih (fun i hi => hfix i (by omega))
    have h := hfix k (by omega)
    rw [gOff, itemOffset, itemLen, gAdv, bHd, ih]
    split
    · rename_i h2; rw [if_pos h2] at h; rw [h, Nat.add_assoc]
    · rename_i h2; rw [if_neg h2] at h; rw [len', if_pos h]; omega

theorem blockParams_wf : blockParams.WF := by
  refine ⟨by decide, by decide, by decide, by decide, by decide, by decide +kernel, by decide, by decide⟩

theorem header_read (S : ℕ → ℕ) (hS : ∀ k, S k < 16) {hd : List (List ℕ)} (hH : Spec.Eth.IsHeader hd)
    (h : ReadsAt S 0 (nibblesOf (Spec.Eth.encodeHeader hd))) : ListRead S (hd.map encodeString) hd := by
  refine listRead S hS _ _ (encodes_map hd) (by have := hH.size; omega) ?_ h
  intro q hq
  have h1 := encodeString_ge q
  have h2 := length_le_flatten (List.mem_map_of_mem (f := encodeString) hq)
  have := hH.size
  omega

theorem header_width {hd : List (List ℕ)} (hH : Spec.Eth.IsHeader hd) (i : ℕ) (hi : i < 7) :
    2 * (hd.getD i []).length = mn blockParams i := by
  have hw := hH.widths
  have hc := hH.count
  have : ((hd.take 7).map List.length).getD i 0 = (hd.getD i []).length := by
    rw [List.getD_eq_getElem?_getD, List.getElem?_map, List.getElem?_take, if_pos hi,
      List.getElem?_eq_getElem (by omega), List.getD_eq_getElem _ _ (by omega)]
    rfl
  rw [← this, hw]
  interval_cases i <;> rfl

theorem header_bytes {hd : List (List ℕ)} (hH : Spec.Eth.IsHeader hd) :
    ∀ b ∈ Spec.Eth.encodeHeader hd, b < 256 := by
  have hsz : (hd.map encodeString).flatten.length < 256 ^ 8 := by
    have := hH.size; omega
  refine encodeList_bytes ?_ hsz
  intro i hi
  obtain ⟨f, hf, rfl⟩ := List.mem_map.1 hi
  refine encodeString_bytes (hH.bytes f hf) ?_
  have h1 := encodeString_ge f
  have h2 := length_le_flatten hi
  omega

/-- What the header checker reports about a buffer that starts with a header, for any announced number of fields. -/
theorem block_fields (hp : 2 ^ 128 < p) {blockRlp : List (F p)} (hlen : blockRlp.length = 2176)
    (hnib : ∀ x ∈ blockRlp.map ZMod.val, x < 16) {hd : List (List ℕ)} (hH : Spec.Eth.IsHeader hd)
    (hread : ReadsAt (cyc (blockRlp.map ZMod.val)) 0 (nibblesOf (Spec.Eth.encodeHeader hd)))
    {fieldsNum : F p} {r : AcOut p} (hr : blkHeaderRlpCheck blockParams blockRlp fieldsNum = some r)
    (k : ℕ) (hk : k < 17) (hkh : k < hd.length) (hnum : ∀ i, 7 ≤ i → i < k → i < 13 ∧ i < fieldsNum.val) :
    (∃ f, r.fields[k]? = some f ∧ ∀ m ≤ 2176, (f.take m).take (2 * (hd.getD k []).length) =
      ((nibblesOf (hd.getD k [])).take m).map Nat.cast) ∧
    (k < fieldsNum.val → r.lens[k]? = some ((2 * (hd.getD k []).length : ℕ) : F p)) := by
  have hwf := blockParams_wf
  have hS := fun k => cyc_lt hnib k
  have hM : blockParams.maxHexLen = 2176 := rfl
  have hF : blockParams.maxFields = 17 := rfl
  have hcells : CellsOf blockRlp 2176 (cyc (blockRlp.map ZMod.val)) := by
    have := cells_cyc (p := p) (N := 2176) hnib (by simpa using hlen) (by norm_num)
    rwa [map_val_cast] at this
  set S := cyc (blockRlp.map ZMod.val) with hSdef
  have htk : blockRlp.take blockParams.maxHexLen = blockRlp := List.take_of_length_le (by rw [hM, hlen])
  have hc : CellsOf (blockRlp.take blockParams.maxHexLen) blockParams.maxHexLen S := by rw [htk]; exact hcells
  have hL := header_read S hS hH hread
  have hitem : ∀ i < hd.length, payLen S (itemOffset S i) = 2 * (hd.getD i []).length ∧
      itemNibbles S i = nibblesOf (hd.getD i []) := by
    intro i hi
    refine hL.item i _ ?_
    rw [List.getElem?_eq_getElem hi, List.getD_eq_getElem _ _ hi]
  rw [blkHeaderRlpCheck_eq hp blockParams hwf blockRlp S hc] at hr
  split at hr
  · have hr := (Option.some.inj hr).symm
    have hoff : gOff blockParams S (bHd S) (len' S fieldsNum.val) k = itemOffset S k := by
      apply bOff_fixed
      intro i hi
      rcases Nat.lt_or_ge i 7 with h7 | h7
      · have h1 := header_width hH i h7
        rw [if_pos (by interval_cases i <;> rfl), (hitem i (by omega)).1, h1]
      · obtain ⟨h12, h2⟩ := hnum i h7 hi
        rw [if_neg (by interval_cases i <;> decide)]
        exact h2
    obtain ⟨e1, e2⟩ := hitem k hkh
    refine ⟨⟨blockRlp.rotate (itemOffset S k + hdrLen (byteAt S (itemOffset S k))), ?_, ?_⟩, ?_⟩
    · rw [hr]
      simp only [gOut, List.getElem?_map, hF, List.getElem?_range hk, Option.map_some, hoff, bHd, htk]
    · intro m hm
      rw [rotate_take hcells _ _ hm, ← e2]
      unfold itemNibbles
      rw [e1, ← List.map_take, ← List.map_take, List.take_range, List.take_range, List.map_map, Nat.min_comm]
      rfl
    · intro hlt
      rw [hr]
      simp only [gOut, List.getElem?_map, hF, List.getElem?_range hk, Option.map_some, hoff, len', if_pos hlt, e1]
  · cases hr

/-- **C72.** `CheckEthBlockHash` binds the reported fields to the block hash: if the reported block hash is the hash of a
header, then the three reported roots are the header's roots for every announced number of fields, and the reported
block number (with its length) and timestamp are the header's, provided the announced number of fields reaches them (only
their first eight nibbles are reported, cells beyond the field's length are not specified) — or the supplied buffer is
an explicit Keccak collision with the header. The verdict `Output` is not needed. -/
theorem C72_block_hash_binds (hp : 2 ^ 128 < p) (blockRlp : List (F p)) (hlen : blockRlp.length = 2176)
    (fieldsNum ri : F p) (r : BlockOut p) (h : checkEthBlockHash blockRlp fieldsNum ri = some r)
    (hd : List (List ℕ)) (hH : Spec.Eth.IsHeader hd)
    (hhash : r.blockHash = (nibblesOf (Spec.Eth.blockHash hd)).map Nat.cast) :
    (∃ k < 10, Collision (supplied (blockRlp.map ZMod.val) k) (pad (bytesToBits (Spec.Eth.encodeHeader hd)))) ∨
    (r.stateRoot = (nibblesOf (Spec.Eth.stateRoot hd)).map Nat.cast ∧
     r.transactionsRoot = (nibblesOf (Spec.Eth.transactionsRoot hd)).map Nat.cast ∧
     r.receiptsRoot = (nibblesOf (Spec.Eth.receiptsRoot hd)).map Nat.cast ∧
     (8 ≤ fieldsNum.val → r.blockNumber.take (2 * (Spec.Eth.number hd).length) =
        ((nibblesOf (Spec.Eth.number hd)).take 8).map Nat.cast) ∧
     (8 < fieldsNum.val → r.blockNumberLength = ((2 * (Spec.Eth.number hd).length : ℕ) : F p)) ∧
     (11 ≤ fieldsNum.val → r.blockTime.take (2 * (Spec.Eth.timestamp hd).length) =
        ((nibblesOf (Spec.Eth.timestamp hd)).take 8).map Nat.cast)) := by
  unfold checkEthBlockHash at h
  obtain ⟨r0, hr0, h⟩ := Option.bind_eq_some_iff.1 h
  obtain ⟨hh, hhn, h⟩ := Option.bind_eq_some_iff.1 h
  obtain ⟨f3, hf3, h⟩ := Option.bind_eq_some_iff.1 h
  obtain ⟨f4, hf4, h⟩ := Option.bind_eq_some_iff.1 h
  obtain ⟨f5, hf5, h⟩ := Option.bind_eq_some_iff.1 h
  obtain ⟨f8, hf8, h⟩ := Option.bind_eq_some_iff.1 h
  obtain ⟨f11, hf11, h⟩ := Option.bind_eq_some_iff.1 h
  obtain ⟨l8, hl8, h⟩ := Option.bind_eq_some_iff.1 h
  have h := (Option.some.inj h).symm
  subst h
  obtain ⟨n1, n2, n3, n4, -⟩ := hashNode_some hp (by rw [hlen]) hhn
  simp only at hhash ⊢
  have hcnt := hH.count
  rcases supplied_eq_or_collision hp n3 (by rw [List.length_map]; exact n2) (Spec.Eth.encodeHeader hd)
    (n4.symm.trans hhash) with hs | hcol
  swap
  · exact Or.inl ⟨_, n3, hcol⟩
  right
  obtain ⟨rest, hrest⟩ := supplied_prefix n1 (by rw [List.length_map, hlen]) (header_bytes hH) hs
  have hread : ReadsAt (cyc (blockRlp.map ZMod.val)) 0 (nibblesOf (Spec.Eth.encodeHeader hd)) := by
    rw [nibblesOf_append, List.append_assoc] at hrest
    exact cyc_reads hrest
  have key := fun k hk hkh hn => block_fields hp hlen n1 hH hread hr0 k hk hkh hn
  have root : ∀ k f, 3 ≤ k → k ≤ 5 → r0.fields[k]? = some f → f.take 64 = (nibblesOf (hd.getD k [])).map Nat.cast := by
    intro k f hk1 hk2 hf
    obtain ⟨⟨f', e1, e2⟩, -⟩ := key k (by omega) (by omega) (by omega)
    rw [hf] at e1
    obtain rfl := Option.some.inj e1
    have hw := header_width hH k (by omega)
    have h64 : mn blockParams k = 64 := by interval_cases k <;> rfl
    have := e2 64 (by omega)
    rw [hw, h64, List.take_take, Nat.min_self, List.take_of_length_le (l := nibblesOf _) (by rw [nibblesOf_length]; omega)]
      at this
    exact this
  refine ⟨root 3 _ (by omega) (by omega) hf3, root 4 _ (by omega) (by omega) hf4, root 5 _ (by omega) (by omega) hf5,
    ?_, ?_, ?_⟩
  · intro hn
    obtain ⟨⟨f', e1, e2⟩, -⟩ := key 8 (by omega) (by omega) (by omega)
    rw [hf8] at e1
    obtain rfl := Option.some.inj e1
    exact e2 8 (by omega)
  · intro hn
    obtain ⟨-, e2⟩ := key 8 (by omega) (by omega) (by omega)
    have e2 := e2 hn
    rw [hl8] at e2
    exact Option.some.inj e2
  · intro hn
    obtain ⟨⟨f', e1, e2⟩, -⟩ := key 11 (by omega) (by omega) (by omega)
    rw [hf11] at e1
    obtain rfl := Option.some.inj e1
    exact e2 8 (by omega)

end Verif.Mpt
