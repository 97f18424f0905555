import Verif.Mpt.EthAddress

/-! # Property theorems C73: `CheckEthAddressStorageProof`, the theorems -/

set_option linter.unusedSectionVars false
set_option linter.unusedVariables false

namespace Verif.Mpt
open Api Rlp Keccak Spec.Keccak Spec.Rlp Spec.Mpt
variable {p : ℕ} [Fact p.Prime]

theorem account_bit {D : ℕ} {x : InclusionIn p} {r : AccountOut p} (h : checkEthAccountProof D x = some r) :
    r.output = 0 ∨ r.output = 1 := by
  obtain ⟨ac, inc, f0, f1, f2, f3, hac, hinc, -, -, -, -, -, -, ho, -⟩ := account_parts h
  rw [ho]
  rcases arrayCheck_bit hac with h1 | h1 <;> rcases inclusion_bit hinc with h2 | h2 <;> rw [h1, h2] <;> simp

theorem storage_bit {D : ℕ} {x : InclusionIn p} {r : StorageOut p} (h : checkEthStorageProof D x = some r) :
    r.output = 0 ∨ r.output = 1 := by
  obtain ⟨inc, hinc, -, ho, -⟩ := storage_parts h
  rw [ho]
  exact inclusion_bit hinc

theorem header_field_len {hd : List (List ℕ)} (hH : Spec.Eth.IsHeader hd) (i : ℕ) : (hd.getD i []).length < 2 ^ 64 := by
  rcases Nat.lt_or_ge i hd.length with h | h
  · rw [List.getD_eq_getElem _ _ h]
    have h1 := encodeString_ge (hd[i])
    have h2 := length_le_flatten (List.mem_map_of_mem (f := encodeString) (List.getElem_mem h))
    have h3 := hH.size
    omega
  · rw [List.getD_eq_default _ _ h]; simp

/-- **C73.** Soundness of `CheckEthAddressStorageProof` (partial): let the block hash be that of a genuine header, whose state root is
the root of a state trie. If the proof is accepted with both depths at least two, then the reported block number is the
header's (which has one to four bytes), the state trie stores the claimed account value under the address key, and for every
account that this value encodes and every storage trie with that account's storage root the reported slot value is what
the trie stores under the slot key — unless the claimed slot value is zero, one of the supplied buffers is an explicit
Keccak collision, or the last storage node is a branch or an extension. What is missing is what is missing in
`C71_storage_sound_partial` (and depth one, `C73_universal_forgery`). -/
theorem C73_address_storage_sound_partial (hp : 2 ^ 128 < p) (Da Ds : ℕ) (hDa2 : 2 ≤ Da) (hDa : Da ≤ 10) (hDs2 : 2 ≤ Ds) (hDs : Ds ≤ 10)
    (hd : List (List ℕ)) (hH : Spec.Eth.IsHeader hd) (blockRlp : List (F p)) (hlen : blockRlp.length = 2176) (fieldsNum ri : F p)
    (acc sto : InclusionIn p) (hacc : Shape 228 acc) (hsto : Shape 66 sto) (hl : 1064 ≤ sto.lastRlp.length)
    (hkn : ∀ y ∈ sto.key, y.val < 16) (ts : Trie) (hF : ts.Fixed 64) (hR : ts.Roomy) (hts : Spec.Eth.stateRoot hd = ts.root)
    (hda : 2 ≤ acc.depth.val) (hds : 2 ≤ sto.depth.val) (r : AddressStorageOut p)
    (h : checkEthAddressStorageProof Da Ds ((nibblesOf (Spec.Eth.blockHash hd)).map Nat.cast) fieldsNum ri blockRlp acc sto = some r)
    (hout : r.output = 1) :
    (∃ k < 10, Collision (supplied (blockRlp.map ZMod.val) k) (pad (bytesToBits (Spec.Eth.encodeHeader hd)))) ∨
    CollidesWith acc ts ∨
    ((1 ≤ (Spec.Eth.number hd).length ∧ (Spec.Eth.number hd).length ≤ 4 ∧
        r.blockNumber = ((Spec.Eth.beValue (Spec.Eth.number hd) : ℕ) : F p)) ∧
      ∃ v, ts.get (acc.key.map ZMod.val) = some v ∧ acc.value.take (2 * v.length) = (nibblesOf v).map Nat.cast ∧
      ∀ a : Spec.Eth.Account, a.Ok → v = a.encode → ∀ tt : Trie, tt.Fixed 64 → tt.Roomy → a.storageRoot = tt.root →
        CollidesWith sto tt ∨
        (∃ w, tt.get (sto.key.map ZMod.val) = some w ∧ sto.value.take (2 * w.length) = (nibblesOf w).map Nat.cast ∧
          ∀ val, val ≠ [] → val.length ≤ 32 → w = encodeString val →
            r.slotValue = (((Spec.Eth.beValue val % 2 ^ 248 : ℕ) : F p), ((Spec.Eth.beValue val / 2 ^ 248 : ℕ) : F p))) ∨
        (sto.value.take 2 = [8, 0] ∧ (sto.value.drop 2).take 64 = List.replicate 64 0 ∧ r.slotValue = (0, 0)) ∨
        (∃ u, tt.Node u ∧ Shows (sto.lastRlp.map ZMod.val) u ∧ Defeats sto.key sto.depth.val u)) := by
  obtain ⟨b, e, a, s, hb, he, ha, hs, hn, hsv, ho⟩ := address_parts.1 h
  obtain ⟨r1, r2, r3, r4, r5⟩ := block_reports hp hlen hb
  have hbl : ((nibblesOf (Spec.Eth.blockHash hd)).map (Nat.cast : ℕ → F p)).length = 64 := by
    rw [List.length_map, nibblesOf_length]; unfold Spec.Eth.blockHash; rw [keccakBytes_length]
  have h64 : (64 : F p).val = 64 := by
    have := val_natCast_lt (p := p) (a := 64) (by omega); simpa using this
  rw [arrayEqual_eq _ _ _ _ (by omega) (by omega) (by omega) (by omega), h64, if_pos le_rfl,
    List.take_of_length_le (by omega), List.take_of_length_le (by omega)] at he
  have he := (Option.some.inj he).symm
  rw [hout] at ho
  obtain ⟨o1, o2, o3⟩ := (three_bits hp (by rw [he]; split <;> simp) (account_bit ha) (storage_bit hs)).1 ho.symm
  rw [o1] at he
  have hhash := (ite_one he).symm
  have hgen := C72_block_hash_binds hp blockRlp hlen fieldsNum ri b hb hd hH hhash
  rcases hgen with hcol | ⟨g1, -, -, g2, g3, -⟩
  · exact Or.inl hcol
  right
  have hroot : b.stateRoot = (nibblesOf ts.root).map Nat.cast := by rw [g1, hts]
  have hrl : ((nibblesOf ts.root).map (Nat.cast : ℕ → F p)).length = 64 := by
    rw [List.length_map, nibblesOf_length]; unfold Trie.root; rw [keccakBytes_length]
  rcases C70_account_sound hp Da hDa2 hDa { acc with rootHash := b.stateRoot }
      ⟨hacc.key, hacc.value, by simp only; rw [hroot, hrl], hacc.rows, hacc.last16, hacc.last⟩ ts hF hR hroot a ha o2 hda with hc | ⟨v, v1, v2, v3⟩
  · exact Or.inl hc
  right
  have hnum : 8 < fieldsNum.val := by
    by_contra hle
    have h0 := r4 (by omega)
    have hC := C04_shiftRight 8 3 b.blockNumber (8 - b.blockNumberLength) (by omega) (by omega)
    have h8 : (8 : F p).val = 8 := by
      have := val_natCast_lt (p := p) (a := 8) (by omega); simpa using this
    rw [h0, sub_zero, h8] at hC
    unfold numberOf at hn
    rw [h0, sub_zero, hC.1 (by omega)] at hn
    cases hn
  have hne := numberOf_eq hp r3 (header_field_len hH 8) (g2 (by omega))
  rw [g3 hnum] at hn
  rw [show (hd.getD 8 []).length = (Spec.Eth.number hd).length from rfl] at hne
  have hne := hn.symm.trans hne
  split at hne
  swap
  · cases hne
  rename_i hlen4
  refine ⟨⟨hlen4.1, hlen4.2, Option.some.inj hne⟩, v, v1, v2, ?_⟩
  intro ac hac hv tt hFt hRt hrt
  have hD := v3 ac hac hv
  have hsr : a.storageRoot = (nibblesOf tt.root).map Nat.cast := by rw [hD.storageRoot, hrt]
  have hrl' : ((nibblesOf tt.root).map (Nat.cast : ℕ → F p)).length = 64 := by
    rw [List.length_map, nibblesOf_length]; unfold Trie.root; rw [keccakBytes_length]
  rcases C71_storage_sound_partial hp Ds hDs2 hDs { sto with rootHash := a.storageRoot }
    ⟨hsto.key, hsto.value, by simp only; rw [hsr, hrl'], hsto.rows, hsto.last16, hsto.last⟩ hl hkn tt hFt hRt hsr s hs o3 hds with
    q | ⟨w, w1, w2, -, w3⟩ | ⟨z1, z2, z3⟩ | q
  · exact Or.inl q
  · exact Or.inr (Or.inl ⟨w, w1, w2, fun val k1 k2 k3 => by rw [hsv]; exact w3 val k1 k2 k3⟩)
  · exact Or.inr (Or.inr (Or.inl ⟨z1, z2, by rw [hsv]; exact z3⟩))
  · exact Or.inr (Or.inr (Or.inr q))

/-- **C73 (the block number).** A header whose number has no bytes (the genesis block) or more than four makes the circuit
unsatisfiable on its own buffer, whatever the other inputs are. -/
theorem C73_number_range (hp : 2 ^ 128 < p) (Da Ds : ℕ) (hd : List (List ℕ)) (hH : Spec.Eth.IsHeader hd)
    (hroom : 272 * ((Spec.Eth.encodeHeader hd).length / 136 + 1) ≤ 2176)
    (hnum : (Spec.Eth.number hd).length = 0 ∨ 4 < (Spec.Eth.number hd).length) (blockHash : List (F p)) (fieldsNum ri : F p)
    (acc sto : InclusionIn p) :
    checkEthAddressStorageProof Da Ds blockHash fieldsNum ri ((headerBuf hd).map Nat.cast) acc sto = none := by
  rcases hx : checkEthAddressStorageProof Da Ds blockHash fieldsNum ri ((headerBuf hd).map Nat.cast) acc sto with _ | r
  · rfl
  exfalso
  obtain ⟨b, e, a, s, hb, he, ha, hs, hn, hsv, ho⟩ := address_parts.1 hx
  have hnib : ∀ x ∈ headerBuf hd, x < 16 := padded_lt (header_bytes hH)
  have hlen : (headerBuf hd).length = 2176 := padded_length hroom
  obtain ⟨r1, r2, r3, r4, r5⟩ := block_reports hp (by rw [List.length_map, hlen]) hb
  have hval : ((headerBuf hd).map (Nat.cast : ℕ → F p)).map ZMod.val = headerBuf hd := by
    rw [List.map_map]
    conv_rhs => rw [← List.map_id (headerBuf hd)]
    apply List.map_congr_left
    intro x hx
    have := hnib x hx
    exact val_natCast_lt (by omega)
  obtain ⟨g1, g2, g3⟩ := r5 hd hH (by
    rw [hval]
    unfold headerBuf padded
    rw [nibblesOf_append, List.append_assoc]
    exact cyc_reads rfl)
  rcases Nat.lt_or_ge 8 fieldsNum.val with h8 | h8
  · have hne := numberOf_eq hp r3 (header_field_len hH 8) (g2 (by omega))
    rw [show (hd.getD 8 []).length = (Spec.Eth.number hd).length from rfl, ← g3 h8, hn] at hne
    rw [if_neg (by omega)] at hne
    cases hne
  · have h0 := r4 (by omega)
    have hC := C04_shiftRight 8 3 b.blockNumber (8 - b.blockNumberLength) (by omega) (by omega)
    have h8 : (8 : F p).val = 8 := by
      have := val_natCast_lt (p := p) (a := 8) (by omega); simpa using this
    rw [h0, sub_zero, h8] at hC
    unfold numberOf at hn
    rw [h0, sub_zero, hC.1 (by omega)] at hn
    cases hn

end Verif.Mpt
