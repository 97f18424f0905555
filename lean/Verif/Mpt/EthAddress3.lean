import Verif.Mpt.EthAddress2

/-! # Property theorems C73: what `CheckEthAddressStorageProof` accepts -/

set_option linter.unusedSectionVars false
set_option linter.unusedVariables false

namespace Verif.Mpt
open Api Rlp Keccak Spec.Keccak Spec.Rlp Spec.Mpt
variable {p : ℕ} [Fact p.Prime]

theorem with_root {x : InclusionIn p} {l : List (F p)} (h : x.rootHash = l) : { x with rootHash := l } = x := by
  cases x; simp only at h; rw [h]

/-- An accepted account proof for the header's state root and an accepted storage proof for that account's storage root make
an accepted proof for the header. -/
theorem address_run (hp : 2 ^ 128 < p) {Da Ds : ℕ} {hd : List (List ℕ)} (hH : Spec.Eth.IsHeader hd)
    (h17 : hd.length ≤ 17) (hB : Spec.Eth.Bounded hd)
    (hroom : 272 * ((Spec.Eth.encodeHeader hd).length / 136 + 1) ≤ 2176)
    (hok : hd.length = 17 ∨ (Spec.Eth.encodeHeader hd).length % 136 ≠ 135)
    (hn1 : 1 ≤ (Spec.Eth.number hd).length) (hn4 : (Spec.Eth.number hd).length ≤ 4)
    {acc sto : InclusionIn p} {a : AccountOut p} {s : StorageOut p} {ac : Spec.Eth.Account}
    (hra : acc.rootHash = (nibblesOf (Spec.Eth.stateRoot hd)).map Nat.cast) (ha : checkEthAccountProof Da acc = some a)
    (ha1 : a.output = 1) (hD : Describes a ac) (hrs : sto.rootHash = (nibblesOf ac.storageRoot).map Nat.cast)
    (hs : checkEthStorageProof Ds sto = some s) (hs1 : s.output = 1) :
    ∃ r, checkEthAddressStorageProof Da Ds ((nibblesOf (Spec.Eth.blockHash hd)).map Nat.cast) ((hd.length : ℕ) : F p)
      (((Spec.Eth.encodeHeader hd).length / 136 : ℕ) : F p) ((headerBuf hd).map Nat.cast) acc sto = some r ∧ r.output = 1 ∧
      r.blockNumber = ((Spec.Eth.beValue (Spec.Eth.number hd) : ℕ) : F p) ∧ r.slotValue = s.slotValue := by
  obtain ⟨b, hb, -, hbh⟩ := C72_header_accepted_partial hp hd hH h17 hB hroom hok
  have hnib : ∀ x ∈ headerBuf hd, x < 16 := padded_lt (header_bytes hH)
  have hlen : (headerBuf hd).length = 2176 := padded_length hroom
  obtain ⟨r1, r2, r3, r4, r5⟩ := block_reports hp (by rw [List.length_map, hlen]) hb
  have hval : ((headerBuf hd).map (Nat.cast : ℕ → F p)).map ZMod.val = headerBuf hd := by
    rw [List.map_map]
    conv_rhs => rw [← List.map_id (headerBuf hd)]
    apply List.map_congr_left
    intro x hx
    have := hnib x hx
    exact val_natCast_lt (by omega)
  obtain ⟨g1, g2, g3⟩ := r5 hd hH (by rw [hval]; exact headerBuf_reads hH h17 hB hroom)
  have hc := hH.count
  have hfv : ((hd.length : ℕ) : F p).val = hd.length := val_natCast_lt (by omega)
  rw [hfv] at g2 g3
  have hne := numberOf_eq hp r3 (header_field_len hH 8) (g2 (by omega))
  rw [show (hd.getD 8 []).length = (Spec.Eth.number hd).length from rfl, ← g3 (by omega), if_pos ⟨hn1, hn4⟩] at hne
  have hbl : ((nibblesOf (Spec.Eth.blockHash hd)).map (Nat.cast : ℕ → F p)).length = 64 := by
    rw [List.length_map, nibblesOf_length]; unfold Spec.Eth.blockHash; rw [keccakBytes_length]
  have h64 : (64 : F p).val = 64 := by
    have := val_natCast_lt (p := p) (a := 64) (by omega); simpa using this
  have he : arrayEqual ((nibblesOf (Spec.Eth.blockHash hd)).map (Nat.cast : ℕ → F p)) b.blockHash 64 64 = some 1 := by
    rw [arrayEqual_eq _ _ _ _ (by omega) (by omega) (by omega) (by omega), h64, if_pos le_rfl, hbh, if_pos rfl]
  refine ⟨⟨1, _, s.slotValue⟩, address_parts.2 ⟨b, 1, a, s, hb, he, ?_, ?_, hne, rfl, ?_⟩, rfl, rfl, rfl⟩
  · rw [g1, with_root hra]; exact ha
  · rw [hD.storageRoot, with_root hrs]; exact hs
  · rw [((three_bits hp (Or.inr rfl) (account_bit ha) (storage_bit hs)).2 ⟨rfl, ha1, hs1⟩)]

/-- **C73.** Completeness: for every genuine header (15 to 17 fields within the bounds, number of one to four bytes, not of length 135
modulo 136 unless it has 17 fields), every account that its state trie stores and every slot that the account's storage
trie stores (paths of at least two nodes and at most the maximal depth), there is an accepted proof; it reports the header's
number and the slot's value. -/
theorem C73_address_storage_complete (hp : 2 ^ 128 < p) (Da Ds L LL : ℕ) (hDa : Da ≤ 10) (hDs : Ds ≤ 10) (hL16 : L % 16 = 0)
    (hL1 : 1088 ≤ L) (hL2 : L ≤ 2720) (hLL16 : LL % 16 = 0) (hLL1 : 1064 ≤ LL) (hLL2 : LL ≤ 2720)
    (hd : List (List ℕ)) (hH : Spec.Eth.IsHeader hd) (h17 : hd.length ≤ 17) (hB : Spec.Eth.Bounded hd)
    (hroom : 272 * ((Spec.Eth.encodeHeader hd).length / 136 + 1) ≤ 2176)
    (hok : hd.length = 17 ∨ (Spec.Eth.encodeHeader hd).length % 136 ≠ 135)
    (hn1 : 1 ≤ (Spec.Eth.number hd).length) (hn4 : (Spec.Eth.number hd).length ≤ 4)
    (ts : Trie) (hF : ts.Fixed 64) (hP : ts.Proper) (hts : Spec.Eth.stateRoot hd = ts.root)
    (akey : List ℕ) (hak : akey.length = 64) (hakn : ∀ y ∈ akey, y < 16)
    (ac : Spec.Eth.Account) (hac : ac.Ok) (hbal : ac.balance.length ≤ 12) (hget : ts.get akey = some ac.encode)
    (ha2 : 2 ≤ ts.pathLen akey) (haD : ts.pathLen akey ≤ Da)
    (tt : Trie) (hFt : tt.Fixed 64) (hPt : tt.Proper) (htt : ac.storageRoot = tt.root)
    (skey val : List ℕ) (hsk : skey.length = 64) (hskn : ∀ y ∈ skey, y < 16) (hne : val ≠ []) (h32 : val.length ≤ 32)
    (hgets : tt.get skey = some (encodeString val)) (hs2 : 2 ≤ tt.pathLen skey) (hsD : tt.pathLen skey ≤ Ds) :
    ∃ acc sto : InclusionIn p, Shape 228 acc ∧ Shape 66 sto ∧ sto.lastRlp.length = LL ∧
      acc.key = akey.map Nat.cast ∧ sto.key = skey.map Nat.cast ∧
      acc.depth = ((ts.pathLen akey : ℕ) : F p) ∧ sto.depth = ((tt.pathLen skey : ℕ) : F p) ∧
      ∃ r, checkEthAddressStorageProof Da Ds ((nibblesOf (Spec.Eth.blockHash hd)).map Nat.cast) ((hd.length : ℕ) : F p)
        (((Spec.Eth.encodeHeader hd).length / 136 : ℕ) : F p) ((headerBuf hd).map Nat.cast) acc sto = some r ∧ r.output = 1 ∧
        r.blockNumber = ((Spec.Eth.beValue (Spec.Eth.number hd) : ℕ) : F p) ∧
        r.slotValue = (((Spec.Eth.beValue val % 2 ^ 248 : ℕ) : F p), ((Spec.Eth.beValue val / 2 ^ 248 : ℕ) : F p)) := by
  obtain ⟨acc, a, h1, h2, h3, h4, h5, h6, h7, h8, h9⟩ := C70_account_complete hp Da L LL hDa hL16 hL1 hL2 hLL16 (by omega) hLL2 ts hF hP akey
    hak hakn ac hac hbal hget ha2 haD
  have hv33 := encodeString_length val (by omega)
  obtain ⟨sto, k1, k2, k3, k4, k5, k6, s, k7, k8, -, k9⟩ := C71_storage_complete hp Ds L LL hDs hL16 hL1 hL2 hLL16 hLL1 hLL2 tt hFt hPt skey val
    hsk hskn hne h32 hgets hs2 hsD ((nibblesOf (encodeString val)).map Nat.cast ++ List.replicate (66 - 2 * (encodeString val).length) 0)
    (by rw [List.length_append, List.length_map, nibblesOf_length, List.length_replicate]; omega)
    (by rw [List.take_append_of_le_length (by rw [List.length_map, nibblesOf_length]), List.take_of_length_le (by
      rw [List.length_map, nibblesOf_length])])
  obtain ⟨r, e1, e2, e3, e4⟩ := address_run hp hH h17 hB hroom hok hn1 hn4 (by rw [h3, hts]) h7 h8 h9 (by rw [k3, htt]) k7 k8
  have hrl : ∀ t : Trie, ((nibblesOf t.root).map (Nat.cast : ℕ → F p)).length = 64 := by
    intro t
    rw [List.length_map, nibblesOf_length]; unfold Trie.root; rw [keccakBytes_length]
  refine ⟨acc, sto, ⟨by rw [h1, List.length_map, hak], by rw [h2, accountBuf_length hac hbal], by rw [h3, hrl], fun row hr => by
    rw [h6 row hr]; exact hL16, by rw [h5]; exact hLL16, by rw [h5]; omega⟩, ⟨by rw [k1, List.length_map, hsk], ?_, by rw [k3, hrl],
    fun row hr => by rw [k6 row hr]; exact hL16, by rw [k5]; exact hLL16, by rw [k5]; omega⟩, k5, h1, k1, h4, k4, r, e1, e2, e3,
    by rw [e4, k9]⟩
  rw [k2, List.length_append, List.length_map, nibblesOf_length, List.length_replicate]; omega

/-! ## The forgery -/

/-- A storage trie that stores `v` under the key `i :: rest`. -/
def soloTrie (i : Fin 16) (rest v : List ℕ) : Trie := .branch fun j => if j = i then .leaf rest v else .empty

theorem solo_facts {i : Fin 16} {rest v : List ℕ} (hr : rest.length = 63) (hrn : ∀ x ∈ rest, x < 16) (hv : ∀ b ∈ v, b < 256) :
    (soloTrie i rest v).Fixed 64 ∧ (soloTrie i rest v).Proper ∧ (soloTrie i rest v).get (i.val :: rest) = some v ∧
    (soloTrie i rest v).pathLen (i.val :: rest) = 2 := by
  refine ⟨⟨by omega, fun j => ?_⟩, ?_, ?_, ?_⟩
  · simp only
    split
    · exact ⟨⟨hr, hrn, hv⟩, Or.inr (leaf_ge hr)⟩
    · exact ⟨trivial, Or.inl rfl⟩
  · have hnode : ∀ u, (soloTrie i rest v).Node u → u = soloTrie i rest v ∨ u = .leaf rest v ∨ u = .empty := by
      intro u h
      unfold soloTrie at h ⊢
      cases h with
      | self => exact Or.inl rfl
      | branch h =>
        rename_i j
        by_cases hj : j = i
        · simp only [if_pos hj] at h
          cases h
          exact Or.inr (Or.inl rfl)
        · simp only [if_neg hj] at h
          cases h
          exact Or.inr (Or.inr rfl)
    intro c w
    constructor
    · intro h
      rcases hnode _ h with h | h | h <;> cases h
    · intro h
      rcases hnode _ h with h | h | h
      · cases h
      · cases h; simp at hr
      · cases h
  · unfold soloTrie Trie.get
    simp only [Fin.is_lt, dif_pos, Fin.eta, if_true]
    unfold Trie.get
    simp
  · unfold soloTrie Trie.pathLen
    simp only [Fin.is_lt, dif_pos, Fin.eta, if_true]
    rfl

/-- **C73 (negation).** *Every slot value is provable for every contract in every block*: for every genuine header as in
`C73_address_storage_complete` whose state trie has a branch as its root, every address key, every slot key and every
non-empty value of at most 32 bytes — whatever the state contains —, there is an accepted proof that reports this value. (The
account proof has depth one, which links nothing to the state root, and shows a made-up account whose storage trie
contains the value.) -/
theorem C73_universal_forgery (hp : 2 ^ 128 < p) (Da Ds : ℕ) (hDa2 : 2 ≤ Da) (hDa : Da ≤ 10) (hDs2 : 2 ≤ Ds) (hDs : Ds ≤ 10)
    (hd : List (List ℕ)) (hH : Spec.Eth.IsHeader hd) (h17 : hd.length ≤ 17) (hB : Spec.Eth.Bounded hd)
    (hroom : 272 * ((Spec.Eth.encodeHeader hd).length / 136 + 1) ≤ 2176)
    (hok : hd.length = 17 ∨ (Spec.Eth.encodeHeader hd).length % 136 ≠ 135)
    (hn1 : 1 ≤ (Spec.Eth.number hd).length) (hn4 : (Spec.Eth.number hd).length ≤ 4)
    (f : Fin 16 → Trie) (hF : (Trie.branch f).Fixed 64) (hts : Spec.Eth.stateRoot hd = (Trie.branch f).root)
    (akey : List ℕ) (hak : akey.length = 64) (hakn : ∀ y ∈ akey, y < 16)
    (skey val : List ℕ) (hsk : skey.length = 64) (hskn : ∀ y ∈ skey, y < 16) (hne : val ≠ []) (h32 : val.length ≤ 32)
    (hb : ∀ b ∈ val, b < 256) :
    ∃ acc sto : InclusionIn p, acc.key = akey.map Nat.cast ∧ sto.key = skey.map Nat.cast ∧
      ∃ r, checkEthAddressStorageProof Da Ds ((nibblesOf (Spec.Eth.blockHash hd)).map Nat.cast) ((hd.length : ℕ) : F p)
        (((Spec.Eth.encodeHeader hd).length / 136 : ℕ) : F p) ((headerBuf hd).map Nat.cast) acc sto = some r ∧ r.output = 1 ∧
        r.slotValue = (((Spec.Eth.beValue val % 2 ^ 248 : ℕ) : F p), ((Spec.Eth.beValue val / 2 ^ 248 : ℕ) : F p)) := by
  obtain ⟨i, rest, rfl⟩ := List.exists_cons_of_length_pos (show 0 < skey.length by omega)
  have hi16 : i < 16 := hskn i (List.mem_cons_self ..)
  have hr63 : rest.length = 63 := by rw [List.length_cons] at hsk; omega
  have hv33 := encodeString_length val (by omega)
  obtain ⟨t1, t2, t3, t4⟩ := solo_facts (i := ⟨i, hi16⟩) (v := encodeString val) hr63 (fun x hx => hskn x (List.mem_cons_of_mem _ hx))
    (encodeString_bytes hb (by omega))
  obtain ⟨tt, htt⟩ : ∃ tt, tt = soloTrie ⟨i, hi16⟩ rest (encodeString val) := ⟨_, rfl⟩
  rw [← htt] at t1 t2 t3 t4
  have hroot : tt.root.length = 32 := by unfold Trie.root; exact keccakBytes_length _
  obtain ⟨ac, hac⟩ : ∃ ac : Spec.Eth.Account, ac = ⟨[], [], tt.root, tt.root⟩ := ⟨_, rfl⟩
  have hOk : ac.Ok := by
    rw [hac]
    refine ⟨by simp, by simp, hroot, hroot, ?_⟩
    intro f hf
    simp only [List.mem_cons, List.not_mem_nil, or_false] at hf
    rcases hf with rfl | rfl | rfl | rfl
    · simp
    · simp
    · unfold Trie.root; exact keccakBytes_lt _
    · unfold Trie.root; exact keccakBytes_lt _
  obtain ⟨acc, a, -, h2, h3, -, h7, h8, h9⟩ := C70_depth_one_forgery hp Da 1088 1088 hDa2 hDa (by omega) (by omega) (by omega) (by omega) (by omega)
    (by omega) f hF akey hak hakn ac hOk (by rw [hac]; simp)
  obtain ⟨sto, k1, -, k3, k4, -, -, s, k7, k8, -, k9⟩ := C71_storage_complete hp Ds 1088 1088 hDs (by omega) (by omega) (by omega) (by omega)
    (by omega) (by omega) tt t1 t2 (i :: rest) val
    hsk hskn hne h32 t3 (by rw [t4]) (by rw [t4]; exact hDs2) ((nibblesOf (encodeString val)).map Nat.cast ++ List.replicate (66 - 2 * (encodeString val).length) 0)
    (by rw [List.length_append, List.length_map, nibblesOf_length, List.length_replicate]; omega)
    (by rw [List.take_append_of_le_length (by rw [List.length_map, nibblesOf_length]), List.take_of_length_le (by
      rw [List.length_map, nibblesOf_length])])
  obtain ⟨r, e1, e2, e3, e4⟩ := address_run hp hH h17 hB hroom hok hn1 hn4 (by rw [h3, hts]) h7 h8 h9 (by rw [k3, hac]) k7 k8
  exact ⟨acc, sto, h2, k1, r, e1, e2, by rw [e4, k9]⟩

/-! ## A concrete case -/

/-- A header with a given state root. -/
def demoHeader (root : List ℕ) : List (List ℕ) :=
  [List.replicate 32 200, List.replicate 32 200, List.replicate 20 200, root, List.replicate 32 200, List.replicate 32 200,
    List.replicate 256 200, List.replicate 7 200, [3, 1, 200], List.replicate 4 200, List.replicate 3 200, List.replicate 4 200,
    List.replicate 5 200, List.replicate 32 200, List.replicate 8 200]

theorem demoHeader_facts {root : List ℕ} (h : root.length = 32) (hb : ∀ b ∈ root, b < 256) :
    Spec.Eth.IsHeader (demoHeader root) ∧ Spec.Eth.Bounded (demoHeader root) ∧
    (Spec.Eth.encodeHeader (demoHeader root)).length = 522 := by
  have h33 : (encodeString root).length = 33 := by
    unfold encodeString
    rw [if_neg (by omega), List.length_append, h]
    decide
  have hfl : ((demoHeader root).map encodeString).flatten.length = 519 := by
    rw [List.length_flatten, List.map_map]
    simp only [demoHeader, List.map_cons, List.map_nil, List.sum_cons, List.sum_nil, Function.comp, h33]
    decide +kernel
  refine ⟨⟨(show 15 ≤ 15 from le_rfl), ?_, ?_, by rw [hfl]; norm_num⟩, ?_, ?_⟩
  · intro f hf
    simp only [demoHeader, List.mem_cons, List.not_mem_nil, or_false] at hf
    rcases hf with rfl | rfl | rfl | rfl | rfl | rfl | rfl | rfl | rfl | rfl | rfl | rfl | rfl | rfl | rfl
    all_goals first | exact hb | (intro b hb'; rw [List.eq_of_mem_replicate hb']; omega) | decide
  · simp only [demoHeader, List.take_succ_cons, List.take_zero, List.map_cons, List.map_nil, List.length_replicate, h]
  · intro i hi
    have hi : i < 15 := hi
    interval_cases i
    case «3» =>
      simp only [demoHeader, List.getD_cons_zero, List.getD_cons_succ, h]
      decide
    all_goals
      simp only [demoHeader, List.getD_cons_zero, List.getD_cons_succ, List.length_replicate]
      decide
  · unfold Spec.Eth.encodeHeader encodeList
    rw [List.length_append, hfl]
    decide +kernel

/-- The hypotheses of `C73_address_storage_complete` and `C73_address_storage_sound_partial` can be met: a header, a state trie
with two accounts, whose storage trie has two slots of value 42. -/
example (hp : 2 ^ 128 < p) : ∃ (hd : List (List ℕ)) (ts : Trie) (acc sto : InclusionIn p), Spec.Eth.IsHeader hd ∧
    Spec.Eth.stateRoot hd = ts.root ∧ ts.Fixed 64 ∧ ts.Roomy ∧ Shape 228 acc ∧ Shape 66 sto ∧ 1064 ≤ sto.lastRlp.length ∧
    2 ≤ acc.depth.val ∧ 2 ≤ sto.depth.val ∧ (∀ y ∈ sto.key, y.val < 16) ∧
    ∃ r, checkEthAddressStorageProof 9 9 ((nibblesOf (Spec.Eth.blockHash hd)).map Nat.cast) ((15 : ℕ) : F p) ((3 : ℕ) : F p)
      ((headerBuf hd).map Nat.cast) acc sto = some r ∧ r.output = 1 ∧ r.blockNumber = ((197064 : ℕ) : F p) ∧
      r.slotValue = (((42 : ℕ) : F p), ((0 : ℕ) : F p)) := by
  have hq : (List.replicate 63 3 : List ℕ).length = 63 := by simp
  have hqn : ∀ x ∈ (List.replicate 63 3 : List ℕ), x < 16 := by intro x hx; rw [List.eq_of_mem_replicate hx]; omega
  have hkn : ∀ x ∈ (1 :: List.replicate 63 3 : List ℕ), x < 16 := by
    intro x hx; rcases List.mem_cons.1 hx with rfl | h
    · omega
    · exact hqn x h
  obtain ⟨tt, htt⟩ : ∃ tt, tt = twoLeaves (List.replicate 63 3) (encodeString [42]) := ⟨_, rfl⟩
  have hFt : tt.Fixed 64 := by rw [htt]; exact two_fixed hq hqn (by decide)
  have hlt : tt.pathLen (1 :: List.replicate 63 3) = 2 := by rw [htt]; exact two_pathLen _ _ 1 le_rfl _
  have hroot : ∀ t : Trie, t.root.length = 32 := fun t => by unfold Trie.root; exact keccakBytes_length _
  have hrootb : ∀ t : Trie, ∀ b ∈ t.root, b < 256 := fun t => by unfold Trie.root; exact keccakBytes_lt _
  obtain ⟨ac, hac⟩ : ∃ ac : Spec.Eth.Account, ac = ⟨[5], [1, 44], tt.root, tt.root⟩ := ⟨_, rfl⟩
  have hOk : ac.Ok := by
    rw [hac]
    refine ⟨by simp, by simp, hroot tt, hroot tt, ?_⟩
    intro f hf
    simp only [List.mem_cons, List.not_mem_nil, or_false] at hf
    rcases hf with rfl | rfl | rfl | rfl
    · decide
    · decide
    · exact hrootb tt
    · exact hrootb tt
  have hb12 : ac.balance.length ≤ 12 := by rw [hac]; simp
  have hal : ac.encode.length ≤ 72 := by
    rw [hac]
    unfold Spec.Eth.Account.encode encodeList
    have h33 : (encodeString tt.root).length = 33 := by
      unfold encodeString
      rw [if_neg (by rw [hroot]; omega), List.length_append, hroot]
      decide
    have hfl : [encodeString [5], encodeString [1, 44], encodeString tt.root, encodeString tt.root].flatten.length = 70 := by
      rw [List.length_flatten]
      simp only [List.map_cons, List.map_nil, List.sum_cons, List.sum_nil, h33]
      decide
    simp only
    rw [List.length_append, hfl]
    decide
  obtain ⟨ts, hts⟩ : ∃ ts, ts = twoLeaves (List.replicate 63 3) ac.encode := ⟨_, rfl⟩
  have hFs : ts.Fixed 64 := by rw [hts]; exact two_fixed hq hqn (ac_bytes hOk)
  have hls : ts.pathLen (1 :: List.replicate 63 3) = 2 := by rw [hts]; exact two_pathLen _ _ 1 le_rfl _
  have hRs : ts.Roomy := by
    intro path v hn
    rw [hts] at hn
    rcases two_nodes hn with h | h | h
    · cases h
    · cases h
      have := leaf_len (path := List.replicate 63 3) (v := ac.encode) (mv := 144) (by omega) (by omega) (by omega)
      omega
    · cases h
  obtain ⟨f1, f2, f3⟩ := demoHeader_facts (hroot ts) (hrootb ts)
  have hbv : Spec.Eth.beValue [42] % 2 ^ 248 = 42 ∧ Spec.Eth.beValue [42] / 2 ^ 248 = 0 := by decide +kernel
  have hbn : Spec.Eth.beValue [3, 1, 200] = 197064 := by decide +kernel
  obtain ⟨acc, sto, g1, g2, g3, g4, g5, g6, g7, r, g8, g9, g10, g11⟩ := C73_address_storage_complete hp 9 9 1088 1088 (by omega) (by omega) (by omega)
    (by omega) (by omega) (by omega) (by omega) (by omega) (demoHeader ts.root) f1 (show 15 ≤ 17 by omega) f2 (by rw [f3]; norm_num)
    (Or.inr (by rw [f3]; decide)) (show 1 ≤ 3 by omega) (show 3 ≤ 4 by omega) ts hFs (by rw [hts]; exact two_proper (by decide)) rfl
    (1 :: List.replicate 63 3) (by simp) hkn ac hOk hb12 (by rw [hts]; exact two_get _ _ 1 le_rfl) (by rw [hls])
    (by rw [hls]; omega) tt hFt (by rw [htt]; exact two_proper (by decide)) (by rw [hac]) (1 :: List.replicate 63 3) [42] (by simp) hkn
    (by simp) (by simp) (by rw [htt]; exact two_get _ _ 1 le_rfl) (by rw [hlt]) (by rw [hlt]; omega)
  rw [f3] at g8
  refine ⟨demoHeader ts.root, ts, acc, sto, f1, rfl, hFs, hRs, g1, g2, by rw [g3]; omega, ?_, ?_, ?_, r, g8, g9, ?_, ?_⟩
  · rw [g6, hls, val_natCast_lt (by omega)]
  · rw [g7, hlt, val_natCast_lt (by omega)]
  · rw [g5]
    intro y hy
    obtain ⟨a, ha, rfl⟩ := List.mem_map.1 hy
    have := hkn a ha
    rw [val_natCast_lt (by omega)]; exact this
  · rw [g10]; show ((Spec.Eth.beValue [3, 1, 200] : ℕ) : F p) = _; rw [hbn]
  · rw [g11, hbv.1, hbv.2]

end Verif.Mpt
