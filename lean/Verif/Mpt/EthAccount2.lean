import Verif.Mpt.EthAccount
import Verif.Mpt.CompleteProps

/-! # Property theorems C70, continued: genuine accounts are accepted, and so are forged ones at depth one -/

set_option linter.unusedSectionVars false
set_option linter.unusedVariables false

namespace Verif.Mpt
open Api Rlp Keccak Spec.Keccak Spec.Rlp Spec.Mpt
variable {p : ℕ} [Fact p.Prime]

/-- A value buffer: the encoded account followed by zeros. -/
def accountBuf (a : Spec.Eth.Account) : List (F p) :=
  (nibblesOf a.encode ++ List.replicate (228 - 2 * a.encode.length) 0).map Nat.cast

theorem ac_encode_len {a : Spec.Eth.Account} (ha : a.Ok) (hb : a.balance.length ≤ 12) : 2 * a.encode.length ≤ 228 := by
  have h1 := ha.nonce
  have h3 := ha.storageRoot
  have h4 := ha.codeHash
  have e1 := encodeString_length a.nonce (by omega)
  have e2 := encodeString_length a.balance (by omega)
  have e3 := encodeString_length a.storageRoot (by omega)
  have e4 := encodeString_length a.codeHash (by omega)
  have hfl : ((acFields a).map encodeString).flatten.length ≤ 112 := by
    simp only [acFields, List.map_cons, List.map_nil, List.flatten_cons, List.flatten_nil, List.length_append,
      List.length_nil]
    omega
  have hh := lenHeader_length_le 0xc0 0xf7 ((acFields a).map encodeString).flatten.length 1 (by omega)
  rw [acEncode_eq]
  unfold encodeList
  rw [List.length_append]
  omega

theorem accountBuf_length {a : Spec.Eth.Account} (ha : a.Ok) (hb : a.balance.length ≤ 12) :
    (accountBuf a : List (F p)).length = 228 := by
  have := ac_encode_len ha hb
  unfold accountBuf
  rw [List.length_map, List.length_append, nibblesOf_length, List.length_replicate]
  omega

theorem accountBuf_take {a : Spec.Eth.Account} :
    (accountBuf a : List (F p)).take (2 * a.encode.length) = (nibblesOf a.encode).map Nat.cast := by
  unfold accountBuf
  rw [List.map_append, List.take_left' (by rw [List.length_map, nibblesOf_length])]

/-- The list checker accepts the buffer of a genuine account. -/
theorem account_list_ok (hp : 2 ^ 128 < p) {a : Spec.Eth.Account} (ha : a.Ok) (hb : a.balance.length ≤ 12) :
    ∃ r, rlpArrayCheck acP (accountBuf a : List (F p)) ((4 : ℕ) : F p) = some r ∧ r.out = 1 ∧
      ∀ k < 4, ∃ l f, r.lens[k]? = some l ∧ r.fields[k]? = some f := by
  have hle := ac_encode_len ha hb
  have hM : acP.maxHexLen = 228 := rfl
  have hflat := ac_flat ha
  have hbuf := accountBuf_length (p := p) ha hb
  obtain ⟨r, h1, h2, -, h3⟩ := C12_rlpArrayCheck_complete hp acP accountParams_wf (by decide) (by decide)
    ((acFields a).map encodeString) (acFields a) (encodes_map _) (by
      intro e he
      obtain ⟨f, hf, rfl⟩ := List.mem_map.1 he
      refine encodeString_bytes (ha.bytes f hf) ?_
      have := ac_pay_le ha f hf
      omega) (List.replicate (228 - 2 * a.encode.length) 0) (by
      intro y hy; rw [List.eq_of_mem_replicate hy]; norm_num) (by
      rw [← acEncode_eq, List.length_append, nibblesOf_length, List.length_replicate, hM]; omega) (by
      intro _
      have : acP.arrayPrefixMaxHexLen = 4 := rfl
      have := lenBytes_length_le ((acFields a).map encodeString).flatten.length 1 (by omega)
      omega) (le_refl 4) (by
      intro i pay hi
      have h1 := ha.nonce
      have h3 := ha.storageRoot
      have h4 := ha.codeHash
      have hi4 : i < 4 := (List.getElem?_eq_some_iff.1 hi).1
      interval_cases i <;> obtain rfl := Option.some.inj hi
      · show 0 ≤ _ ∧ _ ≤ 64; omega
      · show 0 ≤ _ ∧ _ ≤ 24; omega
      · show 64 ≤ _ ∧ _ ≤ 64; omega
      · show 64 ≤ _ ∧ _ ≤ 64; omega) (by
      intro i hi
      have hi4 : i < 4 := hi
      left
      interval_cases i <;> decide) (by
      intro i hi hi2
      have : acP.maxFields = 4 := rfl
      have : ((acFields a).map encodeString).length = 4 := rfl
      omega) (accountBuf a) (by
      rw [hM, List.take_of_length_le (by rw [hbuf])]; rfl)
  refine ⟨r, h1, h2, ?_⟩
  intro k hk
  obtain ⟨e1, f, e2, -⟩ := h3 k _ (List.getElem?_eq_getElem (show k < (acFields a).length from hk))
  exact ⟨_, f, e1, e2⟩

/-- An accepted inclusion proof of the encoding of an account is an accepted account proof. -/
theorem account_accept (hp : 2 ^ 128 < p) {D : ℕ} {x : InclusionIn p} {a : Spec.Eth.Account} (ha : a.Ok)
    (hb : a.balance.length ≤ 12) (hx : x.value = accountBuf a) {vl : F p}
    (h : checkInclusionFixed D 64 228 false x = some ⟨1, vl⟩) :
    ∃ r, checkEthAccountProof D x = some r ∧ r.output = 1 ∧ Describes r a := by
  obtain ⟨ac, h1, h2, h3⟩ := account_list_ok hp ha hb
  obtain ⟨l0, f0, a0, b0⟩ := h3 0 (by omega)
  obtain ⟨l1, f1, a1, b1⟩ := h3 1 (by omega)
  obtain ⟨l2, f2, a2, b2⟩ := h3 2 (by omega)
  obtain ⟨l3, f3, a3, b3⟩ := h3 3 (by omega)
  have hr : checkEthAccountProof D x = some ⟨ac.out * 1, l0, f0.take 64, l1, f1.take 24, f2.take 64, f3.take 64⟩ := by
    unfold checkEthAccountProof
    rw [hx, show rlpArrayCheck accountParams (accountBuf a : List (F p)) ((4 : ℕ) : F p) = some ac from h1, h]
    simp only [Option.bind_eq_bind, Option.bind_some, b0, b1, b2, b3, a0, a1]
    rfl
  refine ⟨_, hr, by rw [h2, mul_one], ?_⟩
  exact account_describes hp (by rw [hx, accountBuf_length ha hb]) hr ha (by rw [hx, accountBuf_take])

/-- **C70.** Every account of a state trie has an accepted account proof, which reports the account: for each trie whose
keys have 64 nibbles, each key under which it stores the encoding of an account (balance at most 12 bytes, i.e. below
2⁹⁶ wei) and whose path has between 2 and `D` nodes. -/
theorem C70_account_complete (hp : 2 ^ 128 < p) (D L LL : ℕ) (hD : D ≤ 10) (hL16 : L % 16 = 0) (hL1 : 1088 ≤ L)
    (hL2 : L ≤ 2720) (hLL16 : LL % 16 = 0) (hLL1 : 544 ≤ LL) (hLL2 : LL ≤ 2720)
    (t : Trie) (hF : t.Fixed 64) (hP : t.Proper) (key : List ℕ) (hk : key.length = 64) (hkn : ∀ y ∈ key, y < 16)
    (a : Spec.Eth.Account) (ha : a.Ok) (hb : a.balance.length ≤ 12) (hget : t.get key = some a.encode)
    (hd2 : 2 ≤ t.pathLen key) (hdD : t.pathLen key ≤ D) :
    ∃ (x : InclusionIn p) (r : AccountOut p), x.key = key.map Nat.cast ∧ x.value = accountBuf a ∧
      x.rootHash = (nibblesOf t.root).map Nat.cast ∧ x.depth = ((t.pathLen key : ℕ) : F p) ∧ x.lastRlp.length = LL ∧
      (∀ row ∈ x.nodeRlp, row.length = L) ∧ checkEthAccountProof D x = some r ∧ r.output = 1 ∧ Describes r a := by
  obtain ⟨x, h1, h2, h3, h4, h5, h6, h7⟩ := C47_inclusion_complete hp D 228 L LL hD (by omega) (by omega) (by omega) hL16
    hL1 hL2 hLL16 (by omega) hLL2 (by omega) t hF hP key a.encode hk hkn hget hd2 hdD (ac_encode_len ha hb) (accountBuf a)
    (accountBuf_length ha hb) accountBuf_take
  obtain ⟨r, r1, r2, r3⟩ := account_accept hp ha hb h2 h7
  exact ⟨x, r, h1, h2, h3, h4, h5, h6, r1, r2, r3⟩

/-- **C70 (negation).** Without the hypothesis on the depth an account proof proves nothing: for every state trie whose root
is a branch, every address hash and every account whatsoever — any nonce, any balance below 2⁹⁶ wei, any storage root and
code hash —, there is an accepted proof of depth one that the trie contains that account. -/
theorem C70_depth_one_forgery (hp : 2 ^ 128 < p) (D L LL : ℕ) (hD2 : 2 ≤ D) (hD : D ≤ 10) (hL16 : L % 16 = 0)
    (hL1 : 1088 ≤ L) (hL2 : L ≤ 2720) (hLL16 : LL % 16 = 0) (hLL1 : 544 ≤ LL) (hLL2 : LL ≤ 2720)
    (f : Fin 16 → Trie) (hF : (Trie.branch f).Fixed 64) (key : List ℕ) (hk : key.length = 64) (hkn : ∀ y ∈ key, y < 16)
    (a : Spec.Eth.Account) (ha : a.Ok) (hb : a.balance.length ≤ 12) :
    ∃ (x : InclusionIn p) (r : AccountOut p), Shape 228 x ∧ x.key = key.map Nat.cast ∧
      x.rootHash = (nibblesOf (Trie.branch f).root).map Nat.cast ∧ x.depth = 1 ∧
      checkEthAccountProof D x = some r ∧ r.output = 1 ∧ Describes r a := by
  obtain ⟨x, h1, h2, h3, h4, h5, h6⟩ := C18_depth_one_forgery hp D 228 L LL hD2 hD (by omega) (by omega) (by omega) hL16
    hL1 hL2 hLL16 (by omega) hLL2 (by omega) f hF key hk hkn a.encode (ac_bytes ha) (ac_encode_len ha hb) (accountBuf a)
    (accountBuf_length ha hb) accountBuf_take
  obtain ⟨r, r1, r2, r3⟩ := account_accept hp ha hb h3 h6
  exact ⟨x, r, h1, h2, h4, h5, r1, r2, r3⟩

/-! ## A concrete case -/

/-- An account with nonce 5 and balance 300 wei. -/
def sampleAccount : Spec.Eth.Account := ⟨[5], [1, 44], List.replicate 32 7, List.replicate 32 9⟩

theorem sampleAccount_ok : sampleAccount.Ok :=
  ⟨by decide, by decide, by decide, by decide, by decide +kernel⟩

theorem sample_encode_length : sampleAccount.encode.length = 72 := by decide +kernel

/-- A state trie with two accounts, under keys `0 :: q` and `1 :: q`. -/
def sampleTrie : Trie := twoLeaves (List.replicate 63 3) sampleAccount.encode

theorem sampleTrie_roomy : sampleTrie.Roomy := by
  intro path v hn
  rcases two_nodes hn with h | h | h
  · cases h
  · cases h
    decide +kernel
  · cases h

/-- The hypotheses of `C70_account_complete` and of `C70_account_sound` can be met: there is an accepted proof for the
sample account, and the soundness theorem applies to it. -/
example (hp : 2 ^ 128 < p) : ∃ (x : InclusionIn p) (r : AccountOut p), Shape 228 x ∧ 2 ≤ x.depth.val ∧
    x.rootHash = (nibblesOf sampleTrie.root).map Nat.cast ∧ sampleTrie.Fixed 64 ∧ sampleTrie.Roomy ∧
    checkEthAccountProof 4 x = some r ∧ r.output = 1 ∧ Describes r sampleAccount := by
  have hq : (List.replicate 63 3 : List ℕ).length = 63 := by simp
  have hb := ac_bytes sampleAccount_ok
  have hl := two_pathLen (List.replicate 63 3) sampleAccount.encode 1 le_rfl (List.replicate 63 3)
  have hFx : sampleTrie.Fixed 64 := two_fixed hq (fun y hy => by rw [List.eq_of_mem_replicate hy]; omega) hb
  obtain ⟨x, r, h1, h2, h3, h4, h5, h6, h7, h8, h9⟩ := C70_account_complete hp 4 1088 544 (by omega)
    (by omega) (by omega) (by omega) (by omega) (by omega) (by omega) sampleTrie hFx (two_proper (by decide))
    (1 :: List.replicate 63 3) (by simp)
    (fun y hy => by rcases List.mem_cons.1 hy with rfl | hy; omega; rw [List.eq_of_mem_replicate hy]; omega)
    sampleAccount sampleAccount_ok (by decide) (two_get _ _ 1 le_rfl) (by show 2 ≤ (twoLeaves _ _).pathLen _; rw [hl])
    (by show (twoLeaves _ _).pathLen _ ≤ 4; rw [hl]; omega)
  refine ⟨x, r, ⟨by rw [h1]; simp, by rw [h2, accountBuf_length sampleAccount_ok (by decide)], ?_, ?_, by rw [h5],
    by rw [h5]; omega⟩, ?_, h3, hFx, sampleTrie_roomy, h7, h8, h9⟩
  · rw [h3, List.length_map, nibblesOf_length]; unfold Trie.root; rw [keccakBytes_length]
  · intro row hr; rw [h6 row hr]
  · rw [h4, show sampleTrie.pathLen (1 :: List.replicate 63 3) = 2 from hl, val_natCast_lt (by omega)]

end Verif.Mpt
