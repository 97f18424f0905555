import Verif.Mpt.EthStorage
import Verif.Mpt.EthAccount

/-! # Property theorems C71: soundness of `CheckEthStorageProof` -/

set_option linter.unusedSectionVars false
set_option linter.unusedVariables false

namespace Verif.Mpt
open Api Rlp Keccak Spec.Keccak Spec.Rlp Spec.Mpt
variable {p : ℕ} [Fact p.Prime]

theorem storage_parts {D : ℕ} {x : InclusionIn p} {r : StorageOut p} (h : checkEthStorageProof D x = some r) :
    ∃ inc, checkInclusionFixed D 64 66 true x = some inc ∧ slotValueOf x.value = some r.slotValue ∧
      r.output = inc.output ∧ r.valueLength = inc.valueLength - 2 := by
  unfold checkEthStorageProof at h
  obtain ⟨inc, hi, h⟩ := Option.bind_eq_some_iff.1 h
  obtain ⟨v, hv, h⟩ := Option.bind_eq_some_iff.1 h
  obtain rfl := (Option.some.inj h).symm
  exact ⟨inc, hi, hv, rfl, rfl⟩

/-- The first item of a branch node, seen through the extension window. -/
theorem branch_first {ns : List ℕ} {f : Fin 16 → Trie} (hf : ∀ i, f i = .empty ∨ 32 ≤ (f i).encode.length)
    (h : Shows ns (.branch f)) (hnib : ∀ x ∈ ns, x < 16) (hW : 136 ≤ ns.length) :
    itemNibbles (cyc (ns.take 136)) 0 = nibblesOf (refPay (f 0)) := by
  obtain ⟨rest, hns⟩ := h
  obtain ⟨K, hK⟩ : ∃ K, K = kpad (Trie.branch f).encode.length := ⟨_, rfl⟩
  rw [← hK] at hns
  obtain ⟨L, hL⟩ : ∃ L, L = (branchItems f).flatten.length := ⟨_, rfl⟩
  have hfl := branchItems_flatten f
  rw [← hL] at hfl
  have hH := lenHeader_length_le 0xc0 0xf7 L 2 (by omega)
  have h1 := refPay_length (f 0)
  have h2 := encodeString_length (refPay (f 0)) (by omega)
  obtain ⟨tl, htl⟩ : ∃ tl, branchItems f = encodeString (refPay (f 0)) :: tl := ⟨_, rfl⟩
  have hr := win_reads (X := lenHeader 0xc0 0xf7 L ++ encodeString (refPay (f 0)))
    (Y := tl.flatten ++ K) (rest := rest) (W := 136) (ns := ns) (by
      rw [hns]
      congr 2
      rw [branch_encode hf]
      conv_lhs => rw [encodeList, ← hL, htl]
      rw [List.flatten_cons, List.append_assoc, List.append_assoc, List.append_assoc]) (by rw [List.length_append]; omega) hW
  rw [nibblesOf_append, readsAt_append] at hr
  have hS : ∀ k, cyc (ns.take 136) k < 16 := cyc_lt (fun x hx => hnib x (List.mem_of_mem_take hx))
  obtain ⟨-, -, ho, -⟩ := list_start hS (by omega) hr.1
  have hr2 := hr.2
  rw [nibblesOf_length, Nat.zero_add, ← ho] at hr2
  have hi := item_read _ _ _ (refPay (f 0)) (Or.inl rfl) (by omega) hr2
  exact itemNibbles_of_reads hi.1 hi.2.2.2.1

theorem get_bytes {t : Trie} : ∀ {n : ℕ} {k v : List ℕ}, t.Fixed n → t.get k = some v → ∀ b ∈ v, b < 256 := by
  induction t with
  | empty => intro n k v _ h; simp [Trie.get] at h
  | leaf path w =>
    intro n k v hF h
    unfold Trie.get at h
    split at h
    · obtain rfl := Option.some.inj h; exact hF.2.2
    · cases h
  | ext path c ih =>
    intro n k v hF h
    unfold Trie.get at h
    split at h
    · exact ih hF.2.2.1 h
    · cases h
  | branch f ih =>
    intro n k v hF h
    cases k with
    | nil => simp [Trie.get] at h
    | cons a k =>
      unfold Trie.get at h
      simp only at h
      split at h
      · exact ih _ (hF.2 _).1 h
      · cases h

/-- The last node supplied can defeat the storage check: a branch with an empty child, an extension, or a branch whose first
reference happens to look like an extension path. -/
def Defeats (key : List (F p)) (d : ℕ) (u : Trie) : Prop :=
  (∃ f, ∃ i : Fin 16, u = .branch f ∧ (key.getD (d - 1) 0).val = i.val ∧ f i = .empty) ∨
  (∃ path c, u = .ext path c) ∨
  (∃ f, u = .branch f ∧ f 0 ≠ .empty ∧ ((nibblesOf (keccakBytes (f 0).encode)).take 1 = [1] ∨
    (nibblesOf (keccakBytes (f 0).encode)).take 2 = [0, 0]))

theorem prefix_cases {S : ℕ → ℕ} {pl : ℕ} (hpl : pl ≤ payLen S (itemOffset S 0)) (h : PrefixOk S 1 0 pl) :
    ((itemNibbles S 0).take 1 = [1] ∨ (itemNibbles S 0).take 2 = [0, 0]) ∧ itemNibbles S 0 ≠ [] := by
  have h' := prefixOk_hex (lf := false) hpl (by simpa using h)
  unfold hexPrefixNibbles at h'
  simp only at h'
  split at h'
  · refine ⟨Or.inl ?_, ?_⟩
    · rw [h']; rfl
    · rw [h']; simp
  · refine ⟨Or.inr ?_, ?_⟩
    · rw [h']; rfl
    · rw [h']; simp

/-- The override can only fire on a branch or an extension. -/
theorem override_node (hp : 2 ^ 128 < p) {x : InclusionIn p} {c : Trie} {n : ℕ} (hShow : Shows (x.lastRlp.map ZMod.val) c)
    (hcF : c.Fixed n) (hn : n ≤ 63) (hRc : ∀ path v, c = .leaf path v → c.encode.length ≤ 400 ∧ c.encode.length % 136 ≤ 121)
    (hnib : ∀ y ∈ x.lastRlp.map ZMod.val, y < 16) (hl : 1064 ≤ x.lastRlp.length)
    (hkn : (x.key.getD (x.depth.val - 1) 0).val < 16) {sel : List (F p)} {selLen : F p}
    (hpl : x.leafPl.val ≤ payLen (cyc ((x.lastRlp.map ZMod.val).take 136)) (itemOffset (cyc ((x.lastRlp.map ZMod.val).take 136)) 0))
    (h : BranchNE (cyc ((x.lastRlp.map ZMod.val).take 1064)) (x.key.getD (x.depth.val - 1) 0).val ∨
      ExtNE (cyc ((x.lastRlp.map ZMod.val).take 136)) x.leafPl.val sel selLen) : Defeats x.key x.depth.val c := by
  have hl' : (x.lastRlp.map ZMod.val).length = x.lastRlp.length := List.length_map ..
  rcases h with ⟨hv, h0⟩ | ⟨hpk, -⟩
  · obtain ⟨f, rfl, hi⟩ := branch_true hShow hcF (by omega) hRc hnib (by omega) hv
    left
    refine ⟨f, ⟨_, hkn⟩, rfl, rfl, ?_⟩
    have := (hi ⟨_, hkn⟩).1
    simp only at this
    rw [h0] at this
    have hz : (refPay (f ⟨_, hkn⟩)).length = 0 := by omega
    rcases (hcF.2 ⟨_, hkn⟩).2 with he | he
    · exact he
    · exfalso
      unfold refPay at hz
      rw [if_neg (by omega), keccakBytes_length] at hz
      omega
  · obtain ⟨hcs, hne⟩ := prefix_cases hpl hpk
    cases c with
    | empty =>
      exfalso
      obtain ⟨rest, hns⟩ := hShow
      rw [empty_encode, List.length_singleton] at hns
      obtain ⟨tl, htl⟩ : ∃ tl, kpad 1 = 1 :: tl := ⟨_, rfl⟩
      have hr := win_reads (X := [0x80] ++ [1]) (Y := tl) (ns := x.lastRlp.map ZMod.val) (rest := rest) (by
        rw [hns, htl]; rfl) (W := 136) (by simp) (by omega)
      rw [nibblesOf_append, readsAt_append] at hr
      have hb := byteAt_of_reads hr.1
      have ho : itemOffset (cyc ((x.lastRlp.map ZMod.val).take 136)) 0 = 2 := by
        show listHdr _ = _
        rw [hb]; rfl
      have hb2 := byteAt_of_reads hr.2
      have hb2 : byteAt (cyc ((x.lastRlp.map ZMod.val).take 136)) 2 = 1 := hb2
      have hp2 : payLen (cyc ((x.lastRlp.map ZMod.val).take 136)) 2 = 2 := by
        unfold payLen; rw [hb2]; rfl
      have hh2 : hdrLen (byteAt (cyc ((x.lastRlp.map ZMod.val).take 136)) 2) = 0 := by rw [hb2]; rfl
      have r0 := hr.2 0 (by simp [nibblesOf])
      have r1 := hr.2 1 (by simp [nibblesOf])
      have r0 : cyc ((x.lastRlp.map ZMod.val).take 136) 2 = 0 := r0
      have r1 : cyc ((x.lastRlp.map ZMod.val).take 136) 3 = 1 := r1
      have hitem : itemNibbles (cyc ((x.lastRlp.map ZMod.val).take 136)) 0 = [0, 1] := by
        unfold itemNibbles
        rw [ho, hp2, hh2]
        show [cyc _ 2, cyc _ 3] = _
        rw [r0, r1]
      rw [hitem] at hcs
      rcases hcs with h | h <;> simp at h
    | leaf path v =>
      exfalso
      obtain ⟨rest, hns⟩ := hShow
      obtain ⟨h1, h2⟩ := hRc path v rfl
      have h3 := leaf_v_len h1
      rw [leaf_encode] at hns h1 h2
      obtain ⟨hF1, hF2, hF3⟩ := hcF
      have e1 := encodeString_length (hexPrefix true path) (by rw [hexPrefix_length]; omega)
      rw [hexPrefix_length] at e1
      have e2 := strHdr_length v 2 (by omega)
      have e3 : [encodeString (hexPrefix true path), encodeString v].flatten.length ≤ 400 := by
        unfold encodeList at h1; rw [List.length_append] at h1; omega
      have e4 := lenHeader_length_le 0xc0 0xf7 _ 2 (show
        [encodeString (hexPrefix true path), encodeString v].flatten.length < 256 ^ 2 by omega)
      have := (two_first hns hnib (W := 136) (by omega) (by rw [hexPrefix_length]; omega) h3 (by omega) (by omega)).1
      rw [nibblesOf_hexPrefix _ _ hF2] at this
      rw [this] at hcs
      unfold hexPrefixNibbles at hcs
      simp only at hcs
      split at hcs
      · rcases hcs with h | h <;> simp at h
      · rcases hcs with h | h <;> simp at h
    | ext path ch => exact Or.inr (Or.inl ⟨path, ch, rfl⟩)
    | branch f =>
      right; right
      have hb := branch_first (fun i => (hcF.2 i).2) hShow hnib (by omega)
      rw [hb] at hcs hne
      have hne' : refPay (f 0) = keccakBytes (f 0).encode ∧ f 0 ≠ .empty := by
        rcases (hcF.2 0).2 with he | he
        · exfalso
          apply hne
          rw [he]
          have : refPay .empty = [] := by
            unfold refPay; rw [if_pos (by rw [empty_encode]; decide)]
          rw [this]; rfl
        · refine ⟨by unfold refPay; rw [if_neg (by omega)], ?_⟩
          intro h0
          rw [h0, empty_encode] at he
          simp at he
      rw [hne'.1] at hcs
      exact ⟨f, rfl, hne'.2, hcs⟩

/-- **C71.** Soundness of `CheckEthStorageProof` (partial): if it accepts a proof of depth two or more against the root hash of a
storage trie, then the claimed value is the value that the trie stores under the slot key and the reported slot value
is its decoding, or the claimed value is the zero value (reported as 0), or one of the supplied buffers is a Keccak
collision with a node of the trie, or *the last supplied node is a branch or an extension of the trie*. What is
missing: in the last case the claimed value is not checked at all; see `C71_extension_forgery`, `C71_branch_forgery`. -/
theorem C71_storage_sound_partial (hp : 2 ^ 128 < p) (D : ℕ) (hD2 : 2 ≤ D) (hD : D ≤ 10) (x : InclusionIn p) (hsh : Shape 66 x)
    (hl : 1064 ≤ x.lastRlp.length) (hkn : ∀ y ∈ x.key, y.val < 16)
    (t : Trie) (hF : t.Fixed 64) (hR : t.Roomy) (hroot : x.rootHash = (nibblesOf t.root).map Nat.cast) (r : StorageOut p)
    (h : checkEthStorageProof D x = some r) (hout : r.output = 1) (hd2 : 2 ≤ x.depth.val) :
    CollidesWith x t ∨
    (∃ v, t.get (x.key.map ZMod.val) = some v ∧ x.value.take (2 * v.length) = (nibblesOf v).map Nat.cast ∧
      r.valueLength + 2 = ((2 * v.length : ℕ) : F p) ∧
      ∀ val, val ≠ [] → val.length ≤ 32 → v = encodeString val →
        r.slotValue = (((Spec.Eth.beValue val % 2 ^ 248 : ℕ) : F p), ((Spec.Eth.beValue val / 2 ^ 248 : ℕ) : F p))) ∨
    (x.value.take 2 = [8, 0] ∧ (x.value.drop 2).take 64 = List.replicate 64 0 ∧ r.slotValue = (0, 0)) ∨
    (∃ u, t.Node u ∧ Shows (x.lastRlp.map ZMod.val) u ∧ Defeats x.key x.depth.val u) := by
  obtain ⟨inc, hinc, hsv, ho, hvl⟩ := storage_parts h
  have hl' : (x.lastRlp.map ZMod.val).length = x.lastRlp.length := List.length_map ..
  have hkd : ∀ d, (x.key.getD d 0).val < 16 := by
    intro d
    rcases Nat.lt_or_ge d x.key.length with h | h
    · rw [List.getD_eq_getElem _ _ h]; exact hkn _ (List.getElem_mem h)
    · rw [List.getD_eq_default _ _ h, ZMod.val_zero]; omega
  have hov : ∀ lo vl, lastNodeCheck D 64 66 true x = some (lo, vl) → D ≤ x.starts.length →
      (∀ y ∈ x.lastRlp.map ZMod.val, y < 16) → x.depth.val ≤ D →
      ∃ lo' sel, ∃ selLen : F p, lastNodeCheck D 64 66 false x = some (lo', vl) ∧
        x.leafPl.val ≤ payLen (cyc ((x.lastRlp.map ZMod.val).take 136)) (itemOffset (cyc ((x.lastRlp.map ZMod.val).take 136)) 0) ∧
        ((lo = 4 ∧ (BranchNE (cyc ((x.lastRlp.map ZMod.val).take 1064)) (x.key.getD (x.depth.val - 1) 0).val ∨
          ExtNE (cyc ((x.lastRlp.map ZMod.val).take 136)) x.leafPl.val sel selLen)) ∨ lo = lo') := by
    intro lo vl hlc hst hnib hdD
    obtain ⟨lo', sel, selLen, g1, g2, g3, g4, g5, g6⟩ := last_true_parts hp hD hsh.key hst (by omega) hdD hlc
    rw [storageOverride_eq hp x sel selLen lo' _ _ (cells_window hnib hl (by omega)) (cells_window hnib (by omega) (by omega))
      hsh.key (by omega) (by omega) g3] at g2
    split at g2
    swap
    · cases g2
    rename_i hcond
    have g2 := Option.some.inj g2
    refine ⟨lo', sel, selLen, g1, hcond.2.2.2.1, ?_⟩
    split at g2
    · rename_i hne; exact Or.inl ⟨g2.symm, hne⟩
    · exact Or.inr g2.symm
  obtain ⟨lo, hlast, rfl, hst, hdD, hnib, hor⟩ := accept_parts hp hD2 hD le_rfl (by omega) hsh hinc (by rw [← ho]; exact hout) hd2
    (fun lo vl hlc hst hn hdD => by
      obtain ⟨lo', sel, selLen, g1, -, g2⟩ := hov lo vl hlc hst hn hdD
      rcases g2 with ⟨rfl, -⟩ | rfl
      · exact ⟨4, le_rfl, by norm_num⟩
      · exact (last_facts hp hD le_rfl (by omega) hsh hn hst (by omega) hdD g1).2.1) hF hR hroot
  rcases hor with hc | ⟨c, hShow, hL, hlt, hs64, hcF⟩
  · exact Or.inl hc
  obtain ⟨lo', sel, selLen, g1, gpl, g2⟩ := hov 4 _ hlast hst hnib hdD
  have hRc : ∀ path v, c = .leaf path v → c.encode.length ≤ 400 ∧ c.encode.length % 136 ≤ 121 := by
    rintro path v rfl
    exact hR path v hL.1
  rcases g2 with ⟨-, hne⟩ | rfl
  · right; right; right
    exact ⟨c, hL.1, hShow, override_node hp hShow hcF (by omega) hRc hnib hl (hkd _) gpl hne⟩
  rcases leaf_end hp hD le_rfl (by omega) (by omega) hsh hst hd2 hdD hnib g1 hR hShow hL hlt hs64 hcF with ⟨v, a1, a2, a3⟩ | ⟨hz, -⟩
  · right; left
    refine ⟨v, a1, a3, by rw [hvl, a2]; ring, ?_⟩
    rintro val hne h32 rfl
    have hb : ∀ b ∈ val, b < 256 := by
      intro b hb
      by_contra hge
      have hget := get_bytes hF a1
      apply hge
      apply hget
      unfold encodeString
      split
      · exact hb
      · exact List.mem_append_right _ hb
    have := C71_slot_value hp val hne h32 hb x.value hsh.value a3
    rw [hsv] at this
    exact Option.some.inj this
  · right; right; left
    have := C71_slot_zero hp x.value hsh.value hz
    rw [hsv] at this
    exact ⟨hz.1, hz.2, Option.some.inj this⟩

end Verif.Mpt
