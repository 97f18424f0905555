import Verif.Mpt.EthStorage3

/-! # Property theorems C71: forged values through a branch, and concrete instances -/

set_option linter.unusedSectionVars false
set_option linter.unusedVariables false

namespace Verif.Mpt
open Api Rlp Keccak Spec.Keccak Spec.Rlp Spec.Mpt
variable {p : ℕ} [Fact p.Prime]

/-- The first two items of a branch node, seen through a two-item checker's window. -/
theorem branch_two {ns : List ℕ} {f : Fin 16 → Trie} {W : ℕ} (hf : ∀ i, f i = .empty ∨ 32 ≤ (f i).encode.length)
    {Y rest : List ℕ} (hns : ns = nibblesOf ((Trie.branch f).encode ++ Y) ++ rest) (hnib : ∀ x ∈ ns, x < 16) (h136 : 136 ≤ W)
    (hW : W ≤ ns.length) :
    ahPrefix1 (byteAt (cyc (ns.take W)) 0) ≤ 4 ∧
    payLen (cyc (ns.take W)) (itemOffset (cyc (ns.take W)) 0) = 2 * (refPay (f 0)).length ∧
    payLen (cyc (ns.take W)) (itemOffset (cyc (ns.take W)) 1) = 2 * (refPay (f 1)).length ∧
    lenOfLen (byteAt (cyc (ns.take W)) (itemOffset (cyc (ns.take W)) 0)) = 0 ∧
    lenOfLen (byteAt (cyc (ns.take W)) (itemOffset (cyc (ns.take W)) 1)) = 0 := by
  obtain ⟨L, hL⟩ : ∃ L, L = (branchItems f).flatten.length := ⟨_, rfl⟩
  have hfl := branchItems_flatten f
  rw [← hL] at hfl
  have hH := lenHeader_length_le 0xc0 0xf7 L 2 (by omega)
  have h1 := refPay_length (f 0)
  have h1' := refPay_length (f 1)
  have h2 := encodeString_length (refPay (f 0)) (by omega)
  have hG := strHdr_length (refPay (f 1)) 1 (by omega)
  obtain ⟨t, ht⟩ := strHdr_prefix (refPay (f 1))
  obtain ⟨t', ht'⟩ := strHdr_prefix (refPay (f 0))
  obtain ⟨tl, htl⟩ : ∃ tl, branchItems f = encodeString (refPay (f 0)) :: encodeString (refPay (f 1)) :: tl := ⟨_, rfl⟩
  have hr := win_reads (X := lenHeader 0xc0 0xf7 L ++ encodeString (refPay (f 0)) ++ strHdr (refPay (f 1)))
    (Y := t ++ tl.flatten ++ Y) (rest := rest) (W := W) (ns := ns) (by
      rw [hns]
      congr 2
      rw [branch_encode hf]
      conv_lhs => rw [encodeList, ← hL, htl]
      rw [List.flatten_cons, List.flatten_cons, ht]
      simp only [List.append_assoc]) (by rw [List.length_append, List.length_append]; omega) hW
  have hS : ∀ k, cyc (ns.take W) k < 16 := cyc_lt (fun x hx => hnib x (List.mem_of_mem_take hx))
  set S := cyc (ns.take W) with hSd
  rw [nibblesOf_append, readsAt_append, nibblesOf_append, readsAt_append] at hr
  obtain ⟨⟨hr1, hr2⟩, hr3⟩ := hr
  obtain ⟨hisl, -, ho, hlh⟩ := list_start hS (by omega) hr1
  rw [nibblesOf_length, Nat.zero_add, ← ho] at hr2
  have hi := item_read S _ _ _ (Or.inl rfl) (by omega) hr2
  have ho1 : itemOffset S 1 = itemOffset S 0 + 2 * (encodeString (refPay (f 0))).length := by
    show itemOffset S 0 + itemLen S (itemOffset S 0) = _
    rw [hi.2.1]
  rw [List.length_append, nibblesOf_length, nibblesOf_length, Nat.zero_add, ← ho, ← ho1] at hr3
  have hi2 := str_read (by omega) hr3
  have hr2' := hr2
  rw [ht', nibblesOf_append, readsAt_append] at hr2'
  refine ⟨?_, hi.1, hi2.1, str_hdr_byte (by omega) hr2'.1, str_hdr_byte (by omega) hr3⟩
  rw [listHdr_eq] at hlh
  omega

/-- The leaf and extension checks are satisfiable on the row of a branch. -/
theorem two_sat_branch (hp : 2 ^ 128 < p) {LL W : ℕ} {f : Fin 16 → Trie} (a : ArrayCheck) (hwf : a.WF)
    (h2 : a.maxFields = 2) (hM : a.maxHexLen = W) (hapm : 4 ≤ a.arrayPrefixMaxHexLen) (hmn : ∀ i < 2, mn a i = 0)
    (hmx : 64 ≤ mx a 0) (hf : ∀ i, f i = .empty ∨ 32 ≤ (f i).encode.length) (hb : ∀ b ∈ (Trie.branch f).encode, b < 256)
    (hLL : W ≤ LL) (hW : 136 ≤ W) (hW2 : W ≤ 1064) (hfit : padLen (.branch f) ≤ LL) :
    (rlpArrayCheck a ((rowNibs LL (.branch f)).map (Nat.cast : ℕ → F p)) ((2 : ℕ) : F p)).isSome ∧
    CellsOf (((rowNibs LL (.branch f)).map (Nat.cast : ℕ → F p)).take W) W (cyc ((rowNibs LL (.branch f)).take W)) ∧
    payLen (cyc ((rowNibs LL (.branch f)).take W)) (itemOffset (cyc ((rowNibs LL (.branch f)).take W)) 0) =
      2 * (refPay (f 0)).length ∧
    payLen (cyc ((rowNibs LL (.branch f)).take W)) (itemOffset (cyc ((rowNibs LL (.branch f)).take W)) 1) =
      2 * (refPay (f 1)).length := by
  have hlen := rowNibs_length hfit
  have hnib := rowNibs_lt (L := LL) hb
  have hc : CellsOf (((rowNibs LL (.branch f)).map (Nat.cast : ℕ → F p)).take W) W (cyc ((rowNibs LL (.branch f)).take W)) := by
    rw [← List.map_take]
    exact cells_cyc (fun x hx => hnib x (List.mem_of_mem_take hx)) (by rw [List.length_take]; omega) (by omega)
  obtain ⟨t1, t2, t3, t4, t5⟩ := branch_two (W := W) hf (ns := rowNibs LL (.branch f)) rfl hnib hW (by omega)
  have hl0 := refPay_length (f 0)
  refine ⟨?_, hc, t2, t3⟩
  have := ac_sat hp a hwf ((rowNibs LL (.branch f)).map (Nat.cast : ℕ → F p)) (cyc ((rowNibs LL (.branch f)).take W)) (by rw [hM]; exact hc)
    (by omega) (by omega) (by omega) (by rw [h2]; exact hmn)
    (by intro i hi; obtain rfl : i = 0 := by omega
        exact hmx)
    (by
      intro i hi
      have : i = 0 ∨ i = 1 := by omega
      rcases this with rfl | rfl
      · exact t4
      · exact t5)
    (by intro i hi; obtain rfl : i = 0 := by omega
        rw [t2]; omega)
  rwa [h2] at this

/-- **C71 (negation).** *Any value can be proved for any slot that is absent because a branch has no child for it*: take any
storage trie whose root is a branch with a branch as its `i`-th child, any key that starts with `i, j` where the inner
branch has no `j`-th child (so the slot is not stored, its value is zero), and any value; there is a storage proof
of depth 2 against the root hash of the trie that is accepted and reports that value. -/
theorem C71_branch_forgery (hp : 2 ^ 128 < p) (D L LL : ℕ) (hD2 : 2 ≤ D) (hD : D ≤ 10) (hL16 : L % 16 = 0) (hL1 : 1088 ≤ L)
    (hL2 : L ≤ 2720) (hLL16 : LL % 16 = 0) (hLL1 : 1088 ≤ LL) (hLL2 : LL ≤ 2720)
    (f g : Fin 16 → Trie) (hF : (Trie.branch f).Fixed 64) (i j : Fin 16) (hi : f i = .branch g) (hj : g j = .empty)
    (key : List ℕ) (hk : key.length = 64) (hkn : ∀ x ∈ key, x < 16) (hk0 : key[0]? = some i.val) (hk1 : key[1]? = some j.val)
    (val : List ℕ) (hne : val ≠ []) (h32 : val.length ≤ 32) (hb : ∀ b ∈ val, b < 256) (value : List (F p)) (hvl : value.length = 66)
    (hvv : value.take (2 * (encodeString val).length) = (nibblesOf (encodeString val)).map Nat.cast) :
    (Trie.branch f).get key = none ∧
    ∃ x : InclusionIn p, Shape 66 x ∧ x.key = key.map Nat.cast ∧ x.value = value ∧
      x.rootHash = (nibblesOf (Trie.branch f).root).map Nat.cast ∧ x.depth = 2 ∧ x.lastRlp.length = LL ∧
      ∃ r, checkEthStorageProof D x = some r ∧ r.output = 1 ∧
        r.slotValue = (((Spec.Eth.beValue val % 2 ^ 248 : ℕ) : F p), ((Spec.Eth.beValue val / 2 ^ 248 : ℕ) : F p)) := by
  have hfi := (hF.2 i).1
  rw [hi] at hfi
  have hg : ∀ i, g i = .empty ∨ 32 ≤ (g i).encode.length := fun i => (hfi.2 i).2
  have hel := branch_len hg
  have hbytes : ∀ b ∈ (Trie.branch g).encode, b < 256 := by
    have hfl := branchItems_flatten g
    rw [branch_encode hg]; exact encodeList_bytes (branchItems_bytes g) (by omega)
  have hfit : padLen (Trie.branch g) ≤ LL := by unfold padLen; omega
  constructor
  · obtain ⟨a, k1, rfl⟩ := List.exists_cons_of_length_pos (show 0 < key.length by omega)
    obtain ⟨b, k2, rfl⟩ := List.exists_cons_of_length_pos (show 0 < k1.length by rw [List.length_cons] at hk; omega)
    obtain rfl : a = i.val := by simpa using hk0
    obtain rfl : b = j.val := by simpa using hk1
    unfold Trie.get
    simp only [Fin.is_lt, dif_pos, Fin.eta]
    rw [hi]
    unfold Trie.get
    simp only [Fin.is_lt, dif_pos, Fin.eta]
    rw [hj]
    rfl
  refine forge_run hp hD2 hD hL16 hL1 hL2 hLL16 (by omega) hLL2 hF (by rw [hi]; exact fun h => by cases h) (by rw [hi]; exact hfit)
    (by rw [hi]; exact hbytes) hk hkn (by rw [List.head?_eq_getElem?]; exact hk0) hvl 0 (C71_slot_value hp val hne h32 hb value hvl hvv) ?_
  intro x hxk hxv hxd hxp hxl sel len hsel hlen
  rw [hi] at hxl
  have hdv : ((2 : ℕ) : F p).val = 2 := val_natCast_lt (by omega)
  have hxp0 : x.leafPl.val = 0 := by rw [hxp]; simp
  have hxk1 : (x.key.getD (x.depth.val - 1) 0).val = j.val := by
    rw [hxd, hdv, hxk, List.getD_eq_getElem?_getD, List.getElem?_map, show (2 : ℕ) - 1 = 1 from rfl, hk1]
    exact val_natCast_lt (by have := j.isLt; omega)
  obtain ⟨l1, l2, l3, l4⟩ := two_sat_branch hp (LL := LL) (W := 140) (leafParams 64 66)
    (leafParams_wf 64 66 (by norm_num) (by norm_num) (by norm_num)) rfl rfl (by decide) (by decide) (by decide) hg hbytes
    (by omega) (by omega) (by omega) hfit
  obtain ⟨e1, e2, e3, e4⟩ := two_sat_branch hp (LL := LL) (W := 136) (extParams 64)
    (extParams_wf 64 (by norm_num)) rfl rfl (by decide) (by decide) (by decide) hg hbytes
    (by omega) (by omega) (by omega) hfit
  obtain ⟨pad, q1, q2, q3⟩ := row_window hfit (show 1064 ≤ LL by omega) (by omega) hbytes
  have hrl : x.lastRlp.take 1064 = (nibblesOf (Trie.branch g).encode ++ pad).map (Nat.cast : ℕ → F p) := by
    rw [hxl, ← List.map_take, q2]
  obtain ⟨⟨r, hr⟩, hc, hLR⟩ := branch_sat hp g pad q1 hg q3 x.lastRlp hrl
  have h0 := refPay_length (g 0)
  have h1 := refPay_length (g 1)
  have T : ∀ (sel : List (F p)) (len : F p), sel.length = 64 → ∃ lc, checkLeaf 64 66 len sel x.value x.lastRlp x.leafPl = some lc ∧
      lc.valueLength = ((2 * (refPay (g 1)).length : ℕ) : F p) := by
    intro sel len hsel
    have hlm : leafMaxRlp 64 66 = 140 := rfl
    rw [checkLeaf_eq hp 64 66 (by norm_num) (by norm_num) le_rfl len sel x.value x.lastRlp x.leafPl _
      (by rw [hxl, hlm]; exact l2) hsel (by rw [hxv, hvl]), if_pos]
    · exact ⟨_, rfl, by simp only; rw [l4]⟩
    · rw [hxl, hxp0, l3, l4]
      refine ⟨l1, ⟨?_, ?_, ?_⟩, by omega⟩ <;> omega
  obtain ⟨lc, c1, c2⟩ := T sel len hsel
  refine ⟨lc, c1, ?_, ?_⟩
  · rw [storageOverride_eq hp x sel len lc.output _ _ hc (by rw [hxl]; exact e2) (by rw [hxk, List.length_map, hk])
      (by rw [hxd, hdv]; omega) (by rw [hxd, hdv]; omega) hsel, if_pos, if_pos]
    · left
      rw [hxk1]
      have hv := hLR.verdict
      rw [branchItems_length] at hv
      refine ⟨hv, ?_⟩
      rw [(hLR.item j.val _ (branchPays_get g j)).1, hj]
      have : refPay .empty = [] := by
        unfold refPay; rw [if_pos (by rw [empty_encode]; decide)]
      rw [this]; rfl
    · rw [hxk1, hxp0, hr, hxl, e3]
      have := j.isLt
      refine ⟨⟨rfl, by omega⟩, e1, ?_, ?_, ?_⟩ <;> omega
  · intro sel' len' hs' hl' lc' hlc'
    obtain ⟨lc2, c3, c4⟩ := T sel' len' hs'
    rw [hlc'] at c3
    obtain rfl := Option.some.inj c3
    rw [c4, c2]

/-! ## Concrete instances -/

/-- A storage trie: under nibble 0 a branch with two leaves, under nibble 1 an extension to such a branch. -/
def demoTrie (v : List ℕ) : Trie := .branch fun i =>
  if i.val = 0 then .branch fun j => if j.val ≤ 1 then .leaf (List.replicate 62 7) v else .empty
  else if i.val = 1 then .ext [3] (.branch fun j => if j.val ≤ 1 then .leaf (List.replicate 61 7) v else .empty)
  else .empty

theorem leaf_ge' {q v : List ℕ} (hq : 61 ≤ q.length) : 32 ≤ (Trie.leaf q v).encode.length := by
  rw [leaf_encode]
  unfold encodeList
  have h1 := encodeString_ge (hexPrefix true q)
  rw [hexPrefix_length] at h1
  have h3 : [encodeString (hexPrefix true q), encodeString v].flatten.length =
      (encodeString (hexPrefix true q)).length + (encodeString v).length := by simp
  have h4 : 1 ≤ (encodeString v).length := by
    unfold encodeString
    split
    · omega
    · rw [List.length_append]; unfold lenHeader; split <;> simp <;> omega
  rw [List.length_append]
  omega

theorem branch_ge {f : Fin 16 → Trie} (hf : ∀ i, f i = .empty ∨ 32 ≤ (f i).encode.length) (h0 : 32 ≤ (f 0).encode.length) :
    32 ≤ (Trie.branch f).encode.length := by
  rw [branch_encode hf]
  unfold encodeList
  obtain ⟨tl, htl⟩ : ∃ tl, branchItems f = encodeString (refPay (f 0)) :: tl := ⟨_, rfl⟩
  have h1 := encodeString_ge (refPay (f 0))
  have h2 : (refPay (f 0)).length = 32 := by unfold refPay; rw [if_neg (by omega), keccakBytes_length]
  rw [htl, List.length_append, List.flatten_cons, List.length_append]
  omega

theorem pair_fixed {q v : List ℕ} {n : ℕ} (hq : q.length = n) (h61 : 61 ≤ n) (hqn : ∀ x ∈ q, x < 16) (hv : ∀ b ∈ v, b < 256) :
    (Trie.branch fun j => if j.val ≤ 1 then .leaf q v else .empty).Fixed (n + 1) ∧
    32 ≤ (Trie.branch fun j => if j.val ≤ 1 then .leaf q v else .empty).encode.length := by
  have h : ∀ j : Fin 16, (if j.val ≤ 1 then Trie.leaf q v else .empty) = .empty ∨
      32 ≤ (if j.val ≤ 1 then Trie.leaf q v else .empty).encode.length := by
    intro j
    split
    · exact Or.inr (leaf_ge' (by omega))
    · exact Or.inl rfl
  refine ⟨⟨by omega, fun i => ⟨?_, h i⟩⟩, branch_ge h (leaf_ge' (by omega))⟩
  simp only
  split
  · exact ⟨hq, hqn, hv⟩
  · exact trivial

theorem demo_fixed {v : List ℕ} (hv : ∀ b ∈ v, b < 256) : (demoTrie v).Fixed 64 := by
  have hr : ∀ n, ∀ x ∈ List.replicate n 7, x < 16 := by
    intro n x hx; rw [List.eq_of_mem_replicate hx]; omega
  obtain ⟨a1, a2⟩ := pair_fixed (q := List.replicate 62 7) (v := v) (n := 62) (by simp) (by omega) (hr 62) hv
  obtain ⟨b1, b2⟩ := pair_fixed (q := List.replicate 61 7) (v := v) (n := 61) (by simp) (by omega) (hr 61) hv
  refine ⟨by omega, fun i => ?_⟩
  simp only
  split
  · exact ⟨a1, Or.inr a2⟩
  split
  · refine ⟨⟨by decide, by decide, b1, b2⟩, Or.inr ?_⟩
    rw [ext_encode b2]
    unfold encodeList
    have h1 := encodeString_ge (keccakBytes (Trie.branch fun j => if j.val ≤ 1 then .leaf (List.replicate 61 7) v else .empty).encode)
    rw [keccakBytes_length] at h1
    have h2 : ∀ a b : List ℕ, [a, b].flatten.length = a.length + b.length := by intro a b; simp
    rw [List.length_append, h2]
    omega
  · exact ⟨trivial, Or.inl rfl⟩

/-- Instance of the two forgeries: the slot value `0xff` is proved for two absent keys of the trie `demoTrie [42]`. -/
example (hp : 2 ^ 128 < p) (pad : List (F p)) (hpad : pad.length = 62) :
    (∃ x : InclusionIn p, x.key = (0 :: 5 :: List.replicate 62 9).map Nat.cast ∧
      x.rootHash = (nibblesOf (demoTrie [42]).root).map Nat.cast ∧
      ∃ r, checkEthStorageProof 9 x = some r ∧ r.output = 1 ∧ r.slotValue = (((255 : ℕ) : F p), ((0 : ℕ) : F p))) ∧
    (∃ x : InclusionIn p, x.key = (1 :: 3 :: List.replicate 62 9).map Nat.cast ∧
      x.rootHash = (nibblesOf (demoTrie [42]).root).map Nat.cast ∧
      ∃ r, checkEthStorageProof 9 x = some r ∧ r.output = 1 ∧ r.slotValue = (((255 : ℕ) : F p), ((0 : ℕ) : F p))) := by
  have hF := demo_fixed (v := [42]) (by decide)
  have hn : ∀ a b, a < 16 → b < 16 → ∀ x ∈ a :: b :: List.replicate 62 9, x < 16 := by
    intro a b ha hb x hx
    rcases List.mem_cons.1 hx with rfl | hx
    · exact ha
    rcases List.mem_cons.1 hx with rfl | hx
    · exact hb
    · rw [List.eq_of_mem_replicate hx]; omega
  have hval : (((8 : ℕ) : F p) :: ((1 : ℕ) : F p) :: ((15 : ℕ) : F p) :: ((15 : ℕ) : F p) :: pad).take (2 * (encodeString [255]).length) =
      (nibblesOf (encodeString [255])).map Nat.cast := by
    rw [show encodeString [255] = [0x81, 255] from by decide]
    simp [nibblesOf]
  have hbv : Spec.Eth.beValue [255] % 2 ^ 248 = 255 ∧ Spec.Eth.beValue [255] / 2 ^ 248 = 0 := by decide +kernel
  constructor
  · obtain ⟨-, x, h1, h2, h3, h4, h5, h6, r, h7, h8, h9⟩ := C71_branch_forgery hp 9 1088 1088 (by omega) (by omega) (by omega) (by omega)
      (by omega) (by omega) (by omega) (by omega) _ _ hF 0 5 rfl rfl (0 :: 5 :: List.replicate 62 9) (by simp) (hn 0 5 (by omega) (by omega)) rfl rfl
      [255] (by simp) (by simp) (by decide) _ (by simp [hpad]) hval
    rw [hbv.1, hbv.2] at h9
    exact ⟨x, h2, h4, r, h7, h8, h9⟩
  · obtain ⟨x, h1, h2, h3, h4, h5, h6, r, h7, h8, h9⟩ := C71_extension_forgery hp 9 1088 1088 (by omega) (by omega) (by omega) (by omega)
      (by omega) (by omega) (by omega) (by omega) _ hF 1 _ _ rfl (1 :: 3 :: List.replicate 62 9) (by simp) (hn 1 3 (by omega) (by omega)) rfl
      [255] (by simp) (by simp) (by decide) _ (by simp [hpad]) hval
    rw [hbv.1, hbv.2] at h9
    exact ⟨x, h2, h4, r, h7, h8, h9⟩

/-- Instance of `C71_storage_complete` (and so of the hypotheses of `C71_storage_sound_partial`). -/
example (hp : 2 ^ 128 < p) (pad : List (F p)) (hpad : pad.length = 64) :
    ∃ x : InclusionIn p, Shape 66 x ∧ 1064 ≤ x.lastRlp.length ∧ 2 ≤ x.depth.val ∧
      x.rootHash = (nibblesOf (twoLeaves (1 :: List.replicate 62 0) [42]).root).map Nat.cast ∧
      (twoLeaves (1 :: List.replicate 62 0) [42]).Fixed 64 ∧ (twoLeaves (1 :: List.replicate 62 0) [42]).Roomy ∧
      (∀ y ∈ x.key, y.val < 16) ∧
      ∃ r, checkEthStorageProof 9 x = some r ∧ r.output = 1 ∧ r.slotValue = (((42 : ℕ) : F p), ((0 : ℕ) : F p)) := by
  have hq : (1 :: List.replicate 62 0 : List ℕ).length = 63 := by rw [List.length_cons, List.length_replicate]
  have hqn : ∀ x ∈ (1 :: List.replicate 62 0 : List ℕ), x < 16 := by
    intro x hx
    rcases List.mem_cons.1 hx with rfl | h
    · omega
    · rw [List.eq_of_mem_replicate h]; omega
  have hkn : ∀ x ∈ (0 :: 1 :: List.replicate 62 0 : List ℕ), x < 16 := by
    intro x hx; rcases List.mem_cons.1 hx with rfl | h
    · omega
    · exact hqn x h
  have hF := two_fixed (v := [42]) hq hqn (by decide)
  have hlen := two_pathLen (1 :: List.replicate 62 0) [42] 0 (by omega) (1 :: List.replicate 62 0)
  have hbv : Spec.Eth.beValue [42] % 2 ^ 248 = 42 ∧ Spec.Eth.beValue [42] / 2 ^ 248 = 0 := by decide +kernel
  obtain ⟨x, h1, h2, h3, h4, h5, h6, r, h7, h8, h9, h10⟩ := C71_storage_complete hp 9 1088 1088 (by omega) (by omega) (by omega) (by omega)
    (by omega) (by omega) (by omega) _ hF (two_proper (by simp))
    (0 :: 1 :: List.replicate 62 0) [42] (by rw [List.length_cons, hq]) hkn (by simp) (by simp)
    (two_get _ _ 0 (by omega)) (by rw [hlen]) (by rw [hlen]; omega)
    (((2 : ℕ) : F p) :: ((10 : ℕ) : F p) :: pad) (by simp [hpad]) (by
      rw [show encodeString [42] = [42] from by decide]
      simp [nibblesOf])
  rw [hbv.1, hbv.2] at h10
  have h4' : x.depth = ((2 : ℕ) : F p) := by rw [h4, hlen]
  refine ⟨x, ⟨?_, ?_, ?_, ?_, ?_, ?_⟩, by omega, ?_, h3, hF, two_roomy hq (by simp), ?_, r, h7, h8, h10⟩
  · rw [h1, List.length_map, List.length_cons, hq]
  · rw [h2]; simp [hpad]
  · rw [h3, List.length_map, nibblesOf_length]; unfold Trie.root; rw [keccakBytes_length]
  · intro row hr; rw [h6 row hr]
  · rw [h5]
  · rw [h5]; omega
  · rw [h4', val_natCast_lt (by omega)]
  · rw [h1]
    intro y hy
    obtain ⟨a, ha, rfl⟩ := List.mem_map.1 hy
    have := hkn a ha
    rw [val_natCast_lt (by omega)]; exact this

end Verif.Mpt
