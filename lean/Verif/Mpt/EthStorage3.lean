import Verif.Mpt.EthStorage2

/-! # Property theorems C71: what `CheckEthStorageProof` accepts: stored values, and forged values -/

set_option linter.unusedSectionVars false
set_option linter.unusedVariables false

namespace Verif.Mpt
open Api Rlp Keccak Spec.Keccak Spec.Rlp Spec.Mpt
variable {p : ℕ} [Fact p.Prime]

theorem leaf_ac {mk mv : ℕ} : (leafParams mk mv).maxFields = 2 := rfl

/-- All the list checks of the last node are satisfiable on the row of a two-item node, and the override evaluates. -/
theorem two_last (hp : 2 ^ 128 < p) {LL : ℕ} {u : Trie} {lf : Bool} {path v : List ℕ}
    (hu : u.encode = encodeList [encodeString (hexPrefix lf path), encodeString v]) (hb : ∀ b ∈ u.encode, b < 256)
    (hpn : ∀ y ∈ path, y < 16) (hpl : path.length ≤ 63) (hv : v.length ≤ 33) (hLL : 1064 ≤ LL) (h2 : LL % 2 = 0)
    (hfit : padLen u ≤ LL) {x : InclusionIn p} (hk : x.key.length = 64) (hkn : (x.key.getD (x.depth.val - 1) 0).val < 16)
    (hd1 : 1 ≤ x.depth.val) (hd : x.depth.val ≤ 64)
    (hrow : x.lastRlp = (rowNibs LL u).map Nat.cast)
    (hlpl : x.leafPl = ((if path.length % 2 = 1 then 1 else 2 : ℕ) : F p)) (sel : List (F p)) (selLen lo : F p) (hsel : sel.length = 64) :
    (lo = 4 ∨ (lf = false ∧ selLen.val ≠ path.length) → storageOverride 64 x sel selLen lo = some 4) ∧
    (x.value.length = 66 → ∃ lc, checkLeaf 64 66 selLen sel x.value x.lastRlp x.leafPl = some lc ∧
      lc.valueLength = ((2 * v.length : ℕ) : F p)) := by
  have hhp : (hexPrefix lf path).length ≤ 33 := by rw [hexPrefix_length]; omega
  obtain ⟨b1, b2⟩ := branch_sat_two hp hu hb hhp hv hLL h2 hfit
  obtain ⟨e1, e2, e3⟩ := two_sat_two hp (W := 136) (extParams 64) (extParams_wf 64 (by norm_num)) rfl rfl (by decide)
    (by decide) (by decide) hu hb hhp hv (by omega) (by omega) hfit
  obtain ⟨l1, l2, l3⟩ := two_sat_two hp (W := 140) (leafParams 64 66) (leafParams_wf 64 66 (by norm_num) (by norm_num) (by norm_num))
    rfl rfl (by decide) (by decide) (by decide) hu hb hhp hv (by omega) (by omega) hfit
  have hplv : x.leafPl.val = if path.length % 2 = 1 then 1 else 2 := by
    rw [hlpl]; exact val_natCast_lt (by split <;> omega)
  have i1 := e3.item0
  rw [nibblesOf_hexPrefix _ _ hpn] at i1
  have i2 := l3.item0
  rw [nibblesOf_hexPrefix _ _ hpn] at i2
  obtain ⟨k1, k2, k3⟩ := hex_prefixOk i1
  obtain ⟨m1, m2, m3⟩ := hex_prefixOk i2
  constructor
  · intro hcase
    rw [storageOverride_eq hp x sel selLen lo _ _ (by rw [hrow]; exact b2) (by rw [hrow]; exact e2) hk hd1 hd hsel, if_pos]
    · rcases hcase with rfl | ⟨rfl, hne⟩
      · rw [ite_self]
      · rw [if_pos]
        right
        refine ⟨by rw [hplv]; exact k1, ?_⟩
        rintro ⟨-, h⟩
        rw [hplv, k3] at h
        omega
    · rw [hrow, hplv, k3]
      refine ⟨⟨b1, by omega⟩, e1, ?_, ?_, ?_⟩ <;> split <;> omega
  · intro hval
    have hlm : leafMaxRlp 64 66 = 140 := rfl
    rw [checkLeaf_eq hp 64 66 (by norm_num) (by norm_num) le_rfl selLen sel x.value x.lastRlp x.leafPl _
      (by rw [hrow, hlm]; exact l2) hsel hval, if_pos]
    · exact ⟨_, rfl, by simp only; rw [l3.pay1]⟩
    · rw [hrow, hplv, m3, l3.pay1]
      refine ⟨l1, ⟨?_, ?_, ?_⟩, by omega⟩ <;> split <;> omega

/-- A last-node check of the account kind that succeeds also succeeds as a storage check if the override does not reject. -/
theorem last_true_of_false (hp : 2 ^ 128 < p) {D mv : ℕ} (hD : D ≤ 10) {x : InclusionIn p} (hk : x.key.length = 64)
    (hst : D ≤ x.starts.length) (hd1 : 1 ≤ x.depth.val) (hdD : x.depth.val ≤ D) {vl : F p}
    (h : lastNodeCheck D 64 mv false x = some (4, vl))
    (hov : ∀ sel selLen, sel.length = 64 → storageOverride 64 x sel selLen 4 = some 4) :
    lastNodeCheck D 64 mv true x = some (4, vl) := by
  unfold lastNodeCheck at h
  obtain ⟨sr, hsr, h⟩ := Option.bind_eq_some_iff.1 h
  obtain ⟨m, hm, h⟩ := Option.bind_eq_some_iff.1 h
  obtain ⟨ls, hls, h⟩ := Option.bind_eq_some_iff.1 h
  obtain ⟨kc, hkc, h⟩ := Option.bind_eq_some_iff.1 h
  obtain ⟨⟨sel, selLen⟩, hsub, h⟩ := Option.bind_eq_some_iff.1 h
  obtain ⟨lc, hlc, h⟩ := Option.bind_eq_some_iff.1 h
  simp only [Bool.false_eq_true, if_false, Option.bind_eq_bind, Option.bind_some, Option.pure_def, Option.some.injEq,
    Prod.mk.injEq] at h
  have hsl : sel.length = 64 := by
    obtain ⟨-, rfl⟩ := mapM_cells hkc
    rw [List.take_of_length_le hk.le] at hsub
    have h64 : ((64 : ℕ) : F p).val = 64 := val_natCast_lt (by omega)
    have hC := C05_subArray 64 64 7 x.key ls ((64 : ℕ) : F p) (by rw [hk]) (by omega) (by omega) (by norm_num) le_rfl
      (by omega)
    rw [h64] at hC
    by_cases hcond : ls.val ≤ 64 ∧ 64 ≤ 64 ∧ 64 - ls.val ≤ 64
    swap
    · rw [hC.1 hcond] at hsub; cases hsub
    obtain ⟨out, len, e1, e2, e3, e4, -⟩ := hC.2 hcond
    rw [e1] at hsub
    obtain ⟨rfl, rfl⟩ := Prod.mk.inj (Option.some.inj hsub)
    exact e3
  unfold lastNodeCheck
  refine Option.bind_eq_some_iff.2 ⟨sr, hsr, Option.bind_eq_some_iff.2 ⟨m, hm, Option.bind_eq_some_iff.2 ⟨ls, hls,
    Option.bind_eq_some_iff.2 ⟨kc, hkc, Option.bind_eq_some_iff.2 ⟨(sel, selLen), hsub, Option.bind_eq_some_iff.2
    ⟨lc, hlc, ?_⟩⟩⟩⟩⟩⟩
  simp only [if_true]
  rw [h.1, hov sel selLen hsl, h.2]
  rfl

/-- **C71.** Completeness of `CheckEthStorageProof`: every slot stored in a storage trie (value = RLP of a non-empty byte string of
at most 32 bytes) whose path has between 2 and `D` nodes has an accepted storage proof, which reports the stored value. -/
theorem C71_storage_complete (hp : 2 ^ 128 < p) (D L LL : ℕ) (hD : D ≤ 10) (hL16 : L % 16 = 0) (hL1 : 1088 ≤ L) (hL2 : L ≤ 2720)
    (hLL16 : LL % 16 = 0) (hLL1 : 1064 ≤ LL) (hLL2 : LL ≤ 2720)
    (t : Trie) (hF : t.Fixed 64) (hP : t.Proper) (key val : List ℕ) (hk : key.length = 64) (hkn : ∀ x ∈ key, x < 16)
    (hne : val ≠ []) (h32 : val.length ≤ 32) (hget : t.get key = some (encodeString val)) (hd2 : 2 ≤ t.pathLen key)
    (hdD : t.pathLen key ≤ D) (value : List (F p)) (hvl : value.length = 66)
    (hvv : value.take (2 * (encodeString val).length) = (nibblesOf (encodeString val)).map Nat.cast) :
    ∃ x : InclusionIn p, x.key = key.map Nat.cast ∧ x.value = value ∧ x.rootHash = (nibblesOf t.root).map Nat.cast ∧
      x.depth = ((t.pathLen key : ℕ) : F p) ∧ x.lastRlp.length = LL ∧ (∀ row ∈ x.nodeRlp, row.length = L) ∧
      ∃ r, checkEthStorageProof D x = some r ∧ r.output = 1 ∧ r.valueLength + 2 = ((2 * (encodeString val).length : ℕ) : F p) ∧
        r.slotValue = (((Spec.Eth.beValue val % 2 ^ 248 : ℕ) : F p), ((Spec.Eth.beValue val / 2 ^ 248 : ℕ) : F p)) := by
  have hv33 := encodeString_length val (by omega)
  have hbv := get_bytes hF hget
  have hb : ∀ b ∈ val, b < 256 := by
    intro b hb
    apply hbv
    unfold encodeString
    split
    · exact hb
    · exact List.mem_append_right _ hb
  obtain ⟨v, hvd⟩ : ∃ v, v = encodeString val := ⟨_, rfl⟩
  have hslot := C71_slot_value hp val hne h32 hb value hvl hvv
  rw [← hvd] at hv33 hget hvv ⊢
  obtain ⟨nodes, st, ty, path, H, htop, hleaf, hpath, hst, hty, hpn, hp63, hvb⟩ := honest_path (mv := 66) hD (by omega) hL16 hL1 hL2
    hLL16 hLL2 (by omega) hF hP hk hkn hget hd2 hdD (by omega) 1 le_rfl
  set d := t.pathLen key with hd
  have hs0 := (H.mono (d - 1) (by omega)).1
  have HM : PadMark D d st ty := by
    intro hlt
    rw [hst d le_rfl]
    exact ⟨hs0, Or.inr (hty _ le_rfl)⟩
  obtain ⟨x, hx⟩ : ∃ x, x = proofOf D L LL d key ((nibblesOf (nodes 0).root).map (Nat.cast : ℕ → F p)) value nodes st ty
    (if path.length % 2 = 1 then 1 else 2) := ⟨_, rfl⟩
  have hdv : ((d : ℕ) : F p).val = d := val_natCast_lt (by omega)
  have hxk : x.key = key.map Nat.cast := by rw [hx]; rfl
  have hxd : x.depth = ((d : ℕ) : F p) := by rw [hx]; rfl
  have hxl : x.lastRlp = (rowNibs LL (.leaf path v)).map Nat.cast := by rw [hx, ← hleaf]; rfl
  have hxv : x.value = value := by rw [hx]; rfl
  have hfit : padLen (.leaf path v) ≤ LL := by rw [← hleaf]; exact H.lastFits
  have hsl : x.starts.length = D := by rw [hx]; simp [proofOf]
  have hlast := last_leaf (x := x) (LL := LL) (mv := 66) (v := v) (path := path) hp hD (by omega) hdD hxd hsl
    (by rw [hx]; exact getElem?_range_map _ (by omega)) hs0 hxk hk hkn le_rfl (by omega) (by omega) (by rw [hxv]; exact hvl) (by omega)
    (by omega) hvb hpn hp63 (by rw [hx]; rfl) hxl hfit (Or.inl ⟨hpath, by rw [hxv]; exact hvv⟩)
  have hxkl : x.key.length = 64 := by rw [hxk, List.length_map, hk]
  have hlastT := last_true_of_false hp hD hxkl (by omega) (by rw [hxd, hdv]; omega) (by rw [hxd, hdv]; omega) hlast (by
    intro sel selLen hsel
    refine (two_last hp (lf := true) (path := path) (v := v) (leaf_encode path v) (leaf_bytes hpn (by omega) hvb (by omega)) hpn hp63
      (by omega) hLL1 (by omega) hfit hxkl ?_ (by rw [hxd, hdv]; omega) (by rw [hxd, hdv]; omega) hxl (by rw [hx]; rfl)
      sel selLen 4 hsel).1 (Or.inl rfl)
    rw [hxd, hdv, hxk, List.getD_eq_getElem _ _ (by rw [List.length_map]; omega), List.getElem_map]
    have := hkn _ (List.getElem_mem (show d - 1 < key.length by omega))
    rw [val_natCast_lt (by omega)]
    exact this)
  rw [hx] at hlastT
  have hrun := complete_run hp H HM (by omega) hlastT
  rw [← hx] at hrun
  refine ⟨x, hxk, hxv, by rw [hx, ← htop]; rfl, hxd, by rw [hxl, List.length_map, rowNibs_length hfit],
    by rw [hx]; exact rows_length H, _, Option.bind_eq_some_iff.2 ⟨_, hrun, Option.bind_eq_some_iff.2 ⟨_, by rw [hxv]; exact hslot, rfl⟩⟩,
    rfl, ?_, rfl⟩
  show ((2 * v.length : ℕ) : F p) - 2 + 2 = _
  ring

/-! ## Forgeries -/

/-- A two-node path: a branch and its `i`-th child. -/
theorem two_path {D L LL : ℕ} (hD2 : 2 ≤ D) (hD : D ≤ 10) (hL16 : L % 16 = 0) (hL1 : 1088 ≤ L) (hL2 : L ≤ 2720)
    (hLL16 : LL % 16 = 0) (hLL2 : LL ≤ 2720) {f : Fin 16 → Trie} (hF : (Trie.branch f).Fixed 64) {i : Fin 16} (hne : f i ≠ .empty)
    (hfit : padLen (f i) ≤ LL) (hb : ∀ b ∈ (f i).encode, b < 256) {key : List ℕ} (hk : key.length = 64)
    (hkn : ∀ x ∈ key, x < 16) (hk0 : key.head? = some i.val) :
    Path D L LL 2 key (fun j => if j = 0 then .branch f else f i) (fun j => min j 2) (fun _ => 0) ∧
    PadMark D 2 (fun j => min j 2) (fun _ => 0) := by
  refine ⟨⟨le_rfl, hD2, hD, hk, hkn, hL16, hL1, hL2, hLL16, hLL2, hfit, hb, ?_, ?_, ?_, ?_, ?_, ?_⟩, ?_⟩
  · intro j hj
    obtain rfl : j = 0 := by omega
    exact Or.inl ⟨rfl, rfl, f, i, rfl, by rw [← hk0, List.head?_eq_getElem?]; rfl, rfl⟩
  · intro j hj
    obtain rfl : j = 0 := by omega
    exact ⟨64, le_rfl, hF⟩
  · intro j hj h0
    obtain rfl : j = 1 := by omega
    exact ((hF.2 i).2).resolve_left hne
  · intro j hj
    exact ⟨by show min j 2 < 64; omega, fun h => by show min (j - 1) 2 < min j 2; omega⟩
  · intro j hj hdj
    exact ⟨by show min (j - 1) 2 ≤ min j 2; omega, by show min j 2 ≤ 64; omega⟩
  · intro j hj; omega
  · intro _; exact ⟨by decide, Or.inl (by decide)⟩

/-- Turning an accepted two-node last-node check into an accepted storage proof. -/
theorem forge_run (hp : 2 ^ 128 < p) {D L LL : ℕ} (hD2 : 2 ≤ D) (hD : D ≤ 10) (hL16 : L % 16 = 0) (hL1 : 1088 ≤ L) (hL2 : L ≤ 2720)
    (hLL16 : LL % 16 = 0) (hLL1 : 1064 ≤ LL) (hLL2 : LL ≤ 2720) {f : Fin 16 → Trie} (hF : (Trie.branch f).Fixed 64) {i : Fin 16} (hne : f i ≠ .empty)
    (hfit : padLen (f i) ≤ LL) (hb : ∀ b ∈ (f i).encode, b < 256) {key : List ℕ} (hk : key.length = 64)
    (hkn : ∀ x ∈ key, x < 16) (hk0 : key.head? = some i.val) {value : List (F p)} (hvl : value.length = 66) (lpl : ℕ)
    {sv : F p × F p} (hslot : slotValueOf value = some sv)
    (hlc : ∀ x : InclusionIn p, x.key = key.map Nat.cast → x.value = value → x.depth = ((2 : ℕ) : F p) → x.leafPl = ((lpl : ℕ) : F p) →
      x.lastRlp = (rowNibs LL (f i)).map Nat.cast →
      ∀ sel len, sel.length = 64 → len.val = 63 →
      ∃ lc, checkLeaf 64 66 len sel x.value x.lastRlp x.leafPl = some lc ∧
        storageOverride 64 x sel len lc.output = some 4 ∧ ∀ sel' len', sel'.length = 64 → len'.val = 63 →
          ∀ lc', checkLeaf 64 66 len' sel' x.value x.lastRlp x.leafPl = some lc' → lc'.valueLength = lc.valueLength) :
    ∃ x : InclusionIn p, Shape 66 x ∧ x.key = key.map Nat.cast ∧ x.value = value ∧
      x.rootHash = (nibblesOf (Trie.branch f).root).map Nat.cast ∧ x.depth = 2 ∧ x.lastRlp.length = LL ∧
      ∃ r, checkEthStorageProof D x = some r ∧ r.output = 1 ∧ r.slotValue = sv := by
  obtain ⟨H, HM⟩ := two_path hD2 hD hL16 hL1 hL2 hLL16 hLL2 hF hne hfit hb hk hkn hk0
  obtain ⟨x, hx⟩ : ∃ x, x = proofOf D L LL 2 key ((nibblesOf (Trie.branch f).root).map (Nat.cast : ℕ → F p)) value
    (fun j => if j = 0 then .branch f else f i) (fun j => min j 2) (fun _ => 0) lpl := ⟨_, rfl⟩
  have hxk : x.key = key.map Nat.cast := by rw [hx]; rfl
  have hxd : x.depth = ((2 : ℕ) : F p) := by rw [hx]; rfl
  have hxl : x.lastRlp = (rowNibs LL (f i)).map Nat.cast := by rw [hx]; rfl
  have hxv : x.value = value := by rw [hx]; rfl
  have hxp : x.leafPl = ((lpl : ℕ) : F p) := by rw [hx]; rfl
  have hsl : x.starts.length = D := by rw [hx]; simp [proofOf]
  have hll : x.lastRlp.length = LL := by rw [hxl, List.length_map, rowNibs_length hfit]
  have hlc' := hlc x hxk hxv hxd hxp hxl
  have h63 : ((63 : ℕ) : F p).val = 63 := val_natCast_lt (by omega)
  obtain ⟨lc0, q0, -, -⟩ := hlc' (List.replicate 64 0) ((63 : ℕ) : F p) (by simp) h63
  have hlast := last_true_run (LL := LL) (mv := 66) (vl := lc0.valueLength) (s := 1) hp hD (by omega) hD2 hxd hsl
    (by rw [hx]; exact getElem?_range_map _ (by omega)) (by omega) hxk hk (by
      intro sel len h1 h2 h3
      obtain ⟨lc, e1, e2, e3⟩ := hlc' sel len h1 h2
      exact ⟨lc, e1, (e3 _ _ (by simp) h63 _ q0).symm, e2⟩)
  have hrows : ∀ row ∈ x.nodeRlp, row.length = L := by rw [hx]; exact rows_length H
  rw [hx] at hlast
  have hrun := complete_run hp H HM (by omega) hlast
  change checkInclusionFixed D 64 66 true (proofOf D L LL 2 key ((nibblesOf (Trie.branch f).root).map (Nat.cast : ℕ → F p)) value
    (fun j => if j = 0 then .branch f else f i) (fun j => min j 2) (fun _ => 0) lpl) = _ at hrun
  rw [← hx] at hrun
  refine ⟨x, ⟨by rw [hxk, List.length_map, hk], by rw [hxv, hvl], ?_, ?_, by rw [hll]; exact hLL16, by omega⟩, hxk, hxv, by rw [hx]; rfl, by rw [hxd]; norm_num, hll, _,
    Option.bind_eq_some_iff.2 ⟨_, hrun, Option.bind_eq_some_iff.2 ⟨_, by rw [hxv]; exact hslot, rfl⟩⟩, rfl, rfl⟩
  · rw [hx]
    show ((nibblesOf (Trie.branch f).root).map (Nat.cast : ℕ → F p)).length = 64
    rw [List.length_map, nibblesOf_length]; unfold Trie.root; rw [keccakBytes_length]
  · intro row hr
    rw [hrows row hr]; exact hL16

theorem ext_bytes {path : List ℕ} {c : Trie} (hpn : ∀ x ∈ path, x < 16) (hpl : path.length ≤ 63) (h32 : 32 ≤ c.encode.length) :
    ∀ b ∈ (Trie.ext path c).encode, b < 256 := by
  rw [ext_encode h32]
  have h3 := encodeString_length (hexPrefix false path) (by rw [hexPrefix_length]; omega)
  rw [hexPrefix_length] at h3
  have h2 := keccak_enc_length c.encode
  refine encodeList_bytes ?_ ?_
  · intro enc he
    simp only [List.mem_cons, List.not_mem_nil, or_false] at he
    rcases he with rfl | rfl
    · exact encodeString_bytes (hexPrefix_lt _ _ hpn) (by rw [hexPrefix_length]; omega)
    · exact encodeString_bytes (keccakBytes_lt _) (by rw [keccakBytes_length]; omega)
  · have : [encodeString (hexPrefix false path), encodeString (keccakBytes c.encode)].flatten.length =
      (encodeString (hexPrefix false path)).length + (encodeString (keccakBytes c.encode)).length := by simp
    rw [this]; omega

/-- **C71 (negation).** *Any value can be proved for any slot whose key passes through an extension node*: take any storage trie
whose root is a branch with an extension as its `i`-th child, any key that starts with the nibble `i` — whether it is
stored in the trie or not — and any value; there is a storage proof of depth 2 against the root hash of the trie that
is accepted and reports that value. (`checkExtensionNodeNonExistence` compares the length of the whole remaining key
with the length of the extension's path, so it reports "absent" for every extension; and in that case the claimed
value is not required to be zero.) -/
theorem C71_extension_forgery (hp : 2 ^ 128 < p) (D L LL : ℕ) (hD2 : 2 ≤ D) (hD : D ≤ 10) (hL16 : L % 16 = 0) (hL1 : 1088 ≤ L)
    (hL2 : L ≤ 2720) (hLL16 : LL % 16 = 0) (hLL1 : 1064 ≤ LL) (hLL2 : LL ≤ 2720)
    (f : Fin 16 → Trie) (hF : (Trie.branch f).Fixed 64) (i : Fin 16) (path : List ℕ) (c : Trie) (hi : f i = .ext path c)
    (key : List ℕ) (hk : key.length = 64) (hkn : ∀ x ∈ key, x < 16) (hk0 : key.head? = some i.val)
    (val : List ℕ) (hne : val ≠ []) (h32 : val.length ≤ 32) (hb : ∀ b ∈ val, b < 256) (value : List (F p)) (hvl : value.length = 66)
    (hvv : value.take (2 * (encodeString val).length) = (nibblesOf (encodeString val)).map Nat.cast) :
    ∃ x : InclusionIn p, Shape 66 x ∧ x.key = key.map Nat.cast ∧ x.value = value ∧
      x.rootHash = (nibblesOf (Trie.branch f).root).map Nat.cast ∧ x.depth = 2 ∧ x.lastRlp.length = LL ∧
      ∃ r, checkEthStorageProof D x = some r ∧ r.output = 1 ∧
        r.slotValue = (((Spec.Eth.beValue val % 2 ^ 248 : ℕ) : F p), ((Spec.Eth.beValue val / 2 ^ 248 : ℕ) : F p)) := by
  have hfi := (hF.2 i).1
  rw [hi] at hfi
  obtain ⟨g1, g2, g3, g4⟩ := hfi
  have hel := ext_len g4 (show path.length ≤ 63 by omega)
  have hbytes := ext_bytes g2 (by omega) g4
  have hfit : padLen (Trie.ext path c) ≤ LL := by unfold padLen; omega
  refine forge_run hp hD2 hD hL16 hL1 hL2 hLL16 hLL1 hLL2 hF (by rw [hi]; exact fun h => by cases h) (by rw [hi]; exact hfit)
    (by rw [hi]; exact hbytes) hk hkn hk0 hvl (if path.length % 2 = 1 then 1 else 2) (C71_slot_value hp val hne h32 hb value hvl hvv) ?_
  intro x hxk hxv hxd hxp hxl sel len hsel hlen
  rw [hi] at hxl
  have hdv : ((2 : ℕ) : F p).val = 2 := val_natCast_lt (by omega)
  have T := fun (sel : List (F p)) (len lo : F p) (hsel : sel.length = 64) =>
    two_last hp (lf := false) (path := path) (v := keccakBytes c.encode) (ext_encode g4) hbytes g2 (by omega)
      (by rw [keccakBytes_length]; omega) hLL1 (by omega) hfit (x := x) (by rw [hxk, List.length_map, hk]) (by
        rw [hxd, hdv, hxk, List.getD_eq_getElem _ _ (by rw [List.length_map]; omega), List.getElem_map]
        have := hkn _ (List.getElem_mem (show 2 - 1 < key.length by omega))
        rw [val_natCast_lt (by omega)]
        exact this) (by rw [hxd, hdv]; omega) (by rw [hxd, hdv]; omega) hxl hxp sel len lo hsel
  obtain ⟨lc, e1, e2⟩ := (T sel len 0 hsel).2 (by rw [hxv, hvl])
  refine ⟨lc, e1, (T sel len lc.output hsel).1 (Or.inr ⟨rfl, by omega⟩), ?_⟩
  intro sel' len' hs' hl' lc' hlc'
  obtain ⟨lc2, e3, e4⟩ := (T sel' len' 0 hs').2 (by rw [hxv, hvl])
  rw [hlc'] at e3
  obtain rfl := Option.some.inj e3
  rw [e4, e2]

end Verif.Mpt
