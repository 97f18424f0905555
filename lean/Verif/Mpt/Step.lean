import Verif.Mpt.Sums

/-! One step down the trie (lemmas for C18). -/

set_option linter.unusedSectionVars false
set_option linter.unusedVariables false

namespace Verif.Mpt
open Api Rlp Keccak Spec.Keccak Spec.Rlp Spec.Mpt
variable {p : ℕ} [Fact p.Prime]

theorem listHdr_ge (v : ℕ) : 2 ≤ listHdr v := by unfold listHdr; split <;> omega

theorem RowHash.outLen_ge (hp : 2 ^ 128 < p) {row : List (F p)} {S : ℕ → ℕ} {h : HashOut p} (hr : RowHash row S h) :
    2 ≤ h.outLen.val ∧ h.output.length = 64 := by
  constructor
  · rw [hr.outLen]
    have := listHdr_ge (byteAt S 0)
    split
    · rw [val_natCast_lt (by omega)]; omega
    · rw [val_natCast_lt (by omega)]; omega
  · obtain ⟨ri, -, e⟩ := hr.hash
    rw [e, List.length_map, nibblesOf_length, digestBytes_length]

/-- Bytes of a node encoding. -/
theorem encode_bytes {u : Trie} {n : ℕ} (h : u.Fixed n) (hn : n ≤ 64)
    (hR : ∀ path v, u = .leaf path v → u.encode.length ≤ 400 ∧ u.encode.length % 136 ≤ 121) : ∀ b ∈ u.encode, b < 256 := by
  cases u with
  | empty => rw [empty_encode]; simp
  | leaf path v =>
    obtain ⟨h1, h2, h3⟩ := h
    have h4 := (hR path v rfl).1
    have h5 := leaf_v_len h4
    rw [leaf_encode] at h4 ⊢
    apply encodeList_bytes
    · intro e he
      simp only [List.mem_cons, List.not_mem_nil, or_false] at he
      rcases he with rfl | rfl
      · exact encodeString_bytes (hexPrefix_lt _ _ h2) (by rw [hexPrefix_length]; omega)
      · exact encodeString_bytes h3 (by omega)
    · unfold encodeList at h4; rw [List.length_append] at h4; omega
  | ext path c =>
    obtain ⟨h1, h2, h3, h4⟩ := h
    have h5 := ext_len h4 (show path.length ≤ 63 by omega)
    rw [ext_encode h4] at h5 ⊢
    apply encodeList_bytes
    · intro e he
      simp only [List.mem_cons, List.not_mem_nil, or_false] at he
      rcases he with rfl | rfl
      · exact encodeString_bytes (hexPrefix_lt _ _ h2) (by rw [hexPrefix_length]; omega)
      · exact encodeString_bytes (keccakBytes_lt _) (by rw [keccakBytes_length]; norm_num)
    · unfold encodeList at h5; rw [List.length_append] at h5; omega
  | branch f =>
    rw [branch_encode (fun i => (h.2 i).2)]
    exact encodeList_bytes (branchItems_bytes f) (by have := branchItems_flatten f; omega)

theorem cast_list_inj (hp : 2 ^ 128 < p) {l : List ℕ} {m : List (F p)} (hl : ∀ x ∈ l, x < 16)
    (h : l.map (Nat.cast : ℕ → F p) = m) : l = m.map ZMod.val := by
  subst h
  rw [List.map_map]
  conv_lhs => rw [← List.map_id l]
  apply List.map_congr_left
  intro x hx
  have := hl x hx
  simp only [id, Function.comp]
  rw [val_natCast_lt (by omega)]

/-- The part of the key between two positions, as numbers. -/
def keyPart (key : List (F p)) (a b : ℕ) : List ℕ := ((key.map ZMod.val).drop a).take (b - a)

/-- `c` is reached from `u` by reading the nibbles `ks`. -/
def Leads (u : Trie) (ks : List ℕ) (c : Trie) : Prop := u.Node c ∧ ∀ k, u.get (ks ++ k) = c.get k

/-- What a satisfied active layer tells, whatever its type: `row` is its buffer, `T` the hash it must refer to. -/
structure LayerFact (x : InclusionIn p) (ls : List (LayerOut p)) (j : ℕ) (o : LayerOut p) (T : HashOut p) : Prop where
  outLen : 2 ≤ o.hash.outLen.val ∧ o.hash.output.length = 64
  bound : ∃ v ≤ 4, verdict x.types ls j = ((v : ℕ) : F p)
  step : verdict x.types ls j = 4 → FragOk (((64 : ℕ) : F p)) (fun t => t) x.starts x.types j →
    2 ≤ T.outLen.val → T.output.length = 64 →
    ∀ (u : Trie) (n : ℕ), u.Fixed n → n ≤ 64 →
      (∀ path v, u = .leaf path v → u.encode.length ≤ 400 ∧ u.encode.length % 136 ≤ 121) →
      o.hash.output = (nibblesOf (keccakBytes u.encode)).map Nat.cast →
      (∃ row ∈ x.nodeRlp, ∃ ri < 10, Collision (supplied (row.map ZMod.val) ri) (pad (bytesToBits u.encode))) ∨
      ∃ c, Leads u (keyPart x.key (x.starts.getD j 0).val (x.starts.getD (j + 1) 0).val) c ∧
        (x.starts.getD (j + 1) 0).val - (x.starts.getD j 0).val ≤ n ∧
        c.Fixed (n - ((x.starts.getD (j + 1) 0).val - (x.starts.getD j 0).val)) ∧
        T.output = (nibblesOf (keccakBytes c.encode)).map Nat.cast

theorem layer_fact (hp : 2 ^ 128 < p) {x : InclusionIn p} {ls : List (LayerOut p)} {j : ℕ} {o : LayerOut p}
    {lh : HashOut p} {next : Option (HashOut p)} (hkl : x.key.length = 64)
    (h16 : ∀ row ∈ x.nodeRlp, row.length % 16 = 0) (hlo : ls[j]? = some o)
    (h : layerStep (fixedArgs 64 x x.key lh) j next = some o) (hj : j < 100) (hjd : j < x.depth.val)
    (hty : x.types.getD j 0 = 0 ∨ x.types.getD j 0 = 1) (T : HashOut p)
    (hT : (x.depth.val = j + 2 ∧ T = lh) ∨ (x.depth.val ≠ j + 2 ∧ next = some T)) : LayerFact x ls j o T := by
  have hver : verdict x.types ls j = o.branch + x.types.getD j 0 * (o.ext - o.branch) := by
    unfold verdict; rw [hlo]
  have hev : ∀ row : List (F p), row.length % 16 = 0 → (row.map ZMod.val).length % 2 = 0 := by
    intro row h; rw [List.length_map]; omega
  rcases hty with ht | ht
  · -- branch
    obtain ⟨row, hrow, hlen, hRH, hb, hfacts⟩ := layer_branch hp (a := fixedArgs 64 x x.key lh) rfl rfl rfl rfl hkl h16 h hj
      ht T hjd hT
    rw [ht, zero_mul, add_zero] at hver
    refine ⟨hRH.outLen_ge hp, by rw [hver]; exact hb, ?_⟩
    intro h4 hfr hT2 hT64 u n hF hn hR hhash
    rw [hver] at h4
    obtain ⟨hLV, nib, hnib16, hkey, hpl, hrefs⟩ := hfacts h4
    obtain ⟨ri, hri, hout⟩ := hRH.hash
    have hmem := List.mem_of_getElem? hrow
    have hrl : (row.map ZMod.val).length ≤ 2720 := by rw [List.length_map]; exact hRH.len
    rcases supplied_eq_or_collision hp hri hrl u.encode (hout.symm.trans hhash) with hs | hcol
    swap
    · exact Or.inl ⟨row, hmem, ri, hri, hcol⟩
    right
    have hShow := shows_of_supplied hRH.nib (hev row (h16 row hmem)) (encode_bytes hF hn hR) hs
    obtain ⟨f, rfl, hitems⟩ := branch_true hShow hF hn hR hRH.nib (by rw [List.length_map]; exact hlen) hLV
    obtain ⟨hf1, hf2, hf3⟩ := hfr
    rcases hf1 with hf1 | hf1
    swap
    · rw [ht] at hf1; exact absurd hf1 zero_ne_one
    have h64 : ((64 : ℕ) : F p).val = 64 := val_natCast_lt (by omega)
    rw [h64] at hf3
    set s := x.starts.getD j 0 with hsd
    have hs' : (x.starts.getD (j + 1) 0).val = s.val + 1 := by
      rw [← hf1]
      have : s + 1 = ((s.val + 1 : ℕ) : F p) := by push_cast; rw [ZMod.natCast_zmod_val]
      rw [this, val_natCast_lt (by omega)]
    have hit := hitems ⟨nib, hnib16⟩
    simp only at hit
    have hit1 := hit.1
    rw [← hpl] at hit1
    have hl64 : (refPay (f ⟨nib, hnib16⟩)).length = 32 := by
      rcases refPay_length (f ⟨nib, hnib16⟩) with h0 | h0 <;> omega
    have hrp : refPay (f ⟨nib, hnib16⟩) = keccakBytes (f ⟨nib, hnib16⟩).encode := by
      unfold refPay at hl64 ⊢
      split
      · rename_i hh; rw [if_pos hh] at hl64; simp at hl64
      · rfl
    rw [hit.2, hrp, hit1, hl64, List.take_of_length_le (by rw [List.length_take]; omega),
      List.take_of_length_le (by omega)] at hrefs
    refine ⟨f ⟨nib, hnib16⟩, ⟨.branch (i := ⟨nib, hnib16⟩) (.self _), ?_⟩, ?_, ?_, hrefs⟩
    · intro k
      have hkey' : x.key[s.val]? = some ((nib : ℕ) : F p) := hkey
      have hkp : keyPart x.key s.val (x.starts.getD (j + 1) 0).val = [nib] := by
        unfold keyPart
        obtain ⟨h1, h2⟩ := List.getElem?_eq_some_iff.1 hkey'
        rw [hs', show s.val + 1 - s.val = 1 by omega, List.drop_eq_getElem_cons (by rw [List.length_map]; exact h1)]
        rw [List.take_succ_cons, List.take_zero, List.getElem_map, h2, val_natCast_lt (by omega)]
      rw [hkp, List.singleton_append, Trie.get, dif_pos hnib16]
    · have := hF.1; omega
    · rw [hs', show s.val + 1 - s.val = 1 by omega]
      exact (hF.2 _).1
  · -- extension
    obtain ⟨row, hrow, hlen, hRH, hb, hfacts⟩ := layer_ext hp (a := fixedArgs 64 x x.key lh) rfl rfl rfl rfl hkl h16 h hj
      ht T hT
    have hver : verdict x.types ls j = o.ext := by rw [hver, ht]; ring
    refine ⟨hRH.outLen_ge hp, by rw [hver]; exact hb, ?_⟩
    intro h4 hfr hT2 hT64 u n hF hn hR hhash
    rw [hver] at h4
    obtain ⟨hLV, path, h0, hss, hs64, hpl, hpath, hTl, hrefs⟩ := hfacts h4
    obtain ⟨ri, hri, hout⟩ := hRH.hash
    have hmem := List.mem_of_getElem? hrow
    have hrl : (row.map ZMod.val).length ≤ 2720 := by rw [List.length_map]; exact hRH.len
    rcases supplied_eq_or_collision hp hri hrl u.encode (hout.symm.trans hhash) with hs | hcol
    swap
    · exact Or.inl ⟨row, hmem, ri, hri, hcol⟩
    right
    have hShow := shows_of_supplied hRH.nib (hev row (h16 row hmem)) (encode_bytes hF hn hR) hs
    obtain ⟨c, rfl, hit, hit64⟩ := ext_true hShow hF hn hR hRH.nib (by rw [List.length_map]; omega) hLV h0
    obtain ⟨g1, g2, g3, g4⟩ := hF
    rw [hTl, hit64, hit, List.take_of_length_le (by rw [List.length_take]; omega),
      List.take_of_length_le (by omega)] at hrefs
    have hpe : path = keyPart x.key (x.starts.getD j 0).val (x.starts.getD (j + 1) 0).val := by
      have h1 := cast_list_inj hp g2 hpath
      rw [h1]
      unfold keyPart
      rw [List.map_take, List.map_drop, hpl]
      rfl
    have hpl' : path.length = (x.starts.getD (j + 1) 0).val - (x.starts.getD j 0).val := hpl
    refine ⟨c, ⟨.ext (.self _), ?_⟩, by omega, by rw [← hpl']; exact g3, hrefs⟩
    intro k
    rw [← hpe, Trie.get, List.take_left, if_pos rfl, List.drop_left]

end Verif.Mpt
