import Verif.Mpt.Read

/-! # Property theorems C15–C17 (single trie nodes)

Every theorem is about a buffer whose first cells are the nibbles `ns`; `cyc ns` is the buffer read as a stream. -/

set_option linter.unusedSectionVars false
set_option linter.unusedVariables false

namespace Verif.Mpt
open Api Rlp Keccak Spec.Rlp Spec.Mpt
variable {p : ℕ} [Fact p.Prime]

theorem sum4 {a b c d : ℕ} (ha : a ≤ 1) (hb : b ≤ 1) (hc : c ≤ 1) (hd : d ≤ 1) :
    a + b + c + d = 4 ↔ a = 1 ∧ b = 1 ∧ c = 1 ∧ d = 1 := by omega

theorem cast_eq_four (hp : 2 ^ 128 < p) {n : ℕ} (hn : n < 2 ^ 20) : ((n : ℕ) : F p) = 4 ↔ n = 4 := by
  have := natCast_inj_of_lt (p := p) (a := n) (b := 4) (by omega) (by omega)
  simpa using this

/-- What `CheckLeaf` binds, for any stream: internal form of C15. -/
theorem leaf_facts (hp : 2 ^ 128 < p) (mk mv : ℕ) (hmk : mk < 2 ^ 20) (hmv : mv < 2 ^ 20) (h66 : 66 ≤ mv)
    (keyLen : F p) (key values rlp : List (F p)) (pl : F p) (S : ℕ → ℕ)
    (hc : CellsOf (rlp.take (leafMaxRlp mk mv)) (leafMaxRlp mk mv) S)
    (hk : key.length = mk) (hv : values.length = mv) {o : LeafOut p}
    (h : checkLeaf mk mv keyLen key values rlp pl = some o) :
    o.valueLength.val = payLen S (itemOffset S 1) ∧ payLen S (itemOffset S 1) ≤ mv ∧
    payLen S (itemOffset S 0) ≤ mk + 3 ∧
    (∃ v ≤ 4, o.output = ((v : ℕ) : F p)) ∧
    (o.output = 4 ↔ ListVerdict S 2 ∧ ∃ path : List ℕ, itemNibbles S 0 = hexPrefixNibbles true path ∧
      pl.val = (if path.length % 2 = 1 then 1 else 2) ∧ path.length ≤ mk ∧
      ((ZeroValue values ∧ key.take path.length ≠ path.map (Nat.cast : ℕ → F p)) ∨
       (key.take path.length = path.map (Nat.cast : ℕ → F p) ∧ keyLen.val = path.length ∧
        values.take (payLen S (itemOffset S 1)) = (itemNibbles S 1).map (Nat.cast : ℕ → F p)))) := by
  classical
  rw [checkLeaf_eq hp mk mv hmk hmv h66 keyLen key values rlp pl S hc hk hv] at h
  split at h
  · rename_i hcond
    obtain ⟨hr, ⟨hA1, hA2, hA3⟩, hB⟩ := hcond
    have h := (Option.some.inj h).symm
    subst h
    have hl1 := payLen_lt S hc.nib (itemOffset S 1)
    have i1 := ind_le (ListVerdict S 2)
    have i2 := ind_le (PrefixOk S 3 2 pl.val)
    have i3 := ind_le (key.take (payLen S (itemOffset S 0) - pl.val) =
            ((itemNibbles S 0).drop pl.val).map (Nat.cast : ℕ → F p) ∧
            keyLen.val = payLen S (itemOffset S 0) - pl.val)
    have i4 := ind_le (values.take (payLen S (itemOffset S 1)) = (itemNibbles S 1).map (Nat.cast : ℕ → F p))
    refine ⟨val_natCast_lt (by omega), hB, by omega, ⟨_, ?_, rfl⟩, ?_⟩
    · split_ifs <;> omega
    · simp only
      rw [cast_eq_four hp (by split_ifs <;> omega)]
      have hpath : ∀ path, itemNibbles S 0 = hexPrefixNibbles true path →
          pl.val = (if path.length % 2 = 1 then 1 else 2) →
          (itemNibbles S 0).drop pl.val = path ∧ payLen S (itemOffset S 0) - pl.val = path.length := by
        intro path hp1 hp2
        have := hex_prefixOk hp1
        rw [← hp2] at this
        exact ⟨this.2.1, by omega⟩
      have hpre : PrefixOk S 3 2 pl.val → ∃ path, itemNibbles S 0 = hexPrefixNibbles true path ∧
          pl.val = (if path.length % 2 = 1 then 1 else 2) := by
        intro hP
        refine ⟨_, prefixOk_hex (lf := true) hA2 hP, ?_⟩
        have hev := payLen_even S (itemOffset S 0)
        rw [List.length_drop, itemNibbles_length]
        rcases hP with ⟨h1, -⟩ | ⟨h1, -⟩ <;> rw [h1] at hA2 ⊢
        · rw [if_pos (by omega)]
        · rw [if_neg (by omega)]
      constructor
      · intro hsum
        have hLV : ListVerdict S 2 := by
          refine (ind_eq_one _).1 ?_; split_ifs at hsum <;> omega
        have hPO : PrefixOk S 3 2 pl.val := by
          refine (ind_eq_one _).1 ?_; split_ifs at hsum <;> omega
        obtain ⟨path, e1, e2⟩ := hpre hPO
        obtain ⟨e3, e4⟩ := hpath path e1 e2
        refine ⟨hLV, path, e1, e2, by omega, ?_⟩
        rw [e3, e4] at hsum i3
        by_cases hZ : ZeroValue values ∧ ¬ key.take path.length = path.map (Nat.cast : ℕ → F p)
        · exact Or.inl hZ
        · rw [if_neg hZ] at hsum
          right
          have h3 := (ind_eq_one (key.take path.length = path.map (Nat.cast : ℕ → F p) ∧
            keyLen.val = path.length)).1 (by omega)
          have h4 := (ind_eq_one (values.take (payLen S (itemOffset S 1)) =
            (itemNibbles S 1).map (Nat.cast : ℕ → F p))).1 (by omega)
          exact ⟨h3.1, h3.2, h4⟩
      · rintro ⟨hLV, path, e1, e2, -, hor⟩
        obtain ⟨e3, e4⟩ := hpath path e1 e2
        have hPO : PrefixOk S 3 2 pl.val := by
          have := (hex_prefixOk e1).1
          rw [← e2] at this
          exact this
        rw [(ind_eq_one _).2 hLV, (ind_eq_one _).2 hPO, e3, e4]
        rcases hor with hZ | ⟨a1, a2, a3⟩
        · rw [if_pos hZ]
        · rw [if_neg (by rintro ⟨-, hne⟩; exact hne a1), (ind_eq_one _).2 ⟨a1, a2⟩, (ind_eq_one _).2 a3]
  · cases h

/-- What `CheckExtension` binds, for any stream: internal form of C16. -/
theorem ext_facts (hp : 2 ^ 128 < p) (mk : ℕ) (hmk : mk < 2 ^ 20) (keyLen : F p) (key : List (F p))
    (refLen : F p) (refs rlp : List (F p)) (pl : F p) (S : ℕ → ℕ)
    (hc : CellsOf (rlp.take (extMaxRlp mk)) (extMaxRlp mk) S)
    (hk : mk ≤ key.length) (hkp : key.length < 2 ^ 63) (hrf : 64 ≤ refs.length) (hrp : refs.length < 2 ^ 63)
    {o : NodeOut p} (h : checkExtension mk keyLen key refLen refs rlp pl = some o) :
    o.total = ((listHdr (byteAt S 0) + declared S : ℕ) : F p) ∧
    payLen S (itemOffset S 0) ≤ mk + 3 ∧ payLen S (itemOffset S 1) ≤ 64 ∧
    (∃ v ≤ 4, o.output = ((v : ℕ) : F p)) ∧
    (o.output = 4 ↔ ListVerdict S 2 ∧ ∃ path : List ℕ, itemNibbles S 0 = hexPrefixNibbles false path ∧
      pl.val = (if path.length % 2 = 1 then 1 else 2) ∧ path.length ≤ mk ∧
      key.take path.length = path.map (Nat.cast : ℕ → F p) ∧ keyLen.val = path.length ∧
      refLen.val = payLen S (itemOffset S 1) ∧
      refs.take refLen.val = (itemNibbles S 1).map (Nat.cast : ℕ → F p)) := by
  classical
  rw [checkExtension_eq hp mk hmk keyLen key refLen refs rlp pl S hc hk hkp hrf hrp] at h
  split at h
  · rename_i hcond
    obtain ⟨hr, ⟨hA1, hA2, hA3⟩, hB⟩ := hcond
    have h := (Option.some.inj h).symm
    subst h
    have i1 := ind_le (ListVerdict S 2)
    have i2 := ind_le (PrefixOk S 1 0 pl.val)
    have i3 := ind_le (key.take (payLen S (itemOffset S 0) - pl.val) =
            ((itemNibbles S 0).drop pl.val).map (Nat.cast : ℕ → F p) ∧
            keyLen.val = payLen S (itemOffset S 0) - pl.val)
    have i4 := ind_le (refs.take (payLen S (itemOffset S 1)) = (itemNibbles S 1).map (Nat.cast : ℕ → F p) ∧
            refLen.val = payLen S (itemOffset S 1))
    refine ⟨rfl, by omega, hB, ⟨_, by omega, rfl⟩, ?_⟩
    simp only
    rw [cast_eq_four hp (by omega), sum4 i1 i2 i3 i4, ind_eq_one, ind_eq_one, ind_eq_one, ind_eq_one]
    constructor
    · rintro ⟨hLV, hP, ⟨a1, a2⟩, a3, a4⟩
      refine ⟨hLV, _, prefixOk_hex (lf := false) hA2 hP, ?_, ?_, ?_, ?_, a4, ?_⟩
      · have hev := payLen_even S (itemOffset S 0)
        rw [List.length_drop, itemNibbles_length]
        rcases hP with ⟨h1, -⟩ | ⟨h1, -⟩ <;> rw [h1] at hA2 ⊢
        · rw [if_pos (by omega)]
        · rw [if_neg (by omega)]
      · rw [List.length_drop, itemNibbles_length]; exact hA3
      · rw [List.length_drop, itemNibbles_length]; exact a1
      · rw [List.length_drop, itemNibbles_length]; exact a2
      · rw [a4]; exact a3
    · rintro ⟨hLV, path, e1, e2, -, a1, a2, a3, a4⟩
      have hx := hex_prefixOk e1
      rw [← e2] at hx
      rw [hx.2.1, show payLen S (itemOffset S 0) - pl.val = path.length by omega]
      exact ⟨hLV, hx.1, ⟨a1, a2⟩, a3 ▸ a4, a3⟩
  · cases h

/-- What `CheckBranch` binds, for any stream: internal form of C17. -/
theorem branch_facts (hp : 2 ^ 128 < p) (nib refLen : F p) (refs rlp : List (F p)) (S : ℕ → ℕ)
    (hc : CellsOf (rlp.take 1064) 1064 S) (hrf : 64 ≤ refs.length) (hrp : refs.length < 2 ^ 63)
    {o : NodeOut p} (h : checkBranch nib refLen refs rlp = some o) :
    o.total = ((listHdr (byteAt S 0) + declared S : ℕ) : F p) ∧ nib.val < 16 ∧ refLen.val ≤ 64 ∧
    (∃ v ≤ 4, o.output = ((v : ℕ) : F p)) ∧
    (o.output = 4 ↔ ListVerdict S 17 ∧ refLen.val = payLen S (itemOffset S nib.val) ∧
      refs.take refLen.val = (itemNibbles S nib.val).map (Nat.cast : ℕ → F p)) := by
  rw [checkBranch_eq hp nib refLen refs rlp S hc hrf hrp] at h
  split at h
  · rename_i hcond
    obtain ⟨hr, hn, hB⟩ := hcond
    have h := (Option.some.inj h).symm
    subst h
    have i1 := ind_le (ListVerdict S 17)
    have i2 := ind_le (refs.take refLen.val = (List.range refLen.val).map fun j =>
          ((S (itemOffset S nib.val + hdrLen (byteAt S (itemOffset S nib.val)) + j) : ℕ) : F p))
    have i3 := ind_le (refLen.val = payLen S (itemOffset S nib.val))
    refine ⟨rfl, hn, hB, ⟨_, by omega, rfl⟩, ?_⟩
    simp only
    rw [cast_eq_four hp (by omega), sum4 i1 i2 i3 le_rfl, ind_eq_one, ind_eq_one, ind_eq_one]
    have e : refLen.val = payLen S (itemOffset S nib.val) → (List.range refLen.val).map (fun j =>
        ((S (itemOffset S nib.val + hdrLen (byteAt S (itemOffset S nib.val)) + j) : ℕ) : F p)) =
        (itemNibbles S nib.val).map (Nat.cast : ℕ → F p) := by
      intro h; rw [h, itemNibbles, List.map_map]; rfl
    constructor
    · rintro ⟨a1, a2, a3, -⟩
      exact ⟨a1, a3, by rw [a2, e a3]⟩
    · rintro ⟨a1, a2, a3⟩
      exact ⟨a1, by rw [a3, e a2], a2, rfl⟩
  · cases h

/-- The list verdict without empty-list items is "this is a list of `n` items". -/
theorem verdict_isListOf {S : ℕ → ℕ} (hS : ∀ k, S k < 16) {n : ℕ} (h : ListVerdict S n)
    (hc0 : ∀ i < n, byteAt S (itemOffset S i) ≠ 0xc0) : IsListOf S n := by
  unfold ListVerdict at h
  rw [emptyLists_zero S n hc0] at h
  rw [isListOf_iff S hS]
  by_cases h1 : isList S 0 <;> by_cases h2 : itemOffset S n = listHdr (byteAt S 0) + declared S
  · exact ⟨h1, h2⟩
  · rw [if_pos h1, if_neg h2] at h; omega
  · rw [if_neg h1, if_pos h2] at h; omega
  · rw [if_neg h1, if_neg h2] at h; omega

theorem ne_c0_of_payLen {S : ℕ → ℕ} {o : ℕ} (h : payLen S o ≠ 0) : byteAt S o ≠ 0xc0 := by
  intro h0
  apply h
  unfold payLen
  simp only [h0]
  norm_num

section
variable (ns : List ℕ) (hnib : ∀ x ∈ ns, x < 16)
include hnib

/-- **C15.** If `CheckLeaf` accepts a node (verdict 4) for a value that is not the zero value, then the node's path
item is the hex-prefix encoding of a leaf path that equals the remaining key nibbles (same length, same nibbles),
the value item is exactly the first `valueLength` nibbles of the claimed value, and, unless the value is empty, the
node is an RLP list of exactly these two items. -/
theorem C15_leaf_binds (hp : 2 ^ 128 < p) (mk mv : ℕ) (hmk : mk < 2 ^ 20) (hmv : mv < 2 ^ 20) (h66 : 66 ≤ mv)
    (keyLen : F p) (key values rlp : List (F p)) (pl : F p) (hlen : ns.length = leafMaxRlp mk mv)
    (hrlp : rlp.take (leafMaxRlp mk mv) = ns.map (Nat.cast : ℕ → F p))
    (hk : key.length = mk) (hv : values.length = mv) {o : LeafOut p}
    (h : checkLeaf mk mv keyLen key values rlp pl = some o) (hout : o.output = 4)
    (hnz : ¬ (values.take 2 = [8, 0] ∧ (values.drop 2).take 64 = List.replicate 64 0)) :
    ∃ path value : List ℕ, itemNibbles (cyc ns) 0 = hexPrefixNibbles true path ∧
      itemNibbles (cyc ns) 1 = value ∧
      path.map (Nat.cast : ℕ → F p) = key.take keyLen.val ∧ path.length = keyLen.val ∧
      value.map (Nat.cast : ℕ → F p) = values.take o.valueLength.val ∧ value.length = o.valueLength.val ∧
      (value ≠ [] → IsListOf (cyc ns) 2) := by
  have hpos : 0 < leafMaxRlp mk mv := by unfold leafMaxRlp; omega
  have hc : CellsOf (rlp.take (leafMaxRlp mk mv)) (leafMaxRlp mk mv) (cyc ns) := by
    rw [hrlp]; exact cells_cyc hnib hlen hpos
  obtain ⟨f1, f2, f3, -, f5⟩ := leaf_facts hp mk mv hmk hmv h66 keyLen key values rlp pl _ hc hk hv h
  obtain ⟨hLV, path, e1, e2, e3, hor⟩ := f5.1 hout
  rcases hor with ⟨hZ, -⟩ | ⟨a1, a2, a3⟩
  · exact absurd hZ hnz
  refine ⟨path, _, e1, rfl, by rw [a2, a1], a2.symm, by rw [f1, a3], by rw [itemNibbles_length, f1], ?_⟩
  intro hne
  apply verdict_isListOf hc.nib hLV
  intro i hi
  apply ne_c0_of_payLen
  rcases i with _ | _ | i
  · have := (hex_prefixOk e1).2.2
    split at this <;> omega
  · intro h0
    apply hne
    rw [← List.length_eq_zero_iff, itemNibbles_length, h0]
  · omega

/-- **C15 (exact acceptance, both modes).** For every satisfiable run: verdict 4 iff the list checker accepts and the
path item is a leaf path (with the stated prefix length), and either the claimed value is the zero value and the path
is *not* a prefix of the remaining key, or the path is exactly the remaining key and the value item is the claimed value. -/
theorem C15_leaf_exact (hp : 2 ^ 128 < p) (mk mv : ℕ) (hmk : mk < 2 ^ 20) (hmv : mv < 2 ^ 20) (h66 : 66 ≤ mv)
    (keyLen : F p) (key values rlp : List (F p)) (pl : F p) (hlen : ns.length = leafMaxRlp mk mv)
    (hrlp : rlp.take (leafMaxRlp mk mv) = ns.map (Nat.cast : ℕ → F p))
    (hk : key.length = mk) (hv : values.length = mv) {o : LeafOut p}
    (h : checkLeaf mk mv keyLen key values rlp pl = some o) :
    (o.output = 4 ↔ ListVerdict (cyc ns) 2 ∧ ∃ path : List ℕ,
      itemNibbles (cyc ns) 0 = hexPrefixNibbles true path ∧ pl.val = (if path.length % 2 = 1 then 1 else 2) ∧
      path.length ≤ mk ∧
      ((ZeroValue values ∧ key.take path.length ≠ path.map (Nat.cast : ℕ → F p)) ∨
       (key.take path.length = path.map (Nat.cast : ℕ → F p) ∧ keyLen.val = path.length ∧
        values.take o.valueLength.val = (itemNibbles (cyc ns) 1).map (Nat.cast : ℕ → F p)))) ∧
    o.valueLength.val = (itemNibbles (cyc ns) 1).length := by
  have hpos : 0 < leafMaxRlp mk mv := by unfold leafMaxRlp; omega
  have hc : CellsOf (rlp.take (leafMaxRlp mk mv)) (leafMaxRlp mk mv) (cyc ns) := by
    rw [hrlp]; exact cells_cyc hnib hlen hpos
  obtain ⟨f1, f2, f3, -, f5⟩ := leaf_facts hp mk mv hmk hmv h66 keyLen key values rlp pl _ hc hk hv h
  rw [f1, itemNibbles_length]
  exact ⟨f5, rfl⟩

/-- **C16.** If `CheckExtension` accepts a node, the node's path item is the hex-prefix encoding of an extension path
equal to the key fragment, and its second item is the first `refLen` nibbles of the claimed child reference; if the
reference is not empty the node is an RLP list of exactly these two items. -/
theorem C16_extension_binds (hp : 2 ^ 128 < p) (mk : ℕ) (hmk : mk < 2 ^ 20) (keyLen : F p) (key : List (F p))
    (refLen : F p) (refs rlp : List (F p)) (pl : F p) (hlen : ns.length = extMaxRlp mk)
    (hrlp : rlp.take (extMaxRlp mk) = ns.map (Nat.cast : ℕ → F p))
    (hk : mk ≤ key.length) (hkp : key.length < 2 ^ 63) (hrf : 64 ≤ refs.length) (hrp : refs.length < 2 ^ 63)
    {o : NodeOut p} (h : checkExtension mk keyLen key refLen refs rlp pl = some o) (hout : o.output = 4) :
    ∃ path ref : List ℕ, itemNibbles (cyc ns) 0 = hexPrefixNibbles false path ∧
      itemNibbles (cyc ns) 1 = ref ∧
      path.map (Nat.cast : ℕ → F p) = key.take keyLen.val ∧ path.length = keyLen.val ∧
      ref.map (Nat.cast : ℕ → F p) = refs.take refLen.val ∧ ref.length = refLen.val ∧
      (ref ≠ [] → IsListOf (cyc ns) 2) := by
  have hpos : 0 < extMaxRlp mk := by unfold extMaxRlp; omega
  have hc : CellsOf (rlp.take (extMaxRlp mk)) (extMaxRlp mk) (cyc ns) := by
    rw [hrlp]; exact cells_cyc hnib hlen hpos
  obtain ⟨-, -, -, -, f5⟩ := ext_facts hp mk hmk keyLen key refLen refs rlp pl _ hc hk hkp hrf hrp h
  obtain ⟨hLV, path, e1, e2, e3, a1, a2, a3, a4⟩ := f5.1 hout
  refine ⟨path, _, e1, rfl, by rw [a2, a1], a2.symm, a4.symm, by rw [itemNibbles_length, a3], ?_⟩
  intro hne
  apply verdict_isListOf hc.nib hLV
  intro i hi
  apply ne_c0_of_payLen
  rcases i with _ | _ | i
  · have := (hex_prefixOk e1).2.2
    split at this <;> omega
  · intro h0
    apply hne
    rw [← List.length_eq_zero_iff, itemNibbles_length, h0]
  · omega

/-- **C16 (exact acceptance).** -/
theorem C16_extension_exact (hp : 2 ^ 128 < p) (mk : ℕ) (hmk : mk < 2 ^ 20) (keyLen : F p) (key : List (F p))
    (refLen : F p) (refs rlp : List (F p)) (pl : F p) (hlen : ns.length = extMaxRlp mk)
    (hrlp : rlp.take (extMaxRlp mk) = ns.map (Nat.cast : ℕ → F p))
    (hk : mk ≤ key.length) (hkp : key.length < 2 ^ 63) (hrf : 64 ≤ refs.length) (hrp : refs.length < 2 ^ 63)
    {o : NodeOut p} (h : checkExtension mk keyLen key refLen refs rlp pl = some o) :
    o.output = 4 ↔ ListVerdict (cyc ns) 2 ∧ ∃ path : List ℕ,
      itemNibbles (cyc ns) 0 = hexPrefixNibbles false path ∧ pl.val = (if path.length % 2 = 1 then 1 else 2) ∧
      path.length ≤ mk ∧ key.take path.length = path.map (Nat.cast : ℕ → F p) ∧ keyLen.val = path.length ∧
      refLen.val = (itemNibbles (cyc ns) 1).length ∧
      refs.take refLen.val = (itemNibbles (cyc ns) 1).map (Nat.cast : ℕ → F p) := by
  have hpos : 0 < extMaxRlp mk := by unfold extMaxRlp; omega
  have hc : CellsOf (rlp.take (extMaxRlp mk)) (extMaxRlp mk) (cyc ns) := by
    rw [hrlp]; exact cells_cyc hnib hlen hpos
  have := (ext_facts hp mk hmk keyLen key refLen refs rlp pl _ hc hk hkp hrf hrp h).2.2.2.2
  rw [itemNibbles_length]
  exact this

/-- **C17.** If `CheckBranch` accepts a node, the key nibble addresses one of the sixteen children, and that child
item is exactly the first `refLen` nibbles of the claimed reference; if no item of the node is an empty list the
node is an RLP list of exactly 17 items. -/
theorem C17_branch_binds (hp : 2 ^ 128 < p) (nib refLen : F p) (refs rlp : List (F p)) (hlen : ns.length = 1064)
    (hrlp : rlp.take 1064 = ns.map (Nat.cast : ℕ → F p)) (hrf : 64 ≤ refs.length) (hrp : refs.length < 2 ^ 63)
    {o : NodeOut p} (h : checkBranch nib refLen refs rlp = some o) (hout : o.output = 4) :
    nib.val < 16 ∧ (itemNibbles (cyc ns) nib.val).length = refLen.val ∧
      (itemNibbles (cyc ns) nib.val).map (Nat.cast : ℕ → F p) = refs.take refLen.val ∧
      ((∀ i < 17, byteAt (cyc ns) (itemOffset (cyc ns) i) ≠ 0xc0) → IsListOf (cyc ns) 17) := by
  have hc : CellsOf (rlp.take 1064) 1064 (cyc ns) := by
    rw [hrlp]; exact cells_cyc hnib hlen (by omega)
  obtain ⟨-, f2, -, -, f5⟩ := branch_facts hp nib refLen refs rlp _ hc hrf hrp h
  obtain ⟨hLV, a2, a3⟩ := f5.1 hout
  exact ⟨f2, by rw [itemNibbles_length, a2], a3.symm, verdict_isListOf hc.nib hLV⟩

/-- **C17 (exact acceptance).** -/
theorem C17_branch_exact (hp : 2 ^ 128 < p) (nib refLen : F p) (refs rlp : List (F p)) (hlen : ns.length = 1064)
    (hrlp : rlp.take 1064 = ns.map (Nat.cast : ℕ → F p)) (hrf : 64 ≤ refs.length) (hrp : refs.length < 2 ^ 63)
    {o : NodeOut p} (h : checkBranch nib refLen refs rlp = some o) :
    o.output = 4 ↔ ListVerdict (cyc ns) 17 ∧ refLen.val = (itemNibbles (cyc ns) nib.val).length ∧
      refs.take refLen.val = (itemNibbles (cyc ns) nib.val).map (Nat.cast : ℕ → F p) := by
  have hc : CellsOf (rlp.take 1064) 1064 (cyc ns) := by
    rw [hrlp]; exact cells_cyc hnib hlen (by omega)
  rw [itemNibbles_length]
  exact (branch_facts hp nib refLen refs rlp _ hc hrf hrp h).2.2.2.2

end

end Verif.Mpt
