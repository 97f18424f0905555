import Verif.Mpt.NodeProps

/-! # Property theorems C15–C17, continued: genuine nodes are accepted -/

set_option linter.unusedSectionVars false
set_option linter.unusedVariables false

namespace Verif.Mpt
open Api Rlp Keccak Spec.Rlp Spec.Mpt
variable {p : ℕ} [Fact p.Prime]

theorem prefixMax_ok (M n : ℕ) (hM : M < 2 ^ 30) (h : n ≤ M) : 2 * (lenBytes n).length ≤ prefixMax M := by
  unfold prefixMax
  rw [logCeil_eq_size M (hM.trans (by norm_num))]
  have h1 : n < 256 ^ (M.size / 8 + 1) := by
    calc n ≤ M := h
      _ < 2 ^ M.size := Nat.lt_size_self M
      _ ≤ 2 ^ (8 * (M.size / 8 + 1)) := Nat.pow_le_pow_right (by norm_num) (by omega)
      _ = 256 ^ (M.size / 8 + 1) := by rw [pow_mul]; norm_num
  have := lenBytes_length_le n _ h1
  omega

theorem flatten_le_nibbles {items : List (List ℕ)} {pad : List ℕ} {N : ℕ}
    (h : (nibblesOf (encodeList items) ++ pad).length = N) : 2 * items.flatten.length ≤ N := by
  rw [List.length_append, nibblesOf_length] at h
  unfold encodeList at h
  rw [List.length_append] at h
  omega

/-- bytes of an encoded list -/
theorem encodeList_bytes {items : List (List ℕ)} (h : ∀ e ∈ items, ∀ b ∈ e, b < 256)
    (hl : items.flatten.length < 256 ^ 8) : ∀ b ∈ encodeList items, b < 256 := by
  unfold encodeList
  intro b hb
  rcases List.mem_append.1 hb with hb | hb
  · exact lenHeader_bytes 0xc0 0xf7 _ (by omega) (by omega) hl b hb
  · obtain ⟨e, he, hb⟩ := List.mem_flatten.1 hb
    exact h e he b hb

/-- What `CheckLeaf` computes on the encoding of a leaf, for a presence or an absence claim that holds of it. -/
theorem leaf_run (hp : 2 ^ 128 < p) (mk mv : ℕ) (hmk : mk + 2 < 112) (hmv : mv < 112 ∨ 128 ≤ mv) (hmv2 : mv < 2 ^ 17)
    (h66 : 66 ≤ mv) (path v pad : List ℕ) (hpath : ∀ x ∈ path, x < 16) (hv : ∀ b ∈ v, b < 256)
    (hpad : ∀ x ∈ pad, x < 16) (hpl : path.length ≤ mk) (hvl : 2 * v.length ≤ mv)
    (hsize : (nibblesOf (Trie.leaf path v).encode ++ pad).length = leafMaxRlp mk mv)
    (rlp : List (F p)) (hrlp : rlp.take (leafMaxRlp mk mv) =
      (nibblesOf (Trie.leaf path v).encode ++ pad).map (Nat.cast : ℕ → F p))
    (key values : List (F p)) (hkl : key.length = mk) (hvll : values.length = mv)
    (keyLen : F p) (hend : (ZeroValue values ∧ key.take path.length ≠ path.map (Nat.cast : ℕ → F p)) ∨
      (key.take path.length = path.map (Nat.cast : ℕ → F p) ∧ keyLen.val = path.length ∧
        values.take (2 * v.length) = (nibblesOf v).map (Nat.cast : ℕ → F p))) :
    ∃ o, checkLeaf mk mv keyLen key values rlp
      (if path.length % 2 = 1 then 1 else 2) = some o ∧ o.output = 4 ∧ o.valueLength = ((2 * v.length : ℕ) : F p) ∧
      o.total = ((2 * (Trie.leaf path v).encode.length : ℕ) : F p) := by
  have hmr : leafMaxRlp mk mv = 10 + mk + mv := by unfold leafMaxRlp; omega
  have hwf := leafParams_wf mk mv (by omega) (by omega) (by omega)
  have henc : (Trie.leaf path v).encode = encodeList [encodeString (hexPrefix true path), encodeString v] := rfl
  rw [henc] at hsize hrlp ⊢
  have hflat := flatten_le_nibbles hsize
  have hE : List.Forall₂ Encodes [encodeString (hexPrefix true path), encodeString v] [hexPrefix true path, v] :=
    .cons (Or.inl rfl) (.cons (Or.inl rfl) .nil)
  have hbytes : ∀ enc ∈ [encodeString (hexPrefix true path), encodeString v], ∀ b ∈ enc, b < 256 := by
    intro enc he
    simp only [List.mem_cons, List.not_mem_nil, or_false] at he
    rcases he with rfl | rfl
    · exact encodeString_bytes (hexPrefix_lt _ _ hpath) (by rw [hexPrefix_length]; omega)
    · exact encodeString_bytes hv (by omega)
  obtain ⟨r, hr, -⟩ := C12_rlpArrayCheck_complete hp (leafParams mk mv) hwf
    (by show leafMaxRlp mk mv < _; omega) (by show 0 < prefixMax _; unfold prefixMax; omega)
    [encodeString (hexPrefix true path), encodeString v] [hexPrefix true path, v] hE hbytes pad hpad hsize
    (fun _ => prefixMax_ok _ _ (by omega) (by omega)) le_rfl
    (by
      intro i pay hi
      rcases i with _ | _ | i
      · obtain rfl : hexPrefix true path = pay := by simpa using hi
        rw [hexPrefix_length]
        simp [leafParams]; omega
      · obtain rfl : v = pay := by simpa using hi
        simp [leafParams]; try omega
      · simp at hi)
    (by
      intro i hi
      rcases i with _ | _ | i
      · simp [leafParams]; omega
      · simp [leafParams]; omega
      · simp at hi)
    (by
      intro i h1 h2
      simp only [leafParams, List.length_cons, List.length_nil] at h1 h2
      omega) rlp hrlp
  have hS : ∀ x ∈ nibblesOf (encodeList [encodeString (hexPrefix true path), encodeString v]) ++ pad, x < 16 :=
    nib_append (nibblesOf_lt _ (encodeList_bytes hbytes (by omega))) hpad
  have hc : CellsOf (rlp.take (leafMaxRlp mk mv)) (leafMaxRlp mk mv)
      (cyc (nibblesOf (encodeList [encodeString (hexPrefix true path), encodeString v]) ++ pad)) := by
    rw [hrlp]; exact cells_cyc hS hsize (by omega)
  set S := cyc (nibblesOf (encodeList [encodeString (hexPrefix true path), encodeString v]) ++ pad) with hSd
  have hL := listRead S hc.nib _ _ hE (by omega) (by
    intro q hq
    simp only [List.mem_cons, List.not_mem_nil, or_false] at hq
    rcases hq with rfl | rfl
    · rw [hexPrefix_length]; omega
    · omega) (cyc_reads rfl)
  obtain ⟨p0, n0⟩ := hL.item 0 _ rfl
  obtain ⟨p1, n1⟩ := hL.item 1 _ rfl
  rw [hexPrefix_length] at p0
  rw [nibblesOf_hexPrefix _ _ hpath] at n0
  have hx := hex_prefixOk n0
  have hplv : (if path.length % 2 = 1 then (1 : F p) else 2).val = if path.length % 2 = 1 then 1 else 2 := by
    split
    · have := val_natCast_lt (p := p) (a := 1) (by omega); simpa using this
    · have := val_natCast_lt (p := p) (a := 2) (by omega); simpa using this
  classical
  have heq := checkLeaf_eq hp mk mv (by omega) (by omega) h66 keyLen key values rlp
    (if path.length % 2 = 1 then 1 else 2) S hc hkl hvll
  have hcond : (rlpArrayCheck (leafParams mk mv) rlp ((2 : ℕ) : F p)).isSome ∧
        ((if path.length % 2 = 1 then (1 : F p) else 2).val ≤ 3 ∧
        (if path.length % 2 = 1 then (1 : F p) else 2).val ≤ payLen S (itemOffset S 0) ∧
        payLen S (itemOffset S 0) - (if path.length % 2 = 1 then (1 : F p) else 2).val ≤ mk) ∧
        payLen S (itemOffset S 1) ≤ mv := by
    rw [hplv]
    have hr' : rlpArrayCheck (leafParams mk mv) rlp ((2 : ℕ) : F p) = some r := hr
    refine ⟨by rw [hr']; rfl, ⟨?_, ?_, ?_⟩, by omega⟩ <;> split <;> omega
  rw [if_pos hcond] at heq
  refine ⟨_, heq, ?_⟩
  have hfacts := leaf_facts hp mk mv (by omega) (by omega) h66 _ key values rlp _ S hc hkl hvll heq
  refine ⟨?_, ?_, ?_⟩
  · refine hfacts.2.2.2.2.2 ⟨hL.verdict, path, n0, hplv, hpl, ?_⟩
    rwa [p1, n1]
  · simp only; rw [p1]
  · simp only; rw [hL.total]

/-- **C15 (completeness).** The encoding of a leaf, followed by any nibbles, is accepted by `CheckLeaf` for its own
path and value (padded to the buffer sizes in any way): verdict 4 and the value's length in nibbles. -/
theorem C15_leaf_complete (hp : 2 ^ 128 < p) (mk mv : ℕ) (hmk : mk + 2 < 112) (hmv : mv < 112 ∨ 128 ≤ mv) (hmv2 : mv < 2 ^ 17)
    (h66 : 66 ≤ mv) (path v pad : List ℕ) (hpath : ∀ x ∈ path, x < 16) (hv : ∀ b ∈ v, b < 256)
    (hpad : ∀ x ∈ pad, x < 16) (hpl : path.length ≤ mk) (hvl : 2 * v.length ≤ mv)
    (hsize : (nibblesOf (Trie.leaf path v).encode ++ pad).length = leafMaxRlp mk mv)
    (rlp : List (F p)) (hrlp : rlp.take (leafMaxRlp mk mv) =
      (nibblesOf (Trie.leaf path v).encode ++ pad).map (Nat.cast : ℕ → F p))
    (key values : List (F p)) (hkl : key.length = mk) (hvll : values.length = mv)
    (hkey : key.take path.length = path.map (Nat.cast : ℕ → F p))
    (hval : values.take (2 * v.length) = (nibblesOf v).map (Nat.cast : ℕ → F p)) :
    ∃ o, checkLeaf mk mv ((path.length : ℕ) : F p) key values rlp
      (if path.length % 2 = 1 then 1 else 2) = some o ∧ o.output = 4 ∧ o.valueLength = ((2 * v.length : ℕ) : F p) ∧
      o.total = ((2 * (Trie.leaf path v).encode.length : ℕ) : F p) :=
  leaf_run hp mk mv hmk hmv hmv2 h66 path v pad hpath hv hpad hpl hvl hsize rlp hrlp key values hkl hvll _
    (Or.inr ⟨hkey, val_natCast_lt (by omega), hval⟩)

/-- **C15 (completeness, absence).** With the zero-value marker as claimed value, the encoding of a leaf whose path is
not a prefix of the claimed key part is accepted. -/
theorem C15_leaf_absent (hp : 2 ^ 128 < p) (mk mv : ℕ) (hmk : mk + 2 < 112) (hmv : mv < 112 ∨ 128 ≤ mv) (hmv2 : mv < 2 ^ 17)
    (h66 : 66 ≤ mv) (path v pad : List ℕ) (hpath : ∀ x ∈ path, x < 16) (hv : ∀ b ∈ v, b < 256)
    (hpad : ∀ x ∈ pad, x < 16) (hpl : path.length ≤ mk) (hvl : 2 * v.length ≤ mv)
    (hsize : (nibblesOf (Trie.leaf path v).encode ++ pad).length = leafMaxRlp mk mv)
    (rlp : List (F p)) (hrlp : rlp.take (leafMaxRlp mk mv) =
      (nibblesOf (Trie.leaf path v).encode ++ pad).map (Nat.cast : ℕ → F p))
    (key values : List (F p)) (hkl : key.length = mk) (hvll : values.length = mv) (keyLen : F p)
    (hz : values.take 2 = [8, 0] ∧ (values.drop 2).take 64 = List.replicate 64 0)
    (hkey : key.take path.length ≠ path.map (Nat.cast : ℕ → F p)) :
    ∃ o, checkLeaf mk mv keyLen key values rlp
      (if path.length % 2 = 1 then 1 else 2) = some o ∧ o.output = 4 ∧ o.valueLength = ((2 * v.length : ℕ) : F p) ∧
      o.total = ((2 * (Trie.leaf path v).encode.length : ℕ) : F p) :=
  leaf_run hp mk mv hmk hmv hmv2 h66 path v pad hpath hv hpad hpl hvl hsize rlp hrlp key values hkl hvll keyLen
    (Or.inl ⟨hz, hkey⟩)

/-- Payload of a reference to a node, when references are hashes: nothing for the empty trie. -/
def refPay (t : Trie) : List ℕ := if t.encode.length < 32 then [] else keccakBytes t.encode

theorem keccakBytes_length (bs : List ℕ) : (keccakBytes bs).length = 32 := digestBytes_length _
theorem keccakBytes_lt (bs : List ℕ) : ∀ b ∈ keccakBytes bs, b < 256 := digestBytes_lt _

theorem empty_encode : Trie.empty.encode = [0x80] := rfl

theorem refOf_eq {t : Trie} (h : t = .empty ∨ 32 ≤ t.encode.length) : refOf t.encode = encodeString (refPay t) := by
  unfold refOf refPay
  rcases h with rfl | h
  · rw [empty_encode]; rfl
  · rw [if_neg (by omega), if_neg (by omega)]

theorem refPay_length (t : Trie) : (refPay t).length = 0 ∨ (refPay t).length = 32 := by
  unfold refPay
  split
  · left; rfl
  · right; exact keccakBytes_length _

theorem refPay_lt (t : Trie) : ∀ b ∈ refPay t, b < 256 := by
  unfold refPay
  split
  · simp
  · exact keccakBytes_lt _

/-- The list gadget is satisfiable on an extension node. -/
theorem ext_sat (hp : 2 ^ 128 < p) (mk : ℕ) (hmk : mk + 2 < 112) (path : List ℕ) (c : Trie) (pad : List ℕ)
    (hpath : ∀ x ∈ path, x < 16) (hpad : ∀ x ∈ pad, x < 16) (hpl : path.length ≤ mk) (hc32 : 32 ≤ c.encode.length)
    (hsize : (nibblesOf (Trie.ext path c).encode ++ pad).length = extMaxRlp mk)
    (rlp : List (F p)) (hrlp : rlp.take (extMaxRlp mk) =
      (nibblesOf (Trie.ext path c).encode ++ pad).map (Nat.cast : ℕ → F p)) :
    (∃ r, rlpArrayCheck (extParams mk) rlp ((2 : ℕ) : F p) = some r) ∧
    CellsOf (rlp.take (extMaxRlp mk)) (extMaxRlp mk) (cyc (nibblesOf (Trie.ext path c).encode ++ pad)) ∧
    ListRead (cyc (nibblesOf (Trie.ext path c).encode ++ pad))
      [encodeString (hexPrefix false path), encodeString (keccakBytes c.encode)] [hexPrefix false path, keccakBytes c.encode] := by
  have hmr : extMaxRlp mk = 72 + mk := by unfold extMaxRlp; omega
  have hwf := extParams_wf mk (by omega)
  have henc : (Trie.ext path c).encode = encodeList [encodeString (hexPrefix false path), encodeString (keccakBytes c.encode)] := by
    show encodeList [encodeString (hexPrefix false path), refOf c.encode] = _
    rw [refOf, if_neg (by omega)]
  rw [henc] at hsize hrlp ⊢
  have hflat := flatten_le_nibbles hsize
  have hE : List.Forall₂ Encodes [encodeString (hexPrefix false path), encodeString (keccakBytes c.encode)]
      [hexPrefix false path, keccakBytes c.encode] :=
    .cons (Or.inl rfl) (.cons (Or.inl rfl) .nil)
  have hbytes : ∀ enc ∈ [encodeString (hexPrefix false path), encodeString (keccakBytes c.encode)],
      ∀ b ∈ enc, b < 256 := by
    intro enc he
    simp only [List.mem_cons, List.not_mem_nil, or_false] at he
    rcases he with rfl | rfl
    · exact encodeString_bytes (hexPrefix_lt _ _ hpath) (by rw [hexPrefix_length]; omega)
    · exact encodeString_bytes (keccakBytes_lt _) (by rw [keccakBytes_length]; norm_num)
  obtain ⟨r, hr, -⟩ := C12_rlpArrayCheck_complete hp (extParams mk) hwf
    (by show extMaxRlp mk < _; omega) (by show 0 < prefixMax _; unfold prefixMax; omega)
    _ _ hE hbytes pad hpad hsize
    (fun _ => prefixMax_ok _ _ (by omega) (by omega)) le_rfl
    (by
      intro i pay hi
      rcases i with _ | _ | i
      · obtain rfl : hexPrefix false path = pay := by simpa using hi
        rw [hexPrefix_length]
        simp [extParams]; omega
      · obtain rfl : keccakBytes c.encode = pay := by simpa using hi
        rw [keccakBytes_length]
        simp [extParams]
      · simp at hi)
    (by
      intro i hi
      rcases i with _ | _ | i
      · simp [extParams]; omega
      · simp [extParams]
      · simp at hi)
    (by
      intro i h1 h2
      simp only [extParams, List.length_cons, List.length_nil] at h1 h2
      omega) rlp hrlp
  have hS : ∀ x ∈ nibblesOf (encodeList [encodeString (hexPrefix false path), encodeString (keccakBytes c.encode)]) ++ pad,
      x < 16 := nib_append (nibblesOf_lt _ (encodeList_bytes hbytes (by omega))) hpad
  have hc : CellsOf (rlp.take (extMaxRlp mk)) (extMaxRlp mk)
      (cyc (nibblesOf (encodeList [encodeString (hexPrefix false path), encodeString (keccakBytes c.encode)]) ++ pad)) := by
    rw [hrlp]; exact cells_cyc hS hsize (by omega)
  refine ⟨⟨r, hr⟩, hc, listRead _ hc.nib _ _ hE (by omega) (by
    intro q hq
    simp only [List.mem_cons, List.not_mem_nil, or_false] at hq
    rcases hq with rfl | rfl
    · rw [hexPrefix_length]; omega
    · rw [keccakBytes_length]; norm_num) (cyc_reads rfl)⟩

/-- **C16 (completeness).** The encoding of an extension node whose child is referenced by hash, followed by any
nibbles, is accepted by `CheckExtension` for its own path and its child's hash. -/
theorem C16_extension_complete (hp : 2 ^ 128 < p) (mk : ℕ) (hmk : mk + 2 < 112) (path : List ℕ) (c : Trie) (pad : List ℕ)
    (hpath : ∀ x ∈ path, x < 16) (hpad : ∀ x ∈ pad, x < 16) (hpl : path.length ≤ mk) (hc32 : 32 ≤ c.encode.length)
    (hsize : (nibblesOf (Trie.ext path c).encode ++ pad).length = extMaxRlp mk)
    (rlp : List (F p)) (hrlp : rlp.take (extMaxRlp mk) =
      (nibblesOf (Trie.ext path c).encode ++ pad).map (Nat.cast : ℕ → F p))
    (key refs : List (F p)) (hkl : mk ≤ key.length) (hkp : key.length < 2 ^ 63)
    (hkey : key.take path.length = path.map (Nat.cast : ℕ → F p))
    (hrefs : refs = (nibblesOf (keccakBytes c.encode)).map (Nat.cast : ℕ → F p)) :
    ∃ o, checkExtension mk ((path.length : ℕ) : F p) key 64 refs rlp
      (if path.length % 2 = 1 then 1 else 2) = some o ∧ o.output = 4 ∧
      o.total = ((2 * (Trie.ext path c).encode.length : ℕ) : F p) := by
  obtain ⟨⟨r, hr⟩, hc, hL⟩ := ext_sat hp mk hmk path c pad hpath hpad hpl hc32 hsize rlp hrlp
  have henc : (Trie.ext path c).encode = encodeList [encodeString (hexPrefix false path), encodeString (keccakBytes c.encode)] := by
    show encodeList [encodeString (hexPrefix false path), refOf c.encode] = _
    rw [refOf, if_neg (by omega)]
  have hrl : refs.length = 64 := by rw [hrefs, List.length_map, nibblesOf_length, keccakBytes_length]
  set S := cyc (nibblesOf (Trie.ext path c).encode ++ pad) with hSd
  obtain ⟨p0, n0⟩ := hL.item 0 _ rfl
  obtain ⟨p1, n1⟩ := hL.item 1 _ rfl
  rw [hexPrefix_length] at p0
  rw [keccakBytes_length] at p1
  rw [nibblesOf_hexPrefix _ _ hpath] at n0
  have hx := hex_prefixOk n0
  have hplv : (if path.length % 2 = 1 then (1 : F p) else 2).val = if path.length % 2 = 1 then 1 else 2 := by
    split
    · have := val_natCast_lt (p := p) (a := 1) (by omega); simpa using this
    · have := val_natCast_lt (p := p) (a := 2) (by omega); simpa using this
  have h64 : (64 : F p).val = 64 := by
    have := val_natCast_lt (p := p) (a := 64) (by omega); simpa using this
  classical
  have heq := checkExtension_eq hp mk (by omega) ((path.length : ℕ) : F p) key 64 refs rlp
    (if path.length % 2 = 1 then 1 else 2) S hc hkl hkp hrl.ge (by omega)
  have hcond : (rlpArrayCheck (extParams mk) rlp ((2 : ℕ) : F p)).isSome ∧
        ((if path.length % 2 = 1 then (1 : F p) else 2).val ≤ 3 ∧
        (if path.length % 2 = 1 then (1 : F p) else 2).val ≤ payLen S (itemOffset S 0) ∧
        payLen S (itemOffset S 0) - (if path.length % 2 = 1 then (1 : F p) else 2).val ≤ mk) ∧
        payLen S (itemOffset S 1) ≤ 64 := by
    rw [hplv]
    refine ⟨by rw [hr]; rfl, ⟨?_, ?_, ?_⟩, by omega⟩ <;> split <;> omega
  rw [if_pos hcond] at heq
  refine ⟨_, heq, ?_, ?_⟩
  · have hfacts := ext_facts hp mk (by omega) _ key _ refs rlp _ S hc hkl hkp hrl.ge (by omega) heq
    refine hfacts.2.2.2.2.2 ⟨hL.verdict, path, n0, hplv, hpl, hkey, val_natCast_lt (by omega), ?_, ?_⟩
    · rw [h64, p1]
    · rw [h64, n1, ← hrefs, List.take_of_length_le hrl.le]
  · simp only; rw [hL.total, henc]

/-- Children encodings and payloads of a branch. -/
def branchItems (f : Fin 16 → Trie) : List (List ℕ) :=
  (List.finRange 16).map (fun i => encodeString (refPay (f i))) ++ [encodeString []]
def branchPays (f : Fin 16 → Trie) : List (List ℕ) := (List.finRange 16).map (fun i => refPay (f i)) ++ [[]]

theorem branch_encode {f : Fin 16 → Trie} (h : ∀ i, f i = .empty ∨ 32 ≤ (f i).encode.length) :
    (Trie.branch f).encode = encodeList (branchItems f) := by
  show encodeList _ = _
  unfold branchItems
  refine congrArg encodeList ?_
  refine congrArg (· ++ [encodeString []]) ?_
  apply List.map_congr_left
  intro i _
  exact refOf_eq (h i)

theorem branchPays_get (f : Fin 16 → Trie) (i : Fin 16) : (branchPays f)[i.val]? = some (refPay (f i)) := by
  unfold branchPays
  rw [List.getElem?_append_left (by simp), List.getElem?_map,
    List.getElem?_eq_getElem (by simp), List.getElem_finRange]
  rfl

theorem branchPays_mem (f : Fin 16 → Trie) {k : ℕ} {pay : List ℕ} (h : (branchPays f)[k]? = some pay) :
    (k < 16 ∧ ∃ i, pay = refPay (f i)) ∨ (k = 16 ∧ pay = []) := by
  unfold branchPays at h
  rcases Nat.lt_or_ge k 16 with hk | hk
  · rw [List.getElem?_append_left (by simp; exact hk), List.getElem?_map] at h
    obtain ⟨i, -, hi⟩ := Option.map_eq_some_iff.1 h
    exact Or.inl ⟨hk, i, hi.symm⟩
  · rw [List.getElem?_append_right (by simp; exact hk)] at h
    simp only [List.length_map, List.length_finRange] at h
    rcases hkk : k - 16 with _ | j
    · rw [hkk] at h
      right; exact ⟨by omega, by simpa using h.symm⟩
    · rw [hkk] at h; simp at h

theorem forall₂_map {α β γ : Type*} {R : β → γ → Prop} (l : List α) (g : α → β) (k : α → γ) (h : ∀ a, R (g a) (k a)) :
    List.Forall₂ R (l.map g) (l.map k) := by
  induction l with
  | nil => exact .nil
  | cons a t ih => exact .cons (h a) ih

theorem branch_forall (f : Fin 16 → Trie) : List.Forall₂ Encodes (branchItems f) (branchPays f) := by
  unfold branchItems branchPays
  have h1 : List.Forall₂ Encodes ((List.finRange 16).map (fun i => encodeString (refPay (f i))))
      ((List.finRange 16).map (fun i => refPay (f i))) := forall₂_map _ _ _ (fun i => Or.inl rfl)
  have h2 : List.Forall₂ Encodes [encodeString []] [[]] := .cons (Or.inl rfl) .nil
  exact List.rel_append h1 h2

theorem branchItems_length (f : Fin 16 → Trie) : (branchItems f).length = 17 := by
  simp [branchItems]

theorem branchItems_bytes (f : Fin 16 → Trie) : ∀ e ∈ branchItems f, ∀ b ∈ e, b < 256 := by
  unfold branchItems
  intro e he
  rcases List.mem_append.1 he with he | he
  · obtain ⟨i, -, rfl⟩ := List.mem_map.1 he
    exact encodeString_bytes (refPay_lt _) (by rcases refPay_length (f i) with h | h <;> rw [h] <;> norm_num)
  · obtain rfl := List.mem_singleton.1 he
    exact encodeString_bytes (by simp) (by norm_num)

theorem branchItems_flatten (f : Fin 16 → Trie) : (branchItems f).flatten.length ≤ 529 := by
  have : ∀ l : List (Fin 16), ((l.map (fun i => encodeString (refPay (f i)))).flatten).length ≤ 33 * l.length := by
    intro l
    induction l with
    | nil => simp
    | cons a t ih =>
      rw [List.map_cons, List.flatten_cons, List.length_append, List.length_cons]
      have : (encodeString (refPay (f a))).length ≤ 33 := by
        have h1 := refPay_length (f a)
        have := encodeString_length (refPay (f a)) (by omega)
        omega
      omega
  unfold branchItems
  rw [List.flatten_append, List.length_append]
  have h1 := this (List.finRange 16)
  rw [List.length_finRange] at h1
  have h2 : ([encodeString []].flatten).length = 1 := by decide
  omega

/-- The list gadget is satisfiable on a branch node. -/
theorem branch_sat (hp : 2 ^ 128 < p) (f : Fin 16 → Trie) (pad : List ℕ)
    (hpad : ∀ x ∈ pad, x < 16) (hf : ∀ i, f i = .empty ∨ 32 ≤ (f i).encode.length)
    (hsize : (nibblesOf (Trie.branch f).encode ++ pad).length = 1064)
    (rlp : List (F p)) (hrlp : rlp.take 1064 =
      (nibblesOf (Trie.branch f).encode ++ pad).map (Nat.cast : ℕ → F p)) :
    (∃ r, rlpArrayCheck branchParams rlp ((17 : ℕ) : F p) = some r) ∧
    CellsOf (rlp.take 1064) 1064 (cyc (nibblesOf (Trie.branch f).encode ++ pad)) ∧
    ListRead (cyc (nibblesOf (Trie.branch f).encode ++ pad)) (branchItems f) (branchPays f) := by
  rw [branch_encode hf] at hsize hrlp ⊢
  have hflat := branchItems_flatten f
  have hE := branch_forall f
  have hbytes := branchItems_bytes f
  have hpays : ∀ (i : ℕ) (pay : List ℕ), (branchPays f)[i]? = some pay →
      branchParams.fieldMin.getD i 0 ≤ 2 * pay.length ∧ 2 * pay.length ≤ branchParams.fieldMax.getD i 0 := by
    intro i pay hi
    rcases branchPays_mem f hi with ⟨hk, j, rfl⟩ | ⟨rfl, rfl⟩
    · have e1 : ∀ i < 16, branchParams.fieldMin.getD i 0 = 0 ∧ branchParams.fieldMax.getD i 0 = 64 := by decide
      obtain ⟨a, b⟩ := e1 i hk
      rw [a, b]
      have := refPay_length (f j)
      omega
    · decide
  have hlen17 := branchItems_length f
  obtain ⟨r, hr, -⟩ := C12_rlpArrayCheck_complete hp branchParams branchParams_wf
    (by decide) (by decide) _ _ hE hbytes pad hpad hsize
    (fun _ => by
      have h2 := lenBytes_length_le (branchItems f).flatten.length 4 (by omega)
      show _ ≤ 8
      omega) hlen17.le hpays
    (by
      intro i hi
      have e1 : ∀ i < 17, branchParams.fieldMax.getD i 0 < 112 := by decide
      exact Or.inl (e1 i (by omega)))
    (by
      intro i h1 h2
      have : branchParams.maxFields = 17 := rfl
      omega) rlp hrlp
  rw [hlen17] at hr
  have hS : ∀ x ∈ nibblesOf (encodeList (branchItems f)) ++ pad, x < 16 :=
    nib_append (nibblesOf_lt _ (encodeList_bytes hbytes (by omega))) hpad
  have hc : CellsOf (rlp.take 1064) 1064 (cyc (nibblesOf (encodeList (branchItems f)) ++ pad)) := by
    rw [hrlp]; exact cells_cyc hS hsize (by omega)
  refine ⟨⟨r, hr⟩, hc, listRead _ hc.nib _ _ hE (by omega) (by
    intro q hq
    obtain ⟨k, hk⟩ := List.getElem?_of_mem hq
    rcases branchPays_mem f hk with ⟨-, j, rfl⟩ | ⟨-, rfl⟩
    · rcases refPay_length (f j) with h | h <;> rw [h] <;> norm_num
    · norm_num) (cyc_reads rfl)⟩

/-- **C17 (completeness).** The encoding of a branch node (children empty or referenced by hash), followed by any
nibbles, is accepted by `CheckBranch` for every key nibble that addresses a non-empty child, with that child's hash. -/
theorem C17_branch_complete (hp : 2 ^ 128 < p) (f : Fin 16 → Trie) (pad : List ℕ)
    (hpad : ∀ x ∈ pad, x < 16) (hf : ∀ i, f i = .empty ∨ 32 ≤ (f i).encode.length)
    (hsize : (nibblesOf (Trie.branch f).encode ++ pad).length = 1064)
    (rlp : List (F p)) (hrlp : rlp.take 1064 =
      (nibblesOf (Trie.branch f).encode ++ pad).map (Nat.cast : ℕ → F p))
    (i : Fin 16) (hi : 32 ≤ (f i).encode.length)
    (refs : List (F p)) (hrefs : refs = (nibblesOf (keccakBytes (f i).encode)).map (Nat.cast : ℕ → F p)) :
    ∃ o, checkBranch ((i.val : ℕ) : F p) 64 refs rlp = some o ∧ o.output = 4 ∧
      o.total = ((2 * (Trie.branch f).encode.length : ℕ) : F p) := by
  obtain ⟨⟨r, hr⟩, hc, hL⟩ := branch_sat hp f pad hpad hf hsize rlp hrlp
  have hrl : refs.length = 64 := by rw [hrefs, List.length_map, nibblesOf_length, keccakBytes_length]
  have h64 : (64 : F p).val = 64 := by
    have := val_natCast_lt (p := p) (a := 64) (by omega); simpa using this
  have hiv : ((i.val : ℕ) : F p).val = i.val := val_natCast_lt (by have := i.isLt; omega)
  set S := cyc (nibblesOf (Trie.branch f).encode ++ pad) with hSd
  obtain ⟨p0, n0⟩ := hL.item i.val _ (branchPays_get f i)
  have hrp : refPay (f i) = keccakBytes (f i).encode := by unfold refPay; rw [if_neg (by omega)]
  rw [hrp] at p0 n0
  rw [keccakBytes_length] at p0
  have heq := checkBranch_eq hp ((i.val : ℕ) : F p) 64 refs rlp S hc hrl.ge (by omega)
  rw [if_pos ⟨by rw [hr]; rfl, by rw [hiv]; exact i.isLt, by rw [h64]⟩] at heq
  refine ⟨_, heq, ?_, ?_⟩
  · have hv := hL.verdict
    rw [branchItems_length] at hv
    refine (branch_facts hp _ _ refs rlp S hc hrl.ge (by omega) heq).2.2.2.2.2 ⟨hv, ?_, ?_⟩
    · rw [h64, hiv, p0]
    · rw [h64, hiv, n0, ← hrefs, List.take_of_length_le hrl.le]
  · simp only; rw [hL.total, branch_encode hf]

end Verif.Mpt
