import Verif.Mpt.Complete

/-! # Property theorems C47: every key of a trie has an accepted inclusion proof -/

set_option linter.unusedSectionVars false
set_option linter.unusedVariables false

namespace Verif.Spec.Mpt

/-- Number of nodes on the path of a key (the `depth` of its proof). -/
def Trie.pathLen : Trie → List ℕ → ℕ
  | .empty, _ => 1
  | .leaf _ _, _ => 1
  | .ext path c, k => c.pathLen (k.drop path.length) + 1
  | .branch f, k => match k with
    | [] => 1
    | n :: k' => if h : n < 16 then (f ⟨n, h⟩).pathLen k' + 1 else 1

/-- No extension has an empty path and no leaf is reached after the whole key is consumed. -/
def Trie.Proper (t : Trie) : Prop := ∀ c v, ¬ t.Node (.ext [] c) ∧ ¬ t.Node (.leaf [] v)

end Verif.Spec.Mpt

namespace Verif.Mpt
open Api Rlp Keccak Spec.Keccak Spec.Rlp Spec.Mpt
variable {p : ℕ} [Fact p.Prime]

theorem leaf_len {path v : List ℕ} {mv : ℕ} (hp : path.length ≤ 63) (hv : 2 * v.length ≤ mv) (hmv : mv ≤ 300) :
    2 * (Trie.leaf path v).encode.length ≤ 74 + mv := by
  rw [leaf_encode]
  unfold encodeList
  rw [List.length_append]
  have h1 := encodeString_length (hexPrefix true path) (by rw [hexPrefix_length]; omega)
  rw [hexPrefix_length] at h1
  have h2 : (encodeString v).length ≤ v.length + 2 := by
    unfold encodeString
    split
    · simp
    · rw [List.length_append]
      have := lenHeader_length_le 0x80 0xb7 v.length 1 (by omega)
      omega
  have h3 : [encodeString (hexPrefix true path), encodeString v].flatten.length =
      (encodeString (hexPrefix true path)).length + (encodeString v).length := by simp
  have h4 := lenHeader_length_le 0xc0 0xf7 [encodeString (hexPrefix true path), encodeString v].flatten.length 1 (by
    rw [h3]; omega)
  omega

theorem leaf_bytes {path v : List ℕ} (hp : ∀ x ∈ path, x < 16) (hpl : path.length ≤ 64) (hv : ∀ b ∈ v, b < 256)
    (hvl : v.length ≤ 150) : ∀ b ∈ (Trie.leaf path v).encode, b < 256 := by
  rw [leaf_encode]
  have h3 := encodeString_length (hexPrefix true path) (by rw [hexPrefix_length]; omega)
  rw [hexPrefix_length] at h3
  have h2 : (encodeString v).length ≤ v.length + 2 := by
    unfold encodeString
    split
    · simp
    · rw [List.length_append]
      have := lenHeader_length_le 0x80 0xb7 v.length 1 (by omega)
      omega
  refine encodeList_bytes ?_ ?_
  · intro enc he
    simp only [List.mem_cons, List.not_mem_nil, or_false] at he
    rcases he with rfl | rfl
    · exact encodeString_bytes (hexPrefix_lt _ _ hp) (by rw [hexPrefix_length]; omega)
    · exact encodeString_bytes hv (by omega)
  · have : [encodeString (hexPrefix true path), encodeString v].flatten.length =
      (encodeString (hexPrefix true path)).length + (encodeString v).length := by simp
    rw [this]; omega

/-- The last-node check on a leaf. -/
theorem last_leaf (hp : 2 ^ 128 < p) {D LL d s mv : ℕ} {key : List ℕ} {x : InclusionIn p} (h10 : D ≤ 10) (hd1 : 1 ≤ d)
    (hdD : d ≤ D) (hdep : x.depth = ((d : ℕ) : F p)) (hsl : x.starts.length = D) (hs : x.starts[d - 1]? = some ((s : ℕ) : F p))
    (hs64 : s < 64) (hkey : x.key = key.map Nat.cast) (hk : key.length = 64) (hkn : ∀ y ∈ key, y < 16)
    (h66 : 66 ≤ mv) (hmv : mv < 112 ∨ 128 ≤ mv) (hmv3 : mv ≤ 300) (hval : x.value.length = mv) (hLL : 74 + mv ≤ LL)
    {v path : List ℕ} (hv : 2 * v.length ≤ mv) (hvb : ∀ b ∈ v, b < 256) (hpn : ∀ x ∈ path, x < 16) (hp63 : path.length ≤ 63)
    (hlpl : x.leafPl = ((if path.length % 2 = 1 then 1 else 2 : ℕ) : F p))
    (hrow : x.lastRlp = (rowNibs LL (.leaf path v)).map Nat.cast) (hfit : padLen (.leaf path v) ≤ LL)
    (hend : (path = key.drop s ∧ x.value.take (2 * v.length) = (nibblesOf v).map Nat.cast) ∨
      (ZeroValue x.value ∧ ∃ j < path.length, s + j < 64 ∧ path[j]? ≠ key[s + j]?)) :
    lastNodeCheck D 64 mv false x = some (4, ((2 * v.length : ℕ) : F p)) := by
  have hdv : (((d : ℕ) : F p) - 1).val = d - 1 := by
    have hdv : ((d : ℕ) : F p).val = d := val_natCast_lt (by omega)
    rw [val_sub_of_le (by rw [val_one hp, hdv]; omega), val_one hp, hdv]
  have hsv : ((s : ℕ) : F p).val = s := val_natCast_lt (by omega)
  have h64 : ((64 : ℕ) : F p).val = 64 := val_natCast_lt (by omega)
  have hkl : (key.map (Nat.cast : ℕ → F p)).length = 64 := by rw [List.length_map, hk]
  obtain ⟨sel, len, e1, e2, e3, e4, e5⟩ := (C05_subArray 64 64 7 (key.map (Nat.cast : ℕ → F p)) ((s : ℕ) : F p)
    ((64 : ℕ) : F p) (by omega) (by omega) (by omega) (by norm_num) le_rfl (by omega)).2
    ⟨by rw [hsv, h64]; omega, by rw [h64], by rw [h64]; omega⟩
  rw [hsv, h64] at e4 e2
  have e4' : sel.take (64 - s) = (key.drop s).map Nat.cast := by
    rw [e4]; unfold Spec.window; rw [List.take_of_length_le hkl.le, List.map_drop]
  have hb := leaf_bytes hpn (by omega) hvb (by omega)
  obtain ⟨pad, hpad, hw1, hw2⟩ := row_window (L := LL) (W := 74 + mv) hfit hLL (leaf_len hp63 hv hmv3) hb
  have hlm : leafMaxRlp 64 mv = 74 + mv := by unfold leafMaxRlp; omega
  have hplc : x.leafPl = if path.length % 2 = 1 then (1 : F p) else 2 := by
    rw [hlpl]; split <;> simp
  have hlc : ∃ lc, checkLeaf 64 mv len sel x.value x.lastRlp x.leafPl = some lc ∧ lc.output = 4 ∧
      lc.valueLength = ((2 * v.length : ℕ) : F p) := by
    rw [hrow, hplc]
    have hwin : ((rowNibs LL (.leaf path v)).map (Nat.cast : ℕ → F p)).take (leafMaxRlp 64 mv) =
        (nibblesOf (Trie.leaf path v).encode ++ pad).map Nat.cast := by rw [hlm, ← List.map_take, hw1]
    rcases hend with ⟨hpe, hvv⟩ | ⟨hz, hne⟩
    · have hpl : path.length = 64 - s := by rw [hpe, List.length_drop, hk]
      have hlen : len = ((path.length : ℕ) : F p) := by
        rw [hpl, ← e2, ZMod.natCast_zmod_val]
      rw [hlen]
      obtain ⟨o, o1, o2, o3, -⟩ := C15_leaf_complete hp 64 mv (by norm_num) hmv (by omega) h66 path v pad hpn hvb hpad
        (by omega) hv (by rw [hlm]; exact hw2) _ hwin sel x.value e3 hval (by rw [hpl, e4', ← hpe]) hvv
      exact ⟨o, o1, o2, o3⟩
    · obtain ⟨j, hj, hj64, hne⟩ := hne
      obtain ⟨o, o1, o2, o3, -⟩ := C15_leaf_absent hp 64 mv (by norm_num) hmv (by omega) h66 path v pad hpn hvb hpad
        (by omega) hv (by rw [hlm]; exact hw2) _ hwin sel x.value e3 hval len hz (by
          intro he
          apply hne
          have h1 : (sel.take path.length)[j]? = sel[j]? := by rw [List.getElem?_take, if_pos hj]
          have h2 : (sel.take (64 - s))[j]? = sel[j]? := by rw [List.getElem?_take, if_pos (by omega)]
          rw [he, List.getElem?_map] at h1
          rw [e4', List.getElem?_map, List.getElem?_drop, ← h1] at h2
          have hjk : s + j < key.length := by rw [hk]; omega
          rw [List.getElem?_eq_getElem hj, List.getElem?_eq_getElem hjk] at h2 ⊢
          have h3 : ((key[s + j] : ℕ) : F p) = ((path[j] : ℕ) : F p) := by simpa using h2
          have ha := hkn _ (List.getElem_mem hjk)
          have hb := hpn _ (List.getElem_mem hj)
          rw [(natCast_inj_of_lt (p := p) (by omega) (by omega)).1 h3])
      exact ⟨o, o1, o2, o3⟩
  obtain ⟨lc, l1, l2, l3⟩ := hlc
  unfold lastNodeCheck
  refine Option.bind_eq_some_iff.2 ⟨x.starts.take D, mapM_getElem? _ _ (by omega),
    Option.bind_eq_some_iff.2 ⟨[((s : ℕ) : F p)], ?_, Option.bind_eq_some_iff.2 ⟨_, rfl,
    Option.bind_eq_some_iff.2 ⟨key.map Nat.cast, ?_, Option.bind_eq_some_iff.2 ⟨(sel, len), e1,
    Option.bind_eq_some_iff.2 ⟨lc, l1, ?_⟩⟩⟩⟩⟩⟩
  · rw [multiplexer_single _ _ _ (by omega) (by rw [List.length_take]; omega), hdep, hdv, if_pos (by omega),
      List.getD_eq_getElem?_getD, List.getElem?_take, if_pos (by omega), hs]
    rfl
  · rw [hkey, mapM_getElem? _ _ (by omega), List.take_of_length_le (by omega)]
  · simp only [Bool.false_eq_true, if_false, Option.bind_eq_bind, Option.bind_some]
    rw [l2, l3]; rfl

theorem proper_ext {path : List ℕ} {c : Trie} (h : (Trie.ext path c).Proper) : path ≠ [] ∧ c.Proper :=
  ⟨fun e => (h c []).1 (by rw [e]; exact .self _), fun c' v => ⟨fun hn => (h c' v).1 (.ext hn), fun hn => (h c' v).2 (.ext hn)⟩⟩

theorem proper_branch {f : Fin 16 → Trie} (h : (Trie.branch f).Proper) (i : Fin 16) : (f i).Proper :=
  fun c' v => ⟨fun hn => (h c' v).1 (.branch hn), fun hn => (h c' v).2 (.branch hn)⟩

theorem pathLen_pos (t : Trie) (k : List ℕ) : 1 ≤ t.pathLen k := by
  cases t with
  | empty => exact le_rfl
  | leaf => exact le_rfl
  | ext path c => simp [Trie.pathLen]
  | branch f =>
    cases k with
    | nil => exact le_rfl
    | cons n k => unfold Trie.pathLen; simp only; split <;> omega

/-- The nodes on the path of a stored key. -/
structure Walk (key : List ℕ) (t : Trie) (s d : ℕ) (v : List ℕ) (nodes : ℕ → Trie) (st ty : ℕ → ℕ) : Prop where
  top : nodes 0 = t
  start : st 0 = s
  step : ∀ j < d - 1, Descends key (nodes j) (st j) (nodes (j + 1)) (st (j + 1)) (ty j)
  fixed : ∀ j < d, ∃ n ≤ 64, (nodes j).Fixed n
  big : ∀ j < d, 0 < j → 32 ≤ (nodes j).encode.length
  mono : ∀ j < d, st j < 64 ∧ (0 < j → st (j - 1) < st j)
  kinds : ∀ j, ty j ≤ 1
  last : ∃ path, nodes (d - 1) = .leaf path v ∧ path = key.drop (st (d - 1))

theorem Walk.cons {key : List ℕ} {t c : Trie} {s s' d ty0 : ℕ} {v : List ℕ} {nodes : ℕ → Trie} {st ty : ℕ → ℕ}
    (hd : 1 ≤ d) (W : Walk key c s' d v nodes st ty) (hD : Descends key t s c s' ty0) (h0 : ty0 ≤ 1) (hs : s < s')
    (hF : ∃ n ≤ 64, t.Fixed n) (h32 : 32 ≤ c.encode.length) :
    ∃ nodes st ty, Walk key t s (d + 1) v nodes st ty := by
  have hs64 := (W.mono 0 (by omega)).1
  rw [W.start] at hs64
  refine ⟨fun j => j.casesOn t nodes, fun j => j.casesOn s st, fun j => j.casesOn ty0 ty, rfl, rfl, ?_, ?_, ?_, ?_, ?_, ?_⟩
  · rintro (_ | j) hj
    · show Descends key t s (nodes 0) (st 0) ty0
      rw [W.top, W.start]; exact hD
    · exact W.step j (by omega)
  · rintro (_ | j) hj
    · exact hF
    · exact W.fixed j (by omega)
  · rintro (_ | _ | j) hj h
    · omega
    · show 32 ≤ (nodes 0).encode.length
      rw [W.top]; exact h32
    · exact W.big (j + 1) (by omega) (by omega)
  · rintro (_ | _ | j) hj
    · exact ⟨by show s < 64; omega, by intro h; omega⟩
    · refine ⟨by show st 0 < 64; rw [W.start]; exact hs64, fun _ => ?_⟩
      show s < st 0
      rw [W.start]; exact hs
    · exact ⟨(W.mono (j + 1) (by omega)).1, fun _ => (W.mono (j + 1) (by omega)).2 (by omega)⟩
  · rintro (_ | j)
    · exact h0
    · exact W.kinds j
  · obtain ⟨d, rfl⟩ : ∃ e, d = e + 1 := ⟨d - 1, by omega⟩
    exact W.last

theorem walk_exists {key : List ℕ} (hkey : key.length = 64) {v : List ℕ} (t : Trie) : ∀ (s : ℕ), s ≤ 64 → t.Fixed (64 - s) →
    t.Proper → t.get (key.drop s) = some v →
    ∃ nodes st ty, Walk key t s (t.pathLen (key.drop s)) v nodes st ty := by
  induction t with
  | empty => intro s _ _ _ h; simp [Trie.get] at h
  | leaf path v' =>
    intro s hs hF hP h
    have hpl := hF.1
    unfold Trie.get at h
    split at h
    · rename_i he
      obtain rfl := Option.some.inj h
      have hne : path ≠ [] := fun e => (hP .empty v').2 (by rw [e]; exact .self _)
      have hpos := List.length_pos_iff.2 hne
      refine ⟨fun _ => .leaf path v', fun _ => s, fun _ => 0, rfl, rfl, ?_, ?_, ?_, ?_, fun _ => by omega, path, rfl, he.symm⟩
      · intro j hj; simp [Trie.pathLen] at hj
      · intro j hj; exact ⟨_, by omega, hF⟩
      · intro j hj h0; simp [Trie.pathLen] at hj; omega
      · intro j hj; exact ⟨by show s < 64; omega, fun h0 => by simp [Trie.pathLen] at hj; omega⟩
    · cases h
  | ext path c ih =>
    intro s hs hF hP h
    obtain ⟨hne, hPc⟩ := proper_ext hP
    have hpos := List.length_pos_iff.2 hne
    have hF' : (Trie.ext path c).Fixed (64 - s) := hF
    obtain ⟨hpl, hpn, hFc, h32⟩ := hF
    unfold Trie.get at h
    split at h
    · rename_i he
      rw [List.drop_drop] at h
      obtain ⟨nodes, st, ty, W⟩ := ih (s + path.length) (by omega) (by rwa [show 64 - (s + path.length) = 64 - s - path.length by omega]) hPc
        h
      have := W.cons (t := .ext path c) (s := s) (ty0 := 1) (pathLen_pos _ _)
        (Or.inr ⟨rfl, path, rfl, rfl, he⟩) le_rfl (by omega) ⟨_, by omega, hF'⟩ h32
      unfold Trie.pathLen
      rwa [List.drop_drop]
    · cases h
  | branch f ih =>
    intro s hs hF hP h
    obtain ⟨hn, hc⟩ := hF
    have hsl : s < key.length := by omega
    rw [List.drop_eq_getElem_cons hsl] at h ⊢
    unfold Trie.get at h
    simp only at h
    split at h
    · rename_i hlt
      set i : Fin 16 := ⟨key[s], hlt⟩ with hi
      obtain ⟨nodes, st, ty, W⟩ := ih i (s + 1) (by omega) (by rw [show 64 - (s + 1) = 64 - s - 1 by omega]; exact (hc i).1)
        (proper_branch hP i) h
      have hbig : 32 ≤ (f i).encode.length := by
        rcases (hc i).2 with he | he
        · rw [he] at h; simp [Trie.get] at h
        · exact he
      have := W.cons (t := .branch f) (s := s) (ty0 := 0) (pathLen_pos _ _)
        (Or.inl ⟨rfl, rfl, f, i, rfl, by rw [List.getElem?_eq_getElem hsl], rfl⟩) (by omega) (by omega)
        ⟨64 - s, by omega, ⟨hn, hc⟩⟩ hbig
      unfold Trie.pathLen
      simp only [hlt, dif_pos]
      exact this
    · cases h

/-- The honest path of a stored key, padded with starts 64 and the kind `k` after the last node. -/
theorem honest_path {D mv L LL : ℕ} (hD : D ≤ 10) (hmv3 : mv ≤ 300) (hL16 : L % 16 = 0) (hL1 : 1088 ≤ L) (hL2 : L ≤ 2720)
    (hLL16 : LL % 16 = 0) (hLL2 : LL ≤ 2720) (hLL3 : 272 * ((74 + mv) / 272 + 1) ≤ LL)
    {t : Trie} (hF : t.Fixed 64) (hP : t.Proper) {key v : List ℕ} (hk : key.length = 64) (hkn : ∀ x ∈ key, x < 16)
    (hget : t.get key = some v) (hd2 : 2 ≤ t.pathLen key) (hdD : t.pathLen key ≤ D) (hv : 2 * v.length ≤ mv)
    (k : ℕ) (hk1 : k ≤ 1) :
    ∃ nodes st ty path, Path D L LL (t.pathLen key) key nodes st ty ∧ nodes 0 = t ∧ nodes (t.pathLen key - 1) = .leaf path v ∧
      path = key.drop (st (t.pathLen key - 1)) ∧ (∀ j, t.pathLen key ≤ j → st j = 64) ∧ (∀ j, t.pathLen key - 1 ≤ j → ty j = k) ∧
      (∀ x ∈ path, x < 16) ∧ path.length ≤ 63 ∧ (∀ b ∈ v, b < 256) := by
  obtain ⟨nodes, st, ty, W⟩ := walk_exists hk t 0 (by omega) hF hP (by simpa using hget)
  rw [List.drop_zero] at W
  set d := t.pathLen key with hd
  obtain ⟨path, hleaf, hpath⟩ := W.last
  have hlF := W.fixed (d - 1) (by omega)
  rw [hleaf] at hlF
  obtain ⟨n, hn64, hnl, hpn, hvb⟩ := hlF
  have hpl : path.length = 64 - st (d - 1) := by rw [hpath, List.length_drop, hk]
  have hs0 := W.mono (d - 1) (by omega)
  have hs1 := hs0.2 (by omega)
  have hp63 : path.length ≤ 63 := by omega
  have hlen := leaf_len hp63 hv hmv3
  set st' : ℕ → ℕ := fun j => if j < d then st j else 64 with hst'
  set ty' : ℕ → ℕ := fun j => if j < d - 1 then ty j else k with hty'
  have hst : ∀ j < d, st' j = st j := fun j hj => if_pos hj
  have hst2 : ∀ j, d ≤ j → st' j = 64 := fun j hj => if_neg (by omega)
  refine ⟨nodes, st', ty', path, ?_, W.top, hleaf, ?_, hst2, fun j hj => if_neg (by omega), hpn, hp63, hvb⟩
  · refine ⟨hd2, hdD, hD, hk, hkn, hL16, hL1, hL2, hLL16, hLL2, ?_, ?_, ?_, fun j hj => W.fixed j (by omega), W.big, ?_, ?_, ?_⟩
    · rw [hleaf]; unfold padLen
      have : (Trie.leaf path v).encode.length / 136 ≤ (74 + mv) / 272 := by omega
      omega
    · rw [hleaf]; exact leaf_bytes hpn (by omega) hvb (by omega)
    · intro j hj
      rw [hst j (by omega), hst (j + 1) (by omega), show ty' j = ty j from if_pos hj]
      exact W.step j hj
    · intro j hj
      refine ⟨by rw [hst j hj]; exact (W.mono j hj).1, fun h0 => ?_⟩
      rw [hst j hj, hst (j - 1) (by omega)]
      exact (W.mono j hj).2 h0
    · intro j hj hdj
      rw [hst2 j hdj]
      refine ⟨?_, le_rfl⟩
      rcases Nat.lt_or_ge (j - 1) d with h | h
      · rw [hst _ h]; exact (W.mono _ h).1.le
      · rw [hst2 _ h]
    · intro j hj
      show (if j < d - 1 then ty j else k) ≤ 1
      split
      · exact W.kinds j
      · exact hk1
  · rw [hst _ (by omega)]; exact hpath

theorem rows_length {D L LL d : ℕ} {key : List ℕ} {nodes : ℕ → Trie} {st ty : ℕ → ℕ} (H : Path D L LL d key nodes st ty)
    {root value : List (F p)} {lpl : ℕ} :
    ∀ row ∈ (proofOf D L LL d key root value nodes st ty lpl).nodeRlp, row.length = L := by
  intro row hr
  obtain ⟨j, -, rfl⟩ := List.mem_map.1 hr
  split
  · rename_i hj
    rw [List.length_map, rowNibs_length (H.enc hj).2.1]
  · exact List.length_replicate

/-- **C47.** Every key stored in a fixed-key trie has an accepted inclusion proof: for each trie `t` all of whose keys
have 64 nibbles, each stored key whose path has between 2 and `D` nodes and each value that fits the buffer, there are
prover-supplied node buffers, starts, kinds and lengths such that the check on the key, the root hash of `t` and any
value buffer that begins with the stored value returns output 1 and the value's length in nibbles. -/
theorem C47_inclusion_complete (hp : 2 ^ 128 < p) (D mv L LL : ℕ) (hD : D ≤ 10) (h66 : 66 ≤ mv)
    (hmv : mv < 112 ∨ 128 ≤ mv) (hmv3 : mv ≤ 300) (hL16 : L % 16 = 0) (hL1 : 1088 ≤ L) (hL2 : L ≤ 2720)
    (hLL16 : LL % 16 = 0) (hLL1 : 74 + mv ≤ LL) (hLL2 : LL ≤ 2720) (hLL3 : 272 * ((74 + mv) / 272 + 1) ≤ LL)
    (t : Trie) (hF : t.Fixed 64) (hP : t.Proper) (key v : List ℕ) (hk : key.length = 64) (hkn : ∀ x ∈ key, x < 16)
    (hget : t.get key = some v) (hd2 : 2 ≤ t.pathLen key) (hdD : t.pathLen key ≤ D) (hv : 2 * v.length ≤ mv)
    (value : List (F p)) (hvl : value.length = mv) (hvv : value.take (2 * v.length) = (nibblesOf v).map Nat.cast) :
    ∃ x : InclusionIn p, x.key = key.map Nat.cast ∧ x.value = value ∧ x.rootHash = (nibblesOf t.root).map Nat.cast ∧
      x.depth = ((t.pathLen key : ℕ) : F p) ∧ x.lastRlp.length = LL ∧ (∀ row ∈ x.nodeRlp, row.length = L) ∧
      checkInclusionFixed D 64 mv false x = some ⟨1, ((2 * v.length : ℕ) : F p)⟩ := by
  obtain ⟨nodes, st, ty, path, H, htop, hleaf, hpath, hst, hty, hpn, hp63, hvb⟩ := honest_path (mv := mv) hD hmv3 hL16 hL1 hL2
    hLL16 hLL2 hLL3 hF hP hk hkn hget hd2 hdD hv 1 le_rfl
  set d := t.pathLen key with hd
  have hs0 := (H.mono (d - 1) (by omega)).1
  have HM : PadMark D d st ty := by
    intro hlt
    rw [hst d le_rfl]
    exact ⟨hs0, Or.inr (hty _ le_rfl)⟩
  refine ⟨proofOf D L LL d key ((nibblesOf (nodes 0).root).map Nat.cast) value nodes st ty
    (if path.length % 2 = 1 then 1 else 2), rfl, rfl, by rw [← htop]; rfl, rfl, ?_, rows_length H, ?_⟩
  · show ((rowNibs LL (nodes (d - 1))).map (Nat.cast : ℕ → F p)).length = LL
    rw [List.length_map, rowNibs_length H.lastFits]
  · exact complete_run hp H HM (by omega) (last_leaf hp hD (by omega) hdD rfl (by simp [proofOf])
      (getElem?_range_map _ (by omega)) hs0 rfl hk hkn h66 hmv hmv3 hvl hLL1 hv hvb hpn
      hp63 rfl (by rw [← hleaf]; rfl) (by rw [← hleaf]; exact H.lastFits) (Or.inl ⟨hpath, hvv⟩))

/-- **C47 (negation).** Padding as in the repository's own tests (starts 64 and kinds 0 after the last node) makes the
same honest proofs fail: for every stored key whose path is shorter than the maximal depth and whose leaf has at least
two nibbles, the honest proof padded in this way is evaluated to output 0. -/
theorem C47_padding_64_rejected (hp : 2 ^ 128 < p) (D mv L LL : ℕ) (hD : D ≤ 10) (h66 : 66 ≤ mv)
    (hmv : mv < 112 ∨ 128 ≤ mv) (hmv3 : mv ≤ 300) (hL16 : L % 16 = 0) (hL1 : 1088 ≤ L) (hL2 : L ≤ 2720)
    (hLL16 : LL % 16 = 0) (hLL1 : 74 + mv ≤ LL) (hLL2 : LL ≤ 2720) (hLL3 : 272 * ((74 + mv) / 272 + 1) ≤ LL)
    (t : Trie) (hF : t.Fixed 64) (hP : t.Proper) (key v : List ℕ) (hk : key.length = 64) (hkn : ∀ x ∈ key, x < 16)
    (hget : t.get key = some v) (hd2 : 2 ≤ t.pathLen key) (hdD : t.pathLen key < D) (hv : 2 * v.length ≤ mv)
    (hleafLen : ∀ q, t.Node (.leaf q v) → 2 ≤ q.length)
    (value : List (F p)) (hvl : value.length = mv) (hvv : value.take (2 * v.length) = (nibblesOf v).map Nat.cast) :
    ∃ (nodes : ℕ → Trie) (st ty : ℕ → ℕ) (lpl : ℕ), Path D L LL (t.pathLen key) key nodes st ty ∧ nodes 0 = t ∧
      (∀ j, t.pathLen key ≤ j → st j = 64) ∧ (∀ j, t.pathLen key - 1 ≤ j → ty j = 0) ∧
      checkInclusionFixed D 64 mv false (proofOf D L LL (t.pathLen key) key ((nibblesOf t.root).map Nat.cast) value nodes st ty lpl)
        = some ⟨0, ((2 * v.length : ℕ) : F p)⟩ := by
  obtain ⟨nodes, st, ty, path, H, htop, hleaf, hpath, hst, hty, hpn, hp63, hvb⟩ := honest_path (mv := mv) hD hmv3 hL16 hL1 hL2
    hLL16 hLL2 hLL3 hF hP hk hkn hget hd2 hdD.le hv 0 (by omega)
  set d := t.pathLen key with hd
  have hs0 := (H.mono (d - 1) (by omega)).1
  have hnode : ∀ j < d, t.Node (nodes j) := by
    intro j
    induction j with
    | zero => intro _; rw [htop]; exact .self _
    | succ j ih =>
      intro hj
      have h1 := ih (by omega)
      rcases H.step j (by omega) with ⟨-, -, f, i, hu, -, hc⟩ | ⟨-, q, hu, -, -⟩
      · rw [← hc]; rw [hu] at h1; exact node_trans h1 (.branch (.self _))
      · rw [hu] at h1; exact node_trans h1 (.ext (.self _))
  have hq := hleafLen path (by rw [← hleaf]; exact hnode _ (by omega))
  have hpl : path.length = 64 - st (d - 1) := by rw [hpath, List.length_drop, hk]
  set x := proofOf D L LL d key ((nibblesOf (nodes 0).root).map (Nat.cast : ℕ → F p)) value nodes st ty
    (if path.length % 2 = 1 then 1 else 2) with hx
  obtain ⟨fr, hfr⟩ := frag_some (p := p) (S := x.starts) (T := x.types) hp hD (by omega) (show 1 ≤ d by omega) hdD.le H.kinds
    (by simp [hx, proofOf]) (fun j hj => getElem?_range_map _ hj) (fun j hj => getElem?_range_map _ hj)
  have hdv : ((d : ℕ) : F p).val = d := val_natCast_lt (by omega)
  have hne : fr ≠ 1 := by
    intro h1
    have hf := ((frag_facts hp (by omega) hD _ _ _ _ _ hfr).2.2.2.2.2.2.1 h1).1 (d - 1) (by omega) (by rw [hdv]; omega)
    have e1 : x.starts[d - 1]? = some ((st (d - 1) : ℕ) : F p) := getElem?_range_map _ (by omega)
    have e2 : x.starts[d]? = some ((st d : ℕ) : F p) := getElem?_range_map _ (by omega)
    have e3 : x.types[d - 1]? = some ((ty (d - 1) : ℕ) : F p) := getElem?_range_map _ (by omega)
    have hor := hf.1
    rw [show d - 1 + 1 = d by omega, getElem?_getD e1, getElem?_getD e2, getElem?_getD e3, hst d le_rfl, hty _ le_rfl] at hor
    rcases hor with h | h
    · have h' : ((st (d - 1) + 1 : ℕ) : F p) = ((64 : ℕ) : F p) := by rw [← h]; push_cast; ring
      have := (natCast_inj_of_lt (p := p) (by omega) (by omega)).1 h'
      omega
    · rw [Nat.cast_zero] at h; exact zero_ne_one h
  refine ⟨nodes, st, ty, (if path.length % 2 = 1 then 1 else 2), H, htop, hst, hty, ?_⟩
  have h := run_path hp H (by omega) hfr (last_leaf hp hD (by omega) hdD.le rfl (by simp [hx, proofOf])
      (getElem?_range_map _ (by omega)) hs0 rfl hk hkn h66 hmv hmv3 hvl hLL1 hv hvb hpn
      hp63 rfl (by rw [← hleaf]; rfl) (by rw [← hleaf]; exact H.lastFits) (Or.inl ⟨hpath, hvv⟩))
  rw [if_neg hne] at h
  rw [← htop]
  exact h

end Verif.Mpt
