import Verif.Mpt.CompleteProps

/-! # Property theorems C18/C47: concrete instances, and what the inclusion checker does not enforce -/

set_option linter.unusedSectionVars false
set_option linter.unusedVariables false

namespace Verif.Mpt
open Api Rlp Keccak Spec.Keccak Spec.Rlp Spec.Mpt
variable {p : ℕ} [Fact p.Prime]

/-! ## A family of concrete tries -/

/-- A root branch with two equal leaves, under the nibbles 0 and 1. -/
def twoLeaves (q v : List ℕ) : Trie := .branch fun i => if i.val ≤ 1 then .leaf q v else .empty

theorem encodeString_ge (bs : List ℕ) : bs.length ≤ (encodeString bs).length := by
  unfold encodeString
  split
  · omega
  · rw [List.length_append]; omega

theorem leaf_ge {q v : List ℕ} (hq : q.length = 63) : 32 ≤ (Trie.leaf q v).encode.length := by
  rw [leaf_encode]
  unfold encodeList
  have h1 := encodeString_ge (hexPrefix true q)
  rw [hexPrefix_length] at h1
  have h3 : [encodeString (hexPrefix true q), encodeString v].flatten.length =
      (encodeString (hexPrefix true q)).length + (encodeString v).length := by simp
  rw [List.length_append]
  omega

theorem two_fixed {q v : List ℕ} (hq : q.length = 63) (hqn : ∀ x ∈ q, x < 16) (hv : ∀ b ∈ v, b < 256) :
    (twoLeaves q v).Fixed 64 := by
  refine ⟨by omega, fun i => ?_⟩
  by_cases h : i.val ≤ 1
  · simp only [if_pos h]
    exact ⟨⟨hq, hqn, hv⟩, Or.inr (leaf_ge hq)⟩
  · simp only [if_neg h]
    exact ⟨trivial, Or.inl trivial⟩

theorem two_nodes {q v : List ℕ} {u : Trie} (h : (twoLeaves q v).Node u) :
    u = twoLeaves q v ∨ u = .leaf q v ∨ u = .empty := by
  unfold twoLeaves at h ⊢
  cases h with
  | self => exact Or.inl rfl
  | branch h =>
    rename_i i
    by_cases hi : i.val ≤ 1
    · simp only [if_pos hi] at h
      cases h
      exact Or.inr (Or.inl rfl)
    · simp only [if_neg hi] at h
      cases h
      exact Or.inr (Or.inr rfl)

theorem two_proper {q v : List ℕ} (hq : q ≠ []) : (twoLeaves q v).Proper := by
  intro c v'
  constructor
  · intro h
    rcases two_nodes h with h | h | h <;> cases h
  · intro h
    rcases two_nodes h with h | h | h
    · cases h
    · cases h; exact hq rfl
    · cases h

theorem two_roomy {q v : List ℕ} (hq : q.length = 63) (hv : v.length ≤ 50) : (twoLeaves q v).Roomy := by
  intro path v' h
  rcases two_nodes h with h | h | h
  · cases h
  · cases h
    have := leaf_len (path := q) (v := v) (mv := 100) (by omega) (by omega) (by omega)
    omega
  · cases h

theorem two_get (q v : List ℕ) (n : ℕ) (hn : n ≤ 1) : (twoLeaves q v).get (n :: q) = some v := by
  unfold twoLeaves Trie.get
  simp only
  rw [dif_pos (show n < 16 by omega)]
  simp [hn, Trie.get]

theorem two_pathLen (q v : List ℕ) (n : ℕ) (hn : n ≤ 1) (k : List ℕ) : (twoLeaves q v).pathLen (n :: k) = 2 := by
  unfold twoLeaves Trie.pathLen
  simp only
  rw [dif_pos (show n < 16 by omega)]
  simp [hn, Trie.pathLen]

/-- Instance of `C47_inclusion_complete` and of the hypotheses of `C18_inclusion_sound`: a trie with two leaves of value
`07 08`, the key `0 1 0 0 …`; the proof is accepted and the value is the stored one. -/
example (hp : 2 ^ 128 < p) : ∃ x : InclusionIn p, Shape 66 x ∧ 2 ≤ x.depth.val ∧
    x.rootHash = (nibblesOf (twoLeaves (1 :: List.replicate 62 0) [7, 8]).root).map Nat.cast ∧
    checkInclusionFixed 9 64 66 false x = some ⟨1, 4⟩ ∧ (twoLeaves (1 :: List.replicate 62 0) [7, 8]).Fixed 64 ∧
    (twoLeaves (1 :: List.replicate 62 0) [7, 8]).Roomy := by
  have hq : (1 :: List.replicate 62 0 : List ℕ).length = 63 := by rw [List.length_cons, List.length_replicate]
  have hqn : ∀ x ∈ (1 :: List.replicate 62 0 : List ℕ), x < 16 := by
    intro x hx
    rcases List.mem_cons.1 hx with rfl | h
    · omega
    · rw [List.eq_of_mem_replicate h]; omega
  have hF := two_fixed (v := [7, 8]) hq hqn (by decide)
  have hlen := two_pathLen (1 :: List.replicate 62 0) [7, 8] 0 (by omega) (1 :: List.replicate 62 0)
  obtain ⟨x, h1, h2, h3, h4, h5, h6, h7⟩ := C47_inclusion_complete hp 9 66 1088 544 (by omega) (by omega) (by omega) (by omega)
    (by omega) (by omega) (by omega) (by omega) (by omega) (by omega) (by omega) _ hF (two_proper (by simp))
    (0 :: 1 :: List.replicate 62 0) [7, 8] (by rw [List.length_cons, hq])
    (by intro x hx; rcases List.mem_cons.1 hx with rfl | h; · omega
        · exact hqn x h) (two_get _ _ 0 (by omega)) (by rw [hlen]) (by rw [hlen]; omega) (by simp)
    ([0, 7, 0, 8] ++ List.replicate 62 0) (by rw [List.length_append, List.length_replicate]; rfl)
    (by rw [List.take_append_of_le_length (by simp)]; simp [nibblesOf])
  have h4' : x.depth = ((2 : ℕ) : F p) := by rw [h4, hlen]
  refine ⟨x, ⟨?_, ?_, ?_, ?_, ?_, ?_⟩, ?_, h3, ?_, hF, two_roomy hq (by simp)⟩
  · rw [h1, List.length_map, List.length_cons, hq]
  · rw [h2, List.length_append, List.length_replicate]; rfl
  · rw [h3, List.length_map, nibblesOf_length]; unfold Trie.root; rw [keccakBytes_length]
  · intro row hr; rw [h6 row hr]
  · rw [h5]
  · rw [h5]; omega
  · rw [h4', val_natCast_lt (by omega)]
  · rw [h7]; simp

/-! ## Absence proofs for present keys: the first fragment start is not enforced -/

/-- The zero-value marker: RLP of the empty string followed by 64 zero nibbles, in a buffer of `mv` cells. -/
def zeroMarker (mv : ℕ) : List (F p) := [8, 0] ++ List.replicate (mv - 2) 0

theorem zeroMarker_zero {mv : ℕ} (h : 66 ≤ mv) : (zeroMarker mv : List (F p)).take 2 = [8, 0] ∧
    ((zeroMarker mv : List (F p)).drop 2).take 64 = List.replicate 64 0 := by
  unfold zeroMarker
  refine ⟨rfl, ?_⟩
  show (List.replicate (mv - 2) (0 : F p)).take 64 = _
  rw [List.take_replicate, Nat.min_eq_left (by omega)]

theorem zeroMarker_length {mv : ℕ} (h : 66 ≤ mv) : (zeroMarker mv : List (F p)).length = mv := by
  unfold zeroMarker
  rw [List.length_append, List.length_replicate]
  show 2 + (mv - 2) = mv
  omega

/-- **C18 (negation).** Absence proofs are not sound: there is a trie that stores a value under a key and an accepted
proof, against the root hash of that trie, that the key is absent. The prover starts the key fragments at nibble 1
(nothing forces the first start to be 0), and so is checked against the path of another key. -/
theorem C18_absence_start_not_enforced (hp : 2 ^ 128 < p) (D mv L LL : ℕ) (hD2 : 2 ≤ D) (hD : D ≤ 10) (h66 : 66 ≤ mv)
    (hmv : mv < 112 ∨ 128 ≤ mv) (hmv3 : mv ≤ 300) (hL16 : L % 16 = 0) (hL1 : 1088 ≤ L) (hL2 : L ≤ 2720)
    (hLL16 : LL % 16 = 0) (hLL1 : 74 + mv ≤ LL) (hLL2 : LL ≤ 2720) (hLL3 : 272 * ((74 + mv) / 272 + 1) ≤ LL)
    (v : List ℕ) (hv : ∀ b ∈ v, b < 256) (hvl : v.length ≤ 33) :
    ∃ (t : Trie) (key : List ℕ) (x : InclusionIn p), t.Fixed 64 ∧ t.Proper ∧ t.Roomy ∧ key.length = 64 ∧
      (∀ y ∈ key, y < 16) ∧ t.get key = some v ∧ Shape mv x ∧ x.key = key.map Nat.cast ∧
      x.rootHash = (nibblesOf t.root).map Nat.cast ∧
      (x.value.take 2 = [8, 0] ∧ (x.value.drop 2).take 64 = List.replicate 64 0) ∧ x.depth = 2 ∧
      ∃ r, checkInclusionFixed D 64 mv false x = some r ∧ r.output = 1 := by
  set q : List ℕ := 1 :: List.replicate 62 0 with hqd
  have hq : q.length = 63 := by rw [hqd, List.length_cons, List.length_replicate]
  have hqn : ∀ x ∈ q, x < 16 := by
    intro x hx
    rcases List.mem_cons.1 hx with rfl | h
    · omega
    · rw [List.eq_of_mem_replicate h]; omega
  have hkl : (0 :: q).length = 64 := by rw [List.length_cons, hq]
  have hkn : ∀ x ∈ 0 :: q, x < 16 := by
    intro x hx; rcases List.mem_cons.1 hx with rfl | h
    · omega
    · exact hqn x h
  have hF := two_fixed (v := v) hq hqn hv
  set nodes : ℕ → Trie := fun j => if j = 0 then twoLeaves q v else .leaf q v with hn
  set st : ℕ → ℕ := fun j => if j = 0 then 1 else if j = 1 then 2 else 3 with hst
  have hfit : padLen (.leaf q v) ≤ LL := by
    have := leaf_len (path := q) (v := v) (mv := mv) (by omega) (by omega) hmv3
    unfold padLen
    have : (Trie.leaf q v).encode.length / 136 ≤ (74 + mv) / 272 := by omega
    omega
  have H : Path D L LL 2 (0 :: q) nodes st (fun _ => 0) := by
    refine ⟨le_rfl, hD2, hD, hkl, hkn, hL16, hL1, hL2, hLL16, hLL2, hfit, leaf_bytes hqn (by omega) hv (by omega), ?_, ?_, ?_, ?_,
      ?_, fun _ _ => by omega⟩
    · intro j hj
      obtain rfl : j = 0 := by omega
      exact Or.inl ⟨rfl, rfl, _, ⟨1, by omega⟩, rfl, rfl, rfl⟩
    · intro j hj
      obtain rfl : j = 0 := by omega
      exact ⟨64, le_rfl, hF⟩
    · intro j hj h0
      obtain rfl : j = 1 := by omega
      exact leaf_ge hq
    · intro j hj
      rcases (by omega : j = 0 ∨ j = 1) with rfl | rfl
      · exact ⟨by show 1 < 64; omega, fun h => by omega⟩
      · exact ⟨by show 2 < 64; omega, fun h => by show 1 < 2; omega⟩
    · intro j hj h2
      have h3 : st j = 3 := by simp only [hst]; rw [if_neg (by omega), if_neg (by omega)]
      rw [h3]
      refine ⟨?_, by omega⟩
      simp only [hst]
      split <;> [omega; (split <;> omega)]
  have HM : PadMark D 2 st (fun _ => 0) := fun _ => ⟨by show 2 < 3; omega, Or.inl rfl⟩
  obtain ⟨x, hx⟩ : ∃ x : InclusionIn p, x = proofOf D L LL 2 (0 :: q) ((nibblesOf (nodes 0).root).map Nat.cast)
    (zeroMarker mv) nodes st (fun _ => 0) (if q.length % 2 = 1 then 1 else 2) := ⟨_, rfl⟩
  have x1 : x.lastRlp = (rowNibs LL (.leaf q v)).map Nat.cast := by rw [hx]; rfl
  have x2 : x.key = (0 :: q).map Nat.cast := by rw [hx]; rfl
  have x3 : x.rootHash = (nibblesOf (twoLeaves q v).root).map Nat.cast := by rw [hx]; rfl
  have x4 : x.value = zeroMarker mv := by rw [hx]; rfl
  have x5 : x.depth = ((2 : ℕ) : F p) := by rw [hx]; rfl
  have x6 : x.starts.length = D := by rw [hx]; simp [proofOf]
  have x7 : x.starts[2 - 1]? = some ((2 : ℕ) : F p) := by rw [hx]; exact getElem?_range_map _ (by omega)
  have x8 : x.leafPl = ((if q.length % 2 = 1 then 1 else 2 : ℕ) : F p) := by rw [hx]; rfl
  have x9 : x.lastRlp.length = LL := by rw [x1, List.length_map, rowNibs_length hfit]
  have hlast := last_leaf hp hD (by omega) hD2 x5 x6 x7 (by omega) x2 hkl hkn h66 hmv hmv3
    (by rw [x4]; exact zeroMarker_length h66) hLL1 (v := v) (path := q) (by omega) hv hqn (by omega) x8 x1 hfit
    (Or.inr ⟨by rw [x4]; exact zeroMarker_zero h66, 0, by omega, by omega, by rw [hqd]; simp⟩)
  rw [hx] at hlast
  have hrun := complete_run hp H HM (by omega) hlast
  rw [← hx] at hrun
  refine ⟨twoLeaves q v, 0 :: q, x, hF, two_proper (by rw [hqd]; simp), two_roomy hq (by omega), hkl, hkn,
    two_get q v 0 (by omega), ⟨?_, by rw [x4]; exact zeroMarker_length h66, ?_, ?_, by omega, by omega⟩, x2, x3, by
    rw [x4]; exact zeroMarker_zero h66, by rw [x5]; norm_num, _, hrun, rfl⟩
  · rw [x2, List.length_map, hkl]
  · rw [x3, List.length_map, nibblesOf_length]; unfold Trie.root; rw [keccakBytes_length]
  · intro row hr
    rw [hx] at hr
    obtain ⟨j, -, rfl⟩ := List.mem_map.1 hr
    split
    · rename_i hj
      rw [List.length_map, rowNibs_length (H.enc hj).2.1]; exact hL16
    · rw [List.length_replicate]; exact hL16

/-! ## A depth of one: the leaf is not linked to the root -/

/-- `CheckBranch` runs on a genuine branch with any reference. -/
theorem branch_run_any (hp : 2 ^ 128 < p) {f : Fin 16 → Trie} {pad : List ℕ}
    (hpad : ∀ x ∈ pad, x < 16) (hf : ∀ i, f i = .empty ∨ 32 ≤ (f i).encode.length)
    (hsize : (nibblesOf (Trie.branch f).encode ++ pad).length = 1064)
    {rlp : List (F p)} (hrlp : rlp.take 1064 =
      (nibblesOf (Trie.branch f).encode ++ pad).map (Nat.cast : ℕ → F p))
    {nib refLen : F p} {refs : List (F p)} (hn : nib.val < 16) (hrl : refLen.val ≤ 64) (hr : refs.length = 64) :
    ∃ o, checkBranch nib refLen refs rlp = some o ∧ o.total = ((2 * (Trie.branch f).encode.length : ℕ) : F p) := by
  obtain ⟨⟨r, hr'⟩, hc, hL⟩ := branch_sat hp f pad hpad hf hsize rlp hrlp
  have heq := checkBranch_eq hp nib refLen refs rlp _ hc hr.ge (by omega)
  rw [if_pos ⟨by rw [hr']; rfl, hn, hrl⟩] at heq
  exact ⟨_, heq, by simp only; rw [hL.total, branch_encode hf]⟩

/-- A layer whose buffer is zero runs and hashes to something of the right size. -/
theorem zero_layer_run (hp : 2 ^ 128 < p) {a : LayerArgs p} {j L : ℕ} {next : Option (HashOut p)}
    (hL16 : L % 16 = 0) (hL1 : 1088 ≤ L) (hL2 : L ≤ 2720)
    (hns : a.nSub = 64) (hsb : a.subBits = 7) (hmk : a.maxKey = 64) (hkc : a.keyCells = a.key) (hkl : a.key.length = 64)
    (hnibs : ∀ i, (a.key.getD i 0).val < 16)
    (hj : j < 100) {s s' t : F p}
    (hs : a.starts[j]? = some s) (hs' : a.starts[j + 1]? = some s') (hss : s.val ≤ s'.val) (hs64 : s'.val ≤ 64)
    (hd : j < a.depth.val → s.val < 64) (ht : a.types[j]? = some t) (hrow : a.nodeRlp[j]? = some (List.replicate L 0))
    (hpl : a.pls[j]? = some 0) (hri : a.ris[j]? = some 0)
    (hl : a.last.output.length = 64) (hll : a.last.outLen.val ≤ 64)
    (hn : ∀ h, next = some h → h.output.length = 64 ∧ h.outLen.val ≤ 64) :
    ∃ o, layerStep a j next = some o ∧ o.hash.output.length = 64 ∧ o.hash.outLen.val ≤ 64 := by
  have h2 : (2 : F p).val = 2 := by
    have := val_natCast_lt (p := p) (a := 2) (by omega); simpa using this
  obtain ⟨refLen, refs, href, hrl, hrlv⟩ := nodeRef_run (a := a) (j := j) (next := next) hp hj hl hll hn
  have hrlen : (List.replicate L (0 : F p)).length = L := List.length_replicate
  have hz : (List.replicate L (0 : F p)) = (List.replicate L 0).map (Nat.cast : ℕ → F p) := by simp
  have hhash : hashNode (2 : F p) (List.replicate L (0 : F p)) 0 =
      some ⟨(nibblesOf (digestBytes (squeeze (supplied (List.replicate L 0) 0)))).map Nat.cast, 2⟩ := by
    rw [hz, hashNode_eq hp _ (fun x hx => by rw [List.eq_of_mem_replicate hx]; norm_num)
      (by rw [List.length_replicate]; exact hL16) (by rw [List.length_replicate]; exact hL2), ZMod.val_zero,
      if_pos (by norm_num), h2, if_pos (by norm_num)]
  have hmapz : ∀ (g : F p → F p) (n : ℕ), g 0 = 0 → n ≤ L → ((List.replicate L (0 : F p)).take n).map g = List.replicate n 0 := by
    intro g n hg hn
    rw [List.take_replicate, List.map_replicate, hg, Nat.min_eq_left hn]
  obtain ⟨o, ho1, ho2, -, -⟩ := layer_run (Q := fun e => e.total = 2) (P := fun e => e.total = 2) hp hns hsb hmk hkc hkl hj
      hs hs' hss hs64 hd href ht hrow (by rw [hrlen]; omega) hpl hri
      (by
        intro sel hsel _
        rw [hmapz _ 136 (by ring) (by omega)]
        exact zs_ext hp _ sel _ _ 0 hsel hrl (by rw [ZMod.val_zero]; omega))
      (by
        rw [hmapz _ 1064 (by ring) (by omega)]
        exact zs_branch hp _ _ _ hrl (hnibs _) hrlv)
      (fun e b hP hQ => by
        rw [hP, hQ, sub_self, mul_zero, zero_add]
        exact hhash)
  refine ⟨o, ho1, ?_, ?_⟩
  · rw [ho2, List.length_map, nibblesOf_length, digestBytes_length]
  · rw [ho2]; simp only; rw [h2]; norm_num

/-- **C18 (negation).** A proof of depth one proves nothing: for every trie whose root is a branch, every key and every
value that fits the buffers — whatever the trie stores —, there is an accepted proof of depth one that the trie stores
that value under that key. The root hash is compared with the hash of the first layer, but with depth one no layer
verdict counts and nothing links the leaf to that layer. (Hence the hypothesis on the depth in `C18_inclusion_sound`;
the depth is a prover-supplied input.) -/
theorem C18_depth_one_forgery (hp : 2 ^ 128 < p) (D mv L LL : ℕ) (hD2 : 2 ≤ D) (hD : D ≤ 10) (h66 : 66 ≤ mv)
    (hmv : mv < 112 ∨ 128 ≤ mv) (hmv3 : mv ≤ 300) (hL16 : L % 16 = 0) (hL1 : 1088 ≤ L) (hL2 : L ≤ 2720)
    (hLL16 : LL % 16 = 0) (hLL1 : 74 + mv ≤ LL) (hLL2 : LL ≤ 2720) (hLL3 : 272 * ((74 + mv) / 272 + 1) ≤ LL)
    (f : Fin 16 → Trie) (hF : (Trie.branch f).Fixed 64) (key : List ℕ) (hk : key.length = 64) (hkn : ∀ y ∈ key, y < 16)
    (v : List ℕ) (hv : ∀ b ∈ v, b < 256) (hvl : 2 * v.length ≤ mv)
    (value : List (F p)) (hvall : value.length = mv) (hvv : value.take (2 * v.length) = (nibblesOf v).map Nat.cast) :
    ∃ x : InclusionIn p, Shape mv x ∧ x.key = key.map Nat.cast ∧ x.value = value ∧
      x.rootHash = (nibblesOf (Trie.branch f).root).map Nat.cast ∧ x.depth = 1 ∧
      checkInclusionFixed D 64 mv false x = some ⟨1, ((2 * v.length : ℕ) : F p)⟩ := by
  set q := key.drop 1 with hqd
  have hq : q.length = 63 := by rw [hqd, List.length_drop, hk]
  have hqn : ∀ y ∈ q, y < 16 := fun y hy => hkn y (List.mem_of_mem_drop hy)
  set st : ℕ → ℕ := fun j => if j = 0 then 1 else 2 with hst
  have hst1 : ∀ j, st (j + 1) = 2 := fun j => by simp only [hst]; rw [if_neg (by omega)]
  have hst0 : st 0 = 1 := rfl
  have hle : ∀ j, st j ≤ st (j + 1) ∧ st j ≤ 2 ∧ 1 ≤ st j := by
    intro j
    rw [hst1]
    simp only [hst]
    split <;> omega
  have hb := leaf_bytes hqn (by omega) hv (by omega)
  have hfit : padLen (.leaf q v) ≤ LL := by
    have := leaf_len (path := q) (v := v) (mv := mv) (by omega) (by omega) hmv3
    unfold padLen
    have : (Trie.leaf q v).encode.length / 136 ≤ (74 + mv) / 272 := by omega
    omega
  have hf := fun i => (hF.2 i).2
  have hbl := branch_len hf
  have hbb : ∀ b ∈ (Trie.branch f).encode, b < 256 := encode_bytes hF (by omega) (fun path v h => by cases h)
  have hbfit : padLen (.branch f) ≤ L := by unfold padLen; omega
  set nodes : ℕ → Trie := fun j => if j = 0 then .branch f else .leaf q v with hn
  set root : List (F p) := (nibblesOf (Trie.branch f).root).map Nat.cast with hroot
  have hrootl : root.length = 64 := by rw [hroot, List.length_map, nibblesOf_length]; unfold Trie.root; rw [keccakBytes_length]
  obtain ⟨x, hx⟩ : ∃ x : InclusionIn p, x = { proofOf D L LL 2 key root value nodes st (fun _ => 0)
    (if q.length % 2 = 1 then 1 else 2) with depth := 1 } := ⟨_, rfl⟩
  have x1 : x.lastRlp = (rowNibs LL (.leaf q v)).map Nat.cast := by rw [hx]; rfl
  have x2 : x.key = key.map Nat.cast := by rw [hx]; rfl
  have x3 : x.rootHash = root := by rw [hx]; rfl
  have x4 : x.value = value := by rw [hx]; rfl
  have x5 : x.depth = ((1 : ℕ) : F p) := by rw [hx, Nat.cast_one]
  have x6 : x.starts.length = D := by rw [hx]; simp [proofOf]
  have x7 : ∀ j < D, x.starts[j]? = some ((st j : ℕ) : F p) := by
    intro j hj; rw [hx]; exact getElem?_range_map _ hj
  have x8 : x.leafPl = ((if q.length % 2 = 1 then 1 else 2 : ℕ) : F p) := by rw [hx]; rfl
  have x9 : x.lastRlp.length = LL := by rw [x1, List.length_map, rowNibs_length hfit]
  have x10 : ∀ j < D - 1, x.types[j]? = some (((fun _ : ℕ => 0) j : ℕ) : F p) := by
    intro j hj; rw [hx]; exact getElem?_range_map _ hj
  have x11 : x.types.length = D - 1 := by rw [hx]; simp [proofOf]
  have x12 : ∀ j < D - 1, x.pls[j]? = some 0 := by
    intro j hj; rw [hx]
    have := getElem?_range_map (n := D - 1) (fun j =>
      if j < 2 - 1 ∧ (0 : ℕ) = 1 then (if (st (j + 1) - st j) % 2 = 1 then (1 : F p) else 2) else 0) hj
    rw [if_neg (by omega)] at this
    exact this
  have x13 : x.ris[0]? = some (((Trie.branch f).encode.length / 136 : ℕ) : F p) := by
    rw [hx]
    have := getElem?_range_map (n := D - 1) (fun j =>
      if j < 2 - 1 then (((nodes j).encode.length / 136 : ℕ) : F p) else 0) (show 0 < D - 1 by omega)
    rw [if_pos (by omega)] at this
    exact this
  have x14 : ∀ j < D - 1, 0 < j → x.ris[j]? = some 0 := by
    intro j hj h0; rw [hx]
    have := getElem?_range_map (n := D - 1) (fun j =>
      if j < 2 - 1 then (((nodes j).encode.length / 136 : ℕ) : F p) else 0) hj
    rw [if_neg (by omega)] at this
    exact this
  have x15 : x.nodeRlp[0]? = some ((rowNibs L (.branch f)).map Nat.cast) := by
    rw [hx]
    have := getElem?_range_map (n := D - 1) (fun j =>
      if j < 2 - 1 then (rowNibs L (nodes j)).map (Nat.cast : ℕ → F p) else List.replicate L 0) (show 0 < D - 1 by omega)
    rw [if_pos (by omega)] at this
    exact this
  have x16 : ∀ j < D - 1, 0 < j → x.nodeRlp[j]? = some (List.replicate L 0) := by
    intro j hj h0; rw [hx]
    have := getElem?_range_map (n := D - 1) (fun j =>
      if j < 2 - 1 then (rowNibs L (nodes j)).map (Nat.cast : ℕ → F p) else List.replicate L 0) hj
    rw [if_neg (by omega)] at this
    exact this
  have x17 : ∀ row ∈ x.nodeRlp, row.length = L := by
    intro row hr
    rw [hx] at hr
    obtain ⟨j, -, rfl⟩ := List.mem_map.1 hr
    split
    · rename_i hj
      obtain rfl : j = 0 := by omega
      rw [List.length_map]
      exact rowNibs_length hbfit
    · exact List.length_replicate
  have hlast := last_leaf hp hD le_rfl (by omega) x5 x6 (x7 (1 - 1) (by omega)) (by rw [hst0]; omega) x2 hk hkn h66 hmv hmv3
    (by rw [x4]; exact hvall) hLL1 (v := v) (path := q) hvl hv hqn (by omega) x8 x1 hfit
    (Or.inl ⟨rfl, by rw [x4]; exact hvv⟩)
  refine ⟨x, ⟨by rw [x2, List.length_map, hk], by rw [x4]; exact hvall, by rw [x3]; exact hrootl,
    fun row hr => by rw [x17 row hr]; exact hL16, by omega, by omega⟩, x2, x4, x3, by rw [x5, Nat.cast_one], ?_⟩
  have h1v : ((1 : ℕ) : F p).val = 1 := val_natCast_lt (by omega)
  have h64 : ((64 : ℕ) : F p).val = 64 := val_natCast_lt (by omega)
  have h64' : (64 : F p).val = 64 := by simpa using h64
  have hsv : ∀ j, ((st j : ℕ) : F p).val = st j := fun j => val_natCast_lt (by have := hle j; omega)
  -- fragments
  obtain ⟨fv, hfv⟩ := frag_some (d := 1) hp hD hD2 le_rfl (by omega) (ty := fun _ => 0) (fun _ _ => by omega) x6 x7 x10
  have hfv1 : fv = 1 := by
    refine (frag_facts hp (by omega) hD _ _ _ _ _ hfv).2.2.2.2.2.2.2 ⟨?_, ?_⟩
    · intro j hj hjd
      rw [h1v] at hjd
      obtain rfl : j = 0 := by omega
      unfold FragOk
      rw [getElem?_getD (x7 0 (by omega)), getElem?_getD (x7 1 (by omega)), hsv, hsv, h64]
      refine ⟨Or.inl ?_, ?_, ?_⟩
      · rw [hst0, show st 1 = 2 from rfl]; norm_num
      · rw [hst0, show st 1 = 2 from rfl]; omega
      · rw [hst0]; omega
    · intro h; rw [h1v] at h; omega
  subst hfv1
  have hh := hash_row hp hfit hLL16 hLL2 hb ((LL : ℕ) : F p)
  rw [val_natCast_lt (by omega), if_neg (by omega)] at hh
  have hkc : (List.range 64).mapM (fun i => x.key[i]?) = some (key.map (Nat.cast : ℕ → F p)) := by
    rw [x2, mapM_getElem? _ _ (by rw [List.length_map, hk]), List.take_of_length_le (by rw [List.length_map, hk])]
  set a := fixedArgs 64 x (key.map Nat.cast) ⟨(nibblesOf (keccakBytes (Trie.leaf q v).encode)).map Nat.cast, 64⟩ with ha
  have hak : a.key = key.map Nat.cast := x2
  have hkl : a.key.length = 64 := by rw [hak, List.length_map, hk]
  have hkcc : a.keyCells = a.key := hak.symm
  have had : a.depth.val = 1 := by show x.depth.val = 1; rw [x5, h1v]
  have hal : a.last.output.length = 64 := by
    show ((nibblesOf (keccakBytes (Trie.leaf q v).encode)).map (Nat.cast : ℕ → F p)).length = 64
    rw [List.length_map, nibblesOf_length, keccakBytes_length]
  have hall : a.last.outLen.val ≤ 64 := by show (64 : F p).val ≤ 64; rw [h64']
  have hnibs : ∀ i, (a.key.getD i 0).val < 16 := by
    intro i
    rw [hak, List.getD_eq_getElem?_getD, List.getElem?_map]
    rcases hx : key[i]? with _ | y
    · simp
    · have := hkn y (List.mem_of_getElem? hx)
      simp only [Option.map_some, Option.getD_some]
      rw [val_natCast_lt (by omega)]; exact this
  have hstep : ∀ j < D - 1, ∀ next : Option (LayerOut p), ((next = none ∧ j + 1 = D - 1) ∨ ∃ o, next = some o ∧ j + 1 < D - 1 ∧
      (o.hash.output.length = 64 ∧ o.hash.outLen.val ≤ 64 ∧ (j + 1 = 0 → o.hash.output = root))) →
      ∃ o, layerStep a j (next.map LayerOut.hash) = some o ∧ (o.hash.output.length = 64 ∧ o.hash.outLen.val ≤ 64 ∧
      (j = 0 → o.hash.output = root)) := by
    intro j hj next hnx
    have hnext : ∀ h, next.map LayerOut.hash = some h → h.output.length = 64 ∧ h.outLen.val ≤ 64 := by
      rintro h hh
      rcases hnx with ⟨rfl, -⟩ | ⟨o, rfl, -, hg⟩
      · cases hh
      · obtain rfl := Option.some.inj hh
        exact ⟨hg.1, hg.2.1⟩
    clear hnx
    have hdj : j < a.depth.val → ((st j : ℕ) : F p).val < 64 := fun _ => by rw [hsv]; have := hle j; omega
    rcases Nat.eq_zero_or_pos j with rfl | h0
    · obtain ⟨refLen, refs, href, hrl, hrlv⟩ := nodeRef_run (a := a) (j := 0) hp (by omega) hal hall hnext
      obtain ⟨pad, hpad, hw1, hw2⟩ := row_window (L := L) (W := 1064) hbfit (by omega) (by omega) hbb
      have hrlen : ((rowNibs L (.branch f)).map (Nat.cast : ℕ → F p)).length = L := by
        rw [List.length_map, rowNibs_length hbfit]
      have ht : a.types[0]? = some (0 : F p) := by
        have := x10 0 hj
        simp only [Nat.cast_zero] at this
        exact this
      obtain ⟨o, ho1, ho2, -, -⟩ := layer_run (P := fun e => e.total = 2)
        (Q := fun b => b.total = ((2 * (Trie.branch f).encode.length : ℕ) : F p)) hp rfl rfl rfl hkcc hkl (by omega)
        (x7 0 (by omega)) (x7 1 (by omega)) (by rw [hsv, hsv]; exact (hle 0).1) (by rw [hsv]; have := hle 1; omega) hdj href
        ht x15 (by rw [hrlen]; omega) (x12 0 hj) x13
        (by
          intro sel hsel _
          rw [map_zero_mul, List.length_take, hrlen, show min 136 L = 136 by omega]
          exact zs_ext hp _ sel _ _ 0 hsel hrl (by rw [ZMod.val_zero]; omega))
        (by
          have : (((rowNibs L (.branch f)).map (Nat.cast : ℕ → F p)).take 1064).map (fun x => x - (0 : F p) * x) =
            ((rowNibs L (.branch f)).map (Nat.cast : ℕ → F p)).take 1064 :=
            (List.map_congr_left (fun x _ => by rw [zero_mul, sub_zero]; rfl)).trans (List.map_id _)
          rw [this]
          exact branch_run_any hp hpad hf hw2 (by rw [List.take_take, Nat.min_self, ← List.map_take, hw1]) (hnibs _) hrlv hrl)
        (fun e b hP hQ => by rw [zero_mul, zero_add, hQ]; exact hash_row hp hbfit hL16 hL2 hbb _)
      refine ⟨o, ho1, ?_, ?_, fun _ => ?_⟩
      · rw [ho2, List.length_map, nibblesOf_length, keccakBytes_length]
      · rw [ho2]
        simp only
        split
        · omega
        · rw [h64']
      · rw [ho2, hroot]; rfl
    · obtain ⟨o, o1, o2, o3⟩ := zero_layer_run (a := a) hp hL16 hL1 hL2 rfl rfl rfl hkcc hkl hnibs (by omega) (x7 j (by omega))
        (x7 (j + 1) (by omega)) (by rw [hsv, hsv]; exact (hle j).1) (by rw [hsv]; have := hle (j + 1); omega) hdj
        (x10 j hj) (x16 j hj h0) (x12 j hj) (x14 j hj h0) hal hall hnext
      exact ⟨o, o1, o2, o3, fun h => absurd h h0.ne'⟩
  obtain ⟨ls, hls, hlen, hgood⟩ := layers_run (a := a) (fun j o => o.hash.output.length = 64 ∧ o.hash.outLen.val ≤ 64 ∧
      (j = 0 → o.hash.output = root)) (D - 1) hstep
  have hle' : assertLe ((D : ℕ) : F p) 10 = some () := by
    unfold assertLe
    rw [if_pos]
    rw [val_natCast_lt (by omega)]
    have := val_natCast_lt (p := p) (a := 10) (by omega)
    have h' : (10 : F p).val = 10 := by simpa using this
    rw [h']; exact hD
  obtain ⟨top, htop, g1, -, g3⟩ := hgood 0 (by omega)
  obtain ⟨out, hfin⟩ := finish_some (d := 1) hp hD le_rfl (by omega) (root := root) (types := x.types) (by omega) x11 hrootl htop g1
    4 1 2
  have hq := finish_eq hp hD (by omega) hrootl (by rw [h1v]) (by rw [h1v]; omega) htop g1 hfin
  rw [if_pos (g3 rfl).symm, h1v, if_pos (by simp; norm_num)] at hq
  unfold checkInclusionFixed
  refine Option.bind_eq_some_iff.2 ⟨(), hle', Option.bind_eq_some_iff.2 ⟨1, by rw [x5]; exact hfv, Option.bind_eq_some_iff.2
    ⟨_, hlast, Option.bind_eq_some_iff.2 ⟨_, by rw [x9, x1, hx]; exact hh, Option.bind_eq_some_iff.2 ⟨_, hkc,
    Option.bind_eq_some_iff.2 ⟨ls, hls, Option.bind_eq_some_iff.2 ⟨out, by rw [x3, x5]; exact hfin, ?_⟩⟩⟩⟩⟩⟩⟩
  rw [hq]; rfl

/-! ## Padding after the last node -/

/-- The verdict is a bit. -/
theorem finish_bit {D : ℕ} {root types : List (F p)} {ls : List (LayerOut p)} {depth lo fr bonus out : F p}
    (h : finish D root types ls depth lo fr bonus = some out) : out = 0 ∨ out = 1 := by
  unfold finish at h
  obtain ⟨_, -, h⟩ := Option.bind_eq_some_iff.1 h
  obtain ⟨_, -, h⟩ := Option.bind_eq_some_iff.1 h
  obtain ⟨_, -, h⟩ := Option.bind_eq_some_iff.1 h
  obtain ⟨_, -, h⟩ := Option.bind_eq_some_iff.1 h
  obtain ⟨m0, -, h⟩ := Option.bind_eq_some_iff.1 h
  have h := (Option.some.inj h).symm
  rw [h, equal_eq]
  split
  · exact Or.inr rfl
  · exact Or.inl rfl

/-- **C47 (negation).** Proofs padded with starts equal to the key length and kinds 0 after the last node are rejected:
when the path is shorter than the maximal depth, the fragment that begins at the last node is checked as well, so the
start after the last node must be the next nibble, or the kind at the last node must be 1. The honest proofs of
`C47_inclusion_complete` set that kind to 1. -/
theorem C47_padding_rejected (hp : 2 ^ 128 < p) (D mv : ℕ) (hD2 : 2 ≤ D) (hD : D ≤ 10) (h66 : 66 ≤ mv) (hmv : mv ≤ 300)
    (x : InclusionIn p) (hsh : Shape mv x) (hd2 : 2 ≤ x.depth.val) (hdlt : x.depth.val < D)
    (hnext : x.starts.getD x.depth.val 0 ≠ x.starts.getD (x.depth.val - 1) 0 + 1)
    (hkind : x.types.getD (x.depth.val - 1) 0 = 0) (r : InclusionOut p)
    (h : checkInclusionFixed D 64 mv false x = some r) : r.output = 0 := by
  unfold checkInclusionFixed at h
  obtain ⟨_, -, h⟩ := Option.bind_eq_some_iff.1 h
  obtain ⟨frag, hfrag, h⟩ := Option.bind_eq_some_iff.1 h
  obtain ⟨⟨lo, vl⟩, hlast, h⟩ := Option.bind_eq_some_iff.1 h
  obtain ⟨lh, hlh, h⟩ := Option.bind_eq_some_iff.1 h
  obtain ⟨kc, hkc, h⟩ := Option.bind_eq_some_iff.1 h
  obtain ⟨ls, hls, h⟩ := Option.bind_eq_some_iff.1 h
  obtain ⟨out, hfin, h⟩ := Option.bind_eq_some_iff.1 h
  have h := (Option.some.inj h).symm
  subst h
  rcases finish_bit hfin with ho | ho
  · exact ho
  exfalso
  subst ho
  obtain ⟨-, rfl⟩ := mapM_cells hkc
  rw [List.take_of_length_le hsh.key.le] at hls
  obtain ⟨f1, f2, f3, f4, f5, f6, f7⟩ := frag_facts hp (by omega) hD _ _ _ _ _ hfrag
  obtain ⟨n1, n2, n3, n4, n5⟩ := hashNode_some hp hsh.last16 hlh
  unfold layers at hls
  obtain ⟨l1, -, l3⟩ := layers_some (D - 1) [] ls hls
  simp only [List.length_nil, Nat.add_zero] at l1
  have hfact : ∀ j < x.depth.val - 1, ∃ o, ls[j]? = some o ∧ ∀ T,
      ((x.depth.val = j + 2 ∧ T = lh) ∨ (x.depth.val ≠ j + 2 ∧ (ls[j + 1]?.map LayerOut.hash) = some T)) →
      LayerFact x ls j o T := by
    intro j hj
    obtain ⟨o, ho, hstep⟩ := l3 j (by omega)
    exact ⟨o, ho, fun T hT => layer_fact hp hsh.key hsh.rows ho hstep (by omega) (by omega) (f5 j (by omega)) T hT⟩
  obtain ⟨top, htop, -⟩ := l3 0 (by omega)
  have hfactT : ∀ j < x.depth.val - 1, ∃ o T, ls[j]? = some o ∧ LayerFact x ls j o T := by
    intro j hj
    obtain ⟨o, ho, hx⟩ := hfact j hj
    rcases Nat.lt_or_ge (j + 1) (x.depth.val - 1) with hlt | hge
    · obtain ⟨o3, ho3, -⟩ := hfact (j + 1) hlt
      exact ⟨o, _, ho, hx o3.hash (Or.inr ⟨by omega, by rw [ho3]; rfl⟩)⟩
    · exact ⟨o, _, ho, hx lh (Or.inl ⟨by omega, rfl⟩)⟩
  have htopl : top.hash.output.length = 64 := by
    obtain ⟨o, T, ho, hL⟩ := hfactT 0 (by omega)
    rw [htop] at ho
    obtain rfl := Option.some.inj ho
    exact hL.outLen.2
  obtain ⟨m1, m2, m3, m4⟩ := finish_max hp hD (by omega) hsh.root f3 f4 htop htopl
    ((last_facts hp hD h66 hmv hsh n1 f1 (by omega) f4 hlast).2.1) f6
    (fun j hj => by obtain ⟨o, T, -, hL⟩ := hfactT j hj; exact hL.bound) hfin
  have hF := ((f7.1 m3).1 (x.depth.val - 1) (by omega) (by omega)).1
  rw [show x.depth.val - 1 + 1 = x.depth.val by omega] at hF
  rcases hF with hF | hF
  · exact hnext hF.symm
  · rw [hkind] at hF
    exact zero_ne_one hF

end Verif.Mpt
