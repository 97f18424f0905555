import Verif.Mpt.Run
import Verif.Mpt.Sound

/-! # Property theorems C47: honest inclusion proofs are accepted

`proofOf` is the honest prover: the inputs that a caller builds from the nodes on the path of a key. -/

set_option linter.unusedSectionVars false
set_option linter.unusedVariables false

namespace Verif.Mpt
open Api Rlp Keccak Spec.Keccak Spec.Rlp Spec.Mpt
variable {p : ℕ} [Fact p.Prime]

/-- One step down the trie: from node `u` reached at key position `s` to its child `c` at position `s'`
(`ty = 0`: branch, `ty = 1`: extension). -/
def Descends (key : List ℕ) (u : Trie) (s : ℕ) (c : Trie) (s' ty : ℕ) : Prop :=
  (ty = 0 ∧ s' = s + 1 ∧ ∃ f, ∃ i : Fin 16, u = .branch f ∧ key[s]? = some i.val ∧ f i = c) ∨
  (ty = 1 ∧ ∃ path, u = .ext path c ∧ s' = s + path.length ∧ (key.drop s).take path.length = path)

/-- What an honest prover supplies for a path of `d` nodes (`nodes 0` the root, `nodes (d-1)` the last node) that
starts at the key positions `st`, of the kinds `ty`: each node with its Keccak padding in a buffer of `L` (last node:
`LL`) nibbles; zero buffers for the unused layers. -/
def proofOf (D L LL d : ℕ) (key : List ℕ) (root value : List (F p)) (nodes : ℕ → Trie) (st ty : ℕ → ℕ) (leafPl : ℕ) :
    InclusionIn p where
  key := key.map Nat.cast
  value := value
  rootHash := root
  starts := (List.range D).map fun j => ((st j : ℕ) : F p)
  lastRlp := (rowNibs LL (nodes (d - 1))).map Nat.cast
  lastRi := (((nodes (d - 1)).encode.length / 136 : ℕ) : F p)
  leafPl := ((leafPl : ℕ) : F p)
  nodeRlp := (List.range (D - 1)).map fun j =>
    if j < d - 1 then (rowNibs L (nodes j)).map Nat.cast else List.replicate L 0
  ris := (List.range (D - 1)).map fun j => if j < d - 1 then (((nodes j).encode.length / 136 : ℕ) : F p) else 0
  pls := (List.range (D - 1)).map fun j =>
    if j < d - 1 ∧ ty j = 1 then (if (st (j + 1) - st j) % 2 = 1 then 1 else 2) else 0
  types := (List.range (D - 1)).map fun j => ((ty j : ℕ) : F p)
  depth := ((d : ℕ) : F p)

/-- The fragment after the last node must look like a one-nibble step or be marked as an extension. -/
def PadMark (D d : ℕ) (st ty : ℕ → ℕ) : Prop :=
  d < D → st (d - 1) < st d ∧ (st d = st (d - 1) + 1 ∨ ty (d - 1) = 1)

/-- The conditions under which `proofOf` is an honest description of a path. -/
structure Path (D L LL d : ℕ) (key : List ℕ) (nodes : ℕ → Trie) (st ty : ℕ → ℕ) : Prop where
  d2 : 2 ≤ d
  dD : d ≤ D
  D10 : D ≤ 10
  key64 : key.length = 64
  keyNib : ∀ x ∈ key, x < 16
  L16 : L % 16 = 0
  L1088 : 1088 ≤ L
  L2720 : L ≤ 2720
  LL16 : LL % 16 = 0
  LL2720 : LL ≤ 2720
  lastFits : padLen (nodes (d - 1)) ≤ LL
  lastBytes : ∀ b ∈ (nodes (d - 1)).encode, b < 256
  step : ∀ j < d - 1, Descends key (nodes j) (st j) (nodes (j + 1)) (st (j + 1)) (ty j)
  fixed : ∀ j < d - 1, ∃ n ≤ 64, (nodes j).Fixed n
  big : ∀ j < d, 0 < j → 32 ≤ (nodes j).encode.length
  mono : ∀ j < d, st j < 64 ∧ (0 < j → st (j - 1) < st j)
  pad : ∀ j < D, d ≤ j → st (j - 1) ≤ st j ∧ st j ≤ 64
  kinds : ∀ j < D, ty j ≤ 1

theorem branch_len {f : Fin 16 → Trie} (h : ∀ i, f i = .empty ∨ 32 ≤ (f i).encode.length) :
    (Trie.branch f).encode.length ≤ 532 := by
  rw [branch_encode h]
  unfold encodeList
  rw [List.length_append]
  have h1 := branchItems_flatten f
  have h2 := lenHeader_length_le 0xc0 0xf7 (branchItems f).flatten.length 2 (by omega)
  omega

theorem getElem?_range_map {α : Type*} {n j : ℕ} (f : ℕ → α) (h : j < n) : ((List.range n).map f)[j]? = some (f j) := by
  rw [List.getElem?_map, List.getElem?_range h]; rfl

/-- The fragment check runs on any small starts and kinds. -/
theorem frag_some (hp : 2 ^ 128 < p) {D d : ℕ} {st ty : ℕ → ℕ} (h10 : D ≤ 10) (hD2 : 2 ≤ D) (hd1 : 1 ≤ d) (hdD : d ≤ D)
    (hkinds : ∀ j < D, ty j ≤ 1) {S T : List (F p)} (hSl : S.length = D)
    (hSj : ∀ j < D, S[j]? = some ((st j : ℕ) : F p)) (hTj : ∀ j < D - 1, T[j]? = some ((ty j : ℕ) : F p)) :
    ∃ v, fragmentsValid D (((64 : ℕ) : F p)) (fun t => t) S T (((d : ℕ) : F p)) = some v := by
  have hdv : ((d : ℕ) : F p).val = d := val_natCast_lt (by omega)
  unfold fragmentsValid fragmentSums
  rw [mapM_some (g := fun i => (if S.getD i 0 + 1 = S.getD (i + 1) 0 ∨ ty i = 1 then (1 : F p) else 0) +
    lessThan (S.getD i 0) (S.getD (i + 1) 0) + lessThan (S.getD i 0) ((64 : ℕ) : F p)) (by
      intro i hi
      have hi := List.mem_range.1 hi
      have e1 := hSj i (by omega)
      have e2 := hSj (i + 1) (by omega)
      have e3 := hTj i hi
      rw [e1, e2, e3, getElem?_getD e1, getElem?_getD e2]
      simp only [Option.bind_eq_bind, Option.bind_some]
      have hty := hkinds i (by omega)
      have ht2 : ((ty i : ℕ) : F p) = if ty i = 1 then 1 else 0 := by
        rcases (by omega : ty i = 0 ∨ ty i = 1) with h | h <;> simp [h]
      rw [equal_eq, ht2, or_ite]
      rfl)]
  simp only [Option.bind_eq_bind, Option.bind_some]
  rw [hSj (D - 1) (by omega)]
  simp only [Option.bind_some, Option.pure_def, prefix_sums]
  rw [multiplexer_single _ _ _ (by omega) (by simp; omega)]
  have : (((d : ℕ) : F p) - 1).val = d - 1 := by
    rw [val_sub_of_le (by rw [val_one hp, hdv]; omega), val_one hp, hdv]
  rw [this, if_pos (by omega)]
  exact ⟨_, rfl⟩

/-- The final comparison runs on any verdicts. -/
theorem finish_some (hp : 2 ^ 128 < p) {D d : ℕ} (h10 : D ≤ 10) (hd1 : 1 ≤ d) (hdD : d ≤ D) {root types : List (F p)}
    {ls : List (LayerOut p)} (hlen : ls.length + 1 = D) (ht : types.length = D - 1) (hrl : root.length = 64)
    {top : LayerOut p} (htop : ls[0]? = some top) (htl : top.hash.output.length = 64) (lo fr bonus : F p) :
    ∃ out, finish D root types ls (((d : ℕ) : F p)) lo fr bonus = some out := by
  have hdv : ((d : ℕ) : F p).val = d := val_natCast_lt (by omega)
  unfold finish
  rw [htop]
  simp only [Option.bind_eq_bind, Option.bind_some]
  have harr : arrayEqual root top.hash.output 64 64 = some (if root = top.hash.output then 1 else 0) := by
    have h64 : (64 : F p).val = 64 := by
      have := val_natCast_lt (p := p) (a := 64) (by omega); simpa using this
    have h := arrayEqual_eq root top.hash.output 64 (64 : F p) (by omega) (by rw [htl]) (by omega) (by rw [htl]; omega)
    rw [h, h64, if_pos (by omega), List.take_of_length_le hrl.le, List.take_of_length_le htl.le]
  rw [harr]
  simp only [Option.bind_some]
  have hsums : ∃ sums, checkSums ((if root = top.hash.output then 1 else 0) + lo + fr : F p) types ls = some sums := by
    unfold checkSums
    have : ∀ (n : ℕ), n ≤ D - 1 → ∀ init : F p × List (F p), ∃ r, (List.range n).foldlM (fun (acc : F p × List (F p)) i => do
        let o ← ls[i]?
        let t ← types[i]?
        let v := acc.1 + o.branch + t * (o.ext - o.branch)
        pure (v, acc.2 ++ [v])) init = some r := by
      intro n
      induction n with
      | zero => intro _ init; exact ⟨_, rfl⟩
      | succ n ih =>
        intro hn init
        obtain ⟨r, hr⟩ := ih (by omega) init
        rw [List.range_succ, List.foldlM_append, hr]
        simp only [Option.bind_eq_bind, Option.bind_some, List.foldlM_cons, List.foldlM_nil]
        rw [List.getElem?_eq_getElem (show n < ls.length by omega), List.getElem?_eq_getElem (show n < types.length by omega)]
        exact ⟨_, rfl⟩
    obtain ⟨r, hr⟩ := this ls.length (by omega) (_, [_])
    rw [hr]
    exact ⟨_, rfl⟩
  obtain ⟨sums, hs⟩ := hsums
  have hsl : sums.length = D := by rw [checkSums_some hs]; simp; omega
  rw [hs]
  simp only [Option.bind_some]
  rw [multiplexer_single _ _ _ (by omega) (by omega)]
  have : (((d : ℕ) : F p) - 1).val = d - 1 := by
    rw [val_sub_of_le (by rw [val_one hp, hdv]; omega), val_one hp, hdv]
  rw [this, if_pos (by omega)]
  exact ⟨_, rfl⟩

section
variable (hp : 2 ^ 128 < p) {D L LL d : ℕ} {key : List ℕ} {nodes : ℕ → Trie} {st ty : ℕ → ℕ}
  (H : Path D L LL d key nodes st ty)
include hp H

omit hp [Fact p.Prime] in
theorem Path.st_mono {j : ℕ} (hj : j + 1 < D) : st j ≤ st (j + 1) ∧ st (j + 1) ≤ 64 := by
  rcases Nat.lt_or_ge (j + 1) d with h | h
  · have := (H.mono (j + 1) h); have := this.2 (by omega); simp at this; omega
  · have := H.pad (j + 1) hj h; simpa using this

omit hp [Fact p.Prime] in
theorem Path.enc {j : ℕ} (hj : j < d - 1) : (∀ b ∈ (nodes j).encode, b < 256) ∧ padLen (nodes j) ≤ L ∧
    ((ty j = 0 ∧ 2 * (nodes j).encode.length ≤ 1064) ∨ (ty j = 1 ∧ 2 * (nodes j).encode.length ≤ 136)) := by
  obtain ⟨n, hn, hF⟩ := H.fixed j hj
  have h32 := H.big (j + 1) (by omega) (by omega)
  have hst := H.mono (j + 1) (by omega)
  have hL := H.L1088
  rcases H.step j hj with ⟨ht, hs, f, i, hu, hk, hc⟩ | ⟨ht, path, hu, hs, hk⟩
  · have hb : ∀ b ∈ (nodes j).encode, b < 256 := encode_bytes hF hn (fun path v h => by rw [hu] at h; cases h)
    rw [hu] at hF
    have hl := branch_len (fun i => (hF.2 i).2)
    rw [← hu] at hl
    exact ⟨hb, by unfold padLen; omega, Or.inl ⟨ht, by omega⟩⟩
  · have hb : ∀ b ∈ (nodes j).encode, b < 256 := encode_bytes hF hn (fun path v h => by rw [hu] at h; cases h)
    have hl := ext_len (path := path) h32 (by omega)
    rw [← hu] at hl
    exact ⟨hb, by unfold padLen; omega, Or.inr ⟨ht, by omega⟩⟩

/-- What the checker computes at layer `j` of an honest proof. -/
def Good (d : ℕ) (nodes : ℕ → Trie) (ty : ℕ → ℕ) (j : ℕ) (o : LayerOut p) : Prop :=
  o.hash.output.length = 64 ∧ o.hash.outLen.val ≤ 64 ∧
  (j < d - 1 → o.hash.output = (nibblesOf (keccakBytes (nodes j).encode)).map Nat.cast ∧
    (32 ≤ (nodes j).encode.length → o.hash.outLen = 64) ∧ (ty j = 0 → o.branch = 4) ∧ (ty j = 1 → o.ext = 4))

theorem good_step {root value : List (F p)} {lpl : ℕ} {lh : HashOut p}
    (hlh : lh.output = (nibblesOf (keccakBytes (nodes (d - 1)).encode)).map Nat.cast) (hll : lh.outLen = 64)
    {j : ℕ} (hj : j < D - 1) {next : Option (LayerOut p)}
    (hn : (next = none ∧ j + 1 = D - 1) ∨ ∃ o, next = some o ∧ j + 1 < D - 1 ∧ Good d nodes ty (j + 1) o) :
    ∃ o, layerStep (fixedArgs 64 (proofOf D L LL d key root value nodes st ty lpl) (key.map Nat.cast) lh) j
      (next.map LayerOut.hash) = some o ∧ Good d nodes ty j o := by
  have h10 := H.D10
  have hdD := H.dD
  have hd2 := H.d2
  have h64 : (64 : F p).val = 64 := by
    have := val_natCast_lt (p := p) (a := 64) (by omega); simpa using this
  have h2 : (2 : F p).val = 2 := by
    have := val_natCast_lt (p := p) (a := 2) (by omega); simpa using this
  have h1 : (1 : F p).val = 1 := val_one hp
  have hdv : ((d : ℕ) : F p).val = d := val_natCast_lt (by omega)
  set a := fixedArgs 64 (proofOf D L LL d key root value nodes st ty lpl) (key.map Nat.cast) lh with ha
  have hak : a.key = key.map Nat.cast := rfl
  have had : a.depth = ((d : ℕ) : F p) := rfl
  have hkl : a.key.length = 64 := by rw [hak, List.length_map, H.key64]
  have hll64 : lh.output.length = 64 := by rw [hlh, List.length_map, nibblesOf_length, keccakBytes_length]
  obtain ⟨hm1, hm2⟩ := H.st_mono (j := j) (by omega)
  have hsv : ((st j : ℕ) : F p).val = st j := val_natCast_lt (by omega)
  have hsv' : ((st (j + 1) : ℕ) : F p).val = st (j + 1) := val_natCast_lt (by omega)
  have hs : a.starts[j]? = some ((st j : ℕ) : F p) := getElem?_range_map _ (by omega)
  have hs' : a.starts[j + 1]? = some ((st (j + 1) : ℕ) : F p) := getElem?_range_map _ (by omega)
  have ht : a.types[j]? = some ((ty j : ℕ) : F p) := getElem?_range_map _ hj
  have hrow := getElem?_range_map (n := D - 1) (fun j =>
    if j < d - 1 then (rowNibs L (nodes j)).map (Nat.cast : ℕ → F p) else List.replicate L 0) hj
  have hpl := getElem?_range_map (n := D - 1) (fun j =>
    if j < d - 1 ∧ ty j = 1 then (if (st (j + 1) - st j) % 2 = 1 then (1 : F p) else 2) else 0) hj
  have hri := getElem?_range_map (n := D - 1) (fun j =>
    if j < d - 1 then (((nodes j).encode.length / 136 : ℕ) : F p) else 0) hj
  obtain ⟨refLen, refs, href, hrl, hrlv⟩ := nodeRef_run (a := a) (j := j) (next := next.map LayerOut.hash) hp (by omega)
    hll64 (by show lh.outLen.val ≤ 64; rw [hll, h64]) (by
      rintro h hh
      rcases hn with ⟨rfl, -⟩ | ⟨o, rfl, -, hg⟩
      · cases hh
      · obtain rfl := Option.some.inj hh
        exact ⟨hg.1, hg.2.1⟩)
  have hnibs : ∀ i, (a.key.getD i 0).val < 16 := by
    intro i
    rw [hak, List.getD_eq_getElem?_getD, List.getElem?_map]
    rcases hx : key[i]? with _ | y
    · simp
    · have := H.keyNib y (List.mem_of_getElem? hx)
      simp only [Option.map_some, Option.getD_some]
      rw [val_natCast_lt (by omega)]; exact this
  have hd : j < a.depth.val → ((st j : ℕ) : F p).val < 64 := by
    intro h
    rw [had, hdv] at h
    rw [hsv]
    exact (H.mono j h).1
  have hsd : (((st (j + 1) : ℕ) : F p) - ((st j : ℕ) : F p)) = ((st (j + 1) - st j : ℕ) : F p) := by
    rw [Nat.cast_sub hm1]
  have hL := H.L1088
  by_cases hact : j < d - 1
  · -- an active layer
    obtain ⟨hb, hfit, hkind⟩ := H.enc hact
    have h32 := H.big (j + 1) (by omega) (by omega)
    -- the reference is the hash of the next node
    have href2 : refLen = 64 ∧ refs = (nibblesOf (keccakBytes (nodes (j + 1)).encode)).map Nat.cast := by
      by_cases hlast : d = j + 2
      · obtain ⟨r1, r2, -⟩ := nodeRef_some hp href (by omega) lh (Or.inl ⟨by rw [had, hdv, hlast], rfl⟩)
        refine ⟨by rw [r1, hll], ?_⟩
        rw [r2, List.take_of_length_le hll64.le, hlh, show d - 1 = j + 1 by omega]
      · rcases hn with ⟨-, h⟩ | ⟨o, rfl, -, hg⟩
        · omega
        · obtain ⟨r1, r2, -⟩ := nodeRef_some hp href (by omega) o.hash (Or.inr ⟨by rw [had, hdv]; exact hlast, rfl⟩)
          obtain ⟨q1, q2, -⟩ := hg.2.2 (by omega)
          refine ⟨by rw [r1, q2 h32], ?_⟩
          rw [r2, List.take_of_length_le hg.1.le, q1]
    obtain ⟨rfl, rfl⟩ := href2
    simp only [if_pos hact] at hrow hri
    have hrlen : ((rowNibs L (nodes j)).map (Nat.cast : ℕ → F p)).length = L := by
      rw [List.length_map, rowNibs_length hfit]
    have hhash : ∀ inLen : F p, hashNode inLen ((rowNibs L (nodes j)).map (Nat.cast : ℕ → F p))
        (((nodes j).encode.length / 136 : ℕ) : F p) =
        some ⟨(nibblesOf (keccakBytes (nodes j).encode)).map Nat.cast, if inLen.val < 63 then inLen else 64⟩ :=
      fun inLen => hash_row hp hfit H.L16 H.L2720 hb inLen
    have htot : ((2 * (nodes j).encode.length : ℕ) : F p).val = 2 * (nodes j).encode.length := by
      apply val_natCast_lt
      rcases hkind with ⟨-, h⟩ | ⟨-, h⟩ <;> omega
    have hfin : ∀ o : LayerOut p, o.hash = ⟨(nibblesOf (keccakBytes (nodes j).encode)).map Nat.cast,
        if ((2 * (nodes j).encode.length : ℕ) : F p).val < 63 then ((2 * (nodes j).encode.length : ℕ) : F p) else 64⟩ →
        o.hash.output.length = 64 ∧ o.hash.outLen.val ≤ 64 ∧ o.hash.output =
          (nibblesOf (keccakBytes (nodes j).encode)).map Nat.cast ∧ (32 ≤ (nodes j).encode.length → o.hash.outLen = 64) := by
      intro o ho
      rw [ho]
      refine ⟨by rw [List.length_map, nibblesOf_length, keccakBytes_length], ?_, rfl, ?_⟩
      · simp only
        split
        · omega
        · rw [h64]
      · intro h
        simp only
        rw [if_neg (by rw [htot]; omega)]
    rcases H.step j hact with ⟨hty, hse, f, i, hu, hk, hc⟩ | ⟨hty, path, hu, hse, hk⟩
    · -- branch
      rw [hty] at ht
      rw [if_neg (fun h => by omega)] at hpl
      obtain ⟨n, hn64, hF⟩ := H.fixed j hact
      rw [hu] at hF
      have hf := fun i => (hF.2 i).2
      have hlen : 2 * (nodes j).encode.length ≤ 1064 := by
        rcases hkind with ⟨-, h⟩ | ⟨-, h⟩ <;> omega
      obtain ⟨pad, hpad, hw1, hw2⟩ := row_window (L := L) (W := 1064) hfit (by omega) hlen hb
      rw [hu] at hw1 hw2
      have hkn : a.key.getD (if j < a.depth.val then ((st j : ℕ) : F p).val else 0) 0 = ((i.val : ℕ) : F p) := by
        rw [had, hdv, if_pos (by omega), hsv, hak, List.getD_eq_getElem?_getD, List.getElem?_map, hk]
        rfl
      obtain ⟨b, hb1, hb2, hb3⟩ := C17_branch_complete hp f pad hpad hf hw2
        (((rowNibs L (.branch f)).map (Nat.cast : ℕ → F p)).take 1064) (by
          rw [List.take_take, Nat.min_self, ← List.map_take, hw1]) i (by rw [hc]; exact h32) _ (by rw [hc])
      obtain ⟨o, ho1, ho2, ⟨e, hP, he⟩, ⟨b', ⟨hQ1, hQ2⟩, hb'⟩⟩ := layer_run (P := fun e => e.total = 2)
        (Q := fun b => b.output = 4 ∧ b.total = ((2 * (nodes j).encode.length : ℕ) : F p)) hp rfl rfl rfl rfl hkl (by omega)
        hs hs' (by rw [hsv, hsv']; exact hm1) (by rw [hsv']; exact hm2) hd href ht hrow (by rw [hrlen]; omega) hpl hri
        (by
          intro sel hsel _
          rw [Nat.cast_zero, map_zero_mul, List.length_take, hrlen, show min 136 L = 136 by omega]
          exact zs_ext hp _ sel _ _ 0 hsel hrl (by rw [ZMod.val_zero]; omega))
        ⟨b, by
          rw [hkn, Nat.cast_zero]
          have : (((rowNibs L (nodes j)).map (Nat.cast : ℕ → F p)).take 1064).map (fun x => x - (0 : F p) * x) =
            ((rowNibs L (nodes j)).map (Nat.cast : ℕ → F p)).take 1064 :=
            (List.map_congr_left (fun x _ => by rw [zero_mul, sub_zero]; rfl)).trans (List.map_id _)
          rw [this, hu]
          exact hb1, hb2, by rw [hb3, hu]⟩
        (fun e b hP hQ => by
          rw [Nat.cast_zero, zero_mul, zero_add, hQ.2]
          exact hhash _)
      obtain ⟨g1, g2, g3, g4⟩ := hfin o ho2
      exact ⟨o, ho1, g1, g2, fun _ => ⟨g3, g4, fun _ => by rw [hb', hQ1], fun h => by omega⟩⟩
    · -- extension
      rw [hty] at ht
      simp only [if_pos (show j < d - 1 ∧ ty j = 1 from ⟨hact, hty⟩)] at hpl
      have hlen : 2 * (nodes j).encode.length ≤ 136 := by
        rcases hkind with ⟨h', h⟩ | ⟨-, h⟩ <;> omega
      obtain ⟨pad, hpad, hw1, hw2⟩ := row_window (L := L) (W := 136) hfit (by omega) hlen hb
      rw [hu] at hw1 hw2
      have hplen : path.length = st (j + 1) - st j := by omega
      have hpn : ∀ x ∈ path, x < 16 := by
        intro x hx
        rw [← hk] at hx
        exact H.keyNib x (List.mem_of_mem_drop (List.mem_of_mem_take hx))
      obtain ⟨o, ho1, ho2, ⟨e, ⟨hP1, hP2⟩, he⟩, ⟨b', hQ, hb'⟩⟩ := layer_run (Q := fun e => e.total = 2)
        (P := fun b => b.output = 4 ∧ b.total = ((2 * (nodes j).encode.length : ℕ) : F p)) hp rfl rfl rfl rfl hkl (by omega)
        hs hs' (by rw [hsv, hsv']; exact hm1) (by rw [hsv']; exact hm2) hd href ht hrow (by rw [hrlen]; omega) hpl hri
        (by
          intro sel hsel hsel2
          have h1m : (((rowNibs L (nodes j)).map (Nat.cast : ℕ → F p)).take 136).map (fun x => ((1 : ℕ) : F p) * x) =
            ((rowNibs L (nodes j)).map (Nat.cast : ℕ → F p)).take 136 :=
            (List.map_congr_left (fun x _ => by rw [Nat.cast_one, one_mul]; rfl)).trans (List.map_id _)
          rw [h1m, hsd, ← hplen, hu]
          obtain ⟨e, he1, he2, he3⟩ := C16_extension_complete hp 64 (by norm_num) path (nodes (j + 1)) pad hpn hpad
            (by omega) h32 hw2 (((rowNibs L (.ext path (nodes (j + 1)))).map (Nat.cast : ℕ → F p)).take 136) (by
              rw [List.take_take, ← List.map_take]
              show ((rowNibs L _).take (min 136 136)).map _ = _
              rw [Nat.min_self, hw1]) sel _ hsel.ge (by omega) (by
              rw [hsv', hsv, ← hplen] at hsel2
              rw [hsel2, hak, ← List.map_drop, ← List.map_take, hk]) rfl
          exact ⟨e, he1, he2, by rw [he3]⟩)
        (by
          have h1m : (((rowNibs L (nodes j)).map (Nat.cast : ℕ → F p)).take 1064).map (fun x => x - ((1 : ℕ) : F p) * x) =
            List.replicate 1064 0 := by
            rw [Nat.cast_one, map_sub_self, List.length_take, hrlen, show min 1064 L = 1064 by omega]
          rw [h1m]
          exact zs_branch hp _ _ _ hrl (hnibs _) (by rw [h64]))
        (fun e b hP hQ => by
          rw [Nat.cast_one, one_mul, sub_add_cancel, hP.2]
          exact hhash _)
      obtain ⟨g1, g2, g3, g4⟩ := hfin o ho2
      exact ⟨o, ho1, g1, g2, fun _ => ⟨g3, g4, fun h => by omega, fun _ => by rw [he, hP1]⟩⟩
  · -- a padding layer
    simp only [if_neg hact] at hrow hri
    rw [if_neg (fun h => hact h.1)] at hpl
    have hrlen : (List.replicate L (0 : F p)).length = L := List.length_replicate
    have hz : (List.replicate L (0 : F p)) = (List.replicate L 0).map (Nat.cast : ℕ → F p) := by simp
    have hhash : hashNode (2 : F p) (List.replicate L (0 : F p)) 0 =
        some ⟨(nibblesOf (digestBytes (squeeze (supplied (List.replicate L 0) 0)))).map Nat.cast, 2⟩ := by
      rw [hz, hashNode_eq hp _ (fun x hx => by rw [List.eq_of_mem_replicate hx]; norm_num)
        (by rw [List.length_replicate]; exact H.L16) (by rw [List.length_replicate]; exact H.L2720), ZMod.val_zero,
        if_pos (by norm_num), h2, if_pos (by norm_num)]
    have hty := H.kinds j (by omega)
    have hmapz : ∀ (g : F p → F p) (n : ℕ), g 0 = 0 → n ≤ L → ((List.replicate L (0 : F p)).take n).map g = List.replicate n 0 := by
      intro g n hg hn
      rw [List.take_replicate, List.map_replicate, hg, Nat.min_eq_left hn]
    obtain ⟨o, ho1, ho2, -, -⟩ := layer_run (Q := fun e => e.total = 2) (P := fun e => e.total = 2) hp rfl rfl rfl rfl hkl (by omega)
        hs hs' (by rw [hsv, hsv']; exact hm1) (by rw [hsv']; exact hm2) hd href ht hrow (by rw [hrlen]; omega) hpl hri
        (by
          intro sel hsel _
          rw [hmapz _ 136 (by ring) (by omega)]
          exact zs_ext hp _ sel _ _ 0 hsel hrl (by rw [ZMod.val_zero]; omega))
        (by
          rw [hmapz _ 1064 (by ring) (by omega)]
          exact zs_branch hp _ _ _ hrl (hnibs _) hrlv)
        (fun e b hP hQ => by
          rw [hP, hQ, sub_self, mul_zero, zero_add]
          exact hhash)
    refine ⟨o, ho1, ?_, ?_, fun h => absurd h hact⟩
    · rw [ho2, List.length_map, nibblesOf_length, digestBytes_length]
    · rw [ho2]; simp only; rw [h2]; norm_num

theorem frag_run (hmark : PadMark D d st ty) {root value : List (F p)} {lpl : ℕ} :
    fragmentsValid D (((64 : ℕ) : F p)) (fun t => t) (proofOf D L LL d key root value nodes st ty lpl).starts
      (proofOf D L LL d key root value nodes st ty lpl).types (((d : ℕ) : F p)) = some 1 := by
  have h10 := H.D10
  have hdD := H.dD
  have hd2 := H.d2
  have hdv : ((d : ℕ) : F p).val = d := val_natCast_lt (by omega)
  have h64 : ((64 : ℕ) : F p).val = 64 := val_natCast_lt (by omega)
  have hle : ∀ j < D, st j ≤ 64 := by
    intro j hj
    rcases Nat.lt_or_ge j d with h | h
    · exact (H.mono j h).1.le
    · exact (H.pad j hj h).2
  have hv : ∀ j < D, ((st j : ℕ) : F p).val = st j := fun j hj => val_natCast_lt (by have := hle j hj; omega)
  set S := (proofOf D L LL d key root value nodes st ty lpl).starts with hS
  set T := (proofOf D L LL d key root value nodes st ty lpl).types with hT
  have hSl : S.length = D := by simp [hS, proofOf]
  have hSj : ∀ j < D, S[j]? = some ((st j : ℕ) : F p) := fun j hj => getElem?_range_map _ hj
  have hTj : ∀ j < D - 1, T[j]? = some ((ty j : ℕ) : F p) := fun j hj => getElem?_range_map _ hj
  have hsome := frag_some hp h10 (by omega) (by omega) hdD H.kinds hSl hSj hTj
  obtain ⟨v, hv1⟩ := hsome
  have hf := (frag_facts hp (by omega) h10 _ _ _ _ _ hv1).2.2.2.2.2.2
  rw [hv1]
  congr 1
  refine hf.2 ⟨?_, ?_⟩
  · intro j hj hjd
    rw [hdv] at hjd
    unfold FragOk
    rw [getElem?_getD (hSj j (by omega)), getElem?_getD (hSj (j + 1) (by omega)), getElem?_getD (hTj j hj),
      hv j (by omega), hv (j + 1) (by omega), h64]
    rcases Nat.lt_or_ge (j + 1) d with h | h
    · have m1 := H.mono (j + 1) h
      have m0 := H.mono j (by omega)
      have := m1.2 (by omega)
      rw [Nat.add_sub_cancel] at this
      refine ⟨?_, this, m0.1⟩
      rcases H.step j (by omega) with ⟨-, hs, -⟩ | ⟨ht, -⟩
      · left; rw [hs]; push_cast; ring
      · right; rw [ht]; simp
    · have hjd' : j = d - 1 := by omega
      have hm := hmark (by omega)
      have m0 := H.mono (d - 1) (by omega)
      subst hjd'
      rw [show d - 1 + 1 = d by omega]
      refine ⟨?_, hm.1, m0.1⟩
      rcases hm.2 with h | h
      · left; rw [h]; push_cast; ring
      · right; rw [h]; simp
  · intro h
    rw [hdv] at h
    rw [getElem?_getD (hSj (D - 1) (by omega)), hv (D - 1) (by omega), h64]
    exact (H.mono (D - 1) (by omega)).1

/-- What the checker computes on a path whose last node gets the verdict 4. -/
theorem run_path {value : List (F p)} {lpl mv : ℕ} {isSt : Bool} {vl fr : F p} (hLL : 64 ≤ LL)
    (hfr : fragmentsValid D (((64 : ℕ) : F p)) (fun t => t)
      (proofOf D L LL d key ((nibblesOf (nodes 0).root).map Nat.cast) value nodes st ty lpl).starts
      (proofOf D L LL d key ((nibblesOf (nodes 0).root).map Nat.cast) value nodes st ty lpl).types (((d : ℕ) : F p)) = some fr)
    (hlast : lastNodeCheck D 64 mv isSt (proofOf D L LL d key ((nibblesOf (nodes 0).root).map Nat.cast) value nodes st ty lpl) =
      some (4, vl)) :
    checkInclusionFixed D 64 mv isSt
      (proofOf D L LL d key ((nibblesOf (nodes 0).root).map Nat.cast) value nodes st ty lpl) =
      some ⟨if fr = 1 then 1 else 0, vl⟩ := by
  have h10 := H.D10
  have hdD := H.dD
  have hd2 := H.d2
  have hdv : ((d : ℕ) : F p).val = d := val_natCast_lt (by omega)
  set root : List (F p) := (nibblesOf (nodes 0).root).map Nat.cast with hroot
  set x := proofOf D L LL d key root value nodes st ty lpl with hx
  have hrl : root.length = 64 := by rw [hroot, List.length_map, nibblesOf_length]; unfold Trie.root; rw [keccakBytes_length]
  have hll : x.lastRlp.length = LL := by
    show ((rowNibs LL (nodes (d - 1))).map (Nat.cast : ℕ → F p)).length = LL
    rw [List.length_map, rowNibs_length H.lastFits]
  have hh := hash_row hp H.lastFits H.LL16 H.LL2720 H.lastBytes ((LL : ℕ) : F p)
  rw [val_natCast_lt (by have := H.LL2720; omega), if_neg (by omega)] at hh
  have hkc : (List.range 64).mapM (fun i => x.key[i]?) = some (key.map (Nat.cast : ℕ → F p)) := by
    rw [show x.key = key.map (Nat.cast : ℕ → F p) from rfl, mapM_getElem? _ _ (by rw [List.length_map, H.key64]),
      List.take_of_length_le (by rw [List.length_map, H.key64])]
  obtain ⟨ls, hls, hlen, hgood⟩ := layers_run (a := fixedArgs 64 x (key.map Nat.cast)
    ⟨(nibblesOf (keccakBytes (nodes (d - 1)).encode)).map Nat.cast, 64⟩) (Good d nodes ty) (D - 1)
    (fun j hj next hn => good_step hp H rfl rfl hj hn)
  have hle : assertLe ((D : ℕ) : F p) 10 = some () := by
    unfold assertLe
    rw [if_pos]
    rw [val_natCast_lt (by omega)]
    have := val_natCast_lt (p := p) (a := 10) (by omega)
    have h' : (10 : F p).val = 10 := by simpa using this
    rw [h']; exact h10
  obtain ⟨top, htop, hg0⟩ := hgood 0 (by omega)
  have htypes : ∀ j < D - 1, x.types[j]? = some ((ty j : ℕ) : F p) := fun j hj => getElem?_range_map _ hj
  have hfin := finish_some hp h10 (by omega) hdD (root := root) (types := x.types) (by omega) (by simp [hx, proofOf]) hrl htop hg0.1 4 fr 2
  obtain ⟨out, hfin⟩ := hfin
  have hver : ∀ j < d - 1, verdict x.types ls j = 4 := by
    intro j hj
    obtain ⟨o, ho, hg⟩ := hgood j (by omega)
    obtain ⟨-, -, g3, g4⟩ := hg.2.2 hj
    unfold verdict
    rw [getElem?_getD (htypes j (by omega)), ho]
    simp only [Option.getD_some]
    have := H.kinds j (by omega)
    rcases (by omega : ty j = 0 ∨ ty j = 1) with h | h
    · rw [h, g3 h]; simp
    · rw [h, g4 h]; simp
  have hq := finish_eq hp h10 (by omega) hrl (by rw [hdv]; omega) (by rw [hdv]; exact hdD) htop hg0.1 hfin
  have hroot' : root = top.hash.output := (hg0.2.2 (by omega)).1.symm
  rw [if_pos hroot', hdv] at hq
  have hcond : ((1 : F p) + 4 + fr + ((List.range (d - 1)).map (verdict x.types ls)).sum = ((d : ℕ) : F p) * 4 + 2) ↔ fr = 1 := by
    have : (List.range (d - 1)).map (verdict x.types ls) = List.replicate (d - 1) 4 := by
      rw [List.eq_replicate_iff]
      refine ⟨by simp, ?_⟩
      intro b hb
      obtain ⟨j, hj, rfl⟩ := List.mem_map.1 hb
      exact hver j (List.mem_range.1 hj)
    rw [this, List.sum_replicate, nsmul_eq_mul, Nat.cast_sub (by omega)]
    constructor
    · intro h
      linear_combination h - ((d : F p) * 4 + 2) + ((d : F p) * 4 + 2) + (0 : F p)
    · rintro rfl; push_cast; ring
  · unfold checkInclusionFixed
    refine Option.bind_eq_some_iff.2 ⟨(), hle, Option.bind_eq_some_iff.2 ⟨fr, hfr, Option.bind_eq_some_iff.2
      ⟨(4, vl), hlast, Option.bind_eq_some_iff.2 ⟨_, by rw [hll]; exact hh, Option.bind_eq_some_iff.2 ⟨_, hkc,
      Option.bind_eq_some_iff.2 ⟨ls, hls, Option.bind_eq_some_iff.2 ⟨out, hfin, ?_⟩⟩⟩⟩⟩⟩⟩
    rw [hq]
    simp only [hcond]
    rfl

/-- A path whose last node passes the last-node check is accepted, for the root hash of its first node. -/
theorem complete_run {value : List (F p)} {lpl mv : ℕ} {isSt : Bool} {vl : F p} (hmark : PadMark D d st ty) (hLL : 64 ≤ LL)
    (hlast : lastNodeCheck D 64 mv isSt (proofOf D L LL d key ((nibblesOf (nodes 0).root).map Nat.cast) value nodes st ty lpl) =
      some (4, vl)) :
    checkInclusionFixed D 64 mv isSt
      (proofOf D L LL d key ((nibblesOf (nodes 0).root).map Nat.cast) value nodes st ty lpl) = some ⟨1, vl⟩ := by
  have h := run_path hp H hLL (frag_run hp H hmark) hlast
  rwa [if_pos rfl] at h

end
end Verif.Mpt
