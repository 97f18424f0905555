import Verif.Mpt.Forge
import Verif.Mpt.EthSlot
import Verif.Mpt.Frag
import Verif.Common.RecompProps

/-! Lemmas for C74: `CheckMPTInclusionNoBranchTermination`. -/

set_option linter.unusedSectionVars false
set_option linter.unusedVariables false

namespace Verif.Mpt
open Api Rlp Keccak Spec.Keccak Spec.Rlp Spec.Mpt
variable {p : ℕ} [Fact p.Prime]

/-! ## The leaf hash -/

theorem recompose2_general (hi lo : F p) : recompose2 hi lo = Compose.recompose32ByteToNibbles [hi, lo] := by
  unfold recompose2 Compose.recompose32ByteToNibbles Compose.regroup
  simp only [List.length_cons, List.length_nil, Nat.zero_add, Nat.reduceAdd, Nat.reduceMod, Nat.reduceDiv, Nat.reduceEqDiff, ne_eq,
    not_true_eq_false, if_false, List.range_succ, List.range_zero, List.nil_append, List.cons_append, List.foldlM_cons, List.foldlM_nil,
    Option.bind_eq_bind, Option.pure_def, Nat.reduceSub, Nat.sub_zero, List.getElem?_cons_succ, List.getElem?_cons_zero, Option.bind_some,
    OfNat.ofNat_ne_zero]
  rcases toBinary lo 128 with _ | b0
  · rfl
  rcases toBinary hi 128 with _ | b1
  · rfl
  simp only [Option.bind_some, (Hex.C36_reverse _).1, Nat.mul_comm 4]

/-- The two halves of the leaf hash must have 128 bits; the result are the 64 nibbles of their concatenation. -/
theorem recompose2_eq (hp : 2 ^ 128 < p) (hi lo : ℕ) (h1 : hi < 2 ^ 128) (h2 : lo < 2 ^ 128) :
    recompose2 ((hi : ℕ) : F p) ((lo : ℕ) : F p) = some ((Compose.beDigits 4 64 (hi * 2 ^ 128 + lo)).map Nat.cast) := by
  haveI : Fact (1 < p) := ⟨by omega⟩
  have hw : 256 / [hi, lo].length = 128 := by simp
  have hsz : 128 ≤ p.size := by
    rw [Nat.le_iff_lt_or_eq]; left
    exact Nat.lt_size.2 hp.le
  have h := Compose.C48_recompose32Byte (p := p) [hi, lo] (by
    intro t ht
    simp only [List.mem_cons, List.not_mem_nil, or_false] at ht
    rcases ht with rfl | rfl <;> omega) (by rw [hw]; exact hsz)
  rw [hw, if_pos ⟨by simp, by simp, by
    intro t ht
    simp only [List.mem_cons, List.not_mem_nil, or_false] at ht
    rcases ht with rfl | rfl
    · exact h1
    · exact h2⟩] at h
  rw [recompose2_general]
  have e : Compose.beLimbs 128 [hi, lo] = hi * 2 ^ 128 + lo := by
    rw [Compose.beLimbs_cons, Compose.beLimbs_cons]
    simp [Compose.beLimbs]
  rw [e] at h
  exact h

theorem beDigits_succ (m v : ℕ) : Compose.beDigits 4 (m + 1) v = (v / 2 ^ (4 * m) % 16) :: Compose.beDigits 4 m v := by
  unfold Compose.beDigits
  rw [List.range_succ_eq_map, List.map_cons, List.map_map]
  congr 1
  apply List.map_congr_left
  intro i _
  show v / 2 ^ (4 * (m + 1 - 1 - (i + 1))) % 2 ^ 4 = v / 2 ^ (4 * (m - 1 - i)) % 2 ^ 4
  rw [show m + 1 - 1 - (i + 1) = m - 1 - i by omega]

theorem beDigits_add (m v w : ℕ) : Compose.beDigits 4 m (2 ^ (4 * m) * w + v) = Compose.beDigits 4 m v := by
  unfold Compose.beDigits
  apply List.map_congr_left
  intro i hi
  have hi := List.mem_range.1 hi
  obtain ⟨c, hc⟩ : ∃ c, m = c + 1 + (m - 1 - i) := ⟨m - 1 - (m - 1 - i), by omega⟩
  generalize m - 1 - i = d at *
  subst hc
  rw [show 2 ^ (4 * (c + 1 + d)) * w + v = v + 2 ^ (4 * d) * (2 ^ 4 * (2 ^ (4 * c) * w)) by ring,
    Nat.add_mul_div_left _ _ (by positivity), Nat.add_mul_mod_self_left]

/-- The nibbles of a byte string are the base-16 digits of its value. -/
theorem beDigits_bytes : ∀ {bs : List ℕ}, (∀ b ∈ bs, b < 256) →
    Compose.beDigits 4 (2 * bs.length) (Spec.Eth.beValue bs) = nibblesOf bs
  | [], _ => rfl
  | b :: bs, h => by
    have hb : b < 256 := h b (List.mem_cons_self ..)
    have ih := beDigits_bytes (bs := bs) (fun x hx => h x (List.mem_cons_of_mem _ hx))
    have hlt : Spec.Eth.beValue bs < 2 ^ (4 * (2 * bs.length)) := by
      have := beValue_lt (bs := bs) (fun x hx => h x (List.mem_cons_of_mem _ hx))
      rwa [show (256 : ℕ) = 2 ^ 8 by norm_num, ← pow_mul, show 8 * bs.length = 4 * (2 * bs.length) by ring] at this
    rw [beValue_cons, List.length_cons, show 2 * (bs.length + 1) = 2 * bs.length + 1 + 1 by ring, beDigits_succ, beDigits_succ,
      show 256 ^ bs.length = 2 ^ (4 * (2 * bs.length)) by
        rw [show (256 : ℕ) = 2 ^ 8 by norm_num, ← pow_mul]; congr 1; ring, beDigits_add, ih, nibblesOf_cons]
    obtain ⟨N, hN⟩ : ∃ N, N = 2 ^ (4 * (2 * bs.length)) := ⟨_, rfl⟩
    have hN0 : 0 < N := by rw [hN]; positivity
    have e2 : (2 : ℕ) ^ (4 * (2 * bs.length + 1)) = N * 16 := by rw [hN, mul_add, pow_add]; norm_num
    rw [← hN] at hlt
    rw [e2, ← hN]
    have d1 : (N * b + Spec.Eth.beValue bs) / N = b := by
      rw [Nat.add_comm, Nat.add_mul_div_left _ _ hN0, Nat.div_eq_of_lt hlt, Nat.zero_add]
    rw [← Nat.div_div_eq_div_mul, d1, Nat.mod_eq_of_lt (show b / 16 < 16 by omega)]
    rfl

theorem hash_digits (bs : List ℕ) : Compose.beDigits 4 64 (Spec.Eth.beValue (keccakBytes bs)) = nibblesOf (keccakBytes bs) := by
  have h := beDigits_bytes (keccakBytes_lt bs)
  rw [keccakBytes_length] at h
  exact h

theorem hash_value_lt (bs : List ℕ) : Spec.Eth.beValue (keccakBytes bs) < 2 ^ 256 := by
  have h := beValue_lt (keccakBytes_lt bs)
  rw [keccakBytes_length] at h
  exact lt_of_lt_of_eq h (by norm_num)

theorem beDigits_length (g n v : ℕ) : (Compose.beDigits g n v).length = n := by simp [Compose.beDigits]

/-! ## Fragments -/

/-- The fragment test runs whenever the kinds are bits and the depth is in range. -/
theorem frag_some_neg (hp : 2 ^ 128 < p) {D d : ℕ} {st ty : ℕ → ℕ} (h10 : D ≤ 10) (hD2 : 1 ≤ D) (hd1 : 1 ≤ d) (hdD : d ≤ D)
    (hkinds : ∀ j < D, ty j ≤ 1) {S T : List (F p)} {K : F p}
    (hSj : ∀ j < D, S[j]? = some ((st j : ℕ) : F p)) (hTj : ∀ j < D - 1, T[j]? = some ((ty j : ℕ) : F p)) :
    ∃ v, fragmentsValid D K (fun t => 1 - t) S T (((d : ℕ) : F p)) = some v := by
  have hdv : ((d : ℕ) : F p).val = d := val_natCast_lt (by omega)
  unfold fragmentsValid fragmentSums
  rw [mapM_some (g := fun i => (if S.getD i 0 + 1 = S.getD (i + 1) 0 ∨ ty i = 0 then (1 : F p) else 0) +
    lessThan (S.getD i 0) (S.getD (i + 1) 0) + lessThan (S.getD i 0) K) (by
      intro i hi
      have hi := List.mem_range.1 hi
      have e1 := hSj i (by omega)
      have e2 := hSj (i + 1) (by omega)
      have e3 := hTj i hi
      rw [e1, e2, e3, getElem?_getD e1, getElem?_getD e2]
      simp only [Option.bind_eq_bind, Option.bind_some]
      have hty := hkinds i (by omega)
      have ht2 : (1 : F p) - ((ty i : ℕ) : F p) = if ty i = 0 then 1 else 0 := by
        rcases (by omega : ty i = 0 ∨ ty i = 1) with h | h <;> simp [h]
      rw [equal_eq, ht2, or_ite]
      rfl)]
  simp only [Option.bind_eq_bind, Option.bind_some]
  rw [hSj (D - 1) (by omega)]
  simp only [Option.bind_some, Option.pure_def, prefix_sums]
  rw [multiplexer_single _ _ _ (by omega) (by simp; omega)]
  have : (((d : ℕ) : F p) - 1).val = d - 1 := by
    rw [val_sub_of_le (by rw [val_one hp, hdv]; omega), val_one hp, hdv]
  rw [this, if_pos (by omega)]
  exact ⟨_, rfl⟩

/-! ## Layers with keys of six nibbles -/

theorem zs_ext_sat6 (hp : 2 ^ 128 < p) :
    (rlpArrayCheck (extParams 6) (List.replicate 78 (0 : F p)) ((2 : ℕ) : F p)).isSome :=
  zs_sat hp (extParams 6) (extParams_wf 6 (by norm_num)) 2 (by norm_num)
    (by unfold acCond gAlign itemFits; decide) (by decide)

theorem zs_ext6 (hp : 2 ^ 128 < p) (keyLen : F p) (key : List (F p)) (refLen : F p) (refs : List (F p)) (pl : F p)
    (hk : key.length = 6) (hrf : refs.length = 64) (hpl : pl.val ≤ 2) :
    ∃ e, checkExtension 6 keyLen key refLen refs (List.replicate 78 0) pl = some e ∧ e.total = 2 := by
  have h := checkExtension_eq hp 6 (by norm_num) keyLen key refLen refs (List.replicate 78 0) pl zs
    (by
      rw [List.take_of_length_le (by simp [extMaxRlp])]
      exact zs_cells 78 (by norm_num)) (by omega) (by omega) (by omega) (by omega)
  rw [if_pos ⟨zs_ext_sat6 hp, ⟨by omega, by rw [zs_pay]; exact hpl, by rw [zs_pay]; omega⟩, by rw [zs_pay]; omega⟩] at h
  refine ⟨_, h, ?_⟩
  simp only
  rw [zs_total]; rfl

/-- Assembling a satisfied layer (keys of at most six nibbles). -/
theorem layer_run6 (hp : 2 ^ 128 < p) {a : LayerArgs p} {j : ℕ} {next : Option (HashOut p)}
    (hns : a.nSub = 6) (hsb : a.subBits = 3) (hmk : a.maxKey = 6) (hkc : 6 ≤ a.keyCells.length) (hkl : 6 ≤ a.key.length)
    (hj : j < 100) {s s' refLen t pl ri : F p} {refs row : List (F p)} {H : HashOut p} {P Q : NodeOut p → Prop}
    (hs : a.starts[j]? = some s) (hs' : a.starts[j + 1]? = some s') (hss : s.val ≤ s'.val) (hs64 : s'.val ≤ 6)
    (hd : j < a.depth.val → s.val < 6)
    (href : nodeRef a j next = some (refLen, refs)) (ht : a.types[j]? = some t) (hrow : a.nodeRlp[j]? = some row)
    (hrl : 1064 ≤ row.length) (hpl : a.pls[j]? = some pl) (hri : a.ris[j]? = some ri)
    (hext : ∀ sel : List (F p), sel.length = 6 →
      ∃ e, checkExtension 6 (s' - s) sel refLen refs ((row.take 78).map fun x => t * x) pl = some e ∧ P e)
    (hbr : ∃ b, checkBranch (a.key.getD (if j < a.depth.val then s.val else 0) 0) refLen refs
      ((row.take 1064).map fun x => x - t * x) = some b ∧ Q b)
    (hh : ∀ e b, P e → Q b → hashNode (t * (e.total - b.total) + b.total) row ri = some H) :
    ∃ o, layerStep a j next = some o ∧ o.hash = H ∧ (∃ e, P e ∧ o.ext = e.output) ∧ ∃ b, Q b ∧ o.branch = b.output := by
  have hC := (C05_subArray 6 6 3 a.keyCells s s' (by omega) (by omega) (by omega) (by norm_num) le_rfl (by omega)).2
    ⟨hss, hs64, by omega⟩
  obtain ⟨sel, len, e1, e2, e3, e4, -⟩ := hC
  obtain ⟨e, he, hP⟩ := hext sel e3
  obtain ⟨b, hb, hQ⟩ := hbr
  have hH := hh e b hP hQ
  have hm : multiplexer (lessThan (j : F p) a.depth * s) 1 6 [a.key.take 6] =
      some [a.key.getD (if j < a.depth.val then s.val else 0) 0] := by
    have hg : ∀ i < 6, (a.key.take 6).getD i 0 = a.key.getD i 0 := by
      intro i hi
      rw [List.getD_eq_getElem?_getD, List.getElem?_take_of_lt hi, List.getD_eq_getElem?_getD]
    rw [multiplexer_single _ _ _ (by omega) (by rw [List.length_take]; omega), lessThan_eq (by omega),
      val_natCast_lt (by omega)]
    by_cases hjd : j < a.depth.val
    · rw [if_pos hjd, one_mul, if_pos (hd hjd), if_pos hjd, hg _ (hd hjd)]
    · rw [if_neg hjd, zero_mul, ZMod.val_zero, if_pos (by omega), if_neg hjd, hg _ (by omega)]
  refine ⟨⟨e.output, b.output, H⟩, ?_, rfl, ⟨e, hP, rfl⟩, b, hQ, rfl⟩
  have hmb : maxBranchNodeRlpHexLen = 1064 := rfl
  unfold layerStep
  refine Option.bind_eq_some_iff.2 ⟨s, hs, Option.bind_eq_some_iff.2 ⟨s', hs', Option.bind_eq_some_iff.2
    ⟨(sel, len), by rw [hns, hsb]; exact e1, Option.bind_eq_some_iff.2 ⟨(refLen, refs), href,
    Option.bind_eq_some_iff.2 ⟨t, ht, Option.bind_eq_some_iff.2 ⟨row, hrow, Option.bind_eq_some_iff.2
    ⟨(row.take 78).map fun x => t * x, by rw [hmk]; exact mapM_row_run (g := fun x => t * x) (by omega),
    Option.bind_eq_some_iff.2 ⟨pl, hpl, Option.bind_eq_some_iff.2 ⟨e, by rw [hmk]; exact he,
    Option.bind_eq_some_iff.2 ⟨a.key.take 6, by rw [hmk]; exact mapM_getElem? _ _ (by omega),
    Option.bind_eq_some_iff.2 ⟨_, by rw [hmk]; exact hm, Option.bind_eq_some_iff.2 ⟨_, rfl,
    Option.bind_eq_some_iff.2 ⟨(row.take 1064).map fun x => x - t * x, by
      rw [hmb]; exact mapM_row_run (g := fun x => x - t * x) hrl, Option.bind_eq_some_iff.2 ⟨b, hb,
    Option.bind_eq_some_iff.2 ⟨ri, hri, Option.bind_eq_some_iff.2 ⟨H, hH, rfl⟩⟩⟩⟩⟩⟩⟩⟩⟩⟩⟩⟩⟩⟩⟩⟩

/-- The Keccak digest that the checker computes for an all-zero buffer, as nibbles. -/
def zeroHash (L : ℕ) : List ℕ := nibblesOf (digestBytes (squeeze (supplied (List.replicate L 0) 0)))

theorem zeroHash_length (L : ℕ) : (zeroHash L).length = 64 := by unfold zeroHash; rw [nibblesOf_length, digestBytes_length]

/-- A layer whose buffer is zero runs, whatever it is asked to refer to. -/
theorem zero_layer_run6 (hp : 2 ^ 128 < p) {a : LayerArgs p} {j L : ℕ} {next : Option (HashOut p)}
    (hL16 : L % 16 = 0) (hL1 : 1064 ≤ L) (hL2 : L ≤ 2720)
    (hns : a.nSub = 6) (hsb : a.subBits = 3) (hmk : a.maxKey = 6) (hkc : 6 ≤ a.keyCells.length) (hkl : 6 ≤ a.key.length)
    (hnibs : ∀ i, (a.key.getD i 0).val < 16)
    (hj : j < 100) {s s' t : F p}
    (hs : a.starts[j]? = some s) (hs' : a.starts[j + 1]? = some s') (hss : s.val ≤ s'.val) (hs64 : s'.val ≤ 6)
    (hd : j < a.depth.val → s.val < 6) (ht : a.types[j]? = some t) (hrow : a.nodeRlp[j]? = some (List.replicate L 0))
    (hpl : a.pls[j]? = some 0) (hri : a.ris[j]? = some 0)
    (hl : a.last.output.length = 64) (hll : a.last.outLen.val ≤ 64)
    (hn : ∀ h, next = some h → h.output.length = 64 ∧ h.outLen.val ≤ 64) :
    ∃ o, layerStep a j next = some o ∧ o.hash.output = (zeroHash L).map Nat.cast ∧ o.hash.outLen.val ≤ 64 := by
  have h2 : (2 : F p).val = 2 := by
    have := val_natCast_lt (p := p) (a := 2) (by omega); simpa using this
  obtain ⟨refLen, refs, href, hrl, hrlv⟩ := nodeRef_run (a := a) (j := j) (next := next) hp hj hl hll hn
  have hrlen : (List.replicate L (0 : F p)).length = L := List.length_replicate
  have hz : (List.replicate L (0 : F p)) = (List.replicate L 0).map (Nat.cast : ℕ → F p) := by simp
  have hhash : hashNode (2 : F p) (List.replicate L (0 : F p)) 0 = some ⟨(zeroHash L).map Nat.cast, 2⟩ := by
    rw [hz, hashNode_eq hp _ (fun x hx => by rw [List.eq_of_mem_replicate hx]; norm_num)
      (by rw [List.length_replicate]; exact hL16) (by rw [List.length_replicate]; exact hL2), ZMod.val_zero,
      if_pos (by norm_num), h2, if_pos (by norm_num)]
    rfl
  have hmapz : ∀ (g : F p → F p) (n : ℕ), g 0 = 0 → n ≤ L → ((List.replicate L (0 : F p)).take n).map g = List.replicate n 0 := by
    intro g n hg hn
    rw [List.take_replicate, List.map_replicate, hg, Nat.min_eq_left hn]
  obtain ⟨o, ho1, ho2, -, -⟩ := layer_run6 (Q := fun e => e.total = 2) (P := fun e => e.total = 2) hp hns hsb hmk hkc hkl hj
      hs hs' hss hs64 hd href ht hrow (by rw [hrlen]; omega) hpl hri
      (by
        intro sel hsel
        rw [hmapz _ 78 (by ring) (by omega)]
        exact zs_ext6 hp _ sel _ _ 0 hsel hrl (by rw [ZMod.val_zero]; omega))
      (by
        rw [hmapz _ 1064 (by ring) (by omega)]
        exact zs_branch hp _ _ _ hrl (hnibs _) hrlv)
      (fun e b hP hQ => by
        rw [hP, hQ, sub_self, mul_zero, zero_add]
        exact hhash)
  refine ⟨o, ho1, by rw [ho2], ?_⟩
  rw [ho2]; simp only; rw [h2]; norm_num

end Verif.Mpt
