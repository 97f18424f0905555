import Verif.Mpt.Rows
import Verif.Mpt.Step

/-! Running the layers of the inclusion checker on honest and on zero buffers (lemmas for C47). -/

set_option linter.unusedSectionVars false
set_option linter.unusedVariables false

namespace Verif.Mpt
open Api Rlp Keccak Spec.Keccak Spec.Rlp Spec.Mpt
variable {p : ℕ} [Fact p.Prime]

theorem mapM_row_run {row : List (F p)} {g : F p → F p} {n : ℕ} (h : n ≤ row.length) :
    (List.range n).mapM (fun i => do
      let x ← row[i]?
      pure (g x)) = some ((row.take n).map g) := by
  rw [show (List.range n).mapM (fun i => do
      let x ← row[i]?
      pure (g x)) = some ((List.range n).map fun i => g (row.getD i 0)) from ?_]
  · congr 1
    apply List.ext_getElem (by simp; omega)
    intro i h1 h2
    simp only [List.length_map, List.length_range] at h1
    rw [List.getElem_map, List.getElem_map, List.getElem_range, List.getElem_take, List.getD_eq_getElem _ _ (by omega)]
  · apply mapM_some
    intro i hi
    have hi := List.mem_range.1 hi
    rw [List.getElem?_eq_getElem (by omega), List.getD_eq_getElem _ _ (by omega)]
    rfl

theorem mapM_zip_run {r1 r2 : List (F p)} {g : F p → F p → F p} {n : ℕ} (h1 : n ≤ r1.length) (h2 : n ≤ r2.length) :
    (List.range n).mapM (fun i => do
      let x ← r1[i]?
      let y ← r2[i]?
      pure (g x y)) = some ((List.range n).map fun i => g (r1.getD i 0) (r2.getD i 0)) := by
  apply mapM_some
  intro i hi
  have hi := List.mem_range.1 hi
  rw [List.getElem?_eq_getElem (by omega), List.getElem?_eq_getElem (by omega), List.getD_eq_getElem _ _ (by omega),
    List.getD_eq_getElem _ _ (by omega)]
  rfl

/-- The reference row is always computable, has 64 cells and a length of at most 64. -/
theorem nodeRef_run (hp : 2 ^ 128 < p) {a : LayerArgs p} {j : ℕ} {next : Option (HashOut p)} (hj : j < 100)
    (hl : a.last.output.length = 64) (hll : a.last.outLen.val ≤ 64)
    (hn : ∀ h, next = some h → h.output.length = 64 ∧ h.outLen.val ≤ 64) :
    ∃ refLen refs, nodeRef a j next = some (refLen, refs) ∧ refs.length = 64 ∧ refLen.val ≤ 64 := by
  have hde : equal a.depth ((j + 2 : ℕ) : F p) = if a.depth = ((j + 2 : ℕ) : F p) then 1 else 0 := equal_eq _ _
  unfold nodeRef
  simp only [hde]
  cases next with
  | none =>
    simp only
    rw [mapM_row_run (g := fun x => (if a.depth = ((j + 2 : ℕ) : F p) then (1 : F p) else 0) * x) (by omega)]
    refine ⟨_, _, rfl, ?_, ?_⟩
    · simp; omega
    · split
      · rw [one_mul]; exact hll
      · rw [zero_mul, ZMod.val_zero]; omega
  | some h =>
    obtain ⟨h1, h2⟩ := hn h rfl
    simp only
    rw [mapM_zip_run (g := fun x y => (if a.depth = ((j + 2 : ℕ) : F p) then (1 : F p) else 0) * (x - y) + y)
      (by omega) (by omega)]
    refine ⟨_, _, rfl, ?_, ?_⟩
    · simp
    · split
      · rw [one_mul, sub_add_cancel]; exact hll
      · rw [zero_mul, zero_add]; exact h2

theorem map_zero_mul (l : List (F p)) : (l.map fun x => (0 : F p) * x) = List.replicate l.length 0 := by
  rw [List.eq_replicate_iff]
  simp

theorem map_sub_self (l : List (F p)) : (l.map fun x => x - (1 : F p) * x) = List.replicate l.length 0 := by
  rw [List.eq_replicate_iff]
  simp

theorem zs_total : listHdr (byteAt zs 0) + declared zs = 2 := by decide

theorem zs_ext (hp : 2 ^ 128 < p) (keyLen : F p) (key : List (F p)) (refLen : F p) (refs : List (F p)) (pl : F p)
    (hk : key.length = 64) (hrf : refs.length = 64) (hpl : pl.val ≤ 2) :
    ∃ e, checkExtension 64 keyLen key refLen refs (List.replicate 136 0) pl = some e ∧ e.total = 2 := by
  have h := checkExtension_eq hp 64 (by norm_num) keyLen key refLen refs (List.replicate 136 0) pl zs
    (by
      rw [List.take_of_length_le (by simp [extMaxRlp])]
      exact zs_cells 136 (by norm_num)) (by omega) (by omega) (by omega) (by omega)
  rw [if_pos ⟨zs_ext_sat hp, ⟨by omega, by rw [zs_pay]; exact hpl, by rw [zs_pay]; omega⟩, by rw [zs_pay]; omega⟩] at h
  refine ⟨_, h, ?_⟩
  simp only
  rw [zs_total]; rfl

theorem zs_branch (hp : 2 ^ 128 < p) (nib : F p) (refLen : F p) (refs : List (F p))
    (hrf : refs.length = 64) (hn : nib.val < 16) (hrl : refLen.val ≤ 64) :
    ∃ e, checkBranch nib refLen refs (List.replicate 1064 0) = some e ∧ e.total = 2 := by
  have h := checkBranch_eq hp nib refLen refs (List.replicate 1064 0) zs
    (by
      rw [List.take_of_length_le (by rw [List.length_replicate])]
      exact zs_cells 1064 (by norm_num)) (by omega) (by omega)
  rw [if_pos ⟨zs_branch_sat hp, hn, hrl⟩] at h
  refine ⟨_, h, ?_⟩
  simp only
  rw [zs_total]; rfl

/-- Assembling a satisfied layer. -/
theorem layer_run (hp : 2 ^ 128 < p) {a : LayerArgs p} {j : ℕ} {next : Option (HashOut p)}
    (hns : a.nSub = 64) (hsb : a.subBits = 7) (hmk : a.maxKey = 64) (hkc : a.keyCells = a.key) (hkl : a.key.length = 64)
    (hj : j < 100) {s s' refLen t pl ri : F p} {refs row : List (F p)} {H : HashOut p} {P Q : NodeOut p → Prop}
    (hs : a.starts[j]? = some s) (hs' : a.starts[j + 1]? = some s') (hss : s.val ≤ s'.val) (hs64 : s'.val ≤ 64)
    (hd : j < a.depth.val → s.val < 64)
    (href : nodeRef a j next = some (refLen, refs)) (ht : a.types[j]? = some t) (hrow : a.nodeRlp[j]? = some row)
    (hrl : 1064 ≤ row.length) (hpl : a.pls[j]? = some pl) (hri : a.ris[j]? = some ri)
    (hext : ∀ sel : List (F p), sel.length = 64 →
      sel.take (s'.val - s.val) = (a.key.drop s.val).take (s'.val - s.val) →
      ∃ e, checkExtension 64 (s' - s) sel refLen refs ((row.take 136).map fun x => t * x) pl = some e ∧ P e)
    (hbr : ∃ b, checkBranch (a.key.getD (if j < a.depth.val then s.val else 0) 0) refLen refs
      ((row.take 1064).map fun x => x - t * x) = some b ∧ Q b)
    (hh : ∀ e b, P e → Q b → hashNode (t * (e.total - b.total) + b.total) row ri = some H) :
    ∃ o, layerStep a j next = some o ∧ o.hash = H ∧ (∃ e, P e ∧ o.ext = e.output) ∧ ∃ b, Q b ∧ o.branch = b.output := by
  have hC := (C05_subArray 64 64 7 a.key s s' (by omega) (by omega) (by omega) (by norm_num) le_rfl (by omega)).2
    ⟨hss, hs64, by omega⟩
  obtain ⟨sel, len, e1, e2, e3, e4, -⟩ := hC
  have e4' : sel.take (s'.val - s.val) = (a.key.drop s.val).take (s'.val - s.val) := by
    rw [e4]; unfold Spec.window; rw [List.drop_take]
  obtain ⟨e, he, hP⟩ := hext sel e3 e4'
  obtain ⟨b, hb, hQ⟩ := hbr
  have hH := hh e b hP hQ
  have hm : multiplexer (lessThan (j : F p) a.depth * s) 1 64 [a.key.take 64] =
      some [a.key.getD (if j < a.depth.val then s.val else 0) 0] := by
    rw [List.take_of_length_le (by omega), multiplexer_single _ _ _ (by omega) (by omega), lessThan_eq (by omega),
      val_natCast_lt (by omega)]
    by_cases hjd : j < a.depth.val
    · rw [if_pos hjd, one_mul, if_pos (hd hjd), if_pos hjd]
    · rw [if_neg hjd, zero_mul, ZMod.val_zero, if_pos (by omega), if_neg hjd]
  refine ⟨⟨e.output, b.output, H⟩, ?_, rfl, ⟨e, hP, rfl⟩, b, hQ, rfl⟩
  have hmb : maxBranchNodeRlpHexLen = 1064 := rfl
  unfold layerStep
  refine Option.bind_eq_some_iff.2 ⟨s, hs, Option.bind_eq_some_iff.2 ⟨s', hs', Option.bind_eq_some_iff.2
    ⟨(sel, len), by rw [hns, hsb, hkc]; exact e1, Option.bind_eq_some_iff.2 ⟨(refLen, refs), href,
    Option.bind_eq_some_iff.2 ⟨t, ht, Option.bind_eq_some_iff.2 ⟨row, hrow, Option.bind_eq_some_iff.2
    ⟨(row.take 136).map fun x => t * x, by rw [hmk]; exact mapM_row_run (g := fun x => t * x) (by omega),
    Option.bind_eq_some_iff.2 ⟨pl, hpl, Option.bind_eq_some_iff.2 ⟨e, by rw [hmk]; exact he,
    Option.bind_eq_some_iff.2 ⟨a.key.take 64, by rw [hmk]; exact mapM_getElem? _ _ (by omega),
    Option.bind_eq_some_iff.2 ⟨_, by rw [hmk]; exact hm, Option.bind_eq_some_iff.2 ⟨_, rfl,
    Option.bind_eq_some_iff.2 ⟨(row.take 1064).map fun x => x - t * x, by
      rw [hmb]; exact mapM_row_run (g := fun x => x - t * x) hrl, Option.bind_eq_some_iff.2 ⟨b, hb,
    Option.bind_eq_some_iff.2 ⟨ri, hri, Option.bind_eq_some_iff.2 ⟨H, hH, rfl⟩⟩⟩⟩⟩⟩⟩⟩⟩⟩⟩⟩⟩⟩⟩⟩

/-- Running the layer loop with an invariant. -/
theorem layers_run {a : LayerArgs p} (R : ℕ → LayerOut p → Prop) (N : ℕ)
    (hstep : ∀ j < N, ∀ next : Option (LayerOut p), ((next = none ∧ j + 1 = N) ∨ ∃ o, next = some o ∧ j + 1 < N ∧ R (j + 1) o) →
      ∃ o, layerStep a j (next.map LayerOut.hash) = some o ∧ R j o) :
    ∃ ls, (List.range N).reverse.foldlM (fun (acc : List (LayerOut p)) layer => do
      let o ← layerStep a layer (acc.head?.map LayerOut.hash)
      pure (o :: acc)) [] = some ls ∧ ls.length = N ∧ ∀ j < N, ∃ o, ls[j]? = some o ∧ R j o := by
  have key : ∀ n ≤ N, ∀ acc : List (LayerOut p), acc.length = N - n →
      (∀ j < acc.length, ∃ o, acc[j]? = some o ∧ R (n + j) o) →
      ∃ ls, (List.range n).reverse.foldlM (fun (acc : List (LayerOut p)) layer => do
        let o ← layerStep a layer (acc.head?.map LayerOut.hash)
        pure (o :: acc)) acc = some ls ∧ ls.length = N ∧ ∀ j < N, ∃ o, ls[j]? = some o ∧ R j o := by
    intro n
    induction n with
    | zero =>
      intro _ acc hl hacc
      refine ⟨acc, rfl, by omega, fun j hj => ?_⟩
      obtain ⟨o, h1, h2⟩ := hacc j (by omega)
      exact ⟨o, h1, by simpa using h2⟩
    | succ n ih =>
      intro hn acc hl hacc
      have hnext : (acc.head? = none ∧ n + 1 = N) ∨ ∃ o, acc.head? = some o ∧ n + 1 < N ∧ R (n + 1) o := by
        cases acc with
        | nil => left; exact ⟨rfl, by simp at hl; omega⟩
        | cons b acc =>
          right
          obtain ⟨o, h1, h2⟩ := hacc 0 (by simp)
          simp only [List.length_cons] at hl
          refine ⟨o, by simpa using h1, by omega, by simpa using h2⟩
      obtain ⟨o, ho, hR⟩ := hstep n (by omega) acc.head? hnext
      obtain ⟨ls, h1, h2, h3⟩ := ih (by omega) (o :: acc) (by simp; omega) (by
        intro j hj
        rcases j with _ | j
        · exact ⟨o, rfl, hR⟩
        · obtain ⟨o', g1, g2⟩ := hacc j (by simpa using hj)
          exact ⟨o', g1, by rwa [show n + (j + 1) = n + 1 + j by ring]⟩)
      refine ⟨ls, ?_, h2, h3⟩
      rw [List.range_succ, List.reverse_append, List.reverse_singleton, List.singleton_append, List.foldlM_cons, ho]
      exact h1
  obtain ⟨ls, h1, h2, h3⟩ := key N le_rfl [] (by simp) (by simp)
  exact ⟨ls, h1, h2, h3⟩

end Verif.Mpt
