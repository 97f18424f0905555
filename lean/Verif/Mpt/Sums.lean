import Verif.Mpt.Layer

/-! The final verdict: sums of layer verdicts (lemmas for C18). -/

set_option linter.unusedSectionVars false
set_option linter.unusedVariables false

namespace Verif.Mpt
open Api Rlp Keccak Spec.Rlp Spec.Mpt
variable {p : ℕ} [Fact p.Prime]

/-- The verdict of layer `j`: the branch verdict if the type is 0, the extension verdict if it is 1. -/
def verdict (types : List (F p)) (ls : List (LayerOut p)) (j : ℕ) : F p :=
  match ls[j]? with
  | none => 0
  | some o => o.branch + types.getD j 0 * (o.ext - o.branch)

theorem checkSums_some {init : F p} {types : List (F p)} {ls : List (LayerOut p)} {sums : List (F p)}
    (h : checkSums init types ls = some sums) :
    sums = (List.range (ls.length + 1)).map fun k => init + ((List.range k).map (verdict types ls)).sum := by
  unfold checkSums at h
  obtain ⟨r, hr, h⟩ := Option.bind_eq_some_iff.1 h
  have h := Option.some.inj h
  subst h
  have key : ∀ n ≤ ls.length, ∀ r, (List.range n).foldlM (fun (acc : F p × List (F p)) i => do
      let o ← ls[i]?
      let t ← types[i]?
      let v := acc.1 + o.branch + t * (o.ext - o.branch)
      pure (v, acc.2 ++ [v])) (init, [init]) = some r →
      r = (init + ((List.range n).map (verdict types ls)).sum,
        (List.range (n + 1)).map fun k => init + ((List.range k).map (verdict types ls)).sum) := by
    intro n
    induction n with
    | zero => intro _ r hr; have := Option.some.inj hr; subst this; simp
    | succ n ih =>
      intro hn r hr
      rw [List.range_succ, List.foldlM_append] at hr
      obtain ⟨m, hm, hr⟩ := Option.bind_eq_some_iff.1 hr
      obtain rfl := ih (by omega) m hm
      simp only [List.foldlM_cons, List.foldlM_nil] at hr
      obtain ⟨r', hr', hr⟩ := Option.bind_eq_some_iff.1 hr
      obtain ⟨o, ho, hr'⟩ := Option.bind_eq_some_iff.1 hr'
      obtain ⟨t, ht, hr'⟩ := Option.bind_eq_some_iff.1 hr'
      have hr' := Option.some.inj hr'
      have hr := Option.some.inj hr
      subst hr hr'
      have hv : verdict types ls n = o.branch + t * (o.ext - o.branch) := by
        unfold verdict
        rw [ho, getElem?_getD ht]
      have hs : init + ((List.range n).map (verdict types ls)).sum + o.branch + t * (o.ext - o.branch) =
          init + ((List.range (n + 1)).map (verdict types ls)).sum := by
        rw [List.range_succ, List.map_append, List.sum_append]
        simp [hv]; ring
      rw [List.range_succ (n := n + 1), List.map_append]
      simp only [hs, List.map_cons, List.map_nil]
  rw [key ls.length le_rfl r hr]

theorem val_one (hp : 2 ^ 128 < p) : (1 : F p).val = 1 := by
  have := val_natCast_lt (p := p) (a := 1) (by omega); simpa using this

/-- Exact meaning of the final comparison: root check, leaf verdict, fragment flag and layer verdicts add up. -/
theorem finish_eq (hp : 2 ^ 128 < p) {D : ℕ} (hD : D ≤ 10) {rootHash types : List (F p)} {ls : List (LayerOut p)}
    (hls : ls.length + 1 = D) (hroot : rootHash.length = 64) {depth leafOut frag bonus out : F p}
    (hd1 : 1 ≤ depth.val) (hdD : depth.val ≤ D) {top : LayerOut p} (ht : ls[0]? = some top)
    (htop : top.hash.output.length = 64)
    (h : finish D rootHash types ls depth leafOut frag bonus = some out) :
    out = if (if rootHash = top.hash.output then 1 else 0) + leafOut + frag +
      ((List.range (depth.val - 1)).map (verdict types ls)).sum = depth * 4 + bonus then 1 else 0 := by
  unfold finish at h
  obtain ⟨top', ht', h⟩ := Option.bind_eq_some_iff.1 h
  obtain rfl : top = top' := by rw [ht] at ht'; exact Option.some.inj ht'
  obtain ⟨rc, hrc, h⟩ := Option.bind_eq_some_iff.1 h
  obtain ⟨sums, hsums, h⟩ := Option.bind_eq_some_iff.1 h
  obtain ⟨m, hm, h⟩ := Option.bind_eq_some_iff.1 h
  obtain ⟨m0, hm0, h⟩ := Option.bind_eq_some_iff.1 h
  have h := (Option.some.inj h).symm
  have h64 : (64 : F p).val = 64 := by
    have := val_natCast_lt (p := p) (a := 64) (by omega); simpa using this
  rw [arrayEqual_eq _ _ _ _ (by omega) (by omega) (by omega) (by omega), h64, if_pos le_rfl,
    List.take_of_length_le (by omega), List.take_of_length_le (by omega)] at hrc
  have hrc := Option.some.inj hrc
  have hs := checkSums_some hsums
  have hdv : (depth - 1).val = depth.val - 1 := by rw [val_sub_of_le (by rw [val_one hp]; exact hd1), val_one hp]
  rw [multiplexer_single _ _ _ (by omega) (by rw [hs]; simp; omega), hdv, if_pos (by omega)] at hm
  obtain rfl := Option.some.inj hm
  obtain rfl : sums.getD (depth.val - 1) 0 = m0 := by simpa using hm0
  rw [h, equal_eq, hs, List.getD_eq_getElem _ _ (by simp; omega), List.getElem_map, List.getElem_range, ← hrc]

theorem ite_one {P : Prop} [Decidable P] (h : (1 : F p) = if P then 1 else 0) : P := by
  by_contra hn
  rw [if_neg hn] at h
  exact one_ne_zero h

/-- The final verdict is 1 only if every part is maximal. -/
theorem finish_max (hp : 2 ^ 128 < p) {D : ℕ} (hD : D ≤ 10) {rootHash types : List (F p)} {ls : List (LayerOut p)}
    (hls : ls.length + 1 = D) (hroot : rootHash.length = 64) {depth leafOut frag : F p}
    (hd1 : 1 ≤ depth.val) (hdD : depth.val ≤ D) {top : LayerOut p} (ht : ls[0]? = some top)
    (htop : top.hash.output.length = 64) (hlo : ∃ v ≤ 4, leafOut = ((v : ℕ) : F p)) (hfr : frag = 0 ∨ frag = 1)
    (hver : ∀ j < depth.val - 1, ∃ v ≤ 4, verdict types ls j = ((v : ℕ) : F p))
    (h : finish D rootHash types ls depth leafOut frag 2 = some 1) :
    rootHash = top.hash.output ∧ leafOut = 4 ∧ frag = 1 ∧ ∀ j < depth.val - 1, verdict types ls j = 4 := by
  have he := finish_eq hp hD hls hroot hd1 hdD ht htop h
  have hsum := ite_one he
  obtain ⟨lv, hlv, rfl⟩ := hlo
  choose! g hg4 hg using hver
  obtain ⟨fv, hfv, hfr1⟩ : ∃ fv ≤ 1, frag = ((fv : ℕ) : F p) := by
    rcases hfr with rfl | rfl
    · exact ⟨0, by omega, by simp⟩
    · exact ⟨1, le_rfl, by simp⟩
  have hsv : ((List.range (depth.val - 1)).map (verdict types ls)).sum =
      ((((List.range (depth.val - 1)).map g).sum : ℕ) : F p) := by
    rw [← cast_sum, List.map_map]
    congr 1
    apply List.map_congr_left
    intro j hj
    exact hg j (List.mem_range.1 hj)
  have hmx := sum_max (l := (List.range (depth.val - 1)).map g) (m := 4) (by
    intro x hx
    obtain ⟨j, hj, rfl⟩ := List.mem_map.1 hx
    exact hg4 j (List.mem_range.1 hj))
  rw [List.length_map, List.length_range] at hmx
  classical
  have hi := ind_le (rootHash = top.hash.output)
  have hcast : ((if rootHash = top.hash.output then 1 else 0 : F p)) = ((ind (rootHash = top.hash.output) : ℕ) : F p) := by
    unfold ind; split <;> simp
  have hdc : depth * 4 + 2 = ((depth.val * 4 + 2 : ℕ) : F p) := by push_cast; rw [ZMod.natCast_zmod_val]
  rw [hcast, hsv, hfr1, hdc] at hsum
  rw [← Nat.cast_add, ← Nat.cast_add, ← Nat.cast_add, natCast_inj_of_lt (by omega) (by omega)] at hsum
  refine ⟨(ind_eq_one _).1 (by omega), ?_, ?_, ?_⟩
  · rw [show lv = 4 by omega]; simp
  · rw [hfr1, show fv = 1 by omega]; simp
  · intro j hj
    rw [hg j hj, hmx.2.1 (by omega) (g j) (List.mem_map_of_mem (List.mem_range.2 hj))]
    simp

end Verif.Mpt
