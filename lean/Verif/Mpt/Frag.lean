import Verif.Mpt.Reveal

/-! Running sums of verdicts: key fragments (lemmas for C18). -/

set_option linter.unusedSectionVars false
set_option linter.unusedVariables false

namespace Verif.Mpt
open Api Rlp Keccak Spec.Rlp Spec.Mpt
variable {p : ℕ} [Fact p.Prime]

theorem mapM_range_some {β : Type*} {f : ℕ → Option β} {n : ℕ} {r : List β} (h : (List.range n).mapM f = some r) :
    r.length = n ∧ ∀ i (hi : i < n), ∃ hr : i < r.length, f i = some r[i] := by
  have hl := mapM_length h
  rw [List.length_range] at hl
  refine ⟨hl, fun i hi => ⟨by omega, ?_⟩⟩
  have := (List.forall₂_iff_get.1 (mapM_eq_some.1 h)).2 i (by simpa using hi) (by omega)
  simpa using this

/-- prefix sums by a fold -/
theorem prefix_sums {M : Type*} [AddCommMonoid M] (l : List M) : ∀ (c : M) (acc : List M),
    l.foldl (fun (a : M × List M) t => (a.1 + t, a.2 ++ [a.1 + t])) (c, acc) =
      (c + l.sum, acc ++ (List.range l.length).map fun k => c + (l.take (k + 1)).sum) := by
  induction l with
  | nil => intro c acc; simp
  | cons x l ih =>
    intro c acc
    rw [List.foldl_cons, ih]
    simp only [List.length_cons, List.range_succ_eq_map, List.map_cons, List.map_map, Prod.mk.injEq, List.sum_cons]
    constructor
    · rw [add_assoc]
    · rw [List.append_assoc]
      congr 1
      simp only [List.take_succ_cons, List.take_zero, List.sum_cons, List.sum_nil, add_zero, List.singleton_append]
      congr 1
      apply List.map_congr_left
      intro k _
      simp [add_assoc]

theorem sum_max {l : List ℕ} {m : ℕ} (h : ∀ x ∈ l, x ≤ m) : l.sum ≤ m * l.length ∧ (l.sum = m * l.length ↔ ∀ x ∈ l, x = m) := by
  induction l with
  | nil => simp
  | cons a l ih =>
    have ha := h a (by simp)
    obtain ⟨ih1, ih2⟩ := ih (fun x hx => h x (by simp [hx]))
    rw [List.sum_cons, List.length_cons, Nat.mul_succ]
    refine ⟨by omega, ?_⟩
    constructor
    · intro hs x hx
      rcases List.mem_cons.1 hx with rfl | hx
      · omega
      · exact ih2.1 (by omega) x hx
    · intro hs
      have := ih2.2 (fun x hx => hs x (by simp [hx]))
      have := hs a (by simp)
      omega

theorem cast_sum (l : List ℕ) : (l.map (Nat.cast : ℕ → F p)).sum = ((l.sum : ℕ) : F p) := by
  induction l with
  | nil => simp
  | cons a l ih => simp [ih]

/-- The condition of the code on the key fragment of layer `j`. -/
def FragOk (K : F p) (tsel : F p → F p) (starts types : List (F p)) (j : ℕ) : Prop :=
  (starts.getD j 0 + 1 = starts.getD (j + 1) 0 ∨ tsel (types.getD j 0) = 1) ∧
  (starts.getD j 0).val < (starts.getD (j + 1) 0).val ∧ (starts.getD j 0).val < K.val

theorem or_bool {a b r : F p} (h : Api.or a b = some r) : (a = 0 ∨ a = 1) ∧ (b = 0 ∨ b = 1) ∧ r = a + b - a * b := by
  unfold Api.or at h
  obtain ⟨_, h1, h⟩ := Option.bind_eq_some_iff.1 h
  obtain ⟨_, h2, h⟩ := Option.bind_eq_some_iff.1 h
  unfold assertBool at h1 h2
  split at h1
  · split at h2
    · exact ⟨‹_›, ‹_›, (Option.some.inj h).symm⟩
    · cases h2
  · cases h1

/-- What one fragment term is. -/
theorem frag_term (hp : 2 ^ 128 < p) (K : F p) (tsel : F p → F p) (starts types : List (F p)) (i : ℕ) {r : F p}
    (h : (do
      let s ← starts[i]?
      let s' ← starts[i + 1]?
      let t ← types[i]?
      let single := equal (s + 1) s'
      let mono := lessThan s s'
      let valid ← Api.or single (tsel t)
      let range := lessThan s K
      pure (valid + mono + range)) = some r) :
    i + 1 < starts.length ∧ i < types.length ∧ (tsel (types.getD i 0) = 0 ∨ tsel (types.getD i 0) = 1) ∧
    ∃ n ≤ 3, r = ((n : ℕ) : F p) ∧ (n = 3 ↔ FragOk K tsel starts types i) := by
  obtain ⟨s, hs, h⟩ := Option.bind_eq_some_iff.1 h
  obtain ⟨s', hs', h⟩ := Option.bind_eq_some_iff.1 h
  obtain ⟨t, ht, h⟩ := Option.bind_eq_some_iff.1 h
  obtain ⟨v, hv, h⟩ := Option.bind_eq_some_iff.1 h
  obtain ⟨-, hb, hv⟩ := or_bool hv
  have h := (Option.some.inj h).symm
  have e1 : starts.getD i 0 = s := by rw [List.getD_eq_getElem?_getD, hs]; rfl
  have e2 : starts.getD (i + 1) 0 = s' := by rw [List.getD_eq_getElem?_getD, hs']; rfl
  have e3 : types.getD i 0 = t := by rw [List.getD_eq_getElem?_getD, ht]; rfl
  refine ⟨(List.getElem?_eq_some_iff.1 hs').1, (List.getElem?_eq_some_iff.1 ht).1, e3 ▸ hb, ?_⟩
  classical
  refine ⟨ind (s + 1 = s' ∨ tsel t = 1) + ind (s.val < s'.val) + ind (s.val < K.val), ?_, ?_, ?_⟩
  · have := ind_le (s + 1 = s' ∨ tsel t = 1)
    have := ind_le (s.val < s'.val)
    have := ind_le (s.val < K.val)
    omega
  · rw [h, hv, lessThan_eq (by omega), lessThan_eq (by omega), equal_eq]
    unfold ind
    have h01 : (0 : F p) ≠ 1 := zero_ne_one
    push_cast
    congr 2
    rcases hb with hb | hb <;> rw [hb] <;> by_cases hh : s + 1 = s' <;> simp [hh]
  · unfold FragOk
    rw [e1, e2, e3]
    have i1 := ind_le (s + 1 = s' ∨ tsel t = 1)
    have i2 := ind_le (s.val < s'.val)
    have i3 := ind_le (s.val < K.val)
    have j1 := ind_eq_one (s + 1 = s' ∨ tsel t = 1)
    have j2 := ind_eq_one (s.val < s'.val)
    have j3 := ind_eq_one (s.val < K.val)
    constructor
    · intro hs
      exact ⟨j1.1 (by omega), j2.1 (by omega), j3.1 (by omega)⟩
    · rintro ⟨a, b, c⟩
      rw [j1.2 a, j2.2 b, j3.2 c]

/-- **Key fragments.** Exact meaning of `allFragmentsValid`. -/
theorem frag_facts (hp : 2 ^ 128 < p) {D : ℕ} (hD1 : 1 ≤ D) (hD : D ≤ 10) (K : F p) (tsel : F p → F p)
    (starts types : List (F p)) (depth : F p) {v : F p}
    (h : fragmentsValid D K tsel starts types depth = some v) :
    D ≤ starts.length ∧ D - 1 ≤ types.length ∧ 1 ≤ depth.val ∧ depth.val ≤ D ∧
    (∀ i < D - 1, tsel (types.getD i 0) = 0 ∨ tsel (types.getD i 0) = 1) ∧ (v = 0 ∨ v = 1) ∧
    (v = 1 ↔ (∀ j < D - 1, j < depth.val → FragOk K tsel starts types j) ∧
      (depth.val = D → (starts.getD (D - 1) 0).val < K.val)) := by
  unfold fragmentsValid fragmentSums at h
  obtain ⟨sums, hsums, h⟩ := Option.bind_eq_some_iff.1 h
  obtain ⟨m, hm, h⟩ := Option.bind_eq_some_iff.1 h
  obtain ⟨m0, hm0, h⟩ := Option.bind_eq_some_iff.1 h
  have h := (Option.some.inj h).symm
  obtain ⟨terms, hterms, hsums⟩ := Option.bind_eq_some_iff.1 hsums
  obtain ⟨sl, hsl, hsums⟩ := Option.bind_eq_some_iff.1 hsums
  have hsums := (Option.some.inj hsums).symm
  obtain ⟨htl, hti⟩ := mapM_range_some hterms
  have hT : ∀ i (hi : i < D - 1), i + 1 < starts.length ∧ i < types.length ∧
      (tsel (types.getD i 0) = 0 ∨ tsel (types.getD i 0) = 1) ∧
      ∃ n ≤ 3, terms.getD i 0 = ((n : ℕ) : F p) ∧ (n = 3 ↔ FragOk K tsel starts types i) := by
    intro i hi
    obtain ⟨hr, he⟩ := hti i hi
    have := frag_term hp K tsel starts types i he
    rw [List.getD_eq_getElem _ _ hr]
    exact this
  choose! g hg3 hgt hgi using fun i hi => (hT i hi).2.2.2
  have hterms_eq : terms = ((List.range (D - 1)).map g).map (Nat.cast : ℕ → F p) := by
    apply List.ext_getElem (by simp [htl])
    intro i h1 h2
    have := hgt i (by omega)
    rw [List.getD_eq_getElem _ _ h1] at this
    simpa using this
  have hslen := (List.getElem?_eq_some_iff.1 hsl).1
  have e1 : starts.getD (D - 1) 0 = sl := by rw [List.getD_eq_getElem?_getD, hsl]; rfl
  rw [prefix_sums] at hsums
  simp only [List.nil_append, zero_add] at hsums
  set N := (List.range (D - 1)).map g with hN
  have hNl : N.length = D - 1 := by simp [hN]
  have hsl' : sums.length = D := by rw [hsums]; simp [htl]; omega
  rw [multiplexer_single _ _ _ (by omega) (by omega)] at hm
  split at hm
  · rename_i hsel
    obtain rfl := Option.some.inj hm
    obtain rfl : sums.getD (depth - 1).val 0 = m0 := by simpa using hm0
    have hd1 : 1 ≤ depth.val := by
      by_contra hz
      have hz : depth = 0 := (ZMod.val_eq_zero depth).1 (by omega)
      rw [hz, zero_sub] at hsel
      have h1v : (-1 : F p).val = p - 1 := by
        rcases p with _ | q
        · omega
        · simpa using ZMod.val_neg_one q
      omega
    have h1 : (1 : F p).val = 1 := by
      have := val_natCast_lt (p := p) (a := 1) (by omega); simpa using this
    have hdv : (depth - 1).val = depth.val - 1 := by rw [val_sub_of_le (by rw [h1]; exact hd1), h1]
    rw [hdv] at hsel h
    refine ⟨by omega, ?_, hd1, by omega, fun i hi => (hT i hi).2.2.1, ?_, ?_⟩
    · rcases Nat.lt_or_ge 0 (D - 1) with hh | hh
      · have := (hT (D - 2) (by omega)).2.1; omega
      · omega
    · rw [h, equal_eq]; split <;> simp
    · rw [h, equal_eq]
      have hif : ((if sums.getD (depth.val - 1) 0 = 3 * depth then (1 : F p) else 0) = 1) ↔
          sums.getD (depth.val - 1) 0 = 3 * depth := by
        by_cases hx : sums.getD (depth.val - 1) 0 = 3 * depth
        · rw [if_pos hx]; exact ⟨fun _ => hx, fun _ => rfl⟩
        · rw [if_neg hx]; exact ⟨fun h => absurd h zero_ne_one, fun h => absurd h hx⟩
      rw [hif]
      have h3d : 3 * depth = ((3 * depth.val : ℕ) : F p) := by push_cast; rw [ZMod.natCast_zmod_val]
      have hgm : ∀ k ≤ D - 1, ∀ x ∈ N.take k, x ≤ 3 := by
        intro k _ x hx
        obtain ⟨i, hi, rfl⟩ := List.mem_map.1 (List.mem_of_mem_take hx)
        exact hg3 i (List.mem_range.1 hi)
      have hmem : ∀ k ≤ D - 1, ((∀ x ∈ N.take k, x = 3) ↔ ∀ j < k, FragOk K tsel starts types j) := by
        intro k hk
        rw [hN, ← List.map_take, List.take_range, min_eq_left hk]
        constructor
        · intro hx j hj
          exact (hgi j (by omega)).1 (hx _ (List.mem_map_of_mem (List.mem_range.2 hj)))
        · intro hx x hxm
          obtain ⟨i, hi, rfl⟩ := List.mem_map.1 hxm
          have hi := List.mem_range.1 hi
          exact (hgi i (by omega)).2 (hx i hi)
      rw [h3d]
      rcases Nat.lt_or_ge (depth.val - 1) (D - 1) with hc | hc
      · -- the depth is below the maximum
        have hget : sums.getD (depth.val - 1) 0 = (((N.take depth.val).sum : ℕ) : F p) := by
          rw [hsums, List.getD_append _ _ _ _ (by simp [htl]; omega),
            List.getD_eq_getElem _ _ (by simp [htl]; omega), List.getElem_map, List.getElem_range, hterms_eq,
            ← List.map_take, cast_sum, show depth.val - 1 + 1 = depth.val by omega]
        have hmx := sum_max (hgm depth.val (by omega))
        have hlen : (N.take depth.val).length = depth.val := by rw [List.length_take, hNl]; omega
        rw [hlen] at hmx
        rw [hget, natCast_inj_of_lt (by omega) (by omega), hmx.2, hmem depth.val (by omega)]
        constructor
        · intro hx
          exact ⟨fun j _ hj => hx j hj, fun h => by omega⟩
        · intro hx j hj
          exact hx.1 j (by omega) hj
      · -- maximal depth
        have hdD : depth.val = D := by omega
        have hget : sums.getD (depth.val - 1) 0 = ((N.sum + 2 + ind (sl.val < K.val) : ℕ) : F p) := by
          rw [hsums, List.getD_append_right _ _ _ _ (by simp [htl]; omega),
            show depth.val - 1 - ((List.range terms.length).map fun k => (terms.take (k + 1)).sum).length = 0 by
              simp [htl]; omega]
          simp only [List.getD_cons_zero]
          rw [lessThan_eq (by omega), hterms_eq, cast_sum]
          push_cast
          unfold ind
          split <;> simp
        have hmx := sum_max (hgm (D - 1) le_rfl)
        rw [List.take_of_length_le (by omega), hNl] at hmx
        have hi := ind_le (sl.val < K.val)
        have hmm := hmem (D - 1) le_rfl
        rw [List.take_of_length_le (by omega)] at hmm
        rw [hget, natCast_inj_of_lt (by omega) (by omega), e1]
        have j1 := ind_eq_one (sl.val < K.val)
        constructor
        · intro hx
          refine ⟨fun j hj _ => hmm.1 (hmx.2.1 (by omega)) j hj, fun _ => j1.1 (by omega)⟩
        · rintro ⟨hx1, hx2⟩
          have := hmx.2.2 (hmm.2 (fun j hj => hx1 j hj (by omega)))
          have := j1.2 (hx2 hdD)
          omega
  · cases hm

end Verif.Mpt
