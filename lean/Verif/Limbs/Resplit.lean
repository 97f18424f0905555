import Verif.Limbs.Props

/-! # C29: `Resplit` -/

namespace Verif.Limbs
open Api
variable {p : ℕ}

/-- Every accepted `Split` without explicit count recomposes, has the announced total, and (for a nonzero target
size) the announced sizes. -/
theorem split_any (hint : Hint p) (l : Limb p) (s : ℕ) {ret : List (Limb p)} (h : split hint l s [] = some ret) :
    weighted ret = l.val ∧ tot ret = l.size := by
  by_cases he : l.size = s
  · unfold split at h
    rw [if_neg (by simp), if_pos he, Option.some.injEq] at h
    subst h
    simp [weighted]
  · by_cases hs : s = 0
    · unfold split at h
      rw [if_neg (by simp), if_neg he, if_pos hs] at h
      cases h
    · by_cases hnb : l.size / s = 0
      · unfold split at h
        rw [if_neg (by simp), if_neg he, if_neg hs] at h
        simp only [nbLimbsOf, hnb, true_or, if_true] at h
        cases h
      · obtain ⟨_, h2, h3⟩ := C29_split hint l s [] (l.size / s) (Or.inr ⟨rfl, rfl⟩) (by omega) he (Nat.pos_of_ne_zero hnb)
          (Nat.div_mul_le_self _ _) h
        exact ⟨h3, h2⟩

theorem mergeGroups_weighted (s : ℕ) (n : ℕ) : ∀ (bits ret : List (Limb p)), bits.length = n →
    mergeGroups s bits = some ret → weighted ret = weighted bits ∧ tot ret = tot bits := by
  induction n using Nat.strong_induction_on with
  | _ n ih =>
    intro bits ret hn h
    rw [mergeGroups] at h
    by_cases hc : 0 < bits.length ∧ 0 < s
    · rw [dif_pos hc] at h
      by_cases hle : s ≤ bits.length
      · rw [if_pos hle] at h
        have hne : bits.take s ≠ [] := by
          intro h0
          have := congrArg List.length h0
          rw [List.length_take, List.length_nil] at this
          omega
        rw [merge_eq _ hne] at h
        simp only [Option.bind_eq_bind, Option.bind_some] at h
        cases hg : mergeGroups s (bits.drop s) with
        | none => rw [hg] at h; cases h
        | some r =>
          rw [hg] at h
          simp only [Option.bind_some] at h
          obtain ⟨h1, h2⟩ := ih (bits.drop s).length (by rw [List.length_drop]; omega) _ r rfl hg
          have hret : ret = ⟨weighted (bits.take s), tot (bits.take s)⟩ :: r := (Option.some.inj h).symm
          subst hret
          have hb : bits = bits.take s ++ bits.drop s := (List.take_append_drop _ _).symm
          constructor
          · rw [weighted]
            conv_rhs => rw [hb, weighted_append, ← h1, ← h2]
            rfl
          · conv_rhs => rw [hb, tot_append, ← h2]
            simp
      · rw [if_neg hle] at h; cases h
    · rw [dif_neg hc] at h
      by_cases h0 : 0 < bits.length
      · rw [if_pos h0] at h; cases h
      · rw [if_neg h0, Option.some.injEq] at h
        have : bits = [] := List.length_eq_zero_iff.1 (by omega)
        subst this; subst h
        exact ⟨rfl, rfl⟩

theorem mapM_range_getElem {α β : Type} (l : List α) (f : ℕ → α → Option β) (r : List β)
    (h : (List.range l.length).mapM (fun i => (l[i]?).bind (f i)) = some r) :
    r.length = l.length ∧ ∀ i (hi : i < l.length) (hr : i < r.length), f i l[i] = some r[i] := by
  have hl := mapM_length h
  rw [List.length_range] at hl
  have hf := mapM_eq_some.1 h
  refine ⟨hl, fun i hi hr => ?_⟩
  have := List.Forall₂.get hf (i := i) (by simpa using hi) hr
  simp only [List.get_eq_getElem, List.getElem_range, List.getElem?_eq_getElem hi] at this
  exact this

/-- Concatenating splits of the limbs of a list. -/
theorem flatten_weighted (ws : List (Limb p)) (bits : List (List (Limb p))) (hl : bits.length = ws.length)
    (h : ∀ i (hi : i < ws.length) (hr : i < bits.length), weighted bits[i] = ws[i].val ∧ tot bits[i] = ws[i].size) :
    weighted bits.flatten = weighted ws ∧ tot bits.flatten = tot ws := by
  induction ws generalizing bits with
  | nil =>
    have : bits = [] := List.length_eq_zero_iff.1 (by simpa using hl)
    subst this; exact ⟨rfl, rfl⟩
  | cons w ws ih =>
    cases bits with
    | nil => simp at hl
    | cons b bits =>
      have h0 := h 0 (by simp) (by simp)
      simp only [List.getElem_cons_zero] at h0
      obtain ⟨h1, h2⟩ := ih bits (by simpa using hl) (fun i hi hr => by
        have := h (i + 1) (by simpa using hi) (by simpa using hr)
        simpa using this)
      simp only [List.flatten_cons, weighted_append, tot_append, h1, h2, h0.1, h0.2, weighted, tot_cons, and_true]
      rfl

/-- **C29.** Whatever the prover answers, an accepted `Resplit` preserves the weighted sum (the represented integer
modulo the field) and the total width. -/
theorem C29_resplit_weighted (hint : ℕ → Hint p) (ws : List (Limb p)) (s : ℕ) {ret : List (Limb p)}
    (h : resplit hint ws s = some ret) : weighted ret = weighted ws ∧ (sizes ret).sum = (sizes ws).sum := by
  show weighted ret = weighted ws ∧ tot ret = tot ws
  unfold resplit at h
  by_cases h1 : ws.length = 1
  · rw [if_pos h1, Option.some.injEq] at h
    subst h; exact ⟨rfl, rfl⟩
  rw [if_neg h1] at h
  by_cases ht : totalSize ws ≤ p.size
  · rw [if_pos ht] at h
    by_cases hne : ws = []
    · subst hne; simp [merge] at h
    · rw [merge_eq ws hne] at h
      exact split_any _ _ _ h
  · rw [if_neg ht] at h
    simp only [Option.bind_eq_bind] at h
    cases hb : (List.range ws.length).mapM (fun i => do
      let w ← ws[i]?
      split (hint i) w 1 []) with
    | none =>
      simp only [Option.bind_eq_bind] at hb
      rw [hb] at h; cases h
    | some bits =>
      have hb' := hb
      simp only [Option.bind_eq_bind] at hb'
      rw [hb'] at h
      simp only [Option.bind_some] at h
      obtain ⟨hl, hs⟩ := mapM_range_getElem ws (fun i w => split (hint i) w 1 []) bits hb
      obtain ⟨e1, e2⟩ := flatten_weighted ws bits hl (fun i hi hr => split_any _ _ _ (hs i hi hr))
      obtain ⟨e3, e4⟩ := mergeGroups_weighted s _ _ ret rfl h
      exact ⟨e3.trans e1, e4.trans e2⟩

/-- **C29.** A single limb is returned as it is, whatever the requested size. -/
theorem C29_resplit_single (hint : ℕ → Hint p) (w : Limb p) (s : ℕ) : resplit hint [w] s = some [w] := rfl

/-- An honest `Split` without explicit count. -/
theorem split_honest [NeZero p] (l : Limb p) (s : ℕ) (hs : 0 < s) (hle : s ≤ l.size) (hr : l.val.val < 2 ^ l.size) :
    ∃ ret, split splitHint l s [] = some ret ∧ sizes ret = splitSizes l.size s (l.size / s) ∧ InRange ret ∧
      bitStr ret = bitStr [l] := by
  by_cases he : l.size = s
  · refine ⟨[l], ?_, ?_, ?_, rfl⟩
    · unfold split; rw [if_neg (by simp), if_pos he]
    · rw [he, Nat.div_self hs]
      simp [sizes, splitSizes, he]
    · intro k hk; rw [List.mem_singleton] at hk; subst hk; exact hr
  · obtain ⟨ret, h1, h2, h3, h4, _⟩ := C30_split_partial l s [] (l.size / s) (Or.inr ⟨rfl, rfl⟩) hs he
      (Nat.div_pos hle hs) (Nat.div_mul_le_self _ _) hr
    exact ⟨ret, h1, h2, h3, h4⟩

/-- **C29 (part), narrow case.** With the shipped hint, if the total width is below the bit length of the field,
`Resplit` is satisfied and keeps the bit string; all limbs but possibly the last have the requested size.
Missing: total width equal to the bit length of the field, where it fails (`C29_resplit_wraps`). -/
theorem C29_resplit_partial [NeZero p] (ws : List (Limb p)) (h2 : 2 ≤ ws.length) (hr : InRange ws) (s : ℕ) (hs : 0 < s)
    (hle : s ≤ (sizes ws).sum) (ht : (sizes ws).sum < p.size) :
    ∃ ret, resplit (fun _ => splitHint) ws s = some ret ∧ InRange ret ∧ bitStr ret = bitStr ws ∧
      sizes ret = splitSizes (sizes ws).sum s ((sizes ws).sum / s) := by
  have hne : ws ≠ [] := by rintro rfl; simp at h2
  have htot : (sizes ws).sum = tot ws := rfl
  rw [htot] at hle ht ⊢
  have hp : 2 ^ (bitStr ws).length ≤ p := by
    rw [bitStr_length]
    exact Nat.lt_size.1 ht
  obtain ⟨m, hm, hmr, hmb⟩ := (C29_merge_bits ws hne hr).2 hp
  have hms : m.size = tot ws := by
    rw [merge_eq ws hne, Option.some.injEq] at hm
    subst hm; rfl
  obtain ⟨ret, e1, e2, e3, e4⟩ := split_honest m s hs (by omega) (hmr m (by simp))
  refine ⟨ret, ?_, e3, by rw [e4, hmb], by rw [e2, hms]⟩
  unfold resplit
  rw [if_neg (by omega), if_pos (by rw [totalSize_eq]; omega), hm]
  exact e1

/-- **C29, negated at the boundary.** When the total width is exactly the bit length of the field and the represented
integer is not below the modulus, `Resplit` (with the shipped hint) returns the limbs of the integer modulo the field:
a different bit string. -/
theorem C29_resplit_wraps [NeZero p] (ws : List (Limb p)) (h2 : 2 ≤ ws.length) (hr : InRange ws) (s : ℕ) (hs : 0 < s)
    (hle : s ≤ (sizes ws).sum) (ht : (sizes ws).sum = p.size) (hbig : p ≤ numBE (bitStr ws)) :
    ∃ ret, resplit (fun _ => splitHint) ws s = some ret ∧ InRange ret ∧
      numBE (bitStr ret) = numBE (bitStr ws) % p ∧ bitStr ret ≠ bitStr ws := by
  have hne : ws ≠ [] := by rintro rfl; simp at h2
  have htot : (sizes ws).sum = tot ws := rfl
  rw [htot] at hle ht
  have hp0 : 0 < p := Nat.pos_of_ne_zero (NeZero.ne p)
  have hm := (C29_merge_bits ws hne hr).1
  set N := numBE (bitStr ws) with hN
  have hmod : N % p < 2 ^ tot ws := lt_of_lt_of_le (Nat.mod_lt _ hp0) (by rw [ht]; exact le_of_lt (Nat.lt_size_self p))
  have hv : ((N : ℕ) : F p).val = N % p := ZMod.val_natCast _ _
  rw [bitStr_length] at hm
  obtain ⟨ret, e1, e2, e3, e4⟩ := split_honest (⟨(N : F p), tot ws⟩ : Limb p) s hs hle (by simp only [hv]; exact hmod)
  have hb : bitStr ret = bitsBE (tot ws) (N % p) := by
    rw [e4]; simp [bitStr, hv]
  have hn : numBE (bitStr ret) = N % p := by rw [hb, numBE_bitsBE hmod]
  refine ⟨ret, ?_, e3, hn, ?_⟩
  · unfold resplit
    rw [if_neg (by omega), if_pos (by rw [totalSize_eq]; omega), hm]
    exact e1
  · intro heq
    rw [heq, ← hN] at hn
    have := Nat.mod_lt N hp0
    omega

theorem mergeGroups_honest [NeZero p] (s : ℕ) (hs : 0 < s) (hp : 2 ^ s ≤ p) (k : ℕ) : ∀ (bits : List (Limb p)),
    bits.length = k * s → InRange bits → (∀ l ∈ bits, l.size = 1) →
    ∃ ret, mergeGroups s bits = some ret ∧ InRange ret ∧ bitStr ret = bitStr bits ∧
      sizes ret = List.replicate k s := by
  induction k with
  | zero =>
    intro bits hl _ _
    have : bits = [] := List.length_eq_zero_iff.1 (by omega)
    subst this
    refine ⟨[], ?_, by intro l hl; simp at hl, rfl, rfl⟩
    rw [mergeGroups, dif_neg (by simp), if_neg (by simp)]
  | succ k ih =>
    intro bits hl hr h1
    rw [Nat.succ_mul] at hl
    have hIR : InRange (bits.take s) ∧ InRange (bits.drop s) := by
      rw [← inRange_append, List.take_append_drop]; exact hr
    obtain ⟨r, e1, e2, e3, e4⟩ := ih (bits.drop s) (by rw [List.length_drop]; omega) hIR.2
      (fun l hl => h1 l (List.mem_of_mem_drop hl))
    have hne : bits.take s ≠ [] := by
      intro h0
      have := congrArg List.length h0
      rw [List.length_take, List.length_nil] at this
      omega
    have htot1 : ∀ bs : List (Limb p), (∀ l ∈ bs, l.size = 1) → tot bs = bs.length := by
      intro bs
      induction bs with
      | nil => intro _; rfl
      | cons b bs ihb =>
        intro hb
        rw [tot_cons, hb b (by simp), ihb (fun l hl => hb l (by simp [hl]))]
        simp; omega
    have htk : tot (bits.take s) = s := by
      rw [htot1 _ (fun l hl => h1 l (List.mem_of_mem_take hl)), List.length_take]; omega
    obtain ⟨m, hm, hmr, hmb⟩ := (C29_merge_bits (bits.take s) hne hIR.1).2 (by rw [bitStr_length, htk]; exact hp)
    have hms : m.size = s := by
      rw [merge_eq _ hne, Option.some.injEq] at hm
      subst hm; exact htk
    refine ⟨m :: r, ?_, ?_, ?_, ?_⟩
    · rw [mergeGroups, dif_pos ⟨by omega, hs⟩, if_pos (by omega), hm]
      simp only [Option.bind_eq_bind, Option.bind_some]
      rw [e1]; rfl
    · rw [show m :: r = [m] ++ r from rfl, inRange_append]; exact ⟨hmr, e2⟩
    · rw [show m :: r = [m] ++ r from rfl, bitStr_append, hmb, e3, ← bitStr_append, List.take_append_drop]
    · simp only [sizes, List.map_cons, hms] at e4 ⊢
      rw [e4, List.replicate_succ]

theorem splitSizes_one (n : ℕ) : splitSizes n 1 (n / 1) = List.replicate n 1 := by
  simp [splitSizes]

theorem sizes_one_of {l : List (Limb p)} {n : ℕ} (h : sizes l = List.replicate n 1) : ∀ x ∈ l, x.size = 1 := by
  intro x hx
  have : x.size ∈ sizes l := List.mem_map.2 ⟨x, hx, rfl⟩
  rw [h] at this
  exact (List.mem_replicate.1 this).2

/-- **C29, wide case.** When the limbs are wider than the field, `Resplit` with the shipped hint keeps the bit string,
provided the requested size divides the total and fits the field. -/
theorem C29_resplit_wide [NeZero p] (ws : List (Limb p)) (h2 : 2 ≤ ws.length) (hr : InRange ws) (s : ℕ) (hs : 0 < s)
    (hp : 2 ^ s ≤ p) (ht : p.size < (sizes ws).sum) (hd : s ∣ (sizes ws).sum) (hpos : ∀ l ∈ ws, 0 < l.size) :
    ∃ ret, resplit (fun _ => splitHint) ws s = some ret ∧ InRange ret ∧ bitStr ret = bitStr ws ∧
      sizes ret = List.replicate ((sizes ws).sum / s) s := by
  have htot : (sizes ws).sum = tot ws := rfl
  rw [htot] at ht hd ⊢
  choose! f hf using fun (l : Limb p) (h : 0 < l.size ∧ l.val.val < 2 ^ l.size) => split_honest l 1 (by decide) h.1 h.2
  have hmap : (List.range ws.length).mapM (fun i => do
      let w ← ws[i]?
      split splitHint w 1 []) = some (ws.map f) := by
    have h1 : (List.range ws.length).map (fun i => f (ws.getD i ⟨0, 0⟩)) = ws.map f := by
      apply List.ext_getElem
      · simp
      · intro i h1 h2
        simp only [List.length_map, List.length_range] at h1
        simp only [List.getElem_map, List.getElem_range, List.getD_eq_getElem _ _ h1]
    rw [← h1]
    apply mapM_some
    intro i hi
    have hi := List.mem_range.1 hi
    rw [List.getElem?_eq_getElem hi, List.getD_eq_getElem _ _ hi]
    exact (hf _ ⟨hpos _ (List.getElem_mem hi), hr _ (List.getElem_mem hi)⟩).1
  have key : ∀ ws : List (Limb p), (∀ l ∈ ws, 0 < l.size) → InRange ws →
      InRange (ws.map f).flatten ∧ bitStr (ws.map f).flatten = bitStr ws ∧ (∀ l ∈ (ws.map f).flatten, l.size = 1) ∧
        (ws.map f).flatten.length = tot ws := by
    intro ws
    induction ws with
    | nil => intro _ _; refine ⟨?_, rfl, ?_, rfl⟩ <;> (intro l hl; simp at hl)
    | cons w ws ih =>
      intro hpos hr
      obtain ⟨i1, i2, i3, i4⟩ := ih (fun l hl => hpos l (by simp [hl])) (fun l hl => hr l (by simp [hl]))
      obtain ⟨_, f2, f3, f4⟩ := hf w ⟨hpos w (by simp), hr w (by simp)⟩
      rw [splitSizes_one] at f2
      have flen : (f w).length = w.size := by
        have := congrArg List.length f2
        simpa [sizes] using this
      simp only [List.map_cons, List.flatten_cons]
      refine ⟨inRange_append.2 ⟨f3, i1⟩, ?_, ?_, ?_⟩
      · rw [bitStr_append, f4, i2, ← bitStr_append]; rfl
      · intro l hl
        rcases List.mem_append.1 hl with h | h
        · exact sizes_one_of f2 l h
        · exact i3 l h
      · rw [List.length_append, flen, i4, tot_cons]
  obtain ⟨k1, k2, k3, k4⟩ := key ws hpos hr
  obtain ⟨ret, e1, e2, e3, e4⟩ := mergeGroups_honest s hs hp (tot ws / s) (ws.map f).flatten
    (by rw [k4, Nat.div_mul_cancel hd]) k1 k3
  refine ⟨ret, ?_, e2, by rw [e3, k2], e4⟩
  unfold resplit
  rw [if_neg (by omega), if_neg (by rw [totalSize_eq]; omega)]
  simp only [Option.bind_eq_bind] at hmap ⊢
  rw [hmap]
  exact e1

theorem mergeGroups_none (s : ℕ) (hs : 0 < s) (n : ℕ) : ∀ (bits : List (Limb p)), bits.length = n → ¬ s ∣ n →
    mergeGroups s bits = none := by
  induction n using Nat.strong_induction_on with
  | _ n ih =>
    intro bits hn hd
    have h0 : 0 < bits.length := by
      rcases Nat.eq_zero_or_pos n with h | h
      · subst h; exact absurd (dvd_zero s) hd
      · omega
    rw [mergeGroups, dif_pos ⟨h0, hs⟩]
    by_cases hle : s ≤ bits.length
    · rw [if_pos hle]
      have hne : bits.take s ≠ [] := by
        intro h0
        have := congrArg List.length h0
        rw [List.length_take, List.length_nil] at this
        omega
      rw [merge_eq _ hne]
      simp only [Option.bind_eq_bind, Option.bind_some]
      rw [ih (n - s) (by omega) (bits.drop s) (by rw [List.length_drop, hn])
        (by intro h; apply hd; have := Nat.dvd_add h (dvd_refl s); rwa [Nat.sub_add_cancel (by omega)] at this)]
      rfl
    · rw [if_neg hle]

/-- **C29, wide case, panic.** If the requested size does not divide the total width, wide `Resplit` panics whatever
the prover answers. -/
theorem C29_resplit_wide_panics (hint : ℕ → Hint p) (ws : List (Limb p)) (h2 : 2 ≤ ws.length) (s : ℕ) (hs : 0 < s)
    (ht : p.size < (sizes ws).sum) (hd : ¬ s ∣ (sizes ws).sum) : resplit hint ws s = none := by
  have htot : (sizes ws).sum = tot ws := rfl
  rw [htot] at ht hd
  unfold resplit
  rw [if_neg (by omega), if_neg (by rw [totalSize_eq]; omega)]
  cases hb : (List.range ws.length).mapM (fun i => do
      let w ← ws[i]?
      split (hint i) w 1 []) with
  | none => rfl
  | some bits =>
    simp only [Option.bind_eq_bind, Option.bind_some]
    obtain ⟨hl, hspl⟩ := mapM_range_getElem ws (fun i w => split (hint i) w 1 []) bits hb
    refine mergeGroups_none s hs _ _ rfl ?_
    have hlen1 : ∀ (i : ℕ) (l : Limb p) (ret : List (Limb p)), split (hint i) l 1 [] = some ret → ret.length = l.size := by
      intro i l ret h
      by_cases he : l.size = 1
      · unfold split at h
        rw [if_neg (by simp), if_pos he, Option.some.injEq] at h
        subst h; simp [he]
      · by_cases h0 : l.size = 0
        · unfold split at h
          rw [if_neg (by simp), if_neg he, if_neg (by decide)] at h
          simp only [nbLimbsOf, h0] at h
          simp at h
        · obtain ⟨q1, _, _⟩ := C29_split (hint i) l 1 [] (l.size / 1) (Or.inr ⟨rfl, rfl⟩) (by decide) he
            (by simp; omega) (Nat.div_mul_le_self _ _) h
          rw [splitSizes_one] at q1
          have := congrArg List.length q1
          simpa [sizes] using this
    have : bits.flatten.length = tot ws := by
      clear hb hd ht htot h2
      induction ws generalizing bits hint with
      | nil =>
        have : bits = [] := List.length_eq_zero_iff.1 (by simpa using hl)
        subst this; rfl
      | cons w ws ih =>
        cases bits with
        | nil => simp at hl
        | cons b bits =>
          have h0 := hlen1 0 w b (hspl 0 (by simp) (by simp))
          rw [List.flatten_cons, List.length_append, h0, tot_cons]
          rw [ih (fun i => hint (i + 1)) bits (by simpa using hl) (fun i hi hr => by
            exact hspl (i + 1) (by simpa using hi) (by simpa using hr)) (fun i l ret h => hlen1 (i + 1) l ret h)]
    rw [this]; exact hd

/-- Four 64-bit limbs into two of 128 bits over a 254-bit field, as in the repository's test, meet the hypotheses
of the wide case. -/
example (a b c d : F p) (hp : p.size = 254) :
    p.size < (sizes ([⟨a, 64⟩, ⟨b, 64⟩, ⟨c, 64⟩, ⟨d, 64⟩] : List (Limb p))).sum ∧
    128 ∣ (sizes ([⟨a, 64⟩, ⟨b, 64⟩, ⟨c, 64⟩, ⟨d, 64⟩] : List (Limb p))).sum ∧ 2 ^ 128 ≤ p := by
  refine ⟨by simp [sizes, hp], by simp [sizes], ?_⟩
  have : 2 ^ 253 ≤ p := Nat.lt_size.1 (by omega)
  exact le_trans (Nat.pow_le_pow_right (by decide) (by decide)) this

/-- Two 127-bit limbs of all ones over a 254-bit field meet the hypotheses of the boundary negation
(`p < 2^254` always holds for such a field). -/
example (hp : p.size = 254) :
    ∃ ws : List (Limb p), 2 ≤ ws.length ∧ InRange ws ∧ (sizes ws).sum = p.size ∧ p ≤ numBE (bitStr ws) := by
  have hlow : 2 ^ 253 ≤ p := Nat.lt_size.1 (by omega)
  have hhigh : p < 2 ^ 254 := Nat.size_le.1 (by omega)
  have hv : (((2 ^ 127 - 1 : ℕ)) : F p).val = 2 ^ 127 - 1 := ZMod.val_natCast_of_lt (by omega)
  have hIR : InRange ([⟨((2 ^ 127 - 1 : ℕ) : F p), 127⟩, ⟨((2 ^ 127 - 1 : ℕ) : F p), 127⟩] : List (Limb p)) := by
    intro l hl
    simp only [List.mem_cons, List.not_mem_nil, or_false, or_self] at hl
    subst hl
    simp only [hv]; norm_num
  refine ⟨_, by simp, hIR, by simp [sizes, hp], ?_⟩
  rw [← nsum_eq hIR]
  simp only [nsum, hv, tot_cons, tot_nil]
  omega

end Verif.Limbs
