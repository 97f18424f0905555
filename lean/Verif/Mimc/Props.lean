import Verif.Mimc.Model
import Verif.Mimc.Tree
import Verif.MuxProps

/-! # C32: sparse Merkle inclusion, C33: native MiMC Merkle roots -/

namespace Verif.Mimc
open Api Spec
variable {p : ℕ} [Fact p.Prime]

/-- Two-to-one node hash. -/
abbrev node (H : List (F p) → F p) (a b : F p) : F p := H [a, b]

/-- Direction bits of index variables. -/
abbrev dirs (indexes : List (F p)) : List Bool := indexes.map fun i => decide (i = 1)

theorem val_lt_two_iff (x : F p) : x.val < 2 ↔ x = 0 ∨ x = 1 := by
  have hp : 1 < p := (Fact.out : p.Prime).one_lt
  haveI : Fact (1 < p) := ⟨hp⟩
  constructor
  · intro h
    have : x.val = 0 ∨ x.val = 1 := by omega
    rcases this with h | h
    · left; exact (ZMod.val_eq_zero x).1 h
    · right; exact ZMod.val_injective p (by rw [h, ZMod.val_one])
  · rintro (rfl | rfl)
    · simp
    · rw [ZMod.val_one]; decide

theorem hashBasedOnIndex_eq (H : List (F p) → F p) (a b i : F p) :
    hashBasedOnIndex H a b i =
      if i = 0 ∨ i = 1 then some (if i = 1 then node H b a else node H a b) else none := by
  have hp : 1 < p := (Fact.out : p.Prime).one_lt
  haveI : Fact (1 < p) := ⟨hp⟩
  unfold hashBasedOnIndex
  simp only []
  rw [multiplexer_eq i 1 2 _ hp (by simp) (by simp)]
  unfold assertLe
  rw [ZMod.val_one]
  by_cases h : i = 0 ∨ i = 1
  · have hv := (val_lt_two_iff i).2 h
    rw [if_pos (by omega), if_pos hv, if_pos h]
    rcases h with rfl | rfl
    · have h01 : (0 : F p) ≠ 1 := zero_ne_one
      simp [ZMod.val_zero, h01]
    · simp [ZMod.val_one]
  · have hv : ¬ i.val < 2 := fun hv => h ((val_lt_two_iff i).1 hv)
    rw [if_neg (by omega), if_neg h]
    rfl

theorem branchLoop_cons (H : List (F p) → F p) (v i b : F p) (is bs : List (F p)) :
    branchLoop H v (i :: is) (b :: bs) = (hashBasedOnIndex H v b i).bind fun v' => branchLoop H v' is bs := by
  unfold branchLoop
  rw [List.length_cons, List.range_succ_eq_map, List.foldlM_cons]
  simp only [List.foldlM_map, List.getElem?_cons_zero, List.getElem?_cons_succ, Option.bind_eq_bind, Option.bind_some]

theorem branchLoop_eq (H : List (F p) → F p) (branches : List (F p)) : ∀ (indexes : List (F p)) (v : F p),
    branches.length ≤ indexes.length →
    branchLoop H v indexes branches =
      if ∀ i ∈ indexes.take branches.length, i = 0 ∨ i = 1
      then some (climb (node H) v ((dirs indexes).zip branches)) else none := by
  induction branches with
  | nil => intro indexes v _; simp [branchLoop, climb]
  | cons b bs ih =>
    intro indexes v hl
    cases indexes with
    | nil => simp at hl
    | cons i is =>
      rw [branchLoop_cons, hashBasedOnIndex_eq]
      have hl' : bs.length ≤ is.length := by simpa using hl
      by_cases hi : i = 0 ∨ i = 1
      · rw [if_pos hi]
        simp only [Option.bind_some]
        rw [ih is _ hl']
        simp only [List.length_cons, List.take_succ_cons, List.forall_mem_cons, hi, true_and]
        simp only [dirs, List.map_cons, List.zip_cons_cons, climb, decide_eq_true_eq]
      · rw [if_neg hi]
        simp only [Option.bind_none]
        rw [if_neg]
        intro hall
        exact hi (hall i (by simp))

/-- **C33.** `MerkleRootWithLeaveHash`: satisfiable exactly when there are at least as many index variables as
branches and the used indexes are bits; then it hashes up the tree, sibling on the left where the bit is 1. -/
theorem C33_withLeaveHash (H : List (F p) → F p) (leafHash : F p) (indexes branches : List (F p)) :
    merkleRootWithLeaveHash H leafHash indexes branches =
      if branches.length ≤ indexes.length ∧ ∀ i ∈ indexes.take branches.length, i = 0 ∨ i = 1
      then some (climb (node H) leafHash ((dirs indexes).zip branches)) else none := by
  unfold merkleRootWithLeaveHash
  by_cases h : branches.length ≤ indexes.length
  · rw [if_pos h, branchLoop_eq H _ _ _ h]
    simp only [h, true_and]
  · rw [if_neg h, if_neg (fun hc => h hc.1)]

/-- **C33.** `MerkleRootBasedOnMiMCHash`: the same with the leaf hashed first. -/
theorem C33_basedOnMiMCHash (H : List (F p) → F p) (leaf : F p) (indexes branches : List (F p)) :
    merkleRootBasedOnMiMCHash H leaf indexes branches =
      if branches.length ≤ indexes.length ∧ ∀ i ∈ indexes.take branches.length, i = 0 ∨ i = 1
      then some (climb (node H) (H [leaf]) ((dirs indexes).zip branches)) else none :=
  C33_withLeaveHash H (H [leaf]) indexes branches

theorem zip_dirs_fst (indexes branches : List (F p)) (h : branches.length ≤ indexes.length) :
    ((dirs indexes).zip branches).map Prod.fst = (dirs indexes).take branches.length := by
  have : ∀ (a : List Bool) (b : List (F p)), b.length ≤ a.length → (a.zip b).map Prod.fst = a.take b.length := by
    intro a
    induction a with
    | nil => intro b hb; simp
    | cons x a ih =>
      intro b hb
      cases b with
      | nil => simp
      | cons y b => simp [ih b (by simpa using hb)]
  exact this _ _ (by simpa using h)

/-- **C32.** `CheckSMTInclusion` in full: it is satisfiable exactly on well-formed inputs, and reports 1 exactly when
hashing the leaf value tree, then its root, up the tree gives `rootHash`. -/
theorem C32_checkSMTInclusion (H : List (F p) → F p) (depth : ℕ) (v : F p) (vbranches vindex indexes branches : List (F p))
    (rootHash : F p) :
    checkSMTInclusion H depth (v :: vbranches) vindex indexes branches rootHash =
      if vbranches.length = vindex.length ∧ branches.length ≤ indexes.length ∧
        (∀ i ∈ vindex, i = 0 ∨ i = 1) ∧ (∀ i ∈ indexes.take branches.length, i = 0 ∨ i = 1)
      then some (if rootHash = climb (node H) (H [climb (node H) (H [v]) ((dirs vindex).zip vbranches)])
        ((dirs indexes).zip branches) then 1 else 0)
      else none := by
  unfold checkSMTInclusion calculateLeafValueHash
  by_cases h1 : vbranches.length = vindex.length
  · simp only [if_pos h1, C33_basedOnMiMCHash]
    rw [h1, List.take_length]
    by_cases h2 : ∀ i ∈ vindex, i = 0 ∨ i = 1
    · rw [if_pos ⟨le_rfl, h2⟩]
      simp only [Option.bind_eq_bind, Option.bind_some]
      by_cases h3 : branches.length ≤ indexes.length ∧ ∀ i ∈ indexes.take branches.length, i = 0 ∨ i = 1
      · rw [if_pos h3, if_pos ⟨trivial, h3.1, h2, h3.2⟩]
        simp only [Option.bind_some, Option.pure_def, equal_eq]
      · rw [if_neg h3, if_neg (fun hc => h3 ⟨hc.2.1, hc.2.2.2⟩)]; rfl
    · rw [if_neg (fun hc => h2 hc.2), if_neg (fun hc => h2 hc.2.2.1)]; rfl
  · rw [if_neg (fun hc => h1 hc.1)]
    simp [h1]

theorem C32_empty_leaf_tree (H : List (F p) → F p) (depth : ℕ) (vindex indexes branches : List (F p)) (r : F p) :
    checkSMTInclusion H depth [] vindex indexes branches r = none := rfl

/-- **C32 (soundness).** If `CheckSMTInclusion` reports 1 against the root of the tree whose leaf number `k` is the hash
of `value k`, and the path is as long as the tree is high, then the leaf value root is `value pos` for the position
written by the index bits, or the two have the same hash, or a step of the path hashes another pair than the tree does at
that place, to the same value. -/
theorem C32_sound (H : List (F p) → F p) (depth : ℕ) (value : ℕ → F p) (v : F p)
    (vbranches vindex indexes branches : List (F p))
    (hacc : checkSMTInclusion H depth (v :: vbranches) vindex indexes branches
      (treeNode (node H) (fun k => H [value k]) branches.length 0) = some 1) :
    climb (node H) (H [v]) ((dirs vindex).zip vbranches)
        = value (position ((dirs indexes).take branches.length)) ∨
      (climb (node H) (H [v]) ((dirs vindex).zip vbranches)
          ≠ value (position ((dirs indexes).take branches.length)) ∧
        H [climb (node H) (H [v]) ((dirs vindex).zip vbranches)]
          = H [value (position ((dirs indexes).take branches.length))]) ∨
      PathCollides (node H) (fun k => H [value k]) (H [climb (node H) (H [v]) ((dirs vindex).zip vbranches)])
        ((dirs indexes).zip branches) := by
  haveI : Fact (1 < p) := ⟨(Fact.out : p.Prime).one_lt⟩
  rw [C32_checkSMTInclusion] at hacc
  by_cases hc : vbranches.length = vindex.length ∧ branches.length ≤ indexes.length ∧
        (∀ i ∈ vindex, i = 0 ∨ i = 1) ∧ (∀ i ∈ indexes.take branches.length, i = 0 ∨ i = 1)
  · rw [if_pos hc, Option.some.injEq] at hacc
    have heq : treeNode (node H) (fun k => H [value k]) branches.length 0 =
        climb (node H) (H [climb (node H) (H [v]) ((dirs vindex).zip vbranches)]) ((dirs indexes).zip branches) := by
      by_contra hne
      rw [if_neg hne] at hacc
      exact zero_ne_one hacc
    have hlen : ((dirs indexes).zip branches).length = branches.length := by simp; omega
    have hs := climb_sound (node H) (fun k => H [value k]) ((dirs indexes).zip branches) _
      (by rw [hlen]; exact heq.symm)
    rcases hs with hs | hs
    · rw [zip_dirs_fst _ _ hc.2.1] at hs
      by_cases he : climb (node H) (H [v]) ((dirs vindex).zip vbranches)
          = value (position ((dirs indexes).take branches.length))
      · exact Or.inl he
      · exact Or.inr (Or.inl ⟨he, hs⟩)
    · exact Or.inr (Or.inr hs)
  · rw [if_neg hc] at hacc; cases hacc

/-- **C32 (the leaf's own tree).** Two openings of the same leaf value root along the same index bits have the same
value at the bottom and the same siblings, or their bottom values have the same hash, or some step of the two climbs hashes
different pairs to the same value. -/
theorem C32_leaf_value_binding (H : List (F p) → F p) (v w : F p) (bs cs vindex : List (F p)) (r : F p)
    (h1 : calculateLeafValueHash H (v :: bs) vindex = some r)
    (h2 : calculateLeafValueHash H (w :: cs) vindex = some r) :
    v :: bs = w :: cs ∨ (v ≠ w ∧ H [v] = H [w]) ∨ ClimbsCollide (node H) (H [v]) (H [w]) (dirs vindex) bs cs := by
  unfold calculateLeafValueHash at h1 h2
  simp only [C33_basedOnMiMCHash] at h1 h2
  by_cases l1 : bs.length = vindex.length
  · by_cases l2 : cs.length = vindex.length
    · rw [if_pos l1] at h1
      rw [if_pos l2] at h2
      split at h1
      · split at h2
        · rw [Option.some.injEq] at h1 h2
          rcases climbs_bind (node H) (dirs vindex) bs cs _ _ (by simpa using l1) (by simpa using l2)
            (h1.trans h2.symm) with ⟨e1, e2⟩ | hcol
          · by_cases he : v = w
            · left; rw [he, e2]
            · exact Or.inr (Or.inl ⟨he, e1⟩)
          · exact Or.inr (Or.inr hcol)
        · cases h2
      · cases h1
    · rw [if_neg l2] at h2; cases h2
  · rw [if_neg l1] at h1; cases h1

/-- **C32 (completeness).** The honest path of every position is accepted, with or without extra index variables. -/
theorem C32_complete (H : List (F p) → F p) (depth n pos : ℕ) (hpos : pos < 2 ^ n) (value : ℕ → F p)
    (extra : List (F p)) (v : F p) (hv : value pos = H [v]) :
    checkSMTInclusion H depth [v] []
      ((siblings (node H) (fun k => H [value k]) pos 0 n).map (fun s => if s.1 then 1 else 0) ++ extra)
      ((siblings (node H) (fun k => H [value k]) pos 0 n).map Prod.snd)
      (treeNode (node H) (fun k => H [value k]) n 0) = some 1 := by
  haveI : Fact (1 < p) := ⟨(Fact.out : p.Prime).one_lt⟩
  rw [C32_checkSMTInclusion]
  set S := siblings (node H) (fun k => H [value k]) pos 0 n with hS
  have hbits : ∀ i ∈ (S.map (fun s => if s.1 then (1 : F p) else 0) ++ extra).take (S.map Prod.snd).length, i = 0 ∨ i = 1 := by
    rw [List.length_map, List.take_append_of_le_length (by simp), List.take_of_length_le (by simp)]
    intro i hi
    obtain ⟨s, _, rfl⟩ := List.mem_map.1 hi
    cases s.1 <;> simp
  have hz : (dirs (S.map (fun s => if s.1 then (1 : F p) else 0) ++ extra)).zip (S.map Prod.snd) = S := by
    unfold dirs
    rw [List.map_append, List.map_map]
    have : (S.map ((fun i : F p => decide (i = 1)) ∘ fun s => if s.1 then (1 : F p) else 0)) = S.map Prod.fst := by
      apply List.map_congr_left
      intro s _
      obtain ⟨b, s⟩ := s
      simp only [Function.comp]
      cases b
      · simp
      · simp
    rw [this]
    have hzz : ∀ (T : List (Bool × F p)) (e : List Bool), (T.map Prod.fst ++ e).zip (T.map Prod.snd) = T := by
      intro T e
      induction T with
      | nil => simp
      | cons t T ih => simp [ih]
    exact hzz S _
  rw [if_pos ⟨rfl, by simp, by simp, hbits⟩, hz]
  have hroot := climb_siblings (node H) (fun k => H [value k]) pos n 0
  simp only [pow_zero, Nat.div_one, treeNode, Nat.zero_add, Nat.div_eq_of_lt hpos, ← hS] at hroot
  simp only [List.map_nil, List.zip_nil_left, dirs, climb]
  rw [← hv, hroot, if_pos rfl]

/-- **C32.** Index variables beyond the number of branches play no role: they are neither required to be bits nor
bound to anything. -/
theorem C32_extra_indexes_free (H : List (F p) → F p) (depth : ℕ) (v : F p)
    (vbranches vindex indexes branches extra : List (F p)) (r : F p) (hl : branches.length ≤ indexes.length) :
    checkSMTInclusion H depth (v :: vbranches) vindex (indexes ++ extra) branches r
      = checkSMTInclusion H depth (v :: vbranches) vindex indexes branches r := by
  rw [C32_checkSMTInclusion, C32_checkSMTInclusion, List.take_append_of_le_length hl]
  have h1 : ((dirs (indexes ++ extra)).zip branches) = (dirs indexes).zip branches := by
    unfold dirs
    rw [List.map_append]
    have : ∀ (a e : List Bool) (b : List (F p)), b.length ≤ a.length → (a ++ e).zip b = a.zip b := by
      intro a
      induction a with
      | nil => intro e b hb; have : b = [] := List.length_eq_zero_iff.1 (by simpa using hb); subst this; simp
      | cons x a ih =>
        intro e b hb
        cases b with
        | nil => simp
        | cons y b => simp [ih e b (by simpa using hb)]
    exact this _ _ _ (by simpa using hl)
  rw [h1]
  simp only [List.length_append, hl, show branches.length ≤ indexes.length + extra.length by omega]

/-- The completeness theorem applied to a tree of height 2 at position 3. -/
example (H : List (F p) → F p) (v : F p) (w : ℕ → F p) :
    checkSMTInclusion H 32 [v] []
      ((siblings (node H) (fun k => H [if k = 3 then H [v] else w k]) 3 0 2).map (fun s => if s.1 then 1 else 0) ++ [])
      ((siblings (node H) (fun k => H [if k = 3 then H [v] else w k]) 3 0 2).map Prod.snd)
      (treeNode (node H) (fun k => H [if k = 3 then H [v] else w k]) 2 0) = some 1 :=
  C32_complete H 32 2 3 (by decide) (fun k => if k = 3 then H [v] else w k) [] v (by simp)

/-- With a concrete additive toy hash modulo 101, the gadget computes what it should. -/
example : checkSMTInclusion (p := 101) (fun l => l.foldl (fun a x => 3 * a + x + 1) 0) 2 [5] [] [1, 0] [7, 9]
    ((fun l : List (F 101) => l.foldl (fun a x => 3 * a + x + 1) 0)
      [(fun l : List (F 101) => l.foldl (fun a x => 3 * a + x + 1) 0) [7, 7], 9]) = some 1 := by decide
example : checkSMTInclusion (p := 101) (fun l => l.foldl (fun a x => 3 * a + x + 1) 0) 2 [5] [] [2, 0] [7, 9] 0 = none := by
  decide

end Verif.Mimc
