import Verif.Common.S3
import Verif.Fabric.Props

/-! # Property theorem C82: the object store client -/

namespace Verif.S3

/-! ## Specification -/

/-- The body under key `k` after a history: the last request on `k` that was carried out decides. -/
def live (k : Key) : List Op → Option Bytes
  | [] => none
  | .upload k' b true _ :: rest => if k' = k then some b else live k rest
  | .delete k' true _ :: rest => if k' = k then none else live k rest
  | _ :: rest => live k rest

/-- The body after the history `ops`, oldest request first. -/
def current (k : Key) (ops : List Op) : Option Bytes := live k ops.reverse

/-- A request that reported no error was carried out. -/
def Honest : Op → Prop
  | .upload _ _ applied err => err = false → applied = true
  | .delete _ applied err => err = false → applied = true

/-! ## Lemmas -/

theorem download_put (st : Bucket) (k k' : Key) (b : Bytes) :
    download (put st k b) k' = if k = k' then some b else download st k' := by
  unfold download put
  rw [List.find?_cons]
  by_cases h : k = k'
  · simp [h]
  · simp only [h, decide_false, if_false]
    congr 1
    rw [List.find?_filter]
    congr 1
    funext o
    by_cases ho : o.1 = k'
    · simp [ho, Ne.symm h]
    · simp [ho]

theorem download_remove (st : Bucket) (k k' : Key) :
    download (remove st k) k' = if k = k' then none else download st k' := by
  unfold download remove
  by_cases h : k = k'
  · rw [if_pos h, Option.map_eq_none_iff, List.find?_eq_none]
    intro o ho
    have := (List.mem_filter.1 ho).2
    simp only [ne_eq, decide_not, Bool.not_eq_eq_eq_not, Bool.not_true, decide_eq_false_iff_not] at this
    simpa [← h] using this
  · rw [if_neg h]
    congr 1
    rw [List.find?_filter]
    congr 1
    funext o
    by_cases ho : o.1 = k'
    · simp [ho, Ne.symm h]
    · simp [ho]

theorem run_concat (ops : List Op) (o : Op) : run (ops ++ [o]) = step (run ops) o := by
  simp [run, List.foldl_append]

theorem current_concat (k : Key) (ops : List Op) (o : Op) : current k (ops ++ [o]) = live k (o :: ops.reverse) := by
  simp [current]

theorem download_run (ops : List Op) (k : Key) : download (run ops) k = current k ops := by
  induction ops using List.reverseRecOn with
  | nil => rfl
  | append_singleton ops o ih =>
    rw [run_concat, current_concat]
    cases o with
    | upload k' b a e => cases a <;> simp [step, live, download_put, ih, current]
    | delete k' a e => cases a <;> simp [step, live, download_remove, ih, current]

theorem nodup_run (ops : List Op) : ((run ops).map Prod.fst).Nodup := by
  have hf : ∀ (st : Bucket) (k : Key), (st.map Prod.fst).Nodup → ((st.filter (fun o => o.1 ≠ k)).map Prod.fst).Nodup :=
    fun st k h => h.sublist (List.filter_sublist.map _)
  induction ops using List.reverseRecOn with
  | nil => simp [run]
  | append_singleton ops o ih =>
    rw [run_concat]
    cases o with
    | upload k' b a e =>
      cases a
      · simpa [step] using ih
      · simp only [step, if_true, put, List.map_cons, List.nodup_cons]
        refine ⟨?_, hf _ _ ih⟩
        intro hm
        obtain ⟨o, ho, he⟩ := List.mem_map.1 hm
        have := (List.mem_filter.1 ho).2
        simp [he] at this
    | delete k' a e =>
      cases a
      · simpa [step] using ih
      · simpa [step, remove] using hf _ k' ih

theorem mem_keys (st : Bucket) (k : Key) : k ∈ st.map Prod.fst ↔ (download st k).isSome = true := by
  unfold download
  rw [Option.isSome_map, List.find?_isSome, List.mem_map]
  simp

/-- The keys in use that begin with `pre`. -/
theorem mem_matching (ops : List Op) (pre k : Key) :
    k ∈ ((run ops).map Prod.fst).filter (fun k => pre.isPrefixOf k) ↔ pre <+: k ∧ (current k ops).isSome = true := by
  rw [List.mem_filter, mem_keys, download_run, List.isPrefixOf_iff_prefix, and_comm]

/-! ## The property -/

/-- C82. After every history of requests by any number of clients, with any failures: `Download` returns the last body stored under the
key, and an error when there is none or it was deleted last; `HeadObject` tells which of the two is the case. -/
theorem C82_download (ops : List Op) (k : Key) :
    download (run ops) k = current k ops ∧ headObject (run ops) k = (current k ops).isSome :=
  ⟨download_run ops k, by rw [headObject, download_run]⟩

/-- C82. An upload that returned nil is what `Download` returns, until somebody uploads or deletes the same key. -/
theorem C82_upload_then_download (ops more : List Op) (k : Key) (b : Bytes) (applied err : Bool)
    (hh : Honest (.upload k b applied err)) (herr : err = false)
    (hm : ∀ o ∈ more, (∀ k' b' a e, o = .upload k' b' a e → k' ≠ k) ∧ ∀ k' a e, o = .delete k' a e → k' ≠ k) :
    download (run (ops ++ [.upload k b applied err] ++ more)) k = some b := by
  have ha : applied = true := hh herr
  subst ha
  rw [download_run]
  induction more using List.reverseRecOn with
  | nil => simp [current, live]
  | append_singleton more o ih =>
    have hmo := hm o (by simp)
    have ih := ih (fun o ho => hm o (by simp [ho]))
    rw [← List.append_assoc, current_concat]
    rw [current] at ih
    cases o with
    | upload k' b' a e =>
      have := hmo.1 k' b' a e rfl
      cases a
      · rw [live]; exact ih
        all_goals simp
      · rw [live, if_neg this]; exact ih
    | delete k' a e =>
      have := hmo.2 k' a e rfl
      cases a
      · rw [live]; exact ih
        all_goals simp
      · rw [live, if_neg this]; exact ih

/-- C82. `ListObjects` never invents a key and never repeats one, whatever the history. -/
theorem C82_list_sound (ops : List Op) (pre : Key) :
    (listObjects (run ops) pre).Nodup ∧
    ∀ k ∈ listObjects (run ops) pre, pre <+: k ∧ (current k ops).isSome = true := by
  refine ⟨?_, ?_⟩
  · refine List.Nodup.sublist (List.take_sublist _ _) ?_
    exact (List.mergeSort_perm _ _).nodup_iff.2 ((nodup_run ops).filter _)
  · intro k hk
    have := List.mem_of_mem_take hk
    rw [List.mem_mergeSort] at this
    exact (mem_matching ops pre k).1 this

/-- C82. `ListObjects` is complete when at most 1000 objects have the prefix. -/
theorem C82_list_complete (ops : List Op) (pre : Key) (keys : List Key)
    (hk : ∀ k, pre <+: k → (current k ops).isSome = true → k ∈ keys) (hlen : keys.length ≤ 1000) (k : Key)
    (hp : pre <+: k) (hl : (current k ops).isSome = true) : k ∈ listObjects (run ops) pre := by
  unfold listObjects
  rw [List.take_of_length_le]
  · rw [List.mem_mergeSort]
    exact (mem_matching ops pre k).2 ⟨hp, hl⟩
  · rw [List.length_mergeSort]
    refine le_trans ?_ hlen
    refine List.Subperm.length_le ?_
    refine List.subperm_of_subset ((nodup_run ops).filter _) ?_
    intro x hx
    have := (mem_matching ops pre x).1 hx
    exact hk x this.1 this.2

/-! ## Where the expected property fails -/

/-- C82, disagreement. With more than 1000 objects under the prefix exactly 1000 keys are returned, without an error, and some stored object
is missing from the list. -/
theorem C82_list_truncated (ops : List Op) (pre : Key) (keys : List Key) (hn : keys.Nodup) (hlen : 1000 < keys.length)
    (hk : ∀ k ∈ keys, pre <+: k ∧ (current k ops).isSome = true) :
    (listObjects (run ops) pre).length = 1000 ∧ ∃ k ∈ keys, k ∉ listObjects (run ops) pre := by
  have hsub : keys.length ≤ (((run ops).map Prod.fst).filter (fun k => pre.isPrefixOf k)).length :=
    List.Subperm.length_le (List.subperm_of_subset hn fun k h => (mem_matching ops pre k).2 (hk k h))
  have h1000 : (listObjects (run ops) pre).length = 1000 := by
    unfold listObjects
    rw [List.length_take, List.length_mergeSort]
    omega
  refine ⟨h1000, ?_⟩
  by_contra hc
  push Not at hc
  have := List.Subperm.length_le (List.subperm_of_subset hn hc)
  omega

/-- The prefixes of common/proof/types.go:13, 38-39. -/
def updatePrefix : Key := "ethereum/update".toUTF8.toList.map UInt8.toNat
def assignmentSmtPrefix : Key := "ethereum/update_assignment/smt".toUTF8.toList.map UInt8.toNat

/-- C82, disagreement. Listing the update prefix of common/proof/types.go also returns the assignments of another kind, because the prefixes
do not end in a slash: every stored assignment object is in the list of updates (if that is not truncated). -/
theorem C82_foreign_objects (ops : List Op) (slot : ℕ) (keys : List Key)
    (hk : ∀ k, updatePrefix <+: k → (current k ops).isSome = true → k ∈ keys) (hlen : keys.length ≤ 1000)
    (hs : (current (Fabric.objectKey assignmentSmtPrefix slot) ops).isSome = true) :
    Fabric.objectKey assignmentSmtPrefix slot ∈ listObjects (run ops) updatePrefix := by
  refine C82_list_complete ops updatePrefix keys hk hlen _ ?_ hs
  have : updatePrefix <+: assignmentSmtPrefix := by decide +kernel
  refine this.trans ?_
  unfold Fabric.objectKey
  simp

/-! ## Non-vacuity -/

/-- A history with an overwrite, a failed upload that was carried out, a deletion. -/
def sampleOps : List Op :=
  [.upload [1] [10] true false, .upload [2] [20] true true, .upload [1] [11] true false, .upload [3] [30] false true,
    .delete [2] true false]

example : current [1] sampleOps = some [11] ∧ current [2] sampleOps = none ∧ current [3] sampleOps = none ∧
    listObjects (run sampleOps) [] = [[1]] := by
  decide +kernel

/-- 1001 objects. -/
def manyOps : List Op := (List.range 1001).map fun i => .upload [1, i] [0] true false

theorem many_current (n : ℕ) : ∀ i < n,
    (current [1, i] ((List.range n).map fun i => Op.upload [1, i] [0] true false)).isSome = true := by
  induction n with
  | zero => intro i hi; omega
  | succ n ih =>
    intro i hi
    rw [List.range_succ, List.map_append, List.map_cons, List.map_nil, current_concat, live]
    by_cases h : n = i
    · simp [h]
    · have hne : ([1, n] : Key) ≠ [1, i] := by simp [h]
      rw [if_neg hne]
      exact ih i (by omega)

example : (listObjects (run manyOps) [1]).length = 1000 ∧
    ∃ k ∈ (List.range 1001).map (fun i => [1, i]), k ∉ listObjects (run manyOps) [1] := by
  refine C82_list_truncated manyOps [1] _ ?_ ?_ ?_
  · exact List.Nodup.map (fun a b h => by simpa using h) List.nodup_range
  · simp
  · intro k hk
    obtain ⟨i, hi, rfl⟩ := List.mem_map.1 hk
    exact ⟨by simp, many_current 1001 i (List.mem_range.1 hi)⟩

end Verif.S3
