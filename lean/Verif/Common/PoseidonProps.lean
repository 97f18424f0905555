import Verif.Common.Poseidon
import Verif.Common.CodecProps

/-! # Property theorem C84: a Poseidon hasher returns the hash of the numbers written since its last `Reset` -/

namespace Verif.Common.Poseidon
open Codec (Heap Slice nilSlice content append append_spec)

/-! ## Specification: numbers are values, every hasher has its own list -/

/-- Current numbers, the numbers written to each hasher since its last `Reset`, results of `Sum`. -/
structure Spec where
  cells : ℕ → ℤ
  written : List (List ℤ)
  results : List (Option ℤ)

def Spec.step (H : List ℤ → Option ℤ) (s : Spec) : Op → Spec
  | .new => { s with written := s.written ++ [[]] }
  | .copy k => { s with written := s.written ++ [s.written.getD k []] }
  | .write k ptr _ => { s with written := s.written.modify k (· ++ [s.cells ptr]) }
  | .reset k => { s with written := s.written.set k [] }
  | .sum k => { s with results := s.results ++ [H (s.written.getD k [])] }
  | .setCell ptr v => { s with cells := fun i => if i = ptr then v else s.cells i }

def Spec.run (H : List ℤ → Option ℤ) (s : Spec) (ops : List Op) : Spec := ops.foldl (Spec.step H) s

/-- The history does not copy hashers. -/
def NoCopy (ops : List Op) : Prop := ∀ k, Op.copy k ∉ ops

/-- The history never changes a number after handing it to a hasher. -/
def NoLateChange : List Op → Prop
  | [] => True
  | op :: ops =>
    (match op with
      | .write _ ptr _ => ∀ v, Op.setCell ptr v ∉ ops
      | _ => True) ∧ NoLateChange ops

/-! ## Invariant -/

/-- Hashers own their arrays, and what they hold are addresses whose current numbers are those written. -/
structure Inv (later : List Op) (st : St) (s : Spec) : Prop where
  nil : st.heap.getD 0 [] = []
  pos : 0 < st.heap.length
  cells : st.cells = s.cells
  results : st.results = s.results
  len : st.hashers.length = s.written.length
  valid : ∀ k < st.hashers.length, (st.hashers.getD k nilSlice).arr < st.heap.length ∧
    (st.hashers.getD k nilSlice).len ≤ (st.heap.getD (st.hashers.getD k nilSlice).arr []).length
  own : ∀ j < st.hashers.length, ∀ k < st.hashers.length, j ≠ k →
    (st.hashers.getD j nilSlice).arr = (st.hashers.getD k nilSlice).arr → (st.hashers.getD j nilSlice).arr = 0
  vals : ∀ k < st.hashers.length, (content st.heap (st.hashers.getD k nilSlice)).map st.cells = s.written.getD k []
  quiet : ∀ k < st.hashers.length, ∀ ptr ∈ content st.heap (st.hashers.getD k nilSlice), ∀ v, Op.setCell ptr v ∉ later

theorem getD_snoc {α : Type} (l : List α) (x d : α) (k : ℕ) :
    (l ++ [x]).getD k d = if k < l.length then l.getD k d else if k = l.length then x else d := by
  simp only [List.getD_eq_getElem?_getD]
  split
  · rename_i h; rw [List.getElem?_append_left h]
  · rename_i h
    rw [List.getElem?_append_right (by omega)]
    split
    · rename_i h'; simp [h']
    · rename_i h'; rw [List.getElem?_eq_none (by simp; omega)]; rfl

theorem getD_set' {α : Type} (l : List α) (x d : α) (j k : ℕ) (hj : j < l.length) :
    (l.set j x).getD k d = if k = j then x else l.getD k d := by
  simp only [List.getD_eq_getElem?_getD, List.getElem?_set]
  by_cases h : j = k
  · subst h; simp [hj]
  · simp [h, Ne.symm h, fun e : k = j => h e.symm]

theorem content_nil (h : Heap) : content h nilSlice = [] := by simp [content, nilSlice]

theorem step_inv (H : List ℤ → Option ℤ) (op : Op) (later : List Op) (st : St) (s : Spec) (h : Inv (op :: later) st s)
    (hc : ∀ k, op ≠ .copy k) (hq : NoLateChange (op :: later)) : Inv later (step H st op) (s.step H op) := by
  have hquiet : ∀ k < st.hashers.length, ∀ ptr ∈ content st.heap (st.hashers.getD k nilSlice), ∀ v, Op.setCell ptr v ∉ later :=
    fun k hk ptr hp v hm => h.quiet k hk ptr hp v (List.mem_cons_of_mem _ hm)
  cases op with
  | copy k => exact absurd rfl (hc k)
  | new =>
    refine ⟨h.nil, h.pos, h.cells, h.results, by simp [step, Spec.step, h.len], ?_, ?_, ?_, ?_⟩
    · intro k hk
      simp only [step, getD_snoc]
      split
      · rename_i hk'; exact h.valid k hk'
      · split <;> exact ⟨h.pos, by simp [nilSlice]⟩
    · intro j hj k hk hjk
      simp only [step, getD_snoc]
      intro e
      split
      · rename_i hj'
        by_cases hk' : k < st.hashers.length
        · rw [if_pos hj', if_pos hk'] at e; exact h.own j hj' k hk' hjk e
        · rw [if_pos hj', if_neg hk'] at e
          have : (st.hashers.getD j nilSlice).arr = 0 := by
            rw [e]; split <;> rfl
          exact this
      · split <;> rfl
    · intro k hk
      simp only [step, Spec.step, getD_snoc, ← h.len]
      split
      · rename_i hk'; exact h.vals k hk'
      · split <;> simp [content_nil]
    · intro k hk ptr hp
      simp only [step, getD_snoc] at hp
      split at hp
      · rename_i hk'; exact hquiet k hk' ptr hp
      · split at hp <;> simp [content_nil] at hp
  | reset j =>
    by_cases hj : j < st.hashers.length
    · refine ⟨h.nil, h.pos, h.cells, h.results, by simp [step, Spec.step, h.len], ?_, ?_, ?_, ?_⟩
      · intro k hk
        simp only [step, List.length_set] at hk
        simp only [step, getD_set' _ _ _ _ _ hj]
        split
        · exact ⟨h.pos, by simp [nilSlice]⟩
        · exact h.valid k hk
      · intro i hi k hk hik
        simp only [step, List.length_set] at hi hk
        simp only [step, getD_set' _ _ _ _ _ hj]
        intro e
        split
        · rfl
        · rename_i hij
          rw [if_neg hij] at e
          by_cases hkj : k = j
          · rw [if_pos hkj] at e; exact e
          · rw [if_neg hkj] at e; exact h.own i hi k hk hik e
      · intro k hk
        simp only [step, List.length_set] at hk
        simp only [step, Spec.step, getD_set' _ _ _ _ _ hj, getD_set' _ _ _ _ _ (h.len ▸ hj)]
        split
        · simp [content_nil]
        · exact h.vals k hk
      · intro k hk ptr hp
        simp only [step, List.length_set] at hk
        simp only [step, getD_set' _ _ _ _ _ hj] at hp
        split at hp
        · simp [content_nil] at hp
        · exact hquiet k hk ptr hp
    · have e1 : st.hashers.set j nilSlice = st.hashers := List.set_eq_of_length_le (by omega)
      have e2 : s.written.set j [] = s.written := List.set_eq_of_length_le (by rw [← h.len]; omega)
      simp only [step, Spec.step, e1, e2]
      exact ⟨h.nil, h.pos, h.cells, h.results, h.len, h.valid, h.own, h.vals, hquiet⟩
  | sum k =>
    refine ⟨h.nil, h.pos, h.cells, ?_, h.len, h.valid, h.own, h.vals, hquiet⟩
    simp only [step, Spec.step, sum, h.results]
    by_cases hk : k < st.hashers.length
    · rw [h.vals k hk]
    · rw [show st.hashers.getD k nilSlice = nilSlice by
          rw [List.getD_eq_getElem?_getD, List.getElem?_eq_none (by omega)]; rfl,
        show s.written.getD k [] = [] by
          rw [List.getD_eq_getElem?_getD, List.getElem?_eq_none (by rw [← h.len]; omega)]; rfl, content_nil]
      rfl
  | setCell ptr v =>
    refine ⟨h.nil, h.pos, by simp only [step, Spec.step, h.cells], h.results, h.len, h.valid, h.own, ?_, hquiet⟩
    intro k hk
    show (content st.heap (st.hashers.getD k nilSlice)).map (fun i => if i = ptr then v else st.cells i) = s.written.getD k []
    rw [← h.vals k hk]
    apply List.map_congr_left
    intro a ha
    have : a ≠ ptr := fun e => h.quiet k hk a ha v (by rw [e]; simp)
    rw [if_neg this]
  | write j ptr extra =>
    by_cases hj : j < st.hashers.length
    · obtain ⟨v1, v2⟩ := h.valid j hj
      obtain ⟨a1, a2, a3, a4, a5, a6, a7⟩ := append_spec st.heap (st.hashers.getD j nilSlice) [ptr] extra v1 v2
      have hst : step H st (.write j ptr extra) =
          { st with heap := (append st.heap (st.hashers.getD j nilSlice) [ptr] extra).1,
                    hashers := st.hashers.set j (append st.heap (st.hashers.getD j nilSlice) [ptr] extra).2 } := by
        simp [step, write, hj]
      rw [hst]
      generalize append st.heap (st.hashers.getD j nilSlice) [ptr] extra = r at *
      -- arrays of the other hashers are untouched
      have hother : ∀ k < st.hashers.length, k ≠ j →
          content r.1 (st.hashers.getD k nilSlice) = content st.heap (st.hashers.getD k nilSlice) := by
        intro k hk hkj
        obtain ⟨b1, b2, b3⟩ := a7 _ (h.valid k hk).1
        by_cases e : (st.hashers.getD k nilSlice).arr = (st.hashers.getD j nilSlice).arr
        · have z := h.own k hk j hj hkj e
          have hl := (h.valid k hk).2
          rw [z, h.nil] at hl
          have hl0 : (st.hashers.getD k nilSlice).len = 0 := by simpa using hl
          unfold content; rw [hl0, List.take_zero, List.take_zero]
        · simp only [content, b2 e]
      refine ⟨?_, by show 0 < r.1.length; have := h.pos; omega, h.cells, h.results, ?_, ?_, ?_, ?_, ?_⟩
      · have := (a7 0 h.pos).1
        rw [h.nil] at this
        exact List.length_eq_zero_iff.1 this
      · simp [Spec.step, h.len]
      · intro k hk
        simp only [List.length_set] at hk
        simp only [getD_set' _ _ _ _ _ hj]
        split
        · exact ⟨a3, a5⟩
        · refine ⟨lt_of_lt_of_le (h.valid k hk).1 a2, ?_⟩
          rw [(a7 _ (h.valid k hk).1).1]; exact (h.valid k hk).2
      · -- ownership
        have hr0 : r.2.arr ≠ 0 := by
          intro e
          rw [e] at a5
          have : (r.1.getD 0 []).length = 0 := by
            have := (a7 0 h.pos).1; rw [h.nil] at this; exact this
          rw [this, a4] at a5
          simp at a5
        have hne : ∀ k < st.hashers.length, k ≠ j → (st.hashers.getD k nilSlice).arr ≠ r.2.arr := by
          intro k hk hkj e
          rcases a6 with e' | e'
          · have := h.own k hk j hj hkj (e.trans e')
            exact hr0 (e ▸ this)
          · have := (h.valid k hk).1; omega
        intro i hi k hk hik
        simp only [List.length_set] at hi hk
        simp only [getD_set' _ _ _ _ _ hj]
        intro e
        by_cases hij : i = j
        · rw [if_pos hij, if_neg (fun h' => hik (hij.trans h'.symm))] at e
          exact absurd e.symm (hne k hk (fun h' => hik (hij.trans h'.symm)))
        · rw [if_neg hij] at e ⊢
          by_cases hkj : k = j
          · rw [if_pos hkj] at e; exact absurd e (hne i hi hij)
          · rw [if_neg hkj] at e; exact h.own i hi k hk hik e
      · intro k hk
        simp only [List.length_set] at hk
        simp only [Spec.step, getD_set' _ _ _ _ _ hj]
        have hm : (s.written.modify j (· ++ [s.cells ptr])).getD k [] =
            if k = j then s.written.getD k [] ++ [s.cells ptr] else s.written.getD k [] := by
          have hkw : k < s.written.length := h.len ▸ hk
          simp only [List.getD_eq_getElem?_getD, List.getElem?_modify, List.getElem?_eq_getElem hkw]
          by_cases e : j = k
          · subst e; simp
          · have e' : ¬ k = j := fun e' => e e'.symm
            rw [if_neg e']; simp [e]
        rw [hm]
        by_cases e : k = j
        · subst e
          rw [if_pos rfl, if_pos rfl, a1, List.map_append, h.vals k hk, h.cells]; rfl
        · rw [if_neg e, if_neg e, hother k hk e, h.vals k hk]
      · intro k hk p hp
        simp only [List.length_set] at hk
        simp only [getD_set' _ _ _ _ _ hj] at hp
        by_cases e : k = j
        · rw [if_pos e, a1] at hp
          rcases List.mem_append.1 hp with hp | hp
          · exact hquiet j hj p hp
          · rw [List.mem_singleton] at hp; subst hp; exact hq.1
        · rw [if_neg e, hother k hk e] at hp; exact hquiet k hk p hp
    · have hst : step H st (.write j ptr extra) = st := by simp [step, write, hj]
      have hsp : s.step H (.write j ptr extra) = s := by
        have : s.written.modify j (· ++ [s.cells ptr]) = s.written := by
          apply List.modify_eq_self; rw [← h.len]; omega
        simp [Spec.step, this]
      rw [hst, hsp]
      exact ⟨h.nil, h.pos, h.cells, h.results, h.len, h.valid, h.own, h.vals, hquiet⟩

theorem run_inv (H : List ℤ → Option ℤ) : ∀ (ops : List Op) (st : St) (s : Spec), Inv ops st s → NoCopy ops →
    NoLateChange ops → Inv [] (run H st ops) (s.run H ops) := by
  intro ops
  induction ops with
  | nil => intro st s h _ _; exact h
  | cons op ops ih =>
    intro st s h hc hq
    have := step_inv H op ops st s h (fun k e => hc k (by simp [e])) hq
    exact ih _ _ this (fun k hm => hc k (by simp [hm])) hq.2

/-! ## The property -/

/-- C84. In every history of calls on any number of hashers, with every choice of spare capacities: if hashers are not copied and
numbers are not changed after being written, every `Sum` returns the Poseidon hash of the numbers written to its hasher since the last
`Reset`, in order. -/
theorem C84_sum (H : List ℤ → Option ℤ) (cells : ℕ → ℤ) (ops : List Op) (hc : NoCopy ops) (hq : NoLateChange ops) :
    (run H (start cells) ops).results = (Spec.run H ⟨cells, [], []⟩ ops).results := by
  have h0 : Inv ops (start cells) ⟨cells, [], []⟩ := by
    refine ⟨rfl, by simp [start], rfl, rfl, rfl, ?_, ?_, ?_, ?_⟩ <;> intro k hk <;> simp [start] at hk
  exact (run_inv H ops _ _ h0 hc hq).results

/-- C84. In particular: write the numbers at the addresses `ptrs` to a new hasher and call `Sum` twice; both calls return the hash of
these numbers, whatever the spare capacities. -/
theorem C84_write_sum (H : List ℤ → Option ℤ) (cells : ℕ → ℤ) (ptrs : List (ℕ × ℕ)) :
    (run H (start cells) (.new :: ptrs.map (fun p => Op.write 0 p.1 p.2) ++ [.sum 0, .sum 0])).results =
      [H (ptrs.map fun p => cells p.1), H (ptrs.map fun p => cells p.1)] := by
  rw [C84_sum]
  · have key : ∀ (ps : List (ℕ × ℕ)) (l : List ℤ),
        Spec.run H ⟨cells, [l], []⟩ (ps.map (fun p => Op.write 0 p.1 p.2) ++ [.sum 0, .sum 0]) =
          ⟨cells, [l ++ ps.map fun p => cells p.1],
            [H (l ++ ps.map fun p => cells p.1), H (l ++ ps.map fun p => cells p.1)]⟩ := by
      intro ps
      induction ps with
      | nil => intro l; simp [Spec.run, Spec.step]
      | cons p ps ih =>
        intro l
        have := ih (l ++ [cells p.1])
        simp only [Spec.run, List.map_cons, List.cons_append, List.foldl_cons, Spec.step] at this ⊢
        rw [show ([l] : List (List ℤ)).modify 0 (· ++ [cells p.1]) = [l ++ [cells p.1]] from rfl, this]
        simp
    have := key ptrs []
    simp only [Spec.run, List.cons_append, List.foldl_cons, Spec.step, List.nil_append] at this ⊢
    rw [this]
  · intro k hm; simp at hm
  · have key : ∀ ps : List (ℕ × ℕ), NoLateChange (ps.map (fun p => Op.write 0 p.1 p.2) ++ [.sum 0, .sum 0]) := by
      intro ps
      induction ps with
      | nil => simp [NoLateChange]
      | cons p ps ih => exact ⟨by intro v hm; simp at hm, ih⟩
    exact ⟨trivial, key ptrs⟩

/-! ## Where the expected property fails -/

/-- C84, disagreement. The hasher keeps the caller's pointer: changing the number after `Write` changes the hash, for every hash
function and all numbers. -/
theorem C84_late_change (H : List ℤ → Option ℤ) (cells : ℕ → ℤ) (ptr extra : ℕ) (v : ℤ) :
    (run H (start cells) [.new, .write 0 ptr extra, .setCell ptr v, .sum 0]).results = [H [v]] := by
  simp [run, step, write, start, sum, append, content, nilSlice]

/-- C84, disagreement. A copy of a hasher may share its array: when the array has spare capacity (Go: after three writes), a write to
the copy replaces what was then written to the original, which afterwards returns the hash of numbers it was never given. -/
theorem C84_copy_shares (H : List ℤ → Option ℤ) (cells : ℕ → ℤ) (a b c d e : ℕ) :
    (run H (start cells) [.new, .write 0 a 0, .write 0 b 0, .write 0 c 1, .copy 0, .write 0 d 0, .write 1 e 0, .sum 0]).results =
      [H [cells a, cells b, cells c, cells e]] := by
  simp [run, step, write, start, sum, append, content, nilSlice]

/-- Non-vacuity: two hashers with interleaved writes, a reset and a change of a number before it is written. -/
example (H : List ℤ → Option ℤ) :
    (run H (start fun i => i) [.new, .new, .write 0 5 1, .write 1 6 0, .setCell 7 70, .write 0 7 3, .sum 0, .reset 0, .write 0 8 0,
      .sum 1, .sum 0]).results = [H [5, 70], H [6], H [8]] := by
  rw [C84_sum]
  · simp [Spec.run, Spec.step]
  · intro k hm; simp at hm
  · simp [NoLateChange]

end Verif.Common.Poseidon
