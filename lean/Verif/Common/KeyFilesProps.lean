import Verif.Common.KeyFiles

/-! # Property theorem C75: key, witness and proof files under every schedule, failure and crash point -/

namespace Verif.Common.KeyFiles
open Function

/-- A serializer and a decoder fit together: what was written is read back. -/
def RoundTrip {α : Type} (enc : α → List Bytes) (dec : Bytes → Option α) : Prop :=
  ∀ x, dec (enc x).flatten = some x

/-- A truncated serialization is not accepted. -/
def SelfDelimiting {α : Type} (enc : α → List Bytes) (dec : Bytes → Option α) : Prop :=
  ∀ x q, q <+: (enc x).flatten → q ≠ (enc x).flatten → dec q = none

theorem pwrite_end (c x : Bytes) : pwrite c c.length x = c ++ x := by
  simp [pwrite]

/-- The state of one writer relative to the content `old` that its file had and the chunks it was given. -/
def Inv (old : Option Bytes) (chunks : List Bytes) (content : Option Bytes) : Phase → Prop
  | .start cs => cs = chunks ∧ content = old
  | .writing off cs => ∃ q, chunks.flatten = q ++ cs.flatten ∧ off = q.length ∧ content = some q
  | .returned true => content = some chunks.flatten
  | .returned false => content = old ∨ ∃ q, q <+: chunks.flatten ∧ content = some q

theorem stepProc_path (d : Disk) (pr : Proc) (o : Outcome) : (stepProc d pr o).2.path = pr.path := by
  unfold stepProc; split <;> rfl

theorem stepProc_frame (d : Disk) (pr : Proc) (o : Outcome) (f : String) (h : f ≠ pr.path) :
    (stepProc d pr o).1 f = d f := by
  unfold stepProc; split <;> simp [update_of_ne h]

theorem stepProc_inv (d : Disk) (pr : Proc) (o : Outcome) (old : Option Bytes) (chunks : List Bytes)
    (h : Inv old chunks (d pr.path) pr.phase) :
    Inv old chunks ((stepProc d pr o).1 pr.path) (stepProc d pr o).2.phase := by
  obtain ⟨path, phase⟩ := pr
  dsimp only at h
  match phase, o with
  | .start cs, .ok =>
    simp only [Inv] at h
    simp [stepProc, Inv, h.1]
  | .start cs, .fail n =>
    simp only [Inv] at h
    simp [stepProc, Inv, h.2]
  | .writing off [], o =>
    simp only [Inv] at h
    obtain ⟨q, h1, -, h3⟩ := h
    simp at h1
    cases o <;> simp [stepProc, Inv, h3, h1]
  | .writing off (c :: cs), .ok =>
    obtain ⟨q, h1, h2, h3⟩ := h
    refine ⟨q ++ c, ?_, ?_, ?_⟩
    · simp [h1]
    · simp [h2]
    · simp [stepProc, h3, h2, pwrite_end]
  | .writing off (c :: cs), .fail n =>
    obtain ⟨q, h1, h2, h3⟩ := h
    refine Or.inr ⟨q ++ c.take n, ⟨c.drop n ++ cs.flatten, ?_⟩, ?_⟩
    · rw [h1, List.flatten_cons, List.append_assoc, ← List.append_assoc (c.take n), List.take_append_drop]
    · simp [stepProc, h3, h2, pwrite_end]
  | .returned b, o =>
    cases o <;> simpa [stepProc] using h

theorem run_path (sched : List (ℕ × Outcome)) : ∀ (w : World) (i : ℕ), ((run w sched).procs i).path = (w.procs i).path := by
  induction sched with
  | nil => intro w i; rfl
  | cons e es ih =>
    intro w i
    show ((run (step w e) es).procs i).path = _
    rw [ih]
    by_cases h : i = e.1
    · subst h; simp [step, stepProc_path]
    · simp [step, update_of_ne h]

theorem run_inv (i : ℕ) (old : Option Bytes) (chunks : List Bytes) (sched : List (ℕ × Outcome)) : ∀ (w : World),
    (∀ j ≠ i, (w.procs j).path ≠ (w.procs i).path) →
    Inv old chunks (w.disk (w.procs i).path) (w.procs i).phase →
    Inv old chunks ((run w sched).disk (w.procs i).path) ((run w sched).procs i).phase := by
  induction sched with
  | nil => intro w _ h; exact h
  | cons e es ih =>
    intro w hne h
    have hp : ∀ j, ((step w e).procs j).path = (w.procs j).path := fun j => run_path [e] w j
    have := ih (step w e) (by intro j hj; rw [hp, hp]; exact hne j hj) ?_
    · rw [hp] at this; exact this
    · rw [hp]
      by_cases hi : i = e.1
      · subst hi
        simpa [step] using stepProc_inv w.disk (w.procs e.1) e.2 old chunks h
      · have : (w.procs i).path ≠ (w.procs e.1).path := fun hh => hne e.1 (fun h' => hi h'.symm) hh.symm
        simpa [step, update_of_ne hi, stepProc_frame _ _ _ _ this] using h

theorem run_frame (f : String) (sched : List (ℕ × Outcome)) : ∀ (w : World),
    (∀ j, (w.procs j).path ≠ f) → (run w sched).disk f = w.disk f := by
  induction sched with
  | nil => intro w _; rfl
  | cons e es ih =>
    intro w h
    show (run (step w e) es).disk f = _
    rw [ih _ (by intro j; rw [show ((step w e).procs j).path = (w.procs j).path from run_path [e] w j]; exact h j)]
    exact stepProc_frame _ _ _ _ (fun h' => h e.1 h'.symm)

/-! ## The property -/

/-- Process `i` of `w` is a call of a `Write*` function with object `x` that has not yet made a system call, and no other
call uses the same path. -/
def Calls {α : Type} (enc : α → List Bytes) (w : World) (i : ℕ) (path : String) (x : α) : Prop :=
  w.procs i = ⟨path, .start (enc x)⟩ ∧ ∀ j ≠ i, (w.procs j).path ≠ path

/-- C75. Under every schedule of any number of concurrent calls on other paths and every pattern of failing system calls: when
a `Write*` function that returns an error value has returned nil, reading the file gives back the object that was
written. -/
theorem C75_nil_error_means_stored {α : Type} (enc : α → List Bytes) (dec : Bytes → Option α) (hrt : RoundTrip enc dec)
    (w : World) (i : ℕ) (path : String) (x : α) (hw : Calls enc w i path x) (sched : List (ℕ × Outcome)) (ok : Bool)
    (hret : ((run w sched).procs i).phase = .returned ok) (hnil : returnValue false ok = .nilError) :
    read dec (run w sched).disk path = some x := by
  have hok : ok = true := by cases ok <;> simp_all [returnValue]
  subst hok
  have := run_inv i (w.disk path) (enc x) sched w (by rw [hw.1]; exact hw.2) (by rw [hw.1]; exact ⟨rfl, rfl⟩)
  rw [hw.1, hret] at this
  simp only [Inv] at this
  simp [read, this, hrt x]

/-- C75. Whenever the program stops (crash at any point of any schedule, with any failures), the file holds what it held before
the call or a first part of the new serialization. -/
theorem C75_crash_content {α : Type} (enc : α → List Bytes) (w : World) (i : ℕ) (path : String) (x : α)
    (hw : Calls enc w i path x) (sched : List (ℕ × Outcome)) :
    (run w sched).disk path = w.disk path ∨ ∃ q, q <+: (enc x).flatten ∧ (run w sched).disk path = some q := by
  have := run_inv i (w.disk path) (enc x) sched w (by rw [hw.1]; exact hw.2) (by rw [hw.1]; exact ⟨rfl, rfl⟩)
  rw [hw.1] at this
  revert this
  cases hph : ((run w sched).procs i).phase with
  | start cs => exact fun h => Or.inl h.2
  | writing off cs => rintro ⟨q, h1, -, h3⟩; exact Or.inr ⟨q, ⟨_, h1.symm⟩, h3⟩
  | returned b =>
    cases b
    · exact fun h => h
    · exact fun h => Or.inr ⟨_, List.prefix_refl _, h⟩

/-- C75. So a reader that comes after a crash gets the old object, an error, or the new object, never a third one, if the
decoder rejects truncated serializations. -/
theorem C75_crash_read {α : Type} (enc : α → List Bytes) (dec : Bytes → Option α) (hrt : RoundTrip enc dec)
    (hsd : SelfDelimiting enc dec) (w : World) (i : ℕ) (path : String) (x : α) (hw : Calls enc w i path x)
    (sched : List (ℕ × Outcome)) :
    read dec (run w sched).disk path = read dec w.disk path ∨ read dec (run w sched).disk path = none ∨
      read dec (run w sched).disk path = some x := by
  rcases C75_crash_content enc w i path x hw sched with h | ⟨q, hq, h⟩
  · left; simp [read, h]
  · by_cases hx : q = (enc x).flatten
    · right; right; simp [read, h, hx, hrt x]
    · right; left; simp [read, h, hsd x q hq hx]

/-- C75. No call touches a file that is not its own. -/
theorem C75_frame (w : World) (f : String) (hf : ∀ j, (w.procs j).path ≠ f) (sched : List (ℕ × Outcome)) :
    (run w sched).disk f = w.disk f := run_frame f sched w hf

theorem run_append (w : World) (a b : List (ℕ × Outcome)) : run w (a ++ b) = run (run w a) b := by
  simp [run, List.foldl_append]

/-- A writer that is never disturbed and never meets an error. -/
theorem run_quiet (i : ℕ) (path : String) : ∀ (cs : List Bytes) (w : World) (q : Bytes),
    w.procs i = ⟨path, .writing q.length cs⟩ → w.disk path = some q →
    ((run w (List.replicate (cs.length + 1) (i, .ok))).procs i).phase = .returned true ∧
    (run w (List.replicate (cs.length + 1) (i, .ok))).disk path = some (q ++ cs.flatten) := by
  intro cs
  induction cs with
  | nil => intro w q h1 h2; simp [run, step, stepProc, h1, h2]
  | cons c cs ih =>
    intro w q h1 h2
    have hs : (step w (i, .ok)).procs i = ⟨path, .writing (q ++ c).length cs⟩ := by simp [step, stepProc, h1]
    have hd : (step w (i, .ok)).disk path = some (q ++ c) := by
      simp [step, stepProc, h1, h2, pwrite_end]
    obtain ⟨a, b⟩ := ih _ _ hs hd
    rw [List.length_cons, List.replicate_succ]
    refine ⟨a, ?_⟩
    rw [List.flatten_cons, ← List.append_assoc]
    exact b

/-- C75. When nothing fails the call returns without error (so the first theorem is not vacuous). -/
theorem C75_succeeds {α : Type} (enc : α → List Bytes) (w : World) (i : ℕ) (path : String) (x : α)
    (hw : Calls enc w i path x) :
    ((run w (List.replicate ((enc x).length + 2) (i, .ok))).procs i).phase = .returned true := by
  have hs : (step w (i, .ok)).procs i = ⟨path, .writing 0 (enc x)⟩ := by simp [step, stepProc, hw.1]
  have hd : (step w (i, .ok)).disk path = some [] := by simp [step, stepProc, hw.1]
  exact (run_quiet i path (enc x) _ [] hs hd).1

/-! ## Where the expected property fails -/

/-- C75, disagreement. The old file is not kept until the new one is complete: for every object already stored and every new
object there is a failure after which the call has returned an error and the stored object is gone. -/
theorem C75_failed_write_destroys_old {α : Type} (enc : α → List Bytes) (dec : Bytes → Option α)
    (hsd : SelfDelimiting enc dec) (w : World) (i : ℕ) (path : String) (x y : α) (hw : Calls enc w i path x)
    (hx : (enc x).flatten ≠ []) (_hold : read dec w.disk path = some y) :
    ∃ sched, ((run w sched).procs i).phase = .returned false ∧ read dec (run w sched).disk path = none := by
  obtain ⟨c, cs, hc⟩ : ∃ c cs, enc x = c :: cs := by
    cases h : enc x with
    | nil => simp [h] at hx
    | cons c cs => exact ⟨c, cs, rfl⟩
  refine ⟨[(i, .ok), (i, .fail 0)], ?_, ?_⟩
  · simp [run, step, stepProc, hw.1, hc]
  · simp [run, step, stepProc, hw.1, hc, read, pwrite, hsd x [] List.nil_prefix (Ne.symm hx)]

/-- C75, disagreement. `WritePlonkProvingKey` reports nothing: for every stored key `y` and new key `x` it may return exactly as
after a success while the file still holds `y`. -/
theorem C75_plonk_proving_key_silent {α : Type} (enc : α → List Bytes) (dec : Bytes → Option α) (w : World) (i : ℕ)
    (path : String) (x y : α) (hw : Calls enc w i path x) (hold : read dec w.disk path = some y) :
    (∃ sched ok, ((run w sched).procs i).phase = .returned ok ∧ returnValue true ok = .nothing ∧
      read dec (run w sched).disk path = some y) ∧
    returnValue true true = .nothing ∧ returnValue false true = .nilError ∧ returnValue false false = .error := by
  refine ⟨⟨[(i, .fail 0)], false, ?_, rfl, ?_⟩, rfl, rfl, rfl⟩
  · simp [run, step, stepProc, hw.1]
  · simpa [run, step, stepProc, hw.1] using hold

/-- C75, disagreement. Two calls on the same path may both return nil and leave a mixture: for all serializations `a`, `b` (one
chunk each) there is a schedule without failures after which the file holds `b` followed by the end of `a`. -/
theorem C75_same_path_mixture (path : String) (a b : Bytes) (w : World)
    (h0 : w.procs 0 = ⟨path, .start [a]⟩) (h1 : w.procs 1 = ⟨path, .start [b]⟩) :
    ∃ sched, ((run w sched).procs 0).phase = .returned true ∧ ((run w sched).procs 1).phase = .returned true ∧
      (run w sched).disk path = some (b ++ a.drop b.length) := by
  refine ⟨[(0, .ok), (1, .ok), (0, .ok), (1, .ok), (0, .ok), (1, .ok)], ?_, ?_, ?_⟩ <;>
    simp [run, step, stepProc, h0, h1, Function.update, pwrite]

/-! ## Non-vacuity: a concrete codec and a concrete world -/

/-- Length byte, then the bytes: two chunks. -/
def demoEnc (x : List UInt8) : List Bytes := [[x.length.toUInt8], x]

/-- Decoder of `demoEnc` for strings shorter than 256. -/
def demoDec : Bytes → Option {x : List UInt8 // x.length < 256}
  | [] => none
  | n :: x => if h : x.length < 256 then if n.toNat = x.length then some ⟨x, h⟩ else none else none

theorem demo_len (n : ℕ) (h : n < 256) : (n.toUInt8).toNat = n := by
  simp [Nat.toUInt8, UInt8.toNat_ofNat, Nat.mod_eq_of_lt h]

example : RoundTrip (fun x : {x : List UInt8 // x.length < 256} => demoEnc x.1) demoDec := by
  rintro ⟨x, h⟩
  simp [demoEnc, demoDec, demo_len _ h, h]

example : SelfDelimiting (fun x : {x : List UInt8 // x.length < 256} => demoEnc x.1) demoDec := by
  rintro ⟨x, h⟩ q hq hne
  simp only [demoEnc, List.flatten_cons, List.flatten_nil, List.append_nil, List.singleton_append] at hq hne
  cases q with
  | nil => rfl
  | cons n y =>
    obtain ⟨hn, hy⟩ := List.cons_prefix_cons.1 hq
    subst hn
    have hlt : y.length < x.length := by
      rcases Nat.lt_or_ge y.length x.length with h' | h'
      · exact h'
      · exact absurd (by rw [hy.eq_of_length_le h']) hne
    have : y.length < 256 := by omega
    simp [demoDec, this, demo_len _ h]
    omega

/-- Two calls in progress on different files, one existing. -/
example : Calls demoEnc ⟨Function.update (fun _ => none) "a" (some [1, 7]),
    fun i => ⟨if i = 0 then "a" else "b", .start (demoEnc [3, 4])⟩⟩ 0 "a" [3, 4] :=
  ⟨rfl, fun j hj => by simp [hj]⟩

end Verif.Common.KeyFiles
