import Verif.Common.Codec
import Mathlib.Algebra.Group.Nat.Even
import Mathlib.Tactic.Ring

/-! # Property theorem C77: contract calls are encoded as selector and arguments, in every history of calls -/

namespace Verif.Common.Codec
variable {α : Type}

/-- The digests have 32 bytes, and the ABI encoding of arguments is a whole number of 32-byte words. -/
structure Setting (ms : List Method) (pack : String → List α → Option (List ℕ)) : Prop where
  digest : ∀ m ∈ ms, m.digest.length = 32
  words : ∀ n a bs, pack n a = some bs → 32 ∣ bs.length

/-- The selector that the ABI prescribes: the first four bytes of the digest of the method's signature. -/
def selectorOf (ms : List Method) (name : String) : List ℕ :=
  ((ms.find? (fun m => m.name == name)).map fun m => m.digest.take 4).getD []

/-- Memory of the codec is intact: the first four bytes of each method's array are its selector. -/
structure Inv (ms : List Method) (st : St) : Prop where
  nil : st.heap.getD 0 [] = []
  size : ms.length < st.heap.length
  own : ∀ i m, ms[i]? = some m → (st.heap.getD (i + 1) []).length = 32 ∧
    (st.heap.getD (i + 1) []).take 4 = m.digest.take 4
  valid : ∀ s ∈ st.results, s.arr < st.heap.length ∧ s.len ≤ (st.heap.getD s.arr []).length ∧
    (1 ≤ s.arr → s.arr ≤ ms.length → 4 ≤ s.len)

theorem getD_append (h : Heap) (x : List ℕ) (i : ℕ) (hi : i < h.length) : (h ++ [x]).getD i [] = h.getD i [] := by
  simp [List.getD_eq_getElem?_getD, List.getElem?_append_left hi]

theorem getD_append_new (h : Heap) (x : List ℕ) : (h ++ [x]).getD h.length [] = x := by
  simp [List.getD_eq_getElem?_getD]

theorem getD_set (h : Heap) (x : List ℕ) (i j : ℕ) (hj : j < h.length) :
    (h.set j x).getD i [] = if i = j then x else h.getD i [] := by
  simp only [List.getD_eq_getElem?_getD, List.getElem?_set]
  by_cases hij : j = i
  · subst hij; simp [hj]
  · simp [hij, Ne.symm hij, fun h : i = j => hij h.symm]

/-- What `append` does to every array and slice. -/
theorem append_spec (h : Heap) (s : Slice) (bs : List ℕ) (extra : ℕ) (hs : s.arr < h.length)
    (hl : s.len ≤ (h.getD s.arr []).length) :
    content (append h s bs extra).1 (append h s bs extra).2 = content h s ++ bs ∧
    h.length ≤ (append h s bs extra).1.length ∧
    (append h s bs extra).2.arr < (append h s bs extra).1.length ∧
    (append h s bs extra).2.len = s.len + bs.length ∧
    (append h s bs extra).2.len ≤ ((append h s bs extra).1.getD (append h s bs extra).2.arr []).length ∧
    ((append h s bs extra).2.arr = s.arr ∨ (append h s bs extra).2.arr = h.length) ∧
    (∀ i < h.length, ((append h s bs extra).1.getD i []).length = (h.getD i []).length ∧
      (i ≠ s.arr → (append h s bs extra).1.getD i [] = h.getD i []) ∧
      ∀ n ≤ s.len, i = s.arr → ((append h s bs extra).1.getD i []).take n = (h.getD i []).take n) := by
  unfold append
  dsimp only
  split
  · rename_i hc
    refine ⟨?_, ?_, ?_, rfl, ?_, Or.inl rfl, ?_⟩
    · simp only [content]
      rw [getD_set _ _ _ _ hs, if_pos rfl, List.take_append_of_le_length (by simp only [List.length_append, List.length_take, List.length_drop, List.length_replicate]; omega)]
      rw [List.take_of_length_le (by simp only [List.length_append, List.length_take, List.length_drop, List.length_replicate]; omega)]
    · simp
    · simpa using hs
    · rw [getD_set _ _ _ _ hs, if_pos rfl]; simp only [List.length_append, List.length_take, List.length_drop, List.length_replicate]; omega
    · intro i hi
      rw [getD_set _ _ _ _ hs]
      by_cases h' : i = s.arr
      · subst h'
        simp only [if_true]
        refine ⟨by simp only [List.length_append, List.length_take, List.length_drop, List.length_replicate]; omega, fun hne => absurd rfl hne, ?_⟩
        intro n hn _
        rw [List.append_assoc, List.take_append_of_le_length (by simp only [List.length_append, List.length_take, List.length_drop, List.length_replicate]; omega), List.take_take, min_eq_left hn]
      · rw [if_neg h']
        exact ⟨rfl, fun _ => rfl, fun _ _ h'' => absurd h'' h'⟩
  · rename_i hc
    refine ⟨?_, by simp, by simp, rfl, ?_, Or.inr rfl, ?_⟩
    · simp only [content]
      rw [getD_append_new, List.take_append_of_le_length (by simp only [List.length_append, List.length_take, List.length_drop, List.length_replicate]; omega)]
      rw [List.take_of_length_le (by simp only [List.length_append, List.length_take, List.length_drop, List.length_replicate]; omega)]
    · rw [getD_append_new]; simp only [List.length_append, List.length_take, List.length_drop, List.length_replicate]; omega
    · intro i hi
      rw [getD_append _ _ _ hi]
      exact ⟨rfl, fun _ => rfl, fun _ _ _ => rfl⟩

theorem find_lt {ms : List Method} {name : String} {i : ℕ} (h : find ms name = some i) :
    ∃ m, ms[i]? = some m ∧ ms.find? (fun m => m.name == name) = some m ∧ i < ms.length := by
  unfold find at h
  obtain ⟨hi, h1, h2⟩ := List.findIdx?_eq_some_iff_getElem.1 h
  refine ⟨ms[i], List.getElem?_eq_getElem hi, ?_, hi⟩
  rw [List.find?_eq_some_iff_getElem]
  exact ⟨h1, i, hi, rfl, fun j hj => by simpa using h2 j hj⟩

theorem find_none {ms : List Method} {name : String} (h : find ms name = none) :
    ms.find? (fun m => m.name == name) = none := by
  unfold find at h
  rw [List.findIdx?_eq_none_iff] at h
  rw [List.find?_eq_none]
  intro x hx; simpa using h x hx

theorem inv_nil {ms : List Method} {st : St} (h : Inv ms st) : 0 < st.heap.length := by have := h.size; omega

/-- Appending to a slice of the codec or of a caller keeps the codec intact. -/
theorem inv_append {ms : List Method} {st : St} (h : Inv ms st) (s : Slice) (bs : List ℕ) (extra : ℕ)
    (hs : s.arr < st.heap.length ∧ s.len ≤ (st.heap.getD s.arr []).length ∧ (1 ≤ s.arr → s.arr ≤ ms.length → 4 ≤ s.len)) :
    Inv ms ⟨(append st.heap s bs extra).1, st.results ++ [(append st.heap s bs extra).2]⟩ := by
  obtain ⟨a1, a2, a3, a4, a5, a6, a7⟩ := append_spec st.heap s bs extra hs.1 hs.2.1
  generalize append st.heap s bs extra = r at *
  have htake : ∀ i, 1 ≤ i → i ≤ ms.length → (r.1.getD i []).take 4 = (st.heap.getD i []).take 4 := by
    intro i h1 h2
    obtain ⟨-, b2, b3⟩ := a7 i (by have := h.size; omega)
    by_cases hi : i = s.arr
    · exact b3 4 (hs.2.2 (hi ▸ h1) (hi ▸ h2)) hi
    · rw [b2 hi]
  refine ⟨?_, ?_, ?_, ?_⟩
  · have := (a7 0 (inv_nil h)).1
    rw [h.nil] at this
    exact List.length_eq_zero_iff.1 this
  · have := h.size; show ms.length < r.1.length; omega
  · intro i m hm
    have hi : i < ms.length := (List.getElem?_eq_some_iff.1 hm).1
    obtain ⟨o1, o2⟩ := h.own i m hm
    exact ⟨((a7 (i + 1) (by have := h.size; omega)).1).trans o1, (htake (i + 1) (by omega) (by omega)).trans o2⟩
  · intro t ht
    rcases List.mem_append.1 ht with ht | ht
    · obtain ⟨v1, v2, v3⟩ := h.valid t ht
      refine ⟨by show _ < r.1.length; omega, ?_, v3⟩
      show t.len ≤ (r.1.getD t.arr []).length
      rw [(a7 t.arr v1).1]; exact v2
    · rw [List.mem_singleton] at ht; subst ht
      refine ⟨a3, a5, ?_⟩
      intro h1 h2
      rw [a4]
      rcases a6 with e | e
      · rw [e] at h1 h2; have := hs.2.2 h1 h2; omega
      · have := h.size; omega

theorem inv_init {ms : List Method} (hd : ∀ m ∈ ms, m.digest.length = 32) : Inv ms (newCodec ms) := by
  refine ⟨rfl, by simp [newCodec], ?_, by simp [newCodec]⟩
  intro i m hm
  have : (newCodec ms).heap.getD (i + 1) [] = m.digest := by
    simp [newCodec, List.getD_eq_getElem?_getD, hm]
  rw [this]
  exact ⟨hd m (List.mem_of_getElem? hm), rfl⟩

theorem method_slice {ms : List Method} {st : St} (h : Inv ms st) {i : ℕ} (hi : i < ms.length) :
    (⟨i + 1, 4⟩ : Slice).arr < st.heap.length ∧ 4 ≤ (st.heap.getD (i + 1) []).length ∧
    (1 ≤ i + 1 → i + 1 ≤ ms.length → 4 ≤ 4) := by
  have := (h.own i ms[i] (List.getElem?_eq_getElem hi)).1
  refine ⟨by have := h.size; show i + 1 < _; omega, by omega, fun _ _ => le_refl _⟩

theorem nil_ok {ms : List Method} {st : St} (h : Inv ms st) : nilSlice.arr < st.heap.length ∧
    nilSlice.len ≤ (st.heap.getD nilSlice.arr []).length ∧ (1 ≤ nilSlice.arr → nilSlice.arr ≤ ms.length → 4 ≤ nilSlice.len) :=
  ⟨inv_nil h, by simp [nilSlice], by simp [nilSlice]⟩

theorem inv_push {ms : List Method} {st : St} (h : Inv ms st) (s : Slice)
    (hs : s.arr < st.heap.length ∧ s.len ≤ (st.heap.getD s.arr []).length ∧ (1 ≤ s.arr → s.arr ≤ ms.length → 4 ≤ s.len)) :
    Inv ms { st with results := st.results ++ [s] } := by
  refine ⟨h.nil, h.size, h.own, ?_⟩
  intro t ht
  rcases List.mem_append.1 ht with ht | ht
  · exact h.valid t ht
  · rw [List.mem_singleton] at ht; subst ht; exact hs

theorem getD_valid {ms : List Method} {st : St} (h : Inv ms st) (k : ℕ) :
    (st.results.getD k nilSlice).arr < st.heap.length ∧
    (st.results.getD k nilSlice).len ≤ (st.heap.getD (st.results.getD k nilSlice).arr []).length ∧
    (1 ≤ (st.results.getD k nilSlice).arr → (st.results.getD k nilSlice).arr ≤ ms.length →
      4 ≤ (st.results.getD k nilSlice).len) := by
  rw [List.getD_eq_getElem?_getD]
  cases hk : st.results[k]? with
  | none => exact nil_ok h
  | some s => exact h.valid s (List.mem_of_getElem? hk)

theorem inv_codec {ms : List Method} (pack : String → List α → Option (List ℕ)) {st : St} (h : Inv ms st) (op : Op α)
    (hop : ∀ k i b, op = .clientSet k i b → ms.length < (st.results.getD k nilSlice).arr ∨
      (st.results.getD k nilSlice).len = 0) : Inv ms (step ms pack st op) := by
  cases op with
  | selector name =>
    refine inv_push h _ ?_
    cases hf : find ms name with
    | none => exact nil_ok h
    | some i => obtain ⟨m, -, -, hi⟩ := find_lt hf; exact method_slice h hi
  | encode name args extra =>
    simp only [step, encodeCalldata]
    cases hf : find ms name with
    | none => exact inv_push h _ (nil_ok h)
    | some i =>
      obtain ⟨m, -, -, hi⟩ := find_lt hf
      cases pack name args with
      | none => exact inv_push h _ (nil_ok h)
      | some bs => exact inv_append h _ bs extra (method_slice h hi)
  | clientAppend k bs extra => exact inv_append h _ bs extra (getD_valid h k)
  | clientSet k i b =>
    simp only [step]
    obtain ⟨v1, v2, v3⟩ := getD_valid h k
    have hk := hop k i b rfl
    generalize st.results.getD k nilSlice = s at *
    split
    · rename_i hi
      have hs : ms.length < s.arr := by rcases hk with h' | h' <;> omega
      refine ⟨?_, ?_, ?_, ?_⟩
      · show (st.heap.set _ _).getD 0 [] = []
        rw [getD_set _ _ _ _ v1, if_neg (by omega), h.nil]
      · simpa using h.size
      · intro j m hm
        have hj : j < ms.length := (List.getElem?_eq_some_iff.1 hm).1
        show ((st.heap.set _ _).getD (j + 1) []).length = 32 ∧ ((st.heap.set _ _).getD (j + 1) []).take 4 = _
        rw [getD_set _ _ _ _ v1, if_neg (by omega)]
        exact h.own j m hm
      · intro t ht
        obtain ⟨w1, w2, w3⟩ := h.valid t ht
        refine ⟨by simpa using w1, ?_, w3⟩
        show t.len ≤ ((st.heap.set _ _).getD t.arr []).length
        rw [getD_set _ _ _ _ v1]
        split
        · rename_i e; rw [List.length_set, ← e]; exact w2
        · exact w2
    · exact h

/-- A history in which callers append to whatever slices they like, but overwrite bytes only of slices that do not show the
memory of a selector. -/
def Polite (ms : List Method) (pack : String → List α → Option (List ℕ)) : St → List (Op α) → Prop
  | _, [] => True
  | st, op :: ops => (∀ k i b, op = .clientSet k i b → ms.length < (st.results.getD k nilSlice).arr ∨
      (st.results.getD k nilSlice).len = 0) ∧ Polite ms pack (step ms pack st op) ops

theorem inv_run {ms : List Method} (pack : String → List α → Option (List ℕ)) (ops : List (Op α)) : ∀ (st : St),
    Inv ms st → Polite ms pack st ops → Inv ms (run ms pack st ops) := by
  induction ops with
  | nil => intro st h _; exact h
  | cons op ops ih => intro st h hp; exact ih _ (inv_codec pack h op hp.1) hp.2

/-- The slice handed out last. -/
def lastResult (st : St) : List ℕ := content st.heap (st.results.getLastD nilSlice)

theorem encode_now {ms : List Method} (pack : String → List α → Option (List ℕ)) {st : St} (h : Inv ms st) (name : String)
    (args : List α) (extra : ℕ) (bs : List ℕ) (hname : ∃ m ∈ ms, m.name = name) (hp : pack name args = some bs) :
    lastResult (step ms pack st (.encode name args extra)) = selectorOf ms name ++ bs := by
  cases hf : find ms name with
  | none =>
    obtain ⟨m, hm, hn⟩ := hname
    have := find_none hf
    rw [List.find?_eq_none] at this
    exact absurd (by simp [hn]) (this m hm)
  | some i =>
    obtain ⟨m, hm, hm', hi⟩ := find_lt hf
    obtain ⟨a, b, -⟩ := method_slice h hi
    have hc := (append_spec st.heap ⟨i + 1, 4⟩ bs extra a b).1
    simp only [step, encodeCalldata, hf, hp, lastResult, List.getLastD_concat]
    rw [hc, content, (h.own i m hm).2, selectorOf, hm']
    rfl

/-- C77. In every history of codec calls and of appends that callers make to slices they were given, with overwrites only
outside the selectors' memory, and whatever spare capacity the runtime leaves: `EncodeCalldata` returns the selector followed by
the packed arguments. -/
theorem C77_encode (ms : List Method) (pack : String → List α → Option (List ℕ)) (hs : Setting ms pack)
    (ops : List (Op α)) (hpol : Polite ms pack (newCodec ms) ops) (name : String) (args : List α) (extra : ℕ)
    (bs : List ℕ) (hname : ∃ m ∈ ms, m.name = name) (hp : pack name args = some bs) :
    lastResult (run ms pack (newCodec ms) (ops ++ [.encode name args extra])) = selectorOf ms name ++ bs := by
  rw [run, List.foldl_append]
  exact encode_now pack (inv_run pack ops _ (inv_init hs.digest) hpol) name args extra bs hname hp

/-- C77. A missing method or arguments that cannot be packed give no calldata. -/
theorem C77_encode_error (ms : List Method) (pack : String → List α → Option (List ℕ)) (st : St) (name : String)
    (args : List α) (extra : ℕ) (h : (∀ m ∈ ms, m.name ≠ name) ∨ pack name args = none) :
    lastResult (step ms pack st (.encode name args extra)) = [] := by
  have hn : content st.heap nilSlice = [] := by simp [content, nilSlice]
  simp only [step, encodeCalldata]
  cases hf : find ms name with
  | none => simpa [lastResult] using hn
  | some i =>
    rcases h with h | h
    · obtain ⟨m, hm, hm', -⟩ := find_lt hf
      have := List.find?_some hm'
      exact absurd (by simpa using this) (h m (List.mem_of_getElem? hm))
    · simpa [lastResult, h] using hn

/-- Only codec calls. -/
def Op.IsCodec : Op α → Prop
  | .selector _ => True
  | .encode .. => True
  | _ => False

/-- C77. Codec calls never change a slice that was handed out before: packed arguments are empty or do not fit behind the
selector. -/
theorem C77_results_stable (ms : List Method) (pack : String → List α → Option (List ℕ)) (hs : Setting ms pack)
    (ops : List (Op α)) (hpol : Polite ms pack (newCodec ms) ops) (more : List (Op α)) (hmore : ∀ op ∈ more, op.IsCodec)
    (k : ℕ) (hk : k < (run ms pack (newCodec ms) ops).results.length) :
    content (run ms pack (newCodec ms) (ops ++ more)).heap ((run ms pack (newCodec ms) (ops ++ more)).results.getD k nilSlice) =
      content (run ms pack (newCodec ms) ops).heap ((run ms pack (newCodec ms) ops).results.getD k nilSlice) := by
  have hinv := inv_run pack ops _ (inv_init hs.digest) hpol
  rw [show run ms pack (newCodec ms) (ops ++ more) = run ms pack (run ms pack (newCodec ms) ops) more by
    simp [run, List.foldl_append]]
  generalize run ms pack (newCodec ms) ops = st at *
  clear hpol
  induction more generalizing st with
  | nil => rfl
  | cons op more ih =>
    have hop := hmore op (by simp)
    have hstep : Inv ms (step ms pack st op) := by
      refine inv_codec pack hinv op ?_
      rintro k i b rfl; exact absurd hop (by simp [Op.IsCodec])
    have hpush : ∀ (h' : Heap) (s : Slice), (∀ i < st.heap.length, h'.getD i [] = st.heap.getD i []) →
        k < (st.results ++ [s]).length ∧
        content h' ((st.results ++ [s]).getD k nilSlice) = content st.heap (st.results.getD k nilSlice) := by
      intro h' s hh
      refine ⟨by simp; omega, ?_⟩
      have e : (st.results ++ [s]).getD k nilSlice = st.results.getD k nilSlice := by
        simp [List.getD_eq_getElem?_getD, List.getElem?_append_left hk]
      rw [e, content, content, hh _ (getD_valid hinv k).1]
    have key : k < (step ms pack st op).results.length ∧
        content (step ms pack st op).heap ((step ms pack st op).results.getD k nilSlice) =
          content st.heap (st.results.getD k nilSlice) := by
      cases op with
      | clientAppend => exact absurd hop (by simp [Op.IsCodec])
      | clientSet => exact absurd hop (by simp [Op.IsCodec])
      | selector name => exact hpush _ _ (fun _ _ => rfl)
      | encode name args extra =>
        simp only [step, encodeCalldata]
        cases hf : find ms name with
        | none => exact hpush _ _ (fun _ _ => rfl)
        | some i =>
          obtain ⟨m, hm, -, hi⟩ := find_lt hf
          cases hp : pack name args with
          | none => exact hpush _ _ (fun _ _ => rfl)
          | some bs =>
            have h32 := (hinv.own i m hm).1
            refine hpush _ _ ?_
            intro j hj
            unfold append
            dsimp only
            split
            · rename_i hc
              rw [h32] at hc
              obtain ⟨c, hc'⟩ := hs.words _ _ _ hp
              have hbs : bs = [] := by
                rw [← List.length_eq_zero_iff]; omega
              subst hbs
              rw [getD_set _ _ _ _ (by have := hinv.size; omega)]
              split
              · rename_i e; subst e; simp
              · rfl
            · exact getD_append _ _ _ hj
    rw [show run ms pack st (op :: more) = run ms pack (step ms pack st op) more from rfl,
      ih (fun o ho => hmore o (by simp [ho])) _ key.1 hstep, key.2]

/-- C77. Calldata round trip: `DecodeCalldata` of the bytes behind the selector gives the arguments back, if `Unpack` undoes
`Pack`. -/
theorem C77_decode (ms : List Method) (unpack : String → List ℕ → Option (List α))
    (hd : ∀ m ∈ ms, m.digest.length = 32) (name : String) (args : List α) (bs : List ℕ) (hname : ∃ m ∈ ms, m.name = name)
    (hu : unpack name bs = some args) :
    decodeCalldata ms unpack name ((selectorOf ms name ++ bs).drop 4) args.length = some args := by
  cases hf : find ms name with
  | none =>
    obtain ⟨m, hm, hn⟩ := hname
    have := find_none hf
    rw [List.find?_eq_none] at this
    exact absurd (by simp [hn]) (this m hm)
  | some i =>
    obtain ⟨m, hm, hm', hi⟩ := find_lt hf
    have h4 : (selectorOf ms name).length = 4 := by
      simp [selectorOf, hm', hd m (List.mem_of_getElem? hm)]
    rw [List.drop_append_of_le_length (by omega), List.drop_of_length_le (by omega), List.nil_append]
    simp [decodeCalldata, hf, hu]

/-- C77. `DecodeCalldata` reports an error, and returns no values, exactly when the method does not exist, the data does not
unpack or the number of references is not the number of values; otherwise it returns the unpacked values. -/
theorem C77_decode_iff (ms : List Method) (unpack : String → List ℕ → Option (List α)) (name : String) (data : List ℕ)
    (ptrs : ℕ) (vs : List α) :
    decodeCalldata ms unpack name data ptrs = some vs ↔
      (∃ m ∈ ms, m.name = name) ∧ unpack name data = some vs ∧ vs.length = ptrs := by
  cases hf : find ms name with
  | none =>
    have := find_none hf
    rw [List.find?_eq_none] at this
    refine ⟨fun h => by simp [decodeCalldata, hf] at h, fun h => ?_⟩
    obtain ⟨m, hm, hn⟩ := h.1
    exact absurd (by simp [hn]) (this m hm)
  | some i =>
    obtain ⟨m, hm, hm', -⟩ := find_lt hf
    have hex : ∃ m ∈ ms, m.name = name :=
      ⟨m, List.mem_of_getElem? hm, by have := List.find?_some hm'; simpa using this⟩
    cases hu : unpack name data with
    | none => simp [decodeCalldata, hf, hu]
    | some ws =>
      by_cases hw : ws.length = ptrs
      · simp only [decodeCalldata, hf, hu, Option.bind_eq_bind, Option.bind_some, hw, ne_eq, not_true, if_false]
        constructor
        · intro h; cases h; exact ⟨hex, rfl, hw⟩
        · intro h; exact h.2.1
      · simp only [decodeCalldata, hf, hu, Option.bind_eq_bind, Option.bind_some, ne_eq, hw, not_false_eq_true, if_true]
        constructor
        · intro h; cases h
        · rintro ⟨-, h, h'⟩; cases h; exact absurd h' hw

theorem take_set_aux (i : ℕ) (mem : List (Option α)) (vals : List α) (h : i < mem.length) (hv : i < vals.length) :
    (mem.set i vals[i]?).take (i + 1) = mem.take i ++ [some vals[i]] := by
  rw [List.take_add_one, List.take_set_of_le (le_refl i), List.getElem?_set_self h, List.getElem?_eq_getElem hv]
  rfl

theorem storeLoop_all (vals : List α) (n : ℕ) : ∀ (i : ℕ) (mem : List (Option α)), mem.length = i + n → i + n ≤ vals.length →
    storeLoop vals (List.replicate n true) i mem = (mem.take i ++ ((vals.drop i).take n).map some, true) := by
  induction n with
  | zero => intro i mem h _; simp [storeLoop, List.take_of_length_le (show mem.length ≤ i by omega)]
  | succ n ih =>
    intro i mem h hv
    rw [List.replicate_succ, storeLoop, if_pos rfl, ih (i + 1) _ (by simp; omega) (by omega)]
    rw [take_set_aux i mem vals (by omega) (by omega)]
    simp only [Prod.mk.injEq, and_true]
    rw [List.append_assoc]
    congr 1
    rw [List.drop_eq_getElem_cons (show i < vals.length by omega), List.take_succ_cons, List.map_cons]
    simp

/-- C77. `DecodeReturnData` stores through every reference the value that `EncodeReturnData` was given for it, and returns nil, if
`Outputs.Unpack` undoes `Outputs.Pack`. -/
theorem C77_return_roundtrip (ms : List Method) (packOut : String → List α → Option (List ℕ))
    (unpackOut : String → List ℕ → Option (List α)) (name : String) (vals : List α) (data : List ℕ)
    (henc : encodeReturnData ms packOut name vals = some data)
    (hu : ∀ bs, packOut name vals = some bs → unpackOut name bs = some vals) :
    decodeReturnData ms unpackOut name data (List.replicate vals.length true) = (vals.map some, true) := by
  unfold encodeReturnData at henc
  cases hf : find ms name with
  | none => rw [hf] at henc; cases henc
  | some i =>
    rw [hf] at henc
    simp only [Option.bind_eq_bind, Option.bind_some] at henc
    rw [decodeReturnData, hf]
    dsimp only
    rw [hu data henc, decodeArgs, if_neg (by simp), storeLoop_all vals vals.length 0 _ (by simp) (by simp)]
    simp

theorem storeLoop_ok (vals : List α) : ∀ (ptrs : List Bool) (i : ℕ) (mem : List (Option α)),
    (storeLoop vals ptrs i mem).2 = true ↔ ∀ b ∈ ptrs, b = true := by
  intro ptrs
  induction ptrs with
  | nil => intro i mem; simp [storeLoop]
  | cons b rest ih =>
    intro i mem
    cases b with
    | false => simp [storeLoop]
    | true => simp [storeLoop, ih]

/-- C77. `DecodeReturnData` returns nil exactly when the method exists, the data unpacks, there are as many references as values and
every reference is a pointer. -/
theorem C77_decode_return_iff (ms : List Method) (unpackOut : String → List ℕ → Option (List α)) (name : String)
    (data : List ℕ) (ptrs : List Bool) :
    (decodeReturnData ms unpackOut name data ptrs).2 = true ↔
      (∃ m ∈ ms, m.name = name) ∧ (∃ vs, unpackOut name data = some vs ∧ vs.length = ptrs.length) ∧ ∀ b ∈ ptrs, b = true := by
  unfold decodeReturnData
  cases hf : find ms name with
  | none =>
    have := find_none hf
    rw [List.find?_eq_none] at this
    refine ⟨fun h => by simp at h, fun h => ?_⟩
    obtain ⟨m, hm, hn⟩ := h.1
    exact absurd (by simp [hn]) (this m hm)
  | some i =>
    obtain ⟨m, hm, hm', -⟩ := find_lt hf
    have hex : ∃ m ∈ ms, m.name = name :=
      ⟨m, List.mem_of_getElem? hm, by have := List.find?_some hm'; simpa using this⟩
    dsimp only
    unfold decodeArgs
    cases hu : unpackOut name data with
    | none => simp
    | some vs =>
      dsimp only
      by_cases hl : vs.length = ptrs.length
      · rw [if_neg (by simp [hl]), storeLoop_ok]
        exact ⟨fun h => ⟨hex, ⟨vs, rfl, hl⟩, h⟩, fun h => h.2.2⟩
      · rw [if_pos hl]
        refine ⟨fun h => by simp at h, fun h => ?_⟩
        obtain ⟨ws, hw, hlen⟩ := h.2.1
        cases hw
        exact absurd hlen hl

/-! ## Where the expected property fails -/

/-- C77, disagreement. A failing decode is not atomic: when the last reference is not a pointer, an error is returned after all other
references have been overwritten. -/
theorem C77_decode_partial_write (vals : List α) (v : α) :
    decodeArgs (some (vals ++ [v])) (List.replicate vals.length true ++ [false]) = (vals.map some ++ [none], false) := by
  have key : ∀ (n i : ℕ) (mem : List (Option α)), mem.length = i + n + 1 → i + n + 1 ≤ (vals ++ [v]).length →
      storeLoop (vals ++ [v]) (List.replicate n true ++ [false]) i mem =
        (mem.take i ++ (((vals ++ [v]).drop i).take n).map some ++ mem.drop (i + n), false) := by
    intro n
    induction n with
    | zero => intro i mem h _; simp [storeLoop]
    | succ n ih =>
      intro i mem h hv
      rw [List.replicate_succ, List.cons_append, storeLoop, if_pos rfl, ih (i + 1) _ (by simp; omega) (by omega)]
      rw [take_set_aux i mem (vals ++ [v]) (by omega) (by omega),
        List.drop_eq_getElem_cons (show i < (vals ++ [v]).length by omega), List.take_succ_cons, List.map_cons]
      simp only [Prod.mk.injEq, and_true]
      rw [List.drop_set_of_lt (by omega), show i + 1 + n = i + (n + 1) by omega]
      simp
  unfold decodeArgs
  dsimp only
  rw [if_neg (by simp), key vals.length 0 _ (by simp) (by simp)]
  simp

/-- The value of 32 bytes, big-endian. -/
def beVal (bs : List ℕ) : ℕ := bs.foldl (fun a b => 256 * a + b) 0

theorem beVal_append (a b : List ℕ) : beVal (a ++ b) = beVal a * 256 ^ b.length + beVal b := by
  have : ∀ (b : List ℕ) (x : ℕ), b.foldl (fun a b => 256 * a + b) x = x * 256 ^ b.length + beVal b := by
    intro b
    induction b with
    | nil => intro x; simp [beVal]
    | cons c cs ih =>
      intro x
      have e : beVal (c :: cs) = (256 * 0 + c) * 256 ^ cs.length + beVal cs := ih _
      rw [List.foldl_cons, ih, e, List.length_cons]
      ring
  rw [beVal, List.foldl_append, this]; rfl

/-- `Unpack` for one `uint256` (go-ethereum `toGoType`): the first 32 bytes; fewer are an error. -/
def unpackUint256 (data : List ℕ) : Option (List ℕ) := if data.length < 32 then none else some [beVal (data.take 32)]

/-- C77, disagreement. `DecodeCalldata` does not skip the selector: on the calldata that `EncodeCalldata` produces for one
`uint256` it reports no error and returns `selector·2^224 + v/2^32` instead of `v`. -/
theorem C77_decode_of_calldata_wrong (ms : List Method) (hd : ∀ m ∈ ms, m.digest.length = 32) (name : String)
    (hname : ∃ m ∈ ms, m.name = name) (hi lo : List ℕ) (hhi : hi.length = 28) (hlo : lo.length = 4) :
    decodeCalldata ms (fun _ => unpackUint256) name (selectorOf ms name ++ (hi ++ lo)) 1 =
      some [beVal (selectorOf ms name) * 256 ^ 28 + beVal hi] := by
  cases hf : find ms name with
  | none =>
    obtain ⟨m, hm, hn⟩ := hname
    have := find_none hf
    rw [List.find?_eq_none] at this
    exact absurd (by simp [hn]) (this m hm)
  | some i =>
    obtain ⟨m, hm, hm', hi'⟩ := find_lt hf
    have h4 : (selectorOf ms name).length = 4 := by
      simp [selectorOf, hm', hd m (List.mem_of_getElem? hm)]
    have ht : (selectorOf ms name ++ (hi ++ lo)).take 32 = selectorOf ms name ++ hi := by
      rw [← List.append_assoc, List.take_append_of_le_length (by simp; omega), List.take_of_length_le (by simp; omega)]
    have hl : ¬ (selectorOf ms name ++ (hi ++ lo)).length < 32 := by simp; omega
    simp only [decodeCalldata, hf, unpackUint256, if_neg hl, ht, beVal_append, hhi, Option.bind_eq_bind, Option.bind_some]
    rfl

/-- C77, disagreement. The selector handed out, by `Selector` or by `EncodeCalldata` without arguments, is the codec's own
memory: one byte overwritten by a caller changes the calldata of every later call. -/
theorem C77_overwrite_corrupts (ms : List Method) (pack : String → List α → Option (List ℕ)) (hs : Setting ms pack)
    (name : String) (hname : ∃ m ∈ ms, m.name = name) (args : List α) (bs : List ℕ) (hp : pack name args = some bs)
    (b extra : ℕ) :
    lastResult (run ms pack (newCodec ms) [.selector name, .clientSet 0 0 b, .encode name args extra]) =
      (selectorOf ms name).set 0 b ++ bs := by
  cases hf : find ms name with
  | none =>
    obtain ⟨m, hm, hn⟩ := hname
    have := find_none hf
    rw [List.find?_eq_none] at this
    exact absurd (by simp [hn]) (this m hm)
  | some i =>
    obtain ⟨m, hm, hm', hi⟩ := find_lt hf
    have h32 : m.digest.length = 32 := hs.digest m (List.mem_of_getElem? hm)
    have hg : (newCodec ms).heap.getD (i + 1) [] = m.digest := by
      simp [newCodec, List.getD_eq_getElem?_getD, hm]
    have hlen : i + 1 < (newCodec ms).heap.length := by simp [newCodec]; omega
    have hst : run ms pack (newCodec ms) [.selector name, .clientSet 0 0 b] =
        ⟨(newCodec ms).heap.set (i + 1) (m.digest.set 0 b), [⟨i + 1, 4⟩]⟩ := by
      simp [run, step, selector, hf, newCodec, List.getD_eq_getElem?_getD, hm]
    have hg' : ((newCodec ms).heap.set (i + 1) (m.digest.set 0 b)).getD (i + 1) [] = m.digest.set 0 b := by
      rw [getD_set _ _ _ _ hlen, if_pos rfl]
    rw [show run ms pack (newCodec ms) [.selector name, .clientSet 0 0 b, .encode name args extra] =
      step ms pack (run ms pack (newCodec ms) [.selector name, .clientSet 0 0 b]) (.encode name args extra) from rfl, hst]
    have hc := (append_spec ((newCodec ms).heap.set (i + 1) (m.digest.set 0 b)) ⟨i + 1, 4⟩ bs extra (by simpa using hlen)
      (by show 4 ≤ _; rw [hg']; simp [h32])).1
    simp only [step, encodeCalldata, hf, hp, lastResult, List.getLastD_concat]
    rw [hc, content, hg', selectorOf, hm', List.take_set]
    rfl

/-- C77, disagreement. `Selector` returns a slice with spare capacity: two callers that append up to 28 bytes to it write to the
same memory, and the first one's result turns into the second one's. -/
theorem C77_append_corrupts (ms : List Method) (pack : String → List α → Option (List ℕ)) (hs : Setting ms pack)
    (name : String) (hname : ∃ m ∈ ms, m.name = name) (x y : List ℕ) (hx : x.length ≤ 28) (hxy : y.length = x.length)
    (e1 e2 : ℕ) :
    let st1 := run ms pack (newCodec ms) [.selector name, .clientAppend 0 x e1]
    let st2 := run ms pack (newCodec ms) [.selector name, .clientAppend 0 x e1, .selector name, .clientAppend 2 y e2]
    content st1.heap (st1.results.getD 1 nilSlice) = selectorOf ms name ++ x ∧
    content st2.heap (st2.results.getD 1 nilSlice) = selectorOf ms name ++ y := by
  cases hf : find ms name with
  | none =>
    obtain ⟨m, hm, hn⟩ := hname
    have := find_none hf
    rw [List.find?_eq_none] at this
    exact absurd (by simp [hn]) (this m hm)
  | some i =>
    obtain ⟨m, hm, hm', hi⟩ := find_lt hf
    have h32 : m.digest.length = 32 := hs.digest m (List.mem_of_getElem? hm)
    have hlen : i + 1 < (newCodec ms).heap.length := by simp [newCodec]; omega
    have hg : (newCodec ms).heap.getD (i + 1) [] = m.digest := by
      simp [newCodec, List.getD_eq_getElem?_getD, hm]
    have happ : ∀ (h : Heap) (a z : List ℕ) (e : ℕ), h.getD (i + 1) [] = a → a.length = 32 → z.length ≤ 28 →
        append h ⟨i + 1, 4⟩ z e = (h.set (i + 1) (a.take 4 ++ z ++ a.drop (4 + z.length)), ⟨i + 1, 4 + z.length⟩) := by
      intro h a z e h1 h2 h3
      unfold append
      simp only [h1]
      rw [if_pos (by omega)]
    have hs1 : selectorOf ms name = m.digest.take 4 := by simp [selectorOf, hm']
    obtain ⟨A, hA⟩ : ∃ A, A = m.digest.take 4 ++ x ++ m.digest.drop (4 + x.length) := ⟨_, rfl⟩
    have hAl : A.length = 32 := by rw [hA]; simp; omega
    have hA4 : A.take 4 = m.digest.take 4 := by
      rw [hA, List.append_assoc, List.take_append_of_le_length (by simp; omega), List.take_of_length_le (by simp)]
    have hH : ((newCodec ms).heap.set (i + 1) A).getD (i + 1) [] = A := by rw [getD_set _ _ _ _ hlen, if_pos rfl]
    have r1 : run ms pack (newCodec ms) [.selector name, .clientAppend 0 x e1] =
        ⟨(newCodec ms).heap.set (i + 1) A, [⟨i + 1, 4⟩, ⟨i + 1, 4 + x.length⟩]⟩ := by
      have e0 : (newCodec ms).results = [] := rfl
      simp only [run, List.foldl_cons, List.foldl_nil, step, selector, hf, e0, List.nil_append, List.getD_cons_zero,
        happ _ _ x e1 hg h32 hx, ← hA, List.cons_append]
    have r2 : run ms pack (newCodec ms) [.selector name, .clientAppend 0 x e1, .selector name, .clientAppend 2 y e2] =
        ⟨((newCodec ms).heap.set (i + 1) A).set (i + 1) (A.take 4 ++ y ++ A.drop (4 + y.length)),
          [⟨i + 1, 4⟩, ⟨i + 1, 4 + x.length⟩, ⟨i + 1, 4⟩, ⟨i + 1, 4 + y.length⟩]⟩ := by
      rw [show run ms pack (newCodec ms) [.selector name, .clientAppend 0 x e1, .selector name, .clientAppend 2 y e2] =
        run ms pack (run ms pack (newCodec ms) [.selector name, .clientAppend 0 x e1]) [.selector name, .clientAppend 2 y e2]
        from rfl, r1]
      simp only [run, List.foldl_cons, List.foldl_nil, step, selector, hf, List.cons_append, List.nil_append,
        List.getD_cons_succ, List.getD_cons_zero, happ _ _ y e2 hH hAl (by omega)]
    have t : ∀ (z : List ℕ) (c : List ℕ), (m.digest.take 4 ++ z ++ c).take (4 + z.length) = m.digest.take 4 ++ z := by
      intro z c
      rw [List.take_append_of_le_length (by simp; omega), List.take_of_length_le (by simp)]
    refine ⟨?_, ?_⟩
    · rw [r1, hs1]
      simp only [content, List.getD_cons_succ, List.getD_cons_zero, hH]
      rw [hA, t]
    · rw [r2, hs1]
      simp only [content, List.getD_cons_succ, List.getD_cons_zero]
      rw [getD_set _ _ _ _ (by simpa using hlen), if_pos rfl, hA4, ← hxy, t]

/-! ## Non-vacuity -/

/-- A codec with two methods, one argument word each at most. -/
example : Setting [⟨"totalSupply", List.replicate 32 0x18⟩, ⟨"burn", List.replicate 32 0x42⟩]
    (fun _ (a : List ℕ) => some (a.flatMap fun v => List.replicate 32 v)) := by
  refine ⟨by simp, ?_⟩
  rintro n a bs h
  cases h
  induction a with
  | nil => simp
  | cons c cs ih =>
    rw [List.flatMap_cons, List.length_append, List.length_replicate]
    omega

/-- A polite history with an append to a selector and an overwrite of packed calldata. -/
example : Polite [⟨"totalSupply", List.replicate 32 0x18⟩, ⟨"burn", List.replicate 32 0x42⟩]
    (fun _ (a : List ℕ) => some (a.flatMap fun v => List.replicate 32 v))
    (newCodec [⟨"totalSupply", List.replicate 32 0x18⟩, ⟨"burn", List.replicate 32 0x42⟩])
    [.selector "totalSupply", .clientAppend 0 [1, 2, 3] 0, .encode "burn" [7] 5, .clientSet 2 0 9] := by
  refine ⟨by simp, by simp, by simp, ?_, trivial⟩
  rintro k i b h
  cases h
  left
  decide

/-- A method with two outputs whose values are bytes, packed as they are. -/
example : decodeReturnData [⟨"f", List.replicate 32 7⟩] (fun _ bs => some bs) "f" [3, 4] [true, true] = ([some 3, some 4], true) :=
  C77_return_roundtrip [⟨"f", List.replicate 32 7⟩] (fun _ vs => some vs) (fun _ bs => some bs) "f" [3, 4] [3, 4] rfl
    (by intro bs h; cases h; rfl)

end Verif.Common.Codec
