import Verif.Rlp.ListProps

/-! # Property theorems C90 for `LeftShiftRlpArrayPrefix`: removing the header of an RLP list -/

namespace Verif.Rlp
open Verif.Api Verif.Spec.Rlp

variable {p : ℕ} [Fact p.Prime]

/-- Is `x` the payload of a list, moved to the front, with its length in nibbles? -/
def IsPayload (out : List (F p) × F p) (ns : List ℕ) : Prop :=
  out.2 = ((payLen (cyc ns) 0 : ℕ) : F p) ∧
    ∀ j < ns.length, out.1[j]? = some ((cyc ns (listHdr (byteAt (cyc ns) 0) + j) : ℕ) : F p)

/-- **C90.** `LeftShiftRlpArrayPrefix` is satisfiable exactly on strings that begin with a list header whose length field, and whose
header as a whole, are within the gadget's limits, and then it returns the announced length and the string without the header. -/
theorem C90_exact (hp : 2 ^ 128 < p) (a : ArrayCheck) (ns : List ℕ) (hnib : ∀ x ∈ ns, x < 16) (hlen : ns.length = a.maxHexLen)
    (hroom : 2 + a.arrayPrefixMaxHexLen ≤ a.maxHexLen) (hsmall : a.arrayPrefixMaxHexLen < 2 ^ 60) :
    ((leftShiftRlpArrayPrefix a (ns.map (Nat.cast : ℕ → F p))).isSome ↔
      isList (cyc ns) 0 ∧ 0 < a.arrayPrefixMaxHexLen ∧ listHdr (byteAt (cyc ns) 0) ≤ 2 + a.arrayPrefixMaxHexLen ∧
        listHdr (byteAt (cyc ns) 0) < 2 ^ a.arrayPrefixMaxHexLen.size) ∧
    ∀ out, leftShiftRlpArrayPrefix a (ns.map (Nat.cast : ℕ → F p)) = some out → IsPayload out ns := by
  have hc : CellsOf (ns.map (Nat.cast : ℕ → F p)) a.maxHexLen (cyc ns) := cells_cyc hnib hlen (by omega)
  have hh := listHdr_eq (byteAt (cyc ns) 0)
  have hget : ∀ j < 2 + a.arrayPrefixMaxHexLen, (ns.map (Nat.cast : ℕ → F p))[j]? = some ((cyc ns j : ℕ) : F p) := by
    intro j hj
    have := hc.get j
    rwa [Nat.mod_eq_of_lt (by omega)] at this
  have h60 : (2 : ℕ) ^ 60 < 2 ^ 128 := by norm_num
  have h61 : (2 : ℕ) ^ 61 < 2 ^ 128 := by norm_num
  have hv := byteAt_lt (cyc ns) hc.nib 0
  have hle : listHdr (byteAt (cyc ns) 0) ≤ 18 := by unfold listHdr; split_ifs <;> omega
  have hval : leftShiftRlpArrayPrefix a (ns.map (Nat.cast : ℕ → F p)) =
      if (0 < a.arrayPrefixMaxHexLen ∧ ahPrefix1 (byteAt (cyc ns) 0) ≤ a.arrayPrefixMaxHexLen) ∧ 0xc0 ≤ byteAt (cyc ns) 0 ∧
          listHdr (byteAt (cyc ns) 0) < 2 ^ a.arrayPrefixMaxHexLen.size then
        some ((ns.map (Nat.cast : ℕ → F p)).rotate (listHdr (byteAt (cyc ns) 0)), ((ahTotal (cyc ns) : ℕ) : F p)) else none := by
    unfold leftShiftRlpArrayPrefix
    rw [arrayHeader_eq (by omega) (cyc ns) hc.nib _ _ hget (by omega)]
    by_cases h1 : 0 < a.arrayPrefixMaxHexLen ∧ ahPrefix1 (byteAt (cyc ns) 0) ≤ a.arrayPrefixMaxHexLen
    · rw [if_pos h1]
      simp only [Option.bind_eq_bind, Option.bind_some]
      by_cases h2 : 0xc0 ≤ byteAt (cyc ns) 0
      · rw [if_pos h2, assertEq, if_pos rfl]
        simp only [Option.bind_some]
        have e : (2 : F p) + ((ahPrefix1 (byteAt (cyc ns) 0) : ℕ) : F p) = ((listHdr (byteAt (cyc ns) 0) : ℕ) : F p) := by
          rw [hh]; push_cast; ring
        have hsh := shift_eq_local (p := p) (ns.map (Nat.cast : ℕ → F p)) a.maxHexLen 0 a.arrayPrefixMaxHexLen (by simp [hlen])
          (listHdr (byteAt (cyc ns) 0)) h1.1 hsmall (by omega) (by omega)
        rw [List.rotate_zero, Nat.zero_add] at hsh
        rw [e, hsh]
        by_cases h3 : listHdr (byteAt (cyc ns) 0) < 2 ^ a.arrayPrefixMaxHexLen.size
        · rw [if_pos h3, if_pos ⟨h1, h2, h3⟩]; rfl
        · rw [if_neg h3, if_neg (fun h => h3 h.2.2)]; rfl
      · have h01 : (0 : F p) ≠ 1 := zero_ne_one
        rw [if_neg h2, assertEq, if_neg h01, if_neg (fun h => h2 h.2.1)]; rfl
    · rw [if_neg h1, if_neg (fun h => h1 h.1)]; rfl
  rw [hval]
  constructor
  · constructor
    · intro h
      split at h
      · next h' => exact ⟨h'.2.1, h'.1.1, by omega, h'.2.2⟩
      · exact absurd h (by simp)
    · rintro ⟨h1, h2, h3, h4⟩
      rw [if_pos ⟨⟨h2, by omega⟩, h1, h4⟩]; rfl
  · intro out ho
    split at ho
    · next h' =>
      have ho := (Option.some.inj ho).symm
      subst ho
      refine ⟨?_, fun j hj => hc.rot _ j (by omega)⟩
      dsimp only
      rw [ahTotal, if_neg (by omega)]
    · cases ho

/-- **C90.** For every list (of any items) that fits, followed by any padding, the gadget returns the items and their length, provided the
header is shorter than `2^⌈log₂(limit+1)⌉` nibbles. -/
theorem C90_complete (hp : 2 ^ 128 < p) (a : ArrayCheck) (items : List (List ℕ)) (hb : ∀ enc ∈ items, ∀ b ∈ enc, b < 256)
    (pad : List ℕ) (hpad : ∀ x ∈ pad, x < 16) (hsize : (nibblesOf (encodeList items) ++ pad).length = a.maxHexLen)
    (hroom : 2 + a.arrayPrefixMaxHexLen ≤ a.maxHexLen) (hsmall : a.maxHexLen < 2 ^ 48) (hpos : 0 < a.arrayPrefixMaxHexLen)
    (hfit : 2 * (lenHeader 0xc0 0xf7 items.flatten.length).length ≤ 2 + a.arrayPrefixMaxHexLen)
    (hfit' : 2 * (lenHeader 0xc0 0xf7 items.flatten.length).length < 2 ^ a.arrayPrefixMaxHexLen.size) :
    ∃ out, leftShiftRlpArrayPrefix a ((nibblesOf (encodeList items) ++ pad).map (Nat.cast : ℕ → F p)) =
        some (out, ((2 * items.flatten.length : ℕ) : F p)) ∧
      out.take (2 * items.flatten.length) = (nibblesOf items.flatten).map (Nat.cast : ℕ → F p) := by
  have hns : ∀ n, (nibblesOf (encodeList items)).length ≤ n → items.flatten.length * 2 ≤ n := by
    intro n h
    rw [nibblesOf_length, encodeList, List.length_append] at h
    omega
  have hfl := hns a.maxHexLen (by rw [← hsize, List.length_append]; omega)
  have hflat : items.flatten.length < 256 ^ 6 := by
    have : (256 : ℕ) ^ 6 = 2 ^ 48 := by norm_num
    omega
  have hnib : ∀ x ∈ nibblesOf (encodeList items) ++ pad, x < 16 := by
    refine nib_append (nibblesOf_lt _ ?_) hpad
    intro b h
    rcases List.mem_append.1 h with h | h
    · exact lenHeader_bytes _ _ _ (by norm_num) (by norm_num) (hflat.trans (by norm_num)) b h
    · obtain ⟨enc, h1, h2⟩ := List.mem_flatten.1 h
      exact hb enc h1 b h2
  generalize hnse : nibblesOf (encodeList items) ++ pad = ns at *
  have hreads : ReadsAt (cyc ns) 0 (nibblesOf (encodeList items)) := by
    intro j hj
    rw [Nat.zero_add, cyc_eq (by rw [← hnse, List.length_append]; omega), ← hnse, stream, List.getD_append _ _ _ _ hj]
  have hc : CellsOf (ns.map (Nat.cast : ℕ → F p)) a.maxHexLen (cyc ns) := cells_cyc hnib hsize (by omega)
  have hr := header_read (cyc ns) 0 items.flatten.length (hflat.trans (by norm_num)) true items.flatten (by simpa [encodeList] using hreads)
  simp only [if_true] at hr
  have hl : 0xc0 ≤ byteAt (cyc ns) 0 := hr.2.2.1 trivial
  have hh : listHdr (byteAt (cyc ns) 0) = 2 * (lenHeader 0xc0 0xf7 items.flatten.length).length := by
    rw [listHdr_hdrLen _ (byteAt_lt _ hc.nib 0) hl, hr.2.1]
  have hrest : ReadsAt (cyc ns) (listHdr (byteAt (cyc ns) 0)) (nibblesOf items.flatten) := by
    unfold encodeList at hreads
    rw [nibblesOf_append, readsAt_append, nibblesOf_length] at hreads
    rw [hh]; simpa using hreads.2
  obtain ⟨hiff, hpay⟩ := C90_exact (p := p) hp a ns hnib hsize hroom
    (lt_of_le_of_lt (show a.arrayPrefixMaxHexLen ≤ a.maxHexLen by omega) (hsmall.trans (by norm_num)))
  obtain ⟨out, ho⟩ := Option.isSome_iff_exists.1 (hiff.2 ⟨hl, hpos, by omega, by omega⟩)
  obtain ⟨h1, h2⟩ := hpay out ho
  refine ⟨out.1, ?_, ?_⟩
  · rw [ho, ← hr.1, ← h1]
  · apply List.ext_getElem?
    intro j
    by_cases hj : j < 2 * items.flatten.length
    · rw [List.getElem?_take_of_lt hj, h2 j (by omega), hrest j (by rw [nibblesOf_length]; exact hj), List.getElem?_map,
        List.getElem?_eq_getElem (by rw [nibblesOf_length]; exact hj), List.getD_eq_getElem _ _ (by rw [nibblesOf_length]; exact hj)]
      rfl
    · rw [List.getElem?_take_eq_none (by omega), List.getElem?_eq_none (by rw [List.length_map, nibblesOf_length]; omega)]

/-- **C90 (disagreement).** With room for a length of one or of three bytes, the longest headers the parameters announce are refused: the
shift by the whole header does not fit into the shifter's bits. -/
theorem C90_limit (hp : 2 ^ 128 < p) (a : ArrayCheck) (ns : List ℕ) (hnib : ∀ x ∈ ns, x < 16) (hlen : ns.length = a.maxHexLen)
    (hroom : 2 + a.arrayPrefixMaxHexLen ≤ a.maxHexLen) (h26 : a.arrayPrefixMaxHexLen = 2 ∨ a.arrayPrefixMaxHexLen = 6)
    (hhdr : listHdr (byteAt (cyc ns) 0) = 2 + a.arrayPrefixMaxHexLen) :
    leftShiftRlpArrayPrefix a (ns.map (Nat.cast : ℕ → F p)) = none := by
  have h := (C90_exact (p := p) hp a ns hnib hlen hroom (by rcases h26 with h | h <;> rw [h] <;> norm_num)).1
  rw [← Option.not_isSome_iff_eq_none, h]
  rintro ⟨-, -, -, h4⟩
  rw [hhdr] at h4
  rcases h26 with e | e <;> rw [e] at h4 <;> revert h4 <;> decide

/-- The hypotheses are met: `c2 01 02 00`, and `f8 38 …` with a one-byte limit. -/
example (hp : 2 ^ 128 < p) : ∃ out, leftShiftRlpArrayPrefix ⟨8, 2, 4, [0], [2]⟩
    ((nibblesOf (encodeList [[1], [2]]) ++ [0, 0]).map (Nat.cast : ℕ → F p)) = some (out, ((4 : ℕ) : F p)) ∧
      out.take 4 = ([0, 1, 0, 2] : List ℕ).map (Nat.cast : ℕ → F p) :=
  C90_complete hp ⟨8, 2, 4, [0], [2]⟩ [[1], [2]] (by decide) [0, 0] (by decide) (by decide) (by decide) (by decide) (by decide)
    (by decide) (by decide)

example : listHdr (byteAt (cyc [15, 8, 3, 8]) 0) = 2 + 2 := by decide

end Verif.Rlp
