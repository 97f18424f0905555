import Verif.Rlp.ListProps2

/-! # `RlpNestArrayCheck` on encodings: satisfiability, verdict and outputs

For every list header followed by RLP items (all strings except the one-byte string `00`, and all lists), whatever
length the header announces. -/

set_option linter.unusedSectionVars false

namespace Verif.Rlp
open Api Spec.Rlp
variable {p : ℕ} [Fact p.Prime]

/-- `enc` is an RLP item and `out` the bytes the nested checker hands out for it: the payload of a string, the whole
encoding of a list. The string `00` is excluded (see `C13_nest_zero_byte`). -/
def NestItem (enc out : List ℕ) : Prop :=
  (enc = encodeString out ∧ out ≠ [0]) ∨ ∃ items, enc = encodeList items ∧ out = enc

theorem encodeList_nil : encodeList [] = [0xc0] := rfl

theorem nestItem_read (S : ℕ → ℕ) (hS : ∀ k, S k < 16) (i o : ℕ) (enc out : List ℕ) (he : NestItem enc out)
    (hn : out.length < 256 ^ 8) (h : ReadsAt S o (nibblesOf enc)) :
    itemLen S o = 2 * enc.length ∧ byteAt S o ≠ 0 ∧ nLn S i o = 2 * out.length ∧
    nHd S i o + 2 * out.length = 2 * enc.length ∧
    ReadsAt S (o + nHd S i o) (nibblesOf out) ∧ (byteAt S o = 0xc0 ↔ enc = [0xc0]) ∧
    lenOfLen (byteAt S o) ≤ (if out.length < 56 then 0 else (lenBytes out.length).length) ∧
    nHd S i o ≤ 2 + 2 * lenOfLen (byteAt S o) := by
  rcases he with ⟨he, hne⟩ | ⟨items, he, rfl⟩
  · have hr := item_read S o enc out (Or.inl he) hn h
    have hlt : byteAt S o < 0xc0 ∧ byteAt S o ≠ 0 := by
      unfold encodeString at he
      split at he
      · rename_i hs
        obtain ⟨b, rfl⟩ := List.length_eq_one_iff.1 hs.1
        rw [he] at h
        have hb := byteAt_of_reads h
        have : b < 0x80 := by simpa using hs.2
        refine ⟨by omega, ?_⟩
        rw [hb]; rintro rfl; exact hne rfl
      · rw [he] at h
        have hr := header_read S o out.length hn false out (by simpa using h)
        have h1 := hr.2.2.2.1 rfl
        refine ⟨h1, ?_⟩
        intro h0
        have h2 := hr.2.1
        have h3 := lenHeader_length_pos 0x80 0xb7 out.length
        rw [h0, show hdrLen 0 = 0 by decide] at h2
        simp only [Bool.false_eq_true, if_false] at h2
        omega
    have hnh : nHd S i o = hdrLen (byteAt S o) := by unfold nHd; rw [if_neg (by omega)]
    have hnl : nLn S i o = payLen S o := by unfold nLn; rw [if_neg (by omega), if_neg hlt.2]
    refine ⟨hr.2.1, hlt.2, by rw [hnl, hr.1], ?_, by rw [hnh]; exact hr.2.2.2.1, ?_, le_of_eq hr.2.2.2.2, ?_⟩
    · rw [hnh, ← hr.2.1, itemLen, hr.1]
    · refine ⟨fun h => absurd h hr.2.2.1, fun h0 => ?_⟩
      rw [h0] at h
      exact byteAt_of_reads h
    · rw [hnh]; unfold hdrLen; split <;> omega
  · have h' := h
    rw [he] at h'
    unfold encodeList at h'
    have hel : out.length = (lenHeader 0xc0 0xf7 items.flatten.length).length + items.flatten.length := by
      rw [he]; unfold encodeList; rw [List.length_append]
    have hpos := lenHeader_length_pos 0xc0 0xf7 items.flatten.length
    have hr := header_read S o items.flatten.length (by omega) true items.flatten (by simpa using h')
    simp only [if_true] at hr
    have hge := hr.2.2.1 trivial
    have hil : itemLen S o = 2 * out.length := by
      unfold itemLen; rw [hr.1, hr.2.1, hel]; ring
    refine ⟨hil, by omega, ?_, ?_, ?_, ?_, ?_, ?_⟩
    · unfold nLn; rw [if_pos hge, hil]
    · unfold nHd; rw [if_pos hge]; omega
    · unfold nHd; rw [if_pos hge]; exact h
    · rw [hr.2.2.2.2.1]
      constructor
      · rintro ⟨-, h0⟩
        rw [he]; unfold encodeList
        rw [h0, List.length_eq_zero_iff.1 h0]; rfl
      · intro h0
        refine ⟨trivial, ?_⟩
        rw [h0] at hel
        rw [List.length_singleton] at hel
        omega
    · rw [hr.2.2.2.2.2]
      by_cases h56 : items.flatten.length < 56
      · rw [if_pos h56]; exact Nat.zero_le _
      · rw [if_neg h56, if_neg (by omega)]
        have := Nat.le_length_digits_le 256 items.flatten.length out.length (by omega)
        unfold lenBytes
        simpa using this
    · unfold nHd; rw [if_pos hge]; omega

/-- number of empty-list items -/
def emptyCount (items : List (List ℕ)) : ℕ := items.countP (· = [0xc0])

/-- Reading a list whose header is `hdr` (announcing anything) followed by the items. -/
theorem nest_list_read (S : ℕ → ℕ) (hS : ∀ k, S k < 16) (hdr : List ℕ) (items outs : List (List ℕ))
    (he : List.Forall₂ NestItem items outs) (hpn : ∀ q ∈ outs, q.length < 256 ^ 8)
    (hh : listHdr (byteAt S 0) = 2 * hdr.length)
    (h : ReadsAt S 0 (nibblesOf (hdr ++ items.flatten))) :
    (∀ k ≤ items.length, itemOffset S k = 2 * hdr.length + 2 * (items.take k).flatten.length ∧
      emptyLists S k = emptyCount (items.take k)) ∧
    (∀ k < items.length, ∃ enc out, items[k]? = some enc ∧ outs[k]? = some out ∧ NestItem enc out ∧
      ReadsAt S (itemOffset S k) (nibblesOf enc) ∧ out.length < 256 ^ 8) := by
  have hrest : ReadsAt S (2 * hdr.length) (nibblesOf items.flatten) := by
    rw [nibblesOf_append, readsAt_append, nibblesOf_length] at h
    simpa using h.2
  have hitem : ∀ k < items.length, itemOffset S k = 2 * hdr.length + 2 * (items.take k).flatten.length →
      ∃ enc out, items[k]? = some enc ∧ outs[k]? = some out ∧ NestItem enc out ∧
        ReadsAt S (itemOffset S k) (nibblesOf enc) ∧ out.length < 256 ^ 8 := by
    intro k hk ho
    have hlen := he.length_eq
    have hE : NestItem items[k] (outs[k]'(by omega)) := (List.forall₂_iff_get.1 he).2 k hk (by omega)
    refine ⟨items[k], outs[k]'(by omega), List.getElem?_eq_getElem hk, List.getElem?_eq_getElem (by omega), hE, ?_,
      hpn _ (List.getElem_mem _)⟩
    rw [ho]
    have hsplit : items.flatten = (items.take k).flatten ++ (items[k] ++ (items.drop (k+1)).flatten) := by
      conv_lhs => rw [← List.take_append_drop k items, List.drop_eq_getElem_cons hk]
      rw [List.flatten_append, List.flatten_cons]
    rw [hsplit, nibblesOf_append, readsAt_append, nibblesOf_append, readsAt_append, nibblesOf_length] at hrest
    exact hrest.2.1
  have hoff : ∀ k ≤ items.length, itemOffset S k = 2 * hdr.length + 2 * (items.take k).flatten.length ∧
      emptyLists S k = emptyCount (items.take k) := by
    intro k
    induction k with
    | zero => intro _; exact ⟨by simp [itemOffset, hh], rfl⟩
    | succ k ih =>
      intro hk
      have ih := ih (by omega)
      obtain ⟨enc, out, h1, h2, h3, h4, h5⟩ := hitem k (by omega) ih.1
      have := nestItem_read S hS 0 _ enc out h3 h5 h4
      refine ⟨?_, ?_⟩
      · rw [itemOffset, this.1, ih.1, List.take_succ, h1]
        simp
        ring
      · rw [emptyLists_succ, ih.2, List.take_succ, h1]
        unfold emptyCount
        simp only [this.2.2.2.2.2.1, List.countP_append, Option.toList_some, List.countP_cons, List.countP_nil,
          Nat.zero_add, decide_eq_true_eq]
  exact ⟨hoff, fun k hk => hitem k hk (hoff k hk.le).1⟩

theorem lpm_four (m : ℕ) (h1 : 128 ≤ m) (h2 : m < 2 ^ 17) :
    4 ≤ lenPrefixMaxHexs m ∧ 6 < 2 ^ (lenPrefixMaxHexs m).size := lpm_val m h1 h2

/-- **Satisfiability, verdict and outputs of `RlpNestArrayCheck` on `hdr ++ items`**, where the header `hdr` may
announce any length (`declared`). -/
theorem nest_run (hp : 2 ^ 128 < p) (a : ArrayCheck) (hwf : a.WF) (hapm0 : 0 < a.arrayPrefixMaxHexLen)
    (hdr : List ℕ) (items outs : List (List ℕ)) (he : List.Forall₂ NestItem items outs)
    (hn : items.length = a.maxFields) (ns : List ℕ) (hnib : ∀ x ∈ ns, x < 16) (hlen : ns.length = a.maxHexLen)
    (hreads : ReadsAt (cyc ns) 0 (nibblesOf (hdr ++ items.flatten)))
    (hfit : 2 * (hdr ++ items.flatten).length ≤ a.maxHexLen)
    (hh : listHdr (byteAt (cyc ns) 0) = 2 * hdr.length)
    (hapm : 2 * hdr.length ≤ 2 + a.arrayPrefixMaxHexLen)
    (hsh : 2 * hdr.length < 2 ^ a.arrayPrefixMaxHexLen.size)
    (hbnd : ∀ (i : ℕ) (out : List ℕ), outs[i]? = some out →
      a.fieldMin.getD i 0 = 0 ∧ 0 < a.fieldMax.getD i 0 ∧ 2 * out.length < 2 ^ (a.fieldMax.getD i 0).size ∧
      (out.length < 56 ∨ (128 ≤ a.fieldMax.getD i 0 ∧ a.fieldMax.getD i 0 < 2 ^ 17)))
    (inp : List (F p)) (hin : inp.take a.maxHexLen = ns.map (Nat.cast : ℕ → F p)) :
    ∃ r, rlpNestArrayCheck a inp = some r ∧
      (r.out = 1 ↔ (if isList (cyc ns) 0 then 1 else 0) + emptyCount items +
        (if 2 * items.flatten.length = declared (cyc ns) + emptyCount items then 1 else 0) = 2) ∧
      r.total = ((2 * hdr.length + declared (cyc ns) : ℕ) : F p) ∧
      ∀ (i : ℕ) (out : List ℕ), outs[i]? = some out → r.lens[i]? = some ((2 * out.length : ℕ) : F p) ∧
        ∃ f : List (F p), r.fields[i]? = some f ∧ f.length = a.maxHexLen ∧
          ∃ off, f = (ns.rotate off).map (Nat.cast : ℕ → F p) ∧
            (ns.rotate off).take (2 * out.length) = nibblesOf out := by
  have hc : CellsOf (inp.take a.maxHexLen) a.maxHexLen (cyc ns) := by
    rw [hin]; exact cells_cyc hnib hlen (by have := hwf.apm; omega)
  set S := cyc ns with hSdef
  have hpn : ∀ q ∈ outs, q.length < 256 ^ 8 := by
    intro q hq
    obtain ⟨i, hi⟩ := List.mem_iff_getElem?.1 hq
    have hio : i < outs.length := (List.getElem?_eq_some_iff.1 hi).1
    have h1 := hbnd i q hi
    have h2 := hwf.small i (by have := he.length_eq; omega)
    have h3 : (a.fieldMax.getD i 0).size ≤ 60 := Nat.size_le.2 h2
    have h4 : 2 ^ (a.fieldMax.getD i 0).size ≤ 2 ^ 60 := Nat.pow_le_pow_right (by norm_num) h3
    omega
  obtain ⟨hoff, hitems⟩ := nest_list_read S hc.nib hdr items outs he hpn hh hreads
  have hgz : ∀ i < a.maxFields, byteAt S (itemOffset S i) ≠ 0 := by
    intro i hi
    obtain ⟨enc, out, h1, h2, h3, h4, h5⟩ := hitems i (by omega)
    exact (nestItem_read S hc.nib i _ enc out h3 h5 h4).2.1
  have hfix : ∀ i < a.maxFields, mn a i ≠ mx a i := by
    intro i hi
    obtain ⟨enc, out, h1, h2, h3, h4, h5⟩ := hitems i (by omega)
    have := hbnd i out h2
    unfold mn mx; omega
  have hg : ∀ k ≤ a.maxFields, gOff a S (nHd S) (nLn S) k = itemOffset S k := fun k hk =>
    nOff_eq a S k (fun j hj => hgz j (by omega)) (fun j hj h => absurd h (hfix j (by omega)))
  have hcond : (0 < a.arrayPrefixMaxHexLen ∧ ahPrefix1 (byteAt S 0) ≤ a.arrayPrefixMaxHexLen) ∧
          ∀ i < a.maxFields, gAlign a S (nHd S) (nLn S) a.arrayPrefixMaxHexLen i ∧
            nFits S (gOff a S (nHd S) (nLn S) i) (lenPrefixMaxHexs (mx a i)) := by
    have hhl := listHdr_eq (byteAt S 0)
    refine ⟨⟨hapm0, by omega⟩, fun i hi => ⟨?_, ?_⟩⟩
    · unfold gAlign
      by_cases h0 : i = 0
      · rw [if_pos h0, hg 0 (by omega), itemOffset, hh]; exact hsh
      · rw [if_neg h0, hg (i - 1) (by omega)]
        right
        obtain ⟨enc, out, h1, h2, h3, h4, h5⟩ := hitems (i - 1) (by omega)
        rw [(nestItem_read S hc.nib (i - 1) _ enc out h3 h5 h4).2.2.1]
        have hb := hbnd _ out h2
        unfold mn mx
        rw [hb.1]
        exact ⟨Nat.zero_le _, by simpa using hb.2.2.1⟩
    · rw [hg i hi.le]
      obtain ⟨enc, out, h1, h2, h3, h4, h5⟩ := hitems i (by omega)
      have hr := nestItem_read S hc.nib 0 _ enc out h3 h5 h4
      have hb := hbnd _ out h2
      have h2l := lpm_two (mx a i)
      obtain ⟨-, -, -, -, -, -, h6, h7⟩ := hr
      rcases hb.2.2.2 with h56 | hm
      · rw [if_pos h56] at h6
        exact ⟨by omega, by omega⟩
      · obtain ⟨h4', h6'⟩ := lpm_four _ hm.1 hm.2
        have hsz : (a.fieldMax.getD i 0).size ≤ 17 := Nat.size_le.2 hm.2
        have hpw : 2 ^ (a.fieldMax.getD i 0).size ≤ 2 ^ 17 := Nat.pow_le_pow_right (by norm_num) hsz
        have hl2 := lenBytes_length_le out.length 2 (by omega)
        unfold nFits mx
        split_ifs at h6
        · exact ⟨by omega, by omega⟩
        · exact ⟨by omega, by omega⟩
  have hr := rlpNestArrayCheck_eq hp a hwf inp S hc
  rw [if_pos hcond] at hr
  refine ⟨_, hr, ?_⟩
  have hex := C13_rlpNest_exact hp a hwf ns hnib hlen inp hin _ hr
    (fun i hi h => absurd h (hfix i hi)) hgz
  have hE := (hoff a.maxFields (by omega))
  rw [← hn, List.take_length] at hE
  refine ⟨?_, ?_, ?_⟩
  · rw [hex.1, ← hn, hE.1, hE.2, hh]
    have : (2 * hdr.length + 2 * items.flatten.length = 2 * hdr.length + declared S + emptyCount items) ↔
      (2 * items.flatten.length = declared S + emptyCount items) := by omega
    rw [if_congr this rfl rfl]
  · rw [hex.2.1, hh]
  · intro i out hi
    have hio : i < a.maxFields := by
      have := (List.getElem?_eq_some_iff.1 hi).1
      have := he.length_eq; omega
    obtain ⟨enc, out', h1, h2, h3, h4, h5⟩ := hitems i (by omega)
    rw [hi] at h2
    obtain rfl := Option.some.inj h2
    have hrd := nestItem_read S hc.nib i _ enc out h3 h5 h4
    obtain ⟨g1, g2⟩ := hex.2.2 i hio
    have e1 : (if isList S (itemOffset S i) then itemLen S (itemOffset S i) else payLen S (itemOffset S i))
        = 2 * out.length := by
      rw [← hrd.2.2.1]; unfold nLn isList; rw [if_neg hrd.2.1]
    have e2 : (if isList S (itemOffset S i) then 0 else hdrLen (byteAt S (itemOffset S i))) = nHd S i (itemOffset S i) := by
      unfold nHd isList; rfl
    rw [e1] at g1
    rw [e2] at g2
    have hend : itemOffset S i + 2 * enc.length ≤ a.maxHexLen := by
      have hm := itemOffset_mono S (show i + 1 ≤ items.length by omega)
      rw [itemOffset, hrd.1, hE.1] at hm
      rw [List.length_append] at hfit
      omega
    refine ⟨g1, _, g2, by simp [hlen], itemOffset S i + nHd S i (itemOffset S i), by rw [List.map_rotate], ?_⟩
    apply List.ext_getElem?
    intro j
    by_cases hj : j < 2 * out.length
    · have hj' : j < (nibblesOf out).length := by rw [nibblesOf_length]; exact hj
      have h8 := hrd.2.2.2.1
      have hrj := hrd.2.2.2.2.1 j hj'
      rw [List.getElem?_take_of_lt hj, List.getElem?_rotate (by omega), List.getElem?_eq_getElem hj',
        ← List.getD_eq_getElem _ 0 hj', ← hrj, hSdef]
      unfold cyc
      rw [List.getElem?_eq_getElem (Nat.mod_lt _ (by omega)), List.getD_eq_getElem _ _ (Nat.mod_lt _ (by omega))]
      simp only [Nat.add_comm, Nat.add_left_comm]
    · rw [List.getElem?_eq_none (by simp; omega), List.getElem?_eq_none (by simp [nibblesOf_length]; omega)]

end Verif.Rlp
