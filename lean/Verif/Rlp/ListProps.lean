import Verif.Rlp.Props

/-! # Property theorems C11–C14 (RLP list checkers)

The buffer is a list `ns` of `MaxHexLen` nibbles. `cyc ns` reads it cyclically (what the rotating gadget does),
`stream ns` reads it as a plain string. -/

set_option linter.unusedSectionVars false

namespace Verif.Rlp
open Api Spec.Rlp
variable {p : ℕ} [Fact p.Prime]

theorem getD_lt {ns : List ℕ} (hnib : ∀ x ∈ ns, x < 16) (j : ℕ) : ns.getD j 0 < 16 := by
  rw [List.getD_eq_getElem?_getD]
  rcases h : ns[j]? with _ | x
  · simp
  · exact hnib x (List.mem_of_getElem? h)

theorem cells_cyc {ns : List ℕ} {N : ℕ} (hnib : ∀ x ∈ ns, x < 16) (hlen : ns.length = N) (h0 : 0 < N) :
    CellsOf (ns.map (Nat.cast : ℕ → F p)) N (cyc ns) where
  len := by simp [hlen]
  pos := h0
  nib k := getD_lt hnib _
  get k := by
    have hk : k % N < ns.length := by rw [hlen]; exact Nat.mod_lt _ h0
    unfold cyc
    rw [hlen, List.getElem?_map, List.getElem?_eq_getElem hk, List.getD_eq_getElem _ _ hk]
    rfl

theorem cyc_eq {ns : List ℕ} {k : ℕ} (hk : k < ns.length) : cyc ns k = stream ns k := by
  unfold cyc stream
  rw [Nat.mod_eq_of_lt hk]

/-! ### Streams that agree on a prefix -/

theorem byteAt_congr {S S' : ℕ → ℕ} {N : ℕ} (h : ∀ k < N, S k = S' k) {o : ℕ} (ho : o + 2 ≤ N) :
    byteAt S o = byteAt S' o := by
  unfold byteAt; rw [h o (by omega), h (o + 1) (by omega)]

theorem beNum_congr {S S' : ℕ → ℕ} {N : ℕ} (h : ∀ k < N, S k = S' k) {o n : ℕ} (ho : o + n ≤ N) :
    beNum S o n = beNum S' o n := by
  induction n with
  | zero => rfl
  | succ n ih => rw [beNum, beNum, ih (by omega), h (o + n) (by omega)]

theorem payLen_congr {S S' : ℕ → ℕ} {N : ℕ} (h : ∀ k < N, S k = S' k) {o : ℕ} (ho : o + 2 ≤ N)
    (hh : o + hdrLen (byteAt S o) ≤ N) : payLen S o = payLen S' o := by
  unfold payLen
  simp only
  rw [← byteAt_congr h ho]
  unfold hdrLen lenOfLen at hh
  generalize byteAt S o = v at *
  by_cases h0 : v < 0x80
  · rw [if_pos h0, if_pos h0]
  rw [if_neg h0] at hh
  rw [if_neg h0, if_neg h0]
  by_cases h1 : v < 0xb8
  · rw [if_pos h1, if_pos h1]
  rw [if_neg h1] at hh
  rw [if_neg h1, if_neg h1]
  by_cases h2 : v < 0xc0
  · rw [if_pos h2] at hh
    rw [if_pos h2, if_pos h2, beNum_congr h (by omega)]
  rw [if_neg h2] at hh
  rw [if_neg h2, if_neg h2]
  by_cases h3 : v < 0xf8
  · rw [if_pos h3, if_pos h3]
  rw [if_neg h3] at hh
  rw [if_neg h3, if_neg h3, beNum_congr h (by omega)]

theorem itemLen_congr {S S' : ℕ → ℕ} {N : ℕ} (h : ∀ k < N, S k = S' k) {o : ℕ}
    (hh : o + itemLen S o ≤ N) : itemLen S o = itemLen S' o := by
  have h2 := itemLen_ge S o
  unfold itemLen at *
  rw [← byteAt_congr h (o := o) (by omega), payLen_congr h (o := o) (by omega) (by omega)]

theorem itemOffset_congr {S S' : ℕ → ℕ} {N n : ℕ} (h : ∀ k < N, S k = S' k) (h2 : 2 ≤ N)
    (hn : itemOffset S n ≤ N) : ∀ i ≤ n, itemOffset S' i = itemOffset S i := by
  intro i
  induction i with
  | zero => intro _; rw [itemOffset, itemOffset, byteAt_congr h (o := 0) (by omega)]
  | succ i ih =>
    intro hi
    have := itemOffset_mono S hi
    rw [itemOffset] at this
    rw [itemOffset, itemOffset, ih (by omega), ← itemLen_congr h (by omega)]

theorem isListOf_congr {S S' : ℕ → ℕ} {N n : ℕ} (h : ∀ k < N, S k = S' k) (h2 : 2 ≤ N)
    (hl : IsListOf S n) (hn : itemLen S 0 ≤ N) : IsListOf S' n ∧ itemLen S' 0 = itemLen S 0 := by
  have h3 := itemOffset_congr h h2 (n := n) (by rw [hl.2]; exact hn) n le_rfl
  have h4 := itemLen_congr h (o := 0) (by omega)
  refine ⟨⟨?_, ?_⟩, h4.symm⟩
  · unfold isList; rw [← byteAt_congr h (o := 0) (by omega)]; exact hl.1
  · rw [h3, hl.2, h4]

theorem emptyLists_zero (S : ℕ → ℕ) (n : ℕ) (h : ∀ i < n, byteAt S (itemOffset S i) ≠ 0xc0) :
    emptyLists S n = 0 := by
  unfold emptyLists
  rw [List.length_eq_zero_iff, List.filter_eq_nil_iff]
  intro i hi
  simpa using h i (List.mem_range.1 hi)

/-- The parts of a stream's `i`-th item as returned by a list checker. -/
def Spec.ItemIs (r : AcOut p) (S : ℕ → ℕ) (i : ℕ) : Prop :=
  r.lens[i]? = some ((payLen S (itemOffset S i) : ℕ) : F p) ∧
  ∃ f, r.fields[i]? = some f ∧ ∀ j < payLen S (itemOffset S i),
    f[j]? = some ((S (itemOffset S i + hdrLen (byteAt S (itemOffset S i)) + j) : ℕ) : F p)

theorem lens_raw (hp : 2 ^ 128 < p) (a : ArrayCheck) (hwf : a.WF) (inp : List (F p)) (S : ℕ → ℕ)
    (hc : CellsOf (inp.take a.maxHexLen) a.maxHexLen S) (fieldNum : F p)
    (hnum : fieldNum.val ≤ a.maxFields) (r : AcOut p) (hr : rlpArrayCheck a inp fieldNum = some r)
    (hfix : ∀ i < fieldNum.val, a.fieldMin.getD i 0 = a.fieldMax.getD i 0 →
      r.lens[i]? = some ((a.fieldMin.getD i 0 : ℕ) : F p)) :
    ∀ i < fieldNum.val, mn a i = mx a i → payLen S (acOff a S fieldNum.val i) = mn a i := by
  intro i hi he
  have h1 := hfix i hi he
  rw [rlpArrayCheck_eq hp a hwf inp S hc] at hr
  split at hr
  · have hr := (Option.some.inj hr).symm
    subst hr
    simp only [List.getElem?_map, List.getElem?_range (show i < a.maxFields by omega), Option.map_some,
      Option.some.injEq, len', if_pos hi] at h1
    refine (natCast_inj_of_lt ?_ ?_).1 h1
    · have := payLen_lt S hc.nib (acOff a S fieldNum.val i); omega
    · have := hwf.small i (by omega); have := hwf.le i (by omega); unfold mn; omega
  · cases hr

/-- **C13 (exact acceptance of `RlpArrayCheck`).** Whenever the constraints are satisfiable and the
fixed-width fields have the configured width, the check flag is 1 iff
`[starts with a list header] + [items fill the announced payload] + (number of empty-list items) = 2`. -/
theorem C13_rlpArrayCheck_exact (hp : 2 ^ 128 < p) (a : ArrayCheck) (hwf : a.WF) (ns : List ℕ)
    (hnib : ∀ x ∈ ns, x < 16) (hlen : ns.length = a.maxHexLen) (inp : List (F p))
    (hin : inp.take a.maxHexLen = ns.map (Nat.cast : ℕ → F p)) (fieldNum : F p)
    (hnum : fieldNum.val ≤ a.maxFields) (r : AcOut p) (hr : rlpArrayCheck a inp fieldNum = some r)
    (hfix : ∀ i < fieldNum.val, a.fieldMin.getD i 0 = a.fieldMax.getD i 0 →
      r.lens[i]? = some ((a.fieldMin.getD i 0 : ℕ) : F p)) :
    r.out = 1 ↔
      (if isList (cyc ns) 0 then 1 else 0) +
      (if itemOffset (cyc ns) fieldNum.val = listHdr (byteAt (cyc ns) 0) + declared (cyc ns) then 1 else 0) +
      ((List.range fieldNum.val).filter fun i =>
        decide (byteAt (cyc ns) (itemOffset (cyc ns) i) = 0xc0)).length = 2 := by
  have hc : CellsOf (inp.take a.maxHexLen) a.maxHexLen (cyc ns) := by
    rw [hin]; exact cells_cyc hnib hlen (by have := hwf.apm; omega)
  have h := (arrayCheck_exact hp a hwf inp (cyc ns) hc fieldNum hnum
    (lens_raw hp a hwf inp _ hc fieldNum hnum r hr hfix) r hr).1
  rw [h, emptyLists]
  omega

/-- **C11 (partial).** If `RlpArrayCheck` reports success, the announced total fits the buffer, and no item is the
empty list, then the buffer starts with a list of exactly `fieldNum` items filling the announced payload, the
returned total is its length, and the returned lengths and contents are those of the items.
Missing from the full property: items equal to `0xc0` (`C13_*`), non-minimal length headers
(`C11_noncanonical_accepted`), and fixed-width fields, whose real length the gadget ignores: the caller must
compare the returned length (`hfix`). -/
theorem C11_rlpArrayCheck_sound_partial (hp : 2 ^ 128 < p) (a : ArrayCheck) (hwf : a.WF) (ns : List ℕ)
    (hnib : ∀ x ∈ ns, x < 16) (hlen : ns.length = a.maxHexLen) (inp : List (F p))
    (hin : inp.take a.maxHexLen = ns.map (Nat.cast : ℕ → F p)) (fieldNum : F p)
    (hnum : fieldNum.val ≤ a.maxFields) (r : AcOut p) (hr : rlpArrayCheck a inp fieldNum = some r)
    (hout : r.out = 1)
    (htot : r.total.val ≤ a.maxHexLen)
    (hfix : ∀ i < fieldNum.val, a.fieldMin.getD i 0 = a.fieldMax.getD i 0 →
      r.lens[i]? = some ((a.fieldMin.getD i 0 : ℕ) : F p))
    (hne : ∀ i < fieldNum.val, byteAt (cyc ns) (itemOffset (cyc ns) i) ≠ 0xc0) :
    IsListOf (stream ns) fieldNum.val ∧
    r.total = ((itemLen (stream ns) 0 : ℕ) : F p) ∧ itemLen (stream ns) 0 ≤ ns.length ∧
    (∀ i < fieldNum.val, Spec.ItemIs r (stream ns) i) ∧
    (∀ i < a.maxFields, fieldNum.val ≤ i → r.lens[i]? = some 0) := by
  have hapm := hwf.apm
  have hc : CellsOf (inp.take a.maxHexLen) a.maxHexLen (cyc ns) := by
    rw [hin]; exact cells_cyc hnib hlen (by omega)
  have h := arrayCheck_exact hp a hwf inp (cyc ns) hc fieldNum hnum
    (lens_raw hp a hwf inp _ hc fieldNum hnum r hr hfix) r hr
  have hacc := h.1.1 hout
  rw [emptyLists_zero _ _ hne] at hacc
  have hl : isList (cyc ns) 0 := by by_contra hcon; simp [hcon] at hacc; split_ifs at hacc; omega
  have hf : itemOffset (cyc ns) fieldNum.val = listHdr (byteAt (cyc ns) 0) + declared (cyc ns) := by
    by_contra hcon; simp [hcon, hl] at hacc
  have hL : IsListOf (cyc ns) fieldNum.val := (isListOf_iff _ hc.nib _).2 ⟨hl, hf⟩
  have hag : ∀ k < ns.length, cyc ns k = stream ns k := fun k hk => cyc_eq hk
  have htotn : r.total = ((itemLen (cyc ns) 0 : ℕ) : F p) := by
    rw [h.2.1, ← hf, hL.2]
  have hbd : itemLen (cyc ns) 0 ≤ ns.length := by
    rw [htotn, val_natCast_lt, ← hlen] at htot
    · exact htot
    · have h1 := payLen_lt _ hc.nib 0
      have h2 := hdrLen_le _ (byteAt_lt _ hc.nib 0)
      unfold itemLen; omega
  have hcg := isListOf_congr hag (by omega) hL hbd
  have hoff := itemOffset_congr hag (by omega) (n := fieldNum.val) (by rw [hL.2]; exact hbd)
  refine ⟨hcg.1, by rw [htotn, hcg.2], by rw [hcg.2]; exact hbd, ?_, h.2.2.2.2.2⟩
  intro i hi
  obtain ⟨h1, h2⟩ := h.2.2.2.2.1 i hi
  have hend : itemOffset (cyc ns) i + itemLen (cyc ns) (itemOffset (cyc ns) i) ≤ ns.length := by
    have := itemOffset_mono (cyc ns) (show i + 1 ≤ fieldNum.val by omega)
    rw [itemOffset] at this
    have := hL.2
    omega
  have h2' := itemLen_ge (cyc ns) (itemOffset (cyc ns) i)
  have e1 := byteAt_congr hag (o := itemOffset (cyc ns) i) (by omega)
  have e2 := payLen_congr hag (o := itemOffset (cyc ns) i) (by omega) (by unfold itemLen at hend; omega)
  refine ⟨by rw [hoff i hi.le, ← e2]; exact h1, _, h2, ?_⟩
  intro j hj
  rw [hoff i hi.le, ← e2] at hj
  rw [hoff i hi.le, ← e1, ← hag _ (by unfold itemLen at hend; omega)]
  exact hc.rot _ j (by rw [← hlen]; unfold itemLen at hend; omega)

theorem acOff_eq' (a : ArrayCheck) (S : ℕ → ℕ) (num k : ℕ) (hk : k ≤ num)
    (hfix : ∀ i < k, mn a i = mx a i → payLen S (itemOffset S i) = mn a i) :
    acOff a S num k = itemOffset S k := by
  induction k with
  | zero => simp [acOff, gOff, itemOffset, listHdr_eq]
  | succ k ih =>
    have ih := ih (by omega) (fun i hi => hfix i (by omega))
    have h := hfix k (by omega)
    have hkn : k < num := by omega
    rw [acOff, gOff, itemOffset, itemLen, gAdv, hdr', len', if_pos hkn, if_pos hkn]
    simp only [acOff] at ih h ⊢
    rw [ih]
    split
    · rename_i h2; rw [h h2, Nat.add_assoc]
    · omega

theorem lpm_val (m : ℕ) (h1 : 128 ≤ m) (h2 : m < 2 ^ 17) :
    4 ≤ lenPrefixMaxHexs m ∧ 6 < 2 ^ (lenPrefixMaxHexs m).size := by
  have hs : 8 ≤ m.size := by
    by_contra hcon
    have : m < 2 ^ 7 := Nat.size_le.1 (by omega)
    omega
  have h4 : 4 ≤ lenPrefixMaxHexs m := by
    unfold lenPrefixMaxHexs
    rw [logCeil_eq_size m (h2.trans (by norm_num))]
    omega
  refine ⟨h4, ?_⟩
  have hs3 : 3 ≤ (lenPrefixMaxHexs m).size := by
    by_contra hcon
    have : lenPrefixMaxHexs m < 2 ^ 2 := Nat.size_le.1 (by omega)
    omega
  calc 6 < 2 ^ 3 := by norm_num
    _ ≤ _ := Nat.pow_le_pow_right (by norm_num) hs3

theorem lenHeader_length_le (s l n k : ℕ) (h : n < 256 ^ k) : (lenHeader s l n).length ≤ 1 + k := by
  have := lenBytes_length_le n k h
  unfold lenHeader
  split <;> simp <;> omega

theorem nib_append {x y : List ℕ} (hx : ∀ b ∈ x, b < 16) (hy : ∀ b ∈ y, b < 16) :
    ∀ b ∈ x ++ y, b < 16 := by
  intro b hb
  rcases List.mem_append.1 hb with h | h
  · exact hx b h
  · exact hy b h

theorem lenHeader_bytes (s l n : ℕ) (hs : s ≤ 200) (hl : l ≤ 247) (hn : n < 256 ^ 8) :
    ∀ b ∈ lenHeader s l n, b < 256 := by
  have := lenBytes_length_le n 8 hn
  unfold lenHeader
  split
  · intro b hb; simp at hb; omega
  · intro b hb
    rcases List.mem_cons.1 hb with rfl | h
    · omega
    · exact lenBytes_lt n b h

/-- **C12.** For every list of RLP items (byte strings, or non-empty lists) within the configured bounds,
`RlpArrayCheck` on the encoding (followed by any nibbles up to the buffer size) is satisfiable, reports success,
and returns the length of the encoding and the payloads. Field maxima in 112..127 nibbles or from 2^17 nibbles
are excluded: there long headers do not fit the gadget's shifter (`C12_max_112_rejects`). -/
theorem C12_rlpArrayCheck_complete (hp : 2 ^ 128 < p) (a : ArrayCheck) (hwf : a.WF)
    (h48 : a.maxHexLen < 2 ^ 48) (hapm0 : 0 < a.arrayPrefixMaxHexLen)
    (items pays : List (List ℕ)) (he : List.Forall₂ Encodes items pays)
    (hbytes : ∀ enc ∈ items, ∀ b ∈ enc, b < 256)
    (pad : List ℕ) (hpad : ∀ x ∈ pad, x < 16)
    (hsize : (nibblesOf (encodeList items) ++ pad).length = a.maxHexLen)
    (hapm : 56 ≤ items.flatten.length →
      2 * (lenBytes items.flatten.length).length ≤ a.arrayPrefixMaxHexLen)
    (hn : items.length ≤ a.maxFields)
    (hbnd : ∀ (i : ℕ) (pay : List ℕ), pays[i]? = some pay →
      a.fieldMin.getD i 0 ≤ 2 * pay.length ∧ 2 * pay.length ≤ a.fieldMax.getD i 0)
    (hmax : ∀ i < items.length, a.fieldMax.getD i 0 < 112 ∨
      (128 ≤ a.fieldMax.getD i 0 ∧ a.fieldMax.getD i 0 < 2 ^ 17))
    (hinact : ∀ i, items.length ≤ i → i < a.maxFields →
      a.fieldMin.getD i 0 = 0 ∨ a.fieldMin.getD i 0 = a.fieldMax.getD i 0)
    (inp : List (F p))
    (hin : inp.take a.maxHexLen = (nibblesOf (encodeList items) ++ pad).map (Nat.cast : ℕ → F p)) :
    ∃ r, rlpArrayCheck a inp ((items.length : ℕ) : F p) = some r ∧ r.out = 1 ∧
      r.total = ((2 * (encodeList items).length : ℕ) : F p) ∧
      ∀ (i : ℕ) (pay : List ℕ), pays[i]? = some pay → r.lens[i]? = some ((2 * pay.length : ℕ) : F p) ∧
        ∃ f : List (F p), r.fields[i]? = some f ∧
          f.take (2 * pay.length) = (nibblesOf pay).map (Nat.cast : ℕ → F p) := by
  have hNN := hwf.apm
  set ns := nibblesOf (encodeList items) ++ pad with hns
  have hflat : items.flatten.length < 256 ^ 6 := by
    have : (encodeList items).length * 2 ≤ ns.length := by
      rw [hns, List.length_append, nibblesOf_length]; omega
    unfold encodeList at this
    rw [List.length_append] at this
    omega
  have hbb : ∀ b ∈ encodeList items, b < 256 := by
    intro b hb
    unfold encodeList at hb
    rcases List.mem_append.1 hb with h | h
    · exact lenHeader_bytes _ _ _ (by norm_num) (by norm_num) (hflat.trans (by norm_num)) b h
    · obtain ⟨enc, h1, h2⟩ := List.mem_flatten.1 h
      exact hbytes enc h1 b h2
  have hnib : ∀ x ∈ ns, x < 16 := nib_append (nibblesOf_lt _ hbb) hpad
  have hc : CellsOf (inp.take a.maxHexLen) a.maxHexLen (cyc ns) := by
    rw [hin]; exact cells_cyc hnib hsize (by omega)
  set S := cyc ns with hSdef
  have hreads : ReadsAt S 0 (nibblesOf (encodeList items)) := by
    intro j hj
    rw [hSdef, cyc_eq (by rw [hns, List.length_append]; omega), Nat.zero_add]
    unfold stream
    rw [hns, List.getD_append _ _ _ _ hj]
  have hpl : ∀ (i : ℕ) (pay : List ℕ), pays[i]? = some pay → pay.length < 256 ^ 8 := by
    intro i pay h
    have h1 := (hbnd i pay h).2
    have hi : i < pays.length := (List.getElem?_eq_some_iff.1 h).1
    have := hwf.small i (by have := he.length_eq; omega)
    omega
  obtain ⟨hl, hpay0, hhdr, hoff, hitems⟩ := list_read S hc.nib items pays he (hflat.trans (by norm_num))
    (fun q hq => by obtain ⟨i, hi⟩ := List.mem_iff_getElem?.1 hq; exact hpl i q hi) hreads
  have hnum : ((items.length : ℕ) : F p).val = items.length :=
    val_natCast_lt (by have := hwf.fields; omega)
  have hfix : ∀ i < items.length, mn a i = mx a i → payLen S (itemOffset S i) = mn a i := by
    intro i hi heq
    obtain ⟨pay, h1, h2, -⟩ := hitems i hi
    have := hbnd i pay h1
    unfold mn mx at *
    omega
  have hac : ∀ k ≤ items.length, acOff a S items.length k = itemOffset S k := fun k hk =>
    acOff_eq' a S _ k hk (fun i hi => hfix i (by omega))
  have hlen' : ∀ k < items.length, len' S items.length k (acOff a S items.length k)
      = payLen S (itemOffset S k) := by
    intro k hk; rw [hac k hk.le, len', if_pos hk]
  have hcond : (0 < a.arrayPrefixMaxHexLen ∧ ahPrefix1 (byteAt S 0) ≤ a.arrayPrefixMaxHexLen) ∧
      ∀ i < a.maxFields, acCond a S items.length 10 i := by
    have hhl := listHdr_eq (byteAt S 0)
    refine ⟨⟨hapm0, ?_⟩, ?_⟩
    · by_cases h56 : items.flatten.length < 56
      · unfold lenHeader at hhdr
        rw [if_pos h56] at hhdr
        simp at hhdr; omega
      · have := hapm (by omega)
        unfold lenHeader at hhdr
        rw [if_neg h56] at hhdr
        simp only [List.length_cons] at hhdr; omega
    · intro i hi
      constructor
      · unfold gAlign
        by_cases h0 : i = 0
        · rw [if_pos h0]
          have h1 := hac 0 (by omega)
          simp only [acOff] at h1
          rw [h1, itemOffset, hhdr, show Nat.size 10 = 4 by decide]
          have := lenHeader_length_le 0xc0 0xf7 _ 6 hflat
          omega
        · rw [if_neg h0]
          by_cases hin : i - 1 < items.length
          · have h1 := hlen' (i - 1) hin
            simp only [acOff] at h1
            rw [h1]
            obtain ⟨pay, h1, h2, -⟩ := hitems (i - 1) hin
            rw [h2]
            have := hbnd _ pay h1
            right
            have hsz := Nat.lt_size_self (mx a (i - 1) - mn a (i - 1))
            unfold mn mx at *
            omega
          · rcases hinact (i - 1) (by omega) (by omega) with h | h
            · right
              unfold len' mn
              rw [if_neg hin, h]
              exact ⟨le_rfl, by positivity⟩
            · left; exact h
      · intro hin
        rw [hac i hin.le]
        obtain ⟨pay, h1, h2, h3, h4, h5⟩ := hitems i hin
        have hb := hbnd i pay h1
        have hll := lenOfLen_le _ (byteAt_lt S hc.nib (itemOffset S i))
        unfold itemFits hdrLen
        rw [h5]
        have h2l := lpm_two (mx a i)
        by_cases h56 : pay.length < 56
        · rw [if_pos h56]
          refine ⟨by omega, ?_⟩
          split_ifs <;> omega
        · rw [if_neg h56]
          have hm : 128 ≤ a.fieldMax.getD i 0 ∧ a.fieldMax.getD i 0 < 2 ^ 17 := by
            rcases hmax i hin with h | h
            · omega
            · exact h
          obtain ⟨h4', h6⟩ := lpm_val _ hm.1 hm.2
          have hl2 := lenBytes_length_le pay.length 2 (by omega)
          change 2 * (lenBytes pay.length).length ≤ lenPrefixMaxHexs (a.fieldMax.getD i 0) ∧
            (if byteAt S (itemOffset S i) < 128 then 0 else 2 + 2 * (lenBytes pay.length).length)
              < 2 ^ (lenPrefixMaxHexs (a.fieldMax.getD i 0)).size
          refine ⟨by omega, ?_⟩
          split_ifs <;> omega
  have hr := rlpArrayCheck_eq hp a hwf inp S hc ((items.length : ℕ) : F p)
  rw [hnum, if_pos hcond] at hr
  refine ⟨_, hr, ?_⟩
  have hex := arrayCheck_exact hp a hwf inp S hc ((items.length : ℕ) : F p) (by rw [hnum]; exact hn)
    (by rw [hnum]; intro i hi heq; rw [hac i hi.le]; exact hfix i hi heq) _ hr
  rw [hnum] at hex
  have htot : listHdr (byteAt S 0) + declared S = 2 * (encodeList items).length := by
    unfold declared encodeList
    rw [if_pos (show 0xc0 ≤ byteAt S 0 from hl), hpay0, hhdr, List.length_append]; ring
  refine ⟨hex.1.2 ?_, by rw [hex.2.1, htot], ?_⟩
  · rw [if_pos hl, emptyLists_zero _ _ (fun i hi => ?_), if_pos]
    · rw [htot, hoff _ le_rfl, List.take_length, hhdr]
      unfold encodeList
      rw [List.length_append]; ring
    · obtain ⟨pay, h1, h2, h3, -⟩ := hitems i hi
      exact h3
  · intro i pay hp'
    have hi : i < items.length := by
      rw [he.length_eq]; exact (List.getElem?_eq_some_iff.1 hp').1
    obtain ⟨pay', h1, h2, h3, h4, h5⟩ := hitems i hi
    rw [hp'] at h1
    obtain rfl := Option.some.inj h1
    obtain ⟨g1, g2⟩ := hex.2.2.2.2.1 i hi
    refine ⟨by rw [g1, h2], _, g2, ?_⟩
    have hend : itemOffset S i + itemLen S (itemOffset S i) ≤ ns.length := by
      have hm := itemOffset_mono S (show i + 1 ≤ items.length by omega)
      rw [itemOffset] at hm
      have : itemOffset S items.length = 2 * (encodeList items).length := by
        rw [hoff _ le_rfl, List.take_length, hhdr]
        unfold encodeList
        rw [List.length_append]; ring
      have : ns.length = 2 * (encodeList items).length + pad.length := by
        rw [hns, List.length_append, nibblesOf_length]
      omega
    unfold itemLen at hend
    apply List.ext_getElem?
    intro j
    by_cases hj : j < 2 * pay.length
    · rw [List.getElem?_take_of_lt hj, hc.rot _ j (by omega), List.getElem?_map,
        h4 j (by rw [nibblesOf_length]; exact hj)]
      have hj' : j < (nibblesOf pay).length := by rw [nibblesOf_length]; exact hj
      rw [List.getElem?_eq_getElem hj', List.getD_eq_getElem _ _ hj']
      rfl
    · rw [List.getElem?_eq_none (by simp; omega), List.getElem?_eq_none (by simp [nibblesOf_length]; omega)]

/-! ### Parameter sets used in the repository satisfy the hypotheses of C11/C12/C14 -/

/-- mpt/eth_proof.go:56 account value -/
def accountParams : ArrayCheck := ⟨228, 4, 4, [0, 0, 64, 64], [64, 24, 64, 64]⟩
/-- rlp/rlp.go:24-30 -/
def txLeafParams : ArrayCheck := ⟨4352, 2, 4, [0, 0], [2, 4346]⟩
/-- rlp/rlp.go:32-38 -/
def signedTxParams : ArrayCheck :=
  ⟨4346, 12, 6, [0,0,0,0,0,0,0,0,0,0,0,0], [16,16,16,16,8,40,64,4030,2,2,64,64]⟩

instance (a : ArrayCheck) : Decidable a.WF :=
  decidable_of_iff (2 + a.arrayPrefixMaxHexLen ≤ a.maxHexLen ∧ a.maxFields ≤ a.fieldMin.length ∧
    a.maxFields ≤ a.fieldMax.length ∧ (∀ i < a.maxFields, a.fieldMin.getD i 0 ≤ a.fieldMax.getD i 0) ∧
    (∀ i < a.maxFields, a.fieldMax.getD i 0 < 2 ^ 60) ∧
    (∀ i < a.maxFields, 2 + lenPrefixMaxHexs (a.fieldMax.getD i 0) ≤ a.maxHexLen) ∧
    a.maxFields < 2 ^ 60 ∧ a.maxHexLen < 2 ^ 60)
    ⟨fun ⟨h1, h2, h3, h4, h5, h6, h7, h8⟩ => ⟨h1, h2, h3, h4, h5, h6, h7, h8⟩,
     fun ⟨h1, h2, h3, h4, h5, h6, h7, h8⟩ => ⟨h1, h2, h3, h4, h5, h6, h7, h8⟩⟩

example : accountParams.WF ∧ txLeafParams.WF ∧ signedTxParams.WF := by decide

/-- Non-vacuity of C12: the account `[nonce 5, balance 0x0102, 32-byte root, 32-byte code hash]`. -/
example : List.Forall₂ Encodes [[5], [0x82, 1, 2], 0xa0 :: List.replicate 32 7, 0xa0 :: List.replicate 32 9]
    [[5], [1, 2], List.replicate 32 7, List.replicate 32 9] := by
  refine .cons (Or.inl (by decide)) (.cons (Or.inl (by decide)) (.cons (Or.inl (by decide))
    (.cons (Or.inl (by decide)) .nil)))

end Verif.Rlp
