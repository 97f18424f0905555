import Verif.Rlp.TxLeafProps2

/-! # C69: what an accepted leaf looks like (soundness, with the quirks of the nested checker as hypotheses) -/

set_option linter.unusedSectionVars false

namespace Verif.Rlp
open Api Spec.Rlp
variable {p : ℕ} [Fact p.Prime]

/-- where the nested checker hands out item `i` of a stream: the payload of a string, the whole of a list -/
def Spec.outOffset (S : ℕ → ℕ) (i : ℕ) : ℕ :=
  itemOffset S i + (if isList S (itemOffset S i) then 0 else hdrLen (byteAt S (itemOffset S i)))

/-- the length it reports -/
def Spec.outLen (S : ℕ → ℕ) (i : ℕ) : ℕ :=
  if isList S (itemOffset S i) then itemLen S (itemOffset S i) else payLen S (itemOffset S i)

/-- the nibbles in which the twelve items are looked for: the second item of the leaf without its first byte -/
def Spec.bodyNibbles (ns : List ℕ) : List ℕ := ((ns.rotate (Spec.outOffset (cyc ns) 1)).drop 2).take 4346

theorem bind_some_inv {α β : Type} {x : Option α} {f : α → Option β} {b : β} (h : (x >>= f) = some b) :
    ∃ a, x = some a ∧ f a = some b := by
  cases x with
  | none => cases h
  | some a => exact ⟨a, rfl, h⟩

theorem assertEq_inv {x y : F p} {u : Unit} (h : assertEq x y = some u) : x = y := by
  unfold assertEq at h
  split at h
  · assumption
  · cases h

theorem sliceTo_inv {x y : List (F p)} {n : ℕ} (h : sliceTo x n = some y) : y = x.take n := by
  unfold sliceTo at h
  split at h
  · exact (Option.some.inj h).symm
  · cases h

theorem sliceFrom_inv {x y : List (F p)} {n : ℕ} (h : sliceFrom x n = some y) : y = x.drop n := by
  unfold sliceFrom at h
  split at h
  · exact (Option.some.inj h).symm
  · cases h

/-- what a successful run did, step by step -/
theorem decode_inv (data : List (F p)) (d : TxDecoded p) (h : decodeTxLeafRlp data = some d) :
    ∃ o i : AcOut p, ∃ sg : List (F p), rlpNestArrayCheck txLeafParams data = some o ∧ o.out = 1 ∧
      o.fields[1]? = some sg ∧ d.signedTxRlp = sg ∧
      rlpNestArrayCheck signedTxParams (sg.drop 2) = some i ∧ i.out = 1 ∧
      (∃ f, i.fields[0]? = some f ∧ d.tx.chainId = f.take 16) ∧ (∃ f, i.fields[1]? = some f ∧ d.tx.nonce = f.take 16) ∧
      (∃ f, i.fields[2]? = some f ∧ d.tx.maxPriorityGasPrice = f.take 16) ∧
      (∃ f, i.fields[3]? = some f ∧ d.tx.maxFeePerGas = f.take 16) ∧
      (∃ f, i.fields[4]? = some f ∧ d.tx.gasLimit = f.take 8) ∧ (∃ f, i.fields[5]? = some f ∧ d.tx.toAddr = f.take 40) ∧
      (∃ f, i.fields[6]? = some f ∧ d.tx.value = f.take 64) ∧
      (∃ f l, i.fields[9]? = some f ∧ i.lens[9]? = some l ∧ hexToDecimal f 2 l = some d.tx.v) ∧
      (∃ f l, i.fields[10]? = some f ∧ i.lens[10]? = some l ∧ hex64To2Fr f l = some d.tx.r) ∧
      (∃ f l, i.fields[11]? = some f ∧ i.lens[11]? = some l ∧ hex64To2Fr f l = some d.tx.s) ∧
      d.fieldsHexLen = i.lens.take 7 ++ [40] := by
  unfold decodeTxLeafRlp at h
  obtain ⟨o, ho1, h⟩ := bind_some_inv h
  obtain ⟨u, ho2, h⟩ := bind_some_inv h
  obtain ⟨sg, ho3, h⟩ := bind_some_inv h
  obtain ⟨bd, hb, h⟩ := bind_some_inv h
  obtain ⟨i, hi1, h⟩ := bind_some_inv h
  obtain ⟨u', hi2, h⟩ := bind_some_inv h
  obtain ⟨f0, e0, h⟩ := bind_some_inv h
  obtain ⟨x0, s0, h⟩ := bind_some_inv h
  obtain ⟨f1, e1, h⟩ := bind_some_inv h
  obtain ⟨x1, s1, h⟩ := bind_some_inv h
  obtain ⟨f2, e2, h⟩ := bind_some_inv h
  obtain ⟨x2, s2, h⟩ := bind_some_inv h
  obtain ⟨f3, e3, h⟩ := bind_some_inv h
  obtain ⟨x3, s3, h⟩ := bind_some_inv h
  obtain ⟨f4, e4, h⟩ := bind_some_inv h
  obtain ⟨x4, s4, h⟩ := bind_some_inv h
  obtain ⟨f5, e5, h⟩ := bind_some_inv h
  obtain ⟨x5, s5, h⟩ := bind_some_inv h
  obtain ⟨f6, e6, h⟩ := bind_some_inv h
  obtain ⟨x6, s6, h⟩ := bind_some_inv h
  obtain ⟨f9, e9, h⟩ := bind_some_inv h
  obtain ⟨l9, g9, h⟩ := bind_some_inv h
  obtain ⟨v, hv, h⟩ := bind_some_inv h
  obtain ⟨f10, e10, h⟩ := bind_some_inv h
  obtain ⟨l10, g10, h⟩ := bind_some_inv h
  obtain ⟨r, hr, h⟩ := bind_some_inv h
  obtain ⟨f11, e11, h⟩ := bind_some_inv h
  obtain ⟨l11, g11, h⟩ := bind_some_inv h
  obtain ⟨s, hs, h⟩ := bind_some_inv h
  have hd := (Option.some.inj h).symm
  subst hd
  rw [sliceFrom_inv hb] at hi1
  exact ⟨o, i, sg, ho1, assertEq_inv ho2, ho3, rfl, hi1, assertEq_inv hi2, ⟨f0, e0, sliceTo_inv s0⟩,
    ⟨f1, e1, sliceTo_inv s1⟩, ⟨f2, e2, sliceTo_inv s2⟩, ⟨f3, e3, sliceTo_inv s3⟩, ⟨f4, e4, sliceTo_inv s4⟩,
    ⟨f5, e5, sliceTo_inv s5⟩, ⟨f6, e6, sliceTo_inv s6⟩, ⟨f9, l9, e9, g9, hv⟩, ⟨f10, l10, e10, g10, hr⟩,
    ⟨f11, l11, e11, g11, hs⟩, rfl⟩

/-- the first `w` nibbles of item `i` of the body, as the decoder returns them -/
def Spec.slotAt (ns : List ℕ) (i w : ℕ) : List (F p) :=
  ((ns.rotate (Spec.outOffset (cyc ns) i)).take w).map (Nat.cast : ℕ → F p)

/-- **C69 (soundness, partial).** For any 4352 nibbles on which `DecodeTxLeafRlp` is satisfied, provided no item is the
string `00` or (except the access list) the empty list: the leaf is a list of exactly two items, its second item without
the first byte starts with a list header, and the results are the items of that list in order (numbers left-aligned with
their lengths, `V`, `R`, `S` as numbers). If the access list is not empty-list, the twelve items also fill the announced
length. Missing: for the usual empty access list the announced length is not checked, and the type byte never is
(`C69_type_and_length_unchecked`). -/
theorem C69_decode_sound_partial (hp : 2 ^ 128 < p) (ns : List ℕ) (hnib : ∀ x ∈ ns, x < 16) (hlen : ns.length = 4352)
    (data : List (F p)) (hin : data.take 4352 = ns.map (Nat.cast : ℕ → F p))
    (d : TxDecoded p) (hd : decodeTxLeafRlp data = some d)
    (hout : ∀ i < 2, byteAt (cyc ns) (itemOffset (cyc ns) i) ≠ 0 ∧ byteAt (cyc ns) (itemOffset (cyc ns) i) ≠ 0xc0)
    (T : ℕ → ℕ) (hT : T = cyc (Spec.bodyNibbles ns))
    (hz : ∀ i < 12, byteAt T (itemOffset T i) ≠ 0)
    (hne : ∀ i < 12, i ≠ 8 → byteAt T (itemOffset T i) ≠ 0xc0) :
    IsListOf (cyc ns) 2 ∧ isList T 0 ∧ (byteAt T (itemOffset T 8) ≠ 0xc0 → IsListOf T 12) ∧
    d.signedTxRlp = (ns.rotate (Spec.outOffset (cyc ns) 1)).map (Nat.cast : ℕ → F p) ∧
    d.tx.chainId = Spec.slotAt (Spec.bodyNibbles ns) 0 16 ∧ d.tx.nonce = Spec.slotAt (Spec.bodyNibbles ns) 1 16 ∧
    d.tx.maxPriorityGasPrice = Spec.slotAt (Spec.bodyNibbles ns) 2 16 ∧
    d.tx.maxFeePerGas = Spec.slotAt (Spec.bodyNibbles ns) 3 16 ∧
    d.tx.gasLimit = Spec.slotAt (Spec.bodyNibbles ns) 4 8 ∧ d.tx.toAddr = Spec.slotAt (Spec.bodyNibbles ns) 5 40 ∧
    d.tx.value = Spec.slotAt (Spec.bodyNibbles ns) 6 64 ∧
    (Spec.outLen T 9 ≤ 2 → d.tx.v = Spec.beField (Spec.slotAt (Spec.bodyNibbles ns) 9 (Spec.outLen T 9))) ∧
    (Spec.outLen T 10 ≤ 64 → d.tx.r.1 + 2 ^ 248 * d.tx.r.2 =
      Spec.beField (Spec.slotAt (Spec.bodyNibbles ns) 10 (Spec.outLen T 10))) ∧
    (Spec.outLen T 11 ≤ 64 → d.tx.s.1 + 2 ^ 248 * d.tx.s.2 =
      Spec.beField (Spec.slotAt (Spec.bodyNibbles ns) 11 (Spec.outLen T 11))) ∧
    (∀ i < 7, d.fieldsHexLen[i]? = some ((Spec.outLen T i : ℕ) : F p)) := by
  obtain ⟨o, i, sg, ho1, ho2, ho3, hsg, hi1, hi2, ⟨f0, e0, s0⟩, ⟨f1, e1, s1⟩, ⟨f2, e2, s2⟩, ⟨f3, e3, s3⟩, ⟨f4, e4, s4⟩,
    ⟨f5, e5, s5⟩, ⟨f6, e6, s6⟩, ⟨f9, l9, e9, g9, hv⟩, ⟨f10, l10, e10, g10, hr⟩, ⟨f11, l11, e11, g11, hs⟩, hl⟩ :=
    decode_inv data d hd
  have hfo : ∀ i < 2, txLeafParams.fieldMin.getD i 0 ≠ txLeafParams.fieldMax.getD i 0 := by
    intro i hi; interval_cases i <;> decide
  have hfi : ∀ i < 12, signedTxParams.fieldMin.getD i 0 ≠ signedTxParams.fieldMax.getD i 0 := by
    intro i hi; interval_cases i <;> decide
  have hA := C11_rlpNest_sound_partial hp txLeafParams (by decide) ns hnib hlen data hin o ho1
    (fun i hi h => absurd h (hfo i hi)) (fun i hi => (hout i hi).1) (fun i hi => (hout i hi).2)
  have hB := (C13_rlpNest_exact hp txLeafParams (by decide) ns hnib hlen data hin o ho1
    (fun i hi h => absurd h (hfo i hi)) (fun i hi => (hout i hi).1)).2.2 1 (by decide)
  have hsg' : sg = (ns.rotate (Spec.outOffset (cyc ns) 1)).map (Nat.cast : ℕ → F p) := by
    have := hB.2
    rw [ho3] at this
    rw [Option.some.inj this, List.map_rotate]
    rfl
  set bn := Spec.bodyNibbles ns with hbn
  have hbl : bn.length = 4346 := by
    rw [hbn]; unfold Spec.bodyNibbles; simp [hlen]
  have hbnib : ∀ x ∈ bn, x < 16 := by
    intro x hx
    rw [hbn] at hx
    unfold Spec.bodyNibbles at hx
    exact hnib x (List.mem_rotate.1 (List.mem_of_mem_drop (List.mem_of_mem_take hx)))
  have hbin : (sg.drop 2).take 4346 = bn.map (Nat.cast : ℕ → F p) := by
    rw [hsg', hbn]; unfold Spec.bodyNibbles
    rw [List.map_take, List.map_drop]
  subst hT
  have hE := C13_rlpNest_exact hp signedTxParams (by decide) bn hbnib hbl (sg.drop 2) hbin i hi1
    (fun i hi h => absurd h (hfi i hi)) hz
  have hem : emptyLists (cyc bn) 12 = if byteAt (cyc bn) (itemOffset (cyc bn) 8) = 0xc0 then 1 else 0 := by
    have h8 : emptyLists (cyc bn) 8 = 0 := emptyLists_zero _ _ (fun j hj => hne j (by omega) (by omega))
    rw [emptyLists_succ, emptyLists_succ, emptyLists_succ, emptyLists_succ, h8, if_neg (hne 9 (by norm_num) (by norm_num)),
      if_neg (hne 10 (by norm_num) (by norm_num)), if_neg (hne 11 (by norm_num) (by norm_num))]
    omega
  have hacc := hE.1.1 hi2
  rw [show signedTxParams.maxFields = 12 from rfl, hem] at hacc
  have hfield : ∀ (k : ℕ) (f : List (F p)) (w : ℕ), k < 12 → i.fields[k]? = some f →
      f.take w = Spec.slotAt bn k w ∧ f.length = 4346 := by
    intro k f w hk hf
    have h2 := (hE.2.2 k hk).2
    rw [hf] at h2
    rw [Option.some.inj h2]
    refine ⟨?_, by simp [hbl]⟩
    unfold Spec.slotAt Spec.outOffset
    rw [List.map_take, List.map_rotate]
  have hlens : ∀ k < 12, i.lens[k]? = some ((Spec.outLen (cyc bn) k : ℕ) : F p) := fun k hk => (hE.2.2 k hk).1
  refine ⟨hA.1 ho2, ?_, ?_, by rw [hsg, hsg'], by rw [s0]; exact (hfield 0 f0 16 (by norm_num) e0).1,
    by rw [s1]; exact (hfield 1 f1 16 (by norm_num) e1).1, by rw [s2]; exact (hfield 2 f2 16 (by norm_num) e2).1,
    by rw [s3]; exact (hfield 3 f3 16 (by norm_num) e3).1, by rw [s4]; exact (hfield 4 f4 8 (by norm_num) e4).1,
    by rw [s5]; exact (hfield 5 f5 40 (by norm_num) e5).1, by rw [s6]; exact (hfield 6 f6 64 (by norm_num) e6).1,
    ?_, ?_, ?_, ?_⟩
  · by_contra hcon
    rw [if_neg hcon] at hacc
    have hdec : declared (cyc bn) = 0 := by
      unfold declared; rw [if_neg (show ¬ 0xc0 ≤ byteAt (cyc bn) 0 from hcon)]
    have hgt : itemOffset (cyc bn) 1 ≤ itemOffset (cyc bn) 12 := itemOffset_mono _ (by norm_num)
    have ge1 : listHdr (byteAt (cyc bn) 0) + 2 ≤ itemOffset (cyc bn) 1 :=
      Nat.add_le_add_left (itemLen_ge (cyc bn) (itemOffset (cyc bn) 0)) _
    rw [hdec] at hacc
    generalize itemOffset (cyc bn) 12 = x at *
    generalize itemOffset (cyc bn) 1 = y at *
    split_ifs at hacc <;> omega
  · intro h8
    rw [if_neg h8] at hacc
    have hS : ∀ k, cyc bn k < 16 := fun k => getD_lt hbnib _
    rw [isListOf_iff _ hS]
    exact (two_iff (0xc0 ≤ byteAt (cyc bn) 0) (itemOffset (cyc bn) 12 = listHdr (byteAt (cyc bn) 0) +
      declared (cyc bn))).1 (by simpa [isList] using hacc)
  · intro h9
    obtain ⟨q1, q2⟩ := hfield 9 f9 (Spec.outLen (cyc bn) 9) (by norm_num) e9
    rw [hlens 9 (by norm_num)] at g9
    rw [← Option.some.inj g9, C10_hexToDecimal f9 2 _ (by norm_num) (by omega) (by omega) h9] at hv
    rw [← Option.some.inj hv, q1]
  · intro h10
    obtain ⟨q1, q2⟩ := hfield 10 f10 (Spec.outLen (cyc bn) 10) (by norm_num) e10
    rw [hlens 10 (by norm_num)] at g10
    have heven : Spec.outLen (cyc bn) 10 ≠ 63 := by
      unfold Spec.outLen itemLen hdrLen payLen
      simp only
      split_ifs <;> omega
    obtain ⟨lo, hi, a1, a2, -, -⟩ := C10_hex64To2Fr f10 (Spec.outLen (cyc bn) 10) (by omega) (by omega) h10 heven
    rw [← Option.some.inj g10, a1] at hr
    rw [← Option.some.inj hr, a2, q1]
  · intro h11
    obtain ⟨q1, q2⟩ := hfield 11 f11 (Spec.outLen (cyc bn) 11) (by norm_num) e11
    rw [hlens 11 (by norm_num)] at g11
    have heven : Spec.outLen (cyc bn) 11 ≠ 63 := by
      unfold Spec.outLen itemLen hdrLen payLen
      simp only
      split_ifs <;> omega
    obtain ⟨lo, hi, a1, a2, -, -⟩ := C10_hex64To2Fr f11 (Spec.outLen (cyc bn) 11) (by omega) (by omega) h11 heven
    rw [← Option.some.inj g11, a1] at hs
    rw [← Option.some.inj hs, a2, q1]
  · intro k hk
    rw [hl, List.getElem?_append_left (by
      rw [List.length_take]
      have := (List.getElem?_eq_some_iff.1 (hlens 11 (by norm_num))).1
      omega), List.getElem?_take_of_lt hk]
    exact hlens k (by omega)

/-- The sample transaction's leaf meets the hypotheses on the items. -/
def sampleCells : List ℕ := nibblesOf (Spec.leaf [0x20] sampleTx.signed) ++ List.replicate 4114 0

example : (∀ i < 2, byteAt (cyc sampleCells) (itemOffset (cyc sampleCells) i) ≠ 0 ∧
      byteAt (cyc sampleCells) (itemOffset (cyc sampleCells) i) ≠ 0xc0) ∧
    (∀ i < 12, byteAt (cyc (Spec.bodyNibbles sampleCells)) (itemOffset (cyc (Spec.bodyNibbles sampleCells)) i) ≠ 0) ∧
    (∀ i < 12, i ≠ 8 →
      byteAt (cyc (Spec.bodyNibbles sampleCells)) (itemOffset (cyc (Spec.bodyNibbles sampleCells)) i) ≠ 0xc0) := by
  decide +kernel

end Verif.Rlp
