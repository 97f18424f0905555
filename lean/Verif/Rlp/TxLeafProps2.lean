import Verif.Rlp.TxLeafProps

/-! # C69: theorems on `DecodeTxLeafRlp` -/

set_option linter.unusedSectionVars false

namespace Verif.Rlp
open Api Spec.Rlp
open Spec (Tx)
variable {p : ℕ} [Fact p.Prime]

/-- The documented sizes: 8-byte numbers, 4-byte gas limit, 20-byte address (or none), 32-byte value and signature, call
data of at most 2015 bytes (4030 nibbles), and the empty access list. Numbers are minimal (in particular never the byte
`00`), and the call data is not the single byte `00`. -/
structure Spec.Tx.Valid (t : Tx) : Prop where
  bytes : ∀ x ∈ t.strings, ∀ b ∈ x, b < 256
  nz : ∀ x ∈ t.strings, x ≠ [0]
  chainId : t.chainId.length ≤ 8
  nonce : t.nonce.length ≤ 8
  tip : t.tip.length ≤ 8
  fee : t.fee.length ≤ 8
  gas : t.gas.length ≤ 4
  toAddr : t.toAddr.length ≤ 20
  value : t.value.length ≤ 32
  data : t.data.length ≤ 2015
  v : t.v.length ≤ 1
  r : t.r.length ≤ 32
  s : t.s.length ≤ 32
  access : t.access = []

theorem Spec.Tx.Valid.fits {t : Tx} (h : t.Valid) : t.Fits where
  bytes := h.bytes
  nz := h.nz
  chainId := h.chainId.trans (by norm_num)
  nonce := h.nonce.trans (by norm_num)
  tip := h.tip.trans (by norm_num)
  fee := h.fee.trans (by norm_num)
  gas := h.gas.trans (by norm_num)
  toAddr := h.toAddr.trans (by norm_num)
  value := h.value.trans (by norm_num)
  data := h.data.trans (by norm_num)
  v := h.v
  r := h.r
  s := h.s

/-- A slot in which the bytes fit: its first `2·len` nibbles are exactly the bytes. -/
theorem slot_full {x : List (F p)} {w : ℕ} {bs : List ℕ} (h : Spec.Slot x w bs) (hw : 2 * bs.length ≤ w) :
    x.length = w ∧ x.take (2 * bs.length) = (nibblesOf bs).map (Nat.cast : ℕ → F p) := by
  refine ⟨h.1, ?_⟩
  rw [h.2, List.take_of_length_le (by rw [nibblesOf_length]; exact hw)]

theorem content_bytes (ty : ℕ) (hty : ty < 256) (hdr : List ℕ) (hhb : ∀ b ∈ hdr, b < 256) (fl : List ℕ)
    (hib : ∀ b ∈ fl, b < 256) : ∀ b ∈ ty :: (hdr ++ fl), b < 256 := by
  intro b hb
  rcases List.mem_cons.1 hb with rfl | hb
  · exact hty
  · rcases List.mem_append.1 hb with h | h
    · exact hhb b h
    · exact hib b h

theorem signed_header (n : ℕ) (hn : n < 65536) :
    (∀ b ∈ lenHeader 0xc0 0xf7 n, b < 256) ∧ (lenHeader 0xc0 0xf7 n).length ≤ 3 ∧
    0xc0 ≤ (lenHeader 0xc0 0xf7 n).headD 0 ∧
    listHdr ((lenHeader 0xc0 0xf7 n).headD 0) = 2 * (lenHeader 0xc0 0xf7 n).length := by
  obtain ⟨v, rest, h1, h2, h3, h4⟩ := listHeader_spec n (by omega)
  refine ⟨lenHeader_bytes _ _ _ (by norm_num) (by norm_num) (by omega), lenHeader_length_le _ _ n 2 (by omega), ?_, ?_⟩
  · rw [h1]; exact h2
  · rw [h1, List.headD_cons, h4, List.length_cons]; ring

theorem leaf_length (path content : List ℕ) : content.length ≤ (Spec.leaf path content).length := by
  have h1 := encodeString_length_le content
  unfold Spec.leaf encodeList
  simp only [List.flatten_cons, List.flatten_nil, List.append_nil, List.length_append]
  omega

/-- **C69 (every transaction is decoded).** For every EIP-1559 transaction with an empty access list within the
documented sizes, in a leaf with at most one path byte, padded with any nibbles to 4352 cells, `DecodeTxLeafRlp` is
satisfiable; it returns the envelope, every number left-aligned with its length, the address and the value, and the
numbers `V`, `R`, `S`. -/
theorem C69_decode_transaction (hp : 2 ^ 128 < p) (t : Tx) (ht : t.Valid)
    (path : List ℕ) (hpl : path.length ≤ 1) (hp0 : path ≠ [0]) (hpb : ∀ b ∈ path, b < 256)
    (pad : List ℕ) (hpad : ∀ x ∈ pad, x < 16)
    (hsize : (nibblesOf (Spec.leaf path t.signed) ++ pad).length = 4352)
    (data : List (F p))
    (hin : data.take 4352 = (nibblesOf (Spec.leaf path t.signed) ++ pad).map (Nat.cast : ℕ → F p)) :
    ∃ d, decodeTxLeafRlp data = some d ∧ Spec.DecodesTo d t t.signed ∧
      d.tx.chainId.take (2 * t.chainId.length) = (nibblesOf t.chainId).map (Nat.cast : ℕ → F p) ∧
      d.tx.nonce.take (2 * t.nonce.length) = (nibblesOf t.nonce).map (Nat.cast : ℕ → F p) ∧
      d.tx.maxPriorityGasPrice.take (2 * t.tip.length) = (nibblesOf t.tip).map (Nat.cast : ℕ → F p) ∧
      d.tx.maxFeePerGas.take (2 * t.fee.length) = (nibblesOf t.fee).map (Nat.cast : ℕ → F p) ∧
      d.tx.gasLimit.take (2 * t.gas.length) = (nibblesOf t.gas).map (Nat.cast : ℕ → F p) ∧
      d.tx.toAddr.take (2 * t.toAddr.length) = (nibblesOf t.toAddr).map (Nat.cast : ℕ → F p) ∧
      d.tx.value.take (2 * t.value.length) = (nibblesOf t.value).map (Nat.cast : ℕ → F p) := by
  have hl1 := leaf_length path t.signed
  have hl2 : t.items.flatten.length < 65536 := by
    rw [List.length_append, nibblesOf_length] at hsize
    have : t.signed.length = 1 + ((lenHeader 0xc0 0xf7 t.items.flatten.length).length + t.items.flatten.length) := by
      unfold Spec.Tx.signed encodeList
      rw [List.length_cons, List.length_append]; ring
    omega
  obtain ⟨h1, h2, h3, h4⟩ := signed_header _ hl2
  obtain ⟨d, hd, hD⟩ := decode_run hp t ht.fits ht.access path hpl hp0 hpb 2 (by norm_num) _ h1 h2 h3 h4 pad hpad hsize
    data hin
  have w := ht
  refine ⟨d, hd, hD, ?_, ?_, ?_, ?_, ?_, ?_, ?_⟩
  · exact (slot_full hD.chainId (by have := ht.chainId; omega)).2
  · exact (slot_full hD.nonce (by have := ht.nonce; omega)).2
  · exact (slot_full hD.tip (by have := ht.tip; omega)).2
  · exact (slot_full hD.fee (by have := ht.fee; omega)).2
  · exact (slot_full hD.gas (by have := ht.gas; omega)).2
  · exact (slot_full hD.toAddr (by have := ht.toAddr; omega)).2
  · exact (slot_full hD.value (by have := ht.value; omega)).2

/-- **C69 (disagreement).** Neither the type byte nor the length announced by the header of the signed transaction is
checked: with any type byte `ty` and any list header `hdr` of one to three bytes in front of the twelve items, the leaf is
decoded to the same fields. -/
theorem C69_type_and_length_unchecked (hp : 2 ^ 128 < p) (t : Tx) (ht : t.Valid)
    (path : List ℕ) (hpl : path.length ≤ 1) (hp0 : path ≠ [0]) (hpb : ∀ b ∈ path, b < 256)
    (ty : ℕ) (hty : ty < 256) (hdr : List ℕ) (hhb : ∀ b ∈ hdr, b < 256) (hh3 : hdr.length ≤ 3)
    (hl : 0xc0 ≤ hdr.headD 0) (hhl : listHdr (hdr.headD 0) = 2 * hdr.length)
    (pad : List ℕ) (hpad : ∀ x ∈ pad, x < 16)
    (hsize : (nibblesOf (Spec.leaf path (ty :: (hdr ++ t.items.flatten))) ++ pad).length = 4352)
    (data : List (F p))
    (hin : data.take 4352 = (nibblesOf (Spec.leaf path (ty :: (hdr ++ t.items.flatten))) ++ pad).map
      (Nat.cast : ℕ → F p)) :
    ∃ d, decodeTxLeafRlp data = some d ∧ Spec.DecodesTo d t (ty :: (hdr ++ t.items.flatten)) :=
  decode_run hp t ht.fits ht.access path hpl hp0 hpb ty hty hdr hhb hh3 hl hhl pad hpad hsize data hin

/-- **C69 (disagreement).** A recipient of 21 to 31 bytes is accepted; the returned address is its first 20 bytes and the
reported length the real one. -/
theorem C69_overlong_recipient (hp : 2 ^ 128 < p) (t : Tx) (ht : t.Fits) (ha : t.access = [])
    (hto : 21 ≤ t.toAddr.length)
    (path : List ℕ) (hpl : path.length ≤ 1) (hp0 : path ≠ [0]) (hpb : ∀ b ∈ path, b < 256)
    (pad : List ℕ) (hpad : ∀ x ∈ pad, x < 16)
    (hsize : (nibblesOf (Spec.leaf path t.signed) ++ pad).length = 4352)
    (data : List (F p))
    (hin : data.take 4352 = (nibblesOf (Spec.leaf path t.signed) ++ pad).map (Nat.cast : ℕ → F p)) :
    ∃ d, decodeTxLeafRlp data = some d ∧
      d.tx.toAddr = (nibblesOf (t.toAddr.take 20)).map (Nat.cast : ℕ → F p) ∧
      d.fieldsHexLen[5]? = some ((2 * t.toAddr.length : ℕ) : F p) := by
  have hl1 := leaf_length path t.signed
  have hl2 : t.items.flatten.length < 65536 := by
    rw [List.length_append, nibblesOf_length] at hsize
    have : t.signed.length = 1 + ((lenHeader 0xc0 0xf7 t.items.flatten.length).length + t.items.flatten.length) := by
      unfold Spec.Tx.signed encodeList
      rw [List.length_cons, List.length_append]; ring
    omega
  obtain ⟨h1, h2, h3, h4⟩ := signed_header _ hl2
  obtain ⟨d, hd, hD⟩ := decode_run hp t ht ha path hpl hp0 hpb 2 (by norm_num) _ h1 h2 h3 h4 pad hpad hsize
    data hin
  refine ⟨d, hd, ?_, by rw [hD.lens]; rfl⟩
  have h := hD.toAddr
  have e : d.tx.toAddr.take (2 * t.toAddr.length) = d.tx.toAddr := List.take_of_length_le (by rw [h.1]; omega)
  rw [← e, h.2]
  congr 1
  conv_lhs => rw [← List.take_append_drop 20 t.toAddr, nibblesOf_append]
  rw [List.take_left' (by rw [nibblesOf_length, List.length_take]; omega)]

/-- A concrete transaction meeting the hypotheses: chain 1, nonce 5, a 20-byte recipient, no value, four bytes of call
data, one-byte `V`, 32-byte `R` and `S`. -/
def sampleTx : Tx where
  chainId := [1]
  nonce := [5]
  tip := [0x3b, 0x9a, 0xca, 0x00]
  fee := [0x04, 0xa8, 0x17, 0xc8, 0x00]
  gas := [0x52, 0x08]
  toAddr := List.replicate 20 0x11
  value := []
  data := [0xa9, 0x05, 0x9c, 0xbb]
  access := []
  v := [1]
  r := List.replicate 32 0xaa
  s := List.replicate 32 0x77

example : sampleTx.Valid := by
  refine ⟨by decide, by decide, ?_, ?_, ?_, ?_, ?_, ?_, ?_, ?_, ?_, ?_, ?_, rfl⟩ <;> decide

theorem sampleTx_leaf : (Spec.leaf [0x20] sampleTx.signed).length = 119 := by decide +kernel

example : (nibblesOf (Spec.leaf [0x20] sampleTx.signed) ++ List.replicate 4114 0).length = 4352 := by
  rw [List.length_append, List.length_replicate, nibblesOf_length, sampleTx_leaf]

/-! ## Rejections -/

theorem decode_none_of (data sg bd : List (F p)) (o : AcOut p) (ho1 : rlpNestArrayCheck txLeafParams data = some o)
    (ho2 : o.out = 1) (ho3 : o.fields[1]? = some sg) (hb : sliceFrom sg 2 = some bd)
    (hi : ∀ i, rlpNestArrayCheck signedTxParams bd = some i → i.out ≠ 1) : decodeTxLeafRlp data = none := by
  have as1 : assertEq (1 : F p) 1 = some () := by unfold assertEq; rw [if_pos rfl]
  unfold decodeTxLeafRlp
  refine (obind ho1 _).trans ?_
  refine (obind (by rw [ho2]; exact as1) _).trans ?_
  refine (obind ho3 _).trans ?_
  refine (obind hb _).trans ?_
  cases h : rlpNestArrayCheck signedTxParams bd with
  | none => rfl
  | some i =>
    refine (obind rfl _).trans ?_
    have : assertEq i.out 1 = none := by unfold assertEq; rw [if_neg (hi i h)]
    rw [this]; rfl

/-- The inner checker's input, for any envelope content. -/
theorem inner_setup (hp : 2 ^ 128 < p) (path : List ℕ) (hpl : path.length ≤ 1) (hp0 : path ≠ [0])
    (hpb : ∀ b ∈ path, b < 256) (ty : ℕ) (hdr fl : List ℕ) (hcb : ∀ b ∈ ty :: (hdr ++ fl), b < 256)
    (hhpos : 0 < hdr.length) (pad : List ℕ) (hpad : ∀ x ∈ pad, x < 16)
    (hsize : (nibblesOf (Spec.leaf path (ty :: (hdr ++ fl))) ++ pad).length = 4352)
    (data : List (F p))
    (hin : data.take 4352 = (nibblesOf (Spec.leaf path (ty :: (hdr ++ fl))) ++ pad).map (Nat.cast : ℕ → F p)) :
    2 * (hdr ++ fl).length ≤ 4346 ∧ ∃ (bd : List (F p)) (ns : List ℕ),
      ((∀ i, rlpNestArrayCheck signedTxParams bd = some i → i.out ≠ 1) → decodeTxLeafRlp data = none) ∧
      bd.take 4346 = ns.map (Nat.cast : ℕ → F p) ∧ ns.length = 4346 ∧ (∀ x ∈ ns, x < 16) ∧
      ReadsAt (cyc ns) 0 (nibblesOf (hdr ++ fl)) ∧ byteAt (cyc ns) 0 = hdr.headD 0 := by
  obtain ⟨hcl, o, ho1, ho2, ns, ho3, ho4, ho5, ho6⟩ := outer_run hp path (ty :: (hdr ++ fl)) pad hpl hp0 hpb hcb
    (by rw [List.length_cons, List.length_append]; omega) hpad hsize data hin
  rw [List.length_cons] at hcl
  obtain ⟨hl', hreads⟩ := inner_reads ns _ ty ho4 hcl ho6
  refine ⟨by omega, (ns.map (Nat.cast : ℕ → F p)).drop 2, (ns.drop 2).take 4346, ?_, ?_, hl', ?_, hreads, ?_⟩
  · intro h
    refine decode_none_of data _ _ o ho1 ho2 ho3 ?_ h
    unfold sliceFrom; rw [if_pos (by simp [ho4])]
  · rw [List.map_take, List.map_drop]
  · exact fun x hx => ho5 x (List.mem_of_mem_drop (List.mem_of_mem_take hx))
  · cases hdr with
    | nil => simp at hhpos
    | cons v rest =>
      rw [List.cons_append] at hreads
      exact byteAt_of_reads hreads

/-- **C69 (disagreement).** A transaction with a non-empty access list is not decodable: whatever the type byte and the
header, the constraints are unsatisfiable. -/
theorem C69_access_list_rejected (hp : 2 ^ 128 < p) (t : Tx) (ht : t.Fits)
    (hab : ∀ x ∈ t.access, ∀ b ∈ x, b < 256) (hne : t.access.flatten ≠ [])
    (path : List ℕ) (hpl : path.length ≤ 1) (hp0 : path ≠ [0]) (hpb : ∀ b ∈ path, b < 256)
    (pad : List ℕ) (hpad : ∀ x ∈ pad, x < 16)
    (hsize : (nibblesOf (Spec.leaf path t.signed) ++ pad).length = 4352)
    (data : List (F p))
    (hin : data.take 4352 = (nibblesOf (Spec.leaf path t.signed) ++ pad).map (Nat.cast : ℕ → F p)) :
    decodeTxLeafRlp data = none := by
  have hl1 := leaf_length path t.signed
  have hl2 : t.items.flatten.length < 65536 := by
    rw [List.length_append, nibblesOf_length] at hsize
    have : t.signed.length = 1 + ((lenHeader 0xc0 0xf7 t.items.flatten.length).length + t.items.flatten.length) := by
      unfold Spec.Tx.signed encodeList
      rw [List.length_cons, List.length_append]; ring
    omega
  obtain ⟨h1, h2, h3, h4⟩ := signed_header _ hl2
  have hal : (encodeList t.access).length ≤ t.items.flatten.length := by
    unfold Spec.Tx.items
    simp only [List.flatten_cons, List.flatten_nil, List.length_append]
    omega
  have hael : (encodeList t.access).length = (lenHeader 0xc0 0xf7 t.access.flatten.length).length +
      t.access.flatten.length := by unfold encodeList; rw [List.length_append]
  have hpos := lenHeader_length_pos 0xc0 0xf7 t.access.flatten.length
  have hflp : 0 < t.access.flatten.length := List.length_pos_of_ne_nil hne
  have hs : ∀ x ∈ t.strings, x.length ≤ 2047 := by
    intro x hx
    have := ht.chainId; have := ht.nonce; have := ht.tip; have := ht.fee; have := ht.gas; have := ht.toAddr
    have := ht.value; have := ht.data; have := ht.v; have := ht.r; have := ht.s
    simp only [Spec.Tx.strings, List.mem_cons, List.not_mem_nil, or_false] at hx
    rcases hx with rfl|rfl|rfl|rfl|rfl|rfl|rfl|rfl|rfl|rfl|rfl <;> omega
  have hib : ∀ b ∈ t.items.flatten, b < 256 := by
    intro b hb
    obtain ⟨e, he, hb⟩ := List.mem_flatten.1 hb
    simp only [Spec.Tx.items, List.mem_cons, List.not_mem_nil, or_false] at he
    have key : ∀ x ∈ t.strings, b ∈ encodeString x → b < 256 := fun x hx =>
      encodeString_lt x (ht.bytes x hx) (by have := hs x hx; omega) b
    rcases he with rfl|rfl|rfl|rfl|rfl|rfl|rfl|rfl|rfl|rfl|rfl|rfl
    case inr.inr.inr.inr.inr.inr.inr.inr.inl =>
      unfold encodeList at hb
      rcases List.mem_append.1 hb with h | h
      · exact lenHeader_bytes _ _ _ (by norm_num) (by norm_num) (by omega) b h
      · obtain ⟨x, hx, hb⟩ := List.mem_flatten.1 h
        exact hab x hx b hb
    all_goals exact key _ (by simp [Spec.Tx.strings]) hb
  obtain ⟨hfit, bd, ns, hnone, hbd, hl', hnib, hreads, hb0⟩ := inner_setup hp path hpl hp0 hpb 2 _ t.items.flatten
    (content_bytes 2 (by norm_num) _ h1 _ hib) (lenHeader_length_pos _ _ _) pad hpad hsize data hin
  apply hnone
  intro i hi
  exfalso
  have hc : CellsOf (bd.take 4346) 4346 (cyc ns) := by
    rw [hbd]; exact cells_cyc hnib hl' (by norm_num)
  have he := tx_nestItems t ht
  obtain ⟨-, hit⟩ := nest_list_read (cyc ns) hc.nib _ t.items t.outs he (by
      intro q hq
      simp only [Spec.Tx.outs, List.mem_cons, List.not_mem_nil, or_false] at hq
      have key : ∀ x ∈ t.strings, x.length < 256 ^ 8 := fun x hx => by have := hs x hx; omega
      rcases hq with rfl|rfl|rfl|rfl|rfl|rfl|rfl|rfl|rfl|rfl|rfl|rfl
      case inr.inr.inr.inr.inr.inr.inr.inr.inl => omega
      all_goals exact key _ (by simp [Spec.Tx.strings]))
    (by rw [hb0, h4]) hreads
  have hz : ∀ i < 8, byteAt (cyc ns) (itemOffset (cyc ns) i) ≠ 0 := by
    intro i hi
    obtain ⟨enc, out, g1, g2, g3, g4, g5⟩ := hit i (show i < 12 by omega)
    exact (nestItem_read _ hc.nib i _ enc out g3 g5 g4).2.1
  have hfix : ∀ i < 12, mn signedTxParams i ≠ mx signedTxParams i := by
    intro i hi
    unfold mn mx signedTxParams
    interval_cases i <;> decide
  have hg8 := nOff_eq signedTxParams (cyc ns) 8 hz (fun j hj h => absurd h (hfix j (by omega)))
  obtain ⟨enc, out, g1, g2, g3, g4, g5⟩ := hit 8 (show 8 < 12 by omega)
  have hn8 := (nestItem_read _ hc.nib 8 _ enc out g3 g5 g4).2.2.1
  obtain rfl : out = encodeList t.access := (Option.some.inj g2).symm
  rw [rlpNestArrayCheck_eq hp signedTxParams (by decide) bd (cyc ns) hc] at hi
  split at hi
  · rename_i hcond
    have h9 := (hcond.2 9 (by decide)).1
    unfold gAlign at h9
    rw [if_neg (by norm_num)] at h9
    simp only [Nat.add_one_sub_one, hg8, hn8] at h9
    rcases h9 with h | h
    · exact hfix 8 (by norm_num) h
    · have h9 := h.2
      change _ < 0 + 2 ^ (Nat.size (2 - 0)) at h9
      rw [show Nat.size (2 - 0) = 2 by decide] at h9
      omega
  · cases hi

/-- an access list with one entry (an address without keys) -/
example : ({ sampleTx with access := [[0xd6, 0x94] ++ List.replicate 20 0x22 ++ [0xc0]] }).access.flatten ≠ [] := by
  decide

theorem declared_of_reads (S : ℕ → ℕ) (n : ℕ) (rest : List ℕ) (hn : n < 256 ^ 8)
    (h : ReadsAt S 0 (nibblesOf (lenHeader 0xc0 0xf7 n ++ rest))) : declared S = 2 * n := by
  have h0 := header_read S 0 n hn true rest (by simpa using h)
  have := h0.2.2.1 rfl
  unfold declared; rw [if_pos this, h0.1]

/-- the verdict of the nested checker in terms of its own bookkeeping -/
theorem nest_out (hp : 2 ^ 128 < p) (a : ArrayCheck) (hwf : a.WF) (inp : List (F p)) (S : ℕ → ℕ)
    (hc : CellsOf (inp.take a.maxHexLen) a.maxHexLen S) (r : AcOut p) (hr : rlpNestArrayCheck a inp = some r) :
    r.out = 1 ↔ (if isList S 0 then 1 else 0) + gC0 a S (nHd S) (nLn S) a.maxFields +
      (if declared S = gSum a S (nHd S) (nLn S) (fun _ o => nSum S o) a.maxFields then 1 else 0) = 2 := by
  rw [rlpNestArrayCheck_eq hp a hwf inp S hc] at hr
  split at hr
  · rw [← Option.some.inj hr]
    exact gOut_accept hp a hwf.fields S hc.nib _ _ _ (fun _ o => nSum_le _ hc.nib o) _
  · cases hr

/-- **C69 (disagreement).** A transaction whose call data is the single byte `00` is rejected: the item is taken for an
empty one, and all later items are read at the same place. -/
theorem C69_zero_calldata_rejected (hp : 2 ^ 128 < p) (t : Tx) (ht : ({ t with data := [] } : Tx).Fits)
    (hd : t.data = [0]) (ha : t.access = [])
    (path : List ℕ) (hpl : path.length ≤ 1) (hp0 : path ≠ [0]) (hpb : ∀ b ∈ path, b < 256)
    (pad : List ℕ) (hpad : ∀ x ∈ pad, x < 16)
    (hsize : (nibblesOf (Spec.leaf path t.signed) ++ pad).length = 4352)
    (data : List (F p))
    (hin : data.take 4352 = (nibblesOf (Spec.leaf path t.signed) ++ pad).map (Nat.cast : ℕ → F p)) :
    decodeTxLeafRlp data = none := by
  have hl1 := leaf_length path t.signed
  have hl2 : t.items.flatten.length < 65536 := by
    rw [List.length_append, nibblesOf_length] at hsize
    have : t.signed.length = 1 + ((lenHeader 0xc0 0xf7 t.items.flatten.length).length + t.items.flatten.length) := by
      unfold Spec.Tx.signed encodeList
      rw [List.length_cons, List.length_append]; ring
    omega
  obtain ⟨h1, h2, h3, h4⟩ := signed_header _ hl2
  set t' : Tx := { t with data := [] } with ht'
  have hs : ∀ x ∈ t'.strings, x.length ≤ 2047 := by
    intro x hx
    have := ht.chainId; have := ht.nonce; have := ht.tip; have := ht.fee; have := ht.gas; have := ht.toAddr
    have := ht.value; have := ht.data; have := ht.v; have := ht.r; have := ht.s
    simp only [Spec.Tx.strings, List.mem_cons, List.not_mem_nil, or_false] at hx
    rcases hx with rfl|rfl|rfl|rfl|rfl|rfl|rfl|rfl|rfl|rfl|rfl <;> omega
  have hib : ∀ b ∈ t.items.flatten, b < 256 := by
    intro b hb
    obtain ⟨e, he, hb⟩ := List.mem_flatten.1 hb
    simp only [Spec.Tx.items, List.mem_cons, List.not_mem_nil, or_false] at he
    have key : ∀ x ∈ t'.strings, b ∈ encodeString x → b < 256 := fun x hx =>
      encodeString_lt x (ht.bytes x hx) (by have := hs x hx; omega) b
    rcases he with rfl|rfl|rfl|rfl|rfl|rfl|rfl|rfl|rfl|rfl|rfl|rfl
    case inr.inr.inr.inr.inr.inr.inr.inr.inl =>
      rw [ha, encodeList_nil] at hb
      simp at hb; omega
    case inr.inr.inr.inr.inr.inr.inr.inl =>
      rw [hd, show encodeString [0] = [0] by decide] at hb
      simp at hb; omega
    all_goals exact key _ (by simp [Spec.Tx.strings, ht']) hb
  obtain ⟨hfit, bd, ns, hnone, hbd, hl', hnib, hreads, hb0⟩ := inner_setup hp path hpl hp0 hpb 2 _ t.items.flatten
    (content_bytes 2 (by norm_num) _ h1 _ hib) (lenHeader_length_pos _ _ _) pad hpad hsize data hin
  apply hnone
  intro i hi
  have hc : CellsOf (bd.take 4346) 4346 (cyc ns) := by
    rw [hbd]; exact cells_cyc hnib hl' (by norm_num)
  -- the first seven items
  set hdr := lenHeader 0xc0 0xf7 t.items.flatten.length with hhdr
  set items7 := t.items.take 7 with hi7
  have hsplit : t.items.flatten = items7.flatten ++ (encodeString t.data ++ (t.items.drop 8).flatten) := by
    conv_lhs => rw [← List.take_append_drop 7 t.items]
    rw [List.flatten_append]
    rfl
  have hr1 : ReadsAt (cyc ns) 0 (nibblesOf ((hdr ++ items7.flatten) ++ (encodeString t.data ++ (t.items.drop 8).flatten))) := by
    rw [List.append_assoc, ← hsplit]; exact hreads
  rw [nibblesOf_append, readsAt_append] at hr1
  obtain ⟨hra, hrb⟩ := hr1
  rw [nibblesOf_append (encodeString t.data), readsAt_append, nibblesOf_length] at hrb
  have he : List.Forall₂ NestItem items7 (t'.outs.take 7) := by
    have h := List.forall₂_take 7 (tx_nestItems t' ht)
    have e : t'.items.take 7 = items7 := rfl
    rwa [e] at h
  obtain ⟨hoff, hit⟩ := nest_list_read (cyc ns) hc.nib hdr items7 (t'.outs.take 7) he (by
      intro q hq
      have key : ∀ x ∈ t'.strings, x.length < 256 ^ 8 := fun x hx => by have := hs x hx; omega
      simp only [Spec.Tx.outs, List.take_succ_cons, List.take_zero, List.mem_cons, List.not_mem_nil, or_false] at hq
      rcases hq with rfl|rfl|rfl|rfl|rfl|rfl|rfl
      all_goals exact key _ (by simp [Spec.Tx.strings]))
    (by rw [hb0, h4]) hra
  have hz : ∀ i < 7, byteAt (cyc ns) (itemOffset (cyc ns) i) ≠ 0 := by
    intro i hi
    obtain ⟨enc, out, g1, g2, g3, g4, g5⟩ := hit i hi
    exact (nestItem_read _ hc.nib i _ enc out g3 g5 g4).2.1
  have hfix : ∀ i < 12, mn signedTxParams i ≠ mx signedTxParams i := by
    intro i hi
    unfold mn mx signedTxParams
    interval_cases i <;> decide
  have hg : ∀ k ≤ 7, gOff signedTxParams (cyc ns) (nHd (cyc ns)) (nLn (cyc ns)) k = itemOffset (cyc ns) k :=
    fun k hk => nOff_eq signedTxParams (cyc ns) k (fun j hj => hz j (by omega)) (fun j hj h => absurd h (hfix j (by omega)))
  obtain ⟨ho7, hem⟩ := hoff 7 le_rfl
  rw [show items7.take 7 = items7 from rfl] at ho7 hem
  have hb7 : byteAt (cyc ns) (itemOffset (cyc ns) 7) = 0 := by
    have h7 := hrb.1
    rw [hd, show encodeString [0] = [0] by decide, List.length_append, Nat.zero_add, Nat.mul_add, ← ho7] at h7
    exact byteAt_of_reads h7
  have hstay : ∀ k, 7 ≤ k → k ≤ 12 →
      gOff signedTxParams (cyc ns) (nHd (cyc ns)) (nLn (cyc ns)) k = itemOffset (cyc ns) 7 := by
    intro k h7 hk
    induction k, h7 using Nat.le_induction with
    | base => exact hg 7 le_rfl
    | succ k h7 ih =>
      have ih := ih (by omega)
      rw [gOff, gAdv, if_neg (hfix k (by omega)), ih]
      have e1 : nHd (cyc ns) k (itemOffset (cyc ns) 7) = 0 := by simp [nHd, hb7, hdrLen]
      have e2 : nLn (cyc ns) k (itemOffset (cyc ns) 7) = 0 := by simp [nLn, hb7]
      rw [e1, e2]; rfl
  have hec : emptyCount items7 = 0 := by
    unfold emptyCount
    rw [List.countP_eq_zero]
    intro x hx
    simp only [hi7, Spec.Tx.items, List.take_succ_cons, List.take_zero, List.mem_cons, List.not_mem_nil, or_false] at hx
    rcases hx with rfl|rfl|rfl|rfl|rfl|rfl|rfl <;> simp [encodeString_ne_c0]
  have hc7 : gC0 signedTxParams (cyc ns) (nHd (cyc ns)) (nLn (cyc ns)) 12 = 0 := by
    have h0 : gC0 signedTxParams (cyc ns) (nHd (cyc ns)) (nLn (cyc ns)) 7 = 0 := by
      rw [gC0_eq _ _ _ _ _ (fun i hi => hg i hi.le), hem, hec]
    have hne : byteAt (cyc ns) (itemOffset (cyc ns) 7) ≠ 0xc0 := by rw [hb7]; norm_num
    rw [gC0, gC0, gC0, gC0, gC0, h0, hstay 7 (by norm_num) (by norm_num), hstay 8 (by norm_num) (by norm_num),
      hstay 9 (by norm_num) (by norm_num), hstay 10 (by norm_num) (by norm_num), hstay 11 (by norm_num) (by norm_num),
      if_neg hne]
  have hs7 : gSum signedTxParams (cyc ns) (nHd (cyc ns)) (nLn (cyc ns)) (fun _ o => nSum (cyc ns) o) 12
      = 2 * items7.flatten.length := by
    have h0 := nSum_eq signedTxParams (cyc ns) 7 hz (fun j hj h => absurd h (hfix j (by omega)))
    rw [hem, hec, ho7, hb0, h4] at h0
    have hn0 : nSum (cyc ns) (itemOffset (cyc ns) 7) = 0 := by simp [nSum, hb7]
    rw [gSum, gSum, gSum, gSum, gSum, hstay 7 (by norm_num) (by norm_num), hstay 8 (by norm_num) (by norm_num),
      hstay 9 (by norm_num) (by norm_num), hstay 10 (by norm_num) (by norm_num), hstay 11 (by norm_num) (by norm_num),
      hn0]
    omega
  have hdec : declared (cyc ns) = 2 * t.items.flatten.length := by
    exact declared_of_reads (cyc ns) _ _ (by omega) hreads
  have hlen : items7.flatten.length < t.items.flatten.length := by
    rw [hsplit, List.length_append, List.length_append]
    have := (encodeString_length_le t.data).2
    omega
  have hfin := nest_out hp signedTxParams (by decide) bd (cyc ns) hc i hi
  rw [show signedTxParams.maxFields = 12 from rfl, hc7, hs7, hdec,
    if_neg (show ¬ 2 * t.items.flatten.length = 2 * items7.flatten.length by omega)] at hfin
  intro h1
  have := hfin.1 h1
  split at this <;> omega

end Verif.Rlp
