import Verif.Rlp.TxLeaf

/-! # C69: decoding the leaf of a transaction trie

Specification: an EIP-1559 transaction is the type byte `02` followed by the RLP list of twelve items; a leaf of the
transaction trie is the RLP list of the compact path and of those bytes. -/

set_option linter.unusedSectionVars false

namespace Verif.Rlp
open Api Spec.Rlp
variable {p : ℕ} [Fact p.Prime]

/-- The fields of a signed EIP-1559 transaction as byte strings; the access list as the encodings of its entries. -/
structure Spec.Tx where
  chainId : List ℕ
  nonce : List ℕ
  tip : List ℕ
  fee : List ℕ
  gas : List ℕ
  toAddr : List ℕ
  value : List ℕ
  data : List ℕ
  access : List (List ℕ)
  v : List ℕ
  r : List ℕ
  s : List ℕ

open Spec (Tx)

/-- the byte-string fields, with the number of nibbles the decoder reserves for each -/
def Spec.Tx.strings (t : Tx) : List (List ℕ) :=
  [t.chainId, t.nonce, t.tip, t.fee, t.gas, t.toAddr, t.value, t.data, t.v, t.r, t.s]

/-- the encodings of the twelve items -/
def Spec.Tx.items (t : Tx) : List (List ℕ) :=
  [encodeString t.chainId, encodeString t.nonce, encodeString t.tip, encodeString t.fee, encodeString t.gas,
   encodeString t.toAddr, encodeString t.value, encodeString t.data, encodeList t.access,
   encodeString t.v, encodeString t.r, encodeString t.s]

/-- EIP-2718/1559 envelope -/
def Spec.Tx.signed (t : Tx) : List ℕ := 2 :: encodeList t.items

/-- leaf of the transaction trie for the compact path `path` -/
def Spec.leaf (path content : List ℕ) : List ℕ := encodeList [encodeString path, encodeString content]

/-- what the nested checker hands out for the twelve items -/
def Spec.Tx.outs (t : Tx) : List (List ℕ) :=
  [t.chainId, t.nonce, t.tip, t.fee, t.gas, t.toAddr, t.value, t.data, encodeList t.access, t.v, t.r, t.s]

/-- big-endian value of a byte string -/
def Spec.num (bs : List ℕ) : ℕ := Nat.ofDigits 256 bs.reverse

theorem beField_nibbles (bs : List ℕ) :
    Spec.beField ((nibblesOf bs).map (Nat.cast : ℕ → F p)) = ((Spec.num bs : ℕ) : F p) := by
  induction bs using List.reverseRecOn with
  | nil => simp [Spec.beField, Spec.num, nibblesOf]
  | append_singleton bs b ih =>
    have h16 : 16 * (b / 16) + b % 16 = b := by omega
    have hb : ((b : ℕ) : F p) = 16 * ((b / 16 : ℕ) : F p) + ((b % 16 : ℕ) : F p) := by
      conv_lhs => rw [← h16]
      push_cast; ring
    rw [nibblesOf_append, List.map_append, beField_append, ih]
    simp only [Spec.num, List.reverse_append, List.reverse_singleton, List.singleton_append, Nat.ofDigits_cons]
    push_cast
    rw [hb]
    simp [nibblesOf, Spec.beField]
    ring

theorem encodeString_ne_c0 (bs : List ℕ) : encodeString bs ≠ [0xc0] := by
  unfold encodeString
  split
  · rename_i h
    rintro rfl
    simp at h
  · unfold lenHeader
    split
    · intro h
      simp at h
      omega
    · simp only [List.cons_append, ne_eq, List.cons.injEq, not_and]
      intro h1 h2
      have := List.append_eq_nil_iff.1 h2
      rename_i h56
      rw [this.2] at h56
      simp at h56

theorem encodeString_length_le (bs : List ℕ) : bs.length ≤ (encodeString bs).length ∧ 1 ≤ (encodeString bs).length := by
  unfold encodeString
  split
  · rename_i h; omega
  · have := lenHeader_length_pos 0x80 0xb7 bs.length
    rw [List.length_append]; omega

theorem encodeString_length_two (bs : List ℕ) (h : 2 ≤ bs.length) : bs.length + 1 ≤ (encodeString bs).length := by
  unfold encodeString
  rw [if_neg (by omega)]
  have := lenHeader_length_pos 0x80 0xb7 bs.length
  rw [List.length_append]; omega

theorem encodeString_lt (bs : List ℕ) (h : ∀ b ∈ bs, b < 256) (hn : bs.length < 256 ^ 8) :
    ∀ b ∈ encodeString bs, b < 256 := by
  unfold encodeString
  split
  · exact h
  · intro b hb
    rcases List.mem_append.1 hb with h' | h'
    · exact lenHeader_bytes _ _ _ (by norm_num) (by norm_num) hn b h'
    · exact h b h'

/-- a list header announces its own length -/
theorem listHeader_spec (n : ℕ) (hn : n < 256 ^ 8) : ∃ v rest, lenHeader 0xc0 0xf7 n = v :: rest ∧
    0xc0 ≤ v ∧ v < 256 ∧ listHdr v = 2 * (1 + rest.length) := by
  have h8 := lenBytes_length_le n 8 hn
  unfold lenHeader
  split
  · exact ⟨_, _, rfl, by omega, by omega, by unfold listHdr; rw [if_neg (by omega)]; rfl⟩
  · have := lenBytes_length_pos n (by omega)
    refine ⟨_, _, rfl, by omega, by omega, ?_⟩
    unfold listHdr; rw [if_pos (by omega)]; omega

/-- The outer layer: the two items of the leaf. -/
theorem outer_run (hp : 2 ^ 128 < p) (path content pad : List ℕ) (hpl : path.length ≤ 1) (hp0 : path ≠ [0])
    (hpb : ∀ b ∈ path, b < 256) (hcb : ∀ b ∈ content, b < 256) (hc2 : 2 ≤ content.length)
    (hpad : ∀ x ∈ pad, x < 16) (hsize : (nibblesOf (Spec.leaf path content) ++ pad).length = 4352)
    (data : List (F p))
    (hin : data.take 4352 = (nibblesOf (Spec.leaf path content) ++ pad).map (Nat.cast : ℕ → F p)) :
    2 * content.length ≤ 4346 ∧
    ∃ o : AcOut p, rlpNestArrayCheck txLeafParams data = some o ∧ o.out = 1 ∧
      ∃ ns : List ℕ, o.fields[1]? = some (ns.map (Nat.cast : ℕ → F p)) ∧ ns.length = 4352 ∧ (∀ x ∈ ns, x < 16) ∧
        ns.take (2 * content.length) = nibblesOf content := by
  set items := [encodeString path, encodeString content] with hitems
  have hfl : items.flatten = encodeString path ++ encodeString content := by simp [hitems]
  have h1 := encodeString_length_le path
  have h2 := encodeString_length_le content
  have h3 := encodeString_length_two content hc2
  have hlen0 := lenHeader_length_pos 0xc0 0xf7 items.flatten.length
  have hleaf : Spec.leaf path content = lenHeader 0xc0 0xf7 items.flatten.length ++ items.flatten := rfl
  have hL : 2 * ((lenHeader 0xc0 0xf7 items.flatten.length).length + items.flatten.length) + pad.length = 4352 := by
    rw [← hsize, List.length_append, nibblesOf_length, hleaf, List.length_append]
  have hfl' : items.flatten.length = (encodeString path).length + (encodeString content).length := by
    rw [hfl, List.length_append]
  have hhl := lenHeader_length_le 0xc0 0xf7 items.flatten.length 2 (by omega)
  have hcl : 2 * content.length ≤ 4346 := by omega
  refine ⟨hcl, ?_⟩
  obtain ⟨v, rest, hv, hv1, hv2, hv3⟩ := listHeader_spec items.flatten.length (by omega)
  set ns := nibblesOf (Spec.leaf path content) ++ pad with hns
  have hbytes : ∀ b ∈ Spec.leaf path content, b < 256 := by
    intro b hb
    rw [hleaf, hfl] at hb
    rcases List.mem_append.1 hb with h | h
    · exact lenHeader_bytes _ _ _ (by norm_num) (by norm_num) (by rw [← hfl]; omega) b h
    · rcases List.mem_append.1 h with h | h
      · exact encodeString_lt path hpb (by omega) b h
      · exact encodeString_lt content hcb (by omega) b h
  have hnib : ∀ x ∈ ns, x < 16 := nib_append (nibblesOf_lt _ hbytes) hpad
  have hreads : ReadsAt (cyc ns) 0 (nibblesOf (lenHeader 0xc0 0xf7 items.flatten.length ++ items.flatten)) := by
    rw [← hleaf]
    intro j hj
    rw [cyc_eq (by rw [hns, List.length_append]; omega), Nat.zero_add]
    unfold stream
    rw [hns, List.getD_append _ _ _ _ hj]
  have hb0 : byteAt (cyc ns) 0 = v := by
    rw [hv, List.cons_append] at hreads
    exact byteAt_of_reads hreads
  have hhdr : listHdr (byteAt (cyc ns) 0) = 2 * (lenHeader 0xc0 0xf7 items.flatten.length).length := by
    rw [hb0, hv3, hv, List.length_cons]; ring
  have hnest : List.Forall₂ NestItem items [path, content] := by
    refine .cons (Or.inl ⟨rfl, hp0⟩) (.cons (Or.inl ⟨rfl, ?_⟩) .nil)
    rintro rfl; simp at hc2
  have hdec : declared (cyc ns) = 2 * items.flatten.length := by
    have := header_read (cyc ns) 0 items.flatten.length (by omega) true items.flatten (by simpa using hreads)
    unfold declared; rw [if_pos (by omega), this.1]
  have hec : emptyCount items = 0 := by
    unfold emptyCount
    rw [List.countP_eq_zero]
    intro x hx
    simp only [hitems, List.mem_cons, List.not_mem_nil, or_false] at hx
    rcases hx with rfl | rfl <;> simp [encodeString_ne_c0]
  obtain ⟨o, hr, ho, -, hf⟩ := nest_run hp txLeafParams (by decide) (by decide) _ items [path, content] hnest
    rfl ns hnib hsize hreads (by show _ ≤ 4352; rw [List.length_append]; omega) hhdr
    (by show _ ≤ 2 + 4; omega) (by show _ < 2 ^ (Nat.size 4); rw [show Nat.size 4 = 3 by decide]; omega)
    (by
      intro i out hi
      match i, hi with
      | 0, hi =>
        obtain rfl := Option.some.inj hi
        refine ⟨rfl, by decide, ?_, Or.inl (by omega)⟩
        change _ < 2 ^ (Nat.size 2)
        rw [show Nat.size 2 = 2 by decide]; omega
      | 1, hi =>
        obtain rfl := Option.some.inj hi
        refine ⟨rfl, by decide, ?_, Or.inr ⟨by decide, by decide⟩⟩
        change _ < 2 ^ (Nat.size 4346)
        rw [show Nat.size 4346 = 13 by decide]; omega
      | n + 2, hi => simp at hi)
    data hin
  refine ⟨o, hr, ho.2 ?_, ?_⟩
  · rw [hec, hdec, if_pos (show isList (cyc ns) 0 by unfold isList; omega), if_pos (by omega)]
  · obtain ⟨-, f, hf1, hf2, off, hf3, hf4⟩ := hf 1 content rfl
    refine ⟨ns.rotate off, by rw [hf1, hf3], by rw [List.length_rotate]; exact hsize, ?_, hf4⟩
    intro x hx
    exact hnib x (List.mem_rotate.1 hx)

/-- The inner layer: where the twelve items are read from. -/
theorem inner_reads (ns content : List ℕ) (ty : ℕ) (hlen : ns.length = 4352)
    (hc : 2 * (content.length + 1) ≤ 4346)
    (ht : ns.take (2 * (ty :: content).length) = nibblesOf (ty :: content)) :
    ((ns.drop 2).take 4346).length = 4346 ∧ ReadsAt (cyc ((ns.drop 2).take 4346)) 0 (nibblesOf content) := by
  have hl : ((ns.drop 2).take 4346).length = 4346 := by simp [hlen]
  refine ⟨hl, fun j hj => ?_⟩
  rw [nibblesOf_length] at hj
  rw [cyc_eq (by omega), Nat.zero_add]
  unfold stream
  have h1 : ((ns.drop 2).take 4346)[j]? = (nibblesOf content)[j]? := by
    rw [List.getElem?_take_of_lt (by omega), List.getElem?_drop]
    have : ns[2 + j]? = (nibblesOf (ty :: content))[2 + j]? := by
      rw [← ht, List.getElem?_take_of_lt (by simp only [List.length_cons]; omega)]
    rw [this, nibblesOf_cons, List.getElem?_append_right (by simp)]
    simp
  rw [List.getD_eq_getElem?_getD, h1, ← List.getD_eq_getElem?_getD]

/-- Sizes (in bytes) for which the decoder is satisfiable. They are larger than the documented ones (8, 8, 8, 8, 4, 20,
32 bytes): the shifters only bound a length by a power of two. No field is the single byte `00`, which RLP numbers never
are (for call data see `C69_zero_calldata_rejected`). -/
structure Spec.Tx.Fits (t : Tx) : Prop where
  bytes : ∀ x ∈ t.strings, ∀ b ∈ x, b < 256
  nz : ∀ x ∈ t.strings, x ≠ [0]
  chainId : t.chainId.length ≤ 15
  nonce : t.nonce.length ≤ 15
  tip : t.tip.length ≤ 15
  fee : t.fee.length ≤ 15
  gas : t.gas.length ≤ 7
  toAddr : t.toAddr.length ≤ 31
  value : t.value.length ≤ 55
  data : t.data.length ≤ 2047
  v : t.v.length ≤ 1
  r : t.r.length ≤ 32
  s : t.s.length ≤ 32

/-- A slot of `w` nibbles holding the bytes `bs` left-aligned (the first `w` nibbles of them if they do not fit). -/
def Spec.Slot (x : List (F p)) (w : ℕ) (bs : List ℕ) : Prop :=
  x.length = w ∧ x.take (2 * bs.length) = ((nibblesOf bs).take w).map (Nat.cast : ℕ → F p)

/-- A 256-bit number as two field elements: low 248 bits and the top byte. -/
def Spec.TwoFr (x : F p × F p) (bs : List ℕ) : Prop :=
  x.1 + 2 ^ 248 * x.2 = ((Spec.num bs : ℕ) : F p) ∧ (bs.length < 32 → x.2 = 0) ∧
  (bs.length = 32 → x.2 = ((bs.headD 0 : ℕ) : F p))

/-- The decoder's results are those of the transaction `t` with envelope `content`. -/
structure Spec.DecodesTo (d : TxDecoded p) (t : Tx) (content : List ℕ) : Prop where
  signed : d.signedTxRlp.take (2 * content.length) = (nibblesOf content).map (Nat.cast : ℕ → F p)
  chainId : Spec.Slot d.tx.chainId 16 t.chainId
  nonce : Spec.Slot d.tx.nonce 16 t.nonce
  tip : Spec.Slot d.tx.maxPriorityGasPrice 16 t.tip
  fee : Spec.Slot d.tx.maxFeePerGas 16 t.fee
  gas : Spec.Slot d.tx.gasLimit 8 t.gas
  toAddr : Spec.Slot d.tx.toAddr 40 t.toAddr
  value : Spec.Slot d.tx.value 64 t.value
  v : d.tx.v = ((Spec.num t.v : ℕ) : F p)
  r : Spec.TwoFr d.tx.r t.r
  s : Spec.TwoFr d.tx.s t.s
  lens : d.fieldsHexLen = ([t.chainId, t.nonce, t.tip, t.fee, t.gas, t.toAddr, t.value].map fun b =>
    ((2 * b.length : ℕ) : F p)) ++ [40]

theorem slot_of (f : List (F p)) (w : ℕ) (bs : List ℕ) (hw : w ≤ f.length)
    (h : f.take (2 * bs.length) = (nibblesOf bs).map (Nat.cast : ℕ → F p)) : Spec.Slot (f.take w) w bs := by
  refine ⟨by simp; omega, ?_⟩
  rw [List.take_take, Nat.min_comm, ← List.take_take, h, List.map_take]

theorem twoFr_of (hp : 256 < p) (f : List (F p)) (bs : List ℕ) (hf : 64 ≤ f.length) (hb : bs.length ≤ 32)
    (hbb : ∀ b ∈ bs, b < 256)
    (h : f.take (2 * bs.length) = (nibblesOf bs).map (Nat.cast : ℕ → F p)) :
    ∃ x, hex64To2Fr f ((2 * bs.length : ℕ) : F p) = some x ∧ Spec.TwoFr x bs := by
  obtain ⟨lo, hi, h1, h2, h3, h4⟩ := C10_hex64To2Fr f (2 * bs.length) hp hf (by omega) (by omega)
  refine ⟨(lo, hi), h1, ?_, fun h => h3 (by omega), ?_⟩
  · rw [h2, h, beField_nibbles]
  · intro h32
    have e := h4 (by omega)
    show hi = _
    rw [e]
    match bs, h32, h with
    | b :: bs, h32, h =>
      have : f.take 2 = ([b / 16, b % 16] : List ℕ).map (Nat.cast : ℕ → F p) := by
        have h5 := congrArg (List.take 2) h
        rw [List.take_take, Nat.min_eq_left (by omega)] at h5
        rw [h5, nibblesOf_cons]; simp
      rw [this]
      have hd : b = 16 * (b / 16) + b % 16 := by omega
      simp only [List.headD_cons]
      conv_rhs => rw [hd]
      simp [Spec.beField]

theorem tx_nestItems (t : Tx) (hf : t.Fits) : List.Forall₂ NestItem t.items t.outs := by
  have h := hf.nz
  have key : ∀ x ∈ t.strings, NestItem (encodeString x) x := fun x hx => Or.inl ⟨rfl, h x hx⟩
  unfold Spec.Tx.items Spec.Tx.outs
  refine .cons (key _ ?_) (.cons (key _ ?_) (.cons (key _ ?_) (.cons (key _ ?_) (.cons (key _ ?_) (.cons (key _ ?_)
    (.cons (key _ ?_) (.cons (key _ ?_) (.cons (Or.inr ⟨_, rfl, rfl⟩) (.cons (key _ ?_) (.cons (key _ ?_)
    (.cons (key _ ?_) .nil))))))))))) <;> simp [Spec.Tx.strings]

theorem tx_emptyCount (t : Tx) (h : t.access = []) : emptyCount t.items = 1 := by
  unfold emptyCount Spec.Tx.items
  rw [h, encodeList_nil]
  simp [List.countP_cons, encodeString_ne_c0]

theorem obind {α β : Type} {x : Option α} {a : α} (h : x = some a) (f : α → Option β) : (x >>= f) = f a := by
  subst h; rfl

theorem decode_of (data sg bd f0 f1 f2 f3 f4 f5 f6 f9 f10 f11 : List (F p)) (l9 l10 l11 v : F p) (r s : F p × F p)
    (o i : AcOut p) (ho1 : rlpNestArrayCheck txLeafParams data = some o) (ho2 : o.out = 1)
    (ho3 : o.fields[1]? = some sg) (hb : sliceFrom sg 2 = some bd)
    (hi1 : rlpNestArrayCheck signedTxParams bd = some i) (hi2 : i.out = 1)
    (e0 : i.fields[0]? = some f0) (e1 : i.fields[1]? = some f1) (e2 : i.fields[2]? = some f2)
    (e3 : i.fields[3]? = some f3) (e4 : i.fields[4]? = some f4) (e5 : i.fields[5]? = some f5)
    (e6 : i.fields[6]? = some f6) (e9 : i.fields[9]? = some f9) (e10 : i.fields[10]? = some f10)
    (e11 : i.fields[11]? = some f11) (h9 : i.lens[9]? = some l9) (h10 : i.lens[10]? = some l10)
    (h11 : i.lens[11]? = some l11)
    (n0 : 64 ≤ f0.length) (n1 : 64 ≤ f1.length) (n2 : 64 ≤ f2.length) (n3 : 64 ≤ f3.length) (n4 : 64 ≤ f4.length)
    (n5 : 64 ≤ f5.length) (n6 : 64 ≤ f6.length)
    (hv : hexToDecimal f9 2 l9 = some v) (hr : hex64To2Fr f10 l10 = some r) (hs : hex64To2Fr f11 l11 = some s) :
    decodeTxLeafRlp data = some
      { tx := { chainId := f0.take 16, nonce := f1.take 16, maxPriorityGasPrice := f2.take 16, maxFeePerGas := f3.take 16,
                gasLimit := f4.take 8, toAddr := f5.take 40, value := f6.take 64, r := r, s := s, v := v }
        signedTxRlp := sg, fieldsHexLen := i.lens.take 7 ++ [40] } := by
  have sl : ∀ (f : List (F p)) (w : ℕ), 64 ≤ f.length → w ≤ 64 → sliceTo f w = some (f.take w) := by
    intro f w h1 h2; unfold sliceTo; rw [if_pos (by omega)]
  have as1 : assertEq (1 : F p) 1 = some () := by unfold assertEq; rw [if_pos rfl]
  unfold decodeTxLeafRlp
  refine (obind ho1 _).trans ?_
  refine (obind (by rw [ho2]; exact as1) _).trans ?_
  refine (obind ho3 _).trans ?_
  refine (obind hb _).trans ?_
  refine (obind hi1 _).trans ?_
  refine (obind (by rw [hi2]; exact as1) _).trans ?_
  refine (obind e0 _).trans ?_
  refine (obind (sl f0 16 n0 (by norm_num)) _).trans ?_
  refine (obind e1 _).trans ?_
  refine (obind (sl f1 16 n1 (by norm_num)) _).trans ?_
  refine (obind e2 _).trans ?_
  refine (obind (sl f2 16 n2 (by norm_num)) _).trans ?_
  refine (obind e3 _).trans ?_
  refine (obind (sl f3 16 n3 (by norm_num)) _).trans ?_
  refine (obind e4 _).trans ?_
  refine (obind (sl f4 8 n4 (by norm_num)) _).trans ?_
  refine (obind e5 _).trans ?_
  refine (obind (sl f5 40 n5 (by norm_num)) _).trans ?_
  refine (obind e6 _).trans ?_
  refine (obind (sl f6 64 n6 (by norm_num)) _).trans ?_
  refine (obind e9 _).trans ?_
  refine (obind h9 _).trans ?_
  refine (obind hv _).trans ?_
  refine (obind e10 _).trans ?_
  refine (obind h10 _).trans ?_
  refine (obind hr _).trans ?_
  refine (obind e11 _).trans ?_
  refine (obind h11 _).trans ?_
  refine (obind hs _).trans ?_
  rfl

/-- Any type byte, and a list header announcing any length: the leaf of a transaction with an empty access list is
decoded. -/
theorem decode_run (hp : 2 ^ 128 < p) (t : Tx) (hf : t.Fits) (ha : t.access = [])
    (path : List ℕ) (hpl : path.length ≤ 1) (hp0 : path ≠ [0]) (hpb : ∀ b ∈ path, b < 256)
    (ty : ℕ) (hty : ty < 256) (hdr : List ℕ) (hhb : ∀ b ∈ hdr, b < 256) (hh3 : hdr.length ≤ 3)
    (hl : 0xc0 ≤ hdr.headD 0) (hhl : listHdr (hdr.headD 0) = 2 * hdr.length)
    (pad : List ℕ) (hpad : ∀ x ∈ pad, x < 16)
    (hsize : (nibblesOf (Spec.leaf path (ty :: (hdr ++ t.items.flatten))) ++ pad).length = 4352)
    (data : List (F p))
    (hin : data.take 4352 = (nibblesOf (Spec.leaf path (ty :: (hdr ++ t.items.flatten))) ++ pad).map
      (Nat.cast : ℕ → F p)) :
    ∃ d, decodeTxLeafRlp data = some d ∧ Spec.DecodesTo d t (ty :: (hdr ++ t.items.flatten)) := by
  have hs : ∀ x ∈ t.strings, ∀ b ∈ encodeString x, b < 256 := by
    intro x hx
    refine encodeString_lt x (hf.bytes x hx) ?_
    have := hf.chainId; have := hf.nonce; have := hf.tip; have := hf.fee; have := hf.gas; have := hf.toAddr
    have := hf.value; have := hf.data; have := hf.v; have := hf.r; have := hf.s
    simp only [Spec.Tx.strings, List.mem_cons, List.not_mem_nil, or_false] at hx
    rcases hx with rfl|rfl|rfl|rfl|rfl|rfl|rfl|rfl|rfl|rfl|rfl <;> omega
  have hib : ∀ b ∈ t.items.flatten, b < 256 := by
    intro b hb
    obtain ⟨e, he, hb⟩ := List.mem_flatten.1 hb
    simp only [Spec.Tx.items, List.mem_cons, List.not_mem_nil, or_false] at he
    rcases he with rfl|rfl|rfl|rfl|rfl|rfl|rfl|rfl|rfl|rfl|rfl|rfl
    case inr.inr.inr.inr.inr.inr.inr.inr.inl =>
      rw [ha, encodeList_nil] at hb
      simp at hb; omega
    all_goals exact hs _ (by simp [Spec.Tx.strings]) b hb
  have hhpos : 0 < hdr.length := by
    cases hdr with
    | nil => simp at hl
    | cons v rest => simp
  set content := hdr ++ t.items.flatten with hcontent
  obtain ⟨hcl, o, ho1, ho2, ns, ho3, ho4, ho5, ho6⟩ := outer_run hp path (ty :: content) pad hpl hp0 hpb
    (by
      intro b hb
      rcases List.mem_cons.1 hb with rfl | hb
      · exact hty
      · rcases List.mem_append.1 hb with h | h
        · exact hhb b h
        · exact hib b h)
    (by rw [List.length_cons, hcontent, List.length_append]; omega) hpad hsize data hin
  rw [List.length_cons] at hcl
  obtain ⟨hl', hreads⟩ := inner_reads ns content ty ho4 hcl ho6
  set ns' := (ns.drop 2).take 4346 with hns'
  have hnib : ∀ x ∈ ns', x < 16 := fun x hx => ho5 x (List.mem_of_mem_drop (List.mem_of_mem_take hx))
  have hb0 : byteAt (cyc ns') 0 = hdr.headD 0 := by
    cases hdr with
    | nil => simp at hhpos
    | cons v rest =>
      rw [hcontent, List.cons_append] at hreads
      exact byteAt_of_reads hreads
  have hbody : (ns.map (Nat.cast : ℕ → F p)).drop 2 = (ns.drop 2).map (Nat.cast : ℕ → F p) := by
    rw [List.map_drop]
  obtain ⟨i, hi1, hi2, -, hi3⟩ := nest_run hp signedTxParams (by decide) (by decide) hdr t.items t.outs
    (tx_nestItems t hf) rfl ns' hnib hl' hreads (by show _ ≤ 4346; rw [← hcontent]; omega)
    (by rw [hb0, hhl]) (by show _ ≤ 2 + 6; omega)
    (by show _ < 2 ^ (Nat.size 6); rw [show Nat.size 6 = 3 by decide]; omega)
    (by
      intro i out hi
      have hlen : i < 12 := (List.getElem?_eq_some_iff.1 hi).1
      have := hf.chainId; have := hf.nonce; have := hf.tip; have := hf.fee; have := hf.gas; have := hf.toAddr
      have := hf.value; have := hf.data; have := hf.v; have := hf.r; have := hf.s
      have s16 : Nat.size 16 = 5 := by decide
      have s8 : Nat.size 8 = 4 := by decide
      have s40 : Nat.size 40 = 6 := by decide
      have s64 : Nat.size 64 = 7 := by decide
      have s4030 : Nat.size 4030 = 12 := by decide
      have s2 : Nat.size 2 = 2 := by decide
      have hac : (encodeList t.access).length = 1 := by rw [ha]; rfl
      interval_cases i <;> obtain rfl := Option.some.inj hi <;>
        simp only [signedTxParams, List.getD_cons_zero, List.getD_cons_succ, s16, s8, s40, s64, s4030, s2, hac] <;>
        refine ⟨trivial, by omega, by omega, by omega⟩)
    ((ns.map (Nat.cast : ℕ → F p)).drop 2) (by
      show List.take 4346 _ = _
      rw [hbody, hns', List.map_take])
  have hout : i.out = 1 := by
    rw [hi2, tx_emptyCount t ha, if_pos (show isList (cyc ns') 0 by unfold isList; omega)]
    have heven : declared (cyc ns') % 2 = 0 := by
      unfold declared payLen
      simp only
      split_ifs <;> omega
    rw [if_neg (by omega)]
  have hget : ∀ (k : ℕ) (out : List ℕ), t.outs[k]? = some out → i.lens[k]? = some ((2 * out.length : ℕ) : F p) ∧
      ∃ f : List (F p), i.fields[k]? = some f ∧ f.length = 4346 ∧
        f.take (2 * out.length) = (nibblesOf out).map (Nat.cast : ℕ → F p) := by
    intro k out hk
    obtain ⟨g1, f, g2, g3, off, g4, g5⟩ := hi3 k out hk
    exact ⟨g1, f, g2, g3, by rw [g4, ← List.map_take, g5]⟩
  obtain ⟨l0, f0, e0, n0, q0⟩ := hget 0 t.chainId rfl
  obtain ⟨l1, f1, e1, n1, q1⟩ := hget 1 t.nonce rfl
  obtain ⟨l2, f2, e2, n2, q2⟩ := hget 2 t.tip rfl
  obtain ⟨l3, f3, e3, n3, q3⟩ := hget 3 t.fee rfl
  obtain ⟨l4, f4, e4, n4, q4⟩ := hget 4 t.gas rfl
  obtain ⟨l5, f5, e5, n5, q5⟩ := hget 5 t.toAddr rfl
  obtain ⟨l6, f6, e6, n6, q6⟩ := hget 6 t.value rfl
  obtain ⟨l9, f9, e9, n9, q9⟩ := hget 9 t.v rfl
  obtain ⟨l10, f10, e10, n10, q10⟩ := hget 10 t.r rfl
  obtain ⟨l11, f11, e11, n11, q11⟩ := hget 11 t.s rfl
  have hv : hexToDecimal f9 2 ((2 * t.v.length : ℕ) : F p) = some ((Spec.num t.v : ℕ) : F p) := by
    rw [C10_hexToDecimal f9 2 (2 * t.v.length) (by norm_num) (by omega) (by omega) (by have := hf.v; omega), q9,
      beField_nibbles]
  obtain ⟨r, hr1, hr2⟩ := twoFr_of (by omega) f10 t.r (by omega) hf.r (hf.bytes _ (by simp [Spec.Tx.strings])) q10
  obtain ⟨s, hs1, hs2⟩ := twoFr_of (by omega) f11 t.s (by omega) hf.s (hf.bytes _ (by simp [Spec.Tx.strings])) q11
  have slF : sliceFrom (ns.map (Nat.cast : ℕ → F p)) 2 = some ((ns.map (Nat.cast : ℕ → F p)).drop 2) := by
    unfold sliceFrom; rw [if_pos (by simp [ho4])]
  have hd : decodeTxLeafRlp data = some
      { tx := { chainId := f0.take 16, nonce := f1.take 16, maxPriorityGasPrice := f2.take 16, maxFeePerGas := f3.take 16,
                gasLimit := f4.take 8, toAddr := f5.take 40, value := f6.take 64, r := r, s := s,
                v := ((Spec.num t.v : ℕ) : F p) }
        signedTxRlp := ns.map (Nat.cast : ℕ → F p), fieldsHexLen := i.lens.take 7 ++ [40] } :=
    decode_of data _ _ f0 f1 f2 f3 f4 f5 f6 f9 f10 f11 _ _ _ _ r s o i ho1 ho2 ho3 slF hi1 hout e0 e1 e2 e3 e4 e5 e6
      e9 e10 e11 l9 l10 l11 (by omega) (by omega) (by omega) (by omega) (by omega) (by omega) (by omega) hv hr1 hs1
  refine ⟨_, hd, ?_⟩
  refine ⟨?_, slot_of f0 16 _ (by omega) q0, slot_of f1 16 _ (by omega) q1, slot_of f2 16 _ (by omega) q2,
    slot_of f3 16 _ (by omega) q3, slot_of f4 8 _ (by omega) q4, slot_of f5 40 _ (by omega) q5,
    slot_of f6 64 _ (by omega) q6, rfl, hr2, hs2, ?_⟩
  · show (ns.map (Nat.cast : ℕ → F p)).take _ = _
    rw [← List.map_take, ho6]
  · show i.lens.take 7 ++ [40] = _
    congr 1
    apply List.ext_getElem?
    intro j
    by_cases hj : j < 7
    · rw [List.getElem?_take_of_lt hj]
      interval_cases j <;> simp [l0, l1, l2, l3, l4, l5, l6]
    · rw [List.getElem?_eq_none (by simp; omega), List.getElem?_eq_none (by simp; omega)]

end Verif.Rlp
