import Verif.Fabric.Model
import Verif.Common.QueryIdProps
import Verif.Common.AbiProps
import Verif.Keccak.PadProps
import Verif.Keccak.SpongeProps
import Verif.Keccak.MerkleProps
import Verif.Rlp.ListProps

/-! # C43: header rows and MiMC helpers (circuits/fabric/smt/utils.go), C45: object keys -/

namespace Verif.Fabric
open Spec.Rlp QueryId Spec.Keccak

/-! ## Specification -/

/-- The limits documented for the header circuit: 7-byte difficulty and base fee, 8-byte number, 4-byte gas
fields and time; base fee, difficulty and number present. -/
def WithinLimits (h : Header) : Prop :=
  ∃ d n b : ℕ, h.difficulty = some (d : ℤ) ∧ h.number = some (n : ℤ) ∧ h.baseFee = some (b : ℤ) ∧
    d < 256 ^ 7 ∧ n < 256 ^ 8 ∧ b < 256 ^ 7 ∧ h.gasLimit < 256 ^ 4 ∧ h.gasUsed < 256 ^ 4 ∧ h.time < 256 ^ 4

/-- Fixed-size fields have their Go sizes, and the optional integers are 64-bit. -/
def WellFormed (h : Header) : Prop :=
  h.parentHash.length = 32 ∧ h.uncleHash.length = 32 ∧ h.coinbase.length = 20 ∧ h.root.length = 32 ∧
  h.txHash.length = 32 ∧ h.receiptHash.length = 32 ∧ h.bloom.length = 256 ∧ h.mixDigest.length = 32 ∧
  h.nonce.length = 8 ∧ (∀ w, h.withdrawalsHash = some w → w.length = 32) ∧
  (∀ w, h.parentBeaconRoot = some w → w.length = 32) ∧ (∀ x, h.blobGasUsed = some x → x < 2 ^ 64) ∧
  (∀ x, h.excessBlobGas = some x → x < 2 ^ 64)

/-! ## Lengths -/

theorem natBytes_length_le (n k : ℕ) : (natBytes n).length ≤ k ↔ n < 256 ^ k := by
  unfold natBytes
  rw [List.length_reverse, Nat.digits_length_le_iff (by norm_num)]

theorem getUintByteLen_eq (x : ℕ) : getUintByteLen x = (natBytes x).length := by
  unfold natBytes
  rw [List.length_reverse]
  induction x using Nat.strongRecOn with
  | _ x ih =>
    rw [getUintByteLen]
    by_cases h : 0 < x
    · rw [dif_pos h, ih (x / 256) (by omega), Nat.digits_def' (by norm_num) h, List.length_cons]
    · rw [dif_neg h]
      obtain rfl : x = 0 := by omega
      simp

theorem checkLen_zero (a m : ℕ) : checkLen a m = 0 ↔ a ≤ m := by
  unfold checkLen; split <;> omega

theorem check_iff (h : Header) : checkDynamicFieldLen h = some true ↔
    ∃ d n b : ℤ, h.difficulty = some d ∧ h.number = some n ∧ h.baseFee = some b ∧ d.natAbs < 256 ^ 7 ∧
      n.natAbs < 256 ^ 8 ∧ b.natAbs < 256 ^ 7 ∧ h.gasLimit < 256 ^ 4 ∧ h.gasUsed < 256 ^ 4 ∧ h.time < 256 ^ 4 := by
  unfold checkDynamicFieldLen bigLen
  cases hd : h.difficulty with
  | none => simp
  | some d =>
    cases hn : h.number with
    | none => simp
    | some n =>
      cases hb : h.baseFee with
      | none => simp
      | some b =>
        simp only [Option.map_some, Option.bind_eq_bind, Option.bind_some, Option.pure_def, Option.some.injEq,
          beq_iff_eq, Nat.add_eq_zero_iff, checkLen_zero, getUintByteLen_eq, natBytes_length_le]
        constructor
        · rintro ⟨⟨⟨⟨⟨h1, h2⟩, h3⟩, h4⟩, h5⟩, h6⟩
          exact ⟨d, n, b, rfl, rfl, rfl, h1, h2, h6, h3, h4, h5⟩
        · rintro ⟨d', n', b', rfl, rfl, rfl, h1, h2, h6, h3, h4, h5⟩
          exact ⟨⟨⟨⟨⟨h1, h2⟩, h3⟩, h4⟩, h5⟩, h6⟩

theorem encBig_nat (n : ℕ) : encBig (some (n : ℤ)) = some (encodeString (natBytes n)) := by
  unfold encBig
  simp

/-- the header's encoding when the required integers are natural numbers -/
theorem headerRlp_some (h : Header) : headerRlp h ≠ none ↔
    (∀ d, h.difficulty = some d → 0 ≤ d) ∧ (∀ d, h.number = some d → 0 ≤ d) ∧ (∀ d, h.baseFee = some d → 0 ≤ d) := by
  have key : ∀ x : Option ℤ, encBig x = none ↔ ∃ d, x = some d ∧ d < 0 := by
    intro x
    cases x with
    | none => simp [encBig]
    | some v => unfold encBig; by_cases hv : v < 0 <;> simp [hv]
  unfold headerRlp
  have k1 := key h.difficulty
  have k2 := key h.number
  have k3 := key h.baseFee
  have tr : ∀ x : Option ℤ, (¬ ∃ d, x = some d ∧ d < 0) ↔ ∀ d, x = some d → 0 ≤ d := by
    intro x; push Not; rfl
  rw [← tr, ← tr, ← tr, ← k1, ← k2, ← k3]
  cases encBig h.difficulty <;> cases encBig h.number <;> cases encBig h.baseFee <;> simp

theorem limits_iff (h : Header) : WithinLimits h ↔ checkDynamicFieldLen h = some true ∧ headerRlp h ≠ none := by
  rw [check_iff, headerRlp_some]
  constructor
  · rintro ⟨d, n, b, e1, e2, e3, h1, h2, h3, h4⟩
    refine ⟨⟨d, n, b, e1, e2, e3, by simpa using h1, by simpa using h2, by simpa using h3, h4⟩, ?_, ?_, ?_⟩
    · intro x hx; rw [e1] at hx; rw [← Option.some.inj hx]; omega
    · intro x hx; rw [e2] at hx; rw [← Option.some.inj hx]; omega
    · intro x hx; rw [e3] at hx; rw [← Option.some.inj hx]; omega
  · rintro ⟨⟨d, n, b, e1, e2, e3, h1, h2, h3, h4⟩, p1, p2, p3⟩
    refine ⟨d.natAbs, n.natAbs, b.natAbs, ?_, ?_, ?_, h1, h2, h3, h4⟩
    · rw [e1, Int.natAbs_of_nonneg (p1 d e1)]
    · rw [e2, Int.natAbs_of_nonneg (p2 n e2)]
    · rw [e3, Int.natAbs_of_nonneg (p3 b e3)]

/-- the row of a header -/
def rowOf (rlp : List ℕ) : List ℕ :=
  (pad (bytesToBits rlp)).map Bool.toNat ++ List.replicate (5440 - (pad (bytesToBits rlp)).length) 0

theorem encodeHeader_iff (h : Header) (r : List ℕ × ℤ) :
    encodeHeader h = some r ↔ WithinLimits h ∧ ∃ rlp, headerRlp h = some rlp ∧
      r = (rowOf rlp, ((rlp.length / 136 : ℕ) : ℤ)) := by
  have hb : ∀ rlp, Keccak.bytes2BlockBits (Keccak.pad101Bytes rlp) = some ((pad (bytesToBits rlp)).map Bool.toNat) := by
    intro rlp
    rw [Keccak.C20_bytes2BlockBits, if_pos (Keccak.C20_pad101Bytes_length rlp).1, Keccak.C20_pad101Bytes]
  have hi : ∀ rlp : List ℕ, (((pad (bytesToBits rlp)).length / 1088 : ℕ) : ℤ) - 1 = ((rlp.length / 136 : ℕ) : ℤ) := by
    intro rlp
    obtain ⟨h1, h2⟩ := Keccak.C20_roundIndex rlp
    omega
  rw [limits_iff]
  unfold encodeHeader
  cases hc : checkDynamicFieldLen h with
  | none => simp
  | some ok =>
    cases ok with
    | false => simp
    | true =>
      cases hr : headerRlp h with
      | none => simp
      | some rlp =>
        simp only [Option.bind_eq_bind, Option.bind_some, if_true, hb, Option.pure_def, Option.some.injEq, List.length_map,
          hi, ne_eq, reduceCtorEq, not_false_eq_true, and_self, true_and, exists_eq_left', rowOf]
        exact eq_comm

theorem encodeHeaders_iff (hs : List Header) (acc out : List (List ℕ) × List ℤ) :
    hs.foldlM (fun (acc : List (List ℕ) × List ℤ) h => do
      let (row, idx) ← encodeHeader h
      pure (acc.1 ++ [row], acc.2 ++ [idx])) acc = some out ↔
    ∃ rs, List.Forall₂ (fun h r => encodeHeader h = some r) hs rs ∧
      out = (acc.1 ++ rs.map Prod.fst, acc.2 ++ rs.map Prod.snd) := by
  induction hs generalizing acc with
  | nil =>
    simp only [List.foldlM_nil, Option.pure_def, Option.some.injEq]
    constructor
    · rintro rfl; exact ⟨[], .nil, by simp⟩
    · rintro ⟨rs, h, rfl⟩; cases h; simp
  | cons h hs ih =>
    rw [List.foldlM_cons]
    simp only [Option.bind_eq_bind, Option.pure_def, Option.bind_eq_some_iff, Option.some.injEq] at ih ⊢
    constructor
    · rintro ⟨c, ⟨⟨row, idx⟩, hr, rfl⟩, h'⟩
      obtain ⟨rs, f, rfl⟩ := (ih _).1 h'
      exact ⟨(row, idx) :: rs, .cons hr f, by simp⟩
    · rintro ⟨rs, f, rfl⟩
      cases f with
      | @cons _ r _ rs hr f => exact ⟨_, ⟨r, hr, rfl⟩, (ih _).2 ⟨rs, f, by simp⟩⟩

/-- **C43**: `EncodeHeaders` succeeds exactly when every header has a non-nil, non-negative difficulty, number and
base fee and all six checked fields are within their byte limits. -/
theorem C43_accepts (hs : List Header) : (encodeHeaders hs).isSome ↔ ∀ h ∈ hs, WithinLimits h := by
  rw [Option.isSome_iff_exists]
  unfold encodeHeaders
  simp only [encodeHeaders_iff, encodeHeader_iff]
  constructor
  · rintro ⟨out, rs, f, -⟩ h hh
    induction f with
    | nil => simp at hh
    | cons hr _ ih =>
      rcases List.mem_cons.1 hh with rfl | hh
      · exact hr.1
      · exact ih hh
  · intro hl
    have : ∃ rs, List.Forall₂ (fun h (r : List ℕ × ℤ) => WithinLimits h ∧ ∃ rlp, headerRlp h = some rlp ∧
        r = (rowOf rlp, ((rlp.length / 136 : ℕ) : ℤ))) hs rs := by
      induction hs with
      | nil => exact ⟨[], .nil⟩
      | cons h hs ih =>
        obtain ⟨rs, hrs⟩ := ih (fun x hx => hl x (by simp [hx]))
        have h0 := hl h (by simp)
        obtain ⟨rlp, hr⟩ := Option.ne_none_iff_exists'.1 ((limits_iff h).1 h0).2
        exact ⟨_ :: rs, .cons ⟨h0, rlp, hr, rfl⟩ hrs⟩
    obtain ⟨rs, hrs⟩ := this
    exact ⟨_, rs, hrs, rfl⟩

/-- **C43**: the rows are in the order of the headers; each row is the Keccak-padded header RLP in little-endian bits,
zero-extended, and its index is that of the last message block. -/
theorem C43_rows (hs : List Header) (rows : List (List ℕ)) (idxs : List ℤ) (h : encodeHeaders hs = some (rows, idxs)) :
    rows.length = hs.length ∧ idxs.length = hs.length ∧
    ∀ i (hi : i < hs.length), ∃ rlp zeros, headerRlp hs[i] = some rlp ∧
      rows[i]? = some ((pad (bytesToBits rlp)).map Bool.toNat ++ List.replicate zeros 0) ∧
      zeros = 5440 - (pad (bytesToBits rlp)).length ∧ idxs[i]? = some ((rlp.length / 136 : ℕ) : ℤ) := by
  unfold encodeHeaders at h
  rw [encodeHeaders_iff] at h
  obtain ⟨rs, f, e⟩ := h
  simp only [List.nil_append, Prod.mk.injEq] at e
  obtain ⟨rfl, rfl⟩ := e
  have hl := f.length_eq
  refine ⟨by simp [hl], by simp [hl], fun i hi => ?_⟩
  have hr := List.Forall₂.get f (i := i) hi (by omega)
  rw [encodeHeader_iff] at hr
  obtain ⟨-, rlp, h1, h2⟩ := hr
  refine ⟨rlp, _, h1, ?_, rfl, ?_⟩
  · rw [List.getElem?_map, List.getElem?_eq_getElem (by omega)]
    simp only [List.get_eq_getElem] at h2
    rw [h2]; rfl
  · rw [List.getElem?_map, List.getElem?_eq_getElem (by omega)]
    simp only [List.get_eq_getElem] at h2
    rw [h2]; rfl

/-! ## The size of a row -/

theorem enc_le (bs : List ℕ) (n : ℕ) (h : bs.length ≤ n) (hn : n < 56) : (encodeString bs).length ≤ n + 1 := by
  unfold encodeString lenHeader
  split
  · omega
  · rw [if_pos (by omega), List.length_append, List.length_singleton]; omega

theorem enc_ge (bs : List ℕ) : bs.length ≤ (encodeString bs).length ∧ 1 ≤ (encodeString bs).length ∧
    (bs.length ≠ 1 → bs.length + 1 ≤ (encodeString bs).length) := by
  unfold encodeString
  split
  · rename_i h; exact ⟨le_rfl, by omega, fun h' => absurd h.1 h'⟩
  · rw [List.length_append]
    have := Rlp.lenHeader_length_pos 0x80 0xb7 bs.length
    exact ⟨by omega, by omega, fun _ => by omega⟩

theorem enc_bloom (bs : List ℕ) (h : bs.length = 256) : (encodeString bs).length = 259 := by
  unfold encodeString lenHeader lenBytes
  rw [if_neg (by omega), if_neg (by omega), h]
  norm_num [h]

theorem tail_le (l : List (Option (List ℕ))) :
    (encTail l).flatten.length ≤ (l.map fun x => (x.getD (encodeString [])).length).sum := by
  induction l with
  | nil => simp [encTail]
  | cons x r ih =>
    rw [encTail]
    split
    · rw [List.flatten_cons, List.length_append, List.map_cons, List.sum_cons]; omega
    · simp

theorem list_le (items : List (List ℕ)) (n : ℕ) (h : items.flatten.length ≤ n) (hn : n < 65536) :
    (encodeList items).length ≤ n + 3 := by
  unfold encodeList
  rw [List.length_append]
  have := Rlp.lenHeader_length_le 0xc0 0xf7 items.flatten.length 2 (by omega)
  omega

theorem encNat_le (x k : ℕ) (h : x < 256 ^ k) (hk : k < 56) : (encodeString (natBytes x)).length ≤ k + 1 :=
  enc_le _ _ ((natBytes_length_le x k).2 h) hk

theorem rlp_le (h : Header) (hw : WellFormed h) (hl : WithinLimits h) (hx : h.extra.length ≤ 32) (rlp : List ℕ)
    (e : headerRlp h = some rlp) : rlp.length ≤ 647 := by
  obtain ⟨w1, w2, w3, w4, w5, w6, w7, w8, w9, w10, w11, w12, w13⟩ := hw
  obtain ⟨d, n, b, e1, e2, e3, h1, h2, h3, h4, h5, h6⟩ := hl
  unfold headerRlp at e
  rw [e1, e2, e3, encBig_nat, encBig_nat, encBig_nat] at e
  simp only [Option.bind_eq_bind, Option.bind_some, Option.pure_def, Option.some.injEq, Option.isSome_some, if_true] at e
  rw [← e]
  refine le_trans (list_le _ 644 ?_ (by norm_num)) (by norm_num)
  rw [List.flatten_append, List.length_append]
  have ht := tail_le [some (encodeString (natBytes b)), h.withdrawalsHash.map encodeString, h.blobGasUsed.map encUint,
      h.excessBlobGas.map encUint, h.parentBeaconRoot.map encodeString]
  simp only [List.map_cons, List.map_nil, List.sum_cons, List.sum_nil, Option.getD_some] at ht
  have t1 : ((h.withdrawalsHash.map encodeString).getD (encodeString [])).length ≤ 33 := by
    cases hh : h.withdrawalsHash with
    | none => simp [encodeString, lenHeader]
    | some w => exact enc_le w 32 (le_of_eq (w10 w hh)) (by norm_num)
  have t4 : ((h.parentBeaconRoot.map encodeString).getD (encodeString [])).length ≤ 33 := by
    cases hh : h.parentBeaconRoot with
    | none => simp [encodeString, lenHeader]
    | some w => exact enc_le w 32 (le_of_eq (w11 w hh)) (by norm_num)
  have t2 : ((h.blobGasUsed.map encUint).getD (encodeString [])).length ≤ 9 := by
    cases hh : h.blobGasUsed with
    | none => simp [encodeString, lenHeader]
    | some w => exact encNat_le w 8 (by have := w12 w hh; norm_num; omega) (by norm_num)
  have t3 : ((h.excessBlobGas.map encUint).getD (encodeString [])).length ≤ 9 := by
    cases hh : h.excessBlobGas with
    | none => simp [encodeString, lenHeader]
    | some w => exact encNat_le w 8 (by have := w13 w hh; norm_num; omega) (by norm_num)
  have a0 := encNat_le b 7 h3 (by norm_num)
  have a1 := encNat_le d 7 h1 (by norm_num)
  have a2 := encNat_le n 8 h2 (by norm_num)
  have a3 : (encUint h.gasLimit).length ≤ 5 := encNat_le _ 4 h4 (by norm_num)
  have a4 : (encUint h.gasUsed).length ≤ 5 := encNat_le _ 4 h5 (by norm_num)
  have a5 : (encUint h.time).length ≤ 5 := encNat_le _ 4 h6 (by norm_num)
  have c1 := enc_le _ _ (le_of_eq w1) (by norm_num)
  have c2 := enc_le _ _ (le_of_eq w2) (by norm_num)
  have c3 := enc_le _ _ (le_of_eq w3) (by norm_num)
  have c4 := enc_le _ _ (le_of_eq w4) (by norm_num)
  have c5 := enc_le _ _ (le_of_eq w5) (by norm_num)
  have c6 := enc_le _ _ (le_of_eq w6) (by norm_num)
  have c7 := enc_bloom _ w7
  have c8 := enc_le _ _ (le_of_eq w8) (by norm_num)
  have c9 := enc_le _ _ (le_of_eq w9) (by norm_num)
  have c10 := enc_le _ _ hx (by norm_num)
  simp only [List.flatten_cons, List.flatten_nil, List.length_append, List.length_nil]
  omega

theorem rlp_ge (h : Header) (hw : WellFormed h) (rlp : List ℕ) (e : headerRlp h = some rlp) :
    h.extra.length + 493 ≤ rlp.length := by
  obtain ⟨w1, w2, w3, w4, w5, w6, w7, w8, w9, -⟩ := hw
  unfold headerRlp at e
  simp only [Option.bind_eq_bind, Option.pure_def, Option.bind_eq_some_iff, Option.some.injEq] at e
  obtain ⟨d, hd, n, hn, b, hb, e⟩ := e
  have big : ∀ x y, encBig x = some y → 1 ≤ y.length := by
    intro x y h
    unfold encBig at h
    split at h
    · rw [← Option.some.inj h]; exact (enc_ge _).2.1
    · split at h
      · simp at h
      · rw [← Option.some.inj h]; exact (enc_ge _).2.1
  rw [← e]
  unfold encodeList
  have hp := Rlp.lenHeader_length_pos 0xc0 0xf7
  rw [List.length_append, List.flatten_append, List.length_append]
  have c1 := (enc_ge h.parentHash).2.2 (by omega)
  have c2 := (enc_ge h.uncleHash).2.2 (by omega)
  have c3 := (enc_ge h.coinbase).2.2 (by omega)
  have c4 := (enc_ge h.root).2.2 (by omega)
  have c5 := (enc_ge h.txHash).2.2 (by omega)
  have c6 := (enc_ge h.receiptHash).2.2 (by omega)
  have c7 := enc_bloom _ w7
  have c8 := (enc_ge h.mixDigest).2.2 (by omega)
  have c9 := (enc_ge h.nonce).2.2 (by omega)
  have c10 := (enc_ge h.extra).1
  have a1 := big _ _ hd
  have a2 := big _ _ hn
  have a3 : 1 ≤ (encUint h.gasLimit).length := (enc_ge _).2.1
  have a4 : 1 ≤ (encUint h.gasUsed).length := (enc_ge _).2.1
  have a5 : 1 ≤ (encUint h.time).length := (enc_ge _).2.1
  have hp' := hp (([encodeString h.parentHash, encodeString h.uncleHash, encodeString h.coinbase, encodeString h.root,
    encodeString h.txHash, encodeString h.receiptHash, encodeString h.bloom, d, n, encUint h.gasLimit, encUint h.gasUsed,
    encUint h.time, encodeString h.extra, encodeString h.mixDigest, encodeString h.nonce].flatten ++
    (encTail [if h.baseFee.isSome then some b else none, h.withdrawalsHash.map encodeString, h.blobGasUsed.map encUint,
      h.excessBlobGas.map encUint, h.parentBeaconRoot.map encodeString]).flatten).length)
  rw [List.length_append] at hp'
  simp only [List.flatten_cons, List.flatten_nil, List.length_append, List.length_nil] at hp' ⊢
  omega

theorem pad_len (rlp : List ℕ) : (pad (bytesToBits rlp)).length = 1088 * (rlp.length / 136 + 1) := by
  obtain ⟨h1, h2⟩ := Keccak.C20_roundIndex rlp
  have h3 := Keccak.C20_pad101Bytes_length rlp
  rw [← Keccak.C20_pad101Bytes, Keccak.bytesToBits_length] at h1 ⊢
  omega

/-- **C43**: for a header within the limits whose extra data has at most 32 bytes (the Ethereum consensus limit), the
row has exactly 5 blocks of 1088 bits and the index addresses one of them. -/
theorem C43_row_size (h : Header) (hw : WellFormed h) (hx : h.extra.length ≤ 32) (row : List ℕ) (idx : ℤ)
    (e : encodeHeader h = some (row, idx)) : row.length = 5440 ∧ 0 ≤ idx ∧ idx < 5 := by
  rw [encodeHeader_iff] at e
  obtain ⟨hl, rlp, hr, e⟩ := e
  simp only [Prod.mk.injEq] at e
  obtain ⟨rfl, rfl⟩ := e
  have hle := rlp_le h hw hl hx rlp hr
  unfold rowOf
  rw [List.length_append, List.length_map, List.length_replicate, pad_len]
  omega

/-- **C43**, limit: nothing checks the extra data.  A header within the limits with at least 187 bytes of it (as on
proof-of-authority chains) is accepted with a row that exceeds the five blocks and an index beyond them. -/
theorem C43_long_extra_accepted (h : Header) (hw : WellFormed h) (hl : WithinLimits h) (hx : 187 ≤ h.extra.length) :
    ∃ row idx, encodeHeader h = some (row, idx) ∧ 5440 < row.length ∧ 5 ≤ idx := by
  obtain ⟨rlp, hr⟩ := Option.ne_none_iff_exists'.1 ((limits_iff h).1 hl).2
  refine ⟨_, _, (encodeHeader_iff h _).2 ⟨hl, rlp, hr, rfl⟩, ?_, ?_⟩
  · have := rlp_ge h hw rlp hr
    unfold rowOf
    rw [List.length_append, List.length_map, List.length_replicate, pad_len]
    omega
  · have := rlp_ge h hw rlp hr
    omega

/-- **C43**: hashing such a row with the five-block Keccak gadget at its index gives the header's Keccak-256 hash. -/
theorem C43_row_hash {p : ℕ} [Fact p.Prime] (hp : 5 ≤ p) (h : Header) (hw : WellFormed h) (hx : h.extra.length ≤ 32)
    (row : List ℕ) (idx : ℤ) (e : encodeHeader h = some (row, idx)) :
    ∃ rlp, headerRlp h = some rlp ∧
      Keccak.keccak256Bits 5 ((idx : ℤ) : F p) (row.map fun b : ℕ => (b : F p)) =
        some ((keccak256 (bytesToBits rlp)).map ofB) := by
  have hs := C43_row_size h hw hx row idx e
  rw [encodeHeader_iff] at e
  obtain ⟨hl, rlp, hr, e⟩ := e
  simp only [Prod.mk.injEq] at e
  obtain ⟨rfl, rfl⟩ := e
  refine ⟨rlp, hr, ?_⟩
  have hle := rlp_le h hw hl hx rlp hr
  have hrow : (rowOf rlp).map (fun b : ℕ => (b : F p)) =
      (pad (bytesToBits rlp) ++ List.replicate (5440 - (pad (bytesToBits rlp)).length) false).map ofB := by
    unfold rowOf
    rw [List.map_append, List.map_append, List.map_map, List.map_replicate, List.map_replicate]
    congr 1
    · apply List.map_congr_left
      intro b _
      cases b <;> simp [ofB]
    · simp [ofB]
  rw [hrow]
  have hlen := pad_len rlp
  apply Keccak.C22_keccak256Bits_digest 5 hp
  · rw [List.length_append, List.length_replicate]; omega
  · rw [Int.cast_natCast, ZMod.val_natCast_of_lt (by omega), hlen]; omega

/-- A header within the limits, all numeric fields at their maximum (as in `genHeader`). -/
def maxHeader (extra : List ℕ) : Header :=
  ⟨List.replicate 32 7, List.replicate 32 0, List.replicate 20 0, List.replicate 32 0, List.replicate 32 0,
    List.replicate 32 0, List.replicate 256 0, some (256 ^ 7 - 1), some (256 ^ 8 - 1), 0xffffffff, 0xffffffff, 0xffffffff,
    extra, List.replicate 32 0, List.replicate 8 1, some (256 ^ 7 - 1), some (List.replicate 32 0), none, none, none⟩

theorem maxHeader_ok (extra : List ℕ) : WellFormed (maxHeader extra) ∧ WithinLimits (maxHeader extra) := by
  constructor
  · unfold maxHeader
    refine ⟨List.length_replicate, List.length_replicate, List.length_replicate, List.length_replicate,
      List.length_replicate, List.length_replicate, List.length_replicate, List.length_replicate, List.length_replicate,
      ?_, ?_, ?_, ?_⟩
    · intro w hw
      simp only [Option.some.injEq] at hw
      rw [← hw, List.length_replicate]
    · intro w hw; simp at hw
    · intro w hw; simp at hw
    · intro w hw; simp at hw
  · exact ⟨256 ^ 7 - 1, 256 ^ 8 - 1, 256 ^ 7 - 1, by norm_num [maxHeader], by norm_num [maxHeader], by norm_num [maxHeader],
      by norm_num, by norm_num, by norm_num, by norm_num [maxHeader], by norm_num [maxHeader], by norm_num [maxHeader]⟩

/-- concrete headers: one that fits, one that does not, one that is rejected -/
example : (∃ row idx, encodeHeader (maxHeader [1, 2, 3]) = some (row, idx) ∧ row.length = 5440) ∧
    (∃ row idx, encodeHeader (maxHeader (List.replicate 600 9)) = some (row, idx) ∧ 5440 < row.length) ∧
    encodeHeaders [maxHeader [], { maxHeader [] with time := 256 ^ 4 }] = none := by
  refine ⟨?_, ?_, ?_⟩
  · obtain ⟨hw, hl⟩ := maxHeader_ok [1, 2, 3]
    obtain ⟨rlp, hr⟩ := Option.ne_none_iff_exists'.1 ((limits_iff _).1 hl).2
    have e := (encodeHeader_iff _ _).2 ⟨hl, rlp, hr, rfl⟩
    exact ⟨_, _, e, (C43_row_size _ hw (by simp [maxHeader]) _ _ e).1⟩
  · obtain ⟨hw, hl⟩ := maxHeader_ok (List.replicate 600 9)
    obtain ⟨row, idx, e, h, -⟩ := C43_long_extra_accepted _ hw hl (by
      show 187 ≤ (List.replicate 600 9).length; rw [List.length_replicate]; norm_num)
    exact ⟨row, idx, e, h⟩
  · rw [← Option.not_isSome_iff_eq_none, C43_accepts]
    intro h
    obtain ⟨d, n, b, -, -, -, -, -, -, -, -, ht⟩ := h _ (by simp : { maxHeader [] with time := 256 ^ 4 } ∈ _)
    simp at ht

/-! ## NewHash -/

/-- **C43**: `NewHash` accepts exactly 32 bytes; the two halves are 128-bit numbers that determine the bytes. -/
theorem C43_newHash (bs : List ℕ) (hb : Hex.Bytes bs) :
    (newHash bs = none ↔ bs.length ≠ 32) ∧
    ∀ q r, newHash bs = some (q, r) → q < 2 ^ 128 ∧ r < 2 ^ 128 ∧ q * 2 ^ 128 + r = Hex.beVal bs := by
  unfold newHash
  constructor
  · split <;> simp_all
  · intro q r h
    split at h
    · simp at h
    · rename_i hl
      simp only [Option.some.injEq, Prod.mk.injEq] at h
      obtain ⟨rfl, rfl⟩ := h
      have := beVal_lt_256 bs hb (by omega)
      omega

theorem C43_newHash_injective (a b : List ℕ) (ha : Hex.Bytes a) (hb : Hex.Bytes b) (r : ℕ × ℕ)
    (h1 : newHash a = some r) (h2 : newHash b = some r) : a = b := by
  have e1 := (C43_newHash a ha).2 _ _ h1
  have e2 := (C43_newHash b hb).2 _ _ h2
  have l1 : a.length = 32 := by
    by_contra h; rw [(C43_newHash a ha).1.2 h] at h1; simp at h1
  have l2 : b.length = 32 := by
    by_contra h; rw [(C43_newHash b hb).1.2 h] at h2; simp at h2
  exact Hex.beVal_inj a b ha hb (by omega) (by omega)

example : newHash (List.replicate 15 0 ++ [1] ++ List.replicate 15 0 ++ [2]) = some (1, 2) := by decide +kernel

/-! ## MimcRoot -/

/-- The contract assumed of the hasher: `dom` are the canonical one-element blocks, different blocks are different
elements, and the digest is again a block. -/
structure Good {E : Type} (M : Hasher E) (dom : List ℕ → Prop) : Prop where
  block : ∀ x, dom x → ∃ e, M.absorb x = some [e]
  inj : ∀ x y, dom x → dom y → M.absorb x = M.absorb y → x = y
  digest : ∀ l, dom (M.sum l)

/-- Node hash: the digest of the two children. -/
def node {E : Type} (M : Hasher E) (a b : List ℕ) : List ℕ := M.sum ((M.absorb a).getD [] ++ (M.absorb b).getD [])

theorem level_eq {E : Type} (M : Hasher E) (dom : List ℕ → Prop) (hM : Good M dom) (l : List (List ℕ))
    (hl : ∀ x ∈ l, dom x) (he : l.length % 2 = 0) : mimcLevel M l = some (Keccak.pairUp (node M) l) := by
  induction l using mimcLevel.induct with
  | case1 => rfl
  | case2 a => simp at he
  | case3 a b r ih =>
    obtain ⟨x, hx⟩ := hM.block a (hl a (by simp))
    obtain ⟨y, hy⟩ := hM.block b (hl b (by simp))
    rw [mimcLevel, hx, hy, ih (fun z hz => hl z (by simp [hz])) (by simp at he; omega)]
    simp [Keccak.pairUp, node, hx, hy]

theorem rootAux_eq {E : Type} (M : Hasher E) (dom : List ℕ → Prop) (hM : Good M dom) (n : ℕ) : ∀ (fuel : ℕ)
    (l : List (List ℕ)), n < fuel → (∀ x ∈ l, dom x) → l.length = 2 ^ n →
    mimcRootAux M fuel l = some (Spec.merkleRoot (node M) [] n l) := by
  induction n with
  | zero =>
    intro fuel l hf hl hlen
    obtain ⟨f, rfl⟩ : ∃ f, fuel = f + 1 := ⟨fuel - 1, by omega⟩
    match l, hlen with
    | [x], _ => simp [mimcRootAux, Spec.merkleRoot]
  | succ n ih =>
    intro fuel l hf hl hlen
    obtain ⟨f, rfl⟩ : ∃ f, fuel = f + 1 := ⟨fuel - 1, by omega⟩
    have hp : Keccak.isPowerOfTwo l.length = true := (Keccak.isPowerOfTwo_iff _).2 ⟨_, hlen⟩
    unfold Keccak.isPowerOfTwo at hp
    simp only [Bool.and_eq_true, bne_iff_ne, ne_eq, beq_iff_eq] at hp
    have h2 : 1 < l.length := by rw [hlen]; exact Nat.one_lt_two_pow (by omega)
    rw [mimcRootAux]
    simp only [if_neg hp.1, hp.2, ne_eq, not_true_eq_false, if_false, if_neg (show ¬ l.length = 1 by omega)]
    rw [level_eq M dom hM l hl (by rw [hlen, pow_succ]; omega), Option.bind_some, Keccak.merkleRoot_pairUp _ _ _ _ hlen]
    refine ih f _ (by omega) (Keccak.pairUp_mem _ _ _ (fun a b => hM.digest _)) ?_
    rw [Keccak.pairUp_length, hlen, pow_succ]; omega

/-- **C43**: `MimcRoot` of `2^n` blocks is the root of the complete binary tree whose nodes are the MiMC hash of their
two children. -/
theorem C43_mimcRoot {E : Type} (M : Hasher E) (dom : List ℕ → Prop) (hM : Good M dom) (n : ℕ) (l : List (List ℕ))
    (hl : ∀ x ∈ l, dom x) (hlen : l.length = 2 ^ n) : mimcRoot M l = some (Spec.merkleRoot (node M) [] n l) := by
  unfold mimcRoot
  exact rootAux_eq M dom hM n _ l (by rw [hlen]; exact Nat.lt_two_pow_self) hl hlen

/-- **C43**: any other number of leaves panics. -/
theorem C43_mimcRoot_guard {E : Type} (M : Hasher E) (l : List (List ℕ)) (h : ∀ n, l.length ≠ 2 ^ n) :
    mimcRoot M l = none := by
  unfold mimcRoot
  cases hl : l.length with
  | zero => rfl
  | succ f =>
    rw [mimcRootAux]
    rw [if_neg (by omega), if_pos]
    intro h0
    obtain ⟨n, hn⟩ := (Keccak.isPowerOfTwo_iff l.length).1 (by
      unfold Keccak.isPowerOfTwo
      simp only [Bool.and_eq_true, bne_iff_ne, ne_eq, beq_iff_eq]
      exact ⟨by omega, h0⟩)
    exact h n hn

theorem treeNode_dom {α : Type*} (H : α → α → α) (P : α → Prop) (hH : ∀ a b, P (H a b)) (leaf : ℕ → α) (n : ℕ)
    (hl : ∀ i < 2 ^ n, P (leaf i)) (j k : ℕ) (hj : j ≤ n) (hk : k < 2 ^ (n - j)) : P (Spec.treeNode H leaf j k) := by
  cases j with
  | zero => exact hl k (by simpa using hk)
  | succ j => exact hH _ _

/-- **C43**: two lists of `2^n` blocks with the same `MimcRoot` are equal, or at a named place of their trees (the children
of node `m` of height `j + 1`) the children of the two trees are absorbed as different pairs of field elements with the same
MiMC digest. -/
theorem C43_mimcRoot_binding {E : Type} (M : Hasher E) (dom : List ℕ → Prop) (hM : Good M dom) (n : ℕ)
    (l1 l2 : List (List ℕ)) (p1 : ∀ x ∈ l1, dom x) (p2 : ∀ x ∈ l2, dom x) (h1 : l1.length = 2 ^ n)
    (h2 : l2.length = 2 ^ n) (h : mimcRoot M l1 = mimcRoot M l2) :
    l1 = l2 ∨ ∃ j m, j < n ∧ m < 2 ^ (n - (j + 1)) ∧ ∃ a b a' b' : E,
      M.absorb (Spec.treeNode (node M) (fun k => l1.getD k []) j (2 * m)) = some [a] ∧
      M.absorb (Spec.treeNode (node M) (fun k => l1.getD k []) j (2 * m + 1)) = some [b] ∧
      M.absorb (Spec.treeNode (node M) (fun k => l2.getD k []) j (2 * m)) = some [a'] ∧
      M.absorb (Spec.treeNode (node M) (fun k => l2.getD k []) j (2 * m + 1)) = some [b'] ∧
      [a, b] ≠ [a', b'] ∧ M.sum [a, b] = M.sum [a', b'] := by
  rw [C43_mimcRoot M dom hM n l1 p1 h1, C43_mimcRoot M dom hM n l2 p2 h2, Option.some.injEq] at h
  rcases Spec.merkleRoot_bind (node M) [] n l1 l2 h1 h2 h with e | ⟨j, m, hj, hm, hn, e⟩
  · exact Or.inl e
  right
  have lens : ∀ l : List (List ℕ), (∀ x ∈ l, dom x) → l.length = 2 ^ n → ∀ k < 2 ^ (n - j),
      dom (Spec.treeNode (node M) (fun k => l.getD k []) j k) := by
    intro l hl hn k hk
    refine treeNode_dom _ dom (fun a b => hM.digest _) _ n (fun i hi => ?_) j k (by omega) hk
    simp only [List.getD_eq_getElem?_getD]
    rw [List.getElem?_eq_getElem (by omega)]
    exact hl _ (List.getElem_mem _)
  have hp : 2 ^ (n - j) = 2 * 2 ^ (n - (j + 1)) := by
    rw [show n - j = (n - (j + 1)) + 1 by omega, pow_succ]; ring
  have d1 := lens l1 p1 h1 (2 * m) (by omega)
  have d2 := lens l1 p1 h1 (2 * m + 1) (by omega)
  have d3 := lens l2 p2 h2 (2 * m) (by omega)
  have d4 := lens l2 p2 h2 (2 * m + 1) (by omega)
  obtain ⟨x, hx⟩ := hM.block _ d1
  obtain ⟨y, hy⟩ := hM.block _ d2
  obtain ⟨x', hx'⟩ := hM.block _ d3
  obtain ⟨y', hy'⟩ := hM.block _ d4
  refine ⟨j, m, hj, hm, x, y, x', y', hx, hy, hx', hy', fun he => hn ?_, ?_⟩
  · simp only [List.cons.injEq, and_true] at he
    exact Prod.ext (hM.inj _ _ d1 d3 (by rw [hx, hx', he.1])) (hM.inj _ _ d2 d4 (by rw [hy, hy', he.2]))
  · unfold node at e hx hy hx' hy'
    rw [hx, hy, hx', hy'] at e
    exact e

/-- the contract of the hasher can be met: one-byte blocks and the XOR-free digest "first byte" -/
example : Good (E := ℕ) ⟨fun x => if x.length = 1 then some x else none, fun l => [l.headD 0]⟩ (fun x => x.length = 1) where
  block := fun x hx => by
    match x, hx with
    | [e], _ => exact ⟨e, by simp⟩
  inj := fun x y hx hy h => by simpa [hx, hy] using h
  digest := fun l => rfl

/-! ## MimcHashBytes32 -/

/-- **C43**: on 32 bytes `MimcHashBytes32` is the digest of the two 128-bit halves, whatever the field order above
`2^128`; it panics exactly below 16 bytes. -/
theorem C43_mimcHashBytes32 {E : Type} (M : Hasher E) (elem : ℕ → E) (r : ℕ) (hr : 2 ^ 128 ≤ r) (inp : List ℕ)
    (hb : Hex.Bytes inp) :
    (mimcHashBytes32 M elem r inp = none ↔ inp.length < 16) ∧
    (inp.length = 32 → mimcHashBytes32 M elem r inp =
      some (M.sum [elem (Hex.beVal inp / 2 ^ 128), elem (Hex.beVal inp % 2 ^ 128)])) := by
  unfold mimcHashBytes32
  constructor
  · split <;> simp_all
  · intro hl
    have h1 := Abi.halves inp hb hl
    have hlt := beVal_lt_256 inp hb (by omega)
    rw [if_neg (by omega)]
    unfold padLeft
    rw [Hex.beVal_replicate_zero, Hex.beVal_replicate_zero, h1.1, h1.2, Nat.mod_eq_of_lt (by omega),
      Nat.mod_eq_of_lt (by omega)]

/-- **C43**: two 32-byte strings with the same `MimcHashBytes32` are equal, or the elements of their halves are different
pairs with the same digest. -/
theorem C43_mimcHashBytes32_binding {E : Type} (M : Hasher E) (elem : ℕ → E) (r : ℕ) (hr : 2 ^ 128 ≤ r)
    (he : ∀ x y, x < r → y < r → elem x = elem y → x = y) (a b : List ℕ) (ha : Hex.Bytes a) (hb : Hex.Bytes b)
    (la : a.length = 32) (lb : b.length = 32) (h : mimcHashBytes32 M elem r a = mimcHashBytes32 M elem r b) :
    a = b ∨ ([elem (Hex.beVal a / 2 ^ 128), elem (Hex.beVal a % 2 ^ 128)] ≠
        [elem (Hex.beVal b / 2 ^ 128), elem (Hex.beVal b % 2 ^ 128)] ∧
      M.sum [elem (Hex.beVal a / 2 ^ 128), elem (Hex.beVal a % 2 ^ 128)] =
        M.sum [elem (Hex.beVal b / 2 ^ 128), elem (Hex.beVal b % 2 ^ 128)]) := by
  rw [(C43_mimcHashBytes32 M elem r hr a ha).2 la, (C43_mimcHashBytes32 M elem r hr b hb).2 lb] at h
  by_cases e : [elem (Hex.beVal a / 2 ^ 128), elem (Hex.beVal a % 2 ^ 128)] =
      [elem (Hex.beVal b / 2 ^ 128), elem (Hex.beVal b % 2 ^ 128)]
  · left
    simp only [List.cons.injEq, and_true] at e
    have l1 := beVal_lt_256 a ha (by omega)
    have l2 := beVal_lt_256 b hb (by omega)
    have e1 := he _ _ (by omega) (by omega) e.1
    have e2 := he _ _ (by omega) (by omega) e.2
    exact Hex.beVal_inj a b ha hb (by omega) (by omega)
  · exact Or.inr ⟨e, Option.some.inj h⟩

/-- **C43**: `ChunkIndexFound` is membership. -/
theorem C43_chunkIndexFound (t : ℕ) (l : List ℕ) : chunkIndexFound t l = true ↔ t ∈ l := by
  induction l with
  | nil => simp [chunkIndexFound]
  | cons v r ih =>
    unfold chunkIndexFound
    split
    · rename_i h; simp [h]
    · rename_i h; rw [ih]; simp [Ne.symm h]

/-! ## C45 -/

def decimal (n : ℕ) : List ℕ := if n = 0 then [48] else (Nat.digits 10 n).reverse.map (· + 48)

theorem decimal_digits (n : ℕ) : ∀ c ∈ decimal n, 48 ≤ c ∧ c ≤ 57 := by
  intro c hc
  unfold decimal at hc
  split at hc
  · simp at hc; omega
  · obtain ⟨d, hd, rfl⟩ := List.mem_map.1 hc
    have := Nat.digits_lt_base (by norm_num : 1 < 10) (List.mem_reverse.1 hd)
    omega

theorem decimal_inj (a b : ℕ) (h : decimal a = decimal b) : a = b := by
  have val : ∀ n, Nat.ofDigits 10 ((decimal n).map (· - 48)).reverse = n := by
    intro n
    unfold decimal
    split
    · rename_i h; subst h; rfl
    · rw [List.map_map, List.map_congr_left (g := id) (by intro x _; simp), List.map_id, List.reverse_reverse,
        Nat.ofDigits_digits]
  rw [← val a, ← val b, h]

/-- **C45**: `ObjectKey` is injective: the last slash of a key separates the prefix from the slot, so different
prefixes or slots never share a key, whatever characters the prefix contains. -/
theorem C45_objectKey_injective (p q : List ℕ) (a b : ℕ) (h : objectKey p a = objectKey q b) : p = q ∧ a = b := by
  have key : ∀ p a, objectKey p a = (p ++ [47] ++ decimal a) ++ [46, 106, 115, 111, 110] := fun p a => rfl
  rw [key, key] at h
  have h1 := (List.append_inj' h rfl).1
  -- compare from the right: digits before the slash
  have h2 := congrArg List.reverse h1
  simp only [List.reverse_append, List.reverse_cons, List.reverse_nil, List.nil_append] at h2
  have sep : ∀ (x y u v : List ℕ), (∀ c ∈ x, 48 ≤ c) → (∀ c ∈ y, 48 ≤ c) → x ++ ([47] ++ u) = y ++ ([47] ++ v) →
      x = y ∧ u = v := by
    intro x
    induction x with
    | nil =>
      intro y u v _ hy h
      cases y with
      | nil => simp at h; exact ⟨rfl, h⟩
      | cons c y =>
        simp only [List.nil_append, List.cons_append, List.cons.injEq] at h
        have := hy c (by simp); omega
    | cons c x ih =>
      intro y u v hx hy h
      cases y with
      | nil =>
        simp only [List.nil_append, List.cons_append, List.cons.injEq] at h
        have := hx c (by simp); omega
      | cons e y =>
        simp only [List.cons_append, List.cons.injEq] at h
        obtain ⟨rfl, h⟩ := h
        obtain ⟨r1, r2⟩ := ih y u v (fun z hz => hx z (by simp [hz])) (fun z hz => hy z (by simp [hz])) (by simpa using h)
        exact ⟨by rw [r1], r2⟩
  obtain ⟨e1, e2⟩ := sep _ _ _ _ (fun c hc => (decimal_digits a c (List.mem_reverse.1 hc)).1)
    (fun c hc => (decimal_digits b c (List.mem_reverse.1 hc)).1) h2
  exact ⟨List.reverse_injective e2, decimal_inj a b (List.reverse_injective e1)⟩

/-- "a/5" with slot 12 is the key "a/5/12.json" -/
example : objectKey [97, 47, 53] 12 = [97, 47, 53, 47, 49, 50, 46, 106, 115, 111, 110] := by
  norm_num [objectKey]

end Verif.Fabric
