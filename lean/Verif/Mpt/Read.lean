import Verif.Mpt.Nodes
import Verif.Mpt.Hash

/-! Reading genuine encodings with the stream specification (lemmas). -/

set_option linter.unusedSectionVars false
set_option linter.unusedVariables false

namespace Verif.Mpt
open Api Rlp Keccak Spec.Rlp Spec.Mpt
variable {p : ℕ} [Fact p.Prime]

theorem itemNibbles_of_reads {S : ℕ → ℕ} {i : ℕ} {pay : List ℕ} (h1 : payLen S (itemOffset S i) = 2 * pay.length)
    (h2 : ReadsAt S (itemOffset S i + hdrLen (byteAt S (itemOffset S i))) (nibblesOf pay)) :
    itemNibbles S i = nibblesOf pay := by
  apply List.ext_getElem?
  intro j
  unfold itemNibbles
  rw [List.getElem?_map, h1]
  rcases Nat.lt_or_ge j (2 * pay.length) with h | h
  · rw [List.getElem?_range h]
    have := h2 j (by rw [nibblesOf_length]; exact h)
    rw [Option.map_some, this, List.getD_eq_getElem?_getD,
      List.getElem?_eq_getElem (by rw [nibblesOf_length]; exact h)]
    rfl
  · rw [List.getElem?_eq_none (by simp; omega), List.getElem?_eq_none (by rw [nibblesOf_length]; omega)]
    rfl

/-- Everything the gadgets look at, for a stream that starts with an encoded list. -/
structure ListRead (S : ℕ → ℕ) (items pays : List (List ℕ)) : Prop where
  isL : isList S 0
  verdict : ListVerdict S items.length
  total : listHdr (byteAt S 0) + declared S = 2 * (encodeList items).length
  item : ∀ (k : ℕ) (pay : List ℕ), pays[k]? = some pay →
    payLen S (itemOffset S k) = 2 * pay.length ∧ itemNibbles S k = nibblesOf pay
  offs : ∀ k ≤ items.length, itemOffset S k = listHdr (byteAt S 0) + 2 * (items.take k).flatten.length
  noc0 : ∀ k < items.length, byteAt S (itemOffset S k) ≠ 0xc0

theorem listRead (S : ℕ → ℕ) (hS : ∀ k, S k < 16) (items pays : List (List ℕ))
    (he : List.Forall₂ Encodes items pays) (hn : items.flatten.length < 256 ^ 8)
    (hpn : ∀ q ∈ pays, q.length < 256 ^ 8)
    (h : ReadsAt S 0 (nibblesOf (encodeList items))) : ListRead S items pays := by
  obtain ⟨h1, h2, h3, h4, h5⟩ := list_read S hS items pays he hn hpn h
  have htot : listHdr (byteAt S 0) + declared S = 2 * (encodeList items).length := by
    unfold declared encodeList
    rw [if_pos (show 0xc0 ≤ byteAt S 0 from h1), h2, h3, List.length_append]; ring
  have hc0 : ∀ k < items.length, byteAt S (itemOffset S k) ≠ 0xc0 := by
    intro k hk
    obtain ⟨pay, -, -, h, -⟩ := h5 k hk
    exact h
  refine ⟨h1, ?_, htot, ?_, h4, hc0⟩
  · unfold ListVerdict
    rw [if_pos h1, emptyLists_zero S _ hc0, if_pos]
    rw [h4 _ le_rfl, List.take_length]
    unfold declared
    rw [if_pos (show 0xc0 ≤ byteAt S 0 from h1), h2]
  · intro k pay hk
    have hlen : k < items.length := by
      rw [he.length_eq]
      exact (List.getElem?_eq_some_iff.1 hk).1
    obtain ⟨pay', e1, e2, -, e3, -⟩ := h5 k hlen
    obtain rfl : pay = pay' := by rw [hk] at e1; exact Option.some.inj e1
    exact ⟨e2, itemNibbles_of_reads e2 e3⟩

theorem hexPrefixNibbles_even (lf : Bool) (path : List ℕ) : (hexPrefixNibbles lf path).length % 2 = 0 := by
  unfold hexPrefixNibbles
  simp only
  split <;> simp <;> omega

theorem hexPrefixNibbles_lt (lf : Bool) (path : List ℕ) (h : ∀ x ∈ path, x < 16) :
    ∀ x ∈ hexPrefixNibbles lf path, x < 16 := by
  unfold hexPrefixNibbles
  intro x hx
  simp only at hx
  have hf : (if lf then 2 else 0) ≤ 2 := by cases lf <;> simp
  generalize (if lf then 2 else 0) = flag at *
  split at hx
  · rcases List.mem_cons.1 hx with rfl | hx
    · omega
    · exact h x hx
  · rcases List.mem_cons.1 hx with rfl | hx
    · omega
    · rcases List.mem_cons.1 hx with rfl | hx
      · omega
      · exact h x hx

theorem nibblesOf_hexPrefix (lf : Bool) (path : List ℕ) (h : ∀ x ∈ path, x < 16) :
    nibblesOf (hexPrefix lf path) = hexPrefixNibbles lf path :=
  nibblesOf_pack _ (hexPrefixNibbles_lt lf path h) (hexPrefixNibbles_even lf path)

theorem hexPrefix_length (lf : Bool) (path : List ℕ) : (hexPrefix lf path).length = path.length / 2 + 1 := by
  unfold hexPrefix
  rw [packNibbles_length]
  unfold hexPrefixNibbles
  simp only
  split <;> simp <;> omega

theorem hexPrefix_lt (lf : Bool) (path : List ℕ) (h : ∀ x ∈ path, x < 16) : ∀ b ∈ hexPrefix lf path, b < 256 :=
  packNibbles_lt _ (hexPrefixNibbles_lt lf path h)

theorem hexPrefixNibbles_inj {lf lf' : Bool} {a b : List ℕ} (ha : ∀ x ∈ a, x < 16)
    (h : hexPrefixNibbles lf a = hexPrefixNibbles lf' b) : lf = lf' ∧ a = b := by
  unfold hexPrefixNibbles at h
  simp only at h
  by_cases h1 : a.length % 2 = 1 <;> by_cases h2 : b.length % 2 = 1 <;>
    simp only [h1, h2, if_true, if_false] at h <;> cases lf <;> cases lf' <;> simp_all

theorem encodeString_bytes {bs : List ℕ} (h : ∀ b ∈ bs, b < 256) (hl : bs.length < 256 ^ 8) :
    ∀ b ∈ encodeString bs, b < 256 := by
  unfold encodeString
  split
  · exact h
  · intro b hb
    rcases List.mem_append.1 hb with hb | hb
    · exact lenHeader_bytes 0x80 0xb7 _ (by omega) (by omega) hl b hb
    · exact h b hb

theorem encodeString_length (bs : List ℕ) (h : bs.length < 56) : (encodeString bs).length ≤ bs.length + 1 := by
  unfold encodeString lenHeader
  rw [if_pos h]
  split
  · omega
  · simp

theorem cyc_reads {ns enc pad : List ℕ} (h : ns = enc ++ pad) : ReadsAt (cyc ns) 0 enc := by
  intro j hj
  rw [Nat.zero_add, cyc_eq (by rw [h]; simp; omega), h]
  unfold stream
  rw [List.getD_append _ _ _ _ hj]

end Verif.Mpt
