import Verif.Mpt.EthModel
import Verif.Mpt.Sound
import Verif.Mpt.EthSpec

/-! Padded buffers of arbitrary byte strings (lemmas for C70–C73). -/

set_option linter.unusedSectionVars false
set_option linter.unusedVariables false

namespace Verif.Mpt
open Api Rlp Keccak Spec.Keccak Spec.Rlp Spec.Mpt
variable {p : ℕ} [Fact p.Prime]

/-- The nibbles of `enc` and its Keccak padding, extended by zeros to `L`. -/
def padded (L : ℕ) (enc : List ℕ) : List ℕ :=
  nibblesOf (enc ++ kpad enc.length) ++ List.replicate (L - 272 * (enc.length / 136 + 1)) 0

theorem padded_head (enc : List ℕ) : (nibblesOf (enc ++ kpad enc.length)).length = 272 * (enc.length / 136 + 1) := by
  rw [nibblesOf_length, List.length_append, kpad_length]
  omega

theorem padded_length {L : ℕ} {enc : List ℕ} (h : 272 * (enc.length / 136 + 1) ≤ L) : (padded L enc).length = L := by
  unfold padded
  rw [List.length_append, padded_head, List.length_replicate]
  omega

theorem kpad_lt' (n : ℕ) : ∀ b ∈ kpad n, b < 256 := by
  intro b hb
  obtain ⟨j, hj, rfl⟩ := List.mem_iff_getElem.1 hb
  have := (kpad_get _ j hj).1
  omega

theorem padded_lt {L : ℕ} {enc : List ℕ} (hb : ∀ b ∈ enc, b < 256) : ∀ x ∈ padded L enc, x < 16 := by
  unfold padded
  intro x hx
  rcases List.mem_append.1 hx with hx | hx
  · refine nibblesOf_lt _ ?_ x hx
    intro b hb'
    rcases List.mem_append.1 hb' with hb' | hb'
    · exact hb b hb'
    · exact kpad_lt' _ b hb'
  · rw [List.eq_of_mem_replicate hx]; norm_num

/-- A buffer whose supplied blocks are the padded message starts with the message and its padding. -/
theorem supplied_prefix {ns enc : List ℕ} {r : ℕ} (hnib : ∀ x ∈ ns, x < 16) (hev : ns.length % 2 = 0)
    (hb : ∀ b ∈ enc, b < 256) (h : supplied ns r = pad (bytesToBits enc)) :
    ∃ rest, ns = nibblesOf (enc ++ kpad enc.length) ++ rest := by
  unfold supplied at h
  rw [← C20_pad101Bytes, pad101Bytes_eq, show (if enc.length % 136 = 135 then [0x81]
      else 1 :: (List.replicate (134 - enc.length % 136) 0 ++ [0x80])) = kpad enc.length from rfl,
    show (r + 1) * 1088 = 8 * (136 * (r + 1)) by ring] at h
  have e := bytesToBits_take_drop (packNibbles ns ++ List.replicate (1360 - ns.length / 2) 0) 0 (136 * (r + 1))
  simp only [List.drop_zero, Nat.mul_zero] at e
  rw [← e] at h
  have hpk := packNibbles_lt ns hnib
  have hk : ∀ b ∈ enc ++ kpad enc.length, b < 256 := by
    intro b hb'
    rcases List.mem_append.1 hb' with hb' | hb'
    · exact hb b hb'
    · exact kpad_lt' _ b hb'
  have h := bytesToBits_inj (by
    intro b hb'
    have := List.mem_of_mem_take hb'
    rcases List.mem_append.1 this with hb' | hb'
    · exact hpk b hb'
    · rw [List.eq_of_mem_replicate hb']; norm_num) hk h
  obtain ⟨A, a, hA, ha⟩ := kpad_last enc.length
  have hpre : (enc ++ kpad enc.length) <+: (packNibbles ns ++ List.replicate (1360 - ns.length / 2) 0) := by
    rw [← h]; exact List.take_prefix _ _
  rw [hA, ← List.append_assoc] at hpre
  obtain ⟨t, ht⟩ := prefix_zeros ha hpre
  refine ⟨nibblesOf t, ?_⟩
  rw [hA, ← List.append_assoc, ← nibblesOf_append, ht, nibblesOf_pack _ hnib hev]

theorem packNibbles_append' : ∀ (a b : List ℕ), a.length % 2 = 0 → packNibbles (a ++ b) = packNibbles a ++ packNibbles b
  | [], b, _ => rfl
  | [_], b, h => by simp at h
  | x :: y :: t, b, h => by
    rw [List.cons_append, List.cons_append, packNibbles, packNibbles, List.cons_append,
      packNibbles_append' t b (by simp only [List.length_cons] at h; omega)]

theorem packNibbles_zeros' (n : ℕ) : packNibbles (List.replicate (2 * n) 0) = List.replicate n 0 := by
  induction n with
  | zero => rfl
  | succ n ih =>
    rw [show 2 * (n + 1) = 2 * n + 1 + 1 by ring, List.replicate_succ, List.replicate_succ, packNibbles, ih,
      List.replicate_succ]

theorem supplied_padded {L : ℕ} {enc : List ℕ} (hL : 272 * (enc.length / 136 + 1) ≤ L) (h2 : L % 2 = 0)
    (hL2 : L ≤ 2720) : supplied (padded L enc) (enc.length / 136) = pad (bytesToBits enc) := by
  unfold supplied
  rw [padded_length hL, ← C20_pad101Bytes, pad101Bytes_eq, show (if enc.length % 136 = 135 then [0x81]
      else 1 :: (List.replicate (134 - enc.length % 136) 0 ++ [0x80])) = kpad enc.length from rfl]
  unfold padded
  rw [packNibbles_append' _ _ (by rw [padded_head]; omega), pack_nibblesOf,
    show L - 272 * (enc.length / 136 + 1) = 2 * ((L - 272 * (enc.length / 136 + 1)) / 2) by omega,
    packNibbles_zeros', List.append_assoc,
    show (enc.length / 136 + 1) * 1088 = 8 * (136 * (enc.length / 136 + 1)) by ring]
  have e := bytesToBits_take_drop (enc ++ kpad enc.length ++
    (List.replicate ((L - 272 * (enc.length / 136 + 1)) / 2) 0 ++ List.replicate (1360 - L / 2) 0)) 0
    (136 * (enc.length / 136 + 1))
  simp only [List.drop_zero, Nat.mul_zero] at e
  rw [← e, List.take_left']
  rw [List.length_append, kpad_length]
  omega

/-- The hash of an honest buffer is the hash of the message. -/
theorem hash_padded (hp : 2 ^ 128 < p) {L : ℕ} {enc : List ℕ} (hL : 272 * (enc.length / 136 + 1) ≤ L)
    (h16 : L % 16 = 0) (hL2 : L ≤ 2720) (hb : ∀ b ∈ enc, b < 256) (inLen : F p) :
    hashNode inLen ((padded L enc).map (Nat.cast : ℕ → F p)) ((enc.length / 136 : ℕ) : F p) =
      some ⟨(nibblesOf (keccakBytes enc)).map Nat.cast, if inLen.val < 63 then inLen else 64⟩ := by
  have hr : enc.length / 136 < 10 := by omega
  have hv : ((enc.length / 136 : ℕ) : F p).val = enc.length / 136 := val_natCast_lt (by omega)
  rw [hashNode_eq hp _ (padded_lt hb) (by rw [padded_length hL]; exact h16) (by rw [padded_length hL]; exact hL2),
    hv, if_pos hr, supplied_padded hL (by omega) hL2]
  rfl

theorem encodes_map (l : List (List ℕ)) : List.Forall₂ Encodes (l.map encodeString) l := by
  induction l with
  | nil => exact .nil
  | cons a l ih => exact .cons (Or.inl rfl) ih

theorem encodeString_ge (bs : List ℕ) : bs.length ≤ (encodeString bs).length := by
  unfold encodeString
  split
  · exact le_rfl
  · simp

theorem length_le_flatten {l : List (List ℕ)} {x : List ℕ} (h : x ∈ l) : x.length ≤ l.flatten.length := by
  obtain ⟨a, b, rfl⟩ := List.append_of_mem h
  simp
  omega

end Verif.Mpt
