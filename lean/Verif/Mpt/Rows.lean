import Verif.Mpt.Sums

/-! Honest node buffers: hashing them, and running the node gadgets on them and on zero buffers (lemmas for C47). -/

set_option linter.unusedSectionVars false
set_option linter.unusedVariables false

namespace Verif.Mpt
open Api Rlp Keccak Spec.Keccak Spec.Rlp Spec.Mpt
variable {p : ℕ} [Fact p.Prime]

/-- Number of nibbles of a node with its Keccak padding. -/
def padLen (u : Trie) : ℕ := 272 * (u.encode.length / 136 + 1)

/-- The nibbles of a node and its padding, extended by zeros to `L`. -/
def rowNibs (L : ℕ) (u : Trie) : List ℕ :=
  nibblesOf (u.encode ++ kpad u.encode.length) ++ List.replicate (L - padLen u) 0

theorem kpad_lt (n : ℕ) : ∀ b ∈ kpad n, b < 256 := by
  intro b hb
  obtain ⟨j, hj, rfl⟩ := List.mem_iff_getElem.1 hb
  have := (kpad_get _ j hj).1
  omega

theorem padLen_eq (u : Trie) : (nibblesOf (u.encode ++ kpad u.encode.length)).length = padLen u := by
  rw [nibblesOf_length, List.length_append, kpad_length]
  unfold padLen
  omega

theorem rowNibs_length {L : ℕ} {u : Trie} (h : padLen u ≤ L) : (rowNibs L u).length = L := by
  unfold rowNibs
  rw [List.length_append, padLen_eq, List.length_replicate]
  omega

theorem rowNibs_lt {L : ℕ} {u : Trie} (hb : ∀ b ∈ u.encode, b < 256) : ∀ x ∈ rowNibs L u, x < 16 := by
  unfold rowNibs
  intro x hx
  rcases List.mem_append.1 hx with hx | hx
  · refine nibblesOf_lt _ ?_ x hx
    intro b hb'
    rcases List.mem_append.1 hb' with hb' | hb'
    · exact hb b hb'
    · exact kpad_lt _ b hb'
  · rw [List.eq_of_mem_replicate hx]; norm_num

theorem packNibbles_append : ∀ (a b : List ℕ), a.length % 2 = 0 → packNibbles (a ++ b) = packNibbles a ++ packNibbles b
  | [], b, _ => rfl
  | [_], b, h => by simp at h
  | x :: y :: t, b, h => by
    rw [List.cons_append, List.cons_append, packNibbles, packNibbles, List.cons_append,
      packNibbles_append t b (by simp only [List.length_cons] at h; omega)]

theorem packNibbles_zeros (n : ℕ) : packNibbles (List.replicate (2 * n) 0) = List.replicate n 0 := by
  induction n with
  | zero => rfl
  | succ n ih =>
    rw [show 2 * (n + 1) = 2 * n + 1 + 1 by ring, List.replicate_succ, List.replicate_succ, packNibbles, ih,
      List.replicate_succ]

theorem supplied_row {L : ℕ} {u : Trie} (hL : padLen u ≤ L) (h2 : L % 2 = 0) (hL2 : L ≤ 2720) :
    supplied (rowNibs L u) (u.encode.length / 136) = pad (bytesToBits u.encode) := by
  unfold supplied
  rw [rowNibs_length hL, ← C20_pad101Bytes, pad101Bytes_eq, show (if u.encode.length % 136 = 135 then [0x81]
      else 1 :: (List.replicate (134 - u.encode.length % 136) 0 ++ [0x80])) = kpad u.encode.length from rfl]
  have hpe : padLen u % 2 = 0 := by unfold padLen; omega
  unfold rowNibs
  rw [packNibbles_append _ _ (by rw [padLen_eq]; exact hpe), pack_nibblesOf,
    show L - padLen u = 2 * ((L - padLen u) / 2) by omega, packNibbles_zeros, List.append_assoc,
    show (u.encode.length / 136 + 1) * 1088 = 8 * (136 * (u.encode.length / 136 + 1)) by ring]
  have e := bytesToBits_take_drop (u.encode ++ kpad u.encode.length ++
    (List.replicate ((L - padLen u) / 2) 0 ++ List.replicate (1360 - L / 2) 0)) 0 (136 * (u.encode.length / 136 + 1))
  simp only [List.drop_zero, Nat.mul_zero] at e
  rw [← e, List.take_left']
  rw [List.length_append, kpad_length]
  omega

/-- The hash of an honest row is the hash of the node. -/
theorem hash_row (hp : 2 ^ 128 < p) {L : ℕ} {u : Trie} (hL : padLen u ≤ L) (h16 : L % 16 = 0) (hL2 : L ≤ 2720)
    (hb : ∀ b ∈ u.encode, b < 256) (inLen : F p) :
    hashNode inLen ((rowNibs L u).map (Nat.cast : ℕ → F p)) ((u.encode.length / 136 : ℕ) : F p) =
      some ⟨(nibblesOf (keccakBytes u.encode)).map Nat.cast, if inLen.val < 63 then inLen else 64⟩ := by
  have hr : u.encode.length / 136 < 10 := by unfold padLen at hL; omega
  have hv : ((u.encode.length / 136 : ℕ) : F p).val = u.encode.length / 136 := val_natCast_lt (by omega)
  rw [hashNode_eq hp _ (rowNibs_lt hb) (by rw [rowNibs_length hL]; exact h16) (by rw [rowNibs_length hL]; exact hL2),
    hv, if_pos hr, supplied_row hL (by omega) hL2]
  rfl

/-- A window of an honest row that contains the whole encoding. -/
theorem row_window {L W : ℕ} {u : Trie} (hL : padLen u ≤ L) (hW : W ≤ L) (hu : 2 * u.encode.length ≤ W)
    (hb : ∀ b ∈ u.encode, b < 256) : ∃ pad : List ℕ, (∀ x ∈ pad, x < 16) ∧
    (rowNibs L u).take W = nibblesOf u.encode ++ pad ∧ (nibblesOf u.encode ++ pad).length = W := by
  refine ⟨((nibblesOf (kpad u.encode.length)) ++ List.replicate (L - padLen u) 0).take (W - 2 * u.encode.length), ?_, ?_, ?_⟩
  · intro x hx
    have := List.mem_of_mem_take hx
    rcases List.mem_append.1 this with h | h
    · exact nibblesOf_lt _ (kpad_lt _) x h
    · rw [List.eq_of_mem_replicate h]; norm_num
  · unfold rowNibs
    rw [nibblesOf_append, List.append_assoc, List.take_append, List.take_of_length_le (by rw [nibblesOf_length]; omega),
      nibblesOf_length]
  · have := rowNibs_length hL
    unfold rowNibs at this
    rw [nibblesOf_append, List.append_assoc, List.length_append, nibblesOf_length] at this
    rw [List.length_append, nibblesOf_length, List.length_take]
    omega

/-! ## Zero buffers -/

/-- The all-zero stream. -/
def zs : ℕ → ℕ := fun _ => 0

theorem zs_byte (o : ℕ) : byteAt zs o = 0 := rfl
theorem zs_pay (o : ℕ) : payLen zs o = 2 := rfl

theorem zs_cells (n : ℕ) (h : 0 < n) : CellsOf (List.replicate n (0 : F p)) n zs := by
  have := cells_cyc (p := p) (ns := List.replicate n 0) (N := n) (fun x hx => by rw [List.eq_of_mem_replicate hx]; norm_num)
    (by simp) h
  have e : cyc (List.replicate n 0) = zs := by
    funext k
    unfold cyc zs
    simp [List.getD_eq_getElem?_getD, List.getElem?_replicate]
    split <;> rfl
  rw [e] at this
  simpa using this

theorem zs_sat (hp : 2 ^ 128 < p) (a : ArrayCheck) (hwf : a.WF) (num : ℕ) (hnum : num < 2 ^ 20)
    (hcond : (0 < a.arrayPrefixMaxHexLen ∧ ahPrefix1 (byteAt zs 0) ≤ a.arrayPrefixMaxHexLen) ∧
          ∀ i < a.maxFields, acCond a zs num 10 i) (h0 : 0 < a.maxHexLen) :
    (rlpArrayCheck a (List.replicate a.maxHexLen (0 : F p)) ((num : ℕ) : F p)).isSome := by
  have hv : ((num : ℕ) : F p).val = num := val_natCast_lt (by omega)
  have h1 := rlpArrayCheck_eq hp a hwf (List.replicate a.maxHexLen (0 : F p)) zs
    (by rw [List.take_of_length_le (by simp)]; exact zs_cells _ h0) ((num : ℕ) : F p)
  rw [hv, if_pos hcond] at h1
  rw [h1]; rfl

theorem zs_ext_sat (hp : 2 ^ 128 < p) :
    (rlpArrayCheck (extParams 64) (List.replicate 136 (0 : F p)) ((2 : ℕ) : F p)).isSome :=
  zs_sat hp (extParams 64) (extParams_wf 64 (by norm_num)) 2 (by norm_num)
    (by unfold acCond gAlign itemFits; decide) (by decide)

theorem zs_branch_sat (hp : 2 ^ 128 < p) :
    (rlpArrayCheck branchParams (List.replicate 1064 (0 : F p)) ((17 : ℕ) : F p)).isSome :=
  zs_sat hp branchParams branchParams_wf 17 (by norm_num)
    (by unfold acCond gAlign itemFits; decide) (by decide)

end Verif.Mpt
