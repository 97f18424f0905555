import Verif.Mpt.Hash

/-! # Property theorem C81: hashing of transaction leaves

keccak/periphery.go `NibblesToU64ArrayForNormalTransactionLeafValue`, `NibblesToU64ArrayForMaxTransactionLeafValue` followed by
rlp/util.go `Keccak256ForNormalTransactionAsNibbles`, `Keccak256ForMaxTransactionAsNibbles`. -/

set_option linter.unusedSectionVars false

namespace Verif.Mpt
open Api Rlp Keccak Spec.Keccak Spec.Rlp Spec.Mpt
variable {p : ℕ} [Fact p.Prime]

/-- keccak/periphery.go:194-200, 232-238: word `i` goes to position `[i/17][i%17]`. -/
def leafBlocks (N : ℕ) (ws : List (F p)) : Fin N → Fin 17 → F p := fun r i => ws.getD (17 * r.val + i.val) 0

/-- keccak/periphery.go:167-203 followed by rlp/util.go:89-123, and 205-241 followed by 125-160: the same code with the constants
`NORMAL_TRANSACTION_LEAF_ROUNDS` and `MAX_TRANSACTION_LEAF_ROUNDS` (keccak/keccak256.go:11-12, both 13) for `N`. -/
def leafHash (N : ℕ) (inLen : F p) (cells : List (F p)) (ri : F p) : Option (HashOut p) := do
  let ws ← nibblesToWords N cells
  keccak256AsNibbles N inLen (leafBlocks N ws) ri

/-- The bits of the first `r + 1` rate blocks of the buffer, extended with zero bytes. -/
def suppliedN (N : ℕ) (ns : List ℕ) (r : ℕ) : List Bool :=
  (bytesToBits (packNibbles ns ++ List.replicate (136 * N - ns.length / 2) 0)).take ((r + 1) * 1088)

/-- Full functional description of leaf hashing on nibbles. -/
theorem leafHash_eq (hp : 2 ^ 128 < p) (N : ℕ) (hN : 0 < N) (hNp : N < 2 ^ 64) (ns : List ℕ) (hnib : ∀ x ∈ ns, x < 16) (h16 : ns.length % 16 = 0)
    (hlen : ns.length ≤ 272 * N) (inLen ri : F p) :
    leafHash N inLen (ns.map (Nat.cast : ℕ → F p)) ri = if ri.val < N then
      some ⟨(nibblesOf (digestBytes (squeeze (suppliedN N ns ri.val)))).map Nat.cast,
        if inLen.val < 63 then inLen else 64⟩ else none := by
  have hp64 : 2 ^ 64 ≤ p := by omega
  set bs := packNibbles ns with hbs
  have hbl : bs.length = ns.length / 2 := packNibbles_length ns
  have hb : ∀ b ∈ bs, b < 256 := packNibbles_lt ns hnib
  have hns : ns = digitsOf 4 bs ++ [] := by
    rw [digits4_eq bs hb, hbs, nibblesOf_pack ns hnib (by omega), List.append_nil]
  have hw := C22_nibblesToWords hp64 N bs [] hb (by omega) (by simp)
  rw [← hns, if_neg (by omega)] at hw
  unfold leafHash
  rw [show ns.map (Nat.cast : ℕ → F p) = ns.map (fun d : ℕ => (d : F p)) from rfl, hw]
  simp only [Option.bind_eq_bind, Option.bind_some]
  set m := bytesToBits (bs ++ List.replicate (136 * N - ns.length / 2) 0) with hm
  have hml : m.length = N * 1088 := by
    rw [hm, bytesToBits_length, List.length_append, List.length_replicate]; omega
  unfold keccak256AsNibbles
  rw [keccak256Words_eq hp64 N (by omega) (by omega) m]
  · by_cases hri : ri.val < N
    · rw [if_pos hri, if_pos hri]
      simp only [Option.bind_eq_bind, Option.bind_some]
      set d := digestAt m (ri.val + 1) with hd
      have hdl : d.length = 256 := by simp [hd, digestAt]
      have hds : d = squeeze (suppliedN N ns ri.val) := by
        rw [hd, digestAt_take _ _ (by rw [hml]; omega)]; rfl
      have h1 : ((digestWords d).map fun n => ((n : ℕ) : F p)).mapM wordNibbles =
          some ((List.range 4).map fun i => (List.range 16).map fun j => ((nib d (16 * i + j) : ℕ) : F p)) := by
        unfold digestWords
        rw [List.map_map]
        have : ∀ l : List ℕ, (∀ i ∈ l, i < 4) → (l.map ((fun n : ℕ => (n : F p)) ∘ fun i =>
            natOfBits ((d.drop (64 * i)).take 64))).mapM wordNibbles =
            some (l.map fun i => (List.range 16).map fun j => ((nib d (16 * i + j) : ℕ) : F p)) := by
          intro l hl
          induction l with
          | nil => rfl
          | cons i l ih =>
            have hi := hl i (by simp)
            rw [List.map_cons, List.mapM_cons, ih (fun x hx => hl x (by simp [hx]))]
            simp only [Function.comp]
            rw [wordNibbles_eq hp64 _ (by simp; omega)]
            simp only [Option.bind_eq_bind, Option.bind_some, Option.pure_def, List.map_cons, Option.some.injEq,
              List.cons.injEq, and_true]
            apply List.map_congr_left
            intro j hj
            have hj := List.mem_range.1 hj
            unfold nib
            rw [List.drop_take, List.take_take, List.drop_drop, show min 4 (64 - 4 * j) = 4 by omega,
              show 64 * i + 4 * j = 4 * (16 * i + j) by ring]
        exact this _ (fun i hi => List.mem_range.1 hi)
      rw [h1]
      simp only [Option.bind_some]
      have hfl : ((List.range 4).map fun i => (List.range 16).map fun j => ((nib d (16 * i + j) : ℕ) : F p)).flatten =
          (List.range 64).map fun k => ((nib d k : ℕ) : F p) := by
        rfl
      rw [hfl]
      rw [mapM_some (g := fun k => ((nib d (if k % 2 = 0 then k + 1 else k - 1) : ℕ) : F p))]
      · simp only [Option.bind_some, Option.pure_def, Option.some.injEq, HashOut.mk.injEq]
        constructor
        · rw [← hds, nibblesOf_digest d hdl, List.map_map]; rfl
        · have h63 : ((63 : ℕ) : F p).val = 63 := ZMod.val_natCast_of_lt (by omega)
          rw [lessThan_eq (by omega)]
          have : ((63 : F p)).val = 63 := by simpa using h63
          rw [this]
          split <;> ring
      · intro k hk
        have hk := List.mem_range.1 hk
        rw [List.getElem?_map, List.getElem?_range (by split <;> omega)]
        rfl
    · rw [if_neg hri, if_neg hri]; rfl
  · intro r i
    rw [blockWord_eq _ _ _ i.isLt (by rw [hml]; omega)]
    unfold leafBlocks
    rw [List.getD_eq_getElem _ _ (by simp; omega), List.getElem_map, List.getElem_range]
    congr 1
    rw [hm, show 64 * (17 * r.val + i.val) = 8 * (8 * (17 * r.val + i.val)) by ring]
    conv_rhs => rw [show (64 : ℕ) = 8 * 8 by norm_num]
    rw [← bytesToBits_take_drop]
    by_cases hk : 8 * (17 * r.val + i.val) < bs.length
    · rw [List.drop_append_of_le_length (by omega), List.take_append_of_le_length (by simp; omega)]
    · rw [List.drop_of_length_le (by omega), List.take_nil, List.drop_append,
        List.drop_of_length_le (by omega), List.nil_append, List.drop_replicate, List.take_replicate,
        bytesToBits_zeros, natOfBits_replicate_false]
      rfl

/-! ## The property -/

/-- C81. For every message, every buffer that begins with the padded message (given as nibbles, with anything behind it), and the index
of the last block of the padded message: the 64 output cells are the nibbles of the Keccak-256 digest of the message, and the
output length is 64, or the given length when that is below 63. -/
theorem C81_leaf_hash (hp : 2 ^ 128 < p) (N : ℕ) (hN : N = 13) (msg ns : List ℕ) (hnib : ∀ x ∈ ns, x < 16)
    (h16 : ns.length % 16 = 0) (hlen : ns.length ≤ 272 * N)
    (hpad : pad (bytesToBits msg) <+: bytesToBits (packNibbles ns)) (inLen ri : F p)
    (hri : (ri.val + 1) * 1088 = (pad (bytesToBits msg)).length) :
    leafHash N inLen (ns.map (Nat.cast : ℕ → F p)) ri =
      some ⟨(nibblesOf (digestBytes (keccak256 (bytesToBits msg)))).map Nat.cast,
        if inLen.val < 63 then inLen else 64⟩ := by
  have hpl : (pad (bytesToBits msg)).length ≤ 1088 * N := by
    have := hpad.length_le
    rw [bytesToBits_length, packNibbles_length] at this
    omega
  rw [leafHash_eq hp N (by omega) (by omega) ns hnib h16 hlen, if_pos (by omega)]
  have : suppliedN N ns ri.val = pad (bytesToBits msg) := by
    unfold suppliedN
    rw [hri, bytesToBits_append]
    exact (List.prefix_iff_eq_take.1 (hpad.trans (List.prefix_append _ _))).symm
  rw [this, ← keccak256_squeeze]

/-- C81. A round index outside the table is rejected, so is a buffer that holds anything but nibbles or more than 13 blocks. -/
theorem C81_rejects (hp : 2 ^ 128 < p) (N : ℕ) (hN : N = 13) (cells : List (F p)) (inLen ri : F p)
    (h16 : cells.length % 16 = 0) (out : HashOut p) (h : leafHash N inLen cells ri = some out) :
    ri.val < N ∧ (∀ x ∈ cells, x.val < 16) ∧ cells.length ≤ 272 * N := by
  obtain ⟨ws, hws, -⟩ := Option.bind_eq_some_iff.1 h
  obtain ⟨h1, h2⟩ := nibblesToWords_nib hws h16
  refine ⟨?_, h1, h2⟩
  by_contra hri
  have hc : (cells.map ZMod.val).map (Nat.cast : ℕ → F p) = cells := by
    rw [List.map_map]
    refine Eq.trans (List.map_congr_left (g := id) fun x _ => ?_) (List.map_id _)
    simp
  have := leafHash_eq hp N (by omega) (by omega) (cells.map ZMod.val)
    (by intro x hx; obtain ⟨y, hy, rfl⟩ := List.mem_map.1 hx; exact h1 y hy) (by simpa using h16) (by simpa using h2) inLen ri
  rw [hc, if_neg hri, h] at this
  cases this

/-- C81. Whatever the prover supplies: when the output cells are the digest of a message, the supplied blocks are the padded message,
or an explicit Keccak collision is at hand. -/
theorem C81_binds (hp : 2 ^ 128 < p) (N : ℕ) (hN : N = 13) (ns : List ℕ) (hnib : ∀ x ∈ ns, x < 16)
    (h16 : ns.length % 16 = 0) (inLen ri : F p) (out : HashOut p)
    (h : leafHash N inLen (ns.map (Nat.cast : ℕ → F p)) ri = some out) (msg : List ℕ)
    (heq : out.output = (nibblesOf (keccakBytes msg)).map Nat.cast) :
    suppliedN N ns ri.val = pad (bytesToBits msg) ∨ Collision (suppliedN N ns ri.val) (pad (bytesToBits msg)) := by
  obtain ⟨r1, -, l1⟩ := C81_rejects hp N hN _ _ _ (by simpa using h16) _ h
  rw [List.length_map] at l1
  rw [leafHash_eq hp N (by omega) (by omega) ns hnib h16 l1, if_pos r1] at h
  cases h
  by_cases he : suppliedN N ns ri.val = pad (bytesToBits msg)
  · exact Or.inl he
  · refine Or.inr ⟨?_, ?_, he, ?_⟩
    · rw [suppliedN, List.length_take, bytesToBits_length, List.length_append, packNibbles_length, List.length_replicate]
      have : (ri.val + 1) * 1088 ≤ N * 1088 := Nat.mul_le_mul_right _ r1
      rw [Nat.min_eq_left (by omega)]
      omega
    · rw [← C20_pad101Bytes, bytesToBits_length]
      have := (C20_pad101Bytes_length msg).1; omega
    · have h1 := cast_nib_inj (by omega) (nibblesOf_lt _ (digestBytes_lt _)) (nibblesOf_lt _ (digestBytes_lt _)) heq
      have h2 := nibblesOf_inj h1
      rw [keccak256_squeeze] at h2
      exact digestBytes_inj (squeeze_length _) (squeeze_length _) h2

/-! ## Non-vacuity -/

/-- The padded empty message in a buffer of one block and two further bytes of garbage up to a multiple of 16 nibbles. -/
def sampleBuf : List ℕ := nibblesOf (1 :: List.replicate 134 0 ++ [128] ++ List.replicate 8 171)

example : (∀ x ∈ sampleBuf, x < 16) ∧ sampleBuf.length % 16 = 0 ∧ sampleBuf.length ≤ 272 * 13 ∧
    pad (bytesToBits []) <+: bytesToBits (packNibbles sampleBuf) ∧ (0 + 1) * 1088 = (pad (bytesToBits [])).length := by
  have h2 : packNibbles sampleBuf = 1 :: List.replicate 134 0 ++ [128] ++ List.replicate 8 171 := pack_nibblesOf _
  refine ⟨by decide +kernel, by decide +kernel, by decide +kernel, ?_, by decide +kernel⟩
  rw [h2]
  decide +kernel

end Verif.Mpt
