import Verif.Common.TxProof
import Verif.Common.QueryIdProps

/-! # Property theorem C78: Merkle proofs of transactions and receipts -/

namespace Verif.TxProof
open Spec.Rlp Spec.Mpt QueryId

/-! ## Lemmas -/

theorem decode_eq (items : List (List ℕ)) (h : StringsOk items) :
    decodeStrings (encodeList (items.map encodeString)) = some items := by
  have hex : ∃ items', StringsOk items' ∧ encodeList (items.map encodeString) = encodeList (items'.map encodeString) :=
    ⟨items, h, rfl⟩
  unfold decodeStrings
  rw [dif_pos hex, Option.some.injEq]
  obtain ⟨h1, h2⟩ := hex.choose_spec
  have e : ∀ l : List (List ℕ), (Item.list (l.map Item.str)).encode = encodeList (l.map encodeString) := by
    intro l
    rw [Item.encode_list, List.map_map]
    congr 1
    exact List.map_congr_left (fun x _ => by simp [Item.encode])
  have := Item.encode_injective h1 h (by rw [e, e]; exact h2.symm)
  rw [Item.list.injEq] at this
  exact List.map_injective_iff.2 (fun a b hab => by simpa using hab) this

theorem decode_some {b : List ℕ} {items : List (List ℕ)} (h : decodeStrings b = some items) :
    StringsOk items ∧ b = encodeList (items.map encodeString) := by
  unfold decodeStrings at h
  split at h
  · rename_i hex
    cases h
    exact hex.choose_spec
  · cases h

theorem encodeString_suffix (b : List ℕ) : b <:+ encodeString b := by
  unfold encodeString
  split
  · exact List.suffix_refl _
  · exact List.suffix_append _ _

theorem pair_suffix (a b : List ℕ) : b <:+ encodeList [encodeString a, encodeString b] := by
  unfold encodeList
  refine List.IsSuffix.trans (encodeString_suffix b) ?_
  simp only [List.flatten_cons, List.flatten_nil, List.append_nil, ← List.append_assoc]
  exact List.suffix_append _ _

theorem take_suffix {a b : List ℕ} (h : b <:+ a) : a.take (a.length - b.length) ++ b = a := by
  obtain ⟨t, rfl⟩ := h
  simp

theorem pathNodes_head (t : Trie) (k : List ℕ) (h : t ≠ .empty) : ∃ rest, pathNodes t k = t :: rest := by
  cases t with
  | empty => exact absurd rfl h
  | leaf p w => exact ⟨_, by rw [pathNodes]⟩
  | ext p c => exact ⟨_, by rw [pathNodes]⟩
  | branch f => cases k <;> exact ⟨_, by rw [pathNodes]⟩

/-! ## The property -/

/-- C78. Whatever the trie and the index: when a proof is returned, the trie has the root of the block header, the returned prefix
followed by the second item of the last node is exactly that node, and the first node hashes to the root. -/
theorem C78_result_shape (t : Trie) (blockRoot : List ℕ) (index : ℤ) (nodes : List (List ℕ)) (key pre : List ℕ)
    (h : getProof t blockRoot index = .ok (nodes, key, pre)) :
    t.root = blockRoot ∧ key = keyIndex index ∧ nodes.head?.map keccakBytes = some blockRoot ∧
    ∃ a v, nodes.getLast? = some (encodeList [encodeString a, encodeString v]) ∧
      pre ++ v = encodeList [encodeString a, encodeString v] := by
  unfold getProof at h
  split at h
  · cases h
  · rename_i hroot
    rw [not_not] at hroot
    dsimp only at h
    split at h
    · cases h
    · rename_i leaf hleaf
      split at h
      · cases h
      · rename_i items hitems
        split at h
        · cases h
        · rename_i hlen
          rw [not_not] at hlen
          cases h
          obtain ⟨-, hb⟩ := decode_some hitems
          match items, hlen with
          | [a, v], _ =>
            simp only [List.map_cons, List.map_nil] at hb
            refine ⟨hroot, rfl, ?_, a, v, by rw [hleaf, hb], ?_⟩
            · rw [← hroot]
              have ne : t ≠ .empty := by
                rintro rfl
                simp [prove, pathNodes] at hleaf
              obtain ⟨rest, hr⟩ := pathNodes_head t (nibblesOf (keyIndex index)) ne
              unfold prove
              rw [hr]
              simp [Trie.root]
            · rw [hb]
              exact take_suffix (pair_suffix a v)

/-- The nodes of the path, and that the key ends in the leaf. -/
theorem path_leaf : ∀ (t : Trie) (k v : List ℕ), t.get k = some v →
    ∃ path, (pathNodes t k).getLast? = some (.leaf path v) := by
  intro t
  induction t with
  | empty => intro k v h; simp [Trie.get] at h
  | leaf p w =>
    intro k v h
    simp only [Trie.get] at h
    split at h
    · cases h; exact ⟨p, rfl⟩
    · cases h
  | ext p c ih =>
    intro k v h
    simp only [Trie.get] at h
    split at h
    · rename_i hp
      obtain ⟨q, hq⟩ := ih _ _ h
      refine ⟨q, ?_⟩
      rw [pathNodes, if_pos (List.prefix_iff_eq_take.2 hp.symm), List.getLast?_cons, hq]
      rfl
    · cases h
  | branch f ih =>
    intro k v h
    cases k with
    | nil => simp [Trie.get] at h
    | cons n k' =>
      simp only [Trie.get] at h
      split at h
      · rename_i hn
        obtain ⟨q, hq⟩ := ih ⟨n, hn⟩ _ _ h
        refine ⟨q, ?_⟩
        simp only [pathNodes]
        rw [dif_pos hn, List.getLast?_cons, hq]
        rfl
      · cases h

theorem pathNodes_node : ∀ (t : Trie) (k : List ℕ), ∀ u ∈ pathNodes t k, t.Node u := by
  intro t
  induction t with
  | empty => intro k u hu; simp [pathNodes] at hu
  | leaf p w => intro k u hu; simp [pathNodes] at hu; subst hu; exact .self _
  | ext p c ih =>
    intro k u hu
    simp only [pathNodes, List.mem_cons] at hu
    rcases hu with rfl | hu
    · exact .self _
    · split at hu
      · exact .ext (ih _ u hu)
      · simp at hu
  | branch f ih =>
    intro k u hu
    cases k with
    | nil => simp [pathNodes] at hu; subst hu; exact .self _
    | cons n k' =>
      simp only [pathNodes, List.mem_cons] at hu
      rcases hu with rfl | hu
      · exact .self _
      · split at hu
        · exact .branch (ih _ _ u hu)
        · simp at hu

theorem pathNodes_ne_empty : ∀ (t : Trie) (k : List ℕ), ∀ u ∈ pathNodes t k, u ≠ .empty := by
  intro t
  induction t with
  | empty => intro k u hu; simp [pathNodes] at hu
  | leaf p w => intro k u hu; simp [pathNodes] at hu; subst hu; simp
  | ext p c ih =>
    intro k u hu
    simp only [pathNodes, List.mem_cons] at hu
    rcases hu with rfl | hu
    · simp
    · split at hu
      · exact ih _ u hu
      · simp at hu
  | branch f ih =>
    intro k u hu
    cases k with
    | nil => simp [pathNodes] at hu; subst hu; simp
    | cons n k' =>
      simp only [pathNodes, List.mem_cons] at hu
      rcases hu with rfl | hu
      · simp
      · split at hu
        · exact ih _ _ u hu
        · simp at hu

theorem prove_all (t : Trie) (k : List ℕ) (h : ∀ u ∈ (pathNodes t k).tail, 32 ≤ u.encode.length) :
    prove t k = (pathNodes t k).map Trie.encode := by
  unfold prove
  cases hp : pathNodes t k with
  | nil => rfl
  | cons r rest =>
    rw [hp] at h
    simp only [List.map_cons, List.cons.injEq, true_and]
    rw [List.filter_eq_self]
    intro e he
    obtain ⟨u, hu, rfl⟩ := List.mem_map.1 he
    simpa using h u hu

/-- C78. Completeness: for every trie with the root of the header and every index under which it holds a value, if the nodes below
the root on that path are referenced by hash, the proof is returned: the encodings of exactly the nodes on the path, from the
root to the leaf, the key, and the part of the leaf in front of the value. -/
theorem C78_present (t : Trie) (index : ℤ) (v : List ℕ) (hget : t.get (nibblesOf (keyIndex index)) = some v)
    (hbig : ∀ u ∈ (pathNodes t (nibblesOf (keyIndex index))).tail, 32 ≤ u.encode.length)
    (hok : ∀ path, t.Node (.leaf path v) → StringsOk [hexPrefix true path, v]) :
    ∃ pre path, getProof t t.root index =
        .ok ((pathNodes t (nibblesOf (keyIndex index))).map Trie.encode, keyIndex index, pre) ∧
      (pathNodes t (nibblesOf (keyIndex index))).getLast? = some (.leaf path v) ∧
      pre ++ v = (Trie.leaf path v).encode := by
  obtain ⟨path, hlast⟩ := path_leaf t _ v hget
  have hmem : t.Node (.leaf path v) := pathNodes_node _ _ _ (List.mem_of_getLast? hlast)
  have hp := prove_all t _ hbig
  have hl : (prove t (nibblesOf (keyIndex index))).getLast? = some (Trie.leaf path v).encode := by
    rw [hp, List.getLast?_map, hlast]; rfl
  have hdec := decode_eq _ (hok path hmem)
  simp only [List.map_cons, List.map_nil] at hdec
  have henc : (Trie.leaf path v).encode = encodeList [encodeString (hexPrefix true path), encodeString v] := by
    rw [Trie.encode]
  refine ⟨(Trie.leaf path v).encode.take ((Trie.leaf path v).encode.length - v.length), path, ?_, hlast,
    take_suffix (henc ▸ pair_suffix _ v)⟩
  unfold getProof
  rw [if_neg (by simp)]
  dsimp only
  rw [hl]
  dsimp only
  rw [henc, hdec]
  dsimp only
  rw [if_neg (by simp), hp]
  rfl

/-- C78. A block whose transactions (receipts) do not hash to the root in its header is refused. -/
theorem C78_wrong_root (t : Trie) (blockRoot : List ℕ) (index : ℤ) (h : t.root ≠ blockRoot) :
    getProof t blockRoot index = .error := by
  unfold getProof; rw [if_pos h]

/-- C78. `GetReceiptRaw` returns the encoding of the receipt, whatever its index. -/
theorem C78_receipt_raw {R : Type} (enc : R → List ℕ) (r : R) (index : ℕ) :
    getReceiptRaw enc (some r) index = .ok (enc r) := by
  simp [getReceiptRaw]

/-! ## Where the expected property fails -/

/-- C78, disagreement. A block without transactions: the call panics instead of reporting an error. -/
theorem C78_empty_block_panics (index : ℤ) : getProof .empty Trie.empty.root index = .panic := by
  simp [getProof, prove, pathNodes]

/-- C78, disagreement. The index is not checked: whenever the path of the key ends at a leaf, that leaf is returned as the proof,
even when it belongs to another index and the block has no such transaction. -/
theorem C78_absent_not_reported (t : Trie) (index : ℤ) (path v : List ℕ)
    (hlast : (pathNodes t (nibblesOf (keyIndex index))).getLast? = some (.leaf path v))
    (hbig : ∀ u ∈ (pathNodes t (nibblesOf (keyIndex index))).tail, 32 ≤ u.encode.length)
    (hok : StringsOk [hexPrefix true path, v]) :
    ∃ pre, getProof t t.root index =
      .ok ((pathNodes t (nibblesOf (keyIndex index))).map Trie.encode, keyIndex index, pre) ∧
      pre ++ v = (Trie.leaf path v).encode := by
  have hp := prove_all t _ hbig
  have hl : (prove t (nibblesOf (keyIndex index))).getLast? = some (Trie.leaf path v).encode := by
    rw [hp, List.getLast?_map, hlast]; rfl
  have hdec := decode_eq _ hok
  simp only [List.map_cons, List.map_nil] at hdec
  have henc : (Trie.leaf path v).encode = encodeList [encodeString (hexPrefix true path), encodeString v] := by
    rw [Trie.encode]
  refine ⟨_, ?_, take_suffix (henc ▸ pair_suffix _ v)⟩
  unfold getProof
  rw [if_neg (by simp)]
  dsimp only
  rw [hl]
  dsimp only
  rw [henc, hdec]
  dsimp only
  rw [if_neg (by simp), hp]
  rfl

/-- C78, disagreement. In particular a block with one transaction gives the same "proof" for every index, also a negative one:
the leaf of transaction 0. -/
theorem C78_single_tx_any_index (v : List ℕ) (hok : StringsOk [hexPrefix true [8, 0], v]) (index : ℤ) :
    ∃ pre, getProof (.leaf [8, 0] v) (Trie.leaf [8, 0] v).root index =
      .ok ([(Trie.leaf [8, 0] v).encode], keyIndex index, pre) ∧ pre ++ v = (Trie.leaf [8, 0] v).encode :=
  C78_absent_not_reported (.leaf [8, 0] v) index [8, 0] v rfl (by simp [pathNodes]) hok

/-- C78, disagreement. When the path of a missing key leaves the trie inside an extension node, that extension node is returned
as the leaf, with the 32-byte hash of its child in the role of the value. -/
theorem C78_extension_as_leaf (path : List ℕ) (c : Trie) (index : ℤ) (hpre : ¬ path <+: nibblesOf (keyIndex index))
    (hc : 32 ≤ c.encode.length) (hok : StringsOk [hexPrefix false path, keccakBytes c.encode]) :
    ∃ pre, getProof (.ext path c) (Trie.ext path c).root index =
      .ok ([(Trie.ext path c).encode], keyIndex index, pre) ∧ pre ++ keccakBytes c.encode = (Trie.ext path c).encode := by
  have hdec := decode_eq _ hok
  simp only [List.map_cons, List.map_nil] at hdec
  have henc : (Trie.ext path c).encode =
      encodeList [encodeString (hexPrefix false path), encodeString (keccakBytes c.encode)] := by
    rw [Trie.encode, refOf, if_neg (by omega)]
  have hp : prove (.ext path c) (nibblesOf (keyIndex index)) = [(Trie.ext path c).encode] := by
    simp [prove, pathNodes, hpre]
  refine ⟨_, ?_, take_suffix (henc ▸ pair_suffix _ (keccakBytes c.encode))⟩
  unfold getProof
  rw [if_neg (by simp)]
  dsimp only
  rw [hp]
  simp only [List.getLast?_singleton]
  rw [henc, hdec]
  dsimp only
  rw [if_neg (by simp)]
  rfl

/-! ## Non-vacuity -/

theorem ok_small {a v : List ℕ} (ha : ∀ b ∈ a, b < 256) (hv : ∀ b ∈ v, b < 256) (hal : a.length < 2 ^ 20)
    (hvl : v.length < 2 ^ 40) : StringsOk [a, v] := by
  have hE : ∀ (x : List ℕ) (n : ℕ), x.length ≤ n → n < 256 ^ 8 → (encodeString x).length ≤ n + 9 := by
    intro x n hx hn
    unfold encodeString
    split
    · omega
    · rw [List.length_append]
      unfold lenHeader
      split
      · simp; omega
      · have := Rlp.lenBytes_length_le x.length 8 (by omega)
        simp; omega
  rw [StringsOk, Item.ok_list]
  refine ⟨?_, ?_⟩
  · intro x hx
    simp only [List.map_cons, List.map_nil, List.mem_cons, List.not_mem_nil, or_false] at hx
    rcases hx with rfl | rfl <;> rw [Item.ok_str]
    · exact ⟨ha, by omega⟩
    · exact ⟨hv, by omega⟩
  · have h1 := hE a (2 ^ 20) (by omega) (by norm_num)
    have h2 := hE v (2 ^ 40) (by omega) (by norm_num)
    simp [Item.encode]
    omega

/-- A block with one transaction of 100 bytes: index 0 is present and proved; index 7 is absent and "proved" as well. -/
example : (Trie.leaf [8, 0] (List.replicate 100 7)).get (nibblesOf (keyIndex 0)) = some (List.replicate 100 7) ∧
    (Trie.leaf [8, 0] (List.replicate 100 7)).get (nibblesOf (keyIndex 7)) = none ∧
    StringsOk [hexPrefix true [8, 0], List.replicate 100 7] := by
  refine ⟨?_, ?_, ok_small ?_ ?_ ?_ ?_⟩
  · norm_num [Trie.get, keyIndex, natBytes, encodeString, lenHeader, nibblesOf]
  · have h7 : keyIndex 7 = [7] := by
      have : (7 % 2 ^ 64 : ℤ).toNat = 7 := by decide
      rw [keyIndex, this]
      norm_num [natBytes, encodeString]
    rw [h7]
    decide
  · decide
  · intro b hb; rw [List.eq_of_mem_replicate hb]; norm_num
  · decide
  · simp

end Verif.TxProof
