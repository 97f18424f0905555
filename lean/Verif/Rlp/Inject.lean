import Verif.Rlp.Enc

/-! # RLP encodings are uniquely readable

`Item` is the recursive data type of the Yellow Paper, appendix B. An encoding determines its item and where it ends. -/

namespace Verif.Spec.Rlp

/-- A byte string or a list of items. -/
inductive Item where
  | str (bs : List ℕ)
  | list (items : List Item)

/-- RLP of an item. -/
def Item.encode : Item → List ℕ
  | .str bs => encodeString bs
  | .list items => encodeList (items.attach.map fun x => x.1.encode)
decreasing_by
  have := List.sizeOf_lt_of_mem x.2
  simp; omega

theorem Item.encode_list (items : List Item) : (Item.list items).encode = encodeList (items.map Item.encode) := by
  rw [Item.encode]; congr 1; simp [List.attach_map_val]

/-- Bytes are bytes, and every payload is shorter than 2^64 bytes (the domain of RLP). -/
def Item.Ok : Item → Prop
  | .str bs => (∀ b ∈ bs, b < 256) ∧ bs.length < 256 ^ 8
  | .list items => (∀ x ∈ items.attach, x.1.Ok) ∧ (items.map Item.encode).flatten.length < 256 ^ 8
decreasing_by
  have := List.sizeOf_lt_of_mem x.2
  simp; omega

theorem Item.ok_str (bs : List ℕ) : (Item.str bs).Ok ↔ (∀ b ∈ bs, b < 256) ∧ bs.length < 256 ^ 8 := by
  rw [Item.Ok]

theorem Item.ok_list (items : List Item) :
    (Item.list items).Ok ↔ (∀ x ∈ items, x.Ok) ∧ (items.map Item.encode).flatten.length < 256 ^ 8 := by
  rw [Item.Ok]; simp

theorem lenBytes_pos_len {n : ℕ} (h : 56 ≤ n) (hn : n < 256 ^ 8) : 1 ≤ (lenBytes n).length ∧ (lenBytes n).length ≤ 8 :=
  ⟨Rlp.lenBytes_length_pos n (by omega), Rlp.lenBytes_length_le n 8 hn⟩

theorem lenBytes_inj {n m : ℕ} (h : lenBytes n = lenBytes m) : n = m := by
  rw [← Rlp.ofDigits_lenBytes n, h, Rlp.ofDigits_lenBytes]

/-- The header determines the length. -/
theorem lenHeader_inj {s n m : ℕ} (hn : n < 256 ^ 8) (hm : m < 256 ^ 8) {x y : List ℕ}
    (h : lenHeader s (s + 55) n ++ x = lenHeader s (s + 55) m ++ y) : n = m ∧ x = y := by
  unfold lenHeader at h
  split at h <;> rename_i h1 <;> split at h <;> rename_i h2
  · simp at h; exact ⟨by omega, h.2⟩
  · have := lenBytes_pos_len (by omega : 56 ≤ m) hm
    simp at h; omega
  · have := lenBytes_pos_len (by omega : 56 ≤ n) hn
    simp at h; omega
  · simp only [List.cons_append, List.cons.injEq] at h
    obtain ⟨h3, h4⟩ := h
    obtain ⟨h5, h6⟩ := List.append_inj h4 (by omega)
    exact ⟨lenBytes_inj h5, h6⟩

theorem lenHeader_head {s n : ℕ} (hn : n < 256 ^ 8) (x : List ℕ) :
    ∃ b t, lenHeader s (s + 55) n ++ x = b :: t ∧ s ≤ b ∧ b < s + 64 := by
  unfold lenHeader
  split
  · exact ⟨s + n, x, rfl, by omega, by omega⟩
  · have := lenBytes_pos_len (by omega : 56 ≤ n) hn
    exact ⟨_, _, rfl, by omega, by omega⟩

theorem encodeString_head {bs : List ℕ} (hn : bs.length < 256 ^ 8) (x : List ℕ) :
    ∃ b t, encodeString bs ++ x = b :: t ∧ b < 0xc0 := by
  unfold encodeString
  split
  · rename_i h
    match bs, h with
    | [b], h => exact ⟨b, x, rfl, by simp at h; omega⟩
  · obtain ⟨b, t, h1, h2, h3⟩ := lenHeader_head (s := 0x80) hn (bs ++ x)
    rw [List.append_assoc]
    exact ⟨b, t, h1, by omega⟩

theorem encodeList_head {items : List (List ℕ)} (hn : items.flatten.length < 256 ^ 8) (x : List ℕ) :
    ∃ b t, encodeList items ++ x = b :: t ∧ 0xc0 ≤ b := by
  obtain ⟨b, t, h1, h2, h3⟩ := lenHeader_head (s := 0xc0) hn (items.flatten ++ x)
  refine ⟨b, t, ?_, h2⟩
  rw [encodeList, List.append_assoc]; exact h1

/-- The encoding of a byte string determines the string and where it ends. -/
theorem encodeString_inj {bs cs : List ℕ} (hb : bs.length < 256 ^ 8) (hc : cs.length < 256 ^ 8) {x y : List ℕ}
    (h : encodeString bs ++ x = encodeString cs ++ y) : bs = cs ∧ x = y := by
  unfold encodeString at h
  split at h <;> rename_i h1 <;> split at h <;> rename_i h2
  · match bs, cs, h1, h2 with
    | [b], [c], _, _ => simpa using h
  · match bs, h1 with
    | [b], h1 =>
      obtain ⟨d, t, e1, e2, e3⟩ := lenHeader_head (s := 0x80) hc (cs ++ y)
      rw [List.append_assoc, e1] at h
      simp at h h1; omega
  · match cs, h2 with
    | [c], h2 =>
      obtain ⟨d, t, e1, e2, e3⟩ := lenHeader_head (s := 0x80) hb (bs ++ x)
      rw [List.append_assoc, e1] at h
      simp at h h2; omega
  · rw [List.append_assoc, List.append_assoc] at h
    obtain ⟨h3, h4⟩ := lenHeader_inj (s := 0x80) hb hc h
    exact List.append_inj h4 h3

theorem encodeList_split {as bs : List (List ℕ)} (ha : as.flatten.length < 256 ^ 8) (hb : bs.flatten.length < 256 ^ 8)
    {x y : List ℕ} (h : encodeList as ++ x = encodeList bs ++ y) : as.flatten = bs.flatten ∧ x = y := by
  rw [encodeList, encodeList, List.append_assoc, List.append_assoc] at h
  obtain ⟨h3, h4⟩ := lenHeader_inj (s := 0xc0) ha hb h
  exact List.append_inj h4 h3

theorem Item.encode_ne_nil {a : Item} (ha : a.Ok) : a.encode ≠ [] := by
  cases a with
  | str bs =>
    obtain ⟨b, t, h, -⟩ := encodeString_head ((Item.ok_str bs).1 ha).2 []
    rw [Item.encode]; intro h'; rw [h'] at h; simp at h
  | list l =>
    obtain ⟨b, t, h, -⟩ := encodeList_head ((Item.ok_list l).1 ha).2 []
    rw [Item.encode_list]; intro h'; rw [h'] at h; simp at h

/-- An encoding determines its item and where it ends. -/
theorem Item.encode_inj : ∀ (a b : Item), a.Ok → b.Ok → ∀ x y, a.encode ++ x = b.encode ++ y → a = b ∧ x = y
  | .str bs, .str cs, ha, hb, x, y, h => by
    rw [Item.encode, Item.encode] at h
    obtain ⟨h1, h2⟩ := encodeString_inj ((Item.ok_str bs).1 ha).2 ((Item.ok_str cs).1 hb).2 h
    exact ⟨by rw [h1], h2⟩
  | .str bs, .list l, ha, hb, x, y, h => by
    obtain ⟨c, t, e1, e2⟩ := encodeString_head ((Item.ok_str bs).1 ha).2 x
    obtain ⟨d, u, e3, e4⟩ := encodeList_head ((Item.ok_list l).1 hb).2 y
    rw [Item.encode, Item.encode_list, e1, e3] at h
    simp at h; omega
  | .list l, .str bs, ha, hb, x, y, h => by
    obtain ⟨c, t, e1, e2⟩ := encodeString_head ((Item.ok_str bs).1 hb).2 y
    obtain ⟨d, u, e3, e4⟩ := encodeList_head ((Item.ok_list l).1 ha).2 x
    rw [Item.encode, Item.encode_list, e1, e3] at h
    simp at h; omega
  | .list l, .list m, ha, hb, x, y, h => by
    rw [Item.ok_list] at ha hb
    rw [Item.encode_list, Item.encode_list] at h
    obtain ⟨h1, h2⟩ := encodeList_split ha.2 hb.2 h
    have : ∀ (l' m' : List Item), (∀ i ∈ l', i ∈ l) → (∀ i ∈ m', i ∈ m) →
        (l'.map Item.encode).flatten = (m'.map Item.encode).flatten → l' = m' := by
      intro l'
      induction l' with
      | nil =>
        intro m' _ hm' e
        cases m' with
        | nil => rfl
        | cons j ms =>
          have := Item.encode_ne_nil (hb.1 j (hm' j (by simp)))
          simp at e; exact absurd e.1 this
      | cons i is ih =>
        intro m' hl' hm' e
        cases m' with
        | nil =>
          have := Item.encode_ne_nil (ha.1 i (hl' i (by simp)))
          simp at e; exact absurd e.1 this
        | cons j js =>
          simp only [List.map_cons, List.flatten_cons] at e
          have hi := hl' i (by simp)
          have hj := hm' j (by simp)
          obtain ⟨e1, e2⟩ := Item.encode_inj i j (ha.1 i hi) (hb.1 j hj) _ _ e
          rw [e1, ih js (fun k hk => hl' k (by simp [hk])) (fun k hk => hm' k (by simp [hk])) e2]
    exact ⟨by rw [this l m (fun _ h => h) (fun _ h => h) h1], h2⟩
termination_by a => sizeOf a
decreasing_by
  have := List.sizeOf_lt_of_mem hi
  simp; omega

/-- Equal encodings, equal items. -/
theorem Item.encode_injective {a b : Item} (ha : a.Ok) (hb : b.Ok) (h : a.encode = b.encode) : a = b :=
  (Item.encode_inj a b ha hb [] [] (by simpa using h)).1

end Verif.Spec.Rlp
