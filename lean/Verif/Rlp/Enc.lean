import Mathlib.Data.Nat.Digits.Lemmas
import Verif.Rlp.Exact

/-! Lemmas: reading an encoding back from a nibble stream. -/

set_option linter.unusedSectionVars false

namespace Verif.Rlp
open Spec.Rlp

/-- the stream contains `ns` at offset `o` -/
def ReadsAt (S : ℕ → ℕ) (o : ℕ) (ns : List ℕ) : Prop := ∀ j < ns.length, S (o + j) = ns.getD j 0

theorem readsAt_append (S : ℕ → ℕ) (o : ℕ) (x y : List ℕ) :
    ReadsAt S o (x ++ y) ↔ ReadsAt S o x ∧ ReadsAt S (o + x.length) y := by
  unfold ReadsAt
  constructor
  · intro h
    refine ⟨fun j hj => ?_, fun j hj => ?_⟩
    · rw [h j (by simp; omega), List.getD_append _ _ _ _ hj]
    · rw [Nat.add_assoc, h _ (by simp; omega), List.getD_append_right _ _ _ _ (by omega)]
      simp
  · rintro ⟨h1, h2⟩ j hj
    rcases Nat.lt_or_ge j x.length with h | h
    · rw [h1 j h, List.getD_append _ _ _ _ h]
    · have := h2 (j - x.length) (by simp at hj; omega)
      rw [List.getD_append_right _ _ _ _ h, ← this]
      congr 1; omega

theorem nibblesOf_cons (b : ℕ) (bs : List ℕ) : nibblesOf (b :: bs) = [b / 16, b % 16] ++ nibblesOf bs := rfl

theorem nibblesOf_append (x y : List ℕ) : nibblesOf (x ++ y) = nibblesOf x ++ nibblesOf y := by
  simp [nibblesOf]

theorem nibblesOf_length (bs : List ℕ) : (nibblesOf bs).length = 2 * bs.length := by
  induction bs with
  | nil => rfl
  | cons b bs ih => rw [nibblesOf_cons, List.length_append, ih]; simp; ring

theorem nibblesOf_lt (bs : List ℕ) (h : ∀ b ∈ bs, b < 256) : ∀ x ∈ nibblesOf bs, x < 16 := by
  intro x hx
  unfold nibblesOf at hx
  rw [List.mem_flatMap] at hx
  obtain ⟨b, hb, hx⟩ := hx
  have := h b hb
  simp at hx
  omega

theorem byteAt_of_reads {S : ℕ → ℕ} {o b : ℕ} {bs : List ℕ} (h : ReadsAt S o (nibblesOf (b :: bs))) :
    byteAt S o = b := by
  rw [nibblesOf_cons, readsAt_append] at h
  have h0 := h.1 0 (by simp)
  have h1 := h.1 1 (by simp)
  simp at h0 h1
  unfold byteAt
  omega

theorem beNum_of_reads (S : ℕ → ℕ) (o : ℕ) (bs : List ℕ) (h : ReadsAt S o (nibblesOf bs)) :
    beNum S o (2 * bs.length) = Nat.ofDigits 256 bs.reverse := by
  induction bs using List.reverseRecOn with
  | nil => simp [beNum]
  | append_singleton bs b ih =>
    rw [nibblesOf_append, readsAt_append, nibblesOf_length] at h
    have hb := byteAt_of_reads h.2
    unfold byteAt at hb
    rw [List.length_append, List.length_singleton, show 2 * (bs.length + 1) = 2 * bs.length + 1 + 1 by ring,
      beNum, beNum, ih h.1, List.reverse_append, List.reverse_singleton, List.singleton_append,
      Nat.ofDigits_cons]
    rw [show o + (2 * bs.length + 1) = o + 2 * bs.length + 1 by ring]
    push_cast
    omega

theorem ofDigits_lenBytes (n : ℕ) : Nat.ofDigits 256 (lenBytes n).reverse = n := by
  unfold lenBytes
  rw [List.reverse_reverse, Nat.ofDigits_digits]

theorem lenBytes_length_pos (n : ℕ) (h : 0 < n) : 0 < (lenBytes n).length := by
  unfold lenBytes
  rw [List.length_reverse]
  exact List.length_pos_of_ne_nil (Nat.digits_ne_nil_iff_ne_zero.2 (by omega))

theorem lenBytes_length_le (n k : ℕ) (h : n < 256 ^ k) : (lenBytes n).length ≤ k := by
  unfold lenBytes
  rw [List.length_reverse]
  exact (Nat.digits_length_le_iff (by norm_num) n).2 h

theorem lenBytes_lt (n : ℕ) : ∀ b ∈ lenBytes n, b < 256 := by
  intro b hb
  unfold lenBytes at hb
  exact Nat.digits_lt_base (by norm_num) (List.mem_reverse.1 hb)

/-- Reading back a header. `short`/`long` are the string or the list bases. -/
theorem header_read (S : ℕ → ℕ) (o n : ℕ) (hn : n < 256 ^ 8) (isL : Bool) (rest : List ℕ)
    (h : ReadsAt S o (nibblesOf (lenHeader (if isL then 0xc0 else 0x80) (if isL then 0xf7 else 0xb7) n ++ rest))) :
    payLen S o = 2 * n ∧
    hdrLen (byteAt S o) =
      2 * (lenHeader (if isL then 0xc0 else 0x80) (if isL then 0xf7 else 0xb7) n).length ∧
    (isL = true → 0xc0 ≤ byteAt S o) ∧ (isL = false → byteAt S o < 0xc0) ∧
    (byteAt S o = 0xc0 ↔ isL = true ∧ n = 0) ∧
    lenOfLen (byteAt S o) = if n < 56 then 0 else (lenBytes n).length := by
  unfold lenHeader at h ⊢
  by_cases hs : n < 56
  · simp only [if_pos hs, List.cons_append, List.nil_append, List.length_singleton] at h ⊢
    have hb := byteAt_of_reads h
    unfold payLen hdrLen lenOfLen
    rw [hb]
    cases isL
    · simp only [Bool.false_eq_true, if_false, false_and, iff_false]
      refine ⟨?_, ?_, by simp, fun _ => ?_, ?_, ?_⟩ <;> (try split_ifs) <;> omega
    · simp only [if_true]
      refine ⟨?_, ?_, ?_, by simp, ?_, ?_⟩ <;> (try split_ifs) <;> simp_all <;> omega
  · simp only [if_neg hs, List.cons_append, List.length_cons] at h ⊢
    have hb := byteAt_of_reads h
    rw [nibblesOf_cons, readsAt_append] at h
    have h2 := h.2
    rw [nibblesOf_append, readsAt_append] at h2
    have hbe := beNum_of_reads S _ _ h2.1
    rw [ofDigits_lenBytes] at hbe
    have hl1 := lenBytes_length_pos n (by omega)
    have hl2 := lenBytes_length_le n 8 hn
    simp only [List.length_cons, List.length_nil] at hbe
    unfold payLen hdrLen lenOfLen
    rw [hb]
    generalize (lenBytes n).length = L at *
    cases isL
    · simp only [Bool.false_eq_true, if_false]
      refine ⟨?_, ?_, by simp, ?_, ?_, ?_⟩
      · rw [if_neg (by omega), if_neg (by omega), if_pos (by omega),
          show 0xb7 + L - 0xb7 = L by omega]
        simpa using hbe
      all_goals (try split_ifs) <;> omega
    · simp only [if_true]
      refine ⟨?_, ?_, ?_, by simp, ?_, ?_⟩
      · rw [if_neg (by omega), if_neg (by omega), if_neg (by omega), if_neg (by omega),
          show 0xf7 + L - 0xf7 = L by omega]
        simpa using hbe
      all_goals (try split_ifs) <;> simp_all <;> omega

theorem lenHeader_length_pos (s l n : ℕ) : 0 < (lenHeader s l n).length := by
  unfold lenHeader; split <;> simp

/-- Reading back an item. -/
theorem item_read (S : ℕ → ℕ) (o : ℕ) (enc pay : List ℕ) (he : Encodes enc pay)
    (hn : pay.length < 256 ^ 8) (h : ReadsAt S o (nibblesOf enc)) :
    payLen S o = 2 * pay.length ∧ itemLen S o = 2 * enc.length ∧ byteAt S o ≠ 0xc0 ∧
    ReadsAt S (o + hdrLen (byteAt S o)) (nibblesOf pay) ∧
    lenOfLen (byteAt S o) = (if pay.length < 56 then 0 else (lenBytes pay.length).length) := by
  rcases he with he | ⟨items, he, hp, hne⟩
  · unfold encodeString at he
    split at he
    · rename_i hs
      subst he
      obtain ⟨b, rfl⟩ := List.length_eq_one_iff.1 hs.1
      have hb := byteAt_of_reads h
      have hb2 : b < 0x80 := by simpa using hs.2
      have hh : hdrLen (byteAt S o) = 0 := by rw [hb]; unfold hdrLen; rw [if_pos hb2]
      have hp : payLen S o = 2 := by unfold payLen; simp only; rw [hb, if_pos hb2]
      refine ⟨by simpa using hp, ?_, by omega, ?_, ?_⟩
      · unfold itemLen; rw [hh, hp]; simp
      · rw [hh]; exact h
      · rw [hb]; unfold lenOfLen; simp; omega
    · subst he
      have hr := header_read S o pay.length hn false pay (by simpa using h)
      simp only [Bool.false_eq_true, if_false] at hr
      refine ⟨hr.1, ?_, ?_, ?_, hr.2.2.2.2.2⟩
      · unfold itemLen; rw [hr.1, hr.2.1, List.length_append]; ring
      · have := hr.2.2.2.1 trivial; omega
      · rw [hr.2.1]
        rw [nibblesOf_append, readsAt_append, nibblesOf_length] at h
        exact h.2
  · subst he
    unfold encodeList at h ⊢
    rw [← hp] at h ⊢
    have hr := header_read S o pay.length hn true pay (by simpa using h)
    simp only [if_true] at hr
    refine ⟨hr.1, ?_, ?_, ?_, hr.2.2.2.2.2⟩
    · unfold itemLen; rw [hr.1, hr.2.1, List.length_append]; ring
    · intro h0
      have := (hr.2.2.2.2.1.1 h0).2
      exact hne (List.length_eq_zero_iff.1 this)
    · rw [hr.2.1]
      rw [nibblesOf_append, readsAt_append, nibblesOf_length] at h
      exact h.2

/-- Reading back a list. -/
theorem list_read (S : ℕ → ℕ) (hS : ∀ k, S k < 16) (items pays : List (List ℕ))
    (he : List.Forall₂ Encodes items pays) (hn : items.flatten.length < 256 ^ 8)
    (hpn : ∀ q ∈ pays, q.length < 256 ^ 8)
    (h : ReadsAt S 0 (nibblesOf (encodeList items))) :
    isList S 0 ∧ payLen S 0 = 2 * items.flatten.length ∧
    listHdr (byteAt S 0) = 2 * (lenHeader 0xc0 0xf7 items.flatten.length).length ∧
    (∀ k ≤ items.length, itemOffset S k =
      listHdr (byteAt S 0) + 2 * (items.take k).flatten.length) ∧
    (∀ k < items.length, ∃ pay, pays[k]? = some pay ∧
      payLen S (itemOffset S k) = 2 * pay.length ∧ byteAt S (itemOffset S k) ≠ 0xc0 ∧
      ReadsAt S (itemOffset S k + hdrLen (byteAt S (itemOffset S k))) (nibblesOf pay) ∧
      lenOfLen (byteAt S (itemOffset S k)) =
        (if pay.length < 56 then 0 else (lenBytes pay.length).length)) := by
  unfold encodeList at h
  have hr := header_read S 0 items.flatten.length hn true items.flatten (by simpa using h)
  simp only [if_true] at hr
  have hl : 0xc0 ≤ byteAt S 0 := hr.2.2.1 trivial
  have hh : listHdr (byteAt S 0) = 2 * (lenHeader 0xc0 0xf7 items.flatten.length).length := by
    rw [listHdr_hdrLen _ (byteAt_lt S hS 0) hl, hr.2.1]
  have hrest : ReadsAt S (listHdr (byteAt S 0)) (nibblesOf items.flatten) := by
    rw [nibblesOf_append, readsAt_append, nibblesOf_length] at h
    rw [hh]; simpa using h.2
  have hitem : ∀ k < items.length, itemOffset S k =
      listHdr (byteAt S 0) + 2 * (items.take k).flatten.length →
      ∃ enc pay, items[k]? = some enc ∧ pays[k]? = some pay ∧ Encodes enc pay ∧
        ReadsAt S (itemOffset S k) (nibblesOf enc) ∧ pay.length < 256 ^ 8 := by
    intro k hk ho
    have hlen := he.length_eq
    have hE : Encodes items[k] (pays[k]'(by omega)) := by
      have := List.forall₂_iff_get.1 he
      exact this.2 k hk (by omega)
    refine ⟨items[k], pays[k]'(by omega), List.getElem?_eq_getElem hk, List.getElem?_eq_getElem (by omega), hE, ?_,
      hpn _ (List.getElem_mem _)⟩
    rw [ho]
    have hsplit : items.flatten = (items.take k).flatten ++ (items[k] ++ (items.drop (k+1)).flatten) := by
      conv_lhs => rw [← List.take_append_drop k items, List.drop_eq_getElem_cons hk]
      rw [List.flatten_append, List.flatten_cons]
    rw [hsplit, nibblesOf_append, readsAt_append, nibblesOf_append, readsAt_append, nibblesOf_length] at hrest
    exact hrest.2.1
  have hoff : ∀ k ≤ items.length, itemOffset S k =
      listHdr (byteAt S 0) + 2 * (items.take k).flatten.length := by
    intro k
    induction k with
    | zero => intro _; simp [itemOffset]
    | succ k ih =>
      intro hk
      have ih := ih (by omega)
      obtain ⟨enc, pay, h1, h2, h3, h4, h5⟩ := hitem k (by omega) ih
      have := item_read S _ enc pay h3 h5 h4
      rw [itemOffset, this.2.1, ih, List.take_succ, h1]
      simp
      ring
  refine ⟨hl, hr.1, hh, hoff, ?_⟩
  intro k hk
  obtain ⟨enc, pay, h1, h2, h3, h4, h5⟩ := hitem k hk (hoff k hk.le)
  have := item_read S _ enc pay h3 h5 h4
  exact ⟨pay, h2, this.1, this.2.2.1, this.2.2.2.1, this.2.2.2.2⟩

end Verif.Rlp
