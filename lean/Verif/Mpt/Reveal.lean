import Verif.Mpt.NodeComplete

/-! A node buffer that hashes to the hash of a trie node contains that node, and cannot be read as another kind of
node (lemmas for C18). -/

set_option linter.unusedSectionVars false
set_option linter.unusedVariables false

namespace Verif.Mpt
open Api Rlp Keccak Spec.Keccak Spec.Rlp Spec.Mpt
variable {p : ℕ} [Fact p.Prime]

/-- The Keccak padding bytes after `n` message bytes. -/
def kpad (n : ℕ) : List ℕ := if n % 136 = 135 then [0x81] else 1 :: (List.replicate (134 - n % 136) 0 ++ [0x80])

theorem kpad_length (n : ℕ) : (kpad n).length = 136 - n % 136 := by
  unfold kpad
  split
  · rename_i h; rw [h]; rfl
  · simp; omega

theorem kpad_get (n j : ℕ) (h : j < (kpad n).length) : (kpad n)[j] < 0xc0 ∧ (j + 1 < (kpad n).length → (kpad n)[j] < 0x80) := by
  unfold kpad at h ⊢
  split
  · rename_i h1
    simp only [h1, if_true, List.length_singleton] at h
    obtain rfl : j = 0 := by omega
    simp
  · rename_i h1
    simp only [h1, if_false] at h
    rcases j with _ | j
    · simp
    · simp only [List.getElem_cons_succ, List.length_cons, List.length_append, List.length_replicate, List.length_singleton]
      rcases Nat.lt_or_ge j (134 - n % 136) with h2 | h2
      · rw [List.getElem_append_left (by simpa using h2)]
        simp
      · rw [List.getElem_append_right (by simpa using h2)]
        simp
        simp at h
        omega

theorem kpad_last (n : ℕ) : ∃ A a, kpad n = A ++ [a] ∧ a ≠ 0 := by
  unfold kpad
  split
  · exact ⟨[], 0x81, rfl, by decide⟩
  · exact ⟨1 :: List.replicate (134 - n % 136) 0, 0x80, by simp, by decide⟩

theorem bytesToBits_inj {a b : List ℕ} (ha : ∀ x ∈ a, x < 256) (hb : ∀ x ∈ b, x < 256)
    (h : bytesToBits a = bytesToBits b) : a = b := by
  induction a generalizing b with
  | nil =>
    have := congrArg List.length h
    rw [bytesToBits_length, bytesToBits_length] at this
    exact (List.length_eq_zero_iff.1 (by simpa using this.symm)).symm
  | cons x a ih =>
    cases b with
    | nil =>
      have := congrArg List.length h
      rw [bytesToBits_length, bytesToBits_length] at this
      simp at this
    | cons y b =>
      rw [bytesToBits_cons, bytesToBits_cons] at h
      have hs := List.append_inj h (by simp)
      have hxy : x = y := by
        have hx : x < 2 ^ 8 := ha x (by simp)
        have hy : y < 2 ^ 8 := hb y (by simp)
        apply Nat.eq_of_testBit_eq
        intro i
        rcases Nat.lt_or_ge i 8 with hi | hi
        · have := congrArg (fun l => l[i]?) hs.1
          simpa [List.getElem?_map, List.getElem?_range hi] using this
        · rw [Nat.testBit_lt_two_pow (hx.trans_le (Nat.pow_le_pow_right (by norm_num) hi)),
            Nat.testBit_lt_two_pow (hy.trans_le (Nat.pow_le_pow_right (by norm_num) hi))]
      rw [hxy, ih (fun z hz => ha z (by simp [hz])) (fun z hz => hb z (by simp [hz])) hs.2]

theorem prefix_zeros {A B : List ℕ} {a z : ℕ} (ha : a ≠ 0) (h : (A ++ [a]) <+: (B ++ List.replicate z 0)) :
    (A ++ [a]) <+: B := by
  have hlt : A.length < B.length := by
    by_contra hge
    obtain ⟨t, ht⟩ := h
    have h1 : (A ++ [a] ++ t)[A.length]? = some a := by simp
    rw [ht, List.getElem?_append_right (by omega)] at h1
    have := List.mem_of_getElem? h1
    exact ha (List.eq_of_mem_replicate this)
  exact List.prefix_of_prefix_length_le h (List.prefix_append _ _) (by simp; omega)

/-- The buffer starts with the node and its Keccak padding. -/
def Shows (ns : List ℕ) (u : Trie) : Prop := ∃ rest, ns = nibblesOf (u.encode ++ kpad u.encode.length) ++ rest

theorem shows_of_supplied {ns : List ℕ} {r : ℕ} {u : Trie} (hnib : ∀ x ∈ ns, x < 16) (hev : ns.length % 2 = 0)
    (hb : ∀ b ∈ u.encode, b < 256) (h : supplied ns r = pad (bytesToBits u.encode)) : Shows ns u := by
  unfold supplied at h
  rw [← C20_pad101Bytes, pad101Bytes_eq, show (if u.encode.length % 136 = 135 then [0x81]
      else 1 :: (List.replicate (134 - u.encode.length % 136) 0 ++ [0x80])) = kpad u.encode.length from rfl,
    show (r + 1) * 1088 = 8 * (136 * (r + 1)) by ring] at h
  have e := bytesToBits_take_drop (packNibbles ns ++ List.replicate (1360 - ns.length / 2) 0) 0 (136 * (r + 1))
  simp only [List.drop_zero, Nat.mul_zero] at e
  rw [← e] at h
  have hpk := packNibbles_lt ns hnib
  have hk : ∀ b ∈ u.encode ++ kpad u.encode.length, b < 256 := by
    intro b hb'
    rcases List.mem_append.1 hb' with hb' | hb'
    · exact hb b hb'
    · obtain ⟨j, hj, rfl⟩ := List.mem_iff_getElem.1 hb'
      have := (kpad_get _ j hj).1
      omega
  have h := bytesToBits_inj (by
    intro b hb'
    have := List.mem_of_mem_take hb'
    rcases List.mem_append.1 this with hb' | hb'
    · exact hpk b hb'
    · rw [List.eq_of_mem_replicate hb']; norm_num) hk h
  obtain ⟨A, a, hA, ha⟩ := kpad_last u.encode.length
  have hpre : (u.encode ++ kpad u.encode.length) <+: (packNibbles ns ++ List.replicate (1360 - ns.length / 2) 0) := by
    rw [← h]; exact List.take_prefix _ _
  rw [hA, ← List.append_assoc] at hpre
  obtain ⟨t, ht⟩ := prefix_zeros ha hpre
  refine ⟨nibblesOf t, ?_⟩
  rw [hA, ← List.append_assoc, ← nibblesOf_append, ht, nibblesOf_pack _ hnib hev]

theorem cyc_lt {ns : List ℕ} (h : ∀ x ∈ ns, x < 16) (k : ℕ) : cyc ns k < 16 := by
  unfold cyc
  rw [List.getD_eq_getElem?_getD]
  rcases hx : ns[k % ns.length]? with _ | x
  · simp
  · simpa using h x (List.mem_of_getElem? hx)

/-- Reading the start of a window of a buffer. -/
theorem win_reads {ns X Y rest : List ℕ} {W : ℕ} (h : ns = nibblesOf (X ++ Y) ++ rest) (hX : 2 * X.length ≤ W)
    (hW : W ≤ ns.length) : ReadsAt (cyc (ns.take W)) 0 (nibblesOf X) := by
  apply cyc_reads (pad := (nibblesOf Y ++ rest).take (W - 2 * X.length))
  rw [h, nibblesOf_append, List.append_assoc, List.take_append, nibblesOf_length,
    List.take_of_length_le (by rw [nibblesOf_length]; exact hX)]

/-- Reading a list header. -/
theorem list_start {S : ℕ → ℕ} (hS : ∀ k, S k < 16) {n : ℕ} (hn : n < 256 ^ 8)
    (h : ReadsAt S 0 (nibblesOf (lenHeader 0xc0 0xf7 n))) :
    isList S 0 ∧ declared S = 2 * n ∧ itemOffset S 0 = 2 * (lenHeader 0xc0 0xf7 n).length ∧
    listHdr (byteAt S 0) = 2 * (lenHeader 0xc0 0xf7 n).length := by
  have hr := header_read S 0 n hn true [] (by simpa using h)
  simp only [if_true] at hr
  have hl : 0xc0 ≤ byteAt S 0 := hr.2.2.1 trivial
  have hh : listHdr (byteAt S 0) = 2 * (lenHeader 0xc0 0xf7 n).length := by
    rw [listHdr_hdrLen _ (byteAt_lt S hS 0) hl, hr.2.1]
  refine ⟨hl, ?_, hh, hh⟩
  unfold declared
  rw [if_pos hl, hr.1]

/-- The part of a string encoding that determines its length. -/
def strHdr (pay : List ℕ) : List ℕ :=
  if pay.length = 1 ∧ pay.headD 0 < 0x80 then pay else lenHeader 0x80 0xb7 pay.length

theorem strHdr_prefix (pay : List ℕ) : ∃ t, encodeString pay = strHdr pay ++ t := by
  unfold encodeString strHdr
  split
  · exact ⟨[], by simp⟩
  · exact ⟨pay, rfl⟩

theorem lenHeader_length_le (s l n k : ℕ) (h : n < 256 ^ k) : (lenHeader s l n).length ≤ k + 1 := by
  unfold lenHeader
  split
  · simp
  · have := lenBytes_length_le n k h
    simp only [List.length_cons]
    omega

theorem strHdr_length (pay : List ℕ) (k : ℕ) (h : pay.length < 256 ^ k) : (strHdr pay).length ≤ k + 1 := by
  unfold strHdr
  split
  · rename_i h; omega
  · exact lenHeader_length_le _ _ _ _ h

theorem str_read {S : ℕ → ℕ} {o : ℕ} {pay : List ℕ} (hn : pay.length < 256 ^ 8)
    (h : ReadsAt S o (nibblesOf (strHdr pay))) :
    payLen S o = 2 * pay.length ∧ itemLen S o = 2 * (encodeString pay).length ∧ byteAt S o ≠ 0xc0 := by
  unfold strHdr at h
  unfold encodeString
  split at h
  · rename_i hs
    rw [if_pos hs]
    have := item_read S o pay pay (Or.inl (by unfold encodeString; rw [if_pos hs])) hn h
    exact ⟨this.1, this.2.1, this.2.2.1⟩
  · rename_i hs
    rw [if_neg hs]
    have hr := header_read S o pay.length hn false [] (by simpa using h)
    simp only [Bool.false_eq_true, if_false] at hr
    refine ⟨hr.1, ?_, ?_⟩
    · unfold itemLen; rw [hr.1, hr.2.1, List.length_append]; ring
    · have := hr.2.2.2.1 trivial; omega

/-- First item and length of the second one, for a node that is a list of two strings, read through a window that
contains at least the headers. -/
theorem two_first {ns hp v : List ℕ} {Y rest : List ℕ} {W : ℕ}
    (hns : ns = nibblesOf (encodeList [encodeString hp, encodeString v] ++ Y) ++ rest) (hnib : ∀ x ∈ ns, x < 16)
    (hW : W ≤ ns.length) (hhp : hp.length ≤ 33) (hv : v.length ≤ 400)
    (hfit : 2 * ((lenHeader 0xc0 0xf7 [encodeString hp, encodeString v].flatten.length).length +
      (encodeString hp).length + (strHdr v).length) ≤ W) (h0 : 0 < W) :
    let S := cyc (ns.take W)
    itemNibbles S 0 = nibblesOf hp ∧ payLen S (itemOffset S 1) = 2 * v.length ∧
    byteAt S (itemOffset S 0) ≠ 0xc0 ∧ byteAt S (itemOffset S 1) ≠ 0xc0 := by
  intro S
  have hS : ∀ k, S k < 16 := cyc_lt (fun x hx => hnib x (List.mem_of_mem_take hx))
  set L := [encodeString hp, encodeString v].flatten.length with hL
  have hLle : L ≤ 500 := by
    have h1 := encodeString_length hp (by omega)
    have h2 : (encodeString v).length ≤ v.length + 3 := by
      obtain h | h : (encodeString v) = v ∨ (encodeString v) = lenHeader 0x80 0xb7 v.length ++ v := by
        unfold encodeString; split <;> simp
      · rw [h]; omega
      · rw [h, List.length_append]; have := lenHeader_length_le 0x80 0xb7 v.length 2 (by omega); omega
    simp [hL]; omega
  obtain ⟨t, ht⟩ := strHdr_prefix v
  have hr := win_reads (X := lenHeader 0xc0 0xf7 L ++ encodeString hp ++ strHdr v) (Y := t ++ Y) (rest := rest) (W := W)
    (ns := ns) (by
      rw [hns]
      congr 2
      unfold encodeList
      rw [← hL]
      simp [ht]) (by simp; omega) hW
  rw [nibblesOf_append, readsAt_append, nibblesOf_append, readsAt_append] at hr
  obtain ⟨⟨hr1, hr2⟩, hr3⟩ := hr
  obtain ⟨-, -, ho, -⟩ := list_start hS (by omega) hr1
  rw [nibblesOf_length, Nat.zero_add, ← ho] at hr2
  have hi := item_read S _ _ hp (Or.inl rfl) (by omega) hr2
  have ho1 : itemOffset S 1 = itemOffset S 0 + 2 * (encodeString hp).length := by
    show itemOffset S 0 + itemLen S (itemOffset S 0) = _
    rw [hi.2.1]
  rw [List.length_append, nibblesOf_length, nibblesOf_length, Nat.zero_add, ← ho, ← ho1] at hr3
  have hi2 := str_read (by omega) hr3
  exact ⟨itemNibbles_of_reads hi.1 hi.2.2.2.1, hi2.1, hi.2.2.1, hi2.2.2⟩

/-- Walking over padding bytes: they are one-byte items. -/
theorem pad_walk {S : ℕ → ℕ} {n i o m : ℕ} (hm : m ≤ (kpad n).length) (ho : itemOffset S i = o)
    (h : ReadsAt S o (nibblesOf ((kpad n).take m))) :
    (∀ j, j < m → itemOffset S (i + j) = o + 2 * j ∧ byteAt S (itemOffset S (i + j)) ≠ 0xc0) := by
  have hb : ∀ j (hj : j < m), byteAt S (o + 2 * j) = (kpad n)[j]'(by omega) := by
    intro j hj
    have e : (kpad n).take m = (kpad n).take j ++ (kpad n)[j]'(by omega) :: ((kpad n).drop (j + 1)).take (m - j - 1) := by
      conv_lhs => rw [← List.take_append_drop j ((kpad n).take m)]
      rw [List.take_take, min_eq_left hj.le, List.drop_take, List.drop_eq_getElem_cons (by omega)]
      congr 1
      rw [show m - j = (m - j - 1) + 1 by omega, List.take_succ_cons]
      simp
    rw [e, nibblesOf_append, readsAt_append, nibblesOf_length, List.length_take, min_eq_left (by omega)] at h
    exact byteAt_of_reads h.2
  intro j
  induction j with
  | zero =>
    intro hj
    refine ⟨by simpa using ho, ?_⟩
    have := hb 0 hj
    have h2 := (kpad_get n 0 (by omega)).1
    rw [Nat.add_zero, ho]
    simp only [Nat.mul_zero, Nat.add_zero] at this
    omega
  | succ j ih =>
    intro hj
    obtain ⟨e1, -⟩ := ih (by omega)
    have h1 := hb j (by omega)
    have h2 := (kpad_get n j (by omega)).2 (by omega)
    have hl : itemLen S (o + 2 * j) = 2 := by
      unfold itemLen hdrLen payLen
      simp only [h1]
      rw [if_pos h2, if_pos h2]
    have e : itemOffset S (i + (j + 1)) = o + 2 * (j + 1) := by
      rw [← Nat.add_assoc, itemOffset, e1, hl]; ring
    refine ⟨e, ?_⟩
    have h3 := hb (j + 1) hj
    have h4 := (kpad_get n (j + 1) (by omega)).1
    rw [e]
    omega

/-! ## Claimed kind = true kind -/

theorem verdict_false {S : ℕ → ℕ} {n : ℕ} (hc0 : ∀ i < n, byteAt S (itemOffset S i) ≠ 0xc0)
    (h : ListVerdict S n) : isList S 0 ∧ itemOffset S n = listHdr (byteAt S 0) + declared S := by
  unfold ListVerdict at h
  rw [emptyLists_zero S n hc0] at h
  by_cases h1 : isList S 0 <;> by_cases h2 : itemOffset S n = listHdr (byteAt S 0) + declared S
  · exact ⟨h1, h2⟩
  · rw [if_pos h1, if_neg h2] at h; omega
  · rw [if_neg h1, if_pos h2] at h; omega
  · rw [if_neg h1, if_neg h2] at h; omega

/-- The empty trie cannot be read as a node. -/
theorem empty_not {ns : List ℕ} (h : Shows ns .empty) (hnib : ∀ x ∈ ns, x < 16) {W n : ℕ} (hW : W ≤ ns.length)
    (hn : n < 100) (hfit : 2 + 2 * n ≤ W) (hv : ListVerdict (cyc (ns.take W)) n) : False := by
  obtain ⟨rest, hns⟩ := h
  rw [empty_encode, List.length_singleton] at hns
  have hk : (kpad 1).length = 135 := by rw [kpad_length]
  have hr := win_reads (X := [0x80] ++ (kpad 1).take n) (Y := (kpad 1).drop n) (ns := ns) (rest := rest) (by
    rw [hns, List.append_assoc, List.take_append_drop]) (W := W) (by simp [hk]; omega) hW
  rw [nibblesOf_append, readsAt_append] at hr
  have hb := byteAt_of_reads hr.1
  have ho : itemOffset (cyc (ns.take W)) 0 = 2 := by
    show listHdr _ = _
    rw [hb]; rfl
  have hw := pad_walk (n := 1) (i := 0) (m := n) (by omega) ho (by
    have := hr.2
    rwa [nibblesOf_length] at this)
  have := (verdict_false (fun i hi => by simpa using (hw i hi).2) hv).1
  unfold isList at this
  omega

/-- Reading a branch node through a window that shows its first two items. -/
theorem branch_not_two {ns : List ℕ} {f : Fin 16 → Trie} (hf : ∀ i, f i = .empty ∨ 32 ≤ (f i).encode.length)
    (h : Shows ns (.branch f)) (hnib : ∀ x ∈ ns, x < 16) {W : ℕ} (hW : W ≤ ns.length) (hfit : 136 ≤ W)
    (hv : ListVerdict (cyc (ns.take W)) 2) : False := by
  obtain ⟨rest, hns⟩ := h
  rw [branch_encode hf] at hns
  set Y := kpad (encodeList (branchItems f)).length with hY
  set L := (branchItems f).flatten.length with hL
  have hLle : L ≤ 529 := branchItems_flatten f
  set S := cyc (ns.take W) with hSd
  have hS : ∀ k, S k < 16 := cyc_lt (fun x hx => hnib x (List.mem_of_mem_take hx))
  have hsplit : branchItems f = encodeString (refPay (f 0)) :: encodeString (refPay (f 1)) :: (branchItems f).drop 2 := rfl
  have hl0 : (encodeString (refPay (f 0))).length ≤ 33 := by
    have h1 := refPay_length (f 0)
    have := encodeString_length (refPay (f 0)) (by omega)
    omega
  have hh := lenHeader_length_le 0xc0 0xf7 L 2 (by omega)
  have hs := strHdr_length (refPay (f 1)) 1 (by have := refPay_length (f 1); omega)
  obtain ⟨t, ht⟩ := strHdr_prefix (refPay (f 1))
  have hs1 : (strHdr (refPay (f 1))).length ≤ 1 := by
    unfold strHdr
    have := refPay_length (f 1)
    split
    · omega
    · unfold lenHeader; rw [if_pos (by omega)]; simp
  have hr := win_reads (X := lenHeader 0xc0 0xf7 L ++ encodeString (refPay (f 0)) ++ strHdr (refPay (f 1)))
    (Y := t ++ ((branchItems f).drop 2).flatten ++ Y) (rest := rest) (W := W) (ns := ns) (by
      rw [hns]
      congr 2
      unfold encodeList
      rw [← hL]
      conv_lhs => rw [hsplit]
      simp [ht]) (by simp; omega) hW
  rw [nibblesOf_append, readsAt_append, nibblesOf_append, readsAt_append] at hr
  obtain ⟨⟨hr1, hr2⟩, hr3⟩ := hr
  obtain ⟨-, hd, ho, hlh⟩ := list_start hS (by omega) hr1
  rw [nibblesOf_length, Nat.zero_add, ← ho] at hr2
  have hi := item_read S _ _ (refPay (f 0)) (Or.inl rfl) (by have := refPay_length (f 0); omega) hr2
  have ho1 : itemOffset S 1 = itemOffset S 0 + 2 * (encodeString (refPay (f 0))).length := by
    show itemOffset S 0 + itemLen S (itemOffset S 0) = _
    rw [hi.2.1]
  rw [List.length_append, nibblesOf_length, nibblesOf_length, Nat.zero_add, ← ho, ← ho1] at hr3
  have hi2 := str_read (by have := refPay_length (f 1); omega) hr3
  have ho2 : itemOffset S 2 = itemOffset S 1 + 2 * (encodeString (refPay (f 1))).length := by
    show itemOffset S 1 + itemLen S (itemOffset S 1) = _
    rw [hi2.2.1]
  have := (verdict_false (n := 2) (S := S) (fun i hi' => by
    rcases i with _ | _ | i
    · exact hi.2.2.1
    · exact hi2.2.2
    · omega) hv).2
  have hLs : L = (encodeString (refPay (f 0))).length + (encodeString (refPay (f 1))).length +
      ((branchItems f).drop 2).flatten.length := by
    rw [hL]
    conv_lhs => rw [hsplit]
    simp; omega
  have hlast : 0 < ((branchItems f).drop 2).flatten.length := by
    apply List.length_pos_of_ne_nil
    intro h0
    have hm : encodeString [] ∈ (branchItems f).drop 2 := by
      have : (branchItems f).drop 2 = ((List.finRange 16).map (fun i => encodeString (refPay (f i)))).drop 2 ++
          [encodeString []] := by
        unfold branchItems
        rw [List.drop_append_of_le_length (by simp)]
      rw [this]; simp
    have := List.flatten_eq_nil_iff.1 h0 _ hm
    exact absurd this (by decide)
  omega

/-- A node made of two strings cannot be read as a list of seventeen items. -/
theorem two_not_branch {ns hp v : List ℕ} {rest : List ℕ} {W : ℕ}
    (hns : ns = nibblesOf (encodeList [encodeString hp, encodeString v] ++
      kpad (encodeList [encodeString hp, encodeString v]).length) ++ rest) (hnib : ∀ x ∈ ns, x < 16)
    (hW : W ≤ ns.length) (hhp : hp.length < 256) (hv : v.length < 1000)
    (hlen : (encodeList [encodeString hp, encodeString v]).length ≤ 400)
    (hroom : (encodeList [encodeString hp, encodeString v]).length % 136 ≤ 121)
    (hfit : 1064 ≤ W) (hver : ListVerdict (cyc (ns.take W)) 17) : False := by
  set S := cyc (ns.take W) with hSd
  have hS : ∀ k, S k < 16 := cyc_lt (fun x hx => hnib x (List.mem_of_mem_take hx))
  set E := encodeList [encodeString hp, encodeString v] with hE
  have hkl := kpad_length E.length
  have hr := win_reads (X := E ++ (kpad E.length).take 15) (Y := (kpad E.length).drop 15) (rest := rest) (W := W) (ns := ns)
    (by rw [hns, List.append_assoc, List.take_append_drop]) (by simp; omega) hW
  rw [nibblesOf_append, readsAt_append, nibblesOf_length, Nat.zero_add] at hr
  have hfl : [encodeString hp, encodeString v].flatten.length ≤ E.length := by
    rw [hE]; unfold encodeList; rw [List.length_append]; omega
  have hL := listRead S hS [encodeString hp, encodeString v] [hp, v] (.cons (Or.inl rfl) (.cons (Or.inl rfl) .nil))
    (by omega) (by
      intro q hq
      simp only [List.mem_cons, List.not_mem_nil, or_false] at hq
      rcases hq with rfl | rfl <;> omega) hr.1
  have hfill := (verdict_false (fun i hi => hL.noc0 i hi) hL.verdict).2
  have ho2 : itemOffset S 2 = 2 * E.length := by rw [hE, ← hL.total]; exact hfill
  have hw := pad_walk (n := E.length) (i := 2) (m := 15) (by omega) ho2 hr.2
  have h17 := (verdict_false (n := 17) (S := S) (fun i hi => by
    rcases Nat.lt_or_ge i 2 with h | h
    · exact hL.noc0 i h
    · have := (hw (i - 2) (by omega)).2
      rwa [show 2 + (i - 2) = i by omega] at this) hver).2
  have := (hw 14 (by omega)).1
  have hmono := itemOffset_mono S (show 2 + 14 ≤ 17 by omega)
  have ht := hL.total
  rw [← hE] at ht
  omega

/-- Encodings of leaf and extension nodes as two strings. -/
theorem ext_encode {path : List ℕ} {c : Trie} (h : 32 ≤ c.encode.length) :
    (Trie.ext path c).encode = encodeList [encodeString (hexPrefix false path), encodeString (keccakBytes c.encode)] := by
  show encodeList [encodeString (hexPrefix false path), refOf c.encode] = _
  rw [refOf, if_neg (by omega)]

theorem leaf_encode (path v : List ℕ) :
    (Trie.leaf path v).encode = encodeList [encodeString (hexPrefix true path), encodeString v] := rfl

theorem keccak_enc_length (bs : List ℕ) : (encodeString (keccakBytes bs)).length ≤ 33 := by
  have := encodeString_length (keccakBytes bs) (by rw [keccakBytes_length]; norm_num)
  rw [keccakBytes_length] at this
  omega

theorem ext_len {path : List ℕ} {c : Trie} (h : 32 ≤ c.encode.length) (hp : path.length ≤ 63) :
    (Trie.ext path c).encode.length ≤ 68 := by
  rw [ext_encode h]
  have h1 := encodeString_length (hexPrefix false path) (by rw [hexPrefix_length]; omega)
  rw [hexPrefix_length] at h1
  have h2 := keccak_enc_length c.encode
  unfold encodeList
  have h3 : [encodeString (hexPrefix false path), encodeString (keccakBytes c.encode)].flatten.length ≤ 66 := by
    simp; omega
  have h4 := lenHeader_length_le 0xc0 0xf7 _ 1 (show
    [encodeString (hexPrefix false path), encodeString (keccakBytes c.encode)].flatten.length < 256 ^ 1 by omega)
  rw [List.length_append]
  omega

theorem leaf_v_len {path v : List ℕ} (h : (Trie.leaf path v).encode.length ≤ 400) : v.length ≤ 400 := by
  rw [leaf_encode] at h
  unfold encodeList at h
  rw [List.length_append] at h
  have : v.length ≤ (encodeString v).length := by
    unfold encodeString; split
    · exact le_rfl
    · simp
  simp at h
  omega

/-- A node accepted as a branch is a branch. -/
theorem branch_true {ns : List ℕ} {u : Trie} {n : ℕ} (h : Shows ns u) (hF : u.Fixed n) (hn : n ≤ 64)
    (hR : ∀ path v, u = .leaf path v → u.encode.length ≤ 400 ∧ u.encode.length % 136 ≤ 121)
    (hnib : ∀ x ∈ ns, x < 16) (hW : 1064 ≤ ns.length) (hv : ListVerdict (cyc (ns.take 1064)) 17) :
    ∃ f, u = .branch f ∧ ∀ i : Fin 16, payLen (cyc (ns.take 1064)) (itemOffset (cyc (ns.take 1064)) i.val) = 2 * (refPay (f i)).length ∧
      itemNibbles (cyc (ns.take 1064)) i.val = nibblesOf (refPay (f i)) := by
  cases u with
  | empty => exact (empty_not h hnib hW (by omega) (by omega) hv).elim
  | leaf path v =>
    exfalso
    obtain ⟨rest, hns⟩ := h
    obtain ⟨h1, h2⟩ := hR path v rfl
    have h3 := leaf_v_len h1
    rw [leaf_encode] at hns h1 h2
    exact two_not_branch hns hnib hW (by rw [hexPrefix_length]; have := hF.1; omega) (by omega) h1 h2 le_rfl hv
  | ext path c =>
    exfalso
    obtain ⟨rest, hns⟩ := h
    obtain ⟨h1, h2, h3, h4⟩ := hF
    have h5 := ext_len h4 (show path.length ≤ 63 by omega)
    rw [ext_encode h4] at hns h5
    exact two_not_branch hns hnib hW (by rw [hexPrefix_length]; omega) (by rw [keccakBytes_length]; omega)
      (by omega) (by omega) le_rfl hv
  | branch f =>
    obtain ⟨rest, hns⟩ := h
    have hf : ∀ i, f i = .empty ∨ 32 ≤ (f i).encode.length := fun i => (hF.2 i).2
    have hlen : (Trie.branch f).encode.length ≤ 532 := by
      rw [branch_encode hf]
      unfold encodeList
      have := branchItems_flatten f
      have h4 := lenHeader_length_le 0xc0 0xf7 _ 2 (show (branchItems f).flatten.length < 256 ^ 2 by omega)
      rw [List.length_append]; omega
    have hr := win_reads hns (by omega) hW
    rw [branch_encode hf] at hr
    have hL := listRead (cyc (ns.take 1064)) (cyc_lt (fun x hx => hnib x (List.mem_of_mem_take hx))) (branchItems f)
      (branchPays f) (branch_forall f) (by have := branchItems_flatten f; omega) (by
        intro q hq
        obtain ⟨k, hk⟩ := List.getElem?_of_mem hq
        rcases branchPays_mem f hk with ⟨-, j, rfl⟩ | ⟨-, rfl⟩
        · rcases refPay_length (f j) with h | h <;> rw [h] <;> norm_num
        · norm_num) hr
    exact ⟨f, rfl, fun i => hL.item i.val _ (branchPays_get f i)⟩

/-- A node accepted as an extension is an extension. -/
theorem ext_true {ns : List ℕ} {u : Trie} {n : ℕ} (h : Shows ns u) (hF : u.Fixed n) (hn : n ≤ 64)
    (hR : ∀ path v, u = .leaf path v → u.encode.length ≤ 400 ∧ u.encode.length % 136 ≤ 121)
    (hnib : ∀ x ∈ ns, x < 16) (hW : 136 ≤ ns.length) (hv : ListVerdict (cyc (ns.take 136)) 2)
    {path : List ℕ} (h0 : itemNibbles (cyc (ns.take 136)) 0 = hexPrefixNibbles false path) :
    ∃ c, u = .ext path c ∧ itemNibbles (cyc (ns.take 136)) 1 = nibblesOf (keccakBytes c.encode) ∧
      payLen (cyc (ns.take 136)) (itemOffset (cyc (ns.take 136)) 1) = 64 := by
  cases u with
  | empty => exact (empty_not h hnib hW (by omega) (by omega) hv).elim
  | leaf path' v =>
    exfalso
    obtain ⟨rest, hns⟩ := h
    obtain ⟨h1, h2⟩ := hR path' v rfl
    have h3 := leaf_v_len h1
    rw [leaf_encode] at hns h1 h2
    obtain ⟨hF1, hF2, hF3⟩ := hF
    have e1 := encodeString_length (hexPrefix true path') (by rw [hexPrefix_length]; omega)
    rw [hexPrefix_length] at e1
    have e2 := strHdr_length v 2 (by omega)
    have e3 : [encodeString (hexPrefix true path'), encodeString v].flatten.length ≤ 400 := by
      unfold encodeList at h1; rw [List.length_append] at h1; omega
    have e4 := lenHeader_length_le 0xc0 0xf7 _ 2 (show
      [encodeString (hexPrefix true path'), encodeString v].flatten.length < 256 ^ 2 by omega)
    have := (two_first hns hnib hW (by rw [hexPrefix_length]; omega) h3 (by omega) (by omega)).1
    rw [nibblesOf_hexPrefix _ _ hF2] at this
    rw [h0] at this
    have := (hexPrefixNibbles_inj hF2 this.symm).1
    cases this
  | ext path' c =>
    obtain ⟨rest, hns⟩ := h
    obtain ⟨h1, h2, h3, h4⟩ := hF
    have h5 := ext_len h4 (show path'.length ≤ 63 by omega)
    have hr := win_reads hns (by omega) hW
    rw [ext_encode h4] at hr h5
    have hfl : [encodeString (hexPrefix false path'), encodeString (keccakBytes c.encode)].flatten.length ≤ 68 := by
      unfold encodeList at h5; rw [List.length_append] at h5; omega
    have hL := listRead (cyc (ns.take 136)) (cyc_lt (fun x hx => hnib x (List.mem_of_mem_take hx))) _
      [hexPrefix false path', keccakBytes c.encode] (.cons (Or.inl rfl) (.cons (Or.inl rfl) .nil)) (by omega) (by
        intro q hq
        simp only [List.mem_cons, List.not_mem_nil, or_false] at hq
        rcases hq with rfl | rfl
        · rw [hexPrefix_length]; omega
        · rw [keccakBytes_length]; norm_num) hr
    obtain ⟨-, n0⟩ := hL.item 0 _ rfl
    obtain ⟨p1, n1⟩ := hL.item 1 _ rfl
    rw [nibblesOf_hexPrefix _ _ h2, h0] at n0
    obtain rfl := (hexPrefixNibbles_inj h2 n0.symm).2
    exact ⟨c, rfl, n1, by rw [p1, keccakBytes_length]⟩
  | branch f => exact (branch_not_two (fun i => (hF.2 i).2) h hnib hW le_rfl hv).elim

/-- A node accepted as a leaf is a leaf. -/
theorem leaf_true {ns : List ℕ} {u : Trie} {n mv : ℕ} (h : Shows ns u) (hF : u.Fixed n) (hn : n ≤ 63)
    (hR : ∀ path v, u = .leaf path v → u.encode.length ≤ 400 ∧ u.encode.length % 136 ≤ 121)
    (h66 : 66 ≤ mv) (hmv : mv ≤ 300) (hev : mv % 2 = 0)
    (hnib : ∀ x ∈ ns, x < 16) (hW : 74 + mv ≤ ns.length) (hv : ListVerdict (cyc (ns.take (74 + mv))) 2)
    (hvl : payLen (cyc (ns.take (74 + mv))) (itemOffset (cyc (ns.take (74 + mv))) 1) ≤ mv)
    {path : List ℕ} (h0 : itemNibbles (cyc (ns.take (74 + mv))) 0 = hexPrefixNibbles true path) :
    ∃ v, u = .leaf path v ∧ itemNibbles (cyc (ns.take (74 + mv))) 1 = nibblesOf v := by
  cases u with
  | empty => exact (empty_not h hnib hW (by omega) (by omega) hv).elim
  | leaf path' v =>
    obtain ⟨rest, hns⟩ := h
    obtain ⟨h1, h2⟩ := hR path' v rfl
    have h3 := leaf_v_len h1
    rw [leaf_encode] at hns h1 h2
    obtain ⟨hF1, hF2, hF3⟩ := hF
    have e1 := encodeString_length (hexPrefix true path') (by rw [hexPrefix_length]; omega)
    rw [hexPrefix_length] at e1
    have e2 := strHdr_length v 2 (by omega)
    have e3 : [encodeString (hexPrefix true path'), encodeString v].flatten.length ≤ 400 := by
      unfold encodeList at h1; rw [List.length_append] at h1; omega
    have e4 := lenHeader_length_le 0xc0 0xf7 _ 2 (show
      [encodeString (hexPrefix true path'), encodeString v].flatten.length < 256 ^ 2 by omega)
    obtain ⟨t0, t1, -, -⟩ := two_first hns hnib hW (by rw [hexPrefix_length]; omega) h3 (by omega) (by omega)
    rw [nibblesOf_hexPrefix _ _ hF2, h0] at t0
    obtain rfl := (hexPrefixNibbles_inj hF2 t0.symm).2
    rw [t1] at hvl
    have hvenc : (encodeString v).length ≤ v.length + 2 := by
      obtain h | h : (encodeString v) = v ∨ (encodeString v) = lenHeader 0x80 0xb7 v.length ++ v := by
        unfold encodeString; split <;> simp
      · rw [h]; omega
      · rw [h, List.length_append]; have := lenHeader_length_le 0x80 0xb7 v.length 1 (by omega); omega
    have hfl : [encodeString (hexPrefix true path'), encodeString v].flatten.length ≤ 35 + v.length := by
      simp; omega
    have e5 := lenHeader_length_le 0xc0 0xf7 _ 1 (show
      [encodeString (hexPrefix true path'), encodeString v].flatten.length < 256 ^ 1 by omega)
    have hr := win_reads hns (W := 74 + mv) (by unfold encodeList; rw [List.length_append]; omega) hW
    have hL := listRead (cyc (ns.take (74 + mv))) (cyc_lt (fun x hx => hnib x (List.mem_of_mem_take hx))) _
      [hexPrefix true path', v] (.cons (Or.inl rfl) (.cons (Or.inl rfl) .nil)) (by omega) (by
        intro q hq
        simp only [List.mem_cons, List.not_mem_nil, or_false] at hq
        rcases hq with rfl | rfl
        · rw [hexPrefix_length]; omega
        · omega) hr
    exact ⟨v, rfl, (hL.item 1 _ rfl).2⟩
  | ext path' c =>
    exfalso
    obtain ⟨rest, hns⟩ := h
    obtain ⟨h1, h2, h3, h4⟩ := hF
    have h5 := ext_len h4 (show path'.length ≤ 63 by omega)
    have hk := keccakBytes_length c.encode
    rw [ext_encode h4] at hns h5
    have e1 := encodeString_length (hexPrefix false path') (by rw [hexPrefix_length]; omega)
    rw [hexPrefix_length] at e1
    have e2 := strHdr_length (keccakBytes c.encode) 1 (by rw [keccakBytes_length]; norm_num)
    have e3 : [encodeString (hexPrefix false path'), encodeString (keccakBytes c.encode)].flatten.length ≤ 68 := by
      unfold encodeList at h5; rw [List.length_append] at h5; omega
    have e4 := lenHeader_length_le 0xc0 0xf7 _ 2 (show
      [encodeString (hexPrefix false path'), encodeString (keccakBytes c.encode)].flatten.length < 256 ^ 2 by omega)
    obtain ⟨t0, t1, -, -⟩ := two_first hns hnib hW (by rw [hexPrefix_length]; omega) (by omega) (by omega) (by omega)
    rw [nibblesOf_hexPrefix _ _ h2, h0] at t0
    have := (hexPrefixNibbles_inj h2 t0.symm).1
    cases this
  | branch f => exact (branch_not_two (fun i => (hF.2 i).2) h hnib hW (by omega) hv).elim

end Verif.Mpt
