import Verif.Mpt.Model
import Verif.Mpt.Spec
import Verif.Keccak.NibbleProps
import Verif.Rlp.Enc
import Verif.Limbs.Resplit

/-! Node hashing: what `NibblesToU64Array` + `Keccak256AsNibbles` computes (lemmas). -/

set_option linter.unusedSectionVars false

namespace Verif.Mpt
open Api Rlp Keccak Spec.Keccak Spec.Rlp Spec.Mpt
variable {p : ℕ} [Fact p.Prime]

theorem leNum_eq (l : List Bool) : leNum l = natOfBits l := by
  induction l with
  | nil => rfl
  | cons b l ih => simp [leNum, natOfBits, ih]

theorem packNibbles_length : ∀ ns : List ℕ, (packNibbles ns).length = ns.length / 2
  | [] => rfl
  | [_] => by simp [packNibbles]
  | a :: b :: t => by
    rw [packNibbles, List.length_cons, packNibbles_length t]
    simp only [List.length_cons]; omega

theorem packNibbles_lt : ∀ ns : List ℕ, (∀ x ∈ ns, x < 16) → ∀ b ∈ packNibbles ns, b < 256
  | [], _ => by simp [packNibbles]
  | [_], _ => by simp [packNibbles]
  | a :: b :: t, h => by
    intro x hx
    rw [packNibbles, List.mem_cons] at hx
    rcases hx with rfl | hx
    · have := h a (by simp); have := h b (by simp); omega
    · exact packNibbles_lt t (fun y hy => h y (by simp [hy])) x hx

theorem nibblesOf_pack : ∀ ns : List ℕ, (∀ x ∈ ns, x < 16) → ns.length % 2 = 0 → nibblesOf (packNibbles ns) = ns
  | [], _, _ => rfl
  | [_], _, h => by simp at h
  | a :: b :: t, h, hl => by
    have ha := h a (by simp)
    have hb := h b (by simp)
    rw [packNibbles, nibblesOf_cons, nibblesOf_pack t (fun y hy => h y (by simp [hy]))
      (by simp only [List.length_cons] at hl; omega)]
    simp only [List.cons_append, List.nil_append, List.cons.injEq, and_true]
    omega

theorem pack_nibblesOf (bs : List ℕ) : packNibbles (nibblesOf bs) = bs := by
  induction bs with
  | nil => rfl
  | cons b bs ih =>
    rw [nibblesOf_cons]
    simp only [List.cons_append, List.nil_append, packNibbles, ih, List.cons.injEq, and_true]
    omega

theorem digits4_eq (bs : List ℕ) (h : ∀ b ∈ bs, b < 256) : digitsOf 4 bs = nibblesOf bs := by
  induction bs with
  | nil => rfl
  | cons b bs ih =>
    rw [nibblesOf_cons, ← ih (fun x hx => h x (by simp [hx]))]
    have := h b (by simp)
    simp [digitsOf, byteDigits, List.range_succ]
    omega

theorem supplied_length (ns : List ℕ) (r : ℕ) (hr : r < 10) (hl : ns.length ≤ 2720) :
    (supplied ns r).length = (r + 1) * 1088 := by
  unfold supplied
  rw [List.length_take, bytesToBits_length, List.length_append, packNibbles_length, List.length_replicate]
  omega

theorem digestWords_length (d : List Bool) : (digestWords d).length = 4 := by simp [digestWords]

/-- nibble `k` of a bit string (least significant bit first) -/
def nib (d : List Bool) (k : ℕ) : ℕ := natOfBits ((d.drop (4 * k)).take 4)

theorem wordNibbles_eq (hp : 2 ^ 64 ≤ p) (l : List Bool) (hl : l.length = 64) :
    wordNibbles ((natOfBits l : ℕ) : F p) = some ((List.range 16).map fun j => ((nib l j : ℕ) : F p)) := by
  unfold wordNibbles
  rw [toBinary_natOfBits l 64 hl hp]
  simp only [Option.bind_eq_bind, Option.bind_some]
  apply mapM_some
  intro j _
  rw [← List.map_drop, ← List.map_take, fromBinary_ofB]
  rfl

theorem nibblesOf_digest (d : List Bool) (hd : d.length = 256) :
    nibblesOf (digestBytes d) = (List.range 64).map fun k => nib d (if k % 2 = 0 then k + 1 else k - 1) := by
  have key : ∀ n ≤ 32, nibblesOf ((List.range n).map fun k => leNum ((d.drop (8 * k)).take 8)) =
      (List.range (2 * n)).map fun k => nib d (if k % 2 = 0 then k + 1 else k - 1) := by
    intro n
    induction n with
    | zero => intro _; rfl
    | succ n ih =>
      intro hn
      rw [List.range_succ, List.map_append, nibblesOf_append, ih (by omega),
        show 2 * (n + 1) = 2 * n + 1 + 1 by ring, List.range_succ, List.range_succ, List.map_append, List.map_append,
        List.append_assoc]
      congr 1
      simp only [List.map_cons, List.map_nil, nibblesOf_cons, List.cons_append, List.nil_append,
        show nibblesOf [] = [] from rfl]
      have e : (d.drop (8 * n)).take 8 = (d.drop (4 * (2 * n))).take 4 ++ (d.drop (4 * (2 * n + 1))).take 4 := by
        rw [show (8 : ℕ) = 4 + 4 by norm_num, List.take_add, List.drop_drop]
        congr 3 <;> ring
      have hlt := natOfBits_lt ((d.drop (4 * (2 * n))).take 4)
      have hlen : ((d.drop (4 * (2 * n))).take 4).length = 4 := by simp; omega
      rw [hlen] at hlt
      rw [leNum_eq, e, natOfBits_append, hlen]
      have h1 : ¬ (2 * n + 1) % 2 = 0 := by omega
      have h2 : (2 * n) % 2 = 0 := by omega
      rw [if_pos h2, if_neg h1]
      simp only [nib, List.cons.injEq, and_true]
      constructor
      · omega
      · rw [show 2 * n + 1 - 1 = 2 * n by omega]; omega
  exact key 32 le_rfl

theorem squeeze_length (m : List Bool) : (squeeze m).length = 256 := by simp [squeeze]

theorem digestAt_take (m : List Bool) (n : ℕ) (h : n * 1088 ≤ m.length) :
    digestAt m n = squeeze (m.take (n * 1088)) := by
  have hl : (m.take (n * 1088)).length = n * 1088 := by rw [List.length_take]; omega
  have e : m = m.take (n * 1088) ++ m.drop (n * 1088) := (List.take_append_drop _ _).symm
  unfold squeeze
  rw [hl, Nat.mul_div_cancel _ (by norm_num)]
  conv_lhs => rw [e]
  unfold digestAt
  apply List.map_congr_left
  intro i _
  rw [sponge_append _ _ _ (by rw [hl])]

theorem keccak256_squeeze (m : List Bool) : keccak256 m = squeeze (pad m) := rfl

/-- Full functional description of node hashing on nibbles. -/
theorem hashNode_eq (hp : 2 ^ 128 < p) (ns : List ℕ) (hnib : ∀ x ∈ ns, x < 16) (h16 : ns.length % 16 = 0)
    (hlen : ns.length ≤ 2720) (inLen ri : F p) :
    hashNode inLen (ns.map (Nat.cast : ℕ → F p)) ri = if ri.val < 10 then
      some ⟨(nibblesOf (digestBytes (squeeze (supplied ns ri.val)))).map Nat.cast,
        if inLen.val < 63 then inLen else 64⟩ else none := by
  have hp64 : 2 ^ 64 ≤ p := by omega
  set bs := packNibbles ns with hbs
  have hbl : bs.length = ns.length / 2 := packNibbles_length ns
  have hb : ∀ b ∈ bs, b < 256 := packNibbles_lt ns hnib
  have hns : ns = digitsOf 4 bs ++ [] := by
    rw [digits4_eq bs hb, hbs, nibblesOf_pack ns hnib (by omega), List.append_nil]
  have hw := C22_nibblesToWords hp64 10 bs [] hb (by omega) (by simp)
  rw [← hns, if_neg (by omega)] at hw
  unfold hashNode
  rw [show ns.map (Nat.cast : ℕ → F p) = ns.map (fun d : ℕ => (d : F p)) from rfl, hw]
  simp only [Option.bind_eq_bind, Option.bind_some]
  set m := bytesToBits (bs ++ List.replicate (1360 - ns.length / 2) 0) with hm
  have hml : m.length = 10 * 1088 := by
    rw [hm, bytesToBits_length, List.length_append, List.length_replicate]; omega
  unfold keccak256AsNibbles
  rw [keccak256Words_eq hp64 10 (by norm_num) (by omega) m]
  · by_cases hri : ri.val < 10
    · rw [if_pos hri, if_pos hri]
      simp only [Option.bind_eq_bind, Option.bind_some]
      set d := digestAt m (ri.val + 1) with hd
      have hdl : d.length = 256 := by simp [hd, digestAt]
      have hds : d = squeeze (supplied ns ri.val) := by
        rw [hd, digestAt_take _ _ (by rw [hml]; omega)]; rfl
      have h1 : ((digestWords d).map fun n => ((n : ℕ) : F p)).mapM wordNibbles =
          some ((List.range 4).map fun i => (List.range 16).map fun j => ((nib d (16 * i + j) : ℕ) : F p)) := by
        unfold digestWords
        rw [List.map_map]
        have : ∀ l : List ℕ, (∀ i ∈ l, i < 4) → (l.map ((fun n : ℕ => (n : F p)) ∘ fun i =>
            natOfBits ((d.drop (64 * i)).take 64))).mapM wordNibbles =
            some (l.map fun i => (List.range 16).map fun j => ((nib d (16 * i + j) : ℕ) : F p)) := by
          intro l hl
          induction l with
          | nil => rfl
          | cons i l ih =>
            have hi := hl i (by simp)
            rw [List.map_cons, List.mapM_cons, ih (fun x hx => hl x (by simp [hx]))]
            simp only [Function.comp]
            rw [wordNibbles_eq hp64 _ (by simp; omega)]
            simp only [Option.bind_eq_bind, Option.bind_some, Option.pure_def, List.map_cons, Option.some.injEq,
              List.cons.injEq, and_true]
            apply List.map_congr_left
            intro j hj
            have hj := List.mem_range.1 hj
            unfold nib
            rw [List.drop_take, List.take_take, List.drop_drop, show min 4 (64 - 4 * j) = 4 by omega,
              show 64 * i + 4 * j = 4 * (16 * i + j) by ring]
        exact this _ (fun i hi => List.mem_range.1 hi)
      rw [h1]
      simp only [Option.bind_some]
      have hfl : ((List.range 4).map fun i => (List.range 16).map fun j => ((nib d (16 * i + j) : ℕ) : F p)).flatten =
          (List.range 64).map fun k => ((nib d k : ℕ) : F p) := by
        rfl
      rw [hfl]
      rw [mapM_some (g := fun k => ((nib d (if k % 2 = 0 then k + 1 else k - 1) : ℕ) : F p))]
      · simp only [Option.bind_some, Option.pure_def, Option.some.injEq, HashOut.mk.injEq]
        constructor
        · rw [← hds, nibblesOf_digest d hdl, List.map_map]; rfl
        · have h63 : ((63 : ℕ) : F p).val = 63 := ZMod.val_natCast_of_lt (by omega)
          rw [lessThan_eq (by omega)]
          have : ((63 : F p)).val = 63 := by simpa using h63
          rw [this]
          split <;> ring
      · intro k hk
        have hk := List.mem_range.1 hk
        rw [List.getElem?_map, List.getElem?_range (by split <;> omega)]
        rfl
    · rw [if_neg hri, if_neg hri]; rfl
  · intro r i
    rw [blockWord_eq _ _ _ i.isLt (by rw [hml]; omega)]
    unfold blocksOf
    rw [List.getD_eq_getElem _ _ (by simp; omega), List.getElem_map, List.getElem_range]
    congr 1
    rw [hm, show 64 * (17 * r.val + i.val) = 8 * (8 * (17 * r.val + i.val)) by ring]
    conv_rhs => rw [show (64 : ℕ) = 8 * 8 by norm_num]
    rw [← bytesToBits_take_drop]
    by_cases hk : 8 * (17 * r.val + i.val) < bs.length
    · rw [List.drop_append_of_le_length (by omega), List.take_append_of_le_length (by simp; omega)]
    · rw [List.drop_of_length_le (by omega), List.take_nil, List.drop_append,
        List.drop_of_length_le (by omega), List.nil_append, List.drop_replicate, List.take_replicate,
        bytesToBits_zeros, natOfBits_replicate_false]
      rfl

/-- Success of the nibble packer forces the cells to be nibbles. -/
theorem nibblesToWords_nib {width : ℕ} {row ws : List (F p)} (h : nibblesToWords width row = some ws)
    (h16 : row.length % 16 = 0) : (∀ x ∈ row, x.val < 16) ∧ row.length ≤ 272 * width := by
  unfold nibblesToWords at h
  obtain ⟨u, hu, h⟩ := Option.bind_eq_some_iff.1 h
  have hul := mapM_length hu
  rw [List.length_range] at hul
  split at h
  · cases h
  · rename_i hw
    refine ⟨?_, by omega⟩
    intro x hx
    obtain ⟨k, hk, rfl⟩ := List.mem_iff_getElem.1 hx
    have hf := List.forall₂_iff_get.1 (mapM_eq_some.1 hu)
    have hi : k / 16 < (List.range (row.length * 4 / 64)).length := by simp; omega
    have h1 := hf.2 (k / 16) hi (by omega)
    simp only [List.get_eq_getElem, List.getElem_range] at h1
    obtain ⟨bits, hbits, -⟩ := Option.bind_eq_some_iff.1 h1
    -- every step of the inner loop succeeds
    have key : ∀ n ≤ 8, ∀ init out : List (F p), (List.range n).foldlM (fun (acc : List (F p)) j => do
        let h1 ← row[k / 16 * 16 + j * 2]?
        let part1 ← toBinary h1 4
        let h2 ← row[k / 16 * 16 + j * 2 + 1]?
        let part2 ← toBinary h2 4
        pure (acc ++ (part2 ++ part1))) init = some out →
        ∀ m < 2 * n, ∀ y, row[k / 16 * 16 + m]? = some y → y.val < 16 := by
      intro n
      induction n with
      | zero => intro _ _ _ _ m hm; omega
      | succ n ih =>
        intro hn init out hfold m hm y hy
        rw [List.range_succ, List.foldlM_append] at hfold
        obtain ⟨mid, hmid, hlast⟩ := Option.bind_eq_some_iff.1 hfold
        by_cases hlt : m < 2 * n
        · exact ih (by omega) _ _ hmid m hlt y hy
        · simp only [List.foldlM_cons, List.foldlM_nil] at hlast
          obtain ⟨o, ho, -⟩ := Option.bind_eq_some_iff.1 hlast
          obtain ⟨a, ha, ho⟩ := Option.bind_eq_some_iff.1 ho
          obtain ⟨b1, hb1, ho⟩ := Option.bind_eq_some_iff.1 ho
          obtain ⟨c, hc, ho⟩ := Option.bind_eq_some_iff.1 ho
          obtain ⟨b2, hb2, ho⟩ := Option.bind_eq_some_iff.1 ho
          unfold toBinary at hb1 hb2
          rcases Nat.lt_or_ge m (2 * n + 1) with hq | hq
          · obtain rfl : m = 2 * n := by omega
            rw [show k / 16 * 16 + 2 * n = k / 16 * 16 + n * 2 by ring, ha] at hy
            obtain rfl := Option.some.inj hy
            by_contra hcon
            rw [if_neg (by simpa using hcon)] at hb1; cases hb1
          · obtain rfl : m = 2 * n + 1 := by omega
            rw [show k / 16 * 16 + (2 * n + 1) = k / 16 * 16 + n * 2 + 1 by ring, hc] at hy
            obtain rfl := Option.some.inj hy
            by_contra hcon
            rw [if_neg (by simpa using hcon)] at hb2; cases hb2
    exact key 8 le_rfl _ _ hbits (k % 16) (by omega) _ (by
      rw [show k / 16 * 16 + k % 16 = k by omega, List.getElem?_eq_getElem hk])

theorem map_val_cast (row : List (F p)) : (row.map ZMod.val).map (Nat.cast : ℕ → F p) = row := by
  rw [List.map_map]
  conv_rhs => rw [← List.map_id row]
  apply List.map_congr_left
  intro x _
  simp

/-- What a satisfiable node hash tells. -/
theorem hashNode_some (hp : 2 ^ 128 < p) {row : List (F p)} (h16 : row.length % 16 = 0) {inLen ri : F p}
    {h : HashOut p} (hh : hashNode inLen row ri = some h) :
    (∀ x ∈ row.map ZMod.val, x < 16) ∧ row.length ≤ 2720 ∧ ri.val < 10 ∧
    h.output = (nibblesOf (digestBytes (squeeze (supplied (row.map ZMod.val) ri.val)))).map Nat.cast ∧
    h.outLen = if inLen.val < 63 then inLen else 64 := by
  have hn : (∀ x ∈ row, x.val < 16) ∧ row.length ≤ 272 * 10 := by
    unfold hashNode at hh
    obtain ⟨ws, hws, -⟩ := Option.bind_eq_some_iff.1 hh
    exact nibblesToWords_nib hws h16
  have hnib : ∀ x ∈ row.map ZMod.val, x < 16 := by
    intro x hx
    obtain ⟨y, hy, rfl⟩ := List.mem_map.1 hx
    exact hn.1 y hy
  have h := hashNode_eq hp (row.map ZMod.val) hnib (by simpa using h16) (by simp; omega) inLen ri
  rw [map_val_cast, hh] at h
  split at h
  · rename_i hri
    obtain rfl := Option.some.inj h
    exact ⟨hnib, by omega, hri, rfl, rfl⟩
  · cases h

theorem digestBytes_length (d : List Bool) : (digestBytes d).length = 32 := by simp [digestBytes]

theorem digestBytes_lt (d : List Bool) : ∀ b ∈ digestBytes d, b < 256 := by
  intro b hb
  obtain ⟨k, -, rfl⟩ := List.mem_map.1 hb
  rw [leNum_eq]
  refine lt_of_lt_of_le (natOfBits_lt _) ?_
  calc 2 ^ _ ≤ 2 ^ 8 := Nat.pow_le_pow_right (by norm_num) (by simp)
    _ = 256 := by norm_num

theorem digestBytes_inj {a b : List Bool} (ha : a.length = 256) (hb : b.length = 256)
    (h : digestBytes a = digestBytes b) : a = b := by
  have hk : ∀ k < 32, (a.drop (8 * k)).take 8 = (b.drop (8 * k)).take 8 := by
    intro k hk
    have := congrArg (fun l => l.getD k 0) h
    simp only [digestBytes, List.getD_eq_getElem?_getD, List.getElem?_map, List.getElem?_range hk,
      Option.map_some, Option.getD_some, leNum_eq] at this
    exact natOfBits_inj (by simp [ha, hb]) this
  apply List.ext_getElem (by omega)
  intro i h1 h2
  have := congrArg (fun l => l[i % 8]?) (hk (i / 8) (by omega))
  simp only [List.getElem?_take_of_lt (show i % 8 < 8 by omega), List.getElem?_drop,
    show 8 * (i / 8) + i % 8 = i by omega, List.getElem?_eq_getElem h1, List.getElem?_eq_getElem h2,
    Option.some.injEq] at this
  exact this

theorem nibblesOf_inj {a b : List ℕ} (h : nibblesOf a = nibblesOf b) : a = b := by
  rw [← pack_nibblesOf a, h, pack_nibblesOf]

theorem cast_nib_inj (hp : 16 ≤ p) {a b : List ℕ} (ha : ∀ x ∈ a, x < 16) (hb : ∀ x ∈ b, x < 16)
    (h : a.map (Nat.cast : ℕ → F p) = b.map Nat.cast) : a = b := by
  have hl : a.length = b.length := by simpa using congrArg List.length h
  apply List.ext_getElem hl
  intro i h1 h2
  have := congrArg (fun l => l[i]?) h
  simp only [List.getElem?_map, List.getElem?_eq_getElem h1, List.getElem?_eq_getElem h2, Option.map_some,
    Option.some.injEq] at this
  have e1 := ha _ (List.getElem_mem h1)
  have e2 := hb _ (List.getElem_mem h2)
  exact (natCast_inj_of_lt (by omega) (by omega)).1 this

/-- If a supplied row hashes to the hash of `enc`, then it is the padded `enc`, or there is a collision. -/
theorem supplied_eq_or_collision (hp : 2 ^ 128 < p) {ns : List ℕ} {r : ℕ} (hr : r < 10) (hl : ns.length ≤ 2720)
    (enc : List ℕ)
    (h : (nibblesOf (digestBytes (squeeze (supplied ns r)))).map (Nat.cast : ℕ → F p) =
      (nibblesOf (keccakBytes enc)).map Nat.cast) :
    supplied ns r = pad (bytesToBits enc) ∨ Collision (supplied ns r) (pad (bytesToBits enc)) := by
  by_cases he : supplied ns r = pad (bytesToBits enc)
  · exact Or.inl he
  · refine Or.inr ⟨?_, ?_, he, ?_⟩
    · rw [supplied_length ns r hr hl]; omega
    · rw [← C20_pad101Bytes, bytesToBits_length]
      have := (C20_pad101Bytes_length enc).1; omega
    · have h1 := cast_nib_inj (by omega) (nibblesOf_lt _ (digestBytes_lt _)) (nibblesOf_lt _ (digestBytes_lt _)) h
      have h2 := nibblesOf_inj h1
      rw [keccak256_squeeze] at h2
      exact digestBytes_inj (squeeze_length _) (squeeze_length _) h2

end Verif.Mpt
