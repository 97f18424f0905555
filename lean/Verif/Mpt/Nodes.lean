import Verif.Mpt.Model
import Verif.Mpt.Spec
import Verif.Rlp.ListProps2

/-! What the three node checkers compute on nibble inputs (lemmas). -/

set_option linter.unusedSectionVars false
set_option linter.unusedVariables false

namespace Verif.Mpt
open Api Rlp Keccak Spec.Rlp Spec.Mpt
variable {p : ℕ} [Fact p.Prime]

/-- Acceptance condition of `RlpArrayCheck` (C13): list header, empty-list items and exact fill must add up to two. -/
def ListVerdict (S : ℕ → ℕ) (n : ℕ) : Prop :=
  (if isList S 0 then 1 else 0) + emptyLists S n +
    (if itemOffset S n = listHdr (byteAt S 0) + declared S then 1 else 0) = 2

instance (S : ℕ → ℕ) (n : ℕ) : Decidable (ListVerdict S n) := by unfold ListVerdict; infer_instance

theorem payLen_even (S : ℕ → ℕ) (o : ℕ) : payLen S o % 2 = 0 := by
  unfold payLen; simp only; split_ifs <;> omega

theorem itemNibbles_length (S : ℕ → ℕ) (i : ℕ) : (itemNibbles S i).length = payLen S (itemOffset S i) := by
  simp [itemNibbles]

theorem isZero_bool (x : F p) : isZero x = 0 ∨ isZero x = 1 := by
  unfold isZero; split <;> simp

theorem rlpArrayCheck_bool {a : ArrayCheck} {inp : List (F p)} {n : F p} {r : AcOut p}
    (h : rlpArrayCheck a inp n = some r) : r.out = 0 ∨ r.out = 1 := by
  unfold rlpArrayCheck at h
  obtain ⟨x, -, h⟩ := Option.bind_eq_some_iff.1 h
  obtain ⟨y, -, h⟩ := Option.bind_eq_some_iff.1 h
  have := (Option.some.inj h).symm
  subst this
  exact isZero_bool _

/-- All that is needed about the list checker when every item is active. -/
theorem list_facts (hp : 2 ^ 128 < p) (a : ArrayCheck) (hwf : a.WF) (inp : List (F p)) (S : ℕ → ℕ)
    (hc : CellsOf (inp.take a.maxHexLen) a.maxHexLen S) (n : ℕ) (hn : n = a.maxFields)
    (hfix : ∀ i, i + 1 < n → mn a i ≠ mx a i) (r : AcOut p)
    (hr : rlpArrayCheck a inp ((n : ℕ) : F p) = some r) :
    r.out = (if ListVerdict S n then 1 else 0) ∧
    r.total = ((listHdr (byteAt S 0) + declared S : ℕ) : F p) ∧
    r.lens.length = n ∧ r.fields.length = n ∧
    (∀ i < n, r.lens[i]? = some ((payLen S (itemOffset S i) : ℕ) : F p) ∧
      r.fields[i]? = some ((inp.take a.maxHexLen).rotate
        (itemOffset S i + hdrLen (byteAt S (itemOffset S i))))) := by
  have hv : ((n : ℕ) : F p).val = n := val_natCast_lt (by have := hwf.fields; omega)
  have h := arrayCheck_exact' hp a hwf inp S hc ((n : ℕ) : F p) (by rw [hv]; omega)
    (fun i hi he => absurd he (hfix i (by rw [hv] at hi; exact hi))) r hr
  rw [hv] at h
  refine ⟨?_, h.2.1, by rw [h.2.2.1, hn], by rw [h.2.2.2.1, hn], h.2.2.2.2.1⟩
  by_cases hL : ListVerdict S n
  · rw [if_pos hL]; exact h.1.2 hL
  · rw [if_neg hL]
    rcases rlpArrayCheck_bool hr with h0 | h1
    · exact h0
    · exact absurd (h.1.1 h1) hL

theorem rot_take {cells : List (F p)} {n : ℕ} {S : ℕ → ℕ} (hc : CellsOf cells n S) (o k : ℕ) (hk : k ≤ n) :
    (cells.rotate o).take k = (List.range k).map fun j => ((S (o + j) : ℕ) : F p) := by
  apply List.ext_getElem?
  intro i
  rcases Nat.lt_or_ge i k with h | h
  · rw [List.getElem?_take_of_lt h, hc.rot o i (by omega)]
    simp [List.getElem?_range h]
  · rw [List.getElem?_eq_none (by simp; omega), List.getElem?_eq_none (by simp; omega)]

theorem item_take {cells : List (F p)} {n : ℕ} {S : ℕ → ℕ} (hc : CellsOf cells n S) (i : ℕ)
    (hk : payLen S (itemOffset S i) ≤ n) :
    (cells.rotate (itemOffset S i + hdrLen (byteAt S (itemOffset S i)))).take (payLen S (itemOffset S i)) =
      (itemNibbles S i).map (Nat.cast : ℕ → F p) := by
  rw [rot_take hc _ _ hk]; simp [itemNibbles]

theorem item_drop {cells : List (F p)} {n : ℕ} {S : ℕ → ℕ} (hc : CellsOf cells n S) (i k : ℕ)
    (hk : payLen S (itemOffset S i) - k ≤ n) :
    (cells.rotate (itemOffset S i + hdrLen (byteAt S (itemOffset S i)) + k)).take (payLen S (itemOffset S i) - k) =
      ((itemNibbles S i).drop k).map (Nat.cast : ℕ → F p) := by
  rw [rot_take hc _ _ hk]
  apply List.ext_getElem?
  intro j
  rw [List.getElem?_map, List.getElem?_map, List.getElem?_drop, itemNibbles, List.getElem?_map]
  rcases Nat.lt_or_ge j (payLen S (itemOffset S i) - k) with h | h
  · rw [List.getElem?_range h, List.getElem?_range (by omega)]
    simp [Nat.add_assoc]
  · rw [List.getElem?_eq_none (by simp; omega), List.getElem?_eq_none (by simp; omega)]
    simp

/-- Path prefix condition, as numbers. -/
def PrefixOk (S : ℕ → ℕ) (odd even pl : ℕ) : Prop :=
  let o := itemOffset S 0 + hdrLen (byteAt S (itemOffset S 0))
  (pl = 1 ∧ S o = odd) ∨ (pl = 2 ∧ S o = even ∧ S (o + 1) = 0)

instance (S : ℕ → ℕ) (a b c : ℕ) : Decidable (PrefixOk S a b c) := by unfold PrefixOk; infer_instance

theorem val_eq_iff {x : F p} {n : ℕ} (hn : n < p) : x = ((n : ℕ) : F p) ↔ x.val = n := by
  constructor
  · rintro rfl; exact val_natCast_lt hn
  · rintro rfl; simp

theorem prefixCheck_eq (hp : 2 ^ 128 < p) (S : ℕ → ℕ) (hS : ∀ k, S k < 16) (odd even : ℕ) (ho : odd < 16)
    (he : even < 16) (pl : F p) :
    prefixCheck (odd : F p) (even : F p) pl
      ((S (itemOffset S 0 + hdrLen (byteAt S (itemOffset S 0))) : ℕ) : F p)
      ((S (itemOffset S 0 + hdrLen (byteAt S (itemOffset S 0)) + 1) : ℕ) : F p) =
      if PrefixOk S odd even pl.val then 1 else 0 := by
  have h1 : pl = 1 ↔ pl.val = 1 := by
    have := val_eq_iff (x := pl) (n := 1) (by omega); simpa using this
  have h2 : pl = 2 ↔ pl.val = 2 := by
    have := val_eq_iff (x := pl) (n := 2) (by omega); simpa using this
  have c : ∀ a b : ℕ, a < 16 → b < 16 → (((a : ℕ) : F p) = ((b : ℕ) : F p) ↔ a = b) :=
    fun a b ha hb => natCast_inj_of_lt (by omega) (by omega)
  have c0 : ∀ a : ℕ, a < 16 → (((a : ℕ) : F p) = 0 ↔ a = 0) := by
    intro a ha; have := c a 0 ha (by omega); simpa using this
  unfold prefixCheck PrefixOk
  simp only [equal_eq]
  simp only [h1, h2, c _ _ (hS _) ho, c _ _ (hS _) he, c0 _ (hS _)]
  by_cases e1 : pl.val = 1
  · simp [e1]
  · by_cases e2 : pl.val = 2
    · simp [e2]
      split_ifs <;> simp_all
    · simp [e1, e2]

theorem cast_sub_val (hp : 2 ^ 128 < p) {l m : ℕ} (hl : l < 2 ^ 65) (hm : m < 2 ^ 65) {x : F p} (hx : x.val < 4) :
    (((l : ℕ) : F p) - x).val ≤ m ↔ x.val ≤ l ∧ l - x.val ≤ m := by
  have hlv : ((l : ℕ) : F p).val = l := val_natCast_lt (by omega)
  rcases Nat.lt_or_ge l x.val with h | h
  · have e : ((l : ℕ) : F p) - x = -(((x.val - l : ℕ) : ℕ) : F p) := by
      rw [Nat.cast_sub h.le]; simp
    have hv : (((x.val - l : ℕ) : ℕ) : F p).val = x.val - l := val_natCast_lt (by omega)
    have hne : (((x.val - l : ℕ) : ℕ) : F p) ≠ 0 := by
      intro h0; rw [h0] at hv; simp at hv; omega
    rw [e]
    haveI : NeZero (((x.val - l : ℕ) : ℕ) : F p) := ⟨hne⟩
    rw [ZMod.val_neg_of_ne_zero, hv]
    omega
  · rw [val_sub_of_le (by rw [hlv]; exact h), hlv]
    omega

theorem cast_sub_eq {l : ℕ} {x : F p} (h : x.val ≤ l) : ((l : ℕ) : F p) - x = ((l - x.val : ℕ) : F p) := by
  rw [Nat.cast_sub h]; simp

theorem prefixOk_hex {S : ℕ → ℕ} {lf : Bool} {pl : ℕ} (hpl : pl ≤ payLen S (itemOffset S 0))
    (h : PrefixOk S (if lf then 3 else 1) (if lf then 2 else 0) pl) :
    itemNibbles S 0 = hexPrefixNibbles lf ((itemNibbles S 0).drop pl) := by
  have hev := payLen_even S (itemOffset S 0)
  have hlen := itemNibbles_length S 0
  have hg : ∀ j < payLen S (itemOffset S 0), (itemNibbles S 0)[j]? =
      some (S (itemOffset S 0 + hdrLen (byteAt S (itemOffset S 0)) + j)) := by
    intro j hj; simp [itemNibbles, List.getElem?_range hj]
  unfold hexPrefixNibbles
  simp only [List.length_drop, hlen]
  rcases h with ⟨rfl, h1⟩ | ⟨rfl, h1, h2⟩
  · rw [if_pos (by omega)]
    have := hg 0 (by omega)
    rcases hI : itemNibbles S 0 with _ | ⟨a, t⟩
    · rw [hI] at hlen; simp at hlen; omega
    · rw [hI] at this
      simp only [List.getElem?_cons_zero, Nat.add_zero, Option.some.injEq] at this
      rw [this, h1]; cases lf <;> rfl
  · rw [if_neg (by omega)]
    have t0 := hg 0 (by omega)
    have t1 := hg 1 (by omega)
    rcases hI : itemNibbles S 0 with _ | ⟨a, _ | ⟨b, t⟩⟩
    · rw [hI] at hlen; simp at hlen; omega
    · rw [hI] at hlen; simp at hlen; omega
    · rw [hI] at t0 t1
      simp only [List.getElem?_cons_zero, List.getElem?_cons_succ, Nat.add_zero, Option.some.injEq] at t0 t1
      rw [t0, t1, h1, h2]; cases lf <;> rfl

theorem hex_prefixOk {S : ℕ → ℕ} {lf : Bool} {path : List ℕ} (h : itemNibbles S 0 = hexPrefixNibbles lf path) :
    PrefixOk S (if lf then 3 else 1) (if lf then 2 else 0) (if path.length % 2 = 1 then 1 else 2) ∧
    (itemNibbles S 0).drop (if path.length % 2 = 1 then 1 else 2) = path ∧
    payLen S (itemOffset S 0) = path.length + (if path.length % 2 = 1 then 1 else 2) := by
  have hlen := itemNibbles_length S 0
  have hg : ∀ j < payLen S (itemOffset S 0), (itemNibbles S 0)[j]? =
      some (S (itemOffset S 0 + hdrLen (byteAt S (itemOffset S 0)) + j)) := by
    intro j hj; simp [itemNibbles, List.getElem?_range hj]
  rw [h] at hlen hg ⊢
  unfold hexPrefixNibbles at hlen hg ⊢
  simp only at hlen hg ⊢
  by_cases hpar : path.length % 2 = 1
  · simp only [if_pos hpar] at hlen hg ⊢
    simp only [List.length_cons] at hlen
    have t0 := hg 0 (by omega)
    simp only [List.getElem?_cons_zero, Nat.add_zero, Option.some.injEq] at t0
    refine ⟨Or.inl ⟨rfl, ?_⟩, rfl, by omega⟩
    rw [← t0]; cases lf <;> rfl
  · simp only [if_neg hpar] at hlen hg ⊢
    simp only [List.length_cons] at hlen
    have t0 := hg 0 (by omega)
    have t1 := hg 1 (by omega)
    simp only [List.getElem?_cons_zero, List.getElem?_cons_succ, Nat.add_zero, Option.some.injEq] at t0 t1
    refine ⟨Or.inr ⟨rfl, ?_, t1.symm⟩, rfl, by omega⟩
    rw [← t0]

/-- indicator -/
def ind (P : Prop) [Decidable P] : ℕ := if P then 1 else 0

theorem ind_le (P : Prop) [Decidable P] : ind P ≤ 1 := by unfold ind; split <;> omega
theorem ind_eq_one (P : Prop) [Decidable P] : ind P = 1 ↔ P := by unfold ind; split <;> simp_all
theorem ind_cast (P : Prop) [Decidable P] : ((ind P : ℕ) : F p) = if P then 1 else 0 := by
  unfold ind; split <;> simp

theorem ind_mul (P Q : Prop) [Decidable P] [Decidable Q] :
    ((if P then (1 : F p) else 0) * (if Q then 1 else 0)) = if P ∧ Q then 1 else 0 := by
  by_cases P <;> by_cases Q <;> simp_all

theorem extParams_wf (mk : ℕ) (hmk : mk < 2 ^ 20) : (extParams mk).WF := by
  have hb : ∀ m, m < 2 ^ 30 → logCeil m ≤ 30 := by
    intro m hm
    rw [logCeil_eq_size m (hm.trans (by norm_num))]
    exact Nat.size_le.2 hm
  have h1 := hb (extMaxRlp mk) (by unfold extMaxRlp; omega)
  have h2 := hb (mk + 2) (by omega)
  have h3 := hb 64 (by omega)
  have e : (extParams mk).maxHexLen = 72 + mk := by simp [extParams, extMaxRlp]; omega
  refine ⟨?_, by simp [extParams], by simp [extParams], ?_, ?_, ?_, by simp [extParams], ?_⟩
  · rw [e]; simp only [extParams, prefixMax]; omega
  · intro i hi; simp only [extParams] at hi ⊢
    rcases i with _ | _ | i <;> simp <;> omega
  · intro i hi; simp only [extParams] at hi ⊢
    rcases i with _ | _ | i
    · simp; omega
    · simp
    · omega
  · intro i hi
    rw [e]
    simp only [extParams] at hi ⊢
    rcases i with _ | _ | i
    · simp [lenPrefixMaxHexs]; omega
    · simp [lenPrefixMaxHexs]; omega
    · omega
  · rw [e]; omega

theorem leafParams_wf (mk mv : ℕ) (hmk : mk < 2 ^ 20) (hmv : mv < 2 ^ 20) (h64 : 64 ≤ mv) : (leafParams mk mv).WF := by
  have hb : ∀ m, m < 2 ^ 30 → logCeil m ≤ 30 := by
    intro m hm
    rw [logCeil_eq_size m (hm.trans (by norm_num))]
    exact Nat.size_le.2 hm
  have h1 := hb (leafMaxRlp mk mv) (by unfold leafMaxRlp; omega)
  have h2 := hb (mk + 2) (by omega)
  have h3 := hb mv (by omega)
  have e : (leafParams mk mv).maxHexLen = 10 + mk + mv := by simp [leafParams, leafMaxRlp]; omega
  refine ⟨?_, by simp [leafParams], by simp [leafParams], ?_, ?_, ?_, by simp [leafParams], ?_⟩
  · rw [e]; simp only [leafParams, prefixMax]; omega
  · intro i hi; simp only [leafParams] at hi ⊢
    rcases i with _ | _ | i <;> simp <;> omega
  · intro i hi; simp only [leafParams] at hi ⊢
    rcases i with _ | _ | i
    · simp; omega
    · simp; omega
    · omega
  · intro i hi
    rw [e]
    simp only [leafParams] at hi ⊢
    rcases i with _ | _ | i
    · simp [lenPrefixMaxHexs]; omega
    · simp [lenPrefixMaxHexs]; omega
    · omega
  · rw [e]; omega

theorem branchParams_wf : branchParams.WF := by decide

/-- the key part common to the leaf and extension checks -/
theorem key_part (hp : 2 ^ 128 < p) {cells : List (F p)} {n : ℕ} {S : ℕ → ℕ} (hc : CellsOf cells n S)
    (mk : ℕ) (hmk : mk < 2 ^ 20) (hmn : mk ≤ n) (hn : n < 2 ^ 60) (key : List (F p)) (hk : mk ≤ key.length)
    (hkp : key.length < 2 ^ 63) (pl : F p) {β : Type} (g : F p → Option β) :
    ((shiftLeft n 0 2 (cells.rotate (itemOffset S 0 + hdrLen (byteAt S (itemOffset S 0)))) pl).bind fun fr =>
      (arrayEqual key fr mk (((payLen S (itemOffset S 0) : ℕ) : F p) - pl)).bind g) =
    if pl.val ≤ 3 ∧ pl.val ≤ payLen S (itemOffset S 0) ∧ payLen S (itemOffset S 0) - pl.val ≤ mk then
      g (if key.take (payLen S (itemOffset S 0) - pl.val) =
        ((itemNibbles S 0).drop pl.val).map (Nat.cast : ℕ → F p) then 1 else 0)
    else none := by
  have hplv : pl = ((pl.val : ℕ) : F p) := by simp
  have hsh : shiftLeft n 0 2 (cells.rotate (itemOffset S 0 + hdrLen (byteAt S (itemOffset S 0)))) pl =
      if pl.val < 4 then some (cells.rotate (itemOffset S 0 + hdrLen (byteAt S (itemOffset S 0)) + pl.val)) else none := by
    conv_lhs => rw [hplv]
    rw [shift_eq cells n _ 2 S hc pl.val (by omega) (by omega) (by omega) (ZMod.val_lt pl)]
    simp [show Nat.size 2 = 2 by decide]
  rw [hsh]
  by_cases h4 : pl.val < 4
  · rw [if_pos h4]
    simp only [Option.bind_some]
    have hlt := payLen_lt S hc.nib (itemOffset S 0)
    rw [arrayEqual_eq _ _ _ _ hk (by simp [hc.len]; omega) (by omega) (by simp [hc.len]; omega)]
    simp only [cast_sub_val hp hlt (show mk < 2 ^ 65 by omega) h4]
    by_cases h5 : pl.val ≤ payLen S (itemOffset S 0) ∧ payLen S (itemOffset S 0) - pl.val ≤ mk
    · rw [if_pos h5, if_pos (show pl.val ≤ 3 ∧ pl.val ≤ payLen S (itemOffset S 0) ∧
        payLen S (itemOffset S 0) - pl.val ≤ mk from ⟨by omega, h5⟩)]
      simp only [Option.bind_some]
      have : (((payLen S (itemOffset S 0) : ℕ) : F p) - pl).val = payLen S (itemOffset S 0) - pl.val := by
        rw [cast_sub_eq h5.1, val_natCast_lt (by omega)]
      rw [this, item_drop hc 0 pl.val (by omega)]
    · rw [if_neg h5, if_neg (fun h => h5 h.2)]; rfl
  · rw [if_neg h4, if_neg (fun h => h4 (by omega))]; rfl

open Classical in
/-- Complete description of `CheckExtension`, once the list gadget is satisfied. -/
theorem checkExtension_eq (hp : 2 ^ 128 < p) (mk : ℕ) (hmk : mk < 2 ^ 20) (keyLen : F p) (key : List (F p))
    (refLen : F p) (refs rlp : List (F p)) (pl : F p) (S : ℕ → ℕ)
    (hc : CellsOf (rlp.take (extMaxRlp mk)) (extMaxRlp mk) S)
    (hk : mk ≤ key.length) (hkp : key.length < 2 ^ 63) (hrf : 64 ≤ refs.length) (hrp : refs.length < 2 ^ 63) :
    checkExtension mk keyLen key refLen refs rlp pl =
      if (rlpArrayCheck (extParams mk) rlp ((2 : ℕ) : F p)).isSome ∧
        (pl.val ≤ 3 ∧ pl.val ≤ payLen S (itemOffset S 0) ∧ payLen S (itemOffset S 0) - pl.val ≤ mk) ∧
        payLen S (itemOffset S 1) ≤ 64 then
      some ⟨((ind (ListVerdict S 2) + ind (PrefixOk S 1 0 pl.val) +
          ind (key.take (payLen S (itemOffset S 0) - pl.val) =
            ((itemNibbles S 0).drop pl.val).map (Nat.cast : ℕ → F p) ∧
            keyLen.val = payLen S (itemOffset S 0) - pl.val) +
          ind (refs.take (payLen S (itemOffset S 1)) = (itemNibbles S 1).map (Nat.cast : ℕ → F p) ∧
            refLen.val = payLen S (itemOffset S 1)) : ℕ) : F p),
        ((listHdr (byteAt S 0) + declared S : ℕ) : F p)⟩
      else none := by
  unfold checkExtension
  rcases hr : rlpArrayCheck (extParams mk) rlp ((2 : ℕ) : F p) with _ | r
  · simp
  obtain ⟨h1, h2, h3, h4, h5⟩ := list_facts hp (extParams mk) (extParams_wf mk hmk) rlp S hc 2 rfl
    (by intro i hi; obtain rfl : i = 0 := by omega
        simp [mn, mx, extParams]) r hr
  simp only [Option.bind_eq_bind, Option.bind_some, Option.isSome_some, true_and]
  rw [(h5 0 (by omega)).1, (h5 0 (by omega)).2, (h5 1 (by omega)).1, (h5 1 (by omega)).2]
  simp only [Option.bind_some]
  have hmx : (extParams mk).maxHexLen = extMaxRlp mk := rfl
  rw [hmx]
  have hbig : 2 ≤ extMaxRlp mk := by unfold extMaxRlp; omega
  rw [hc.rot _ 0 (by omega), hc.rot _ 1 (by omega)]
  simp only [Option.bind_some, Nat.add_zero]
  have hpc := prefixCheck_eq hp S hc.nib 1 0 (by omega) (by omega) pl
  simp only [Nat.cast_one, Nat.cast_zero] at hpc
  rw [hpc]
  have key := key_part hp hc mk hmk (by unfold extMaxRlp; omega) (by unfold extMaxRlp; omega) key hk hkp pl
    (fun matched => (arrayEqual refs ((rlp.take (extMaxRlp mk)).rotate
      (itemOffset S 1 + hdrLen (byteAt S (itemOffset S 1)))) 64 ((payLen S (itemOffset S 1) : ℕ) : F p)).bind
      fun refMatched => pure (⟨r.out + (if PrefixOk S 1 0 pl.val then 1 else 0) +
        matched * equal keyLen (((payLen S (itemOffset S 0) : ℕ) : F p) - pl) +
        refMatched * equal refLen ((payLen S (itemOffset S 1) : ℕ) : F p), r.total⟩ : NodeOut p))
  refine Eq.trans key ?_
  by_cases hA : pl.val ≤ 3 ∧ pl.val ≤ payLen S (itemOffset S 0) ∧ payLen S (itemOffset S 0) - pl.val ≤ mk
  · rw [if_pos hA]
    have hl1 := payLen_lt S hc.nib (itemOffset S 1)
    have hl0 := payLen_lt S hc.nib (itemOffset S 0)
    rw [arrayEqual_eq _ _ _ _ hrf (by simp [hc.len]; unfold extMaxRlp; omega) (by omega)
      (by simp [hc.len]; unfold extMaxRlp; omega), val_natCast_lt (by omega)]
    by_cases hB : payLen S (itemOffset S 1) ≤ 64
    · rw [if_pos hB, if_pos (show (pl.val ≤ 3 ∧ pl.val ≤ payLen S (itemOffset S 0) ∧
        payLen S (itemOffset S 0) - pl.val ≤ mk) ∧ payLen S (itemOffset S 1) ≤ 64 from ⟨hA, hB⟩)]
      simp only [Option.bind_some, Option.pure_def]
      rw [item_take hc 1 (by unfold extMaxRlp; omega), cast_sub_eq hA.2.1, equal_eq, equal_eq]
      simp only [val_eq_iff (p := p) (show payLen S (itemOffset S 1) < p by omega),
        val_eq_iff (p := p) (show payLen S (itemOffset S 0) - pl.val < p by omega)]
      rw [ind_mul, ind_mul, h1, h2]
      push_cast
      simp only [ind_cast]
    · rw [if_neg hB, Option.bind_none, if_neg (show ¬ ((pl.val ≤ 3 ∧ pl.val ≤ payLen S (itemOffset S 0) ∧
        payLen S (itemOffset S 0) - pl.val ≤ mk) ∧ payLen S (itemOffset S 1) ≤ 64) from fun h => hB h.2)]
  · rw [if_neg hA, if_neg (show ¬ ((pl.val ≤ 3 ∧ pl.val ≤ payLen S (itemOffset S 0) ∧
        payLen S (itemOffset S 0) - pl.val ≤ mk) ∧ payLen S (itemOffset S 1) ≤ 64) from fun h => hA h.1)]

theorem and_ite (P Q : Prop) [Decidable P] [Decidable Q] :
    Api.and (if P then (1 : F p) else 0) (if Q then 1 else 0) = some (if P ∧ Q then 1 else 0) := by
  unfold Api.and assertBool
  by_cases P <;> by_cases Q <;> simp_all

theorem or_ite (P Q : Prop) [Decidable P] [Decidable Q] :
    Api.or (if P then (1 : F p) else 0) (if Q then 1 else 0) = some (if P ∨ Q then 1 else 0) := by
  unfold Api.or assertBool
  by_cases P <;> by_cases Q <;> simp_all

theorem select_ite (P : Prop) [Decidable P] (x y : F p) :
    Api.select (if P then (1 : F p) else 0) x y = some (if P then x else y) := by
  unfold Api.select
  by_cases P <;> simp_all

theorem one_sub_ite (P : Prop) [Decidable P] : (1 : F p) - (if P then 1 else 0) = if ¬ P then 1 else 0 := by
  by_cases P <;> simp_all

theorem leaf_arith (A B C D Z : Prop) [Decidable A] [Decidable B] [Decidable C] [Decidable D] [Decidable Z] :
    (if Z then (if A then (1 : F p) else 0) + (if B then 1 else 0) + 2 else
      (if A then (1 : F p) else 0) + (if B then 1 else 0) + (if C then 1 else 0) + (if D then 1 else 0)) =
    ((ind A + ind B + (if Z then 2 else ind C + ind D) : ℕ) : F p) := by
  by_cases h : Z
  · rw [if_pos h, if_pos h]; push_cast; rw [ind_cast, ind_cast]
  · rw [if_neg h, if_neg h]; push_cast; rw [ind_cast, ind_cast, ind_cast, ind_cast, add_assoc, add_assoc]

/-- The claimed value is the zero value: `80` followed by 64 zero nibbles. -/
def ZeroValue (values : List (F p)) : Prop := values.take 2 = [8, 0] ∧ (values.drop 2).take 64 = List.replicate 64 0

instance (v : List (F p)) : Decidable (ZeroValue v) := by unfold ZeroValue; infer_instance

theorem zero_part (hp : 2 ^ 128 < p) (values : List (F p)) (h66 : 66 ≤ values.length) (hvp : values.length < 2 ^ 63) :
    isZeroValueCheck values = some (if ZeroValue values then 1 else 0) := by
  have h2 : (2 : F p).val = 2 := by
    have := val_natCast_lt (p := p) (a := 2) (by omega); simpa using this
  have h64 : (64 : F p).val = 64 := by
    have := val_natCast_lt (p := p) (a := 64) (by omega); simpa using this
  have e1 : arrayEqual (values.take 2) [8, 0] 2 2 = some (if values.take 2 = [8, 0] then 1 else 0) := by
    rw [arrayEqual_eq _ _ _ _ (by simp; omega) (by simp) (by simp; omega) (by simp; omega), h2, if_pos le_rfl]
    simp only [List.take_take, Nat.min_self]; rfl
  have e2 : arrayEqual (values.drop 2) (List.replicate 64 0) 64 64 =
      some (if (values.drop 2).take 64 = List.replicate 64 0 then 1 else 0) := by
    rw [arrayEqual_eq _ _ _ _ (by simp; omega) (by simp) (by simp; omega) (by simp; omega), h64, if_pos le_rfl,
      List.take_of_length_le (l := List.replicate 64 (0 : F p)) (by simp)]
  unfold isZeroValueCheck
  rw [e1, e2]
  simp only [Option.bind_eq_bind, Option.bind_some]
  rw [and_ite]
  rfl

open Classical in
/-- Complete description of `CheckLeaf`. -/
theorem checkLeaf_eq (hp : 2 ^ 128 < p) (mk mv : ℕ) (hmk : mk < 2 ^ 20) (hmv : mv < 2 ^ 20) (h66 : 66 ≤ mv)
    (keyLen : F p) (key values rlp : List (F p)) (pl : F p) (S : ℕ → ℕ)
    (hc : CellsOf (rlp.take (leafMaxRlp mk mv)) (leafMaxRlp mk mv) S)
    (hk : key.length = mk) (hv : values.length = mv) :
    checkLeaf mk mv keyLen key values rlp pl =
      if (rlpArrayCheck (leafParams mk mv) rlp ((2 : ℕ) : F p)).isSome ∧
        (pl.val ≤ 3 ∧ pl.val ≤ payLen S (itemOffset S 0) ∧ payLen S (itemOffset S 0) - pl.val ≤ mk) ∧
        payLen S (itemOffset S 1) ≤ mv then
      some ⟨((ind (ListVerdict S 2) + ind (PrefixOk S 3 2 pl.val) +
          (if ZeroValue values ∧ ¬ key.take (payLen S (itemOffset S 0) - pl.val) =
            ((itemNibbles S 0).drop pl.val).map (Nat.cast : ℕ → F p) then 2 else
          ind (key.take (payLen S (itemOffset S 0) - pl.val) =
            ((itemNibbles S 0).drop pl.val).map (Nat.cast : ℕ → F p) ∧
            keyLen.val = payLen S (itemOffset S 0) - pl.val) +
          ind (values.take (payLen S (itemOffset S 1)) = (itemNibbles S 1).map (Nat.cast : ℕ → F p))) : ℕ) : F p),
        ((listHdr (byteAt S 0) + declared S : ℕ) : F p), ((payLen S (itemOffset S 1) : ℕ) : F p)⟩
      else none := by
  unfold checkLeaf
  rw [assertEq, if_pos (by rw [hk]), assertEq, if_pos (by rw [hv])]
  rw [zero_part hp values (by omega) (by omega)]
  simp only [Option.bind_eq_bind, Option.bind_some]
  rcases hr : rlpArrayCheck (leafParams mk mv) rlp ((2 : ℕ) : F p) with _ | r
  · simp
  obtain ⟨h1, h2, h3, h4, h5⟩ := list_facts hp (leafParams mk mv) (leafParams_wf mk mv hmk hmv (by omega)) rlp S hc 2 rfl
    (by intro i hi; obtain rfl : i = 0 := by omega
        simp [mn, mx, leafParams]) r hr
  simp only [Option.bind_some, Option.isSome_some, true_and]
  rw [(h5 0 (by omega)).1, (h5 0 (by omega)).2, (h5 1 (by omega)).1, (h5 1 (by omega)).2]
  simp only [Option.bind_some]
  have hmx : (leafParams mk mv).maxHexLen = leafMaxRlp mk mv := rfl
  rw [hmx]
  have hmr : leafMaxRlp mk mv = 10 + mk + mv := by unfold leafMaxRlp; omega
  rw [hc.rot _ 0 (by omega), hc.rot _ 1 (by omega)]
  simp only [Option.bind_some, Nat.add_zero]
  have hpc := prefixCheck_eq hp S hc.nib 3 2 (by omega) (by omega) pl
  simp only [Nat.cast_ofNat] at hpc
  rw [hpc]
  have hkp := key_part hp hc mk hmk (by omega) (by omega) key hk.ge (by omega) pl
    (fun matched => (Api.and (if ZeroValue values then 1 else 0)
        (1 - matched)).bind fun ne => (arrayEqual values ((rlp.take (leafMaxRlp mk mv)).rotate
      (itemOffset S 1 + hdrLen (byteAt S (itemOffset S 1)))) mv ((payLen S (itemOffset S 1) : ℕ) : F p)).bind
      fun vm => (Api.select ne (r.out + (if PrefixOk S 3 2 pl.val then 1 else 0) + 2)
        (r.out + (if PrefixOk S 3 2 pl.val then 1 else 0) +
        matched * equal keyLen (((payLen S (itemOffset S 0) : ℕ) : F p) - pl) + vm)).bind fun out =>
          pure (⟨out, r.total, ((payLen S (itemOffset S 1) : ℕ) : F p)⟩ : LeafOut p))
  refine Eq.trans hkp ?_
  by_cases hA : pl.val ≤ 3 ∧ pl.val ≤ payLen S (itemOffset S 0) ∧ payLen S (itemOffset S 0) - pl.val ≤ mk
  · rw [if_pos hA]
    have hl1 := payLen_lt S hc.nib (itemOffset S 1)
    have hl0 := payLen_lt S hc.nib (itemOffset S 0)
    rw [one_sub_ite, and_ite]
    simp only [Option.bind_some]
    rw [arrayEqual_eq _ _ _ _ hv.ge (by simp [hc.len]; omega) (by omega)
      (by simp [hc.len]; omega), val_natCast_lt (by omega)]
    by_cases hB : payLen S (itemOffset S 1) ≤ mv
    · rw [if_pos hB, if_pos (show (pl.val ≤ 3 ∧ pl.val ≤ payLen S (itemOffset S 0) ∧
        payLen S (itemOffset S 0) - pl.val ≤ mk) ∧ payLen S (itemOffset S 1) ≤ mv from ⟨hA, hB⟩)]
      simp only [Option.bind_some, Option.pure_def]
      rw [select_ite]
      simp only [Option.bind_some]
      rw [item_take hc 1 (by omega), cast_sub_eq hA.2.1, equal_eq]
      simp only [val_eq_iff (p := p) (show payLen S (itemOffset S 0) - pl.val < p by omega)]
      rw [ind_mul, h1, h2]
      refine congrArg some ?_
      have hout : ∀ a b c : F p, a = b → (⟨a, c, ((payLen S (itemOffset S 1) : ℕ) : F p)⟩ : LeafOut p) =
        ⟨b, c, ((payLen S (itemOffset S 1) : ℕ) : F p)⟩ := by rintro a b c rfl; rfl
      apply hout
      exact leaf_arith _ _ _ _ _
    · rw [if_neg hB, Option.bind_none, if_neg (show ¬ ((pl.val ≤ 3 ∧ pl.val ≤ payLen S (itemOffset S 0) ∧
        payLen S (itemOffset S 0) - pl.val ≤ mk) ∧ payLen S (itemOffset S 1) ≤ mv) from fun h => hB h.2)]
  · rw [if_neg hA, if_neg (show ¬ ((pl.val ≤ 3 ∧ pl.val ≤ payLen S (itemOffset S 0) ∧
        payLen S (itemOffset S 0) - pl.val ≤ mk) ∧ payLen S (itemOffset S 1) ≤ mv) from fun h => hA h.1)]

theorem branch_fix : ∀ i, i + 1 < 17 → mn branchParams i ≠ mx branchParams i := by
  have : ∀ i < 16, mn branchParams i ≠ mx branchParams i := by decide
  intro i hi
  exact this i (by omega)

/-- Complete description of `CheckBranch`. -/
theorem checkBranch_eq (hp : 2 ^ 128 < p) (nib refLen : F p) (refs rlp : List (F p)) (S : ℕ → ℕ)
    (hc : CellsOf (rlp.take 1064) 1064 S) (hrf : 64 ≤ refs.length) (hrp : refs.length < 2 ^ 63) :
    checkBranch nib refLen refs rlp =
      if (rlpArrayCheck branchParams rlp ((17 : ℕ) : F p)).isSome ∧ nib.val < 16 ∧ refLen.val ≤ 64 then
      some ⟨((ind (ListVerdict S 17) + ind (refs.take refLen.val = (List.range refLen.val).map fun j =>
          ((S (itemOffset S nib.val + hdrLen (byteAt S (itemOffset S nib.val)) + j) : ℕ) : F p)) +
          ind (refLen.val = payLen S (itemOffset S nib.val)) + 1 : ℕ) : F p),
        ((listHdr (byteAt S 0) + declared S : ℕ) : F p)⟩
      else none := by
  unfold checkBranch
  rcases hr : rlpArrayCheck branchParams rlp ((17 : ℕ) : F p) with _ | r
  · simp
  obtain ⟨h1, h2, h3, h4, h5⟩ := list_facts hp branchParams branchParams_wf rlp S hc 17 rfl branch_fix r hr
  have hmx : branchParams.maxHexLen = 1064 := rfl
  rw [hmx] at h5
  simp only [Option.bind_eq_bind, Option.bind_some, Option.isSome_some, true_and]
  have hin : ((List.range 64).mapM fun j => (List.range 16).mapM fun i => (r.fields[i]?).bind fun f => f[j]?) =
      some ((List.range 64).map fun j => (List.range 16).map fun i =>
        ((S (itemOffset S i + hdrLen (byteAt S (itemOffset S i)) + j) : ℕ) : F p)) := by
    apply mapM_some
    intro j hj
    apply mapM_some
    intro i hi
    rw [List.mem_range] at hi hj
    rw [(h5 i (by omega)).2]
    simp only [Option.bind_some]
    rw [hc.rot _ j (by omega)]
  have hln : ((List.range 16).mapM fun i => r.lens[i]?) =
      some ((List.range 16).map fun i => ((payLen S (itemOffset S i) : ℕ) : F p)) := by
    apply mapM_some
    intro i hi
    rw [List.mem_range] at hi
    exact (h5 i (by omega)).1
  rw [hin, hln]
  simp only [Option.bind_some]
  rw [multiplexer_eq _ _ _ _ (by omega) (by simp) (by
    intro row hrow
    rw [List.take_of_length_le (by simp)] at hrow
    obtain ⟨j, -, rfl⟩ := List.mem_map.1 hrow
    simp)]
  rw [multiplexer_single _ _ _ (by omega) (by simp)]
  by_cases hnib : nib.val < 16
  · simp only [if_pos hnib, Option.bind_some]
    rw [List.take_of_length_le (by simp), List.map_map]
    rw [arrayEqual_eq _ _ _ _ hrf (by simp) (by omega) (by simp; omega)]
    by_cases hB : refLen.val ≤ 64
    · rw [if_pos hB, if_pos (show nib.val < 16 ∧ refLen.val ≤ 64 from ⟨hnib, hB⟩)]
      simp only [Option.bind_some, Option.pure_def]
      have hl := payLen_lt S hc.nib (itemOffset S nib.val)
      have hg : ∀ g : ℕ → F p, ((List.range 16).map g).getD nib.val 0 = g nib.val := by
        intro g
        rw [List.getD_eq_getElem?_getD, List.getElem?_map, List.getElem?_range hnib]; rfl
      have hrow : ((List.range 64).map ((fun row : List (F p) => row.getD nib.val 0) ∘ fun j =>
          (List.range 16).map fun i => ((S (itemOffset S i + hdrLen (byteAt S (itemOffset S i)) + j) : ℕ) : F p))).take
            refLen.val = (List.range refLen.val).map fun j =>
          ((S (itemOffset S nib.val + hdrLen (byteAt S (itemOffset S nib.val)) + j) : ℕ) : F p) := by
        rw [← List.map_take, List.take_range, Nat.min_eq_left hB]
        apply List.map_congr_left
        intro j _
        exact hg _
      rw [hrow, h1, h2]
      simp only [List.getElem?_cons_zero, Option.bind_some]
      rw [hg, equal_eq]
      have e : ((payLen S (itemOffset S nib.val) : ℕ) : F p) = refLen ↔ refLen.val = payLen S (itemOffset S nib.val) := by
        rw [eq_comm]; exact val_eq_iff (by omega)
      simp only [e]
      push_cast
      simp only [ind_cast]
    · rw [if_neg hB, if_neg (show ¬ (nib.val < 16 ∧ refLen.val ≤ 64) from fun h => hB h.2)]; rfl
  · rw [if_neg hnib, if_neg (show ¬ (nib.val < 16 ∧ refLen.val ≤ 64) from fun h => hnib h.1)]; rfl

/-- Complete description of `CheckBranchForNonExistence`. -/
theorem checkBranchForNonExistence_eq (hp : 2 ^ 128 < p) (nib : F p) (rlp : List (F p)) (S : ℕ → ℕ)
    (hc : CellsOf (rlp.take 1064) 1064 S) :
    checkBranchForNonExistence nib rlp =
      if (rlpArrayCheck branchParams rlp ((17 : ℕ) : F p)).isSome ∧ nib.val < 17 then
      some (if ListVerdict S 17 ∧ payLen S (itemOffset S nib.val) = 0 then 1 else 0)
      else none := by
  unfold checkBranchForNonExistence
  rcases hr : rlpArrayCheck branchParams rlp ((17 : ℕ) : F p) with _ | r
  · simp
  obtain ⟨h1, h2, h3, h4, h5⟩ := list_facts hp branchParams branchParams_wf rlp S hc 17 rfl branch_fix r hr
  simp only [Option.bind_eq_bind, Option.bind_some, Option.isSome_some, true_and, muxSel]
  by_cases hn : nib.val < 17
  · rw [(h5 _ hn).1, if_pos hn]
    simp only [Option.bind_some, Option.pure_def]
    have hl := payLen_lt S hc.nib (itemOffset S nib.val)
    have hz : isZero ((payLen S (itemOffset S nib.val) : ℕ) : F p) =
        if payLen S (itemOffset S nib.val) = 0 then 1 else 0 := by
      unfold isZero
      have : (((payLen S (itemOffset S nib.val) : ℕ) : F p) = 0) ↔ payLen S (itemOffset S nib.val) = 0 := by
        have := natCast_inj_of_lt (p := p) (a := payLen S (itemOffset S nib.val)) (b := 0) (by omega) (by omega)
        simpa using this
      simp only [this]
    rw [hz, h1]
    refine congrArg some ?_
    have h2ne : (2 : F p) ≠ 0 := by
      have := natCast_inj_of_lt (p := p) (a := 2) (b := 0) (by omega) (by omega)
      simpa using this
    unfold isZero
    by_cases hA : ListVerdict S 17 <;> by_cases hB : payLen S (itemOffset S nib.val) = 0
    · simp only [hA, hB, if_true, and_self]; norm_num
    · simp only [hA, hB, if_true, if_false, and_false]
      rw [if_neg]; intro h; have : (1 : F p) = 0 := by linear_combination -h
      exact one_ne_zero this
    · simp only [hA, hB, if_true, if_false, false_and]
      rw [if_neg]; intro h; have : (1 : F p) = 0 := by linear_combination -h
      exact one_ne_zero this
    · simp only [hA, hB, if_false, and_self]
      rw [if_neg]; intro h; exact h2ne (by linear_combination -h)
  · rw [if_neg hn, List.getElem?_eq_none (by rw [h3]; omega)]; rfl

theorem ne_arith (hp : 2 ^ 128 < p) (P X : Prop) [Decidable P] [Decidable X] :
    equal ((if P then (1 : F p) else 0) + (if ¬ X then 1 else 0)) 2 = if P ∧ ¬ X then 1 else 0 := by
  have h2ne : (2 : F p) ≠ 0 := by
    have := natCast_inj_of_lt (p := p) (a := 2) (b := 0) (by omega) (by omega)
    simpa using this
  have h12 : (1 : F p) ≠ 2 := by
    have := natCast_inj_of_lt (p := p) (a := 1) (b := 2) (by omega) (by omega)
    simpa using this
  rw [equal_eq]
  by_cases hP : P <;> by_cases hX : X <;> simp [hP, hX, h12, h2ne.symm, one_add_one_eq_two]

/-- Complete description of `checkExtensionNodeNonExistence`. -/
theorem checkExtensionNonExistence_eq (hp : 2 ^ 128 < p) (mk : ℕ) (hmk : mk < 2 ^ 20) (key : List (F p)) (keyLen : F p)
    (rlp : List (F p)) (pl : F p) (S : ℕ → ℕ)
    (hc : CellsOf (rlp.take (extMaxRlp mk)) (extMaxRlp mk) S)
    (hk : mk ≤ key.length) (hkp : key.length < 2 ^ 63) :
    checkExtensionNonExistence mk key keyLen rlp pl =
      if (rlpArrayCheck (extParams mk) rlp ((2 : ℕ) : F p)).isSome ∧
        (pl.val ≤ 3 ∧ pl.val ≤ payLen S (itemOffset S 0) ∧ payLen S (itemOffset S 0) - pl.val ≤ mk) then
      some (if PrefixOk S 1 0 pl.val ∧ ¬ (key.take (payLen S (itemOffset S 0) - pl.val) =
            ((itemNibbles S 0).drop pl.val).map (Nat.cast : ℕ → F p) ∧
            keyLen.val = payLen S (itemOffset S 0) - pl.val) then 1 else 0)
      else none := by
  unfold checkExtensionNonExistence
  rcases hr : rlpArrayCheck (extParams mk) rlp ((2 : ℕ) : F p) with _ | r
  · simp
  obtain ⟨h1, h2, h3, h4, h5⟩ := list_facts hp (extParams mk) (extParams_wf mk hmk) rlp S hc 2 rfl
    (by intro i hi; obtain rfl : i = 0 := by omega
        simp [mn, mx, extParams]) r hr
  simp only [Option.bind_eq_bind, Option.bind_some, Option.isSome_some, true_and]
  rw [(h5 0 (by omega)).1, (h5 0 (by omega)).2]
  simp only [Option.bind_some]
  have hmx : (extParams mk).maxHexLen = extMaxRlp mk := rfl
  rw [hmx]
  have hbig : 2 ≤ extMaxRlp mk := by unfold extMaxRlp; omega
  rw [hc.rot _ 0 (by omega), hc.rot _ 1 (by omega)]
  simp only [Option.bind_some, Nat.add_zero]
  have hpc := prefixCheck_eq hp S hc.nib 1 0 (by omega) (by omega) pl
  simp only [Nat.cast_one, Nat.cast_zero] at hpc
  rw [hpc]
  have key := key_part hp hc mk hmk (by unfold extMaxRlp; omega) (by unfold extMaxRlp; omega) key hk hkp pl
    (fun matched => (Api.and matched (equal keyLen (((payLen S (itemOffset S 0) : ℕ) : F p) - pl))).bind
      fun both => pure (equal ((if PrefixOk S 1 0 pl.val then 1 else 0) + (1 - both)) 2))
  refine Eq.trans key ?_
  by_cases hA : pl.val ≤ 3 ∧ pl.val ≤ payLen S (itemOffset S 0) ∧ payLen S (itemOffset S 0) - pl.val ≤ mk
  · rw [if_pos hA, if_pos hA]
    have hl0 := payLen_lt S hc.nib (itemOffset S 0)
    rw [cast_sub_eq hA.2.1, equal_eq]
    simp only [val_eq_iff (p := p) (show payLen S (itemOffset S 0) - pl.val < p by omega)]
    rw [and_ite]
    simp only [Option.bind_some, Option.pure_def]
    refine congrArg some ?_
    rw [one_sub_ite]
    exact ne_arith hp _ _
  · rw [if_neg hA, if_neg hA]

end Verif.Mpt
