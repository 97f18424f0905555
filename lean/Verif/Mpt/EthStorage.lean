import Verif.Mpt.EthSat
import Verif.Mpt.EthSlot
import Verif.Mpt.Forge

/-! # Property theorems C71: `CheckEthStorageProof` -/

set_option linter.unusedSectionVars false
set_option linter.unusedVariables false

namespace Verif.Mpt
open Api Rlp Keccak Spec.Keccak Spec.Rlp Spec.Mpt
variable {p : ℕ} [Fact p.Prime]

/-- The branch test of the override holds. -/
def BranchNE (S : ℕ → ℕ) (nib : ℕ) : Prop := ListVerdict S 17 ∧ payLen S (itemOffset S nib) = 0

/-- The extension test of the override holds. -/
def ExtNE (S : ℕ → ℕ) (pl : ℕ) (sel : List (F p)) (selLen : F p) : Prop :=
  PrefixOk S 1 0 pl ∧ ¬ (sel.take (payLen S (itemOffset S 0) - pl) = ((itemNibbles S 0).drop pl).map (Nat.cast : ℕ → F p) ∧
    selLen.val = payLen S (itemOffset S 0) - pl)

open Classical in
/-- Complete description of the storage override. -/
theorem storageOverride_eq (hp : 2 ^ 128 < p) (x : InclusionIn p) (sel : List (F p)) (selLen lo : F p) (S T : ℕ → ℕ)
    (hS : CellsOf (x.lastRlp.take 1064) 1064 S) (hT : CellsOf (x.lastRlp.take 136) 136 T) (hk : x.key.length = 64)
    (hd1 : 1 ≤ x.depth.val) (hd : x.depth.val ≤ 64) (hsel : sel.length = 64) :
    storageOverride 64 x sel selLen lo =
      if ((rlpArrayCheck branchParams x.lastRlp ((17 : ℕ) : F p)).isSome ∧ (x.key.getD (x.depth.val - 1) 0).val < 17) ∧
        (rlpArrayCheck (extParams 64) x.lastRlp ((2 : ℕ) : F p)).isSome ∧ (x.leafPl.val ≤ 3 ∧
          x.leafPl.val ≤ payLen T (itemOffset T 0) ∧ payLen T (itemOffset T 0) - x.leafPl.val ≤ 64) then
      some (if BranchNE S (x.key.getD (x.depth.val - 1) 0).val ∨ ExtNE T x.leafPl.val sel selLen then 4 else lo)
      else none := by
  have hdv : (x.depth - 1).val = x.depth.val - 1 := by
    rw [val_sub_of_le (by rw [val_one hp]; exact hd1), val_one hp]
  have hem : extMaxRlp 64 = 136 := rfl
  unfold storageOverride muxSel
  rw [hdv, List.getElem?_eq_getElem (show x.depth.val - 1 < x.key.length by omega),
    List.getD_eq_getElem _ _ (show x.depth.val - 1 < x.key.length by omega)]
  simp only [Option.bind_eq_bind, Option.bind_some]
  rw [checkBranchForNonExistence_eq hp _ _ S hS]
  rw [checkExtensionNonExistence_eq hp 64 (by norm_num) sel selLen x.lastRlp x.leafPl T (by rw [hem]; exact hT) (by omega) (by omega)]
  obtain ⟨A, hAe⟩ : ∃ A : Prop, A = ((rlpArrayCheck branchParams x.lastRlp ((17 : ℕ) : F p)).isSome ∧ (x.key[x.depth.val - 1]'(by omega)).val < 17) := ⟨_, rfl⟩
  obtain ⟨B, hBe⟩ : ∃ B : Prop, B = ((rlpArrayCheck (extParams 64) x.lastRlp ((2 : ℕ) : F p)).isSome ∧ (x.leafPl.val ≤ 3 ∧
          x.leafPl.val ≤ payLen T (itemOffset T 0) ∧ payLen T (itemOffset T 0) - x.leafPl.val ≤ 64)) := ⟨_, rfl⟩
  simp only [← hAe, ← hBe]
  by_cases hA : A
  swap
  · have hAB : ¬ (A ∧ B) := fun h => hA h.1
    simp only [if_neg hA, if_neg hAB, Option.bind_none]
  by_cases hB : B
  swap
  · have hAB : ¬ (A ∧ B) := fun h => hB h.2
    simp only [if_pos hA, if_neg hB, if_neg hAB, Option.bind_none, Option.bind_some]
  have hAB : A ∧ B := ⟨hA, hB⟩
  simp only [if_pos hA, if_pos hB, if_pos hAB, Option.bind_some]
  unfold BranchNE ExtNE
  rw [or_ite]
  simp only [Option.bind_some]
  rw [select_ite]
  congr

/-- The last-node check of a storage proof is that of an account proof followed by the override. -/
theorem last_true_parts (hp : 2 ^ 128 < p) {D mv : ℕ} (hD : D ≤ 10) {x : InclusionIn p} (hk : x.key.length = 64)
    (hst : D ≤ x.starts.length) (hd1 : 1 ≤ x.depth.val) (hdD : x.depth.val ≤ D) {lo vl : F p}
    (h : lastNodeCheck D 64 mv true x = some (lo, vl)) :
    ∃ lo' sel selLen, lastNodeCheck D 64 mv false x = some (lo', vl) ∧ storageOverride 64 x sel selLen lo' = some lo ∧
      sel.length = 64 ∧ (x.starts.getD (x.depth.val - 1) 0).val ≤ 64 ∧
      selLen.val = 64 - (x.starts.getD (x.depth.val - 1) 0).val ∧
      sel.take (64 - (x.starts.getD (x.depth.val - 1) 0).val) = x.key.drop (x.starts.getD (x.depth.val - 1) 0).val := by
  unfold lastNodeCheck at h
  obtain ⟨sr, hsr, h⟩ := Option.bind_eq_some_iff.1 h
  obtain ⟨m, hm, h⟩ := Option.bind_eq_some_iff.1 h
  obtain ⟨ls, hls, h⟩ := Option.bind_eq_some_iff.1 h
  obtain ⟨kc, hkc, h⟩ := Option.bind_eq_some_iff.1 h
  obtain ⟨⟨sel, selLen⟩, hsub, h⟩ := Option.bind_eq_some_iff.1 h
  obtain ⟨lc, hlc, h⟩ := Option.bind_eq_some_iff.1 h
  simp only [if_true] at h
  obtain ⟨o, ho, h⟩ := Option.bind_eq_some_iff.1 h
  obtain ⟨rfl, rfl⟩ := Prod.mk.inj (Option.some.inj h)
  have hfalse : lastNodeCheck D 64 mv false x = some (lc.output, lc.valueLength) := by
    unfold lastNodeCheck
    refine Option.bind_eq_some_iff.2 ⟨sr, hsr, Option.bind_eq_some_iff.2 ⟨m, hm, Option.bind_eq_some_iff.2 ⟨ls, hls,
      Option.bind_eq_some_iff.2 ⟨kc, hkc, Option.bind_eq_some_iff.2 ⟨(sel, selLen), hsub, Option.bind_eq_some_iff.2
      ⟨lc, hlc, ?_⟩⟩⟩⟩⟩⟩
    simp
  obtain ⟨-, rfl⟩ := mapM_cells hsr
  obtain ⟨-, rfl⟩ := mapM_cells hkc
  have hdv : (x.depth - 1).val = x.depth.val - 1 := by
    rw [val_sub_of_le (by rw [val_one hp]; exact hd1), val_one hp]
  rw [multiplexer_single _ _ _ (by omega) (by rw [List.length_take]; omega), hdv, if_pos (by omega)] at hm
  obtain rfl := Option.some.inj hm
  have hls : (x.starts.take D).getD (x.depth.val - 1) 0 = ls := by simpa using hls
  have hlse : ls = x.starts.getD (x.depth.val - 1) 0 := by
    rw [← hls, List.getD_eq_getElem?_getD, List.getElem?_take, if_pos (by omega), List.getD_eq_getElem?_getD]
  rw [List.take_of_length_le hk.le] at hsub
  have h64 : ((64 : ℕ) : F p).val = 64 := val_natCast_lt (by omega)
  have hC := C05_subArray 64 64 7 x.key ls ((64 : ℕ) : F p) (by rw [hk]) (by omega) (by omega) (by norm_num) le_rfl
    (by omega)
  rw [h64] at hC
  by_cases hcond : ls.val ≤ 64 ∧ 64 ≤ 64 ∧ 64 - ls.val ≤ 64
  swap
  · rw [hC.1 hcond] at hsub; cases hsub
  obtain ⟨out, len, e1, e2, e3, e4, -⟩ := hC.2 hcond
  rw [e1] at hsub
  obtain ⟨rfl, rfl⟩ := Prod.mk.inj (Option.some.inj hsub)
  have e4' : out.take (64 - ls.val) = x.key.drop ls.val := by
    rw [e4]
    unfold Spec.window
    rw [List.take_of_length_le hk.le]
  rw [← hlse]
  exact ⟨lc.output, out, len, hfalse, ho, e3, hcond.1, e2, e4'⟩

/-- Building a last-node check of a storage proof. -/
theorem last_true_run (hp : 2 ^ 128 < p) {D LL d s mv : ℕ} {key : List ℕ} {x : InclusionIn p} (h10 : D ≤ 10) (hd1 : 1 ≤ d)
    (hdD : d ≤ D) (hdep : x.depth = ((d : ℕ) : F p)) (hsl : x.starts.length = D) (hs : x.starts[d - 1]? = some ((s : ℕ) : F p))
    (hs64 : s ≤ 64) (hkey : x.key = key.map Nat.cast) (hk : key.length = 64) {vl : F p}
    (hlc : ∀ sel len, sel.length = 64 → len.val = 64 - s → sel.take (64 - s) = (key.drop s).map (Nat.cast : ℕ → F p) →
      ∃ lc, checkLeaf 64 mv len sel x.value x.lastRlp x.leafPl = some lc ∧ lc.valueLength = vl ∧
        storageOverride 64 x sel len lc.output = some 4) :
    lastNodeCheck D 64 mv true x = some (4, vl) := by
  have hdv : (((d : ℕ) : F p) - 1).val = d - 1 := by
    have hdv : ((d : ℕ) : F p).val = d := val_natCast_lt (by omega)
    rw [val_sub_of_le (by rw [val_one hp, hdv]; omega), val_one hp, hdv]
  have hsv : ((s : ℕ) : F p).val = s := val_natCast_lt (by omega)
  have h64 : ((64 : ℕ) : F p).val = 64 := val_natCast_lt (by omega)
  have hkl : (key.map (Nat.cast : ℕ → F p)).length = 64 := by rw [List.length_map, hk]
  obtain ⟨sel, len, e1, e2, e3, e4, e5⟩ := (C05_subArray 64 64 7 (key.map (Nat.cast : ℕ → F p)) ((s : ℕ) : F p)
    ((64 : ℕ) : F p) (by omega) (by omega) (by omega) (by norm_num) le_rfl (by omega)).2
    ⟨by rw [hsv, h64]; omega, by rw [h64], by rw [h64]; omega⟩
  rw [hsv, h64] at e4 e2
  have e4' : sel.take (64 - s) = (key.drop s).map Nat.cast := by
    rw [e4]; unfold Spec.window; rw [List.take_of_length_le hkl.le, List.map_drop]
  obtain ⟨lc, l1, l2, l3⟩ := hlc sel len e3 e2 e4'
  unfold lastNodeCheck
  refine Option.bind_eq_some_iff.2 ⟨x.starts.take D, mapM_getElem? _ _ (by omega),
    Option.bind_eq_some_iff.2 ⟨[((s : ℕ) : F p)], ?_, Option.bind_eq_some_iff.2 ⟨_, rfl,
    Option.bind_eq_some_iff.2 ⟨key.map Nat.cast, ?_, Option.bind_eq_some_iff.2 ⟨(sel, len), e1,
    Option.bind_eq_some_iff.2 ⟨lc, l1, ?_⟩⟩⟩⟩⟩⟩
  · rw [multiplexer_single _ _ _ (by omega) (by rw [List.length_take]; omega), hdep, hdv, if_pos (by omega),
      List.getD_eq_getElem?_getD, List.getElem?_take, if_pos (by omega), hs]
    rfl
  · rw [hkey, mapM_getElem? _ _ (by omega), List.take_of_length_le (by omega)]
  · simp only [if_true, Option.bind_eq_bind]
    rw [l3, l2]; rfl

end Verif.Mpt
