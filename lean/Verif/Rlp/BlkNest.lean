import Verif.Rlp.Enc

/-! Exact description of `BlkHeaderRlpCheck` and `RlpNestArrayCheck` (lemmas). -/

set_option linter.unusedSectionVars false

namespace Verif.Rlp
open Api Spec.Rlp
variable {p : ℕ} [Fact p.Prime]

theorem lpm_two (m : ℕ) : 2 < 2 ^ (lenPrefixMaxHexs m).size := by
  have hs2 : 2 ≤ (lenPrefixMaxHexs m).size := by
    have h2 : 2 ≤ lenPrefixMaxHexs m := by unfold lenPrefixMaxHexs; omega
    by_contra hcon
    have : lenPrefixMaxHexs m < 2 ^ 1 := Nat.size_le.1 (by omega)
    omega
  exact lt_of_lt_of_le (by norm_num) (Nat.pow_le_pow_right (by norm_num : 0 < 2) hs2)

/-- Body of `BlkHeaderRlpCheck`'s loop after alignment. -/
theorem blkBody (hp : 2 ^ 128 < p) (a : ArrayCheck) (fieldNum : F p) (inp : List (F p))
    (prefix1 : F p) (st : AcState p) (idx o : ℕ) (cells : List (F p)) (S : ℕ → ℕ)
    (hc : CellsOf cells a.maxHexLen S) (hidx : idx < p)
    (mx : ℕ) (hmx : a.fieldMax[idx]? = some mx) (hmx2 : mx < 2 ^ 60)
    (hroom : 2 + lenPrefixMaxHexs mx ≤ a.maxHexLen)
    (halign : alignItem a a.arrayPrefixMaxHexLen inp prefix1 st idx = some (cells.rotate o)) :
    blkHeaderStep a fieldNum inp prefix1 st idx =
        (open Classical in if itemFits S o (lenPrefixMaxHexs mx) then
          some { shifted := cells.rotate (o + hdrLen (byteAt S o))
                 lens := st.lens ++ [((len' S fieldNum.val idx o : ℕ) : F p)]
                 fields := st.fields ++ [cells.rotate (o + hdrLen (byteAt S o))]
                 check := st.check + (if byteAt S o = 0xc0 then 2 else 1)
                 lenSum := st.lenSum + ((hdrLen (byteAt S o) + len' S fieldNum.val idx o : ℕ) : F p) }
        else none) := by
  have hlpm := lpm_le mx hmx2
  have hlpm0 := lpm_pos mx
  have h22 := lpm_two mx
  have hv := byteAt_lt S hc.nib o
  have hll := lenOfLen_le _ hv
  have hfull : ∀ k, ((List.range a.maxHexLen).mapM fun j => (cells.rotate k)[j]?)
      = some (cells.rotate k) := by
    intro k
    rw [mapM_getElem? _ _ (by simp [hc.len]), List.take_of_length_le (by simp [hc.len])]
  unfold blkHeaderStep
  rw [halign]
  simp only [Option.bind_eq_bind, Option.bind_some]
  rw [hc.rot o 0 (by omega), hc.rot o 1 (by omega), hmx]
  simp only [Option.bind_some, Nat.add_zero]
  rw [rlpFieldPrefix_eq (by omega) _ _ (hc.nib _) (hc.nib _)]
  have hv0 : 16 * S o + S (o + 1) = byteAt S o := rfl
  simp only [hv0]
  rw [lessThan_eq (by omega) (idx : F p) fieldNum, val_natCast_lt hidx]
  rw [lenCands_eq S o (lenPrefixMaxHexs mx) (cells.rotate o) (fun j hj => hc.rot o j (by omega))]
  generalize hlp : lenPrefixMaxHexs mx = lpm at *
  generalize (if byteAt S o = 0xc0 then (2 : F p) else 1) = cv
  have hav : ((len' S fieldNum.val idx o : ℕ) : F p) =
      ((payLen S o : ℕ) : F p) * (if idx < fieldNum.val then 1 else 0) := by
    unfold len'; split <;> simp
  generalize (if idx < fieldNum.val then (1 : F p) else 0) = av at *
  rw [Nat.cast_add, hav]
  by_cases hbig : 0 < lenOfLen (byteAt S o)
  · have hnl := big_not_lit _ hbig
    simp only [if_pos hbig, if_neg hnl, fp_big _ hbig, one_mul, zero_mul, mul_zero, sub_zero,
      add_zero]
    have hh : hdrLen (byteAt S o) = 2 + 2 * lenOfLen (byteAt S o) := by
      unfold hdrLen; rw [if_neg hnl]
    have e1 : (2 : F p) + ((2 * lenOfLen (byteAt S o) : ℕ) : F p)
        = ((hdrLen (byteAt S o) : ℕ) : F p) := by rw [hh]; push_cast; ring
    rw [e1, shift_eq cells _ o lpm S hc _ hlpm0 (by omega) (by omega) (by omega)]
    have hsel : (((2 * lenOfLen (byteAt S o) : ℕ) : F p) - 1)
        = ((2 * lenOfLen (byteAt S o) - 1 : ℕ) : F p) := by
      rw [Nat.cast_sub (by omega)]; simp
    by_cases hfit : hdrLen (byteAt S o) < 2 ^ lpm.size
    · rw [if_pos hfit]
      simp only [Option.bind_some]
      rw [hfull]
      simp only [Option.bind_some]
      rw [muxLen_eq S o lpm _ _ (by omega) (by omega) hsel]
      by_cases hlt : 2 * lenOfLen (byteAt S o) - 1 < lpm
      · rw [if_pos hlt, if_pos (show itemFits S o lpm from ⟨by omega, hfit⟩)]
        simp only [Option.bind_some, List.getElem?_cons_zero, Option.pure_def, Option.some.injEq]
        rw [show 2 * lenOfLen (byteAt S o) - 1 + 1 = 2 * lenOfLen (byteAt S o) by omega]
        have hpay := payLen_big S o hbig
        have e2 : ((2 * lenOfLen (byteAt S o) : ℕ) : F p)
            + (((beNum S (o + 2) (2 * lenOfLen (byteAt S o)) : ℕ) : F p) * 2
              - ((2 * lenOfLen (byteAt S o) : ℕ) : F p)) = ((payLen S o : ℕ) : F p) := by
          rw [hpay]; push_cast; ring
        rw [e2]
        congr 1
        rw [← e1]; ring
      · rw [if_neg hlt, if_neg (by rintro ⟨h, _⟩; omega)]; rfl
    · rw [if_neg hfit, if_neg (by rintro ⟨_, h⟩; exact hfit h)]; rfl
  · have hll0 : lenOfLen (byteAt S o) = 0 := by omega
    simp only [if_neg hbig, zero_mul, add_zero, mul_zero, zero_sub]
    have hmux := muxLen_eq S o lpm 0 (0 : F p) (by omega) (by omega) (by simp)
    rw [if_pos hlpm0] at hmux
    by_cases hlit : byteAt S o < 0x80
    · have hh : hdrLen (byteAt S o) = 0 := by unfold hdrLen; rw [if_pos hlit]
      have hpay : payLen S o = 2 := by unfold payLen; rw [if_pos hlit]
      have hfp : fpHexLen (byteAt S o) = 0 := by unfold fpHexLen; rw [if_pos hlit]
      simp only [if_pos hlit, one_mul, sub_self]
      have := shift_eq cells _ o lpm S hc 0 hlpm0 (by omega) (by omega) (by omega)
      rw [Nat.cast_zero] at this
      rw [this, if_pos (Nat.two_pow_pos _)]
      simp only [Option.bind_some]
      rw [hfull]
      simp only [Option.bind_some]
      rw [hmux, if_pos (show itemFits S o lpm from ⟨by omega, by rw [hh]; exact Nat.two_pow_pos _⟩)]
      simp [hh, hpay, hfp]
    · have hh : hdrLen (byteAt S o) = 2 := by unfold hdrLen; rw [if_neg hlit, hll0]
      have hpay := payLen_small S o hlit hbig
      simp only [if_neg hlit, zero_mul, sub_zero]
      have hshift := shift_eq cells _ o lpm S hc 2 hlpm0 (by omega) (by omega) (by omega)
      rw [Nat.cast_ofNat] at hshift
      rw [hshift, if_pos h22]
      simp only [Option.bind_some]
      rw [hfull]
      simp only [Option.bind_some]
      rw [hmux, if_pos (show itemFits S o lpm from ⟨by omega, by rw [hh]; exact h22⟩)]
      simp [hh, hpay]
      ring

/-- header skipped / length reported / length counted by the nested checker -/
def nHd (S : ℕ → ℕ) (_ o : ℕ) : ℕ := if 0xc0 ≤ byteAt S o then 0 else hdrLen (byteAt S o)
def nLn (S : ℕ → ℕ) (_ o : ℕ) : ℕ :=
  if 0xc0 ≤ byteAt S o then itemLen S o else if byteAt S o = 0 then 0 else payLen S o
def nSum (S : ℕ → ℕ) (o : ℕ) : ℕ :=
  if byteAt S o = 0xc0 then 1 else if byteAt S o = 0 then 0 else itemLen S o

/-- condition under which one iteration of the nested checker is satisfiable -/
def nFits (S : ℕ → ℕ) (o lpm : ℕ) : Prop :=
  2 * lenOfLen (byteAt S o) ≤ lpm ∧ nHd S 0 o < 2 ^ lpm.size

/-- Body of `RlpNestArrayCheck`'s loop after alignment. -/
theorem nestBody (hp : 2 ^ 128 < p) (a : ArrayCheck) (inp : List (F p))
    (prefix1 : F p) (st : AcState p) (idx o : ℕ) (cells : List (F p)) (S : ℕ → ℕ)
    (hc : CellsOf cells a.maxHexLen S)
    (mx : ℕ) (hmx : a.fieldMax[idx]? = some mx) (hmx2 : mx < 2 ^ 60)
    (hroom : 2 + lenPrefixMaxHexs mx ≤ a.maxHexLen)
    (halign : alignItem a a.arrayPrefixMaxHexLen inp prefix1 st idx = some (cells.rotate o)) :
    rlpNestStep a inp prefix1 st idx =
        (open Classical in if nFits S o (lenPrefixMaxHexs mx) then
          some { shifted := cells.rotate (o + nHd S idx o)
                 lens := st.lens ++ [((nLn S idx o : ℕ) : F p)]
                 fields := st.fields ++ [cells.rotate (o + nHd S idx o)]
                 check := st.check + (if byteAt S o = 0xc0 then 2 else 1)
                 lenSum := st.lenSum + ((nSum S o : ℕ) : F p) }
        else none) := by
  have hlpm := lpm_le mx hmx2
  have hlpm0 := lpm_pos mx
  have h22 := lpm_two mx
  have hv := byteAt_lt S hc.nib o
  have hll := lenOfLen_le _ hv
  have hfull : ∀ k, ((List.range a.maxHexLen).mapM fun j => (cells.rotate k)[j]?)
      = some (cells.rotate k) := by
    intro k
    rw [mapM_getElem? _ _ (by simp [hc.len]), List.take_of_length_le (by simp [hc.len])]
  unfold rlpNestStep
  rw [halign]
  simp only [Option.bind_eq_bind, Option.bind_some]
  rw [hc.rot o 0 (by omega), hc.rot o 1 (by omega), hmx]
  simp only [Option.bind_some, Nat.add_zero]
  rw [rlpFieldPrefix_eq (by omega) _ _ (hc.nib _) (hc.nib _)]
  have hv0 : 16 * S o + S (o + 1) = byteAt S o := rfl
  simp only [hv0]
  rw [lenCands_eq S o (lenPrefixMaxHexs mx) (cells.rotate o) (fun j hj => hc.rot o j (by omega))]
  generalize hlp : lenPrefixMaxHexs mx = lpm at *
  generalize (if byteAt S o = 0xc0 then (2 : F p) else 1) = cv
  have hshift0 := shift_eq cells _ o lpm S hc 0 hlpm0 (by omega) (by omega) (by omega)
  rw [Nat.cast_zero, if_pos (Nat.two_pow_pos _)] at hshift0
  have hmux := muxLen_eq S o lpm 0 (0 : F p) (by omega) (by omega) (by simp)
  rw [if_pos hlpm0] at hmux
  by_cases hbig : 0 < lenOfLen (byteAt S o)
  · have hnl := big_not_lit _ hbig
    have hn0 : ¬ byteAt S o = 0 := by omega
    have hnc : ¬ byteAt S o = 0xc0 := by
      intro h; rw [h] at hbig; unfold lenOfLen at hbig; simp at hbig
    have hh : hdrLen (byteAt S o) = 2 + 2 * lenOfLen (byteAt S o) := by
      unfold hdrLen; rw [if_neg hnl]
    have hpay := payLen_big S o hbig
    have hsel : (((2 * lenOfLen (byteAt S o) : ℕ) : F p) - 1)
        = ((2 * lenOfLen (byteAt S o) - 1 : ℕ) : F p) := by
      rw [Nat.cast_sub (by omega)]; simp
    have e1 : (2 : F p) + ((2 * lenOfLen (byteAt S o) : ℕ) : F p)
        = ((hdrLen (byteAt S o) : ℕ) : F p) := by rw [hh]; push_cast; ring
    have e2 : ((2 * lenOfLen (byteAt S o) : ℕ) : F p)
        + (((beNum S (o + 2) (2 * lenOfLen (byteAt S o)) : ℕ) : F p) * 2
          - ((2 * lenOfLen (byteAt S o) : ℕ) : F p)) = ((payLen S o : ℕ) : F p) := by
      rw [hpay]; push_cast; ring
    simp only [if_pos hbig, if_neg hnl, if_neg hnc, if_neg hn0, fp_big _ hbig, one_mul, zero_mul,
      mul_zero, sub_zero, add_zero, mul_one]
    rw [e1]
    by_cases harr : 0xc0 ≤ byteAt S o
    · simp only [if_pos harr, mul_one, sub_self, mul_zero]
      rw [hshift0]
      simp only [Option.bind_some, Nat.add_zero]
      rw [hfull]
      simp only [Option.bind_some]
      rw [muxLen_eq S o lpm _ _ (by omega) (by omega) hsel]
      by_cases hlt : 2 * lenOfLen (byteAt S o) - 1 < lpm
      · rw [if_pos hlt, if_pos (show nFits S o lpm from ⟨by omega, by
          unfold nHd; rw [if_pos harr]; exact Nat.two_pow_pos _⟩)]
        simp only [Option.bind_some, List.getElem?_cons_zero, Option.pure_def, Option.some.injEq]
        rw [show 2 * lenOfLen (byteAt S o) - 1 + 1 = 2 * lenOfLen (byteAt S o) by omega, e2]
        simp only [nHd, nLn, nSum, if_pos harr, if_neg hnc, if_neg hn0, Nat.add_zero, itemLen]
        simp only [Nat.cast_add, ← e1, AcState.mk.injEq, true_and]
        refine ⟨?_, ?_⟩
        · congr 2; ring
        · ring
      · rw [if_neg hlt, if_neg (by rintro ⟨h, _⟩; omega)]; rfl
    · simp only [if_neg harr, sub_zero, mul_one, mul_zero, add_zero]
      rw [shift_eq cells _ o lpm S hc _ hlpm0 (by omega) (by omega) (by omega)]
      by_cases hfit : hdrLen (byteAt S o) < 2 ^ lpm.size
      · rw [if_pos hfit]
        simp only [Option.bind_some]
        rw [hfull]
        simp only [Option.bind_some]
        rw [muxLen_eq S o lpm _ _ (by omega) (by omega) hsel]
        by_cases hlt : 2 * lenOfLen (byteAt S o) - 1 < lpm
        · rw [if_pos hlt, if_pos (show nFits S o lpm from ⟨by omega, by
            unfold nHd; rw [if_neg harr]; exact hfit⟩)]
          simp only [Option.bind_some, List.getElem?_cons_zero, Option.pure_def, Option.some.injEq]
          rw [show 2 * lenOfLen (byteAt S o) - 1 + 1 = 2 * lenOfLen (byteAt S o) by omega, e2]
          simp only [nHd, nLn, nSum, if_neg harr, if_neg hnc, if_neg hn0, itemLen]
          simp only [Nat.cast_add, ← e1, AcState.mk.injEq, true_and]
          ring
        · rw [if_neg hlt, if_neg (by rintro ⟨h, _⟩; omega)]; rfl
      · rw [if_neg hfit, if_neg (by
          rintro ⟨_, h⟩; unfold nHd at h; rw [if_neg harr] at h; exact hfit h)]; rfl
  · have hll0 : lenOfLen (byteAt S o) = 0 := by omega
    simp only [if_neg hbig, zero_mul, add_zero, mul_zero, zero_sub]
    by_cases hlit : byteAt S o < 0x80
    · have hh : hdrLen (byteAt S o) = 0 := by unfold hdrLen; rw [if_pos hlit]
      have hpay : payLen S o = 2 := by unfold payLen; rw [if_pos hlit]
      have hfp : fpHexLen (byteAt S o) = 0 := by unfold fpHexLen; rw [if_pos hlit]
      have harr : ¬ 0xc0 ≤ byteAt S o := by omega
      have hnc : ¬ byteAt S o = 0xc0 := by omega
      simp only [if_pos hlit, one_mul, sub_self, zero_mul, hshift0]
      simp only [Option.bind_some]
      rw [hfull]
      simp only [Option.bind_some]
      rw [hmux, if_pos (show nFits S o lpm from ⟨by omega, by
        unfold nHd; rw [if_neg harr, hh]; exact Nat.two_pow_pos _⟩)]
      by_cases h0 : byteAt S o = 0
      · simp [hh, hfp, nHd, nLn, nSum, harr, hnc, h0]
        simp [hdrLen]
      · simp [hh, hpay, hfp, nHd, nLn, nSum, harr, hnc, h0, itemLen]
    · have hh : hdrLen (byteAt S o) = 2 := by unfold hdrLen; rw [if_neg hlit, hll0]
      have hpay := payLen_small S o hlit hbig
      have hn0 : ¬ byteAt S o = 0 := by omega
      simp only [if_neg hlit, zero_mul, sub_zero]
      by_cases harr : 0xc0 ≤ byteAt S o
      · simp only [if_pos harr, mul_one, sub_self, mul_zero]
        rw [hshift0]
        simp only [Option.bind_some, Nat.add_zero]
        rw [hfull]
        simp only [Option.bind_some]
        rw [hmux, if_pos (show nFits S o lpm from ⟨by omega, by
          unfold nHd; rw [if_pos harr]; exact Nat.two_pow_pos _⟩)]
        by_cases hc0 : byteAt S o = 0xc0
        · have hz : payLen S o = 0 := by
            unfold payLen; simp only; rw [hc0]; norm_num
          have hf0 : fpHexLen 0xc0 = 0 := by decide
          simp [nHd, nLn, nSum, hc0, itemLen, hz, hf0]
          norm_num [hdrLen, lenOfLen]
          ring
        · simp only [nHd, nLn, nSum, if_pos harr, if_neg hc0, if_neg hn0, itemLen, hh, hpay]
          simp
          refine ⟨?_, ?_⟩ <;> ring
      · have hnc : ¬ byteAt S o = 0xc0 := by omega
        simp only [if_neg harr, sub_zero, mul_one, mul_zero, add_zero]
        have hshift := shift_eq cells _ o lpm S hc 2 hlpm0 (by omega) (by omega) (by omega)
        rw [Nat.cast_ofNat] at hshift
        rw [hshift, if_pos h22]
        simp only [Option.bind_some]
        rw [hfull]
        simp only [Option.bind_some]
        rw [hmux, if_pos (show nFits S o lpm from ⟨by omega, by
          unfold nHd; rw [if_neg harr, hh]; exact h22⟩)]
        simp only [nHd, nLn, nSum, if_neg harr, if_neg hnc, if_neg hn0, itemLen, hh, hpay]
        simp
        ring

/-! ### Generic loop -/

section gen
variable (a : ArrayCheck) (S : ℕ → ℕ) (hd ln su : ℕ → ℕ → ℕ)

/-- length counted by the checker for the first `k` items -/
def gSum : ℕ → ℕ
  | 0 => 0
  | k + 1 => gSum k + su k (gOff a S hd ln k)

/-- 0xc0 bytes met at the first `k` item positions -/
def gC0 : ℕ → ℕ
  | 0 => 0
  | k + 1 => gC0 k + if byteAt S (gOff a S hd ln k) = 0xc0 then 1 else 0

def gState (cells : List (F p)) (check0 : F p) (k : ℕ) : AcState p where
  shifted := if k = 0 then [] else
    cells.rotate (gOff a S hd ln (k - 1) + hd (k - 1) (gOff a S hd ln (k - 1)))
  lens := (List.range k).map fun i => ((ln i (gOff a S hd ln i) : ℕ) : F p)
  fields := (List.range k).map fun i => cells.rotate (gOff a S hd ln i + hd i (gOff a S hd ln i))
  check := check0 + ((k + gC0 a S hd ln k : ℕ) : F p)
  lenSum := ((gSum a S hd ln su k : ℕ) : F p)

end gen

theorem gLoop_eq (hp : 2 ^ 128 < p) (a : ArrayCheck) (hwf : a.WF) (inp : List (F p)) (S : ℕ → ℕ)
    (hc : CellsOf (inp.take a.maxHexLen) a.maxHexLen S) (hd ln su : ℕ → ℕ → ℕ)
    (hln : ∀ i o, ln i o < 2 ^ 66) (firstMax : ℕ) (hf0 : 0 < firstMax) (hf : firstMax < 2 ^ 60)
    (fit : ℕ → ℕ → Prop) (check0 : F p) (step : AcState p → ℕ → Option (AcState p))
    (hstep : ∀ st k o, k < a.maxFields →
      alignItem a firstMax inp ((ahPrefix1 (byteAt S 0) : ℕ) : F p) st k
        = some ((inp.take a.maxHexLen).rotate o) →
      step st k = (open Classical in if fit k o then
          some { shifted := (inp.take a.maxHexLen).rotate (o + hd k o)
                 lens := st.lens ++ [((ln k o : ℕ) : F p)]
                 fields := st.fields ++ [(inp.take a.maxHexLen).rotate (o + hd k o)]
                 check := st.check + (if byteAt S o = 0xc0 then 2 else 1)
                 lenSum := st.lenSum + ((su k o : ℕ) : F p) } else none))
    (hnone : ∀ st k, alignItem a firstMax inp ((ahPrefix1 (byteAt S 0) : ℕ) : F p) st k = none →
      step st k = none) :
    (List.range a.maxFields).foldlM step
      { shifted := [], lens := [], fields := [], check := check0, lenSum := 0 } =
      (open Classical in if ∀ i < a.maxFields, gAlign a S hd ln firstMax i ∧ fit i (gOff a S hd ln i) then
        some (gState a S hd ln su (inp.take a.maxHexLen) check0 a.maxFields) else none) := by
  classical
  refine foldlM_range_ite (gState a S hd ln su (inp.take a.maxHexLen) check0) _ _ _ ?_ ?_
  · simp [gState, gSum, gC0]
  · intro k hk
    have halign := alignItem_eq hp a hwf inp S hc hd ln firstMax k hln hf0 hf
      (gState a S hd ln su (inp.take a.maxHexLen) check0 k) rfl
      (fun h0 => by simp only [gState]; rw [List.getElem?_map, List.getElem?_range (by omega)]; rfl) hk
    by_cases hA : gAlign a S hd ln firstMax k
    · rw [if_pos hA] at halign
      rw [hstep _ k _ hk halign]
      by_cases hfit : fit k (gOff a S hd ln k)
      · rw [if_pos hfit, if_pos (⟨hA, hfit⟩ : _ ∧ _)]
        simp only [gState, Option.some.injEq, AcState.mk.injEq, if_neg (Nat.succ_ne_zero k),
          Nat.add_sub_cancel, List.range_succ, List.map_append, List.map_cons, List.map_nil,
          gSum, gC0, true_and]
        refine ⟨?_, ?_⟩
        · by_cases hc0 : byteAt S (gOff a S hd ln k) = 0xc0
          · simp only [hc0, if_true]; push_cast; ring
          · simp only [hc0, if_false]; push_cast; ring
        · push_cast; ring
      · rw [if_neg hfit, if_neg (fun h => hfit h.2)]
    · rw [if_neg (fun h : _ ∧ _ => hA h.1)]
      rw [if_neg hA] at halign
      exact hnone _ _ halign

theorem hget_of (a : ArrayCheck) (hwf : a.WF) (inp : List (F p)) (S : ℕ → ℕ)
    (hc : CellsOf (inp.take a.maxHexLen) a.maxHexLen S) :
    ∀ j < 2 + a.arrayPrefixMaxHexLen, inp[j]? = some ((S j : ℕ) : F p) := by
  intro j hj
  have h1 := hwf.apm
  have h2 := hc.get j
  rw [Nat.mod_eq_of_lt (by omega), List.getElem?_take_of_lt (by omega)] at h2
  exact h2

/-- The result both checkers produce, as a function of their item handling. -/
def gOut (a : ArrayCheck) (S : ℕ → ℕ) (hd ln su : ℕ → ℕ → ℕ) (cells : List (F p)) : AcOut p where
  out := isZero ((((if 0xc0 ≤ byteAt S 0 then 1 else 0) +
            ((a.maxFields + gC0 a S hd ln a.maxFields : ℕ) : F p)) +
            isZero (((ahTotal S : ℕ) : F p) - ((gSum a S hd ln su a.maxFields : ℕ) : F p)))
            - ((a.maxFields : F p) + 2))
  total := ((2 + ahPrefix1 (byteAt S 0) + ahTotal S : ℕ) : F p)
  lens := (List.range a.maxFields).map fun i => ((ln i (gOff a S hd ln i) : ℕ) : F p)
  fields := (List.range a.maxFields).map fun i =>
    cells.rotate (gOff a S hd ln i + hd i (gOff a S hd ln i))

/-- header skipped by the block header checker (also for inactive fields) -/
def bHd (S : ℕ → ℕ) (_ o : ℕ) : ℕ := hdrLen (byteAt S o)

theorem blkHeaderRlpCheck_eq (hp : 2 ^ 128 < p) (a : ArrayCheck) (hwf : a.WF) (inp : List (F p)) (S : ℕ → ℕ)
    (hc : CellsOf (inp.take a.maxHexLen) a.maxHexLen S) (fieldNum : F p) :
    blkHeaderRlpCheck a inp fieldNum =
      (open Classical in if (0 < a.arrayPrefixMaxHexLen ∧ ahPrefix1 (byteAt S 0) ≤ a.arrayPrefixMaxHexLen) ∧
          ∀ i < a.maxFields, gAlign a S (bHd S) (len' S fieldNum.val) a.arrayPrefixMaxHexLen i ∧
            itemFits S (gOff a S (bHd S) (len' S fieldNum.val) i) (lenPrefixMaxHexs (mx a i)) then
        some (gOut a S (bHd S) (len' S fieldNum.val)
          (fun i o => hdrLen (byteAt S o) + len' S fieldNum.val i o) (inp.take a.maxHexLen))
      else none) := by
  unfold blkHeaderRlpCheck
  rw [arrayHeader_eq (by omega) S hc.nib _ _ (hget_of a hwf inp S hc)
    (by have := hwf.apm; have := hwf.hex; omega)]
  by_cases h1 : 0 < a.arrayPrefixMaxHexLen ∧ ahPrefix1 (byteAt S 0) ≤ a.arrayPrefixMaxHexLen
  · rw [if_pos h1]
    simp only [Option.bind_eq_bind, Option.bind_some]
    rw [gLoop_eq hp a hwf inp S hc (bHd S) (len' S fieldNum.val)
      (fun i o => hdrLen (byteAt S o) + len' S fieldNum.val i o)
      (fun i o => (len'_lt S hc.nib _ i o).trans (by norm_num)) a.arrayPrefixMaxHexLen h1.1
      (by have := hwf.apm; have := hwf.hex; omega)
      (fun i o => itemFits S o (lenPrefixMaxHexs (mx a i)))]
    · generalize hiv : (if 0xc0 ≤ byteAt S 0 then (1 : F p) else 0) = iv
      by_cases h2 : ∀ i < a.maxFields, gAlign a S (bHd S) (len' S fieldNum.val) a.arrayPrefixMaxHexLen i ∧
            itemFits S (gOff a S (bHd S) (len' S fieldNum.val) i) (lenPrefixMaxHexs (mx a i))
      · rw [if_pos h2, if_pos (⟨h1, h2⟩ : _ ∧ _)]
        simp only [Option.bind_some, Option.pure_def, gState, gOut, hiv]
        push_cast
        rfl
      · rw [if_neg h2, if_neg (fun h => h2 h.2)]; rfl
    · intro st k o hk halign
      have hmx : a.fieldMax[k]? = some (mx a k) := by
        have := hwf.hmax
        rw [List.getElem?_eq_getElem (by omega), mx, List.getD_eq_getElem _ _ (by omega)]
      exact blkBody hp a fieldNum inp _ st k o (inp.take a.maxHexLen) S hc
        (by have := hwf.fields; omega) (mx a k) hmx (hwf.small k hk) (hwf.room k hk) halign
    · intro st k h
      unfold blkHeaderStep
      rw [h]; rfl
  · rw [if_neg h1, if_neg (fun h => h1 h.1)]; rfl

theorem nLn_lt (S : ℕ → ℕ) (hS : ∀ k, S k < 16) (i o : ℕ) : nLn S i o < 2 ^ 66 := by
  have h1 := payLen_lt S hS o
  have h2 := hdrLen_le _ (byteAt_lt S hS o)
  unfold nLn itemLen
  split_ifs <;> omega

theorem rlpNestArrayCheck_eq (hp : 2 ^ 128 < p) (a : ArrayCheck) (hwf : a.WF) (inp : List (F p)) (S : ℕ → ℕ)
    (hc : CellsOf (inp.take a.maxHexLen) a.maxHexLen S) :
    rlpNestArrayCheck a inp =
      (open Classical in if (0 < a.arrayPrefixMaxHexLen ∧ ahPrefix1 (byteAt S 0) ≤ a.arrayPrefixMaxHexLen) ∧
          ∀ i < a.maxFields, gAlign a S (nHd S) (nLn S) a.arrayPrefixMaxHexLen i ∧
            nFits S (gOff a S (nHd S) (nLn S) i) (lenPrefixMaxHexs (mx a i)) then
        some (gOut a S (nHd S) (nLn S) (fun _ o => nSum S o) (inp.take a.maxHexLen))
      else none) := by
  unfold rlpNestArrayCheck
  rw [arrayHeader_eq (by omega) S hc.nib _ _ (hget_of a hwf inp S hc)
    (by have := hwf.apm; have := hwf.hex; omega)]
  by_cases h1 : 0 < a.arrayPrefixMaxHexLen ∧ ahPrefix1 (byteAt S 0) ≤ a.arrayPrefixMaxHexLen
  · rw [if_pos h1]
    simp only [Option.bind_eq_bind, Option.bind_some]
    rw [gLoop_eq hp a hwf inp S hc (nHd S) (nLn S) (fun _ o => nSum S o)
      (nLn_lt S hc.nib) a.arrayPrefixMaxHexLen h1.1
      (by have := hwf.apm; have := hwf.hex; omega)
      (fun i o => nFits S o (lenPrefixMaxHexs (mx a i)))]
    · generalize hiv : (if 0xc0 ≤ byteAt S 0 then (1 : F p) else 0) = iv
      by_cases h2 : ∀ i < a.maxFields, gAlign a S (nHd S) (nLn S) a.arrayPrefixMaxHexLen i ∧
            nFits S (gOff a S (nHd S) (nLn S) i) (lenPrefixMaxHexs (mx a i))
      · rw [if_pos h2, if_pos (⟨h1, h2⟩ : _ ∧ _)]
        simp only [Option.bind_some, Option.pure_def, gState, gOut, hiv]
        push_cast
        rfl
      · rw [if_neg h2, if_neg (fun h => h2 h.2)]; rfl
    · intro st k o hk halign
      have hmx : a.fieldMax[k]? = some (mx a k) := by
        have := hwf.hmax
        rw [List.getElem?_eq_getElem (by omega), mx, List.getD_eq_getElem _ _ (by omega)]
      exact nestBody hp a inp _ st k o (inp.take a.maxHexLen) S hc
        (mx a k) hmx (hwf.small k hk) (hwf.room k hk) halign
    · intro st k h
      unfold rlpNestStep
      rw [h]; rfl
  · rw [if_neg h1, if_neg (fun h => h1 h.1)]; rfl

end Verif.Rlp
