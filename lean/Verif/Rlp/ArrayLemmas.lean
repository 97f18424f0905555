import Verif.Rlp.Lemmas
import Verif.MuxProps

/-! Exact functional characterisation of the RLP list checkers over the cyclic nibble stream. -/

set_option linter.unusedSectionVars false

namespace Verif.Rlp
open Api Spec.Rlp
variable {p : ℕ} [Fact p.Prime]

theorem foldlM_range_ite {β : Type*} {f : β → ℕ → Option β} (g : ℕ → β) (c : ℕ → Prop)
    [DecidablePred c] (n : ℕ) (b : β)
    (h0 : g 0 = b) (hs : ∀ i < n, f (g i) i = if c i then some (g (i + 1)) else none) :
    (List.range n).foldlM f b = if ∀ i < n, c i then some (g n) else none := by
  induction n with
  | zero => simp [h0]
  | succ n ih =>
    rw [List.range_succ, List.foldlM_append, ih (fun i hi => hs i (by omega))]
    by_cases h1 : ∀ i < n, c i
    · rw [if_pos h1]
      simp only [Option.bind_eq_bind, Option.bind_some, List.foldlM_cons, List.foldlM_nil]
      rw [hs n (by omega)]
      by_cases h2 : c n
      · rw [if_pos h2, if_pos]
        · rfl
        · intro i hi
          rcases Nat.lt_succ_iff_lt_or_eq.1 hi with h | h
          · exact h1 i h
          · exact h ▸ h2
      · rw [if_neg h2, if_neg]
        · rfl
        · intro h; exact h2 (h n (by omega))
    · rw [if_neg h1, if_neg]
      · rfl
      · intro h; exact h1 (fun i hi => h i (by omega))

theorem beNum_lt (S : ℕ → ℕ) (hS : ∀ k, S k < 16) (o n : ℕ) : beNum S o n < 16 ^ n := by
  induction n with
  | zero => simp [beNum]
  | succ n ih =>
    have := hS (o + n)
    rw [beNum, pow_succ]; omega

theorem lenCands_eq (S : ℕ → ℕ) (o n : ℕ) (l : List (F p))
    (hl : ∀ j < 2 + n, l[j]? = some ((S (o + j) : ℕ) : F p)) :
    lenCands l n = some ((List.range n).map fun j => ((beNum S (o + 2) (j + 1) : ℕ) : F p)) := by
  unfold lenCands
  rw [foldlM_range_some (fun k => (((beNum S (o + 2) k : ℕ) : F p),
      (List.range k).map fun j => ((beNum S (o + 2) (j + 1) : ℕ) : F p))) n (0, [])]
  · rfl
  · simp [beNum]
  · intro i hi
    rw [hl (2 + i) (by omega)]
    simp only [Option.bind_eq_bind, Option.bind_some, Option.pure_def, Option.some.injEq,
      Prod.mk.injEq, List.range_succ, List.map_append, List.map_cons, List.map_nil]
    have : ((beNum S (o + 2) (i + 1) : ℕ) : F p)
        = 16 * ((beNum S (o + 2) i : ℕ) : F p) + ((S (o + (2 + i)) : ℕ) : F p) := by
      rw [beNum]; push_cast; rw [show o + 2 + i = o + (2 + i) by omega]
    rw [this]
    exact ⟨rfl, rfl⟩

theorem multiplexer_single (sel : F p) (n : ℕ) (row : List (F p)) (hn : n ≤ p) (hr : n ≤ row.length) :
    multiplexer sel 1 n [row] = if sel.val < n then some [row.getD sel.val 0] else none := by
  rw [multiplexer_eq sel 1 n [row] hn (by simp) (by simpa using hr)]
  simp

theorem muxLen_eq (S : ℕ → ℕ) (o n k : ℕ) (sel : F p) (hn : n ≤ p) (hk : k < p)
    (hsel : sel = ((k : ℕ) : F p)) :
    multiplexer sel 1 n [(List.range n).map fun j => ((beNum S (o + 2) (j + 1) : ℕ) : F p)]
      = if k < n then some [((beNum S (o + 2) (k + 1) : ℕ) : F p)] else none := by
  rw [multiplexer_single _ _ _ hn (by simp), hsel, val_natCast_lt hk]
  by_cases h : k < n
  · rw [if_pos h, if_pos h, List.getD_eq_getElem _ _ (by simpa using h)]
    simp
  · rw [if_neg h, if_neg h]

/-- header extra length (nibbles) of the array header gadget -/
def ahPrefix1 (v : ℕ) : ℕ := if 0xf8 ≤ v then 2 * (v - 0xf7) else 0

/-- total payload computed by the array header gadget -/
def ahTotal (S : ℕ → ℕ) : ℕ := if byteAt S 0 < 0xc0 then 0 else payLen S 0

theorem byteAt_lt (S : ℕ → ℕ) (hS : ∀ k, S k < 16) (o : ℕ) : byteAt S o < 256 := by
  have := hS o; have := hS (o + 1); unfold byteAt; omega

theorem arrayHeader_eq (hp : 256 < p) (S : ℕ → ℕ) (hS : ∀ k, S k < 16) (apm : ℕ) (l : List (F p))
    (hl : ∀ j < 2 + apm, l[j]? = some ((S j : ℕ) : F p)) (hap : apm ≤ p) :
    arrayHeader apm l =
      if 0 < apm ∧ ahPrefix1 (byteAt S 0) ≤ apm then
        some (if 0xc0 ≤ byteAt S 0 then 1 else 0, ((ahPrefix1 (byteAt S 0) : ℕ) : F p),
          ((ahTotal S : ℕ) : F p))
      else none := by
  have hv := byteAt_lt S hS 0
  unfold arrayHeader
  rw [hl 0 (by omega), hl 1 (by omega)]
  simp only [Option.bind_eq_bind, Option.bind_some]
  rw [rlpArrayPrefix_eq hp _ _ (hS 0) (hS 1), lenCands_eq S 0 apm l (by simpa using hl)]
  have hv0 : 16 * S 0 + S 1 = byteAt S 0 := rfl
  simp only [Option.bind_some, hv0]
  generalize hvv : byteAt S 0 = v at *
  generalize (if 0xc0 ≤ v then (1 : F p) else 0) = iv
  by_cases h8 : 0xf8 ≤ v
  · obtain ⟨c, hc⟩ : ∃ c, v = 248 + c := ⟨v - 248, by omega⟩
    have hpre : ahPrefix1 v = 2 * (c + 1) := by unfold ahPrefix1; rw [if_pos h8]; omega
    have hap : apHexLen v = 2 * (c + 1) := by unfold apHexLen; rw [if_neg (by omega), if_neg (by omega)]; omega
    have htot : ahTotal S = 2 * beNum S 2 (2 * (c + 1)) := by
      unfold ahTotal payLen; rw [hvv]
      simp only [if_neg (show ¬ v < 0xc0 by omega), if_neg (show ¬ v < 0x80 by omega),
        if_neg (show ¬ v < 0xb8 by omega), if_neg (show ¬ v < 0xf8 by omega)]
      rw [show v - 0xf7 = c + 1 by omega]
    simp only [if_pos h8]
    rw [muxLen_eq S 0 apm (2 * c + 1) _ (by omega) (by omega)
      (by rw [hap]; push_cast; ring)]
    rw [hpre]
    by_cases hlt : 2 * c + 1 < apm
    · rw [if_pos hlt, if_pos (by omega), hap, htot]
      simp only [Option.bind_some, List.getElem?_cons_zero, Option.pure_def, Option.some.injEq,
        Prod.mk.injEq, true_and]
      rw [show 2 * c + 1 + 1 = 2 * (c + 1) by ring]
      constructor
      · ring
      · push_cast; ring
    · rw [if_neg hlt, if_neg (by omega)]; rfl
  · have hpre : ahPrefix1 v = 0 := by unfold ahPrefix1; rw [if_neg h8]
    have hap : apHexLen v = ahTotal S := by
      unfold ahTotal apHexLen payLen; rw [hvv]
      by_cases hc : v < 0xc0
      · simp [hc]
      · simp only [if_neg hc, if_neg (show ¬ v < 0x80 by omega),
          if_neg (show ¬ v < 0xb8 by omega), if_pos (show v < 0xf8 by omega)]
    simp only [if_neg h8]
    rw [muxLen_eq S 0 apm 0 _ (by omega) (by omega) (by simp)]
    rw [hpre]
    by_cases hlt : 0 < apm
    · rw [if_pos hlt, if_pos ⟨hlt, by omega⟩, hap]
      simp
    · rw [if_neg hlt, if_neg (by omega)]; rfl


/-- The array `cells` of length `n`, read cyclically, is the nibble stream `S`. -/
structure CellsOf (cells : List (F p)) (n : ℕ) (S : ℕ → ℕ) : Prop where
  len : cells.length = n
  pos : 0 < n
  nib : ∀ k, S k < 16
  get : ∀ k, cells[k % n]? = some ((S k : ℕ) : F p)

theorem CellsOf.rot {cells : List (F p)} {n : ℕ} {S : ℕ → ℕ} (h : CellsOf cells n S) (o j : ℕ)
    (hj : j < n) : (cells.rotate o)[j]? = some ((S (o + j) : ℕ) : F p) := by
  rw [List.getElem?_rotate (by rw [h.len]; exact hj), h.len, Nat.add_comm, h.get]

theorem lenOfLen_le (v : ℕ) (hv : v < 256) : lenOfLen v ≤ 8 := by
  unfold lenOfLen; split_ifs <;> omega

theorem fp_big (v : ℕ) (h : 0 < lenOfLen v) : fpHexLen v = 2 * lenOfLen v := by
  unfold lenOfLen at h
  unfold fpHexLen lenOfLen apHexLen
  split_ifs at * <;> omega

theorem payLen_big (S : ℕ → ℕ) (o : ℕ) (h : 0 < lenOfLen (byteAt S o)) :
    payLen S o = 2 * beNum S (o + 2) (2 * lenOfLen (byteAt S o)) := by
  simp only [payLen]
  unfold lenOfLen at *
  generalize byteAt S o = v at *
  split_ifs at * <;> first | (exfalso; omega) | rfl

theorem payLen_small (S : ℕ → ℕ) (o : ℕ) (h8 : ¬ byteAt S o < 0x80)
    (h : ¬ 0 < lenOfLen (byteAt S o)) : payLen S o = fpHexLen (byteAt S o) := by
  simp only [payLen, fpHexLen, apHexLen]
  unfold lenOfLen at h
  generalize byteAt S o = v at *
  split_ifs at * <;> omega

theorem big_not_lit (v : ℕ) (h : 0 < lenOfLen v) : ¬ v < 0x80 := by
  unfold lenOfLen at h
  split_ifs at h <;> omega

theorem payLen_lt (S : ℕ → ℕ) (hS : ∀ k, S k < 16) (o : ℕ) : payLen S o < 2 ^ 65 := by
  have hv := byteAt_lt S hS o
  by_cases h : 0 < lenOfLen (byteAt S o)
  · rw [payLen_big S o h]
    have h1 := beNum_lt S hS (o + 2) (2 * lenOfLen (byteAt S o))
    have h2 : 16 ^ (2 * lenOfLen (byteAt S o)) ≤ 16 ^ 16 :=
      Nat.pow_le_pow_right (by norm_num) (by have := lenOfLen_le _ hv; omega)
    have h3 : (2 : ℕ) ^ 65 = 2 * 16 ^ 16 := by norm_num
    omega
  · by_cases h8 : byteAt S o < 0x80
    · unfold payLen; rw [if_pos h8]; norm_num
    · rw [payLen_small S o h8 h]
      have : fpHexLen (byteAt S o) < 512 := by
        unfold fpHexLen apHexLen; split_ifs <;> omega
      omega

/-- `RlpArrayCheck`: does the item at `o` fit the length-prefix bound `lpm`? -/
def itemFits (S : ℕ → ℕ) (o lpm : ℕ) : Prop :=
  2 * lenOfLen (byteAt S o) ≤ lpm ∧ hdrLen (byteAt S o) < 2 ^ lpm.size

theorem lpm_pos (m : ℕ) : 0 < lenPrefixMaxHexs m := by unfold lenPrefixMaxHexs; omega

theorem lpm_le (m : ℕ) (hm : m < 2 ^ 60) : lenPrefixMaxHexs m ≤ 16 := by
  unfold lenPrefixMaxHexs
  rw [logCeil_eq_size m (hm.trans (by norm_num))]
  have : m.size ≤ 60 := Nat.size_le.2 hm
  omega

/-- first half of every item body: the alignment of the payload -/
theorem shift_eq_local (cells : List (F p)) (n o lpm : ℕ) (hlen : cells.length = n) (k : ℕ)
    (hlpm0 : 0 < lpm) (hlpm : lpm < 2 ^ 60) (hp : 2 ^ 61 < p) (hk : k < p) :
    shiftLeft n 0 lpm (cells.rotate o) ((k : ℕ) : F p) =
      if k < 2 ^ lpm.size then some (cells.rotate (o + k)) else none := by
  have hs : lpm.size ≤ 60 := Nat.size_le.2 hlpm
  have h2 : 2 ^ lpm.size ≤ 2 ^ 60 := Nat.pow_le_pow_right (by norm_num) hs
  rw [C03_shiftLeft_rotates n 0 lpm _ _ (by simp [hlen]) hlpm0 (by omega) (by simp; omega),
    val_natCast_lt hk]
  simp only [Nat.zero_le, true_and, Nat.zero_add, Nat.sub_zero]
  rw [List.take_of_length_le (l := cells.rotate o) (by simp [hlen]), List.rotate_rotate]

theorem shift_eq (cells : List (F p)) (n o lpm : ℕ) (S : ℕ → ℕ) (hc : CellsOf cells n S) (k : ℕ)
    (hlpm0 : 0 < lpm) (hlpm : lpm < 2 ^ 60) (hp : 2 ^ 61 < p) (hk : k < p) :
    shiftLeft n 0 lpm (cells.rotate o) ((k : ℕ) : F p) =
      if k < 2 ^ lpm.size then some (cells.rotate (o + k)) else none :=
  shift_eq_local cells n o lpm hc.len k hlpm0 hlpm hp hk

theorem or_act (x : Prop) [Decidable x] :
    Api.or (if x then (1 : F p) else 0) (1 - 1) = some (if x then 1 else 0) := by
  unfold Api.or assertBool
  by_cases h1 : x <;> simp [h1]

theorem or_inact (x : Prop) [Decidable x] :
    Api.or (if x then (1 : F p) else 0) (1 - 0) = some 1 := by
  unfold Api.or assertBool
  by_cases h1 : x <;> simp [h1]

/-- Body of `RlpArrayCheck`'s loop after alignment; only the cells of the item header have to be nibbles. -/
theorem arrayBody_local (hp : 2 ^ 128 < p) (a : ArrayCheck) (fieldNum : F p) (inp : List (F p))
    (prefix1 : F p) (st : AcState p) (idx o : ℕ) (cells : List (F p)) (S : ℕ → ℕ)
    (hclen : cells.length = a.maxHexLen) (hnib : ∀ k, S k < 16) (hidx : idx < p)
    (mx : ℕ) (hrd : ∀ j < 2 + lenPrefixMaxHexs mx, (cells.rotate o)[j]? = some ((S (o + j) : ℕ) : F p))
    (hmx : a.fieldMax[idx]? = some mx) (hmx2 : mx < 2 ^ 60)
    (hroom : 2 + lenPrefixMaxHexs mx ≤ a.maxHexLen)
    (halign : alignItem a 10 inp prefix1 st idx = some (cells.rotate o)) :
    rlpArrayStep a fieldNum inp prefix1 st idx =
      if idx < fieldNum.val then
        (open Classical in if itemFits S o (lenPrefixMaxHexs mx) then
          some { shifted := cells.rotate (o + hdrLen (byteAt S o))
                 lens := st.lens ++ [((payLen S o : ℕ) : F p)]
                 fields := st.fields ++ [cells.rotate (o + hdrLen (byteAt S o))]
                 check := st.check + (if byteAt S o = 0xc0 then 2 else 1)
                 lenSum := st.lenSum + ((hdrLen (byteAt S o) + payLen S o : ℕ) : F p) }
        else none)
      else
        some { shifted := cells.rotate o, lens := st.lens ++ [0],
               fields := st.fields ++ [cells.rotate o], check := st.check, lenSum := st.lenSum } := by
  have hlpm := lpm_le mx hmx2
  have hlpm0 := lpm_pos mx
  have hv := byteAt_lt S hnib o
  have hll := lenOfLen_le _ hv
  have hsz : 0 < (lenPrefixMaxHexs mx).size := Nat.size_pos.2 hlpm0
  have hfull : ∀ k, ((List.range a.maxHexLen).mapM fun j => (cells.rotate k)[j]?)
      = some (cells.rotate k) := by
    intro k
    rw [mapM_getElem? _ _ (by simp [hclen]), List.take_of_length_le (by simp [hclen])]
  unfold rlpArrayStep
  rw [halign]
  simp only [Option.bind_eq_bind, Option.bind_some]
  rw [hrd 0 (by omega), hrd 1 (by omega), hmx]
  simp only [Option.bind_some, Nat.add_zero]
  rw [rlpFieldPrefix_eq (by omega) _ _ (hnib _) (hnib _)]
  have hv0 : 16 * S o + S (o + 1) = byteAt S o := rfl
  simp only [hv0]
  rw [lessThan_eq (by omega) (idx : F p) fieldNum, val_natCast_lt hidx]
  rw [lenCands_eq S o (lenPrefixMaxHexs mx) (cells.rotate o) (fun j hj => hrd j (by omega))]
  generalize hlp : lenPrefixMaxHexs mx = lpm at *
  generalize (if byteAt S o = 0xc0 then (2 : F p) else 1) = cv
  by_cases hact : idx < fieldNum.val
  · simp only [if_pos hact, mul_one, one_mul, or_act, Option.bind_some]
    by_cases hbig : 0 < lenOfLen (byteAt S o)
    · have hnl := big_not_lit _ hbig
      simp only [if_pos hbig, if_neg hnl, fp_big _ hbig, one_mul, zero_mul, mul_zero, sub_zero,
        add_zero]
      have hh : hdrLen (byteAt S o) = 2 + 2 * lenOfLen (byteAt S o) := by
        unfold hdrLen; rw [if_neg hnl]
      have e1 : (2 : F p) + ((2 * lenOfLen (byteAt S o) : ℕ) : F p)
          = ((hdrLen (byteAt S o) : ℕ) : F p) := by rw [hh]; push_cast; ring
      rw [e1, shift_eq_local cells _ o lpm hclen _ hlpm0 (by omega) (by omega) (by omega)]
      have hsel : (((2 * lenOfLen (byteAt S o) : ℕ) : F p) - 1)
          = ((2 * lenOfLen (byteAt S o) - 1 : ℕ) : F p) := by
        rw [Nat.cast_sub (by omega)]; simp
      by_cases hfit : hdrLen (byteAt S o) < 2 ^ lpm.size
      · rw [if_pos hfit]
        simp only [Option.bind_some]
        rw [hfull]
        simp only [Option.bind_some]
        rw [muxLen_eq S o lpm _ _ (by omega) (by omega) hsel]
        by_cases hlt : 2 * lenOfLen (byteAt S o) - 1 < lpm
        · rw [if_pos hlt, if_pos (show itemFits S o lpm from ⟨by omega, hfit⟩)]
          simp only [Option.bind_some, List.getElem?_cons_zero, Option.pure_def, Option.some.injEq]
          rw [show 2 * lenOfLen (byteAt S o) - 1 + 1 = 2 * lenOfLen (byteAt S o) by omega]
          have hpay := payLen_big S o hbig
          have e2 : ∀ x : F p, ((2 * lenOfLen (byteAt S o) : ℕ) : F p)
              + (((beNum S (o + 2) (2 * lenOfLen (byteAt S o)) : ℕ) : F p) * 2 - x) = 
              ((2 * lenOfLen (byteAt S o) : ℕ) : F p) + ((payLen S o : ℕ) : F p) - x := by
            intro x; rw [hpay]; push_cast; ring
          rw [e2]
          have e3 : ((2 * lenOfLen (byteAt S o) : ℕ) : F p) + ((payLen S o : ℕ) : F p)
              - ((2 * lenOfLen (byteAt S o) : ℕ) : F p) = ((payLen S o : ℕ) : F p) := by ring
          rw [e3]
          congr 1
          rw [Nat.cast_add, ← e1]; ring
        · rw [if_neg hlt, if_neg (by rintro ⟨h, _⟩; omega)]; rfl
      · rw [if_neg hfit, if_neg (by rintro ⟨_, h⟩; exact hfit h)]; rfl
    · have hll0 : lenOfLen (byteAt S o) = 0 := by omega
      simp only [if_neg hbig, zero_mul, add_zero, mul_zero, zero_sub]
      have hmux := muxLen_eq S o lpm 0 (0 : F p) (by omega) (by omega) (by simp)
      rw [if_pos hlpm0] at hmux
      by_cases hlit : byteAt S o < 0x80
      · have hh : hdrLen (byteAt S o) = 0 := by unfold hdrLen; rw [if_pos hlit]
        have hpay : payLen S o = 2 := by unfold payLen; rw [if_pos hlit]
        have hfp : fpHexLen (byteAt S o) = 0 := by unfold fpHexLen; rw [if_pos hlit]
        simp only [if_pos hlit, one_mul, sub_self]
        have := shift_eq_local cells _ o lpm hclen 0 hlpm0 (by omega) (by omega) (by omega)
        rw [Nat.cast_zero] at this
        rw [this, if_pos (Nat.two_pow_pos _)]
        simp only [Option.bind_some]
        rw [hfull]
        simp only [Option.bind_some]
        rw [hmux, if_pos (show itemFits S o lpm from ⟨by omega, by rw [hh]; exact Nat.two_pow_pos _⟩)]
        simp [hh, hpay, hfp]
      · have hh : hdrLen (byteAt S o) = 2 := by unfold hdrLen; rw [if_neg hlit, hll0]
        have hpay := payLen_small S o hlit hbig
        simp only [if_neg hlit, zero_mul, sub_zero]
        have hshift := shift_eq_local cells _ o lpm hclen 2 hlpm0 (by omega) (by omega) (by omega)
        rw [Nat.cast_ofNat] at hshift
        have hs2 : 2 ≤ lpm.size := by
          have h2 : 2 ≤ lpm := by rw [← hlp]; unfold lenPrefixMaxHexs; omega
          by_contra hcon
          have : lpm < 2 ^ 1 := Nat.size_le.1 (by omega)
          omega
        have h22 : 2 < 2 ^ lpm.size :=
          lt_of_lt_of_le (by norm_num) (Nat.pow_le_pow_right (by norm_num : 0 < 2) hs2)
        rw [hshift, if_pos h22]
        simp only [Option.bind_some]
        rw [hfull]
        simp only [Option.bind_some]
        rw [hmux, if_pos (show itemFits S o lpm from ⟨by omega, by rw [hh]; exact h22⟩)]
        simp [hh, hpay]
        ring
  · simp only [if_neg hact, mul_zero, zero_mul, or_inact, Option.bind_some, one_mul,
      sub_self, add_zero]
    have := shift_eq_local cells _ o lpm hclen 0 hlpm0 (by omega) (by omega) (by omega)
    rw [Nat.cast_zero] at this
    rw [this, if_pos (Nat.two_pow_pos _)]
    simp only [Option.bind_some, Nat.add_zero]
    rw [hfull]
    simp only [Option.bind_some]
    have hmux := muxLen_eq S o lpm 0 (0 : F p) (by omega) (by omega) (by simp)
    rw [if_pos hlpm0] at hmux
    rw [hmux]
    simp


/-- Body of `RlpArrayCheck`'s loop after alignment. -/
theorem arrayBody (hp : 2 ^ 128 < p) (a : ArrayCheck) (fieldNum : F p) (inp : List (F p))
    (prefix1 : F p) (st : AcState p) (idx o : ℕ) (cells : List (F p)) (S : ℕ → ℕ)
    (hc : CellsOf cells a.maxHexLen S) (hidx : idx < p)
    (mx : ℕ) (hmx : a.fieldMax[idx]? = some mx) (hmx2 : mx < 2 ^ 60)
    (hroom : 2 + lenPrefixMaxHexs mx ≤ a.maxHexLen)
    (halign : alignItem a 10 inp prefix1 st idx = some (cells.rotate o)) :
    rlpArrayStep a fieldNum inp prefix1 st idx =
      if idx < fieldNum.val then
        (open Classical in if itemFits S o (lenPrefixMaxHexs mx) then
          some { shifted := cells.rotate (o + hdrLen (byteAt S o))
                 lens := st.lens ++ [((payLen S o : ℕ) : F p)]
                 fields := st.fields ++ [cells.rotate (o + hdrLen (byteAt S o))]
                 check := st.check + (if byteAt S o = 0xc0 then 2 else 1)
                 lenSum := st.lenSum + ((hdrLen (byteAt S o) + payLen S o : ℕ) : F p) }
        else none)
      else
        some { shifted := cells.rotate o, lens := st.lens ++ [0],
               fields := st.fields ++ [cells.rotate o], check := st.check, lenSum := st.lenSum } :=
  arrayBody_local hp a fieldNum inp prefix1 st idx o cells S hc.len hc.nib hidx mx
    (fun j hj => hc.rot o j (by omega)) hmx hmx2 hroom halign

/-! ### The whole loop of `RlpArrayCheck` -/

section loop
variable (a : ArrayCheck) (S : ℕ → ℕ) (num : ℕ)

def mn (i : ℕ) : ℕ := a.fieldMin.getD i 0
def mx (i : ℕ) : ℕ := a.fieldMax.getD i 0

/-- header/payload lengths used by the gadget: items beyond `num` count as empty -/
def hdr' (i o : ℕ) : ℕ := if i < num then hdrLen (byteAt S o) else 0
def len' (i o : ℕ) : ℕ := if i < num then payLen S o else 0

end loop

section gen
variable (a : ArrayCheck) (S : ℕ → ℕ) (hd ln : ℕ → ℕ → ℕ)

/-- how far the gadget moves from payload `i` to item `i+1` -/
def gAdv (i o : ℕ) : ℕ := if mn a i = mx a i then mn a i else ln i o

/-- offset at which a list checker reads item `i`, when it skips `hd i o` header nibbles and reports
length `ln i o` for the item at offset `o` -/
def gOff : ℕ → ℕ
  | 0 => 2 + ahPrefix1 (byteAt S 0)
  | i + 1 => gOff i + hd i (gOff i) + gAdv a ln i (gOff i)

/-- alignment condition of iteration `k` -/
def gAlign (firstMax k : ℕ) : Prop :=
  if k = 0 then gOff a S hd ln 0 < 2 ^ firstMax.size
  else mn a (k - 1) = mx a (k - 1) ∨
    (mn a (k - 1) ≤ ln (k - 1) (gOff a S hd ln (k - 1)) ∧
      ln (k - 1) (gOff a S hd ln (k - 1)) < mn a (k - 1) + 2 ^ (mx a (k - 1) - mn a (k - 1)).size)

end gen

section loop
variable (a : ArrayCheck) (S : ℕ → ℕ) (num : ℕ)

abbrev acOff (i : ℕ) : ℕ := gOff a S (hdr' S num) (len' S num) i

/-- satisfiability condition of iteration `i` -/
def acCond (firstMax : ℕ) (i : ℕ) : Prop :=
  gAlign a S (hdr' S num) (len' S num) firstMax i ∧
  (i < num → itemFits S (acOff a S num i) (lenPrefixMaxHexs (mx a i)))

/-- number of 0xc0 items among the active ones -/
def c0Count (k : ℕ) : ℕ :=
  ((List.range k).filter fun i => decide (i < num ∧ byteAt S (acOff a S num i) = 0xc0)).length

/-- sum of the lengths of the first `k` items, as accumulated by the gadget -/
def lenSumNat : ℕ → ℕ
  | 0 => 0
  | k + 1 => lenSumNat k + (hdr' S num k (acOff a S num k) + len' S num k (acOff a S num k))

/-- loop state before iteration `k` -/
def acState (cells : List (F p)) (check0 : F p) (k : ℕ) : AcState p where
  shifted := if k = 0 then [] else
    cells.rotate (acOff a S num (k - 1) + hdr' S num (k - 1) (acOff a S num (k - 1)))
  lens := (List.range k).map fun i => ((len' S num i (acOff a S num i) : ℕ) : F p)
  fields := (List.range k).map fun i => cells.rotate (acOff a S num i + hdr' S num i (acOff a S num i))
  check := check0 + ((min k num + c0Count a S num k : ℕ) : F p)
  lenSum := ((lenSumNat a S num k : ℕ) : F p)

end loop

/-- Well-formed parameters (all parameter sets of the repository satisfy it, see the examples). -/
structure ArrayCheck.WF (a : ArrayCheck) : Prop where
  apm : 2 + a.arrayPrefixMaxHexLen ≤ a.maxHexLen
  hmin : a.maxFields ≤ a.fieldMin.length
  hmax : a.maxFields ≤ a.fieldMax.length
  le : ∀ i < a.maxFields, a.fieldMin.getD i 0 ≤ a.fieldMax.getD i 0
  small : ∀ i < a.maxFields, a.fieldMax.getD i 0 < 2 ^ 60
  room : ∀ i < a.maxFields, 2 + lenPrefixMaxHexs (a.fieldMax.getD i 0) ≤ a.maxHexLen
  fields : a.maxFields < 2 ^ 60
  hex : a.maxHexLen < 2 ^ 60

theorem len'_lt (S : ℕ → ℕ) (hS : ∀ k, S k < 16) (num i o : ℕ) : len' S num i o < 2 ^ 65 := by
  unfold len'
  split
  · exact payLen_lt S hS o
  · norm_num

theorem alignItem_local (hp : 2 ^ 128 < p) (a : ArrayCheck) (hwf : a.WF) (inp : List (F p)) (S : ℕ → ℕ)
    (hclen : (inp.take a.maxHexLen).length = a.maxHexLen) (hnib : ∀ k, S k < 16) (hd ln : ℕ → ℕ → ℕ) (firstMax k : ℕ)
    (hln : ∀ i o, ln i o < 2 ^ 66)
    (hf0 : 0 < firstMax) (hf : firstMax < 2 ^ 60) (st : AcState p)
    (hsh : st.shifted = if k = 0 then [] else (inp.take a.maxHexLen).rotate
      (gOff a S hd ln (k - 1) + hd (k - 1) (gOff a S hd ln (k - 1))))
    (hlen : 0 < k → st.lens[k - 1]? = some ((ln (k - 1) (gOff a S hd ln (k - 1)) : ℕ) : F p))
    (hk : k < a.maxFields) :
    alignItem a firstMax inp ((ahPrefix1 (byteAt S 0) : ℕ) : F p) st k =
      (open Classical in if gAlign a S hd ln firstMax k
      then some ((inp.take a.maxHexLen).rotate (gOff a S hd ln k)) else none) := by
  have hlenn : a.maxHexLen ≤ inp.length := by
    have := hclen; rw [List.length_take] at this; omega
  have hv := byteAt_lt S hnib 0
  unfold alignItem gAlign
  by_cases hk0 : k = 0
  · subst hk0
    simp only [if_true]
    rw [mapM_getElem? _ _ hlenn]
    simp only [Option.bind_eq_bind, Option.bind_some]
    have hpre : ahPrefix1 (byteAt S 0) ≤ 16 := by unfold ahPrefix1; split_ifs <;> omega
    have h := shift_eq_local (inp.take a.maxHexLen) a.maxHexLen 0 firstMax hclen
      (2 + ahPrefix1 (byteAt S 0)) hf0 hf (by omega) (by omega)
    rw [List.rotate_zero, Nat.cast_add, Nat.cast_ofNat] at h
    rw [h]
    by_cases hq : 2 + ahPrefix1 (byteAt S 0) < 2 ^ firstMax.size
    · rw [if_pos hq, if_pos (show gOff a S hd ln 0 < 2 ^ firstMax.size from hq)]
      simp [gOff]
    · rw [if_neg hq, if_neg (show ¬ gOff a S hd ln 0 < 2 ^ firstMax.size from hq)]
  · simp only [if_neg hk0] at hsh ⊢
    rw [hsh, mapM_getElem? _ _ (by simp [hlenn]), hlen (by omega)]
    have h1 : a.fieldMin[k - 1]? = some (mn a (k - 1)) := by
      have := hwf.hmin
      rw [List.getElem?_eq_getElem (by omega), mn, List.getD_eq_getElem _ _ (by omega)]
    have h2 : a.fieldMax[k - 1]? = some (mx a (k - 1)) := by
      have := hwf.hmax
      rw [List.getElem?_eq_getElem (by omega), mx, List.getD_eq_getElem _ _ (by omega)]
    rw [h1, h2]
    have hle : mn a (k - 1) ≤ mx a (k - 1) := hwf.le (k - 1) (by omega)
    have hsm : mx a (k - 1) < 2 ^ 60 := hwf.small (k - 1) (by omega)
    have hl := hln (k - 1) (gOff a S hd ln (k - 1))
    simp only [Option.bind_eq_bind, Option.bind_some]
    have hoff : gOff a S hd ln k = gOff a S hd ln (k - 1) + hd (k - 1) (gOff a S hd ln (k - 1))
        + gAdv a ln (k - 1) (gOff a S hd ln (k - 1)) := by
      conv_lhs => rw [show k = (k - 1) + 1 by omega]
      rfl
    rw [List.take_of_length_le (l := List.rotate _ _) (by simp [hlenn])]
    rw [hoff]
    unfold gAdv
    by_cases heq : mn a (k - 1) = mx a (k - 1)
    · rw [if_pos (Or.inl heq), if_pos heq, ← heq, shiftLeft_same _ _ _ _ (by simp [hlenn]),
        List.take_of_length_le (l := List.rotate _ _) (by simp [hlenn]), List.rotate_rotate]
    · rw [if_neg heq]
      have hs : (mx a (k - 1) - mn a (k - 1)).size ≤ 60 := Nat.size_le.2 (by omega)
      have h2s : 2 ^ (mx a (k - 1) - mn a (k - 1)).size ≤ 2 ^ 60 :=
        Nat.pow_le_pow_right (by norm_num) hs
      rw [C03_shiftLeft_rotates _ _ _ _ _ (by simp [hlenn]) (by omega) (by omega) (by omega),
        val_natCast_lt (by omega),
        List.take_of_length_le (l := List.rotate _ _) (by simp [hlenn]), List.rotate_rotate]
      simp only [heq, false_or]

theorem alignItem_eq (hp : 2 ^ 128 < p) (a : ArrayCheck) (hwf : a.WF) (inp : List (F p)) (S : ℕ → ℕ)
    (hc : CellsOf (inp.take a.maxHexLen) a.maxHexLen S) (hd ln : ℕ → ℕ → ℕ) (firstMax k : ℕ)
    (hln : ∀ i o, ln i o < 2 ^ 66)
    (hf0 : 0 < firstMax) (hf : firstMax < 2 ^ 60) (st : AcState p)
    (hsh : st.shifted = if k = 0 then [] else (inp.take a.maxHexLen).rotate
      (gOff a S hd ln (k - 1) + hd (k - 1) (gOff a S hd ln (k - 1))))
    (hlen : 0 < k → st.lens[k - 1]? = some ((ln (k - 1) (gOff a S hd ln (k - 1)) : ℕ) : F p))
    (hk : k < a.maxFields) :
    alignItem a firstMax inp ((ahPrefix1 (byteAt S 0) : ℕ) : F p) st k =
      (open Classical in if gAlign a S hd ln firstMax k
      then some ((inp.take a.maxHexLen).rotate (gOff a S hd ln k)) else none) :=
  alignItem_local hp a hwf inp S hc.len hc.nib hd ln firstMax k hln hf0 hf st hsh hlen hk

theorem c0Count_succ (a : ArrayCheck) (S : ℕ → ℕ) (num k : ℕ) :
    c0Count a S num (k + 1) = c0Count a S num k +
      if k < num ∧ byteAt S (acOff a S num k) = 0xc0 then 1 else 0 := by
  unfold c0Count
  rw [List.range_succ, List.filter_append, List.length_append]
  by_cases h : k < num ∧ byteAt S (acOff a S num k) = 0xc0 <;> simp [h]

/-- The first `m` iterations of `RlpArrayCheck`'s loop; only the cells of the item headers have to be nibbles. -/
theorem rlpArrayLoop_local (hp : 2 ^ 128 < p) (a : ArrayCheck) (hwf : a.WF) (inp : List (F p)) (S : ℕ → ℕ)
    (hclen : (inp.take a.maxHexLen).length = a.maxHexLen) (hnib : ∀ k, S k < 16) (fieldNum check0 : F p) (m : ℕ)
    (hm : m ≤ a.maxFields)
    (hrd : ∀ i < m, ∀ j < 2 + lenPrefixMaxHexs (mx a i), ((inp.take a.maxHexLen).rotate (acOff a S fieldNum.val i))[j]? =
      some ((S (acOff a S fieldNum.val i + j) : ℕ) : F p)) :
    (List.range m).foldlM
      (rlpArrayStep a fieldNum inp ((ahPrefix1 (byteAt S 0) : ℕ) : F p))
      { shifted := [], lens := [], fields := [], check := check0, lenSum := 0 } =
      (open Classical in if ∀ i < m, acCond a S fieldNum.val 10 i then
        some (acState a S fieldNum.val (inp.take a.maxHexLen) check0 m) else none) := by
  classical
  refine foldlM_range_ite (acState a S fieldNum.val (inp.take a.maxHexLen) check0) _ _ _ ?_ ?_
  · simp [acState, lenSumNat, c0Count]
  · intro k hk0
    have hk : k < a.maxFields := by omega
    have halign := alignItem_local hp a hwf inp S hclen hnib (hdr' S fieldNum.val) (len' S fieldNum.val) 10 k
      (fun i o => (len'_lt S hnib _ i o).trans (by norm_num)) (by norm_num) (by norm_num)
      (acState a S fieldNum.val (inp.take a.maxHexLen) check0 k) rfl
      (fun h0 => by simp only [acState]; rw [List.getElem?_map, List.getElem?_range (by omega)]; rfl) hk
    by_cases hA : gAlign a S (hdr' S fieldNum.val) (len' S fieldNum.val) 10 k
    · rw [if_pos hA] at halign
      have hmx : a.fieldMax[k]? = some (mx a k) := by
        have := hwf.hmax
        rw [List.getElem?_eq_getElem (by omega), mx, List.getD_eq_getElem _ _ (by omega)]
      rw [arrayBody_local hp a fieldNum inp _ _ k (acOff a S fieldNum.val k) (inp.take a.maxHexLen) S hclen hnib
        (by have := hwf.fields; omega) (mx a k) (hrd k hk0) hmx (hwf.small k hk) (hwf.room k hk) halign]
      by_cases hact : k < fieldNum.val
      · rw [if_pos hact]
        by_cases hfit : itemFits S (acOff a S fieldNum.val k) (lenPrefixMaxHexs (mx a k))
        · rw [if_pos hfit, if_pos (show acCond a S fieldNum.val 10 k from ⟨hA, fun _ => hfit⟩)]
          simp only [acState, Option.some.injEq, AcState.mk.injEq, if_neg (Nat.succ_ne_zero k),
            Nat.add_sub_cancel, List.range_succ, List.map_append, List.map_cons, List.map_nil,
            hdr', len', if_pos hact, lenSumNat, c0Count_succ, true_and]
          refine ⟨?_, ?_⟩
          · rw [show min (k + 1) fieldNum.val = min k fieldNum.val + 1 by omega]
            by_cases hc0 : byteAt S (acOff a S fieldNum.val k) = 0xc0
            · simp only [hc0, hact, and_self, if_true]; push_cast; ring
            · simp only [hc0, and_false, if_false]; push_cast; ring
          · push_cast; ring
        · rw [if_neg hfit, if_neg (show ¬ acCond a S fieldNum.val 10 k from fun h => hfit (h.2 hact))]
      · rw [if_neg hact, if_pos (show acCond a S fieldNum.val 10 k from ⟨hA, fun h => absurd h hact⟩)]
        simp only [acState, Option.some.injEq, AcState.mk.injEq, if_neg (Nat.succ_ne_zero k),
          Nat.add_sub_cancel, List.range_succ, List.map_append, List.map_cons, List.map_nil,
          hdr', len', if_neg hact, lenSumNat, c0Count_succ, false_and, if_false]
        rw [show min (k + 1) fieldNum.val = min k fieldNum.val by omega]
        simp
        exact fun h => absurd h hact
    · rw [if_neg (show ¬ acCond a S fieldNum.val 10 k from fun h => hA h.1)]
      rw [if_neg hA] at halign
      unfold rlpArrayStep
      rw [halign]; rfl

theorem rlpArrayLoop_eq (hp : 2 ^ 128 < p) (a : ArrayCheck) (hwf : a.WF) (inp : List (F p)) (S : ℕ → ℕ)
    (hc : CellsOf (inp.take a.maxHexLen) a.maxHexLen S) (fieldNum check0 : F p) :
    (List.range a.maxFields).foldlM
      (rlpArrayStep a fieldNum inp ((ahPrefix1 (byteAt S 0) : ℕ) : F p))
      { shifted := [], lens := [], fields := [], check := check0, lenSum := 0 } =
      (open Classical in if ∀ i < a.maxFields, acCond a S fieldNum.val 10 i then
        some (acState a S fieldNum.val (inp.take a.maxHexLen) check0 a.maxFields) else none) :=
  rlpArrayLoop_local hp a hwf inp S hc.len hc.nib fieldNum check0 a.maxFields le_rfl
    (fun i hi j hj => hc.rot _ j (by have := hwf.room i hi; unfold mx at hj; omega))

/-- Complete functional description of `RlpArrayCheck` when the cells of the list header and of the item headers are nibbles. -/
theorem rlpArrayCheck_local (hp : 2 ^ 128 < p) (a : ArrayCheck) (hwf : a.WF) (inp : List (F p)) (S : ℕ → ℕ)
    (hclen : (inp.take a.maxHexLen).length = a.maxHexLen) (hnib : ∀ k, S k < 16) (fieldNum : F p)
    (hget : ∀ j < 2 + a.arrayPrefixMaxHexLen, inp[j]? = some ((S j : ℕ) : F p))
    (hrd : ∀ i < a.maxFields, ∀ j < 2 + lenPrefixMaxHexs (mx a i),
      ((inp.take a.maxHexLen).rotate (acOff a S fieldNum.val i))[j]? =
        some ((S (acOff a S fieldNum.val i + j) : ℕ) : F p)) :
    rlpArrayCheck a inp fieldNum =
      (open Classical in if (0 < a.arrayPrefixMaxHexLen ∧ ahPrefix1 (byteAt S 0) ≤ a.arrayPrefixMaxHexLen) ∧
          ∀ i < a.maxFields, acCond a S fieldNum.val 10 i then
        some { out := isZero ((((if 0xc0 ≤ byteAt S 0 then 1 else 0) +
                  ((min a.maxFields fieldNum.val + c0Count a S fieldNum.val a.maxFields : ℕ) : F p)) +
                  isZero (((ahTotal S : ℕ) : F p) - ((lenSumNat a S fieldNum.val a.maxFields : ℕ) : F p)))
                  - (fieldNum + 2))
               total := ((2 + ahPrefix1 (byteAt S 0) + ahTotal S : ℕ) : F p)
               lens := (List.range a.maxFields).map fun i =>
                ((len' S fieldNum.val i (acOff a S fieldNum.val i) : ℕ) : F p)
               fields := (List.range a.maxFields).map fun i => (inp.take a.maxHexLen).rotate
                (acOff a S fieldNum.val i + hdr' S fieldNum.val i (acOff a S fieldNum.val i)) }
      else none) := by
  have hlenn : a.maxHexLen ≤ inp.length := by
    have := hclen; rw [List.length_take] at this; omega
  unfold rlpArrayCheck
  rw [arrayHeader_eq (by omega) S hnib _ _ hget (by have := hwf.apm; have := hwf.hex; omega)]
  by_cases h1 : 0 < a.arrayPrefixMaxHexLen ∧ ahPrefix1 (byteAt S 0) ≤ a.arrayPrefixMaxHexLen
  · rw [if_pos h1]
    simp only [Option.bind_eq_bind, Option.bind_some]
    rw [rlpArrayLoop_local hp a hwf inp S hclen hnib fieldNum _ a.maxFields le_rfl hrd]
    generalize (if 0xc0 ≤ byteAt S 0 then (1 : F p) else 0) = iv
    by_cases h2 : ∀ i < a.maxFields, acCond a S fieldNum.val 10 i
    · rw [if_pos h2, if_pos (⟨h1, h2⟩ : _ ∧ _)]
      simp only [Option.bind_some, Option.pure_def, acState]
      push_cast
      rfl
    · rw [if_neg h2, if_neg (fun h => h2 h.2)]; rfl
  · rw [if_neg h1, if_neg (fun h => h1 h.1)]; rfl

/-- Complete functional description of `RlpArrayCheck` on nibble inputs. -/
theorem rlpArrayCheck_eq (hp : 2 ^ 128 < p) (a : ArrayCheck) (hwf : a.WF) (inp : List (F p)) (S : ℕ → ℕ)
    (hc : CellsOf (inp.take a.maxHexLen) a.maxHexLen S) (fieldNum : F p) :
    rlpArrayCheck a inp fieldNum =
      (open Classical in if (0 < a.arrayPrefixMaxHexLen ∧ ahPrefix1 (byteAt S 0) ≤ a.arrayPrefixMaxHexLen) ∧
          ∀ i < a.maxFields, acCond a S fieldNum.val 10 i then
        some { out := isZero ((((if 0xc0 ≤ byteAt S 0 then 1 else 0) +
                  ((min a.maxFields fieldNum.val + c0Count a S fieldNum.val a.maxFields : ℕ) : F p)) +
                  isZero (((ahTotal S : ℕ) : F p) - ((lenSumNat a S fieldNum.val a.maxFields : ℕ) : F p)))
                  - (fieldNum + 2))
               total := ((2 + ahPrefix1 (byteAt S 0) + ahTotal S : ℕ) : F p)
               lens := (List.range a.maxFields).map fun i =>
                ((len' S fieldNum.val i (acOff a S fieldNum.val i) : ℕ) : F p)
               fields := (List.range a.maxFields).map fun i => (inp.take a.maxHexLen).rotate
                (acOff a S fieldNum.val i + hdr' S fieldNum.val i (acOff a S fieldNum.val i)) }
      else none) := by
  have hget : ∀ j < 2 + a.arrayPrefixMaxHexLen, inp[j]? = some ((S j : ℕ) : F p) := by
    intro j hj
    have h1 := hwf.apm
    have h2 := hc.get j
    rw [Nat.mod_eq_of_lt (by omega), List.getElem?_take_of_lt (by omega)] at h2
    exact h2
  exact rlpArrayCheck_local hp a hwf inp S hc.len hc.nib fieldNum hget
    (fun i hi j hj => hc.rot _ j (by have := hwf.room i hi; unfold mx at hj; omega))

end Verif.Rlp
