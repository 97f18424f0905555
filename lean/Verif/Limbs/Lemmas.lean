import Verif.Limbs.Spec
import Verif.Util

namespace Verif.Limbs
open Api
variable {p : ℕ}

/-- Sum of the sizes. -/
def tot (ws : List (Limb p)) : ℕ := (ws.map Limb.size).sum

/-- The limbs as a natural number. -/
def nsum : List (Limb p) → ℕ
  | [] => 0
  | l :: ls => l.val.val * 2 ^ tot ls + nsum ls

@[simp] theorem tot_nil : tot ([] : List (Limb p)) = 0 := rfl
@[simp] theorem tot_cons (l : Limb p) (ls : List (Limb p)) : tot (l :: ls) = l.size + tot ls := by simp [tot]
@[simp] theorem tot_append (a b : List (Limb p)) : tot (a ++ b) = tot a + tot b := by simp [tot]

theorem totalSize_eq (ws : List (Limb p)) : totalSize ws = tot ws := by
  have : ∀ t, ws.foldl (fun t w => t + w.size) t = t + tot ws := by
    induction ws with
    | nil => intro t; simp
    | cons w ws ih => intro t; simp [ih]; omega
  simp [totalSize, this]

theorem bitsBE_length (w x : ℕ) : (bitsBE w x).length = w := by simp [bitsBE]

theorem bitsBE_getElem (w x i : ℕ) (h : i < w) :
    (bitsBE w x)[i]'(by simpa [bitsBE] using h) = x.testBit (w - 1 - i) := by simp [bitsBE]

theorem bitsBE_add (a b x y : ℕ) (hy : y < 2 ^ b) :
    bitsBE (a + b) (x * 2 ^ b + y) = bitsBE a x ++ bitsBE b y := by
  apply List.ext_getElem
  · simp [bitsBE]
  intro i h1 h2
  rw [bitsBE_length] at h1
  rw [bitsBE_getElem _ _ _ h1, List.getElem_append]
  have ht : ∀ j, (x * 2 ^ b + y).testBit j = if j < b then y.testBit j else x.testBit (j - b) := by
    intro j
    rw [Nat.mul_comm, Nat.testBit_two_pow_mul_add x hy]
  rw [ht]
  simp only [bitsBE_length]
  by_cases hi : i < a
  · rw [dif_pos hi, if_neg (by omega), bitsBE_getElem _ _ _ hi]
    congr 1; omega
  · rw [dif_neg hi, if_pos (by omega), bitsBE_getElem _ _ _ (by omega)]
    congr 1; omega

theorem bitsBE_inj {w x y : ℕ} (hx : x < 2 ^ w) (hy : y < 2 ^ w) (h : bitsBE w x = bitsBE w y) : x = y := by
  apply Nat.eq_of_testBit_eq
  intro i
  by_cases hi : i < w
  · have := congrArg (fun l => l[w - 1 - i]?) h
    simp only [bitsBE, List.getElem?_map, List.getElem?_range (show w - 1 - i < w by omega), Option.map_some,
      Option.some.injEq, show w - 1 - (w - 1 - i) = i by omega] at this
    exact this
  · rw [Nat.testBit_lt_two_pow (lt_of_lt_of_le hx (Nat.pow_le_pow_right (by decide) (by omega))),
      Nat.testBit_lt_two_pow (lt_of_lt_of_le hy (Nat.pow_le_pow_right (by decide) (by omega)))]

theorem numBE_append (a b : List Bool) : numBE (a ++ b) = numBE a * 2 ^ b.length + numBE b := by
  have key : ∀ (l : List Bool) (n : ℕ), l.foldl (fun n b => 2 * n + b.toNat) n = n * 2 ^ l.length + numBE l := by
    intro l
    induction l with
    | nil => intro n; simp [numBE]
    | cons c l ih =>
      intro n
      have h1 : numBE (c :: l) = (2 * 0 + c.toNat) * 2 ^ l.length + numBE l := ih _
      rw [List.foldl_cons, ih, h1, List.length_cons, pow_succ]
      ring
  show (a ++ b).foldl (fun n b => 2 * n + b.toNat) 0 = _
  rw [List.foldl_append, key b]
  rfl

theorem numBE_lt (l : List Bool) : numBE l < 2 ^ l.length := by
  induction l using List.reverseRecOn with
  | nil => simp [numBE]
  | append_singleton l b ih =>
    rw [numBE_append, List.length_append, List.length_singleton, pow_succ]
    have : numBE [b] ≤ 1 := by cases b <;> simp [numBE]
    simp; omega

theorem bitsBE_numBE (l : List Bool) : bitsBE l.length (numBE l) = l := by
  induction l using List.reverseRecOn with
  | nil => rfl
  | append_singleton l b ih =>
    rw [numBE_append, List.length_append, List.length_singleton,
      bitsBE_add _ _ _ _ (by have := numBE_lt [b]; simpa using this), ih]
    cases b <;> rfl

theorem numBE_bitsBE {w x : ℕ} (hx : x < 2 ^ w) : numBE (bitsBE w x) = x := by
  have h1 := numBE_lt (bitsBE w x)
  have h2 := bitsBE_numBE (bitsBE w x)
  rw [bitsBE_length] at h1 h2
  exact bitsBE_inj h1 hx h2

theorem nsum_lt {ws : List (Limb p)} (h : InRange ws) : nsum ws < 2 ^ tot ws := by
  induction ws with
  | nil => simp [nsum]
  | cons l ls ih =>
    have h1 := h l (by simp)
    have h2 := ih (fun l hl => h l (by simp [hl]))
    simp only [nsum, tot_cons, pow_add]
    calc l.val.val * 2 ^ tot ls + nsum ls < l.val.val * 2 ^ tot ls + 2 ^ tot ls := by omega
      _ = (l.val.val + 1) * 2 ^ tot ls := by ring
      _ ≤ _ := Nat.mul_le_mul_right _ h1

theorem bitStr_eq {ws : List (Limb p)} (h : InRange ws) : bitStr ws = bitsBE (tot ws) (nsum ws) := by
  induction ws with
  | nil => rfl
  | cons l ls ih =>
    have h' : InRange ls := fun l hl => h l (by simp [hl])
    simp only [nsum, tot_cons]
    rw [bitsBE_add _ _ _ _ (nsum_lt h'), ← ih h']
    simp [bitStr]

theorem bitStr_length (ws : List (Limb p)) : (bitStr ws).length = tot ws := by
  induction ws with
  | nil => rfl
  | cons l ls ih =>
    simp only [bitStr, List.flatMap_cons, List.length_append, bitsBE_length, tot_cons] at *
    rw [ih]

theorem nsum_eq {ws : List (Limb p)} (h : InRange ws) : nsum ws = numBE (bitStr ws) := by
  rw [bitStr_eq h, numBE_bitsBE (nsum_lt h)]

theorem weighted_append (a b : List (Limb p)) :
    weighted (a ++ b) = weighted a * 2 ^ tot b + weighted b := by
  induction a with
  | nil => simp [weighted]
  | cons l ls ih =>
    simp only [List.cons_append, weighted, ih, List.map_append, List.sum_append, pow_add]
    simp only [tot]; ring

theorem nsum_append (a b : List (Limb p)) : nsum (a ++ b) = nsum a * 2 ^ tot b + nsum b := by
  induction a with
  | nil => simp [nsum]
  | cons l ls ih => simp only [List.cons_append, nsum, ih, tot_append, pow_add]; ring

theorem weighted_eq_nsum [NeZero p] (ws : List (Limb p)) : weighted ws = ((nsum ws : ℕ) : F p) := by
  induction ws with
  | nil => simp [weighted, nsum]
  | cons l ls ih =>
    simp only [weighted, nsum, Nat.cast_add, Nat.cast_mul, Nat.cast_pow, ih, Nat.cast_ofNat]
    rw [ZMod.natCast_zmod_val]; rfl

theorem exp2_nat (n : ℕ) : exp2 (n : ℤ) = 2 ^ n := by simp [exp2]

/-- `Merge` of a nonempty list is the weighted sum. -/
theorem merge_eq (ws : List (Limb p)) (h : ws ≠ []) : merge ws = some ⟨weighted ws, tot ws⟩ := by
  have key : ∀ (ws : List (Limb p)) (a : F p), ws.foldl (fun (s : F p × ℤ) w =>
      let nbZeros := s.2 - w.size
      (s.1 + w.val * (exp2 nbZeros : ℕ), nbZeros)) (a, (tot ws : ℤ)) = (a + weighted ws, 0) := by
    intro ws
    induction ws with
    | nil => intro a; simp [weighted]
    | cons w ws ih =>
      intro a
      simp only [List.foldl_cons, tot_cons]
      rw [show ((w.size + tot ws : ℕ) : ℤ) - (w.size : ℤ) = (tot ws : ℤ) by push_cast; ring]
      rw [ih, exp2_nat]
      simp only [weighted, tot]
      push_cast
      rw [add_assoc]
  match ws, h with
  | [w], _ => simp [merge, weighted]
  | w :: w' :: ws, _ =>
    simp only [merge]
    rw [totalSize_eq, key]
    simp

/-- The loop of `Split`. -/
theorem split_loop (out : List (F p)) (size s : ℕ) (n : ℕ) (hn : n * s ≤ size) (hl : n ≤ out.length) :
    (List.range n).foldl (fun (st : F p × List (Limb p)) (i : ℕ) =>
          let nbZeros : ℤ := size - ((i : ℤ) + 1) * s
          (st.1 + out.getD i 0 * (exp2 nbZeros : ℕ), st.2 ++ [⟨out.getD i 0, s⟩])) (0, [])
      = (weighted ((out.take n).map fun v => (⟨v, s⟩ : Limb p)) * 2 ^ (size - n * s),
          (out.take n).map fun v => (⟨v, s⟩ : Limb p)) := by
  induction n with
  | zero => simp [weighted]
  | succ n ih =>
    rw [Nat.succ_mul] at hn
    have hlt : n < out.length := by omega
    rw [List.range_succ, List.foldl_append, ih (by omega) (by omega)]
    simp only [List.foldl_cons, List.foldl_nil]
    have e : ((size : ℤ) - ((n : ℤ) + 1) * (s : ℤ)) = ((size - (n + 1) * s : ℕ) : ℤ) := by
      rw [Nat.cast_sub (by rw [Nat.succ_mul]; omega)]; push_cast; ring
    rw [e, exp2_nat, List.take_succ_eq_append_getElem hlt, List.map_append, weighted_append,
      List.getD_eq_getElem _ _ hlt]
    simp only [List.map_cons, List.map_nil, weighted, List.sum_nil, pow_zero, mul_one, add_zero, tot_cons, tot_nil,
      Nat.add_zero, Prod.mk.injEq, and_true]
    have e2 : size - n * s = s + (size - (n + 1) * s) := by rw [Nat.succ_mul]; omega
    rw [e2, pow_add]
    push_cast
    ring

/-- The limbs `Split` returns for a given hint answer. -/
def splitOut (out : List (F p)) (l : Limb p) (s nb : ℕ) : List (Limb p) :=
  ((out.take nb).map fun v => (⟨v, s⟩ : Limb p)) ++
    (if l.size - nb * s = 0 then [] else [⟨out.getD (out.length - 1) 0, l.size - nb * s⟩])

theorem splitOut_tot (out : List (F p)) (l : Limb p) (s nb : ℕ) (h : nb * s ≤ l.size) (hl : nb ≤ out.length) :
    tot (splitOut out l s nb) = l.size := by
  have : ∀ o : List (F p), tot (o.map fun v => (⟨v, s⟩ : Limb p)) = o.length * s := by
    intro o
    induction o with
    | nil => simp
    | cons v o ih => simp [ih, Nat.add_mul]; omega
  unfold splitOut
  split
  · rw [List.append_nil, this, List.length_take, Nat.min_eq_left hl]; omega
  · rw [tot_append, this, List.length_take, Nat.min_eq_left hl, tot_cons, tot_nil]; simp only; omega

/-- Closed form of `Split` when the requested parts fit. -/
theorem split_eq (hint : Hint p) (l : Limb p) (s : ℕ) (opt : List ℕ) (nb : ℕ)
    (hopt : opt = [nb] ∨ opt = [] ∧ nb = l.size / s) (hs : 0 < s) (hne : l.size ≠ s) (hnb : 0 < nb)
    (hfit : nb * s ≤ l.size) :
    split hint l s opt =
      if (hint l s nb).length = nb + (if l.size - nb * s = 0 then 0 else 1) ∧
          weighted (splitOut (hint l s nb) l s nb) = l.val
        then some (splitOut (hint l s nb) l s nb) else none := by
  have hle : nb ≤ l.size := le_trans (Nat.le_mul_of_pos_right _ hs) hfit
  have hm : nbLimbsOf opt (l.size / s) = nb := by
    rcases hopt with rfl | ⟨rfl, h⟩
    · rfl
    · exact h.symm
  unfold split
  have hlen : ¬ 1 < opt.length := by rcases hopt with rfl | ⟨rfl, _⟩ <;> simp
  rw [if_neg hlen, if_neg hne, if_neg (by omega)]
  simp only [hm]
  rw [if_neg (by omega)]
  have hrem : ((l.size : ℤ) - (nb : ℤ) * (s : ℤ)) = ((l.size - nb * s : ℕ) : ℤ) := by
    rw [Nat.cast_sub hfit]; push_cast; ring
  simp only [hrem]
  set out := hint l s nb with hout
  by_cases hr : l.size - nb * s = 0
  · rw [hr]
    simp only [Nat.cast_zero, lt_irrefl, if_false, if_true, Nat.add_zero]
    by_cases hol : out.length = nb
    · rw [if_neg (by simpa using hol), split_loop out l.size s nb hfit (by omega)]
      simp only [hr, pow_zero, mul_one, hol, true_and, splitOut, if_true, List.append_nil]
      unfold assertEq
      split <;> rfl
    · rw [if_pos (by simpa using hol), if_neg (by simp [hol])]
  · have hpos : (0 : ℤ) < ((l.size - nb * s : ℕ) : ℤ) := by omega
    simp only [hpos, if_true, hr, if_false]
    by_cases hol : out.length = nb + 1
    · rw [if_neg (by simpa using hol), split_loop out l.size s nb hfit (by omega)]
      simp only [hol, true_and, splitOut, hr, if_false, weighted_append, tot_cons, tot_nil, Nat.add_zero,
        weighted, List.map_nil, List.sum_nil, pow_zero, mul_one, add_zero, Int.toNat_natCast]
      unfold assertEq
      split <;> rfl
    · rw [if_pos (by simpa using hol), if_neg (by simp [hol])]

/-- The shipped hint, as limbs: exact digits. -/
theorem splitHintGo_spec (s : ℕ) (hp : 0 < p) (nb : ℕ) (x size : ℕ) (hfit : nb * s ≤ size) (hx : x < 2 ^ size) (hxp : x < p) :
    (splitHintGo s nb x size).length = nb + (if size - nb * s = 0 then 0 else 1) ∧
    ∀ l : Limb p, l.size = size →
      nsum (splitOut ((splitHintGo s nb x size).map fun n => ((n : ℕ) : F p)) l s nb) = x ∧
      InRange (splitOut ((splitHintGo s nb x size).map fun n => ((n : ℕ) : F p)) l s nb) := by
  have : NeZero p := ⟨by omega⟩
  induction nb generalizing x size with
  | zero =>
    simp only [splitHintGo, Nat.zero_mul, Nat.sub_zero]
    by_cases h0 : size = 0
    · subst h0
      simp only [CharP.cast_eq_zero, lt_irrefl, if_false, List.length_nil, if_true, Nat.add_zero, true_and]
      intro l hl
      have : x = 0 := by simpa using hx
      simp [splitOut, hl, nsum, InRange, this]
    · rw [if_pos (by omega)]
      simp only [h0, if_false, List.length_singleton, Nat.zero_add, true_and]
      intro l hl
      simp [splitOut, hl, h0, nsum, InRange, ZMod.val_natCast_of_lt hxp, hx]
  | succ nb ih =>
    rw [Nat.succ_mul] at hfit
    have e : ((size : ℤ) - (s : ℤ)) = ((size - s : ℕ) : ℤ) := by rw [Nat.cast_sub (by omega)]
    simp only [splitHintGo, e, exp2_nat]
    set z := 2 ^ (size - s) with hz
    have hzpos : 0 < z := Nat.two_pow_pos _
    have hmod : x - x / z * z = x % z := by
      have := Nat.div_add_mod x z; rw [Nat.mul_comm] at this; omega
    rw [hmod]
    have hq : x / z < 2 ^ s := by
      rw [Nat.div_lt_iff_lt_mul hzpos, hz, ← pow_add, show s + (size - s) = size by omega]; exact hx
    have hqp : x / z < p := lt_of_le_of_lt (Nat.div_le_self _ _) hxp
    obtain ⟨hlen, hih⟩ := ih (x % z) (size - s) (by omega) (Nat.mod_lt _ hzpos)
      (lt_of_le_of_lt (Nat.mod_le _ _) hxp)
    have hsub : size - s - nb * s = size - (nb + 1) * s := by rw [Nat.succ_mul]; omega
    refine ⟨by simp only [List.length_cons, hlen, hsub]; omega, ?_⟩
    intro l hl
    set T := splitHintGo s nb (x % z) ((size - s : ℕ) : ℤ) with hT
    have hcons : splitOut ((x / z :: T).map fun n => ((n : ℕ) : F p)) l s (nb + 1)
        = ⟨((x / z : ℕ) : F p), s⟩ :: splitOut (T.map fun n => ((n : ℕ) : F p)) ⟨l.val, size - s⟩ s nb := by
      unfold splitOut
      simp only [List.map_cons, List.take_succ_cons, List.cons_append, hl, hsub]
      split
      · rfl
      · rename_i h
        have : T.length = nb + 1 := by rw [hlen, hsub, if_neg h]
        simp only [List.length_cons, List.length_map, this]
        rw [show nb + 1 + 1 - 1 = nb + 1 - 1 + 1 by omega, List.getD_cons_succ]
    obtain ⟨h1, h2⟩ := hih ⟨l.val, size - s⟩ rfl
    rw [hcons]
    constructor
    · simp only [nsum, h1]
      rw [splitOut_tot _ _ _ _ (by simp only; omega) (by rw [List.length_map, hlen]; omega), ZMod.val_natCast_of_lt hqp]
      simp only [← hz]
      rw [Nat.mul_comm]; exact Nat.div_add_mod x z
    · intro k hk
      rcases List.mem_cons.1 hk with rfl | hk
      · simpa [ZMod.val_natCast_of_lt hqp] using hq
      · exact h2 k hk

end Verif.Limbs
