import Verif.Limbs.Lemmas
import Mathlib.Data.List.Rotate

/-! # C29, C30, C31: limbs -/

namespace Verif.Limbs
open Api
variable {p : ℕ}

/-- A limb list of the given sizes. -/
def sizes (ws : List (Limb p)) : List ℕ := ws.map Limb.size

/-- The sizes `Split` promises: as many limbs of `s` bits as requested, and one for the rest if any. -/
def splitSizes (size s nb : ℕ) : List ℕ :=
  List.replicate nb s ++ (if size - nb * s = 0 then [] else [size - nb * s])

theorem splitOut_sizes (out : List (F p)) (l : Limb p) (s nb : ℕ) (hl : nb ≤ out.length) :
    sizes (splitOut out l s nb) = splitSizes l.size s nb := by
  unfold sizes splitOut splitSizes
  rw [List.map_append, List.map_map]
  congr 1
  · rw [List.eq_replicate_iff]
    refine ⟨by simp [hl], ?_⟩
    intro x hx
    obtain ⟨v, _, rfl⟩ := List.mem_map.1 hx
    rfl
  · split <;> rfl

/-- **C29.** `Merge` computes the weighted sum of the limbs, whatever their values; it refuses only the empty list. -/
theorem C29_merge (ws : List (Limb p)) :
    merge ws = if ws = [] then none else some ⟨weighted ws, (sizes ws).sum⟩ := by
  split
  · rename_i h; subst h; rfl
  · rename_i h; exact merge_eq ws h

/-- **C29.** `Merge` of limbs that fit their widths is the number written by the concatenated bit string;
if that many bits fit in the field, no information is lost. -/
theorem C29_merge_bits [NeZero p] (ws : List (Limb p)) (hne : ws ≠ []) (hr : InRange ws) :
    merge ws = some ⟨((numBE (bitStr ws) : ℕ) : F p), (bitStr ws).length⟩ ∧
    (2 ^ (bitStr ws).length ≤ p → ∃ m, merge ws = some m ∧ InRange [m] ∧ bitStr [m] = bitStr ws) := by
  have hm : merge ws = some ⟨((numBE (bitStr ws) : ℕ) : F p), (bitStr ws).length⟩ := by
    rw [merge_eq ws hne, weighted_eq_nsum, nsum_eq hr, bitStr_length]
  refine ⟨hm, fun hp => ⟨_, hm, ?_⟩⟩
  have hlt := numBE_lt (bitStr ws)
  have hv : ((numBE (bitStr ws) : ℕ) : F p).val = numBE (bitStr ws) := ZMod.val_natCast_of_lt (lt_of_lt_of_le hlt hp)
  refine ⟨?_, ?_⟩
  · intro l hl
    rw [List.mem_singleton] at hl
    subst hl
    simpa [hv] using hlt
  · show bitsBE (bitStr ws).length ((numBE (bitStr ws) : ℕ) : F p).val ++ [] = bitStr ws
    rw [hv, List.append_nil]
    exact bitsBE_numBE (bitStr ws)

/-- **C29.** Whatever the prover answers to the hint, if `Split` is satisfied its limbs have the announced sizes and
recompose to the split limb. -/
theorem C29_split (hint : Hint p) (l : Limb p) (s : ℕ) (opt : List ℕ) (nb : ℕ)
    (hopt : opt = [nb] ∨ opt = [] ∧ nb = l.size / s) (hs : 0 < s) (hne : l.size ≠ s) (hnb : 0 < nb)
    (hfit : nb * s ≤ l.size) {ret : List (Limb p)} (h : split hint l s opt = some ret) :
    sizes ret = splitSizes l.size s nb ∧ (sizes ret).sum = l.size ∧ weighted ret = l.val := by
  rw [split_eq hint l s opt nb hopt hs hne hnb hfit] at h
  by_cases hc : (hint l s nb).length = nb + (if l.size - nb * s = 0 then 0 else 1) ∧
          weighted (splitOut (hint l s nb) l s nb) = l.val
  · rw [if_pos hc, Option.some.injEq] at h
    subst h
    have hl : nb ≤ (hint l s nb).length := by rw [hc.1]; omega
    exact ⟨splitOut_sizes _ _ _ _ hl, splitOut_tot _ _ _ _ hfit hl, hc.2⟩
  · rw [if_neg hc] at h; cases h

/-- **C30 (part).** With the shipped hint, `Split` of a limb that fits its width is satisfied and returns exactly the
bit string cut into the announced sizes; and an answer whose limbs fit their widths can only be that one.
Missing: the circuit does not enforce that the limbs fit their widths, see `C30_split_not_unique`. -/
theorem C30_split_partial [NeZero p] (l : Limb p) (s : ℕ) (opt : List ℕ) (nb : ℕ)
    (hopt : opt = [nb] ∨ opt = [] ∧ nb = l.size / s) (hs : 0 < s) (hne : l.size ≠ s) (hnb : 0 < nb)
    (hfit : nb * s ≤ l.size) (hr : l.val.val < 2 ^ l.size) :
    ∃ ret, split splitHint l s opt = some ret ∧ sizes ret = splitSizes l.size s nb ∧ InRange ret ∧
      bitStr ret = bitStr [l] ∧
      (2 ^ l.size ≤ p → ∀ hint ret', split hint l s opt = some ret' → InRange ret' → ret' = ret) := by
  obtain ⟨hlen, hspec⟩ := splitHintGo_spec (p := p) s (Nat.pos_of_ne_zero (NeZero.ne p)) nb l.val.val l.size hfit hr
    (ZMod.val_lt _)
  have hir : InRange (splitOut (splitHint l s nb) l s nb) := (hspec l rfl).2
  have hns : nsum (splitOut (splitHint l s nb) l s nb) = l.val.val := (hspec l rfl).1
  have hll : nb ≤ (splitHint l s nb).length := by
    simp only [splitHint, List.length_map, hlen]; omega
  have hin : InRange [l] := by intro k hk; rw [List.mem_singleton] at hk; subst hk; exact hr
  have htot : tot (splitOut (splitHint l s nb) l s nb) = l.size := splitOut_tot _ _ _ _ hfit hll
  have hbs : bitStr (splitOut (splitHint l s nb) l s nb) = bitStr [l] := by
    rw [bitStr_eq hir, bitStr_eq hin]
    rw [hns, htot]
    simp [nsum]
  refine ⟨splitOut (splitHint l s nb) l s nb, ?_, splitOut_sizes _ _ _ _ hll, hir, hbs, ?_⟩
  · rw [split_eq _ l s opt nb hopt hs hne hnb hfit, if_pos]
    refine ⟨by simp only [splitHint, List.length_map]; exact hlen, ?_⟩
    rw [weighted_eq_nsum, hns, ZMod.natCast_zmod_val]
  · intro hp hint ret' h' hr'
    obtain ⟨h1, h2, h3⟩ := C29_split hint l s opt nb hopt hs hne hnb hfit h'
    have hlt' := nsum_lt hr'
    have e2 : tot ret' = l.size := h2
    rw [e2] at hlt'
    have hns' : nsum ret' = l.val.val := by
      have h3' := h3
      rw [weighted_eq_nsum] at h3'
      have := congrArg ZMod.val h3'
      rwa [ZMod.val_natCast_of_lt (lt_of_lt_of_le hlt' hp)] at this
    -- equal numbers with equal sizes have equal limbs
    have huniq : ∀ a b : List (Limb p), InRange a → InRange b → sizes a = sizes b → nsum a = nsum b → a = b := by
      intro a
      induction a with
      | nil =>
        intro b _ _ hs _
        cases b with
        | nil => rfl
        | cons => simp [sizes] at hs
      | cons x a ih =>
        intro b ha hb hs hn
        cases b with
        | nil => simp [sizes] at hs
        | cons y b =>
          have hsz : x.size = y.size ∧ sizes a = sizes b := by simpa [sizes] using hs
          have ha' : InRange a := fun l hl => ha l (by simp [hl])
          have hb' : InRange b := fun l hl => hb l (by simp [hl])
          have ht : tot a = tot b := congrArg List.sum hsz.2
          have la := nsum_lt ha'
          have lb := nsum_lt hb'
          simp only [nsum] at hn
          rw [ht] at la hn
          have hq : x.val.val = y.val.val := by
            have h1 : (x.val.val * 2 ^ tot b + nsum a) / 2 ^ tot b = (y.val.val * 2 ^ tot b + nsum b) / 2 ^ tot b := by rw [hn]
            rw [Nat.mul_comm, Nat.mul_add_div (Nat.two_pow_pos _), Nat.div_eq_of_lt la, Nat.mul_comm,
              Nat.mul_add_div (Nat.two_pow_pos _), Nat.div_eq_of_lt lb] at h1
            omega
          have hnn : nsum a = nsum b := by rw [hq] at hn; omega
          have := ih b ha' hb' hsz.2 hnn
          obtain ⟨xv, xs⟩ := x
          obtain ⟨yv, ys⟩ := y
          simp only at hq hsz
          have hv : xv = yv := ZMod.val_injective p hq
          subst hv
          rw [hsz.1, this]
    refine huniq _ _ hr' hir ?_ ?_
    · rw [h1, splitOut_sizes _ _ _ _ hll]
    · rw [hns', hns]

/-- **C30, negated.** `Split` into two or more parts does not determine its output: for any choice of all limbs but the
last, some answer of the prover with these limbs is accepted. -/
theorem C30_split_not_unique (l : Limb p) (s nb : ℕ) (hs : 0 < s) (hne : l.size ≠ s) (hnb : 0 < nb)
    (hfit : nb * s ≤ l.size) (head : List (F p))
    (hhead : head.length + 1 = (splitSizes l.size s nb).length) :
    ∃ hint ret, split hint l s [nb] = some ret ∧ (values ret).dropLast = head := by
  by_cases hr : l.size - nb * s = 0
  · simp only [splitSizes, hr, if_true, List.append_nil, List.length_replicate] at hhead
    set v : F p := l.val - weighted (head.map fun x => (⟨x, s⟩ : Limb p)) * 2 ^ s with hv
    have hso : splitOut (head ++ [v]) l s nb = (head ++ [v]).map fun x => (⟨x, s⟩ : Limb p) := by
      unfold splitOut
      rw [if_pos hr, List.append_nil, List.take_of_length_le (by simp; omega)]
    refine ⟨fun _ _ _ => head ++ [v], splitOut (head ++ [v]) l s nb, ?_, ?_⟩
    · rw [split_eq _ l s [nb] nb (Or.inl rfl) hs hne hnb hfit, if_pos]
      refine ⟨by simp [hr]; omega, ?_⟩
      rw [hso, List.map_append, weighted_append]
      simp only [List.map_cons, List.map_nil, weighted, List.sum_nil, pow_zero, mul_one, add_zero, tot_cons, tot_nil]
      rw [hv]; ring
    · rw [hso]
      simp [values, Function.comp_def]
  · simp only [splitSizes, hr, if_false, List.length_append, List.length_replicate, List.length_singleton] at hhead
    have hhl : head.length = nb := by omega
    set v : F p := l.val - weighted (head.map fun x => (⟨x, s⟩ : Limb p)) * 2 ^ (l.size - nb * s) with hv
    have hso : splitOut (head ++ [v]) l s nb
        = (head.map fun x => (⟨x, s⟩ : Limb p)) ++ [⟨v, l.size - nb * s⟩] := by
      unfold splitOut
      rw [if_neg hr, List.take_append_of_le_length (by omega), List.take_of_length_le (by omega)]
      simp
    refine ⟨fun _ _ _ => head ++ [v], splitOut (head ++ [v]) l s nb, ?_, ?_⟩
    · rw [split_eq _ l s [nb] nb (Or.inl rfl) hs hne hnb hfit, if_pos]
      refine ⟨by simp [hr, hhl], ?_⟩
      rw [hso, weighted_append]
      simp only [weighted, List.map_nil, List.sum_nil, pow_zero, mul_one, add_zero, tot_cons, tot_nil]
      rw [hv]; ring
    · rw [hso]
      simp [values, Function.comp_def]

/-- The split of the test suite: eight bits into two, two and the rest. -/
example : splitSizes 8 2 2 = [2, 2, 4] ∧ 0 < 2 ∧ (8 : ℕ) ≠ 2 ∧ 2 * 2 ≤ 8 := by decide

/-! ## Rotation -/

theorem findSplit_spec (ws : List (Limb p)) (n : ℕ) : ∀ i rem, ws.length - i = n → i ≤ ws.length →
    ∃ j r, findSplit ws i rem = (j, r) ∧ i ≤ j ∧ j ≤ ws.length ∧
      tot (ws.take j) + r = tot (ws.take i) + rem ∧ (∀ h : j < ws.length, r < ws[j].size) := by
  induction n with
  | zero =>
    intro i rem hn hi
    rw [findSplit, dif_neg (by omega)]
    exact ⟨i, rem, rfl, le_rfl, hi, rfl, fun h => absurd h (by omega)⟩
  | succ n ih =>
    intro i rem hn hi
    have hlt : i < ws.length := by omega
    rw [findSplit, dif_pos hlt]
    by_cases h : rem < ws[i].size
    · rw [if_pos h]
      exact ⟨i, rem, rfl, le_rfl, hi, rfl, fun _ => h⟩
    · rw [if_neg h]
      obtain ⟨j, r, e, h1, h2, h3, h4⟩ := ih (i + 1) (rem - ws[i].size) (by omega) (by omega)
      refine ⟨j, r, e, by omega, h2, ?_, h4⟩
      rw [h3, List.take_succ_eq_append_getElem hlt, tot_append]
      simp; omega

theorem inRange_append {a b : List (Limb p)} : InRange (a ++ b) ↔ InRange a ∧ InRange b := by
  unfold InRange
  constructor
  · intro h; exact ⟨fun l hl => h l (by simp [hl]), fun l hl => h l (by simp [hl])⟩
  · rintro ⟨h1, h2⟩ l hl
    rcases List.mem_append.1 hl with h | h
    · exact h1 l h
    · exact h2 l h

theorem bitStr_append (a b : List (Limb p)) : bitStr (a ++ b) = bitStr a ++ bitStr b := by
  simp [bitStr]

/-- The limbs of a rotation that cuts limb `i`. -/
theorem rotated_set (ws : List (Limb p)) (i : ℕ) (hi : i < ws.length) (a b : Limb p) :
    ((ws.drop i ++ ws.take i) ++ [a]).set 0 b = [b] ++ ws.drop (i + 1) ++ ws.take i ++ [a] := by
  rw [List.drop_eq_getElem_cons hi]
  simp only [List.cons_append, List.set_cons_zero, List.append_assoc, List.nil_append]

/-- **C31 (part).** With the shipped hint, `LrotMerge` of limbs that fit their widths is the number written by the bit
string rotated left, for every amount up to the whole width.
Missing: the circuit does not force the hint, see `C31_lrotMerge_any_output`. -/
theorem C31_lrotMerge_partial [NeZero p] (ws : List (Limb p)) (hne : ws ≠ []) (hr : InRange ws) (amount : ℕ)
    (ha : amount ≤ (bitStr ws).length) :
    lrotMerge splitHint ws amount
      = some ⟨((numBE ((bitStr ws).rotate amount) : ℕ) : F p), (bitStr ws).length⟩ := by
  obtain ⟨i, rem, e, _, hi, htot, hrem⟩ := findSplit_spec ws ws.length 0 amount (by omega) (by omega)
  simp only [List.take_zero, tot_nil, Nat.zero_add] at htot
  rw [bitStr_length] at ha
  have hrot : (bitStr ws).rotate amount = (bitStr ws).drop amount ++ (bitStr ws).take amount :=
    List.rotate_eq_drop_append_take (by rw [bitStr_length]; exact ha)
  unfold lrotMerge
  rw [e]
  simp only
  have hsplit : bitStr ws = bitStr (ws.take i) ++ bitStr (ws.drop i) := by
    rw [← bitStr_append, List.take_append_drop]
  have hrd : InRange (ws.take i) ∧ InRange (ws.drop i) := by
    rw [← inRange_append, List.take_append_drop]; exact hr
  by_cases h0 : 0 < rem
  · have hlt : i < ws.length := by
      by_contra hc
      have : ws.take i = ws := List.take_of_length_le (by omega)
      rw [this] at htot; omega
    have hrs := hrem hlt
    set w := ws[i] with hw
    have hwr : w.val.val < 2 ^ w.size := hr w (List.getElem_mem hlt)
    obtain ⟨ret, hret, hsz, hir, hbs, _⟩ := C30_split_partial w rem [1] 1 (Or.inl rfl) h0 (by omega) (by decide)
      (by omega) hwr
    rw [if_pos h0, List.getElem?_eq_getElem hlt, ← hw]
    simp only [Option.bind_eq_bind, Option.bind_some]
    rw [hret]
    have hsz' : sizes ret = [rem, w.size - rem] := by
      rw [hsz]; simp only [splitSizes, Nat.one_mul]; rw [if_neg (by omega)]; rfl
    obtain ⟨a, b, rfl⟩ : ∃ a b, ret = [a, b] := by
      have hl := congrArg List.length hsz'
      simp only [sizes, List.length_map, List.length_cons, List.length_nil] at hl
      match ret, hl with
      | [a, b], _ => exact ⟨a, b, rfl⟩
    · simp only [sizes, List.map_cons, List.map_nil, List.cons.injEq, and_true] at hsz'
      simp only [Option.bind_some]
      have hrot' := rotated_set ws i hlt a b
      rw [List.append_assoc] at hrot'
      rw [List.append_assoc, hrot']
      have hdrop : ws.drop i = w :: ws.drop (i + 1) := List.drop_eq_getElem_cons hlt
      have hird : InRange (ws.drop (i + 1)) := fun l hl => hrd.2 l (by rw [hdrop]; simp [hl])
      have hirab : InRange [a] ∧ InRange [b] := by
        rw [← inRange_append]; exact hir
      have hIR : InRange ([b] ++ ws.drop (i + 1) ++ ws.take i ++ [a]) := by
        simp only [inRange_append]; exact ⟨⟨⟨hirab.2, hird⟩, hrd.1⟩, hirab.1⟩
      rw [(C29_merge_bits _ (by simp) hIR).1]
      have hw2 : bitStr [w] = bitStr [a] ++ bitStr [b] := by rw [← hbs, ← bitStr_append]; rfl
      have hdb : bitStr (ws.drop i) = bitStr [a] ++ bitStr [b] ++ bitStr (ws.drop (i + 1)) := by
        rw [hdrop, show w :: ws.drop (i + 1) = [w] ++ ws.drop (i + 1) from rfl, bitStr_append, hw2]
      have hlA : (bitStr (ws.take i) ++ bitStr [a]).length = amount := by
        rw [List.length_append, bitStr_length, bitStr_length]; simp [hsz'.1]; omega
      have hE : bitStr ([b] ++ ws.drop (i + 1) ++ ws.take i ++ [a]) = (bitStr ws).rotate amount := by
        rw [hrot, hsplit, hdb]
        rw [show bitStr (ws.take i) ++ (bitStr [a] ++ bitStr [b] ++ bitStr (ws.drop (i + 1)))
          = (bitStr (ws.take i) ++ bitStr [a]) ++ (bitStr [b] ++ bitStr (ws.drop (i + 1))) by simp,
          ← hlA, List.drop_left, List.take_left]
        simp only [bitStr_append, List.append_assoc]
      rw [hE, List.length_rotate]
  · rw [if_neg h0]
    have hrem0 : rem = 0 := by omega
    have hIR : InRange (ws.drop i ++ ws.take i) := inRange_append.2 ⟨hrd.2, hrd.1⟩
    have hne' : ws.drop i ++ ws.take i ≠ [] := by
      intro h
      have := congrArg List.length h
      simp only [List.length_append, List.length_drop, List.length_take, List.length_nil] at this
      exact hne (List.length_eq_zero_iff.1 (by omega))
    rw [(C29_merge_bits _ hne' hIR).1]
    have hlA : (bitStr (ws.take i)).length = amount := by rw [bitStr_length]; omega
    have hE : bitStr (ws.drop i ++ ws.take i) = (bitStr ws).rotate amount := by
      rw [hrot, hsplit, ← hlA, List.drop_left, List.take_left, bitStr_append]
    rw [hE, List.length_rotate]

/-- **C31.** An amount beyond the total width makes `LrotMerge` panic. -/
theorem C31_lrotMerge_too_far (hint : Hint p) (ws : List (Limb p)) (amount : ℕ) (ha : (sizes ws).sum < amount) :
    lrotMerge hint ws amount = none := by
  obtain ⟨i, rem, e, _, hi, htot, hrem⟩ := findSplit_spec ws ws.length 0 amount (by omega) (by omega)
  simp only [List.take_zero, tot_nil, Nat.zero_add] at htot
  have ha' : tot ws < amount := ha
  have hlen : i = ws.length := by
    by_contra hc
    have hlt : i < ws.length := by omega
    have h1 := hrem hlt
    have h2 : tot ws = tot (ws.take i) + tot (ws.drop i) := by rw [← tot_append, List.take_append_drop]
    rw [List.drop_eq_getElem_cons hlt, tot_cons] at h2
    omega
  subst hlen
  rw [List.take_length] at htot
  unfold lrotMerge
  rw [e]
  simp only
  rw [if_pos (by omega), List.getElem?_eq_none (le_refl _)]
  rfl

/-- **C31, negated.** When the rotation cuts through a limb, the constraints of `LrotMerge` do not bind its output at
all: every field element is an accepted result for some answer of the prover. -/
theorem C31_lrotMerge_any_output [Fact p.Prime] (ws : List (Limb p)) (amount i : ℕ) (hi : i < ws.length)
    (h1 : tot (ws.take i) < amount) (h2 : amount < tot (ws.take (i + 1)))
    (hunit : (2 : F p) ^ tot ws ≠ 1) (y : F p) :
    ∃ hint, lrotMerge hint ws amount = some ⟨y, tot ws⟩ := by
  obtain ⟨j, rem, e, _, hj, htot, hrem⟩ := findSplit_spec ws ws.length 0 amount (by omega) (by omega)
  simp only [List.take_zero, tot_nil, Nat.zero_add] at htot
  have htake : ∀ a b, a ≤ b → tot (ws.take a) ≤ tot (ws.take b) := by
    intro a b hab
    have : ws.take b = ws.take a ++ (ws.drop a).take (b - a) := by
      rw [← List.take_add, show a + (b - a) = b by omega]
    rw [this, tot_append]; omega
  have hij : j = i := by
    rcases Nat.lt_trichotomy j i with h | h | h
    · have hlt : j < ws.length := by omega
      have hr := hrem hlt
      have := htake (j + 1) i h
      rw [List.take_succ_eq_append_getElem hlt, tot_append, tot_cons, tot_nil] at this
      omega
    · exact h
    · have := htake (i + 1) j h
      omega
  subst hij
  set w := ws[j] with hw
  have hrs : rem < w.size := hrem hi
  have h0 : 0 < rem := by omega
  -- the value of the rest
  have htw : tot ws = tot (ws.take j) + (w.size + tot (ws.drop (j + 1))) := by
    rw [← tot_cons, ← List.drop_eq_getElem_cons hi, ← tot_append, List.take_append_drop]
  set c : F p := (1 - 2 ^ tot ws) with hc
  have hc0 : c ≠ 0 := by
    rw [hc]; intro h; exact hunit (sub_eq_zero.1 h).symm
  set R : F p := weighted (ws.drop (j + 1) ++ ws.take j) with hR
  set T := tot (ws.drop (j + 1)) + tot (ws.take j) + rem with hT
  set v : F p := (y - w.val * 2 ^ T - R * 2 ^ rem) * c⁻¹ with hv
  set u : F p := w.val - v * 2 ^ (w.size - rem) with hu
  refine ⟨fun _ _ _ => [v, u], ?_⟩
  unfold lrotMerge
  rw [e]
  simp only
  rw [if_pos h0, List.getElem?_eq_getElem hi, ← hw]
  simp only [Option.bind_eq_bind, Option.bind_some]
  have hso : splitOut [v, u] w rem 1 = [⟨v, rem⟩, ⟨u, w.size - rem⟩] := by
    unfold splitOut
    simp only [Nat.one_mul]
    rw [if_neg (by omega)]
    rfl
  rw [split_eq _ w rem [1] 1 (Or.inl rfl) h0 (by omega) (by decide) (by omega), if_pos]
  · rw [hso]
    simp only [Option.bind_some]
    rw [rotated_set ws j hi, merge_eq _ (by simp)]
    have ht : tot ([(⟨u, w.size - rem⟩ : Limb p)] ++ ws.drop (j + 1) ++ ws.take j ++ [⟨v, rem⟩]) = tot ws := by
      simp only [tot_append, tot_cons, tot_nil]; omega
    rw [ht]
    refine congrArg some ?_
    rw [Limb.mk.injEq]
    refine ⟨?_, rfl⟩
    have e1 : [(⟨u, w.size - rem⟩ : Limb p)] ++ ws.drop (j + 1) ++ ws.take j ++ [⟨v, rem⟩]
        = [(⟨u, w.size - rem⟩ : Limb p)] ++ ((ws.drop (j + 1) ++ ws.take j) ++ [⟨v, rem⟩]) := by simp
    rw [e1, weighted_append, weighted_append, ← hR]
    simp only [weighted, List.map_nil, List.sum_nil, pow_zero, mul_one, add_zero, tot_append, tot_cons, tot_nil]
    rw [← hT]
    have hpow : (2 : F p) ^ (w.size - rem) * 2 ^ T = 2 ^ tot ws := by
      rw [← pow_add]; congr 1; rw [hT, htw]; have : rem < w.size := hrs; omega
    have hvc : v * c = y - w.val * 2 ^ T - R * 2 ^ rem := by
      rw [hv, mul_assoc, inv_mul_cancel₀ hc0, mul_one]
    have : u * 2 ^ T = w.val * 2 ^ T - v * 2 ^ tot ws := by
      rw [hu, ← hpow]; ring
    rw [this]
    have : v - v * 2 ^ tot ws = y - w.val * 2 ^ T - R * 2 ^ rem := by rw [← hvc, hc]; ring
    linear_combination this
  · refine ⟨?_, ?_⟩
    · simp only [Nat.one_mul]; rw [if_neg (by omega)]; rfl
    · rw [hso]
      simp only [weighted, List.map_cons, List.map_nil, List.sum_cons, List.sum_nil, Nat.add_zero, pow_zero, mul_one, add_zero]
      rw [hu]; ring

/-- Three eight-bit limbs rotated by one, as in the repository's test: the rotation cuts the first limb. -/
example (a b c : F p) : tot (([⟨a, 8⟩, ⟨b, 8⟩, ⟨c, 8⟩] : List (Limb p)).take 0) < 1 ∧
    1 < tot (([⟨a, 8⟩, ⟨b, 8⟩, ⟨c, 8⟩] : List (Limb p)).take 1) := by simp

/-- The unit hypothesis of the negation holds in a field larger than two to the width. -/
theorem two_pow_ne_one (n : ℕ) (h0 : 0 < n) (hp : 2 ^ n < p) : (2 : F p) ^ n ≠ 1 := by
  intro h
  have h1 : ((2 ^ n : ℕ) : F p) = ((1 : ℕ) : F p) := by push_cast; exact h
  have h2 := (natCast_inj_of_lt hp (by have := Nat.two_pow_pos n; omega)).1 h1
  have : 2 ^ 1 ≤ 2 ^ n := Nat.pow_le_pow_right (by decide) h0
  omega

end Verif.Limbs
