import Verif.Rlp.Props

/-! # C10: the lengths on which `Hex64To2Fr` (rlp.go:162-182) does not split the number at 248 bits -/

namespace Verif.Rlp
open Api
variable {p : ℕ} [Fact p.Prime]

theorem mux_parts (a b : F p) (t : List (F p)) (j : ℕ) (hp : 256 < p) :
    muxSel ((j : ℕ) : F p) ((List.range 62).map fun j => Spec.beField (((a :: b :: t).drop 2).take (j + 1))) =
      if j % p < 62 then some (Spec.beField (((a :: b :: t).drop 2).take (j % p + 1))) else none := by
  unfold muxSel
  rw [ZMod.val_natCast]
  by_cases h : j % p < 62
  · rw [List.getElem?_map, List.getElem?_range h, if_pos h]; rfl
  · rw [if_neg h, List.getElem?_map, List.getElem?_eq_none (by simpa using h)]; rfl

/-- **C10, disagreement.** On 63 cells `Hex64To2Fr` splits after two cells as for 64: the high part is the first two
cells, the low part the other 61, so the number is `lo + 2^244 * hi`, and `lo + 2^248 * hi`, the value for every other
length, is too large by `15 * 2^244 * hi`. -/
theorem C10_hex64To2Fr_63 (inp : List (F p)) (hp : 256 < p) (hlen : 64 ≤ inp.length) :
    ∃ lo hi, hex64To2Fr inp ((63 : ℕ) : F p) = some (lo, hi) ∧ hi = Spec.beField (inp.take 2) ∧
      lo + 2 ^ 244 * hi = Spec.beField (inp.take 63) ∧
      lo + 2 ^ 248 * hi = Spec.beField (inp.take 63) + 15 * 2 ^ 244 * hi := by
  have hgoal : hex64To2Fr inp ((63 : ℕ) : F p) =
      some (Spec.beField ((inp.drop 2).take 61), Spec.beField (inp.take 2)) := by
    unfold hex64To2Fr
    rw [horner_loop inp 2 62 (by omega)]
    obtain ⟨a, b, t, rfl⟩ : ∃ a b t, inp = a :: b :: t := by
      match inp, hlen with
      | a :: b :: t, _ => exact ⟨a, b, t, rfl⟩
    have l1 : lessThan ((63 : ℕ) : F p) 1 = 0 := by
      have := lessThan_nat (p := p) (a := 63) (n := 1) (by omega) (by omega) (by omega)
      simpa using this
    have l3 : lessThan ((63 : ℕ) : F p) 3 = 0 := by
      have := lessThan_nat (p := p) (a := 63) (n := 3) (by omega) (by omega) (by omega)
      simpa using this
    have l63 : lessThan ((63 : ℕ) : F p) 63 = 0 := by
      have := lessThan_nat (p := p) (a := 63) (n := 63) (by omega) (by omega) (by omega)
      simpa using this
    simp only [l1, l3, l63]
    rw [C10_hexToDecimal _ 64 63 (by norm_num) (by omega) hlen (by norm_num)]
    have e : ((63 : ℕ) : F p) - 3 = ((60 : ℕ) : F p) := by norm_num
    have hm := mux_parts a b t 60 hp
    rw [Nat.mod_eq_of_lt (by omega), if_pos (by norm_num)] at hm
    simp only [List.getElem?_cons_zero, List.getElem?_cons_succ, Option.bind_eq_bind, Option.bind_some, select, e,
      zero_ne_one, if_false, if_true, hm]
    simp [Spec.beField]
    ring
  refine ⟨_, _, hgoal, rfl, ?_, ?_⟩ <;>
  · have hsplit : inp.take 63 = inp.take 2 ++ (inp.drop 2).take 61 := by rw [← List.take_add]
    rw [hsplit, beField_append, show ((inp.drop 2).take 61).length = 61 by simp; omega]
    norm_num
    ring

/-- **C10.** On more than 64 cells `Hex64To2Fr` is unsatisfiable. -/
theorem C10_hex64To2Fr_overlong (inp : List (F p)) (n : ℕ) (hp : 256 < p) (hlen : 64 ≤ inp.length) (hn : 64 < n)
    (hnp : n < p) : hex64To2Fr inp ((n : ℕ) : F p) = none := by
  unfold hex64To2Fr
  rw [horner_loop inp 2 62 (by omega)]
  obtain ⟨a, b, t, rfl⟩ : ∃ a b t, inp = a :: b :: t := by
    match inp, hlen with
    | a :: b :: t, _ => exact ⟨a, b, t, rfl⟩
  have l1 : lessThan ((n : ℕ) : F p) 1 = 0 := by
    have := lessThan_nat (p := p) (a := n) (n := 1) (by omega) (by omega) (by omega)
    rw [if_neg (by omega)] at this
    simpa using this
  have l3 : lessThan ((n : ℕ) : F p) 3 = 0 := by
    have := lessThan_nat (p := p) (a := n) (n := 3) (by omega) (by omega) (by omega)
    rw [if_neg (by omega)] at this
    simpa using this
  have e : ((n : ℕ) : F p) - 3 = ((n - 3 : ℕ) : F p) := by rw [Nat.cast_sub (by omega)]; norm_num
  have hm := mux_parts a b t (n - 3) hp
  rw [Nat.mod_eq_of_lt (by omega), if_neg (by omega)] at hm
  simp only [l1, l3, List.getElem?_cons_zero, List.getElem?_cons_succ, Option.bind_eq_bind, Option.bind_some, select, e,
    zero_ne_one, if_false, if_true, hm, Option.bind_none]

local instance : Fact (Nat.Prime 257) := ⟨by norm_num⟩

/-- 63 ones: the true value is `1 + 16 + ... + 16^62`; the pair stands for another number. -/
example : (hex64To2Fr (p := 257) (List.replicate 64 1) 63).map (fun r => r.1 + 2 ^ 248 * r.2) ≠
    some (Spec.beField (List.replicate 63 1)) := by decide +kernel

example : hex64To2Fr (p := 257) (List.replicate 70 1) 65 = none := by decide +kernel

end Verif.Rlp
