import Verif.Slices
import Verif.SlicesSpec
import Verif.Util

/-! # C35: slice flips -/

namespace Verif.Slices
open Api Spec
variable {p : ℕ} {α : Type*}

theorem swap_step (l : List α) (i : ℕ) (hi : i < l.length / 2) (res : List α)
    (hres : ∀ j, res[j]? = if j < i ∨ (l.length ≤ j + i ∧ j < l.length) then l[l.length - 1 - j]? else l[j]?)
    (hl : res.length = l.length) :
    ∃ r', (do
        let tmp ← res[i]?
        let other ← res[res.length - 1 - i]?
        pure ((res.set i other).set (res.length - 1 - i) tmp)) = some r' ∧ r'.length = l.length ∧
      ∀ j, r'[j]? = if j < i + 1 ∨ (l.length ≤ j + (i + 1) ∧ j < l.length) then l[l.length - 1 - j]? else l[j]? := by
  have h1 : i < res.length := by omega
  have h2 : res.length - 1 - i < res.length := by omega
  rw [List.getElem?_eq_getElem h1, List.getElem?_eq_getElem h2]
  refine ⟨_, rfl, by simp [hl], ?_⟩
  intro j
  have e1 : some res[i] = l[i]? := by
    rw [← List.getElem?_eq_getElem h1, hres, if_neg (by omega)]
  have e2 : some res[res.length - 1 - i] = l[l.length - 1 - i]? := by
    rw [← List.getElem?_eq_getElem h2, hres, if_neg (by omega), hl]
  rw [List.getElem?_set]
  by_cases hj : res.length - 1 - i = j
  · rw [if_pos hj, if_pos (by simp; omega), if_pos (by omega), e1]
    congr 1; omega
  · rw [if_neg hj, List.getElem?_set]
    by_cases hj2 : i = j
    · rw [if_pos hj2, if_pos h1, if_pos (by omega), e2, hj2]
    · rw [if_neg hj2, hres]
      by_cases hc : j < i ∨ (l.length ≤ j + i ∧ j < l.length)
      · rw [if_pos hc, if_pos (by omega)]
      · rw [if_neg hc, if_neg (by omega)]

theorem flip_eq (l : List α) : flip l = some l.reverse := by
  have key : ∀ n ≤ l.length / 2, ∃ r, (List.range n).foldlM (fun res i => do
      let tmp ← res[i]?
      let other ← res[res.length - 1 - i]?
      pure ((res.set i other).set (res.length - 1 - i) tmp)) l = some r ∧ r.length = l.length ∧
      ∀ j, r[j]? = if j < n ∨ (l.length ≤ j + n ∧ j < l.length) then l[l.length - 1 - j]? else l[j]? := by
    intro n
    induction n with
    | zero =>
      intro _
      refine ⟨l, rfl, rfl, ?_⟩
      intro j; rw [if_neg (by omega)]
    | succ n ih =>
      intro hn
      obtain ⟨r, h1, h2, h3⟩ := ih (by omega)
      obtain ⟨r', h4, h5, h6⟩ := swap_step l n (by omega) r h3 h2
      refine ⟨r', ?_, h5, h6⟩
      rw [List.range_succ, List.foldlM_append, h1]
      simpa using h4
  obtain ⟨r, h1, h2, h3⟩ := key _ le_rfl
  unfold flip
  rw [h1, Option.some.injEq]
  apply List.ext_getElem?
  intro j
  rw [h3]
  by_cases hj : j < l.length
  · rw [List.getElem?_reverse hj]
    split
    · rfl
    · congr 1; omega
  · rw [if_neg (by omega), List.getElem?_eq_none (by omega), List.getElem?_eq_none (by simp; omega)]

theorem chunks_flatten_map (c n : ℕ) (l : List α) (f : List α → List α) :
    (chunks c n l).map f = (List.range n).map fun k => f ((l.drop (k * c)).take c) := by
  induction n generalizing l with
  | zero => rfl
  | succ n ih =>
    rw [chunks, List.map_cons, ih, List.range_succ_eq_map, List.map_cons, List.map_map]
    simp only [Nat.zero_mul, List.drop_zero, List.cons.injEq, true_and]
    apply List.map_congr_left
    intro k _
    simp only [Function.comp, List.drop_drop]
    rw [show c + k * c = k.succ * c by rw [Nat.succ_mul]; omega]

theorem foldlM_append_flatten {β : Type*} (l : List β) (f : β → List α) (acc : List α) :
    l.foldlM (fun ret k => some (ret ++ f k)) acc = some (acc ++ (l.map f).flatten) := by
  induction l generalizing acc with
  | nil => simp
  | cons a l ih => simp [List.foldlM_cons, ih]

theorem flipSubSlice_eq (l : List α) (c : ℕ) :
    flipSubSlice l c = if c ≠ 0 ∧ l.length % c = 0 then some (flipChunks c l) else none := by
  unfold flipSubSlice
  by_cases hc : c = 0
  · simp [hc]
  · by_cases h : l.length % c = 0
    · rw [if_neg hc, if_neg (by simpa using h), if_pos ⟨hc, h⟩]
      simp only [flip_eq, Option.bind_eq_bind, Option.bind_some, Option.pure_def]
      rw [foldlM_append_flatten]
      simp [flipChunks, chunks_flatten_map]
    · rw [if_neg hc, if_pos h, if_neg (by tauto)]

theorem flipChunks_length (c n : ℕ) (l : List α) (h : l.length = n * c) :
    (((chunks c n l).map List.reverse).flatten).length = n * c := by
  induction n generalizing l with
  | zero => simp [chunks]
  | succ n ih =>
    rw [Nat.succ_mul] at h
    simp only [chunks, List.map_cons, List.flatten_cons, List.length_append, List.length_reverse]
    rw [ih _ (by simp; omega), List.length_take, Nat.succ_mul]
    omega

theorem chunks_flipChunks (c n : ℕ) (l : List α) (h : l.length = n * c) :
    (chunks c n (((chunks c n l).map List.reverse).flatten)) = (chunks c n l).map List.reverse := by
  induction n generalizing l with
  | zero => rfl
  | succ n ih =>
    rw [Nat.succ_mul] at h
    have hl : (l.take c).reverse.length = c := by simp; omega
    simp only [chunks, List.map_cons, List.flatten_cons]
    rw [List.take_append_of_le_length hl.ge, List.take_of_length_le hl.le,
      List.drop_append_of_le_length hl.ge, List.drop_of_length_le hl.le, List.nil_append,
      ih _ (by simp; omega)]

theorem chunks_flatten (c n : ℕ) (l : List α) (h : l.length = n * c) :
    (chunks c n l).flatten = l := by
  induction n generalizing l with
  | zero => simp at h; simp [chunks, h]
  | succ n ih =>
    rw [Nat.succ_mul] at h
    simp only [chunks, List.flatten_cons]
    rw [ih _ (by simp; omega), List.take_append_drop]

theorem flipChunks_flipChunks (c : ℕ) (hc : 0 < c) (l : List α) (h : l.length % c = 0) :
    flipChunks c (flipChunks c l) = l := by
  have hn : l.length = l.length / c * c := by
    rw [Nat.div_mul_cancel (Nat.dvd_of_mod_eq_zero h)]
  have h1 : (flipChunks c l).length = l.length / c * c := flipChunks_length c _ l hn
  have h2 : (flipChunks c l).length / c = l.length / c := by rw [h1, Nat.mul_div_cancel _ hc]
  have e : flipChunks c l = ((chunks c (l.length / c) l).map List.reverse).flatten := rfl
  rw [show flipChunks c (flipChunks c l) =
    ((chunks c ((flipChunks c l).length / c) (flipChunks c l)).map List.reverse).flatten from rfl, h2, e,
    chunks_flipChunks c _ l hn, List.map_map]
  simp only [Function.comp_def, List.reverse_reverse, List.map_id']
  exact chunks_flatten c _ l hn

/-- **C35.** `Flip` never panics and reverses its input. -/
theorem C35_flip (l : List α) : flip l = some l.reverse := flip_eq l

/-- **C35.** `Flip` is an involution. -/
theorem C35_flip_involutive (l : List α) : (flip l >>= flip) = some l := by
  rw [flip_eq]; simp [flip_eq]

/-- **C35.** `FlipSubSlice` panics exactly when the chunk size is 0 or does not divide the length,
and otherwise reverses every chunk. -/
theorem C35_flipSubSlice (l : List α) (c : ℕ) :
    flipSubSlice l c = if c ≠ 0 ∧ l.length % c = 0 then some (flipChunks c l) else none :=
  flipSubSlice_eq l c

/-- **C35.** `FlipSubSlice` is an involution wherever it is defined. -/
theorem C35_flipSubSlice_involutive (l : List α) (c : ℕ) (hc : 0 < c) (h : l.length % c = 0) :
    (flipSubSlice l c >>= fun r => flipSubSlice r c) = some l := by
  have hn : l.length = l.length / c * c := by
    rw [Nat.div_mul_cancel (Nat.dvd_of_mod_eq_zero h)]
  rw [flipSubSlice_eq, if_pos ⟨by omega, h⟩]
  simp only [Option.bind_eq_bind, Option.bind_some]
  have h1 : (flipChunks c l).length = l.length / c * c := flipChunks_length c _ l hn
  rw [flipSubSlice_eq, if_pos ⟨by omega, by rw [h1, Nat.mul_mod_left]⟩,
    flipChunks_flipChunks c hc l h]

example : flip [1, 2, 3, 4, 5] = some [5, 4, 3, 2, 1] := by decide
example : flipSubSlice [1, 2, 3, 4, 5, 6] 3 = some [3, 2, 1, 6, 5, 4] := by decide
example : flipSubSlice [1, 2, 3, 4, 5] 3 = none := by decide

theorem slice2FVs_eq (f : α → F p) (a : List α) : slice2FVs f a = a.map f := by
  unfold slice2FVs
  have : ∀ acc : List (F p), a.foldl (fun vars v => vars ++ [f v]) acc = acc ++ a.map f := by
    induction a with
    | nil => simp
    | cons x a ih => intro acc; simp [ih]
  simpa using this []

/-- **C35.** `FlipKeccakFvBits` yields the big-endian bits of the value, each byte reversed, i.e. the bytes
in big-endian order with the bits of each byte little-endian. -/
theorem C35_flipKeccakFvBits (d : F p) (n : ℕ) :
    flipKeccakFvBits d n = if d.val < 2 ^ n ∧ n % 8 = 0 then
      some (flipChunks 8 ((List.range n).reverse.map (bit d))) else none := by
  unfold flipKeccakFvBits toBinary
  by_cases h1 : d.val < 2 ^ n
  · rw [if_pos h1]
    by_cases h2 : n % 8 = 0
    · simp [flip_eq, flipSubSlice_eq, h1, h2]
    · simp [flip_eq, h1, h2]
  · rw [if_neg h1, if_neg (by tauto)]; rfl

end Verif.Slices
