import Mathlib.Data.List.Basic
import Mathlib.Data.List.Rotate
import Mathlib.Data.Nat.Size
import Mathlib.Data.Nat.Bitwise
import Verif.Api

/-! Helper lemmas about `Option`-valued loops (no model content). -/

namespace Verif

theorem mapM_some {α β : Type*} {f : α → Option β} {g : α → β} {l : List α}
    (h : ∀ a ∈ l, f a = some (g a)) : l.mapM f = some (l.map g) := by
  induction l with
  | nil => rfl
  | cons a l ih =>
    have h1 := h a (by simp)
    have h2 := ih (fun b hb => h b (by simp [hb]))
    simp [List.mapM_cons, h1, h2]

theorem mapM_none {α β : Type*} {f : α → Option β} {l : List α} {a : α} (ha : a ∈ l)
    (h : f a = none) : l.mapM f = none := by
  induction l with
  | nil => simp at ha
  | cons b l ih =>
    rw [List.mapM_cons]
    rcases List.mem_cons.1 ha with rfl | h'
    · simp [h]
    · have := ih h'
      cases hb : f b <;> simp [this]

theorem mapM_eq_some {α β : Type*} {f : α → Option β} {l : List α} {r : List β} :
    l.mapM f = some r ↔ List.Forall₂ (fun a b => f a = some b) l r := by
  induction l generalizing r with
  | nil => cases r <;> simp [List.mapM_nil]
  | cons a l ih =>
    rw [List.mapM_cons]
    cases hfa : f a with
    | none =>
      simp only [Option.bind_eq_bind, Option.bind_none, false_iff, reduceCtorEq]
      intro h
      cases h with
      | cons h1 h2 => simp [hfa] at h1
    | some b =>
      cases hl : l.mapM f with
      | none =>
        simp only [Option.bind_eq_bind, Option.bind_some, Option.bind_none, false_iff, reduceCtorEq]
        intro h
        cases h with
        | cons h1 h2 => have := ih.2 h2; simp [hl] at this
      | some bs =>
        simp only [Option.bind_eq_bind, Option.bind_some, Option.pure_def, Option.some.injEq]
        constructor
        · rintro rfl
          exact List.Forall₂.cons hfa (ih.1 hl)
        · intro h
          cases h with
          | cons h1 h2 =>
            rw [hfa] at h1
            have := ih.2 h2
            rw [hl] at this
            simp_all

theorem mapM_length {α β : Type*} {f : α → Option β} {l : List α} {r : List β}
    (h : l.mapM f = some r) : r.length = l.length :=
  (mapM_eq_some.1 h).length_eq.symm

theorem mapM_congr' {α β : Type*} {f g : α → Option β} {l : List α}
    (h : ∀ a ∈ l, f a = g a) : l.mapM f = l.mapM g := by
  induction l with
  | nil => rfl
  | cons a l ih =>
    rw [List.mapM_cons, List.mapM_cons, h a (by simp), ih (fun b hb => h b (by simp [hb]))]

theorem foldlM_some {α β : Type*} {f : β → α → Option β} {g : β → α → β} {l : List α} (b : β)
    (h : ∀ b, ∀ a ∈ l, f b a = some (g b a)) : l.foldlM f b = some (l.foldl g b) := by
  induction l generalizing b with
  | nil => rfl
  | cons a l ih =>
    rw [List.foldlM_cons, h b a (by simp)]
    exact ih _ (fun b' a' h' => h b' a' (by simp [h']))

/-- Loop-invariant rule for `for i in [0,n)` loops in `Option`, success case. -/
theorem foldlM_range_some {β : Type*} {f : β → ℕ → Option β} (g : ℕ → β) (n : ℕ) (b : β)
    (h0 : g 0 = b) (hs : ∀ i < n, f (g i) i = some (g (i + 1))) :
    (List.range n).foldlM f b = some (g n) := by
  induction n with
  | zero => simp [h0]
  | succ n ih =>
    rw [List.range_succ, List.foldlM_append, ih (fun i hi => hs i (by omega))]
    simp [hs n (by omega)]

theorem foldl_add_eq {M : Type*} [AddMonoid M] {α : Type*} (f : α → M) (l : List α) (a : M) :
    l.foldl (fun acc x => acc + f x) a = a + (l.map f).sum := by
  induction l generalizing a with
  | nil => simp
  | cons x l ih => simp [ih, add_assoc]

section cast
variable {p : ℕ}

theorem natCast_inj_of_lt {a b : ℕ} (ha : a < p) (hb : b < p) :
    ((a : F p) = (b : F p)) ↔ a = b := by
  constructor
  · intro h
    have := congrArg ZMod.val h
    rwa [ZMod.val_natCast_of_lt ha, ZMod.val_natCast_of_lt hb] at this
  · rintro rfl; rfl

theorem natCast_eq_iff_val [NeZero p] {a : ℕ} (ha : a < p) (x : F p) :
    ((a : F p) = x) ↔ a = x.val := by
  constructor
  · rintro rfl; exact (ZMod.val_natCast_of_lt ha).symm
  · rintro rfl; simp

theorem mod_two_pow_succ' (x i : ℕ) :
    x % 2 ^ (i + 1) = x % 2 ^ i + (if x.testBit i then 2 ^ i else 0) := by
  rw [Nat.mod_pow_succ]
  have : x / 2 ^ i % 2 = if x.testBit i then 1 else 0 := by
    rw [Nat.testBit_eq_decide_div_mod_eq]
    have := Nat.mod_two_eq_zero_or_one (x / 2 ^ i)
    split <;> simp_all
  rw [this]; split <;> simp

end cast

end Verif
