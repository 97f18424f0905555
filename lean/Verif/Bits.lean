import Mathlib.Data.Fin.Basic
import Verif.Util

/-! # Boolean circuit variables: lifting `Bool` into the field, and the gadgets on lifted bits -/

namespace Verif
open Api

variable {p : ℕ}

/-- A bit as a circuit variable. -/
def ofB (b : Bool) : F p := if b then 1 else 0

/-- The variable holds 0 or 1. -/
def IsBit (x : F p) : Prop := x = 0 ∨ x = 1

/-- Run independent steps for every index of a fixed-size Go array; all have to be satisfiable. -/
def seqFin {n : ℕ} {α : Type*} (f : Fin n → Option α) : Option (Fin n → α) :=
  if h : ∀ i, (f i).isSome then some (fun i => (f i).get (h i)) else none

theorem seqFin_some {n : ℕ} {α : Type*} {f : Fin n → Option α} {g : Fin n → α}
    (h : ∀ i, f i = some (g i)) : seqFin f = some g := by
  unfold seqFin
  rw [dif_pos (by intro i; simp [h i])]
  congr 1
  funext i
  simp [h i]

theorem seqFin_none {n : ℕ} {α : Type*} {f : Fin n → Option α} (i : Fin n) (h : f i = none) :
    seqFin f = none := by
  unfold seqFin
  rw [dif_neg]
  intro h'
  have := h' i
  simp [h] at this

theorem seqFin_eq_some {n : ℕ} {α : Type*} {f : Fin n → Option α} {g : Fin n → α} :
    seqFin f = some g ↔ ∀ i, f i = some (g i) := by
  constructor
  · intro h i
    unfold seqFin at h
    split at h
    · next h' =>
      simp only [Option.some.injEq] at h
      rw [← h]; simp
    · cases h
  · exact seqFin_some

section
variable [Fact (1 < p)]

theorem one_ne_zero' : (1 : F p) ≠ 0 := by
  have : Nontrivial (ZMod p) := inferInstance
  exact one_ne_zero

@[simp] theorem ofB_true : (ofB true : F p) = 1 := rfl
@[simp] theorem ofB_false : (ofB false : F p) = 0 := rfl

theorem ofB_inj {a b : Bool} : (ofB a : F p) = ofB b ↔ a = b := by
  have := one_ne_zero' (p := p)
  cases a <;> cases b <;> simp [ofB, this, this.symm]

theorem isBit_ofB (b : Bool) : IsBit (ofB b : F p) := by cases b <;> simp [IsBit, ofB]

theorem isBit_iff {x : F p} : IsBit x ↔ ∃ b, x = ofB b := by
  constructor
  · rintro (h | h)
    · exact ⟨false, h⟩
    · exact ⟨true, h⟩
  · rintro ⟨b, rfl⟩; exact isBit_ofB b

theorem assertBool_ofB (b : Bool) : assertBool (ofB b : F p) = some () := by
  unfold assertBool; exact if_pos (isBit_ofB b)

theorem assertBool_none {x : F p} (h : ¬ IsBit x) : assertBool x = none := by
  unfold assertBool; exact if_neg h

theorem xor_ofB (a b : Bool) : Api.xor (ofB a : F p) (ofB b) = some (ofB (a ^^ b)) := by
  simp only [Api.xor, assertBool_ofB, Option.bind_eq_bind, Option.bind_some, Option.pure_def,
    Option.some.injEq]
  cases a <;> cases b <;> simp; ring

theorem and_ofB (a b : Bool) : Api.and (ofB a : F p) (ofB b) = some (ofB (a && b)) := by
  simp only [Api.and, assertBool_ofB, Option.bind_eq_bind, Option.bind_some, Option.pure_def,
    Option.some.injEq]
  cases a <;> cases b <;> simp

theorem or_ofB (a b : Bool) : Api.or (ofB a : F p) (ofB b) = some (ofB (a || b)) := by
  simp only [Api.or, assertBool_ofB, Option.bind_eq_bind, Option.bind_some, Option.pure_def,
    Option.some.injEq]
  cases a <;> cases b <;> simp

theorem xor_none_left {a b : F p} (h : ¬ IsBit a) : Api.xor a b = none := by
  simp [Api.xor, assertBool_none h]

theorem xor_none_right {a b : F p} (h : ¬ IsBit b) : Api.xor a b = none := by
  by_cases ha : IsBit a
  · obtain ⟨x, rfl⟩ := isBit_iff.1 ha
    simp [Api.xor, assertBool_none h, assertBool_ofB]
  · exact xor_none_left ha

theorem select_ofB (c : Bool) (x y : F p) : Api.select (ofB c) x y = some (if c then x else y) := by
  cases c <;> simp [Api.select, (one_ne_zero' (p := p)).symm]

end

/-- Simulation rule: a circuit loop on lifted states is the lift of the plain loop. -/
theorem foldlM_sim {S T α : Type*} (lift : T → S) {f : S → α → Option S} {g : T → α → T}
    {l : List α} (h : ∀ t, ∀ a ∈ l, f (lift t) a = some (lift (g t a))) (t : T) :
    l.foldlM f (lift t) = some (lift (l.foldl g t)) := by
  induction l generalizing t with
  | nil => rfl
  | cons a l ih =>
    rw [List.foldlM_cons, h t a (by simp)]
    exact ih (fun t' a' h' => h t' a' (by simp [h'])) _

end Verif

namespace Verif
open Api
variable {p : ℕ}

/-- Little-endian value of a bit list. -/
def natOfBits : List Bool → ℕ
  | [] => 0
  | b :: bs => b.toNat + 2 * natOfBits bs

theorem natOfBits_lt (l : List Bool) : natOfBits l < 2 ^ l.length := by
  induction l with
  | nil => simp [natOfBits]
  | cons b l ih =>
    simp only [natOfBits, List.length_cons, pow_succ]
    have : b.toNat ≤ 1 := Bool.toNat_le b
    omega

theorem testBit_natOfBits (l : List Bool) (i : ℕ) : (natOfBits l).testBit i = l.getD i false := by
  induction l generalizing i with
  | nil => simp [natOfBits]
  | cons b l ih =>
    simp only [natOfBits]
    cases i with
    | zero => cases b <;> simp [Nat.testBit_zero, Nat.add_mul_mod_self_left]
    | succ i =>
      rw [Nat.testBit_succ, show (b.toNat + 2 * natOfBits l) / 2 = natOfBits l by cases b <;> simp <;> omega,
        ih]
      simp

theorem natOfBits_testBit (n x : ℕ) (h : x < 2 ^ n) : natOfBits ((List.range n).map x.testBit) = x := by
  apply Nat.eq_of_testBit_eq
  intro i
  rw [testBit_natOfBits, List.getD_eq_getElem?_getD, List.getElem?_map]
  by_cases hi : i < n
  · rw [List.getElem?_range hi]; rfl
  · rw [List.getElem?_eq_none (by simpa using hi)]
    simp only [Option.map_none, Option.getD_none]
    exact (Nat.testBit_lt_two_pow (lt_of_lt_of_le h (Nat.pow_le_pow_right (by decide) (by omega)))).symm

theorem natOfBits_inj {a b : List Bool} (hl : a.length = b.length) (h : natOfBits a = natOfBits b) : a = b := by
  apply List.ext_getElem hl
  intro i h1 h2
  have := congrArg (fun n => n.testBit i) h
  simp only [testBit_natOfBits, List.getD_eq_getElem?_getD, List.getElem?_eq_getElem h1,
    List.getElem?_eq_getElem h2, Option.getD_some] at this
  exact this

theorem natOfBits_append (a b : List Bool) : natOfBits (a ++ b) = natOfBits a + 2 ^ a.length * natOfBits b := by
  induction a with
  | nil => simp [natOfBits]
  | cons x a ih => simp only [List.cons_append, natOfBits, ih, List.length_cons, pow_succ]; ring

theorem natOfBits_replicate_false (n : ℕ) : natOfBits (List.replicate n false) = 0 := by
  induction n with
  | zero => rfl
  | succ n ih => simp [List.replicate_succ, natOfBits, ih]

section
variable [Fact (1 < p)]

theorem packLE_ofB (l : List Bool) : packLE (l.map (ofB (p := p))) = ((natOfBits l : ℕ) : F p) := by
  induction l with
  | nil => simp [packLE, natOfBits]
  | cons b l ih =>
    simp only [List.map_cons, packLE, natOfBits, ih]
    cases b <;> simp [ofB]

theorem fromBinary_ofB (l : List Bool) :
    fromBinary (l.map (ofB (p := p))) = some ((natOfBits l : ℕ) : F p) := by
  unfold fromBinary
  rw [if_pos, packLE_ofB]
  intro b hb
  obtain ⟨x, _, rfl⟩ := List.mem_map.1 hb
  exact isBit_ofB x

theorem toBinary_cast (x n : ℕ) (hx : x < p) :
    toBinary (x : F p) n = if x < 2 ^ n then some ((List.range n).map fun i => ofB (x.testBit i)) else none := by
  unfold toBinary
  rw [ZMod.val_natCast_of_lt hx]
  split
  · congr 1
    apply List.map_congr_left
    intro i _
    simp [bit, ZMod.val_natCast_of_lt hx, ofB]
  · rfl

theorem toBinary_natOfBits (l : List Bool) (n : ℕ) (hl : l.length = n) (hp : 2 ^ n ≤ p) :
    toBinary ((natOfBits l : ℕ) : F p) n = some (l.map ofB) := by
  have h := natOfBits_lt l
  rw [hl] at h
  rw [toBinary_cast _ _ (lt_of_lt_of_le h hp), if_pos h]
  congr 1
  apply List.ext_getElem
  · simp [hl]
  · intro i h1 h2
    simp only [List.getElem_map, List.getElem_range, testBit_natOfBits]
    rw [List.getD_eq_getElem]

end
end Verif
