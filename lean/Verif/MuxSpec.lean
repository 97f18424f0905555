import Verif.Api

/-! # Independent specifications for the selection and shift gadgets -/

namespace Verif.Spec

/-- Shift a list right by `s`, filling with zeros on the left and keeping the length. -/
def shiftRightZero {α : Type*} [Zero α] (l : List α) (s : ℕ) : List α :=
  (List.replicate s 0 ++ l).take l.length

/-- The window `[a, b)` of a list. -/
def window {α : Type*} (l : List α) (a b : ℕ) : List α := (l.take b).drop a

end Verif.Spec
