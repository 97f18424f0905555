import Mathlib.Data.List.Basic

/-! # Independent specification for the slice helpers -/

namespace Verif.Spec

/-- Cut a list into consecutive chunks of `c` elements (the last may be shorter). -/
def chunks {α : Type*} (c : ℕ) : ℕ → List α → List (List α)
  | 0, _ => []
  | n + 1, l => l.take c :: chunks c n (l.drop c)

/-- Reverse every chunk of `c` elements. -/
def flipChunks {α : Type*} (c : ℕ) (l : List α) : List α :=
  ((chunks c (l.length / c) l).map List.reverse).flatten

end Verif.Spec
