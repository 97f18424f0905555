/-! # Circuits as relations

A gadget whose outputs are not fixed by its inputs (a hint chooses them, and the constraints admit several values) is modelled by the
set of outcomes that satisfy its constraints. -/

namespace Verif

/-- What a prover can reach: the outcomes of a circuit that satisfy its constraints. -/
def Rel (α : Type) : Type := α → Prop

instance : Monad Rel where
  pure a := fun b => b = a
  bind m f := fun b => ∃ a, m a ∧ f a b

/-- A circuit whose outputs are determined by its inputs (`none`: unsatisfiable, or a panic). -/
def Rel.ofOption {α : Type} (o : Option α) : Rel α := fun a => o = some a

/-- An assertion. -/
def Rel.assert (c : Prop) : Rel Unit := fun _ => c

theorem Rel.pure_iff {α : Type} (a b : α) : (pure a : Rel α) b ↔ b = a := Iff.rfl

theorem Rel.bind_iff {α β : Type} (m : Rel α) (f : α → Rel β) (b : β) : (m >>= f) b ↔ ∃ a, m a ∧ f a b := Iff.rfl

end Verif
