import Verif.EdHost.Asm
import Verif.EdHost.FieldProps

/-! # C67: the assembly routines of the field arithmetic -/

namespace Verif.EdHost
open Verif.Ed

/-- The addresses of the five words of an element. -/
def wordsAt (p : ℕ) : List ℕ := [p, p + 8, p + 16, p + 24, p + 32]

/-- The element stored at `p`. -/
def eltAt (m : ℕ → ℕ) (p : ℕ) : Elt := ⟨m p, m (p + 8), m (p + 16), m (p + 24), m (p + 32)⟩

/-- **C67.** `feMul(out, a, b)` of fe_amd64.s runs to its end from every machine state, stores at `out` exactly the limbs the portable code computes
from the limbs at `a` and `b`, and writes nothing else — for all pointers, also when `out` is (or overlaps) `a` or `b`. -/
theorem C67_amd64_feMul (s : Amd64.St) : ∃ t, Amd64.run Amd64.feMulAsm s = some t ∧
    eltAt t.mem (s.arg 0) = feMul (eltAt s.mem (s.arg 8)) (eltAt s.mem (s.arg 16)) ∧ ∀ x, x ∉ wordsAt (s.arg 0) → t.mem x = s.mem x := by
  obtain ⟨t, h1, h2, h3⟩ := Amd64.feMul_run s
  refine ⟨t, h1, h2, fun x hx => ?_⟩
  simp only [wordsAt, List.mem_cons, List.not_mem_nil, or_false, not_or] at hx
  exact h3 x hx.1 hx.2.1 hx.2.2.1 hx.2.2.2.1 hx.2.2.2.2

/-- **C67.** `feSquare(out, a)` of fe_amd64.s likewise. -/
theorem C67_amd64_feSquare (s : Amd64.St) : ∃ t, Amd64.run Amd64.feSquareAsm s = some t ∧
    eltAt t.mem (s.arg 0) = feSquare (eltAt s.mem (s.arg 8)) ∧ ∀ x, x ∉ wordsAt (s.arg 0) → t.mem x = s.mem x := by
  obtain ⟨t, h1, h2, h3⟩ := Amd64.feSquare_run s
  refine ⟨t, h1, h2, fun x hx => ?_⟩
  simp only [wordsAt, List.mem_cons, List.not_mem_nil, or_false, not_or] at hx
  exact h3 x hx.1 hx.2.1 hx.2.2.1 hx.2.2.2.1 hx.2.2.2.2

/-- **C67.** `carryPropagate(v)` of fe_arm64.s works in place exactly like the portable code, and writes nothing else. -/
theorem C67_arm64_carryPropagate (s : Arm64.St) :
    eltAt (Arm64.run Arm64.carryPropagateAsm s).mem (s.arg 0) = carryPropagate (eltAt s.mem (s.arg 0)) ∧
      ∀ x, x ∉ wordsAt (s.arg 0) → (Arm64.run Arm64.carryPropagateAsm s).mem x = s.mem x := by
  obtain ⟨h2, h3⟩ := Arm64.carryPropagate_run s
  refine ⟨h2, fun x hx => ?_⟩
  simp only [wordsAt, List.mem_cons, List.not_mem_nil, or_false, not_or] at hx
  exact h3 x hx.1 hx.2.1 hx.2.2.1 hx.2.2.2.1 hx.2.2.2.2

/-- **C67.** Hence on amd64 the product of two elements made by the API, whatever the pointers, has the bytes of the product in the field. -/
theorem C67_amd64_value (s : Amd64.St) {x y : Fp} (ha : Made (eltAt s.mem (s.arg 8)) x) (hb : Made (eltAt s.mem (s.arg 16)) y) :
    ∃ t, Amd64.run Amd64.feMulAsm s = some t ∧ feBytes (eltAt t.mem (s.arg 0)) = leBytes 32 (x * y).val := by
  obtain ⟨t, h1, h2, -⟩ := C67_amd64_feMul s
  exact ⟨t, h1, by rw [h2]; exact C62_bytes (.mul ha hb)⟩

/-- A concrete run in place: squaring `√-1` stored at address 8 over itself gives `-1`. -/
example : ∃ t, Amd64.run Amd64.feMulAsm ⟨fun _ => 77, none, fun x => if x = 8 then feSqrtM1.l0 else if x = 16 then feSqrtM1.l1
    else if x = 24 then feSqrtM1.l2 else if x = 32 then feSqrtM1.l3 else feSqrtM1.l4, fun _ => 8⟩ = some t ∧
    feBytes (eltAt t.mem 8) = leBytes 32 (P - 1) := by
  obtain ⟨t, h1, h2, -⟩ := C67_amd64_feMul ⟨fun _ => 77, none, fun x => if x = 8 then feSqrtM1.l0 else if x = 16 then feSqrtM1.l1
    else if x = 24 then feSqrtM1.l2 else if x = 32 then feSqrtM1.l3 else feSqrtM1.l4, fun _ => 8⟩
  refine ⟨t, h1, ?_⟩
  change eltAt t.mem 8 = _ at h2
  rw [h2]
  decide +kernel

end Verif.EdHost
