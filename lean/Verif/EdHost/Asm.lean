import Verif.EdHost.AsmProg

/-! # Symbolic execution of the assembly routines -/

namespace Verif.EdHost.Amd64

theorem run_append (l m : List Ins) (s : St) : run (l ++ m) s = (run l s).bind (run m) := by
  induction l generalizing s with
  | nil => rfl
  | cons i l ih =>
    rw [List.cons_append, run, run]
    cases exec s i with
    | none => rfl
    | some t => exact ih t

/-- An accumulator: two registers hold a 128-bit value, and the other registers except AX and DX are as before. -/
structure Accu (s t : St) (lo hi : Reg) (v : U128) : Prop where
  vlo : t.reg lo = v.lo
  vhi : t.reg hi = v.hi
  mem : t.mem = s.mem
  arg : t.arg = s.arg
  frame : ∀ r, r ≠ .AX → r ≠ .DX → r ≠ lo → r ≠ hi → t.reg r = s.reg r

/-- The pointers are not overwritten, and the accumulator uses registers of its own. -/
structure Ok (a b lo hi : Reg) : Prop where
  ne : lo ≠ hi
  l1 : lo ≠ .AX
  l2 : lo ≠ .DX
  h1 : hi ≠ .AX
  h2 : hi ≠ .DX
  a1 : a ≠ .AX
  a2 : a ≠ .DX
  a3 : a ≠ lo
  a4 : a ≠ hi
  b1 : b ≠ .AX
  b2 : b ≠ .DX
  b3 : b ≠ lo
  b4 : b ≠ hi

/-- `r = x·y`. -/
theorem acc_init (s : St) (i j : ℕ) {a b lo hi : Reg} (h : Ok a b lo hi) :
    ∃ t, run [.load i a .AX, .mul j b, .mov .AX lo, .mov .DX hi] s = some t ∧
      Accu s t lo hi (mul64 (s.mem (s.reg a + i)) (s.mem (s.reg b + j))) := by
  refine ⟨_, rfl, ?_, ?_, rfl, rfl, ?_⟩
  · simp [upd, h.ne, h.l1, h.l2, h.b1, mul64]
  · simp [upd, h.ne.symm, h.h1, h.h2, h.b1, h.l1.symm, h.l2.symm, mul64]
  · intro r h2 h3 h4 h5
    simp [upd, h2, h3, h4, h5]

/-- `r = (2x)·y`. -/
theorem acc_init2 (s : St) (i j : ℕ) {a b lo hi : Reg} (h : Ok a b lo hi) :
    ∃ t, run [.load i a .AX, .shl 1 .AX, .mul j b, .mov .AX lo, .mov .DX hi] s = some t ∧
      Accu s t lo hi (mul64 (mulw (s.mem (s.reg a + i)) 2) (s.mem (s.reg b + j))) := by
  refine ⟨_, rfl, ?_, ?_, rfl, rfl, ?_⟩
  · simp [upd, h.ne, h.l1, h.l2, h.b1, mul64, mulw, Nat.shiftLeft_eq]
  · simp [upd, h.ne.symm, h.h1, h.h2, h.b1, h.l1.symm, h.l2.symm, mul64, mulw, Nat.shiftLeft_eq]
  · intro r h2 h3 h4 h5
    simp [upd, h2, h3, h4, h5]

/-- `r += x·y`. -/
theorem Accu.add {s t : St} {a b lo hi : Reg} (h : Ok a b lo hi) {v : U128} (H : Accu s t lo hi v) (i j : ℕ) :
    ∃ u, run [.load i a .AX, .mul j b, .add .AX lo, .adc .DX hi] t = some u ∧
      Accu s u lo hi (addMul64 v (s.mem (s.reg a + i)) (s.mem (s.reg b + j))) := by
  have ea := H.frame a h.a1 h.a2 h.a3 h.a4
  have eb := H.frame b h.b1 h.b2 h.b3 h.b4
  refine ⟨_, rfl, ?_, ?_, H.mem, H.arg, ?_⟩
  · simp [upd, h.ne, h.l1, h.l2, h.b1, addMul64, H.vlo, ea, eb, H.mem]
  · simp [upd, h.ne.symm, h.h1, h.h2, h.b1, h.l1, h.l2, h.l1.symm, h.l2.symm, addMul64, H.vlo, H.vhi, ea, eb, H.mem]
  · intro r h2 h3 h4 h5
    simp [upd, h2, h3, h4, h5, H.frame]

/-- `r += k·x·y`. -/
theorem Accu.addk {s t : St} {a b lo hi : Reg} (h : Ok a b lo hi) {v : U128} (H : Accu s t lo hi v) (k i j : ℕ) :
    ∃ u, run [.load i a .AX, .imul3 k .AX .AX, .mul j b, .add .AX lo, .adc .DX hi] t = some u ∧
      Accu s u lo hi (addMul64 v (mulw (s.mem (s.reg a + i)) k) (s.mem (s.reg b + j))) := by
  have ea := H.frame a h.a1 h.a2 h.a3 h.a4
  have eb := H.frame b h.b1 h.b2 h.b3 h.b4
  refine ⟨_, rfl, ?_, ?_, H.mem, H.arg, ?_⟩
  · simp [upd, h.ne, h.l1, h.l2, h.b1, addMul64, H.vlo, ea, eb, H.mem, mulw]
  · simp [upd, h.ne.symm, h.h1, h.h2, h.b1, h.l1, h.l2, h.l1.symm, h.l2.symm, addMul64, H.vlo, H.vhi, ea, eb, H.mem, mulw]
  · intro r h2 h3 h4 h5
    simp [upd, h2, h3, h4, h5, H.frame]

/-- The five words at an address. -/
def loadElt (m : ℕ → ℕ) (p : ℕ) : Elt := ⟨m (p + 0), m (p + 8), m (p + 16), m (p + 24), m (p + 32)⟩

theorem feMul_r0_run (s : St) : ∃ t, run feMul_r0 s = some t ∧ Accu s t .DI .SI
    (addMul64 (addMul64 (addMul64 (addMul64 (mul64 (s.mem (s.reg .CX + 0)) (s.mem (s.reg .BX + 0))) (mulw (s.mem (s.reg .CX + 8)) 19) (s.mem (s.reg .BX + 32))) (mulw (s.mem (s.reg .CX + 16)) 19) (s.mem (s.reg .BX + 24))) (mulw (s.mem (s.reg .CX + 24)) 19) (s.mem (s.reg .BX + 16))) (mulw (s.mem (s.reg .CX + 32)) 19) (s.mem (s.reg .BX + 8))) := by
  have ok : Ok .CX .BX .DI .SI := by constructor <;> decide
  obtain ⟨t1, e1, h1⟩ := acc_init s 0 0 ok
  obtain ⟨t2, e2, h2⟩ := h1.addk ok 19 8 32
  obtain ⟨t3, e3, h3⟩ := h2.addk ok 19 16 24
  obtain ⟨t4, e4, h4⟩ := h3.addk ok 19 24 16
  obtain ⟨t5, e5, h5⟩ := h4.addk ok 19 32 8
  refine ⟨t5, ?_, h5⟩
  change run ([.load 0 .CX .AX, .mul 0 .BX, .mov .AX .DI, .mov .DX .SI] ++ [.load 8 .CX .AX, .imul3 0x13 .AX .AX, .mul 32 .BX, .add .AX .DI, .adc .DX .SI] ++ [.load 16 .CX .AX, .imul3 0x13 .AX .AX, .mul 24 .BX, .add .AX .DI, .adc .DX .SI] ++ [.load 24 .CX .AX, .imul3 0x13 .AX .AX, .mul 16 .BX, .add .AX .DI, .adc .DX .SI] ++ [.load 32 .CX .AX, .imul3 0x13 .AX .AX, .mul 8 .BX, .add .AX .DI, .adc .DX .SI]) s = some t5
  rw [run_append, run_append, run_append, run_append, e1, Option.bind_some, e2, Option.bind_some, e3, Option.bind_some, e4, Option.bind_some, e5]

theorem feMul_r1_run (s : St) : ∃ t, run feMul_r1 s = some t ∧ Accu s t .R9 .R8
    (addMul64 (addMul64 (addMul64 (addMul64 (mul64 (s.mem (s.reg .CX + 0)) (s.mem (s.reg .BX + 8))) (s.mem (s.reg .CX + 8)) (s.mem (s.reg .BX + 0))) (mulw (s.mem (s.reg .CX + 16)) 19) (s.mem (s.reg .BX + 32))) (mulw (s.mem (s.reg .CX + 24)) 19) (s.mem (s.reg .BX + 24))) (mulw (s.mem (s.reg .CX + 32)) 19) (s.mem (s.reg .BX + 16))) := by
  have ok : Ok .CX .BX .R9 .R8 := by constructor <;> decide
  obtain ⟨t1, e1, h1⟩ := acc_init s 0 8 ok
  obtain ⟨t2, e2, h2⟩ := h1.add ok 8 0
  obtain ⟨t3, e3, h3⟩ := h2.addk ok 19 16 32
  obtain ⟨t4, e4, h4⟩ := h3.addk ok 19 24 24
  obtain ⟨t5, e5, h5⟩ := h4.addk ok 19 32 16
  refine ⟨t5, ?_, h5⟩
  change run ([.load 0 .CX .AX, .mul 8 .BX, .mov .AX .R9, .mov .DX .R8] ++ [.load 8 .CX .AX, .mul 0 .BX, .add .AX .R9, .adc .DX .R8] ++ [.load 16 .CX .AX, .imul3 0x13 .AX .AX, .mul 32 .BX, .add .AX .R9, .adc .DX .R8] ++ [.load 24 .CX .AX, .imul3 0x13 .AX .AX, .mul 24 .BX, .add .AX .R9, .adc .DX .R8] ++ [.load 32 .CX .AX, .imul3 0x13 .AX .AX, .mul 16 .BX, .add .AX .R9, .adc .DX .R8]) s = some t5
  rw [run_append, run_append, run_append, run_append, e1, Option.bind_some, e2, Option.bind_some, e3, Option.bind_some, e4, Option.bind_some, e5]

theorem feMul_r2_run (s : St) : ∃ t, run feMul_r2 s = some t ∧ Accu s t .R11 .R10
    (addMul64 (addMul64 (addMul64 (addMul64 (mul64 (s.mem (s.reg .CX + 0)) (s.mem (s.reg .BX + 16))) (s.mem (s.reg .CX + 8)) (s.mem (s.reg .BX + 8))) (s.mem (s.reg .CX + 16)) (s.mem (s.reg .BX + 0))) (mulw (s.mem (s.reg .CX + 24)) 19) (s.mem (s.reg .BX + 32))) (mulw (s.mem (s.reg .CX + 32)) 19) (s.mem (s.reg .BX + 24))) := by
  have ok : Ok .CX .BX .R11 .R10 := by constructor <;> decide
  obtain ⟨t1, e1, h1⟩ := acc_init s 0 16 ok
  obtain ⟨t2, e2, h2⟩ := h1.add ok 8 8
  obtain ⟨t3, e3, h3⟩ := h2.add ok 16 0
  obtain ⟨t4, e4, h4⟩ := h3.addk ok 19 24 32
  obtain ⟨t5, e5, h5⟩ := h4.addk ok 19 32 24
  refine ⟨t5, ?_, h5⟩
  change run ([.load 0 .CX .AX, .mul 16 .BX, .mov .AX .R11, .mov .DX .R10] ++ [.load 8 .CX .AX, .mul 8 .BX, .add .AX .R11, .adc .DX .R10] ++ [.load 16 .CX .AX, .mul 0 .BX, .add .AX .R11, .adc .DX .R10] ++ [.load 24 .CX .AX, .imul3 0x13 .AX .AX, .mul 32 .BX, .add .AX .R11, .adc .DX .R10] ++ [.load 32 .CX .AX, .imul3 0x13 .AX .AX, .mul 24 .BX, .add .AX .R11, .adc .DX .R10]) s = some t5
  rw [run_append, run_append, run_append, run_append, e1, Option.bind_some, e2, Option.bind_some, e3, Option.bind_some, e4, Option.bind_some, e5]

theorem feMul_r3_run (s : St) : ∃ t, run feMul_r3 s = some t ∧ Accu s t .R13 .R12
    (addMul64 (addMul64 (addMul64 (addMul64 (mul64 (s.mem (s.reg .CX + 0)) (s.mem (s.reg .BX + 24))) (s.mem (s.reg .CX + 8)) (s.mem (s.reg .BX + 16))) (s.mem (s.reg .CX + 16)) (s.mem (s.reg .BX + 8))) (s.mem (s.reg .CX + 24)) (s.mem (s.reg .BX + 0))) (mulw (s.mem (s.reg .CX + 32)) 19) (s.mem (s.reg .BX + 32))) := by
  have ok : Ok .CX .BX .R13 .R12 := by constructor <;> decide
  obtain ⟨t1, e1, h1⟩ := acc_init s 0 24 ok
  obtain ⟨t2, e2, h2⟩ := h1.add ok 8 16
  obtain ⟨t3, e3, h3⟩ := h2.add ok 16 8
  obtain ⟨t4, e4, h4⟩ := h3.add ok 24 0
  obtain ⟨t5, e5, h5⟩ := h4.addk ok 19 32 32
  refine ⟨t5, ?_, h5⟩
  change run ([.load 0 .CX .AX, .mul 24 .BX, .mov .AX .R13, .mov .DX .R12] ++ [.load 8 .CX .AX, .mul 16 .BX, .add .AX .R13, .adc .DX .R12] ++ [.load 16 .CX .AX, .mul 8 .BX, .add .AX .R13, .adc .DX .R12] ++ [.load 24 .CX .AX, .mul 0 .BX, .add .AX .R13, .adc .DX .R12] ++ [.load 32 .CX .AX, .imul3 0x13 .AX .AX, .mul 32 .BX, .add .AX .R13, .adc .DX .R12]) s = some t5
  rw [run_append, run_append, run_append, run_append, e1, Option.bind_some, e2, Option.bind_some, e3, Option.bind_some, e4, Option.bind_some, e5]

theorem feMul_r4_run (s : St) : ∃ t, run feMul_r4 s = some t ∧ Accu s t .R15 .R14
    (addMul64 (addMul64 (addMul64 (addMul64 (mul64 (s.mem (s.reg .CX + 0)) (s.mem (s.reg .BX + 32))) (s.mem (s.reg .CX + 8)) (s.mem (s.reg .BX + 24))) (s.mem (s.reg .CX + 16)) (s.mem (s.reg .BX + 16))) (s.mem (s.reg .CX + 24)) (s.mem (s.reg .BX + 8))) (s.mem (s.reg .CX + 32)) (s.mem (s.reg .BX + 0))) := by
  have ok : Ok .CX .BX .R15 .R14 := by constructor <;> decide
  obtain ⟨t1, e1, h1⟩ := acc_init s 0 32 ok
  obtain ⟨t2, e2, h2⟩ := h1.add ok 8 24
  obtain ⟨t3, e3, h3⟩ := h2.add ok 16 16
  obtain ⟨t4, e4, h4⟩ := h3.add ok 24 8
  obtain ⟨t5, e5, h5⟩ := h4.add ok 32 0
  refine ⟨t5, ?_, h5⟩
  change run ([.load 0 .CX .AX, .mul 32 .BX, .mov .AX .R15, .mov .DX .R14] ++ [.load 8 .CX .AX, .mul 24 .BX, .add .AX .R15, .adc .DX .R14] ++ [.load 16 .CX .AX, .mul 16 .BX, .add .AX .R15, .adc .DX .R14] ++ [.load 24 .CX .AX, .mul 8 .BX, .add .AX .R15, .adc .DX .R14] ++ [.load 32 .CX .AX, .mul 0 .BX, .add .AX .R15, .adc .DX .R14]) s = some t5
  rw [run_append, run_append, run_append, run_append, e1, Option.bind_some, e2, Option.bind_some, e3, Option.bind_some, e4, Option.bind_some, e5]

theorem feSquare_r0_run (s : St) : ∃ t, run feSquare_r0 s = some t ∧ Accu s t .SI .BX
    (addMul64 (addMul64 (mul64 (s.mem (s.reg .CX + 0)) (s.mem (s.reg .CX + 0))) (mulw (s.mem (s.reg .CX + 8)) 38) (s.mem (s.reg .CX + 32))) (mulw (s.mem (s.reg .CX + 16)) 38) (s.mem (s.reg .CX + 24))) := by
  have ok : Ok .CX .CX .SI .BX := by constructor <;> decide
  obtain ⟨t1, e1, h1⟩ := acc_init s 0 0 ok
  obtain ⟨t2, e2, h2⟩ := h1.addk ok 38 8 32
  obtain ⟨t3, e3, h3⟩ := h2.addk ok 38 16 24
  refine ⟨t3, ?_, h3⟩
  change run ([.load 0 .CX .AX, .mul 0 .CX, .mov .AX .SI, .mov .DX .BX] ++ [.load 8 .CX .AX, .imul3 0x26 .AX .AX, .mul 32 .CX, .add .AX .SI, .adc .DX .BX] ++ [.load 16 .CX .AX, .imul3 0x26 .AX .AX, .mul 24 .CX, .add .AX .SI, .adc .DX .BX]) s = some t3
  rw [run_append, run_append, e1, Option.bind_some, e2, Option.bind_some, e3]

theorem feSquare_r1_run (s : St) : ∃ t, run feSquare_r1 s = some t ∧ Accu s t .R8 .DI
    (addMul64 (addMul64 (mul64 (mulw (s.mem (s.reg .CX + 0)) 2) (s.mem (s.reg .CX + 8))) (mulw (s.mem (s.reg .CX + 16)) 38) (s.mem (s.reg .CX + 32))) (mulw (s.mem (s.reg .CX + 24)) 19) (s.mem (s.reg .CX + 24))) := by
  have ok : Ok .CX .CX .R8 .DI := by constructor <;> decide
  obtain ⟨t1, e1, h1⟩ := acc_init2 s 0 8 ok
  obtain ⟨t2, e2, h2⟩ := h1.addk ok 38 16 32
  obtain ⟨t3, e3, h3⟩ := h2.addk ok 19 24 24
  refine ⟨t3, ?_, h3⟩
  change run ([.load 0 .CX .AX, .shl 0x01 .AX, .mul 8 .CX, .mov .AX .R8, .mov .DX .DI] ++ [.load 16 .CX .AX, .imul3 0x26 .AX .AX, .mul 32 .CX, .add .AX .R8, .adc .DX .DI] ++ [.load 24 .CX .AX, .imul3 0x13 .AX .AX, .mul 24 .CX, .add .AX .R8, .adc .DX .DI]) s = some t3
  rw [run_append, run_append, e1, Option.bind_some, e2, Option.bind_some, e3]

theorem feSquare_r2_run (s : St) : ∃ t, run feSquare_r2 s = some t ∧ Accu s t .R10 .R9
    (addMul64 (addMul64 (mul64 (mulw (s.mem (s.reg .CX + 0)) 2) (s.mem (s.reg .CX + 16))) (s.mem (s.reg .CX + 8)) (s.mem (s.reg .CX + 8))) (mulw (s.mem (s.reg .CX + 24)) 38) (s.mem (s.reg .CX + 32))) := by
  have ok : Ok .CX .CX .R10 .R9 := by constructor <;> decide
  obtain ⟨t1, e1, h1⟩ := acc_init2 s 0 16 ok
  obtain ⟨t2, e2, h2⟩ := h1.add ok 8 8
  obtain ⟨t3, e3, h3⟩ := h2.addk ok 38 24 32
  refine ⟨t3, ?_, h3⟩
  change run ([.load 0 .CX .AX, .shl 0x01 .AX, .mul 16 .CX, .mov .AX .R10, .mov .DX .R9] ++ [.load 8 .CX .AX, .mul 8 .CX, .add .AX .R10, .adc .DX .R9] ++ [.load 24 .CX .AX, .imul3 0x26 .AX .AX, .mul 32 .CX, .add .AX .R10, .adc .DX .R9]) s = some t3
  rw [run_append, run_append, e1, Option.bind_some, e2, Option.bind_some, e3]

theorem feSquare_r3_run (s : St) : ∃ t, run feSquare_r3 s = some t ∧ Accu s t .R12 .R11
    (addMul64 (addMul64 (mul64 (mulw (s.mem (s.reg .CX + 0)) 2) (s.mem (s.reg .CX + 24))) (mulw (s.mem (s.reg .CX + 8)) 2) (s.mem (s.reg .CX + 16))) (mulw (s.mem (s.reg .CX + 32)) 19) (s.mem (s.reg .CX + 32))) := by
  have ok : Ok .CX .CX .R12 .R11 := by constructor <;> decide
  obtain ⟨t1, e1, h1⟩ := acc_init2 s 0 24 ok
  obtain ⟨t2, e2, h2⟩ := h1.addk ok 2 8 16
  obtain ⟨t3, e3, h3⟩ := h2.addk ok 19 32 32
  refine ⟨t3, ?_, h3⟩
  change run ([.load 0 .CX .AX, .shl 0x01 .AX, .mul 24 .CX, .mov .AX .R12, .mov .DX .R11] ++ [.load 8 .CX .AX, .imul3 0x02 .AX .AX, .mul 16 .CX, .add .AX .R12, .adc .DX .R11] ++ [.load 32 .CX .AX, .imul3 0x13 .AX .AX, .mul 32 .CX, .add .AX .R12, .adc .DX .R11]) s = some t3
  rw [run_append, run_append, e1, Option.bind_some, e2, Option.bind_some, e3]

theorem feSquare_r4_run (s : St) : ∃ t, run feSquare_r4 s = some t ∧ Accu s t .R14 .R13
    (addMul64 (addMul64 (mul64 (mulw (s.mem (s.reg .CX + 0)) 2) (s.mem (s.reg .CX + 32))) (mulw (s.mem (s.reg .CX + 8)) 2) (s.mem (s.reg .CX + 24))) (s.mem (s.reg .CX + 16)) (s.mem (s.reg .CX + 16))) := by
  have ok : Ok .CX .CX .R14 .R13 := by constructor <;> decide
  obtain ⟨t1, e1, h1⟩ := acc_init2 s 0 32 ok
  obtain ⟨t2, e2, h2⟩ := h1.addk ok 2 8 24
  obtain ⟨t3, e3, h3⟩ := h2.add ok 16 16
  refine ⟨t3, ?_, h3⟩
  change run ([.load 0 .CX .AX, .shl 0x01 .AX, .mul 32 .CX, .mov .AX .R14, .mov .DX .R13] ++ [.load 8 .CX .AX, .imul3 0x02 .AX .AX, .mul 24 .CX, .add .AX .R14, .adc .DX .R13] ++ [.load 16 .CX .AX, .mul 16 .CX, .add .AX .R14, .adc .DX .R13]) s = some t3
  rw [run_append, run_append, e1, Option.bind_some, e2, Option.bind_some, e3]

theorem feMul_red_run (s : St) : ∃ t, run (feMul_red1 ++ feMul_red2) s = some t ∧ t.mem = s.mem ∧ t.arg = s.arg ∧
    (⟨t.reg .DI, t.reg .R9, t.reg .R11, t.reg .R13, t.reg .R15⟩ : Elt) = finish ⟨s.reg .DI, s.reg .SI⟩ ⟨s.reg .R9, s.reg .R8⟩ ⟨s.reg .R11, s.reg .R10⟩ ⟨s.reg .R13, s.reg .R12⟩ ⟨s.reg .R15, s.reg .R14⟩ := by
  refine ⟨_, rfl, rfl, rfl, ?_⟩
  rw [Elt.mk.injEq]
  refine ⟨?_, ?_, ?_, ?_, ?_⟩ <;>
    simp [upd, finish, carryPropagate, shiftRightBy51, add64, mulw, shl64, mask51, Nat.add_comm]

theorem feSquare_red_run (s : St) : ∃ t, run (feSquare_red1 ++ feSquare_red2) s = some t ∧ t.mem = s.mem ∧ t.arg = s.arg ∧
    (⟨t.reg .SI, t.reg .R8, t.reg .R10, t.reg .R12, t.reg .R14⟩ : Elt) = finish ⟨s.reg .SI, s.reg .BX⟩ ⟨s.reg .R8, s.reg .DI⟩ ⟨s.reg .R10, s.reg .R9⟩ ⟨s.reg .R12, s.reg .R11⟩ ⟨s.reg .R14, s.reg .R13⟩ := by
  refine ⟨_, rfl, rfl, rfl, ?_⟩
  rw [Elt.mk.injEq]
  refine ⟨?_, ?_, ?_, ?_, ?_⟩ <;>
    simp [upd, finish, carryPropagate, shiftRightBy51, add64, mulw, shl64, mask51, Nat.add_comm]

theorem feMul_st_run (s : St) : ∃ t, run feMul_st s = some t ∧
    loadElt t.mem (s.arg 0) = ⟨s.reg .DI, s.reg .R9, s.reg .R11, s.reg .R13, s.reg .R15⟩ ∧
    ∀ x, x ≠ s.arg 0 → x ≠ s.arg 0 + 8 → x ≠ s.arg 0 + 16 → x ≠ s.arg 0 + 24 → x ≠ s.arg 0 + 32 → t.mem x = s.mem x := by
  refine ⟨_, rfl, ?_, ?_⟩
  · simp [loadElt, upd]
  · intro x h0 h1 h2 h3 h4
    simp [upd, h0, h1, h2, h3, h4]

theorem feMul_ptr_run (s : St) : ∃ t, run feMul_ptr s = some t ∧ t.reg .CX = s.arg 8 ∧ t.reg .BX = s.arg 16 ∧ t.mem = s.mem ∧ t.arg = s.arg :=
  ⟨_, rfl, rfl, rfl, rfl, rfl⟩

/-- The whole routine. -/
theorem feMul_run (s : St) : ∃ t, run feMulAsm s = some t ∧ loadElt t.mem (s.arg 0) = feMul (loadElt s.mem (s.arg 8)) (loadElt s.mem (s.arg 16)) ∧
    ∀ x, x ≠ s.arg 0 → x ≠ s.arg 0 + 8 → x ≠ s.arg 0 + 16 → x ≠ s.arg 0 + 24 → x ≠ s.arg 0 + 32 → t.mem x = s.mem x := by
  obtain ⟨s0, e0, pc, pb, pm, pa⟩ := feMul_ptr_run s
  obtain ⟨s1, e1, h1⟩ := feMul_r0_run s0
  obtain ⟨s2, e2, h2⟩ := feMul_r1_run s1
  obtain ⟨s3, e3, h3⟩ := feMul_r2_run s2
  obtain ⟨s4, e4, h4⟩ := feMul_r3_run s3
  obtain ⟨s5, e5, h5⟩ := feMul_r4_run s4
  obtain ⟨s6, e6, m6, a6, v6⟩ := feMul_red_run s5
  obtain ⟨s7, e7, v7, f7⟩ := feMul_st_run s6
  have c1 : s1.reg .CX = s.arg 8 := (h1.frame .CX (by decide) (by decide) (by decide) (by decide)).trans pc
  have b1 : s1.reg .BX = s.arg 16 := (h1.frame .BX (by decide) (by decide) (by decide) (by decide)).trans pb
  have m1 : s1.mem = s.mem := h1.mem.trans pm
  have a1 : s1.arg = s.arg := h1.arg.trans pa
  have c2 : s2.reg .CX = s.arg 8 := (h2.frame .CX (by decide) (by decide) (by decide) (by decide)).trans c1
  have b2 : s2.reg .BX = s.arg 16 := (h2.frame .BX (by decide) (by decide) (by decide) (by decide)).trans b1
  have m2 : s2.mem = s.mem := h2.mem.trans m1
  have a2 : s2.arg = s.arg := h2.arg.trans a1
  have c3 : s3.reg .CX = s.arg 8 := (h3.frame .CX (by decide) (by decide) (by decide) (by decide)).trans c2
  have b3 : s3.reg .BX = s.arg 16 := (h3.frame .BX (by decide) (by decide) (by decide) (by decide)).trans b2
  have m3 : s3.mem = s.mem := h3.mem.trans m2
  have a3 : s3.arg = s.arg := h3.arg.trans a2
  have c4 : s4.reg .CX = s.arg 8 := (h4.frame .CX (by decide) (by decide) (by decide) (by decide)).trans c3
  have b4 : s4.reg .BX = s.arg 16 := (h4.frame .BX (by decide) (by decide) (by decide) (by decide)).trans b3
  have m4 : s4.mem = s.mem := h4.mem.trans m3
  have a4 : s4.arg = s.arg := h4.arg.trans a3
  have c5 : s5.reg .CX = s.arg 8 := (h5.frame .CX (by decide) (by decide) (by decide) (by decide)).trans c4
  have b5 : s5.reg .BX = s.arg 16 := (h5.frame .BX (by decide) (by decide) (by decide) (by decide)).trans b4
  have m5 : s5.mem = s.mem := h5.mem.trans m4
  have a5 : s5.arg = s.arg := h5.arg.trans a4
  have l0 := (h5.frame .DI (by decide) (by decide) (by decide) (by decide)).trans ((h4.frame .DI (by decide) (by decide) (by decide) (by decide)).trans ((h3.frame .DI (by decide) (by decide) (by decide) (by decide)).trans ((h2.frame .DI (by decide) (by decide) (by decide) (by decide)).trans (h1.vlo))))
  have g0 := (h5.frame .SI (by decide) (by decide) (by decide) (by decide)).trans ((h4.frame .SI (by decide) (by decide) (by decide) (by decide)).trans ((h3.frame .SI (by decide) (by decide) (by decide) (by decide)).trans ((h2.frame .SI (by decide) (by decide) (by decide) (by decide)).trans (h1.vhi))))
  have l1 := (h5.frame .R9 (by decide) (by decide) (by decide) (by decide)).trans ((h4.frame .R9 (by decide) (by decide) (by decide) (by decide)).trans ((h3.frame .R9 (by decide) (by decide) (by decide) (by decide)).trans (h2.vlo)))
  have g1 := (h5.frame .R8 (by decide) (by decide) (by decide) (by decide)).trans ((h4.frame .R8 (by decide) (by decide) (by decide) (by decide)).trans ((h3.frame .R8 (by decide) (by decide) (by decide) (by decide)).trans (h2.vhi)))
  have l2 := (h5.frame .R11 (by decide) (by decide) (by decide) (by decide)).trans ((h4.frame .R11 (by decide) (by decide) (by decide) (by decide)).trans (h3.vlo))
  have g2 := (h5.frame .R10 (by decide) (by decide) (by decide) (by decide)).trans ((h4.frame .R10 (by decide) (by decide) (by decide) (by decide)).trans (h3.vhi))
  have l3 := (h5.frame .R13 (by decide) (by decide) (by decide) (by decide)).trans (h4.vlo)
  have g3 := (h5.frame .R12 (by decide) (by decide) (by decide) (by decide)).trans (h4.vhi)
  have l4 := h5.vlo
  have g4 := h5.vhi
  have a6' : s6.arg = s.arg := a6.trans a5
  rw [a6'] at v7 f7
  refine ⟨s7, ?_, ?_, ?_⟩
  · change run (feMul_ptr ++ (feMul_r0 ++ (feMul_r1 ++ (feMul_r2 ++ (feMul_r3 ++ (feMul_r4 ++ ((feMul_red1 ++ feMul_red2) ++ feMul_st))))))) s = some s7
    rw [run_append, e0, Option.bind_some, run_append, e1, Option.bind_some, run_append, e2, Option.bind_some, run_append, e3, Option.bind_some, run_append, e4, Option.bind_some, run_append, e5, Option.bind_some, run_append, e6, Option.bind_some, e7]
  · rw [v7, v6, l0, g0, l1, g1, l2, g2, l3, g3, l4, g4, c1, m1, b1, c2, m2, b2, c3, m3, b3, c4, m4, b4, pc, pm, pb]
    rfl
  · intro x h0 h1 h2 h3 h4
    rw [f7 x h0 h1 h2 h3 h4, m6, m5]

theorem feSquare_st_run (s : St) : ∃ t, run feSquare_st s = some t ∧
    loadElt t.mem (s.arg 0) = ⟨s.reg .SI, s.reg .R8, s.reg .R10, s.reg .R12, s.reg .R14⟩ ∧
    ∀ x, x ≠ s.arg 0 → x ≠ s.arg 0 + 8 → x ≠ s.arg 0 + 16 → x ≠ s.arg 0 + 24 → x ≠ s.arg 0 + 32 → t.mem x = s.mem x := by
  refine ⟨_, rfl, ?_, ?_⟩
  · simp [loadElt, upd]
  · intro x h0 h1 h2 h3 h4
    simp [upd, h0, h1, h2, h3, h4]

theorem feSquare_ptr_run (s : St) : ∃ t, run feSquare_ptr s = some t ∧ t.reg .CX = s.arg 8 ∧ t.mem = s.mem ∧ t.arg = s.arg :=
  ⟨_, rfl, rfl, rfl, rfl⟩

/-- The whole routine. -/
theorem feSquare_run (s : St) : ∃ t, run feSquareAsm s = some t ∧ loadElt t.mem (s.arg 0) = feSquare (loadElt s.mem (s.arg 8)) ∧
    ∀ x, x ≠ s.arg 0 → x ≠ s.arg 0 + 8 → x ≠ s.arg 0 + 16 → x ≠ s.arg 0 + 24 → x ≠ s.arg 0 + 32 → t.mem x = s.mem x := by
  obtain ⟨s0, e0, pc, pm, pa⟩ := feSquare_ptr_run s
  obtain ⟨s1, e1, h1⟩ := feSquare_r0_run s0
  obtain ⟨s2, e2, h2⟩ := feSquare_r1_run s1
  obtain ⟨s3, e3, h3⟩ := feSquare_r2_run s2
  obtain ⟨s4, e4, h4⟩ := feSquare_r3_run s3
  obtain ⟨s5, e5, h5⟩ := feSquare_r4_run s4
  obtain ⟨s6, e6, m6, a6, v6⟩ := feSquare_red_run s5
  obtain ⟨s7, e7, v7, f7⟩ := feSquare_st_run s6
  have c1 : s1.reg .CX = s.arg 8 := (h1.frame .CX (by decide) (by decide) (by decide) (by decide)).trans pc
  have m1 : s1.mem = s.mem := h1.mem.trans pm
  have a1 : s1.arg = s.arg := h1.arg.trans pa
  have c2 : s2.reg .CX = s.arg 8 := (h2.frame .CX (by decide) (by decide) (by decide) (by decide)).trans c1
  have m2 : s2.mem = s.mem := h2.mem.trans m1
  have a2 : s2.arg = s.arg := h2.arg.trans a1
  have c3 : s3.reg .CX = s.arg 8 := (h3.frame .CX (by decide) (by decide) (by decide) (by decide)).trans c2
  have m3 : s3.mem = s.mem := h3.mem.trans m2
  have a3 : s3.arg = s.arg := h3.arg.trans a2
  have c4 : s4.reg .CX = s.arg 8 := (h4.frame .CX (by decide) (by decide) (by decide) (by decide)).trans c3
  have m4 : s4.mem = s.mem := h4.mem.trans m3
  have a4 : s4.arg = s.arg := h4.arg.trans a3
  have c5 : s5.reg .CX = s.arg 8 := (h5.frame .CX (by decide) (by decide) (by decide) (by decide)).trans c4
  have m5 : s5.mem = s.mem := h5.mem.trans m4
  have a5 : s5.arg = s.arg := h5.arg.trans a4
  have l0 := (h5.frame .SI (by decide) (by decide) (by decide) (by decide)).trans ((h4.frame .SI (by decide) (by decide) (by decide) (by decide)).trans ((h3.frame .SI (by decide) (by decide) (by decide) (by decide)).trans ((h2.frame .SI (by decide) (by decide) (by decide) (by decide)).trans (h1.vlo))))
  have g0 := (h5.frame .BX (by decide) (by decide) (by decide) (by decide)).trans ((h4.frame .BX (by decide) (by decide) (by decide) (by decide)).trans ((h3.frame .BX (by decide) (by decide) (by decide) (by decide)).trans ((h2.frame .BX (by decide) (by decide) (by decide) (by decide)).trans (h1.vhi))))
  have l1 := (h5.frame .R8 (by decide) (by decide) (by decide) (by decide)).trans ((h4.frame .R8 (by decide) (by decide) (by decide) (by decide)).trans ((h3.frame .R8 (by decide) (by decide) (by decide) (by decide)).trans (h2.vlo)))
  have g1 := (h5.frame .DI (by decide) (by decide) (by decide) (by decide)).trans ((h4.frame .DI (by decide) (by decide) (by decide) (by decide)).trans ((h3.frame .DI (by decide) (by decide) (by decide) (by decide)).trans (h2.vhi)))
  have l2 := (h5.frame .R10 (by decide) (by decide) (by decide) (by decide)).trans ((h4.frame .R10 (by decide) (by decide) (by decide) (by decide)).trans (h3.vlo))
  have g2 := (h5.frame .R9 (by decide) (by decide) (by decide) (by decide)).trans ((h4.frame .R9 (by decide) (by decide) (by decide) (by decide)).trans (h3.vhi))
  have l3 := (h5.frame .R12 (by decide) (by decide) (by decide) (by decide)).trans (h4.vlo)
  have g3 := (h5.frame .R11 (by decide) (by decide) (by decide) (by decide)).trans (h4.vhi)
  have l4 := h5.vlo
  have g4 := h5.vhi
  have a6' : s6.arg = s.arg := a6.trans a5
  rw [a6'] at v7 f7
  refine ⟨s7, ?_, ?_, ?_⟩
  · change run (feSquare_ptr ++ (feSquare_r0 ++ (feSquare_r1 ++ (feSquare_r2 ++ (feSquare_r3 ++ (feSquare_r4 ++ ((feSquare_red1 ++ feSquare_red2) ++ feSquare_st))))))) s = some s7
    rw [run_append, e0, Option.bind_some, run_append, e1, Option.bind_some, run_append, e2, Option.bind_some, run_append, e3, Option.bind_some, run_append, e4, Option.bind_some, run_append, e5, Option.bind_some, run_append, e6, Option.bind_some, e7]
  · rw [v7, v6, l0, g0, l1, g1, l2, g2, l3, g3, l4, g4, c1, m1, c2, m2, c3, m3, c4, m4, pc, pm]
    rfl
  · intro x h0 h1 h2 h3 h4
    rw [f7 x h0 h1 h2 h3 h4, m6, m5]

end Verif.EdHost.Amd64

namespace Verif.EdHost.Arm64
open Amd64 (upd loadElt)

theorem carryPropagate_run (s : St) : loadElt (run carryPropagateAsm s).mem (s.arg 0) = carryPropagate (loadElt s.mem (s.arg 0)) ∧
    ∀ x, x ≠ s.arg 0 → x ≠ s.arg 0 + 8 → x ≠ s.arg 0 + 16 → x ≠ s.arg 0 + 24 → x ≠ s.arg 0 + 32 → (run carryPropagateAsm s).mem x = s.mem x := by
  constructor
  · simp [run, carryPropagateAsm, exec, loadElt, upd, carryPropagate, add64, mulw, mask51]
  · intro x h0 h1 h2 h3 h4
    simp [run, carryPropagateAsm, exec, upd, h0, h1, h2, h3, h4]

end Verif.EdHost.Arm64
