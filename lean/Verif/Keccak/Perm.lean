import Verif.Bits

/-! # Model of circuits/gadgets/keccak/keccakf (uint64api.go, keccakf.go) -/

namespace Verif.Keccak
open Api
variable {p : ℕ}

/-- keccakf/uint64api.go:29 `xuint64`, a 64-entry array of variables. -/
abbrev Lane (p : ℕ) := Fin 64 → F p

/-- keccakf/uint64api.go:31-37 `constUint64`. -/
def constUint64 (a : ℕ) : Lane p := fun i => (((a >>> i.val) % 2 : ℕ) : F p)

/-- keccakf/uint64api.go:52-63 `and`: fold of `api.And` from 1. -/
def andL (ins : List (Lane p)) : Option (Lane p) :=
  seqFin fun i => ins.foldlM (fun r v => Api.and r (v i)) 1

/-- keccakf/uint64api.go:65-76 `xor`: fold of `api.Xor` from 0. -/
def xorL (ins : List (Lane p)) : Option (Lane p) :=
  seqFin fun i => ins.foldlM (fun r v => Api.xor r (v i)) 0

/-- keccakf/uint64api.go:78-84 `lrot` (used with constant shifts at most 64 only). -/
def lrot {α : Type*} (x : Fin 64 → α) (shift : ℕ) : Fin 64 → α :=
  fun i => x ⟨(i.val + 64 - shift) % 64, Nat.mod_lt _ (by decide)⟩

/-- keccakf/uint64api.go:86-97 `not`. -/
def notL (x : Lane p) : Option (Lane p) := seqFin fun i => Api.xor (x i) 1

/-- keccakf/keccakf.go:18-43 `rc`. -/
def rc : List ℕ :=
  [0x0000000000000001, 0x0000000000008082, 0x800000000000808A, 0x8000000080008000,
   0x000000000000808B, 0x0000000080000001, 0x8000000080008081, 0x8000000000008009,
   0x000000000000008A, 0x0000000000000088, 0x0000000080008009, 0x000000008000000A,
   0x000000008000808B, 0x800000000000008B, 0x8000000000008089, 0x8000000000008003,
   0x8000000000008002, 0x8000000000000080, 0x000000000000800A, 0x800000008000000A,
   0x8000000080008081, 0x8000000000008080, 0x0000000080000001, 0x8000000080008008]

/-- keccakf/keccakf.go:44-47 `rotc`. -/
def rotc : List ℕ :=
  [1, 3, 6, 10, 15, 21, 28, 36, 45, 55, 2, 14, 27, 41, 56, 8, 25, 43, 62, 18, 39, 61, 20, 44]

/-- keccakf/keccakf.go:48-51 `piln`. -/
def piln : List (Fin 25) :=
  [10, 7, 11, 17, 18, 3, 5, 16, 8, 21, 24, 4, 15, 23, 19, 13, 12, 2, 20, 14, 22, 9, 6, 1]

/-- The lane indices `j+i` of the loops of keccakf.go (`j` a multiple of 5 below 25, `i < 5`). -/
def idx (j i : Fin 5) : Fin 25 := ⟨5 * j.val + i.val, by omega⟩

/-- The state array `[25]xuint64` (value semantics). -/
abbrev State (p : ℕ) := Fin 25 → Lane p

/-- keccakf/keccakf.go:74-76: column parities. -/
def thetaBc (st : State p) : Option (Fin 5 → Lane p) :=
  seqFin fun i => xorL [st (idx 0 i), st (idx 1 i), st (idx 2 i), st (idx 3 i), st (idx 4 i)]

/-- keccakf/keccakf.go:77-82: second theta loop, `j` inner. -/
def thetaUpd (bc : Fin 5 → Lane p) (st : State p) : Option (State p) :=
  (List.finRange 5).foldlM (fun st i => do
    let t ← xorL [bc (i + 4), lrot (bc (i + 1)) 1]
    (List.finRange 5).foldlM (fun st j => do
      let v ← xorL [st (idx j i), t]
      pure (Function.update st (idx j i) v)) st) st

/-- keccakf/keccakf.go:84-90: rho and pi walk (no constraints). -/
def rhoPi {α : Type*} (st : Fin 25 → Fin 64 → α) : Fin 25 → Fin 64 → α :=
  ((List.zip piln rotc).foldl
    (fun (s : (Fin 64 → α) × (Fin 25 → Fin 64 → α)) (jr : Fin 25 × ℕ) =>
      (s.2 jr.1, Function.update s.2 jr.1 (lrot s.1 jr.2))) (st 1, st)).2

/-- keccakf/keccakf.go:93-100: chi; `bc` is a copy of row `j` taken before it is updated. -/
def chiUpd (st : State p) : Option (State p) :=
  (List.finRange 5).foldlM (fun st j => do
    let bc : Fin 5 → Lane p := fun i => st (idx j i)
    (List.finRange 5).foldlM (fun st i => do
      let n ← notL (bc (i + 1))
      let a ← andL [n, bc (i + 2)]
      let v ← xorL [st (idx j i), a]
      pure (Function.update st (idx j i) v)) st) st

/-- keccakf/keccakf.go:72-103: one iteration of the round loop. -/
def roundStep (st : State p) (r : ℕ) : Option (State p) := do
  let bc ← thetaBc st
  let st ← thetaUpd bc st
  let st := rhoPi st
  let st ← chiUpd st
  let c ← rc[r]?
  let v ← xorL [st 0, constUint64 c]
  pure (Function.update st 0 v)

/-- keccakf/keccakf.go:68-105 `permute`. -/
def permuteLanes (st : State p) : Option (State p) := (List.range 24).foldlM roundStep st

/-- keccakf/keccakf.go:55-66 `Permute` (with `asUint64`/`fromUint64`, uint64api.go:39-50). -/
def permute (a : Fin 1600 → F p) : Option (Fin 1600 → F p) := do
  let inp : State p := fun i z => a ⟨i.val * 64 + z.val, by omega⟩
  let res ← permuteLanes inp
  pure fun k => res ⟨k.val / 64, by omega⟩ ⟨k.val % 64, by omega⟩

end Verif.Keccak
