import Verif.EdHost.FieldModel

/-! # The machine instructions used by the assembly versions of the field arithmetic

Registers and memory words are natural numbers; every operation that can overflow wraps.  Memory is a function from the
addresses of aligned 8-byte words (a Go `Element` is five of them) to their contents.  Instructions whose effect on the carry flag is undefined or
not needed leave it undefined (`none`), and an `ADCQ` with an undefined carry gets stuck. -/

namespace Verif.EdHost.Amd64

/-- The registers of fe_amd64.s. -/
inductive Reg
  | AX | BX | CX | DX | SI | DI | R8 | R9 | R10 | R11 | R12 | R13 | R14 | R15
deriving DecidableEq

/-- Instructions of fe_amd64.s, operands in the order of Go's assembler (source first). -/
inductive Ins
  /-- `MOVQ x+k(FP), d`: an argument of the function. -/
  | movArg (k : ℕ) (d : Reg)
  /-- `MOVQ o(b), d`. -/
  | load (o : ℕ) (b d : Reg)
  /-- `MOVQ s, o(b)`. -/
  | store (s : Reg) (o : ℕ) (b : Reg)
  /-- `MOVQ s, d`. -/
  | mov (s d : Reg)
  /-- `MOVQ $i, d`. -/
  | movI (i : ℕ) (d : Reg)
  /-- `MULQ o(b)`: `DX:AX = AX · o(b)`. -/
  | mul (o : ℕ) (b : Reg)
  /-- `IMUL3Q $i, s, d`: `d = s · i`. -/
  | imul3 (i : ℕ) (s d : Reg)
  /-- `ADDQ s, d`: `d += s`, setting the carry. -/
  | add (s d : Reg)
  /-- `ADCQ s, d`: `d += s + carry`. -/
  | adc (s d : Reg)
  /-- `ANDQ s, d`. -/
  | and (s d : Reg)
  /-- `SHLQ $k, d`. -/
  | shl (k : ℕ) (d : Reg)
  /-- `SHRQ $k, d`. -/
  | shr (k : ℕ) (d : Reg)
  /-- `SHLQ $k, s, d` (SHLD): `d` shifted left by `k`, filled with the high bits of `s`. -/
  | shld (k : ℕ) (s d : Reg)

/-- The machine state: registers, carry flag, memory, and the arguments on the stack. -/
structure St where
  reg : Reg → ℕ
  cf : Option ℕ
  mem : ℕ → ℕ
  arg : ℕ → ℕ

/-- A function changed at one place. -/
def upd {α : Type} [DecidableEq α] (f : α → ℕ) (a : α) (v : ℕ) : α → ℕ := fun x => if x = a then v else f x

/-- One instruction. -/
def exec (s : St) : Ins → Option St
  | .movArg k d => some { s with reg := upd s.reg d (s.arg k) }
  | .load o b d => some { s with reg := upd s.reg d (s.mem (s.reg b + o)) }
  | .store r o b => some { s with mem := upd s.mem (s.reg b + o) (s.reg r) }
  | .mov r d => some { s with reg := upd s.reg d (s.reg r) }
  | .movI i d => some { s with reg := upd s.reg d i }
  | .mul o b =>
    let p := s.reg .AX * s.mem (s.reg b + o)
    some { s with reg := upd (upd s.reg .AX (p % 2 ^ 64)) .DX (p / 2 ^ 64), cf := none }
  | .imul3 i r d => some { s with reg := upd s.reg d (s.reg r * i % 2 ^ 64), cf := none }
  | .add r d =>
    let t := s.reg r + s.reg d
    some { s with reg := upd s.reg d (t % 2 ^ 64), cf := some (t / 2 ^ 64) }
  | .adc r d =>
    s.cf.map fun c =>
      let t := s.reg r + s.reg d + c
      { s with reg := upd s.reg d (t % 2 ^ 64), cf := some (t / 2 ^ 64) }
  | .and r d => some { s with reg := upd s.reg d (s.reg d &&& s.reg r), cf := none }
  | .shl k d => some { s with reg := upd s.reg d (s.reg d <<< k % 2 ^ 64), cf := none }
  | .shr k d => some { s with reg := upd s.reg d (s.reg d >>> k), cf := none }
  | .shld k r d => some { s with reg := upd s.reg d ((s.reg d <<< k % 2 ^ 64) ||| (s.reg r >>> (64 - k))), cf := none }

/-- A list of instructions; `none` if one gets stuck. -/
def run : List Ins → St → Option St
  | [], s => some s
  | i :: l, s => (exec s i).bind (run l)

end Verif.EdHost.Amd64

namespace Verif.EdHost.Arm64

/-- Instructions of fe_arm64.s (registers by number), operands in the order of Go's assembler. -/
inductive Ins
  /-- `MOVD v+k(FP), Rd`. -/
  | movArg (k d : ℕ)
  /-- `MOVD $i, Rd`. -/
  | movI (i d : ℕ)
  /-- `MOVD o(Rb), Rd`. -/
  | load (o b d : ℕ)
  /-- `LDP o(Rb), (Rd, Re)`. -/
  | ldp (o b d e : ℕ)
  /-- `MOVD Rs, o(Rb)`. -/
  | store (s o b : ℕ)
  /-- `STP (Rs, Rt), o(Rb)`. -/
  | stp (s t o b : ℕ)
  /-- `AND $i, Rs, Rd`. -/
  | andI (i s d : ℕ)
  /-- `ADD Rs>>k, Rt, Rd`: `Rd = Rt + (Rs >> k)`. -/
  | addShr (s k t d : ℕ)
  /-- `LSR $k, Rs, Rd`. -/
  | lsr (k s d : ℕ)
  /-- `MADD Rm, Ra, Rn, Rd`: `Rd = Ra + Rn · Rm`. -/
  | madd (m a n d : ℕ)

/-- The machine state. -/
structure St where
  reg : ℕ → ℕ
  mem : ℕ → ℕ
  arg : ℕ → ℕ

open Amd64 (upd)

/-- One instruction. -/
def exec (s : St) : Ins → St
  | .movArg k d => { s with reg := upd s.reg d (s.arg k) }
  | .movI i d => { s with reg := upd s.reg d i }
  | .load o b d => { s with reg := upd s.reg d (s.mem (s.reg b + o)) }
  | .ldp o b d e => { s with reg := upd (upd s.reg d (s.mem (s.reg b + o))) e (s.mem (s.reg b + (o + 8))) }
  | .store r o b => { s with mem := upd s.mem (s.reg b + o) (s.reg r) }
  | .stp r t o b => { s with mem := upd (upd s.mem (s.reg b + o) (s.reg r)) (s.reg b + (o + 8)) (s.reg t) }
  | .andI i r d => { s with reg := upd s.reg d (s.reg r &&& i) }
  | .addShr r k t d => { s with reg := upd s.reg d ((s.reg t + s.reg r >>> k) % 2 ^ 64) }
  | .lsr k r d => { s with reg := upd s.reg d (s.reg r >>> k) }
  | .madd m a n d => { s with reg := upd s.reg d ((s.reg a + s.reg n * s.reg m) % 2 ^ 64) }

/-- A list of instructions. -/
def run (l : List Ins) (s : St) : St := l.foldl exec s

/-- fe_arm64.s:16-42 `carryPropagate`. -/
def carryPropagateAsm : List Ins := [
  .movArg 0 20,
  .ldp 0 20 0 1, .ldp 16 20 2 3, .load 32 20 4,
  .andI 0x7ffffffffffff 0 10, .andI 0x7ffffffffffff 1 11, .andI 0x7ffffffffffff 2 12, .andI 0x7ffffffffffff 3 13, .andI 0x7ffffffffffff 4 14,
  .addShr 0 51 11 11, .addShr 1 51 12 12, .addShr 2 51 13 13, .addShr 3 51 14 14,
  .lsr 51 4 21, .movI 19 22, .madd 22 10 21 10,
  .stp 10 11 0 20, .stp 12 13 16 20, .store 14 32 20]

end Verif.EdHost.Arm64
