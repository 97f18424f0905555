import Verif.EdHost.AsmModel

/-! # The instruction lists of /repo/circuits/gadgets/ed25519/test/field/fe_amd64.s

Written by tools/asm2lean.py, one constructor per source line. -/

namespace Verif.EdHost.Amd64

/-- fe_amd64.s:9-10: load pointers. -/
def feMul_ptr : List Ins := [
  .movArg 8 .CX, .movArg 16 .BX]

/-- fe_amd64.s:13-44: r0 = a0×b0; r0 += 19×a1×b4; r0 += 19×a2×b3; r0 += 19×a3×b2; r0 += 19×a4×b1. -/
def feMul_r0 : List Ins := [
  .load 0 .CX .AX, .mul 0 .BX, .mov .AX .DI, .mov .DX .SI,
  .load 8 .CX .AX, .imul3 0x13 .AX .AX, .mul 32 .BX, .add .AX .DI, .adc .DX .SI,
  .load 16 .CX .AX, .imul3 0x13 .AX .AX, .mul 24 .BX, .add .AX .DI, .adc .DX .SI,
  .load 24 .CX .AX, .imul3 0x13 .AX .AX, .mul 16 .BX, .add .AX .DI, .adc .DX .SI,
  .load 32 .CX .AX, .imul3 0x13 .AX .AX, .mul 8 .BX, .add .AX .DI, .adc .DX .SI]

/-- fe_amd64.s:47-77: r1 = a0×b1; r1 += a1×b0; r1 += 19×a2×b4; r1 += 19×a3×b3; r1 += 19×a4×b2. -/
def feMul_r1 : List Ins := [
  .load 0 .CX .AX, .mul 8 .BX, .mov .AX .R9, .mov .DX .R8,
  .load 8 .CX .AX, .mul 0 .BX, .add .AX .R9, .adc .DX .R8,
  .load 16 .CX .AX, .imul3 0x13 .AX .AX, .mul 32 .BX, .add .AX .R9, .adc .DX .R8,
  .load 24 .CX .AX, .imul3 0x13 .AX .AX, .mul 24 .BX, .add .AX .R9, .adc .DX .R8,
  .load 32 .CX .AX, .imul3 0x13 .AX .AX, .mul 16 .BX, .add .AX .R9, .adc .DX .R8]

/-- fe_amd64.s:80-109: r2 = a0×b2; r2 += a1×b1; r2 += a2×b0; r2 += 19×a3×b4; r2 += 19×a4×b3. -/
def feMul_r2 : List Ins := [
  .load 0 .CX .AX, .mul 16 .BX, .mov .AX .R11, .mov .DX .R10,
  .load 8 .CX .AX, .mul 8 .BX, .add .AX .R11, .adc .DX .R10,
  .load 16 .CX .AX, .mul 0 .BX, .add .AX .R11, .adc .DX .R10,
  .load 24 .CX .AX, .imul3 0x13 .AX .AX, .mul 32 .BX, .add .AX .R11, .adc .DX .R10,
  .load 32 .CX .AX, .imul3 0x13 .AX .AX, .mul 24 .BX, .add .AX .R11, .adc .DX .R10]

/-- fe_amd64.s:112-140: r3 = a0×b3; r3 += a1×b2; r3 += a2×b1; r3 += a3×b0; r3 += 19×a4×b4. -/
def feMul_r3 : List Ins := [
  .load 0 .CX .AX, .mul 24 .BX, .mov .AX .R13, .mov .DX .R12,
  .load 8 .CX .AX, .mul 16 .BX, .add .AX .R13, .adc .DX .R12,
  .load 16 .CX .AX, .mul 8 .BX, .add .AX .R13, .adc .DX .R12,
  .load 24 .CX .AX, .mul 0 .BX, .add .AX .R13, .adc .DX .R12,
  .load 32 .CX .AX, .imul3 0x13 .AX .AX, .mul 32 .BX, .add .AX .R13, .adc .DX .R12]

/-- fe_amd64.s:143-170: r4 = a0×b4; r4 += a1×b3; r4 += a2×b2; r4 += a3×b1; r4 += a4×b0. -/
def feMul_r4 : List Ins := [
  .load 0 .CX .AX, .mul 32 .BX, .mov .AX .R15, .mov .DX .R14,
  .load 8 .CX .AX, .mul 24 .BX, .add .AX .R15, .adc .DX .R14,
  .load 16 .CX .AX, .mul 16 .BX, .add .AX .R15, .adc .DX .R14,
  .load 24 .CX .AX, .mul 8 .BX, .add .AX .R15, .adc .DX .R14,
  .load 32 .CX .AX, .mul 0 .BX, .add .AX .R15, .adc .DX .R14]

/-- fe_amd64.s:173-189: First reduction chain. -/
def feMul_red1 : List Ins := [
  .movI 0x0007ffffffffffff .AX, .shld 0x0d .DI .SI, .shld 0x0d .R9 .R8, .shld 0x0d .R11 .R10, .shld 0x0d .R13 .R12,
  .shld 0x0d .R15 .R14, .and .AX .DI, .imul3 0x13 .R14 .R14, .add .R14 .DI, .and .AX .R9, .add .SI .R9, .and .AX .R11,
  .add .R8 .R11, .and .AX .R13, .add .R10 .R13, .and .AX .R15, .add .R12 .R15]

/-- fe_amd64.s:192-212: Second reduction chain (carryPropagate). -/
def feMul_red2 : List Ins := [
  .mov .DI .SI, .shr 0x33 .SI, .mov .R9 .R8, .shr 0x33 .R8, .mov .R11 .R10, .shr 0x33 .R10, .mov .R13 .R12,
  .shr 0x33 .R12, .mov .R15 .R14, .shr 0x33 .R14, .and .AX .DI, .imul3 0x13 .R14 .R14, .add .R14 .DI, .and .AX .R9,
  .add .SI .R9, .and .AX .R11, .add .R8 .R11, .and .AX .R13, .add .R10 .R13, .and .AX .R15, .add .R12 .R15]

/-- fe_amd64.s:215-220: Store output. -/
def feMul_st : List Ins := [
  .movArg 0 .AX, .store .DI 0 .AX, .store .R9 8 .AX, .store .R11 16 .AX, .store .R13 24 .AX, .store .R15 32 .AX]

/-- fe_amd64.s `feMul`. -/
def feMulAsm : List Ins := feMul_ptr ++ feMul_r0 ++ feMul_r1 ++ feMul_r2 ++ feMul_r3 ++ feMul_r4 ++ feMul_red1 ++ feMul_red2 ++ feMul_st

/-- fe_amd64.s:225-225: load pointers. -/
def feSquare_ptr : List Ins := [
  .movArg 8 .CX]

/-- fe_amd64.s:228-245: r0 = l0×l0; r0 += 38×l1×l4; r0 += 38×l2×l3. -/
def feSquare_r0 : List Ins := [
  .load 0 .CX .AX, .mul 0 .CX, .mov .AX .SI, .mov .DX .BX,
  .load 8 .CX .AX, .imul3 0x26 .AX .AX, .mul 32 .CX, .add .AX .SI, .adc .DX .BX,
  .load 16 .CX .AX, .imul3 0x26 .AX .AX, .mul 24 .CX, .add .AX .SI, .adc .DX .BX]

/-- fe_amd64.s:248-266: r1 = 2×l0×l1; r1 += 38×l2×l4; r1 += 19×l3×l3. -/
def feSquare_r1 : List Ins := [
  .load 0 .CX .AX, .shl 0x01 .AX, .mul 8 .CX, .mov .AX .R8, .mov .DX .DI,
  .load 16 .CX .AX, .imul3 0x26 .AX .AX, .mul 32 .CX, .add .AX .R8, .adc .DX .DI,
  .load 24 .CX .AX, .imul3 0x13 .AX .AX, .mul 24 .CX, .add .AX .R8, .adc .DX .DI]

/-- fe_amd64.s:269-286: r2 = 2×l0×l2; r2 += l1×l1; r2 += 38×l3×l4. -/
def feSquare_r2 : List Ins := [
  .load 0 .CX .AX, .shl 0x01 .AX, .mul 16 .CX, .mov .AX .R10, .mov .DX .R9,
  .load 8 .CX .AX, .mul 8 .CX, .add .AX .R10, .adc .DX .R9,
  .load 24 .CX .AX, .imul3 0x26 .AX .AX, .mul 32 .CX, .add .AX .R10, .adc .DX .R9]

/-- fe_amd64.s:289-307: r3 = 2×l0×l3; r3 += 2×l1×l2; r3 += 19×l4×l4. -/
def feSquare_r3 : List Ins := [
  .load 0 .CX .AX, .shl 0x01 .AX, .mul 24 .CX, .mov .AX .R12, .mov .DX .R11,
  .load 8 .CX .AX, .imul3 0x02 .AX .AX, .mul 16 .CX, .add .AX .R12, .adc .DX .R11,
  .load 32 .CX .AX, .imul3 0x13 .AX .AX, .mul 32 .CX, .add .AX .R12, .adc .DX .R11]

/-- fe_amd64.s:310-327: r4 = 2×l0×l4; r4 += 2×l1×l3; r4 += l2×l2. -/
def feSquare_r4 : List Ins := [
  .load 0 .CX .AX, .shl 0x01 .AX, .mul 32 .CX, .mov .AX .R14, .mov .DX .R13,
  .load 8 .CX .AX, .imul3 0x02 .AX .AX, .mul 24 .CX, .add .AX .R14, .adc .DX .R13,
  .load 16 .CX .AX, .mul 16 .CX, .add .AX .R14, .adc .DX .R13]

/-- fe_amd64.s:330-346: First reduction chain. -/
def feSquare_red1 : List Ins := [
  .movI 0x0007ffffffffffff .AX, .shld 0x0d .SI .BX, .shld 0x0d .R8 .DI, .shld 0x0d .R10 .R9, .shld 0x0d .R12 .R11,
  .shld 0x0d .R14 .R13, .and .AX .SI, .imul3 0x13 .R13 .R13, .add .R13 .SI, .and .AX .R8, .add .BX .R8, .and .AX .R10,
  .add .DI .R10, .and .AX .R12, .add .R9 .R12, .and .AX .R14, .add .R11 .R14]

/-- fe_amd64.s:349-369: Second reduction chain (carryPropagate). -/
def feSquare_red2 : List Ins := [
  .mov .SI .BX, .shr 0x33 .BX, .mov .R8 .DI, .shr 0x33 .DI, .mov .R10 .R9, .shr 0x33 .R9, .mov .R12 .R11,
  .shr 0x33 .R11, .mov .R14 .R13, .shr 0x33 .R13, .and .AX .SI, .imul3 0x13 .R13 .R13, .add .R13 .SI, .and .AX .R8,
  .add .BX .R8, .and .AX .R10, .add .DI .R10, .and .AX .R12, .add .R9 .R12, .and .AX .R14, .add .R11 .R14]

/-- fe_amd64.s:372-377: Store output. -/
def feSquare_st : List Ins := [
  .movArg 0 .AX, .store .SI 0 .AX, .store .R8 8 .AX, .store .R10 16 .AX, .store .R12 24 .AX, .store .R14 32 .AX]

/-- fe_amd64.s `feSquare`. -/
def feSquareAsm : List Ins := feSquare_ptr ++ feSquare_r0 ++ feSquare_r1 ++ feSquare_r2 ++ feSquare_r3 ++ feSquare_r4 ++ feSquare_red1 ++ feSquare_red2 ++ feSquare_st

end Verif.EdHost.Amd64
