import Verif.Keccak.Perm
import Verif.Mux
import Verif.Slices

/-! # Model of circuits/gadgets/keccak/{pad,periphery}.go and common/circuits/keccak.go

Bytes are natural numbers (below 256 where it matters); slices have value semantics, i.e. the
possible in-place reuse of the caller's backing array by `append` is not modelled. -/

namespace Verif.Keccak
open Api
variable {p : ℕ}

/-- periphery.go:22-34 and common/circuits/keccak.go:7-18 `Pad101Bytes`. -/
def pad101Bytes (data : List ℕ) : List ℕ :=
  let miss := if data.length % 136 = 0 then 136 else 136 - data.length % 136
  let d := data ++ [1]
  let d := (List.range (miss - 1)).foldl (fun d _ => d ++ [0]) d
  d.modify (d.length - 1) (fun b => b ^^^ 0x80)

/-- periphery.go:36-38 `GetKeccakRoundForPaddedBytes` (an `int`, may be -1). -/
def getKeccakRoundForPaddedBytes (data : List ℕ) : ℤ := (data.length / 136 : ℕ) - 1

/-- periphery.go:40-42 `GetRoundIndex`. -/
def getRoundIndex (bitsLen : ℕ) : ℕ := (bitsLen + 8) / 1088

/-- periphery.go:62-67 and common/circuits/keccak.go:48-53 `byte2Bits`. -/
def byte2Bits (b : ℕ) : List ℕ := (List.range 8).map fun i => (b >>> i) &&& 1

/-- periphery.go:51-59 and common/circuits/keccak.go:37-45 `Bytes2Bits`. -/
def bytes2Bits (bytes : List ℕ) : Option (List ℕ) :=
  if bytes.length % 8 ≠ 0 then none
  else some (bytes.foldl (fun bits b => bits ++ byte2Bits b) [])

/-- periphery.go:44-49 and common/circuits/keccak.go:20-25 `Bytes2BlockBits`. -/
def bytes2BlockBits (bytes : List ℕ) : Option (List ℕ) :=
  if bytes.length % 136 ≠ 0 then none else bytes2Bits bytes

/-- periphery.go:69-78 and common/circuits/keccak.go:27-36 `Bytes2Uint64`; the shifted bytes are truncated
to 64 bits as in Go. -/
def bytes2Uint64 (bytes : List ℕ) : Option ℕ :=
  if bytes.length ≠ 8 then none
  else (List.range 8).foldlM (fun ret i => do
    let b ← bytes[i]?
    pure (ret ||| ((b <<< (i * 8)) % 2 ^ 64))) 0

/-- periphery.go:80-89 and common/circuits/keccak.go:55-64 `Bytes2Uint64s`. -/
def bytes2Uint64s (bytes : List ℕ) : Option (List ℕ) :=
  if bytes.length % 8 ≠ 0 then none
  else (List.range (bytes.length / 8)).foldlM (fun ret k => do
    let v ← bytes2Uint64 ((bytes.drop (8 * k)).take 8)
    pure (ret ++ [v])) []

/-- periphery.go:18-20 and common/circuits/keccak.go:3-5 `Pad101`. -/
def pad101 (data : List ℕ) : Option (List ℕ) := bytes2Uint64s (pad101Bytes data)

/-- periphery.go:7-16 `Uint64s2Blocks`, `MAX_ROUNDS = 10`: more than 170 words index out of range. -/
def uint64s2Blocks (padded : List ℕ) : Option (Fin 10 → Fin 17 → F p) :=
  if 170 < padded.length then none
  else some fun r i => ((padded.getD (17 * r.val + i.val) 0 : ℕ) : F p)

/-- periphery.go:241-261 `PadBits101`; `ToBinary(1,8)` and `ToBinary(128,8)` of constants. Negative loop
bounds mean an empty loop, hence truncated subtraction. -/
def padBits101 (data : List (F p)) (maxRound : ℕ) : List (F p) :=
  let missedLen := 1088 - data.length % 1088
  let zeroBitLen := missedLen - 8 * 2
  let padBits := data ++ [1, 0, 0, 0, 0, 0, 0, 0] ++ List.replicate zeroBitLen 0 ++ [0, 0, 0, 0, 0, 0, 0, 1]
  padBits ++ List.replicate (maxRound * 1088 - padBits.length) 0

/-- keccak256.go:68-80 `transpose`; panics on no rows or on a row shorter than the first. -/
def transpose (input : List (List (F p))) : Option (List (List (F p))) := do
  let r0 ← input[0]?
  (List.range r0.length).mapM fun i => input.mapM fun row => row[i]?

/-- pad.go:104-108 `checkLen`: panics unless `8/inBits` divides the length (or `8/inBits` is 0). -/
def checkLen (length inBits : ℕ) : Option Unit :=
  if 8 / inBits = 0 then none else if length % (8 / inBits) ≠ 0 then none else some ()

/-- Write `v` to the array until index `upTo` (loop `for ; j < upTo; j++`); the array prefix written so far
is the list. -/
def fillTo (row : List (F p)) (upTo : ℕ) (v : F p) : List (F p) :=
  row ++ List.replicate (upTo - row.length) v

/-- pad.go:69-97: one row of the matrix. `none` when an index passes the end of `bits` or of the row. -/
def padRow (bits : List (F p)) (dataLen outBitsLen : ℕ) : Option (List (F p)) :=
  if bits.length < dataLen then none
  else
    let row := bits.take dataLen
    let rounds := (dataLen + 8) / 1088 + 1
    let row := fillTo row (dataLen + 7) 0
    let row := row ++ [1]
    let row := fillTo row (rounds * 1088 - 8) 0
    let row := row ++ [1]
    if outBitsLen < row.length then none else some (fillTo row outBitsLen 0)

/-- pad.go:39-102 `Pad101Bits`. `inLenMax < inLenMin` always panics (no rows, or a read past `bits`).
`api.Div` by the non-zero constant `8/inBits` is field division. -/
def pad101Bits (inBits inLenMin inLenMax : ℕ) (inp : List (F p)) (inLen : F p) : Option (List (F p)) :=
  if inp.length ≠ inLenMax then none
  else if inLenMax < inLenMin then none
  else do
    let outBitsLen := ((inLenMax * inBits + 8) / 1088 + 1) * 1088
    checkLen inp.length inBits
    checkLen inLenMin inBits
    checkLen inLenMax inBits
    checkLen outBitsLen 1
    let bits ← inp.foldlM (fun bits e => do
      let bs ← toBinary e inBits
      pure (bits ++ bs.reverse)) []
    let rows := (inLenMax - inLenMin) * inBits / 8 + 1
    let padded ← (List.range rows).mapM fun i => padRow bits (inLenMin * inBits + i * 8) outBitsLen
    let sel := (inLen - (inLenMin : F p)) * ((8 / inBits : ℕ) : F p)⁻¹
    let t ← transpose padded
    let out ← Mux.multiplex sel outBitsLen rows t
    Slices.flipSubSlice out 8

end Verif.Keccak
