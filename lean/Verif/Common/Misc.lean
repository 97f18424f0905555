import Verif.Common.Hex
import Mathlib.Data.Int.Basic
import Mathlib.Logic.Function.Basic

/-! # Model of common/utils/string.go, time.go, const.go and of the list helpers of utils.go

Strings are lists of bytes. External, by documentation: `strconv.Atoi`, `big.Int.SetString`, `time.Unix`, `time.UnixNano`,
`strings.Join`. `int` has 64 bits. -/

namespace Verif.Misc

/-- The value of a non-empty string of decimal digits. -/
def digits (s : List ℕ) : Option ℕ :=
  if s ≠ [] ∧ ∀ c ∈ s, 48 ≤ c ∧ c ≤ 57 then some (s.foldl (fun a c => 10 * a + (c - 48)) 0) else none

/-- An optional sign and digits, as `strconv.ParseInt` and `big.Int.SetString` in base 10 accept them (external). -/
def signed : List ℕ → Option ℤ
  | 43 :: r => (digits r).map Int.ofNat
  | 45 :: r => (digits r).map fun n : ℕ => -(n : ℤ)
  | r => (digits r).map Int.ofNat

/-- string.go:8-12 `Str2BigInt`: `none` when `SetString` fails (the value of `b` is then undefined; the failure is ignored). -/
def str2BigInt (s : List ℕ) : Option ℤ := signed s

/-- string.go:14-17 `Str2Int`: the error of `Atoi` is ignored; a syntax error gives 0, a range error the nearest `int`. -/
def str2Int (s : List ℕ) : ℤ :=
  match signed s with
  | none => 0
  | some v => max (-2 ^ 63) (min v (2 ^ 63 - 1))

/-- string.go:19-21 `Str2Uint64`: conversion of an `int` wraps. -/
def str2Uint64 (s : List ℕ) : ℕ := (str2Int s % 2 ^ 64).toNat

/-- `int64(x)` of a `uint64`. -/
def toInt64 (x : ℕ) : ℤ := if x < 2 ^ 63 then (x : ℤ) else (x : ℤ) - 2 ^ 64

/-- time.go:9-12 `TsMilli`; a time is given in nanoseconds since 1970, `UnixNano` keeps its low 64 bits. -/
def tsMilli (t : ℤ) : ℕ := (t % 2 ^ 64).toNat / 1000000

/-- time.go:14-16 `TsMilliToTime`. -/
def tsMilliToTime (ts : ℕ) : ℤ := toInt64 (ts * 1000000 % 2 ^ 64)

/-- time.go:18-20 `TsSecToTime`. -/
def tsSecToTime (ts : ℕ) : ℤ := toInt64 ts * 1000000000

/-- const.go:9-26 `GetStartBlockInfo`: (BlockNumber, InitialIndex, ChainId). -/
def getStartBlockInfo (chainId : ℕ) : ℕ × ℕ × ℕ :=
  let blockNumber :=
    if chainId = 42161 then 185536768
    else if chainId = 10 then 119300224
    else if chainId = 97 then 41759160
    else if chainId = 56 then 40077400
    else 0
  (blockNumber, blockNumber / 128, chainId)

/-- utils.go:51-58 `Contains`. -/
def contains {α : Type} [DecidableEq α] : List α → α → Bool
  | [], _ => false
  | s :: rest, target => if s = target then true else contains rest target

/-- utils.go:60-70 `Partition`: a Go map is a function; a missing key gives `none`. -/
def partition {K V : Type} [DecidableEq K] (vs : List V) (keys : List K) (f : K → V → Bool) : K → Option (List V) :=
  vs.foldl (fun ret v => keys.foldl (fun ret k =>
    if f k v then Function.update ret k (some ((ret k).getD [] ++ [v])) else ret) ret) (fun _ => none)

/-- `strings.Join(data, ",")` (external). -/
def join : List (List ℕ) → List ℕ
  | [] => []
  | [s] => s
  | s :: rest => s ++ 44 :: join rest

/-- utils.go:30-36 `Convert2DimensionalByteArrayToString`. -/
def convert2 (input : List (List ℕ)) : List ℕ := join (input.map Hex.bytes2Hex0x)

end Verif.Misc
