import Mathlib.Data.List.Basic

/-! # Model of common/utils/hex.go

Go strings and byte slices are lists of natural numbers (bytes, below 256).  `encoding/hex` and
go-ethereum's `common.HexToAddress`, `HexToHash`, `BytesToAddress`, `BytesToHash` are not in /repo;
their documented behaviour is modelled here and is part of the trusted base. -/

namespace Verif.Hex

/-- Value of a hexadecimal character, as in `encoding/hex`'s reverse table (external). -/
def fromHexChar (c : ℕ) : Option ℕ :=
  if 48 ≤ c ∧ c ≤ 57 then some (c - 48)
  else if 97 ≤ c ∧ c ≤ 102 then some (c - 87)
  else if 65 ≤ c ∧ c ≤ 70 then some (c - 55)
  else none

/-- `hex.DecodeString` with the error ignored (external, used at hex.go:72): the bytes decoded before the
first pair containing an invalid character; a trailing single character is dropped. -/
def decodeString : List ℕ → List ℕ
  | a :: b :: r =>
    match fromHexChar a, fromHexChar b with
    | some x, some y => (16 * x + y) :: decodeString r
    | _, _ => []
  | _ => []

/-- The character of a nibble in `encoding/hex` (external): lower case. -/
def hexChar (d : ℕ) : ℕ := if d < 10 then 48 + d else 87 + d

/-- `isHexCharacter` (hex.go:52-54). -/
def isHexCharacter (c : ℕ) : Bool :=
  (48 ≤ c && c ≤ 57) || (97 ≤ c && c ≤ 102) || (65 ≤ c && c ≤ 70)

/-- `isHex` (hex.go:39-49). -/
def isHex (s : List ℕ) : Bool := if s.length % 2 ≠ 0 then false else s.all isHexCharacter

/-- `has0xPrefix` (hex.go:57-59). -/
def has0xPrefix : List ℕ → Bool
  | a :: b :: _ => a == 48 && (b == 120 || b == 88)
  | _ => false

/-- `IsValidTxHash` (hex.go:28-36). -/
def isValidTxHash (s : List ℕ) : Bool :=
  if s = [] then false
  else
    let t := if has0xPrefix s then s.drop 2 else s
    t.length == 64 && isHex t

/-- `Hex2Bytes` (hex.go:64-74). -/
def hex2Bytes (s : List ℕ) : List ℕ :=
  let s := if has0xPrefix s then s.drop 2 else s
  let s := if s.length % 2 = 1 then 48 :: s else s
  decodeString s

/-- `Bytes2Hex` (hex.go:77-79). -/
def bytes2Hex (b : List ℕ) : List ℕ := b.flatMap fun x => [hexChar (x / 16), hexChar (x % 16)]

/-- `Bytes2Hex0x` (hex.go:81-83). -/
def bytes2Hex0x (b : List ℕ) : List ℕ := 48 :: 120 :: bytes2Hex b

/-- go-ethereum `BytesToAddress` / `BytesToHash` for a width of `n` bytes (external): keep the last `n`
bytes, or pad with zeros on the left. -/
def toFixed (n : ℕ) (b : List ℕ) : List ℕ :=
  let b := if n < b.length then b.drop (b.length - n) else b
  List.replicate (n - b.length) 0 ++ b

/-- `Hex2Addr` (hex.go:104-106); `HexToAddress` is `BytesToAddress(FromHex(s))` and `FromHex` does the same
as `Hex2Bytes`. -/
def hex2Addr (s : List ℕ) : List ℕ := toFixed 20 (hex2Bytes s)

/-- `Bytes2Addr` (hex.go:119-121). -/
def bytes2Addr (b : List ℕ) : List ℕ := toFixed 20 b

/-- `Addr2Hex` (hex.go:109-111). -/
def addr2Hex (a : List ℕ) : List ℕ := bytes2Hex a

/-- `Addr2Hex0x` (hex.go:113-115). -/
def addr2Hex0x (a : List ℕ) : List ℕ := 48 :: 120 :: addr2Hex a

/-- `Bytes2AddrHex` (hex.go:124-126). -/
def bytes2AddrHex (b : List ℕ) : List ℕ := addr2Hex (bytes2Addr b)

/-- `Bytes2AddrHex0x` (hex.go:128-130). -/
def bytes2AddrHex0x (b : List ℕ) : List ℕ := 48 :: 120 :: bytes2AddrHex b

/-- `FormatAddrHex` (hex.go:133-135). -/
def formatAddrHex (s : List ℕ) : List ℕ := addr2Hex (hex2Addr s)

/-- `Hex2Hash` (hex.go:140-142). -/
def hex2Hash (s : List ℕ) : List ℕ := toFixed 32 (hex2Bytes s)

/-- `Bytes2Hash` (hex.go:145-147). -/
def bytes2Hash (b : List ℕ) : List ℕ := toFixed 32 b

/-- `big.Int.SetBytes`: big-endian value (external). -/
def beVal (b : List ℕ) : ℕ := b.foldl (fun a x => 256 * a + x) 0

/-- `Hex2BigInt` (hex.go:156-159). -/
def hex2BigInt (s : List ℕ) : ℕ := beVal (hex2Bytes s)

/-- `Pad20Bytes` and `Pad32Bytes` (hex.go:161-187), `none` is the panic. -/
def padBytes (n : ℕ) (b : List ℕ) : Option (List ℕ) :=
  if b.length = n then some b
  else if n < b.length then none
  else some (List.replicate (n - b.length) 0 ++ b)

/-- `ArrayHex2Hash` (hex.go:85-91). -/
def arrayHex2Hash (l : List (List ℕ)) : List (List ℕ) := l.map hex2Hash

/-- `ArrayBytes2Hex0x` (hex.go:93-99). -/
def arrayBytes2Hex0x (l : List (List ℕ)) : List (List ℕ) := l.map bytes2Hex0x

/-- `Strings2bytes` (hex.go:149-154). -/
def strings2Bytes (l : List (List ℕ)) : List (List ℕ) := l.map hex2Bytes

/-- `Reverse` (hex.go:189-194): in-place swaps of positions `i` and `len-1-i` while `i < len-1-i`
(`none` would be an index panic). -/
def reverse {α : Type*} (s : List α) : Option (List α) :=
  (List.range (s.length / 2)).foldlM (fun res i => do
    let tmp ← res[i]?
    let other ← res[res.length - 1 - i]?
    pure ((res.set i other).set (res.length - 1 - i) tmp)) s

end Verif.Hex
