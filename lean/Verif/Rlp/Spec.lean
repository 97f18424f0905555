import Mathlib.Data.Nat.Digits.Defs

/-! # Independent specification: RLP at nibble level

Ethereum RLP (Yellow Paper, appendix B), on a stream of nibbles `S : ℕ → ℕ` (two nibbles per byte). -/

namespace Verif.Spec.Rlp

/-- The byte whose two nibbles are at offsets `o`, `o+1`. -/
def byteAt (S : ℕ → ℕ) (o : ℕ) : ℕ := 16 * S o + S (o + 1)

/-- Big-endian value of the `n` nibbles starting at `o`. -/
def beNum (S : ℕ → ℕ) (o : ℕ) : ℕ → ℕ
  | 0 => 0
  | n + 1 => 16 * beNum S o n + S (o + n)

/-- Number of length bytes announced by the first byte (long forms 0xb8..0xbf and 0xf8..0xff). -/
def lenOfLen (v : ℕ) : ℕ :=
  if v < 0xb8 then 0 else if v < 0xc0 then v - 0xb7 else if v < 0xf8 then 0 else v - 0xf7

/-- Header length in nibbles of an item whose first byte is `v`. -/
def hdrLen (v : ℕ) : ℕ := if v < 0x80 then 0 else 2 + 2 * lenOfLen v

/-- Payload length in nibbles of the item starting at offset `o`. -/
def payLen (S : ℕ → ℕ) (o : ℕ) : ℕ :=
  let v := byteAt S o
  if v < 0x80 then 2
  else if v < 0xb8 then 2 * (v - 0x80)
  else if v < 0xc0 then 2 * beNum S (o + 2) (2 * (v - 0xb7))
  else if v < 0xf8 then 2 * (v - 0xc0)
  else 2 * beNum S (o + 2) (2 * (v - 0xf7))

/-- Does a list item start at `o`? -/
def isList (S : ℕ → ℕ) (o : ℕ) : Prop := 0xc0 ≤ byteAt S o

instance (S : ℕ → ℕ) (o : ℕ) : Decidable (isList S o) := by unfold isList; infer_instance

/-- Total length of the item at `o`. -/
def itemLen (S : ℕ → ℕ) (o : ℕ) : ℕ := hdrLen (byteAt S o) + payLen S o

/-- Where the first item starts when the byte `v` is read as a list header. -/
def listHdr (v : ℕ) : ℕ := if 0xf8 ≤ v then 2 + 2 * (v - 0xf7) else 2

/-- Offset of the `i`-th item of the list whose header is at offset 0. -/
def itemOffset (S : ℕ → ℕ) : ℕ → ℕ
  | 0 => listHdr (byteAt S 0)
  | i + 1 => itemOffset S i + itemLen S (itemOffset S i)

/-- "The stream starts with a list of exactly `n` items": it begins with a list header, and the `n` items
fill the announced payload exactly. -/
def IsListOf (S : ℕ → ℕ) (n : ℕ) : Prop :=
  isList S 0 ∧ itemOffset S n = itemLen S 0

/-- A finite nibble string read as a stream (zeros after the end). -/
def stream (ns : List ℕ) : ℕ → ℕ := fun k => ns.getD k 0

/-- A finite nibble string read cyclically (the rotating gadgets never run out of cells). -/
def cyc (ns : List ℕ) : ℕ → ℕ := fun k => ns.getD (k % ns.length) 0

/-! ## The encoder (Yellow Paper, appendix B), on bytes -/

/-- The two nibbles of every byte. -/
def nibblesOf (bs : List ℕ) : List ℕ := bs.flatMap fun b => [b / 16, b % 16]

/-- Minimal big-endian bytes of a length. -/
def lenBytes (n : ℕ) : List ℕ := (Nat.digits 256 n).reverse

/-- Length header: one byte for at most 55 bytes, else the length of the length and the length. -/
def lenHeader (short long n : ℕ) : List ℕ :=
  if n < 56 then [short + n] else (long + (lenBytes n).length) :: lenBytes n

/-- RLP of a byte string. -/
def encodeString (bs : List ℕ) : List ℕ :=
  if bs.length = 1 ∧ bs.headD 0 < 0x80 then bs else lenHeader 0x80 0xb7 bs.length ++ bs

/-- RLP of a list, given the encodings of its items. -/
def encodeList (items : List (List ℕ)) : List ℕ :=
  lenHeader 0xc0 0xf7 items.flatten.length ++ items.flatten

/-- `enc` is the encoding of a byte string or of a non-empty list, with payload `pay`. -/
def Encodes (enc pay : List ℕ) : Prop :=
  enc = encodeString pay ∨ ∃ items, enc = encodeList items ∧ pay = items.flatten ∧ pay ≠ []

end Verif.Spec.Rlp
