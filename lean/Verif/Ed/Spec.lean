import Verif.Ed.Curve

/-! # RFC 8032: what an Ed25519 verifier checks

Refers to the curve and to SHA-512 (`Verif.Sha.Spec`), not to the circuit. -/

namespace Verif.Ed
open Verif.Ec

/-- The `n` bytes of `v`, little-endian. -/
def leBytes (n v : ℕ) : List ℕ := (List.range n).map fun i => v / 256 ^ i % 256

/-- The `n` bytes of `v`, big-endian. -/
def beBytes (n v : ℕ) : List ℕ := (leBytes n v).reverse

/-- The integer of a little-endian byte string. -/
def leVal : List ℕ → ℕ
  | [] => 0
  | b :: bs => b + 256 * leVal bs

/-- Section 5.1.2 on integers: 255 bits of `y`, then the least significant bit of `x`. -/
def encodeXY (x y : ℕ) : List ℕ := leBytes 32 (y + 2 ^ 255 * (x % 2))

/-- Section 5.1.2: the encoding of a point. -/
def encode (Q : Pt25519) : List ℕ := encodeXY Q.x.val Q.y.val

/-- SHA-512 of a string of bytes, as bytes. -/
def sha512 (m : List ℕ) : List ℕ := (Sha.Spec.hash Sha.Spec.sha512 (m.map (BitVec.ofNat 8))).map BitVec.toNat

/-- Section 5.1.7 step 2: `k`, from the strings `R`, `A` and `M`. -/
def challenge (r a m : List ℕ) : ℕ := leVal (sha512 (r ++ a ++ m))

/-- Section 5.1.7 step 3, the group equation `[8][S]B = [8]R + [8][k]A`. -/
def GroupEq (S k : ℕ) (R A : Pt25519) : Prop := 8 • S • B = 8 • R + 8 • k • A

/-- Section 5.1.7: verification of the signature `(R, S)` on `m` under the key string `pk`. -/
def RfcValid (pk m : List ℕ) (R : Pt25519) (S : ℕ) : Prop :=
  S < L ∧ ∃ A : Pt25519, encode A = pk ∧ GroupEq S (challenge (encode R) pk m) R A

end Verif.Ed
