import Verif.Bls.H2CSpec
import Verif.Sha.Spec

/-! # Specification: `expand_message_xmd` (RFC 9380, 5.3.1) and `hash_to_field` (5.2) for the suite used by Ethereum consensus

`H` is SHA-256 (`Verif.Sha.Spec`, FIPS 180-4), `s_in_bytes = 64`, `b_in_bytes = 32`, `m = 2`, `L = 64`. -/

namespace Verif.Bls.RFC
open Verif.Sha (Spec.hash Spec.sha256 Spec.beBytes Spec.beNat)

/-- Byte strings. -/
abbrev Bytes := List (BitVec 8)

/-- The hash function. -/
def H (m : Bytes) : Bytes := Spec.hash Spec.sha256 m

/-- The domain separation tag of the Ethereum consensus specification. -/
def dst : Bytes := "BLS_SIG_BLS12381G2_XMD:SHA-256_SSWU_RO_POP_".toList.map fun c => BitVec.ofNat 8 c.toNat

/-- Step 3: `DST_prime = DST || I2OSP(len(DST), 1)`. -/
def dstPrime : Bytes := dst ++ Spec.beBytes 1 dst.length

/-- Steps 4-7: `b_0 = H(Z_pad || msg || l_i_b_str || I2OSP(0, 1) || DST_prime)`. -/
def b0 (msg : Bytes) (len : ℕ) : Bytes :=
  H (Spec.beBytes 64 0 ++ msg ++ Spec.beBytes 2 len ++ Spec.beBytes 1 0 ++ dstPrime)

/-- Steps 8-10: `b_1 = H(b_0 || I2OSP(1, 1) || DST_prime)`, `b_i = H(strxor(b_0, b_(i-1)) || I2OSP(i, 1) || DST_prime)`. -/
def b (b0 : Bytes) : ℕ → Bytes
  | 0 => b0
  | 1 => H (b0 ++ Spec.beBytes 1 1 ++ dstPrime)
  | i + 2 => H (List.zipWith (· ^^^ ·) b0 (b b0 (i + 1)) ++ Spec.beBytes 1 (i + 2) ++ dstPrime)

/-- Steps 1, 11, 12: the first `len` bytes of `b_1 || … || b_ell`, `ell = ceil(len / 32)`. -/
def expand (msg : Bytes) (len : ℕ) : Bytes :=
  (((List.range ((len + 31) / 32)).map fun i => b (b0 msg len) (i + 1)).flatten).take len

/-- `e = OS2IP(substr(uniform_bytes, 64 k, 64)) mod q`. -/
def elem (uniform : Bytes) (k : ℕ) : Fq := ((Spec.beNat ((uniform.drop (64 * k)).take 64) : ℕ) : Fq)

/-- `hash_to_field(msg, n)`. -/
def hashToField (msg : Bytes) (n : ℕ) : List (Fq2 Fq) :=
  (List.range n).map fun i => ⟨elem (expand msg (n * 2 * 64)) (2 * i), elem (expand msg (n * 2 * 64)) (2 * i + 1)⟩

end Verif.Bls.RFC
