import Mathlib.Data.List.Basic
import Mathlib.Data.BitVec

/-!
# FIPS 180-4: SHA-256 and SHA-512 on byte strings

Written from the standard, independently of the Go code.  Words are `BitVec w` with addition
modulo `2^w`; `w = 32` (SHA-256) or `w = 64` (SHA-512).
-/

namespace Verif.Sha.Spec

/-- The parameters that distinguish the two algorithms. -/
structure Alg where
  /-- word size in bits -/
  w : ℕ
  /-- number of rounds -/
  rounds : ℕ
  /-- round constants -/
  K : List ℕ
  /-- initial hash value -/
  H0 : List ℕ
  /-- Σ0: three rotations -/
  S0 : ℕ × ℕ × ℕ
  /-- Σ1: three rotations -/
  S1 : ℕ × ℕ × ℕ
  /-- σ0: two rotations and a shift -/
  s0 : ℕ × ℕ × ℕ
  /-- σ1: two rotations and a shift -/
  s1 : ℕ × ℕ × ℕ

/-- FIPS 180-4 section 4.1.2, 4.2.2, 5.3.3. -/
def sha256 : Alg where
  w := 32
  rounds := 64
  K := [0x428a2f98, 0x71374491, 0xb5c0fbcf, 0xe9b5dba5, 0x3956c25b, 0x59f111f1,
   0x923f82a4, 0xab1c5ed5, 0xd807aa98, 0x12835b01, 0x243185be, 0x550c7dc3,
   0x72be5d74, 0x80deb1fe, 0x9bdc06a7, 0xc19bf174, 0xe49b69c1, 0xefbe4786,
   0x0fc19dc6, 0x240ca1cc, 0x2de92c6f, 0x4a7484aa, 0x5cb0a9dc, 0x76f988da,
   0x983e5152, 0xa831c66d, 0xb00327c8, 0xbf597fc7, 0xc6e00bf3, 0xd5a79147,
   0x06ca6351, 0x14292967, 0x27b70a85, 0x2e1b2138, 0x4d2c6dfc, 0x53380d13,
   0x650a7354, 0x766a0abb, 0x81c2c92e, 0x92722c85, 0xa2bfe8a1, 0xa81a664b,
   0xc24b8b70, 0xc76c51a3, 0xd192e819, 0xd6990624, 0xf40e3585, 0x106aa070,
   0x19a4c116, 0x1e376c08, 0x2748774c, 0x34b0bcb5, 0x391c0cb3, 0x4ed8aa4a,
   0x5b9cca4f, 0x682e6ff3, 0x748f82ee, 0x78a5636f, 0x84c87814, 0x8cc70208,
   0x90befffa, 0xa4506ceb, 0xbef9a3f7, 0xc67178f2]
  H0 := [0x6A09E667, 0xBB67AE85, 0x3C6EF372, 0xA54FF53A, 0x510E527F, 0x9B05688C, 0x1F83D9AB, 0x5BE0CD19]
  S0 := (2, 13, 22)
  S1 := (6, 11, 25)
  s0 := (7, 18, 3)
  s1 := (17, 19, 10)

/-- FIPS 180-4 section 4.1.3, 4.2.3, 5.3.5. -/
def sha512 : Alg where
  w := 64
  rounds := 80
  K := [0x428a2f98d728ae22, 0x7137449123ef65cd, 0xb5c0fbcfec4d3b2f, 0xe9b5dba58189dbbc,
   0x3956c25bf348b538, 0x59f111f1b605d019, 0x923f82a4af194f9b, 0xab1c5ed5da6d8118,
   0xd807aa98a3030242, 0x12835b0145706fbe, 0x243185be4ee4b28c, 0x550c7dc3d5ffb4e2,
   0x72be5d74f27b896f, 0x80deb1fe3b1696b1, 0x9bdc06a725c71235, 0xc19bf174cf692694,
   0xe49b69c19ef14ad2, 0xefbe4786384f25e3, 0x0fc19dc68b8cd5b5, 0x240ca1cc77ac9c65,
   0x2de92c6f592b0275, 0x4a7484aa6ea6e483, 0x5cb0a9dcbd41fbd4, 0x76f988da831153b5,
   0x983e5152ee66dfab, 0xa831c66d2db43210, 0xb00327c898fb213f, 0xbf597fc7beef0ee4,
   0xc6e00bf33da88fc2, 0xd5a79147930aa725, 0x06ca6351e003826f, 0x142929670a0e6e70,
   0x27b70a8546d22ffc, 0x2e1b21385c26c926, 0x4d2c6dfc5ac42aed, 0x53380d139d95b3df,
   0x650a73548baf63de, 0x766a0abb3c77b2a8, 0x81c2c92e47edaee6, 0x92722c851482353b,
   0xa2bfe8a14cf10364, 0xa81a664bbc423001, 0xc24b8b70d0f89791, 0xc76c51a30654be30,
   0xd192e819d6ef5218, 0xd69906245565a910, 0xf40e35855771202a, 0x106aa07032bbd1b8,
   0x19a4c116b8d2d0c8, 0x1e376c085141ab53, 0x2748774cdf8eeb99, 0x34b0bcb5e19b48a8,
   0x391c0cb3c5c95a63, 0x4ed8aa4ae3418acb, 0x5b9cca4f7763e373, 0x682e6ff3d6b2b8a3,
   0x748f82ee5defb2fc, 0x78a5636f43172f60, 0x84c87814a1f0ab72, 0x8cc702081a6439ec,
   0x90befffa23631e28, 0xa4506cebde82bde9, 0xbef9a3f7b2c67915, 0xc67178f2e372532b,
   0xca273eceea26619c, 0xd186b8c721c0c207, 0xeada7dd6cde0eb1e, 0xf57d4f7fee6ed178,
   0x06f067aa72176fba, 0x0a637dc5a2c898a6, 0x113f9804bef90dae, 0x1b710b35131c471b,
   0x28db77f523047d84, 0x32caab7b40c72493, 0x3c9ebe0a15c9bebc, 0x431d67c49c100d4c,
   0x4cc5d4becb3e42b6, 0x597f299cfc657e2a, 0x5fcb6fab3ad6faec, 0x6c44198c4a475817]
  H0 := [0x6a09e667f3bcc908, 0xbb67ae8584caa73b, 0x3c6ef372fe94f82b, 0xa54ff53a5f1d36f1,
   0x510e527fade682d1, 0x9b05688c2b3e6c1f, 0x1f83d9abfb41bd6b, 0x5be0cd19137e2179]
  S0 := (28, 34, 39)
  S1 := (14, 18, 41)
  s0 := (1, 8, 7)
  s1 := (19, 61, 6)

/-- The first primes. -/
def primes : List ℕ :=
  [2, 3, 5, 7, 11, 13, 17, 19, 23, 29, 31, 37, 41, 43, 47, 53, 59, 61, 67, 71, 73, 79, 83, 89, 97,
   101, 103, 107, 109, 113, 127, 131, 137, 139, 149, 151, 157, 163, 167, 173, 179, 181, 191, 193,
   197, 199, 211, 223, 227, 229, 233, 239, 241, 251, 257, 263, 269, 271, 277, 281, 283, 293, 307,
   311, 313, 317, 331, 337, 347, 349, 353, 359, 367, 373, 379, 383, 389, 397, 401, 409]

/-- `c` is the first `w` bits of the fractional part of the `k`-th root of `q`, whose integer part is below 16. -/
def IsFracRoot (k w q c : ℕ) : Bool :=
  c < 2 ^ w && (List.range 16).any fun n =>
    (n * 2 ^ w + c) ^ k ≤ q * 2 ^ (k * w) && q * 2 ^ (k * w) < (n * 2 ^ w + c + 1) ^ k

variable (A : Alg)

/-- `{Σ0}`/`{Σ1}`: xor of three right rotations. -/
def bigSigma {w : ℕ} (r : ℕ × ℕ × ℕ) (x : BitVec w) : BitVec w :=
  x.rotateRight r.1 ^^^ x.rotateRight r.2.1 ^^^ x.rotateRight r.2.2

/-- `{σ0}`/`{σ1}`: xor of two right rotations and a right shift. -/
def smallSigma {w : ℕ} (r : ℕ × ℕ × ℕ) (x : BitVec w) : BitVec w :=
  x.rotateRight r.1 ^^^ x.rotateRight r.2.1 ^^^ (x >>> r.2.2)

/-- `Ch`. -/
def ch {w : ℕ} (x y z : BitVec w) : BitVec w := (x &&& y) ^^^ (~~~x &&& z)

/-- `Maj`. -/
def maj {w : ℕ} (x y z : BitVec w) : BitVec w := (x &&& y) ^^^ (x &&& z) ^^^ (y &&& z)

/-- The eight working variables / hash words. -/
structure Vars (α : Type*) where
  a : α
  b : α
  c : α
  d : α
  e : α
  f : α
  g : α
  h : α

/-- Message schedule, section 6.2.2 step 1: sixteen message words, then `rounds - 16` more. -/
def schedule (M : List (BitVec A.w)) : List (BitVec A.w) :=
  (List.range (A.rounds - 16)).foldl (fun W i => W ++
    [smallSigma A.s1 (W.getD (i + 14) 0) + W.getD (i + 9) 0
      + smallSigma A.s0 (W.getD (i + 1) 0) + W.getD i 0]) M

/-- One round, section 6.2.2 step 3. -/
def round (v : Vars (BitVec A.w)) (k wt : BitVec A.w) : Vars (BitVec A.w) :=
  let t1 := v.h + bigSigma A.S1 v.e + ch v.e v.f v.g + k + wt
  let t2 := bigSigma A.S0 v.a + maj v.a v.b v.c
  ⟨t1 + t2, v.a, v.b, v.c, v.d + t1, v.e, v.f, v.g⟩

/-- The `t`-th round constant as a word. -/
def roundConst (t : ℕ) : BitVec A.w := BitVec.ofNat A.w (A.K.getD t 0)

/-- Compression of one block (section 6.2.2): rounds, then add to the previous hash value. -/
def compress (H : Vars (BitVec A.w)) (M : List (BitVec A.w)) : Vars (BitVec A.w) :=
  let W := schedule A M
  let v := (List.range A.rounds).foldl (fun v t => round A v (roundConst A t) (W.getD t 0)) H
  ⟨H.a + v.a, H.b + v.b, H.c + v.c, H.d + v.d, H.e + v.e, H.f + v.f, H.g + v.g, H.h + v.h⟩

/-- Big-endian number of a byte string. -/
def beNat (l : List (BitVec 8)) : ℕ := l.foldl (fun acc b => acc * 256 + b.toNat) 0

/-- Big-endian byte string of length `n` of a number. -/
def beBytes (n x : ℕ) : List (BitVec 8) :=
  (List.range n).map fun i => BitVec.ofNat 8 (x / 256 ^ (n - 1 - i))

/-- Bytes of a word. -/
def wordBytes : ℕ := A.w / 8

/-- Bytes of a block: sixteen words. -/
def blockBytes : ℕ := 16 * wordBytes A

/-- Cut a string into consecutive pieces of `n` (an incomplete last piece is dropped). -/
def pieces {α : Type*} (n : ℕ) (l : List α) : List (List α) :=
  (List.range (l.length / n)).map fun i => (l.drop (i * n)).take n

/-- The words of a block. -/
def words (b : List (BitVec 8)) : List (BitVec A.w) :=
  (pieces (wordBytes A) b).map fun q => BitVec.ofNat A.w (beNat q)

/-- Padding (section 5.1): `0x80`, the least number of zero bytes, and the bit length in two words. -/
def pad (m : List (BitVec 8)) : List (BitVec 8) :=
  let B := blockBytes A
  let L := 2 * wordBytes A
  m ++ [0x80] ++ List.replicate ((B - (m.length + 1 + L) % B) % B) 0 ++ beBytes L (8 * m.length)

/-- Initial hash value. -/
def initial : Vars (BitVec A.w) :=
  let c := fun i => BitVec.ofNat A.w (A.H0.getD i 0)
  ⟨c 0, c 1, c 2, c 3, c 4, c 5, c 6, c 7⟩

/-- The bytes of the hash value. -/
def output (v : Vars (BitVec A.w)) : List (BitVec 8) :=
  [v.a, v.b, v.c, v.d, v.e, v.f, v.g, v.h].flatMap fun x => beBytes (wordBytes A) x.toNat

/-- Absorb the complete blocks of a string. -/
def absorb (H : Vars (BitVec A.w)) (l : List (BitVec 8)) : Vars (BitVec A.w) :=
  (pieces (blockBytes A) l).foldl (fun H b => compress A H (words A b)) H

/-- The hash function: SHA-256 is `hash sha256`, SHA-512 is `hash sha512`. -/
def hash (m : List (BitVec 8)) : List (BitVec 8) := output A (absorb A (initial A) (pad A m))

/-- The round constants are the leading fractional bits of cube roots of the first primes (section 4.2),
and the initial values those of square roots (section 5.3). -/
theorem constants_ok :
    (List.zipWith (IsFracRoot 3 32) primes sha256.K).all id = true ∧ sha256.K.length = 64 ∧
    (List.zipWith (IsFracRoot 3 64) primes sha512.K).all id = true ∧ sha512.K.length = 80 ∧
    (List.zipWith (IsFracRoot 2 32) primes sha256.H0).all id = true ∧ sha256.H0.length = 8 ∧
    (List.zipWith (IsFracRoot 2 64) primes sha512.H0).all id = true ∧ sha512.H0.length = 8 := by
  refine ⟨by decide +kernel, rfl, by decide +kernel, rfl, by decide +kernel, rfl,
    by decide +kernel, rfl⟩

end Verif.Sha.Spec
