import Mathlib.Data.Fin.Basic
import Mathlib.Data.List.Basic

/-! # Independent specification: Keccak-f[1600] (FIPS 202, section 3) and Keccak-256

Written from FIPS 202 (algorithms 1-6 and 8) with the original Keccak padding `pad10*1` without
domain suffix, as used by Ethereum. Nothing here refers to the Go code. -/

namespace Verif.Spec.Keccak

/-- State array `A[x, y, z]`, FIPS 202 section 3.1.2 with `w = 64`. -/
abbrev St := Fin 5 → Fin 5 → Fin 64 → Bool

/-- FIPS 202 3.1.2: `A[x,y,z] = S[w(5y+x)+z]`. -/
def ofBits (s : Fin 1600 → Bool) : St := fun x y z => s ⟨64 * (5 * y.val + x.val) + z.val, by omega⟩

/-- FIPS 202 3.1.3: inverse of `ofBits`. -/
def toBits (a : St) : Fin 1600 → Bool := fun i =>
  a ⟨i.val / 64 % 5, by omega⟩ ⟨i.val / 64 / 5, by omega⟩ ⟨i.val % 64, by omega⟩

/-- Algorithm 1, step 1. -/
def thetaC (a : St) : Fin 5 → Fin 64 → Bool := fun x z =>
  a x 0 z ^^ a x 1 z ^^ a x 2 z ^^ a x 3 z ^^ a x 4 z

/-- Algorithm 1 (θ). Index arithmetic is modulo 5 resp. 64. -/
def theta (a : St) : St := fun x y z =>
  a x y z ^^ (thetaC a (x - 1) z ^^ thetaC a (x + 1) (z - 1))

/-- Algorithm 2 (ρ): the rotation offsets obtained by walking `(x,y) ← (y, 2x+3y)` from `(1,0)`;
step `t` sets the offset of the current lane to `(t+1)(t+2)/2`. -/
def rhoOffset : Fin 5 → Fin 5 → ℕ := fun x y =>
  ((List.range 24).foldl
    (fun (s : (Fin 5 × Fin 5) × (Fin 5 → Fin 5 → ℕ)) t =>
      ((s.1.2, 2 * s.1.1 + 3 * s.1.2),
        fun x y => if x = s.1.1 ∧ y = s.1.2 then (t + 1) * (t + 2) / 2 else s.2 x y))
    ((1, 0), fun _ _ => 0)).2 x y

/-- Algorithm 2 (ρ). -/
def rho (a : St) : St := fun x y z => a x y (z - Fin.ofNat 64 (rhoOffset x y))

/-- Algorithm 3 (π). -/
def pi (a : St) : St := fun x y z => a (x + 3 * y) x z

/-- Algorithm 4 (χ). -/
def chi (a : St) : St := fun x y z => a x y z ^^ (!a (x + 1) y z && a (x + 2) y z)

/-- Algorithm 5, one LFSR step on the register `R[0..7]`. -/
def lfsrStep (r : List Bool) : List Bool :=
  let r := false :: r
  let r := r.set 0 (r.getD 0 false ^^ r.getD 8 false)
  let r := r.set 4 (r.getD 4 false ^^ r.getD 8 false)
  let r := r.set 5 (r.getD 5 false ^^ r.getD 8 false)
  let r := r.set 6 (r.getD 6 false ^^ r.getD 8 false)
  r.take 8

/-- Algorithm 5: `rc(t)`. -/
def rcBit (t : ℕ) : Bool :=
  (lfsrStep^[t % 255] [true, false, false, false, false, false, false, false]).getD 0 false

/-- Algorithm 6, steps 2-3: the round constant, `RC[2^j - 1] = rc(j + 7 i)` for `j = 0..6`. -/
def roundConst (ir : ℕ) : Fin 64 → Bool := fun z =>
  (List.range 7).any fun j => decide (z.val = 2 ^ j - 1) && rcBit (j + 7 * ir)

/-- Algorithm 6 (ι). -/
def iota (ir : ℕ) (a : St) : St := fun x y z =>
  if x = 0 ∧ y = 0 then a x y z ^^ roundConst ir z else a x y z

/-- One round. -/
def round (ir : ℕ) (a : St) : St := iota ir (chi (pi (rho (theta a))))

/-- Keccak-f[1600] = Keccak-p[1600,24], algorithm 7. -/
def keccakF (s : Fin 1600 → Bool) : Fin 1600 → Bool :=
  toBits ((List.range 24).foldl (fun a i => round i a) (ofBits s))

/-- Multi-rate padding `pad10*1` for rate 1088 (algorithm 9), applied to a message. -/
def pad (m : List Bool) : List Bool :=
  m ++ true :: (List.replicate ((1088 - (m.length + 2) % 1088) % 1088) false ++ [true])

/-- Absorb one 1088-bit block into the state. -/
def absorb (s : Fin 1600 → Bool) (block : List Bool) : Fin 1600 → Bool :=
  keccakF fun i => if i.val < 1088 then s i ^^ block.getD i.val false else s i

/-- The blocks of a padded message. -/
def block (m : List Bool) (i : ℕ) : List Bool := (m.drop (1088 * i)).take 1088

/-- State after absorbing the first `n` blocks (algorithm 8, steps 1-6). -/
def sponge (m : List Bool) : ℕ → Fin 1600 → Bool
  | 0 => fun _ => false
  | n + 1 => absorb (sponge m n) (block m n)

/-- Keccak-256 of a bit string: pad, absorb every block, squeeze 256 bits. -/
def keccak256 (m : List Bool) : List Bool :=
  (List.range 256).map fun i =>
    if h : i < 1600 then sponge (pad m) ((pad m).length / 1088) ⟨i, h⟩ else false

/-- Bits of a byte string, least significant bit of every byte first. -/
def bytesToBits (bs : List ℕ) : List Bool := bs.flatMap fun b => (List.range 8).map b.testBit

end Verif.Spec.Keccak
