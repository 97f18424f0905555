import Verif.Keccak.PadProps
import Mathlib.Tactic.IntervalCases
import Mathlib.Data.Nat.Bitwise

/-! # Evaluating the Keccak-256 specification

`Spec.Keccak.keccak256` is written bit by bit, as FIPS 202 is. To evaluate it on the vectors of the
repository's tests the same function is written here on 25 64-bit lanes kept as numbers, and proved
equal to the specification for every message (`fast_keccak256`). -/

namespace Verif.Keccak.Fast
open Spec.Keccak

def rot (n k : ℕ) : ℕ := (n <<< k ||| n >>> (64 - k)) % 2 ^ 64

theorem rot_testBit {n k z : ℕ} (hn : n < 2 ^ 64) (hk : k < 64) (hz : z < 64) :
    (rot n k).testBit z = n.testBit ((z + (64 - k)) % 64) := by
  unfold rot
  rw [Nat.testBit_mod_two_pow, Nat.testBit_or, Nat.testBit_shiftLeft, Nat.testBit_shiftRight]
  simp only [hz, decide_true, Bool.true_and]
  by_cases h : k ≤ z
  · have e : (z + (64 - k)) % 64 = z - k := by omega
    have h2 : n.testBit (64 - k + z) = false := by
      apply Nat.testBit_lt_two_pow
      exact lt_of_lt_of_le hn (Nat.pow_le_pow_right (by decide) (by omega))
    rw [e, h2]; simp [h]
  · have e : (z + (64 - k)) % 64 = 64 - k + z := by omega
    rw [e]; simp [h]

theorem rot_lt (n k : ℕ) : rot n k < 2 ^ 64 := Nat.mod_lt _ (by decide)

/-- Rotation offsets, index `5 y + x`. -/
def offs : List ℕ := [0, 1, 62, 28, 27, 36, 44, 6, 55, 20, 3, 10, 43, 25, 39, 41, 45, 15, 21, 8, 18, 2, 61, 56, 14]

/-- Round constants. -/
def rcs : List ℕ := [0x0000000000000001, 0x0000000000008082, 0x800000000000808A, 0x8000000080008000,
  0x000000000000808B, 0x0000000080000001, 0x8000000080008081, 0x8000000000008009,
  0x000000000000008A, 0x0000000000000088, 0x0000000080008009, 0x000000008000000A,
  0x000000008000808B, 0x800000000000008B, 0x8000000000008089, 0x8000000000008003,
  0x8000000000008002, 0x8000000000000080, 0x000000000000800A, 0x800000008000000A,
  0x8000000080008081, 0x8000000000008080, 0x0000000080000001, 0x8000000080008008]

theorem offs_eq : ∀ x y : Fin 5, rhoOffset x y % 64 = offs.getD (5 * y.val + x.val) 0 := by decide +kernel

theorem rcs_eq : ∀ ir : Fin 24, ∀ z : Fin 64, roundConst ir.val z = (rcs.getD ir.val 0).testBit z.val := by
  decide +kernel

theorem offs_lt (i : ℕ) : offs.getD i 0 < 64 := by
  by_cases h : i < 25
  · interval_cases i <;> decide
  · rw [List.getD_eq_default _ _ (by simp [offs]; omega)]; decide

def build (f : ℕ → ℕ) : List ℕ := (List.range 25).map f

theorem build_getD (f : ℕ → ℕ) {i : ℕ} (h : i < 25) : (build f).getD i 0 = f i := by
  unfold build
  rw [List.getD_eq_getElem _ _ (by simpa using h)]
  simp

def thetaN (l : List ℕ) : List ℕ :=
  let c := (List.range 5).map fun x => l.getD x 0 ^^^ l.getD (5 + x) 0 ^^^ l.getD (10 + x) 0 ^^^ l.getD (15 + x) 0 ^^^ l.getD (20 + x) 0
  let d := (List.range 5).map fun x => c.getD ((x + 4) % 5) 0 ^^^ rot (c.getD ((x + 1) % 5) 0) 1
  build fun i => l.getD i 0 ^^^ d.getD (i % 5) 0

def rhoPiN (l : List ℕ) : List ℕ := build fun i =>
  let j := 5 * (i % 5) + (i % 5 + 3 * (i / 5)) % 5
  rot (l.getD j 0) (offs.getD j 0)

def chiN (l : List ℕ) : List ℕ := build fun i =>
  l.getD i 0 ^^^ ((l.getD (i / 5 * 5 + (i % 5 + 1) % 5) 0 ^^^ (2 ^ 64 - 1)) &&& l.getD (i / 5 * 5 + (i % 5 + 2) % 5) 0)

def iotaN (ir : ℕ) (l : List ℕ) : List ℕ := build fun i => if i = 0 then l.getD 0 0 ^^^ rcs.getD ir 0 else l.getD i 0

def roundN (ir : ℕ) (l : List ℕ) : List ℕ := iotaN ir (chiN (rhoPiN (thetaN l)))

/-- The lanes `l` hold the state `a`. -/
def Rel (a : St) (l : List ℕ) : Prop :=
  (∀ i, l.getD i 0 < 2 ^ 64) ∧ ∀ x y : Fin 5, ∀ z : Fin 64, a x y z = (l.getD (5 * y.val + x.val) 0).testBit z.val

theorem build_lt {f : ℕ → ℕ} (h : ∀ i, i < 25 → f i < 2 ^ 64) (i : ℕ) : (build f).getD i 0 < 2 ^ 64 := by
  by_cases hi : i < 25
  · rw [build_getD f hi]; exact h i hi
  · rw [List.getD_eq_default _ _ (by simp [build]; omega)]; decide

theorem xor_lt {a b : ℕ} (ha : a < 2 ^ 64) (hb : b < 2 ^ 64) : a ^^^ b < 2 ^ 64 := Nat.xor_lt_two_pow ha hb

theorem range5_getD (f : ℕ → ℕ) {i : ℕ} (h : i < 5) : ((List.range 5).map f).getD i 0 = f i := by
  rw [List.getD_eq_getElem _ _ (by simpa using h)]
  simp

theorem theta_rel {a : St} {l : List ℕ} (h : Rel a l) : Rel (theta a) (thetaN l) := by
  obtain ⟨hlt, hb⟩ := h
  have hc : ∀ x, (l.getD x 0 ^^^ l.getD (5 + x) 0 ^^^ l.getD (10 + x) 0 ^^^ l.getD (15 + x) 0 ^^^ l.getD (20 + x) 0) < 2 ^ 64 :=
    fun x => xor_lt (xor_lt (xor_lt (xor_lt (hlt _) (hlt _)) (hlt _)) (hlt _)) (hlt _)
  unfold thetaN
  constructor
  · apply build_lt
    intro i _
    rw [range5_getD _ (Nat.mod_lt _ (by decide)), range5_getD _ (Nat.mod_lt _ (by decide))]
    exact xor_lt (hlt _) (xor_lt (hc _) (rot_lt _ _))
  · intro x y z
    have hx := x.isLt
    have hy := y.isLt
    have hz := z.isLt
    dsimp only
    rw [build_getD _ (by omega), range5_getD _ (Nat.mod_lt _ (by decide)),
      range5_getD _ (Nat.mod_lt _ (by decide)), range5_getD _ (Nat.mod_lt _ (by decide))]
    have e1 : ((5 * y.val + x.val) % 5 + 4) % 5 = (x - 1).val := by
      rw [Fin.sub_def]; simp; omega
    have e2 : ((5 * y.val + x.val) % 5 + 1) % 5 = (x + 1).val := by
      rw [Fin.val_add]; simp
    rw [e1, e2, Nat.testBit_xor, Nat.testBit_xor, rot_testBit (hc _) (by decide) hz]
    have e3 : (z.val + (64 - 1)) % 64 = (z - 1).val := by
      rw [Fin.sub_def]; simp; congr 1; omega
    rw [e3]
    unfold theta thetaC
    simp only [hb, Nat.testBit_xor]
    simp [Nat.add_comm]

theorem rhoPi_rel {a : St} {l : List ℕ} (h : Rel a l) : Rel (pi (rho a)) (rhoPiN l) := by
  obtain ⟨hlt, hb⟩ := h
  unfold rhoPiN
  refine ⟨build_lt fun i _ => rot_lt _ _, fun x y z => ?_⟩
  have hx := x.isLt
  have hy := y.isLt
  rw [build_getD _ (by omega)]
  have e1 : (5 * y.val + x.val) % 5 = x.val := by omega
  have e2 : (5 * y.val + x.val) / 5 = y.val := by omega
  dsimp only
  rw [e1, e2]
  have e3 : (x.val + 3 * y.val) % 5 = (x + 3 * y).val := by
    rw [Fin.val_add, Fin.val_mul]; simp [Nat.add_mod, Nat.mul_mod]
  rw [e3, rot_testBit (hlt _) (offs_lt _) z.isLt]
  unfold pi rho
  rw [hb, ← offs_eq]
  congr 1
  rw [Fin.sub_def]
  simp only [Fin.ofNat]
  congr 1
  have := z.isLt
  have := Nat.mod_lt (rhoOffset (x + 3 * y) x) (show 0 < 64 by decide)
  omega

theorem chi_rel {a : St} {l : List ℕ} (h : Rel a l) : Rel (chi a) (chiN l) := by
  obtain ⟨hlt, hb⟩ := h
  unfold chiN
  refine ⟨build_lt fun i _ => xor_lt (hlt _) ?_, fun x y z => ?_⟩
  · exact Nat.and_lt_two_pow _ (hlt _)
  have hx := x.isLt
  have hy := y.isLt
  rw [build_getD _ (by omega)]
  have e1 : (5 * y.val + x.val) % 5 = x.val := by omega
  have e2 : (5 * y.val + x.val) / 5 = y.val := by omega
  rw [e1, e2]
  have e3 : (x.val + 1) % 5 = (x + 1).val := by rw [Fin.val_add]; rfl
  have e4 : (x.val + 2) % 5 = (x + 2).val := by rw [Fin.val_add]; rfl
  rw [e3, e4, Nat.testBit_xor, Nat.testBit_and, Nat.testBit_xor, Nat.testBit_two_pow_sub_one]
  unfold chi
  simp only [hb, z.isLt, decide_true, Bool.xor_true, Nat.mul_comm]

theorem iota_rel {a : St} {l : List ℕ} {ir : ℕ} (hi : ir < 24) (h : Rel a l) : Rel (iota ir a) (iotaN ir l) := by
  obtain ⟨hlt, hb⟩ := h
  have hrc : rcs.getD ir 0 < 2 ^ 64 := by interval_cases ir <;> decide
  unfold iotaN
  refine ⟨build_lt fun i _ => ?_, fun x y z => ?_⟩
  · split
    · exact xor_lt (hlt _) hrc
    · exact hlt _
  have hx := x.isLt
  have hy := y.isLt
  rw [build_getD _ (by omega)]
  unfold iota
  by_cases h0 : x = 0 ∧ y = 0
  · obtain ⟨rfl, rfl⟩ := h0
    simp only [and_self, if_true]
    rw [hb, rcs_eq ⟨ir, hi⟩ z, if_pos (by simp), Nat.testBit_xor]
    rfl
  · rw [if_neg h0, if_neg, hb]
    intro h1
    apply h0
    constructor <;> apply Fin.ext <;> simp <;> omega

theorem round_rel {a : St} {l : List ℕ} {ir : ℕ} (hi : ir < 24) (h : Rel a l) : Rel (round ir a) (roundN ir l) :=
  iota_rel hi (chi_rel (rhoPi_rel (theta_rel h)))

def keccakFN (l : List ℕ) : List ℕ := (List.range 24).foldl (fun a i => roundN i a) l

theorem foldl_rel : ∀ (is : List ℕ), (∀ i ∈ is, i < 24) → ∀ (a : St) (l : List ℕ), Rel a l →
    Rel (is.foldl (fun a i => round i a) a) (is.foldl (fun a i => roundN i a) l)
  | [], _, _, _, h => h
  | i :: is, hi, a, l, h =>
    foldl_rel is (fun j hj => hi j (by simp [hj])) _ _ (round_rel (hi i (by simp)) h)

/-- `s` is the bit string of the lanes. -/
def RelB (s : Fin 1600 → Bool) (l : List ℕ) : Prop :=
  (∀ i, l.getD i 0 < 2 ^ 64) ∧ ∀ i : Fin 1600, s i = (l.getD (i.val / 64) 0).testBit (i.val % 64)

theorem keccakF_rel {s : Fin 1600 → Bool} {l : List ℕ} (h : RelB s l) : RelB (keccakF s) (keccakFN l) := by
  have h0 : Rel (ofBits s) l := by
    refine ⟨h.1, fun x y z => ?_⟩
    unfold ofBits
    rw [h.2]
    have := x.isLt; have := z.isLt
    congr 2 <;> dsimp only <;> omega
  have h1 := foldl_rel (List.range 24) (fun i hi => List.mem_range.1 hi) _ _ h0
  refine ⟨h1.1, fun i => ?_⟩
  unfold keccakF toBits keccakFN
  rw [h1.2]
  have := i.isLt
  congr 2
  dsimp only
  omega

/-- Lanes of a block given as bits of bytes: byte list, little endian lanes. -/
def laneOf (bs : List ℕ) (i : ℕ) : ℕ :=
  (List.range 8).foldr (fun j n => bs.getD (8 * i + j) 0 + 256 * n) 0

def absorbN (l : List ℕ) (bs : List ℕ) : List ℕ :=
  keccakFN (build fun i => if i < 17 then l.getD i 0 ^^^ laneOf bs i else l.getD i 0)

theorem laneOf_testBit {bs : List ℕ} (hb : ∀ b ∈ bs, b < 256) (i z : ℕ) (hz : z < 64) :
    (laneOf bs i).testBit z = (bs.getD (8 * i + z / 8) 0).testBit (z % 8) := by
  have hlt : ∀ k, bs.getD k 0 < 256 := by
    intro k
    by_cases h : k < bs.length
    · rw [List.getD_eq_getElem _ _ h]; exact hb _ (List.getElem_mem h)
    · rw [List.getD_eq_default _ _ (by omega)]; decide
  have step : ∀ (b n z : ℕ), b < 256 → (b + 256 * n).testBit z = if z < 8 then b.testBit z else n.testBit (z - 8) := by
    intro b n z h
    rw [show b + 256 * n = 2 ^ 8 * n + b by ring, Nat.testBit_two_pow_mul_add _ (by simpa using h)]
  have h8 : ∀ (n : ℕ) (f : ℕ → ℕ), (∀ k, f k < 256) → ∀ (s z : ℕ), z < 8 * n →
      ((List.range' s n).foldr (fun j m => f j + 256 * m) 0).testBit z = (f (s + z / 8)).testBit (z % 8) := by
    intro n
    induction n with
    | zero => intro f _ s z hz; omega
    | succ n ih =>
      intro f hf s z hz
      rw [List.range'_succ, List.foldr_cons, step _ _ _ (hf s)]
      by_cases h : z < 8
      · rw [if_pos h, show z / 8 = 0 by omega, show z % 8 = z by omega]; rfl
      · rw [if_neg h, ih f hf (s + 1) (z - 8) (by omega)]
        rw [show s + 1 + (z - 8) / 8 = s + z / 8 by omega, show (z - 8) % 8 = z % 8 by omega]
  unfold laneOf
  rw [List.range_eq_range']
  rw [h8 8 (fun j => bs.getD (8 * i + j) 0) (fun _ => hlt _) 0 z hz, Nat.zero_add]

theorem laneOf_lt {bs : List ℕ} (hb : ∀ b ∈ bs, b < 256) (i : ℕ) : laneOf bs i < 2 ^ 64 := by
  have hlt : ∀ k, bs.getD k 0 < 256 := by
    intro k
    by_cases h : k < bs.length
    · rw [List.getD_eq_getElem _ _ h]; exact hb _ (List.getElem_mem h)
    · rw [List.getD_eq_default _ _ (by omega)]; decide
  unfold laneOf
  have h8 : ∀ (js : List ℕ), js.foldr (fun j n => bs.getD (8 * i + j) 0 + 256 * n) 0 < 256 ^ js.length := by
    intro js
    induction js with
    | nil => exact Nat.one_pos
    | cons j js ih =>
      rw [List.foldr_cons, List.length_cons, pow_succ]
      have := hlt (8 * i + j)
      omega
  exact lt_of_lt_of_le (h8 _) (by simp)

theorem bytesToBits_getD : ∀ (bs : List ℕ) (k : ℕ),
    (bytesToBits bs).getD k false = (bs.getD (k / 8) 0).testBit (k % 8)
  | [], k => by simp [bytesToBits]
  | b :: bs, k => by
    have e : bytesToBits (b :: bs) = (List.range 8).map b.testBit ++ bytesToBits bs := rfl
    rw [e]
    by_cases h : k < 8
    · rw [List.getD_append _ _ _ _ (by simpa using h), show k / 8 = 0 by omega, show k % 8 = k by omega,
        List.getD_eq_getElem _ _ (by simpa using h)]
      simp
    · rw [List.getD_append_right _ _ _ _ (by simp; omega), List.length_map, List.length_range, bytesToBits_getD bs,
        show k / 8 = (k - 8) / 8 + 1 by omega, show (k - 8) % 8 = k % 8 by omega]
      rfl

theorem absorb_rel {s : Fin 1600 → Bool} {l bs : List ℕ} {blk : List Bool} (hb : ∀ b ∈ bs, b < 256) (h : RelB s l)
    (hblk : ∀ i, i < 1088 → blk.getD i false = (bs.getD (i / 8) 0).testBit (i % 8)) :
    RelB (absorb s blk) (absorbN l bs) := by
  apply keccakF_rel
  refine ⟨build_lt fun i _ => ?_, fun i => ?_⟩
  · split
    · exact xor_lt (h.1 _) (laneOf_lt hb _)
    · exact h.1 _
  have hi := i.isLt
  rw [build_getD _ (by omega)]
  dsimp only
  by_cases h2 : i.val < 1088
  · rw [if_pos h2, if_pos (by omega), Nat.testBit_xor, h.2, laneOf_testBit hb _ _ (Nat.mod_lt _ (by decide)), hblk _ h2]
    rw [show 8 * (i.val / 64) + i.val % 64 / 8 = i.val / 8 by omega, show i.val % 64 % 8 = i.val % 8 by omega]
  · rw [if_neg h2, if_neg (by omega), h.2]

def spongeN : ℕ → List ℕ → List ℕ → List ℕ
  | 0, _, l => l
  | n + 1, bs, l => spongeN n (bs.drop 136) (absorbN l (bs.take 136))

theorem drop_getD (m : List Bool) (a i : ℕ) : (m.drop a).getD i false = m.getD (a + i) false := by
  simp [List.getD_eq_getElem?_getD, List.getElem?_drop]

theorem take_getD (m : List Bool) (a i : ℕ) (h : i < a) : (m.take a).getD i false = m.getD i false := by
  simp [List.getD_eq_getElem?_getD, List.getElem?_take, h]

theorem sponge_rel : ∀ (n k : ℕ) (bs : List ℕ) (m : List Bool) (l : List ℕ), (∀ b ∈ bs, b < 256) →
    (∀ i, m.getD (1088 * k + i) false = (bs.getD (i / 8) 0).testBit (i % 8)) → RelB (sponge m k) l →
    RelB (sponge m (k + n)) (spongeN n bs l)
  | 0, _, _, _, _, _, _, h => h
  | n + 1, k, bs, m, l, hb, hm, h => by
    have h1 : RelB (sponge m (k + 1)) (absorbN l (bs.take 136)) := by
      apply absorb_rel (fun b hb' => hb b (List.mem_of_mem_take hb')) h
      intro i hi
      unfold block
      rw [take_getD _ _ _ hi, drop_getD, hm]
      congr 1
      simp [List.getD_eq_getElem?_getD, List.getElem?_take, show i / 8 < 136 by omega]
    have := sponge_rel n (k + 1) (bs.drop 136) m _ (fun b hb' => hb b (List.mem_of_mem_drop hb')) (by
      intro i
      rw [show 1088 * (k + 1) + i = 1088 * k + (1088 + i) by ring, hm]
      rw [show (1088 + i) / 8 = 136 + i / 8 by omega, show (1088 + i) % 8 = i % 8 by omega]
      simp [List.getD_eq_getElem?_getD, List.getElem?_drop]) h1
    rw [show k + (n + 1) = k + 1 + n by ring]
    exact this

def padN (bs : List ℕ) : List ℕ :=
  bs ++ if bs.length % 136 = 135 then [0x81] else 1 :: (List.replicate (134 - bs.length % 136) 0 ++ [0x80])

/-- Keccak-256 of bytes, on lanes. -/
def keccakBytesN (bs : List ℕ) : List ℕ :=
  let l := spongeN ((bs.length + 136) / 136) (padN bs) (List.replicate 25 0)
  (List.range 32).map fun k => (l.getD (k / 8) 0 >>> (8 * (k % 8))) % 256

theorem keccakBytesN_lt (bs : List ℕ) : ∀ b ∈ keccakBytesN bs, b < 256 := by
  intro b hb
  obtain ⟨k, _, rfl⟩ := List.mem_map.1 hb
  exact Nat.mod_lt _ (by decide)

/-- The lane evaluation is the specification, for every byte string. -/
theorem fast_keccak256 (bs : List ℕ) (hb : ∀ b ∈ bs, b < 256) :
    keccak256 (bytesToBits bs) = bytesToBits (keccakBytesN bs) := by
  have hpad := C20_pad101Bytes bs
  have hlen := C20_pad101Bytes_length bs
  have hpb : ∀ b ∈ pad101Bytes bs, b < 256 := by
    rw [pad101Bytes_eq]
    intro b h
    rcases List.mem_append.1 h with h | h
    · exact hb b h
    · split at h
      · rw [List.mem_singleton.1 h]; decide
      · simp only [List.mem_cons, List.mem_append, List.mem_replicate, List.not_mem_nil, or_false] at h
        omega
  have hz : RelB (sponge (pad (bytesToBits bs)) 0) (List.replicate 25 0) := by
    refine ⟨fun i => ?_, fun i => ?_⟩
    · by_cases h : i < 25
      · rw [List.getD_eq_getElem _ _ (by simpa using h), List.getElem_replicate]; decide
      · rw [List.getD_eq_default _ _ (by simpa using h)]; decide
    · by_cases h : i.val / 64 < 25
      · rw [List.getD_eq_getElem _ _ (by simpa using h), List.getElem_replicate, Nat.zero_testBit]; rfl
      · have := i.isLt; omega
  have h := sponge_rel ((bs.length + 136) / 136) 0 (pad101Bytes bs) (pad (bytesToBits bs)) _ hpb (by
    intro i
    rw [← hpad, Nat.mul_zero, Nat.zero_add, bytesToBits_getD]) hz
  have hpl : (pad (bytesToBits bs)).length / 1088 = (bs.length + 136) / 136 := by
    rw [← hpad, bytesToBits_length]; omega
  have hpn : pad101Bytes bs = padN bs := pad101Bytes_eq bs
  rw [hpn, Nat.zero_add] at h
  unfold keccak256 keccakBytesN
  dsimp only
  rw [hpl]
  apply List.ext_getElem
  · rw [bytesToBits_length]; simp
  intro k h1 h2
  have hk : k < 256 := by simpa using h1
  rw [List.getElem_map, List.getElem_range, dif_pos (by omega), h.2]
  rw [← List.getD_eq_getElem _ false h2, bytesToBits_getD]
  have e : ∀ (f : ℕ → ℕ), ((List.range 32).map f).getD (k / 8) 0 = f (k / 8) := by
    intro f
    rw [List.getD_eq_getElem _ _ (by rw [List.length_map, List.length_range]; omega), List.getElem_map, List.getElem_range]
  rw [e, show (256 : ℕ) = 2 ^ 8 from rfl, Nat.testBit_mod_two_pow, Nat.testBit_shiftRight]
  simp only [show k % 8 < 8 from Nat.mod_lt _ (by decide), decide_true, Bool.true_and]
  rw [show k / 8 / 8 = k / 64 by omega, show 8 * (k / 8 % 8) + k % 8 = k % 64 by omega]

end Verif.Keccak.Fast
