import Verif.EdHost.ScalarVal

/-! # C64: the host scalar library computes modulo the group order, for every history of calls -/

namespace Verif.EdHost
open Verif.Ed

/-- Integers modulo the order of the group. -/
abbrev Zl := ZMod L

instance : NeZero L := ⟨by decide +kernel⟩

/-- Clamping of RFC 8032, 5.1.5, on the little-endian integer: the three low bits and bit 255 are cleared, bit 254 is set. -/
def clampN (N : ℕ) : ℕ := N % 2 ^ 254 / 8 * 8 + 2 ^ 254

/-- `MadeSc s k`: some sequence of calls of the scalar API, starting from the zero value, produces the scalar `s`, and the
same operations modulo `L` give `k`. -/
inductive MadeSc : List ℕ → Zl → Prop
  | zero : MadeSc scZero 0
  | add {s t k l} : MadeSc s k → MadeSc t l → MadeSc (scAdd s t) (k + l)
  | sub {s t k l} : MadeSc s k → MadeSc t l → MadeSc (scSub s t) (k - l)
  | neg {s k} : MadeSc s k → MadeSc (scNeg s) (-k)
  | mul {s t k l} : MadeSc s k → MadeSc t l → MadeSc (scMul s t) (k * l)
  | mulAdd {s t u k l m} : MadeSc s k → MadeSc t l → MadeSc u m → MadeSc (scMultiplyAdd s t u) (k * l + m)
  | uniform {x s} : (∀ b ∈ x, b < 256) → scSetUniform x = some s → MadeSc s (leVal x : ℕ)
  | canonical {x s} : (∀ b ∈ x, b < 256) → scSetCanonical x = some s → MadeSc s (leVal x : ℕ)
  | clamped {x s} : (∀ b ∈ x, b < 256) → scSetClamped x = some s → MadeSc s (clampN (leVal x) : ℕ)

/-- The canonical encoding of `k`. -/
theorem scal_lt (k : Zl) : (∀ b ∈ leBytes 32 k.val, b < 256) ∧ (leBytes 32 k.val).length = 32 ∧ leVal (leBytes 32 k.val) = k.val := by
  refine ⟨?_, leBytes_len _ _, leVal_leBytes _ _ (lt_of_lt_of_le (ZMod.val_lt k) (by decide +kernel))⟩
  intro b hb
  simp only [leBytes, List.mem_map] at hb
  obtain ⟨i, -, rfl⟩ := hb
  exact Nat.mod_lt _ (by norm_num)

theorem one_canon : scOne = leBytes 32 (1 : Zl).val := by
  rw [show (1 : Zl).val = 1 by decide +kernel]
  decide +kernel

theorem mone_canon : scMinusOne = leBytes 32 (-1 : Zl).val := by
  rw [show (-1 : Zl).val = L - 1 by decide +kernel]
  decide +kernel

theorem zero_canon : scZero = leBytes 32 (0 : Zl).val := by
  rw [ZMod.val_zero]
  decide +kernel

theorem mulAdd_canon (k l m : Zl) : scMulAdd (leBytes 32 k.val) (leBytes 32 l.val) (leBytes 32 m.val) = leBytes 32 (k * l + m).val := by
  obtain ⟨a1, a2, a3⟩ := scal_lt k
  obtain ⟨b1, b2, b3⟩ := scal_lt l
  obtain ⟨c1, c2, c3⟩ := scal_lt m
  rw [scMulAdd_eq a1 b1 c1 a2 b2 c2, a3, b3, c3, ZMod.val_add, ZMod.val_mul, Nat.mod_add_mod]

/-- The comparison of `isReduced`, from byte `i` down. -/
theorem isReducedFrom_iff {x : List ℕ} (hx : ∀ b ∈ x, b < 256) (hl : x.length = 32) (i : ℕ) (hi : i ≤ 32) :
    isReducedFrom x i = true ↔ leVal (x.take i) ≤ leVal (scMinusOne.take i) := by
  induction i with
  | zero => simp [isReducedFrom, leVal]
  | succ i ih =>
    have ms : ∀ b ∈ scMinusOne, b < 256 := by decide
    have ml : scMinusOne.length = 32 := by decide
    have e : ∀ {y : List ℕ}, y.length = 32 → y.take (i + 1) = y.take i ++ [y.getD i 0] := by
      intro y hy
      rw [List.take_succ, List.getElem?_eq_getElem (by omega), List.getD_eq_getElem _ _ (by omega)]
      rfl
    have v : ∀ {y : List ℕ}, y.length = 32 → leVal (y.take (i + 1)) = leVal (y.take i) + 256 ^ i * y.getD i 0 := by
      intro y hy
      rw [e hy, leVal_append, List.length_take, hy, Nat.min_eq_left (by omega)]
      simp [leVal]
    have lt : ∀ {y : List ℕ}, (∀ b ∈ y, b < 256) → y.length = 32 → leVal (y.take i) < 256 ^ i := by
      intro y hb hy
      have := leVal_lt (l := y.take i) fun b h => hb b (List.mem_of_mem_take h)
      rwa [List.length_take, hy, Nat.min_eq_left (by omega)] at this
    rw [v hl, v ml]
    have l1 := lt hx hl
    have l2 := lt ms ml
    have ih := ih (by omega)
    unfold isReducedFrom
    generalize x.getD i 0 = a
    generalize scMinusOne.getD i 0 = b
    generalize leVal (x.take i) = u at *
    generalize leVal (scMinusOne.take i) = w at *
    generalize (256 : ℕ) ^ i = g at *
    by_cases h1 : a > b
    · rw [if_pos h1]
      have : g * (b + 1) ≤ g * a := Nat.mul_le_mul_left _ h1
      constructor
      · intro h; exact absurd h (by simp)
      · intro h; rw [Nat.mul_add] at this; omega
    · rw [if_neg h1]
      by_cases h2 : a < b
      · rw [if_pos h2]
        have : g * (a + 1) ≤ g * b := Nat.mul_le_mul_left _ h2
        rw [Nat.mul_add] at this
        exact ⟨fun _ => by omega, fun _ => rfl⟩
      · rw [if_neg h2, ih]
        have : a = b := by omega
        rw [this]
        omega

theorem isReduced_iff {x : List ℕ} (hx : ∀ b ∈ x, b < 256) (hl : x.length = 32) : isReducedFrom x 32 = true ↔ leVal x < L := by
  rw [isReducedFrom_iff hx hl 32 (le_refl _), List.take_of_length_le (by omega), List.take_of_length_le (by decide),
    show leVal scMinusOne = L - 1 by decide +kernel]
  have : 0 < L := by decide +kernel
  omega

theorem clamp_val {x : List ℕ} (hx : ∀ b ∈ x, b < 256) (hl : x.length = 32) :
    ∃ s, scSetClamped x = some s ∧ s = leBytes 32 (clampN (leVal x) % L) := by
  unfold scSetClamped
  rw [if_neg (by omega)]
  refine ⟨_, rfl, ?_⟩
  -- the bytes of `x`
  obtain ⟨b0, m, b31, rfl, hm⟩ : ∃ b0 m b31, x = b0 :: (m ++ [b31]) ∧ m.length = 30 := by
    match x, hl with
    | b0 :: t, hl =>
      have ht : t ≠ [] := by intro h; rw [h] at hl; simp at hl
      refine ⟨b0, t.dropLast, t.getLast ht, by rw [List.dropLast_append_getLast], ?_⟩
      simp only [List.length_cons] at hl
      rw [List.length_dropLast]
      omega
  have h0 := hx b0 (by simp)
  have h31 := hx b31 (by simp)
  have hmb : ∀ b ∈ m, b < 256 := fun b hb => hx b (by simp [hb])
  have hz : ∀ b ∈ List.replicate 32 0, b < 256 := fun b hb => by rw [List.eq_of_mem_replicate hb]; norm_num
  have e1 : (b0 :: (m ++ [b31]) ++ List.replicate 32 0) = b0 :: (m ++ b31 :: List.replicate 32 0) := by simp
  rw [e1]
  have g0 : (b0 :: (m ++ b31 :: List.replicate 32 0)).getD 0 0 = b0 := rfl
  rw [g0, List.set_cons_zero]
  have g31 : ∀ a c : ℕ, (a :: (m ++ c :: List.replicate 32 0)).getD 31 0 = c := by
    intro a c
    rw [show 31 = m.length + 1 by omega, List.getD_cons_succ, List.getD_append_right _ _ _ _ (le_refl _), Nat.sub_self]
    rfl
  have s31 : ∀ a c d : ℕ, (a :: (m ++ c :: List.replicate 32 0)).set 31 d = a :: (m ++ d :: List.replicate 32 0) := by
    intro a c d
    rw [show 31 = m.length + 1 by omega, List.set_cons_succ, List.set_append_right _ _ (le_refl _), Nat.sub_self]
    rfl
  rw [g31, s31, g31, s31]
  have a0 : b0 &&& 248 = b0 / 8 * 8 := by
    interval_cases b0 <;> decide
  have a31 : (b31 &&& 63) ||| 64 = b31 % 64 + 64 := by
    interval_cases b31 <;> decide
  rw [a0, a31]
  have zv : leVal (List.replicate 32 0) = 0 := by decide
  rw [scReduce_eq]
  · congr 2
    unfold clampN
    simp only [leVal, leVal_append, hm, zv, mul_zero, add_zero]
    have hmv := leVal_lt hmb
    rw [hm] at hmv
    generalize leVal m = M at *
    norm_num at hmv ⊢
    omega
  · intro b hb
    simp only [List.mem_cons, List.mem_append] at hb
    rcases hb with hb | hb | hb | hb
    · omega
    · exact hmb b hb
    · omega
    · exact hz b hb
  · simp [hm]

/-- Every scalar is held in canonical form. -/
theorem MadeSc.canon {s : List ℕ} {k : Zl} (h : MadeSc s k) : s = leBytes 32 k.val := by
  induction h with
  | zero => exact zero_canon
  | add _ _ ha hb => rw [ha, hb, scAdd, one_canon, mulAdd_canon, one_mul]
  | sub _ _ ha hb => rw [ha, hb, scSub, mone_canon, mulAdd_canon, neg_one_mul, neg_add_eq_sub]
  | neg _ ha => rw [ha, scNeg, mone_canon, zero_canon, mulAdd_canon, neg_one_mul, add_zero]
  | mul _ _ ha hb => rw [ha, hb, scMul, zero_canon, mulAdd_canon, add_zero]
  | mulAdd _ _ _ ha hb hc => rw [ha, hb, hc, scMultiplyAdd, mulAdd_canon]
  | uniform hx he =>
    unfold scSetUniform at he
    split at he
    · exact absurd he (by simp)
    · rename_i hl
      rw [Option.some.injEq] at he
      rw [← he, scReduce_eq hx (by omega), ZMod.val_natCast]
  | canonical hx he =>
    unfold scSetCanonical at he
    split at he
    · exact absurd he (by simp)
    · rename_i hl
      split at he
      · exact absurd he (by simp)
      · rename_i x s hr
        rw [Option.some.injEq] at he
        have hr' : isReducedFrom x 32 = true := by simpa using hr
        have := (isReduced_iff hx (by omega)).1 hr'
        rw [← he, ZMod.val_natCast_of_lt this]
        have e := leBytes_leVal x hx
        rw [show x.length = 32 by omega] at e
        exact e.symm
  | clamped hx he =>
    have hl : _ := he
    unfold scSetClamped at hl
    split at hl
    · exact absurd hl (by simp)
    · rename_i hl
      obtain ⟨s', h1, h2⟩ := clamp_val hx (by omega)
      rw [h1, Option.some.injEq] at he
      rw [← he, h2, ZMod.val_natCast]

/-- **C64.** Whatever sequence of calls produced a scalar, `Bytes` returns the canonical (reduced, little-endian) encoding of
the integer modulo `L` the sequence denotes: `Add`, `Subtract`, `Negate`, `Multiply`, `MultiplyAdd`, `SetUniformBytes`,
`SetCanonicalBytes` and `SetBytesWithClamping` compute modulo the group order. -/
theorem C64_bytes {s : List ℕ} {k : Zl} (h : MadeSc s k) : s = leBytes 32 k.val ∧ leVal s < L := by
  refine ⟨h.canon, ?_⟩
  rw [h.canon, (scal_lt k).2.2]
  exact ZMod.val_lt k

/-- **C64.** `Equal` answers 1 exactly for equal integers modulo `L`. -/
theorem C64_equal {s t : List ℕ} {k l : Zl} (hs : MadeSc s k) (ht : MadeSc t l) : scEqual s t = 1 ↔ k = l := by
  unfold scEqual
  rw [hs.canon, ht.canon]
  by_cases h : k = l
  · simp [h]
  · rw [if_neg]
    · simp [h]
    · intro e
      have := congrArg leVal e
      rw [(scal_lt k).2.2, (scal_lt l).2.2] at this
      exact h (ZMod.val_injective L this)

/-- **C64.** `SetCanonicalBytes` accepts exactly the 32-byte strings whose value is below `L`, and keeps them. -/
theorem C64_setCanonical {x : List ℕ} (hx : ∀ b ∈ x, b < 256) (s : List ℕ) :
    scSetCanonical x = some s ↔ x.length = 32 ∧ leVal x < L ∧ s = x := by
  unfold scSetCanonical
  by_cases hl : x.length = 32
  · rw [if_neg (by omega)]
    have := isReduced_iff hx hl
    by_cases hr : leVal x < L
    · rw [this.2 hr]
      simp [hl, hr, eq_comm]
    · have hf : isReducedFrom x 32 = false := by
        rw [← Bool.not_eq_true]; exact fun h => hr (this.1 h)
      rw [hf]
      simp [hr]
  · rw [if_pos hl]
    simp [hl]

/-- **C64.** `SetUniformBytes` accepts exactly 64 bytes and reduces them modulo `L`. -/
theorem C64_setUniform {x : List ℕ} (hx : ∀ b ∈ x, b < 256) (s : List ℕ) :
    scSetUniform x = some s ↔ x.length = 64 ∧ s = leBytes 32 (leVal x % L) := by
  unfold scSetUniform
  by_cases hl : x.length = 64
  · rw [if_neg (by omega), scReduce_eq hx hl]
    simp [hl, eq_comm]
  · rw [if_pos hl]
    simp [hl]

/-- **C64.** `SetBytesWithClamping` accepts exactly 32 bytes and reduces the clamped integer modulo `L`. -/
theorem C64_setClamped {x : List ℕ} (hx : ∀ b ∈ x, b < 256) (s : List ℕ) :
    scSetClamped x = some s ↔ x.length = 32 ∧ s = leBytes 32 (clampN (leVal x) % L) := by
  by_cases hl : x.length = 32
  · obtain ⟨s', h1, h2⟩ := clamp_val hx hl
    rw [h1, ← h2]
    simp [hl, eq_comm]
  · unfold scSetClamped
    rw [if_pos hl]
    simp [hl]

/-- **C64.** `Bytes` then `SetCanonicalBytes` is the identity. -/
theorem C64_roundtrip {s : List ℕ} {k : Zl} (h : MadeSc s k) : scSetCanonical s = some s := by
  have hc := h.canon
  obtain ⟨a1, a2, a3⟩ := scal_lt k
  rw [← hc] at a1 a2 a3
  exact (C64_setCanonical a1 s).2 ⟨a2, by rw [a3]; exact ZMod.val_lt k, rfl⟩

/-- Concrete cases: a 512-bit reduction, a negative result, rejected encodings. -/
example : scReduce (leBytes 64 (2 ^ 512 - 1)) = leBytes 32 ((2 ^ 512 - 1) % L) := by decide +kernel
example : scSub scZero scOne = scMinusOne := by decide +kernel
example : scSetCanonical (leBytes 32 L) = none ∧ scSetCanonical (leBytes 32 (L - 1)) = some scMinusOne := by decide +kernel
example : MadeSc (scMul (scNeg scZero) scZero) (-0 * 0) := .mul (.neg .zero) .zero

end Verif.EdHost
