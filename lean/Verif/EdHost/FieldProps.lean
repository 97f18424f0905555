import Verif.EdHost.FieldBytes

/-! # C62: the host field library computes in GF(2^255-19), for every history of calls -/

namespace Verif.EdHost
open Verif.Ed

/-- `Made e x`: some sequence of calls of the public API of package `field`, starting from the zero value, produces the
element `e`, and the same sequence of operations on GF(2^255-19) gives `x`. -/
inductive Made : Elt → Fp → Prop
  | zero : Made feZero 0
  | one : Made feOne 1
  | add {a b x y} : Made a x → Made b y → Made (feAdd a b) (x + y)
  | sub {a b x y} : Made a x → Made b y → Made (feSub a b) (x - y)
  | neg {a x} : Made a x → Made (feNeg a) (-x)
  | mul {a b x y} : Made a x → Made b y → Made (feMul a b) (x * y)
  | square {a x} : Made a x → Made (feSquare a) (x ^ 2)
  | mult32 {a x} {k : ℕ} : Made a x → k < 2 ^ 32 → Made (feMult32 a k) (x * (k : ℕ))
  | invert {a x} : Made a x → Made (feInvert a) x⁻¹
  | pow22523 {a x} : Made a x → Made (fePow22523 a) (x ^ ((P - 5) / 8))
  | abs {a x} : Made a x → Made (feAbs a) (if x.val % 2 = 1 then -x else x)
  | select {a b x y} : Made a x → Made b y → (c : Bool) → Made (feSelect a b c.toNat) (if c then x else y)
  | swapL {a b x y} : Made a x → Made b y → (c : Bool) → Made (feSwap a b c.toNat).1 (if c then y else x)
  | swapR {a b x y} : Made a x → Made b y → (c : Bool) → Made (feSwap a b c.toNat).2 (if c then x else y)
  | setBytes {e} {x : List ℕ} : (∀ b ∈ x, b < 256) → feSetBytes x = some e → Made e ((leVal x % 2 ^ 255 : ℕ) : Fp)
  | sqrtRatio {a b x y} : Made a x → Made b y → y ≠ 0 → (r : Fp) → r.val % 2 = 0 →
      y * r ^ 2 = (if (∃ t, y * t ^ 2 = x) then x else sqrtM1 * x) → Made (feSqrtRatio a b).1 r
  | sqrtRatioZero {a b x} : Made a x → Made b 0 → Made (feSqrtRatio a b).1 0

theorem P58 : (P - 5) / 8 = 2 ^ 252 - 3 := by decide +kernel

/-- An element is determined by its square and its parity. -/
theorem even_unique {x y : Fp} (hx : x.val % 2 = 0) (hy : y.val % 2 = 0) (h : x * x = y * y) : x = y := by
  have h0 : (x - y) * (x + y) = 0 := by linear_combination h
  rcases mul_eq_zero.1 h0 with h1 | h1
  · linear_combination h1
  · have e : x = -y := by linear_combination h1
    by_cases hy0 : y = 0
    · rw [e, hy0, neg_zero]
    · exfalso
      haveI : NeZero y := ⟨hy0⟩
      rw [e, ZMod.val_neg_of_ne_zero] at hx
      have h1 := P_odd
      have h2 := ZMod.val_lt y
      have h3 : y.val ≠ 0 := fun h => hy0 ((ZMod.val_eq_zero y).1 h)
      omega

theorem sqrt_value {a b : Elt} {x y r : Fp} (ha : Repr a x) (hb : Repr b y) (hy : y ≠ 0) (hr : r.val % 2 = 0)
    (h : y * r ^ 2 = (if (∃ t, y * t ^ 2 = x) then x else sqrtM1 * x)) : Repr (feSqrtRatio a b).1 r := by
  obtain ⟨R, h1, h2, h3, h4, h5, -⟩ := sqrtRatio_spec ha hb
  have h6 := h5 hy
  have ep : (∃ t, y * t ^ 2 = x) ↔ (feSqrtRatio a b).2 = 1 := by
    rw [h3]
    constructor <;> rintro ⟨t, ht⟩ <;> exact ⟨t, by rw [← ht]; ring⟩
  have e : R = r := by
    apply even_unique h2 hr
    apply mul_left_cancel₀ hy
    rw [h6, ← pow_two, h]
    by_cases hf : (feSqrtRatio a b).2 = 1
    · rw [if_pos hf, if_pos (ep.2 hf)]
    · rw [if_neg hf, if_neg (fun hh => hf (ep.1 hh))]
  exact e ▸ h1

theorem Made.repr {e : Elt} {x : Fp} (h : Made e x) : Repr e x := by
  induction h with
  | zero => exact ⟨zero_ok, zero_val⟩
  | one => exact ⟨one_ok, one_val⟩
  | add _ _ ha hb => exact ha.add hb
  | sub _ _ ha hb => exact ha.sub hb
  | neg _ ha => exact ha.neg
  | mul _ _ ha hb => exact ha.mul hb
  | square _ ha => rw [pow_two]; exact ha.sq
  | mult32 _ hk ha => exact ha.mult32 hk
  | invert _ ha => exact invert_val ha
  | pow22523 _ ha => rw [P58]; exact pow22523_pow ha
  | abs _ ha => exact ha.abs
  | select _ _ c ha hb =>
    cases c
    · simpa using ha.select hb (c := 0) (by norm_num)
    · simpa using ha.select hb (c := 1) (by norm_num)
  | swapL _ _ c ha hb =>
    cases c
    · rw [Bool.toNat_false, swap_zero]; simpa using ha
    · rw [Bool.toNat_true, swap_one ha.1.w hb.1.w]; simpa using hb
  | swapR _ _ c ha hb =>
    cases c
    · rw [Bool.toNat_false, swap_zero]; simpa using hb
    · rw [Bool.toNat_true, swap_one ha.1.w hb.1.w]; simpa using ha
  | setBytes hb he =>
    rename_i e x
    have hl : x.length = 32 := by
      by_contra hl
      unfold feSetBytes at he
      rw [if_pos hl] at he
      exact absurd he (by simp)
    obtain ⟨e', h1, h2⟩ := setBytes_repr hb hl
    rw [h1, Option.some.injEq] at he
    exact he ▸ h2
  | sqrtRatio _ _ hy r hr h ha hb => exact sqrt_value ha hb hy hr h
  | sqrtRatioZero _ _ ha hb =>
    obtain ⟨R, h1, -, -, -, -, h6⟩ := sqrtRatio_spec ha hb
    exact h6 rfl ▸ h1

/-- **C62.** Whatever sequence of calls produced an element, `Bytes` returns the canonical little-endian encoding of the
field value the sequence denotes. -/
theorem C62_bytes {e : Elt} {x : Fp} (h : Made e x) : feBytes e = leBytes 32 x.val := h.repr.bytes

/-- **C62.** `Equal` answers 1 exactly for equal field values, however the two elements are represented. -/
theorem C62_equal {a b : Elt} {x y : Fp} (ha : Made a x) (hb : Made b y) : feEqual a b = 1 ↔ x = y := by
  rw [ha.repr.equal hb.repr]
  by_cases h : x = y <;> simp [h]

/-- **C62.** `IsNegative` is the parity of the canonical representative. -/
theorem C62_isNegative {e : Elt} {x : Fp} (h : Made e x) : feIsNegative e = x.val % 2 := h.repr.isNeg

/-- **C62.** The limbs of every element the API can produce stay below `2^52`, as the type's documentation promises. -/
theorem C62_limbs {e : Elt} {x : Fp} (h : Made e x) : e.l0 < 2 ^ 52 ∧ e.l1 < 2 ^ 52 ∧ e.l2 < 2 ^ 52 ∧ e.l3 < 2 ^ 52 ∧ e.l4 < 2 ^ 52 := by
  obtain ⟨h0, h1, h2, h3, h4⟩ := h.repr.1
  unfold lim at *
  omega

/-- **C62.** `SetBytes` accepts exactly 32 bytes, ignores the top bit, and otherwise takes every value (also the
non-canonical ones from `p` to `2^255 - 1`). -/
theorem C62_setBytes {x : List ℕ} (hx : ∀ b ∈ x, b < 256) :
    (x.length ≠ 32 → feSetBytes x = none) ∧
      (x.length = 32 → ∃ e, feSetBytes x = some e ∧ feBytes e = leBytes 32 (leVal x % 2 ^ 255 % P)) := by
  constructor
  · intro h
    unfold feSetBytes
    rw [if_pos h]
  · intro h
    obtain ⟨e, h1, h2⟩ := setBytes_repr hx h
    refine ⟨e, h1, ?_⟩
    rw [h2.bytes, ZMod.val_natCast]

/-- **C62.** `Bytes` then `SetBytes` gives back the same field value. -/
theorem C62_roundtrip {e : Elt} {x : Fp} (h : Made e x) : ∃ e', feSetBytes (feBytes e) = some e' ∧ feEqual e' e = 1 := by
  have hb := h.repr.bytes
  have lt : ∀ b ∈ feBytes e, b < 256 := by
    intro b hb'
    rw [hb] at hb'
    simp only [leBytes, List.mem_map] at hb'
    obtain ⟨i, -, rfl⟩ := hb'
    exact Nat.mod_lt _ (by norm_num)
  have hl : (feBytes e).length = 32 := by rw [hb, leBytes_len]
  obtain ⟨e', h1, h2⟩ := setBytes_repr lt hl
  refine ⟨e', h1, ?_⟩
  have hv : leVal (feBytes e) % 2 ^ 255 = x.val := by
    rw [hb, leVal_leBytes _ _ (lt_of_lt_of_le (val_P x) (by norm_num)), Nat.mod_eq_of_lt (val_P x)]
  rw [h2.equal h.repr, hv, ZMod.natCast_zmod_val, if_pos rfl]

/-- **C62.** `SqrtRatio(u, v)` reports whether `u/v` is a square.  The root it returns is even, and satisfies
`v r² = u` if so and `v r² = √-1 u` if not; for `v = 0` it is zero (and the report is 1 only for `u = 0`). -/
theorem C62_sqrtRatio {a b : Elt} {u v : Fp} (ha : Made a u) (hb : Made b v) :
    ((feSqrtRatio a b).2 = 1 ↔ ∃ t, v * t ^ 2 = u) ∧ ((feSqrtRatio a b).2 = 0 ∨ (feSqrtRatio a b).2 = 1) ∧
      ∃ r : Fp, feBytes (feSqrtRatio a b).1 = leBytes 32 r.val ∧ r.val % 2 = 0 ∧
        (v = 0 → r = 0) ∧ (v ≠ 0 → v * r ^ 2 = if (feSqrtRatio a b).2 = 1 then u else sqrtM1 * u) := by
  obtain ⟨R, h1, h2, h3, h4, h5, h6⟩ := sqrtRatio_spec ha.repr hb.repr
  refine ⟨?_, h4, R, h1.bytes, h2, h6, ?_⟩
  · rw [h3]
    constructor <;> rintro ⟨t, ht⟩ <;> exact ⟨t, by rw [← ht]; ring⟩
  · intro hv
    rw [pow_two]
    exact h5 hv

/-- The documentation's bound alone ("all limbs are expected to be lower than 2^52") would not be enough for `Subtract`:
a subtrahend with `l0 = 2^52 - 1`, which no sequence of API calls produces, underflows. -/
theorem C62_doc_bound_insufficient : ∃ e : Elt, e.l0 < 2 ^ 52 ∧ e.l1 < 2 ^ 52 ∧ e.l2 < 2 ^ 52 ∧ e.l3 < 2 ^ 52 ∧ e.l4 < 2 ^ 52 ∧
    (feSub feZero e).nat % P ≠ (P - e.nat % P) % P := by
  refine ⟨⟨2 ^ 52 - 1, 0, 0, 0, 0⟩, by norm_num, by norm_num, by norm_num, by norm_num, by norm_num, ?_⟩
  decide +kernel

/-- Concrete cases: elements with over-full limbs, a non-canonical encoding, a non-residue. -/
example : feBytes (feMul (feMult32 feSqrtM1 4294967295) (feSub feZero feOne)) =
    leBytes 32 ((P - sqrtM1N * 4294967295 % P) % P) := by decide +kernel
example : (feSetBytes (leBytes 32 (P + 3))).map feBytes = some (leBytes 32 3) := by decide +kernel
example : (feSqrtRatio ⟨2, 0, 0, 0, 0⟩ feOne).2 = 0 ∧ (feSqrtRatio ⟨4, 0, 0, 0, 0⟩ feOne).2 = 1 := by decide +kernel
example : Made (feInvert (feAdd feOne feOne)) ((1 + 1)⁻¹) := .invert (.add .one .one)

end Verif.EdHost
