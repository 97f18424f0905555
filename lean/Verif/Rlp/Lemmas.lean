import Verif.MuxLemmas
import Verif.Rlp.Model
import Verif.Rlp.Spec

/-! Helper lemmas for the RLP gadgets. -/

set_option linter.unusedSectionVars false

namespace Verif.Rlp
open Api Spec.Rlp
variable {p : ℕ} [Fact p.Prime]

theorem lessThan_nat {a n : ℕ} (hp2 : 2 < p) (ha : a < p) (hn : n < p) :
    lessThan (a : F p) (n : F p) = if a < n then 1 else 0 := by
  rw [lessThan_eq hp2, val_natCast_lt ha, val_natCast_lt hn]

theorem isZero_nat_sub {a n : ℕ} (ha : a < p) (hn : n < p) :
    isZero ((a : F p) - (n : F p)) = if a = n then 1 else 0 := by
  unfold isZero
  simp only [sub_eq_zero, natCast_inj_of_lt ha hn]

theorem isZero_nat {a : ℕ} (ha : a < p) : isZero (a : F p) = if a = 0 then 1 else 0 := by
  have := isZero_nat_sub (p := p) (a := a) (n := 0) ha (by have := (Fact.out : p.Prime).pos; omega)
  simpa using this

/-- hex length reported by the array prefix gadget -/
def apHexLen (v : ℕ) : ℕ := if v < 0xc0 then 0 else if v < 0xf8 then 2 * (v - 0xc0) else 2 * (v - 0xf7)

theorem rlpArrayPrefix_eq (hp : 256 < p) (a b : ℕ) (ha : a < 16) (hb : b < 16) :
    rlpArrayPrefix (a : F p) (b : F p) =
      { isBig := if 0xf8 ≤ 16 * a + b then 1 else 0
        hexLen := (apHexLen (16 * a + b) : ℕ)
        isValid := if 0xc0 ≤ 16 * a + b then 1 else 0 } := by
  have e1 : lessThan (a : F p) 12 = if a < 12 then 1 else 0 := by
    have := lessThan_nat (p := p) (a := a) (n := 12) (by omega) (by omega) (by omega)
    simpa using this
  have e2 : isZero ((a : F p) - 15) = if a = 15 then 1 else 0 := by
    have := isZero_nat_sub (p := p) (a := a) (n := 15) (by omega) (by omega)
    simpa using this
  have e3 : lessThan (b : F p) 8 = if b < 8 then 1 else 0 := by
    have := lessThan_nat (p := p) (a := b) (n := 8) (by omega) (by omega) (by omega)
    simpa using this
  unfold rlpArrayPrefix apHexLen
  simp only [e1, e2, e3]
  by_cases h1 : a < 12
  · have h2 : ¬ a = 15 := by omega
    simp [h1, h2, show ¬ 0xf8 ≤ 16 * a + b by omega, show ¬ 0xc0 ≤ 16 * a + b by omega,
      show 16 * a + b < 0xc0 by omega]
  · by_cases h2 : a = 15
    · subst h2
      by_cases h3 : b < 8
      · simp [-mul_eq_mul_left_iff, h3, show ¬ 0xf8 ≤ 16 * 15 + b by omega, show 0xc0 ≤ 16 * 15 + b by omega,
          show ¬ 16 * 15 + b < 0xc0 by omega, show 16 * 15 + b < 0xf8 by omega,
          show 16 * 15 + b - 192 = 48 + b by omega]
        ring
      · obtain ⟨c, rfl⟩ : ∃ c, b = 8 + c := ⟨b - 8, by omega⟩
        simp [-mul_eq_mul_left_iff, show 0xf8 ≤ 16 * 15 + (8 + c) by omega,
          show 0xc0 ≤ 16 * 15 + (8 + c) by omega,
          show ¬ 16 * 15 + (8 + c) < 0xc0 by omega, show ¬ 16 * 15 + (8 + c) < 0xf8 by omega,
          show 16 * 15 + (8 + c) - 247 = 1 + c by omega]
        ring
    · obtain ⟨c, rfl⟩ : ∃ c, a = 12 + c := ⟨a - 12, by omega⟩
      simp [-mul_eq_mul_left_iff, h2, show ¬ 0xf8 ≤ 16 * (12 + c) + b by omega,
        show 0xc0 ≤ 16 * (12 + c) + b by omega,
        show ¬ 16 * (12 + c) + b < 0xc0 by omega, show 16 * (12 + c) + b < 0xf8 by omega,
        show 16 * (12 + c) + b - 192 = 16 * c + b by omega]
      ring

/-- hex length reported by the field prefix gadget -/
def fpHexLen (v : ℕ) : ℕ :=
  if v < 0x80 then 0 else if v < 0xb8 then 2 * (v - 0x80) else if v < 0xc0 then 2 * (v - 0xb7)
  else apHexLen v

theorem rlpFieldPrefix_eq (hp : 256 < p) (a b : ℕ) (ha : a < 16) (hb : b < 16) :
    rlpFieldPrefix (a : F p) (b : F p) =
      { isBig := if 0 < lenOfLen (16 * a + b) then 1 else 0
        isLiteral := if 16 * a + b < 0x80 then 1 else 0
        hexLen := (fpHexLen (16 * a + b) : ℕ)
        isValid := if 16 * a + b = 0xc0 then 2 else 1
        isArray := if 0xc0 ≤ 16 * a + b then 1 else 0
        isEmptyList := if 16 * a + b = 0xc0 then 1 else 0
        isZeroByte := if 16 * a + b = 0 then 1 else 0 } := by
  have e1 : lessThan (a : F p) 12 = if a < 12 then 1 else 0 := by
    have := lessThan_nat (p := p) (a := a) (n := 12) (by omega) (by omega) (by omega)
    simpa using this
  have e1' : lessThan (a : F p) 8 = if a < 8 then 1 else 0 := by
    have := lessThan_nat (p := p) (a := a) (n := 8) (by omega) (by omega) (by omega)
    simpa using this
  have e2 : isZero ((a : F p) - 11) = if a = 11 then 1 else 0 := by
    have := isZero_nat_sub (p := p) (a := a) (n := 11) (by omega) (by omega)
    simpa using this
  have e2' : isZero ((a : F p) - 12) = if a = 12 then 1 else 0 := by
    have := isZero_nat_sub (p := p) (a := a) (n := 12) (by omega) (by omega)
    simpa using this
  have e3 : lessThan (b : F p) 8 = if b < 8 then 1 else 0 := by
    have := lessThan_nat (p := p) (a := b) (n := 8) (by omega) (by omega) (by omega)
    simpa using this
  have e4 : isZero (b : F p) = if b = 0 then 1 else 0 := isZero_nat (by omega)
  have e5 : isZero (a : F p) = if a = 0 then 1 else 0 := isZero_nat (by omega)
  have e6 : isZero (2 - (isZero (a : F p) + isZero (b : F p))) = if 16 * a + b = 0 then 1 else 0 := by
    have h2 : (2 : F p) ≠ 0 := by
      have := (natCast_inj_of_lt (p := p) (a := 2) (b := 0) (by omega) (by omega)).not.2 (by omega)
      simpa using this
    rw [e4, e5]
    unfold isZero
    by_cases h0 : a = 0 <;> by_cases h1 : b = 0
    · simp [h0, h1]; norm_num
    · simp [h0, h1]; norm_num
    · simp [h0, h1]; norm_num
    · simp [h0, h1, h2]
  unfold rlpFieldPrefix
  simp only [rlpArrayPrefix_eq hp a b ha hb, e6]
  simp only [e1, e1', e2, e2', e3, e4]
  unfold fpHexLen lenOfLen
  by_cases h1 : a < 8
  · simp [-mul_eq_mul_left_iff, h1, show a < 12 by omega, show ¬ a = 11 by omega, show ¬ a = 12 by omega,
      show ¬ 0xf8 ≤ 16 * a + b by omega, show ¬ 0xc0 ≤ 16 * a + b by omega,
      show 16 * a + b < 0x80 by omega, show 16 * a + b < 0xb8 by omega,
      show ¬ 16 * a + b = 0xc0 by omega]
  by_cases h2 : a < 11
  · obtain ⟨c, rfl⟩ : ∃ c, a = 8 + c := ⟨a - 8, by omega⟩
    simp [-mul_eq_mul_left_iff, show 8 + c < 12 by omega, show ¬ 8 + c = 11 by omega, show ¬ 8 + c = 12 by omega,
      show ¬ 0xf8 ≤ 16 * (8 + c) + b by omega, show ¬ 0xc0 ≤ 16 * (8 + c) + b by omega,
      show ¬ 16 * (8 + c) + b < 0x80 by omega, show 16 * (8 + c) + b < 0xb8 by omega,
      show ¬ 16 * (8 + c) + b = 0xc0 by omega, show 16 * (8 + c) + b - 128 = 16 * c + b by omega]
    ring
  by_cases h3 : a < 12
  · obtain rfl : a = 11 := by omega
    by_cases h4 : b < 8
    · simp [-mul_eq_mul_left_iff, h4, show ¬ 0xf8 ≤ 16 * 11 + b by omega, show ¬ 0xc0 ≤ 16 * 11 + b by omega,
        show ¬ 16 * 11 + b < 0x80 by omega, show 16 * 11 + b < 0xb8 by omega,
        show ¬ 16 * 11 + b = 0xc0 by omega, show 16 * 11 + b - 128 = 48 + b by omega]
      ring
    · obtain ⟨c, rfl⟩ : ∃ c, b = 8 + c := ⟨b - 8, by omega⟩
      simp [-mul_eq_mul_left_iff, show ¬ 0xf8 ≤ 16 * 11 + (8 + c) by omega, show ¬ 0xc0 ≤ 16 * 11 + (8 + c) by omega,
        show ¬ 16 * 11 + (8 + c) < 0x80 by omega, show ¬ 16 * 11 + (8 + c) < 0xb8 by omega,
        show 16 * 11 + (8 + c) < 0xc0 by omega,
        show ¬ 16 * 11 + (8 + c) = 0xc0 by omega, show 16 * 11 + (8 + c) - 183 = 1 + c by omega]
      ring
  by_cases h5 : 16 * a + b = 0xc0
  · obtain rfl : a = 12 := by omega
    obtain rfl : b = 0 := by omega
    simp [apHexLen]; norm_num
  · have hv : 0xc0 < 16 * a + b := by omega
    have h6 : ¬ (a = 12 ∧ b = 0) := by omega
    have h7 : (if a = 12 then (1 : F p) else 0) * (if b = 0 then 1 else 0) = 0 := by
      by_cases h : a = 12
      · have : ¬ b = 0 := fun hb => h6 ⟨h, hb⟩
        simp [this]
      · simp [h]
    simp only [h7]
    by_cases h8 : 16 * a + b < 0xf8
    · simp [h1, h3, h5, hv.le, h8, show ¬ 16 * a + b < 0x80 by omega,
        show ¬ 16 * a + b < 0xb8 by omega, show ¬ 16 * a + b < 0xc0 by omega,
        show ¬ 0xf8 ≤ 16 * a + b by omega, show ¬ a = 11 by omega]
    · simp [h1, h3, h5, hv.le, h8, show ¬ 16 * a + b < 0x80 by omega,
        show ¬ 16 * a + b < 0xb8 by omega, show ¬ 16 * a + b < 0xc0 by omega,
        show 0xf8 ≤ 16 * a + b by omega, show ¬ a = 11 by omega, show 247 < 16 * a + b by omega]

end Verif.Rlp
