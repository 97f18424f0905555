import Verif.Limbs.Resplit

/-! # C29: `Resplit` up to the bit length of the field, exactly -/

namespace Verif.Limbs
open Api
variable {p : ℕ}

/-- **C29, narrow case, exact.** With the shipped hint and a total width of at most the bit length of the field `Resplit`
is satisfied and returns limbs of the requested sizes that hold the represented integer modulo the field. They hold the
bit string that was given exactly when the represented integer is below the modulus. -/
theorem C29_resplit_narrow [NeZero p] (ws : List (Limb p)) (h2 : 2 ≤ ws.length) (hr : InRange ws) (s : ℕ) (hs : 0 < s)
    (hle : s ≤ (sizes ws).sum) (ht : (sizes ws).sum ≤ p.size) :
    ∃ ret, resplit (fun _ => splitHint) ws s = some ret ∧ InRange ret ∧
      sizes ret = splitSizes (sizes ws).sum s ((sizes ws).sum / s) ∧
      numBE (bitStr ret) = numBE (bitStr ws) % p ∧ (bitStr ret = bitStr ws ↔ numBE (bitStr ws) < p) := by
  have hne : ws ≠ [] := by rintro rfl; simp at h2
  have htot : (sizes ws).sum = tot ws := rfl
  rw [htot] at hle ht ⊢
  have hp0 : 0 < p := Nat.pos_of_ne_zero (NeZero.ne p)
  have hm := (C29_merge_bits ws hne hr).1
  have hlt := numBE_lt (bitStr ws)
  rw [bitStr_length] at hlt
  set N := numBE (bitStr ws) with hN
  have hmod : N % p < 2 ^ tot ws := lt_of_le_of_lt (Nat.mod_le _ _) hlt
  have hv : ((N : ℕ) : F p).val = N % p := ZMod.val_natCast _ _
  rw [bitStr_length] at hm
  obtain ⟨ret, e1, e2, e3, e4⟩ := split_honest (⟨(N : F p), tot ws⟩ : Limb p) s hs hle (by simp only [hv]; exact hmod)
  have hb : bitStr ret = bitsBE (tot ws) (N % p) := by
    rw [e4]; simp [bitStr, hv]
  have hn : numBE (bitStr ret) = N % p := by rw [hb, numBE_bitsBE hmod]
  refine ⟨ret, ?_, e3, e2, hn, ?_⟩
  · unfold resplit
    rw [if_neg (by omega), if_pos (by rw [totalSize_eq]; omega), hm]
    exact e1
  · constructor
    · intro heq
      rw [heq, ← hN] at hn
      have := Nat.mod_lt N hp0
      omega
    · intro hlt
      rw [hb, Nat.mod_eq_of_lt hlt, hN, ← bitStr_length ws, bitsBE_numBE]

/-- Two limbs of 127 bits over a 254-bit field, holding the integer 1: at the boundary, below the modulus. -/
example (hp : p.size = 254) :
    let ws : List (Limb p) := [⟨0, 127⟩, ⟨1, 127⟩]
    InRange ws ∧ (sizes ws).sum = p.size ∧ numBE (bitStr ws) = 1 ∧ 1 < p := by
  have hlow : 2 ^ 253 ≤ p := Nat.lt_size.1 (by omega)
  haveI : Fact (1 < p) := ⟨by omega⟩
  have hIR : InRange ([⟨0, 127⟩, ⟨1, 127⟩] : List (Limb p)) := by
    intro l hl
    simp only [List.mem_cons, List.not_mem_nil, or_false] at hl
    rcases hl with rfl | rfl
    · simp
    · simp only [ZMod.val_one]; norm_num
  refine ⟨hIR, by simp [sizes, hp], ?_, by omega⟩
  rw [← nsum_eq hIR]
  simp [nsum, ZMod.val_one]

end Verif.Limbs
