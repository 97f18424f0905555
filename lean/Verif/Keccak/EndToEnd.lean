import Verif.Keccak.PadBitsProps

/-! # C22: padding gadget followed by hashing gadget -/

namespace Verif.Keccak
open Api Spec.Keccak
variable {p : ℕ} [Fact p.Prime]

/-- **C22 (end to end).** `Pad101Bits` followed by `Keccak256Bits` with the circuit's full capacity and the index
of the last message block returns Keccak-256 of the message, for every byte length other than 135 modulo 136,
whatever elements follow the message in the input buffer. -/
theorem C22_pad_then_hash_partial (w mn mx : ℕ) (hw : w ∈ [1, 2, 4, 8]) (hmn : mn % (8 / w) = 0)
    (hmx : mx % (8 / w) = 0) (hp : mx + 256 < p) (bs junk : List ℕ) (hb : ∀ b ∈ bs, b < 256)
    (hj : ∀ d ∈ junk, d < 2 ^ w) (hlen : (digitsOf w bs ++ junk).length = mx)
    (hlo : mn ≤ (digitsOf w bs).length) (h135 : bs.length % 136 ≠ 135) :
    (pad101Bits w mn mx ((digitsOf w bs ++ junk).map (fun d : ℕ => (d : F p))) ((digitsOf w bs).length : F p) >>=
      fun padded => keccak256Bits ((mx * w + 8) / 1088 + 1) ((bs.length / 136 : ℕ) : F p) padded) =
      some ((keccak256 (bytesToBits bs)).map ofB) := by
  have hmm : mn ≤ mx := by rw [← hlen, List.length_append]; omega
  have hw' : 1 ≤ w ∧ w ≤ 8 ∧ 8 / w * w = 8 := by
    simp only [List.mem_cons, List.not_mem_nil, or_false] at hw
    rcases hw with rfl | rfl | rfl | rfl <;> decide
  have h8 : mx * w ≤ mx * 8 := Nat.mul_le_mul_left _ hw'.2.1
  have hbm : 8 * bs.length ≤ mx * w := by
    rw [← hlen, List.length_append, digitsOf_length, Nat.add_mul]
    have : 8 / w * bs.length * w = 8 * bs.length := by
      rw [Nat.mul_right_comm, hw'.2.2]
    omega
  have hx := (C21_pad101Bits_exact (p := p) w mn mx hw hmm hmn hmx hp _ (by simpa using hlen)
    ((digitsOf w bs).length : F p) _).2 ⟨bs, junk, hb, hj, rfl, rfl, hlo, rfl⟩
  rw [hx]
  simp only [Option.bind_eq_bind, Option.bind_some]
  have hpl := C20_pad101Bytes_length bs
  rw [rowBytes_pad bs _ h135, bytesToBits_append, C20_pad101Bytes]
  have hT : outBytes w mx * 8 = ((mx * w + 8) / 1088 + 1) * 1088 := by unfold outBytes; omega
  apply C22_keccak256Bits_digest
  · omega
  · rw [← C20_pad101Bytes, ← bytesToBits_append, bytesToBits_length, ← hT, List.length_append,
      List.length_replicate]
    have : (pad101Bytes bs).length ≤ outBytes w mx := by
      unfold outBytes
      omega
    omega
  · rw [ZMod.val_natCast_of_lt (by omega), ← C20_pad101Bytes, bytesToBits_length]
    omega

/-- Hypotheses of the theorem are met by a 3-byte message given as 6 nibbles in a buffer of 8. -/
example (h : 1000 < p) : (pad101Bits 4 2 8 (([1, 2, 3, 4, 5, 6, 9, 9] : List ℕ).map (fun d : ℕ => (d : F p)))
    ((6 : ℕ) : F p) >>= fun padded => keccak256Bits 1 ((0 : ℕ) : F p) padded) =
    some ((keccak256 (bytesToBits [0x12, 0x34, 0x56])).map ofB) :=
  C22_pad_then_hash_partial 4 2 8 (by decide) (by decide) (by decide) (by omega) [0x12, 0x34, 0x56] [9, 9]
    (by decide) (by decide) (by decide) (by decide) (by decide)

end Verif.Keccak
