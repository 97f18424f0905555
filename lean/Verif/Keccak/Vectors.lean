import Verif.Keccak.Fast
import Verif.Keccak.WordsProps
import Verif.Keccak.MerkleProps

/-! # The Keccak-256 specification on the vectors of the repository's tests

The digests below are the constants of keccak256_test.go:15-16 and keccak_root_test.go:15-19; the kernel evaluates the
FIPS 202 specification on them (through `fast_keccak256`), so that the general theorems give what the circuits output on
these inputs, over every large enough field. -/

namespace Verif.Keccak
open Api Spec Spec.Keccak Fast
variable {p : ℕ} [Fact p.Prime]

/-- The `n` big-endian bytes of a number, `0x..` in the tests. -/
def beN : ℕ → ℕ → List ℕ
  | 0, _ => []
  | n + 1, v => v / 256 ^ n % 256 :: beN n v

/-- keccak256_test.go:15, 160 bytes. -/
def testData : List ℕ := beN 160 0xff00000000000000000000000000000000000000000000000000000000000010ff00000000000000000000000000000000000000000000000000000000000010ff00000000000000000000000000000000000000000000000000000000000010dceb0ddf468b489ddb3ea6a3ef6ec613df11711daeb7d7d390d1148f95054df8dceb0ddf468b489ddb3ea6a3ef6ec613df11711daeb7d7d390d1148f95054df8

theorem testData_lt : ∀ b ∈ testData, b < 256 := by decide +kernel

/-- keccak256_test.go:16. -/
theorem testData_digest : keccak256 (bytesToBits testData) = bytesToBits (beN 32 0x7f55bf028f17dea0c32680c64fd54365e4ded6f3eecec3f31a214e0a5d4025be) := by
  rw [fast_keccak256 _ testData_lt]
  exact congrArg bytesToBits (by decide +kernel)

/-- **C22, the repository's test vector.** The word gadget outputs the four words of
0x7f55bf028f17dea0c32680c64fd54365e4ded6f3eecec3f31a214e0a5d4025be, little endian, on the padded test data with round
index 1, over every field of more than 64 bits. -/
theorem C22_vector (hp : 2 ^ 64 ≤ p) : ∃ ws blocks, pad101 testData = some ws ∧
    uint64s2Blocks (p := p) ws = some blocks ∧ keccak256Words 10 blocks ((1 : ℕ) : F p) =
      some (([0xa0de178f02bf557f, 0x6543d54fc68026c3, 0xf3c3ceeef3d6dee4, 0xbe25405d0a4e211a] : List ℕ).map Nat.cast) := by
  obtain ⟨ws, h1, h2, -⟩ := C22_keccak256_words (p := p) hp testData testData_lt
  have hl : testData.length = 160 := by decide +kernel
  obtain ⟨blocks, h3, h4⟩ := h2 (by omega)
  refine ⟨ws, blocks, h1, h3, ?_⟩
  have e : digestWords (bytesToBits (beN 32 0x7f55bf028f17dea0c32680c64fd54365e4ded6f3eecec3f31a214e0a5d4025be)) =
      [0xa0de178f02bf557f, 0x6543d54fc68026c3, 0xf3c3ceeef3d6dee4, 0xbe25405d0a4e211a] := by decide +kernel
  rw [hl, testData_digest, e] at h4
  exact h4

/-- The digest of the empty string. -/
theorem empty_digest : keccak256 [] = bytesToBits (beN 32 0xc5d2460186f7233c927e7db2dcc703c0e500b653ca82273b7bfad8045d85a470) := by
  have := fast_keccak256 [] (by simp)
  exact this.trans (congrArg bytesToBits (by decide +kernel))

def zeroLeaf : List ℕ := List.replicate 32 0
def level1 : List ℕ := keccakBytesN (zeroLeaf ++ zeroLeaf)

theorem hashPair_bytes (a b : List ℕ) (ha : ∀ x ∈ a, x < 256) (hb : ∀ x ∈ b, x < 256) :
    hashPair (bytesToBits a) (bytesToBits b) = bytesToBits (keccakBytesN (a ++ b)) := by
  have h : hashPair (bytesToBits a) (bytesToBits b) = keccak256 (bytesToBits (a ++ b)) := by
    rw [bytesToBits_append]; rfl
  rw [h]
  exact fast_keccak256 _ (by intro x hx; rcases List.mem_append.1 hx with h | h; exacts [ha x h, hb x h])

theorem merkleRoot_eight {α : Type*} (H : α → α → α) (d x : α) :
    merkleRoot H d 3 (List.replicate 8 x) = H (H (H x x) (H x x)) (H (H x x) (H x x)) := rfl

/-- **C23, the repository's test vector.** The root of eight zero leaves is
0x21ddb9a356815c3fac1026b6dec5df3124afbadb485c9ba5a3e3398a04b7ba85. -/
theorem C23_vector (hp : 1 < p) : keccakMerkleRoot ((List.replicate 8 (bytesToBits zeroLeaf)).map fun x => x.map (ofB (p := p))) =
    some ((bytesToBits (beN 32 0x21ddb9a356815c3fac1026b6dec5df3124afbadb485c9ba5a3e3398a04b7ba85)).map ofB) := by
  have hz : ∀ x ∈ zeroLeaf, x < 256 := by decide
  rw [C23_keccakMerkleRoot 3 _ (by
    intro x hx
    rw [(List.mem_replicate.1 hx).2, bytesToBits_length]; rfl) (by rfl)]
  refine congrArg (fun l => some (List.map ofB l)) ?_
  rw [merkleRoot_eight]
  rw [hashPair_bytes _ _ hz hz]
  rw [hashPair_bytes _ _ (keccakBytesN_lt _) (keccakBytesN_lt _)]
  rw [hashPair_bytes _ _ (keccakBytesN_lt _) (keccakBytesN_lt _)]
  exact congrArg bytesToBits (by decide +kernel)

end Verif.Keccak
