import Verif.Keccak.WordsProps

/-! # C22: nibble strings to Keccak words -/

namespace Verif.Keccak
open Api Spec.Keccak
variable {p : ℕ} [Fact p.Prime]

theorem digits4_get (bytes : List ℕ) (rest : List ℕ) (k : ℕ) (hk : k < bytes.length) :
    (digitsOf 4 bytes ++ rest)[2 * k]? = some (bytes[k] / 16 % 16) ∧
    (digitsOf 4 bytes ++ rest)[2 * k + 1]? = some (bytes[k] % 16) := by
  induction bytes generalizing k with
  | nil => simp at hk
  | cons x l ih =>
    have e : digitsOf 4 (x :: l) ++ rest = x / 16 % 16 :: x % 16 :: (digitsOf 4 l ++ rest) := by
      simp [digitsOf, byteDigits, List.range_succ]
    rw [e]
    cases k with
    | zero => simp
    | succ k =>
      have := ih k (by simpa using hk)
      rw [show 2 * (k + 1) = 2 * k + 2 by ring]
      simpa using this

set_option maxRecDepth 100000 in
theorem nibble_bits (b : ℕ) (hb : b < 256) :
    ((List.range 4).map fun i => (b % 16).testBit i) ++ ((List.range 4).map fun i => (b / 16 % 16).testBit i) =
      (List.range 8).map b.testBit := by
  have h : ∀ b : Fin 256, ((List.range 4).map fun i => (b.val % 16).testBit i) ++
      ((List.range 4).map fun i => (b.val / 16 % 16).testBit i) = (List.range 8).map b.val.testBit := by
    decide
  exact h ⟨b, hb⟩

/-- **C22.** The nibble-to-word helpers (`RecomposeHexToKeccakU64s`, `NibblesToU64Array*`): on the nibbles of
`8k` bytes followed by fewer than 16 further nibbles (which are silently dropped), the result is the `k`
little-endian words of the bytes, zero-extended to `17*width` words; more words than that panic. -/
theorem C22_nibblesToWords (hp : 2 ^ 64 ≤ p) (width : ℕ) (bytes rest : List ℕ) (hb : ∀ b ∈ bytes, b < 256)
    (hl : bytes.length % 8 = 0) (hrest : rest.length < 16) :
    nibblesToWords (p := p) width ((digitsOf 4 bytes ++ rest).map fun d : ℕ => (d : F p)) =
      if width * 17 < bytes.length / 8 then none
      else some (((List.range (width * 17)).map fun k =>
        ((natOfBits (bytesToBits ((bytes.drop (8 * k)).take 8)) : ℕ) : F p))) := by
  have hn : ((digitsOf 4 bytes ++ rest).map fun d : ℕ => (d : F p)).length * 4 / 64 = bytes.length / 8 := by
    rw [List.length_map, List.length_append, digitsOf_length]; omega
  have hp' : 256 ≤ p := le_trans (by norm_num) hp
  unfold nibblesToWords
  rw [hn]
  have hm : (List.range (bytes.length / 8)).mapM (fun i => do
      let u64bits ← (List.range 8).foldlM (fun (acc : List (F p)) j => do
        let h1 ← ((digitsOf 4 bytes ++ rest).map fun d : ℕ => (d : F p))[i * 16 + j * 2]?
        let part1 ← toBinary h1 4
        let h2 ← ((digitsOf 4 bytes ++ rest).map fun d : ℕ => (d : F p))[i * 16 + j * 2 + 1]?
        let part2 ← toBinary h2 4
        pure (acc ++ (part2 ++ part1))) []
      fromBinary u64bits) = some ((List.range (bytes.length / 8)).map fun k =>
        ((natOfBits (bytesToBits ((bytes.drop (8 * k)).take 8)) : ℕ) : F p)) := by
    apply mapM_some
    intro i hi
    have hi := List.mem_range.1 hi
    have := foldlM_range_some (f := fun (acc : List (F p)) j => do
        let h1 ← ((digitsOf 4 bytes ++ rest).map fun d : ℕ => (d : F p))[i * 16 + j * 2]?
        let part1 ← toBinary h1 4
        let h2 ← ((digitsOf 4 bytes ++ rest).map fun d : ℕ => (d : F p))[i * 16 + j * 2 + 1]?
        let part2 ← toBinary h2 4
        pure (acc ++ (part2 ++ part1)))
      (fun n => (bytesToBits ((bytes.drop (8 * i)).take n)).map (ofB (p := p))) 8 []
      (by simp [bytesToBits]) ?_
    · rw [this]
      simp only [Option.bind_eq_bind, Option.bind_some]
      rw [fromBinary_ofB]
    · intro j hj
      have hk : 8 * i + j < bytes.length := by omega
      obtain ⟨d1, d2⟩ := digits4_get bytes rest (8 * i + j) hk
      have hx : bytes[8 * i + j] < 256 := hb _ (List.getElem_mem hk)
      rw [List.getElem?_map, List.getElem?_map, show i * 16 + j * 2 + 1 = 2 * (8 * i + j) + 1 by ring,
        show i * 16 + j * 2 = 2 * (8 * i + j) by ring, d1, d2]
      simp only [Option.map_some, Option.bind_eq_bind, Option.bind_some]
      rw [toBinary_cast _ _ (by omega), if_pos (by omega), toBinary_cast _ _ (by omega), if_pos (by omega)]
      simp only [Option.bind_some, Option.pure_def, Option.some.injEq]
      have e1 : (bytes.drop (8 * i)).take (j + 1) = (bytes.drop (8 * i)).take j ++ [bytes[8 * i + j]] := by
        rw [List.take_add_one, List.getElem?_drop, List.getElem?_eq_getElem hk]; rfl
      rw [e1, bytesToBits_append, List.map_append]
      congr 1
      rw [bytesToBits_cons, show bytesToBits [] = [] from rfl, List.append_nil, ← nibble_bits _ hx]
      simp only [List.map_append, List.map_map]
      rfl
  rw [hm]
  simp only [Option.bind_eq_bind, Option.bind_some, List.length_map, List.length_range, Option.pure_def]
  split
  · rfl
  · next hle =>
    rw [Option.some.injEq]
    apply List.ext_getElem
    · simp; omega
    · intro k h1 h2
      rw [List.getElem_append]
      split
      · next hk => simp
      · next hk =>
        have hk : bytes.length / 8 ≤ k := by simpa using hk
        rw [List.getElem_replicate, List.getElem_map, List.getElem_range,
          List.drop_of_length_le (by omega)]
        simp [bytesToBits, natOfBits]

example (hp : 2 ^ 64 ≤ p) : nibblesToWords (p := p) 1
    ((digitsOf 4 [1, 2, 0, 0, 0, 0, 0, 0xff] ++ [5]).map fun d : ℕ => (d : F p)) =
    some ((List.range 17).map fun k =>
      ((natOfBits (bytesToBits (([1, 2, 0, 0, 0, 0, 0, 0xff].drop (8 * k)).take 8)) : ℕ) : F p)) := by
  rw [C22_nibblesToWords hp 1 _ [5] (by decide) (by decide) (by decide)]
  rfl

end Verif.Keccak
