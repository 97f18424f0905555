import Verif.Conv.Model
import Verif.Bits
import Verif.SlicesProps

/-! # C34: bit/byte conversions -/

namespace Verif.Conv
open Api Spec
variable {p : ℕ}

/-- The bytes of a bit string whose bytes are written least significant bit first. -/
def bytesLSB (n : ℕ) (bs : List Bool) : List ℕ := (chunks 8 n bs).map natOfBits

/-- The bytes of a bit string whose bytes are written most significant bit first. -/
def bytesMSB (n : ℕ) (bs : List Bool) : List ℕ := (chunks 8 n bs).map fun c => natOfBits c.reverse

/-- Big-endian number of a byte string. -/
def beNum (bytes : List ℕ) : ℕ := bytes.foldl (fun a b => 256 * a + b) 0

theorem foldlM_collect {α β : Type} (l : List α) (f : α → Option β) : ∀ acc : List β,
    l.foldlM (fun acc a => (f a).bind fun b => some (acc ++ [b])) acc = (l.mapM f).map (acc ++ ·) := by
  induction l with
  | nil => intro acc; simp
  | cons a l ih =>
    intro acc
    rw [List.foldlM_cons, List.mapM_cons]
    cases f a with
    | none => rfl
    | some b =>
      simp only [Option.bind_eq_bind, Option.bind_some]
      rw [ih]
      cases l.mapM f <;> simp

theorem slice_chunk {α : Type} (l : List α) (k n : ℕ) (hl : l.length = 8 * n) (hk : k < n) :
    slice l (8 * k) (8 * k + 8) = some ((l.drop (k * 8)).take 8) := by
  unfold slice
  rw [if_pos (by omega), Nat.mul_comm k 8, List.take_drop]

theorem chunks_map_range {α β : Type} (n : ℕ) (l : List α) (f : List α → β) :
    (chunks 8 n l).map f = (List.range n).map fun k => f ((l.drop (k * 8)).take 8) := by
  induction n generalizing l with
  | zero => rfl
  | succ n ih =>
    rw [chunks, List.map_cons, ih, List.range_succ_eq_map, List.map_cons, List.map_map]
    simp only [Nat.zero_mul, List.drop_zero, List.cons.injEq, true_and]
    apply List.map_congr_left
    intro k _
    simp only [Function.comp, List.drop_drop]
    rw [show 8 + k * 8 = k.succ * 8 by omega]

section
variable [Fact (1 < p)]

/-- **C34.** `Bits2Bytes` recomposes groups of eight bits, least significant first. -/
theorem C34_bits2Bytes (n : ℕ) (bs : List Bool) (hl : bs.length = 8 * n) :
    bits2Bytes (bs.map (ofB (p := p))) = some ((bytesLSB n bs).map fun x => ((x : ℕ) : F p)) := by
  unfold bits2Bytes
  simp only [Option.bind_eq_bind, Option.pure_def, Option.bind_assoc]
  have := foldlM_collect (List.range (((bs.map (ofB (p := p))).length + 7) / 8))
    (fun k => (slice (bs.map (ofB (p := p))) (8 * k) (8 * k + 8)).bind fromBinary) []
  simp only [Option.bind_assoc] at this
  rw [this]
  rw [mapM_some (g := fun k => ((natOfBits ((bs.drop (k * 8)).take 8) : ℕ) : F p))]
  · simp only [Option.map_some, List.nil_append, bytesLSB, List.map_map, Function.comp_def]
    rw [chunks_map_range, List.length_map, hl, show (8 * n + 7) / 8 = n by omega]
  · intro k hk
    have hk := List.mem_range.1 hk
    rw [List.length_map, hl] at hk
    rw [slice_chunk _ k n (by simpa using hl) (by omega)]
    simp only [Option.bind_some, ← List.map_drop, ← List.map_take, fromBinary_ofB]

/-- **C34.** `Bits2Bytes2` recomposes groups of eight bits, most significant first. -/
theorem C34_bits2Bytes2 (n : ℕ) (bs : List Bool) (hl : bs.length = 8 * n) :
    bits2Bytes2 (bs.map (ofB (p := p))) = some ((bytesMSB n bs).map fun x => ((x : ℕ) : F p)) := by
  unfold bits2Bytes2
  simp only [Option.bind_eq_bind, Option.pure_def, Slices.flip_eq, Option.bind_some]
  have := foldlM_collect (List.range (((bs.map (ofB (p := p))).length + 7) / 8))
    (fun k => (slice (bs.map (ofB (p := p))) (8 * k) (8 * k + 8)).bind fun s => fromBinary s.reverse) []
  simp only [Option.bind_assoc] at this
  rw [this]
  rw [mapM_some (g := fun k => ((natOfBits ((bs.drop (k * 8)).take 8).reverse : ℕ) : F p))]
  · simp only [Option.map_some, List.nil_append, bytesMSB, List.map_map, Function.comp_def]
    rw [chunks_map_range n bs (fun c => ((natOfBits c.reverse : ℕ) : F p)), List.length_map, hl,
      show (8 * n + 7) / 8 = n by omega]
  · intro k hk
    have hk := List.mem_range.1 hk
    rw [List.length_map, hl] at hk
    rw [slice_chunk _ k n (by simpa using hl) (by omega)]
    simp only [Option.bind_some, ← List.map_drop, ← List.map_take, ← List.map_reverse, fromBinary_ofB]

/-- **C34.** `Bits2BytesArray` recomposes groups of eight bits, least significant first, taking the groups from the
end: the little-endian bits of a number give its big-endian bytes. -/
theorem C34_bits2BytesArray (n : ℕ) (bs : List Bool) (hl : bs.length = 8 * n) :
    bits2BytesArray (bs.map (ofB (p := p))) = some ((bytesLSB n bs).reverse.map fun x => ((x : ℕ) : F p)) := by
  unfold bits2BytesArray
  simp only [Option.bind_eq_bind, Option.pure_def]
  have := foldlM_collect (List.range (((bs.map (ofB (p := p))).length + 7) / 8))
    (fun k => (sliceDown (bs.map (ofB (p := p))) ((bs.map (ofB (p := p))).length - 8 * k)).bind fromBinary) []
  simp only [Option.bind_assoc] at this
  rw [this]
  rw [mapM_some (g := fun k => ((natOfBits ((bs.drop ((n - 1 - k) * 8)).take 8) : ℕ) : F p))]
  · simp only [Option.map_some, List.nil_append, bytesLSB, List.map_reverse, List.map_map, Function.comp_def]
    rw [chunks_map_range n bs (fun c => ((natOfBits c : ℕ) : F p)), List.length_map, hl,
      show (8 * n + 7) / 8 = n by omega]
    congr 1
    apply List.ext_getElem
    · simp
    · intro i h1 h2
      simp only [List.length_map, List.length_range] at h1
      simp only [List.getElem_map, List.getElem_range, List.getElem_reverse, List.length_map, List.length_range]
  · intro k hk
    have hk := List.mem_range.1 hk
    rw [List.length_map, hl] at hk
    rw [List.length_map, hl, sliceDown, if_neg (by omega)]
    have := slice_chunk (bs.map (ofB (p := p))) (n - 1 - k) n (by simpa using hl) (by omega)
    rw [show 8 * (n - 1 - k) = 8 * n - 8 * k - 8 by omega, show 8 * n - 8 * k - 8 + 8 = 8 * n - 8 * k by omega] at this
    rw [this]
    simp only [Option.bind_some, ← List.map_drop, ← List.map_take, fromBinary_ofB]

theorem foldlM_none_of {α β : Type} (l : List α) (f : List β → α → Option (List β)) (a : α) (ha : a ∈ l)
    (h : ∀ acc, f acc a = none) : ∀ acc, l.foldlM f acc = none := by
  induction l with
  | nil => simp at ha
  | cons x l ih =>
    intro acc
    rw [List.foldlM_cons]
    rcases List.mem_cons.1 ha with rfl | h'
    · rw [h]; rfl
    · cases f acc x with
      | none => rfl
      | some acc' => exact ih h' acc'

/-- **C34.** A length that is not a multiple of eight is refused, whatever the bits. -/
theorem C34_length_guard (bits : List (F p)) (h : bits.length % 8 ≠ 0) :
    bits2Bytes bits = none ∧ bits2Bytes2 bits = none ∧ bits2BytesArray bits = none := by
  have hs : slice bits (8 * (bits.length / 8)) (8 * (bits.length / 8) + 8) = none := by
    unfold slice; rw [if_neg (by omega)]
  have hm : bits.length / 8 ∈ List.range ((bits.length + 7) / 8) := List.mem_range.2 (by omega)
  refine ⟨foldlM_none_of _ _ _ hm (fun acc => ?_) _, foldlM_none_of _ _ _ hm (fun acc => ?_) _,
    foldlM_none_of _ _ _ hm (fun acc => ?_) _⟩
  · simp only [hs]; rfl
  · simp only [hs]; rfl
  · simp only [sliceDown]
    rw [if_pos (by omega)]
    rfl

/-- **C34.** A non-boolean input is refused. -/
theorem C34_boolean_guard (bits : List (F p)) (x : F p) (hx : x ∈ bits) (hb : ¬ IsBit x) :
    bits2Bytes bits = none ∧ bits2Bytes2 bits = none ∧ bits2BytesArray bits = none := by
  by_cases hlen : bits.length % 8 = 0
  swap
  · exact C34_length_guard bits hlen
  obtain ⟨j, hj, rfl⟩ := List.mem_iff_getElem.1 hx
  have hn : bits.length = 8 * (bits.length / 8) := by omega
  have hm : j / 8 ∈ List.range ((bits.length + 7) / 8) := List.mem_range.2 (by omega)
  have hmem : bits[j] ∈ (bits.drop (j / 8 * 8)).take 8 := by
    rw [List.mem_iff_getElem]
    refine ⟨j % 8, by simp; omega, ?_⟩
    rw [List.getElem_take, List.getElem_drop]
    congr 1; omega
  have hs := slice_chunk bits (j / 8) (bits.length / 8) hn (by omega)
  have hf : fromBinary ((bits.drop (j / 8 * 8)).take 8) = none := by
    unfold fromBinary; rw [if_neg]; intro hall; exact hb (hall _ hmem)
  have hfr : fromBinary ((bits.drop (j / 8 * 8)).take 8).reverse = none := by
    unfold fromBinary; rw [if_neg]; intro hall; exact hb (hall _ (by simpa using hmem))
  refine ⟨foldlM_none_of _ _ _ hm (fun acc => ?_) _, foldlM_none_of _ _ _ hm (fun acc => ?_) _, ?_⟩
  · simp only [hs, Option.bind_eq_bind, Option.bind_some, hf]; rfl
  · simp only [hs, Option.bind_eq_bind, Option.bind_some, Slices.flip_eq, hfr]; rfl
  · have hm' : bits.length / 8 - 1 - j / 8 ∈ List.range ((bits.length + 7) / 8) := List.mem_range.2 (by omega)
    refine foldlM_none_of _ _ _ hm' (fun acc => ?_) _
    simp only [sliceDown]
    rw [if_neg (by omega)]
    have e1 : bits.length - 8 * (bits.length / 8 - 1 - j / 8) - 8 = 8 * (j / 8) := by omega
    have e2 : bits.length - 8 * (bits.length / 8 - 1 - j / 8) = 8 * (j / 8) + 8 := by omega
    rw [e1, e2, hs]
    simp only [Option.bind_eq_bind, Option.bind_some, hf]; rfl

theorem chunks_natOfBits_inj (n : ℕ) : ∀ (a b : List Bool), a.length = 8 * n → b.length = 8 * n →
    bytesLSB n a = bytesLSB n b → a = b := by
  induction n with
  | zero =>
    intro a b ha hb _
    have ha : a = [] := List.length_eq_zero_iff.1 (by simpa using ha)
    have hb : b = [] := List.length_eq_zero_iff.1 (by simpa using hb)
    rw [ha, hb]
  | succ n ih =>
    intro a b ha hb h
    simp only [bytesLSB, chunks, List.map_cons, List.cons.injEq] at h
    have h1 : a.take 8 = b.take 8 := natOfBits_inj (by simp; omega) h.1
    have h2 := ih (a.drop 8) (b.drop 8) (by simp; omega) (by simp; omega) h.2
    rw [← List.take_append_drop 8 a, h1, h2, List.take_append_drop]

theorem byte_lt (n : ℕ) : ∀ (bs : List Bool), ∀ x ∈ bytesLSB n bs, x < 256 := by
  induction n with
  | zero => intro bs x hx; simp [bytesLSB, chunks] at hx
  | succ n ih =>
    intro bs x hx
    simp only [bytesLSB, chunks, List.map_cons, List.mem_cons] at hx
    rcases hx with rfl | hx
    · have := natOfBits_lt (bs.take 8)
      have h8 : (bs.take 8).length ≤ 8 := by simp
      exact lt_of_lt_of_le this (Nat.pow_le_pow_right (by decide) h8)
    · exact ih _ x hx

/-- **C34 (injective).** Over a field larger than a byte, `Bits2Bytes` loses nothing: equal bytes come from equal bits. -/
theorem C34_bits2Bytes_injective (hp : 256 ≤ p) (a b : List Bool) (ha : a.length % 8 = 0) (hab : a.length = b.length)
    (h : bits2Bytes (a.map (ofB (p := p))) = bits2Bytes (b.map ofB)) : a = b := by
  have hl : a.length = 8 * (a.length / 8) := by omega
  rw [C34_bits2Bytes _ a hl, C34_bits2Bytes (a.length / 8) b (by omega), Option.some.injEq] at h
  refine chunks_natOfBits_inj (a.length / 8) a b hl (by omega) ?_
  have key : ∀ (x y : List ℕ), (∀ v ∈ x, v < 256) → (∀ v ∈ y, v < 256) →
      x.map (fun v => ((v : ℕ) : F p)) = y.map (fun v => ((v : ℕ) : F p)) → x = y := by
    intro x
    induction x with
    | nil => intro y _ _ h; cases y with
      | nil => rfl
      | cons => simp at h
    | cons u x ih =>
      intro y hx hy h
      cases y with
      | nil => simp at h
      | cons w y =>
        simp only [List.map_cons, List.cons.injEq] at h
        have hu := hx u (by simp)
        have hw := hy w (by simp)
        rw [(natCast_inj_of_lt (lt_of_lt_of_le hu hp) (lt_of_lt_of_le hw hp)).1 h.1,
          ih y (fun v hv => hx v (by simp [hv])) (fun v hv => hy v (by simp [hv])) h.2]
  exact key _ _ (byte_lt _ a) (byte_lt _ b) h

theorem natOfBits_beNum (n : ℕ) : ∀ (bs : List Bool), bs.length = 8 * n →
    natOfBits (flipChunks 8 bs).reverse = beNum (bytesLSB n bs) := by
  have key : ∀ (n : ℕ) (bs : List Bool) (acc : ℕ), bs.length = 8 * n →
      (bytesLSB n bs).foldl (fun a b => 256 * a + b) acc
        = natOfBits (((chunks 8 n bs).map List.reverse).flatten).reverse + 2 ^ (8 * n) * acc := by
    intro n
    induction n with
    | zero => intro bs acc _; simp [bytesLSB, chunks, natOfBits]
    | succ n ih =>
      intro bs acc hl
      simp only [bytesLSB, chunks, List.map_cons, List.foldl_cons, List.flatten_cons, List.reverse_append,
        List.reverse_reverse]
      have := ih (bs.drop 8) (256 * acc + natOfBits (bs.take 8)) (by simp; omega)
      rw [bytesLSB] at this
      rw [this, natOfBits_append]
      have hfl : (((chunks 8 n (bs.drop 8)).map List.reverse).flatten).reverse.length = 8 * n := by
        rw [List.length_reverse, Slices.flipChunks_length 8 n _ (by simp; omega)]; omega
      rw [hfl, show 8 * (n + 1) = 8 * n + 8 by ring, pow_add]
      ring
  intro bs hl
  have := key n bs 0 hl
  simp only [Nat.mul_zero, Nat.add_zero] at this
  rw [beNum, this, flipChunks, hl, Nat.mul_div_cancel_left _ (by decide : 0 < 8)]

/-- **C34.** `Bits2Uint128s` of 256 bits (32 bytes, each least significant bit first) is the pair of big-endian numbers
of the first and of the last 16 bytes. -/
theorem C34_bits2Uint128s (bs : List Bool) (hl : bs.length = 256) :
    bits2Uint128s (bs.map (ofB (p := p))) =
      some [((beNum ((bytesLSB 32 bs).take 16) : ℕ) : F p), ((beNum ((bytesLSB 32 bs).drop 16) : ℕ) : F p)] := by
  have h1 : (bs.take 128).length = 8 * 16 := by simp [hl]
  have h2 : (bs.drop 128).length = 8 * 16 := by simp [hl]
  have hfc : flipChunks 8 (bs.map (ofB (p := p))) =
      (flipChunks 8 (bs.take 128)).map ofB ++ (flipChunks 8 (bs.drop 128)).map ofB := by
    have e : ∀ (n : ℕ) (l : List Bool), ((chunks 8 n (l.map (ofB (p := p)))).map List.reverse).flatten
        = (((chunks 8 n l).map List.reverse).flatten).map ofB := by
      intro n
      induction n with
      | zero => intro l; rfl
      | succ n ih =>
        intro l
        simp only [chunks, List.map_cons, List.flatten_cons, List.map_append, ← List.map_drop, ih, ← List.map_take,
          ← List.map_reverse]
    have c : ∀ (n m : ℕ) (l : List Bool), l.length = 8 * (n + m) →
        chunks 8 (n + m) l = chunks 8 n (l.take (8 * n)) ++ chunks 8 m (l.drop (8 * n)) := by
      intro n
      induction n with
      | zero => intro m l _; simp [chunks]
      | succ n ih =>
        intro m l hl
        rw [show n + 1 + m = (n + m) + 1 by omega, chunks, chunks, ih m (l.drop 8) (by simp; omega)]
        simp only [List.cons_append, List.take_take, List.drop_take, List.drop_drop]
        rw [show min 8 (8 * (n + 1)) = 8 by omega, show 8 * (n + 1) - 8 = 8 * n by omega,
          show 8 + 8 * n = 8 * (n + 1) by ring]
    unfold flipChunks
    rw [e, List.length_map, hl, h1, h2, show (256 : ℕ) / 8 = 16 + 16 from rfl, c 16 16 bs (by omega),
      List.map_append, List.flatten_append, List.map_append]
  have l1 : (flipChunks 8 (bs.take 128)).length = 128 := by
    have := Slices.flipChunks_length 8 16 (bs.take 128) (by rw [h1])
    unfold flipChunks; rw [h1]; exact this
  have l2 : (flipChunks 8 (bs.drop 128)).length = 128 := by
    have := Slices.flipChunks_length 8 16 (bs.drop 128) (by rw [h2])
    unfold flipChunks; rw [h2]; exact this
  unfold bits2Uint128s
  rw [Slices.flipSubSlice_eq, if_pos ⟨by decide, by simp [hl]⟩]
  simp only [Option.bind_eq_bind, Option.bind_some, hfc, Slices.flip_eq]
  have s1 : slice ((flipChunks 8 (bs.take 128)).map (ofB (p := p)) ++ (flipChunks 8 (bs.drop 128)).map ofB) 0 128
      = some ((flipChunks 8 (bs.take 128)).map ofB) := by
    unfold slice
    rw [if_pos (by simp [l1, l2]), List.drop_zero, List.take_append_of_le_length (by simp [l1]),
      List.take_of_length_le (by simp [l1])]
  have s2 : slice ((flipChunks 8 (bs.take 128)).map (ofB (p := p)) ++ (flipChunks 8 (bs.drop 128)).map ofB) 128
      ((flipChunks 8 (bs.take 128)).map (ofB (p := p)) ++ (flipChunks 8 (bs.drop 128)).map ofB).length
      = some ((flipChunks 8 (bs.drop 128)).map ofB) := by
    unfold slice
    rw [if_pos (by simp [l1, l2]), List.take_length, List.drop_append_of_le_length (by simp [l1]),
      List.drop_of_length_le (by simp [l1]), List.nil_append]
  rw [s1, s2]
  simp only [Option.bind_some, ← List.map_reverse, fromBinary_ofB, Option.pure_def]
  rw [natOfBits_beNum 16 _ h1, natOfBits_beNum 16 _ h2]
  have t1 : bytesLSB 16 (bs.take 128) = (bytesLSB 32 bs).take 16 := by
    unfold bytesLSB
    rw [chunks_map_range, chunks_map_range, ← List.map_take, List.take_range]
    apply List.map_congr_left
    intro k hk
    have hk := List.mem_range.1 hk
    rw [List.drop_take, List.take_take, show min 8 (128 - k * 8) = 8 by omega]
  have t2 : bytesLSB 16 (bs.drop 128) = (bytesLSB 32 bs).drop 16 := by
    unfold bytesLSB
    rw [chunks_map_range, chunks_map_range, ← List.map_drop]
    apply List.ext_getElem
    · simp
    · intro i h1 h2
      simp only [List.getElem_map, List.getElem_range, List.getElem_drop, List.drop_drop]
      rw [show 128 + i * 8 = (16 + i) * 8 by omega]
  rw [t1, t2]

/-- **C34, negated.** `Bits2Nibbles` panics on every non-empty input. -/
theorem C34_bits2Nibbles_panics (bits : List (F p)) (h : bits ≠ []) : bits2Nibbles bits = none := by
  have hl : 0 < bits.length := List.length_pos_iff.2 h
  refine foldlM_none_of _ _ 0 (List.mem_range.2 (by omega)) (fun acc => ?_) _
  cases slice bits (8 * 0) (8 * 0 + 4) <;> rfl

end

example : bits2Bytes (p := 257) [1, 0, 1, 0, 0, 0, 0, 1] = some [133] := by decide
example : bits2Bytes2 (p := 257) [1, 0, 1, 0, 0, 0, 0, 1] = some [161] := by decide
example : bits2BytesArray (p := 257) [1, 0, 0, 0, 0, 0, 0, 0, 0, 1, 0, 0, 0, 0, 0, 0] = some [2, 1] := by decide
example : bytesLSB 2 [true, false, false, false, false, false, false, false,
    false, true, false, false, false, false, false, false] = [1, 2] := by decide

end Verif.Conv
