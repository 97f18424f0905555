import Verif.Common.Abi
import Verif.Common.QueryIdProps

/-! # C39: ABI encoding of chunk proofs -/

namespace Verif.Abi
open Compose

/-! ## Specification -/

/-- A 32-byte big-endian word. -/
def IsWord (w : List ℕ) (v : ℕ) : Prop := w.length = 32 ∧ Hex.Bytes w ∧ Hex.beVal w = v

/-- The numbers a chunk proof carries, in ABI order: A, B, C, an empty commitment, the three hashes in halves
of 128 bits (high first), and the two block numbers. -/
def words (p : Chunk) : List ℕ :=
  [Hex.hex2BigInt p.proof.a.1, Hex.hex2BigInt p.proof.a.2,
   Hex.hex2BigInt p.proof.b.1.1, Hex.hex2BigInt p.proof.b.1.2,
   Hex.hex2BigInt p.proof.b.2.1, Hex.hex2BigInt p.proof.b.2.2,
   Hex.hex2BigInt p.proof.c.1, Hex.hex2BigInt p.proof.c.2,
   0, 0,
   Hex.beVal (Hex.hex2Hash p.chunkRoot) / 2 ^ 128, Hex.beVal (Hex.hex2Hash p.chunkRoot) % 2 ^ 128,
   Hex.beVal (Hex.hex2Hash p.prevHash) / 2 ^ 128, Hex.beVal (Hex.hex2Hash p.prevHash) % 2 ^ 128,
   Hex.beVal (Hex.hex2Hash p.endHash) / 2 ^ 128, Hex.beVal (Hex.hex2Hash p.endHash) % 2 ^ 128,
   p.startBlockNum, p.endBlockNum]

/-- Every proof coordinate has at most 32 bytes. -/
def Fits (p : Proof) : Prop :=
  ∀ s ∈ [p.a.1, p.a.2, p.b.1.1, p.b.1.2, p.b.2.1, p.b.2.2, p.c.1, p.c.2], (Hex.hex2Bytes s).length ≤ 32

/-! ## Proofs -/

theorem pad_iff (b r : List ℕ) : Hex.padBytes 32 b = some r ↔
    b.length ≤ 32 ∧ r = List.replicate (32 - b.length) 0 ++ b := by
  unfold Hex.padBytes
  by_cases h1 : b.length = 32
  · rw [if_pos h1]; simp [h1, eq_comm]
  · rw [if_neg h1]
    by_cases h2 : 32 < b.length
    · rw [if_pos h2]; simp; omega
    · rw [if_neg h2]; simp only [Option.some.injEq]
      constructor
      · rintro rfl; exact ⟨by omega, rfl⟩
      · rintro ⟨-, rfl⟩; rfl

theorem fold_pad (l : List (List ℕ)) (acc : List ℕ) :
    ((∀ b ∈ l, b.length ≤ 32) → l.foldlM (fun ret arg => do let w ← Hex.padBytes 32 arg; pure (ret ++ w)) acc =
      some (acc ++ l.flatMap fun b => List.replicate (32 - b.length) 0 ++ b)) ∧
    ((∃ b ∈ l, 32 < b.length) → l.foldlM (fun ret arg => do let w ← Hex.padBytes 32 arg; pure (ret ++ w)) acc = none) := by
  induction l generalizing acc with
  | nil => constructor
           · intro _; simp
           · rintro ⟨b, hb, -⟩; simp at hb
  | cons b l ih =>
    rw [List.foldlM_cons]
    constructor
    · intro h
      have hb := (pad_iff b _).2 ⟨h b (by simp), rfl⟩
      rw [hb]
      simp only [Option.bind_eq_bind, Option.bind_some, Option.pure_def]
      have := (ih (acc ++ (List.replicate (32 - b.length) 0 ++ b))).1 (fun c hc => h c (by simp [hc]))
      simp only [Option.bind_eq_bind, Option.pure_def] at this
      rw [this, List.flatMap_cons, List.append_assoc acc]
    · rintro ⟨c, hc, h⟩
      cases e : Hex.padBytes 32 b with
      | none => rfl
      | some w =>
        simp only [Option.bind_eq_bind, Option.bind_some, Option.pure_def]
        rcases List.mem_cons.1 hc with rfl | hc
        · have := (pad_iff c w).1 e; omega
        · exact (ih (acc ++ w)).2 ⟨c, hc, h⟩

theorem flat_words (l : List (List ℕ)) (h : ∀ b ∈ l, b.length ≤ 32) (hb : ∀ b ∈ l, Hex.Bytes b) (i : ℕ)
    (hi : i < l.length) :
    let out := l.flatMap fun b => List.replicate (32 - b.length) 0 ++ b
    out.length = 32 * l.length ∧ IsWord ((out.drop (32 * i)).take 32) (Hex.beVal l[i]) := by
  induction l generalizing i with
  | nil => simp at hi
  | cons b l ih =>
    have hlen : ∀ l : List (List ℕ), (∀ b ∈ l, b.length ≤ 32) →
        (l.flatMap fun b => List.replicate (32 - b.length) 0 ++ b).length = 32 * l.length := by
      intro l
      induction l with
      | nil => intro _; rfl
      | cons b l ih =>
        intro h
        have := h b (by simp)
        rw [List.flatMap_cons, List.length_append, ih (fun c hc => h c (by simp [hc])), List.length_append,
          List.length_replicate, List.length_cons]
        omega
    refine ⟨hlen _ h, ?_⟩
    have hb0 := h b (by simp)
    have l0 : (List.replicate (32 - b.length) 0 ++ b).length = 32 := by
      rw [List.length_append, List.length_replicate]; omega
    rw [List.flatMap_cons]
    cases i with
    | zero =>
      rw [Nat.mul_zero, List.drop_zero, List.take_append_of_le_length (by omega), List.take_of_length_le (by omega)]
      exact ⟨l0, QueryId.padded_bytes _ (hb b (by simp)) _, Hex.beVal_replicate_zero _ _⟩
    | succ i =>
      have hd : (List.replicate (32 - b.length) 0 ++ b).drop 32 = [] := List.drop_of_length_le (by omega)
      rw [show 32 * (i + 1) = 32 + 32 * i by ring, ← List.drop_drop, List.drop_append_of_le_length (by omega),
        hd, List.nil_append]
      exact (ih (fun c hc => h c (by simp [hc])) (fun c hc => hb c (by simp [hc])) i (by simpa using hi)).2

theorem halves (b : List ℕ) (hb : Hex.Bytes b) (hl : b.length = 32) :
    Hex.beVal (b.take 16) = Hex.beVal b / 2 ^ 128 ∧ Hex.beVal (b.drop 16) = Hex.beVal b % 2 ^ 128 := by
  have e := Hex.beVal_append (b.take 16) (b.drop 16)
  have l2 : (b.drop 16).length = 16 := by rw [List.length_drop]; omega
  rw [List.take_append_drop, l2] at e
  have h2 := Hex.beVal_lt (b.drop 16) (fun x hx => hb x (List.mem_of_mem_drop hx))
  rw [l2] at h2
  rw [show (256 : ℕ) ^ 16 = 2 ^ 128 by norm_num] at *
  omega

theorem toInt64_abs (x : ℕ) (h : x < 2 ^ 64) : (toInt64 x).natAbs = if x < 2 ^ 63 then x else 2 ^ 64 - x := by
  unfold toInt64
  split <;> omega

/-- the words with block numbers as the code encodes them -/
def wordsG (p : Chunk) (a b : ℕ) : List ℕ := words { p with startBlockNum := a, endBlockNum := b }

theorem words_eq (p : Chunk) : words p = wordsG p p.startBlockNum p.endBlockNum := rfl

theorem args_ok (p : Chunk) (hf : Fits p.proof) (h1 : p.startBlockNum < 2 ^ 64) (h2 : p.endBlockNum < 2 ^ 64) :
    (∀ b ∈ args p, b.length ≤ 32) ∧ (∀ b ∈ args p, Hex.Bytes b) ∧
    (args p).map Hex.beVal = wordsG p (toInt64 p.startBlockNum).natAbs (toInt64 p.endBlockNum).natAbs := by
  have hB := QueryId.hex2Bytes_bytes
  have hH : ∀ s, (Hex.hex2Hash s).length = 32 ∧ Hex.Bytes (Hex.hex2Hash s) := fun s =>
    ⟨Hex.toFixed_length _ _, Hex.toFixed_bytes _ _ (hB s)⟩
  have hN : ∀ x, x < 2 ^ 64 → (blockNumBytes x).length ≤ 32 := by
    intro x hx
    unfold blockNumBytes
    rw [QueryId.natBytes_length, toInt64_abs x hx]
    split <;> omega
  have tk : ∀ s, ((Hex.hex2Hash s).take 16).length ≤ 32 ∧ ((Hex.hex2Hash s).drop 16).length ≤ 32 := by
    intro s; rw [List.length_take, List.length_drop, (hH s).1]; omega
  have bk : ∀ s, Hex.Bytes ((Hex.hex2Hash s).take 16) ∧ Hex.Bytes ((Hex.hex2Hash s).drop 16) := fun s =>
    ⟨fun x hx => (hH s).2 x (List.mem_of_mem_take hx), fun x hx => (hH s).2 x (List.mem_of_mem_drop hx)⟩
  unfold Fits at hf
  simp only [List.mem_cons, List.not_mem_nil, or_false, forall_eq_or_imp, forall_eq] at hf
  obtain ⟨f1, f2, f3, f4, f5, f6, f7, f8⟩ := hf
  refine ⟨?_, ?_, ?_⟩
  · unfold args
    simp only [List.cons_append, List.nil_append, List.mem_cons, List.not_mem_nil, or_false, forall_eq_or_imp, forall_eq]
    exact ⟨f1, f2, f3, f4, f5, f6, f7, f8, by simp, by simp, (tk _).1, (tk _).2, (tk _).1, (tk _).2, (tk _).1, (tk _).2,
      hN _ h1, hN _ h2⟩
  · unfold args
    simp only [List.cons_append, List.nil_append, List.mem_cons, List.not_mem_nil, or_false, forall_eq_or_imp, forall_eq]
    have e : Hex.Bytes [] := by intro x hx; simp at hx
    exact ⟨hB _, hB _, hB _, hB _, hB _, hB _, hB _, hB _, e, e, (bk _).1, (bk _).2, (bk _).1, (bk _).2, (bk _).1,
      (bk _).2, QueryId.natBytes_bytes _, QueryId.natBytes_bytes _⟩
  · unfold args wordsG words Hex.hex2BigInt blockNumBytes
    simp only [List.cons_append, List.nil_append, List.map_cons, List.map_nil,
      (halves _ (hH p.chunkRoot).2 (hH _).1).1, (halves _ (hH p.chunkRoot).2 (hH _).1).2,
      (halves _ (hH p.prevHash).2 (hH _).1).1, (halves _ (hH p.prevHash).2 (hH _).1).2,
      (halves _ (hH p.endHash).2 (hH _).1).1, (halves _ (hH p.endHash).2 (hH _).1).2, QueryId.natBytes_val]
    rfl

theorem encode_some (p : Chunk) (hf : Fits p.proof) (h1 : p.startBlockNum < 2 ^ 64) (h2 : p.endBlockNum < 2 ^ 64) :
    encodeABI p = some ((args p).flatMap fun b => List.replicate (32 - b.length) 0 ++ b) := by
  unfold encodeABI
  rw [(fold_pad _ _).1 (args_ok p hf h1 h2).1, List.nil_append]

theorem encode_words (p : Chunk) (h1 : p.startBlockNum < 2 ^ 64) (h2 : p.endBlockNum < 2 ^ 64) (hf : Fits p.proof)
    (out : List ℕ) (h : encodeABI p = some out) :
    out.length = 576 ∧ ∀ i, i < 18 → IsWord ((out.drop (32 * i)).take 32)
      ((wordsG p (toInt64 p.startBlockNum).natAbs (toInt64 p.endBlockNum).natAbs).getD i 0) := by
  obtain ⟨a1, a2, a3⟩ := args_ok p hf h1 h2
  rw [encode_some p hf h1 h2] at h
  have hl : (args p).length = 18 := rfl
  refine ⟨?_, fun i hi => ?_⟩
  · rw [← Option.some.inj h, (flat_words _ a1 a2 0 (by omega)).1, hl]
  · have := (flat_words _ a1 a2 i (by omega)).2
    rw [Option.some.inj h] at this
    rw [← a3]
    have e : ((args p).map Hex.beVal).getD i 0 = Hex.beVal ((args p)[i]'(by omega)) := by
      rw [List.getD_eq_getElem?_getD, List.getElem?_map, List.getElem?_eq_getElem (by omega)]; rfl
    rw [e]; exact this

/-- **C39**: `EncodeABI` panics exactly when a coordinate of A, B or C has more than 32 bytes. -/
theorem C39_panics (p : Chunk) (h1 : p.startBlockNum < 2 ^ 64) (h2 : p.endBlockNum < 2 ^ 64) :
    encodeABI p = none ↔ ¬ Fits p.proof := by
  constructor
  · intro h hf; rw [encode_some p hf h1 h2] at h; simp at h
  · intro h
    unfold encodeABI
    apply (fold_pad _ _).2
    unfold Fits at h
    push Not at h
    obtain ⟨s, hs, hl⟩ := h
    refine ⟨Hex.hex2Bytes s, ?_, hl⟩
    unfold args
    simp only [List.mem_cons, List.not_mem_nil, or_false] at hs
    rcases hs with rfl | rfl | rfl | rfl | rfl | rfl | rfl | rfl <;> simp

/-- **C39**: otherwise, for block numbers below `2^63`, the encoding has 576 bytes: 18 big-endian 32-byte words
holding A, B, C, two zeros for the commitment, the three hashes as high and low halves, and the block numbers. -/
theorem C39_layout (p : Chunk) (hf : Fits p.proof) (h1 : p.startBlockNum < 2 ^ 63) (h2 : p.endBlockNum < 2 ^ 63) :
    ∃ out, encodeABI p = some out ∧ out.length = 576 ∧
      ∀ i, i < 18 → IsWord ((out.drop (32 * i)).take 32) ((words p).getD i 0) := by
  have a1 : p.startBlockNum < 2 ^ 64 := by omega
  have a2 : p.endBlockNum < 2 ^ 64 := by omega
  refine ⟨_, encode_some p hf a1 a2, ?_⟩
  have := encode_words p a1 a2 hf _ (encode_some p hf a1 a2)
  rwa [toInt64_abs _ a1, toInt64_abs _ a2, if_pos h1, if_pos h2, ← words_eq] at this

/-- **C39**: two chunk proofs with block numbers below `2^63` and the same encoding have the same A, B and C, the
same three hashes and the same block numbers. -/
theorem C39_injective (p q : Chunk) (h1 : p.startBlockNum < 2 ^ 63) (h2 : p.endBlockNum < 2 ^ 63)
    (g1 : q.startBlockNum < 2 ^ 63) (g2 : q.endBlockNum < 2 ^ 63) (out : List ℕ)
    (hp : encodeABI p = some out) (hq : encodeABI q = some out) :
    (asBigInts p.proof).1 = (asBigInts q.proof).1 ∧ (asBigInts p.proof).2.1 = (asBigInts q.proof).2.1 ∧
    (asBigInts p.proof).2.2.1 = (asBigInts q.proof).2.2.1 ∧
    Hex.hex2Hash p.chunkRoot = Hex.hex2Hash q.chunkRoot ∧ Hex.hex2Hash p.prevHash = Hex.hex2Hash q.prevHash ∧
    Hex.hex2Hash p.endHash = Hex.hex2Hash q.endHash ∧ p.startBlockNum = q.startBlockNum ∧
    p.endBlockNum = q.endBlockNum := by
  have fit : ∀ p : Chunk, p.startBlockNum < 2 ^ 63 → p.endBlockNum < 2 ^ 63 → encodeABI p = some out → Fits p.proof := by
    intro p a b h
    by_contra hn
    rw [(C39_panics p (by omega) (by omega)).2 hn] at h; simp at h
  obtain ⟨o1, e1, -, w1⟩ := C39_layout p (fit p h1 h2 hp) h1 h2
  obtain ⟨o2, e2, -, w2⟩ := C39_layout q (fit q g1 g2 hq) g1 g2
  rw [hp] at e1; rw [hq] at e2
  obtain rfl := Option.some.inj e1
  obtain rfl := Option.some.inj e2
  have key : ∀ i, i < 18 → (words p).getD i 0 = (words q).getD i 0 := fun i hi =>
    (w1 i hi).2.2.symm.trans (w2 i hi).2.2
  have hH : ∀ s t : List ℕ, Hex.beVal (Hex.hex2Hash s) / 2 ^ 128 = Hex.beVal (Hex.hex2Hash t) / 2 ^ 128 →
      Hex.beVal (Hex.hex2Hash s) % 2 ^ 128 = Hex.beVal (Hex.hex2Hash t) % 2 ^ 128 → Hex.hex2Hash s = Hex.hex2Hash t := by
    intro s t a b
    refine Hex.beVal_inj _ _ (Hex.toFixed_bytes _ _ (QueryId.hex2Bytes_bytes s))
      (Hex.toFixed_bytes _ _ (QueryId.hex2Bytes_bytes t)) ?_ (by omega)
    rw [show (Hex.hex2Hash s).length = 32 from Hex.toFixed_length _ _,
      show (Hex.hex2Hash t).length = 32 from Hex.toFixed_length _ _]
  have k0 := key 0 (by omega); have k1 := key 1 (by omega); have k2 := key 2 (by omega); have k3 := key 3 (by omega)
  have k4 := key 4 (by omega); have k5 := key 5 (by omega); have k6 := key 6 (by omega); have k7 := key 7 (by omega)
  refine ⟨Prod.ext k0 k1, Prod.ext (Prod.ext k2 k3) (Prod.ext k4 k5), Prod.ext k6 k7,
    hH _ _ (key 10 (by omega)) (key 11 (by omega)), hH _ _ (key 12 (by omega)) (key 13 (by omega)),
    hH _ _ (key 14 (by omega)) (key 15 (by omega)), key 16 (by omega), key 17 (by omega)⟩

/-- **C39**, limit: from `2^63` on a block number `n` is encoded as `2^64 - n`: it collides with a smaller one. -/
theorem C39_large_block_collision (p : Chunk) (n : ℕ) (h : 2 ^ 63 ≤ n) (h' : n < 2 ^ 64) :
    encodeABI { p with startBlockNum := n } = encodeABI { p with startBlockNum := 2 ^ 64 - n } := by
  have e : blockNumBytes n = blockNumBytes (2 ^ 64 - n) := by
    unfold blockNumBytes
    rw [toInt64_abs n h', if_neg (by omega), toInt64_abs _ (by omega)]
    split
    · rfl
    · congr 1; omega
  unfold encodeABI args
  simp only [e]

/-- **C39**, limit: the commitments are not part of the encoding. -/
theorem C39_commitment_not_encoded (p : Chunk) (c d : List ℕ × List ℕ) :
    encodeABI { p with proof := { p.proof with commitment := c, commitmentPok := d } } = encodeABI p := rfl

/-- a concrete chunk proof: A[0] = "0x0102", the rest "ff", block numbers 5 and 9 -/
example : ∃ out, encodeABI ⟨[49], [50], [51], 5, 9, ⟨([48, 120, 48, 49, 48, 50], [102, 102]),
    (([102, 102], [102, 102]), ([102, 102], [102, 102])), ([102, 102], [102, 102]), ([], []), ([], [])⟩⟩ = some out ∧
    out.length = 576 := by
  obtain ⟨out, h1, h2, -⟩ := C39_layout ⟨[49], [50], [51], 5, 9, ⟨([48, 120, 48, 49, 48, 50], [102, 102]),
    (([102, 102], [102, 102]), ([102, 102], [102, 102])), ([102, 102], [102, 102]), ([], []), ([], [])⟩⟩
    (by unfold Fits; decide) (by norm_num) (by norm_num)
  exact ⟨out, h1, h2⟩

end Verif.Abi
