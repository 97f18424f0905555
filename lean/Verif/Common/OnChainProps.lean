import Verif.Common.OnChain
import Verif.Common.MiscProps

/-! # Property theorem C86: accessors hand over what the record holds; event texts determine the event -/

namespace Verif.OnChain
open Verif.Abi (Proof)
open Verif.Hex (HexDigit hexNum Bytes bytes2Hex bytes2Hex0x beVal C36_value C36_roundtrip toFixed_self)

/-- The string `s` holds the number `n` in hexadecimal, with or without prefix. -/
def Holds (s : List ℕ) (n : ℕ) : Prop :=
  ∃ t, (s = t ∨ s = 48 :: 120 :: t ∨ s = 48 :: 88 :: t) ∧ (∀ c ∈ t, HexDigit c) ∧ hexNum t = n

theorem holds_bigInt (s : List ℕ) (n : ℕ) (h : Holds s n) : Hex.hex2BigInt s = n := by
  obtain ⟨t, hs, ht, rfl⟩ := h
  obtain ⟨-, h2, h3⟩ := C36_value t ht
  rcases hs with rfl | rfl | rfl
  · exact h3
  · unfold Hex.hex2BigInt; rw [h2 120 (Or.inl rfl)]; exact h3
  · unfold Hex.hex2BigInt; rw [h2 88 (Or.inr rfl)]; exact h3

/-- C86. The argument of the contract call holds the numbers of the record at their places, for both accessors and `GetProof`. -/
theorem C86_proof (p : Proof) (a0 a1 b00 b01 b10 b11 c0 c1 m0 m1 : ℕ) (ha0 : Holds p.a.1 a0) (ha1 : Holds p.a.2 a1)
    (hb00 : Holds p.b.1.1 b00) (hb01 : Holds p.b.1.2 b01) (hb10 : Holds p.b.2.1 b10) (hb11 : Holds p.b.2.2 b11)
    (hc0 : Holds p.c.1 c0) (hc1 : Holds p.c.2 c1) (hm0 : Holds p.commitment.1 m0) (hm1 : Holds p.commitment.2 m1) :
    onChainProof p = ⟨(a0, a1), ((b00, b01), (b10, b11)), (c0, c1), (m0, m1)⟩ ∧ beaconProof p = onChainProof p ∧
      getProof (some p) = onChainProof p := by
  refine ⟨?_, rfl, rfl⟩
  simp only [onChainProof, Abi.asBigInts, holds_bigInt _ _ ha0, holds_bigInt _ _ ha1, holds_bigInt _ _ hb00, holds_bigInt _ _ hb01,
    holds_bigInt _ _ hb10, holds_bigInt _ _ hb11, holds_bigInt _ _ hc0, holds_bigInt _ _ hc1, holds_bigInt _ _ hm0, holds_bigInt _ _ hm1]

/-- C86. A missing proof gives zeros. -/
theorem C86_nil_proof : getProof none = ⟨(0, 0), ((0, 0), (0, 0)), (0, 0), (0, 0)⟩ := rfl

/-- C86, disagreement. The proof of knowledge of the commitment is not handed over: records that differ only there give the same call. -/
theorem C86_pok_dropped (p : Proof) (pok : List ℕ × List ℕ) :
    onChainProof { p with commitmentPok := pok } = onChainProof p ∧ beaconProof { p with commitmentPok := pok } = beaconProof p :=
  ⟨rfl, rfl⟩

theorem hash_of_hex (b : List ℕ) (hb : Bytes b) (hl : b.length = 32) :
    Hex.hex2Hash (bytes2Hex0x b) = b ∧ Hex.hex2Hash (bytes2Hex b) = b := by
  obtain ⟨h1, h2, -⟩ := C36_roundtrip b hb
  unfold Hex.hex2Hash
  rw [h1, h2, toFixed_self 32 b hl]
  exact ⟨rfl, rfl⟩

/-- C86. Every hash stored as hex, with or without prefix, comes out of its accessor, and of no other: each accessor reads its own
field. -/
theorem C86_smt_getters (o n e c m : List ℕ) (num : ℕ) (ho : Bytes o ∧ o.length = 32) (hn : Bytes n ∧ n.length = 32)
    (he : Bytes e ∧ e.length = 32) (hc : Bytes c ∧ c.length = 32) (hm : Bytes m ∧ m.length = 32)
    (enc : List ℕ → List ℕ) (henc : enc = bytes2Hex0x ∨ enc = bytes2Hex) :
    let p : SMTUpdate := ⟨enc o, enc n, enc e, num, enc c, enc m⟩
    getOldSmtRoot p = o ∧ getNewSmtRoot p = n ∧ getEndBlockHash p = e ∧ getNextChunkMerkleRoot p = c ∧ getCommitmentPub p = m := by
  have key : ∀ x : List ℕ, Bytes x ∧ x.length = 32 → Hex.hex2Hash (enc x) = x := by
    intro x hx
    rcases henc with rfl | rfl
    · exact (hash_of_hex x hx.1 hx.2).1
    · exact (hash_of_hex x hx.1 hx.2).2
  exact ⟨key o ho, key n hn, key e he, key c hc, key m hm⟩

/-- C86. The accessors of a signature proof; a nil pointer panics. -/
theorem C86_sig_getters (r : List ℕ) (hr : Bytes r ∧ r.length = 32) (part n : ℕ) (s : List ℕ) (hs : Holds s n) :
    getPoseidonRoot (some ⟨part, bytes2Hex0x r, s⟩) = some r ∧ getCommitment (some ⟨part, bytes2Hex0x r, s⟩) = some n ∧
      getPoseidonRoot none = none ∧ getCommitment none = none := by
  refine ⟨?_, ?_, rfl, rfl⟩
  · exact congrArg some (hash_of_hex r hr.1 hr.2).1
  · exact congrArg some (holds_bigInt s n hs)

theorem fold_ids (l : List (Option (List ℕ))) (ids : List (List ℕ)) :
    l.foldlM (fun ids r => do let h ← r; pure (ids ++ [h])) ids =
      if none ∈ l then none else some (ids ++ l.map fun r => r.getD []) := by
  induction l generalizing ids with
  | nil => simp
  | cons r l ih =>
    rw [List.foldlM_cons]
    cases r with
    | none => simp
    | some h =>
      have := ih (ids ++ [h])
      simp only [List.mem_cons, reduceCtorEq, false_or, List.map_cons, Option.getD_some]
      rw [show ids ++ h :: l.map (fun r => r.getD []) = ids ++ [h] ++ l.map (fun r => r.getD []) by simp]
      exact this

/-- C86. The storage paths of the sub-proofs are those of the receipts, then the storage slots, then the transactions, each in order; a
nil element panics. -/
theorem C86_paths (q : Query) :
    getSubProofS3Path q = if none ∈ q.receipts ++ q.slots ++ q.transactions then none
      else some ((q.receipts ++ q.slots ++ q.transactions).map fun r => r.getD []) := by
  have hb : ∀ (f : List (List ℕ) → Option (List (List ℕ))) (x : List (List ℕ)), (some x >>= f) = f x := fun _ _ => rfl
  unfold getSubProofS3Path
  rw [fold_ids]
  by_cases h1 : none ∈ q.receipts
  · rw [if_pos h1, if_pos (by simp [h1])]; rfl
  · rw [if_neg h1, hb, fold_ids]
    by_cases h2 : none ∈ q.slots
    · rw [if_pos h2, if_pos (by simp [h2])]; rfl
    · rw [if_neg h2, hb, fold_ids]
      by_cases h3 : none ∈ q.transactions
      · rw [if_pos h3, if_pos (by simp [h3])]
      · rw [if_neg h3, if_neg (by simp [h1, h2, h3])]
        simp

/-- C86, disagreement. The paths do not tell the kinds apart: asking for the receipt and for the transaction of one hash gives the same
path twice. -/
theorem C86_paths_collide (h : List ℕ) :
    getSubProofS3Path ⟨[some h], [], [some h]⟩ = some [h, h] ∧
      getSubProofS3Path ⟨[some h], [], []⟩ = getSubProofS3Path ⟨[], [], [some h]⟩ := ⟨rfl, rfl⟩

/-! ## Event texts -/

theorem fmtD_eq (n : ℕ) : fmtD n = Misc.decimal n := rfl

theorem fmtD_inj (m n : ℕ) (h : fmtD m = fmtD n) : m = n := by
  rw [fmtD_eq, fmtD_eq] at h
  have := Misc.digits_decimal m
  rw [h, Misc.digits_decimal] at this
  exact (Option.some.inj this).symm

/-- Digits followed by a byte that is no digit determine both. -/
theorem digits_split (c : ℕ) (hc : ¬ (48 ≤ c ∧ c ≤ 57)) : ∀ (a b x y : List ℕ), (∀ d ∈ a, 48 ≤ d ∧ d ≤ 57) →
    (∀ d ∈ b, 48 ≤ d ∧ d ≤ 57) → a ++ c :: x = b ++ c :: y → a = b ∧ x = y := by
  intro a
  induction a with
  | nil =>
    intro b x y _ hb h
    cases b with
    | nil => simpa using h
    | cons d b =>
      simp only [List.nil_append, List.cons_append, List.cons.injEq] at h
      exact absurd (hb d List.mem_cons_self) (h.1 ▸ hc)
  | cons d a ih =>
    intro b x y ha hb h
    cases b with
    | nil =>
      simp only [List.nil_append, List.cons_append, List.cons.injEq] at h
      exact absurd (ha d List.mem_cons_self) (h.1 ▸ hc)
    | cons e b =>
      simp only [List.cons_append, List.cons.injEq] at h
      obtain ⟨h1, h2⟩ := ih b x y (fun d hd => ha d (List.mem_cons_of_mem _ hd)) (fun d hd => hb d (List.mem_cons_of_mem _ hd)) h.2
      exact ⟨by rw [h.1, h1], h2⟩

theorem ascii_gt : ascii ">" = [62] := by decide

theorem request_split (i j : List ℕ) (m n : ℕ) (x y : List ℕ) (hi : Bytes i ∧ i.length = 32) (hj : Bytes j ∧ j.length = 32)
    (h : request i m ++ x = request j n ++ y) : i = j ∧ m = n ∧ x = y := by
  unfold request at h
  simp only [List.append_assoc] at h
  replace h := List.append_cancel_left h
  obtain ⟨h1, h⟩ := List.append_inj h (by rw [Hex.bytes2Hex_length, Hex.bytes2Hex_length, hi.2, hj.2])
  replace h := List.append_cancel_left h
  rw [ascii_gt] at h
  obtain ⟨h2, h3⟩ := digits_split 62 (by decide) _ _ x y (fmtD_eq m ▸ Misc.decimal_digit m) (fmtD_eq n ▸ Misc.decimal_digit n) h
  exact ⟨Hex.C36_encode_injective i j hi.1 hj.1 h1, fmtD_inj m n h2, h3⟩

/-- The concatenation of requests, each followed by a blank. -/
def texts (l : List (List ℕ × ℕ)) : List ℕ := l.flatMap fun p => request p.1 p.2 ++ ascii " "

theorem texts_inj : ∀ (l k : List (List ℕ × ℕ)) (x : List ℕ), (∀ p ∈ l, Bytes p.1 ∧ p.1.length = 32) →
    (∀ p ∈ k, Bytes p.1 ∧ p.1.length = 32) → texts l ++ ascii ">" = texts k ++ ascii ">" → l = k := by
  intro l
  induction l with
  | nil =>
    intro k _ _ hk h
    cases k with
    | nil => rfl
    | cons p k => 
      exfalso
      have : (texts (p :: k) ++ ascii ">").head? = some 60 := by
        simp [texts, request, ascii]
      rw [← h] at this
      simp [texts, ascii] at this
  | cons p l ih =>
    intro k x hl hk h
    cases k with
    | nil =>
      exfalso
      have : (texts (p :: l) ++ ascii ">").head? = some 60 := by
        simp [texts, request, ascii]
      rw [h] at this
      simp [texts, ascii] at this
    | cons q k =>
      have e : ∀ (p : List ℕ × ℕ) (l : List (List ℕ × ℕ)), texts (p :: l) = request p.1 p.2 ++ (ascii " " ++ texts l) := by
        intro p l; simp [texts]
      rw [e, e] at h
      simp only [List.append_assoc] at h
      obtain ⟨h1, h2, h3⟩ := request_split _ _ _ _ _ _ (hl p List.mem_cons_self) (hk q List.mem_cons_self) h
      have := ih k x (fun p hp => hl p (List.mem_cons_of_mem _ hp)) (fun p hp => hk p (List.mem_cons_of_mem _ hp))
        (List.append_cancel_left h3)
      rw [this, Prod.ext h1 h2]

theorem opLoop_eq (nonces : List ℕ) : ∀ (ids : List (List ℕ)) (i : ℕ) (out : List ℕ),
    opLoop nonces i ids out = if i + ids.length ≤ nonces.length ∨ ids = [] then some (out ++ texts (ids.zip (nonces.drop i))) else none := by
  intro ids
  induction ids with
  | nil => intro i out; simp [opLoop, texts]
  | cons id ids ih =>
    intro i out
    unfold opLoop
    by_cases hi : i < nonces.length
    · rw [List.getElem?_eq_getElem hi]
      have hd : nonces.drop i = nonces[i] :: nonces.drop (i + 1) := List.drop_eq_getElem_cons hi
      have := ih (i + 1) (out ++ request id nonces[i] ++ ascii " ")
      simp only [Option.bind_eq_bind, Option.bind_some, this, hd, List.zip_cons_cons, List.length_cons]
      have hc : (i + 1 + ids.length ≤ nonces.length ∨ ids = []) ↔ (i + (ids.length + 1) ≤ nonces.length ∨ id :: ids = []) := by
        constructor
        · rintro (h | h)
          · left; omega
          · left; rw [h]; simp; omega
        · rintro (h | h)
          · left; omega
          · simp at h
      simp only [hc]
      congr 1
      simp [texts]
    · rw [List.getElem?_eq_none (by omega), if_neg]
      · rfl
      · rintro (h | h)
        · simp at h; omega
        · simp at h

/-- C86. The text of a fulfilment event lists the requests with their nonces, in order; it panics exactly when there are fewer nonces
than requests. -/
theorem C86_op_string (ids : List (List ℕ)) (nonces : List ℕ) :
    opString ids nonces = if ids.length ≤ nonces.length
      then some (ascii "< " ++ (ids.zip nonces).flatMap (fun p => request p.1 p.2 ++ ascii " ") ++ ascii ">") else none := by
  unfold opString
  rw [opLoop_eq]
  by_cases h : ids.length ≤ nonces.length
  · rw [if_pos (Or.inl (by omega)), if_pos h]; simp [texts]
  · rw [if_neg, if_neg h]
    · rfl
    · rintro (h' | h')
      · omega
      · rw [h'] at h; simp at h

/-- C86. The log lines determine chain and event: two lines are equal only for the same chain id, the same requests and the same
nonces. -/
theorem C86_op_log_injective (c d : ℕ) (ids ids' : List (List ℕ)) (ns ns' : List ℕ) (s : List ℕ)
    (hi : ∀ i ∈ ids, Bytes i ∧ i.length = 32) (hi' : ∀ i ∈ ids', Bytes i ∧ i.length = 32)
    (hl : ids.length = ns.length) (hl' : ids'.length = ns'.length)
    (h : opLog c ids ns = some s) (h' : opLog d ids' ns' = some s) : c = d ∧ ids = ids' ∧ ns = ns' := by
  unfold opLog at h h'
  rw [C86_op_string, if_pos (by omega)] at h h'
  simp only [Option.bind_eq_bind, Option.bind_some, Option.pure_def, Option.some.injEq] at h h'
  rw [← h'] at h
  simp only [List.append_assoc] at h
  replace h := List.append_cancel_left h
  obtain ⟨h1, h2⟩ := digits_split 58 (by decide) _ _ _ _ (fmtD_eq c ▸ Misc.decimal_digit c) (fmtD_eq d ▸ Misc.decimal_digit d)
    (show fmtD c ++ 58 :: _ = fmtD d ++ 58 :: _ from h)
  have h3 : texts (ids.zip ns) ++ ascii ">" = texts (ids'.zip ns') ++ ascii ">" :=
    List.append_cancel_left (List.append_cancel_left (show [32] ++ (ascii "< " ++ _) = [32] ++ (ascii "< " ++ _) from h2))
  have h4 := texts_inj _ _ [] (fun p hp => hi p.1 (List.of_mem_zip (show (p.1, p.2) ∈ _ from hp)).1)
    (fun p hp => hi' p.1 (List.of_mem_zip (show (p.1, p.2) ∈ _ from hp)).1) h3
  refine ⟨fmtD_inj _ _ h1, ?_, ?_⟩
  · have := congrArg (List.map Prod.fst) h4
    rwa [List.map_fst_zip (by omega), List.map_fst_zip (by omega)] at this
  · have := congrArg (List.map Prod.snd) h4
    rwa [List.map_snd_zip (by omega), List.map_snd_zip (by omega)] at this

/-- C86. The log lines of requests determine chain, request and nonce. -/
theorem C86_sent_log_injective (c d : ℕ) (i j : List ℕ) (m n : ℕ) (hi : Bytes i ∧ i.length = 32) (hj : Bytes j ∧ j.length = 32)
    (h : sentLog c i m = sentLog d j n) : c = d ∧ i = j ∧ m = n := by
  unfold sentLog sentString at h
  simp only [List.append_assoc] at h
  replace h := List.append_cancel_left h
  obtain ⟨h1, h2⟩ := digits_split 58 (by decide) _ _ _ _ (fmtD_eq c ▸ Misc.decimal_digit c) (fmtD_eq d ▸ Misc.decimal_digit d)
    (show fmtD c ++ 58 :: _ = fmtD d ++ 58 :: _ from h)
  have h3 := List.append_cancel_left (List.append_cancel_left (show [32] ++ (ascii "< " ++ _) = [32] ++ (ascii "< " ++ _) from h2))
  obtain ⟨h4, h5, -⟩ := request_split _ _ _ _ _ _ hi hj h3
  exact ⟨fmtD_inj _ _ h1, h4, h5⟩

/-! ## Concrete cases -/

/-- Non-vacuity of `C86_proof`: "0x0a" and "0B" hold 10 and 11. -/
example : Holds [48, 120, 48, 97] 10 ∧ Holds [48, 66] 11 :=
  ⟨⟨[48, 97], Or.inr (Or.inl rfl), by simp [HexDigit], by decide⟩, ⟨[48, 66], Or.inl rfl, by simp [HexDigit], by decide⟩⟩

/-- Two requests, and a missing nonce. -/
example : (opString [List.replicate 32 1, List.replicate 32 2] [7, 10]).isSome ∧ opString [List.replicate 32 1] [] = none := by
  constructor
  · rw [C86_op_string]; rfl
  · rw [C86_op_string]; rfl

end Verif.OnChain
