import Verif.Ed.Bytes

/-! # The Ed25519 verification circuit -/

namespace Verif.Ed
open Verif.Ec Api

variable {p : ℕ}

theorem forM_assert (l : List ℕ) (f g : ℕ → F p) :
    l.forM (fun i => assertEq (f i) (g i)) = if ∀ i ∈ l, f i = g i then some () else none := by
  induction l with
  | nil => simp
  | cons x l ih =>
    show (do assertEq (f x) (g x); l.forM fun i => assertEq (f i) (g i)) = _
    rw [ih]
    by_cases hx : f x = g x
    · simp [assertEq, hx]
    · simp [assertEq, hx]

theorem leBytes_lt (n v : ℕ) : ∀ b ∈ leBytes n v, b < 256 := by
  intro b hb
  obtain ⟨i, _, rfl⟩ := List.mem_map.1 hb
  exact Nat.mod_lt _ (by norm_num)

theorem encodeXY_lt (x y : ℕ) : ∀ b ∈ encodeXY x y, b < 256 := leBytes_lt _ _

theorem beBytes_lt (n v : ℕ) : ∀ b ∈ beBytes n v, b < 256 := by
  intro b hb
  exact leBytes_lt n v b (List.mem_reverse.1 hb)

theorem pkBytes_lt (v w : ℕ) : ∀ b ∈ pkBytes v w, b < 256 := by
  intro b hb
  rcases List.mem_append.1 hb with h | h <;> exact beBytes_lt _ _ b h

theorem msgBytes_lt (m : Fin 5 → ℕ) : ∀ b ∈ msgBytes m, b < 256 := by
  intro b hb
  simp only [msgBytes, List.mem_append] at hb
  rcases hb with (((h | h) | h) | h) | h <;> exact beBytes_lt _ _ b h

theorem castL_inj (hp : 256 ≤ p) {l m : List ℕ} (hl : ∀ b ∈ l, b < 256) (hm : ∀ b ∈ m, b < 256)
    (h : (castL l : List (F p)) = castL m) : l = m := by
  have key : ∀ k : List ℕ, (∀ b ∈ k, b < 256) → (castL k : List (F p)).map ZMod.val = k := by
    intro k hk
    unfold castL
    rw [List.map_map]
    conv_rhs => rw [← List.map_id k]
    apply List.map_congr_left
    intro b hb
    exact ZMod.val_natCast_of_lt (lt_of_lt_of_le (hk b hb) hp)
  rw [← key l hl, ← key m hm, h]

theorem castL_byteOf (hp : 256 ≤ p) {l : List ℕ} (hl : ∀ b ∈ l, b < 256) :
    (castL l : List (F p)).map Sha.byteOf = l.map (BitVec.ofNat 8) := by
  unfold castL
  rw [List.map_map]
  apply List.map_congr_left
  intro b hb
  simp only [Function.comp_apply, Sha.byteOf]
  rw [ZMod.val_natCast_of_lt (lt_of_lt_of_le (hl b hb) hp)]

theorem castL_val_lt (hp : 256 ≤ p) {l : List ℕ} (hl : ∀ b ∈ l, b < 256) : ∀ v ∈ (castL l : List (F p)), v.val < 256 := by
  intro v hv
  obtain ⟨b, hb, rfl⟩ := List.mem_map.1 hv
  rw [ZMod.val_natCast_of_lt (lt_of_lt_of_le (hl b hb) hp)]
  exact hl b hb

theorem leVal_bits (l : List ℕ) (h : ∀ b ∈ l, b < 256) : natOfBits ((l.map (bitL 8)).flatten) = leVal l := by
  induction l with
  | nil => rfl
  | cons b l ih =>
    rw [List.map_cons, List.flatten_cons, natOfBits_append, ih fun c hc => h c (by simp [hc])]
    rw [show natOfBits (bitL 8 b) = b from natOfBits_testBit 8 b (lt_of_lt_of_eq (h b (by simp)) (by norm_num)), bitL_len]
    rw [leVal]; norm_num

section
variable [Fact (1 < p)]

theorem hashBits_eq (hp : 256 ≤ p) (l : List ℕ) (hl : ∀ b ∈ l, b < 256) :
    hashBits (castL l : List (F p)) = some (((l.map (bitL 8)).flatten).map ofB) := by
  unfold hashBits
  rw [castL, List.mapM_map, mapM_some _ _ (fun b => (bitL 8 b).map ofB)]
  · simp [List.map_flatten, Function.comp_def]
  · intro b hb
    simp only [Function.comp_apply]
    rw [toBinary_bits, ZMod.val_natCast_of_lt (lt_of_lt_of_le (hl b hb) hp),
      if_pos (lt_of_lt_of_eq (hl b hb) (by norm_num))]

/-- What the byte-level part checks. -/
def BytesOk (v0 v1 : F p) (rx ry ax ay : ℕ) (msg : Fin 5 → F p) : Prop :=
  (rx < 2 ^ 255 ∧ ry < 2 ^ 255 ∧ ax < 2 ^ 255 ∧ ay < 2 ^ 255) ∧ (v0.val < 2 ^ 128 ∧ v1.val < 2 ^ 128) ∧
    encodeXY ax ay = pkBytes v0.val v1.val ∧ (∀ i : Fin 4, (msg i.castSucc).val < 2 ^ 200) ∧ (msg 4).val < 2 ^ 176

/-- The bits of the digest. -/
def digestBits (r a m : List ℕ) : List Bool := ((sha512 (r ++ a ++ m)).map (bitL 8)).flatten

theorem sha512_lt (m : List ℕ) : ∀ b ∈ sha512 m, b < 256 := by
  intro b hb
  obtain ⟨v, _, rfl⟩ := List.mem_map.1 hb
  exact v.isLt

theorem digestBits_val (r a m : List ℕ) : natOfBits (digestBits r a m) = challenge r a m := leVal_bits _ (sha512_lt _)

theorem hashPart_iff (hp : 2 ^ 68 < p) (v0 v1 : F p) (t : List (F p)) (rx ry ax ay : ℕ) (msg : Fin 5 → F p) (bits : List (F p)) :
    hashPart (v0 :: v1 :: t) rx ry ax ay msg = some bits ↔ BytesOk v0 v1 rx ry ax ay msg ∧
      bits = (digestBits (encodeXY rx ry) (pkBytes v0.val v1.val) (msgBytes fun i => (msg i).val)).map ofB := by
  have h256 : 256 ≤ p := le_trans (by norm_num) hp.le
  unfold hashPart
  rw [bytes_eq h256, bytes_eq h256, recomposePbKey_eq, recomposeMsg_eq]
  by_cases hr : rx < 2 ^ 255 ∧ ry < 2 ^ 255
  swap
  · rw [if_neg hr]
    simp only [Option.bind_eq_bind, Option.bind_none, reduceCtorEq, false_iff]
    rintro ⟨⟨⟨h1, h2, _⟩, _⟩, _⟩
    exact hr ⟨h1, h2⟩
  by_cases ha : ax < 2 ^ 255 ∧ ay < 2 ^ 255
  swap
  · rw [if_pos hr, if_neg ha]
    simp only [Option.bind_eq_bind, Option.bind_some, Option.bind_none, reduceCtorEq, false_iff]
    rintro ⟨⟨⟨_, _, h1, h2⟩, _⟩, _⟩
    exact ha ⟨h1, h2⟩
  by_cases hv : v0.val < 2 ^ 128 ∧ v1.val < 2 ^ 128
  swap
  · rw [if_pos hr, if_pos ha, if_neg hv]
    simp only [Option.bind_eq_bind, Option.bind_some, Option.bind_none, reduceCtorEq, false_iff]
    rintro ⟨⟨_, h1, _⟩, _⟩
    exact hv h1
  rw [if_pos hr, if_pos ha, if_pos hv]
  simp only [Option.bind_eq_bind, Option.bind_some]
  rw [forM_assert]
  have hlen1 : (castL (encodeXY ax ay) : List (F p)).length = 32 := by simp [castL, encodeXY, leBytes]
  have hlen2 : (castL (pkBytes v0.val v1.val) : List (F p)).length = 32 := by simp [castL, pkBytes, beBytes, leBytes]
  have heq : (∀ i ∈ List.range 32, (castL (encodeXY ax ay) : List (F p)).getD i 0 = (castL (pkBytes v0.val v1.val)).getD i 0)
      ↔ encodeXY ax ay = pkBytes v0.val v1.val := by
    constructor
    · intro h
      apply castL_inj (p := p) h256 (encodeXY_lt _ _) (pkBytes_lt _ _)
      apply List.ext_getElem (by rw [hlen1, hlen2])
      intro i h1 h2
      have := h i (by rw [List.mem_range]; omega)
      rwa [List.getD_eq_getElem _ _ h1, List.getD_eq_getElem _ _ h2] at this
    · intro h
      rw [h]
      intros; rfl
  by_cases he : encodeXY ax ay = pkBytes v0.val v1.val
  swap
  · rw [if_neg (fun h => he (heq.1 h))]
    simp only [Option.bind_none, reduceCtorEq, false_iff]
    rintro ⟨⟨_, _, h1, _⟩, _⟩
    exact he h1
  rw [if_pos (heq.2 he)]
  simp only [Option.bind_some]
  by_cases hm : (∀ i : Fin 4, (msg i.castSucc).val < 2 ^ 200) ∧ (msg 4).val < 2 ^ 176
  swap
  · rw [if_neg hm]
    simp only [Option.bind_none, reduceCtorEq, false_iff]
    rintro ⟨⟨_, _, _, h1⟩, _⟩
    exact hm h1
  rw [if_pos hm]
  simp only [Option.bind_some]
  set M := msgBytes fun i => (msg i).val with hM
  have hbytes : ∀ v ∈ [(castL (encodeXY rx ry) : List (F p)), castL (encodeXY ax ay), castL M].flatten, v.val < 256 := by
    intro v hv
    simp only [List.flatten_cons, List.flatten_nil, List.mem_append, List.not_mem_nil, or_false] at hv
    rcases hv with h | h | h
    · exact castL_val_lt h256 (encodeXY_lt _ _) v h
    · exact castL_val_lt h256 (encodeXY_lt _ _) v h
    · exact castL_val_lt h256 (msgBytes_lt _) v h
  have hs := Sha.C25_sha512_split hp [castL (encodeXY rx ry), castL (encodeXY ax ay), castL M] hbytes
    (by simp [castL, encodeXY, leBytes, hM, msgBytes, beBytes])
  have hs' : Sha.session Sha.prm512 [Sha.Call.write (castL (encodeXY rx ry)), Sha.Call.write (castL (encodeXY ax ay)),
      Sha.Call.write (castL M), Sha.Call.sum] = some [(castL (sha512 (encodeXY rx ry ++ pkBytes v0.val v1.val ++ M)) : List (F p))] := by
    refine Eq.trans hs ?_
    congr 2
    simp only [List.flatten_cons, List.flatten_nil, List.append_nil, List.map_append]
    rw [castL_byteOf h256 (encodeXY_lt _ _), castL_byteOf h256 (encodeXY_lt _ _), castL_byteOf h256 (msgBytes_lt _)]
    simp only [castL, sha512, List.map_map, List.map_append, ← he, List.append_assoc]
    rfl
  rw [hs']
  simp only [Option.bind_some, List.getD_cons_zero]
  rw [hashBits_eq h256 _ (sha512_lt _)]
  rw [Option.some_inj]
  constructor
  · intro h
    exact ⟨⟨⟨hr.1, hr.2, ha.1, ha.2⟩, hv, he, hm⟩, h.symm⟩
  · rintro ⟨_, h⟩
    exact h.symm

theorem hashPart_short (rx ry ax ay : ℕ) (msg : Fin 5 → F p) (pubs : List (F p)) (h : pubs.length < 2) :
    hashPart pubs rx ry ax ay msg = none := by
  unfold hashPart
  have hn : recomposePbKey pubs = none := by
    unfold recomposePbKey
    rw [List.getElem?_eq_none (by omega)]
    rfl
  rw [hn]
  cases (bytes rx ry : Option (List (F p))) with
  | none => rfl
  | some _ =>
    cases (bytes ax ay : Option (List (F p))) with
    | none => rfl
    | some _ => rfl

theorem reduceScalar_iff (l : List Bool) (v : ℕ) : reduceScalar (l.map (ofB (p := p))) v ↔ v < 2 ^ 253 ∧ v ≡ natOfBits l [MOD L] := by
  unfold reduceScalar
  rw [List.map_map]
  have : ((fun b : F p => decide (b = 1)) ∘ ofB) = (id : Bool → Bool) := by
    funext b
    cases b
    · simp [ofB]
    · simp [ofB]
  rw [this, List.map_id]

/-- The group part of the verifier, for a key on the curve. -/
theorem verify_iff (hp : 2 ^ 68 < p) (h252 : 2 ^ 252 ≤ p) (h255 : p < 2 ^ 255) (v0 v1 : F p) (t : List (F p)) (rx ry : ℕ) (S : F p)
    (msg : Fin 5 → F p) (ax ay : ℕ) (A : Pt25519) (hA : ofPt A = ⟨(ax : Fp), (ay : Fp)⟩) :
    verify (v0 :: v1 :: t) rx ry S msg ax ay () ↔ BytesOk v0 v1 rx ry ax ay msg ∧
      ∃ k, k < 2 ^ 253 ∧ k ≡ challenge (encodeXY rx ry) (pkBytes v0.val v1.val) (msgBytes fun i => (msg i).val) [MOD L] ∧
        ∃ Q1, add cA cD (ofPt (-(S.val • B - k • A))) ⟨(rx : Fp), (ry : Fp)⟩ Q1 ∧
        ∃ Q2, double cA Q1 Q2 ∧ ∃ Q3, double cA Q2 Q3 ∧ double cA Q3 ⟨0, 1⟩ := by
  have hsz1 : 253 ≤ p.size := Nat.lt_size.2 h252
  have hsz2 : p.size ≤ 255 := Nat.size_le.2 h255
  have hS : S.val < 2 ^ p.size := lt_trans (ZMod.val_lt S) (Nat.lt_size_self p)
  have hdb : ∀ k, k < 2 ^ 253 → ∀ Q, DoubleBaseScalarMul base (neg ⟨(ax : Fp), (ay : Fp)⟩) S k Q
      ↔ Q = ofPt (S.val • B - k • A) := by
    intro k hk Q
    rw [DoubleBaseScalarMul, ← hA, base_eq, neg_ofPt, doubleBase_iff, Nat.mod_eq_of_lt hS,
      Nat.mod_eq_of_lt (lt_of_lt_of_le hk (Nat.pow_le_pow_right (by norm_num) hsz1)), smul_neg, ← sub_eq_add_neg]
    constructor
    · exact fun h => h.2
    · exact fun h => ⟨⟨by omega, hsz2⟩, h⟩
  constructor
  · rintro ⟨bits, hbits, k, hk, Q, hQ, _, hon, Q1, h1, Q4, h4, h5⟩
    obtain ⟨hok, rfl⟩ := (hashPart_iff hp _ _ _ _ _ _ _ _ _).1 hbits
    rw [reduceScalar_iff, digestBits_val] at hk
    rw [hdb k hk.1] at hQ
    subst hQ
    have hq : Q4 = ⟨0, 1⟩ := Pt.ext h5.1 h5.2
    subst hq
    obtain ⟨Q2, h2, Q3, h3, h6⟩ := h4
    exact ⟨hok, k, hk.1, hk.2, Q1, h1, Q2, h2, Q3, h3, h6⟩
  · rintro ⟨hok, k, hk1, hk2, Q1, h1, Q2, h2, Q3, h3, h6⟩
    refine ⟨_, (hashPart_iff hp _ _ _ _ _ _ _ _ _).2 ⟨hok, rfl⟩, k, ?_, _, (hdb k hk1 _).2 rfl, (), ?_, Q1, h1, ⟨0, 1⟩,
      ⟨Q2, h2, Q3, h3, h6⟩, rfl, rfl⟩
    · rw [reduceScalar_iff, digestBits_val]
      exact ⟨hk1, hk2⟩
    · exact (assertIsOnCurve_iff _).2 ⟨_, rfl⟩

end
end Verif.Ed
