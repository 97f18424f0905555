import Verif.Common.VkHash
import Verif.Common.HashProps
import Verif.Common.QueryIdProps
import Verif.Fabric.Props

/-! # Property theorem C79: the hash of an application's verifying key -/

namespace Verif.VkHash
open QueryId

/-! ## Specification -/

def G1.Ok (g : G1) : Prop := g.1 < bw6R ∧ g.2 < bw6R

def G2.Ok (g : G2) : Prop := g.xA0 < bw6R ∧ g.xA1 < bw6R ∧ g.yA0 < bw6R ∧ g.yA1 < bw6R

/-- A verifying key as gnark builds it: coordinates are canonical, the limbs of the coset shift and the number of public inputs are
64-bit numbers. -/
structure VK.Ok (vk : VK) : Prop where
  nb : vk.nbPublicVariables < 2 ^ 64
  coset : ∀ l ∈ vk.cosetShift, l < 2 ^ 64
  kzgG1 : G1.Ok vk.kzgG1
  kzgG2 : vk.kzgG2.1.Ok ∧ vk.kzgG2.2.Ok
  s : G1.Ok vk.s.1 ∧ G1.Ok vk.s.2.1 ∧ G1.Ok vk.s.2.2
  q : G1.Ok vk.ql ∧ G1.Ok vk.qr ∧ G1.Ok vk.qm ∧ G1.Ok vk.qo ∧ G1.Ok vk.qk

/-- The numbers that the hash is meant to cover, in order. -/
def VK.numbers (vk : VK) : List ℕ :=
  vk.nbPublicVariables :: vk.cosetShift ++ [vk.kzgG1.1, vk.kzgG1.2,
    vk.kzgG2.1.xA0, vk.kzgG2.1.xA1, vk.kzgG2.1.yA0, vk.kzgG2.1.yA1,
    vk.kzgG2.2.xA0, vk.kzgG2.2.xA1, vk.kzgG2.2.yA0, vk.kzgG2.2.yA1,
    vk.s.1.1, vk.s.1.2, vk.s.2.1.1, vk.s.2.1.2, vk.s.2.2.1, vk.s.2.2.2,
    vk.ql.1, vk.ql.2, vk.qr.1, vk.qr.2, vk.qm.1, vk.qm.2, vk.qo.1, vk.qo.2, vk.qk.1, vk.qk.2]

/-! ## Lemmas -/

theorem bw6R_lt : bw6R < 256 ^ 48 := by unfold bw6R; norm_num

theorem bw6R_gt : 2 ^ 64 < bw6R := by unfold bw6R; norm_num

theorem fill48_eq (x : ℕ) (h : x < 256 ^ 48) : fill48 x = some (elementBytes x) := by
  unfold fill48 elementBytes
  rw [if_pos ((Fabric.natBytes_length_le x 48).2 h)]

theorem elementBytes_length (x : ℕ) (h : x < 256 ^ 48) : (elementBytes x).length = 48 := by
  have := (Fabric.natBytes_length_le x 48).2 h
  rw [elementBytes, List.length_append, List.length_replicate]
  omega

theorem elementBytes_val (x : ℕ) : Hex.beVal (elementBytes x) = x := by
  rw [elementBytes, Hex.beVal_replicate_zero, natBytes_val]

theorem takeWhile_all (l : List ℕ) (q : ℕ → Bool) (h : ∀ x ∈ l, q x = true) : l.takeWhile q = l := by
  induction l with
  | nil => rfl
  | cons a l ih => rw [List.takeWhile_cons_of_pos (h a (by simp)), ih (fun x hx => h x (by simp [hx]))]

theorem chunk_flat (l : List (List ℕ)) (hl : ∀ b ∈ l, b.length = 48) :
    (List.range (l.flatten.length / 48)).map (fun k => (l.flatten.drop (48 * k)).take 48) = l := by
  induction l with
  | nil => rfl
  | cons b l ih =>
    have hb := hl b (by simp)
    have ih := ih (fun c hc => hl c (by simp [hc]))
    have hn : (b :: l).flatten.length / 48 = l.flatten.length / 48 + 1 := by
      rw [List.flatten_cons, List.length_append, hb]; omega
    rw [hn, List.range_succ_eq_map, List.map_cons, List.map_map]
    congr 1
    · rw [List.flatten_cons, Nat.mul_zero, List.drop_zero, List.take_append_of_le_length (by omega),
        List.take_of_length_le (by omega)]
    · refine Eq.trans (List.map_congr_left ?_) ih
      intro k _
      simp only [Function.comp, List.flatten_cons]
      rw [show 48 * (k + 1) = b.length + 48 * k by omega, List.drop_append, List.drop_of_length_le (by omega)]
      simp

theorem accepted_flat (l : List ℕ) (hl : ∀ x ∈ l, x < 256 ^ 48) :
    accepted (l.map elementBytes).flatten = l.takeWhile (fun x => decide (x < bw6R)) := by
  have h : ∀ b ∈ l.map elementBytes, b.length = 48 := by
    intro b hb
    obtain ⟨x, hx, rfl⟩ := List.mem_map.1 hb
    exact elementBytes_length x (hl x hx)
  have hc := chunk_flat _ h
  have hv : ∀ x ∈ l, (Hex.beVal ∘ elementBytes) x = x := fun x _ => elementBytes_val x
  have hm := congrArg (List.map Hex.beVal) hc
  rw [List.map_map, List.map_map, List.map_congr_left hv, List.map_id'] at hm
  exact congrArg (List.takeWhile _) hm

theorem limbs_fold (ls : List ℕ) (h : ∀ x ∈ ls, x < 256 ^ 48) (d : List ℕ) :
    ls.foldlM (fun d limb => do let b ← fill48 limb; pure (d ++ b)) d = some (d ++ (ls.map elementBytes).flatten) := by
  induction ls generalizing d with
  | nil => simp
  | cons x ls ih =>
    rw [List.foldlM_cons, fill48_eq x (h x (by simp))]
    simp only [Option.bind_eq_bind, Option.bind_some, Option.pure_def]
    have := ih (fun y hy => h y (by simp [hy])) (d ++ elementBytes x)
    simp only [Option.bind_eq_bind, Option.pure_def] at this
    rw [this]
    simp

/-- The data are the 48-byte encodings of the numbers, in order. -/
theorem hashData_eq (vk : VK) (hn : vk.nbPublicVariables < 256 ^ 48) (hc : ∀ l ∈ vk.cosetShift, l < 256 ^ 48) :
    hashData vk = some (vk.numbers.map elementBytes).flatten := by
  unfold hashData
  rw [fill48_eq _ hn]
  simp only [Option.bind_eq_bind, Option.bind_some]
  have := limbs_fold vk.cosetShift hc (elementBytes vk.nbPublicVariables)
  simp only [Option.bind_eq_bind, Option.pure_def] at this
  simp only [Option.pure_def]
  rw [this]
  simp [VK.numbers, g1Bytes, g2Bytes]

theorem VK.Ok.lt {vk : VK} (h : vk.Ok) : ∀ x ∈ vk.numbers, x < bw6R := by
  intro x hx
  have h64 := bw6R_gt
  obtain ⟨⟨a1, a2, a3, a4⟩, ⟨b1, b2, b3, b4⟩⟩ := h.kzgG2
  obtain ⟨⟨c1, c2⟩, ⟨c3, c4⟩, ⟨c5, c6⟩⟩ := h.s
  obtain ⟨⟨d1, d2⟩, ⟨d3, d4⟩, ⟨d5, d6⟩, ⟨d7, d8⟩, ⟨d9, d10⟩⟩ := h.q
  have e := h.kzgG1
  simp only [VK.numbers, List.cons_append, List.mem_cons, List.mem_append, List.not_mem_nil, or_false] at hx
  rcases hx with rfl | hx | hx
  · exact lt_trans h.nb h64
  · exact lt_trans (h.coset x hx) h64
  · rcases hx with rfl | rfl | rfl | rfl | rfl | rfl | rfl | rfl | rfl | rfl | rfl | rfl | rfl | rfl | rfl | rfl | rfl |
      rfl | rfl | rfl | rfl | rfl | rfl | rfl | rfl | rfl <;> first | assumption | exact e.1 | exact e.2

/-! ## The property -/

/-- C79. On every verifying key that gnark builds, the hash covers exactly the listed numbers, each as one element. -/
theorem C79_hash_input (H : List ℕ → List ℕ) (vk : VK) (h : vk.Ok) : appVkHash H vk = some (H vk.numbers) := by
  have hlt := h.lt
  have h48 : ∀ x ∈ vk.numbers, x < 256 ^ 48 := fun x hx => lt_trans (hlt x hx) bw6R_lt
  have hn : vk.nbPublicVariables < 256 ^ 48 := h48 _ (by simp [VK.numbers])
  have hc : ∀ l ∈ vk.cosetShift, l < 256 ^ 48 := fun l hl => h48 l (by simp [VK.numbers, hl])
  unfold appVkHash
  rw [hashData_eq vk hn hc]
  simp only [Option.bind_eq_bind, Option.bind_some, Option.pure_def, accepted_flat _ h48]
  rw [takeWhile_all _ _ (fun x hx => by simpa using hlt x hx)]

/-- C79. Two verifying keys with the same hash agree in the number of public inputs, the coset shift, the KZG points and the eight
commitments of the circuit, or the two calls exhibit a collision of MiMC. -/
theorem C79_binds (H : List ℕ → List ℕ) (vk vk' : VK) (h : vk.Ok) (h' : vk'.Ok)
    (heq : appVkHash H vk = appVkHash H vk') :
    (vk.nbPublicVariables = vk'.nbPublicVariables ∧ vk.cosetShift = vk'.cosetShift ∧ vk.kzgG1 = vk'.kzgG1 ∧
      (vk.kzgG2.1.xA0 = vk'.kzgG2.1.xA0 ∧ vk.kzgG2.1.xA1 = vk'.kzgG2.1.xA1 ∧ vk.kzgG2.1.yA0 = vk'.kzgG2.1.yA0 ∧
        vk.kzgG2.1.yA1 = vk'.kzgG2.1.yA1) ∧
      (vk.kzgG2.2.xA0 = vk'.kzgG2.2.xA0 ∧ vk.kzgG2.2.xA1 = vk'.kzgG2.2.xA1 ∧ vk.kzgG2.2.yA0 = vk'.kzgG2.2.yA0 ∧
        vk.kzgG2.2.yA1 = vk'.kzgG2.2.yA1) ∧
      vk.s = vk'.s ∧ vk.ql = vk'.ql ∧ vk.qr = vk'.qr ∧ vk.qm = vk'.qm ∧ vk.qo = vk'.qo ∧ vk.qk = vk'.qk) ∨
    (vk.numbers ≠ vk'.numbers ∧ H vk.numbers = H vk'.numbers) := by
  rw [C79_hash_input H vk h, C79_hash_input H vk' h', Option.some.injEq] at heq
  by_cases e : vk.numbers = vk'.numbers
  · left
    simp only [VK.numbers, List.cons_append, List.cons.injEq] at e
    obtain ⟨e0, e⟩ := e
    obtain ⟨e1, e⟩ := List.append_inj' e rfl
    simp only [List.cons.injEq, and_true] at e
    obtain ⟨a1, a2, b1, b2, b3, b4, c1, c2, c3, c4, d1, d2, d3, d4, d5, d6, f1, f2, f3, f4, f5, f6, f7, f8, f9, f10⟩ := e
    exact ⟨e0, e1, Prod.ext a1 a2, ⟨b1, b2, b3, b4⟩, ⟨c1, c2, c3, c4⟩,
      Prod.ext (Prod.ext d1 d2) (Prod.ext (Prod.ext d3 d4) (Prod.ext d5 d6)), Prod.ext f1 f2, Prod.ext f3 f4,
      Prod.ext f5 f6, Prod.ext f7 f8, Prod.ext f9 f10⟩
  · exact Or.inr ⟨e, heq⟩

/-- C79. The same for the hash that is finally used on BN254 (`CalculateAppVkHashFrom761To254` of the first hash), when MiMC
gives 48 bytes: equal results mean equal numbers, different numbers with the same first hash, or different first hashes
whose halves have the same second hash. -/
theorem C79_binds_254 (H G : List ℕ → List ℕ) (hH : ∀ l, Hex.Bytes (H l) ∧ (H l).length = 48) (vk vk' : VK) (h : vk.Ok)
    (h' : vk'.Ok)
    (heq : (appVkHash H vk).bind (Compose.appVkHash761To254 G) = (appVkHash H vk').bind (Compose.appVkHash761To254 G)) :
    vk.numbers = vk'.numbers ∨ (vk.numbers ≠ vk'.numbers ∧ H vk.numbers = H vk'.numbers) ∨
      (H vk.numbers ≠ H vk'.numbers ∧
        [Hex.beVal ((H vk.numbers).take 24), Hex.beVal ((H vk.numbers).drop 24)]
          ≠ [Hex.beVal ((H vk'.numbers).take 24), Hex.beVal ((H vk'.numbers).drop 24)] ∧
        G [Hex.beVal ((H vk.numbers).take 24), Hex.beVal ((H vk.numbers).drop 24)]
          = G [Hex.beVal ((H vk'.numbers).take 24), Hex.beVal ((H vk'.numbers).drop 24)]) := by
  rw [C79_hash_input H vk h, C79_hash_input H vk' h', Option.bind_some, Option.bind_some] at heq
  rcases (Compose.C49_appVkHash G _ _ (hH vk.numbers).1 (hH vk'.numbers).1 (hH _).2 (hH _).2).2 heq with e | e
  · by_cases en : vk.numbers = vk'.numbers
    · exact Or.inl en
    · exact Or.inr (Or.inl ⟨en, e⟩)
  · exact Or.inr (Or.inr e)

/-! ## Where the expected property fails -/

/-- C79, disagreement. The rest of the verifying key is not covered: whatever domain size, inverse, generator, custom-gate
commitments (`Qcp`), their positions and precomputed lines are put into the key, the hash stays the same. -/
theorem C79_rest_not_bound (H : List ℕ → List ℕ) (vk : VK) (size : ℕ) (sizeInv generator : List ℕ) (qcp : List G1)
    (idx lines0 lines1 : List ℕ) :
    appVkHash H { vk with
      size := size, sizeInv := sizeInv, generator := generator, qcp := qcp, commitmentConstraintIndexes := idx
      kzgG2 := ({ vk.kzgG2.1 with lines := lines0 }, { vk.kzgG2.2 with lines := lines1 }) } = appVkHash H vk := rfl

/-- C79, disagreement. A refused block is not noticed: when the first limb of the coset shift is not below the modulus (but fits into 48
bytes), the hash covers the number of public inputs only, so all keys that share it collide. -/
theorem C79_refused_block (H : List ℕ → List ℕ) (vk : VK) (limb : ℕ) (rest : List ℕ) (hn : vk.nbPublicVariables < 2 ^ 64)
    (hc : vk.cosetShift = limb :: rest) (hl : bw6R ≤ limb) (hf : ∀ l ∈ vk.cosetShift, l < 256 ^ 48)
    (hr : ∀ x ∈ vk.numbers, x < 256 ^ 48) : appVkHash H vk = some (H [vk.nbPublicVariables]) := by
  unfold appVkHash
  rw [hashData_eq vk (hr _ (by simp [VK.numbers])) hf]
  simp only [Option.bind_eq_bind, Option.bind_some, Option.pure_def, accepted_flat _ hr]
  have h64 := bw6R_gt
  simp only [VK.numbers, hc, List.cons_append]
  rw [List.takeWhile_cons_of_pos (by simpa using lt_trans hn h64), List.takeWhile_cons_of_neg (by simpa using hl)]

/-! ## Non-vacuity -/

/-- A key with distinct numbers everywhere. -/
def sampleVK : VK where
  nbPublicVariables := 5
  cosetShift := [7, 0, 0, 1]
  kzgG1 := (11, 12)
  kzgG2 := (⟨13, 14, 15, 16, []⟩, ⟨17, 18, 19, 20, []⟩)
  size := 64
  sizeInv := [1]
  generator := [2]
  s := ((21, 22), (23, 24), (25, 26))
  ql := (27, 28)
  qr := (29, 30)
  qm := (31, 32)
  qo := (33, 34)
  qk := (35, 36)
  qcp := [(37, 38)]
  commitmentConstraintIndexes := [3]

example : sampleVK.Ok := by
  have h : (100 : ℕ) < bw6R := lt_trans (by norm_num) bw6R_gt
  have k : ∀ n, n ≤ 100 → n < bw6R := fun n hn => lt_of_le_of_lt hn h
  refine ⟨by decide, by decide, ?_, ⟨?_, ?_⟩, ⟨?_, ?_, ?_⟩, ⟨?_, ?_, ?_, ?_, ?_⟩⟩ <;>
    simp only [G1.Ok, G2.Ok, sampleVK] <;> refine ⟨?_, ?_⟩ <;> first
      | exact k _ (by norm_num)
      | exact ⟨k _ (by norm_num), k _ (by norm_num), k _ (by norm_num)⟩

/-- Two different keys: one with a custom gate and one without have the same hash. -/
example (H : List ℕ → List ℕ) : appVkHash H { sampleVK with qcp := [] } = appVkHash H sampleVK :=
  C79_rest_not_bound H sampleVK _ _ _ [] _ [] []

/-- A key that meets the hypotheses of the last theorem. -/
example (H : List ℕ → List ℕ) : appVkHash H { sampleVK with cosetShift := [bw6R, 0, 0, 1] } = some (H [5]) := by
  have hb := bw6R_lt
  refine C79_refused_block H _ bw6R [0, 0, 1] (by decide) rfl le_rfl ?_ ?_
  · intro l hl
    simp only [List.mem_cons, List.not_mem_nil, or_false] at hl
    rcases hl with rfl | rfl | rfl | rfl <;> first | exact hb | norm_num
  · intro x hx
    simp only [VK.numbers, sampleVK, List.cons_append, List.nil_append, List.mem_cons, List.not_mem_nil, or_false] at hx
    rcases hx with rfl | rfl | rfl | rfl | rfl | hx
    all_goals first | exact hb | norm_num | skip
    have : x ≤ 100 := by omega
    exact lt_of_le_of_lt this (by norm_num)

end Verif.VkHash
