import Verif.Sha.Lift

/-! # The chunk loop of the SHA gadgets is the FIPS 180-4 compression function -/

namespace Verif.Sha
open Api
open Spec (Vars Alg)
variable {p : ℕ}

/-- The standard's algorithm with the literals of a package. -/
abbrev toAlg (P : Prm) : Alg where
  w := P.W
  rounds := P.rounds
  K := P.K
  H0 := P.init
  S0 := P.r2
  S1 := P.r1
  s0 := P.w2
  s1 := P.w1

/-- Size relations between the literals of a package, and between them and the field. -/
structure Good (P : Prm) (p : ℕ) : Prop where
  chunk : P.chunk = 16 * (P.W / 8)
  wpos : 0 < P.W / 8
  w8 : P.W = 8 * (P.W / 8)
  r16 : 16 ≤ P.rounds
  rw' : P.rounds ≤ P.wLen
  K : P.K.length = P.rounds
  init : P.init.length = 8
  lenPos : P.lenPos = P.chunk - 2 * (P.W / 8)
  add : ∀ n ≤ 3, (2 + n) * 2 ^ P.W ≤ 2 ^ P.addDigits n ∧ P.W ≤ P.addDigits n ∧ 2 ^ P.addDigits n ≤ p
  p64 : 2 ^ 64 < p
  fld : (P.W = 32 ∨ P.W = 64)

theorem good256 (hp : 2 ^ 68 < p) : Good prm256 p := by
  constructor <;> try (first | decide | (simp only [prm256]; decide))
  · intro n hn
    have h1 : (2 : ℕ) ^ prm256.addDigits n ≤ 2 ^ 36 := Nat.pow_le_pow_right (by decide) (by simp [prm256]; omega)
    refine ⟨?_, by simp [prm256]; omega, by omega⟩
    have : n = 0 ∨ n = 1 ∨ n = 2 ∨ n = 3 := by omega
    rcases this with rfl | rfl | rfl | rfl <;> decide
  · omega

theorem good512 (hp : 2 ^ 68 < p) : Good prm512 p := by
  constructor <;> try (first | decide | (simp only [prm512]; decide))
  · intro n hn
    refine ⟨?_, by simp [prm512], by simp [prm512]; omega⟩
    have : n = 0 ∨ n = 1 ∨ n = 2 ∨ n = 3 := by omega
    rcases this with rfl | rfl | rfl | rfl <;> decide
  · omega

/-- Lift of a block of variables. -/
def mapV {α β : Type*} (f : α → β) (v : Vars α) : Vars β :=
  ⟨f v.a, f v.b, f v.c, f v.d, f v.e, f v.f, f v.g, f v.h⟩

/-- Lift of hash words. -/
def liftV {P : Prm} (v : Vars (BitVec P.W)) : Vars (Word p P.W) := mapV liftW v

theorem beNat_append (l : List (BitVec 8)) (b : BitVec 8) :
    Spec.beNat (l ++ [b]) = Spec.beNat l * 256 + b.toNat := by
  simp [Spec.beNat]

theorem ofNat_mul_add (W a : ℕ) (b : BitVec 8) :
    BitVec.ofNat W (a * 256 + b.toNat) = (BitVec.ofNat W a) <<< 8 ||| b.setWidth W := by
  have h : a * 256 + b.toNat = a <<< 8 ||| b.toNat := by
    rw [← Nat.shiftLeft_add_eq_or_of_lt b.isLt, Nat.shiftLeft_eq]
  rw [h]
  apply BitVec.eq_of_getLsbD_eq
  intro i hi
  simp only [BitVec.getLsbD_ofNat, BitVec.getLsbD_or, BitVec.getLsbD_shiftLeft, BitVec.getLsbD_setWidth,
    hi, decide_true, Bool.true_and, Nat.testBit_or, Nat.testBit_shiftLeft]
  rw [show decide (i - 8 < W) = true from by simp; omega]
  by_cases h8 : i < 8
  · simp [h8, Nat.not_le.2 h8, BitVec.getLsbD]
  · simp [h8, Nat.not_lt.1 h8, BitVec.getLsbD]

theorem foldl_or_shift (W s : ℕ) (l : List (BitVec W)) (c : BitVec W) :
    (l.map fun v : BitVec W => v <<< s).foldl (· ||| ·) (c <<< s) = (l.foldl (· ||| ·) c) <<< s := by
  induction l generalizing c with
  | nil => rfl
  | cons v l ih =>
    simp only [List.map_cons, List.foldl_cons, ← ih]
    congr 1
    apply BitVec.eq_of_getLsbD_eq
    intro i hi
    simp only [BitVec.getLsbD_or, BitVec.getLsbD_shiftLeft]
    cases decide (i < W) <;> cases decide (i < s) <;> simp

/-- Or-ing big-endian shifted bytes gives the big-endian number. -/
theorem or_bytes (W : ℕ) (l : List (BitVec 8)) :
    ((List.range l.length).map fun k => (l.getD k 0).setWidth W <<< (8 * (l.length - 1 - k))).foldl
      (· ||| ·) 0 = BitVec.ofNat W (Spec.beNat l) := by
  induction l using List.reverseRecOn with
  | nil => rfl
  | append_singleton l b ih =>
    rw [beNat_append, ofNat_mul_add, ← ih, List.length_append, List.length_singleton,
      List.range_succ, List.map_append, List.foldl_append]
    have e : (List.range l.length).map (fun k => ((l ++ [b]).getD k 0).setWidth W
          <<< (8 * (l.length + 1 - 1 - k)))
        = ((List.range l.length).map fun k => (l.getD k 0).setWidth W
          <<< (8 * (l.length - 1 - k))).map (fun v : BitVec W => v <<< 8) := by
      rw [List.map_map]
      apply List.map_congr_left
      intro k hk
      have hk := List.mem_range.1 hk
      simp only [Function.comp, ← BitVec.shiftLeft_add]
      rw [List.getD_append _ _ _ _ hk, show 8 * (l.length - 1 - k) + 8 = 8 * (l.length + 1 - 1 - k) by omega]
    have hz := foldl_or_shift W 8 ((List.range l.length).map fun k => (l.getD k 0).setWidth W
          <<< (8 * (l.length - 1 - k))) 0
    rw [BitVec.ofNat_eq_ofNat, BitVec.zero_shiftLeft] at hz
    rw [e, BitVec.ofNat_eq_ofNat, hz]
    simp

theorem pieces_length {α : Type*} (n : ℕ) (l : List α) : (Spec.pieces n l).length = l.length / n := by
  simp [Spec.pieces]

theorem pieces_getD {α : Type*} (n : ℕ) (l : List α) (i : ℕ) (h : i < l.length / n) (d : List α) :
    (Spec.pieces n l).getD i d = (l.drop (i * n)).take n := by
  rw [List.getD_eq_getElem _ _ (by simpa [Spec.pieces] using h)]
  simp [Spec.pieces]

variable {P : Prm}

theorem words_length (b : List (BitVec 8)) :
    (Spec.words (toAlg P) b).length = b.length / (P.W / 8) := by
  simp [Spec.words, pieces_length, Spec.wordBytes, toAlg]

theorem words_getD (b : List (BitVec 8)) (i : ℕ) (h : i < b.length / (P.W / 8)) :
    (Spec.words (toAlg P) b).getD i 0
      = BitVec.ofNat P.W (Spec.beNat ((b.drop (i * (P.W / 8))).take (P.W / 8))) := by
  rw [List.getD_eq_getElem _ _ (by rw [words_length]; exact h)]
  simp [Spec.words, Spec.pieces, Spec.wordBytes, toAlg]

section
variable [Fact (1 < p)]

theorem addW0 (hG : Good P p) (a b : BitVec P.W) :
    addW P (liftW a : Word p P.W) (liftW b) [] = some (liftW (a + b)) := by
  obtain ⟨h1, h2, h3⟩ := hG.add 0 (by decide)
  exact addW_lift P a b [] h1 h2 h3

theorem addW2 (hG : Good P p) (a b c d : BitVec P.W) :
    addW P (liftW a : Word p P.W) (liftW b) [liftW c, liftW d] = some (liftW (a + b + c + d)) := by
  obtain ⟨h1, h2, h3⟩ := hG.add 2 (by decide)
  exact addW_lift P a b [c, d] h1 h2 h3

theorem addW3 (hG : Good P p) (a b c d e : BitVec P.W) :
    addW P (liftW a : Word p P.W) (liftW b) [liftW c, liftW d, liftW e]
      = some (liftW (a + b + c + d + e)) := by
  obtain ⟨h1, h2, h3⟩ := hG.add 3 (by decide)
  exact addW_lift P a b [c, d, e] h1 h2 h3

theorem loadWord_lift (hG : Good P p) (b : List (BitVec 8)) (i : ℕ) (hi : i < 16)
    (hb : P.chunk ≤ b.length) :
    loadWord P (b.map (liftW (p := p))) i
      = some (liftW ((Spec.words (toAlg P) (b.take P.chunk)).getD i 0)) := by
  have hn := hG.wpos
  set n := P.W / 8 with hnd
  have hlen : i * n + n ≤ P.chunk := by
    rw [hG.chunk]; have : (i + 1) * n ≤ 16 * n := Nat.mul_le_mul_right _ (by omega)
    rw [Nat.add_mul] at this; omega
  have hl : (b.take P.chunk).length / (P.W / 8) = 16 := by
    rw [List.length_take, Nat.min_eq_left hb, hG.chunk, Nat.mul_div_cancel _ hn]
  rw [words_getD _ _ (by omega)]
  set q := ((b.take P.chunk).drop (i * n)).take n with hq
  have hql : q.length = n := by
    simp only [hq, List.length_take, List.length_drop]; omega
  have hqk : ∀ k < n, q.getD k 0 = b.getD (i * n + k) 0 := by
    intro k hk
    have : i * n + k < P.chunk := by omega
    simp [hq, List.getD_eq_getElem?_getD, List.getElem?_take, List.getElem?_drop, hk, this]
  unfold loadWord
  have hm : (List.range n).mapM (fun k => do
      let c ← (b.map (liftW (p := p)))[i * n + k]?
      pure (lshiftW (extW P.W c) (8 * (n - 1 - k))))
      = some (((List.range q.length).map fun k => (q.getD k 0).setWidth P.W <<< (8 * (q.length - 1 - k))).map liftW) := by
    rw [hql, List.map_map]
    apply mapM_some
    intro k hk
    have hk := List.mem_range.1 hk
    have hlt : i * n + k < b.length := by omega
    rw [List.getElem?_map, List.getElem?_eq_getElem hlt]
    simp only [Option.map_some, Option.bind_eq_bind, Option.bind_some, Function.comp, extW_lift,
      lshiftW_lift, hqk k hk, List.getD_eq_getElem _ _ hlt]
    rfl
  simp only [← hnd]
  rw [hm]
  simp only [Option.bind_eq_bind, Option.bind_some]
  rw [orW_lift, or_bytes]

theorem loadLoop_lift (hG : Good P p) (b : List (BitVec 8)) (hb : P.chunk ≤ b.length)
    (w : List (Word p P.W)) (hw : w.length = P.wLen) :
    loadLoop P (b.map (liftW (p := p))) w
      = some ((Spec.words (toAlg P) (b.take P.chunk)).map liftW ++ w.drop 16) := by
  have h16 : 16 ≤ w.length := by rw [hw]; exact le_trans hG.r16 hG.rw'
  have hl : (Spec.words (toAlg P) (b.take P.chunk)).length = 16 := by
    rw [words_length, List.length_take, Nat.min_eq_left hb, hG.chunk, Nat.mul_div_cancel _ hG.wpos]
  set M := Spec.words (toAlg P) (b.take P.chunk) with hM
  have := foldlM_range_some (f := fun w i => do
    let v ← loadWord P (b.map (liftW (p := p))) i
    if i < w.length then pure (w.set i v) else none)
    (fun k => (M.take k).map liftW ++ w.drop k) 16 w (by simp) (by
      intro i hi
      rw [loadWord_lift hG b i hi hb, ← hM]
      have hli : ((M.take i).map (liftW (p := p))).length = i := by simp [hl]; omega
      simp only [Option.bind_eq_bind, Option.bind_some]
      rw [if_pos (show i < ((M.take i).map (liftW (p := p)) ++ w.drop i).length by
        rw [List.length_append, hli, List.length_drop]; omega)]
      rw [List.set_append_right _ _ (by rw [hli]), hli, Nat.sub_self,
        List.drop_eq_getElem_cons (show i < w.length by omega), List.set_cons_zero,
        List.take_succ_eq_append_getElem (show i < M.length by omega),
        List.getD_eq_getElem _ _ (show i < M.length by omega), List.map_append, List.append_assoc]
      rfl)
  unfold loadLoop
  rw [this, List.take_of_length_le (by omega)]

/-- The schedule after `k` extension steps. -/
def schedK (A : Alg) (M : List (BitVec A.w)) (k : ℕ) : List (BitVec A.w) :=
  (List.range k).foldl (fun W i => W ++
    [Spec.smallSigma A.s1 (W.getD (i + 14) 0) + W.getD (i + 9) 0
      + Spec.smallSigma A.s0 (W.getD (i + 1) 0) + W.getD i 0]) M

theorem schedK_succ (A : Alg) (M : List (BitVec A.w)) (k : ℕ) :
    schedK A M (k + 1) = schedK A M k ++
      [Spec.smallSigma A.s1 ((schedK A M k).getD (k + 14) 0) + (schedK A M k).getD (k + 9) 0
      + Spec.smallSigma A.s0 ((schedK A M k).getD (k + 1) 0) + (schedK A M k).getD k 0] := by
  simp [schedK, List.range_succ]

theorem schedK_length (A : Alg) (M : List (BitVec A.w)) (k : ℕ) :
    (schedK A M k).length = M.length + k := by
  induction k with
  | zero => rfl
  | succ k ih => rw [schedK_succ]; simp [ih]; omega

theorem schedule_eq (A : Alg) (M : List (BitVec A.w)) : Spec.schedule A M = schedK A M (A.rounds - 16) := rfl

theorem lookup_lift {M : List (BitVec P.W)} {r : List (Word p P.W)} {j : ℕ} (h : j < M.length) :
    (M.map (liftW (p := p)) ++ r)[j]? = some (liftW (M.getD j 0)) := by
  rw [List.getElem?_append_left (by simpa using h), List.getElem?_map, List.getElem?_eq_getElem h,
    List.getD_eq_getElem _ _ h]
  rfl

theorem schedLoop_lift (hG : Good P p) (M : List (BitVec P.W)) (hM : M.length = 16)
    (r : List (Word p P.W)) (hr : 16 + r.length = P.wLen) :
    schedLoop P (M.map (liftW (p := p)) ++ r)
      = some ((Spec.schedule (toAlg P) M).map liftW ++ r.drop (P.rounds - 16)) := by
  have hrr := hG.rw'
  have h16 := hG.r16
  unfold schedLoop
  rw [schedule_eq]
  refine foldlM_range_some (fun k => (schedK (toAlg P) M k).map (liftW (p := p)) ++ r.drop k) _ _ rfl ?_
  intro k hk
  have hl : (schedK (toAlg P) M k).length = 16 + k := by rw [schedK_length, hM]
  set S := schedK (toAlg P) M k with hS
  have hlm : (S.map (liftW (p := p))).length = k + 16 := by rw [List.length_map, hl]; omega
  have hkr : k < r.length := by omega
  have e1 : k + 16 - 2 = k + 14 := by omega
  have e2 : k + 16 - 15 = k + 1 := by omega
  have e3 : k + 16 - 7 = k + 9 := by omega
  have e4 : k + 16 - 16 = k := by omega
  simp only [e1, e2, e3, e4]
  rw [lookup_lift (M := S) (by rw [hl]; omega), lookup_lift (M := S) (by rw [hl]; omega), lookup_lift (M := S) (by rw [hl]; omega),
    lookup_lift (M := S) (by rw [hl]; omega)]
  simp only [Option.bind_eq_bind, Option.bind_some, lrotNeg_lift, rshiftW_lift, xorW3, addW2 hG]
  rw [if_pos (show k + 16 < (S.map (liftW (p := p)) ++ r.drop k).length by
    rw [List.length_append, hlm, List.length_drop]; omega)]
  rw [List.set_append_right _ _ (by rw [hlm]), hlm, Nat.sub_self,
    List.drop_eq_getElem_cons hkr, List.set_cons_zero, schedK_succ, ← hS]
  simp only [List.map_append, List.append_assoc]
  rfl

theorem roundStep_lift (hG : Good P p) (S : List (BitVec P.W)) (r : List (Word p P.W))
    (v : Vars (BitVec P.W)) (t : ℕ) (ht : t < P.rounds) (hS : S.length = P.rounds) :
    roundStep P (S.map (liftW (p := p)) ++ r) (liftV v) t
      = some (liftV (Spec.round (toAlg P) v (Spec.roundConst (toAlg P) t) (S.getD t 0))) := by
  have hK : t < P.K.length := by rw [hG.K]; exact ht
  unfold roundStep
  rw [lookup_lift (M := S) (by omega), List.getElem?_eq_getElem hK]
  simp only [Option.bind_eq_bind, Option.bind_some, liftV, mapV, lrotNeg_lift, xorW3, xorW2, andW_lift,
    notW_lift, constW_lift, addW3 hG, addW0 hG]
  simp only [Spec.round, Spec.roundConst, toAlg, List.getD_eq_getElem _ _ hK]
  rfl

theorem oneChunk_lift (hG : Good P p) (b : List (BitVec 8)) (hb : P.chunk ≤ b.length)
    (H : Vars (BitVec P.W)) (w : List (Word p P.W)) (hw : w.length = P.wLen) :
    ∃ w', w'.length = P.wLen ∧ oneChunk P (b.map (liftW (p := p))) (liftV H, w)
      = some (liftV (Spec.compress (toAlg P) H (Spec.words (toAlg P) (b.take P.chunk))), w') := by
  have hrr := hG.rw'
  have h16 := hG.r16
  have hl : (Spec.words (toAlg P) (b.take P.chunk)).length = 16 := by
    rw [words_length, List.length_take, Nat.min_eq_left hb, hG.chunk, Nat.mul_div_cancel _ hG.wpos]
  set M := Spec.words (toAlg P) (b.take P.chunk) with hM
  have hSl : (Spec.schedule (toAlg P) M).length = P.rounds := by
    rw [schedule_eq, schedK_length, hl]; simp [toAlg]; omega
  refine ⟨(Spec.schedule (toAlg P) M).map liftW ++ (w.drop 16).drop (P.rounds - 16), ?_, ?_⟩
  · rw [List.length_append, List.length_map, hSl]
    simp only [List.length_drop, hw]; omega
  · unfold oneChunk
    simp only
    rw [loadLoop_lift hG b hb w hw, ← hM]
    simp only [Option.bind_eq_bind, Option.bind_some]
    rw [schedLoop_lift hG M hl (w.drop 16) (by simp only [List.length_drop, hw]; omega)]
    simp only [Option.bind_some]
    rw [foldlM_sim (liftV (p := p) (P := P))
      (g := fun v t => Spec.round (toAlg P) v (Spec.roundConst (toAlg P) t)
        ((Spec.schedule (toAlg P) M).getD t 0))
      (fun v t ht => roundStep_lift hG _ _ v t (List.mem_range.1 ht) hSl)]
    simp only [Option.bind_some, liftV, mapV, addW0 hG]
    rfl

theorem pieces_cons {α : Type*} (n : ℕ) (hn : 0 < n) (l : List α) (h : n ≤ l.length) :
    Spec.pieces n l = l.take n :: Spec.pieces n (l.drop n) := by
  unfold Spec.pieces
  have : l.length / n = (l.drop n).length / n + 1 := by
    rw [List.length_drop, ← Nat.add_div_right _ hn]; congr 1; omega
  rw [this, List.range_succ_eq_map, List.map_cons, List.map_map]
  simp only [Nat.zero_mul, List.drop_zero, List.cons.injEq, true_and]
  apply List.map_congr_left
  intro i _
  simp only [Function.comp, List.drop_drop]
  congr 2
  rw [Nat.succ_mul]; omega

theorem pieces_nil {α : Type*} (n : ℕ) (l : List α) (h : l.length < n) : Spec.pieces n l = [] := by
  simp [Spec.pieces, Nat.div_eq_of_lt h]

theorem blockBytes_eq (hG : Good P p) : Spec.blockBytes (toAlg P) = P.chunk := by
  rw [hG.chunk]; rfl

theorem chunk_pos (hG : Good P p) : 0 < P.chunk := by have := hG.wpos; rw [hG.chunk]; omega

theorem chunkLoop_lift (hG : Good P p) (n : ℕ) (b : List (BitVec 8)) (hn : b.length ≤ n)
    (H : Vars (BitVec P.W)) (w : List (Word p P.W)) (hw : w.length = P.wLen) :
    ∃ w', chunkLoop P (b.map (liftW (p := p))) (liftV H, w)
      = some (liftV (Spec.absorb (toAlg P) H b), w') := by
  have hc := chunk_pos hG
  induction n generalizing b H w with
  | zero =>
    refine ⟨w, ?_⟩
    rw [chunkLoop, dif_neg (by simp; omega)]
    simp only [Spec.absorb, blockBytes_eq hG]
    rw [pieces_nil _ _ (by omega)]; rfl
  | succ n ih =>
    by_cases h : P.chunk ≤ b.length
    · obtain ⟨w', hw', e⟩ := oneChunk_lift hG b h H w hw
      rw [chunkLoop, dif_pos (by simpa using ⟨h, hc⟩), e]
      simp only [Option.bind_eq_bind, Option.bind_some]
      rw [← List.map_drop]
      obtain ⟨w'', e'⟩ := ih (b.drop P.chunk) (by rw [List.length_drop]; omega)
        (Spec.compress (toAlg P) H (Spec.words (toAlg P) (b.take P.chunk))) w' hw'
      refine ⟨w'', ?_⟩
      rw [e']
      simp only [Spec.absorb, blockBytes_eq hG]
      rw [pieces_cons _ hc b h]; rfl
    · refine ⟨w, ?_⟩
      rw [chunkLoop, dif_neg (by simp; omega)]
      simp only [Spec.absorb, blockBytes_eq hG]
      rw [pieces_nil _ _ (by omega)]; rfl

theorem blockGeneric_lift (hG : Good P p) (b : List (BitVec 8)) (H : Vars (BitVec P.W)) :
    blockGeneric P (liftV H) (b.map (liftW (p := p))) = some (liftV (Spec.absorb (toAlg P) H b)) := by
  unfold blockGeneric
  have hm : (List.range P.wLen).mapM (fun _ => asW P.W (0 : F p))
      = some ((List.range P.wLen).map fun _ => liftW 0) :=
    mapM_some (fun k _ => by rw [asW_val _ _ (by simp)]; simp)
  rw [hm]
  simp only [Option.bind_eq_bind, Option.bind_some]
  obtain ⟨w', e⟩ := chunkLoop_lift hG b.length b le_rfl H
    ((List.range P.wLen).map fun _ => liftW (p := p) 0) (by simp)
  rw [e]; rfl

end
end Verif.Sha
