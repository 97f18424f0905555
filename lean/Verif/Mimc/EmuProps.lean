import Verif.Keccak.MerkleProps
import Verif.Mimc.Props

/-! # C33: emulated MiMC Merkle roots, C46: the emulated MiMC hasher -/

namespace Verif.Mimc
open Api Spec
variable {p q : ℕ}

/-- The exponent the code uses for a curve. -/
def expo : Curve → ℕ
  | .bls12377 => 17
  | .bn254 => 5
  | .bw6761 => 5
  | .other => 17

theorem pow17_eq (x : F q) : encryptPow17 x = x ^ 17 := by unfold encryptPow17; ring

theorem pow5_eq (x : F q) : encryptPow5 x = x ^ 5 := by unfold encryptPow5; ring

theorem encrypt_eq (c : Prm q) (s : St q) (m : F q) :
    encrypt c s m = mimcEncrypt (expo c.ecc) s.h c.params m := by
  have key : ∀ (cs : List (F q)) (x : F q),
      (List.range cs.length).foldl (fun x i =>
        let tmp := x + s.h
        let k := cs.getD i 0
        let tmp := tmp + k
        match c.ecc with
        | .bls12377 => encryptPow17 tmp
        | .bn254 | .bw6761 => encryptPow5 tmp
        | .other => encryptPow17 tmp) x + s.h = mimcEncrypt (expo c.ecc) s.h cs x := by
    intro cs
    induction cs with
    | nil => intro x; rfl
    | cons k cs ih =>
      intro x
      rw [List.length_cons, List.range_succ_eq_map, List.foldl_cons, List.foldl_map]
      simp only [List.getD_cons_zero, List.getD_cons_succ]
      rw [mimcEncrypt]
      simp only at ih
      rw [ih]
      congr 1
      cases c.ecc <;> simp [expo, pow17_eq, pow5_eq]
  exact key c.params m

/-- The hash of a list of elements for the given parameters. -/
def H (c : Prm q) (data : List (F q)) : F q := mimcHash (expo c.ecc) c.params 0 data

theorem absorb_eq (c : Prm q) (l : List (F q)) : ∀ s : St q,
    l.foldl (fun (s : St q) stream =>
      let r := encrypt c s stream
      let temp := s.h + r
      { s with h := temp + stream }) s = ⟨mimcHash (expo c.ecc) c.params s.h l, s.data⟩ := by
  induction l with
  | nil => intro s; rfl
  | cons m l ih =>
    intro s
    rw [List.foldl_cons, ih]
    simp only [mimcHash, encrypt_eq]
    rw [add_comm s.h]

theorem sum_eq (c : Prm q) (s : St q) :
    sum c s = (⟨mimcHash (expo c.ecc) c.params s.h s.data, s.data⟩, mimcHash (expo c.ecc) c.params s.h s.data) := by
  unfold sum
  rw [absorb_eq]

theorem mimcHash_append (e : ℕ) (cs : List (F q)) (h : F q) (a b : List (F q)) :
    mimcHash e cs h (a ++ b) = mimcHash e cs (mimcHash e cs h a) b := by
  induction a generalizing h with
  | nil => rfl
  | cons x a ih => simp [mimcHash, ih]

/-- **C46.** `Hash(data...)` is the Miyaguchi–Preneel MiMC hash of the data, whatever the hasher did before. -/
theorem C46_hash (c : Prm q) (s : St q) (data : List (F q)) : (hash c s data).2 = H c data := by
  unfold hash write reset
  rw [sum_eq]
  simp [H]

/-- The parameters `NewMiMC` picks. -/
theorem C46_new (consts : Curve → List (F q)) (id : Curve) :
    (newMiMC consts id).1.ecc = id ∧ (newMiMC consts id).1.params = consts (if id = .other then .bls12377 else id) ∧
    (newMiMC consts id).2.h = 0 ∧ (newMiMC consts id).2.data = [] := by
  cases id <;> exact ⟨rfl, rfl, rfl, rfl⟩

/-- What a history of calls has written since the last `Reset`. -/
def written : List (F q) → List (Op q) → List (F q)
  | acc, [] => acc
  | acc, .write d :: ops => written (acc ++ d) ops
  | _, .reset :: ops => written [] ops
  | acc, .sum :: ops => written acc ops

/-- What a history of calls has absorbed into the chaining value since the last `Reset`: every `Sum` absorbs all that
was written since the last `Reset`, again. Arguments: written, absorbed. -/
def absorbed : List (F q) → List (F q) → List (Op q) → List (F q)
  | _, a, [] => a
  | w, a, .write d :: ops => absorbed (w ++ d) a ops
  | _, _, .reset :: ops => absorbed [] [] ops
  | w, a, .sum :: ops => absorbed w (a ++ w) ops

theorem run_append (c : Prm q) (s : St q) (a b : List (Op q)) :
    run c s (a ++ b) = ((run c (run c s a).1 b).1, (run c s a).2 ++ (run c (run c s a).1 b).2) := by
  induction a generalizing s with
  | nil => simp [run]
  | cons o a ih => cases o <;> simp [run, ih]

theorem run_state (c : Prm q) (ops : List (Op q)) : ∀ (w a : List (F q)),
    (run c ⟨H c a, w⟩ ops).1 = ⟨H c (absorbed w a ops), written w ops⟩ := by
  induction ops with
  | nil => intro w a; rfl
  | cons o ops ih =>
    intro w a
    cases o with
    | write d => simp only [run, write, absorbed, written]; exact ih _ _
    | reset =>
      simp only [run, reset, absorbed, written]
      exact ih [] []
    | sum =>
      simp only [run, sum_eq, absorbed, written]
      have : mimcHash (expo c.ecc) c.params (H c a) w = H c (a ++ w) := by
        unfold H; rw [mimcHash_append]
      simp only [this]
      exact ih _ _

/-- **C46 (every history).** After any history of `Write`, `Reset` and `Sum` calls on a fresh hasher, `Sum` returns the
MiMC hash of everything absorbed since the last `Reset`, where each earlier `Sum` has absorbed all data written so far
once. -/
theorem C46_sum_any_history (c : Prm q) (ops : List (Op q)) :
    (sum c (run c ⟨0, []⟩ ops).1).2 = H c (absorbed [] [] ops ++ written [] ops) := by
  have := run_state c ops [] []
  simp only [H, mimcHash] at this
  rw [this, sum_eq]
  unfold H
  rw [mimcHash_append]

/-- Histories with no `Sum` since the last `Reset` (arguments: whether one is pending). -/
def freshSum : Bool → List (Op q) → Bool
  | b, [] => b
  | b, .write _ :: ops => freshSum b ops
  | _, .reset :: ops => freshSum true ops
  | _, .sum :: ops => freshSum false ops

theorem absorbed_fresh (ops : List (Op q)) : ∀ (w a : List (F q)) (b : Bool), (b = true → a = []) →
    freshSum b ops = true → absorbed w a ops = [] := by
  induction ops with
  | nil => intro w a b h hf; exact h hf
  | cons o ops ih =>
    intro w a b h hf
    cases o with
    | write d => exact ih _ _ b h hf
    | reset => exact ih _ _ true (fun _ => rfl) hf
    | sum => exact ih _ _ false (fun h => absurd h (by decide)) hf

/-- **C46 (part).** If no `Sum` was called since the last `Reset`, `Sum` is the hash of the data written since that
`Reset`.  Missing: a second `Sum`, see `C46_sum_twice`. -/
theorem C46_sum_partial (c : Prm q) (ops : List (Op q)) (h : freshSum true ops = true) :
    (sum c (run c ⟨0, []⟩ ops).1).2 = H c (written [] ops) := by
  rw [C46_sum_any_history, absorbed_fresh ops [] [] true (fun _ => rfl) h, List.nil_append]

/-- **C46, negated.** Calling `Sum` twice returns the hash of the data written twice over, not of the data; and data
written between two `Sum` calls is hashed after two copies of the earlier data. -/
theorem C46_sum_twice (c : Prm q) (a b : List (F q)) :
    (run c ⟨0, []⟩ [.write a, .sum, .sum]).2 = [H c a, H c (a ++ a)] ∧
    (run c ⟨0, []⟩ [.write a, .sum, .write b, .sum]).2 = [H c a, H c (a ++ (a ++ b))] := by
  constructor
  · simp [run, write, sum_eq, H, mimcHash_append]
  · simp [run, write, sum_eq, H, mimcHash_append]

/-- The two results really differ, e.g. for one round with constant 1 and exponent 5 modulo 101. -/
example : H (⟨.bn254, [1]⟩ : Prm 101) [2] ≠ H (⟨.bn254, [1]⟩ : Prm 101) [2, 2] := by decide
example : freshSum true ([.write [1], .sum, .reset, .write [2, 3]] : List (Op 101)) = true ∧
    written [] ([.write [1], .sum, .reset, .write [2, 3]] : List (Op 101)) = [2, 3] := by decide

/-! ## Roots -/

/-- Two-to-one node hash of the emulated gadget. -/
abbrev enode (c : Prm q) (a b : F q) : F q := H c [a, b]

theorem hash_pair (c : Prm q) (s : St q) (l : List (F q)) : hash c s l = (⟨H c l, l⟩, H c l) := by
  unfold hash write reset
  rw [sum_eq]
  simp [H]

/-- **C33.** `RestoreMimcRoot`: satisfiable exactly when path and direction bits have the same length and the directions
are bits; then it hashes up the tree, the path node on the left where the bit is 1. -/
theorem C33_restoreMimcRoot [Fact p.Prime] (c : Prm q) (s : St q) (leaf : F q) (path : List (F q)) (leftRight : List (F p)) :
    (restoreMimcRoot c s leaf path leftRight).map Prod.snd =
      if path.length = leftRight.length ∧ ∀ b ∈ leftRight, b = 0 ∨ b = 1
      then some (climb (enode c) leaf ((dirs leftRight).zip path)) else none := by
  haveI : Fact (1 < p) := ⟨(Fact.out : p.Prime).one_lt⟩
  unfold restoreMimcRoot
  by_cases hl : path.length = leftRight.length
  · rw [if_neg (by simpa using hl)]
    simp only [hl, true_and]
    rw [← hl]
    induction path generalizing s leaf leftRight with
    | nil =>
      have : leftRight = [] := List.length_eq_zero_iff.1 (by simpa using hl.symm)
      subst this
      simp [climb]
    | cons x path ih =>
      cases leftRight with
      | nil => simp at hl
      | cons b bs =>
        rw [List.length_cons, List.range_succ_eq_map, List.foldlM_cons]
        simp only [List.foldlM_map, List.getElem?_cons_zero, List.getElem?_cons_succ, Option.bind_eq_bind,
          Option.bind_some, hash_pair]
        have hl' : path.length = bs.length := by simpa using hl
        by_cases h1 : b = 1
        · subst h1
          simp only [if_true, Option.bind_some]
          have := ih ⟨H c [leaf, x], [leaf, x]⟩ (H c [x, leaf]) bs hl'
          simp only [Option.bind_eq_bind, hash_pair] at this
          rw [this]
          simp only [List.forall_mem_cons, or_true, true_and, dirs, List.map_cons, List.zip_cons_cons, climb,
            decide_true, if_true]
        · rw [if_neg h1]
          by_cases h0 : b = 0
          · subst h0
            simp only [if_true, Option.bind_some]
            have := ih ⟨H c [leaf, x], [leaf, x]⟩ (H c [leaf, x]) bs hl'
            simp only [Option.bind_eq_bind, hash_pair] at this
            rw [this]
            simp only [List.forall_mem_cons, true_or, true_and, dirs, List.map_cons, List.zip_cons_cons, climb,
              decide_eq_true_eq, h1, if_false]
          · rw [if_neg h0, if_neg]
            · rfl
            · intro hall
              rcases hall b (by simp) with h | h
              · exact h0 h
              · exact h1 h
  · rw [if_pos hl, if_neg (fun h => hl h.1)]
    rfl

theorem mimcLayer_eq (c : Prm q) (n : ℕ) : ∀ (l : List (F q)) (s : St q), l.length = n →
    (mimcLayer c s l).map Prod.snd = if n % 2 = 0 then some (Keccak.pairUp (enode c) l) else none := by
  induction n using Nat.strong_induction_on with
  | _ n ih =>
    intro l s hl
    match l, hl with
    | [], hl => subst hl; simp [mimcLayer, Keccak.pairUp]
    | [x], hl => subst hl; simp [mimcLayer]
    | a :: b :: rest, hl =>
      simp only [List.length_cons] at hl
      have := ih rest.length (by omega) rest (hash c s [a, b]).1 rfl
      have e : sum c (write (reset s) [a, b]) = hash c s [a, b] := rfl
      simp only [mimcLayer, e, hash_pair, Option.bind_eq_bind] at this ⊢
      have hpar : n % 2 = 0 ↔ rest.length % 2 = 0 := by omega
      cases hr : mimcLayer c ⟨H c [a, b], [a, b]⟩ rest with
      | none =>
        rw [hr] at this
        simp only [Option.map_none] at this
        by_cases h0 : rest.length % 2 = 0
        · rw [if_pos h0] at this; cases this
        · rw [if_neg (fun h => h0 (hpar.1 h))]; rfl
      | some v =>
        rw [hr] at this
        simp only [Option.map_some] at this
        by_cases h0 : rest.length % 2 = 0
        · rw [if_pos h0, Option.some.injEq] at this
          rw [if_pos (hpar.2 h0)]
          simp [Keccak.pairUp, this]
        · rw [if_neg h0] at this; cases this

theorem mimcRootRec_eq (c : Prm q) (n : ℕ) : ∀ (fuel : ℕ) (l : List (F q)) (s : St q), l.length = 2 ^ n → n < fuel →
    (mimcRootRec c fuel s l).map Prod.snd = some (merkleRoot (enode c) 0 n l) := by
  induction n with
  | zero =>
    intro fuel l s hl hf
    obtain ⟨f, rfl⟩ : ∃ f, fuel = f + 1 := ⟨fuel - 1, by omega⟩
    match l, hl with
    | [x], _ => rfl
  | succ n ih =>
    intro fuel l s hl hf
    obtain ⟨f, rfl⟩ : ∃ f, fuel = f + 1 := ⟨fuel - 1, by omega⟩
    have h2 : 2 ≤ l.length := by rw [hl, pow_succ]; have := Nat.one_le_two_pow (n := n); omega
    have hlay := mimcLayer_eq c _ l s rfl
    rw [if_pos (by rw [hl, pow_succ]; omega)] at hlay
    match l, h2 with
    | a :: b :: rest, _ =>
      rw [merkleRoot_pairUp' (enode c) 0 n _ hl]
      rw [← ih f (Keccak.pairUp (enode c) (a :: b :: rest)) ((mimcLayer c s (a :: b :: rest)).getD (s, [])).1
        (by rw [Keccak.pairUp_length, hl, pow_succ]; omega) (by omega)]
      simp only [mimcRootRec]
      cases hm : mimcLayer c s (a :: b :: rest) with
      | none => rw [hm] at hlay; cases hlay
      | some v =>
        rw [hm] at hlay
        simp only [Option.map_some, Option.some.injEq] at hlay
        simp [hlay]
where
  merkleRoot_pairUp' (H : F q → F q → F q) (d : F q) (n : ℕ) (l : List (F q)) (hl : l.length = 2 ^ (n + 1)) :
    merkleRoot H d (n + 1) l = merkleRoot H d n (Keccak.pairUp H l) := Keccak.merkleRoot_pairUp H d n l hl

/-- **C33.** `MimcRoot` over `2^n` leaves returns the root of the complete binary tree whose inner nodes are the MiMC
hash of the two children. -/
theorem C33_mimcRoot (c : Prm q) (s : St q) (n : ℕ) (leaves : List (F q)) (hl : leaves.length = 2 ^ n) :
    (mimcRoot c s leaves).map Prod.snd = some (merkleRoot (enode c) 0 n leaves) :=
  mimcRootRec_eq c n _ leaves s hl (by rw [hl]; have : n < 2 ^ n := Nat.lt_two_pow_self; omega)

/-- **C33.** Any other number of leaves makes `MimcRoot` panic (or, with no leaves, recurse without end). -/
theorem C33_mimcRoot_count (c : Prm q) (s : St q) (leaves : List (F q)) (h : ∀ n, leaves.length ≠ 2 ^ n) :
    mimcRoot c s leaves = none := by
  have key : ∀ (fuel : ℕ) (l : List (F q)) (s : St q), (∀ n, l.length ≠ 2 ^ n) → mimcRootRec c fuel s l = none := by
    intro fuel
    induction fuel with
    | zero => intro l s _; rfl
    | succ f ih =>
      intro l s hl
      match l, hl with
      | [], hl =>
        simp only [mimcRootRec, mimcLayer, Option.bind_eq_bind, Option.bind_some]
        exact ih [] s hl
      | [x], hl => exact absurd (by simp) (hl 0)
      | a :: b :: rest, hl =>
        simp only [mimcRootRec]
        have hlay := mimcLayer_eq c _ (a :: b :: rest) s rfl
        cases hm : mimcLayer c s (a :: b :: rest) with
        | none => rfl
        | some v =>
          rw [hm] at hlay
          simp only [Option.map_some] at hlay
          by_cases hpar : (a :: b :: rest).length % 2 = 0
          · rw [if_pos hpar, Option.some.injEq] at hlay
            simp only [Option.bind_eq_bind, Option.bind_some]
            apply ih
            intro n hn
            rw [hlay, Keccak.pairUp_length] at hn
            refine hl (n + 1) ?_
            rw [pow_succ]; omega
          · rw [if_neg hpar] at hlay; cases hlay
  exact key _ _ _ h

/-- **C33 (binding).** Two leaf vectors of the same size with equal roots are equal, or their trees have, at a named
place, different pairs of children with the same two-to-one MiMC hash. -/
theorem C33_mimcRoot_binding (c : Prm q) (s s' : St q) (n : ℕ) (l1 l2 : List (F q)) (h1 : l1.length = 2 ^ n)
    (h2 : l2.length = 2 ^ n)
    (heq : (mimcRoot c s l1).map Prod.snd = (mimcRoot c s' l2).map Prod.snd) :
    l1 = l2 ∨ TreesCollide (enode c) n (fun k => l1.getD k 0) (fun k => l2.getD k 0) := by
  rw [C33_mimcRoot c s n l1 h1, C33_mimcRoot c s' n l2 h2, Option.some.injEq] at heq
  exact merkleRoot_bind (enode c) 0 n l1 l2 h1 h2 heq

/-- **C33 (the two gadgets agree).** If `RestoreMimcRoot` recomputes the root that `MimcRoot` gives for `leaves`, along
a path as long as the tree is high, then its leaf is the one at the position written by the direction bits, or a step of
the path hashes another pair than the tree over `leaves` does at that place, to the same value. -/
theorem C33_restore_sound [Fact p.Prime] (c : Prm q) (s s' : St q) (n : ℕ) (leaves : List (F q)) (hl : leaves.length = 2 ^ n)
    (leaf : F q) (path : List (F q)) (leftRight : List (F p)) (hn : path.length = n) (root : F q)
    (hroot : (mimcRoot c s leaves).map Prod.snd = some root)
    (hrest : (restoreMimcRoot c s' leaf path leftRight).map Prod.snd = some root) :
    leaves[position (dirs leftRight)]? = some leaf ∨
      PathCollides (enode c) (fun k => leaves.getD k 0) leaf ((dirs leftRight).zip path) := by
  rw [C33_mimcRoot c s n leaves hl, Option.some.injEq] at hroot
  rw [C33_restoreMimcRoot] at hrest
  by_cases hc : path.length = leftRight.length ∧ ∀ b ∈ leftRight, b = 0 ∨ b = 1
  · rw [if_pos hc, Option.some.injEq] at hrest
    rw [← hroot, merkleRoot_eq_treeNode (enode c) 0 n leaves 0 (fun k => leaves.getD k 0) hl
      (fun i _ => by simp)] at hrest
    have hlen : ((dirs leftRight).zip path).length = n := by simp; omega
    rcases climb_sound (enode c) (fun k => leaves.getD k 0) ((dirs leftRight).zip path) leaf
      (by rw [hlen]; exact hrest) with h | h
    · left
      rw [List.map_fst_zip (by simp; omega)] at h
      have hpos : ∀ bs : List Bool, position bs < 2 ^ bs.length := by
        intro bs
        induction bs with
        | nil => simp [position]
        | cons b bs ih =>
          simp only [position, List.length_cons, pow_succ]
          have : b.toNat ≤ 1 := Bool.toNat_le b
          omega
      have hlt : position (dirs leftRight) < leaves.length := by
        have := hpos (dirs leftRight)
        rw [hl]
        simp only [dirs, List.length_map] at this ⊢
        rwa [← hc.1, hn] at this
      rw [List.getD_eq_getElem?_getD, List.getElem?_eq_getElem hlt] at h
      rw [List.getElem?_eq_getElem hlt, h]; rfl
    · exact Or.inr h
  · rw [if_neg hc] at hrest; cases hrest

/-- The soundness theorem applies to a real pair: four leaves, the honest path of leaf 2. -/
example : (mimcRoot (⟨.bn254, [1]⟩ : Prm 101) ⟨0, []⟩ [10, 20, 30, 40]).map Prod.snd =
    (restoreMimcRoot (p := 101) (⟨.bn254, [1]⟩ : Prm 101) ⟨7, [8]⟩ 30
      [40, H (⟨.bn254, [1]⟩ : Prm 101) [10, 20]] [0, 1]).map Prod.snd := by decide

/-- The second case of the binding theorem occurs, at the root, when the hash is weak: one round over a field of 101
elements. -/
example : (mimcRoot (⟨.bn254, [1]⟩ : Prm 101) ⟨0, []⟩ [8, 5]).map Prod.snd =
      (mimcRoot (⟨.bn254, [1]⟩ : Prm 101) ⟨0, []⟩ [3, 4]).map Prod.snd ∧
    TreesCollide (enode (⟨.bn254, [1]⟩ : Prm 101)) 1 (fun k => [8, 5].getD k 0) (fun k => [3, 4].getD k 0) :=
  ⟨by decide, 0, 0, by decide, by decide, by decide, by decide⟩

/-- It does not follow from the mere existence of collisions: the trees over these leaves do not collide. -/
example : ¬ TreesCollide (enode (⟨.bn254, [1]⟩ : Prm 101)) 1 (fun k => [10, 5].getD k 0) (fun k => [3, 4].getD k 0) := by
  rintro ⟨j, m, hj, hm, -, he⟩
  obtain rfl : j = 0 := by omega
  obtain rfl : m = 0 := by simpa using hm
  revert he
  decide

end Verif.Mimc
