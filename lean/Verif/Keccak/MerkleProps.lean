import Verif.Mimc.Tree
import Verif.Keccak.Merkle
import Verif.Keccak.MerkleSpec
import Verif.Keccak.SpongeProps

/-! # C23: the Keccak Merkle root gadget -/

namespace Verif.Keccak
open Api Spec.Keccak Spec
variable {p : ℕ} [Fact p.Prime]

theorem isPowerOfTwo_iff (a : ℕ) : isPowerOfTwo a = true ↔ ∃ n, a = 2 ^ n := by
  unfold isPowerOfTwo
  constructor
  · intro h
    simp only [Bool.and_eq_true, bne_iff_ne, ne_eq, beq_iff_eq] at h
    obtain ⟨h0, h1⟩ := h
    induction a using Nat.strongRecOn with
    | _ a ih =>
      rcases Nat.even_or_odd' a with ⟨k, rfl | rfl⟩
      · have hk : k ≠ 0 := by omega
        have : k &&& (k - 1) = 0 := by
          apply Nat.eq_of_testBit_eq
          intro i
          have : (2 * k &&& 2 * k - 1).testBit (i + 1) = (0 : ℕ).testBit (i + 1) := by rw [h1]
          rw [Nat.testBit_and, Nat.testBit_succ, Nat.testBit_succ, Nat.zero_testBit] at this
          rw [show 2 * k / 2 = k by omega, show (2 * k - 1) / 2 = k - 1 by omega] at this
          simpa using this
        obtain ⟨n, hn⟩ := ih k (by omega) hk this
        exact ⟨n + 1, by rw [hn, pow_succ]; ring⟩
      · by_cases hk : k = 0
        · exact ⟨0, by simp [hk]⟩
        · exfalso
          have hk' : k &&& k = 0 := by
            apply Nat.eq_of_testBit_eq
            intro i
            have : (2 * k + 1 &&& 2 * k + 1 - 1).testBit (i + 1) = (0 : ℕ).testBit (i + 1) := by rw [h1]
            rw [Nat.testBit_and, Nat.testBit_succ, Nat.testBit_succ, Nat.zero_testBit] at this
            rw [show (2 * k + 1) / 2 = k by omega, show (2 * k + 1 - 1) / 2 = k by omega] at this
            simpa using this
          rw [Nat.and_self] at hk'
          exact hk hk'
  · rintro ⟨n, rfl⟩
    have hpos : 2 ^ n ≠ 0 := (Nat.two_pow_pos n).ne'
    simp only [Bool.and_eq_true, bne_iff_ne, ne_eq, beq_iff_eq]
    refine ⟨hpos, ?_⟩
    rw [Nat.and_comm, Nat.and_two_pow]
    have : (2 ^ n - 1).testBit n = false := Nat.testBit_lt_two_pow (Nat.sub_lt (Nat.two_pow_pos n) (by decide))
    simp [this]

/-- Pair up neighbours. -/
def pairUp {α : Type*} (H : α → α → α) : List α → List α
  | a :: b :: rest => H a b :: pairUp H rest
  | _ => []

theorem pairUp_length {α : Type*} (H : α → α → α) (l : List α) : (pairUp H l).length = l.length / 2 := by
  induction l using pairUp.induct with
  | case1 a b rest ih => simp [pairUp, ih]; omega
  | case2 l h =>
    match l, h with
    | [], _ => simp [pairUp]
    | [x], _ => simp [pairUp]
    | a :: b :: rest, h => exact absurd rfl (h a b rest)

theorem pairUp_take {α : Type*} (H : α → α → α) (l : List α) (n : ℕ) :
    pairUp H (l.take (2 * n)) = (pairUp H l).take n := by
  induction n generalizing l with
  | zero => simp [pairUp]
  | succ n ih =>
    match l with
    | [] => simp [pairUp]
    | [x] => simp [pairUp, show 2 * (n + 1) = (2 * n + 1) + 1 by ring]
    | a :: b :: rest =>
      rw [show 2 * (n + 1) = 2 * n + 1 + 1 by ring]
      simp [pairUp, ih]

theorem pairUp_drop {α : Type*} (H : α → α → α) (l : List α) (n : ℕ) :
    pairUp H (l.drop (2 * n)) = (pairUp H l).drop n := by
  induction n generalizing l with
  | zero => simp
  | succ n ih =>
    match l with
    | [] => simp [pairUp]
    | [x] => simp [pairUp, show 2 * (n + 1) = (2 * n + 1) + 1 by ring]
    | a :: b :: rest =>
      rw [show 2 * (n + 1) = 2 * n + 1 + 1 by ring]
      simp [pairUp, ih]

theorem merkleRoot_pairUp {α : Type*} (H : α → α → α) (d : α) (n : ℕ) (l : List α) (hl : l.length = 2 ^ (n + 1)) :
    merkleRoot H d (n + 1) l = merkleRoot H d n (pairUp H l) := by
  induction n generalizing l with
  | zero =>
    match l, hl with
    | [a, b], _ => rfl
  | succ n ih =>
    rw [merkleRoot, ih _ (by simp [hl, pow_succ] <;> omega), ih _ (by simp [hl, pow_succ] <;> omega)]
    rw [show 2 ^ (n + 1) = 2 * 2 ^ n by ring, pairUp_take, pairUp_drop]
    rfl

/-- Keccak-256 of two concatenated 256-bit strings. -/
def hashPair (a b : List Bool) : List Bool := keccak256 (a ++ b)

theorem keccak256_length (m : List Bool) : (keccak256 m).length = 256 := by simp [keccak256]

theorem mroot_pad_eq (a b : List Bool) (ha : a.length = 256) (hb : b.length = 256) :
    mroot_pad (a.map (ofB (p := p)) ++ b.map ofB) = (pad (a ++ b)).map ofB := by
  have h : ∀ (n : ℕ) (d : List (F p)), (List.range n).foldl (fun d _ => d ++ [0]) d = d ++ List.replicate n 0 := by
    intro n d
    induction n with
    | zero => simp
    | succ n ih => rw [List.range_succ, List.foldl_append, ih]; simp [List.replicate_succ']
  unfold mroot_pad pad
  simp only [h]
  rw [show (1088 - ((a ++ b).length + 2) % 1088) % 1088 = 574 by simp [ha, hb]]
  simp only [List.map_append, List.map_cons, List.map_replicate, ofB_true, ofB_false, List.map_nil,
    List.append_assoc]
  rfl

theorem hash_node (hp1 : 1 ≤ p) (a b : List Bool) (ha : a.length = 256) (hb : b.length = 256) :
    keccak256Bits 1 0 (mroot_pad (a.map (ofB (p := p)) ++ b.map ofB)) = some ((hashPair a b).map ofB) := by
  rw [mroot_pad_eq a b ha hb]
  have hl : (pad (a ++ b)).length = 1088 := by
    have := pad_length (a ++ b)
    simp only [List.length_append, ha, hb] at this
    omega
  have := C22_keccak256Bits_digest (p := p) 1 hp1 (a ++ b) [] 0 (by simp [hl]) (by simp [hl])
  simpa [hashPair] using this

theorem merkleLayer_lift (l : List (List Bool)) (hl : ∀ x ∈ l, x.length = 256) (he : l.length % 2 = 0) :
    merkleLayer (l.map fun x => x.map (ofB (p := p))) = some ((pairUp hashPair l).map fun x => x.map ofB) := by
  have hp1 : 1 ≤ p := (Fact.out : p.Prime).one_lt.le
  induction l using pairUp.induct with
  | case1 a b rest ih =>
    simp only [List.map_cons, merkleLayer, pairUp]
    rw [hash_node hp1 a b (hl a (by simp)) (hl b (by simp)),
      ih (fun x hx => hl x (by simp [hx])) (by simp at he; omega)]
    rfl
  | case2 l h =>
    match l, h, he with
    | [], _, _ => rfl
    | [x], _, he => simp at he
    | a :: b :: rest, h, _ => exact absurd rfl (h a b rest)

theorem pairUp_mem {α : Type*} (H : α → α → α) (l : List α) (P : α → Prop) (hH : ∀ a b, P (H a b)) :
    ∀ x ∈ pairUp H l, P x := by
  induction l using pairUp.induct with
  | case1 a b rest ih =>
    intro x hx
    rcases List.mem_cons.1 hx with rfl | h
    · exact hH a b
    · exact ih x h
  | case2 l h =>
    match l, h with
    | [], _ => simp [pairUp]
    | [x], _ => simp [pairUp]
    | a :: b :: rest, h => exact absurd rfl (h a b rest)

theorem merkleRootRec_lift (n fuel : ℕ) (hf : n < fuel) (l : List (List Bool)) (hl : ∀ x ∈ l, x.length = 256)
    (hn : l.length = 2 ^ n) :
    merkleRootRec fuel (l.map fun x => x.map (ofB (p := p))) = some ((merkleRoot hashPair [] n l).map ofB) := by
  induction n generalizing l fuel with
  | zero =>
    obtain ⟨f, rfl⟩ : ∃ f, fuel = f + 1 := ⟨fuel - 1, by omega⟩
    match l, hn with
    | [x], _ => rfl
  | succ n ih =>
    obtain ⟨f, rfl⟩ : ∃ f, fuel = f + 1 := ⟨fuel - 1, by omega⟩
    have h2 : 2 ≤ l.length := by rw [hn, pow_succ]; have := Nat.one_le_two_pow (n := n); omega
    match l, h2 with
    | a :: b :: rest, _ =>
      have hlay := merkleLayer_lift (p := p) (a :: b :: rest) hl (by rw [hn, pow_succ]; omega)
      rw [merkleRoot_pairUp _ _ _ _ hn, ← ih f (by omega) (pairUp hashPair (a :: b :: rest))
        (pairUp_mem _ _ _ (fun a b => keccak256_length _)) (by rw [pairUp_length, hn, pow_succ]; omega)]
      simp only [List.map_cons] at hlay ⊢
      simp only [merkleRootRec, hlay, Option.bind_eq_bind, Option.bind_some]

/-- **C23.** `KeccakMerkleRoot` on `2^n` leaves of 256 bits returns the root of the complete binary tree whose
inner nodes are Keccak-256 of the concatenated children. -/
theorem C23_keccakMerkleRoot (n : ℕ) (leaves : List (List Bool)) (hl : ∀ x ∈ leaves, x.length = 256)
    (hn : leaves.length = 2 ^ n) :
    keccakMerkleRoot (leaves.map fun x => x.map (ofB (p := p))) =
      some ((merkleRoot hashPair [] n leaves).map ofB) := by
  unfold keccakMerkleRoot
  rw [if_pos ((isPowerOfTwo_iff _).2 ⟨n, by simpa using hn⟩)]
  exact merkleRootRec_lift n _ (by
    rw [List.length_map, hn]
    have : n < 2 ^ n := Nat.lt_two_pow_self
    omega) leaves hl hn

/-- **C23.** Any other number of leaves is rejected. -/
theorem C23_count_guard (leaves : List (List (F p))) (h : ∀ n, leaves.length ≠ 2 ^ n) :
    keccakMerkleRoot leaves = none := by
  unfold keccakMerkleRoot
  rw [if_neg]
  rw [isPowerOfTwo_iff]
  push_neg
  exact h

example : keccakMerkleRoot (p := 101) [[], [], []] = none :=
  C23_count_guard _ (by
    intro n h
    simp at h
    rcases n with _ | _ | n
    · simp at h
    · simp at h
    · have : 1 ≤ 2 ^ n := Nat.one_le_two_pow
      rw [pow_succ, pow_succ] at h; omega)

theorem treeNode_length (leaf : ℕ → List Bool) (n : ℕ) (hleaf : ∀ i < 2 ^ n, (leaf i).length = 256) (j k : ℕ)
    (hj : j ≤ n) (hk : k < 2 ^ (n - j)) : (treeNode hashPair leaf j k).length = 256 := by
  cases j with
  | zero => exact hleaf k (by simpa using hk)
  | succ j => exact keccak256_length _

/-- **C23 (binding).** Two leaf vectors of the same size with equal roots are equal, or their trees have, at a named place
(the children of node `m` of height `j + 1`), different pairs of children, 512 bits each, with the same Keccak-256. -/
theorem C23_binding (n : ℕ) (l1 l2 : List (List Bool)) (h1 : ∀ x ∈ l1, x.length = 256)
    (h2 : ∀ x ∈ l2, x.length = 256) (n1 : l1.length = 2 ^ n) (n2 : l2.length = 2 ^ n)
    (heq : keccakMerkleRoot (l1.map fun x => x.map (ofB (p := p))) =
      keccakMerkleRoot (l2.map fun x => x.map (ofB (p := p)))) :
    l1 = l2 ∨ ∃ j m, j < n ∧ m < 2 ^ (n - (j + 1)) ∧
      let pair := fun (l : List (List Bool)) =>
        treeNode (fun a b => keccak256 (a ++ b)) (fun k => l.getD k []) j (2 * m) ++
          treeNode (fun a b => keccak256 (a ++ b)) (fun k => l.getD k []) j (2 * m + 1)
      (pair l1).length = 512 ∧ (pair l2).length = 512 ∧ pair l1 ≠ pair l2 ∧ keccak256 (pair l1) = keccak256 (pair l2) := by
  rw [C23_keccakMerkleRoot n l1 h1 n1, C23_keccakMerkleRoot n l2 h2 n2, Option.some.injEq] at heq
  have inj : Function.Injective (ofB (p := p)) := fun a b h => ofB_inj.1 h
  have heq := List.map_injective_iff.2 inj heq
  rcases merkleRoot_bind hashPair [] n l1 l2 n1 n2 heq with e | ⟨j, m, hj, hm, hne, he⟩
  · exact Or.inl e
  · right
    have lens : ∀ l : List (List Bool), (∀ x ∈ l, x.length = 256) → l.length = 2 ^ n → ∀ k < 2 ^ (n - j),
        (treeNode hashPair (fun k => l.getD k []) j k).length = 256 := by
      intro l hl hn k hk
      refine treeNode_length _ n (fun i hi => ?_) j k (by omega) hk
      simp only [List.getD_eq_getElem?_getD]
      rw [List.getElem?_eq_getElem (by omega)]
      exact hl _ (List.getElem_mem _)
    have hp : 2 ^ (n - j) = 2 * 2 ^ (n - (j + 1)) := by
      rw [show n - j = (n - (j + 1)) + 1 by omega, pow_succ]; ring
    have a1 := lens l1 h1 n1 (2 * m) (by omega)
    have a2 := lens l1 h1 n1 (2 * m + 1) (by omega)
    have b1 := lens l2 h2 n2 (2 * m) (by omega)
    have b2 := lens l2 h2 n2 (2 * m + 1) (by omega)
    refine ⟨j, m, hj, hm, ?_, ?_, fun e => hne ?_, he⟩
    · rw [List.length_append]; exact (congrArg₂ (· + ·) a1 a2)
    · rw [List.length_append]; exact (congrArg₂ (· + ·) b1 b2)
    · obtain ⟨e1, e2⟩ := List.append_inj e (a1.trans b1.symm)
      exact Prod.ext e1 e2

/-- **C23.** A single leaf is returned unchanged and unconstrained: the gadget does not force it to be bits. -/
theorem C23_single_leaf (x : List (F p)) : keccakMerkleRoot [x] = some x := by
  simp [keccakMerkleRoot, isPowerOfTwo, merkleRootRec]

end Verif.Keccak
