import Verif.Mimc.Spec
import Verif.Keccak.MerkleSpec
import Mathlib.Tactic.Ring

/-! Lemmas about position-addressed hash trees (no model content). -/

namespace Verif.Spec
variable {α : Type*}

/-- A path that recomputes node `k` of height `h + n` starts at the node of height `h` it addresses, or some step of it
hashes another pair than the tree, to the same value. -/
theorem climb_sound_gen (H : α → α → α) (leaf : ℕ → α) (path : List (Bool × α)) : ∀ (h k : ℕ) (v : α),
    climb H v path = treeNode H leaf (h + path.length) k →
    v = treeNode H leaf h (position (path.map Prod.fst) + k * 2 ^ path.length) ∨
      ∃ j m b s, path[j]? = some (b, s) ∧
        m = position ((path.drop (j + 1)).map Prod.fst) + k * 2 ^ (path.length - (j + 1)) ∧
        stepPair b s (climb H v (path.take j)) ≠ (treeNode H leaf (h + j) (2 * m), treeNode H leaf (h + j) (2 * m + 1)) ∧
        H (stepPair b s (climb H v (path.take j))).1 (stepPair b s (climb H v (path.take j))).2
          = H (treeNode H leaf (h + j) (2 * m)) (treeNode H leaf (h + j) (2 * m + 1)) := by
  induction path with
  | nil =>
    intro h k v hc
    left
    simpa [climb, position] using hc
  | cons bs path ih =>
    obtain ⟨b, s⟩ := bs
    intro h k v hc
    simp only [climb, List.length_cons] at hc
    rw [show h + (path.length + 1) = (h + 1) + path.length by omega] at hc
    rcases ih (h + 1) k _ hc with h1 | ⟨j, m, b', s', hj, hm, hne, he⟩
    · rw [treeNode] at h1
      have e : position (List.map Prod.fst ((b, s) :: path)) + k * 2 ^ ((b, s) :: path).length
          = b.toNat + 2 * (position (path.map Prod.fst) + k * 2 ^ path.length) := by
        simp only [List.map_cons, position, List.length_cons, pow_succ]; ring
      rw [e]
      by_cases hpair : stepPair b s v =
          (treeNode H leaf h (2 * (position (path.map Prod.fst) + k * 2 ^ path.length)),
           treeNode H leaf h (2 * (position (path.map Prod.fst) + k * 2 ^ path.length) + 1))
      · left
        unfold stepPair at hpair
        cases b
        · simp only [Bool.false_eq_true, if_false, Prod.mk.injEq] at hpair
          simpa using hpair.1
        · simp only [if_true, Prod.mk.injEq] at hpair
          rw [hpair.2]; simp [Nat.add_comm]
      · right
        refine ⟨0, _, b, s, rfl, rfl, ?_, ?_⟩
        · simpa [climb] using hpair
        · unfold stepPair
          cases b
          · simpa [climb] using h1
          · simpa [climb] using h1
    · right
      have ht : climb H (if b then H s v else H v s) (path.take j) = climb H v (((b, s) :: path).take (j + 1)) := by
        rw [List.take_succ_cons, climb]
      rw [ht] at hne he
      refine ⟨j + 1, m, b', s', by simpa using hj, ?_, ?_, ?_⟩
      · rw [hm]; simp
      · rwa [show h + (j + 1) = h + 1 + j by omega]
      · rwa [show h + (j + 1) = h + 1 + j by omega]

/-- A path as long as the tree is high that recomputes its root starts at the leaf it addresses, or collides with the
tree at a named place. -/
theorem climb_sound (H : α → α → α) (leaf : ℕ → α) (path : List (Bool × α)) (v : α)
    (hc : climb H v path = treeNode H leaf path.length 0) :
    v = leaf (position (path.map Prod.fst)) ∨ PathCollides H leaf v path := by
  rcases climb_sound_gen H leaf path 0 0 v (by rwa [Nat.zero_add]) with h | ⟨j, m, b, s, hj, hm, hne, he⟩
  · left
    simpa [treeNode] using h
  · right
    simp only [Nat.zero_mul, Nat.add_zero, Nat.zero_add] at hm hne he
    exact ⟨j, m, b, s, hj, hm, hne, he⟩

theorem trees_bind_gen (H : α → α → α) (f g : ℕ → α) (n : ℕ) : ∀ k, treeNode H f n k = treeNode H g n k →
    (∀ i < 2 ^ n, f (k * 2 ^ n + i) = g (k * 2 ^ n + i)) ∨ ∃ j m, j < n ∧ m / 2 ^ (n - (j + 1)) = k ∧
      (treeNode H f j (2 * m), treeNode H f j (2 * m + 1)) ≠ (treeNode H g j (2 * m), treeNode H g j (2 * m + 1)) ∧
      H (treeNode H f j (2 * m)) (treeNode H f j (2 * m + 1)) = H (treeNode H g j (2 * m)) (treeNode H g j (2 * m + 1)) := by
  induction n with
  | zero =>
    intro k h
    left
    intro i hi
    have : i = 0 := by simpa using hi
    subst this
    simpa [treeNode] using h
  | succ n ih =>
    intro k h
    rw [treeNode, treeNode] at h
    by_cases hp : (treeNode H f n (2 * k), treeNode H f n (2 * k + 1)) = (treeNode H g n (2 * k), treeNode H g n (2 * k + 1))
    · obtain ⟨e1, e2⟩ := Prod.mk.inj hp
      have up : ∀ j m c, j < n → m / 2 ^ (n - (j + 1)) = c → m / 2 ^ (n + 1 - (j + 1)) = c / 2 := by
        intro j m c hj hm
        rw [show n + 1 - (j + 1) = (n - (j + 1)) + 1 by omega, pow_succ, ← Nat.div_div_eq_div_mul, hm]
      rcases ih _ e1 with a1 | ⟨j, m, hj, hm, hh⟩
      · rcases ih _ e2 with a2 | ⟨j, m, hj, hm, hh⟩
        · left
          intro i hi
          rw [pow_succ] at hi
          by_cases hlt : i < 2 ^ n
          · have := a1 i hlt
            rwa [show 2 * k * 2 ^ n + i = k * 2 ^ (n + 1) + i by rw [pow_succ]; ring] at this
          · have := a2 (i - 2 ^ n) (by omega)
            have e : (2 * k + 1) * 2 ^ n + (i - 2 ^ n) = k * 2 ^ (n + 1) + i := by
              have : (2 * k + 1) * 2 ^ n = k * 2 ^ (n + 1) + 2 ^ n := by rw [pow_succ]; ring
              omega
            rwa [e] at this
        · exact Or.inr ⟨j, m, by omega, by rw [up j m _ hj hm]; omega, hh⟩
      · exact Or.inr ⟨j, m, by omega, by rw [up j m _ hj hm]; omega, hh⟩
    · exact Or.inr ⟨n, k, by omega, by simp, hp, h⟩

/-- Two trees of height `n` with the same root have the same leaves, or collide at a named place. -/
theorem trees_bind (H : α → α → α) (f g : ℕ → α) (n : ℕ) (h : treeNode H f n 0 = treeNode H g n 0) :
    (∀ i < 2 ^ n, f i = g i) ∨ TreesCollide H n f g := by
  rcases trees_bind_gen H f g n 0 h with a | ⟨j, m, hj, hm, hne, he⟩
  · left
    intro i hi
    have := a i hi
    rwa [Nat.zero_mul, Nat.zero_add] at this
  · exact Or.inr ⟨j, m, hj, by
      rcases (Nat.div_eq_zero_iff).1 hm with h0 | h0
      · exact absurd h0 (by have := Nat.two_pow_pos (n - (j + 1)); omega)
      · exact h0, hne, he⟩

theorem siblings_length (H : α → α → α) (leaf : ℕ → α) (pos h n : ℕ) : (siblings H leaf pos h n).length = n := by
  induction n generalizing h with
  | zero => rfl
  | succ n ih => simp [siblings, ih]

/-- The sibling path of a leaf recomputes the root. -/
theorem climb_siblings (H : α → α → α) (leaf : ℕ → α) (pos : ℕ) (n : ℕ) : ∀ h,
    climb H (treeNode H leaf h (pos / 2 ^ h)) (siblings H leaf pos h n)
      = treeNode H leaf (h + n) (pos / 2 ^ (h + n)) := by
  induction n with
  | zero => intro h; rfl
  | succ n ih =>
    intro h
    rw [siblings, climb]
    have hd : pos / 2 ^ (h + 1) = pos / 2 ^ h / 2 := by rw [pow_succ, Nat.div_div_eq_div_mul]
    have key : (if (pos / 2 ^ h % 2 == 1) = true then
        H (treeNode H leaf h (if pos / 2 ^ h % 2 = 1 then pos / 2 ^ h - 1 else pos / 2 ^ h + 1))
          (treeNode H leaf h (pos / 2 ^ h))
        else H (treeNode H leaf h (pos / 2 ^ h))
          (treeNode H leaf h (if pos / 2 ^ h % 2 = 1 then pos / 2 ^ h - 1 else pos / 2 ^ h + 1)))
        = treeNode H leaf (h + 1) (pos / 2 ^ (h + 1)) := by
      rw [treeNode, hd]
      generalize pos / 2 ^ h = x
      by_cases hx : x % 2 = 1
      · rw [if_pos (by simpa using hx), if_pos hx, show 2 * (x / 2) = x - 1 by omega, show x - 1 + 1 = x by omega]
      · rw [if_neg (by simpa using hx), if_neg hx, show 2 * (x / 2) = x by omega]
    rw [key, ih (h + 1), show h + 1 + n = h + (n + 1) by omega]

theorem position_siblings (H : α → α → α) (leaf : ℕ → α) (pos n : ℕ) : ∀ h,
    position ((siblings H leaf pos h n).map Prod.fst) = pos / 2 ^ h % 2 ^ n := by
  induction n with
  | zero => intro h; simp [siblings, position, Nat.mod_one]
  | succ n ih =>
    intro h
    rw [siblings, List.map_cons, position, ih (h + 1), pow_succ, ← Nat.div_div_eq_div_mul]
    generalize pos / 2 ^ h = x
    have : (x % 2 == 1).toNat = x % 2 := by
      rcases Nat.mod_two_eq_zero_or_one x with h | h <;> simp [h]
    rw [this]
    have h1 := Nat.mod_mul (a := 2) (b := 2 ^ n) (x := x)
    rw [pow_succ, Nat.mul_comm (2 ^ n) 2, h1]

/-- The list-addressed root of `MerkleSpec` is node 0 of the position-addressed tree. -/
theorem merkleRoot_eq_treeNode (H : α → α → α) (d : α) (n : ℕ) : ∀ (l : List α) (k : ℕ) (leaf : ℕ → α),
    l.length = 2 ^ n → (∀ i < 2 ^ n, leaf (k * 2 ^ n + i) = l.getD i d) →
    merkleRoot H d n l = treeNode H leaf n k := by
  induction n with
  | zero =>
    intro l k leaf hl hleaf
    match l, hl with
    | [x], _ =>
      have := hleaf 0 (by simp)
      simp [treeNode, merkleRoot] at this ⊢
      exact this.symm
  | succ n ih =>
    intro l k leaf hl hleaf
    rw [pow_succ] at hl
    rw [merkleRoot, treeNode, ih _ (2 * k) leaf (by rw [List.length_take]; omega),
      ih _ (2 * k + 1) leaf (by rw [List.length_drop]; omega)]
    · intro i hi
      have := hleaf (2 ^ n + i) (by rw [pow_succ]; omega)
      rw [show (2 * k + 1) * 2 ^ n + i = k * 2 ^ (n + 1) + (2 ^ n + i) by rw [pow_succ]; ring, this]
      simp [List.getD_eq_getElem?_getD]
    · intro i hi
      have := hleaf i (by rw [pow_succ]; omega)
      rw [show 2 * k * 2 ^ n + i = k * 2 ^ (n + 1) + i by rw [pow_succ]; ring, this]
      simp [List.getD_eq_getElem?_getD, List.getElem?_take_of_lt hi]

/-- Two leaf vectors of `2^n` leaves with the same root are equal, or their trees collide at a named place. -/
theorem merkleRoot_bind (H : α → α → α) (d : α) (n : ℕ) (l1 l2 : List α) (h1 : l1.length = 2 ^ n) (h2 : l2.length = 2 ^ n)
    (h : merkleRoot H d n l1 = merkleRoot H d n l2) :
    l1 = l2 ∨ TreesCollide H n (fun k => l1.getD k d) (fun k => l2.getD k d) := by
  rw [merkleRoot_eq_treeNode H d n l1 0 (fun k => l1.getD k d) h1 (fun i _ => by simp),
    merkleRoot_eq_treeNode H d n l2 0 (fun k => l2.getD k d) h2 (fun i _ => by simp)] at h
  rcases trees_bind H _ _ n h with e | e
  · left
    apply List.ext_getElem (h1.trans h2.symm)
    intro i a b
    have := e i (by omega)
    simpa [List.getD, List.getElem?_eq_getElem a, List.getElem?_eq_getElem b] using this
  · exact Or.inr e

/-- Two climbs along the same directions to the same value start at the same node with the same siblings, or collide at a
named step. -/
theorem climbs_bind (H : α → α → α) (ds : List Bool) : ∀ (ss ts : List α) (v w : α), ss.length = ds.length →
    ts.length = ds.length → climb H v (ds.zip ss) = climb H w (ds.zip ts) →
    (v = w ∧ ss = ts) ∨ ClimbsCollide H v w ds ss ts := by
  induction ds with
  | nil =>
    intro ss ts v w h1 h2 h
    rw [List.length_nil, List.length_eq_zero_iff] at h1 h2
    subst h1; subst h2
    left; exact ⟨by simpa [climb] using h, rfl⟩
  | cons d ds ih =>
    intro ss ts v w h1 h2 h
    match ss, ts, h1, h2 with
    | s :: ss, t :: ts, h1, h2 =>
      simp only [List.zip_cons_cons, climb] at h
      rcases ih ss ts _ _ (by simpa using h1) (by simpa using h2) h with ⟨e1, e2⟩ | ⟨j, b, s', t', hd, hs, ht, hne, he⟩
      · by_cases hp : stepPair d s v = stepPair d t w
        · left
          unfold stepPair at hp
          cases d
          · simp only [Bool.false_eq_true, if_false, Prod.mk.injEq] at hp
            exact ⟨hp.1, by rw [hp.2, e2]⟩
          · simp only [if_true, Prod.mk.injEq] at hp
            exact ⟨hp.2, by rw [hp.1, e2]⟩
        · right
          refine ⟨0, d, s, t, rfl, rfl, rfl, ?_, ?_⟩
          · simpa [climb] using hp
          · unfold stepPair
            cases d
            · simpa [climb] using e1
            · simpa [climb] using e1
      · right
        refine ⟨j + 1, b, s', t', by simpa using hd, by simpa using hs, by simpa using ht, ?_, ?_⟩
        · simpa [climb] using hne
        · simpa [climb] using he

end Verif.Spec
