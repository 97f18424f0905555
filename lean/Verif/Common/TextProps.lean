import Verif.Common.Text
import Verif.Common.OnChainProps

/-! # Property theorem C89: the printed text of an update determines the update -/

namespace Verif.Text
open Verif.OnChain (ascii fmtD fmtD_eq fmtD_inj)
open Verif.Hex (bytes2Hex Bytes)

/-! ## Specification: values of the Go types -/

/-- A `[32]byte`. -/
def Hash (b : List ℕ) : Prop := Bytes b ∧ b.length = 32

/-- A leaf and a branch made of `[32]byte`s. -/
def Leaf.Ok (l : Leaf) : Prop := Hash l.leaf ∧ ∀ b ∈ l.branch, Hash b

def Beacon.Ok (h : Beacon) : Prop := Hash h.parentRoot ∧ Hash h.stateRoot ∧ Hash h.bodyRoot

def Execution.Ok (e : Execution) : Prop := e.stateRoot.Ok ∧ e.blockHash.Ok ∧ e.blockNumber.Ok

def Header.Ok (h : Header) : Prop := h.beacon.Ok ∧ h.execution.Ok ∧ h.executionRoot.Ok

/-- Four arrays of two (twice two) pointers. -/
def BProof.Ok (p : BProof) : Prop := p.a.length = 2 ∧ p.b.1.length = 2 ∧ p.b.2.length = 2 ∧ p.c.length = 2 ∧ p.commitment.length = 2

def Aggregate.Ok (s : Aggregate) : Prop := Hash s.poseidonRoot ∧ s.proof.Ok

def Update.Ok (u : Update) : Prop :=
  u.attested.Ok ∧ u.finalized.Ok ∧ (∀ b ∈ u.finalityBranch, Hash b) ∧ Hash u.nextRoot ∧ (∀ b ∈ u.nextBranch, Hash b) ∧
    Hash u.nextPoseidon ∧ u.mapping.Ok ∧ u.aggregate.Ok

def Smt.Ok (u : Smt) : Prop :=
  Hash u.newSmtRoot ∧ Hash u.endBlockHash ∧ Hash u.nextChunkMerkleRoot ∧ u.proof.length = 8 ∧ u.commit.length = 2 ∧
    u.knowledgeProof.length = 2

/-! ## Unique parsing -/

/-- The rest of the text does not go on with a character of the class. -/
def Stop (P : ℕ → Bool) (x : List ℕ) : Prop := ∀ c ∈ x.head?, P c = false

theorem span {P : ℕ → Bool} : ∀ {a b x y : List ℕ}, (∀ c ∈ a, P c = true) → (∀ c ∈ b, P c = true) → Stop P x → Stop P y →
    a ++ x = b ++ y → a = b ∧ x = y := by
  intro a
  induction a with
  | nil =>
    intro b x y _ hb hx _ h
    cases b with
    | nil => simpa using h
    | cons d b =>
      rw [List.nil_append] at h
      have h1 := hx d (by rw [h]; rfl)
      rw [hb d List.mem_cons_self] at h1
      exact absurd h1 (by simp)
  | cons d a ih =>
    intro b x y ha hb hx hy h
    cases b with
    | nil =>
      rw [List.nil_append] at h
      have h1 := hy d (by rw [← h]; rfl)
      rw [ha d List.mem_cons_self] at h1
      exact absurd h1 (by simp)
    | cons e b =>
      simp only [List.cons_append, List.cons.injEq] at h
      obtain ⟨h1, h2⟩ := ih (fun c hc => ha c (List.mem_cons_of_mem _ hc)) (fun c hc => hb c (List.mem_cons_of_mem _ hc)) hx hy h.2
      exact ⟨by rw [h.1, h1], h2⟩

/-- Characters of a number. -/
def numC (c : ℕ) : Bool := c != 32 && c != 44 && c != 93
/-- Characters of a list of hashes. -/
def hexC (c : ℕ) : Bool := (48 ≤ c && c ≤ 57) || (97 ≤ c && c ≤ 102) || c == 44 || c == 32
/-- Characters inside an array. -/
def arrC (c : ℕ) : Bool := c != 93

theorem stop_nil (P : ℕ → Bool) : Stop P [] := by simp [Stop]

theorem stop_app {P : ℕ → Bool} {l x : List ℕ} (h : ∃ c, l.head? = some c ∧ P c = false) : Stop P (l ++ x) := by
  obtain ⟨c, hc, hp⟩ := h
  intro d hd
  rw [List.head?_append, hc] at hd
  simp only [Option.some_or, Option.mem_def, Option.some.injEq] at hd
  rwa [← hd]

theorem fmtD_digits (n : ℕ) : ∀ c ∈ fmtD n, 48 ≤ c ∧ c ≤ 57 := fmtD_eq n ▸ Misc.decimal_digit n

theorem fmtD_num (n : ℕ) : ∀ c ∈ fmtD n, numC c = true := by
  intro c hc
  have := fmtD_digits n c hc
  simp [numC]; omega

theorem fmtBig_num (n : Option ℤ) : ∀ c ∈ fmtBig n, numC c = true := by
  intro c hc
  rcases n with _ | (n | n)
  · revert hc; revert c; simp only [fmtBig]; decide
  · exact fmtD_num n c hc
  · rcases List.mem_cons.1 hc with rfl | h
    · decide
    · exact fmtD_num _ c h

theorem fmtBig_inj (m n : Option ℤ) (h : fmtBig m = fmtBig n) : m = n := by
  have hd : ∀ (k c : ℕ) (l : List ℕ), fmtD k = c :: l → 48 ≤ c ∧ c ≤ 57 := by
    intro k c l e
    exact fmtD_digits k c (by rw [e]; exact List.mem_cons_self)
  have hn : ascii "<nil>" = [60, 110, 105, 108, 62] := by decide
  rcases m with _ | (m | m) <;> rcases n with _ | (n | n) <;> simp only [fmtBig, hn] at h
  · rfl
  · have := hd _ _ _ h.symm; omega
  · simp at h
  · have := hd _ _ _ h; omega
  · rw [fmtD_inj _ _ h]
  · have := hd _ _ _ h; omega
  · simp at h
  · have := hd _ _ _ h.symm; omega
  · simp only [List.cons.injEq, true_and] at h
    have := fmtD_inj _ _ h
    rw [show m = n by omega]

/-- Joined tokens of equal number, none of which contains the separator's first character, determine the tokens. -/
theorem join_inj (P : ℕ → Bool) (s : ℕ) (hs : P s = false) (t : List ℕ) : ∀ (l k : List (List ℕ)), l.length = k.length →
    (∀ a ∈ l, ∀ c ∈ a, P c = true) → (∀ a ∈ k, ∀ c ∈ a, P c = true) → join (s :: t) l = join (s :: t) k → l = k := by
  intro l
  induction l with
  | nil => intro k hl _ _ _; exact (List.length_eq_zero_iff.1 hl.symm).symm
  | cons a l ih =>
    intro k hl h1 h2 h
    cases k with
    | nil => simp at hl
    | cons b k =>
      simp only [List.length_cons, Nat.add_right_cancel_iff] at hl
      cases l with
      | nil =>
        cases k with
        | nil => simpa [join] using h
        | cons => simp at hl
      | cons a' l =>
        cases k with
        | nil => simp at hl
        | cons b' k =>
          simp only [join, List.append_assoc] at h
          have st : ∀ x, Stop P ((s :: t) ++ x) := fun x => stop_app ⟨s, rfl, hs⟩
          obtain ⟨e, h⟩ := span (h1 a List.mem_cons_self) (h2 b List.mem_cons_self) (st _) (st _) h
          rw [e, ih _ hl (fun c hc => h1 c (List.mem_cons_of_mem _ hc)) (fun c hc => h2 c (List.mem_cons_of_mem _ hc))
            (List.append_cancel_left h)]

theorem join_mem (Q : ℕ → Prop) (sep : List ℕ) (hs : ∀ c ∈ sep, Q c) : ∀ l : List (List ℕ), (∀ a ∈ l, ∀ c ∈ a, Q c) → ∀ c ∈ join sep l, Q c := by
  intro l
  induction l with
  | nil => intro _ c hc; simp [join] at hc
  | cons a l ih =>
    intro h c hc
    cases l with
    | nil => exact h a List.mem_cons_self c hc
    | cons b l =>
      simp only [join, List.mem_append] at hc
      rcases hc with (hc | hc) | hc
      · exact h a List.mem_cons_self c hc
      · exact hs c hc
      · exact ih (fun a ha => h a (List.mem_cons_of_mem _ ha)) c hc

theorem arr_split {l k : List (Option ℤ)} {x y : List ℕ} (hl : l.length = k.length) (h : fmtArr l ++ x = fmtArr k ++ y) :
    l = k ∧ x = y := by
  unfold fmtArr at h
  simp only [List.append_assoc] at h
  replace h := List.append_cancel_left h
  have hm : ∀ l : List (Option ℤ), ∀ a ∈ l.map fmtBig, ∀ c ∈ a, numC c = true := by
    intro l a ha c hc
    obtain ⟨n, -, rfl⟩ := List.mem_map.1 ha
    exact fmtBig_num n c hc
  have hc : ∀ l : List (Option ℤ), ∀ c ∈ join (ascii " ") (l.map fmtBig), arrC c = true := by
    intro l
    refine join_mem _ _ (by decide) _ ?_
    intro a ha c hc
    have := hm l a ha c hc
    simp [numC] at this
    simp [arrC]; omega
  obtain ⟨e, h⟩ := span (hc l) (hc k) (stop_app ⟨93, by decide, by decide⟩) (stop_app ⟨93, by decide, by decide⟩) h
  have e' := join_inj numC 32 (by decide) [] _ _ (by simpa using hl) (hm l) (hm k) e
  refine ⟨List.map_injective_iff.2 (fun m n h => fmtBig_inj m n h) e', List.append_cancel_left h⟩

theorem hash_split {a b x y : List ℕ} (ha : Hash a) (hb : Hash b) (h : bytes2Hex a ++ x = bytes2Hex b ++ y) : a = b ∧ x = y := by
  obtain ⟨h1, h2⟩ := List.append_inj h (by rw [Hex.bytes2Hex_length, Hex.bytes2Hex_length, ha.2, hb.2])
  exact ⟨Hex.C36_encode_injective a b ha.1 hb.1 h1, h2⟩

theorem hex_chars {a : List ℕ} (ha : Hash a) : ∀ c ∈ bytes2Hex a, hexC c = true := by
  intro c hc
  unfold Hex.bytes2Hex at hc
  obtain ⟨x, hx, hc⟩ := List.mem_flatMap.1 hc
  have hlt := ha.1 x hx
  have key : ∀ d < 16, hexC (Hex.hexChar d) = true := by decide
  simp only [List.mem_cons, List.not_mem_nil, or_false] at hc
  rcases hc with rfl | rfl
  · exact key _ (by omega)
  · exact key _ (Nat.mod_lt _ (by omega))

theorem b2s_inj : ∀ (l k : List (List ℕ)), (∀ b ∈ l, Hash b) → (∀ b ∈ k, Hash b) → b2s l = b2s k → l = k := by
  have ne : ∀ (a : List ℕ) (l : List (List ℕ)), Hash a → b2s (a :: l) ≠ [] := by
    intro a l ha h
    have : (bytes2Hex a).length = 64 := by rw [Hex.bytes2Hex_length, ha.2]
    cases l with
    | nil => rw [show b2s [a] = bytes2Hex a from rfl] at h; rw [h] at this; simp at this
    | cons b l =>
      simp only [b2s, List.map_cons, join, List.append_assoc, List.append_eq_nil_iff] at h
      rw [h.1] at this; simp at this
  intro l
  induction l with
  | nil =>
    intro k _ hk h
    cases k with
    | nil => rfl
    | cons b k => exact absurd h.symm (ne b k (hk b List.mem_cons_self))
  | cons a l ih =>
    intro k hl hk h
    cases k with
    | nil => exact absurd h (ne a l (hl a List.mem_cons_self))
    | cons b k =>
      have ha := hl a List.mem_cons_self
      have hb := hk b List.mem_cons_self
      have hl' : ∀ b ∈ l, Hash b := fun b h => hl b (List.mem_cons_of_mem _ h)
      have hk' : ∀ b ∈ k, Hash b := fun b h => hk b (List.mem_cons_of_mem _ h)
      have e : ∀ (a : List ℕ) (l : List (List ℕ)), b2s (a :: l) = bytes2Hex a ++ (if l = [] then [] else ascii ", " ++ b2s l) := by
        intro a l
        cases l with
        | nil => simp [b2s, join]
        | cons c l => simp [b2s, join]
      rw [e, e] at h
      obtain ⟨h1, h2⟩ := hash_split ha hb h
      have hs : ∀ z, ([] : List ℕ) ≠ ascii ", " ++ z := by
        intro z hz
        have hz := congrArg List.length hz
        rw [List.length_append, show (ascii ", ").length = 2 by decide] at hz
        simp at hz; omega
      by_cases c1 : l = [] <;> by_cases c2 : k = []
      · rw [h1, c1, c2]
      · rw [if_pos c1, if_neg c2] at h2
        exact absurd h2 (hs _)
      · rw [if_neg c1, if_pos c2] at h2
        exact absurd h2.symm (hs _)
      · rw [if_neg c1, if_neg c2] at h2
        rw [h1, ih k hl' hk' (List.append_cancel_left h2)]

theorem b2s_split {l k : List (List ℕ)} {x y : List ℕ} (hl : ∀ b ∈ l, Hash b) (hk : ∀ b ∈ k, Hash b) (hx : Stop hexC x) (hy : Stop hexC y)
    (h : b2s l ++ x = b2s k ++ y) : l = k ∧ x = y := by
  have hc : ∀ l : List (List ℕ), (∀ b ∈ l, Hash b) → ∀ c ∈ b2s l, hexC c = true := by
    intro l hl
    refine join_mem _ _ (by decide) _ ?_
    intro a ha
    obtain ⟨b, hb, rfl⟩ := List.mem_map.1 ha
    exact hex_chars (hl b hb)
  obtain ⟨e, h⟩ := span (hc l hl) (hc k hk) hx hy h
  exact ⟨b2s_inj l k hl hk e, h⟩

theorem num_split {m n : ℕ} {x y : List ℕ} (hx : Stop numC x) (hy : Stop numC y) (h : fmtD m ++ x = fmtD n ++ y) : m = n ∧ x = y := by
  obtain ⟨e, h⟩ := span (fmtD_num m) (fmtD_num n) hx hy h
  exact ⟨fmtD_inj m n e, h⟩

theorem big_split {m n : Option ℤ} {x y : List ℕ} (hx : Stop numC x) (hy : Stop numC y) (h : fmtBig m ++ x = fmtBig n ++ y) : m = n ∧ x = y := by
  obtain ⟨e, h⟩ := span (fmtBig_num m) (fmtBig_num n) hx hy h
  exact ⟨fmtBig_inj m n e, h⟩

/-! The same after a literal. -/

theorem hash_at {t a b x y : List ℕ} (ha : Hash a) (hb : Hash b) (h : t ++ (bytes2Hex a ++ x) = t ++ (bytes2Hex b ++ y)) : a = b ∧ x = y :=
  hash_split ha hb (List.append_cancel_left h)

theorem arr_at {t : List ℕ} {l k : List (Option ℤ)} {x y : List ℕ} (hl : l.length = k.length)
    (h : t ++ (fmtArr l ++ x) = t ++ (fmtArr k ++ y)) : l = k ∧ x = y := arr_split hl (List.append_cancel_left h)

theorem b2s_at {t : List ℕ} {l k : List (List ℕ)} {x y : List ℕ} (hl : ∀ b ∈ l, Hash b) (hk : ∀ b ∈ k, Hash b)
    (h : t ++ (b2s l ++ x) = t ++ (b2s k ++ y)) (hx : Stop hexC x) (hy : Stop hexC y) : l = k ∧ x = y :=
  b2s_split hl hk hx hy (List.append_cancel_left h)

theorem num_at {t : List ℕ} {m n : ℕ} {x y : List ℕ} (h : t ++ (fmtD m ++ x) = t ++ (fmtD n ++ y)) (hx : Stop numC x) (hy : Stop numC y) :
    m = n ∧ x = y := num_split hx hy (List.append_cancel_left h)

theorem big_at {t : List ℕ} {m n : Option ℤ} {x y : List ℕ} (h : t ++ (fmtBig m ++ x) = t ++ (fmtBig n ++ y)) (hx : Stop numC x)
    (hy : Stop numC y) : m = n ∧ x = y := big_split hx hy (List.append_cancel_left h)

/-- The literal that follows begins outside the class. -/
macro "stop" : tactic => `(tactic| exact stop_app (by first | exact ⟨125, by decide, by decide⟩ | exact ⟨10, by decide, by decide⟩ | exact ⟨93, by decide, by decide⟩ | exact ⟨44, by decide, by decide⟩))

theorem leaf_split {l k : Leaf} {x y : List ℕ} (hl : l.Ok) (hk : k.Ok) (hx : Stop hexC x) (hy : Stop hexC y)
    (h : l.text ++ x = k.text ++ y) : l = k ∧ x = y := by
  obtain ⟨l1, l2⟩ := l
  obtain ⟨k1, k2⟩ := k
  simp only [Leaf.text, List.append_assoc] at h
  obtain ⟨e1, h⟩ := hash_at hl.1 hk.1 h
  obtain ⟨e2, h⟩ := b2s_at hl.2 hk.2 h hx hy
  dsimp only at *
  subst_vars
  exact ⟨rfl, rfl⟩

theorem leaf_at {t : List ℕ} {l k : Leaf} {x y : List ℕ} (hl : l.Ok) (hk : k.Ok) (h : t ++ (l.text ++ x) = t ++ (k.text ++ y))
    (hx : Stop hexC x) (hy : Stop hexC y) : l = k ∧ x = y := leaf_split hl hk hx hy (List.append_cancel_left h)

theorem beacon_split {l k : Beacon} {x y : List ℕ} (hl : l.Ok) (hk : k.Ok) (h : l.text ++ x = k.text ++ y) : l = k ∧ x = y := by
  obtain ⟨l1, l2, l3, l4, l5⟩ := l
  obtain ⟨k1, k2, k3, k4, k5⟩ := k
  simp only [Beacon.text, List.append_assoc] at h
  obtain ⟨e1, h⟩ := num_at h (by stop) (by stop)
  obtain ⟨e2, h⟩ := num_at h (by stop) (by stop)
  obtain ⟨e3, h⟩ := hash_at hl.1 hk.1 h
  obtain ⟨e4, h⟩ := hash_at hl.2.1 hk.2.1 h
  obtain ⟨e5, h⟩ := hash_at hl.2.2 hk.2.2 h
  dsimp only at *
  subst_vars
  exact ⟨rfl, rfl⟩

theorem execution_split {l k : Execution} {x y : List ℕ} (hl : l.Ok) (hk : k.Ok) (h : l.text ++ x = k.text ++ y) : l = k ∧ x = y := by
  obtain ⟨l1, l2, l3⟩ := l
  obtain ⟨k1, k2, k3⟩ := k
  simp only [Execution.text, List.append_assoc] at h
  obtain ⟨e1, h⟩ := leaf_at hl.1 hk.1 h (by stop) (by stop)
  obtain ⟨e2, h⟩ := leaf_at hl.2.1 hk.2.1 h (by stop) (by stop)
  obtain ⟨e3, h⟩ := leaf_at hl.2.2 hk.2.2 h (by stop) (by stop)
  dsimp only at *
  have hz := List.append_cancel_left h
  subst_vars
  exact ⟨rfl, rfl⟩

theorem header_split {l k : Header} {x y : List ℕ} (hl : l.Ok) (hk : k.Ok) (h : l.text ++ x = k.text ++ y) : l = k ∧ x = y := by
  obtain ⟨l1, l2, l3⟩ := l
  obtain ⟨k1, k2, k3⟩ := k
  simp only [Header.text, List.append_assoc] at h
  obtain ⟨e1, h⟩ := beacon_split hl.1 hk.1 (List.append_cancel_left h)
  obtain ⟨e2, h⟩ := execution_split hl.2.1 hk.2.1 (List.append_cancel_left h)
  obtain ⟨e3, h⟩ := leaf_at hl.2.2 hk.2.2 h (by stop) (by stop)
  dsimp only at *
  have hz := List.append_cancel_left h
  subst_vars
  exact ⟨rfl, rfl⟩

theorem proof_split {l k : BProof} {x y : List ℕ} (hl : l.Ok) (hk : k.Ok) (h : l.text ++ x = k.text ++ y) : l = k ∧ x = y := by
  obtain ⟨l1, ⟨l2, l3⟩, l4, l5⟩ := l
  obtain ⟨k1, ⟨k2, k3⟩, k4, k5⟩ := k
  obtain ⟨a1, a2, a3, a4, a5⟩ := hl
  obtain ⟨b1, b2, b3, b4, b5⟩ := hk
  dsimp only at *
  simp only [BProof.text, List.append_assoc] at h
  obtain ⟨e1, h⟩ := arr_at (a1.trans b1.symm) h
  obtain ⟨e2, h⟩ := arr_at (a2.trans b2.symm) h
  obtain ⟨e3, h⟩ := arr_at (a3.trans b3.symm) h
  obtain ⟨e4, h⟩ := arr_at (a4.trans b4.symm) h
  obtain ⟨e5, h⟩ := arr_at (a5.trans b5.symm) h
  subst_vars
  exact ⟨rfl, rfl⟩

theorem aggregate_split {l k : Aggregate} {x y : List ℕ} (hl : l.Ok) (hk : k.Ok) (h : l.text ++ x = k.text ++ y) : l = k ∧ x = y := by
  obtain ⟨l1, l2, l3, l4⟩ := l
  obtain ⟨k1, k2, k3, k4⟩ := k
  simp only [Aggregate.text, List.append_assoc] at h
  obtain ⟨e1, h⟩ := num_at h (by stop) (by stop)
  obtain ⟨e2, h⟩ := hash_at hl.1 hk.1 h
  obtain ⟨e3, h⟩ := big_at h (by stop) (by stop)
  obtain ⟨e4, h⟩ := proof_split hl.2 hk.2 (List.append_cancel_left h)
  dsimp only at *
  subst_vars
  exact ⟨rfl, rfl⟩

/-! ## The claims -/

/-- **C89.** Two light-client updates that print the same text are equal, in every one of their fields, whatever the lengths of their
branches. -/
theorem C89_update (u v : Update) (hu : u.Ok) (hv : v.Ok) (h : u.text = v.text) : u = v := by
  obtain ⟨u1, u2, u3, u4, u5, u6, u7, u8, u9⟩ := u
  obtain ⟨v1, v2, v3, v4, v5, v6, v7, v8, v9⟩ := v
  obtain ⟨a1, a2, a3, a4, a5, a6, a7, a8⟩ := hu
  obtain ⟨b1, b2, b3, b4, b5, b6, b7, b8⟩ := hv
  dsimp only at *
  simp only [Update.text] at h
  obtain ⟨e1, h⟩ := header_split a1 b1 (List.append_cancel_left h)
  obtain ⟨e2, h⟩ := header_split a2 b2 (List.append_cancel_left h)
  obtain ⟨e3, h⟩ := b2s_at a3 b3 h (by stop) (by stop)
  obtain ⟨e4, h⟩ := hash_at a4 b4 h
  obtain ⟨e5, h⟩ := b2s_at a5 b5 h (by stop) (by stop)
  obtain ⟨e6, h⟩ := hash_at a6 b6 h
  obtain ⟨e7, h⟩ := proof_split a7 b7 (List.append_cancel_left h)
  obtain ⟨e8, h⟩ := aggregate_split a8 b8 (List.append_cancel_left h)
  have e9 := fmtD_inj _ _ (List.append_cancel_left h)
  subst_vars
  rfl

/-- **C89.** Two tree updates that print the same text are equal. -/
theorem C89_smt (u v : Smt) (hu : u.Ok) (hv : v.Ok) (h : u.text = v.text) : u = v := by
  obtain ⟨u1, u2, u3, u4, u5, u6, u7⟩ := u
  obtain ⟨v1, v2, v3, v4, v5, v6, v7⟩ := v
  obtain ⟨a1, a2, a3, a4, a5, a6⟩ := hu
  obtain ⟨b1, b2, b3, b4, b5, b6⟩ := hv
  dsimp only at *
  simp only [Smt.text] at h
  obtain ⟨e1, h⟩ := hash_at a1 b1 h
  obtain ⟨e2, h⟩ := hash_at a2 b2 h
  obtain ⟨e3, h⟩ := num_at h (by stop) (by stop)
  obtain ⟨e4, h⟩ := hash_at a3 b3 h
  obtain ⟨e5, h⟩ := arr_at (a4.trans b4.symm) h
  obtain ⟨e6, h⟩ := arr_at (a5.trans b5.symm) h
  obtain ⟨e7, -⟩ := arr_split (x := []) (y := []) (a6.trans b6.symm) (by simpa using List.append_cancel_left h)
  subst_vars
  rfl

/-- **C89.** The same for the parts, which are printed on their own too. -/
theorem C89_parts :
    (∀ a b : Leaf, a.Ok → b.Ok → a.text = b.text → a = b) ∧ (∀ a b : Beacon, a.Ok → b.Ok → a.text = b.text → a = b) ∧
    (∀ a b : Execution, a.Ok → b.Ok → a.text = b.text → a = b) ∧ (∀ a b : Header, a.Ok → b.Ok → a.text = b.text → a = b) ∧
    (∀ a b : BProof, a.Ok → b.Ok → a.text = b.text → a = b) ∧ (∀ a b : Aggregate, a.Ok → b.Ok → a.text = b.text → a = b) := by
  refine ⟨?_, ?_, ?_, ?_, ?_, ?_⟩ <;> intro a b ha hb h
  · exact (leaf_split (x := []) (y := []) ha hb (stop_nil _) (stop_nil _) (by rw [h])).1
  · exact (beacon_split (x := []) (y := []) ha hb (by rw [h])).1
  · exact (execution_split (x := []) (y := []) ha hb (by rw [h])).1
  · exact (header_split (x := []) (y := []) ha hb (by rw [h])).1
  · exact (proof_split (x := []) (y := []) ha hb (by rw [h])).1
  · exact (aggregate_split (x := []) (y := []) ha hb (by rw [h])).1

/-- **C89.** A branch cut short, or two branches with a boundary moved, print differently. -/
theorem C89_branches (l k l' k' : List (List ℕ)) (h1 : ∀ b ∈ l, Hash b) (h2 : ∀ b ∈ k, Hash b) (h3 : ∀ b ∈ l', Hash b) (h4 : ∀ b ∈ k', Hash b)
    (h : b2s l ++ (ascii "]" ++ b2s k) = b2s l' ++ (ascii "]" ++ b2s k')) : l = l' ∧ k = k' := by
  obtain ⟨e, h⟩ := b2s_at (t := []) h1 h3 h (by stop) (by stop)
  exact ⟨e, b2s_inj _ _ h2 h4 (List.append_cancel_left h)⟩

/-- The hypotheses are met: an update with nil pointers and branches. -/
def sampleLeaf (n : ℕ) : Leaf := ⟨List.replicate 32 n, [List.replicate 32 1, List.replicate 32 2]⟩

theorem sampleLeaf_ok (n : ℕ) (h : n < 256) : (sampleLeaf n).Ok := by
  have hr : ∀ m < 256, Hash (List.replicate 32 m) := fun m hm => ⟨fun c hc => (List.eq_of_mem_replicate hc) ▸ hm, by simp⟩
  refine ⟨hr n h, ?_⟩
  intro b hb
  simp only [sampleLeaf, List.mem_cons, List.not_mem_nil, or_false] at hb
  rcases hb with rfl | rfl
  · exact hr 1 (by norm_num)
  · exact hr 2 (by norm_num)

example : (sampleLeaf 3).Ok ∧ (sampleLeaf 4).Ok ∧ (sampleLeaf 3).text ≠ (sampleLeaf 4).text := by
  refine ⟨sampleLeaf_ok 3 (by norm_num), sampleLeaf_ok 4 (by norm_num), fun h => ?_⟩
  have := C89_parts.1 _ _ (sampleLeaf_ok 3 (by norm_num)) (sampleLeaf_ok 4 (by norm_num)) h
  revert this; decide

example : BProof.Ok ⟨[some 1, none], ([some (-2), some 3], [some 4, some 5]), [none, none], [some 0, some 7]⟩ := by
  simp [BProof.Ok]

/-- What is printed: a proof with a nil pointer and a negative number. -/
example : BProof.text ⟨[some 1, none], ([some (-2), some 3], [some 40, some 5]), [none, none], [some 0, some 7]⟩ =
    ascii "a [1 <nil>], b [[-2 3] [40 5]], c [<nil> <nil>], commitment [0 7]" := by decide

end Verif.Text
