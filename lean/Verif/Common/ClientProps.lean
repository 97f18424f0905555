import Verif.Common.Client

/-! # C44: block and slot lookups (common/eth/client.go) -/

namespace Verif.Client

/-- The reply says: `data[0].posConsensus` has this slot number and finality flag. -/
def SaysSlot (r : Reply) (q : ℚ) (fin : Bool) : Prop :=
  ∃ top data rest pc, r.body = some top ∧ lookup top "data" = .arr (.obj data :: rest) ∧
    lookup data "posConsensus" = .obj pc ∧ lookup pc "slot" = .num q ∧ lookup pc "finalized" = .bool fin

/-- The reply says: `data.exec_block_number` is this number. -/
def SaysBlock (r : Reply) (q : ℚ) : Prop :=
  ∃ top data, r.body = some top ∧ lookup top "data" = .obj data ∧ lookup data "exec_block_number" = .num q

def slotUrl (chainId block : ℕ) : String :=
  "https://" ++ (if chainId = 5 then "goerli." else "") ++ "beaconcha.in/api/v1/execution/block/" ++ toString block

def blockUrl (chainId slot : ℕ) : String :=
  "https://" ++ (if chainId = 5 then "goerli." else "") ++ "beaconcha.in/api/v1/slot/" ++ toString slot

theorem lookup_none (r : Reply) (k : String) (v : Json) (hv : v ≠ .null) (h : lookup (r.body.getD []) k = v) :
    ∃ top, r.body = some top ∧ lookup top k = v := by
  cases hb : r.body with
  | none => rw [hb] at h; exact absurd h.symm hv
  | some top => rw [hb] at h; exact ⟨top, rfl, h⟩

/-- **C44**: `GetSlot` reports a finalized slot only for mainnet or Goerli, when the server answered the request for
that block with status 200 and a body that carries this slot and says it is finalized. -/
theorem C44_getSlot_finalized (rnd : ℚ → ℚ) (other : ℚ → ℕ) (chainId : ℕ) (net : String → Option Reply) (block s : ℕ)
    (h : getSlot rnd other chainId net block = .ok (s, true)) :
    (chainId = 1 ∨ chainId = 5) ∧ ∃ r q, net (slotUrl chainId block) = some r ∧ r.status = 200 ∧ SaysSlot r q true ∧
      s = (toUint64 (rnd q)).getD (other (rnd q)) := by
  unfold getSlot at h
  split at h
  · simp at h
  rename_i hc
  refine ⟨by omega, ?_⟩
  simp only at h
  split at h
  · simp at h
  rename_i r hr
  split at h
  · simp at h
  rename_i hs
  split at h
  · rename_i data rest hd
    split at h
    · simp at h
    · rename_i pc hpc
      split at h
      · rename_i q f hq hf
        simp only [Outcome.ok.injEq, Prod.mk.injEq] at h
        obtain ⟨h1, rfl⟩ := h
        obtain ⟨top, e1, e2⟩ := lookup_none r "data" _ (by simp) hd
        exact ⟨r, q, hr, by omega, ⟨top, data, rest, pc, e1, e2, hpc, hq, hf⟩, h1.symm⟩
      · simp at h
    · simp at h
  · simp at h

/-- **C44**, conversely such a reply is reported. -/
theorem C44_getSlot_complete (rnd : ℚ → ℚ) (other : ℚ → ℕ) (chainId : ℕ) (net : String → Option Reply) (block : ℕ)
    (hc : chainId = 1 ∨ chainId = 5) (r : Reply) (q : ℚ) (f : Bool) (hr : net (slotUrl chainId block) = some r)
    (hs : r.status = 200) (h : SaysSlot r q f) :
    getSlot rnd other chainId net block = .ok ((toUint64 (rnd q)).getD (other (rnd q)), f) := by
  obtain ⟨top, data, rest, pc, h1, h2, h3, h4, h5⟩ := h
  unfold getSlot
  rw [if_neg (by omega)]
  unfold slotUrl at hr
  simp only [hr, hs, h1, Option.getD_some, h2, h3, h4, h5]
  simp

/-- **C44**: `GetBlock` returns a non-zero block number only if it is the slot itself on BSC, or the number in a
status-200 reply to the request for that slot on mainnet or Goerli. -/
theorem C44_getBlock_source (rnd : ℚ → ℚ) (other : ℚ → ℕ) (chainId : ℕ) (net : String → Option Reply) (slot b : ℕ)
    (h : getBlock rnd other chainId net slot = .ok b) (hb : b ≠ 0) :
    ((chainId = 56 ∨ chainId = 97) ∧ b = slot) ∨
    ((chainId = 1 ∨ chainId = 5) ∧ ∃ r q, net (blockUrl chainId slot) = some r ∧ r.status = 200 ∧ SaysBlock r q ∧
      b = (toUint64 (rnd q)).getD (other (rnd q))) := by
  unfold getBlock at h
  split at h
  · rename_i hc
    simp only [Outcome.ok.injEq] at h
    exact Or.inl ⟨hc, h.symm⟩
  split at h
  · simp only [Outcome.ok.injEq] at h; omega
  rename_i hc
  right
  refine ⟨by omega, ?_⟩
  simp only at h
  split at h
  · simp only [Outcome.ok.injEq] at h; omega
  rename_i r hr
  split at h
  · simp only [Outcome.ok.injEq] at h; omega
  rename_i hs
  split at h
  · rename_i data hd
    split at h
    · simp only [Outcome.ok.injEq] at h; omega
    · rename_i q hq
      simp only [Outcome.ok.injEq] at h
      obtain ⟨top, e1, e2⟩ := lookup_none r "data" _ (by simp) hd
      exact ⟨r, q, hr, by omega, ⟨top, data, e1, e2, hq⟩, h.symm⟩
    · simp at h
  · simp at h

/-- **C44**: numbers up to `2^53` come through exactly, given that `float64` represents them exactly. -/
theorem C44_exact (rnd : ℚ → ℚ) (other : ℚ → ℕ) (hr : ∀ n : ℕ, n ≤ 2 ^ 53 → rnd n = n) (n : ℕ) (hn : n ≤ 2 ^ 53) :
    (toUint64 (rnd n)).getD (other (rnd n)) = n := by
  rw [hr n hn]
  unfold toUint64
  rw [if_pos]
  · simp
  · refine ⟨by positivity, ?_⟩
    have : (n : ℚ) ≤ ((2 ^ 53 : ℕ) : ℚ) := by exact_mod_cast hn
    refine lt_of_le_of_lt this ?_
    norm_num

/-- **C44**: every non-negative number below `2^64` that `float64` represents comes through as its integer part. -/
theorem C44_exact_representable (rnd : ℚ → ℚ) (other : ℚ → ℕ) (x : ℚ) (h0 : 0 ≤ x) (h1 : x < 2 ^ 64) (hx : rnd x = x) :
    (((toUint64 (rnd x)).getD (other (rnd x)) : ℕ) : ℤ) = ⌊x⌋ := by
  rw [hx]
  unfold toUint64
  rw [if_pos ⟨h0, h1⟩]
  simpa using Int.toNat_of_nonneg (Int.floor_nonneg.mpr h0)

example : (((toUint64 (id (2 ^ 63 + 2 ^ 20 : ℚ))).getD 7 : ℕ) : ℤ) = ⌊(2 ^ 63 + 2 ^ 20 : ℚ)⌋ :=
  C44_exact_representable id (fun _ => 7) _ (by norm_num) (by norm_num) rfl

/-- **C44**, other chains: no request is made and nothing is reported. -/
theorem C44_other_chains (rnd : ℚ → ℚ) (other : ℚ → ℕ) (chainId : ℕ) (net : String → Option Reply) (x : ℕ)
    (h : chainId ≠ 1 ∧ chainId ≠ 5) :
    getSlot rnd other chainId net x = .ok (0, false) ∧
    (chainId ≠ 56 → chainId ≠ 97 → getBlock rnd other chainId net x = .ok 0) ∧
    (chainId = 56 ∨ chainId = 97 → getBlock rnd other chainId net x = .ok x) := by
  refine ⟨?_, ?_, ?_⟩
  · unfold getSlot; rw [if_pos h]
  · intro h1 h2; unfold getBlock; rw [if_neg (by omega), if_pos h]
  · intro h1; unfold getBlock; rw [if_pos h1]

/-- **C44**, limit: the reply is not checked against the question.  Whatever block the reply is about, the same reply
to two requests gives the same answer, also when the reply names its own block number. -/
theorem C44_reply_identity_unchecked (rnd : ℚ → ℚ) (other : ℚ → ℕ) (chainId : ℕ) (r : Option Reply) (x y : ℕ) :
    getSlot rnd other chainId (fun _ => r) x = getSlot rnd other chainId (fun _ => r) y ∧
    (chainId ≠ 56 → chainId ≠ 97 →
      getBlock rnd other chainId (fun _ => r) x = getBlock rnd other chainId (fun _ => r) y) := by
  constructor
  · rfl
  · intro h1 h2
    unfold getBlock
    have e : ¬ (chainId = 56 ∨ chainId = 97) := by omega
    simp only [if_neg e]

/-- **C44**, limit: a status-200 reply that is not the expected JSON (not an object, or `data` missing or null) makes
both lookups panic instead of reporting failure; the `data == nil` test in `GetBlock` comes too late. -/
theorem C44_malformed_panics (rnd : ℚ → ℚ) (other : ℚ → ℕ) (chainId : ℕ) (hc : chainId = 1 ∨ chainId = 5) (r : Reply)
    (hs : r.status = 200) (hd : ∀ top, r.body = some top → lookup top "data" = .null) (x : ℕ) :
    getSlot rnd other chainId (fun _ => some r) x = .panic ∧ getBlock rnd other chainId (fun _ => some r) x = .panic := by
  have e : lookup (r.body.getD []) "data" = .null := by
    cases hb : r.body with
    | none => rfl
    | some top => exact hd top hb
  constructor
  · unfold getSlot; rw [if_neg (by omega)]; simp [hs, e]
  · unfold getBlock; rw [if_neg (by omega), if_neg (by omega)]; simp [hs, e]

/-- a reply that is reported, one that panics -/
example : getSlot id (fun _ => 0) 1 (fun _ => some ⟨200, some [("data", .arr [.obj [("posConsensus",
    .obj [("slot", .num 77), ("finalized", .bool true)])]])]⟩) 5 = .ok (77, true) := by
  rw [C44_getSlot_complete id (fun _ => 0) 1 _ 5 (Or.inl rfl) _ 77 true rfl rfl
    ⟨_, [("posConsensus", .obj [("slot", .num 77), ("finalized", .bool true)])], [],
      [("slot", .num 77), ("finalized", .bool true)], rfl, by simp [lookup], by simp [lookup], by simp [lookup], by simp [lookup]⟩]
  have := C44_exact id (fun _ => 0) (fun _ _ => rfl) 77 (by norm_num)
  rw [show (77 : ℚ) = ((77 : ℕ) : ℚ) by norm_num, this]

example : getBlock id (fun _ => 0) 5 (fun _ => some ⟨200, some [("data", .null)]⟩) 5 = .panic :=
  (C44_malformed_panics id _ 5 (Or.inr rfl) _ rfl (by intro t h; simp only [Option.some.injEq] at h; subst h; simp [lookup]) 5).2

end Verif.Client
