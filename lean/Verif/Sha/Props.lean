import Verif.Sha.Digest

/-! # C24, C25, C26: the SHA gadgets return FIPS 180-4 digests for every history of calls -/

namespace Verif.Sha
open Api
open Spec (Vars Alg)
variable {p : ℕ}

/-- The byte a circuit variable stands for. -/
def byteOf (v : F p) : BitVec 8 := BitVec.ofNat 8 v.val

/-- What a user expects of a history of calls, in terms of the standard only: `m` is everything
written since the last reset; every `Sum` returns the digest of `m` (as field elements). -/
def expected (A : Alg) (m : List (BitVec 8)) : List (Call p) → List (List (F p))
  | [] => []
  | .write q :: cs => expected A (m ++ q.map byteOf) cs
  | .sum :: cs => ((Spec.hash A m).map fun b => ((b.toNat : ℕ) : F p)) :: expected A m cs
  | .reset :: cs => expected A [] cs

/-- All the values passed to `Write` in a history. -/
def written : List (Call p) → List (F p)
  | [] => []
  | .write q :: cs => q ++ written cs
  | _ :: cs => written cs

/-- Is the call a `Sum`? -/
def Call.isSum : Call p → Bool
  | .sum => true
  | _ => false

@[simp] theorem isSum_sum : (Call.sum : Call p).isSum = true := rfl
@[simp] theorem isSum_reset : (Call.reset : Call p).isSum = false := rfl
@[simp] theorem isSum_write (q : List (F p)) : (Call.write q).isSum = false := rfl

section
variable [Fact (1 < p)]

theorem run_spec {P : Prm} (hG : Good P p) (cs : List (Call p)) (d : Digest p P) (m : List (BitVec 8))
    (hd : Rep d m) (hb : ∀ v ∈ written cs, v.val < 256) (hl : m.length + (written cs).length < 2 ^ 61) :
    run P d cs = some (expected (toAlg P) m cs) := by
  induction cs generalizing d m with
  | nil => rfl
  | cons c cs ih =>
    cases c with
    | write q =>
      simp only [written, List.mem_append, List.length_append] at hb hl
      obtain ⟨d', e, r⟩ := write_spec hG d m q hd (fun v hv => hb v (Or.inl hv))
      simp only [run, call, e, Option.map_some, Option.bind_eq_bind, Option.bind_some]
      rw [ih d' _ r (fun v hv => hb v (Or.inr hv)) (by simp; omega)]
      rfl
    | sum =>
      simp only [written] at hb hl
      simp only [run, call, sum, checkSum_spec hG d m hd (by omega), Option.map_some, Option.bind_eq_bind,
        Option.bind_some]
      rw [show (pure (d, (Spec.hash (toAlg P) m).map fun b => ((b.toNat : ℕ) : F p)) :
        Option (Digest p P × List (F p))) = some (d, (Spec.hash (toAlg P) m).map fun b => ((b.toNat : ℕ) : F p)) from rfl]
      simp only [Option.map_some, Option.bind_some]
      rw [ih d m hd hb hl]
      rfl
    | reset =>
      simp only [written] at hb hl
      obtain ⟨_, a, t, rfl, hr⟩ := hd
      obtain ⟨d', e, r⟩ := reset_spec hG d hr.xl
      simp only [run, call, e, Option.map_some, Option.bind_eq_bind, Option.bind_some]
      rw [ih d' [] r hb (by simp at hl ⊢; omega)]
      rfl

theorem run_none {P : Prm} (cs : List (Call p)) (d : Digest p P)
    (hb : ∃ v ∈ written cs, 256 ≤ v.val) : run P d cs = none := by
  induction cs generalizing d with
  | nil => simp [written] at hb
  | cons c cs ih =>
    rw [run]
    by_cases hw : ∃ v ∈ written cs, 256 ≤ v.val
    · cases call P d c with
      | none => rfl
      | some r => simp only [Option.bind_eq_bind, Option.bind_some]; rw [ih r.1 hw]; rfl
    · cases c with
      | write q =>
        obtain ⟨v, hv, h⟩ := hb
        simp only [written, List.mem_append] at hv
        rcases hv with hv | hv
        · simp only [call, write_none d q ⟨v, hv, h⟩]; rfl
        · exact absurd ⟨v, hv, h⟩ hw
      | sum => exact absurd hb hw
      | reset => exact absurd hb hw

/-- A history of calls on a fresh digest: `New` followed by the calls. -/
def session (P : Prm) (cs : List (Call p)) : Option (List (List (F p))) := do
  let d ← new P
  run P d cs

theorem session_spec {P : Prm} (hG : Good P p) (cs : List (Call p))
    (hb : ∀ v ∈ written cs, v.val < 256) (hl : (written cs).length < 2 ^ 61) :
    session P cs = some (expected (toAlg P) [] cs) := by
  obtain ⟨d, e, r⟩ := new_spec hG
  simp only [session, e, Option.bind_eq_bind, Option.bind_some]
  exact run_spec hG cs d [] r hb (by simpa using hl)

theorem session_none {P : Prm} (cs : List (Call p))
    (hb : ∃ v ∈ written cs, 256 ≤ v.val) : session (p := p) P cs = none := by
  unfold session
  cases (new P : Option (Digest p P)) with
  | none => rfl
  | some d => exact run_none cs d hb

/-- **C24.** Whatever the sequence of `Write`, `Sum` and `Reset` calls on a fresh SHA-256 digest, as long as
everything written is a byte, every `Sum` returns the SHA-256 digest of what was written since the last reset:
no constraint fails, nothing panics, and no other output satisfies the constraints. -/
theorem C24_sha256 (hp : 2 ^ 68 < p) (cs : List (Call p))
    (hb : ∀ v ∈ written cs, v.val < 256) (hl : (written cs).length < 2 ^ 61) :
    session prm256 cs = some (expected Spec.sha256 [] cs) :=
  session_spec (good256 hp) cs hb hl

/-- **C24.** A value outside the byte range makes the circuit unsatisfiable. -/
theorem C24_sha256_rejects (cs : List (Call p))
    (hb : ∃ v ∈ written cs, 256 ≤ v.val) : session (p := p) prm256 cs = none :=
  session_none cs hb

/-- **C24.** In particular any split of a message into writes gives the digest of the message. -/
theorem C24_sha256_split (hp : 2 ^ 68 < p) (qs : List (List (F p))) (hb : ∀ v ∈ qs.flatten, v.val < 256)
    (hl : qs.flatten.length < 2 ^ 61) :
    session prm256 (qs.map Call.write ++ [Call.sum])
      = some [(Spec.hash Spec.sha256 (qs.flatten.map byteOf)).map fun b => ((b.toNat : ℕ) : F p)] := by
  have hw : written (qs.map Call.write ++ [Call.sum]) = qs.flatten := by
    clear hb hl
    induction qs with
    | nil => rfl
    | cons q qs ih => simp [written, ih]
  rw [C24_sha256 hp _ (by rw [hw]; exact hb) (by rw [hw]; exact hl)]
  have : ∀ m, expected Spec.sha256 m (qs.map Call.write ++ [Call.sum])
      = [(Spec.hash Spec.sha256 (m ++ qs.flatten.map byteOf)).map fun b => ((b.toNat : ℕ) : F p)] := by
    clear hb hl hw
    induction qs with
    | nil => intro m; simp [expected]
    | cons q qs ih => intro m; simp [expected, ih]
  rw [this]; rfl

/-- **C25.** The same for the SHA-512 gadget. -/
theorem C25_sha512 (hp : 2 ^ 68 < p) (cs : List (Call p))
    (hb : ∀ v ∈ written cs, v.val < 256) (hl : (written cs).length < 2 ^ 61) :
    session prm512 cs = some (expected Spec.sha512 [] cs) :=
  session_spec (good512 hp) cs hb hl

/-- **C25.** A value outside the byte range makes the circuit unsatisfiable. -/
theorem C25_sha512_rejects (cs : List (Call p))
    (hb : ∃ v ∈ written cs, 256 ≤ v.val) : session (p := p) prm512 cs = none :=
  session_none cs hb

/-- **C25.** Any split of a message into writes gives the SHA-512 digest of the message. -/
theorem C25_sha512_split (hp : 2 ^ 68 < p) (qs : List (List (F p))) (hb : ∀ v ∈ qs.flatten, v.val < 256)
    (hl : qs.flatten.length < 2 ^ 61) :
    session prm512 (qs.map Call.write ++ [Call.sum])
      = some [(Spec.hash Spec.sha512 (qs.flatten.map byteOf)).map fun b => ((b.toNat : ℕ) : F p)] := by
  have hw : written (qs.map Call.write ++ [Call.sum]) = qs.flatten := by
    clear hb hl
    induction qs with
    | nil => rfl
    | cons q qs ih => simp [written, ih]
  rw [C25_sha512 hp _ (by rw [hw]; exact hb) (by rw [hw]; exact hl)]
  have : ∀ m, expected Spec.sha512 m (qs.map Call.write ++ [Call.sum])
      = [(Spec.hash Spec.sha512 (m ++ qs.flatten.map byteOf)).map fun b => ((b.toNat : ℕ) : F p)] := by
    clear hb hl hw
    induction qs with
    | nil => intro m; simp [expected]
    | cons q qs ih => intro m; simp [expected, ih]
  rw [this]; rfl

theorem written_filter (cs : List (Call p)) : written (cs.filter fun c => !c.isSum) = written cs := by
  induction cs with
  | nil => rfl
  | cons c cs ih => cases c <;> simp [written, ih]

theorem written_append (cs cs' : List (Call p)) : written (cs ++ cs') = written cs ++ written cs' := by
  induction cs with
  | nil => rfl
  | cons c cs ih => cases c <;> simp [written, ih]

theorem expected_last (A : Alg) (cs cs' : List (Call p)) (m : List (BitVec 8)) :
    ∃ pre : List (List (F p)), expected A m (cs ++ cs')
      = pre ++ expected A m ((cs.filter fun c => !c.isSum) ++ cs') := by
  induction cs generalizing m with
  | nil => exact ⟨[], rfl⟩
  | cons c cs ih =>
    cases c with
    | write q => simpa [expected] using ih (m ++ q.map byteOf)
    | reset => simpa [expected] using ih []
    | sum =>
      obtain ⟨pre, h⟩ := ih m
      exact ⟨((Spec.hash A m).map fun b => ((b.toNat : ℕ) : F p)) :: pre, by simp [expected, h]⟩

/-- **C26.** Removing every `Sum` from the first part `cs` of a history never changes the digests returned by
the rest `cs'`: reading a digest does not disturb the hash in progress (SHA-256). -/
theorem C26_sum_pure_256 (hp : 2 ^ 68 < p) (cs cs' : List (Call p))
    (hb : ∀ v ∈ written (cs ++ cs'), v.val < 256) (hl : (written (cs ++ cs')).length < 2 ^ 61) :
    ∃ pre later, session prm256 (cs ++ cs') = some (pre ++ later) ∧
      session prm256 ((cs.filter fun c => !c.isSum) ++ cs') = some later := by
  have hw : written ((cs.filter fun c => !c.isSum) ++ cs') = written (cs ++ cs') := by
    rw [written_append, written_append, written_filter]
  rw [C24_sha256 hp _ hb hl, C24_sha256 hp _ (by rw [hw]; exact hb) (by rw [hw]; exact hl)]
  obtain ⟨pre, h⟩ := expected_last Spec.sha256 cs cs' []
  exact ⟨pre, _, by rw [h], rfl⟩

/-- **C26.** The same for SHA-512. -/
theorem C26_sum_pure_512 (hp : 2 ^ 68 < p) (cs cs' : List (Call p))
    (hb : ∀ v ∈ written (cs ++ cs'), v.val < 256) (hl : (written (cs ++ cs')).length < 2 ^ 61) :
    ∃ pre later, session prm512 (cs ++ cs') = some (pre ++ later) ∧
      session prm512 ((cs.filter fun c => !c.isSum) ++ cs') = some later := by
  have hw : written ((cs.filter fun c => !c.isSum) ++ cs') = written (cs ++ cs') := by
    rw [written_append, written_append, written_filter]
  rw [C25_sha512 hp _ hb hl, C25_sha512 hp _ (by rw [hw]; exact hb) (by rw [hw]; exact hl)]
  obtain ⟨pre, h⟩ := expected_last Spec.sha512 cs cs' []
  exact ⟨pre, _, by rw [h], rfl⟩

/-- The number of digests returned is the number of `Sum` calls. -/
theorem expected_length (A : Alg) (cs : List (Call p)) (m : List (BitVec 8)) :
    (expected A m cs).length = (cs.filter Call.isSum).length := by
  induction cs generalizing m with
  | nil => rfl
  | cons c cs ih =>
    cases c with
    | sum => rw [List.filter_cons_of_pos (by rfl)]; simp [expected, ih]
    | write q => simp [expected, ih]
    | reset => simp [expected, ih]

end

/-- The hypotheses are met by a history with the message "abc" written in two parts, with a `Sum` between,
over any large enough field (for instance the BN254 scalar field). -/
example (hp : 2 ^ 68 < p) : ∃ cs : List (Call p),
    (∀ v ∈ written cs, v.val < 256) ∧ (written cs).map byteOf = [0x61, 0x62, 0x63] ∧
      (cs.filter Call.isSum).length = 2 := by
  have hv : ∀ n : ℕ, n < 256 → ((n : ℕ) : F p).val = n := fun n h => ZMod.val_natCast_of_lt (by omega)
  refine ⟨[.write [((97 : ℕ) : F p)], .sum, .write [((98 : ℕ) : F p), ((99 : ℕ) : F p)], .sum], ?_, ?_, rfl⟩
  · intro v h
    simp only [written, List.append_nil, List.cons_append, List.nil_append, List.mem_cons, List.not_mem_nil,
      or_false] at h
    rcases h with rfl | rfl | rfl <;> rw [hv _ (by decide)] <;> decide
  · simp only [written, List.append_nil, List.cons_append, List.nil_append, List.map_cons, List.map_nil, byteOf]
    rw [hv _ (by decide), hv _ (by decide), hv _ (by decide)]
    rfl

end Verif.Sha
