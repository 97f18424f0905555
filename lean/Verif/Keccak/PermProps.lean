import Verif.Keccak.Perm
import Verif.Keccak.Spec

/-! # C19: the permutation gadget is Keccak-f[1600] -/

namespace Verif.Keccak
open Api Spec.Keccak
variable {p : ℕ} [Fact (1 < p)]

/-- lift lanes -/
def liftL (x : Fin 64 → Bool) : Lane p := fun i => ofB (x i)
/-- lift states -/
def liftS (x : Fin 25 → Fin 64 → Bool) : State p := fun k => liftL (x k)

abbrev BS := Fin 25 → Fin 64 → Bool

theorem xorL_lift (l : List (Fin 64 → Bool)) :
    xorL (l.map (liftL (p := p))) = some (liftL fun i => l.foldl (fun r v => r ^^ v i) false) := by
  apply seqFin_some
  intro i
  have := foldlM_sim (ofB (p := p)) (f := fun r (v : Fin 64 → Bool) => Api.xor r (liftL (p := p) v i))
    (g := fun r v => r ^^ v i) (l := l) (fun t a _ => xor_ofB t (a i)) false
  rw [List.foldlM_map]
  exact this

theorem andL_lift (l : List (Fin 64 → Bool)) :
    andL (l.map (liftL (p := p))) = some (liftL fun i => l.foldl (fun r v => r && v i) true) := by
  apply seqFin_some
  intro i
  have := foldlM_sim (ofB (p := p)) (f := fun r (v : Fin 64 → Bool) => Api.and r (liftL (p := p) v i))
    (g := fun r v => r && v i) (l := l) (fun t a _ => and_ofB t (a i)) true
  rw [List.foldlM_map]
  exact this

theorem notL_lift (x : Fin 64 → Bool) : notL (liftL (p := p) x) = some (liftL fun i => !x i) := by
  apply seqFin_some
  intro i
  have := xor_ofB (p := p) (x i) true
  simpa [liftL] using this

theorem lrot_lift (x : Fin 64 → Bool) (s : ℕ) : lrot (liftL (p := p) x) s = liftL (lrot x s) := rfl

theorem const_lift (a : ℕ) : (constUint64 a : Lane p) = liftL fun i => a.testBit i.val := by
  funext i
  simp only [constUint64, liftL, Nat.testBit_eq_decide_div_mod_eq, Nat.shiftRight_eq_div_pow]
  rcases Nat.mod_two_eq_zero_or_one (a / 2 ^ i.val) with h | h <;> simp [h]

theorem update_lift (st : BS) (k : Fin 25) (v : Fin 64 → Bool) :
    Function.update (liftS (p := p) st) k (liftL v) = liftS (Function.update st k v) := by
  funext k'
  by_cases h : k' = k
  · subst h; simp [liftS]
  · simp [liftS, h]

/-- Boolean versions of the round steps. -/
def bThetaBc (st : BS) : Fin 5 → Fin 64 → Bool := fun i z =>
  st (idx 0 i) z ^^ st (idx 1 i) z ^^ st (idx 2 i) z ^^ st (idx 3 i) z ^^ st (idx 4 i) z

def bThetaUpd (bc : Fin 5 → Fin 64 → Bool) (st : BS) : BS :=
  (List.finRange 5).foldl (fun st i =>
    (List.finRange 5).foldl (fun st j =>
      Function.update st (idx j i) (fun z => st (idx j i) z ^^ (bc (i + 4) z ^^ lrot (bc (i + 1)) 1 z)))
      st) st

def bChiUpd (st : BS) : BS :=
  (List.finRange 5).foldl (fun st j =>
    let bc : Fin 5 → Fin 64 → Bool := fun i => st (idx j i)
    (List.finRange 5).foldl (fun st i =>
      Function.update st (idx j i) (fun z => st (idx j i) z ^^ (!bc (i + 1) z && bc (i + 2) z))) st) st

def bRound (st : BS) (r : ℕ) : BS :=
  let st := bChiUpd (rhoPi (bThetaUpd (bThetaBc st) st))
  Function.update st 0 (fun z => st 0 z ^^ (rc.getD r 0).testBit z.val)

theorem xorL2 (a b : Fin 64 → Bool) :
    xorL [liftL (p := p) a, liftL b] = some (liftL fun i => a i ^^ b i) := by
  have := xorL_lift (p := p) [a, b]
  simpa using this

theorem thetaBc_lift (st : BS) :
    thetaBc (liftS (p := p) st) = some (fun i => liftL (bThetaBc st i)) := by
  apply seqFin_some
  intro i
  have := xorL_lift (p := p) [st (idx 0 i), st (idx 1 i), st (idx 2 i), st (idx 3 i), st (idx 4 i)]
  have e : bThetaBc st i = fun z => st (idx 0 i) z != (st (idx 1 i) z != (st (idx 2 i) z !=
      (st (idx 3 i) z != st (idx 4 i) z))) := by funext z; simp [bThetaBc]
  rw [e]
  simpa [liftS] using this

theorem thetaUpd_lift (bc : Fin 5 → Fin 64 → Bool) (st : BS) :
    thetaUpd (fun i => liftL (bc i)) (liftS (p := p) st) = some (liftS (bThetaUpd bc st)) := by
  unfold thetaUpd bThetaUpd
  apply foldlM_sim (liftS (p := p))
  intro st i _
  rw [lrot_lift, xorL2]
  simp only [Option.bind_eq_bind, Option.bind_some]
  apply foldlM_sim (liftS (p := p))
  intro st j _
  have := xorL2 (p := p) (st (idx j i)) (fun z => bc (i + 4) z ^^ lrot (bc (i + 1)) 1 z)
  simp only [liftS] at this ⊢
  rw [this]
  simp only [Option.bind_some, Option.pure_def, Option.some.injEq]
  exact update_lift _ _ _

theorem chiUpd_lift (st : BS) : chiUpd (liftS (p := p) st) = some (liftS (bChiUpd st)) := by
  unfold chiUpd bChiUpd
  apply foldlM_sim (liftS (p := p))
  intro st j _
  apply foldlM_sim (liftS (p := p))
  intro st' i _
  have h1 := notL_lift (p := p) (st (idx j (i + 1)))
  have h2 := andL_lift (p := p) [fun z => !st (idx j (i + 1)) z, st (idx j (i + 2))]
  have h3 := xorL2 (p := p) (st' (idx j i)) (fun z => !st (idx j (i + 1)) z && st (idx j (i + 2)) z)
  simp only [List.map_cons, List.map_nil, List.foldl_cons, List.foldl_nil, Bool.true_and] at h2
  simp only [liftS, Option.bind_eq_bind] at *
  rw [h1, Option.bind_some, h2, Option.bind_some, h3, Option.bind_some]
  simp only [Option.pure_def, Option.some.injEq]
  exact update_lift _ _ _

theorem rhoPi_lift (st : BS) : rhoPi (liftS (p := p) st) = liftS (rhoPi st) := by
  have key : ∀ (l : List (Fin 25 × ℕ)) (t : Fin 64 → Bool) (st : BS),
      l.foldl (fun (s : Lane p × State p) (jr : Fin 25 × ℕ) =>
        (s.2 jr.1, Function.update s.2 jr.1 (lrot s.1 jr.2))) (liftL t, liftS st) =
      (fun (s : (Fin 64 → Bool) × BS) => (liftL (p := p) s.1, liftS (p := p) s.2))
        (l.foldl (fun (s : (Fin 64 → Bool) × BS) (jr : Fin 25 × ℕ) =>
        (s.2 jr.1, Function.update s.2 jr.1 (lrot s.1 jr.2))) (t, st)) := by
    intro l
    induction l with
    | nil => intros; rfl
    | cons a l ih =>
      intro t st
      simp only [List.foldl_cons]
      rw [lrot_lift, update_lift]
      exact ih _ _
  unfold rhoPi
  exact congrArg Prod.snd (key _ _ _)

theorem roundStep_lift (st : BS) (r : ℕ) (hr : r < 24) :
    roundStep (liftS (p := p) st) r = some (liftS (bRound st r)) := by
  unfold roundStep bRound
  have hrc : rc[r]? = some (rc.getD r 0) := by
    have : r < rc.length := hr
    simp [List.getD, List.getElem?_eq_getElem this]
  simp only [thetaBc_lift, thetaUpd_lift, rhoPi_lift, chiUpd_lift, hrc, Option.bind_eq_bind,
    Option.bind_some, const_lift]
  simp only [liftS, xorL2, Option.bind_some, Option.pure_def]
  exact congrArg some (update_lift _ _ _)

theorem permuteLanes_lift (st : BS) :
    permuteLanes (liftS (p := p) st) = some (liftS ((List.range 24).foldl bRound st)) := by
  unfold permuteLanes
  apply foldlM_sim (liftS (p := p))
  intro t r hr
  exact roundStep_lift t r (List.mem_range.1 hr)

/-- Lanes as FIPS state. -/
def toSt (st : BS) : St := fun x y => st (idx y x)

theorem bTheta_spec (st : BS) : toSt (bThetaUpd (bThetaBc st) st) = theta (toSt st) := by
  funext x y z
  have h : ∀ (bc : Fin 5 → Fin 64 → Bool), bThetaUpd bc st (idx y x) =
      (fun z => st (idx y x) z ^^ (bc (x + 4) z ^^ lrot (bc (x + 1)) 1 z)) := by
    intro bc
    fin_cases x <;> fin_cases y <;> rfl
  have hz : (⟨(z.val + 64 - 1) % 64, Nat.mod_lt _ (by decide)⟩ : Fin 64) = z - 1 := by
    apply Fin.ext
    rw [Fin.sub_def]
    simp
    omega
  have hx : x + 4 = x - 1 := by clear h; revert x; decide
  simp only [toSt, h, theta, thetaC, bThetaBc, lrot, hz, hx, Bool.xor_assoc]

theorem lrot_zero {α : Type*} (x : Fin 64 → α) : lrot x 0 = x := by
  funext i
  have : (⟨(i.val + 64 - 0) % 64, Nat.mod_lt _ (by decide)⟩ : Fin 64) = i := by
    apply Fin.ext; simp
  simp only [lrot, this]

theorem bRhoPi_spec (st : BS) : toSt (rhoPi st) = pi (rho (toSt st)) := by
  funext x y
  have h : rhoPi st (idx y x) = lrot (st (idx x (x + 3 * y))) (rhoOffset (x + 3 * y) x % 64) := by
    have h0 : rhoPi st (idx 0 0) = lrot (st (idx 0 0)) 0 := by
      rw [lrot_zero]; rfl
    fin_cases x <;> fin_cases y <;> first | exact h0 | rfl
  funext z
  simp only [toSt, pi, rho, h, lrot]
  congr 1
  apply Fin.ext
  rw [Fin.sub_def]
  simp [Fin.ofNat]
  omega

theorem bChi_spec (st : BS) : toSt (bChiUpd st) = chi (toSt st) := by
  funext x y z
  fin_cases x <;> fin_cases y <;> rfl

theorem rc_spec (r : ℕ) (hr : r < 24) (z : Fin 64) :
    (rc.getD r 0).testBit z.val = roundConst r z := by
  have : ∀ r : Fin 24, ∀ z : Fin 64, (rc.getD r.val 0).testBit z.val = roundConst r.val z := by
    decide
  exact this ⟨r, hr⟩ z

theorem bRound_spec (st : BS) (r : ℕ) (hr : r < 24) :
    toSt (bRound st r) = round r (toSt st) := by
  unfold round
  rw [← bTheta_spec, ← bRhoPi_spec, ← bChi_spec]
  unfold bRound
  generalize bChiUpd (rhoPi (bThetaUpd (bThetaBc st) st)) = s
  funext x y z
  simp only [toSt, iota]
  by_cases h : x = 0 ∧ y = 0
  · obtain ⟨rfl, rfl⟩ := h
    have : idx 0 0 = 0 := rfl
    have hrc := rc_spec r hr z
    rw [this, Function.update_self, if_pos ⟨rfl, rfl⟩, hrc]
  · rw [if_neg h, Function.update_of_ne]
    intro h'
    apply h
    have := congrArg Fin.val h'
    simp [idx] at this
    exact ⟨Fin.ext (by simp; omega), Fin.ext (by simp; omega)⟩

theorem bRounds_spec (st : BS) (n : ℕ) (hn : n ≤ 24) :
    toSt ((List.range n).foldl bRound st) = (List.range n).foldl (fun a i => round i a) (toSt st) := by
  induction n with
  | zero => rfl
  | succ n ih =>
    rw [List.range_succ, List.foldl_append, List.foldl_append, ← ih (by omega)]
    exact bRound_spec _ n (by omega)

theorem xorL_none (ins : List (Lane p)) (v : Lane p) (hv : v ∈ ins) (z : Fin 64) (hz : ¬ IsBit (v z)) :
    xorL ins = none := by
  apply seqFin_none z
  have key : ∀ (l : List (Lane p)) (r : F p), v ∈ l →
      l.foldlM (fun r v => Api.xor r (v z)) r = none := by
    intro l
    induction l with
    | nil => intro r h; cases h
    | cons a l ih =>
      intro r h
      rw [List.foldlM_cons]
      rcases List.mem_cons.1 h with rfl | h
      · rw [xor_none_right hz]; rfl
      · cases Api.xor r (a z) with
        | none => rfl
        | some y => exact ih y h
  exact key ins 0 hv

theorem permuteLanes_none (st : State p) (k : Fin 25) (z : Fin 64) (h : ¬ IsBit (st k z)) :
    permuteLanes st = none := by
  have h1 : thetaBc st = none := by
    apply seqFin_none ⟨k.val % 5, by omega⟩
    refine xorL_none _ (st k) ?_ z h
    clear h
    revert k
    intro k
    fin_cases k <;> simp [idx]
  have h2 : roundStep st 0 = none := by simp [roundStep, h1]
  unfold permuteLanes
  rw [show List.range 24 = 0 :: (List.range 23).map Nat.succ from rfl, List.foldlM_cons, h2]
  rfl

/-- The lanes of a 1600-bit state. -/
def lanesOf (b : Fin 1600 → Bool) : BS := fun i z => b ⟨i.val * 64 + z.val, by omega⟩

theorem permute_lift (b : Fin 1600 → Bool) :
    permute (fun i => ofB (b i) : Fin 1600 → F p) = some (fun i => ofB (keccakF b i)) := by
  have h := permuteLanes_lift (p := p) (lanesOf b)
  have e : (fun (i : Fin 25) (z : Fin 64) => (ofB (b ⟨i.val * 64 + z.val, by omega⟩) : F p)) =
      liftS (lanesOf b) := rfl
  simp only [permute, e, h, Option.bind_eq_bind, Option.bind_some, Option.pure_def,
    Option.some.injEq]
  funext k
  simp only [liftS, liftL]
  congr 1
  have h2 := bRounds_spec (lanesOf b) 24 le_rfl
  have e2 : toSt (lanesOf b) = ofBits b := by
    funext x y z
    simp only [toSt, lanesOf, ofBits, idx]
    congr 1
    apply Fin.ext
    simp only []
    ring
  unfold keccakF
  rw [← e2, ← h2]
  simp only [toBits, toSt, idx]
  have e3 : (⟨5 * (k.val / 64 / 5) + k.val / 64 % 5, by omega⟩ : Fin 25) = ⟨k.val / 64, by omega⟩ := by
    apply Fin.ext
    simp only []
    omega
  rw [e3]

/-- C19. The in-circuit permutation accepts exactly the states made of bits, and then its only
possible output is Keccak-f[1600] (FIPS 202) of that state. -/
theorem C19_permute (a out : Fin 1600 → F p) :
    permute a = some out ↔
      ∃ b : Fin 1600 → Bool, (∀ i, a i = ofB (b i)) ∧ ∀ i, out i = ofB (keccakF b i) := by
  by_cases h : ∀ i, IsBit (a i)
  · choose b hb using fun i => isBit_iff.1 (h i)
    have ea : a = fun i => ofB (b i) := funext hb
    constructor
    · intro hp
      rw [ea, permute_lift, Option.some.injEq] at hp
      exact ⟨b, hb, fun i => by rw [← hp]⟩
    · rintro ⟨b', hb', ho⟩
      rw [show a = fun i => ofB (b' i) from funext hb', permute_lift]
      exact congrArg some (funext fun i => (ho i).symm)
  · push_neg at h
    obtain ⟨i, hi⟩ := h
    constructor
    · intro hp
      have hn : permuteLanes (fun (i : Fin 25) (z : Fin 64) => a ⟨i.val * 64 + z.val, by omega⟩) = none := by
        apply permuteLanes_none _ ⟨i.val / 64, by omega⟩ ⟨i.val % 64, by omega⟩
        have : (⟨i.val / 64 * 64 + i.val % 64, by omega⟩ : Fin 1600) = i := by
          apply Fin.ext; simp only []; omega
        simpa only [this] using hi
      simp only [permute, hn] at hp
      cases hp
    · rintro ⟨b, hb, _⟩
      exact absurd (hb i ▸ isBit_ofB (b i)) hi

end Verif.Keccak
