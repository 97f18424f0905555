import Verif.Bls.PropsPair

/-! # C53, the part that fails: points at infinity

The encoding of the neutral element is `(0, 0)` (gnark's convention). -/

namespace Verif.Bls
open Verif.Ec QuadraticAlgebra

attribute [local irreducible] q r E2.mulByNonResidueAt

local notation "ι" => algebraMap (Fq2 Fq) L

theorem doubleStep_val (T : G2Projective Fq) : ∃ T' l, doubleStep T = some (T', l) ∧
    T'.x.val = (T.y.val ^ 2 - 9 * T.z.val ^ 2 * bTw Fq) * (T.x.val * T.y.val / 2) ∧
    T'.y.val = ((T.y.val ^ 2 + 9 * T.z.val ^ 2 * bTw Fq) / 2) ^ 2 - 27 * (bTw Fq) ^ 2 * T.z.val ^ 4 ∧
    T'.z.val = T.y.val ^ 2 * (2 * T.y.val * T.z.val) ∧
    l.r0.val = 3 * T.z.val ^ 2 * bTw Fq - T.y.val ^ 2 ∧ l.r1.val = 3 * T.x.val ^ 2 ∧ l.r2.val = -(2 * T.y.val * T.z.val) := by
  have h2 := two_ne
  obtain ⟨A, hA, vA⟩ := E2.val_halve h2 (E2.mul T.x T.y)
  set B := E2.square T.y with hB
  set C := E2.square T.z with hC
  set E := E2.mulBybTwistCurveCoeff (E2.add (E2.double C) C) with hE
  set F := E2.add (E2.double E) E with hF
  obtain ⟨G, hG, vG⟩ := E2.val_halve h2 (E2.add B F)
  set H := E2.sub (E2.square (E2.add T.y T.z)) (E2.add B C) with hH
  have vE : E.val = 3 * T.z.val ^ 2 * bTw Fq := by
    simp only [hE, hC, E2.val_mulBybTwistCurveCoeff, E2.val_add, E2.val_double, E2.val_square]; ring
  have vH : H.val = 2 * T.y.val * T.z.val := by
    simp only [hH, hB, hC, E2.val_sub, E2.val_add, E2.val_square]; ring
  have vF : F.val = 9 * T.z.val ^ 2 * bTw Fq := by
    simp only [hF, E2.val_add, E2.val_double, vE]; ring
  have vB : B.val = T.y.val ^ 2 := by rw [hB, E2.val_square]; ring
  refine ⟨⟨E2.mul (E2.sub B F) A, E2.sub (E2.square G) (E2.add (E2.double (E2.square E)) (E2.square E)), E2.mul B H⟩,
    ⟨E2.sub E B, E2.add (E2.double (E2.square T.x)) (E2.square T.x), E2.neg H⟩, ?_, ?_, ?_, ?_, ?_, ?_, ?_⟩
  · unfold doubleStep
    simp only [hA, ← hB, ← hC, ← hE, ← hF, hG, ← hH]
    rfl
  · simp only [E2.val_mul, E2.val_sub, vA, vB, vF]
  · simp only [E2.val_square, E2.val_sub, vG, vB, vF, E2.val_add, E2.val_double, vE]; ring
  · simp only [E2.val_mul, vB, vH]
  · simp only [E2.val_sub, vE, vB]
  · simp only [E2.val_add, E2.val_double, E2.val_square]; ring
  · rw [E2.val_neg, vH]

/-- One iteration of the inner loop, in the target field. -/
theorem body_cons (bit : ℕ) (p : G1Affine Fq) (ps : List (G1Affine Fq)) (q0 : G2Affine Fq) (qs : List (G2Affine Fq))
    (T : G2Projective Fq) (Ts : List (G2Projective Fq)) (res : E12 Fq) {out : List (G2Projective Fq) × E12 Fq}
    (h : millerBody bit (p :: ps) (q0 :: qs) (T :: Ts) res = some out) {T1 : G2Projective Fq} {l : LineEvaluation Fq}
    (hd : doubleStep T = some (T1, l)) :
    ∃ T2 res1 Ts', millerBody bit ps qs Ts res1 = some (Ts', out.2) ∧ out.1 = T2 :: Ts' ∧
      T2 = (if bit = 0 then T1 else (addStep T1 q0).1) ∧
      res1.elt = res.elt * (if bit = 0 then l.at (gen Fq : L) p else l.at (gen Fq : L) p * (addStep T1 q0).2.at (gen Fq : L) p) := by
  rw [millerBody, hd] at h
  simp only [Option.bind_eq_bind, Option.bind_some] at h
  split at h
  · rename_i hb
    obtain ⟨⟨Ts', r'⟩, h1, h2⟩ := Option.bind_eq_some_iff.1 h
    obtain rfl := (Option.some.inj h2).symm
    refine ⟨_, _, _, h1, rfl, by rw [if_pos hb], ?_⟩
    rw [if_pos hb]
    exact E12.val_mulBy014 gen_isGen _ _ _ _
  · rename_i hb
    obtain ⟨⟨Ts', r'⟩, h1, h2⟩ := Option.bind_eq_some_iff.1 h
    obtain rfl := (Option.some.inj h2).symm
    refine ⟨_, _, _, h1, rfl, by rw [if_neg hb], ?_⟩
    rw [if_neg hb, E12.elt_mul]
    congr 1
    exact E12.val_mul014By014 gen_isGen _ _ _ _ _ _

theorem body_nil (bit : ℕ) (ps : List (G1Affine Fq)) (qs : List (G2Affine Fq)) (Ts : List (G2Projective Fq)) (res : E12 Fq)
    (hn : ps = [] ∨ qs = [] ∨ Ts = []) : millerBody bit ps qs Ts res = some ([], res) := by
  rcases ps with _ | ⟨p, ps⟩
  · rw [millerBody]
    · rfl
    · simp
  rcases qs with _ | ⟨q0, qs⟩
  · rw [millerBody]
    · rfl
    · simp
  rcases Ts with _ | ⟨T, Ts⟩
  · rw [millerBody]
    · rfl
    · simp
  · simp at hn

/-- Coordinates all zero. -/
def Dead (T : G2Projective Fq) : Prop := T.x.val = 0 ∧ T.y.val = 0 ∧ T.z.val = 0

/-- A zero accumulator stays zero, and a dead point makes it zero. -/
theorem body_zero (bit : ℕ) (ps : List (G1Affine Fq)) (qs : List (G2Affine Fq)) (Ts : List (G2Projective Fq)) (res : E12 Fq)
    {out : List (G2Projective Fq) × E12 Fq} (h : millerBody bit ps qs Ts res = some out)
    (hz : res.elt = 0 ∨ ∃ k T, k < ps.length ∧ k < qs.length ∧ Ts[k]? = some T ∧ Dead T) : out.2.elt = 0 := by
  induction ps generalizing qs Ts res out with
  | nil =>
    rw [body_nil _ _ _ _ _ (.inl rfl)] at h
    obtain rfl := Option.some.inj h
    rcases hz with hz | ⟨k, T, hk, _⟩
    · exact hz
    · simp at hk
  | cons p ps ih =>
    rcases qs with _ | ⟨q0, qs⟩
    · rw [body_nil _ _ _ _ _ (.inr (.inl rfl))] at h
      obtain rfl := Option.some.inj h
      rcases hz with hz | ⟨k, T, _, hk, _⟩
      · exact hz
      · simp at hk
    rcases Ts with _ | ⟨T, Ts⟩
    · rw [body_nil _ _ _ _ _ (.inr (.inr rfl))] at h
      obtain rfl := Option.some.inj h
      rcases hz with hz | ⟨k, T, _, _, hk, _⟩
      · exact hz
      · simp at hk
    obtain ⟨T1, l, hd, -, -, -, l0, l1, l2⟩ := doubleStep_val T
    obtain ⟨T2, res1, Ts', hb, -, -, hr⟩ := body_cons bit p ps q0 qs T Ts res h hd
    refine ih (out := (Ts', out.2)) qs Ts res1 hb ?_
    rcases hz with hz | ⟨k, T', k1, k2, hk, hdead⟩
    · left; rw [hr, hz, zero_mul]
    · cases k with
      | zero =>
        left
        simp only [List.getElem?_cons_zero, Option.some.injEq] at hk
        subst hk
        obtain ⟨d1, d2, d3⟩ := hdead
        have e : l.at (gen Fq : L) p = 0 := by
          unfold LineEvaluation.at
          rw [val_smul, val_smul, l0, l1, l2, d1, d2, d3]
          simp
        rw [hr, e]
        split <;> simp
      | succ k =>
        right
        simp only [List.length_cons, Nat.add_lt_add_iff_right, List.getElem?_cons_succ] at k1 k2 hk
        exact ⟨k, T', k1, k2, hk, hdead⟩

/-- The first round kills the point coming from `(0, 0)`. -/
theorem body_dead (ps : List (G1Affine Fq)) (qs : List (G2Affine Fq)) (Ts : List (G2Projective Fq)) (res : E12 Fq)
    {out : List (G2Projective Fq) × E12 Fq} (h : millerBody 1 ps qs Ts res = some out) (k : ℕ) (T : G2Projective Fq)
    (k1 : k < ps.length) (k2 : qs[k]? = some ⟨E2.zero, E2.zero⟩) (hk : Ts[k]? = some T) (hx : T.x.val = 0) (hy : T.y.val = 0) :
    ∃ T', out.1[k]? = some T' ∧ Dead T' := by
  induction ps generalizing qs Ts res out k with
  | nil => simp at k1
  | cons p ps ih =>
    rcases qs with _ | ⟨q0, qs⟩
    · simp at k2
    rcases Ts with _ | ⟨T0, Ts⟩
    · simp at hk
    obtain ⟨T1, l, hd, x1, y1, z1, -⟩ := doubleStep_val T0
    obtain ⟨T2, res1, Ts', hb, ho, hT2, -⟩ := body_cons 1 p ps q0 qs T0 Ts res h hd
    rw [ho]
    cases k with
    | zero =>
      simp only [List.getElem?_cons_zero, Option.some.injEq] at hk k2
      subst hk k2
      refine ⟨T2, rfl, ?_⟩
      rw [if_neg (by norm_num)] at hT2
      rw [hx, hy] at x1
      rw [hy] at z1
      have x1' : T1.x.val = 0 := by rw [x1]; ring
      have z1' : T1.z.val = 0 := by rw [z1]; ring
      rw [hT2]
      refine ⟨?_, ?_, ?_⟩ <;>
      · simp only [addStep, E2.val_mul, E2.val_sub, E2.val_add, E2.val_double, E2.val_square, E2.val_zero, x1', z1']
        ring
    | succ k =>
      simp only [List.length_cons, Nat.add_lt_add_iff_right, List.getElem?_cons_succ] at k1 k2 hk ⊢
      exact ih qs Ts res1 hb k k1 k2 hk

theorem millerRest_cons {K : Type} [Field K] [DecidableEq K] (ps : List (G1Affine K)) (qs : List (G2Affine K)) (b : ℕ) (bits : List ℕ)
    (Ts : List (G2Projective K)) (res : E12 K) : millerRest ps qs (b :: bits) Ts res =
      (millerBody b ps qs Ts (E12.square res)).bind fun o => millerRest ps qs bits o.1 o.2 := rfl

theorem rest_zero (ps : List (G1Affine Fq)) (qs : List (G2Affine Fq)) (bits : List ℕ) (Ts : List (G2Projective Fq)) (res : E12 Fq)
    {out : List (G2Projective Fq) × E12 Fq} (h : millerRest ps qs bits Ts res = some out) (hz : res.elt = 0) :
    out.2.elt = 0 := by
  induction bits generalizing Ts res with
  | nil =>
    rw [millerRest] at h
    obtain rfl := Option.some.inj h
    exact hz
  | cons b bits ih =>
    rw [millerRest_cons] at h
    obtain ⟨⟨Ts', r'⟩, h1, h2⟩ := Option.bind_eq_some_iff.1 h
    dsimp only at h2
    have e : (E12.square res).elt = res.elt * res.elt := E12.val_square gen_isGen res
    have e' : (E12.square res).elt = 0 := by rw [e, hz, zero_mul]
    generalize E12.square res = s at h1 e'
    have z := body_zero b ps qs Ts s h1 (.inl e')
    exact ih Ts' r' h2 z

theorem rest_bits_cons : ∃ b bits, (loopCounter.take (loopCounter.length - 2)).reverse = b :: bits := by
  match h : (loopCounter.take (loopCounter.length - 2)).reverse with
  | [] => exact absurd h (by decide +kernel)
  | b :: bits => exact ⟨b, bits, rfl⟩

/-- **C53**, the part that fails: a point at infinity of G2, whose pairings are 1, makes the circuit unsatisfiable. -/
theorem C53_infinity_G2_fails (P : List (G1Affine Fq)) (Q : List (G2Affine Fq)) (h : ⟨E2.zero, E2.zero⟩ ∈ Q) :
    pair P Q = none := by
  by_cases hl : P.length = 0 ∨ P.length ≠ Q.length
  · rw [pair_eq, millerLoop_lengths _ _ (by rwa [List.length_eq_zero_iff] at hl)]
    rfl
  by_contra hn
  obtain ⟨m, hm, hf⟩ := Option.bind_ne_none.1 (by rwa [pair_eq] at hn)
  obtain ⟨k, hk⟩ := List.mem_iff_getElem?.1 h
  have k2 : k < Q.length := by
    by_contra hge
    rw [List.getElem?_eq_none (not_lt.1 hge)] at hk
    simp at hk
  unfold millerLoop at hm
  simp only [hl, if_false] at hm
  obtain ⟨⟨Ts1, r1⟩, h1, hm⟩ := Option.bind_eq_some_iff.1 hm
  obtain ⟨⟨Ts2, r2⟩, h2, hm⟩ := Option.bind_eq_some_iff.1 hm
  obtain rfl := Option.some.inj hm
  push Not at hl
  have k1 : k < P.length := by rw [hl.2]; exact k2
  rw [millerFirst_eq] at h1
  obtain ⟨T', hT', hd⟩ := body_dead P Q _ _ h1 k (affineToProjective ⟨E2.zero, E2.zero⟩) k1 hk
    (by rw [List.getElem?_map, hk]; rfl) E2.val_zero E2.val_zero
  obtain ⟨b, bits, hb⟩ := rest_bits_cons
  rw [hb, millerRest_cons] at h2
  obtain ⟨⟨Ts3, r3⟩, h3, h4⟩ := Option.bind_eq_some_iff.1 h2
  have z3 := body_zero b P Q Ts1 _ h3 (.inr ⟨k, T', k1, k2, hT', hd⟩)
  have z := rest_zero P Q bits Ts3 r3 h4 z3
  obtain ⟨x, hx⟩ := Option.ne_none_iff_exists'.1 hf
  obtain ⟨hne, -⟩ := C52_sound _ x hx
  apply hne
  rw [E12.elt_conjugate]
  have z' : r2.elt = 0 := z
  rw [z', zero_pow order_half.2.1.ne']

/-! ## G1 -/

theorem at_origin (l : LineEvaluation Fq) : l.at (gen Fq : L) ⟨0, 0⟩ = ι l.r0.val := by
  unfold LineEvaluation.at
  rw [val_smul, val_smul]
  simp

theorem body_sub (bit : ℕ) (ps : List (G1Affine Fq)) (qs : List (G2Affine Fq)) (Ts : List (G2Projective Fq)) (res : E12 Fq)
    {out : List (G2Projective Fq) × E12 Fq} (h : millerBody bit ps qs Ts res = some out) (hp : ∀ p ∈ ps, p = ⟨0, 0⟩)
    (hz : ∃ c, res.elt = ι c) : ∃ c, out.2.elt = ι c := by
  induction ps generalizing qs Ts res out with
  | nil =>
    rw [body_nil _ _ _ _ _ (.inl rfl)] at h
    obtain rfl := Option.some.inj h
    exact hz
  | cons p ps ih =>
    rcases qs with _ | ⟨q0, qs⟩
    · rw [body_nil _ _ _ _ _ (.inr (.inl rfl))] at h
      obtain rfl := Option.some.inj h
      exact hz
    rcases Ts with _ | ⟨T, Ts⟩
    · rw [body_nil _ _ _ _ _ (.inr (.inr rfl))] at h
      obtain rfl := Option.some.inj h
      exact hz
    obtain ⟨T1, l, hd, -⟩ := doubleStep_val T
    obtain ⟨T2, res1, Ts', hb, -, -, hr⟩ := body_cons bit p ps q0 qs T Ts res h hd
    refine ih (out := (Ts', out.2)) qs Ts res1 hb (fun p' h' => hp p' (List.mem_cons_of_mem _ h')) ?_
    obtain ⟨c, hc⟩ := hz
    rw [hr, hp p List.mem_cons_self, at_origin, at_origin, hc]
    split
    · exact ⟨c * l.r0.val, by rw [map_mul]⟩
    · exact ⟨c * (l.r0.val * (addStep T1 q0).2.r0.val), by rw [map_mul, map_mul]⟩

theorem rest_sub (ps : List (G1Affine Fq)) (qs : List (G2Affine Fq)) (bits : List ℕ) (Ts : List (G2Projective Fq)) (res : E12 Fq)
    {out : List (G2Projective Fq) × E12 Fq} (h : millerRest ps qs bits Ts res = some out) (hp : ∀ p ∈ ps, p = ⟨0, 0⟩)
    (hz : ∃ c, res.elt = ι c) : ∃ c, out.2.elt = ι c := by
  induction bits generalizing Ts res with
  | nil =>
    rw [millerRest] at h
    obtain rfl := Option.some.inj h
    exact hz
  | cons b bits ih =>
    rw [millerRest_cons] at h
    obtain ⟨⟨Ts', r'⟩, h1, h2⟩ := Option.bind_eq_some_iff.1 h
    dsimp only at h2
    obtain ⟨c, hc⟩ := hz
    have e : (E12.square res).elt = res.elt * res.elt := E12.val_square gen_isGen res
    have e' : ∃ c, (E12.square res).elt = ι c := ⟨c * c, by rw [e, hc, map_mul]⟩
    generalize E12.square res = s at h1 e'
    have z := body_sub b ps qs Ts s h1 hp e'
    exact ih Ts' r' h2 z

/-- **C53**, the part that fails: if all the points of G1 are at infinity, the pairing is 1 but the circuit is unsatisfiable. -/
theorem C53_infinity_G1_fails (P : List (G1Affine Fq)) (Q : List (G2Affine Fq)) (h : ∀ p ∈ P, p = ⟨0, 0⟩) :
    pair P Q = none := by
  by_cases hl : P.length = 0 ∨ P.length ≠ Q.length
  · rw [pair_eq, millerLoop_lengths _ _ (by rwa [List.length_eq_zero_iff] at hl)]
    rfl
  by_contra hn
  obtain ⟨m, hm, hf⟩ := Option.bind_ne_none.1 (by rwa [pair_eq] at hn)
  unfold millerLoop at hm
  simp only [hl, if_false] at hm
  obtain ⟨⟨Ts1, r1⟩, h1, hm⟩ := Option.bind_eq_some_iff.1 hm
  obtain ⟨⟨Ts2, r2⟩, h2, hm⟩ := Option.bind_eq_some_iff.1 hm
  obtain rfl := Option.some.inj hm
  rw [millerFirst_eq] at h1
  have z1 := body_sub 1 P Q _ _ h1 h ⟨1, by rw [E12.elt_one, map_one]⟩
  obtain ⟨c, hc⟩ := rest_sub P Q _ _ _ h2 h z1
  have hc' : r2.elt = ι c := hc
  have e : (E12.conjugate r2) = ⟨⟨⟨c.re, c.im⟩, E2.zero, E2.zero⟩, ⟨E2.zero, E2.zero, E2.zero⟩⟩ := by
    apply E12.elt_inj.1
    rw [E12.elt_conjugate, hc', iota_pow6]
    unfold E12.elt
    rw [E12.val_expand]
    simp only [E2.val_zero, map_zero, zero_mul, add_zero]
    rfl
  apply hf
  rw [e]
  exact (C52_subfield_fails _ rfl).1

/-! ## Opposite points -/

theorem order_pos : 0 < (q ^ 12 - 1) / r := by decide +kernel

theorem at_neg (l : LineEvaluation Fq) (x y : Fq) :
    l.at (gen Fq : L) ⟨x, -y⟩ = (l.at (gen Fq : L) ⟨x, y⟩) ^ q ^ 6 := by
  have e : ∀ k : ℕ, ((gen Fq : L) ^ k) ^ q ^ 6 = (-gen Fq) ^ k := by
    intro k
    rw [← pow_mul, mul_comm, pow_mul, gen_pow6]
  unfold LineEvaluation.at
  rw [pow6_add, pow6_add, mul_pow, mul_pow, iota_pow6, iota_pow6, iota_pow6, e, e]
  simp only [val_smul, map_mul, map_neg]
  ring

theorem body_opp (bit : ℕ) (x y : Fq) (Q : G2Affine Fq) (T : G2Projective Fq) (res : E12 Fq)
    {out : List (G2Projective Fq) × E12 Fq} (h : millerBody bit [⟨x, y⟩, ⟨x, -y⟩] [Q, Q] [T, T] res = some out)
    (hz : res.elt ^ q ^ 6 = res.elt) : (∃ T', out.1 = [T', T']) ∧ out.2.elt ^ q ^ 6 = out.2.elt := by
  obtain ⟨T1, l, hd, -⟩ := doubleStep_val T
  obtain ⟨T2, res1, Ts', hb, ho, hT2, hr⟩ := body_cons bit _ _ Q _ T _ res h hd
  obtain ⟨T3, res2, Ts'', hb', ho', hT3, hr'⟩ := body_cons bit _ _ Q _ T _ res1 hb hd
  rw [body_nil _ _ _ _ _ (.inl rfl)] at hb'
  obtain ⟨e1, e2⟩ := Prod.ext_iff.1 (Option.some.inj hb')
  dsimp only at e1 e2 ho'
  constructor
  · exact ⟨T2, by rw [ho, ho', ← e1, hT3, ← hT2]⟩
  · rw [← e2, hr', hr]
    split
    · rw [at_neg, mul_pow, mul_pow, elt_pow_card, hz]; ring
    · rw [at_neg, at_neg, mul_pow, mul_pow, mul_pow, mul_pow, elt_pow_card, elt_pow_card, hz]; ring

theorem rest_opp (x y : Fq) (Q : G2Affine Fq) (bits : List ℕ) (T : G2Projective Fq) (res : E12 Fq)
    {out : List (G2Projective Fq) × E12 Fq} (h : millerRest [⟨x, y⟩, ⟨x, -y⟩] [Q, Q] bits [T, T] res = some out)
    (hz : res.elt ^ q ^ 6 = res.elt) : out.2.elt ^ q ^ 6 = out.2.elt := by
  induction bits generalizing T res with
  | nil =>
    rw [millerRest] at h
    obtain rfl := Option.some.inj h
    exact hz
  | cons b bits ih =>
    rw [millerRest_cons] at h
    obtain ⟨⟨Ts', r'⟩, h1, h2⟩ := Option.bind_eq_some_iff.1 h
    dsimp only at h2
    have e : (E12.square res).elt = res.elt * res.elt := E12.val_square gen_isGen res
    have e' : (E12.square res).elt ^ q ^ 6 = (E12.square res).elt := by rw [e, mul_pow, hz]
    generalize E12.square res = s at h1 e'
    obtain ⟨⟨T', hT'⟩, z⟩ := body_opp b x y Q T s h1 e'
    dsimp only at hT' z
    rw [hT'] at h2
    exact ih T' r' h2 z

theorem c1_zero {e : E12 Fq} (h : e.elt ^ q ^ 6 = e.elt) : e.c1 = ⟨E2.zero, E2.zero, E2.zero⟩ := by
  have hc : E12.conjugate e = e := E12.elt_inj.1 (by rw [E12.elt_conjugate, h])
  obtain ⟨-, b, c, d⟩ := E12.conjugate_coords e
  rw [hc] at b c d
  have z : ∀ x : E2 Fq, x.val = -x.val → x = E2.zero := by
    intro x hx
    apply E2.val_inj.1
    rw [E2.val_zero]
    have : 2 * x.val = 0 := by linear_combination hx
    exact (mul_eq_zero.1 this).resolve_left two2_ne
  exact E6.ext (z _ b) (z _ c) (z _ d)

theorem millerLoop_opp (x y : Fq) (Q : G2Affine Fq) (m : E12 Fq) (hm : millerLoop [⟨x, y⟩, ⟨x, -y⟩] [Q, Q] = some m) :
    m.elt ^ q ^ 6 = m.elt := by
  unfold millerLoop at hm
  have hl : ¬(([⟨x, y⟩, ⟨x, -y⟩] : List (G1Affine Fq)).length = 0 ∨
    ([⟨x, y⟩, ⟨x, -y⟩] : List (G1Affine Fq)).length ≠ ([Q, Q] : List (G2Affine Fq)).length) := by simp
  simp only [hl, if_false] at hm
  obtain ⟨⟨Ts1, r1⟩, h1, hm⟩ := Option.bind_eq_some_iff.1 hm
  obtain ⟨⟨Ts2, r2⟩, h2, hm⟩ := Option.bind_eq_some_iff.1 hm
  obtain rfl := Option.some.inj hm
  rw [millerFirst_eq] at h1
  obtain ⟨⟨T', hT'⟩, z1⟩ := body_opp 1 x y Q (affineToProjective Q) _ h1 (by rw [E12.elt_one, one_pow])
  dsimp only at hT' z1
  rw [hT'] at h2
  have z2 := rest_opp x y Q _ T' r1 h2 z1
  rw [E12.elt_conjugate]
  have z2' : r2.elt ^ q ^ 6 = r2.elt := z2
  rw [z2', z2']

/-- **C53**, the part that fails: asking for `e(P, Q) · e(-P, Q)`, which is 1 (next theorem), is unsatisfiable. -/
theorem C53_opposite_fails (x y : Fq) (Q : G2Affine Fq) : pair [⟨x, y⟩, ⟨x, -y⟩] [Q, Q] = none := by
  by_contra hn
  obtain ⟨m, hm, hf⟩ := Option.bind_ne_none.1 (by rwa [pair_eq] at hn)
  exact hf (C52_subfield_fails _ (c1_zero (millerLoop_opp x y Q m hm))).1

/-- The product of the pairings of opposite points with one `Q` is 1 (0 only if a line of the Miller loop passes through `P`). -/
theorem C53_opposite (x y : Fq) (q0 : G2Affine Fq) (Q : (curve (bTw Fq)).Point) (hQ : IsPt (bTw Fq) q0.x.val q0.y.val Q)
    (hr : r • Q = 0) (h0 : ate x y Q * ate x (-y) Q ≠ 0) : ate x y Q * ate x (-y) Q = 1 := by
  have hV : ValidPairs [⟨⟨x, y⟩, q0, Q⟩, ⟨⟨x, -y⟩, q0, Q⟩] := by
    intro d hd
    rw [List.mem_cons, List.mem_singleton] at hd
    rcases hd with rfl | rfl <;> exact ⟨hQ, hr⟩
  obtain ⟨m, hm, hv⟩ := C53_miller _ (by simp) hV
  rw [List.map_cons, List.map_cons, List.map_nil, List.prod_cons, List.prod_cons, List.prod_nil, mul_one] at hv
  have hf := millerLoop_opp x y q0 m hm
  have hne : m.elt ≠ 0 := by
    intro h
    rw [h, zero_pow order_pos.ne'] at hv
    exact h0 hv.symm
  exact hv.symm.trans (Half.killed ⟨hne, .inl hf⟩)

end Verif.Bls
