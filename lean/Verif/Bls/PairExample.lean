import Verif.Bls.PairInf

/-! # C53: a concrete case, and a failure

The generators of the two groups of order `r` meet the hypotheses of the C53 theorems. -/

namespace Verif.Bls
open Verif.Ec QuadraticAlgebra

attribute [local irreducible] E2.mulByNonResidueAt

/-- The generator of G1. -/
def g1 : G1Affine Fq :=
  ⟨((0x17f1d3a73197d7942695638c4fa9ac0fc3688c4f9774b905a14e3a3f171bac586c55e83ff97a1aeffb3af00adb22c6bb : ℕ) : Fq),
   ((0x8b3f481e3aaa0f1a09e30ed741d8ae4fcf5e095d5d00af600db18cb2c04b3edd03cc744a2888ae40caa232946c5e7e1 : ℕ) : Fq)⟩

/-- Its opposite. -/
def g1Neg : G1Affine Fq := ⟨g1.x, -g1.y⟩

/-- Its double. -/
def g1Double : G1Affine Fq :=
  ⟨((0x572cbea904d67468808c8eb50a9450c9721db309128012543902d0ac358a62ae28f75bb8f1c7c42c39a8c5529bf0f4e : ℕ) : Fq),
   ((0x166a9d8cabc673a322fda673779d8e3822ba3ecb8670e461f73bb9021d5fd76a4c56d9d4cd16bd1bba86881979749d28 : ℕ) : Fq)⟩

/-- The generator of G2. -/
def g2 : G2Affine Fq :=
  ⟨⟨((0x24aa2b2f08f0a91260805272dc51051c6e47ad4fa403b02b4510b647ae3d1770bac0326a805bbefd48056c8c121bdb8 : ℕ) : Fq),
    ((0x13e02b6052719f607dacd3a088274f65596bd0d09920b61ab5da61bbdc7f5049334cf11213945d57e5ac7d055d042b7e : ℕ) : Fq)⟩,
   ⟨((0xce5d527727d6e118cc9cdc6da2e351aadfd9baa8cbdd3a76d429a695160d12c923ac9cc3baca289e193548608b82801 : ℕ) : Fq),
    ((0x606c4a02ea734cc32acd2b02bc28b99cb3e287e85a763af267492ab572e99ab3f370d275cec1da1aaa9075ff05f79be : ℕ) : Fq)⟩⟩

/-- Its double. -/
def g2Double : G2Affine Fq :=
  ⟨⟨((0x1638533957d540a9d2370f17cc7ed5863bc0b995b8825e0ee1ea1e1e4d00dbae81f14b0bf3611b78c952aacab827a053 : ℕ) : Fq),
    ((0xa4edef9c1ed7f729f520e47730a124fd70662a904ba1074728114d1031e1572c6c886f6b57ec72a6178288c47c33577 : ℕ) : Fq)⟩,
   ⟨((0x468fb440d82b0630aeb8dca2b5256789a66da69bf91009cbfe6bd221e47aa8ae88dece9764bf3bd999d95d71e4c9899 : ℕ) : Fq),
    ((0xf6d4552fa65dd2638b361543f887136a43253d9c66c411697003f7a13c308f5422e1aa0a59c8967acdefd8b6e36ccf3 : ℕ) : Fq)⟩⟩

/-! ## The order of a concrete point, by double-and-add with checks -/

/-- Double-and-add from `T` along `bits`, giving up where the formulas do not apply. -/
def smulC (a : G2Affine Fq) : List Bool → G2Projective Fq → Option (G2Projective Fq)
  | [], T => some T
  | b :: bits, T =>
    if T.y = E2.zero then none else
      match doubleStep T with
      | none => none
      | some (T1, _) =>
        if b then
          if E2.sub T1.x (E2.mul a.x T1.z) = E2.zero then none else smulC a bits (addStep T1 a).1
        else smulC a bits T1

theorem E2.val_ne_zero {x : E2 Fq} (h : x ≠ E2.zero) : x.val ≠ 0 := by
  intro e
  exact h (E2.val_inj.1 (e.trans E2.val_zero.symm))

theorem smulC_spec (a : G2Affine Fq) (Q : (curve (bTw Fq)).Point) (ha : IsPt (bTw Fq) a.x.val a.y.val Q) (bits : List Bool)
    (T T' : G2Projective Fq) (m : ℕ) (hT : Rep T (m • Q)) (h : smulC a bits T = some T') :
    Rep T' (bits.foldl (fun m b => 2 * m + b.toNat) m • Q) := by
  induction bits generalizing T m with
  | nil =>
    obtain rfl := Option.some.inj h
    exact hT
  | cons b bits ih =>
    rw [smulC] at h
    split at h
    · simp at h
    rename_i hy
    have hP : m • Q + m • Q ≠ 0 := by
      rw [hT.2.y_ne two2_ne]
      exact div_ne_zero (E2.val_ne_zero hy) hT.1
    obtain ⟨T1, l, hd, hT1, -⟩ := doubleStep_spec (Ω := L) (w := gen Fq) two_ne gen_isGen hT hP
    rw [hd] at h
    dsimp only at h
    have e : m • Q + m • Q = (2 * m) • Q := by rw [two_mul, add_smul]
    rw [e] at hT1
    cases b with
    | false =>
      simp only [Bool.false_eq_true, if_false] at h
      exact ih T1 (2 * m) hT1 h
    | true =>
      simp only [if_true] at h
      split at h
      · simp at h
      rename_i hL
      have hL' := E2.val_ne_zero hL
      rw [E2.val_sub, E2.val_mul] at hL'
      have hA : Rep (addStep T1 a).1 ((2 * m) • Q + Q) := by
        refine HRep.add_mixed hT1 ha rfl rfl hL' ?_ ?_ ?_ <;>
        · simp only [addStep, E2.val_mul, E2.val_sub, E2.val_add, E2.val_double, E2.val_square]; ring
      have e2 : (2 * m) • Q + Q = (2 * m + 1) • Q := by rw [add_smul, one_smul]
      rw [e2] at hA
      exact ih _ (2 * m + 1) hA h

/-- `a` is annihilated by `n + 1`. -/
def orderCheck (a : G2Affine Fq) (bits : List Bool) : Bool :=
  match smulC a bits (affineToProjective a) with
  | none => false
  | some T => decide (T.x = E2.mul a.x T.z) && decide (T.y = E2.neg (E2.mul a.y T.z))

theorem orderCheck_spec (a : G2Affine Fq) (Q : (curve (bTw Fq)).Point) (ha : IsPt (bTw Fq) a.x.val a.y.val Q) (bits : List Bool)
    (h : orderCheck a bits = true) : (bits.foldl (fun m b => 2 * m + b.toNat) 1 + 1) • Q = 0 := by
  unfold orderCheck at h
  split at h
  · simp at h
  rename_i T hs
  rw [Bool.and_eq_true, decide_eq_true_eq, decide_eq_true_eq] at h
  obtain ⟨hx, hy⟩ := h
  have h0 : Rep (affineToProjective a) (1 • Q) := affine_rep ⟨g1, a, Q⟩ ha
  have hR := smulC_spec a Q ha bits _ T 1 h0 hs
  obtain ⟨hz, hp⟩ := hR
  have hp' : IsPt (bTw Fq) a.x.val (-a.y.val) (bits.foldl (fun m b => 2 * m + b.toNat) 1 • Q) := by
    refine hp.congr ?_ ?_
    · rw [hx, E2.val_mul, mul_div_cancel_right₀ _ hz]
    · rw [hy, E2.val_neg, E2.val_mul, neg_div, mul_div_cancel_right₀ _ hz]
  rw [add_smul, one_smul, hp'.unique ha.neg, neg_add_cancel]

/-- The binary digits of `r - 1` below the leading one. -/
def rBits : List Bool := (r - 1).bits.reverse.tail

theorem rBits_value : rBits.foldl (fun m b => 2 * m + b.toNat) 1 + 1 = r := by decide +kernel

theorem g2_order : orderCheck g2 rBits = true := by decide +kernel

theorem g2Double_order : orderCheck g2Double rBits = true := by decide +kernel

theorem b2_ne : (bTw Fq) ≠ 0 := by
  intro h
  have := congrArg QuadraticAlgebra.re h
  have e : (bTw Fq).re = 4 := by
    simp [bTw, ξ]
  rw [e, re_zero] at this
  exact two_ne (pow_eq_zero_iff (two_ne_zero) |>.1 (by rw [← this]; norm_num : (2 : Fq) ^ 2 = 0))

theorem three2_ne : (3 : Fq2 Fq) ≠ 0 := by
  intro h
  exact three_ne (congrArg QuadraticAlgebra.re h)

/-- Points of the twist from a computation with coordinates. -/
theorem onTwist (a : G2Affine Fq) (h : E2.square a.y = E2.add (E2.mul (E2.square a.x) a.x) ⟨4, 4⟩) :
    ∃ Q, IsPt (bTw Fq) a.x.val a.y.val Q := by
  refine isPt_of two2_ne three2_ne b2_ne ?_
  have := congrArg E2.val h
  rw [E2.val_square, E2.val_add, E2.val_mul, E2.val_square] at this
  have e : (⟨4, 4⟩ : E2 Fq).val = bTw Fq := by
    unfold E2.val bTw ξ
    have : (4 : Fq2 Fq) = algebraMap Fq (Fq2 Fq) 4 := (map_ofNat _ 4).symm
    rw [this]
    ext <;> simp [algebraMap_re, algebraMap_im]
  rw [e] at this
  linear_combination this

theorem g2_onTwist : E2.square g2.y = E2.add (E2.mul (E2.square g2.x) g2.x) ⟨4, 4⟩ := by decide +kernel

theorem g2Double_onTwist : E2.square g2Double.y = E2.add (E2.mul (E2.square g2Double.x) g2Double.x) ⟨4, 4⟩ := by decide +kernel

theorem g2Points : ∃ Q Q', IsPt (bTw Fq) g2.x.val g2.y.val Q ∧ r • Q = 0 ∧
    IsPt (bTw Fq) g2Double.x.val g2Double.y.val Q' ∧ r • Q' = 0 := by
  obtain ⟨Q, hQ⟩ := onTwist g2 g2_onTwist
  obtain ⟨Q', hQ'⟩ := onTwist g2Double g2Double_onTwist
  have h := orderCheck_spec g2 Q hQ rBits g2_order
  have h' := orderCheck_spec g2Double Q' hQ' rBits g2Double_order
  rw [rBits_value] at h h'
  exact ⟨Q, Q', hQ, h, hQ', h'⟩

theorem pair_one : pair [g1] [g2] ≠ none ∧ pair [g1] [g2] ≠ some E12.one := by decide +kernel

theorem pair_two : pair [g1Double, g1Neg] [g2, g2Double] = some E12.one := by decide +kernel

/-- The hypotheses of C53 are met by the generators, `Pair` is satisfiable on them, and their pairing is not 1. -/
theorem C53_example : ∃ D : List (Pr Fq), ValidPairs D ∧ D.map Pr.p = [g1] ∧ D.map Pr.q = [g2] ∧
    pair (D.map Pr.p) (D.map Pr.q) ≠ none ∧ (D.map fun d => ate d.p.x d.p.y d.Q).prod ≠ 1 := by
  obtain ⟨Q, -, hQ, hr, -⟩ := g2Points
  have hV : ValidPairs [⟨g1, g2, Q⟩] := by
    intro d hd
    rw [List.mem_singleton] at hd
    subst hd
    exact ⟨hQ, hr⟩
  refine ⟨[⟨g1, g2, Q⟩], hV, rfl, rfl, pair_one.1, ?_⟩
  intro h1
  obtain ⟨z, hz⟩ := Option.ne_none_iff_exists'.1 pair_one.1
  have := (C53_check [⟨g1, g2, Q⟩] hV z hz).2 h1
  rw [this] at hz
  exact pair_one.2 hz

/-- A pairing check that succeeds: `e(2P, Q) · e(-P, 2Q) = 1`. -/
theorem C53_example_check : ∃ D : List (Pr Fq), ValidPairs D ∧ D.map Pr.p = [g1Double, g1Neg] ∧ D.map Pr.q = [g2, g2Double] ∧
    pair (D.map Pr.p) (D.map Pr.q) = some E12.one ∧ (D.map fun d => ate d.p.x d.p.y d.Q).prod = 1 := by
  obtain ⟨Q, Q', hQ, hr, hQ', hr'⟩ := g2Points
  have hV : ValidPairs [⟨g1Double, g2, Q⟩, ⟨g1Neg, g2Double, Q'⟩] := by
    intro d hd
    rw [List.mem_cons, List.mem_singleton] at hd
    rcases hd with rfl | rfl
    · exact ⟨hQ, hr⟩
    · exact ⟨hQ', hr'⟩
  exact ⟨[⟨g1Double, g2, Q⟩, ⟨g1Neg, g2Double, Q'⟩], hV, rfl, rfl, pair_two, (C53_check _ hV _ pair_two).1 rfl⟩

end Verif.Bls
