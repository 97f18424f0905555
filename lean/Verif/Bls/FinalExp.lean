import Verif.Bls.Expt

/-! # The final exponentiation -/

namespace Verif.Bls
open Polynomial QuadraticAlgebra

attribute [local irreducible] q E2.mulByNonResidueAt

/-- The `w` coordinate of a target-field element is not 0. -/
def WNonzero (l : L) : Prop := ∀ y : E12 Fq, y.elt = l → y.c1.b0.val ≠ 0

theorem wNonzero_iff {l : L} {y : E12 Fq} (h : y.elt = l) : WNonzero l ↔ y.c1.b0.val ≠ 0 := by
  constructor
  · intro hw; exact hw y h
  · intro hw z hz
    rw [E12.elt_inj.1 (hz.trans h.symm)]
    exact hw

section group
variable (g : Lˣ)

/-- `y` denotes `g^k`. -/
def P (y : E12 Fq) (k : ℤ) : Prop := y.elt = ((g ^ k : Lˣ) : L)

variable {g}

theorem P.mul {y z : E12 Fq} {k l : ℤ} (hy : P g y k) (hz : P g z l) : P g (E12.mul y z) (k + l) := by
  unfold P at *
  rw [E12.elt_mul, hy, hz, zpow_add, Units.val_mul]

theorem P.frob {y : E12 Fq} {k : ℤ} (hy : P g y k) : P g (E12.frobenius y) (k * q) := by
  unfold P at *
  rw [E12.elt_frobenius, hy, zpow_mul, zpow_natCast, Units.val_pow_eq_pow_val]

theorem P.frobSq {y : E12 Fq} {k : ℤ} (hy : P g y k) : P g (E12.frobeniusSquare y) (k * (q ^ 2 : ℕ)) := by
  unfold P at *
  rw [E12.elt_frobeniusSquare, hy, zpow_mul, zpow_natCast, Units.val_pow_eq_pow_val]

theorem P.conjPow {y : E12 Fq} {k : ℤ} (hy : P g y k) : P g (E12.conjugate y) (k * (q ^ 6 : ℕ)) := by
  unfold P at *
  rw [E12.elt_conjugate, hy, zpow_mul, zpow_natCast, Units.val_pow_eq_pow_val]

theorem P.cyc (hg : g ^ (q ^ 4 - q ^ 2 + 1) = 1) {y : E12 Fq} {k : ℤ} (hy : P g y k) : Cyc y := by
  unfold P at hy
  rw [cyc_iff, hy, ← Units.val_pow_eq_pow_val, ← zpow_natCast, ← zpow_mul, mul_comm, zpow_mul, zpow_natCast, hg,
    one_zpow, Units.val_one]

theorem P.conj (hg : g ^ (q ^ 4 - q ^ 2 + 1) = 1) {y : E12 Fq} {k : ℤ} (hy : P g y k) : P g (E12.conjugate y) (-k) := by
  have h := (hy.cyc hg).conj_mul
  unfold P at *
  rw [hy] at h
  rw [zpow_neg, eq_comm]
  exact Units.inv_eq_of_mul_eq_one_left h

theorem P.sq (hg : g ^ (q ^ 4 - q ^ 2 + 1) = 1) {y : E12 Fq} {k : ℤ} (hy : P g y k) :
    P g (E12.cyclotomicSquare y) (k + k) := by
  rw [E12.cyclotomicSquare_eq y (hy.cyc hg)]
  exact hy.mul hy

/-- `ExptHalf` raises to half the curve parameter (a negative number). -/
theorem P.exptHalf (hg : g ^ (q ^ 4 - q ^ 2 + 1) = 1) {y : E12 Fq} {k : ℤ} (hy : P g y k) :
    (E12.exptHalf y ≠ none ↔ WNonzero ((g ^ (k * (2 ^ 15 : ℕ)) : Lˣ) : L) ∧ WNonzero ((g ^ (k * (2 ^ 47 : ℕ)) : Lˣ) : L)) ∧
    (∀ z, E12.exptHalf y = some z → P g z (k * -(halfParam : ℤ))) := by
  have hc := hy.cyc hg
  obtain ⟨y15, h15⟩ := exists_pow y (2 ^ 15)
  obtain ⟨y47, h47⟩ := exists_pow y (2 ^ 47)
  obtain ⟨hn, hs⟩ := exptHalf_eq hc h15 h47
  have e15 : y15.elt = ((g ^ (k * (2 ^ 15 : ℕ)) : Lˣ) : L) := by
    rw [h15, hy, zpow_mul, zpow_natCast, Units.val_pow_eq_pow_val]
  have e47 : y47.elt = ((g ^ (k * (2 ^ 47 : ℕ)) : Lˣ) : L) := by
    rw [h47, hy, zpow_mul, zpow_natCast, Units.val_pow_eq_pow_val]
  rw [wNonzero_iff e15, wNonzero_iff e47]
  by_cases c : y15.c1.b0.val ≠ 0 ∧ y47.c1.b0.val ≠ 0
  · obtain ⟨z, hz, _, hz2⟩ := hs c.1 c.2
    refine ⟨⟨fun _ => c, fun _ => by rw [hz]; exact Option.some_ne_none _⟩, ?_⟩
    intro z' hz'
    rw [hz] at hz'
    obtain rfl := Option.some.inj hz'
    unfold P at *
    rw [hy, ← Units.val_pow_eq_pow_val, ← zpow_natCast, ← zpow_mul] at hz2
    rw [mul_neg, zpow_neg, eq_comm]
    exact Units.inv_eq_of_mul_eq_one_left hz2
  · have : E12.exptHalf y = none := hn (by tauto)
    rw [this]
    exact ⟨⟨fun h => absurd rfl h, fun h => absurd h c⟩, fun z hz => by cases hz⟩

/-- `Expt` raises to the curve parameter. -/
theorem P.expt (hg : g ^ (q ^ 4 - q ^ 2 + 1) = 1) {y : E12 Fq} {k : ℤ} (hy : P g y k) :
    (E12.expt y ≠ none ↔ WNonzero ((g ^ (k * (2 ^ 15 : ℕ)) : Lˣ) : L) ∧ WNonzero ((g ^ (k * (2 ^ 47 : ℕ)) : Lˣ) : L)) ∧
    (∀ z, E12.expt y = some z → P g z (k * (-2 * (halfParam : ℤ)))) := by
  obtain ⟨h1, h2⟩ := hy.exptHalf hg
  have e : E12.expt y = (E12.exptHalf y).map E12.cyclotomicSquare := by
    unfold E12.expt
    cases E12.exptHalf y <;> rfl
  rw [e, ← h1]
  refine ⟨by simp, ?_⟩
  intro z hz
  obtain ⟨t, ht, rfl⟩ := Option.map_eq_some_iff.1 hz
  have := (h2 t ht).sq hg
  rwa [show k * -(halfParam : ℤ) + k * -(halfParam : ℤ) = k * (-2 * (halfParam : ℤ)) by ring] at this

end group

/-! ## Exponents -/

/-- The parameter of the curve family, `-0xd201000000010000`. -/
def curveParam : ℤ := -0xd201000000010000

theorem curveParam_eq : curveParam = -2 * (halfParam : ℤ) := by decide +kernel

theorem hard_part : 3 + (curveParam - 1) ^ 2 * (curveParam + (q : ℤ)) * (curveParam ^ 2 + (q : ℤ) ^ 2 - 1) =
    3 * (((q ^ 4 - q ^ 2 + 1) / r : ℕ) : ℤ) := by decide +kernel

theorem easy_hard : (((q ^ 6 : ℕ) : ℤ) - 1) * (((q ^ 2 : ℕ) : ℤ) + 1) * (3 * (((q ^ 4 - q ^ 2 + 1) / r : ℕ) : ℤ)) =
    ((3 * ((q ^ 12 - 1) / r) : ℕ) : ℤ) := by decide +kernel

theorem E12.conj_conj (x : E12 Fq) : E12.conjugate (E12.conjugate x) = x := by
  obtain ⟨a, b, c, d⟩ := E12.conjugate_coords x
  obtain ⟨a', b', c', d'⟩ := E12.conjugate_coords (E12.conjugate x)
  rw [a] at a'
  rw [b, neg_neg] at b'
  rw [c, neg_neg] at c'
  rw [d, neg_neg] at d'
  exact E12.ext a' (E6.ext (E2.val_inj.1 b') (E2.val_inj.1 c') (E2.val_inj.1 d'))

/-- The target field has (at most) `q¹²` elements: every element is fixed by the power `q¹²`. -/
theorem elt_pow_card (l : L) : (l ^ q ^ 6) ^ q ^ 6 = l := by
  obtain ⟨x, rfl⟩ := E12.val_gen_surjective l
  have h := E12.elt_conjugate (E12.conjugate x)
  rw [E12.conj_conj, E12.elt_conjugate] at h
  exact h.symm

theorem easy_order : ((q ^ 6 : ℕ) : ℤ) * ((q ^ 6 : ℕ) : ℤ) =
    1 + (((q ^ 6 : ℕ) : ℤ) - 1) * (((q ^ 2 : ℕ) : ℤ) + 1) * ((q ^ 4 - q ^ 2 + 1 : ℕ) : ℤ) := by decide +kernel

theorem easy_cyc {G : Type} [CommGroup G] (u : G) (a b n m : ℤ) (h : u ^ (a * a) = u) (he : a * a = 1 + b * n * m) :
    (u ^ (b * n)) ^ m = 1 := by
  rw [he, zpow_add, zpow_one] at h
  rw [← zpow_mul]
  exact mul_eq_left.1 h

/-- The part of `FinalExponentiation` after the easy part (only used to organise the proof). -/
def E12.hardPart {K : Type} [Field K] [DecidableEq K] (g : E12 K) : Option (E12 K) :=
  (E12.exptHalf (E12.cyclotomicSquare g)).bind fun a =>
        (fun t1 => (E12.expt t1).bind fun b =>
          (fun t2 => (E12.expt t2).bind fun c =>
            (fun t3 => (E12.expt t3).bind fun d => (E12.expt d).bind fun f =>
              some (E12.mul (E12.mul g (E12.cyclotomicSquare g))
                (E12.mul (E12.mul (E12.conjugate t3) f) (E12.frobeniusSquare t3))))
            (E12.mul (E12.frobenius t2) c))
          (E12.mul (E12.conjugate t1) b))
        (E12.mul a (E12.conjugate g))

/-- The easy part: `conj(e)/e` times its `q²` power (only used to organise the proof). -/
def E12.easy {K : Type} [Field K] [DecidableEq K] (e i : E12 K) : E12 K :=
  E12.mul (E12.frobeniusSquare (E12.mul (E12.conjugate e) i)) (E12.mul (E12.conjugate e) i)

theorem finalExponentiation_unfold {K : Type} [Field K] [DecidableEq K] (e : E12 K) :
    E12.finalExponentiation e = (E12.inverse e).bind fun i => E12.hardPart (E12.easy e i) := by
  unfold E12.finalExponentiation E12.hardPart E12.easy
  rfl

theorem Option.bind_ne_none {α β : Type} {o : Option α} {f : α → Option β} :
    o.bind f ≠ none ↔ ∃ a, o = some a ∧ f a ≠ none := by
  cases o <;> simp

/-- The exponents at which the chain decompresses. -/
def chainExponents : List ℤ :=
  [2, curveParam - 1, (curveParam - 1) ^ 2, (curveParam - 1) ^ 2 * (curveParam + q),
    (curveParam - 1) ^ 2 * (curveParam + q) * curveParam]

/-- The elements the chain decompresses all have a nonzero `w` coordinate. -/
def ChainOk (g : Lˣ) : Prop :=
  ∀ k ∈ chainExponents, WNonzero ((g ^ (k * (2 ^ 15 : ℕ)) : Lˣ) : L) ∧ WNonzero ((g ^ (k * (2 ^ 47 : ℕ)) : Lˣ) : L)

theorem chain_spec {g : Lˣ} (hg : g ^ (q ^ 4 - q ^ 2 + 1) = 1) {x : E12 Fq} (hx : P g x 1) :
    (E12.hardPart x ≠ none ↔ ChainOk g) ∧
    (∀ z, E12.hardPart x = some z → P g z (3 + (curveParam - 1) ^ 2 * (curveParam + (q : ℤ)) * (curveParam ^ 2 + (q : ℤ) ^ 2 - 1))) := by
  have hcast : ((q ^ 2 : ℕ) : ℤ) = (q : ℤ) ^ 2 := by push_cast; rfl
  have hsq := hx.sq hg
  obtain ⟨i1, s1⟩ := hsq.exptHalf hg
  have e1 : ∀ a, E12.exptHalf (E12.cyclotomicSquare x) = some a →
      P g (E12.mul a (E12.conjugate x)) (curveParam - 1) := by
    intro a ha
    have := (s1 a ha).mul (hx.conj hg)
    rwa [show (1 + 1) * -(halfParam : ℤ) + -1 = curveParam - 1 by rw [curveParam_eq]; ring] at this
  have e2 : ∀ t b, P g t (curveParam - 1) → E12.expt t = some b →
      P g (E12.mul (E12.conjugate t) b) ((curveParam - 1) ^ 2) := by
    intro t b ht hb
    have := (ht.conj hg).mul ((ht.expt hg).2 b hb)
    rw [← curveParam_eq] at this
    rwa [show -(curveParam - 1) + (curveParam - 1) * curveParam = (curveParam - 1) ^ 2 by ring] at this
  have e3 : ∀ t b, P g t ((curveParam - 1) ^ 2) → E12.expt t = some b →
      P g (E12.mul (E12.frobenius t) b) ((curveParam - 1) ^ 2 * (curveParam + q)) := by
    intro t b ht hb
    have := (ht.frob).mul ((ht.expt hg).2 b hb)
    rw [← curveParam_eq] at this
    generalize (q : ℤ) = n at *
    rwa [show (curveParam - 1) ^ 2 * n + (curveParam - 1) ^ 2 * curveParam =
      (curveParam - 1) ^ 2 * (curveParam + n) by ring] at this
  have e4 : ∀ t b, P g t ((curveParam - 1) ^ 2 * (curveParam + q)) → E12.expt t = some b →
      P g b ((curveParam - 1) ^ 2 * (curveParam + q) * curveParam) := by
    intro t b ht hb
    have := (ht.expt hg).2 b hb
    rwa [← curveParam_eq] at this
  have e5 : ∀ t b f, P g t ((curveParam - 1) ^ 2 * (curveParam + q)) → E12.expt t = some b → E12.expt b = some f →
      P g (E12.mul (E12.mul x (E12.cyclotomicSquare x)) (E12.mul (E12.mul (E12.conjugate t) f) (E12.frobeniusSquare t)))
        (3 + (curveParam - 1) ^ 2 * (curveParam + (q : ℤ)) * (curveParam ^ 2 + (q : ℤ) ^ 2 - 1)) := by
    intro t b f ht hb hf
    have h5 := ((e4 t b ht hb).expt hg).2 f hf
    have := (hx.mul hsq).mul (((ht.conj hg).mul h5).mul ht.frobSq)
    rw [← curveParam_eq, hcast] at this
    generalize (q : ℤ) = n at *
    rwa [show 1 + (1 + 1) + (-((curveParam - 1) ^ 2 * (curveParam + n)) +
      (curveParam - 1) ^ 2 * (curveParam + n) * curveParam * curveParam +
      (curveParam - 1) ^ 2 * (curveParam + n) * n ^ 2) =
      3 + (curveParam - 1) ^ 2 * (curveParam + n) * (curveParam ^ 2 + n ^ 2 - 1) by ring] at this
  unfold E12.hardPart
  constructor
  · unfold ChainOk chainExponents
    simp only [List.forall_mem_cons, List.not_mem_nil, false_imp_iff, implies_true, and_true]
    rw [show (2 : ℤ) = 1 + 1 by norm_num, ← i1]
    constructor
    · intro h
      obtain ⟨a, ha, h⟩ := Option.bind_ne_none.1 h
      obtain ⟨b, hb, h⟩ := Option.bind_ne_none.1 h
      obtain ⟨c, hc, h⟩ := Option.bind_ne_none.1 h
      obtain ⟨d, hd, h⟩ := Option.bind_ne_none.1 h
      obtain ⟨f, hf, h⟩ := Option.bind_ne_none.1 h
      have t1 := e1 a ha
      have t2 := e2 _ b t1 hb
      have t3 := e3 _ c t2 hc
      have t4 := e4 _ d t3 hd
      refine ⟨by rw [ha]; exact Option.some_ne_none _, (t1.expt hg).1.1 (by rw [hb]; exact Option.some_ne_none _),
        (t2.expt hg).1.1 (by rw [hc]; exact Option.some_ne_none _),
        (t3.expt hg).1.1 (by rw [hd]; exact Option.some_ne_none _),
        (t4.expt hg).1.1 (by rw [hf]; exact Option.some_ne_none _)⟩
    · rintro ⟨h1, h2, h3, h4, h5⟩
      obtain ⟨a, ha⟩ := Option.ne_none_iff_exists'.1 h1
      have t1 := e1 a ha
      obtain ⟨b, hb⟩ := Option.ne_none_iff_exists'.1 ((t1.expt hg).1.2 h2)
      have t2 := e2 _ b t1 hb
      obtain ⟨c, hc⟩ := Option.ne_none_iff_exists'.1 ((t2.expt hg).1.2 h3)
      have t3 := e3 _ c t2 hc
      obtain ⟨d, hd⟩ := Option.ne_none_iff_exists'.1 ((t3.expt hg).1.2 h4)
      have t4 := e4 _ d t3 hd
      obtain ⟨f, hf⟩ := Option.ne_none_iff_exists'.1 ((t4.expt hg).1.2 h5)
      exact Option.bind_ne_none.2 ⟨a, ha, Option.bind_ne_none.2 ⟨b, hb, Option.bind_ne_none.2 ⟨c, hc,
        Option.bind_ne_none.2 ⟨d, hd, Option.bind_ne_none.2 ⟨f, hf, Option.some_ne_none _⟩⟩⟩⟩⟩
  · intro z h
    obtain ⟨a, ha, h⟩ := Option.bind_eq_some_iff.1 h
    obtain ⟨b, hb, h⟩ := Option.bind_eq_some_iff.1 h
    obtain ⟨c, hc, h⟩ := Option.bind_eq_some_iff.1 h
    obtain ⟨d, hd, h⟩ := Option.bind_eq_some_iff.1 h
    obtain ⟨f, hf, h⟩ := Option.bind_eq_some_iff.1 h
    have t1 := e1 a ha
    have t2 := e2 _ b t1 hb
    have t3 := e3 _ c t2 hc
    have := e5 _ d f t3 hd hf
    rw [Option.some.inj h] at this
    exact this

end Verif.Bls
