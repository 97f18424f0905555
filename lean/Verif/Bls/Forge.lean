import Verif.Bls.HashVec

/-! # C60: an accepted encoding that is not even on the curve

The functions below compute one outcome of each circuit that a prover can reach: all tests answered truthfully, except the first one of
`g2SqrtRatio`, which is answered `not one` for the element 1 (with the representative `q + 1`). -/

namespace Verif.Bls
open RFC Verif.Ec Verif.Api QuadraticAlgebra

namespace Forge
open HashVec

def nzH (x : E2 Fq) : Bool := decide (x.val ≠ 0)
def neH (x y : E2 Fq) : Bool := decide (x.val ≠ y.val)

def addH (p a : G2Jac Fq) : G2Jac Fq :=
  let Z1Z1 := E2.square a.z
  let Z2Z2 := E2.square p.z
  let U1 := E2.mul a.x Z2Z2
  let U2 := E2.mul p.x Z1Z1
  let S1 := E2.mul (E2.mul a.y p.z) Z2Z2
  let S2 := E2.mul (E2.mul p.y a.z) Z1Z1
  let ne := neH U1 U2 || neH S1 S2
  let res3 := g2JacDouble p
  let H := E2.sub U2 U1
  let I := E2.square (E2.double H)
  let J := E2.mul H I
  let r := E2.double (E2.sub S2 S1)
  let V := E2.mul U1 I
  let px := E2.sub (E2.sub (E2.sub (E2.square r) J) V) V
  let py := E2.mul (E2.sub V px) r
  let S1 := E2.double (E2.mul S1 J)
  let py := E2.sub py S1
  let pz := E2.mul (E2.sub (E2.sub (E2.square (E2.add p.z a.z)) Z1Z1) Z2Z2) H
  ⟨E2.select (nzH p.z) (E2.select (nzH a.z) (E2.select ne px res3.x) p.x) a.x,
   E2.select (nzH p.z) (E2.select (nzH a.z) (E2.select ne py res3.y) p.y) a.y,
   E2.select (nzH p.z) (E2.select (nzH a.z) (E2.select ne pz res3.z) p.z) a.z⟩

def subH (p a : G2Jac Fq) : G2Jac Fq := addH p ⟨a.x, E2.neg a.y, a.z⟩

def stepH (t0 t1 : G2Jac Fq) (j : ℕ) (res : G2Jac Fq) : G2Jac Fq :=
  if j = 1 then addH res t0
  else if j = 3 then addH res t1
  else if j = 7 then addH res t0
  else if j = 23 then addH res t0
  else res

def loopH (t0 t1 : G2Jac Fq) : ℕ → ℕ → G2Jac Fq → G2Jac Fq
  | 0, _, res => res
  | k + 1, j, res => loopH t0 t1 k (j + 1) (stepH t0 t1 j (g2JacDouble (g2JacDouble res)))

def mulH (a : G2Jac Fq) : G2Jac Fq := loopH a (g2JacDouble a) 31 1 (addH (g2JacDouble a) a)

def clearH (a : G2Jac Fq) : G2Jac Fq :=
  let xg := g2JacNeg (mulH a)
  let xxg := g2JacNeg (mulH xg)
  let res := subH (subH xxg xg) a
  let res := addH res (g2JacPsi (subH xg a))
  let t := g2JacDouble a
  subH res ⟨E2.mulByElement t.x thirdRootOneG1, t.y, t.z⟩

def affH (Q : G2Jac Fq) : Option (G2Affine Fq) :=
  (E2.inverse Q.z).map fun a =>
    let b := E2.square a
    ⟨E2.select (nzH Q.z) (E2.mul Q.x b) E2.zero, E2.select (nzH Q.z) (E2.mul (E2.mul Q.y b) a) E2.zero⟩

def jacH (Q : G2Affine Fq) : G2Jac Fq :=
  let ni := nzH Q.x || nzH Q.y
  ⟨E2.select ni Q.x E2.one, E2.select ni Q.y E2.one, E2.select ni E2.one E2.zero⟩

def stepS (k : ℕ) (s : E2 Fq × E2 Fq × E2 Fq) : E2 Fq × E2 Fq × E2 Fq :=
  let nE1 := decide ((e2Exp s.2.2 k).a0 ≠ 1) || decide ((e2Exp s.2.2 k).a1 ≠ 0)
  let tv1 := E2.mul s.1 s.1
  (tv1, E2.select nE1 (E2.mul s.2.1 s.1) s.2.1, E2.select nE1 (E2.mul s.2.2 tv1) s.2.2)

/-- `g2SqrtRatio`, with the first answer forged; `none` if that is impossible. -/
def sqrtF (u v : E2 Fq) : Option (E2 Fq) :=
  let tv2 := e2Exp v 7
  let tv3 := E2.mul (E2.square tv2) v
  let tv5 := E2.mul (e2Exp (E2.mul u tv3) sqrtC3) tv2
  let tv2 := E2.mul tv5 v
  let tv3 := E2.mul tv5 u
  let tv4 := E2.mul tv3 tv2
  if (e2Exp tv4 4).a0 = 1 then
    some (stepS 1 (stepS 2 (sqrtC6, E2.mul tv3 sqrtC7, E2.mul tv4 sqrtC6))).2.1
  else none

def sgH (x : E2 Fq) : Bool := decide (canon x.a0 % 2 = 1)

def mapF (e2 : E2 Fq) : Option (E2 Fq × E2 Fq) := do
  let tv1 := E2.mul (E2.square e2) sswuZ
  let tv2 := E2.add (E2.square tv1) tv1
  let tv3 := E2.mul (E2.add tv2 E2.one) sswuB
  let tv4 := E2.mul (E2.neg tv2) sswuA
  let tv2 := E2.square tv3
  let tv6 := E2.square tv4
  let tv5 := E2.mul tv6 sswuA
  let tv2 := E2.mul (E2.add tv2 tv5) tv3
  let tv6 := E2.mul tv6 tv4
  let tv2 := E2.add tv2 (E2.mul tv6 sswuB)
  let x := E2.mul tv1 tv3
  let y1 ← sqrtF tv2 tv6
  let y := E2.mul (E2.mul tv1 e2) y1
  let x ← E2.div x tv4
  pure (x, E2.select (sgH e2 ^^ sgH y) (E2.neg y) y)

/-! ## These are outcomes of the circuits -/

theorem one_small : 1 < 2 ^ 381 - q := by decide +kernel

section
attribute [local irreducible] q r sqrtC3 sqrtC6 sqrtC7 sswuA sswuB sswuZ

theorem addH_mem (p a : G2Jac Fq) : g2JacAdd p a (addH p a) :=
  ⟨_, e2NotZero_honest _, _, e2NotZero_honest _, _, e2NotEqual_honest _ _, _, e2NotEqual_honest _ _, rfl⟩

theorem subH_mem (p a : G2Jac Fq) : g2JacSub p a (subH p a) := addH_mem _ _

theorem stepH_mem (t0 t1 : G2Jac Fq) (j : ℕ) (res : G2Jac Fq) : g2JacScalarStep t0 t1 j res (stepH t0 t1 j res) := by
  unfold g2JacScalarStep stepH
  repeat' split
  all_goals first | exact addH_mem _ _ | rfl

theorem loopH_mem (t0 t1 : G2Jac Fq) (k j : ℕ) (res : G2Jac Fq) : g2JacScalarLoop t0 t1 k j res (loopH t0 t1 k j res) := by
  induction k generalizing j res with
  | zero => rfl
  | succ k ih => exact ⟨_, stepH_mem _ _ _ _, ih _ _⟩

theorem mulH_mem (a : G2Jac Fq) : g2JacConstScalarMul a (mulH a) := ⟨_, addH_mem _ _, loopH_mem _ _ _ _ _⟩

theorem clearH_mem (a : G2Jac Fq) : clearCofactorJac a (clearH a) :=
  ⟨_, mulH_mem _, _, mulH_mem _, _, subH_mem _ _, _, subH_mem _ _, _, subH_mem _ _, _, addH_mem _ _, subH_mem _ _⟩

theorem affH_mem {Q : G2Jac Fq} {z : G2Affine Fq} (h : affH Q = some z) : g2AffineFromJac Q z := by
  obtain ⟨a, ha, rfl⟩ := Option.map_eq_some_iff.1 h
  exact ⟨a, ha, _, e2NotZero_honest _, rfl⟩

theorem jacH_mem (Q : G2Affine Fq) : g2JacFromAffine Q (jacH Q) :=
  ⟨_, ⟨_, e2NotZero_honest _, _, e2NotZero_honest _, rfl⟩, rfl⟩

theorem stepS_mem (k : ℕ) (s : E2 Fq × E2 Fq × E2 Fq) : sqrtStep k s (stepS k s) :=
  ⟨_, ⟨_, g1NotEqual_honest _ _, _, g1NotZero_honest _, rfl⟩, rfl⟩

theorem one_forged : g1NotEqual 1 1 true := by
  rw [g1NotEqual_self, canon_one]
  exact one_small

theorem sqrtF_mem {u v z : E2 Fq} (h : sqrtF u v = some z) : g2SqrtRatio u v (z, true) := by
  unfold sqrtF at h
  simp only at h
  split at h
  · rename_i h1
    rw [← Option.some.inj h]
    refine ⟨true, ⟨true, by rw [h1]; exact one_forged, _, g1NotZero_honest _, rfl⟩, _, stepS_mem _ _, _, stepS_mem _ _, rfl⟩
  · exact absurd h (by simp)

theorem sgH_mem (x : E2 Fq) : g2Sgn0 x (sgH x) :=
  (C57_sgn0_fails x _).1.2 ⟨canon x.a0, (canon_rep _).1, (canon_rep _).2, rfl⟩

theorem mapF_mem {u : E2 Fq} {xy : E2 Fq × E2 Fq} (h : mapF u = some xy) : mapElementToCurve2 u xy := by
  unfold mapF at h
  obtain ⟨y1, h1, h⟩ := Option.bind_eq_some_iff.1 h
  obtain ⟨x, h2, h⟩ := Option.bind_eq_some_iff.1 h
  rw [← Option.some.inj h]
  exact ⟨(y1, true), sqrtF_mem h1, _, sgH_mem _, _, sgH_mem _, x, h2, rfl⟩
end

/-- The forged map followed by the isogeny. -/
def isoF (u : E2 Fq) : Option (G2Affine Fq) := do
  let xy ← mapF u
  g2Isogeny ⟨xy.1, xy.2⟩

def encF (u : E2 Fq) : Option (G2Affine Fq) := do
  let p ← isoF u
  affH (clearH (jacH p))

/-- One map forged, the other result given. -/
def hashF (u : E2 Fq) (p1 : G2Affine Fq) : Option (G2Affine Fq) := do
  let p ← isoF u
  affH (clearH (addH (jacH p) (jacH p1)))

def off (z : G2Affine Fq) : Bool := decide (E2.square z.y ≠ E2.add (E2.mul (E2.square z.x) z.x) ⟨4, 4⟩)

/-- The accepted encoding off the curve. -/
def encZ : G2Affine Fq :=
  ⟨⟨((1982741359352444098623000170613914099053788037562555913736080877273850313281850942314140304540842490349889706511058 : ℕ) : Fq),
   ((2011880887653864402651827817312689860910431092970372252704673413542067060906511917583424169508566753588518001326604 : ℕ) : Fq)⟩,
  ⟨((1260404695011702363788155619375385772910628717492282089544758989339363748650979373161326008799262922511570782798284 : ℕ) : Fq),
   ((3656048412835668971332936627342786932506776812331119412999396041342063865582508793122441428551559390104296212804030 : ℕ) : Fq)⟩⟩

theorem enc_num : encF eU = some encZ := by decide +kernel
theorem encZ_off : off encZ = true := by decide +kernel
theorem hash_num : ((hashF aU cR).any off) = true := by decide +kernel

attribute [local irreducible] q r sqrtC3 sqrtC6 sqrtC7 sswuA sswuB sswuZ

theorem isoF_mem {u : E2 Fq} {p : G2Affine Fq} (h : isoF u = some p) : mapIso u p := by
  obtain ⟨xy, h1, h2⟩ := Option.bind_eq_some_iff.1 h
  exact ⟨xy, mapF_mem h1, h2⟩

theorem off_iff {z : G2Affine Fq} (h : off z = true) : ¬ ∃ P, AR z P := by
  rintro ⟨P, hP⟩
  refine of_decide_eq_true h (E2.val_inj.1 ?_)
  have e : (⟨4, 4⟩ : E2 Fq).val = bTw Fq := by
    rw [bTw_eq]
    ext <;> simp [E2.val, I, re_mul, im_mul]
  rw [E2.val_square, E2.val_add, E2.val_mul, E2.val_square, e]
  have := hP.eq
  linear_combination this

end Forge

open Forge HashVec

attribute [local irreducible] q r sqrtC3 sqrtC6 sqrtC7 sswuA sswuB sswuZ

/-- **C60 fails for the code**, without any hypothesis: `EncodeToG2OnJac` accepts an encoding of a message which is not a point of the
twist at all. -/
theorem C60_encode_off_curve_fails : encodeToG2OnJac msg encZ ∧ ¬ ∃ P, AR encZ P := by
  refine ⟨?_, off_iff encZ_off⟩
  obtain ⟨u0, hf, hu⟩ := field_one p_lt msg msg_lt
  rw [msg_bytes, field1] at hu
  have e : u0 = eU := E2.val_inj.1 (List.cons.inj hu).1.symm
  subst e
  obtain ⟨p, h1, h2⟩ := Option.bind_eq_some_iff.1 enc_num
  exact (encJac_iff hf _).2 ⟨p, _, _, isoF_mem h1, jacH_mem _, clearH_mem _, affH_mem h2⟩

/-- **C60 fails for the code**, without any hypothesis: `HashToG2OnJac` accepts a hash of a message which is not a point of the twist. -/
theorem C60_hash_off_curve_fails : ∃ z, hashToG2OnJac msg z ∧ ¬ ∃ P, AR z P := by
  obtain ⟨u0, u1, hf, hu⟩ := field_two p_lt msg msg_lt
  rw [msg_bytes, field2] at hu
  obtain ⟨h0, h1⟩ := List.cons.inj hu
  have e0 : aU = u0 := E2.val_inj.1 h0
  have e1 : cU = u1 := E2.val_inj.1 (List.cons.inj h1).1
  subst e0 e1
  obtain ⟨P1, m1, a1⟩ := c_map
  obtain ⟨c, hc, hA⟩ := mapIso_complete (fun h => cU_ne ((C57_exceptional _).1 h)) m1
  rw [ar_inj hA a1] at hc
  have hn := hash_num
  obtain ⟨z, hz, ho⟩ := (Option.any_eq_true _ _).1 hn
  obtain ⟨p, h1, h2⟩ := Option.bind_eq_some_iff.1 hz
  exact ⟨z, (hashJac_iff hf _).2 ⟨p, cR, _, _, _, _, isoF_mem h1, hc, jacH_mem _, jacH_mem _, addH_mem _ _, clearH_mem _, affH_mem h2⟩,
    off_iff ho⟩

end Verif.Bls
