import Verif.Bls.PropsHash
import Verif.Bls.Sample

/-! # C88: the test vector of main/main.go, evaluated in the specification

The message `signingRoot` of main/main.go is hashed with the specification (RFC 9380, FIPS 180-4), step by step, by the kernel:
the result is the point whose coordinates main/main.go writes as constants.  This also checks the specifications against data of
the repository which they were not written from. -/

namespace Verif.Bls
open RFC Verif.Ec QuadraticAlgebra

/-- The bytes of `signingRoot`. -/
def rootBytes : RFC.Bytes := signingRoot.map fun k => BitVec.ofNat 8 k

/-! ## The message expansion -/

def h0 : RFC.Bytes :=
  ([121, 141, 228, 194, 213, 197, 82, 89,
   53, 235, 15, 194, 225, 27, 45, 3,
   214, 69, 227, 32, 19, 182, 206, 41,
   178, 129, 90, 197, 65, 157, 5, 252] : List ℕ).map fun k => BitVec.ofNat 8 k
def h1 : RFC.Bytes :=
  ([211, 16, 238, 145, 20, 246, 101, 129,
   61, 227, 83, 194, 114, 27, 71, 187,
   223, 51, 155, 99, 210, 22, 146, 174,
   168, 78, 231, 250, 29, 144, 36, 0] : List ℕ).map fun k => BitVec.ofNat 8 k
def h2 : RFC.Bytes :=
  ([119, 149, 191, 138, 224, 22, 240, 151,
   112, 207, 29, 181, 4, 85, 42, 127,
   240, 26, 254, 129, 111, 119, 211, 15,
   220, 253, 121, 1, 242, 61, 62, 236] : List ℕ).map fun k => BitVec.ofNat 8 k
def h3 : RFC.Bytes :=
  ([148, 251, 31, 95, 30, 244, 179, 226,
   13, 138, 59, 48, 140, 253, 167, 15,
   69, 23, 117, 190, 4, 213, 39, 62,
   176, 89, 245, 37, 215, 167, 134, 97] : List ℕ).map fun k => BitVec.ofNat 8 k
def h4 : RFC.Bytes :=
  ([201, 176, 204, 71, 145, 49, 192, 215,
   77, 113, 235, 120, 130, 185, 28, 61,
   175, 213, 170, 192, 93, 36, 255, 253,
   138, 88, 243, 152, 132, 124, 195, 104] : List ℕ).map fun k => BitVec.ofNat 8 k

theorem b0_eq : RFC.b0 rootBytes 128 = h0 := by decide +kernel
theorem b1_eq : RFC.b h0 1 = h1 := by decide +kernel
theorem b2_eq : RFC.H (List.zipWith (· ^^^ ·) h0 h1 ++ Sha.Spec.beBytes 1 2 ++ dstPrime) = h2 := by decide +kernel
theorem b3_eq : RFC.H (List.zipWith (· ^^^ ·) h0 h2 ++ Sha.Spec.beBytes 1 3 ++ dstPrime) = h3 := by decide +kernel
theorem b4_eq : RFC.H (List.zipWith (· ^^^ ·) h0 h3 ++ Sha.Spec.beBytes 1 4 ++ dstPrime) = h4 := by decide +kernel

theorem expand_eq : RFC.expand rootBytes 128 = h1 ++ h2 ++ h3 ++ h4 := by
  have e2 : RFC.b h0 2 = h2 := by rw [← b2_eq, ← b1_eq]; rfl
  have e3 : RFC.b h0 3 = h3 := by rw [← b3_eq, ← e2]; rfl
  have e4 : RFC.b h0 4 = h4 := by rw [← b4_eq, ← e3]; rfl
  have hr : List.range ((128 + 31) / 32) = [0, 1, 2, 3] := by decide
  unfold RFC.expand
  rw [b0_eq, hr]
  simp only [List.map_cons, List.map_nil, Nat.zero_add, Nat.reduceAdd]
  rw [b1_eq, e2, e3, e4]
  decide

/-- The field element. -/
def vecU : E2 Fq :=
  ⟨((3194382799605009791806102323488553702433132349835240351500579373145187402566887675143698382923211220424680579919181 : ℕ) : Fq),
   ((2658628846867064378178939104191004838187447194785412116094385064267831630808794699141819190979788004369497608576491 : ℕ) : Fq)⟩

theorem vec_field : RFC.hashToField rootBytes 1 = [vecU.val] := by
  have hr : List.range 1 = [0] := by decide
  unfold RFC.hashToField
  rw [hr, List.map_cons, List.map_nil, show 1 * 2 * 64 = 128 by norm_num, expand_eq]
  have e0 : RFC.elem (h1 ++ h2 ++ h3 ++ h4) (2 * 0) = vecU.a0 := by decide +kernel
  have e1 : RFC.elem (h1 ++ h2 ++ h3 ++ h4) (2 * 0 + 1) = vecU.a1 := by decide +kernel
  rw [e0, e1]
  rfl

/-! ## The map to the curve -/

/-- The point of the isogenous curve. -/
def vecX : E2 Fq :=
  ⟨((1690451668523521303360831713544512677644498942359818099458562706954669779873395358005918822780655182482887301044343 : ℕ) : Fq),
   ((539034685886568845582245391893772779876587526762268246755423355846021321065741708278186712290207728689361711171235 : ℕ) : Fq)⟩
def vecY : E2 Fq :=
  ⟨((259642452816644061560452163324982834767866942823893704527601569670951505744173268781537338874100725823433227990519 : ℕ) : Fq),
   ((3594894811807110389177848443494849221344376186794353497839719655477631304211411435497452984756377336747189889952374 : ℕ) : Fq)⟩
/-- Its image on the twist. -/
def vecR : G2Affine Fq :=
  ⟨⟨((430544855361265257896546746951464669757027385453039044329647352897889388105933327530641873047708614614617615768597 : ℕ) : Fq),
   ((1314305665772181974153331107125050182655896923008685869719853727710252773502781782368200924435031484207690674154235 : ℕ) : Fq)⟩,
  ⟨((1160299590075536672596086431218128229647957118608726629894651732502709699533693450829511410076134553506031042216789 : ℕ) : Fq),
   ((1358235250185811587239371933228717438350539387034623383134995037012886553183497714581380616904965071498797716092171 : ℕ) : Fq)⟩⟩

def cA : E2 Fq := ⟨0, 240⟩
def cB : E2 Fq := ⟨1012, 1012⟩
def cZ : E2 Fq := ⟨-2, -1⟩
def vecDen : E2 Fq := E2.add (E2.mul (E2.square cZ) (E2.square (E2.square vecU))) (E2.mul cZ (E2.square vecU))

theorem vecDen_ne : vecDen ≠ E2.zero := by decide +kernel
theorem vecX_num : E2.mul vecX (E2.mul cA vecDen) = E2.neg (E2.mul cB (E2.add vecDen E2.one)) := by decide +kernel
theorem vecY_num : E2.square vecY = E2.add (E2.add (E2.mul (E2.square vecX) vecX) (E2.mul cA vecX)) cB := by decide +kernel
theorem vec_sgn : sgn0 vecY.val = sgn0 vecU.val := by decide +kernel
theorem vec_iso : g2Isogeny ⟨vecX, vecY⟩ = some vecR := by decide +kernel

/-- The cofactor cleared with affine arithmetic. -/
def vecClear (a : G2Affine Fq) : Option (G2Affine Fq) := do
  let x1 ← g2ConstScalarMulV2 a
  let x1 := g2Neg x1
  let x2 ← g2ConstScalarMulV2 x1
  let x2 := g2Neg x2
  let r1 ← g2Sub x2 x1
  let r2 ← g2Sub r1 a
  let t ← g2Sub x1 a
  let r3 ← g2Add r2 (g2Psi t)
  let d ← g2Double' a
  g2Add r3 (g2Psi (g2Psi d))

theorem vec_clear : vecClear vecR = some ⟨expectedX, expectedY⟩ := by decide +kernel

attribute [local irreducible] q r

theorem cA_val : cA.val = RFC.A := rfl
theorem cB_val : cB.val = RFC.B := rfl
theorem cZ_val : cZ.val = RFC.Z := rfl

theorem vecDen_val : vecDen.val = den vecU.val := by
  unfold vecDen den
  rw [E2.val_add, E2.val_mul, E2.val_mul, E2.val_square, E2.val_square, E2.val_square, cZ_val]
  ring

theorem vec_den_ne : den vecU.val ≠ 0 := by
  rw [← vecDen_val]
  intro h
  exact vecDen_ne (E2.val_inj.1 (h.trans E2.val_zero.symm))

theorem vec_sswu : SSWU vecU.val vecX.val vecY.val := by
  have hd := vec_den_ne
  have hA := A_ne
  have h1 : x1 vecU.val = vecX.val := by
    have h := congrArg E2.val vecX_num
    rw [E2.val_mul, E2.val_mul, E2.val_neg, E2.val_mul, E2.val_add, E2.val_one, vecDen_val, cA_val, cB_val] at h
    unfold x1
    rw [if_neg hd]
    field_simp
    linear_combination -h
  have h2 : vecY.val ^ 2 = g vecX.val := by
    have h := congrArg E2.val vecY_num
    rw [E2.val_square, E2.val_add, E2.val_add, E2.val_mul, E2.val_mul, E2.val_square, cA_val, cB_val] at h
    unfold g
    linear_combination h
  refine ⟨?_, h2, vec_sgn⟩
  unfold sswuX
  rw [h1, if_pos ⟨vecY.val, by rw [← h2]; ring⟩]

theorem vec_map : ∃ P, MapTo vecU.val P ∧ AR vecR P := by
  have hs := vec_sswu
  obtain ⟨p', h, hx, hy, -, P, hP⟩ := C58_isogeny ⟨vecX, vecY⟩ hs.2.1
  rw [vec_iso] at h
  obtain rfl := Option.some.inj h
  exact ⟨P, ⟨_, _, hs, IsPt.congr hP hx.symm hy.symm⟩, hP⟩

theorem vecClear_sound {a z : G2Affine Fq} {P : (curve (bTw Fq)).Point} (ha : AR a P) (h : vecClear a = some z) :
    AR z (clearCofactorRFC P) := by
  unfold vecClear at h
  obtain ⟨x1, e1, h⟩ := Option.bind_eq_some_iff.1 h
  obtain ⟨x2, e2, h⟩ := Option.bind_eq_some_iff.1 h
  obtain ⟨r1, e3, h⟩ := Option.bind_eq_some_iff.1 h
  obtain ⟨r2, e4, h⟩ := Option.bind_eq_some_iff.1 h
  obtain ⟨t, e5, h⟩ := Option.bind_eq_some_iff.1 h
  obtain ⟨r3, e6, h⟩ := Option.bind_eq_some_iff.1 h
  obtain ⟨d, e7, h⟩ := Option.bind_eq_some_iff.1 h
  have a1 := g2Neg_spec (scalarMulV2_sound ha e1)
  rw [← blsX_smul] at a1
  have a2 := g2Neg_spec (scalarMulV2_sound a1 e2)
  rw [← blsX_smul, sq_smul] at a2
  have a3 := (C55_sub _ _ a2 a1).2 _ e3
  have a4 := (C55_sub _ _ a3 ha).2 _ e4
  have a5 := (C55_sub _ _ a1 ha).2 _ e5
  have a6 := (C55_add _ _ a4 (psi_spec a5)).2 _ e6
  have a7 := (C55_double _ ha).2 _ e7
  have a8 := (C55_add _ _ a6 (psi_spec (psi_spec a7))).2 _ h
  rw [clearCofactorRFC_eq]
  have f : blsX • P - P = (blsX - 1) • P := by rw [sub_zs, one_zsmul]
  have f4 : blsX ^ 2 • P - blsX • P - P = (blsX ^ 2 - blsX - 1) • P := by
    rw [sub_zs, sub_zs, one_zsmul]
  rw [f, f4] at a8
  exact a8

/-- The test vector: `encode_to_curve(signingRoot)` of RFC 9380 is the point main/main.go expects. -/
theorem vec_encode : ∃ P, EncodeToCurve rootBytes P ∧ IsPt (bTw Fq) expectedX.val expectedY.val P := by
  obtain ⟨P, hm, hP⟩ := vec_map
  exact ⟨_, ⟨_, P, vec_field, hm, rfl⟩, vecClear_sound hP vec_clear⟩

end Verif.Bls
