import Verif.Bls.G2

/-! # Model of circuits/gadgets/pairing_bls12381/hash2curve.go: the map to the isogenous curve and the isogeny -/

namespace Verif.Bls

/-- `fp.Element` literals are six 64-bit limbs, little-endian, in Montgomery form (gnark-crypto): the element is the value of the
limbs divided by `2³⁸⁴`. -/
def mont (l : List ℕ) : Fq := ((l.foldr (fun d acc => d + 2 ^ 64 * acc) 0 : ℕ) : Fq) * ((2 ^ 384 : ℕ) : Fq)⁻¹

/-- hash2curve.go:16-19 `SswuIsoCurveCoeffA`. -/
def sswuA : E2 Fq :=
  ⟨mont [0],
   mont [16517514583386313282, 74322656156451461, 16683759486841714365, 815493829203396097, 204518332920448171, 1306242806803223655]⟩

/-- hash2curve.go:21-24 `SswuIsoCurveCoeffB`. -/
def sswuB : E2 Fq :=
  ⟨mont [2515823342057463218, 7982686274772798116, 7934098172177393262, 8484566552980779962, 4455086327883106868, 1323173589274087377],
   mont [2515823342057463218, 7982686274772798116, 7934098172177393262, 8484566552980779962, 4455086327883106868, 1323173589274087377]⟩

/-- hash2curve.go:26-29 `Tv4Z`. -/
def sswuZ : E2 Fq :=
  ⟨mont [9794203289623549276, 7309342082925068282, 1139538881605221074, 15659550692327388916, 16008355200866287827, 582484205531694093],
   mont [4897101644811774638, 3654671041462534141, 569769440802610537, 17053147383018470266, 17227549637287919721, 291242102765847046]⟩

/-- Big-endian bytes of a number without leading zeros (Go `big.Int.Bytes`). -/
def bytesBE (k : ℕ) : List ℕ := (Nat.digits 256 k).reverse

/-- Go `big.Int.SetBytes`. -/
def ofBytesBE (l : List ℕ) : ℕ := l.foldl (fun acc b => 256 * acc + b) 0

/-- hash2curve.go:339-345: the loop over the bits of one byte. -/
def e2ExpByte (x res : E2 Fq) (w : ℕ) : E2 Fq :=
  (List.range 8).foldl (fun res j => if w.testBit (7 - j) then E2.mul (E2.square res) x else E2.square res) res

/-- hash2curve.go:314-348 `E2Exp`, for `k ≥ 0` (every caller passes a nonnegative constant). -/
def e2Exp (x : E2 Fq) (k : ℕ) : E2 Fq := if k = 0 then E2.one else (bytesBE k).foldl (e2ExpByte x) E2.one

/-- hash2curve.go:254-257 `tv1` of `g2SqrtRatio`. -/
def sqrtC6 : E2 Fq :=
  ⟨mont [8921533702591418330, 15859389534032789116, 3389114680249073393, 15116930867080254631, 3288288975085550621, 1021049300055853010],
   mont [8921533702591418330, 15859389534032789116, 3389114680249073393, 15116930867080254631, 3288288975085550621, 1021049300055853010]⟩

/-- hash2curve.go:284-287 `c7` of `g2SqrtRatio`. -/
def sqrtC7 : E2 Fq :=
  ⟨mont [1921729236329761493, 9193968980645934504, 9862280504246317678, 6861748847800817560, 10375788487011937166, 4460107375738415],
   mont [16821121318233475459, 10183025025229892778, 1779012082459463630, 3442292649700377418, 1061500799026501234, 1352426537312017168]⟩

/-- hash2curve.go:271, the exponent of step 6. -/
def sqrtC3 : ℕ := ofBytesBE
  [42, 67, 122, 75, 140, 53, 252, 116, 189, 39, 142, 170, 34, 242, 94, 158, 45, 201, 14, 80, 231, 4, 107, 70,
   110, 89, 228, 147, 73, 232, 189, 5, 10, 98, 207, 209, 109, 220, 166, 239, 83, 20, 147, 48, 151, 142, 240, 17,
   214, 134, 25, 200, 97, 133, 199, 178, 146, 232, 90, 135, 9, 26, 4, 150, 107, 249, 30, 211, 231, 27, 116, 49,
   98, 195, 56, 54, 33, 19, 207, 215, 206, 214, 177, 215, 99, 130, 234, 178, 106, 160, 0, 1, 199, 24, 227]

/-- hash2curve.go:296-307: one iteration of the loop, with exponent `k`; the state is `(tv1, tv3, tv4)`. -/
def sqrtStep (k : ℕ) (s : E2 Fq × E2 Fq × E2 Fq) : ND (E2 Fq × E2 Fq × E2 Fq) := do
  let (tv1, tv3, tv4) := s
  let tv5 := e2Exp tv4 k
  let nE1 ← e2NotOne tv5
  let tv2 := E2.mul tv3 tv1
  let tv1 := E2.mul tv1 tv1
  let tv5 := E2.mul tv4 tv1
  let tv3 := E2.select nE1 tv2 tv3
  let tv4 := E2.select nE1 tv5 tv4
  pure (tv1, tv3, tv4)

/-- hash2curve.go:245-312 `g2SqrtRatio`; the loop has the two iterations `i = 3` (exponent 2) and `i = 2` (exponent 1). -/
def g2SqrtRatio (u v : E2 Fq) : ND (E2 Fq × Bool) := do
  let tv1 := sqrtC6
  let tv2 := e2Exp v 7
  let tv3 := E2.square tv2
  let tv3 := E2.mul tv3 v
  let tv5 := E2.mul u tv3
  let tv5 := e2Exp tv5 sqrtC3
  let tv5 := E2.mul tv5 tv2
  let tv2 := E2.mul tv5 v
  let tv3 := E2.mul tv5 u
  let tv4 := E2.mul tv3 tv2
  let tv5 := e2Exp tv4 4
  let isQNr ← e2NotOne tv5
  let tv2 := E2.mul tv3 sqrtC7
  let tv5 := E2.mul tv4 tv1
  let tv3 := E2.select isQNr tv2 tv3
  let tv4 := E2.select isQNr tv5 tv4
  let s ← sqrtStep 2 (tv1, tv3, tv4)
  let s ← sqrtStep 1 s
  pure (s.2.1, isQNr)

/-- hash2curve.go:208-243 `g2Sgn0`.  The bits are those of representatives chosen by the prover; `zeroI` is overwritten in
each iteration, as in the code. -/
def g2Sgn0 (u : E2 Fq) : ND Bool := do
  let a0 ← reduceRep u.a0
  let a1 ← reduceRep u.a1
  let sign := false
  let zero := true
  let signI := a0.testBit 0
  let zeroI := (List.range 384).foldl (fun _ i => signI || a0.testBit i) false
  let sign := sign || (zero && signI)
  let zero := zero && zeroI
  let signI := a1.testBit 0
  let sign := sign || (zero && signI)
  pure sign

/-- hash2curve.go:159-206 `MapElementToCurve2`. -/
def mapElementToCurve2 (e2 : E2 Fq) : ND (E2 Fq × E2 Fq) := do
  let tv1 := E2.square e2
  let tv1 := E2.mul tv1 sswuZ
  let tv2 := E2.square tv1
  let tv2 := E2.add tv2 tv1
  let tv3 := E2.add tv2 E2.one
  let tv3 := E2.mul tv3 sswuB
  let tv2 := E2.neg tv2
  let tv4 := E2.mul tv2 sswuA
  let tv2 := E2.square tv3
  let tv6 := E2.square tv4
  let tv5 := E2.mul tv6 sswuA
  let tv2 := E2.add tv2 tv5
  let tv2 := E2.mul tv2 tv3
  let tv6 := E2.mul tv6 tv4
  let tv5 := E2.mul tv6 sswuB
  let tv2 := E2.add tv2 tv5
  let x := E2.mul tv1 tv3
  let (y1, gx1NSquare) ← g2SqrtRatio tv2 tv6
  let y := E2.mul tv1 e2
  let y := E2.mul y y1
  let x := E2.select gx1NSquare x tv3
  let y := E2.select gx1NSquare y y1
  let y1 := E2.neg y
  let g2Sgn0U ← g2Sgn0 e2
  let g2Sgn0Y ← g2Sgn0 y
  let useY1 := g2Sgn0U ^^ g2Sgn0Y
  let y := E2.select useY1 y1 y
  let x ← ND.ofOption (E2.div x tv4)
  pure (x, y)

/-! ## The isogeny -/

/-- hash2curve.go:383-392, the coefficients of `g2IsogenyXDenominator`. -/
def isoXD (i : ℕ) : E2 Fq := [
  (⟨mont [0],
   mont [2250392438786206615, 17463829474098544446, 14571211649711714824, 4495761442775821336, 258811604141191305, 357646605018048850]⟩ : E2 Fq),
  ⟨mont [4933130441833534766, 15904462746612662304, 8034115857496836953, 12755092135412849606, 7007796720291435703, 252692002104915169],
   mont [8469300574244328829, 4752422838614097887, 17848302789776796362, 12930989898711414520, 16851051131888818207, 1621106615542624696]⟩].getD i E2.zero

/-- hash2curve.go:376-401 `g2IsogenyXDenominator`. -/
def g2IsogenyXDenominator (x : E2 Fq) : E2 Fq :=
  let dst := isoXD 1
  let dst := E2.add dst x
  let dst := E2.mul dst x
  E2.add dst (isoXD 0)

/-- hash2curve.go:409-426, the coefficients of `g2IsogenyXNumerator`. -/
def isoXN (i : ℕ) : E2 Fq := [
  (⟨mont [5185457120960601698, 494647221959407934, 8971396042087821730, 324544954362548322, 14214792730224113654, 1405280679127738945],
   mont [5185457120960601698, 494647221959407934, 8971396042087821730, 324544954362548322, 14214792730224113654, 1405280679127738945]⟩ : E2 Fq),
  ⟨mont [0],
   mont [6910023028261548496, 9745789443900091043, 7668299866710145304, 2432656849393633605, 2897729527445498821, 776645607375592125]⟩,
  ⟨mont [724047465092313539, 15783990863276714670, 12824896677063784855, 15246381572572671516, 13186611051602728692, 1485475813959743803],
   mont [12678383550985550056, 4872894721950045521, 13057521970209848460, 10439700461551592610, 10672236800577525218, 388322803687796062]⟩,
  ⟨mont [4659755689450087917, 1804066951354704782, 15570919779568036803, 15592734958806855601, 7597208057374167129, 1841438384006890194],
   mont [0]⟩].getD i E2.zero

/-- hash2curve.go:403-440 `g2IsogenyXNumerator`. -/
def g2IsogenyXNumerator (x : E2 Fq) : E2 Fq :=
  let dst := isoXN 3
  let dst := E2.mul dst x
  let dst := E2.add dst (isoXN 2)
  let dst := E2.mul dst x
  let dst := E2.add dst (isoXN 1)
  let dst := E2.mul dst x
  E2.add dst (isoXN 0)

/-- hash2curve.go:449-462, the coefficients of `g2IsogenyYDenominator`. -/
def isoYD (i : ℕ) : E2 Fq := [
  (⟨mont [99923616639376095, 10339114964526300021, 6204619029868000785, 1288486622530663893, 14587509920085997152, 272081012460753233],
   mont [99923616639376095, 10339114964526300021, 6204619029868000785, 1288486622530663893, 14587509920085997152, 272081012460753233]⟩ : E2 Fq),
  ⟨mont [0],
   mont [6751177316358619845, 15498000274876530106, 6820146801716041242, 13487284328327464010, 776434812423573915, 1072939815054146550]⟩,
  ⟨mont [7399695662750302149, 14633322083064217648, 12051173786245255430, 9909266166264498601, 1288323043582377747, 379038003157372754],
   mont [6002735353327561446, 6023563502162542543, 13831244861028377885, 15776815867859765525, 4123780734888324547, 1494760614490167112]⟩].getD i E2.zero

/-- hash2curve.go:442-474 `g2IsogenyYDenominator`. -/
def g2IsogenyYDenominator (x : E2 Fq) : E2 Fq :=
  let dst := isoYD 2
  let dst := E2.add dst x
  let dst := E2.mul dst x
  let dst := E2.add dst (isoYD 1)
  let dst := E2.mul dst x
  E2.add dst (isoYD 0)

/-- hash2curve.go:482-499, the coefficients of `g2IsogenyYNumerator`. -/
def isoYN (i : ℕ) : E2 Fq := [
  (⟨mont [10869708750642247614, 13056187057366814946, 1750362034917495549, 6326189602300757217, 1140223926335695785, 632761649765668291],
   mont [10869708750642247614, 13056187057366814946, 1750362034917495549, 6326189602300757217, 1140223926335695785, 632761649765668291]⟩ : E2 Fq),
  ⟨mont [0],
   mont [13765940311003083782, 5579209876153186557, 11349908400803699438, 11707848830955952341, 199199289641242246, 899896674917908607]⟩,
  ⟨mont [15562563812347550836, 2436447360975022760, 6528760985104924230, 5219850230775796305, 5336118400288762609, 194161401843898031],
   mont [16286611277439864375, 18220438224251737430, 906913588459157469, 2019487729638916206, 75985378181939686, 1679637215803641835]⟩,
  ⟨mont [11849179119594500956, 13906615243538674725, 14543197362847770509, 2041759640812427310, 2879701092679313252, 1259985822978576468],
   mont [0]⟩].getD i E2.zero

/-- hash2curve.go:476-514 `g2IsogenyYNumerator`. -/
def g2IsogenyYNumerator (x y : E2 Fq) : E2 Fq :=
  let dst := isoYN 3
  let dst := E2.mul dst x
  let dst := E2.add dst (isoYN 2)
  let dst := E2.mul dst x
  let dst := E2.add dst (isoYN 1)
  let dst := E2.mul dst x
  let dst := E2.add dst (isoYN 0)
  E2.mul dst y

/-- hash2curve.go:350-374 `G2Isogeny`. -/
def g2Isogeny (p : G2Affine Fq) : Option (G2Affine Fq) := do
  let den1 := g2IsogenyYDenominator p.x
  let den0 := g2IsogenyXDenominator p.x
  let newPy := g2IsogenyYNumerator p.x p.y
  let newPx := g2IsogenyXNumerator p.x
  let den1 ← E2.inverse den1
  let den0 ← E2.inverse den0
  pure ⟨E2.mul newPx den0, E2.mul newPy den1⟩

end Verif.Bls
