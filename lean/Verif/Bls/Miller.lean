import Verif.Bls.Tower

/-! # Model of the Miller loop of circuits/gadgets/pairing_bls12381/pairing.go -/

namespace Verif.Bls

variable {K : Type} [Field K] [DecidableEq K]

/-- g1.go:9 `G1Affine` (gnark's `weierstrass.AffinePoint`). -/
@[ext] structure G1Affine (K : Type) where
  x : K
  y : K

/-- g2.go:13-15 `G2Affine`. -/
@[ext] structure G2Affine (K : Type) where
  x : E2 K
  y : E2 K
deriving DecidableEq

/-- g2.go:21-23 `G2Projective`. -/
@[ext] structure G2Projective (K : Type) where
  x : E2 K
  y : E2 K
  z : E2 K

/-- pairing.go:205-209 `LineEvaluation`. -/
@[ext] structure LineEvaluation (K : Type) where
  r0 : E2 K
  r1 : E2 K
  r2 : E2 K

/-- pairing.go:24-67 `DoubleStep`. -/
def doubleStep (p : G2Projective K) : Option (G2Projective K × LineEvaluation K) := do
  let A := E2.mul p.x p.y
  let A ← E2.halve A
  let B := E2.square p.y
  let C := E2.square p.z
  let D := E2.double C
  let D := E2.add D C
  let E := E2.mulBybTwistCurveCoeff D
  let F := E2.double E
  let F := E2.add F E
  let G := E2.add B F
  let G ← E2.halve G
  let H := E2.add p.y p.z
  let H := E2.square H
  let t1 := E2.add B C
  let H := E2.sub H t1
  let I := E2.sub E B
  let J := E2.square p.x
  let EE := E2.square E
  let k := E2.double EE
  let k := E2.add k EE
  let px := E2.sub B F
  let px := E2.mul px A
  let py := E2.square G
  let py := E2.sub py k
  let pz := E2.mul B H
  let lr0 := I
  let lr1 := E2.double J
  let lr1 := E2.add lr1 J
  let lr2 := E2.neg H
  pure (⟨px, py, pz⟩, ⟨lr0, lr1, lr2⟩)

/-- pairing.go:69-85 `AffineToProjective`. -/
def affineToProjective (Q : G2Affine K) : G2Projective K := ⟨Q.x, Q.y, E2.one⟩

/-- pairing.go:87-94 `NegAffine`. -/
def negAffine (a : G2Affine K) : G2Affine K := ⟨a.x, E2.neg a.y⟩

/-- pairing.go:166-203 `AddStep`. -/
def addStep (p : G2Projective K) (a : G2Affine K) : G2Projective K × LineEvaluation K :=
  let Y2Z1 := E2.mul a.y p.z
  let O := E2.sub p.y Y2Z1
  let X2Z1 := E2.mul a.x p.z
  let L := E2.sub p.x X2Z1
  let C := E2.square O
  let D := E2.square L
  let E := E2.mul L D
  let F := E2.mul p.z C
  let G := E2.mul p.x D
  let t0 := E2.double G
  let H := E2.add E F
  let H := E2.sub H t0
  let t1 := E2.mul p.y E
  let px := E2.mul L H
  let py := E2.sub G H
  let py := E2.mul py O
  let py := E2.sub py t1
  let pz := E2.mul E p.z
  let t2 := E2.mul L a.y
  let J := E2.mul a.x O
  let J := E2.sub J t2
  let lr0 := J
  let lr1 := E2.neg O
  let lr2 := L
  (⟨px, py, pz⟩, ⟨lr0, lr1, lr2⟩)

/-- pairing.go:211 `loopCounter`. -/
def loopCounter : List ℕ :=
  [0, 0, 0, 0, 0, 0, 0, 0, 0, 0, 0, 0, 0, 0, 0, 0, 1, 0, 0, 0, 0, 0, 0, 0, 0, 0, 0, 0, 0, 0, 0, 0, 0, 0, 0, 0, 0, 0, 0, 0, 0,
    0, 0, 0, 0, 0, 0, 0, 1, 0, 0, 0, 0, 0, 0, 0, 0, 1, 0, 0, 1, 0, 1, 1]

/-- pairing.go:231-245: the loop over the pairs for `i == len(loopCounter) - 2`, from index `k` on. -/
def millerFirst : List (G1Affine K) → List (G2Affine K) → List (G2Projective K) → E12 K →
    Option (List (G2Projective K) × E12 K)
  | p :: ps, q :: qs, T :: Ts, result => do
    let (T, l1) ← doubleStep T
    let l1r1 := E2.mulByElement l1.r1 p.x
    let l1r2 := E2.mulByElement l1.r2 p.y
    let (T, l2) := addStep T q
    let l2r1 := E2.mulByElement l2.r1 p.x
    let l2r2 := E2.mulByElement l2.r2 p.y
    let lines := E12.mul014By014 l1.r0 l1r1 l1r2 l2.r0 l2r1 l2r2
    let result := E12.mul result lines
    let (Ts, result) ← millerFirst ps qs Ts result
    pure (T :: Ts, result)
  | _, _, _, result => pure ([], result)

/-- pairing.go:251-269: the inner loop over the pairs, from index `k` on; `bit` is `loopCounter[i]`. -/
def millerBody (bit : ℕ) : List (G1Affine K) → List (G2Affine K) → List (G2Projective K) → E12 K →
    Option (List (G2Projective K) × E12 K)
  | p :: ps, q :: qs, T :: Ts, result => do
    let (T, l1) ← doubleStep T
    let l1r1 := E2.mulByElement l1.r1 p.x
    let l1r2 := E2.mulByElement l1.r2 p.y
    if bit = 0 then
      let result := E12.mulBy014 result l1.r0 l1r1 l1r2
      let (Ts, result) ← millerBody bit ps qs Ts result
      pure (T :: Ts, result)
    else
      let (T, l2) := addStep T q
      let l2r1 := E2.mulByElement l2.r1 p.x
      let l2r2 := E2.mulByElement l2.r2 p.y
      let lines := E12.mul014By014 l1.r0 l1r1 l1r2 l2.r0 l2r1 l2r2
      let result := E12.mul result lines
      let (Ts, result) ← millerBody bit ps qs Ts result
      pure (T :: Ts, result)
  | _, _, _, result => pure ([], result)

/-- pairing.go:247-270: the loop `for i := len(loopCounter) - 3; i >= 0; i--`, over the remaining counter entries. -/
def millerRest (ps : List (G1Affine K)) (qs : List (G2Affine K)) : List ℕ → List (G2Projective K) → E12 K →
    Option (List (G2Projective K) × E12 K)
  | [], Ts, result => pure (Ts, result)
  | bit :: bits, Ts, result => do
    let result := E12.square result
    let (Ts, result) ← millerBody bit ps qs Ts result
    millerRest ps qs bits Ts result

/-- pairing.go:213-275 `MillerLoop`; `none` is the returned error (or an unsatisfiable `Halve`, impossible in odd
characteristic). -/
def millerLoop (p : List (G1Affine K)) (q : List (G2Affine K)) : Option (E12 K) :=
  let n := p.length
  if n = 0 ∨ n ≠ q.length then none
  else do
    let qProj := q.map affineToProjective
    let result : E12 K := E12.one
    let (qProj, result) ← millerFirst p q qProj result
    let (_, result) ← millerRest p q (loopCounter.take (loopCounter.length - 2)).reverse qProj result
    pure (E12.conjugate result)

/-- pairing.go:312-319 `Pair`. -/
def pair (P : List (G1Affine K)) (Q : List (G2Affine K)) : Option (E12 K) := do
  let res ← millerLoop P Q
  E12.finalExponentiation res

end Verif.Bls
