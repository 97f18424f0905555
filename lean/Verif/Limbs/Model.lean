import Verif.Api

/-! # Model of circuits/gadgets/limbs/limbapi.go

`Split` takes its limbs from a prover-supplied hint, so the model takes the prover's answer as an argument:
a theorem for every `hint` is a theorem about every witness. -/

namespace Verif.Limbs
open Api
variable {p : ℕ}

/-- limbapi.go:12-15 `Limb` (sizes are Go ints; negative sizes are not modelled). -/
structure Limb (p : ℕ) where
  val : F p
  size : ℕ

/-- limbapi.go:19-25 `NewLimbs`. -/
def newLimbs (values : List (F p)) (size : ℕ) : List (Limb p) := values.map fun v => ⟨v, size⟩

/-- limbapi.go:27-33 `Values`. -/
def values (ws : List (Limb p)) : List (F p) := ws.map Limb.val

/-- limbapi.go:43-49 `TotalSize`. -/
def totalSize (ws : List (Limb p)) : ℕ := ws.foldl (fun t w => t + w.size) 0

/-- limbapi.go:183-187 `exp2`: `big.Int.Exp` with no modulus gives 1 for a negative exponent. -/
def exp2 (n : ℤ) : ℕ := 2 ^ n.toNat

/-- A prover's answers to the hint calls: from the limb and the two size arguments to the outputs. -/
abbrev Hint (p : ℕ) := Limb p → ℕ → ℕ → List (F p)

/-- limbapi.go:189-209 `SplitHint`, the loop: remaining value and size, limb size, number of limbs.
`quo` and the new remainder are quotient and remainder by `2^(remSize - limbSize)`. -/
def splitHintGo (limbSize : ℕ) : ℕ → ℕ → ℤ → List ℕ
  | 0, rem, remSize => if 0 < remSize then [rem] else []
  | n + 1, rem, remSize =>
    let zeros := exp2 (remSize - limbSize)
    rem / zeros :: splitHintGo limbSize n (rem - rem / zeros * zeros) (remSize - limbSize)

/-- limbapi.go:189-209 `SplitHint`: the answer of the shipped hint function. -/
def splitHint : Hint p := fun l limbSize nbLimbs =>
  (splitHintGo limbSize nbLimbs l.val.val l.size).map fun n => ((n : ℕ) : F p)

/-- limbapi.go:75-78: the optional argument overrides the default count. -/
def nbLimbsOf (nbLimbsOpt : List ℕ) (dflt : ℕ) : ℕ :=
  match nbLimbsOpt with
  | [n] => n
  | _ => dflt

/-- limbapi.go:67-103 `Split`.  `NewHint` returns `nbTotal` outputs, so a hint of another length is refused. -/
def split (hint : Hint p) (l : Limb p) (newLimbSize : ℕ) (nbLimbsOpt : List ℕ) : Option (List (Limb p)) :=
  if 1 < nbLimbsOpt.length then none
  else if l.size = newLimbSize then some [l]
  else if newLimbSize = 0 then none
  else
    let nbLimbs := nbLimbsOf nbLimbsOpt (l.size / newLimbSize)
    if nbLimbs = 0 ∨ l.size < nbLimbs then none
    else
      let remSize : ℤ := l.size - nbLimbs * newLimbSize
      let nbTotal := if 0 < remSize then nbLimbs + 1 else nbLimbs
      let out := hint l newLimbSize nbLimbs
      if out.length ≠ nbTotal then none
      else do
        let (acc, ret) := (List.range nbLimbs).foldl (fun (s : F p × List (Limb p)) (i : ℕ) =>
          let nbZeros : ℤ := l.size - ((i : ℤ) + 1) * newLimbSize
          (s.1 + out.getD i 0 * (exp2 nbZeros : ℕ), s.2 ++ [⟨out.getD i 0, newLimbSize⟩])) (0, [])
        let last := out.getD (out.length - 1) 0
        let acc := if 0 < remSize then acc + last else acc
        let ret := if 0 < remSize then ret ++ [⟨last, remSize.toNat⟩] else ret
        assertEq acc l.val
        pure ret

/-- limbapi.go:105-127 `Merge`. -/
def merge (ws : List (Limb p)) : Option (Limb p) :=
  match ws with
  | [] => none
  | [w] => some w
  | ws =>
    let s := ws.foldl (fun (s : F p × ℤ) w =>
      let nbZeros := s.2 - w.size
      (s.1 + w.val * (exp2 nbZeros : ℕ), nbZeros)) (0, (totalSize ws : ℤ))
    some ⟨s.1, totalSize ws⟩

/-- limbapi.go:142-148, the final loop of `Resplit`: cut into groups of `newLimbSize` one-bit limbs and merge.
A slice bound beyond the bits is a panic (a Go slice may reach into spare capacity; the unset limbs found there
have no value and make `Merge` panic). -/
def mergeGroups (newLimbSize : ℕ) (bits : List (Limb p)) : Option (List (Limb p)) :=
  if _h : 0 < bits.length ∧ 0 < newLimbSize then
    if newLimbSize ≤ bits.length then do
      let m ← merge (bits.take newLimbSize)
      let r ← mergeGroups newLimbSize (bits.drop newLimbSize)
      pure (m :: r)
    else none
  else if 0 < bits.length then none
  else some []
termination_by bits.length
decreasing_by simp only [List.length_drop]; omega

/-- limbapi.go:130-149 `Resplit`; `FieldBitLen` is the bit length of the modulus.  The loop of the wide case runs
over `i < totalSize`, which is the number of one-bit limbs when every limb has been split. -/
def resplit (hint : ℕ → Hint p) (ws : List (Limb p)) (newLimbSize : ℕ) : Option (List (Limb p)) :=
  if ws.length = 1 then some ws
  else if totalSize ws ≤ p.size then do
    let m ← merge ws
    split (hint 0) m newLimbSize []
  else do
    let bits ← (List.range ws.length).mapM fun i => do
      let w ← ws[i]?
      split (hint i) w 1 []
    mergeGroups newLimbSize bits.flatten

/-- limbapi.go:157-167: find the limb in which the rotation point lies. -/
def findSplit (ws : List (Limb p)) : ℕ → ℕ → ℕ × ℕ
  | i, rem =>
    if h : i < ws.length then
      if rem < (ws[i]).size then (i, rem) else findSplit ws (i + 1) (rem - (ws[i]).size)
    else (i, rem)
termination_by i _ => ws.length - i

/-- limbapi.go:156-181 `LrotMerge`. -/
def lrotMerge (hint : Hint p) (ws : List (Limb p)) (amount : ℕ) : Option (Limb p) := do
  let (i, rem) := findSplit ws 0 amount
  let rotated := ws.drop i ++ ws.take i
  if 0 < rem then do
    let w ← ws[i]?
    let parts ← split hint w rem [1]
    match parts with
    | [a, b] => merge ((rotated ++ [a]).set 0 b)
    | _ => none
  else merge rotated

/-- limbapi.go:151-154 `Lrot`. -/
def lrot (hint1 hint2 : Hint p) (ws : List (Limb p)) (amount limbSize : ℕ) : Option (List (Limb p)) := do
  let r ← lrotMerge hint1 ws amount
  split hint2 r limbSize []

end Verif.Limbs
