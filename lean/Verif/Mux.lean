import Verif.Api

/-! # Model of circuits/gadgets/mux/multiplexer.go and of the selection/comparison/shift
gadgets of circuits/gadgets/rlp/{util,rlp}.go -/

namespace Verif
open Api
variable {p : ℕ}

namespace Mux

/-- circuits/gadgets/mux/multiplexer.go:48-50 `isEqual`. -/
def isEqual (a b : F p) : F p := isZero (a - b)

/-- circuits/gadgets/mux/multiplexer.go:26-35 `decode`: one indicator per index, their running sum, asserted boolean. -/
def decode (width : ℕ) (input : F p) : Option (List (F p) × F p) := do
  let output := (List.range width).map fun (i : ℕ) => isEqual (i : F p) input
  let success := output.foldl (fun acc v => acc + v) 0
  assertBool success
  pure (output, success)

/-- circuits/gadgets/mux/multiplexer.go:37-46 `dotProduct`: panics unless lengths agree. -/
def dotProduct (width : ℕ) (a b : List (F p)) : Option (F p) :=
  if a.length ≠ b.length then none
  else (List.range width).foldlM (fun acc i => do
    let x ← a[i]?
    let y ← b[i]?
    pure (acc + x * y)) 0

/-- circuits/gadgets/mux/multiplexer.go:8-22 `Multiplex`. -/
def multiplex (selector : F p) (wIn nIn : ℕ) (input : List (List (F p))) :
    Option (List (F p)) := do
  let (mask, success) ← decode nIn selector
  let output ← (List.range wIn).mapM fun i => do
    let row ← input[i]?
    dotProduct nIn row mask
  assertEq success 1
  pure output

end Mux

namespace Rlp

/-- circuits/gadgets/rlp/util.go:162-164 `Equal`. -/
def equal (a b : F p) : F p := isZero (a - b)

/-- circuits/gadgets/rlp/util.go:166-168 `LessThan`. -/
def lessThan (a b : F p) : F p := isZero (cmp a b + 1)

/-- circuits/gadgets/rlp/util.go:33-42 `Decoder`. -/
def decoder (width : ℕ) (input : F p) : Option (List (F p) × F p) := do
  let output := (List.range width).map fun (i : ℕ) => equal (i : F p) input
  let success := output.foldl (fun acc v => acc + v) 0
  assertBool success
  pure (output, success)

/-- circuits/gadgets/rlp/util.go:44-50 `EscalarProduct` (no length check). -/
def escalarProduct (width : ℕ) (a b : List (F p)) : Option (F p) :=
  (List.range width).foldlM (fun acc i => do
    let x ← a[i]?
    let y ← b[i]?
    pure (acc + x * y)) 0

/-- circuits/gadgets/rlp/util.go:15-31 `Multiplexer`. -/
def multiplexer (selector : F p) (wIn nIn : ℕ) (input : List (List (F p))) :
    Option (List (F p)) := do
  let (dec, success) ← decoder nIn selector
  let output ← (List.range wIn).mapM fun i => do
    let row ← input[i]?
    escalarProduct nIn row dec
  assertEq success 1
  pure output

/-- circuits/gadgets/rlp/util.go:170-191 `ArrayEqual`. The running sums `matchSum[i]` are built by a scan;
`input[0]` is `0` followed by them. -/
def arrayEqual (a b : List (F p)) (maxLength : ℕ) (targetLength : F p) : Option (F p) := do
  assertLe (maxLength : F p) (a.length : F p)
  assertLe (maxLength : F p) (b.length : F p)
  let matchSum ← (List.range maxLength).foldlM (fun (acc : List (F p)) i => do
    let x ← a[i]?
    let y ← b[i]?
    if i = 0 then pure (acc ++ [equal x y])
    else do
      let prev ← acc[i - 1]?
      pure (acc ++ [prev + equal x y])) []
  let m ← multiplexer targetLength 1 (maxLength + 1) [0 :: matchSum]
  let m0 ← m[0]?
  pure (equal targetLength m0)

/-- circuits/gadgets/rlp/util.go:193-202 `LogCeil`, the loop: `i` counts up, at most 254 rounds. -/
def logCeilLoop : (fuel : ℕ) → (i : ℕ) → (n : ℕ) → ℕ
  | 0, _, _ => 254
  | fuel + 1, i, n => if n = 0 then i else logCeilLoop fuel (i + 1) (n / 2)

/-- circuits/gadgets/rlp/util.go:193-202 `LogCeil` (for non-negative arguments, as at every call). -/
def logCeil (n : ℕ) : ℕ := logCeilLoop 254 0 n

/-- circuits/gadgets/rlp/util.go:238-252: one column of the barrel shifter of `SubArray`
(`shifts[j][i]` from column `prev`). -/
def rotStage (nIn k : ℕ) (bitv : F p) (prev : List (F p)) : Option (List (F p)) :=
  (List.range nIn).mapM fun j => do
    let a ← prev[(j + 2 ^ k) % nIn]?
    let b ← prev[j]?
    pure (bitv * (a - b) + b)

/-- circuits/gadgets/rlp/util.go:237-250: column `i` of the barrel shifter, appended to the columns so far.
`shifts` rows have 7 cells (line 235), so writing column `i ≥ 7` panics if there is a row. -/
def subArrayColumn (nIn : ℕ) (inp n2b : List (F p)) (cols : List (List (F p))) (i : ℕ) :
    Option (List (List (F p))) :=
  if 7 ≤ i ∧ 0 < nIn then none
  else do
    let prev ← (if i = 0 then some inp else cols[i - 1]?)
    let bi ← n2b[i]?
    let c ← rotStage nIn i bi prev
    pure (cols ++ [c])

/-- circuits/gadgets/rlp/util.go:219-257 `SubArray.SubArray`. `shifts` has 7 columns, so `nInBits > 7` panics
(lines 242/247, when `nIn > 0`), `nInBits = 0` panics at line 253 (when `maxSelect > 0`). -/
def subArray (nIn maxSelect nInBits : ℕ) (inp : List (F p)) (from_ end_ : F p) :
    Option (List (F p) × F p) := do
  assertLe from_ end_
  assertLe end_ (nIn : F p)
  assertLe (end_ - from_) (maxSelect : F p)
  let outLength := end_ - from_
  let n2b := toBinaryFull from_
  let cols ← (List.range nInBits).foldlM (subArrayColumn nIn inp n2b) []
  let output ← (List.range maxSelect).mapM fun i =>
    if nInBits = 0 then none
    else do
      let c ← cols[nInBits - 1]?
      c[i]?
  pure (output, outLength)

/-- circuits/gadgets/rlp/rlp.go:300-307: first stage of `ShiftLeft`, which also applies `minShift`. -/
def shlStage0 (nIn minShift : ℕ) (bitv : F p) (inp : List (F p)) : Option (List (F p)) :=
  (List.range nIn).mapM fun j => do
    let a ← inp[(j + minShift + 2 ^ 0) % nIn]?
    let b ← inp[(j + minShift) % nIn]?
    pure (bitv * (a - b) + b)

/-- circuits/gadgets/rlp/rlp.go:308-317: later stages of `ShiftLeft`. -/
def shlStage (nIn idx : ℕ) (bitv : F p) (prev : List (F p)) : Option (List (F p)) :=
  (List.range nIn).mapM fun j => do
    let a ← prev[(j + 2 ^ idx) % nIn]?
    let b ← prev[j]?
    pure (bitv * (a - b) + b)

/-- circuits/gadgets/rlp/rlp.go:279-324 `ShiftLeft`, for `minShift ≤ maxShift` (as at every call).
`shifts[idx]` only depends on `shifts[idx-1]`, so the model keeps the last row. -/
def shiftLeft (nIn minShift maxShift : ℕ) (inp : List (F p)) (shift : F p) :
    Option (List (F p)) :=
  let shiftBits := logCeil (maxShift - minShift)
  if minShift = maxShift then
    (List.range nIn).mapM fun i => inp[(i + minShift) % nIn]?
  else do
    let bn ← toBinary (shift - (minShift : F p)) shiftBits
    let last ← (List.range shiftBits).foldlM (fun (prev : List (F p)) idx => do
      let bi ← bn[idx]?
      if idx = 0 then shlStage0 nIn minShift bi inp else shlStage nIn idx bi prev) []
    (List.range nIn).mapM fun i => last[i]?

/-- circuits/gadgets/rlp/rlp.go:338-362: one stage of `ShiftRight` (the two inner loops). -/
def shrStage (nIn idx : ℕ) (bitv : F p) (prev : List (F p)) : Option (List (F p)) :=
  (List.range nIn).mapM fun j =>
    if j < 2 ^ idx then do
      let x ← prev[j]?
      pure (x - bitv * x)
    else do
      let a ← prev[j - 2 ^ idx]?
      let b ← prev[j]?
      pure (bitv * (a - b) + b)

/-- circuits/gadgets/rlp/rlp.go:326-370 `ShiftRight`. Row 0 is computed from the input, row `idx` from row `idx-1`;
`nInBits = 0` indexes row -1 and panics when `nIn > 0`. -/
def shiftRight (nIn nInBits : ℕ) (inp : List (F p)) (shift : F p) : Option (List (F p)) := do
  let bits ← toBinary shift nInBits
  let last ← (List.range nInBits).foldlM (fun (prev : List (F p)) idx => do
    let bi ← bits[idx]?
    shrStage nIn idx bi (if idx = 0 then inp else prev)) []
  (List.range nIn).mapM fun i => last[i]?

end Rlp
end Verif
