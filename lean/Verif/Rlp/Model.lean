import Verif.Mux

/-! # Model of circuits/gadgets/rlp/rlp.go (prefix gadgets, decimal decoding, list checkers) -/

namespace Verif.Rlp
open Api
variable {p : ℕ}

/-- circuits/gadgets/rlp/rlp.go:145-159 `HexToDecimal`. `resultArr[i]` = value of the first `i+1` cells. -/
def hexToDecimal (inp : List (F p)) (maxLen : ℕ) (realLen : F p) : Option (F p) := do
  let resultArr ← (List.range maxLen).foldlM (fun (acc : F p × List (F p)) idx => do
    let x ← inp[idx]?
    let temp := 16 * acc.1 + x
    pure (temp, acc.2 ++ [temp])) (0, [])
  let sel ← select (lessThan realLen 1) 1 (realLen - 1)
  let sel ← select (lessThan (maxLen : F p) sel) ((maxLen : F p) - 1) sel
  let res ← muxSel sel resultArr.2
  select (isZero realLen) 0 res

/-- circuits/gadgets/rlp/rlp.go:162-182 `Hex64To2Fr`. -/
def hex64To2Fr (inp : List (F p)) (realLen : F p) : Option (F p × F p) := do
  let i0 ← inp[0]?
  let i1 ← inp[1]?
  let hi := i0 * 16 + i1
  let resultArr ← (List.range 62).foldlM (fun (acc : F p × List (F p)) k => do
    let x ← inp[k + 2]?
    let temp := 16 * acc.1 + x
    pure (temp, acc.2 ++ [temp])) (0, [])
  let loSel ← select (lessThan realLen 3) 1 (realLen - 3)
  let loSel ← select (lessThan realLen 1) 1 loSel
  let lo ← muxSel loSel resultArr.2
  let isShort := lessThan realLen 63
  let d ← hexToDecimal inp 64 realLen
  let r0 ← select isShort d lo
  let r1 ← select isShort 0 hi
  pure (r0, r1)

/-- Result of `RlpArrayPrefix` (rlp.go:184): `(isBig, prefixOrTotalHexLen, isValid)`. -/
structure ArrayPrefix (p : ℕ) where
  isBig : F p
  hexLen : F p
  isValid : F p

/-- circuits/gadgets/rlp/rlp.go:184-210 `RlpArrayPrefix`. -/
def rlpArrayPrefix (h0 h1 : F p) : ArrayPrefix p :=
  let lt1 := lessThan h0 12
  let eq := isZero (h0 - 15)
  let lt2 := lessThan h1 8
  let isBig := eq * (1 - lt2)
  let prefixVal := 16 * h0 + h1
  let isValid := 1 - lt1
  let lenTemp := 2 * (prefixVal - 192)
  let lenTemp := lenTemp + 2 * isBig * (-55)
  { isBig := isBig, hexLen := isValid * lenTemp, isValid := isValid }

/-- Result of `RlpFieldPrefix` (rlp.go:212), in the order of its Go results. -/
structure FieldPrefix (p : ℕ) where
  isBig : F p
  isLiteral : F p
  hexLen : F p
  isValid : F p
  isArray : F p
  isEmptyList : F p
  isZeroByte : F p

/-- circuits/gadgets/rlp/rlp.go:212-277 `RlpFieldPrefix`. -/
def rlpFieldPrefix (h0 h1 : F p) : FieldPrefix p :=
  let ap := rlpArrayPrefix h0 h1
  let lt1 := lessThan h0 12
  let lt2 := lessThan h0 8
  let eq := isZero (h0 - 11)
  let lt3 := lessThan h1 8
  let eq1 := isZero (h0 - 12)
  let eq2 := isZero h1
  let isLiteral := lt2
  let isBig := eq * (1 - lt3)
  let isEmptyList := eq1 * eq2
  let prefixVal := 16 * h0 + h1
  let lenTmp := 2 * (prefixVal - 128)
  let lenTmp := lenTmp + 2 * isBig * (-55)
  let lenTemp2 := (1 - isLiteral) * lenTmp
  let hexLen := lenTemp2 * (1 - isEmptyList)
  let isValid := lt1 + isEmptyList
  let isValid := isValid - lt1 * isEmptyList
  let hexLen := isValid * hexLen + ap.isValid * ap.hexLen
  let isValid := isValid + ap.isValid
  let isBig := isBig + ap.isBig
  let z0 := isZero h0
  let z1 := isZero h1
  let isZeroB := isZero (2 - (z0 + z1))
  { isBig := isBig, isLiteral := isLiteral, hexLen := hexLen, isValid := isValid,
    isArray := ap.isValid, isEmptyList := isEmptyList, isZeroByte := isZeroB }

/-- circuits/gadgets/rlp/rlp.go:373-379 `ArrayCheck`. -/
structure ArrayCheck where
  maxHexLen : ℕ
  maxFields : ℕ
  arrayPrefixMaxHexLen : ℕ
  fieldMin : List ℕ
  fieldMax : List ℕ

/-- The accumulation `temp = 16*temp + in[off+j]`, `j < n`, collecting every partial value:
rlp.go:385-393, 425-433, 555-563, 682-690 (array header, `off = 2`) and
501-506, 635-640, 756-761 (field header). -/
def lenCands (inp : List (F p)) (n : ℕ) : Option (List (F p)) := do
  let r ← (List.range n).foldlM (fun (acc : F p × List (F p)) j => do
    let x ← inp[2 + j]?
    let temp := 16 * acc.1 + x
    pure (temp, acc.2 ++ [temp])) (0, [])
  pure r.2

/-- Common header part of the list checkers, rlp.go:382-402, 419-445, 549-575, 676-702 (identical code):
`(isValid, arrayRlpPrefix1HexLen, totalArrayHexLen)`. With `ArrayPrefixMaxHexLen = 0` the Go code
panics on `input[0]`; in the model the multiplexer over 0 candidates is unsatisfiable. -/
def arrayHeader (apm : ℕ) (inp : List (F p)) : Option (F p × F p × F p) := do
  let h0 ← inp[0]?
  let h1 ← inp[1]?
  let ap := rlpArrayPrefix h0 h1
  let cands ← lenCands inp apm
  let prefix1 := ap.isBig * ap.hexLen
  let sel := ap.isBig * (prefix1 - 1)
  let m ← multiplexer sel 1 apm [cands]
  let m0 ← m[0]?
  let total := 2 * m0 - ap.hexLen
  let total := ap.hexLen + ap.isBig * total
  pure (ap.isValid, prefix1, total)

/-- circuits/gadgets/rlp/rlp.go:381-407 `LeftShiftRlpArrayPrefix`. -/
def leftShiftRlpArrayPrefix (a : ArrayCheck) (inp : List (F p)) : Option (List (F p) × F p) := do
  let (isValid, prefix1, total) ← arrayHeader a.arrayPrefixMaxHexLen inp
  assertEq isValid 1
  let out ← shiftLeft a.maxHexLen 0 a.arrayPrefixMaxHexLen inp (2 + prefix1)
  pure (out, total)

/-- `lenPrefixMaxHexs`, rlp.go:481-482, 616-617, 738-739. -/
def lenPrefixMaxHexs (fieldMax : ℕ) : ℕ := (logCeil fieldMax / 8 + 1) * 2

/-- Loop state of the list checkers. `shifted` is `shiftToFieldOuts[idx-1]`. -/
structure AcState (p : ℕ) where
  shifted : List (F p)
  lens : List (F p)
  fields : List (List (F p))
  check : F p
  lenSum : F p

/-- rlp.go:583-603 (`RlpArrayCheck`, `firstMax = 10`), 453-470 (`RlpNestArrayCheck`) and 710-727 (`BlkHeaderRlpCheck`),
`firstMax = ArrayPrefixMaxHexLen`: align the start of item `idx`. -/
def alignItem (a : ArrayCheck) (firstMax : ℕ) (inp : List (F p)) (prefix1 : F p) (st : AcState p)
    (idx : ℕ) : Option (List (F p)) :=
  if idx = 0 then do
    let cells ← (List.range a.maxHexLen).mapM fun j => inp[j]?
    shiftLeft a.maxHexLen 0 firstMax cells (2 + prefix1)
  else do
    let cells ← (List.range a.maxHexLen).mapM fun j => st.shifted[j]?
    let mn ← a.fieldMin[idx - 1]?
    let mx ← a.fieldMax[idx - 1]?
    let l ← st.lens[idx - 1]?
    shiftLeft a.maxHexLen mn mx cells l

/-- circuits/gadgets/rlp/rlp.go:581-658: body of the loop of `RlpArrayCheck`. -/
def rlpArrayStep (a : ArrayCheck) (fieldNum : F p) (inp : List (F p)) (prefix1 : F p)
    (st : AcState p) (idx : ℕ) : Option (AcState p) := do
  let fieldIsValid := lessThan (idx : F p) fieldNum
  let rlps ← alignItem a 10 inp prefix1 st idx
  let h0 ← rlps[0]?
  let h1 ← rlps[1]?
  let fp := rlpFieldPrefix h0 h1
  let isLit ← Api.or fp.isLiteral (1 - fieldIsValid)
  let fPrefix1 := fp.isBig * fp.hexLen
  let fPrefix1 := fPrefix1 * fieldIsValid
  let mx ← a.fieldMax[idx]?
  let lpm := lenPrefixMaxHexs mx
  let shift := isLit * (2 + fPrefix1)
  let shift := (2 + fPrefix1) - shift
  let out ← shiftLeft a.maxHexLen 0 lpm rlps shift
  let field ← (List.range a.maxHexLen).mapM fun j => out[j]?
  let sel := fp.isBig * (fPrefix1 - 1)
  let sel := fieldIsValid * sel
  let cands ← lenCands rlps lpm
  let m ← multiplexer sel 1 lpm [cands]
  let m0 ← m[0]?
  let temp2 := m0 * 2 - fp.hexLen
  let fieldTemp := fp.hexLen + fp.isBig * temp2
  let fieldHexLen := fieldTemp + 2 * isLit
  let fieldHexLen := fieldHexLen - fieldTemp * isLit
  let fieldHexLen := fieldHexLen * fieldIsValid
  let fValid := fp.isValid * fieldIsValid
  let lenSum := (st.lenSum + 2) - 2 * isLit
  let lenSum := lenSum + fPrefix1 + fieldHexLen
  pure { shifted := out, lens := st.lens ++ [fieldHexLen], fields := st.fields ++ [field],
         check := st.check + fValid, lenSum := lenSum }

/-- Outputs of the list checkers `(out, totalRlpHexLen, fieldHexLens, fields)`. -/
structure AcOut (p : ℕ) where
  out : F p
  total : F p
  lens : List (F p)
  fields : List (List (F p))

/-- circuits/gadgets/rlp/rlp.go:538-664 `RlpArrayCheck` with the optional argument `nums[0]` given as `fieldNum`
(without it the Go code uses `a.MaxFields`). -/
def rlpArrayCheck (a : ArrayCheck) (inp : List (F p)) (fieldNum : F p) : Option (AcOut p) := do
  let (isValid, prefix1, totalArray) ← arrayHeader a.arrayPrefixMaxHexLen inp
  let st ← (List.range a.maxFields).foldlM (rlpArrayStep a fieldNum inp prefix1)
    { shifted := [], lens := [], fields := [], check := isValid, lenSum := 0 }
  let lenCheck := isZero (totalArray - st.lenSum)
  let out := isZero ((st.check + lenCheck) - (fieldNum + 2))
  pure { out := out, total := 2 + prefix1 + totalArray, lens := st.lens, fields := st.fields }

/-- circuits/gadgets/rlp/rlp.go:451-525: body of the loop of `RlpNestArrayCheck`. -/
def rlpNestStep (a : ArrayCheck) (inp : List (F p)) (prefix1 : F p)
    (st : AcState p) (idx : ℕ) : Option (AcState p) := do
  let rlps ← alignItem a a.arrayPrefixMaxHexLen inp prefix1 st idx
  let h0 ← rlps[0]?
  let h1 ← rlps[1]?
  let fp := rlpFieldPrefix h0 h1
  let fPrefix1 := fp.isBig * fp.hexLen
  let mx ← a.fieldMax[idx]?
  let lpm := lenPrefixMaxHexs mx
  let shift := fp.isLiteral * (2 + fPrefix1)
  let shift := (2 + fPrefix1) - shift
  let kept := shift * fp.isArray
  let shift := shift * (1 - fp.isArray)
  let out ← shiftLeft a.maxHexLen 0 lpm rlps shift
  let field ← (List.range a.maxHexLen).mapM fun j => out[j]?
  let sel := fp.isBig * (fPrefix1 - 1)
  let cands ← lenCands rlps lpm
  let m ← multiplexer sel 1 lpm [cands]
  let m0 ← m[0]?
  let temp2 := m0 * 2 - fp.hexLen
  let fieldTemp := fp.hexLen + fp.isBig * temp2
  let fieldHexLen := fieldTemp + 2 * fp.isLiteral
  let fieldHexLen := fieldHexLen - fieldTemp * fp.isLiteral
  let fieldHexLen := fieldHexLen * (1 - fp.isZeroByte)
  let lenSum := (st.lenSum + 2) - 2 * fp.isLiteral
  let lenSum := lenSum - 1 * fp.isEmptyList
  let lenSum := lenSum + fPrefix1 + fieldHexLen
  pure { shifted := out, lens := st.lens ++ [fieldHexLen + kept], fields := st.fields ++ [field],
         check := st.check + fp.isValid, lenSum := lenSum }

/-- circuits/gadgets/rlp/rlp.go:413-532 `RlpNestArrayCheck`. -/
def rlpNestArrayCheck (a : ArrayCheck) (inp : List (F p)) : Option (AcOut p) := do
  let (isValid, prefix1, totalArray) ← arrayHeader a.arrayPrefixMaxHexLen inp
  let st ← (List.range a.maxFields).foldlM (rlpNestStep a inp prefix1)
    { shifted := [], lens := [], fields := [], check := isValid, lenSum := 0 }
  let lenCheck := isZero (totalArray - st.lenSum)
  let out := isZero ((st.check + lenCheck) - ((a.maxFields : F p) + 2))
  pure { out := out, total := 2 + prefix1 + totalArray, lens := st.lens, fields := st.fields }

/-- circuits/gadgets/rlp/rlp.go:708-778: body of the loop of `BlkHeaderRlpCheck`. -/
def blkHeaderStep (a : ArrayCheck) (fieldsNum : F p) (inp : List (F p)) (prefix1 : F p)
    (st : AcState p) (idx : ℕ) : Option (AcState p) := do
  let rlps ← alignItem a a.arrayPrefixMaxHexLen inp prefix1 st idx
  let h0 ← rlps[0]?
  let h1 ← rlps[1]?
  let fp := rlpFieldPrefix h0 h1
  let fPrefix1 := fp.isBig * fp.hexLen
  let mx ← a.fieldMax[idx]?
  let lpm := lenPrefixMaxHexs mx
  let shift := fp.isLiteral * (2 + fPrefix1)
  let shift := (2 + fPrefix1) - shift
  let out ← shiftLeft a.maxHexLen 0 lpm rlps shift
  let field ← (List.range a.maxHexLen).mapM fun j => out[j]?
  let sel := fp.isBig * (fPrefix1 - 1)
  let cands ← lenCands rlps lpm
  let m ← multiplexer sel 1 lpm [cands]
  let m0 ← m[0]?
  let temp2 := m0 * 2 - fp.hexLen
  let fieldTemp := fp.hexLen + fp.isBig * temp2
  let active := lessThan (idx : F p) fieldsNum
  let fieldHexLen := fieldTemp + 2 * fp.isLiteral
  let fieldHexLen := fieldHexLen - fieldTemp * fp.isLiteral
  let fieldHexLen := fieldHexLen * active
  let lenSum := (st.lenSum + 2) - 2 * fp.isLiteral
  let lenSum := lenSum + fPrefix1 + fieldHexLen
  pure { shifted := out, lens := st.lens ++ [fieldHexLen], fields := st.fields ++ [field],
         check := st.check + fp.isValid, lenSum := lenSum }

/-- circuits/gadgets/rlp/rlp.go:670-785 `BlkHeaderRlpCheck`. -/
def blkHeaderRlpCheck (a : ArrayCheck) (inp : List (F p)) (fieldsNum : F p) : Option (AcOut p) := do
  let (isValid, prefix1, totalArray) ← arrayHeader a.arrayPrefixMaxHexLen inp
  let st ← (List.range a.maxFields).foldlM (blkHeaderStep a fieldsNum inp prefix1)
    { shifted := [], lens := [], fields := [], check := isValid, lenSum := 0 }
  let lenCheck := isZero (totalArray - st.lenSum)
  let out := isZero ((st.check + lenCheck) - ((a.maxFields : F p) + 2))
  pure { out := out, total := 2 + prefix1 + totalArray, lens := st.lens, fields := st.fields }

end Verif.Rlp
