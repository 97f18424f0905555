import Verif.Rlp.Model
import Verif.Keccak.Words

/-! # Model of circuits/gadgets/mpt (mpt_util.go, mpt.go; eth_proof.go is in EthModel.lean) and of `Keccak256AsNibbles` (rlp/util.go)

Modelled as written, including the parts that look wrong (see DESIGN.md, "Disagreements").
`log.*` and `api.Println` calls have no effect on the constraints and are omitted. -/

namespace Verif.Mpt
open Api Rlp Keccak
variable {p : ℕ}

/-- rlp/util.go:63-69: one 64-bit word cut into 16 nibbles, least significant first. -/
def wordNibbles (r : F p) : Option (List (F p)) := do
  let bits ← toBinary r 64
  (List.range 16).mapM fun j => fromBinary ((bits.drop (4 * j)).take 4)

/-- rlp/util.go `KeccakOrLiteralHex`: `Output` (64 cells) and `OutputLength`. -/
structure HashOut (p : ℕ) where
  output : List (F p)
  outLen : F p

/-- rlp/util.go:52-87 `Keccak256AsNibbles` (`N = 10`); 89-123 and 125-160 are the same code with `N = 13`. -/
def keccak256AsNibbles (N : ℕ) (inLen : F p) (blocks : Fin N → Fin 17 → F p) (ri : F p) :
    Option (HashOut p) := do
  let h ← keccak256Words N blocks ri
  let nss ← h.mapM wordNibbles
  let nibbles := nss.flatten
  let results ← (List.range 64).mapM fun k => nibbles[if k % 2 = 0 then k + 1 else k - 1]?
  let isShort := lessThan inLen 63
  pure { output := results, outLen := isShort * (inLen - 64) + 64 }

/-- The `[10][17]` array built by `keccak.NibblesToU64Array` (keccak/periphery.go:130-165) from the flat word list. -/
def blocksOf (ws : List (F p)) : Fin 10 → Fin 17 → F p := fun r i => ws.getD (17 * r.val + i.val) 0

/-- mpt.go:118-119, 222-223, 432-433, eth_proof.go:214-217: `NibblesToU64Array` followed by `Keccak256AsNibbles`. -/
def hashNode (inLen : F p) (row : List (F p)) (ri : F p) : Option (HashOut p) := do
  let ws ← nibblesToWords 10 row
  keccak256AsNibbles 10 inLen (blocksOf ws) ri

/-! ## mpt_util.go -/

/-- mpt_util.go:12 `MaxBranchNodeRlpHexLen`. -/
def maxBranchNodeRlpHexLen : ℕ := 6 + (64 + 2) * 16 + 2

/-- mpt_util.go:49-50, 127-128: `2 * int(LogCeil(maxRLPLength)/8 + 1)`. -/
def prefixMax (maxRlp : ℕ) : ℕ := 2 * (logCeil maxRlp / 8 + 1)

/-- mpt_util.go:44-52 `NewMPTLeafCheck`: `maxRLPLength`. -/
def leafMaxRlp (mk mv : ℕ) : ℕ := 4 + (mk + 2) + 4 + mv

/-- mpt_util.go:76-81: the `ArrayCheck` of `CheckLeaf`. -/
def leafParams (mk mv : ℕ) : ArrayCheck :=
  ⟨leafMaxRlp mk mv, 2, prefixMax (leafMaxRlp mk mv), [0, 0], [mk + 2, mv]⟩

/-- mpt_util.go:85-92, 166-173, 221-228: the path-prefix verdict, for the flags `odd` (3 for leaves, 1 for extensions)
and `even` (2 resp. 0). -/
def prefixCheck (odd even : F p) (pl f00 f01 : F p) : F p :=
  equal pl 1 * equal f00 odd + equal pl 2 * equal f00 even * equal f01 0

/-- Result of `CheckLeaf`: `result.output`, `result.rlpTotalLength`, `valueLength`. -/
structure LeafOut (p : ℕ) where
  output : F p
  total : F p
  valueLength : F p

/-- mpt_util.go:71-74: does the claimed value start with `80` followed by 64 zero nibbles? -/
def isZeroValueCheck (values : List (F p)) : Option (F p) := do
  let isSingleValue ← arrayEqual (values.take 2) [8, 0] 2 2
  let isZeroArr ← arrayEqual (values.drop 2) (List.replicate 64 0) 64 64
  Api.and isSingleValue isZeroArr

/-- mpt_util.go:60-113 `CheckLeaf`. -/
def checkLeaf (mk mv : ℕ) (keyNibbleLen : F p) (keyNibbles values leafRlp : List (F p)) (pl : F p) :
    Option (LeafOut p) := do
  assertEq (keyNibbles.length : F p) (mk : F p)
  assertEq (values.length : F p) (mv : F p)
  let isZeroValue ← isZeroValueCheck values
  let r ← rlpArrayCheck (leafParams mk mv) leafRlp (2 : ℕ)
  let f0 ← r.fields[0]?
  let f1 ← r.fields[1]?
  let l0 ← r.lens[0]?
  let l1 ← r.lens[1]?
  let f00 ← f0[0]?
  let f01 ← f0[1]?
  let pc := prefixCheck 3 2 pl f00 f01
  let fromRlp ← shiftLeft (leafMaxRlp mk mv) 0 2 f0 pl
  let matched ← arrayEqual keyNibbles fromRlp mk (l0 - pl)
  let isNonExistence ← Api.and isZeroValue (1 - matched)
  let lenMatched := equal keyNibbleLen (l0 - pl)
  let keyPass := matched * lenMatched
  let valueMatched ← arrayEqual values f1 mv l1
  let rlpCheckOut := r.out + pc
  let checkOut := rlpCheckOut + keyPass + valueMatched
  let out ← select isNonExistence (rlpCheckOut + 2) checkOut
  pure { output := out, total := r.total, valueLength := l1 }

/-- mpt_util.go:122-130 `NewMPTExtensionCheck`: `maxRLPLength`, with `maxNodeRefLength = 64`. -/
def extMaxRlp (mk : ℕ) : ℕ := 4 + (mk + 2) + 2 + 64

/-- mpt_util.go:150-155, 207-212: the `ArrayCheck` of the extension checks. -/
def extParams (mk : ℕ) : ArrayCheck :=
  ⟨extMaxRlp mk, 2, prefixMax (extMaxRlp mk), [0, 0], [mk + 2, 64]⟩

/-- `MPTCheckResult`. -/
structure NodeOut (p : ℕ) where
  output : F p
  total : F p

/-- mpt_util.go:132-198 `CheckExtension` (`maxNodeRefLength = 64`, as at every call). -/
def checkExtension (mk : ℕ) (keyNibbleLen : F p) (keyNibbles : List (F p)) (refLen : F p)
    (refs nodeRlp : List (F p)) (pl : F p) : Option (NodeOut p) := do
  let r ← rlpArrayCheck (extParams mk) nodeRlp (2 : ℕ)
  let f0 ← r.fields[0]?
  let f1 ← r.fields[1]?
  let l0 ← r.lens[0]?
  let l1 ← r.lens[1]?
  let f00 ← f0[0]?
  let f01 ← f0[1]?
  let pc := prefixCheck 1 0 pl f00 f01
  let fromRlp ← shiftLeft (extMaxRlp mk) 0 2 f0 pl
  let matched ← arrayEqual keyNibbles fromRlp mk (l0 - pl)
  let lenMatched := equal keyNibbleLen (l0 - pl)
  let keyPass := matched * lenMatched
  let refMatched ← arrayEqual refs f1 64 l1
  let refLenMatched := equal refLen l1
  let refPass := refMatched * refLenMatched
  pure { output := r.out + pc + keyPass + refPass, total := r.total }

/-- mpt_util.go:200-242 `checkExtensionNodeNonExistence`; the verdict `rlpout` of the list check is computed and not used. -/
def checkExtensionNonExistence (mk : ℕ) (keyNibbles : List (F p)) (keyNibbleLen : F p)
    (nodeRlp : List (F p)) (pl : F p) : Option (F p) := do
  let r ← rlpArrayCheck (extParams mk) nodeRlp (2 : ℕ)
  let f0 ← r.fields[0]?
  let l0 ← r.lens[0]?
  let f00 ← f0[0]?
  let f01 ← f0[1]?
  let pc := prefixCheck 1 0 pl f00 f01
  let fromRlp ← shiftLeft (extMaxRlp mk) 0 2 f0 pl
  let matched ← arrayEqual keyNibbles fromRlp mk (l0 - pl)
  let lenMatched := equal keyNibbleLen (l0 - pl)
  let both ← Api.and matched lenMatched
  pure (equal (pc + (1 - both)) 2)

/-- mpt_util.go:264-269, 284-289: the `ArrayCheck` of the branch checks. -/
def branchParams : ArrayCheck :=
  ⟨maxBranchNodeRlpHexLen, 17, 8, List.replicate 17 0, List.replicate 16 64 ++ [0]⟩

/-- mpt_util.go:259-275 `CheckBranchForNonExistence`. -/
def checkBranchForNonExistence (keyNibble : F p) (nodeRlp : List (F p)) : Option (F p) := do
  let r ← rlpArrayCheck branchParams nodeRlp (17 : ℕ)
  let l ← muxSel keyNibble r.lens
  pure (isZero (r.out + isZero l - 2))

/-- mpt_util.go:277-318 `CheckBranch` (`maxNodeRefLength = 64`). -/
def checkBranch (keyNibble refLen : F p) (refs nodeRlp : List (F p)) : Option (NodeOut p) := do
  let r ← rlpArrayCheck branchParams nodeRlp (17 : ℕ)
  let input ← (List.range 64).mapM fun j => (List.range 16).mapM fun i => do
    let f ← r.fields[i]?
    f[j]?
  let lens ← (List.range 16).mapM fun i => r.lens[i]?
  let field ← multiplexer keyNibble 64 16 input
  let refCheck ← arrayEqual refs field 64 refLen
  let m ← multiplexer keyNibble 1 16 [lens]
  let l ← m[0]?
  let refLenCheck := equal l refLen
  pure { output := r.out + refCheck + refLenCheck + 1, total := r.total }

/-! ## mpt.go -/

/-- mpt.go:50-70 (with `tsel t = t`) and 284-304 (with `tsel t = 1 - t`): running sums of the key-fragment flags. -/
def fragmentSums (maxDepth : ℕ) (keyLength : F p) (tsel : F p → F p) (starts types : List (F p)) :
    Option (List (F p)) := do
  let terms ← (List.range (maxDepth - 1)).mapM fun i => do
    let s ← starts[i]?
    let s' ← starts[i + 1]?
    let t ← types[i]?
    let single := equal (s + 1) s'
    let mono := lessThan s s'
    let valid ← Api.or single (tsel t)
    let range := lessThan s keyLength
    pure (valid + mono + range)
  let sl ← starts[maxDepth - 1]?
  let sums := terms.foldl (fun (acc : F p × List (F p)) t => (acc.1 + t, acc.2 ++ [acc.1 + t])) (0, [])
  pure (sums.2 ++ [sums.1 + 2 + lessThan sl keyLength])

/-- mpt.go:72-73, 306-307: `allFragmentsValid`. -/
def fragmentsValid (maxDepth : ℕ) (keyLength : F p) (tsel : F p → F p) (starts types : List (F p)) (depth : F p) :
    Option (F p) := do
  let sums ← fragmentSums maxDepth keyLength tsel starts types
  let m ← multiplexer (depth - 1) 1 maxDepth [sums]
  let m0 ← m[0]?
  pure (equal m0 (3 * depth))

/-- What one iteration of the layer loop stores: the two verdicts and the node hash. -/
structure LayerOut (p : ℕ) where
  ext : F p
  branch : F p
  hash : HashOut p

/-- The inputs of the layer loop of both inclusion checkers. `nSub`, `subBits` are the `SubArray` parameters,
`keyCells` its input, `maxKey` the maximal key length. -/
structure LayerArgs (p : ℕ) where
  nSub : ℕ
  subBits : ℕ
  maxKey : ℕ
  keyCells : List (F p)
  key : List (F p)
  starts : List (F p)
  nodeRlp : List (List (F p))
  ris : List (F p)
  pls : List (F p)
  types : List (F p)
  depth : F p
  last : HashOut p

/-- mpt.go:152-165, 361-374: the reference that layer `layer` must hold: the leaf hash if the proof ends there,
else the hash of the next layer (`next`, absent in the lowest layer). -/
def nodeRef (a : LayerArgs p) (layer : ℕ) (next : Option (HashOut p)) : Option (F p × List (F p)) := do
  let de := equal a.depth ((layer + 2 : ℕ) : F p)
  match next with
  | none => do
    let refs ← (List.range 64).mapM fun i => do
      let x ← a.last.output[i]?
      pure (de * x)
    pure (de * a.last.outLen, refs)
  | some h => do
    let refs ← (List.range 64).mapM fun i => do
      let x ← a.last.output[i]?
      let y ← h.output[i]?
      pure (de * (x - y) + y)
    pure (de * (a.last.outLen - h.outLen) + h.outLen, refs)

/-- mpt.go:142-223 and 351-433: body of the layer loop. -/
def layerStep (a : LayerArgs p) (layer : ℕ) (next : Option (HashOut p)) : Option (LayerOut p) := do
  let s ← a.starts[layer]?
  let s' ← a.starts[layer + 1]?
  let (sel, _) ← subArray a.nSub a.nSub a.subBits a.keyCells s s'
  let (refLen, refs) ← nodeRef a layer next
  let t ← a.types[layer]?
  let row ← a.nodeRlp[layer]?
  let extCells ← (List.range (4 + 2 + a.maxKey + 2 + 64)).mapM fun i => do
    let x ← row[i]?
    pure (t * x)
  let pl ← a.pls[layer]?
  let e ← checkExtension a.maxKey (s' - s) sel refLen refs extCells pl
  let keyRow ← (List.range a.maxKey).mapM fun i => a.key[i]?
  let m ← multiplexer (lessThan (layer : F p) a.depth * s) 1 a.maxKey [keyRow]
  let nib ← m[0]?
  let brCells ← (List.range maxBranchNodeRlpHexLen).mapM fun i => do
    let x ← row[i]?
    pure (x - t * x)
  let b ← checkBranch nib refLen refs brCells
  let inLen := t * (e.total - b.total) + b.total
  let ri ← a.ris[layer]?
  let h ← hashNode inLen row ri
  pure { ext := e.output, branch := b.output, hash := h }

/-- mpt.go:141-224, 350-434: the loop over the layers, from `maxDepth-2` down to 0; results indexed by layer. -/
def layers (a : LayerArgs p) (maxDepth : ℕ) : Option (List (LayerOut p)) :=
  (List.range (maxDepth - 1)).reverse.foldlM (fun (acc : List (LayerOut p)) layer => do
    let o ← layerStep a layer (acc.head?.map LayerOut.hash)
    pure (o :: acc)) []

/-- mpt.go:229-249, 439-458: running sums of the verdicts. -/
def checkSums (init : F p) (types : List (F p)) (ls : List (LayerOut p)) : Option (List (F p)) := do
  let r ← (List.range ls.length).foldlM (fun (acc : F p × List (F p)) i => do
    let o ← ls[i]?
    let t ← types[i]?
    let v := acc.1 + o.branch + t * (o.ext - o.branch)
    pure (v, acc.2 ++ [v])) (init, [init])
  pure r.2

/-- `CheckMPTInclusionFixedKeyLengthResult`. -/
structure InclusionOut (p : ℕ) where
  output : F p
  valueLength : F p

/-- The arguments of `CheckMPTInclusionFixedKeyLength` (mpt.go:18-36). -/
structure InclusionIn (p : ℕ) where
  key : List (F p)
  value : List (F p)
  rootHash : List (F p)
  starts : List (F p)
  lastRlp : List (F p)
  lastRi : F p
  leafPl : F p
  nodeRlp : List (List (F p))
  ris : List (F p)
  pls : List (F p)
  types : List (F p)
  depth : F p

/-- mpt.go:100-116: the override of the leaf verdict for storage proofs. -/
def storageOverride (keyLength : ℕ) (x : InclusionIn p) (sel : List (F p)) (selLen leafOut : F p) : Option (F p) := do
  let k ← muxSel (x.depth - 1) x.key
  let b ← checkBranchForNonExistence k x.lastRlp
  let e ← checkExtensionNonExistence keyLength sel selLen x.lastRlp x.leafPl
  let isNotExist ← Api.or b e
  select isNotExist 4 leafOut

/-- mpt.go:75-116: the last node: `(leaf verdict, value length)`. -/
def lastNodeCheck (maxDepth keyLength maxValueLength : ℕ) (isStorage : Bool) (x : InclusionIn p) :
    Option (F p × F p) := do
  let startRow ← (List.range maxDepth).mapM fun i => x.starts[i]?
  let m ← multiplexer (x.depth - 1) 1 maxDepth [startRow]
  let leafStart ← m[0]?
  let keyCells ← (List.range 64).mapM fun i => x.key[i]?
  let (sel, selLen) ← subArray 64 64 7 keyCells leafStart (keyLength : F p)
  let lc ← checkLeaf keyLength maxValueLength selLen sel x.value x.lastRlp x.leafPl
  let out ← if isStorage then storageOverride keyLength x sel selLen lc.output else some lc.output
  pure (out, lc.valueLength)

/-- mpt.go:226-256, 436-465: root comparison, running sums, selection by depth, final comparison. -/
def finish (maxDepth : ℕ) (rootHash types : List (F p)) (ls : List (LayerOut p)) (depth leafOut frag bonus : F p) :
    Option (F p) := do
  let top ← ls[0]?
  let rootCheck ← arrayEqual rootHash top.hash.output 64 64
  let sums ← checkSums (rootCheck + leafOut + frag) types ls
  let m ← multiplexer (depth - 1) 1 maxDepth [sums]
  let m0 ← m[0]?
  pure (equal m0 (depth * 4 + bonus))

/-- mpt.go:91, 141-147: the inputs of the layer loop of `CheckMPTInclusionFixedKeyLength`. -/
def fixedArgs (keyLength : ℕ) (x : InclusionIn p) (keyCells : List (F p)) (leafHash : HashOut p) : LayerArgs p :=
  ⟨64, 7, keyLength, keyCells, x.key, x.starts, x.nodeRlp, x.ris, x.pls, x.types, x.depth, leafHash⟩

/-- mpt.go:18-257 `CheckMPTInclusionFixedKeyLength`. -/
def checkInclusionFixed (maxDepth keyLength maxValueLength : ℕ) (isStorage : Bool) (x : InclusionIn p) :
    Option (InclusionOut p) := do
  assertLe (maxDepth : F p) 10
  let frag ← fragmentsValid maxDepth (keyLength : F p) (fun t => t) x.starts x.types x.depth
  let (leafOut, vlen) ← lastNodeCheck maxDepth keyLength maxValueLength isStorage x
  let leafHash ← hashNode (x.lastRlp.length : F p) x.lastRlp x.lastRi
  let keyCells ← (List.range 64).mapM fun i => x.key[i]?
  let ls ← layers (fixedArgs keyLength x keyCells leafHash) maxDepth
  let out ← finish maxDepth x.rootHash x.types ls x.depth leafOut frag 2
  pure { output := out, valueLength := vlen }

/-- common/utils/utils.go:72-95 `Recompose32ByteToNibbles` for two 128-bit halves (the only use in mpt.go). -/
def recompose2 (hi lo : F p) : Option (List (F p)) := do
  let b0 ← toBinary lo 128
  let b1 ← toBinary hi 128
  let ns ← (List.range 64).mapM fun i => fromBinary (((b0 ++ b1).drop (4 * i)).take 4)
  pure ns.reverse

/-- mpt.go:259-467 `CheckMPTInclusionNoBranchTermination`; only the verdict, `ValueLength` is the constant 0.
`key` must have at least 7 cells (`keySubArrayInput`, mpt.go:351-354). -/
def checkInclusionNoBranch (maxDepth maxKeyHexLen : ℕ) (key : List (F p)) (keyLength : F p)
    (rootHash starts : List (F p)) (leafHi leafLo : F p) (nodeRlp : List (List (F p)))
    (ris pls types : List (F p)) (depth : F p) : Option (F p) := do
  assertLe (maxDepth : F p) 10
  let frag ← fragmentsValid maxDepth keyLength (fun t => 1 - t) starts types depth
  let startRow ← (List.range maxDepth).mapM fun i => starts[i]?
  let _ ← multiplexer (depth - 1) 1 maxDepth [startRow]
  let leafHash ← recompose2 leafHi leafLo
  let keyCells ← (List.range 7).mapM fun i => key[i]?
  let ls ← layers ⟨maxKeyHexLen, logCeil maxKeyHexLen, maxKeyHexLen, keyCells, key, starts, nodeRlp, ris, pls,
    types, depth, ⟨leafHash, 64⟩⟩ maxDepth
  finish maxDepth rootHash types ls depth 4 frag 1

end Verif.Mpt
