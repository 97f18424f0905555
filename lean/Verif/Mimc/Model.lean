import Verif.Mux

/-! # Model of circuits/gadgets/merkle/mimc_root.go, circuits/gadgets/smt/smt.go,
circuits/gadgets/emulated/mimc/{mimc,encrypt}.go and circuits/gadgets/merkle/emulated_mimc_root.go -/

namespace Verif.Mimc
open Api
variable {p : ℕ}

/-! ## Native field: the hash is gnark's `std/hash/mimc` gadget (not in /repo)

`Reset(); Write(a₁); …; Write(aₙ); Sum()` is modelled by an arbitrary function `H` of the list `[a₁,…,aₙ]`.
Every `Sum` in the modelled code follows a `Reset`. -/

/-- merkle/mimc_root.go:46-67 `MiMCHashBasedOnIndex`. -/
def hashBasedOnIndex (H : List (F p) → F p) (value0 value1 index : F p) : Option (F p) := do
  assertLe index 1
  let value01 := H [value0, value1]
  let value10 := H [value1, value0]
  let out ← Rlp.multiplexer index 1 2 [[value01, value10]]
  out[0]?

/-- merkle/mimc_root.go:18-23 and 38-43, the common loop over the branches. -/
def branchLoop (H : List (F p) → F p) (value : F p) (indexes branches : List (F p)) : Option (F p) :=
  (List.range branches.length).foldlM (fun value i => do
    let branch ← branches[i]?
    let index ← indexes[i]?
    hashBasedOnIndex H value branch index) value

/-- merkle/mimc_root.go:9-24 `MerkleRootWithLeaveHash`; the comparison is between two Go ints turned into
constants, assumed below the modulus. -/
def merkleRootWithLeaveHash (H : List (F p) → F p) (leafHash : F p) (indexes branches : List (F p)) : Option (F p) :=
  if branches.length ≤ indexes.length then branchLoop H leafHash indexes branches else none

/-- merkle/mimc_root.go:26-44 `MerkleRootBasedOnMiMCHash`. -/
def merkleRootBasedOnMiMCHash (H : List (F p) → F p) (leaf : F p) (indexes branches : List (F p)) : Option (F p) :=
  if branches.length ≤ indexes.length then branchLoop H (H [leaf]) indexes branches else none

/-- smt/smt.go:33-41 `CalculateLeafValueHash` (an empty `leafValueTree` is an index panic). -/
def calculateLeafValueHash (H : List (F p) → F p) (leafValueTree leafValueBranchesIndex : List (F p)) :
    Option (F p) :=
  match leafValueTree with
  | [] => none
  | v :: rest =>
    if rest.length = leafValueBranchesIndex.length then
      merkleRootBasedOnMiMCHash H v leafValueBranchesIndex rest
    else none

/-- smt/smt.go:11-31 `CheckSMTInclusion` (`maxDepth` is not used by the Go code). -/
def checkSMTInclusion (H : List (F p) → F p) (_maxDepth : ℕ)
    (leafValueTree leafValueBranchesIndex indexes branches : List (F p)) (rootHash : F p) : Option (F p) := do
  let leafValue ← calculateLeafValueHash H leafValueTree leafValueBranchesIndex
  let hashResult ← merkleRootBasedOnMiMCHash H leafValue indexes branches
  pure (Rlp.equal rootHash hashResult)

/-! ## Emulated field: elements are modelled by their value modulo the emulated modulus `q`; gnark's
`emulated.Field` operations `Add`, `MulMod`, `Reduce`, `Select` are assumed to compute in `ZMod q`. -/

/-- `ecc.ID`, as far as the code distinguishes them. -/
inductive Curve | bls12377 | bn254 | bw6761 | other
  deriving DecidableEq

/-- encrypt.go:7-13 `encryptPow17`. -/
def encryptPow17 {q : ℕ} (x : F q) : F q :=
  let r := x * x
  let r := r * r
  let r := r * r
  let r := r * r
  r * x

/-- encrypt.go:15-19 `encryptPow5`. -/
def encryptPow5 {q : ℕ} (x : F q) : F q :=
  let r := x * x
  let s := r * r
  s * x

/-- mimc.go:14-20 `MiMC`: the mutable part is the chaining value and the pending data. -/
structure St (q : ℕ) where
  h : F q
  data : List (F q)

/-- mimc.go:14-20, 22-42 the fixed part: the curve and the round constants of gnark-crypto. -/
structure Prm (q : ℕ) where
  ecc : Curve
  params : List (F q)

/-- mimc.go:22-42 `NewMiMC`: constants by curve, `bls12377` for an unknown one. -/
def newMiMC {q : ℕ} (consts : Curve → List (F q)) (id : Curve) : Prm q × St q :=
  let params := match id with
    | .bls12377 => consts .bls12377
    | .bn254 => consts .bn254
    | .bw6761 => consts .bw6761
    | .other => consts .bls12377
  (⟨id, params⟩, ⟨0, []⟩)

/-- mimc.go:50-68 `encrypt`. -/
def encrypt {q : ℕ} (c : Prm q) (s : St q) (m : F q) : F q :=
  let x := (List.range c.params.length).foldl (fun x i =>
    let tmp := x + s.h
    let k := c.params.getD i 0
    let tmp := tmp + k
    match c.ecc with
    | .bls12377 => encryptPow17 tmp
    | .bn254 | .bw6761 => encryptPow5 tmp
    | .other => encryptPow17 tmp) m
  x + s.h

/-- mimc.go:70-72 `Write`. -/
def write {q : ℕ} (s : St q) (data : List (F q)) : St q := { s with data := s.data ++ data }

/-- mimc.go:74-77 `Reset`. -/
def reset {q : ℕ} (_s : St q) : St q := ⟨0, []⟩

/-- mimc.go:79-86 `Sum`: absorbs all pending data and does not clear it. -/
def sum {q : ℕ} (c : Prm q) (s : St q) : St q × F q :=
  let s' := s.data.foldl (fun (s : St q) stream =>
    let r := encrypt c s stream
    let temp := s.h + r
    { s with h := temp + stream }) s
  (s', s'.h)

/-- mimc.go:44-48 `Hash`. -/
def hash {q : ℕ} (c : Prm q) (s : St q) (data : List (F q)) : St q × F q := sum c (write (reset s) data)

/-- A call on the hasher. -/
inductive Op (q : ℕ)
  | write (data : List (F q))
  | reset
  | sum

/-- Run a history of calls; returns the results of the `Sum` calls in order. -/
def run {q : ℕ} (c : Prm q) : St q → List (Op q) → St q × List (F q)
  | s, [] => (s, [])
  | s, .write d :: ops => run c (write s d) ops
  | s, .reset :: ops => run c (reset s) ops
  | s, .sum :: ops =>
    let (s', r) := sum c s
    let (s'', rs) := run c s' ops
    (s'', r :: rs)

/-- emulated_mimc_root.go:30-50 `RestoreMimcRoot` (`f.Select` requires a boolean selector in the native field). -/
def restoreMimcRoot {q : ℕ} (c : Prm q) (s : St q) (leaf : F q) (path : List (F q)) (leftRight : List (F p)) :
    Option (St q × F q) :=
  if path.length ≠ leftRight.length then none
  else (List.range path.length).foldlM (fun (sh : St q × F q) i => do
    let node ← path[i]?
    let lr : F p ← leftRight[i]?
    let (s, hash0) := hash c sh.1 [node, sh.2]
    let (s, hash1) := hash c s [sh.2, node]
    if lr = 1 then some (s, hash0) else if lr = 0 then some (s, hash1) else none) (s, leaf)

/-- emulated_mimc_root.go:58-65: one layer of `MimcRoot`; an odd number of nodes is an index panic. -/
def mimcLayer {q : ℕ} (c : Prm q) : St q → List (F q) → Option (St q × List (F q))
  | s, [] => some (s, [])
  | _, [_] => none
  | s, a :: b :: rest => do
    let (s, h) := sum c (write (reset s) [a, b])
    let (s, hs) ← mimcLayer c s rest
    pure (s, h :: hs)

/-- emulated_mimc_root.go:54-66 `MimcRoot`.  `fuel` bounds the recursion (the number of leaves suffices);
with no leaves the Go recursion never ends: `none`. -/
def mimcRootRec {q : ℕ} (c : Prm q) : ℕ → St q → List (F q) → Option (St q × F q)
  | 0, _, _ => none
  | fuel + 1, s, leaves =>
    match leaves with
    | [x] => some (s, x)
    | _ => do
      let (s, hs) ← mimcLayer c s leaves
      mimcRootRec c fuel s hs

/-- emulated_mimc_root.go:54-66 `MimcRoot`. -/
def mimcRoot {q : ℕ} (c : Prm q) (s : St q) (leaves : List (F q)) : Option (St q × F q) :=
  mimcRootRec c (leaves.length + 1) s leaves

end Verif.Mimc
