import Mathlib.Data.List.Basic

/-! # Model of common/utils/contract_codec.go

Go slices share memory, so the model has a heap of byte arrays; a slice is an array with a length (every slice here starts at
offset 0), its capacity is the length of the array. `append` writes in place when the capacity suffices and otherwise copies
into a new array whose spare capacity the runtime chooses.

External: go-ethereum's `abi` package. `method.ID` is `crypto.Keccak256(sig)[:4]`, a slice of length 4 of an array of 32 bytes
of its own; `Pack` and `Unpack` are parameters. -/

namespace Verif.Common.Codec

/-- The arrays; array 0 is empty and stands for the nil slice. -/
abbrev Heap := List (List ℕ)

structure Slice where
  arr : ℕ
  len : ℕ

def nilSlice : Slice := ⟨0, 0⟩

/-- The bytes that a slice shows. -/
def content (h : Heap) (s : Slice) : List ℕ := (h.getD s.arr []).take s.len

/-- Go `append(s, bs...)`; `extra` is the spare capacity of a newly allocated array. -/
def append (h : Heap) (s : Slice) (bs : List ℕ) (extra : ℕ) : Heap × Slice :=
  let a := h.getD s.arr []
  if s.len + bs.length ≤ a.length then
    (h.set s.arr (a.take s.len ++ bs ++ a.drop (s.len + bs.length)), ⟨s.arr, s.len + bs.length⟩)
  else (h ++ [a.take s.len ++ bs ++ List.replicate extra 0], ⟨h.length, s.len + bs.length⟩)

/-- A method of the ABI: its name and the 32-byte Keccak digest of its signature. Types of inputs and outputs are in the
parameters `pack`, `unpack`. -/
structure Method where
  name : String
  digest : List ℕ

/-- The memory of the program: the arrays, and the slices that were handed to callers, oldest first. -/
structure St where
  heap : Heap
  results : List Slice

/-- contract_codec.go:15-21 `NewContractCodec`: method `i` owns array `i + 1`. -/
def newCodec (ms : List Method) : St := ⟨[] :: ms.map Method.digest, []⟩

/-- Position of a method in the map `c.abi.Methods`. -/
def find (ms : List Method) (name : String) : Option ℕ := ms.findIdx? (fun m => m.name == name)

/-- What can happen: calls of the two methods that hand out slices, and what callers may do with the slices they got
(`clientAppend k`: append to the `k`-th slice, which gives one more slice; `clientSet k i b`: overwrite byte `i`). -/
inductive Op (α : Type) where
  | selector (name : String)
  | encode (name : String) (args : List α) (extra : ℕ)
  | clientAppend (k : ℕ) (bs : List ℕ) (extra : ℕ)
  | clientSet (k i b : ℕ)

variable {α : Type}

/-- contract_codec.go:27-29 `Selector`: a missing name gives the zero `Method`, whose `ID` is nil. -/
def selector (ms : List Method) (st : St) (name : String) : St :=
  { st with results := st.results ++ [match find ms name with | some i => ⟨i + 1, 4⟩ | none => nilSlice] }

/-- contract_codec.go:31-41 `EncodeCalldata`; an error hands out nil. -/
def encodeCalldata (ms : List Method) (pack : String → List α → Option (List ℕ)) (st : St) (name : String)
    (args : List α) (extra : ℕ) : St :=
  match find ms name with
  | none => { st with results := st.results ++ [nilSlice] }
  | some i =>
    match pack name args with
    | none => { st with results := st.results ++ [nilSlice] }
    | some bs =>
      let r := append st.heap ⟨i + 1, 4⟩ bs extra
      ⟨r.1, st.results ++ [r.2]⟩

/-- One event. -/
def step (ms : List Method) (pack : String → List α → Option (List ℕ)) (st : St) : Op α → St
  | .selector name => selector ms st name
  | .encode name args extra => encodeCalldata ms pack st name args extra
  | .clientAppend k bs extra =>
    let r := append st.heap (st.results.getD k nilSlice) bs extra
    ⟨r.1, st.results ++ [r.2]⟩
  | .clientSet k i b =>
    let s := st.results.getD k nilSlice
    if i < s.len then { st with heap := st.heap.set s.arr ((st.heap.getD s.arr []).set i b) } else st

def run (ms : List Method) (pack : String → List α → Option (List ℕ)) (st : St) (ops : List (Op α)) : St :=
  ops.foldl (step ms pack) st

/-- contract_codec.go:43-49 `DecodeCalldata` with 67-93 `decodeArgs`: `unpack` is `method.Inputs.Unpack`, `ptrs` the number of
references (all of the right type); the result is what they are set to. -/
def decodeCalldata (ms : List Method) (unpack : String → List ℕ → Option (List α)) (name : String) (data : List ℕ)
    (ptrs : ℕ) : Option (List α) := do
  let _ ← find ms name
  let vs ← unpack name data
  if vs.length ≠ ptrs then none else pure vs

/-- contract_codec.go:77-91, the loop of `decodeArgs`: `ptrs` tells which references are pointers (of the right type); `i` is the loop
counter, `mem` what was stored so far. The result is what each reference holds afterwards (`none`: untouched) and whether nil is
returned. -/
def storeLoop (vals : List α) : List Bool → ℕ → List (Option α) → List (Option α) × Bool
  | [], _, mem => (mem, true)
  | isPtr :: rest, i, mem =>
    if isPtr then storeLoop vals rest (i + 1) (mem.set i vals[i]?) else (mem, false)

/-- contract_codec.go:67-93 `decodeArgs` with arbitrary references. -/
def decodeArgs (unpacked : Option (List α)) (ptrs : List Bool) : List (Option α) × Bool :=
  match unpacked with
  | none => (List.replicate ptrs.length none, false)
  | some vals =>
    if vals.length ≠ ptrs.length then (List.replicate ptrs.length none, false)
    else storeLoop vals ptrs 0 (List.replicate ptrs.length none)

/-- contract_codec.go:51-57 `DecodeReturnData`; `unpackOut` is `method.Outputs.Unpack`. -/
def decodeReturnData (ms : List Method) (unpackOut : String → List ℕ → Option (List α)) (name : String) (data : List ℕ)
    (ptrs : List Bool) : List (Option α) × Bool :=
  match find ms name with
  | none => (List.replicate ptrs.length none, false)
  | some _ => decodeArgs (unpackOut name data) ptrs

/-- contract_codec.go:59-65 `EncodeReturnData`; `packOut` is `method.Outputs.Pack`. -/
def encodeReturnData (ms : List Method) (packOut : String → List α → Option (List ℕ)) (name : String) (vals : List α) :
    Option (List ℕ) := do
  let _ ← find ms name
  packOut name vals

end Verif.Common.Codec
