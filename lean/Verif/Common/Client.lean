import Mathlib.Data.Rat.Floor

/-! # Model of common/eth/client.go: GetSlot and GetBlock as functions of the HTTP reply

The network is an argument: the reply to the single request, `none` for a transport error.  JSON parsing
(encoding/json, external) is an argument too: the body is either a parsed object or not an object, in which case
`json.Unmarshal` leaves the map nil (its error is ignored by the code).  JSON numbers become `float64`: `rnd` is that
rounding (external, exact on integers up to `2^53`). -/

namespace Verif.Client

/-- A parsed JSON value (`interface{}` as produced by encoding/json). -/
inductive Json where
  | null
  | bool (b : Bool)
  | num (q : ℚ)
  | str (s : String)
  | arr (l : List Json)
  | obj (fields : List (String × Json))

/-- Map lookup; a missing key gives nil, a repeated key its last value. -/
def lookup (fields : List (String × Json)) (k : String) : Json :=
  match fields.reverse.find? (fun e => e.1 == k) with
  | some e => e.2
  | none => .null

/-- An HTTP reply: status code and parsed body (`none`: not a JSON object). -/
structure Reply where
  status : ℕ
  body : Option (List (String × Json))

/-- Outcome of a call. -/
inductive Outcome (α : Type) where
  | panic
  | ok (a : α)

/-- `uint64(x)` of a `float64` (Go spec: truncation; out of range is implementation-defined, here `none`). -/
def toUint64 (q : ℚ) : Option ℕ := if 0 ≤ q ∧ q < 2 ^ 64 then some ⌊q⌋.toNat else none

/-- `GetSlot` (client.go:36-76). `other` stands for the implementation-defined conversion result. -/
def getSlot (rnd : ℚ → ℚ) (other : ℚ → ℕ) (chainId : ℕ) (net : String → Option Reply) (block : ℕ) :
    Outcome (ℕ × Bool) :=
  if chainId ≠ 1 ∧ chainId ≠ 5 then .ok (0, false)
  else
    let pre := if chainId = 5 then "goerli." else ""
    match net ("https://" ++ pre ++ "beaconcha.in/api/v1/execution/block/" ++ toString block) with
    | none => .ok (0, false)
    | some r =>
      if r.status ≠ 200 then .ok (0, false)
      else
        match lookup (r.body.getD []) "data" with
        | .arr (.obj data :: _) =>
          match lookup data "posConsensus" with
          | .null => .ok (0, false)
          | .obj pc =>
            match lookup pc "slot", lookup pc "finalized" with
            | .num q, .bool f => .ok ((toUint64 (rnd q)).getD (other (rnd q)), f)
            | _, _ => .panic
          | _ => .panic
        | _ => .panic

/-- `GetBlock` (client.go:78-114).  `data == nil` cannot hold after the type assertion. -/
def getBlock (rnd : ℚ → ℚ) (other : ℚ → ℕ) (chainId : ℕ) (net : String → Option Reply) (slot : ℕ) : Outcome ℕ :=
  if chainId = 56 ∨ chainId = 97 then .ok slot
  else if chainId ≠ 1 ∧ chainId ≠ 5 then .ok 0
  else
    let pre := if chainId = 5 then "goerli." else ""
    match net ("https://" ++ pre ++ "beaconcha.in/api/v1/slot/" ++ toString slot) with
    | none => .ok 0
    | some r =>
      if r.status ≠ 200 then .ok 0
      else
        match lookup (r.body.getD []) "data" with
        | .obj data =>
          match lookup data "exec_block_number" with
          | .null => .ok 0
          | .num q => .ok ((toUint64 (rnd q)).getD (other (rnd q)))
          | _ => .panic
        | _ => .panic

end Verif.Client
