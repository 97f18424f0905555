import Mathlib.Data.Int.Notation
import Mathlib.Data.Nat.Notation

/-! # Model of the JSON records of common/proof/types.go

The records are what the services store and exchange as JSON, through Go's `encoding/json` and the struct tags. A record type is a
value of `Ty` (Go field names are dropped, JSON names and `omitempty` kept); `marshal` and `unmarshal` follow `encoding/json`.

Simplifications. The text level of JSON (blanks, escapes, number syntax) is not modelled: a JSON text is a tree, a number is an
integer. An error of `unmarshal` is `none`; Go goes on with the other fields and returns the error at the end, so the variable's
content after an error is not modelled. Spare capacity of an old slice is not modelled. `Ext` is the external part: base64
(encoding/base64) and go-ethereum's `Header` codec. -/

namespace Verif.Common.Json

/-- A JSON text. -/
inductive Json where
  | null
  | bool (b : Bool)
  | num (z : ℤ)
  | str (s : List Char)
  | arr (l : List Json)
  | obj (l : List (String × Json))

/-- External codecs, with what is assumed of them. `good` are the headers go-ethereum reads back. -/
structure Ext where
  b64enc : List (Fin 256) → List Char
  b64dec : List Char → Option (List (Fin 256))
  b64law : ∀ l, b64dec (b64enc l) = some l
  Header : Type
  header0 : Header
  hdrEnc : Header → Json
  hdrDec : Header → Json → Option Header
  good : Header → Prop
  hdrLaw : ∀ h, good h → hdrDec header0 (hdrEnc h) = some h

/-- Go types of the records. A struct is a chain of `field`s ending in `done`. -/
inductive Ty where
  | str
  | uint (bits : ℕ)
  | int
  | bool
  | bytes
  | header
  | slice (t : Ty)
  | array (n : ℕ) (t : Ty)
  | ptr (t : Ty)
  | done
  | field (name : String) (omitempty : Bool) (t rest : Ty)

/-- Values of a Go type. A string is a sequence of characters and bytes that are not UTF-8 (`none`); nil slices and pointers are
`none`. -/
def Val (E : Ext) : Ty → Type
  | .str => List (Option Char)
  | .uint b => Fin (2 ^ b)
  | .int => {z : ℤ // -2 ^ 63 ≤ z ∧ z < 2 ^ 63}
  | .bool => Bool
  | .bytes => Option (List (Fin 256))
  | .header => E.Header
  | .slice t => Option (List (Val E t))
  | .array n t => Fin n → Val E t
  | .ptr t => Option (Val E t)
  | .done => Unit
  | .field _ _ t r => Val E t × Val E r

/-- Go zero values. -/
def zero (E : Ext) : (t : Ty) → Val E t
  | .str => ([] : List (Option Char))
  | .uint b => (⟨0, Nat.two_pow_pos b⟩ : Fin (2 ^ b))
  | .int => (⟨0, by decide, by decide⟩ : {z : ℤ // -2 ^ 63 ≤ z ∧ z < 2 ^ 63})
  | .bool => false
  | .bytes => (none : Option (List (Fin 256)))
  | .header => E.header0
  | .slice t => (none : Option (List (Val E t)))
  | .array _ t => fun _ => zero E t
  | .ptr t => (none : Option (Val E t))
  | .done => ()
  | .field _ _ t r => (zero E t, zero E r)

/-- encoding/json `isEmptyValue`. -/
def isEmpty (E : Ext) : (t : Ty) → Val E t → Bool
  | .str, v => List.isEmpty (α := Option Char) v
  | .uint _, v => Fin.val v == 0
  | .int, v => Subtype.val v == 0
  | .bool, v => !v
  | .bytes, v => match (v : Option (List (Fin 256))) with | none => true | some l => l.isEmpty
  | .slice t, v => match (v : Option (List (Val E t))) with | none => true | some l => l.isEmpty
  | .array n _, _ => n == 0
  | .ptr t, v => Option.isNone (α := Val E t) v
  | _, _ => false

/-- encoding/json `Marshal`: the text of a value, and for structs its members. -/
def enc (E : Ext) : (t : Ty) → Val E t → Json × List (String × Json)
  | .str, v => (.str (List.map (fun c : Option Char => c.getD '\uFFFD') v), [])
  | .uint _, v => (.num (Fin.val v), [])
  | .int, v => (.num (Subtype.val v), [])
  | .bool, v => (.bool v, [])
  | .bytes, v => (match (v : Option (List (Fin 256))) with | none => .null | some l => .str (E.b64enc l), [])
  | .header, v => (E.hdrEnc v, [])
  | .slice t, v => (match (v : Option (List (Val E t))) with | none => .null | some l => .arr (l.map fun a => (enc E t a).1), [])
  | .array _ t, v => (.arr (List.ofFn fun i => (enc E t (v i)).1), [])
  | .ptr t, v => (match (v : Option (Val E t)) with | none => .null | some a => (enc E t a).1, [])
  | .done, _ => (.obj [], [])
  | .field name om t r, v =>
    let ms := (if om && isEmpty E t v.1 then [] else [(name, (enc E t v.1).1)]) ++ (enc E r v.2).2
    (.obj ms, ms)

/-- `json.Marshal(v)`. -/
def marshal (E : Ext) (t : Ty) (v : Val E t) : Json := (enc E t v).1

/-- JSON names of a struct's fields. -/
def names : Ty → List String
  | .field name _ _ r => name :: names r
  | _ => []

/-- encoding/json `object`: a member goes to the field of exactly that name, else to the first field whose name agrees up to case
folding. -/
def fieldIndex (fold : String → String) (ns : List String) (key : String) : Option ℕ :=
  (ns.idxOf? key).or ((ns.map fold).idxOf? (fold key))

/-- encoding/json `array` into a slice: elements are decoded into the old ones, and into zero values beyond these. -/
def decList {α : Type} (z : α) (dec : α → Json → Option α) : List α → List Json → Option (List α)
  | _, [] => some []
  | os, j :: js => do
    let a ← dec (os.headD z) j
    let l ← decList z dec os.tail js
    some (a :: l)

/-- All results, if none is an error. -/
def allSome {α : Type} {n : ℕ} (r : Fin n → Option α) : Option (Fin n → α) :=
  if h : ∀ i, (r i).isSome then some fun i => (r i).get (h i) else none

/-- encoding/json `array` into an array: missing elements become zero, further ones are dropped. -/
def decArray {α : Type} (z : α) (dec : α → Json → Option α) {n : ℕ} (old : Fin n → α) (js : List Json) : Option (Fin n → α) :=
  allSome fun i : Fin n => match js[i.val]? with | none => some z | some j => dec (old i) j

/-- encoding/json `literalStore` into an unsigned number. -/
def decUint (b : ℕ) (old : Fin (2 ^ b)) : Json → Option (Fin (2 ^ b))
  | .null => some old
  | .num z => if h : z.toNat < 2 ^ b then if 0 ≤ z then some ⟨z.toNat, h⟩ else none else none
  | _ => none

/-- encoding/json `Unmarshal` into a variable holding `old`, and for structs the assignment of one member to the field with the given
index. -/
def dec (E : Ext) (fold : String → String) : (t : Ty) → (Val E t → Json → Option (Val E t)) × (ℕ → Val E t → Json → Option (Val E t))
  | .str => (fun old j => match j with
      | .null => some old
      | .str s => some (s.map some : List (Option Char))
      | _ => none, fun _ _ _ => none)
  | .uint b => (fun old j => decUint b old j, fun _ _ _ => none)
  | .int => (fun old j => match j with
      | .null => some old
      | .num z => if h : -2 ^ 63 ≤ z ∧ z < 2 ^ 63 then some (⟨z, h⟩ : {z : ℤ // -2 ^ 63 ≤ z ∧ z < 2 ^ 63}) else none
      | _ => none, fun _ _ _ => none)
  | .bool => (fun old j => match j with
      | .null => some old
      | .bool b => some b
      | _ => none, fun _ _ _ => none)
  | .bytes => (fun old j => match j with
      | .null => some (none : Option (List (Fin 256)))
      | .str s => (E.b64dec s).map (fun l => (some l : Option (List (Fin 256))))
      | .arr l => (decList (0 : Fin 256) (decUint 8) (Option.getD (α := List (Fin 256)) old []) l).map
          (fun l => (some l : Option (List (Fin 256))))
      | _ => none, fun _ _ _ => none)
  | .header => (fun old j => E.hdrDec old j, fun _ _ _ => none)
  | .slice t => (fun old j => match j with
      | .null => some (none : Option (List (Val E t)))
      | .arr l => (decList (zero E t) (dec E fold t).1 (Option.getD (α := List (Val E t)) old []) l).map
          (fun l => (some l : Option (List (Val E t))))
      | _ => none, fun _ _ _ => none)
  | .array _ t => (fun old j => match j with
      | .null => some old
      | .arr l => decArray (zero E t) (dec E fold t).1 old l
      | _ => none, fun _ _ _ => none)
  | .ptr t => (fun old j => match j with
      | .null => some (none : Option (Val E t))
      | j => ((dec E fold t).1 (Option.getD (α := Val E t) old (zero E t)) j).map (fun a => (some a : Option (Val E t))),
      fun _ _ _ => none)
  | .done => (fun old j => match j with
      | .null => some old
      | .obj _ => some old
      | _ => none, fun _ _ _ => none)
  | .field name om t r =>
    let assign : ℕ → Val E (.field name om t r) → Json → Option (Val E (.field name om t r)) := fun i old j => match i with
      | 0 => ((dec E fold t).1 old.1 j).map fun a => (a, old.2)
      | i + 1 => ((dec E fold r).2 i old.2 j).map fun b => (old.1, b)
    (fun old j => match j with
      | .null => some old
      | .obj l => l.foldlM (fun v m => match fieldIndex fold (name :: names r) m.1 with
          | none => some v
          | some i => assign i v m.2) old
      | _ => none, assign)

/-- `json.Unmarshal(text, &v)` where `v` holds `old`. -/
def unmarshal (E : Ext) (fold : String → String) (t : Ty) (old : Val E t) (j : Json) : Option (Val E t) := (dec E fold t).1 old j

/-! ## The records -/

/-- types.go:42-47 `ChunkUpdate`. -/
def chunkUpdate : Ty :=
  .field "start_block_num" false (.uint 64) <|
  .field "count" false (.uint 64) <|
  .field "chain_id" false (.uint 64) <|
  .field "target_chain_id" false (.uint 64) <|
  .done

/-- types.go:49-54 `StorageProvingInfo`. -/
def storageProvingInfo : Ty :=
  .field "start_block_num" false (.uint 64) <|
  .field "address" false (.str) <|
  .field "key" false (.str) <|
  .field "slot_value" false (.str) <|
  .done

/-- types.go:56-59 `TransactionProvingInfo`. -/
def transactionProvingInfo : Ty :=
  .field "transaction_hash" false (.str) <|
  .field "chain_id" false (.uint 64) <|
  .done

/-- types.go:61-64 `ReceiptProvingInfo`. -/
def receiptProvingInfo : Ty :=
  .field "transaction_hash" false (.str) <|
  .field "chain_id" false (.uint 64) <|
  .done

/-- types.go:66-69 `UniswapSumProvingInfo`. -/
def uniswapSumProvingInfo : Ty :=
  .field "tx_hashes" false (.slice (.str)) <|
  .field "chain_id" false (.uint 64) <|
  .done

/-- types.go:71-75 `AggregateProvingInfo`. -/
def aggregateProvingInfo : Ty :=
  .field "request_id" false (.str) <|
  .field "proofs" false (.slice (.str)) <|
  .field "public_inputs" false (.slice (.str)) <|
  .done

/-- types.go:190-196 `Groth16Proof`. -/
def groth16Proof : Ty :=
  .field "a" false (.array 2 (.str)) <|
  .field "b" false (.array 2 (.array 2 (.str))) <|
  .field "c" false (.array 2 (.str)) <|
  .field "commitment" false (.array 2 (.str)) <|
  .field "commitment_pok" false (.array 2 (.str)) <|
  .done

/-- types.go:119-123 `CommitteeSszMappingProof`. -/
def committeeSszMappingProof : Ty :=
  .field "sha256_ssz_root" false (.str) <|
  .field "poseidon_ssz_root" false (.str) <|
  .field "proof" false (groth16Proof) <|
  .done

/-- types.go:139-144 `SigProof`. -/
def sigProof : Ty :=
  .field "participation" false (.uint 64) <|
  .field "poseidon_root" false (.str) <|
  .field "commitment_pub" false (.str) <|
  .field "proof" false (groth16Proof) <|
  .done

/-- types.go:154-161 `ChunkProof`. -/
def chunkProof : Ty :=
  .field "chunk_root" true (.str) <|
  .field "prev_hash" true (.str) <|
  .field "end_hash" true (.str) <|
  .field "start_block_num" true (.uint 64) <|
  .field "end_block_num" true (.uint 64) <|
  .field "proof" true (groth16Proof) <|
  .done

/-- types.go:229-236 `StorageProof`. -/
def storageProof : Ty :=
  .field "block_hash" true (.str) <|
  .field "address_proof_key" true (.str) <|
  .field "slot" true (.str) <|
  .field "slot_value" true (.str) <|
  .field "block_num" true (.uint 64) <|
  .field "proof" true (groth16Proof) <|
  .done

/-- types.go:238-246 `TransactionProof`. -/
def transactionProof : Ty :=
  .field "address_proof_key" true (.str) <|
  .field "block_hash" true (.str) <|
  .field "block_num" true (.uint 64) <|
  .field "block_time" true (.uint 64) <|
  .field "leaf_hash" true (.str) <|
  .field "leaf_rlp_prefix" true (.str) <|
  .field "proof" true (groth16Proof) <|
  .done

/-- types.go:248-256 `ReceiptProof`. -/
def receiptProof : Ty :=
  .field "transaction_hash" true (.str) <|
  .field "block_hash" true (.str) <|
  .field "block_num" true (.uint 64) <|
  .field "block_time" true (.uint 64) <|
  .field "leaf_hash" true (.str) <|
  .field "leaf_rlp_prefix" true (.str) <|
  .field "proof" true (groth16Proof) <|
  .done

/-- types.go:258-266 `SMTUpdateProof`. -/
def smtUpdateProof : Ty :=
  .field "transaction_hash" true (.str) <|
  .field "block_hash" true (.str) <|
  .field "block_num" true (.str) <|
  .field "block_time" true (.uint 64) <|
  .field "leaf_hash" true (.str) <|
  .field "proof" true (groth16Proof) <|
  .field "commitment_pub" true (.str) <|
  .done

/-- types.go:108-117 `UpdateProof`. -/
def updateProof : Ty :=
  .field "committee_map_proof" false (.ptr (committeeSszMappingProof)) <|
  .field "bls_sig_proof" false (.ptr (sigProof)) <|
  .field "chunk_proof" false (.ptr (chunkProof)) <|
  .field "storage_proof" false (.ptr (storageProof)) <|
  .field "transaction_proof" false (.ptr (transactionProof)) <|
  .field "receipt_proof" false (.ptr (receiptProof)) <|
  .field "smt_update_proof" false (.ptr (smtUpdateProof)) <|
  .field "duration_seconds" false (.uint 64) <|
  .done

/-- types.go:276-291 `SMTUpdateAssignmentData`. -/
def smtUpdateAssignmentData : Ty :=
  .field "old_smt_root" true (.bytes) <|
  .field "new_smt_root" true (.bytes) <|
  .field "end_block_hash" true (.bytes) <|
  .field "end_block_number" true (.uint 64) <|
  .field "next_chunk_merkle_root" true (.bytes) <|
  .field "insertion_merkle_path" true (.slice (.bytes)) <|
  .field "next_chunk_merkle_path" true (.slice (.bytes)) <|
  .field "headers" true (.slice (.header)) <|
  .field "updated_chunk_indexes" true (.slice (.uint 64)) <|
  .field "new_chunk_index" true (.uint 64) <|
  .field "new_chunk_merkle_root" true (.bytes) <|
  .field "new_chunk_root" true (.bytes) <|
  .field "initial_start_block_num" true (.uint 64) <|
  .done

/-- types.go:333-341 `SDKQueryLogExtractInfo`. -/
def sdkQueryLogExtractInfo : Ty :=
  .field "contract_address" true (.str) <|
  .field "log_index" true (.uint 64) <|
  .field "log_topic0" true (.str) <|
  .field "value_from_topic" true (.bool) <|
  .field "value_index" true (.uint 64) <|
  .field "value" true (.str) <|
  .field "field_num_in_topics" true (.uint 64) <|
  .done

/-- types.go:306-331 `SDKQueryProvingInfoForReceipt`. -/
def sdkQueryProvingInfoForReceipt : Ty :=
  .field "transaction_hash" false (.str) <|
  .field "chain_id" false (.uint 64) <|
  .field "log_extract_infos" false (.slice (.ptr (sdkQueryLogExtractInfo))) <|
  .field "blk_num" false (.uint 64) <|
  .field "blk_base_fee" false (.str) <|
  .field "receipt_index" false (.uint 64) <|
  .field "receipt_rlp" false (.str) <|
  .field "block_hash" false (.str) <|
  .field "block_time" false (.uint 64) <|
  .field "mpt_key" false (.str) <|
  .field "mpt_proofs" false (.slice (.str)) <|
  .field "block_rlp" false (.str) <|
  .field "block_fields_num" false (.int) <|
  .field "smt_root" false (.str) <|
  .field "chunk_proofs" false (.slice (.str)) <|
  .field "smt_start_block_number" false (.uint 64) <|
  .field "smt_start_block_parent_hash" false (.str) <|
  .field "smt_initial_block_number" false (.uint 64) <|
  .field "smt_proofs" false (.slice (.str)) <|
  .field "commit_hash" false (.str) <|
  .field "transaction_type" false (.uint 8) <|
  .field "query_raw" false (.slice (.str)) <|
  .field "use_large" false (.bool) <|
  .field "status" false (.uint 8) <|
  .done

/-- types.go:343-366 `SDKQueryProvingInfoForStorageSlot`. -/
def sdkQueryProvingInfoForStorageSlot : Ty :=
  .field "account_address" false (.str) <|
  .field "chain_id" false (.uint 64) <|
  .field "slot" false (.str) <|
  .field "slot_value" false (.str) <|
  .field "account_proofs" false (.slice (.str)) <|
  .field "account_rlp" false (.str) <|
  .field "storage_proofs" false (.slice (.str)) <|
  .field "storage_hash" false (.str) <|
  .field "block_hash" false (.str) <|
  .field "block_number" false (.uint 64) <|
  .field "blk_base_fee" false (.str) <|
  .field "block_rlp" false (.str) <|
  .field "block_fields_num" false (.int) <|
  .field "smt_root" false (.str) <|
  .field "chunk_proofs" false (.slice (.str)) <|
  .field "smt_start_block_number" false (.uint 64) <|
  .field "smt_start_block_parent_hash" false (.str) <|
  .field "smt_initial_block_number" false (.uint 64) <|
  .field "smt_proofs" false (.slice (.str)) <|
  .field "commit_hash" false (.str) <|
  .field "query_raw" false (.slice (.str)) <|
  .field "block_time" false (.uint 64) <|
  .done

/-- types.go:396-405 `TransactionExtraInfo`. -/
def transactionExtraInfo : Ty :=
  .field "chain_id" false (.uint 64) <|
  .field "nonce" false (.uint 64) <|
  .field "max_priority_fee_per_gas" false (.str) <|
  .field "max_fee_per_gas" false (.str) <|
  .field "gas_limit" false (.uint 64) <|
  .field "from" false (.str) <|
  .field "to" false (.str) <|
  .field "value" false (.str) <|
  .done

/-- types.go:368-394 `SDKQueryProvingInfoForTransaction`. -/
def sdkQueryProvingInfoForTransaction : Ty :=
  .field "transaction_hash" false (.str) <|
  .field "chain_id" false (.uint 64) <|
  .field "smt_root" false (.str) <|
  .field "leaf_hash" false (.str) <|
  .field "block_hash" false (.str) <|
  .field "blk_num" false (.uint 64) <|
  .field "blk_base_fee" false (.str) <|
  .field "block_time" false (.uint 64) <|
  .field "mpt_key" false (.str) <|
  .field "mpt_proofs" false (.slice (.str)) <|
  .field "mpt_leaf_rlp_prefix" false (.str) <|
  .field "block_rlp" false (.str) <|
  .field "block_fields_num" false (.int) <|
  .field "chunk_proofs" false (.slice (.str)) <|
  .field "smt_start_block_number" false (.uint 64) <|
  .field "smt_start_block_parent_hash" false (.str) <|
  .field "smt_initial_block_number" false (.uint 64) <|
  .field "smt_proofs" false (.slice (.str)) <|
  .field "unsigned_tx_rlp" false (.str) <|
  .field "extra_info" false (transactionExtraInfo) <|
  .field "commit_hash" false (.str) <|
  .field "transaction_type" false (.uint 8) <|
  .field "query_raw" false (.slice (.str)) <|
  .field "receipt_rlp" false (.str) <|
  .field "receipt_mpt_proofs" false (.slice (.str)) <|
  .done

/-- types.go:407-419 `SDKQueryProvingInfoForAppCircuit`. -/
def sdkQueryProvingInfoForAppCircuit : Ty :=
  .field "proof" false (.str) <|
  .field "verifying_key" false (.str) <|
  .field "input_commitments" false (.slice (.str)) <|
  .field "output_commitment" false (.str) <|
  .field "toggles_commitment" false (.str) <|
  .field "toggles" false (.slice (.int)) <|
  .field "output" false (.str) <|
  .field "input_commitments_root" false (.str) <|
  .field "witness" false (.str) <|
  .field "public_values" false (.str) <|
  .field "vk_hash" false (.str) <|
  .done

/-- types.go:293-304 `SDKQueryProvingInfo`. -/
def sdkQueryProvingInfo : Ty :=
  .field "hash" false (.str) <|
  .field "chain_id" false (.uint 64) <|
  .field "receipt_infos" false (.slice (.ptr (sdkQueryProvingInfoForReceipt))) <|
  .field "storage_slot_infos" false (.slice (.ptr (sdkQueryProvingInfoForStorageSlot))) <|
  .field "transaction_infos" false (.slice (.ptr (sdkQueryProvingInfoForTransaction))) <|
  .field "smt_root" false (.str) <|
  .field "batch_size" false (.uint 64) <|
  .field "app_circuit_info" false (.ptr (sdkQueryProvingInfoForAppCircuit)) <|
  .field "use_vm" false (.bool) <|
  .field "vm_app_info" false (.ptr (sdkQueryProvingInfoForAppCircuit)) <|
  .done

/-- types.go:421-426 `SubProveRequest`. -/
def subProveRequest : Ty :=
  .field "request_id" false (.str) <|
  .field "receipt_info" false (.ptr (sdkQueryProvingInfoForReceipt)) <|
  .field "storage_slot_info" false (.ptr (sdkQueryProvingInfoForStorageSlot)) <|
  .field "transaction_info" false (.ptr (sdkQueryProvingInfoForTransaction)) <|
  .done
/-- All of them. -/
def records : List Ty := [chunkUpdate, storageProvingInfo, transactionProvingInfo, receiptProvingInfo, uniswapSumProvingInfo,
  aggregateProvingInfo, groth16Proof, committeeSszMappingProof, sigProof, chunkProof, storageProof, transactionProof, receiptProof,
  smtUpdateProof, updateProof, smtUpdateAssignmentData, sdkQueryLogExtractInfo, sdkQueryProvingInfoForReceipt,
  sdkQueryProvingInfoForStorageSlot, transactionExtraInfo, sdkQueryProvingInfoForTransaction, sdkQueryProvingInfoForAppCircuit,
  sdkQueryProvingInfo, subProveRequest]

end Verif.Common.Json
