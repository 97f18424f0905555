import Verif.Mpt.Spec
import Verif.Rlp.Inject
import Verif.Common.QueryId

/-! # Model of common/proof/tx_merkel_proof.go

External code of go-ethereum v1.14.8, modelled by its documentation: `types.DeriveSha` (the trie `t` is an argument, its root
hash by the specification), `trie.Prove` (nodes on the path of the key; nodes shorter than 32 bytes, except the root, are part
of their parent and are not written), `rlp.DecodeBytes` into `[][]byte` (accepts exactly the canonical encodings of lists of
byte strings). -/

namespace Verif.TxProof
open Spec.Rlp Spec.Mpt QueryId

/-- Outcome of a Go function with an error result. -/
inductive Outcome (α : Type) where
  | ok (a : α)
  | error
  | panic

/-- go-ethereum trie/proof.go `Trie.Prove`, first loop (external): the nodes met on the way down, ending where the key leaves
the trie. -/
def pathNodes : Trie → List ℕ → List Trie
  | .empty, _ => []
  | .leaf path v, _ => [.leaf path v]
  | .ext path c, k => .ext path c :: if path <+: k then pathNodes c (k.drop path.length) else []
  | .branch f, k => .branch f :: match k with
    | [] => []
    | n :: k' => if h : n < 16 then pathNodes (f ⟨n, h⟩) k' else []

/-- go-ethereum trie/proof.go `Trie.Prove`, second loop (external): the root and every node referenced by hash.
`ProofWriter.Put` (common/proof/tx_merkel_proof.go:20-24) appends in order. -/
def prove (t : Trie) (k : List ℕ) : List (List ℕ) :=
  match (pathNodes t k).map Trie.encode with
  | [] => []
  | r :: rest => r :: rest.filter (fun e => 32 ≤ e.length)

/-- The items are byte strings of fewer than 2^64 bytes. -/
def StringsOk (items : List (List ℕ)) : Prop := (Item.list (items.map Item.str)).Ok

open Classical in
/-- `rlp.DecodeBytes(b, &items)` with `items [][]byte` (external). -/
noncomputable def decodeStrings (b : List ℕ) : Option (List (List ℕ)) :=
  if h : ∃ items, StringsOk items ∧ b = encodeList (items.map encodeString) then some h.choose else none

/-- common/proof/tx_merkel_proof.go:31-32, 64-65: `rlp.AppendUint64(nil, uint64(index))`, a negative index wraps around. -/
def keyIndex (index : ℤ) : List ℕ := encodeString (natBytes (index % 2 ^ 64).toNat)

/-- common/proof/tx_merkel_proof.go:30-61 `GetTransactionProof`, 63-94 `GetReceiptProof`: `t` is the trie that `DeriveSha` builds from the
transactions (receipts), `blockRoot` the root in the block header. -/
noncomputable def getProof (t : Trie) (blockRoot : List ℕ) (index : ℤ) :
    Outcome (List (List ℕ) × List ℕ × List ℕ) :=
  if t.root ≠ blockRoot then .error
  else
    let nodes := prove t (nibblesOf (keyIndex index))
    match nodes.getLast? with
    | none => .panic
    | some leaf =>
      match decodeStrings leaf with
      | none => .error
      | some items =>
        if items.length ≠ 2 then .error
        else .ok (nodes, keyIndex index, leaf.take (leaf.length - (items.getD 1 []).length))

/-- common/proof/tx_merkel_proof.go:96-108 `GetReceiptRaw`: `index` nil entries in front, then `EncodeIndex`. `enc` is go-ethereum's encoder
of a receipt (external). -/
def getReceiptRaw {R : Type} (enc : R → List ℕ) (receipt : Option R) (index : ℕ) : Outcome (List ℕ) :=
  match receipt with
  | none => .error
  | some r =>
    match (List.replicate index none ++ [some r])[index]? with
    | some (some x) => .ok (enc x)
    | _ => .panic

end Verif.TxProof
