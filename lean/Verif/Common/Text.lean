import Verif.Common.OnChain

/-! # Model of common/eth/string.go: the texts of light-client and tree updates -/

namespace Verif.Text
open Verif.OnChain (ascii fmtD)
open Verif.Hex (bytes2Hex)

/-- `strings.Join` (external). -/
def join (sep : List ℕ) : List (List ℕ) → List ℕ
  | [] => []
  | [a] => a
  | a :: b :: l => a ++ sep ++ join sep (b :: l)

/-- `%d`, `%s` of a `*big.Int` (`big.Int.Format`, external); `none` is the nil pointer. -/
def fmtBig : Option ℤ → List ℕ
  | none => ascii "<nil>"
  | some (.ofNat n) => fmtD n
  | some (.negSucc n) => 45 :: fmtD (n + 1)

/-- `%s` of an array of `*big.Int`. -/
def fmtArr (l : List (Option ℤ)) : List ℕ := ascii "[" ++ (join (ascii " ") (l.map fmtBig) ++ ascii "]")

/-- string.go:33-39 `b2s`. -/
def b2s (l : List (List ℕ)) : List ℕ := join (ascii ", ") (l.map bytes2Hex)

/-- bindings.go:39-45. -/
structure Beacon where
  slot : ℕ
  proposerIndex : ℕ
  parentRoot : List ℕ
  stateRoot : List ℕ
  bodyRoot : List ℕ
deriving DecidableEq

/-- string.go:41-44. -/
def Beacon.text (h : Beacon) : List ℕ :=
  ascii "slot " ++ (fmtD h.slot ++ (ascii ", proposerIndex " ++ (fmtD h.proposerIndex ++ (ascii ", parentRoot " ++ (bytes2Hex h.parentRoot ++
    (ascii ", stateRoot " ++ (bytes2Hex h.stateRoot ++ (ascii ", bodyRoot " ++ bytes2Hex h.bodyRoot))))))))

/-- bindings.go:218-221. -/
structure Leaf where
  leaf : List ℕ
  branch : List (List ℕ)
deriving DecidableEq

/-- string.go:54-56. -/
def Leaf.text (l : Leaf) : List ℕ := ascii "leaf " ++ (bytes2Hex l.leaf ++ (ascii ", branch " ++ b2s l.branch))

/-- bindings.go:57-61. -/
structure Execution where
  stateRoot : Leaf
  blockHash : Leaf
  blockNumber : Leaf
deriving DecidableEq

/-- string.go:50-52. -/
def Execution.text (e : Execution) : List ℕ :=
  ascii "\n\tstateRoot {" ++ (e.stateRoot.text ++ (ascii "}\n\tblockHash {" ++ (e.blockHash.text ++ (ascii "}\n\tblockNumber {" ++
    (e.blockNumber.text ++ ascii "}\n")))))

/-- bindings.go:64-68. -/
structure Header where
  beacon : Beacon
  execution : Execution
  executionRoot : Leaf
deriving DecidableEq

/-- string.go:46-48. -/
def Header.text (h : Header) : List ℕ :=
  ascii "\n\tbeacon " ++ (h.beacon.text ++ (ascii "\n\texecution " ++ (h.execution.text ++ (ascii "\n\texecutionRoot " ++
    (h.executionRoot.text ++ ascii "\n")))))

/-- bindings.go:113-118. -/
structure BProof where
  a : List (Option ℤ)
  b : List (Option ℤ) × List (Option ℤ)
  c : List (Option ℤ)
  commitment : List (Option ℤ)
deriving DecidableEq

/-- string.go:66-68. -/
def BProof.text (p : BProof) : List ℕ :=
  ascii "a " ++ (fmtArr p.a ++ (ascii ", b [" ++ (fmtArr p.b.1 ++ (ascii " " ++ (fmtArr p.b.2 ++ (ascii "], c " ++ (fmtArr p.c ++
    (ascii ", commitment " ++ fmtArr p.commitment))))))))

/-- bindings.go:260-265. -/
structure Aggregate where
  participation : ℕ
  poseidonRoot : List ℕ
  commitment : Option ℤ
  proof : BProof
deriving DecidableEq

/-- string.go:58-60. -/
def Aggregate.text (s : Aggregate) : List ℕ :=
  ascii "participation " ++ (fmtD s.participation ++ (ascii ", poseidonRoot " ++ (bytes2Hex s.poseidonRoot ++ (ascii ", commitment " ++
    (fmtBig s.commitment ++ (ascii ", proof " ++ s.proof.text))))))

/-- bindings.go:231-241. -/
structure Update where
  attested : Header
  finalized : Header
  finalityBranch : List (List ℕ)
  nextRoot : List ℕ
  nextBranch : List (List ℕ)
  nextPoseidon : List ℕ
  mapping : BProof
  aggregate : Aggregate
  signatureSlot : ℕ
deriving DecidableEq

/-- string.go:8-31. -/
def Update.text (u : Update) : List ℕ :=
  ascii "\nattestedHeader {" ++ (u.attested.text ++ (ascii "}, \nfinalizedHeader {" ++ (u.finalized.text ++ (ascii "}, \nfinalityBranch [" ++
    (b2s u.finalityBranch ++ (ascii "], \nnextSyncCommitteeRoot " ++ (bytes2Hex u.nextRoot ++ (ascii ", \nnextSyncCommitteeBranch [" ++
    (b2s u.nextBranch ++ (ascii "], \nnextSyncCommitteePoseidonRoot " ++ (bytes2Hex u.nextPoseidon ++
    (ascii ", \nnextSyncCommitteeRootMappingProof " ++ (u.mapping.text ++ (ascii ", \nsyncAggregate " ++ (u.aggregate.text ++
    (ascii ", \nsignatureSlot " ++ fmtD u.signatureSlot))))))))))))))))

/-- bindings.go:181-189. -/
structure Smt where
  newSmtRoot : List ℕ
  endBlockNum : ℕ
  endBlockHash : List ℕ
  nextChunkMerkleRoot : List ℕ
  proof : List (Option ℤ)
  commit : List (Option ℤ)
  knowledgeProof : List (Option ℤ)
deriving DecidableEq

/-- string.go:62-64. -/
def Smt.text (u : Smt) : List ℕ :=
  ascii "newSmtRoot " ++ (bytes2Hex u.newSmtRoot ++ (ascii ", endBlockHash " ++ (bytes2Hex u.endBlockHash ++ (ascii ", endBlockNum " ++
    (fmtD u.endBlockNum ++ (ascii ", nextChunkMerkleRoot " ++ (bytes2Hex u.nextChunkMerkleRoot ++ (ascii ", proof " ++ (fmtArr u.proof ++
    (ascii ", commit: " ++ (fmtArr u.commit ++ (ascii ", Pok: " ++ fmtArr u.knowledgeProof))))))))))))

end Verif.Text
