import Verif.Common.Abi
import Verif.Common.Misc

/-! # Model of the accessors of common/proof/types.go and the event texts of common/eth/evstr.go -/

namespace Verif.OnChain
open Verif.Abi (Proof asBigInts)
open Verif.Hex (hex2Hash hex2BigInt bytes2Hex)

/-- `eth.IBeaconVerifierProof`, the argument of the contract call (common/eth bindings). -/
structure BeaconArg where
  a : ℕ × ℕ
  b : (ℕ × ℕ) × (ℕ × ℕ)
  c : ℕ × ℕ
  commitment : ℕ × ℕ
deriving DecidableEq

/-- `OnChainProof` (types.go:207-216). -/
def onChainProof (p : Proof) : BeaconArg :=
  let (a, b, c, commitment, _) := asBigInts p
  ⟨a, b, c, commitment⟩

/-- `BeaconProof` (types.go:218-227). -/
def beaconProof (p : Proof) : BeaconArg :=
  let (a, b, c, commitment, _) := asBigInts p
  ⟨a, b, c, commitment⟩

/-- `CommitteeSszMappingProof.GetProof` (types.go:125-137); `none` is the nil pointer. Simplification: that the nil case uses one
`big.Int` for all coordinates is not modelled. -/
def getProof : Option Proof → BeaconArg
  | none => ⟨(0, 0), ((0, 0), (0, 0)), (0, 0), (0, 0)⟩
  | some p => beaconProof p

/-- `SigProof` (types.go:139-144) without the proof. -/
structure Sig where
  participation : ℕ
  poseidonRoot : List ℕ
  commitmentPub : List ℕ

/-- `SigProof.GetCommitment` (types.go:146-148); `none` is the panic on a nil pointer. -/
def getCommitment (p : Option Sig) : Option ℕ := p.map fun p => hex2BigInt p.commitmentPub

/-- `SigProof.GetPoseidonRoot` (types.go:150-152). -/
def getPoseidonRoot (p : Option Sig) : Option (List ℕ) := p.map fun p => hex2Hash p.poseidonRoot

/-- `SMTUpdateProof` (types.go:258-266) without the proof. -/
structure SMTUpdate where
  oldSmtRoot : List ℕ
  newSmtRoot : List ℕ
  endBlockHash : List ℕ
  endBlockNum : ℕ
  nextChunkMerkleRoot : List ℕ
  commitmentPub : List ℕ

/-- types.go:268. -/
def getOldSmtRoot (p : SMTUpdate) : List ℕ := hex2Hash p.oldSmtRoot
/-- types.go:269. -/
def getNewSmtRoot (p : SMTUpdate) : List ℕ := hex2Hash p.newSmtRoot
/-- types.go:270. -/
def getEndBlockHash (p : SMTUpdate) : List ℕ := hex2Hash p.endBlockHash
/-- types.go:271-273. -/
def getNextChunkMerkleRoot (p : SMTUpdate) : List ℕ := hex2Hash p.nextChunkMerkleRoot
/-- types.go:274. -/
def getCommitmentPub (p : SMTUpdate) : List ℕ := hex2Hash p.commitmentPub

/-- `SDKQueryProvingInfo` (types.go:286-297), the lists of sub-queries: for each the string used as path (transaction hash, storage
hash, transaction hash); `none` is a nil pointer. -/
structure Query where
  receipts : List (Option (List ℕ))
  slots : List (Option (List ℕ))
  transactions : List (Option (List ℕ))

/-- `GetSubProofS3Path` (types.go:77-91); `none` is the panic on a nil element. -/
def getSubProofS3Path (q : Query) : Option (List (List ℕ)) := do
  let ids ← q.receipts.foldlM (fun ids r => do let h ← r; pure (ids ++ [h])) []
  let ids ← q.slots.foldlM (fun ids r => do let h ← r; pure (ids ++ [h])) ids
  q.transactions.foldlM (fun ids r => do let h ← r; pure (ids ++ [h])) ids

/-- Bytes of an ASCII text. -/
def ascii (s : String) : List ℕ := s.toList.map Char.toNat

/-- Go `%d` of an unsigned number (package fmt, external). -/
def fmtD (n : ℕ) : List ℕ := if n = 0 then [48] else (Nat.digits 10 n).reverse.map (· + 48)

/-- evstr.go:19 one request: `<requestId %x nonce %d>`. -/
def request (id : List ℕ) (nonce : ℕ) : List ℕ := ascii "<requestId " ++ bytes2Hex id ++ ascii " nonce " ++ fmtD nonce ++ ascii ">"

/-- `BrevisRequestRequestSent.String` (evstr.go:7-9). -/
def sentString (id : List ℕ) (nonce : ℕ) : List ℕ := ascii "< " ++ request id nonce ++ ascii ">"

/-- `BrevisRequestRequestSent.PrettyLog` (evstr.go:11-13). -/
def sentLog (onchid : ℕ) (id : List ℕ) (nonce : ℕ) : List ℕ :=
  ascii "RequestSent-" ++ fmtD onchid ++ ascii ": " ++ sentString id nonce

/-- The loop of evstr.go:17-19 from index `i`; `none` is the index panic. -/
def opLoop (nonces : List ℕ) : ℕ → List (List ℕ) → List ℕ → Option (List ℕ)
  | _, [], out => some out
  | i, id :: ids, out => do
    let n ← nonces[i]?
    opLoop nonces (i + 1) ids (out ++ request id n ++ ascii " ")

/-- `BrevisRequestOpRequestsFulfilled.String` (evstr.go:15-21). -/
def opString (ids : List (List ℕ)) (nonces : List ℕ) : Option (List ℕ) := do
  let out ← opLoop nonces 0 ids []
  pure (ascii "< " ++ out ++ ascii ">")

/-- `BrevisRequestOpRequestsFulfilled.PrettyLog` (evstr.go:23-25). Simplification: the text a Go formatter prints for a panic of
`String` is not modelled. -/
def opLog (onchid : ℕ) (ids : List (List ℕ)) (nonces : List ℕ) : Option (List ℕ) := do
  let s ← opString ids nonces
  pure (ascii "OpRequestsFulfilled-" ++ fmtD onchid ++ ascii ": " ++ s)


end Verif.OnChain
