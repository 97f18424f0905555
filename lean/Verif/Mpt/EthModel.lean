import Verif.Mpt.Model

/-! # Model of circuits/gadgets/mpt/eth_proof.go

Modelled as written, including the parts that look wrong (see DESIGN.md, "Disagreements"). -/

namespace Verif.Mpt
open Api Rlp Keccak
variable {p : ℕ}

/-! ## eth_proof.go -/

/-- eth_proof.go:56-62: the list parameters for an account value. -/
def accountParams : ArrayCheck := ⟨228, 4, 4, [0, 0, 64, 64], [64, 24, 64, 64]⟩

/-- `EthAccountProofResult`. -/
structure AccountOut (p : ℕ) where
  output : F p
  nonceLength : F p
  nonce : List (F p)
  balanceLength : F p
  balance : List (F p)
  storageRoot : List (F p)
  codeHash : List (F p)

/-- eth_proof.go:40-111 `CheckEthAccountProof` (`x.value` is `addressRlp`, `x.key` is `addressHash`,
`x.rootHash` is `stateRoot`). -/
def checkEthAccountProof (maxDepth : ℕ) (x : InclusionIn p) : Option (AccountOut p) := do
  let r ← rlpArrayCheck accountParams x.value (4 : ℕ)
  let f0 ← r.fields[0]?
  let f1 ← r.fields[1]?
  let f2 ← r.fields[2]?
  let f3 ← r.fields[3]?
  let nl ← r.lens[0]?
  let bl ← r.lens[1]?
  let inc ← checkInclusionFixed maxDepth 64 228 false x
  pure { output := r.out * inc.output, nonceLength := nl, nonce := f0.take 64, balanceLength := bl,
         balance := f1.take 24, storageRoot := f2.take 64, codeHash := f3.take 64 }

/-- eth_proof.go:158-173: the slot value decoded from its RLP. -/
def slotValueOf (valueRlp : List (F p)) : Option (F p × F p) := do
  let h0 ← valueRlp[0]?
  let h1 ← valueRlp[1]?
  let fp := rlpFieldPrefix h0 h1
  let prefix1 := fp.isBig * fp.hexLen
  let lpm := (logCeil (66 / 8) + 1) * 2
  let shift := fp.isLiteral * (2 + prefix1)
  let shift := (2 + prefix1) - shift
  let out ← shiftLeft 66 0 lpm valueRlp shift
  let v ← hex64To2Fr out fp.hexLen
  let short ← hexToDecimal out 2 2
  let v0 ← select (isZero fp.hexLen) short v.1
  let v1 ← select (isZero fp.hexLen) 0 v.2
  pure (v0, v1)

/-- `EthStorageProofResult`. -/
structure StorageOut (p : ℕ) where
  output : F p
  slotValue : F p × F p
  valueLength : F p

/-- eth_proof.go:119-182 `CheckEthStorageProof` (`x.value` is `valueRlp`, `x.key` is `slotHash`). -/
def checkEthStorageProof (maxDepth : ℕ) (x : InclusionIn p) : Option (StorageOut p) := do
  let inc ← checkInclusionFixed maxDepth 64 66 true x
  let v ← slotValueOf x.value
  pure { output := inc.output, slotValue := v, valueLength := inc.valueLength - 2 }

/-- eth_proof.go:201-207: the list parameters for a block header. -/
def blockParams : ArrayCheck :=
  ⟨8 * 272, 17, 4, [64, 64, 40, 64, 64, 64, 512, 0, 0, 0, 0, 0, 0, 64, 16, 0, 64],
    [64, 64, 40, 64, 64, 64, 512, 14, 16, 8, 8, 8, 2000, 64, 18, 16, 64]⟩

/-- `EthBlockHashResult`. -/
structure BlockOut (p : ℕ) where
  output : F p
  blockHash : List (F p)
  blockNumberLength : F p
  blockNumber : List (F p)
  blockTime : List (F p)
  stateRoot : List (F p)
  transactionsRoot : List (F p)
  receiptsRoot : List (F p)

/-- eth_proof.go:195-249 `CheckEthBlockHash`. -/
def checkEthBlockHash (blockRlp : List (F p)) (fieldsNum ri : F p) : Option (BlockOut p) := do
  let r ← blkHeaderRlpCheck blockParams blockRlp fieldsNum
  let h ← hashNode r.total blockRlp ri
  let f3 ← r.fields[3]?
  let f4 ← r.fields[4]?
  let f5 ← r.fields[5]?
  let f8 ← r.fields[8]?
  let f11 ← r.fields[11]?
  let l8 ← r.lens[8]?
  pure { output := r.out, blockHash := h.output, blockNumberLength := l8, blockNumber := f8.take 8,
         blockTime := f11.take 8, stateRoot := f3.take 64, transactionsRoot := f4.take 64,
         receiptsRoot := f5.take 64 }

/-- `EthAddressStorageProofResult`. -/
structure AddressStorageOut (p : ℕ) where
  output : F p
  blockNumber : F p
  slotValue : F p × F p

/-- eth_proof.go:257-338 `CheckEthAddressStorageProof`. The root hashes of `acc` and `sto` are not arguments:
they are the state root of the header and the storage root of the account. -/
def checkEthAddressStorageProof (addressMaxDepth storageMaxDepth : ℕ) (blockHash : List (F p)) (fieldsNum ri : F p)
    (blockRlp : List (F p)) (acc sto : InclusionIn p) : Option (AddressStorageOut p) := do
  let b ← checkEthBlockHash blockRlp fieldsNum ri
  let eqHash ← arrayEqual blockHash b.blockHash 64 64
  let a ← checkEthAccountProof addressMaxDepth { acc with rootHash := b.stateRoot }
  let s ← checkEthStorageProof storageMaxDepth { sto with rootHash := a.storageRoot }
  let sh ← shiftRight 8 3 b.blockNumber (8 - b.blockNumberLength)
  let bn ← (List.range 8).foldlM (fun (acc : F p) i => do
    let x ← sh[i]?
    pure (acc + x * (16 : F p) ^ (7 - i))) 0
  pure { output := equal (eqHash + a.output + s.output) 3, blockNumber := bn, slotValue := s.slotValue }

end Verif.Mpt
