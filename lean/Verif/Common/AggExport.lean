import Verif.Common.QueryId

/-! # Model of common/utils/groth16_util.go and common/proof/agg_exports.go

Strings are lists of bytes. Coordinates are the canonical representatives (gnark-crypto `Element.BigInt`). -/

namespace Verif.AggExport

/-- A Groth16 proof over BN254 (gnark `groth16_bn254.Proof`, external type); `bs` is ((X.A0, X.A1), (Y.A0, Y.A1)). -/
structure Proof where
  ar : ℕ × ℕ
  bs : (ℕ × ℕ) × (ℕ × ℕ)
  krs : ℕ × ℕ
  commitments : List (ℕ × ℕ)
  commitmentPok : ℕ × ℕ

/-- The result of `ExportProof`. -/
structure Exported where
  a : ℕ × ℕ
  b : (ℕ × ℕ) × (ℕ × ℕ)
  c : ℕ × ℕ
  commitment : ℕ × ℕ
  commitmentPok : ℕ × ℕ

/-- groth16_util.go:11-31 `ExportProof`: `none` is the index panic at line 25. -/
def exportProof (p : Proof) : Option Exported := do
  let c0 ← p.commitments[0]?
  pure {
    a := (p.ar.1, p.ar.2)
    b := ((p.bs.1.2, p.bs.1.1), (p.bs.2.2, p.bs.2.1))
    c := (p.krs.1, p.krs.2)
    commitment := (c0.1, c0.2)
    commitmentPok := (p.commitmentPok.1, p.commitmentPok.2) }

/-- agg_exports.go:9-15 `ZKSDKAggPubInputs`. -/
structure Pubs where
  aggVkHash : List ℕ
  smtRoot : List ℕ × List ℕ
  appVkHash : List ℕ
  outputCommit : List ℕ × List ℕ
  queryId : List ℕ

/-- `hexutil.Encode(x.Bytes())` (external): `0x` and two digits per byte. -/
def hexOf (x : ℕ) : List ℕ := Hex.bytes2Hex0x (QueryId.natBytes x)

/-- agg_exports.go:17-76 `GenerateBatchProofAndPublicInputs`. -/
def generate (pubs : Pubs) (p : Proof) : Option (List ℕ) := do
  let e ← exportProof p
  let r : List ℕ := []
  let r := r ++ hexOf e.a.1 ++ [44]
  let r := r ++ hexOf e.a.2 ++ [44]
  let r := r ++ hexOf e.b.1.1 ++ [44]
  let r := r ++ hexOf e.b.1.2 ++ [44]
  let r := r ++ hexOf e.b.2.1 ++ [44]
  let r := r ++ hexOf e.b.2.2 ++ [44]
  let r := r ++ hexOf e.c.1 ++ [44]
  let r := r ++ hexOf e.c.2 ++ [44]
  let r := r ++ hexOf e.commitment.1 ++ [44]
  let r := r ++ hexOf e.commitment.2 ++ [44]
  let r := r ++ hexOf e.commitmentPok.1 ++ [44]
  let r := r ++ hexOf e.commitmentPok.2 ++ [44]
  let r := r ++ pubs.queryId ++ [44]
  let r := r ++ pubs.smtRoot.1 ++ [44]
  let r := r ++ pubs.smtRoot.2 ++ [44]
  let r := r ++ pubs.aggVkHash ++ [44]
  let r := r ++ pubs.outputCommit.1 ++ [44]
  let r := r ++ pubs.outputCommit.2 ++ [44]
  let r := r ++ pubs.appVkHash ++ [44]
  pure r

end Verif.AggExport
