import Verif.Bls.H2F
import Verif.Bls.PairingL

/-! # Model of the sample circuits in circuits/gadgets/pairing_bls12381: main/main.go and pairing_test.go, hash2curve_test.go

The circuits are relations between their variables: `True` means that some assignment of the internal variables satisfies all
constraints. A variable of the emulated field is its value modulo `q` (as everywhere in this directory). -/

namespace Verif.Bls

/-- tower.go:332-335 `ext2.AssertIsEqual`. -/
def E2.assertIsEqual (x y : E2 Fq) : Prop := x.a0 = y.a0 ∧ x.a1 = y.a1

/-- tower.go:543-547 `ext6.AssertIsEqual`. -/
def E6.assertIsEqual (x y : E6 Fq) : Prop := E2.assertIsEqual x.b0 y.b0 ∧ E2.assertIsEqual x.b1 y.b1 ∧ E2.assertIsEqual x.b2 y.b2

/-- tower.go:966-969 `ext12.AssertIsEqual`. -/
def E12.assertIsEqual (x y : E12 Fq) : Prop := E6.assertIsEqual x.c0 y.c0 ∧ E6.assertIsEqual x.c1 y.c1

/-- tower.go:971-973 `ext12.AssertC0IsEqual`. -/
def E12.assertC0IsEqual (x y : E12 Fq) : Prop := E6.assertIsEqual x.c0 y.c0

/-- main/main.go:41-51 and pairing_test.go:98-109 `PairCircuit.Define`. -/
def pairCircuit (inG1 : G1Affine Fq) (inG2 : G2Affine Fq) (res : E12 Fq) : Prop :=
  ∃ z, pair [inG1] [inG2] = some z ∧ E12.assertIsEqual z res

/-- pairing_test.go:37-48 `MillerLoopCircuit.Define`. -/
def millerLoopCircuit (inG1 : G1Affine Fq) (inG2 : G2Affine Fq) (res : E12 Fq) : Prop :=
  ∃ z, millerLoop [inG1] [inG2] = some z ∧ E12.assertIsEqual z res

/-- pairing_test.go:69-77 `FinalExponentiationCircuit.Define`. -/
def finalExpCircuit (inGt res : E12 Fq) : Prop := ∃ z, E12.finalExponentiation inGt = some z ∧ E12.assertIsEqual z res

/-- main/main.go:176-179 `expectedg2AffineX`. -/
def expectedX : E2 Fq :=
  ⟨mont [8288150052162251671, 2982510425145065717, 1038446161708743066, 7090250654887277812, 7622650080444558773, 958313805603561234],
   mont [13666391141814414167, 5488845954857000261, 13524290224112205623, 16438806396630091223, 2987796959364542135, 786538919498709043]⟩

/-- main/main.go:181-184 `expectedg2AffineY`. -/
def expectedY : E2 Fq :=
  ⟨mont [9308435701961680836, 7409394388844975394, 1512957003002505338, 8258019371879768333, 2306405822266797845, 1521124619517599736],
   mont [13119932691052134287, 1875237080010855981, 585273779961404202, 236735867158830720, 5945086391267987300, 324336699594164309]⟩

section
variable {p : ℕ} [Fact (1 < p)]

/-- main/main.go:138-188 `Bls12381Hash2CurveCircuit.Define`: the statements up to line 174 are those of `EncodeToG2OnJac`
(hash2curve.go:692-704) with `HashToField` (hash2curve.go:666-690) unfolded, so the model calls them. -/
def hashCircuit (msg : Fin 32 → F p) : Prop :=
  ∃ z, encodeToG2OnJac msg z ∧ E2.assertIsEqual expectedX z.x ∧ E2.assertIsEqual expectedY z.y

/-- hash2curve_test.go:22-33 `Bls12381Encode2CurveCircuit.Define`. -/
def encodeTestCircuit (inG2 : G2Affine Fq) (msg : Fin 32 → F p) : Prop :=
  ∃ z, encodeToG2 msg z ∧ E2.assertIsEqual inG2.x z.x ∧ E2.assertIsEqual inG2.y z.y

/-- hash2curve_test.go:79-89 `Bls12381Hash2CurveCircuit.Define` (the test circuit of the same name). -/
def hashTestCircuit (inG2 : G2Affine Fq) (msg : Fin 32 → F p) : Prop :=
  ∃ z, hashToG2 msg z ∧ E2.assertIsEqual inG2.x z.x ∧ E2.assertIsEqual inG2.y z.y

/-- main/main.go:127-132 `signingRoot`, assigned to `Msg` in `doHash2Curve` (lines 232-238). -/
def signingRoot : List ℕ :=
  [244, 1, 2, 3, 4, 5, 6, 7, 8, 9, 10,
   11, 12, 13, 14, 15, 16, 17, 18, 19, 20,
   21, 254, 23, 24, 25, 26, 88, 28, 29, 30,
   31]

end

end Verif.Bls
