import Verif.Sha.Model

/-! # Model of the sample circuits circuits/gadgets/sha256/main/main.go and sha512/main/main.go -/

namespace Verif.Sha
open Api
variable {p : ℕ}

/-- The loop of main.go:31-33 (sha512: 31-33): `AssertIsEqual(result[i], ExpectedResult[i])` for all `i`; an index beyond
`ExpectedResult` panics (`none`). -/
def assertAll : List (F p) → List (F p) → Option Unit
  | [], _ => some ()
  | _ :: _, [] => none
  | r :: rs, e :: es => do
    assertEq r e
    assertAll rs es

/-- sha256/main/main.go:27-35 `sha256Circuit.Define` and sha512/main/main.go:26-34 `sha512Circuit.Define`. `some ()`: the constraints
are satisfied. -/
def sampleDefine (P : Prm) (expectedResult inp : List (F p)) : Option Unit := do
  let d ← new P
  let d ← write P d inp
  let (_, result) ← sum P d
  assertAll result expectedResult

end Verif.Sha
