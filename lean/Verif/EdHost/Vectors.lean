import Verif.EdHost.Witness
import Verif.Ed.Vectors

/-! # The message of `ed25519_test.go`, signed with the first key of RFC 8032

A concrete run of the chain proved in `EdHost/Witness.lean`: a literal key, signature and message, the host code's assignment and the
circuit's verdict, with the hypotheses evaluated by the kernel. -/

namespace Verif.EdHost
open Verif.Ec Verif.Ed

/-- circuits/gadgets/ed25519/ed25519_test.go:33-38 `getInputData`: the message the project's test signs. -/
def testMsg : List ℕ := hexB 122 0x79080211c7b933020000000022480a2055552f335dcaead25b5b7abaab85dcaf82e15ff729b7e97681da9997ba7784da12240a2057a8f6f0a1022ec94eda4eb3f0b8f2a975ad1667ecbc6709b3a661b7b82cf3a710012a0c0880fd99a00610f7d5d5dc01321442696e616e63652d436861696e2d47616e676573

/-- The signature of `testMsg` under the key of RFC 8032 TEST 1, made by a reference implementation. -/
def testSig : List ℕ := hexB 64 0x0a3d18c84d168a7e18ac5ca9fa0e0c750459d96bc614dc88019146cd9a2b73bdd5d46bf778199b64bd1bc91c7287d0c1f0f36e156a8aabe031d4928a82795701

/-- The first half of `testSig`, decoded. -/
def testR : Pt25519 := ⟨(29730241111324756459920485825561187197793726599855793007575157214997403149445 : ℕ), (27794572124571511761572894608689290951814400535993153422855810950624443907338 : ℕ),
  on_of_nat (by decide +kernel)⟩

theorem encode_testR : encode testR = testSig.take 32 :=
  (encode_of_nat _ (by decide +kernel) (by decide +kernel)).trans (by decide +kernel)

theorem test_challenge : challenge (testSig.take 32) (encode A1) testMsg % L = 4086345603282129543683551956665135982782065573666059146146646367460156224816 := by
  rw [encode_A1]
  decide +kernel

theorem test_goValid : GoValid (encode A1) testSig testMsg := by
  refine ⟨by decide +kernel, A1, rfl, ?_⟩
  rw [test_challenge, show leVal (testSig.drop 32) = 606867173913512363403902031190964580101718584676177526209178581986842498261 by decide +kernel]
  have h : 606867173913512363403902031190964580101718584676177526209178581986842498261 • B = testR + 4086345603282129543683551956665135982782065573666059146146646367460156224816 • A1 :=
    rep_eq (t := pmul (bxN, byN, 1) 256 606867173913512363403902031190964580101718584676177526209178581986842498261)
      (u := padd (29730241111324756459920485825561187197793726599855793007575157214997403149445, 27794572124571511761572894608689290951814400535993153422855810950624443907338, 1) (pmul (38815646466658113194383306759739515082307681141926459231621296960732224964046, 11903303657706407974989296177215005343713679411332034699907763981919547054807, 1) 256 4086345603282129543683551956665135982782065573666059146146646367460156224816))
      (pmul_rep rep_B 256 _ (by decide +kernel))
      (padd_rep (by simp [Rep, testR]) (pmul_rep (by simp [Rep, A1]) 256 _ (by decide +kernel)))
      (by decide +kernel) (by decide +kernel)
  rw [h, add_sub_cancel_right, encode_testR]

theorem test_shape : Shape (encode A1) testSig testMsg := by
  rw [encode_A1]
  constructor <;> decide +kernel

/-- **C66.** The project's own test message under a published key: over BN254 the host code builds an assignment from these 218 bytes,
its check of `R` succeeds, and the circuit accepts. -/
theorem C66_vector : ∃ R w, assign bn254r (encode A1) testSig testMsg = some (R, w) ∧ ptBytes R = some (testSig.take 32) ∧ accepts w :=
  C66_valid (by decide +kernel) test_shape test_goValid

/-- **C66.** … and with the last byte of the message changed, no assignment the host code makes passes its own check. -/
theorem C66_vector_tampered {R : Point} {w : Assignment bn254r}
    (e : assign bn254r (encode A1) testSig (testMsg.take 121 ++ [0]) = some (R, w)) : ptBytes R ≠ some (testSig.take 32) := by
  have hs : Shape (encode A1) testSig (testMsg.take 121 ++ [0]) := by
    rw [encode_A1]
    constructor <;> decide +kernel
  rw [Ne, C66_check (by decide +kernel) hs e rfl]
  rintro ⟨-, A', hA', h⟩
  have hA1 : A' = A1 := encode_inj hA'
  subst hA1
  have hk : challenge (testSig.take 32) (encode A1) (testMsg.take 121 ++ [0]) % L = 4302945479212635397724186104284022569867910561968931295305485832631401063503 := by
    rw [encode_A1]
    decide +kernel
  rw [hk, show leVal (testSig.drop 32) = 606867173913512363403902031190964580101718584676177526209178581986842498261 by decide +kernel, ← encode_testR] at h
  refine rep_ne (t := pmul (bxN, byN, 1) 256 606867173913512363403902031190964580101718584676177526209178581986842498261)
    (u := padd (29730241111324756459920485825561187197793726599855793007575157214997403149445, 27794572124571511761572894608689290951814400535993153422855810950624443907338, 1) (pmul (38815646466658113194383306759739515082307681141926459231621296960732224964046, 11903303657706407974989296177215005343713679411332034699907763981919547054807, 1) 256 4302945479212635397724186104284022569867910561968931295305485832631401063503))
    (pmul_rep rep_B 256 _ (by decide +kernel))
    (padd_rep (by simp [Rep, testR]) (pmul_rep (by simp [Rep, A1]) 256 _ (by decide +kernel)))
    (by decide +kernel) (sub_eq_iff_eq_add.1 (encode_inj h))

end Verif.EdHost
