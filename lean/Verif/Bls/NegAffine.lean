import Verif.Bls.MillerProof

/-! # C52: `NegAffine` negates on the twist, and `AffineToProjective` does not change the point -/

namespace Verif.Bls
open Verif.Ec

variable {K : Type} [Field K] [DecidableEq K] [Fact (∀ r : K, r ^ 2 ≠ (-1 : K) + 0 * r)]

/-- **C52**: `NegAffine` of the coordinates of a point `Q` of the twist are the coordinates of `-Q`, and negating
twice gives the same circuit values back. -/
theorem C52_negAffine (a : G2Affine K) (Q : (curve (bTw K)).Point) (h : IsPt (bTw K) a.x.val a.y.val Q) :
    IsPt (bTw K) (negAffine a).x.val (negAffine a).y.val (-Q) ∧ negAffine (negAffine a) = a := by
  refine ⟨h.neg.congr rfl (E2.val_neg _), ?_⟩
  unfold negAffine E2.neg
  simp

/-- **C52**: `AffineToProjective` represents the same point of the twist. -/
theorem C52_affineToProjective (a : G2Affine K) (Q : (curve (bTw K)).Point) (h : IsPt (bTw K) a.x.val a.y.val Q) :
    Rep (affineToProjective a) Q := by
  unfold Rep HRep affineToProjective
  rw [E2.val_one]
  exact ⟨one_ne_zero, h.congr (div_one _) (div_one _)⟩

end Verif.Bls
