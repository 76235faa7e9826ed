import Verif.Spec.Independent

/-!
# Vocabulary for the arrays of results
-/

namespace Legwork.Spec

open Legwork.source

/-- The source whose SNR a call computes. -/
def Op.snrOf : Op → Option ℕ
  | .getSnr s _ _ _ => some s
  | .getSnrStationary s _ _ => some s
  | .getSnrEvolving s _ _ _ => some s
  | _ => none

/-- The call does not compute the SNR of a source whose `snr` is the array `r`. -/
def SparesSnr (r : ℕ) : Heap → Op → Prop := fun h op => ∀ s, op.snrOf = some s → (h.src s).snr ≠ some r

/-- No source has the array `r` as its `snr`. -/
def Orphan (h : Heap) (r : ℕ) : Prop := ∀ s, (h.src s).snr ≠ some r

end Legwork.Spec
