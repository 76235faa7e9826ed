import Verif.Spec.Rows

/-!
# Vocabulary: collections without orientation
-/

namespace Legwork.Spec

open Legwork.source

/-- The same sources without sky positions, inclinations and polarisations. -/
def unoriented (c : Cols) : Cols := { c with position := none, inclination := none, polarisation := none }

/-- The state in which the sources of `s` have no orientation. -/
def forgetOrientation (h : Heap) (s : ℕ) : Heap := h.setSrc s { h.src s with cols := unoriented (h.src s).cols }

end Legwork.Spec
