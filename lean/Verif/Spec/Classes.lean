import Verif.Spec.SnrOf

/-!
# Objects of other classes
-/

namespace Legwork.Spec

open Legwork.source

/-- The same object, had it been made by the constructor of the class `c`. -/
def withClass (h : Heap) (s : ℕ) (c : Cls) : Heap := h.setSrc s { h.src s with cls := c }

end Legwork.Spec
