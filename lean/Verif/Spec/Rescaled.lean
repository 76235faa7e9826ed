import Verif.Spec.Rows

/-!
# Vocabulary: the same binary at another distance
-/

namespace Legwork.Spec

open Legwork.source

/-- The same binary, at another distance, with its masses possibly in the other order, and with another weight. -/
structure SameBinary (x y : One) : Prop where
  same : y = { x with m_1 := y.m_1, m_2 := y.m_2, dist := y.dist, weight := y.weight }
  masses : y.m_1 = x.m_1 ∧ y.m_2 = x.m_2 ∨ y.m_1 = x.m_2 ∧ y.m_2 = x.m_1
  dist : 0 < x.dist
  dist' : 0 < y.dist

/-- The state in which the columns of `s` are `c`. -/
def withCols (h : Heap) (s : ℕ) (c : Cols) : Heap := h.setSrc s { h.src s with cols := c }

end Legwork.Spec
