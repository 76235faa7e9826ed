import Verif.Model.Strain

/-!
# Vocabulary for the strain properties
-/

namespace Legwork.Spec

/-- Element `[i][j][k]` of a nested array, if present. -/
def entry {α : Type*} (H : List (List (List α))) (i j k : ℕ) : Option α :=
  (H[i]?.bind (·[j]?)).bind (·[k]?)

/-- Multiply every element of a nested array. -/
noncomputable def scale3 (k : ℝ) (H : List (List (List ℝ))) : List (List (List ℝ)) :=
  H.map (List.map (List.map (k * ·)))

/-- A bound binary: positive chirp mass, distance and frequencies, eccentricities in `[0, 1)`. -/
def PhysRow (r : strain.Row) : Prop :=
  0 < r.m_c ∧ 0 < r.dist ∧ ∀ s ∈ r.steps, 0 < s.1 ∧ 0 ≤ s.2 ∧ s.2 < 1

/-- The orientation is either absent or complete, as the `Source` constructor guarantees. -/
def OrientOK (o : strain.Orientation) : Prop :=
  o = {} ∨ ∃ p q i, o = ⟨some p, some q, some i⟩

end Legwork.Spec
