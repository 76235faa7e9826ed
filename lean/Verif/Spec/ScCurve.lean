import Verif.Model.ScParams

/-!
# The interpolated sensitivity curve
-/

namespace Legwork.Spec

open Legwork.source

/-- The `i`-th of 10000 frequencies, evenly spaced in logarithm from 1e-7 Hz to 2 Hz. -/
noncomputable def scGrid (i : ℕ) : ℝ := (10 : ℝ) ^ (-7 + (i : ℝ) * ((Real.logb 10 2 - (-7)) / 9999))

/-- `sc` is the interpolation of the sensitivity curve `power_spectral_density(f, **d)`: exact on the grid, on the
chord between neighbouring frequencies (infinite next to an infinite value), and 1e30 outside the grid. -/
structure CurveOf (W : World) (d : Dict) (sc : ℝ → WithTop ℝ) : Prop where
  on_grid : ∀ i < 10000, psd_of_dict W d (scGrid i) = .ok (sc (scGrid i))
  chord : ∀ i < 9999, ∀ f, scGrid i < f → f < scGrid (i + 1) → ∀ a b : ℝ, sc (scGrid i) = a →
    sc (scGrid (i + 1)) = b → sc f = (a + (b - a) * ((f - scGrid i) / (scGrid (i + 1) - scGrid i)) : ℝ)
  infinite : ∀ i < 9999, ∀ f, scGrid i < f → f < scGrid (i + 1) →
    (sc (scGrid i) = ⊤ ∨ sc (scGrid (i + 1)) = ⊤) → sc f = ⊤
  outside : ∀ f, f < 1e-7 ∨ 2 < f → sc f = ((1e30 : ℝ) : WithTop ℝ)

/-- The same for any noise curve `N`. -/
structure GridCurve (N : ℝ → Except PyErr (WithTop ℝ)) (sc : ℝ → WithTop ℝ) : Prop where
  on_grid : ∀ i < 10000, N (scGrid i) = .ok (sc (scGrid i))
  chord : ∀ i < 9999, ∀ f, scGrid i < f → f < scGrid (i + 1) → ∀ a b : ℝ, sc (scGrid i) = a →
    sc (scGrid (i + 1)) = b → sc f = (a + (b - a) * ((f - scGrid i) / (scGrid (i + 1) - scGrid i)) : ℝ)
  outside : ∀ f, f < 1e-7 ∨ 2 < f → sc f = ((1e30 : ℝ) : WithTop ℝ)

end Legwork.Spec
