import Verif.Spec.Slope
import Mathlib.Analysis.Convex.Function

/-!
# The frequency of a circular inspiral
-/

namespace Legwork.Spec

/-- The frequency at time `t` of a circular binary that has frequency `f₀` at time 0 and merges at time `T`. -/
noncomputable def chirp (f₀ T t : ℝ) : ℝ := f₀ * (T / (T - t)) ^ (3 / 8 : ℝ)

/-- Between `lo` and `hi` the curve `w` bends up and down by no more than a parabola with second derivative `M`: if `w` is
twice differentiable, this says that `|w''| ≤ M`. -/
def CurvatureAtMost (M : ℝ) (w : ℝ → ℝ) (lo hi : ℝ) : Prop :=
  ConvexOn ℝ (Set.Icc lo hi) (fun F => w F + M / 2 * F ^ 2) ∧ ConcaveOn ℝ (Set.Icc lo hi) (fun F => w F - M / 2 * F ^ 2)

end Legwork.Spec
