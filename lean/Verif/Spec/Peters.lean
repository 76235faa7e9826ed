import Mathlib.Analysis.Calculus.Deriv.Basic
import Mathlib.Analysis.SpecialFunctions.Pow.Real

/-!
# Peters' (1964) equations as specifications, written without reference to the model
-/

namespace Legwork.Spec

/-- `s` is the separation history of a circular binary that starts at `a₀`, obeys `da/dt = -β/a³`
(Peters 1964, Eq. 5.9) until time `T` and has merged (zero separation) from `T` on. -/
structure CircularInspiral (β a₀ T : ℝ) (s : ℝ → ℝ) : Prop where
  start : s 0 = a₀
  pos : ∀ t, t < T → 0 < s t
  ode : ∀ t, t < T → HasDerivAt s (-β / s t ^ 3) t
  merged : ∀ t, T ≤ t → s t = 0
  cont : Continuous s
  decreasing : StrictAntiOn s (Set.Iic T)

/-- The eccentricity history `e` solves Peters (1964) Eq. 5.13, with constants `β`, `c₀`, on `[t₀, t₁]` and
stays in `(0, 1)`. The right-hand side is written out here from the paper. -/
structure EccentricInspiral (β c₀ t₀ t₁ : ℝ) (e : ℝ → ℝ) : Prop where
  bound : ∀ t ∈ Set.Icc t₀ t₁, 0 < e t ∧ e t < 1
  ode : ∀ t ∈ Set.Icc t₀ t₁, HasDerivAt e
    (-(19 / 12) * (β / c₀ ^ 4) * (e t ^ (-29 / 19 : ℝ) * (1 - e t ^ 2) ^ (3 / 2 : ℝ))
      / (1 + 121 / 304 * e t ^ 2) ^ (1181 / 2299 : ℝ)) t

end Legwork.Spec
