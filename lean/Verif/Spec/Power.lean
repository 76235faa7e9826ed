import Verif.Model.Consts

/-!
# Power and energy of a binary, written without reference to the model
-/

namespace Legwork.Spec

open Real

/-- Newtonian energy of a binary with semi-major axis `a`. -/
noncomputable def orbitalEnergy (K : Consts) (m₁ m₂ a : ℝ) : ℝ := -(K.G * m₁ * m₂ / (2 * a))

/-- Power carried through a sphere of radius `d` by gravitational waves of frequency `f` whose amplitude, averaged over
directions and polarisations, is `h`: `c³ d² (π f h)² / (2 G)`. -/
noncomputable def wavePower (K : Consts) (d f h : ℝ) : ℝ := K.c ^ 3 * d ^ 2 / (2 * K.G) * (π * f * h) ^ 2

/-- Peters & Mathews (1963): power radiated by a binary averaged over one orbit. -/
noncomputable def petersMathews (K : Consts) (m₁ m₂ a e : ℝ) : ℝ :=
  32 / 5 * (K.G ^ 4 * m₁ ^ 2 * m₂ ^ 2 * (m₁ + m₂) / (K.c ^ 5 * a ^ 5)) *
    ((1 + 73 / 24 * e ^ 2 + 37 / 96 * e ^ 4) / (1 - e ^ 2) ^ (7 / 2 : ℝ))

end Legwork.Spec
