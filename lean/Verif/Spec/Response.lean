import Mathlib.Analysis.SpecialFunctions.Integrals.Basic

/-!
# Averages over source orientation, written without reference to the model
-/

namespace Legwork.Spec

open Real

/-- Average over the sky (co-latitude `θ`, longitude `φ`) and the polarisation angle `ψ ∈ [0, π]`. -/
noncomputable def skyAverage (F : ℝ → ℝ → ℝ → ℝ) : ℝ :=
  1 / (4 * π ^ 2) * ∫ ψ in (0 : ℝ)..π, ∫ φ in (0 : ℝ)..(2 * π), ∫ θ in (0 : ℝ)..π, F θ φ ψ * sin θ

/-- Average over an inclination `ι ∈ [0, π]` distributed isotropically. -/
noncomputable def inclinationAverage (F : ℝ → ℝ) : ℝ :=
  1 / 2 * ∫ ι in (0 : ℝ)..π, F ι * sin ι

end Legwork.Spec
