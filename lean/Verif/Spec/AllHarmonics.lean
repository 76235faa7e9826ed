import Verif.Spec.SnrOf
import Mathlib.Topology.Instances.Real.Lemmas

/-!
# Vocabulary: the signal-to-noise ratio of all harmonics
-/

namespace Legwork.Spec

open Legwork.source

/-- `ρ` is the limit of the SNRs of a stationary source with the first `H` harmonics as `H` grows. The powers of the harmonics
and the noise are computed, not interpolated (the interpolated functions of the context `C` are not used). -/
def AllHarmonicsSnr (C : snr.Ctx) (r : One) (ρ : ℝ) : Prop :=
  ∃ u : ℕ → ℝ, (∀ H, snr.snr_ecc_stationary { C with interpolated_g := none, interpolated_sc := none } [r.eccentric] H false false
      = .ok (.total [some (u H)])) ∧ Filter.Tendsto u Filter.atTop (nhds ρ)

end Legwork.Spec
