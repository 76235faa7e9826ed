import Verif.Spec.Chirp
import Verif.Spec.SnrOf
import Mathlib.MeasureTheory.Integral.IntervalIntegral.Basic

/-!
# Vocabulary: the exact signal-to-noise ratio of a circular binary
-/

namespace Legwork.Spec

open Legwork.source Legwork.evol

/-- A circular binary without position that merges a time `T` after the beginning of the observation. Its merger time has
not been stored, or it is the stored one. It weighs more than a microgram. -/
structure CircularBinary (K : Consts) (r : One) (T : ℝ) : Prop where
  m_1 : 0 < r.m_1
  m_2 : 0 < r.m_2
  f_orb : 0 < r.f_orb
  dist : 0 < r.dist
  ecc : r.ecc = 0
  position : r.position = none
  mass : 1e-20 ≤ K.G * (r.m_1 + r.m_2)
  merger : get_t_merge_circ K none (some fun _ : Fin 1 => r.m_1) (some fun _ => r.m_2) none (some fun _ => r.f_orb)
    = .ok fun _ => T
  stored : r.t_merge = none ∨ r.t_merge = some T

/-- `x² = 1/t_obs ∫ ρ(t)² dt`, where `ρ t` is the SNR that a stationary source with the frequency of the binary at time `t`
would have. The frequency follows the inspiral and the noise is computed at every frequency, not interpolated (the
interpolated curve of the context `C` is not used). -/
def ExactSnr (C : snr.Ctx) (r : One) (T x : ℝ) : Prop :=
  ∃ ρ : ℝ → ℝ, (∀ t ∈ Set.Icc 0 C.t_obs, snr.snr_circ_stationary { C with interpolated_sc := none }
      [⟨r.m_c, chirp r.f_orb T t, r.dist, {}⟩] = .ok [some (ρ t)]) ∧
    x = √(1 / C.t_obs * ∫ t in (0 : ℝ)..C.t_obs, ρ t ^ 2)

/-- Settings: LISA with its default arm length and the analytic response, with the default confusion noise or none. -/
structure LisaSettings (d : Dict) (t_obs : ℝ) : Prop where
  instrument : d.get? "instrument" = some (.str "LISA")
  L : d.get? "L" = some (.str "auto")
  approximate_R : d.get? "approximate_R" = some (.bool true)
  confusion_noise : d.get? "confusion_noise" = some (.str "auto") ∨ d.get? "confusion_noise" = some .none
  t_obs : d.get? "t_obs" = some (.time t_obs)

/-- Settings: TianQin with its default arm length, without confusion noise. -/
structure TianQinSettings (d : Dict) (t_obs : ℝ) : Prop where
  instrument : d.get? "instrument" = some (.str "TianQin")
  L : d.get? "L" = some (.str "auto")
  confusion_noise : d.get? "confusion_noise" = some .none
  t_obs : d.get? "t_obs" = some (.time t_obs)

end Legwork.Spec
