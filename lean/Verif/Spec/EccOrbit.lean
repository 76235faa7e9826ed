import Verif.Spec.EccEvolve
import Verif.Model.Snr

/-!
# The orbit of an eccentric source during an observation
-/

namespace Legwork.Spec

open Legwork.utils

/-- Over the time `[0, τ]` the source `s` has the eccentricity `e t`, a solution of Peters' equation, and the orbital
frequency `f t` that belongs to it. In the end it is still further apart than 1e-30 au and has a frequency below 100 Hz, the
values by which the code marks sources as merged. -/
structure EccentricOrbit (K : Consts) (s : snr.EvolSrc) (τ : ℝ) (e f : ℝ → ℝ) : Prop where
  start : e 0 = s.ecc
  solves : EccentricInspiral (beta K s.m_1 s.m_2) (c_0 (get_a_from_f_orb K s.f_orb_i s.m_1 s.m_2) s.ecc) 0 τ e
  freq : ∀ t, f t = get_f_orb_from_a K (get_a_from_ecc (e t) (c_0 (get_a_from_f_orb K s.f_orb_i s.m_1 s.m_2) s.ecc))
    s.m_1 s.m_2
  apart : 1e-30 * evol.AU < get_a_from_ecc (e τ) (c_0 (get_a_from_f_orb K s.f_orb_i s.m_1 s.m_2) s.ecc)
  low : f τ < 100

end Legwork.Spec
