import Verif.Model.Snr

/-!
# What redshift does to a binary and to an observation

A binary at redshift `z` is seen with masses `1 + z` times its own, with orbital frequencies and rates `1 + z` times lower, and
its luminosity distance is `1 + z` times its comoving distance. `κ` is `1 + z`.
-/

namespace Legwork.Spec

open Legwork.snr Legwork.strain

/-- The source as the detector sees it. -/
noncomputable def redRow (κ : ℝ) (r : Row) : Row :=
  { r with m_c := κ * r.m_c, dist := κ * r.dist, steps := r.steps.map fun p => (p.1 / κ, p.2) }

@[inherit_doc redRow]
noncomputable def redCirc (κ : ℝ) (s : CircSrc) : CircSrc :=
  { s with m_c := κ * s.m_c, f_orb := s.f_orb / κ, dist := κ * s.dist }

@[inherit_doc redRow]
noncomputable def redEcc (κ : ℝ) (s : EccSrc) : EccSrc :=
  { s with m_c := κ * s.m_c, f_orb := s.f_orb / κ, dist := κ * s.dist }

@[inherit_doc redRow]
noncomputable def redEvol (κ : ℝ) (s : EvolSrc) : EvolSrc :=
  { s with m_1 := κ * s.m_1, m_2 := κ * s.m_2, f_orb_i := s.f_orb_i / κ, dist := κ * s.dist }

/-- `C'` is the observation of `C` described in units of time that are `κ` times as long: it lasts `κ` times as long, and as the
noise is a power per frequency it is `κ` times as large at `κ` times lower frequencies. -/
structure Redshifted (κ : ℝ) (C C' : Ctx) : Prop where
  K : C'.K = C.K
  g : C'.interpolated_g = C.interpolated_g
  t_obs : C'.t_obs = κ * C.t_obs
  noise : ∀ f, ∃ v, snr.noise C f = .ok v ∧ snr.noise C' (f / κ) = .ok (v.map (κ * ·))

end Legwork.Spec
