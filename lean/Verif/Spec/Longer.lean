import Verif.Spec.EndToEnd

/-!
# Vocabulary: observing for longer
-/

namespace Legwork.Spec

open Legwork.source

/-- The calls `C` and `C'` are for the same constants and harmonics. In `C'` the observation is at least as long, and the
noise is positive and no larger at any frequency (it may depend on the observation time). -/
structure LongerCall (C C' : snr.Ctx) : Prop where
  K : C'.K = C.K
  g : C'.interpolated_g = C.interpolated_g
  t_obs : 0 ≤ C.t_obs ∧ C.t_obs ≤ C'.t_obs
  noise : ∀ f, 0 < f → ∃ y y', snr.noise C f = .ok y ∧ snr.noise C' f = .ok y' ∧ 0 < y' ∧ y' ≤ y

/-- The settings `d'` are the settings `d` except for the observation time: `t` in `d` and `t'` in `d'`. -/
structure OtherTime (d d' : Dict) (t t' : ℝ) : Prop where
  same : ∀ key, key ≠ "t_obs" → d'.get? key = d.get? key
  before : d.get? "t_obs" = some (.time t)
  after : d'.get? "t_obs" = some (.time t')

/-- The object number `s'` of the heap `h'` has the tolerances and tables of the object number `s` of `h`; both interpolate
the sensitivity curve or neither does. -/
structure SameTables (h : Heap) (s : ℕ) (h' : Heap) (s' : ℕ) : Prop where
  g : (h'.src s').g = (h.src s).g
  ecc_tol : (h'.src s').ecc_tol = (h.src s).ecc_tol
  harmonics_required : (h'.src s').harmonics_required = (h.src s).harmonics_required
  stat_tol : (h'.src s').stat_tol = (h.src s).stat_tol
  interpolate : (h'.src s').sc.isSome = (h.src s).sc.isSome

end Legwork.Spec
