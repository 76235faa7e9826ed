import Verif.Spec.Evolve
import Verif.Spec.Integrator
import Verif.Spec.Peters

/-!
# Vocabulary for the evolution of eccentric sources
-/

namespace Legwork.Spec

open Legwork.source

/-- `e` is the history of the eccentricity of the source `r` over the time `[0, τ]`: it starts at the present
eccentricity and solves Peters' equation with the constants `β` and `c₀` of the source. -/
structure History (K : Consts) (r : One) (τ : ℝ) (e : ℝ → ℝ) : Prop where
  start : e 0 = r.ecc
  solves : EccentricInspiral (utils.beta K r.m_1 r.m_2)
    (utils.c_0 (utils.get_a_from_f_orb K r.f_orb r.m_1 r.m_2) r.ecc) 0 τ e

/-- The separation of the source `r` by the time its eccentricity is `x`. -/
noncomputable def separationAt (K : Consts) (r : One) (x : ℝ) : ℝ :=
  utils.get_a_from_ecc x (utils.c_0 (utils.get_a_from_f_orb K r.f_orb r.m_1 r.m_2) r.ecc)

/-- An integrator without errors: it returns the values of any solution of the equation for the eccentricity, as long as
there is one, at times that start at 0. Nothing is assumed about what it returns afterwards, or for other equations. -/
def SolvesPeters (odeint : evol.Odeint) : Prop :=
  ∀ (β c τ : ℝ) (e : ℝ → ℝ) (ts : List ℝ), 0 < β → 0 < c → EccentricInspiral β c 0 τ e →
    FromZero ts → (∀ t ∈ ts, 0 ≤ t ∧ t ≤ τ) → odeint (fun x => evol.de_dt x β c) (e 0) ts = ts.map fun t => some (e t)

/-- An eccentric source on a bound orbit, with positive masses and frequency. -/
structure EccentricSource (r : One) : Prop where
  m_1 : 0 < r.m_1
  m_2 : 0 < r.m_2
  f_orb : 0 < r.f_orb
  ecc_pos : 0 < r.ecc
  ecc_lt : r.ecc < 1

/-- Within the time `τ` the source does not merge without being marked as merged: until its `t_merge` has passed, there
is a history. -/
def NotMarkedLate (K : Consts) (r : One) (τ : ℝ) : Prop :=
  ∀ tm t, TimeLeft K r tm → 0 ≤ t → t ≤ τ → t < tm → ∃ e, History K r t e

/-- After the time `t` this eccentric source is not marked as merged but has a separation of exactly 1e-30 au, which
`evol` takes for a merged source. -/
def OnMarker (K : Consts) (r : One) (t : ℝ) : Prop :=
  ∃ tm e, TimeLeft K r tm ∧ t < tm ∧ History K r t e ∧ separationAt K r (e t) = 1e-30 * evol.AU

end Legwork.Spec
