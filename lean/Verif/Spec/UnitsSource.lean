import Verif.Model.UnitsSource
import Verif.Spec.Evolve
import Verif.Spec.Source
import Verif.Spec.UnitsSnr

/-!
# Sources with units and sources in SI units
-/

namespace Legwork.Spec

open Legwork.units Legwork.source

/-- The source `x` with units is the source `r` in SI units. -/
structure SameSource (x : units.Source) (r : One) : Prop where
  m_1 : Denotes x.m_1 massDim r.m_1
  m_2 : Denotes x.m_2 massDim r.m_2
  dist : Denotes x.dist lengthDim r.dist
  f_orb : Denotes x.f_orb freqDim r.f_orb
  ecc : x.ecc = r.ecc
  orient : x.orient = r.orient
  merged : x.merged = r.merged
  t_merge : Option.Rel (fun v t => Denotes v timeDim t) x.t_merge r.t_merge

/-- All sources of a collection. -/
def SameCollection (X : ℕ → units.Source) (c : Cols) : Prop := ∀ i < c.n_sources, SameSource (X i) (rowAt c i)

/-- A call on a collection that changes it, with an argument for every source. -/
inductive UStep
  | set_a (a : ℕ → Val)
  | get_merger_time (exact : Bool)
  | evolve_sources (t_evol : ℕ → Val)

/-- The effect on source number `i`. -/
noncomputable def UStep.run (K : Consts) (odeint : evol.Odeint) (i : ℕ) (x : units.Source) :
    UStep → Except PyErr units.Source
  | .set_a a => x.set_a K (a i)
  | .get_merger_time exact => x.save_merger_time K exact
  | .evolve_sources t => x.evolve K odeint (t i)

/-- Calls one after the other, up to the first exception. -/
noncomputable def runUnits (K : Consts) (odeint : evol.Odeint) (i : ℕ) (x : units.Source) :
    List UStep → Except PyErr units.Source
  | [] => .ok x
  | u :: us => do runUnits K odeint i (← u.run K odeint i x) us

/-- Calls one after the other, up to the first exception. -/
noncomputable def runOps (W : World) : List Op → M Unit
  | [] => pure ()
  | op :: ops => do
    op.run W
    runOps W ops

/-- The two calls on collection `s` of `n` sources have the same arguments, one with units, one in SI units. -/
def SameStep (s n : ℕ) : UStep → Op → Prop
  | .set_a a, .setA s' xs => s' = s ∧ xs.length = n ∧ ∀ i < n, Denotes (a i) lengthDim (xs.getD i 0)
  | .get_merger_time ex, .mergerTime s' save _ ex' => s' = s ∧ save = true ∧ ex' = ex
  | .evolve_sources t, .evolve s' τ => s' = s ∧ ∃ T, TimesOf n T τ ∧ ∀ i < n, Denotes (t i) timeDim (T i)
  | _, _ => False

/-- From a non-negative eccentricity the integrator never goes to a negative one (NaN counts as 0), for Peters' equation
with any constants and two times. -/
def KeepsSign (odeint : evol.Odeint) : Prop :=
  ∀ β c e t, 0 ≤ e → ∀ x ∈ odeint (fun x => evol.de_dt x β c) e [0, t], 0 ≤ evol.nan_to_num x

end Legwork.Spec
