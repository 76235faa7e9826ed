import Verif.Model.Source

/-!
# Vocabulary: one source of a collection
-/

namespace Legwork.Spec

open Legwork.source Legwork.utils

/-- One source of a collection, as read from the attributes with one entry per source. -/
structure One where
  m_1 : ℝ
  m_2 : ℝ
  dist : ℝ
  f_orb : ℝ
  ecc : ℝ
  weight : Option ℝ
  position : Option (ℝ × ℝ)
  inclination : Option ℝ
  polarisation : Option ℝ
  merged : Bool
  t_merge : Option ℝ

/-- Source number `i`. -/
def rowAt (c : Cols) (i : ℕ) : One :=
  ⟨c.m_1.getD i 0, c.m_2.getD i 0, c.dist.getD i 0, c.f_orb.getD i 0, c.ecc.getD i 0, c.weights.map fun x => x.getD i 0,
   c.position.map fun x => x.getD i 0, c.inclination.map fun x => x.getD i 0, c.polarisation.map fun x => x.getD i 0,
   c.merged.getD i false, c.t_merge.map fun x => x.getD i 0⟩

/-- All sources. -/
def rows (c : Cols) : List One := (List.range c.n_sources).map (rowAt c)

/-- Every attribute has one entry per source, and sources with positions have their other angles. -/
structure Rect (c : Cols) : Prop where
  m_2 : c.m_2.length = c.n_sources
  dist : c.dist.length = c.n_sources
  f_orb : c.f_orb.length = c.n_sources
  ecc : c.ecc.length = c.n_sources
  merged : c.merged.length = c.n_sources
  weights : ∀ x, c.weights = some x → x.length = c.n_sources
  position : ∀ x, c.position = some x → x.length = c.n_sources
  inclination : ∀ x, c.inclination = some x → x.length = c.n_sources
  polarisation : ∀ x, c.polarisation = some x → x.length = c.n_sources
  t_merge : ∀ x, c.t_merge = some x → x.length = c.n_sources
  angles : c.position.isSome → c.inclination.isSome ∧ c.polarisation.isSome

/-- Chirp mass. -/
noncomputable def One.m_c (r : One) : ℝ := chirp_mass r.m_1 r.m_2

/-- The orientation passed to strain functions: latitude first. -/
def One.orient (r : One) : strain.Orientation :=
  match r.position with
  | none => {}
  | some p => ⟨some (p.2, p.1), r.polarisation, r.inclination⟩

/-- As a circular stationary source. -/
noncomputable def One.circ (r : One) : snr.CircSrc := ⟨r.m_c, r.f_orb, r.dist, r.orient⟩

/-- As an eccentric stationary source. -/
noncomputable def One.eccentric (r : One) : snr.EccSrc := ⟨r.m_c, r.f_orb, r.ecc, r.dist⟩

/-- As an evolving source. -/
def One.evolving (r : One) : snr.EvolSrc := { m_1 := r.m_1, m_2 := r.m_2, f_orb_i := r.f_orb, ecc := r.ecc, dist := r.dist }

/-- As a circular evolving source. -/
def One.evolvingCirc (r : One) : snr.EvolSrc := { m_1 := r.m_1, m_2 := r.m_2, f_orb_i := r.f_orb, dist := r.dist }

/-- As an argument of the strain functions. -/
noncomputable def One.strainRow (r : One) : strain.Row := ⟨r.m_c, r.dist, [(r.f_orb, r.ecc)], r.orient⟩

/-- `evol.determine_stationarity`, asked about this source alone, says it is stationary. -/
def One.StationaryOver (K : Consts) (t_obs stat_tol : ℝ) (r : One) : Prop :=
  ∃ S : Unit → Prop, evol.determine_stationarity K (fun _ => r.f_orb) t_obs (fun _ => r.ecc) none none
    (some fun _ => r.m_c) stat_tol = .ok S ∧ S ()

end Legwork.Spec
