import Verif.Spec.Rows
import Verif.Model.Source

/-!
# Vocabulary for the constructor
-/

namespace Legwork.Spec

open Legwork.source

/-- The numbers in an argument: a number on its own is one entry. -/
def valuesOf : Raw → List ℝ
  | .scalar x _ => [x]
  | .array xs _ => xs

/-- The argument carries units. -/
def WithUnits : Raw → Prop
  | .scalar _ u => u = true
  | .array _ u => u = true

/-- The argument is an array, not a number. -/
def IsArray : Raw → Prop
  | .scalar _ _ => False
  | .array _ _ => True

/-- The sky positions in an argument. -/
def places : RawPos → List (ℝ × ℝ)
  | .scalar p => [p]
  | .array ps => ps

/-- How many numbers there are. -/
def count (x : Raw) : ℕ := (valuesOf x).length

/-- The arguments of a collection that can be built. The documentation promises this for arrays of equal lengths; beyond
it, one separation may be given for many sources, and any number of positions for a single source. -/
structure Usable (a : InitArgs) : Prop where
  /-- A frequency with units, one per source; or else a separation with units, one per source or one for all. -/
  orbit : (∃ f, a.f_orb = some f ∧ WithUnits f ∧ count f = count a.m_1) ∨
    (a.f_orb = none ∧ ∃ x, a.a = some x ∧ WithUnits x ∧ (count x = count a.m_1 ∨ count x = 1))
  /-- Masses and distances carry units. -/
  units : WithUnits a.m_1 ∧ WithUnits a.m_2 ∧ WithUnits a.dist
  /-- One value of each per source. -/
  lengths : count a.m_2 = count a.m_1 ∧ count a.dist = count a.m_1 ∧ count a.ecc = count a.m_1
  /-- Angles come with positions. -/
  angles : a.position = none → a.inclination = none ∧ a.polarisation = none
  /-- Positions come with circular orbits. -/
  circular : a.position ≠ none → ∀ e ∈ valuesOf a.ecc, e = 0
  /-- One position per source or one for all. -/
  positions : ∀ p, a.position = some p → (places p).length = count a.m_1 ∨ (places p).length = 1 ∨ count a.m_1 = 1
  /-- Angles can only be drawn for masses given as an array. -/
  drawn : a.position ≠ none → a.inclination = none ∨ a.polarisation = none → IsArray a.m_1

/-- The settings that are not per source agree. -/
structure SameOptions (a b : InitArgs) : Prop where
  gw_lum_tol : a.gw_lum_tol = b.gw_lum_tol
  interpolate_sc : a.interpolate_sc = b.interpolate_sc
  sc_params : a.sc_params = b.sc_params

/-- The collection built from the arguments. -/
structure BuiltFrom (K : Consts) (cls : Cls) (a : InitArgs) (x : Src) : Prop where
  cls : x.cls = cls
  m_1 : x.cols.m_1 = valuesOf a.m_1
  m_2 : x.cols.m_2 = valuesOf a.m_2
  dist : x.cols.dist = valuesOf a.dist
  ecc : x.cols.ecc = valuesOf a.ecc
  /-- A given frequency takes precedence over a separation. -/
  f_orb : ∀ f, a.f_orb = some f → x.cols.f_orb = valuesOf f
  /-- Otherwise Kepler's third law is used for every source. -/
  kepler : a.f_orb = none → x.cols.f_orb.length = count a.m_1 ∧ ∀ sep, a.a = some sep → ∀ i < count a.m_1,
    x.cols.f_orb.getD i 0 = utils.get_f_orb_from_a K ((valuesOf sep).getD (if count sep = 1 then 0 else i) 0)
      ((valuesOf a.m_1).getD i 0) ((valuesOf a.m_2).getD i 0)
  weights : x.cols.weights = a.weights.map valuesOf
  unplaced : a.position = none → x.cols.position = none ∧ x.cols.inclination = none ∧ x.cols.polarisation = none
  position : ∀ p, a.position = some p → (places p).length = count a.m_1 → x.cols.position = some (places p)
  position_one : ∀ q, a.position = some (.scalar q) → x.cols.position = some (List.replicate (count a.m_1) q)
  inclination : ∀ y, a.inclination = some y → x.cols.inclination = some (valuesOf y)
  polarisation : ∀ y, a.polarisation = some y → x.cols.polarisation = some (valuesOf y)
  /-- Missing angles are drawn at random, one per source. -/
  drawn_inclination : a.position ≠ none → a.inclination = none →
    x.cols.inclination = some ((List.range (count a.m_1)).map a.rand_inclination)
  drawn_polarisation : a.position ≠ none → a.polarisation = none →
    x.cols.polarisation = some ((List.range (count a.m_1)).map a.rand_polarisation)
  /-- Nothing has merged and nothing has been calculated yet. -/
  fresh : x.cols.merged = List.replicate (count a.m_1) false ∧ x.cols.t_merge = none ∧ x.snr = none ∧
    x.max_snr_harmonic = none
  settings : x.stat_tol = a.stat_tol ∧ x.n_proc = a.n_proc ∧ x.gw_lum_tol = some a.gw_lum_tol ∧
    x.interpolate_sc = a.interpolate_sc

end Legwork.Spec
