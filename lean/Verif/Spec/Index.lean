import Verif.Spec.SnrOf

/-!
# Vocabulary for indexing sources
-/

namespace Legwork.Spec

open Legwork.source

/-- Among `n` entries the integer index `i` means number `j`, counted from the end if negative. -/
def PosOf (n : ℕ) (i : ℤ) (j : ℕ) : Prop := j < n ∧ (i = j ∨ i = (j : ℤ) - n)

/-- Negative bounds of slices count from the end. -/
def fromEnd (n : ℕ) (x : ℤ) : ℤ := if x < 0 then x + n else x

/-- The entries of `start:stop:step` among `n`, in order. Forward: from `start` (at least 0) in steps up to, without,
`stop`. Backward: from `start` (at most the last entry) down to, without, `stop`. Omitted bounds are the ends. -/
def SliceSelects (n : ℕ) (start stop : Option ℤ) (step : ℤ) (js : List ℕ) : Prop :=
  (0 < step ∧ js.Pairwise (· < ·) ∧ ∀ j : ℕ, j ∈ js ↔ j < n ∧ max 0 (fromEnd n (start.getD 0)) ≤ j ∧
    step ∣ j - max 0 (fromEnd n (start.getD 0)) ∧ ∀ b, stop = some b → (j : ℤ) < fromEnd n b) ∨
  (step < 0 ∧ js.Pairwise (· > ·) ∧ ∀ j : ℕ, j ∈ js ↔ j < n ∧ j ≤ min ((n : ℤ) - 1) (fromEnd n (start.getD (n - 1))) ∧
    step ∣ min ((n : ℤ) - 1) (fromEnd n (start.getD (n - 1))) - j ∧ ∀ b, stop = some b → fromEnd n b < (j : ℤ))

/-- `sources[ind]` of `n` sources means the sources number `js`, in this order. A boolean that is not in a list means
the only source or none, and is only possible for one source. -/
def Selects (n : ℕ) : Index → List ℕ → Prop
  | .int i, js => ∃ j, PosOf n i j ∧ js = [j]
  | .ints is, js => List.Forall₂ (PosOf n) is js
  | .bools bs, js => bs.length = n ∧ js = (List.range n).filter fun j => bs.getD j false
  | .bool b, js => n = 1 ∧ js = if b then [0] else []
  | .slice start stop step, js => SliceSelects n start stop (step.getD 1) js
  | .other, _ => False

/-- The entries number `js` of a list. -/
def entries {α : Type} (d : α) (js : List ℕ) (xs : List α) : List α := js.map fun j => xs.getD j d

/-- Every attribute with one entry per source, for the sources number `js`. -/
def colsAt (js : List ℕ) (c : Cols) : Cols where
  m_1 := entries 0 js c.m_1
  m_2 := entries 0 js c.m_2
  dist := entries 0 js c.dist
  f_orb := entries 0 js c.f_orb
  ecc := entries 0 js c.ecc
  weights := c.weights.map (entries 0 js)
  position := c.position.map (entries 0 js)
  inclination := c.inclination.map (entries 0 js)
  polarisation := c.polarisation.map (entries 0 js)
  merged := entries false js c.merged
  t_merge := c.t_merge.map (entries 0 js)

/-- Every attribute with one entry per source has the right length. -/
structure Sized (h : Heap) (s : ℕ) : Prop where
  rect : Rect (h.src s).cols
  snr : ∀ r, (h.src s).snr = some r → (h.snrs r).length = (h.src s).cols.n_sources
  harm : ∀ r, (h.src s).max_snr_harmonic = some r → (h.harms r).length = (h.src s).cols.n_sources

/-- The values of the array `snr`, if there is one. -/
def snrValues (h : Heap) (s : ℕ) : Option (List (Option ℝ)) := (h.src s).snr.map h.snrs

/-- The values of the array `max_snr_harmonic`, if there is one. -/
def harmValues (h : Heap) (s : ℕ) : Option (List ℕ) := (h.src s).max_snr_harmonic.map h.harms

/-- The entries of the parameters, if there are any. -/
def paramValues (h : Heap) (s : ℕ) : Option (String → Option PVal) := (h.src s).sc_params.map fun p => (h.par p).dict.get?

/-- Two source objects have the same class, tolerances, interpolation and parameters. -/
structure SameSettings (h : Heap) (s : ℕ) (h' : Heap) (s' : ℕ) : Prop where
  cls : (h'.src s').cls = (h.src s).cls
  stat_tol : (h'.src s').stat_tol = (h.src s).stat_tol
  n_proc : (h'.src s').n_proc = (h.src s).n_proc
  gw_lum_tol : (h'.src s').gw_lum_tol = (h.src s).gw_lum_tol
  harmonics_required : (h'.src s').harmonics_required = (h.src s).harmonics_required
  max_strain_harmonic : (h'.src s').max_strain_harmonic = (h.src s).max_strain_harmonic
  ecc_tol : (h'.src s').ecc_tol = (h.src s).ecc_tol
  interpolate_sc : (h'.src s').interpolate_sc = (h.src s).interpolate_sc
  sc : (h'.src s').sc = (h.src s).sc
  g : (h'.src s').g = (h.src s).g
  params : paramValues h' s' = paramValues h s

/-- `s'` is a new object made of the sources number `js` of `s`, with parameters of its own, and nothing else changed. -/
structure ItemOf (h : Heap) (s : ℕ) (js : List ℕ) (h' : Heap) (s' : ℕ) : Prop where
  new : h.next ≤ s' ∧ s' < h'.next
  cols : (h'.src s').cols = colsAt js (h.src s).cols
  snr : snrValues h' s' = (snrValues h s).map (entries (some 0) js)
  harm : harmValues h' s' = (harmValues h s).map (entries 0 js)
  settings : SameSettings h s h' s'
  arrays : (∀ r, (h'.src s').snr = some r → h.next ≤ r ∧ r < h'.next) ∧
    ∀ r, (h'.src s').max_snr_harmonic = some r → h.next ≤ r ∧ r < h'.next
  params : ∃ p, (h'.src s').sc_params = some p ∧ h.next ≤ p ∧ p < h'.next ∧ (h'.par p).source = some s'
  src : ∀ x, x ≠ s' → h'.src x = h.src x
  par : ∀ p < h.next, h'.par p = h.par p
  snrs : ∀ r < h.next, h'.snrs r = h.snrs r
  harms : ∀ r < h.next, h'.harms r = h.harms r
  trace : h'.trace = h.trace

end Legwork.Spec
