import Verif.Spec.Rows

/-!
# Vocabulary for masks and selections
-/

namespace Legwork.Spec

open Legwork.source

/-- The observation time meant by the argument `t_obs` of `get_source_mask` for a source with parameters `d`: the time
given, by default that of the parameters; `"auto"` is 4 years for LISA and 5 years otherwise. -/
def MaskTime (d : Dict) (t_obs : PVal) (T : ℝ) : Prop :=
  let meant : PVal → Prop := fun v => v = .time T ∨ v = .str "auto" ∧
    ∃ i, d.get? "instrument" = some i ∧ (i = .str "LISA" ∧ T = 4 * psd.yr ∨ i ≠ .str "LISA" ∧ T = 5 * psd.yr)
  (t_obs ≠ .none ∧ meant t_obs) ∨ (t_obs = .none ∧ ∃ v, d.get? "t_obs" = some v ∧ meant v)

/-- A source agrees with the argument `circular`. -/
def CircularIs (ecc_tol : ℝ) (r : One) : Tri → Prop
  | .none => True
  | .bool true => r.ecc ≤ ecc_tol
  | .bool false => ecc_tol < r.ecc
  | .other => False

/-- A source agrees with the argument `stationary`. -/
def StationaryIs (K : Consts) (T stat_tol : ℝ) (r : One) : Tri → Prop
  | .none => True
  | .bool true => r.StationaryOver K T stat_tol
  | .bool false => ¬ r.StationaryOver K T stat_tol
  | .other => False

/-- The attributes set by the constructor are there. -/
structure Built (x : Src) : Prop where
  ecc_tol : x.ecc_tol.isSome
  harmonics_required : x.harmonics_required.isSome
  sc_params : x.sc_params.isSome

/-- The sources selected by `which_sources`, in order: all of them without a selection. -/
def selected (c : Cols) : Option (List Bool) → List One
  | none => rows c
  | some w => (((rows c).zip w).filter fun x => x.2).map fun x => x.1

/-- A selection has one entry per source. -/
def FitsMask (c : Cols) (w : Option (List Bool)) : Prop := ∀ m, w = some m → m.length = c.n_sources

/-- What `get_merger_time` gives for one source: 0 when merged, otherwise what `evol.get_t_merge_ecc` gives for that
source alone. -/
def MergerTimeOf (K : Consts) (exact : Bool) (r : One) (t : ℝ) : Prop :=
  if r.merged then t = 0 else evol.get_t_merge_ecc K (fun _ : Unit => r.ecc) none (some fun _ => r.f_orb) none
    (some fun _ => r.m_1) (some fun _ => r.m_2) 0.15 (1 - 1e-4) exact = .ok fun _ => t

end Legwork.Spec
