import Verif.Spec.SnrOf

/-!
# Vocabulary: what `verbose=True` prints
-/

namespace Legwork.Spec

open Legwork.source

open Classical in
/-- The number of sources `r`, at position `i`, with a property. -/
noncomputable def howMany (c : Cols) (P : ℕ → One → Prop) : ℕ :=
  ((List.range c.n_sources).filter fun i => decide (P i (rowAt c i))).length

/-- A line about `n` sources, left out if there are none. -/
def lineIf (n : ℕ) (before after : String) : List String := if n = 0 then [] else [before ++ toString n ++ after]

/-- The lines about the circular and the eccentric ones among the sources with property `P`. -/
noncomputable def detailLines (c : Cols) (kind : String) (ecc_tol : ℝ) (P : ℕ → One → Prop) : List String :=
  lineIf (howMany c fun i r => P i r ∧ r.ecc ≤ ecc_tol) "\t\t" (" sources are " ++ kind ++ " and circular") ++
  lineIf (howMany c fun i r => P i r ∧ ecc_tol < r.ecc) "\t\t" (" sources are " ++ kind ++ " and eccentric")

/-- Selected and not merged. -/
def Inspiralling (ws : Option (List Bool)) (i : ℕ) (r : One) : Prop := Chosen ws i ∧ r.merged = false

/-- What `get_snr` of a plain `Source` prints, for an observation time `T`. -/
noncomputable def snrLines (K : Consts) (c : Cols) (ws : Option (List Bool)) (T stat_tol ecc_tol : ℝ) : List String :=
  ["Calculating SNR for " ++ toString (howMany c fun i _ => Chosen ws i) ++ " sources",
   "\t" ++ toString (howMany c fun _ r => r.merged = true) ++ " sources have already merged"] ++
  lineIf (howMany c fun i r => Inspiralling ws i r ∧ r.StationaryOver K T stat_tol) "\t" " sources are stationary" ++
  detailLines c "stationary" ecc_tol (fun i r => Inspiralling ws i r ∧ r.StationaryOver K T stat_tol) ++
  lineIf (howMany c fun i r => Inspiralling ws i r ∧ ¬ r.StationaryOver K T stat_tol) "\t" " sources are evolving" ++
  detailLines c "evolving" ecc_tol (fun i r => Inspiralling ws i r ∧ ¬ r.StationaryOver K T stat_tol)

end Legwork.Spec
