import Mathlib.Algebra.Order.Floor.Defs
import Verif.Py.Numpy
import Verif.Model.Utils

/-!
# Model of the harmonics functions and the eccentric transition of `Source`

`src/legwork/source.py` lines 518-588. The file `harmonics.npz` is an arbitrary table.
-/

namespace Legwork.source

open Legwork.utils

/-- The contents of `harmonics.npz` (source.py lines 532-541): the eccentricities `e_range` reconstructed from
`e_lims`, the number of tabulated harmonics `n_max`, and one row of `g(n, e)` values per eccentricity. The
reconstruction of `e_range` by `logspace` is not modelled. -/
structure LumTable where
  e_range : List ℝ
  n_max : ℕ
  g_vals : List (List ℝ)

/-- The inner `while` loop, source.py lines 554-557: `rest` are the `g` values of the harmonics after the first `h`
(up to `n_max`). -/
noncomputable def extend_harmonics (target : ℝ) : List ℝ → ℝ → ℕ → ℕ
  | [], _, h => h
  | g :: rest, total_lum, h =>
    if total_lum < target then extend_harmonics target rest (total_lum + g) (h + 1) else h

/-- One round of the outer loop, source.py lines 549-557. -/
noncomputable def harmonics_step (gw_lum_tol : ℝ) (n_max : ℕ) (previous : ℕ) (e : ℝ) (row : List ℝ) : ℕ :=
  let total_lum := (row.take previous).sum
  extend_harmonics ((1 - gw_lum_tol) * peters_f e) ((row.take n_max).drop previous) total_lum previous

/-- The harmonics needed at the eccentricities after one that needs `previous`. -/
noncomputable def harmonics_loop (gw_lum_tol : ℝ) (n_max : ℕ) : ℕ → List (ℝ × List ℝ) → List ℕ
  | _, [] => []
  | previous, (e, row) :: rest =>
    let h := harmonics_step gw_lum_tol n_max previous e row
    h :: harmonics_loop gw_lum_tol n_max h rest

/-- `harmonics_needed`, source.py lines 545-557: 2 at the first eccentricity. -/
noncomputable def harmonics_needed (T : LumTable) (gw_lum_tol : ℝ) : List ℕ :=
  match T.e_range.zip T.g_vals with
  | [] => []
  | _ :: rest => 2 :: harmonics_loop gw_lum_tol T.n_max 2 rest

/-- `np.max` of a list of naturals. -/
def maxNat (xs : List ℕ) : ℕ := xs.foldl max 0

/-- `Source.harmonics_required`, source.py lines 559-567. -/
noncomputable def harmonics_required (T : LumTable) (gw_lum_tol e : ℝ) : ℤ :=
  let needed := harmonics_needed T gw_lum_tol
  ⌈np.interp1d (T.e_range.zip (needed.map fun h : ℕ => (h : ℝ))) 2 (maxNat needed) e⌉

/-- `np.argmax` of a row of the table: index of the first largest entry. -/
noncomputable def rowArgmax : List ℝ → ℕ
  | [] => 0
  | x :: xs =>
    match xs[rowArgmax xs]? with
    | some v => if x < v then rowArgmax xs + 1 else 0
    | none => 0

/-- `Source.max_strain_harmonic` before rounding, source.py lines 569-572. -/
noncomputable def max_strain_interp (T : LumTable) (gw_lum_tol e : ℝ) : ℝ :=
  np.interp1d (T.e_range.zip (T.g_vals.map fun row => ((rowArgmax row + 1 : ℕ) : ℝ))) 2
    (maxNat (harmonics_needed T gw_lum_tol)) e

/-- `np.round(x).astype(int)`: nearest integer, halves to even. -/
noncomputable def npRound (x : ℝ) : ℤ :=
  if x - ⌊x⌋ < 1 / 2 then ⌊x⌋ else if 1 / 2 < x - ⌊x⌋ then ⌊x⌋ + 1 else if Even ⌊x⌋ then ⌊x⌋ else ⌊x⌋ + 1

/-- `Source.max_strain_harmonic`, source.py lines 574-576. -/
noncomputable def max_strain_harmonic (T : LumTable) (gw_lum_tol e : ℝ) : ℤ := npRound (max_strain_interp T gw_lum_tol e)

open Classical in
/-- `Source.find_eccentric_transition`, source.py lines 578-588. Indexing an empty selection is an `IndexError`. -/
noncomputable def find_eccentric_transition (gw_lum_tol : ℝ) : Except PyErr ℝ :=
  let e_range := np.linspace 0.2 10000
  match e_range.filter fun e => decide (peters_g 2 e < (1 - gw_lum_tol) * peters_f e) with
  | [] => throw .IndexError
  | e :: _ => pure e

/-- The harmonic groups of `get_snr_stationary` and `get_snr_evolving`, source.py lines 1032 and 1155. -/
def harmonic_groups : List (ℕ × ℕ) := [(1, 10), (10, 100), (100, 1000), (1000, 10000)]

/-- Membership of a source in a group, source.py lines 1034-1035 and 1157-1158. -/
def in_group (h : ℤ) (group : ℕ × ℕ) : Bool := decide (h > group.1) && decide (h ≤ group.2)

end Legwork.source
