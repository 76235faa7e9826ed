import Verif.Model.Harmonics

/-!
# Vocabulary for the harmonics properties
-/

namespace Legwork.Spec

open Legwork.source

/-- What a usable table of `g(n, e)` looks like: at least two eccentricities, in increasing order, each with the
same number (at least 2) of harmonics. -/
structure ValidTable (T : LumTable) : Prop where
  increasing : T.e_range.Pairwise (· < ·)
  two_rows : 2 ≤ T.e_range.length
  rows : T.g_vals.length = T.e_range.length
  columns : ∀ row ∈ T.g_vals, row.length = T.n_max
  two_columns : 2 ≤ T.n_max

/-- The luminosity in the first `k` harmonics of a table row. -/
noncomputable def lumUpTo (row : List ℝ) (k : ℕ) : ℝ := (row.take k).sum

/-- Every entry of the table is the relative power of its harmonic: column `j` holds `g(j + 1, e)`. -/
def ExactTable (T : LumTable) : Prop :=
  ∀ (i j : ℕ) (e : ℝ) (row : List ℝ), T.e_range[i]? = some e → T.g_vals[i]? = some row → j < T.n_max →
    row[j]? = some (utils.peters_g ((j : ℤ) + 1) e)

/-- The relative power in the harmonics `1, …, N` of an orbit with eccentricity `e`. -/
noncomputable def powerUpTo (N : ℕ) (e : ℝ) : ℝ := ∑ n ∈ Finset.Icc 1 N, utils.peters_g n e

end Legwork.Spec
