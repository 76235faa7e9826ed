import Verif.Model.Utils

/-!
# Model of `src/legwork/strain.py`

The arrays `m_c`, `dist` (one entry per source), `f_orb`, `ecc` (sources × timesteps) and the orientation
arguments are kept as one row per source; `n` is the list of harmonics. `ensure_array` and the `newaxis`
reshaping (lines 103-126, 195-218) only arrange these shapes: the result is indexed source, timestep, harmonic.
Units are SI, so `h_0.decompose().value` is the identity.
-/

namespace Legwork.strain

open Real Legwork.utils

/-- The optional orientation arguments of one source; `position` is `(lat, lon)`. In the code each argument is
either an array for all sources or `None`. -/
structure Orientation where
  position : Option (ℝ × ℝ) := none
  polarisation : Option ℝ := none
  inclination : Option ℝ := none

/-- The value computed by `strain.amplitude_modulation`, lines 41-54. -/
noncomputable def amplitude_modulation_val (lat lon polarisation inclination : ℝ) : ℝ :=
  let theta := π / 2 - lat
  let phi := lon
  let a_plus := (1 + cos inclination ^ 2) / 2
  let a_cross := cos inclination
  let term1 := a_plus ^ 2 * F_plus_squared theta phi polarisation
  let term2 := a_cross ^ 2 * F_cross_squared theta phi polarisation
  5 / 4 * (term1 + term2)

/-- `strain.amplitude_modulation`, strain.py lines 12-54. `None.lat` (line 42) raises `AttributeError`;
`np.cos(None)` (line 45) and `2 * None` (line 47) raise `TypeError`. -/
noncomputable def amplitude_modulation (o : Orientation) : Except PyErr ℝ :=
  match o.position, o.inclination, o.polarisation with
  | none, _, _ => .error .AttributeError
  | some _, none, _ => .error .TypeError
  | some _, some _, none => .error .TypeError
  | some p, some inc, some pol => .ok (amplitude_modulation_val p.1 p.2 pol inc)

/-- One source: chirp mass, distance, `(f_orb, ecc)` at each timestep, orientation. -/
structure Row where
  m_c : ℝ
  dist : ℝ
  steps : List (ℝ × ℝ)
  orient : Orientation := {}

/-- `g(n, e)` as used by the strains, lines 128-137 and 220-229: exact, or interpolated with negative values
set to 0. -/
noncomputable def g_vals (interpolated_g : Option (ℤ → ℝ → ℝ)) (n : ℤ) (ecc : ℝ) : ℝ :=
  match interpolated_g with
  | none => peters_g n ecc
  | some g => if g n ecc < 0 then 0 else g n ecc

/-- One element of `h_0`, strain.py lines 120-139. -/
noncomputable def h_0_val (K : Consts) (ig : Option (ℤ → ℝ → ℝ)) (m_c dist f_orb ecc : ℝ) (n : ℤ) : ℝ :=
  let prefac := (2 ^ (28 / 3 : ℝ) / 5) ^ (0.5 : ℝ) * K.G ^ (5 / 3 : ℝ) / K.c ^ 4
  let n_independent_part := prefac * m_c ^ (5 / 3 : ℝ) * (π * f_orb) ^ (2 / 3 : ℝ) / dist
  let n_dependent_part := g_vals ig n ecc ^ (1 / 2 : ℝ) / n
  n_independent_part * n_dependent_part

/-- One element of `h_c`, strain.py lines 212-231. -/
noncomputable def h_c_val (K : Consts) (ig : Option (ℤ → ℝ → ℝ)) (m_c dist f_orb ecc : ℝ) (n : ℤ) : ℝ :=
  let prefac := (2 ^ (5 / 3 : ℝ) / (3 * π ^ (4 / 3 : ℝ))) ^ (0.5 : ℝ) * K.G ^ (5 / 6 : ℝ) / K.c ^ (3 / 2 : ℝ)
  let n_independent_part :=
    prefac * m_c ^ (5 / 6 : ℝ) / dist * f_orb ^ (-1 / 6 : ℝ) / peters_f ecc ^ (0.5 : ℝ)
  let n_dependent_part := (g_vals ig n ecc / n) ^ (1 / 2 : ℝ)
  n_independent_part * n_dependent_part

/-- The orientation factor, lines 141-144 and 233-236: no argument given means no modulation. -/
noncomputable def modulation (o : Orientation) : Except PyErr ℝ :=
  if o.position.isSome || o.polarisation.isSome || o.inclination.isSome then
    (amplitude_modulation o).map (fun amp_mod => amp_mod ^ (0.5 : ℝ))
  else .ok 1

/-- One source of either strain function: all timesteps and harmonics, multiplied by the modulation. -/
noncomputable def row_strain (val : ℝ → ℝ → ℝ → ℝ → ℤ → ℝ) (n : List ℤ) (r : Row) :
    Except PyErr (List (List ℝ)) := do
  let m ← modulation r.orient
  pure (r.steps.map fun s => n.map fun k => m * val r.m_c r.dist s.1 s.2 k)

/-- `strain.h_0_n`, strain.py lines 57-146. -/
noncomputable def h_0_n (K : Consts) (ig : Option (ℤ → ℝ → ℝ)) (n : List ℤ) (rows : List Row) :
    Except PyErr (List (List (List ℝ))) :=
  if n.any (fun k => decide (k < 1)) then .error .ValueError
  else rows.mapM (row_strain (h_0_val K ig) n)

/-- `strain.h_c_n`, strain.py lines 149-238. -/
noncomputable def h_c_n (K : Consts) (ig : Option (ℤ → ℝ → ℝ)) (n : List ℤ) (rows : List Row) :
    Except PyErr (List (List (List ℝ))) :=
  if n.any (fun k => decide (k < 1)) then .error .ValueError
  else rows.mapM (row_strain (h_c_val K ig) n)

end Legwork.strain
