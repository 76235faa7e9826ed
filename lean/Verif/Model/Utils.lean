import Mathlib.Analysis.SpecialFunctions.Pow.Real
import Mathlib.Analysis.SpecialFunctions.Integrals.Basic
import Verif.Py.Basic
import Verif.Model.Consts

/-!
# Model of `src/legwork/utils.py`

Quantities are SI values (reals); the `if isinstance(.., Quantity): x.to(unit)` blocks, which only change the
unit a value is expressed in, are modelled in `Verif.Model.Units`. numpy's elementwise broadcasting of these
functions is left to the callers: each definition is the value computed for one element, except where the
function looks at a whole array (`fn_dot`, `ensure_array`).
-/

namespace Legwork.utils

open Real

/-- `utils.chirp_mass`, utils.py lines 13-35 (line 29). -/
noncomputable def chirp_mass (m_1 m_2 : ℝ) : ℝ :=
  (m_1 * m_2) ^ (3 / 5 : ℝ) / (m_1 + m_2) ^ (1 / 5 : ℝ)

/-- `scipy.special.jv` at integer order (utils.py line 3), modelled by Bessel's integral
`J_k(x) = (1/π) ∫₀^π cos(k τ - x sin τ) dτ`. -/
noncomputable def jv (k : ℤ) (x : ℝ) : ℝ :=
  (1 / π) * ∫ τ in (0 : ℝ)..π, cos (k * τ - x * sin τ)

/-- `utils.peters_g`, utils.py lines 38-63. `n` is an integer harmonic, as documented. -/
noncomputable def peters_g (n : ℤ) (e : ℝ) : ℝ :=
  let bracket_1 := jv (n - 2) (n * e) - 2 * e * jv (n - 1) (n * e) + 2 / n * jv n (n * e)
    + 2 * e * jv (n + 1) (n * e) - jv (n + 2) (n * e)
  let bracket_2 := jv (n - 2) (n * e) - 2 * jv n (n * e) + jv (n + 2) (n * e)
  let bracket_3 := jv n (n * e)
  (n : ℝ) ^ 4 / 32 * (bracket_1 ^ 2 + (1 - e ^ 2) * bracket_2 ^ 2 + 4 / (3 * (n : ℝ) ^ 2) * bracket_3 ^ 2)

/-- `utils.peters_f`, utils.py lines 66-92. -/
noncomputable def peters_f (e : ℝ) : ℝ :=
  let numerator := 1 + (73 / 24) * e ^ 2 + (37 / 96) * e ^ 4
  let denominator := (1 - e ^ 2) ^ (7 / 2 : ℝ)
  numerator / denominator

/-- `utils.get_a_from_f_orb`, utils.py lines 95-123 (line 117). -/
noncomputable def get_a_from_f_orb (K : Consts) (f_orb m_1 m_2 : ℝ) : ℝ :=
  (K.G * (m_1 + m_2) / (2 * π * f_orb) ^ 2) ^ (1 / 3 : ℝ)

/-- `utils.get_f_orb_from_a`, utils.py lines 126-154 (line 148). -/
noncomputable def get_f_orb_from_a (K : Consts) (a m_1 m_2 : ℝ) : ℝ :=
  (K.G * (m_1 + m_2) / a ^ 3) ^ (0.5 : ℝ) / (2 * π)

/-- `utils.beta`, utils.py lines 157-179 (line 173). -/
noncomputable def beta (K : Consts) (m_1 m_2 : ℝ) : ℝ :=
  64 / 5 * K.G ^ 3 / K.c ^ 5 * m_1 * m_2 * (m_1 + m_2)

/-- `utils.c_0`, utils.py lines 182-204 (line 198). -/
noncomputable def c_0 (a_i ecc_i : ℝ) : ℝ :=
  a_i * (1 - ecc_i ^ 2) * ecc_i ^ (-12 / 19 : ℝ) * (1 + (121 / 304) * ecc_i ^ 2) ^ (-870 / 2299 : ℝ)

/-- `utils.get_a_from_ecc`, utils.py lines 207-231 (line 225). -/
noncomputable def get_a_from_ecc (ecc c_0 : ℝ) : ℝ :=
  c_0 * ecc ^ (12 / 19 : ℝ) / (1 - ecc ^ 2) * (1 + (121 / 304) * ecc ^ 2) ^ (870 / 2299 : ℝ)

/-- One element of `utils.fn_dot` once the harmonic check has passed, utils.py line 259. -/
noncomputable def fn_dot_val (K : Consts) (m_c f_orb e : ℝ) (n : ℤ) : ℝ :=
  (48 * n) / (5 * π) * (K.G * m_c) ^ (5 / 3 : ℝ) / K.c ^ 5 * (2 * π * f_orb) ^ (11 / 3 : ℝ) * peters_f e

/-- `utils.fn_dot`, utils.py lines 234-265, for one binary and an array of harmonics. -/
noncomputable def fn_dot (K : Consts) (m_c f_orb e : ℝ) (n : List ℤ) : Except PyErr (List ℝ) :=
  if n.any (fun k => decide (k < 1)) then .error .ValueError
  else .ok (n.map (fn_dot_val K m_c f_orb e))

/-- `utils.D_plus_squared`, utils.py lines 315-337. -/
noncomputable def D_plus_squared (theta phi : ℝ) : ℝ :=
  let term_1 := 158 * cos theta ^ 2
  let term_2 := 7 * cos theta ^ 4
  let term_3 := -162 * sin (2 * phi) ^ 2 * (1 + cos theta ^ 2) ^ 2
  (3 / 2048) * (487 + term_1 + term_2 + term_3)

/-- `utils.D_cross_squared`, utils.py lines 340-363. -/
noncomputable def D_cross_squared (theta phi : ℝ) : ℝ :=
  let term_1 := 120 * sin theta ^ 2
  let term_2 := cos theta ^ 2
  let term_3 := 162 * sin (2 * phi) ^ 2 * cos theta ^ 2
  (3 / 512) * (term_1 + term_2 + term_3)

/-- `utils.D_plus_D_cross`, utils.py lines 366-389. -/
noncomputable def D_plus_D_cross (theta phi : ℝ) : ℝ :=
  let term_1 := cos theta * sin (2 * phi)
  let term_2 := 2 * cos phi ^ 2 - 1
  let term_3 := 1 + cos theta ^ 2
  (243 / 512) * term_1 * term_2 * term_3

/-- `utils.F_plus_squared`, utils.py lines 392-418. -/
noncomputable def F_plus_squared (theta phi psi : ℝ) : ℝ :=
  let term_1 := cos (2 * psi) ^ 2 * D_plus_squared theta phi
  let term_2 := -sin (4 * psi) * D_plus_D_cross theta phi
  let term_3 := sin (2 * psi) ^ 2 * D_cross_squared theta phi
  (1 / 4) * (term_1 + term_2 + term_3)

/-- `utils.F_cross_squared`, utils.py lines 421-447. -/
noncomputable def F_cross_squared (theta phi psi : ℝ) : ℝ :=
  let term_1 := cos (2 * psi) ^ 2 * D_cross_squared theta phi
  let term_2 := sin (4 * psi) * D_plus_D_cross theta phi
  let term_3 := sin (2 * psi) ^ 2 * D_plus_squared theta phi
  (1 / 4) * (term_1 + term_2 + term_3)

end Legwork.utils
