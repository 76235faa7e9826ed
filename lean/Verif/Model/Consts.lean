import Mathlib.Analysis.SpecialFunctions.Pow.Real

/-!
# Physical constants

`astropy.constants.G` and `astropy.constants.c` (`utils.py` line 4, `evol.py` line 8, `strain.py` line 4,
`psd.py`) are two positive numbers. Every theorem holds for all positive values; `Consts.codata2018` is the
pair astropy uses by default, in SI units.
-/

namespace Legwork

/-- Newton's constant and the speed of light (SI values). -/
structure Consts where
  G : ℝ
  c : ℝ
  G_pos : 0 < G
  c_pos : 0 < c

/-- The CODATA 2018 values shipped with astropy. -/
noncomputable def Consts.codata2018 : Consts where
  G := 6.67430e-11
  c := 299792458
  G_pos := by norm_num
  c_pos := by norm_num

end Legwork
