import Verif.Py.Float
import Verif.Model.Consts

/-!
# The formulas in floating point

The formulas of `utils.py`, `evol.py`, `strain.py`, `psd.py` and `snr.py` for one source, operation by operation in the
order in which python evaluates them, each operation rounded. Numbers are the values in whatever units the caller uses
(both masses in the same unit); astropy multiplies values without converting them, and the conversion `.to(unit)` or
`.decompose()` at the end multiplies by a factor, `k`. When no factor is needed the code does not multiply, the model
multiplies by 1.
-/

namespace Legwork.fl

namespace Arith

variable (A : Arith)

/-- `x + y` -/
def add (x y : ℝ) : ℝ := A.rnd (x + y)
/-- `x - y` -/
def sub (x y : ℝ) : ℝ := A.rnd (x - y)
/-- `x * y` -/
def mul (x y : ℝ) : ℝ := A.rnd (x * y)
/-- `x / y` -/
noncomputable def div (x y : ℝ) : ℝ := A.rnd (x / y)

/-- `np.pi` -/
noncomputable def pi : ℝ := A.rnd Real.pi

end Arith

variable (A : Arith) (K : Consts)

/-- `utils.chirp_mass`, utils.py lines 13-35. -/
noncomputable def chirp_mass (k m_1 m_2 : ℝ) : ℝ :=
  let m_c := A.div (A.pow (A.mul m_1 m_2) (A.div 3 5)) (A.pow (A.add m_1 m_2) (A.div 1 5))
  A.mul m_c k

/-- `utils.peters_f`, utils.py lines 66-92. -/
noncomputable def peters_f (e : ℝ) : ℝ :=
  let numerator := A.add (A.add 1 (A.mul (A.div 73 24) (A.pow e 2))) (A.mul (A.div 37 96) (A.pow e 4))
  let denominator := A.pow (A.sub 1 (A.pow e 2)) (A.div 7 2)
  A.div numerator denominator

/-- `utils.get_a_from_f_orb`, utils.py lines 95-123. -/
noncomputable def get_a_from_f_orb (k f_orb m_1 m_2 : ℝ) : ℝ :=
  let a := A.pow (A.div (A.mul (A.rnd K.G) (A.add m_1 m_2)) (A.pow (A.mul (A.mul 2 A.pi) f_orb) 2)) (A.div 1 3)
  A.mul a k

/-- `utils.get_f_orb_from_a`, utils.py lines 126-154. -/
noncomputable def get_f_orb_from_a (k a m_1 m_2 : ℝ) : ℝ :=
  let f_orb := A.div (A.pow (A.div (A.mul (A.rnd K.G) (A.add m_1 m_2)) (A.pow a 3)) 0.5) (A.mul 2 A.pi)
  A.mul f_orb k

/-- `utils.beta`, utils.py lines 157-179. -/
noncomputable def beta (k m_1 m_2 : ℝ) : ℝ :=
  let beta := A.mul (A.mul (A.mul (A.div (A.mul (A.div 64 5) (A.pow (A.rnd K.G) 3)) (A.pow (A.rnd K.c) 5)) m_1) m_2)
    (A.add m_1 m_2)
  A.mul beta k

/-- `utils.c_0`, utils.py lines 182-204. -/
noncomputable def c_0 (k a_i ecc_i : ℝ) : ℝ :=
  let c_0 := A.mul (A.mul (A.mul a_i (A.sub 1 (A.pow ecc_i 2))) (A.pow ecc_i (A.div (-12) 19)))
    (A.pow (A.add 1 (A.mul (A.div 121 304) (A.pow ecc_i 2))) (A.div (-870) 2299))
  A.mul c_0 k

/-- `utils.get_a_from_ecc`, utils.py lines 207-231. -/
noncomputable def get_a_from_ecc (k ecc c_0 : ℝ) : ℝ :=
  let a := A.mul (A.div (A.mul c_0 (A.pow ecc (A.div 12 19))) (A.sub 1 (A.pow ecc 2)))
    (A.pow (A.add 1 (A.mul (A.div 121 304) (A.pow ecc 2))) (A.div 870 2299))
  A.mul a k

/-- `utils.fn_dot`, utils.py lines 234-265, for one harmonic `n >= 1`. -/
noncomputable def fn_dot (k m_c f_orb e n : ℝ) : ℝ :=
  let fn_dot := A.mul (A.mul (A.div (A.mul (A.div (A.mul 48 n) (A.mul 5 A.pi)) (A.pow (A.mul (A.rnd K.G) m_c) (A.div 5 3)))
    (A.pow (A.rnd K.c) 5)) (A.pow (A.mul (A.mul 2 A.pi) f_orb) (A.div 11 3))) (peters_f A e)
  A.mul fn_dot k

/-- `evol.get_t_merge_circ`, evol.py lines 441-475, once `beta` and `a_i` are known. -/
noncomputable def get_t_merge_circ (k beta a_i : ℝ) : ℝ :=
  let t_merge := A.div (A.pow a_i 4) (A.mul 4 beta)
  A.mul t_merge k

/-- `utils.peters_g`, utils.py lines 38-63; `n` is an int, so `n - 2` and `n**4` are exact. Squares of
numbers that may be negative are products, as in numpy. -/
noncomputable def peters_g (B : BesselAtZero) (n : ℤ) (e : ℝ) : ℝ :=
  let x := A.mul n e
  let bracket_1 := A.sub (A.add (A.add (A.sub (B.jv (n - 2) x) (A.mul (A.mul 2 e) (B.jv (n - 1) x)))
    (A.mul (A.div 2 n) (B.jv n x))) (A.mul (A.mul 2 e) (B.jv (n + 1) x))) (B.jv (n + 2) x)
  let bracket_2 := A.add (A.sub (B.jv (n - 2) x) (A.mul 2 (B.jv n x))) (B.jv (n + 2) x)
  let bracket_3 := B.jv n x
  A.mul (A.div (n ^ 4 : ℤ) 32) (A.add (A.add (A.mul bracket_1 bracket_1)
    (A.mul (A.sub 1 (A.pow e 2)) (A.mul bracket_2 bracket_2))) (A.mul (A.div 4 (3 * n ^ 2 : ℤ)) (A.mul bracket_3 bracket_3)))

/-- One element of `strain.h_0_n` without orientation, strain.py lines 120-146. -/
noncomputable def h_0_n (B : BesselAtZero) (k m_c f_orb ecc : ℝ) (n : ℤ) (dist : ℝ) : ℝ :=
  let prefac := A.div (A.mul (A.pow (A.div (A.pow 2 (A.div 28 3)) 5) 0.5) (A.pow (A.rnd K.G) (A.div 5 3))) (A.pow (A.rnd K.c) 4)
  let n_independent_part := A.div (A.mul (A.mul prefac (A.pow m_c (A.div 5 3))) (A.pow (A.mul A.pi f_orb) (A.div 2 3))) dist
  let n_dependent_part := A.div (A.pow (peters_g A B n ecc) (A.div 1 2)) n
  let h_0 := A.mul n_independent_part n_dependent_part
  A.mul h_0 k

/-- `snr.snr_circ_stationary` for one source without orientation, snr.py lines 58-70; `noise` is the value of the
sensitivity curve at `2 * f_orb`. -/
noncomputable def snr_circ_stationary (B : BesselAtZero) (k k' m_c f_orb dist t_obs noise : ℝ) : ℝ :=
  let h_0_circ_2 := A.pow (h_0_n A K B k m_c f_orb 0 2 dist) 2
  let h_f_src_circ_2 := A.mul h_0_circ_2 t_obs
  let snr := A.pow (A.div h_f_src_circ_2 noise) 0.5
  A.mul snr k'

/-- `psd.approximate_response_function`, psd.py lines 53-71. -/
noncomputable def approximate_response_function (f fstar : ℝ) : ℝ :=
  A.div (A.div 3 10) (A.add 1 (A.mul (A.rnd 0.6) (A.pow (A.div f fstar) 2)))

/-- `psd.lisa_psd`, psd.py lines 74-144, for a frequency in Hz within the band, an arm length in metres (so that the
conversion of `fstar` to Hz is by 1), the approximate response and the confusion noise `cn`. The square of the cosine is a
product, as in numpy. -/
noncomputable def lisa_psd (C : Cosine) (f L cn : ℝ) : ℝ :=
  let Poms := A.mul (A.pow (A.rnd 1.5e-11) 2) (A.add 1 (A.pow (A.div (A.rnd 2e-3) f) 4))
  let Pacc := A.mul (A.mul (A.pow (A.rnd 3e-15) 2) (A.add 1 (A.pow (A.div (A.rnd 0.4e-3) f) 2)))
    (A.add 1 (A.pow (A.div f (A.rnd 8e-3)) 4))
  let fstar := A.div (A.rnd K.c) (A.mul (A.mul 2 A.pi) L)
  let R := approximate_response_function A f fstar
  let cos := C.cos (A.div f fstar)
  A.add (A.div (A.mul (A.div 1 (A.pow L 2)) (A.add Poms
    (A.div (A.mul (A.mul 2 (A.add 1 (A.mul cos cos))) Pacc) (A.pow (A.mul (A.mul 2 A.pi) f) 4)))) R) cn

/-- `psd.tianqin_psd`, psd.py lines 147-194, for a frequency in Hz, an arm length in metres (so that all conversions of
units are by 1) and the confusion noise `cn` in 1/Hz. -/
noncomputable def tianqin_psd (f L cn : ℝ) : ℝ :=
  let fstar := A.div (A.rnd K.c) (A.mul (A.mul 2 A.pi) L)
  let psd := A.mul (A.mul (A.div 10 (A.mul 3 (A.pow L 2))) (A.add (A.mul (A.div (A.mul 4 (A.rnd 1e-30))
    (A.pow (A.mul (A.mul 2 A.pi) f) 4)) (A.add 1 (A.div (A.rnd 1e-4) f))) (A.rnd 1e-24)))
    (A.add 1 (A.mul (A.rnd 0.6) (A.pow (A.div f fstar) 2)))
  A.add psd cn

/-- `psd.decigo_psd`, psd.py lines 197-272, for a frequency within the band and the confusion noise `cn`. -/
noncomputable def decigo_psd (f cn : ℝ) : ℝ :=
  let fp := A.rnd 7.36
  let Pshot := A.mul (A.rnd 6.53e-48) (A.add 1 (A.pow (A.div f fp) 2))
  let Prad := A.mul (A.mul (A.rnd 4.8e-51) (A.pow f (-4))) (A.pow (A.add 1 (A.pow (A.div f fp) 2)) (-1))
  let Pacc := A.mul (A.rnd 5.33e-52) (A.pow f (-4))
  A.add (A.add (A.add Pshot Prad) Pacc) cn

end Legwork.fl
