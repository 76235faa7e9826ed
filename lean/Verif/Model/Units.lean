import Verif.Py.Units
import Verif.Model.Utils
import Verif.Model.Psd
import Verif.Model.Strain
import Verif.Model.Evol

/-!
# The code as it is written, on quantities with units

The other files under `Verif.Model` compute with SI numbers. Here the same functions are followed on quantities, with
every conversion the code makes. Each definition is for one source (numpy applies them elementwise). Eccentricities,
harmonics and tolerances are plain numbers, as documented.
-/

namespace Legwork.units

open Real Val

/-- `astropy.constants.G`, in m³ / (kg s²). -/
noncomputable def G (K : Consts) : Val := qty ⟨K.G, ⟨1, one_pos, (-1, 3, -2)⟩⟩

/-- `astropy.constants.c`, in m / s. -/
noncomputable def c (K : Consts) : Val := qty ⟨K.c, ⟨1, one_pos, (0, 1, -1)⟩⟩

/-! ## utils.py -/

/-- `utils.chirp_mass`, utils.py lines 13-35. -/
noncomputable def chirp_mass (m_1 m_2 : Val) : Except PyErr Val := do
  let total ← m_1.add m_2
  let m_c := (m_1 * m_2) ^ (3 / 5 : ℚ) / total ^ (1 / 5 : ℚ)
  m_c.simplify Msun

/-- `utils.get_a_from_f_orb`, utils.py lines 95-123. -/
noncomputable def get_a_from_f_orb (K : Consts) (f_orb m_1 m_2 : Val) : Except PyErr Val := do
  let total ← m_1.add m_2
  let a := (G K * total / (num (2 * π) * f_orb) ^ (2 : ℚ)) ^ (1 / 3 : ℚ)
  a.simplify AU

/-- `utils.get_f_orb_from_a`, utils.py lines 126-154. -/
noncomputable def get_f_orb_from_a (K : Consts) (a m_1 m_2 : Val) : Except PyErr Val := do
  let total ← m_1.add m_2
  let f_orb := (G K * total / a ^ (3 : ℚ)) ^ (1 / 2 : ℚ) / num (2 * π)
  f_orb.simplify Hz

/-- The unit `u.m**4 / u.s`, utils.py line 177. -/
noncomputable def m4_s : PyUnit := m ^ (4 : ℚ) / s

/-- `utils.beta`, utils.py lines 157-179. -/
noncomputable def beta (K : Consts) (m_1 m_2 : Val) : Except PyErr Val := do
  let total ← m_1.add m_2
  let beta := num (64 / 5) * G K ^ (3 : ℚ) / c K ^ (5 : ℚ) * m_1 * m_2 * total
  beta.simplify m4_s

/-- `utils.c_0`, utils.py lines 182-204. -/
noncomputable def c_0 (a_i : Val) (ecc_i : ℝ) : Except PyErr Val :=
  let c_0 := a_i * num (1 - ecc_i ^ 2) * num (ecc_i ^ (-12 / 19 : ℝ))
    * num ((1 + (121 / 304) * ecc_i ^ 2) ^ (-870 / 2299 : ℝ))
  c_0.simplify AU

/-- `utils.get_a_from_ecc`, utils.py lines 207-231. -/
noncomputable def get_a_from_ecc (ecc : ℝ) (c_0 : Val) : Except PyErr Val :=
  let a := c_0 * num (ecc ^ (12 / 19 : ℝ)) / num (1 - ecc ^ 2)
    * num ((1 + (121 / 304) * ecc ^ 2) ^ (870 / 2299 : ℝ))
  a.simplify AU

/-- `utils.fn_dot`, utils.py lines 234-265, for one harmonic. -/
noncomputable def fn_dot (K : Consts) (m_c f_orb : Val) (e : ℝ) (n : ℤ) : Except PyErr Val :=
  if n < 1 then .error .ValueError
  else
    let fn_dot := num ((48 * n) / (5 * π)) * (G K * m_c) ^ (5 / 3 : ℚ) / c K ^ (5 : ℚ)
      * (num (2 * π) * f_orb) ^ (11 / 3 : ℚ) * num (utils.peters_f e)
    fn_dot.simplify (Hz / yr)

/-! ## evol.py -/

/-- `evol.check_mass_freq_input`, evol.py lines 69-116, for one binary. -/
noncomputable def check_mass_freq_input (K : Consts) (beta_ m_1 m_2 a_i f_orb_i : Option Val) :
    Except PyErr (Val × Val) := do
  let beta' ← match beta_, m_1, m_2 with
    | some b, _, _ => pure b
    | none, some m1, some m2 => beta K m1 m2
    | none, _, _ => throw .ValueError
  let a' ← match a_i, f_orb_i, m_1, m_2 with
    | some a, _, _, _ => pure a
    | none, none, _, _ => throw .ValueError
    | none, some f, some m1, some m2 => get_a_from_f_orb K f m1 m2
    | none, some _, _, _ => throw .ValueError
  pure (beta', a')

/-- `evol.get_t_merge_circ`, evol.py lines 441-475. -/
noncomputable def get_t_merge_circ (K : Consts) (beta m_1 m_2 a_i f_orb_i : Option Val) : Except PyErr Val := do
  let (beta, a_i) ← check_mass_freq_input K beta m_1 m_2 a_i f_orb_i
  let t_merge := a_i ^ (4 : ℚ) / (num 4 * beta)
  t_merge.to Gyr

/-- `evol.get_t_merge_ecc` for one binary, evol.py lines 507-556 and 600-615. -/
noncomputable def get_t_merge_ecc (K : Consts) (ecc_i : ℝ) (a_i f_orb_i beta m_1 m_2 : Option Val)
    (small_e_tol large_e_tol : ℝ) (exact : Bool) : Except PyErr Val := do
  let (beta, a_i) ← check_mass_freq_input K beta m_1 m_2 a_i f_orb_i
  if ecc_i = 0 then get_t_merge_circ K (some beta) none none (some a_i) none
  else
    let c0 ← c_0 a_i ecc_i
    if ecc_i < small_e_tol then
      (c0 ^ (4 : ℚ) / (num 4 * beta) * num (ecc_i ^ (48 / 19 : ℝ))).to Gyr
    else if ecc_i > large_e_tol then
      (c0 ^ (4 : ℚ) / (num 4 * beta) * num (ecc_i ^ (48 / 19 : ℝ)) * num (768 / 425)
        * num ((1 - ecc_i ^ 2) ^ (-1 / 2 : ℝ)) * num ((1 + 121 / 304 * ecc_i ^ 2) ^ (3480 / 2299 : ℝ))).to Gyr
    else if exact then
      (num (12 / 19) * c0 ^ (4 : ℚ) / beta * num (∫ x in (0 : ℝ)..ecc_i, evol.peters_5_14 x)).to Gyr
    else do
      let t ← get_t_merge_circ K (some beta) none none (some a_i) none
      (t * num (evol.t_merge_mandel_fit ecc_i)).to Gyr

open Classical in
/-- `evol.evolve_f_orb_circ`, evol.py lines 618-659, for one binary. Comparing with `0.0` needs no unit; writing into
the array made from `merge_f` converts to its unit. When `inner_part` is exactly 0 numpy's result is infinite, which is
not a `Val`: that case is covered by the model on SI values only. -/
noncomputable def evolve_f_orb_circ (K : Consts) (f_orb_i m_c t_evol : Val) (ecc_i : ℝ) (merge_f : Quantity) :
    Except PyErr Val := do
  let inner_part ← (f_orb_i ^ (-8 / 3 : ℚ)).sub
    (num ((2 : ℝ) ^ (32 / 3 : ℝ) * π ^ (8 / 3 : ℝ)) * t_evol / (num 5 * c K ^ (5 : ℚ))
      * (G K * m_c) ^ (5 / 3 : ℚ) * num (utils.peters_f ecc_i))
  let inner ← inner_part.value
  if inner ≥ 0 then (inner_part ^ (-3 / 8 : ℚ)).to merge_f.unit else pure (qty merge_f)

/-- The default `merge_f=1e9 * u.Hz`, evol.py line 618. -/
noncomputable def merge_f_default : Quantity := ⟨1e9, Hz⟩

open Classical in
/-- `v <= x` for a plain number `x` (other than 0): requires a value without dimension. -/
noncomputable def Val.le_num (v : Val) (x : ℝ) : Except PyErr Bool :=
  match v with
  | .num y => .ok (decide (y ≤ x))
  | .qty q => if q.unit.dim = 0 then .ok (decide (q.value * q.unit.scale ≤ x)) else .error .UnitConversionError

/-- `evol.determine_stationarity`, evol.py lines 662-709, for one binary. -/
noncomputable def determine_stationarity (K : Consts) (f_orb_i t_evol : Val) (ecc_i : ℝ) (m_1 m_2 m_c : Option Val)
    (stat_tol : ℝ) : Except PyErr Bool := do
  let m_c ← match m_c, m_1, m_2 with
    | some m, _, _ => pure m
    | none, some m1, some m2 => chirp_mass m1 m2
    | none, _, _ => throw .ValueError
  let f_orb_f ← evolve_f_orb_circ K f_orb_i m_c t_evol ecc_i merge_f_default
  let diff ← f_orb_f.sub f_orb_i
  (diff / f_orb_i).le_num stat_tol

/-! ## strain.py -/

/-- One element of `strain.h_0_n` without orientation, strain.py lines 120-146: `decompose().value` at the end. -/
noncomputable def h_0 (K : Consts) (ig : Option (ℤ → ℝ → ℝ)) (m_c dist f_orb : Val) (ecc : ℝ) (n : ℤ) :
    Except PyErr ℝ :=
  let prefac := num ((2 ^ (28 / 3 : ℝ) / 5) ^ (0.5 : ℝ)) * G K ^ (5 / 3 : ℚ) / c K ^ (4 : ℚ)
  let n_independent_part := prefac * m_c ^ (5 / 3 : ℚ) * (num π * f_orb) ^ (2 / 3 : ℚ) / dist
  let n_dependent_part := strain.g_vals ig n ecc ^ (1 / 2 : ℝ) / n
  (n_independent_part * num n_dependent_part).decompose_value

/-- One element of `strain.h_c_n` without orientation, strain.py lines 212-238. -/
noncomputable def h_c (K : Consts) (ig : Option (ℤ → ℝ → ℝ)) (m_c dist f_orb : Val) (ecc : ℝ) (n : ℤ) :
    Except PyErr ℝ :=
  let prefac := num ((2 ^ (5 / 3 : ℝ) / (3 * π ^ (4 / 3 : ℝ))) ^ (0.5 : ℝ)) * G K ^ (5 / 6 : ℚ) / c K ^ (3 / 2 : ℚ)
  let n_independent_part := prefac * m_c ^ (5 / 6 : ℚ) / dist * f_orb ^ (-1 / 6 : ℚ)
    / num (utils.peters_f ecc ^ (0.5 : ℝ))
  let n_dependent_part := (strain.g_vals ig n ecc / n) ^ (1 / 2 : ℝ)
  (n_independent_part * num n_dependent_part).decompose_value

/-! ## psd.py -/

/-- The unit `1 / u.Hz`. -/
noncomputable def perHz : PyUnit := one / Hz

/-- `f.to(u.Hz).value`. -/
noncomputable def Val.valueIn (v : Val) (u : PyUnit) : Except PyErr ℝ := do (← v.to u).value

/-- The number in `np.abs(v)`. -/
noncomputable def Val.abs_number (v : Val) : ℝ :=
  match v with
  | .num x => |x|
  | .qty q => |q.value|

/-- `np.abs(t_obs - lengths).argmin()` with `lengths` in years, psd.py lines 365-371 and 404-418: the differences are
taken in the unit of `t_obs`. -/
noncomputable def nearest_length (years : List ℝ) (t_obs : Val) : Except PyErr ℕ := do
  let diffs ← years.mapM fun y => t_obs.sub (qty ⟨y, yr⟩)
  pure (psd.argmin (diffs.map Val.abs_number))

/-- `psd.get_confusion_noise_robson19`, psd.py lines 342-378; the result is in 1/Hz. -/
noncomputable def get_confusion_noise_robson19 (f t_obs : Val) : Except PyErr Val := do
  let f ← f.valueIn Hz
  let alpha := [0.133, 0.171, 0.165, 0.138]
  let beta := [243.0, 292.0, 299.0, -221.0]
  let kappa := [482.0, 1020.0, 611.0, 521.0]
  let gamma := [917.0, 1680.0, 1340.0, 1680.0]
  let fk := [2.58e-3, 2.15e-3, 1.73e-3, 1.13e-3]
  let ind ← nearest_length [0.5, 1.0, 2.0, 4.0] t_obs
  pure (qty ⟨9e-45 * f ^ (-7 / 3 : ℝ)
    * exp (-f ^ psd.at' alpha ind + psd.at' beta ind * f * sin (psd.at' kappa ind * f))
    * (1 + tanh (psd.at' gamma ind * (psd.at' fk ind - f))), perHz⟩)

open Classical in
/-- `psd.get_confusion_noise_huang20`, psd.py lines 381-432: the noise is computed in Hz^(-1/2) and squared. -/
noncomputable def get_confusion_noise_huang20 (f t_obs : Val) : Except PyErr Val := do
  let ind ← nearest_length [0.5, 1.0, 2.0, 4.0, 5.0] t_obs
  let f ← f.valueIn Hz
  let x := logb 10 (f / 1e-3)
  let expo := psd.huang_coefficients.zipIdx.foldl (fun acc (row, i) => acc + psd.at' row ind * x ^ i) 0
  let noise := (10 : ℝ) ^ expo
  let noise := if f < 1e-4 ∨ f > 1e0 then 0.0 else noise
  pure (qty ⟨noise, Hz ^ (-1 / 2 : ℚ)⟩ ^ (2 : ℚ))

/-- `psd.get_confusion_noise_thiele21`, psd.py lines 435-455. -/
noncomputable def get_confusion_noise_thiele21 (f : Val) : Except PyErr Val := do
  let x := logb 10 (← f.valueIn Hz)
  let t_obs := qty ⟨4, yr⟩
  let coefficients := [-540.315450, -554.061115, -233.748834, -44.021504, -3.112634]
  pure (qty ⟨(10 : ℝ) ^ psd.poly1d coefficients.reverse x * (← t_obs.valueIn s), perHz⟩)

/-- `psd.get_confusion_noise_karnesis21`, psd.py lines 458-496. -/
noncomputable def get_confusion_noise_karnesis21 (f t_obs : Val) : Except PyErr Val := do
  let f ← f.valueIn Hz
  let t_obs ← t_obs.valueIn yr
  let a_1 : ℝ := -0.15
  let a_k : ℝ := -0.37
  let b_1 : ℝ := -2.72
  let b_k : ℝ := -2.49
  let A : ℝ := 1.15e-44
  let f_2 : ℝ := 0.00067
  let alpha : ℝ := 1.56
  let f_1 := t_obs ^ a_1 * (10 : ℝ) ^ b_1
  let f_knee := t_obs ^ a_k * (10 : ℝ) ^ b_k
  pure (qty ⟨A / 2 * f ^ (-7 / 3 : ℝ) * exp (-(f / f_1) ^ alpha) * (1 + tanh ((f_knee - f) / f_2)), perHz⟩)

open Classical in
/-- `t_obs == 4 * u.yr`: false for other dimensions and plain numbers. -/
noncomputable def four_years (t_obs : Val) : Bool :=
  match t_obs with
  | .num _ => false
  | .qty q => decide (q.unit.dim = yr.dim ∧ q.value * q.unit.scale = 4 * yr.scale)

/-- `psd.get_confusion_noise`, psd.py lines 499-541. Observation times are given (the string `"auto"` is replaced before
in `power_spectral_density`). -/
noncomputable def get_confusion_noise (f t_obs : Val) (model : Option String) : Except PyErr Val :=
  match model with
  | some m =>
    if m = "robson19" then get_confusion_noise_robson19 f t_obs
    else if m = "huang20" then get_confusion_noise_huang20 f t_obs
    else if m = "thiele21" then
      if four_years t_obs then get_confusion_noise_thiele21 f else throw .ValueError
    else if m = "karnesis21" then get_confusion_noise_karnesis21 f t_obs
    else throw .ValueError
  | none => do
    let _ ← f.valueIn Hz
    pure (qty ⟨0, perHz⟩)

/-- A `confusion_noise` argument: a name or `None`, or a user supplied function. -/
inductive Noise
  | model (name : Option String)
  | fn (noise : Val → Val → Except PyErr Val)

/-- The value of the confusion noise used by `lisa_psd` and `decigo_psd`, psd.py lines 131-134 and 261-264: the
`.value` of whatever is returned. -/
noncomputable def noise_bare (f : ℝ) (t_obs : Val) : Noise → Except PyErr ℝ
  | .model name => do (← get_confusion_noise (qty ⟨f, Hz⟩) t_obs name).value
  | .fn noise => do (← noise (num f) t_obs).value

open Classical in
/-- `psd.lisa_psd`, psd.py lines 74-144. The result is the number of 1/Hz. -/
noncomputable def lisa_psd (K : Consts) (env : psd.Env) (f t_obs L : Val) (approximate_R : Bool)
    (confusion_noise : Noise) : Except PyErr (WithTop ℝ) := do
  let f ← f.valueIn Hz
  let MIN_F : ℝ := 1e-7
  let MAX_F : ℝ := 2e0
  let f := if f ≥ MIN_F ∧ f ≤ MAX_F then f else 1e-8
  let fstar ← (c K / (num (2 * π) * L)).valueIn Hz
  let R ← psd.lisa_response env approximate_R f fstar
  let cn ← noise_bare f t_obs confusion_noise
  let L ← L.valueIn m
  let psd : ℝ := (1 / L ^ 2 * (psd.lisa_Poms f + 2 * (1 + cos (f / fstar) ^ 2) * psd.lisa_Pacc f / (2 * π * f) ^ 4)) / R
    + cn
  pure (if f ≥ MIN_F ∧ f ≤ MAX_F then (psd : WithTop ℝ) else ⊤)

/-- `psd.tianqin_psd`, psd.py lines 147-194: computed with units throughout. -/
noncomputable def tianqin_psd (K : Consts) (f L t_obs : Val) (confusion_noise : Noise) : Except PyErr Val := do
  let fstar := c K / (num (2 * π) * L)
  let Sa := qty ⟨1e-30, m ^ (2 : ℚ) * s ^ (-4 : ℚ) * Hz ^ (-1 : ℚ)⟩
  let Sx := qty ⟨1e-24, m ^ (2 : ℚ) * Hz ^ (-1 : ℚ)⟩
  let one_plus ← (num 1).add (qty ⟨1e-4, Hz⟩ / f)
  let noise ← (num 4 * Sa / (num (2 * π) * f) ^ (4 : ℚ) * one_plus).add Sx
  let response ← (num 1).add (num 0.6 * (f / fstar) ^ (2 : ℚ))
  let psd := num 10 / (num 3 * L ^ (2 : ℚ)) * noise * response
  let cn ← match confusion_noise with
    | .model name => get_confusion_noise f t_obs name
    | .fn noise => noise f t_obs
  let psd ← psd.add cn
  psd.to (Hz ^ (-1 : ℚ))

open Classical in
/-- `psd.decigo_psd`, psd.py lines 197-272. The result is the number of 1/Hz. -/
noncomputable def decigo_psd (f t_obs : Val) (confusion_noise : Noise) (f_low f_high : Val) :
    Except PyErr (WithTop ℝ) := do
  let f ← f.valueIn Hz
  let MIN_F ← f_low.valueIn Hz
  let MAX_F ← f_high.valueIn Hz
  let f := if f ≥ MIN_F ∧ f ≤ MAX_F then f else 1e-8
  let Pshot := 6.53e-48 * (1 + (f / psd.decigo_fp) ^ 2)
  let Prad := 4.8e-51 * f ^ (-4 : ℤ) * (1 + (f / psd.decigo_fp) ^ 2) ^ (-1 : ℤ)
  let Pacc := 5.33e-52 * f ^ (-4 : ℤ)
  let cn ← noise_bare f t_obs confusion_noise
  let psd : ℝ := Pshot + Prad + Pacc + cn
  pure (if f ≥ MIN_F ∧ f ≤ MAX_F then (psd : WithTop ℝ) else ⊤)

end Legwork.units
