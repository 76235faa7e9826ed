import Mathlib.Analysis.SpecialFunctions.Pow.Real
import Mathlib.Analysis.SpecialFunctions.Log.Base
import Mathlib.Analysis.SpecialFunctions.Trigonometric.DerivHyp
import Mathlib.Order.WithBot
import Verif.Py.Basic
import Verif.Model.Consts

/-!
# Model of `src/legwork/psd.py`

All functions are elementwise in the frequency, so they are modelled at one frequency. Frequencies are in Hz, times
in seconds, lengths in metres, spectral densities in 1/Hz; an infinite density is `⊤ : WithTop ℝ`.
-/

namespace Legwork.psd

open Real

/-- Seconds in a year (`astropy.units.yr`). -/
noncomputable def yr : ℝ := 31557600

/-- A time argument: the string `"auto"` or a time. -/
inductive TimeArg
  | auto
  | val (t : ℝ)

/-- A length argument: the string `"auto"` or a length. -/
inductive LenArg
  | auto
  | val (l : ℝ)

/-- A frequency as handed to a user supplied function: with units or as a bare number. -/
inductive FreqArg
  | quantity (f : ℝ)
  | bare (f : ℝ)

/-- A `confusion_noise` argument: `None`, a name (including `"auto"`), or a user supplied function of frequency and
observation time, which may fail. -/
inductive NoiseArg
  | none
  | name (s : String)
  | fn (noise : FreqArg → TimeArg → Except PyErr ℝ)

/-- `confusion_noise == "auto"`: the default `d` replaces the name `auto` only. -/
def NoiseArg.resolve (d : String) : NoiseArg → NoiseArg
  | .name s => if s = "auto" then .name d else .name s
  | n => n

/-- `t if t != "auto" else d`. -/
def TimeArg.resolve (d : ℝ) : TimeArg → ℝ
  | .auto => d
  | .val t => t

/-- `L if L != "auto" else d`. -/
def LenArg.resolve (d : ℝ) : LenArg → ℝ
  | .auto => d
  | .val l => l

/-- The interpolation table stored in `R.npy`. -/
abbrev RTable := List ℝ × List ℝ

/-- `psd.approximate_response_function`, psd.py lines 53-71. -/
noncomputable def approximate_response_function (f fstar : ℝ) : ℝ := (3 / 10) / (1 + 0.6 * (f / fstar) ^ 2)

/-- `psd.load_response_function`, psd.py lines 18-50. `file` is the outcome of `np.load`; `spline xs ys f` is
`splev(f, splrep(xs, ys, s=0), der=0)`. Only `FileExistsError` is caught (line 42). -/
noncomputable def load_response_function (file : Except PyErr RTable) (spline : List ℝ → List ℝ → ℝ → ℝ)
    (f fstar : ℝ) : Except PyErr ℝ :=
  match file with
  | .error .FileExistsError => pure (approximate_response_function f fstar)
  | .error e => throw e
  | .ok (f_R, R) => pure (spline (f_R.map (· * fstar)) R f)

/-- `np.argmin`: index of the first smallest entry. -/
noncomputable def argmin : List ℝ → ℕ
  | [] => 0
  | x :: xs =>
    match xs[argmin xs]? with
    | some v => if v < x then argmin xs + 1 else 0
    | none => 0

/-- `np.abs(t_obs - lengths).argmin()`, psd.py lines 371 and 418. -/
noncomputable def nearest_length (lengths : List ℝ) (t_obs : ℝ) : ℕ := argmin (lengths.map fun l => |t_obs - l|)

/-- `xs[i]` for an index known to be valid. -/
noncomputable def at' (xs : List ℝ) (i : ℕ) : ℝ := xs.getD i 0

/-- `psd.get_confusion_noise_robson19`, psd.py lines 342-378. -/
noncomputable def get_confusion_noise_robson19 (f t_obs : ℝ) : ℝ :=
  let lengths := [0.5, 1.0, 2.0, 4.0].map (· * yr)
  let alpha := [0.133, 0.171, 0.165, 0.138]
  let beta := [243.0, 292.0, 299.0, -221.0]
  let kappa := [482.0, 1020.0, 611.0, 521.0]
  let gamma := [917.0, 1680.0, 1340.0, 1680.0]
  let fk := [2.58e-3, 2.15e-3, 1.73e-3, 1.13e-3]
  let ind := nearest_length lengths t_obs
  9e-45 * f ^ (-7 / 3 : ℝ) * exp (-f ^ at' alpha ind + at' beta ind * f * sin (at' kappa ind * f))
    * (1 + tanh (at' gamma ind * (at' fk ind - f)))

/-- The coefficients in `get_confusion_noise_huang20`, psd.py lines 407-415. -/
noncomputable def huang_coefficients : List (List ℝ) :=
  [[-18.6, -18.6, -18.6, -18.6, -18.6],
   [-1.22, -1.13, -1.45, -1.43, -1.51],
   [0.009, -0.945, 0.315, -0.687, -0.71],
   [-1.87, -1.02, -1.19, 0.24, -1.13],
   [0.65, 4.05, -4.48, -0.15, -0.83],
   [3.6, -4.5, 10.8, -1.8, 13.2],
   [-4.6, -0.5, -9.4, -3.2, -19.1]]

open Classical in
/-- `psd.get_confusion_noise_huang20`, psd.py lines 381-432. -/
noncomputable def get_confusion_noise_huang20 (f t_obs : ℝ) : ℝ :=
  let lengths := [0.5, 1.0, 2.0, 4.0, 5.0].map (· * yr)
  let ind := nearest_length lengths t_obs
  let x := logb 10 (f / 1e-3)
  let expo := huang_coefficients.zipIdx.foldl (fun acc (row, i) => acc + at' row ind * x ^ i) 0
  let noise := (10 : ℝ) ^ expo
  let noise := if f < 1e-4 ∨ f > 1e0 then 0.0 else noise
  noise ^ 2

/-- `np.poly1d(coefficients)(x)`, highest power first, by Horner's rule. -/
noncomputable def poly1d (coefficients : List ℝ) (x : ℝ) : ℝ := coefficients.foldl (fun acc c => acc * x + c) 0

/-- `psd.get_confusion_noise_thiele21`, psd.py lines 435-455. -/
noncomputable def get_confusion_noise_thiele21 (f : ℝ) : ℝ :=
  let x := logb 10 f
  let t_obs := 4 * yr
  let coefficients := [-540.315450, -554.061115, -233.748834, -44.021504, -3.112634]
  (10 : ℝ) ^ poly1d coefficients.reverse x * t_obs

/-- `psd.get_confusion_noise_karnesis21`, psd.py lines 458-496. -/
noncomputable def get_confusion_noise_karnesis21 (f t_obs : ℝ) : ℝ :=
  let t_obs := t_obs / yr
  let a_1 : ℝ := -0.15
  let a_k : ℝ := -0.37
  let b_1 : ℝ := -2.72
  let b_k : ℝ := -2.49
  let A : ℝ := 1.15e-44
  let f_2 : ℝ := 0.00067
  let alpha : ℝ := 1.56
  let f_1 := t_obs ^ a_1 * (10 : ℝ) ^ b_1
  let f_knee := t_obs ^ a_k * (10 : ℝ) ^ b_k
  A / 2 * f ^ (-7 / 3 : ℝ) * exp (-(f / f_1) ^ alpha) * (1 + tanh ((f_knee - f) / f_2))

open Classical in
/-- `psd.get_confusion_noise`, psd.py lines 499-541; `none` is the model `None`. -/
noncomputable def get_confusion_noise (f : ℝ) (model : Option String) (t_obs : TimeArg) : Except PyErr ℝ :=
  match model with
  | some m =>
    if m = "robson19" then pure (get_confusion_noise_robson19 f (t_obs.resolve (4 * yr)))
    else if m = "huang20" then pure (get_confusion_noise_huang20 f (t_obs.resolve (5 * yr)))
    else if m = "thiele21" then
      if t_obs.resolve (4 * yr) = 4 * yr then pure (get_confusion_noise_thiele21 f) else throw .ValueError
    else if m = "karnesis21" then pure (get_confusion_noise_karnesis21 f (t_obs.resolve (4 * yr)))
    else throw .ValueError
  | none => pure 0

/-- The choice made in `lisa_psd` and `decigo_psd` (psd.py lines 129-133 and 257-261): user functions receive the
frequency as a bare number. -/
noncomputable def noise_bare (f : ℝ) (t_obs : TimeArg) : NoiseArg → Except PyErr ℝ
  | .none => get_confusion_noise f none t_obs
  | .name s => get_confusion_noise f (some s) t_obs
  | .fn g => g (.bare f) t_obs

/-- The choice made in `tianqin_psd` (psd.py lines 187-191): user functions receive the frequency with units. -/
noncomputable def noise_quantity (f : ℝ) (t_obs : TimeArg) : NoiseArg → Except PyErr ℝ
  | .none => get_confusion_noise f none t_obs
  | .name s => get_confusion_noise f (some s) t_obs
  | .fn g => g (.quantity f) t_obs

/-- Optical metrology noise, psd.py lines 114-115. -/
noncomputable def lisa_Poms (f : ℝ) : ℝ := 1.5e-11 ^ 2 * (1 + (2e-3 / f) ^ 4)

/-- Test mass acceleration noise, psd.py lines 118-119. -/
noncomputable def lisa_Pacc (f : ℝ) : ℝ := 3e-15 ^ 2 * (1 + (0.4e-3 / f) ^ 2) * (1 + (f / 8e-3) ^ 4)

/-- The environment of the PSD functions: the response file and the spline routine. -/
structure Env where
  file : Except PyErr RTable
  spline : List ℝ → List ℝ → ℝ → ℝ

/-- The choice of response function, psd.py lines 121-126. -/
noncomputable def lisa_response (env : Env) (approximate_R : Bool) (f fstar : ℝ) : Except PyErr ℝ :=
  if approximate_R then pure (approximate_response_function f fstar)
  else load_response_function env.file env.spline f fstar

open Classical in
/-- `psd.lisa_psd`, psd.py lines 74-144. Division by a response of 0 is not modelled (theorems assume a positive
response). -/
noncomputable def lisa_psd (K : Consts) (env : Env) (f : ℝ) (t_obs : TimeArg) (L : ℝ) (approximate_R : Bool)
    (confusion_noise : NoiseArg) : Except PyErr (WithTop ℝ) := do
  let MIN_F : ℝ := 1e-7
  let MAX_F : ℝ := 2e0
  let f := if f ≥ MIN_F ∧ f ≤ MAX_F then f else 1e-8
  let fstar := K.c / (2 * π * L)
  let R ← lisa_response env approximate_R f fstar
  let cn ← noise_bare f t_obs confusion_noise
  let psd : ℝ := (1 / L ^ 2 * (lisa_Poms f + 2 * (1 + cos (f / fstar) ^ 2) * lisa_Pacc f / (2 * π * f) ^ 4)) / R + cn
  pure (if f ≥ MIN_F ∧ f ≤ MAX_F then (psd : WithTop ℝ) else ⊤)

/-- `psd.tianqin_psd`, psd.py lines 147-194, for `f ≠ 0` (at 0 python's division gives infinity). -/
noncomputable def tianqin_psd (K : Consts) (f L : ℝ) (t_obs : TimeArg) (confusion_noise : NoiseArg) :
    Except PyErr (WithTop ℝ) := do
  let fstar := K.c / (2 * π * L)
  let Sa : ℝ := 1e-30
  let Sx : ℝ := 1e-24
  let psd : ℝ := 10 / (3 * L ^ 2) * (4 * Sa / (2 * π * f) ^ 4 * (1 + 1e-4 / f) + Sx) * (1 + 0.6 * (f / fstar) ^ 2)
  let cn ← noise_quantity f t_obs confusion_noise
  let psd : ℝ := psd + cn
  pure (psd : WithTop ℝ)

/-- The scaling frequency in `decigo_psd`, psd.py line 235. -/
noncomputable def decigo_fp : ℝ := 7.36

open Classical in
/-- `psd.decigo_psd`, psd.py lines 197-272. -/
noncomputable def decigo_psd (f : ℝ) (t_obs : TimeArg) (confusion_noise : NoiseArg) (f_low f_high : ℝ) :
    Except PyErr (WithTop ℝ) := do
  let f := if f ≥ f_low ∧ f ≤ f_high then f else 1e-8
  let Pshot := 6.53e-48 * (1 + (f / decigo_fp) ^ 2)
  let Prad := 4.8e-51 * f ^ (-4 : ℤ) * (1 + (f / decigo_fp) ^ 2) ^ (-1 : ℤ)
  let Pacc := 5.33e-52 * f ^ (-4 : ℤ)
  let cn ← noise_bare f t_obs confusion_noise
  let psd : ℝ := Pshot + Prad + Pacc + cn
  pure (if f ≥ f_low ∧ f ≤ f_high then (psd : WithTop ℝ) else ⊤)

/-- A user supplied `custom_psd`, called with the raw arguments `f, L, t_obs, approximate_R, confusion_noise`. -/
abbrev CustomPsd := ℝ → LenArg → TimeArg → Bool → NoiseArg → Except PyErr (WithTop ℝ)

/-- `psd.power_spectral_density`, psd.py lines 275-339. Calling `custom_psd=None` is a `TypeError`. -/
noncomputable def power_spectral_density (K : Consts) (env : Env) (f : ℝ) (instrument : String)
    (custom_psd : Option CustomPsd) (t_obs : TimeArg) (L : LenArg) (approximate_R : Bool)
    (confusion_noise : NoiseArg) : Except PyErr (WithTop ℝ) :=
  if instrument = "LISA" then
    lisa_psd K env f (.val (t_obs.resolve (4 * yr))) (L.resolve 2.5e9) approximate_R
      (confusion_noise.resolve "karnesis21")
  else if instrument = "TianQin" then
    tianqin_psd K f (L.resolve (sqrt 3 * 1e5 * 1000)) (.val (t_obs.resolve (5 * yr)))
      (confusion_noise.resolve "huang20")
  else if instrument = "DECIGO" then
    decigo_psd f (.val (t_obs.resolve (4 * yr))) (confusion_noise.resolve "karnesis21") 1e-3 1e2
  else if instrument = "custom" then
    match custom_psd with
    | some p => p f L t_obs approximate_R confusion_noise
    | none => throw .TypeError
  else throw .ValueError

end Legwork.psd
