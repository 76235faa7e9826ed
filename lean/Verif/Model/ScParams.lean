import Verif.Py.Numpy
import Verif.Model.Snr
import Verif.Model.Harmonics

/-!
# Sensitivity curve parameters and the interpolated curve

`src/legwork/source.py` lines 30-37 (defaults), 641-658 (`set_sc`) and 1518-1590 (`SensitivityCurveParams`).
A python dictionary is an association list without repeated keys.
-/

namespace Legwork.source

open Legwork.utils

/-- Python objects that occur as values of sensitivity curve parameters. Times are in seconds, lengths in metres; a
number is one without a unit.
User supplied functions are compared by identity in python, so they are given by a name; what the named functions
compute is in `World`. -/
inductive PVal
  | none
  | str (s : String)
  | bool (b : Bool)
  | num (x : ℝ)
  | time (t : ℝ)
  | length (l : ℝ)
  | psdFn (name : ℕ)
  | noiseFn (name : ℕ)

/-- A dictionary from strings to such values. -/
abbrev Dict := List (String × PVal)

namespace Dict

/-- `d.get(key)`, with Python's `None` for a missing key kept apart. -/
def get? (d : Dict) (key : String) : Option PVal := d.lookup key

/-- `d.get(key)`: `None` for a missing key. -/
def get (d : Dict) (key : String) : PVal := (d.get? key).getD .none

/-- `d[key]`: `KeyError` for a missing key. -/
def item (d : Dict) (key : String) : Except PyErr PVal :=
  match d.get? key with
  | some v => pure v
  | none => throw .KeyError

/-- `dict.__setitem__`: an existing key keeps its place. -/
def set (d : Dict) (key : String) (v : PVal) : Dict :=
  match d with
  | [] => [(key, v)]
  | (k, w) :: rest => if k = key then (key, v) :: rest else (k, w) :: set rest key v

/-- `dict.update`. -/
def update (d : Dict) (kvs : Dict) : Dict := kvs.foldl (fun d kv => d.set kv.1 kv.2) d

/-- `dict(pairs)`: later pairs win. -/
def ofPairs (kvs : Dict) : Dict := update [] kvs

/-- The keys in order. -/
def keys (d : Dict) : List String := d.map Prod.fst

/-- `d == d'` on dictionaries: same keys with equal values, in any order. -/
def eq (d d' : Dict) : Prop := ∀ key, d.get? key = d'.get? key

end Dict

/-- `DEFAULT_SC_PARAMS`, source.py lines 30-37. -/
def DEFAULT_SC_PARAMS : Dict :=
  [("instrument", .str "LISA"), ("custom_psd", .none), ("t_obs", .str "auto"), ("L", .str "auto"),
   ("approximate_R", .bool false), ("confusion_noise", .str "auto")]

/-- `SensitivityCurveParams._check_keys`, source.py lines 1551-1558. -/
def check_keys (keys : List String) : Except PyErr Unit :=
  let unknown_keys := keys.filter fun key => decide (key ∉ DEFAULT_SC_PARAMS.keys)
  if unknown_keys.length > 0 then throw .KeyError else pure ()

/-- The dictionary built by `SensitivityCurveParams.__init__`, source.py lines 1543-1549. `none` is the default
argument `params=None`. -/
def filled_params (params : Option Dict) : Except PyErr Dict := do
  let filled := DEFAULT_SC_PARAMS
  match params with
  | none => pure filled
  | some params =>
    check_keys params.keys
    pure (filled.update params)

/-- What the code gets from outside: constants, the response file, the table `harmonics.npz`, the splines built from
`peters_g.npy` by `RectBivariateSpline`, `odeint`, the completion order of worker processes for a given number of
tasks, the user functions by name, and the transformation of a sky position to the barycentric true ecliptic frame
(longitude, latitude). -/
structure World where
  K : Consts
  env : psd.Env
  table : LumTable
  gSpline : ℤ → ℝ → ℝ
  odeint : evol.Odeint
  schedule : ℕ → List ℕ
  psdFns : ℕ → psd.CustomPsd
  noiseFns : ℕ → psd.FreqArg → psd.TimeArg → Except PyErr ℝ

/-- A `t_obs` argument. A value of another kind fails inside the PSD functions, simplified to `TypeError`. -/
def asTime : PVal → Except PyErr psd.TimeArg
  | .str s => if s = "auto" then pure .auto else throw .TypeError
  | .time t => pure (.val t)
  | _ => throw .TypeError

/-- An arm length argument, likewise. -/
def asLength : PVal → Except PyErr psd.LenArg
  | .str s => if s = "auto" then pure .auto else throw .TypeError
  | .length l => pure (.val l)
  | _ => throw .TypeError

/-- `if approximate_R:`; only booleans are modelled. -/
def asBool : PVal → Except PyErr Bool
  | .bool b => pure b
  | _ => throw .TypeError

/-- A confusion noise argument. -/
def asNoise (W : World) : PVal → Except PyErr psd.NoiseArg
  | .none => pure .none
  | .str s => pure (.name s)
  | .noiseFn i => pure (.fn (W.noiseFns i))
  | _ => throw .TypeError

/-- A custom PSD argument. -/
def asPsd (W : World) : PVal → Except PyErr (Option psd.CustomPsd)
  | .none => pure none
  | .psdFn i => pure (some (W.psdFns i))
  | _ => throw .TypeError

/-- An instrument argument: something other than a string equals none of the known names (`ValueError`). -/
def asInstrument : PVal → Except PyErr String
  | .str s => pure s
  | _ => throw .ValueError

/-- The keyword arguments other than `t_obs`, interpreted. -/
def asKw (W : World) (instrument custom_psd L approximate_R confusion_noise : PVal) : Except PyErr snr.PsdKw := do
  let instrument ← asInstrument instrument
  let custom_psd ← asPsd W custom_psd
  let L ← asLength L
  let approximate_R ← asBool approximate_R
  let confusion_noise ← asNoise W confusion_noise
  pure ⟨instrument, custom_psd, L, approximate_R, confusion_noise⟩

/-- The call `psd.power_spectral_density(f, **d)`: an unknown keyword is a `TypeError`, a missing one takes the
default in the signature of `power_spectral_density` (psd.py lines 275-276). -/
noncomputable def psd_of_dict (W : World) (d : Dict) (f : ℝ) : Except PyErr (WithTop ℝ) :=
  if d.keys.any fun key => decide (key ∉ DEFAULT_SC_PARAMS.keys) then throw .TypeError
  else do
    let arg := fun key (dflt : PVal) => (d.get? key).getD dflt
    let kw ← asKw W (arg "instrument" (.str "LISA")) (arg "custom_psd" .none) (arg "L" (.str "auto"))
      (arg "approximate_R" (.bool false)) (arg "confusion_noise" (.str "auto"))
    let t_obs ← asTime (arg "t_obs" (.str "auto"))
    psd.power_spectral_density W.K W.env f kw.instrument kw.custom_psd t_obs kw.L kw.approximate_R kw.confusion_noise

/-- `np.logspace(a, b, n)` -/
noncomputable def logspace (a b : ℝ) (n : ℕ) : List ℝ :=
  (List.range n).map fun i : ℕ => (10 : ℝ) ^ (a + (i : ℝ) * ((b - a) / ((n : ℝ) - 1)))

/-- The grid of the interpolated sensitivity curve, source.py line 649. -/
noncomputable def frequency_range : List ℝ := logspace (-7) (Real.logb 10 2) 10000

open Classical in
/-- One cell of `np.interp` when values may be infinite: exact at the points, linear between finite values, infinite
next to an infinite value. -/
noncomputable def sc_cell (x₀ : ℝ) (y₀ : WithTop ℝ) (x₁ : ℝ) (y₁ : WithTop ℝ) (x : ℝ) : WithTop ℝ :=
  if x = x₀ then y₀ else if x = x₁ then y₁ else
    match y₀, y₁ with
    | (a : ℝ), (b : ℝ) => ((np.line x₀ a x₁ b x : ℝ) : WithTop ℝ)
    | _, _ => ⊤

/-- `interp1d(x, y, bounds_error=False, fill_value=1e30)`, source.py line 653. -/
noncomputable def interp_sc (points : List (ℝ × WithTop ℝ)) (x : ℝ) : WithTop ℝ :=
  match points.head?, points.getLast? with
  | some (x₀, _), some (x₁, _) =>
    if x < x₀ then ((1e30 : ℝ) : WithTop ℝ) else if x₁ < x then ((1e30 : ℝ) : WithTop ℝ)
    else np.interpWith ((1e30 : ℝ) : WithTop ℝ) sc_cell points x
  | _, _ => ((1e30 : ℝ) : WithTop ℝ)

/-- The interpolated sensitivity curve for given parameters, source.py lines 648-656. -/
noncomputable def curve (W : World) (d : Dict) : Except PyErr (ℝ → WithTop ℝ) := do
  let sc ← frequency_range.mapM fun f => psd_of_dict W d f
  pure (interp_sc (frequency_range.zip sc))

end Legwork.source
