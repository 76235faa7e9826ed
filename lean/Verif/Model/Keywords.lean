import Verif.Model.Source

/-!
# Calls of `get_snr` by keyword

How Python binds the keyword arguments of `sources.get_snr(...)`: the three classes that define this method have different
parameters. Only calls by keyword are modelled, not arguments given by position.
-/

namespace Legwork.source

open PyM hiding bind

/-- The keyword arguments given in a call of `get_snr`; `none` for those left out. -/
structure SnrKeywords where
  t_obs : Option PVal := none
  instrument : Option PVal := none
  custom_psd : Option PVal := none
  L : Option PVal := none
  approximate_R : Option PVal := none
  confusion_noise : Option PVal := none
  n_step : Option ℕ := none
  verbose : Option Bool := none
  which_sources : Option (Option (List Bool)) := none

/-- The names of the arguments given. -/
def SnrKeywords.names (k : SnrKeywords) : List String :=
  ([("t_obs", k.t_obs.isSome), ("instrument", k.instrument.isSome), ("custom_psd", k.custom_psd.isSome), ("L", k.L.isSome),
    ("approximate_R", k.approximate_R.isSome), ("confusion_noise", k.confusion_noise.isSome), ("n_step", k.n_step.isSome),
    ("verbose", k.verbose.isSome), ("which_sources", k.which_sources.isSome)].filter Prod.snd).map Prod.fst

/-- The parameters of `get_snr`: `Stationary`, source.py line 1598; `Evolving`, line 1610; otherwise lines 831-832. -/
def Cls.get_snr_parameters : Cls → List String
  | .Stationary => ["t_obs", "instrument", "custom_psd", "verbose"]
  | .Evolving => ["t_obs", "instrument", "custom_psd", "n_step", "verbose"]
  | _ => ["t_obs", "instrument", "custom_psd", "L", "approximate_R", "confusion_noise", "n_step", "verbose", "which_sources"]

/-- `TypeError` for an argument that is not a parameter. -/
def bind_keywords (parameters names : List String) : Except PyErr Unit :=
  if names.all (parameters.contains ·) then pure () else throw .TypeError

/-- `sources.get_snr(**keywords)`; arguments left out have the defaults `None`, 100 and `False`. The output for
`verbose=True` is in Model/Verbose. -/
noncomputable def call_get_snr (W : World) (s : ℕ) (k : SnrKeywords) : M ℕ := do
  let src ← getSrc s
  PyM.lift (bind_keywords src.cls.get_snr_parameters k.names)
  get_snr W s ⟨k.t_obs.getD .none, k.instrument.getD .none, k.custom_psd.getD .none, k.L.getD .none, k.approximate_R.getD .none,
    k.confusion_noise.getD .none⟩ (k.n_step.getD 100) (k.which_sources.getD none)

end Legwork.source
