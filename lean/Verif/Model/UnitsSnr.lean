import Verif.Model.Units
import Verif.Model.Snr

/-!
# Evolution and signal-to-noise ratios as they are written, on quantities with units

Continuation of `Verif.Model.Units` for `evol_circ`, `evol_ecc` and `snr.py`. Each definition is for one source.
-/

namespace Legwork.units

open Real Val

/-! ## evol.py -/

/-- A row of an array with units: numbers and their common unit. Plain numbers have the unit `one`. -/
structure Row where
  values : List ℝ
  unit : PyUnit

/-- `row.to(unit)`. -/
noncomputable def Row.to (r : Row) (u : PyUnit) : Except PyErr Row :=
  if r.unit.dim = u.dim then .ok ⟨r.values.map fun x => x * r.unit.scale / u.scale, u⟩ else .error .UnitConversionError

/-- `evol.create_timesteps_array`, evol.py lines 119-167, for one binary. `np.linspace(0 * u.s, t_evol, n_step)` gives
seconds. Given timesteps are used as they are. -/
noncomputable def create_timesteps_array (K : Consts) (a_i beta : Val) (ecc_i : ℝ) (t_evol : Option Val) (n_step : ℕ)
    (timesteps : Option Row) : Except PyErr Row :=
  match timesteps with
  | some timesteps => pure timesteps
  | none => do
    let t_evol ← match t_evol with
      | none => get_t_merge_ecc K ecc_i (some a_i) none (some beta) none none 0.15 (1 - 1e-4) true
      | some t => pure t
    pure ⟨np.linspace (← t_evol.valueIn s) n_step, s⟩

open Classical in
/-- The separation at one time, evol.py lines 235-238. The comparison with 0 and the replacement by 0 need no unit. -/
noncomputable def a_circ (a_i beta t : Val) : Except PyErr Val := do
  let difference ← (a_i ^ (4 : ℚ)).sub (num 4 * beta * t)
  let number ← difference.value
  let difference := if number ≤ 0 then qty ⟨0, difference.unit⟩ else difference
  pure (difference ^ (1 / 4 : ℚ))

open Classical in
/-- The frequency at one separation, evol.py lines 242-247 and 413-418: the small separation is 1e-30 in the unit of the
separations, `np.where` converts to the unit of its first choice, Hz. -/
noncomputable def f_or_merged (K : Consts) (a m_1 m_2 : Val) : Except PyErr Val := do
  let number ← a.value
  let a_not0 := if number = 0 then qty ⟨1e-30, a.unit⟩ else a
  let f_orb ← get_f_orb_from_a K a_not0 m_1 m_2
  let number ← a_not0.value
  let f_orb ← f_orb.to Hz
  pure (if number = 1e-30 then qty ⟨1e2, Hz⟩ else f_orb)

/-- The variables available for output; the separations and frequencies at each timestep. -/
structure EvolVars where
  timesteps : Row
  ecc : Option Row
  a : Option (List Val)
  f_orb : Option (List Val)

/-- Reading a variable that was never computed is an `UnboundLocalError`. -/
def readVar {α : Type} : Option α → Except PyErr α
  | some x => pure x
  | none => throw .UnboundLocalError

/-- `array.to(unit)` of an array given by its elements. -/
noncomputable def collect (vs : List Val) (u : PyUnit) : Except PyErr Row := do
  pure ⟨← vs.mapM fun v => v.valueIn u, u⟩

/-- One round of the output loop, evol.py lines 251-263 and 422-437. -/
noncomputable def output_step (withEcc : Bool) (v : EvolVars) (acc : List Row) (var : String) :
    Except PyErr (List Row) :=
  if var = "timesteps" then do pure (acc ++ [← v.timesteps.to yr])
  else if withEcc = true ∧ var = "ecc" then do pure (acc ++ [← readVar v.ecc])
  else if var = "a" then do pure (acc ++ [← collect (← readVar v.a) AU])
  else if var = "f_orb" then do pure (acc ++ [← collect (← readVar v.f_orb) Hz])
  else if var = "f_GW" then do
    let f ← collect (← readVar v.f_orb) Hz
    pure (acc ++ [⟨f.values.map (2 * ·), f.unit⟩])
  else pure acc

/-- The output loop, evol.py lines 249-264 and 420-438: `evolution[0]` of nothing is an `IndexError`. A single row is
returned as such, which the list does not show. -/
noncomputable def construct_output (withEcc : Bool) (v : EvolVars) (output_vars : List String) :
    Except PyErr (List Row) := do
  let evolution ← output_vars.foldlM (output_step withEcc v) []
  match evolution with
  | [] => throw .IndexError
  | xs => pure xs

/-- `evol.evol_circ`, evol.py lines 170-264, for one binary. -/
noncomputable def evol_circ (K : Consts) (t_evol : Option Val) (n_step : ℕ) (timesteps : Option Row)
    (beta m_1 m_2 a_i f_orb_i : Option Val) (output_vars : List String) : Except PyErr (List Row) := do
  let (beta, a_i) ← check_mass_freq_input K beta m_1 m_2 a_i f_orb_i
  if evol.wantsFreq output_vars = true ∧ (m_1.isNone ∨ m_2.isNone) then throw .ValueError
  let timesteps ← create_timesteps_array K a_i beta 0 t_evol n_step timesteps
  let a_evol ← timesteps.values.mapM fun t => a_circ a_i beta (qty ⟨t, timesteps.unit⟩)
  let f_orb_evol ← match evol.wantsFreq output_vars, m_1, m_2 with
    | true, some m1, some m2 => do pure (some (← a_evol.mapM fun a => f_or_merged K a m1 m2))
    | _, _, _ => pure none
  construct_output false ⟨timesteps, none, some a_evol, f_orb_evol⟩ output_vars

open Classical in
/-- The `avoid_merger` block of `evol.evol_ecc`, evol.py lines 359-389, for one binary. Times are compared and replaced
in the unit of the timesteps. -/
noncomputable def avoid_merger_times (K : Consts) (ecc_i : ℝ) (beta a_i : Val) (exact_t_merge : Bool) (t_before : Val)
    (t_merge : Option Val) (timesteps : Row) : Except PyErr Row := do
  let t_merge ← match t_merge with
    | some t => pure t
    | none => do (← get_t_merge_ecc K ecc_i (some a_i) none (some beta) none none 0.15 (1 - 1e-4) exact_t_merge).to Gyr
  let _ ← t_merge.valueIn timesteps.unit
  let limit ← (← t_merge.sub t_before).valueIn timesteps.unit
  match timesteps.values with
  | [] => throw .IndexError
  | t0 :: ts =>
    let marker ← (qty ⟨-1, Gyr⟩).valueIn timesteps.unit
    let previous := np.rowMax t0 (ts.map fun t => if t ≥ limit then marker else t)
    pure ⟨t0 :: ts.map fun t => if t ≥ limit then previous else t, timesteps.unit⟩

/-- The second half of `evol.evol_ecc`, evol.py lines 391-438, for one binary. The integrator gets numbers in SI
units. -/
noncomputable def ecc_track (K : Consts) (odeint : evol.Odeint) (ecc_i : ℝ) (beta c0 : Val) (m_1 m_2 : Option Val)
    (output_vars : List String) (timesteps : Row) : Except PyErr (List Row) := do
  let c0 ← c0.valueIn m
  let beta ← beta.valueIn m4_s
  let timesteps ← timesteps.to s
  let ecc_evol := (odeint (fun e => evol.de_dt e beta c0) ecc_i timesteps.values).map evol.nan_to_num
  let a_evol ← if evol.wantsSep output_vars then do
      pure (some (← ecc_evol.mapM fun e => get_a_from_ecc e (qty ⟨c0, m⟩)))
    else pure none
  let f_orb_evol ← match evol.wantsFreq output_vars, a_evol, m_1, m_2 with
    | true, some a, some m1, some m2 => do pure (some (← a.mapM fun a => f_or_merged K a m1 m2))
    | _, _, _, _ => pure none
  construct_output true ⟨timesteps, some ⟨ecc_evol, one⟩, a_evol, f_orb_evol⟩ output_vars

/-- `evol.evol_ecc`, evol.py lines 267-438, for one binary. -/
noncomputable def evol_ecc (K : Consts) (odeint : evol.Odeint) (ecc_i : ℝ) (t_evol : Option Val) (n_step : ℕ)
    (timesteps : Option Row) (beta m_1 m_2 a_i f_orb_i : Option Val) (output_vars : List String)
    (avoid_merger exact_t_merge : Bool) (t_before : Val) (t_merge : Option Val) : Except PyErr (List Row) := do
  let (beta, a_i) ← check_mass_freq_input K beta m_1 m_2 a_i f_orb_i
  if evol.wantsFreq output_vars = true ∧ (m_1.isNone ∨ m_2.isNone) then throw .ValueError
  let c0 ← c_0 a_i ecc_i
  let timesteps ← create_timesteps_array K a_i beta ecc_i t_evol n_step timesteps
  let timesteps ← if avoid_merger then avoid_merger_times K ecc_i beta a_i exact_t_merge t_before t_merge timesteps
    else pure timesteps
  ecc_track K odeint ecc_i beta c0 m_1 m_2 output_vars timesteps

/-! ## psd.py and snr.py -/

/-- A power spectral density: a number, perhaps infinite, and its unit. -/
structure Density where
  number : WithTop ℝ
  unit : PyUnit

/-- A user supplied `custom_psd`, called with `f, L, t_obs, approximate_R, confusion_noise`; `L` is `none` for
`"auto"`. -/
abbrev CustomPsd := Val → Option Val → Val → Bool → Noise → Except PyErr Density

/-- The keyword arguments of the SNR functions which are passed on to `psd.power_spectral_density`. -/
structure PsdKw where
  instrument : String := "LISA"
  custom_psd : Option CustomPsd := none
  L : Option Val := none
  approximate_R : Bool := false
  confusion_noise : Noise := .model (some "auto")

/-- `d if confusion_noise == "auto" else confusion_noise`. -/
def Noise.resolve (d : String) : Noise → Noise
  | .model (some s) => .model (some (if s = "auto" then d else s))
  | n => n

/-- A quantity as a density. -/
noncomputable def Density.ofVal : Val → Density
  | .num x => ⟨x, one⟩
  | .qty q => ⟨q.value, q.unit⟩

/-- `psd.power_spectral_density`, psd.py lines 275-339, for a given observation time. -/
noncomputable def power_spectral_density (K : Consts) (env : psd.Env) (f t_obs : Val) (kw : PsdKw) :
    Except PyErr Density :=
  if kw.instrument = "LISA" then do
    pure ⟨← lisa_psd K env f t_obs (kw.L.getD (qty ⟨2.5e9, m⟩)) kw.approximate_R
      (kw.confusion_noise.resolve "karnesis21"), perHz⟩
  else if kw.instrument = "TianQin" then do
    pure (.ofVal (← tianqin_psd K f (kw.L.getD (qty ⟨sqrt 3 * 1e5, km⟩)) t_obs (kw.confusion_noise.resolve "huang20")))
  else if kw.instrument = "DECIGO" then do
    pure ⟨← decigo_psd f t_obs (kw.confusion_noise.resolve "karnesis21") (qty ⟨1e-3, Hz⟩) (qty ⟨1e2, Hz⟩), perHz⟩
  else if kw.instrument = "custom" then
    match kw.custom_psd with
    | some p => p f kw.L t_obs kw.approximate_R kw.confusion_noise
    | none => throw .TypeError
  else throw .ValueError

/-- What every SNR function needs besides the source. -/
structure Ctx where
  K : Consts
  env : psd.Env
  kw : PsdKw := {}
  interpolated_g : Option (ℤ → ℝ → ℝ) := none
  interpolated_sc : Option (Val → Except PyErr Density) := none
  t_obs : Val

/-- The noise at `f`, e.g. snr.py lines 64-67. -/
noncomputable def noise (C : Ctx) (f : Val) : Except PyErr Density :=
  match C.interpolated_sc with
  | some sc => sc f
  | none => power_spectral_density C.K C.env f C.t_obs C.kw

/-- `v * d`. -/
noncomputable def Density.scale (v : Val) (d : Density) : Density :=
  match v with
  | .num x => ⟨d.number.map fun y => x * y, d.unit⟩
  | .qty q => ⟨d.number.map fun y => q.value * y, q.unit * d.unit⟩

/-- `v / d`; dividing by an infinite density gives 0. -/
noncomputable def Density.divide (v : Val) (d : Density) : Val :=
  match v with
  | .num x => qty ⟨snr.divNoise x d.number, one / d.unit⟩
  | .qty q => qty ⟨snr.divNoise q.value d.number, q.unit / d.unit⟩

/-- The number in SI units, `v.decompose().value`. (Plain numbers only arise here as the empty sum.) -/
noncomputable def Val.si : Val → ℝ
  | .num x => x
  | .qty q => q.value * q.unit.scale

/-- The number in `v`. -/
def Val.number : Val → ℝ
  | .num x => x
  | .qty q => q.value

/-- `(v**0.5).decompose().value`, NaN for negative numbers. -/
noncomputable def root (v : Val) : Option ℝ := if v.number < 0 then none else some (v ^ (1 / 2 : ℚ)).si

/-- `snr.snr_circ_stationary`, snr.py lines 12-70. The orientation angles are taken in radians (their conversion is not
modelled); the orientation factor has no unit. -/
noncomputable def snr_circ_stationary (C : Ctx) (m_c f_orb dist : Val) (orient : strain.Orientation) :
    Except PyErr (Option ℝ) := do
  let amp_mod ← strain.modulation orient
  let h_0_circ_2 := (amp_mod * (← h_0 C.K C.interpolated_g m_c dist f_orb 0 2)) ^ 2
  let h_f_src_circ_2 := num h_0_circ_2 * C.t_obs
  let h_f_lisa_2 ← noise C (num 2 * f_orb)
  pure (root (h_f_lisa_2.divide h_f_src_circ_2))

/-- `snr.snr_ecc_stationary`, snr.py lines 73-157: the SNR² of each harmonic is decomposed before the sum. -/
noncomputable def snr_ecc_stationary (C : Ctx) (m_c f_orb : Val) (ecc : ℝ) (dist : Val) (harmonics_required : ℕ)
    (ret_max_snr_harmonic ret_snr2_by_harmonic : Bool) : Except PyErr snr.SnrOut := do
  let snr_n_2 ← (snr.harmonics harmonics_required).mapM fun n : ℤ => do
    let h_0_ecc_n_2 := (← h_0 C.K C.interpolated_g m_c dist f_orb ecc n) ^ 2
    let h_f_lisa_n_2 ← noise C (num n * f_orb)
    pure (h_f_lisa_n_2.divide (num h_0_ecc_n_2 * C.t_obs)).si
  snr.finish ret_max_snr_harmonic ret_snr2_by_harmonic harmonics_required [snr_n_2]

/-- `np.minimum(v, w)` of two quantities, in the unit of the first. -/
noncomputable def Val.minimum (v w : Val) : Except PyErr Val :=
  match v with
  | .num x => match w with
    | .num y => .ok (num (min x y))
    | .qty _ => .error .UnitConversionError
  | .qty p => do
    let y ← w.valueIn p.unit
    pure (qty ⟨min p.value y, p.unit⟩)

/-- `np.trapezoid(y, x)` along one row. -/
noncomputable def trapezoid : List Val → List Val → Except PyErr Val
  | y₀ :: y₁ :: ys, x₀ :: x₁ :: xs => do
    let dx ← x₁.sub x₀
    let sum ← y₁.add y₀
    let rest ← trapezoid (y₁ :: ys) (x₁ :: xs)
    (dx * sum / num 2).add rest
  | _, _ => .ok (num 0)

/-- The row of frequencies returned by the evolution functions, in Hz. -/
def one_row : List Row → Except PyErr Row
  | [r] => .ok r
  | _ => .error .TypeError

/-- `snr.snr_circ_evolving`, snr.py lines 160-234. The frequencies from `evol_circ` are in Hz. -/
noncomputable def snr_circ_evolving (C : Ctx) (m_1 m_2 f_orb_i dist : Val) (n_step : ℕ) (t_merge : Option Val) :
    Except PyErr (Option ℝ) := do
  let m_c ← chirp_mass m_1 m_2
  let t_merge ← match t_merge with
    | some t => pure t
    | none => get_t_merge_circ C.K none (some m_1) (some m_2) none (some f_orb_i)
  let t_evol ← (← t_merge.sub (qty ⟨1, s⟩)).minimum C.t_obs
  let f_orb_evol ← one_row (← evol_circ C.K (some t_evol) n_step none none (some m_1) (some m_2) none (some f_orb_i)
    ["f_orb"])
  if n_step = 0 then throw .ValueError
  let f_orb_evol := (snr.drop_merged_circ f_orb_evol.values).map fun f => qty ⟨f, f_orb_evol.unit⟩
  let y ← f_orb_evol.mapM fun f => do
    let h_c_n_2 := (← h_c C.K C.interpolated_g m_c dist f 0 2) ^ 2
    let h_f_lisa_2 ← noise C (num 2 * f)
    let h_c_lisa_2 := h_f_lisa_2.scale ((num 2 * f) ^ (2 : ℚ))
    pure (h_c_lisa_2.divide (num h_c_n_2))
  pure (root (← trapezoid y (f_orb_evol.map fun f => num 2 * f)))

/-- Two rows: eccentricities and frequencies. -/
def two_rows : List Row → Except PyErr (Row × Row)
  | [e, f] => .ok (e, f)
  | _ => .error .ValueError

/-- `snr.snr_ecc_evolving`, snr.py lines 237-356. The code sums and compares the squared SNRs of the harmonics before
`decompose()` takes the number out of them; the model takes the number out of each. They all have the same unit. -/
noncomputable def snr_ecc_evolving (C : Ctx) (odeint : evol.Odeint) (m_1 m_2 f_orb_i dist : Val) (ecc : ℝ)
    (harmonics_required n_step : ℕ) (t_merge : Option Val) (ret_max_snr_harmonic ret_snr2_by_harmonic : Bool) :
    Except PyErr snr.SnrOut := do
  let m_c ← chirp_mass m_1 m_2
  let t_merge ← match t_merge with
    | some t => pure t
    | none => get_t_merge_ecc C.K ecc none (some f_orb_i) none (some m_1) (some m_2) 0.15 (1 - 1e-4) true
  let t_before := qty ⟨0.1, yr⟩
  let t_evol ← (← (← t_merge.sub t_before).minimum C.t_obs).to s
  let (e_evol, f_orb_evol) ← two_rows (← evol_ecc C.K odeint ecc (some t_evol) n_step none none (some m_1) (some m_2)
    none (some f_orb_i) ["ecc", "f_orb"] true false t_before (some t_merge))
  let fs := (snr.drop_merged_ecc e_evol.values f_orb_evol.values).map fun f => qty ⟨f, f_orb_evol.unit⟩
  let snr_n_2 ← (snr.harmonics harmonics_required).mapM fun n : ℤ => do
    let y ← (fs.zip e_evol.values).mapM fun (f, e) => do
      let h_c_n_2 := (← h_c C.K C.interpolated_g m_c dist f e n) ^ 2
      let h_f_lisa ← noise C (num n * f)
      let h_c_lisa_2 := h_f_lisa.scale ((num n * f) ^ (2 : ℚ))
      pure (h_c_lisa_2.divide (num h_c_n_2))
    pure (← trapezoid y (fs.map fun f => num n * f)).si
  snr.finish ret_max_snr_harmonic ret_snr2_by_harmonic harmonics_required [snr_n_2]

end Legwork.units
