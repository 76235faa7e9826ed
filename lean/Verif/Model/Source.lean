import Verif.Py.Heap
import Verif.Model.ScParams
import Verif.Model.EnsureArray

/-!
# Model of the `Source` classes

`src/legwork/source.py` lines 40-306, 489-516 and 590-1318, 1518-1646. Sources and parameter dictionaries are objects
on a heap. The only arrays the code writes in place are `snr` and `max_snr_harmonic`, which are heap objects too;
all other attributes are replaced as a whole and kept as values. Arrays with one entry per source are lists.

Plotting and logging have models of their own. Not modelled: printing (`verbose`) and in-place changes of attribute
arrays made by the caller.
-/

namespace Legwork.source

open Legwork.utils

/-- The classes sources can belong to. -/
inductive Cls
  | Source
  | Stationary
  | Evolving
  | VerificationBinaries
  deriving DecidableEq

/-- The attributes with one entry per source that the code never writes in place (for programs that do see Model/Shared): `m_1`, `m_2`, `dist`, `f_orb`, `ecc`,
`weights`, `position` (ecliptic longitude and latitude), `inclination`, `polarisation`, `merged`, `t_merge`. -/
structure Cols where
  m_1 : List ℝ
  m_2 : List ℝ
  dist : List ℝ
  f_orb : List ℝ
  ecc : List ℝ
  weights : Option (List ℝ) := none
  position : Option (List (ℝ × ℝ)) := none
  inclination : Option (List ℝ) := none
  polarisation : Option (List ℝ) := none
  merged : List Bool
  t_merge : Option (List ℝ) := none

/-- `Source.n_sources`, source.py lines 489-492. -/
def Cols.n_sources (c : Cols) : ℕ := c.m_1.length

/-- `Source.m_c`, source.py lines 494-497. -/
noncomputable def Cols.m_c (c : Cols) : List ℝ := c.m_1.zipWith chirp_mass c.m_2

/-- `Source.a`, source.py lines 499-504. -/
noncomputable def Cols.a (K : Consts) (c : Cols) : List ℝ :=
  (c.f_orb.zip (c.m_1.zip c.m_2)).map fun (f, m_1, m_2) => get_a_from_f_orb K f m_1 m_2

/-- A source object. `snr` and `max_snr_harmonic` are addresses of arrays, `sc_params` of a parameter object.
Attributes that the constructor sets late are `none` before. -/
structure Src where
  cls : Cls
  cols : Cols
  stat_tol : ℝ
  n_proc : ℕ
  snr : Option ℕ := none
  max_snr_harmonic : Option ℕ := none
  gw_lum_tol : Option ℝ := none
  harmonics_required : Option (ℝ → ℤ) := none
  max_strain_harmonic : Option (ℝ → ℤ) := none
  ecc_tol : Option ℝ := none
  interpolate_sc : Bool
  sc : Option (ℝ → WithTop ℝ) := none
  sc_params : Option ℕ := none
  g : Option (ℤ → ℝ → ℝ) := none

/-- A `SensitivityCurveParams` object: the dictionary and the source it belongs to. -/
structure Params where
  dict : Dict
  source : Option ℕ

/-- Expensive calculations, recorded to state when they are repeated. -/
inductive Event
  | interpolated (source : ℕ)
  | harmonics (source : ℕ)

/-- The heap; addresses from `next` on are free. -/
structure Heap where
  next : ℕ
  src : ℕ → Src
  par : ℕ → Params
  snrs : ℕ → List (Option ℝ)
  harms : ℕ → List ℕ
  trace : List Event

/-- Code on source heaps. -/
abbrev M (α : Type) : Type := PyM Heap α

namespace Heap

/-- Replace a source object. -/
def setSrc (h : Heap) (s : ℕ) (x : Src) : Heap := { h with src := Function.update h.src s x }

/-- Replace a parameter object. -/
def setPar (h : Heap) (p : ℕ) (x : Params) : Heap := { h with par := Function.update h.par p x }

/-- Write an SNR array. -/
def setSnr (h : Heap) (r : ℕ) (x : List (Option ℝ)) : Heap := { h with snrs := Function.update h.snrs r x }

/-- Write an array of harmonics. -/
def setHarm (h : Heap) (r : ℕ) (x : List ℕ) : Heap := { h with harms := Function.update h.harms r x }

/-- Take a fresh address. -/
def bump (h : Heap) : Heap := { h with next := h.next + 1 }

/-- Record an event. -/
def log (h : Heap) (e : Event) : Heap := { h with trace := h.trace ++ [e] }

end Heap

/-- Read a source object. -/
def getSrc (s : ℕ) : M Src := fun h => (.ok (h.src s), h)

/-- Read a parameter object. -/
def getPar (p : ℕ) : M Params := fun h => (.ok (h.par p), h)

/-- Change attributes of a source. -/
def modSrc (s : ℕ) (f : Src → Src) : M Unit := PyM.modify fun h => h.setSrc s (f (h.src s))

/-- Change a parameter object. -/
def modPar (p : ℕ) (f : Params → Params) : M Unit := PyM.modify fun h => h.setPar p (f (h.par p))

/-- A new source object. -/
def newSrc (x : Src) : M ℕ := fun h => (.ok h.next, (h.setSrc h.next x).bump)

/-- A new parameter object. -/
def newPar (x : Params) : M ℕ := fun h => (.ok h.next, (h.setPar h.next x).bump)

/-- A new SNR array. -/
def newSnr (x : List (Option ℝ)) : M ℕ := fun h => (.ok h.next, (h.setSnr h.next x).bump)

/-- A new array of harmonics. -/
def newHarm (x : List ℕ) : M ℕ := fun h => (.ok h.next, (h.setHarm h.next x).bump)

/-- Record an event. -/
def logEvent (e : Event) : M Unit := PyM.modify fun h => h.log e

/-- An attribute that may not have been set yet. -/
def attr {α : Type} : Option α → M α
  | some x => pure x
  | none => PyM.lift (throw .AttributeError)

/-! ### Sensitivity curve parameters -/

/-- `Source.set_sc`, source.py lines 641-658. -/
noncomputable def set_sc (W : World) (s : ℕ) : M Unit := do
  let src ← getSrc s
  if src.interpolate_sc then do
    let p ← attr src.sc_params
    let params ← getPar p
    logEvent (.interpolated s)
    let sc ← PyM.lift (curve W params.dict)
    modSrc s fun x => { x with sc := some sc }
  else modSrc s fun x => { x with sc := none }

/-- `SensitivityCurveParams._re_interpolate`, source.py lines 1559-1562. -/
noncomputable def re_interpolate (W : World) (p : ℕ) : M Unit := do
  let params ← getPar p
  match params.source with
  | some s => set_sc W s
  | none => pure ()

/-- `SensitivityCurveParams(params, source=source)`, source.py lines 1543-1549. -/
def new_params (params : Option Dict) (source : Option ℕ) : M ℕ := do
  let d ← PyM.lift (filled_params params)
  newPar ⟨d, source⟩

open Classical in
/-- The common end of `__setitem__` and `update`. -/
noncomputable def re_interpolate_if (W : World) (p : ℕ) (changed : Prop) : M Unit :=
  if changed then re_interpolate W p else pure ()

/-- `SensitivityCurveParams.__setitem__`, source.py lines 1564-1569. -/
noncomputable def params_setitem (W : World) (p : ℕ) (key : String) (value : PVal) : M Unit := do
  PyM.lift (check_keys [key])
  let params ← getPar p
  modPar p fun x => { x with dict := x.dict.set key value }
  re_interpolate_if W p (params.dict.get key ≠ value)

/-- `SensitivityCurveParams.update`, source.py lines 1571-1578. -/
noncomputable def params_update (W : World) (p : ℕ) (kvs : Dict) : M Unit := do
  let new := Dict.ofPairs kvs
  PyM.lift (check_keys new.keys)
  let params ← getPar p
  modPar p fun x => { x with dict := x.dict.update new }
  re_interpolate_if W p (∃ kv ∈ new, params.dict.get kv.1 ≠ kv.2)

/-- `SensitivityCurveParams._cant_remove`, source.py lines 1584-1590: `del`, `pop`, `popitem` and `clear`. -/
def params_remove : M Unit := PyM.lift (throw .TypeError)

/-- `copy(params)`, source.py lines 1580-1582. -/
def params_copy (p : ℕ) : M ℕ := do
  let params ← getPar p
  new_params (some params.dict) params.source

/-- `params.setdefault(key, value)`, inherited from `dict`: no check and no interpolation. -/
def params_setdefault (p : ℕ) (key : String) (value : PVal) : M Unit :=
  modPar p fun x => { x with dict := if (x.dict.get? key).isSome then x.dict else x.dict.set key value }

/-- `params |= kvs` on a name bound to the parameters, inherited from `dict`: no check and no interpolation. -/
def params_ior (p : ℕ) (kvs : Dict) : M Unit := modPar p fun x => { x with dict := x.dict.update (Dict.ofPairs kvs) }

open Classical in
/-- Whether the `sc_params` setter found a change, source.py lines 681-683. -/
noncomputable def params_changed (current : Option ℕ) (p : ℕ) : M Bool := do
  let new ← getPar p
  match current with
  | none => pure true
  | some p₀ => do
    let old ← getPar p₀
    pure (decide (¬ new.dict.eq old.dict))

/-- The setter of `Source.sc_params`, source.py lines 676-686. `none` is the assignment of `None`. -/
noncomputable def set_sc_params (W : World) (s : ℕ) (params : Option Dict) : M Unit := do
  let p ← new_params params (some s)
  let src ← getSrc s
  let changed ← params_changed src.sc_params p
  modSrc s fun x => { x with sc_params := some p }
  if changed then set_sc W s else pure ()

/-! ### Tolerance, interpolated `g`, semi-major axis -/

/-- `create_harmonics_functions` and `find_eccentric_transition` for the stored tolerance, source.py lines 518-588. -/
noncomputable def derive_tolerances (W : World) (s : ℕ) (tol : ℝ) : M Unit := do
  logEvent (.harmonics s)
  modSrc s fun x => { x with harmonics_required := some (harmonics_required W.table tol),
                             max_strain_harmonic := some (max_strain_harmonic W.table tol) }
  let ecc_tol ← PyM.lift (find_eccentric_transition tol)
  modSrc s fun x => { x with ecc_tol := some ecc_tol }

open Classical in
/-- The setter of `Source.gw_lum_tol`, source.py lines 610-618. -/
noncomputable def set_gw_lum_tol (W : World) (s : ℕ) (tol : ℝ) : M Unit := do
  let src ← getSrc s
  if src.gw_lum_tol = some tol then pure ()
  else do
    modSrc s fun x => { x with gw_lum_tol := some tol }
    derive_tolerances W s tol

/-- `Source.set_g`, source.py lines 620-639. -/
def set_g (W : World) (s : ℕ) (interpolate_g : Bool) : M Unit :=
  modSrc s fun x => { x with g := if interpolate_g then some W.gSpline else none }

/-- Broadcasting of two operands: equal lengths, or one of them of length one. -/
def broadcast2 {α : Type} (f : ℝ → α → ℝ) (x : List ℝ) (y : List α) : Except PyErr (List ℝ) :=
  if x.length = y.length then pure (x.zipWith f y)
  else match x, y with
    | [x], ys => pure (ys.map (f x))
    | xs, [y] => pure (xs.map fun x => f x y)
    | _, _ => throw .ValueError

/-- The getter of `Source.a`, source.py lines 499-504. -/
noncomputable def Source_a (K : Consts) (c : Cols) : Except PyErr (List ℝ) :=
  broadcast2 (fun f m => get_a_from_f_orb K f m.1 m.2) c.f_orb (c.m_1.zip c.m_2)

/-- The setter of `Source.a`, source.py lines 506-511, for an array with units. Like numpy it accepts one value for
many sources, and many values for one source. -/
noncomputable def set_a (W : World) (s : ℕ) (a : List ℝ) : M Unit := do
  let src ← getSrc s
  let f_orb ← PyM.lift (broadcast2 (fun a m => get_f_orb_from_a W.K a m.1 m.2) a (src.cols.m_1.zip src.cols.m_2))
  modSrc s fun x => { x with cols := { x.cols with f_orb := f_orb } }

/-! ### Masks and calculations on columns -/

/-- `np.logical_and` of masks. Masks of different lengths do not broadcast (`ValueError`; broadcasting of masks of
length one is not modelled). -/
def logical_and (a b : List Bool) : Except PyErr (List Bool) :=
  if a.length = b.length then pure (a.zipWith and b) else throw .ValueError

/-- `np.logical_not`. -/
def logical_not (a : List Bool) : List Bool := a.map not

/-- `xs[mask]` with a boolean mask: `IndexError` when the lengths differ. -/
def index {α : Type} (mask : List Bool) (xs : List α) : Except PyErr (List α) :=
  if mask.length = xs.length then pure (np.select mask xs) else throw .IndexError

/-- `np.repeat(True, n)` unless a mask is given. -/
def which (n : ℕ) : Option (List Bool) → List Bool
  | none => List.replicate n true
  | some m => m

open Classical in
/-- `self.ecc > self.ecc_tol`. -/
noncomputable def ecc_above (ecc : List ℝ) (ecc_tol : ℝ) : List Bool := ecc.map fun e => decide (ecc_tol < e)

open Classical in
/-- `self.ecc <= self.ecc_tol`. -/
noncomputable def ecc_below (ecc : List ℝ) (ecc_tol : ℝ) : List Bool := ecc.map fun e => decide (e ≤ ecc_tol)

/-- The position, polarisation and inclination of masked sources, e.g. source.py lines 759-763. A missing
polarisation or inclination cannot be indexed (`TypeError`). -/
def orientations (c : Cols) (mask : List Bool) (n : ℕ) : Except PyErr (List strain.Orientation) :=
  match c.position, c.polarisation, c.inclination with
  | none, _, _ => pure (List.replicate n {})
  | some pos, some pol, some inc => do
    let pos ← index mask pos
    let pol ← index mask pol
    let inc ← index mask inc
    pure ((pos.zip (pol.zip inc)).map fun (p, pol, inc) => ⟨some (p.2, p.1), some pol, some inc⟩)
  | some _, _, _ => throw .TypeError

/-- An argument that may be `None`, `True`, `False` or anything else. -/
inductive Tri
  | none
  | bool (b : Bool)
  | other

/-- A column as an index function of `k` sources. -/
def colFn (xs : List ℝ) (k : ℕ) : Fin k → ℝ := fun i => xs.getD i 0

/-- The circular part of `get_source_mask`, source.py lines 711-719. -/
noncomputable def circular_mask (c : Cols) (ecc_tol : ℝ) : Tri → Except PyErr (List Bool)
  | .none => pure (List.replicate c.n_sources true)
  | .bool true => pure (ecc_below c.ecc ecc_tol)
  | .bool false => pure (ecc_above c.ecc ecc_tol)
  | .other => throw .ValueError

/-- `"auto"` resolved as in source.py lines 724-726, 986-987 and 1117-1118: 4 years for LISA, 5 for anything else. -/
noncomputable def auto_t_obs (instrument : PVal) : psd.TimeArg → ℝ
  | .auto => match instrument with
    | .str "LISA" => 4 * psd.yr
    | _ => 5 * psd.yr
  | .val t => t

open Classical in
/-- Whether each source is stationary over `t_obs`, source.py lines 727-728. -/
noncomputable def stationary_flags (W : World) (c : Cols) (stat_tol t_obs : ℝ) : Except PyErr (List Bool) := do
  let flags ← evol.determine_stationarity W.K (colFn c.f_orb c.n_sources) t_obs (colFn c.ecc c.n_sources) none none
    (some (colFn c.m_c c.n_sources)) stat_tol
  pure (List.ofFn fun i => decide (flags i))

/-- The stationary part of `get_source_mask`, source.py lines 721-732; `t_obs` is the resolved observation time (an
error while resolving it is raised only if it is needed). -/
noncomputable def stationary_mask (W : World) (c : Cols) (stat_tol : ℝ) (t_obs : Except PyErr ℝ) :
    Tri → Except PyErr (List Bool)
  | .none => pure (List.replicate c.n_sources true)
  | .bool b => do
    let t_obs ← t_obs
    let flags ← stationary_flags W c stat_tol t_obs
    pure (if b then flags else logical_not flags)
  | .other => throw .ValueError

/-- `which` and not merged, e.g. source.py line 756. -/
def inspiralling (c : Cols) (which : List Bool) : Except PyErr (List Bool) := logical_and which (logical_not c.merged)

/-- The rows handed to the strain functions, source.py lines 759-775. -/
noncomputable def strain_rows (c : Cols) (mask : List Bool) : Except PyErr (List strain.Row) := do
  let m_c ← index mask c.m_c
  let f_orb ← index mask c.f_orb
  let ecc ← index mask c.ecc
  let dist ← index mask c.dist
  let os ← orientations c mask m_c.length
  pure ((m_c.zip (f_orb.zip (ecc.zip (dist.zip os)))).map fun (m_c, f, e, d, o) => ⟨m_c, d, [(f, e)], o⟩)

/-- `Source.get_h_0_n` and `Source.get_h_c_n`, source.py lines 734-829, for the strain function `strain`. `h[:, 0, :]`
takes the only time step. -/
noncomputable def get_strain (strain : List ℤ → List strain.Row → Except PyErr (List (List (List ℝ)))) (c : Cols)
    (harmonics : List ℤ) (which_sources : Option (List Bool)) : Except PyErr (List (List ℝ)) := do
  let which := which c.n_sources which_sources
  let zeros := List.replicate c.n_sources (List.replicate harmonics.length (0 : ℝ))
  let insp ← inspiralling c which
  let rows ← strain_rows c insp
  let h ← strain harmonics rows
  index which (np.assign insp zeros (h.map fun steps => steps.headD []))

/-- `Source.get_h_0_n`. -/
noncomputable def get_h_0_n (W : World) (g : Option (ℤ → ℝ → ℝ)) := get_strain (strain.h_0_n W.K g)

/-- `Source.get_h_c_n`. -/
noncomputable def get_h_c_n (W : World) (g : Option (ℤ → ℝ → ℝ)) := get_strain (strain.h_c_n W.K g)

/-- The settings of a source used by the SNR calculations. -/
structure Settings where
  ecc_tol : ℝ
  harmonics_required : ℝ → ℤ
  n_proc : ℕ

/-- Circular stationary sources as arguments, source.py lines 1003-1024. -/
noncomputable def circ_srcs (c : Cols) (mask : List Bool) (os : List strain.Orientation) :
    Except PyErr (List snr.CircSrc) := do
  let m_c ← index mask c.m_c
  let f_orb ← index mask c.f_orb
  let dist ← index mask c.dist
  pure ((m_c.zip (f_orb.zip (dist.zip os))).map fun (m_c, f, d, o) => ⟨m_c, f, d, o⟩)

/-- Eccentric stationary sources as arguments, source.py lines 1037-1041. -/
noncomputable def ecc_srcs (c : Cols) (mask : List Bool) : Except PyErr (List snr.EccSrc) := do
  let m_c ← index mask c.m_c
  let f_orb ← index mask c.f_orb
  let ecc ← index mask c.ecc
  let dist ← index mask c.dist
  pure ((m_c.zip (f_orb.zip (ecc.zip dist))).map fun (m_c, f, e, d) => ⟨m_c, f, e, d⟩)

/-- Evolving sources as arguments, source.py lines 1138-1141 and 1161-1165. `circular` sources are passed without
their eccentricity. -/
def evol_srcs (c : Cols) (mask : List Bool) (circular : Bool) : Except PyErr (List snr.EvolSrc) := do
  let m_1 ← index mask c.m_1
  let m_2 ← index mask c.m_2
  let f_orb ← index mask c.f_orb
  let ecc ← index mask c.ecc
  let dist ← index mask c.dist
  pure ((m_1.zip (m_2.zip (f_orb.zip (ecc.zip dist)))).map fun (m_1, m_2, f, e, d) =>
    { m_1 := m_1, m_2 := m_2, f_orb_i := f, ecc := if circular then 0 else e, dist := d })

/-- The stored merger times of masked sources. -/
def merge_times (c : Cols) (mask : List Bool) : Except PyErr (Option (List ℝ)) :=
  match c.t_merge with
  | none => pure none
  | some t => do
    let t ← index mask t
    pure (some t)

/-- The pair returned with `ret_max_snr_harmonic=True`. -/
def snr_and_max : snr.SnrOut → Except PyErr (List (Option ℝ) × List ℕ)
  | .withMax s m => pure (s, m)
  | _ => throw .ValueError

/-- SNRs and harmonics of all sources, filled in step by step. -/
abbrev SnrState := List (Option ℝ) × List ℕ

/-- One harmonic group, source.py lines 1033-1052 and 1156-1178; `run mask upper` calls the SNR function. -/
noncomputable def snr_group (c : Cols) (S : Settings) (e_mask : List Bool)
    (run : List Bool → ℕ → Except PyErr snr.SnrOut) (acc : SnrState) (group : ℕ × ℕ) : Except PyErr SnrState := do
  let harm_mask := c.ecc.map fun e => in_group (S.harmonics_required e) group
  let found ← logical_and harm_mask e_mask
  if found.any id then do
    let out ← run found group.2
    let (s, m) ← snr_and_max out
    pure (np.assign found acc.1 s, np.assign found acc.2 m)
  else pure acc

/-- All harmonic groups, source.py lines 1028-1052 and 1151-1178. -/
noncomputable def snr_groups (c : Cols) (S : Settings) (e_mask : List Bool)
    (run : List Bool → ℕ → Except PyErr snr.SnrOut) (acc : SnrState) : Except PyErr SnrState :=
  if e_mask.any id then harmonic_groups.foldlM (snr_group c S e_mask run) acc else pure acc

/-- The circular part of `get_snr_stationary`, source.py lines 1003-1024: the orientation is masked first, the SNR
only computed if there is a circular source. -/
noncomputable def snr_stationary_circ (C : snr.Ctx) (c : Cols) (c_mask : List Bool) (acc : SnrState) :
    Except PyErr SnrState := do
  let os ← orientations c c_mask (np.select c_mask c.m_c).length
  if c_mask.any id then do
    let srcs ← circ_srcs c c_mask os
    let s ← snr.snr_circ_stationary C srcs
    pure (np.assign c_mask acc.1 s, acc.2)
  else pure acc

/-- The eccentric stationary call. -/
noncomputable def run_ecc_stationary (C : snr.Ctx) (c : Cols) (mask : List Bool) (upper : ℕ) :
    Except PyErr snr.SnrOut := do
  let srcs ← ecc_srcs c mask
  snr.snr_ecc_stationary C srcs upper true false

/-- The calculation in `get_snr_stationary`, source.py lines 994-1052: the inspiralling mask and the SNR and
harmonic of every source. -/
noncomputable def calc_stationary (C : snr.Ctx) (c : Cols) (S : Settings) (which : List Bool) :
    Except PyErr (List Bool × SnrState) := do
  let insp ← inspiralling c which
  let e_mask ← logical_and (ecc_above c.ecc S.ecc_tol) insp
  let c_mask ← logical_and (ecc_below c.ecc S.ecc_tol) insp
  let acc : SnrState := (List.replicate c.n_sources (some 0), List.replicate c.n_sources 2)
  let acc ← snr_stationary_circ C c c_mask acc
  let acc ← snr_groups c S e_mask (run_ecc_stationary C c) acc
  pure (insp, acc)

/-- The circular part of `get_snr_evolving`, source.py lines 1133-1150. -/
noncomputable def snr_evolving_circ (C : snr.Ctx) (c : Cols) (n_step : ℕ) (c_mask : List Bool) (acc : SnrState) :
    Except PyErr SnrState :=
  if c_mask.any id then do
    let t_merge ← merge_times c c_mask
    let srcs ← evol_srcs c c_mask true
    let s ← snr.snr_circ_evolving C srcs n_step t_merge
    pure (np.assign c_mask acc.1 s, acc.2)
  else pure acc

/-- The eccentric evolving call. The stored merger times are masked but not passed on. -/
noncomputable def run_ecc_evolving (W : World) (C : snr.Ctx) (c : Cols) (S : Settings) (n_step : ℕ) (mask : List Bool)
    (upper : ℕ) : Except PyErr snr.SnrOut := do
  let _ ← merge_times c mask
  let srcs ← evol_srcs c mask false
  snr.snr_ecc_evolving C W.odeint srcs upper n_step none S.n_proc (W.schedule srcs.length) true false

/-- The calculation in `get_snr_evolving`, source.py lines 1106 and 1127-1178. -/
noncomputable def calc_evolving (W : World) (C : snr.Ctx) (c : Cols) (S : Settings) (n_step : ℕ) (which : List Bool) :
    Except PyErr (List Bool × SnrState) := do
  let insp ← inspiralling c which
  let e_mask ← logical_and (ecc_above c.ecc S.ecc_tol) insp
  let c_mask ← logical_and (ecc_below c.ecc S.ecc_tol) insp
  let acc : SnrState := (List.replicate c.n_sources (some 0), List.replicate c.n_sources 2)
  let acc ← snr_evolving_circ C c n_step c_mask acc
  let acc ← snr_groups c S e_mask (run_ecc_evolving W C c S n_step) acc
  pure (insp, acc)

/-- The calculation in `get_merger_time`, source.py lines 1211-1219: one entry per entry of `which`. -/
noncomputable def calc_merger_time (W : World) (c : Cols) (which : List Bool) (exact : Bool) :
    Except PyErr (List ℝ) := do
  let zeros := List.replicate which.length (0 : ℝ)
  let insp ← logical_and which (logical_not c.merged)
  let ecc ← index insp c.ecc
  let f_orb ← index insp c.f_orb
  let m_1 ← index insp c.m_1
  let m_2 ← index insp c.m_2
  let k := ecc.length
  let t ← evol.get_t_merge_ecc W.K (colFn ecc k) none (some (colFn f_orb k)) none (some (colFn m_1 k))
    (some (colFn m_2 k)) 0.15 (1 - 1e-4) exact
  pure (np.assign insp zeros (List.ofFn t))

/-- The argument `t_evol` of `evolve_sources`: one time for all sources or one each. -/
inductive EvolTime
  | scalar (t : ℝ)
  | array (t : List ℝ)

/-- The evolution time of each of `n` sources. An array of another length does not broadcast (`ValueError`; arrays
of length one are not modelled). -/
def EvolTime.all (n : ℕ) : EvolTime → Except PyErr (List ℝ)
  | .scalar t => pure (List.replicate n t)
  | .array t => if t.length = n then pure t else throw .ValueError

/-- The evolution times handed to `evol`, source.py lines 1256-1262. -/
def EvolTime.masked (mask : List Bool) : EvolTime → Except PyErr (Option (evol.TEvol (Fin (mask.count true))))
  | .scalar t => pure (some (.scalar t))
  | .array t => do
    let t ← index mask t
    pure (some (.array (colFn t _)))

open Classical in
/-- `t_evol >= self.t_merge`, source.py line 1250. -/
noncomputable def merged_flags (t_evol t_merge : List ℝ) : List Bool :=
  t_evol.zipWith (fun t tm => decide (t ≥ tm)) t_merge

open Classical in
/-- `self.ecc == 0.0`. -/
noncomputable def ecc_zero (ecc : List ℝ) : List Bool := ecc.map fun e => decide (e = 0)

/-- `evolution[:, -1]`. -/
def lastOf {k : ℕ} (rows : Fin k → List ℝ) : List ℝ := List.ofFn fun i => (rows i).getLastD 0

/-- The evolved frequencies of circular sources, source.py lines 1272-1276. -/
noncomputable def evolve_circ (W : World) (c : Cols) (t_evol : EvolTime) (c_mask : List Bool) (f_orb_evol : List ℝ) :
    Except PyErr (List ℝ) :=
  if c_mask.any id then do
    let k := c_mask.count true
    let t ← t_evol.masked c_mask
    let m_1 ← index c_mask c.m_1
    let m_2 ← index c_mask c.m_2
    let f_orb ← index c_mask c.f_orb
    let out ← evol.evol_circ W.K evol.AU t 2 none none (some (colFn m_1 k)) (some (colFn m_2 k)) none
      (some (colFn f_orb k)) ["f_orb"]
    let rows ← snr.single out
    pure (np.assign c_mask f_orb_evol (lastOf rows))
  else pure f_orb_evol

/-- The evolved eccentricities and frequencies of eccentric sources, source.py lines 1278-1287. `n_proc` is not passed
on. -/
noncomputable def evolve_ecc (W : World) (c : Cols) (t_evol : EvolTime) (e_mask : List Bool)
    (acc : List ℝ × List ℝ) : Except PyErr (List ℝ × List ℝ) :=
  if e_mask.any id then do
    let k := e_mask.count true
    let t ← t_evol.masked e_mask
    let m_1 ← index e_mask c.m_1
    let m_2 ← index e_mask c.m_2
    let f_orb ← index e_mask c.f_orb
    let ecc ← index e_mask c.ecc
    let out ← evol.evol_ecc W.K W.odeint (colFn ecc k) t 2 none none (some (colFn m_1 k)) (some (colFn m_2 k)) none
      (some (colFn f_orb k)) ["ecc", "f_orb"] 1 [] false true (0.1 * psd.yr) none
    let (es, fs) ← snr.pair out
    pure (np.assign e_mask acc.1 (lastOf es), np.assign e_mask acc.2 (lastOf fs))
  else pure acc

/-- The outcome of an evolution: eccentricities, frequencies, merged flags and remaining merger times. -/
structure Evolved where
  ecc : List ℝ
  f_orb : List ℝ
  merged : List Bool
  t_merge : List ℝ

open Classical in
/-- The calculation in `evolve_sources` with merger times `t_merge`, source.py lines 1250-1287, 1303-1304 and 1317-1318. -/
noncomputable def calc_evolve (W : World) (c : Cols) (t_merge : List ℝ) (t_evol : EvolTime) : Except PyErr Evolved := do
  let times ← t_evol.all c.n_sources
  let merged := merged_flags times t_merge
  let c_mask ← logical_and (ecc_zero c.ecc) (logical_not merged)
  let e_mask ← logical_and (logical_not (ecc_zero c.ecc)) (logical_not merged)
  let ecc_evol := List.replicate c.n_sources (0 : ℝ)
  let f_orb_evol := merged.map fun m => if m then (100 : ℝ) else 0
  let f_orb_evol ← evolve_circ W c t_evol c_mask f_orb_evol
  let (ecc_evol, f_orb_evol) ← evolve_ecc W c t_evol e_mask (ecc_evol, f_orb_evol)
  pure ⟨ecc_evol, f_orb_evol, merged, t_merge.zipWith (fun tm t => max 0 (tm - t)) times⟩

/-! ### SNR methods -/

/-- Arguments of the SNR methods; `none` is `None`. -/
structure SnrArgs where
  t_obs : PVal := .none
  instrument : PVal := .none
  custom_psd : PVal := .none
  L : PVal := .none
  approximate_R : PVal := .none
  confusion_noise : PVal := .none

open Classical in
/-- `self.sc_params[key] if x is None else x`. -/
noncomputable def orParam (d : Dict) (key : String) (x : PVal) : Except PyErr PVal :=
  if x = .none then d.item key else pure x

/-- Arguments left out are taken from `sc_params`, source.py lines 880-885, 984-991 and 1115-1122. -/
noncomputable def fill_args (d : Dict) (a : SnrArgs) : Except PyErr SnrArgs := do
  let t_obs ← orParam d "t_obs" a.t_obs
  let instrument ← orParam d "instrument" a.instrument
  let custom_psd ← orParam d "custom_psd" a.custom_psd
  let L ← orParam d "L" a.L
  let approximate_R ← orParam d "approximate_R" a.approximate_R
  let confusion_noise ← orParam d "confusion_noise" a.confusion_noise
  pure ⟨t_obs, instrument, custom_psd, L, approximate_R, confusion_noise⟩

open Classical in
/-- `if t_obs == "auto": ...`, source.py lines 986-987 and 1117-1118. -/
noncomputable def resolve_auto (a : SnrArgs) : SnrArgs :=
  if a.t_obs = .str "auto" then { a with t_obs := .time (auto_t_obs a.instrument .auto) } else a

/-- The dictionary passed to `sc_params.update`. -/
def SnrArgs.toDict (a : SnrArgs) : Dict :=
  [("t_obs", a.t_obs), ("instrument", a.instrument), ("custom_psd", a.custom_psd), ("L", a.L),
   ("approximate_R", a.approximate_R), ("confusion_noise", a.confusion_noise)]

/-- The parameter object of a source. -/
def getSrcPar (s : ℕ) : M ℕ := do
  let src ← getSrc s
  attr src.sc_params

/-- The tolerances of a source. -/
def getSettings (s : ℕ) : M Settings := do
  let src ← getSrc s
  let ecc_tol ← attr src.ecc_tol
  let harmonics_required ← attr src.harmonics_required
  pure ⟨ecc_tol, harmonics_required, src.n_proc⟩

/-- A time that is no longer `"auto"`. -/
def asSeconds : PVal → Except PyErr ℝ
  | .time t => pure t
  | _ => throw .TypeError

/-- The arguments of the SNR functions in `snr.py` for resolved arguments. -/
def ctxOf (W : World) (src : Src) (a : SnrArgs) : Except PyErr snr.Ctx := do
  let kw ← asKw W a.instrument a.custom_psd a.L a.approximate_R a.confusion_noise
  let t_obs ← asSeconds a.t_obs
  pure ⟨W.K, W.env, kw, src.g, src.sc, t_obs⟩

/-- Fill in arguments, resolve `"auto"` if asked to, and match the sensitivity curve, source.py lines 880-890,
984-996 and 1115-1127. -/
noncomputable def match_params (W : World) (s : ℕ) (a : SnrArgs) (resolve : Bool) : M SnrArgs := do
  let p ← getSrcPar s
  let params ← getPar p
  let a ← PyM.lift (fill_args params.dict a)
  let a := if resolve then resolve_auto a else a
  params_update W p a.toDict
  pure a

/-- `self.snr = xs` for a new array, e.g. source.py line 936. -/
def store_snr (s : ℕ) (xs : List (Option ℝ)) : M ℕ := do
  let r ← newSnr xs
  modSrc s fun x => { x with snr := some r }
  pure r

/-- `self.max_snr_harmonic = xs` for a new array. -/
def store_harm (s : ℕ) (xs : List ℕ) : M ℕ := do
  let r ← newHarm xs
  modSrc s fun x => { x with max_snr_harmonic := some r }
  pure r

/-- The array `self.max_snr_harmonic`, created if missing, source.py lines 1054-1055. -/
def ensure_harm (s : ℕ) : M ℕ := do
  let src ← getSrc s
  match src.max_snr_harmonic with
  | some r => pure r
  | none => store_harm s (List.replicate src.cols.n_sources 0)

/-- The array `self.snr`, created if missing, source.py lines 1058-1059. -/
def ensure_snr (s : ℕ) : M ℕ := do
  let src ← getSrc s
  match src.snr with
  | some r => pure r
  | none => store_snr s (List.replicate src.cols.n_sources (some 0))

/-- `xs[mask] = ys[mask]`: `IndexError` for a mask of another length. -/
def overwrite {α : Type} (mask : List Bool) (xs ys : List α) : Except PyErr (List α) := do
  let vs ← index mask ys
  if mask.length = xs.length then pure (np.assign mask xs vs) else throw .IndexError

/-- Recording the results, source.py lines 1054-1060 and 1180-1186: both arrays are written in place. -/
def record_snr (s : ℕ) (insp : List Bool) (res : SnrState) : M Unit := do
  let r ← ensure_harm s
  let heap ← PyM.get
  let msh ← PyM.lift (overwrite insp (heap.harms r) res.2)
  PyM.modify fun h => h.setHarm r msh
  let r ← ensure_snr s
  let heap ← PyM.get
  let snr ← PyM.lift (overwrite insp (heap.snrs r) res.1)
  PyM.modify fun h => h.setSnr r snr

/-- `Source.get_snr_stationary`, source.py lines 939-1061. Returns the values for the selected sources. -/
noncomputable def get_snr_stationary (W : World) (s : ℕ) (a : SnrArgs) (which_sources : Option (List Bool)) :
    M (List (Option ℝ)) := do
  let a ← match_params W s a true
  let src ← getSrc s
  let S ← getSettings s
  let C ← PyM.lift (ctxOf W src a)
  let w := which src.cols.n_sources which_sources
  let (insp, res) ← PyM.lift (calc_stationary C src.cols S w)
  record_snr s insp res
  PyM.lift (index w res.1)

/-- `Source.get_snr_evolving`, source.py lines 1063-1188. -/
noncomputable def get_snr_evolving (W : World) (s : ℕ) (a : SnrArgs) (n_step : ℕ)
    (which_sources : Option (List Bool)) : M (List (Option ℝ)) := do
  let a ← match_params W s a true
  let src ← getSrc s
  let S ← getSettings s
  let C ← PyM.lift (ctxOf W src a)
  let w := which src.cols.n_sources which_sources
  let (insp, res) ← PyM.lift (calc_evolving W C src.cols S n_step w)
  record_snr s insp res
  PyM.lift (index w res.1)

/-- The observation time used by `get_source_mask`, source.py lines 724-726. -/
noncomputable def mask_t_obs (d : Dict) (t_obs : PVal) : Except PyErr ℝ := do
  let t ← orParam d "t_obs" t_obs
  let t ← asTime t
  match t with
  | .auto => do
    let i ← d.item "instrument"
    pure (auto_t_obs i .auto)
  | .val t => pure t

/-- `Source.get_source_mask`, source.py lines 688-732. -/
noncomputable def get_source_mask (W : World) (s : ℕ) (circular stationary : Tri) (t_obs : PVal) : M (List Bool) := do
  let src ← getSrc s
  let S ← getSettings s
  let p ← getSrcPar s
  let params ← getPar p
  let c ← PyM.lift (circular_mask src.cols S.ecc_tol circular)
  let st ← PyM.lift (stationary_mask W src.cols src.stat_tol (mask_t_obs params.dict t_obs) stationary)
  PyM.lift (logical_and c st)

/-- `np.logical_and.reduce((a, not merged, which))`, source.py lines 905-914. -/
def reduce3 (a merged w : List Bool) : Except PyErr (List Bool) := do
  let x ← logical_and a (logical_not merged)
  logical_and x w

/-- One half of `get_snr`, source.py lines 916-935: run only if the mask selects something. -/
def snr_part (mask : List Bool) (run : M (List (Option ℝ))) (snr : List (Option ℝ)) : M (List (Option ℝ)) :=
  if mask.any id then do
    let s ← run
    pure (np.assign mask snr s)
  else pure snr

/-- `Source.get_snr`, source.py lines 831-937. The result is the array stored as `self.snr`. -/
noncomputable def Source_get_snr (W : World) (s : ℕ) (a : SnrArgs) (n_step : ℕ) (which_sources : Option (List Bool)) :
    M ℕ := do
  let a ← match_params W s a false
  let src ← getSrc s
  let w := which src.cols.n_sources which_sources
  let stat ← get_source_mask W s .none (.bool true) a.t_obs
  let stat_mask ← PyM.lift (reduce3 stat src.cols.merged w)
  let evo ← get_source_mask W s .none (.bool false) a.t_obs
  let evol_mask ← PyM.lift (reduce3 evo src.cols.merged w)
  let snr := List.replicate src.cols.n_sources (some (0 : ℝ))
  let snr ← snr_part stat_mask (get_snr_stationary W s a (some stat_mask)) snr
  let snr ← snr_part evol_mask (get_snr_evolving W s a n_step (some evol_mask)) snr
  store_snr s snr

/-- `Stationary.get_snr`, source.py lines 1598-1601; only the first three settings can be given. -/
noncomputable def Stationary_get_snr (W : World) (s : ℕ) (a : SnrArgs) : M ℕ := do
  let snr ← get_snr_stationary W s { t_obs := a.t_obs, instrument := a.instrument, custom_psd := a.custom_psd } none
  store_snr s snr

/-- `Evolving.get_snr`, source.py lines 1610-1613. -/
noncomputable def Evolving_get_snr (W : World) (s : ℕ) (a : SnrArgs) (n_step : ℕ) : M ℕ := do
  let snr ← get_snr_evolving W s { t_obs := a.t_obs, instrument := a.instrument, custom_psd := a.custom_psd } n_step none
  store_snr s snr

/-- `sources.get_snr(...)`, by class. -/
noncomputable def get_snr (W : World) (s : ℕ) (a : SnrArgs) (n_step : ℕ) (which_sources : Option (List Bool)) :
    M ℕ := do
  let src ← getSrc s
  match src.cls with
  | .Stationary => Stationary_get_snr W s a
  | .Evolving => Evolving_get_snr W s a n_step
  | _ => Source_get_snr W s a n_step which_sources

/-! ### Merger times and evolution -/

/-- Storing merger times, source.py lines 1220-1221. -/
def save_merger_time (s : ℕ) (save_in_class : Bool) (t : List ℝ) : M Unit :=
  if save_in_class then modSrc s fun x => { x with cols := { x.cols with t_merge := some t } } else pure ()

/-- `Source.get_merger_time`, source.py lines 1190-1224. -/
noncomputable def get_merger_time (W : World) (s : ℕ) (save_in_class : Bool) (which_sources : Option (List Bool))
    (exact : Bool) : M (List ℝ) := do
  let src ← getSrc s
  let w := which src.cols.n_sources (if save_in_class then none else which_sources)
  let t ← PyM.lift (calc_merger_time W src.cols w exact)
  save_merger_time s save_in_class t
  PyM.lift (index w t)

/-- Merger times are computed once, source.py lines 1247-1248. -/
noncomputable def ensure_t_merge (W : World) (s : ℕ) : M Unit := do
  let src ← getSrc s
  match src.cols.t_merge with
  | some _ => pure ()
  | none => do
    let _ ← get_merger_time W s true none true
    pure ()

/-- The common part of `evolve_sources`, source.py lines 1246-1287. -/
noncomputable def evolve_common (W : World) (s : ℕ) (t_evol : EvolTime) : M Evolved := do
  ensure_t_merge W s
  let src ← getSrc s
  let t_merge ← attr src.cols.t_merge
  PyM.lift (calc_evolve W src.cols t_merge t_evol)

/-- Columns after an evolution. -/
def Cols.evolved (c : Cols) (e : Evolved) : Cols :=
  { c with ecc := e.ecc, f_orb := e.f_orb, merged := e.merged, t_merge := some e.t_merge }

/-- `Source.evolve_sources(t_evol)` in place, source.py lines 1226-1287 and 1311-1318. -/
noncomputable def evolve_sources (W : World) (s : ℕ) (t_evol : EvolTime) : M Unit := do
  let e ← evolve_common W s t_evol
  modSrc s fun x => { x with cols := x.cols.evolved e }

/-! ### Constructor -/

/-- A numeric argument: a number or an array, with or without units (values in SI units). -/
inductive Raw
  | scalar (x : ℝ) (units : Bool)
  | array (xs : List ℝ) (units : Bool)

/-- `isinstance(x, Quantity)`. -/
def Raw.hasUnits : Raw → Bool
  | .scalar _ u => u
  | .array _ u => u

/-- The array made of a number or array by `ensure_array` or `np.atleast_1d`. -/
def Raw.toList : Raw → List ℝ
  | .scalar x _ => [x]
  | .array xs _ => xs

/-- `len(x)`: a number has none. -/
def Raw.len : Raw → Except PyErr ℕ
  | .scalar _ _ => throw .TypeError
  | .array xs _ => pure xs.length

/-- A sky position after `transform_to("barycentrictrueecliptic")` (astropy's transformation is not modelled): one
longitude and latitude or an array of them. -/
inductive RawPos
  | scalar (p : ℝ × ℝ)
  | array (ps : List (ℝ × ℝ))

/-- `np.atleast_1d`. -/
def RawPos.toList : RawPos → List (ℝ × ℝ)
  | .scalar p => [p]
  | .array ps => ps

/-- Arguments of the constructor; `rand_inclination` and `rand_polarisation` are the numbers `numpy.random` would
give. -/
structure InitArgs where
  m_1 : Raw
  m_2 : Raw
  ecc : Raw
  dist : Raw
  n_proc : ℕ := 1
  f_orb : Option Raw := none
  a : Option Raw := none
  position : Option RawPos := none
  polarisation : Option Raw := none
  inclination : Option Raw := none
  weights : Option Raw := none
  gw_lum_tol : ℝ := 0.05
  stat_tol : ℝ := 1e-2
  interpolate_g : Bool := true
  interpolate_sc : Bool := true
  sc_params : Option Dict := some []
  rand_inclination : ℕ → ℝ := fun _ => 0
  rand_polarisation : ℕ → ℝ := fun _ => 0

/-- Random values for a missing angle, source.py lines 151-158. -/
def fill_angle (m_1 : Raw) (rand : ℕ → ℝ) : Option Raw → Except PyErr Raw
  | some x => pure x
  | none => do
    let n ← m_1.len
    pure (.array ((List.range n).map rand) true)

open Classical in
/-- The sky position of the sources, source.py lines 160-173. `SkyCoord` broadcasts positions and distances of
lengths that agree or are one. -/
noncomputable def place (pos : List (ℝ × ℝ)) (dist : List ℝ) : Except PyErr (List (ℝ × ℝ)) :=
  if pos.length = dist.length then pure pos
  else match pos with
    | [p] => pure (List.replicate dist.length p)
    | _ => if dist.length = 1 then pure pos else throw .ValueError

open Classical in
/-- Position, polarisation and inclination, source.py lines 144-173. -/
noncomputable def init_orientation (a : InitArgs) :
    Except PyErr (Option (List (ℝ × ℝ)) × Option (List ℝ) × Option (List ℝ)) :=
  match a.position with
  | none =>
    if a.inclination.isSome then throw .ValueError
    else if a.polarisation.isSome then throw .ValueError
    else pure (none, none, none)
  | some pos => do
    let inclination ← fill_angle a.m_1 a.rand_inclination a.inclination
    let polarisation ← fill_angle a.m_1 a.rand_polarisation a.polarisation
    if ∃ e ∈ a.ecc.toList, e ≠ 0 then throw .ValueError
    else do
      let position ← place pos.toList a.dist.toList
      pure (some position, some polarisation.toList, some inclination.toList)

/-- `utils.get_f_orb_from_a(a, m_1, m_2)` on the raw arguments, source.py line 176: adding masses with and without
units and converting to Hz (utils.py line 152) without all the units are a `UnitConversionError`, incompatible lengths
a `ValueError`. (That astropy lets a mass of exactly 0 go without units is left out.) -/
noncomputable def f_orb_of_a (K : Consts) (a m_1 m_2 : Raw) : Except PyErr Raw :=
  if m_1.hasUnits ≠ m_2.hasUnits then throw .UnitConversionError
  else match a, m_1, m_2 with
  | .scalar x ua, .scalar y u1, .scalar z u2 =>
    if ua && u1 && u2 then pure (.scalar (get_f_orb_from_a K x y z) true) else throw .UnitConversionError
  | _, _, _ => do
    let m ← broadcast2 (fun x y => x + y) m_1.toList m_2.toList
    let f ← broadcast2 (fun a m => get_f_orb_from_a K a m 0) a.toList m
    if a.hasUnits && m_1.hasUnits && m_2.hasUnits then pure (.array f true) else throw .UnitConversionError

/-- The orbital frequency, source.py lines 140-141 and 176; a given frequency takes precedence. -/
noncomputable def init_f_orb (K : Consts) (a : InitArgs) : Except PyErr Raw :=
  match a.f_orb, a.a with
  | some f, _ => pure f
  | none, some sep => f_orb_of_a K sep a.m_1 a.m_2
  | none, none => throw .ValueError

/-- The checks and conversions of the constructor, source.py lines 139-216: the columns of the new object. -/
noncomputable def init_cols (W : World) (a : InitArgs) : Except PyErr Cols := do
  if a.f_orb.isNone ∧ a.a.isNone then throw .ValueError
  else do
    let (position, polarisation, inclination) ← init_orientation a
    let f_orb ← init_f_orb W.K a
    if ¬ (a.m_1.hasUnits && a.m_2.hasUnits && a.dist.hasUnits && f_orb.hasUnits) then throw .AssertionError
    else
      let m_1 := a.m_1.toList
      let n := m_1.length
      if ¬ (a.m_2.toList.length = n ∧ a.dist.toList.length = n ∧ f_orb.toList.length = n ∧ a.ecc.toList.length = n)
      then throw .ValueError
      else pure { m_1 := m_1, m_2 := a.m_2.toList, dist := a.dist.toList, f_orb := f_orb.toList, ecc := a.ecc.toList,
                  weights := a.weights.map Raw.toList, position := position, inclination := inclination,
                  polarisation := polarisation, merged := List.replicate n false }

/-- `Source(...)` and its subclasses with the same constructor, source.py lines 136-230. -/
noncomputable def init (W : World) (cls : Cls) (a : InitArgs) : M ℕ := do
  let cols ← PyM.lift (init_cols W a)
  let s ← newSrc { cls := cls, cols := cols, stat_tol := a.stat_tol, n_proc := a.n_proc,
                   interpolate_sc := a.interpolate_sc }
  set_gw_lum_tol W s a.gw_lum_tol
  set_sc_params W s a.sc_params
  set_g W s a.interpolate_g
  pure s

/-- The contents of `verification_binaries.npy`, source.py lines 1625-1627. `position` is what astropy makes of the
galactic coordinates `l_gal` and `b_gal` when the constructor asks for ecliptic ones. -/
structure Table where
  m_1 : List ℝ
  m_2 : List ℝ
  dist : List ℝ
  f_GW : List ℝ
  position : List (ℝ × ℝ)
  i : List ℝ
  label : List String
  snr : List ℝ

/-- The arguments of `super().__init__`, source.py lines 1629-1634; `rand` are the random polarisations. -/
noncomputable def Table.args (vbs : Table) (rand : ℕ → ℝ) : InitArgs :=
  { m_1 := .array vbs.m_1 true, m_2 := .array vbs.m_2 true, dist := .array vbs.dist true,
    f_orb := some (.array (vbs.f_GW.map fun f => f / 2) true), ecc := .array (List.replicate vbs.m_1.length 0) false,
    position := some (.array vbs.position), inclination := some (.array vbs.i true), interpolate_g := false,
    rand_polarisation := rand }

/-- A `VerificationBinaries` object: a source and the two attributes that other sources do not have. -/
structure Verification where
  source : ℕ
  labels : List String
  true_snr : List ℝ

/-- `VerificationBinaries()`, source.py lines 1624-1639. -/
noncomputable def verification_binaries (W : World) (vbs : Table) (rand : ℕ → ℝ) : M Verification := do
  let s ← init W .VerificationBinaries (vbs.args rand)
  let src ← getSrc s
  let _ ← store_harm s (List.replicate src.cols.n_sources 2)
  pure ⟨s, vbs.label, vbs.snr⟩

/-- The arguments with which `evolve_sources` calls the constructor, source.py lines 1291-1295. -/
def evolved_args (src : Src) (tol : ℝ) (d : Dict) (e : Evolved) : InitArgs :=
  { m_1 := .array src.cols.m_1 true, m_2 := .array src.cols.m_2 true, ecc := .array e.ecc false,
    dist := .array src.cols.dist true, n_proc := src.n_proc, f_orb := some (.array e.f_orb true),
    position := src.cols.position.map .array, polarisation := src.cols.polarisation.map fun x => .array x true,
    inclination := src.cols.inclination.map fun x => .array x true, gw_lum_tol := tol, stat_tol := src.stat_tol,
    interpolate_g := false, interpolate_sc := false, sc_params := some d }

/-- `Source.evolve_sources(t_evol, create_new_class=True)`, source.py lines 1289-1310. The merger times are those
computed or cached at the start. -/
noncomputable def evolve_sources_new (W : World) (s : ℕ) (t_evol : EvolTime) : M ℕ := do
  let e ← evolve_common W s t_evol
  let src ← getSrc s
  let tol ← attr src.gw_lum_tol
  let p ← getSrcPar s
  let params ← getPar p
  let s' ← init W .Source (evolved_args src tol params.dict e)
  modSrc s' fun x => { x with g := src.g, interpolate_sc := true, sc := src.sc,
                              cols := { x.cols with t_merge := some e.t_merge, merged := e.merged } }
  pure s'

/-! ### Indexing and copying -/

/-- The argument of `sources[ind]`. `other` is anything whose array is neither of booleans nor of integers (floats,
strings, also the empty python list, which numpy takes for an array of floats). Nested lists are not modelled. -/
inductive Index
  | int (i : ℤ)
  | bool (b : Bool)
  | slice (start stop step : Option ℤ)
  | ints (is : List ℤ)
  | bools (bs : List Bool)
  | other

/-- The mask computed by `__getitem__`: integers or booleans. -/
inductive Sel
  | ints (is : List ℤ)
  | bools (bs : List Bool)

/-- `slice.indices(n)` bounds for a given step, as in CPython's `PySlice_AdjustIndices`. -/
def slice_bounds (n : ℕ) (start stop : Option ℤ) (step : ℤ) : ℤ × ℤ :=
  let lower : ℤ := if step < 0 then -1 else 0
  let upper : ℤ := if step < 0 then (n : ℤ) - 1 else n
  let clip := fun x : ℤ => if x < 0 then max (x + n) lower else min x upper
  ((start.map clip).getD (if step < 0 then upper else lower), (stop.map clip).getD (if step < 0 then lower else upper))

/-- `np.arange(n)[start:stop:step]`. -/
def slice_ints (n : ℕ) (start stop step : Option ℤ) : Except PyErr (List ℤ) :=
  let step := step.getD 1
  if step = 0 then throw .ValueError
  else
    let (lo, hi) := slice_bounds n start stop step
    let count := if step > 0 then (hi - lo + step - 1) / step else (lo - hi - step - 1) / (-step)
    pure ((List.range count.toNat).map fun k : ℕ => lo + k * step)

/-- The mask, source.py lines 262-276. A python `bool` is an `int` and is wrapped without a length check. -/
def to_mask (n : ℕ) : Index → Except PyErr Sel
  | .int i => pure (.ints [i])
  | .bool b => pure (.bools [b])
  | .slice start stop step => do
    let is ← slice_ints n start stop step
    pure (.ints is)
  | .ints is => pure (.ints is)
  | .bools bs => if bs.length ≠ n then throw .ValueError else pure (.bools bs)
  | .other => throw .ValueError

/-- `xs[i]` for a python integer: negative indices count from the end. -/
def at? {α : Type} (xs : List α) (i : ℤ) : Except PyErr α :=
  let j := if i < 0 then i + xs.length else i
  if 0 ≤ j then
    match xs[j.toNat]? with
    | some x => pure x
    | none => throw .IndexError
  else throw .IndexError

/-- `xs[mask]`. -/
def pick {α : Type} (m : Sel) (xs : List α) : Except PyErr (List α) :=
  match m with
  | .ints is => is.mapM (at? xs)
  | .bools bs => index bs xs

/-- `xs[mask]` of an attribute that may be `None`. -/
def pick? {α : Type} (m : Sel) : Option (List α) → Except PyErr (Option (List α))
  | none => pure none
  | some xs => do
    let ys ← pick m xs
    pure (some ys)

/-- Masking of the columns, source.py lines 281-292. -/
def pick_cols (m : Sel) (c : Cols) : Except PyErr Cols := do
  let m_1 ← pick m c.m_1
  let m_2 ← pick m c.m_2
  let dist ← pick m c.dist
  let f_orb ← pick m c.f_orb
  let ecc ← pick m c.ecc
  let weights ← pick? m c.weights
  let position ← pick? m c.position
  let inclination ← pick? m c.inclination
  let polarisation ← pick? m c.polarisation
  let merged ← pick m c.merged
  let t_merge ← pick? m c.t_merge
  pure ⟨m_1, m_2, dist, f_orb, ecc, weights, position, inclination, polarisation, merged, t_merge⟩

/-- Masking of the SNR array into a new array. -/
def pick_snr (m : Sel) : Option ℕ → M (Option ℕ)
  | none => pure none
  | some r => do
    let heap ← PyM.get
    let xs ← PyM.lift (pick m (heap.snrs r))
    let r' ← newSnr xs
    pure (some r')

/-- Masking of the harmonics array into a new array. -/
def pick_harm (m : Sel) : Option ℕ → M (Option ℕ)
  | none => pure none
  | some r => do
    let heap ← PyM.get
    let xs ← PyM.lift (pick m (heap.harms r))
    let r' ← newHarm xs
    pure (some r')

/-- The part of `__getitem__` after the mask is known, source.py lines 278-296. The copy of the parameters made in the
loop (line 291) is dropped again at once and left out. -/
def getitem_mask (s : ℕ) (m : Sel) : M ℕ := do
  let src ← getSrc s
  let cols ← PyM.lift (pick_cols m src.cols)
  let snr ← pick_snr m src.snr
  let harm ← pick_harm m src.max_snr_harmonic
  let p ← attr src.sc_params
  let params ← getPar p
  let s' ← newSrc { src with cols := cols, snr := snr, max_snr_harmonic := harm }
  let p' ← new_params (some params.dict) (some s')
  modSrc s' fun x => { x with sc_params := some p' }
  pure s'

/-- `sources[ind]`, source.py lines 238-296 and (for verification binaries) 1642-1643. -/
def getitem (s : ℕ) (ind : Index) : M ℕ := do
  let src ← getSrc s
  match src.cls with
  | .VerificationBinaries => PyM.lift (throw .NotImplementedError)
  | _ => do
    let m ← PyM.lift (to_mask src.cols.n_sources ind)
    getitem_mask s m

/-- `sources.copy()`, source.py lines 298-306. -/
def copy (s : ℕ) : M ℕ := getitem s (.slice none none none)

end Legwork.source
