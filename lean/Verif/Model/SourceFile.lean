import Verif.Model.Source

/-!
# Model of saving and loading sources

`src/legwork/source.py` lines 20-27 (attributes), 308-377 (`save`), 379-487 (`from_file`), 1649-1666 (datasets).

Files are kept by location; `Files.locate` gives the location a path refers to, so different paths can refer to the same
file. A file written with `h5py` is its attributes, its datasets and the attributes of the group `sc_params`. The library
writes what it is told at once (buffering is not modelled) and values come back as they were written, strings for
units included. Numbers are in SI units. No other process changes files while these functions run.
-/

namespace Legwork.source

/-- A value of an HDF5 attribute. -/
inductive AVal
  | str (s : String)
  | real (x : ℝ)
  | nat (n : ℕ)
  | bool (b : Bool)

/-- The contents of a dataset; a missing real number is a NaN. -/
inductive Data
  | reals (xs : List ℝ)
  | nans (xs : List (Option ℝ))
  | nats (xs : List ℕ)
  | bools (xs : List Bool)

/-- A dataset and whether it has the attribute `unit`. -/
structure DSet where
  data : Data
  unit : Bool

/-- `group[key] = value` for attributes and datasets. -/
def put {α : Type} (l : List (String × α)) (key : String) (v : α) : List (String × α) :=
  match l with
  | [] => [(key, v)]
  | (k, w) :: rest => if k = key then (key, v) :: rest else (k, w) :: put rest key v

/-- An HDF5 file: attributes, datasets, and the attributes of the group `sc_params` once it exists. -/
structure H5 where
  attrs : List (String × AVal)
  data : List (String × DSet)
  sc : Option (List (String × AVal))

/-- A file just opened with mode `"w"`. -/
def H5.empty : H5 := ⟨[], [], none⟩

/-- What can be at a location. -/
inductive Entry
  | folder
  | other
  | h5 (f : H5)

/-- What is where. -/
abbrev Store : Type := ℕ → Option Entry

/-- The surroundings: what paths refer to, where a file can be opened for writing, the version of LEGWORK, and the order
in which `h5py` lists attributes. -/
structure Files where
  locate : String → ℕ
  writable : ℕ → Bool
  version : String
  order : List (String × AVal) → List (String × AVal)
  order_perm : ∀ l, (order l).Perm l

/-- `name.endswith(suffix)`. -/
def endswith (name suffix : String) : Bool := suffix.toList.isSuffixOf name.toList

/-- The path used for a file name, source.py lines 336-337 and 420-421. -/
def normalise (file_name : String) : String :=
  if endswith file_name ".h5" || endswith file_name ".hdf5" then file_name else file_name ++ ".h5"

/-- `os.path.isfile(path)`. -/
def isfile (Φ : Files) (st : Store) (path : String) : Bool :=
  match st (Φ.locate path) with
  | some .other => true
  | some (.h5 _) => true
  | _ => false

/-! ### Saving -/

/-- One change of an open file. A dataset is only written under a new name. -/
inductive Write
  | attr (key : String) (v : AVal)
  | dataset (name : String) (d : Data)
  | unit (name : String)
  | group
  | scAttr (key : String) (v : AVal)

/-- Its effect. -/
def Write.apply (f : H5) : Write → H5
  | .attr key v => { f with attrs := put f.attrs key v }
  | .dataset name d => { f with data := put f.data name ⟨d, false⟩ }
  | .unit name => { f with data := f.data.map fun x => if x.1 = name then (x.1, { x.2 with unit := true }) else x }
  | .group => { f with sc := some [] }
  | .scAttr key v => { f with sc := f.sc.map fun l => put l key v }

/-- `__class__.__name__`. -/
def Cls.name : Cls → String
  | .Source => "Source"
  | .Stationary => "Stationary"
  | .Evolving => "Evolving"
  | .VerificationBinaries => "VerificationBinaries"

/-- The settings, source.py lines 344-352. -/
def write_settings (Φ : Files) (src : Src) (tol : ℝ) : List Write :=
  [.attr "legwork_version" (.str Φ.version), .attr "class_name" (.str src.cls.name),
   .attr "n_sources" (.nat src.cols.n_sources), .attr "gw_lum_tol" (.real tol), .attr "stat_tol" (.real src.stat_tol),
   .attr "n_proc" (.nat src.n_proc), .attr "interpolate_g" (.bool src.g.isSome),
   .attr "interpolate_sc" (.bool src.interpolate_sc)]

/-- `_write_dataset`, source.py lines 1649-1656, not called for `None`. -/
def write_dataset : String × Option DSet → List Write
  | (_, none) => []
  | (name, some d) => .dataset name d.data :: if d.unit then [.unit name] else []

/-- The attributes in the order of `_ARR_ATTRS`, source.py lines 20-23 and 354-362. Whether weights have units is left
out: they are saved without. -/
def columns (h : Heap) (src : Src) : List (String × Option DSet) :=
  [("m_1", some ⟨.reals src.cols.m_1, true⟩), ("m_2", some ⟨.reals src.cols.m_2, true⟩),
   ("dist", some ⟨.reals src.cols.dist, true⟩), ("f_orb", some ⟨.reals src.cols.f_orb, true⟩),
   ("ecc", some ⟨.reals src.cols.ecc, false⟩), ("weights", src.cols.weights.map fun x => ⟨.reals x, false⟩),
   ("inclination", src.cols.inclination.map fun x => ⟨.reals x, true⟩),
   ("polarisation", src.cols.polarisation.map fun x => ⟨.reals x, true⟩),
   ("position_lon", src.cols.position.map fun x => ⟨.reals (x.map Prod.fst), true⟩),
   ("position_lat", src.cols.position.map fun x => ⟨.reals (x.map Prod.snd), true⟩),
   ("t_merge", src.cols.t_merge.map fun x => ⟨.reals x, true⟩),
   ("snr", src.snr.map fun r => ⟨.nans (h.snrs r), false⟩),
   ("max_snr_harmonic", src.max_snr_harmonic.map fun r => ⟨.nats (h.harms r), false⟩),
   ("merged", some ⟨.bools src.cols.merged, false⟩)]

/-- One parameter, source.py lines 366-377. -/
def write_param : String × PVal → List Write
  | (_, .psdFn _) => []
  | (_, .noiseFn _) => []
  | (key, .none) => [.scAttr key (.str "__none__")]
  | (key, .time t) => [.scAttr key (.real t), .scAttr (key ++ "_unit") (.str "s")]
  | (key, .length l) => [.scAttr key (.real l), .scAttr (key ++ "_unit") (.str "m")]
  | (key, .str s) => [.scAttr key (.str s)]
  | (key, .bool b) => [.scAttr key (.bool b)]
  | (key, .num x) => [.scAttr key (.real x)]

/-- Everything written, in order. -/
def save_writes (Φ : Files) (h : Heap) (src : Src) (tol : ℝ) (d : Dict) : List Write :=
  write_settings Φ src tol ++ (columns h src).flatMap write_dataset ++ .group :: d.flatMap write_param

/-- The keys of the parameters for which a warning is printed, source.py lines 367-370. -/
def unsaved : Dict → List String
  | [] => []
  | (key, .psdFn _) :: rest => key :: unsaved rest
  | (key, .noiseFn _) :: rest => key :: unsaved rest
  | _ :: rest => unsaved rest

/-- The stores after each of the writes to the file at `loc`, which contains `f`. -/
def run_writes (loc : ℕ) : List Write → H5 → Store → List Store
  | [], _, _ => []
  | w :: ws, f, st =>
    let st' := Function.update st loc (some (.h5 (w.apply f)))
    st' :: run_writes loc ws (w.apply f) st'

/-- `Source.save(file_name, overwrite)`, source.py lines 308-377: the outcome, with the keys warned about, and the stores
that follow the given one, up to the last. An object whose constructor failed has no tolerance or parameters; what
saving it leaves behind is left out. -/
def save (Φ : Files) (h : Heap) (s : ℕ) (file_name : String) (overwrite : Bool) (st : Store) :
    Except PyErr (List String) × List Store :=
  let path := normalise file_name
  if isfile Φ st path && !overwrite then (.error .FileExistsError, [])
  else
    let loc := Φ.locate path
    match st loc, Φ.writable loc with
    | some .folder, _ => (.error .OSError, [])
    | _, false => (.error .OSError, [])
    | _, true =>
      match (h.src s).gw_lum_tol, (h.src s).sc_params with
      | some tol, some p =>
        let opened := Function.update st loc (some (.h5 H5.empty))
        (.ok (unsaved (h.par p).dict),
          opened :: run_writes loc (save_writes Φ h (h.src s) tol (h.par p).dict) H5.empty opened)
      | _, _ => (.error .AttributeError, [])

/-! ### Loading -/

/-- `_read_dataset`, source.py lines 1659-1666, for the arguments of the constructor. -/
def read_raw (f : H5) (name : String) : Except PyErr (Option Raw) :=
  match f.data.lookup name with
  | none => pure none
  | some ⟨.reals xs, u⟩ => pure (some (.array xs u))
  | some _ => throw .TypeError

/-- The same for an argument that the constructor needs. A missing dataset gives `None`, on which the constructor fails;
simplified to `TypeError`. -/
def read_needed (f : H5) (name : String) : Except PyErr Raw := do
  match ← read_raw f name with
  | some x => pure x
  | none => throw .TypeError

/-- The sky position, source.py lines 438-444. Longitudes and latitudes of different lengths fail. -/
noncomputable def read_position (f : H5) (dist : Raw) : Except PyErr (Option RawPos) := do
  match ← read_raw f "position_lon" with
  | none => pure none
  | some lon => do
    let lat ← read_needed f "position_lat"
    if lon.toList.length = lat.toList.length then do
      let pos ← place (lon.toList.zip lat.toList) dist.toList
      pure (some (.array pos))
    else throw .ValueError

/-- A parameter with a unit. -/
def with_unit : AVal → AVal → Except PyErr PVal
  | .real x, .str u => if u = "s" then pure (.time x) else if u = "m" then pure (.length x) else throw .ValueError
  | _, _ => throw .TypeError

/-- One parameter, source.py lines 451-456. -/
def read_param (l : List (String × AVal)) (key : String) (v : AVal) : Except PyErr PVal :=
  match v, l.lookup (key ++ "_unit") with
  | .str s, none => if s = "__none__" then pure .none else pure (.str s)
  | .str s, some u => if s = "__none__" then pure .none else with_unit (.str s) u
  | v, some u => with_unit v u
  | .bool b, none => pure (.bool b)
  | .real x, none => pure (.num x)
  | .nat n, none => pure (.num n)

/-- The loop over the attributes of the group, source.py lines 446-456. -/
def read_params (l : List (String × AVal)) : List (String × AVal) → Dict → Except PyErr Dict
  | [], d => pure d
  | (key, v) :: rest, d =>
    if endswith key "_unit" then read_params l rest d
    else do
      let x ← read_param l key v
      read_params l rest (d.set key x)

/-- `file.attrs[key]` for a number that is converted with `int` or `float`. -/
def attr_nat (f : H5) (key : String) : Except PyErr ℕ :=
  match f.attrs.lookup key with
  | some (.nat n) => pure n
  | some _ => throw .TypeError
  | none => throw .KeyError

/-- The same for a float. -/
def attr_real (f : H5) (key : String) : Except PyErr ℝ :=
  match f.attrs.lookup key with
  | some (.real x) => pure x
  | some _ => throw .TypeError
  | none => throw .KeyError

/-- The same for a truth value. -/
def attr_bool (f : H5) (key : String) : Except PyErr Bool :=
  match f.attrs.lookup key with
  | some (.bool b) => pure b
  | some _ => throw .TypeError
  | none => throw .KeyError

/-- A setting from the file unless it is given, source.py lines 465-467. -/
def given_or {α : Type} (x : Option α) (saved : Except PyErr α) : Except PyErr α :=
  match x with
  | some x => pure x
  | none => saved

/-- The class of the new object, source.py lines 469-475: a saved subclass with the constructor of `Source`. -/
def klass (cls : Cls) (f : H5) : Cls :=
  if cls = .Source then
    match f.attrs.lookup "class_name" with
    | some (.str "Stationary") => .Stationary
    | some (.str "Evolving") => .Evolving
    | _ => .Source
  else cls

/-- The arguments for the constructor, source.py lines 434-479. -/
noncomputable def load_args (Φ : Files) (f : H5) (interpolate_g interpolate_sc : Option Bool) (n_proc : Option ℕ) :
    Except PyErr InitArgs := do
  let m_1 ← read_needed f "m_1"
  let m_2 ← read_needed f "m_2"
  let dist ← read_needed f "dist"
  let f_orb ← read_raw f "f_orb"
  let ecc ← read_needed f "ecc"
  let weights ← read_raw f "weights"
  let inclination ← read_raw f "inclination"
  let polarisation ← read_raw f "polarisation"
  let position ← read_position f dist
  match f.sc with
  | none => throw .KeyError
  | some l => do
    let sc_params ← read_params l (Φ.order l) []
    let ig ← given_or interpolate_g (attr_bool f "interpolate_g")
    let isc ← given_or interpolate_sc (attr_bool f "interpolate_sc")
    let n_proc ← given_or n_proc (attr_nat f "n_proc")
    let gw_lum_tol ← attr_real f "gw_lum_tol"
    let stat_tol ← attr_real f "stat_tol"
    pure { m_1 := m_1, m_2 := m_2, dist := dist, f_orb := f_orb, ecc := ecc, weights := weights,
           inclination := inclination, polarisation := polarisation, position := position, n_proc := n_proc,
           gw_lum_tol := gw_lum_tol, stat_tol := stat_tol, interpolate_g := ig, interpolate_sc := isc,
           sc_params := some sc_params }

/-- `setattr(sources, "t_merge", value)` if it had been calculated, source.py lines 481-485. Datasets of another kind are
left out, here and below. -/
def restore_t_merge (f : H5) (s : ℕ) : M Unit :=
  match f.data.lookup "t_merge" with
  | some ⟨.reals xs, _⟩ => modSrc s fun x => { x with cols := { x.cols with t_merge := some xs } }
  | _ => pure ()

/-- `setattr(sources, "snr", value)`, likewise. -/
def restore_snr (f : H5) (s : ℕ) : M Unit :=
  match f.data.lookup "snr" with
  | some ⟨.nans xs, _⟩ => do let _ ← store_snr s xs; pure ()
  | _ => pure ()

/-- `setattr(sources, "max_snr_harmonic", value)`, likewise. -/
def restore_harm (f : H5) (s : ℕ) : M Unit :=
  match f.data.lookup "max_snr_harmonic" with
  | some ⟨.nats xs, _⟩ => do let _ ← store_harm s xs; pure ()
  | _ => pure ()

/-- `setattr(sources, "merged", value)`, likewise. -/
def restore_merged (f : H5) (s : ℕ) : M Unit :=
  match f.data.lookup "merged" with
  | some ⟨.bools xs, _⟩ => modSrc s fun x => { x with cols := { x.cols with merged := xs } }
  | _ => pure ()

/-- The loop over `_NOT_KWARG_ATTRS`, source.py lines 25-27 and 481-485. -/
def restore (f : H5) (s : ℕ) : M Unit := do
  restore_t_merge f s
  restore_snr f s
  restore_harm f s
  restore_merged f s

/-- The new object and which warnings are printed: for another version, and for a missing custom function. -/
structure Loaded where
  source : ℕ
  other_version : Bool
  no_psd : Bool

/-- The version warning, source.py lines 427-432. -/
def other_version (Φ : Files) (f : H5) : Bool :=
  match f.attrs.lookup "legwork_version" with
  | some (.str v) => decide (v ≠ Φ.version)
  | some _ => true
  | none => decide ("unknown" ≠ Φ.version)

/-- The warning about the custom function, source.py lines 458-462. -/
def no_psd (d : Dict) : Bool :=
  match d.get "instrument", d.get "custom_psd" with
  | .str s, .none => decide (s = "custom")
  | _, _ => false

/-- `cls.from_file(file_name, interpolate_g, interpolate_sc, n_proc)`, source.py lines 379-487. The constructor of
`VerificationBinaries` takes no arguments. -/
noncomputable def from_file (W : World) (Φ : Files) (st : Store) (cls : Cls) (file_name : String)
    (interpolate_g interpolate_sc : Option Bool) (n_proc : Option ℕ) : M Loaded := do
  let path := normalise file_name
  if isfile Φ st path then
    match st (Φ.locate path) with
    | some (.h5 f) => do
      let a ← PyM.lift (load_args Φ f interpolate_g interpolate_sc n_proc)
      if klass cls f = .VerificationBinaries then PyM.lift (throw .TypeError)
      else do
        let s ← init W (klass cls f) a
        restore f s
        pure ⟨s, other_version Φ f, no_psd (a.sc_params.getD [])⟩
    | _ => PyM.lift (throw .OSError)
  else PyM.lift (throw .FileNotFoundError)

end Legwork.source
