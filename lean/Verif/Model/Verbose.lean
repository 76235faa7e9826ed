import Verif.Model.Source

/-!
# `verbose=True`

The SNR methods of `Source` with what they print. `Model/Source` leaves the printing out; here the same code is followed
with it (the two are shown to agree in everything else).
-/

namespace Legwork.source

/-- A python session: the objects and the lines printed so far. -/
structure Console where
  heap : Heap
  printed : List String

/-- Code that may print. -/
abbrev V := PyM Console

/-- Code that does not print. -/
def quiet {α : Type} (m : M α) : V α := fun k => ((m k.heap).1, { k with heap := (m k.heap).2 })

/-- `if verbose: print(line)`. -/
def say (verbose : Bool) (line : String) : V Unit :=
  PyM.modify fun k => if verbose then { k with printed := k.printed ++ [line] } else k

/-- The argument `which_sources`: nothing, a numpy array or a python list of booleans. -/
inductive Which
  | none
  | array (m : List Bool)
  | list (m : List Bool)

/-- The mask meant; numpy functions take a list like an array. -/
def Which.mask : Which → Option (List Bool)
  | .none => Option.none
  | .array m => some m
  | .list m => some m

/-- `len(which_sources[which_sources]) if which_sources is not None else self.n_sources`, source.py line 890: a list
cannot be indexed by a list. -/
def Which.chosen (n_sources : ℕ) : Which → Except PyErr ℕ
  | .none => pure n_sources
  | .array m => do
    let x ← index m m
    pure x.length
  | .list _ => throw .TypeError

/-- The first two lines, source.py lines 889-893. -/
def announce (verbose : Bool) (c : Cols) (ws : Which) : V Unit :=
  if verbose then do
    let n ← PyM.lift (ws.chosen c.n_sources)
    say true ("Calculating SNR for " ++ toString n ++ " sources")
    let m ← PyM.lift (index c.merged c.merged)
    say true ("\t" ++ toString m.length ++ " sources have already merged")
  else pure ()

/-- Circular sources, source.py lines 1011-1024 and 1133-1150: announced, then calculated by `run`. -/
def circ_v (verbose : Bool) (kind : String) (c_mask : List Bool) (run : Except PyErr (List (Option ℝ))) (acc : SnrState) :
    V SnrState :=
  if c_mask.any id then do
    say verbose ("\t\t" ++ toString (np.select c_mask acc.1).length ++ " sources are " ++ kind ++ " and circular")
    let s ← PyM.lift run
    pure (np.assign c_mask acc.1 s, acc.2)
  else pure acc

/-- Eccentric sources, source.py lines 1028-1052 and 1151-1178. -/
noncomputable def ecc_v (verbose : Bool) (kind : String) (c : Cols) (S : Settings) (e_mask : List Bool)
    (run : List Bool → ℕ → Except PyErr snr.SnrOut) (acc : SnrState) : V SnrState :=
  if e_mask.any id then do
    say verbose ("\t\t" ++ toString (np.select e_mask acc.1).length ++ " sources are " ++ kind ++ " and eccentric")
    PyM.lift (harmonic_groups.foldlM (snr_group c S e_mask run) acc)
  else pure acc

/-- The calculation in `get_snr_stationary` with its messages, source.py lines 994-1052. -/
noncomputable def calc_stationary_v (verbose : Bool) (C : snr.Ctx) (c : Cols) (S : Settings) (which : List Bool) :
    V (List Bool × SnrState) := do
  let insp ← PyM.lift (inspiralling c which)
  let e_mask ← PyM.lift (logical_and (ecc_above c.ecc S.ecc_tol) insp)
  let c_mask ← PyM.lift (logical_and (ecc_below c.ecc S.ecc_tol) insp)
  let os ← PyM.lift (orientations c c_mask (np.select c_mask c.m_c).length)
  let acc ← circ_v verbose "stationary" c_mask (do
      let srcs ← circ_srcs c c_mask os
      snr.snr_circ_stationary C srcs)
    (List.replicate c.n_sources (some 0), List.replicate c.n_sources 2)
  let acc ← ecc_v verbose "stationary" c S e_mask (run_ecc_stationary C c) acc
  pure (insp, acc)

/-- The calculation in `get_snr_evolving` with its messages, source.py lines 1106 and 1127-1178. -/
noncomputable def calc_evolving_v (verbose : Bool) (W : World) (C : snr.Ctx) (c : Cols) (S : Settings) (n_step : ℕ)
    (which : List Bool) : V (List Bool × SnrState) := do
  let insp ← PyM.lift (inspiralling c which)
  let e_mask ← PyM.lift (logical_and (ecc_above c.ecc S.ecc_tol) insp)
  let c_mask ← PyM.lift (logical_and (ecc_below c.ecc S.ecc_tol) insp)
  let acc ← circ_v verbose "evolving" c_mask (do
      let t_merge ← merge_times c c_mask
      let srcs ← evol_srcs c c_mask true
      snr.snr_circ_evolving C srcs n_step t_merge)
    (List.replicate c.n_sources (some 0), List.replicate c.n_sources 2)
  let acc ← ecc_v verbose "evolving" c S e_mask (run_ecc_evolving W C c S n_step) acc
  pure (insp, acc)

/-- `Source.get_snr_stationary(..., verbose=verbose)`, source.py lines 939-1061. -/
noncomputable def get_snr_stationary_v (W : World) (s : ℕ) (a : SnrArgs) (verbose : Bool) (ws : Which) :
    V (List (Option ℝ)) := do
  let a ← quiet (match_params W s a true)
  let src ← quiet (getSrc s)
  let S ← quiet (getSettings s)
  let C ← PyM.lift (ctxOf W src a)
  let w := which src.cols.n_sources ws.mask
  let (insp, res) ← calc_stationary_v verbose C src.cols S w
  quiet (record_snr s insp res)
  PyM.lift (index w res.1)

/-- `Source.get_snr_evolving(..., verbose=verbose)`, source.py lines 1063-1188. -/
noncomputable def get_snr_evolving_v (W : World) (s : ℕ) (a : SnrArgs) (n_step : ℕ) (verbose : Bool) (ws : Which) :
    V (List (Option ℝ)) := do
  let a ← quiet (match_params W s a true)
  let src ← quiet (getSrc s)
  let S ← quiet (getSettings s)
  let C ← PyM.lift (ctxOf W src a)
  let w := which src.cols.n_sources ws.mask
  let (insp, res) ← calc_evolving_v verbose W C src.cols S n_step w
  quiet (record_snr s insp res)
  PyM.lift (index w res.1)

/-- One half of `get_snr`, source.py lines 916-935. -/
def snr_part_v (verbose : Bool) (kind : String) (mask : List Bool) (run : V (List (Option ℝ))) (snr : List (Option ℝ)) :
    V (List (Option ℝ)) :=
  if mask.any id then do
    say verbose ("\t" ++ toString (np.select mask snr).length ++ " sources are " ++ kind)
    let s ← run
    pure (np.assign mask snr s)
  else pure snr

/-- `Source.get_snr(..., verbose=verbose)`, source.py lines 831-937. -/
noncomputable def Source_get_snr_v (W : World) (s : ℕ) (a : SnrArgs) (n_step : ℕ) (verbose : Bool) (ws : Which) : V ℕ := do
  let a ← quiet (match_params W s a false)
  let src ← quiet (getSrc s)
  announce verbose src.cols ws
  let w := which src.cols.n_sources ws.mask
  let stat ← quiet (get_source_mask W s .none (.bool true) a.t_obs)
  let stat_mask ← PyM.lift (reduce3 stat src.cols.merged w)
  let evo ← quiet (get_source_mask W s .none (.bool false) a.t_obs)
  let evol_mask ← PyM.lift (reduce3 evo src.cols.merged w)
  let snr := List.replicate src.cols.n_sources (some (0 : ℝ))
  let snr ← snr_part_v verbose "stationary" stat_mask (get_snr_stationary_v W s a verbose (.array stat_mask)) snr
  let snr ← snr_part_v verbose "evolving" evol_mask (get_snr_evolving_v W s a n_step verbose (.array evol_mask)) snr
  quiet (store_snr s snr)

/-- `Stationary.get_snr(..., verbose=verbose)`, source.py lines 1598-1601. -/
noncomputable def Stationary_get_snr_v (W : World) (s : ℕ) (a : SnrArgs) (verbose : Bool) : V ℕ := do
  let snr ← get_snr_stationary_v W s { t_obs := a.t_obs, instrument := a.instrument, custom_psd := a.custom_psd } verbose .none
  quiet (store_snr s snr)

/-- `Evolving.get_snr(..., verbose=verbose)`, source.py lines 1610-1613. -/
noncomputable def Evolving_get_snr_v (W : World) (s : ℕ) (a : SnrArgs) (n_step : ℕ) (verbose : Bool) : V ℕ := do
  let snr ← get_snr_evolving_v W s { t_obs := a.t_obs, instrument := a.instrument, custom_psd := a.custom_psd } n_step verbose
    .none
  quiet (store_snr s snr)

/-- `sources.get_snr(..., verbose=verbose)`, by class. -/
noncomputable def get_snr_v (W : World) (s : ℕ) (a : SnrArgs) (n_step : ℕ) (verbose : Bool) (ws : Which) : V ℕ := do
  let src ← quiet (getSrc s)
  match src.cls with
  | .Stationary => Stationary_get_snr_v W s a verbose
  | .Evolving => Evolving_get_snr_v W s a n_step verbose
  | _ => Source_get_snr_v W s a n_step verbose ws

end Legwork.source
