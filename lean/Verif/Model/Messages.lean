import Verif.Model.Source

/-!
# Log messages

The functions that log messages, with the messages. `Model/Evol`, `Model/Snr` and `Model/Source` leave them out; here the
same code is followed with them (the two are shown to agree in everything else). What becomes of a message is the
subject of `Model/Logging`; the messages of the plotting functions are in `Model/Visualisation`. The remaining message of
the library, in `psd.load_response_function`, is logged when opening the file of the response raises `FileExistsError`.
-/

namespace Legwork

/-- A logged message: its level and text. -/
abbrev Message := String × String

/-- Code that logs messages. -/
abbrev Log := PyM (List Message)

/-- `if c: logger.warning(text)`. -/
def tell_if (c : Prop) [Decidable c] (m : Message) : Log Unit := PyM.modify fun ms => if c then ms ++ [m] else ms

namespace evol

/-- evol.py lines 369-371. -/
def past_merger : Message := ("warning", "Some timesteps are past the merger of the source and this may produce " ++
  "erroneous results in combination with `avoid_merger=True`. Only evolve sources " ++
  "until their merger or set `avoid_merger=False`.")

/-- evol.py lines 379-380. -/
def all_too_close : Message := ("warning", "All timesteps are too close to merger so evolution is not possible. Either " ++
  "set `t_before` to a smaller time or turn off `avoid_merger`")

open Classical in
/-- The `avoid_merger` block of `evol.evol_ecc` with its messages, evol.py lines 359-389. `check` and `too_close` are the
same array; its first column is true when all entries are tested (line 378), and false afterwards. -/
noncomputable def avoid_merger_times_m {n : ℕ} (K : Consts) (ecc_i beta a_i : Fin n → ℝ)
    (exact_t_merge : Bool) (t_before : ℝ) (t_merge : Option (Fin n → ℝ)) (timesteps : Fin n → List ℝ) :
    Log (Fin n → List ℝ) := do
  let t_merge ← PyM.lift (match t_merge with
    | some t => pure t
    | none => get_t_merge_ecc K ecc_i (some a_i) none (some beta) none none 0.15 (1 - 1e-4) exact_t_merge)
  tell_if (∃ i, ∃ t ∈ timesteps i, t > t_merge i) past_merger
  PyM.lift (if ∃ i, timesteps i = [] then throw .IndexError else pure ())
  tell_if (∀ i, ∀ t ∈ (timesteps i).tail, t ≥ t_merge i - t_before) all_too_close
  pure fun i => clamp_row Gyr (t_merge i) t_before (timesteps i)

/-- `evol.evol_ecc` with its messages, evol.py lines 267-438. -/
noncomputable def evol_ecc_m {n : ℕ} (K : Consts) (odeint : Odeint) (ecc_i : Fin n → ℝ)
    (t_evol : Option (TEvol (Fin n))) (n_step : ℕ) (timesteps : Option (Steps (Fin n)))
    (beta m_1 m_2 a_i f_orb_i : Option (Fin n → ℝ)) (output_vars : List String) (n_proc : ℕ) (order : List ℕ)
    (avoid_merger exact_t_merge : Bool) (t_before : ℝ) (t_merge : Option (Fin n → ℝ)) : Log (EvolOut (Fin n)) := do
  let (beta, a_i) ← PyM.lift (check_mass_freq_input K beta m_1 m_2 a_i f_orb_i)
  PyM.lift (if wantsFreq output_vars = true ∧ (m_1.isNone ∨ m_2.isNone) then throw .ValueError else pure ())
  let c0 : Fin n → ℝ := fun i => utils.c_0 (a_i i) (ecc_i i)
  let timesteps ← PyM.lift (create_timesteps_array K a_i beta (some ecc_i) t_evol n_step timesteps)
  let timesteps ← if avoid_merger then
      avoid_merger_times_m K ecc_i beta a_i exact_t_merge t_before t_merge timesteps
    else pure timesteps
  let ecc_evol := integrate odeint n_proc order ecc_i timesteps beta c0
  let a_evol : Option (Fin n → List ℝ) :=
    if wantsSep output_vars then some fun i => (ecc_evol i).map fun e => utils.get_a_from_ecc e (c0 i) else none
  let f_orb_evol : Option (Fin n → List ℝ) :=
    match wantsFreq output_vars, a_evol, m_1, m_2 with
    | true, some a, some m1, some m2 => some fun i => (a i).map fun a => f_or_merged K AU a (m1 i) (m2 i)
    | _, _, _, _ => none
  PyM.lift (construct_output true ⟨timesteps, some ecc_evol, a_evol, f_orb_evol⟩ output_vars)

end evol

namespace snr

/-- `snr.snr_ecc_evolving` with the messages of `evol_ecc`, snr.py lines 237-356. -/
noncomputable def snr_ecc_evolving_m (C : Ctx) (odeint : evol.Odeint) (srcs : List EvolSrc) (harmonics_required n_step : ℕ)
    (t_merge : Option (List ℝ)) (n_proc : ℕ) (order : List ℕ) (ret_max_snr_harmonic ret_snr2_by_harmonic : Bool) :
    Log SnrOut := do
  let m1 := column srcs EvolSrc.m_1
  let m2 := column srcs EvolSrc.m_2
  let f := column srcs EvolSrc.f_orb_i
  let ecc := column srcs EvolSrc.ecc
  let t_merge ← PyM.lift (merge_times_ecc C srcs t_merge)
  let t_before := 0.1 * psd.yr
  let t_evol := fun i => min (t_merge i - t_before) C.t_obs
  let out ← evol.evol_ecc_m C.K odeint ecc (some (.array t_evol)) n_step none none (some m1) (some m2) none (some f)
    ["ecc", "f_orb"] n_proc order true false t_before (some t_merge)
  PyM.lift (do
    let (e_evol, f_orb_evol) ← pair out
    let rows := List.ofFn fun i => drop_merged_ecc (e_evol i) (f_orb_evol i)
    let es := List.ofFn e_evol
    let harms := harmonics harmonics_required
    let h_c ← strain.h_c_n C.K C.interpolated_g harms
      (srcs.zipWith (fun s (fs, es) => ⟨utils.chirp_mass s.m_1 s.m_2, s.dist, fs.zip es, {}⟩) (rows.zip es))
    let ns ← rows.mapM fun fs => harms.mapM fun n : ℤ => fs.mapM fun f => noise C (n * f)
    let snr_n_2 := (rows.zip (h_c.zip ns)).map fun (fs, h, ns) =>
      (harms.zip ns).zipIdx.map fun ((n, ns), k) =>
        snr2_harmonic (fs.map fun f => n * f) (h.map fun step => step.getD k 0) ns
    finish ret_max_snr_harmonic ret_snr2_by_harmonic harmonics_required snr_n_2)

end snr

namespace source

/-- The objects and the messages logged so far. -/
structure Session where
  heap : Heap
  messages : List Message

/-- Code that works with objects and logs nothing. -/
def unlogged {α : Type} (m : M α) : PyM Session α := fun k => ((m k.heap).1, { k with heap := (m k.heap).2 })

/-- `if c: logger.info(text)`, and the same for `logger.warning`. -/
def note_if (c : Prop) [Decidable c] (m : Message) : PyM Session Unit :=
  PyM.modify fun k => { k with messages := if c then k.messages ++ [m] else k.messages }

/-- source.py line 152. -/
def random_inclinations : Message := ("info", "Generating random values for source inclinations")

/-- source.py line 156. -/
def random_polarisations : Message := ("info", "Generating random values for source polarisations")

/-- source.py lines 225-228. -/
def few_sources : Message := ("warning", "Setting `interpolate_g=True` for a small number of sources may be slower than " ++
  "computing directly. The exact runtime depends on the eccentricity of your " ++
  "sources so we recommend trying your sample with `interpolate_g=False` to check " ++
  "which is faster.")

open Classical in
/-- Position, polarisation and inclination with the messages, source.py lines 144-173. -/
noncomputable def init_orientation_m (a : InitArgs) :
    PyM Session (Option (List (ℝ × ℝ)) × Option (List ℝ) × Option (List ℝ)) :=
  match a.position with
  | none =>
    if a.inclination.isSome then PyM.lift (throw .ValueError)
    else if a.polarisation.isSome then PyM.lift (throw .ValueError)
    else pure (none, none, none)
  | some pos => do
    note_if a.inclination.isNone random_inclinations
    let inclination ← PyM.lift (fill_angle a.m_1 a.rand_inclination a.inclination)
    note_if a.polarisation.isNone random_polarisations
    let polarisation ← PyM.lift (fill_angle a.m_1 a.rand_polarisation a.polarisation)
    if ∃ e ∈ a.ecc.toList, e ≠ 0 then PyM.lift (throw .ValueError)
    else do
      let position ← PyM.lift (place pos.toList a.dist.toList)
      pure (some position, some polarisation.toList, some inclination.toList)

/-- `Source(...)` with its messages, source.py lines 136-230. -/
noncomputable def init_m (W : World) (cls : Cls) (a : InitArgs) : PyM Session ℕ := do
  PyM.lift (if a.f_orb.isNone ∧ a.a.isNone then throw .ValueError else pure ())
  let (position, polarisation, inclination) ← init_orientation_m a
  let cols ← PyM.lift (do
    let f_orb ← init_f_orb W.K a
    if ¬ (a.m_1.hasUnits && a.m_2.hasUnits && a.dist.hasUnits && f_orb.hasUnits) then throw .AssertionError
    else
      let m_1 := a.m_1.toList
      let n := m_1.length
      if ¬ (a.m_2.toList.length = n ∧ a.dist.toList.length = n ∧ f_orb.toList.length = n ∧ a.ecc.toList.length = n)
      then throw .ValueError
      else pure { m_1 := m_1, m_2 := a.m_2.toList, dist := a.dist.toList, f_orb := f_orb.toList, ecc := a.ecc.toList,
                  weights := a.weights.map Raw.toList, position := position, inclination := inclination,
                  polarisation := polarisation, merged := List.replicate n false : Cols })
  let s ← unlogged (newSrc { cls := cls, cols := cols, stat_tol := a.stat_tol, n_proc := a.n_proc,
                             interpolate_sc := a.interpolate_sc })
  unlogged (set_gw_lum_tol W s a.gw_lum_tol)
  unlogged (set_sc_params W s a.sc_params)
  note_if (a.interpolate_g = true ∧ cols.n_sources ≤ 1000) few_sources
  unlogged (set_g W s a.interpolate_g)
  pure s

end source

end Legwork
