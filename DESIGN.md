# Formal model of LEGWORK: design

Source: `/repo` (TeamLEGWORK/LEGWORK, python), read as text and never run. Model and proofs: `lean/` (Lean 4.33.0 +
Mathlib). Properties: `properties.jsonl`. Claims and theorem names: `MANIFEST.json`. Wrong programs tried:
`seeded/LOG.jsonl`.

## Trusted base

1. Lean's kernel.
2. Axioms. No axiom, `sorry`, `admit`, `native_decide` or `bv_decide` is added. By `#print axioms`, every theorem named in
   `MANIFEST.json` depends on a subset of Lean's standard `propext`, `Classical.choice` and `Quot.sound` (Mathlib's real
   numbers use all three). Fewer are used by `C34_exactly_one`, `C34_outside`, `C56_argument`, `C56_flag`,
   `C56_idempotent` (no choice), `C56_length` (`propext` only), `C71_setup` and `C71_configured` (none).
3. The reading of the python source into the definitions of `lean/Verif/Model/*`. Each cites file and lines, and says
   where it simplifies.
4. The meaning given to the libraries below.

### Idealisations: what the theorems do not cover

* **Floating point.** Numbers are real: no rounding, overflow or underflow. `x**(p/q)` is `Real.rpow`; theorems carry the
  positivity under which numpy computes the same real number. Infinite noise is `⊤ : WithTop ℝ`, a NaN SNR is `none`.
  C88 and C89 bound the difference that rounding makes to the formulas of `utils.py`, to circular merger times, to the noise
  curves and to the SNR of circular stationary sources.
* **Units.** Most of the model computes with SI values. `Model/Units`, `Model/UnitsSnr` and
  `Model/UnitsSource` follow the same functions on quantities with units, and C63, C77, C78, C79, C82, C83 show for
  `utils`, `evol`, `strain`, `psd` and `snr`, and C90 for the calculations of `source.py`, that this makes no difference.
  For the plots, SI values are an assumption.
* **scipy.** `integrate.odeint` is an arbitrary function (theorems about exact solutions speak about solutions of the
  equation it is given; C65 and C110 assume that it returns decreasing eccentricities, C85, C109 and the eccentric parts of
  C101 and C103 that it makes no error). All this is assumed for Peters' equation and times in order only, and an exact
  integrator meets all of it (`Lemmas/ExactOdeint`). `integrate.quad` is the exact integral.
  `special.jv` at integer order is Bessel's integral. `interp1d` is linear interpolation.
* **Files shipped with the package.** `harmonics.npz`, `peters_g.npy` and `R.npy` are arbitrary tables; `ValidTable` lists
  what is assumed about the first (increasing eccentricities, rectangular). Splines are arbitrary functions.
* **numpy.** Arrays of one number per source are lists (or functions on an index type) and elementwise operations are maps.
  Broadcasting is modelled where the code relies on it (constructor, setter of `a`, masks), except that masks and index
  arrays of length one do not broadcast.
* **python objects.** Sources and parameter dictionaries are on a heap, so aliasing is modelled. The arrays `snr` and
  `max_snr_harmonic`, the only ones the code writes in place, are heap objects. Assigning to public
  attributes is modelled, and (C99) so are sharing other attribute arrays and writing into them in place; setting private attributes or subclassing are not modelled. Of exceptions only the class is kept. Arguments of
  SNR calls are interpreted all at once, so of two bad ones a different one may be reported first.
* **multiprocessing.** Workers finish in any order, each task is done at least once, and workers are deterministic.
* **h5py and the file system.** A file is its attributes, datasets and one group; a write takes effect at once; no other
  process interferes; values come back as they were written.
* **logging.** The parts of `logging` that LEGWORK reaches: formatting without times and stack information, levels,
  handlers, propagation.
* **matplotlib and seaborn.** A plot is the sequence of calls made, each with its axes and the settings in force. What the
  libraries draw, or raise for arguments they do not like, is not modelled; figure sizes, line widths and transparency
  are left out.
* **astropy.** Positions are (latitude, longitude) after the transformation of coordinates, which is not modelled.
* **Randomness.** Random inclinations and polarisations are an arbitrary function of the position in the array.

### Modelled and not modelled

| file | modelled | not modelled |
|------|----------|--------------|
| `utils.py` | all functions | `numba`/vectorisation details |
| `strain.py` | all functions | |
| `evol.py` | all functions, including the worker pool and the log messages | |
| `psd.py` | all functions | the contents of the response file |
| `snr.py` | all functions | |
| `source.py` | constructor, indexing, loops, `len`, `repr`, copy, save/load, properties and setters, masks, strains, SNRs, merger times, evolution, plots, `SensitivityCurveParams`, the three subclasses | the contents of the table of verification binaries |
| `visualisation.py` | all functions, as recorded calls | drawing |
| `_logging.py` | all | |
| `__init__.py`, `_version.py` | version string used by save/load | the rest |

## Layout

* `Verif/Py/*`: python and numpy primitives used by the code (exceptions, heap, masks, argmin, linspace, units, ...).
* `Verif/Model/*`: the code, function by function, with its names.
* `Verif/Spec/*`: independent specifications where the English needs a definition (Peters' equations, meaning of an
  index, sphere averages, operations of a program, ...).
* `Verif/Lemmas/*`: helper lemmas. `Verif/Props/*`: the property theorems, each followed by examples showing that its
  hypotheses are met by a concrete case.

Programs that use `Source` are covered by `Spec.Reachable W ok h`: the heap `h` is reached from the empty one by any
number of operations (constructors, indexing, copy, parameter changes, tolerances, SNR calls, merger times, evolution in
place or into a new object, `set_sc`, `set_g`, assignments to attributes), including operations that raise, each allowed by `ok`. `AnyCall` allows all;
`SizeOk` assumes the lengths that the code does not check; `Interpolating` excludes what breaks C40.
`from_file` is one of these operations (with any files there may be at that time; `SizeOk` asks that the datasets of a
loaded file fit together, `Spec.FileFits`).

## Properties

Theorem names are `Legwork.Props.<id>_<name>`.

| id | status | what is modelled | how it is proved | assumed / shown false | theorems |
|----|----|----|----|----|----|
| C01 | proved | `utils.get_a_from_f_orb`, `get_f_orb_from_a` | each function returns the unique positive solution of Kepler's third law (`Spec.KeplerThird`); round trips follow | positive masses, frequency, separation | `get_a_iff_kepler` `get_f_iff_kepler` `f_roundtrip` `a_roundtrip` |
| C02 | proved | `utils.c_0`, `get_a_from_ecc` | both are characterised by Peters (5.11) (`Spec.Peters511`); round trips; product of increasing factors | 0 < e < 1 (at e = 0 the curve is singular) | `get_a_iff_peters` `c_0_iff_peters` `a_roundtrip` `c_roundtrip` `get_a_strictMono` |
| C03 | proved | `utils.chirp_mass` | characterised by `x^5 (m1+m2) = (m1 m2)^3`; monotonicity and AM-GM | positive masses | `ratio` `pos` `symm` `iff` `homogeneous` `strictMono_left` `strictMono_right` `le` `eq_iff` |
| C04 | proved | `utils.peters_f` | increasing numerator, decreasing denominator; limit at 1 |  | `zero` `strictMono` `one_le` `tendsto_atTop` |
| C05 | proved | `utils.peters_g` with `scipy.special.jv` as Bessel's integral | sum of squares; orthogonality of cosines at e = 0 | 0 <= e <= 1; n >= 1 for the values at e = 0 | `nonneg` `circular` |
| C06 | proved | `peters_g`, `peters_f`, `harmonics_required` | Fourier series of the Kepler orbit in the mean anomaly: Bessel recurrences, integration by parts, Parseval (Lemmas/Kepler*) | 0 <= e < 1; `C06_required` is about tables with exact entries | `sum` `limit` `reach` `required` `exact_table` |
| C07 | proved | `strain.h_0_n`, `h_c_n`, `utils.fn_dot` on whole arrays | rpow algebra per element, lifted to every source, timestep and harmonic | positive chirp mass, distance and frequency, 0 <= e < 1 | `hc_h0_fdot` |
| C08 | proved | same, with the checks of harmonics and orientation | list induction for the checks (iff), rpow algebra for scalings, exact shape of the result |  | `valueError_iff` `ok_shape` `ok_iff` `nonneg` `distance_scaling` `mass_scaling` `freq_scaling` |
| C09 | proved | `amplitude_modulation`, strains, circular stationary SNR | polynomial inequality in cos^2, sin^2; the bound proved is the sharper 0 < A < 0.45 for every orientation, and the exact range 15/32768 ≤ A ≤ 14505/32768 (`C09_modulation_range`) |  | `modulation_range` `modulation_bounds` `strain_le_averaged` `snr_le_averaged` |
| C10 | proved | `F_plus_squared`, `F_cross_squared` | Cauchy-Schwarz type inequality; integrals over the sphere written out in `Spec.Response` |  | `pos` `polarisation` `sky_average` `full_average` |
| C11 | proved | `evol_circ`, `get_t_merge_circ`, `create_timesteps_array` | for any times the reported separations are samples of one history that solves Peters' equation (`Spec.CircularInspiral`) | positive beta and separation | `evol_circ_solves_peters` `default_ends_at_merger` |
| C12 | proved | same | algebra of `(a^4 - 4 beta t)_+^(1/4)` | second time >= 0 | `separation_composes` `frequency_composes` `remaining_time` |
| C13 | proved | `evolve_f_orb_circ`, `evol_circ` | rpow algebra | a separation of exactly 1e-30 in its unit is excluded (the code's marker for merged) | `circular_evolutions_agree` `merged_branch` |
| C14 | proved | `evol_circ` frequency outputs | strict monotonicity before merger, 100 Hz after; `C14_not_monotone` disproves the stronger claim | same marker excluded | `frequency_history` `not_monotone` |
| C15 | proved | `evol.de_dt`, `get_a_from_ecc`, `get_f_orb_from_a`, `fn_dot` | chain rule along any solution; existence of solutions by inverting the time integral | exact solutions; `odeint` itself is a parameter | `de_dt_is_peters` `separation_rate` `frequency_rate` `solutions_exist` |
| C16 | proved | `get_t_merge_ecc` (quadrature branch) | fundamental theorem of calculus | eccentricities inside the range treated by quadrature | `merger_time_counts_down` `solutions_end_before_merger` |
| C17 | proved | all branches of `get_t_merge_ecc`, Mandel's fit | derivative comparison with a closed form; polynomial inequality for the fit | default tolerances; `C17_large_branch_needs_tolerance` shows they matter | `circular_bounds` `large_branch_needs_tolerance` |
| C18 | proved | array and scalar code of `get_t_merge_ecc` | masked assignment = pointwise map; the four formulas are written out | 0 < small_e_tol <= large_e_tol; `C18_crossed_tolerances_disagree` and `C18_zero_tolerance_breaks_circular` show both bounds are needed | `array_eq_scalar` `one_branch` `crossed_tolerances_disagree` `zero_tolerance_breaks_circular` |
| C19 | proved | `determine_stationarity`, `evolve_f_orb_circ` | explicit threshold on the circular merger time; monotonicity | f (1 + stat_tol) < 1e9 Hz, shown necessary by `C19_above_1e9_merged_is_stationary` | `threshold` `fractional_change` `monotone` `merging_not_stationary` `above_1e9_merged_is_stationary` |
| C20 | proved | same, with exact eccentric solutions | derivative of f^(-8/3) along a solution bounded by its initial value |  | `estimate_is_upper_bound` `stationary_is_safe` |
| C21 | proved | `evol.check_mass_freq_input` | case analysis, error condition as an iff |  | `value_error_iff` `values` |
| C22 | proved | `create_timesteps_array` | grid described by `Spec.EvenGrid`; positivity of merger times | `C22_single_step_never_reaches_t_evol` records the case n_step = 1 | `grid_from_t_evol` `default_grid` `explicit_timesteps` `single_step_never_reaches_t_evol` |
| C23 | proved | `evol_ecc` with `avoid_merger` | list induction on the clamped grid (`Spec.MergerClamp`) | non-empty grids not starting before -1 Gyr | `avoid_merger` `never_close` |
| C24 | proved | `psd.lisa_psd`, `tianqin_psd`, `decigo_psd` | real inequalities; the noise is `WithTop R` | positive response; `C24_decigo_small_f_low` is the proved defect | `lisa` `decigo` `decigo_small_f_low` `tianqin` |
| C25 | proved | `get_confusion_noise` and the four models | positivity of exponentials and of 1 + tanh; iff for the errors |  | `noise_nonneg` `huang_support` `value_error_iff` `psd_ge_without` |
| C26 | proved | `get_confusion_noise_karnesis21`, `power_spectral_density` | monotonicity of the fit coefficients in log t_obs | false for TianQin: `C26_tianqin_one_year` | `longer_mission` `tianqin_one_year` |
| C27 | proved | `robson19`, `huang20` tables | argmin lemma; tables repeated in `Spec.Psd` |  | `robson_nearest` `huang_nearest` |
| C28 | proved | `power_spectral_density` | decision logic |  | `dispatch` `unknown` |
| C29 | proved | `snr_circ_stationary`, `snr_ecc_stationary` | only n = 2 survives in the finite sum | no orientation; exact or circular-exact g | `circular_limit` `total_is_sum` |
| C30 | proved | `snr_ecc_stationary`, `snr_ecc_evolving` | argmax lemma on each row | for the evolving case at least one step and a noise curve defined everywhere | `evolving` `stationary` |
| C31 | proved | stationary SNR functions | finite sums of non-negative terms, scaling | any positive noise curve; `t_obs` scaling on an interpolated (fixed) curve | `circ_nonneg` `ecc_nonneg_mono` `distance` `t_obs` `infinite_noise` |
| C32 | proved | `create_harmonics_functions` over an arbitrary table | search and running maximum on rows, step interpolation | `ValidTable`: increasing eccentricities, rectangular, at least 2 x 2 | `tolerance` `minimal` `first` `monotone` `range` |
| C33 | proved | `find_eccentric_transition` | first failing grid point; C06 for the neglected power | tolerance < 1 for a transition to exist (`C33_large_tolerance`) | `first` `found_iff` `mono` `pos` `large_tolerance` `neglected` |
| C34 | proved | harmonic groups of `get_snr_stationary/evolving` | interval arithmetic; C32 for tables | groups end at 10000 harmonics: `C34_outside` | `exactly_one` `outside` `every_source` |
| C35 | proved | `get_source_mask` | mask described per source; `Tri` argument | rectangular columns (invariant C68) | `mask` `partition` `complement` |
| C36 | proved | `get_snr`, `get_snr_stationary`, `get_snr_evolving`, subclasses | per-source specification `Spec.SnrFor`; masked assignments; array calls split into single sources | at least one step, every worker order complete (`CompleteSchedule`); `C36_succeeds_with` and `C36_succeeds_classes` for objects that interpolate their curve | `settings_classes` `succeeds_classes` `get_snr` `get_snr_stationary` `get_snr_evolving` `stationary_class` `evolving_class` `circular_harmonic` `settings` `succeeds` `succeeds_with` |
| C37 | proved | indexing combined with SNR, strain and merger times | both sides reduced to the per-source specification | index that means something (`Spec.Selects`) | `snr` `snr_halves` `strain` `merger_time` |
| C38 | proved | `__getitem__`, `copy` | exact meaning of every kind of index; iff for the rejected ones | `VerificationBinaries` refuses both (`C38_verification`); python lists by `asarray` in `Model/ListIndex`, lists of lists are not modelled; the empty list is refused (`C38_empty_list`) | `lists` `empty_list` `getitem` `sized` `rejected` `meaning` `meaning_unique` `verification` `copy` |
| C39 | proved | heap with aliasing | frame invariant over all sequences of calls |  | `other_sources` `params_owner` `getitem` `copy` |
| C40 | proved | `SensitivityCurveParams`, `set_sc`, all operations | invariant over all reachable heaps | exceptions proved: `C40_evolved_without_curve`, `C40_union_breaks`, `C40_failed_update`, `C40_switched` | `current` `never_stale` `evolved_without_curve` `union_breaks` `failed_update` `switched` |
| C41 | proved | same | invariant; rejected calls leave the heap unchanged | `C41_setdefault_breaks` for `setdefault` | `six_keys` `setitem_rejected` `update_rejected` `assign_rejected` `remove_rejected` `assign` `setdefault_breaks` |
| C42 | proved | same, with a trace of recomputed curves | trace equalities | `C42_explicit_auto`: an explicit `t_obs="auto"` recomputes the curve twice at every call | `setitem_same` `update_same` `assign_same` `at_most_once` `repeat` `repeat_partial_calls` `explicit_auto` |
| C43 | proved | `gw_lum_tol` setter | invariant over all reachable heaps | `C43_rejected_kept`: a rejected tolerance is kept | `tolerances` `same` `rejected_kept` |
| C44 | proved | properties `m_c`, `a`, `n_sources`, setter of `a` | Kepler's law per source | as many separations as sources | `a` `m_c` `set_a` `parts` |
| C45 | proved | `evolve_sources` | per-source specification `Spec.EvolvesTo`; invariant for permanence | non-negative times (`C45_past` shows why), and no assignment to `merged` that clears a mark | `evolve` `rejected` `permanent` `past` |
| C46 | proved | `evolve_sources` repeated | induction on the list of steps | circular sources; marker separation excluded | `circular` |
| C47 | proved | `evolve_sources(create_new_class=True)` | comparison with the in-place call on the same heap | statement says what is dropped: weights, subclass, interpolate_sc | `new_class` |
| C48 | proved | `save`, `from_file` over abstract files | the file written determines the arguments of the constructor | exceptions proved: custom instrument, VerificationBinaries, the string "__none__" | `restored` `refused` `warned` `same` `snr` `custom_refused` `verification` `none_string` |
| C49 | proved | `save` as a sequence of writes, `from_file` | every intermediate store is considered (crash points) | `C49_overwrite_not_atomic` | `refused` `files_kept` `elsewhere` `failed` `succeeds_iff` `normalise` `same_path` `missing` `overwrite_not_atomic` |
| C50 | proved | `Source.__init__` | `Spec.Usable` and `Spec.BuiltFrom`; success iff usable; each documented error | random angles are an arbitrary function; weights, inclination and polarisation lengths are not checked by the code | `built` `accepts` `rejects` `no_orbit` `angle_without_position` `eccentric_with_position` `scalar_with_position` `no_units` `no_distance_units` `no_separation_units` `lengths` `lengths_separation` |
| C51 | proved | `get_snr` called again | second call reduced to the same per-source specification | failures of the claim: `C51_not_followed`, `C51_auto_differs` | `repeat` `repeat_auto` `repeat_stationary` `repeat_evolving` `auto` `auto_agrees` `auto_differs` `succeeds_auto` `not_followed` |
| C52 | proved | `MultiPool.map` as any completion order | permutation argument | workers are deterministic and return; process creation is not modelled | `n_proc_irrelevant` |
| C53 | proved | `plot_sources_on_sc` (function and method) | recorded matplotlib calls compared with the selected sources |  | `source` `source_succeeds` `no_snr` `points` `curve` `none` `limits` `succeeds` `ratio` |
| C54 | proved | warnings of `Source.plot_sources_on_sc` | messages of a successful call computed | the claim is false for eccentric sources: `C54_eccentric_missed` | `warnings` `eccentric_missed` |
| C55 | proved | `LegworkFormatter` | strings; terminal display as removal of escape sequences (`Spec.shown`) | of `logging.Formatter` only the parts used | `plain` `coloured` `same_text` `no_codes` `each_alone` |
| C56 | proved | `utils.ensure_array` | list induction |  | `length` `argument` `flag` `idempotent` |
| C57 | proved | `get_h_0_n`, `get_h_c_n` | masked assignment; equality with single-source calls |  | `h_0_n` `h_c_n` `shape` |
| C58 | proved | `get_merger_time` | same |  | `times` `saved` |
| C59 | proved | `evol_circ`, `evol_ecc` outputs | list induction on the requested names; iff for the errors |  | `evol_ecc_outputs` `evol_ecc_requests` `evol_circ_outputs` `evol_circ_requests` `evol_ecc_meaning` |
| C60 | proved | `approximate_response_function`, `load_response_function` | inequality; `C60_missing_file_raises` proves the fallback never triggers |  | `approximation` `missing_file_raises` `fallback_iff` |
| C61 | proved | interpolated curve | linear interpolation on the logarithmic grid | parameters with a PSD at every grid point | `curve` |
| C62 | proved | `snr_circ_evolving` | sign of the trapezium sum; NaN as `none` | no reported frequency exactly 100 Hz; `C62_below_100Hz` gives a condition that ensures it | `well_defined` `below_100Hz` |
| C63 | proved | quantities with units (`Py/Units`, `Model/Units`) | dimension bookkeeping in Q^3, scales in R | dimensions in mass, length, time; fractional exponents are exact | `values` `same` `masses_checked` `kepler_checked` `others_checked` `wrong_together` `plain` |
| C64 | proved | user supplied confusion noise | congruence in the function at the argument passed |  | `user_noise_units` `user_noise_argument` |
| C65 | proved | `snr_ecc_evolving` | sign of the trapezium sums per harmonic | integrator whose eccentricities decrease; no frequency exactly 100 Hz | `well_defined` |
| C66 | proved | `max_strain_harmonic` | argmax lemma on rows of the table | `C66_above_table` is the proved defect | `on_table` `above_table` |
| C67 | proved | SNR arrays as heap objects | frame invariant on one array | the claim is false in general: `C67_not_kept` | `kept` `superseded` `overwritten` `overwritten_stationary` `overwritten_evolving` `not_kept` |
| C68 | proved | all operations | invariant over all reachable heaps | lengths that the code does not check, and values that a program assigns to attributes, are assumed to be consistent (`SizeOk`); two theorems show they are unchecked | `tidy` `weights_unchecked` `separations_unchecked` |
| C69 | proved | all operations | invariant over all reachable heaps | `SizeOk`; no assignments to these attributes by the program itself | `fixed` |
| C70 | proved | `evolve_sources`, setter of `a`, `get_merger_time` | per-source specification | `C70_stale`, `C70_wrongly_merged` are the proved defect | `current` `stale` `wrongly_merged` |
| C71 | proved | `_logging` set-up and emission | fold over imports; case analysis on levels |  | `setup` `configured` `once` |
| C72 | proved | all plotting functions | recorded calls and settings, also for failing calls |  | `source` `settings` |
| C73 | proved | `plot_source_variables` | reduction to `plot_1D_dist`/`plot_2D_dist` with described arguments |  | `one` `two` `rejected` `ecdf_label` |
| C74 | proved | `plot_sensitivity_curve` | recorded calls; iff for failure |  | `curve` `fails` |
| C75 | proved | `plot_1D_dist`, `plot_2D_dist` | recorded calls | defects proved: `C75_s_rejected`, `C75_unknown_silent` | `hist` `other` `scatter` `density` `s_rejected` `unknown_silent` |
| C76 | proved | `h_0_n`, `peters_g`, evolution equations | C06 and the derivative of the orbital energy | exact solutions; luminosity as in `Spec.Energy` | `luminosity` `energy_balance` `circular` |
| C77 | proved | `evol.py` on quantities | simulation of the SI model by the unit model, for all given or missing arguments | positive physical values; one source at a time | `merger_time` `merger_time_circ` `frequency` `stationary` |
| C78 | proved | `strain.py` on quantities | same | `C78_never_refused`, `C78_time_as_distance` are the proved defects | `values` `never_refused` `time_as_distance` |
| C79 | proved | `psd.py` on quantities | same | `C79_number_taken` is the proved defect | `lisa` `decigo` `tianqin` `tianqin_converts` `number_taken` |
| C80 | proved | `save`, `from_file` and all operations of `Reachable`, over a changing store (`Spec.Session`) | induction: every file left by a save of a consistent object, also one cut short, satisfies `FileFits`, so every session heap is `Reachable`; generations by induction on `Spec.HandedOn` | only LEGWORK writes HDF5 files; several processes one after the other, not at the same time | `as_without_files` `tidy` `current` `generations` |
| C81 | proved | `save` as a sequence of writes | the file after any number of writes lacks the group, or is the file of an object whose remaining parameters are functions (not saved) or have lost their unit | the claim is false: `C81_silent_defaults` | `refused` `sources_complete` `silent_defaults` |
| C82 | proved | `evol_circ`, `evol_ecc` on quantities (`Model/UnitsSnr`) | simulation of the SI model by the unit model, for all given or missing arguments | one source at a time; 0 <= e; for `evol_circ` with frequencies the separation keeps its unit | `circ` `ecc` `ecc_same` `circ_same` `time_checked` |
| C83 | proved | `snr.py` on quantities (`Model/UnitsSnr`) | same, under `Spec.SameObservation`, which `C83_built_in` and `C83_interpolated` establish | one source at a time; n_step > 0; `C83_distance_unchecked` is the proved defect | `circ_stationary` `ecc_stationary` `circ_evolving` `ecc_evolving` `distance_unchecked` `built_in` `interpolated` |
| C84 | proved | `VerificationBinaries` | constructor theorem C50 applied to the arguments made from an arbitrary table; the constructor is one of the operations of `Reachable` | positions in ecliptic coordinates are part of the table; the response file exists | `table` `accepts` `not_indexed` |
| C85 | proved | `snr_circ_evolving`, `snr_ecc_evolving` (trapezium rule included) | dominated convergence for the trapezium rule along a uniform grid in time (`Lemmas/Trapezoid`), the identity `h_c² df/dt = f² h_0²` and the equations of motion; the merger clamp drops at most the last step | the integrator is exact (`Spec.Reproduces`); the 100 Hz condition is needed: a grid point at exactly 100 Hz is replaced by the largest frequency | `circular` `eccentric` `circular_lisa` `eccentric_hypotheses` `builtin_noise` |
| C86 | proved | `get_t_merge_ecc`, `t_merge_mandel_fit` | two polynomials in `sqrt(1-e^2)` bound the integral of Eq. 5.14 (sign of a derivative); the fit is compared with them after `e = 2t/(1+t^2)`. The polynomial inequalities are decided on whole intervals by a verified procedure (`Lemmas/PolyCheck`: non-negative coefficients after `x=(a+by)/(1+y)`) run by the kernel | the documented 0.5% is false: `C86_documented_fit_error` | `branches` `within` `sources` `documented_fit_error` `circular_limit` |
| C87 | proved | `evol_ecc` with `avoid_merger` | C23 and the one-sided bounds of C86 | false for the default settings: `C87_default_reaches_merger` | `stops_before_merger` `default_reaches_merger` |
| C88 | proved | the formulas operation by operation in floating point (`Model/Float`, `Py/Float`) | the standard model of rounding is derived from rounding to nearest; errors of logarithms add up under products, powers (rounded exponents included) and sums of positive numbers | `pow` within 4 ulp; the factor of a unit conversion within 4 ulp; masses in the same unit; `C88_cancellation` shows the loss near e=1 | `chirp_mass` `kepler` `beta` `peters_f` `separation_and_eccentricity` `fn_dot` `round_trip` `merger_time` `cancellation` |
| C89 | proved | strain, noise curves and circular stationary SNR operation by operation in floating point (`Model/Float`) | as C88; the cosine in the response of LISA by absolute errors; magnitudes of strain and noise bounded to exclude overflow | approximate response function (the tabulated one goes through scipy splines), no orientation, arm length in metres; any confusion noise with a given error; `cos` within 4 ulp of 1, `jv(k,0)` exact | `strain` `lisa_noise` `tianqin_noise` `decigo_noise` `snr` |
| C90 | proved | one source with its attributes as quantities: constructor, derived attributes, strains, merger times, evolution, SNRs, `set_sc` (`Model/UnitsSource`) | each call on quantities agrees with the SI model for every source (C63, C77, C78, C82, C83 and the per-source theorems C36, C44, C45, C50, C57); induction over the steps of a session | positions and random angles left out; stationarity and SNR for sources that do not merge at exactly the observation time; `KeepsSign`: odeint keeps eccentricities non-negative; units lost: `C90_custom_unit`, `C90_dimensions` | `built` `checked` `dimensions` `derived` `set_a` `auto` `stationary` `h_0_n` `h_c_n` `merger_time` `saved` `evolve` `time_checked` `snr` `curve` `custom_unit` `session` |
| C91 | proved | `power_spectral_density`, `set_sc`, the SNR functions | `Spec.SlopeAtMost k`: noise changes by at most the k-th power of a frequency ratio. Closure of bounds on `f S'/S` under sums, products and quotients (`Lemmas/Slope`); for the steep drop of the confusion noise its logarithmic slope is bounded by how small it is next to the instrument noise (`Lemmas/KarnesisSlope`). A chord of the grid (ratio 1.0017) then stays within 1.0017^k, and weighted sums keep the factor | analytic response for LISA; k=13 with the default confusion noise; false above 2 Hz: `C91_decigo_lost` | `lisa_slope` `other_slopes` `noise` `factor` `circular` `eccentric` `evolving` `objects` `decigo_lost` `lisa` |
| C92 | proved | `determine_stationarity`, `snr_circ_stationary`, `snr_circ_evolving` | the tolerance bounds the frequency gained (C19), every trapezium is bounded below and above by the slope of the noise curve (`Spec.SlopeAtMost`) and the chirp, and the frequency gained equals the observation time up to `(1+tol)^(11/3)` by the mean value theorem | circular sources; no grid frequency is exactly the 100 Hz placeholder (automatic for chirp masses above 0.69 solar masses) | `circular` `lisa` |
| C93 | proved | `evol_ecc` with a caller's 2D array (`Model/EvolArrays`): a memory of arrays | refinement to the pure model of `evol_ecc`; the merger clamp is idempotent; induction over the calls of a program | arrays are writeable floating point arrays; sharing arrays is not safe: `C93_shared_array` | `result` `frame` `overwritten` `repeated` `programs` `shared_array` |
| C94 | proved | `snr_circ_evolving` (timesteps, evolution and trapezium rule) | the frequencies are the chirp `Spec.chirp` (shown to solve Peters' equation); each trapezium is compared with the integral over its step, by the slope of the noise curve (first order) or by convexity of `w ± M/2 F²` (second order) | circular sources, no grid frequency exactly the 100 Hz placeholder; for merging sources the error is large: `C94_last_step`, `C94_merging`, `C94_merging_lisa` | `chirp` `steps` `lisa` `curvature` `second_order` `linear` `last_step` `merging` `merging_lisa` |
| C95 | proved | `snr_ecc_stationary` and `snr_circ_stationary` of one source, `find_eccentric_transition` | the squared SNR is a series in the power of the harmonics with weights 1/(n² S), whose total without weights is `peters_f` (C06); tails are compared by the largest weight left out. For LISA the noise is compared with a rising curve above 6 mHz (`Lemmas/LisaExtremes`); the power at small eccentricities from an expansion of the Bessel functions (`Lemmas/BesselLow`) | exact harmonics (no table of `g`), no orientation; the tolerance does not bound the SNR error at low frequencies: `C95_circular_lisa` | `limit` `tolerance` `circular` `out_of_band` `lisa` `circular_lisa` |
| C96 | proved | `Source.get_snr` on a heap of objects, with the SNR functions, `determine_stationarity`, the interpolated curve and the settings | the row theorem of `get_snr` (C36) and the invariant that the curve of an object is that of its settings (C40) reduce to one binary; there the errors of interpolation (C91), of timesteps (C94) and of freezing a stationary source (`C96_stationary`, through the slope of the noise and the bound on the frequency gained) multiply; classes `Stationary` and `Evolving` by their row theorems (`Props/Classes`) | circular binaries without position, above a microgram (lighter ones could be taken for merged when their separation is the code's 1e-30 AU marker), `stat_tol` between 0 and 1/4 | `classes` `lisa_classes` `stationary` `get_snr` `lisa` `tianqin` |
| C97 | proved | `Source.get_snr` on a heap of objects, `amplitude_modulation`, `snr_circ_stationary`, `snr_circ_evolving` | two runs of `get_snr` on objects that differ in columns only go through the same steps (`Lemmas/SnrChanged`), so the SNRs can be compared source by source; the average from the angular averages of C10; the disagreement from C92 and the largest modulation; `Stationary` and `Evolving` likewise (`Lemmas/SnrHalf`) | circular sources with all three angles, as the constructor makes them; `C97_lisa` has the hypotheses of `C92_lisa` | `classes` `average` `get_snr` `lisa` |
| C98 | proved | `Source.get_snr` on a heap of objects and the four SNR functions | `Lemmas/SnrChanged` reduces to one source; there strains are inversely proportional to the distance, and square root, sum over harmonics, trapezium rule and arg max respect positive factors; `Stationary` and `Evolving` by `Lemmas/SnrHalf` | positive distances; any solver, table of `g` and noise | `classes` `get_snr` `horizon` |
| C99 | proved | arrays with identities under the attributes of `Source` (`Model/Shared`): which array each attribute is bound to after every call, and writes in place | the calls are those of the model of `Source`, run on the values in the arrays; a frame theorem (`Lemmas/ColsFrame`) shows that a call leaves every attribute alone that it does not bind anew, so the two models agree; induction over the steps of a program | `merged` and `position` (which no code shares) have no identities; no views of parts of arrays; evolved new objects share arrays: `C99_evolved` | `as_assignments` `any` `sizes` `call` `write` `kin` `write_is_assignment` `new_objects` `evolved` |
| C100 | proved | `Source.get_snr` and `get_merger_time` on a heap of objects, `snr_circ_evolving` | `Lemmas/SnrChanged` reduces to one source; stationary and eccentric sources never read the stored time, and the time that a circular source is followed is the same when both merger times exceed the observation by a second. That SNRs do differ: both converge (C85) to the root of an integral of a positive rate over the time followed, and the fitted merger time is shorter than the circular one; `Stationary` and `Evolving` by `Lemmas/SnrHalf` | for `C100_differs`: positive finite noise with countably many jumps, merger time of at least a second, chirp mass above 0.69 solar masses (so that no frequency is the 100 Hz placeholder), a table of `g` that is positive at e=0 | `assigned` `saved` `differs` `stationary_class` `evolving_class` |
| C101 | proved | `Source.get_snr` on a heap of objects, called twice; `snr_circ_stationary`, `snr_ecc_stationary`, `snr_circ_evolving`, `snr_ecc_evolving`, `determine_stationarity`, the noise of LISA | stationary sources: the time enters as a factor and through the noise, and a source that is stationary for the longer time is so for the shorter; evolving ones: both SNRs converge (C85) to integrals over time of one rate; for `get_snr` itself the errors of C96 are added on both sides; class `Stationary` in `Props/Classes` | `C101_split`, `C101_limit`, `C101_circular`: circular binaries above a microgram, no position, observed at most until a second before merger; `C101_eccentric`, `C101_eccentric_split`: integrator without errors (`SolvesPeters`), until 0.1 yr before merger, below 100 Hz; `C101_tianqin`: false without the condition on the noise; `C101_coarse`: false for evolving sources with a given number of timesteps, here for a custom noise (for LISA it is not known whether SNRs can fall at all) | `stationary_class` `lisa_class` `coarse` `eccentric` `eccentric_split` `stationary` `get_snr` `lisa` `split` `limit` `circular` `tianqin` |
| C102 | proved | `__len__`, `__getitem__` under the sequence protocol of python (`Py/Iterate`), on a heap of objects | induction over the rounds of the loop: C38 for the item, C39 for what the body leaves alone; SNRs by C37 | the body makes calls of the library (`Spec.Calls`), none on the collection itself | `loop` `verification` `snr` |
| C103 | proved | `chirp_mass`, `fn_dot`, conversions, merger times, `evol_circ`, `determine_stationarity`, strains, stationary and evolving SNRs | scaling of every formula, then of the lists of sources; the trapezium rule by induction over the timesteps | `C103_evolving`: sources below 1 Hz, a second from merger and above a microgram, as the constants 100 Hz, 1 s and 1e-30 AU do not scale; `C103_eccentric`: integrator without errors, since what `odeint` returns need not scale (the equation it solves does, `C103_de_dt`); below 100 Hz and 0.1 yr from merger in both descriptions | `eccentric` `orbits` `merger_times` `de_dt` `strains` `stationarity` `evol_circ` `stationary` `evolving` `exists` |
| C104 | proved | `get_snr`, `get_snr_stationary`, `get_snr_evolving` with `verbose` (`Model/Verbose`, on a heap with a list of printed lines), `__repr__` | erasing the output of every step gives the model without `verbose` (`Erases`), so all other theorems apply; the counts are those of the masks, related to the sources by C35 and the lemmas of C36 | `C104_printed`: a complete schedule of harmonics and at least one timestep, as for C36; what is printed before an exception is not described, except that it is nothing without `verbose`; the progress of `print` itself (buffering, encoding) is not modelled | `only_prints` `silent` `halves` `classes` `printed` `adds_up` `list` `repr` |
| C105 | proved | `evol_ecc`, `snr_ecc_evolving` and the constructor with the messages they log (`Model/Messages`) | erasing the messages gives the models without them; the conditions of the messages are related to the times that the same call returns without `avoid_merger`, and those to what the clamp of C23 leaves | `C105_snr`: positive merger times and at least three steps; what is logged by calls that raise is not described; messages of plots are in C53, C54, what becomes of messages in C55, C71 | `same_results` `evol_ecc` `stuck` `default_times` `snr` `unnoticed` `init` |
| C106 | proved | `Source.get_snr`, `Stationary.get_snr`, `Evolving.get_snr` and the constructor on a heap of objects; keyword binding of `get_snr` (`Model/Keywords`) | filling in settings first and resolving `"auto"` later leads to the same settings and curve as both at once (`match_two_steps`, by the invariant of C40); then both classes calculate the same for each source | arguments by keyword only; programs that switch `interpolate_sc` by assignment without calling `set_sc`, or evolve uninterpolated objects into new ones, are excluded (`Interpolating`) | `agrees` `succeeds` `constructor` `arguments` |
| C107 | proved | `h_0_n`, `h_c_n` of one source, any list of harmonics | the strain is the second derivative of the quadrupole moments of the Kepler orbit; Parseval as for C06, with Fourier coefficients divided by n, gives the sum of g(n,e)/n² in closed form (`Lemmas/KeplerStrain`); for the characteristic strain 1/n ≤ 1/4 + 1/n² and the sums of C06 and of this one | exact `peters_g` (no table); the detector sees the binary at all (strain of the circular one not 0) | `total` `stronger` `characteristic` |
| C108 | proved | `get_t_merge_ecc` with arrays, `get_merger_time` of one source | after substituting x = e·u Peters' merger time is a product of a falling factor and an integral whose integrand falls for every u (`Lemmas/MergerOrder`); the other formulas explicitly; across boundaries the accuracies of C86 against the decay; the fit is split into two factors that fall, one by a polynomial inequality checked in the Bernstein basis (`Lemmas/FitOrder`) | default tolerances; `C108_boundary`: not monotone at 0.15 | `sooner` `same_frequency` `sources` `boundary` |
| C109 | proved | `evolve_sources` on a heap of objects, called any number of times; `evol_ecc`, `get_t_merge_ecc` | a collection evolves source by source (`stepRow`); induction over the steps for one source: the solution up to the end of a step, continued, is the solution of the whole (uniqueness from the strictly monotone merger time of Peters), `c_0` is conserved, and merger times count down (`Lemmas/EccSteps`); the merger marked in time by C86 | `SolvesPeters`: the integrator has no error on Peters' equation (an integrator with this property is constructed in `Lemmas/ExactOdeint`); sources not at exactly 1e-30 au between steps; `C109_late`: false above eccentricity 0.9999 | `orbit` `steps` `on_time` `late` |
| C110 | proved | `create_harmonics_functions`, `find_eccentric_transition`, the setter of `gw_lum_tol` and `get_snr` on a heap of objects; `snr_ecc_stationary`, `snr_ecc_evolving` | induction over the rows of the table: a stricter target, started from at least as many harmonics, is reached no earlier (`Lemmas/Stricter`); linear interpolation and rounding up are monotone in the values; matching the curve does not look at tolerances, so both calls have the same context; more harmonics add non-negative terms (C31, C65) | table eccentricities in [0,1) and at most 10000 harmonics (as in the file; nothing on the luminosities); the old tolerance is one that was set without error; evolving sources: the conditions of C65; `C110_turns_eccentric`: false for sources that turn eccentric | `harmonics` `more_harmonics` `get_snr` `turns_eccentric` |
| C111 | proved | `get_snr` on a heap of objects; the four SNR functions; `power_spectral_density` | the frequencies and strains of a source do not depend on the noise, so both integrals have the same grid and the second integrand is nowhere smaller (`trapezoid_mono`); interpolated curves by `curve_lower` of C101; the order of the noises with and without confusion noise from C24 and C25 | both noises exist at every frequency and are positive (infinite allowed); evolving sources as in `WellEvolved`: not exactly 100 Hz at a timestep, circular ones at least one second before merger, a `DecreasingIntegrator` | `circular` `eccentric` `get_snr` `confusion_psd` `confusion` |
| C112 | proved | `get_snr` on a heap of objects, `snr_ecc_stationary`, `set_sc`, `set_g`, `create_harmonics_functions` | what the call returns is `snr_ecc_stationary` of the row (C36); interpolated curve against the noise by C91, interpolated powers harmonic by harmonic (`within_sum`), harmonics left out by C95; the reference value is the limit `AllHarmonicsSnr` of the sums without any interpolation (Spec/AllHarmonics.lean); the power of the harmonics used from C32 and C43 | the spline of the powers is within a factor γ of `peters_g` at the harmonics used (nothing is needed with `interpolate_g=False`); `C112_power` speaks of the tabulated eccentricities only; a lower orbital frequency is excluded for a reason: `C95_circular_lisa` shows binaries that lose more | `interpolated` `get_snr` `lisa` `power` |
| C113 | proved | `get_t_merge_ecc` (all branches), `get_t_merge_circ`, `get_merger_time`, `get_snr` on a heap of objects, the stationary SNR functions | every branch is homogeneous in the separation and in `beta` (`c_0 a e = a c_0 1 e`); Kepler's law turns `a^4/beta` into the chirp mass and the frequency; for SNRs, `h_0_n` depends on mass and distance through `m_c^(5/3)/dist` only, so another mass acts like another distance (C98) | `0 < small_e_tol <= large_e_tol` for the factor (otherwise branches overlap, C18), the default tolerances for the order; SNRs: both sources stationary (evolving ones do not scale: the heavier one leaves the band sooner) | `factor` `chirp_mass` `sooner` `tighter` `sources` `louder` |
| C114 | proved | `get_snr` on a heap of objects, `snr_circ_stationary`, `snr_ecc_stationary`, `set_sc`, `set_g`, `find_eccentric_transition` | what the call returns is `snr_circ_stationary` of the row (C36); interpolated curve against the noise by C91; the series of all harmonics split into the first, the second and the rest, its sum known from C06; for LISA the powers of the first two harmonics from the expansion of the Bessel functions and the noise above 6 mHz between multiples of one rising curve | the spline of the powers is within a factor γ of 1 at `n = 2`, `e = 0` (nothing is needed with `interpolate_g=False`); no sky position (with one, circular sources are treated differently from eccentric ones, C97) | `circular` `interpolated` `get_snr` `lisa_circular` `lisa` |
| C115 | proved | `find_eccentric_transition`, `peters_g`, `peters_f`; constructor and `gw_lum_tol` on a heap of objects | the derivative of the Bessel functions from their integral (`2 J_k' = J_{k-1} - J_{k+1}`) and their expansion show that `g(2, e)` falls on [0, 0.35], with slope at least -3 on [0, 0.2], where `F` rises with slope at most 4; beyond 0.35 `g(2, e)` is bounded by the sum of all squared strains (C107); intermediate value theorem for the boundary; C43 for the objects | `tol >= 0`. For tolerances between 0.3711 and 0.3712 the existence of a transition is only reduced to the value at `e = 0.2`. Shown false: that no source treated as circular is outside `gw_lum_tol`; that every tolerance below 1 can be used | `transition` `boundary` `neglected` `found` `tolerances` `sources` `rejected` |
| C116 | proved | `get_snr` on a heap of objects, `find_eccentric_transition`, `snr_circ_stationary`, `snr_ecc_stationary` | C114 for the factors in terms of `g(2, e)` and `F(e)`, which C115 bounds in terms of the tolerance; C43 connects `ecc_tol` with `gw_lum_tol` | as C114: the spline of the powers is within a factor γ of 1 at `n = 2`, `e = 0`; noise of bounded slope; the tolerance is broken at `e = 0.2`, so that there is a transition | `circular` `get_snr` |
| C117 | proved | `find_eccentric_transition`, `peters_g`, `peters_f`; constructor, `gw_lum_tol` and `get_source_mask` on a heap of objects | Taylor polynomials of all `J_k` with the remainder `x^M/M!`, by induction from `2 J_k' = J_{k-1} - J_{k+1}` and the bound 1 of all `J_k`; a checker in rational arithmetic, proved sound, decides whether a tolerance holds at a grid point (`decide +kernel` on closed rational inequalities); C115 extends two points to the whole grid; C43 for the objects | exact functions: that `scipy.special.jv` and the float operations are accurate to 1e-6 is not modelled, but the intervals of tolerances show how far the values are from changing | `default` `percent` `permille` `notebook` `constructed` `mask` |
| C118 | proved | `h_0_n`, `h_c_n`, `peters_g`, `amplitude_modulation` | `peters_g n` is a polynomial in `e` up to `5 n^4 n^M/M!` (Taylor polynomials of the Bessel functions, C117; closed form of their coefficients); `Lemmas/PolyCheck` decides the polynomial inequalities on whole intervals; the sum of all squared strains (C107) bounds the harmonics from the fifth on (from the ninth on, and the first, where n=3 is the strongest) | exact `peters_g`, not its interpolation; positive chirp mass, distance and frequency. Shown false: two claims of docs/notebooks/Strains.ipynb | `power` `strain` `characteristic` `strongest` `second` `third` `fourth` |
| C119 | proved | `snr_ecc_stationary`, `snr_circ_stationary`; `get_snr` on a heap of objects | the sum of all squared strains by the Fourier series of the Kepler orbit and Parseval (C107); comparison of series term by term for noise between two bounds; the sum of all powers (C06) for noise that falls with the square of the frequency; C112 for `get_snr` | exact `peters_g`, or interpolated powers within a factor γ; binaries without sky position, as for all eccentric sources (C97) | `bounds` `white` `louder` `red` `get_snr` |

## Wrong programs (`seeded/LOG.jsonl`)

Each line is one edit of a definition in a scratch copy of the project, followed by a full build in which every
declaration whose proof breaks is replaced by `sorry` until everything compiles. `lemmas_broken` are those declarations.
`theorems_failed` are the property theorems that then depend on `sorry`, so a theorem in this list is one that can no
longer be derived by the proof given; it is not a proof that its statement has become false. An empty list means that the
wrong program survived; `theorems_tightened` says what was added or strengthened because of it, and the repeated attempt
has a line of its own.

## Disagreements between the code and its documentation

Proved (theorem in brackets):

1. `sc_params |= {...}` and `setdefault` bypass the checks: stale curve, unknown keys [C40_union_breaks,
   C41_setdefault_breaks].
2. A rejected change of parameters or tolerance is kept, and silently accepted the second time [C40_failed_update,
   C43_rejected_kept].
3. SNR calls store the resolved `t_obs`, so `auto` is lost after the first call [C51_not_followed].
4. Automatic observation time of DECIGO: 5 yr in `source.py`, 4 yr in `psd.py` [C51_auto_differs].
5. `decigo_psd` with `f_low` <= 1e-8 Hz is finite out of band [C24_decigo_small_f_low].
6. `load_response_function` catches `FileExistsError`, so the documented fallback never triggers
   [C60_missing_file_raises].
7. `evolve_sources(create_new_class=True)` drops weights and the subclass, and claims an interpolated curve it does not
   have [C47_new_class, C40_evolved_without_curve].
8. `Source` accepts weights of any length, and several separations can be assigned to a single source
   [C68_weights_unchecked, C68_separations_unchecked].
9. A single source given as plain numbers with a position but without both angles is a `TypeError`; missing units of a
   separation are not the documented `AssertionError` [C50_scalar_with_position, C50_no_separation_units].
10. Assigning to `a` leaves old merger times in place [C70_stale, C70_wrongly_merged].
11. Evolving by a negative time revives merged sources [C45_past].
12. Arrays returned by `get_snr` can change later [C67_not_kept].
13. `Source.plot_sources_on_sc` counts circular sources for the warning about eccentric ones [C54_eccentric_missed].
14. `snr_circ_evolving` is NaN less than a second before merger [C62_well_defined]; `snr_ecc_evolving` is 0 within 0.1 yr
    of it [C65_well_defined].
15. `evol_circ` reports 100 Hz after merger even if the frequency was higher [C14_not_monotone].
16. `determine_stationarity` marks merged binaries as stationary above 1e9 Hz [C19_above_1e9_merged_is_stationary].
17. `get_t_merge_ecc` disagrees with itself for crossed tolerances, and for `small_e_tol = 0`
    [C18_crossed_tolerances_disagree, C18_zero_tolerance_breaks_circular].
18. `max_strain_harmonic` above the table is the number of required harmonics [C66_above_table].
19. Sources that need fewer than 2 or more than 10000 harmonics are in no group, so their SNR stays 0 [C34_outside].
20. Confusion noise functions are called with different kinds of frequencies by the three instruments, and only TianQin
    converts their results [C64_user_noise_units, C79_number_taken].
21. `h_0_n`, `h_c_n` and the SNR functions accept distances of wrong dimensions [C78_never_refused,
    C78_time_as_distance, C83_distance_unchecked].
22. A saved object with a custom instrument cannot be loaded with its own settings; `VerificationBinaries` come back as
    `Source`; the string `"__none__"` comes back as `None`; overwriting is not atomic [C48_custom_refused,
    C48_verification, C48_none_string, C49_overwrite_not_atomic].
23. Option `s` of scatter plots is a `TypeError`; an unknown `disttype` draws nothing [C75_s_rejected,
    C75_unknown_silent].
24. A save that is cut short can load without any warning, with default parameters in place of the lost ones
    [C81_silent_defaults].
25. With `t_obs="auto"` passed explicitly, every SNR call computes the curve twice and ends where it started
    [C42_explicit_auto].
26. The fit to Peters' merger time is documented as accurate to 0.5%, but is 2.8% too short at eccentricity 480/481
    [C86_documented_fit_error].
27. `evol_ecc` with `avoid_merger=True` stops 1 Myr before the fitted merger time by default, which for long merger times
    lies after the real merger [C87_default_reaches_merger].
28. `set_sc` drops the unit of what a `custom_psd` returns, so interpolated noise is off by the size of the unit
    [C90_custom_unit].
29. The constructor of `Source` accepts quantities of any dimension; a distance which is not a length is never noticed
    [C90_dimensions].
30. The interpolated curve (the default) ends at 2 Hz and is 1e30 beyond, so sources above 2 Hz in DECIGO lose their SNR
    [C91_decigo_lost].
31. The default noise of TianQin for one year is 1e12 times that for half a year at 1e-4 Hz [C26_tianqin_one_year].
32. `evol_ecc` with a 2D `timesteps` array overwrites the caller's array when `avoid_merger` is set [C93_overwritten,
    C93_shared_array].
33. Evolving in place leaves `snr` as it was [C45_evolve].
34. `find_eccentric_transition` returns the first grid point outside the tolerance, not the last one inside [C33_first].
35. For a source that merges during the observation the last of the uniform timesteps spans most of the frequencies, and
    the trapezium rule gets its SNR wrong: with the default LISA and 100 steps, binaries of some hundred to thousand solar
    masses that merge a year after the beginning have more than twice their SNR [C94_merging_lisa, C94_merging].
36. `gw_lum_tol` limits the luminosity left out, not the SNR: with the default 5%, sources of eccentricity 0.06 are treated as
    circular, and below 1e-5 Hz their SNR in LISA is then more than 7% too low [C95_circular_lisa].
37. `interpolate_sc` is a plain attribute: setting it later neither makes nor drops a curve [C40_switched].
38. Sky positions are ignored for evolving sources: with a position the SNR of every circular source classed as stationary is at
    most two thirds of the one without, and less than 0.724 of the one as an evolving source [C97_get_snr, C97_lisa].
39. `evolve_sources(create_new_class=True)` makes an object that shares its arrays of masses, distances, inclinations and
    polarisations with the original, so writing into one changes the other [C99_evolved].
40. Stored merger times are ignored for eccentric evolving sources, even when the user assigned them [C100_assigned].
41. `get_merger_time(save_in_class=True)` changes SNRs: a source of small eccentricity that counts as circular and merges during
    the observation has a smaller SNR afterwards [C100_differs].
42. With TianQin's default noise a year of observation can give less than 1/700000 of the SNR of half a year [C101_tianqin].
43. `sources[[]]` is a `ValueError` (numpy makes an array of floats of it), and in a list of integers and booleans a boolean is a
    number, not a mark [C38_empty_list, C38_lists].
44. `plot_source_variables(disttype="ecdf")` labels the cumulative proportions it draws as a density [C73_ecdf_label].
45. `get_snr(verbose=True, which_sources=[True, False])` is a `TypeError` (`len(which_sources[which_sources])`), although the list
    works without `verbose` [C104_list].
46. With a selection, the number of merged sources that `get_snr(verbose=True)` prints counts the whole collection, so the numbers
    printed do not add up [C104_adds_up].
47. `snr_ecc_evolving` gives a source within 0.1 yr of its merger the SNR 0; it logs a warning only if all sources are that close,
    so beside other sources this goes unnoticed [C105_snr, C105_unnoticed].
48. `get_snr` of `Stationary` and `Evolving` does not take the arguments `L`, `approximate_R`, `confusion_noise` and
    `which_sources` of the method it overrides (nor `n_step`, for `Stationary`): they are a `TypeError` [C106_arguments].
49. With a given number of timesteps a longer observation can lower the SNR of an evolving source by any factor, for a suitable
    smooth noise curve; as the number of steps grows it cannot [C101_coarse, C101_limit].
50. The documentation (demo on eccentricity) says that an eccentric binary always has a stronger strain than an otherwise identical
    circular one. That holds for the sum over all harmonics of the strain amplitude [C107_stronger], but the characteristic strain is
    always weaker [C107_characteristic].
51. Merger times jump up at eccentricity 0.15, where `get_t_merge_ecc` changes formulas: every binary with eccentricity from 0.14 to
    0.15 is reported to merge before the same binary with eccentricity 0.15 [C108_boundary].
52. Sources with eccentricities above 0.9999 are not marked as merged until up to 2% after their merger by Peters' equation, since
    `get_t_merge_ecc` overestimates their merger times; in between, `evolve_sources` integrates past the merger [C109_late].
53. A stricter `gw_lum_tol` can lower SNRs: a source that turns from circular to eccentric loses SNR if only its second harmonic is
    in band [C110_turns_eccentric]. For other sources it cannot [C110_get_snr].
54. Sources with `ecc == ecc_tol`, or less than 0.2/9999 below it, are treated as circular although they can be outside `gw_lum_tol`
    (`ecc_tol` is the first grid point outside it, and the comparison is `<=`) [C33_first, C115_boundary].
55. With `gw_lum_tol` of 0.3712 or more the constructor fails with an `IndexError`, because the search for `ecc_tol` ends at
    eccentricity 0.2; assigning such a tolerance raises too, but keeps it together with the old `ecc_tol` [C115_rejected].
56. docs/notebooks/Strains.ipynb says that the strain of the harmonic `n = 2` declines with eccentricity and that `n = 3` becomes stronger
    around `e = 0.33`. It becomes stronger at 0.4245, `n = 2` is stronger again from 0.8019 on, and `n = 2` at `e = 0.9` is more than
    twice what it is at 0.75 [C118_strain, C118_second].
