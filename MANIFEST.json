{
 "claims": [
  {
   "property": "C01",
   "status": "proved",
   "theorems": [
    "Legwork.Props.C01_get_a_iff_kepler",
    "Legwork.Props.C01_get_f_iff_kepler",
    "Legwork.Props.C01_f_roundtrip",
    "Legwork.Props.C01_a_roundtrip"
   ],
   "note": "Positive masses, frequency, separation."
  },
  {
   "property": "C02",
   "status": "proved",
   "theorems": [
    "Legwork.Props.C02_get_a_iff_peters",
    "Legwork.Props.C02_c_0_iff_peters",
    "Legwork.Props.C02_a_roundtrip",
    "Legwork.Props.C02_c_roundtrip",
    "Legwork.Props.C02_get_a_strictMono"
   ],
   "note": "0 < e < 1 (at e = 0 the curve is singular)."
  },
  {
   "property": "C03",
   "status": "proved",
   "theorems": [
    "Legwork.Props.C03_ratio",
    "Legwork.Props.C03_pos",
    "Legwork.Props.C03_symm",
    "Legwork.Props.C03_iff",
    "Legwork.Props.C03_homogeneous",
    "Legwork.Props.C03_strictMono_left",
    "Legwork.Props.C03_strictMono_right",
    "Legwork.Props.C03_le",
    "Legwork.Props.C03_eq_iff"
   ],
   "note": "Positive masses."
  },
  {
   "property": "C04",
   "status": "proved",
   "theorems": [
    "Legwork.Props.C04_zero",
    "Legwork.Props.C04_strictMono",
    "Legwork.Props.C04_one_le",
    "Legwork.Props.C04_tendsto_atTop"
   ],
   "note": ""
  },
  {
   "property": "C05",
   "status": "proved",
   "theorems": [
    "Legwork.Props.C05_nonneg",
    "Legwork.Props.C05_circular"
   ],
   "note": "0 <= e <= 1; n >= 1 for the values at e = 0."
  },
  {
   "property": "C06",
   "status": "proved",
   "theorems": [
    "Legwork.Props.C06_sum",
    "Legwork.Props.C06_limit",
    "Legwork.Props.C06_reach",
    "Legwork.Props.C06_required",
    "Legwork.Props.C06_exact_table"
   ],
   "note": "0 <= e < 1; `C06_required` is about tables with exact entries."
  },
  {
   "property": "C07",
   "status": "proved",
   "theorems": [
    "Legwork.Props.C07_hc_h0_fdot"
   ],
   "note": "Positive chirp mass, distance and frequency, 0 <= e < 1."
  },
  {
   "property": "C08",
   "status": "proved",
   "theorems": [
    "Legwork.Props.C08_valueError_iff",
    "Legwork.Props.C08_ok_shape",
    "Legwork.Props.C08_ok_iff",
    "Legwork.Props.C08_nonneg",
    "Legwork.Props.C08_distance_scaling",
    "Legwork.Props.C08_mass_scaling",
    "Legwork.Props.C08_freq_scaling"
   ],
   "note": ""
  },
  {
   "property": "C09",
   "status": "proved",
   "theorems": [
    "Legwork.Props.C09_modulation_range",
    "Legwork.Props.C09_modulation_bounds",
    "Legwork.Props.C09_strain_le_averaged",
    "Legwork.Props.C09_snr_le_averaged"
   ],
   "note": ""
  },
  {
   "property": "C10",
   "status": "proved",
   "theorems": [
    "Legwork.Props.C10_pos",
    "Legwork.Props.C10_polarisation",
    "Legwork.Props.C10_sky_average",
    "Legwork.Props.C10_full_average"
   ],
   "note": ""
  },
  {
   "property": "C11",
   "status": "proved",
   "theorems": [
    "Legwork.Props.C11_evol_circ_solves_peters",
    "Legwork.Props.C11_default_ends_at_merger"
   ],
   "note": "Positive beta and separation."
  },
  {
   "property": "C12",
   "status": "proved",
   "theorems": [
    "Legwork.Props.C12_separation_composes",
    "Legwork.Props.C12_frequency_composes",
    "Legwork.Props.C12_remaining_time"
   ],
   "note": "Second time >= 0."
  },
  {
   "property": "C13",
   "status": "proved",
   "theorems": [
    "Legwork.Props.C13_circular_evolutions_agree",
    "Legwork.Props.C13_merged_branch"
   ],
   "note": "A separation of exactly 1e-30 in its unit is excluded (the code's marker for merged)."
  },
  {
   "property": "C14",
   "status": "proved",
   "theorems": [
    "Legwork.Props.C14_frequency_history",
    "Legwork.Props.C14_not_monotone"
   ],
   "note": "Same marker excluded."
  },
  {
   "property": "C15",
   "status": "proved",
   "theorems": [
    "Legwork.Props.C15_de_dt_is_peters",
    "Legwork.Props.C15_separation_rate",
    "Legwork.Props.C15_frequency_rate",
    "Legwork.Props.C15_solutions_exist"
   ],
   "note": "Exact solutions; `odeint` itself is a parameter."
  },
  {
   "property": "C16",
   "status": "proved",
   "theorems": [
    "Legwork.Props.C16_merger_time_counts_down",
    "Legwork.Props.C16_solutions_end_before_merger"
   ],
   "note": "Eccentricities inside the range treated by quadrature."
  },
  {
   "property": "C17",
   "status": "proved",
   "theorems": [
    "Legwork.Props.C17_circular_bounds",
    "Legwork.Props.C17_large_branch_needs_tolerance"
   ],
   "note": "Default tolerances; `C17_large_branch_needs_tolerance` shows they matter."
  },
  {
   "property": "C18",
   "status": "proved",
   "theorems": [
    "Legwork.Props.C18_array_eq_scalar",
    "Legwork.Props.C18_one_branch",
    "Legwork.Props.C18_crossed_tolerances_disagree",
    "Legwork.Props.C18_zero_tolerance_breaks_circular"
   ],
   "note": "0 < small_e_tol <= large_e_tol; `C18_crossed_tolerances_disagree` and `C18_zero_tolerance_breaks_circular` show both bounds are needed."
  },
  {
   "property": "C19",
   "status": "proved",
   "theorems": [
    "Legwork.Props.C19_threshold",
    "Legwork.Props.C19_fractional_change",
    "Legwork.Props.C19_monotone",
    "Legwork.Props.C19_merging_not_stationary",
    "Legwork.Props.C19_above_1e9_merged_is_stationary"
   ],
   "note": "F (1 + stat_tol) < 1e9 Hz, shown necessary by `C19_above_1e9_merged_is_stationary`."
  },
  {
   "property": "C20",
   "status": "proved",
   "theorems": [
    "Legwork.Props.C20_estimate_is_upper_bound",
    "Legwork.Props.C20_stationary_is_safe"
   ],
   "note": ""
  },
  {
   "property": "C21",
   "status": "proved",
   "theorems": [
    "Legwork.Props.C21_value_error_iff",
    "Legwork.Props.C21_values"
   ],
   "note": ""
  },
  {
   "property": "C22",
   "status": "proved",
   "theorems": [
    "Legwork.Props.C22_grid_from_t_evol",
    "Legwork.Props.C22_default_grid",
    "Legwork.Props.C22_explicit_timesteps",
    "Legwork.Props.C22_single_step_never_reaches_t_evol"
   ],
   "note": "`C22_single_step_never_reaches_t_evol` records the case n_step = 1."
  },
  {
   "property": "C23",
   "status": "proved",
   "theorems": [
    "Legwork.Props.C23_avoid_merger",
    "Legwork.Props.C23_never_close"
   ],
   "note": "Non-empty grids not starting before -1 Gyr."
  },
  {
   "property": "C24",
   "status": "proved",
   "theorems": [
    "Legwork.Props.C24_lisa",
    "Legwork.Props.C24_decigo",
    "Legwork.Props.C24_decigo_small_f_low",
    "Legwork.Props.C24_tianqin"
   ],
   "note": "Positive response; `C24_decigo_small_f_low` is the proved defect."
  },
  {
   "property": "C25",
   "status": "proved",
   "theorems": [
    "Legwork.Props.C25_noise_nonneg",
    "Legwork.Props.C25_huang_support",
    "Legwork.Props.C25_value_error_iff",
    "Legwork.Props.C25_psd_ge_without"
   ],
   "note": ""
  },
  {
   "property": "C26",
   "status": "proved",
   "theorems": [
    "Legwork.Props.C26_longer_mission",
    "Legwork.Props.C26_tianqin_one_year"
   ],
   "note": "False for TianQin: `C26_tianqin_one_year`."
  },
  {
   "property": "C27",
   "status": "proved",
   "theorems": [
    "Legwork.Props.C27_robson_nearest",
    "Legwork.Props.C27_huang_nearest"
   ],
   "note": ""
  },
  {
   "property": "C28",
   "status": "proved",
   "theorems": [
    "Legwork.Props.C28_dispatch",
    "Legwork.Props.C28_unknown"
   ],
   "note": ""
  },
  {
   "property": "C29",
   "status": "proved",
   "theorems": [
    "Legwork.Props.C29_circular_limit",
    "Legwork.Props.C29_total_is_sum"
   ],
   "note": "No orientation; exact or circular-exact g."
  },
  {
   "property": "C30",
   "status": "proved",
   "theorems": [
    "Legwork.Props.C30_evolving",
    "Legwork.Props.C30_stationary"
   ],
   "note": "For the evolving case at least one step and a noise curve defined everywhere."
  },
  {
   "property": "C31",
   "status": "proved",
   "theorems": [
    "Legwork.Props.C31_circ_nonneg",
    "Legwork.Props.C31_ecc_nonneg_mono",
    "Legwork.Props.C31_distance",
    "Legwork.Props.C31_t_obs",
    "Legwork.Props.C31_infinite_noise"
   ],
   "note": "Any positive noise curve; `t_obs` scaling on an interpolated (fixed) curve."
  },
  {
   "property": "C32",
   "status": "proved",
   "theorems": [
    "Legwork.Props.C32_tolerance",
    "Legwork.Props.C32_minimal",
    "Legwork.Props.C32_first",
    "Legwork.Props.C32_monotone",
    "Legwork.Props.C32_range"
   ],
   "note": "`ValidTable`: increasing eccentricities, rectangular, at least 2 x 2."
  },
  {
   "property": "C33",
   "status": "proved",
   "theorems": [
    "Legwork.Props.C33_first",
    "Legwork.Props.C33_found_iff",
    "Legwork.Props.C33_mono",
    "Legwork.Props.C33_pos",
    "Legwork.Props.C33_large_tolerance",
    "Legwork.Props.C33_neglected"
   ],
   "note": "Tolerance < 1 for a transition to exist (`C33_large_tolerance`)."
  },
  {
   "property": "C34",
   "status": "proved",
   "theorems": [
    "Legwork.Props.C34_exactly_one",
    "Legwork.Props.C34_outside",
    "Legwork.Props.C34_every_source"
   ],
   "note": "Groups end at 10000 harmonics: `C34_outside`."
  },
  {
   "property": "C35",
   "status": "proved",
   "theorems": [
    "Legwork.Props.C35_mask",
    "Legwork.Props.C35_partition",
    "Legwork.Props.C35_complement"
   ],
   "note": "Rectangular columns (invariant C68)."
  },
  {
   "property": "C36",
   "status": "proved",
   "theorems": [
    "Legwork.Props.C36_settings_classes",
    "Legwork.Props.C36_succeeds_classes",
    "Legwork.Props.C36_get_snr",
    "Legwork.Props.C36_get_snr_stationary",
    "Legwork.Props.C36_get_snr_evolving",
    "Legwork.Props.C36_stationary_class",
    "Legwork.Props.C36_evolving_class",
    "Legwork.Props.C36_circular_harmonic",
    "Legwork.Props.C36_settings",
    "Legwork.Props.C36_succeeds",
    "Legwork.Props.C36_succeeds_with"
   ],
   "note": "At least one step, every worker order complete (`CompleteSchedule`); `C36_succeeds_with` and `C36_succeeds_classes` for objects that interpolate their curve."
  },
  {
   "property": "C37",
   "status": "proved",
   "theorems": [
    "Legwork.Props.C37_snr",
    "Legwork.Props.C37_snr_halves",
    "Legwork.Props.C37_strain",
    "Legwork.Props.C37_merger_time"
   ],
   "note": "Index that means something (`Spec.Selects`)."
  },
  {
   "property": "C38",
   "status": "proved",
   "theorems": [
    "Legwork.Props.C38_lists",
    "Legwork.Props.C38_empty_list",
    "Legwork.Props.C38_getitem",
    "Legwork.Props.C38_sized",
    "Legwork.Props.C38_rejected",
    "Legwork.Props.C38_meaning",
    "Legwork.Props.C38_meaning_unique",
    "Legwork.Props.C38_verification",
    "Legwork.Props.C38_copy"
   ],
   "note": "`VerificationBinaries` refuses both (`C38_verification`); python lists by `asarray` in `Model/ListIndex`, lists of lists are not modelled; the empty list is refused (`C38_empty_list`)."
  },
  {
   "property": "C39",
   "status": "proved",
   "theorems": [
    "Legwork.Props.C39_other_sources",
    "Legwork.Props.C39_params_owner",
    "Legwork.Props.C39_getitem",
    "Legwork.Props.C39_copy"
   ],
   "note": ""
  },
  {
   "property": "C40",
   "status": "proved",
   "theorems": [
    "Legwork.Props.C40_current",
    "Legwork.Props.C40_never_stale",
    "Legwork.Props.C40_evolved_without_curve",
    "Legwork.Props.C40_union_breaks",
    "Legwork.Props.C40_failed_update",
    "Legwork.Props.C40_switched"
   ],
   "note": "Exceptions proved: `C40_evolved_without_curve`, `C40_union_breaks`, `C40_failed_update`, `C40_switched`."
  },
  {
   "property": "C41",
   "status": "proved",
   "theorems": [
    "Legwork.Props.C41_six_keys",
    "Legwork.Props.C41_setitem_rejected",
    "Legwork.Props.C41_update_rejected",
    "Legwork.Props.C41_assign_rejected",
    "Legwork.Props.C41_remove_rejected",
    "Legwork.Props.C41_assign",
    "Legwork.Props.C41_setdefault_breaks"
   ],
   "note": "`C41_setdefault_breaks` for `setdefault`."
  },
  {
   "property": "C42",
   "status": "proved",
   "theorems": [
    "Legwork.Props.C42_setitem_same",
    "Legwork.Props.C42_update_same",
    "Legwork.Props.C42_assign_same",
    "Legwork.Props.C42_at_most_once",
    "Legwork.Props.C42_repeat",
    "Legwork.Props.C42_repeat_partial_calls",
    "Legwork.Props.C42_explicit_auto"
   ],
   "note": "`C42_explicit_auto`: an explicit `t_obs=\"auto\"` recomputes the curve twice at every call."
  },
  {
   "property": "C43",
   "status": "proved",
   "theorems": [
    "Legwork.Props.C43_tolerances",
    "Legwork.Props.C43_same",
    "Legwork.Props.C43_rejected_kept"
   ],
   "note": "`C43_rejected_kept`: a rejected tolerance is kept."
  },
  {
   "property": "C44",
   "status": "proved",
   "theorems": [
    "Legwork.Props.C44_a",
    "Legwork.Props.C44_m_c",
    "Legwork.Props.C44_set_a",
    "Legwork.Props.C44_parts"
   ],
   "note": "As many separations as sources."
  },
  {
   "property": "C45",
   "status": "proved",
   "theorems": [
    "Legwork.Props.C45_evolve",
    "Legwork.Props.C45_rejected",
    "Legwork.Props.C45_permanent",
    "Legwork.Props.C45_past"
   ],
   "note": "Non-negative times (`C45_past` shows why), and no assignment to `merged` that clears a mark."
  },
  {
   "property": "C46",
   "status": "proved",
   "theorems": [
    "Legwork.Props.C46_circular"
   ],
   "note": "Circular sources; marker separation excluded."
  },
  {
   "property": "C47",
   "status": "proved",
   "theorems": [
    "Legwork.Props.C47_new_class"
   ],
   "note": "Statement says what is dropped: weights, subclass, interpolate_sc."
  },
  {
   "property": "C48",
   "status": "proved",
   "theorems": [
    "Legwork.Props.C48_restored",
    "Legwork.Props.C48_refused",
    "Legwork.Props.C48_warned",
    "Legwork.Props.C48_same",
    "Legwork.Props.C48_snr",
    "Legwork.Props.C48_custom_refused",
    "Legwork.Props.C48_verification",
    "Legwork.Props.C48_none_string"
   ],
   "note": "Exceptions proved: custom instrument, VerificationBinaries, the string \"__none__\"."
  },
  {
   "property": "C49",
   "status": "proved",
   "theorems": [
    "Legwork.Props.C49_refused",
    "Legwork.Props.C49_files_kept",
    "Legwork.Props.C49_elsewhere",
    "Legwork.Props.C49_failed",
    "Legwork.Props.C49_succeeds_iff",
    "Legwork.Props.C49_normalise",
    "Legwork.Props.C49_same_path",
    "Legwork.Props.C49_missing",
    "Legwork.Props.C49_overwrite_not_atomic"
   ],
   "note": "`C49_overwrite_not_atomic`."
  },
  {
   "property": "C50",
   "status": "proved",
   "theorems": [
    "Legwork.Props.C50_built",
    "Legwork.Props.C50_accepts",
    "Legwork.Props.C50_rejects",
    "Legwork.Props.C50_no_orbit",
    "Legwork.Props.C50_angle_without_position",
    "Legwork.Props.C50_eccentric_with_position",
    "Legwork.Props.C50_scalar_with_position",
    "Legwork.Props.C50_no_units",
    "Legwork.Props.C50_no_distance_units",
    "Legwork.Props.C50_no_separation_units",
    "Legwork.Props.C50_lengths",
    "Legwork.Props.C50_lengths_separation"
   ],
   "note": "Random angles are an arbitrary function; weights, inclination and polarisation lengths are not checked by the code."
  },
  {
   "property": "C51",
   "status": "proved",
   "theorems": [
    "Legwork.Props.C51_repeat",
    "Legwork.Props.C51_repeat_auto",
    "Legwork.Props.C51_repeat_stationary",
    "Legwork.Props.C51_repeat_evolving",
    "Legwork.Props.C51_auto",
    "Legwork.Props.C51_auto_agrees",
    "Legwork.Props.C51_auto_differs",
    "Legwork.Props.C51_succeeds_auto",
    "Legwork.Props.C51_not_followed"
   ],
   "note": "Failures of the claim: `C51_not_followed`, `C51_auto_differs`."
  },
  {
   "property": "C52",
   "status": "proved",
   "theorems": [
    "Legwork.Props.C52_n_proc_irrelevant"
   ],
   "note": "Workers are deterministic and return; process creation is not modelled."
  },
  {
   "property": "C53",
   "status": "proved",
   "theorems": [
    "Legwork.Props.C53_source",
    "Legwork.Props.C53_source_succeeds",
    "Legwork.Props.C53_no_snr",
    "Legwork.Props.C53_points",
    "Legwork.Props.C53_curve",
    "Legwork.Props.C53_none",
    "Legwork.Props.C53_limits",
    "Legwork.Props.C53_succeeds",
    "Legwork.Props.C53_ratio"
   ],
   "note": ""
  },
  {
   "property": "C54",
   "status": "proved",
   "theorems": [
    "Legwork.Props.C54_warnings",
    "Legwork.Props.C54_eccentric_missed"
   ],
   "note": "The claim is false for eccentric sources: `C54_eccentric_missed`."
  },
  {
   "property": "C55",
   "status": "proved",
   "theorems": [
    "Legwork.Props.C55_plain",
    "Legwork.Props.C55_coloured",
    "Legwork.Props.C55_same_text",
    "Legwork.Props.C55_no_codes",
    "Legwork.Props.C55_each_alone"
   ],
   "note": "Of `logging.Formatter` only the parts used."
  },
  {
   "property": "C56",
   "status": "proved",
   "theorems": [
    "Legwork.Props.C56_length",
    "Legwork.Props.C56_argument",
    "Legwork.Props.C56_flag",
    "Legwork.Props.C56_idempotent"
   ],
   "note": ""
  },
  {
   "property": "C57",
   "status": "proved",
   "theorems": [
    "Legwork.Props.C57_h_0_n",
    "Legwork.Props.C57_h_c_n",
    "Legwork.Props.C57_shape"
   ],
   "note": ""
  },
  {
   "property": "C58",
   "status": "proved",
   "theorems": [
    "Legwork.Props.C58_times",
    "Legwork.Props.C58_saved"
   ],
   "note": ""
  },
  {
   "property": "C59",
   "status": "proved",
   "theorems": [
    "Legwork.Props.C59_evol_ecc_outputs",
    "Legwork.Props.C59_evol_ecc_requests",
    "Legwork.Props.C59_evol_circ_outputs",
    "Legwork.Props.C59_evol_circ_requests",
    "Legwork.Props.C59_evol_ecc_meaning"
   ],
   "note": ""
  },
  {
   "property": "C60",
   "status": "proved",
   "theorems": [
    "Legwork.Props.C60_approximation",
    "Legwork.Props.C60_missing_file_raises",
    "Legwork.Props.C60_fallback_iff"
   ],
   "note": ""
  },
  {
   "property": "C61",
   "status": "proved",
   "theorems": [
    "Legwork.Props.C61_curve"
   ],
   "note": "Parameters with a PSD at every grid point."
  },
  {
   "property": "C62",
   "status": "proved",
   "theorems": [
    "Legwork.Props.C62_well_defined",
    "Legwork.Props.C62_below_100Hz"
   ],
   "note": "No reported frequency exactly 100 Hz; `C62_below_100Hz` gives a condition that ensures it."
  },
  {
   "property": "C63",
   "status": "proved",
   "theorems": [
    "Legwork.Props.C63_values",
    "Legwork.Props.C63_same",
    "Legwork.Props.C63_masses_checked",
    "Legwork.Props.C63_kepler_checked",
    "Legwork.Props.C63_others_checked",
    "Legwork.Props.C63_wrong_together",
    "Legwork.Props.C63_plain"
   ],
   "note": "Dimensions in mass, length, time; fractional exponents are exact."
  },
  {
   "property": "C64",
   "status": "proved",
   "theorems": [
    "Legwork.Props.C64_user_noise_units",
    "Legwork.Props.C64_user_noise_argument"
   ],
   "note": ""
  },
  {
   "property": "C65",
   "status": "proved",
   "theorems": [
    "Legwork.Props.C65_well_defined"
   ],
   "note": "Integrator whose eccentricities decrease; no frequency exactly 100 Hz."
  },
  {
   "property": "C66",
   "status": "proved",
   "theorems": [
    "Legwork.Props.C66_on_table",
    "Legwork.Props.C66_above_table"
   ],
   "note": "`C66_above_table` is the proved defect."
  },
  {
   "property": "C67",
   "status": "proved",
   "theorems": [
    "Legwork.Props.C67_kept",
    "Legwork.Props.C67_superseded",
    "Legwork.Props.C67_overwritten",
    "Legwork.Props.C67_overwritten_stationary",
    "Legwork.Props.C67_overwritten_evolving",
    "Legwork.Props.C67_not_kept"
   ],
   "note": "The claim is false in general: `C67_not_kept`."
  },
  {
   "property": "C68",
   "status": "proved",
   "theorems": [
    "Legwork.Props.C68_tidy",
    "Legwork.Props.C68_weights_unchecked",
    "Legwork.Props.C68_separations_unchecked"
   ],
   "note": "Lengths that the code does not check, and values that a program assigns to attributes, are assumed to be consistent (`SizeOk`); two theorems show they are unchecked."
  },
  {
   "property": "C69",
   "status": "proved",
   "theorems": [
    "Legwork.Props.C69_fixed"
   ],
   "note": "`SizeOk`; no assignments to these attributes by the program itself."
  },
  {
   "property": "C70",
   "status": "proved",
   "theorems": [
    "Legwork.Props.C70_current",
    "Legwork.Props.C70_stale",
    "Legwork.Props.C70_wrongly_merged"
   ],
   "note": "`C70_stale`, `C70_wrongly_merged` are the proved defect."
  },
  {
   "property": "C71",
   "status": "proved",
   "theorems": [
    "Legwork.Props.C71_setup",
    "Legwork.Props.C71_configured",
    "Legwork.Props.C71_once"
   ],
   "note": ""
  },
  {
   "property": "C72",
   "status": "proved",
   "theorems": [
    "Legwork.Props.C72_source",
    "Legwork.Props.C72_settings"
   ],
   "note": ""
  },
  {
   "property": "C73",
   "status": "proved",
   "theorems": [
    "Legwork.Props.C73_one",
    "Legwork.Props.C73_two",
    "Legwork.Props.C73_rejected",
    "Legwork.Props.C73_ecdf_label"
   ],
   "note": ""
  },
  {
   "property": "C74",
   "status": "proved",
   "theorems": [
    "Legwork.Props.C74_curve",
    "Legwork.Props.C74_fails"
   ],
   "note": ""
  },
  {
   "property": "C75",
   "status": "proved",
   "theorems": [
    "Legwork.Props.C75_hist",
    "Legwork.Props.C75_other",
    "Legwork.Props.C75_scatter",
    "Legwork.Props.C75_density",
    "Legwork.Props.C75_s_rejected",
    "Legwork.Props.C75_unknown_silent"
   ],
   "note": "Defects proved: `C75_s_rejected`, `C75_unknown_silent`."
  },
  {
   "property": "C76",
   "status": "proved",
   "theorems": [
    "Legwork.Props.C76_luminosity",
    "Legwork.Props.C76_energy_balance",
    "Legwork.Props.C76_circular"
   ],
   "note": "Exact solutions; luminosity as in `Spec.Energy`."
  },
  {
   "property": "C77",
   "status": "proved",
   "theorems": [
    "Legwork.Props.C77_merger_time",
    "Legwork.Props.C77_merger_time_circ",
    "Legwork.Props.C77_frequency",
    "Legwork.Props.C77_stationary"
   ],
   "note": "Positive physical values; one source at a time."
  },
  {
   "property": "C78",
   "status": "proved",
   "theorems": [
    "Legwork.Props.C78_values",
    "Legwork.Props.C78_never_refused",
    "Legwork.Props.C78_time_as_distance"
   ],
   "note": "`C78_never_refused`, `C78_time_as_distance` are the proved defects."
  },
  {
   "property": "C79",
   "status": "proved",
   "theorems": [
    "Legwork.Props.C79_lisa",
    "Legwork.Props.C79_decigo",
    "Legwork.Props.C79_tianqin",
    "Legwork.Props.C79_tianqin_converts",
    "Legwork.Props.C79_number_taken"
   ],
   "note": "`C79_number_taken` is the proved defect."
  },
  {
   "property": "C80",
   "status": "proved",
   "theorems": [
    "Legwork.Props.C80_as_without_files",
    "Legwork.Props.C80_tidy",
    "Legwork.Props.C80_current",
    "Legwork.Props.C80_generations"
   ],
   "note": "Only LEGWORK writes HDF5 files; several processes one after the other, not at the same time."
  },
  {
   "property": "C81",
   "status": "proved",
   "theorems": [
    "Legwork.Props.C81_refused",
    "Legwork.Props.C81_sources_complete",
    "Legwork.Props.C81_silent_defaults"
   ],
   "note": "The claim is false: `C81_silent_defaults`."
  },
  {
   "property": "C82",
   "status": "proved",
   "theorems": [
    "Legwork.Props.C82_circ",
    "Legwork.Props.C82_ecc",
    "Legwork.Props.C82_ecc_same",
    "Legwork.Props.C82_circ_same",
    "Legwork.Props.C82_time_checked"
   ],
   "note": "One source at a time; 0 <= e; for `evol_circ` with frequencies the separation keeps its unit."
  },
  {
   "property": "C83",
   "status": "proved",
   "theorems": [
    "Legwork.Props.C83_circ_stationary",
    "Legwork.Props.C83_ecc_stationary",
    "Legwork.Props.C83_circ_evolving",
    "Legwork.Props.C83_ecc_evolving",
    "Legwork.Props.C83_distance_unchecked",
    "Legwork.Props.C83_built_in",
    "Legwork.Props.C83_interpolated"
   ],
   "note": "One source at a time; n_step > 0; `C83_distance_unchecked` is the proved defect."
  },
  {
   "property": "C84",
   "status": "proved",
   "theorems": [
    "Legwork.Props.C84_table",
    "Legwork.Props.C84_accepts",
    "Legwork.Props.C84_not_indexed"
   ],
   "note": "Positions in ecliptic coordinates are part of the table; the response file exists."
  },
  {
   "property": "C85",
   "status": "proved",
   "theorems": [
    "Legwork.Props.C85_circular",
    "Legwork.Props.C85_eccentric",
    "Legwork.Props.C85_circular_lisa",
    "Legwork.Props.C85_eccentric_hypotheses",
    "Legwork.Props.C85_builtin_noise"
   ],
   "note": "The integrator is exact (`Spec.Reproduces`); the 100 Hz condition is needed: a grid point at exactly 100 Hz is replaced by the largest frequency."
  },
  {
   "property": "C86",
   "status": "proved",
   "theorems": [
    "Legwork.Props.C86_branches",
    "Legwork.Props.C86_within",
    "Legwork.Props.C86_sources",
    "Legwork.Props.C86_documented_fit_error",
    "Legwork.Props.C86_circular_limit"
   ],
   "note": "The documented 0.5% is false: `C86_documented_fit_error`."
  },
  {
   "property": "C87",
   "status": "proved",
   "theorems": [
    "Legwork.Props.C87_stops_before_merger",
    "Legwork.Props.C87_default_reaches_merger"
   ],
   "note": "False for the default settings: `C87_default_reaches_merger`."
  },
  {
   "property": "C88",
   "status": "proved",
   "theorems": [
    "Legwork.Props.C88_chirp_mass",
    "Legwork.Props.C88_kepler",
    "Legwork.Props.C88_beta",
    "Legwork.Props.C88_peters_f",
    "Legwork.Props.C88_separation_and_eccentricity",
    "Legwork.Props.C88_fn_dot",
    "Legwork.Props.C88_round_trip",
    "Legwork.Props.C88_merger_time",
    "Legwork.Props.C88_cancellation"
   ],
   "note": "`pow` within 4 ulp; the factor of a unit conversion within 4 ulp; masses in the same unit; `C88_cancellation` shows the loss near e=1."
  },
  {
   "property": "C89",
   "status": "proved",
   "theorems": [
    "Legwork.Props.C89_strain",
    "Legwork.Props.C89_lisa_noise",
    "Legwork.Props.C89_tianqin_noise",
    "Legwork.Props.C89_decigo_noise",
    "Legwork.Props.C89_snr"
   ],
   "note": "Approximate response function (the tabulated one goes through scipy splines), no orientation, arm length in metres; any confusion noise with a given error; `cos` within 4 ulp of 1, `jv(k,0)` exact."
  },
  {
   "property": "C90",
   "status": "proved",
   "theorems": [
    "Legwork.Props.C90_built",
    "Legwork.Props.C90_checked",
    "Legwork.Props.C90_dimensions",
    "Legwork.Props.C90_derived",
    "Legwork.Props.C90_set_a",
    "Legwork.Props.C90_auto",
    "Legwork.Props.C90_stationary",
    "Legwork.Props.C90_h_0_n",
    "Legwork.Props.C90_h_c_n",
    "Legwork.Props.C90_merger_time",
    "Legwork.Props.C90_saved",
    "Legwork.Props.C90_evolve",
    "Legwork.Props.C90_time_checked",
    "Legwork.Props.C90_snr",
    "Legwork.Props.C90_curve",
    "Legwork.Props.C90_custom_unit",
    "Legwork.Props.C90_session"
   ],
   "note": "Positions and random angles left out; stationarity and SNR for sources that do not merge at exactly the observation time; `KeepsSign`: odeint keeps eccentricities non-negative; units lost: `C90_custom_unit`, `C90_dimensions`."
  },
  {
   "property": "C91",
   "status": "proved",
   "theorems": [
    "Legwork.Props.C91_lisa_slope",
    "Legwork.Props.C91_other_slopes",
    "Legwork.Props.C91_noise",
    "Legwork.Props.C91_factor",
    "Legwork.Props.C91_circular",
    "Legwork.Props.C91_eccentric",
    "Legwork.Props.C91_evolving",
    "Legwork.Props.C91_objects",
    "Legwork.Props.C91_decigo_lost",
    "Legwork.Props.C91_lisa"
   ],
   "note": "Analytic response for LISA; k=13 with the default confusion noise; false above 2 Hz: `C91_decigo_lost`."
  },
  {
   "property": "C92",
   "status": "proved",
   "theorems": [
    "Legwork.Props.C92_circular",
    "Legwork.Props.C92_lisa"
   ],
   "note": "Circular sources; no grid frequency is exactly the 100 Hz placeholder (automatic for chirp masses above 0.69 solar masses)."
  },
  {
   "property": "C93",
   "status": "proved",
   "theorems": [
    "Legwork.Props.C93_result",
    "Legwork.Props.C93_frame",
    "Legwork.Props.C93_overwritten",
    "Legwork.Props.C93_repeated",
    "Legwork.Props.C93_programs",
    "Legwork.Props.C93_shared_array"
   ],
   "note": "Arrays are writeable floating point arrays; sharing arrays is not safe: `C93_shared_array`."
  },
  {
   "property": "C94",
   "status": "proved",
   "theorems": [
    "Legwork.Props.C94_chirp",
    "Legwork.Props.C94_steps",
    "Legwork.Props.C94_lisa",
    "Legwork.Props.C94_curvature",
    "Legwork.Props.C94_second_order",
    "Legwork.Props.C94_linear",
    "Legwork.Props.C94_last_step",
    "Legwork.Props.C94_merging",
    "Legwork.Props.C94_merging_lisa"
   ],
   "note": "Circular sources, no grid frequency exactly the 100 Hz placeholder; for merging sources the error is large: `C94_last_step`, `C94_merging`, `C94_merging_lisa`."
  },
  {
   "property": "C95",
   "status": "proved",
   "theorems": [
    "Legwork.Props.C95_limit",
    "Legwork.Props.C95_tolerance",
    "Legwork.Props.C95_circular",
    "Legwork.Props.C95_out_of_band",
    "Legwork.Props.C95_lisa",
    "Legwork.Props.C95_circular_lisa"
   ],
   "note": "Exact harmonics (no table of `g`), no orientation; the tolerance does not bound the SNR error at low frequencies: `C95_circular_lisa`."
  },
  {
   "property": "C96",
   "status": "proved",
   "theorems": [
    "Legwork.Props.C96_classes",
    "Legwork.Props.C96_lisa_classes",
    "Legwork.Props.C96_stationary",
    "Legwork.Props.C96_get_snr",
    "Legwork.Props.C96_lisa",
    "Legwork.Props.C96_tianqin"
   ],
   "note": "Circular binaries without position, above a microgram (lighter ones could be taken for merged when their separation is the code's 1e-30 AU marker), `stat_tol` between 0 and 1/4."
  },
  {
   "property": "C97",
   "status": "proved",
   "theorems": [
    "Legwork.Props.C97_classes",
    "Legwork.Props.C97_average",
    "Legwork.Props.C97_get_snr",
    "Legwork.Props.C97_lisa"
   ],
   "note": "Circular sources with all three angles, as the constructor makes them; `C97_lisa` has the hypotheses of `C92_lisa`."
  },
  {
   "property": "C98",
   "status": "proved",
   "theorems": [
    "Legwork.Props.C98_classes",
    "Legwork.Props.C98_get_snr",
    "Legwork.Props.C98_horizon"
   ],
   "note": "Positive distances; any solver, table of `g` and noise."
  },
  {
   "property": "C99",
   "status": "proved",
   "theorems": [
    "Legwork.Props.C99_as_assignments",
    "Legwork.Props.C99_any",
    "Legwork.Props.C99_sizes",
    "Legwork.Props.C99_call",
    "Legwork.Props.C99_write",
    "Legwork.Props.C99_kin",
    "Legwork.Props.C99_write_is_assignment",
    "Legwork.Props.C99_new_objects",
    "Legwork.Props.C99_evolved"
   ],
   "note": "`merged` and `position` (which no code shares) have no identities; no views of parts of arrays; evolved new objects share arrays: `C99_evolved`."
  },
  {
   "property": "C100",
   "status": "proved",
   "theorems": [
    "Legwork.Props.C100_assigned",
    "Legwork.Props.C100_saved",
    "Legwork.Props.C100_differs",
    "Legwork.Props.C100_stationary_class",
    "Legwork.Props.C100_evolving_class"
   ],
   "note": "For `C100_differs`: positive finite noise with countably many jumps, merger time of at least a second, chirp mass above 0.69 solar masses (so that no frequency is the 100 Hz placeholder), a table of `g` that is positive at e=0."
  },
  {
   "property": "C101",
   "status": "proved",
   "theorems": [
    "Legwork.Props.C101_stationary_class",
    "Legwork.Props.C101_lisa_class",
    "Legwork.Props.C101_coarse",
    "Legwork.Props.C101_eccentric",
    "Legwork.Props.C101_eccentric_split",
    "Legwork.Props.C101_stationary",
    "Legwork.Props.C101_get_snr",
    "Legwork.Props.C101_lisa",
    "Legwork.Props.C101_split",
    "Legwork.Props.C101_limit",
    "Legwork.Props.C101_circular",
    "Legwork.Props.C101_tianqin"
   ],
   "note": "`C101_split`, `C101_limit`, `C101_circular`: circular binaries above a microgram, no position, observed at most until a second before merger; `C101_eccentric`, `C101_eccentric_split`: integrator without errors (`SolvesPeters`), until 0.1 yr before merger, below 100 Hz; `C101_tianqin`: false without the condition on the noise; `C101_coarse`: false for evolving sources with a given number of timesteps, here for a custom noise (for LISA it is not known whether SNRs can fall at all)."
  },
  {
   "property": "C102",
   "status": "proved",
   "theorems": [
    "Legwork.Props.C102_loop",
    "Legwork.Props.C102_verification",
    "Legwork.Props.C102_snr"
   ],
   "note": "The body makes calls of the library (`Spec.Calls`), none on the collection itself."
  },
  {
   "property": "C103",
   "status": "proved",
   "theorems": [
    "Legwork.Props.C103_eccentric",
    "Legwork.Props.C103_orbits",
    "Legwork.Props.C103_merger_times",
    "Legwork.Props.C103_de_dt",
    "Legwork.Props.C103_strains",
    "Legwork.Props.C103_stationarity",
    "Legwork.Props.C103_evol_circ",
    "Legwork.Props.C103_stationary",
    "Legwork.Props.C103_evolving",
    "Legwork.Props.C103_exists"
   ],
   "note": "`C103_evolving`: sources below 1 Hz, a second from merger and above a microgram, as the constants 100 Hz, 1 s and 1e-30 AU do not scale; `C103_eccentric`: integrator without errors, since what `odeint` returns need not scale (the equation it solves does, `C103_de_dt`); below 100 Hz and 0.1 yr from merger in both descriptions."
  },
  {
   "property": "C104",
   "status": "proved",
   "theorems": [
    "Legwork.Props.C104_only_prints",
    "Legwork.Props.C104_silent",
    "Legwork.Props.C104_halves",
    "Legwork.Props.C104_classes",
    "Legwork.Props.C104_printed",
    "Legwork.Props.C104_adds_up",
    "Legwork.Props.C104_list",
    "Legwork.Props.C104_repr"
   ],
   "note": "`C104_printed`: a complete schedule of harmonics and at least one timestep, as for C36; what is printed before an exception is not described, except that it is nothing without `verbose`; the progress of `print` itself (buffering, encoding) is not modelled."
  },
  {
   "property": "C105",
   "status": "proved",
   "theorems": [
    "Legwork.Props.C105_same_results",
    "Legwork.Props.C105_evol_ecc",
    "Legwork.Props.C105_stuck",
    "Legwork.Props.C105_default_times",
    "Legwork.Props.C105_snr",
    "Legwork.Props.C105_unnoticed",
    "Legwork.Props.C105_init"
   ],
   "note": "`C105_snr`: positive merger times and at least three steps; what is logged by calls that raise is not described; messages of plots are in C53, C54, what becomes of messages in C55, C71."
  },
  {
   "property": "C106",
   "status": "proved",
   "theorems": [
    "Legwork.Props.C106_agrees",
    "Legwork.Props.C106_succeeds",
    "C106_constructor",
    "C106_arguments"
   ],
   "note": "Arguments by keyword only; programs that switch `interpolate_sc` by assignment without calling `set_sc`, or evolve uninterpolated objects into new ones, are excluded (`Interpolating`)."
  },
  {
   "property": "C107",
   "status": "proved",
   "theorems": [
    "Legwork.Props.C107_total",
    "Legwork.Props.C107_stronger",
    "Legwork.Props.C107_characteristic"
   ],
   "note": "Exact `peters_g` (no table); the detector sees the binary at all (strain of the circular one not 0)."
  },
  {
   "property": "C108",
   "status": "proved",
   "theorems": [
    "Legwork.Props.C108_sooner",
    "Legwork.Props.C108_same_frequency",
    "Legwork.Props.C108_sources",
    "Legwork.Props.C108_boundary"
   ],
   "note": "Default tolerances; `C108_boundary`: not monotone at 0.15."
  },
  {
   "property": "C109",
   "status": "proved",
   "theorems": [
    "Legwork.Props.C109_orbit",
    "Legwork.Props.C109_steps",
    "Legwork.Props.C109_on_time",
    "Legwork.Props.C109_late"
   ],
   "note": "`SolvesPeters`: the integrator has no error on Peters' equation (an integrator with this property is constructed in `Lemmas/ExactOdeint`); sources not at exactly 1e-30 au between steps; `C109_late`: false above eccentricity 0.9999."
  },
  {
   "property": "C110",
   "status": "proved",
   "theorems": [
    "Legwork.Props.C110_harmonics",
    "Legwork.Props.C110_more_harmonics",
    "Legwork.Props.C110_get_snr",
    "Legwork.Props.C110_turns_eccentric"
   ],
   "note": "Table eccentricities in [0,1) and at most 10000 harmonics (as in the file; nothing on the luminosities); the old tolerance is one that was set without error; evolving sources: the conditions of C65; `C110_turns_eccentric`: false for sources that turn eccentric."
  },
  {
   "property": "C111",
   "status": "proved",
   "theorems": [
    "Legwork.Props.C111_circular",
    "Legwork.Props.C111_eccentric",
    "Legwork.Props.C111_get_snr",
    "Legwork.Props.C111_confusion_psd",
    "Legwork.Props.C111_confusion"
   ],
   "note": "Both noises exist at every frequency and are positive (infinite allowed); evolving sources as in `WellEvolved`: not exactly 100 Hz at a timestep, circular ones at least one second before merger, a `DecreasingIntegrator`."
  },
  {
   "property": "C112",
   "status": "proved",
   "theorems": [
    "Legwork.Props.C112_interpolated",
    "Legwork.Props.C112_get_snr",
    "Legwork.Props.C112_lisa",
    "Legwork.Props.C112_power"
   ],
   "note": "The spline of the powers is within a factor \u03b3 of `peters_g` at the harmonics used (nothing is needed with `interpolate_g=False`); `C112_power` speaks of the tabulated eccentricities only; a lower orbital frequency is excluded for a reason: `C95_circular_lisa` shows binaries that lose more."
  },
  {
   "property": "C113",
   "status": "proved",
   "theorems": [
    "Legwork.Props.C113_factor",
    "Legwork.Props.C113_chirp_mass",
    "Legwork.Props.C113_sooner",
    "Legwork.Props.C113_tighter",
    "Legwork.Props.C113_sources",
    "Legwork.Props.C113_louder"
   ],
   "note": "`0 < small_e_tol <= large_e_tol` for the factor (otherwise branches overlap, C18), the default tolerances for the order; SNRs: both sources stationary (evolving ones do not scale: the heavier one leaves the band sooner)."
  },
  {
   "property": "C114",
   "status": "proved",
   "theorems": [
    "Legwork.Props.C114_circular",
    "Legwork.Props.C114_interpolated",
    "Legwork.Props.C114_get_snr",
    "Legwork.Props.C114_lisa_circular",
    "Legwork.Props.C114_lisa"
   ],
   "note": "The spline of the powers is within a factor \u03b3 of 1 at `n = 2`, `e = 0` (nothing is needed with `interpolate_g=False`); no sky position (with one, circular sources are treated differently from eccentric ones, C97)."
  },
  {
   "property": "C115",
   "status": "proved",
   "theorems": [
    "Legwork.Props.C115_transition",
    "Legwork.Props.C115_boundary",
    "Legwork.Props.C115_neglected",
    "Legwork.Props.C115_found",
    "Legwork.Props.C115_tolerances",
    "Legwork.Props.C115_sources",
    "Legwork.Props.C115_rejected"
   ],
   "note": "`tol >= 0`. For tolerances between 0.3711 and 0.3712 the existence of a transition is only reduced to the value at `e = 0.2`. Shown false: that no source treated as circular is outside `gw_lum_tol`; that every tolerance below 1 can be used."
  },
  {
   "property": "C116",
   "status": "proved",
   "theorems": [
    "Legwork.Props.C116_circular",
    "Legwork.Props.C116_get_snr"
   ],
   "note": "As C114: the spline of the powers is within a factor \u03b3 of 1 at `n = 2`, `e = 0`; noise of bounded slope; the tolerance is broken at `e = 0.2`, so that there is a transition."
  },
  {
   "property": "C117",
   "status": "proved",
   "theorems": [
    "Legwork.Props.C117_default",
    "Legwork.Props.C117_percent",
    "Legwork.Props.C117_permille",
    "Legwork.Props.C117_notebook",
    "Legwork.Props.C117_constructed",
    "Legwork.Props.C117_mask"
   ],
   "note": "Exact functions: that `scipy.special.jv` and the float operations are accurate to 1e-6 is not modelled, but the intervals of tolerances show how far the values are from changing."
  },
  {
   "property": "C118",
   "status": "proved",
   "theorems": [
    "Legwork.Props.C118_power",
    "Legwork.Props.C118_strain",
    "Legwork.Props.C118_characteristic",
    "Legwork.Props.C118_strongest",
    "Legwork.Props.C118_second",
    "Legwork.Props.C118_third",
    "Legwork.Props.C118_fourth"
   ],
   "note": "Exact `peters_g`, not its interpolation; positive chirp mass, distance and frequency. Shown false: two claims of docs/notebooks/Strains.ipynb."
  },
  {
   "property": "C119",
   "status": "proved",
   "theorems": [
    "Legwork.Props.C119_bounds",
    "Legwork.Props.C119_white",
    "Legwork.Props.C119_louder",
    "Legwork.Props.C119_red",
    "Legwork.Props.C119_get_snr"
   ],
   "note": "Exact `peters_g`, or interpolated powers within a factor \u03b3; binaries without sky position, as for all eccentric sources (C97)."
  }
 ]
}