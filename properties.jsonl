{"id": "C01", "title": "Kepler conversions are mutually inverse", "statement": "For positive masses, utils.get_f_orb_from_a applied to the result of utils.get_a_from_f_orb returns the original frequency, and the other way round returns the original semi-major axis.", "quantifier": "all positive m_1, m_2, f_orb, a", "why_tests_cant": "The inputs are real numbers: a test samples finitely many of them, and can neither rule out a bad point nor establish an identity.", "anchors": ["src/legwork/utils.py::get_a_from_f_orb", "src/legwork/utils.py::get_f_orb_from_a"]}
{"id": "C02", "title": "Eccentricity/semi-major-axis relation is a round trip through c_0", "statement": "utils.get_a_from_ecc(e, utils.c_0(a, e)) returns a, and utils.c_0(utils.get_a_from_ecc(e, c), e) returns c; get_a_from_ecc is strictly increasing in e.", "quantifier": "all 0<e<1, a>0, c>0", "why_tests_cant": "The inputs are real numbers: a test samples finitely many of them, and can neither rule out a bad point nor establish an identity.", "anchors": ["src/legwork/utils.py::c_0", "src/legwork/utils.py::get_a_from_ecc"]}
{"id": "C03", "title": "Chirp mass is a symmetric mass-like average", "statement": "utils.chirp_mass is positive, symmetric in the two masses, scales linearly when both masses are scaled, is strictly increasing in each mass, equals m/2**(1/5) for equal masses and never exceeds (m_1+m_2)/2**(6/5). Among the binaries with mass ratio q exactly the one with primary mass m_c/q**(3/5)*(1+q)**(1/5), the formula of the demo on horizon distances, has the chirp mass m_c.", "quantifier": "all positive m_1, m_2 and all positive scale factors", "why_tests_cant": "The inputs are real numbers: a test samples finitely many of them, and can neither rule out a bad point nor establish an identity.", "anchors": ["src/legwork/utils.py::chirp_mass"]}
{"id": "C04", "title": "Enhancement factor starts at one and grows with eccentricity", "statement": "utils.peters_f(0)=1, peters_f is strictly increasing on [0,1), so peters_f(e)>=1, and it is unbounded as e approaches 1.", "quantifier": "all 0<=e<1", "why_tests_cant": "The inputs are real numbers: a test samples finitely many of them, and can neither rule out a bad point nor establish an identity.", "anchors": ["src/legwork/utils.py::peters_f"]}
{"id": "C05", "title": "Relative harmonic power is non-negative and purely n=2 when circular", "statement": "utils.peters_g(n,e)>=0 for every harmonic n>=1 and 0<=e<=1, and peters_g(n,0) is 1 when n=2 and 0 otherwise.", "quantifier": "all integers n>=1 and all 0<=e<=1", "why_tests_cant": "The inputs are real numbers: a test samples finitely many of them, and can neither rule out a bad point nor establish an identity. n is unbounded.", "anchors": ["src/legwork/utils.py::peters_g"]}
{"id": "C06", "title": "Harmonic powers sum to the enhancement factor", "statement": "The sum over all harmonics n>=1 of utils.peters_g(n,e) equals utils.peters_f(e) (docstring of peters_f), so enough harmonics always reach any GW luminosity tolerance.", "quantifier": "all 0<=e<1, infinite sum over n", "why_tests_cant": "An infinite series identity over a continuum of eccentricities.", "anchors": ["src/legwork/utils.py::peters_g", "src/legwork/utils.py::peters_f"]}
{"id": "C07", "title": "Strain and characteristic strain agree through the chirp rate", "statement": "strain.h_c_n**2 * utils.fn_dot = (n f_orb)**2 * strain.h_0_n**2 for the same binary and harmonic, with or without amplitude modulation and for exact and interpolated g.", "quantifier": "all positive m_c, f_orb, dist, all 0<=e<1, all n>=1, every g function", "why_tests_cant": "The inputs are real numbers: a test samples finitely many of them, and can neither rule out a bad point nor establish an identity.", "anchors": ["src/legwork/strain.py::h_0_n", "src/legwork/strain.py::h_c_n", "src/legwork/utils.py::fn_dot"]}
{"id": "C08", "title": "Strain scaling laws and rejection of bad harmonics", "statement": "strain.h_0_n and strain.h_c_n are non-negative, inversely proportional to distance, scale as m_c**(5/3) f_orb**(2/3) and m_c**(5/6) f_orb**(-1/6); a harmonic list containing any n<1 makes h_0_n, h_c_n and fn_dot raise ValueError and any other list does not. A source with only part of an orientation makes both strain functions fail.", "quantifier": "all positive inputs, all lists of integer harmonics", "why_tests_cant": "The inputs are real numbers: a test samples finitely many of them, and can neither rule out a bad point nor establish an identity. The harmonic list is of any length.", "anchors": ["src/legwork/strain.py::h_0_n", "src/legwork/strain.py::h_c_n", "src/legwork/utils.py::fn_dot"]}
{"id": "C09", "title": "Specifying a sky position never raises the strain or SNR above the averaged value", "statement": "strain.amplitude_modulation is positive and below 0.45 for every sky position, polarisation and inclination, so the modulated h_0_n, h_c_n and circular stationary SNR never exceed the averaged ones (docs/limitations.rst).", "quantifier": "all real angles theta, phi, psi, inclination", "why_tests_cant": "The inputs are real numbers: a test samples finitely many of them, and can neither rule out a bad point nor establish an identity.", "anchors": ["src/legwork/strain.py::amplitude_modulation", "src/legwork/utils.py::F_plus_squared", "src/legwork/utils.py::F_cross_squared", "docs/limitations.rst"]}
{"id": "C10", "title": "Detector responses are valid auto-correlations with the documented averages", "statement": "F_plus_squared and F_cross_squared are non-negative, their sum does not depend on polarisation, rotating the polarisation by 45 degrees swaps them, and their average over sky and polarisation sums to 3/10 (12/100 with inclination weights).", "quantifier": "all real angles; integrals over the whole sphere", "why_tests_cant": "The inputs are real numbers: a test samples finitely many of them, and can neither rule out a bad point nor establish an identity.", "anchors": ["src/legwork/utils.py::D_plus_squared", "src/legwork/utils.py::D_cross_squared", "src/legwork/utils.py::D_plus_D_cross", "src/legwork/utils.py::F_plus_squared", "src/legwork/utils.py::F_cross_squared"]}
{"id": "C11", "title": "Circular evolution solves Peters' equation and ends at the circular merger time", "statement": "The semi-major axis reported by evol.evol_circ satisfies da/dt=-beta/a**3 with a(0)=a_i, is strictly decreasing before evol.get_t_merge_circ and is exactly 0 from that time on.", "quantifier": "all positive a_i, beta, all times t>=0", "why_tests_cant": "The inputs are real numbers: a test samples finitely many of them, and can neither rule out a bad point nor establish an identity.", "anchors": ["src/legwork/evol.py::evol_circ", "src/legwork/evol.py::get_t_merge_circ"]}
{"id": "C12", "title": "Circular evolution composes", "statement": "Evolving a circular binary for t1 and then for t2 gives the same semi-major axis and frequency as evolving it for t1+t2, and the merger time left after t1 is the merger time minus t1.", "quantifier": "all t1,t2>=0, all positive masses and separations", "why_tests_cant": "The inputs are real numbers: a test samples finitely many of them, and can neither rule out a bad point nor establish an identity. Histories of any number of evolution steps.", "anchors": ["src/legwork/evol.py::evol_circ", "src/legwork/evol.py::get_t_merge_circ"]}
{"id": "C13", "title": "The two circular frequency evolutions agree", "statement": "evol.evolve_f_orb_circ with ecc_i=0 gives the same final frequency as evol.evol_circ for every time before merger, and its merged branch is taken exactly after get_t_merge_circ.", "quantifier": "all positive m_1,m_2,f_orb and all t>=0", "why_tests_cant": "The inputs are real numbers: a test samples finitely many of them, and can neither rule out a bad point nor establish an identity.", "anchors": ["src/legwork/evol.py::evolve_f_orb_circ", "src/legwork/evol.py::evol_circ", "src/legwork/utils.py::chirp_mass", "src/legwork/utils.py::beta"]}
{"id": "C14", "title": "Reported frequency never decreases before merger and merged binaries report 100 Hz", "statement": "Along evol.evol_circ output the orbital frequency never decreases until merger; merged steps are reported at exactly 100 Hz and f_GW is twice f_orb. (The stronger claim that it never decreases at all is false when the binary passes 100 Hz.)", "quantifier": "all positive inputs, all time grids", "why_tests_cant": "The inputs are real numbers: a test samples finitely many of them, and can neither rule out a bad point nor establish an identity.", "anchors": ["src/legwork/evol.py::evol_circ"]}
{"id": "C15", "title": "Eccentric evolution obeys Peters' equations for a and for every harmonic frequency", "statement": "If e(t) solves de/dt=evol.de_dt then a(t)=get_a_from_ecc(e(t),c_0) satisfies da/dt=-beta/a**3*peters_f(e) and n*f_orb(t) has derivative utils.fn_dot.", "quantifier": "all 0<e<1, all positive masses and c_0, all n>=1, every solution", "why_tests_cant": "A differential identity tying five functions together at every point.", "anchors": ["src/legwork/evol.py::de_dt", "src/legwork/utils.py::get_a_from_ecc", "src/legwork/utils.py::peters_f", "src/legwork/utils.py::beta", "src/legwork/utils.py::fn_dot", "src/legwork/utils.py::get_f_orb_from_a"]}
{"id": "C16", "title": "Exact merger time counts down at unit rate", "statement": "Along any exact solution of the eccentricity equation the exact evol.get_t_merge_ecc value decreases by exactly the elapsed time, so evolving for t leaves t_merge-t.", "quantifier": "all 0<e<1, all positive beta, c_0, all solutions and times", "why_tests_cant": "The inputs are real numbers: a test samples finitely many of them, and can neither rule out a bad point nor establish an identity.", "anchors": ["src/legwork/evol.py::get_t_merge_ecc", "src/legwork/evol.py::de_dt"]}
{"id": "C17", "title": "The circular merger time bounds the eccentric one", "statement": "0 < get_t_merge_ecc <= get_t_merge_circ for the same separation and masses in the circular, small-e, exact and (default tolerances) large-e branches.", "quantifier": "all 0<=e<1, all positive a_i, beta", "why_tests_cant": "The inputs are real numbers: a test samples finitely many of them, and can neither rule out a bad point nor establish an identity.", "anchors": ["src/legwork/evol.py::get_t_merge_ecc", "src/legwork/evol.py::get_t_merge_circ"]}
{"id": "C18", "title": "Array and single-source merger times agree and every eccentricity is handled", "statement": "For 0<small_e_tol<=large_e_tol, get_t_merge_ecc on an array returns at each position what it returns for that source alone; every 0<=e<1 falls in exactly one branch. (With small_e_tol>large_e_tol the two call styles disagree, and with small_e_tol=0 a circular source in an array with an eccentric one gets merger time 0.)", "quantifier": "arrays of any length, all tolerances, all eccentricities", "why_tests_cant": "Arrays have any length and any mixture of branches.", "anchors": ["src/legwork/evol.py::get_t_merge_ecc"]}
{"id": "C19", "title": "Stationarity is a threshold on the frequency change", "statement": "determine_stationarity is true exactly when the circular-estimate fractional frequency change is at most stat_tol; it is antitone in t_evol and eccentricity, monotone in stat_tol; anything that merges within t_evol is not stationary.", "quantifier": "all positive inputs", "why_tests_cant": "The inputs are real numbers: a test samples finitely many of them, and can neither rule out a bad point nor establish an identity.", "anchors": ["src/legwork/evol.py::determine_stationarity", "src/legwork/evol.py::evolve_f_orb_circ"]}
{"id": "C20", "title": "Stationarity is conservative for eccentric binaries", "statement": "For any exact solution of the eccentric evolution, evolve_f_orb_circ overestimates the final frequency, so a binary marked stationary truly changes by at most stat_tol.", "quantifier": "all 0<e<1, every exact solution, all times before merger", "why_tests_cant": "The inputs are real numbers: a test samples finitely many of them, and can neither rule out a bad point nor establish an identity.", "anchors": ["src/legwork/evol.py::evolve_f_orb_circ", "src/legwork/evol.py::determine_stationarity"]}
{"id": "C21", "title": "Mass and frequency inputs are resolved by fixed precedence", "statement": "evol.check_mass_freq_input raises ValueError exactly when beta is missing and a mass is missing, or both a_i and f_orb_i are missing, or a_i and a mass are missing; otherwise supplied beta and a_i win and missing ones are computed from the masses and frequency.", "quantifier": "all 32 combinations of supplied/missing arguments and all values", "why_tests_cant": "The claim covers every value of every argument combination.", "anchors": ["src/legwork/evol.py::check_mass_freq_input"]}
{"id": "C22", "title": "Timestep grids start at zero, end at t_evol and are monotone", "statement": "create_timesteps_array gives each source n_step increasing times from 0 to its evolution time (merger time by default), repeats a scalar time or 1D grid for every source and leaves a 2D grid alone; timesteps takes precedence.", "quantifier": "all n_step, all numbers of sources, all times", "why_tests_cant": "n_step and the number of sources are unbounded.", "anchors": ["src/legwork/evol.py::create_timesteps_array"]}
{"id": "C23", "title": "avoid_merger never integrates within t_before of merger", "statement": "After the avoid_merger clamp in evol_ecc every timestep after the first is earlier than t_merge-t_before or repeats the last allowed one, safe steps are unchanged, and the grid stays non-decreasing and starts at 0.", "quantifier": "all nondecreasing grids of any length, all t_merge, t_before", "why_tests_cant": "Grid length and values are unbounded.", "anchors": ["src/legwork/evol.py::evol_ecc"]}
{"id": "C24", "title": "Out-of-band PSD is infinite, in-band PSD is finite and positive", "statement": "lisa_psd is infinite outside [1e-7,2] Hz and positive finite inside whenever the response is positive; decigo_psd likewise for [f_low,f_high] provided f_low>1e-8 Hz (for f_low<=1e-8 Hz it is wrongly finite); tianqin_psd is positive for every f>0.", "quantifier": "all frequencies f>0, all settings", "why_tests_cant": "The inputs are real numbers: a test samples finitely many of them, and can neither rule out a bad point nor establish an identity.", "anchors": ["src/legwork/psd.py::lisa_psd", "src/legwork/psd.py::tianqin_psd", "src/legwork/psd.py::decigo_psd"]}
{"id": "C25", "title": "Confusion noise only adds noise", "statement": "Every confusion noise model returns a non-negative value at every positive frequency, huang20 is exactly zero outside [1e-4,1] Hz, model None returns zero, and every PSD with confusion noise is at least the PSD with None; unknown names and thiele21 with t_obs other than 4 yr raise ValueError.", "quantifier": "all f>0, all t_obs>0, all models", "why_tests_cant": "The inputs are real numbers: a test samples finitely many of them, and can neither rule out a bad point nor establish an identity.", "anchors": ["src/legwork/psd.py::get_confusion_noise", "src/legwork/psd.py::get_confusion_noise_robson19", "src/legwork/psd.py::get_confusion_noise_huang20", "src/legwork/psd.py::get_confusion_noise_thiele21", "src/legwork/psd.py::get_confusion_noise_karnesis21"]}
{"id": "C26", "title": "A longer mission never increases the default LISA noise", "statement": "get_confusion_noise_karnesis21 and hence the default lisa_psd are non-increasing in t_obs at every frequency. (Not so for TianQin: at 1e-4 Hz its default noise for one year is more than 1e12 times that for half a year.)", "quantifier": "all f>0, all 0<t1<=t2", "why_tests_cant": "The inputs are real numbers: a test samples finitely many of them, and can neither rule out a bad point nor establish an identity.", "anchors": ["src/legwork/psd.py::get_confusion_noise_karnesis21", "src/legwork/psd.py::lisa_psd"]}
{"id": "C27", "title": "Tabulated confusion fits use the nearest mission length", "statement": "robson19 and huang20 use the table entry whose mission length is closest to t_obs, ties going to the shorter mission.", "quantifier": "all real t_obs", "why_tests_cant": "The inputs are real numbers: a test samples finitely many of them, and can neither rule out a bad point nor establish an identity.", "anchors": ["src/legwork/psd.py::get_confusion_noise_robson19", "src/legwork/psd.py::get_confusion_noise_huang20"]}
{"id": "C28", "title": "power_spectral_density resolves instruments and auto values", "statement": "LISA/TianQin/DECIGO dispatch to their functions with documented defaults for auto, explicit values are passed through, custom calls custom_psd with the raw arguments, anything else raises ValueError.", "quantifier": "all instrument names, all argument values", "why_tests_cant": "All strings and values.", "anchors": ["src/legwork/psd.py::power_spectral_density"]}
{"id": "C29", "title": "Eccentric and circular stationary SNR agree in the circular limit", "statement": "snr_ecc_stationary with ecc=0 equals snr_circ_stationary for every harmonics_required>=2, and the SNR squared is the sum of ret_snr2_by_harmonic.", "quantifier": "all positive inputs, all harmonics_required>=2, all noise curves", "why_tests_cant": "The inputs are real numbers: a test samples finitely many of them, and can neither rule out a bad point nor establish an identity.", "anchors": ["src/legwork/snr.py::snr_circ_stationary", "src/legwork/snr.py::snr_ecc_stationary"]}
{"id": "C30", "title": "max_snr_harmonic is a true, in-range maximiser", "statement": "The harmonic returned with ret_max_snr_harmonic lies in 1..harmonics_required, no harmonic has larger SNR, and it is the lowest one attaining the maximum.", "quantifier": "all inputs and numbers of harmonics", "why_tests_cant": "The number of harmonics is unbounded.", "anchors": ["src/legwork/snr.py::snr_ecc_stationary", "src/legwork/snr.py::snr_ecc_evolving"]}
{"id": "C31", "title": "Stationary SNR scaling laws", "statement": "Stationary SNR is non-negative, inversely proportional to distance, proportional to sqrt(t_obs) on a fixed noise curve, does not decrease when more harmonics are included, and is 0 where the noise is infinite.", "quantifier": "all positive inputs", "why_tests_cant": "The inputs are real numbers: a test samples finitely many of them, and can neither rule out a bad point nor establish an identity.", "anchors": ["src/legwork/snr.py::snr_circ_stationary", "src/legwork/snr.py::snr_ecc_stationary"]}
{"id": "C32", "title": "harmonics_required reaches the luminosity tolerance, is at least 2 and monotone", "statement": "At every tabulated eccentricity after the first (circular, 2 harmonics by construction) the harmonics 1..harmonics_required contain at least (1-gw_lum_tol) of the GW luminosity or the table's last harmonic is reached, no smaller admissible count would do; harmonics_required(e) is non-decreasing in e over all reals and lies between 2 and the table size.", "quantifier": "every table, every tolerance, every real e", "why_tests_cant": "The table and tolerance are arbitrary and e ranges over the reals.", "anchors": ["src/legwork/source.py::Source.create_harmonics_functions"]}
{"id": "C33", "title": "ecc_tol is the first grid eccentricity that breaks the tolerance", "statement": "Every grid eccentricity below ecc_tol keeps the n=2 harmonic within gw_lum_tol of the total luminosity, ecc_tol itself does not; a tighter tolerance never raises ecc_tol; ecc_tol is positive for every non-negative tolerance; below ecc_tol all harmonics other than n=2 together carry no more than gw_lum_tol.", "quantifier": "all tolerances and all grid points", "why_tests_cant": "The inputs are real numbers: a test samples finitely many of them, and can neither rule out a bad point nor establish an identity.", "anchors": ["src/legwork/source.py::Source.find_eccentric_transition"]}
{"id": "C34", "title": "Each eccentric source is computed in exactly one harmonic group that covers its need", "statement": "In get_snr_stationary/get_snr_evolving every eccentric inspiralling source whose harmonics_required lies in 2..10000 is in exactly one harmonic group, and that group computes at least harmonics_required harmonics.", "quantifier": "all eccentricities and all collections of sources", "why_tests_cant": "Unbounded collections.", "anchors": ["src/legwork/source.py::Source.get_snr_stationary", "src/legwork/source.py::Source.get_snr_evolving"]}
{"id": "C35", "title": "Source masks partition the sources", "statement": "get_source_mask(circular=True)/(False) are complementary, so are stationary=True/False; the four combined masks are disjoint and cover every source exactly once; None selects all; other values raise ValueError.", "quantifier": "all collections of sources, all tolerances and t_obs", "why_tests_cant": "Unbounded collections and real thresholds.", "anchors": ["src/legwork/source.py::Source.get_source_mask"]}
{"id": "C36", "title": "get_snr dispatches each source to the right calculation", "statement": "After get_snr every merged or unselected source has SNR 0 and every other one has exactly the SNR of its class (stationary/evolving, circular/eccentric); the result has one entry per source and equals Source.snr; max_snr_harmonic of circular sources is 2.", "quantifier": "all collections, masks and settings", "why_tests_cant": "Unbounded collections, every mixture of classes.", "anchors": ["src/legwork/source.py::Source.get_snr", "src/legwork/source.py::Source.get_snr_stationary", "src/legwork/source.py::Source.get_snr_evolving"]}
{"id": "C37", "title": "SNR, strain and merger time do not depend on which other sources are present", "statement": "Computing on sources[ind] gives the same values as computing on all sources and then indexing with ind.", "quantifier": "all collections and all index lists (repeats and reorderings included)", "why_tests_cant": "Unbounded collections and index lists.", "anchors": ["src/legwork/source.py::Source.__getitem__", "src/legwork/source.py::Source.get_snr", "src/legwork/source.py::Source.get_h_0_n", "src/legwork/source.py::Source.get_merger_time"]}
{"id": "C38", "title": "Indexing masks every per-source attribute consistently", "statement": "sources[ind] for an int (negative included), slice, integer list or boolean mask returns a source collection whose every per-source attribute is the indexed original, with the same settings and class; wrong-length boolean masks and non-integer indices raise ValueError and out-of-range integers raise IndexError. (In a python list of integers and booleans True means source 1 and False source 0. The empty list is a ValueError, although an empty slice gives an empty collection.)", "quantifier": "all collections, all indices", "why_tests_cant": "Unbounded collections and indices.", "anchors": ["src/legwork/source.py::Source.__getitem__", "src/legwork/source.py::Source.copy", "src/legwork/source.py::Source.__len__"]}
{"id": "C39", "title": "A copy or mask is independent of the original", "statement": "No operation on sources.copy() or sources[ind] (parameter changes, SNR, merger times, evolution) changes any attribute of the original, and vice versa.", "quantifier": "all interleavings of operations on original and copies", "why_tests_cant": "All operation sequences.", "anchors": ["src/legwork/source.py::Source.__getitem__", "src/legwork/source.py::Source.copy", "src/legwork/source.py::SensitivityCurveParams"]}
{"id": "C40", "title": "The interpolated sensitivity curve always matches sc_params", "statement": "After any sequence of item assignments, updates, whole-dictionary assignments, SNR calls, copies and evolutions, Source.sc is the curve of the current sc_params (interpolation on) or None (off). (In-place union sc_params |= {...} breaks this, and evolve_sources(create_new_class=True) on sources with interpolation off gives an object with interpolation on and no curve. Assigning to the attribute interpolate_sc changes no curve until set_sc is called or parameters change.)", "quantifier": "all operation sequences of any length", "why_tests_cant": "All histories.", "anchors": ["src/legwork/source.py::SensitivityCurveParams", "src/legwork/source.py::Source.sc_params", "src/legwork/source.py::Source.set_sc"]}
{"id": "C41", "title": "sc_params always holds exactly the six documented keys", "statement": "No supported operation adds or removes a key: unknown keys raise KeyError and removals raise TypeError, and a rejected operation leaves parameters and curve unchanged; omitted keys revert to defaults on whole assignment.", "quantifier": "all operation sequences", "why_tests_cant": "All histories.", "anchors": ["src/legwork/source.py::SensitivityCurveParams", "src/legwork/source.py::DEFAULT_SC_PARAMS"]}
{"id": "C42", "title": "Re-interpolation happens only when something changes, and at most once per update", "statement": "Assigning equal values never recomputes the curve, update recomputes at most once however many keys change, and repeating an SNR call with the same arguments recomputes nothing. (In fact a call with an explicit t_obs='auto' recomputes it twice every time.)", "quantifier": "all operation sequences and values", "why_tests_cant": "All histories.", "anchors": ["src/legwork/source.py::SensitivityCurveParams.update", "src/legwork/source.py::SensitivityCurveParams.__setitem__", "src/legwork/source.py::Source.sc_params"]}
{"id": "C43", "title": "ecc_tol and harmonics_required always match gw_lum_tol", "statement": "After any sequence of operations ecc_tol and harmonics_required are those derived from the current gw_lum_tol, and re-assigning the same tolerance recomputes nothing. (In fact a tolerance of 1 or more raises but is kept, with the old ecc_tol.)", "quantifier": "all operation sequences and tolerances", "why_tests_cant": "All histories.", "anchors": ["src/legwork/source.py::Source.gw_lum_tol", "src/legwork/source.py::Source.ecc_tol"]}
{"id": "C44", "title": "Derived properties stay consistent with stored ones", "statement": "m_c, a and n_sources always equal the values derived from m_1, m_2, f_orb; assigning a then reading a returns the assigned value and f_orb matches it.", "quantifier": "all operation sequences, all positive values", "why_tests_cant": "All histories.", "anchors": ["src/legwork/source.py::Source.a", "src/legwork/source.py::Source.m_c", "src/legwork/source.py::Source.n_sources"]}
{"id": "C45", "title": "evolve_sources counts merger times down and merging is permanent", "statement": "evolve_sources marks exactly the sources with t_evol>=t_merge as merged, sets t_merge to max(0,t_merge-t_evol), merged sources get 100 Hz and zero eccentricity and, over any sequence of non-negative evolutions, never become unmerged.", "quantifier": "all collections and all sequences of evolution times", "why_tests_cant": "All histories.", "anchors": ["src/legwork/source.py::Source.evolve_sources", "src/legwork/source.py::Source.get_merger_time"]}
{"id": "C46", "title": "Evolving circular sources in steps equals evolving them at once", "statement": "For circular sources any sequence of evolve_sources calls leaves exactly the same state as one call with the total time. (Excluded is only the coincidence that an intermediate separation is exactly 1e-30 au, which the code takes for a merged source.)", "quantifier": "all collections of circular sources and all lists of non-negative times", "why_tests_cant": "All histories.", "anchors": ["src/legwork/source.py::Source.evolve_sources"]}
{"id": "C47", "title": "create_new_class leaves the original sources unchanged", "statement": "evolve_sources(create_new_class=True) changes nothing in the original except caching t_merge, and the new object has exactly the values an in-place evolution would have produced; settings are carried over (weights and subclass are in fact dropped).", "quantifier": "all collections and times", "why_tests_cant": "All histories.", "anchors": ["src/legwork/source.py::Source.evolve_sources"]}
{"id": "C48", "title": "save followed by from_file restores the sources", "statement": "Loading a saved file gives an object with equal per-source attributes, tolerances, interpolation flags and sc_params (callables replaced by defaults, with a warning) and hence the same sensitivity curve and SNRs. (In fact an object with a custom instrument and interpolate_sc=True cannot be loaded again without passing interpolate_sc=False, VerificationBinaries come back as Source, and a parameter that is the string '__none__' comes back as None.)", "quantifier": "all reachable collections, file systems, later sessions and overriding settings", "why_tests_cant": "Unbounded collections, all histories before saving.", "anchors": ["src/legwork/source.py::Source.save", "src/legwork/source.py::Source.from_file"]}
{"id": "C49", "title": "save never destroys a file without overwrite=True", "statement": "save raises FileExistsError and leaves the file system unchanged when the (extension-normalised) path exists and overwrite is False, at every crash point; save and from_file normalise paths identically and idempotently; other files are never touched. (With overwrite=True the old contents are lost before the new ones are complete.)", "quantifier": "all paths, file systems and crash points", "why_tests_cant": "Crash points and file systems are unbounded.", "anchors": ["src/legwork/source.py::Source.save", "src/legwork/source.py::Source.from_file"]}
{"id": "C50", "title": "The constructor accepts exactly the documented inputs", "statement": "Source raises ValueError without f_orb and a, with inclination/polarisation but no position, with position and any nonzero eccentricity, or with m_1,m_2,dist,f_orb,ecc of different lengths; AssertionError without units; f_orb takes precedence over a; scalars become length-1 arrays. (weights of another length are in fact accepted.)", "quantifier": "all argument combinations and lengths", "why_tests_cant": "All combinations of shapes.", "anchors": ["src/legwork/source.py::Source.__init__"]}
{"id": "C51", "title": "Repeating an SNR call gives the same answer, and auto follows the instrument", "statement": "get_snr called again with the same arguments returns the same SNR; automatic t_obs is resolved consistently with the instrument's PSD default. (In fact the first call overwrites t_obs='auto', so later instrument changes do not follow, and DECIGO's automatic t_obs differs between Source and psd.)", "quantifier": "all histories", "why_tests_cant": "All histories.", "anchors": ["src/legwork/source.py::Source.get_snr", "src/legwork/psd.py::power_spectral_density"]}
{"id": "C52", "title": "n_proc does not change results", "statement": "evol_ecc gives identical eccentricities whatever n_proc and whatever order worker processes finish in.", "quantifier": "all worker schedules and numbers of sources", "why_tests_cant": "All schedules.", "anchors": ["src/legwork/evol.py::evol_ecc", "src/legwork/evol.py::integrate_de_dt"]}
{"id": "C53", "title": "Plotted sources sit exactly their SNR above the curve", "statement": "plot_sources_on_sc plots exactly the sources with snr>snr_cutoff, each at height snr times sqrt(PSD) (times sqrt(f) for characteristic strain) at its dominant frequency, with matching weights.", "quantifier": "all collections and cutoffs", "why_tests_cant": "Unbounded collections.", "anchors": ["src/legwork/visualisation.py::plot_sources_on_sc", "src/legwork/source.py::Source.plot_sources_on_sc"]}
{"id": "C54", "title": "Evolving sources that cannot be plotted are reported", "statement": "Source.plot_sources_on_sc warns with the number of detectable circular evolving sources and with the number of detectable eccentric evolving sources. (The second warning in fact counts circular ones again.)", "quantifier": "all collections", "why_tests_cant": "Unbounded collections.", "anchors": ["src/legwork/source.py::Source.plot_sources_on_sc"]}
{"id": "C55", "title": "Log messages are prefixed, and coloured only on terminals", "statement": "LegworkFormatter yields 'LEGWORK <level>: <message>', with escape codes only when the stream is a terminal; a terminal shows the same text for a coloured message as for a plain one, and the same record formatted for a terminal and then for a file has no codes in the file.", "quantifier": "all messages, levels and streams", "why_tests_cant": "All strings.", "anchors": ["src/legwork/_logging.py::LegworkFormatter"]}
{"id": "C56", "title": "ensure_array normalises any mix of arguments", "statement": "ensure_array returns as many arguments as given, keeps None and arrays, wraps scalars in length-1 arrays, keeps units, and its flag is true exactly when some argument was a scalar; it is idempotent.", "quantifier": "all argument lists", "why_tests_cant": "Lists of any length and kind.", "anchors": ["src/legwork/utils.py::ensure_array"]}
{"id": "C57", "title": "Strains of merged sources are zero and rows follow the selection", "statement": "get_h_0_n/get_h_c_n return one row per selected source in order and one column per harmonic; merged sources give 0 and the others the direct strain of that source.", "quantifier": "all collections, masks and harmonic lists", "why_tests_cant": "Unbounded collections.", "anchors": ["src/legwork/source.py::Source.get_h_0_n", "src/legwork/source.py::Source.get_h_c_n"]}
{"id": "C58", "title": "get_merger_time covers inspiralling sources", "statement": "get_merger_time gives 0 for merged sources and the merger time of each other selected source in order; saving ignores which_sources and stores one value per source.", "quantifier": "all collections and masks", "why_tests_cant": "Unbounded collections.", "anchors": ["src/legwork/source.py::Source.get_merger_time"]}
{"id": "C59", "title": "Evolution outputs follow the requested order", "statement": "evol_circ/evol_ecc return the requested variables in the requested order (one variable unwrapped), independent of duplicates; unknown names are dropped silently and all-unknown requests fail; frequency outputs without masses raise ValueError.", "quantifier": "all lists of output names", "why_tests_cant": "Lists of any length.", "anchors": ["src/legwork/evol.py::evol_circ", "src/legwork/evol.py::evol_ecc"]}
{"id": "C60", "title": "LISA response approximation is positive, decreasing and bounded by 3/10", "statement": "approximate_response_function is in (0,3/10] and decreasing in |f|; a missing response file falls back to it. (In fact the fallback catches FileExistsError and never triggers.)", "quantifier": "all frequencies and fstar>0; all file-system outcomes", "why_tests_cant": "The inputs are real numbers: a test samples finitely many of them, and can neither rule out a bad point nor establish an identity.", "anchors": ["src/legwork/psd.py::approximate_response_function", "src/legwork/psd.py::load_response_function"]}
{"id": "C61", "title": "The interpolated sensitivity curve is exact on its grid and bounded between", "statement": "Source.sc equals the PSD at every grid frequency, lies between neighbouring values elsewhere in [1e-7,2] Hz and is 1e30 outside.", "quantifier": "all frequencies and PSDs", "why_tests_cant": "The inputs are real numbers: a test samples finitely many of them, and can neither rule out a bad point nor establish an identity.", "anchors": ["src/legwork/source.py::Source.set_sc"]}
{"id": "C62", "title": "Evolving circular SNR is well defined", "statement": "snr_circ_evolving returns a non-negative SNR whenever the binary is at least one second from merger; below one second the evolution runs backwards and SNR squared is negative.", "quantifier": "all positive inputs, all n_step", "why_tests_cant": "The inputs are real numbers: a test samples finitely many of them, and can neither rule out a bad point nor establish an identity.", "anchors": ["src/legwork/snr.py::snr_circ_evolving"]}
{"id": "C63", "title": "Results do not depend on the units inputs are given in", "statement": "chirp_mass, Kepler conversions, beta, c_0, get_a_from_ecc, fn_dot never raise a unit error for inputs of the right dimension and return the same physical value whatever units the inputs are expressed in; quantities of a wrong dimension are refused with a unit error (unless all of them are wrong in ways that cancel), and plain numbers are accepted only by chirp_mass, c_0 and get_a_from_ecc.", "quantifier": "all unit choices and values", "why_tests_cant": "All unit systems.", "anchors": ["src/legwork/utils.py"]}
{"id": "C64", "title": "User confusion noise functions receive the frequency as documented", "statement": "A confusion_noise callable is called with the (in-band) frequency and t_obs. In fact LISA and DECIGO pass the frequency as a bare number and replace out-of-band frequencies by 1e-8, while TianQin passes it with units, so the same function cannot serve all three.", "quantifier": "all callables, frequencies and observation times", "why_tests_cant": "All functions.", "anchors": ["src/legwork/psd.py::lisa_psd", "src/legwork/psd.py::tianqin_psd", "src/legwork/psd.py::decigo_psd"]}
{"id": "C65", "title": "Eccentric evolving SNR is well defined", "statement": "For an integrator whose eccentricities decrease along the times it is given, snr_ecc_evolving returns a non-negative SNR for every source, equal to the root of the summed ret_snr2_by_harmonic. (In fact a source within 0.1 yr of merger has all its timesteps clamped to zero, so its SNR is reported as exactly 0.)", "quantifier": "all positive inputs, all n_step and harmonics, all such integrators", "why_tests_cant": "Unbounded step counts and an arbitrary integrator.", "anchors": ["src/legwork/snr.py::snr_ecc_evolving"]}
{"id": "C66", "title": "max_strain_harmonic is the harmonic of largest tabulated luminosity", "statement": "At every tabulated eccentricity max_strain_harmonic(e) is the first harmonic with the largest g(n,e). (Above the table it in fact returns the largest number of required harmonics: the fill value is copied from the other interpolation.)", "quantifier": "every table, tolerance and tabulated eccentricity", "why_tests_cant": "Tables of any size.", "anchors": ["src/legwork/source.py::Source.create_harmonics_functions"]}
{"id": "C67", "title": "SNR arrays handed out earlier keep their values", "statement": "An SNR array returned by an earlier get_snr call is not changed by later calls. (In fact get_snr returns the very array stored as self.snr, and a later get_snr_stationary or get_snr_evolving call writes its results into that array first.)", "quantifier": "all collections and all sequences of calls", "why_tests_cant": "Unbounded sequences of calls.", "anchors": ["src/legwork/source.py::Source.get_snr", "src/legwork/source.py::Source.get_snr_stationary", "src/legwork/source.py::Source.get_snr_evolving"]}
{"id": "C68", "title": "Collections always stay consistent", "statement": "Whatever sequence of calls is made, every attribute, SNR array and array of harmonics of every collection has exactly one entry per source, merged sources have no time left, and collections with positions are circular. (In fact the constructor does not check the lengths of weights, inclination and polarisation, and assigning several separations to a single source is accepted, after which this fails.)", "quantifier": "all sequences of calls, including failing ones, on any number of objects", "why_tests_cant": "Unbounded sequences of calls.", "anchors": ["src/legwork/source.py::Source.__init__", "src/legwork/source.py::Source.__getitem__", "src/legwork/source.py::Source.evolve_sources", "src/legwork/source.py::Source.get_snr"]}
{"id": "C69", "title": "Masses, distances, weights and angles never change", "statement": "Unless a program assigns to these attributes itself, no sequence of calls changes the masses, distances, weights, positions, inclinations, polarisations or the number of sources of an existing collection.", "quantifier": "all sequences of calls, including failing ones, on any number of objects", "why_tests_cant": "Unbounded sequences of calls.", "anchors": ["src/legwork/source.py::Source"]}
{"id": "C70", "title": "evolve_sources uses the merger times of the present orbits", "statement": "evolve_sources merges exactly the sources whose present orbit merges within the time, for collections without stored merger times and right after get_merger_time. (In fact merger times are stored by the first call that needs them and assigning to a does not renew them, so a source can be marked as merged although its present orbit would last ten thousand times longer.)", "quantifier": "all collections, times and separations", "why_tests_cant": "Unbounded collections and histories.", "anchors": ["src/legwork/source.py::Source.evolve_sources", "src/legwork/source.py::Source.a", "src/legwork/source.py::Source.get_merger_time"]}
{"id": "C71", "title": "Importing LEGWORK sets up logging once and never twice", "statement": "However often the package is imported or reloaded, the LEGWORK logger ends with exactly one handler, writing to standard output; each message of at least the logger's level (INFO by default) is written exactly once and not passed to the root logger, and loggers the user has configured are left alone.", "quantifier": "all numbers of imports, all messages, levels, streams and root handlers", "why_tests_cant": "Unbounded numbers of reloads, all configurations.", "anchors": ["src/legwork/_logging.py::logger"]}
{"id": "C72", "title": "Plotting leaves the user's matplotlib settings and other axes alone", "statement": "Every plotting function draws in LEGWORK's style only inside the call: whether it succeeds or fails, matplotlib's settings are afterwards what they were; it uses the figure and axes given or exactly one new figure, adds only to those axes and returns them.", "quantifier": "all arguments, settings and earlier plots, including failing calls", "why_tests_cant": "All settings and histories.", "anchors": ["src/legwork/visualisation.py::legwork_plot_style", "src/legwork/visualisation.py::plot_1D_dist", "src/legwork/visualisation.py::plot_2D_dist", "src/legwork/visualisation.py::plot_sensitivity_curve", "src/legwork/visualisation.py::plot_sources_on_sc"]}
{"id": "C73", "title": "plot_source_variables shows exactly the selected sources", "statement": "plot_source_variables plots the values of the named variables for exactly the sources selected by which_sources, without the merged ones unless asked for, in order and with their weights, under a label with the right name; unknown names and a missing SNR raise ValueError and nothing is drawn. (The y axis is labelled as a density also when a cumulative distribution is drawn.)", "quantifier": "all collections, masks, variables and options", "why_tests_cant": "Unbounded collections.", "anchors": ["src/legwork/source.py::Source.plot_source_variables"]}
{"id": "C74", "title": "The plotted sensitivity curve is the noise of the instrument", "statement": "plot_sensitivity_curve draws exactly one curve, at every requested frequency the root of the PSD or of f times the PSD, and fails exactly if the quantity is unknown, there are no frequencies or the PSD cannot be evaluated.", "quantifier": "all frequency ranges, instruments and options", "why_tests_cant": "The inputs are real numbers: a test samples finitely many of them, and can neither rule out a bad point nor establish an identity.", "anchors": ["src/legwork/visualisation.py::plot_sensitivity_curve"]}
{"id": "C75", "title": "Distributions are drawn as asked", "statement": "plot_1D_dist and plot_2D_dist draw exactly one histogram, density, cumulative distribution or scatter plot of the data given with the weights given, logarithms where asked for, the options given winning over the defaults, and set exactly the labels and limits asked for. (In fact passing s to a scatter plot, as the documentation of kwargs suggests, is a TypeError, and a misspelt disttype silently draws nothing.)", "quantifier": "all data, weights and options", "why_tests_cant": "All data.", "anchors": ["src/legwork/visualisation.py::plot_1D_dist", "src/legwork/visualisation.py::plot_2D_dist"]}
{"id": "C76", "title": "The strains carry exactly the energy the orbit loses", "statement": "The squared strains h_0_n of all harmonics, as power through a sphere at the source's distance, add up to the Peters & Mathews luminosity, and this is exactly the rate at which the orbital energy falls along the evolution given by evol.de_dt/get_a_from_ecc (eccentric) or da/dt=-beta/a**3 (circular, where the n=2 harmonic carries all of it).", "quantifier": "all masses, separations, distances, all 0<=e<1, all times along every solution, infinite sum over n", "why_tests_cant": "Ties an infinite series over harmonics in one module to a differential equation in another, at every point.", "anchors": ["src/legwork/strain.py::h_0_n", "src/legwork/utils.py::peters_g", "src/legwork/utils.py::peters_f", "src/legwork/utils.py::chirp_mass", "src/legwork/utils.py::beta", "src/legwork/evol.py::de_dt", "src/legwork/utils.py::get_a_from_ecc"]}
{"id": "C77", "title": "Merger times, evolved frequencies and stationarity do not depend on units", "statement": "For every combination of arguments given or left out, get_t_merge_circ and get_t_merge_ecc return the same physical time (in Gyr) whatever units the arguments have, evolve_f_orb_circ returns the same frequency (in the unit of merge_f) and determine_stationarity the same answer; missing arguments give the same errors.", "quantifier": "all unit choices, values and combinations of arguments", "why_tests_cant": "All unit systems and all values.", "anchors": ["src/legwork/evol.py::get_t_merge_circ", "src/legwork/evol.py::get_t_merge_ecc", "src/legwork/evol.py::evolve_f_orb_circ", "src/legwork/evol.py::determine_stationarity"]}
{"id": "C78", "title": "Strains do not depend on units", "statement": "h_0_n and h_c_n return the same number whatever units the chirp mass, distance and frequency are expressed in. (In fact the units are stripped by decompose().value without any check, so that a distance given as a time is silently taken for as many metres as it has seconds, and plain numbers are taken for SI values.)", "quantifier": "all unit choices and values", "why_tests_cant": "All unit systems and dimensions.", "anchors": ["src/legwork/strain.py::h_0_n", "src/legwork/strain.py::h_c_n"]}
{"id": "C79", "title": "Noise curves do not depend on units", "statement": "lisa_psd, tianqin_psd and decigo_psd return the same density whatever units the frequency, observation time, arm length and band limits are expressed in, for every built-in confusion noise. (For a user supplied confusion noise only tianqin_psd converts the result: lisa_psd and decigo_psd take the number out of whatever is returned, so the same noise expressed in another unit changes the density.)", "quantifier": "all unit choices, values and noise functions", "why_tests_cant": "All unit systems and user functions.", "anchors": ["src/legwork/psd.py::lisa_psd", "src/legwork/psd.py::tianqin_psd", "src/legwork/psd.py::decigo_psd", "src/legwork/psd.py::get_confusion_noise"]}
{"id": "C80", "title": "Collections stay consistent across files, crashes and processes", "statement": "Whatever sequence of calls, saves (also saves cut short after any write), loads, new processes and moved, copied or removed files has come before, every Source object has one entry per source in every attribute and result, its curve is that of its sc_params, every file has datasets that fit together, and sources without custom functions that are saved and loaded any number of times are still the same sources.", "quantifier": "all sequences of calls, saves, crash points, loads and processes of any length; all file systems", "why_tests_cant": "A test saves and loads once in a fresh folder; it cannot cover all histories, crash points and generations of files.", "anchors": ["src/legwork/source.py::Source.save", "src/legwork/source.py::Source.from_file"]}
{"id": "C81", "title": "A save that is cut short is never mistaken for a complete one", "statement": "If a save is interrupted, loading what it left behind fails, or gives the complete sources with their results and settings. (In fact only the sources are complete: once the group sc_params exists, loading succeeds without any warning although sensitivity curve parameters are missing or have lost their unit, and uses the defaults for missing ones.)", "quantifier": "all objects, file systems and crash points", "why_tests_cant": "A test cannot interrupt the process between any two writes.", "anchors": ["src/legwork/source.py::Source.save", "src/legwork/source.py::Source.from_file"]}
{"id": "C82", "title": "Evolutions do not depend on units", "statement": "evol_circ and evol_ecc return, for every combination of arguments given or left out, the same times, eccentricities, separations and frequencies whatever units the arguments are expressed in, each output in its documented unit (yr, AU, Hz), and raise the same errors; a duration that is not a time is a unit error. (For evol_circ with frequencies requested this holds for inputs whose separation, if given, keeps its unit: the code compares the separation with its threshold for merged binaries in the unit of a_i.)", "quantifier": "all unit choices, values, numbers of steps, requested outputs and combinations of arguments", "why_tests_cant": "All unit systems, any number of timesteps.", "anchors": ["src/legwork/evol.py::evol_circ", "src/legwork/evol.py::evol_ecc", "src/legwork/evol.py::create_timesteps_array", "src/legwork/evol.py::check_mass_freq_input"]}
{"id": "C83", "title": "Signal-to-noise ratios do not depend on units", "statement": "The four functions of snr.py give the same SNR (and the same flagged outputs), or fail in the same cases, whatever units masses, frequencies, distances, merger and observation times and the arm length are expressed in, for the built-in instruments and for interpolated curves. (The dimension of the distance is never checked: anything is taken for as many metres as it has SI units.)", "quantifier": "all unit choices and values, instruments, noise models, numbers of harmonics and steps, all integrators", "why_tests_cant": "All unit systems, any number of harmonics and timesteps.", "anchors": ["src/legwork/snr.py::snr_circ_stationary", "src/legwork/snr.py::snr_ecc_stationary", "src/legwork/snr.py::snr_circ_evolving", "src/legwork/snr.py::snr_ecc_evolving", "src/legwork/source.py::Source.set_sc"]}
{"id": "C84", "title": "The verification binaries are those of the table", "statement": "VerificationBinaries() is accepted for every table with columns of equal length and holds exactly the values of the table, in order and with their labels and published SNRs, as circular sources with half the gravitational wave frequency as orbital frequency and 2 as strongest harmonic; it cannot be indexed or copied (NotImplementedError) and takes part in programs like any other collection (C68, C69, C80).", "quantifier": "all tables of any length, random numbers and heaps", "why_tests_cant": "A test checks the shipped table only.", "anchors": ["src/legwork/source.py::VerificationBinaries"]}
{"id": "C85", "title": "Evolving signal-to-noise ratios converge to the time integral of the stationary ones", "statement": "As the number of steps grows, the SNR that snr_circ_evolving and snr_ecc_evolving report for a source tends to the square root of 1/t_obs times the integral over the observed time (up to one second, respectively 0.1 yr, before merger) of the squared SNR that the stationary functions report for the same source frozen at each moment of its inspiral, for every built-in noise curve and number of harmonics; provided no reported orbital frequency is exactly the 100 Hz that marks merged binaries and, for eccentric sources, the integrator returns the exact eccentricities.", "quantifier": "all sources, collections, noise curves with countably many jumps, observation times, harmonics, processes; the limit over the number of steps", "why_tests_cant": "A limit cannot be tested; a finite number of steps says nothing about the value approached.", "anchors": ["src/legwork/snr.py::snr_circ_evolving", "src/legwork/snr.py::snr_ecc_evolving", "src/legwork/snr.py::snr_circ_stationary", "src/legwork/snr.py::snr_ecc_stationary"]}
{"id": "C86", "title": "Merger times have the documented accuracy", "statement": "With the default tolerances get_t_merge_ecc (and Source.get_merger_time) is, for all masses, separations and eccentricities 0<=e<1, within 2.2% of the merger time of Peters (1964): exact for e=0 and for 0.15<=e<=0.9999 with exact=True, never too long below 0.15, never too short above 0.9999, and with the fit (exact=False) within 0.5% as documented. (In fact the fit is within 0.5% only up to e=0.97 and within 3% up to 0.9999: at e=480/481 it is 2.8% too short.)", "quantifier": "all masses, separations, arrays and all real eccentricities 0<=e<1", "why_tests_cant": "A test samples eccentricities; the error of a fit of degree 10 with a term e**1000 has to be bounded between the samples.", "anchors": ["src/legwork/evol.py::get_t_merge_ecc", "src/legwork/evol.py::t_merge_mandel_fit", "src/legwork/source.py::Source.get_merger_time"]}
{"id": "C87", "title": "avoid_merger stops the integration before the merger", "statement": "With avoid_merger=True and merger times calculated by the code, evol_ecc integrates every source only to times strictly before its merger according to Peters, if t_before is at least the error of the calculated merger time (0 below e=0.15, and up to 0.9999 with exact_t_merge; 0.5% of the merger time up to 0.97 and 3% beyond with the fit; 2.1% above 0.9999). (With the default settings it does not: a source with e=0.6 and a merger time of 1.2 Gyr or more is integrated up to the merger itself, where no solution exists.)", "quantifier": "all sources, grids starting at 0, numbers of steps, processes and integrators", "why_tests_cant": "All sources and all grids; tests use a few sources with short merger times.", "anchors": ["src/legwork/evol.py::evol_ecc", "src/legwork/evol.py::get_t_merge_ecc", "src/legwork/evol.py::t_merge_mandel_fit"]}
{"id": "C88", "title": "The formulas are right up to rounding", "statement": "Computed in floating point, chirp_mass, get_a_from_f_orb, get_f_orb_from_a, beta, c_0, get_a_from_ecc, peters_f, fn_dot and get_t_merge_circ never overflow or underflow for inputs between 1e-40 and 1e40 in any unit (fn_dot: frequencies between 1e-12 and 1e12 Hz, harmonics up to 10000; get_t_merge_circ: masses between 1e-10 and 1e10 solar masses, frequencies between 1e-12 and 1e4 Hz; eccentricities up to 1-2**-35), and have a relative error of at most a few hundred times 2^-52, plus, where the eccentricity enters, 22*2^-52/(1-e**2); converting a frequency to a separation and back changes it by at most 140*2^-52. (The growth towards e=1 is real: peters_f(1-2**-35) is off by more than 200000*2^-52 even if every operation is rounded correctly.)", "quantifier": "all inputs in these ranges, all units, all implementations of IEEE 754 double arithmetic with pow accurate to 4 ulp", "why_tests_cant": "Tests compare with tolerances at a few points, with the arithmetic of one machine.", "anchors": ["src/legwork/utils.py::chirp_mass", "src/legwork/utils.py::get_a_from_f_orb", "src/legwork/utils.py::get_f_orb_from_a", "src/legwork/utils.py::beta", "src/legwork/utils.py::c_0", "src/legwork/utils.py::get_a_from_ecc", "src/legwork/utils.py::peters_f", "src/legwork/utils.py::fn_dot", "src/legwork/evol.py::get_t_merge_circ"]}
{"id": "C89", "title": "Signal-to-noise ratios are right up to rounding", "statement": "Computed in floating point, the strain of a circular source has a relative error of at most 251*2^-52, the noise of TianQin 103*2^-52, of DECIGO 44*2^-52 and of LISA (103+16*2*pi*f*L/c)*2^-52 (for the approximate response function), plus the error of the confusion noise, and the SNR that snr_circ_stationary reports for a source in LISA is, including all unit conversions, within (330+17*2*pi*f_orb*L/c)*2^-52 of the exact one, plus 0.6 times the error of the confusion noise relative to the total; nothing overflows or underflows.", "quantifier": "all chirp masses and distances between 1e-10 and 1e10 (solar masses, kpc), all frequencies in the band, arm lengths between 1e6 and 1e11 m, observation times between 1e-10 and 1e10 yr, confusion noise models; all implementations of IEEE 754 double arithmetic with pow and cos accurate to 4 ulp", "why_tests_cant": "Tests compare with tolerances at a few points, with the arithmetic of one machine.", "anchors": ["src/legwork/snr.py::snr_circ_stationary", "src/legwork/strain.py::h_0_n", "src/legwork/psd.py::lisa_psd", "src/legwork/psd.py::tianqin_psd", "src/legwork/psd.py::decigo_psd", "src/legwork/psd.py::approximate_response_function", "src/legwork/utils.py::peters_g"]}
{"id": "C90", "title": "Source collections do not depend on the units of their attributes", "statement": "A Source built from masses, distances, frequencies or separations in any units has the same derived chirp masses and separations, strains, characteristic strains, stationarity, merger times, SNRs (through get_snr) and evolved states as one built from the same quantities in other units, after any sequence of evolve_sources, get_merger_time and assignments to a with times and lengths in any units. (In fact the constructor only checks that there are units at all: wrong masses surface as UnitConversionError in later calls and a distance that is not a length is never noticed; and set_sc drops the unit of what a custom_psd returns, so with interpolation the noise is off by the size of that unit.)", "quantifier": "all unit choices, values, collections, settings and sequences of calls of any length", "why_tests_cant": "All unit systems, all call sequences.", "anchors": ["src/legwork/source.py::Source.__init__", "src/legwork/source.py::Source.set_sc", "src/legwork/source.py::Source.get_snr", "src/legwork/source.py::Source.evolve_sources", "src/legwork/source.py::Source.get_merger_time"]}
{"id": "C91", "title": "Interpolating the sensitivity curve changes signal-to-noise ratios by little", "statement": "Between 1e-7 Hz and 2 Hz the curve that set_sc interpolates is within 2.3% of power_spectral_density for LISA (default parameters, analytic response, at least three months of observation), and the SNRs of snr_circ_stationary, snr_ecc_stationary and snr_circ_evolving with the interpolated curve are within 1.2% of those without it for all sources whose harmonics are in that band; without confusion noise within 0.7% for LISA and within 0.5% for TianQin. (Above 2 Hz it fails: every source has the noise 1e30 there, so that with the default interpolate_sc=True a source in the band of DECIGO above 2 Hz has its SNR divided by more than 1e37.)", "quantifier": "all frequencies, sources, collections, numbers of harmonics and steps, observation times, orientations", "why_tests_cant": "Tests compare at a few frequencies; a bound between all grid points needs the slope of the curve everywhere.", "anchors": ["src/legwork/source.py::Source.set_sc", "src/legwork/psd.py::power_spectral_density", "src/legwork/snr.py::snr_circ_stationary", "src/legwork/snr.py::snr_ecc_stationary", "src/legwork/snr.py::snr_circ_evolving"]}
{"id": "C92", "title": "Treating a source as stationary changes its signal-to-noise ratio by little", "statement": "For every circular source that determine_stationarity accepts with a tolerance of at most 1% (the default), the SNR of snr_circ_evolving, with any number of steps from 2, is within 8.7% of the SNR of snr_circ_stationary (LISA with default parameters and the analytic response, at least three months of observation, signal between 1e-7 Hz and 2 Hz, chirp mass above 0.69 solar masses); in general within the factor (1+tol)**((k+11/3)/2) for a noise curve that changes by at most the k-th power of the frequency ratio. So it does not matter much on which side of the threshold get_snr puts a source.", "quantifier": "all sources, tolerances up to 1/4, observation times, numbers of steps, noise curves", "why_tests_cant": "The tests compare two signal-to-noise ratios of a few random sources; the bound is over all sources and all numbers of steps.", "anchors": ["src/legwork/evol.py::determine_stationarity", "src/legwork/snr.py::snr_circ_stationary", "src/legwork/snr.py::snr_circ_evolving", "src/legwork/source.py::Source.get_snr"]}
{"id": "C93", "title": "evol_ecc changes nothing but the array of timesteps it is given", "statement": "A call of evol_ecc with a two-dimensional timesteps array returns what it would return for a private copy of the array, changes no other array, and its own only with avoid_merger=True, where the times at or beyond t_merge - t_before are replaced by the last allowed one; repeating a call gives the same result and array; in a program that uses no array again after a call with avoid_merger, each call returns what it would return alone. (Sharing one does matter: after a source that merges early, the same array stops a later one at the same time.)", "quantifier": "all sources, grids, arguments, integrators and programs of any number of calls", "why_tests_cant": "Tests never look at their arguments after a call, nor reuse them; programs of any length.", "anchors": ["src/legwork/evol.py::evol_ecc", "src/legwork/evol.py::create_timesteps_array"]}
{"id": "C94", "title": "The number of timesteps controls the error of evolving signal-to-noise ratios", "statement": "For a circular source with time to merger T observed for tau < T with n steps, the SNR of snr_circ_evolving is within the factor (1+tau/((n-1)(T-tau)))**(3/16*(k+7/3)) of the exact one (the square root of 1/t_obs times the integral over the observation of the squared SNR of the source frozen at each moment), for noise that changes by at most the k-th power of the frequency ratio: for LISA with the default settings and at least 100 steps within 3% if the observation takes at most half the time to merger. The error of the squared SNR is at most M/12 times the frequency range times the square of the largest frequency step if the curvature of the squared SNR per unit frequency is at most M; it is exact if that is linear. (For sources that merge during the observation it is not accurate: with the default 100 steps LISA's SNR of black holes of some hundred to thousand solar masses that merge about a year or more after the beginning of the observation is more than twice the exact one.)", "quantifier": "all sources, numbers of steps, observation times, noise curves", "why_tests_cant": "The tests compare SNRs with stored or loosely bounded values; the error over all sources and numbers of steps needs a bound on every trapezium.", "anchors": ["src/legwork/snr.py::snr_circ_evolving", "src/legwork/evol.py::evol_circ", "src/legwork/evol.py::create_timesteps_array"]}
{"id": "C95", "title": "The luminosity tolerance limits what leaving out harmonics costs", "statement": "The stationary SNR of an eccentric source grows with the number of harmonics H used and converges; the square of the limit exceeds that of the SNR with H harmonics by at most 4*h**2*t_obs/S times the power left out over (H+1)**2, for noise of at least S and the strain h of a circular source. If the harmonics used carry at least 1-tol of the power, and n**2 times the noise at harmonic n is at least B for those left out and at most R*B for those used, then the SNR is within the factor sqrt((1-tol)/(1-tol+R*tol)) of the limit; for LISA with the default settings, 5% tolerance and orbital frequencies of at least 6 mHz within 4%. Harmonics out of the band change nothing. If the second harmonic alone carries 1-tol, the circular SNR c obeys F(1-tol)c**2 <= limit**2 <= F(1+(R-1)tol)c**2 with F = peters_f(ecc). (In general the error of the SNR is not limited by gw_lum_tol: with the default 5% sources of eccentricity 0.06 are treated as circular, and below 1e-5 Hz their SNR in LISA is then more than 7% too low.)", "quantifier": "all sources, eccentricities below 1, numbers of harmonics, tolerances, noise curves", "why_tests_cant": "The tests check the luminosity, not the SNR, and no test sums all harmonics.", "anchors": ["src/legwork/snr.py::snr_ecc_stationary", "src/legwork/snr.py::snr_circ_stationary", "src/legwork/source.py::Source.create_harmonics_functions", "src/legwork/source.py::Source.find_eccentric_transition"]}
{"id": "C96", "title": "The signal-to-noise ratios that Source.get_snr returns are accurate for circular binaries", "statement": "For a circular binary without position that has not merged, the SNR returned by get_snr is close to the exact one: the square root of 1/t_obs times the integral over the observation of the squared SNR of the binary frozen at each moment of its inspiral, with the noise computed and not interpolated. With all approximations together (stationary sources, timesteps, interpolated sensitivity curve), the default tolerance for stationary sources of 1% and at least 100 steps it is within 9% for LISA (analytic response, default confusion noise or none, at least three months of observation, signal between 1e-7 Hz and 1.54 Hz, observation of at most half the time to merger), and within 4.2% if the source is treated as evolving; for TianQin without confusion noise within 4% and 2%. In general, for noise that changes by at most the k-th power of the frequency ratio, within the factor 1.0017**(k/2)*(1+stat_tol)**((k+4/3)/2) for stationary and 1.0017**(k/2)*(1+t_obs/((n-1)*(T-t_obs)))**(3/16*(k+7/3)) for other sources. This holds however the program got to the call, for any selection of sources and whether or not interpolation is switched on. Objects of class Evolving give all binaries with the second accuracy, those of class Stationary the stationary ones with the first.", "quantifier": "all programs before the call, collections, selections, binaries, settings, observation times and numbers of steps", "why_tests_cant": "Each approximation is tested alone on a few sources, against another approximation; the exact value is an integral no test computes.", "anchors": ["src/legwork/source.py::Source.get_snr", "src/legwork/source.py::Source.set_sc", "src/legwork/snr.py::snr_circ_stationary", "src/legwork/snr.py::snr_circ_evolving", "src/legwork/evol.py::determine_stationarity"]}
{"id": "C97", "title": "Sky positions only change the SNRs of circular stationary sources", "statement": "Leaving out all sky positions, inclinations and polarisations of a collection, get_snr succeeds whenever it did with them, finds the same strongest harmonics, and returns the same SNR for every source that is eccentric, evolving, merged, not selected or without position; for each circular stationary source with a position the SNR was sqrt(amplitude_modulation) times the one without. Over all orientations, sky position, polarisation and inclination isotropic, the mean square of the SNR of a stationary source is 3/20 of the square of the SNR without orientation, and the factor is between sqrt(15/32768) and sqrt(14505/32768). (So positions are silently ignored for evolving sources, and with a position the two formulas do not agree where they meet: in LISA the SNR of every circular source classed as stationary is less than 0.724 of the one as an evolving source, whatever the orientation, while without position the two differ by less than 8.7%. An object of class Evolving ignores all positions, one of class Stationary uses those of all circular sources.)", "quantifier": "all programs before the call, collections, selections, settings and orientations", "why_tests_cant": "No test computes the SNR of an evolving source with a position, and an average over all orientations is an integral.", "anchors": ["src/legwork/source.py::Source.get_snr", "src/legwork/source.py::Source.get_snr_stationary", "src/legwork/source.py::Source.get_snr_evolving", "src/legwork/strain.py::amplitude_modulation", "src/legwork/snr.py::snr_circ_stationary", "src/legwork/snr.py::snr_circ_evolving"]}
{"id": "C98", "title": "Signal-to-noise ratios fall with distance and do not depend on the order of the masses or on weights", "statement": "Assign other distances and weights to the sources of a collection and exchange the masses of any of them: get_snr then succeeds whenever it did before, returns for every source an SNR such that SNR times distance is unchanged, whether the source is circular or eccentric, stationary or evolving, with or without position, merged or not selected, and stores the same strongest harmonics. The same holds for objects of class Stationary and Evolving. So a source with SNR b at distance d is seen with at least SNR rho exactly up to the distance d*b/rho.", "quantifier": "all programs before the call, collections, positive distances, selections, settings, interpolated or exact curves", "why_tests_cant": "The tests compute SNRs at one distance each; the claim is about every regime and all numbers of steps and harmonics.", "anchors": ["src/legwork/source.py::Source.get_snr", "src/legwork/snr.py::snr_circ_stationary", "src/legwork/snr.py::snr_ecc_stationary", "src/legwork/snr.py::snr_circ_evolving", "src/legwork/snr.py::snr_ecc_evolving"]}
{"id": "C99", "title": "Writing into the arrays of a Source changes what its attributes are bound to and nothing else", "statement": "A program may bind one array to several attributes and write into arrays in place (sources.m_1[0] = ...). A call of the library does the same whether arrays are shared or not, and what a program sees of its objects after any sequence of calls, assignments and writes could have come about by assigning new arrays alone. Objects made by indexing, copying, loading or as verification binaries have arrays of their own: writing into them changes no other object. If the program itself binds no array twice and never calls evolve_sources(create_new_class=True), writing into an array is the same as assigning to the one attribute it belongs to. (With create_new_class it is not: the new object and the original share the arrays of masses, distances, inclinations and polarisations, and writing into one changes the other; all other arrays are separate.)", "quantifier": "all programs of any length: calls, constructors with existing arrays, assignments and writes, in any order", "why_tests_cant": "Whether two attributes share an array depends on the whole history of the program; the tests never write into one.", "anchors": ["src/legwork/source.py::Source.__init__", "src/legwork/source.py::Source.__getitem__", "src/legwork/source.py::Source.copy", "src/legwork/source.py::Source.evolve_sources", "src/legwork/source.py::Source.get_merger_time"]}
{"id": "C100", "title": "Saving merger times does not change signal-to-noise ratios except for slightly eccentric sources that merge", "statement": "Call get_merger_time(save_in_class=True), exact or with the fit, before get_snr: get_snr succeeds whenever it did without, and returns the same SNRs and strongest harmonics, if every source that is treated as circular and evolving has eccentricity 0 or outlives the observation by at least a second. Merger times assigned by the user, whatever they are, change nothing for sources that are stationary, eccentric, merged or not selected. Objects of class Stationary never use them; for those of class Evolving the condition is on all sources that are treated as circular. (For the others they do: a source with an eccentricity between 0 and 0.15 that counts as circular and merges during the observation is evolved as circular, which takes longer; after saving its merger time, which takes the eccentricity into account, its SNR is smaller on every finite regular noise curve and for every sufficiently large number of steps.)", "quantifier": "all programs before the call, collections, selections, settings, noise curves and stored merger times", "why_tests_cant": "No test compares SNRs with and without stored merger times; the claim is about every regime and any number of steps.", "anchors": ["src/legwork/source.py::Source.get_snr", "src/legwork/source.py::Source.get_snr_evolving", "src/legwork/source.py::Source.get_merger_time", "src/legwork/snr.py::snr_circ_evolving", "src/legwork/snr.py::snr_ecc_evolving"]}
{"id": "C101", "title": "Observing for longer does not lower signal-to-noise ratios", "statement": "Call get_snr with an observation time and then with a longer one, otherwise with the same arguments. If the noise is no larger for the longer observation, as is the case for LISA although its confusion noise depends on the observation time, the second SNR of every source that counts as stationary is at least the first, circular or eccentric, with or without sky position; in an object of class Stationary that of every source. For circular sources that change their frequency, the SNR squared of an observation is the sum of those of its parts in the limit of many timesteps, the second part starting with the frequency that evol_circ gives for the end of the first, and the limit does not fall when observing for longer; the same holds for eccentric ones with an error-free integrator, the second part starting with the eccentricity and frequency at the end of the first. For LISA, with 100 timesteps or more and the interpolated curve, get_snr for a longer time returns at least 0.84 of the SNR for the shorter time for any circular binary at least twice the observation time from merger, and at least 0.92 if it counts as evolving. (The condition on the noise matters: the default noise of TianQin is larger for one year than for half a year, and a circular stationary source at 1e-4 Hz has for a year less than 1/700000 of its SNR for half a year. So does the limit of many timesteps: for every circular source, any number of timesteps, for example the default 100, and any two observation times such that the end of the shorter one is not among the timesteps of the longer one, for example one and two years, there is a smooth noise curve for which the SNR of snr_circ_evolving falls by any factor.)", "quantifier": "all programs before the calls, collections, selections, observation times and noise curves; any number of steps", "why_tests_cant": "The claim compares two calls that may go through different regimes and noise curves; no test varies the observation time of a collection.", "anchors": ["src/legwork/source.py::Source.get_snr", "src/legwork/snr.py::snr_circ_stationary", "src/legwork/snr.py::snr_ecc_stationary", "src/legwork/snr.py::snr_circ_evolving", "src/legwork/snr.py::snr_ecc_evolving", "src/legwork/evol.py::determine_stationarity", "src/legwork/psd.py::power_spectral_density"]}
{"id": "C102", "title": "A loop over a collection visits every source once", "statement": "A Source can be looped over although it defines no iterator: for x in sources gets, in len(sources) rounds, a new object with exactly the first source, then the second, and so on, and for x in reversed(sources) the same in the opposite order. This holds whatever the body of the loop does with the items and with other objects, as long as it makes no call on sources itself; the loop ends, and sources is afterwards as before, so evolving the items does not evolve the collection. Calling get_snr on each item gives the SNRs and strongest harmonics of one call on the collection. A body that raises ends the loop with its exception. (VerificationBinaries cannot be looped over.)", "quantifier": "all collections, all bodies made of calls of the library, any number of rounds", "why_tests_cant": "Relies on __getitem__ raising IndexError exactly at len(sources), on the copies being independent, and on every program the body may be.", "anchors": ["src/legwork/source.py::Source.__getitem__", "src/legwork/source.py::Source.__len__", "src/legwork/source.py::Source.get_snr"]}
{"id": "C103", "title": "Redshifted quantities give redshifted results", "statement": "LEGWORK knows no cosmology; users put in what the detector sees: masses 1+z times the true ones, frequencies 1+z times lower, and the luminosity distance, 1+z times the comoving one. With these inputs separations and merger times (circular or eccentric, exact or fitted) are 1+z times the true ones, chirps are (1+z)**2 and changes of eccentricity 1+z times slower, evol_circ gives 1+z times the separation after 1+z times the time, and h_0_n and h_c_n are those of the true masses and frequencies at the comoving distance. The same sources count as stationary for an observation 1+z times as long, and stationary and circular evolving SNRs are those of the true quantities for the shorter observation, with the noise 1+z times smaller at 1+z times higher frequencies, for any number of timesteps; so are eccentric evolving SNRs, their strongest harmonics and the contributions of the harmonics, if the integrator makes no error. (Below 1 Hz and more than a second from merger, or for eccentric evolving sources below 100 Hz and more than 0.1 yr from merger, and, for stationarity, far below 1e9 Hz: these constants of the code do not scale.)", "quantifier": "all redshifts (any positive 1+z), all positive masses, frequencies, distances and eccentricities, all collections, harmonics, timesteps and noise curves", "why_tests_cant": "Relates the results of two sets of inputs through every function of the library; no test varies all inputs together.", "anchors": ["src/legwork/utils.py::chirp_mass", "src/legwork/utils.py::fn_dot", "src/legwork/utils.py::get_a_from_f_orb", "src/legwork/evol.py::get_t_merge_circ", "src/legwork/evol.py::get_t_merge_ecc", "src/legwork/evol.py::evol_circ", "src/legwork/evol.py::determine_stationarity", "src/legwork/evol.py::de_dt", "src/legwork/strain.py::h_0_n", "src/legwork/strain.py::h_c_n", "src/legwork/snr.py::snr_circ_stationary", "src/legwork/snr.py::snr_ecc_stationary", "src/legwork/snr.py::snr_circ_evolving", "src/legwork/snr.py::snr_ecc_evolving"]}
{"id": "C104", "title": "What a collection prints about itself is right", "statement": "get_snr(verbose=True) returns the same SNRs, raises the same exceptions and leaves the same objects behind as get_snr, and without verbose nothing is printed. What it prints, line by line, is the number of sources selected, the number that have merged, and of the selected ones that have not, the number that are stationary over the observation time of the call, the number of those that are circular and that are eccentric, and the same for the others; lines about no source are left out. get_snr_stationary, get_snr_evolving and the classes Stationary and Evolving print the numbers of circular and eccentric sources. The numbers add up if no sources are selected. repr tells the class and the number of sources. (With a selection they need not add up: the merged sources are those of the whole collection, not of the selection. And if the selection is a python list, which works otherwise, get_snr(verbose=True) raises a TypeError.)", "quantifier": "all collections, classes, selections, settings and observation times, calls that succeed or raise", "why_tests_cant": "The tests call it with verbose=True but never look at the output; the numbers must agree with the branches taken for every source.", "anchors": ["src/legwork/source.py::Source.get_snr", "src/legwork/source.py::Source.get_snr_stationary", "src/legwork/source.py::Source.get_snr_evolving", "src/legwork/source.py::Source.__repr__"]}
{"id": "C105", "title": "Log messages appear exactly when there is reason for them", "statement": "evol_ecc with avoid_merger=False logs nothing. With avoid_merger=True it warns of times past the merger exactly if one of the times asked for, of any source, is later than the merger of that source, and that evolution is not possible exactly if all times of all sources after the first are within t_before of the merger or later; for increasing times from 0 on this means that none of the times returned moves. With default times and exact_t_merge=True nothing is said to be past the merger. A constructor that succeeds logs that it draws inclinations or polarisations exactly if a position is given without them, and warns about interpolate_g exactly if it is set, as by default, and there are at most 1000 sources. Messages do not change any result. (snr_ecc_evolving with three or more steps warns only if all its sources are within 0.1 yr of their mergers; one such source among others is given SNR 0 without a message.)", "quantifier": "all sources, times, arguments, integrators and collections", "why_tests_cant": "The warnings in the code are excluded from coverage (pragma: no cover) and no test looks at the log.", "anchors": ["src/legwork/evol.py::evol_ecc", "src/legwork/snr.py::snr_ecc_evolving", "src/legwork/source.py::Source.__init__"]}
{"id": "C106", "title": "The classes Stationary and Evolving are shortcuts for Source", "statement": "The constructors of Source, Stationary and Evolving make the same object, except for its class. Call get_snr with the same observation time, instrument and custom noise curve on an object of class Source and on the same object of class Stationary or Evolving: if both calls succeed, every source for which the class is right (Stationary if it is stationary over the observation by determine_stationarity, Evolving if not) has the same SNR and the same strongest harmonic, and every source that has merged has SNR 0. If the class is right for all sources that have not merged, and there is one, the call on the subclass succeeds whenever that on Source does. (They do not take the same arguments, though: a call that gives L, approximate_R, confusion_noise or which_sources is a TypeError for both subclasses, and one that gives n_step for Stationary. The object is unchanged then.)", "quantifier": "all programs before the call, collections, settings, observation times including auto, and arguments by keyword", "why_tests_cant": "Source.get_snr selects, resolves auto in two steps and assembles; the subclasses do it at once. The tests compare one collection with default settings.", "anchors": ["src/legwork/source.py::Source.get_snr", "src/legwork/source.py::Stationary.get_snr", "src/legwork/source.py::Evolving.get_snr", "src/legwork/source.py::Source.get_snr_stationary", "src/legwork/source.py::Source.get_snr_evolving"]}
{"id": "C107", "title": "Eccentric binaries have a stronger strain, but not a stronger characteristic strain", "statement": "Of two binaries with the same chirp mass, distance, orbital frequency and orientation the more eccentric one has the stronger strain: from some number of harmonics on, the squares of its h_0_n add up to more than those of any number of harmonics of the other, in particular to more than all that a circular binary emits. With more and more harmonics the sum tends to (4/sqrt(1-ecc**2)-1)/3 times the square of h_0_n(n=2) of the circular binary, and never exceeds it. (The documentation says that an eccentric binary always has a stronger strain. For the characteristic strain it is the other way round: the squares of h_c_n of any number of harmonics of an eccentric binary add up to less than the square of h_c_n(n=2) of the circular one.)", "quantifier": "all chirp masses, distances, frequencies, orientations, eccentricities 0<=e<1, any number of harmonics", "why_tests_cant": "A statement about the sum of an infinite series for all eccentricities; the tests look at single harmonics.", "anchors": ["src/legwork/strain.py::h_0_n", "src/legwork/strain.py::h_c_n", "src/legwork/utils.py::peters_g", "src/legwork/utils.py::peters_f"]}
{"id": "C108", "title": "The more eccentric of two binaries merges first", "statement": "Of two binaries with the same masses and separation, or the same masses and orbital frequency, the more eccentric one is given the shorter merger time by get_t_merge_ecc and Source.get_merger_time with the default tolerances, by quadrature or by the fit (exact=False), unless one has 0<ecc<0.15 and the other 0.15<=ecc<0.18, or one 0.15<=ecc<=0.9999 and the other 0.9999<ecc<0.99991; in any case a merger time less than 1.022 times that of the other (1.06 with the fit). (The exception at 0.15 is real: at the boundary between two formulas the merger time jumps up, and all binaries with 0.14<=ecc<0.15 are reported to merge before the one with 0.15.)", "quantifier": "all masses, separations, frequencies and pairs of eccentricities 0<=e<e'<1, arrays of any length", "why_tests_cant": "Monotony over all pairs, across four formulas one of which is an integral; tests compare with stored values at single eccentricities.", "anchors": ["src/legwork/evol.py::get_t_merge_ecc", "src/legwork/source.py::Source.get_merger_time"]}
{"id": "C109", "title": "Evolving eccentric sources in steps is the same as evolving them at once", "statement": "If the differential equation solver makes no error, calling evolve_sources several times on a collection of circular and eccentric sources, with one time for all or one per source, leaves exactly the object that one call with the total times leaves: orbits, merger times and which sources have merged. Before its merger time an eccentric source then has the eccentricity that Peters' equation gives and the frequency that belongs to it, and its merger time is shorter by the time of the evolution. (This leaves out a source with a separation of exactly 1e-30 au between two calls, the value the code uses to mark mergers, and sources whose merger time is later than the merger by Peters' equation. There are none of the latter with an eccentricity of at most 0.9999; but every source above 0.9999 is still reported as not merged for some time after its merger.)", "quantifier": "all collections, numbers of steps, times >= 0, programs before the calls", "why_tests_cant": "Any number of calls and any division of the time; the tests evolve once and in one step, and compare with a tolerance.", "anchors": ["src/legwork/source.py::Source.evolve_sources", "src/legwork/evol.py::evol_ecc", "src/legwork/evol.py::get_t_merge_ecc"]}
{"id": "C110", "title": "A stricter luminosity tolerance uses no fewer harmonics and lowers no SNR of an eccentric source", "statement": "If gw_lum_tol is lowered, harmonics_required asks for at least as many harmonics at every eccentricity, as the documentation says, and the eccentricity above which sources count as eccentric does not rise. A get_snr with the same arguments then returns exactly the same SNR for every source that counts as circular before and after, and at least the same SNR for every source that counted as eccentric before, in any positive noise if the source is stationary, and if it is evolving whenever the integrator returns eccentricities that do not increase. More harmonics never lower the SNR of a stationary or evolving eccentric source. (Sources that turn from circular to eccentric are excluded with reason: if the detector hears only the second harmonic, then at every eccentricity up to 0.2, and all transitions are below, the SNR falls, whatever the number of harmonics.)", "quantifier": "all programs before the calls, collections, selections, tolerances, tables of luminosities and eccentricities; any number of harmonics and steps", "why_tests_cant": "A relation between two runs with different tolerances over all eccentricities; the tests use one or two tolerances and look at single numbers.", "anchors": ["src/legwork/source.py::Source.create_harmonics_functions", "src/legwork/source.py::Source.find_eccentric_transition", "src/legwork/source.py::Source.gw_lum_tol", "src/legwork/source.py::Source.get_snr", "src/legwork/snr.py::snr_ecc_stationary", "src/legwork/snr.py::snr_ecc_evolving"]}
{"id": "C111", "title": "A quieter detector lowers no signal-to-noise ratio", "statement": "If two calls of get_snr (of one object or of two, whatever happened before) use the same observation time, number of steps and tolerances, but the noise of the second is no larger at any frequency, then the SNR of every unmerged source is no smaller in the second: circular or eccentric, with or without position, stationary or evolving, interpolated sensitivity curve or not. In particular, leaving out the confusion noise lowers no SNR of LISA (analytic response), TianQin or DECIGO, with the default or any positive arm length. (Evolving sources: they do not pass exactly 100 Hz, the marker of the code for merged ones, circular ones merge at least one second after the start, and the integrator returns eccentricities that do not increase.)", "quantifier": "all programs before the calls, collections, selections, noise curves, observation times and numbers of steps", "why_tests_cant": "A relation between two runs with different detectors, over all sources and noise curves; the tests use one noise per value and compare with stored numbers.", "anchors": ["src/legwork/source.py::Source.get_snr", "src/legwork/snr.py::snr_circ_stationary", "src/legwork/snr.py::snr_ecc_stationary", "src/legwork/snr.py::snr_circ_evolving", "src/legwork/snr.py::snr_ecc_evolving", "src/legwork/psd.py::power_spectral_density", "src/legwork/psd.py::get_confusion_noise"]}
{"id": "C112", "title": "The signal-to-noise ratios of stationary eccentric binaries are accurate", "statement": "The SNR that get_snr returns for a stationary eccentric binary differs from that of all its harmonics with the exact noise and the exact powers by known factors only: one for the interpolated sensitivity curve (noise that changes by at most the k-th power of the frequency ratio: 1.0017**(k/2)), one for the interpolated powers (the square root of their relative error), and one for the harmonics left out (from the fraction of the power they carry and the noise there). With LISA, the default settings, at least three months of observation, an orbital frequency of at least 6 mHz, harmonics up to at most 2 Hz, interpolated powers within 1% and 95% of the power in the harmonics used, it is at most 6% too small and at most 2% too large. At the eccentricities of an exact table the harmonics used carry all but gw_lum_tol of the power, unless the table ends before that.", "quantifier": "all programs before the call, collections, selections, stationary eccentric binaries, noise curves, observation times and tolerances", "why_tests_cant": "The exact value is a limit of infinitely many harmonics; a bound for all binaries, noise curves and histories of an object cannot be sampled.", "anchors": ["src/legwork/source.py::Source.get_snr", "src/legwork/source.py::Source.get_snr_stationary", "src/legwork/snr.py::snr_ecc_stationary", "src/legwork/source.py::Source.create_harmonics_functions", "src/legwork/source.py::Source.set_sc", "src/legwork/source.py::Source.set_g"]}
{"id": "C113", "title": "Heavier and tighter binaries merge sooner and are louder", "statement": "get_t_merge_ecc is the merger time of the circular binary times a factor that depends on the eccentricity alone, for all tolerances, by quadrature or by the fit. At a given eccentricity merger times are inversely proportional to m_c**(5/3) * f_orb**(8/3); of two binaries the one with the larger masses and the larger orbital frequency (or the smaller separation) merges first, also for Source.get_merger_time. The SNRs that one call of get_snr returns for two stationary sources with the same orbital frequency, eccentricity and orientation are proportional to m_c**(5/3) / dist, so the heavier and nearer one is at least as loud.", "quantifier": "all binaries, tolerances, ways to give masses and orbits; all collections, selections and settings of get_snr", "why_tests_cant": "The four formulas for merger times have no common expression in the code; equal factors for all masses and orbits, and inequalities between all pairs of binaries, cannot be sampled.", "anchors": ["src/legwork/evol.py::get_t_merge_ecc", "src/legwork/evol.py::get_t_merge_circ", "src/legwork/evol.py::t_merge_mandel_fit", "src/legwork/utils.py::c_0", "src/legwork/source.py::Source.get_merger_time", "src/legwork/source.py::Source.get_snr", "src/legwork/snr.py::snr_circ_stationary", "src/legwork/snr.py::snr_ecc_stationary"]}
{"id": "C114", "title": "Treating slightly eccentric binaries as circular costs little", "statement": "For a stationary binary without position whose eccentricity is at most ecc_tol, get_snr returns the SNR of a circular binary. Compared with the SNR of all its harmonics, with the exact noise and the exact powers, it is wrong by known factors only: one for the interpolated sensitivity curve (noise that changes by at most the k-th power of the frequency ratio: 1.0017**(k/2)), one for the interpolated power of the circular binary, and one for the harmonics, whose square is between g(2,e) and g(2,e)+4*S2*(g(1,e)/B1+(F(e)-g(1,e)-g(2,e))/B), with the noise S2 at the second harmonic, at least B1 at the first, and n**2 times the noise at least B for n>=3. With LISA, the default settings, at least three months of observation, an eccentricity of at most 0.06, an orbital frequency from 6 mHz to 1 Hz and an interpolated power within 1%, the SNR is at most 4% too small and at most 3% too large. (C95 shows that below 1e-5 Hz it is more than 7% too small at eccentricity 0.06.)", "quantifier": "all programs before the call, collections, selections, stationary binaries with eccentricities up to ecc_tol, noise curves, observation times and tolerances", "why_tests_cant": "The tests never compare the circular with the eccentric SNR of the same binary; the reference value is an infinite sum.", "anchors": ["src/legwork/source.py::Source.get_snr", "src/legwork/source.py::Source.find_eccentric_transition", "src/legwork/source.py::Source.set_sc", "src/legwork/source.py::Source.set_g", "src/legwork/snr.py::snr_circ_stationary", "src/legwork/snr.py::snr_ecc_stationary"]}
{"id": "C115", "title": "ecc_tol is right for all eccentricities, not only for those of its grid", "statement": "For every non-negative gw_lum_tol for which ecc_tol exists there is an eccentricity b such that among all eccentricities 0<=e<1 exactly those up to b keep the n=2 harmonic within gw_lum_tol of the total luminosity; ecc_tol is above b, by at most 0.2/9999. Every source that is treated as circular (ecc <= ecc_tol) therefore loses at most the fraction gw_lum_tol + 0.0002 of its luminosity, and every source treated as eccentric is outside the tolerance, however the program got there. ecc_tol exists exactly if the tolerance is broken at eccentricity 0.2, which is the case for all tolerances up to 0.3711 and for none from 0.3712 on. (So it is not exactly gw_lum_tol: sources with b < ecc <= ecc_tol, including ecc == ecc_tol, are treated as circular although they break the tolerance. And with gw_lum_tol >= 0.3712 the constructor fails with an IndexError, and so does the assignment to gw_lum_tol, which keeps the new tolerance with the old ecc_tol.)", "quantifier": "all non-negative tolerances, all eccentricities 0<=e<1, all operation sequences", "why_tests_cant": "the transition is searched for on 10000 grid points up to 0.2; tests can compare further points, but that nothing happens between and beyond the points is a statement about a continuum", "anchors": ["src/legwork/source.py::Source.find_eccentric_transition", "src/legwork/source.py::Source.get_source_mask", "src/legwork/utils.py::peters_g", "src/legwork/utils.py::peters_f"]}
{"id": "C116", "title": "gw_lum_tol bounds the error of the SNR of sources treated as circular", "statement": "For a stationary binary without position that is treated as circular, get_snr differs from the SNR of all its harmonics (exact noise and exact powers) by no more than gw_lum_tol allows: with tau = gw_lum_tol + 0.0002 it is too large by at most a factor 1/sqrt(1-tau), and too small by at most sqrt(1+nu*tau/(1-tau)) where n**2*S(n*f_orb) is nowhere below 4*S(2*f_orb)/nu (nu = 4 in white noise), apart from the factors for the interpolated sensitivity curve and the interpolated power of the circular binary.", "quantifier": "all tolerances that have a transition, all programs before the call, all binaries and noise curves, any number of harmonics", "why_tests_cant": "the SNR of all harmonics is a limit, and the error has to be bounded for all eccentricities, tolerances and noise curves at once", "anchors": ["src/legwork/source.py::Source.get_snr", "src/legwork/source.py::Source.find_eccentric_transition", "src/legwork/snr.py::snr_circ_stationary", "src/legwork/snr.py::snr_ecc_stationary"]}
{"id": "C117", "title": "ecc_tol has the values of the documentation", "statement": "After assigning 0.05 to the gw_lum_tol of any object, whatever happened before, its ecc_tol is 0.0667 to three digits, and after assigning 0.01 it is 0.0295, as in docs/notebooks/Source.ipynb. More exactly: with the default gw_lum_tol of 0.05 every new object has ecc_tol = 3333*0.2/9999 = 1/15, so that get_source_mask(circular=True) selects exactly the sources with ecc <= 1/15; for 0.01 it is 1476*0.2/9999 and for 0.001 it is 466*0.2/9999, and small changes of the tolerances (at most 5e-6, 3e-6 and 1e-6) do not change it.", "quantifier": "all tolerances in the given intervals, all objects and all operation sequences before", "why_tests_cant": "the values come from numerically computed Bessel functions at the points of a grid; running the code compares floats with floats, while the claim is about the exact functions and about intervals of tolerances", "anchors": ["src/legwork/source.py::Source.find_eccentric_transition", "src/legwork/source.py::Source.__init__", "src/legwork/source.py::Source.gw_lum_tol", "src/legwork/source.py::Source.get_source_mask", "docs/notebooks/Source.ipynb"]}
{"id": "C118", "title": "Which harmonic has the strongest strain", "statement": "For every binary and every orientation of the detector: strain.h_0_n of the harmonic n=2 exceeds that of n=3 for eccentricities up to 0.4245, is below it from 0.4246 to 0.8018 and exceeds it again from 0.8019 on; up to 0.4245 the harmonic n=2 has the strongest strain of all harmonics. From 0.4246 to 0.5718 it is the harmonic n=3 that is stronger than all others, and from 0.5719 to 0.75 the harmonic n=4 is stronger than n=3. The characteristic strain h_c_n of n=3 overtakes that of n=2 between 0.3536 and 0.3537, the power peters_g between 0.2918 and 0.2919. The strain of n=2 falls with eccentricity up to 0.35, but is more than twice as strong at 0.9 as at 0.75. (So docs/notebooks/Strains.ipynb is wrong to say that n=3 becomes stronger than n=2 around e=0.33, and that the strength of n=2 declines over the range of eccentricities it plots, 0.01 to 0.9.)", "quantifier": "all eccentricities 0<=e<1, all chirp masses, distances, frequencies and orientations, all harmonics", "why_tests_cant": "the claims are about a continuum of eccentricities and about all harmonics; the plot of the notebook was misread", "anchors": ["src/legwork/strain.py::h_0_n", "src/legwork/strain.py::h_c_n", "src/legwork/utils.py::peters_g", "docs/notebooks/Strains.ipynb"]}
{"id": "C119", "title": "How much louder eccentric binaries are in white and in red noise", "statement": "In white noise (the same at all harmonics) the SNR of all harmonics of a stationary binary, the limit of snr_ecc_stationary for more and more harmonics, is sqrt((4/sqrt(1-ecc**2)-1)/3) times the SNR that snr_circ_stationary gives for the circular binary with the same chirp mass, orbital frequency and distance, and no number of harmonics gives more. So the more eccentric of two otherwise identical binaries is the louder one as soon as enough harmonics are used. If the noise falls with the square of the frequency the ratio is sqrt(peters_f(ecc)) instead. If the noise at the harmonics is between alpha and beta times that at the second one, the square of the ratio lies between the closed form divided by beta and by alpha. What get_snr returns for a stationary eccentric binary in white noise is too large by at most sqrt(gamma) and too small by at most sqrt(gamma/(1-tol)), where gamma bounds the error of the interpolated powers and the harmonics used carry all but a fraction tol of the power.", "quantifier": "all eccentricities 0<=e<1, binaries, observation times and numbers of harmonics; all programs before the call of get_snr, collections and selections", "why_tests_cant": "an infinite sum of Bessel functions compared with a closed form over a continuum of eccentricities; tests compare a few values with stored ones", "anchors": ["src/legwork/snr.py::snr_ecc_stationary", "src/legwork/snr.py::snr_circ_stationary", "src/legwork/source.py::Source.get_snr", "src/legwork/utils.py::peters_g"]}
