{
 "claims": [
  {
   "property": "C01",
   "status": "proved",
   "theorems": [
    "Radvel.C01_model",
    "Radvel.C01_likelihood",
    "Radvel.C01_reachable",
    "Radvel.C01_layout",
    "Radvel.render_injective",
    "Radvel.startsWithInst_iff"
   ],
   "note": "All user-built parameter sets in five-parameter bases, all reachable states (Built)."
  },
  {
   "property": "C02",
   "status": "proved",
   "theorems": [
    "Radvel.C02_roundtrip",
    "Radvel.C02_read_own_row"
   ],
   "note": "Values are elements of an arbitrary type; the one conversion None -> NaN done by numpy is not modelled."
  },
  {
   "property": "C03",
   "status": "partial",
   "theorems": [
    "Radvel.C03_names_partial",
    "Radvel.C03_same_order_partial",
    "Radvel.C03_names_violated",
    "Radvel.C03_name_vary_violated"
   ],
   "note": "Proved for all reachable states without user-defined keys; false with a user-defined key declared before the model (witnesses)."
  },
  {
   "property": "C04",
   "status": "proved",
   "theorems": [
    "Radvel.C04_set_get"
   ],
   "note": "Cache vary_params absent or current; stale caches are C06."
  },
  {
   "property": "C05",
   "status": "partial",
   "theorems": [
    "Radvel.C05_wrong_length_partial",
    "Radvel.C05_no_trace_violated"
   ],
   "note": "The exception is proved for every wrong length; 'no trace' is false: vector rows are already overwritten (witness)."
  },
  {
   "property": "C06",
   "status": "partial",
   "theorems": [
    "Radvel.C06_current_flags_partial",
    "Radvel.C06_refresh",
    "Radvel.C06_stale_violated"
   ],
   "note": "Proved for histories in which flag edits are followed by list_vary_params; false otherwise (witness)."
  },
  {
   "property": "C07",
   "status": "proved",
   "theorems": [
    "Radvel.C07_mapping",
    "Radvel.C07_identical"
   ],
   "note": ""
  },
  {
   "property": "C08",
   "status": "partial",
   "theorems": [
    "Radvel.C08_predeclared_partial",
    "Radvel.C08_predeclared_violated",
    "Radvel.C08_two_instruments_violated"
   ],
   "note": "Proved when all keys without index belong to the likelihood being built; two witnesses of IndexError otherwise."
  },
  {
   "property": "C09",
   "status": "partial",
   "theorems": [
    "Radvel.C09_label_partial",
    "Radvel.C09_custom_letters_partial",
    "Radvel.C09_distinct_partial",
    "Radvel.C09_tenth_violated",
    "Radvel.C09_tenth_letters_violated"
   ],
   "note": "Proved up to nine planets; false from the tenth (witness). Labels of instrument, trend and GP keys: C150."
  },
  {
   "property": "C10",
   "status": "partial",
   "theorems": [
    "Radvel.C10_lossless",
    "Radvel.C10_circular_partial",
    "Radvel.C10_tp_violated"
   ],
   "note": "Exact identity for 0 <= e < 1, k > 0, per > 0 where nothing is degenerate; at e = 0 in the secosw/ecosw bases the time of periastron and w are lost (witness), the curve is kept (C10_circular_partial)."
  },
  {
   "property": "C11",
   "status": "proved",
   "theorems": [
    "Radvel.C11_fitting_roundtrip"
   ],
   "note": "Every fitting basis, any number of planets."
  },
  {
   "property": "C12",
   "status": "proved",
   "theorems": [
    "Radvel.C12_to_synth",
    "Radvel.C12_from_synth"
   ],
   "note": "Values of the vector conversions against the dictionary conversions; vary flags are C84."
  },
  {
   "property": "C13",
   "status": "partial",
   "theorems": [
    "Radvel.C13_same_curve_partial",
    "Radvel.C13_blank_violated",
    "Radvel.C13_logper_violated",
    "Radvel.C13_copy_violated"
   ],
   "note": "Proved for the pairs of bases that convert cleanly (CleanPair); witnesses for the others."
  },
  {
   "property": "C14",
   "status": "partial",
   "theorems": [
    "Radvel.C14_objects_partial",
    "Radvel.C14_input_partial",
    "Radvel.C14_twice_violated",
    "Radvel.C14_second_call_violated"
   ],
   "note": "Proved on a store of objects: no existing Parameter object changes, nothing at all changes if the call raises, other parameter sets are unaffected, and exactly when the Basis object of the input is renamed. Violated: for five target bases it is renamed, and the same call made again raises KeyError."
  },
  {
   "property": "C15",
   "status": "proved",
   "theorems": [
    "Radvel.C15_tp_tc_tp",
    "Radvel.C15_tc_tp_tc",
    "Radvel.C15_translation"
   ],
   "note": "Exact reals."
  },
  {
   "property": "C16",
   "status": "proved",
   "theorems": [
    "Radvel.C16_inferior_conjunction",
    "Radvel.C16_velocity"
   ],
   "note": "Exact reals; arguments where the code's tangent has its pole are excluded (never a double: rational_no_pole)."
  },
  {
   "property": "C17",
   "status": "partial",
   "theorems": [
    "Radvel.C17_superior_conjunction_partial",
    "Radvel.C17_window_violated"
   ],
   "note": "The returned time is always a superior conjunction between half and one and a half periods after periastron; 'within one period' is false (witness) and characterised exactly."
  },
  {
   "property": "C18",
   "status": "partial",
   "theorems": [
    "Radvel.C18_numpy_partial",
    "Radvel.C18_c_partial",
    "Radvel.C18_nan_violated",
    "Radvel.C18_c_nan_violated"
   ],
   "note": "Proved for every number returned, any number of iterations. A nan from a zero denominator is accepted as converged (witnesses for e > 1)."
  },
  {
   "property": "C19",
   "status": "proved",
   "theorems": [
    "Radvel.C19_unique",
    "Radvel.C19_error",
    "Radvel.C19_solvers_agree"
   ],
   "note": ""
  },
  {
   "property": "C20",
   "status": "proved",
   "theorems": [
    "Radvel.C20_elementwise"
   ],
   "note": ""
  },
  {
   "property": "C21",
   "status": "proved",
   "theorems": [
    "Radvel.C21_same_formula",
    "Radvel.C21_physical",
    "Radvel.rational_no_pole"
   ],
   "note": "Exact reals; odd multiples of pi (never a double) excluded in C21_physical."
  },
  {
   "property": "C22",
   "status": "proved",
   "theorems": [
    "Radvel.C22_circular_exact",
    "Radvel.C22_general_at_zero",
    "Radvel.C22_negative_e"
   ],
   "note": ""
  },
  {
   "property": "C23",
   "status": "proved",
   "theorems": [
    "Radvel.C23_periodic",
    "Radvel.C23_bounded",
    "Radvel.C23_linear",
    "Radvel.C23_extremes"
   ],
   "note": ""
  },
  {
   "property": "C24",
   "status": "proved",
   "theorems": [
    "Radvel.C24_error_bound",
    "Radvel.C24_rv_drive_numpy",
    "Radvel.C24_rv_drive_c",
    "Radvel.rational_no_pole"
   ],
   "note": "Truncation error only; rounding is not modelled. rv_drive versions hold for e <= 0.99 (the code clamps larger e)."
  },
  {
   "property": "C25",
   "status": "proved",
   "theorems": [
    "Radvel.C25_sum",
    "Radvel.C25_nan",
    "Radvel.C25_planet",
    "Radvel.C25_numbering",
    "Radvel.C25_zero_amplitude",
    "Radvel.C25_reachable"
   ],
   "note": "Any velocity function for a planet; zero amplitude for both code formulas."
  },
  {
   "property": "C26",
   "status": "proved",
   "theorems": [
    "Radvel.C26_product",
    "Radvel.C26_residuals",
    "Radvel.C26_jitter_sign",
    "Radvel.C26_zero_variance"
   ],
   "note": "Exact reals; a zero variance is characterised as nan."
  },
  {
   "property": "C27",
   "status": "partial",
   "theorems": [
    "Radvel.C27_marginal_partial",
    "Radvel.C27_marginal_general",
    "Radvel.C27_stored",
    "Radvel.C27_decorrelation_violated"
   ],
   "note": "Proved without decorrelation; in general the exact correction factor is given, and a reachable witness where it is not 1."
  },
  {
   "property": "C28",
   "status": "proved",
   "theorems": [
    "Radvel.C28_sum",
    "Radvel.C28_order",
    "Radvel.C28_arrays",
    "Radvel.C28_errorbars"
   ],
   "note": "Members are white-noise likelihoods on one shared state, any number of them."
  },
  {
   "property": "C29",
   "status": "partial",
   "theorems": [
    "Radvel.C29_velocities_partial",
    "Radvel.C29_velocities_violated"
   ],
   "note": "Times, errors and labels are right; velocities are right exactly when all later gammas are 0 at construction."
  },
  {
   "property": "C30",
   "status": "partial",
   "theorems": [
    "Radvel.C30_hnames_partial",
    "Radvel.C30_hnames_violated"
   ],
   "note": "True when the first member has no GP; otherwise its hyperparameters are missing."
  },
  {
   "property": "C31",
   "status": "partial",
   "theorems": [
    "Radvel.C31_own_coefficient_partial",
    "Radvel.C31_substring_violated",
    "Radvel.C31_underscore_violated"
   ],
   "note": "Proved for names without _ that occur only in their own parameter's name; witnesses for the others."
  },
  {
   "property": "C32",
   "status": "partial",
   "theorems": [
    "Radvel.C32_bic",
    "Radvel.C32_aic",
    "Radvel.C32_posterior_aic_violated"
   ],
   "note": "bic and Likelihood.aic as stated; Posterior.aic always raises."
  },
  {
   "property": "C33",
   "status": "partial",
   "theorems": [
    "Radvel.C33_white",
    "Radvel.C33_gp_partial",
    "Radvel.C33_celerite_violated"
   ],
   "note": "White-noise likelihoods in full; GP likelihoods when the covariance matrix is positive definite; CeleriteLikelihood gets its data sorted after the kernel was given the unsorted times (witness)."
  },
  {
   "property": "C34",
   "status": "partial",
   "theorems": [
    "Radvel.C34_history_partial",
    "Radvel.C34_gamma_prior_violated",
    "Radvel.C34_gp_partial",
    "Radvel.C34_gp_stale_violated"
   ],
   "note": "Proved for every history of evaluations when no prior names an analytic gamma, and for GP likelihoods with amplitude and lengths that do not disable the kernel; reachable witnesses otherwise."
  },
  {
   "property": "C35",
   "status": "partial",
   "theorems": [
    "Radvel.C35_entries_partial",
    "Radvel.C35_cross",
    "Radvel.C35_length_zero_violated",
    "Radvel.C35_disabled_violated"
   ],
   "note": "Exact entries, symmetry, diagonal and bound for regular hyperparameters; zero lengths give nan, and a disabled QuasiPer kernel returns a square matrix whatever the distances."
  },
  {
   "property": "C36",
   "status": "proved",
   "theorems": [
    "Radvel.C36_posDef",
    "Radvel.C36_quasi_clipped_partial"
   ],
   "note": "Positive definiteness of the kernel functions is proved (Schur product, Gaussian and periodic kernels); the clipped QuasiPer kernel is covered for errors above n amp^2 e^-100."
  },
  {
   "property": "C37",
   "status": "partial",
   "theorems": [
    "Radvel.C37_stored_partial",
    "Radvel.C37_disabled_violated"
   ],
   "note": "A disabled QuasiPer kernel does not store its matrix."
  },
  {
   "property": "C38",
   "status": "partial",
   "theorems": [
    "Radvel.C38_white_partial",
    "Radvel.C38_quasi_violated"
   ],
   "note": "SqExp and Per as stated; a QuasiPer kernel with amplitude zero keeps an old matrix (or none)."
  },
  {
   "property": "C39",
   "status": "proved",
   "theorems": [
    "Radvel.C39_at_data",
    "Radvel.C39_residuals",
    "Radvel.C39_variance"
   ],
   "note": "For positive definite covariance matrices."
  },
  {
   "property": "C40",
   "status": "partial",
   "theorems": [
    "Radvel.C40_term",
    "Radvel.C40_zero",
    "Radvel.C40_bound",
    "Radvel.C40_negative_C_violated"
   ],
   "note": "celerite's own evaluation of the coefficients is its documented term formula."
  },
  {
   "property": "C41",
   "status": "proved",
   "theorems": [
    "Radvel.C41_gaussian",
    "Radvel.C41_hardBounds",
    "Radvel.C41_hardBounds_open",
    "Radvel.C41_jeffreys",
    "Radvel.C41_modJeffreys",
    "Radvel.C41_call"
   ],
   "note": "Exact reals; legal bounds (0 < minval < maxval, kneeval < minval); infinite HardBounds are characterised, not densities."
  },
  {
   "property": "C42",
   "status": "proved",
   "theorems": [
    "Radvel.C42_hardBounds",
    "Radvel.C42_jeffreys",
    "Radvel.C42_modJeffreys",
    "Radvel.C42_hardBounds_infinite"
   ],
   "note": "The Gaussian transform is SciPy's norm.ppf, which is a parameter of the model."
  },
  {
   "property": "C43",
   "status": "proved",
   "theorems": [
    "Radvel.C43_ecc",
    "Radvel.C43_init"
   ],
   "note": "Every basis, every list of planets and limits; the value for satisfied constraints assumes positive limits."
  },
  {
   "property": "C44",
   "status": "partial",
   "theorems": [
    "Radvel.C44_positive_partial",
    "Radvel.C44_logk",
    "Radvel.C44_logk_violated"
   ],
   "note": "Proved for the bases with k; in bases with logk the prior rejects every amplitude below 1 (exact characterisation and witness)."
  },
  {
   "property": "C45",
   "status": "proved",
   "theorems": [
    "Radvel.C45_baseline",
    "Radvel.C45_logper"
   ],
   "note": ""
  },
  {
   "property": "C46",
   "status": "partial",
   "theorems": [
    "Radvel.C46_shift",
    "Radvel.C46_close_partial",
    "Radvel.C46_wrap_violated"
   ],
   "note": "Invariant under whole periods; the phase difference is not wrapped, so eclipses on the two sides of periastron phase 0 are treated differently (witness)."
  },
  {
   "property": "C47",
   "status": "proved",
   "theorems": [
    "Radvel.C47_sum",
    "Radvel.C47_order",
    "Radvel.C47_rejection",
    "Radvel.C47_array"
   ],
   "note": ""
  },
  {
   "property": "C48",
   "status": "partial",
   "theorems": [
    "Radvel.C48_check_partial",
    "Radvel.C48_transform_partial",
    "Radvel.C48_transformable",
    "Radvel.C48_no_transform_violated",
    "Radvel.C48_unrecognised_violated"
   ],
   "note": "Exact characterisation of the check; it accepts two kinds of prior without transform and rejects two kinds with one (witnesses)."
  },
  {
   "property": "C49",
   "status": "partial",
   "theorems": [
    "Radvel.C49_same_target_partial",
    "Radvel.C49_rejected_partial",
    "Radvel.C49_eclipse_violated",
    "Radvel.C49_ignored_violated"
   ],
   "note": "Proved for the classes of priors for which it holds; witnesses for the other three classes."
  },
  {
   "property": "C50",
   "status": "proved",
   "theorems": [
    "Radvel.C50_partition",
    "Radvel.C50_within",
    "Radvel.C50_conserved",
    "Radvel.C50_ties",
    "Radvel.C50_nonpositive",
    "Radvel.C50_empty",
    "Radvel.C50_zero_error"
   ],
   "note": "For non-zero errors; the other cases are described by the last three theorems."
  },
  {
   "property": "C51",
   "status": "proved",
   "theorems": [
    "Radvel.C51_sections",
    "Radvel.C51_conserved"
   ],
   "note": ""
  },
  {
   "property": "C52",
   "status": "partial",
   "theorems": [
    "Radvel.C52_unique",
    "Radvel.C52_phase_partial",
    "Radvel.C52_logper_violated"
   ],
   "note": "False in the bases with the logarithm of the period."
  },
  {
   "property": "C53",
   "status": "proved",
   "theorems": [
    "Radvel.C53_errors",
    "Radvel.C53_values"
   ],
   "note": "The fullest histogram bin is an arbitrary function of the sample."
  },
  {
   "property": "C54",
   "status": "proved",
   "theorems": [
    "Radvel.C54_error",
    "Radvel.C54_zero",
    "Radvel.C54_sign",
    "Radvel.C54_relative",
    "Radvel.C54_idempotent"
   ],
   "note": "Over the reals: binary floating point is not modelled."
  },
  {
   "property": "C55",
   "status": "proved",
   "theorems": [
    "Radvel.C55_time_print"
   ],
   "note": ""
  },
  {
   "property": "C56",
   "status": "proved",
   "theorems": [
    "Radvel.C56_roundtrip",
    "Radvel.C56_increasing",
    "Radvel.C56_day",
    "Radvel.C56_calendar"
   ],
   "note": "Over the reals; the double precision of a Julian date (about 40 microseconds) is in C188."
  },
  {
   "property": "C57",
   "status": "proved",
   "theorems": [
    "Radvel.C57_inverse",
    "Radvel.C57_unique",
    "Radvel.C57_heavy",
    "Radvel.C57_units"
   ],
   "note": "The result of scipy's root finder is a hypothesis of C57_heavy; the astronomical constants are positive parameters."
  },
  {
   "property": "C58",
   "status": "proved",
   "theorems": [
    "Radvel.C58_law",
    "Radvel.C58_scaling",
    "Radvel.C58_monotone"
   ],
   "note": "The astronomical constants are positive parameters."
  },
  {
   "property": "C59",
   "status": "partial",
   "theorems": [
    "Radvel.C59_restored",
    "Radvel.C59_nested",
    "Radvel.C59_compile_partial",
    "Radvel.C59_compile_violated",
    "Radvel.C59_report"
   ],
   "note": "Compiling leaves the caller elsewhere when the LaTeX program is missing or a step raises."
  },
  {
   "property": "C60",
   "status": "partial",
   "theorems": [
    "Radvel.C60_rows_violated",
    "Radvel.C60_violated",
    "Radvel.C60_labels_violated",
    "Radvel.C60_params_violated"
   ],
   "note": "False: the rows never depend on the samples, and the dictionary is left with the last sample."
  },
  {
   "property": "C61",
   "status": "partial",
   "theorems": [
    "Radvel.C61_partial",
    "Radvel.C61_violated"
   ],
   "note": "False: the first of the two passed checks may have been made on burn-in samples."
  },
  {
   "property": "C62",
   "status": "partial",
   "theorems": [
    "Radvel.C62_steps_partial",
    "Radvel.C62_most_violated",
    "Radvel.C62_least_violated"
   ],
   "note": "Both bounds are false: nrun + nrun/(checkinterval-1) steps are made, or none."
  },
  {
   "property": "C63",
   "status": "partial",
   "theorems": [
    "Radvel.C63_rows",
    "Radvel.C63_trend_partial",
    "Radvel.C63_trend_violated"
   ],
   "note": "The table is proved; the trend plot fails when thin does not divide the number of stored steps."
  },
  {
   "property": "C64",
   "status": "proved",
   "theorems": [
    "Radvel.C64_affine",
    "Radvel.C64_order",
    "Radvel.C64_bound"
   ],
   "note": "Over the reals; rounding is not modelled."
  },
  {
   "property": "C65",
   "status": "partial",
   "theorems": [
    "Radvel.C65_good_mixing_violated",
    "Radvel.C65_monotone_partial"
   ],
   "note": "The Tz test is the wrong way round: perfectly mixed chains give Tz = -1."
  },
  {
   "property": "C66",
   "status": "proved",
   "theorems": [
    "Radvel.C66_first",
    "Radvel.C66_three"
   ],
   "note": ""
  },
  {
   "property": "C67",
   "status": "partial",
   "theorems": [
    "Radvel.C67_restore_partial",
    "Radvel.C67_rejects",
    "Radvel.C67_burn_violated",
    "Radvel.C67_leftover_violated"
   ],
   "note": "False when burn-in ends in the last saved round, and for files that already held more ensembles."
  },
  {
   "property": "C68",
   "status": "partial",
   "theorems": [
    "Radvel.C68_positive_partial",
    "Radvel.C68_given",
    "Radvel.C68_spread",
    "Radvel.C68_period_violated",
    "Radvel.C68_logper_violated",
    "Radvel.C68_negative_violated"
   ],
   "note": "False for a period of one day, a log-period of 0 and periods that are not positive."
  },
  {
   "property": "C69",
   "status": "partial",
   "theorems": [
    "Radvel.C69_last_partial",
    "Radvel.C69_not_lower_partial",
    "Radvel.C69_violated"
   ],
   "note": "False: maxlike_fitting discards the optimiser's solution, so the posterior is left at the last point evaluated."
  },
  {
   "property": "C70",
   "status": "partial",
   "theorems": [
    "Radvel.C70_e",
    "Radvel.C70_nplanets",
    "Radvel.C70_trend",
    "Radvel.C70_jit",
    "Radvel.C70_entry",
    "Radvel.C70_basis_violated"
   ],
   "note": "False for the basis 'per tc tp e w k', which is missing from the tables of eccentricity parameters."
  },
  {
   "property": "C71",
   "status": "partial",
   "theorems": [
    "Radvel.C71_explicit_partial",
    "Radvel.C71_violated"
   ],
   "note": "False when mc_list is left out: the default list is shared by all calls."
  },
  {
   "property": "C72",
   "status": "partial",
   "theorems": [
    "Radvel.C72_fixed_partial",
    "Radvel.C72_violated"
   ],
   "note": "False: the reduced model keeps every hyperparameter free and the same counts."
  },
  {
   "property": "C73",
   "status": "partial",
   "theorems": [
    "Radvel.C73_violated",
    "Radvel.C73_witness_violated",
    "Radvel.C73_dictionary"
   ],
   "note": "False: the option only changes flags of the dictionary, which the comparison does not read; the result is the same with and without it."
  },
  {
   "property": "C74",
   "status": "partial",
   "theorems": [
    "Radvel.C74_labels_partial",
    "Radvel.C74_sets_violated"
   ],
   "note": "Deduplication is by label list, and different sets of free parameters can share one."
  },
  {
   "property": "C75",
   "status": "partial",
   "theorems": [
    "Radvel.C75_sorted",
    "Radvel.C75_verdicts",
    "Radvel.C75_nan_violated"
   ],
   "note": "Proved when no AICc is nan: the rows are sorted by AICc and each verdict is the one its difference to the best model calls for. False if an AICc is nan."
  },
  {
   "property": "C76",
   "status": "partial",
   "theorems": [
    "Radvel.C76_partial",
    "Radvel.C76_violated"
   ],
   "note": "True if the dictionary that radvel adds keywords to is None or empty. False for every sampler if the caller passes a non-empty one: it is changed and the second call raises ValueError."
  },
  {
   "property": "C77",
   "status": "partial",
   "theorems": [
    "Radvel.C77_partial",
    "Radvel.C77_tmpdir_violated",
    "Radvel.C77_leftover_violated"
   ],
   "note": "True for all samplers but multinest, and for multinest if there is no tmpdir and sampling succeeds. False for multinest otherwise: an existing tmpdir is deleted; after an error tmpdir is left behind. Packages are assumed to write only to the location they are given."
  },
  {
   "property": "C78",
   "status": "proved",
   "theorems": [
    "Radvel.C78_existing",
    "Radvel.C78_reserved",
    "Radvel.C78_multinest",
    "Radvel.C78_unknown"
   ],
   "note": ""
  },
  {
   "property": "C79",
   "status": "partial",
   "theorems": [
    "Radvel.C79_plain_partial",
    "Radvel.C79_lines_partial",
    "Radvel.C79_space_violated",
    "Radvel.C79_colon_violated",
    "Radvel.C79_case_violated",
    "Radvel.C79_comment_violated"
   ],
   "note": "Proved at the level of the file's text for any sequence of saves whose names and values fit on one line, from any readable file or none. False for values with spaces at the ends and for option names with a colon, in two spellings or starting with '#'."
  },
  {
   "property": "C80",
   "status": "partial",
   "theorems": [
    "Radvel.C80_prefix_partial",
    "Radvel.C80_violated"
   ],
   "note": "False for every status file and every save: the file is emptied before it is written. Proved: it always holds the old content or a first part of the new one."
  },
  {
   "property": "C81",
   "status": "proved",
   "theorems": [
    "Radvel.C81_mcmc",
    "Radvel.C81_ic",
    "Radvel.C81_plots",
    "Radvel.C81_tables",
    "Radvel.C81_derive",
    "Radvel.C81_report"
   ],
   "note": "For every world that any sequence of commands reaches, whichever computations fail and even if output files are changed in between. Nested sampling has no prerequisite."
  },
  {
   "property": "C82",
   "status": "partial",
   "theorems": [
    "Radvel.C82_sound",
    "Radvel.C82_requested",
    "Radvel.C82_none",
    "Radvel.C82_both_violated"
   ],
   "note": "Proved: the sampler picked has been run, and it is the requested one or the request was auto. False: auto with both samplers run picks MCMC without asking."
  },
  {
   "property": "C83",
   "status": "proved",
   "theorems": [
    "Radvel.C83_pairs",
    "Radvel.C83_empty",
    "Radvel.C83_int",
    "Radvel.C83_int_repr",
    "Radvel.C83_float",
    "Radvel.C83_bool",
    "Radvel.C83_str"
   ],
   "note": "Integers, decimals, booleans and other texts; the empty text raises (C83_empty)."
  },
  {
   "property": "C84",
   "status": "partial",
   "theorems": [
    "Radvel.C84_to_synth",
    "Radvel.C84_from_synth_partial",
    "Radvel.C84_from_synth_violated"
   ],
   "note": "All bases except v_from_synth to 'per tc e w k', where the wrong row is flagged."
  },
  {
   "property": "C85",
   "status": "partial",
   "theorems": [
    "Radvel.C85_sorted_partial",
    "Radvel.C85_unsorted_violated"
   ],
   "note": "Holds for data given in time order."
  },
  {
   "property": "C86",
   "status": "partial",
   "theorems": [
    "Radvel.C86_update_partial",
    "Radvel.C86_name_violated",
    "Radvel.C86_suffix_violated"
   ],
   "note": "Exact condition for success, and then the right rows; two kinds of names violate it."
  },
  {
   "property": "C87",
   "status": "partial",
   "theorems": [
    "Radvel.C87_distances_partial",
    "Radvel.C87_singular_violated",
    "Radvel.C87_disabled_violated"
   ],
   "note": "Holds for calls that return."
  },
  {
   "property": "C88",
   "status": "proved",
   "theorems": [
    "Radvel.C88_logprob",
    "Radvel.C88_finite"
   ],
   "note": ""
  },
  {
   "property": "C89",
   "status": "proved",
   "theorems": [
    "Radvel.C89_writes_through"
   ],
   "note": "Identity of Parameter objects is not modelled."
  },
  {
   "property": "C90",
   "status": "partial",
   "theorems": [
    "Radvel.C90_untouched_partial",
    "Radvel.C90_angular_violated"
   ],
   "note": "False for angular samples."
  },
  {
   "property": "C91",
   "status": "partial",
   "theorems": [
    "Radvel.C91_decimals",
    "Radvel.C91_whole",
    "Radvel.C91_symmetric_violated"
   ],
   "note": "Equal errors can come out different."
  },
  {
   "property": "C92",
   "status": "partial",
   "theorems": [
    "Radvel.C92_vector",
    "Radvel.C92_agree_partial",
    "Radvel.C92_transit_violated"
   ],
   "note": "False in the bases with a time of transit."
  },
  {
   "property": "C93",
   "status": "partial",
   "theorems": [
    "Radvel.C93_last_partial",
    "Radvel.C93_runtime_violated"
   ],
   "note": "Holds exactly when no logjit key is followed by another key."
  },
  {
   "property": "C94",
   "status": "proved",
   "theorems": [
    "Radvel.C94_density"
   ],
   "note": "The astronomical constants are positive parameters."
  },
  {
   "property": "C95",
   "status": "partial",
   "theorems": [
    "Radvel.C95_block_partial",
    "Radvel.C95_restart_violated"
   ],
   "note": "False: the second sample of each block is a move from the start of the block."
  },
  {
   "property": "C96",
   "status": "partial",
   "theorems": [
    "Radvel.C96_stale_violated",
    "Radvel.C96_own_partial"
   ],
   "note": "False when no round is made; the table of the earlier run is returned."
  },
  {
   "property": "C97",
   "status": "proved",
   "theorems": [
    "Radvel.C97_completes"
   ],
   "note": ""
  },
  {
   "property": "C98",
   "status": "partial",
   "theorems": [
    "Radvel.C98_post_partial",
    "Radvel.C98_burn_violated"
   ],
   "note": "False when burn-in ends in the last round."
  },
  {
   "property": "C99",
   "status": "partial",
   "theorems": [
    "Radvel.C99_current_partial",
    "Radvel.C99_stale_violated"
   ],
   "note": "False: the first run stores its scales in the parameter vector."
  },
  {
   "property": "C100",
   "status": "partial",
   "theorems": [
    "Radvel.C100_partial",
    "Radvel.C100_violated"
   ],
   "note": "False for the empty comparison and for ['gp'], which fit the argument itself."
  },
  {
   "property": "C101",
   "status": "proved",
   "theorems": [
    "Radvel.C101_mixed"
   ],
   "note": ""
  },
  {
   "property": "C102",
   "status": "partial",
   "theorems": [
    "Radvel.C102_report",
    "Radvel.C102_tables_partial",
    "Radvel.C102_derive_partial",
    "Radvel.C102_refit_violated"
   ],
   "note": "Proved for reports and for the nested sampler. Tables and derivation after MCMC: true exactly if nothing was fitted since; false after fitting again, because fit and mcmc write the same file."
  },
  {
   "property": "C103",
   "status": "partial",
   "theorems": [
    "Radvel.C103_partial",
    "Radvel.C103_derived_partial",
    "Radvel.C103_resample_violated"
   ],
   "note": "The parameters joined are always those of the last derivation; right after deriving they belong to the samples. False after sampling again."
  },
  {
   "property": "C104",
   "status": "partial",
   "theorems": [
    "Radvel.C104_derived_partial",
    "Radvel.C104_order_violated"
   ],
   "note": "The table of derived parameters is empty exactly if the comparison table is requested before it."
  },
  {
   "property": "C105",
   "status": "partial",
   "theorems": [
    "Radvel.C105_mcmc",
    "Radvel.C105_ic",
    "Radvel.C105_plots",
    "Radvel.C105_derive",
    "Radvel.C105_tables_partial",
    "Radvel.C105_report_partial",
    "Radvel.C105_refit_violated"
   ],
   "note": "False only for the table of parameters, the table of derived parameters and reports after a fit that came later than the MCMC run (AttributeError)."
  },
  {
   "property": "C106",
   "status": "proved",
   "theorems": [
    "Radvel.C106_table",
    "Radvel.C106_load"
   ],
   "note": "For distinct keyword dictionaries in C106_table."
  },
  {
   "property": "C107",
   "status": "proved",
   "theorems": [
    "Radvel.C107"
   ],
   "note": "For distinct keyword dictionaries (the two arguments are not the same non-empty object)."
  },
  {
   "property": "C108",
   "status": "partial",
   "theorems": [
    "Radvel.C108_partial",
    "Radvel.C108_dynesty_violated"
   ],
   "note": "False for dynesty: a directory without sampler.save raises FileExistsError."
  },
  {
   "property": "C109",
   "status": "proved",
   "theorems": [
    "Radvel.C109_walkers"
   ],
   "note": ""
  },
  {
   "property": "C110",
   "status": "partial",
   "theorems": [
    "Radvel.C110_orbital_partial",
    "Radvel.C110_other_partial",
    "Radvel.C110_own_violated",
    "Radvel.C110_table_violated"
   ],
   "note": "False with instruments such as 'j' and 'j1': the row of gamma_j shows gamma_j1."
  },
  {
   "property": "C111",
   "status": "partial",
   "theorems": [
    "Radvel.C111_once_partial",
    "Radvel.C111_twice_violated",
    "Radvel.C111_dropped_violated",
    "Radvel.C111_space_violated"
   ],
   "note": "False for instruments whose names contain 'jit', 'dvdt' or 'curv' (two rows, and the row of dvdt or curv is lost) or white space (no row)."
  },
  {
   "property": "C112",
   "status": "partial",
   "theorems": [
    "Radvel.C112_listed_partial",
    "Radvel.C112_basis_violated",
    "Radvel.C112_secosw_violated",
    "Radvel.C112_tc_violated",
    "Radvel.C112_decorr_violated"
   ],
   "note": "False for every fit: the rows of the fitted basis are those of the basis of the report. Time of conjunction missing after fits in 'per tp e w k'; decorrelation coefficients never listed."
  },
  {
   "property": "C113",
   "status": "partial",
   "theorems": [
    "Radvel.C113_direct",
    "Radvel.C113_suffix_partial",
    "Radvel.C113_prefix_violated",
    "Radvel.C113_single_violated"
   ],
   "note": "False with instruments such as 'h' and 'hires', and for a single instrument whose name has more than one character."
  },
  {
   "property": "C114",
   "status": "partial",
   "theorems": [
    "Radvel.C114_rows_partial",
    "Radvel.C114_ten_violated",
    "Radvel.C114_musini_violated"
   ],
   "note": "Proved for at most nine planets, any iteration order of sets, and mass, density and semi-major axis; false for ten planets, and the derived mass ratio has no row."
  },
  {
   "property": "C115",
   "status": "partial",
   "theorems": [
    "Radvel.C115_units_partial",
    "Radvel.C115_sun_violated",
    "Radvel.C115_again_violated"
   ],
   "note": "The solar unit is never reached; a second table of the same report shows Jupiter masses as Earth masses."
  },
  {
   "property": "C116",
   "status": "partial",
   "theorems": [
    "Radvel.C116_rows",
    "Radvel.C116_note_partial",
    "Radvel.C116_note_violated",
    "Radvel.C116_braces_partial",
    "Radvel.C116_braces_violated"
   ],
   "note": "The note is wrong for short data sets; instrument names with two underscores give unbalanced braces."
  },
  {
   "property": "C117",
   "status": "partial",
   "theorems": [
    "Radvel.C117_data_partial",
    "Radvel.C117_unlisted_violated"
   ],
   "note": "Observations of instruments that are not listed are dropped without a message; all others are used once."
  },
  {
   "property": "C118",
   "status": "proved",
   "theorems": [
    "Radvel.C118_start"
   ],
   "note": "For setup files without logjit, whose conversion is C93."
  },
  {
   "property": "C119",
   "status": "proved",
   "theorems": [
    "Radvel.C119_ready",
    "Radvel.C119_exactly",
    "Radvel.C119_nodata"
   ],
   "note": ""
  },
  {
   "property": "C120",
   "status": "partial",
   "theorems": [
    "Radvel.C120_subset_violated",
    "Radvel.C119_ready"
   ],
   "note": "False: KeyError. If every listed instrument has hyperparameters, C119_ready applies."
  },
  {
   "property": "C121",
   "status": "partial",
   "theorems": [
    "Radvel.C121_white_partial",
    "Radvel.C121_gp_violated"
   ],
   "note": "With GPs the option has no effect at all."
  },
  {
   "property": "C122",
   "status": "partial",
   "theorems": [
    "Radvel.C122_columns",
    "Radvel.C122_rows_partial",
    "Radvel.C122_hyperbolic_violated"
   ],
   "note": "Proved for all quantities at eccentricities from 0 to 1, and for all but the time of periastron otherwise. False above 1: nan in a table, the time of conjunction for parameters."
  },
  {
   "property": "C123",
   "status": "proved",
   "theorems": [
    "Radvel.C123_light",
    "Radvel.C123_heavy"
   ],
   "note": "The stellar mass is the absolute value of the number drawn; scipy's root finder is assumed to return roots in C123_heavy."
  },
  {
   "property": "C124",
   "status": "partial",
   "theorems": [
    "Radvel.C124_order_partial",
    "Radvel.C124_neighbour_violated"
   ],
   "note": "Reordering rows reorders the results. False: one heavy sample changes the formula for all rows."
  },
  {
   "property": "C125",
   "status": "proved",
   "theorems": [
    "Radvel.C125_columns",
    "Radvel.C125_completes"
   ],
   "note": ""
  },
  {
   "property": "C126",
   "status": "partial",
   "theorems": [
    "Radvel.C126_source_partial",
    "Radvel.C126_beyond_violated"
   ],
   "note": "False for planets that only the setup file has."
  },
  {
   "property": "C127",
   "status": "partial",
   "theorems": [
    "Radvel.C127_density_partial",
    "Radvel.C127_negative_violated"
   ],
   "note": "Radii are drawn from a normal distribution and may be negative."
  },
  {
   "property": "C128",
   "status": "partial",
   "theorems": [
    "Radvel.C128_medians",
    "Radvel.C128_samples_partial",
    "Radvel.C128_hyperbolic_violated"
   ],
   "note": "Medians proved in full. The converted samples: all quantities for eccentricities from 0 to 1; otherwise all but the time of periastron (see C122), which C128_hyperbolic_violated shows to be false."
  },
  {
   "property": "C129",
   "status": "proved",
   "theorems": [
    "Radvel.C129_reported"
   ],
   "note": "For columns with at least one number; sigfig ends for enough fuel."
  },
  {
   "property": "C130",
   "status": "partial",
   "theorems": [
    "Radvel.C130_fixed_partial",
    "Radvel.C130_planet_partial",
    "Radvel.C130_analytic_violated"
   ],
   "note": "Proved for fixed parameters that are no converted ones, and for planets without free parameters. False for offsets marginalised analytically: uncertainty zero, median a leftover."
  },
  {
   "property": "C131",
   "status": "proved",
   "theorems": [
    "Radvel.C131_order"
   ],
   "note": ""
  },
  {
   "property": "C132",
   "status": "partial",
   "theorems": [
    "Radvel.C132_wrap_violated"
   ],
   "note": "False near 180 degrees: samples that differ as little as one likes give an uncertainty of about 2 radians and a median in the opposite direction."
  },
  {
   "property": "C133",
   "status": "partial",
   "theorems": [
    "Radvel.C133_complete_partial",
    "Radvel.C133_hyperbolic_violated"
   ],
   "note": "False if every sample of one planet has an eccentricity above 1: the step raises."
  },
  {
   "property": "C134",
   "status": "partial",
   "theorems": [
    "Radvel.C134_partition",
    "Radvel.C134_shown_partial",
    "Radvel.C134_complete",
    "Radvel.C134_left_violated"
   ],
   "note": "Proved for parts whose centre is positive, in particular for points that are not negative, as in the phase panels. False for negative abscissas: such bins are dropped."
  },
  {
   "property": "C135",
   "status": "partial",
   "theorems": [
    "Radvel.C135_once",
    "Radvel.C135_limit",
    "Radvel.C135_own",
    "Radvel.C135_colours_partial",
    "Radvel.C135_tenth_violated",
    "Radvel.C135_alias_violated",
    "Radvel.C135_default_violated"
   ],
   "note": "Points, formats of the caller and colours from the list proved. False for more than nine instruments without formats, for suffixes that share a default format, and for a colour of the list that is also a default one."
  },
  {
   "property": "C136",
   "status": "partial",
   "theorems": [
    "Radvel.C136_unchanged",
    "Radvel.C136_panels",
    "Radvel.C136_second_violated"
   ],
   "note": "Exact conditions proved for both parts. False if a format has no colour: it is added in place, and unknown instruments sorted after it change colour."
  },
  {
   "property": "C137",
   "status": "partial",
   "theorems": [
    "Radvel.C137_grid",
    "Radvel.C137_rows",
    "Radvel.C137_nophase",
    "Radvel.C137_gp_separate_partial",
    "Radvel.C137_labels_violated",
    "Radvel.C137_gp_nophase_violated",
    "Radvel.C137_gp_empty_violated",
    "Radvel.C137_again_violated"
   ],
   "note": "Proved for MultipanelPlot with letters, and for the GP figure with separate panels and planets. False without letters, for nophase of the GP figure, without planets, and for the list of axes of a second figure."
  },
  {
   "property": "C138",
   "status": "partial",
   "theorems": [
    "Radvel.C138_first_partial",
    "Radvel.C138_separate_partial",
    "Radvel.C138_again_violated",
    "Radvel.twoGP_twice",
    "Radvel.C138_later_violated"
   ],
   "note": "Proved for a first drawing in one panel with all options, and for the own instrument of separate panels. False for a second drawing and for later instruments of separate panels."
  },
  {
   "property": "C139",
   "status": "partial",
   "theorems": [
    "Radvel.C139_known_partial",
    "Radvel.C139_order_violated",
    "Radvel.C139_separate_violated",
    "Radvel.C139_key_violated"
   ],
   "note": "Proved for instruments with formats or default formats. False for unknown instruments, and KeyError for formats without colour."
  },
  {
   "property": "C140",
   "status": "partial",
   "theorems": [
    "Radvel.C140_velocities_partial",
    "Radvel.C140_offset",
    "Radvel.C140_made_partial",
    "Radvel.C140_trend_violated"
   ],
   "note": "Proved for instruments with different suffixes, without decorrelation or with variables for which it works (C31), with the exact condition under which the figure is made. False for a posterior without dvdt or curv: KeyError."
  },
  {
   "property": "C141",
   "status": "partial",
   "theorems": [
    "Radvel.C141_panel_partial",
    "Radvel.C141_once_partial",
    "Radvel.C141_distance_partial",
    "Radvel.C141_highlight_partial",
    "Radvel.C141_negative_violated"
   ],
   "note": "Proved for instruments with different suffixes, without decorrelation or with variables for which it works (C31), and periods other than zero; the distance from curve to point for positive periods. For negative ones it is false: the phase is folded with the period, but the velocity of an eccentric orbit is computed with 1e-4."
  },
  {
   "property": "C142",
   "status": "partial",
   "theorems": [
    "Radvel.C142_bins_partial",
    "Radvel.C142_none"
   ],
   "note": "Same restriction as C141."
  },
  {
   "property": "C143",
   "status": "partial",
   "theorems": [
    "Radvel.C143_place_partial",
    "Radvel.C143_covered_partial",
    "Radvel.C143_chosen_partial",
    "Radvel.C143_label_partial",
    "Radvel.C143_reduced_violated",
    "Radvel.C143_epoch_violated",
    "Radvel.C143_label_violated"
   ],
   "note": "Proved without a chosen range, and for a chosen range with full dates and a nonzero whole epoch. False for a chosen range with reduced dates or epoch 0: no part of the curve is visible; false for an epoch with a fraction: the label is another number."
  },
  {
   "property": "C144",
   "status": "proved",
   "theorems": [
    "Radvel.C144_subcommand",
    "Radvel.C144_meaning",
    "Radvel.C144_accepts",
    "Radvel.C144_unique"
   ],
   "note": "All spellings argparse 3.11 accepts: abbreviations, --name=value, attached values, bundled letters, negative numbers."
  },
  {
   "property": "C145",
   "status": "partial",
   "theorems": [
    "Radvel.C145_defined_partial",
    "Radvel.C145_alone_violated"
   ],
   "note": "Proved for every command line with a subcommand. False without one: AttributeError."
  },
  {
   "property": "C146",
   "status": "partial",
   "theorems": [
    "Radvel.C146_ic_partial",
    "Radvel.C146_table_partial",
    "Radvel.C146_plot_partial",
    "Radvel.C146_simple",
    "Radvel.C146_sampler",
    "Radvel.C146_ns",
    "Radvel.C146_ic_violated",
    "Radvel.C146_type_violated"
   ],
   "note": "Proved when -t is used, and for samplers in full. Without -t, ic fails an assertion and plot and table raise TypeError."
  },
  {
   "property": "C147",
   "status": "partial",
   "theorems": [
    "Radvel.C147_ic_partial",
    "Radvel.C147_serial_violated"
   ],
   "note": "Proved for the switches of ic. False for --serial False, which means serial."
  },
  {
   "property": "C148",
   "status": "partial",
   "theorems": [
    "Radvel.C148_name",
    "Radvel.C148_path",
    "Radvel.C148_directory_partial",
    "Radvel.C148_fails",
    "Radvel.C148_clash_violated",
    "Radvel.C148_setup_violated"
   ],
   "note": "Proved: existence, name, nothing else made, errors change nothing. False: setup files whose names agree up to the first dot share a directory; without -s and -d TypeError."
  },
  {
   "property": "C149",
   "status": "partial",
   "theorems": [
    "Radvel.C149_read_partial",
    "Radvel.C149_unread_violated"
   ],
   "note": "Proved for fit, plot, mcmc and ns. False for --header of table and --decorr of table, derive and report."
  },
  {
   "property": "C150",
   "status": "partial",
   "theorems": [
    "Radvel.C150_label_partial",
    "Radvel.C150_balanced_partial",
    "Radvel.C150_distinct_partial",
    "Radvel.C150_shared",
    "Radvel.C150_celerite_violated",
    "Radvel.C150_digit_violated",
    "Radvel.C150_letters_violated",
    "Radvel.C150_logjit_violated"
   ],
   "note": "Proved for names of instruments that contain no name of a parameter and, for hyperparameters, do not end in a digit. False for the celerite hyperparameters B, C and L (a brace too many), for hyperparameters of instruments whose name ends in a digit (taken for a planet; KeyError with planet letters), and for logjit."
  },
  {
   "property": "C151",
   "status": "partial",
   "theorems": [
    "Radvel.C151_agrees_partial",
    "Radvel.C151_text_partial",
    "Radvel.C151_table_partial",
    "Radvel.C151_letters_violated",
    "Radvel.C151_ten_violated",
    "Radvel.C151_numerical_violated",
    "Radvel.C151_baseline_violated",
    "Radvel.C151_line_violated"
   ],
   "note": "Proved for default letters and labelled parameters of at most nine planets. False with letters of the user's, for eccentricity limits from the tenth planet on and for numerical priors that name no parameter or one twice (no table at all), for the baseline prior (no label), and for the lines (an empty one after every prior)."
  },
  {
   "property": "C152",
   "status": "partial",
   "theorems": [
    "Radvel.C152_figures_partial",
    "Radvel.C152_current_partial",
    "Radvel.C152_stale_violated",
    "Radvel.C152_renamed_violated",
    "Radvel.C152_elsewhere_violated",
    "Radvel.C152_old_violated",
    "Radvel.C152_caption_violated",
    "Radvel.C152_unused_violated"
   ],
   "note": "Proved for figures drawn under their usual names. False for new samples after drawing (old figures beside new tables), for RV figures saved with saveplot (left out, replaced by the old one, shown under another caption, or no report at all), and if a figure that the report does not show was removed."
  },
  {
   "property": "C153",
   "status": "partial",
   "theorems": [
    "Radvel.C153_typed_partial",
    "Radvel.C153_left_out_partial",
    "Radvel.C153_file",
    "Radvel.C153_help_partial",
    "Radvel.C153_called",
    "Radvel.C153_thin_violated",
    "Radvel.C153_help_violated"
   ],
   "note": "The settings typed reach the sampler. Defaults: false for thin (10 instead of 1), and the help names wrong defaults for minAfactor and maxArchange."
  },
  {
   "property": "C154",
   "status": "partial",
   "theorems": [
    "Radvel.C154_posterior_partial",
    "Radvel.C154_nested_partial",
    "Radvel.C154_logjit_partial",
    "Radvel.C154_decorr_partial"
   ],
   "note": "From the file to the number, for MCMC and for nested sampling, composed from the theorems on setup, array, model, likelihoods, priors and history. A logjit parameter at the end of the file means the jitter it says; elsewhere it raises (C93). With decorrelation there is one more free parameter for every instrument and variable, and the density is that of the decorrelated velocities, too low by the factor of C27 for a marginalised offset. Missing: decorrelation variables for which C31 fails and priors on their coefficients (Gaussian processes: C155)."
  },
  {
   "property": "C155",
   "status": "partial",
   "theorems": [
    "Radvel.C155_posterior_partial",
    "Radvel.C155_nested_partial",
    "Radvel.C155_linear_violated"
   ],
   "note": "From the file to the number, including histories after which kernels hold other hyperparameters. Missing: celerite, hyperparameters with zero lengths or a disabled kernel. False for gammas that are linear and fixed: GP likelihoods use their stored value instead of integrating over them."
  },
  {
   "property": "C156",
   "status": "partial",
   "theorems": [
    "Radvel.C156_lines",
    "Radvel.C156_effect",
    "Radvel.C156_again",
    "Radvel.C156_columns_partial",
    "Radvel.C156_rows",
    "Radvel.C156_edit_violated",
    "Radvel.C156_flag_violated",
    "Radvel.C156_glued_violated"
   ],
   "note": "Lines, rows and later evaluations proved. False for values edited in the dictionary (printing sets them back), for flags edited there (shown but not used), and for the column of an uncertainty with ten characters or more."
  },
  {
   "property": "C157",
   "status": "proved",
   "theorems": [
    "Radvel.C157_table",
    "Radvel.C157_ns"
   ],
   "note": "From the numbers that the sampler leaves through the status file to the rows. float(text) is an exact decimal; the binary rounding that decides ties is not modelled."
  },
  {
   "property": "C158",
   "status": "partial",
   "theorems": [
    "Radvel.C158_line_partial",
    "Radvel.C158_mono",
    "Radvel.C158_count",
    "Radvel.C158_end_violated",
    "Radvel.C158_full_violated",
    "Radvel.C158_continued_violated"
   ],
   "note": "What is counted, and the line as long as the count is within the total. False at the end of runs (102% with the defaults, bar wider than its frame), for the last hundredth (full bar too early) and for continued runs (old steps counted against the new total)."
  },
  {
   "property": "C159",
   "status": "partial",
   "theorems": [
    "Radvel.C159_values",
    "Radvel.C159_gp",
    "Radvel.C159_dict_partial",
    "Radvel.C159_missing_violated",
    "Radvel.C159_none_violated"
   ],
   "note": "Evaluations: proved for all posteriors, histories and arrays. Dictionary: proved if it has every parameter of its basis; otherwise loading adds the missing ones, without a value and free (the clean-up loop of load compares the wrong thing, and would raise if it found something)."
  },
  {
   "property": "C160",
   "status": "partial",
   "theorems": [
    "Radvel.C160_check",
    "Radvel.C160_count",
    "Radvel.C160_order",
    "Radvel.C160_figure_partial",
    "Radvel.C160_empty_violated",
    "Radvel.C160_line_violated",
    "Radvel.C160_negative_violated"
   ],
   "note": "Rows: proved for all runs and histories. Figure: drawn if there is a row and the times are finite; all rows are in the axes. Violated: without a check after burn-in the plot raises KeyError; the line is outside the axes while the criterion is far from met; with a negative time the line does not separate the checks that met the criterion."
  },
  {
   "property": "C161",
   "status": "partial",
   "theorems": [
    "Radvel.C161_corner_partial",
    "Radvel.C161_trend_partial",
    "Radvel.C161_labels_exist",
    "Radvel.C161_derived_partial",
    "Radvel.C161_letters_partial",
    "Radvel.C161_letters_violated",
    "Radvel.C161_eleven_violated",
    "Radvel.C161_flag_violated",
    "Radvel.C161_font_violated"
   ],
   "note": "Corner and trend plot: proved if dictionary and vector agree. Derived plot: proved if each planet has a letter. Letters: agree for up to nine planets if setup file and Parameters have the same letters. Violated: letters given only in the setup file; more than ten planets; a flag set after sampling raises KeyError; a figure that fails leaves font size 12 for all later ones."
  },
  {
   "property": "C162",
   "status": "partial",
   "theorems": [
    "Radvel.C162_made",
    "Radvel.C162_monotone",
    "Radvel.C162_range_partial",
    "Radvel.C162_quantile_partial",
    "Radvel.C162_lost_violated",
    "Radvel.C162_shift_violated",
    "Radvel.C162_quantile_violated",
    "Radvel.C162_order",
    "Radvel.C162_several_violated"
   ],
   "note": "Proved: non-decreasing; within the range, half a bin from its ends; a quantile up to half a bin below and a bin and a half above. Violated: the first bin collapses to its middle; results are biased low by half a bin at each edge. These are for one parameter. With several, the transform is one number made from the values of all of them, whatever value belongs to whatever parameter (C162_several_violated)."
  },
  {
   "property": "C163",
   "status": "partial",
   "theorems": [
    "Radvel.C163_interval_partial",
    "Radvel.C163_angle_partial",
    "Radvel.C163_fixed_partial",
    "Radvel.C163_twice_partial",
    "Radvel.C163_fixed_violated",
    "Radvel.C163_sign_violated",
    "Radvel.C163_angle_violated"
   ],
   "note": "Proved for distances above 1.1e-12, for fixed values to four decimals, and for repeated rows of angles within one turn of zero. Violated: fixed values below 0.00005 are shown as zero; one vanishing distance makes a sampled parameter look fixed; the best-fit angle is not moved with the samples."
  },
  {
   "property": "C164",
   "status": "partial",
   "theorems": [
    "Radvel.C164_shown_partial",
    "Radvel.C164_derived_partial",
    "Radvel.C164_resample_violated",
    "Radvel.C164_refit_violated"
   ],
   "note": "Proved: the figure shows the last fit or MCMC run, with masses exactly if they were derived from MCMC samples since the last fit; right after deriving they belong to the orbits. Violated: a second MCMC run keeps the masses of the first; after a new fit, masses of the old samples are written next to the new orbits."
  },
  {
   "property": "C165",
   "status": "partial",
   "theorems": [
    "Radvel.C165_reported_partial",
    "Radvel.C165_fitted_partial",
    "Radvel.C165_mass_partial",
    "Radvel.C165_small_violated",
    "Radvel.C165_letters_violated",
    "Radvel.C165_nan_violated",
    "Radvel.C165_eleven_violated"
   ],
   "note": "Proved for planets 1 to 9: after sampling the panel repeats exactly the reported medians and errors (formatting them a second time changes nothing); without sampling, values to two decimals; the mass is within half of its error and in the unit written. Violated: small fixed or fitted values read 0.00; with letters of one's own the mass carries another letter; one nan among the masses, or an eleventh planet, makes the figure fail."
  },
  {
   "property": "C166",
   "status": "partial",
   "theorems": [
    "Radvel.C166_fresh_partial",
    "Radvel.C166_shared_violated"
   ],
   "note": "Proved for the orbital parameters of the new basis: they are new objects. Violated for all other parameters (gamma, jit, dvdt, curv, GP): they are the same objects in both sets, so that editing or fitting one changes the other."
  },
  {
   "property": "C167",
   "status": "partial",
   "theorems": [
    "Radvel.C167_numpy",
    "Radvel.C167_numpy_three",
    "Radvel.C167_velocity_numpy",
    "Radvel.C167_c_partial",
    "Radvel.C167_velocity_c",
    "Radvel.C167_c_violated"
   ],
   "note": "NumPy: proved for all arrays with 0 <= e < 1, at most 27 passes (3 for e <= 3/5), every entry a solution to 1e-12. C: proved for 0 <= e <= 0.99; false for e = 0.9999, where some mean anomaly makes a denominator vanish. Both versions of rv_drive, which replace eccentricities above 0.99, return a number for all periods but 0. Missing: the C solver between 0.99 and 1, and rounding."
  },
  {
   "property": "C168",
   "status": "proved",
   "theorems": [
    "Radvel.C168_numpy",
    "Radvel.C168_c",
    "Radvel.C168_agree",
    "Radvel.C168_model",
    "Radvel.rational_no_pole"
   ],
   "note": "Truncation error only; rounding is not modelled. Anomalies of exactly half a turn, where the tangent of the formula does not exist, are excluded; they are never doubles."
  },
  {
   "property": "C169",
   "status": "proved",
   "theorems": [
    "Radvel.C169_numpy",
    "Radvel.C169_c",
    "Radvel.C169_agree",
    "Radvel.C169_exact"
   ],
   "note": "For the velocities returned; that the solvers also finish in double precision is not proved (C167: exact arithmetic). Overflow is not modelled. C169_exact: without rounding the rounded program is the program of the other theorems."
  },
  {
   "property": "C170",
   "status": "proved",
   "theorems": [
    "Radvel.C170_posterior",
    "Radvel.C170_agree"
   ],
   "note": "Exact arithmetic but for the tolerance of the Kepler solvers (rounding of velocities: C169). At anomalies of exactly half a turn, where the formula of the code has an infinite tangent, nothing is claimed."
  },
  {
   "property": "C171",
   "status": "partial",
   "theorems": [
    "Radvel.C171_rows_partial",
    "Radvel.C171_column_partial",
    "Radvel.C171_hyperbolic_violated",
    "Radvel.C171_median_violated"
   ],
   "note": "Proved for samples with eccentricity up to 1. False above: tp and tc are nan, and the quantiles of the report's tc silently leave such samples out, though tc was sampled."
  },
  {
   "property": "C172",
   "status": "partial",
   "theorems": [
    "Radvel.C172_rows_partial",
    "Radvel.C172_conjunction_partial",
    "Radvel.C172_undefined",
    "Radvel.C172_attribute_violated",
    "Radvel.C172_keep_violated",
    "Radvel.C172_any_partial",
    "Radvel.C172_any_violated"
   ],
   "note": "Row by row for the four bases whose branch does not ask for planet_parameters, and for all bases if the table has this attribute, also when it names a time of conjunction and no time of periastron (up to eccentricity 1). Roots of negative eccentricities and logarithms of negative numbers are nan. Tables made by to_synth do not have it: AttributeError; keep=False always raises, so that to_any_basis converts samples to two bases only."
  },
  {
   "property": "C173",
   "status": "proved",
   "theorems": [
    "Radvel.C173_model",
    "Radvel.C173_agree",
    "Radvel.C173_exact"
   ],
   "note": "For the velocities returned (that the solvers finish in double precision is not proved; C167 has it for exact arithmetic). In other bases the theorems hold for the exactly converted elements. Overflow is not modelled. C173_exact: without rounding this is the model of the other theorems."
  },
  {
   "property": "C174",
   "status": "proved",
   "theorems": [
    "Radvel.C174_loglike",
    "Radvel.C174_residual",
    "Radvel.C174_logprob",
    "Radvel.C174_model",
    "Radvel.C174_exact"
   ],
   "note": "Without decorrelation and marginalised gamma; overflow and nan are not modelled. C174_model composes with the velocities of C173; C174_exact: without rounding this is the function of the other theorems."
  },
  {
   "property": "C175",
   "status": "partial",
   "theorems": [
    "Radvel.C175_velocities_partial",
    "Radvel.C175_residuals_partial",
    "Radvel.C175_panel_partial",
    "Radvel.C175_auto",
    "Radvel.C175_scatter",
    "Radvel.C175_inside_partial",
    "Radvel.C175_legend_partial",
    "Radvel.C175_hidden_violated",
    "Radvel.C175_legend_violated"
   ],
   "note": "The code uses the standard deviation, which is the RMS exactly if the mean of the data is zero (C175_scatter). Otherwise no data may be within the limits (C175_hidden_violated), and an instrument with one observation has no RMS (C175_legend_violated)."
  },
  {
   "property": "C176",
   "status": "partial",
   "theorems": [
    "Radvel.C176_posDef",
    "Radvel.C176_logprob_partial",
    "Radvel.C176_predict_partial",
    "Radvel.C176_jitter_violated",
    "Radvel.C176_C_violated"
   ],
   "note": "The package celerite is a parameter with the contract IsCelerite (what it documents, exact arithmetic, times in order). logprob is proved for data in the order of time (otherwise see C85), predict for any order. A negative jitter, which the likelihood accepts, makes the predictions nan (C176_jitter_violated); for C below -1 the matrix may be indefinite (C176_C_violated)."
  },
  {
   "property": "C177",
   "status": "partial",
   "theorems": [
    "Radvel.C177_stopped_partial",
    "Radvel.C177_between",
    "Radvel.C177_lost_violated",
    "Radvel.C177_mixed_violated"
   ],
   "note": "True before the first and after the last operation of a save. Between two of the eighteen operations on one ensemble nothing can be continued (C177_lost_violated); between two ensembles the continued run mixes two rounds (C177_between) and may keep burn-in samples as samples of the chain (C177_mixed_violated). Every executed operation is assumed to be in the file."
  },
  {
   "property": "C178",
   "status": "partial",
   "theorems": [
    "Radvel.C178_abbreviation",
    "Radvel.C178_ambiguous",
    "Radvel.C178_equals",
    "Radvel.C178_bundle",
    "Radvel.C178_negative",
    "Radvel.C178_across_violated",
    "Radvel.C178_negative_violated"
   ],
   "note": "The spellings mean the same wherever they stand, and ambiguous ones are refused. False: --s means --setup for fit and is refused by all other subcommands (C178_across_violated); negative counts are accepted by mcmc (C178_negative_violated)."
  },
  {
   "property": "C179",
   "status": "partial",
   "theorems": [
    "Radvel.C179_legal_partial",
    "Radvel.C179_refused",
    "Radvel.C179_exact",
    "Radvel.C179_ecc",
    "Radvel.C179_jeffreys_violated",
    "Radvel.C179_modJeffreys_violated",
    "Radvel.C179_hardBounds_violated",
    "Radvel.C179_gaussian_violated",
    "Radvel.C179_ecc_violated"
   ],
   "note": "An accepted prior can be used exactly when its arguments describe a distribution (C179_exact), and legal arguments are accepted. False that the others are refused: only a lower bound of 0 (Jeffreys) and a lower bound not above the knee (ModifiedJeffreys) are; what the accepted ones do is in the _violated theorems. Arguments are floats of Python; warnings are left out."
  },
  {
   "property": "C180",
   "status": "partial",
   "theorems": [
    "Radvel.C180_exact",
    "Radvel.C180_determined_partial",
    "Radvel.C180_eclipse_violated",
    "Radvel.C180_positive_violated",
    "Radvel.C180_function_violated"
   ],
   "note": "Exactly what the text determines is C180_exact; the whole list if everything of each prior is printed. False for secondary eclipses (planet not printed), positive amplitudes (number of planets not printed), numerical and user-defined priors (samples and function not printed). Numbers and lists enter as texts."
  },
  {
   "property": "C181",
   "status": "partial",
   "theorems": [
    "Radvel.C181_names",
    "Radvel.C181_ends_partial",
    "Radvel.C181_steps",
    "Radvel.C181_width_violated",
    "Radvel.C181_angle_violated"
   ],
   "note": "Exactly the times of planets are declared circular, whatever their priors. That is right exactly if the bounds are a whole number of periods apart (closed orbits with an amplitude); false otherwise. Angles are circular and not declared so. Priors other than uniform ones are not treated: their ends are infinite or not defined."
  },
  {
   "property": "C182",
   "status": "proved",
   "theorems": [
    "Radvel.C182_rejected",
    "Radvel.C182_posterior",
    "Radvel.C182_data",
    "Radvel.C182_exact"
   ],
   "note": "Widths of Gaussians from 1e-50 on, Jeffreys priors over a factor of two at least; at most 10000 priors and instruments. The other priors are left out; overflow and nan are not modelled. C182_data composes with the likelihoods of C174; C182_exact: without rounding these are the priors of the other theorems."
  },
  {
   "property": "C183",
   "status": "partial",
   "theorems": [
    "Radvel.C183_year_partial",
    "Radvel.C183_modified_violated",
    "Radvel.C183_line_violated"
   ],
   "note": "Proved for full Julian dates, and for dates reduced by the epoch of which one is before epoch - 2400000, with the restrictions of C143. False for dates reduced by another number: modified Julian dates appear 6500 years too early. In figures with Gaussian processes a line at the height of the year is drawn against the velocities. astropy's decimalyear is the Gregorian calendar."
  },
  {
   "property": "C184",
   "status": "partial",
   "theorems": [
    "Radvel.C184_entries_partial",
    "Radvel.C184_raises_partial",
    "Radvel.C184_shape_violated",
    "Radvel.C184_sum"
   ],
   "note": "Proved: the entries of whatever is returned, exactly when it is not an array, exactly when it raises, and the sum over planets. False: without the C extension one time gives a number and no times IndexError; with it integer times give ValueError. A solver that does not end is left out; an exit of the C code counts as nan."
  },
  {
   "property": "C185",
   "status": "partial",
   "theorems": [
    "Radvel.C185_phase",
    "Radvel.C185_array",
    "Radvel.C185_below_one_partial",
    "Radvel.C185_one_violated"
   ],
   "note": "Proved: the error, and the range with 1 included; below 1 if all times have the same last digit and the period is not too long, in particular for full Julian dates. False otherwise: shortly before the reference time the phase is exactly 1. Overflow and underflow are left out."
  },
  {
   "property": "C186",
   "status": "partial",
   "theorems": [
    "Radvel.C186_bins_partial",
    "Radvel.C186_limit",
    "Radvel.C186_endless_violated"
   ],
   "note": "Proved for bin sizes above the rounding error of the times. False below: the loop never ends. Only the division into bins (means: C190); without rounding it is that of C50 (timebin_split)."
  },
  {
   "property": "C187",
   "status": "proved",
   "theorems": [
    "Radvel.C187_errors"
   ],
   "note": "The sums overflow for no sample here, since exponents are not limited."
  },
  {
   "property": "C188",
   "status": "partial",
   "theorems": [
    "Radvel.C188_near_partial",
    "Radvel.C188_nearer_partial",
    "Radvel.C188_increasing",
    "Radvel.C188_roundtrip_violated"
   ],
   "note": "Dates come back within 40 microseconds (20 before the year 6700) of their whole second, and every second has a later Julian date than the one before. Not exactly: one second after noon of 1 January 2000 comes back as 12:00:00.999995."
  },
  {
   "property": "C189",
   "status": "partial",
   "theorems": [
    "Radvel.C189_mean",
    "Radvel.C189_variance",
    "Radvel.C189_close",
    "Radvel.C189_bar_partial",
    "Radvel.C189_nan_violated",
    "Radvel.binErrRounded_exact"
   ],
   "note": "The bound is (6 n + 36) half units in the last place of the largest square. The error bar is a number for variances above it. False for smaller ones: five values of 1.33 have the error bar nan, without a warning."
  },
  {
   "property": "C190",
   "status": "partial",
   "theorems": [
    "Radvel.C190_average",
    "Radvel.C190_error",
    "Radvel.C190_outside_violated",
    "Radvel.weightedRounded_exact"
   ],
   "note": "The averages are within (4 n + 16) half units in the last place of the largest value, the errors within 2 n + 8 of theirs. The range is not kept: three velocities of 7 with equal errors have an average below 7."
  },
  {
   "property": "C191",
   "status": "proved",
   "theorems": [
    "Radvel.C191_determined",
    "Radvel.C191_covariance",
    "Radvel.C191_celerite"
   ],
   "note": "The text of a number is a parameter: it is assumed to contain no comma and to differ for different numbers of a set that holds the hyperparameters, such as the doubles. The covariance is that of the three dense kernels."
  },
  {
   "property": "C192",
   "status": "partial",
   "theorems": [
    "Radvel.C192_timebin_partial",
    "Radvel.C192_same",
    "Radvel.C192_starts_violated",
    "Radvel.C192_endless_violated",
    "Radvel.timebinRounded_exact"
   ],
   "note": "Where the sums of times and bin size need no rounding, the result is that without rounding up to the errors of the averages. Proved for bin sizes above the rounding errors of the times, with bins that begin a bin size less a rounding error apart. In full it is false: an observation at a sum that was rounded down gets a bin of its own, and with a smaller bin size the loop does not end."
  },
  {
   "property": "C193",
   "status": "partial",
   "theorems": [
    "Radvel.C193_same_partial",
    "Radvel.C193_labels_violated"
   ],
   "note": "Proved where the sums of times and bin size need no rounding. Otherwise it is false: an observation at a sum that was rounded down gets a bin and a label of its own."
  },
  {
   "property": "C194",
   "status": "proved",
   "theorems": [
    "Radvel.C194_same",
    "Radvel.C194_rounded",
    "Radvel.C194_decimals"
   ],
   "note": "The rounding error of the logarithm only; round itself is exact, as in C54. C194_decimals: the number of decimals does change."
  },
  {
   "property": "C195",
   "status": "partial",
   "theorems": [
    "Radvel.C195_near",
    "Radvel.C195_kept",
    "Radvel.C195_nearest_violated",
    "Radvel.npRound_exact"
   ],
   "note": "Not always the nearest decimal: C195_nearest_violated. The steps of numpy's round are taken from its documentation; C195_kept for decimals with up to 15 digits."
  }
 ]
}