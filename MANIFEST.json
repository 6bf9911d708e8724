{
 "claims": [
  {
   "property": "C01",
   "status": "proved",
   "theorems": [
    "Verif.Cache.C01_never_stale",
    "Verif.Cache.C01_read_keeps_params"
   ],
   "note": "All schemas/histories; attribute-valued defaults must be covered (C92 is the rest)."
  },
  {
   "property": "C02",
   "status": "proved",
   "theorems": [
    "Verif.Cache.C02_invalidation_exact",
    "Verif.Cache.C02_equal_value_drops_nothing",
    "Verif.Cache.C02_delete_cached_exact",
    "Verif.Cache.C02_second_read_is_cached",
    "Verif.Cache.C02_class_creation_succeeds"
   ],
   "note": ""
  },
  {
   "property": "C03",
   "status": "partial",
   "theorems": [
    "Verif.Cache.C03_preserve_partial",
    "Verif.Cache.C03_unset_counterexample",
    "Verif.Cache.C03_exception_counterexample"
   ],
   "note": "False in full: parameters unset before the block leave stale results; an exception skips the restore."
  },
  {
   "property": "C04",
   "status": "partial",
   "theorems": [
    "Verif.Cache.C04_delete_parameter_partial",
    "Verif.Cache.C04_counterexample"
   ],
   "note": "False in full: ParameterProperty has no invalidating __delete__."
  },
  {
   "property": "C05",
   "status": "partial",
   "theorems": [
    "Verif.Cache.C05_reads_back_up_to_objEq",
    "Verif.Cache.C05_scalar_reads_back_partial",
    "Verif.Cache.C05_array_counterexample"
   ],
   "note": "False for arrays within numpy.allclose of the old value."
  },
  {
   "property": "C06",
   "status": "partial",
   "theorems": [
    "Verif.Cache.C06_override_partial",
    "Verif.Cache.C06_counterexample",
    "Verif.Cache.C06_interpolated_ignored",
    "Verif.Cache.C06_override_is_read"
   ],
   "note": "False in full: results computed under an override stay cached."
  },
  {
   "property": "C07",
   "status": "proved",
   "theorems": [
    "Verif.Lru.C07_any_schedule",
    "Verif.Lru.C07_calls_transparent",
    "Verif.Lru.C07_keeps_most_recent",
    "Verif.Lru.C07_recall_is_hit",
    "Verif.Lru.C07_unlimited",
    "Verif.Lru.C07_zero"
   ],
   "note": ""
  },
  {
   "property": "C08",
   "status": "partial",
   "theorems": [
    "Verif.Memo.C08_transparent_partial",
    "Verif.Memo.C08_off_after_block",
    "Verif.Memo.C08_memoize_transparent",
    "Verif.Memo.C08_stale_counterexample",
    "Verif.Memo.C08_two_objects_counterexample"
   ],
   "note": "False in full: the memo key omits the object and the model parameters."
  },
  {
   "property": "C92",
   "status": "partial",
   "theorems": [
    "Verif.Cache.C01_default_counterexample",
    "Verif.Cache.C01_never_stale"
   ],
   "note": "False in general (counterexample); holds where declarations cover the default (hypothesis DefaultsCovered of C01_never_stale)."
  },
  {
   "property": "C10",
   "status": "proved",
   "theorems": [
    "Verif.Cov.C10_elements",
    "Verif.Cov.C10_out_of_range",
    "Verif.Cov.C10_full_matrix",
    "Verif.Cov.C10_storage",
    "Verif.Cov.C10_diagonal_input",
    "Verif.Cov.C10_blocks"
   ],
   "note": ""
  },
  {
   "property": "C11",
   "status": "partial",
   "theorems": [
    "Verif.Cov.C11_roundtrip_partial",
    "Verif.Cov.C11_one_row_counterexample",
    "Verif.Cov.C11_rescaling_counterexample",
    "Verif.Cov.C11_attrs_counterexample"
   ],
   "note": "False in full: one-row matrices, inverse rescaling and non-float attributes are lost."
  },
  {
   "property": "C12",
   "status": "partial",
   "theorems": [
    "Verif.Cov.C12_trim",
    "Verif.Cov.C12_empty_statistic_fails"
   ],
   "note": "Proved for lexsorted coordinates when every statistic keeps a bin; otherwise the call raises (proved)."
  },
  {
   "property": "C13",
   "status": "partial",
   "theorems": [
    "Verif.Cov.C13_arithmetic_partial",
    "Verif.Cov.C13_rsub_counterexample",
    "Verif.Cov.C13_product_counterexample",
    "Verif.Cov.C13_small_elements_counterexample"
   ],
   "note": "False in full: reflected subtraction, products of two matrices, results within allclose of the operand."
  },
  {
   "property": "C14",
   "status": "partial",
   "theorems": [
    "Verif.Cov.C14_select_partial",
    "Verif.Cov.C14_offdiagonal_counterexample",
    "Verif.Cov.C14_order_counterexample"
   ],
   "note": "False in full: square off-diagonal blocks are symmetrised, index order is not kept."
  },
  {
   "property": "C15",
   "status": "partial",
   "theorems": [
    "Verif.Cov.C15_rescale_partial",
    "Verif.Cov.C15_no_mocks",
    "Verif.Cov.C15_initialize",
    "Verif.Cov.C15_later_limits_reset",
    "Verif.Cov.C15_counterexample"
   ],
   "note": "Holds at initialisation; false after later limit changes (proved for every data set)."
  },
  {
   "property": "C33",
   "status": "partial",
   "theorems": [
    "Verif.Cov.C33_slices",
    "Verif.Cov.C33_aligned_partial",
    "Verif.Cov.C33_set_order_counterexample",
    "Verif.Cov.C33_ranges_counterexample",
    "Verif.Cov.C33_specific_counterexample"
   ],
   "note": "False in full: arbitrary set order with different k grids, different ranges without window, specific parameters on a later statistic."
  },
  {
   "property": "C30",
   "status": "proved",
   "theorems": [
    "Verif.Driver.C30_lnprob",
    "Verif.Driver.C30_minus_lnlike",
    "Verif.Driver.C30_out_of_bounds",
    "Verif.Driver.C30_lnprior_sum",
    "Verif.Driver.C30_current"
   ],
   "note": ""
  },
  {
   "property": "C31",
   "status": "partial",
   "theorems": [
    "Verif.Driver.C31_partial",
    "Verif.Driver.C31_rejected",
    "Verif.Driver.C31_counterexample"
   ],
   "note": "False out of bounds: the previous point is evaluated silently."
  },
  {
   "property": "C32",
   "status": "partial",
   "theorems": [
    "Verif.Driver.C32_partial",
    "Verif.Driver.C32_priors_partial",
    "Verif.Driver.C32_state",
    "Verif.Driver.C32_state_counterexample"
   ],
   "note": "The central difference is right; the parameters are left at theta - epsilon in the last component and its prior derivative is taken there."
  },
  {
   "property": "C34",
   "status": "partial",
   "theorems": [
    "Verif.Fisher.C34_symmetric",
    "Verif.Fisher.C34_matrix",
    "Verif.Fisher.C34_definite",
    "Verif.Fisher.C34_errors",
    "Verif.Fisher.C34_fixing",
    "Verif.Fisher.C34_fixed_error",
    "Verif.Fisher.C34_fixed_must_be_free",
    "Verif.Fisher.C34_unsupported",
    "Verif.Fisher.C34_shipped_counterexample",
    "Verif.Fisher.C34_matrix_counterexample"
   ],
   "note": "Proved of the assembly and of marginalized_errors for every gradient; the driver as shipped lacks the attribute the gradient is read from, so fisher() always raises unless numerical_from_lnlike is given, and marginalized_errors returns a matrix with NaN entries rather than the errors."
  },
  {
   "property": "C35",
   "status": "proved",
   "theorems": [
    "Verif.Driver.C35_gradient",
    "Verif.Driver.C35_out_of_bounds"
   ],
   "note": ""
  },
  {
   "property": "C40",
   "status": "partial",
   "theorems": [
    "Verif.Cov.C40_masks",
    "Verif.Cov.C40_history",
    "Verif.Cov.C40_consistent_partial",
    "Verif.Cov.C40_combined_partial",
    "Verif.Cov.C40_widening_counterexample",
    "Verif.Cov.C40_exception_counterexample",
    "Verif.Cov.C40_close_limits_counterexample"
   ],
   "note": "Every history is characterised (C40_history); the covariance is consistent only if limits are never widened."
  },
  {
   "property": "C42",
   "status": "partial",
   "theorems": [
    "Verif.Cov.C42_slice_partial",
    "Verif.Cov.C42_order_counterexample"
   ],
   "note": "False for selections not in increasing order."
  },
  {
   "property": "C43",
   "status": "proved",
   "theorems": [
    "Verif.Cov.C43_errors",
    "Verif.Cov.C43_unequal_sizes_counterexample"
   ],
   "note": "Equal bin counts, as at loading time; with unequal counts the slices are wrong (counterexample)."
  },
  {
   "property": "C20",
   "status": "partial",
   "theorems": [
    "Verif.Priors.C20_lnprior_partial",
    "Verif.Priors.C20_nan_counterexample",
    "Verif.Priors.C20_improper_uniform_counterexample",
    "Verif.Priors.C20_read_clamps_counterexample",
    "Verif.Priors.C20_read_changes_lnprior",
    "Verif.Priors.C20_within_not_clamped"
   ],
   "note": "Proved for every history of operations with hard priors and every non-NaN value; false for NaN values, improper uniform priors and after a clamping read."
  },
  {
   "property": "C21",
   "status": "proved",
   "theorems": [
    "Verif.Scale.C21_inverse",
    "Verif.Scale.C21_units",
    "Verif.Scale.C21_gradient"
   ],
   "note": ""
  },
  {
   "property": "C22",
   "status": "partial",
   "theorems": [
    "Verif.Params.C22_all_or_nothing_partial",
    "Verif.Params.C22_model_values",
    "Verif.Params.C22_exception_counterexample"
   ],
   "note": "Refusal and acceptance are proved; when the model rejects the values with an exception the parameters have already been changed (counterexample)."
  },
  {
   "property": "C23",
   "status": "partial",
   "theorems": [
    "Verif.Params.C23_meaning",
    "Verif.Params.C23_history_partial",
    "Verif.Params.C23_two_levels",
    "Verif.Params.C23_reads_terminate",
    "Verif.Params.C23_dependency_order",
    "Verif.Params.gal_prepared",
    "Verif.Params.C23_gal_model_parameters",
    "Verif.Params.galChildren_prepared",
    "Verif.Params.C23_gal_b1_counterexample",
    "Verif.Params.C23_deep_counterexample",
    "Verif.Params.C23_out_of_bounds_counterexample"
   ],
   "note": "Proved for every history when the expression mentions only unconstrained or flat constrained parameters, and for reads in dependency order at any depth; false for three levels, out-of-bounds assignments, and the shipped derived b1."
  },
  {
   "property": "C24",
   "status": "proved",
   "theorems": [
    "Verif.Vars.C24_exact",
    "Verif.Vars.C24_all_strings",
    "Verif.Vars.C24_no_dollar"
   ],
   "note": ""
  },
  {
   "property": "C25",
   "status": "partial",
   "theorems": [
    "Verif.Priors.C25_gradient_partial",
    "Verif.Priors.C25_hard_counterexample",
    "Verif.Priors.C25_hard_error"
   ],
   "note": "Proved for the analytic priors (every history, every value); false with hard bounds (error bound proved)."
  },
  {
   "property": "C26",
   "status": "partial",
   "theorems": [
    "Verif.Priors.C26_sticks_partial",
    "Verif.Priors.C26_counterexample"
   ],
   "note": "Proved for operations that do not change bounds/hyper-parameters; changing a bound brings the hard version back (counterexample)."
  },
  {
   "property": "C60",
   "status": "proved",
   "theorems": [
    "Verif.AP.C60_geometric",
    "Verif.AP.C60_identity",
    "Verif.AP.C60_isotropic",
    "Verif.AP.C60_inverse",
    "Verif.AP.C60_injective"
   ],
   "note": ""
  },
  {
   "property": "C61",
   "status": "proved",
   "theorems": [
    "Verif.AP.C61_once",
    "Verif.AP.C61_lock_restored",
    "Verif.AP.C61_dm_power",
    "Verif.AP.C61_threads_counterexample"
   ],
   "note": "Single-threaded evaluation, at any nesting depth and with exceptions; concurrent evaluations in two threads share the lock (counterexample)."
  },
  {
   "property": "C62",
   "status": "proved",
   "theorems": [
    "Verif.Rsd.C62_population_sum",
    "Verif.Rsd.C62_weights",
    "Verif.Rsd.C62_fractions",
    "Verif.Rsd.C62_identical"
   ],
   "note": ""
  },
  {
   "property": "C63",
   "status": "partial",
   "theorems": [
    "Verif.Rsd.C63_qso_formula",
    "Verif.Rsd.C63_qso_kmu",
    "Verif.Rsd.C63_qso_alpha_par",
    "Verif.Rsd.C63_qso_alpha_perp",
    "Verif.Rsd.C63_qso_b1",
    "Verif.Rsd.C63_qso_f",
    "Verif.Rsd.C63_qso_fnl",
    "Verif.Rsd.C63_qso_sigma8_partial",
    "Verif.Rsd.C63_qso_sigma8_counterexample",
    "Verif.Rsd.C63_qso_sigma_fog_partial",
    "Verif.Rsd.C63_qso_sigma_fog_counterexample",
    "Verif.Rsd.C63_gal_fs",
    "Verif.Rsd.C63_gal_fsB_partial",
    "Verif.Rsd.C63_gal_fcB_partial",
    "Verif.Rsd.C63_gal_NcBs_partial",
    "Verif.Rsd.C63_gal_NsBsB_partial",
    "Verif.Rsd.C63_gal_fso_partial",
    "Verif.Rsd.C63_gal_sigmaC_partial",
    "Verif.Rsd.C63_gal_sigmaSo_partial",
    "Verif.Rsd.C63_gal_alpha_par_partial",
    "Verif.Rsd.C63_gal_alpha_perp_partial",
    "Verif.Rsd.C63_gal_default",
    "Verif.Rsd.C63_gal_fsB_counterexample",
    "Verif.Rsd.C63_gal_drag_counterexample",
    "Verif.Rsd.C63_gal_noise_counterexample"
   ],
   "note": "Each galaxy derivative is proved correct exactly when the stated condition holds (iff); false in general for fsB, alpha_drag != 1 and N != 0 with the SO correction."
  },
  {
   "property": "C64",
   "status": "proved",
   "theorems": [
    "Verif.Rsd.C64_damping",
    "Verif.Rsd.C64_derivatives"
   ],
   "note": ""
  },
  {
   "property": "C65",
   "status": "partial",
   "theorems": [
    "Verif.Rsd.C65_success_partial",
    "Verif.Rsd.C65_exceptions_partial",
    "Verif.Rsd.C65_history_partial",
    "Verif.Rsd.C65_exception_counterexample"
   ],
   "note": "False in full: an exception inside an evaluation skips the restore."
  },
  {
   "property": "C66",
   "status": "partial",
   "theorems": [
    "Verif.Rsd.C66_qso",
    "Verif.Rsd.C66_gal_counterexample",
    "Verif.Rsd.C66_gal_component"
   ],
   "note": "True for quasars; the galaxy model ignores N (proved for every model)."
  },
  {
   "property": "C67",
   "status": "proved",
   "theorems": [
    "Verif.Params.C67_fcB",
    "Verif.Params.C67_b1_cB",
    "Verif.Params.C67_b1",
    "Verif.Params.C67_NcBs",
    "Verif.Params.C67_NsBsB",
    "Verif.Params.C67_dilations"
   ],
   "note": ""
  },
  {
   "property": "C68",
   "status": "partial",
   "theorems": [
    "Verif.Grad.C68_total",
    "Verif.Grad.C68_total_partial",
    "Verif.Grad.C68_constraint_derivative",
    "Verif.Grad.C68_gal_shipped",
    "Verif.Grad.C68_rows",
    "Verif.Grad.C68_failure",
    "Verif.Grad.C68_central_limit",
    "Verif.Grad.C68_central_exact",
    "Verif.Grad.C68_indirect_counterexample",
    "Verif.Grad.C68_theta_counterexample",
    "Verif.Grad.C68_scalar_counterexample",
    "Verif.Grad.C68_bound_counterexample"
   ],
   "note": "Exact error term proved (C68_total): model parameters reached only through other constrained ones are left out; never happens with the shipped galaxy constraints (C68_gal_shipped), does with a released b1_cB (counterexample). Wrong also for scalar k, mu and when theta is not the current point."
  },
  {
   "property": "C41",
   "status": "proved",
   "theorems": [
    "Verif.Units.C41_dimension",
    "Verif.Units.C41_same",
    "Verif.Units.C41_roundtrip",
    "Verif.Units.C41_invariants",
    "Verif.Units.C41_refused"
   ],
   "note": ""
  },
  {
   "property": "C50",
   "status": "partial",
   "theorems": [
    "Verif.Window.C50_identity",
    "Verif.Window.C50_partial",
    "Verif.Window.C50_high_counterexample",
    "Verif.Window.C50_order_counterexample"
   ],
   "note": "Exact result without a window proved for every request; the identity holds for the multipoles 0,2,..,max_ellprime in this order; higher multipoles are deleted and other orders permuted (counterexamples)."
  },
  {
   "property": "C51",
   "status": "proved",
   "theorems": [
    "Verif.Window.C51_coefficients",
    "Verif.Window.C51_accepts",
    "Verif.Window.C51_convolution",
    "Verif.Window.C51_linear"
   ],
   "note": "The convolved multipole is the multipole of the product of the two functions of mu (integral over mu), for every window and every even ell; the spline is linear in the tabulated values (contract of InterpolatedUnivariateSpline)."
  },
  {
   "property": "C52",
   "status": "proved",
   "theorems": [
    "Verif.Transfers.C52_wedges",
    "Verif.Transfers.C52_disjoint",
    "Verif.Transfers.C52_mean",
    "Verif.Transfers.C52_includes_one",
    "Verif.Transfers.C52_poles",
    "Verif.Transfers.C52_one_k_counterexample",
    "Verif.Transfers.C52_alias_counterexample"
   ],
   "note": "Whenever a result is returned it is the weighted mean; a multipole transfer on a grid with a single k always fails, and the list of bounds of the caller is modified (counterexamples)."
  },
  {
   "property": "C53",
   "status": "proved",
   "theorems": [
    "Verif.Transfers.C53_scatter",
    "Verif.Transfers.C53_roundtrip"
   ],
   "note": ""
  },
  {
   "property": "C54",
   "status": "proved",
   "theorems": [
    "Verif.Quad.C54_combination",
    "Verif.Quad.C54_weighting"
   ],
   "note": ""
  },
  {
   "property": "C55",
   "status": "proved",
   "theorems": [
    "Verif.Quad.C55_simps_quadratic",
    "Verif.Quad.C55_simps_cubic",
    "Verif.Quad.C55_simps_even",
    "Verif.Quad.C55_trapz",
    "Verif.Quad.C55_linear",
    "Verif.Quad.C55_poles",
    "Verif.Quad.C55_poles_linear",
    "Verif.Quad.C55_simps_error",
    "Verif.Quad.C55_simps_error_even",
    "Verif.Quad.C55_poles_error"
   ],
   "note": "Arrays of at least three points (shorter ones read out of bounds in C++)."
  },
  {
   "property": "C70",
   "status": "partial",
   "theorems": [
    "Verif.Lbfgs.C70_decrease",
    "Verif.Lbfgs.C70_monotone",
    "Verif.Lbfgs.C70_terminates",
    "Verif.Lbfgs.C70_status",
    "Verif.Lbfgs.C70_max_iter_zero_counterexample",
    "Verif.Lbfgs.C70_stationary_counterexample",
    "Verif.Lbfgs.C70_ftol_counterexample"
   ],
   "note": "Decrease, termination and meaning of the status are proved for every run under the Armijo contract of the line search; max_iter=0 still does one iteration, a stationary start is reported as -4, and the documented relative tolerance differs for negative objectives (counterexamples)."
  },
  {
   "property": "C71",
   "status": "proved",
   "theorems": [
    "Verif.Lbfgs.C71_two_loop",
    "Verif.Lbfgs.C71_history",
    "Verif.Lbfgs.C71_run",
    "Verif.Lbfgs.C71_first",
    "Verif.Lbfgs.C71_descent",
    "Verif.Lbfgs.C71_secant",
    "Verif.Lbfgs.C71_symmetric"
   ],
   "note": ""
  },
  {
   "property": "C72",
   "status": "proved",
   "theorems": [
    "Verif.Solvers.C72_walkers"
   ],
   "note": ""
  },
  {
   "property": "C73",
   "status": "partial",
   "theorems": [
    "Verif.Results.C73_request",
    "Verif.Results.C73_append_partial",
    "Verif.Results.C73_no_constrained_counterexample",
    "Verif.Results.C73_burnin_counterexample",
    "Verif.Restart.C73_restart_partial",
    "Verif.Restart.C73_restarts_partial",
    "Verif.Restart.C73_restart_counterexample"
   ],
   "note": "Proved for whole restarts and any sequence of them (with re-ordered names and interrupted sampling) when there are constrained parameters and no sample is exactly zero; with no constrained parameters the concatenation fails, and the burn-in of the statistics is lost (counterexamples). The sampler itself (emcee) is not modelled."
  },
  {
   "property": "C74",
   "status": "partial",
   "theorems": [
    "Verif.Solvers.C74_messages",
    "Verif.Solvers.C74_precedence",
    "Verif.Solvers.C74_stops",
    "Verif.Solvers.C74_all_stop",
    "Verif.Solvers.C74_reported",
    "Verif.Solvers.C74_no_spurious",
    "Verif.Solvers.C74_deadlock_counterexample"
   ],
   "note": "Every interleaving of exceptions, deliveries and checks is covered; a chain waiting at the barrier of the convergence test is never released if another has left (counterexample)."
  },
  {
   "property": "C75",
   "status": "proved",
   "theorems": [
    "Verif.Solvers.C75_partition",
    "Verif.Solvers.C75_balanced",
    "Verif.Solvers.C75_nonempty"
   ],
   "note": ""
  },
  {
   "property": "C76",
   "status": "proved",
   "theorems": [
    "Verif.Solvers.C76_fresh",
    "Verif.Solvers.C76_history",
    "Verif.Solvers.C76_race_counterexample"
   ],
   "note": "Sequential calls, base name not ending in an extra underscore; two concurrent calls can choose the same name (counterexample)."
  },
  {
   "property": "C77",
   "status": "partial",
   "theorems": [
    "Verif.Init.C77_prior",
    "Verif.Init.C77_scatter",
    "Verif.Init.C77_scatter_counterexample",
    "Verif.Init.C77_unchecked_counterexample",
    "Verif.Init.C77_univariate_partial",
    "Verif.Init.C77_univariate_in_bounds",
    "Verif.Init.C77_univariate_counterexample",
    "Verif.Init.C77_ball_partial",
    "Verif.Init.C77_ball_counterexample"
   ],
   "note": "The optimiser's drawing loops return only in-bounds points, for every random stream. Violations: without scatter the start is not checked; a negative coordinate makes scattering raise and a zero one is not scattered; the MCMC initialiser uses the 102nd attempt unchecked; the random ball is not checked. Proved for MCMC when one of the first 101 attempts of each walker is in bounds."
  },
  {
   "property": "C80",
   "status": "partial",
   "theorems": [
    "Verif.Results.C80_emcee_partial",
    "Verif.Results.C80_burnin_forgotten",
    "Verif.Results.C80_burnin_counterexample",
    "Verif.Results.C80_maxlnprob_counterexample",
    "Verif.Results.C80_lbfgs_partial",
    "Verif.Results.C80_lbfgs_counterexample"
   ],
   "note": "Traces are kept for every permutation; burn-in is forgotten, the best-fit dictionary of constrained parameters and the constrained values of LBFGS results are permuted wrongly (counterexamples)."
  },
  {
   "property": "C81",
   "status": "partial",
   "theorems": [
    "Verif.Results.C81_partial",
    "Verif.Results.C81_peak_partial",
    "Verif.Results.C81_peak_counterexample"
   ],
   "note": "Median and intervals proved for every history; the peak is not refreshed when the burn-in changes (counterexample)."
  },
  {
   "property": "C82",
   "status": "partial",
   "theorems": [
    "Verif.Results.C82_partial",
    "Verif.Results.C82_zero_counterexample"
   ],
   "note": "Proved for chains without exact zeros; zeros are dropped (counterexample)."
  },
  {
   "property": "C83",
   "status": "partial",
   "theorems": [
    "Verif.Hzpt.C83_derivative_partial",
    "Verif.Hzpt.C83_lowk_defect",
    "Verif.Hzpt.C83_lowk_counterexample"
   ],
   "note": "Proved for k >= 0.005 without interpolation tables; below, the low-k approximation of P01 lacks the k^4 term, and the exact difference is proved. The FFTLog transform is a fixed linear map, the quadrature a homogeneous functional."
  },
  {
   "property": "C84",
   "status": "partial",
   "theorems": [
    "Verif.Hzpt.C84_history",
    "Verif.Hzpt.C84_jennings",
    "Verif.Hzpt.C84_zero_counterexample",
    "Verif.Hzpt.C84_error_counterexample",
    "Verif.Hzpt.C84_batch_counterexample"
   ],
   "note": "Proved for every history with positive sigma8 (real arithmetic). A zero sigma8 destroys the arrays silently; a raising setter leaves the collection changed; with tables, the value at k depends on the other k of the same call."
  },
  {
   "property": "C90",
   "status": "proved",
   "theorems": [
    "Verif.Interp.C90_linear",
    "Verif.Interp.C90_nodes",
    "Verif.Interp.C90_between",
    "Verif.Interp.C90_exact",
    "Verif.Interp.C90_domain",
    "Verif.Interp.C90_fill",
    "Verif.Interp.C90_constructor",
    "Verif.Interp.C90_nearest",
    "Verif.Interp.C90_fallback",
    "Verif.Interp.C90_single_node_counterexample"
   ],
   "note": "Any dimension, any strictly ascending grid with at least two nodes per coordinate, finite points; a single-node coordinate is accepted by the constructor but cannot be interpolated (counterexample). Nearest-neighbour indexing as in numpy before 1.23."
  },
  {
   "property": "C09",
   "status": "partial",
   "theorems": [
    "Verif.Shipped.C09_shipped_partial",
    "Verif.Shipped.C09_exceptions_exact",
    "Verif.Shipped.C09_exceptions_dm",
    "Verif.Shipped.C09_exceptions_biased",
    "Verif.Shipped.C09_exceptions_qso",
    "Verif.Shipped.C09_galaxy_partial",
    "Verif.Shipped.C09_dm_partial",
    "Verif.Shipped.C09_stale_counterexample"
   ],
   "note": "Proved for all five shipped classes, for any code reading at most what the (machine-extracted) tables say, with the exact list of (attribute, parameter) pairs that are not covered: interpolate (dark-matter terms), use_tidal_bias (halo-matter terms), the b2_00_a/b2_01_a coefficients under 'vlah', the quasar total bias on redshift/cosmology, bias_to_sigma_relation, interpolation domains of P22_ss and the quasar P_mu6. The read sets are extracted from the source by tools/readsets.py (trusted, over-approximate)."
  },
  {
   "property": "C93",
   "status": "proved",
   "theorems": [
    "Verif.PT.C93_integrand_sides",
    "Verif.PT.C93_second_order_kernels",
    "Verif.PT.C93_velocity_kernel",
    "Verif.PT.C93_vvdd_kernel",
    "Verif.PT.C93_dvdv_kernel",
    "Verif.PT.C93_vvvv_kernel",
    "Verif.PT.C93_vvdv_kernel",
    "Verif.PT.C93_product_kernels"
   ],
   "note": "Non-degenerate triangles (both sides positive); real arithmetic."
  },
  {
   "property": "C94",
   "status": "partial",
   "theorems": [
    "Verif.PT.C94_half_domain",
    "Verif.PT.C94_imn_coupling",
    "Verif.PT.C94_kmn_coupling",
    "Verif.PT.C94_oneCompute_coupling",
    "Verif.PT.C94_one_loop_22",
    "Verif.PT.C94_two_loop_split",
    "Verif.PT.C94_two_loop_32_counterexample"
   ],
   "note": "Exact quadrature and integrable integrands. False for the two-loop pair (3,2), whose linear and one-loop parts use another kernel than the cross part (counterexample)."
  },
  {
   "property": "C95",
   "status": "proved",
   "theorems": [
    "Verif.PT.C95_sigmaR",
    "Verif.PT.C95_dark_matter",
    "Verif.PT.C95_biased"
   ],
   "note": "For any quadrature and splines that are homogeneous (the exact ones are); with real arithmetic."
  },
  {
   "property": "C97",
   "status": "proved",
   "theorems": [
    "Verif.PT.C97_exchange"
   ],
   "note": "Any numerics, any biasing functions and simulation fits."
  },
  {
   "property": "C98",
   "status": "partial",
   "theorems": [
    "Verif.PT.C98_mu0",
    "Verif.PT.C98_mu2",
    "Verif.PT.C98_mu4_partial",
    "Verif.PT.C98_mu6_partial",
    "Verif.PT.C98_mu4_exact_partial",
    "Verif.PT.C98_mu6_counterexample"
   ],
   "note": "Equal at mu0 and mu2 (with two-loop terms); at mu4 the tracers lack one term, at mu6 they lack the two-loop terms (exact differences proved). The mu6 dark-matter term without two-loop terms cannot be evaluated (counterexample)."
  },
  {
   "property": "C102",
   "status": "proved",
   "theorems": [
    "Verif.PT.C102_growth"
   ],
   "note": "Any numerics; models and loaded data off."
  },
  {
   "property": "C103",
   "status": "partial",
   "theorems": [
    "Verif.PT.C103_halo_spectra",
    "Verif.PT.C103_no_tidal_partial",
    "Verif.PT.C103_tidal",
    "Verif.PT.C103_tidal_counterexample"
   ],
   "note": "True without tidal terms (the exact second-order difference is proved); with tidal bias the spectra differ at first order (exact difference and a concrete spectrum where it is nonzero)."
  },
  {
   "property": "C96",
   "status": "proved",
   "theorems": [
    "Verif.PT.C96_dark_matter",
    "Verif.PT.C96_dark_matter_mu6",
    "Verif.PT.C96_biased",
    "Verif.PT.C96_sims_velocity"
   ],
   "note": "Perturbation theory (models off), any quadrature and splines through the nodes. For tracers the stochasticity is subtracted and velocity dispersions are those of linear theory; with simulated dispersions the velocity terms do not vanish in the limit (C96_sims_velocity)."
  },
  {
   "property": "C104",
   "status": "proved",
   "theorems": [
    "Verif.PT.C104_density",
    "Verif.PT.C104_divergence",
    "Verif.PT.C104_cross",
    "Verif.PT.C104_momentum",
    "Verif.PT.C104_dispersion"
   ],
   "note": "For q < 60k (the exact branch of the code) and q != k; the SPT recursion is the specification (Spec/SPT.lean)."
  },
  {
   "property": "C105",
   "status": "proved",
   "theorems": [
    "Verif.PT.C105_one_loop",
    "Verif.PT.C105_real_space"
   ],
   "note": "Exact quadrature and splines; linear spectra with power in a band inside the integration range (1e-5, 100], below 60k. Velocity dispersions beyond linear theory set to zero, as one-loop theory has none."
  },
  {
   "property": "C106",
   "status": "partial",
   "theorems": [
    "Verif.PT.C106_dark_matter_partial",
    "Verif.PT.C106_biased_partial",
    "Verif.PT.C106_mu6_counterexample",
    "Verif.PT.C106_biased_mu6_counterexample"
   ],
   "note": "Holds for P_mu0, P_mu2 and P_mu4; exact quadrature and splines, spectra with power in a band inside (1e-5, 10] and below 60k, k in the range of the splines; for tracers: perturbation theory for the halo-matter spectrum, stochasticity subtracted, one second-order bias in all terms (the three the code distinguishes at this order being equal), linear-theory velocity dispersion. False for P_mu6: the two-loop matter P_mu6 uses f23 where perturbation theory has f32 (ImnOneLoop.cpp, case 8), and that of tracers lacks the term -f^4 k^2 sigma^2 P; both proved."
  },
  {
   "property": "C99",
   "status": "proved",
   "theorems": [
    "Verif.PT.C99_asymptotic",
    "Verif.PT.C99_one_loop",
    "Verif.PT.C99_asymptotic_counterexample"
   ],
   "note": "Exact quadrature; linear spectra with power in a band inside (1e-5, 100]. Also proved: the terms of order r^-6 to r^-12 of five of the polynomials are not those of the expansion (the error is of order r^-6 at every r >= 60, where correct terms would leave r^-14); the effect is below 1e-11 and harmless."
  },
  {
   "property": "C100",
   "status": "partial",
   "theorems": [
    "Verif.NlBias.C100_read_partial",
    "Verif.NlBias.C100_vlah",
    "Verif.NlBias.C100_fits",
    "Verif.NlBias.C100_poly",
    "Verif.NlBias.C100_coefficient",
    "Verif.NlBias.C100_initial",
    "Verif.NlBias.C100_loop",
    "Verif.NlBias.C100_reject",
    "Verif.NlBias.C100_shorthand_counterexample",
    "Verif.NlBias.C100_defaults_counterexample",
    "Verif.NlBias.C100_stale_counterexample",
    "Verif.NlBias.C100_documentation_counterexample"
   ],
   "note": "Proved except: a bias mapped to another that is a polynomial is served stale when coefficients of that one change; the shorthands b2_00=... and b2_01=... always raise ValueError (the dict is copied before they are taken out). Also proved: nonlinear_bias_defaults only has the last bias; b2_00_b and b2_00_c are used in each other's place compared to their documentation; loops of mappings exhaust the stack."
  },
  {
   "property": "C101",
   "status": "partial",
   "theorems": [
    "Verif.Cosmo.C101_window",
    "Verif.Cosmo.C101_normalised",
    "Verif.Cosmo.C101_normalised_fits",
    "Verif.Cosmo.C101_normalised_ex",
    "Verif.Cosmo.C101_pickle",
    "Verif.Cosmo.C101_pickle_ex",
    "Verif.Cosmo.C101_sigma8_kept",
    "Verif.Cosmo.C101_amplitude",
    "Verif.Cosmo.C101_normed_lin",
    "Verif.Cosmo.C101_sigma_window_counterexample",
    "Verif.Cosmo.C101_normalize_counterexample",
    "Verif.Cosmo.C101_sigma8_lost_counterexample",
    "Verif.Cosmo.C101_update_ignored_counterexample",
    "Verif.Cosmo.C101_update_pickle_counterexample",
    "Verif.Cosmo.C101_from_power_counterexample",
    "Verif.Cosmo.C101_from_power_ex",
    "Verif.Cosmo.C101_to_class_counterexample",
    "Verif.Cosmo.C101_arrays_counterexample",
    "Verif.Cosmo.C101_normed_nw_counterexample",
    "Verif.Cosmo.C101_normed_nw_ex"
   ],
   "note": "The normalisation is proved for every history that does not call NormalizeTransferFunction directly (for which it fails), with the exact integral in place of the quadrature. Copies are proved equal for all transfer functions but FromArrays. The rest is false of the code, and proved so: update with another transfer function than that of CLASS changes nothing; a change of the transfer function, update, clone(tf) and the copy constructor forget SetSigma8; the no-wiggle spectrum is therefore off by the squared ratio of the two sigma8; from_power ignores the power spectrum; objects from it cannot be copied."
  },
  {
   "property": "C107",
   "status": "proved",
   "theorems": [
    "Verif.Cosmo.C107_noWiggle",
    "Verif.Cosmo.C107_bbks",
    "Verif.Cosmo.C107_spline",
    "Verif.Cosmo.C107_physical",
    "Verif.Cosmo.C107_eisensteinHu"
   ],
   "note": "For CLASS, the spline is assumed to be continuous and to interpolate the ends of its table; C108_class proves it of the spline of the library."
  },
  {
   "property": "C108",
   "status": "proved",
   "theorems": [
    "Verif.Spline.C108_lookup",
    "Verif.Spline.C108_outside",
    "Verif.Spline.C108_linear",
    "Verif.Spline.C108_linear_derivative",
    "Verif.Spline.C108_linear_error",
    "Verif.Spline.C108_shifted",
    "Verif.Spline.C108_cubic",
    "Verif.Spline.C108_cubic_exact",
    "Verif.Spline.C108_cubic_linear",
    "Verif.Spline.C108_class",
    "Verif.Spline.C108_natural_counterexample"
   ],
   "note": "Real arithmetic. The header calls the cubic spline natural; it is not (C108_natural_counterexample): the end conditions match the cubics through the first and last four points."
  },
  {
   "property": "C109",
   "status": "proved",
   "theorems": [
    "Verif.SplineRef.C109_refcount",
    "Verif.SplineRef.C109_no_leak"
   ],
   "note": "One thread; the counts are not atomic."
  },
  {
   "property": "C110",
   "status": "partial",
   "theorems": [
    "Verif.Xi.C110_bessel",
    "Verif.Xi.C110_pk_to_xi",
    "Verif.Xi.C110_xi_to_pk",
    "Verif.Xi.C110_correlation",
    "Verif.Xi.C110_kaiser",
    "Verif.Xi.C110_kaiser_bias_counterexample"
   ],
   "note": "The method FFTLog: C111. For arguments of the Bessel functions below 10^-4 the transforms are not exact (C110_bessel bounds the difference). False of the code: Kaiser::P_s ignores the bias (C110_kaiser_bias_counterexample)."
  },
  {
   "property": "C111",
   "status": "proved",
   "theorems": [
    "Verif.FFTLog.C111_padding",
    "Verif.FFTLog.C111_interp_exists",
    "Verif.FFTLog.C111_interp_unique",
    "Verif.FFTLog.C111_P2xi",
    "Verif.FFTLog.C111_xi2P",
    "Verif.FFTLog.C111_grid_back",
    "Verif.FFTLog.C111_setup",
    "Verif.FFTLog.C111_default_length",
    "Verif.FFTLog.C111_lowring",
    "Verif.FFTLog.C111_round_trip",
    "Verif.FFTLog.C111_window",
    "Verif.FFTLog.C111_round_trip_padded",
    "Verif.FFTLog.C111_krgood_near",
    "Verif.FFTLog.C111_krgood_real",
    "Verif.FFTLog.C111_fortran_back",
    "Verif.FFTLog.C111_xi_fftlog",
    "Verif.FFTLog.C111_method_fftlog",
    "Verif.FFTLog.C111_method_fftlog_table"
   ],
   "note": "Odd multipoles (complex prefactors) and the other kernels of mcfit are not modelled. The method FFTLog returns zero outside its own separations (last clause of C111_method_fftlog)."
  },
  {
   "property": "C112",
   "status": "partial",
   "theorems": [
    "Verif.WinTransfer.C112_grid",
    "Verif.WinTransfer.C112_no_window",
    "Verif.WinTransfer.C112_no_window_bound",
    "Verif.WinTransfer.C112_slip_one",
    "Verif.WinTransfer.C112_slip_counterexample",
    "Verif.WinTransfer.C112_no_window_counterexample",
    "Verif.WinTransfer.C112_window"
   ],
   "note": "False of the code at the defaults: the separations of the last multipole are used for all, but with lowring they differ from multipole to multipole by about one step (C112_slip_counterexample), so that the other multipoles come out multiplied by a constant (C112_no_window_counterexample). Not modelled: the interpolation to k_out."
  },
  {
   "property": "C113",
   "status": "partial",
   "theorems": [
    "Verif.Bcast.C113_paired",
    "Verif.Bcast.C113_grid",
    "Verif.Bcast.C113_flat",
    "Verif.Bcast.C113_point",
    "Verif.Bcast.C113_returns_iff",
    "Verif.Bcast.C113_labels",
    "Verif.Bcast.C113_labels_flat",
    "Verif.Bcast.C113_qso_grid",
    "Verif.Bcast.C113_multipole",
    "Verif.Bcast.C113_multipole_error",
    "Verif.Bcast.C113_monopole_polynomial",
    "Verif.Bcast.C113_single_counterexample",
    "Verif.Bcast.C113_scalar_counterexample",
    "Verif.Bcast.C113_labels_counterexample",
    "Verif.Bcast.C113_positional_counterexample",
    "Verif.Bcast.C113_qso_counterexample",
    "Verif.Bcast.C113_multipole_counterexample",
    "Verif.Bcast.C113_monopole_length_counterexample"
   ],
   "note": "Proved for all accepted arguments. False of the code: one mu with several k (documented) or one k with several mu is refused, for quasars even flattened; a two-dimensional k that varies along a row is mislabelled; the flag by position is refused; the multipole methods refuse one k; with 41 k they use an even number of points, so the monopole at a k depends on how many k are asked for."
  },
  {
   "property": "C114",
   "status": "partial",
   "theorems": [
    "Verif.HaloBias.C114_tinker_decreasing",
    "Verif.HaloBias.C114_tinker_unique",
    "Verif.HaloBias.C114_mass_sound",
    "Verif.HaloBias.C114_mass",
    "Verif.HaloBias.C114_mass_increasing",
    "Verif.HaloBias.C114_mass_normalisation",
    "Verif.HaloBias.C114_mass_refused",
    "Verif.HaloBias.C114_table_node",
    "Verif.HaloBias.C114_table_between",
    "Verif.HaloBias.C114_table_outside",
    "Verif.HaloBias.C114_sigmav_increasing",
    "Verif.HaloBias.C114_fallback_unused",
    "Verif.HaloBias.C114_fallback_clamp",
    "Verif.HaloBias.C114_mass_from_bias_sound",
    "Verif.HaloBias.C114_sigma_from_bias",
    "Verif.HaloBias.C114_stale",
    "Verif.HaloBias.C114_low_bias_counterexample",
    "Verif.HaloBias.C114_evrard_units_counterexample",
    "Verif.HaloBias.C114_stale_counterexample",
    "Verif.HaloBias.C114_overdensity_counterexample",
    "Verif.HaloBias.C114_name_error_counterexample",
    "Verif.HaloBias.C114_silent_zero_counterexample"
   ],
   "note": "Proved for the root finder and at the nodes of the table. False of the code: below one the bias does not determine the mass; the table is never recomputed when the cosmology changes and ignores delta_halo; a failed node raises a NameError in the handler; the default dispersion is in Mpc and not Mpc/h; any failure at an ordinary bias silently gives a vanishing dispersion. The error of the table between nodes is only bounded by the corners; the spline of Sigma is an arbitrary function."
  },
  {
   "property": "C115",
   "status": "partial",
   "theorems": [
    "Verif.Converge.C115_value",
    "Verif.Converge.C115_gelman_rubin",
    "Verif.Converge.C115_lower",
    "Verif.Converge.C115_units",
    "Verif.Converge.C115_order",
    "Verif.Converge.C115_samples",
    "Verif.Converge.C115_none_iff",
    "Verif.Converge.C115_test",
    "Verif.Converge.C115_sound",
    "Verif.Converge.C115_single",
    "Verif.Converge.C115_schedule",
    "Verif.Converge.C115_restart",
    "Verif.Converge.C115_restart_data",
    "Verif.Converge.C115_first_chain_counterexample",
    "Verif.Converge.C115_python3_counterexample",
    "Verif.Converge.C115_tolerance_counterexample",
    "Verif.Converge.C115_zero_counterexample"
   ],
   "note": "Proved with Python 2 and no sampled value exactly zero; against the published formula the within-chain variances are divided by n instead of n-1. False of the code: with Python 3 the test always raises TypeError (a float in a slice); a sampled zero makes it fail; for a tolerance below 1/(2n) identical chains are not converged; with chains of different lengths the result depends on which file comes first."
  },
  {
   "property": "C116",
   "status": "partial",
   "theorems": [
    "Verif.Analysis.C116_samples_partial",
    "Verif.Analysis.C116_covar_partial",
    "Verif.Analysis.C116_convergence_partial",
    "Verif.Analysis.C116_steps",
    "Verif.Analysis.C116_combined_partial",
    "Verif.Analysis.C116_bestfit_partial",
    "Verif.Analysis.C116_minimum",
    "Verif.Analysis.C116_succeeds",
    "Verif.Analysis.C116_case",
    "Verif.Analysis.C116_table_partial",
    "Verif.Analysis.C116_mcmc_table_partial",
    "Verif.Analysis.C116_rescaling",
    "Verif.Analysis.C116_rescaling_limit",
    "Verif.Analysis.C116_thin_counterexample",
    "Verif.Analysis.C116_no_constrained_counterexample",
    "Verif.Analysis.C116_stale_counterexample",
    "Verif.Analysis.C116_order_counterexample",
    "Verif.Analysis.C116_minimum_counterexample",
    "Verif.Analysis.C116_table_counterexample",
    "Verif.Analysis.C116_mcmc_table_counterexample",
    "Verif.Analysis.C116_rescaling_counterexample"
   ],
   "note": "Proved when the free names of the first file are in alphabetical order (as the solver writes them) and, for the combined result and the best fit, when one file is given or at least two chains have samples that count. False of the code: thinning always raises IndexError; no constrained parameters: always an error; if only one of several chains has anything that counts, the combined result keeps its burn-in and the best fit is read at a wrong place; the number reported as minimum of -lnL (and the reduced chi-squared) is an average over the walkers; the two-sigma columns gt/lt are exchanged, and in from_mcmc lt_2sigma is the lower end; with no mocks given, rescaling shrinks the errors. Which files are loaded, plots and latex output are not modelled."
  },
  {
   "property": "C117",
   "status": "partial",
   "theorems": [
    "Verif.Contour.C117_level_partial",
    "Verif.Contour.C117_order_partial",
    "Verif.Contour.C117_case",
    "Verif.Contour.C117_panels_partial",
    "Verif.Contour.C117_every_panel",
    "Verif.Contour.C117_peak_counterexample",
    "Verif.Contour.C117_equal_counterexample",
    "Verif.Contour.C117_transposed_counterexample",
    "Verif.Contour.C117_scale_counterexample"
   ],
   "note": "Levels proved when no single bin holds the fraction; panels when every figure lists its parameters in one common order and the scales are one. False of the code: when the largest bin alone holds the fraction the level is the smallest count (hist[-0]) and the levels are not increasing; levels can coincide (contourf refuses them); a second figure that lists a pair in the opposite order shows the histogram of the first transposed; the row parameter's trace is not divided by its scale. Drawing itself (matplotlib), numpy's histogram2d and the one-dimensional plots are not modelled."
  },
  {
   "property": "C118",
   "status": "partial",
   "theorems": [
    "Verif.DataFile.C118_names",
    "Verif.DataFile.C118_names_value",
    "Verif.DataFile.C118_written",
    "Verif.DataFile.C118_reads",
    "Verif.DataFile.C118_roundtrip",
    "Verif.DataFile.C118_precision",
    "Verif.DataFile.C118_second_roundtrip",
    "Verif.DataFile.C118_grid",
    "Verif.DataFile.C118_restrict",
    "Verif.DataFile.C118_case",
    "Verif.DataFile.C118_digits_counterexample",
    "Verif.DataFile.C118_first_counterexample",
    "Verif.DataFile.C118_stale_counterexample",
    "Verif.DataFile.C118_missing_counterexample"
   ],
   "note": "Round trip proved for measurements of one kind and length, all or none with errors. False of the code: only six digits are written, so a bin just beyond a limit can come back within it; the columns are those of the first measurement, so errors of the others are dropped if it has none; its list of columns is remembered, so errors set later are not written; a first measurement with errors and another without cannot be written. Text encoding of numbers is modelled by rounding to six digits (19 digits of grids: exact); nan in measurement files is not modelled."
  },
  {
   "property": "C119",
   "status": "proved",
   "theorems": [
    "Verif.Hzpt.C119_series",
    "Verif.Hzpt.C119_dispersion",
    "Verif.Hzpt.C119_displacement",
    "Verif.Hzpt.C119_displacement_near",
    "Verif.Hzpt.C119_variance",
    "Verif.Hzpt.C119_spectrum",
    "Verif.Hzpt.C119_transform",
    "Verif.Hzpt.C119_case"
   ],
   "note": "The adaptive quadratures are exact; FFTLog is a quadrature of the Hankel integral over the mesh (C119_spectrum) or any linear transform, whose error then appears explicitly (C119_transform). The bound for the orders above 15 and for arguments below 1e-4 is explicit. Below k = 0.005 the perturbative expressions are used (C83)."
  },
  {
   "property": "C120",
   "status": "partial",
   "theorems": [
    "Verif.Hzpt.C120_fourier",
    "Verif.Hzpt.C120_shipped_dm",
    "Verif.Hzpt.C120_shipped_hm",
    "Verif.Hzpt.C120_history",
    "Verif.Hzpt.C120_refused",
    "Verif.Hzpt.C120_power",
    "Verif.Hzpt.C120_case",
    "Verif.Hzpt.C120_large_counterexample"
   ],
   "note": "Proved for all constants with R > 0, R1h^4 > 4 R2h^4 and no double pole, which the shipped constants meet for sigma8 in [0.001, 1.6] (dark matter), [0.1, 1.6] and b1 >= 1 (halos). False of the code beyond: from sigma8 = 2.4 on the dark matter correlation function is NaN. The FFTLog transform of the Zel'dovich term is any function."
  },
  {
   "property": "C121",
   "status": "partial",
   "theorems": [
    "Verif.Cache.C121_model",
    "Verif.Cache.C121_load",
    "Verif.Cache.C121_version_counterexample",
    "Verif.Hzpt.C121_collection_partial",
    "Verif.Hzpt.C121_unused",
    "Verif.Hzpt.C121_case",
    "Verif.Hzpt.C121_lowk_counterexample",
    "Verif.Hzpt.C121_table_counterexample",
    "Verif.Hzpt.C121_single_partial",
    "Verif.Hzpt.C121_cf",
    "Verif.Hzpt.C121_cf_counterexample",
    "Verif.Hzpt.C121_linear",
    "Verif.Hzpt.C121_kaiser_partial",
    "Verif.Hzpt.C121_kaiser_counterexample"
   ],
   "note": "Proved in full for the parameter framework. False of the code for the compiled objects: Zel'dovich spectra that had been used lose the low-k approximation when saved, and tables made afterwards keep it so; loaded correlation functions use the normalisation of the cosmology instead of sigma8_z; a Kaiser object forgets its growth rate; a LinearPS made without a redshift cannot be loaded; models without a version raise instead of warning. Proved: everything at wavenumbers from 0.005 h/Mpc on, spectra not used before saving, and tables made before."
  },
  {
   "property": "C122",
   "status": "partial",
   "theorems": [
    "Verif.GK.C122_adaptive_partial",
    "Verif.GK.C122_rejects",
    "Verif.GK.C122_history",
    "Verif.GK.C122_swap",
    "Verif.GK.C122_accuracy",
    "Verif.GK.C122_point",
    "Verif.GK.C122_polynomials",
    "Verif.GK.C122_estimate",
    "Verif.GK.C122_cautious",
    "Verif.GK.C122_exp",
    "Verif.GK.C122_inverse",
    "Verif.GK.C122_nosub",
    "Verif.GK.C122_limit_counterexample"
   ],
   "note": "Everything but the report of a full workspace, which the code never makes: an integration that reaches the limit of 8192 intervals returns as if it had converged (C122_limit_counterexample). Real arithmetic."
  },
  {
   "property": "C123",
   "status": "partial",
   "theorems": [
    "Verif.Workspaces.C123_exclusive",
    "Verif.Workspaces.C123_reuse",
    "Verif.Workspaces.C123_leak_counterexample",
    "Verif.Workspaces.C123_race_counterexample"
   ],
   "note": "Proved for integrands that do not throw, with acquisition and release as single steps. False of the code otherwise: an exception keeps the workspace forever, and the release is not in the critical section of the acquisition."
  },
  {
   "property": "C124",
   "status": "partial",
   "theorems": [
    "Verif.GM.C124_adaptive",
    "Verif.GM.C124_evaluations",
    "Verif.GM.C124_polynomials",
    "Verif.GM.C124_accuracy",
    "Verif.GM.C124_axis",
    "Verif.GM.C124_zero_counterexample",
    "Verif.GM.C124_reversed_counterexample"
   ],
   "note": "Everything but the sign for reversed limits, which is false of the code (the loop over the corners ends after one): C124_reversed_counterexample. Also shown: an integral that vanishes uses ten million evaluations if only a relative tolerance is given. Real arithmetic."
  },
  {
   "property": "C125",
   "status": "partial",
   "theorems": [
    "Verif.PFile.C125_round_trip",
    "Verif.PFile.C125_stable",
    "Verif.PFile.C125_merge",
    "Verif.PFile.C125_merge_again",
    "Verif.PFile.C125_equals_counterexample",
    "Verif.PFile.C125_backslash_counterexample",
    "Verif.PFile.C125_hash_counterexample",
    "Verif.PFile.C125_empty_dict_counterexample",
    "Verif.PFile.C125_tag_counterexample",
    "Verif.PFile.C125_assign_counterexample",
    "Verif.PFile.C125_override_counterexample",
    "Verif.PFile.C125_bound_counterexample",
    "Verif.PFile.C125_remove_counterexample"
   ],
   "note": "Round trip, stability and merging are proved for every run whose values have texts of one field (hypothesis Writable; PFile.Example.run_writable is a run that meets it). False of the code beyond that: a value whose text has =, # or a backslash is refused, cut or lost; an empty dictionary becomes None; a tag is matched as a suffix; an assignment after a $(variable) value is not written; giving only a bound in a file changes the value and fixes the parameter; a file cannot remove a prior or a bound. Evaluation and repr of values are parameters of the model."
  },
  {
   "property": "C126",
   "status": "partial",
   "theorems": [
    "Verif.Setup.C126_arguments",
    "Verif.Setup.C126_no_parameters",
    "Verif.Setup.C126_accepted",
    "Verif.Setup.C126_ranks_agree",
    "Verif.Setup.C126_all_start",
    "Verif.Setup.C126_alone",
    "Verif.Setup.C126_again",
    "Verif.Setup.C126_race_counterexample",
    "Verif.Setup.C126_hang_counterexample",
    "Verif.Setup.C126_lost_counterexample",
    "Verif.Setup.C126_interrupted_counterexample",
    "Verif.Setup.C126_model_counterexample",
    "Verif.Start.C126_best_result",
    "Verif.Start.C126_named_result",
    "Verif.Start.C126_start_from_file",
    "Verif.Start.C126_iterations",
    "Verif.Start.C126_search_counterexample",
    "Verif.Start.C126_directory_counterexample",
    "Verif.Start.C126_nan_counterexample",
    "Verif.Start.C126_defaults_counterexample",
    "Verif.Start.C126_prior_counterexample"
   ],
   "note": "Proved: which files are used; for new folders agreement of all ranks, completion and no deadlock under every interleaving, and that the file given is never changed; for old folders the same with one process; starting from a result file; iterations. False of the code: in a folder with a params.dat rank 0 rewrites it while others read it (different parameters, or a hang), and a kill can empty it; an interrupted first start leaves a partial params.dat that the next start prefers to the file given; a model made in such a folder is not saved; a start result that is searched for is not used; parameter files relying on the defaults of lbfgs_options or init_from cannot be minimised or restarted. Adding one section to a file is one step."
  },
  {
   "property": "C127",
   "status": "partial",
   "theorems": [
    "Verif.SmoothWedge.C127_mean",
    "Verif.SmoothWedge.C127_single",
    "Verif.SmoothWedge.C127_unordered",
    "Verif.SmoothWedge.C127_flat",
    "Verif.SmoothWedge.C127_linear",
    "Verif.SmoothWedge.C127_partition",
    "Verif.SmoothWedge.C127_accuracy",
    "Verif.SmoothWedge.C127_converges",
    "Verif.SmoothWedge.C127_bias",
    "Verif.SmoothWedge.C127_setBounds",
    "Verif.SmoothWedge.C127_bias_counterexample",
    "Verif.SmoothWedge.C127_empty_counterexample",
    "Verif.SmoothWedge.C127_alias_counterexample",
    "Verif.SmoothWedge.C127_setBounds_counterexample",
    "Verif.SmoothWedge.C127_unreachable_counterexample",
    "Verif.SmoothWedge.C127_example"
   ],
   "note": "Proved: the result is the mean over the samples of the bin, for all powers, bins and numbers of samples; error bounds, convergence. False of the code: a power linear in mu is off by half a spacing in every bin but the last; a bin between two samples is nan; the list of bounds is changed, and a second transfer from it gets other centres; bounds assigned later keep the old centres; the fitting code cannot find the class in the package, so wedges without a grid file cannot be fitted."
  },
  {
   "property": "C128",
   "status": "partial",
   "theorems": [
    "Verif.CosmoDict.C128_given",
    "Verif.CosmoDict.C128_masses",
    "Verif.CosmoDict.C128_flat",
    "Verif.CosmoDict.C128_key_is_attribute",
    "Verif.CosmoDict.C128_copy",
    "Verif.CosmoDict.C128_pickle",
    "Verif.CosmoDict.C128_from_astropy",
    "Verif.CosmoDict.C128_clone",
    "Verif.CosmoDict.C128_clone_amplitude",
    "Verif.CosmoDict.C128_equality",
    "Verif.CosmoDict.C128_equal",
    "Verif.CosmoDict.C128_copy_equal",
    "Verif.CosmoDict.C128_different",
    "Verif.CosmoDict.C128_class",
    "Verif.CosmoDict.C128_class_neutrinos",
    "Verif.CosmoDict.C128_class_flat",
    "Verif.CosmoDict.C128_no_baryons",
    "Verif.CosmoDict.C128_read_only",
    "Verif.CosmoDict.C128_curvature_counterexample",
    "Verif.CosmoDict.C128_pickle_counterexample",
    "Verif.CosmoDict.C128_clone_flat_counterexample",
    "Verif.CosmoDict.C128_w0wa_counterexample",
    "Verif.CosmoDict.C128_extra_counterexample",
    "Verif.CosmoDict.C128_read_only_counterexample",
    "Verif.CosmoDict.C128_none_counterexample",
    "Verif.CosmoDict.C128_symmetric_counterexample",
    "Verif.CosmoDict.C128_transitive_counterexample",
    "Verif.CosmoDict.C128_ne_counterexample",
    "Verif.CosmoDict.C128_ne_pickle_counterexample",
    "Verif.CosmoDict.C128_neutrinos_counterexample"
   ],
   "note": "Proved for every history of constructions. False of the code: an unpickled (or deep-copied) flat cosmology has the entry Ode0 = 0.69 of the default one; clone(flat=...) changes nothing; from_astropy loses the change of the equation of state (wa) and refuses the extra parameters it documents; `!=` is that of dict and raises for an object and its copy with two neutrinos or more, or says that they differ; `==` is neither symmetric nor transitive and raises for Ob0 = None; update() and assignment to an attribute get around the read-only dictionary; the curvature is not given to CLASS; more than three massive neutrinos raise IndexError. Not modelled: units, the functions of astropy, exact decimal arithmetic is used."
  },
  {
   "property": "C129",
   "status": "partial",
   "theorems": [
    "Verif.SimFit.C129_value",
    "Verif.SimFit.C129_defined",
    "Verif.SimFit.C129_unique",
    "Verif.SimFit.C129_least",
    "Verif.SimFit.C129_through",
    "Verif.SimFit.C129_close",
    "Verif.SimFit.C129_smooth",
    "Verif.SimFit.C129_points_scalar",
    "Verif.SimFit.C129_points_array",
    "Verif.SimFit.C129_points_positional",
    "Verif.SimFit.C129_points_refused",
    "Verif.SimFit.C129_points_none",
    "Verif.SimFit.C129_number",
    "Verif.SimFit.C129_table",
    "Verif.SimFit.C129_set",
    "Verif.SimFit.C129_units_dependent",
    "Verif.SimFit.C129_units_independent",
    "Verif.SimFit.C129_rows",
    "Verif.SimFit.C129_fresh_partial",
    "Verif.SimFit.C129_new_table",
    "Verif.SimFit.C129_assigned",
    "Verif.SimFit.C129_not_noticed_counterexample",
    "Verif.SimFit.C129_renamed_counterexample",
    "Verif.SimFit.C129_stale_counterexample"
   ],
   "note": "Proved for every table. False of the code: once a call has succeeded, assigning theta, use_errors or dependent changes no result, and new names of the independent columns only rename the old ones (gp declares data, kernel and solver, and x, y, yerr declare data); proved for all objects, with a table of two rows where a new object gives other values. The last sentence is proved for histories without these assignments, and after any history once a new table is assigned. The solver of george is exact algebra; an empty list of independent variables is not modelled."
  },
  {
   "property": "C130",
   "status": "partial",
   "theorems": [
    "Verif.SimSpectra.C130_make",
    "Verif.SimSpectra.C130_inside",
    "Verif.SimSpectra.C130_fiducial",
    "Verif.SimSpectra.C130_domain",
    "Verif.SimSpectra.C130_array",
    "Verif.SimSpectra.C130_scaling",
    "Verif.SimSpectra.C130_assign_partial",
    "Verif.SimSpectra.C130_outside",
    "Verif.SimSpectra.C130_edge_counterexample",
    "Verif.SimSpectra.C130_linear_counterexample",
    "Verif.SimSpectra.C130_redshift_counterexample",
    "Verif.SimSpectra.C130_jennings",
    "Verif.SimSpectra.C130_early",
    "Verif.SimSpectra.C130_today",
    "Verif.SimSpectra.C130_exception_counterexample",
    "Verif.SimSpectra.C130_negative_counterexample"
   ],
   "note": "Proved for all tables. False of the code: beyond the redshifts of the tables the amplitude is the redshift itself, so f and sigma8 do not enter and the spectrum jumps at the edge (unless (f sigma8)^2 is the last redshift); an assigned linear spectrum is not checked to be at redshift 0 and is normalised with the sigma8 of the first; an exception inside the fitted spectra leaves the model with the sigma8 of today; the fitted velocity auto spectrum today is negative exactly where the matter spectrum is below (12480.5/1.824)^(2/3)."
  },
  {
   "property": "C131",
   "status": "partial",
   "theorems": [
    "Verif.GaussCov.C131_coordinates",
    "Verif.GaussCov.C131_box_partial",
    "Verif.GaussCov.C131_survey_partial",
    "Verif.GaussCov.C131_shells",
    "Verif.GaussCov.C131_limit_box",
    "Verif.GaussCov.C131_limit_survey",
    "Verif.GaussCov.C131_isotropic",
    "Verif.GaussCov.C131_constant",
    "Verif.GaussCov.C131_weights",
    "Verif.GaussCov.C131_box_definite",
    "Verif.GaussCov.C131_survey_definite",
    "Verif.GaussCov.C131_repeated",
    "Verif.GaussCov.C131_empty_counterexample",
    "Verif.GaussCov.C131_line_counterexample",
    "Verif.GaussCov.C131_line_example"
   ],
   "note": "False of the code: if there are as many wavenumbers as angles (101 with the default Nmu) the power is used point by point and the covariance over the modes is the same at all wavenumbers; if one redshift shell contains no objects all elements of the survey matrix are 0. Not modelled: fewer than two wavenumbers, Nmu = 0 (squeezed axes); an xarray spectrum in the box version. The version for wedges always raises NameError (numpy is imported as np) and is not modelled."
  },
  {
   "property": "C132",
   "status": "partial",
   "theorems": [
    "Verif.Labels.C132_nearest",
    "Verif.Labels.C132_select",
    "Verif.Labels.C132_block_partial",
    "Verif.Labels.C132_label_rows",
    "Verif.Labels.C132_enumerate",
    "Verif.Labels.C132_correlation_partial",
    "Verif.Labels.C132_close",
    "Verif.Labels.C132_order_counterexample",
    "Verif.Labels.C132_block_counterexample",
    "Verif.Labels.C132_wavenumbers_counterexample",
    "Verif.Labels.C132_correlation_counterexample"
   ],
   "note": "Proved for all inputs except: False of the code: a block with as many rows as columns that is not symmetric loses its lower triangle (the result is forced into a covariance object); with coordinates that are not in lexicographic order, or wavenumbers that differ between the statistics, looking up is a ValueError; a matrix that is allclose to its correlation matrix is returned as it is. Not modelled: the base class with one label per axis, label slices with a step, empty lists of values."
  },
  {
   "property": "C133",
   "status": "partial",
   "theorems": [
    "Verif.Png.C133_growth_equation",
    "Verif.Png.C133_matter",
    "Verif.Png.C133_early",
    "Verif.Png.C133_normalisation",
    "Verif.Png.C133_alpha",
    "Verif.Png.C133_total_growth",
    "Verif.Png.C133_bias",
    "Verif.Png.C133_large_scales",
    "Verif.Png.C133_alone_counterexample"
   ],
   "note": "Proved with exact integrals, on the wavenumbers from which the splines are made. False of the code: with ignore_cache the factor alpha depends on the other wavenumbers asked for. Not modelled: the values of the splines between their wavenumbers and the errors of the quadrature; the growth D of CLASS is a number."
  },
  {
   "property": "C134",
   "status": "partial",
   "theorems": [
    "Verif.Apply.C134_load",
    "Verif.Apply.C134_fit_partial",
    "Verif.Apply.C134_fiducial",
    "Verif.Apply.C134_fiducial_missing",
    "Verif.Apply.C134_apply_partial",
    "Verif.Apply.C134_analytic",
    "Verif.Apply.C134_start_partial",
    "Verif.Apply.C134_out_of_bounds_counterexample",
    "Verif.Apply.C134_apply_counterexample",
    "Verif.Apply.C134_burnin_counterexample",
    "Verif.Apply.C134_start_counterexample"
   ],
   "note": "False of the code: values outside the bounds are dropped silently, so that the parameters stay what they were and apply evaluates the function at the values of the file before; a file whose names are in another order than the theory loses its burn-in; a run from a result with a parameter that has no value anywhere starts from nan, because has_fiducial is compared to None. numpy's percentile, argmax and the peak finder are contracts."
  },
  {
   "property": "C135",
   "status": "partial",
   "theorems": [
    "Verif.InterpDomain.C135_range",
    "Verif.InterpDomain.C135_power_partial",
    "Verif.InterpDomain.C135_maxMu",
    "Verif.InterpDomain.C135_nodes",
    "Verif.InterpDomain.C135_observed",
    "Verif.InterpDomain.C135_derivative",
    "Verif.InterpDomain.C135_ignore_cache",
    "Verif.InterpDomain.C135_observed_counterexample",
    "Verif.InterpDomain.C135_derivative_counterexample",
    "Verif.InterpDomain.C135_nan_counterexample",
    "Verif.InterpDomain.C135_ignore_derivative_counterexample"
   ],
   "note": "False of the code: kmin and kmax are documented as limits of the observed wavenumbers, and the wavenumbers as following the dilations, which they do not; derivative_k extrapolates silently where power is an error; the spectrum at nan is 0; with ignore_cache the derivative is dropped. scipy's spline is a contract, shown to be satisfiable."
  },
  {
   "property": "C136",
   "status": "partial",
   "theorems": [
    "Verif.Loaded.C136_never_stale_partial",
    "Verif.Loaded.C136_source",
    "Verif.Loaded.C136_block_partial",
    "Verif.Loaded.C136_spt_partial",
    "Verif.Loaded.C136_reload_counterexample",
    "Verif.Loaded.C136_exception_counterexample",
    "Verif.Loaded.C136_nested_counterexample",
    "Verif.Loaded.C136_swallowed_counterexample"
   ],
   "note": "False of the code: loading a table over another one of the same term leaves what was computed from the old one in the cache, because the flag does not change; a block left by an exception leaves its tables; an inner block unloads the tables of the outer one; use_spt swallows every exception raised inside it."
  },
  {
   "property": "C137",
   "status": "partial",
   "theorems": [
    "Verif.Emu.C137_accept_partial",
    "Verif.Emu.C137_value",
    "Verif.Emu.C137_value_cmb",
    "Verif.Emu.C137_weights",
    "Verif.Emu.C137_covered",
    "Verif.Emu.C137_range_partial",
    "Verif.Emu.C137_distance",
    "Verif.Emu.C137_hubble_partial",
    "Verif.Emu.C137_exit_counterexample",
    "Verif.Emu.C137_array_counterexample",
    "Verif.Emu.C137_nan_counterexample",
    "Verif.Emu.C137_unbracketed_counterexample",
    "Verif.Emu.C137_hit_counterexample"
   ],
   "note": "False of the code: an equation of state of -0.7 or a sigma_8 of 0.9, both documented as allowed, end the Python process, because the emulator computes its own limits in doubles; nan as a redshift is accepted and gives nan; an empty array is an exception and nan as a wavenumber undefined; the bisection for the Hubble parameter of the CMB returns 1 without a word if there is none in its interval, or if it hits it exactly. The quadrature of the distance is an argument of the model."
  },
  {
   "property": "C138",
   "status": "partial",
   "theorems": [
    "Verif.BestFit.C138_round_trip_partial",
    "Verif.BestFit.C138_compare_partial",
    "Verif.BestFit.C138_compare_labels_partial",
    "Verif.BestFit.C138_nlopt_counterexample",
    "Verif.BestFit.C138_append_counterexample",
    "Verif.BestFit.C138_meta_counterexample",
    "Verif.BestFit.C138_compare_dropped_counterexample",
    "Verif.BestFit.C138_compare_same_name_counterexample",
    "Verif.BestFit.C138_compare_label_counterexample",
    "Verif.BestFit.C138_compare_zero_counterexample"
   ],
   "note": "False of the code: the table of every fit with nlopt is read with the names as best-fit values and the values as medians, because empty cells vanish; a table without attributes is appended to what is in the file; truth values among the attributes are read as true, texts as their first word, None is an error; a parameter that the first fit does not have is not compared; two fits of the same name show the second; parameters without a LaTeX name lose their label once another one has one, and the tables of the caller are changed; as many parameters as data points is an error. How numbers are written, and LaTeX output, are not modelled."
  },
  {
   "property": "C139",
   "status": "partial",
   "theorems": [
    "Verif.RunEnd.C139_never_lost",
    "Verif.RunEnd.C139_others",
    "Verif.RunEnd.C139_saved",
    "Verif.RunEnd.C139_saved_nlopt_partial",
    "Verif.RunEnd.C139_replaced",
    "Verif.RunEnd.C139_log_partial",
    "Verif.RunEnd.C139_log_lost_counterexample",
    "Verif.RunEnd.C139_old_log_counterexample",
    "Verif.RunEnd.C139_exit_counterexample",
    "Verif.RunEnd.C139_twice_counterexample",
    "Verif.RunEnd.C139_name_counterexample"
   ],
   "note": "False of the code: a run in which the solver raises, or LBFGS ends with an error, leaves no log and no trace of the exception, nor does one that restarts a file whose log is not found; the exit status is 0 whatever happened; after ctrl+c in a restarted chain the old steps are on the disk twice; if no name can be made for the results they are not kept; a run killed when it saves leaves an empty results file."
  },
  {
   "property": "C140",
   "status": "partial",
   "theorems": [
    "Verif.TheoryVec.C140_window_partial",
    "Verif.TheoryVec.C140_window_order",
    "Verif.TheoryVec.C140_window_same_bins",
    "Verif.TheoryVec.C140_window_high",
    "Verif.TheoryVec.C140_grid_partial",
    "Verif.TheoryVec.C140_grid_specific",
    "Verif.TheoryVec.C140_smooth_partial",
    "Verif.TheoryVec.C140_selection_smooth",
    "Verif.TheoryVec.C140_wedges",
    "Verif.TheoryVec.C140_order_counterexample",
    "Verif.TheoryVec.C140_specific_counterexample",
    "Verif.TheoryVec.C140_ranges_counterexample"
   ],
   "note": "False of the code: wedges never yield a theory (their bounds are looked up among the centres, proved for all data sets); a proper selection of statistics always raises without window and grid, and with a window it raises or not depending on the order of a set; multipoles above max_ellprime raise; a grid and parameters of one statistic exclude each other; with a selection, parameters of one statistic are used for another. Proved where it holds: one group, in the order of the file or on common bins. Theory decorators are not modelled."
  },
  {
   "property": "C141",
   "status": "partial",
   "theorems": [
    "Verif.LoadCov.C141_columns_partial",
    "Verif.LoadCov.C141_file",
    "Verif.LoadCov.C141_no_errors",
    "Verif.LoadCov.C141_refused",
    "Verif.LoadCov.C141_rescaled_counterexample",
    "Verif.LoadCov.C141_small_counterexample",
    "Verif.LoadCov.C141_other_bins_counterexample",
    "Verif.LoadCov.C141_swapped_counterexample"
   ],
   "note": "Proved from the file to the trimmed covariance and error bars, for all fitting ranges, without mocks (with mocks: C15). False of the code: a covariance made of error columns is rescaled but the error bars are not; rescalings of small elements are dropped; a covariance file for other bins, or with the statistics in another order, is accepted if its size is right; missing errors give a TypeError."
  },
  {
   "property": "C142",
   "status": "partial",
   "theorems": [
    "Verif.UpdateFid.C142_fiducials_partial",
    "Verif.UpdateFid.C142_dependency_order",
    "Verif.UpdateFid.C142_values_partial",
    "Verif.UpdateFid.C142_ends",
    "Verif.UpdateFid.C142_case",
    "Verif.UpdateFid.C142_missing_counterexample",
    "Verif.UpdateFid.C142_not_prepared_counterexample",
    "Verif.UpdateFid.C142_trace_counterexample",
    "Verif.UpdateFid.C142_stale_fiducial_counterexample"
   ],
   "note": "Proved for constraints whose constrained dependencies are flat, and for fiducials at any depth when the dictionary is in dependency order. False of the code otherwise: three levels of constraints keep the fiducial as value afterwards, or the value as fiducial; a parameter without a fiducial counts as infinite, so a ratio gets the fiducial 0; an unprepared set raises and is left at the fiducials. Fiducials out of the bounds of a free parameter and expressions that raise are not covered."
  },
  {
   "property": "C143",
   "status": "partial",
   "theorems": [
    "Verif.ChainCorr.C143_columns_partial",
    "Verif.ChainCorr.C143_asked",
    "Verif.ChainCorr.C143_tex_names",
    "Verif.ChainCorr.C143_pairs",
    "Verif.ChainCorr.C143_missing_iff",
    "Verif.ChainCorr.C143_correlation",
    "Verif.ChainCorr.C143_affine",
    "Verif.ChainCorr.C143_case",
    "Verif.ChainCorr.C143_constrained_counterexample",
    "Verif.ChainCorr.C143_label_counterexample"
   ],
   "note": "Proved for all chains over the reals. False of the code: asking for the constrained parameters of a fit without any gives the free ones; parameters given the same label share one column and the first is lost. pandas' corr, unstack and sort_values are modelled from their documentation; samples are finite."
  },
  {
   "property": "C144",
   "status": "partial",
   "theorems": [
    "Verif.FitPlot.C144_static",
    "Verif.FitPlot.C144_colours",
    "Verif.FitPlot.C144_made_iff",
    "Verif.FitPlot.C144_residuals",
    "Verif.FitPlot.C144_norm_monopole",
    "Verif.FitPlot.C144_norm_positive",
    "Verif.FitPlot.C144_plotly_partial",
    "Verif.FitPlot.C144_plotly_counterexample",
    "Verif.FitPlot.C144_eight_counterexample"
   ],
   "note": "Proved for the static plot and the residuals. False of the interactive plot of wedges: the data are offset, the theory is not. More than seven statistics cannot be plotted with the default palette. Labels, axes and titles are not modelled; that the combined model is the concatenation of the predictions is C33/C140."
  },
  {
   "property": "C145",
   "status": "partial",
   "theorems": [
    "Verif.SetModel.C145_set",
    "Verif.SetModel.C145_range",
    "Verif.SetModel.C145_others",
    "Verif.SetModel.C145_refused_partial",
    "Verif.SetModel.C145_create",
    "Verif.SetModel.C145_set_live",
    "Verif.SetModel.C145_fit",
    "Verif.SetModel.C145_new_history",
    "Verif.SetModel.C145_gradient_partial",
    "Verif.SetModel.C145_gradient_first",
    "Verif.SetModel.C145_asked",
    "Verif.SetModel.C145_case",
    "Verif.SetModel.C145_gradient_counterexample",
    "Verif.SetModel.C145_asked_counterexample",
    "Verif.SetModel.C145_wrong_file_counterexample",
    "Verif.SetModel.C145_shared_counterexample"
   ],
   "note": "Proved for all files, ranges, models and histories: class, options, the rest, the range of k (min and max of what the data and the file ask), the parameters of the fit, independence of the history for a new model, all other models untouched. False of the code, with proofs: once a gradient has been taken it stays that of the model of that time (the gradient object is kept); constraints go on asking the first model for velocity dispersions; a file with a model of another class raises only after it was assigned, and then predictions and parameters are of two models; a model that is handed over is narrowed to the data's range, so two fits with one model break each other."
  },
  {
   "property": "C146",
   "status": "partial",
   "theorems": [
    "Verif.Plot1D.C146_range",
    "Verif.Plot1D.C146_ticks",
    "Verif.Plot1D.C146_one_bin",
    "Verif.Plot1D.C146_weights",
    "Verif.Plot1D.C146_histogram",
    "Verif.Plot1D.C146_curve",
    "Verif.Plot1D.C146_few",
    "Verif.Plot1D.C146_offset",
    "Verif.Plot1D.C146_likelihood",
    "Verif.Plot1D.C146_figures",
    "Verif.Plot1D.C146_drawn",
    "Verif.Plot1D.C146_case",
    "Verif.Plot1D.C146_mean_counterexample",
    "Verif.Plot1D.C146_units_counterexample",
    "Verif.Plot1D.C146_file_counterexample",
    "Verif.Plot1D.C146_fiducial_counterexample"
   ],
   "note": "Proved for all samples and figures: own samples in every panel (dictionaries kept by name), bins, height, range, ticks (at least two, at least ten bins), invariance of the likelihood curve. False of the code, with proofs: boundaries and fiducials are drawn unscaled on a scaled axis; the .hist file of a posterior holds the likelihood curve by default; the mean likelihood is a sum, not a mean. The cubic interpolation is any interpolation through its knots; labels, titles and colours are not modelled."
  },
  {
   "property": "C147",
   "status": "partial",
   "theorems": [
    "Verif.Extrapolate.C147_accepted",
    "Verif.Extrapolate.C147_mu_grid",
    "Verif.Extrapolate.C147_refused_iff",
    "Verif.Extrapolate.C147_one_function",
    "Verif.Extrapolate.C147_history",
    "Verif.Extrapolate.C147_continuous",
    "Verif.Extrapolate.C147_positive",
    "Verif.Extrapolate.C147_exact_low",
    "Verif.Extrapolate.C147_exact_high",
    "Verif.Extrapolate.C147_poles",
    "Verif.Extrapolate.C147_correlation",
    "Verif.Extrapolate.C147_default_counterexample",
    "Verif.Extrapolate.C147_function_counterexample",
    "Verif.Extrapolate.C147_changed_model_counterexample",
    "Verif.Extrapolate.C147_poles_orders_counterexample",
    "Verif.Extrapolate.C147_poles_paired_counterexample"
   ],
   "note": "Proved for all models, limits and histories without a change of the model: one function, the model inside, power laws with the model's end values outside, continuity, sign, exactness for power laws (at the mu of the grid, when the end is an end of the grid), multipoles and correlation function. False of the code, with proofs: the documented default limits are always refused; model_func is ignored and `Pgal` called, which no model of the package has, so the class and SmoothedXiMultipoles never work with them; after a change of the model the old slopes are kept; with as many orders as wavenumbers, or as many wavenumbers as mu, to_poles returns something else. The least-squares fit, the spline and the transform are parameters with stated contracts."
  },
  {
   "property": "C148",
   "status": "partial",
   "theorems": [
    "Verif.Trace.C148_bins",
    "Verif.Trace.C148_density",
    "Verif.Trace.C148_cdf",
    "Verif.Trace.C148_anywhere",
    "Verif.Trace.C148_draw_partial",
    "Verif.Trace.C148_grid_partial",
    "Verif.Trace.C148_median",
    "Verif.Trace.C148_limits",
    "Verif.Trace.C148_loc_scale",
    "Verif.Trace.C148_order",
    "Verif.Trace.C148_units",
    "Verif.Trace.C148_tails_counterexample",
    "Verif.Trace.C148_draw_counterexample",
    "Verif.Trace.C148_grid_counterexample",
    "Verif.Trace.C148_list_counterexample",
    "Verif.Trace.C148_few_counterexample"
   ],
   "note": "Proved for all chains: bins, density, cumulative distribution at and between the centres, limits, order, units; draws and grids when no random number or level is below the mass of the first bin. False of the code, with proofs: outside of the samples the density is a positive constant and the cumulative distribution does not go to zero; for every chain, random numbers below the mass of the first bin make draw raise a ValueError, and so does grid with as many points as samples; a list of samples is accepted but only has limits; with fewer than four bins (always with two samples) nothing can be drawn."
  },
  {
   "property": "C149",
   "status": "partial",
   "theorems": [
    "Verif.PlotNames.C149_order",
    "Verif.PlotNames.C149_power",
    "Verif.PlotNames.C149_integer",
    "Verif.PlotNames.C149_decimals",
    "Verif.PlotNames.C149_figures1",
    "Verif.PlotNames.C149_figures2_partial",
    "Verif.PlotNames.C149_parameters",
    "Verif.PlotNames.C149_no_error_partial",
    "Verif.PlotNames.C149_history_partial",
    "Verif.PlotNames.C149_label_counterexample",
    "Verif.PlotNames.C149_figures2_counterexample",
    "Verif.PlotNames.C149_twice_counterexample",
    "Verif.PlotNames.C149_missing_counterexample"
   ],
   "note": "Proved for all names, choices, groups and scales: the figures, the entries, the labels of powers of ten and of integers below 1000, the order of magnitude in the label of every positive factor, and that parameters no analysis scales keep their labels. False of the code, with proofs: other factors lose their digits (a half is labelled as a tenth, 2000 as 1000, 2.5 as 2, 0.96 with an empty exponent), a name that begins with a digit changes the exponent; one group of two-dimensional figures is a TypeError, and a parameter of two groups is on the figure twice; a second analysis in one process has the factor twice in the label, because the dictionary of the package is changed; a missing latex name is an error after others have been changed."
  },
  {
   "property": "C150",
   "status": "partial",
   "theorems": [
    "Verif.ConvPoles.C150_accepts",
    "Verif.ConvPoles.C150_convolved",
    "Verif.ConvPoles.C150_dry",
    "Verif.ConvPoles.C150_linear",
    "Verif.ConvPoles.C150_no_window",
    "Verif.ConvPoles.C150_grid",
    "Verif.ConvPoles.C150_high_counterexample",
    "Verif.ConvPoles.C150_order_counterexample"
   ],
   "note": "Proved for the default branch, for all arrays, windows and orders: exactly what is accepted, the value at every wavenumber in terms of the spherical Bessel functions, the trapezoidal rule and multipoles of a product of functions of the direction (arguments of the Bessel functions at least 1e-4), the dry run, linearity, the grid, and that a window that is 1 is a dry run if the multipoles are 0, 2, ..., max_ellprime in this order. False of the code, with proofs: otherwise a window that is 1 deletes a multipole above max_ellprime, and exchanges multipoles given in another order. The branch legacy=False is not modelled here (its transforms are, see C111 and C112)."
  },
  {
   "property": "C151",
   "status": "proved",
   "theorems": [
    "Verif.Params.C151_schema",
    "Verif.Params.C151_names",
    "Verif.Params.C151_derived",
    "Verif.Params.C151_dilations",
    "Verif.Params.C151_dilations_exist",
    "Verif.Params.C151_model",
    "Verif.Params.C151_defaults"
   ],
   "note": "Proved for all classes of defaults (the registry) and, for the quasar defaults, for all histories of assignments inside the bounds and of reads, all bounds and choices of what varies. Real numbers in place of doubles, and positive dilations (a negative one would give a complex cube root in Python)"
  },
  {
   "property": "C152",
   "status": "partial",
   "theorems": [
    "Verif.Opts.C152_accepted",
    "Verif.Opts.C152_values",
    "Verif.Opts.C152_defaults",
    "Verif.Opts.C152_nlopt",
    "Verif.Opts.C152_mcmc",
    "Verif.Opts.C152_default_params",
    "Verif.Opts.C152_restart",
    "Verif.Opts.C152_nlopt_default_counterexample",
    "Verif.Opts.C152_mcmc_default_counterexample",
    "Verif.Opts.C152_shared_counterexample",
    "Verif.Opts.C152_late_counterexample"
   ],
   "note": "Proved for all files, values and orders: what is accepted, the values of the options, `default_params`, and that the solvers use the values of the driver where the file gives them (and, without the file, wherever the solver has the same default). False of the code, with counterexamples: without `lbfgs_options` or `init_from` in the file `nlopt` raises a KeyError; without `init_from` or `burnin` the sampler uses the prior and 100 where the driver says fiducial and 0; the restart of a driver without `lbfgs_options` changes the default of all other drivers; an option set on the driver after it is made is not used by the solver nor saved"
  },
  {
   "property": "C153",
   "status": "partial",
   "theorems": [
    "Verif.Nb.C153_traces_partial",
    "Verif.Nb.C153_traces_refused",
    "Verif.Nb.C153_samples",
    "Verif.Nb.C153_area",
    "Verif.Nb.C153_hist_partial",
    "Verif.Nb.C153_hist_refused",
    "Verif.Nb.C153_contours",
    "Verif.Nb.C153_kde",
    "Verif.Nb.C153_labels_partial",
    "Verif.Nb.C153_shared_default",
    "Verif.Nb.C153_triangle_partial",
    "Verif.Nb.C153_triangle_default",
    "Verif.Nb.C153_triangle_refused",
    "Verif.Nb.C153_hist_hidden",
    "Verif.Nb.C153_one_walker_more",
    "Verif.Nb.C153_flat",
    "Verif.Nb.C153_curve"
   ],
   "note": "Proved for all results: what every panel shows, the area of the bars, the labels (in any sequence of calls that share the default dictionary), the place of every panel of the triangle. False of the code, proved: one walker more than max_walkers is drawn (C153_one_walker_more); with bins wider than 200000 all bars have height zero, as heights are rounded to five decimals (C153_flat); the curve runs over all samples exactly if none is negative (C153_curve); the caller's dictionary gains the two parameters (C153_labels_partial); the histograms of the triangle are not thinned (C153_triangle_partial)"
  }
 ]
}