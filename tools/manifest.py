#!/usr/bin/env python3
"""Writes /verif/MANIFEST.json. One entry per property; full Lean names."""
import json
C=[]
def c(prop,status,theorems,note=""):
    C.append(dict(property=prop,status=status,theorems=theorems,note=note))
def ns(n,*ts): return ["Verif.%s.%s"%(n,t) for t in ts]

c("C01","proved",ns("Cache","C01_never_stale","C01_read_keeps_params"),"All schemas/histories; attribute-valued defaults must be covered (C92 is the rest).")
c("C02","proved",ns("Cache","C02_invalidation_exact","C02_equal_value_drops_nothing","C02_delete_cached_exact","C02_second_read_is_cached","C02_class_creation_succeeds"))
c("C03","partial",ns("Cache","C03_preserve_partial","C03_unset_counterexample","C03_exception_counterexample"),"False in full: parameters unset before the block leave stale results; an exception skips the restore.")
c("C04","partial",ns("Cache","C04_delete_parameter_partial","C04_counterexample"),"False in full: ParameterProperty has no invalidating __delete__.")
c("C05","partial",ns("Cache","C05_reads_back_up_to_objEq","C05_scalar_reads_back_partial","C05_array_counterexample"),"False for arrays within numpy.allclose of the old value.")
c("C06","partial",ns("Cache","C06_override_partial","C06_counterexample","C06_interpolated_ignored","C06_override_is_read"),"False in full: results computed under an override stay cached.")
c("C07","proved",ns("Lru","C07_any_schedule","C07_calls_transparent","C07_keeps_most_recent","C07_recall_is_hit","C07_unlimited","C07_zero"))
c("C08","partial",ns("Memo","C08_transparent_partial","C08_off_after_block","C08_memoize_transparent","C08_stale_counterexample","C08_two_objects_counterexample"),"False in full: the memo key omits the object and the model parameters.")
c("C92","partial",ns("Cache","C01_default_counterexample","C01_never_stale"),"False in general (counterexample); holds where declarations cover the default (hypothesis DefaultsCovered of C01_never_stale).")
c("C10","proved",ns("Cov","C10_elements","C10_out_of_range","C10_full_matrix","C10_storage","C10_diagonal_input","C10_blocks"))
c("C11","partial",ns("Cov","C11_roundtrip_partial","C11_one_row_counterexample","C11_rescaling_counterexample","C11_attrs_counterexample"),"False in full: one-row matrices, inverse rescaling and non-float attributes are lost.")
c("C12","partial",ns("Cov","C12_trim","C12_empty_statistic_fails"),"Proved for lexsorted coordinates when every statistic keeps a bin; otherwise the call raises (proved).")
c("C13","partial",ns("Cov","C13_arithmetic_partial","C13_rsub_counterexample","C13_product_counterexample","C13_small_elements_counterexample"),"False in full: reflected subtraction, products of two matrices, results within allclose of the operand.")
c("C14","partial",ns("Cov","C14_select_partial","C14_offdiagonal_counterexample","C14_order_counterexample"),"False in full: square off-diagonal blocks are symmetrised, index order is not kept.")
c("C15","partial",ns("Cov","C15_rescale_partial","C15_no_mocks","C15_initialize","C15_later_limits_reset","C15_counterexample"),"Holds at initialisation; false after later limit changes (proved for every data set).")
c("C33","partial",ns("Cov","C33_slices","C33_aligned_partial","C33_set_order_counterexample","C33_ranges_counterexample","C33_specific_counterexample"),"False in full: arbitrary set order with different k grids, different ranges without window, specific parameters on a later statistic.")
c("C30","proved",ns("Driver","C30_lnprob","C30_minus_lnlike","C30_out_of_bounds","C30_lnprior_sum","C30_current"))
c("C31","partial",ns("Driver","C31_partial","C31_rejected","C31_counterexample"),"False out of bounds: the previous point is evaluated silently.")
c("C32","partial",ns("Driver","C32_partial","C32_priors_partial","C32_state","C32_state_counterexample"),"The central difference is right; the parameters are left at theta - epsilon in the last component and its prior derivative is taken there.")
c("C34","partial",ns("Fisher","C34_symmetric","C34_matrix","C34_definite","C34_errors","C34_fixing","C34_fixed_error","C34_fixed_must_be_free","C34_unsupported","C34_shipped_counterexample","C34_matrix_counterexample"),"Proved of the assembly and of marginalized_errors for every gradient; the driver as shipped lacks the attribute the gradient is read from, so fisher() always raises unless numerical_from_lnlike is given, and marginalized_errors returns a matrix with NaN entries rather than the errors.")
c("C35","proved",ns("Driver","C35_gradient","C35_out_of_bounds"))
c("C40","partial",ns("Cov","C40_masks","C40_history","C40_consistent_partial","C40_combined_partial","C40_widening_counterexample","C40_exception_counterexample","C40_close_limits_counterexample"),"Every history is characterised (C40_history); the covariance is consistent only if limits are never widened.")
c("C42","partial",ns("Cov","C42_slice_partial","C42_order_counterexample"),"False for selections not in increasing order.")
c("C43","proved",ns("Cov","C43_errors","C43_unequal_sizes_counterexample"),"Equal bin counts, as at loading time; with unequal counts the slices are wrong (counterexample).")
c("C20","partial",ns("Priors","C20_lnprior_partial","C20_nan_counterexample","C20_improper_uniform_counterexample","C20_read_clamps_counterexample","C20_read_changes_lnprior","C20_within_not_clamped"),"Proved for every history of operations with hard priors and every non-NaN value; false for NaN values, improper uniform priors and after a clamping read.")
c("C21","proved",ns("Scale","C21_inverse","C21_units","C21_gradient"))
c("C22","partial",ns("Params","C22_all_or_nothing_partial","C22_model_values","C22_exception_counterexample"),"Refusal and acceptance are proved; when the model rejects the values with an exception the parameters have already been changed (counterexample).")
c("C23","partial",ns("Params","C23_meaning","C23_history_partial","C23_two_levels","C23_reads_terminate","C23_dependency_order","gal_prepared","C23_gal_model_parameters","galChildren_prepared","C23_gal_b1_counterexample","C23_deep_counterexample","C23_out_of_bounds_counterexample"),"Proved for every history when the expression mentions only unconstrained or flat constrained parameters, and for reads in dependency order at any depth; false for three levels, out-of-bounds assignments, and the shipped derived b1.")
c("C24","proved",ns("Vars","C24_exact","C24_all_strings","C24_no_dollar"))
c("C25","partial",ns("Priors","C25_gradient_partial","C25_hard_counterexample","C25_hard_error"),"Proved for the analytic priors (every history, every value); false with hard bounds (error bound proved).")
c("C26","partial",ns("Priors","C26_sticks_partial","C26_counterexample"),"Proved for operations that do not change bounds/hyper-parameters; changing a bound brings the hard version back (counterexample).")
c("C60","proved",ns("AP","C60_geometric","C60_identity","C60_isotropic","C60_inverse","C60_injective"))
c("C61","proved",ns("AP","C61_once","C61_lock_restored","C61_dm_power","C61_threads_counterexample"),"Single-threaded evaluation, at any nesting depth and with exceptions; concurrent evaluations in two threads share the lock (counterexample).")
c("C62","proved",ns("Rsd","C62_population_sum","C62_weights","C62_fractions","C62_identical"))
c("C63","partial",ns("Rsd","C63_qso_formula","C63_qso_kmu","C63_qso_alpha_par","C63_qso_alpha_perp","C63_qso_b1","C63_qso_f","C63_qso_fnl","C63_qso_sigma8_partial","C63_qso_sigma8_counterexample","C63_qso_sigma_fog_partial","C63_qso_sigma_fog_counterexample","C63_gal_fs","C63_gal_fsB_partial","C63_gal_fcB_partial","C63_gal_NcBs_partial","C63_gal_NsBsB_partial","C63_gal_fso_partial","C63_gal_sigmaC_partial","C63_gal_sigmaSo_partial","C63_gal_alpha_par_partial","C63_gal_alpha_perp_partial","C63_gal_default","C63_gal_fsB_counterexample","C63_gal_drag_counterexample","C63_gal_noise_counterexample"),"Each galaxy derivative is proved correct exactly when the stated condition holds (iff); false in general for fsB, alpha_drag != 1 and N != 0 with the SO correction.")
c("C64","proved",ns("Rsd","C64_damping","C64_derivatives"))
c("C65","partial",ns("Rsd","C65_success_partial","C65_exceptions_partial","C65_history_partial","C65_exception_counterexample"),"False in full: an exception inside an evaluation skips the restore.")
c("C66","partial",ns("Rsd","C66_qso","C66_gal_counterexample","C66_gal_component"),"True for quasars; the galaxy model ignores N (proved for every model).")
c("C67","proved",ns("Params","C67_fcB","C67_b1_cB","C67_b1","C67_NcBs","C67_NsBsB","C67_dilations"))
c("C68","partial",ns("Grad","C68_total","C68_total_partial","C68_constraint_derivative","C68_gal_shipped","C68_rows","C68_failure","C68_central_limit","C68_central_exact","C68_indirect_counterexample","C68_theta_counterexample","C68_scalar_counterexample","C68_bound_counterexample"),"Exact error term proved (C68_total): model parameters reached only through other constrained ones are left out; never happens with the shipped galaxy constraints (C68_gal_shipped), does with a released b1_cB (counterexample). Wrong also for scalar k, mu and when theta is not the current point.")
c("C41","proved",ns("Units","C41_dimension","C41_same","C41_roundtrip","C41_invariants","C41_refused"))
c("C50","partial",ns("Window","C50_identity","C50_partial","C50_high_counterexample","C50_order_counterexample"),"Exact result without a window proved for every request; the identity holds for the multipoles 0,2,..,max_ellprime in this order; higher multipoles are deleted and other orders permuted (counterexamples).")
c("C51","proved",ns("Window","C51_coefficients","C51_accepts","C51_convolution","C51_linear"),"The convolved multipole is the multipole of the product of the two functions of mu (integral over mu), for every window and every even ell; the spline is linear in the tabulated values (contract of InterpolatedUnivariateSpline).")
c("C52","proved",ns("Transfers","C52_wedges","C52_disjoint","C52_mean","C52_includes_one","C52_poles","C52_one_k_counterexample","C52_alias_counterexample"),"Whenever a result is returned it is the weighted mean; a multipole transfer on a grid with a single k always fails, and the list of bounds of the caller is modified (counterexamples).")
c("C53","proved",ns("Transfers","C53_scatter","C53_roundtrip"))
c("C54","proved",ns("Quad","C54_combination","C54_weighting"))
c("C55","proved",ns("Quad","C55_simps_quadratic","C55_simps_cubic","C55_simps_even","C55_trapz","C55_linear","C55_poles","C55_poles_linear","C55_simps_error","C55_simps_error_even","C55_poles_error"),"Arrays of at least three points (shorter ones read out of bounds in C++).")
c("C70","partial",ns("Lbfgs","C70_decrease","C70_monotone","C70_terminates","C70_status","C70_max_iter_zero_counterexample","C70_stationary_counterexample","C70_ftol_counterexample"),"Decrease, termination and meaning of the status are proved for every run under the Armijo contract of the line search; max_iter=0 still does one iteration, a stationary start is reported as -4, and the documented relative tolerance differs for negative objectives (counterexamples).")
c("C71","proved",ns("Lbfgs","C71_two_loop","C71_history","C71_run","C71_first","C71_descent","C71_secant","C71_symmetric"))
c("C72","proved",ns("Solvers","C72_walkers"))
c("C73","partial",ns("Results","C73_request","C73_append_partial","C73_no_constrained_counterexample","C73_burnin_counterexample")+ns("Restart","C73_restart_partial","C73_restarts_partial","C73_restart_counterexample"),"Proved for whole restarts and any sequence of them (with re-ordered names and interrupted sampling) when there are constrained parameters and no sample is exactly zero; with no constrained parameters the concatenation fails, and the burn-in of the statistics is lost (counterexamples). The sampler itself (emcee) is not modelled.")
c("C74","partial",ns("Solvers","C74_messages","C74_precedence","C74_stops","C74_all_stop","C74_reported","C74_no_spurious","C74_deadlock_counterexample"),"Every interleaving of exceptions, deliveries and checks is covered; a chain waiting at the barrier of the convergence test is never released if another has left (counterexample).")
c("C75","proved",ns("Solvers","C75_partition","C75_balanced","C75_nonempty"))
c("C76","proved",ns("Solvers","C76_fresh","C76_history","C76_race_counterexample"),"Sequential calls, base name not ending in an extra underscore; two concurrent calls can choose the same name (counterexample).")
c("C77","partial",ns("Init","C77_prior","C77_scatter","C77_scatter_counterexample","C77_unchecked_counterexample","C77_univariate_partial","C77_univariate_in_bounds","C77_univariate_counterexample","C77_ball_partial","C77_ball_counterexample"),"The optimiser's drawing loops return only in-bounds points, for every random stream. Violations: without scatter the start is not checked; a negative coordinate makes scattering raise and a zero one is not scattered; the MCMC initialiser uses the 102nd attempt unchecked; the random ball is not checked. Proved for MCMC when one of the first 101 attempts of each walker is in bounds.")
c("C80","partial",ns("Results","C80_emcee_partial","C80_burnin_forgotten","C80_burnin_counterexample","C80_maxlnprob_counterexample","C80_lbfgs_partial","C80_lbfgs_counterexample"),"Traces are kept for every permutation; burn-in is forgotten, the best-fit dictionary of constrained parameters and the constrained values of LBFGS results are permuted wrongly (counterexamples).")
c("C81","partial",ns("Results","C81_partial","C81_peak_partial","C81_peak_counterexample"),"Median and intervals proved for every history; the peak is not refreshed when the burn-in changes (counterexample).")
c("C82","partial",ns("Results","C82_partial","C82_zero_counterexample"),"Proved for chains without exact zeros; zeros are dropped (counterexample).")
c("C83","partial",ns("Hzpt","C83_derivative_partial","C83_lowk_defect","C83_lowk_counterexample"),"Proved for k >= 0.005 without interpolation tables; below, the low-k approximation of P01 lacks the k^4 term, and the exact difference is proved. The FFTLog transform is a fixed linear map, the quadrature a homogeneous functional.")
c("C84","partial",ns("Hzpt","C84_history","C84_jennings","C84_zero_counterexample","C84_error_counterexample","C84_batch_counterexample"),"Proved for every history with positive sigma8 (real arithmetic). A zero sigma8 destroys the arrays silently; a raising setter leaves the collection changed; with tables, the value at k depends on the other k of the same call.")
c("C90","proved",ns("Interp","C90_linear","C90_nodes","C90_between","C90_exact","C90_domain","C90_fill","C90_constructor","C90_nearest","C90_fallback","C90_single_node_counterexample"),"Any dimension, any strictly ascending grid with at least two nodes per coordinate, finite points; a single-node coordinate is accepted by the constructor but cannot be interpolated (counterexample). Nearest-neighbour indexing as in numpy before 1.23.")
c("C09","partial",ns("Shipped","C09_shipped_partial","C09_exceptions_exact","C09_exceptions_dm","C09_exceptions_biased","C09_exceptions_qso","C09_galaxy_partial","C09_dm_partial","C09_stale_counterexample"),"Proved for all five shipped classes, for any code reading at most what the (machine-extracted) tables say, with the exact list of (attribute, parameter) pairs that are not covered: interpolate (dark-matter terms), use_tidal_bias (halo-matter terms), the b2_00_a/b2_01_a coefficients under 'vlah', the quasar total bias on redshift/cosmology, bias_to_sigma_relation, interpolation domains of P22_ss and the quasar P_mu6. The read sets are extracted from the source by tools/readsets.py (trusted, over-approximate).")
c("C93","proved",ns("PT","C93_integrand_sides","C93_second_order_kernels","C93_velocity_kernel","C93_vvdd_kernel","C93_dvdv_kernel","C93_vvvv_kernel","C93_vvdv_kernel","C93_product_kernels"),"Non-degenerate triangles (both sides positive); real arithmetic.")
c("C94","partial",ns("PT","C94_half_domain","C94_imn_coupling","C94_kmn_coupling","C94_oneCompute_coupling","C94_one_loop_22","C94_two_loop_split","C94_two_loop_32_counterexample"),"Exact quadrature and integrable integrands. False for the two-loop pair (3,2), whose linear and one-loop parts use another kernel than the cross part (counterexample).")
c("C95","proved",ns("PT","C95_sigmaR","C95_dark_matter","C95_biased"),"For any quadrature and splines that are homogeneous (the exact ones are); with real arithmetic.")
c("C97","proved",ns("PT","C97_exchange"),"Any numerics, any biasing functions and simulation fits.")
c("C98","partial",ns("PT","C98_mu0","C98_mu2","C98_mu4_partial","C98_mu6_partial","C98_mu4_exact_partial","C98_mu6_counterexample"),"Equal at mu0 and mu2 (with two-loop terms); at mu4 the tracers lack one term, at mu6 they lack the two-loop terms (exact differences proved). The mu6 dark-matter term without two-loop terms cannot be evaluated (counterexample).")
c("C102","proved",ns("PT","C102_growth"),"Any numerics; models and loaded data off.")
c("C103","partial",ns("PT","C103_halo_spectra","C103_no_tidal_partial","C103_tidal","C103_tidal_counterexample"),"True without tidal terms (the exact second-order difference is proved); with tidal bias the spectra differ at first order (exact difference and a concrete spectrum where it is nonzero).")
c("C96","proved",ns("PT","C96_dark_matter","C96_dark_matter_mu6","C96_biased","C96_sims_velocity"),"Perturbation theory (models off), any quadrature and splines through the nodes. For tracers the stochasticity is subtracted and velocity dispersions are those of linear theory; with simulated dispersions the velocity terms do not vanish in the limit (C96_sims_velocity).")
c("C104","proved",ns("PT","C104_density","C104_divergence","C104_cross","C104_momentum","C104_dispersion"),"For q < 60k (the exact branch of the code) and q != k; the SPT recursion is the specification (Spec/SPT.lean).")
c("C105","proved",ns("PT","C105_one_loop","C105_real_space"),"Exact quadrature and splines; linear spectra with power in a band inside the integration range (1e-5, 100], below 60k. Velocity dispersions beyond linear theory set to zero, as one-loop theory has none.")
c("C106","partial",ns("PT","C106_dark_matter_partial","C106_biased_partial","C106_mu6_counterexample","C106_biased_mu6_counterexample"),"Holds for P_mu0, P_mu2 and P_mu4; exact quadrature and splines, spectra with power in a band inside (1e-5, 10] and below 60k, k in the range of the splines; for tracers: perturbation theory for the halo-matter spectrum, stochasticity subtracted, one second-order bias in all terms (the three the code distinguishes at this order being equal), linear-theory velocity dispersion. False for P_mu6: the two-loop matter P_mu6 uses f23 where perturbation theory has f32 (ImnOneLoop.cpp, case 8), and that of tracers lacks the term -f^4 k^2 sigma^2 P; both proved.")
c("C99","proved",ns("PT","C99_asymptotic","C99_one_loop","C99_asymptotic_counterexample"),"Exact quadrature; linear spectra with power in a band inside (1e-5, 100]. Also proved: the terms of order r^-6 to r^-12 of five of the polynomials are not those of the expansion (the error is of order r^-6 at every r >= 60, where correct terms would leave r^-14); the effect is below 1e-11 and harmless.")
c("C100","partial",ns("NlBias","C100_read_partial","C100_vlah","C100_fits","C100_poly","C100_coefficient","C100_initial","C100_loop","C100_reject","C100_shorthand_counterexample","C100_defaults_counterexample","C100_stale_counterexample","C100_documentation_counterexample"),"Proved except: a bias mapped to another that is a polynomial is served stale when coefficients of that one change; the shorthands b2_00=... and b2_01=... always raise ValueError (the dict is copied before they are taken out). Also proved: nonlinear_bias_defaults only has the last bias; b2_00_b and b2_00_c are used in each other's place compared to their documentation; loops of mappings exhaust the stack.")
c("C101","partial",ns("Cosmo","C101_window","C101_normalised","C101_normalised_fits","C101_normalised_ex","C101_pickle","C101_pickle_ex","C101_sigma8_kept","C101_amplitude","C101_normed_lin","C101_sigma_window_counterexample","C101_normalize_counterexample","C101_sigma8_lost_counterexample","C101_update_ignored_counterexample","C101_update_pickle_counterexample","C101_from_power_counterexample","C101_from_power_ex","C101_to_class_counterexample","C101_arrays_counterexample","C101_normed_nw_counterexample","C101_normed_nw_ex"),"The normalisation is proved for every history that does not call NormalizeTransferFunction directly (for which it fails), with the exact integral in place of the quadrature. Copies are proved equal for all transfer functions but FromArrays. The rest is false of the code, and proved so: update with another transfer function than that of CLASS changes nothing; a change of the transfer function, update, clone(tf) and the copy constructor forget SetSigma8; the no-wiggle spectrum is therefore off by the squared ratio of the two sigma8; from_power ignores the power spectrum; objects from it cannot be copied.")
c("C107","proved",ns("Cosmo","C107_noWiggle","C107_bbks","C107_spline","C107_physical","C107_eisensteinHu"),"For CLASS, the spline is assumed to be continuous and to interpolate the ends of its table; C108_class proves it of the spline of the library.")
c("C108","proved",ns("Spline","C108_lookup","C108_outside","C108_linear","C108_linear_derivative","C108_linear_error","C108_shifted","C108_cubic","C108_cubic_exact","C108_cubic_linear","C108_class","C108_natural_counterexample"),"Real arithmetic. The header calls the cubic spline natural; it is not (C108_natural_counterexample): the end conditions match the cubics through the first and last four points.")
c("C109","proved",ns("SplineRef","C109_refcount","C109_no_leak"),"One thread; the counts are not atomic.")
c("C110","partial",ns("Xi","C110_bessel","C110_pk_to_xi","C110_xi_to_pk","C110_correlation","C110_kaiser","C110_kaiser_bias_counterexample"),"The method FFTLog: C111. For arguments of the Bessel functions below 10^-4 the transforms are not exact (C110_bessel bounds the difference). False of the code: Kaiser::P_s ignores the bias (C110_kaiser_bias_counterexample).")
c("C111","proved",ns("FFTLog","C111_padding","C111_interp_exists","C111_interp_unique","C111_P2xi","C111_xi2P","C111_grid_back","C111_setup","C111_default_length","C111_lowring","C111_round_trip","C111_window","C111_round_trip_padded","C111_krgood_near","C111_krgood_real","C111_fortran_back","C111_xi_fftlog","C111_method_fftlog","C111_method_fftlog_table"),"Odd multipoles (complex prefactors) and the other kernels of mcfit are not modelled. The method FFTLog returns zero outside its own separations (last clause of C111_method_fftlog).")
c("C112","partial",ns("WinTransfer","C112_grid","C112_no_window","C112_no_window_bound","C112_slip_one","C112_slip_counterexample","C112_no_window_counterexample","C112_window"),"False of the code at the defaults: the separations of the last multipole are used for all, but with lowring they differ from multipole to multipole by about one step (C112_slip_counterexample), so that the other multipoles come out multiplied by a constant (C112_no_window_counterexample). Not modelled: the interpolation to k_out.")
c("C113","partial",ns("Bcast","C113_paired","C113_grid","C113_flat","C113_point","C113_returns_iff","C113_labels","C113_labels_flat","C113_qso_grid","C113_multipole","C113_multipole_error","C113_monopole_polynomial","C113_single_counterexample","C113_scalar_counterexample","C113_labels_counterexample","C113_positional_counterexample","C113_qso_counterexample","C113_multipole_counterexample","C113_monopole_length_counterexample"),"Proved for all accepted arguments. False of the code: one mu with several k (documented) or one k with several mu is refused, for quasars even flattened; a two-dimensional k that varies along a row is mislabelled; the flag by position is refused; the multipole methods refuse one k; with 41 k they use an even number of points, so the monopole at a k depends on how many k are asked for.")
c("C114","partial",ns("HaloBias","C114_tinker_decreasing","C114_tinker_unique","C114_mass_sound","C114_mass","C114_mass_increasing","C114_mass_normalisation","C114_mass_refused","C114_table_node","C114_table_between","C114_table_outside","C114_sigmav_increasing","C114_fallback_unused","C114_fallback_clamp","C114_mass_from_bias_sound","C114_sigma_from_bias","C114_stale","C114_low_bias_counterexample","C114_evrard_units_counterexample","C114_stale_counterexample","C114_overdensity_counterexample","C114_name_error_counterexample","C114_silent_zero_counterexample"),"Proved for the root finder and at the nodes of the table. False of the code: below one the bias does not determine the mass; the table is never recomputed when the cosmology changes and ignores delta_halo; a failed node raises a NameError in the handler; the default dispersion is in Mpc and not Mpc/h; any failure at an ordinary bias silently gives a vanishing dispersion. The error of the table between nodes is only bounded by the corners; the spline of Sigma is an arbitrary function.")
c("C115","partial",ns("Converge","C115_value","C115_gelman_rubin","C115_lower","C115_units","C115_order","C115_samples","C115_none_iff","C115_test","C115_sound","C115_single","C115_schedule","C115_restart","C115_restart_data","C115_first_chain_counterexample","C115_python3_counterexample","C115_tolerance_counterexample","C115_zero_counterexample"),"Proved with Python 2 and no sampled value exactly zero; against the published formula the within-chain variances are divided by n instead of n-1. False of the code: with Python 3 the test always raises TypeError (a float in a slice); a sampled zero makes it fail; for a tolerance below 1/(2n) identical chains are not converged; with chains of different lengths the result depends on which file comes first.")
c("C116","partial",ns("Analysis","C116_samples_partial","C116_covar_partial","C116_convergence_partial","C116_steps","C116_combined_partial","C116_bestfit_partial","C116_minimum","C116_succeeds","C116_case","C116_table_partial","C116_mcmc_table_partial","C116_rescaling","C116_rescaling_limit","C116_thin_counterexample","C116_no_constrained_counterexample","C116_stale_counterexample","C116_order_counterexample","C116_minimum_counterexample","C116_table_counterexample","C116_mcmc_table_counterexample","C116_rescaling_counterexample"),"Proved when the free names of the first file are in alphabetical order (as the solver writes them) and, for the combined result and the best fit, when one file is given or at least two chains have samples that count. False of the code: thinning always raises IndexError; no constrained parameters: always an error; if only one of several chains has anything that counts, the combined result keeps its burn-in and the best fit is read at a wrong place; the number reported as minimum of -lnL (and the reduced chi-squared) is an average over the walkers; the two-sigma columns gt/lt are exchanged, and in from_mcmc lt_2sigma is the lower end; with no mocks given, rescaling shrinks the errors. Which files are loaded, plots and latex output are not modelled.")
c("C117","partial",ns("Contour","C117_level_partial","C117_order_partial","C117_case","C117_panels_partial","C117_every_panel","C117_peak_counterexample","C117_equal_counterexample","C117_transposed_counterexample","C117_scale_counterexample"),"Levels proved when no single bin holds the fraction; panels when every figure lists its parameters in one common order and the scales are one. False of the code: when the largest bin alone holds the fraction the level is the smallest count (hist[-0]) and the levels are not increasing; levels can coincide (contourf refuses them); a second figure that lists a pair in the opposite order shows the histogram of the first transposed; the row parameter's trace is not divided by its scale. Drawing itself (matplotlib), numpy's histogram2d and the one-dimensional plots are not modelled.")
c("C118","partial",ns("DataFile","C118_names","C118_names_value","C118_written","C118_reads","C118_roundtrip","C118_precision","C118_second_roundtrip","C118_grid","C118_restrict","C118_case","C118_digits_counterexample","C118_first_counterexample","C118_stale_counterexample","C118_missing_counterexample"),"Round trip proved for measurements of one kind and length, all or none with errors. False of the code: only six digits are written, so a bin just beyond a limit can come back within it; the columns are those of the first measurement, so errors of the others are dropped if it has none; its list of columns is remembered, so errors set later are not written; a first measurement with errors and another without cannot be written. Text encoding of numbers is modelled by rounding to six digits (19 digits of grids: exact); nan in measurement files is not modelled.")
c("C119","proved",ns("Hzpt","C119_series","C119_dispersion","C119_displacement","C119_displacement_near","C119_variance","C119_spectrum","C119_transform","C119_case"),"The adaptive quadratures are exact; FFTLog is a quadrature of the Hankel integral over the mesh (C119_spectrum) or any linear transform, whose error then appears explicitly (C119_transform). The bound for the orders above 15 and for arguments below 1e-4 is explicit. Below k = 0.005 the perturbative expressions are used (C83).")
c("C120","partial",ns("Hzpt","C120_fourier","C120_shipped_dm","C120_shipped_hm","C120_history","C120_refused","C120_power","C120_case","C120_large_counterexample"),"Proved for all constants with R > 0, R1h^4 > 4 R2h^4 and no double pole, which the shipped constants meet for sigma8 in [0.001, 1.6] (dark matter), [0.1, 1.6] and b1 >= 1 (halos). False of the code beyond: from sigma8 = 2.4 on the dark matter correlation function is NaN. The FFTLog transform of the Zel'dovich term is any function.")
c("C121","partial",ns("Cache","C121_model","C121_load","C121_version_counterexample")+ns("Hzpt","C121_collection_partial","C121_unused","C121_case","C121_lowk_counterexample","C121_table_counterexample","C121_single_partial","C121_cf","C121_cf_counterexample","C121_linear","C121_kaiser_partial","C121_kaiser_counterexample"),"Proved in full for the parameter framework. False of the code for the compiled objects: Zel'dovich spectra that had been used lose the low-k approximation when saved, and tables made afterwards keep it so; loaded correlation functions use the normalisation of the cosmology instead of sigma8_z; a Kaiser object forgets its growth rate; a LinearPS made without a redshift cannot be loaded; models without a version raise instead of warning. Proved: everything at wavenumbers from 0.005 h/Mpc on, spectra not used before saving, and tables made before.")
c("C122","partial",ns("GK","C122_adaptive_partial","C122_rejects","C122_history","C122_swap","C122_accuracy","C122_point","C122_polynomials","C122_estimate","C122_cautious","C122_exp","C122_inverse","C122_nosub","C122_limit_counterexample"),"Everything but the report of a full workspace, which the code never makes: an integration that reaches the limit of 8192 intervals returns as if it had converged (C122_limit_counterexample). Real arithmetic.")
c("C123","partial",ns("Workspaces","C123_exclusive","C123_reuse","C123_leak_counterexample","C123_race_counterexample"),"Proved for integrands that do not throw, with acquisition and release as single steps. False of the code otherwise: an exception keeps the workspace forever, and the release is not in the critical section of the acquisition.")
c("C124","partial",ns("GM","C124_adaptive","C124_evaluations","C124_polynomials","C124_accuracy","C124_axis","C124_zero_counterexample","C124_reversed_counterexample"),"Everything but the sign for reversed limits, which is false of the code (the loop over the corners ends after one): C124_reversed_counterexample. Also shown: an integral that vanishes uses ten million evaluations if only a relative tolerance is given. Real arithmetic.")
c("C125","partial",ns("PFile","C125_round_trip","C125_stable","C125_merge","C125_merge_again","C125_equals_counterexample","C125_backslash_counterexample","C125_hash_counterexample","C125_empty_dict_counterexample","C125_tag_counterexample","C125_assign_counterexample","C125_override_counterexample","C125_bound_counterexample","C125_remove_counterexample"),"Round trip, stability and merging are proved for every run whose values have texts of one field (hypothesis Writable; PFile.Example.run_writable is a run that meets it). False of the code beyond that: a value whose text has =, # or a backslash is refused, cut or lost; an empty dictionary becomes None; a tag is matched as a suffix; an assignment after a $(variable) value is not written; giving only a bound in a file changes the value and fixes the parameter; a file cannot remove a prior or a bound. Evaluation and repr of values are parameters of the model.")
c("C126","partial",ns("Setup","C126_arguments","C126_no_parameters","C126_accepted","C126_ranks_agree","C126_all_start","C126_alone","C126_again","C126_race_counterexample","C126_hang_counterexample","C126_lost_counterexample","C126_interrupted_counterexample","C126_model_counterexample")+ns("Start","C126_best_result","C126_named_result","C126_start_from_file","C126_iterations","C126_search_counterexample","C126_directory_counterexample","C126_nan_counterexample","C126_defaults_counterexample","C126_prior_counterexample"),"Proved: which files are used; for new folders agreement of all ranks, completion and no deadlock under every interleaving, and that the file given is never changed; for old folders the same with one process; starting from a result file; iterations. False of the code: in a folder with a params.dat rank 0 rewrites it while others read it (different parameters, or a hang), and a kill can empty it; an interrupted first start leaves a partial params.dat that the next start prefers to the file given; a model made in such a folder is not saved; a start result that is searched for is not used; parameter files relying on the defaults of lbfgs_options or init_from cannot be minimised or restarted. Adding one section to a file is one step.")
c("C127","partial",ns("SmoothWedge","C127_mean","C127_single","C127_unordered","C127_flat","C127_linear","C127_partition","C127_accuracy","C127_converges","C127_bias","C127_setBounds","C127_bias_counterexample","C127_empty_counterexample","C127_alias_counterexample","C127_setBounds_counterexample","C127_unreachable_counterexample","C127_example"),"Proved: the result is the mean over the samples of the bin, for all powers, bins and numbers of samples; error bounds, convergence. False of the code: a power linear in mu is off by half a spacing in every bin but the last; a bin between two samples is nan; the list of bounds is changed, and a second transfer from it gets other centres; bounds assigned later keep the old centres; the fitting code cannot find the class in the package, so wedges without a grid file cannot be fitted.")
c("C128","partial",ns("CosmoDict","C128_given","C128_masses","C128_flat","C128_key_is_attribute","C128_copy","C128_pickle","C128_from_astropy","C128_clone","C128_clone_amplitude","C128_equality","C128_equal","C128_copy_equal","C128_different","C128_class","C128_class_neutrinos","C128_class_flat","C128_no_baryons","C128_read_only","C128_curvature_counterexample","C128_pickle_counterexample","C128_clone_flat_counterexample","C128_w0wa_counterexample","C128_extra_counterexample","C128_read_only_counterexample","C128_none_counterexample","C128_symmetric_counterexample","C128_transitive_counterexample","C128_ne_counterexample","C128_ne_pickle_counterexample","C128_neutrinos_counterexample"),"Proved for every history of constructions. False of the code: an unpickled (or deep-copied) flat cosmology has the entry Ode0 = 0.69 of the default one; clone(flat=...) changes nothing; from_astropy loses the change of the equation of state (wa) and refuses the extra parameters it documents; `!=` is that of dict and raises for an object and its copy with two neutrinos or more, or says that they differ; `==` is neither symmetric nor transitive and raises for Ob0 = None; update() and assignment to an attribute get around the read-only dictionary; the curvature is not given to CLASS; more than three massive neutrinos raise IndexError. Not modelled: units, the functions of astropy, exact decimal arithmetic is used.")
c("C129","partial",ns("SimFit","C129_value","C129_defined","C129_unique","C129_least","C129_through","C129_close","C129_smooth","C129_points_scalar","C129_points_array","C129_points_positional","C129_points_refused","C129_points_none","C129_number","C129_table","C129_set","C129_units_dependent","C129_units_independent","C129_rows","C129_fresh_partial","C129_new_table","C129_assigned","C129_not_noticed_counterexample","C129_renamed_counterexample","C129_stale_counterexample"),"Proved for every table. False of the code: once a call has succeeded, assigning theta, use_errors or dependent changes no result, and new names of the independent columns only rename the old ones (gp declares data, kernel and solver, and x, y, yerr declare data); proved for all objects, with a table of two rows where a new object gives other values. The last sentence is proved for histories without these assignments, and after any history once a new table is assigned. The solver of george is exact algebra; an empty list of independent variables is not modelled.")
c("C130","partial",ns("SimSpectra","C130_make","C130_inside","C130_fiducial","C130_domain","C130_array","C130_scaling","C130_assign_partial","C130_outside","C130_edge_counterexample","C130_linear_counterexample","C130_redshift_counterexample","C130_jennings","C130_early","C130_today","C130_exception_counterexample","C130_negative_counterexample"),"Proved for all tables. False of the code: beyond the redshifts of the tables the amplitude is the redshift itself, so f and sigma8 do not enter and the spectrum jumps at the edge (unless (f sigma8)^2 is the last redshift); an assigned linear spectrum is not checked to be at redshift 0 and is normalised with the sigma8 of the first; an exception inside the fitted spectra leaves the model with the sigma8 of today; the fitted velocity auto spectrum today is negative exactly where the matter spectrum is below (12480.5/1.824)^(2/3).")
c("C131","partial",ns("GaussCov","C131_coordinates","C131_box_partial","C131_survey_partial","C131_shells","C131_limit_box","C131_limit_survey","C131_isotropic","C131_constant","C131_weights","C131_box_definite","C131_survey_definite","C131_repeated","C131_empty_counterexample","C131_line_counterexample","C131_line_example"),"False of the code: if there are as many wavenumbers as angles (101 with the default Nmu) the power is used point by point and the covariance over the modes is the same at all wavenumbers; if one redshift shell contains no objects all elements of the survey matrix are 0. Not modelled: fewer than two wavenumbers, Nmu = 0 (squeezed axes); an xarray spectrum in the box version. The version for wedges always raises NameError (numpy is imported as np) and is not modelled.")
c("C132","partial",ns("Labels","C132_nearest","C132_select","C132_block_partial","C132_label_rows","C132_enumerate","C132_correlation_partial","C132_close","C132_order_counterexample","C132_block_counterexample","C132_wavenumbers_counterexample","C132_correlation_counterexample"),"Proved for all inputs except: False of the code: a block with as many rows as columns that is not symmetric loses its lower triangle (the result is forced into a covariance object); with coordinates that are not in lexicographic order, or wavenumbers that differ between the statistics, looking up is a ValueError; a matrix that is allclose to its correlation matrix is returned as it is. Not modelled: the base class with one label per axis, label slices with a step, empty lists of values.")
c("C133","partial",ns("Png","C133_growth_equation","C133_matter","C133_early","C133_normalisation","C133_alpha","C133_total_growth","C133_bias","C133_large_scales","C133_alone_counterexample"),"Proved with exact integrals, on the wavenumbers from which the splines are made. False of the code: with ignore_cache the factor alpha depends on the other wavenumbers asked for. Not modelled: the values of the splines between their wavenumbers and the errors of the quadrature; the growth D of CLASS is a number.")
c("C134","partial",ns("Apply","C134_load","C134_fit_partial","C134_fiducial","C134_fiducial_missing","C134_apply_partial","C134_analytic","C134_start_partial","C134_out_of_bounds_counterexample","C134_apply_counterexample","C134_burnin_counterexample","C134_start_counterexample"),"False of the code: values outside the bounds are dropped silently, so that the parameters stay what they were and apply evaluates the function at the values of the file before; a file whose names are in another order than the theory loses its burn-in; a run from a result with a parameter that has no value anywhere starts from nan, because has_fiducial is compared to None. numpy's percentile, argmax and the peak finder are contracts.")
c("C135","partial",ns("InterpDomain","C135_range","C135_power_partial","C135_maxMu","C135_nodes","C135_observed","C135_derivative","C135_ignore_cache","C135_observed_counterexample","C135_derivative_counterexample","C135_nan_counterexample","C135_ignore_derivative_counterexample"),"False of the code: kmin and kmax are documented as limits of the observed wavenumbers, and the wavenumbers as following the dilations, which they do not; derivative_k extrapolates silently where power is an error; the spectrum at nan is 0; with ignore_cache the derivative is dropped. scipy's spline is a contract, shown to be satisfiable.")
c("C136","partial",ns("Loaded","C136_never_stale_partial","C136_source","C136_block_partial","C136_spt_partial","C136_reload_counterexample","C136_exception_counterexample","C136_nested_counterexample","C136_swallowed_counterexample"),"False of the code: loading a table over another one of the same term leaves what was computed from the old one in the cache, because the flag does not change; a block left by an exception leaves its tables; an inner block unloads the tables of the outer one; use_spt swallows every exception raised inside it.")
c("C137","partial",ns("Emu","C137_accept_partial","C137_value","C137_value_cmb","C137_weights","C137_covered","C137_range_partial","C137_distance","C137_hubble_partial","C137_exit_counterexample","C137_array_counterexample","C137_nan_counterexample","C137_unbracketed_counterexample","C137_hit_counterexample"),"False of the code: an equation of state of -0.7 or a sigma_8 of 0.9, both documented as allowed, end the Python process, because the emulator computes its own limits in doubles; nan as a redshift is accepted and gives nan; an empty array is an exception and nan as a wavenumber undefined; the bisection for the Hubble parameter of the CMB returns 1 without a word if there is none in its interval, or if it hits it exactly. The quadrature of the distance is an argument of the model.")
c("C138","partial",ns("BestFit","C138_round_trip_partial","C138_compare_partial","C138_compare_labels_partial","C138_nlopt_counterexample","C138_append_counterexample","C138_meta_counterexample","C138_compare_dropped_counterexample","C138_compare_same_name_counterexample","C138_compare_label_counterexample","C138_compare_zero_counterexample"),"False of the code: the table of every fit with nlopt is read with the names as best-fit values and the values as medians, because empty cells vanish; a table without attributes is appended to what is in the file; truth values among the attributes are read as true, texts as their first word, None is an error; a parameter that the first fit does not have is not compared; two fits of the same name show the second; parameters without a LaTeX name lose their label once another one has one, and the tables of the caller are changed; as many parameters as data points is an error. How numbers are written, and LaTeX output, are not modelled.")
c("C139","partial",ns("RunEnd","C139_never_lost","C139_others","C139_saved","C139_saved_nlopt_partial","C139_replaced","C139_log_partial","C139_log_lost_counterexample","C139_old_log_counterexample","C139_exit_counterexample","C139_twice_counterexample","C139_name_counterexample"),"False of the code: a run in which the solver raises, or LBFGS ends with an error, leaves no log and no trace of the exception, nor does one that restarts a file whose log is not found; the exit status is 0 whatever happened; after ctrl+c in a restarted chain the old steps are on the disk twice; if no name can be made for the results they are not kept; a run killed when it saves leaves an empty results file.")
c("C140","partial",ns("TheoryVec","C140_window_partial","C140_window_order","C140_window_same_bins","C140_window_high","C140_grid_partial","C140_grid_specific","C140_smooth_partial","C140_selection_smooth","C140_wedges","C140_order_counterexample","C140_specific_counterexample","C140_ranges_counterexample"),"False of the code: wedges never yield a theory (their bounds are looked up among the centres, proved for all data sets); a proper selection of statistics always raises without window and grid, and with a window it raises or not depending on the order of a set; multipoles above max_ellprime raise; a grid and parameters of one statistic exclude each other; with a selection, parameters of one statistic are used for another. Proved where it holds: one group, in the order of the file or on common bins. Theory decorators are not modelled.")
c("C141","partial",ns("LoadCov","C141_columns_partial","C141_file","C141_no_errors","C141_refused","C141_rescaled_counterexample","C141_small_counterexample","C141_other_bins_counterexample","C141_swapped_counterexample"),"Proved from the file to the trimmed covariance and error bars, for all fitting ranges, without mocks (with mocks: C15). False of the code: a covariance made of error columns is rescaled but the error bars are not; rescalings of small elements are dropped; a covariance file for other bins, or with the statistics in another order, is accepted if its size is right; missing errors give a TypeError.")
c("C142","partial",ns("UpdateFid","C142_fiducials_partial","C142_dependency_order","C142_values_partial","C142_ends","C142_case","C142_missing_counterexample","C142_not_prepared_counterexample","C142_trace_counterexample","C142_stale_fiducial_counterexample"),"Proved for constraints whose constrained dependencies are flat, and for fiducials at any depth when the dictionary is in dependency order. False of the code otherwise: three levels of constraints keep the fiducial as value afterwards, or the value as fiducial; a parameter without a fiducial counts as infinite, so a ratio gets the fiducial 0; an unprepared set raises and is left at the fiducials. Fiducials out of the bounds of a free parameter and expressions that raise are not covered.")
c("C143","partial",ns("ChainCorr","C143_columns_partial","C143_asked","C143_tex_names","C143_pairs","C143_missing_iff","C143_correlation","C143_affine","C143_case","C143_constrained_counterexample","C143_label_counterexample"),"Proved for all chains over the reals. False of the code: asking for the constrained parameters of a fit without any gives the free ones; parameters given the same label share one column and the first is lost. pandas' corr, unstack and sort_values are modelled from their documentation; samples are finite.")
c("C144","partial",ns("FitPlot","C144_static","C144_colours","C144_made_iff","C144_residuals","C144_norm_monopole","C144_norm_positive","C144_plotly_partial","C144_plotly_counterexample","C144_eight_counterexample"),"Proved for the static plot and the residuals. False of the interactive plot of wedges: the data are offset, the theory is not. More than seven statistics cannot be plotted with the default palette. Labels, axes and titles are not modelled; that the combined model is the concatenation of the predictions is C33/C140.")
c("C145","partial",ns("SetModel","C145_set","C145_range","C145_others","C145_refused_partial","C145_create","C145_set_live","C145_fit","C145_new_history","C145_gradient_partial","C145_gradient_first","C145_asked","C145_case","C145_gradient_counterexample","C145_asked_counterexample","C145_wrong_file_counterexample","C145_shared_counterexample"),"Proved for all files, ranges, models and histories: class, options, the rest, the range of k (min and max of what the data and the file ask), the parameters of the fit, independence of the history for a new model, all other models untouched. False of the code, with proofs: once a gradient has been taken it stays that of the model of that time (the gradient object is kept); constraints go on asking the first model for velocity dispersions; a file with a model of another class raises only after it was assigned, and then predictions and parameters are of two models; a model that is handed over is narrowed to the data's range, so two fits with one model break each other.")
c("C146","partial",ns("Plot1D","C146_range","C146_ticks","C146_one_bin","C146_weights","C146_histogram","C146_curve","C146_few","C146_offset","C146_likelihood","C146_figures","C146_drawn","C146_case","C146_mean_counterexample","C146_units_counterexample","C146_file_counterexample","C146_fiducial_counterexample"),"Proved for all samples and figures: own samples in every panel (dictionaries kept by name), bins, height, range, ticks (at least two, at least ten bins), invariance of the likelihood curve. False of the code, with proofs: boundaries and fiducials are drawn unscaled on a scaled axis; the .hist file of a posterior holds the likelihood curve by default; the mean likelihood is a sum, not a mean. The cubic interpolation is any interpolation through its knots; labels, titles and colours are not modelled.")
c("C147","partial",ns("Extrapolate","C147_accepted","C147_mu_grid","C147_refused_iff","C147_one_function","C147_history","C147_continuous","C147_positive","C147_exact_low","C147_exact_high","C147_poles","C147_correlation","C147_default_counterexample","C147_function_counterexample","C147_changed_model_counterexample","C147_poles_orders_counterexample","C147_poles_paired_counterexample"),"Proved for all models, limits and histories without a change of the model: one function, the model inside, power laws with the model's end values outside, continuity, sign, exactness for power laws (at the mu of the grid, when the end is an end of the grid), multipoles and correlation function. False of the code, with proofs: the documented default limits are always refused; model_func is ignored and `Pgal` called, which no model of the package has, so the class and SmoothedXiMultipoles never work with them; after a change of the model the old slopes are kept; with as many orders as wavenumbers, or as many wavenumbers as mu, to_poles returns something else. The least-squares fit, the spline and the transform are parameters with stated contracts.")
c("C148","partial",ns("Trace","C148_bins","C148_density","C148_cdf","C148_anywhere","C148_draw_partial","C148_grid_partial","C148_median","C148_limits","C148_loc_scale","C148_order","C148_units","C148_tails_counterexample","C148_draw_counterexample","C148_grid_counterexample","C148_list_counterexample","C148_few_counterexample"),"Proved for all chains: bins, density, cumulative distribution at and between the centres, limits, order, units; draws and grids when no random number or level is below the mass of the first bin. False of the code, with proofs: outside of the samples the density is a positive constant and the cumulative distribution does not go to zero; for every chain, random numbers below the mass of the first bin make draw raise a ValueError, and so does grid with as many points as samples; a list of samples is accepted but only has limits; with fewer than four bins (always with two samples) nothing can be drawn.")
c("C149","partial",ns("PlotNames","C149_order","C149_power","C149_integer","C149_decimals","C149_figures1","C149_figures2_partial","C149_parameters","C149_no_error_partial","C149_history_partial","C149_label_counterexample","C149_figures2_counterexample","C149_twice_counterexample","C149_missing_counterexample"),"Proved for all names, choices, groups and scales: the figures, the entries, the labels of powers of ten and of integers below 1000, the order of magnitude in the label of every positive factor, and that parameters no analysis scales keep their labels. False of the code, with proofs: other factors lose their digits (a half is labelled as a tenth, 2000 as 1000, 2.5 as 2, 0.96 with an empty exponent), a name that begins with a digit changes the exponent; one group of two-dimensional figures is a TypeError, and a parameter of two groups is on the figure twice; a second analysis in one process has the factor twice in the label, because the dictionary of the package is changed; a missing latex name is an error after others have been changed.")
c("C150","partial",ns("ConvPoles","C150_accepts","C150_convolved","C150_dry","C150_linear","C150_no_window","C150_grid","C150_high_counterexample","C150_order_counterexample"),"Proved for the default branch, for all arrays, windows and orders: exactly what is accepted, the value at every wavenumber in terms of the spherical Bessel functions, the trapezoidal rule and multipoles of a product of functions of the direction (arguments of the Bessel functions at least 1e-4), the dry run, linearity, the grid, and that a window that is 1 is a dry run if the multipoles are 0, 2, ..., max_ellprime in this order. False of the code, with proofs: otherwise a window that is 1 deletes a multipole above max_ellprime, and exchanges multipoles given in another order. The branch legacy=False is not modelled here (its transforms are, see C111 and C112).")
c("C151","proved",ns("Params","C151_schema","C151_names","C151_derived","C151_dilations","C151_dilations_exist","C151_model","C151_defaults"),"Proved for all classes of defaults (the registry) and, for the quasar defaults, for all histories of assignments inside the bounds and of reads, all bounds and choices of what varies. Real numbers in place of doubles, and positive dilations (a negative one would give a complex cube root in Python)")
c("C152","partial",ns("Opts","C152_accepted","C152_values","C152_defaults","C152_nlopt","C152_mcmc","C152_default_params","C152_restart","C152_nlopt_default_counterexample","C152_mcmc_default_counterexample","C152_shared_counterexample","C152_late_counterexample"),"Proved for all files, values and orders: what is accepted, the values of the options, `default_params`, and that the solvers use the values of the driver where the file gives them (and, without the file, wherever the solver has the same default). False of the code, with counterexamples: without `lbfgs_options` or `init_from` in the file `nlopt` raises a KeyError; without `init_from` or `burnin` the sampler uses the prior and 100 where the driver says fiducial and 0; the restart of a driver without `lbfgs_options` changes the default of all other drivers; an option set on the driver after it is made is not used by the solver nor saved")
c("C153","partial",ns("Nb","C153_traces_partial","C153_traces_refused","C153_samples","C153_area","C153_hist_partial","C153_hist_refused","C153_contours","C153_kde","C153_labels_partial","C153_shared_default","C153_triangle_partial","C153_triangle_default","C153_triangle_refused","C153_hist_hidden","C153_one_walker_more","C153_flat","C153_curve"),"Proved for all results: what every panel shows, the area of the bars, the labels (in any sequence of calls that share the default dictionary), the place of every panel of the triangle. False of the code, proved: one walker more than max_walkers is drawn (C153_one_walker_more); with bins wider than 200000 all bars have height zero, as heights are rounded to five decimals (C153_flat); the curve runs over all samples exactly if none is negative (C153_curve); the caller's dictionary gains the two parameters (C153_labels_partial); the histograms of the triangle are not thinned (C153_triangle_partial)")
json.dump({"claims":C},open('/verif/MANIFEST.json','w'),indent=1)
print(len(C))
