#!/usr/bin/env python3
"""Writes /verif/properties.jsonl from the table below (one source of truth for ids)."""
import json
P=[]
def p(id,title,statement,quantifier,why,anchors):
    P.append(dict(id=id,title=title,statement=statement,quantifier=quantifier,why_tests_cant=why,anchors=anchors))

p("C01","Cached attributes are never stale",
  "On any model object built on the caching base class, after any history of parameter assignments, attribute reads and deletions of cached attributes, reading an attribute returns exactly what a brand-new object holding the same parameter values would return (same value or same error).",
  "every schema of parameters/cached attributes whose method bodies read only what they declare and whose attribute-valued parameter defaults are covered by declarations (see C92 for the rest), every history of set/get/delete-cached operations",
  "the history and the dependency graph are unbounded; a stale read needs a particular interleaving of reads and writes",
  ["pyRSD/rsd/_cache.py: CacheSchema, parameter, cached_property, interpolated_function"])
p("C02","Cache invalidation is exact",
  "Assigning a parameter drops a cached attribute if and only if that attribute depends on the parameter through some chain of declared parents; attributes that do not depend on it keep their cached value, and re-assigning an equal scalar drops nothing.",
  "every acyclic schema, every object state, every parameter",
  "requires reasoning over all dependency graphs (transitive closure)",
  ["pyRSD/rsd/_cache.py: CacheSchema.__init__.invert_cachemap, parameter._set_property, obj_eq"])
p("C03","A reading taken inside `preserve()` does not survive it",
  "After leaving `with model.preserve(): ...` every parameter has the value (or unset status) it had before, and every attribute read gives what it would have given had the block never run.",
  "every schema, every sequence of operations performed inside the block, every prior state",
  "arbitrary code may run in the block",
  ["pyRSD/rsd/power/dm/power_dm.py: DarkMatterSpectrum.preserve"])
p("C04","Deleting a parameter invalidates what was computed from it",
  "After `del model.param`, reading an attribute that depends on the parameter behaves as on an object where the parameter was never set.",
  "every schema, every state",
  "needs a read between set and delete on some dependency path",
  ["pyRSD/rsd/_cache.py: ParameterProperty, parameter._del_property"])
p("C05","An assigned parameter reads back",
  "After `obj.p = v`, `obj.p` is the (validated) value v.",
  "all values, scalar or array, and all previous values",
  "the new value may be within numpy.allclose of the old one",
  ["pyRSD/rsd/_cache.py: obj_eq, parameter._set_property, _get_property"])
p("C06","Cache overrides leave no trace",
  "After leaving `with model.cache_override(...)`, every attribute reads as if the override had never been active.",
  "every schema, every set of overridden attributes, every sequence of reads inside the block",
  "depends on what was read inside the block and on the dependency graph",
  ["pyRSD/rsd/power/biased/power_biased.py: BiasedSpectrum.cache_override", "pyRSD/rsd/_cache.py: cached_property._get_property"])
p("C07","The least-recently-used function cache is transparent and bounded",
  "A function wrapped by `lru_cache(maxsize)` returns, for every call in every call history, what the bare function returns; the number of stored results never exceeds maxsize, hits+misses equals the number of successful calls, the entry evicted is the least recently used one, and a re-call of any of the last maxsize distinct keys is a hit.",
  "every pure function, every maxsize (including 0 and unbounded), every call history",
  "unbounded histories",
  ["pyRSD/extern/backports/lru_cache.py: lru_cache"])
p("C08","The evaluation memo is transparent",
  "Inside `with model.use_cache()`, term evaluations return what they would return outside it; on leaving, also by an exception, memoisation is off and nothing is kept.",
  "every sequence of evaluations, parameter changes, nested contexts and exceptions",
  "needs a parameter change between two evaluations at equal (k, mu) inside the context",
  ["pyRSD/rsd/tools.py: cacheable, cache_on, cache_off, get_hash_key", "pyRSD/rsd/power/dm/power_dm.py: use_cache"])
p("C09","Declared parents of the shipped models cover what they read",
  "In the shipped spectrum classes every cached attribute declares (directly or transitively) every parameter that the code computing it reads, so that after any history of assignments, reads and deletions every attribute reads as on a brand-new model with the same parameter values.",
  "every cached attribute of the dark-matter, biased, halo, galaxy and quasar spectrum classes, every parameter, every history",
  "a missing declaration is invisible unless the one parameter is changed after the one attribute was read",
  ["pyRSD/rsd/power/qso/power_qso.py", "pyRSD/rsd/power/biased/power_biased.py", "pyRSD/rsd/power/dm/power_dm.py"])

p("C10","Covariance matrices store and return every element faithfully",
  "For every symmetric N x N input, the covariance object (which stores only the upper triangle) returns the input element for every pair of indices, in either order and with Python negative indices; out-of-range indices raise IndexError; the reconstructed full matrix equals the input.",
  "all N, all symmetric matrices, all integer index pairs",
  "the triangular index arithmetic must be right for every N, i, j",
  ["pyRSD/rsdfit/data/covariance_matrix.py: condensed_to_full, CovarianceMatrix._get_contracted_index, _setup, __getitem__, values"])
p("C11","Saving a covariance matrix to plain text and loading it returns the same matrix",
  "For every covariance object, writing it with to_plaintext and reading the file with from_plaintext returns an object with the same elements, coordinates, metadata attributes and inverse rescaling.",
  "all sizes, contents, coordinates and attribute dictionaries",
  "all sizes (including one row) and attribute types",
  ["pyRSD/rsdfit/data/covariance_matrix.py: to_plaintext, from_plaintext, __write_attrs__, __read_attrs__"])
p("C12","Trimming a covariance keeps exactly the bins inside the limits",
  "Trimming to per-statistic k-limits keeps exactly the rows/columns whose (statistic, k) lies within the inclusive limits, in the original order, with element (a,b) of the result being the original element of the kept bins a, b, and the coordinates trimmed in lockstep.",
  "all coordinate grids, all limits, all matrices",
  "all limits and orders of bins",
  ["pyRSD/rsdfit/data/covariance_matrix.py: trim_k (Pkmu and Pole)"])
p("C13","Covariance arithmetic is elementwise arithmetic",
  "For +, -, *, / with a scalar or another covariance matrix, element (i,j) of the result is the operation applied to the elements, on either side of the operator.",
  "all matrices, scalars, operators and operand orders",
  "all values; the reflected operators are the untested half",
  ["pyRSD/rsdfit/data/covariance_matrix.py: __add__, __radd__, __sub__, __rsub__, __mul__, __rmul__, __div__, __rdiv__"])
p("C14","Selecting a sub-block of a covariance returns that sub-block",
  "Selecting rows I and columns J (by label or position) returns the block C[I,J].",
  "all matrices and all index sets, including square blocks with I different from J",
  "only square off-diagonal blocks with an asymmetric content fail",
  ["pyRSD/rsdfit/data/covariance_matrix.py: sel, isel, __getitem__"])
p("C15","The Hartlap correction survives until it is used",
  "After the inverse covariance has been rescaled for N_sim mocks, chi2 uses the inverse rescaled by (Ns-nb-2)/(Ns-1), whatever k-limits are set before or after; errors are rescaled by the inverse square root.",
  "all Ns, nb, limits and orders of operations",
  "order of operations",
  ["pyRSD/rsdfit/data/power_measurement.py: rescale_inverse_covar, set_k_limits, kmin/kmax setters", "pyRSD/rsdfit/data/covariance_matrix.py: inverse, __construct_direct__"])

p("C20","Log-prior and hard bounds agree",
  "A parameter's log-prior is minus infinity exactly when its value is outside its (inclusive) min/max bounds or outside a uniform prior's support; otherwise it is the log of the prior density; `within_bounds` says the same.",
  "all values including +-inf and nan, all bounds (unset, finite, inverted) and priors",
  "boundary values and all combinations",
  ["pyRSD/rsdfit/parameters/parameter.py: lnprior, within_bounds", "pyRSD/rsdfit/parameters/distributions.py: BoundDistribution, Uniform, Normal"])
p("C21","Scaling of the fit parameters is an invertible affine map with the right Jacobian",
  "`inverse_scale(scale(theta)) = theta`, `scale(inverse_scale(x)) = x`, and `scale_gradient` is the gradient of the objective in scaled coordinates, for every differentiable objective.",
  "all parameter sets with proper priors (sigma>0, upper>lower), all theta, all objectives",
  "all values and all objectives",
  ["pyRSD/rsdfit/theory/base.py: scale, inverse_scale, scale_gradient", "pyRSD/rsdfit/parameters/parameter.py: scale, loc", "pyRSD/rsdfit/solvers/objectives.py"])
p("C22","Setting the free parameters is all-or-nothing",
  "`set_free_parameters(theta)` returns True and leaves every free parameter at its entry of theta, or returns False and changes nothing at all; it returns True exactly when every entry is within its parameter's bounds.",
  "all parameter sets, thetas and prior states",
  "all combinations of violating entries",
  ["pyRSD/rsdfit/theory/base.py: BasePowerParameters.set_free_parameters"])
p("C23","Constrained parameters always reflect the current free parameters",
  "After any history of updates and reads, reading a constrained parameter returns its expression evaluated at the current values of the parameters it depends on, at any depth of constraints.",
  "all acyclic constraint systems, all histories of updates and reads, all read orders",
  "needs chains of constraints and a particular read order",
  ["pyRSD/rsdfit/parameters/parameterset.py: SmartSymTable, prepare_params, update_values", "pyRSD/rsdfit/parameters/parameter.py: _getval, value setter"])
p("C24","Variable substitution in parameter files is exact",
  "Strings without '$' are unchanged; every `$name` / `$(name)` is replaced by the variable's value and all other text is kept; a trailing '$' and an unmatched '(' are errors.",
  "all strings and all variable tables",
  "all strings",
  ["pyRSD/rsdfit/parameters/tools.py: replace_vars"])
p("C25","Prior gradients are the derivatives of the log-priors",
  "The reported derivative of the log-prior is the derivative of the reported log-prior (smooth bounds and normal priors) at every point.",
  "all parameters values and prior hyper-parameters",
  "all reals",
  ["pyRSD/rsdfit/parameters/distributions.py: BoundDistribution.deriv_log_pdf, Normal.deriv_log_pdf, Uniform.deriv_log_pdf", "pyRSD/rsdfit/parameters/parameter.py: dlnprior"])
p("C26","Switching priors to analytic approximations sticks",
  "Once `analytic` is switched on, log-prior evaluations use the smooth approximation until it is switched off.",
  "all histories of changes to bounds, prior hyper-parameters and the flag",
  "histories",
  ["pyRSD/rsdfit/parameters/parameter.py: analytic, min_bound, max_bound, prior"])

p("C30","The posterior evaluated by the driver depends only on theta",
  "`lnprob(theta)` and `minus_lnlike(theta)` return the same value whatever was evaluated before, -inf/penalised values for out-of-bounds theta, and an out-of-bounds evaluation leaves the parameters as they were.",
  "all theta, all histories of evaluations",
  "histories",
  ["pyRSD/rsdfit/driver.py: lnprob, minus_lnlike", "pyRSD/rsdfit/theory/base.py: preserve, set_free_parameters"])
p("C31","chi2 and lnlike at theta are evaluated at theta",
  "`driver.chi2(theta)` / `lnlike(theta)` is the chi-squared at theta or an error/penalty.",
  "all theta including out-of-bounds, all prior states",
  "only out-of-bounds theta after another evaluation",
  ["pyRSD/rsdfit/driver.py: chi2, lnlike"])
p("C32","The numerical gradient is taken at theta and leaves no trace",
  "`grad_minus_lnlike(theta, numerical_from_lnlike=True)` equals the central difference of the objective at theta (including priors at theta), and the driver's parameters are at theta afterwards.",
  "all objectives, thetas and step sizes",
  "state left behind by the last evaluation",
  ["pyRSD/rsdfit/driver.py: grad_minus_lnlike"])
p("C33","Theory and data vectors are aligned bin by bin",
  "Entry i of the theory vector is the theory prediction for the statistic and bin of entry i of the data vector; the slices returned for each statistic partition the vector.",
  "all lists of statistics, sizes, statistic-specific parameter assignments",
  "orderings of statistics",
  ["pyRSD/rsdfit/driver.py: _get_theory_callables, data_model_pairs", "pyRSD/rsdfit/theory/base.py: get_kmu_pairs, apply_transfers", "pyRSD/rsdfit/data/power_measurement.py: flat_slices, combined_power"])
p("C34","The Fisher matrix is symmetric and reduces correctly",
  "The Fisher matrix is symmetric, equals J C^-1 J^T plus the prior precision on the diagonal; fixing parameters deletes exactly their rows and columns.",
  "all Jacobians, precision matrices and sets of fixed parameters",
  "all sizes",
  ["pyRSD/rsdfit/driver.py: fisher, marginalized_errors"])

p("C35","The gradient given to the minimiser is the gradient of its objective",
  "`grad_minus_lnlike(theta)` is the gradient of `minus_lnlike` at theta (with or without priors), in the interior of the bounds and, for the penalised objective, outside; after any history of evaluations.",
  "all differentiable predictions, data, symmetric inverse covariances, priors, thetas, histories",
  "a derivative at all points and for all models",
  ["pyRSD/rsdfit/driver.py: grad_minus_lnlike, minus_lnlike"])

p("C40","Changing k-limits is consistent across a data set and reversible",
  "After any sequence of k-limit changes, each measurement exposes exactly the bins within its current inclusive limits, with k, mu, power, error and modes masked identically, and the covariance has exactly those bins.",
  "all sequences of limit changes",
  "sequences (narrow, then widen)",
  ["pyRSD/rsdfit/data/power_measurement.py: PowerMeasurement, PowerData.kmin/kmax, set_k_limits"])
p("C41","Unit conversions are consistent",
  "Converting absolute->relative->absolute (or back) is the identity for every quantity kind and h != 0; converting to the same units is the identity; k*distance is unit-independent and power scales as volume.",
  "all kinds, unit pairs, h",
  "all h",
  ["pyRSD/rsdfit/data/tools.py: h_conversion_factor"])
p("C42","Selecting statistics keeps data, labels and covariance aligned",
  "After selecting a subset of statistics, measurement i, its label i and covariance block i refer to the same statistic.",
  "all selections in any order",
  "selection order",
  ["pyRSD/rsdfit/data/power_measurement.py: PowerData.slice_data, set_errors_from_cov"])

p("C43","Error bars taken from a covariance matrix are those of the right bins",
  "After loading a covariance matrix, the error of bin j of statistic i is the square root of the diagonal element of that very bin.",
  "all numbers of statistics and bins, all matrices",
  "index arithmetic for all sizes",
  ["pyRSD/rsdfit/data/power_measurement.py: PowerData.set_errors_from_cov"])

p("C50","A trivial survey window does nothing",
  "With window multipoles W_0 = 1 and W_l = 0 (l>0), and for separations outside the tabulated window range, the convolution returns each input multipole unchanged.",
  "all multipoles, separations, number of window multipoles",
  "all multipoles",
  ["pyRSD/rsd/window.py: WindowConvolution, get_coefficients"])
p("C51","Window convolution is linear and its coefficients are the Legendre product coefficients",
  "The convolution is linear in the input multipoles, and the coefficients used for L_l L_l' are those of the Legendre product expansion (positive, summing to one before reweighting).",
  "all even multipoles",
  "all multipoles",
  ["pyRSD/rsd/window.py: G, get_coefficients, WindowConvolution.__call__"])
p("C52","Binned averages are weighted means",
  "For the gridded wedge/multipole transfers, the result in a bin is the modes-weighted mean over that bin's valid grid cells: constants are reproduced, results lie between min and max of inputs, every valid cell within the limits contributes to exactly one bin, and invalid cells to none.",
  "all grids, bin edges and modes",
  "all grids",
  ["pyRSD/rsd/transfers/grid.py", "pyRSD/rsd/transfers/__init__.py"])
p("C53","Flatten/unflatten of the (k,mu) grid is lossless",
  "Evaluating the model on the flattened valid grid points and scattering back puts each value at the cell it was computed for; invalid cells are never read.",
  "all grids and masks",
  "all masks",
  ["pyRSD/rsd/transfers/__init__.py: TransferBase, PkmuGrid"])
p("C54","Systematics-free combination",
  "systematic_free_P0 of two poles is P0 + 2/5 P2 bin by bin, keeps the number of bins and is refused for any other number of poles; as a function of the power it weights mu by 3 mu^2, so contamination at mu = 0 does not enter.",
  "all pairs of pole arrays, all integrable powers",
  "an identity over all functions of mu",
  ["pyRSD/rsdfit/theory/decorators.py: systematic_free_P0"])
p("C55","Discrete quadrature and the continuous multipole transfer are exact on low-degree powers",
  "Simpson's rule on an odd number of points is exact for quadratics at any spacing and for cubics at equal spacing, on an even number for affine functions; the trapezoid rule for affine ones; both are linear. The multipole transfer always uses an odd number of mu points, is linear in the power, and returns (2l+1) int_0^1 L_l P dmu with the exact Simpson error for integrands of degree four. For integrands with a fourth derivative at most M the error is at most M h^4/180 times the length (with an even number of points, h^3/12 times a bound on the second derivative more).",
  "all numbers of points, spacings, coefficients, powers",
  "all point sets and polynomials",
  ["pyRSD/_gcl/cpp/DiscreteQuad.cpp: SimpsIntegrate, TrapzIntegrate", "pyRSD/rsd/transfers/poles.py: MultipoleTransfer"])

p("C60","The Alcock-Paczynski mapping is the geometric one and invertible",
  "(k, mu) observed maps to (k', mu') with k'mu' = k mu/alpha_par and k'^2(1-mu'^2) = k^2(1-mu^2)/alpha_perp^2, mu' stays in [-1,1] and applying the inverse dilations undoes it; with alpha_par=alpha_perp=1 it is the identity.",
  "all k>0, mu in [-1,1], alphas>0",
  "all reals; the code has a special case at F=1",
  ["pyRSD/rsd/tools.py: k_AP, mu_AP"])
p("C61","AP distortion and volume rescaling are applied exactly once",
  "However deeply AP-decorated methods call each other, the observed coordinates are remapped once and the result is rescaled once by alpha_drag^3/(alpha_perp^2 alpha_par); the lock is released on exceptions.",
  "all call trees of decorated methods, all exceptions",
  "all call trees",
  ["pyRSD/rsd/tools.py: alcock_paczynski", "pyRSD/rsd/__init__.py: APLock"])
p("C62","The galaxy power is the population-weighted sum of its parts",
  "GalaxySpectrum.power equals the sum over the central/satellite type pairs with weights given by the population fractions (which sum to one), so if all sub-populations are identical the result is the single-population spectrum; the model parameters are unchanged by an evaluation.",
  "all fractions, biases, dispersions, amplitudes",
  "all reals",
  ["pyRSD/rsd/power/gal/*"])
p("C63","Analytic model derivatives are the true partial derivatives",
  "For every parameter with a registered analytic derivative, the value returned is the partial derivative of `power(k,mu)` with respect to that parameter.",
  "all parameter values, k, mu, FOG kernels, with/without SO correction",
  "all reals; missing terms vanish at the default test configuration",
  ["pyRSD/rsd/power/gal/derivatives/*", "pyRSD/rsd/power/qso/derivatives/*"])
p("C64","Finger-of-god kernels damp, never amplify",
  "Each kernel is 1 at zero, in (0,1], even, non-increasing in |k mu sigma|, and its reported derivatives are the true ones.",
  "all real arguments, all kernels",
  "all reals",
  ["pyRSD/rsd/power/gal/fog_kernels.py"])
p("C65","Temporary parameter changes inside an evaluation are undone",
  "The contexts that zero the shot noise, zero sigma_c or set tracer biases restore the previous values on exit, also when the enclosed evaluation raises.",
  "all nestings and all exceptions",
  "exceptions inside",
  ["pyRSD/rsd/power/gal/__init__.py: ZeroShotNoise", "pyRSD/rsd/power/gal/Pcc/__init__.py: SOCorrection", "pyRSD/rsd/power/gal/core.py: TwoHaloTerm.set_biases"])
p("C66","The shot-noise offset parameter N offsets the model",
  "Adding a constant to N adds the (AP-rescaled) constant to power(k,mu).",
  "all N, k, mu",
  "all reals",
  ["pyRSD/rsd/power/gal/__init__.py: Pgal", "pyRSD/rsd/power/qso/power_qso.py: power"])
p("C67","Default parameter constraints encode the halo-occupation identities",
  "The default constraint expressions satisfy the identities they encode: total biases are number-weighted means, mean satellite/central relations, alpha/epsilon/F_AP are equivalent to (alpha_par, alpha_perp).",
  "all admissible parameter values",
  "all reals",
  ["pyRSD/rsdfit/theory/gal_defaults.py"])
p("C68","The gradient of the power is the gradient along the free parameters, constraints included",
  "Row i of the gradient of power(k,mu) is the derivative of the power along the i-th free parameter at theta, taking into account every model parameter that changes with it through the constraints; parameters without an analytic derivative get the central difference with their own step; the parameters are at theta afterwards.",
  "all constraint systems, free parameters, differentiable models, thetas, steps and failures",
  "chains of constraints; state left behind",
  ["pyRSD/rsd/power/gradient.py: compute, PkmuGradient", "pyRSD/rsdfit/parameters/parameterset.py: constraint_derivative, prepare_params"])


p("C70","The optimiser never accepts a worse point",
  "With a line search satisfying its contract, the sequence of accepted objective values in an LBFGS run is non-increasing, the run stops after at most max_iter iterations, and the returned status says why it stopped.",
  "all objectives, starting points, options",
  "unbounded runs",
  ["pyRSD/rsdfit/solvers/lbfgs.py: minimize, check_convergence"])
p("C71","The LBFGS step is the limited-memory BFGS inverse-Hessian product",
  "The two-loop recursion computes H*g where H is the BFGS update of the initial diagonal by the stored pairs; with positive curvature pairs the step is a descent direction, and only the most recent M pairs are used.",
  "all histories, dimensions, M",
  "all histories",
  ["pyRSD/rsdfit/solvers/lbfgs.py: compute_LBFGS_step, LimitedMemoryInverseHessian.update"])
p("C72","Ensemble size is always admissible",
  "The number of walkers used is even, at least twice the number of free parameters and is the requested number whenever that was admissible.",
  "all requested walker counts and dimensions",
  "all integers",
  ["pyRSD/rsdfit/solvers/emcee_solver.py: run"])
p("C73","Restarting a chain continues it",
  "A restarted run of n further iterations yields a chain whose prefix is the old chain and whose length is old + n, starting at the last positions.",
  "all chains and iteration counts",
  "all counts",
  ["pyRSD/rsdfit/solvers/emcee_solver.py: run", "pyRSD/rsdfit/results/emcee_results.py: __add__", "pyRSD/rsdfit/driver.py: set_restart"])
p("C74","Coordinated shutdown of parallel chains",
  "When one chain stops with an exception every other chain is sent exactly one message by it, telling it to stop, and stops at its next check; exit requests take precedence over convergence; user errors are reported, convergence is not an error.",
  "all numbers of chains, all interleavings of stop reasons",
  "interleavings",
  ["pyRSD/rsdfit/solvers/emcee_solver.py: ChainManager"])
p("C75","MPI ranks are partitioned into balanced pools",
  "Splitting N ranks into C chunks yields C consecutive, disjoint groups covering all ranks, with sizes differing by at most one; all non-empty iff C <= N.",
  "all N, C>0",
  "all integers",
  ["pyRSD/rsdfit/util/mpi_manager.py: split_ranks"])
p("C76","Result files never overwrite one another",
  "The output file name chosen does not exist in the folder and its number is larger than that of every matching file.",
  "all folder contents",
  "all folder contents",
  ["pyRSD/rsdfit/util/rsd_io.py: create_output_file"])
p("C77","Initial walker positions are in bounds",
  "Every initial position produced by drawing from priors or scattering about a point lies within all parameter bounds, or an error is raised.",
  "all random streams",
  "all random outcomes",
  ["pyRSD/rsdfit/solvers/tools.py", "pyRSD/rsdfit/solvers/lbfgs_solver.py"])

p("C80","Re-ordering results keeps values attached to names",
  "After re-ordering the parameters of a result object, looking up any free or constrained parameter by name gives the same value/trace as before.",
  "all permutations of names",
  "all permutations",
  ["pyRSD/rsdfit/results/emcee_results.py: verify_param_ordering", "pyRSD/rsdfit/results/lbfgs_results.py: verify_param_ordering"])
p("C81","Summary statistics of a chain follow the burn-in",
  "After changing the burn-in, every reported statistic (median, intervals, peak) is that of the chain with the new burn-in removed.",
  "all chains, burn-ins and histories of reads",
  "histories",
  ["pyRSD/rsdfit/results/emcee_results.py: EmceeParameter.burnin, median, peak"])
p("C82","Loading a saved chain recovers it",
  "The flat/trace views and the recovery of the sampled part of a chain return the sampled values in order.",
  "all chains including exact zeros",
  "exact zeros",
  ["pyRSD/rsdfit/results/emcee_results.py: EmceeResults.__init__"])

p("C83","HZPT P01 is the ln a derivative of P00",
  "At a growth rate f, the density-momentum spectrum of the Halo-Zel'dovich model equals the derivative of the density spectrum along any growth history of sigma8 with logarithmic rate f.",
  "all wavenumbers, sigma8, f, cosmologies, growth histories",
  "a derivative at every point",
  ["pyRSD/rsd/hzpt/P01.py: broadband, dA0_dlna", "pyRSD/rsd/hzpt/__init__.py: HaloZeldovichBase.broadband", "pyRSD/_gcl/cpp/ZeldovichPS.cpp: ZeldovichP00, ZeldovichP01"])
p("C84","HZPT spectra depend only on the current parameters",
  "After any sequence of parameter changes, interpolation toggles and evaluations, each Halo-Zel'dovich spectrum equals that of a new collection with the current parameters.",
  "all histories",
  "all histories",
  ["pyRSD/rsd/hzpt/interpolated.py: InterpolatedHZPTModels", "pyRSD/_gcl/cpp/ZeldovichPS.cpp: SetSigma8AtZ", "pyRSD/rsd/power/dm/power_dm.py: Pdv_jennings"])

p("C90","Grid interpolation reproduces the table and stays inside it",
  "Linear interpolation on a regular grid returns the tabulated value at grid points, lies between the corner values of the enclosing cell, is exact for multilinear functions, and raises outside the domain when asked to.",
  "all strictly ascending grids, all tables, all points, any dimension",
  "all grids and points",
  ["pyRSD/rsd/_interpolate.py: RegularGridInterpolator"])
p("C92","A parameter that defaults to another attribute follows it",
  "When a parameter with an attribute-valued default is unset, everything computed from it is refreshed when the attribute it defaults to changes.",
  "every schema with attribute-valued defaults, every history",
  "needs a read through the default before the change",
  ["pyRSD/rsd/_cache.py: parameter._get_property", "pyRSD/rsd/power/dm/power_dm.py: sigma_v"])
p("C93","The perturbation-theory kernels are those of the theory",
  "For every triangle of wave vectors, the second-order kernels of the integrals are the standard F2, G2 and S2 of that triangle, and the velocity kernels are the averages over the azimuth of the line of sight of the products of line-of-sight velocities they stand for.",
  "all triangles, all directions of the line of sight",
  "identities of functions of three variables, with an integral over the azimuth",
  ["pyRSD/_gcl/cpp/Imn.cpp: f00..f33", "pyRSD/_gcl/cpp/Kmn.cpp: F2, G2, S2, k00..k20s_b", "pyRSD/_gcl/cpp/ImnOneLoop.cpp: h01..h04, f23, f32, f33"])
p("C94","The perturbation-theory integrals cover all triangles once",
  "With exact quadrature, every Imn, Kmn and two-loop integral equals the mode-coupling integral of its kernel over all triangles with a side k, including those computed over half of the domain, and the parts that are added with powers of the normalisation make up the integral of the normalised spectra.",
  "all spectra for which the integral converges, all wavenumbers below the cutoff, all index pairs",
  "equality of integrals for every spectrum",
  ["pyRSD/_gcl/cpp/Imn.cpp: Imn::Evaluate, ComputeIntegral", "pyRSD/_gcl/cpp/Kmn.cpp: Kmn::Evaluate, ComputeIntegral", "pyRSD/_gcl/cpp/ImnOneLoop.cpp: EvaluateLinear, EvaluateCross, EvaluateOneLoop"])
p("C95","The input amplitude does not matter",
  "Multiplying the input linear spectrum by any positive factor (and its sigma8 by the square root) changes no term of the dark-matter and biased spectra at a given sigma8(z).",
  "all spectra, all positive factors, all parameters, any linear quadrature and interpolation",
  "all spectra and amplitudes",
  ["pyRSD/rsd/pt_integrals.py", "pyRSD/rsd/power/dm/*.py", "pyRSD/rsd/power/biased/*.py", "pyRSD/rsd/power/dm/power_dm.py: _power_norm"])
p("C97","The cross spectrum is symmetric",
  "Exchanging the biases of the two tracers of a cross-spectrum changes nothing.",
  "all biases, all options",
  "all pairs of biases and all options",
  ["pyRSD/rsd/power/biased/power_biased.py: b1, b1_bar, P_mu0..P_mu6", "pyRSD/rsd/power/biased/*.py"])
p("C98","Unbiased tracers have the spectrum of the matter",
  "With unit biases, no nonlinear bias and no stochasticity, the biased spectrum equals the dark-matter spectrum at every power of mu.",
  "all spectra and cosmological parameters",
  "equality of two implementations at every input",
  ["pyRSD/rsd/power/biased/*.py", "pyRSD/rsd/power/dm/*.py"])
p("C102","P01 is the growth derivative of P00 in perturbation theory",
  "Along any growth history with logarithmic rate f, the density-momentum spectrum of perturbation theory is the derivative of the density spectrum with respect to ln a.",
  "all spectra, wavenumbers, growth histories",
  "a derivative at every point",
  ["pyRSD/rsd/power/dm/P00.py", "pyRSD/rsd/power/dm/P01.py"])
p("C103","The halo spectra of the different terms are consistent",
  "The halo spectrum used in the mu^0 term and the one used in the velocity terms agree to first order in the nonlinear biases, including the tidal bias.",
  "all spectra, all biases",
  "all spectra and biases",
  ["pyRSD/rsd/power/biased/P00.py: P00_no_stoch_mu0, Phh_mu0", "pyRSD/rsd/power/biased/power_biased.py: Phm, Phm_bar"])
p("C96","Small fluctuations give the Kaiser spectrum",
  "In perturbation theory, as the amplitude of the fluctuations goes to zero, the spectrum divided by the linear one goes to (1+f mu^2)^2 for the matter and (b1+f mu^2)(b1_bar+f mu^2) for tracers, in every direction.",
  "all linear spectra, wavenumbers, directions, biases, with one or two loops",
  "a limit for every input",
  ["pyRSD/rsd/power/dm/*.py", "pyRSD/rsd/power/biased/*.py"])
p("C104","The third-order kernels are those of standard perturbation theory",
  "Each closed-form kernel of the J integrals is the average, over the directions of the internal mode q (and the azimuth of the line of sight), of the third-order contribution it stands for: the third-order density F3(k,q,-q), the third-order divergence G3(k,q,-q), their mean, the momentum of a linear and a second-order mode, and the product of a linear and a second-order velocity (coefficients of 1 and mu^2).",
  "all wavenumbers k and q with q != k and q < 60k, all directions",
  "an identity between a rational-logarithmic expression and an integral, for every ratio",
  ["pyRSD/_gcl/cpp/Jmn.cpp: g00 ... g20"])
p("C105","Without two-loop terms the matter spectrum is that of one-loop perturbation theory in redshift space",
  "With models and two-loop terms off, P_mu0 + mu^2 P_mu2 + mu^4 P_mu4 plus the remaining mu^6 and mu^8 terms equals P11 + P13 + P22 of the redshift-space density expanded to third order, with the Z1, Z2, Z3 kernels derived from the fluid recursion; and Pdd, Pdv, Pvv are the one-loop density and velocity spectra in real space (-f for each velocity).",
  "all band-limited linear spectra, wavenumbers k (in the range of the spline for Pdd, Pdv, Pvv), directions mu, growth rates",
  "an identity between sums of integrals for every spectrum and wavenumber",
  ["pyRSD/rsd/power/dm/*.py", "pyRSD/rsd/power/dm/power_dm.py: P_mu0, P_mu2, P_mu4, Pdd, Pdv, Pvv", "pyRSD/rsd/pt_integrals.py", "pyRSD/_gcl/cpp/Imn.cpp", "pyRSD/_gcl/cpp/Jmn.cpp", "pyRSD/_gcl/cpp/OneLoopPS.cpp"])
p("C106","To second order in the linear spectrum the spectra are those of one-loop perturbation theory, also for tracers and with two-loop terms",
  "Reducing the amplitude of the fluctuations, the part of P_mu0, P_mu2, P_mu4 and P_mu6 of second order in the linear spectrum is, power by power of mu, one-loop perturbation theory in redshift space: for matter (two-loop terms on or off), and for two tracers with linear, second-order and tidal bias moving with the matter.",
  "all band-limited linear spectra, wavenumbers, growth rates, linear biases and second-order bias functions, tidal bias on or off",
  "a limit at every input, of sums of integrals",
  ["pyRSD/rsd/power/dm/*.py", "pyRSD/rsd/power/biased/*.py", "pyRSD/rsd/pt_integrals.py", "pyRSD/_gcl/cpp/Kmn.cpp", "pyRSD/_gcl/cpp/ImnOneLoop.cpp", "pyRSD/_gcl/cpp/Imn.cpp"])
p("C99","The asymptotic branches of the third-order kernels do not change the spectra",
  "Beyond q = 60k the code replaces the exact kernels of the J integrals by polynomials in (k/q)^2. Each is within 1/(100 r^6) of the exact kernel (g10: 1/(5000 r^12)), r = q/k, and the matter spectrum without two-loop terms is that of one-loop perturbation theory up to 4e-12 (1+|f|)^4 k^2 sigma_v^2 times the linear spectrum, whatever the range of the linear spectrum.",
  "all r >= 60; all band-limited linear spectra, wavenumbers, directions, growth rates",
  "a bound on a difference of functions at every r of an unbounded range, and of integrals over them",
  ["pyRSD/_gcl/cpp/Jmn.cpp: g00 ... g20", "pyRSD/rsd/power/dm/*.py"])
p("C100","The nonlinear bias functions are those asked for",
  "After any history of assignments, updates and reads, reading one of the six nonlinear biases gives what its type asks for: the simulation fit, the polynomial in the coefficients set last, or the function of the bias it is mapped to; use_vlah_biasing=True makes all b2_00 (and all b2_01) one function, False makes each its own fit; an unknown name is refused with nothing changed; a keyword b2_00 or b2_01 sets all of its kind.",
  "all histories of operations, all coefficients, all types (mappings in any combination)",
  "all histories, with caches in between",
  ["pyRSD/rsd/nonlinear_biasing.py: NonlinearBiasingMixin", "pyRSD/rsd/_cache.py: cached_property, parameter"])
p("C101","The cosmology object keeps its normalisation and its parameters",
  "After any history of SetSigma8, changes of the transfer function, updates, pickling, cloning and copying, the linear power spectrum at redshift z has the rms fluctuation in 8 Mpc/h spheres that Sigma8_z(z) reports; a copy is the same as the original, including the sigma8 that was set; an update of the parameters changes what is computed; from_power gives the power spectrum it was given; the normalised linear and no-wiggle spectra of the dark matter model have the sigma8_z that was asked for.",
  "all histories of operations, all results of CLASS, all parameters and tables",
  "all histories; integrals over all transfer functions",
  ["pyRSD/_gcl/cpp/Cosmology.cpp: Cosmology", "pyRSD/pygcl.py: Cosmology", "pyRSD/rsd/cosmology.py: Cosmology.to_class", "pyRSD/_gcl/cpp/LinearPS.cpp", "pyRSD/rsd/power/dm/power_dm.py: normed_power_lin, normed_power_lin_nw"])
p("C107","The transfer functions are physical",
  "The no-wiggle and BBKS fits are between zero and one and continuous, all fits tend to one on large scales, and the transfer function of CLASS is continued beyond its table without a jump.",
  "all wavenumbers, all physical parameters",
  "continuum of parameters and wavenumbers; limits",
  ["pyRSD/_gcl/cpp/Cosmology.cpp: GetNoWiggleTransfer, GetBBKSTransfer, GetEisensteinHuTransfer, GetSplineTransfer, SetEisensteinHuParameters"])
p("C108","The splines go through their tables and are as smooth as they say",
  "Evaluating a spline ends, for every increasing table and every argument; outside the domain it is zero. The linear spline is the chord between neighbours, and on a table of a function with second derivative at most M and spacing at most h is within M h^2/8 of it. The shifted linear spline goes through a uniform table. The cubic spline goes through its table, is twice continuously differentiable with EvaluateDerivative its derivative, reproduces cubic polynomials, depends linearly on the data, and on nothing that was in memory. With it the transfer function of CLASS is continuous and has the tabulated values.",
  "all tables of any length and spacing, all arguments, all initial contents of memory",
  "unbounded tables, continuum of arguments, derivatives",
  ["pyRSD/_gcl/cpp/Spline.cpp: BinaryLookup, LinearSplineImpl, ShiftedLinearSplineImpl, CubicSplineImpl, Spline::Evaluate, Spline::EvaluateDerivative", "pyRSD/_gcl/cpp/Cosmology.cpp: Initialize, GetSplineTransfer"])
p("C109","Spline objects can be copied, assigned and dropped in any order",
  "In any program that uses its Spline variables during their lives, no implementation is used or deleted after it was deleted, none is deleted while a variable holds it, and none is left when no variable holds it.",
  "all sequences of constructions, copies, assignments (to itself too), evaluations and destructions",
  "all histories",
  ["pyRSD/_gcl/cpp/Spline.cpp: Spline", "pyRSD/_gcl/include/Spline.h: SplineImpl"])
p("C110","Correlation functions are the Fourier transforms of power spectra",
  "The spherical Bessel functions the library takes are those of the order asked for. The multipoles that pk_to_xi gives sum, in every direction, to the Fourier transform of the smoothed sum of the multipoles of the power spectrum, by the rule that was asked for; xi_to_pk is the transform back; CorrelationFunction gives the monopole. P_ell of Kaiser are the multipoles of the linear spectrum in redshift space of a tracer with the bias.",
  "all tables of k and P, all sets of even multipoles up to the eighth, all separations and directions, all smoothing lengths, biases and growth rates",
  "continuum of arguments; integrals",
  ["pyRSD/_gcl/cpp/SpecialFunctions.cpp: SphericalBesselJ0..J8", "pyRSD/_gcl/cpp/CorrelationFunction.cpp: ComputeXiLM, pk_to_xi, xi_to_pk, CorrelationFunction", "pyRSD/_gcl/cpp/Kaiser.cpp: P_s, P_ell"])
p("C111","Logarithmic Fourier transforms are exact and can be undone",
  "Every number that P2xi and xi2P return is exactly the multipole of the correlation function, or of the power spectrum, of the log-periodic function through the padded samples, at the separation or wavenumber returned with it; the same holds of the method FFTLog of pk_to_xi on its own grid. A second transform comes back to the grid of the first, and, at the default tilt with lowring, to its values: exactly without padding, and otherwise up to what lies outside the window. The padding is zeros or the power law through the last two samples; the Fortran transform is its own inverse.",
  "all samples, log-spaced grids, lengths, tilts, even multipoles, paddings, smoothing lengths",
  "continuum of arguments; improper integrals; arrays of any length",
  ["pyRSD/extern/mcfit/mcfit.py: mcfit", "pyRSD/extern/mcfit/kernels.py: Mellin_SphericalBesselJ", "pyRSD/extern/mcfit/cosmology.py: P2xi, xi2P", "pyRSD/_gcl/extern/fftlog/fftlog.f: fhti, fhtq, fht, krgood", "pyRSD/_gcl/cpp/CorrelationFunction.cpp: ComputeXiLM_fftlog, ComputeXiLM"])
p("C112","The survey window acts on the multipoles and nothing else does",
  "WindowFunctionTransfer takes the multipoles to configuration space, multiplies the correlation function by the window there, direction by direction, and takes the multipoles of the product back. A window that is 1 gives back the multipoles that went in, up to what the transforms lose. The wavenumbers are continued with the same ratio up to 100 h/Mpc, the power with zeros.",
  "all log-spaced wavenumbers, all power spectra, all sets of even multipoles, all windows, all settings of the transform",
  "continuum of arguments; arrays of any length",
  ["pyRSD/rsd/transfers/window.py: WindowFunctionTransfer.__call__", "pyRSD/rsd/window.py: WindowConvolution", "pyRSD/extern/mcfit"])
p("C113","Every value of a returned spectrum stands at its own (k, mu), whatever the shapes of the arguments",
  "power(k, mu), its derivatives and the finger-of-god kernels accept numbers, lists and arrays: with as many k as mu the points are paired, otherwise the table of all k by all mu is returned; each value is the model at the k and mu it is labelled with, flattened or not. monopole, quadrupole, hexadecapole and tetrahexadecapole return the multipoles of the model at each k.",
  "all shapes and values of k and mu, all models, flattened or not",
  "arrays of any length and number of dimensions; continuum of values",
  ["pyRSD/rsd/tools.py: return_xarray, broadcast_kmu, monopole, quadrupole, hexadecapole, tetrahexadecapole", "pyRSD/rsd/power/dm/power_dm.py: DarkMatterSpectrum.power", "pyRSD/rsd/power/gal/power_gal.py: GalaxySpectrum.power", "pyRSD/rsd/power/qso/power_qso.py: QuasarSpectrum.power"])
p("C114","The halo mass of a bias has that bias, and the velocity dispersion follows the mass",
  "bias_Tinker decreases with the fluctuation amplitude wherever the bias is at least one, and takes every such value at exactly one amplitude. BiasToMassRelation and mass_from_bias return a mass whose Tinker bias, with the fluctuations of the cosmology scaled to the sigma8 asked for, is the bias asked for - the only such mass in the range searched if the bias is at least one -, refuse biases outside the ends, do not depend on the normalisation of the cosmology, and increase with the bias and with sigma8. The table gives the same mass at its nodes, values between those of the corners elsewhere, and is not used outside; it follows the cosmology and the overdensity of the object. The dispersion increases with the mass and is in Mpc/h. A failure is reported.",
  "all biases, sigma8, cosmologies with fluctuations decreasing with the mass, overdensities from 100 to 10^5, any root finder with the contract of brentq, any parameters changed between calls",
  "continuum of biases and amplitudes; arbitrary fluctuation functions; histories of assignments",
  ["pyRSD/rsd/tools.py: BiasToMassRelation, BiasToSigmaRelation, mass_from_bias, bias_Tinker, sigma_from_bias", "pyRSD/rsd/power/biased/power_biased.py: BiasedSpectrum.sigmav_from_bias"])
p("C115","Chains are declared converged only when they agree, judged on the second half of the samples",
  "gelman_rubin_convergence and the test made while sampling return the Gelman-Rubin scale reduction of each parameter: never below sqrt(1-1/n), that value just when the chains have the same mean, independent of the units of the parameter, of the order of the chains and of the samples. The test uses the second half of the iterations done by all walkers, counting those of the run that is continued, is first made after 600 iterations and then at least every 200, and declares convergence only if for each parameter the variance between the chains is small compared with that within; one chain is never declared converged, chains that agree perfectly are.",
  "all chains, numbers of walkers, iterations, parameters, tolerances, continued runs",
  "continuum of samples; lists of any length",
  ["pyRSD/rsdfit/analysis/stats.py: gelman_rubin_convergence", "pyRSD/rsdfit/solvers/emcee_solver.py: test_convergence, ChainManager.do_convergence, ChainManager.check_convergence"])
p("C116","The analysis of chains rests on exactly the samples that count, each value under its own name",
  "Analysing chains uses every sample of every chain whose log-probability, averaged over the walkers, is less than three below the best average of any iteration of any chain and which is not in the fraction of burn-in, and no other. In the table of samples, the covariance matrix, the Gelman-Rubin numbers, the combined result and the table of best-fit parameters, a value found under a name is that of the parameter of that name (divided by its scale), whatever the order of the parameters in each file. The best-fit values are those of one sample that counts with the largest log-probability. Chains with the same parameters are analysed without error when no burn-in is given. Rescaling for the noise of a covariance from mocks tends to one with the number of mocks.",
  "all numbers of chains, walkers, iterations and parameters, values, log-probabilities, orders of names, burn-in fractions, scales",
  "continuum of samples; lists of any length; any order of names",
  ["pyRSD/rsdfit/analysis/tools.py: remove_burnin, recover_folder_and_files, extract_parameter_names, thin_chains", "pyRSD/rsdfit/analysis/stats.py: convergence", "pyRSD/rsdfit/analysis/driver.py: AnalysisDriver.min_minus_lkl, covar, bestfit_params, error_rescaling", "pyRSD/rsdfit/analysis/bestfit.py: BestfitParameterSet.from_mcmc"])
p("C117","The contours of the plots of posteriors enclose the fraction of samples they stand for, in every panel those of its own two parameters",
  "The level of the contour for a fraction of the samples is the count of a bin such that the bins above it hold less than the fraction and reach it when the bins of the next smaller count are included; the levels are in increasing order and end with the largest count. A figure has one panel for every pair of its parameters, and it shows the two-dimensional histogram of these two parameters, row and column as labelled, in the units of the axes.",
  "all histograms of non-negative counts, fractions, lists of figures, traces and scales",
  "continuum of histograms; any number of bins, parameters and figures",
  ["pyRSD/rsdfit/analysis/plot.py: ctr_level, get_2d_histogram, plot_2d_posteriors"])
p("C118","Measurements and grids written to a file are read back: every value under its statistic, bin and column",
  "Writing a list of power measurements to a plain-text file and reading it with matching names gives the same measurements in the same order, every k, mu, power and error to six digits, exactly so from the second time on. Any file with a line per statistic and bin and the columns it names is read such that each measurement has the numbers of its own lines and columns; a list that is written at all has every value of its columns in the file. A (k, mu) grid is read back exactly, null cells included, and only its cells within the k limits are used.",
  "all lists of measurements (numbers of statistics, bins, kinds, with and without errors), all names, all files of the format, all grids, all roundings to nearest",
  "continuum of values; any number of bins and statistics; any order of columns",
  ["pyRSD/rsdfit/data/power_measurement.py: PowerMeasurements.to_plaintext, from_array, from_plaintext, PowerMeasurement.__init__, PowerMeasurement.columns", "pyRSD/rsd/transfers/__init__.py: PkmuGrid.to_plaintext, from_plaintext"])
p("C119","The Zel'dovich power spectra are the Fourier transforms of the exact statistics of Gaussian displacements",
  "Above the low-k limit each Zel'dovich spectrum (density, density-momentum, momentum) is, after any changes of the amplitude, the Fourier integral over the mesh of separations of the connected statistic of Gaussian displacements with the linear spectrum (the momentum ones being its growth derivatives), with the angular integral done exactly, up to an explicit bound for the Bessel orders left out and for the expansion used at small arguments. The integrals X, Y and sigma^2 are the displacement correlations along any direction, and the exponents are never positive.",
  "all linear spectra (integrable, non-negative), wavenumbers, separations, amplitudes and histories of amplitudes, all three spectra",
  "continuum of spectra, scales and directions; a test compares with another code at a few scales",
  ["pyRSD/_gcl/cpp/ZeldovichPS.cpp: ZeldovichPS, fftlog_compute, Fprim, Fsec, Evaluate", "pyRSD/_gcl/cpp/PowerSpectrum.cpp: X_Zel, Y_Zel, VelocityDispersion", "pyRSD/_gcl/cpp/SpecialFunctions.cpp"])
p("C120","The Halo-Zel'dovich correlation functions are the Fourier transforms of the Halo-Zel'dovich power spectra",
  "The broadband term of the dark matter (halo-matter) correlation function is defined at every separation, and its Fourier transform is the Pade broadband term of the power spectrum with the same sigma8 (and bias) at every wavenumber. After any settings of sigma8, accepted or refused, and evaluations, the correlation functions are those of the value last accepted, the Zel'dovich term being the transform of the spectrum normalised to it (times the bias for halos); a sigma8 that is not positive is refused and changes nothing.",
  "all separations, wavenumbers, constants, amplitudes and biases; all histories",
  "continuum of separations and wavenumbers; improper integrals; any history",
  ["pyRSD/rsd/hzpt/P00.py: HaloZeldovichCF00", "pyRSD/rsd/hzpt/Phm.py: HaloZeldovichCFhm", "pyRSD/rsd/hzpt/__init__.py: HaloZeldovichBase", "pyRSD/_gcl/cpp/ZeldovichCF.cpp"])
p("C121","A model saved to a file and loaded computes the same as the one saved",
  "Saving a model never fails because of its cache, leaves the model reading as before, and the model loaded has the same parameters and reads every attribute as the one saved does, also after further changes, savings and loadings in any order. The same holds for the Halo-Zel'dovich collections and spectra, correlation functions, linear and Kaiser spectra: evaluated anywhere, the object loaded gives what the one saved gave. A file of another version is loaded with a warning.",
  "all classes of the framework, all histories of changes, reads, savings and loadings, all wavenumbers, amplitudes and growth rates",
  "unbounded histories; the state that is lost only matters in later evaluations",
  ["pyRSD/rsd/power/dm/power_dm.py: __getstate__, to_npy, from_npy", "pyRSD/rsd/power/biased/power_biased.py: __getstate__", "pyRSD/rsd/__init__.py: load_model", "pyRSD/pygcl.py: PickalableSWIG, ZeldovichPS, ZeldovichP00, ZeldovichCF, LinearPS, Kaiser", "pyRSD/rsd/hzpt/interpolated.py", "pyRSD/_gcl/cpp/ZeldovichPS.cpp"])
p("C122","Adaptive one-dimensional integration always ends, bisects where the error is largest, and meets its tolerance or says so",
  "The adaptive Gauss-Kronrod integration of the C++ library ends for every integrand, interval and tolerance, never reads or writes outside its workspace, and each step bisects an interval with the largest error estimate; the value is the sum over a subdivision of the interval. It ends only when the estimates meet the tolerance, when an interval cannot be bisected in double precision, or when the workspace is full, which is reported. Reversed limits change the sign; polynomials of degree up to 23 are integrated exactly; if the local estimates bound the local errors, the result is within the tolerance.",
  "all integrands, limits, tolerances and contents of the workspace",
  "the order of the intervals is kept by a partial sort whose correctness depends on the whole history of bisections",
  ["pyRSD/_gcl/include/Quadrature.inl: Integrate, GaussKronrod, qpsrt", "pyRSD/_gcl/cpp/Quadrature.cpp"])
p("C123","Concurrent integrations never share a workspace",
  "While integrations run in any number of threads and nest in any way, no workspace is used by two of them at the same time, and a workspace given back is used again, so that never more exist than integrations were running at once.",
  "all schedules of any number of threads, all nestings, integrands that throw",
  "a statement about all interleavings",
  ["pyRSD/_gcl/cpp/Quadrature.cpp: WorkspaceManager", "pyRSD/_gcl/include/Quadrature.inl: Integrate"])
p("C124","Adaptive integration in several dimensions ends, cuts where the error is largest, and is exact for polynomials",
  "The adaptive integration over boxes that the one-loop integrals use ends for every integrand, box and tolerance with at most ten million evaluations, stays inside its storage whatever that held before, and each step cuts a box with the largest error estimate into halves. It ends only when the estimates meet the tolerance or when the evaluations are used up, which is reported. Polynomials of total degree up to 7 are integrated exactly in any number of dimensions, with error estimate zero up to degree 5; where the local estimates bound the local errors the result is within the tolerance; reversed limits change the sign.",
  "all dimensions, integrands, boxes, tolerances and contents of the storage",
  "the worst box is found by a heap whose order depends on the whole history of cuts; exactness is a statement about all polynomials in all dimensions",
  ["pyRSD/_gcl/include/Quadrature.inl: Integrate<n>, region", "pyRSD/_gcl/cpp/Quadrature.cpp", "pyRSD/_gcl/cpp/Imn.cpp", "pyRSD/_gcl/cpp/Kmn.cpp", "pyRSD/_gcl/cpp/Jmn.cpp"])
p("C125","The parameter file a run writes gives the same parameters back",
  "The params.dat that a run writes (driver, data, theory, further theory names and model, one section each) is read back by from_file into the same sections: every parameter with the same name, value, bounds, prior and flags, including values given with $(variables), which are written with the variables and replaced again on reading; and writing what was read gives the same file. Merging the parameters of a file over the defaults keeps an attribute of the file where it is given and the default otherwise, and merging twice is merging once.",
  "all runs, parameters, values, environments and interpreters of the value texts",
  "the file is read line by line with comments, continuations, tags and evaluation; which texts survive that is a statement about all texts",
  ["pyRSD/rsdfit/parameters/parameterset.py: from_file, to_file, update_param", "pyRSD/rsdfit/parameters/parameter.py: Parameter, to_dict", "pyRSD/rsdfit/parameters/tools.py", "pyRSD/rsdfit/theory/base.py: from_file, to_file", "pyRSD/rsdfit/driver.py: to_file", "pyRSD/rsdfit/data/power_measurement.py: to_file"])
p("C126","Every process of a run starts with the same parameters and model, those asked for, under every interleaving, and nothing is lost if it is killed",
  "The command line fixes what a run uses: the params.dat of the output folder if it has one, else the file given; the model given, else that of the folder, else a new one, which is saved unless that is switched off; without parameters nothing is done. Then all processes of a parallel run start, with these same parameters and model, however they are interleaved, and params.dat holds them; killing the run at any moment loses no parameters, and the same command gives the same run again. A run started from a previous result starts at its best values, each under its own name; iterations asked for are those done, on restart in addition to the previous ones.",
  "all file systems, arguments, numbers of processes, interleavings, moments of a crash, result files",
  "interleavings of processes that read and write one file cannot be enumerated by tests, nor the moments at which a run is killed",
  ["pyRSD/rsdfit/util/rsd_parser.py: verify_arguments", "pyRSD/rsdfit/rsdfit.py: RSDFitDriver.initialize_algorithm, find_init_result", "pyRSD/rsdfit/driver.py: FittingDriver.from_directory, run, set_restart, to_file", "pyRSD/rsdfit/theory/base.py: to_file"])
p("C127","A wedge of a smooth power spectrum is the mean of the power over its range of mu",
  "WedgeTransfer gives, for every wavenumber and every bin of mu, the plain mean of the power over those of the equidistant samples of [0, 1] that lie in the bin, the upper end counted only if it is 1; samples of contiguous bins are shared out, each to one bin; constants are kept, the mean is linear and between the extremes. It differs from the mean over the bin by at most the Lipschitz constant times the spacing (half the spacing per sample of the bin), and tends to it for every continuous power. The coordinate of a bin is its middle, and a list of bounds can be used again.",
  "all powers (grids or flattened), wavenumbers, numbers of samples, lists of bins; all continuous or Lipschitz functions of mu",
  "the error of a mean over samples is a statement about all powers and all bins; tests compare a few spectra with a tolerance that hides a bias of half a spacing",
  ["pyRSD/rsd/transfers/wedges.py: WedgeTransfer.__init__, mu_bounds, mu_edges, __call__", "pyRSD/rsd/transfers/__init__.py: PkmuGrid, TransferBase.power", "pyRSD/rsdfit/data/power_measurement.py: PowerData.get_transfer (lines 783-816)"])
p("C128","A cosmology has the parameters it was made with, and copies, pickles, clones and CLASS keep them",
  "Every argument of Cosmology is read back, by key and by attribute, and the masses as expanded; a flat cosmology has the dark energy that closes it; an item cannot be assigned. However an object was made (constructor, from_astropy, copy, pickle, clone, in any order), its copy and what comes back from a pickle have the same attributes, a clone has what was asked for and otherwise the same, and equality holds exactly if geometry, masses and parameters agree to a part in ten thousand. The parameters given to CLASS are those of the cosmology, with the masses in decreasing order, and what is asked for in addition comes on top.",
  "all keyword arguments, all histories of copies, pickles, clones and conversions, all configurations of CLASS, all behaviours of the radiation part of astropy",
  "histories of copies and clones of any length and all combinations of arguments; tests make one cosmology and compare a number or two",
  ["pyRSD/rsd/cosmology.py: Cosmology (lines 138-404)", "pyRSD/_gcl/python/ClassParams.i: from_astropy (lines 98-163)"])
p("C129","Simulation results are interpolated with the Gaussian process asked for, in any units, and an object that changes gives what a new one gives",
  "A call gives, for a table of any size and any number of independent variables, the mean of the Gaussian process with the kernel, hyperparameters and errors asked for, at each point asked for; with the Gaussian kernel every well-formed call succeeds, the result is determined, is the regularised least-squares fit, is smooth, goes through rows without errors and misses the others by at most a constant times the error. The units and zero points of the columns and the order of the rows do not matter. Arrays of one length are taken element by element, numbers repeated, anything else refused. A set of several dependent variables gives for each what an object of its own gives. After any history of reads, calls and assignments a call gives what a new object with the same parameters gives.",
  "all tables, kernels, hyperparameters, numbers and shapes of arguments, all histories of assignments, reads and calls",
  "tables and histories of any size; tests interpolate the tables that are shipped at a few points",
  ["pyRSD/rsd/simulation.py: GeorgeSimulationData, GeorgeSimulationDataSet (lines 15-286)", "pyRSD/rsd/tools.py: unpacked, align_input (lines 98-129)"])
p("C130","Velocity spectra from simulations reproduce the simulations, scale as linear theory and join on smoothly outside the tables",
  "With well-formed tables an object can be made exactly for a linear spectrum at redshift 0. Between the redshifts and wavenumbers of the tables it gives the bilinear interpolation of the simulated spectra over their linear theory, times the linear theory of the object; for the cosmology of the simulations it gives the simulated spectra themselves; it scales with f and sigma8 as linear theory. A wavenumber outside the tables is an error, and only that is. Each element of an array gives what it gives alone. After any assignments an object is the one that would be made with its parameters. Beyond the redshifts of the tables the spectrum goes on continuously. The fitted velocity spectra are the published formulas, leave the model as it was, and the velocity spectrum is not negative.",
  "all tables of any size, cosmologies, redshifts, wavenumbers, growth rates and amplitudes, all histories of assignments",
  "continuous parameters and tables of any size; the tests never construct these objects outside the three tabulated redshifts",
  ["pyRSD/rsd/simulation.py: InterpolatedSimulationData, SimulationP11, SimulationPdv (lines 383-662)", "pyRSD/rsd/power/dm/power_dm.py: Pdv_jennings, Pvv_jennings (lines 676-718)"])
p("C131","Gaussian covariance matrices of multipoles are the Gaussian prediction and can be inverted",
  "The Gaussian covariance matrix of multipoles in a periodic box and in a survey has the multipoles and wavenumbers as its coordinates, in order; different wavenumbers are not correlated, and at one wavenumber the covariance of two multipoles is 2/N times the mean over the angles of the two Legendre weights and the squared power plus noise, in a survey summed over the redshift shells with FKP weights. With more angles it tends to the integral of Grieb et al. The matrix is symmetric, gives no combination of measurements a negative variance and, for different multipoles, none the variance 0. For a constant density a survey gives what a box of its volume gives. Where the power is FKP_P0 the weights give the smallest possible variance.",
  "all spectra, lists of wavenumbers and multipoles, densities, volumes, redshift ranges, numbers of angles and shells",
  "spectra, densities and distances are functions; definiteness is about all vectors; the limit needs all numbers of angles",
  ["pyRSD/rsdfit/data/covariance_matrix.py: PoleCovarianceMatrix.periodic_gaussian_covariance, cutsky_gaussian_covariance (lines 1157-1395)", "pyRSD/rsd/tools.py: broadcast_kmu"])
p("C132","Selecting by label, iterating over blocks and normalizing a covariance matrix give the elements they name",
  "Selecting from a covariance matrix by labels takes the label nearest to each value (the larger one of two equally near) or all labels in a closed interval; the result has exactly the rows and columns asked for, in their order, with their coordinates and elements. Enumerating gives every pair of multipoles (or angles), each with its block, or the pairs of the upper triangle only. The correlation matrix has the covariance divided by the two standard deviations: it is symmetric, has ones on its diagonal and no element beyond -1 and 1.",
  "all covariance matrices with well-formed storage, all labels, values and intervals asked for along each dimension; all real symmetric positive semidefinite matrices with positive variances",
  "the nearest label and the blocks depend on arbitrary sets of labels; bounds on correlations are about all semidefinite matrices",
  ["pyRSD/rsdfit/data/covariance_matrix.py: CovarianceMatrix.sel, normalized, PkmuCovarianceMatrix.__iter__, enumerate, PoleCovarianceMatrix.__iter__, enumerate", "pyRSD/rsdfit/data/indexing.py: get_nearest, remap_label_indexers"])
p("C133","Growth and the bias of quasars in non-Gaussian universes are those of linear theory",
  "The growth function used by the quasar model solves the equation of linear growth in a universe of matter, curvature and a cosmological constant, is proportional to the scale factor at early times, and is normalised to it with an error that is bounded by the share of curvature and dark energy at redshift 100. The factor between potential and density is that of the Poisson equation, with a transfer function that is 1 on the largest scales, whatever the amplitude of the spectrum; the bias is b1 + 2 (b1 - p) f_nl delta_c / alpha, for f_nl = 0 it is b1, and on large scales the addition falls as k^-2.",
  "all densities with which the universe expands, all redshifts, spectra, lists of wavenumbers and parameters",
  "differential equations, limits and error bounds over all densities and redshifts",
  ["pyRSD/rsd/power/qso/power_qso.py: growth_function, alpha_png, delta_bias, btot"])
p("C134","A driver told to take the fit results has the parameters of the results, and a run starts where it was told to",
  "Loading a results file is refused exactly when its parameters are not those of the theory, and changes no parameter. After set_fit_results every free parameter has the value the file gives under its name (median, peak or most probable sample of the chain after the burn-in, or the minimum), whatever the order of the names in the file and whatever was set before; no other unconstrained parameter moves and the model follows. set_fiducial does the same with the fiducial values. apply(func, pattern) gives, for every file in order, func at the values of that file, whatever the other files. A run starts from the values asked for, by name, and refuses to start if one is missing; the minimiser always works with the analytic bounds and priors and the sampler never.",
  "all parameter sets, files, orders of names, methods and histories of setting results and fiducial values",
  "histories and orders of names are unbounded; a wrong order gives plausible numbers",
  ["pyRSD/rsdfit/driver.py: FittingDriver.results, set_fit_results, set_fiducial, apply, run, find_peak_probability, load_results","pyRSD/rsdfit/results/emcee_results.py: values, peak_values, max_lnprob_values, from_npz"])
p("C135","A spectrum is only returned at the wavenumbers the model covers",
  "The wavenumbers of a model are Nk increasing ones from kmin to kmax, both included. power at an array of (k, mu) raises the domain error exactly when the true wavenumber of one of them is outside, saying rightly whether some are above and some below; otherwise it returns for every one in order the spectrum at its true coordinates in observed volumes, whatever was evaluated before, failed evaluations included; without dilation, at the wavenumbers of the model, these are the functions themselves and not approximations. The observed wavenumbers that can be evaluated at every angle are exactly those from kmin*max(alpha) to kmax*min(alpha). derivative_k is the derivative of what power interpolates.",
  "all limits, numbers of wavenumbers, dilations, arrays of any length, histories of evaluations, interpolations",
  "arrays, dilations and histories are unbounded; an extrapolated spectrum is a plausible number",
  ["pyRSD/rsd/tools.py: RSDSpline","pyRSD/rsd/_cache.py: InterpolatedFunction, interpolated_function","pyRSD/rsd/power/dm/power_dm.py: k, kmin, kmax, power, derivative_k"])
p("C136","Simulation data and switches taken for a block are used inside it and undone after it",
  "After any history of assignments, reads, loading and unloading of simulation tables, every attribute of a model reads as on a brand-new model with the same parameters and tables, and exactly the loaded terms are flagged. While a table is loaded for a term the term is the table, otherwise the model's own. A block `with load_dm_sims(...)` puts the simulation's tables in place of the terms, leaves the others, and after it tables and flags are those of before, other parameters those of the block, and if the block only reads everything reads exactly as before. A block `with use_spt()` turns every switch off, and afterwards, exception or not, every switch has its old value and everything else is that of the end of the block.",
  "all classes with sound declarations, histories, tables, blocks and exceptions",
  "histories and blocks are unbounded; a stale table gives plausible numbers",
  ["pyRSD/rsd/sim_loader.py: SimLoaderMixin","pyRSD/rsd/power/dm/power_dm.py: load_dm_sims, use_spt, Pdv","pyRSD/rsd/power/dm/P00.py, P01.py, P11.py"])
p("C137","The emulated nonlinear spectrum is the emulator's, in the units of the object, for every cosmology of its box",
  "NonlinearPS with the FrankenEmu fit: a cosmology outside of the documented box of parameters is an exception, one inside gives an object. At the wavenumbers of the emulator the spectrum is h^3 2 pi^2 q^(-3/2) 10^y with k = q/h, where y interpolates linearly in wavenumber and in redshift the table whose principal components are weighted with the Gaussian-process predictions at the standardized parameters; these predictions always exist and are unique. Between the wavenumbers it is one twice continuously differentiable function; an array of wavenumbers gives the array of its values, and a wavenumber outside of the range of the emulator is an exception. With use_cmbh the Hubble parameter of the units is the one that gives the acoustic scale of the CMB.",
  "all cosmologies, redshifts, arrays of wavenumbers, and all designs, weights and bases of the emulator",
  "the edges of the box are doubles, and a spectrum in wrong units or at a neighbouring redshift is a plausible spectrum",
  ["pyRSD/_gcl/cpp/NonlinearPS.cpp: NonlinearPS","pyRSD/_gcl/extern/FrankenEmu/src/emu.c, emu_noh.c: emu, emuInit","pyRSD/_gcl/extern/FrankenEmu/src/hubble.c: getH0fromCMB"])
p("C138","Tables of best-fit parameters survive being written and compare each fit with its own numbers",
  "BestfitParameterSet.from_info of a file written by to_info is the table that was written: columns, names of parameters, values and attributes, for any number of each. A comparison table of any number of fits has one row for each parameter that is asked for, in the order of the names or of the list that was given, and in it for each fit the median and errors of that parameter in that fit, or its best-fit value if the fit has no medians, or nothing if the fit does not have the parameter; and a first row with the reduced chi squared of each fit that has one.",
  "all tables, attributes, previous contents of the file, and all lists of fits, names and selections of parameters",
  "a table in which a column has moved or a fit is shown under another name looks like a table, and each depends on which cells are empty in which rows",
  ["pyRSD/rsdfit/analysis/bestfit.py: BestfitParameterSet.from_info, to_info, from_nlopt, to_comparison_table, median_plus_error_fmt, format_scale"])
p("C139","Whatever fails in a run and whenever it is killed, no result is lost, and the log says what happened",
  "At every moment of a run that restarts a results file, the file is on the disk as it was or a whole new file has all its steps and the new ones; no other results file or log is touched. After the run all steps that were taken are in the new file, however the sampling ended (ctrl+c, an error, convergence, failure of another chain), the restarted file is gone exactly if there was no exception, and the log of the run is in the folder, behind the log of the restarted one, with the exception if there was one. A run that failed tells the shell.",
  "all contents of the folder, all ways in which each step of the end of a run can fail, all moments at which the process is killed",
  "the moments between two operations on the disk and the combinations of failures cannot be enumerated by tests",
  ["pyRSD/rsdfit/rsdfit.py: RSDFitDriver.run, main","pyRSD/rsdfit/driver.py: FittingDriver.run, finalize_fit, set_restart","pyRSD/rsdfit/util/rsd_logging.py: FileLogger, copy_log","pyRSD/rsdfit/util/mpi_manager.py: MPIManager.__exit__"])
p("C140","Every configured data set yields a theory vector in which each entry is for the statistic and bin of the data vector's entry",
  "Whatever statistics of the data file are used, whatever their type (multipoles or wedges), however the theory is binned (window function, grid or neither), and whichever statistics have parameters of their own, the fit computes a theory vector; its entries are, measurement after measurement, the predictions for that measurement's identifier at its wavenumbers; and the parameters given to a statistic are used for the prediction of that statistic.",
  "all data sets, selections, transfers, multipole numbers, groupings, and all orders in which Python lists a set of names",
  "the order of a set of strings changes from one process to the next; the selections, kinds of transfer and groupings multiply",
  ["pyRSD/rsdfit/data/power_measurement.py: PowerData.calculate_transfer, PowerData.slice_data","pyRSD/rsdfit/theory/base.py: apply_transfers","pyRSD/rsdfit/driver.py: FittingDriver._get_theory_callables","pyRSD/rsd/transfers/grid.py: GriddedWedgeTransfer.kmin, kmax, in_k_range"])
p("C141","A data set is loaded with the covariance and error bars of its own bins",
  "When a data set is initialised, row i of its covariance, entry i of its data vector and error bar i are of the same bin; the covariance is the one in the file, or the diagonal one of the squared error columns, restricted to the fitting range and multiplied by the rescaling the user asked for; the square of every error bar is the diagonal element. A covariance file that cannot be read or is not for these bins is refused, and so are data without errors when there is no covariance file.",
  "all data files, covariance files, rescalings and fitting ranges",
  "needs all sizes, all fitting ranges and all values, since the setter compares values with a tolerance",
  ["pyRSD/rsdfit/data/power_measurement.py: PowerData.initialize, set_all_measurements, set_covariance, set_errors_from_cov","pyRSD/rsdfit/data/covariance_matrix.py: CovarianceMatrix.__mul__, PoleCovarianceMatrix.__init__"])
p("C142","The fiducial of a constrained parameter is its constraint at the fiducials, and taking it changes no value",
  "After update_fiducial on a parameter set (done when chains are analysed, for the lines drawn at the fiducial values) the fiducial of every constrained parameter is its constraint evaluated at the fiducials of the others, or none when that is not a finite number; the other fiducials are untouched, and all parameters still read as before, now and after any later assignments and reads.",
  "all parameter sets, values, fiducials, constraint expressions, and all later histories of assignments and reads",
  "the values are replaced, read back through a symbol table kept up to date by hand, and restored: needs every constraint graph and history",
  ["pyRSD/rsdfit/parameters/parameterset.py: ParameterSet.update_fiducial, update_values, prepare_params","pyRSD/rsdfit/parameters/parameter.py: Parameter.value, fiducial","pyRSD/rsdfit/analysis/tools.py: prepare"])
p("C143","The tables of chains and correlations hold every parameter asked for once, with its own chain, and every pair once, in order",
  "The table of chains has one column for each parameter asked for, with its own samples under its own label. The list of correlations names every pair of those parameters once, with the correlation coefficient of the two chains (or its absolute value), a number between -1 and 1 that does not depend on the units of the parameters, sorted from the largest down; a pair is missing only if one of the chains is constant.",
  "all results, parameter selections, labels, chains of any length, and all ways of sorting equal values",
  "needs all chains and selections: masks, index order and dropped rows of a square table",
  ["pyRSD/rsdfit/results/emcee_results.py: EmceeResults.chains, corr, sorted_1d_corrs","pyRSD/rsdfit/analysis/__init__.py: tex_names"])
p("C144","Plots of a fit show every statistic's data and prediction on the same footing",
  "In every plot of a fit, the theory curve and the data points of a statistic have the same abscissae (the k of its bins), are divided by the same normalisation and moved by the same offset, so that the distance of each point from the curve in units of its error bar is that of the data from the prediction; each statistic has its own pair of colours; the residual plot shows that distance. The normalisation of multipoles is the monopole of that of wedges.",
  "all sets of statistics, bins, data, errors, predictions, parameter values and lists of colours",
  "needs all data sets: positions in a concatenated vector, offsets by statistic",
  ["pyRSD/rsdfit/util/plot.py: pkmu_normalization, poles_normalization, plot_normalized_data, plot_normalized_theory, plot_fit_comparison","pyRSD/rsdfit/driver.py: FittingDriver.data_model_pairs, plot_residuals","pyRSD/rsdfit/plotly/fit.py: plot_fit_comparison"])
p("C145","Setting the model of a fit: right class, the file's options, a range of k over the data, everything computed with it, others untouched",
  "After the model of a fit has been set, with nothing (a new model), a file or an existing object, the model is of the theory's class, every option of the parameter file has its value on it, every other attribute is what the source had, its kmin and kmax reach over the range of the data, and it is the model which gets the fit parameters; so predictions after setting a new model and parameters do not depend on what was done before. Gradients and constraints are computed with it too. No other model of the process changes, and when the value is refused nothing changes.",
  "all parameter files, data ranges, models, files, sequences of replacing models, setting parameters and taking gradients",
  "ranges over histories and over aliases: caches and references kept from before the replacement show only in sequences of calls",
  ["pyRSD/rsdfit/theory/base.py: BasePowerTheory.__init__, model setter, pkmu_gradient, BasePowerParameters.from_defaults, set_free_parameters","pyRSD/rsdfit/driver.py: FittingDriver.model setter","pyRSD/rsd/power/dm/power_dm.py: DarkMatterSpectrum.update"])
p("C146","One-dimensional posteriors show all samples of their own parameter, in the units of the axis",
  "In the figures of one-dimensional posteriors there is one panel for each parameter asked for; it is drawn from the samples of that parameter divided by its scale, whatever was drawn before. Every sample is in exactly one bin; the curve has height one, and at the first and last bin its heights are as the numbers of samples. The range of the axis holds at least 45 of 49 samples, and the ticks are in the range in increasing order, with one at a boundary that is reached. The curve of the likelihood does not depend on a constant added to all log-probabilities. The boundary, the fiducial and the axis are in the same units, and the file written with a posterior holds that posterior.",
  "all samples, scales, boundaries, numbers of bins and ticks, figures",
  "ranges over all samples; a panel is right only if the dictionaries kept between figures are",
  ["pyRSD/rsdfit/analysis/plot.py: get_1d_histogram, get_mean_likelihood, cubic_interpolation, plot_1d_posteriors","pyRSD/rsdfit/analysis/driver.py: AnalysisDriver.define_ticks"])
p("C147","An extrapolated power spectrum is the model's inside and continues it outside",
  "Between the two ends the extrapolated power is the model's own. Below and above, at every mu, it is a power law of the wavenumber whose amplitude is the model's value at the end, so the extrapolation is continuous in the wavenumber and keeps the sign of the model. A model that is itself such a power law is continued exactly. The ends default to the limits of the model, any function of the model can be extrapolated, and limits outside of the model's range are refused. All evaluations of one object are values of one function, whatever was evaluated or set before, and follow the model when it changes. The multipoles, and the correlation function made of them, are those of this function.",
  "all models, limits, wavenumbers, mu and orders, histories of evaluations and settings",
  "ranges over all functions and wavenumbers, and over histories with cached fits",
  ["pyRSD/rsd/power_extrapolator.py: power_law_extrapolation, ExtrapolatedPowerSpectrum","pyRSD/rsd/correlation.py: SmoothedXiMultipoles"])
p("C148","The distribution of a chain is a histogram of unit area, and draws from it invert its cumulative distribution",
  "The density of a chain of samples has unit area, is nowhere negative, and each value times the width of its bin is the fraction of the samples there; there are an even number of bins, none wider than half of the optimal width. The cumulative distribution never falls and ends with one; between the centres it is interpolated. What is drawn, or put on a grid, is between the smallest and the largest sample and is where the cumulative distribution is the random number, or the level. The limits hold the median and for the factor one are the extreme samples. Neither the order of the samples nor those that are not finite matter, and in other units everything is converted.",
  "all chains, domains, random numbers, numbers of grid points, factors and changes of units",
  "ranges over all lists of samples of any length and all random numbers",
  ["pyRSD/rsdfit/parameters/distributions.py: histogram_bins, Trace"])
p("C149","Every parameter of an analysis is on the figures it belongs to, under a label that names its scale",
  "Without a choice all free parameters are on one figure and all constrained ones on another, in their order; with a choice exactly the chosen ones are, each once. Two-dimensional figures are those of the free parameters, or one for every two groups. Every parameter has one entry in the order of the combined chain: its index finds it, its bounds are the finite ones, its scale is the one asked for, or one. The label of a parameter that was divided by a power of ten or by an integer names this factor, and without a scale the label is the latex name, in every analysis of a process.",
  "all lists of names, choices, groups, scales and latex names, and sequences of analyses",
  "ranges over all labels, numbers and lists of names, and over histories of analyses in one process",
  ["pyRSD/rsdfit/analysis/tools.py: format_scaled_param, extract_parameter_names"])
p("C150","Convolving power multipoles with a survey window multiplies their correlation function by the window",
  "`convolve_multipoles` takes each multipole to the separations of the window, replaces it by the multipole of the product of the correlation function and the window there, and takes it back to the wavenumbers given, which are returned. The result is linear in the multipoles. A window that is 1 changes nothing: the result is that of a dry run. Fewer than 500 wavenumbers are first replaced by 500, equally spaced in the logarithm between the smallest and the largest. Arguments of the wrong shape or order are refused.",
  "all wavenumbers, multipoles, lists of orders, windows, and both modes",
  "ranges over all real-valued arrays of any length and all windows",
  ["pyRSD/rsd/window.py: convolve_multipoles, WindowConvolution"])
p("C151","The default quasar parameters: derived parameters and the dilations always agree, and the model gets what was set",
  "The parameters of a class of defaults are the entries declared free or fixed, each once and in alphabetical order, and are passed to the model unless declared otherwise. For the quasar defaults, after any history of assignments and reads, `fsigma8`, `b1sigma8`, `F_AP`, `alpha`, `epsilon` read as the products, the ratio and the cube roots of the current values that define them; `alpha > 0` and `epsilon > -1` determine both dilations, and every such pair comes from exactly one pair of dilations. When the free parameters are set, the model gets each value given, and the current value of every parameter that is not free. Default values lie inside their priors.",
  "all classes of defaults, all histories of assignments and reads, all sets of free parameters and all values, all dilations",
  "ranges over all histories of assignments and all real values",
  ["pyRSD/rsdfit/theory/qso_defaults.py: DefaultQuasarPowerTheory","pyRSD/rsdfit/theory/base.py: Schema, free, fixed, BasePowerTheory.set_free_parameters"])
p("C152","The options of a fit are those of its file, else the documented defaults, and the solver uses them",
  "A driver is made exactly if each option in its file has a value that is accepted for it and every decorator is for a statistic of the data, in whatever order the options are read. An option in the file then has its value there, any other the documented default. The solvers use the values of the driver: the tolerances, the step of derivatives, the scatter, the switches, the test of convergence, the way to start, the steps of burn-in; the iterations are those asked for on the command line, on a restart those asked for in all, and nothing else changes. `default_params` has every option, with the value given or the default. Drivers do not affect each other.",
  "all parameter files, values of options, statistics, orders of iteration over the set of options, numbers of iterations",
  "ranges over all files and all values, and over the hash-dependent order in which the options are read",
  ["pyRSD/rsdfit/driver.py: FittingDriverSchema, FittingDriver.__init__, FittingDriver.default_params, FittingDriver.set_restart","pyRSD/rsd/_cache.py: parameter","pyRSD/rsdfit/rsdfit.py: RSDFitDriver.initialize_algorithm","pyRSD/rsdfit/solvers/lbfgs_solver.py: run","pyRSD/rsdfit/solvers/emcee_solver.py: run"])
p("C153","The interactive plots of chains show the samples of the parameters asked for, each under its own label",
  "plot_traces has a panel for each parameter in the order asked for, with at most max_walkers single walkers and the average of all walkers at every iteration after the burn-in, to five decimals, under the parameter's label; no names or an unknown name raise ValueError. hist_1d shows the distribution of the samples after the burn-in, thinned as asked, with bars of area one as high as the fraction of samples over the width, lines at the median and the one-sigma interval, and a curve over the range of the samples. jointplot_2d shows the density of the pairs of samples, first parameter across, over three sigma, labelled as the caller says, else by the parameters' labels, whatever was plotted before; the caller's dictionary is as it was. plot_triangle has every pair of parameters once below the diagonal and the histograms on it, thinned as asked, titled on the outside.",
  "all results, lists of parameters, chains, numbers of walkers and iterations, thinnings, histories of calls",
  "ranges over chains and lists of any length and over any history of calls sharing one default dictionary",
  ["pyRSD/rsdfit/plotly/mcmc.py: plot_traces, jointplot_2d, hist_1d, plot_triangle","pyRSD/rsdfit/plotly/tools.py: kde_scipy"])
import sys
open('/verif/properties.jsonl','w').write(''.join(json.dumps(x)+'\n' for x in P))
print(len(P))
