# Design: a Lean 4 model of nickhand/pyRSD

## Layout

* `properties.jsonl` — the semantic properties (ids `Cnn`).  Generated by `tools/props.py`.
* `lean/Verif/Model/*.lean` — shallow models, one file per source area.  Every definition cites `file:lines`.
* `lean/Verif/Lemmas/*.lean` — helper lemmas (nothing here is a claim).
* `lean/Verif/Props/*.lean` — specification predicates and the property theorems, each followed by an
  `example` that exhibits a concrete non-trivial instance of its hypotheses.
* `MANIFEST.json` — property → theorem names, status.
* `seeded/LOG.jsonl` — mutation log.

## Trusted base

* Lean 4.33.0 kernel; axioms at most `propext`, `Classical.choice`, `Quot.sound` (Lean's own; no axioms are added, nothing rests on
  compiled code).  The table at the end lists the axioms of every claimed theorem (`tools/axioms.py`).
* The reading of the Python source: models are hand-written from /repo, each with a citation.
* **Numbers.** Floating point is modelled by exact arithmetic (`ℝ`, `ℚ` or an arbitrary ordered field);
  rounding, overflow and signed zeros are not modelled.  `nan`/`inf` are modelled explicitly where the code
  branches on them (bounds, priors).
* **External libraries** (numpy, scipy, lmfit, emcee, mpi4py, xarray, pandas, CLASS) are modelled by the contract stated in the
  comment of the definition that uses them.
* Python exceptions are values (`Except`), mutation is state passing, a loop is structural recursion or a fold.

## Findings convention

Where the code violates a property, the violation is proved by a concrete witness (a theorem named
`…_violated…`/`…_counterexample`), the strongest true statement is proved with suffix `_partial`, and the
manifest status is `partial`.

## Plan per property
(kept in sync with MANIFEST.json)

| id | what is modelled | how it is proved |
|----|------------------|------------------|
| C01, C02, C04, C05 | schema of parameters and cached attributes; method bodies as trees of attribute reads; `set/get/del` | invariant "every cached value equals the from-scratch value", induction over op lists; dependency inversion = reachability |
| C03, C06 | `preserve`, `cache_override` as blocks of operations | same invariant; counterexamples for the unset-parameter and override paths |
| C07 | `lru_cache` as heap of links (circular list) + dict + statistics, any schedule of threads' atomic sections | refinement to the bare function, induction over calls |
| C08 | the global memo of `cacheable` | trace refinement under fixed parameters; counterexample otherwise |
| C09 | table of declared parents and attribute reads of the shipped model classes (generated from the source text) | generalisation of C01 to code that reads more than it declares; certificate (read closure, declared closure, exceptions) checked by the kernel and proved sound; exactness: a worst-case implementation goes stale on every listed pair |
| C10, C11 | packed upper triangle, contracted index; text format as token lists | arithmetic bijection, induction on N; parse of print |
| C12–C15 | trimming, arithmetic, selection, inverse rescaling | list/finset reasoning; counterexamples |
| C20, C25, C26 | priors and bounds over extended reals with NaN, smooth versions over ℝ | case analysis, `HasDerivAt`, histories |
| C21 | affine scaling | algebra + chain rule |
| C22, C23 | parameter set with constraints, symbol table with missing-key evaluation | induction on constraint depth; counterexample to deep chains |
| C24 | `replace_vars` on character lists | structural recursion, spec as parse of segments |
| C30–C32, C35 | driver as a state machine over free-parameter vectors | simulation; `HasDerivAt`; counterexamples |
| C33, C43 | order of the theory and data vectors, slices | list reasoning, permutations |
| C34 | Fisher matrix as in `driver.py` | Mathlib matrices, positive definiteness, Schur complement/Cauchy–Schwarz |
| C40–C42 | measurements with masks, data set operations, unit factors | list reasoning; dimension exponents |
| C50, C51 | window kernel and convolution | Legendre product coefficients via integrals over mu; linearity |
| C52–C55 | gridded transfers, scatter/gather, quadrature | finite sums, polynomial exactness |
| C60, C61, C64 | AP map, lock, FOG kernels | real algebra, bounds |
| C62, C63, C65–C68 | galaxy/quasar model objects with mutable state; analytic derivatives; constraint derivatives | real algebra, `HasDerivAt`, state machines with exceptions |
| C70, C71 | optimiser loop with abstract objective and line search; two-loop recursion over vectors | induction over iterations / stored pairs |
| C72–C77 | solver bookkeeping, MPI, restarts, starting points | integer arithmetic, interleavings, arbitrary random streams |
| C80–C82 | result containers | list permutations, histories |
| C83, C84 | Halo-Zel'dovich spectra: C++ drivers with in-place rescaled arrays, broadband terms, lazily made models and tables | chain rule through the Padé form and through the 16×1024 sums; invariant "every driver is normalised to the sigma8 last asked for" over histories |
| C90 | regular-grid interpolation | convexity induction over dimensions |
| C92 | parameters with attribute-valued defaults | counterexample; the condition under which it holds is a hypothesis of C01 |
| C93 | kernels of `Imn`, `Kmn`, `ImnOneLoop` | vectors in the plane of the triangle; elliptic coordinates; azimuthal integrals of powers of cosine |
| C94 | drivers of the integrals | change of variables in the plane (Jacobian), Fubini, symmetry in v |
| C95–C98, C102, C103 | all terms of the dark-matter and biased spectra (`pt_integrals.py`, `power/dm/*`, `power/biased/*`) with abstract quadrature and splines | scaling of every integral, exchange symmetry term by term, real algebra, `HasDerivAt` along the growth history; leading coefficients closed under sums, products and quotients; concrete box spectrum for the counterexample |
| C104, C105 | the kernels of `Jmn`, all one-loop terms of the dark-matter spectrum | specification: the recursion of the fluid kernels and the redshift-space expansion (`Spec/SPT.lean`); antiderivatives with logarithms for the angular averages (removable singularities), azimuthal averages, change of variables to elliptic coordinates, linear combination of coupling integrals |
| C106 | all terms of the dark-matter and biased spectra at second order in the linear spectrum | specification: kernels Y1, Y2, Y3 of biased tracers (`Spec/SPTBias.lean`); expansions with remainders that vanish, closed under sum, product and the quotient of the mu^0 term; identification of the integrals with exact quadrature |
| C99 | the branches `r >= 60` of the six kernels of `Jmn` | series of the logarithm with remainder, exact rational identities for the difference, bounds carried through the integrals to the spectrum of C105 |
| C100 | `NonlinearBiasingMixin`: types, coefficients, caches of the six properties, all operations | specification: an inductive relation `Means` and the relation `Follows`; invariant of the caches over all histories; pigeonhole for the depth of calls |
| C101 | `Cosmology` (C++), its Python subclass, `to_class`, `LinearPS`; a run of CLASS is a given function of the parameters | specification: the variance with the exact top-hat window; invariants over all histories (`Reach`); Taylor bounds for the window of the code |
| C107 | the four transfer functions | continuity, bounds and limits in Mathlib's analysis |
| C108 | `Spline.cpp`: the search, the three splines, the loops that set up and solve the tridiagonal system, on memory with any contents | loop invariants; nonzero pivots; uniqueness of the solution; gluing of derivatives; convexity for the error |
| C109 | the reference counts of `Spline` | invariant over all well-scoped programs |
| C110 | the spherical Bessel functions, `ComputeXiLM`, `pk_to_xi`, `xi_to_pk`, `CorrelationFunction`, `Kaiser` | specification: Bessel functions as projections of a plane wave, mean over the sky of a plane wave (`Spec/Xi.lean`); integration by parts, power series near zero, addition theorem by the moments of the cosine |
| C111 | `mcfit` with `P2xi` and `xi2P`, the Fortran `fhti`, `fhtq`, `fht`, `krgood`, `ComputeXiLM_fftlog` and the FFTLog branch of `ComputeXiLM` | specification: the log-periodic interpolation of samples, padding, improper integrals (`Spec/FFTLog.lean`); Mellin transform of the spherical Bessel functions (`Lemmas/Mellin.lean`), discrete Fourier transforms, orthogonality of the transform at the middle tilt |
| C112 | `WindowFunctionTransfer.__call__` | refinement to the transforms of C111 and the convolution of C50/C51; scaling of the transform when its grid is out by a factor; phases of neighbouring Bessel kernels |
| C113 | `broadcast_kmu`, `return_xarray`, the multipole decorators | arrays as shapes and entries; case analysis on the shapes, inversion of a successful call; Simpson error by repeated integration of the derivative bound |
| C114 | `BiasToMassRelation`, `BiasToSigmaRelation`, `bias_Tinker`, `mass_from_bias`, `sigma_from_bias`, `sigmav_from_bias` | monotonicity of (1+sigma^a)(b-1), intermediate values; `brentq` by contract; the table through C90; numerical bounds through powers for the counterexamples |
| C115 | `gelman_rubin_convergence`, `test_convergence`, `do_convergence`, `check_convergence` | lists of samples; algebra of means and variances against the published formula; the zero-filled arrays through C82 |
| C116 | `remove_burnin`, `convergence`, `extract_parameter_names`, `AnalysisDriver` (covariance, best fit, rescaling), tables of `bestfit.py` | chains as images of arrays of samples (chain, walker, iteration); every operation (re-ordering, masking, striding, appending) commutes with the image, so all outputs are read off one list of samples; separate specification of the samples that count |
| C117 | `ctr_level`, `get_2d_histogram` and its calls in the triangle plots | counts sorted from the largest; partial sums monotone, so `searchsorted` counts a prefix; the cache of histograms with an invariant over the panels drawn |
| C118 | `PowerMeasurements.to_plaintext`, `from_array`, `from_plaintext`; `PkmuGrid` files | files as header, columns and lines; `'%.5e'` as rounding to six digits for any rounding to nearest, idempotent; column-major order as indexing of uniform blocks |
| C119 | `ZeldovichPS` series, displacement integrals, Bessel expansions | Poisson's integral for the spherical Bessel functions; Bessel series of the exponential of a quadratic in the cosine, remainder bounded term by term; growth derivatives by calculus |
| C120 | `HaloZeldovichCF00`, `HaloZeldovichCFhm`, `ZeldovichCF` | the sine transform of exponentials by the fundamental theorem of calculus on a half-line, partial fractions; invariant over histories |
| C121 | `__getstate__`, `to_npy`, `load_model`, pickling of the compiled classes | the invariant of C01 survives the removal of entries; invariant over histories with loadings (which spectra have lost the approximation); counterexamples |
| C122 | `Integrate` in one dimension with its rule, workspace and partial sort | simulation of the program on a memory with undefined cells by abstract runs that bisect a worst interval; sortedness invariant; exactness on the monomials; counterexample |
| C123 | `WorkspaceManager` | invariant over all interleavings; counterexamples |
| C124 | `Integrate<n>` with its rule, storage and heap | heap with a hole as the invariant of the two placement loops; simulation by abstract runs that cut a worst box; exactness on the monomials by the size of their support, affine expansion and Fubini; counterexamples |
| C125 | reading, writing and merging of parameter files, with eval and repr as parameters | line-level lemma for sections, induction on lines; exact characterisation of merging by attribute; counterexamples |
| C126 | `verify_arguments`, the set-up as a transition system of n ranks on one file system, starting points and restarts | characterisation of the outcome by cases; an inductive invariant of all interleavings, a weight that decreases, absence of failure; explicit schedules as counterexamples |
| C127 | `WedgeTransfer` on the model of the grid of C52; the choice of the class | the bin indices as in C52; the samples of a bin lie one in each of as many equal cells, so the error of the mean is a sum of errors over cells, bounded by integrals |
| C128 | `Cosmology` as a dictionary with an astropy object inside (astropy as a parameter: its radiation, its expansion of masses); `ClassParams.from_astropy` | an invariant (entries = arguments of the astropy object) kept by constructor, `from_astropy`, copy, pickle, clone; the theorems follow from it |
| C129 | `GeorgeSimulationData` and its set: columns, scalers, kernel, process and prediction over exact reals, the cache of every property with its declared parents, arguments of a call | the Gaussian kernel is positive (definite) by the series of the exponential; the cache agrees with the parameters as an invariant of the harmless operations; units and order by uniqueness of the mean |
| C130 | `SimulationP11`, `SimulationPdv`: loading of the tables into the data frame and the grid, the interpolation table (the model of C90), calls, assignments; `Pdv_jennings`, `Pvv_jennings` with the state they change and exceptions | the grid and entries of the table by induction over the tables; values by C90; the jump as a one-sided limit |
| C131 | `periodic_gaussian_covariance`, `cutsky_gaussian_covariance` of multipoles on floats with infinities and nan, with the rule of `broadcast_kmu` | values by computation, definiteness as a sum of squares and linear independence of the Legendre polynomials on the angles, limits by uniform continuity, optimal weights by Cauchy-Schwarz |
| C132 | `sel`, `remap_label_indexers`, `get_nearest` with the pandas lookup of the nearest label, iteration over blocks, `normalized` | nearest label by counting in sorted lists, selection refined to selection by position (C14), enumeration by induction over the product of labels, correlations by the semidefinite form on two vectors |
| C133 | `growth_function`, `alpha_png`, `delta_bias`, `btot` of the quasar spectrum on reals, with the integral as integral | growth equation by the fundamental theorem of calculus, early times and normalisation by comparison with a universe of matter only, transfer function by computation |
| C134 | the `results` setter, `set_fit_results`, `set_fiducial`, `apply` and the choice of start and flags in `run`, on top of the models of results and `set_free_parameters` | invariant over all sequences of operations (good parameter state, right cached statistics under every name), induction over the files, case analysis of `run` |
| C135 | `RSDSpline.__call__`, `InterpolatedFunction`, `interpolated_function` with its cache, the wavenumbers of a model, `power` and `derivative_k` of the dark matter spectrum on arrays | invariant of the caches over all histories of evaluations, induction over the powers of mu, inequalities for the dilated wavenumber on top of C60 |
| C136 | `_load`, `_unload`, `_get_loaded_data`, `load_dm_sims`, `use_spt` on top of the model of the cache: a class is a family of classes, one for each set of tables | invariant over all histories: cached values are those of the class at the current tables; switching tables while the flag is off changes no value, switching the flag drops exactly what may depend on the table |
| C137 | `NonlinearPS` (checks, units, spline, range), `emu`/`emu_noh` (Kriging basis, prediction, reconstruction, interpolation, conversion) with the shipped tables of wavenumbers, lengths and precisions, `hubble.c` | limits as exact doubles; positive definiteness of the Gaussian kernel (C129); chords of the two interpolations; cubic spline of C108; invariant of the bisection, monotone integrals |
| C138 | `bestfit.py`: `to_info`/`from_info` with what they use of `to_csv`/`read_csv` (words, header with one word less, inference of column types), `from_nlopt`, `to_comparison_table` up to formatting | induction over attributes and rows; column-wise inference is the identity on homogeneous columns; rows of the first set as a permutation, entries by lookup |
| C139 | end of `RSDFitDriver.run`, `FittingDriver.run` from the solver on, `finalize_fit`, `FileLogger`, `copy_log`, exits of the `with` statements; one process, files as maps | the run as the list of all states of the disk, every failure an input; invariant over the phases of that list |
| C140 | `calculate_transfer`, `apply_transfers`, limits of gridded transfers, grouping by `_get_theory_callables`, with the exceptions; a prediction is the pair (identifier, k) | the loop over the statistics as a list recursion; outcome for every group by induction; failures as theorems over all data objects |
| C141 | `set_covariance`, `set_all_measurements` and `initialize` on top of the models of C10-C15 and C40-C43, without selection; `x**0.5` is any function | positions kept by trimming are shown to be those of the masks, so that columns and rows move together (`trim_together`) |
| C142 | `update_fiducial` on top of the model of parameter sets of C23: symbol table, children sets, evaluation with a recursion limit | its loops are histories of assignments and reads, so the invariant of C23 carries through them |
| C143 | `chains` as the filling of an ordered dictionary, `corr` as sums over the samples with nan for a vanishing divisor, the masked and unstacked square table, any sort in decreasing order | Cauchy-Schwarz; membership and distinctness of the rows of the product table |
| C144 | the curves yielded by the plotting generators (abscissae, ordinates, error bars, colours), the slices of the combined model, both plots and the residuals | slices by C33; pointwise algebra; the integral over mu of a polynomial |
| C145 | the model setter and constructor of a theory, over a list of objects with references: keywords, range, update, class check, fit parameters, the kept gradient and the kept constraint function | lemmas on dictionaries and update; case analysis; induction over histories |
| C146 | range and ticks, numpy's histogram, the normalised curves, the dictionaries kept by name, panels and figures, over reals; the interpolation is a parameter | Chebyshev's inequality on lists; existence and uniqueness of the bin; invariant of the dictionaries |
| C147 | the constructor and its checks, the three caches, the grid and its interpolation (that of C90), masks, evaluation, `to_poles` with the shapes of C113 and Simpson's rule, `SmoothedXiMultipoles`, over reals; curve_fit, spline and transform are parameters with contracts (satisfied by a concrete instance) | invariant of the caches over histories; zero residuals determine the exponents; continuity by gluing |
| C148 | `histogram_bins` and all methods of `Trace` but the printing and plotting, over reals, with the histogram of C146; spline and root finder are parameters with contracts (both shown to be satisfied), random numbers are arguments | sums of indicator lists; induction on the points of the interpolation and on the random numbers; sorted lists for the median; permutations; affine maps |
| C149 | `format_scaled_param` with its formats and regular expressions on lists of characters and rational numbers, and the second half of `extract_parameter_names` with the shared dictionary of latex names | digits of numbers, uniqueness of the order of magnitude; folds over dictionaries; induction on the parameters and on the analyses |
| C150 | `convolve_multipoles` (default branch) on top of the models of `WindowConvolution` (C50, C51) and of `pk_to_xi`, `xi_to_pk` (C110); `splrep` and the splines of the window are abstract operators with contracts | linearity of the trapezoidal rule; the Bessel functions of C110; the theorems of C50 and C51 at each separation |
| C151 | the metaclass `Schema` on a list of entries; the quasar parameters and their constraints as an instance of the system of `ParameterSet` (C20 to C23), over the reals | induction over the entries; the theorems of C22 and C23 at the instance; real powers |
| C152 | the options with their checks and defaults, the properties of `Cache`, `FittingDriver.__init__` over them, `default_params`, `set_restart`, what the command line adds and what the solvers read; dictionaries have an identity, so that shared defaults are in the model | induction over the order of the options; dictionaries are only appended, so earlier ones keep their contents |
| C153 | the four plots of `plotly/mcmc.py` as lists of panels, and `kde_scipy` with its meshgrid; `np.around`, `np.histogram`, the density estimate are functions with stated contracts | induction over walkers, chains, and the two loops with their counter; the labels by an invariant of the shared dictionary |

## What is modelled and what is not

Modelled (line by line; see the citations in `lean/Verif/Model/*.lean`):

* `rsd/_cache.py` (all), `rsd/tools.py` AP functions, shape handling, multipole decorators, `cacheable`, lookup-table fallback, halo bias relations; `rsd/_interpolate.py` (all); `extern/backports/lru_cache.py` (all branches).
* The declarations and read sets of all cached attributes of the five spectrum classes, as tables extracted from the source by `tools/readsets.py` (the extraction is trusted; its rules are in `Model/Shipped.lean`).
* `rsd/power/gal/*`, `rsd/power/qso/*` with their analytic derivatives, `rsd/power/gradient.py`; of `rsd/power/dm/power_dm.py` the mu expansion, `preserve`, `use_cache`, `Pdv_jennings`, max_mu, AP application.
* `rsd/hzpt/*` with the C++ classes of `ZeldovichPS.cpp`, `LinearPS` and `Q3_Zel`.
* The perturbation-theory integrals of `_gcl` (`Imn.cpp`, `Jmn.cpp`, `Kmn.cpp`, `ImnOneLoop.cpp`, `OneLoopPS.cpp`, velocity integrals of `PowerSpectrum.cpp`), quadrature and splines abstract.
* `_gcl/cpp/Spline.cpp` (all but `max`/`min`/`clone` of the implementations), `Cosmology.cpp` with `pygcl.py`'s subclass and `rsd/cosmology.py`'s `to_class`; `SpecialFunctions.cpp`, `CorrelationFunction.cpp`, `Kaiser.cpp`; `extern/mcfit` (spherical Bessel kernels only), `fftlog.f` (`loggamma` and `cdgamma` enter as a function whose exponential is Γ).
* `rsd/pt_integrals.py` and all terms in `rsd/power/dm/*.py`, `rsd/power/biased/*.py` as formulae over these integrals (`Model/PT.lean`).
* `rsd/window.py` (kernels, convolution), `rsd/transfers/grid.py`, `poles.py`, `window.py`, `__init__.py`, and C++ `DiscreteQuad.cpp`.
* `rsdfit/parameters/*` (distributions, parameter, parameterset, replace_vars), `rsdfit/theory/base.py`, `gal_defaults.py` (constraints), `decorators.py`.
* `rsdfit/data/covariance_matrix.py`, `power_measurement.py`, `tools.py` (units).
* `rsdfit/driver.py`: probabilities, gradient, Fisher matrix, restarts, alignment of vectors.
* `rsdfit/solvers/*` (LBFGS complete; emcee bookkeeping, convergence test, chain manager), `rsdfit/util/mpi_manager.py`, file naming in `rsd_io.py`, `rsdfit/results/*`, the analysis of chains in `rsdfit/analysis/` (not its plots).

Not modelled: plotting (`rsdfit/util/plot.py`, `plotly`), command-line parsing, logging; CLASS (an abstract function of the
model parameters); adaptive quadrature (abstract linear/homogeneous maps); `simulation.py` Gaussian-process tables (abstract functions); floating-point rounding;
real concurrency inside numpy/MPI (messages are modelled as interleavings).

Each theorem's comment states its own simplifications; the header comment of each model file states those common to the file.

## Findings (behaviour of the code that violates a property, each proved)

* **C03** (A reading taken inside `preserve()` does not survive it) — False in full: parameters unset before the block leave stale results; an exception skips the restore. Witnesses: `Cache.C03_unset_counterexample`, `Cache.C03_exception_counterexample`.
* **C04** (Deleting a parameter invalidates what was computed from it) — False in full: ParameterProperty has no invalidating __delete__. Witnesses: `Cache.C04_counterexample`.
* **C05** (An assigned parameter reads back) — False for arrays within numpy.allclose of the old value. Witnesses: `Cache.C05_array_counterexample`.
* **C06** (Cache overrides leave no trace) — False in full: results computed under an override stay cached. Witnesses: `Cache.C06_counterexample`.
* **C08** (The evaluation memo is transparent) — False in full: the memo key omits the object and the model parameters. Witnesses: `Memo.C08_stale_counterexample`, `Memo.C08_two_objects_counterexample`.
* **C09** (Declared parents of the shipped models cover what they read) — Proved for all five shipped classes, for any code reading at most what the (machine-extracted) tables say, with the exact list of (attribute, parameter) pairs that are not covered: interpolate (dark-matter terms), use_tidal_bias (halo-matter terms), the b2_00_a/b2_01_a coefficients under 'vlah', the quasar total bias on redshift/cosmology, bias_to_sigma_relation, interpolation domains of P22_ss and the quasar P_mu6. The read sets are extracted from the source by tools/readsets.py (trusted, over-approximate). Witnesses: `Shipped.C09_stale_counterexample`.
* **C100** (The nonlinear bias functions are those asked for) — Proved except: a bias mapped to another that is a polynomial is served stale when coefficients of that one change; the shorthands b2_00=... and b2_01=... always raise ValueError (the dict is copied before they are taken out). Also proved: nonlinear_bias_defaults only has the last bias; b2_00_b and b2_00_c are used in each other's place compared to their documentation; loops of mappings exhaust the stack. Witnesses: `NlBias.C100_shorthand_counterexample`, `NlBias.C100_defaults_counterexample`, `NlBias.C100_stale_counterexample`, `NlBias.C100_documentation_counterexample`.
* **C101** (The cosmology object keeps its normalisation and its parameters) — The normalisation is proved for every history that does not call NormalizeTransferFunction directly (for which it fails), with the exact integral in place of the quadrature. Copies are proved equal for all transfer functions but FromArrays. The rest is false of the code, and proved so: update with another transfer function than that of CLASS changes nothing; a change of the transfer function, update, clone(tf) and the copy constructor forget SetSigma8; the no-wiggle spectrum is therefore off by the squared ratio of the two sigma8; from_power ignores the power spectrum; objects from it cannot be copied. Witnesses: `Cosmo.C101_sigma_window_counterexample`, `Cosmo.C101_normalize_counterexample`, `Cosmo.C101_sigma8_lost_counterexample`, `Cosmo.C101_update_ignored_counterexample`, `Cosmo.C101_update_pickle_counterexample`, `Cosmo.C101_from_power_counterexample`, `Cosmo.C101_to_class_counterexample`, `Cosmo.C101_arrays_counterexample`, `Cosmo.C101_normed_nw_counterexample`.
* **C103** (The halo spectra of the different terms are consistent) — True without tidal terms (the exact second-order difference is proved); with tidal bias the spectra differ at first order (exact difference and a concrete spectrum where it is nonzero). Witnesses: `PT.C103_tidal_counterexample`.
* **C106** (To second order in the linear spectrum the spectra are those of one-loop perturbation theory, also for tracers and with two-loop terms) — Holds for P_mu0, P_mu2 and P_mu4; exact quadrature and splines, spectra with power in a band inside (1e-5, 10] and below 60k, k in the range of the splines; for tracers: perturbation theory for the halo-matter spectrum, stochasticity subtracted, one second-order bias in all terms (the three the code distinguishes at this order being equal), linear-theory velocity dispersion. False for P_mu6: the two-loop matter P_mu6 uses f23 where perturbation theory has f32 (ImnOneLoop.cpp, case 8), and that of tracers lacks the term -f^4 k^2 sigma^2 P; both proved. Witnesses: `PT.C106_mu6_counterexample`, `PT.C106_biased_mu6_counterexample`.
* **C108** (The splines go through their tables and are as smooth as they say) — Real arithmetic. The header calls the cubic spline natural; it is not (C108_natural_counterexample): the end conditions match the cubics through the first and last four points. Witnesses: `Spline.C108_natural_counterexample`.
* **C11** (Saving a covariance matrix to plain text and loading it returns the same matrix) — False in full: one-row matrices, inverse rescaling and non-float attributes are lost. Witnesses: `Cov.C11_one_row_counterexample`, `Cov.C11_rescaling_counterexample`, `Cov.C11_attrs_counterexample`.
* **C110** (Correlation functions are the Fourier transforms of power spectra) — The method FFTLog: C111. For arguments of the Bessel functions below 10^-4 the transforms are not exact (C110_bessel bounds the difference). False of the code: Kaiser::P_s ignores the bias (C110_kaiser_bias_counterexample). Witnesses: `Xi.C110_kaiser_bias_counterexample`.
* **C112** (The survey window acts on the multipoles and nothing else does) — False of the code at the defaults: the separations of the last multipole are used for all, but with lowring they differ from multipole to multipole by about one step (C112_slip_counterexample), so that the other multipoles come out multiplied by a constant (C112_no_window_counterexample). Not modelled: the interpolation to k_out. Witnesses: `WinTransfer.C112_slip_counterexample`, `WinTransfer.C112_no_window_counterexample`.
* **C113** (Every value of a returned spectrum stands at its own (k, mu), whatever the shapes of the arguments) — Proved for all accepted arguments. False of the code: one mu with several k (documented) or one k with several mu is refused, for quasars even flattened; a two-dimensional k that varies along a row is mislabelled; the flag by position is refused; the multipole methods refuse one k; with 41 k they use an even number of points, so the monopole at a k depends on how many k are asked for. Witnesses: `Bcast.C113_single_counterexample`, `Bcast.C113_scalar_counterexample`, `Bcast.C113_labels_counterexample`, `Bcast.C113_positional_counterexample`, `Bcast.C113_qso_counterexample`, `Bcast.C113_multipole_counterexample`, `Bcast.C113_monopole_length_counterexample`.
* **C114** (The halo mass of a bias has that bias, and the velocity dispersion follows the mass) — Proved for the root finder and at the nodes of the table. False of the code: below one the bias does not determine the mass; the table is never recomputed when the cosmology changes and ignores delta_halo; a failed node raises a NameError in the handler; the default dispersion is in Mpc and not Mpc/h; any failure at an ordinary bias silently gives a vanishing dispersion. The error of the table between nodes is only bounded by the corners; the spline of Sigma is an arbitrary function. Witnesses: `HaloBias.C114_low_bias_counterexample`, `HaloBias.C114_evrard_units_counterexample`, `HaloBias.C114_stale_counterexample`, `HaloBias.C114_overdensity_counterexample`, `HaloBias.C114_name_error_counterexample`, `HaloBias.C114_silent_zero_counterexample`.
* **C115** (Chains are declared converged only when they agree, judged on the second half of the samples) — Proved with Python 2 and no sampled value exactly zero; against the published formula the within-chain variances are divided by n instead of n-1. False of the code: with Python 3 the test always raises TypeError (a float in a slice); a sampled zero makes it fail; for a tolerance below 1/(2n) identical chains are not converged; with chains of different lengths the result depends on which file comes first. Witnesses: `Converge.C115_first_chain_counterexample`, `Converge.C115_python3_counterexample`, `Converge.C115_tolerance_counterexample`, `Converge.C115_zero_counterexample`.
* **C116** (The analysis of chains rests on exactly the samples that count, each value under its own name) — Proved when the free names of the first file are in alphabetical order (as the solver writes them) and, for the combined result and the best fit, when one file is given or at least two chains have samples that count. False of the code: thinning always raises IndexError; no constrained parameters: always an error; if only one of several chains has anything that counts, the combined result keeps its burn-in and the best fit is read at a wrong place; the number reported as minimum of -lnL (and the reduced chi-squared) is an average over the walkers; the two-sigma columns gt/lt are exchanged, and in from_mcmc lt_2sigma is the lower end; with no mocks given, rescaling shrinks the errors. Which files are loaded, plots and latex output are not modelled. Witnesses: `Analysis.C116_thin_counterexample`, `Analysis.C116_no_constrained_counterexample`, `Analysis.C116_stale_counterexample`, `Analysis.C116_order_counterexample`, `Analysis.C116_minimum_counterexample`, `Analysis.C116_table_counterexample`, `Analysis.C116_mcmc_table_counterexample`, `Analysis.C116_rescaling_counterexample`.
* **C117** (The contours of the plots of posteriors enclose the fraction of samples they stand for, in every panel those of its own two parameters) — Levels proved when no single bin holds the fraction; panels when every figure lists its parameters in one common order and the scales are one. False of the code: when the largest bin alone holds the fraction the level is the smallest count (hist[-0]) and the levels are not increasing; levels can coincide (contourf refuses them); a second figure that lists a pair in the opposite order shows the histogram of the first transposed; the row parameter's trace is not divided by its scale. Drawing itself (matplotlib), numpy's histogram2d and the one-dimensional plots are not modelled. Witnesses: `Contour.C117_peak_counterexample`, `Contour.C117_equal_counterexample`, `Contour.C117_transposed_counterexample`, `Contour.C117_scale_counterexample`.
* **C118** (Measurements and grids written to a file are read back: every value under its statistic, bin and column) — Round trip proved for measurements of one kind and length, all or none with errors. False of the code: only six digits are written, so a bin just beyond a limit can come back within it; the columns are those of the first measurement, so errors of the others are dropped if it has none; its list of columns is remembered, so errors set later are not written; a first measurement with errors and another without cannot be written. Text encoding of numbers is modelled by rounding to six digits (19 digits of grids: exact); nan in measurement files is not modelled. Witnesses: `DataFile.C118_digits_counterexample`, `DataFile.C118_first_counterexample`, `DataFile.C118_stale_counterexample`, `DataFile.C118_missing_counterexample`.
* **C12** (Trimming a covariance keeps exactly the bins inside the limits) — Proved for lexsorted coordinates when every statistic keeps a bin; otherwise the call raises (proved). 
* **C120** (The Halo-Zel'dovich correlation functions are the Fourier transforms of the Halo-Zel'dovich power spectra) — Proved for all constants with R > 0, R1h^4 > 4 R2h^4 and no double pole, which the shipped constants meet for sigma8 in [0.001, 1.6] (dark matter), [0.1, 1.6] and b1 >= 1 (halos). False of the code beyond: from sigma8 = 2.4 on the dark matter correlation function is NaN. The FFTLog transform of the Zel'dovich term is any function. Witnesses: `Hzpt.C120_large_counterexample`.
* **C121** (A model saved to a file and loaded computes the same as the one saved) — Proved in full for the parameter framework. False of the code for the compiled objects: Zel'dovich spectra that had been used lose the low-k approximation when saved, and tables made afterwards keep it so; loaded correlation functions use the normalisation of the cosmology instead of sigma8_z; a Kaiser object forgets its growth rate; a LinearPS made without a redshift cannot be loaded; models without a version raise instead of warning. Proved: everything at wavenumbers from 0.005 h/Mpc on, spectra not used before saving, and tables made before. Witnesses: `Cache.C121_version_counterexample`, `Hzpt.C121_lowk_counterexample`, `Hzpt.C121_table_counterexample`, `Hzpt.C121_cf_counterexample`, `Hzpt.C121_kaiser_counterexample`.
* **C122** (Adaptive one-dimensional integration always ends, bisects where the error is largest, and meets its tolerance or says so) — Everything but the report of a full workspace, which the code never makes: an integration that reaches the limit of 8192 intervals returns as if it had converged (C122_limit_counterexample). Real arithmetic. Witnesses: `GK.C122_limit_counterexample`.
* **C123** (Concurrent integrations never share a workspace) — Proved for integrands that do not throw, with acquisition and release as single steps. False of the code otherwise: an exception keeps the workspace forever, and the release is not in the critical section of the acquisition. Witnesses: `Workspaces.C123_leak_counterexample`, `Workspaces.C123_race_counterexample`.
* **C124** (Adaptive integration in several dimensions ends, cuts where the error is largest, and is exact for polynomials) — Everything but the sign for reversed limits, which is false of the code (the loop over the corners ends after one): C124_reversed_counterexample. Also shown: an integral that vanishes uses ten million evaluations if only a relative tolerance is given. Real arithmetic. Witnesses: `GM.C124_zero_counterexample`, `GM.C124_reversed_counterexample`.
* **C125** (The parameter file a run writes gives the same parameters back) — Round trip, stability and merging are proved for every run whose values have texts of one field (hypothesis Writable; PFile.Example.run_writable is a run that meets it). False of the code beyond that: a value whose text has =, # or a backslash is refused, cut or lost; an empty dictionary becomes None; a tag is matched as a suffix; an assignment after a $(variable) value is not written; giving only a bound in a file changes the value and fixes the parameter; a file cannot remove a prior or a bound. Evaluation and repr of values are parameters of the model. Witnesses: `PFile.C125_equals_counterexample`, `PFile.C125_backslash_counterexample`, `PFile.C125_hash_counterexample`, `PFile.C125_empty_dict_counterexample`, `PFile.C125_tag_counterexample`, `PFile.C125_assign_counterexample`, `PFile.C125_override_counterexample`, `PFile.C125_bound_counterexample`, `PFile.C125_remove_counterexample`.
* **C126** (Every process of a run starts with the same parameters and model, those asked for, under every interleaving, and nothing is lost if it is killed) — Proved: which files are used; for new folders agreement of all ranks, completion and no deadlock under every interleaving, and that the file given is never changed; for old folders the same with one process; starting from a result file; iterations. False of the code: in a folder with a params.dat rank 0 rewrites it while others read it (different parameters, or a hang), and a kill can empty it; an interrupted first start leaves a partial params.dat that the next start prefers to the file given; a model made in such a folder is not saved; a start result that is searched for is not used; parameter files relying on the defaults of lbfgs_options or init_from cannot be minimised or restarted. Adding one section to a file is one step. Witnesses: `Setup.C126_race_counterexample`, `Setup.C126_hang_counterexample`, `Setup.C126_lost_counterexample`, `Setup.C126_interrupted_counterexample`, `Setup.C126_model_counterexample`, `Start.C126_search_counterexample`, `Start.C126_directory_counterexample`, `Start.C126_nan_counterexample`, `Start.C126_defaults_counterexample`, `Start.C126_prior_counterexample`.
* **C127** (A wedge of a smooth power spectrum is the mean of the power over its range of mu) — Proved: the result is the mean over the samples of the bin, for all powers, bins and numbers of samples; error bounds, convergence. False of the code: a power linear in mu is off by half a spacing in every bin but the last; a bin between two samples is nan; the list of bounds is changed, and a second transfer from it gets other centres; bounds assigned later keep the old centres; the fitting code cannot find the class in the package, so wedges without a grid file cannot be fitted. Witnesses: `SmoothWedge.C127_bias_counterexample`, `SmoothWedge.C127_empty_counterexample`, `SmoothWedge.C127_alias_counterexample`, `SmoothWedge.C127_setBounds_counterexample`, `SmoothWedge.C127_unreachable_counterexample`.
* **C128** (A cosmology has the parameters it was made with, and copies, pickles, clones and CLASS keep them) — Proved for every history of constructions. False of the code: an unpickled (or deep-copied) flat cosmology has the entry Ode0 = 0.69 of the default one; clone(flat=...) changes nothing; from_astropy loses the change of the equation of state (wa) and refuses the extra parameters it documents; `!=` is that of dict and raises for an object and its copy with two neutrinos or more, or says that they differ; `==` is neither symmetric nor transitive and raises for Ob0 = None; update() and assignment to an attribute get around the read-only dictionary; the curvature is not given to CLASS; more than three massive neutrinos raise IndexError. Not modelled: units, the functions of astropy, exact decimal arithmetic is used. Witnesses: `CosmoDict.C128_curvature_counterexample`, `CosmoDict.C128_pickle_counterexample`, `CosmoDict.C128_clone_flat_counterexample`, `CosmoDict.C128_w0wa_counterexample`, `CosmoDict.C128_extra_counterexample`, `CosmoDict.C128_read_only_counterexample`, `CosmoDict.C128_none_counterexample`, `CosmoDict.C128_symmetric_counterexample`, `CosmoDict.C128_transitive_counterexample`, `CosmoDict.C128_ne_counterexample`, `CosmoDict.C128_ne_pickle_counterexample`, `CosmoDict.C128_neutrinos_counterexample`.
* **C129** (Simulation results are interpolated with the Gaussian process asked for, in any units, and an object that changes gives what a new one gives) — Proved for every table. False of the code: once a call has succeeded, assigning theta, use_errors or dependent changes no result, and new names of the independent columns only rename the old ones (gp declares data, kernel and solver, and x, y, yerr declare data); proved for all objects, with a table of two rows where a new object gives other values. The last sentence is proved for histories without these assignments, and after any history once a new table is assigned. The solver of george is exact algebra; an empty list of independent variables is not modelled. Witnesses: `SimFit.C129_not_noticed_counterexample`, `SimFit.C129_renamed_counterexample`, `SimFit.C129_stale_counterexample`.
* **C13** (Covariance arithmetic is elementwise arithmetic) — False in full: reflected subtraction, products of two matrices, results within allclose of the operand. Witnesses: `Cov.C13_rsub_counterexample`, `Cov.C13_product_counterexample`, `Cov.C13_small_elements_counterexample`.
* **C130** (Velocity spectra from simulations reproduce the simulations, scale as linear theory and join on smoothly outside the tables) — Proved for all tables. False of the code: beyond the redshifts of the tables the amplitude is the redshift itself, so f and sigma8 do not enter and the spectrum jumps at the edge (unless (f sigma8)^2 is the last redshift); an assigned linear spectrum is not checked to be at redshift 0 and is normalised with the sigma8 of the first; an exception inside the fitted spectra leaves the model with the sigma8 of today; the fitted velocity auto spectrum today is negative exactly where the matter spectrum is below (12480.5/1.824)^(2/3). Witnesses: `SimSpectra.C130_edge_counterexample`, `SimSpectra.C130_linear_counterexample`, `SimSpectra.C130_redshift_counterexample`, `SimSpectra.C130_exception_counterexample`, `SimSpectra.C130_negative_counterexample`.
* **C131** (Gaussian covariance matrices of multipoles are the Gaussian prediction and can be inverted) — False of the code: if there are as many wavenumbers as angles (101 with the default Nmu) the power is used point by point and the covariance over the modes is the same at all wavenumbers; if one redshift shell contains no objects all elements of the survey matrix are 0. Not modelled: fewer than two wavenumbers, Nmu = 0 (squeezed axes); an xarray spectrum in the box version. The version for wedges always raises NameError (numpy is imported as np) and is not modelled. Witnesses: `GaussCov.C131_empty_counterexample`, `GaussCov.C131_line_counterexample`.
* **C132** (Selecting by label, iterating over blocks and normalizing a covariance matrix give the elements they name) — Proved for all inputs except: False of the code: a block with as many rows as columns that is not symmetric loses its lower triangle (the result is forced into a covariance object); with coordinates that are not in lexicographic order, or wavenumbers that differ between the statistics, looking up is a ValueError; a matrix that is allclose to its correlation matrix is returned as it is. Not modelled: the base class with one label per axis, label slices with a step, empty lists of values. Witnesses: `Labels.C132_order_counterexample`, `Labels.C132_block_counterexample`, `Labels.C132_wavenumbers_counterexample`, `Labels.C132_correlation_counterexample`.
* **C133** (Growth and the bias of quasars in non-Gaussian universes are those of linear theory) — Proved with exact integrals, on the wavenumbers from which the splines are made. False of the code: with ignore_cache the factor alpha depends on the other wavenumbers asked for. Not modelled: the values of the splines between their wavenumbers and the errors of the quadrature; the growth D of CLASS is a number. Witnesses: `Png.C133_alone_counterexample`.
* **C134** (A driver told to take the fit results has the parameters of the results, and a run starts where it was told to) — False of the code: values outside the bounds are dropped silently, so that the parameters stay what they were and apply evaluates the function at the values of the file before; a file whose names are in another order than the theory loses its burn-in; a run from a result with a parameter that has no value anywhere starts from nan, because has_fiducial is compared to None. numpy's percentile, argmax and the peak finder are contracts. Witnesses: `Apply.C134_out_of_bounds_counterexample`, `Apply.C134_apply_counterexample`, `Apply.C134_burnin_counterexample`, `Apply.C134_start_counterexample`.
* **C135** (A spectrum is only returned at the wavenumbers the model covers) — False of the code: kmin and kmax are documented as limits of the observed wavenumbers, and the wavenumbers as following the dilations, which they do not; derivative_k extrapolates silently where power is an error; the spectrum at nan is 0; with ignore_cache the derivative is dropped. scipy's spline is a contract, shown to be satisfiable. Witnesses: `InterpDomain.C135_observed_counterexample`, `InterpDomain.C135_derivative_counterexample`, `InterpDomain.C135_nan_counterexample`, `InterpDomain.C135_ignore_derivative_counterexample`.
* **C136** (Simulation data and switches taken for a block are used inside it and undone after it) — False of the code: loading a table over another one of the same term leaves what was computed from the old one in the cache, because the flag does not change; a block left by an exception leaves its tables; an inner block unloads the tables of the outer one; use_spt swallows every exception raised inside it. Witnesses: `Loaded.C136_reload_counterexample`, `Loaded.C136_exception_counterexample`, `Loaded.C136_nested_counterexample`, `Loaded.C136_swallowed_counterexample`.
* **C137** (The emulated nonlinear spectrum is the emulator's, in the units of the object, for every cosmology of its box) — False of the code: an equation of state of -0.7 or a sigma_8 of 0.9, both documented as allowed, end the Python process, because the emulator computes its own limits in doubles; nan as a redshift is accepted and gives nan; an empty array is an exception and nan as a wavenumber undefined; the bisection for the Hubble parameter of the CMB returns 1 without a word if there is none in its interval, or if it hits it exactly. The quadrature of the distance is an argument of the model. Witnesses: `Emu.C137_exit_counterexample`, `Emu.C137_array_counterexample`, `Emu.C137_nan_counterexample`, `Emu.C137_unbracketed_counterexample`, `Emu.C137_hit_counterexample`.
* **C138** (Tables of best-fit parameters survive being written and compare each fit with its own numbers) — False of the code: the table of every fit with nlopt is read with the names as best-fit values and the values as medians, because empty cells vanish; a table without attributes is appended to what is in the file; truth values among the attributes are read as true, texts as their first word, None is an error; a parameter that the first fit does not have is not compared; two fits of the same name show the second; parameters without a LaTeX name lose their label once another one has one, and the tables of the caller are changed; as many parameters as data points is an error. How numbers are written, and LaTeX output, are not modelled. Witnesses: `BestFit.C138_nlopt_counterexample`, `BestFit.C138_append_counterexample`, `BestFit.C138_meta_counterexample`, `BestFit.C138_compare_dropped_counterexample`, `BestFit.C138_compare_same_name_counterexample`, `BestFit.C138_compare_label_counterexample`, `BestFit.C138_compare_zero_counterexample`.
* **C139** (Whatever fails in a run and whenever it is killed, no result is lost, and the log says what happened) — False of the code: a run in which the solver raises, or LBFGS ends with an error, leaves no log and no trace of the exception, nor does one that restarts a file whose log is not found; the exit status is 0 whatever happened; after ctrl+c in a restarted chain the old steps are on the disk twice; if no name can be made for the results they are not kept; a run killed when it saves leaves an empty results file. Witnesses: `RunEnd.C139_log_lost_counterexample`, `RunEnd.C139_old_log_counterexample`, `RunEnd.C139_exit_counterexample`, `RunEnd.C139_twice_counterexample`, `RunEnd.C139_name_counterexample`.
* **C14** (Selecting a sub-block of a covariance returns that sub-block) — False in full: square off-diagonal blocks are symmetrised, index order is not kept. Witnesses: `Cov.C14_offdiagonal_counterexample`, `Cov.C14_order_counterexample`.
* **C140** (Every configured data set yields a theory vector in which each entry is for the statistic and bin of the data vector's entry) — False of the code: wedges never yield a theory (their bounds are looked up among the centres, proved for all data sets); a proper selection of statistics always raises without window and grid, and with a window it raises or not depending on the order of a set; multipoles above max_ellprime raise; a grid and parameters of one statistic exclude each other; with a selection, parameters of one statistic are used for another. Proved where it holds: one group, in the order of the file or on common bins. Theory decorators are not modelled. Witnesses: `TheoryVec.C140_order_counterexample`, `TheoryVec.C140_specific_counterexample`, `TheoryVec.C140_ranges_counterexample`.
* **C141** (A data set is loaded with the covariance and error bars of its own bins) — Proved from the file to the trimmed covariance and error bars, for all fitting ranges, without mocks (with mocks: C15). False of the code: a covariance made of error columns is rescaled but the error bars are not; rescalings of small elements are dropped; a covariance file for other bins, or with the statistics in another order, is accepted if its size is right; missing errors give a TypeError. Witnesses: `LoadCov.C141_rescaled_counterexample`, `LoadCov.C141_small_counterexample`, `LoadCov.C141_other_bins_counterexample`, `LoadCov.C141_swapped_counterexample`.
* **C142** (The fiducial of a constrained parameter is its constraint at the fiducials, and taking it changes no value) — Proved for constraints whose constrained dependencies are flat, and for fiducials at any depth when the dictionary is in dependency order. False of the code otherwise: three levels of constraints keep the fiducial as value afterwards, or the value as fiducial; a parameter without a fiducial counts as infinite, so a ratio gets the fiducial 0; an unprepared set raises and is left at the fiducials. Fiducials out of the bounds of a free parameter and expressions that raise are not covered. Witnesses: `UpdateFid.C142_missing_counterexample`, `UpdateFid.C142_not_prepared_counterexample`, `UpdateFid.C142_trace_counterexample`, `UpdateFid.C142_stale_fiducial_counterexample`.
* **C143** (The tables of chains and correlations hold every parameter asked for once, with its own chain, and every pair once, in order) — Proved for all chains over the reals. False of the code: asking for the constrained parameters of a fit without any gives the free ones; parameters given the same label share one column and the first is lost. pandas' corr, unstack and sort_values are modelled from their documentation; samples are finite. Witnesses: `ChainCorr.C143_constrained_counterexample`, `ChainCorr.C143_label_counterexample`.
* **C144** (Plots of a fit show every statistic's data and prediction on the same footing) — Proved for the static plot and the residuals. False of the interactive plot of wedges: the data are offset, the theory is not. More than seven statistics cannot be plotted with the default palette. Labels, axes and titles are not modelled; that the combined model is the concatenation of the predictions is C33/C140. Witnesses: `FitPlot.C144_plotly_counterexample`, `FitPlot.C144_eight_counterexample`.
* **C145** (Setting the model of a fit: right class, the file's options, a range of k over the data, everything computed with it, others untouched) — Proved for all files, ranges, models and histories: class, options, the rest, the range of k (min and max of what the data and the file ask), the parameters of the fit, independence of the history for a new model, all other models untouched. False of the code, with proofs: once a gradient has been taken it stays that of the model of that time (the gradient object is kept); constraints go on asking the first model for velocity dispersions; a file with a model of another class raises only after it was assigned, and then predictions and parameters are of two models; a model that is handed over is narrowed to the data's range, so two fits with one model break each other. Witnesses: `SetModel.C145_gradient_counterexample`, `SetModel.C145_asked_counterexample`, `SetModel.C145_wrong_file_counterexample`, `SetModel.C145_shared_counterexample`.
* **C146** (One-dimensional posteriors show all samples of their own parameter, in the units of the axis) — Proved for all samples and figures: own samples in every panel (dictionaries kept by name), bins, height, range, ticks (at least two, at least ten bins), invariance of the likelihood curve. False of the code, with proofs: boundaries and fiducials are drawn unscaled on a scaled axis; the .hist file of a posterior holds the likelihood curve by default; the mean likelihood is a sum, not a mean. The cubic interpolation is any interpolation through its knots; labels, titles and colours are not modelled. Witnesses: `Plot1D.C146_mean_counterexample`, `Plot1D.C146_units_counterexample`, `Plot1D.C146_file_counterexample`, `Plot1D.C146_fiducial_counterexample`.
* **C147** (An extrapolated power spectrum is the model's inside and continues it outside) — Proved for all models, limits and histories without a change of the model: one function, the model inside, power laws with the model's end values outside, continuity, sign, exactness for power laws (at the mu of the grid, when the end is an end of the grid), multipoles and correlation function. False of the code, with proofs: the documented default limits are always refused; model_func is ignored and `Pgal` called, which no model of the package has, so the class and SmoothedXiMultipoles never work with them; after a change of the model the old slopes are kept; with as many orders as wavenumbers, or as many wavenumbers as mu, to_poles returns something else. The least-squares fit, the spline and the transform are parameters with stated contracts. Witnesses: `Extrapolate.C147_default_counterexample`, `Extrapolate.C147_function_counterexample`, `Extrapolate.C147_changed_model_counterexample`, `Extrapolate.C147_poles_orders_counterexample`, `Extrapolate.C147_poles_paired_counterexample`.
* **C148** (The distribution of a chain is a histogram of unit area, and draws from it invert its cumulative distribution) — Proved for all chains: bins, density, cumulative distribution at and between the centres, limits, order, units; draws and grids when no random number or level is below the mass of the first bin. False of the code, with proofs: outside of the samples the density is a positive constant and the cumulative distribution does not go to zero; for every chain, random numbers below the mass of the first bin make draw raise a ValueError, and so does grid with as many points as samples; a list of samples is accepted but only has limits; with fewer than four bins (always with two samples) nothing can be drawn. Witnesses: `Trace.C148_tails_counterexample`, `Trace.C148_draw_counterexample`, `Trace.C148_grid_counterexample`, `Trace.C148_list_counterexample`, `Trace.C148_few_counterexample`.
* **C149** (Every parameter of an analysis is on the figures it belongs to, under a label that names its scale) — Proved for all names, choices, groups and scales: the figures, the entries, the labels of powers of ten and of integers below 1000, the order of magnitude in the label of every positive factor, and that parameters no analysis scales keep their labels. False of the code, with proofs: other factors lose their digits (a half is labelled as a tenth, 2000 as 1000, 2.5 as 2, 0.96 with an empty exponent), a name that begins with a digit changes the exponent; one group of two-dimensional figures is a TypeError, and a parameter of two groups is on the figure twice; a second analysis in one process has the factor twice in the label, because the dictionary of the package is changed; a missing latex name is an error after others have been changed. Witnesses: `PlotNames.C149_label_counterexample`, `PlotNames.C149_figures2_counterexample`, `PlotNames.C149_twice_counterexample`, `PlotNames.C149_missing_counterexample`.
* **C15** (The Hartlap correction survives until it is used) — Holds at initialisation; false after later limit changes (proved for every data set). Witnesses: `Cov.C15_counterexample`.
* **C150** (Convolving power multipoles with a survey window multiplies their correlation function by the window) — Proved for the default branch, for all arrays, windows and orders: exactly what is accepted, the value at every wavenumber in terms of the spherical Bessel functions, the trapezoidal rule and multipoles of a product of functions of the direction (arguments of the Bessel functions at least 1e-4), the dry run, linearity, the grid, and that a window that is 1 is a dry run if the multipoles are 0, 2, ..., max_ellprime in this order. False of the code, with proofs: otherwise a window that is 1 deletes a multipole above max_ellprime, and exchanges multipoles given in another order. The branch legacy=False is not modelled here (its transforms are, see C111 and C112). Witnesses: `ConvPoles.C150_high_counterexample`, `ConvPoles.C150_order_counterexample`.
* **C152** (The options of a fit are those of its file, else the documented defaults, and the solver uses them) — Proved for all files, values and orders: what is accepted, the values of the options, `default_params`, and that the solvers use the values of the driver where the file gives them (and, without the file, wherever the solver has the same default). False of the code, with counterexamples: without `lbfgs_options` or `init_from` in the file `nlopt` raises a KeyError; without `init_from` or `burnin` the sampler uses the prior and 100 where the driver says fiducial and 0; the restart of a driver without `lbfgs_options` changes the default of all other drivers; an option set on the driver after it is made is not used by the solver nor saved Witnesses: `Opts.C152_nlopt_default_counterexample`, `Opts.C152_mcmc_default_counterexample`, `Opts.C152_shared_counterexample`, `Opts.C152_late_counterexample`.
* **C153** (The interactive plots of chains show the samples of the parameters asked for, each under its own label) — Proved for all results: what every panel shows, the area of the bars, the labels (in any sequence of calls that share the default dictionary), the place of every panel of the triangle. False of the code, proved: one walker more than max_walkers is drawn (C153_one_walker_more); with bins wider than 200000 all bars have height zero, as heights are rounded to five decimals (C153_flat); the curve runs over all samples exactly if none is negative (C153_curve); the caller's dictionary gains the two parameters (C153_labels_partial); the histograms of the triangle are not thinned (C153_triangle_partial) 
* **C20** (Log-prior and hard bounds agree) — Proved for every history of operations with hard priors and every non-NaN value; false for NaN values, improper uniform priors and after a clamping read. Witnesses: `Priors.C20_nan_counterexample`, `Priors.C20_improper_uniform_counterexample`, `Priors.C20_read_clamps_counterexample`.
* **C22** (Setting the free parameters is all-or-nothing) — Refusal and acceptance are proved; when the model rejects the values with an exception the parameters have already been changed (counterexample). Witnesses: `Params.C22_exception_counterexample`.
* **C23** (Constrained parameters always reflect the current free parameters) — Proved for every history when the expression mentions only unconstrained or flat constrained parameters, and for reads in dependency order at any depth; false for three levels, out-of-bounds assignments, and the shipped derived b1. Witnesses: `Params.C23_gal_b1_counterexample`, `Params.C23_deep_counterexample`, `Params.C23_out_of_bounds_counterexample`.
* **C25** (Prior gradients are the derivatives of the log-priors) — Proved for the analytic priors (every history, every value); false with hard bounds (error bound proved). Witnesses: `Priors.C25_hard_counterexample`.
* **C26** (Switching priors to analytic approximations sticks) — Proved for operations that do not change bounds/hyper-parameters; changing a bound brings the hard version back (counterexample). Witnesses: `Priors.C26_counterexample`.
* **C31** (chi2 and lnlike at theta are evaluated at theta) — False out of bounds: the previous point is evaluated silently. Witnesses: `Driver.C31_counterexample`.
* **C32** (The numerical gradient is taken at theta and leaves no trace) — The central difference is right; the parameters are left at theta - epsilon in the last component and its prior derivative is taken there. Witnesses: `Driver.C32_state_counterexample`.
* **C33** (Theory and data vectors are aligned bin by bin) — False in full: arbitrary set order with different k grids, different ranges without window, specific parameters on a later statistic. Witnesses: `Cov.C33_set_order_counterexample`, `Cov.C33_ranges_counterexample`, `Cov.C33_specific_counterexample`.
* **C34** (The Fisher matrix is symmetric and reduces correctly) — Proved of the assembly and of marginalized_errors for every gradient; the driver as shipped lacks the attribute the gradient is read from, so fisher() always raises unless numerical_from_lnlike is given, and marginalized_errors returns a matrix with NaN entries rather than the errors. Witnesses: `Fisher.C34_shipped_counterexample`, `Fisher.C34_matrix_counterexample`.
* **C40** (Changing k-limits is consistent across a data set and reversible) — Every history is characterised (C40_history); the covariance is consistent only if limits are never widened. Witnesses: `Cov.C40_widening_counterexample`, `Cov.C40_exception_counterexample`, `Cov.C40_close_limits_counterexample`.
* **C42** (Selecting statistics keeps data, labels and covariance aligned) — False for selections not in increasing order. Witnesses: `Cov.C42_order_counterexample`.
* **C43** (Error bars taken from a covariance matrix are those of the right bins) — Equal bin counts, as at loading time; with unequal counts the slices are wrong (counterexample). Witnesses: `Cov.C43_unequal_sizes_counterexample`.
* **C50** (A trivial survey window does nothing) — Exact result without a window proved for every request; the identity holds for the multipoles 0,2,..,max_ellprime in this order; higher multipoles are deleted and other orders permuted (counterexamples). Witnesses: `Window.C50_high_counterexample`, `Window.C50_order_counterexample`.
* **C52** (Binned averages are weighted means) — Whenever a result is returned it is the weighted mean; a multipole transfer on a grid with a single k always fails, and the list of bounds of the caller is modified (counterexamples). Witnesses: `Transfers.C52_one_k_counterexample`, `Transfers.C52_alias_counterexample`.
* **C61** (AP distortion and volume rescaling are applied exactly once) — Single-threaded evaluation, at any nesting depth and with exceptions; concurrent evaluations in two threads share the lock (counterexample). Witnesses: `AP.C61_threads_counterexample`.
* **C63** (Analytic model derivatives are the true partial derivatives) — Each galaxy derivative is proved correct exactly when the stated condition holds (iff); false in general for fsB, alpha_drag != 1 and N != 0 with the SO correction. Witnesses: `Rsd.C63_qso_sigma8_counterexample`, `Rsd.C63_qso_sigma_fog_counterexample`, `Rsd.C63_gal_fsB_counterexample`, `Rsd.C63_gal_drag_counterexample`, `Rsd.C63_gal_noise_counterexample`.
* **C65** (Temporary parameter changes inside an evaluation are undone) — False in full: an exception inside an evaluation skips the restore. Witnesses: `Rsd.C65_exception_counterexample`.
* **C66** (The shot-noise offset parameter N offsets the model) — True for quasars; the galaxy model ignores N (proved for every model). Witnesses: `Rsd.C66_gal_counterexample`.
* **C68** (The gradient of the power is the gradient along the free parameters, constraints included) — Exact error term proved (C68_total): model parameters reached only through other constrained ones are left out; never happens with the shipped galaxy constraints (C68_gal_shipped), does with a released b1_cB (counterexample). Wrong also for scalar k, mu and when theta is not the current point. Witnesses: `Grad.C68_indirect_counterexample`, `Grad.C68_theta_counterexample`, `Grad.C68_scalar_counterexample`, `Grad.C68_bound_counterexample`.
* **C70** (The optimiser never accepts a worse point) — Decrease, termination and meaning of the status are proved for every run under the Armijo contract of the line search; max_iter=0 still does one iteration, a stationary start is reported as -4, and the documented relative tolerance differs for negative objectives (counterexamples). Witnesses: `Lbfgs.C70_max_iter_zero_counterexample`, `Lbfgs.C70_stationary_counterexample`, `Lbfgs.C70_ftol_counterexample`.
* **C73** (Restarting a chain continues it) — Proved for whole restarts and any sequence of them (with re-ordered names and interrupted sampling) when there are constrained parameters and no sample is exactly zero; with no constrained parameters the concatenation fails, and the burn-in of the statistics is lost (counterexamples). The sampler itself (emcee) is not modelled. Witnesses: `Results.C73_no_constrained_counterexample`, `Results.C73_burnin_counterexample`, `Restart.C73_restart_counterexample`.
* **C74** (Coordinated shutdown of parallel chains) — Every interleaving of exceptions, deliveries and checks is covered; a chain waiting at the barrier of the convergence test is never released if another has left (counterexample). Witnesses: `Solvers.C74_deadlock_counterexample`.
* **C76** (Result files never overwrite one another) — Sequential calls, base name not ending in an extra underscore; two concurrent calls can choose the same name (counterexample). Witnesses: `Solvers.C76_race_counterexample`.
* **C77** (Initial walker positions are in bounds) — The optimiser's drawing loops return only in-bounds points, for every random stream. Violations: without scatter the start is not checked; a negative coordinate makes scattering raise and a zero one is not scattered; the MCMC initialiser uses the 102nd attempt unchecked; the random ball is not checked. Proved for MCMC when one of the first 101 attempts of each walker is in bounds. Witnesses: `Init.C77_scatter_counterexample`, `Init.C77_unchecked_counterexample`, `Init.C77_univariate_counterexample`, `Init.C77_ball_counterexample`.
* **C80** (Re-ordering results keeps values attached to names) — Traces are kept for every permutation; burn-in is forgotten, the best-fit dictionary of constrained parameters and the constrained values of LBFGS results are permuted wrongly (counterexamples). Witnesses: `Results.C80_burnin_counterexample`, `Results.C80_maxlnprob_counterexample`, `Results.C80_lbfgs_counterexample`.
* **C81** (Summary statistics of a chain follow the burn-in) — Median and intervals proved for every history; the peak is not refreshed when the burn-in changes (counterexample). Witnesses: `Results.C81_peak_counterexample`.
* **C82** (Loading a saved chain recovers it) — Proved for chains without exact zeros; zeros are dropped (counterexample). Witnesses: `Results.C82_zero_counterexample`.
* **C83** (HZPT P01 is the ln a derivative of P00) — Proved for k >= 0.005 without interpolation tables; below, the low-k approximation of P01 lacks the k^4 term, and the exact difference is proved. The FFTLog transform is a fixed linear map, the quadrature a homogeneous functional. Witnesses: `Hzpt.C83_lowk_counterexample`.
* **C84** (HZPT spectra depend only on the current parameters) — Proved for every history with positive sigma8 (real arithmetic). A zero sigma8 destroys the arrays silently; a raising setter leaves the collection changed; with tables, the value at k depends on the other k of the same call. Witnesses: `Hzpt.C84_zero_counterexample`, `Hzpt.C84_error_counterexample`, `Hzpt.C84_batch_counterexample`.
* **C90** (Grid interpolation reproduces the table and stays inside it) — Any dimension, any strictly ascending grid with at least two nodes per coordinate, finite points; a single-node coordinate is accepted by the constructor but cannot be interpolated (counterexample). Nearest-neighbour indexing as in numpy before 1.23. Witnesses: `Interp.C90_single_node_counterexample`.
* **C92** (A parameter that defaults to another attribute follows it) — False in general (counterexample); holds where declarations cover the default (hypothesis DefaultsCovered of C01_never_stale). Witnesses: `Cache.C01_default_counterexample`.
* **C94** (The perturbation-theory integrals cover all triangles once) — Exact quadrature and integrable integrands. False for the two-loop pair (3,2), whose linear and one-loop parts use another kernel than the cross part (counterexample). Witnesses: `PT.C94_two_loop_32_counterexample`.
* **C98** (Unbiased tracers have the spectrum of the matter) — Equal at mu0 and mu2 (with two-loop terms); at mu4 the tracers lack one term, at mu6 they lack the two-loop terms (exact differences proved). The mu6 dark-matter term without two-loop terms cannot be evaluated (counterexample). Witnesses: `PT.C98_mu6_counterexample`.
* **C99** (The asymptotic branches of the third-order kernels do not change the spectra) — Exact quadrature; linear spectra with power in a band inside (1e-5, 100]. Also proved: the terms of order r^-6 to r^-12 of five of the polynomials are not those of the expansion (the error is of order r^-6 at every r >= 60, where correct terms would leave r^-14); the effect is below 1e-11 and harmless. Witnesses: `PT.C99_asymptotic_counterexample`.

## Axioms of the claimed theorems

<!-- axioms:begin -->
977 claimed theorems.

* **Classical.choice, Quot.sound, propext** (882): `Cache.C04_delete_parameter_partial`, `Cache.C05_scalar_reads_back_partial`, `Cache.C05_array_counterexample`, `Lru.C07_any_schedule`, `Lru.C07_calls_transparent`, `Lru.C07_keeps_most_recent`, `Lru.C07_recall_is_hit`, `Cache.C01_default_counterexample`, `Cov.C10_out_of_range`, `Cov.C10_full_matrix`, `Cov.C10_storage`, `Cov.C10_blocks`, `Cov.C11_roundtrip_partial`, `Cov.C11_rescaling_counterexample`, `Cov.C12_trim`, `Cov.C12_empty_statistic_fails`, `Cov.C13_arithmetic_partial`, `Cov.C13_rsub_counterexample`, `Cov.C13_product_counterexample`, `Cov.C13_small_elements_counterexample`, `Cov.C14_select_partial`, `Cov.C15_rescale_partial`, `Cov.C15_no_mocks`, `Cov.C15_initialize`, `Cov.C15_later_limits_reset`, `Cov.C15_counterexample`, `Cov.C33_aligned_partial`, `Driver.C30_lnprob`, `Driver.C30_minus_lnlike`, `Driver.C30_out_of_bounds`, `Driver.C30_lnprior_sum`, `Driver.C30_current`, `Driver.C31_partial`, `Driver.C31_rejected`, `Driver.C31_counterexample`, `Driver.C32_partial`, `Driver.C32_priors_partial`, `Driver.C32_state`, `Driver.C32_state_counterexample`, `Fisher.C34_symmetric`, `Fisher.C34_matrix`, `Fisher.C34_definite`, `Fisher.C34_errors`, `Fisher.C34_fixing`, `Fisher.C34_fixed_error`, `Fisher.C34_fixed_must_be_free`, `Fisher.C34_unsupported`, `Fisher.C34_shipped_counterexample`, `Fisher.C34_matrix_counterexample`, `Driver.C35_gradient`, `Driver.C35_out_of_bounds`, `Cov.C40_masks`, `Cov.C40_history`, `Cov.C40_consistent_partial`, `Cov.C40_combined_partial`, `Cov.C40_widening_counterexample`, `Cov.C40_exception_counterexample`, `Cov.C40_close_limits_counterexample`, `Cov.C42_slice_partial`, `Cov.C43_errors`, `Cov.C43_unequal_sizes_counterexample`, `Priors.C20_lnprior_partial`, `Priors.C20_nan_counterexample`, `Priors.C20_improper_uniform_counterexample`, `Priors.C20_read_clamps_counterexample`, `Priors.C20_read_changes_lnprior`, `Priors.C20_within_not_clamped`, `Scale.C21_inverse`, `Scale.C21_units`, `Scale.C21_gradient`, `Params.C22_all_or_nothing_partial`, `Params.C22_model_values`, `Params.C23_meaning`, `Params.C23_history_partial`, `Params.C23_two_levels`, `Params.C23_dependency_order`, `Params.gal_prepared`, `Params.C23_gal_model_parameters`, `Params.galChildren_prepared`, `Params.C23_gal_b1_counterexample`, `Vars.C24_exact`, `Vars.C24_all_strings`, `Vars.C24_no_dollar`, `Priors.C25_gradient_partial`, `Priors.C25_hard_counterexample`, `Priors.C25_hard_error`, `Priors.C26_sticks_partial`, `Priors.C26_counterexample`, `AP.C60_geometric`, `AP.C60_identity`, `AP.C60_isotropic`, `AP.C60_inverse`, `AP.C60_injective`, `AP.C61_once`, `AP.C61_lock_restored`, `AP.C61_dm_power`, `AP.C61_threads_counterexample`, `Rsd.C62_population_sum`, `Rsd.C62_weights`, `Rsd.C62_fractions`, `Rsd.C62_identical`, `Rsd.C63_qso_formula`, `Rsd.C63_qso_kmu`, `Rsd.C63_qso_alpha_par`, `Rsd.C63_qso_alpha_perp`, `Rsd.C63_qso_b1`, `Rsd.C63_qso_f`, `Rsd.C63_qso_fnl`, `Rsd.C63_qso_sigma8_partial`, `Rsd.C63_qso_sigma8_counterexample`, `Rsd.C63_qso_sigma_fog_partial`, `Rsd.C63_qso_sigma_fog_counterexample`, `Rsd.C63_gal_fs`, `Rsd.C63_gal_fsB_partial`, `Rsd.C63_gal_fcB_partial`, `Rsd.C63_gal_NcBs_partial`, `Rsd.C63_gal_NsBsB_partial`, `Rsd.C63_gal_fso_partial`, `Rsd.C63_gal_sigmaC_partial`, `Rsd.C63_gal_sigmaSo_partial`, `Rsd.C63_gal_alpha_par_partial`, `Rsd.C63_gal_alpha_perp_partial`, `Rsd.C63_gal_default`, `Rsd.C63_gal_fsB_counterexample`, `Rsd.C63_gal_drag_counterexample`, `Rsd.C63_gal_noise_counterexample`, `Rsd.C64_damping`, `Rsd.C64_derivatives`, `Rsd.C65_success_partial`, `Rsd.C65_exceptions_partial`, `Rsd.C65_history_partial`, `Rsd.C65_exception_counterexample`, `Rsd.C66_qso`, `Rsd.C66_gal_counterexample`, `Rsd.C66_gal_component`, `Params.C67_fcB`, `Params.C67_b1_cB`, `Params.C67_b1`, `Params.C67_NcBs`, `Params.C67_NsBsB`, `Params.C67_dilations`, `Grad.C68_total`, `Grad.C68_total_partial`, `Grad.C68_constraint_derivative`, `Grad.C68_gal_shipped`, `Grad.C68_rows`, `Grad.C68_failure`, `Grad.C68_central_limit`, `Grad.C68_central_exact`, `Grad.C68_indirect_counterexample`, `Grad.C68_theta_counterexample`, `Grad.C68_scalar_counterexample`, `Grad.C68_bound_counterexample`, `Units.C41_dimension`, `Units.C41_same`, `Units.C41_roundtrip`, `Units.C41_invariants`, `Units.C41_refused`, `Window.C50_identity`, `Window.C50_partial`, `Window.C50_high_counterexample`, `Window.C50_order_counterexample`, `Window.C51_coefficients`, `Window.C51_accepts`, `Window.C51_convolution`, `Window.C51_linear`, `Transfers.C52_wedges`, `Transfers.C52_disjoint`, `Transfers.C52_mean`, `Transfers.C52_includes_one`, `Transfers.C52_poles`, `Transfers.C52_one_k_counterexample`, `Transfers.C52_alias_counterexample`, `Transfers.C53_scatter`, `Transfers.C53_roundtrip`, `Quad.C54_combination`, `Quad.C54_weighting`, `Quad.C55_simps_quadratic`, `Quad.C55_simps_cubic`, `Quad.C55_simps_even`, `Quad.C55_trapz`, `Quad.C55_linear`, `Quad.C55_poles`, `Quad.C55_poles_linear`, `Quad.C55_simps_error`, `Quad.C55_simps_error_even`, `Quad.C55_poles_error`, `Lbfgs.C70_decrease`, `Lbfgs.C70_monotone`, `Lbfgs.C70_terminates`, `Lbfgs.C70_status`, `Lbfgs.C70_max_iter_zero_counterexample`, `Lbfgs.C70_stationary_counterexample`, `Lbfgs.C70_ftol_counterexample`, `Lbfgs.C71_two_loop`, `Lbfgs.C71_history`, `Lbfgs.C71_run`, `Lbfgs.C71_first`, `Lbfgs.C71_descent`, `Lbfgs.C71_secant`, `Lbfgs.C71_symmetric`, `Solvers.C72_walkers`, `Results.C73_request`, `Results.C73_append_partial`, `Results.C73_no_constrained_counterexample`, `Results.C73_burnin_counterexample`, `Restart.C73_restart_partial`, `Restart.C73_restarts_partial`, `Restart.C73_restart_counterexample`, `Solvers.C75_nonempty`, `Solvers.C76_fresh`, `Solvers.C76_history`, `Solvers.C76_race_counterexample`, `Init.C77_prior`, `Init.C77_scatter`, `Init.C77_scatter_counterexample`, `Init.C77_unchecked_counterexample`, `Init.C77_univariate_partial`, `Init.C77_univariate_in_bounds`, `Init.C77_univariate_counterexample`, `Init.C77_ball_partial`, `Init.C77_ball_counterexample`, `Results.C80_emcee_partial`, `Results.C80_burnin_forgotten`, `Results.C80_burnin_counterexample`, `Results.C80_maxlnprob_counterexample`, `Results.C80_lbfgs_partial`, `Results.C80_lbfgs_counterexample`, `Results.C81_partial`, `Results.C81_peak_partial`, `Results.C81_peak_counterexample`, `Results.C82_partial`, `Results.C82_zero_counterexample`, `Hzpt.C83_derivative_partial`, `Hzpt.C83_lowk_defect`, `Hzpt.C83_lowk_counterexample`, `Hzpt.C84_history`, `Hzpt.C84_jennings`, `Hzpt.C84_zero_counterexample`, `Hzpt.C84_error_counterexample`, `Hzpt.C84_batch_counterexample`, `Interp.C90_linear`, `Interp.C90_nodes`, `Interp.C90_between`, `Interp.C90_exact`, `Interp.C90_domain`, `Interp.C90_fill`, `Interp.C90_constructor`, `Interp.C90_nearest`, `Interp.C90_fallback`, `Interp.C90_single_node_counterexample`, `Shipped.C09_shipped_partial`, `Shipped.C09_exceptions_exact`, `Shipped.C09_galaxy_partial`, `Shipped.C09_dm_partial`, `Shipped.C09_stale_counterexample`, `PT.C93_integrand_sides`, `PT.C93_second_order_kernels`, `PT.C93_velocity_kernel`, `PT.C93_vvdd_kernel`, `PT.C93_dvdv_kernel`, `PT.C93_vvvv_kernel`, `PT.C93_vvdv_kernel`, `PT.C93_product_kernels`, `PT.C94_half_domain`, `PT.C94_imn_coupling`, `PT.C94_kmn_coupling`, `PT.C94_oneCompute_coupling`, `PT.C94_one_loop_22`, `PT.C94_two_loop_split`, `PT.C94_two_loop_32_counterexample`, `PT.C95_sigmaR`, `PT.C95_dark_matter`, `PT.C95_biased`, `PT.C97_exchange`, `PT.C98_mu0`, `PT.C98_mu2`, `PT.C98_mu4_partial`, `PT.C98_mu6_partial`, `PT.C98_mu4_exact_partial`, `PT.C98_mu6_counterexample`, `PT.C102_growth`, `PT.C103_halo_spectra`, `PT.C103_no_tidal_partial`, `PT.C103_tidal`, `PT.C103_tidal_counterexample`, `PT.C96_dark_matter`, `PT.C96_dark_matter_mu6`, `PT.C96_biased`, `PT.C96_sims_velocity`, `PT.C104_density`, `PT.C104_divergence`, `PT.C104_cross`, `PT.C104_momentum`, `PT.C104_dispersion`, `PT.C105_one_loop`, `PT.C105_real_space`, `PT.C106_dark_matter_partial`, `PT.C106_biased_partial`, `PT.C106_mu6_counterexample`, `PT.C106_biased_mu6_counterexample`, `PT.C99_asymptotic`, `PT.C99_one_loop`, `PT.C99_asymptotic_counterexample`, `NlBias.C100_read_partial`, `NlBias.C100_vlah`, `NlBias.C100_fits`, `NlBias.C100_poly`, `NlBias.C100_coefficient`, `NlBias.C100_initial`, `NlBias.C100_loop`, `NlBias.C100_reject`, `NlBias.C100_shorthand_counterexample`, `NlBias.C100_defaults_counterexample`, `NlBias.C100_stale_counterexample`, `NlBias.C100_documentation_counterexample`, `Cosmo.C101_window`, `Cosmo.C101_normalised`, `Cosmo.C101_normalised_fits`, `Cosmo.C101_normalised_ex`, `Cosmo.C101_pickle`, `Cosmo.C101_pickle_ex`, `Cosmo.C101_sigma8_kept`, `Cosmo.C101_amplitude`, `Cosmo.C101_normed_lin`, `Cosmo.C101_sigma_window_counterexample`, `Cosmo.C101_normalize_counterexample`, `Cosmo.C101_sigma8_lost_counterexample`, `Cosmo.C101_update_ignored_counterexample`, `Cosmo.C101_update_pickle_counterexample`, `Cosmo.C101_from_power_counterexample`, `Cosmo.C101_from_power_ex`, `Cosmo.C101_to_class_counterexample`, `Cosmo.C101_arrays_counterexample`, `Cosmo.C101_normed_nw_counterexample`, `Cosmo.C101_normed_nw_ex`, `Cosmo.C107_noWiggle`, `Cosmo.C107_bbks`, `Cosmo.C107_spline`, `Cosmo.C107_physical`, `Cosmo.C107_eisensteinHu`, `Spline.C108_lookup`, `Spline.C108_outside`, `Spline.C108_linear`, `Spline.C108_linear_derivative`, `Spline.C108_linear_error`, `Spline.C108_shifted`, `Spline.C108_cubic`, `Spline.C108_cubic_exact`, `Spline.C108_cubic_linear`, `Spline.C108_class`, `Spline.C108_natural_counterexample`, `SplineRef.C109_refcount`, `SplineRef.C109_no_leak`, `Xi.C110_bessel`, `Xi.C110_pk_to_xi`, `Xi.C110_xi_to_pk`, `Xi.C110_correlation`, `Xi.C110_kaiser`, `Xi.C110_kaiser_bias_counterexample`, `FFTLog.C111_padding`, `FFTLog.C111_interp_exists`, `FFTLog.C111_interp_unique`, `FFTLog.C111_P2xi`, `FFTLog.C111_xi2P`, `FFTLog.C111_grid_back`, `FFTLog.C111_setup`, `FFTLog.C111_default_length`, `FFTLog.C111_lowring`, `FFTLog.C111_round_trip`, `FFTLog.C111_window`, `FFTLog.C111_round_trip_padded`, `FFTLog.C111_krgood_near`, `FFTLog.C111_krgood_real`, `FFTLog.C111_fortran_back`, `FFTLog.C111_xi_fftlog`, `FFTLog.C111_method_fftlog`, `FFTLog.C111_method_fftlog_table`, `WinTransfer.C112_grid`, `WinTransfer.C112_no_window`, `WinTransfer.C112_no_window_bound`, `WinTransfer.C112_slip_one`, `WinTransfer.C112_slip_counterexample`, `WinTransfer.C112_no_window_counterexample`, `WinTransfer.C112_window`, `Bcast.C113_paired`, `Bcast.C113_grid`, `Bcast.C113_flat`, `Bcast.C113_point`, `Bcast.C113_returns_iff`, `Bcast.C113_labels`, `Bcast.C113_labels_flat`, `Bcast.C113_qso_grid`, `Bcast.C113_multipole`, `Bcast.C113_multipole_error`, `Bcast.C113_monopole_polynomial`, `Bcast.C113_single_counterexample`, `Bcast.C113_scalar_counterexample`, `Bcast.C113_labels_counterexample`, `Bcast.C113_positional_counterexample`, `Bcast.C113_qso_counterexample`, `Bcast.C113_multipole_counterexample`, `Bcast.C113_monopole_length_counterexample`, `HaloBias.C114_tinker_decreasing`, `HaloBias.C114_tinker_unique`, `HaloBias.C114_mass_sound`, `HaloBias.C114_mass`, `HaloBias.C114_mass_increasing`, `HaloBias.C114_mass_normalisation`, `HaloBias.C114_mass_refused`, `HaloBias.C114_table_node`, `HaloBias.C114_table_between`, `HaloBias.C114_table_outside`, `HaloBias.C114_sigmav_increasing`, `HaloBias.C114_fallback_unused`, `HaloBias.C114_fallback_clamp`, `HaloBias.C114_mass_from_bias_sound`, `HaloBias.C114_sigma_from_bias`, `HaloBias.C114_stale`, `HaloBias.C114_low_bias_counterexample`, `HaloBias.C114_evrard_units_counterexample`, `HaloBias.C114_stale_counterexample`, `HaloBias.C114_overdensity_counterexample`, `HaloBias.C114_name_error_counterexample`, `HaloBias.C114_silent_zero_counterexample`, `Converge.C115_value`, `Converge.C115_gelman_rubin`, `Converge.C115_lower`, `Converge.C115_units`, `Converge.C115_order`, `Converge.C115_samples`, `Converge.C115_none_iff`, `Converge.C115_test`, `Converge.C115_sound`, `Converge.C115_single`, `Converge.C115_schedule`, `Converge.C115_restart`, `Converge.C115_restart_data`, `Converge.C115_first_chain_counterexample`, `Converge.C115_python3_counterexample`, `Converge.C115_tolerance_counterexample`, `Converge.C115_zero_counterexample`, `Analysis.C116_samples_partial`, `Analysis.C116_covar_partial`, `Analysis.C116_convergence_partial`, `Analysis.C116_steps`, `Analysis.C116_combined_partial`, `Analysis.C116_bestfit_partial`, `Analysis.C116_minimum`, `Analysis.C116_succeeds`, `Analysis.C116_case`, `Analysis.C116_table_partial`, `Analysis.C116_mcmc_table_partial`, `Analysis.C116_rescaling`, `Analysis.C116_rescaling_limit`, `Analysis.C116_thin_counterexample`, `Analysis.C116_no_constrained_counterexample`, `Analysis.C116_stale_counterexample`, `Analysis.C116_order_counterexample`, `Analysis.C116_minimum_counterexample`, `Analysis.C116_table_counterexample`, `Analysis.C116_mcmc_table_counterexample`, `Analysis.C116_rescaling_counterexample`, `Contour.C117_level_partial`, `Contour.C117_order_partial`, `Contour.C117_case`, `Contour.C117_panels_partial`, `Contour.C117_every_panel`, `Contour.C117_peak_counterexample`, `Contour.C117_equal_counterexample`, `Contour.C117_transposed_counterexample`, `Contour.C117_scale_counterexample`, `DataFile.C118_names`, `DataFile.C118_names_value`, `DataFile.C118_written`, `DataFile.C118_reads`, `DataFile.C118_roundtrip`, `DataFile.C118_precision`, `DataFile.C118_second_roundtrip`, `DataFile.C118_grid`, `DataFile.C118_restrict`, `DataFile.C118_case`, `DataFile.C118_digits_counterexample`, `DataFile.C118_first_counterexample`, `DataFile.C118_stale_counterexample`, `DataFile.C118_missing_counterexample`, `Hzpt.C119_series`, `Hzpt.C119_dispersion`, `Hzpt.C119_displacement`, `Hzpt.C119_displacement_near`, `Hzpt.C119_variance`, `Hzpt.C119_spectrum`, `Hzpt.C119_transform`, `Hzpt.C119_case`, `Hzpt.C120_fourier`, `Hzpt.C120_shipped_dm`, `Hzpt.C120_shipped_hm`, `Hzpt.C120_history`, `Hzpt.C120_refused`, `Hzpt.C120_power`, `Hzpt.C120_case`, `Hzpt.C120_large_counterexample`, `Hzpt.C121_collection_partial`, `Hzpt.C121_unused`, `Hzpt.C121_case`, `Hzpt.C121_lowk_counterexample`, `Hzpt.C121_table_counterexample`, `Hzpt.C121_single_partial`, `Hzpt.C121_cf`, `Hzpt.C121_cf_counterexample`, `Hzpt.C121_linear`, `Hzpt.C121_kaiser_partial`, `Hzpt.C121_kaiser_counterexample`, `GK.C122_adaptive_partial`, `GK.C122_rejects`, `GK.C122_history`, `GK.C122_swap`, `GK.C122_accuracy`, `GK.C122_point`, `GK.C122_polynomials`, `GK.C122_estimate`, `GK.C122_cautious`, `GK.C122_exp`, `GK.C122_inverse`, `GK.C122_nosub`, `GK.C122_limit_counterexample`, `Workspaces.C123_exclusive`, `Workspaces.C123_reuse`, `GM.C124_adaptive`, `GM.C124_evaluations`, `GM.C124_polynomials`, `GM.C124_accuracy`, `GM.C124_axis`, `GM.C124_zero_counterexample`, `GM.C124_reversed_counterexample`, `PFile.C125_round_trip`, `PFile.C125_stable`, `PFile.C125_merge`, `PFile.C125_merge_again`, `PFile.C125_equals_counterexample`, `PFile.C125_backslash_counterexample`, `PFile.C125_hash_counterexample`, `PFile.C125_empty_dict_counterexample`, `PFile.C125_tag_counterexample`, `PFile.C125_assign_counterexample`, `PFile.C125_override_counterexample`, `PFile.C125_bound_counterexample`, `PFile.C125_remove_counterexample`, `Setup.C126_ranks_agree`, `Setup.C126_all_start`, `Setup.C126_alone`, `Setup.C126_race_counterexample`, `Setup.C126_hang_counterexample`, `Setup.C126_lost_counterexample`, `Setup.C126_interrupted_counterexample`, `Setup.C126_model_counterexample`, `Start.C126_best_result`, `Start.C126_named_result`, `Start.C126_start_from_file`, `Start.C126_iterations`, `Start.C126_search_counterexample`, `Start.C126_directory_counterexample`, `Start.C126_nan_counterexample`, `Start.C126_defaults_counterexample`, `Start.C126_prior_counterexample`, `SmoothWedge.C127_mean`, `SmoothWedge.C127_single`, `SmoothWedge.C127_unordered`, `SmoothWedge.C127_flat`, `SmoothWedge.C127_linear`, `SmoothWedge.C127_partition`, `SmoothWedge.C127_accuracy`, `SmoothWedge.C127_converges`, `SmoothWedge.C127_bias`, `SmoothWedge.C127_setBounds`, `SmoothWedge.C127_bias_counterexample`, `SmoothWedge.C127_empty_counterexample`, `SmoothWedge.C127_alias_counterexample`, `SmoothWedge.C127_setBounds_counterexample`, `SmoothWedge.C127_example`, `CosmoDict.C128_given`, `CosmoDict.C128_masses`, `CosmoDict.C128_flat`, `CosmoDict.C128_key_is_attribute`, `CosmoDict.C128_copy`, `CosmoDict.C128_pickle`, `CosmoDict.C128_from_astropy`, `CosmoDict.C128_clone`, `CosmoDict.C128_clone_amplitude`, `CosmoDict.C128_equality`, `CosmoDict.C128_equal`, `CosmoDict.C128_copy_equal`, `CosmoDict.C128_different`, `CosmoDict.C128_class`, `CosmoDict.C128_class_neutrinos`, `CosmoDict.C128_class_flat`, `CosmoDict.C128_no_baryons`, `CosmoDict.C128_read_only`, `CosmoDict.C128_curvature_counterexample`, `CosmoDict.C128_pickle_counterexample`, `CosmoDict.C128_clone_flat_counterexample`, `CosmoDict.C128_w0wa_counterexample`, `CosmoDict.C128_extra_counterexample`, `CosmoDict.C128_read_only_counterexample`, `CosmoDict.C128_none_counterexample`, `CosmoDict.C128_symmetric_counterexample`, `CosmoDict.C128_transitive_counterexample`, `CosmoDict.C128_ne_counterexample`, `CosmoDict.C128_ne_pickle_counterexample`, `CosmoDict.C128_neutrinos_counterexample`, `SimFit.C129_value`, `SimFit.C129_defined`, `SimFit.C129_unique`, `SimFit.C129_least`, `SimFit.C129_through`, `SimFit.C129_close`, `SimFit.C129_smooth`, `SimFit.C129_points_scalar`, `SimFit.C129_points_array`, `SimFit.C129_points_positional`, `SimFit.C129_points_refused`, `SimFit.C129_points_none`, `SimFit.C129_number`, `SimFit.C129_table`, `SimFit.C129_set`, `SimFit.C129_units_dependent`, `SimFit.C129_units_independent`, `SimFit.C129_rows`, `SimFit.C129_fresh_partial`, `SimFit.C129_new_table`, `SimFit.C129_assigned`, `SimFit.C129_not_noticed_counterexample`, `SimFit.C129_renamed_counterexample`, `SimFit.C129_stale_counterexample`, `SimSpectra.C130_make`, `SimSpectra.C130_inside`, `SimSpectra.C130_fiducial`, `SimSpectra.C130_domain`, `SimSpectra.C130_array`, `SimSpectra.C130_scaling`, `SimSpectra.C130_assign_partial`, `SimSpectra.C130_outside`, `SimSpectra.C130_edge_counterexample`, `SimSpectra.C130_linear_counterexample`, `SimSpectra.C130_redshift_counterexample`, `SimSpectra.C130_jennings`, `SimSpectra.C130_early`, `SimSpectra.C130_today`, `SimSpectra.C130_exception_counterexample`, `SimSpectra.C130_negative_counterexample`, `GaussCov.C131_coordinates`, `GaussCov.C131_box_partial`, `GaussCov.C131_survey_partial`, `GaussCov.C131_shells`, `GaussCov.C131_limit_box`, `GaussCov.C131_limit_survey`, `GaussCov.C131_isotropic`, `GaussCov.C131_constant`, `GaussCov.C131_weights`, `GaussCov.C131_box_definite`, `GaussCov.C131_survey_definite`, `GaussCov.C131_repeated`, `GaussCov.C131_empty_counterexample`, `GaussCov.C131_line_counterexample`, `GaussCov.C131_line_example`, `Labels.C132_nearest`, `Labels.C132_select`, `Labels.C132_block_partial`, `Labels.C132_label_rows`, `Labels.C132_enumerate`, `Labels.C132_correlation_partial`, `Labels.C132_close`, `Labels.C132_order_counterexample`, `Labels.C132_block_counterexample`, `Labels.C132_wavenumbers_counterexample`, `Labels.C132_correlation_counterexample`, `Png.C133_growth_equation`, `Png.C133_matter`, `Png.C133_early`, `Png.C133_normalisation`, `Png.C133_alpha`, `Png.C133_total_growth`, `Png.C133_bias`, `Png.C133_large_scales`, `Png.C133_alone_counterexample`, `Apply.C134_load`, `Apply.C134_fit_partial`, `Apply.C134_fiducial`, `Apply.C134_fiducial_missing`, `Apply.C134_apply_partial`, `Apply.C134_analytic`, `Apply.C134_start_partial`, `Apply.C134_out_of_bounds_counterexample`, `Apply.C134_apply_counterexample`, `Apply.C134_burnin_counterexample`, `Apply.C134_start_counterexample`, `InterpDomain.C135_range`, `InterpDomain.C135_power_partial`, `InterpDomain.C135_maxMu`, `InterpDomain.C135_nodes`, `InterpDomain.C135_observed`, `InterpDomain.C135_derivative`, `InterpDomain.C135_ignore_cache`, `InterpDomain.C135_observed_counterexample`, `InterpDomain.C135_derivative_counterexample`, `InterpDomain.C135_nan_counterexample`, `InterpDomain.C135_ignore_derivative_counterexample`, `Emu.C137_accept_partial`, `Emu.C137_value`, `Emu.C137_value_cmb`, `Emu.C137_weights`, `Emu.C137_covered`, `Emu.C137_range_partial`, `Emu.C137_distance`, `Emu.C137_hubble_partial`, `Emu.C137_exit_counterexample`, `Emu.C137_array_counterexample`, `Emu.C137_nan_counterexample`, `Emu.C137_unbracketed_counterexample`, `Emu.C137_hit_counterexample`, `BestFit.C138_round_trip_partial`, `BestFit.C138_compare_partial`, `BestFit.C138_compare_labels_partial`, `BestFit.C138_nlopt_counterexample`, `BestFit.C138_append_counterexample`, `BestFit.C138_meta_counterexample`, `BestFit.C138_compare_dropped_counterexample`, `BestFit.C138_compare_same_name_counterexample`, `BestFit.C138_compare_label_counterexample`, `BestFit.C138_compare_zero_counterexample`, `TheoryVec.C140_window_partial`, `TheoryVec.C140_window_order`, `TheoryVec.C140_window_same_bins`, `TheoryVec.C140_grid_partial`, `TheoryVec.C140_smooth_partial`, `LoadCov.C141_columns_partial`, `LoadCov.C141_file`, `LoadCov.C141_no_errors`, `LoadCov.C141_refused`, `LoadCov.C141_rescaled_counterexample`, `LoadCov.C141_small_counterexample`, `LoadCov.C141_other_bins_counterexample`, `LoadCov.C141_swapped_counterexample`, `UpdateFid.C142_fiducials_partial`, `UpdateFid.C142_dependency_order`, `UpdateFid.C142_values_partial`, `ChainCorr.C143_asked`, `ChainCorr.C143_pairs`, `ChainCorr.C143_missing_iff`, `ChainCorr.C143_correlation`, `ChainCorr.C143_affine`, `ChainCorr.C143_case`, `ChainCorr.C143_constrained_counterexample`, `ChainCorr.C143_label_counterexample`, `FitPlot.C144_static`, `FitPlot.C144_colours`, `FitPlot.C144_made_iff`, `FitPlot.C144_residuals`, `FitPlot.C144_norm_monopole`, `FitPlot.C144_norm_positive`, `FitPlot.C144_plotly_partial`, `FitPlot.C144_plotly_counterexample`, `FitPlot.C144_eight_counterexample`, `SetModel.C145_set`, `SetModel.C145_range`, `SetModel.C145_others`, `SetModel.C145_refused_partial`, `SetModel.C145_create`, `SetModel.C145_set_live`, `SetModel.C145_fit`, `SetModel.C145_new_history`, `SetModel.C145_gradient_partial`, `SetModel.C145_gradient_first`, `SetModel.C145_asked`, `SetModel.C145_case`, `SetModel.C145_gradient_counterexample`, `SetModel.C145_asked_counterexample`, `SetModel.C145_wrong_file_counterexample`, `SetModel.C145_shared_counterexample`, `Plot1D.C146_range`, `Plot1D.C146_ticks`, `Plot1D.C146_one_bin`, `Plot1D.C146_weights`, `Plot1D.C146_histogram`, `Plot1D.C146_curve`, `Plot1D.C146_few`, `Plot1D.C146_offset`, `Plot1D.C146_likelihood`, `Plot1D.C146_figures`, `Plot1D.C146_drawn`, `Plot1D.C146_case`, `Plot1D.C146_mean_counterexample`, `Plot1D.C146_units_counterexample`, `Plot1D.C146_file_counterexample`, `Plot1D.C146_fiducial_counterexample`, `Extrapolate.C147_accepted`, `Extrapolate.C147_mu_grid`, `Extrapolate.C147_refused_iff`, `Extrapolate.C147_one_function`, `Extrapolate.C147_history`, `Extrapolate.C147_continuous`, `Extrapolate.C147_positive`, `Extrapolate.C147_exact_low`, `Extrapolate.C147_exact_high`, `Extrapolate.C147_poles`, `Extrapolate.C147_correlation`, `Extrapolate.C147_default_counterexample`, `Extrapolate.C147_function_counterexample`, `Extrapolate.C147_changed_model_counterexample`, `Extrapolate.C147_poles_orders_counterexample`, `Extrapolate.C147_poles_paired_counterexample`, `Trace.C148_bins`, `Trace.C148_density`, `Trace.C148_cdf`, `Trace.C148_anywhere`, `Trace.C148_draw_partial`, `Trace.C148_grid_partial`, `Trace.C148_median`, `Trace.C148_limits`, `Trace.C148_loc_scale`, `Trace.C148_order`, `Trace.C148_units`, `Trace.C148_tails_counterexample`, `Trace.C148_draw_counterexample`, `Trace.C148_grid_counterexample`, `Trace.C148_list_counterexample`, `Trace.C148_few_counterexample`, `PlotNames.C149_order`, `PlotNames.C149_power`, `PlotNames.C149_integer`, `PlotNames.C149_decimals`, `PlotNames.C149_figures1`, `PlotNames.C149_figures2_partial`, `PlotNames.C149_parameters`, `PlotNames.C149_no_error_partial`, `PlotNames.C149_history_partial`, `PlotNames.C149_label_counterexample`, `PlotNames.C149_twice_counterexample`, `PlotNames.C149_missing_counterexample`, `ConvPoles.C150_accepts`, `ConvPoles.C150_convolved`, `ConvPoles.C150_dry`, `ConvPoles.C150_linear`, `ConvPoles.C150_no_window`, `ConvPoles.C150_grid`, `ConvPoles.C150_high_counterexample`, `ConvPoles.C150_order_counterexample`, `Params.C151_schema`, `Params.C151_names`, `Params.C151_derived`, `Params.C151_dilations`, `Params.C151_dilations_exist`, `Params.C151_model`, `Params.C151_defaults`, `Opts.C152_accepted`, `Opts.C152_values`, `Opts.C152_defaults`, `Opts.C152_nlopt`, `Opts.C152_mcmc`, `Opts.C152_default_params`, `Opts.C152_restart`, `Opts.C152_nlopt_default_counterexample`, `Opts.C152_mcmc_default_counterexample`, `Opts.C152_shared_counterexample`, `Opts.C152_late_counterexample`, `Nb.C153_traces_partial`, `Nb.C153_traces_refused`, `Nb.C153_samples`, `Nb.C153_area`, `Nb.C153_hist_partial`, `Nb.C153_hist_refused`, `Nb.C153_contours`, `Nb.C153_kde`, `Nb.C153_labels_partial`, `Nb.C153_shared_default`, `Nb.C153_triangle_partial`, `Nb.C153_triangle_default`, `Nb.C153_triangle_refused`, `Nb.C153_hist_hidden`, `Nb.C153_one_walker_more`, `Nb.C153_flat`, `Nb.C153_curve`
* **Quot.sound, propext** (55): `Cache.C01_never_stale`, `Cache.C01_read_keeps_params`, `Cache.C02_invalidation_exact`, `Cache.C02_delete_cached_exact`, `Cache.C02_class_creation_succeeds`, `Cache.C03_preserve_partial`, `Cache.C06_override_partial`, `Lru.C07_unlimited`, `Memo.C08_transparent_partial`, `Memo.C08_memoize_transparent`, `Cov.C10_elements`, `Cov.C10_diagonal_input`, `Cov.C11_one_row_counterexample`, `Cov.C11_attrs_counterexample`, `Cov.C14_offdiagonal_counterexample`, `Cov.C14_order_counterexample`, `Cov.C33_slices`, `Cov.C33_set_order_counterexample`, `Cov.C33_ranges_counterexample`, `Cov.C33_specific_counterexample`, `Cov.C42_order_counterexample`, `Params.C23_reads_terminate`, `Params.C23_deep_counterexample`, `Solvers.C74_messages`, `Solvers.C74_precedence`, `Solvers.C74_stops`, `Solvers.C74_all_stop`, `Solvers.C74_reported`, `Solvers.C74_no_spurious`, `Solvers.C74_deadlock_counterexample`, `Solvers.C75_partition`, `Solvers.C75_balanced`, `Cache.C121_model`, `Workspaces.C123_leak_counterexample`, `Setup.C126_arguments`, `Setup.C126_accepted`, `Setup.C126_again`, `Loaded.C136_never_stale_partial`, `Loaded.C136_source`, `Loaded.C136_block_partial`, `Loaded.C136_spt_partial`, `RunEnd.C139_others`, `RunEnd.C139_replaced`, `RunEnd.C139_log_partial`, `TheoryVec.C140_window_high`, `TheoryVec.C140_grid_specific`, `TheoryVec.C140_selection_smooth`, `TheoryVec.C140_wedges`, `TheoryVec.C140_order_counterexample`, `TheoryVec.C140_specific_counterexample`, `TheoryVec.C140_ranges_counterexample`, `UpdateFid.C142_ends`, `UpdateFid.C142_trace_counterexample`, `UpdateFid.C142_stale_fiducial_counterexample`, `ChainCorr.C143_columns_partial`
* **propext** (36): `Cache.C02_equal_value_drops_nothing`, `Cache.C02_second_read_is_cached`, `Cache.C03_unset_counterexample`, `Cache.C03_exception_counterexample`, `Cache.C04_counterexample`, `Cache.C05_reads_back_up_to_objEq`, `Cache.C06_counterexample`, `Cache.C06_interpolated_ignored`, `Cache.C06_override_is_read`, `Lru.C07_zero`, `Params.C22_exception_counterexample`, `Params.C23_out_of_bounds_counterexample`, `Shipped.C09_exceptions_dm`, `Shipped.C09_exceptions_biased`, `Shipped.C09_exceptions_qso`, `Cache.C121_load`, `Cache.C121_version_counterexample`, `Setup.C126_no_parameters`, `SmoothWedge.C127_unreachable_counterexample`, `Loaded.C136_reload_counterexample`, `Loaded.C136_exception_counterexample`, `Loaded.C136_nested_counterexample`, `Loaded.C136_swallowed_counterexample`, `RunEnd.C139_never_lost`, `RunEnd.C139_saved`, `RunEnd.C139_saved_nlopt_partial`, `RunEnd.C139_log_lost_counterexample`, `RunEnd.C139_old_log_counterexample`, `RunEnd.C139_exit_counterexample`, `RunEnd.C139_twice_counterexample`, `RunEnd.C139_name_counterexample`, `UpdateFid.C142_case`, `UpdateFid.C142_missing_counterexample`, `UpdateFid.C142_not_prepared_counterexample`, `ChainCorr.C143_tex_names`, `PlotNames.C149_figures2_counterexample`
* **none** (4): `Memo.C08_off_after_block`, `Memo.C08_stale_counterexample`, `Memo.C08_two_objects_counterexample`, `Workspaces.C123_race_counterexample`
<!-- axioms:end -->
