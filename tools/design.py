p='/verif/DESIGN.md';t=open(p).read()
head=t[:t.index('## Plan per property')]
head=head.replace('''* Lean 4.33.0 kernel; axioms at most `propext`, `Classical.choice`, `Quot.sound` (no own axioms, no
  `native_decide`/`bv_decide`).''','''* Lean 4.33.0 kernel; axioms at most `propext`, `Classical.choice`, `Quot.sound` (Lean's own; no axioms are added, nothing rests on
  compiled code).  The table at the end lists the axioms of every claimed theorem (`tools/axioms.py`).''')
plan='''## Plan per property
(kept in sync with MANIFEST.json)

| id | what is modelled | how it is proved |
|----|------------------|------------------|
| C01, C02, C04, C05 | schema of parameters and cached attributes; method bodies as trees of attribute reads; `set/get/del` | invariant "every cached value equals the from-scratch value", induction over op lists; dependency inversion = reachability |
| C03, C06 | `preserve`, `cache_override` as blocks of operations | same invariant; counterexamples for the unset-parameter and override paths |
| C07 | `lru_cache` as heap of links (circular list) + dict + statistics, any schedule of threads' atomic sections | refinement to the bare function, induction over calls |
| C08 | the global memo of `cacheable` | trace refinement under fixed parameters; counterexample otherwise |
| C09 | table of declared parents and attribute reads of the shipped model classes (generated from the source text) | generalisation of C01 to code that reads more than it declares; certificate (read closure, declared closure, exceptions) checked by the kernel and proved sound; exactness: a worst-case implementation goes stale on every listed pair |
| C10, C11 | packed upper triangle, contracted index; text format as token lists | arithmetic bijection, induction on N; parse of print |
| C12–C15 | trimming, arithmetic, selection, inverse rescaling | list/finset reasoning; counterexamples |
| C20, C25, C26 | priors and bounds over extended reals with NaN, smooth versions over ℝ | case analysis, `HasDerivAt`, histories |
| C21 | affine scaling | algebra + chain rule |
| C22, C23 | parameter set with constraints, symbol table with missing-key evaluation | induction on constraint depth; counterexample to deep chains |
| C24 | `replace_vars` on character lists | structural recursion, spec as parse of segments |
| C30–C32, C35 | driver as a state machine over free-parameter vectors | simulation; `HasDerivAt`; counterexamples |
| C33, C43 | order of the theory and data vectors, slices | list reasoning, permutations |
| C34 | Fisher matrix as in `driver.py` | Mathlib matrices, positive definiteness, Schur complement/Cauchy–Schwarz |
| C40–C42 | measurements with masks, data set operations, unit factors | list reasoning; dimension exponents |
| C50, C51 | window kernel and convolution | Legendre product coefficients via integrals over mu; linearity |
| C52–C55 | gridded transfers, scatter/gather, quadrature | finite sums, polynomial exactness |
| C60, C61, C64 | AP map, lock, FOG kernels | real algebra, bounds |
| C62, C63, C65–C68 | galaxy/quasar model objects with mutable state; analytic derivatives; constraint derivatives | real algebra, `HasDerivAt`, state machines with exceptions |
| C70, C71 | optimiser loop with abstract objective and line search; two-loop recursion over vectors | induction over iterations / stored pairs |
| C72–C77 | solver bookkeeping, MPI, restarts, starting points | integer arithmetic, interleavings, arbitrary random streams |
| C80–C82 | result containers | list permutations, histories |
| C83, C84 | Halo-Zel'dovich spectra: C++ drivers with in-place rescaled arrays, broadband terms, lazily made models and tables | chain rule through the Padé form and through the 16×1024 sums; invariant "every driver is normalised to the sigma8 last asked for" over histories |
| C90 | regular-grid interpolation | convexity induction over dimensions |
| C92 | parameters with attribute-valued defaults | counterexample; the condition under which it holds is a hypothesis of C01 |
| C93 | kernels of `Imn`, `Kmn`, `ImnOneLoop` | vectors in the plane of the triangle; elliptic coordinates; azimuthal integrals of powers of cosine |
| C94 | drivers of the integrals | change of variables in the plane (Jacobian), Fubini, symmetry in v |
| C95–C98, C102, C103 | all terms of the dark-matter and biased spectra (`pt_integrals.py`, `power/dm/*`, `power/biased/*`) with abstract quadrature and splines | scaling of every integral, exchange symmetry term by term, real algebra, `HasDerivAt` along the growth history; leading coefficients closed under sums, products and quotients; concrete box spectrum for the counterexample |
| C104, C105 | the kernels of `Jmn`, all one-loop terms of the dark-matter spectrum | specification: the recursion of the fluid kernels and the redshift-space expansion (`Spec/SPT.lean`); antiderivatives with logarithms for the angular averages (removable singularities), azimuthal averages, change of variables to elliptic coordinates, linear combination of coupling integrals |
| C106 | all terms of the dark-matter and biased spectra at second order in the linear spectrum | specification: kernels Y1, Y2, Y3 of biased tracers (`Spec/SPTBias.lean`); expansions with remainders that vanish, closed under sum, product and the quotient of the mu^0 term; identification of the integrals with exact quadrature |
| C99 | the branches `r >= 60` of the six kernels of `Jmn` | series of the logarithm with remainder, exact rational identities for the difference, bounds carried through the integrals to the spectrum of C105 |
| C100 | `NonlinearBiasingMixin`: types, coefficients, caches of the six properties, all operations | specification: an inductive relation `Means` and the relation `Follows`; invariant of the caches over all histories; pigeonhole for the depth of calls |
| C101 | `Cosmology` (C++), its Python subclass, `to_class`, `LinearPS`; a run of CLASS is a given function of the parameters | specification: the variance with the exact top-hat window; invariants over all histories (`Reach`); Taylor bounds for the window of the code |
| C107 | the four transfer functions | continuity, bounds and limits in Mathlib's analysis |
| C108 | `Spline.cpp`: the search, the three splines, the loops that set up and solve the tridiagonal system, on memory with any contents | loop invariants; nonzero pivots; uniqueness of the solution; gluing of derivatives; convexity for the error |
| C109 | the reference counts of `Spline` | invariant over all well-scoped programs |
| C110 | the spherical Bessel functions, `ComputeXiLM`, `pk_to_xi`, `xi_to_pk`, `CorrelationFunction`, `Kaiser` | specification: Bessel functions as projections of a plane wave, mean over the sky of a plane wave (`Spec/Xi.lean`); integration by parts, power series near zero, addition theorem by the moments of the cosine |
| C111 | `mcfit` with `P2xi` and `xi2P`, the Fortran `fhti`, `fhtq`, `fht`, `krgood`, `ComputeXiLM_fftlog` and the FFTLog branch of `ComputeXiLM` | specification: the log-periodic interpolation of samples, padding, improper integrals (`Spec/FFTLog.lean`); Mellin transform of the spherical Bessel functions (`Lemmas/Mellin.lean`), discrete Fourier transforms, orthogonality of the transform at the middle tilt |
| C112 | `WindowFunctionTransfer.__call__` | refinement to the transforms of C111 and the convolution of C50/C51; scaling of the transform when its grid is out by a factor; phases of neighbouring Bessel kernels |
| C113 | `broadcast_kmu`, `return_xarray`, the multipole decorators | arrays as shapes and entries; case analysis on the shapes, inversion of a successful call; Simpson error by repeated integration of the derivative bound |
| C114 | `BiasToMassRelation`, `BiasToSigmaRelation`, `bias_Tinker`, `mass_from_bias`, `sigma_from_bias`, `sigmav_from_bias` | monotonicity of (1+sigma^a)(b-1), intermediate values; `brentq` by contract; the table through C90; numerical bounds through powers for the counterexamples |
| C115 | `gelman_rubin_convergence`, `test_convergence`, `do_convergence`, `check_convergence` | lists of samples; algebra of means and variances against the published formula; the zero-filled arrays through C82 |
| C116 | `remove_burnin`, `convergence`, `extract_parameter_names`, `AnalysisDriver` (covariance, best fit, rescaling), tables of `bestfit.py` | chains as images of arrays of samples (chain, walker, iteration); every operation (re-ordering, masking, striding, appending) commutes with the image, so all outputs are read off one list of samples; separate specification of the samples that count |
| C117 | `ctr_level`, `get_2d_histogram` and its calls in the triangle plots | counts sorted from the largest; partial sums monotone, so `searchsorted` counts a prefix; the cache of histograms with an invariant over the panels drawn |
| C118 | `PowerMeasurements.to_plaintext`, `from_array`, `from_plaintext`; `PkmuGrid` files | files as header, columns and lines; `'%.5e'` as rounding to six digits for any rounding to nearest, idempotent; column-major order as indexing of uniform blocks |
| C119 | `ZeldovichPS` series, displacement integrals, Bessel expansions | Poisson's integral for the spherical Bessel functions; Bessel series of the exponential of a quadratic in the cosine, remainder bounded term by term; growth derivatives by calculus |
| C120 | `HaloZeldovichCF00`, `HaloZeldovichCFhm`, `ZeldovichCF` | the sine transform of exponentials by the fundamental theorem of calculus on a half-line, partial fractions; invariant over histories |
| C121 | `__getstate__`, `to_npy`, `load_model`, pickling of the compiled classes | the invariant of C01 survives the removal of entries; invariant over histories with loadings (which spectra have lost the approximation); counterexamples |
| C122 | `Integrate` in one dimension with its rule, workspace and partial sort | simulation of the program on a memory with undefined cells by abstract runs that bisect a worst interval; sortedness invariant; exactness on the monomials; counterexample |
| C123 | `WorkspaceManager` | invariant over all interleavings; counterexamples |
| C124 | `Integrate<n>` with its rule, storage and heap | heap with a hole as the invariant of the two placement loops; simulation by abstract runs that cut a worst box; exactness on the monomials by the size of their support, affine expansion and Fubini; counterexamples |
| C125 | reading, writing and merging of parameter files, with eval and repr as parameters | line-level lemma for sections, induction on lines; exact characterisation of merging by attribute; counterexamples |
| C126 | `verify_arguments`, the set-up as a transition system of n ranks on one file system, starting points and restarts | characterisation of the outcome by cases; an inductive invariant of all interleavings, a weight that decreases, absence of failure; explicit schedules as counterexamples |
| C127 | `WedgeTransfer` on the model of the grid of C52; the choice of the class | the bin indices as in C52; the samples of a bin lie one in each of as many equal cells, so the error of the mean is a sum of errors over cells, bounded by integrals |
| C128 | `Cosmology` as a dictionary with an astropy object inside (astropy as a parameter: its radiation, its expansion of masses); `ClassParams.from_astropy` | an invariant (entries = arguments of the astropy object) kept by constructor, `from_astropy`, copy, pickle, clone; the theorems follow from it |
| C129 | `GeorgeSimulationData` and its set: columns, scalers, kernel, process and prediction over exact reals, the cache of every property with its declared parents, arguments of a call | the Gaussian kernel is positive (definite) by the series of the exponential; the cache agrees with the parameters as an invariant of the harmless operations; units and order by uniqueness of the mean |
| C130 | `SimulationP11`, `SimulationPdv`: loading of the tables into the data frame and the grid, the interpolation table (the model of C90), calls, assignments; `Pdv_jennings`, `Pvv_jennings` with the state they change and exceptions | the grid and entries of the table by induction over the tables; values by C90; the jump as a one-sided limit |
| C131 | `periodic_gaussian_covariance`, `cutsky_gaussian_covariance` of multipoles on floats with infinities and nan, with the rule of `broadcast_kmu` | values by computation, definiteness as a sum of squares and linear independence of the Legendre polynomials on the angles, limits by uniform continuity, optimal weights by Cauchy-Schwarz |
| C132 | `sel`, `remap_label_indexers`, `get_nearest` with the pandas lookup of the nearest label, iteration over blocks, `normalized` | nearest label by counting in sorted lists, selection refined to selection by position (C14), enumeration by induction over the product of labels, correlations by the semidefinite form on two vectors |
| C133 | `growth_function`, `alpha_png`, `delta_bias`, `btot` of the quasar spectrum on reals, with the integral as integral | growth equation by the fundamental theorem of calculus, early times and normalisation by comparison with a universe of matter only, transfer function by computation |
| C134 | the `results` setter, `set_fit_results`, `set_fiducial`, `apply` and the choice of start and flags in `run`, on top of the models of results and `set_free_parameters` | invariant over all sequences of operations (good parameter state, right cached statistics under every name), induction over the files, case analysis of `run` |
| C135 | `RSDSpline.__call__`, `InterpolatedFunction`, `interpolated_function` with its cache, the wavenumbers of a model, `power` and `derivative_k` of the dark matter spectrum on arrays | invariant of the caches over all histories of evaluations, induction over the powers of mu, inequalities for the dilated wavenumber on top of C60 |
| C136 | `_load`, `_unload`, `_get_loaded_data`, `load_dm_sims`, `use_spt` on top of the model of the cache: a class is a family of classes, one for each set of tables | invariant over all histories: cached values are those of the class at the current tables; switching tables while the flag is off changes no value, switching the flag drops exactly what may depend on the table |
| C137 | `NonlinearPS` (checks, units, spline, range), `emu`/`emu_noh` (Kriging basis, prediction, reconstruction, interpolation, conversion) with the shipped tables of wavenumbers, lengths and precisions, `hubble.c` | limits as exact doubles; positive definiteness of the Gaussian kernel (C129); chords of the two interpolations; cubic spline of C108; invariant of the bisection, monotone integrals |
| C138 | `bestfit.py`: `to_info`/`from_info` with what they use of `to_csv`/`read_csv` (words, header with one word less, inference of column types), `from_nlopt`, `to_comparison_table` up to formatting | induction over attributes and rows; column-wise inference is the identity on homogeneous columns; rows of the first set as a permutation, entries by lookup |
| C139 | end of `RSDFitDriver.run`, `FittingDriver.run` from the solver on, `finalize_fit`, `FileLogger`, `copy_log`, exits of the `with` statements; one process, files as maps | the run as the list of all states of the disk, every failure an input; invariant over the phases of that list |
| C140 | `calculate_transfer`, `apply_transfers`, limits of gridded transfers, grouping by `_get_theory_callables`, with the exceptions; a prediction is the pair (identifier, k) | the loop over the statistics as a list recursion; outcome for every group by induction; failures as theorems over all data objects |
| C141 | `set_covariance`, `set_all_measurements` and `initialize` on top of the models of C10-C15 and C40-C43, without selection; `x**0.5` is any function | positions kept by trimming are shown to be those of the masks, so that columns and rows move together (`trim_together`) |
| C142 | `update_fiducial` on top of the model of parameter sets of C23: symbol table, children sets, evaluation with a recursion limit | its loops are histories of assignments and reads, so the invariant of C23 carries through them |
| C143 | `chains` as the filling of an ordered dictionary, `corr` as sums over the samples with nan for a vanishing divisor, the masked and unstacked square table, any sort in decreasing order | Cauchy-Schwarz; membership and distinctness of the rows of the product table |
| C144 | the curves yielded by the plotting generators (abscissae, ordinates, error bars, colours), the slices of the combined model, both plots and the residuals | slices by C33; pointwise algebra; the integral over mu of a polynomial |
| C145 | the model setter and constructor of a theory, over a list of objects with references: keywords, range, update, class check, fit parameters, the kept gradient and the kept constraint function | lemmas on dictionaries and update; case analysis; induction over histories |
| C146 | range and ticks, numpy's histogram, the normalised curves, the dictionaries kept by name, panels and figures, over reals; the interpolation is a parameter | Chebyshev's inequality on lists; existence and uniqueness of the bin; invariant of the dictionaries |
| C147 | the constructor and its checks, the three caches, the grid and its interpolation (that of C90), masks, evaluation, `to_poles` with the shapes of C113 and Simpson's rule, `SmoothedXiMultipoles`, over reals; curve_fit, spline and transform are parameters with contracts (satisfied by a concrete instance) | invariant of the caches over histories; zero residuals determine the exponents; continuity by gluing |
| C148 | `histogram_bins` and all methods of `Trace` but the printing and plotting, over reals, with the histogram of C146; spline and root finder are parameters with contracts (both shown to be satisfied), random numbers are arguments | sums of indicator lists; induction on the points of the interpolation and on the random numbers; sorted lists for the median; permutations; affine maps |
| C149 | `format_scaled_param` with its formats and regular expressions on lists of characters and rational numbers, and the second half of `extract_parameter_names` with the shared dictionary of latex names | digits of numbers, uniqueness of the order of magnitude; folds over dictionaries; induction on the parameters and on the analyses |
| C150 | `convolve_multipoles` (default branch) on top of the models of `WindowConvolution` (C50, C51) and of `pk_to_xi`, `xi_to_pk` (C110); `splrep` and the splines of the window are abstract operators with contracts | linearity of the trapezoidal rule; the Bessel functions of C110; the theorems of C50 and C51 at each separation |
| C151 | the metaclass `Schema` on a list of entries; the quasar parameters and their constraints as an instance of the system of `ParameterSet` (C20 to C23), over the reals | induction over the entries; the theorems of C22 and C23 at the instance; real powers |
| C152 | the options with their checks and defaults, the properties of `Cache`, `FittingDriver.__init__` over them, `default_params`, `set_restart`, what the command line adds and what the solvers read; dictionaries have an identity, so that shared defaults are in the model | induction over the order of the options; dictionaries are only appended, so earlier ones keep their contents |
| C153 | the four plots of `plotly/mcmc.py` as lists of panels, and `kde_scipy` with its meshgrid; `np.around`, `np.histogram`, the density estimate are functions with stated contracts | induction over walkers, chains, and the two loops with their counter; the labels by an invariant of the shared dictionary |

## What is modelled and what is not

Modelled (line by line; see the citations in `lean/Verif/Model/*.lean`):

* `rsd/_cache.py` (all), `rsd/tools.py` AP functions, shape handling, multipole decorators, `cacheable`, lookup-table fallback, halo bias relations; `rsd/_interpolate.py` (all); `extern/backports/lru_cache.py` (all branches).
* The declarations and read sets of all cached attributes of the five spectrum classes, as tables extracted from the source by `tools/readsets.py` (the extraction is trusted; its rules are in `Model/Shipped.lean`).
* `rsd/power/gal/*`, `rsd/power/qso/*` with their analytic derivatives, `rsd/power/gradient.py`; of `rsd/power/dm/power_dm.py` the mu expansion, `preserve`, `use_cache`, `Pdv_jennings`, max_mu, AP application.
* `rsd/hzpt/*` with the C++ classes of `ZeldovichPS.cpp`, `LinearPS` and `Q3_Zel`.
* The perturbation-theory integrals of `_gcl` (`Imn.cpp`, `Jmn.cpp`, `Kmn.cpp`, `ImnOneLoop.cpp`, `OneLoopPS.cpp`, velocity integrals of `PowerSpectrum.cpp`), quadrature and splines abstract.
* `_gcl/cpp/Spline.cpp` (all but `max`/`min`/`clone` of the implementations), `Cosmology.cpp` with `pygcl.py`'s subclass and `rsd/cosmology.py`'s `to_class`; `SpecialFunctions.cpp`, `CorrelationFunction.cpp`, `Kaiser.cpp`; `extern/mcfit` (spherical Bessel kernels only), `fftlog.f` (`loggamma` and `cdgamma` enter as a function whose exponential is Γ).
* `rsd/pt_integrals.py` and all terms in `rsd/power/dm/*.py`, `rsd/power/biased/*.py` as formulae over these integrals (`Model/PT.lean`).
* `rsd/window.py` (kernels, convolution), `rsd/transfers/grid.py`, `poles.py`, `window.py`, `__init__.py`, and C++ `DiscreteQuad.cpp`.
* `rsdfit/parameters/*` (distributions, parameter, parameterset, replace_vars), `rsdfit/theory/base.py`, `gal_defaults.py` (constraints), `decorators.py`.
* `rsdfit/data/covariance_matrix.py`, `power_measurement.py`, `tools.py` (units).
* `rsdfit/driver.py`: probabilities, gradient, Fisher matrix, restarts, alignment of vectors.
* `rsdfit/solvers/*` (LBFGS complete; emcee bookkeeping, convergence test, chain manager), `rsdfit/util/mpi_manager.py`, file naming in `rsd_io.py`, `rsdfit/results/*`, the analysis of chains in `rsdfit/analysis/` (not its plots).

Not modelled: plotting (`rsdfit/util/plot.py`, `plotly`), command-line parsing, logging; CLASS (an abstract function of the
model parameters); adaptive quadrature (abstract linear/homogeneous maps); `simulation.py` Gaussian-process tables (abstract functions); floating-point rounding;
real concurrency inside numpy/MPI (messages are modelled as interleavings).

Each theorem's comment states its own simplifications; the header comment of each model file states those common to the file.

## Findings (behaviour of the code that violates a property, each proved)

'''
import json
M=json.load(open('/verif/MANIFEST.json'))
P={json.loads(l)['id']:json.loads(l) for l in open('/verif/properties.jsonl')}
rows=[]
for c in sorted(M['claims'],key=lambda c:c['property']):
    ce=[x.replace('Verif.','') for x in c['theorems'] if 'counterexample' in x]
    if ce or c['status']=='partial':
        rows.append('* **%s** (%s) — %s %s'%(c['property'],P[c['property']]['title'],c['note'],('Witnesses: '+', '.join('`%s`'%x for x in ce)+'.') if ce else ''))
plan+='\n'.join(rows)+'\n\n## Axioms of the claimed theorems\n\n<!-- axioms:begin -->\n<!-- axioms:end -->\n'
open(p,'w').write(head+plan)
