# Formal model of runlmc in Lean 4

Layout of `lean/Verif`:

* `Model/*.lean` – the code, function by function; every definition cites file and lines of `/repo`.
* `Spec/*.lean` – small independent specifications: what the English properties talk about (a Toeplitz matrix, Keys' weights, the LMC
  covariance, a Gaussian log density, a documented constructor call, a history of calls …).
* `Proofs/*.lean` – lemmas.
* `Props/*.lean` – the property theorems, named `Cnn_…`, followed by concrete instances that meet their hypotheses.

`properties.jsonl` is generated by `tools/props.py`. `tools/manifest.py` writes `MANIFEST.json` and `lean/Verif.lean`; the notes come from
`tools/notes.json`. `tools/mutate.py` applies wrong edits to a scratch copy of the model and records which theorems stop compiling;
`tools/mutlog.py` appends the outcome to `seeded/LOG.jsonl`.

## Trusted base

* Lean 4.33.0's kernel and Mathlib as installed. The only axioms are `propext`, `Classical.choice` and `Quot.sound`
  (`vcheck` audits them; every theorem in `Props` depends on a subset of these three).
* That the model is a faithful reading of the python text, with these conventions:
  * **Scalars.** float64 is idealised as ℝ: no rounding, overflow, NaN or infinity. Integers are ℕ or ℤ. Consequences: results that are
    NaN in python (for example the standard deviation of an empty output) are not described; hypotheses exclude these cases where it
    matters.
  * **Arrays.** A 1-D ndarray is a `List`, a 2-D ndarray (`Arr2`) its two sizes and the entries in C order, an n-d ndarray (`NDArr`) a shape
    and the entries in C order, so that `reshape` is literally a change of shape. Arrays from `np.empty` hold an opaque unknown value
    until they are written. Memory layout is modelled only where the code depends on it (`map_entries`, C63), aliasing only where a
    function writes to an argument (`autogrid`, C22).
  * **Exceptions** are values, `Except PyErr α`. Code that changes objects before it raises is in the state monad
    `PyM α = World → Except PyErr α × World`, so that what was done before the exception stays done.
  * **Objects with methods** are records of their observable attributes and bound methods (`MatObj` for `linalg.Matrix`); dynamic dispatch
    is field access. `Built` is the inductive predicate of all operators that can be made by nesting constructor calls.
* What libraries do, as far as the code relies on it:

| library | modelled as |
|---|---|
| `np.fft` | the finite sums of its documentation |
| `scipy.linalg.cholesky/cho_factor/cho_solve`, `np.linalg.slogdet` | contract: the factor with positive diagonal if there is one, else `LinAlgError`; solution of the system; sign and logarithm of the determinant |
| `scipy.sparse.linalg.minres/cg` | arbitrary: any list of iterates passed to the callback, any returned vector and flag. Theorems that need more say so (`Solvers.Fit`: results have the right length; `ExactSolves`: the system is solved) |
| `scipy.sparse.csr_matrix` | `data/indices/indptr` and its meaning (the sum of stored entries); dense meaning from `genGridKernel` on |
| `np.random.randint` | every sign vector equally likely (C38, C67); elsewhere an arbitrary list of sign vectors |
| `scipy.stats` | density and quantile function of the normal distribution (`Proofs/Ppf`) |
| `multiprocessing.Pool` | tasks are finished in any order, `starmap` returns results in argument order |
| `functools.lru_cache(maxsize=1)` | one entry per decorated function of the class, keyed by object identity |
| paramz | index operations, singleton transformations and link lists, as written in its source and marked "External (paramz)"; the flat array `optimizer_array` and its transformations, without `Logexp`'s cut-offs |
| climin | `Adadelta` is an arbitrary iterator that updates the point and yields gradients |
| GPy | the documented formulas of three kernels; a fitted model is an arbitrary predictor |

## What is modelled

| file of `/repo/runlmc` | model | not modelled |
|---|---|---|
| `linalg/*.py` | `Matrix`, `Toeplitz`, `BTTB`, `FFT`, `Shur`, `Pickle`, `RawProduct` | `__str__` |
| `approx/interpolation.py` | `Interp` | – |
| `approx/iterative.py`, `approx/ski.py` | `Iterative`, `Matrix` | text of log messages |
| `kern/*.py` | `Kern`, `Gpy` | names |
| `lmc/functional_kernel.py` | `FunctionalKernel`, `Setters`; the flat array in `Optimizer` | `to_dict` style printing; the random numbers of initialisation are arbitrary |
| `lmc/grid_kernel.py` | `GridKernel`; what its products cost in `Work` | – |
| `lmc/likelihood.py`, `exact_deriv.py`, `derivative.py` | `Likelihood` | – |
| `lmc/stochastic_deriv.py`, `metrics.py` | `Iterative` | – |
| `models/multigp.py`, `util/normalizer.py` | `MultiGP` | – |
| `models/interpolated_llgp.py` | `LLGP` (functions of one model), `LLGPState` (objects, class-level caches, updates, exceptions at any point), `Modes` (assignments to the attribute `prediction`) | `max_procs` beyond the choice of a pool; texts of messages |
| `models/optimization.py` | `Optimization`, `Optimizer` (runs on a model), `Search` (`optimize` with other optimizers) | printed texts |
| `models/gpy_lmc.py` | `Gpy`, `GpyLMC` | GPy itself (its dense regression model is described by its documented formulas); the sparse model |
| `README.md` | `Readme` (the snippet without its plots) | installation, pictures; the name of the class, which does not exist, is read as `InterpolatedLLGP` |
| `parameterization/*.py` | `Priors`, `Parameterization`, `Multilevel` (priors with parameters as arguments), `PriorOptim` (the optimiser of a model with priors) | `param.py` and `parameterized.py` add no behaviour of their own; `__str__` |
| `mean/*.py` | `Mean` | – |
| `util/numpy_convenience.py`, `inline_pool.py`, `docs.py` | `NumpyUtil`, `PyUtil` | – |
| `util/testing_utils.py` | `TestingUtils`, `TestHelpers` | `run_main` (calls a function that does not exist) |
| `benchmarks/benchlib`, `data/synth/mkdata.py` | `Bench` (metrics, command line checks, kernels of `bench.py`), `BenchRun` (the rest of `bench.py`), `BenchData` (data sets), `BenchLmc` (`bench_runlmc`), `BenchFigures` (tables; the curves of `benchmarks/pictures/fxmetrics.py`), `BenchCogp` (reading the results that COGP prints) | downloading and reading files, clocks (the time of a run is given), drawing, calls of other programs, the texts of numbers in tables (an arbitrary function) |
| `data/noaa/clean.py` | `Noaa` (matching of the regular expressions, numbers, joining and dropping rows) | unpacking and reading the files, dates, printed texts, the map; characters other than ASCII digits and letters count as punctuation |

Outside the model altogether: numerical round-off, timing, the other `data/` and `benchmarks/` scripts, the documentation build, and paramz's `update_model(False)` (but for
its use in the constructor). Models that share one `FunctionalKernel` object are in `Shared`, with these assumptions about paramz: a parameter has one parent,
`link_parameter` takes it from an earlier parent, and an assignment leads to `parameters_changed` of the present parent only. Every other module has one kernel
object for each model.

## Properties

How each property is modelled and proved. "False" marks properties the code does not have: there the theorem `…_partial` states what
holds, and further theorems give a witness and, where possible, exactly what the code does instead.

| id | modelled by | proof |
|----|-------|-------|
| C01–C03, C06–C09 | constructors of `MatObj` | induction over `Built`; entry lemmas for reshape, slices and concatenation |
| C04, C05 | Toeplitz and BTTB products through circulant embedding and (n-d) real FFT | convolution theorem from roots of unity; induction over the axes |
| C10 (false) | `upper_eig_bound` of each class | Gershgorin for Toeplitz; quadratic-form bounds; witnesses for non-PSD operands |
| C11 | `Shur`: loop of hyperbolic rotations | displacement invariant by induction over the loop |
| C12 | dense meaning of operators | quadratic forms |
| C13 | operators with object identity and a cached wrapper | invariant over histories |
| C14–C20, C23 (false) | `cubic_kernel`, `interp_cubic` (floor, clamp, CSR rows), `interp_bicubic`, `multi_interpolant` | algebra over floor; Taylor with remainder for C17; induction over blocks for C20 |
| C21, C22 (false) | `autogrid`, with a heap for the caller's array | arithmetic with floor |
| C24, C26, C27 (false), C28 (false) | inductive type `Kern` of kernels | `HasDerivAt` |
| C25 (false) | same | RBF by power series and Schur products; Matérn-3/2 as a mixture of RBFs (`Proofs/Matern`); periodic on the line by cosine features; a planar counterexample |
| C29 (false), C30, C31 | `FunctionalKernel` | list reasoning, loop invariant of `set_input_dim` |
| C32, C33 (false), C34 (false) | the three grid representations | entry calculus; exact formula including the spurious identity |
| C35–C37, C40 | `ExactLMCLikelihood` | Jacobi's formula for `log det`, derivative of the inverse; each parameter separately and the whole gradient |
| C38, C39, C67 | `StochasticDeriv`, `ApproxLMCLikelihood` | finite expectation over all sign vectors |
| C41, C42 (false) | `Norm`, validation in `MultiGP` | algebra, list reasoning |
| C43–C47 | the three prediction modes and quantiles | Schur complement; monotonicity of the normal quantile |
| C48, C49 (false), C50, C69 | `World` with objects, caches, interrupts at any checkpoint; `Spec/LLGPState` programs | invariants by induction over programs; a bisimulation with the uncached program; `Props/Reached` carries the theorems about single models (C72, C81, C84, C85, C89, C94) over to every model that a documented program holds |
| C51, C52 | arbitrary iterates, arbitrary climin iterator | induction over the run |
| C53 (false), C54 | the four priors | calculus, Gamma integrals |
| C55 (false), C56 (false) | flat parameter array with constraints and priors | calculus; invariants over histories of calls |
| C57 | mean functions | calculus |
| C58, C68 | GPy wrapper | routing of rows; kernels' formulas |
| C59–C65 (C63, C65 false) | utilities | lists; schedules of the pool; class dictionaries |
| C66, C70 | constructor to covariance | composition of C20, C21, C32, C34; PSD of `W K Wᵀ` |
| C71, C72 | same | Taylor remainder of `x ↦ k(dist(x,y))` in each coordinate, tensor products of interpolation errors, perturbation of the linear solve |
| C73, C74 | whole programs (`LLGPState`), stated with `Spec/Symmetry` | a simulation between the two programs (`Proofs/LLGPSim`): related models have equal distances, interpolants and covariances; normalisation undoes the units, all uses of inputs are differences |
| C75 | `TestingUtils`: loops as inductive relations over the draw | least eigenvalue by compactness (Rayleigh quotient), sums of squares for the linear row, diagonal dominance |
| C76 | `BasicModel` | derivative of the log determinant and of the inverse |
| C77 | `singleGradOpt` | descent lemma |
| C78 | `smse`, `nlpd`, `bestColumn` | filtered lists as sums over finite sets |
| C79 (false) | `benchChecks`, `genKernels` | case analysis; the default test type is rejected |
| C80 | `MultiGP.predict`, `rawPredict` in every mode | mean and explained variance written as functions of the padded point; for programs through C69 and the heap being unchanged by questions |
| C81 | `MultiGP.predict`, `rawPredict` in `'exact'` mode of two models | the explained variance as a supremum of a concave functional of weights; an injection of rows from the inclusion of points; posterior covariance is monotone |
| C82 | `LLGP` constructor, grids, normalisation and all questions, for two programs | a bijection of rows from the permutations; minima and maxima, hence grids, are the same; all answers are invariant under reordering of matrices |
| C83 (false) | `matvec` and `matmat` of all classes with numpy's errors and broadcasting, `as_linear_operator` | induction over the constructors; loop invariants for the block classes; divisibility for the reshapes of `Kronecker`; partial: several classes accept other sizes |
| C84 | `predict` of two models that differ in the observations of outputs uncoupled from the rest | covariance matrices are block diagonal up to order: the quadratic forms of the conditional mean and variances reduce to the rows of the group |
| C85 | `predict` of models that differ in the observed values | formulas of the conditional mean and variances for all modes; linearity of the inverse |
| C86 | mean square of the stochastic derivatives and of every stored gradient over the probes | fourth moments of random signs by flipping one sign; Chebyshev's inequality |
| C87 | programs with two models whose inputs, bounds, length scales and query points are in different units | an isomorphism of models (renaming of outputs, maps of coordinates) under which every covariance, and so every answer, is the same; the grid generator commutes with the change of units |
| C88 | programs with two models whose outputs are listed in different orders | an isomorphism of models as in C87; the grid generator depends on the multiset of inputs only, blocks of the interpolation matrix move with the outputs |
| C89 | models updated and asked with solvers that may be inexact but report no failure | the residual is at most the tolerance (C51); the covariance is at least the noise, so errors are bounded by Cauchy-Schwarz in the norm of K^-1; total error with C72 |
| C90 | runs of the optimiser on a model: flat array, transformations, gradients at the points it asks for, callback, final assignment | the loop is refined to a program of assignments by induction on its iterations; the validity of every point from the frame of what assignments to the flat array leave alone; stopping as in C52 |
| C91 | the gradients those runs get | C67 for every parameter, the position of each in the flat array, and the chain rule for the transformation |
| C92 (false) | the setters of `FunctionalKernel` with numpy's broadcasting, alone and inside a model (paramz notifies the model for linked parameters only) | induction over the assignments against a separate definition of broadcasting; refinement to a valid program; a witness for the arrays that are not linked |
| C93 | `predict` | Keys' kernel as a sum of truncated powers, hence continuously differentiable; near any point the weights are a fixed finite sum of shifted kernels; continuity of the covariances |
| C94 | `predict` | the weights past the ends of an axis; kernels that decay; continuity of the quadratic form at 0 |
| C95 | `predict` at the observed points, `normal_quadratic` | the rows of the covariance without noise; completing the square; Cauchy-Schwarz for semidefinite matrices |
| C96 | pairs of programs; `SameCovariance` (equal contribution of each group of dimensions) | every quantity of the model (grid kernels, SKI matrix, cross-covariances, exact covariance) is a function of the grouped covariance; regrouping of finite sums for the rewriting rule |
| C97 | programs; the operators of `linalg`, `ski.py` and `grid_kernel.py` annotated with the arithmetic operations and Fourier transforms of their `matvec` and `matmat` (`Work`); copies and index computations are free | erasing the annotation gives `genGridKernel` back; the price of each constructor, then of each representation; the support of the interpolation weights; `pow2(2 n) ≤ 4 n` |
| C98 (false) | programs; the formulas of C45 and C46 for the variances of the three modes | exact: `priorVar - condVar` is a quadratic form of the inverse; on-the-fly: the quadratic form is nonnegative; precompute: the interpolated values lie between 0 and the latent variance by a Schur complement on the grid, and weights of total 1 and absolute total at most (5/4)^P stretch that range by at most ((5/4)^P - 1)/2; witnesses on a grid of ten points with an RBF kernel of short length scale |
| C99 (false) | `Shared`: kernel objects, which models use them and the one in which each is linked; programs over these | False. Invariant over valid programs: a model holds the current values of its kernel object, and its operators and solution belong to the values at its last update, which are the current ones while the object is linked in it (`C99_current_partial`); witness `C99_violated`; `C99_mixes` says what is predicted instead, `C99_orphaned` what a failing constructor leaves; `C99_dimension` holds |
| C100 | The programs of `LLGPState` (C48), with the random bits, pool, logging and metrics of each operation | Simulation of the two runs: models agree in data, parameters, grids, mode and tolerance; solves of an up-to-date model never fail, so no schedule shows (`C100_rerun`); `C100_model` compares one model of two otherwise unrelated programs; `C100_diagnostics` says exactly when logging or metrics make an update raise outside the documented parameter values |
| C101 (false) | `GPyLMC` with GPy's dense regression model (`GpyLMC`): construction, `optimize` as arbitrary new parameter values, predictions, quantiles, likelihood. What GPy computes is taken from its documentation | For one-dimensional inputs entry by entry equality of GPy's covariance of rows with the LMC covariance (`C101_predict_partial`, `C101_quantiles_partial`, `C101_likelihood_partial`), positive definiteness by Schur products; `C101_described` gives the LMC model for every object; for more dimensions the claim is false: the mean never depends on the output (`C101_blind`), with a witness (`C101_violated`) |
| C102 | Both models, `InterpolatedLLGP` in programs (`Held`, `Predicts`) and `GPyLMC` (`GpyLMC`), on the same one-dimensional data | `C102_agree` from the convergence of SKI (C72) and C101: both are close to, or equal, the exact process with `1e-8` more noise; `C102_exists` constructs, for every `GPyLMC` object, the functional kernel with its parameters and a program that makes a model with it |
| C103 | the grids of `_generate_grids` / `autogrid` for held models | the formula of C21 for each axis, uniqueness of least and greatest values; with C84: predictions of an output do not depend on where uncoupled outputs were observed |
| C104 (false) | the answers of `K`, `log_det_K`, `normal_quadratic`, `log_likelihood` in programs | the exact covariance from `ExactLMCLikelihood`, `α` from the solve with `K_SKI`; equality at grid points from C71; the 2x2 covariances of a model with two observations half way between grid points, computed |
| C105 | `foreign_exchange_2007`, `weather`, `synth`, `gen_random_k` and mkdata.py on what was read or drawn | membership in the selections; the rows divided by a predicate; `L Lᵀ = K` for the Cholesky factor of the covariance, characteristic functions for linear combinations of standard normal numbers |
| C106 | `bench.py` from the arguments and the numbers drawn to the numbers printed, without times and the eigenvalues of the exact covariance | the set-up is that of a constructor call, so the theorems about `InterpolatedLLGP` apply; the grid kernel in each representation from C34; the residuals from C51; the likelihood built by hand is the one the model builds (C39: the schedule of the pool does not matter); the two gradients compared entry by entry, in the order of `np.hstack` |
| C107 | quantile and prediction answers of programs, as functions of random data | the residual of the conditional mean is normal with the conditional variance, whatever the data; answers are within ε·Σ\|y\| of the conditional mean and ε of the variance (C72, uniform in the data); large data are improbable, and the normal law has no atoms; draws exist by a Cholesky factor of the joint covariance |
| C108 | the log likelihood answers of programs, as functions of random data | the error of the answer is at most ε(Σ\|y\|)², uniformly in the data; the mean of a quadratic form is a trace; Gibbs' inequality tr(K⁻¹K*) - n ≥ log det(K⁻¹K*) from the eigenvalues of U⁻ᵀK*U⁻¹ |
| C109 | predictions of two programs, one given every measurement | a solution of the system of the averages, spread evenly over the repetitions, solves that of all measurements (u'ᵀK'⁻¹v' = uᵀK⁻¹v), for the exact and the SKI covariance; sums over fibres of the map from measurements to observations; grids agree by C103; repeated values have the same mean and standard deviation |
| C110 (false) | `Noaa`: greedy matching with backtracking, `noaaClean` | False. A match is a division of the text in which no piece could be longer (`reMatch_cons`); the numbers are maximal runs of digits, the letters are the last ones before the next digit, so the division is unique and `C110_location` is an equivalence. Rows by induction over the join. Signs are lost (`C110_violated`, `C110_unsigned`), rows without position are exported (`C110_unlocated`) |
| C111 | programs with two models whose points, bounds, sizes and active dimensions are numbered differently | the isomorphism of C87, with groups of dimensions under other names and the points of their grids in another order; sorted keys of a group are the same or change places, and then `autogrid` returns the axes in the other order and point `p` of the product grid becomes its transpose |
| C112 (false) | `bench_runlmc` in the state monad, with the runs given as a list (kernels, initial values, circumstances, optimiser, time of each). Independence by a simulation between states that agree up to the numbers of their models; one run is a valid program by C69 and C90, and its scores are those of C78. The standard error is partial: the code divides by `n` |
| C113 | predictions of a program at a point measured k times | the weights solve the regularised least squares problem in which the k rows are replaced by their average; comparison with the fit that uses the average alone. Variance: the explained variance is a supremum over weights, evaluated at equal weights on the k rows |
| C114 | programs that hold models whose covariance functions tend to that of another; assignments of parameters that tend | every entry of the covariances is a finite sum of convergent terms (C96's decomposition by groups of dimensions); inverses by determinant and adjugate, which is where positive noise is used; then the formulas of C40, C44–C47 |
| C115 | pairs of programs that hold models of the same inputs and other values | weights of a kriging predictor satisfy wᵀNw ≤ v/4 (from 0 ≤ joint covariance and AM–GM), so Cauchy–Schwarz relative to the noise bounds the change; the interpolated latent variance v is bounded by the prior variance with the bound on cubic weights (Spec/Influence, Proofs/Influence) |
| C116 | programs that hold models, with what they are told by `log_det_K`, `normal_quadratic` and `log_likelihood` | the answers of C104; the determinant from below by Gibbs' inequality for the covariance and its noise, from above by the same for its diagonal (Hadamard); the quadratic form as in C95; rows are summed output by output (Spec/LogLikBounds) |
| C117 | programs that hold two models, the data of one being that of the other plus one row (`LLGPArgs.Adds`), with what they predict and tell | the rows of the larger model are those of the smaller one and one more; solutions, determinant and positivity of the bordered system by the Schur complement; the grids agree as the range does (C103); what is left of variances is nonnegative as the joint covariance is positive semi-definite (Spec/Update, Proofs/Update) |
| C118 | programs that hold two models with covariance functions and noises in the ratio c (`ScaledCovariance`), or one model before and after the assignment of `FK.amplify` | all matrices of the model are multiplied by c, so solutions are divided by c; the determinant of a multiple; log x <= x - 1 for the best factor (Spec/Amplitude, Proofs/Amplitude) |
| C119 | programs that hold two models of the same data (`MoreVariance`, `Enlarged`, `Noisier`) | the conditional variance is a minimum over weights of the variance of an error of prediction, which is monotone in the joint covariance; Hadamard products for diagonals and further kernels; det (1 + C) >= 1 for positive semi-definite C by eigenvalues (Spec/MoreVariance, Proofs/MoreVariance) |
| C120 | `moving_average` with numpy's slices, broadcasting and in-place division, `div_rolled_max` (`Model/BenchFigures`) | prefix sums; induction over the running maximum; the link to the specification of the optimizer's drops (C52) |
| C121 | `latex_table`, `statprint`, `statsline` with the text of a number as a parameter (`Model/BenchFigures`) | invariant of the search for the minimum with keys that may be nan; the text of a cell is split into its four parts again; texts compared with a separate specification |
| C122 | programs with an extra operation that assigns a mode, known or unknown (`Model/Modes`), on top of the state monad with class-level caches | simulation: the state is that of the program without assignments up to the modes, for each operation; the caches are removed first (C48); answers depend on the attributes only |
| C123 (false) | `RandomTest.setUp` with printing, parsing and the reduction to 32 bits; `check_np_lists` with `assert_allclose`; `error_context` on exceptions with arguments | decimal texts by `Nat.ofDigits_digits`; induction on tests, lists and contexts; witness for bare asserts |
| C124 (false) | `str.find`, the regular expression (as in `Noaa`) and `float` on texts | matching of repeated items, first occurrences of labels, decimal texts; false for negative means and NaN, with what is read instead |
| C125 (false) | constructors called with parameters, whose objects read the current values in their methods but keep the constants | false: the constants go stale (mass of the density computed by C54), and the gradient lacks the term (derivative of the difference to C55); the parameter is moved to the mode of its own prior whatever the data, 1/3 in the example, as its recorded output shows |
| C126 (false) | the transformed gradients of a model with priors: C91's model with the log prior gradients of C55's | false with several prior objects: the derivative of the log posterior is the sum of C91's and of C55's by the chain rule, the missing term being exp(-theta); proved for one prior object and for all other parameters |
| C127 | parameters_changed and StochasticDerivService.generate | inversion of a completed run, step by step; the metrics are read off the state it leaves, the norm by induction over the list |
| C128 (false) | the snippet as a function of the data, the number of kernels and the ranks | false: the ranks of the snippet fit one kernel only, all other numbers of kernels raise ValueError; proved for lists of positive ranks as long as that of the kernels, through C29 and C69 |
| C129 | an optimiser as a function from values and gradients to the next point, on C90's model of updates and C69's of questions | the run is the history of a valid program that assigns and asks, by induction on the number of evaluations; C48 for the answers, C40 for their being finite |
| C130 (false) | the pair of value and gradient of C129 as a function of the point | value by C104, gradient by C91: they differ by the derivative of half the difference of the log determinants (`C130_objective`), which is zero for observations at grid points (`C130_on_grid_partial`), and negative along the noise for two observations half way between them (`C130_violated`) |

## Discrepancies between code and documentation found

1. `parameterization/model.py` `_log_prior_gradients`: only the last prior's indices get a Jacobian gradient (C55).
2. `lmc/grid_kernel.py` `_gen_coreg_Ks`/`_gen_diag_Ks`: `Identity` is returned for an empty sum, so the `slfm` representation gains a
   spurious identity when a group has no coregionalised or no diagonal kernels (C33, C34).
3. `FunctionalKernel(D=…, slfm_kernels=…)` with `lmc_kernels` omitted: `len(None)` raises TypeError (C29).
4. `Scaled.scale` is never linked, so it is never optimised (C28).
5. `Identity.from_dist(0)`: AttributeError for a python scalar (C27); a model with an `Identity` kernel can never predict (C43).
6. `autogrid` does `m += 4` on the caller's ndarray (C22).
7. `interp_cubic` never checks that the grid is equispaced (C23).
8. Repeated inputs are not rejected although documented (C42).
9. An update that is interrupted after the parameters changed leaves the old solve with the new parameters (C49).
10. `set_prior` replaces the previous prior before its checks can fail (C56).
11. `upper_eig_bound` of Kronecker and block matrices is wrong for non-PSD operands; that of `SKI` always raises (C10).
12. `HalfLaplace.lnpdf_grad` ignores the shape of its argument (C53).
13. `map_entries` scrambles arrays that are not C-contiguous (C63).
14. `inherit_doc` overwrites explicit property docstrings and raises when a property overrides a method (C65).
15. `StdPeriodic` is not positive semi-definite in two or more dimensions (C25).
16. `'on-the-fly'` prediction of no points and `'precompute'` prediction when no kernel reads all dimensions raise (C43).
17. `poor_cond_toep` is documented to have a condition number that "scales exponentially with n"; it is at most `4 n²` (C75).
18. `exp_decr_toep` is documented to decrease by "at least e" per step; its factor is `e^u` with `u < 1` (C75).
19. `BasicModel.log_likelihood` adds `1e-10` to the diagonal for the determinant only, its gradient does not (C76).
20. `benchlib/bench.py`: the default test type is `'inversion'`, which the next lines reject, so every call that relies on the documented default fails (C79).
21. `standard_tester.nlpd` drops points with predictive variance zero, so that a certain but wrong prediction is not penalised (C78).
22. `Identity`, `Diag`, `BlockDiag`, `SymmSquareBlockMatrix` and `Kronecker` accept vectors of other lengths than their shape says, by broadcasting, ignoring surplus entries, or reshaping (C83).
23. `kappa` of independent GPs (and of SLFM kernels) can be assigned through `coreg_diags`, but the array is not a linked parameter: the model is not updated, `_dense()` stays cached, and answers depend on which questions came before the assignment (C92).
24. Predicted variances leave the range from the noise to the prior variance: in the mode 'on-the-fly' a variance of 0 is predicted at an observed point half way between grid points when the length scale is shorter than the grid spacing; in the mode 'precompute' the negative lobes of the cubic weights give variances above the prior variance next to an observation and below the noise between two (C98).
25. Two models that are given the same FunctionalKernel: paramz links it to the second one only, so assignments no longer reach the first, which combines the means of old with the variances of current parameter values. A constructor that fails while making the grids leaves the kernel linked to no finished model at all (C99).
26. Debug logging (and recording metrics) factors the exact covariance in every update. For parameter values for which it is not positive definite (zero noise and repeated inputs) an update raises LinAlgError exactly if one of them is on (C100).
27. `GPyLMC` tells GPy that inputs have one dimension (`input_dim = 1` in `_construct_gpy`, and in every `to_gpy`), although its documentation allows any. With inputs of two and more dimensions the second coordinate of each point is read as the index of its output, and the actual index is not read: predicted means are the same for all outputs (C101). Kernels without `active_dims` read the first coordinate only; kernels with several active dimensions cannot be exported (C68).
28. `lo`, `hi` and `m` are documented as the smallest and largest point and the number of points of the inducing grid. The grids always extend beyond them and have `m + 4` points along each dimension (C103).
29. `K()` is documented to return `K_SKI` and `log_det_K()` to use it. Both use the exact covariance (at cubic cost), while `normal_quadratic()` uses `K_SKI`. `log_likelihood()` adds the two and is the log density of the observations under neither covariance (C104).
30. `--validate` of the fx2007 and weather benchmarks sets `runlmc.lmc.stochastic_deriv.StochasticDeriv.N_IT = 1` to save time. Nothing reads this attribute: the number of samples is `trace_iterations` of the model. A held out day without a rate stays in the test data of `foreign_exchange_2007` as `nan` (C105).
31. `benchlib/bench.py`: the vectors `a` are documented to be standard normal; they are drawn from the normal distribution truncated to [-1, 1]. The grid is documented to have `n_o` points and has `n_o + 4`. The number of gradients printed for the coregionalization vectors is `q r_q`, not the `q r_q d` partial derivatives that were computed, so the time per gradient is too large by the factor `d` (C106).
32. `data/noaa/clean.py`: everything but digits and points is removed from the values, so temperatures and dew points below zero lose their sign. Rows with a location that cannot be read are exported with an empty position, because incomplete rows are dropped before the locations are read (C110).
33. `bench_runlmc`: the number given as standard error (tables of the paper, names of the asv benchmarks) is the population standard deviation over `√n`; the COGP rows of the same tables use the sample standard deviation (matlab's `std`). Any `return_lmc` argument, even `False`, makes the call return the model too, and with no runs it then raises (C112).
34. `latex_table`: if the mean of the first column is not a number then that column is in bold, whatever the others are (C121).
35. `error_context`: a plain `assert` without a message inside it is reported as IndexError (`e.args[0]` of an exception without arguments), not as a failed assertion, so unittest counts an error and the context is lost (C123).
36. `cogp_fx2007`, `cogp_weather`, `cogp_synth`: the pattern `\D*([-+e\.\d]*)…` skips the minus sign of a negative mean, so that a mean NLPD of `-3.6` goes into the table as `3.6` (C124).
37. The same functions: if COGP's SMSE are `NaN` then its NLPD are shown as SMSE (C124).
38. `priors.py`: a prior with a `Param` as argument (the last cell of `examples/example.ipynb`) keeps the constant computed when it was made, so its density is not normalised once the parameter has moved, and nothing adds the derivative in that parameter to the gradient. `shape` in the example is therefore fitted to its own prior only: the recorded output is 0.333333333331, the mode of InverseGamma(0.5, 0.5) (C125).
39. `README.md`: the snippet makes a kernel for each of two outputs but gives the ranks `[1]`, which `FunctionalKernel` refuses (C128); it also uses `nout`, which it does not define, and a class `LMC`, which does not exist.
40. `optimize()` without an optimizer uses paramz's default, L-BFGS-B, and `multigp.py` line 185 bounds it to one iteration. The values it is given contain the determinant of the exact covariance and the gradients average to those with the interpolated covariance (C104 and C91 at the points of C129), so off the grid they belong to different functions, with different gradients (C130).
