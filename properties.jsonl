{"id": "C01", "title": "Matrix-free product equals dense product", "statement": "For any operator assembled from the linalg classes, matvec(x) returns exactly as_numpy() times x (in exact arithmetic); as_numpy() of a dense, identity, diagonal or wrapped operator is the matrix it was made from.", "quantifier": "every finite nesting of dense, identity, diagonal, Toeplitz, BTTB, Kronecker, block-diagonal, symmetric-block, sum, composition, wrapped and SKI operators of any size, and every vector of matching length", "why_tests_cant": "the set of operator trees and sizes is infinite; tests try a handful of shapes with tolerances", "anchors": ["runlmc/linalg/matrix.py:Matrix.matvec", "runlmc/linalg/*.py:matvec,as_numpy"]}
{"id": "C02", "title": "Matrix-matrix product acts column by column", "statement": "matmat(X) equals as_numpy() times X, whether the class uses the default column loop or overrides matmat.", "quantifier": "every operator tree, every dense X with matching row count and any number of columns", "why_tests_cant": "overrides (identity, diagonal, dense, composition) and the default must agree for all shapes", "anchors": ["runlmc/linalg/matrix.py:Matrix.matmat", "runlmc/linalg/diag.py:Diag.matmat", "runlmc/linalg/composition.py:Composition.matmat"]}
{"id": "C03", "title": "Shapes are honest", "statement": "An operator whose constructor succeeded reports a shape with both sides >= 1; matvec of a vector of length shape[1] has length shape[0]; as_numpy() has exactly that shape.", "quantifier": "every operator tree", "why_tests_cant": "shape bookkeeping is recomputed independently by every class", "anchors": ["runlmc/linalg/matrix.py:Matrix.__init__", "runlmc/linalg/block_diag.py", "runlmc/linalg/kronecker.py"]}
{"id": "C04", "title": "Toeplitz represents the symmetric Toeplitz matrix of its first row", "statement": "as_numpy()[i,j] = top[|i-j|], and the FFT-based matvec equals multiplication by that matrix.", "quantifier": "every non-empty first row of any length (odd or even) and every x", "why_tests_cant": "the circulant embedding must be right at every length and index; half-spectrum FFT bugs appear only for particular parities", "anchors": ["runlmc/linalg/toeplitz.py:Toeplitz._cyclic_extend", "runlmc/linalg/toeplitz.py:Toeplitz.matvec"]}
{"id": "C05", "title": "BTTB represents the multi-level Toeplitz matrix on a grid of any dimension", "statement": "as_numpy()[i,j] depends only on the per-axis absolute index differences and equals the entry of top at those differences; the n-dimensional FFT matvec with power-of-two padding equals multiplication by that matrix.", "quantifier": "every number of grid dimensions, every axis size (including size 1), every top and x", "why_tests_cant": "the number of dimensions is unbounded; tests use at most 3", "anchors": ["runlmc/linalg/bttb.py:BTTB._cyclic_extend_n", "runlmc/linalg/bttb.py:BTTB._toep_replicate", "runlmc/linalg/bttb.py:BTTB.matvec", "runlmc/linalg/bttb.py:_pow2"]}
{"id": "C06", "title": "Kronecker reshape trick computes the Kronecker product", "statement": "Kronecker(A,B) represents the matrix whose (i,j) block is a_ij*B and its two-reshape matvec multiplies by it, for rectangular factors.", "quantifier": "all operator pairs A,B of any rectangular shapes and all x", "why_tests_cant": "C-order reshape/transposition mistakes cancel for square or symmetric factors, which is what tests use", "anchors": ["runlmc/linalg/kronecker.py:Kronecker.matvec"]}
{"id": "C07", "title": "Block-diagonal and symmetric-block operators place each block at its offset", "statement": "BlockDiag represents the direct sum of possibly rectangular blocks; SymmSquareBlockMatrix represents the D x D block matrix of equal square blocks.", "quantifier": "every list of blocks with any sizes / every D x D grid of blocks", "why_tests_cant": "offset arithmetic over unbounded lists of rectangular blocks", "anchors": ["runlmc/linalg/block_diag.py:BlockDiag", "runlmc/linalg/block_matrix.py:SymmSquareBlockMatrix", "runlmc/util/numpy_convenience.py:begin_end_indices"]}
{"id": "C08", "title": "Sums, compositions and SKI operators mean what they say", "statement": "SumMatrix is the entrywise sum, Composition the matrix product in order, and SKI(K,W,WT) is W K WT (as_numpy gives W K W^T).", "quantifier": "every non-empty list of same-shape operators, every composable chain, every W,K", "why_tests_cant": "order of application and transposes are only visible on non-commuting, non-symmetric data", "anchors": ["runlmc/linalg/sum_matrix.py", "runlmc/linalg/composition.py", "runlmc/approx/ski.py:SKI"]}
{"id": "C09", "title": "Constructors reject exactly the malformed operators", "statement": "Toeplitz/BTTB reject empty tops and a BTTB size product that differs from len(top); SumMatrix rejects an empty list or mixed shapes; SymmSquareBlockMatrix rejects uneven rows; Diag and the base class reject size 0; NumpyMatrix rejects arrays that are not 2-D, Diag, Toeplitz and BTTB arrays that are not 1-D; BTTB needs at least one axis; everything else is accepted.", "quantifier": "all inputs", "why_tests_cant": "rejection must be exact in both directions for every input", "anchors": ["runlmc/linalg/toeplitz.py:Toeplitz.__init__", "runlmc/linalg/bttb.py:BTTB.__init__", "runlmc/linalg/sum_matrix.py:SumMatrix.__init__", "runlmc/linalg/block_matrix.py:SymmSquareBlockMatrix.__init__"]}
{"id": "C10", "title": "upper_eig_bound bounds every eigenvalue", "statement": "For each operator that offers it, upper_eig_bound() is at least every real eigenvalue of the represented symmetric matrix.", "quantifier": "every top / diagonal / operator tree made of classes offering the bound", "why_tests_cant": "an eigenvalue bound is a universal statement; the linear-time Gershgorin recurrence has off-by-one hazards at every length", "anchors": ["runlmc/linalg/toeplitz.py:Toeplitz.upper_eig_bound", "runlmc/linalg/diag.py:Diag.upper_eig_bound", "runlmc/linalg/kronecker.py:Kronecker.upper_eig_bound", "runlmc/linalg/block_matrix.py:upper_eig_bound", "runlmc/linalg/sum_matrix.py:upper_eig_bound"]}
{"id": "C11", "title": "Schur algorithm returns a Cholesky factor of the Toeplitz matrix", "statement": "shur(top) returns an upper-triangular C with C^T C equal to the symmetric Toeplitz matrix with first row top.", "quantifier": "every n and every positive-definite (more generally: every input on which the loop does not break) first row", "why_tests_cant": "the loop invariant spans all steps and all n", "anchors": ["runlmc/linalg/shur.py:shur"]}
{"id": "C12", "title": "Positive semi-definiteness is closed under the operator algebra", "statement": "Kronecker, block-diagonal, sum of PSD operators and SKI of a PSD operator are PSD.", "quantifier": "every PSD operand of any size", "why_tests_cant": "PSD is a statement about all vectors", "anchors": ["runlmc/linalg/kronecker.py", "runlmc/linalg/block_diag.py", "runlmc/linalg/sum_matrix.py", "runlmc/approx/ski.py"]}
{"id": "C13", "title": "Pickling an operator preserves its meaning and drops only the cached wrapper", "statement": "After any sequence of as_linear_operator() and pickle round-trips an operator has the same attributes, and as_linear_operator() returns one wrapper per object lifetime.", "quantifier": "every history of as_linear_operator / pickle / unpickle calls", "why_tests_cant": "a statement about all histories", "anchors": ["runlmc/linalg/matrix.py:Matrix.__getstate__,__setstate__,as_linear_operator"]}
{"id": "C14", "title": "cubic_kernel is the Keys kernel and rejects |x|>2", "statement": "cubic_kernel returns the Keys cubic-convolution weights elementwise for inputs with |x|<=2 and raises ValueError exactly when some |x|>2; its four integer translates sum to one.", "quantifier": "every finite array", "why_tests_cant": "continuum of inputs incl. the boundaries 0,1,2", "anchors": ["runlmc/approx/interpolation.py:cubic_kernel"]}
{"id": "C15", "title": "Interpolation rows are affine weights with at most four in-range columns", "statement": "Every row of interp_cubic(grid, samples) has all its stored columns inside the grid, touches at most 4 columns and sums to 1, even for samples outside the grid; it never raises for 1-D inputs with grid size >= 4 and non-zero spacing.", "quantifier": "every grid size >= 4, every spacing, every sample (extrapolation included)", "why_tests_cant": "clamping at both ends interacts with floor for a continuum of samples", "anchors": ["runlmc/approx/interpolation.py:interp_cubic"]}
{"id": "C16", "title": "Cubic interpolation is exact on grid points and on quadratics", "statement": "For an equispaced grid the interpolation row reproduces f exactly at grid points for every f, and reproduces every polynomial of degree <= 2 at any sample with two grid points on each side.", "quantifier": "every grid, every sample strictly inside, every quadratic, every function at grid points", "why_tests_cant": "holds for a continuum of samples and all polynomials", "anchors": ["runlmc/approx/interpolation.py:interp_cubic", "runlmc/approx/interpolation.py:cubic_kernel"]}
{"id": "C17", "title": "Cubic interpolation has third-order error", "statement": "For a three-times differentiable f with |f'''| <= M the interpolation error at an interior sample is at most C*M*h^3 with h the grid spacing and an explicit constant C.", "quantifier": "every such f, grid spacing and interior sample", "why_tests_cant": "an asymptotic rate over all functions", "anchors": ["runlmc/approx/interpolation.py:interp_cubic docstring"]}
{"id": "C18", "title": "Far extrapolation is clamped to the end grid points", "statement": "A sample at least two cells below the grid gets the row e_0, at least one cell above the last point gets the row e_{m-1}.", "quantifier": "every such sample", "why_tests_cant": "continuum of samples", "anchors": ["runlmc/approx/interpolation.py:interp_cubic", "runlmc/approx/test_interpolation.py"]}
{"id": "C19", "title": "Bicubic interpolation is the tensor product of the two cubic interpolations", "statement": "interp_bicubic's row for (sx,sy), read at column ix*my+iy, equals cubicrow(sx)[ix]*cubicrow(sy)[iy]; hence rows sum to 1 and products of quadratics are exact inside.", "quantifier": "every pair of grids, every list of samples", "why_tests_cant": "sparse index arithmetic (ix*my+iy, vstack of four blocks) over all sizes and samples", "anchors": ["runlmc/approx/interpolation.py:interp_bicubic"]}
{"id": "C20", "title": "multi_interpolant is the block diagonal of per-output interpolants", "statement": "The CSR matrix assembled from the per-output CSR matrices is well formed and its dense form is their block diagonal with column stride m, including outputs with no samples.", "quantifier": "every number of outputs, every per-output sample count (including zero), every family of CSR blocks", "why_tests_cant": "CSR pointer arithmetic over unbounded lists; empties are boundary cases", "anchors": ["runlmc/approx/interpolation.py:multi_interpolant", "runlmc/util/numpy_convenience.py:begin_end_indices"]}
{"id": "C21", "title": "autogrid brackets all inputs by two grid points on each side", "statement": "The grid is equispaced with m+4 points, covers [lo,hi] and all inputs, has at least two grid points at or below the smallest input and at least two at or above the largest, and no training-time interpolation is clamped.", "quantifier": "all inputs with a non-degenerate range, any optional lo/hi/m (m > 0)", "why_tests_cant": "continuum of inputs; linspace's m+4 points change the spacing so the claim is not obvious", "anchors": ["runlmc/approx/interpolation.py:autogrid"]}
{"id": "C22", "title": "autogrid does not modify its arguments", "statement": "Calling autogrid leaves the caller's lo, hi and m unchanged, so repeated calls give the same grid.", "quantifier": "all argument kinds (None, list, ndarray) and all call histories", "why_tests_cant": "an aliasing property of call histories", "anchors": ["runlmc/approx/interpolation.py:autogrid (m = np.asarray(m); m += 4)"]}
{"id": "C23", "title": "interp_cubic rejects grids that are not equispaced", "statement": "As documented, interp_cubic raises ValueError when the grid is not equispaced, not 1-D or shorter than 4 (given at least one sample).", "quantifier": "all grids", "why_tests_cant": "documented for every non-equispaced grid", "anchors": ["runlmc/approx/interpolation.py:interp_cubic docstring and checks"]}
{"id": "C24", "title": "Kernel gradients are the derivatives of the kernel values", "statement": "kernel_gradient(d)[j] is the partial derivative of from_dist(d) with respect to the j-th hyperparameter for RBF, Matern32, StdPeriodic, Identity and Scaled(k).", "quantifier": "every distance, every positive hyperparameter value (period above exp(-200), below which from_dist deliberately returns NaN), every nesting of Scaled", "why_tests_cant": "continuum of parameters and distances", "anchors": ["runlmc/kern/rbf.py", "runlmc/kern/matern32.py", "runlmc/kern/std_periodic.py", "runlmc/kern/scaled.py"]}
{"id": "C25", "title": "Stationary kernels are positive semi-definite", "statement": "The matrix k(|x_i-x_j|) is PSD for every finite set of points, for each kernel class, as StationaryKern promises.", "quantifier": "every finite family of points of any dimension, every positive hyperparameter", "why_tests_cant": "all point sets and all test vectors", "anchors": ["runlmc/kern/stationary_kern.py docstring", "runlmc/kern/*.py:from_dist"]}
{"id": "C26", "title": "Kernels are normalised and bounded", "statement": "k(0)=1 and 0 <= k(d) <= 1 for RBF, Matern32, StdPeriodic and Identity at all distances; RBF and Matern32 are non-increasing in d; StdPeriodic has period T.", "quantifier": "every distance and positive hyperparameter", "why_tests_cant": "continuum", "anchors": ["runlmc/kern/*.py:from_dist"]}
{"id": "C27", "title": "Every kernel accepts the scalar distance 0 used by prediction", "statement": "from_dist(0) (a Python number, as passed when the model computes prior variances) succeeds and returns k(0) for every kernel class.", "quantifier": "every kernel class, parameters and input kinds (scalar / array)", "why_tests_cant": "depends on the dynamic type of the argument for every class", "anchors": ["runlmc/models/interpolated_llgp.py:_native_variance", "runlmc/kern/identity.py:Identity.from_dist"]}
{"id": "C28", "title": "Every hyperparameter with a gradient is a linked parameter", "statement": "The number of gradients a kernel returns equals the number of scalars it registers with the optimizer, so each hyperparameter is trained.", "quantifier": "every kernel, every nesting of Scaled", "why_tests_cant": "all nestings", "anchors": ["runlmc/kern/scaled.py:Scaled.__init__", "runlmc/kern/stationary_kern.py:update_gradient"]}
{"id": "C29", "title": "FunctionalKernel validates its arguments with ValueError", "statement": "Construction succeeds exactly for D >= 1, at least one kernel, as many ranks as LMC kernels all positive, and as many independent indices as independent kernels; otherwise it raises ValueError. Omitting a kind of kernel means having none of that kind.", "quantifier": "all argument combinations (each possibly omitted)", "why_tests_cant": "all combinations of omitted/empty/non-empty arguments", "anchors": ["runlmc/lmc/functional_kernel.py:FunctionalKernel.__init__"]}
{"id": "C30", "title": "set_input_dim partitions the kernels by active dimensions", "statement": "After set_input_dim(P) every kernel index appears in exactly one active-dimension group, each group lists its kernels in order, the per-group counts of LMC, SLFM and independent kernels add up to the group size and to the global counts; calling it again with the same P changes nothing and with another P raises ValueError.", "quantifier": "every list of kernels with any active dims, every call history", "why_tests_cant": "unbounded kernel lists and call histories", "anchors": ["runlmc/lmc/functional_kernel.py:set_input_dim", "runlmc/lmc/functional_kernel.py:filter_non_indep_idxs", "runlmc/lmc/functional_kernel.py:total_rank"]}
{"id": "C31", "title": "Coregionalization matrices are A^T A + diag(kappa) and PSD", "statement": "coreg_mats() returns symmetric matrices with entry (a,b) = sum_r A[r,a]A[r,b] + [a=b]kappa[a]; PSD when kappa >= 0; initial SLFM and independent kernels have rank-one and e_d e_d^T matrices.", "quantifier": "every rank, D and parameter values", "why_tests_cant": "all vectors / sizes", "anchors": ["runlmc/lmc/functional_kernel.py:coreg_mats", "runlmc/lmc/functional_kernel.py:_initialize_kq,_initialize_Aq"]}
{"id": "C32", "title": "BTTB of grid distances is the kernel matrix on the inducing grid", "statement": "With first-point distances of the Cartesian grid fed through a stationary kernel, the BTTB operator equals the full pairwise kernel matrix on the grid points.", "quantifier": "every number of axes, every axis size, every spacing, every kernel function", "why_tests_cant": "all grids and dimensions", "anchors": ["runlmc/models/interpolated_llgp.py:_generate_grids", "runlmc/util/numpy_convenience.py:cartesian_product", "runlmc/linalg/bttb.py"]}
{"id": "C33", "title": "The three grid-kernel representations agree", "statement": "For the same parameters the 'sum', 'bt' and 'slfm' representations represent the same matrix sum_q B_q (x) K_q.", "quantifier": "every D, Q, ranks, kernel kinds in the group, parameters and grid", "why_tests_cant": "all shapes; degenerate groups (no LMC, no independent, no SLFM) are easy to miss", "anchors": ["runlmc/lmc/grid_kernel.py:_gen_slfm_grid,_gen_bt_grid,_gen_sum_grid"]}
{"id": "C34", "title": "The model covariance is W K_UU W^T + noise", "statement": "gen_grid_kernel returns an operator equal to sum over active-dimension groups of W_g (sum_q B_q (x) K_q) W_g^T plus diag(repeat(noise, lens)), whatever representation it picks.", "quantifier": "every FunctionalKernel, grids, interpolants", "why_tests_cant": "the representation choice is data dependent", "anchors": ["runlmc/lmc/grid_kernel.py:gen_grid_kernel,GridKernel"]}
{"id": "C35", "title": "Exact LMC covariance matches the LMC formula", "statement": "kernel_from_indices(Xs,Zs)[(i,a),(j,b)] = sum_q B_q[a,b] k_q(|x_i-z_j| over the active dims of q); ExactLMCLikelihood.K adds noise_a on the diagonal.", "quantifier": "every number of outputs, points per output (including zero), kernels", "why_tests_cant": "block offset arithmetic for all sizes", "anchors": ["runlmc/lmc/likelihood.py:_coreg_scale,kernel_from_indices,ExactLMCLikelihood.__init__"]}
{"id": "C36", "title": "The exact covariance is positive definite when noise is positive", "statement": "If each k_q is a PSD kernel, kappa >= 0 and every noise > 0 then ExactLMCLikelihood.K is symmetric positive definite, so its Cholesky factorisation exists.", "quantifier": "every dataset and parameters", "why_tests_cant": "all vectors, all datasets", "anchors": ["runlmc/lmc/likelihood.py:ExactLMCLikelihood.__init__"]}
{"id": "C37", "title": "Exact gradients are the derivatives of the log likelihood", "statement": "coreg_vec_gradients, coreg_diags_gradients, kernel_gradients and noise_gradient of ExactLMCLikelihood are the partial derivatives of the Gaussian log marginal likelihood.", "quantifier": "every dataset, every parameter point at which K is invertible with positive determinant", "why_tests_cant": "all datasets and parameters; numerical differentiation only samples", "anchors": ["runlmc/lmc/likelihood.py:LMCLikelihood", "runlmc/lmc/exact_deriv.py", "runlmc/lmc/derivative.py"]}
{"id": "C38", "title": "The stochastic trace estimate is unbiased", "statement": "With exact solves, the average of StochasticDeriv.derivative over all sign matrices equals the exact derivative 0.5(alpha^T dK alpha - tr(K^-1 dK)).", "quantifier": "every K, dK, y, every number of probe vectors >= 1", "why_tests_cant": "an average over 2^(n*N) outcomes, all n", "anchors": ["runlmc/lmc/stochastic_deriv.py:StochasticDeriv,StochasticDerivService.generate"]}
{"id": "C39", "title": "generate pairs every probe with its own solution", "statement": "StochasticDerivService.generate returns alpha = solve(K,y) and inv_rs[i] = solve(K, rs[i]); recording metrics or using a pool changes neither.", "quantifier": "every n_it, n, pool, metrics setting", "why_tests_cant": "list bookkeeping for all sizes", "anchors": ["runlmc/lmc/stochastic_deriv.py:generate", "runlmc/util/inline_pool.py"]}
{"id": "C40", "title": "log_likelihood is the Gaussian log density", "statement": "With the Cholesky factor U of K, log_det_K() = log det K, and with exact alpha log_likelihood() = -1/2 (y^T K^-1 y + log det K + n log 2 pi).", "quantifier": "every positive definite K and y", "why_tests_cant": "all matrices", "anchors": ["runlmc/models/interpolated_llgp.py:log_det_K,normal_quadratic,log_likelihood"]}
{"id": "C41", "title": "Normalisation round-trips", "statement": "inverse_mean(normalize(Y)) = Y, normalised data have mean 0 and standard deviation 1, and inverse_variance scales by the square of the same factor; using a Norm before scale_by raises (AttributeError from normalize, TypeError from the inverses).", "quantifier": "every data vector with non-zero standard deviation", "why_tests_cant": "all data", "anchors": ["runlmc/util/normalizer.py:Norm"]}
{"id": "C42", "title": "Input validation rejects exactly the malformed datasets", "statement": "Model construction raises ValueError iff there are no outputs, the numbers of inputs and outputs differ, some X/Y lengths differ, some X is not 1-D/2-D, some Y is not 1-D, input dimensions are inconsistent, or some Y has zero standard deviation; (documented also: repeated values in Xs).", "quantifier": "all input lists", "why_tests_cant": "all shapes", "anchors": ["runlmc/models/multigp.py:_validate_io,_pad_dims"]}
{"id": "C43", "title": "predict returns one mean and one non-negative variance per query point", "statement": "predict(Xs) returns lists with exactly len(Xs[d]) entries for each output d, and all variances are >= 0, in every prediction mode and with or without normalisation; on an up-to-date model it returns exactly when no kernel is Identity and the mode's own requirement holds (some query point for 'on-the-fly', all kernels on all dimensions for 'precompute', a positive definite covariance for 'exact').", "quantifier": "every query lists (including empty outputs), every model state", "why_tests_cant": "all query shapes and numerical values incl. negative raw variances", "anchors": ["runlmc/models/multigp.py:_predict,predict", "runlmc/models/interpolated_llgp.py:_raw_predict"]}
{"id": "C44", "title": "Predictive mean is the SKI conditional mean", "statement": "The raw mean for a query is sum over groups W_* K_UU W^T alpha with W_* interpolating on the training grid; values are returned for the right output and point.", "quantifier": "every query and model", "why_tests_cant": "index bookkeeping for all sizes", "anchors": ["runlmc/models/interpolated_llgp.py:_grid_alpha,_raw_predict"]}
{"id": "C45", "title": "Exact-mode predictive variance is the conditional Gaussian variance", "statement": "In 'exact' mode the variance is k(x,x)+noise - k_*^T K^-1 k_*, this is at least the noise whenever the kernels are PSD, and clamping never fires.", "quantifier": "every dataset, query, PSD kernels", "why_tests_cant": "all datasets", "anchors": ["runlmc/models/interpolated_llgp.py:_var_predict_exact,_native_variance"]}
{"id": "C46", "title": "Prediction modes agree where they should", "statement": "With exact linear solves 'on-the-fly' uses the same quadratic form with the SKI covariance inverse; 'precompute' equals diag(W C W^T) of the grid variance C at queries that are grid points; 'precompute' raises ValueError for split kernels.", "quantifier": "every model and query", "why_tests_cant": "all queries", "anchors": ["runlmc/models/interpolated_llgp.py:_var_predict_on_the_fly,_var_predict_precompute,_precomputed_nu,_var_solve"]}
{"id": "C47", "title": "predict_quantiles agrees with predict", "statement": "Each returned quantile equals mean + sqrt(var)*ppf(q/100) of the un-normalised predictive mean and variance from predict, and quantiles are ordered like q.", "quantifier": "all queries, quantile lists, normalisation settings", "why_tests_cant": "all values", "anchors": ["runlmc/models/multigp.py:predict_quantiles"]}
{"id": "C48", "title": "Cached quantities never go stale", "statement": "In any history of parameter changes, predictions and likelihood queries on any number of models, every cached quantity returned equals a fresh computation from that model's current parameters.", "quantifier": "all interleavings of operations on any number of model instances sharing the class-level one-entry caches", "why_tests_cant": "all histories", "anchors": ["runlmc/models/interpolated_llgp.py:_dense,_grid_alpha,_native_variance,_precomputed_nu,_clear_caches,parameters_changed"]}
{"id": "C49", "title": "A failed parameter update is not half-applied", "statement": "If recomputation after a parameter change raises, later predictions do not silently mix the old linear solve with the new parameters.", "quantifier": "all histories and all failure points in parameters_changed", "why_tests_cant": "all crash points", "anchors": ["runlmc/models/interpolated_llgp.py:parameters_changed"]}
{"id": "C50", "title": "Optimisation metrics stay aligned", "statement": "With metrics on, after any history of completed parameter updates all five metric series have equal length, one entry per update since the last optimize() call.", "quantifier": "all histories", "why_tests_cant": "all histories and crash points", "anchors": ["runlmc/models/interpolated_llgp.py:parameters_changed,optimize", "runlmc/lmc/stochastic_deriv.py:generate", "runlmc/lmc/metrics.py"]}
{"id": "C51", "title": "Iterative.solve reports honestly", "statement": "Whatever iterates the Krylov method produces, the returned error is the residual norm of the returned vector; if no critical message was logged the residual is <= tol; early termination happens only at an iteration that is a multiple of 100 with residual < tol; verbose only adds outputs.", "quantifier": "every sequence of iterates, every K,y,tol and success flag", "why_tests_cant": "all behaviours of the external solver", "anchors": ["runlmc/approx/iterative.py:Iterative.solve"]}
{"id": "C52", "title": "AdaDelta stops", "statement": "opt performs at most max(1,max_it) iterations for every gradient sequence, calls the callback once per iteration, and stops early exactly when the cumulative number of iterations with gradient norm below min_grad_ratio times the running maximum reaches permitted_drops. With verbosity v > 0 it prints a line at the start, one at the end, and a progress line after each multiple of max(max_it // v, 1) iterations, so fewer than 2 v, and at least v when all of max_it >= v iterations take place; with verbosity 0 it prints nothing.", "quantifier": "all gradient sequences and option values", "why_tests_cant": "all sequences", "anchors": ["runlmc/models/optimization.py:AdaDelta.opt,_print_prolog,_print_update,_print_epilog"]}
{"id": "C53", "title": "Prior gradients are derivatives of prior log densities", "statement": "lnpdf_grad is the derivative of lnpdf on the prior's domain for Gaussian, Gamma, InverseGamma and HalfLaplace, elementwise on vectors.", "quantifier": "every x in the domain and valid parameters", "why_tests_cant": "continuum", "anchors": ["runlmc/parameterization/priors.py"]}
{"id": "C54", "title": "Priors are normalised log densities with the promised moments", "statement": "exp(lnpdf) integrates to 1 over the domain; Gamma.from_EV(E,V) has mean E and variance V.", "quantifier": "all valid parameters", "why_tests_cant": "integrals", "anchors": ["runlmc/parameterization/priors.py"]}
{"id": "C55", "title": "The objective gradient is the derivative of the objective", "statement": "objective_function_gradients is the gradient of objective_function including the priors and the Jacobian terms of all constrained parameters that have a prior.", "quantifier": "every assignment of priors and constraints to parameter indices", "why_tests_cant": "all configurations of priors and constraints", "anchors": ["runlmc/parameterization/model.py:log_prior,_log_prior_gradients,objective_function_gradients"]}
{"id": "C56", "title": "set_prior is atomic and leaves at most one prior per parameter", "statement": "After set_prior(p) succeeds exactly p is attached to the parameter; a set_prior that raises leaves the parameter as it was; unset_prior removes it. constrain and fix replace the constraint of the parameters they are about and touch no priors; what is no constraint is refused.", "quantifier": "all histories of set_prior/unset_prior/constrain calls", "why_tests_cant": "all histories and failure points", "anchors": ["runlmc/parameterization/priorizable.py:PriorizableLeaf.set_prior,unset_prior", "runlmc/parameterization/priors.py:Prior._CONSTRAIN_DOMAIN"]}
{"id": "C57", "title": "Mean functions evaluate and differentiate consistently", "statement": "Zero.f returns zeros and Constant.f returns c_d repeated per point; mean_gradient is the derivative of f with respect to each offset; wrong numbers of inputs or non-1-D inputs raise ValueError.", "quantifier": "all inputs", "why_tests_cant": "all shapes", "anchors": ["runlmc/mean/constant.py", "runlmc/mean/zero.py", "runlmc/mean/mean_function.py"]}
{"id": "C58", "title": "GPyLMC routes each query to its own output", "statement": "predict and predict_quantiles of the GPy wrapper return, for output d and point i, the GPy prediction for (x_i, d), in the right order and shape.", "quantifier": "all query lists and any pointwise GPy model", "why_tests_cant": "all shapes", "anchors": ["runlmc/models/gpy_lmc.py:predict,predict_quantiles", "runlmc/util/numpy_convenience.py:tesselate"]}
{"id": "C59", "title": "tesselate and chunks split without loss", "statement": "Concatenating tesselate(a, lens) gives a back, segment i has length lens[i], and ValueError is raised iff lens is empty or its sum differs from len(a); chunks(l,n) concatenates to l with all chunks of length n but possibly the last.", "quantifier": "all arrays and length lists", "why_tests_cant": "all sizes", "anchors": ["runlmc/util/numpy_convenience.py:tesselate,chunks"]}
{"id": "C60", "title": "begin_end_indices gives consecutive half-open intervals", "statement": "The intervals [begin_i,end_i) are consecutive, start at 0, have the given lengths and cover the total.", "quantifier": "all non-empty length lists", "why_tests_cant": "all sizes", "anchors": ["runlmc/util/numpy_convenience.py:begin_end_indices"]}
{"id": "C61", "title": "search_descending finds the cut point", "statement": "For a weakly decreasing xs it returns i such that exactly the first i entries are >= x (inclusive) or > x (exclusive); otherwise it raises ValueError.", "quantifier": "all arrays, thresholds", "why_tests_cant": "all arrays", "anchors": ["runlmc/util/numpy_convenience.py:search_descending"]}
{"id": "C62", "title": "cartesian_product enumerates the product in C order", "statement": "Row ravel(i_1..i_P) of the result is (a_1[i_1],...,a_P[i_P]) and there are prod(len a_p) rows.", "quantifier": "any number of arrays of any lengths", "why_tests_cant": "all sizes", "anchors": ["runlmc/util/numpy_convenience.py:cartesian_product"]}
{"id": "C63", "title": "symm_2d_list_map and map_entries map every entry", "statement": "symm_2d_list_map returns the symmetric array with f(arr[i,j]) for i<=j; map_entries applies f to each entry and keeps the shape, including empty arrays.", "quantifier": "all sizes and f", "why_tests_cant": "all sizes", "anchors": ["runlmc/util/numpy_convenience.py:symm_2d_list_map,map_entries"]}
{"id": "C64", "title": "InlinePool is transparent", "statement": "starmap returns f applied to each argument tuple in order, with or without a pool, for every order in which workers finish.", "quantifier": "all f, argument lists and completion schedules", "why_tests_cant": "all schedules", "anchors": ["runlmc/util/inline_pool.py:InlinePool.starmap"]}
{"id": "C65", "title": "inherit_doc only fills in missing documentation", "statement": "Methods and properties that have a docstring keep it, missing ones get the docstring of the first base that has one, nothing else changes, and applying the decorator twice is the same as once.", "quantifier": "all class dictionaries and base lists", "why_tests_cant": "all classes", "anchors": ["runlmc/util/docs.py:inherit_doc"]}
{"id": "C66", "title": "Construction yields the interpolated LMC covariance", "statement": "InterpolatedLLGP(...) with documented arguments succeeds, puts at least four equispaced grid points on each axis, and the covariance operator it solves with has entry (r,s) equal to the sum over groups of dimensions of w(x_r)^T K_grid w(x_s) with Keys' cubic weights, plus the noise.", "quantifier": "all documented constructor arguments", "why_tests_cant": "all sizes, kernels and groupings at once", "anchors": ["runlmc/models/interpolated_llgp.py:__init__,_generate_grids", "runlmc/lmc/grid_kernel.py:gen_grid_kernel"]}
{"id": "C67", "title": "Approximate gradients are unbiased", "statement": "With exact linear solves, the gradients the interpolated model computes from its random probe vectors average, over all equally likely probe draws, to the exact gradient of the interpolated log likelihood in every parameter: each entry of each coregionalization vector and diagonal, each kernel parameter and each noise variance.", "quantifier": "all documented models, all parameter values, all numbers of probes; no kernel lists an active dimension twice", "why_tests_cant": "the expectation over the random draws and the derivative are not computable by running", "anchors": ["runlmc/lmc/stochastic_deriv.py", "runlmc/lmc/likelihood.py:ApproxLMCLikelihood", "runlmc/lmc/functional_kernel.py:update_gradient"]}
{"id": "C68", "title": "Exported GPy kernels are the same functions", "statement": "to_gpy of the RBF, Matern-3/2 and standard periodic kernels gives the GPy kernel whose documented formula is the kernel's own function of the distance between points, on the one dimension the kernel is given (the first, if it is given none); Identity and Scaled raise NotImplementedError, kernels of several dimensions AssertionError.", "quantifier": "all kernels, all parameter values, all points", "why_tests_cant": "continuum", "anchors": ["runlmc/kern/rbf.py:to_gpy", "runlmc/kern/matern32.py:to_gpy", "runlmc/kern/std_periodic.py:to_gpy", "runlmc/kern/scaled.py:to_gpy"]}
{"id": "C69", "title": "Documented programs never fail", "statement": "Constructing an InterpolatedLLGP with documented arguments, giving it other valid parameter values and calling optimize's metrics reset never raise, in any order and with any number of models, and afterwards every model's operators are those of its parameters and its predictions those of a model made with its constructor arguments and up to date.", "quantifier": "all programs over any number of models", "why_tests_cant": "all histories", "anchors": ["runlmc/models/interpolated_llgp.py:__init__,parameters_changed,optimize"]}
{"id": "C70", "title": "The interpolated covariance is positive definite", "statement": "For valid parameters (positive noise, positive semidefinite kernels) the covariance of the observations the interpolated model solves with is symmetric positive definite, whatever the inputs and the grid.", "quantifier": "all documented models and parameter values; no kernel lists an active dimension twice", "why_tests_cant": "continuum of parameters and all sizes", "anchors": ["runlmc/models/interpolated_llgp.py", "runlmc/lmc/grid_kernel.py"]}
{"id": "C71", "title": "The interpolation error is cubic in the grid spacing", "statement": "For kernels other than Identity there is a constant, depending on the parameters only, such that the interpolated covariance between any two points inside the grids is within that constant times the cube of the grid spacing of the exact covariance; between grid points it is exact. A constructed model's grids contain every point that lies between training inputs or given bounds, with spacing at most 5/4 of the spread divided by the number of cells asked for.", "quantifier": "all parameter values, all grids, all pairs of points; no kernel lists an active dimension twice", "why_tests_cant": "continuum of points and all grid sizes", "anchors": ["runlmc/approx/interpolation.py:cubic_interpolation,multi_interpolant", "runlmc/approx/interpolation.py:autogrid", "runlmc/models/interpolated_llgp.py:_generate_grids"]}
{"id": "C72", "title": "Everything converges to the exact Gaussian process as the grids are refined", "statement": "With exact linear solves, for given data, bounds and parameters and every tolerance there is a number of grid cells from which on the reported log likelihood and, in each prediction mode, all predicted means and variances between training inputs or bounds are within the tolerance of those of the exact LMC Gaussian process; the errors are at most a constant times the cube of the grid spacing.", "quantifier": "all data, parameter values, query points and prediction modes, and all programs that reach a model with them; no kernel lists an active dimension twice", "why_tests_cant": "a limit over all grid sizes", "anchors": ["runlmc/models/interpolated_llgp.py:log_likelihood,_raw_predict,_var_predict_on_the_fly,_var_predict_precompute", "runlmc/lmc/grid_kernel.py"]}
{"id": "C73", "title": "The units of the outputs do not matter", "statement": "Stating all observations in other units (a positive factor and an offset per output) and running the same program with normalize=True gives the same outcome of every operation: predicted means, quantiles and variances come back in the new units, and likelihoods, covariances and exceptions are the same.", "quantifier": "all programs over any number of models, all solvers, interruptions and units", "why_tests_cant": "all histories and a continuum of units", "anchors": ["runlmc/models/multigp.py:__init__,predict,predict_quantiles", "runlmc/util/normalizer.py", "runlmc/models/interpolated_llgp.py"]}
{"id": "C74", "title": "The origin of the inputs does not matter", "statement": "Moving the training inputs, the given grid bounds and the query points by the same vector changes no answer and no exception of any program.", "quantifier": "all programs over any number of models, all solvers, interruptions and vectors", "why_tests_cant": "all histories and a continuum of vectors", "anchors": ["runlmc/models/interpolated_llgp.py:_generate_grids,_raw_predict", "runlmc/approx/interpolation.py:autogrid,multi_interpolant", "runlmc/lmc/likelihood.py:kernel_from_indices"]}
{"id": "C75", "title": "The generators of test matrices end and return what they are used for", "statement": "For every random draw: smallest_eig is the least eigenvalue of the Toeplitz matrix; random_toep and poor_cond_toep end and return rows with nonnegative entries whose Toeplitz matrix has no negative eigenvalue; exp_decr_toep and rand_pd return positive (semi)definite matrices. Two promises of their documentation do not hold: the condition number of poor_cond_toep is at most quadratic in n, not exponential, and the decay factor of exp_decr_toep is below e.", "quantifier": "all sizes and all random draws", "why_tests_cant": "a continuum of draws; a while loop that must end for each of them", "anchors": ["runlmc/util/testing_utils.py:smallest_eig,random_toep,poor_cond_toep,exp_decr_toep,rand_pd"]}
{"id": "C76", "title": "The reference model of the tests computes the derivative of the Gaussian likelihood", "statement": "BasicModel's gradient is the derivative of the Gaussian log likelihood of the data with respect to each kernel parameter; the likelihood it reports is the one with 1e-10 added to the diagonal, so the reported gradient is not exactly that of the reported likelihood.", "quantifier": "all kernels, parameter values, grids and observations with an invertible covariance", "why_tests_cant": "continuum of parameters and data", "anchors": ["runlmc/util/testing_utils.py:BasicModel"]}
{"id": "C77", "title": "The one-step optimizer records the gradient and never makes the objective worse", "statement": "SingleGradOptimizer records the gradient of the maximised function and sets x_opt one step of length 1/L along it; when L bounds the Lipschitz constant of the gradient the minimised objective falls by at least the squared gradient norm over 2L.", "quantifier": "all smooth objectives, dimensions and starting points", "why_tests_cant": "continuum of objectives", "anchors": ["runlmc/util/testing_utils.py:SingleGradOptimizer"]}
{"id": "C78", "title": "The error metrics of the benchmarks are the documented ones and do not depend on units", "statement": "smse is the mean over the outputs with test observations of the mean squared error relative to that of predicting the training mean: predicting that mean scores 1, the score is nonnegative and zero exactly on perfect predictions, and a change of units of an output changes nothing. nlpd is the mean negative log predictive density over the points with nonzero predicted variance; a change of units moves it by the mean log factor for every model alike; points predicted with variance zero do not count however wrong they are. A single prediction for an output is compared with all its test observations, and any other number of predictions than test observations (of which there is more than one) is an error. When there is nothing to score (no test observations, none with nonzero predicted variance, no training observations or no spread around their mean), the score is not a finite number rather than a wrong one. The emphasised column of a table is the first one with the least mean.", "quantifier": "all numbers of outputs, series lengths (including empty ones), values and units", "why_tests_cant": "continuum of values and all shapes", "anchors": ["benchmarks/benchlib/standard_tester.py:smse,nlpd,filter_nonempty_cols,filter_by_selection,latex_table"]}
{"id": "C79", "title": "The benchmark program accepts exactly the documented arguments", "statement": "bench.py accepts exactly the documented ranges of its arguments, uses the documented defaults for arguments that are left out, and builds q valid kernels for each of the four kernel types, whose scales are spaced evenly by ratio from 1 to 10 as the help text says.", "quantifier": "all argument values and all ways of leaving out trailing arguments", "why_tests_cant": "unbounded integers; the failing default is not covered by any test", "anchors": ["benchmarks/benchlib/bench.py:_main,gen_kernels"]}
{"id": "C80", "title": "A prediction depends on the output and the point asked for only", "statement": "After any program that uses its models as documented, the mean and variance predicted for a point of an output are functions of the output and the coordinates of the point: the other points of the call, their number and order, earlier questions to this or other models, the worker pool and the random numbers make no difference, in every prediction mode and for every solver.", "quantifier": "all valid programs, questions, prediction modes and solvers", "why_tests_cant": "all histories and all batches of query points", "anchors": ["runlmc/models/multigp.py:predict", "runlmc/models/interpolated_llgp.py:_raw_predict,_var_predict_on_the_fly,_var_predict_precompute,_var_predict_exact"]}
{"id": "C81", "title": "More observations never increase a predicted variance", "statement": "In 'exact' mode the predicted variance of every output and point lies between the noise and the prior variance; when one model has all the observed points of another and the same parameters, its variance (in units of the normalised outputs) is nowhere larger, whatever the observed values; where an output was observed the variance is between one and two times its noise.", "quantifier": "all kernels and parameters of documented models, all training sets of which one contains the other, all questions, and all pairs of programs that reach such models", "why_tests_cant": "continuum of inputs and all sizes of data sets", "anchors": ["runlmc/models/interpolated_llgp.py:_var_predict_exact", "runlmc/models/multigp.py:predict", "runlmc/lmc/likelihood.py:ExactLMCLikelihood"]}
{"id": "C82", "title": "The order of the observations does not matter", "statement": "Two programs that make models with the same arguments, except that the observations (points with their values) of each output are given in another order, get the same predictions, quantiles, log determinant, quadratic form and log likelihood, or the same exceptions, in every prediction mode; the covariance matrix has its rows and columns reordered alike.", "quantifier": "all valid programs, data sets, permutations of the observations of each output, questions and prediction modes; linear solves exact; no kernel lists an active dimension twice", "why_tests_cant": "all permutations of data sets of any size", "anchors": ["runlmc/models/interpolated_llgp.py:InterpolatedLLGP", "runlmc/models/multigp.py:MultiGP", "runlmc/approx/interpolation.py:autogrid"]}
{"id": "C83", "title": "Operators multiply arguments of the documented size and refuse all others", "statement": "Every operator built from the constructors accepts vectors and matrices with as many rows as its shape says and returns the product with as_numpy(); a vector or matrix of another size is refused with an exception, by the operator and by as_linear_operator().", "quantifier": "all nested constructor calls, all vectors and matrices of all sizes", "why_tests_cant": "unbounded nesting, sizes and entries", "anchors": ["runlmc/linalg/matrix.py:Matrix,as_linear_operator", "runlmc/linalg/kronecker.py:Kronecker", "runlmc/linalg/block_diag.py:BlockDiag", "runlmc/linalg/block_matrix.py:SymmSquareBlockMatrix", "runlmc/linalg/diag.py:Diag", "runlmc/linalg/identity.py:Identity"]}
{"id": "C84", "title": "Outputs that are not coupled do not influence each other", "statement": "When a group of outputs has zeros in every coregionalization matrix against the other outputs, the means and variances predicted for the group, and whether predict raises, do not depend on what was observed of the others, in every prediction mode, as long as the inducing grids are the same (always so when only observed values differ). With only independent GPs every group is such.", "quantifier": "all parameter values of documented models, all groups, all observations of the other outputs, all questions and prediction modes, all pairs of programs that reach such models; linear solves exact; no kernel lists an active dimension twice", "why_tests_cant": "continuum of observations and parameters, all sizes", "anchors": ["runlmc/models/interpolated_llgp.py:_raw_predict,_var_predict_on_the_fly,_var_predict_precompute,_var_predict_exact", "runlmc/models/multigp.py:predict", "runlmc/lmc/functional_kernel.py:FunctionalKernel"]}
{"id": "C85", "title": "Predicted variances do not depend on the observed values and means are linear in them", "statement": "Two models that differ in the observed values only predict the same variances (in units of the normalised outputs), or raise the same exception. Without normalisation the predicted means are linear in the observed values: a data set whose values are a combination of those of two others has the same combination of their means.", "quantifier": "all documented models, parameter values, observed values, questions and prediction modes, all programs that reach such models; linear solves exact; no kernel lists an active dimension twice", "why_tests_cant": "continuum of values, all sizes", "anchors": ["runlmc/models/interpolated_llgp.py:_raw_predict,_var_predict_on_the_fly,_var_predict_precompute,_var_predict_exact", "runlmc/models/multigp.py:predict", "runlmc/util/normalizer.py"]}
{"id": "C86", "title": "More trace iterations make the stochastic gradients more accurate", "statement": "With exact linear solves the mean squared error of every stored gradient component, over the equally likely random probes, is s / (8 trace_iterations), where s sums the squared symmetrised entries of K^-1 dK outside the diagonal and does not depend on the number of probes; the chance of an error of eps or more is at most s / (8 trace_iterations eps^2), so enough probes make it as small as wanted.", "quantifier": "all covariances, derivatives, observed values, numbers of probes and parameters of valid models; no kernel lists an active dimension twice", "why_tests_cant": "averages over 2^(probes * data) outcomes, continuum of values", "anchors": ["runlmc/approx/iterative.py", "runlmc/lmc/stochastic_deriv.py:StochasticDeriv,StochasticDerivService", "runlmc/models/interpolated_llgp.py:InterpolatedLLGP"]}
{"id": "C87", "title": "The units of the inputs do not matter", "statement": "Multiplying every input dimension by a positive factor of its own (dimensions that one kernel reads together by the same factor), in the observations, grid bounds, query points and in the length scales and periods of the kernels, changes no answer of a model: predictions, quantiles, covariance, log determinant, quadratic form and likelihood, and the exceptions raised, are the same. The inducing grids follow the units.", "quantifier": "all programs that use their models as documented, all data, positive factors, parameters, questions and prediction modes; linear solves exact; no kernel lists an active dimension twice", "why_tests_cant": "continuum of data and factors, all sizes", "anchors": ["runlmc/approx/interpolation.py:autogrid", "runlmc/models/interpolated_llgp.py:InterpolatedLLGP", "runlmc/kern/rbf.py", "runlmc/kern/matern32.py", "runlmc/kern/std_periodic.py", "runlmc/lmc/functional_kernel.py:FunctionalKernel"]}
{"id": "C88", "title": "The order of the outputs does not matter", "statement": "Listing the outputs in another order, with their observations, query points, coregionalization vectors, diagonals and noise, changes no answer of a model except for the order in which the outputs appear in it: predictions, quantiles, covariance blocks, log determinant, quadratic form and likelihood, and the exceptions raised, are those of the same outputs.", "quantifier": "all programs that use their models as documented, all data, permutations of the outputs, parameters, questions and prediction modes; linear solves exact; no kernel lists an active dimension twice", "why_tests_cant": "all permutations of any number of outputs with any data", "anchors": ["runlmc/models/interpolated_llgp.py:InterpolatedLLGP", "runlmc/models/multigp.py:MultiGP", "runlmc/approx/interpolation.py:autogrid,multi_interpolant", "runlmc/lmc/functional_kernel.py:FunctionalKernel", "runlmc/util/numpy_convenience.py"]}
{"id": "C89", "title": "The solver tolerance bounds the error of everything computed with it", "statement": "When the linear solves report no failure, then for any nu no larger than the noise of any output: predicted means are within sqrt(k' K^-1 k) tol / sqrt(nu) of those of an exact solve (times the scale of the output), variances of the modes 'on-the-fly' and 'precompute' likewise with the fixed tolerance 1e-4, normal_quadratic() within sqrt(y' K^-1 y) tol / sqrt(nu) and log_likelihood() within half of that, and every stored gradient component has a bias of at most 1/2 |dK| (tol/nu) (2 |y|/nu + tol/nu + sqrt n). With a grid of spacing s the means are within a constant times s^3 + tol (1 + s^3) of the exact Gaussian process.", "quantifier": "all valid models, parameters, data, questions, tolerances, random probes, and all solvers, however they find their solutions; no kernel lists an active dimension twice", "why_tests_cant": "continuum of data and of possible solver results", "anchors": ["runlmc/approx/iterative.py:Iterative.solve", "runlmc/models/interpolated_llgp.py:InterpolatedLLGP", "runlmc/lmc/stochastic_deriv.py:StochasticDeriv,StochasticDerivService", "runlmc/lmc/likelihood.py:ApproxLMCLikelihood"]}
{"id": "C90", "title": "optimize does what a valid program does, whatever the optimiser asks for", "statement": "A call of optimize with AdaDelta leaves the program in the state that a program leaves which starts new metrics and then assigns parameter values one after the other: the points the optimiser asks for and, if it returns, the final one. Any real numbers the optimiser puts in the flat array give parameters in their documented ranges (periods must stay above the limit of the periodic kernel) and leave the rest of the model alone, so the updates complete, the optimiser stops after exactly as many iterations as its options say, and the model is then up to date for the final parameters; when the callback raises, so does optimize, with the model up to date for the last point. Writing the flat array back to itself changes nothing.", "quantifier": "all programs before the call, all models, options, callbacks, gradient-driven optimisers, starting points and numbers of iterations; unconditional for the refinement, documented use for completion", "why_tests_cant": "every history of points of a continuum", "anchors": ["runlmc/models/interpolated_llgp.py:InterpolatedLLGP.optimize,parameters_changed", "runlmc/models/multigp.py:optimize", "runlmc/models/optimization.py:AdaDelta", "runlmc/parameterization/model.py", "runlmc/lmc/functional_kernel.py:FunctionalKernel"]}
{"id": "C91", "title": "optimize follows the gradient of the log likelihood", "statement": "With exact linear solves, the gradient the optimiser is given at any point averages, over the equally likely random probes, to the partial derivatives of its objective there in the optimiser's own (transformed) coordinates: minus the log marginal likelihood of the observations under the interpolated covariance. Every parameter has the right place in the flat array and the right sign.", "quantifier": "all valid models, points of the flat array, coordinates and data; no kernel lists an active dimension twice", "why_tests_cant": "derivatives at every point of a continuum, averages over all probes", "anchors": ["runlmc/models/interpolated_llgp.py:InterpolatedLLGP.parameters_changed", "runlmc/parameterization/model.py:objective_function,objective_function_gradients", "runlmc/models/optimization.py:AdaDelta", "runlmc/lmc/functional_kernel.py:update_gradient", "runlmc/lmc/stochastic_deriv.py"]}
{"id": "C92", "title": "Assigned parameters are the parameters the model uses from then on", "statement": "After assigning to noise, coreg_vecs and coreg_diags of a functional kernel, in any order and number, each array reads back as the value it was given last, broadcast to its shape, and nothing else about the kernel changes; a value that does not broadcast is a ValueError and leaves the arrays after it alone. When the kernel belongs to a model, the model is up to date afterwards: it answers every question as a model with the new values does.", "quantifier": "all kernels, lists of assignments and arrays of all shapes; all programs that use their models as documented, all models and valid values", "why_tests_cant": "all histories of assignments and questions, all shapes", "anchors": ["runlmc/lmc/functional_kernel.py:FunctionalKernel.noise,coreg_vecs,coreg_diags", "runlmc/models/interpolated_llgp.py:InterpolatedLLGP.parameters_changed"]}
{"id": "C93", "title": "Predictions are smooth functions of the point", "statement": "The predicted mean of each output is a continuously differentiable function of the coordinates of the query point, everywhere: also where the point crosses a grid point, where the interpolation uses other neighbours, and where it leaves the grid. The predicted variance is a continuous function of the point (in the mode 'on-the-fly' when the linear solves are exact).", "quantifier": "all models, parameters, data, prediction modes and points; all programs that use their models as documented; any solver for the means; no kernel lists an active dimension twice", "why_tests_cant": "a statement about derivatives at every point of a continuum", "anchors": ["runlmc/approx/interpolation.py:cubic_kernel,interp_cubic,interp_bicubic", "runlmc/models/interpolated_llgp.py:InterpolatedLLGP._raw_predict"]}
{"id": "C94", "title": "Outside the grids means stay constant and far from the data variances return to the prior", "statement": "Two query points that differ only in coordinates that are, for both, more than a grid step past the same end of the inducing grids get the same predicted mean, and in the mode 'precompute' the same variance: the mean does not return to that of the prior. In the other modes the predicted variance approaches the prior variance (plus noise) as the point moves away from all observations.", "quantifier": "all models with any data, parameters and solver, all prediction modes and points, all programs (decaying kernels and, in the mode 'on-the-fly', exact solves for the limit)", "why_tests_cant": "limits and unbounded regions of a continuum", "anchors": ["runlmc/approx/interpolation.py:interp_cubic,multi_interpolant", "runlmc/models/interpolated_llgp.py:InterpolatedLLGP._raw_predict,_var_predict_precompute,_var_predict_on_the_fly,_var_predict_exact"]}
{"id": "C95", "title": "Predictions of the observations fit them better than the average, and exactly without noise", "statement": "With exact linear solves, the sum of the squared errors of the predictions at the observed points, divided by the noise of each output, is at most normal_quadratic(), which is at most the same sum for predicting the average of each output (zero without normalisation). When the solve only reports convergence to the tolerance tol, the root of the sum exceeds that of the average by at most 2 tol / sqrt(smallest noise). When the covariance of the observations is positive definite without the noise, the predictions converge to the observed values as the noise goes to zero, at least like its square root.", "quantifier": "all models, parameters, data and prediction modes; all programs that use their models as documented; all solvers that converge; no kernel lists an active dimension twice", "why_tests_cant": "inequalities over all data and parameters, and a limit in the noise", "anchors": ["runlmc/models/interpolated_llgp.py:InterpolatedLLGP._raw_predict,normal_quadratic,_construct_grid_kernel", "runlmc/models/multigp.py:MultiGP.predict", "runlmc/approx/iterative.py:Iterative.solve"]}
{"id": "C96", "title": "Only the covariance function matters, not how it is written", "statement": "Two models of the same data, with the same grids and prediction mode, whose kernels, coregionalization matrices and noise describe the same covariance function give the same answer, or raise the same exception, to every question. So kernels may be reordered, a kernel may be listed several times with its matrix split up (an LMC kernel of rank R is R SLFM kernels and an independent GP for each output), coregionalization vectors may be rotated and factors moved between Scaled and the matrix without any effect. Required is that the two models treat groups of kernels of the kind described in C33 alike.", "quantifier": "all pairs of programs that use their models as documented, all data, parameters, prediction modes and questions; linear solves exact; no kernel lists an active dimension twice", "why_tests_cant": "every way of writing a covariance function, over all data", "anchors": ["runlmc/lmc/functional_kernel.py:FunctionalKernel", "runlmc/lmc/grid_kernel.py:GridKernel", "runlmc/models/interpolated_llgp.py:InterpolatedLLGP", "runlmc/kern/scaled.py:Scaled"]}
{"id": "C97", "title": "A product with the covariance is near-linear work and uses the cheaper representation", "statement": "Once a model is built, multiplying the covariance of its n observations with a vector (the step that every solve, prediction and gradient repeats) costs, for each group of kernels that read the same dimensions, at most a constant times n + m (1 + log m) for a grid of m points, where a Fourier transform of N points is assumed to cost at most a constant times N (1 + log N). The constant depends on the number D of outputs alone, not on the number or the ranks of the kernels. Exactly: with more than one kernel, a group needs the least of (sum of ranks, plus D unless all its kernels are SLFM kernels) and D^2 products with Toeplitz matrices, each two transforms; a model with one kernel needs D. The interpolation matrix of a group stores at most 16 numbers for each observation.", "quantifier": "all programs that use their models as documented, all data, grids, kernels, ranks and prices of operations", "why_tests_cant": "a bound on work for all sizes, which timings on examples cannot give", "anchors": ["runlmc/lmc/grid_kernel.py:gen_grid_kernel,GridKernel,_gen_sum_grid,_gen_bt_grid,_gen_slfm_grid,_gen_coreg_Ks,_gen_diag_Ks", "runlmc/linalg/bttb.py:BTTB.matvec", "runlmc/linalg/kronecker.py:Kronecker.matvec", "runlmc/approx/ski.py:SKI", "runlmc/approx/interpolation.py:multi_interpolant"]}
{"id": "C98", "title": "Predicted variances lie between the noise and the prior variance", "statement": "In units of the normalised outputs, a predicted variance is at least the noise of its output (a prediction is of a noisy observation) and at most the prior variance of the latent function plus the noise (observations never increase the uncertainty), in each prediction mode.", "quantifier": "all programs that use their models as documented, all data, parameters, prediction modes and query points; linear solves exact in the modes 'on-the-fly' and 'precompute'; no kernel lists an active dimension twice", "why_tests_cant": "an inequality over all data, parameters and points, broken by rare configurations only", "anchors": ["runlmc/models/interpolated_llgp.py:InterpolatedLLGP._raw_predict,_var_predict_exact,_var_predict_on_the_fly,_var_predict_precompute", "runlmc/models/multigp.py:MultiGP.predict", "runlmc/approx/interpolation.py:cubic_kernel"]}
{"id": "C99", "title": "Models made with the same functional kernel all use its current parameters", "statement": "A FunctionalKernel object may be given to several models (of inputs of the same dimension). Assigning parameter values to it changes all of them: after any program, every model answers every question as a new model with its data and the current values of the object does. Giving the object to a model with inputs of another dimension, or with data or a prediction mode that the constructor refuses, raises and changes nothing.", "quantifier": "all programs that make kernels and models, share kernels between models, assign values, optimise and ask questions in any order; all data, parameters, prediction modes and questions", "why_tests_cant": "all interleavings of uses of several models", "anchors": ["runlmc/models/interpolated_llgp.py:InterpolatedLLGP.__init__,parameters_changed", "runlmc/lmc/functional_kernel.py:FunctionalKernel.set_input_dim,noise,coreg_vecs,coreg_diags", "runlmc/parameterization/parameterized.py"]}
{"id": "C100", "title": "Random numbers, worker pools, logging and diagnostics do not influence answers", "statement": "Running a program again with other random numbers, another worker pool or none, debug logging switched on or off, metrics recorded or not and another number of trace iterations gives the same answer, or the same exception, for every operation: predictions, quantiles, covariance matrices and likelihoods depend only on the data, the grids, the prediction mode, the tolerance and the parameter values. Outside the documented parameter values diagnostics can make an update raise that succeeds without them: exactly when the exact covariance is not positive definite.", "quantifier": "all programs that use their models as documented, with any number of models, and all random bits, pools, schedules and logging settings of each operation of both runs; all solvers", "why_tests_cant": "all pairs of runs: every sequence of random numbers and every schedule", "anchors": ["runlmc/models/interpolated_llgp.py:InterpolatedLLGP", "runlmc/lmc/stochastic_deriv.py:StochasticDerivService", "runlmc/util/inline_pool.py:InlinePool", "runlmc/lmc/metrics.py:Metrics"]}
{"id": "C101", "title": "GPyLMC is the exact Gaussian process of the LMC model", "statement": "The wrapper of GPy predicts with the exact Gaussian process of the documented LMC formula: for every model constructed from well-formed data, kernels and ranks, and after any number of calls of optimize, means and variances of predict, quantiles of predict_quantiles and log_likelihood are those of the Gaussian process whose covariance is the sum over the kernels of coregionalization factor times kernel, with the model's current parameter values and the noise of each output (up to GPy's documented 1e-8 on the diagonal and 1e-15 below variances), for inputs of any dimension.", "quantifier": "all data, kernels, ranks, parameter values and queries; all input dimensions", "why_tests_cant": "continuum of data and parameters", "anchors": ["runlmc/models/gpy_lmc.py:GPyLMC.__init__,_construct_gpy,predict,predict_quantiles,log_likelihood,optimize", "runlmc/kern/rbf.py:to_gpy"]}
{"id": "C102", "title": "InterpolatedLLGP and GPyLMC agree", "statement": "For one-dimensional inputs the approximate model is interchangeable with the exact one that the benchmarks compare it with: given data, kernels, parameter values and a precision, an InterpolatedLLGP made without normalisation from the same data, with the same parameter values (and 1e-8 more noise, which GPy adds by itself) and fine enough grids, reports a log likelihood and, between the smallest and the largest input, means within that precision of those of GPyLMC, and variances that differ by 1e-8 up to that precision and 1e-15, in every prediction mode. Such an InterpolatedLLGP exists for every GPyLMC of positive ranks, whatever optimize did to its parameters.", "quantifier": "all one-dimensional data, kernels, ranks, parameter values, precisions, programs that use their models as documented, prediction modes and queries; linear solves exact; no kernel lists an active dimension twice", "why_tests_cant": "a limit, over a continuum of data and parameters", "anchors": ["runlmc/models/gpy_lmc.py:GPyLMC", "runlmc/models/interpolated_llgp.py:InterpolatedLLGP.predict,log_likelihood", "runlmc/approx/interpolation.py:autogrid,multi_interpolant"]}
{"id": "C103", "title": "The inducing grids are determined by the range of the inputs and the options, and are wider than documented", "statement": "Each grid axis consists of n + 4 equally spaced points from two n-ths of the range below the least to two n-ths above the greatest of the observed coordinates and the given bounds, where n is the given m or the average number of observations. So lo and hi are never the first and last grid points and there are never m points, although the documentation says so. The observed points matter only through their range (and number, if m is not given): points inside the range can be moved without moving the grids, and with given sizes and bounds around the points the points have no influence at all.", "quantifier": "all programs that use their models as documented, all data, kernels and options", "why_tests_cant": "a statement about all data sets and options, and about pairs of programs", "anchors": ["runlmc/approx/interpolation.py:autogrid", "runlmc/models/interpolated_llgp.py:InterpolatedLLGP.__init__ (lo, hi, m)", "runlmc/models/interpolated_llgp.py:_generate_grids"]}
{"id": "C104", "title": "K(), log_det_K() and log_likelihood() answer for the covariance they document", "statement": "As documented, K() returns the interpolated covariance K_SKI of the observations, log_det_K() its log determinant, normal_quadratic() is y^T K_SKI^-1 y, and log_likelihood() is the log density of the observations under the covariance K_SKI the model works with.", "quantifier": "every program that uses its models as documented, every model in it, all parameter values, data and prediction modes, exact linear solves for the last two", "why_tests_cant": "The tests compare normal_quadratic() with the exact value on examples within a tolerance, check that the log likelihood does not decrease during optimization, and do not look at K() and log_det_K(); whether the two halves of the likelihood use the same covariance is a statement about all data and parameters.", "anchors": ["runlmc/models/interpolated_llgp.py:InterpolatedLLGP.K", "runlmc/models/interpolated_llgp.py:InterpolatedLLGP.log_det_K", "runlmc/models/interpolated_llgp.py:InterpolatedLLGP.normal_quadratic", "runlmc/models/interpolated_llgp.py:InterpolatedLLGP.log_likelihood", "runlmc/models/interpolated_llgp.py:InterpolatedLLGP._dense"]}
{"id": "C105", "title": "The benchmark data sets are divided without loss or overlap, and the synthetic one is drawn from the model it tests", "statement": "foreign_exchange_2007() gives, for every currency, the days with a rate that are not held out as training data and the held out days as test data, in order and with the reciprocal of each day's own rate. weather() refuses files with unexpected missing values; otherwise every measured row of every sensor is in exactly one of the training and test data, by the time interval held out for that sensor, with times and temperatures kept together. synth() holds out exactly the rows of the last output in the upper right quadrant. The outputs that data/synth/mkdata.py samples are jointly normal with the covariance of the LMC model of gen_random_k() with noise 0.1.", "quantifier": "every table of rates, all weather files, all synthetic data of five outputs; all inputs in the plane and all numbers drawn for the kernel, the normal numbers being independent standard normal", "why_tests_cant": "The benchmarks run on one copy of the data and have no tests; a test row that leaks into the training data, or a pair of arrays that lose their alignment, shows as a good or bad score and not as an error.", "anchors": ["benchmarks/benchlib/standard_tester.py:foreign_exchange_2007", "benchmarks/benchlib/standard_tester.py:weather", "benchmarks/benchlib/standard_tester.py:synth", "benchmarks/benchlib/standard_tester.py:gen_random_k", "data/synth/mkdata.py"]}
{"id": "C106", "title": "The benchmark program measures the operators, solutions and gradients of the model itself", "statement": "With arguments that pass its checks, bench.py runs to its end. The kernel has q terms of the type asked for and the coregionalization matrices and noises made from the numbers drawn. With test type inv it prints five lines: the Cholesky solution reproduces the observations exactly, and the other four are the residuals, in the covariance of an InterpolatedLLGP with the same data and kernel, of minres with the three representations of that covariance and of cg. With test type opt the printed errors compare the covariance, the solution and the gradient which that InterpolatedLLGP holds for the same random bits with the exact covariance, the exact solution and all partial derivatives of the exact log likelihood, each counted once. The number of gradients printed for the coregionalization vectors is q r_q, which is the number of partial derivatives only if there is one output.", "quantifier": "all arguments that pass the checks, all numbers drawn with positive gamma variates and inputs and observations that are not all equal, all Krylov methods returning vectors of the right size, all schedules of the pool and all random bits", "why_tests_cant": "The program has no tests; a measurement of another operator than the one the library uses would print numbers that look just as plausible.", "anchors": ["benchmarks/benchlib/bench.py:_main", "benchmarks/benchlib/bench.py:prep", "benchmarks/benchlib/bench.py:run_kernel_benchmark", "benchmarks/benchlib/bench.py:vector_errors"]}
{"id": "C107", "title": "Predicted quantiles and variances are calibrated", "statement": "If the observations and a new observation are drawn from the LMC model with the parameters of a model made without normalisation (jointly normal with its covariances and noises), then, for fine enough grids, the new observation is below the q-th predicted percentile with probability q percent and between the p-th and the q-th with probability q - p percent, up to any given precision. The reported variance is the mean squared difference between the new observation and the predicted mean, up to any given precision. For all parameters and inputs such draws exist.", "quantifier": "all parameters, inputs, bounds, queries between the inputs and bounds, percentiles, precisions and prediction modes, all draws of the data and programs that use their models as documented; linear solves exact; no group of kernels whose representation gains an identity matrix (see C33); no kernel lists an active dimension twice", "why_tests_cant": "a probability over all data sets and a limit over grid sizes; tests see single data sets", "anchors": ["runlmc/models/interpolated_llgp.py:InterpolatedLLGP._raw_predict", "runlmc/models/multigp.py:MultiGP.predict,predict_quantiles", "runlmc/approx/ski.py:SKI"]}
{"id": "C108", "title": "The log likelihood is a proper score: on average it is greatest at the parameters of the data", "statement": "If the observations are drawn from the LMC model with some parameters, then, for fine enough grids and up to any given precision, the mean of log_likelihood() of a model with these parameters exceeds the mean of that of a model with any other parameters by the Kullback-Leibler divergence of the two normal distributions. In particular no parameters have a greater mean log likelihood, and parameters that give some pair of observations another covariance have a smaller one, so that the quantity optimize() maximises distinguishes the true covariance from every other.", "quantifier": "all pairs of parameters, all inputs, bounds, precisions and prediction modes, all draws of the data and programs that use their models as documented, without normalisation; linear solves exact; log likelihoods that are measurable functions of the draw; no group of kernels whose representation gains an identity matrix (see C33); no kernel lists an active dimension twice", "why_tests_cant": "a mean over all data sets and a limit over grid sizes; tests see single data sets", "anchors": ["runlmc/models/interpolated_llgp.py:InterpolatedLLGP.log_likelihood", "runlmc/models/interpolated_llgp.py:InterpolatedLLGP.normal_quadratic,log_det_K", "runlmc/approx/ski.py:SKI"]}
{"id": "C109", "title": "Repeated measurements may be averaged", "statement": "A model without normalisation whose values are the averages of k_d measurements at each point of output d predicts the same means as the model that is given all the measurements with k_d times the noise, and variances that are smaller by (k_d - 1) times its noise (exactly so in 'exact' mode; in the other modes unless a variance was cut off at zero, and then by no more). The same holds with normalisation when all measurements of an observation agree, with the noise in units of the output. predict of one model raises an exception exactly when that of the other does, and then the same one. The order in which the measurements are listed is arbitrary.", "quantifier": "all numbers of repetitions per output, orders of the measurements, values, parameters, inputs, given numbers of grid points, bounds, prediction modes and queries, and all programs that use their models as documented; linear solves exact; no kernel lists an active dimension twice", "why_tests_cant": "relates models of different sizes for all data sets; tests fit single data sets", "anchors": ["runlmc/models/interpolated_llgp.py:InterpolatedLLGP._raw_predict", "runlmc/models/multigp.py:MultiGP.predict", "runlmc/approx/ski.py:SKI", "runlmc/lmc/stochastic_deriv.py:StochasticDeriv"]}
{"id": "C110", "title": "The weather station data set contains every complete measurement, as recorded and with the position its station entry gives", "statement": "clean.py exports, in order, every measurement of which all values are recorded, once with every location listed for its station, and no other rows. A location given in degrees, minutes and seconds, or in degrees and minutes, north or south and east or west, is converted to the degrees it says; the one entry with a typing error is corrected; a row with any other location is left out. The values are the recorded ones. The script ends with a ValueError exactly when a value has digits or points that are no number.", "quantifier": "all tables of measurements and stations, all texts of values and locations", "why_tests_cant": "unbounded texts; there are no tests of this script", "anchors": ["data/noaa/clean.py"]}
{"id": "C111", "title": "The order of the input dimensions does not matter", "statement": "If all points (inputs and queries) list their coordinates in another order, bounds and sizes of the grid that are given for each dimension are reordered likewise, and each kernel is given the dimensions it reads under their new numbers (in any order; None stays None), then a model with the same parameters gives the same predictions, quantiles, covariance matrix, log determinant, quadratic form and log likelihood, or raises the same exception.", "quantifier": "all permutations of the dimensions, all data, parameters, bounds and sizes, orders in which kernels list their dimensions, prediction modes, queries and programs that use their models as documented; linear solves exact; no kernel lists an active dimension twice", "why_tests_cant": "relates two runs for all data and all permutations; tests fit single data sets", "anchors": ["runlmc/lmc/functional_kernel.py:FunctionalKernel.set_input_dim", "runlmc/models/interpolated_llgp.py:InterpolatedLLGP._generate_grids", "runlmc/approx/interpolation.py:autogrid,interp_bicubic,multi_interpolant", "runlmc/linalg/bttb.py:BTTB"]}
{"id": "C112", "title": "A benchmark reports the mean and the standard error of independent runs of the documented procedure", "statement": "bench_runlmc makes, in each run, a new model of the training data with new kernels, optimises it, and scores its predictions at the test points; a run whose arguments are as documented returns, its parameters are those of the last point of the optimiser, and its scores are the SMSE and NLPD of the predictions of that model. The numbers of a run do not depend on the runs before it. The call returns, for time, SMSE and NLPD, the mean over the runs and the standard error of this mean; without runs these are nan; a run that raises ends the call with its exception. With return_lmc it also returns the model of the last run.", "quantifier": "all data, kernels, options, numbers of runs, initial values, behaviours of the optimiser and circumstances (schedules of the pool, solvers), in every state of the program", "why_tests_cant": "The benchmarks have no tests, and independence of the runs is a statement about all histories of the program.", "anchors": ["benchmarks/benchlib/standard_tester.py:bench_runlmc", "benchmarks/asv/fx2007/fx2007.py", "paper/paper.tex (captions of the tables)"]}
{"id": "C113", "title": "A point that is measured often is predicted as the average of its measurements", "statement": "Where an output was measured k times at the same point, the mean that predict() returns there, in every prediction mode, misses the average of these k values by at most the square root of noise / (2 k) times a number C, in the units the model works in. C does not depend on k: it is the square of the average relative to the prior variance plus the squared errors, relative to the noise, of predicting all other observations from this average alone. In 'exact' mode the variance there is at least the noise and at most 1 + 1/k times the noise; in 'on-the-fly' mode it is at most that plus the error of the interpolated prior variance.", "quantifier": "all data sets with repeated points, numbers of repetitions, parameters with a positive prior variance at the point, inputs, prediction modes (variance: 'exact' and 'on-the-fly'), batches of queries containing the point, and all programs that use the model as documented; linear solves exact ('exact' variances: whatever the solves); no kernel lists an active dimension twice", "why_tests_cant": "a bound for every number of repetitions and every other observation; tests fit single data sets", "anchors": ["runlmc/models/interpolated_llgp.py:InterpolatedLLGP._raw_predict", "runlmc/models/multigp.py:MultiGP.predict", "runlmc/lmc/stochastic_deriv.py:StochasticDeriv", "runlmc/lmc/likelihood.py:ExactLMCLikelihood"]}
{"id": "C114", "title": "Small changes of the parameters change the answers little", "statement": "If the numbers assigned to the parameters of a model (length scales, periods, scales, coregionalization vectors and diagonals, noise) tend to other valid values, then everything the model answers tends to what it answers at these values: the means, variances and quantiles of predict(), in every prediction mode, the log likelihood, the log determinant, the quadratic form and the covariance matrix. A prediction that is answered at the limit is answered along the way. More generally this holds for models of the same data, however their kernels are listed, whose covariance functions and noise tend to those of another model.", "quantifier": "all data sets, kernels, valid limits (noise positive), ways of approaching them, grids, batches of queries, prediction modes, and all programs that use the models as documented; the internal representation of each group of kernels is the same along the way (implied when the same kernels are kept); linear solves exact; no kernel lists an active dimension twice", "why_tests_cant": "a limit statement over all data sets and parameters; tests evaluate single parameter values", "anchors": ["runlmc/models/interpolated_llgp.py:InterpolatedLLGP.parameters_changed", "runlmc/models/interpolated_llgp.py:InterpolatedLLGP._raw_predict", "runlmc/models/interpolated_llgp.py:InterpolatedLLGP.log_likelihood", "runlmc/models/multigp.py:MultiGP.predict", "runlmc/lmc/functional_kernel.py:FunctionalKernel"]}
{"id": "C115", "title": "The influence of an observation on predictions is bounded", "statement": "If observed values are changed while inputs and parameters stay the same, then the mean predicted at any point, in every prediction mode, changes by at most half the square root of L times the sum of the squared changes relative to the noise of their outputs, all in the units the models work in, where L is (25/16)^P times the prior variance of the latent function there (plus what C33 says is added), P the dimension of the inputs; or predict() raises the same exception before and after. In particular, without normalisation, one mistyped value that is off by e moves no prediction by more than sqrt(L / noise) e / 2, wherever and however many the other observations are. Likewise a predicted mean is, with normalisation, within sqrt(L sum_d n_d / noise_d) / 2 standard deviations of the average of the values of its output, where n_d is the number of observations of output d: interpolation cannot make predictions explode.", "quantifier": "all data sets, all changes of the values, all parameters, inputs, grids, queries, prediction modes and all programs that use their models as documented; linear solves exact; no kernel lists an active dimension twice", "why_tests_cant": "a bound uniform over all data sets and all values; tests fit single data sets", "anchors": ["runlmc/models/interpolated_llgp.py:InterpolatedLLGP._raw_predict", "runlmc/models/multigp.py:MultiGP.predict", "runlmc/approx/interpolation.py:interp_cubic", "runlmc/approx/ski.py:SKI"]}
{"id": "C116", "title": "The log likelihood is finite and has a known range", "statement": "Whatever the observations and parameters, log_det_K() is at least the sum of the logarithms of the noises of the observations and at most the sum of the logarithms of their variances (prior variance at the input plus noise); normal_quadratic() is between zero and the sum of the squared values relative to the noise; and log_likelihood() is a finite number, at most -1/2 sum_d n_d log(2 pi noise_d) and at least -1/2 (sum of squared values relative to the noise + sum of the logarithms of 2 pi times the variances). With normalisation these bounds do not depend on the values. So a likelihood can only become large by small noise, and a comparison of likelihoods never meets infinities.", "quantifier": "all data sets, parameters, inputs, grids and all programs that use their models as documented; linear solves exact (log_det_K: any solver); no kernel lists an active dimension twice", "why_tests_cant": "an inequality for all data sets and parameters; tests evaluate single ones", "anchors": ["runlmc/models/interpolated_llgp.py:InterpolatedLLGP.log_likelihood,log_det_K,normal_quadratic", "runlmc/lmc/likelihood.py:ExactLMCLikelihood"]}
{"id": "C117", "title": "A new observation updates predictions by a gain times its surprise", "statement": "Take two models without normalisation, with the same parameters, options and grids, where one was given one more observation y0 of output d0 at x0. Every mean predicted by the larger one, of any output at any point, is that of the smaller one plus a gain times (y0 - the smaller model's prediction at x0); the gain is what is left of the covariance with the new observation over what is left of its variance plus the noise, and depends on inputs and parameters only. So at x0 the new prediction lies between the old one and y0 and never reaches y0 unless it was there, and an observation that is exactly what was predicted changes no mean of any output. In 'exact' mode every variance is reduced by the square of what is left of the covariance over the predicted variance s of the new observation, at x0 it becomes 2 noise - noise^2 / s, and log_det_K() grows by log s. normal_quadratic() grows by the squared surprise over the interpolated variance. Hence in 'exact' mode the log likelihood changes by a known amount, which is the log of the density that was predicted for y0 wherever the interpolated variance is the exact one. Hence batches may be learnt one observation after the other.", "quantifier": "all data sets, new observations within the range of the grids, parameters, queries, prediction modes and all programs that use their models as documented; linear solves exact for the means and normal_quadratic (variances in 'exact' mode and log_det_K: any solver); no kernel lists an active dimension twice", "why_tests_cant": "relates the results of two whole runs for all data sets; tests look at single runs", "anchors": ["runlmc/models/interpolated_llgp.py:InterpolatedLLGP._raw_predict,log_det_K,normal_quadratic", "runlmc/models/multigp.py:MultiGP.predict", "runlmc/lmc/stochastic_deriv.py:StochasticDerivService"]}
{"id": "C118", "title": "Multiplying all variances by one factor keeps the means and scales the variances", "statement": "Take two models of the same data with the same grids and prediction mode, where the covariance function and the noise of one are c > 0 times those of the other. Every predicted mean is the same, every predicted variance is c times as large, and every quantile lies sqrt(c) times as far from the mean. K() is multiplied by c, log_det_K() grows by n log c for n observations, normal_quadratic() is divided by c, and the log likelihood changes by -(n log c + y/c - y)/2 with y = normal_quadratic(). Hence the best overall factor is y/n: it makes normal_quadratic() equal n, and no other factor has a greater log likelihood. On the parameters this is the coregionalization vectors times sqrt(c) and the diagonals and noise times c; assigning these is always allowed. Groups of kernels to which the implementation adds an identity matrix (C33) are excluded.", "quantifier": "all data sets, parameters, factors, queries, prediction modes and all programs that use their models as documented; linear solves exact; no kernel lists an active dimension twice", "why_tests_cant": "relates the results of two whole runs for all data sets and factors; tests look at single runs", "anchors": ["runlmc/models/interpolated_llgp.py:InterpolatedLLGP._raw_predict,log_det_K,normal_quadratic,log_likelihood", "runlmc/models/multigp.py:MultiGP.predict,predict_quantiles", "runlmc/lmc/functional_kernel.py:FunctionalKernel"]}
{"id": "C119", "title": "More variance a priori never leaves less variance in predictions", "statement": "Take two models of the same data in 'exact' mode, where one gives every weighted sum of values of the outputs at least the prior variance and at least the noise that the other one does; larger diagonals of the coregionalization matrices, further kernels and more noise do that. Then it never predicts a smaller variance for any output at any point, it predicts a larger one at least by the difference of the noises (in normalised units), and its log_det_K() is not smaller. If only the noise is larger, variances are not smaller in 'on-the-fly' mode either, nor in 'precompute' mode wherever no interpolation weight is negative, and normal_quadratic() is never larger.", "quantifier": "all data sets, pairs of parameters, queries and all programs that use their models as documented; linear solves exact for 'on-the-fly', 'precompute' and normal_quadratic; no kernel lists an active dimension twice", "why_tests_cant": "relates the results of two whole runs for all data sets and parameters; tests look at single runs", "anchors": ["runlmc/models/interpolated_llgp.py:InterpolatedLLGP._raw_predict,log_det_K,normal_quadratic", "runlmc/models/multigp.py:MultiGP.predict", "runlmc/lmc/functional_kernel.py:FunctionalKernel"]}
{"id": "C120", "title": "The curves of the figure on optimization show the cutoff the optimizer uses", "statement": "moving_average(a, n) replaces each number by the mean of the last n numbers up to it (of all of them while there are fewer than n), for every window n from 1 to the number of entries; any other window is a ValueError, except for no numbers with a window of 0 or 1. div_rolled_max(a, n) is the running maximum of these averages. With window 1, the optimizer with ratio r counts a drop in just those iterations in which the norm of the gradient is below r times this curve.", "quantifier": "all lists of real numbers and windows that are not negative; all sequences of gradients and ratios", "why_tests_cant": "must hold for every sequence of gradients and every window, and there are no tests of the plotting scripts", "anchors": ["benchmarks/pictures/fxmetrics.py:moving_average,div_rolled_max", "runlmc/models/optimization.py:AdaDelta.run"]}
{"id": "C121", "title": "Tables of results show every result and emphasise just the best column", "statement": "latex_table writes a header, then one row each for seconds, SMSE and NLPD with the mean and the standard error of every column, seconds without their fractional part. In each row exactly one column is in bold: the first one with the least mean. Means that are not numbers are passed over, but if the first column's mean is not a number then that column is in bold. If a time is not a number the call raises ValueError and nothing is written. statsline prints mean and standard error of the three metrics.", "quantifier": "all numbers of columns from 1, all results, all ways to write numbers that give a text without '$'", "why_tests_cant": "which column is emphasised depends on all results at once, including ties and results that are not numbers; there are no tests of the tables", "anchors": ["benchmarks/benchlib/standard_tester.py:statprint,statsline,latex_table"]}
{"id": "C122", "title": "The prediction mode of a model may be changed at any time", "statement": "A program may assign another mode to the attribute prediction of a model at any point (as benchmarks/pictures/pics.py does). From then on the model answers every question as a model that was made with this mode from the start: the same arguments otherwise and the same last parameter values, whatever else was done before with this model or others, what was predicted before in other modes and what is cached. Nothing but predictions and their quantiles depends on the mode: every other operation of the program returns or raises what it does without the assignments. Assigning something that is no mode does not raise, but every later prediction does, with KeyError if the model would predict in some mode, until a mode is assigned again; everything else goes on as before.", "quantifier": "all programs of constructing, giving parameters, optimize, questions and assignments of modes (known or not), over any number of models, completed or raising questions, all arguments and all queries; no kernel lists an active dimension twice", "why_tests_cant": "The attribute is read by methods whose intermediate results are memoised on the class, so an answer could depend on the mode at the time something was first computed; tests fix one mode per model.", "anchors": ["runlmc/models/interpolated_llgp.py:InterpolatedLLGP.__init__", "runlmc/models/interpolated_llgp.py:InterpolatedLLGP._raw_predict", "runlmc/models/interpolated_llgp.py:InterpolatedLLGP._prediction_methods", "benchmarks/pictures/pics.py"]}
{"id": "C123", "title": "Random tests can be repeated, and the helpers of the tests accept exactly what they should", "statement": "A RandomTest prints one line with a seed. Running it again at any time with the variable SEED set to what was printed, alone or after other tests, prints the same line and has the same outcome; the outcome of a test never depends on the tests before it. check_np_lists accepts two lists of arrays exactly if they are as long and arrays at the same place have the same shape (or one is a scalar) and entries within the tolerances relative to the second list, and raises AssertionError otherwise. vectorize_inputs(f) calls f with the columns. A body within error_context succeeds if it would without, other exceptions are unchanged, and a failed assertion stays one with the lines of the contexts added, innermost first.", "quantifier": "all seeds, times, generator states, tests and sequences of tests; all lists of arrays and tolerances; all functions, arrays, bodies and nested contexts", "why_tests_cant": "The helpers decide what the tests of the project can find at all, and no test can show that every printed seed repeats its run or that no wrong pair of lists is accepted.", "anchors": ["runlmc/util/testing_utils.py:RandomTest.setUp", "runlmc/util/testing_utils.py:check_np_lists", "runlmc/util/testing_utils.py:vectorize_inputs", "runlmc/util/testing_utils.py:error_context"]}
{"id": "C124", "title": "The results of the program compared with are used as it printed them", "statement": "The benchmarks run COGP and read time, SMSE and NLPD (mean and standard error each) from what it prints, in cogp_fx2007, cogp_weather and cogp_synth. The numbers used are the printed ones, whatever else was printed before and after; if there are no results the call raises ValueError.", "quantifier": "all printed numbers (with decimals, exponents and signs, and NaN), all layouts of blanks and lines, all texts before and after", "why_tests_cant": "The result depends on how a regular expression meets every possible number; the recorded runs had positive means only.", "anchors": ["benchmarks/benchlib/standard_tester.py:cogp_fx2007", "benchmarks/benchlib/standard_tester.py:cogp_weather", "benchmarks/benchlib/standard_tester.py:cogp_synth"]}
{"id": "C125", "title": "Multilevel priors are fitted jointly", "statement": "A prior may have a parameter of the model as argument, as InverseGamma(0.5, shape) in the example. The objective then contains the log density of the prior given the current value of that parameter, and its gradient contains the derivative of that log density in it, so that the optimizer fits both levels together.", "quantifier": "all priors with parameters as arguments, all histories of calls about the parameters, all values", "why_tests_cant": "The objective looks right whenever the parameter still has the value the prior was made with, and a run of the optimizer ends either way.", "anchors": ["runlmc/parameterization/priors.py:Gaussian", "runlmc/parameterization/priors.py:Gamma", "runlmc/parameterization/priors.py:InverseGamma", "runlmc/parameterization/priors.py:HalfLaplace", "runlmc/parameterization/model.py:Model", "examples/example.ipynb"]}
{"id": "C126", "title": "With priors, optimize follows the gradient of the log posterior", "statement": "If parameters of an InterpolatedLLGP have priors, then the gradients the optimizer is given average, over the random probes, to the gradient in the optimizer's coordinates of the negative log posterior density: the negative log likelihood minus the log density of those coordinates, which is that of the parameters changed by the transformation that keeps them positive. Setting such priors changes neither values nor constraints.", "quantifier": "all models, all points of the optimizer's space, all priors of the library, on positive numbers for the parameters kept positive and on all numbers for the others, when the linear systems are solved exactly; no kernel lists an active dimension twice", "why_tests_cant": "A prior moves the optimum a little; a missing or doubled Jacobian term moves it a little elsewhere, and no known answer tells which.", "anchors": ["runlmc/parameterization/model.py:Model", "runlmc/parameterization/priorizable.py:_PriorizableNode", "runlmc/parameterization/priors.py", "runlmc/models/interpolated_llgp.py:InterpolatedLLGP"]}
{"id": "C127", "title": "The metrics of an update are those of the model it leaves", "statement": "With metrics on, every update of the parameters that completes appends to each series the value of this update and keeps the older ones: the average number of iterations and the average residual over the linear systems solved, the largest absolute entry of the gradient stored in the parameters, the largest absolute error of that gradient relative to the largest absolute entry of the gradient of the exact log likelihood, and the log likelihood, the same number that log_likelihood() returns afterwards.", "quantifier": "all models, states, solvers, random probes and outcomes of the solver; for the gradients, all models with valid parameters", "why_tests_cant": "Plausible numbers come out of a norm without absolute values, of metrics of the previous parameters or of an error relative to the wrong norm.", "anchors": ["runlmc/models/interpolated_llgp.py:InterpolatedLLGP.parameters_changed", "runlmc/lmc/stochastic_deriv.py:StochasticDerivService.generate", "runlmc/lmc/metrics.py:Metrics"]}
{"id": "C128", "title": "The snippet of the README makes a model", "statement": "The snippet of the README, with a kernel per output and the ranks [1], makes a functional kernel with those kernels and a model of the data, on which optimize() then works.", "quantifier": "all data with at least one output, as many values as inputs, outputs that are not constant and inputs that are not all equal; all numbers of kernels; all random coregionalization vectors", "why_tests_cant": "The snippet is the first program a user copies, and nothing runs it: no test can cover all the data that users replace its data by.", "anchors": ["README.md", "runlmc/models/interpolated_llgp.py:InterpolatedLLGP", "runlmc/lmc/functional_kernel.py:FunctionalKernel"]}
{"id": "C129", "title": "optimize works with any optimizer, in particular the default one", "statement": "optimize with any optimizer that asks for values and gradients of the objective, and in particular optimize() with the default one, returns on every model of a valid program. The optimizer starts at the current parameters; it is told, at each point it asks for, minus the log likelihood that log_likelihood() would answer for these parameters, and the model's gradients for these parameters; afterwards the model has exactly the parameters of the point the optimizer returns, up to date, as if the program had assigned them.", "quantifier": "all valid programs, all models, all optimizers (any function from the values and gradients so far to the next point), all bounds on the number of evaluations, all circumstances in which no update is interrupted", "why_tests_cant": "The optimizer's points are not known in advance, and one missed update or stale cache makes values and gradients belong to different parameters only along some paths.", "anchors": ["runlmc/models/interpolated_llgp.py:InterpolatedLLGP.optimize", "runlmc/models/multigp.py:MultiGP.optimize", "runlmc/parameterization/model.py:Model.objective_function", "README.md"]}
{"id": "C130", "title": "the values and gradients an optimizer is given belong to one function", "statement": "At every point an optimizer asks about, the gradient it is given is, on average over the random probes, the gradient at that point of the objective values it is given (with exact linear solves).", "quantifier": "every valid program, model, prediction mode, point and coordinate of the flat parameter array, any non-periodic kernels; no kernel lists an active dimension twice", "why_tests_cant": "the average is over all outcomes of the probes and the derivative is a limit; finite differences of single draws show neither", "anchors": ["runlmc/models/interpolated_llgp.py:InterpolatedLLGP.log_likelihood", "runlmc/models/interpolated_llgp.py:InterpolatedLLGP.parameters_changed", "runlmc/models/multigp.py:MultiGP.optimize", "runlmc/lmc/stochastic_deriv.py:StochasticDeriv"]}
