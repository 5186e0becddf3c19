{
 "C10": {
  "note": "False as stated: Kronecker/SymmSquareBlockMatrix bounds are wrong for non-PSD operands (witnesses C10_kronecker_unsound, C10_symmBlock_unsound) and SKI.upper_eig_bound always raises. The bound is proved for every tree without those cases."
 },
 "C63": {
  "note": "map_entries is wrong on arrays that are not C-contiguous (witness C63_mapEntries_layout_unsound); proved for C-contiguous arrays. symm_2d_list_map is fully proved."
 },
 "C65": {
  "note": "False for properties with an explicit docstring and an undocumented getter (C65_property_doc_overwritten); a property overriding a method raises (C65_property_over_method_raises). Everything else proved, idempotence included."
 },
 "C22": {
  "note": "False of the code for ndarray m: `m += 4` writes to the caller's array (C22_ndarray_m_modified, C22_repeated_call_differs). lo and hi are only read; None/list m unchanged is proved."
 },
 "C23": {
  "note": "False of the code: interp_cubic never checks the spacing (witness C23_unequal_spacing_accepted). The other documented ValueErrors are proved for non-empty samples."
 },
 "C25": {
  "note": "False as stated for StdPeriodic in input dimension >= 2 (witness C25_periodic_plane_not_psd). Proved: RBF, Matern32, Identity and Scaled versions in every dimension, and every kernel on the line."
 },
 "C27": {
  "note": "False for Identity: a python scalar distance raises AttributeError (C27_identity_scalar_raises). Proved for all other kernels and their scalings."
 },
 "C28": {
  "note": "False for Scaled: its scale is never linked, so it is not optimised (C28_scaled_not_linked). Proved for the unscaled kernels; gradient assignment proved for all."
 },
 "C29": {
  "note": "Acceptance fails as stated: omitting lmc_kernels/lmc_ranks is a TypeError (C29_omitted_lmc_type_error) and an output index out of range an IndexError (C29_index_error). Proved when both lists are given and indices are in range; rejection of all undocumented arguments is proved in full."
 },
 "C33": {
  "note": "False of the code: the 'slfm' representation adds an identity matrix for groups with only SLFM or only independent kernels (C33_slfm_exact, C33_slfm_wrong). 'sum' and 'bt' always agree; all three agree in every other group."
 },
 "C34": {
  "note": "False of the code for the same reason: gen_grid_kernel picks 'slfm' for such groups (C34_spoiled), so e.g. a model of independent GPs only has every variance too large (C34_wrong_variance). The exact matrix is proved in every case (C34_covariance_exact), the claim itself for all other models."
 },
 "C42": {
  "note": "Proved for every part except the documented rejection of repeated input values: the code never checks for it (C42_repeated_inputs_accepted shows a data set with a repeated input that is accepted)."
 },
 "C49": {
  "note": "False as stated: an interruption (such as KeyboardInterrupt) after the parameters changed and before the new kernel is in place leaves old operators with new parameters (C49_mixes, C49_violated give a program whose predictions are those of neither parameter setting). Proved instead: once the kernel was replaced, or after any later completed update, answers are those of the current parameters."
 },
 "C53": {
  "note": "False for HalfLaplace on arrays: its gradient ignores the argument and is a single float whatever it is given (C53_half_laplace_not_elementwise). Proved for every prior: the gradient at a number is the derivative of the log density on the domain; for all other priors both methods work elementwise."
 },
 "C55": {
  "note": "False as stated: with two or more prior objects in use the gradient omits the Jacobian terms of all parameters whose prior is not the last of the dictionary (C55_violated gives two Gamma priors; C55_lacking gives the exact missing term). Proved for every history of calls: all other parameters, and every parameter when one prior object is in use (C55_one_prior)."
 },
 "C56": {
  "note": "False for calls that raise: the previous prior has already been replaced (C56_attached, C56_violated). Proved for every history: what a call attaches, removes and constrains, at most one prior and constraint per parameter, and exactly when a call raises. What paramz's properties_for returns for a bound method is a parameter of the model."
 },
 "C79": {
  "note": "The part about defaults is false of the code: the default test type 'inversion' is rejected by the program's own check, so every call without a test type fails (C79_default_violated). Proved: with a test type given the accepted arguments are exactly the documented ones; gen_kernels returns q valid kernels per type."
 },
 "C83": {
  "note": "That every operator refuses arguments of another size is false of the code (C83_violated). Proved: the first half for all operators (C83_right_size), refusal by as_linear_operator() of all operators, by NumpyMatrix, Toeplitz, BTTB, SKI, sums and compositions with a refusing member; for Identity, Diag, BlockDiag, SymmSquareBlockMatrix and Kronecker what exactly is accepted."
 },
 "C92": {
  "note": "The second half is false of the code for arrays that are not linked parameters (kappa of independent GPs and SLFM kernels, vectors of independent GPs): the model is not told, and its answers then depend on which questions were asked before (C92_violated). Proved: reading back, exceptions and partial assignment for all kernels; for all other arrays the assignment is what a valid program does, so all theorems about valid programs apply to it."
 },
 "C98": {
  "note": "False of the code except in the mode 'exact', because the covariances with the query point and the covariance of the observations are approximated differently: on-the-fly gives the variance 0 at an observed point (C98_on_the_fly_violated), precompute gives variances above the prior variance (C98_precompute_above) and below the noise (C98_precompute_below). Proved: both bounds in the mode 'exact'; the upper bound in the mode 'on-the-fly'; in the mode 'precompute' both bounds at grid points, and everywhere up to the overshoot of cubic interpolation (an eighth of the latent variance with one-dimensional inputs)."
 },
 "C99": {
  "note": "False of the code: after a second model was made with a kernel object, assignments to it no longer reach the first model (C99_violated), which predicts means for the values at that moment and variances for the current ones (C99_mixes). Proved for a model with whose kernel object no other model was made before the last assignment to it (C99_current_partial). Missing: the models whose kernel object was given new values after another model was made with it."
 },
 "C101": {
  "note": "False of the code for inputs of two and more dimensions: GPy is always told that inputs have one dimension and takes the second coordinate of a point for the index of its output, so the predicted mean never depends on the output (C101_blind, C101_violated). Proved for one-dimensional inputs: predictions, quantiles and likelihood for all data, kernels, ranks and parameter values."
 },
 "C104": {
  "note": "False of the code: K() and log_det_K() are computed from the exact covariance, only normal_quadratic() from K_SKI, so log_likelihood() is the log density under neither (C104_answers gives the exact differences, C104_violated a program where it is less than both). Proved as documented when every observed point is a grid point."
 },
 "C112": {
  "note": "False of the code in one point: the second number is np.std(x) / sqrt(n), which divides by n and not n - 1, so it is sqrt((n - 1) / n) times the standard error (C112_spread, C112_violated). Everything else is proved (C112_runs_partial, C112_run, C112_returns, C112_last, C112_none)."
 },
 "C123": {
  "note": "False for bare asserts: an AssertionError without arguments inside error_context becomes IndexError (C123_bare). Everything else is proved: repeating tests, check_np_lists, vectorize_inputs and error_context for AssertionErrors with a text."
 },
 "C124": {
  "note": "False of the code: the sign of a negative mean is lost (C124_sign_lost) and NLPD are taken for SMSE that are not numbers (C124_not_number). Proved for all outputs whose means are not negative (C124_numbers_partial); C124_magnitudes says what is read in general."
 },
 "C125": {
  "note": "False of the code. The constants of a prior are computed once, so after its argument has moved from b0 to b the density of InverseGamma has mass (b0/b)^a (C125_inverse_gamma_stale; likewise HalfLaplace, Gaussian; Gamma does not follow its arguments at all). The gradient has no term for the argument (C125_missing, C125_violated), which goes to the mode of its own prior whatever the data (C125_alone; 1/3 in the example, C125_notebook). Proved: priors are right while the argument has not moved, their gradients in the parameters that carry them are those of the current values, and the gradient is right in all parameters that are not arguments and not excluded by C55 (C125_entry_partial)."
 },
 "C126": {
  "note": "False as stated: with two or more prior objects in use, the average gradient in the coordinate of a positive parameter theta whose prior is not the last of the dictionary is exp(-theta) above the derivative (C126_lacking; the same fault as C55). Proved: all other coordinates (C126_gradient_partial), and every coordinate when one prior object is in use (C126_one_prior). The objective itself is the log posterior in the optimizer's coordinates (C126_log_prior), and set_prior keeps values and constraints (C126_set_prior)."
 },
 "C128": {
  "note": "False as stated: with any number of kernels but one, the ranks [1] of the snippet make FunctionalKernel raise ValueError (C128_violated). Proved: with as many positive ranks as kernels, in particular with one kernel and [1], the kernel and the model are made (C128_snippet_partial), and the optimize() that follows returns (C128_optimize_partial). The snippet also calls the class LMC, which does not exist, and does not define nout."
 },
 "C130": {
  "note": "False as stated: the values contain the log determinant of the exact covariance, the gradients that of the interpolated one. Witness with two observations half way between grid points, along the noise (C130_violated). Proved for every model: value and average gradient up to that term (C130_objective); and the statement itself when all observations are at grid points and no group of kernels is of the kind of C33 (C130_on_grid_partial). Periodic kernels are excluded."
 }
}