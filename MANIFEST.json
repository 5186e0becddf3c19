{
 "claims": [
  {
   "property": "C01",
   "status": "proved",
   "theorems": [
    "Verif.C01_matvec_eq_dense",
    "Verif.C01_leaves"
   ],
   "note": ""
  },
  {
   "property": "C02",
   "status": "proved",
   "theorems": [
    "Verif.C02_matmat_eq_dense",
    "Verif.C02_matmat_matrix"
   ],
   "note": ""
  },
  {
   "property": "C03",
   "status": "proved",
   "theorems": [
    "Verif.C03_shapes"
   ],
   "note": ""
  },
  {
   "property": "C04",
   "status": "proved",
   "theorems": [
    "Verif.C04_toeplitz"
   ],
   "note": ""
  },
  {
   "property": "C05",
   "status": "proved",
   "theorems": [
    "Verif.C05_bttb"
   ],
   "note": ""
  },
  {
   "property": "C06",
   "status": "proved",
   "theorems": [
    "Verif.C06_kronecker"
   ],
   "note": ""
  },
  {
   "property": "C07",
   "status": "proved",
   "theorems": [
    "Verif.C07_blockDiag",
    "Verif.C07_symmBlock"
   ],
   "note": ""
  },
  {
   "property": "C08",
   "status": "proved",
   "theorems": [
    "Verif.C08_sum",
    "Verif.C08_composition_one",
    "Verif.C08_composition_cons",
    "Verif.C08_ski"
   ],
   "note": ""
  },
  {
   "property": "C09",
   "status": "proved",
   "theorems": [
    "Verif.C09_wrap",
    "Verif.C09_identity",
    "Verif.C09_dense",
    "Verif.C09_diag",
    "Verif.C09_toeplitz",
    "Verif.C09_bttb",
    "Verif.C09_bttb_rejects",
    "Verif.C09_sum",
    "Verif.C09_symmBlock",
    "Verif.C09_blockDiag",
    "Verif.C09_composition_kronecker"
   ],
   "note": ""
  },
  {
   "property": "C10",
   "status": "partial",
   "theorems": [
    "Verif.C10_upper_eig_bound_partial",
    "Verif.C10_toeplitz_abs",
    "Verif.C10_leaf_bounds_return",
    "Verif.C10_kronecker_unsound",
    "Verif.C10_symmBlock_unsound",
    "Verif.C10_ski_raises",
    "Verif.C10_no_bound"
   ],
   "note": "False as stated: Kronecker/SymmSquareBlockMatrix bounds are wrong for non-PSD operands (witnesses C10_kronecker_unsound, C10_symmBlock_unsound) and SKI.upper_eig_bound always raises. The bound is proved for every tree without those cases."
  },
  {
   "property": "C11",
   "status": "proved",
   "theorems": [
    "Verif.C11_shur_no_break",
    "Verif.C11_shur_psd"
   ],
   "note": ""
  },
  {
   "property": "C12",
   "status": "proved",
   "theorems": [
    "Verif.C12_kronecker",
    "Verif.C12_sum",
    "Verif.C12_blockDiag",
    "Verif.C12_ski"
   ],
   "note": ""
  },
  {
   "property": "C13",
   "status": "proved",
   "theorems": [
    "Verif.C13_pickle",
    "Verif.C13_never_fails"
   ],
   "note": ""
  },
  {
   "property": "C14",
   "status": "proved",
   "theorems": [
    "Verif.C14_cubicKernel",
    "Verif.C14_partition_of_unity"
   ],
   "note": ""
  },
  {
   "property": "C15",
   "status": "proved",
   "theorems": [
    "Verif.C15_rows_affine"
   ],
   "note": ""
  },
  {
   "property": "C16",
   "status": "proved",
   "theorems": [
    "Verif.C16_exact_at_grid_points",
    "Verif.C16_exact_on_quadratics"
   ],
   "note": ""
  },
  {
   "property": "C17",
   "status": "proved",
   "theorems": [
    "Verif.C17_third_order"
   ],
   "note": ""
  },
  {
   "property": "C18",
   "status": "proved",
   "theorems": [
    "Verif.C18_clamped"
   ],
   "note": ""
  },
  {
   "property": "C19",
   "status": "proved",
   "theorems": [
    "Verif.C19_bicubic_tensor",
    "Verif.C19_bicubic_sum_one",
    "Verif.C19_bicubic_exact_quadratics"
   ],
   "note": ""
  },
  {
   "property": "C20",
   "status": "proved",
   "theorems": [
    "Verif.C20_assembly_block_diagonal",
    "Verif.C20_multi_interpolant",
    "Verif.C20_multi_interpolant_2d"
   ],
   "note": ""
  },
  {
   "property": "C21",
   "status": "proved",
   "theorems": [
    "Verif.C21_autogrid_brackets"
   ],
   "note": ""
  },
  {
   "property": "C22",
   "status": "partial",
   "theorems": [
    "Verif.C22_list_m_unchanged_partial",
    "Verif.C22_ndarray_m_modified",
    "Verif.C22_repeated_call_differs"
   ],
   "note": "False of the code for ndarray m: `m += 4` writes to the caller's array (C22_ndarray_m_modified, C22_repeated_call_differs). lo and hi are only read; None/list m unchanged is proved."
  },
  {
   "property": "C23",
   "status": "partial",
   "theorems": [
    "Verif.C23_unequal_spacing_accepted",
    "Verif.C23_shape_checks_partial"
   ],
   "note": "False of the code: interp_cubic never checks the spacing (witness C23_unequal_spacing_accepted). The other documented ValueErrors are proved for non-empty samples."
  },
  {
   "property": "C24",
   "status": "proved",
   "theorems": [
    "Verif.C24_from_dist_documented",
    "Verif.C24_gradient",
    "Verif.C24_tiny_period_nan"
   ],
   "note": ""
  },
  {
   "property": "C25",
   "status": "partial",
   "theorems": [
    "Verif.C25_psd_partial",
    "Verif.C25_psd_line",
    "Verif.C25_periodic_plane_not_psd"
   ],
   "note": "False as stated for StdPeriodic in input dimension >= 2 (witness C25_periodic_plane_not_psd). Proved: RBF, Matern32, Identity and Scaled versions in every dimension, and every kernel on the line."
  },
  {
   "property": "C26",
   "status": "proved",
   "theorems": [
    "Verif.C26_normalised_bounded",
    "Verif.C26_monotone",
    "Verif.C26_periodic"
   ],
   "note": ""
  },
  {
   "property": "C27",
   "status": "partial",
   "theorems": [
    "Verif.C27_scalar_partial",
    "Verif.C27_identity_scalar_raises"
   ],
   "note": "False for Identity: a python scalar distance raises AttributeError (C27_identity_scalar_raises). Proved for all other kernels and their scalings."
  },
  {
   "property": "C28",
   "status": "partial",
   "theorems": [
    "Verif.C28_linked_partial",
    "Verif.C28_update_gradient",
    "Verif.C28_scaled_not_linked"
   ],
   "note": "False for Scaled: its scale is never linked, so it is not optimised (C28_scaled_not_linked). Proved for the unscaled kernels; gradient assignment proved for all."
  },
  {
   "property": "C29",
   "status": "partial",
   "theorems": [
    "Verif.C29_accepts_partial",
    "Verif.C29_rejects",
    "Verif.C29_contents",
    "Verif.C29_omitted_lmc_type_error",
    "Verif.C29_index_error"
   ],
   "note": "Acceptance fails as stated: omitting lmc_kernels/lmc_ranks is a TypeError (C29_omitted_lmc_type_error) and an output index out of range an IndexError (C29_index_error). Proved when both lists are given and indices are in range; rejection of all undocumented arguments is proved in full."
  },
  {
   "property": "C30",
   "status": "proved",
   "theorems": [
    "Verif.C30_groups",
    "Verif.C30_partition",
    "Verif.C30_counts",
    "Verif.C30_history",
    "Verif.C30_total_rank"
   ],
   "note": ""
  },
  {
   "property": "C31",
   "status": "proved",
   "theorems": [
    "Verif.C31_coreg_entries",
    "Verif.C31_coreg_psd",
    "Verif.C31_slfm_rank_one",
    "Verif.C31_indep_unit"
   ],
   "note": ""
  },
  {
   "property": "C32",
   "status": "proved",
   "theorems": [
    "Verif.C32_grid_function",
    "Verif.C32_grid_kernel",
    "Verif.C32_autogrid"
   ],
   "note": ""
  },
  {
   "property": "C33",
   "status": "partial",
   "theorems": [
    "Verif.C33_sum_bt",
    "Verif.C33_slfm_exact",
    "Verif.C33_agree_partial",
    "Verif.C33_slfm_wrong"
   ],
   "note": "False of the code: the 'slfm' representation adds an identity matrix for groups with only SLFM or only independent kernels (C33_slfm_exact, C33_slfm_wrong). 'sum' and 'bt' always agree; all three agree in every other group."
  },
  {
   "property": "C34",
   "status": "partial",
   "theorems": [
    "Verif.C34_covariance_exact",
    "Verif.C34_covariance_partial",
    "Verif.C34_covariance_mixed",
    "Verif.C34_spoiled",
    "Verif.C34_wrong_variance"
   ],
   "note": "False of the code for the same reason: gen_grid_kernel picks 'slfm' for such groups (C34_spoiled), so e.g. a model of independent GPs only has every variance too large (C34_wrong_variance). The exact matrix is proved in every case (C34_covariance_exact), the claim itself for all other models."
  },
  {
   "property": "C35",
   "status": "proved",
   "theorems": [
    "Verif.C35_kernel_from_indices",
    "Verif.C35_exact_K"
   ],
   "note": ""
  },
  {
   "property": "C36",
   "status": "proved",
   "theorems": [
    "Verif.C36_positive_definite",
    "Verif.C36_otherwise_raises",
    "Verif.C36_kernels_psd"
   ],
   "note": ""
  },
  {
   "property": "C37",
   "status": "proved",
   "theorems": [
    "Verif.C37_coreg_vec",
    "Verif.C37_coreg_diags",
    "Verif.C37_kernels",
    "Verif.C37_noise",
    "Verif.C37_update_gradient"
   ],
   "note": ""
  },
  {
   "property": "C38",
   "status": "proved",
   "theorems": [
    "Verif.C38_unbiased"
   ],
   "note": ""
  },
  {
   "property": "C39",
   "status": "proved",
   "theorems": [
    "Verif.C39_generate",
    "Verif.C39_same"
   ],
   "note": ""
  },
  {
   "property": "C40",
   "status": "proved",
   "theorems": [
    "Verif.C40_log_det",
    "Verif.C40_log_likelihood",
    "Verif.C40_exact"
   ],
   "note": ""
  },
  {
   "property": "C41",
   "status": "proved",
   "theorems": [
    "Verif.C41_roundtrip",
    "Verif.C41_variance",
    "Verif.C41_unscaled"
   ],
   "note": ""
  },
  {
   "property": "C42",
   "status": "partial",
   "theorems": [
    "Verif.C42_validation_partial",
    "Verif.C42_repeated_inputs_accepted"
   ],
   "note": "Proved for every part except the documented rejection of repeated input values: the code never checks for it (C42_repeated_inputs_accepted shows a data set with a repeated input that is accepted)."
  },
  {
   "property": "C43",
   "status": "proved",
   "theorems": [
    "Verif.C43_returns",
    "Verif.C43_raises",
    "Verif.C43_any_state"
   ],
   "note": ""
  },
  {
   "property": "C44",
   "status": "proved",
   "theorems": [
    "Verif.C44_mean",
    "Verif.C44_exact_solve",
    "Verif.C44_documented"
   ],
   "note": ""
  },
  {
   "property": "C45",
   "status": "proved",
   "theorems": [
    "Verif.C45_exact",
    "Verif.C45_any"
   ],
   "note": ""
  },
  {
   "property": "C46",
   "status": "proved",
   "theorems": [
    "Verif.C46_on_the_fly",
    "Verif.C46_precompute",
    "Verif.C46_grid_point"
   ],
   "note": ""
  },
  {
   "property": "C47",
   "status": "proved",
   "theorems": [
    "Verif.C47_quantiles",
    "Verif.C47_distribution"
   ],
   "note": ""
  },
  {
   "property": "C48",
   "status": "proved",
   "theorems": [
    "Verif.C48_caches",
    "Verif.C48_answers",
    "Verif.C48_current",
    "Verif.C48_fresh"
   ],
   "note": ""
  },
  {
   "property": "C49",
   "status": "partial",
   "theorems": [
    "Verif.C49_mixes",
    "Verif.C49_refreshed_partial",
    "Verif.C49_recovers_partial",
    "Verif.C49_violated"
   ],
   "note": "False as stated: an interruption (such as KeyboardInterrupt) after the parameters changed and before the new kernel is in place leaves old operators with new parameters (C49_mixes, C49_violated give a program whose predictions are those of neither parameter setting). Proved instead: once the kernel was replaced, or after any later completed update, answers are those of the current parameters."
  },
  {
   "property": "C50",
   "status": "proved",
   "theorems": [
    "Verif.C50_metrics"
   ],
   "note": ""
  },
  {
   "property": "C51",
   "status": "proved",
   "theorems": [
    "Verif.C51_solve",
    "Verif.C51_bad_is_logged"
   ],
   "note": ""
  },
  {
   "property": "C52",
   "status": "proved",
   "theorems": [
    "Verif.C52_stops",
    "Verif.C52_callback_raises",
    "Verif.C52_bound",
    "Verif.C52_transcript",
    "Verif.C52_lines"
   ],
   "note": ""
  },
  {
   "property": "C53",
   "status": "partial",
   "theorems": [
    "Verif.C53_gaussian",
    "Verif.C53_gamma",
    "Verif.C53_inverse_gamma",
    "Verif.C53_half_laplace_partial",
    "Verif.C53_half_laplace_not_elementwise"
   ],
   "note": "False for HalfLaplace on arrays: its gradient ignores the argument and is a single float whatever it is given (C53_half_laplace_not_elementwise). Proved for every prior: the gradient at a number is the derivative of the log density on the domain; for all other priors both methods work elementwise."
  },
  {
   "property": "C54",
   "status": "proved",
   "theorems": [
    "Verif.C54_gaussian",
    "Verif.C54_gamma",
    "Verif.C54_gamma_moments",
    "Verif.C54_inverse_gamma",
    "Verif.C54_half_laplace"
   ],
   "note": ""
  },
  {
   "property": "C55",
   "status": "partial",
   "theorems": [
    "Verif.C55_gradient_partial",
    "Verif.C55_one_prior",
    "Verif.C55_lacking",
    "Verif.C55_violated"
   ],
   "note": "False as stated: with two or more prior objects in use the gradient omits the Jacobian terms of all parameters whose prior is not the last of the dictionary (C55_violated gives two Gamma priors; C55_lacking gives the exact missing term). Proved for every history of calls: all other parameters, and every parameter when one prior object is in use (C55_one_prior)."
  },
  {
   "property": "C56",
   "status": "partial",
   "theorems": [
    "Verif.C56_attached",
    "Verif.C56_set_prior",
    "Verif.C56_unset",
    "Verif.C56_constrain",
    "Verif.C56_at_most_one",
    "Verif.C56_raises_partial",
    "Verif.C56_violated"
   ],
   "note": "False for calls that raise: the previous prior has already been replaced (C56_attached, C56_violated). Proved for every history: what a call attaches, removes and constrains, at most one prior and constraint per parameter, and exactly when a call raises. What paramz's properties_for returns for a bound method is a parameter of the model."
  },
  {
   "property": "C57",
   "status": "proved",
   "theorems": [
    "Verif.C57_input_dim",
    "Verif.C57_zero",
    "Verif.C57_constant_new",
    "Verif.C57_constant",
    "Verif.C57_gradient"
   ],
   "note": ""
  },
  {
   "property": "C58",
   "status": "proved",
   "theorems": [
    "Verif.C58_predict",
    "Verif.C58_quantiles",
    "Verif.C58_raises"
   ],
   "note": ""
  },
  {
   "property": "C59",
   "status": "proved",
   "theorems": [
    "Verif.C59_tesselate",
    "Verif.C59_chunks"
   ],
   "note": ""
  },
  {
   "property": "C60",
   "status": "proved",
   "theorems": [
    "Verif.C60_beginEndIndices"
   ],
   "note": ""
  },
  {
   "property": "C61",
   "status": "proved",
   "theorems": [
    "Verif.C61_searchDescending"
   ],
   "note": ""
  },
  {
   "property": "C62",
   "status": "proved",
   "theorems": [
    "Verif.C62_cartesianProduct"
   ],
   "note": ""
  },
  {
   "property": "C63",
   "status": "partial",
   "theorems": [
    "Verif.C63_symm2dListMap",
    "Verif.C63_mapEntries_partial",
    "Verif.C63_mapEntries_layout_unsound"
   ],
   "note": "map_entries is wrong on arrays that are not C-contiguous (witness C63_mapEntries_layout_unsound); proved for C-contiguous arrays. symm_2d_list_map is fully proved."
  },
  {
   "property": "C64",
   "status": "proved",
   "theorems": [
    "Verif.C64_starmap",
    "Verif.C64_starmap_raises"
   ],
   "note": ""
  },
  {
   "property": "C65",
   "status": "partial",
   "theorems": [
    "Verif.C65_inheritDoc_frame",
    "Verif.C65_inheritDoc_partial",
    "Verif.C65_idempotent",
    "Verif.C65_property_doc_overwritten",
    "Verif.C65_property_over_method_raises"
   ],
   "note": "False for properties with an explicit docstring and an undocumented getter (C65_property_doc_overwritten); a property overriding a method raises (C65_property_over_method_raises). Everything else proved, idempotence included."
  },
  {
   "property": "C66",
   "status": "proved",
   "theorems": [
    "Verif.C66_constructor",
    "Verif.C66_grids",
    "Verif.C66_documented"
   ],
   "note": ""
  },
  {
   "property": "C67",
   "status": "proved",
   "theorems": [
    "Verif.C67_unbiased",
    "Verif.C67_documented"
   ],
   "note": ""
  },
  {
   "property": "C68",
   "status": "proved",
   "theorems": [
    "Verif.C68_to_gpy",
    "Verif.C68_raises",
    "Verif.C68_terms"
   ],
   "note": ""
  },
  {
   "property": "C69",
   "status": "proved",
   "theorems": [
    "Verif.C69_new",
    "Verif.C69_set",
    "Verif.C69_valid_program",
    "Verif.C69_reaches"
   ],
   "note": ""
  },
  {
   "property": "C70",
   "status": "proved",
   "theorems": [
    "Verif.C70_interpolated_posDef",
    "Verif.C70_operator"
   ],
   "note": ""
  },
  {
   "property": "C71",
   "status": "proved",
   "theorems": [
    "Verif.C71_accuracy",
    "Verif.C71_on_grid",
    "Verif.C71_constructed"
   ],
   "note": ""
  },
  {
   "property": "C72",
   "status": "proved",
   "theorems": [
    "Verif.C72_program",
    "Verif.C72_log_likelihood",
    "Verif.C72_mean",
    "Verif.C72_variance",
    "Verif.C72_converges"
   ],
   "note": ""
  },
  {
   "property": "C73",
   "status": "proved",
   "theorems": [
    "Verif.C73_units"
   ],
   "note": ""
  },
  {
   "property": "C74",
   "status": "proved",
   "theorems": [
    "Verif.C74_origin"
   ],
   "note": ""
  },
  {
   "property": "C75",
   "status": "proved",
   "theorems": [
    "Verif.C75_smallest_eig",
    "Verif.C75_random_toep",
    "Verif.C75_poor_cond_toep",
    "Verif.C75_empty",
    "Verif.C75_exp_decr_toep",
    "Verif.C75_rand_pd"
   ],
   "note": ""
  },
  {
   "property": "C76",
   "status": "proved",
   "theorems": [
    "Verif.C76_gradient",
    "Verif.C76_log_likelihood",
    "Verif.C76_jitter"
   ],
   "note": ""
  },
  {
   "property": "C77",
   "status": "proved",
   "theorems": [
    "Verif.C77_single_step"
   ],
   "note": ""
  },
  {
   "property": "C78",
   "status": "proved",
   "theorems": [
    "Verif.C78_smse",
    "Verif.C78_smse_undefined",
    "Verif.C78_smse_single",
    "Verif.C78_smse_refused",
    "Verif.C78_nlpd",
    "Verif.C78_nlpd_undefined",
    "Verif.C78_smse_reference",
    "Verif.C78_smse_zero",
    "Verif.C78_smse_units",
    "Verif.C78_nlpd_units",
    "Verif.C78_nlpd_certain",
    "Verif.C78_best"
   ],
   "note": ""
  },
  {
   "property": "C79",
   "status": "partial",
   "theorems": [
    "Verif.C79_checks_partial",
    "Verif.C79_default_violated",
    "Verif.C79_gen_kernels",
    "Verif.C79_scales"
   ],
   "note": "The part about defaults is false of the code: the default test type 'inversion' is rejected by the program's own check, so every call without a test type fails (C79_default_violated). Proved: with a test type given the accepted arguments are exactly the documented ones; gen_kernels returns q valid kernels per type."
  },
  {
   "property": "C80",
   "status": "proved",
   "theorems": [
    "Verif.C80_pointwise",
    "Verif.C80_program"
   ],
   "note": ""
  },
  {
   "property": "C81",
   "status": "proved",
   "theorems": [
    "Verif.C81_more_points",
    "Verif.C81_plain",
    "Verif.C81_at_observations",
    "Verif.C81_program"
   ],
   "note": ""
  },
  {
   "property": "C82",
   "status": "proved",
   "theorems": [
    "Verif.C82_order",
    "Verif.C82_covariance"
   ],
   "note": ""
  },
  {
   "property": "C83",
   "status": "partial",
   "theorems": [
    "Verif.C83_right_size",
    "Verif.C83_every_operator",
    "Verif.C83_linear_operator",
    "Verif.C83_strict_partial",
    "Verif.C83_identity",
    "Verif.C83_diag",
    "Verif.C83_block_diag",
    "Verif.C83_symm_block",
    "Verif.C83_kronecker",
    "Verif.C83_violated"
   ],
   "note": "That every operator refuses arguments of another size is false of the code (C83_violated). Proved: the first half for all operators (C83_right_size), refusal by as_linear_operator() of all operators, by NumpyMatrix, Toeplitz, BTTB, SKI, sums and compositions with a refusing member; for Identity, Diag, BlockDiag, SymmSquareBlockMatrix and Kronecker what exactly is accepted."
  },
  {
   "property": "C84",
   "status": "proved",
   "theorems": [
    "Verif.C84_program",
    "Verif.C84_program_points",
    "Verif.C84_uncoupled",
    "Verif.C84_values",
    "Verif.C84_independent"
   ],
   "note": ""
  },
  {
   "property": "C85",
   "status": "proved",
   "theorems": [
    "Verif.C85_program",
    "Verif.C85_linear_program",
    "Verif.C85_variance",
    "Verif.C85_linear"
   ],
   "note": ""
  },
  {
   "property": "C86",
   "status": "proved",
   "theorems": [
    "Verif.C86_spread",
    "Verif.C86_gradients",
    "Verif.C86_enough"
   ],
   "note": ""
  },
  {
   "property": "C87",
   "status": "proved",
   "theorems": [
    "Verif.C87_units"
   ],
   "note": ""
  },
  {
   "property": "C88",
   "status": "proved",
   "theorems": [
    "Verif.C88_outputs"
   ],
   "note": ""
  },
  {
   "property": "C89",
   "status": "proved",
   "theorems": [
    "Verif.C89_program",
    "Verif.C89_mean",
    "Verif.C89_on_the_fly",
    "Verif.C89_precompute",
    "Verif.C89_total",
    "Verif.C89_log_likelihood",
    "Verif.C89_derivative",
    "Verif.C89_gradients"
   ],
   "note": ""
  },
  {
   "property": "C90",
   "status": "proved",
   "theorems": [
    "Verif.C90_constructed",
    "Verif.C90_valid",
    "Verif.C90_round_trip",
    "Verif.C90_program",
    "Verif.C90_optimize"
   ],
   "note": ""
  },
  {
   "property": "C91",
   "status": "proved",
   "theorems": [
    "Verif.C91_gradient",
    "Verif.C91_documented"
   ],
   "note": ""
  },
  {
   "property": "C92",
   "status": "partial",
   "theorems": [
    "Verif.C92_reads",
    "Verif.C92_stops",
    "Verif.C92_rejects",
    "Verif.C92_updates_partial",
    "Verif.C92_violated"
   ],
   "note": "The second half is false of the code for arrays that are not linked parameters (kappa of independent GPs and SLFM kernels, vectors of independent GPs): the model is not told, and its answers then depend on which questions were asked before (C92_violated). Proved: reading back, exceptions and partial assignment for all kernels; for all other arrays the assignment is what a valid program does, so all theorems about valid programs apply to it."
  },
  {
   "property": "C93",
   "status": "proved",
   "theorems": [
    "Verif.C93_smooth",
    "Verif.C93_program"
   ],
   "note": ""
  },
  {
   "property": "C94",
   "status": "proved",
   "theorems": [
    "Verif.C94_mean_constant",
    "Verif.C94_variance_constant",
    "Verif.C94_variance_reverts",
    "Verif.C94_program",
    "Verif.C94_program_variance",
    "Verif.C94_program_reverts"
   ],
   "note": ""
  },
  {
   "property": "C95",
   "status": "proved",
   "theorems": [
    "Verif.C95_training_error",
    "Verif.C95_exact",
    "Verif.C95_program",
    "Verif.C95_interpolates"
   ],
   "note": ""
  },
  {
   "property": "C96",
   "status": "proved",
   "theorems": [
    "Verif.C96_same_answers",
    "Verif.C96_rewritten"
   ],
   "note": ""
  },
  {
   "property": "C97",
   "status": "proved",
   "theorems": [
    "Verif.C97_annotation",
    "Verif.C97_cost",
    "Verif.C97_transforms",
    "Verif.C97_sparse",
    "Verif.C97_near_linear"
   ],
   "note": ""
  },
  {
   "property": "C98",
   "status": "partial",
   "theorems": [
    "Verif.C98_exact_partial",
    "Verif.C98_on_the_fly_partial",
    "Verif.C98_precompute_partial",
    "Verif.C98_precompute_grid_partial",
    "Verif.C98_on_the_fly_violated",
    "Verif.C98_precompute_above",
    "Verif.C98_precompute_below"
   ],
   "note": "False of the code except in the mode 'exact', because the covariances with the query point and the covariance of the observations are approximated differently: on-the-fly gives the variance 0 at an observed point (C98_on_the_fly_violated), precompute gives variances above the prior variance (C98_precompute_above) and below the noise (C98_precompute_below). Proved: both bounds in the mode 'exact'; the upper bound in the mode 'on-the-fly'; in the mode 'precompute' both bounds at grid points, and everywhere up to the overshoot of cubic interpolation (an eighth of the latent variance with one-dimensional inputs)."
  },
  {
   "property": "C99",
   "status": "partial",
   "theorems": [
    "Verif.C99_current_partial",
    "Verif.C99_mixes",
    "Verif.C99_dimension",
    "Verif.C99_refused",
    "Verif.C99_violated",
    "Verif.C99_orphaned"
   ],
   "note": "False of the code: after a second model was made with a kernel object, assignments to it no longer reach the first model (C99_violated), which predicts means for the values at that moment and variances for the current ones (C99_mixes). Proved for a model with whose kernel object no other model was made before the last assignment to it (C99_current_partial). Missing: the models whose kernel object was given new values after another model was made with it."
  },
  {
   "property": "C100",
   "status": "proved",
   "theorems": [
    "Verif.C100_rerun",
    "Verif.C100_model",
    "Verif.C100_diagnostics"
   ],
   "note": ""
  },
  {
   "property": "C101",
   "status": "partial",
   "theorems": [
    "Verif.C101_predict_partial",
    "Verif.C101_quantiles_partial",
    "Verif.C101_likelihood_partial",
    "Verif.C101_described",
    "Verif.C101_blind",
    "Verif.C101_constructs",
    "Verif.C101_violated"
   ],
   "note": "False of the code for inputs of two and more dimensions: GPy is always told that inputs have one dimension and takes the second coordinate of a point for the index of its output, so the predicted mean never depends on the output (C101_blind, C101_violated). Proved for one-dimensional inputs: predictions, quantiles and likelihood for all data, kernels, ranks and parameter values."
  },
  {
   "property": "C102",
   "status": "proved",
   "theorems": [
    "Verif.C102_agree",
    "Verif.C102_exists"
   ],
   "note": ""
  },
  {
   "property": "C103",
   "status": "proved",
   "theorems": [
    "Verif.C103_grids",
    "Verif.C103_wider",
    "Verif.C103_same_range",
    "Verif.C103_given",
    "Verif.C103_inside",
    "Verif.C103_exists"
   ],
   "note": ""
  },
  {
   "property": "C104",
   "status": "partial",
   "theorems": [
    "Verif.C104_answers",
    "Verif.C104_on_grid_partial",
    "Verif.C104_violated"
   ],
   "note": "False of the code: K() and log_det_K() are computed from the exact covariance, only normal_quadratic() from K_SKI, so log_likelihood() is the log density under neither (C104_answers gives the exact differences, C104_violated a program where it is less than both). Proved as documented when every observed point is a grid point."
  },
  {
   "property": "C105",
   "status": "proved",
   "theorems": [
    "Verif.C105_fx",
    "Verif.C105_weather",
    "Verif.C105_synth",
    "Verif.C105_sample",
    "Verif.C105_normal",
    "Verif.C105_data"
   ],
   "note": ""
  },
  {
   "property": "C106",
   "status": "proved",
   "theorems": [
    "Verif.C106_setup",
    "Verif.C106_model",
    "Verif.C106_operators",
    "Verif.C106_inv",
    "Verif.C106_opt",
    "Verif.C106_counts",
    "Verif.C106_program"
   ],
   "note": ""
  },
  {
   "property": "C107",
   "status": "proved",
   "theorems": [
    "Verif.C107_quantiles",
    "Verif.C107_variance",
    "Verif.C107_draws"
   ],
   "note": ""
  },
  {
   "property": "C108",
   "status": "proved",
   "theorems": [
    "Verif.C108_divergence",
    "Verif.C108_proper",
    "Verif.C108_best",
    "Verif.C108_draws"
   ],
   "note": ""
  },
  {
   "property": "C109",
   "status": "proved",
   "theorems": [
    "Verif.C109_averages",
    "Verif.C109_repeats",
    "Verif.C109_exact"
   ],
   "note": ""
  },
  {
   "property": "C110",
   "status": "partial",
   "theorems": [
    "Verif.C110_location",
    "Verif.C110_corrected",
    "Verif.C110_rows_partial",
    "Verif.C110_ends",
    "Verif.C110_violated",
    "Verif.C110_unsigned",
    "Verif.C110_unlocated"
   ],
   "note": ""
  },
  {
   "property": "C111",
   "status": "proved",
   "theorems": [
    "Verif.C111_dimensions",
    "Verif.C111_made"
   ],
   "note": ""
  },
  {
   "property": "C112",
   "status": "partial",
   "theorems": [
    "Verif.C112_runs_partial",
    "Verif.C112_last",
    "Verif.C112_none",
    "Verif.C112_run",
    "Verif.C112_returns",
    "Verif.C112_spread",
    "Verif.C112_violated"
   ],
   "note": "False of the code in one point: the second number is np.std(x) / sqrt(n), which divides by n and not n - 1, so it is sqrt((n - 1) / n) times the standard error (C112_spread, C112_violated). Everything else is proved (C112_runs_partial, C112_run, C112_returns, C112_last, C112_none)."
  },
  {
   "property": "C113",
   "status": "proved",
   "theorems": [
    "Verif.C113_mean",
    "Verif.C113_exact",
    "Verif.C113_on_the_fly"
   ],
   "note": ""
  },
  {
   "property": "C114",
   "status": "proved",
   "theorems": [
    "Verif.C114_predictions",
    "Verif.C114_numbers",
    "Verif.C114_parameters",
    "Verif.C114_assign"
   ],
   "note": ""
  },
  {
   "property": "C115",
   "status": "proved",
   "theorems": [
    "Verif.C115_values",
    "Verif.C115_outlier",
    "Verif.C115_size",
    "Verif.C115_normalised"
   ],
   "note": ""
  },
  {
   "property": "C116",
   "status": "proved",
   "theorems": [
    "Verif.C116_log_det",
    "Verif.C116_quadratic",
    "Verif.C116_log_likelihood",
    "Verif.C116_normalised"
   ],
   "note": ""
  },
  {
   "property": "C117",
   "status": "proved",
   "theorems": [
    "Verif.C117_means",
    "Verif.C117_at_point",
    "Verif.C117_unsurprised",
    "Verif.C117_exact",
    "Verif.C117_quadratic",
    "Verif.C117_log_likelihood"
   ],
   "note": ""
  },
  {
   "property": "C118",
   "status": "proved",
   "theorems": [
    "Verif.C118_predictions",
    "Verif.C118_numbers",
    "Verif.C118_best",
    "Verif.C118_parameters",
    "Verif.C118_assign"
   ],
   "note": ""
  },
  {
   "property": "C119",
   "status": "proved",
   "theorems": [
    "Verif.C119_variances",
    "Verif.C119_log_det",
    "Verif.C119_enlarged",
    "Verif.C119_noise"
   ],
   "note": ""
  },
  {
   "property": "C120",
   "status": "proved",
   "theorems": [
    "Verif.C120_average",
    "Verif.C120_fails",
    "Verif.C120_max",
    "Verif.C120_cutoff"
   ],
   "note": ""
  },
  {
   "property": "C121",
   "status": "proved",
   "theorems": [
    "Verif.C121_table",
    "Verif.C121_best",
    "Verif.C121_one",
    "Verif.C121_first_not_number",
    "Verif.C121_no_time",
    "Verif.C121_line"
   ],
   "note": ""
  },
  {
   "property": "C122",
   "status": "proved",
   "theorems": [
    "Verif.C122_caches",
    "Verif.C122_others",
    "Verif.C122_modes",
    "Verif.C122_unknown"
   ],
   "note": ""
  },
  {
   "property": "C123",
   "status": "partial",
   "theorems": [
    "Verif.C123_repeat",
    "Verif.C123_suite",
    "Verif.C123_check",
    "Verif.C123_check_equal",
    "Verif.C123_vectorize",
    "Verif.C123_vectorize_empty",
    "Verif.C123_context",
    "Verif.C123_contexts_partial",
    "Verif.C123_bare"
   ],
   "note": "False for bare asserts: an AssertionError without arguments inside error_context becomes IndexError (C123_bare). Everything else is proved: repeating tests, check_np_lists, vectorize_inputs and error_context for AssertionErrors with a text."
  },
  {
   "property": "C124",
   "status": "partial",
   "theorems": [
    "Verif.C124_magnitudes",
    "Verif.C124_numbers_partial",
    "Verif.C124_sign_lost",
    "Verif.C124_not_number",
    "Verif.C124_no_output"
   ],
   "note": "False of the code: the sign of a negative mean is lost (C124_sign_lost) and NLPD are taken for SMSE that are not numbers (C124_not_number). Proved for all outputs whose means are not negative (C124_numbers_partial); C124_magnitudes says what is read in general."
  },
  {
   "property": "C125",
   "status": "partial",
   "theorems": [
    "Verif.C125_just_made",
    "Verif.C125_numbers",
    "Verif.C125_slope",
    "Verif.C125_gamma_fixed",
    "Verif.C125_inverse_gamma_stale",
    "Verif.C125_half_laplace_stale",
    "Verif.C125_gaussian_stale",
    "Verif.C125_entry_partial",
    "Verif.C125_missing",
    "Verif.C125_violated",
    "Verif.C125_alone",
    "Verif.C125_notebook"
   ],
   "note": "False of the code. The constants of a prior are computed once, so after its argument has moved from b0 to b the density of InverseGamma has mass (b0/b)^a (C125_inverse_gamma_stale; likewise HalfLaplace, Gaussian; Gamma does not follow its arguments at all). The gradient has no term for the argument (C125_missing, C125_violated), which goes to the mode of its own prior whatever the data (C125_alone; 1/3 in the example, C125_notebook). Proved: priors are right while the argument has not moved, their gradients in the parameters that carry them are those of the current values, and the gradient is right in all parameters that are not arguments and not excluded by C55 (C125_entry_partial)."
  },
  {
   "property": "C126",
   "status": "partial",
   "theorems": [
    "Verif.C126_log_prior",
    "Verif.C126_gradient_partial",
    "Verif.C126_lacking",
    "Verif.C126_one_prior",
    "Verif.C126_set_prior"
   ],
   "note": "False as stated: with two or more prior objects in use, the average gradient in the coordinate of a positive parameter theta whose prior is not the last of the dictionary is exp(-theta) above the derivative (C126_lacking; the same fault as C55). Proved: all other coordinates (C126_gradient_partial), and every coordinate when one prior object is in use (C126_one_prior). The objective itself is the log posterior in the optimizer's coordinates (C126_log_prior), and set_prior keeps values and constraints (C126_set_prior)."
  },
  {
   "property": "C127",
   "status": "proved",
   "theorems": [
    "Verif.C127_values",
    "Verif.C127_exact"
   ],
   "note": ""
  },
  {
   "property": "C128",
   "status": "partial",
   "theorems": [
    "Verif.C128_violated",
    "Verif.C128_snippet_partial",
    "Verif.C128_optimize_partial"
   ],
   "note": "False as stated: with any number of kernels but one, the ranks [1] of the snippet make FunctionalKernel raise ValueError (C128_violated). Proved: with as many positive ranks as kernels, in particular with one kernel and [1], the kernel and the model are made (C128_snippet_partial), and the optimize() that follows returns (C128_optimize_partial). The snippet also calls the class LMC, which does not exist, and does not define nout."
  },
  {
   "property": "C129",
   "status": "proved",
   "theorems": [
    "Verif.C129_search"
   ],
   "note": ""
  },
  {
   "property": "C130",
   "status": "partial",
   "theorems": [
    "Verif.C130_objective",
    "Verif.C130_on_grid_partial",
    "Verif.C130_violated"
   ],
   "note": "False as stated: the values contain the log determinant of the exact covariance, the gradients that of the interpolated one. Witness with two observations half way between grid points, along the noise (C130_violated). Proved for every model: value and average gradient up to that term (C130_objective); and the statement itself when all observations are at grid points and no group of kernels is of the kind of C33 (C130_on_grid_partial). Periodic kernels are excluded."
  }
 ]
}