{
 "claims": [
  {
   "property": "C01",
   "status": "proved",
   "theorems": [
    "Props.C01_sqExp_joint_covariance"
   ],
   "note": "All points, any theta >= 0."
  },
  {
   "property": "C02",
   "status": "proved",
   "theorems": [
    "Props.C02_matern_joint_covariance"
   ],
   "note": "All points including coincident ones."
  },
  {
   "property": "C03",
   "status": "proved",
   "theorems": [
    "Props.C03_ratQuad_joint_covariance"
   ],
   "note": ""
  },
  {
   "property": "C04",
   "status": "partial",
   "theorems": [
    "Props.C04_mask_selects_partial",
    "Props.C04_ratQuad_mask1_only_broken",
    "Props.C04_ratQuad_single_gradient"
   ],
   "note": "Proved for every kernel and mask combination except rational quadratic with a mask for the first set only, where the code is proved to raise, or, if exactly one of several points is selected, to return wrong value-gradient covariances."
  },
  {
   "property": "C05",
   "status": "proved",
   "theorems": [
    "Props.C05_base_entries",
    "Props.C05_base_correlation"
   ],
   "note": ""
  },
  {
   "property": "C06",
   "status": "partial",
   "theorems": [
    "Props.C06_base_theta_derivative_partial",
    "Props.C06_matern_wrong"
   ],
   "note": "True for SqExp and RatQuad; for Matern the property is proved false of the code."
  },
  {
   "property": "C07",
   "status": "partial",
   "theorems": [
    "Props.C07_grad_theta_derivative_partial",
    "Props.C07_matern_iff",
    "Props.C07_matern_error"
   ],
   "note": "SqExp and RatQuad: proved. Matern: proved right exactly when no two distinct points are closer than 1e-16 (the code floors the distance); otherwise the error is proved to be at most 10 T/theta_d * 1e-48."
  },
  {
   "property": "C08",
   "status": "partial",
   "theorems": [
    "Props.C08_masked_theta_derivative_partial",
    "Props.C08_masked_theta_raises"
   ],
   "note": "RatQuad proved for every mask, SqExp and Matern for masks that select every point; for every other mask the SqExp and Matern calls are proved to raise."
  },
  {
   "property": "C09",
   "status": "proved",
   "theorems": [
    "Props.C09_base_alpha_derivative",
    "Props.C09_grad_alpha_derivative"
   ],
   "note": ""
  },
  {
   "property": "C10",
   "status": "proved",
   "theorems": [
    "Props.C10_hess_x"
   ],
   "note": ""
  },
  {
   "property": "C11",
   "status": "partial",
   "theorems": [
    "Props.C11_grad_x_partial",
    "Props.C11_masked_raises",
    "Props.C11_matern_iff",
    "Props.C11_matern_error"
   ],
   "note": "Unmasked proved (Matern: right exactly when distinct points are at least 1e-16 apart, and otherwise off by at most 20 T^(3/2) * 1e-32); masked call proved to raise."
  },
  {
   "property": "C12",
   "status": "proved",
   "theorems": [
    "Props.C12_symmetric_with_gamma_diagonal"
   ],
   "note": ""
  },
  {
   "property": "C13",
   "status": "proved",
   "theorems": [
    "Props.C13_base_posSemidef"
   ],
   "note": "All three kernels, any number of points, coincident points allowed."
  },
  {
   "property": "C14",
   "status": "proved",
   "theorems": [
    "Props.C14_grad_posSemidef"
   ],
   "note": "All three kernels, any mask."
  },
  {
   "property": "C15",
   "status": "proved",
   "theorems": [
    "Props.C15_theta_gamma_inverse",
    "Props.C15_precon_vector",
    "Props.C15_precon_matrix"
   ],
   "note": ""
  },
  {
   "property": "C16",
   "status": "proved",
   "theorems": [
    "Props.C16_rtensor",
    "Props.C16_distances"
   ],
   "note": ""
  },
  {
   "property": "C17",
   "status": "proved",
   "theorems": [
    "Props.C17_covariance_closed_form"
   ],
   "note": ""
  },
  {
   "property": "C18",
   "status": "proved",
   "theorems": [
    "Props.C18_factor_of_covariance"
   ],
   "note": ""
  },
  {
   "property": "C19",
   "status": "proved",
   "theorems": [
    "Props.C19_posDef"
   ],
   "note": ""
  },
  {
   "property": "C20",
   "status": "proved",
   "theorems": [
    "Props.C20_precon_condition_bound"
   ],
   "note": "spectral norm (cond_norm = 2, the default); the nugget is the value calc_nugget returns. CondLe is the Rayleigh-quotient reading of the bound, stated for the covariance rescaled to unit diagonal."
  },
  {
   "property": "C21",
   "status": "proved",
   "theorems": [
    "Props.C21_base_condition_bound"
   ],
   "note": "noise-free data, theta > 0, cond_norm = 2"
  },
  {
   "property": "C22",
   "status": "proved",
   "theorems": [
    "Props.C22_varying_nugget_condition_bound",
    "Props.C22_varying_nugget_object"
   ],
   "note": "any PSD kernel matrix; with preconditioning any noise, without it noise-free data"
  },
  {
   "property": "C23",
   "status": "proved",
   "theorems": [
    "Props.C23_nugget",
    "Props.C23_constant_nugget"
   ],
   "note": "all six conditioning methods; an unknown cond_eta_set_mtd raises and is excluded"
  },
  {
   "property": "C24",
   "status": "partial",
   "theorems": [
    "Props.C24_noise_vector_partial",
    "Props.C24_unknown_noise_without_gradients_raises"
   ],
   "note": "Unknown value noise in a gradient-free model: the code is proved to raise."
  },
  {
   "property": "C25",
   "status": "proved",
   "theorems": [
    "Props.C25_gls_optimum",
    "Props.C25_gls_derivative"
   ],
   "note": "for every full-rank basis matrix; C68 gives the basis matrix"
  },
  {
   "property": "C26",
   "status": "proved",
   "theorems": [
    "Props.C26_closed_form_variance"
   ],
   "note": ""
  },
  {
   "property": "C27",
   "status": "proved",
   "theorems": [
    "Props.C27_gaussian_likelihood"
   ],
   "note": ""
  },
  {
   "property": "C28",
   "status": "proved",
   "theorems": [
    "Props.C28_likelihood_gradient",
    "Props.C28_direct_parts",
    "Props.C28_below_floor_discrepancy"
   ],
   "note": "where the variance is above its floor; below the floor the returned gradient is proved to differ from the derivative"
  },
  {
   "property": "C29",
   "status": "proved",
   "theorems": [
    "Props.C29_adjoint_eq_direct"
   ],
   "note": ""
  },
  {
   "property": "C30",
   "status": "proved",
   "theorems": [
    "Props.C30_noisy_likelihood_gradient"
   ],
   "note": ""
  },
  {
   "property": "C31",
   "status": "partial",
   "theorems": [
    "Props.C31_covariance_gradient_partial",
    "Props.C31_kernel_gradient_partial",
    "Props.C31_varying_nugget_discrepancy"
   ],
   "note": "constant nugget; the kernel combinations excluded by C06-C08 (Matern without gradients, masked squared-exponential and Matern) are excluded; for a varying nugget the returned gradient is proved wrong"
  },
  {
   "property": "C32",
   "status": "proved",
   "theorems": [
    "Props.C32_optimiser_gradient"
   ],
   "note": "consistent data, constant positive nugget, kernel/mask combos whose theta derivative is right (KernSupp); condition number strictly below the failure threshold; noise-free: variance above its floor"
  },
  {
   "property": "C33",
   "status": "proved",
   "theorems": [
    "Props.C33_penalty"
   ],
   "note": ""
  },
  {
   "property": "C34",
   "status": "partial",
   "theorems": [
    "Props.C34_failure_iff",
    "Props.C34_failing_objective_partial",
    "Props.C34_gradient_discrepancy",
    "Props.C34_noisy_frobenius_raises",
    "Props.C34_precon_raises"
   ],
   "note": "the failing objective and its gradient in the natural hyperparameters are proved; the discrepancies (failing gradient not log-transformed, noisy+Frobenius and preconditioned cases raise) are proved as theorems"
  },
  {
   "property": "C35",
   "status": "proved",
   "theorems": [
    "Props.C35_cond_L2_gradient",
    "Props.C35_cond_fro_gradient",
    "Props.C35_constraint_gradient"
   ],
   "note": "spectral norm: positive definite paths with simple extreme eigenvalues and smallest eigenvalue >= 1e-16 (the condition number is not differentiable otherwise); Frobenius: the code itself asserts K[0,0] > 1"
  },
  {
   "property": "C36",
   "status": "partial",
   "theorems": [
    "Props.C36_mean_is_posterior_mean_partial",
    "Props.C36_posterior_with_scaled_noise",
    "Props.C36_noisy_not_posterior",
    "Props.C36_ratQuad_mask_raises"
   ],
   "note": "Noise-free data or varK = 1. For noisy data with varK != 1 the code is proved to condition on noise variances varK*N instead of N (exact posterior for that model) and not to return the posterior. Rational quadratic kernel with a mask that leaves out points raises, unless it selects exactly one (then mean and variance are right)."
  },
  {
   "property": "C37",
   "status": "proved",
   "theorems": [
    "Props.C37_variance_bounds",
    "Props.C37_pipeline_total",
    "Props.C36_posterior_with_scaled_noise"
   ],
   "note": "conditional variance as in C36"
  },
  {
   "property": "C38",
   "status": "proved",
   "theorems": [
    "Props.C38_interpolation"
   ],
   "note": "Rational quadratic: masks that leave out no point, see C39"
  },
  {
   "property": "C39",
   "status": "proved",
   "theorems": [
    "Props.C39_mean_gradient",
    "Props.C39_single_gradient_wrong",
    "Props.C39_single_gradient_example"
   ],
   "note": "in scaled coordinates; original coordinates are C45. Rational quadratic: masks that leave out points raise (C36), or, with one point selected, silently give a wrong gradient: exact error and a concrete case are proved."
  },
  {
   "property": "C40",
   "status": "proved",
   "theorems": [
    "Props.C40_sigma_gradient"
   ],
   "note": "Rational quadratic: masks that leave out no point, see C39"
  },
  {
   "property": "C41",
   "status": "partial",
   "theorems": [
    "Props.C41_hessians_partial",
    "Props.C41_matern_error",
    "Props.C41_partial_mask_raises",
    "Props.C41_several_points_raise"
   ],
   "note": "one point, gradients at all points or at none; Matern with gradients: exact at scaled distance 0 or >= 1e-16 from the data, and within an explicit multiple of 1e-32 of the second derivative everywhere else. Partial masks and several points are proved to raise."
  },
  {
   "property": "C42",
   "status": "proved",
   "theorems": [
    "Props.C42_eval_model_var"
   ],
   "note": "eval_model_var returns variances and their gradient only"
  },
  {
   "property": "C43",
   "status": "proved",
   "theorems": [
    "Props.C43_batch_is_pointwise"
   ],
   "note": ""
  },
  {
   "property": "C44",
   "status": "proved",
   "theorems": [
    "Props.C44_guard_rejects_stale",
    "Props.C44_inplace_change_undetected",
    "Props.C44_equal_copy_rejected",
    "Props.C44_eval_hp",
    "Props.C44_predict_guard"
   ],
   "note": "histories without in-place changes of the hyperparameter arrays; in-place changes are proved to go undetected"
  },
  {
   "property": "C45",
   "status": "partial",
   "theorems": [
    "Props.C45_gradients",
    "Props.C45_hessian_isotropic_partial",
    "Props.C45_hessian_relation",
    "Props.C45_hessian_anisotropic_wrong",
    "Props.C45_pipeline_total"
   ],
   "note": "values, standard deviations and gradients proved; Hessians right only for equal scales (the code multiplies entry [e,i] by s_i^2 instead of s_e*s_i), and the discrepancy is proved"
  },
  {
   "property": "C46",
   "status": "proved",
   "theorems": [
    "Props.C46_points_inverse",
    "Props.C46_objective_inverse",
    "Props.C46_distance_inverse"
   ],
   "note": ""
  },
  {
   "property": "C47",
   "status": "proved",
   "theorems": [
    "Props.C47_min_distance",
    "Props.C47_max_distance"
   ],
   "note": "min: distances at least the 1e-14 tolerance; two or more points"
  },
  {
   "property": "C48",
   "status": "proved",
   "theorems": [
    "Props.C48_objective_scaling"
   ],
   "note": ""
  },
  {
   "property": "C49",
   "status": "proved",
   "theorems": [
    "Props.C49_scaled_data_correspond",
    "Props.C49_rejected_unchanged"
   ],
   "note": "histories of calls that did not raise"
  },
  {
   "property": "C50",
   "status": "proved",
   "theorems": [
    "Props.C50_box_feasible",
    "Props.C50_linear_feasible"
   ],
   "note": ""
  },
  {
   "property": "C51",
   "status": "partial",
   "theorems": [
    "Props.C51_nlc_data_partial",
    "Props.C51_default_options_raise",
    "Props.C51_rescaling_raises"
   ],
   "note": "the property fails: the default options always raise; rescaling after nonlinear-constraint data raises AttributeError and leaves stale data"
  },
  {
   "property": "C52",
   "status": "proved",
   "theorems": [
    "Props.C52_rescaling_keeps_kernel"
   ],
   "note": "smallest stretched distance at least the 1e-15 tolerance"
  },
  {
   "property": "C53",
   "status": "partial",
   "theorems": [
    "Props.C53_kernel_preserved_partial",
    "Props.C53_one_point",
    "Props.C53_eta_vary_changes_kernel",
    "Props.C53_anisotropy_lost"
   ],
   "note": "holds for rescale_origin when the spread of log theta is below the tolerance; proved false otherwise: the second iteration forgets the optimised length scales, and rescale_eta_vary re-scales by 1/vreq"
  },
  {
   "property": "C54",
   "status": "proved",
   "theorems": [
    "Props.C54_layout",
    "Props.C54_rejects",
    "Props.C54_object_layout"
   ],
   "note": ""
  },
  {
   "property": "C55",
   "status": "proved",
   "theorems": [
    "Props.C55_decode",
    "Props.C55_decode_encode",
    "Props.C55_encode_decode",
    "Props.C55_wrong_length"
   ],
   "note": "the one-element array the code stores for the kernel parameter is modelled as a scalar"
  },
  {
   "property": "C56",
   "status": "proved",
   "theorems": [
    "Props.C56_range_bounds",
    "Props.C56_past_bounds",
    "Props.C56_rejects"
   ],
   "note": "options with positive ordered ranges; NaN in the recent history is an assertion error"
  },
  {
   "property": "C57",
   "status": "partial",
   "theorems": [
    "Props.C57_starting_points_partial",
    "Props.C57_no_history",
    "Props.C57_lhs",
    "Props.C57_hp_best",
    "Props.C57_hp_best_raises"
   ],
   "note": "proved when the recent history is made of numbers; proved false in iteration 0 and after a NaN: the box is NaN, without an error"
  },
  {
   "property": "C58",
   "status": "proved",
   "theorems": [
    "Props.C58_best_run",
    "Props.C58_raises",
    "Props.C58_optimised"
   ],
   "note": "raises if all considered runs are NaN, even if a run outside the limit has an objective"
  },
  {
   "property": "C59",
   "status": "proved",
   "theorems": [
    "Props.C59_restore_stored",
    "Props.C59_store_outcome"
   ],
   "note": "an absent kernel parameter comes back as NaN; an index never stored restores NaN silently"
  },
  {
   "property": "C60",
   "status": "partial",
   "theorems": [
    "Props.C60_export_load_partial",
    "Props.C60_no_room",
    "Props.C60_file_raises",
    "Props.C60_damaged_raises"
   ],
   "note": "in-memory export/load proved; saving to or loading from a file always raises AttributeError"
  },
  {
   "property": "C61",
   "status": "proved",
   "theorems": [
    "Props.C61_finish_truncates",
    "Props.C61_finish_negative",
    "Props.C61_not_initialised"
   ],
   "note": ""
  },
  {
   "property": "C62",
   "status": "partial",
   "theorems": [
    "Props.C62_shapes_partial",
    "Props.C62_accepts",
    "Props.C62_points_unchecked",
    "Props.C62_negative_noise"
   ],
   "note": "Shapes of values, gradients and deviations are checked and consistent data are accepted. Discrepancies proved: the shape of the points is not checked against the values, and negative deviations are accepted as noise-free."
  },
  {
   "property": "C63",
   "status": "proved",
   "theorems": [
    "Props.C63_classification"
   ],
   "note": "All inputs."
  },
  {
   "property": "C64",
   "status": "proved",
   "theorems": [
    "Props.C64_callbacks_fresh",
    "Props.C64_history_independent"
   ],
   "note": ""
  },
  {
   "property": "C65",
   "status": "partial",
   "theorems": [
    "Props.C65_request",
    "Props.C65_history_partial",
    "Props.C65_sticky"
   ],
   "note": "Discrepancy proved: after rescale_eta_vary the varying nugget stays switched on for later methods."
  },
  {
   "property": "C66",
   "status": "partial",
   "theorems": [
    "Props.C66_rejects",
    "Props.C66_set",
    "Props.C66_current",
    "Props.C66_stored",
    "Props.C66_optz",
    "Props.C66_set_total",
    "Props.C66_positive_variance_partial",
    "Props.C66_set_unchecked",
    "Props.C66_negative_iteration"
   ],
   "note": "All programs of calls. Missing: varK > 0 after set_hpara('set'), which is false (C66_set_unchecked); NaN hyperparameters are not modelled."
  },
  {
   "property": "C67",
   "status": "partial",
   "theorems": [
    "Props.C67_init_partial",
    "Props.C67_ready",
    "Props.C67_zero_noise"
   ],
   "note": "Discrepancy proved: the initial noise variance is 0, outside of its range."
  },
  {
   "property": "C68",
   "status": "proved",
   "theorems": [
    "Props.C68_basis_matrix",
    "Props.C68_mean_function"
   ],
   "note": "number of coefficients 1 or dim+1 (orders 0 and 1, the ones calc_vand supports); set_mean_fun_op only accepts order 0"
  },
  {
   "property": "C69",
   "status": "proved",
   "theorems": [
    "Props.C69_data_vector",
    "Props.C69_aligned_with_kernel"
   ],
   "note": ""
  },
  {
   "property": "C71",
   "status": "proved",
   "theorems": [
    "Props.C71_optimised_restored"
   ],
   "note": "All programs."
  },
  {
   "property": "C72",
   "status": "proved",
   "theorems": [
    "Props.C72_few_points"
   ],
   "note": ""
  },
  {
   "property": "C73",
   "status": "proved",
   "theorems": [
    "Props.C73_closed_form"
   ],
   "note": "Any kernel, mask and nugget (constant or varying); admissible hyperparameters."
  },
  {
   "property": "C74",
   "status": "proved",
   "theorems": [
    "Props.C74_end_to_end",
    "Props.C74_total",
    "Props.C74_stale_data",
    "Props.C74_failed_call_mixes"
   ],
   "note": "Without data scaling; noise of the values known or gradients used (C24); RatQuad with masks that leave out no point (C36); mean and standard deviation. Discrepancies proved: new data without a new set_hpara are ignored, and a set_hpara that raises leaves a mixture of old and new hyperparameters."
  },
  {
   "property": "C75",
   "status": "proved",
   "theorems": [
    "Props.C75_posterior_original_units",
    "Props.C75_end_to_end",
    "Props.C75_total"
   ],
   "note": "Rescaling objects; noise of the values known or gradients used (C24); RatQuad with masks that leave out no point; positive requested distances; for the largest-distance method the points must not coincide."
  },
  {
   "property": "C76",
   "status": "proved",
   "theorems": [
    "Props.C76_scaled_data"
   ],
   "note": ""
  },
  {
   "property": "C77",
   "status": "proved",
   "theorems": [
    "Props.C77_optimised_row",
    "Props.C77_precon_bound"
   ],
   "note": "Best run and condition number outside of the rescaling iterations; positive nugget."
  },
  {
   "property": "C78",
   "status": "proved",
   "theorems": [
    "Props.C78_optimisation_succeeds"
   ],
   "note": "Methods that do not rescale (or a single rescaling iteration); starting points lhs, or hp_best with preconditioning or for gradient-free data with even noise (C99); recent history rows are numbers (C79 discharges this)."
  },
  {
   "property": "C79",
   "status": "proved",
   "theorems": [
    "Props.C79_loop"
   ],
   "note": "Objects without rescaling; first data set with at most hp_const_n_eval points; starting points lhs, or hp_best with preconditioning or for gradient-free data with even noise (C99). exLoop instantiates it for every n."
  },
  {
   "property": "C80",
   "status": "proved",
   "theorems": [
    "Props.C80_rearranged",
    "Props.C80_order",
    "Props.C80_factor",
    "Props.C80_hessian"
   ],
   "note": "For objects ready for prediction; with the rational quadratic kernel the gradient mask leaves out no point. C80_factor: the check of the condition number is off or preconditioning on."
  },
  {
   "property": "C81",
   "status": "proved",
   "theorems": [
    "Props.C81_translation",
    "Props.C80_factor",
    "Props.C80_hessian"
   ],
   "note": "As C80."
  },
  {
   "property": "C82",
   "status": "proved",
   "theorems": [
    "Props.C82_sigma",
    "Props.C82_mean_linear"
   ],
   "note": "As C80; the prior mean is a given hyperparameter here (when it is estimated, C27 applies)."
  },
  {
   "property": "C83",
   "status": "proved",
   "theorems": [
    "Props.C83_more_data",
    "Props.C83_nugget",
    "Props.C83_varying_nugget"
   ],
   "note": "C83_varying_nugget shows that the property fails with the varying nugget."
  },
  {
   "property": "C84",
   "status": "proved",
   "theorems": [
    "Props.C84_far_away",
    "Props.C84_flat",
    "Props.C84_hessians"
   ],
   "note": "C84_flat, C84_hessians: the rational quadratic kernel with all gradients used or none (as for C39, C40)."
  },
  {
   "property": "C85",
   "status": "proved",
   "theorems": [
    "Props.C85_repeated_points"
   ],
   "note": ""
  },
  {
   "property": "C86",
   "status": "proved",
   "theorems": [
    "Props.C86_set_data",
    "Props.C86_programs",
    "Props.C86_recovers",
    "Props.C86_predictions",
    "Props.C86_rejected_damages"
   ],
   "note": "C86_rejected_damages: until data are accepted again the object is inconsistent."
  },
  {
   "property": "C87",
   "status": "partial",
   "theorems": [
    "Props.C87_inverse",
    "Props.C87_values_and_gradients",
    "Props.C87_hessian_iff",
    "Props.C87_absent_values_raise"
   ],
   "note": "Inverses, values and gradients hold in full; C87_hessian_iff: mixed second derivatives are right exactly for equal scales; C87_absent_values_raise: absent values or standard deviations raise."
  },
  {
   "property": "C88",
   "status": "proved",
   "theorems": [
    "Props.C88_points_round_trip",
    "Props.C88_objective_round_trip",
    "Props.C88_constraints_round_trip",
    "Props.C88_available"
   ],
   "note": ""
  },
  {
   "property": "C89",
   "status": "proved",
   "theorems": [
    "Props.C89_constraint_signs"
   ],
   "note": ""
  },
  {
   "property": "C90",
   "status": "proved",
   "theorems": [
    "Props.C90_separate_runs",
    "Props.C90_history_irrelevant",
    "Props.C90_refines",
    "Props.C90_protocol"
   ],
   "note": "The minimiser is an arbitrary terminating program that calls the callbacks; NaN in its questions is not modelled."
  },
  {
   "property": "C91",
   "status": "proved",
   "theorems": [
    "Props.C91_best_end_point",
    "Props.C91_not_worse_than_start",
    "Props.C91_order_irrelevant",
    "Props.C91_recorded_cond",
    "Props.C91_constraint_meaning"
   ],
   "note": "Meaning and recorded value of the condition number in the spectral norm (the default) without preconditioning (with which there is no constraint)."
  },
  {
   "property": "C92",
   "status": "partial",
   "theorems": [
    "Props.C92_statistics",
    "Props.C92_useless_statistics",
    "Props.C92_useless_history"
   ],
   "note": "Missing because false of the code: the largest condition number at the starting points is always NaN and the number of failed factorisations always 0."
  },
  {
   "property": "C93",
   "status": "proved",
   "theorems": [
    "Props.C93_second_run",
    "Props.C93_no_other_run"
   ],
   "note": ""
  },
  {
   "property": "C94",
   "status": "proved",
   "theorems": [
    "Props.C94_predictions",
    "Props.C94_total",
    "Props.C94_recovers",
    "Props.C94_predictions_unscaled",
    "Props.C94_recovers_unscaled"
   ],
   "note": "For the rational quadratic kernel with a gradient at every point (elsewhere wrong: C39). The unit factor of the noise under preconditioning is explicit, as in C76. NaN hyperparameters are not modelled."
  },
  {
   "property": "C95",
   "status": "proved",
   "theorems": [
    "Props.C95_rescaling_succeeds"
   ],
   "note": "With hp_best starting points, that one of them can be chosen is a hypothesis (C57 says when)."
  },
  {
   "property": "C96",
   "status": "proved",
   "theorems": [
    "Props.C96_loop"
   ],
   "note": "With hp_best starting points, that one of them can be chosen is a hypothesis (C57 says when)."
  },
  {
   "property": "C97",
   "status": "proved",
   "theorems": [
    "Props.C97_same_arrays",
    "Props.C97_same_derivatives",
    "Props.C97_joint_covariance",
    "Props.C97_theta_derivative",
    "Props.C97_alpha_derivative",
    "Props.C97_grad_x"
   ],
   "note": ""
  },
  {
   "property": "C98",
   "status": "partial",
   "theorems": [
    "Props.C98_summary",
    "Props.C98_theta",
    "Props.C98_optz",
    "Props.C98_after_stores",
    "Props.C98_too_early",
    "Props.C98_save_raises"
   ],
   "note": "The tables are proved; what is not so is saving them: get_txt_info_surr with save2file calls a method that exists nowhere (C98_save_raises)."
  },
  {
   "property": "C99",
   "status": "proved",
   "theorems": [
    "Props.C99_always_well_conditioned",
    "Props.C99_recorded"
   ],
   "note": "Spectral norm; the starting-point part is the gradient-free case of C78 and C79 (exFreeLoop instantiates it for every n)."
  },
  {
   "property": "C100",
   "status": "proved",
   "theorems": [
    "Props.C100_likelihood",
    "Props.C100_objective",
    "Props.C100_ranking",
    "Props.C100_penalty_units_discrepancy"
   ],
   "note": ""
  },
  {
   "property": "C101",
   "status": "partial",
   "theorems": [
    "Props.C101_units_partial",
    "Props.C101_noise_units_discrepancy"
   ],
   "note": "Proved for noise-free data and for units of size one (sign, origin, order); for noisy data in units of another size it is false of the code (C101_noise_units_discrepancy), because the noise variances are not divided by the process variance."
  },
  {
   "property": "C102",
   "status": "proved",
   "theorems": [
    "Props.C102_predictions",
    "Props.C102_likelihood"
   ],
   "note": "For every permutation and reflection of the coordinates. The log likelihood is compared without its gradient; Hessians under the conditions under which they can be requested."
  },
  {
   "property": "C103",
   "status": "proved",
   "theorems": [
    "Props.C103_predictions",
    "Props.C103_likelihood",
    "Props.C103_base_units_discrepancy"
   ],
   "note": "C103_base_units_discrepancy proves the last sentence: without preconditioning, for one noise-free point with its gradient and a constant nugget, the predicted derivatives never follow the units."
  },
  {
   "property": "C104",
   "status": "proved",
   "theorems": [
    "Props.C104_converges",
    "Props.C104_converges_scalar",
    "Props.C104_accuracy",
    "Props.C104_exact",
    "Props.C104_refuses",
    "Props.C104_predicted_mean"
   ],
   "note": "Exact arithmetic: the loss of accuracy for very small steps by rounding is outside the model. The two handles are pure functions."
  },
  {
   "property": "C105",
   "status": "proved",
   "theorems": [
    "Props.C105_running_min",
    "Props.C105_running_max",
    "Props.C105_refuses"
   ],
   "note": "Entry i is NaN also when no number follows at i or later: the history ends with the last number."
  },
  {
   "property": "C106",
   "status": "proved",
   "theorems": [
    "Props.C106_expected_improvement",
    "Props.C106_improvement_order",
    "Props.C106_confidence_bound"
   ],
   "note": "norm.cdf and norm.pdf are modelled as the distribution function and density of the standard normal distribution."
  },
  {
   "property": "C107",
   "status": "proved",
   "theorems": [
    "Props.C107_curves",
    "Props.C107_surface",
    "Props.C107_bounds",
    "Props.C107_surface_ignores_arguments"
   ],
   "note": ""
  },
  {
   "property": "C108",
   "status": "proved",
   "theorems": [
    "Props.C108_objective",
    "Props.C108_gradient",
    "Props.C108_one_variable",
    "Props.C108_minimum",
    "Props.C108_sine"
   ],
   "note": ""
  },
  {
   "property": "C109",
   "status": "proved",
   "theorems": [
    "Props.C109_scaled_to_unit",
    "Props.C109_acquisition_scaled",
    "Props.C109_grid_maximum",
    "Props.C109_axes_swapped"
   ],
   "note": "The likelihood at a grid point is an arbitrary function of the two length scales (its own properties: C27-C35)."
  },
  {
   "property": "C110",
   "status": "proved",
   "theorems": [
    "Props.C110_limit",
    "Props.C110_order"
   ],
   "note": ""
  },
  {
   "property": "C111",
   "status": "proved",
   "theorems": [
    "Props.C111_continuous",
    "Props.C111_accepted_closed",
    "Props.C111_maximum",
    "Props.C111_objective"
   ],
   "note": ""
  },
  {
   "property": "C112",
   "status": "proved",
   "theorems": [
    "Props.C112_predictions"
   ],
   "note": ""
  },
  {
   "property": "C113",
   "status": "proved",
   "theorems": [
    "Props.C113_likelihood",
    "Props.C113_predictions"
   ],
   "note": "Likelihood without a condition-number test or with the preconditioned method; predictions need a gradient mask that leaves out no point (otherwise the rational quadratic kernel raises, C04)."
  },
  {
   "property": "C114",
   "status": "proved",
   "theorems": [
    "Props.C114_first_order",
    "Props.C114_solution"
   ],
   "note": "Without a condition-number constraint for the existence; the first-order conditions also with the constraint where it is not active. For noise-free data the optimal prior variance must be above the floor, and the points separated for the Matern kernel, as in C32."
  },
  {
   "property": "C115",
   "status": "proved",
   "theorems": [
    "Props.C115_believer",
    "Props.C115_nugget"
   ],
   "note": "C115_believer: constant nugget; C115_nugget: any two models with the same nugget."
  },
  {
   "property": "C116",
   "status": "proved",
   "theorems": [
    "Props.C116_unbounded_noise"
   ],
   "note": ""
  },
  {
   "property": "C117",
   "status": "proved",
   "theorems": [
    "Props.C117_best_linear",
    "Props.C117_scaled_noise"
   ],
   "note": "C117_scaled_noise states it for noisy data, with the noise that the code in fact uses (varK times the given variance, see C36)."
  },
  {
   "property": "C118",
   "status": "proved",
   "theorems": [
    "Props.C118_least_nugget",
    "Props.C118_compared_nuggets",
    "Props.C118_library_nuggets",
    "Props.C118_diagdom_flag"
   ],
   "note": "Condition-number-based nuggets under invertibility of the matrix (the script gets NaN otherwise). C118_diagdom_flag records that the diagonal-dominance test includes the diagonal and is therefore met only by the identity."
  },
  {
   "property": "C119",
   "status": "proved",
   "theorems": [
    "Props.C119_best_unbiased",
    "Props.C119_reported_variance_discrepancy"
   ],
   "note": ""
  },
  {
   "property": "C120",
   "status": "proved",
   "theorems": [
    "Props.C120_loaded",
    "Props.C120_refuses",
    "Props.C120_band"
   ],
   "note": ""
  },
  {
   "property": "C121",
   "status": "proved",
   "theorems": [
    "Props.C121_stability",
    "Props.C121_values"
   ],
   "note": ""
  },
  {
   "property": "C122",
   "status": "proved",
   "theorems": [
    "Props.C122_exact",
    "Props.C122_noisy",
    "Props.C122_sections"
   ],
   "note": ""
  },
  {
   "property": "C123",
   "status": "proved",
   "theorems": [
    "Props.C123_smoothest",
    "Props.C123_unique"
   ],
   "note": ""
  },
  {
   "property": "C124",
   "status": "proved",
   "theorems": [
    "Props.C124_sigma",
    "Props.C124_mean"
   ],
   "note": ""
  },
  {
   "property": "C125",
   "status": "proved",
   "theorems": [
    "Props.C125_near_data"
   ],
   "note": ""
  },
  {
   "property": "C126",
   "status": "proved",
   "theorems": [
    "Props.C126_average",
    "Props.C126_certain"
   ],
   "note": ""
  },
  {
   "property": "C127",
   "status": "proved",
   "theorems": [
    "Props.C127_consistent"
   ],
   "note": ""
  },
  {
   "property": "C128",
   "status": "proved",
   "theorems": [
    "Props.C128_floor",
    "Props.C128_values"
   ],
   "note": ""
  },
  {
   "property": "C129",
   "status": "proved",
   "theorems": [
    "Props.C129_sigma",
    "Props.C129_mean",
    "Props.C129_slopes"
   ],
   "note": ""
  },
  {
   "property": "C130",
   "status": "proved",
   "theorems": [
    "Props.C130_risk",
    "Props.C130_consistent"
   ],
   "note": ""
  },
  {
   "property": "C131",
   "status": "proved",
   "theorems": [
    "Props.C131_accurate",
    "Props.C131_gradient",
    "Props.C131_raises"
   ],
   "note": "Only the two linear solves are inexact (model evalModelBy, equal to evalModel for exact solutions by GP.evalModelBy_exact); all other arithmetic is exact."
  },
  {
   "property": "C132",
   "status": "proved",
   "theorems": [
    "Props.C132_scan",
    "Props.C132_most_likely",
    "Props.C132_above_limit",
    "Props.C132_too_few",
    "Props.C132_empty",
    "Props.C132_ratquad_raises",
    "Props.C132_local_maxima"
   ],
   "note": "Plotting and file names are not modelled; the dimension is 1 and the data are noise-free, as in the script."
  },
  {
   "property": "C133",
   "status": "proved",
   "theorems": [
    "Props.C133_acquisition_figure"
   ],
   "note": "Drawing is not modelled; the dimension is 1 and the data are noise-free, as in the script."
  },
  {
   "property": "C134",
   "status": "proved",
   "theorems": [
    "Props.C134_grid",
    "Props.C134_above_limit"
   ],
   "note": "Without noise for data whose variance is above its lower limit in every cell (C134_above_limit) and the penalty off (the default). Drawing is not modelled."
  },
  {
   "property": "C135",
   "status": "proved",
   "theorems": [
    "Props.C135_inexact_factor",
    "Props.C135_within_limit"
   ],
   "note": "For kernels and hyperparameters as in C26/C27, gradients or known values, and a given noise variance. The perturbation is of the matrix whose condition number is reported (unit diagonal with preconditioning, scaled back afterwards); the other steps (triangular solves, sums) are exact. C135_within_limit: without preconditioning, uniform in the hyperparameters."
  },
  {
   "property": "C136",
   "status": "proved",
   "theorems": [
    "Props.C136_inexact_factor",
    "Props.C136_gradient",
    "Props.C136_variance",
    "Props.C136_within_limit",
    "Props.C136_raises"
   ],
   "note": "The perturbation is of the factorised matrix (unit diagonal with preconditioning, scaled back afterwards) and the weights and the solves for each point use the same factor exactly; errors of the triangular solves are C131. C136_gradient and C136_variance: the rational quadratic kernel with all gradients used or none. Gradients of the standard deviation and Hessians are not bounded."
  },
  {
   "property": "C137",
   "status": "proved",
   "theorems": [
    "Props.C137_recorded",
    "Props.C137_optional"
   ],
   "note": "For models ready for evaluation (ReadyV) with a positive nugget. Gradients are requested or not; Hessians are not requested."
  },
  {
   "property": "C138",
   "status": "partial",
   "theorems": [
    "Props.C138_contour_partial",
    "Props.C138_never_drawn"
   ],
   "note": "False of the code: the contour is requested exactly if some condition number is above the limit, at the level log10(cond_max), but of the table of scaled likelihoods, whose numbers are all at most 1 and thus below that level, so no line is drawn (proved for every table and limit above 10). Drawing itself is not modelled, only the table and the level passed to ax.contour."
  }
 ]
}