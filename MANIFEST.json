{
 "claims": [
  {
   "property": "C01",
   "status": "proved",
   "theorems": [
    "SafeLearning.GridWorld.C01_index_roundtrip",
    "SafeLearning.GridWorld.C01_index_roundtrip_robust"
   ],
   "note": "Exact arithmetic; the robust theorem covers any perturbation below half a cell."
  },
  {
   "property": "C02",
   "status": "proved",
   "theorems": [
    "SafeLearning.GridWorld.C02_state_to_index_nearest"
   ],
   "note": "Includes states outside the limits."
  },
  {
   "property": "C03",
   "status": "proved",
   "theorems": [
    "SafeLearning.GridWorld.C03_all_points_enumerates",
    "SafeLearning.GridWorld.C03_all_points_nodup"
   ],
   "note": ""
  },
  {
   "property": "C04",
   "status": "proved",
   "theorems": [
    "SafeLearning.GridWorld.C04_state_to_rectangle_contains",
    "SafeLearning.GridWorld.C04_state_to_rectangle_inside"
   ],
   "note": ""
  },
  {
   "property": "C05",
   "status": "proved",
   "theorems": [
    "SafeLearning.GridWorld.C05_rectangle_consistent"
   ],
   "note": ""
  },
  {
   "property": "C06",
   "status": "proved",
   "theorems": [
    "SafeLearning.GridWorld.C06_constructor",
    "SafeLearning.GridWorld.C06_constructor_scalar",
    "SafeLearning.GridWorld.C06_state_to_index_rejects",
    "SafeLearning.GridWorld.C06_index_to_state_rejects"
   ],
   "note": ""
  },
  {
   "property": "C07",
   "status": "proved",
   "theorems": [
    "SafeLearning.GridWorld.C07_sample_continuous",
    "SafeLearning.GridWorld.C07_sample_continuous_surjective",
    "SafeLearning.GridWorld.C07_sample_discrete"
   ],
   "note": "The random generator is a parameter with range [0,1) resp. range(nindex)."
  },
  {
   "property": "C08",
   "status": "proved",
   "theorems": [
    "SafeLearning.C08_nearest_value",
    "SafeLearning.C08_grid_points",
    "SafeLearning.C08_parameter_derivative",
    "SafeLearning.C08_gradient",
    "SafeLearning.C08_too_few_values",
    "SafeLearning.C08_parameters_rows"
   ],
   "note": ""
  },
  {
   "property": "C09",
   "status": "proved",
   "theorems": [
    "SafeLearning.C09_construction",
    "SafeLearning.C09_weights_barycentric",
    "SafeLearning.C09_construction_iff"
   ],
   "note": "_EPS is positive and at most a quarter of a cell. scipy.spatial.Delaunay is a parameter: non-degenerate simplices with corners of the unit rectangle as vertices, and find_simplex returns a simplex containing the point. The class for one dimension is proved to satisfy this. The construction succeeds exactly if no simplex is degenerate, otherwise it raises (C09_construction_iff)."
  },
  {
   "property": "C10",
   "status": "proved",
   "theorems": [
    "SafeLearning.C10_affine_exact"
   ],
   "note": "_EPS is positive and at most a quarter of a cell. scipy.spatial.Delaunay is a parameter: non-degenerate simplices with corners of the unit rectangle as vertices, and find_simplex returns a simplex containing the point. The class for one dimension is proved to satisfy this."
  },
  {
   "property": "C11",
   "status": "proved",
   "theorems": [
    "SafeLearning.C11_interpolates",
    "SafeLearning.C11_linear_1d"
   ],
   "note": "2 * _EPS relative to the cell lengths adds up to less than one. scipy.spatial.Delaunay is a parameter: non-degenerate simplices with corners of the unit rectangle as vertices, and find_simplex returns a simplex containing the point. The class for one dimension is proved to satisfy this."
  },
  {
   "property": "C12",
   "status": "proved",
   "theorems": [
    "SafeLearning.C12_weights_nonneg",
    "SafeLearning.C12_maximum_principle",
    "SafeLearning.C12_weights_boundary",
    "SafeLearning.C12_weights_nonneg_1d",
    "SafeLearning.C12_strip_negative"
   ],
   "note": "_EPS is positive and at most a quarter of a cell. Non-negative weights at least 2 * _EPS inside the domain and, in one dimension, everywhere; in the strip of several dimensions single weights can be negative (C12_strip_negative) but their absolute sum is at most one plus a multiple of _EPS (C12_weights_boundary). scipy.spatial.Delaunay is a parameter: non-degenerate simplices with corners of the unit rectangle as vertices, and find_simplex returns a simplex containing the point. The class for one dimension is proved to satisfy this."
  },
  {
   "property": "C13",
   "status": "proved",
   "theorems": [
    "SafeLearning.C13_parameter_derivative"
   ],
   "note": "_EPS is positive and at most a quarter of a cell. scipy.spatial.Delaunay is a parameter: non-degenerate simplices with corners of the unit rectangle as vertices, and find_simplex returns a simplex containing the point. The class for one dimension is proved to satisfy this."
  },
  {
   "property": "C14",
   "status": "proved",
   "theorems": [
    "SafeLearning.C14_gradient_is_slope",
    "SafeLearning.C14_gradient_affine",
    "SafeLearning.C14_gradient_parameter_derivative",
    "SafeLearning.C14_arguments"
   ],
   "note": "With project=True outside the domain the gradient is that of the simplex, not of the projected function; the theorem is about clipped points. Row order of gradient_parameter_derivative is point * ndim + dimension (the docstring has the opposite order). scipy.spatial.Delaunay is a parameter: non-degenerate simplices with corners of the unit rectangle as vertices, and find_simplex returns a simplex containing the point. The class for one dimension is proved to satisfy this."
  },
  {
   "property": "C15",
   "status": "proved",
   "theorems": [
    "SafeLearning.C15_find_simplex_valid",
    "SafeLearning.C15_simplices_valid"
   ],
   "note": "_EPS is positive and at most a quarter of a cell. scipy.spatial.Delaunay is a parameter: non-degenerate simplices with corners of the unit rectangle as vertices, and find_simplex returns a simplex containing the point. The class for one dimension is proved to satisfy this."
  },
  {
   "property": "C16",
   "status": "proved",
   "theorems": [
    "SafeLearning.C16_projection"
   ],
   "note": "No assumption on the triangulation library."
  },
  {
   "property": "C17",
   "status": "proved",
   "theorems": [
    "SafeLearning.C17_tf_agrees",
    "SafeLearning.C17_tf_gradient_is_slope",
    "SafeLearning.C17_tf_gradient_affine"
   ],
   "note": "No assumption on the triangulation library or the grid."
  },
  {
   "property": "C18",
   "status": "partial",
   "theorems": [
    "SafeLearning.C18_well_defined",
    "SafeLearning.C18_tiling_1d",
    "SafeLearning.C18_tiling_2d",
    "SafeLearning.C18_continuous",
    "SafeLearning.C18_continuous_1d",
    "SafeLearning.C18_continuous_2d",
    "SafeLearning.C18_continuous_1d_everywhere",
    "SafeLearning.C18_boundary_2d_refuted",
    "SafeLearning.C18_continuous_3d_refuted"
   ],
   "note": "One dimension: continuous everywhere. Two dimensions, and every dimension in which the copies of the unit triangulation meet in common faces: continuous at least 2 * _EPS away from the boundary. Refuted in the strip at the boundary of two dimensions, and in three dimensions for a proper triangulation of one rectangle into five simplices."
  },
  {
   "property": "C19",
   "status": "proved",
   "theorems": [
    "SafeLearning.Lyap.C19_safe_set_sound"
   ],
   "note": "Objects reached by any history of update_safe_set/update_values calls; no adaptive refinement in the last call (see C28 for that). np.argsort is a parameter with a sorting contract."
  },
  {
   "property": "C20",
   "status": "proved",
   "theorems": [
    "SafeLearning.Lyap.C20_largest_level_set",
    "SafeLearning.Lyap.C20_batch_independent"
   ],
   "note": "Exact characterisation and batch independence of the safe set and the refinement. Ties of the values make the level set non-unique; Spec.IsLargestLevelSet.unique covers distinct values."
  },
  {
   "property": "C21",
   "status": "proved",
   "theorems": [
    "SafeLearning.Lyap.C21_initial_set_kept"
   ],
   "note": "For all histories, including attribute assignments and calls that raise."
  },
  {
   "property": "C22",
   "status": "partial",
   "theorems": [
    "SafeLearning.Lyap.C22_cannot_shrink_partial",
    "SafeLearning.Lyap.C22_cannot_shrink_refuted"
   ],
   "note": "The code violates the property when the Lyapunov values change between calls (refuted with a concrete history). Proved for histories in which the values do not change, adaptive or not."
  },
  {
   "property": "C23",
   "status": "partial",
   "theorems": [
    "SafeLearning.FltLyap.C23_c_max_refuted_nan",
    "SafeLearning.Lyap.C23_c_max_partial",
    "SafeLearning.Lyap.C23_c_max_wraps_when_nothing_certified",
    "SafeLearning.Lyap.C23_c_max_refuted_too_small",
    "SafeLearning.Lyap.C23_c_max_refuted_too_large"
   ],
   "note": "The code violates the property in two situations (nothing certified: c_max is the maximum over the grid; everything certified and several batches: c_max is too small). Proved in all other situations."
  },
  {
   "property": "C24",
   "status": "proved",
   "theorems": [
    "SafeLearning.Lyap.C24_history_independent",
    "SafeLearning.Lyap.C24_idempotent"
   ],
   "note": ""
  },
  {
   "property": "C25",
   "status": "proved",
   "theorems": [
    "SafeLearning.C25_decrease_in_cell",
    "SafeLearning.C25_decrease_in_cell_local",
    "SafeLearning.C25_local_lipschitz_refuted"
   ],
   "note": "Proved for global constants as stated, for any distance function. C25_local_lipschitz_refuted shows that with callables returning local constants the threshold is not sound; C25_decrease_in_cell_local states what a local constant must satisfy."
  },
  {
   "property": "C26",
   "status": "proved",
   "theorems": [
    "SafeLearning.C26_v_decrease_bound_upper",
    "SafeLearning.C26_v_decrease_bound_constant",
    "SafeLearning.C26_v_decrease_bound_exact"
   ],
   "note": ""
  },
  {
   "property": "C27",
   "status": "proved",
   "theorems": [
    "SafeLearning.C27_reaches_initial_set",
    "SafeLearning.C27_forward_invariant",
    "SafeLearning.C27_c_max_level"
   ],
   "note": "For grids, any history, uncertain dynamics with confidence bounds at the grid states, 1-norm. The level set must lie inside the grid."
  },
  {
   "property": "C28",
   "status": "partial",
   "theorems": [
    "SafeLearning.Lyap.C28_refined_state_partial",
    "SafeLearning.Lyap.C28_refined_points_refuted",
    "SafeLearning.Lyap.C28_adaptive_needs_initial_set",
    "SafeLearning.C28_refined_points_cover",
    "SafeLearning.C28_refined_check"
   ],
   "note": "The code violates the property: the refined points are computed but not used (refuted). Proved: what the refined check does establish at the grid state."
  },
  {
   "property": "C29",
   "status": "partial",
   "theorems": [
    "SafeLearning.Lyap.C29_later_assignments_ignored",
    "SafeLearning.Lyap.C29_arguments_take_effect_refuted",
    "SafeLearning.Lyap.C29_adaptive_change_raises",
    "SafeLearning.Lyap.C29_arguments_take_effect_partial"
   ],
   "note": "The code violates the property: policy, dynamics, tau, adaptive and safety_factor are captured by the first call (refuted). Proved for histories without attribute assignment and without adaptive refinement."
  },
  {
   "property": "C30",
   "status": "proved",
   "theorems": [
    "SafeLearning.Lyap.C30_is_safe_nearest",
    "SafeLearning.Lyap.C30_is_safe_grid_point"
   ],
   "note": ""
  },
  {
   "property": "C31",
   "status": "proved",
   "theorems": [
    "SafeLearning.C31_smallest_boundary_value"
   ],
   "note": ""
  },
  {
   "property": "C32",
   "status": "partial",
   "theorems": [
    "SafeLearning.C32_region_partial",
    "SafeLearning.C32_python3_refuted",
    "SafeLearning.C32_outside",
    "SafeLearning.C32_border_start_refuted"
   ],
   "note": "Proved for Python 2 and an interior start node; on Python 3 the function raises (C32_python3_refuted) and a start node on the lower border is not recognised (C32_border_start_refuted)."
  },
  {
   "property": "C33",
   "status": "partial",
   "theorems": [
    "SafeLearning.C33_increasing_partial",
    "SafeLearning.C33_increasing_connected_partial",
    "SafeLearning.C33_refuted",
    "SafeLearning.C33_ties_refuted"
   ],
   "note": "The code violates the property (C33_refuted: the last popped node may have a lower value). Proved: values increase along the search otherwise."
  },
  {
   "property": "C34",
   "status": "proved",
   "theorems": [
    "SafeLearning.SampleSystem.C34_safe_sample",
    "SafeLearning.SampleSystem.C34_safe_sample_actions",
    "SafeLearning.SampleSystem.C34_true_next_state_inside"
   ],
   "note": ""
  },
  {
   "property": "C35",
   "status": "proved",
   "theorems": [
    "SafeLearning.SampleSystem.C35_most_uncertain",
    "SafeLearning.SampleSystem.C35_most_uncertain_subsampled"
   ],
   "note": ""
  },
  {
   "property": "C36",
   "status": "partial",
   "theorems": [
    "SafeLearning.SampleSystem.C36_backup",
    "SafeLearning.SampleSystem.C36_backup_subsampled",
    "SafeLearning.SampleSystem.C36_returns",
    "SafeLearning.SampleSystem.C36_actions_refuted"
   ],
   "note": "The backup and result properties are proved; C36_actions_refuted: with an explicit action list the fallback is not reached, the call raises."
  },
  {
   "property": "C37",
   "status": "proved",
   "theorems": [
    "SafeLearning.C37_perturb_no_limits",
    "SafeLearning.C37_perturb_limits",
    "SafeLearning.C37_perturb_mismatch"
   ],
   "note": ""
  },
  {
   "property": "C38",
   "status": "proved",
   "theorems": [
    "SafeLearning.C38_batchify_partitions",
    "SafeLearning.C38_batchify_many",
    "SafeLearning.C38_batchify_many_partitions",
    "SafeLearning.C38_batchify_zero"
   ],
   "note": ""
  },
  {
   "property": "C39",
   "status": "proved",
   "theorems": [
    "SafeLearning.C39_combinations",
    "SafeLearning.C39_linearly_spaced"
   ],
   "note": ""
  },
  {
   "property": "C40",
   "status": "partial",
   "theorems": [
    "SafeLearning.C40_storage_partial",
    "SafeLearning.C40_mixed_refuted"
   ],
   "note": "Proved for methods that use storage always with or always without an index; mixing both loses entries (refuted)."
  },
  {
   "property": "C41",
   "status": "proved",
   "theorems": [
    "SafeLearning.C41_same_object",
    "SafeLearning.C41_writes_visible",
    "SafeLearning.C41_fresh"
   ],
   "note": ""
  },
  {
   "property": "C42",
   "status": "proved",
   "theorems": [
    "SafeLearning.C42_unique_rows",
    "SafeLearning.C42_unique_rows_values",
    "SafeLearning.C42_signed_zero_kept"
   ],
   "note": ""
  },
  {
   "property": "C43",
   "status": "proved",
   "theorems": [
    "SafeLearning.C43_trajectory",
    "SafeLearning.C43_no_steps"
   ],
   "note": "Objects are functions of the TensorFlow variables; one graph."
  },
  {
   "property": "C44",
   "status": "proved",
   "theorems": [
    "SafeLearning.C44_dlqr_closed_loop",
    "SafeLearning.C44_dlqr_minimises",
    "SafeLearning.C44_dlqr_decrease"
   ],
   "note": "The Riccati solver is a parameter with the Riccati equation as contract."
  },
  {
   "property": "C45",
   "status": "proved",
   "theorems": [
    "SafeLearning.C45_lqr_closed_loop",
    "SafeLearning.C45_lqr_decrease"
   ],
   "note": "The Riccati solver is a parameter with the Riccati equation as contract."
  },
  {
   "property": "C46",
   "status": "proved",
   "theorems": [
    "SafeLearning.C46_weights_in_bounds",
    "SafeLearning.C46_gradient_clipping"
   ],
   "note": "The TensorFlow read of the variable may be before or after the optimisation step. Distinct variables."
  },
  {
   "property": "C47",
   "status": "proved",
   "theorems": [
    "SafeLearning.C47_concatenates",
    "SafeLearning.C47_transparent",
    "SafeLearning.C47_rejects",
    "SafeLearning.C47_tensor_rank",
    "SafeLearning.C47_single_rows"
   ],
   "note": ""
  },
  {
   "property": "C48",
   "status": "partial",
   "theorems": [
    "SafeLearning.C48_positions_on_ellipse",
    "SafeLearning.C48_refuted",
    "SafeLearning.C48_ellipse_partial",
    "SafeLearning.C48_bounds_partial",
    "SafeLearning.C48_upper_refuted"
   ],
   "note": "The function always raises TypeError (refuted). Proved for an integer division: all returned points are on the ellipse."
  },
  {
   "property": "C49",
   "status": "proved",
   "theorems": [
    "SafeLearning.C49_pointwise",
    "SafeLearning.C49_parameters",
    "SafeLearning.C49_supported",
    "SafeLearning.C49_none",
    "SafeLearning.C49_widths"
   ],
   "note": "TensorFlow broadcasting of scalars, rows and columns is modelled; leaf functions are parameters. Scalars on the left and subtraction are not supported by the code (C49_supported)."
  },
  {
   "property": "C50",
   "status": "partial",
   "theorems": [
    "SafeLearning.C50_copy_parameters_partial",
    "SafeLearning.C50_sum_copies_first",
    "SafeLearning.C50_sum_refuted",
    "SafeLearning.C50_saturation_refuted"
   ],
   "note": "Proved for leaves, constants and products. Refuted for sums (the first summand of the other function is copied into both) and for saturated functions (AttributeError)."
  },
  {
   "property": "C51",
   "status": "partial",
   "theorems": [
    "SafeLearning.C51_construction",
    "SafeLearning.C51_saturation_partial",
    "SafeLearning.C51_network_refuted"
   ],
   "note": "Proved for functions with their own variables. A saturated NeuralNetwork has other weights than the network, so its value differs also within the bounds (C51_network_refuted). NaN and infinities are not modelled here."
  },
  {
   "property": "C52",
   "status": "partial",
   "theorems": [
    "SafeLearning.C52_evaluate",
    "SafeLearning.C52_evaluate_fails",
    "SafeLearning.C52_add_data_point_partial",
    "SafeLearning.C52_single_refuted",
    "SafeLearning.C52_column",
    "SafeLearning.C52_rows_refuted",
    "SafeLearning.C52_parameters_refuted",
    "SafeLearning.C52_parameters_empty"
   ],
   "note": "Evaluation proved. add_data_point proved for one measurement row and at least two functions; refuted for a single function (TypeError) and for several rows. parameters always raises TypeError (refuted)."
  },
  {
   "property": "C53",
   "status": "proved",
   "theorems": [
    "SafeLearning.C53_posterior",
    "SafeLearning.C53_defined",
    "SafeLearning.C53_undefined",
    "SafeLearning.C53_covariance",
    "SafeLearning.C53_scale"
   ],
   "note": "tf.cholesky is specified by its contract (its existence for positive definite matrices is proved); real arithmetic; hyperparameters fixed."
  },
  {
   "property": "C54",
   "status": "proved",
   "theorems": [
    "SafeLearning.C54_history",
    "SafeLearning.C54_prediction",
    "SafeLearning.C54_accepts",
    "SafeLearning.C54_order"
   ],
   "note": "Hyperparameters fixed after construction."
  },
  {
   "property": "C55",
   "status": "proved",
   "theorems": [
    "SafeLearning.C55_bounds",
    "SafeLearning.C55_error",
    "SafeLearning.C55_shrinks"
   ],
   "note": "Real arithmetic."
  },
  {
   "property": "C56",
   "status": "proved",
   "theorems": [
    "SafeLearning.C56_value",
    "SafeLearning.C56_gradient"
   ],
   "note": "The value is proved over ordered fields, the gradient over the reals."
  },
  {
   "property": "C57",
   "status": "proved",
   "theorems": [
    "SafeLearning.C57_linear_system"
   ],
   "note": "Shapes are checked: a matrix that does not fit its input raises."
  },
  {
   "property": "C58",
   "status": "partial",
   "theorems": [
    "SafeLearning.C58_lipschitz_partial",
    "SafeLearning.C58_values",
    "SafeLearning.C58_not_evaluated",
    "SafeLearning.C58_scale_refuted",
    "SafeLearning.C58_nobias_refuted"
   ],
   "note": "Singular values are specified by the contract of tf.svd. Proved for output_scale in [-1, 1] and the layers the method visits (all of them with biases); refuted for larger output scales and for use_bias=False with two or more hidden layers, where every second matrix is skipped."
  },
  {
   "property": "C59",
   "status": "partial",
   "theorems": [
    "SafeLearning.C59_boundary_refuted",
    "SafeLearning.C59_wrong_size",
    "SafeLearning.C59_update",
    "SafeLearning.C59_monotone_partial",
    "SafeLearning.C59_contraction_partial",
    "SafeLearning.C59_contraction_boundary"
   ],
   "note": "Proved in one dimension, and in several dimensions if no next state is in the strip of width 2 * _EPS at the boundary; up to the boundary with the factor gamma * (1 + boundaryDefect). Refuted in the strip of two dimensions. The value function is a Triangulation on a grid (C09-C18), with project=True or next states in the domain. The policy, dynamics and reward are arbitrary."
  },
  {
   "property": "C60",
   "status": "proved",
   "theorems": [
    "SafeLearning.C60_unique_solution",
    "SafeLearning.C60_convergence",
    "SafeLearning.C60_convergence_gamma",
    "SafeLearning.C60_limit"
   ],
   "note": "Under gamma * (1 + boundaryDefect) < 1, where boundaryDefect is a multiple of _EPS. The value function is a Triangulation on a grid (C09-C18), with project=True or next states in the domain. The policy, dynamics and reward are arbitrary."
  },
  {
   "property": "C61",
   "status": "partial",
   "theorems": [
    "SafeLearning.C61_boundary_refuted",
    "SafeLearning.C61_optimal_partial",
    "SafeLearning.C61_solvable_partial"
   ],
   "note": "cvxpy is a parameter: if it reports an optimal solution, it is one. Proved in one dimension and in several dimensions outside the strip; in the strip the program can be unbounded although the equation has a unique solution (refuted). The value function is a Triangulation on a grid (C09-C18), with project=True or next states in the domain. The policy, dynamics and reward are arbitrary."
  },
  {
   "property": "C62",
   "status": "proved",
   "theorems": [
    "SafeLearning.C62_bellman_error",
    "SafeLearning.C62_defined"
   ],
   "note": "For all states, values and lists of states."
  },
  {
   "property": "C63",
   "status": "partial",
   "theorems": [
    "SafeLearning.C63_best_safe_action_partial",
    "SafeLearning.C63_defined",
    "SafeLearning.C63_wrong_parameters",
    "SafeLearning.C63_wrong_constraint",
    "SafeLearning.C63_empty",
    "SafeLearning.C63_no_safe_action_refuted"
   ],
   "note": "Proved for states in which some action is safe. If no action is safe the code takes the first action of the action space (refuted)."
  },
  {
   "property": "C64",
   "status": "partial",
   "theorems": [
    "SafeLearning.C64_boundary_refuted",
    "SafeLearning.C64_improves_partial",
    "SafeLearning.C64_optimal_partial",
    "SafeLearning.C64_policy_iteration_partial"
   ],
   "note": "Improvement, optimality of a policy that does not change, and whole rounds of policy iteration with a triangulated policy. Next states outside the boundary strip or one dimension; `C64_boundary_refuted`: in the strip of a two-dimensional domain the optimised policy can have a smaller value. The value function is a Triangulation on a grid (C09-C18), with project=True or next states in the domain. The policy, dynamics and reward are arbitrary."
  },
  {
   "property": "C65",
   "status": "partial",
   "theorems": [
    "SafeLearning.C65_lyapunov_term_partial",
    "SafeLearning.C65_written_out_partial",
    "SafeLearning.C65_only_unsafe_lowered_partial",
    "SafeLearning.C65_deterministic_refuted"
   ],
   "note": "Proved for uncertain dynamics. Deterministic dynamics raise UnboundLocalError (refuted)."
  },
  {
   "property": "C66",
   "status": "proved",
   "theorems": [
    "SafeLearning.C66_constructor",
    "SafeLearning.C66_positive_definite",
    "SafeLearning.C66_hidden_dimension",
    "SafeLearning.C66_too_few_activations",
    "SafeLearning.C66_relu_not_positive"
   ],
   "note": "Positive definiteness for activations without a second root, the constructor checks, and the failure for relu."
  },
  {
   "property": "C67",
   "status": "partial",
   "theorems": [
    "SafeLearning.C67_normalize_inverse",
    "SafeLearning.C67_equilibrium",
    "SafeLearning.C67_linearize_partial",
    "SafeLearning.C67_discrete_jacobian_partial",
    "SafeLearning.C67_negative_friction_refuted"
   ],
   "note": "Proved for friction >= 0; for negative friction the vector field ignores friction but linearize does not (refuted). The discretisation by scipy is a parameter with a contract."
  },
  {
   "property": "C68",
   "status": "partial",
   "theorems": [
    "SafeLearning.C68_equilibrium",
    "SafeLearning.C68_linearize_partial",
    "SafeLearning.C68_discrete_jacobian_partial",
    "SafeLearning.C68_linearize_refuted"
   ],
   "note": "Proved for unit length. For other lengths linearize is not the Jacobian of the vector field (refuted)."
  },
  {
   "property": "C69",
   "status": "partial",
   "theorems": [
    "SafeLearning.C69_equilibrium",
    "SafeLearning.C69_normalize_inverse",
    "SafeLearning.C69_linearize_partial",
    "SafeLearning.C69_discrete_jacobian",
    "SafeLearning.C69_linearize_refuted"
   ],
   "note": "Proved for unit damping. For other dampings linearize is not the Jacobian (refuted)."
  },
  {
   "property": "C70",
   "status": "partial",
   "theorems": [
    "SafeLearning.C70_find_nearest_partial",
    "SafeLearning.C70_find_nearest_unsorted_partial",
    "SafeLearning.C70_unsorted_index_refuted",
    "SafeLearning.C70_empty"
   ],
   "note": "Proved for sorted arrays. For sorted_1d=False the value is right but the index refers to the sorted copy (refuted)."
  },
  {
   "property": "C71",
   "status": "proved",
   "theorems": [
    "SafeLearning.C71_class_weights",
    "SafeLearning.C71_confusion_weights"
   ],
   "note": "For all label vectors, both variants, with and without scaling."
  },
  {
   "property": "C72",
   "status": "partial",
   "theorems": [
    "SafeLearning.C72_derivative_partial",
    "SafeLearning.C72_degree_four_refuted",
    "SafeLearning.C72_three_coordinates_refuted",
    "SafeLearning.C72_one_coordinate_refuted"
   ],
   "note": "Proved for two coordinates and degree at most three. Degree four and other numbers of coordinates are refuted."
  },
  {
   "property": "C73",
   "status": "proved",
   "theorems": [
    "SafeLearning.C73_roa",
    "SafeLearning.C73_modes_agree",
    "SafeLearning.C73_horizon_zero"
   ],
   "note": "Marks and trajectories for all horizons of at least one; horizon zero is described separately."
  },
  {
   "property": "C74",
   "status": "partial",
   "theorems": [
    "SafeLearning.C74_rollout",
    "SafeLearning.C74_truncation",
    "SafeLearning.C74_convergence_partial",
    "SafeLearning.C74_convergence_refuted",
    "SafeLearning.C74_no_states"
   ],
   "note": "The result is exactly the truncated return. The message about convergence is only meaningful for rewards that do not grow (partial theorem), otherwise refuted."
  },
  {
   "property": "C75",
   "status": "partial",
   "theorems": [
    "SafeLearning.C75_maps_inside_partial",
    "SafeLearning.C75_action_limit_partial",
    "SafeLearning.C75_unpadded_partial",
    "SafeLearning.C75_action_limit_refuted",
    "SafeLearning.C75_single_refuted"
   ],
   "note": "Proved without action_limit unless exactly one state is admissible. With action_limit the first constraint is dropped (refuted); a single admissible state loses its batch axis and cannot be padded (refuted)."
  },
  {
   "property": "C76",
   "status": "partial",
   "theorems": [
    "SafeLearning.C76_argument_unchanged_partial",
    "SafeLearning.C76_argument_refuted"
   ],
   "note": "The code violates the property: the array is reduced in place (refuted for every index outside the first rectangle)."
  },
  {
   "property": "C77",
   "status": "partial",
   "theorems": [
    "SafeLearning.C77_failed_call_partial",
    "SafeLearning.C77_refuted"
   ],
   "note": "The code violates the property: the inputs are stored before the measurements are checked (refuted). Proved: predictions are unchanged, and nothing changes if the inputs are the rejected part."
  },
  {
   "property": "C78",
   "status": "partial",
   "theorems": [
    "SafeLearning.C78_defined",
    "SafeLearning.C78_interpolates_partial",
    "SafeLearning.C78_mean_refuted",
    "SafeLearning.C78_data_refuted"
   ],
   "note": "Proved for zero-mean processes without data. The code adds a non-zero mean twice (refuted) and uses the prior kernel with the posterior covariance (refuted)."
  },
  {
   "property": "C79",
   "status": "partial",
   "theorems": [
    "SafeLearning.C79_reuse_partial",
    "SafeLearning.C79_attributes_ignored",
    "SafeLearning.C79_attributes_refuted"
   ],
   "note": "The code violates the property: the operations built by the first call are reused (refuted). Proved for histories without attribute changes after the first call."
  },
  {
   "property": "C80",
   "status": "partial",
   "theorems": [
    "SafeLearning.C80_change_partial",
    "SafeLearning.C80_triangle_partial",
    "SafeLearning.C80_default_value",
    "SafeLearning.C80_neg_inf_refuted",
    "SafeLearning.C80_negative_int_partial",
    "SafeLearning.C80_negative_int_refuted",
    "SafeLearning.C80_matrix_norms_refuted",
    "SafeLearning.C80_empty"
   ],
   "note": "Proved for inf and positive integers. -inf and the negative integers are no norms (refuted; for negative integers the zero cases are characterised), fro and nuc always raise (refuted)."
  },
  {
   "property": "C81",
   "status": "proved",
   "theorems": [
    "SafeLearning.C81_response",
    "SafeLearning.C81_prefix",
    "SafeLearning.C81_unknown_reference"
   ],
   "note": "All dynamics, policies, numbers of steps and the three reference signals; causality; unknown references raise."
  },
  {
   "property": "C82",
   "status": "proved",
   "theorems": [
    "SafeLearning.C82_gridify",
    "SafeLearning.C82_default_limits",
    "SafeLearning.C82_too_few_points"
   ],
   "note": "All positive norms and maxima and all numbers of points of at least two."
  },
  {
   "property": "C83",
   "status": "partial",
   "theorems": [
    "SafeLearning.C83_monomials_partial",
    "SafeLearning.C83_one_coordinate",
    "SafeLearning.C83_degree_five_refuted",
    "SafeLearning.C83_three_coordinates_refuted"
   ],
   "note": "Proved for two coordinates and degrees one to four; from degree five on, and for three coordinates from degree two on, features are missing (refuted)."
  },
  {
   "property": "C84",
   "status": "partial",
   "theorems": [
    "SafeLearning.C84_future_values",
    "SafeLearning.C84_future_values_lyapunov_partial",
    "SafeLearning.C84_defined",
    "SafeLearning.C84_lyapunov_refuted"
   ],
   "note": "Full characterisation without a Lyapunov function and for uncertain dynamics with one; with deterministic dynamics and a Lyapunov function every call raises (C84_lyapunov_refuted)."
  },
  {
   "property": "C85",
   "status": "partial",
   "theorems": [
    "SafeLearning.C85_posterior_at_last_update_partial",
    "SafeLearning.C85_after_data_partial",
    "SafeLearning.C85_stale_refuted",
    "SafeLearning.C85_mixed_refuted",
    "SafeLearning.C85_defined"
   ],
   "note": "Proved: exact posterior for the hyperparameters at the last successful add_data_point, no errors for documented arguments. Refuted: changes are ignored until then, and update_feed_dict alone mixes new kernel and old factorisation (negative variance)."
  },
  {
   "property": "C86",
   "status": "proved",
   "theorems": [
    "SafeLearning.C86_mean",
    "SafeLearning.C86_follows_data",
    "SafeLearning.C86_stack"
   ],
   "note": "For all uncertain functions; for Gaussian processes over all histories; for stacks."
  },
  {
   "property": "C87",
   "status": "partial",
   "theorems": [
    "SafeLearning.C87_current_partial",
    "SafeLearning.C87_assignments_ignored",
    "SafeLearning.C87_refuted"
   ],
   "note": "Proved if policy and dynamics are not assigned after the first call. Otherwise the assignment is ignored (refuted, and proved for all objects)."
  },
  {
   "property": "C88",
   "status": "partial",
   "theorems": [
    "SafeLearning.C88_next_state_partial",
    "SafeLearning.C88_margin_partial",
    "SafeLearning.C88_backup_partial",
    "SafeLearning.C88_refuted"
   ],
   "note": "Proved: the true next state is in the level set; samples whose bound is below c_max - L_v tau and samples of the backup policy are safe. Refuted without that margin, also with positive=False."
  },
  {
   "property": "C89",
   "status": "partial",
   "theorems": [
    "SafeLearning.C89_parameters_partial",
    "SafeLearning.C89_disjoint_partial",
    "SafeLearning.C89_refuted_dot",
    "SafeLearning.C89_refuted_slash",
    "SafeLearning.C89_refuted_variable_scope"
   ],
   "note": "Proved for plain names (no dots or slashes) outside open variable scopes, and without saturated networks. Refuted for dots, slashes and open variable scopes."
  },
  {
   "property": "C90",
   "status": "partial",
   "theorems": [
    "SafeLearning.C90_saturation_partial",
    "SafeLearning.C90_parameters_without_effect",
    "SafeLearning.C90_refuted"
   ],
   "note": "Proved for functions that make their variables in the constructor. A saturated network does not depend on its parameters (proved for all programs and refuted with a witness)."
  },
  {
   "property": "C91",
   "status": "partial",
   "theorems": [
    "SafeLearning.C91_interior_partial",
    "SafeLearning.C91_saturation_interior_partial",
    "SafeLearning.C91_project_partial",
    "SafeLearning.C91_triangulation_partial",
    "SafeLearning.C91_saturation_partial",
    "SafeLearning.C91_same_simplex_1d",
    "SafeLearning.C91_refuted_project",
    "SafeLearning.C91_refuted_saturated"
   ],
   "note": "Proved inside the limits (everywhere without project) and for values strictly within the bounds: in one dimension at all points that are no grid points, for proper triangulations of any dimension at points with positive weights. Outside the limits with project the derivative has zeros for the outer coordinates, and where bounds are exceeded it is zero (C91_project_partial, C91_saturation_interior_partial): gradient is wrong there unless its entries are zero (refuted in C91_refuted_project and C91_refuted_saturated)."
  },
  {
   "property": "C92",
   "status": "partial",
   "theorems": [
    "SafeLearning.C92_boundary_refuted",
    "SafeLearning.C92_first_round_partial",
    "SafeLearning.C92_terminates_partial",
    "SafeLearning.C92_rounds_partial"
   ],
   "note": "Termination bound, optimality among all available policies and absence of exceptions; any initial policy becomes available after one round if every state has a safe action. Next states outside the boundary strip or one dimension; `C92_boundary_refuted`: in the strip of a two-dimensional domain policy iteration can stop at a policy that is not optimal."
  },
  {
   "property": "C93",
   "status": "partial",
   "theorems": [
    "SafeLearning.GridWorld.C93_roundtrip_partial",
    "SafeLearning.GridWorld.C93_nearest_partial",
    "SafeLearning.GridWorld.C93_agrees",
    "SafeLearning.GridWorld.C93_roundtrip_refuted",
    "SafeLearning.GridWorld.C93_all_points_partial",
    "SafeLearning.GridWorld.C93_all_points_refuted",
    "SafeLearning.GridWorld.C93_rectangle_partial"
   ],
   "note": "Round trip, nearest point, agreement with the exact model and bracketing for grids that are coarse compared to the rounding unit; binary rounding to p bits is shown to obey the standard model. Refuted: round trip of fine grids far from zero, equality of all_points and index_to_state at the upper limit."
  },
  {
   "property": "C94",
   "status": "partial",
   "theorems": [
    "SafeLearning.GridWorld.C94_len_partial",
    "SafeLearning.GridWorld.C94_refuted"
   ],
   "note": "Proved for fewer than 2**63 points, refuted for four axes of 2**16 points."
  },
  {
   "property": "C95",
   "status": "partial",
   "theorems": [
    "SafeLearning.C95_new_call_partial",
    "SafeLearning.C95_existing_tensor_partial",
    "SafeLearning.C95_earlier_tensor_refuted",
    "SafeLearning.C95_saturation_refuted"
   ],
   "note": "Proved for calls after the assignment, for all histories; tensors made before keep the value of their time, and an assignment to the saturation has no effect (both refuted)."
  },
  {
   "property": "C96",
   "status": "partial",
   "theorems": [
    "SafeLearning.C96_value",
    "SafeLearning.C96_derivative_partial",
    "SafeLearning.C96_refuted",
    "SafeLearning.C96_norm_partial",
    "SafeLearning.C96_norm_refuted",
    "SafeLearning.C96_positive"
   ],
   "note": "Values and definiteness are proved; lyapunov_sos_derivative returns half of the derivative with respect to the denormalised state (refuted), and the values of norm are ignored in favour of the global state_norm (refuted)."
  },
  {
   "property": "C97",
   "status": "partial",
   "theorems": [
    "SafeLearning.C97_error",
    "SafeLearning.C97_level_partial",
    "SafeLearning.C97_no_ties",
    "SafeLearning.C97_maximal",
    "SafeLearning.C97_certified_partial",
    "SafeLearning.C97_tie_refuted",
    "SafeLearning.C97_origin_refuted"
   ],
   "note": "Proved below the level, and at the level without ties, for grids with the origin; refuted for ties at the level and for grids without the origin."
  },
  {
   "property": "C98",
   "status": "proved",
   "theorems": [
    "SafeLearning.C98_estimate",
    "SafeLearning.C98_sound",
    "SafeLearning.C98_monotone",
    "SafeLearning.C98_targets"
   ],
   "note": "The candidates after each training are arbitrary; nothing is assumed about the optimiser."
  },
  {
   "property": "C99",
   "status": "partial",
   "theorems": [
    "SafeLearning.C99_zero_partial",
    "SafeLearning.C99_boundary_refuted"
   ],
   "note": "Proved with 'at least the level' for the states without label; strictly above is refuted."
  },
  {
   "property": "C100",
   "status": "partial",
   "theorems": [
    "SafeLearning.C100_half_sum",
    "SafeLearning.C100_max_partial",
    "SafeLearning.C100_max_refuted",
    "SafeLearning.C100_min_partial",
    "SafeLearning.C100_min_refuted",
    "SafeLearning.C100_reciprocal_refuted"
   ],
   "note": "np.sum(unit_maxes) / 2 is proved to be the smallest constant that covers the grid; np.max(unit_maxes) covers grids with at most two dimensions, np.min(unit_maxes) in two dimensions only grids with equal spacings, 1 / nindex never covers GridWorld([-1, 1], n); the last three are refuted in general."
  },
  {
   "property": "C101",
   "status": "partial",
   "theorems": [
    "SafeLearning.C101_policy",
    "SafeLearning.C101_closed_loop",
    "SafeLearning.C101_max_partial",
    "SafeLearning.C101_max_refuted",
    "SafeLearning.C101_value_partial",
    "SafeLearning.C101_value_norm_partial",
    "SafeLearning.C101_value_refuted"
   ],
   "note": "Proved for the norm-based constant of the closed loop; the constant with np.max(np.abs(.)) is proved for one state and refuted for two; the gradient bounds the change of the quadratic function up to a quadratic remainder and is refuted as a local Lipschitz constant."
  },
  {
   "property": "C102",
   "status": "partial",
   "theorems": [
    "SafeLearning.C102_trisurf",
    "SafeLearning.C102_image",
    "SafeLearning.C102_triangulation",
    "SafeLearning.C102_surface_partial",
    "SafeLearning.C102_surface_refuted"
   ],
   "note": "Proved for the images of the notebooks and of plot_triangulation, and for its surface in three dimensions; the surface plots are right exactly for symmetric values, and refuted in general."
  },
  {
   "property": "C103",
   "status": "proved",
   "theorems": [
    "SafeLearning.C103_planes",
    "SafeLearning.C103_sub_sampling"
   ],
   "note": "The pivot is first moved to the nearest grid values; the masks compare floating point numbers for equality, which is modelled by exact equality."
  },
  {
   "property": "C104",
   "status": "proved",
   "theorems": [
    "SafeLearning.C104_scrub",
    "SafeLearning.C104_independent",
    "SafeLearning.C104_idempotent",
    "SafeLearning.C104_raises"
   ],
   "note": "Dictionaries are lists of items in insertion order, so that the order of the keys in the saved file is part of the statements."
  },
  {
   "property": "C105",
   "status": "partial",
   "theorems": [
    "SafeLearning.C105_strip",
    "SafeLearning.C105_missing_value",
    "SafeLearning.C105_bound_partial",
    "SafeLearning.C105_small_refuted"
   ],
   "note": "The bound is proved for max_const_size >= 32, the default, and contents below 10^15 bytes; for small limits the text is longer than the content (refuted)."
  },
  {
   "property": "C106",
   "status": "partial",
   "theorems": [
    "SafeLearning.C106_iterates_partial",
    "SafeLearning.C106_solution_partial",
    "SafeLearning.C106_bounded",
    "SafeLearning.C106_car_partial",
    "SafeLearning.C106_boundary_refuted"
   ],
   "note": "Proved for next states outside the boundary strip in which the triangulation extrapolates; there refuted, with a bound that accounts for the strip instead."
  },
  {
   "property": "C107",
   "status": "proved",
   "theorems": [
    "SafeLearning.C107_report",
    "SafeLearning.C107_car",
    "SafeLearning.C107_trajectory"
   ],
   "note": "The optimisation in each round is an arbitrary function of the parameters. The initial state of the trajectory is not tested for being terminal, as in the code."
  },
  {
   "property": "C108",
   "status": "proved",
   "theorems": [
    "SafeLearning.C108_update_gp"
   ],
   "note": "The measurement is an arbitrary function of state and action."
  },
  {
   "property": "C109",
   "status": "proved",
   "theorems": [
    "SafeLearning.C109_masks",
    "SafeLearning.C109_sound"
   ],
   "note": "One state and one action dimension and constant Lipschitz constants, as in the notebook."
  },
  {
   "property": "C110",
   "status": "proved",
   "theorems": [
    "SafeLearning.FltLyap.C110_increase_not_refined",
    "SafeLearning.FltLyap.C110_safe_is_meaningful",
    "SafeLearning.FltLyap.C110_history",
    "SafeLearning.FltLyap.C110_level_set",
    "SafeLearning.FltLyap.C110_agrees_with_exact"
   ],
   "note": "Finite results are rounded by an arbitrary function that keeps the sign and may overflow. Error bounds and Lipschitz constants are assumed to be nonnegative, infinite or NaN. `C110_agrees_with_exact` shows that without rounding and on finite values every history gives the attributes of the exact model."
  },
  {
   "property": "C111",
   "status": "partial",
   "theorems": [
    "SafeLearning.FltLyap.C111_finite",
    "SafeLearning.FltLyap.C111_sample_is_meaningful_partial",
    "SafeLearning.FltLyap.C111_backup_refuted"
   ],
   "note": "Proved unless the backup policy is used; the backup policy returns the first pair with a NaN uncertainty (refuted)."
  },
  {
   "property": "C112",
   "status": "partial",
   "theorems": [
    "SafeLearning.FltGrid.C112_nan_raises",
    "SafeLearning.FltGrid.C112_infinite_is_border",
    "SafeLearning.FltGrid.C112_triangulation_nan",
    "SafeLearning.FltGrid.C112_rectangle",
    "SafeLearning.FltGrid.C112_rectangle_refuted",
    "SafeLearning.FltGrid.C112_triangulation_finite"
   ],
   "note": "state_to_rectangle does not reject NaN (refuted). The conversion of NaN to an integer is that of x86."
  },
  {
   "property": "C113",
   "status": "partial",
   "theorems": [
    "SafeLearning.C113_constraint_refuted",
    "SafeLearning.C113_initial_refuted",
    "SafeLearning.C113_repaired_partial"
   ],
   "note": "Refuted: the function compares with the method threshold instead of its value and assigns to a tensor, so no call returns. With thresholds as a tensor and without an initial set it would be right (C113_repaired_partial)."
  },
  {
   "property": "C114",
   "status": "partial",
   "theorems": [
    "SafeLearning.C114_print_refuted",
    "SafeLearning.C114_loop_partial",
    "SafeLearning.C114_shown_partial"
   ],
   "note": "Refuted: parameters is a list without eval. With evaluated parameters the loop is right exactly for networks with at most one layer; C114_shown_partial says what it shows otherwise."
  },
  {
   "property": "C115",
   "status": "partial",
   "theorems": [
    "SafeLearning.C115_construct_refuted",
    "SafeLearning.C115_child_class_partial",
    "SafeLearning.C115_default_variance_partial"
   ],
   "note": "Refuted: the constructor reads the attribute _hidden_units that nothing sets. Proved for child classes that set it to the number of grid points."
  },
  {
   "property": "C116",
   "status": "partial",
   "theorems": [
    "SafeLearning.C116_gradients_partial",
    "SafeLearning.C116_second_graph_refuted"
   ],
   "note": "Proved for programs with one graph, with TensorFlow's unique_name and its registry of gradients modelled; the registry is assumed to start without names that contain _gradient. Refuted for two graphs. Operations with stateful=False have no gradient, as documented."
  },
  {
   "property": "C117",
   "status": "partial",
   "theorems": [
    "SafeLearning.C117_plot_partial",
    "SafeLearning.C117_later_plot_refuted",
    "SafeLearning.C117_mirror_refuted",
    "SafeLearning.C117_mirror_symmetric_partial"
   ],
   "note": "Proved for the first plot of an object and the first helper line. Later plots use the policy and the dynamics of the first one, and the second helper line is at the negative state (refuted; proved for symmetric systems)."
  },
  {
   "property": "C118",
   "status": "partial",
   "theorems": [
    "SafeLearning.C118_lipschitz_partial",
    "SafeLearning.C118_lipschitz_1d",
    "SafeLearning.C118_sharp",
    "SafeLearning.C118_bounded",
    "SafeLearning.C118_boundary_refuted",
    "SafeLearning.C118_notebook_partial",
    "SafeLearning.C118_local_refuted"
   ],
   "note": "Proved in one dimension everywhere, and in several dimensions at least 2 * _EPS away from the boundary; the bound exists and is the best one. Refuted in the strip at the boundary, where no constant works. The gradient at the state itself, which the notebook uses, is no local constant however small the cell is (refuted)."
  },
  {
   "property": "C119",
   "status": "partial",
   "theorems": [
    "SafeLearning.FltLyap.C119_check_partial",
    "SafeLearning.FltLyap.C119_complete_partial",
    "SafeLearning.FltLyap.C119_history_partial",
    "SafeLearning.FltLyap.C119_decrease_in_cell_partial",
    "SafeLearning.FltLyap.C119_sample_partial",
    "SafeLearning.FltLyap.C119_unsound_refuted",
    "SafeLearning.FltLyap.C119_check_finite_partial",
    "SafeLearning.FltLyap.C119_complete_finite_partial",
    "SafeLearning.FltLyap.C119_history_finite_partial",
    "SafeLearning.FltLyap.C119_sample_finite_partial",
    "SafeLearning.C119_overflow_refuted"
   ],
   "note": "Proved up to the explicit margin ((1 + u)^(d + 3) - 1) times the size of the compared numbers, for single comparisons (both directions), histories, cells of the continuous state space and samples. Refuted without the margin: double precision arithmetic certifies a state where the value increases, because small error bounds are lost in the sum. C119_check_finite_partial and C119_complete_finite_partial cover underflow, with an absolute part in the margin, and overflow, as long as the compared numbers are finite; IEEE 754 double precision is an instance. Refuted if the computed decrease overflows: C119_overflow_refuted. C119_history_finite_partial and C119_sample_finite_partial are the same for histories and samples; the margin in the statement about cells is arbitrary."
  },
  {
   "property": "C120",
   "status": "proved",
   "theorems": [
    "SafeLearning.C120_triangulation",
    "SafeLearning.C120_triangulation_inside",
    "SafeLearning.C120_sharp",
    "SafeLearning.C120_piecewise_constant"
   ],
   "note": "Sharpness is proved on every grid, with a function that attains the bound at the centre of a cell."
  },
  {
   "property": "C121",
   "status": "proved",
   "theorems": [
    "SafeLearning.C121_value_iteration",
    "SafeLearning.C121_value_iteration_boundary",
    "SafeLearning.C121_fixed_point"
   ],
   "note": "States outside of the domain count as clipped to it, as in a value function with project; for loops that stay in the domain this is no change. Next states in the boundary strip cost a factor 1 + O(_EPS) (C121_value_iteration_boundary). The reward and the dynamics are those of the model given to PolicyIteration (for uncertain dynamics the mean)."
  },
  {
   "property": "C122",
   "status": "proved",
   "theorems": [
    "SafeLearning.C122_near_optimal"
   ],
   "note": "L' and L'' are Lipschitz constants of the returns of the two policies. Next states of grid points are not in the boundary strip (or the domain is one-dimensional), and every state has a safe action (C63, C64)."
  },
  {
   "property": "C123",
   "status": "partial",
   "theorems": [
    "SafeLearning.C123_without_rounding",
    "SafeLearning.C123_every_point",
    "SafeLearning.C123_location_partial",
    "SafeLearning.C123_accuracy_partial",
    "SafeLearning.C123_upper_limit",
    "SafeLearning.C123_grid_point_refuted",
    "SafeLearning.C123_inside_refuted"
   ],
   "note": "Violated at grid points: C123_grid_point_refuted (3x3 grid on [0, 8]^2: value 0 instead of 1 at (8, 8)) and C123_inside_refuted (11x11 grid on [0, 1]^2: value about -1 instead of 0 at (0.5, 0.5)). The rounding of np.linalg.inv, overflow and underflow are not modelled."
  },
  {
   "property": "C124",
   "status": "proved",
   "theorems": [
    "SafeLearning.C124_discrete"
   ],
   "note": "scipy.linalg.solve_discrete_are is a contract: p is a symmetric positive semidefinite solution of the Riccati equation."
  },
  {
   "property": "C125",
   "status": "proved",
   "theorems": [
    "SafeLearning.C125_continuous"
   ],
   "note": "scipy.linalg.solve_continuous_are is a contract: p is a symmetric positive semidefinite solution of the Riccati equation. The running cost is a function with the stage cost as right derivative. Existence of solutions of the differential equation is not part of the claim."
  },
  {
   "property": "C126",
   "status": "proved",
   "theorems": [
    "SafeLearning.C126_policy",
    "SafeLearning.C126_linearisation",
    "SafeLearning.C126_lqr",
    "SafeLearning.C126_pendulum",
    "SafeLearning.C126_cart"
   ],
   "note": "The level is not computed. The notebooks use the linearisation with zero-order hold, while the systems take ten Euler steps: for these systems, the decrease is a hypothesis about the matrices of the Euler steps. For CartPole they are the Jacobian; only for length 1 these are the matrices of linearize (C68)."
  },
  {
   "property": "C127",
   "status": "partial",
   "theorems": [
    "SafeLearning.C127_every_point",
    "SafeLearning.C127_accuracy_partial",
    "SafeLearning.C127_line",
    "SafeLearning.C127_grid_lines_refuted"
   ],
   "note": "In two and more dimensions the bound holds for points away from grid lines; on grid lines the wrong simplex may be found (C123), C127_grid_lines_refuted shows that the bound is violated there (|x - y| at (8, 8) comes out as 8 instead of 0), and C127_every_point gives a bound with a factor 1 + 3 d^2 d!. Sums are from left to right; overflow and underflow are not modelled."
  },
  {
   "property": "C128",
   "status": "partial",
   "theorems": [
    "SafeLearning.C128_value_iteration_partial",
    "SafeLearning.C128_line",
    "SafeLearning.C128_small_discount",
    "SafeLearning.C128_without_rounding",
    "SafeLearning.C128_bounds_without_rounding",
    "SafeLearning.C128_divergence_refuted"
   ],
   "note": "Proved in one dimension, in several dimensions if no computed next state is on a grid line, and for all closed loops if the discount factor is small compared with a constant of the dimension (C128_small_discount). Refuted for next states on grid lines: with an affine closed loop on three by three points in double precision, the values grow like 1.4^n although the discount factor is 0.75 (C128_divergence_refuted)."
  },
  {
   "property": "C129",
   "status": "proved",
   "theorems": [
    "SafeLearning.C129_interval",
    "SafeLearning.C129_exact",
    "SafeLearning.C129_sharp",
    "SafeLearning.C129_fixed_beta_fails",
    "SafeLearning.C129_stack",
    "SafeLearning.C129_region"
   ],
   "note": "Deterministic version of the confidence intervals of the literature: the errors are bounded, not random. C129_sharp: no smaller factor would do. C129_fixed_beta_fails: with a fixed beta (the default is 2) and enough data whose errors are each within the standard deviation of the noise, the interval can exclude the true function."
  },
  {
   "property": "C130",
   "status": "partial",
   "theorems": [
    "SafeLearning.Lyap.C130_python_float_refuted",
    "SafeLearning.Lyap.C130_not_adaptive",
    "SafeLearning.Lyap.C130_refined_partial",
    "SafeLearning.Lyap.C130_integer",
    "SafeLearning.Lyap.C130_numpy_float_refuted",
    "SafeLearning.C130_decrease_nearby_partial"
   ],
   "note": "Refuted for Python floats (TypeError in every call, after every history), tensors (ValueError) and numpy scalars (the quotient is truncated to an integer, so the strict inequality fails). Proved for integers (C130_integer); for numpy scalars the weak inequality holds because the required refinement is rounded up (C130_refined_partial), and with it the decrease of the Lyapunov function near accepted states (C130_decrease_nearby_partial)."
  },
  {
   "property": "C131",
   "status": "partial",
   "theorems": [
    "SafeLearning.ConfigSession.C131_matrix",
    "SafeLearning.ConfigSession.C131_matrix_later",
    "SafeLearning.ConfigSession.C131_triangulation_refuted",
    "SafeLearning.ConfigSession.C131_triangulation_never_refuted",
    "SafeLearning.ConfigSession.C131_triangulation_partial",
    "SafeLearning.ConfigSession.C131_running_graph_refuted",
    "SafeLearning.ConfigSession.C131_all_points",
    "SafeLearning.ConfigSession.C131_network"
   ],
   "note": "Proved for quadratic functions and linear systems. Refuted for triangulations: the decorators read the type at import, so a triangulation constructed in single precision never evaluates, and with a grid of the other type the result depends on the configuration when the graph is run. all_points has the type of its first access; a neural network has the type of its first points, and lipschitz works while this type is configured. Only types are modelled, with the conversion rules of TensorFlow 1 and numpy."
  },
  {
   "property": "C132",
   "status": "partial",
   "theorems": [
    "SafeLearning.C132_points",
    "SafeLearning.C132_numbers_differ",
    "SafeLearning.C132_rejected",
    "SafeLearning.C132_missing_numbers_refuted"
   ],
   "note": "Proved for at least two dimensions. Refuted: with fewer numbers of points than limits the additional limits are ignored silently (zip). scipy.spatial.Delaunay itself is not modelled."
  },
  {
   "property": "C133",
   "status": "partial",
   "theorems": [
    "SafeLearning.C133_pendulum_motion_partial",
    "SafeLearning.C133_pendulum_energy_partial",
    "SafeLearning.C133_cart_motion_partial",
    "SafeLearning.C133_cart_energy_partial",
    "SafeLearning.C133_cart_energy_refuted",
    "SafeLearning.C133_van_der_pol_reverse",
    "SafeLearning.C133_van_der_pol_energy"
   ],
   "note": "Proved for pendulums with friction >= 0 and for cart-poles of length one. Refuted for cart-poles of every other length: v_dot has factors of the length at the wrong place, and there is a state from which the energy increases without action, whatever the friction is."
  },
  {
   "property": "C134",
   "status": "partial",
   "theorems": [
    "SafeLearning.C134_monotone_partial",
    "SafeLearning.C134_adaptive_refuted",
    "SafeLearning.C134_max_refinement_refuted",
    "SafeLearning.C134_keep_refuted",
    "SafeLearning.C134_data_refuted"
   ],
   "note": "Proved for can_shrink=True when the first of the two calls does not refine; in particular refinement never certifies less than no refinement. Refuted if both calls refine (a better bound at one state makes another state unsafe, and so does a larger max_refinement), for can_shrink=False and for additional exact measurements, where all assumptions on the confidence intervals hold before and after."
  },
  {
   "property": "C135",
   "status": "partial",
   "theorems": [
    "SafeLearning.Lyap.C135_complete",
    "SafeLearning.Lyap.C135_old_or_new",
    "SafeLearning.Lyap.C135_sound",
    "SafeLearning.Lyap.C135_recovery",
    "SafeLearning.Lyap.C135_initial_refuted",
    "SafeLearning.Lyap.C135_c_max_refuted",
    "SafeLearning.Lyap.C135_keep_refuted",
    "SafeLearning.Lyap.C135_adaptive_refuted",
    "SafeLearning.C135_gp_complete",
    "SafeLearning.C135_gp_prediction",
    "SafeLearning.C135_gp_old",
    "SafeLearning.C135_gp_recovery_partial",
    "SafeLearning.C135_gp_stuck_refuted",
    "SafeLearning.C135_gp_feed_refuted"
   ],
   "note": "Safety holds at every crash point and over all histories, and so does recovery with can_shrink=True without refinement; predictions are never computed from mixed data. Refuted: there is always a point at which no state is safe, not even the initial ones, after which can_shrink=False cannot recover the lost states; c_max may belong to another safe set; with refinement a stopped call fixes the safety factor; a Gaussian process stopped between its first two assignments rejects every later call; evaluations can raise while the feed dictionary is updated."
  },
  {
   "property": "C136",
   "status": "partial",
   "theorems": [
    "SafeLearning.C136_gp_history",
    "SafeLearning.C136_stack_complete",
    "SafeLearning.C136_stack_progress",
    "SafeLearning.C136_stack_history",
    "SafeLearning.C136_region",
    "SafeLearning.C136_retry_refuted"
   ],
   "note": "Proved for non-empty initial data and calls with one measurement for each point, for confidence factors that cover the submitted data. Refuted: repeating a stopped call is not safe, because the components that had finished store the measurement twice and become overconfident."
  },
  {
   "property": "C137",
   "status": "proved",
   "theorems": [
    "SafeLearning.C137_calibrated",
    "SafeLearning.C137_best_linear",
    "SafeLearning.C137_bayes",
    "SafeLearning.C137_chebyshev",
    "SafeLearning.C137_gaussian"
   ],
   "note": "Proved in exact arithmetic, for inputs that are fixed in advance (see C138 for inputs that are chosen from measurements). The calibration, the best affine prediction and a coverage of 1 - 1/beta^2 hold for all distributions with the right moments."
  },
  {
   "property": "C138",
   "status": "proved",
   "theorems": [
    "SafeLearning.C138_loop",
    "SafeLearning.C138_coverage",
    "SafeLearning.C138_region",
    "SafeLearning.C138_exploration"
   ],
   "note": "Proved in exact arithmetic, for at least two components where the loop itself is concerned (C138_loop; the stack with a single component is C52). The choices are functions of the measurements; random choices are covered for each fixed outcome that is independent of the truth. The Lipschitz constant of the closed loop remains a hypothesis."
  },
  {
   "property": "C139",
   "status": "proved",
   "theorems": [
    "SafeLearning.C139_cart_pole_constants",
    "SafeLearning.C139_accuracy",
    "SafeLearning.C139_pendulum",
    "SafeLearning.C139_cart_pole",
    "SafeLearning.C139_van_der_pol"
   ],
   "note": "Proved in exact arithmetic. The constants are explicit: for the pendulum without further conditions, for the cart-pole and the oscillator on a box that contains the solution with a margin."
  },
  {
   "property": "C140",
   "status": "partial",
   "theorems": [
    "SafeLearning.C140_pendulum_exact_partial",
    "SafeLearning.C140_cart_pole_exact_partial",
    "SafeLearning.C140_van_der_pol_exact_partial",
    "SafeLearning.C140_pendulum_close_partial",
    "SafeLearning.C140_cart_pole_close_partial",
    "SafeLearning.C140_van_der_pol_close_partial",
    "SafeLearning.C140_cart_pole_refuted",
    "SafeLearning.C140_pendulum_refuted",
    "SafeLearning.C140_van_der_pol_refuted",
    "SafeLearning.C140_pendulum_controller_partial",
    "SafeLearning.C140_cart_pole_controller_partial",
    "SafeLearning.C140_pendulum_dlqr_partial",
    "SafeLearning.C140_pendulum_inaccurate_partial"
   ],
   "note": "Partial: needs a friction that is not negative for the pendulum, length one for the cart pole and damping one for the oscillator; refuted in all other cases, where the error is of first order. The matrix exponential of scipy is taken to be exact."
  },
  {
   "property": "C141",
   "status": "proved",
   "theorems": [
    "SafeLearning.C141_one_call",
    "SafeLearning.C141_exists",
    "SafeLearning.C141_between",
    "SafeLearning.C141_region",
    "SafeLearning.C141_pendulum",
    "SafeLearning.C141_simulated_alone",
    "SafeLearning.C141_region_local",
    "SafeLearning.C141_cart_pole",
    "SafeLearning.C141_van_der_pol"
   ],
   "note": "The pendulum and the cart-pole need a friction that is not negative, the cart-pole and the oscillator a grid with a margin to the box on which the constants hold. For the cart-pole the differential equation is the one of the class. Between two measurements the state moves by at most the bound of C141_between. The user has to supply the error bounds: the example classes return only the simulated state (C141_simulated_alone shows that this is not enough)."
  },
  {
   "property": "C142",
   "status": "partial",
   "theorems": [
    "SafeLearning.C142_result",
    "SafeLearning.C142_same_object",
    "SafeLearning.C142_other_imports",
    "SafeLearning.C142_folder_partial",
    "SafeLearning.C142_failure_partial",
    "SafeLearning.C142_folder_refuted",
    "SafeLearning.C142_failure_refuted"
   ],
   "note": "Refuted in two respects: the folder's module is not used if sys.path has one of the same name (C142_folder_refuted), and a failed call changes sys.path (C142_failure_refuted). Loading a module is modelled as one step that returns or raises; modules that import others are not modelled."
  },
  {
   "property": "C143",
   "status": "proved",
   "theorems": [
    "SafeLearning.C143_restores",
    "SafeLearning.C143_transparent",
    "SafeLearning.C143_names"
   ],
   "note": "TensorFlow's unique_name is a parameter with the contract that the name is new and starts with the requested one; an instance is given. Functions whose behaviour depends on names of operations are not covered."
  },
  {
   "property": "C144",
   "status": "proved",
   "theorems": [
    "SafeLearning.C144_real_time",
    "SafeLearning.C144_pendulum",
    "SafeLearning.FltLyap.C144_certified",
    "SafeLearning.FltLyap.C144_level_set",
    "SafeLearning.FltLyap.C144_complete",
    "SafeLearning.FltLyap.C144_local",
    "SafeLearning.FltLyap.C144_region"
   ],
   "note": "Without adaptive discretisation. C144_local needs the Lipschitz constants only where the system is, and allows for next states outside the error bounds by a known error. Underflow and overflow are covered as long as the compared numbers are finite; IEEE 754 double precision is an instance. The rounding errors in the value function and the dynamics are bounds that the user supplies."
  },
  {
   "property": "C145",
   "status": "proved",
   "theorems": [
    "SafeLearning.C145_dlqr",
    "SafeLearning.C145_lqr"
   ],
   "note": "Residual and gain error are quadratic forms that are compared with the form of q. For exact solvers (e = d = 0) this is C124 and C125 without uniqueness."
  },
  {
   "property": "C146",
   "status": "proved",
   "theorems": [
    "SafeLearning.C146_inaccurate_solver",
    "SafeLearning.C146_bellman_error",
    "SafeLearning.C146_improvement",
    "SafeLearning.C146_rounds",
    "SafeLearning.C146_tight"
   ],
   "note": "cvxpy is a parameter: with status OPTIMAL its values satisfy the constraints up to e, and their sum is at most h below that of any feasible values. The Bellman error needs 2 * _EPS relative to the cell lengths to add up to less than one, as C11. The rounds need a triangulated policy on the grid of the value function, as C92."
  },
  {
   "property": "C147",
   "status": "proved",
   "theorems": [
    "SafeLearning.C147_nonlinear"
   ],
   "note": "The level is not computed. The model error is a bound on the difference of the two linear maps in the maximum norm; C140 bounds it for the matrices of linearize, and C140_pendulum_inaccurate_partial combines the two for the pendulum."
  },
  {
   "property": "C148",
   "status": "proved",
   "theorems": [
    "SafeLearning.C148_rounds",
    "SafeLearning.C148_everywhere"
   ],
   "note": "C148_rounds is for starts at grid points, C148_everywhere for all starts in the domain. States that leave the domain are clipped, as the value function does. Next states from grid points must be where the triangulation takes convex combinations (not in the boundary strip of width 2 eps in two and more dimensions, see C106)."
  },
  {
   "property": "C149",
   "status": "partial",
   "theorems": [
    "SafeLearning.C149_best_safe_action",
    "SafeLearning.C149_defined",
    "SafeLearning.C149_greedy_partial",
    "SafeLearning.C149_greedy_line",
    "SafeLearning.C149_rounds_partial",
    "SafeLearning.C149_rounds_line",
    "SafeLearning.C149_rounds_small_discount",
    "SafeLearning.C149_without_rounding",
    "SafeLearning.C149_grid_lines_refuted"
   ],
   "note": "C149_best_safe_action and C149_defined hold without further hypotheses on the system; C149_greedy_line and C149_rounds_line in one dimension. In several dimensions C149_greedy_partial and C149_rounds_partial need computed next states away from grid lines (C149_grid_lines_refuted and C128_divergence_refuted show what happens otherwise), or a small discount factor (C149_rounds_small_discount). The closed loop of every round is assumed to be Lipschitz continuous. C149_without_rounding relates the rounded model to the exact one."
  },
  {
   "property": "C150",
   "status": "partial",
   "theorems": [
    "SafeLearning.C150_accuracy",
    "SafeLearning.C150_confidence",
    "SafeLearning.C150_nan_refuted",
    "SafeLearning.C150_bounds"
   ],
   "note": "C150_accuracy (for every tolerance), C150_confidence (intervals), C150_bounds (explicit). C150_nan_refuted: in double precision the computed variance can be negative, and its root NaN, although the exact posterior variance is positive; C150_bounds gives the margin that excludes it. Sums from left to right and the row by row factorisation are assumed; overflow is not modelled."
  },
  {
   "property": "C151",
   "status": "proved",
   "theorems": [
    "SafeLearning.C151_interval",
    "SafeLearning.C151_check",
    "SafeLearning.C151_history",
    "SafeLearning.C151_learning",
    "SafeLearning.C151_sample"
   ],
   "note": "C151_interval: enlarged computed intervals contain the exact ones. C151_check: one comparison. C151_history: any history of calls. C151_learning: probability over the true dynamics and the measurement errors with adaptive choices. C151_sample: get_safe_sample. Each has an example in double precision. Rounding is relative (no underflow or overflow in the predictions), and grid states and actions are exact inputs of the predictions."
  },
  {
   "property": "C152",
   "status": "proved",
   "theorems": [
    "SafeLearning.C152_trajectories",
    "SafeLearning.C152_region"
   ],
   "note": "C152_trajectories: what the safe set promises holds for the true closed loop if the exact intervals contain the next states. C152_region: probability over the true dynamics and the measurement errors with adaptive choices in T rounds. The example computes a safe set of all five states of a line in double precision and shows that all trajectories from (-2, 2) come within 1/2 of the origin, with a probability of at least 4/5. Rounding in the predictions is relative (no underflow or overflow), adaptive refinement is off, and grid states and actions are exact inputs of the predictions."
  },
  {
   "property": "C153",
   "status": "proved",
   "theorems": [
    "SafeLearning.C153_round",
    "SafeLearning.C153_exploration"
   ],
   "note": "C153_round: one call of get_safe_sample. C153_exploration: probability over the true dynamics and the measurement errors in T rounds. The example accepts a pair in double precision. Rounding in the predictions is relative (no underflow or overflow), and candidates are finite numbers."
  },
  {
   "property": "C154",
   "status": "partial",
   "theorems": [
    "SafeLearning.C154_quadratic",
    "SafeLearning.C154_gradient",
    "SafeLearning.C154_linear",
    "SafeLearning.C154_positive_partial",
    "SafeLearning.C154_lipschitz",
    "SafeLearning.C154_positive_refuted",
    "SafeLearning.C154_lipschitz_refuted",
    "SafeLearning.C154_ieee_quadratic",
    "SafeLearning.C154_finite",
    "SafeLearning.C154_nan",
    "SafeLearning.C154_underflow_refuted",
    "SafeLearning.C154_ieee_linear"
   ],
   "note": "C154_quadratic, C154_gradient and C154_linear hold for all matrices. C154_positive_refuted: in double precision the value of a positive definite quadratic function is negative at some state. C154_positive_partial: it is positive if the smallest eigenvalue exceeds the rounding errors, in arithmetic without underflow (C154_underflow_refuted). C154_ieee_quadratic and C154_ieee_linear bound the errors with underflow, if the results are finite. C154_lipschitz bounds the error of the computed Lipschitz constant, which can be smaller than the exact one (C154_lipschitz_refuted). C154_finite and C154_nan: values that are not finite are not hidden. The orders of additions include fused multiplications and additions."
  },
  {
   "property": "C155",
   "status": "proved",
   "theorems": [
    "SafeLearning.C155_next_state",
    "SafeLearning.C155_region",
    "SafeLearning.C155_saturation",
    "SafeLearning.C155_saturation_nan",
    "SafeLearning.C155_state_finite",
    "SafeLearning.C155_ieee_next_state",
    "SafeLearning.C155_ieee_region"
   ],
   "note": "C155_next_state: error of the computed next state. C155_region: region of attraction, an instance of C144_local, where the Lipschitz constants are needed on a box only. C155_ieee_next_state and C155_ieee_region cover underflow and overflow in all computations. The examples are an unstable system with an active saturation in double precision. C155_saturation and C155_saturation_nan: what saturation does with overflow and NaN. C155_state_finite: it does not hide a wrong state. The dynamics are deterministic, and the Lipschitz constants are numbers."
  }
 ]
}