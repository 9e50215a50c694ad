# Axioms of the theorems in MANIFEST.json

Output of `#print axioms` (Lean 4.33.0).

| Property | Theorem | Axioms |
|---|---|---|
| C01 | `SafeLearning.GridWorld.C01_index_roundtrip` | propext, Classical.choice, Quot.sound |
| C01 | `SafeLearning.GridWorld.C01_index_roundtrip_robust` | propext, Classical.choice, Quot.sound |
| C02 | `SafeLearning.GridWorld.C02_state_to_index_nearest` | propext, Classical.choice, Quot.sound |
| C03 | `SafeLearning.GridWorld.C03_all_points_enumerates` | propext, Classical.choice, Quot.sound |
| C03 | `SafeLearning.GridWorld.C03_all_points_nodup` | propext, Classical.choice, Quot.sound |
| C04 | `SafeLearning.GridWorld.C04_state_to_rectangle_contains` | propext, Classical.choice, Quot.sound |
| C04 | `SafeLearning.GridWorld.C04_state_to_rectangle_inside` | propext, Classical.choice, Quot.sound |
| C05 | `SafeLearning.GridWorld.C05_rectangle_consistent` | propext, Classical.choice, Quot.sound |
| C06 | `SafeLearning.GridWorld.C06_constructor` | propext, Classical.choice, Quot.sound |
| C06 | `SafeLearning.GridWorld.C06_constructor_scalar` | propext, Quot.sound |
| C06 | `SafeLearning.GridWorld.C06_state_to_index_rejects` | propext, Classical.choice, Quot.sound |
| C06 | `SafeLearning.GridWorld.C06_index_to_state_rejects` | propext, Classical.choice, Quot.sound |
| C07 | `SafeLearning.GridWorld.C07_sample_continuous` | propext, Classical.choice, Quot.sound |
| C07 | `SafeLearning.GridWorld.C07_sample_continuous_surjective` | propext, Classical.choice, Quot.sound |
| C07 | `SafeLearning.GridWorld.C07_sample_discrete` | propext, Classical.choice, Quot.sound |
| C08 | `SafeLearning.C08_nearest_value` | propext, Classical.choice, Quot.sound |
| C08 | `SafeLearning.C08_grid_points` | propext, Classical.choice, Quot.sound |
| C08 | `SafeLearning.C08_parameter_derivative` | propext, Classical.choice, Quot.sound |
| C08 | `SafeLearning.C08_gradient` | propext, Quot.sound |
| C08 | `SafeLearning.C08_too_few_values` | propext, Classical.choice, Quot.sound |
| C08 | `SafeLearning.C08_parameters_rows` | propext, Quot.sound |
| C09 | `SafeLearning.C09_construction` | propext, Classical.choice, Quot.sound |
| C09 | `SafeLearning.C09_weights_barycentric` | propext, Classical.choice, Quot.sound |
| C09 | `SafeLearning.C09_construction_iff` | propext, Classical.choice, Quot.sound |
| C10 | `SafeLearning.C10_affine_exact` | propext, Classical.choice, Quot.sound |
| C11 | `SafeLearning.C11_interpolates` | propext, Classical.choice, Quot.sound |
| C11 | `SafeLearning.C11_linear_1d` | propext, Classical.choice, Quot.sound |
| C12 | `SafeLearning.C12_weights_nonneg` | propext, Classical.choice, Quot.sound |
| C12 | `SafeLearning.C12_maximum_principle` | propext, Classical.choice, Quot.sound |
| C12 | `SafeLearning.C12_weights_boundary` | propext, Classical.choice, Quot.sound |
| C12 | `SafeLearning.C12_weights_nonneg_1d` | propext, Classical.choice, Quot.sound |
| C12 | `SafeLearning.C12_strip_negative` | propext, Classical.choice, Quot.sound |
| C13 | `SafeLearning.C13_parameter_derivative` | propext, Classical.choice, Quot.sound |
| C14 | `SafeLearning.C14_gradient_is_slope` | propext, Classical.choice, Quot.sound |
| C14 | `SafeLearning.C14_gradient_affine` | propext, Classical.choice, Quot.sound |
| C14 | `SafeLearning.C14_gradient_parameter_derivative` | propext, Classical.choice, Quot.sound |
| C14 | `SafeLearning.C14_arguments` | propext, Classical.choice, Quot.sound |
| C15 | `SafeLearning.C15_find_simplex_valid` | propext, Classical.choice, Quot.sound |
| C15 | `SafeLearning.C15_simplices_valid` | propext, Classical.choice, Quot.sound |
| C16 | `SafeLearning.C16_projection` | propext, Classical.choice, Quot.sound |
| C17 | `SafeLearning.C17_tf_agrees` | propext, Classical.choice, Quot.sound |
| C17 | `SafeLearning.C17_tf_gradient_is_slope` | propext, Classical.choice, Quot.sound |
| C17 | `SafeLearning.C17_tf_gradient_affine` | propext, Classical.choice, Quot.sound |
| C18 | `SafeLearning.C18_well_defined` | propext, Classical.choice, Quot.sound |
| C18 | `SafeLearning.C18_tiling_1d` | propext, Classical.choice, Quot.sound |
| C18 | `SafeLearning.C18_tiling_2d` | propext, Classical.choice, Quot.sound |
| C18 | `SafeLearning.C18_continuous` | propext, Classical.choice, Quot.sound |
| C18 | `SafeLearning.C18_continuous_1d` | propext, Classical.choice, Quot.sound |
| C18 | `SafeLearning.C18_continuous_2d` | propext, Classical.choice, Quot.sound |
| C18 | `SafeLearning.C18_continuous_1d_everywhere` | propext, Classical.choice, Quot.sound |
| C18 | `SafeLearning.C18_boundary_2d_refuted` | propext, Classical.choice, Quot.sound |
| C18 | `SafeLearning.C18_continuous_3d_refuted` | propext, Classical.choice, Quot.sound |
| C19 | `SafeLearning.Lyap.C19_safe_set_sound` | propext, Classical.choice, Quot.sound |
| C20 | `SafeLearning.Lyap.C20_largest_level_set` | propext, Classical.choice, Quot.sound |
| C20 | `SafeLearning.Lyap.C20_batch_independent` | propext, Classical.choice, Quot.sound |
| C21 | `SafeLearning.Lyap.C21_initial_set_kept` | propext, Classical.choice, Quot.sound |
| C22 | `SafeLearning.Lyap.C22_cannot_shrink_partial` | propext, Classical.choice, Quot.sound |
| C22 | `SafeLearning.Lyap.C22_cannot_shrink_refuted` | propext, Classical.choice, Quot.sound |
| C23 | `SafeLearning.FltLyap.C23_c_max_refuted_nan` | propext, Classical.choice, Quot.sound |
| C23 | `SafeLearning.Lyap.C23_c_max_partial` | propext, Classical.choice, Quot.sound |
| C23 | `SafeLearning.Lyap.C23_c_max_wraps_when_nothing_certified` | propext, Classical.choice, Quot.sound |
| C23 | `SafeLearning.Lyap.C23_c_max_refuted_too_small` | propext, Classical.choice, Quot.sound |
| C23 | `SafeLearning.Lyap.C23_c_max_refuted_too_large` | propext, Classical.choice, Quot.sound |
| C24 | `SafeLearning.Lyap.C24_history_independent` | propext, Classical.choice, Quot.sound |
| C24 | `SafeLearning.Lyap.C24_idempotent` | propext, Classical.choice, Quot.sound |
| C25 | `SafeLearning.C25_decrease_in_cell` | propext, Classical.choice, Quot.sound |
| C25 | `SafeLearning.C25_decrease_in_cell_local` | propext, Classical.choice, Quot.sound |
| C25 | `SafeLearning.C25_local_lipschitz_refuted` | propext, Classical.choice, Quot.sound |
| C26 | `SafeLearning.C26_v_decrease_bound_upper` | propext, Classical.choice, Quot.sound |
| C26 | `SafeLearning.C26_v_decrease_bound_constant` | propext, Classical.choice, Quot.sound |
| C26 | `SafeLearning.C26_v_decrease_bound_exact` | propext, Classical.choice, Quot.sound |
| C27 | `SafeLearning.C27_reaches_initial_set` | propext, Classical.choice, Quot.sound |
| C27 | `SafeLearning.C27_forward_invariant` | propext, Classical.choice, Quot.sound |
| C27 | `SafeLearning.C27_c_max_level` | propext, Classical.choice, Quot.sound |
| C28 | `SafeLearning.Lyap.C28_refined_state_partial` | propext, Classical.choice, Quot.sound |
| C28 | `SafeLearning.Lyap.C28_refined_points_refuted` | propext, Classical.choice, Quot.sound |
| C28 | `SafeLearning.Lyap.C28_adaptive_needs_initial_set` | propext, Classical.choice, Quot.sound |
| C28 | `SafeLearning.C28_refined_points_cover` | propext, Classical.choice, Quot.sound |
| C28 | `SafeLearning.C28_refined_check` | propext, Classical.choice, Quot.sound |
| C29 | `SafeLearning.Lyap.C29_later_assignments_ignored` | propext, Classical.choice, Quot.sound |
| C29 | `SafeLearning.Lyap.C29_arguments_take_effect_refuted` | propext, Classical.choice, Quot.sound |
| C29 | `SafeLearning.Lyap.C29_adaptive_change_raises` | propext, Classical.choice, Quot.sound |
| C29 | `SafeLearning.Lyap.C29_arguments_take_effect_partial` | propext, Classical.choice, Quot.sound |
| C30 | `SafeLearning.Lyap.C30_is_safe_nearest` | propext, Classical.choice, Quot.sound |
| C30 | `SafeLearning.Lyap.C30_is_safe_grid_point` | propext, Classical.choice, Quot.sound |
| C31 | `SafeLearning.C31_smallest_boundary_value` | propext, Classical.choice, Quot.sound |
| C32 | `SafeLearning.C32_region_partial` | propext, Classical.choice, Quot.sound |
| C32 | `SafeLearning.C32_python3_refuted` | propext, Classical.choice, Quot.sound |
| C32 | `SafeLearning.C32_outside` | propext, Classical.choice, Quot.sound |
| C32 | `SafeLearning.C32_border_start_refuted` | propext, Classical.choice, Quot.sound |
| C33 | `SafeLearning.C33_increasing_partial` | propext, Classical.choice, Quot.sound |
| C33 | `SafeLearning.C33_increasing_connected_partial` | propext, Classical.choice, Quot.sound |
| C33 | `SafeLearning.C33_refuted` | propext, Classical.choice, Quot.sound |
| C33 | `SafeLearning.C33_ties_refuted` | propext, Classical.choice, Quot.sound |
| C34 | `SafeLearning.SampleSystem.C34_safe_sample` | propext, Classical.choice, Quot.sound |
| C34 | `SafeLearning.SampleSystem.C34_safe_sample_actions` | propext, Classical.choice, Quot.sound |
| C34 | `SafeLearning.SampleSystem.C34_true_next_state_inside` | propext, Classical.choice, Quot.sound |
| C35 | `SafeLearning.SampleSystem.C35_most_uncertain` | propext, Classical.choice, Quot.sound |
| C35 | `SafeLearning.SampleSystem.C35_most_uncertain_subsampled` | propext, Classical.choice, Quot.sound |
| C36 | `SafeLearning.SampleSystem.C36_backup` | propext, Classical.choice, Quot.sound |
| C36 | `SafeLearning.SampleSystem.C36_backup_subsampled` | propext, Classical.choice, Quot.sound |
| C36 | `SafeLearning.SampleSystem.C36_returns` | propext, Classical.choice, Quot.sound |
| C36 | `SafeLearning.SampleSystem.C36_actions_refuted` | propext, Classical.choice, Quot.sound |
| C37 | `SafeLearning.C37_perturb_no_limits` | propext, Classical.choice, Quot.sound |
| C37 | `SafeLearning.C37_perturb_limits` | propext, Classical.choice, Quot.sound |
| C37 | `SafeLearning.C37_perturb_mismatch` | propext, Quot.sound |
| C38 | `SafeLearning.C38_batchify_partitions` | propext, Classical.choice, Quot.sound |
| C38 | `SafeLearning.C38_batchify_many` | propext, Classical.choice, Quot.sound |
| C38 | `SafeLearning.C38_batchify_many_partitions` | propext, Classical.choice, Quot.sound |
| C38 | `SafeLearning.C38_batchify_zero` | propext, Quot.sound |
| C39 | `SafeLearning.C39_combinations` | propext, Classical.choice, Quot.sound |
| C39 | `SafeLearning.C39_linearly_spaced` | propext, Classical.choice, Quot.sound |
| C40 | `SafeLearning.C40_storage_partial` | propext, Quot.sound |
| C40 | `SafeLearning.C40_mixed_refuted` | none |
| C41 | `SafeLearning.C41_same_object` | propext, Quot.sound |
| C41 | `SafeLearning.C41_writes_visible` | propext, Quot.sound |
| C41 | `SafeLearning.C41_fresh` | propext |
| C42 | `SafeLearning.C42_unique_rows` | propext, Classical.choice, Quot.sound |
| C42 | `SafeLearning.C42_unique_rows_values` | propext, Classical.choice, Quot.sound |
| C42 | `SafeLearning.C42_signed_zero_kept` | propext, Classical.choice, Quot.sound |
| C43 | `SafeLearning.C43_trajectory` | propext, Classical.choice, Quot.sound |
| C43 | `SafeLearning.C43_no_steps` | propext |
| C44 | `SafeLearning.C44_dlqr_closed_loop` | propext, Classical.choice, Quot.sound |
| C44 | `SafeLearning.C44_dlqr_minimises` | propext, Classical.choice, Quot.sound |
| C44 | `SafeLearning.C44_dlqr_decrease` | propext, Classical.choice, Quot.sound |
| C45 | `SafeLearning.C45_lqr_closed_loop` | propext, Classical.choice, Quot.sound |
| C45 | `SafeLearning.C45_lqr_decrease` | propext, Classical.choice, Quot.sound |
| C46 | `SafeLearning.C46_weights_in_bounds` | propext, Classical.choice, Quot.sound |
| C46 | `SafeLearning.C46_gradient_clipping` | propext, Classical.choice, Quot.sound |
| C47 | `SafeLearning.C47_concatenates` | propext, Quot.sound |
| C47 | `SafeLearning.C47_transparent` | propext, Quot.sound |
| C47 | `SafeLearning.C47_rejects` | propext, Quot.sound |
| C47 | `SafeLearning.C47_tensor_rank` | propext, Quot.sound |
| C47 | `SafeLearning.C47_single_rows` | propext |
| C48 | `SafeLearning.C48_positions_on_ellipse` | propext, Classical.choice, Quot.sound |
| C48 | `SafeLearning.C48_refuted` | propext, Classical.choice, Quot.sound |
| C48 | `SafeLearning.C48_ellipse_partial` | propext, Classical.choice, Quot.sound |
| C48 | `SafeLearning.C48_bounds_partial` | propext, Classical.choice, Quot.sound |
| C48 | `SafeLearning.C48_upper_refuted` | propext, Classical.choice, Quot.sound |
| C49 | `SafeLearning.C49_pointwise` | propext, Classical.choice, Quot.sound |
| C49 | `SafeLearning.C49_parameters` | propext, Classical.choice, Quot.sound |
| C49 | `SafeLearning.C49_supported` | propext, Classical.choice, Quot.sound |
| C49 | `SafeLearning.C49_none` | propext, Quot.sound |
| C49 | `SafeLearning.C49_widths` | propext, Quot.sound |
| C50 | `SafeLearning.C50_copy_parameters_partial` | propext, Classical.choice, Quot.sound |
| C50 | `SafeLearning.C50_sum_copies_first` | propext, Classical.choice, Quot.sound |
| C50 | `SafeLearning.C50_sum_refuted` | propext, Classical.choice, Quot.sound |
| C50 | `SafeLearning.C50_saturation_refuted` | propext, Classical.choice, Quot.sound |
| C51 | `SafeLearning.C51_construction` | propext, Quot.sound |
| C51 | `SafeLearning.C51_saturation_partial` | propext, Classical.choice, Quot.sound |
| C51 | `SafeLearning.C51_network_refuted` | propext, Classical.choice, Quot.sound |
| C52 | `SafeLearning.C52_evaluate` | propext, Classical.choice, Quot.sound |
| C52 | `SafeLearning.C52_evaluate_fails` | propext, Classical.choice, Quot.sound |
| C52 | `SafeLearning.C52_add_data_point_partial` | propext, Classical.choice, Quot.sound |
| C52 | `SafeLearning.C52_single_refuted` | propext, Classical.choice, Quot.sound |
| C52 | `SafeLearning.C52_column` | propext, Classical.choice, Quot.sound |
| C52 | `SafeLearning.C52_rows_refuted` | propext, Classical.choice, Quot.sound |
| C52 | `SafeLearning.C52_parameters_refuted` | propext |
| C52 | `SafeLearning.C52_parameters_empty` | propext |
| C53 | `SafeLearning.C53_posterior` | propext, Classical.choice, Quot.sound |
| C53 | `SafeLearning.C53_defined` | propext, Classical.choice, Quot.sound |
| C53 | `SafeLearning.C53_undefined` | propext, Classical.choice, Quot.sound |
| C53 | `SafeLearning.C53_covariance` | propext, Classical.choice, Quot.sound |
| C53 | `SafeLearning.C53_scale` | propext, Classical.choice, Quot.sound |
| C54 | `SafeLearning.C54_history` | propext, Classical.choice, Quot.sound |
| C54 | `SafeLearning.C54_prediction` | propext, Classical.choice, Quot.sound |
| C54 | `SafeLearning.C54_accepts` | propext, Classical.choice, Quot.sound |
| C54 | `SafeLearning.C54_order` | propext, Classical.choice, Quot.sound |
| C55 | `SafeLearning.C55_bounds` | propext, Classical.choice, Quot.sound |
| C55 | `SafeLearning.C55_error` | propext, Classical.choice, Quot.sound |
| C55 | `SafeLearning.C55_shrinks` | propext, Classical.choice, Quot.sound |
| C56 | `SafeLearning.C56_value` | propext, Classical.choice, Quot.sound |
| C56 | `SafeLearning.C56_gradient` | propext, Classical.choice, Quot.sound |
| C57 | `SafeLearning.C57_linear_system` | propext, Quot.sound |
| C58 | `SafeLearning.C58_lipschitz_partial` | propext, Classical.choice, Quot.sound |
| C58 | `SafeLearning.C58_values` | propext, Classical.choice, Quot.sound |
| C58 | `SafeLearning.C58_not_evaluated` | propext, Classical.choice, Quot.sound |
| C58 | `SafeLearning.C58_scale_refuted` | propext, Classical.choice, Quot.sound |
| C58 | `SafeLearning.C58_nobias_refuted` | propext, Classical.choice, Quot.sound |
| C59 | `SafeLearning.C59_boundary_refuted` | propext, Classical.choice, Quot.sound |
| C59 | `SafeLearning.C59_wrong_size` | propext, Classical.choice, Quot.sound |
| C59 | `SafeLearning.C59_update` | propext, Classical.choice, Quot.sound |
| C59 | `SafeLearning.C59_monotone_partial` | propext, Classical.choice, Quot.sound |
| C59 | `SafeLearning.C59_contraction_partial` | propext, Classical.choice, Quot.sound |
| C59 | `SafeLearning.C59_contraction_boundary` | propext, Classical.choice, Quot.sound |
| C60 | `SafeLearning.C60_unique_solution` | propext, Classical.choice, Quot.sound |
| C60 | `SafeLearning.C60_convergence` | propext, Classical.choice, Quot.sound |
| C60 | `SafeLearning.C60_convergence_gamma` | propext, Classical.choice, Quot.sound |
| C60 | `SafeLearning.C60_limit` | propext, Classical.choice, Quot.sound |
| C61 | `SafeLearning.C61_boundary_refuted` | propext, Classical.choice, Quot.sound |
| C61 | `SafeLearning.C61_optimal_partial` | propext, Classical.choice, Quot.sound |
| C61 | `SafeLearning.C61_solvable_partial` | propext, Classical.choice, Quot.sound |
| C62 | `SafeLearning.C62_bellman_error` | propext, Classical.choice, Quot.sound |
| C62 | `SafeLearning.C62_defined` | propext, Classical.choice, Quot.sound |
| C63 | `SafeLearning.C63_best_safe_action_partial` | propext, Classical.choice, Quot.sound |
| C63 | `SafeLearning.C63_defined` | propext, Classical.choice, Quot.sound |
| C63 | `SafeLearning.C63_wrong_parameters` | propext, Classical.choice, Quot.sound |
| C63 | `SafeLearning.C63_wrong_constraint` | propext, Classical.choice, Quot.sound |
| C63 | `SafeLearning.C63_empty` | propext, Classical.choice, Quot.sound |
| C63 | `SafeLearning.C63_no_safe_action_refuted` | propext, Classical.choice, Quot.sound |
| C64 | `SafeLearning.C64_boundary_refuted` | propext, Classical.choice, Quot.sound |
| C64 | `SafeLearning.C64_improves_partial` | propext, Classical.choice, Quot.sound |
| C64 | `SafeLearning.C64_optimal_partial` | propext, Classical.choice, Quot.sound |
| C64 | `SafeLearning.C64_policy_iteration_partial` | propext, Classical.choice, Quot.sound |
| C65 | `SafeLearning.C65_lyapunov_term_partial` | propext, Classical.choice, Quot.sound |
| C65 | `SafeLearning.C65_written_out_partial` | propext, Classical.choice, Quot.sound |
| C65 | `SafeLearning.C65_only_unsafe_lowered_partial` | propext, Classical.choice, Quot.sound |
| C65 | `SafeLearning.C65_deterministic_refuted` | propext, Classical.choice, Quot.sound |
| C66 | `SafeLearning.C66_constructor` | propext, Quot.sound |
| C66 | `SafeLearning.C66_positive_definite` | propext, Classical.choice, Quot.sound |
| C66 | `SafeLearning.C66_hidden_dimension` | propext, Quot.sound |
| C66 | `SafeLearning.C66_too_few_activations` | propext, Classical.choice, Quot.sound |
| C66 | `SafeLearning.C66_relu_not_positive` | propext, Classical.choice, Quot.sound |
| C67 | `SafeLearning.C67_normalize_inverse` | propext, Classical.choice, Quot.sound |
| C67 | `SafeLearning.C67_equilibrium` | propext, Classical.choice, Quot.sound |
| C67 | `SafeLearning.C67_linearize_partial` | propext, Classical.choice, Quot.sound |
| C67 | `SafeLearning.C67_discrete_jacobian_partial` | propext, Classical.choice, Quot.sound |
| C67 | `SafeLearning.C67_negative_friction_refuted` | propext, Classical.choice, Quot.sound |
| C68 | `SafeLearning.C68_equilibrium` | propext, Classical.choice, Quot.sound |
| C68 | `SafeLearning.C68_linearize_partial` | propext, Classical.choice, Quot.sound |
| C68 | `SafeLearning.C68_discrete_jacobian_partial` | propext, Classical.choice, Quot.sound |
| C68 | `SafeLearning.C68_linearize_refuted` | propext, Classical.choice, Quot.sound |
| C69 | `SafeLearning.C69_equilibrium` | propext, Classical.choice, Quot.sound |
| C69 | `SafeLearning.C69_normalize_inverse` | propext, Classical.choice, Quot.sound |
| C69 | `SafeLearning.C69_linearize_partial` | propext, Classical.choice, Quot.sound |
| C69 | `SafeLearning.C69_discrete_jacobian` | propext, Classical.choice, Quot.sound |
| C69 | `SafeLearning.C69_linearize_refuted` | propext, Classical.choice, Quot.sound |
| C70 | `SafeLearning.C70_find_nearest_partial` | propext, Classical.choice, Quot.sound |
| C70 | `SafeLearning.C70_find_nearest_unsorted_partial` | propext, Classical.choice, Quot.sound |
| C70 | `SafeLearning.C70_unsorted_index_refuted` | propext, Classical.choice, Quot.sound |
| C70 | `SafeLearning.C70_empty` | propext, Quot.sound |
| C71 | `SafeLearning.C71_class_weights` | propext, Classical.choice, Quot.sound |
| C71 | `SafeLearning.C71_confusion_weights` | propext, Classical.choice, Quot.sound |
| C72 | `SafeLearning.C72_derivative_partial` | propext, Classical.choice, Quot.sound |
| C72 | `SafeLearning.C72_degree_four_refuted` | propext, Quot.sound |
| C72 | `SafeLearning.C72_three_coordinates_refuted` | propext, Classical.choice, Quot.sound |
| C72 | `SafeLearning.C72_one_coordinate_refuted` | propext, Classical.choice, Quot.sound |
| C73 | `SafeLearning.C73_roa` | propext, Classical.choice, Quot.sound |
| C73 | `SafeLearning.C73_modes_agree` | propext, Classical.choice, Quot.sound |
| C73 | `SafeLearning.C73_horizon_zero` | propext, Classical.choice, Quot.sound |
| C74 | `SafeLearning.C74_rollout` | propext, Classical.choice, Quot.sound |
| C74 | `SafeLearning.C74_truncation` | propext, Classical.choice, Quot.sound |
| C74 | `SafeLearning.C74_convergence_partial` | propext, Classical.choice, Quot.sound |
| C74 | `SafeLearning.C74_convergence_refuted` | propext, Classical.choice, Quot.sound |
| C74 | `SafeLearning.C74_no_states` | propext, Quot.sound |
| C75 | `SafeLearning.C75_maps_inside_partial` | propext, Classical.choice, Quot.sound |
| C75 | `SafeLearning.C75_action_limit_partial` | propext, Classical.choice, Quot.sound |
| C75 | `SafeLearning.C75_unpadded_partial` | propext, Classical.choice, Quot.sound |
| C75 | `SafeLearning.C75_action_limit_refuted` | propext, Classical.choice, Quot.sound |
| C75 | `SafeLearning.C75_single_refuted` | propext, Classical.choice, Quot.sound |
| C76 | `SafeLearning.C76_argument_unchanged_partial` | propext, Classical.choice, Quot.sound |
| C76 | `SafeLearning.C76_argument_refuted` | propext, Classical.choice, Quot.sound |
| C77 | `SafeLearning.C77_failed_call_partial` | propext, Classical.choice, Quot.sound |
| C77 | `SafeLearning.C77_refuted` | propext, Classical.choice, Quot.sound |
| C78 | `SafeLearning.C78_defined` | propext, Classical.choice, Quot.sound |
| C78 | `SafeLearning.C78_interpolates_partial` | propext, Classical.choice, Quot.sound |
| C78 | `SafeLearning.C78_mean_refuted` | propext, Classical.choice, Quot.sound |
| C78 | `SafeLearning.C78_data_refuted` | propext, Classical.choice, Quot.sound |
| C79 | `SafeLearning.C79_reuse_partial` | propext, Classical.choice, Quot.sound |
| C79 | `SafeLearning.C79_attributes_ignored` | propext, Classical.choice, Quot.sound |
| C79 | `SafeLearning.C79_attributes_refuted` | propext, Classical.choice, Quot.sound |
| C80 | `SafeLearning.C80_change_partial` | propext, Classical.choice, Quot.sound |
| C80 | `SafeLearning.C80_triangle_partial` | propext, Classical.choice, Quot.sound |
| C80 | `SafeLearning.C80_default_value` | propext, Classical.choice, Quot.sound |
| C80 | `SafeLearning.C80_neg_inf_refuted` | propext, Classical.choice, Quot.sound |
| C80 | `SafeLearning.C80_negative_int_partial` | propext, Classical.choice, Quot.sound |
| C80 | `SafeLearning.C80_negative_int_refuted` | propext, Classical.choice, Quot.sound |
| C80 | `SafeLearning.C80_matrix_norms_refuted` | propext, Classical.choice, Quot.sound |
| C80 | `SafeLearning.C80_empty` | propext, Classical.choice, Quot.sound |
| C81 | `SafeLearning.C81_response` | propext, Classical.choice, Quot.sound |
| C81 | `SafeLearning.C81_prefix` | propext, Quot.sound |
| C81 | `SafeLearning.C81_unknown_reference` | propext, Quot.sound |
| C82 | `SafeLearning.C82_gridify` | propext, Classical.choice, Quot.sound |
| C82 | `SafeLearning.C82_default_limits` | propext, Classical.choice, Quot.sound |
| C82 | `SafeLearning.C82_too_few_points` | propext, Quot.sound |
| C83 | `SafeLearning.C83_monomials_partial` | propext, Classical.choice, Quot.sound |
| C83 | `SafeLearning.C83_one_coordinate` | propext, Quot.sound |
| C83 | `SafeLearning.C83_degree_five_refuted` | propext, Classical.choice, Quot.sound |
| C83 | `SafeLearning.C83_three_coordinates_refuted` | propext, Classical.choice, Quot.sound |
| C84 | `SafeLearning.C84_future_values` | propext, Classical.choice, Quot.sound |
| C84 | `SafeLearning.C84_future_values_lyapunov_partial` | propext, Classical.choice, Quot.sound |
| C84 | `SafeLearning.C84_defined` | propext, Classical.choice, Quot.sound |
| C84 | `SafeLearning.C84_lyapunov_refuted` | propext, Classical.choice, Quot.sound |
| C85 | `SafeLearning.C85_posterior_at_last_update_partial` | propext, Classical.choice, Quot.sound |
| C85 | `SafeLearning.C85_after_data_partial` | propext, Classical.choice, Quot.sound |
| C85 | `SafeLearning.C85_stale_refuted` | propext, Classical.choice, Quot.sound |
| C85 | `SafeLearning.C85_mixed_refuted` | propext, Classical.choice, Quot.sound |
| C85 | `SafeLearning.C85_defined` | propext, Classical.choice, Quot.sound |
| C86 | `SafeLearning.C86_mean` | propext, Quot.sound |
| C86 | `SafeLearning.C86_follows_data` | propext, Classical.choice, Quot.sound |
| C86 | `SafeLearning.C86_stack` | propext, Classical.choice, Quot.sound |
| C87 | `SafeLearning.C87_current_partial` | propext, Classical.choice, Quot.sound |
| C87 | `SafeLearning.C87_assignments_ignored` | propext, Classical.choice, Quot.sound |
| C87 | `SafeLearning.C87_refuted` | propext, Classical.choice, Quot.sound |
| C88 | `SafeLearning.C88_next_state_partial` | propext, Classical.choice, Quot.sound |
| C88 | `SafeLearning.C88_margin_partial` | propext, Classical.choice, Quot.sound |
| C88 | `SafeLearning.C88_backup_partial` | propext, Classical.choice, Quot.sound |
| C88 | `SafeLearning.C88_refuted` | propext, Classical.choice, Quot.sound |
| C89 | `SafeLearning.C89_parameters_partial` | propext, Classical.choice, Quot.sound |
| C89 | `SafeLearning.C89_disjoint_partial` | propext, Classical.choice, Quot.sound |
| C89 | `SafeLearning.C89_refuted_dot` | propext, Classical.choice, Quot.sound |
| C89 | `SafeLearning.C89_refuted_slash` | propext, Classical.choice, Quot.sound |
| C89 | `SafeLearning.C89_refuted_variable_scope` | propext, Classical.choice, Quot.sound |
| C90 | `SafeLearning.C90_saturation_partial` | propext, Classical.choice, Quot.sound |
| C90 | `SafeLearning.C90_parameters_without_effect` | propext, Classical.choice, Quot.sound |
| C90 | `SafeLearning.C90_refuted` | propext, Classical.choice, Quot.sound |
| C91 | `SafeLearning.C91_interior_partial` | propext, Classical.choice, Quot.sound |
| C91 | `SafeLearning.C91_saturation_interior_partial` | propext, Classical.choice, Quot.sound |
| C91 | `SafeLearning.C91_project_partial` | propext, Classical.choice, Quot.sound |
| C91 | `SafeLearning.C91_triangulation_partial` | propext, Classical.choice, Quot.sound |
| C91 | `SafeLearning.C91_saturation_partial` | propext, Classical.choice, Quot.sound |
| C91 | `SafeLearning.C91_same_simplex_1d` | propext, Classical.choice, Quot.sound |
| C91 | `SafeLearning.C91_refuted_project` | propext, Classical.choice, Quot.sound |
| C91 | `SafeLearning.C91_refuted_saturated` | propext, Classical.choice, Quot.sound |
| C92 | `SafeLearning.C92_boundary_refuted` | propext, Classical.choice, Quot.sound |
| C92 | `SafeLearning.C92_first_round_partial` | propext, Classical.choice, Quot.sound |
| C92 | `SafeLearning.C92_terminates_partial` | propext, Classical.choice, Quot.sound |
| C92 | `SafeLearning.C92_rounds_partial` | propext, Classical.choice, Quot.sound |
| C93 | `SafeLearning.GridWorld.C93_roundtrip_partial` | propext, Classical.choice, Quot.sound |
| C93 | `SafeLearning.GridWorld.C93_nearest_partial` | propext, Classical.choice, Quot.sound |
| C93 | `SafeLearning.GridWorld.C93_agrees` | propext, Classical.choice, Quot.sound |
| C93 | `SafeLearning.GridWorld.C93_roundtrip_refuted` | propext, Classical.choice, Quot.sound |
| C93 | `SafeLearning.GridWorld.C93_all_points_partial` | propext, Classical.choice, Quot.sound |
| C93 | `SafeLearning.GridWorld.C93_all_points_refuted` | propext, Classical.choice, Quot.sound |
| C93 | `SafeLearning.GridWorld.C93_rectangle_partial` | propext, Classical.choice, Quot.sound |
| C94 | `SafeLearning.GridWorld.C94_len_partial` | propext, Classical.choice, Quot.sound |
| C94 | `SafeLearning.GridWorld.C94_refuted` | propext, Classical.choice, Quot.sound |
| C95 | `SafeLearning.C95_new_call_partial` | propext, Classical.choice, Quot.sound |
| C95 | `SafeLearning.C95_existing_tensor_partial` | propext, Classical.choice, Quot.sound |
| C95 | `SafeLearning.C95_earlier_tensor_refuted` | propext, Classical.choice, Quot.sound |
| C95 | `SafeLearning.C95_saturation_refuted` | propext, Classical.choice, Quot.sound |
| C96 | `SafeLearning.C96_value` | propext, Classical.choice, Quot.sound |
| C96 | `SafeLearning.C96_derivative_partial` | propext, Classical.choice, Quot.sound |
| C96 | `SafeLearning.C96_refuted` | propext, Classical.choice, Quot.sound |
| C96 | `SafeLearning.C96_norm_partial` | propext, Classical.choice, Quot.sound |
| C96 | `SafeLearning.C96_norm_refuted` | propext, Classical.choice, Quot.sound |
| C96 | `SafeLearning.C96_positive` | propext, Classical.choice, Quot.sound |
| C97 | `SafeLearning.C97_error` | propext, Classical.choice, Quot.sound |
| C97 | `SafeLearning.C97_level_partial` | propext, Classical.choice, Quot.sound |
| C97 | `SafeLearning.C97_no_ties` | propext, Classical.choice, Quot.sound |
| C97 | `SafeLearning.C97_maximal` | propext, Classical.choice, Quot.sound |
| C97 | `SafeLearning.C97_certified_partial` | propext, Classical.choice, Quot.sound |
| C97 | `SafeLearning.C97_tie_refuted` | propext, Classical.choice, Quot.sound |
| C97 | `SafeLearning.C97_origin_refuted` | propext, Classical.choice, Quot.sound |
| C98 | `SafeLearning.C98_estimate` | propext, Quot.sound |
| C98 | `SafeLearning.C98_sound` | propext, Classical.choice, Quot.sound |
| C98 | `SafeLearning.C98_monotone` | propext, Quot.sound |
| C98 | `SafeLearning.C98_targets` | propext, Quot.sound |
| C99 | `SafeLearning.C99_zero_partial` | propext, Classical.choice, Quot.sound |
| C99 | `SafeLearning.C99_boundary_refuted` | propext, Classical.choice, Quot.sound |
| C100 | `SafeLearning.C100_half_sum` | propext, Classical.choice, Quot.sound |
| C100 | `SafeLearning.C100_max_partial` | propext, Classical.choice, Quot.sound |
| C100 | `SafeLearning.C100_max_refuted` | propext, Classical.choice, Quot.sound |
| C100 | `SafeLearning.C100_min_partial` | propext, Classical.choice, Quot.sound |
| C100 | `SafeLearning.C100_min_refuted` | propext, Classical.choice, Quot.sound |
| C100 | `SafeLearning.C100_reciprocal_refuted` | propext, Classical.choice, Quot.sound |
| C101 | `SafeLearning.C101_policy` | propext, Classical.choice, Quot.sound |
| C101 | `SafeLearning.C101_closed_loop` | propext, Classical.choice, Quot.sound |
| C101 | `SafeLearning.C101_max_partial` | propext, Classical.choice, Quot.sound |
| C101 | `SafeLearning.C101_max_refuted` | propext, Classical.choice, Quot.sound |
| C101 | `SafeLearning.C101_value_partial` | propext, Classical.choice, Quot.sound |
| C101 | `SafeLearning.C101_value_norm_partial` | propext, Classical.choice, Quot.sound |
| C101 | `SafeLearning.C101_value_refuted` | propext, Classical.choice, Quot.sound |
| C102 | `SafeLearning.C102_trisurf` | propext, Classical.choice, Quot.sound |
| C102 | `SafeLearning.C102_image` | propext, Classical.choice, Quot.sound |
| C102 | `SafeLearning.C102_triangulation` | propext, Classical.choice, Quot.sound |
| C102 | `SafeLearning.C102_surface_partial` | propext, Classical.choice, Quot.sound |
| C102 | `SafeLearning.C102_surface_refuted` | propext, Classical.choice, Quot.sound |
| C103 | `SafeLearning.C103_planes` | propext, Classical.choice, Quot.sound |
| C103 | `SafeLearning.C103_sub_sampling` | propext, Classical.choice, Quot.sound |
| C104 | `SafeLearning.C104_scrub` | propext, Quot.sound |
| C104 | `SafeLearning.C104_independent` | propext, Classical.choice, Quot.sound |
| C104 | `SafeLearning.C104_idempotent` | propext, Quot.sound |
| C104 | `SafeLearning.C104_raises` | propext, Classical.choice, Quot.sound |
| C105 | `SafeLearning.C105_strip` | propext, Classical.choice, Quot.sound |
| C105 | `SafeLearning.C105_missing_value` | propext, Classical.choice, Quot.sound |
| C105 | `SafeLearning.C105_bound_partial` | propext, Classical.choice, Quot.sound |
| C105 | `SafeLearning.C105_small_refuted` | propext, Classical.choice, Quot.sound |
| C106 | `SafeLearning.C106_iterates_partial` | propext, Classical.choice, Quot.sound |
| C106 | `SafeLearning.C106_solution_partial` | propext, Classical.choice, Quot.sound |
| C106 | `SafeLearning.C106_bounded` | propext, Classical.choice, Quot.sound |
| C106 | `SafeLearning.C106_car_partial` | propext, Classical.choice, Quot.sound |
| C106 | `SafeLearning.C106_boundary_refuted` | propext, Classical.choice, Quot.sound |
| C107 | `SafeLearning.C107_report` | propext, Classical.choice, Quot.sound |
| C107 | `SafeLearning.C107_car` | propext, Classical.choice, Quot.sound |
| C107 | `SafeLearning.C107_trajectory` | propext, Quot.sound |
| C108 | `SafeLearning.C108_update_gp` | propext, Classical.choice, Quot.sound |
| C109 | `SafeLearning.C109_masks` | propext, Classical.choice, Quot.sound |
| C109 | `SafeLearning.C109_sound` | propext, Classical.choice, Quot.sound |
| C110 | `SafeLearning.FltLyap.C110_increase_not_refined` | propext, Classical.choice, Quot.sound |
| C110 | `SafeLearning.FltLyap.C110_safe_is_meaningful` | propext, Classical.choice, Quot.sound |
| C110 | `SafeLearning.FltLyap.C110_history` | propext, Classical.choice, Quot.sound |
| C110 | `SafeLearning.FltLyap.C110_level_set` | propext, Classical.choice, Quot.sound |
| C110 | `SafeLearning.FltLyap.C110_agrees_with_exact` | propext, Classical.choice, Quot.sound |
| C111 | `SafeLearning.FltLyap.C111_finite` | propext, Classical.choice, Quot.sound |
| C111 | `SafeLearning.FltLyap.C111_sample_is_meaningful_partial` | propext, Classical.choice, Quot.sound |
| C111 | `SafeLearning.FltLyap.C111_backup_refuted` | propext, Classical.choice, Quot.sound |
| C112 | `SafeLearning.FltGrid.C112_nan_raises` | propext, Classical.choice, Quot.sound |
| C112 | `SafeLearning.FltGrid.C112_infinite_is_border` | propext, Classical.choice, Quot.sound |
| C112 | `SafeLearning.FltGrid.C112_triangulation_nan` | propext, Classical.choice, Quot.sound |
| C112 | `SafeLearning.FltGrid.C112_rectangle` | propext, Classical.choice, Quot.sound |
| C112 | `SafeLearning.FltGrid.C112_rectangle_refuted` | propext, Classical.choice, Quot.sound |
| C112 | `SafeLearning.FltGrid.C112_triangulation_finite` | propext, Classical.choice, Quot.sound |
| C113 | `SafeLearning.C113_constraint_refuted` | propext |
| C113 | `SafeLearning.C113_initial_refuted` | propext |
| C113 | `SafeLearning.C113_repaired_partial` | propext |
| C114 | `SafeLearning.C114_print_refuted` | propext |
| C114 | `SafeLearning.C114_loop_partial` | propext, Classical.choice, Quot.sound |
| C114 | `SafeLearning.C114_shown_partial` | propext, Classical.choice, Quot.sound |
| C115 | `SafeLearning.C115_construct_refuted` | propext, Classical.choice, Quot.sound |
| C115 | `SafeLearning.C115_child_class_partial` | propext, Classical.choice, Quot.sound |
| C115 | `SafeLearning.C115_default_variance_partial` | propext, Classical.choice, Quot.sound |
| C116 | `SafeLearning.C116_gradients_partial` | propext, Classical.choice, Quot.sound |
| C116 | `SafeLearning.C116_second_graph_refuted` | propext, Quot.sound |
| C117 | `SafeLearning.C117_plot_partial` | propext, Classical.choice, Quot.sound |
| C117 | `SafeLearning.C117_later_plot_refuted` | propext, Classical.choice, Quot.sound |
| C117 | `SafeLearning.C117_mirror_refuted` | propext, Classical.choice, Quot.sound |
| C117 | `SafeLearning.C117_mirror_symmetric_partial` | propext, Classical.choice, Quot.sound |
| C118 | `SafeLearning.C118_lipschitz_partial` | propext, Classical.choice, Quot.sound |
| C118 | `SafeLearning.C118_lipschitz_1d` | propext, Classical.choice, Quot.sound |
| C118 | `SafeLearning.C118_sharp` | propext, Classical.choice, Quot.sound |
| C118 | `SafeLearning.C118_bounded` | propext, Classical.choice, Quot.sound |
| C118 | `SafeLearning.C118_boundary_refuted` | propext, Classical.choice, Quot.sound |
| C118 | `SafeLearning.C118_notebook_partial` | propext, Classical.choice, Quot.sound |
| C118 | `SafeLearning.C118_local_refuted` | propext, Classical.choice, Quot.sound |
| C119 | `SafeLearning.FltLyap.C119_check_partial` | propext, Classical.choice, Quot.sound |
| C119 | `SafeLearning.FltLyap.C119_complete_partial` | propext, Classical.choice, Quot.sound |
| C119 | `SafeLearning.FltLyap.C119_history_partial` | propext, Classical.choice, Quot.sound |
| C119 | `SafeLearning.FltLyap.C119_decrease_in_cell_partial` | propext, Classical.choice, Quot.sound |
| C119 | `SafeLearning.FltLyap.C119_sample_partial` | propext, Classical.choice, Quot.sound |
| C119 | `SafeLearning.FltLyap.C119_unsound_refuted` | propext, Classical.choice, Quot.sound |
| C119 | `SafeLearning.FltLyap.C119_check_finite_partial` | propext, Classical.choice, Quot.sound |
| C119 | `SafeLearning.FltLyap.C119_complete_finite_partial` | propext, Classical.choice, Quot.sound |
| C119 | `SafeLearning.FltLyap.C119_history_finite_partial` | propext, Classical.choice, Quot.sound |
| C119 | `SafeLearning.FltLyap.C119_sample_finite_partial` | propext, Classical.choice, Quot.sound |
| C119 | `SafeLearning.C119_overflow_refuted` | propext, Classical.choice, Quot.sound |
| C120 | `SafeLearning.C120_triangulation` | propext, Classical.choice, Quot.sound |
| C120 | `SafeLearning.C120_triangulation_inside` | propext, Classical.choice, Quot.sound |
| C120 | `SafeLearning.C120_sharp` | propext, Classical.choice, Quot.sound |
| C120 | `SafeLearning.C120_piecewise_constant` | propext, Classical.choice, Quot.sound |
| C121 | `SafeLearning.C121_value_iteration` | propext, Classical.choice, Quot.sound |
| C121 | `SafeLearning.C121_value_iteration_boundary` | propext, Classical.choice, Quot.sound |
| C121 | `SafeLearning.C121_fixed_point` | propext, Classical.choice, Quot.sound |
| C122 | `SafeLearning.C122_near_optimal` | propext, Classical.choice, Quot.sound |
| C123 | `SafeLearning.C123_without_rounding` | propext, Classical.choice, Quot.sound |
| C123 | `SafeLearning.C123_every_point` | propext, Classical.choice, Quot.sound |
| C123 | `SafeLearning.C123_location_partial` | propext, Classical.choice, Quot.sound |
| C123 | `SafeLearning.C123_accuracy_partial` | propext, Classical.choice, Quot.sound |
| C123 | `SafeLearning.C123_upper_limit` | propext, Classical.choice, Quot.sound |
| C123 | `SafeLearning.C123_grid_point_refuted` | propext, Classical.choice, Quot.sound |
| C123 | `SafeLearning.C123_inside_refuted` | propext, Classical.choice, Quot.sound |
| C124 | `SafeLearning.C124_discrete` | propext, Classical.choice, Quot.sound |
| C125 | `SafeLearning.C125_continuous` | propext, Classical.choice, Quot.sound |
| C126 | `SafeLearning.C126_policy` | propext, Classical.choice, Quot.sound |
| C126 | `SafeLearning.C126_linearisation` | propext, Classical.choice, Quot.sound |
| C126 | `SafeLearning.C126_lqr` | propext, Classical.choice, Quot.sound |
| C126 | `SafeLearning.C126_pendulum` | propext, Classical.choice, Quot.sound |
| C126 | `SafeLearning.C126_cart` | propext, Classical.choice, Quot.sound |
| C127 | `SafeLearning.C127_every_point` | propext, Classical.choice, Quot.sound |
| C127 | `SafeLearning.C127_accuracy_partial` | propext, Classical.choice, Quot.sound |
| C127 | `SafeLearning.C127_line` | propext, Classical.choice, Quot.sound |
| C127 | `SafeLearning.C127_grid_lines_refuted` | propext, Classical.choice, Quot.sound |
| C128 | `SafeLearning.C128_value_iteration_partial` | propext, Classical.choice, Quot.sound |
| C128 | `SafeLearning.C128_line` | propext, Classical.choice, Quot.sound |
| C128 | `SafeLearning.C128_small_discount` | propext, Classical.choice, Quot.sound |
| C128 | `SafeLearning.C128_without_rounding` | propext, Classical.choice, Quot.sound |
| C128 | `SafeLearning.C128_bounds_without_rounding` | propext, Classical.choice, Quot.sound |
| C128 | `SafeLearning.C128_divergence_refuted` | propext, Classical.choice, Quot.sound |
| C129 | `SafeLearning.C129_interval` | propext, Classical.choice, Quot.sound |
| C129 | `SafeLearning.C129_exact` | propext, Classical.choice, Quot.sound |
| C129 | `SafeLearning.C129_sharp` | propext, Classical.choice, Quot.sound |
| C129 | `SafeLearning.C129_fixed_beta_fails` | propext, Classical.choice, Quot.sound |
| C129 | `SafeLearning.C129_stack` | propext, Classical.choice, Quot.sound |
| C129 | `SafeLearning.C129_region` | propext, Classical.choice, Quot.sound |
| C130 | `SafeLearning.Lyap.C130_python_float_refuted` | propext, Classical.choice, Quot.sound |
| C130 | `SafeLearning.Lyap.C130_not_adaptive` | propext, Classical.choice, Quot.sound |
| C130 | `SafeLearning.Lyap.C130_refined_partial` | propext, Classical.choice, Quot.sound |
| C130 | `SafeLearning.Lyap.C130_integer` | propext, Classical.choice, Quot.sound |
| C130 | `SafeLearning.Lyap.C130_numpy_float_refuted` | propext, Classical.choice, Quot.sound |
| C130 | `SafeLearning.C130_decrease_nearby_partial` | propext, Classical.choice, Quot.sound |
| C131 | `SafeLearning.ConfigSession.C131_matrix` | propext, Quot.sound |
| C131 | `SafeLearning.ConfigSession.C131_matrix_later` | propext, Classical.choice, Quot.sound |
| C131 | `SafeLearning.ConfigSession.C131_triangulation_refuted` | propext |
| C131 | `SafeLearning.ConfigSession.C131_triangulation_never_refuted` | propext, Classical.choice, Quot.sound |
| C131 | `SafeLearning.ConfigSession.C131_triangulation_partial` | propext, Classical.choice, Quot.sound |
| C131 | `SafeLearning.ConfigSession.C131_running_graph_refuted` | propext |
| C131 | `SafeLearning.ConfigSession.C131_all_points` | propext, Classical.choice, Quot.sound |
| C131 | `SafeLearning.ConfigSession.C131_network` | propext, Classical.choice, Quot.sound |
| C132 | `SafeLearning.C132_points` | propext, Classical.choice, Quot.sound |
| C132 | `SafeLearning.C132_numbers_differ` | propext, Classical.choice, Quot.sound |
| C132 | `SafeLearning.C132_rejected` | propext, Classical.choice, Quot.sound |
| C132 | `SafeLearning.C132_missing_numbers_refuted` | propext, Classical.choice, Quot.sound |
| C133 | `SafeLearning.C133_pendulum_motion_partial` | propext, Classical.choice, Quot.sound |
| C133 | `SafeLearning.C133_pendulum_energy_partial` | propext, Classical.choice, Quot.sound |
| C133 | `SafeLearning.C133_cart_motion_partial` | propext, Classical.choice, Quot.sound |
| C133 | `SafeLearning.C133_cart_energy_partial` | propext, Classical.choice, Quot.sound |
| C133 | `SafeLearning.C133_cart_energy_refuted` | propext, Classical.choice, Quot.sound |
| C133 | `SafeLearning.C133_van_der_pol_reverse` | propext, Classical.choice, Quot.sound |
| C133 | `SafeLearning.C133_van_der_pol_energy` | propext, Classical.choice, Quot.sound |
| C134 | `SafeLearning.C134_monotone_partial` | propext, Classical.choice, Quot.sound |
| C134 | `SafeLearning.C134_adaptive_refuted` | propext, Classical.choice, Quot.sound |
| C134 | `SafeLearning.C134_max_refinement_refuted` | propext, Classical.choice, Quot.sound |
| C134 | `SafeLearning.C134_keep_refuted` | propext, Classical.choice, Quot.sound |
| C134 | `SafeLearning.C134_data_refuted` | propext, Classical.choice, Quot.sound |
| C135 | `SafeLearning.Lyap.C135_complete` | propext, Classical.choice, Quot.sound |
| C135 | `SafeLearning.Lyap.C135_old_or_new` | propext, Classical.choice, Quot.sound |
| C135 | `SafeLearning.Lyap.C135_sound` | propext, Classical.choice, Quot.sound |
| C135 | `SafeLearning.Lyap.C135_recovery` | propext, Classical.choice, Quot.sound |
| C135 | `SafeLearning.Lyap.C135_initial_refuted` | propext, Classical.choice, Quot.sound |
| C135 | `SafeLearning.Lyap.C135_c_max_refuted` | propext, Classical.choice, Quot.sound |
| C135 | `SafeLearning.Lyap.C135_keep_refuted` | propext, Classical.choice, Quot.sound |
| C135 | `SafeLearning.Lyap.C135_adaptive_refuted` | propext, Classical.choice, Quot.sound |
| C135 | `SafeLearning.C135_gp_complete` | propext, Classical.choice, Quot.sound |
| C135 | `SafeLearning.C135_gp_prediction` | propext, Classical.choice, Quot.sound |
| C135 | `SafeLearning.C135_gp_old` | propext, Classical.choice, Quot.sound |
| C135 | `SafeLearning.C135_gp_recovery_partial` | propext, Classical.choice, Quot.sound |
| C135 | `SafeLearning.C135_gp_stuck_refuted` | propext, Classical.choice, Quot.sound |
| C135 | `SafeLearning.C135_gp_feed_refuted` | propext, Classical.choice, Quot.sound |
| C136 | `SafeLearning.C136_gp_history` | propext, Classical.choice, Quot.sound |
| C136 | `SafeLearning.C136_stack_complete` | propext, Classical.choice, Quot.sound |
| C136 | `SafeLearning.C136_stack_progress` | propext, Classical.choice, Quot.sound |
| C136 | `SafeLearning.C136_stack_history` | propext, Classical.choice, Quot.sound |
| C136 | `SafeLearning.C136_region` | propext, Classical.choice, Quot.sound |
| C136 | `SafeLearning.C136_retry_refuted` | propext, Classical.choice, Quot.sound |
| C137 | `SafeLearning.C137_calibrated` | propext, Classical.choice, Quot.sound |
| C137 | `SafeLearning.C137_best_linear` | propext, Classical.choice, Quot.sound |
| C137 | `SafeLearning.C137_bayes` | propext, Classical.choice, Quot.sound |
| C137 | `SafeLearning.C137_chebyshev` | propext, Classical.choice, Quot.sound |
| C137 | `SafeLearning.C137_gaussian` | propext, Classical.choice, Quot.sound |
| C138 | `SafeLearning.C138_loop` | propext, Classical.choice, Quot.sound |
| C138 | `SafeLearning.C138_coverage` | propext, Classical.choice, Quot.sound |
| C138 | `SafeLearning.C138_region` | propext, Classical.choice, Quot.sound |
| C138 | `SafeLearning.C138_exploration` | propext, Classical.choice, Quot.sound |
| C139 | `SafeLearning.C139_cart_pole_constants` | propext, Classical.choice, Quot.sound |
| C139 | `SafeLearning.C139_accuracy` | propext, Classical.choice, Quot.sound |
| C139 | `SafeLearning.C139_pendulum` | propext, Classical.choice, Quot.sound |
| C139 | `SafeLearning.C139_cart_pole` | propext, Classical.choice, Quot.sound |
| C139 | `SafeLearning.C139_van_der_pol` | propext, Classical.choice, Quot.sound |
| C140 | `SafeLearning.C140_pendulum_exact_partial` | propext, Classical.choice, Quot.sound |
| C140 | `SafeLearning.C140_cart_pole_exact_partial` | propext, Classical.choice, Quot.sound |
| C140 | `SafeLearning.C140_van_der_pol_exact_partial` | propext, Classical.choice, Quot.sound |
| C140 | `SafeLearning.C140_pendulum_close_partial` | propext, Classical.choice, Quot.sound |
| C140 | `SafeLearning.C140_cart_pole_close_partial` | propext, Classical.choice, Quot.sound |
| C140 | `SafeLearning.C140_van_der_pol_close_partial` | propext, Classical.choice, Quot.sound |
| C140 | `SafeLearning.C140_cart_pole_refuted` | propext, Classical.choice, Quot.sound |
| C140 | `SafeLearning.C140_pendulum_refuted` | propext, Classical.choice, Quot.sound |
| C140 | `SafeLearning.C140_van_der_pol_refuted` | propext, Classical.choice, Quot.sound |
| C140 | `SafeLearning.C140_pendulum_controller_partial` | propext, Classical.choice, Quot.sound |
| C140 | `SafeLearning.C140_cart_pole_controller_partial` | propext, Classical.choice, Quot.sound |
| C140 | `SafeLearning.C140_pendulum_dlqr_partial` | propext, Classical.choice, Quot.sound |
| C140 | `SafeLearning.C140_pendulum_inaccurate_partial` | propext, Classical.choice, Quot.sound |
| C141 | `SafeLearning.C141_one_call` | propext, Classical.choice, Quot.sound |
| C141 | `SafeLearning.C141_exists` | propext, Classical.choice, Quot.sound |
| C141 | `SafeLearning.C141_between` | propext, Classical.choice, Quot.sound |
| C141 | `SafeLearning.C141_region` | propext, Classical.choice, Quot.sound |
| C141 | `SafeLearning.C141_pendulum` | propext, Classical.choice, Quot.sound |
| C141 | `SafeLearning.C141_simulated_alone` | propext, Classical.choice, Quot.sound |
| C141 | `SafeLearning.C141_region_local` | propext, Classical.choice, Quot.sound |
| C141 | `SafeLearning.C141_cart_pole` | propext, Classical.choice, Quot.sound |
| C141 | `SafeLearning.C141_van_der_pol` | propext, Classical.choice, Quot.sound |
| C142 | `SafeLearning.C142_result` | propext, Quot.sound |
| C142 | `SafeLearning.C142_same_object` | propext, Quot.sound |
| C142 | `SafeLearning.C142_other_imports` | propext, Quot.sound |
| C142 | `SafeLearning.C142_folder_partial` | propext, Quot.sound |
| C142 | `SafeLearning.C142_failure_partial` | propext, Quot.sound |
| C142 | `SafeLearning.C142_folder_refuted` | propext |
| C142 | `SafeLearning.C142_failure_refuted` | propext |
| C143 | `SafeLearning.C143_restores` | none |
| C143 | `SafeLearning.C143_transparent` | propext |
| C143 | `SafeLearning.C143_names` | propext, Quot.sound |
| C144 | `SafeLearning.C144_real_time` | propext, Classical.choice, Quot.sound |
| C144 | `SafeLearning.C144_pendulum` | propext, Classical.choice, Quot.sound |
| C144 | `SafeLearning.FltLyap.C144_certified` | propext, Classical.choice, Quot.sound |
| C144 | `SafeLearning.FltLyap.C144_level_set` | propext, Classical.choice, Quot.sound |
| C144 | `SafeLearning.FltLyap.C144_complete` | propext, Classical.choice, Quot.sound |
| C144 | `SafeLearning.FltLyap.C144_local` | propext, Classical.choice, Quot.sound |
| C144 | `SafeLearning.FltLyap.C144_region` | propext, Classical.choice, Quot.sound |
| C145 | `SafeLearning.C145_dlqr` | propext, Classical.choice, Quot.sound |
| C145 | `SafeLearning.C145_lqr` | propext, Classical.choice, Quot.sound |
| C146 | `SafeLearning.C146_inaccurate_solver` | propext, Classical.choice, Quot.sound |
| C146 | `SafeLearning.C146_bellman_error` | propext, Classical.choice, Quot.sound |
| C146 | `SafeLearning.C146_improvement` | propext, Classical.choice, Quot.sound |
| C146 | `SafeLearning.C146_rounds` | propext, Classical.choice, Quot.sound |
| C146 | `SafeLearning.C146_tight` | propext, Classical.choice, Quot.sound |
| C147 | `SafeLearning.C147_nonlinear` | propext, Classical.choice, Quot.sound |
| C148 | `SafeLearning.C148_rounds` | propext, Classical.choice, Quot.sound |
| C148 | `SafeLearning.C148_everywhere` | propext, Classical.choice, Quot.sound |
| C149 | `SafeLearning.C149_best_safe_action` | propext, Classical.choice, Quot.sound |
| C149 | `SafeLearning.C149_defined` | propext, Classical.choice, Quot.sound |
| C149 | `SafeLearning.C149_greedy_partial` | propext, Classical.choice, Quot.sound |
| C149 | `SafeLearning.C149_greedy_line` | propext, Classical.choice, Quot.sound |
| C149 | `SafeLearning.C149_rounds_partial` | propext, Classical.choice, Quot.sound |
| C149 | `SafeLearning.C149_rounds_line` | propext, Classical.choice, Quot.sound |
| C149 | `SafeLearning.C149_rounds_small_discount` | propext, Classical.choice, Quot.sound |
| C149 | `SafeLearning.C149_without_rounding` | propext, Classical.choice, Quot.sound |
| C149 | `SafeLearning.C149_grid_lines_refuted` | propext, Classical.choice, Quot.sound |
| C150 | `SafeLearning.C150_accuracy` | propext, Classical.choice, Quot.sound |
| C150 | `SafeLearning.C150_confidence` | propext, Classical.choice, Quot.sound |
| C150 | `SafeLearning.C150_nan_refuted` | propext, Classical.choice, Quot.sound |
| C150 | `SafeLearning.C150_bounds` | propext, Classical.choice, Quot.sound |
| C151 | `SafeLearning.C151_interval` | propext, Classical.choice, Quot.sound |
| C151 | `SafeLearning.C151_check` | propext, Classical.choice, Quot.sound |
| C151 | `SafeLearning.C151_history` | propext, Classical.choice, Quot.sound |
| C151 | `SafeLearning.C151_learning` | propext, Classical.choice, Quot.sound |
| C151 | `SafeLearning.C151_sample` | propext, Classical.choice, Quot.sound |
| C152 | `SafeLearning.C152_trajectories` | propext, Classical.choice, Quot.sound |
| C152 | `SafeLearning.C152_region` | propext, Classical.choice, Quot.sound |
| C153 | `SafeLearning.C153_round` | propext, Classical.choice, Quot.sound |
| C153 | `SafeLearning.C153_exploration` | propext, Classical.choice, Quot.sound |
| C154 | `SafeLearning.C154_quadratic` | propext, Classical.choice, Quot.sound |
| C154 | `SafeLearning.C154_gradient` | propext, Classical.choice, Quot.sound |
| C154 | `SafeLearning.C154_linear` | propext, Classical.choice, Quot.sound |
| C154 | `SafeLearning.C154_positive_partial` | propext, Classical.choice, Quot.sound |
| C154 | `SafeLearning.C154_lipschitz` | propext, Classical.choice, Quot.sound |
| C154 | `SafeLearning.C154_positive_refuted` | propext, Classical.choice, Quot.sound |
| C154 | `SafeLearning.C154_lipschitz_refuted` | propext, Classical.choice, Quot.sound |
| C154 | `SafeLearning.C154_ieee_quadratic` | propext, Classical.choice, Quot.sound |
| C154 | `SafeLearning.C154_finite` | propext, Classical.choice, Quot.sound |
| C154 | `SafeLearning.C154_nan` | propext, Quot.sound |
| C154 | `SafeLearning.C154_underflow_refuted` | propext, Classical.choice, Quot.sound |
| C154 | `SafeLearning.C154_ieee_linear` | propext, Classical.choice, Quot.sound |
| C155 | `SafeLearning.C155_next_state` | propext, Classical.choice, Quot.sound |
| C155 | `SafeLearning.C155_region` | propext, Classical.choice, Quot.sound |
| C155 | `SafeLearning.C155_saturation` | propext, Classical.choice, Quot.sound |
| C155 | `SafeLearning.C155_saturation_nan` | propext, Quot.sound |
| C155 | `SafeLearning.C155_state_finite` | propext, Classical.choice, Quot.sound |
| C155 | `SafeLearning.C155_ieee_next_state` | propext, Classical.choice, Quot.sound |
| C155 | `SafeLearning.C155_ieee_region` | propext, Classical.choice, Quot.sound |
