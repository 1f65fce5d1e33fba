{
 "claims": [
  {
   "property": "C01",
   "status": "proved",
   "theorems": [
    "Verif.C01_phase",
    "Verif.C01_phase_ode",
    "Verif.C01_alpha_raises_iff",
    "Verif.C01_goal_phase_above_one",
    "Verif.C01_dmp",
    "Verif.C01_fv",
    "Verif.C01_cartesian",
    "Verif.C01_dual",
    "Verif.C01_state_following"
   ],
   "note": ""
  },
  {
   "property": "C02",
   "status": "proved",
   "theorems": [
    "Verif.C02_phase_scale",
    "Verif.C02_phase_shift"
   ],
   "note": ""
  },
  {
   "property": "C03",
   "status": "proved",
   "theorems": [
    "Verif.C03_partition_of_unity",
    "Verif.C03_design_matrix",
    "Verif.C03_force_between"
   ],
   "note": ""
  },
  {
   "property": "C04",
   "status": "proved",
   "theorems": [
    "Verif.C04_force_linear",
    "Verif.C04_force_bounded",
    "Verif.C04_force_zero",
    "Verif.C04_force_vanishes"
   ],
   "note": ""
  },
  {
   "property": "C05",
   "status": "proved",
   "theorems": [
    "Verif.C05_create_raises_iff",
    "Verif.C05_basis_functions",
    "Verif.C05_start_time_ignored"
   ],
   "note": ""
  },
  {
   "property": "C06",
   "status": "proved",
   "theorems": [
    "Verif.C06_orientation_forces",
    "Verif.C06_demonstrated_rotation",
    "Verif.C06_demonstrated_motion",
    "Verif.C06_forces_invert_acceleration",
    "Verif.C06_step_acceleration"
   ],
   "note": ""
  },
  {
   "property": "C07",
   "status": "proved",
   "theorems": [
    "Verif.C07_euler_step_converges",
    "Verif.C07_euler_open_loop_converges",
    "Verif.C07_unstable_beyond_limit"
   ],
   "note": ""
  },
  {
   "property": "C08",
   "status": "proved",
   "theorems": [
    "Verif.C08_rk4_step_converges",
    "Verif.C08_rk4_open_loop_converges"
   ],
   "note": ""
  },
  {
   "property": "C09",
   "status": "proved",
   "theorems": [
    "Verif.C09_rk4_is_classical"
   ],
   "note": ""
  },
  {
   "property": "C10",
   "status": "proved",
   "theorems": [
    "Verif.C10_dmp",
    "Verif.C10_cartesian",
    "Verif.C10_rk4_cython_eq_python"
   ],
   "note": ""
  },
  {
   "property": "C11",
   "status": "proved",
   "theorems": [
    "Verif.C11_dmp",
    "Verif.C11_cartesian",
    "Verif.C11_euler_cython_eq_python",
    "Verif.C11_disagree_with_coupling",
    "Verif.C11_disagree_before_start"
   ],
   "note": ""
  },
  {
   "property": "C12",
   "status": "proved",
   "theorems": [
    "Verif.C12_euler_substeps",
    "Verif.C12_euler_diverges",
    "Verif.C12_euler_raises",
    "Verif.C12_euler_is_semi_implicit"
   ],
   "note": ""
  },
  {
   "property": "C13",
   "status": "proved",
   "theorems": [
    "Verif.C13_translation_open_loop",
    "Verif.C13_translation_step",
    "Verif.C13_translation_cartesian_open_loop",
    "Verif.C13_translation_cartesian_step",
    "Verif.C13_dual",
    "Verif.C13_fv_open_loop",
    "Verif.C13_fv_step",
    "Verif.StateFollowingDMP.C13_state_following"
   ],
   "note": ""
  },
  {
   "property": "C14",
   "status": "proved",
   "theorems": [
    "Verif.C14_time_scaling_open_loop",
    "Verif.C14_time_scaling_step",
    "Verif.C14_in_time_create",
    "Verif.C14_in_time_after",
    "Verif.C14_time_scaling_cartesian_open_loop",
    "Verif.C14_time_scaling_cartesian_step",
    "Verif.DualCartesianDMP.C14_dual_in_time_create",
    "Verif.DualCartesianDMP.C14_dual_in_time",
    "Verif.C14_dual_open_loop",
    "Verif.C14_dual_step",
    "Verif.C14_fv_open_loop",
    "Verif.C14_fv_step",
    "Verif.StateFollowingDMP.C14_state_following_create",
    "Verif.StateFollowingDMP.C14_state_following_open_loop",
    "Verif.StateFollowingDMP.C14_state_following_step"
   ],
   "note": ""
  },
  {
   "property": "C15",
   "status": "proved",
   "theorems": [
    "Verif.C15_open_loop",
    "Verif.C15_steps",
    "Verif.C15_only_goal",
    "Verif.C15_only_goal_step",
    "Verif.C15_fv_open_loop",
    "Verif.C15_fv_steps",
    "Verif.C15_goal_is_equilibrium",
    "Verif.C15_only_goal_is_equilibrium"
   ],
   "note": ""
  },
  {
   "property": "C16",
   "status": "proved",
   "theorems": [
    "Verif.C16_other_goal",
    "Verif.C16_first_step",
    "Verif.C16_smooth_start",
    "Verif.C16_unscaled_start"
   ],
   "note": ""
  },
  {
   "property": "C17",
   "status": "proved",
   "theorems": [
    "Verif.C17_step_ignores_feedback",
    "Verif.C17_min_jerk_ignores_feedback",
    "Verif.FvDMP.C17_step_ignores_feedback"
   ],
   "note": ""
  },
  {
   "property": "C18",
   "status": "proved",
   "theorems": [
    "Verif.C18_step_eq_open_loop",
    "Verif.C18_differ_with_start_velocity",
    "Verif.C18_dmp_any_duration",
    "Verif.C18_fv",
    "Verif.C18_spring_damper",
    "Verif.C18_spring_damper_orientation",
    "Verif.C18_cartesian",
    "Verif.C18_dual",
    "Verif.C18_state_following"
   ],
   "note": ""
  },
  {
   "property": "C19",
   "status": "proved",
   "theorems": [
    "Verif.C19_reset_repeatable",
    "Verif.C19_start_change_ignored",
    "Verif.C19_start_change_with_smooth_scaling",
    "Verif.C19_fv",
    "Verif.C19_cartesian",
    "Verif.C19_dual",
    "Verif.C19_state_following"
   ],
   "note": ""
  },
  {
   "property": "C20",
   "status": "proved",
   "theorems": [
    "Verif.C20_open_loop_grid",
    "Verif.C20_open_loop_prefix",
    "Verif.C20_open_loop_returns",
    "Verif.C20_fv",
    "Verif.C20_spring_damper",
    "Verif.C20_spring_damper_orientation",
    "Verif.C20_cartesian",
    "Verif.C20_dual",
    "Verif.C20_state_following"
   ],
   "note": ""
  },
  {
   "property": "C21",
   "status": "proved",
   "theorems": [
    "Verif.C21_open_loop_does_not_disturb",
    "Verif.C21_same_values"
   ],
   "note": ""
  },
  {
   "property": "C22",
   "status": "proved",
   "theorems": [
    "Verif.C22_cartesian_set_get",
    "Verif.C22_cartesian_get_set",
    "Verif.C22_cartesian_row_major",
    "Verif.C22_cartesian_raises_iff",
    "Verif.C22_cartesian_broadcast",
    "Verif.C22_cartesian_not_atomic",
    "Verif.C22_cartesian_short",
    "Verif.C22_cartesian_row",
    "Verif.C22_set_get_weights",
    "Verif.C22_get_set_weights",
    "Verif.C22_wrong_length",
    "Verif.C22_row_major",
    "Verif.C22_dual_set_get",
    "Verif.C22_dual_get_set",
    "Verif.C22_dual_wrong_length"
   ],
   "note": ""
  },
  {
   "property": "C23",
   "status": "proved",
   "theorems": [
    "Verif.C23_cartesian_saved_weights_stay",
    "Verif.C23_cartesian_restore",
    "Verif.C23_get_weights_is_live_finding",
    "Verif.C23_restore_fails_finding",
    "Verif.C23_write_changes_object_finding"
   ],
   "note": ""
  },
  {
   "property": "C24",
   "status": "proved",
   "theorems": [
    "Verif.C24_cartesian",
    "Verif.C24_cartesian_not_atomic",
    "Verif.C24_set_execution_time",
    "Verif.C24_same_as_new",
    "Verif.C24_failure_not_atomic",
    "Verif.C24_dual"
   ],
   "note": ""
  },
  {
   "property": "C25",
   "status": "proved",
   "theorems": [
    "Verif.C25_configure_sets",
    "Verif.C25_configure_raises_iff",
    "Verif.C25_configure_frame",
    "Verif.C25_configure_not_atomic"
   ],
   "note": ""
  },
  {
   "property": "C26",
   "status": "proved",
   "theorems": [
    "Verif.C26_fv_imitate",
    "Verif.C26_cartesian_imitate",
    "Verif.C26_dual_imitate",
    "Verif.C26_ridge_optimal",
    "Verif.C26_ridge_unique",
    "Verif.C26_imitation_optimal",
    "Verif.C26_negative_raises",
    "Verif.C26_dmp_imitate"
   ],
   "note": ""
  },
  {
   "property": "C27",
   "status": "proved",
   "theorems": [
    "Verif.C27_time_scale",
    "Verif.C27_affine",
    "Verif.C27_time_shift_changes_weights",
    "Verif.C27_dmp_time",
    "Verif.C27_cartesian_time",
    "Verif.C27_dual_time",
    "Verif.C27_fv_time"
   ],
   "note": ""
  },
  {
   "property": "C28",
   "status": "proved",
   "theorems": [
    "Verif.C28_cartesian_imitate",
    "Verif.C28_cartesian_raises",
    "Verif.C28_cartesian_constant",
    "Verif.C28_fv_constant",
    "Verif.C28_fv_constant_reproduction",
    "Verif.C28_dual_constant",
    "Verif.C28_dual_constant_reproduction",
    "Verif.C28_dual_imitate",
    "Verif.C28_dual_raises",
    "Verif.C28_imitate_configures",
    "Verif.C28_imitate_raises",
    "Verif.C28_constant_demonstration",
    "Verif.C28_constant_reproduction"
   ],
   "note": ""
  },
  {
   "property": "C29",
   "status": "proved",
   "theorems": [
    "Verif.C29_solve_constraints",
    "Verif.C29_equal_times_raise",
    "Verif.C29_reference_boundary",
    "Verif.C29_reference_derivatives",
    "Verif.C29_reference_after_goal",
    "Verif.C29_imitate_boundary"
   ],
   "note": ""
  },
  {
   "property": "C30",
   "status": "proved",
   "theorems": [
    "Verif.C30_body_acceleration",
    "Verif.C30_quintic_is_solution",
    "Verif.C30_step_on_quintic",
    "Verif.C30_forces_invert_acceleration"
   ],
   "note": ""
  },
  {
   "property": "C31",
   "status": "proved",
   "theorems": [
    "Verif.C31_step_function",
    "Verif.C31_cartesian_step",
    "Verif.C31_cartesian_steps",
    "Verif.C31_cartesian_open_loop",
    "Verif.C31_cython_normalises",
    "Verif.C31_dual_step_function",
    "Verif.C31_dual_step",
    "Verif.C31_dual_open_loop",
    "Verif.C31_spring_damper_function",
    "Verif.C31_spring_damper_step",
    "Verif.C31_spring_damper_open_loop"
   ],
   "note": ""
  },
  {
   "property": "C32",
   "status": "proved",
   "theorems": [
    "Verif.C32_concatenate",
    "Verif.C32_exp",
    "Verif.C32_log",
    "Verif.C32_antipodal",
    "Verif.C32_log_exp",
    "Verif.C32_matrix"
   ],
   "note": ""
  },
  {
   "property": "C33",
   "status": "proved",
   "theorems": [
    "Verif.C33_position_is_regular_dmp",
    "Verif.C33_orientation_independent",
    "Verif.C33_step_position",
    "Verif.C33_step_orientation",
    "Verif.C33_step_memoryless",
    "Verif.C33_step_eq_open_loop"
   ],
   "note": ""
  },
  {
   "property": "C34",
   "status": "proved",
   "theorems": [
    "Verif.C34_step_function",
    "Verif.C34_open_loop",
    "Verif.C34_step",
    "Verif.C34_only_equilibria",
    "Verif.C34_dual_steps",
    "Verif.C34_dual_open_loop",
    "Verif.C34_only_equilibria_step",
    "Verif.C34_spring_damper"
   ],
   "note": ""
  },
  {
   "property": "C35",
   "status": "proved",
   "theorems": [
    "Verif.C35_python_eq_cython",
    "Verif.C35_two_sub_steps_differ",
    "Verif.C35_step",
    "Verif.C35_open_loop"
   ],
   "note": ""
  },
  {
   "property": "C36",
   "status": "proved",
   "theorems": [
    "Verif.C36_depends_only_on_configuration",
    "Verif.C36_repeatable",
    "Verif.C36_first_run",
    "Verif.C36_second_run_differs"
   ],
   "note": ""
  },
  {
   "property": "C37",
   "status": "proved",
   "theorems": [
    "Verif.C37_two_arms",
    "Verif.C37_right_arm_acceleration",
    "Verif.C37_right_arm_iff"
   ],
   "note": ""
  },
  {
   "property": "C38",
   "status": "proved",
   "theorems": [
    "Verif.C38_pos1d",
    "Verif.C38_pos1d_restoring",
    "Verif.C38_pos3d",
    "Verif.C38_pos3d_restoring",
    "Verif.C38_dual_distance",
    "Verif.C38_dual_distance_restoring",
    "Verif.C38_dual_pose_leader",
    "Verif.C38_dual_pose_opposite",
    "Verif.C38_dual_pose_formation",
    "Verif.C38_dual_pose_restoring",
    "Verif.C38_dual_pose_orientation"
   ],
   "note": ""
  },
  {
   "property": "C39",
   "status": "proved",
   "theorems": [
    "Verif.C39_well_defined",
    "Verif.C39_3d",
    "Verif.C39_3d_head_on",
    "Verif.C39_python_eq_cython",
    "Verif.C39_2d",
    "Verif.C39_2d_head_on",
    "Verif.C39_rest"
   ],
   "note": ""
  },
  {
   "property": "C40",
   "status": "proved",
   "theorems": [
    "Verif.C40_closed_form",
    "Verif.C40_reaches_goal",
    "Verif.C40_between",
    "Verif.C40_goal_missed",
    "Verif.C40_no_movement",
    "Verif.C40_errors",
    "Verif.C40_minimal_jerk",
    "Verif.MinimumJerkTrajectory.C40_class",
    "Verif.MinimumJerkTrajectory.C40_configure_ignored"
   ],
   "note": ""
  },
  {
   "property": "C41",
   "status": "proved",
   "theorems": [
    "Verif.C41_condition_exact",
    "Verif.C41_succeeds",
    "Verif.C41_fails",
    "Verif.C41_time_scale_finding"
   ],
   "note": ""
  },
  {
   "property": "C42",
   "status": "proved",
   "theorems": [
    "Verif.C42_condition_covariance",
    "Verif.C42_bayes",
    "Verif.C42_order"
   ],
   "note": ""
  },
  {
   "property": "C43",
   "status": "proved",
   "theorems": [
    "Verif.C43_covariance_rows_finding",
    "Verif.C43_via_points",
    "Verif.C43_repeated_time",
    "Verif.C43_order",
    "Verif.C43_succeeds_iff"
   ],
   "note": ""
  },
  {
   "property": "C44",
   "status": "proved",
   "theorems": [
    "Verif.C44_mean",
    "Verif.C44_dimensions_separate",
    "Verif.C44_between_weights",
    "Verif.C44_covariance",
    "Verif.C44_velocity_covariance"
   ],
   "note": ""
  },
  {
   "property": "C45",
   "status": "proved",
   "theorems": [
    "Verif.C45_normalised_velocity",
    "Verif.C45_real_velocity"
   ],
   "note": ""
  },
  {
   "property": "C46",
   "status": "proved",
   "theorems": [
    "Verif.PrompWorld.C46_all_methods_modify_times",
    "Verif.C46_query_modifies_times",
    "Verif.C46_second_query",
    "Verif.C46_scale_invariant",
    "Verif.C46_errors",
    "Verif.C46_samples"
   ],
   "note": ""
  },
  {
   "property": "C47",
   "status": "proved",
   "theorems": [
    "Verif.C47_valid_distribution",
    "Verif.C47_positive_definite",
    "Verif.C47_iterations",
    "Verif.C47_order"
   ],
   "note": ""
  },
  {
   "property": "C48",
   "status": "proved",
   "theorems": [
    "Verif.C48_forward_clipped",
    "Verif.C48_forward_memoryless",
    "Verif.C48_forward_rigid",
    "Verif.C48_forward_product",
    "Verif.C48_clip",
    "Verif.C48_set_joint",
    "Verif.C48_revolute",
    "Verif.C48_revolute_additive",
    "Verif.C48_prismatic"
   ],
   "note": ""
  },
  {
   "property": "C49",
   "status": "proved",
   "theorems": [
    "Verif.C49_random_restarts",
    "Verif.C49_success",
    "Verif.C49_local_random_restarts"
   ],
   "note": ""
  },
  {
   "property": "C50",
   "status": "proved",
   "theorems": [
    "Verif.C50_initial_guesses",
    "Verif.C50_joint_limits",
    "Verif.C50_interval_finding"
   ],
   "note": ""
  },
  {
   "property": "C51",
   "status": "proved",
   "theorems": [
    "Verif.C51_value",
    "Verif.C51_pseudometric",
    "Verif.C51_same_axis",
    "Verif.C51_singular",
    "Verif.C51_error_zero_iff"
   ],
   "note": ""
  },
  {
   "property": "C52",
   "status": "proved",
   "theorems": [
    "Verif.C52_json_round_trip",
    "Verif.C52_dmp",
    "Verif.C52_dmp_determined",
    "Verif.C52_cartesian_dmp_determined",
    "Verif.C52_cartesian_dmp",
    "Verif.C52_promp",
    "Verif.C52_promp_determined",
    "Verif.C52_yaml_eq_json",
    "Verif.C52_dmp_yaml",
    "Verif.C52_cartesian_dmp_yaml",
    "Verif.C52_promp_yaml",
    "Verif.C52_learned_promp_yaml_unreadable",
    "Verif.C52_minimum_jerk_lists",
    "Verif.C52_tuple_becomes_list",
    "Verif.C52_defaults_dmp",
    "Verif.C52_defaults_cartesian_dmp",
    "Verif.C52_defaults_promp",
    "Verif.C52_missing_argument",
    "Verif.C52_nested_tuple_yaml",
    "Verif.C52_tuple_yaml"
   ],
   "note": ""
  },
  {
   "property": "C53",
   "status": "proved",
   "theorems": [
    "Verif.C53_difference",
    "Verif.C53_field_is_acceleration",
    "Verif.C53_wrong_without_smooth_scaling",
    "Verif.C53_grid"
   ],
   "note": ""
  },
  {
   "property": "C54",
   "status": "proved",
   "theorems": [
    "Verif.C54_split_stack",
    "Verif.C54_execution_time_entry",
    "Verif.C54_execution_time_ignored",
    "Verif.C54_sample_is_demonstration",
    "Verif.C54_same_duration",
    "Verif.C54_same_length",
    "Verif.C54_propagate",
    "Verif.C54_fast_demonstrations_ignored",
    "Verif.C54_only_fast_demonstrations",
    "Verif.C54_cache",
    "Verif.C54_crash_points",
    "Verif.C54_truncated_accepted_finding",
    "Verif.C54_truncated_raises_finding",
    "Verif.C54_pipeline"
   ],
   "note": ""
  },
  {
   "property": "C55",
   "status": "proved",
   "theorems": [
    "Verif.Lasa.C55_complete_if_exists",
    "Verif.Lasa.C55_repaired",
    "Verif.Lasa.C55_no_leftovers",
    "Verif.Lasa.C55_stable",
    "Verif.Lasa.C55_concurrent_calls"
   ],
   "note": ""
  },
  {
   "property": "C56",
   "status": "proved",
   "theorems": [
    "Verif.C56_precomputed",
    "Verif.C56_precomputed_only",
    "Verif.C56_quaternion_precomputed",
    "Verif.C56_step_converges",
    "Verif.C56_runs_exist",
    "Verif.C56_default_damping",
    "Verif.C56_open_loop_converges",
    "Verif.C56_goal_is_equilibrium",
    "Verif.C56_only_equilibrium",
    "Verif.C56_unstable"
   ],
   "note": ""
  },
  {
   "property": "C57",
   "status": "proved",
   "theorems": [
    "Verif.C57_precomputed",
    "Verif.C57_via_point_times",
    "Verif.StateFollowingArgs.C57_attractor",
    "Verif.C57_strictly_inside",
    "Verif.StateFollowingDMP.C57_uninitialised_width",
    "Verif.StateFollowingDMP.C57_uninitialised_underflow",
    "Verif.StateFollowingDMP.C57_goal_ignored",
    "Verif.StateFollowingDMP.C57_equilibrium",
    "Verif.StateFollowingDMP.C57_limit"
   ],
   "note": ""
  },
  {
   "property": "C58",
   "status": "proved",
   "theorems": [
    "Verif.C58_step_results_stay",
    "Verif.C58_step_results_are_callers",
    "Verif.C58_state_following_overwritten_finding",
    "Verif.C58_state_following_witness",
    "Verif.C58_min_jerk_results_stay",
    "Verif.C58_min_jerk_results_are_callers"
   ],
   "note": ""
  },
  {
   "property": "C59",
   "status": "proved",
   "theorems": [
    "Verif.C59_check_length",
    "Verif.C59_ensure_1d_array"
   ],
   "note": ""
  },
  {
   "property": "C60",
   "status": "proved",
   "theorems": [
    "Verif.C60_second_differences",
    "Verif.C60_full_column_rank",
    "Verif.C60_covariance",
    "Verif.C60_generate",
    "Verif.C60_offsets"
   ],
   "note": ""
  },
  {
   "property": "C61",
   "status": "proved",
   "theorems": [
    "Verif.C61_n_steps_compose",
    "Verif.C61_n_steps_eq_fedBack"
   ],
   "note": ""
  },
  {
   "property": "C62",
   "status": "proved",
   "theorems": [
    "Verif.C62_dimension_open_loop",
    "Verif.C62_dimension_step",
    "Verif.C62_fv_open_loop",
    "Verif.C62_fv_step",
    "Verif.C62_fv_imitate",
    "Verif.C62_dimension_imitate",
    "Verif.StateFollowingDMP.C62_state_following"
   ],
   "note": ""
  },
  {
   "property": "C63",
   "status": "proved",
   "theorems": [
    "Verif.C63_start_follows_demonstration_finding",
    "Verif.C63_open_loop_starts_at_overwritten_row_finding",
    "Verif.C63_other_elements",
    "Verif.C63_inner_rows",
    "Verif.C63_weights_private"
   ],
   "note": ""
  },
  {
   "property": "C64",
   "status": "proved",
   "theorems": [
    "Verif.C64_calls",
    "Verif.C64_not_learned",
    "Verif.C64_clocks",
    "Verif.C64_synchronised",
    "Verif.C64_runs_ahead",
    "Verif.C64_second_execution"
   ],
   "note": ""
  },
  {
   "property": "C65",
   "status": "proved",
   "theorems": [
    "Verif.C65_unique",
    "Verif.C65_weights_optimal"
   ],
   "note": ""
  },
  {
   "property": "C66",
   "status": "proved",
   "theorems": [
    "Verif.C66_steps_within_interval",
    "Verif.C66_within_joint_limits",
    "Verif.C66_solver_ignored_finding",
    "Verif.C66_empty",
    "Verif.C66_joint_limits_finding"
   ],
   "note": ""
  },
  {
   "property": "C67",
   "status": "proved",
   "theorems": [
    "Verif.C67_dual_one_substep",
    "Verif.C67_dual_fed_back",
    "Verif.C67_dual_fed_back_later",
    "Verif.C67_euler_response",
    "Verif.C67_rk4_response",
    "Verif.C67_step_one_substep",
    "Verif.C67_step_two_substeps",
    "Verif.C67_step_rk4"
   ],
   "note": ""
  },
  {
   "property": "C68",
   "status": "proved",
   "theorems": [
    "Verif.C68_imitate_updates",
    "Verif.C68_posterior_minimises"
   ],
   "note": ""
  },
  {
   "property": "C69",
   "status": "proved",
   "theorems": [
    "Verif.Lasa.C69_recorded",
    "Verif.Lasa.C69_times_ignore_dt",
    "Verif.Lasa.C69_velocities_scaled",
    "Verif.Lasa.C69_shape",
    "Verif.Lasa.C69_shape_negative",
    "Verif.Lasa.C69_shape_out_of_range"
   ],
   "note": ""
  },
  {
   "property": "C70",
   "status": "proved",
   "theorems": [
    "Verif.C70_create",
    "Verif.C70_call",
    "Verif.C70_history",
    "Verif.C70_min_jerk_create",
    "Verif.C70_min_jerk_history",
    "Verif.C70_min_jerk_start_shared"
   ],
   "note": ""
  },
  {
   "property": "C71",
   "status": "proved",
   "theorems": [
    "Verif.C71_objects_independent",
    "Verif.C71_created_separately",
    "Verif.C71_min_jerk"
   ],
   "note": ""
  },
  {
   "property": "C72",
   "status": "proved",
   "theorems": [
    "Verif.C72_body_frame_open_loop",
    "Verif.C72_body_frame_step",
    "Verif.C72_body_frame_imitate",
    "Verif.C72_quaternion_gradient",
    "Verif.C72_dual_open_loop",
    "Verif.C72_dual_step",
    "Verif.C72_dual_imitate",
    "Verif.C72_spring_damper"
   ],
   "note": ""
  },
  {
   "property": "C73",
   "status": "proved",
   "theorems": [
    "Verif.C73_linear_open_loop",
    "Verif.C73_linear_step",
    "Verif.C73_linear_imitate",
    "Verif.C73_world_frame_open_loop",
    "Verif.C73_world_frame_step",
    "Verif.C73_world_frame_imitate",
    "Verif.C73_dual_open_loop",
    "Verif.C73_dual_step",
    "Verif.C73_dual_imitate",
    "Verif.C73_fv_open_loop",
    "Verif.C73_fv_step",
    "Verif.C73_fv_imitate",
    "Verif.C73_spring_damper_step",
    "Verif.C73_spring_damper_open_loop",
    "Verif.C73_spring_damper_orientation",
    "Verif.StateFollowingDMP.C73_state_following_open_loop",
    "Verif.StateFollowingDMP.C73_state_following_step"
   ],
   "note": ""
  },
  {
   "property": "C74",
   "status": "proved",
   "theorems": [
    "Verif.C74_dmp_ignores_final_velocity",
    "Verif.C74_cartesian_ignores_final_velocity",
    "Verif.C74_dual_ignores_final_velocity",
    "Verif.C74_spring_damper_ignores_final_velocity",
    "Verif.C74_spring_damper_orientation_ignores_final_velocity",
    "Verif.C74_state_following_ignores_goal"
   ],
   "note": ""
  },
  {
   "property": "C75",
   "status": "proved",
   "theorems": [
    "Verif.C75_dual_step_any_gain",
    "Verif.C75_dual_runs_exist_any_gain",
    "Verif.C75_cartesian_step",
    "Verif.C75_cartesian_runs_exist",
    "Verif.C75_cartesian_open_loop",
    "Verif.C75_dual_step",
    "Verif.C75_dual_runs_exist",
    "Verif.C75_dual_open_loop",
    "Verif.C75_spring_damper_step",
    "Verif.C75_spring_damper_runs_exist",
    "Verif.C75_default_damping",
    "Verif.C75_dead_zone",
    "Verif.C75_spring_damper_open_loop"
   ],
   "note": ""
  },
  {
   "property": "C76",
   "status": "proved",
   "theorems": [
    "Verif.C76_dual_step_any_gain",
    "Verif.C76_cartesian_step",
    "Verif.C76_cartesian_open_loop",
    "Verif.C76_dual_step",
    "Verif.C76_dual_open_loop",
    "Verif.C76_spring_damper_step",
    "Verif.C76_default_damping",
    "Verif.C76_spring_damper_open_loop"
   ],
   "note": ""
  },
  {
   "property": "C77",
   "status": "proved",
   "theorems": [
    "Verif.C77_cartesian_position_exists",
    "Verif.C77_cartesian_position_open_loop",
    "Verif.C77_cartesian_position_step",
    "Verif.C77_dual_open_loop",
    "Verif.C77_dual_step",
    "Verif.C77_solution_exists",
    "Verif.C77_open_loop",
    "Verif.C77_step",
    "Verif.C77_critically_damped",
    "Verif.C77_coupling_velocity",
    "Verif.C77_spring_step",
    "Verif.C77_spring_open_loop",
    "Verif.C77_spring_critically_damped",
    "Verif.C77_orientation_open_loop",
    "Verif.C77_orientation_step",
    "Verif.C77_orientation_critically_damped",
    "Verif.C77_spring_orientation_step",
    "Verif.C77_spring_orientation_open_loop",
    "Verif.C77_spring_orientation_critically_damped",
    "Verif.StateFollowingDMP.C77_state_following_exists",
    "Verif.StateFollowingDMP.C77_state_following_open_loop",
    "Verif.StateFollowingDMP.C77_state_following_step"
   ],
   "note": ""
  },
  {
   "property": "C78",
   "status": "proved",
   "theorems": [
    "Verif.C78_names",
    "Verif.C78_dmp_unknown",
    "Verif.C78_dmp",
    "Verif.C78_cartesian",
    "Verif.C78_cartesian_unknown",
    "Verif.C78_cartesian_unknown_quaternion",
    "Verif.C78_cartesian_lookup_is_late",
    "Verif.C78_dual_unknown",
    "Verif.C78_dual"
   ],
   "note": ""
  },
  {
   "property": "C79",
   "status": "proved",
   "theorems": [
    "Verif.C79_exact",
    "Verif.C79_terminates",
    "Verif.C79_hangs"
   ],
   "note": ""
  },
  {
   "property": "C80",
   "status": "proved",
   "theorems": [
    "Verif.C80_clock_drift",
    "Verif.C80_loop_times",
    "Verif.C80_loop_count",
    "Verif.C80_arange_times",
    "Verif.C80_arange_count",
    "Verif.C80_loop_one_step_more",
    "Verif.C80_arange_one_step_more"
   ],
   "note": ""
  },
  {
   "property": "C81",
   "status": "proved",
   "theorems": [
    "Verif.C81_cartesian_solution_exists",
    "Verif.C81_cartesian_open_loop",
    "Verif.C81_cartesian_step",
    "Verif.C81_solution_exists",
    "Verif.C81_shift_exists",
    "Verif.C81_open_loop",
    "Verif.C81_unforced",
    "Verif.C81_error",
    "Verif.C81_first_order_only",
    "Verif.C81_step",
    "Verif.C81_step_unforced"
   ],
   "note": ""
  },
  {
   "property": "C82",
   "status": "proved",
   "theorems": [
    "Verif.C82_python_eq_cython",
    "Verif.C82_precomputed",
    "Verif.C82_precomputed_difference",
    "Verif.C82_before_start",
    "Verif.C82_step",
    "Verif.C82_open_loop"
   ],
   "note": ""
  },
  {
   "property": "C83",
   "status": "proved",
   "theorems": [
    "Verif.C83_dmp",
    "Verif.C83_fv",
    "Verif.C83_spring_damper",
    "Verif.C83_minimum_jerk",
    "Verif.C83_promp",
    "Verif.C83_cartesian",
    "Verif.C83_orientations"
   ],
   "note": ""
  },
  {
   "property": "C84",
   "status": "proved",
   "theorems": [
    "Verif.C84_dmp",
    "Verif.C84_fv",
    "Verif.C84_cartesian",
    "Verif.C84_dual",
    "Verif.C84_underflow",
    "Verif.C84_underflow_cartesian",
    "Verif.C84_promp",
    "Verif.C84_promp_underflow"
   ],
   "note": ""
  },
  {
   "property": "C85",
   "status": "proved",
   "theorems": [
    "Verif.C85_step_converges",
    "Verif.C85_open_loop_converges"
   ],
   "note": ""
  },
  {
   "property": "C86",
   "status": "proved",
   "theorems": [
    "Verif.C86_polynomial",
    "Verif.C86_open_loop",
    "Verif.C86_step",
    "Verif.C86_solution_exists",
    "Verif.C86_polynomial_solves",
    "Verif.C86_reaches"
   ],
   "note": ""
  },
  {
   "property": "C87",
   "status": "proved",
   "theorems": [
    "Verif.C87_axes",
    "Verif.C87_too_few_cells",
    "Verif.C87_finding_transposed_overlap",
    "Verif.C87_trajectory",
    "Verif.C87_given_axes",
    "Verif.C87_distribution",
    "Verif.C87_areas",
    "Verif.C87_finding_dashed_needs_color",
    "Verif.C87_finding_no_time_label"
   ],
   "note": ""
  },
  {
   "property": "C88",
   "status": "proved",
   "theorems": [
    "Verif.C88_keystroke",
    "Verif.C88_finding_never_hidden",
    "Verif.C88_finding_stays_hidden",
    "Verif.C88_finding_flag",
    "Verif.C88_pointcloud",
    "Verif.C88_downsampling"
   ],
   "note": ""
  },
  {
   "property": "C89",
   "status": "proved",
   "theorems": [
    "Verif.Sim.C89_conversions",
    "Verif.Sim.C89_transforms",
    "Verif.Sim.C89_commanded_pose_is_measured",
    "Verif.Sim.C89_identity_base",
    "Verif.Sim.C89_rh5",
    "Verif.Sim.C89_finding_base_frame",
    "Verif.Sim.C89_finding_velocity"
   ],
   "note": ""
  },
  {
   "property": "C90",
   "status": "proved",
   "theorems": [
    "Verif.Sim.C90_ur5_joint_commands",
    "Verif.Sim.C90_rh5_joint_commands",
    "Verif.Sim.C90_rh5_ideal_tracking",
    "Verif.Sim.C90_ur5_ideal_tracking"
   ],
   "note": ""
  },
  {
   "property": "C91",
   "status": "proved",
   "theorems": [
    "Verif.Sim.C91_finding_exception_does_not_stop",
    "Verif.Sim.C91_finding_rh5_exception_does_not_stop",
    "Verif.Sim.C91_mockup",
    "Verif.Sim.C91_mockup_dmp",
    "Verif.Sim.C91_rh5_log",
    "Verif.Sim.C91_finding_rh5_velocities",
    "Verif.Sim.C91_ur5_log",
    "Verif.Sim.C91_ur5_stops",
    "Verif.Sim.C91_finding_second_simulation"
   ],
   "note": ""
  },
  {
   "property": "C92",
   "status": "proved",
   "theorems": [
    "Verif.Sim.C92_chain_errors",
    "Verif.Sim.C92_indices",
    "Verif.Sim.C92_finding_base_link",
    "Verif.Sim.C92_unknown_type",
    "Verif.Sim.C92_chain",
    "Verif.Sim.C92_ur5_joints"
   ],
   "note": ""
  },
  {
   "property": "C93",
   "status": "proved",
   "theorems": [
    "Verif.Sim.C93_sim_loop",
    "Verif.Sim.C93_sim_loop_forever",
    "Verif.Sim.C93_goto_ee_state",
    "Verif.Sim.C93_goto_joint_state",
    "Verif.Sim.C93_key_frames"
   ],
   "note": ""
  },
  {
   "property": "C94",
   "status": "proved",
   "theorems": [
    "Verif.C94_dmp",
    "Verif.C94_dmp_unknown_name",
    "Verif.C94_cartesian",
    "Verif.C94_dual",
    "Verif.C94_state_following",
    "Verif.C94_fv",
    "Verif.C94_fv_single_number",
    "Verif.C94_fv_clock_advanced",
    "Verif.C94_fv_one_dimension",
    "Verif.C94_spring_damper",
    "Verif.C94_spring_damper_wrong_length",
    "Verif.C94_spring_damper_orientation",
    "Verif.C94_spring_damper_orientation_wrong_length"
   ],
   "note": ""
  },
  {
   "property": "C95",
   "status": "proved",
   "theorems": [
    "Verif.C95_forward_trajectory",
    "Verif.C95_inverse_evaluating",
    "Verif.C95_calls",
    "Verif.C95_calls_restarts",
    "Verif.C95_accuracy_restarts",
    "Verif.C95_accuracy",
    "Verif.C95_round_trip",
    "Verif.C95_other_chain",
    "Verif.C95_other_chain_finding"
   ],
   "note": ""
  },
  {
   "property": "C96",
   "status": "proved",
   "theorems": [
    "Verif.C96_dmp",
    "Verif.C96_fv",
    "Verif.C96_cartesian",
    "Verif.C96_dual",
    "Verif.C96_open_loop",
    "Verif.C96_imitate_unique",
    "Verif.C96_imitate_recovers",
    "Verif.C96_promp",
    "Verif.C96_promp_weights",
    "Verif.C96_cartesian_imitate_unique",
    "Verif.C96_dual_imitate_unique"
   ],
   "note": ""
  },
  {
   "property": "C97",
   "status": "proved",
   "theorems": [
    "Verif.C97_exact",
    "Verif.C97_regularised"
   ],
   "note": ""
  },
  {
   "property": "C98",
   "status": "proved",
   "theorems": [
    "Verif.C98_final_velocity",
    "Verif.C98_acceleration",
    "Verif.C98_euler_cython",
    "Verif.C98_finding_velocity_ignored",
    "Verif.C98_finding_ignored_with_coupling",
    "Verif.C98_finding_difference"
   ],
   "note": ""
  },
  {
   "property": "C99",
   "status": "proved",
   "theorems": [
    "Verif.PrompWorld.C99_imitate",
    "Verif.PrompWorld.C99_mean_trajectory",
    "Verif.PrompWorld.C99_construct",
    "Verif.PrompWorld.C99_from_weight_distribution",
    "Verif.PrompWorld.C99_condition_position",
    "Verif.PrompWorld.C99_arrays_kept",
    "Verif.PrompWorld.C99_isolated",
    "Verif.PrompWorld.C99_own_arrays",
    "Verif.PrompWorld.C99_finding_shared"
   ],
   "note": ""
  },
  {
   "property": "C100",
   "status": "proved",
   "theorems": [
    "Verif.C100_configure",
    "Verif.C100_configure_types",
    "Verif.C100_step_no_rounding",
    "Verif.C100_step_floats",
    "Verif.C100_step_python",
    "Verif.C100_finding_integer_start",
    "Verif.C100_finding_integer_goal",
    "Verif.C100_finding_euler_half_way",
    "Verif.C100_open_loop_no_rounding",
    "Verif.C100_open_loop_floats",
    "Verif.C100_open_loop_python",
    "Verif.C100_finding_open_loop_integer_start",
    "Verif.C100_finding_open_loop_integer_goal",
    "Verif.C100_truncate",
    "Verif.C100_imitate_floats",
    "Verif.C100_imitate_integers",
    "Verif.C100_finding_slow",
    "Verif.C100_imitate_configures",
    "Verif.C100_finding_imitated_cannot_run",
    "Verif.C100_finding_imitate_differs",
    "Verif.C100_fv_step_no_rounding",
    "Verif.C100_fv_step_floats",
    "Verif.C100_fv_open_loop_no_rounding",
    "Verif.C100_fv_open_loop_floats",
    "Verif.C100_finding_fv_integer_start",
    "Verif.C100_finding_fv_half_way",
    "Verif.C100_fv_imitate_floats",
    "Verif.C100_finding_fv_slow",
    "Verif.C100_finding_fv_imitated_cannot_run",
    "Verif.C100_cartesian_step_no_rounding",
    "Verif.C100_finding_cartesian_rounding",
    "Verif.C100_cartesian_open_loop_no_rounding",
    "Verif.C100_finding_cartesian_integer_start",
    "Verif.C100_dual_step_no_rounding",
    "Verif.C100_finding_dual_integer_start",
    "Verif.C100_dual_step_floats",
    "Verif.C100_dual_open_loop_no_rounding",
    "Verif.C100_cartesian_step_floats",
    "Verif.C100_spring_damper_step_no_rounding",
    "Verif.C100_spring_damper_open_loop_no_rounding",
    "Verif.C100_finding_spring_damper_integer_start",
    "Verif.C100_finding_spring_damper_half_way",
    "Verif.C100_orientation_step_no_rounding",
    "Verif.C100_orientation_open_loop_no_rounding",
    "Verif.C100_finding_orientation_step_rounded",
    "Verif.C100_finding_orientation_open_loop_rounded",
    "Verif.C100_finding_orientation_zero"
   ],
   "note": ""
  },
  {
   "property": "C101",
   "status": "proved",
   "theorems": [
    "Verif.C101_open_loop",
    "Verif.C101_step",
    "Verif.C101_imitate",
    "Verif.C101_fv_open_loop",
    "Verif.C101_fv_step",
    "Verif.C101_fv_imitate",
    "Verif.C101_spring_damper_open_loop",
    "Verif.C101_spring_damper_step",
    "Verif.StateFollowingDMP.C101_state_following_open_loop",
    "Verif.StateFollowingDMP.C101_state_following_step"
   ],
   "note": ""
  },
  {
   "property": "C102",
   "status": "proved",
   "theorems": [
    "Verif.C102_open_loop",
    "Verif.C102_fv_open_loop",
    "Verif.C102_cartesian_open_loop",
    "Verif.C102_spring_damper_open_loop",
    "Verif.C102_spring_damper_orientation_open_loop",
    "Verif.C102_step",
    "Verif.C102_fv_step",
    "Verif.C102_cartesian_step",
    "Verif.C102_spring_damper_step",
    "Verif.C102_spring_damper_orientation_step",
    "Verif.C102_state_following_step",
    "Verif.C102_state_following_open_loop",
    "Verif.C102_dual_step",
    "Verif.C102_dual_open_loop",
    "Verif.C102_rk4"
   ],
   "note": ""
  },
  {
   "property": "C103",
   "status": "proved",
   "theorems": [
    "Verif.C103_update",
    "Verif.C103_correct_variance",
    "Verif.C103_imitate_once",
    "Verif.C103_imitate",
    "Verif.C103_finding_variance"
   ],
   "note": ""
  },
  {
   "property": "C104",
   "status": "proved",
   "theorems": [
    "Verif.C104_cartesian_positions",
    "Verif.C104_orientation_jump",
    "Verif.C104_open_loop",
    "Verif.C104_fv_open_loop",
    "Verif.C104_imitate",
    "Verif.C104_reproduction",
    "Verif.C104_fv_imitate",
    "Verif.C104_fv_reproduction",
    "Verif.C104_spring_damper_open_loop",
    "Verif.StateFollowingDMP.C104_state_following_open_loop"
   ],
   "note": ""
  },
  {
   "property": "C105",
   "status": "proved",
   "theorems": [
    "Verif.C105_step",
    "Verif.C105_step_reaches",
    "Verif.C105_runs_exist",
    "Verif.C105_fv_step",
    "Verif.C105_spring_damper_step",
    "Verif.C105_spring_damper_runs_exist",
    "Verif.C105_cartesian_step",
    "Verif.C105_dual_step",
    "Verif.C105_dual_runs_exist",
    "Verif.C105_cartesian_runs_exist",
    "Verif.StateFollowingDMP.C105_state_following_step",
    "Verif.StateFollowingDMP.C105_state_following_runs_exist"
   ],
   "note": ""
  },
  {
   "property": "C106",
   "status": "proved",
   "theorems": [
    "Verif.C106_dmp_exact",
    "Verif.C106_dmp_step",
    "Verif.C106_dmp_reaches",
    "Verif.C106_dmp_default",
    "Verif.C106_step_function_exact",
    "Verif.C106_exact",
    "Verif.C106_open_loop_exact",
    "Verif.C106_spring_damper_step",
    "Verif.C106_default",
    "Verif.C106_open_loop",
    "Verif.C106_stalls",
    "Verif.C106_dmp_open_loop_exact",
    "Verif.C106_rk4_open_loop",
    "Verif.C106_dmp_open_loop",
    "Verif.C106_open_loop_default",
    "Verif.C106_rk4_step",
    "Verif.C106_rk4_reaches",
    "Verif.C106_rk4_default"
   ],
   "note": ""
  },
  {
   "property": "C107",
   "status": "proved",
   "theorems": [
    "Verif.C107_pos1d_step",
    "Verif.C107_pos1d_open_loop",
    "Verif.C107_pos3d_step",
    "Verif.C107_pos3d_open_loop",
    "Verif.C107_goals_reached",
    "Verif.C107_leader_reaches_goal",
    "Verif.C107_displacement_error",
    "Verif.C107_depends_on_int_dt",
    "Verif.C107_python_differs_from_cython",
    "Verif.C107_reported_velocity"
   ],
   "note": ""
  },
  {
   "property": "C108",
   "status": "proved",
   "theorems": [
    "Verif.C108_cartesian_positions",
    "Verif.C108_cartesian_position_step",
    "Verif.C108_dual_step",
    "Verif.C108_dual_open_loop",
    "Verif.C108_orientation_open_loop",
    "Verif.C108_orientation_step",
    "Verif.C108_forces",
    "Verif.C108_solution",
    "Verif.C108_open_loop",
    "Verif.C108_step"
   ],
   "note": ""
  },
  {
   "property": "C109",
   "status": "proved",
   "theorems": [
    "Verif.C109_cartesian_positions",
    "Verif.C109_cartesian_position_step",
    "Verif.C109_dual_open_loop",
    "Verif.C109_dual_step",
    "Verif.C109_dual_orientation_open_loop",
    "Verif.C109_dual_orientation_step",
    "Verif.C109_orientation_open_loop",
    "Verif.C109_orientation_step",
    "Verif.C109_solution",
    "Verif.C109_imitated_movement",
    "Verif.C109_step"
   ],
   "note": ""
  },
  {
   "property": "C110",
   "status": "proved",
   "theorems": [
    "Verif.C110_trajectory",
    "Verif.C110_distribution",
    "Verif.C110_weights"
   ],
   "note": ""
  },
  {
   "property": "C111",
   "status": "proved",
   "theorems": [
    "Verif.C111_solution",
    "Verif.C111_imitated_movement",
    "Verif.C111_step",
    "Verif.C111_initial_velocity_lost"
   ],
   "note": ""
  },
  {
   "property": "C112",
   "status": "proved",
   "theorems": [
    "Verif.C112_step",
    "Verif.C112_open_loop",
    "Verif.C112_imitate",
    "Verif.C112_get_weights",
    "Verif.C112_set_weights"
   ],
   "note": ""
  },
  {
   "property": "C113",
   "status": "proved",
   "theorems": [
    "Verif.C113_arrows",
    "Verif.C113_size",
    "Verif.C113_finding_exaggerate_ignored",
    "Verif.C113_finding_single_tick",
    "Verif.C113_no_ticks"
   ],
   "note": ""
  },
  {
   "property": "C114",
   "status": "proved",
   "theorems": [
    "Verif.C114_step",
    "Verif.C114_open_loop",
    "Verif.C114_open_loop_substeps",
    "Verif.C114_imitate",
    "Verif.C114_finding_half_turn",
    "Verif.C114_open_loop_new",
    "Verif.C114_spring_damper_step",
    "Verif.C114_spring_damper_open_loop",
    "Verif.C114_spring_damper_open_loop_damped",
    "Verif.C114_dual_open_loop",
    "Verif.C114_dual_imitate"
   ],
   "note": ""
  },
  {
   "property": "C115",
   "status": "proved",
   "theorems": [
    "Verif.C115_open_loop",
    "Verif.C115_step",
    "Verif.C115_cartesian_step",
    "Verif.C115_cartesian_open_loop",
    "Verif.C115_spring_damper_step",
    "Verif.C115_spring_damper_open_loop",
    "Verif.C115_dual_open_loop"
   ],
   "note": ""
  },
  {
   "property": "C116",
   "status": "proved",
   "theorems": [
    "Verif.C116_unit_of_time",
    "Verif.C116_condition_unit_of_time",
    "Verif.C116_trajectories",
    "Verif.C116_weights",
    "Verif.C116_condition",
    "Verif.C116_via_points",
    "Verif.C116_new",
    "Verif.C116_imitate",
    "Verif.C116_finding_units_of_positions"
   ],
   "note": ""
  },
  {
   "property": "C117",
   "status": "proved",
   "theorems": [
    "Verif.C117_straight",
    "Verif.C117_backwards",
    "Verif.C117_coordinates",
    "Verif.C117_superposition",
    "Verif.C117_unit_of_time",
    "Verif.C117_class"
   ],
   "note": ""
  },
  {
   "property": "C118",
   "status": "proved",
   "theorems": [
    "Verif.SpringDamper.C118_forgets_everything",
    "Verif.SpringDamperOrientation.C118_forgets_everything",
    "Verif.StateFollowingDMP.C118_forgets",
    "Verif.CartesianDMP.C118_forgets",
    "Verif.DualCartesianDMP.C118_forgets"
   ],
   "note": ""
  },
  {
   "property": "C119",
   "status": "proved",
   "theorems": [
    "Verif.C119_velocities",
    "Verif.C119_distribution",
    "Verif.C119_positions",
    "Verif.C119_conditioned",
    "Verif.C119_average"
   ],
   "note": ""
  },
  {
   "property": "C120",
   "status": "proved",
   "theorems": [
    "Verif.C120_dmp",
    "Verif.C120_fv",
    "Verif.C120_cartesian",
    "Verif.C120_dual",
    "Verif.C120_promp",
    "Verif.C120_promp_smallest",
    "Verif.C120_dmp_smallest",
    "Verif.C120_fv_smallest",
    "Verif.C120_cartesian_smallest",
    "Verif.C120_dual_smallest"
   ],
   "note": ""
  },
  {
   "property": "C121",
   "status": "proved",
   "theorems": [
    "Verif.C121_bayes",
    "Verif.C121_errors",
    "Verif.C121_bayes_sequence",
    "Verif.C121_bayes_trajectory",
    "Verif.C121_bayes_velocities",
    "Verif.C121_order",
    "Verif.C121_via_points",
    "Verif.C121_same_position"
   ],
   "note": ""
  },
  {
   "property": "C122",
   "status": "proved",
   "theorems": [
    "Verif.C122_random_parameters",
    "Verif.C122_noisy_demonstrations",
    "Verif.C122_noisy_reproduction",
    "Verif.C122_average_parameters",
    "Verif.C122_average_trajectories",
    "Verif.C122_average_reproductions",
    "Verif.C122_fv_noisy_reproduction",
    "Verif.C122_spring_damper"
   ],
   "note": ""
  }
 ]
}