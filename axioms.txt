'Verif.C01_phase' depends on axioms: [propext, Classical.choice, Quot.sound]
'Verif.C01_phase_ode' depends on axioms: [propext, Classical.choice, Quot.sound]
'Verif.C01_alpha_raises_iff' depends on axioms: [propext, Classical.choice, Quot.sound]
'Verif.C01_goal_phase_above_one' depends on axioms: [propext, Classical.choice, Quot.sound]
'Verif.C02_phase_scale' depends on axioms: [propext, Classical.choice, Quot.sound]
'Verif.C02_phase_shift' depends on axioms: [propext, Classical.choice, Quot.sound]
'Verif.C31_step_function' depends on axioms: [propext, Classical.choice, Quot.sound]
'Verif.C31_cartesian_step' depends on axioms: [propext, Classical.choice, Quot.sound]
'Verif.C31_cartesian_steps' depends on axioms: [propext, Classical.choice, Quot.sound]
'Verif.C31_cartesian_open_loop' depends on axioms: [propext, Classical.choice, Quot.sound]
'Verif.C31_cython_normalises' depends on axioms: [propext, Classical.choice, Quot.sound]
'Verif.C34_step_function' depends on axioms: [propext, Classical.choice, Quot.sound]
'Verif.C34_open_loop' depends on axioms: [propext, Classical.choice, Quot.sound]
'Verif.C34_step' depends on axioms: [propext, Classical.choice, Quot.sound]
'Verif.C34_only_equilibria' depends on axioms: [propext, Classical.choice, Quot.sound]
'Verif.C33_position_is_regular_dmp' depends on axioms: [propext, Classical.choice, Quot.sound]
'Verif.C33_orientation_independent' depends on axioms: [propext, Classical.choice, Quot.sound]
'Verif.C33_step_position' depends on axioms: [propext, Classical.choice, Quot.sound]
'Verif.C33_step_orientation' depends on axioms: [propext, Classical.choice, Quot.sound]
'Verif.C33_step_memoryless' depends on axioms: [propext, Classical.choice, Quot.sound]
'Verif.C33_step_eq_open_loop' depends on axioms: [propext, Classical.choice, Quot.sound]
'Verif.C22_cartesian_set_get' depends on axioms: [propext, Classical.choice, Quot.sound]
'Verif.C22_cartesian_get_set' depends on axioms: [propext, Classical.choice, Quot.sound]
'Verif.C22_cartesian_row_major' depends on axioms: [propext, Classical.choice, Quot.sound]
'Verif.C22_cartesian_raises_iff' depends on axioms: [propext, Classical.choice, Quot.sound]
'Verif.C22_cartesian_broadcast' depends on axioms: [propext, Classical.choice, Quot.sound]
'Verif.C22_cartesian_not_atomic' depends on axioms: [propext, Classical.choice, Quot.sound]
'Verif.C22_cartesian_short' depends on axioms: [propext, Classical.choice, Quot.sound]
'Verif.C22_cartesian_row' depends on axioms: [propext, Classical.choice, Quot.sound]
'Verif.C24_cartesian' depends on axioms: [propext, Classical.choice, Quot.sound]
'Verif.C24_cartesian_not_atomic' depends on axioms: [propext, Classical.choice, Quot.sound]
'Verif.C06_orientation_forces' depends on axioms: [propext, Classical.choice, Quot.sound]
'Verif.C06_demonstrated_rotation' depends on axioms: [propext, Classical.choice, Quot.sound]
'Verif.C28_cartesian_imitate' depends on axioms: [propext, Classical.choice, Quot.sound]
'Verif.C28_cartesian_raises' depends on axioms: [propext, Classical.choice, Quot.sound]
'Verif.C28_cartesian_constant' depends on axioms: [propext, Classical.choice, Quot.sound]
'Verif.C77_cartesian_position_exists' depends on axioms: [propext, Classical.choice, Quot.sound]
'Verif.C77_cartesian_position_open_loop' depends on axioms: [propext, Classical.choice, Quot.sound]
'Verif.C77_cartesian_position_step' depends on axioms: [propext, Classical.choice, Quot.sound]
'Verif.C77_dual_open_loop' depends on axioms: [propext, Classical.choice, Quot.sound]
'Verif.C108_cartesian_positions' depends on axioms: [propext, Classical.choice, Quot.sound]
'Verif.C109_cartesian_positions' depends on axioms: [propext, Classical.choice, Quot.sound]
'Verif.C109_cartesian_position_step' depends on axioms: [propext, Classical.choice, Quot.sound]
'Verif.C108_cartesian_position_step' depends on axioms: [propext, Classical.choice, Quot.sound]
'Verif.C108_dual_step' depends on axioms: [propext, Classical.choice, Quot.sound]
'Verif.C84_dmp' depends on axioms: [propext, Classical.choice, Quot.sound]
'Verif.C84_fv' depends on axioms: [propext, Classical.choice, Quot.sound]
'Verif.C84_cartesian' depends on axioms: [propext, Classical.choice, Quot.sound]
'Verif.C84_dual' depends on axioms: [propext, Classical.choice, Quot.sound]
'Verif.C84_underflow' depends on axioms: [propext, Classical.choice, Quot.sound]
'Verif.C84_underflow_cartesian' depends on axioms: [propext, Classical.choice, Quot.sound]
'Verif.C84_promp' depends on axioms: [propext, Classical.choice, Quot.sound]
'Verif.C84_promp_underflow' depends on axioms: [propext, Classical.choice, Quot.sound]
'Verif.C25_configure_sets' depends on axioms: [propext, Classical.choice, Quot.sound]
'Verif.C25_configure_raises_iff' depends on axioms: [propext, Classical.choice, Quot.sound]
'Verif.C25_configure_frame' depends on axioms: [propext, Classical.choice, Quot.sound]
'Verif.C25_configure_not_atomic' depends on axioms: [propext, Classical.choice, Quot.sound]
'Verif.C19_reset_repeatable' depends on axioms: [propext, Classical.choice, Quot.sound]
'Verif.C19_start_change_ignored' depends on axioms: [propext, Classical.choice, Quot.sound]
'Verif.C19_start_change_with_smooth_scaling' depends on axioms: [propext, Classical.choice, Quot.sound]
'Verif.C28_fv_constant' depends on axioms: [propext, Classical.choice, Quot.sound]
'Verif.C28_fv_constant_reproduction' depends on axioms: [propext, Classical.choice, Quot.sound]
'Verif.C28_dual_constant' depends on axioms: [propext, Classical.choice, Quot.sound]
'Verif.C28_dual_constant_reproduction' depends on axioms: [propext, Classical.choice, Quot.sound]
'Verif.C07_euler_step_converges' depends on axioms: [propext, Classical.choice, Quot.sound]
'Verif.C07_euler_open_loop_converges' depends on axioms: [propext, Classical.choice, Quot.sound]
'Verif.C07_unstable_beyond_limit' depends on axioms: [propext, Classical.choice, Quot.sound]
'Verif.C08_rk4_step_converges' depends on axioms: [propext, Classical.choice, Quot.sound]
'Verif.C08_rk4_open_loop_converges' depends on axioms: [propext, Classical.choice, Quot.sound]
'Verif.C107_pos1d_step' depends on axioms: [propext, Classical.choice, Quot.sound]
'Verif.C107_pos1d_open_loop' depends on axioms: [propext, Classical.choice, Quot.sound]
'Verif.C107_pos3d_step' depends on axioms: [propext, Classical.choice, Quot.sound]
'Verif.C107_pos3d_open_loop' depends on axioms: [propext, Classical.choice, Quot.sound]
'Verif.C107_goals_reached' depends on axioms: [propext, Classical.choice, Quot.sound]
'Verif.C107_leader_reaches_goal' depends on axioms: [propext, Classical.choice, Quot.sound]
'Verif.C107_displacement_error' depends on axioms: [propext, Classical.choice, Quot.sound]
'Verif.C107_depends_on_int_dt' depends on axioms: [propext, Classical.choice, Quot.sound]
'Verif.C107_python_differs_from_cython' depends on axioms: [propext, Classical.choice, Quot.sound]
'Verif.C107_reported_velocity' depends on axioms: [propext, Classical.choice, Quot.sound]
'Verif.C38_pos1d' depends on axioms: [propext, Classical.choice, Quot.sound]
'Verif.C38_pos1d_restoring' depends on axioms: [propext, Classical.choice, Quot.sound]
'Verif.C38_pos3d' depends on axioms: [propext, Classical.choice, Quot.sound]
'Verif.C38_pos3d_restoring' depends on axioms: [propext, Classical.choice, Quot.sound]
'Verif.C38_dual_distance' depends on axioms: [propext, Classical.choice, Quot.sound]
'Verif.C38_dual_distance_restoring' depends on axioms: [propext, Classical.choice, Quot.sound]
'Verif.C38_dual_pose_leader' depends on axioms: [propext, Classical.choice, Quot.sound]
'Verif.C38_dual_pose_opposite' depends on axioms: [propext, Classical.choice, Quot.sound]
'Verif.C38_dual_pose_formation' depends on axioms: [propext, Classical.choice, Quot.sound]
'Verif.C38_dual_pose_restoring' depends on axioms: [propext, Classical.choice, Quot.sound]
'Verif.C38_dual_pose_orientation' depends on axioms: [propext, Classical.choice, Quot.sound]
'Verif.C64_calls' depends on axioms: [propext, Classical.choice, Quot.sound]
'Verif.C64_not_learned' depends on axioms: [propext, Classical.choice, Quot.sound]
'Verif.C64_clocks' depends on axioms: [propext, Classical.choice, Quot.sound]
'Verif.C64_synchronised' depends on axioms: [propext, Classical.choice, Quot.sound]
'Verif.C64_runs_ahead' depends on axioms: [propext, Classical.choice, Quot.sound]
'Verif.C64_second_execution' depends on axioms: [propext, Classical.choice, Quot.sound]
'Verif.C115_open_loop' depends on axioms: [propext, Classical.choice, Quot.sound]
'Verif.C115_step' depends on axioms: [propext, Classical.choice, Quot.sound]
'Verif.C115_cartesian_step' depends on axioms: [propext, Classical.choice, Quot.sound]
'Verif.C115_cartesian_open_loop' depends on axioms: [propext, Classical.choice, Quot.sound]
'Verif.C115_spring_damper_step' depends on axioms: [propext, Classical.choice, Quot.sound]
'Verif.C115_spring_damper_open_loop' depends on axioms: [propext, Classical.choice, Quot.sound]
'Verif.C115_dual_open_loop' depends on axioms: [propext, Classical.choice, Quot.sound]
'Verif.C105_step' depends on axioms: [propext, Classical.choice, Quot.sound]
'Verif.C105_step_reaches' depends on axioms: [propext, Classical.choice, Quot.sound]
'Verif.C105_runs_exist' depends on axioms: [propext, Classical.choice, Quot.sound]
'Verif.C105_fv_step' depends on axioms: [propext, Classical.choice, Quot.sound]
'Verif.C105_spring_damper_step' depends on axioms: [propext, Classical.choice, Quot.sound]
'Verif.C105_spring_damper_runs_exist' depends on axioms: [propext, Classical.choice, Quot.sound]
'Verif.C105_cartesian_step' depends on axioms: [propext, Classical.choice, Quot.sound]
'Verif.C105_dual_step' depends on axioms: [propext, Classical.choice, Quot.sound]
'Verif.C105_dual_runs_exist' depends on axioms: [propext, Classical.choice, Quot.sound]
'Verif.C105_cartesian_runs_exist' depends on axioms: [propext, Classical.choice, Quot.sound]
'Verif.C17_step_ignores_feedback' depends on axioms: [propext, Classical.choice, Quot.sound]
'Verif.C18_step_eq_open_loop' depends on axioms: [propext, Classical.choice, Quot.sound]
'Verif.C18_differ_with_start_velocity' depends on axioms: [propext, Classical.choice, Quot.sound]
'Verif.C20_open_loop_grid' depends on axioms: [propext, Classical.choice, Quot.sound]
'Verif.C20_open_loop_prefix' depends on axioms: [propext, Classical.choice, Quot.sound]
'Verif.C20_open_loop_returns' depends on axioms: [propext, Classical.choice, Quot.sound]
'Verif.C22_set_get_weights' depends on axioms: [propext, Classical.choice, Quot.sound]
'Verif.C22_get_set_weights' depends on axioms: [propext, Classical.choice, Quot.sound]
'Verif.C22_wrong_length' depends on axioms: [propext, Classical.choice, Quot.sound]
'Verif.C22_row_major' depends on axioms: [propext, Classical.choice, Quot.sound]
'Verif.C24_set_execution_time' depends on axioms: [propext, Classical.choice, Quot.sound]
'Verif.C24_same_as_new' depends on axioms: [propext, Classical.choice, Quot.sound]
'Verif.C24_failure_not_atomic' depends on axioms: [propext, Classical.choice, Quot.sound]
'Verif.C59_check_length' depends on axioms: [propext, Classical.choice, Quot.sound]
'Verif.C59_ensure_1d_array' depends on axioms: [propext, Classical.choice, Quot.sound]
'Verif.C61_n_steps_compose' depends on axioms: [propext, Classical.choice, Quot.sound]
'Verif.C61_n_steps_eq_fedBack' depends on axioms: [propext, Classical.choice, Quot.sound]
'Verif.C100_configure' depends on axioms: [propext, Classical.choice, Quot.sound]
'Verif.C100_configure_types' depends on axioms: [propext, Classical.choice, Quot.sound]
'Verif.C100_step_no_rounding' depends on axioms: [propext, Classical.choice, Quot.sound]
'Verif.C100_step_floats' depends on axioms: [propext, Classical.choice, Quot.sound]
'Verif.C100_step_python' depends on axioms: [propext, Classical.choice, Quot.sound]
'Verif.C100_finding_integer_start' depends on axioms: [propext, Classical.choice, Quot.sound]
'Verif.C100_finding_integer_goal' depends on axioms: [propext, Classical.choice, Quot.sound]
'Verif.C100_finding_euler_half_way' depends on axioms: [propext, Classical.choice, Quot.sound]
'Verif.C100_open_loop_no_rounding' depends on axioms: [propext, Classical.choice, Quot.sound]
'Verif.C100_open_loop_floats' depends on axioms: [propext, Classical.choice, Quot.sound]
'Verif.C100_open_loop_python' depends on axioms: [propext, Classical.choice, Quot.sound]
'Verif.C100_finding_open_loop_integer_start' depends on axioms: [propext, Classical.choice, Quot.sound]
'Verif.C100_finding_open_loop_integer_goal' depends on axioms: [propext, Classical.choice, Quot.sound]
'Verif.C100_truncate' depends on axioms: [propext, Classical.choice, Quot.sound]
'Verif.C100_imitate_floats' depends on axioms: [propext, Classical.choice, Quot.sound]
'Verif.C100_imitate_integers' depends on axioms: [propext, Classical.choice, Quot.sound]
'Verif.C100_finding_slow' depends on axioms: [propext, Classical.choice, Quot.sound]
'Verif.C100_imitate_configures' depends on axioms: [propext, Classical.choice, Quot.sound]
'Verif.C100_finding_imitated_cannot_run' depends on axioms: [propext, Classical.choice, Quot.sound]
'Verif.C100_finding_imitate_differs' depends on axioms: [propext, Classical.choice, Quot.sound]
'Verif.C100_fv_step_no_rounding' depends on axioms: [propext, Classical.choice, Quot.sound]
'Verif.C100_fv_step_floats' depends on axioms: [propext, Classical.choice, Quot.sound]
'Verif.C100_fv_open_loop_no_rounding' depends on axioms: [propext, Classical.choice, Quot.sound]
'Verif.C100_fv_open_loop_floats' depends on axioms: [propext, Classical.choice, Quot.sound]
'Verif.C100_finding_fv_integer_start' depends on axioms: [propext, Classical.choice, Quot.sound]
'Verif.C100_finding_fv_half_way' depends on axioms: [propext, Classical.choice, Quot.sound]
'Verif.C100_fv_imitate_floats' depends on axioms: [propext, Classical.choice, Quot.sound]
'Verif.C100_finding_fv_slow' depends on axioms: [propext, Classical.choice, Quot.sound]
'Verif.C100_finding_fv_imitated_cannot_run' depends on axioms: [propext, Classical.choice, Quot.sound]
'Verif.C100_cartesian_step_no_rounding' depends on axioms: [propext, Classical.choice, Quot.sound]
'Verif.C100_finding_cartesian_rounding' depends on axioms: [propext, Classical.choice, Quot.sound]
'Verif.C100_cartesian_open_loop_no_rounding' depends on axioms: [propext, Classical.choice, Quot.sound]
'Verif.C100_finding_cartesian_integer_start' depends on axioms: [propext, Classical.choice, Quot.sound]
'Verif.C100_dual_step_no_rounding' depends on axioms: [propext, Classical.choice, Quot.sound]
'Verif.C100_finding_dual_integer_start' depends on axioms: [propext, Classical.choice, Quot.sound]
'Verif.C100_dual_step_floats' depends on axioms: [propext, Classical.choice, Quot.sound]
'Verif.C100_dual_open_loop_no_rounding' depends on axioms: [propext, Classical.choice, Quot.sound]
'Verif.C100_cartesian_step_floats' depends on axioms: [propext, Classical.choice, Quot.sound]
'Verif.C100_spring_damper_step_no_rounding' depends on axioms: [propext, Classical.choice, Quot.sound]
'Verif.C100_spring_damper_open_loop_no_rounding' depends on axioms: [propext, Classical.choice, Quot.sound]
'Verif.C100_finding_spring_damper_integer_start' depends on axioms: [propext, Classical.choice, Quot.sound]
'Verif.C100_finding_spring_damper_half_way' depends on axioms: [propext, Classical.choice, Quot.sound]
'Verif.C100_orientation_step_no_rounding' depends on axioms: [propext, Classical.choice, Quot.sound]
'Verif.C100_orientation_open_loop_no_rounding' depends on axioms: [propext, Classical.choice, Quot.sound]
'Verif.C100_finding_orientation_step_rounded' depends on axioms: [propext, Classical.choice, Quot.sound]
'Verif.C100_finding_orientation_open_loop_rounded' depends on axioms: [propext, Classical.choice, Quot.sound]
'Verif.C100_finding_orientation_zero' depends on axioms: [propext, Classical.choice, Quot.sound]
'Verif.C31_dual_step_function' depends on axioms: [propext, Classical.choice, Quot.sound]
'Verif.C35_python_eq_cython' depends on axioms: [propext, Classical.choice, Quot.sound]
'Verif.C35_two_sub_steps_differ' depends on axioms: [propext, Classical.choice, Quot.sound]
'Verif.C37_two_arms' depends on axioms: [propext, Classical.choice, Quot.sound]
'Verif.C37_right_arm_acceleration' depends on axioms: [propext, Classical.choice, Quot.sound]
'Verif.C37_right_arm_iff' depends on axioms: [propext, Classical.choice, Quot.sound]
'Verif.C112_step' depends on axioms: [propext, Classical.choice, Quot.sound]
'Verif.C112_open_loop' depends on axioms: [propext, Classical.choice, Quot.sound]
'Verif.C108_dual_open_loop' depends on axioms: [propext, Classical.choice, Quot.sound]
'Verif.C112_imitate' depends on axioms: [propext, Classical.choice, Quot.sound]
'Verif.C112_get_weights' depends on axioms: [propext, Classical.choice, Quot.sound]
'Verif.C112_set_weights' depends on axioms: [propext, Classical.choice, Quot.sound]
'Verif.C36_depends_only_on_configuration' depends on axioms: [propext, Classical.choice, Quot.sound]
'Verif.C36_repeatable' depends on axioms: [propext, Classical.choice, Quot.sound]
'Verif.C31_dual_step' depends on axioms: [propext, Classical.choice, Quot.sound]
'Verif.C31_dual_open_loop' depends on axioms: [propext, Classical.choice, Quot.sound]
'Verif.C36_first_run' depends on axioms: [propext, Classical.choice, Quot.sound]
'Verif.C36_second_run_differs' depends on axioms: [propext, Classical.choice, Quot.sound]
'Verif.C24_dual' depends on axioms: [propext, Classical.choice, Quot.sound]
'Verif.C22_dual_set_get' depends on axioms: [propext, Classical.choice, Quot.sound]
'Verif.C22_dual_get_set' depends on axioms: [propext, Classical.choice, Quot.sound]
'Verif.C22_dual_wrong_length' depends on axioms: [propext, Classical.choice, Quot.sound]
'Verif.C28_dual_imitate' depends on axioms: [propext, Classical.choice, Quot.sound]
'Verif.C28_dual_raises' depends on axioms: [propext, Classical.choice, Quot.sound]
'Verif.C77_dual_step' depends on axioms: [propext, Classical.choice, Quot.sound]
'Verif.C109_dual_open_loop' depends on axioms: [propext, Classical.choice, Quot.sound]
'Verif.C109_dual_step' depends on axioms: [propext, Classical.choice, Quot.sound]
'Verif.C67_dual_one_substep' depends on axioms: [propext, Classical.choice, Quot.sound]
'Verif.C67_dual_fed_back' depends on axioms: [propext, Classical.choice, Quot.sound]
'Verif.C67_dual_fed_back_later' depends on axioms: [propext, Classical.choice, Quot.sound]
'Verif.C75_dual_step_any_gain' depends on axioms: [propext, Classical.choice, Quot.sound]
'Verif.C76_dual_step_any_gain' depends on axioms: [propext, Classical.choice, Quot.sound]
'Verif.C75_dual_runs_exist_any_gain' depends on axioms: [propext, Classical.choice, Quot.sound]
'Verif.C15_open_loop' depends on axioms: [propext, Classical.choice, Quot.sound]
'Verif.C15_steps' depends on axioms: [propext, Classical.choice, Quot.sound]
'Verif.C15_only_goal' depends on axioms: [propext, Classical.choice, Quot.sound]
'Verif.C15_only_goal_step' depends on axioms: [propext, Classical.choice, Quot.sound]
'Verif.C15_fv_open_loop' depends on axioms: [propext, Classical.choice, Quot.sound]
'Verif.C15_fv_steps' depends on axioms: [propext, Classical.choice, Quot.sound]
'Verif.C34_dual_steps' depends on axioms: [propext, Classical.choice, Quot.sound]
'Verif.C34_dual_open_loop' depends on axioms: [propext, Classical.choice, Quot.sound]
'Verif.C34_only_equilibria_step' depends on axioms: [propext, Classical.choice, Quot.sound]
'Verif.C13_translation_open_loop' depends on axioms: [propext, Classical.choice, Quot.sound]
'Verif.C13_translation_step' depends on axioms: [propext, Classical.choice, Quot.sound]
'Verif.C14_time_scaling_open_loop' depends on axioms: [propext, Classical.choice, Quot.sound]
'Verif.C14_time_scaling_step' depends on axioms: [propext, Classical.choice, Quot.sound]
'Verif.C62_dimension_open_loop' depends on axioms: [propext, Classical.choice, Quot.sound]
'Verif.C62_dimension_step' depends on axioms: [propext, Classical.choice, Quot.sound]
'Verif.C29_solve_constraints' depends on axioms: [propext, Classical.choice, Quot.sound]
'Verif.C29_equal_times_raise' depends on axioms: [propext, Classical.choice, Quot.sound]
'Verif.C29_reference_boundary' depends on axioms: [propext, Classical.choice, Quot.sound]
'Verif.C29_reference_derivatives' depends on axioms: [propext, Classical.choice, Quot.sound]
'Verif.C29_reference_after_goal' depends on axioms: [propext, Classical.choice, Quot.sound]
'Verif.C30_body_acceleration' depends on axioms: [propext, Classical.choice, Quot.sound]
'Verif.C30_quintic_is_solution' depends on axioms: [propext, Classical.choice, Quot.sound]
'Verif.C30_step_on_quintic' depends on axioms: [propext, Classical.choice, Quot.sound]
'Verif.C30_forces_invert_acceleration' depends on axioms: [propext, Classical.choice, Quot.sound]
'Verif.C29_imitate_boundary' depends on axioms: [propext, Classical.choice, Quot.sound]
'Verif.C79_exact' depends on axioms: [propext, Classical.choice, Quot.sound]
'Verif.C79_terminates' depends on axioms: [propext, Classical.choice, Quot.sound]
'Verif.C79_hangs' depends on axioms: [propext, Classical.choice, Quot.sound]
'Verif.C80_clock_drift' depends on axioms: [propext, Classical.choice, Quot.sound]
'Verif.C80_loop_times' depends on axioms: [propext, Classical.choice, Quot.sound]
'Verif.C80_loop_count' depends on axioms: [propext, Classical.choice, Quot.sound]
'Verif.C80_arange_times' depends on axioms: [propext, Classical.choice, Quot.sound]
'Verif.C80_arange_count' depends on axioms: [propext, Classical.choice, Quot.sound]
'Verif.C80_loop_one_step_more' depends on axioms: [propext, Classical.choice, Quot.sound]
'Verif.C80_arange_one_step_more' depends on axioms: [propext, Classical.choice, Quot.sound]
'Verif.C106_dmp_exact' depends on axioms: [propext, Classical.choice, Quot.sound]
'Verif.C106_dmp_step' depends on axioms: [propext, Classical.choice, Quot.sound]
'Verif.C106_dmp_reaches' depends on axioms: [propext, Classical.choice, Quot.sound]
'Verif.C106_dmp_default' depends on axioms: [propext, Classical.choice, Quot.sound]
'Verif.C106_step_function_exact' depends on axioms: [propext, Classical.choice, Quot.sound]
'Verif.C106_exact' depends on axioms: [propext, Classical.choice, Quot.sound]
'Verif.C106_open_loop_exact' depends on axioms: [propext, Classical.choice, Quot.sound]
'Verif.C106_spring_damper_step' depends on axioms: [propext, Classical.choice, Quot.sound]
'Verif.C106_default' depends on axioms: [propext, Classical.choice, Quot.sound]
'Verif.C106_open_loop' depends on axioms: [propext, Classical.choice, Quot.sound]
'Verif.C106_stalls' depends on axioms: [propext, Classical.choice, Quot.sound]
'Verif.C106_dmp_open_loop_exact' depends on axioms: [propext, Classical.choice, Quot.sound]
'Verif.C106_rk4_open_loop' depends on axioms: [propext, Classical.choice, Quot.sound]
'Verif.C106_dmp_open_loop' depends on axioms: [propext, Classical.choice, Quot.sound]
'Verif.C106_open_loop_default' depends on axioms: [propext, Classical.choice, Quot.sound]
'Verif.C106_rk4_step' depends on axioms: [propext, Classical.choice, Quot.sound]
'Verif.C106_rk4_reaches' depends on axioms: [propext, Classical.choice, Quot.sound]
'Verif.C106_rk4_default' depends on axioms: [propext, Classical.choice, Quot.sound]
'Verif.C03_partition_of_unity' depends on axioms: [propext, Classical.choice, Quot.sound]
'Verif.C03_design_matrix' depends on axioms: [propext, Classical.choice, Quot.sound]
'Verif.C03_force_between' depends on axioms: [propext, Classical.choice, Quot.sound]
'Verif.C04_force_linear' depends on axioms: [propext, Classical.choice, Quot.sound]
'Verif.C04_force_bounded' depends on axioms: [propext, Classical.choice, Quot.sound]
'Verif.C04_force_zero' depends on axioms: [propext, Classical.choice, Quot.sound]
'Verif.C04_force_vanishes' depends on axioms: [propext, Classical.choice, Quot.sound]
'Verif.C05_create_raises_iff' depends on axioms: [propext, Classical.choice, Quot.sound]
'Verif.C05_basis_functions' depends on axioms: [propext, Classical.choice, Quot.sound]
'Verif.C05_start_time_ignored' depends on axioms: [propext, Classical.choice, Quot.sound]
'Verif.C48_forward_clipped' depends on axioms: [propext, Classical.choice, Quot.sound]
'Verif.C48_forward_memoryless' depends on axioms: [propext, Classical.choice, Quot.sound]
'Verif.C48_forward_rigid' depends on axioms: [propext, Classical.choice, Quot.sound]
'Verif.C48_forward_product' depends on axioms: [propext, Classical.choice, Quot.sound]
'Verif.C72_body_frame_open_loop' depends on axioms: [propext, Classical.choice, Quot.sound]
'Verif.C72_body_frame_step' depends on axioms: [propext, Classical.choice, Quot.sound]
'Verif.C72_body_frame_imitate' depends on axioms: [propext, Classical.choice, Quot.sound]
'Verif.C72_quaternion_gradient' depends on axioms: [propext, Classical.choice, Quot.sound]
'Verif.C73_linear_open_loop' depends on axioms: [propext, Classical.choice, Quot.sound]
'Verif.C73_linear_step' depends on axioms: [propext, Classical.choice, Quot.sound]
'Verif.C73_linear_imitate' depends on axioms: [propext, Classical.choice, Quot.sound]
'Verif.C73_world_frame_open_loop' depends on axioms: [propext, Classical.choice, Quot.sound]
'Verif.C73_world_frame_step' depends on axioms: [propext, Classical.choice, Quot.sound]
'Verif.C73_world_frame_imitate' depends on axioms: [propext, Classical.choice, Quot.sound]
'Verif.C13_translation_cartesian_open_loop' depends on axioms: [propext, Classical.choice, Quot.sound]
'Verif.C13_translation_cartesian_step' depends on axioms: [propext, Classical.choice, Quot.sound]
'Verif.C14_in_time_create' depends on axioms: [propext, Classical.choice, Quot.sound]
'Verif.C14_in_time_after' depends on axioms: [propext, Classical.choice, Quot.sound]
'Verif.C14_time_scaling_cartesian_open_loop' depends on axioms: [propext, Classical.choice, Quot.sound]
'Verif.C14_time_scaling_cartesian_step' depends on axioms: [propext, Classical.choice, Quot.sound]
'Verif.C13_dual' depends on axioms: [propext, Classical.choice, Quot.sound]
'Verif.C72_dual_open_loop' depends on axioms: [propext, Classical.choice, Quot.sound]
'Verif.C72_dual_step' depends on axioms: [propext, Classical.choice, Quot.sound]
'Verif.C73_dual_open_loop' depends on axioms: [propext, Classical.choice, Quot.sound]
'Verif.C73_dual_step' depends on axioms: [propext, Classical.choice, Quot.sound]
'Verif.DualCartesianDMP.C14_dual_in_time_create' depends on axioms: [propext, Classical.choice, Quot.sound]
'Verif.DualCartesianDMP.C14_dual_in_time' depends on axioms: [propext, Classical.choice, Quot.sound]
'Verif.C14_dual_open_loop' depends on axioms: [propext, Classical.choice, Quot.sound]
'Verif.C14_dual_step' depends on axioms: [propext, Classical.choice, Quot.sound]
'Verif.C72_dual_imitate' depends on axioms: [propext, Classical.choice, Quot.sound]
'Verif.C73_dual_imitate' depends on axioms: [propext, Classical.choice, Quot.sound]
'Verif.C13_fv_open_loop' depends on axioms: [propext, Classical.choice, Quot.sound]
'Verif.C13_fv_step' depends on axioms: [propext, Classical.choice, Quot.sound]
'Verif.C14_fv_open_loop' depends on axioms: [propext, Classical.choice, Quot.sound]
'Verif.C14_fv_step' depends on axioms: [propext, Classical.choice, Quot.sound]
'Verif.C73_fv_open_loop' depends on axioms: [propext, Classical.choice, Quot.sound]
'Verif.C73_fv_step' depends on axioms: [propext, Classical.choice, Quot.sound]
'Verif.C73_fv_imitate' depends on axioms: [propext, Classical.choice, Quot.sound]
'Verif.C62_fv_open_loop' depends on axioms: [propext, Classical.choice, Quot.sound]
'Verif.C62_fv_step' depends on axioms: [propext, Classical.choice, Quot.sound]
'Verif.C62_fv_imitate' depends on axioms: [propext, Classical.choice, Quot.sound]
'Verif.C62_dimension_imitate' depends on axioms: [propext, Classical.choice, Quot.sound]
'Verif.C73_spring_damper_step' depends on axioms: [propext, Classical.choice, Quot.sound]
'Verif.C73_spring_damper_open_loop' depends on axioms: [propext, Classical.choice, Quot.sound]
'Verif.C72_spring_damper' depends on axioms: [propext, Classical.choice, Quot.sound]
'Verif.C73_spring_damper_orientation' depends on axioms: [propext, Classical.choice, Quot.sound]
'Verif.StateFollowingDMP.C73_state_following_open_loop' depends on axioms: [propext, Classical.choice, Quot.sound]
'Verif.StateFollowingDMP.C73_state_following_step' depends on axioms: [propext, Classical.choice, Quot.sound]
'Verif.StateFollowingDMP.C13_state_following' depends on axioms: [propext, Classical.choice, Quot.sound]
'Verif.StateFollowingDMP.C62_state_following' depends on axioms: [propext, Classical.choice, Quot.sound]
'Verif.StateFollowingDMP.C14_state_following_create' depends on axioms: [propext, Classical.choice, Quot.sound]
'Verif.StateFollowingDMP.C14_state_following_open_loop' depends on axioms: [propext, Classical.choice, Quot.sound]
'Verif.StateFollowingDMP.C14_state_following_step' depends on axioms: [propext, Classical.choice, Quot.sound]
'Verif.C85_step_converges' depends on axioms: [propext, Classical.choice, Quot.sound]
'Verif.C85_open_loop_converges' depends on axioms: [propext, Classical.choice, Quot.sound]
'Verif.C86_polynomial' depends on axioms: [propext, Classical.choice, Quot.sound]
'Verif.C86_open_loop' depends on axioms: [propext, Classical.choice, Quot.sound]
'Verif.C86_step' depends on axioms: [propext, Classical.choice, Quot.sound]
'Verif.C86_solution_exists' depends on axioms: [propext, Classical.choice, Quot.sound]
'Verif.C86_polynomial_solves' depends on axioms: [propext, Classical.choice, Quot.sound]
'Verif.C86_reaches' depends on axioms: [propext, Classical.choice, Quot.sound]
'Verif.C26_fv_imitate' depends on axioms: [propext, Classical.choice, Quot.sound]
'Verif.C111_solution' depends on axioms: [propext, Classical.choice, Quot.sound]
'Verif.C111_imitated_movement' depends on axioms: [propext, Classical.choice, Quot.sound]
'Verif.C111_step' depends on axioms: [propext, Classical.choice, Quot.sound]
'Verif.C111_initial_velocity_lost' depends on axioms: [propext, Classical.choice, Quot.sound]
'Verif.C70_create' depends on axioms: [propext, Classical.choice, Quot.sound]
'Verif.C70_call' depends on axioms: [propext, Classical.choice, Quot.sound]
'Verif.C70_history' depends on axioms: [propext, Classical.choice, Quot.sound]
'Verif.C71_objects_independent' depends on axioms: [propext, Classical.choice, Quot.sound]
'Verif.C71_created_separately' depends on axioms: [propext, Classical.choice, Quot.sound]
'Verif.C21_open_loop_does_not_disturb' depends on axioms: [propext, Classical.choice, Quot.sound]
'Verif.C21_same_values' depends on axioms: [propext, Classical.choice, Quot.sound]
'Verif.C58_step_results_stay' depends on axioms: [propext, Classical.choice, Quot.sound]
'Verif.C58_step_results_are_callers' depends on axioms: [propext, Classical.choice, Quot.sound]
'Verif.C58_state_following_overwritten_finding' depends on axioms: [propext, Classical.choice, Quot.sound]
'Verif.C58_state_following_witness' depends on axioms: [propext, Classical.choice, Quot.sound]
'Verif.C17_min_jerk_ignores_feedback' depends on axioms: [propext, Classical.choice, Quot.sound]
'Verif.C71_min_jerk' depends on axioms: [propext, Classical.choice, Quot.sound]
'Verif.C58_min_jerk_results_stay' depends on axioms: [propext, Classical.choice, Quot.sound]
'Verif.C58_min_jerk_results_are_callers' depends on axioms: [propext, Classical.choice, Quot.sound]
'Verif.C70_min_jerk_create' depends on axioms: [propext, Classical.choice, Quot.sound]
'Verif.C70_min_jerk_history' depends on axioms: [propext, Classical.choice, Quot.sound]
'Verif.C70_min_jerk_start_shared' depends on axioms: [propext, Classical.choice, Quot.sound]
'Verif.C23_cartesian_saved_weights_stay' depends on axioms: [propext, Classical.choice, Quot.sound]
'Verif.C23_cartesian_restore' depends on axioms: [propext, Classical.choice, Quot.sound]
'Verif.C23_get_weights_is_live_finding' depends on axioms: [propext, Classical.choice, Quot.sound]
'Verif.C23_restore_fails_finding' depends on axioms: [propext, Classical.choice, Quot.sound]
'Verif.C23_write_changes_object_finding' depends on axioms: [propext, Classical.choice, Quot.sound]
'Verif.C63_start_follows_demonstration_finding' depends on axioms: [propext, Classical.choice, Quot.sound]
'Verif.C63_open_loop_starts_at_overwritten_row_finding' depends on axioms: [propext, Classical.choice, Quot.sound]
'Verif.C63_other_elements' depends on axioms: [propext, Classical.choice, Quot.sound]
'Verif.C63_inner_rows' depends on axioms: [propext, Classical.choice, Quot.sound]
'Verif.C63_weights_private' depends on axioms: [propext, Classical.choice, Quot.sound]
'Verif.C50_initial_guesses' depends on axioms: [propext, Classical.choice, Quot.sound]
'Verif.C50_joint_limits' depends on axioms: [propext, Classical.choice, Quot.sound]
'Verif.C50_interval_finding' depends on axioms: [propext, Classical.choice, Quot.sound]
'Verif.C66_steps_within_interval' depends on axioms: [propext, Classical.choice, Quot.sound]
'Verif.C66_within_joint_limits' depends on axioms: [propext, Classical.choice, Quot.sound]
'Verif.C66_solver_ignored_finding' depends on axioms: [propext, Classical.choice, Quot.sound]
'Verif.C66_empty' depends on axioms: [propext, Classical.choice, Quot.sound]
'Verif.C66_joint_limits_finding' depends on axioms: [propext, Classical.choice, Quot.sound]
'Verif.C96_dmp' depends on axioms: [propext, Classical.choice, Quot.sound]
'Verif.C96_fv' depends on axioms: [propext, Classical.choice, Quot.sound]
'Verif.C96_cartesian' depends on axioms: [propext, Classical.choice, Quot.sound]
'Verif.C96_dual' depends on axioms: [propext, Classical.choice, Quot.sound]
'Verif.C96_open_loop' depends on axioms: [propext, Classical.choice, Quot.sound]
'Verif.C96_imitate_unique' depends on axioms: [propext, Classical.choice, Quot.sound]
'Verif.C96_imitate_recovers' depends on axioms: [propext, Classical.choice, Quot.sound]
'Verif.C96_promp' depends on axioms: [propext, Classical.choice, Quot.sound]
'Verif.C96_promp_weights' depends on axioms: [propext, Classical.choice, Quot.sound]
'Verif.C65_unique' depends on axioms: [propext, Classical.choice, Quot.sound]
'Verif.C97_exact' depends on axioms: [propext, Classical.choice, Quot.sound]
'Verif.C26_cartesian_imitate' depends on axioms: [propext, Classical.choice, Quot.sound]
'Verif.C96_cartesian_imitate_unique' depends on axioms: [propext, Classical.choice, Quot.sound]
'Verif.C26_dual_imitate' depends on axioms: [propext, Classical.choice, Quot.sound]
'Verif.C96_dual_imitate_unique' depends on axioms: [propext, Classical.choice, Quot.sound]
'Verif.C06_demonstrated_motion' depends on axioms: [propext, Classical.choice, Quot.sound]
'Verif.C06_forces_invert_acceleration' depends on axioms: [propext, Classical.choice, Quot.sound]
'Verif.C06_step_acceleration' depends on axioms: [propext, Classical.choice, Quot.sound]
'Verif.C26_ridge_optimal' depends on axioms: [propext, Classical.choice, Quot.sound]
'Verif.C26_ridge_unique' depends on axioms: [propext, Classical.choice, Quot.sound]
'Verif.C26_imitation_optimal' depends on axioms: [propext, Classical.choice, Quot.sound]
'Verif.C26_negative_raises' depends on axioms: [propext, Classical.choice, Quot.sound]
'Verif.C28_imitate_configures' depends on axioms: [propext, Classical.choice, Quot.sound]
'Verif.C28_imitate_raises' depends on axioms: [propext, Classical.choice, Quot.sound]
'Verif.C28_constant_demonstration' depends on axioms: [propext, Classical.choice, Quot.sound]
'Verif.C28_constant_reproduction' depends on axioms: [propext, Classical.choice, Quot.sound]
'Verif.C26_dmp_imitate' depends on axioms: [propext, Classical.choice, Quot.sound]
'Verif.C27_time_scale' depends on axioms: [propext, Classical.choice, Quot.sound]
'Verif.C27_affine' depends on axioms: [propext, Classical.choice, Quot.sound]
'Verif.C27_time_shift_changes_weights' depends on axioms: [propext, Classical.choice, Quot.sound]
'Verif.C27_dmp_time' depends on axioms: [propext, Classical.choice, Quot.sound]
'Verif.C27_cartesian_time' depends on axioms: [propext, Classical.choice, Quot.sound]
'Verif.C27_dual_time' depends on axioms: [propext, Classical.choice, Quot.sound]
'Verif.C27_fv_time' depends on axioms: [propext, Classical.choice, Quot.sound]
'Verif.C77_solution_exists' depends on axioms: [propext, Classical.choice, Quot.sound]
'Verif.C77_open_loop' depends on axioms: [propext, Classical.choice, Quot.sound]
'Verif.C77_step' depends on axioms: [propext, Classical.choice, Quot.sound]
'Verif.C77_critically_damped' depends on axioms: [propext, Classical.choice, Quot.sound]
'Verif.C77_coupling_velocity' depends on axioms: [propext, Classical.choice, Quot.sound]
'Verif.C77_spring_step' depends on axioms: [propext, Classical.choice, Quot.sound]
'Verif.C77_spring_open_loop' depends on axioms: [propext, Classical.choice, Quot.sound]
'Verif.C77_spring_critically_damped' depends on axioms: [propext, Classical.choice, Quot.sound]
'Verif.C49_random_restarts' depends on axioms: [propext, Classical.choice, Quot.sound]
'Verif.C49_success' depends on axioms: [propext, Classical.choice, Quot.sound]
'Verif.C49_local_random_restarts' depends on axioms: [propext, Classical.choice, Quot.sound]
'Verif.C52_json_round_trip' depends on axioms: [propext, Classical.choice, Quot.sound]
'Verif.C52_dmp' depends on axioms: [propext, Classical.choice, Quot.sound]
'Verif.C52_dmp_determined' depends on axioms: [propext, Classical.choice, Quot.sound]
'Verif.C52_cartesian_dmp_determined' depends on axioms: [propext, Classical.choice, Quot.sound]
'Verif.C52_cartesian_dmp' depends on axioms: [propext, Classical.choice, Quot.sound]
'Verif.C52_promp' depends on axioms: [propext, Classical.choice, Quot.sound]
'Verif.C52_promp_determined' depends on axioms: [propext, Classical.choice, Quot.sound]
'Verif.C52_yaml_eq_json' depends on axioms: [propext, Classical.choice, Quot.sound]
'Verif.C52_dmp_yaml' depends on axioms: [propext, Classical.choice, Quot.sound]
'Verif.C52_cartesian_dmp_yaml' depends on axioms: [propext, Classical.choice, Quot.sound]
'Verif.C52_promp_yaml' depends on axioms: [propext, Classical.choice, Quot.sound]
'Verif.C52_learned_promp_yaml_unreadable' depends on axioms: [propext, Classical.choice, Quot.sound]
'Verif.C52_minimum_jerk_lists' depends on axioms: [propext, Classical.choice, Quot.sound]
'Verif.C52_tuple_becomes_list' depends on axioms: [propext, Classical.choice, Quot.sound]
'Verif.C52_defaults_dmp' depends on axioms: [propext, Classical.choice, Quot.sound]
'Verif.C52_defaults_cartesian_dmp' depends on axioms: [propext, Classical.choice, Quot.sound]
'Verif.C52_defaults_promp' depends on axioms: [propext, Classical.choice, Quot.sound]
'Verif.C52_missing_argument' depends on axioms: [propext, Classical.choice, Quot.sound]
'Verif.C52_nested_tuple_yaml' depends on axioms: [propext, Classical.choice, Quot.sound]
'Verif.C52_tuple_yaml' depends on axioms: [propext, Classical.choice, Quot.sound]
'Verif.C48_clip' depends on axioms: [propext, Classical.choice, Quot.sound]
'Verif.C48_set_joint' depends on axioms: [propext, Classical.choice, Quot.sound]
'Verif.C48_revolute' depends on axioms: [propext, Classical.choice, Quot.sound]
'Verif.C48_revolute_additive' depends on axioms: [propext, Classical.choice, Quot.sound]
'Verif.C48_prismatic' depends on axioms: [propext, Classical.choice, Quot.sound]
'Verif.C95_forward_trajectory' depends on axioms: [propext, Classical.choice, Quot.sound]
'Verif.C95_inverse_evaluating' depends on axioms: [propext, Classical.choice, Quot.sound]
'Verif.C95_calls' depends on axioms: [propext, Classical.choice, Quot.sound]
'Verif.C95_calls_restarts' depends on axioms: [propext, Classical.choice, Quot.sound]
'Verif.C95_accuracy_restarts' depends on axioms: [propext, Classical.choice, Quot.sound]
'Verif.C95_accuracy' depends on axioms: [propext, Classical.choice, Quot.sound]
'Verif.C95_round_trip' depends on axioms: [propext, Classical.choice, Quot.sound]
'Verif.C95_other_chain' depends on axioms: [propext, Classical.choice, Quot.sound]
'Verif.C95_other_chain_finding' depends on axioms: [propext, Classical.choice, Quot.sound]
'Verif.Lasa.C55_complete_if_exists' depends on axioms: [propext, Classical.choice, Quot.sound]
'Verif.Lasa.C55_repaired' depends on axioms: [propext, Classical.choice, Quot.sound]
'Verif.Lasa.C55_no_leftovers' depends on axioms: [propext, Classical.choice, Quot.sound]
'Verif.Lasa.C55_stable' depends on axioms: [propext, Classical.choice, Quot.sound]
'Verif.Lasa.C55_concurrent_calls' depends on axioms: [propext, Classical.choice, Quot.sound]
'Verif.Lasa.C69_recorded' depends on axioms: [propext, Classical.choice, Quot.sound]
'Verif.Lasa.C69_times_ignore_dt' depends on axioms: [propext, Classical.choice, Quot.sound]
'Verif.Lasa.C69_velocities_scaled' depends on axioms: [propext, Classical.choice, Quot.sound]
'Verif.Lasa.C69_shape' depends on axioms: [propext, Classical.choice, Quot.sound]
'Verif.Lasa.C69_shape_negative' depends on axioms: [propext, Classical.choice, Quot.sound]
'Verif.Lasa.C69_shape_out_of_range' depends on axioms: [propext, Classical.choice, Quot.sound]
'Verif.C103_update' depends on axioms: [propext, Classical.choice, Quot.sound]
'Verif.C103_correct_variance' depends on axioms: [propext, Classical.choice, Quot.sound]
'Verif.C103_imitate_once' depends on axioms: [propext, Classical.choice, Quot.sound]
'Verif.C103_imitate' depends on axioms: [propext, Classical.choice, Quot.sound]
'Verif.C103_finding_variance' depends on axioms: [propext, Classical.choice, Quot.sound]
'Verif.SpringDamper.C118_forgets_everything' depends on axioms: [propext, Classical.choice, Quot.sound]
'Verif.SpringDamperOrientation.C118_forgets_everything' depends on axioms: [propext, Classical.choice, Quot.sound]
'Verif.StateFollowingDMP.C118_forgets' depends on axioms: [propext, Classical.choice, Quot.sound]
'Verif.CartesianDMP.C118_forgets' depends on axioms: [propext, Classical.choice, Quot.sound]
'Verif.DualCartesianDMP.C118_forgets' depends on axioms: [propext, Classical.choice, Quot.sound]
'Verif.FvDMP.C17_step_ignores_feedback' depends on axioms: [propext, Classical.choice, Quot.sound]
'Verif.C40_closed_form' depends on axioms: [propext, Classical.choice, Quot.sound]
'Verif.C40_reaches_goal' depends on axioms: [propext, Classical.choice, Quot.sound]
'Verif.C40_between' depends on axioms: [propext, Classical.choice, Quot.sound]
'Verif.C40_goal_missed' depends on axioms: [propext, Classical.choice, Quot.sound]
'Verif.C40_no_movement' depends on axioms: [propext, Classical.choice, Quot.sound]
'Verif.C40_errors' depends on axioms: [propext, Classical.choice, Quot.sound]
'Verif.C40_minimal_jerk' depends on axioms: [propext, Classical.choice, Quot.sound]
'Verif.MinimumJerkTrajectory.C40_class' depends on axioms: [propext, Classical.choice, Quot.sound]
'Verif.MinimumJerkTrajectory.C40_configure_ignored' depends on axioms: [propext, Classical.choice, Quot.sound]
'Verif.C117_straight' depends on axioms: [propext, Classical.choice, Quot.sound]
'Verif.C117_backwards' depends on axioms: [propext, Classical.choice, Quot.sound]
'Verif.C117_coordinates' depends on axioms: [propext, Classical.choice, Quot.sound]
'Verif.C117_superposition' depends on axioms: [propext, Classical.choice, Quot.sound]
'Verif.C117_unit_of_time' depends on axioms: [propext, Classical.choice, Quot.sound]
'Verif.C117_class' depends on axioms: [propext, Classical.choice, Quot.sound]
'Verif.C83_dmp' depends on axioms: [propext, Classical.choice, Quot.sound]
'Verif.C83_fv' depends on axioms: [propext, Classical.choice, Quot.sound]
'Verif.C83_spring_damper' depends on axioms: [propext, Classical.choice, Quot.sound]
'Verif.C83_minimum_jerk' depends on axioms: [propext, Classical.choice, Quot.sound]
'Verif.C83_promp' depends on axioms: [propext, Classical.choice, Quot.sound]
'Verif.C83_cartesian' depends on axioms: [propext, Classical.choice, Quot.sound]
'Verif.C83_orientations' depends on axioms: [propext, Classical.choice, Quot.sound]
'Verif.C39_well_defined' depends on axioms: [propext, Classical.choice, Quot.sound]
'Verif.C39_3d' depends on axioms: [propext, Classical.choice, Quot.sound]
'Verif.C39_3d_head_on' depends on axioms: [propext, Classical.choice, Quot.sound]
'Verif.C39_python_eq_cython' depends on axioms: [propext, Classical.choice, Quot.sound]
'Verif.C39_2d' depends on axioms: [propext, Classical.choice, Quot.sound]
'Verif.C39_2d_head_on' depends on axioms: [propext, Classical.choice, Quot.sound]
'Verif.C39_rest' depends on axioms: [propext, Classical.choice, Quot.sound]
'Verif.C75_cartesian_step' depends on axioms: [propext, Classical.choice, Quot.sound]
'Verif.C76_cartesian_step' depends on axioms: [propext, Classical.choice, Quot.sound]
'Verif.C75_cartesian_runs_exist' depends on axioms: [propext, Classical.choice, Quot.sound]
'Verif.C75_cartesian_open_loop' depends on axioms: [propext, Classical.choice, Quot.sound]
'Verif.C76_cartesian_open_loop' depends on axioms: [propext, Classical.choice, Quot.sound]
'Verif.C75_dual_step' depends on axioms: [propext, Classical.choice, Quot.sound]
'Verif.C75_dual_runs_exist' depends on axioms: [propext, Classical.choice, Quot.sound]
'Verif.C76_dual_step' depends on axioms: [propext, Classical.choice, Quot.sound]
'Verif.C75_dual_open_loop' depends on axioms: [propext, Classical.choice, Quot.sound]
'Verif.C76_dual_open_loop' depends on axioms: [propext, Classical.choice, Quot.sound]
'Verif.C109_dual_orientation_open_loop' depends on axioms: [propext, Classical.choice, Quot.sound]
'Verif.C109_dual_orientation_step' depends on axioms: [propext, Classical.choice, Quot.sound]
'Verif.C77_orientation_open_loop' depends on axioms: [propext, Classical.choice, Quot.sound]
'Verif.C77_orientation_step' depends on axioms: [propext, Classical.choice, Quot.sound]
'Verif.C108_orientation_open_loop' depends on axioms: [propext, Classical.choice, Quot.sound]
'Verif.C108_orientation_step' depends on axioms: [propext, Classical.choice, Quot.sound]
'Verif.C77_orientation_critically_damped' depends on axioms: [propext, Classical.choice, Quot.sound]
'Verif.C104_cartesian_positions' depends on axioms: [propext, Classical.choice, Quot.sound]
'Verif.C104_orientation_jump' depends on axioms: [propext, Classical.choice, Quot.sound]
'Verif.C109_orientation_open_loop' depends on axioms: [propext, Classical.choice, Quot.sound]
'Verif.C109_orientation_step' depends on axioms: [propext, Classical.choice, Quot.sound]
'Verif.C75_spring_damper_step' depends on axioms: [propext, Classical.choice, Quot.sound]
'Verif.C76_spring_damper_step' depends on axioms: [propext, Classical.choice, Quot.sound]
'Verif.C75_spring_damper_runs_exist' depends on axioms: [propext, Classical.choice, Quot.sound]
'Verif.C75_default_damping' depends on axioms: [propext, Classical.choice, Quot.sound]
'Verif.C76_default_damping' depends on axioms: [propext, Classical.choice, Quot.sound]
'Verif.C75_dead_zone' depends on axioms: [propext, Classical.choice, Quot.sound]
'Verif.C75_spring_damper_open_loop' depends on axioms: [propext, Classical.choice, Quot.sound]
'Verif.C76_spring_damper_open_loop' depends on axioms: [propext, Classical.choice, Quot.sound]
'Verif.C77_spring_orientation_step' depends on axioms: [propext, Classical.choice, Quot.sound]
'Verif.C77_spring_orientation_open_loop' depends on axioms: [propext, Classical.choice, Quot.sound]
'Verif.C77_spring_orientation_critically_damped' depends on axioms: [propext, Classical.choice, Quot.sound]
'Verif.C102_open_loop' depends on axioms: [propext, Classical.choice, Quot.sound]
'Verif.C102_fv_open_loop' depends on axioms: [propext, Classical.choice, Quot.sound]
'Verif.C102_cartesian_open_loop' depends on axioms: [propext, Classical.choice, Quot.sound]
'Verif.C102_spring_damper_open_loop' depends on axioms: [propext, Classical.choice, Quot.sound]
'Verif.C102_spring_damper_orientation_open_loop' depends on axioms: [propext, Classical.choice, Quot.sound]
'Verif.C102_step' depends on axioms: [propext, Classical.choice, Quot.sound]
'Verif.C102_fv_step' depends on axioms: [propext, Classical.choice, Quot.sound]
'Verif.C102_cartesian_step' depends on axioms: [propext, Classical.choice, Quot.sound]
'Verif.C102_spring_damper_step' depends on axioms: [propext, Classical.choice, Quot.sound]
'Verif.C102_spring_damper_orientation_step' depends on axioms: [propext, Classical.choice, Quot.sound]
'Verif.C102_state_following_step' depends on axioms: [propext, Classical.choice, Quot.sound]
'Verif.C102_state_following_open_loop' depends on axioms: [propext, Classical.choice, Quot.sound]
'Verif.C102_dual_step' depends on axioms: [propext, Classical.choice, Quot.sound]
'Verif.C102_dual_open_loop' depends on axioms: [propext, Classical.choice, Quot.sound]
'Verif.C102_rk4' depends on axioms: [propext, Classical.choice, Quot.sound]
'Verif.C01_dmp' depends on axioms: [propext, Classical.choice, Quot.sound]
'Verif.C01_fv' depends on axioms: [propext, Classical.choice, Quot.sound]
'Verif.C01_cartesian' depends on axioms: [propext, Classical.choice, Quot.sound]
'Verif.C01_dual' depends on axioms: [propext, Classical.choice, Quot.sound]
'Verif.C01_state_following' depends on axioms: [propext, Classical.choice, Quot.sound]
'Verif.C87_axes' depends on axioms: [propext, Classical.choice, Quot.sound]
'Verif.C87_too_few_cells' depends on axioms: [propext, Classical.choice, Quot.sound]
'Verif.C87_finding_transposed_overlap' depends on axioms: [propext, Classical.choice, Quot.sound]
'Verif.C87_trajectory' depends on axioms: [propext, Classical.choice, Quot.sound]
'Verif.C87_given_axes' depends on axioms: [propext, Classical.choice, Quot.sound]
'Verif.C87_distribution' depends on axioms: [propext, Classical.choice, Quot.sound]
'Verif.C87_areas' depends on axioms: [propext, Classical.choice, Quot.sound]
'Verif.C87_finding_dashed_needs_color' depends on axioms: [propext, Classical.choice, Quot.sound]
'Verif.C87_finding_no_time_label' depends on axioms: [propext, Classical.choice, Quot.sound]
'Verif.C51_value' depends on axioms: [propext, Classical.choice, Quot.sound]
'Verif.C51_pseudometric' depends on axioms: [propext, Classical.choice, Quot.sound]
'Verif.C51_same_axis' depends on axioms: [propext, Classical.choice, Quot.sound]
'Verif.C51_singular' depends on axioms: [propext, Classical.choice, Quot.sound]
'Verif.C51_error_zero_iff' depends on axioms: [propext, Classical.choice, Quot.sound]
'Verif.C53_difference' depends on axioms: [propext, Classical.choice, Quot.sound]
'Verif.C53_field_is_acceleration' depends on axioms: [propext, Classical.choice, Quot.sound]
'Verif.C53_wrong_without_smooth_scaling' depends on axioms: [propext, Classical.choice, Quot.sound]
'Verif.C53_grid' depends on axioms: [propext, Classical.choice, Quot.sound]
'Verif.C113_arrows' depends on axioms: [propext, Classical.choice, Quot.sound]
'Verif.C113_size' depends on axioms: [propext, Classical.choice, Quot.sound]
'Verif.C113_finding_exaggerate_ignored' depends on axioms: [propext, Classical.choice, Quot.sound]
'Verif.C113_finding_single_tick' depends on axioms: [propext, Classical.choice, Quot.sound]
'Verif.C113_no_ticks' depends on axioms: [propext, Classical.choice, Quot.sound]
'Verif.C56_precomputed' depends on axioms: [propext, Classical.choice, Quot.sound]
'Verif.C56_precomputed_only' depends on axioms: [propext, Classical.choice, Quot.sound]
'Verif.C56_quaternion_precomputed' depends on axioms: [propext, Classical.choice, Quot.sound]
'Verif.C57_precomputed' depends on axioms: [propext, Classical.choice, Quot.sound]
'Verif.C57_via_point_times' depends on axioms: [propext, Classical.choice, Quot.sound]
'Verif.C98_final_velocity' depends on axioms: [propext, Classical.choice, Quot.sound]
'Verif.C98_acceleration' depends on axioms: [propext, Classical.choice, Quot.sound]
'Verif.C98_euler_cython' depends on axioms: [propext, Classical.choice, Quot.sound]
'Verif.C98_finding_velocity_ignored' depends on axioms: [propext, Classical.choice, Quot.sound]
'Verif.C98_finding_ignored_with_coupling' depends on axioms: [propext, Classical.choice, Quot.sound]
'Verif.C98_finding_difference' depends on axioms: [propext, Classical.choice, Quot.sound]
'Verif.C44_mean' depends on axioms: [propext, Classical.choice, Quot.sound]
'Verif.C44_dimensions_separate' depends on axioms: [propext, Classical.choice, Quot.sound]
'Verif.C44_between_weights' depends on axioms: [propext, Classical.choice, Quot.sound]
'Verif.C44_covariance' depends on axioms: [propext, Classical.choice, Quot.sound]
'Verif.C44_velocity_covariance' depends on axioms: [propext, Classical.choice, Quot.sound]
'Verif.C41_condition_exact' depends on axioms: [propext, Classical.choice, Quot.sound]
'Verif.C41_succeeds' depends on axioms: [propext, Classical.choice, Quot.sound]
'Verif.C41_fails' depends on axioms: [propext, Classical.choice, Quot.sound]
'Verif.C42_condition_covariance' depends on axioms: [propext, Classical.choice, Quot.sound]
'Verif.C42_bayes' depends on axioms: [propext, Classical.choice, Quot.sound]
'Verif.C42_order' depends on axioms: [propext, Classical.choice, Quot.sound]
'Verif.PrompWorld.C46_all_methods_modify_times' depends on axioms: [propext, Classical.choice, Quot.sound]
'Verif.PrompWorld.C99_imitate' depends on axioms: [propext, Classical.choice, Quot.sound]
'Verif.PrompWorld.C99_mean_trajectory' depends on axioms: [propext, Classical.choice, Quot.sound]
'Verif.PrompWorld.C99_construct' depends on axioms: [propext, Classical.choice, Quot.sound]
'Verif.PrompWorld.C99_from_weight_distribution' depends on axioms: [propext, Classical.choice, Quot.sound]
'Verif.PrompWorld.C99_condition_position' depends on axioms: [propext, Classical.choice, Quot.sound]
'Verif.PrompWorld.C99_arrays_kept' depends on axioms: [propext, Classical.choice, Quot.sound]
'Verif.PrompWorld.C99_isolated' depends on axioms: [propext, Classical.choice, Quot.sound]
'Verif.PrompWorld.C99_own_arrays' depends on axioms: [propext, Classical.choice, Quot.sound]
'Verif.PrompWorld.C99_finding_shared' depends on axioms: [propext, Classical.choice, Quot.sound]
'Verif.C121_bayes' depends on axioms: [propext, Classical.choice, Quot.sound]
'Verif.C121_errors' depends on axioms: [propext, Classical.choice, Quot.sound]
'Verif.C121_bayes_sequence' depends on axioms: [propext, Classical.choice, Quot.sound]
'Verif.C121_bayes_trajectory' depends on axioms: [propext, Classical.choice, Quot.sound]
'Verif.C121_bayes_velocities' depends on axioms: [propext, Classical.choice, Quot.sound]
'Verif.C121_order' depends on axioms: [propext, Classical.choice, Quot.sound]
'Verif.C121_via_points' depends on axioms: [propext, Classical.choice, Quot.sound]
'Verif.C121_same_position' depends on axioms: [propext, Classical.choice, Quot.sound]
'Verif.C47_valid_distribution' depends on axioms: [propext, Classical.choice, Quot.sound]
'Verif.C47_positive_definite' depends on axioms: [propext, Classical.choice, Quot.sound]
'Verif.C47_iterations' depends on axioms: [propext, Classical.choice, Quot.sound]
'Verif.C47_order' depends on axioms: [propext, Classical.choice, Quot.sound]
'Verif.C65_weights_optimal' depends on axioms: [propext, Classical.choice, Quot.sound]
'Verif.C68_imitate_updates' depends on axioms: [propext, Classical.choice, Quot.sound]
'Verif.C68_posterior_minimises' depends on axioms: [propext, Classical.choice, Quot.sound]
'Verif.C43_covariance_rows_finding' depends on axioms: [propext, Classical.choice, Quot.sound]
'Verif.C41_time_scale_finding' depends on axioms: [propext, Classical.choice, Quot.sound]
'Verif.C116_unit_of_time' depends on axioms: [propext, Classical.choice, Quot.sound]
'Verif.C116_condition_unit_of_time' depends on axioms: [propext, Classical.choice, Quot.sound]
'Verif.C116_trajectories' depends on axioms: [propext, Classical.choice, Quot.sound]
'Verif.C116_weights' depends on axioms: [propext, Classical.choice, Quot.sound]
'Verif.C116_condition' depends on axioms: [propext, Classical.choice, Quot.sound]
'Verif.C116_via_points' depends on axioms: [propext, Classical.choice, Quot.sound]
'Verif.C116_new' depends on axioms: [propext, Classical.choice, Quot.sound]
'Verif.C116_imitate' depends on axioms: [propext, Classical.choice, Quot.sound]
'Verif.C116_finding_units_of_positions' depends on axioms: [propext, Classical.choice, Quot.sound]
'Verif.C119_velocities' depends on axioms: [propext, Classical.choice, Quot.sound]
'Verif.C110_trajectory' depends on axioms: [propext, Classical.choice, Quot.sound]
'Verif.C110_distribution' depends on axioms: [propext, Classical.choice, Quot.sound]
'Verif.C110_weights' depends on axioms: [propext, Classical.choice, Quot.sound]
'Verif.C119_distribution' depends on axioms: [propext, Classical.choice, Quot.sound]
'Verif.C119_positions' depends on axioms: [propext, Classical.choice, Quot.sound]
'Verif.C119_conditioned' depends on axioms: [propext, Classical.choice, Quot.sound]
'Verif.C119_average' depends on axioms: [propext, Classical.choice, Quot.sound]
'Verif.C45_normalised_velocity' depends on axioms: [propext, Classical.choice, Quot.sound]
'Verif.C45_real_velocity' depends on axioms: [propext, Classical.choice, Quot.sound]
'Verif.C46_query_modifies_times' depends on axioms: [propext, Classical.choice, Quot.sound]
'Verif.C46_second_query' depends on axioms: [propext, Classical.choice, Quot.sound]
'Verif.C46_scale_invariant' depends on axioms: [propext, Classical.choice, Quot.sound]
'Verif.C46_errors' depends on axioms: [propext, Classical.choice, Quot.sound]
'Verif.C46_samples' depends on axioms: [propext, Classical.choice, Quot.sound]
'Verif.C43_via_points' depends on axioms: [propext, Classical.choice, Quot.sound]
'Verif.C43_repeated_time' depends on axioms: [propext, Classical.choice, Quot.sound]
'Verif.C43_order' depends on axioms: [propext, Classical.choice, Quot.sound]
'Verif.C43_succeeds_iff' depends on axioms: [propext, Classical.choice, Quot.sound]
'Verif.C32_concatenate' depends on axioms: [propext, Classical.choice, Quot.sound]
'Verif.C32_exp' depends on axioms: [propext, Classical.choice, Quot.sound]
'Verif.C32_log' depends on axioms: [propext, Classical.choice, Quot.sound]
'Verif.C32_antipodal' depends on axioms: [propext, Classical.choice, Quot.sound]
'Verif.C32_log_exp' depends on axioms: [propext, Classical.choice, Quot.sound]
'Verif.C32_matrix' depends on axioms: [propext, Classical.choice, Quot.sound]
'Verif.C82_python_eq_cython' depends on axioms: [propext, Classical.choice, Quot.sound]
'Verif.C82_precomputed' depends on axioms: [propext, Classical.choice, Quot.sound]
'Verif.C82_precomputed_difference' depends on axioms: [propext, Classical.choice, Quot.sound]
'Verif.C82_before_start' depends on axioms: [propext, Classical.choice, Quot.sound]
'Verif.C82_step' depends on axioms: [propext, Classical.choice, Quot.sound]
'Verif.C82_open_loop' depends on axioms: [propext, Classical.choice, Quot.sound]
'Verif.C122_random_parameters' depends on axioms: [propext, Classical.choice, Quot.sound]
'Verif.C122_noisy_demonstrations' depends on axioms: [propext, Classical.choice, Quot.sound]
'Verif.C122_noisy_reproduction' depends on axioms: [propext, Classical.choice, Quot.sound]
'Verif.C122_average_parameters' depends on axioms: [propext, Classical.choice, Quot.sound]
'Verif.C122_average_trajectories' depends on axioms: [propext, Classical.choice, Quot.sound]
'Verif.C122_average_reproductions' depends on axioms: [propext, Classical.choice, Quot.sound]
'Verif.C122_fv_noisy_reproduction' depends on axioms: [propext, Classical.choice, Quot.sound]
'Verif.C122_spring_damper' depends on axioms: [propext, Classical.choice, Quot.sound]
'Verif.C120_dmp' depends on axioms: [propext, Classical.choice, Quot.sound]
'Verif.C120_fv' depends on axioms: [propext, Classical.choice, Quot.sound]
'Verif.C120_cartesian' depends on axioms: [propext, Classical.choice, Quot.sound]
'Verif.C120_dual' depends on axioms: [propext, Classical.choice, Quot.sound]
'Verif.C120_promp' depends on axioms: [propext, Classical.choice, Quot.sound]
'Verif.C120_promp_smallest' depends on axioms: [propext, Classical.choice, Quot.sound]
'Verif.C120_dmp_smallest' depends on axioms: [propext, Classical.choice, Quot.sound]
'Verif.C120_fv_smallest' depends on axioms: [propext, Classical.choice, Quot.sound]
'Verif.C120_cartesian_smallest' depends on axioms: [propext, Classical.choice, Quot.sound]
'Verif.C120_dual_smallest' depends on axioms: [propext, Classical.choice, Quot.sound]
'Verif.C97_regularised' depends on axioms: [propext, Classical.choice, Quot.sound]
'Verif.C108_forces' depends on axioms: [propext, Classical.choice, Quot.sound]
'Verif.C108_solution' depends on axioms: [propext, Classical.choice, Quot.sound]
'Verif.C108_open_loop' depends on axioms: [propext, Classical.choice, Quot.sound]
'Verif.C108_step' depends on axioms: [propext, Classical.choice, Quot.sound]
'Verif.C109_solution' depends on axioms: [propext, Classical.choice, Quot.sound]
'Verif.C109_imitated_movement' depends on axioms: [propext, Classical.choice, Quot.sound]
'Verif.C109_step' depends on axioms: [propext, Classical.choice, Quot.sound]
'Verif.C19_fv' depends on axioms: [propext, Classical.choice, Quot.sound]
'Verif.C19_cartesian' depends on axioms: [propext, Classical.choice, Quot.sound]
'Verif.C19_dual' depends on axioms: [propext, Classical.choice, Quot.sound]
'Verif.C19_state_following' depends on axioms: [propext, Classical.choice, Quot.sound]
'Verif.C81_cartesian_solution_exists' depends on axioms: [propext, Classical.choice, Quot.sound]
'Verif.C81_cartesian_open_loop' depends on axioms: [propext, Classical.choice, Quot.sound]
'Verif.C81_cartesian_step' depends on axioms: [propext, Classical.choice, Quot.sound]
'Verif.C81_solution_exists' depends on axioms: [propext, Classical.choice, Quot.sound]
'Verif.C81_shift_exists' depends on axioms: [propext, Classical.choice, Quot.sound]
'Verif.C81_open_loop' depends on axioms: [propext, Classical.choice, Quot.sound]
'Verif.C81_unforced' depends on axioms: [propext, Classical.choice, Quot.sound]
'Verif.C81_error' depends on axioms: [propext, Classical.choice, Quot.sound]
'Verif.C81_first_order_only' depends on axioms: [propext, Classical.choice, Quot.sound]
'Verif.C81_step' depends on axioms: [propext, Classical.choice, Quot.sound]
'Verif.C81_step_unforced' depends on axioms: [propext, Classical.choice, Quot.sound]
'Verif.C114_step' depends on axioms: [propext, Classical.choice, Quot.sound]
'Verif.C114_open_loop' depends on axioms: [propext, Classical.choice, Quot.sound]
'Verif.C114_open_loop_substeps' depends on axioms: [propext, Classical.choice, Quot.sound]
'Verif.C114_imitate' depends on axioms: [propext, Classical.choice, Quot.sound]
'Verif.C114_finding_half_turn' depends on axioms: [propext, Classical.choice, Quot.sound]
'Verif.C114_open_loop_new' depends on axioms: [propext, Classical.choice, Quot.sound]
'Verif.C114_spring_damper_step' depends on axioms: [propext, Classical.choice, Quot.sound]
'Verif.C114_spring_damper_open_loop' depends on axioms: [propext, Classical.choice, Quot.sound]
'Verif.C114_spring_damper_open_loop_damped' depends on axioms: [propext, Classical.choice, Quot.sound]
'Verif.C114_dual_open_loop' depends on axioms: [propext, Classical.choice, Quot.sound]
'Verif.C114_dual_imitate' depends on axioms: [propext, Classical.choice, Quot.sound]
'Verif.Sim.C92_chain_errors' depends on axioms: [propext, Classical.choice, Quot.sound]
'Verif.Sim.C90_ur5_joint_commands' depends on axioms: [propext, Classical.choice, Quot.sound]
'Verif.Sim.C90_rh5_joint_commands' depends on axioms: [propext, Classical.choice, Quot.sound]
'Verif.Sim.C91_finding_exception_does_not_stop' depends on axioms: [propext, Classical.choice, Quot.sound]
'Verif.Sim.C91_finding_rh5_exception_does_not_stop' depends on axioms: [propext, Classical.choice, Quot.sound]
'Verif.Sim.C93_sim_loop' depends on axioms: [propext, Classical.choice, Quot.sound]
'Verif.Sim.C93_sim_loop_forever' depends on axioms: [propext, Classical.choice, Quot.sound]
'Verif.Sim.C93_goto_ee_state' depends on axioms: [propext, Classical.choice, Quot.sound]
'Verif.Sim.C93_goto_joint_state' depends on axioms: [propext, Classical.choice, Quot.sound]
'Verif.Sim.C93_key_frames' depends on axioms: [propext, Classical.choice, Quot.sound]
'Verif.Sim.C91_mockup' depends on axioms: [propext, Classical.choice, Quot.sound]
'Verif.Sim.C91_mockup_dmp' depends on axioms: [propext, Classical.choice, Quot.sound]
'Verif.Sim.C89_conversions' depends on axioms: [propext, Classical.choice, Quot.sound]
'Verif.Sim.C89_transforms' depends on axioms: [propext, Classical.choice, Quot.sound]
'Verif.Sim.C89_commanded_pose_is_measured' depends on axioms: [propext, Classical.choice, Quot.sound]
'Verif.Sim.C89_identity_base' depends on axioms: [propext, Classical.choice, Quot.sound]
'Verif.Sim.C89_rh5' depends on axioms: [propext, Classical.choice, Quot.sound]
'Verif.Sim.C89_finding_base_frame' depends on axioms: [propext, Classical.choice, Quot.sound]
'Verif.Sim.C89_finding_velocity' depends on axioms: [propext, Classical.choice, Quot.sound]
'Verif.Sim.C91_rh5_log' depends on axioms: [propext, Classical.choice, Quot.sound]
'Verif.Sim.C91_finding_rh5_velocities' depends on axioms: [propext, Classical.choice, Quot.sound]
'Verif.Sim.C90_rh5_ideal_tracking' depends on axioms: [propext, Classical.choice, Quot.sound]
'Verif.Sim.C92_indices' depends on axioms: [propext, Classical.choice, Quot.sound]
'Verif.Sim.C92_finding_base_link' depends on axioms: [propext, Classical.choice, Quot.sound]
'Verif.Sim.C92_unknown_type' depends on axioms: [propext, Classical.choice, Quot.sound]
'Verif.Sim.C92_chain' depends on axioms: [propext, Classical.choice, Quot.sound]
'Verif.Sim.C92_ur5_joints' depends on axioms: [propext, Classical.choice, Quot.sound]
'Verif.Sim.C91_ur5_log' depends on axioms: [propext, Classical.choice, Quot.sound]
'Verif.Sim.C90_ur5_ideal_tracking' depends on axioms: [propext, Classical.choice, Quot.sound]
'Verif.Sim.C91_ur5_stops' depends on axioms: [propext, Classical.choice, Quot.sound]
'Verif.Sim.C91_finding_second_simulation' depends on axioms: [propext, Classical.choice, Quot.sound]
'Verif.C104_open_loop' depends on axioms: [propext, Classical.choice, Quot.sound]
'Verif.C104_fv_open_loop' depends on axioms: [propext, Classical.choice, Quot.sound]
'Verif.C104_imitate' depends on axioms: [propext, Classical.choice, Quot.sound]
'Verif.C104_reproduction' depends on axioms: [propext, Classical.choice, Quot.sound]
'Verif.C104_fv_imitate' depends on axioms: [propext, Classical.choice, Quot.sound]
'Verif.C104_fv_reproduction' depends on axioms: [propext, Classical.choice, Quot.sound]
'Verif.C104_spring_damper_open_loop' depends on axioms: [propext, Classical.choice, Quot.sound]
'Verif.C16_other_goal' depends on axioms: [propext, Classical.choice, Quot.sound]
'Verif.C16_first_step' depends on axioms: [propext, Classical.choice, Quot.sound]
'Verif.C56_step_converges' depends on axioms: [propext, Classical.choice, Quot.sound]
'Verif.C56_runs_exist' depends on axioms: [propext, Classical.choice, Quot.sound]
'Verif.C56_default_damping' depends on axioms: [propext, Classical.choice, Quot.sound]
'Verif.C56_open_loop_converges' depends on axioms: [propext, Classical.choice, Quot.sound]
'Verif.C56_goal_is_equilibrium' depends on axioms: [propext, Classical.choice, Quot.sound]
'Verif.C56_only_equilibrium' depends on axioms: [propext, Classical.choice, Quot.sound]
'Verif.C56_unstable' depends on axioms: [propext, Classical.choice, Quot.sound]
'Verif.C31_spring_damper_function' depends on axioms: [propext, Classical.choice, Quot.sound]
'Verif.C31_spring_damper_step' depends on axioms: [propext, Classical.choice, Quot.sound]
'Verif.C31_spring_damper_open_loop' depends on axioms: [propext, Classical.choice, Quot.sound]
'Verif.C34_spring_damper' depends on axioms: [propext, Classical.choice, Quot.sound]
'Verif.StateFollowingDMP.C104_state_following_open_loop' depends on axioms: [propext, Classical.choice, Quot.sound]
'Verif.StateFollowingDMP.C105_state_following_step' depends on axioms: [propext, Classical.choice, Quot.sound]
'Verif.StateFollowingDMP.C105_state_following_runs_exist' depends on axioms: [propext, Classical.choice, Quot.sound]
'Verif.StateFollowingArgs.C57_attractor' depends on axioms: [propext, Classical.choice, Quot.sound]
'Verif.C57_strictly_inside' depends on axioms: [propext, Classical.choice, Quot.sound]
'Verif.StateFollowingDMP.C57_uninitialised_width' depends on axioms: [propext, Classical.choice, Quot.sound]
'Verif.StateFollowingDMP.C57_uninitialised_underflow' depends on axioms: [propext, Classical.choice, Quot.sound]
'Verif.StateFollowingDMP.C57_goal_ignored' depends on axioms: [propext, Classical.choice, Quot.sound]
'Verif.StateFollowingDMP.C57_equilibrium' depends on axioms: [propext, Classical.choice, Quot.sound]
'Verif.StateFollowingDMP.C57_limit' depends on axioms: [propext, Classical.choice, Quot.sound]
'Verif.StateFollowingDMP.C77_state_following_exists' depends on axioms: [propext, Classical.choice, Quot.sound]
'Verif.StateFollowingDMP.C77_state_following_open_loop' depends on axioms: [propext, Classical.choice, Quot.sound]
'Verif.StateFollowingDMP.C77_state_following_step' depends on axioms: [propext, Classical.choice, Quot.sound]
'Verif.C54_split_stack' depends on axioms: [propext, Classical.choice, Quot.sound]
'Verif.C54_execution_time_entry' depends on axioms: [propext, Classical.choice, Quot.sound]
'Verif.C54_execution_time_ignored' depends on axioms: [propext, Classical.choice, Quot.sound]
'Verif.C54_sample_is_demonstration' depends on axioms: [propext, Classical.choice, Quot.sound]
'Verif.C54_same_duration' depends on axioms: [propext, Classical.choice, Quot.sound]
'Verif.C54_same_length' depends on axioms: [propext, Classical.choice, Quot.sound]
'Verif.C54_propagate' depends on axioms: [propext, Classical.choice, Quot.sound]
'Verif.C54_fast_demonstrations_ignored' depends on axioms: [propext, Classical.choice, Quot.sound]
'Verif.C54_only_fast_demonstrations' depends on axioms: [propext, Classical.choice, Quot.sound]
'Verif.C54_cache' depends on axioms: [propext, Classical.choice, Quot.sound]
'Verif.C54_crash_points' depends on axioms: [propext, Classical.choice, Quot.sound]
'Verif.C54_truncated_accepted_finding' depends on axioms: [propext, Classical.choice, Quot.sound]
'Verif.C54_truncated_raises_finding' depends on axioms: [propext, Classical.choice, Quot.sound]
'Verif.C54_pipeline' depends on axioms: [propext, Classical.choice, Quot.sound]
'Verif.C94_dmp' depends on axioms: [propext, Classical.choice, Quot.sound]
'Verif.C94_dmp_unknown_name' depends on axioms: [propext, Classical.choice, Quot.sound]
'Verif.C94_cartesian' depends on axioms: [propext, Classical.choice, Quot.sound]
'Verif.C94_dual' depends on axioms: [propext, Classical.choice, Quot.sound]
'Verif.C94_state_following' depends on axioms: [propext, Classical.choice, Quot.sound]
'Verif.C94_fv' depends on axioms: [propext, Classical.choice, Quot.sound]
'Verif.C94_fv_single_number' depends on axioms: [propext, Classical.choice, Quot.sound]
'Verif.C94_fv_clock_advanced' depends on axioms: [propext, Classical.choice, Quot.sound]
'Verif.C94_fv_one_dimension' depends on axioms: [propext, Classical.choice, Quot.sound]
'Verif.C94_spring_damper' depends on axioms: [propext, Classical.choice, Quot.sound]
'Verif.C94_spring_damper_wrong_length' depends on axioms: [propext, Classical.choice, Quot.sound]
'Verif.C94_spring_damper_orientation' depends on axioms: [propext, Classical.choice, Quot.sound]
'Verif.C94_spring_damper_orientation_wrong_length' depends on axioms: [propext, Classical.choice, Quot.sound]
'Verif.C10_dmp' depends on axioms: [propext, Classical.choice, Quot.sound]
'Verif.C10_cartesian' depends on axioms: [propext, Classical.choice, Quot.sound]
'Verif.C11_dmp' depends on axioms: [propext, Classical.choice, Quot.sound]
'Verif.C11_cartesian' depends on axioms: [propext, Classical.choice, Quot.sound]
'Verif.C35_step' depends on axioms: [propext, Classical.choice, Quot.sound]
'Verif.C35_open_loop' depends on axioms: [propext, Classical.choice, Quot.sound]
'Verif.C78_names' depends on axioms: [propext, Classical.choice, Quot.sound]
'Verif.C78_dmp_unknown' depends on axioms: [propext, Classical.choice, Quot.sound]
'Verif.C78_dmp' depends on axioms: [propext, Classical.choice, Quot.sound]
'Verif.C78_cartesian' depends on axioms: [propext, Classical.choice, Quot.sound]
'Verif.C78_cartesian_unknown' depends on axioms: [propext, Classical.choice, Quot.sound]
'Verif.C78_cartesian_unknown_quaternion' depends on axioms: [propext, Classical.choice, Quot.sound]
'Verif.C78_cartesian_lookup_is_late' depends on axioms: [propext, Classical.choice, Quot.sound]
'Verif.C78_dual_unknown' depends on axioms: [propext, Classical.choice, Quot.sound]
'Verif.C78_dual' depends on axioms: [propext, Classical.choice, Quot.sound]
'Verif.C18_dmp_any_duration' depends on axioms: [propext, Classical.choice, Quot.sound]
'Verif.C18_fv' depends on axioms: [propext, Classical.choice, Quot.sound]
'Verif.C18_spring_damper' depends on axioms: [propext, Classical.choice, Quot.sound]
'Verif.C18_spring_damper_orientation' depends on axioms: [propext, Classical.choice, Quot.sound]
'Verif.C18_cartesian' depends on axioms: [propext, Classical.choice, Quot.sound]
'Verif.C18_dual' depends on axioms: [propext, Classical.choice, Quot.sound]
'Verif.C18_state_following' depends on axioms: [propext, Classical.choice, Quot.sound]
'Verif.C20_fv' depends on axioms: [propext, Classical.choice, Quot.sound]
'Verif.C20_spring_damper' depends on axioms: [propext, Classical.choice, Quot.sound]
'Verif.C20_spring_damper_orientation' depends on axioms: [propext, Classical.choice, Quot.sound]
'Verif.C20_cartesian' depends on axioms: [propext, Classical.choice, Quot.sound]
'Verif.C20_dual' depends on axioms: [propext, Classical.choice, Quot.sound]
'Verif.C20_state_following' depends on axioms: [propext, Classical.choice, Quot.sound]
'Verif.C09_rk4_is_classical' depends on axioms: [propext, Classical.choice, Quot.sound]
'Verif.C10_rk4_cython_eq_python' depends on axioms: [propext, Classical.choice, Quot.sound]
'Verif.C11_euler_cython_eq_python' depends on axioms: [propext, Classical.choice, Quot.sound]
'Verif.C11_disagree_with_coupling' depends on axioms: [propext, Classical.choice, Quot.sound]
'Verif.C11_disagree_before_start' depends on axioms: [propext, Classical.choice, Quot.sound]
'Verif.C12_euler_substeps' depends on axioms: [propext, Classical.choice, Quot.sound]
'Verif.C12_euler_diverges' depends on axioms: [propext, Classical.choice, Quot.sound]
'Verif.C12_euler_raises' depends on axioms: [propext, Classical.choice, Quot.sound]
'Verif.C15_goal_is_equilibrium' depends on axioms: [propext, Classical.choice, Quot.sound]
'Verif.C15_only_goal_is_equilibrium' depends on axioms: [propext, Classical.choice, Quot.sound]
'Verif.C16_smooth_start' depends on axioms: [propext, Classical.choice, Quot.sound]
'Verif.C16_unscaled_start' depends on axioms: [propext, Classical.choice, Quot.sound]
'Verif.C101_open_loop' depends on axioms: [propext, Classical.choice, Quot.sound]
'Verif.C101_step' depends on axioms: [propext, Classical.choice, Quot.sound]
'Verif.C101_imitate' depends on axioms: [propext, Classical.choice, Quot.sound]
'Verif.C101_fv_open_loop' depends on axioms: [propext, Classical.choice, Quot.sound]
'Verif.C101_fv_step' depends on axioms: [propext, Classical.choice, Quot.sound]
'Verif.C101_fv_imitate' depends on axioms: [propext, Classical.choice, Quot.sound]
'Verif.C101_spring_damper_open_loop' depends on axioms: [propext, Classical.choice, Quot.sound]
'Verif.C101_spring_damper_step' depends on axioms: [propext, Classical.choice, Quot.sound]
'Verif.StateFollowingDMP.C101_state_following_open_loop' depends on axioms: [propext, Classical.choice, Quot.sound]
'Verif.StateFollowingDMP.C101_state_following_step' depends on axioms: [propext, Classical.choice, Quot.sound]
'Verif.C60_second_differences' depends on axioms: [propext, Classical.choice, Quot.sound]
'Verif.C60_full_column_rank' depends on axioms: [propext, Classical.choice, Quot.sound]
'Verif.C60_covariance' depends on axioms: [propext, Classical.choice, Quot.sound]
'Verif.C60_generate' depends on axioms: [propext, Classical.choice, Quot.sound]
'Verif.C60_offsets' depends on axioms: [propext, Classical.choice, Quot.sound]
'Verif.C12_euler_is_semi_implicit' depends on axioms: [propext, Classical.choice, Quot.sound]
'Verif.C67_euler_response' depends on axioms: [propext, Classical.choice, Quot.sound]
'Verif.C67_rk4_response' depends on axioms: [propext, Classical.choice, Quot.sound]
'Verif.C67_step_one_substep' depends on axioms: [propext, Classical.choice, Quot.sound]
'Verif.C67_step_two_substeps' depends on axioms: [propext, Classical.choice, Quot.sound]
'Verif.C67_step_rk4' depends on axioms: [propext, Classical.choice, Quot.sound]
'Verif.C74_dmp_ignores_final_velocity' depends on axioms: [propext, Classical.choice, Quot.sound]
'Verif.C74_cartesian_ignores_final_velocity' depends on axioms: [propext, Classical.choice, Quot.sound]
'Verif.C74_dual_ignores_final_velocity' depends on axioms: [propext, Classical.choice, Quot.sound]
'Verif.C74_spring_damper_ignores_final_velocity' depends on axioms: [propext, Classical.choice, Quot.sound]
'Verif.C74_spring_damper_orientation_ignores_final_velocity' depends on axioms: [propext, Classical.choice, Quot.sound]
'Verif.C74_state_following_ignores_goal' depends on axioms: [propext, Classical.choice, Quot.sound]
'Verif.C88_keystroke' depends on axioms: [propext]
'Verif.C88_finding_never_hidden' depends on axioms: [propext]
'Verif.C88_finding_stays_hidden' depends on axioms: [propext]
'Verif.C88_finding_flag' depends on axioms: [propext, Quot.sound]
'Verif.C88_pointcloud' depends on axioms: [propext, Classical.choice, Quot.sound]
'Verif.C88_downsampling' depends on axioms: [propext, Classical.choice, Quot.sound]
