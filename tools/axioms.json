{
"Verif.BT.Blackboard.C11_blackboard_flat_partial": [
"Classical.choice",
"Quot.sound",
"propext"
],
"Verif.BT.Blackboard.C11_flat_isolated": [],
"Verif.BT.Blackboard.C11_flat_read_own_write": [
"propext"
],
"Verif.BT.Blackboard.C11_float_increment_quits": [
"Classical.choice",
"Quot.sound",
"propext"
],
"Verif.BT.Blackboard.C11_node_memory_read_violation": [
"Classical.choice",
"Quot.sound",
"propext"
],
"Verif.BT.Blackboard.C11_node_memory_violation": [
"Classical.choice",
"Quot.sound",
"propext"
],
"Verif.BT.Blackboard.C11_open_nodes_violation": [
"Classical.choice",
"Quot.sound",
"propext"
],
"Verif.BT.Blackboard.C11_read_returns_last_write_partial": [
"Classical.choice",
"Quot.sound",
"propext"
],
"Verif.BT.Board.C83_alone": [
"Classical.choice",
"Quot.sound",
"propext"
],
"Verif.BT.Board.C83_alone_new": [
"Classical.choice",
"Quot.sound",
"propext"
],
"Verif.BT.Board.C83_mem_is_get": [
"Quot.sound",
"propext"
],
"Verif.BT.Board.C83_other_trees": [
"Classical.choice",
"Quot.sound",
"propext"
],
"Verif.BT.Board.C83_published": [
"Classical.choice",
"Quot.sound",
"propext"
],
"Verif.BT.Board.C83_shared_statistics": [
"Classical.choice",
"Quot.sound",
"propext"
],
"Verif.BT.Board.C83_tick": [
"Classical.choice",
"Quot.sound",
"propext"
],
"Verif.BT.Board.C83_treeMem_is_get": [
"propext"
],
"Verif.BT.C01_sequence": [
"Quot.sound",
"propext"
],
"Verif.BT.C01_sequence_exception": [
"Quot.sound",
"propext"
],
"Verif.BT.C02_priority": [
"Quot.sound",
"propext"
],
"Verif.BT.C02_priority_exception": [
"Quot.sound",
"propext"
],
"Verif.BT.C03_orNode_error_violation": [
"propext"
],
"Verif.BT.C03_orNode_general": [
"Quot.sound",
"propext"
],
"Verif.BT.C03_orNode_partial": [
"Quot.sound",
"propext"
],
"Verif.BT.C04_repeatUntilSuccess": [
"Classical.choice",
"Quot.sound",
"propext"
],
"Verif.BT.C04_repeatUntilSuccess_unbounded": [
"Classical.choice",
"Quot.sound",
"propext"
],
"Verif.BT.C05_no_raise_partial": [
"Classical.choice",
"Quot.sound",
"propext"
],
"Verif.BT.C05_repeatUntilFailure": [
"Classical.choice",
"Quot.sound",
"propext"
],
"Verif.BT.C05_repeater": [
"Classical.choice",
"Quot.sound",
"propext"
],
"Verif.BT.C05_zero_bound_raises": [
"Quot.sound",
"propext"
],
"Verif.BT.C06_inverter": [
"Quot.sound",
"propext"
],
"Verif.BT.C06_inverter_twice": [
"Quot.sound",
"propext"
],
"Verif.BT.C07_closed_after_ticks": [
"Classical.choice",
"Quot.sound",
"propext"
],
"Verif.BT.C07_engine_refines_spec": [
"Classical.choice",
"Quot.sound",
"propext"
],
"Verif.BT.C07_spec_is_executed": [
"Classical.choice",
"Quot.sound",
"propext"
],
"Verif.BT.C07_tick_independent_of_history": [
"Classical.choice",
"Quot.sound",
"propext"
],
"Verif.BT.C08_counters_all": [
"Quot.sound",
"propext"
],
"Verif.BT.C08_counters_exact": [
"Classical.choice",
"Quot.sound",
"propext"
],
"Verif.BT.C08_counters_step": [
"Classical.choice",
"Quot.sound",
"propext"
],
"Verif.BT.C08_no_pop_from_empty": [
"Classical.choice",
"Quot.sound",
"propext"
],
"Verif.BT.C08_node_count": [
"Quot.sound",
"propext"
],
"Verif.BT.C08_rules_iff_engine": [
"Classical.choice",
"Quot.sound",
"propext"
],
"Verif.BT.C08_success_le_ticks": [
"Classical.choice",
"Quot.sound",
"propext"
],
"Verif.BT.C08_trace_unique": [
"Classical.choice",
"Quot.sound",
"propext"
],
"Verif.BT.C09_composite_cost_exact": [
"Quot.sound",
"propext"
],
"Verif.BT.C09_leaf_charged_once_partial": [
"propext"
],
"Verif.BT.C09_nested_violation": [
"propext"
],
"Verif.BT.C09_no_composite_partial": [
"Quot.sound",
"propext"
],
"Verif.BT.C09_sequence_charges_twice": [
"Quot.sound",
"propext"
],
"Verif.BT.C09_totalCost_exact": [
"Quot.sound",
"propext"
],
"Verif.BT.C09_totalCost_violation": [
"propext"
],
"Verif.BT.C10_limiter_counts": [
"Classical.choice",
"Quot.sound",
"propext"
],
"Verif.BT.C10_limiter_never_limits": [
"Classical.choice",
"Quot.sound",
"propext"
],
"Verif.BT.C10_limiter_nonpositive_partial": [
"Quot.sound",
"propext"
],
"Verif.BT.C12_mem_composites_raise": [
"propext"
],
"Verif.BT.C12_no_mem_no_nameError_partial": [
"Classical.choice",
"Quot.sound",
"propext"
],
"Verif.BT.C12_xrange_memPriority_partial": [
"Quot.sound",
"propext"
],
"Verif.BT.C12_xrange_memSequence_partial": [
"Quot.sound",
"propext"
],
"Verif.BT.C12_xrange_memory": [
"Quot.sound",
"propext"
],
"Verif.BT.C12_xrange_otherwise": [
"propext"
],
"Verif.BT.C12_xrange_plain": [
"Quot.sound",
"propext"
],
"Verif.BT.C12_xrange_resumes": [
"Quot.sound",
"propext"
],
"Verif.BT.C14_bounded_tick_terminates": [
"Classical.choice",
"Quot.sound",
"propext"
],
"Verif.BT.C14_executions_all": [
"Quot.sound",
"propext"
],
"Verif.BT.C14_executions_bounded": [
"Classical.choice",
"Quot.sound",
"propext"
],
"Verif.BT.C14_unbounded_diverges": [
"Quot.sound",
"propext"
],
"Verif.BT.C15_maxTime_partial": [
"propext"
],
"Verif.BT.C15_maxTime_violation": [
"propext"
],
"Verif.BT.C54_abandoned_violation": [
"propext"
],
"Verif.BT.C54_first_tick_partial": [
"Quot.sound",
"propext"
],
"Verif.BT.C54_open_iff_last_running": [
"Quot.sound",
"propext"
],
"Verif.BT.C54_open_nodes_partial": [
"Quot.sound",
"propext"
],
"Verif.BT.C54_ornode_violation": [
"propext"
],
"Verif.BT.C55_wait": [
"Quot.sound",
"propext"
],
"Verif.BT.C55_wait_runs": [
"Quot.sound",
"propext"
],
"Verif.BT.C56_blind_violation": [
"Classical.choice",
"Quot.sound",
"propext"
],
"Verif.BT.C56_estimate_violation": [
"Classical.choice",
"Quot.sound",
"propext"
],
"Verif.BT.C56_utility_partial": [
"Classical.choice",
"Quot.sound",
"propext"
],
"Verif.BT.C70_counts_partial": [
"Classical.choice",
"Quot.sound",
"propext"
],
"Verif.BT.C70_estimate_violation": [
"Classical.choice",
"Quot.sound",
"propext"
],
"Verif.BT.C70_mode_violation": [
"Classical.choice",
"Quot.sound",
"propext"
],
"Verif.BT.C70_questions": [
"propext"
],
"Verif.BT.C70_raises": [
"Classical.choice",
"Quot.sound",
"propext"
],
"Verif.BT.C70_utility_partial": [
"Classical.choice",
"Quot.sound",
"propext"
],
"Verif.BT.C81_crash_prefix": [
"Quot.sound",
"propext"
],
"Verif.BT.C81_log_all": [
"Quot.sound",
"propext"
],
"Verif.BT.C81_log_counts": [
"Classical.choice",
"Quot.sound",
"propext"
],
"Verif.BT.C81_log_exact": [
"Classical.choice",
"Quot.sound",
"propext"
],
"Verif.BT.C81_no_file": [
"Quot.sound",
"propext"
],
"Verif.BT.C81_no_file_violation": [
"propext"
],
"Verif.BT.C81_success_only": [
"Classical.choice",
"Quot.sound",
"propext"
],
"Verif.BT.C81_transparent": [
"Quot.sound",
"propext"
],
"Verif.BT.C84_left_open_violation": [
"propext"
],
"Verif.BT.C84_maxTime_violation": [
"propext"
],
"Verif.BT.C84_next_ticks_fresh_partial": [
"propext"
],
"Verif.BT.C84_open_path": [
"Quot.sound",
"propext"
],
"Verif.BT.C84_same_engine": [
"Quot.sound",
"propext"
],
"Verif.BT.DumpLoad.C13_double_round_trip_partial": [
"Classical.choice",
"Quot.sound",
"propext"
],
"Verif.BT.DumpLoad.C13_load_dump_mirror_partial": [
"Classical.choice",
"Quot.sound",
"propext"
],
"Verif.BT.DumpLoad.C13_load_dump_only_symmetric": [
"Classical.choice",
"Quot.sound",
"propext"
],
"Verif.BT.DumpLoad.C13_order_violation": [
"Classical.choice",
"Quot.sound",
"propext"
],
"Verif.BT.DumpLoad.C13_parametrised_decorator_violation": [
"Classical.choice",
"Quot.sound",
"propext"
],
"Verif.BT.DumpLoad.C13_plain_trees_partial": [
"Classical.choice",
"Quot.sound",
"propext"
],
"Verif.Eqn.C21_both_sides_violation": [
"Quot.sound",
"propext"
],
"Verif.Eqn.C21_scan_general": [
"Classical.choice",
"Quot.sound",
"propext"
],
"Verif.Eqn.C21_scan_mequation": [
"Classical.choice",
"Quot.sound",
"propext"
],
"Verif.Eqn.C21_scan_partial": [
"Classical.choice",
"Quot.sound",
"propext"
],
"Verif.Eqn.C22_erank_perm": [
"Classical.choice",
"Quot.sound",
"propext"
],
"Verif.Eqn.C22_erank_sorted": [
"Classical.choice",
"Quot.sound",
"propext"
],
"Verif.Eqn.C22_erank_stable": [
"Classical.choice",
"Quot.sound",
"propext"
],
"Verif.Eqn.C24_count_unknowns": [
"Quot.sound",
"propext"
],
"Verif.Eqn.C24_find_obj": [
"Quot.sound",
"propext"
],
"Verif.Eqn.C24_get_unknowns": [
"propext"
],
"Verif.Eqn.C24_get_variables": [
"propext"
],
"Verif.Eqn.C24_repeated_unknown_counted_twice": [],
"Verif.Eqn.C25_three_way_sum_violation": [
"Quot.sound",
"propext"
],
"Verif.Eqn.C25_updateL_partial": [
"Classical.choice",
"Quot.sound",
"propext"
],
"Verif.Eqn.Equality.C23_eq_iff": [
"propext"
],
"Verif.Eqn.Equality.C23_equivalence": [
"propext"
],
"Verif.Eqn.Equality.C23_hash_partial": [
"Classical.choice",
"Quot.sound",
"propext"
],
"Verif.Eqn.Equality.C23_hash_violation": [
"Quot.sound",
"propext"
],
"Verif.Eqn.Equality.C23_list_membership": [
"Quot.sound",
"propext"
],
"Verif.Imports.C82_imports_succeed": [
"Quot.sound",
"propext"
],
"Verif.Imports.C82_meaning": [
"Quot.sound",
"propext"
],
"Verif.Imports.C82_names_found_partial": [
"Quot.sound",
"propext"
],
"Verif.Imports.C82_package_star": [
"Classical.choice",
"Quot.sound",
"propext"
],
"Verif.Imports.C82_programs": [
"Quot.sound",
"propext"
],
"Verif.Imports.C82_same_meaning": [
"Quot.sound",
"propext"
],
"Verif.Imports.C82_set_solved_violation": [
"Quot.sound",
"propext"
],
"Verif.Imports.C82_wrong_entry_violation": [
"Quot.sound",
"propext"
],
"Verif.Kin.C26_linkCS_rigid": [
"Classical.choice",
"Quot.sound",
"propext"
],
"Verif.Kin.C26_link_factors": [
"Classical.choice",
"Quot.sound",
"propext"
],
"Verif.Kin.C26_link_rigid": [
"Classical.choice",
"Quot.sound",
"propext"
],
"Verif.Kin.C26_link_zero": [
"Classical.choice",
"Quot.sound",
"propext"
],
"Verif.Kin.C27_inverse": [
"Classical.choice",
"Quot.sound",
"propext"
],
"Verif.Kin.C27_inverse_cancels": [
"Classical.choice",
"Quot.sound",
"propext"
],
"Verif.Kin.C28_equations_equivalent": [
"Classical.choice",
"Quot.sound",
"propext"
],
"Verif.Kin.C28_target": [
"Classical.choice",
"Quot.sound",
"propext"
],
"Verif.Kin.C29_forward_kinematics": [
"Classical.choice",
"Quot.sound",
"propext"
],
"Verif.Kin.C30_jacobian": [
"Classical.choice",
"Quot.sound",
"propext"
],
"Verif.Kin.C30_velocity_recursion": [
"Classical.choice",
"Quot.sound",
"propext"
],
"Verif.Kin.C31_additive": [
"Classical.choice",
"Quot.sound",
"propext"
],
"Verif.Kin.C31_axes": [
"Classical.choice",
"Quot.sound",
"propext"
],
"Verif.Kin.C31_rotations": [
"Classical.choice",
"Quot.sound",
"propext"
],
"Verif.Kin.C31_rpy": [
"Classical.choice",
"Quot.sound",
"propext"
],
"Verif.Kin.C31_trans": [
"Classical.choice",
"Quot.sound",
"propext"
],
"Verif.Kin.C32_approx": [
"Classical.choice",
"Quot.sound",
"propext"
],
"Verif.Kin.C32_wrap_congruent": [
"Classical.choice",
"Quot.sound",
"propext"
],
"Verif.Kin.C32_wrap_partial": [
"Classical.choice",
"Quot.sound",
"propext"
],
"Verif.Kin.C32_wrap_violation": [
"Classical.choice",
"Quot.sound",
"propext"
],
"Verif.Kin.C33_other_summand_raises": [
"Classical.choice",
"Quot.sound",
"propext"
],
"Verif.Kin.C33_registered_twice_violation": [
"Quot.sound",
"propext"
],
"Verif.Kin.C33_squeeze": [
"Classical.choice",
"Quot.sound",
"propext"
],
"Verif.Kin.C33_squeeze_every_joint_vector": [
"Classical.choice",
"Quot.sound",
"propext"
],
"Verif.Kin.C33_stale_flag_violation": [
"Classical.choice",
"Quot.sound",
"propext"
],
"Verif.Kin.C33_sum_of_angles_partial": [
"Classical.choice",
"Quot.sound",
"propext"
],
"Verif.Kin.C63_double_violation": [
"Quot.sound",
"propext"
],
"Verif.Kin.C63_order_violation": [
"Quot.sound",
"propext"
],
"Verif.Kin.C63_soa_same_unknowns_partial": [
"Classical.choice",
"Quot.sound",
"propext"
],
"Verif.Kin.C63_soa_unknowns_partial": [
"Classical.choice",
"Quot.sound",
"propext"
],
"Verif.Kin.C66_added_parameters": [
"propext"
],
"Verif.Kin.C66_complete": [
"Classical.choice",
"Quot.sound",
"propext"
],
"Verif.Kin.C66_correct": [
"Classical.choice",
"Quot.sound",
"propext"
],
"Verif.Kin.C66_hinv_violation": [
"Classical.choice",
"Quot.sound",
"propext"
],
"Verif.Kin.C66_missing_value": [
"Classical.choice",
"Quot.sound",
"propext"
],
"Verif.Kin.C66_numeric_agree": [
"Classical.choice",
"Quot.sound",
"propext"
],
"Verif.Kin.C66_own_values_violation": [
"Classical.choice",
"Quot.sound",
"propext"
],
"Verif.Kin.C66_rpy4S": [
"Classical.choice",
"Quot.sound",
"propext"
],
"Verif.Kin.C66_rpy4_violation": [
"Classical.choice",
"Quot.sound",
"propext"
],
"Verif.Kin.C66_trans": [
"Classical.choice",
"Quot.sound",
"propext"
],
"Verif.Kin.C67_injective": [
"Classical.choice",
"Quot.sound",
"propext"
],
"Verif.Kin.C67_name_clash_violation": [
"propext"
],
"Verif.Kin.C67_read_back": [
"Classical.choice",
"Quot.sound",
"propext"
],
"Verif.Kin.C67_shortened": [
"Quot.sound",
"propext"
],
"Verif.Kin.C67_value": [
"Classical.choice",
"Quot.sound",
"propext"
],
"Verif.Kin.C67_values_exist": [
"Classical.choice",
"Quot.sound",
"propext"
],
"Verif.Kin.C68_all": [
"Classical.choice",
"Quot.sound",
"propext"
],
"Verif.Kin.C68_checker_rows": [
"Classical.choice",
"Quot.sound",
"propext"
],
"Verif.Kin.C68_degree_violation": [
"Classical.choice",
"Quot.sound",
"propext"
],
"Verif.Kin.C68_missing_violation": [
"Classical.choice",
"Quot.sound",
"propext"
],
"Verif.Kin.C68_position_partial": [
"Classical.choice",
"Quot.sound",
"propext"
],
"Verif.Kin.C68_returns": [
"Classical.choice",
"Quot.sound",
"propext"
],
"Verif.Kin.C68_rows_violation": [
"Classical.choice",
"Quot.sound",
"propext"
],
"Verif.Kin.C68_script_violation": [
"Classical.choice",
"Quot.sound",
"propext"
],
"Verif.Kin.C68_turned": [
"Classical.choice",
"Quot.sound",
"propext"
],
"Verif.Kin.C68_verify_violation": [
"Classical.choice",
"Quot.sound",
"propext"
],
"Verif.Kin.C69_all": [
"Classical.choice",
"Quot.sound",
"propext"
],
"Verif.Kin.C69_distinct": [
"Classical.choice",
"Quot.sound",
"propext"
],
"Verif.Kin.C69_loop_errors": [
"Classical.choice",
"Quot.sound",
"propext"
],
"Verif.Kin.C69_orientation_partial": [
"Classical.choice",
"Quot.sound",
"propext"
],
"Verif.Kin.C69_position": [
"Classical.choice",
"Quot.sound",
"propext"
],
"Verif.Kin.C69_returns_partial": [
"Classical.choice",
"Quot.sound",
"propext"
],
"Verif.Kin.C69_right_angle_violation": [
"Classical.choice",
"Quot.sound",
"propext"
],
"Verif.Kin.C75_column_lengths": [
"Classical.choice",
"Quot.sound",
"propext"
],
"Verif.Kin.C75_empty_rows": [
"Classical.choice",
"Quot.sound",
"propext"
],
"Verif.Kin.C75_joint_column_partial": [
"Classical.choice",
"Quot.sound",
"propext"
],
"Verif.Kin.C75_phantom_joints_violation": [
"Classical.choice",
"Quot.sound",
"propext"
],
"Verif.Kin.C88_column": [
"Classical.choice",
"Quot.sound",
"propext"
],
"Verif.Kin.C88_frame_velocities": [
"Classical.choice",
"Quot.sound",
"propext"
],
"Verif.Kin.C88_jacobian": [
"Classical.choice",
"Quot.sound",
"propext"
],
"Verif.Kin.C88_script_violation": [
"Classical.choice",
"Quot.sound",
"propext"
],
"Verif.Leaf.C34_algebra": [
"Classical.choice",
"Quot.sound",
"propext"
],
"Verif.Leaf.C35_sincos": [
"Classical.choice",
"Quot.sound",
"propext"
],
"Verif.Leaf.C36_tan": [
"Classical.choice",
"Quot.sound",
"propext"
],
"Verif.Leaf.C37_sinANDcos_partial": [
"Classical.choice",
"Quot.sound",
"propext"
],
"Verif.Leaf.C37_violation": [
"Classical.choice",
"Quot.sound",
"propext"
],
"Verif.Leaf.C38_simultaneous_partial": [
"Classical.choice",
"Quot.sound",
"propext"
],
"Verif.Leaf.C38_violation": [
"Classical.choice",
"Quot.sound",
"propext"
],
"Verif.Leaf.C39_x2z2": [
"Classical.choice",
"Quot.sound",
"propext"
],
"Verif.Leaf.C39_x2z2_otherwise": [
"Quot.sound"
],
"Verif.Leaf.C40_consequence_partial": [
"Classical.choice",
"Quot.sound",
"propext"
],
"Verif.Leaf.C40_equivalent_partial": [
"Classical.choice",
"Quot.sound",
"propext"
],
"Verif.Leaf.C40_violation": [
"Classical.choice",
"Quot.sound",
"propext"
],
"Verif.Leaf.C57_algebra": [
"Quot.sound",
"propext"
],
"Verif.Leaf.C57_algebra_otherwise": [
"Classical.choice",
"Quot.sound",
"propext"
],
"Verif.Leaf.C57_simu": [
"Quot.sound",
"propext"
],
"Verif.Leaf.C57_simu_candidates": [
"Quot.sound",
"propext"
],
"Verif.Leaf.C57_simu_otherwise": [
"Quot.sound",
"propext"
],
"Verif.Leaf.C57_simu_solver": [
"Quot.sound",
"propext"
],
"Verif.Leaf.C57_sinANDcos": [
"Quot.sound",
"propext"
],
"Verif.Leaf.C57_sinANDcos_otherwise": [
"Classical.choice",
"Quot.sound",
"propext"
],
"Verif.Leaf.C57_sincos_once_violation": [
"Classical.choice",
"Quot.sound",
"propext"
],
"Verif.Leaf.C57_sincos_otherwise": [
"Classical.choice",
"Quot.sound",
"propext"
],
"Verif.Leaf.C57_sincos_partial": [
"Quot.sound",
"propext"
],
"Verif.Leaf.C57_squares": [
"Quot.sound",
"propext"
],
"Verif.Leaf.C57_squares_names_violation": [
"Classical.choice",
"Quot.sound",
"propext"
],
"Verif.Leaf.C57_tan_memory_violation": [
"Quot.sound",
"propext"
],
"Verif.Leaf.C57_tan_otherwise": [
"Classical.choice",
"Quot.sound",
"propext"
],
"Verif.Leaf.C57_tan_partial": [
"Classical.choice",
"Quot.sound",
"propext"
],
"Verif.Leaf.C57_tan_solves": [
"Classical.choice",
"Quot.sound",
"propext"
],
"Verif.Main.C78_equations": [
"Classical.choice",
"Quot.sound",
"propext"
],
"Verif.Main.C78_every_joint_vector": [
"Classical.choice",
"Quot.sound",
"propext"
],
"Verif.Main.C78_first_row_iff": [
"Classical.choice",
"Quot.sound",
"propext"
],
"Verif.Main.C78_first_row_violation": [
"Quot.sound",
"propext"
],
"Verif.Main.C78_no_configuration_lost": [
"Classical.choice",
"Quot.sound",
"propext"
],
"Verif.Main.C78_row_partial": [
"Classical.choice",
"Quot.sound",
"propext"
],
"Verif.Main.C78_some_row_reaches_partial": [
"Classical.choice",
"Quot.sound",
"propext"
],
"Verif.Main.C79_described_table": [
"Classical.choice",
"Quot.sound",
"propext"
],
"Verif.Main.C79_every_run_partial": [
"Classical.choice",
"Quot.sound",
"propext"
],
"Verif.Main.C79_first_run": [
"Classical.choice",
"Quot.sound",
"propext"
],
"Verif.Main.C79_planar_violation": [
"Classical.choice",
"Quot.sound",
"propext"
],
"Verif.Main.C79_raven_violation": [
"Classical.choice",
"Quot.sound",
"propext"
],
"Verif.Main.C79_second_run_violation": [
"Classical.choice",
"Quot.sound",
"propext"
],
"Verif.Main.C79_stale_values_violation": [
"Classical.choice",
"Quot.sound",
"propext"
],
"Verif.Main.C80_cpp": [
"Classical.choice",
"Quot.sound",
"propext"
],
"Verif.Main.C80_parameter_violation": [
"Classical.choice",
"Quot.sound",
"propext"
],
"Verif.Main.C80_python": [
"Classical.choice",
"Quot.sound",
"propext"
],
"Verif.Main.C80_python_imports": [
"Classical.choice",
"Quot.sound",
"propext"
],
"Verif.Main.C80_target": [
"Quot.sound",
"propext"
],
"Verif.Main.Disk.C85_complete": [
"Classical.choice",
"Quot.sound",
"propext"
],
"Verif.Main.Disk.C85_complete_fk": [
"Classical.choice",
"Quot.sound",
"propext"
],
"Verif.Main.Disk.C85_damaged_pickle": [
"Classical.choice",
"Quot.sound",
"propext"
],
"Verif.Main.Disk.C85_damaged_pickle_violation": [
"Classical.choice",
"Quot.sound",
"propext"
],
"Verif.Main.Disk.C85_exceptions": [
"Classical.choice",
"Quot.sound",
"propext"
],
"Verif.Main.Disk.C85_file_names": [
"Classical.choice",
"Quot.sound",
"propext"
],
"Verif.Main.Disk.C85_forward_kin2": [
"Classical.choice",
"Quot.sound",
"propext"
],
"Verif.Main.Disk.C85_lost_file_violation": [
"Classical.choice",
"Quot.sound",
"propext"
],
"Verif.Main.Disk.C85_offered_robots": [
"Classical.choice",
"Quot.sound",
"propext"
],
"Verif.Main.Disk.C85_one_file_torn": [
"Classical.choice",
"Quot.sound",
"propext"
],
"Verif.Main.Disk.C85_other_description": [
"Classical.choice",
"Quot.sound",
"propext"
],
"Verif.Main.Disk.C85_other_robots_partial": [
"Classical.choice",
"Quot.sound",
"propext"
],
"Verif.Main.Disk.C85_rerun_partial": [
"Classical.choice",
"Quot.sound",
"propext"
],
"Verif.Main.Disk.C85_rerun_violation": [
"Classical.choice",
"Quot.sound",
"propext"
],
"Verif.Main.Disk.C85_templates": [
"Classical.choice",
"Quot.sound",
"propext"
],
"Verif.Main.Disk.C85_test_name_violation": [
"Classical.choice",
"Quot.sound",
"propext"
],
"Verif.Main.Disk.C85_three_programs": [
"Classical.choice",
"Quot.sound",
"propext"
],
"Verif.Main.Disk.C85_three_programs_robots": [
"Classical.choice",
"Quot.sound",
"propext"
],
"Verif.Main.Disk.C86_all_partial": [
"Classical.choice",
"Quot.sound",
"propext"
],
"Verif.Main.Disk.C86_alone": [
"Classical.choice",
"Quot.sound",
"propext"
],
"Verif.Main.Disk.C86_apart": [
"Classical.choice",
"Quot.sound",
"propext"
],
"Verif.Main.Disk.C86_first_runs_partial": [
"Classical.choice",
"Quot.sound",
"propext"
],
"Verif.Main.Disk.C86_first_runs_violation": [
"Classical.choice",
"Quot.sound",
"propext"
],
"Verif.Main.Disk.C86_forward_kin2_alone": [
"Classical.choice",
"Quot.sound",
"propext"
],
"Verif.Main.Disk.C86_mixed_program_violation": [
"Classical.choice",
"Quot.sound",
"propext"
],
"Verif.Main.Disk.C86_same_command_partial": [
"Classical.choice",
"Quot.sound",
"propext"
],
"Verif.Main.Disk.C86_three_programs": [
"Classical.choice",
"Quot.sound",
"propext"
],
"Verif.Main.Disk.C86_unwritten": [
"Classical.choice",
"Quot.sound",
"propext"
],
"Verif.Main.planar_meets": [
"Classical.choice",
"Quot.sound",
"propext"
],
"Verif.Main.proper_raven": [
"Classical.choice",
"Quot.sound",
"propext"
],
"Verif.Main.proper_twoArm": [
"Classical.choice",
"Quot.sound",
"propext"
],
"Verif.Out.C46_acos_violation": [
"Classical.choice",
"Quot.sound",
"propext"
],
"Verif.Out.C46_denominator_violation": [
"Classical.choice",
"Quot.sound",
"propext"
],
"Verif.Out.C46_int_division_violation": [
"Classical.choice",
"Quot.sound",
"propext"
],
"Verif.Out.C46_line_partial": [
"Classical.choice",
"Quot.sound",
"propext"
],
"Verif.Out.C46_nested_violation": [
"Classical.choice",
"Quot.sound",
"propext"
],
"Verif.Out.C46_one_value": [
"Classical.choice",
"Quot.sound",
"propext"
],
"Verif.Out.C46_power_violation": [
"Classical.choice",
"Quot.sound",
"propext"
],
"Verif.Out.C46_text_partial": [
"Classical.choice",
"Quot.sound",
"propext"
],
"Verif.Out.C46_text_violation": [
"Classical.choice",
"Quot.sound",
"propext"
],
"Verif.Out.C46_unambiguous": [
"Classical.choice",
"Quot.sound",
"propext"
],
"Verif.Out.C46_unchanged": [
"propext"
],
"Verif.Out.C47_arccos_violation": [
"Classical.choice",
"Quot.sound",
"propext"
],
"Verif.Out.C47_balanced": [
"Classical.choice",
"Quot.sound",
"propext"
],
"Verif.Out.C47_columns": [
"Classical.choice",
"Quot.sound",
"propext"
],
"Verif.Out.C47_cpp_count": [
"Classical.choice",
"Quot.sound",
"propext"
],
"Verif.Out.C47_cpp_once_partial": [
"Classical.choice",
"Quot.sound",
"propext"
],
"Verif.Out.C47_cpp_packed": [
"Classical.choice",
"Quot.sound",
"propext"
],
"Verif.Out.C47_first_unknown_used": [
"Classical.choice",
"Quot.sound",
"propext"
],
"Verif.Out.C47_first_unknown_violation": [
"Classical.choice",
"Quot.sound",
"propext"
],
"Verif.Out.C47_indentation": [
"Classical.choice",
"Quot.sound",
"propext"
],
"Verif.Out.C47_layout": [
"Classical.choice",
"Quot.sound",
"propext"
],
"Verif.Out.C47_packing": [
"Classical.choice",
"Quot.sound",
"propext"
],
"Verif.Out.C47_python_count": [
"Classical.choice",
"Quot.sound",
"propext"
],
"Verif.Out.C47_python_none_violation": [
"Classical.choice",
"Quot.sound",
"propext"
],
"Verif.Out.C47_python_once_partial": [
"Classical.choice",
"Quot.sound",
"propext"
],
"Verif.Out.C47_python_twice_violation": [
"Classical.choice",
"Quot.sound",
"propext"
],
"Verif.Out.C47_sinANDcos_violation": [
"Classical.choice",
"Quot.sound",
"propext"
],
"Verif.Out.C47_twice_violation": [
"Classical.choice",
"Quot.sound",
"propext"
],
"Verif.Out.C48_changed_table": [
"Classical.choice",
"Quot.sound",
"propext"
],
"Verif.Out.C48_crash_violation": [
"propext"
],
"Verif.Out.C48_idempotent": [
"Classical.choice",
"Quot.sound",
"propext"
],
"Verif.Out.C48_joint_type_violation": [
"propext"
],
"Verif.Out.C48_kinematics_partial": [
"Classical.choice",
"Quot.sound",
"propext"
],
"Verif.Out.C48_lost_parameter_violation": [
"Classical.choice",
"Quot.sound",
"propext"
],
"Verif.Out.C48_same_description": [
"Classical.choice",
"Quot.sound",
"propext"
],
"Verif.Out.C49_defined_once": [],
"Verif.Out.C49_last_joint": [
"Classical.choice",
"Quot.sound",
"propext"
],
"Verif.Out.C49_minidd_violation": [
"propext"
],
"Verif.Out.C49_names_partial": [
"Classical.choice",
"Quot.sound",
"propext"
],
"Verif.Out.C49_one_joint_violation": [
"propext"
],
"Verif.Out.C49_reachable": [
"propext"
],
"Verif.Out.C49_refused_violation": [
"propext"
],
"Verif.Out.C49_undeclared_violation": [
"propext"
],
"Verif.Out.C49_undefined_violation": [
"propext"
],
"Verif.Out.C49_velocity_reads": [
"propext"
],
"Verif.Out.C52_always_raises_violation": [
"Classical.choice",
"Quot.sound",
"propext"
],
"Verif.Out.C52_domain_partial": [
"propext"
],
"Verif.Out.C52_guard_text_violation": [
"Classical.choice",
"Quot.sound",
"propext"
],
"Verif.Out.C52_never_false_violation": [
"Quot.sound",
"propext"
],
"Verif.Out.C52_packing_partial": [
"propext"
],
"Verif.Out.C52_vectors_partial": [
"Classical.choice",
"Quot.sound",
"propext"
],
"Verif.Out.C59_every_robot_partial": [
"Classical.choice",
"Quot.sound",
"propext"
],
"Verif.Out.C59_missing_value_violation": [
"Classical.choice",
"Quot.sound",
"propext"
],
"Verif.Out.C59_order_violation": [
"Classical.choice",
"Quot.sound",
"propext"
],
"Verif.Out.C59_other_summand_violation": [
"Classical.choice",
"Quot.sound",
"propext"
],
"Verif.Out.C59_subscript_violation": [
"Classical.choice",
"Quot.sound",
"propext"
],
"Verif.Out.C59_values_partial": [
"Classical.choice",
"Quot.sound",
"propext"
],
"Verif.Out.C59_wrist_violation": [
"Classical.choice",
"Quot.sound",
"propext"
],
"Verif.Out.C60_history": [
"Classical.choice",
"Quot.sound",
"propext"
],
"Verif.Out.C60_no_report_violation": [
"Classical.choice",
"Quot.sound",
"propext"
],
"Verif.Out.C60_no_table_violation": [
"Classical.choice",
"Quot.sound",
"propext"
],
"Verif.Out.C60_one_report_partial": [
"Classical.choice",
"Quot.sound",
"propext"
],
"Verif.Out.C60_repeated_report_violation": [
"Classical.choice",
"Quot.sound",
"propext"
],
"Verif.Out.C60_table": [
"Classical.choice",
"Quot.sound",
"propext"
],
"Verif.Out.C61_parameters_violation": [
"Classical.choice",
"Quot.sound",
"propext"
],
"Verif.Out.C61_python2_iff": [
"Classical.choice",
"Quot.sound",
"propext"
],
"Verif.Out.C61_python3_violation": [
"Classical.choice",
"Quot.sound",
"propext"
],
"Verif.Out.C63_cpp": [
"Classical.choice",
"Quot.sound",
"propext"
],
"Verif.Out.C63_python": [
"Classical.choice",
"Quot.sound",
"propext"
],
"Verif.Out.C63_text_violation": [
"Classical.choice",
"Quot.sound",
"propext"
],
"Verif.Out.C64_bounds_iff": [
"Classical.choice",
"Quot.sound",
"propext"
],
"Verif.Out.C65_argument_violation": [
"Classical.choice",
"Quot.sound",
"propext"
],
"Verif.Out.C65_assigned": [
"Classical.choice",
"Quot.sound",
"propext"
],
"Verif.Out.C65_declared": [
"Classical.choice",
"Quot.sound",
"propext"
],
"Verif.Out.C65_declared_iff": [
"Classical.choice",
"Quot.sound",
"propext"
],
"Verif.Out.C65_empty_violation": [
"Classical.choice",
"Quot.sound",
"propext"
],
"Verif.Out.C65_never_compiles_violation": [
"Classical.choice",
"Quot.sound",
"propext"
],
"Verif.Out.C65_same_assignments": [
"Classical.choice",
"Quot.sound",
"propext"
],
"Verif.Out.C65_terminated_partial": [
"Classical.choice",
"Quot.sound",
"propext"
],
"Verif.Out.Tex.C62_count_violation": [
"Classical.choice",
"Quot.sound",
"propext"
],
"Verif.Out.Tex.C62_edges_shown": [
"Classical.choice",
"Quot.sound",
"propext"
],
"Verif.Out.Tex.C62_empty_violation": [
"Classical.choice",
"Quot.sound",
"propext"
],
"Verif.Out.Tex.C62_fk_report": [
"Classical.choice",
"Quot.sound",
"propext"
],
"Verif.Out.Tex.C62_name_violation": [
"Classical.choice",
"Quot.sound",
"propext"
],
"Verif.Out.Tex.C62_report_partial": [
"Classical.choice",
"Quot.sound",
"propext"
],
"Verif.Out.Tex.C62_sets_shown": [
"Classical.choice",
"Quot.sound",
"propext"
],
"Verif.Out.Tikz.C74_cycle_violation": [
"Classical.choice",
"Quot.sound",
"propext"
],
"Verif.Out.Tikz.C74_drawing_partial": [
"Classical.choice",
"Quot.sound",
"propext"
],
"Verif.Out.Tikz.C74_missing_parent_violation": [
"Classical.choice",
"Quot.sound",
"propext"
],
"Verif.Out.Tikz.C74_returns_iff": [
"Classical.choice",
"Quot.sound",
"propext"
],
"Verif.Out.Tikz.C74_shared_violation": [
"Classical.choice",
"Quot.sound",
"propext"
],
"Verif.Sol.C16_end_to_end_partial": [
"Classical.choice",
"Quot.sound",
"propext"
],
"Verif.Sol.C16_row_count": [
"Classical.choice",
"Quot.sound",
"propext"
],
"Verif.Sol.C16_rows_distinct_partial": [
"Classical.choice",
"Quot.sound",
"propext"
],
"Verif.Sol.C16_solution_table_partial": [
"Classical.choice",
"Quot.sound",
"propext"
],
"Verif.Sol.C16_three_solutions_violation": [
"Quot.sound",
"propext"
],
"Verif.Sol.C17_end_to_end": [
"Quot.sound",
"propext"
],
"Verif.Sol.C17_reads_left": [
"Quot.sound",
"propext"
],
"Verif.Sol.C17_rows_labelled": [
"Quot.sound",
"propext"
],
"Verif.Sol.C18_all_solutions_used_partial": [
"Quot.sound",
"propext"
],
"Verif.Sol.C18_defined_before_use_partial": [
"Classical.choice",
"Quot.sound",
"propext"
],
"Verif.Sol.C18_equations_exact": [
"Quot.sound",
"propext"
],
"Verif.Sol.C18_first_unknown_violation": [
"Quot.sound",
"propext"
],
"Verif.Sol.C18_index_error_violation": [
"Classical.choice",
"Quot.sound",
"propext"
],
"Verif.Sol.C18_last_single_drops_branches": [
"Quot.sound",
"propext"
],
"Verif.Sol.C18_subs_order": [
"Classical.choice",
"Quot.sound",
"propext"
],
"Verif.Sol.C18_subs_order_violation": [
"Quot.sound",
"propext"
],
"Verif.Sol.C19_acyclic_partial": [
"Quot.sound",
"propext"
],
"Verif.Sol.C19_dependencies_partial": [
"Quot.sound",
"propext"
],
"Verif.Sol.C19_empty_solutions_marks_solved": [
"propext"
],
"Verif.Sol.C19_orders": [
"Quot.sound",
"propext"
],
"Verif.Sol.C19_resolve_violation": [
"propext"
],
"Verif.Sol.C19_self_dependency_violation": [
"Quot.sound",
"propext"
],
"Verif.Sol.C19_unsolved_dependency_raises": [
"Quot.sound",
"propext"
],
"Verif.Sol.C20_chain_violation": [
"propext"
],
"Verif.Sol.C20_version_names": [
"Quot.sound",
"propext"
],
"Verif.Sol.C20_versions_formula": [
"Quot.sound",
"propext"
],
"Verif.Sol.C20_versions_partial": [
"Quot.sound",
"propext"
],
"Verif.Sol.C24_get_deps": [
"Quot.sound",
"propext"
],
"Verif.Sol.C63_set_solved": [
"Quot.sound",
"propext"
],
"Verif.Sol.C72_no_exception": [
"Quot.sound",
"propext"
],
"Verif.Sol.C72_no_match_violation": [
"propext"
],
"Verif.Sol.C72_one_pass_violation": [
"Quot.sound",
"propext"
],
"Verif.Sol.C72_sum_solve_partial": [
"Classical.choice",
"Quot.sound",
"propext"
],
"Verif.Sol.C72_three_angles": [
"Quot.sound",
"propext"
],
"Verif.Sol.C72_three_angles_violation": [
"Quot.sound",
"propext"
],
"Verif.Sol.C72_unsolved_lhs_violation": [
"Quot.sound",
"propext"
],
"Verif.Sol.Identity.C73_edge": [
"propext"
],
"Verif.Sol.Identity.C73_edges": [
"Quot.sound",
"propext"
],
"Verif.Sol.Identity.C73_eq_iff": [
"propext"
],
"Verif.Sol.Identity.C73_equivalence": [
"propext"
],
"Verif.Sol.Identity.C73_foreign_violation": [
"propext"
],
"Verif.Sol.Identity.C73_hash_seed_violation": [
"propext"
],
"Verif.Sol.Identity.C73_none": [
"propext"
],
"Verif.Sol.Identity.C73_sets": [
"Quot.sound",
"propext"
],
"Verif.Sol.Identity.C73_sort_violation": [
"Quot.sound",
"propext"
],
"Verif.Sol.Matching.C50_countained_violation": [
"Classical.choice",
"Quot.sound",
"propext"
],
"Verif.Sol.Matching.C50_empty": [
"propext"
],
"Verif.Sol.Matching.C50_groups_cover_partial": [
"Quot.sound",
"propext"
],
"Verif.Sol.Matching.C50_length_violation": [
"propext"
],
"Verif.Sol.Matching.C50_lost_pose_violation": [
"propext"
],
"Verif.Sol.Matching.C50_poses_partial": [
"Classical.choice",
"Quot.sound",
"propext"
],
"Verif.Sol.Matching.C50_root_conflict_violation": [
"Classical.choice",
"Quot.sound",
"propext"
],
"Verif.Sol.Matching.C50_root_overlap_violation": [
"Classical.choice",
"Quot.sound",
"propext"
],
"Verif.Sol.Matching.C50_search_mem": [
"Quot.sound",
"propext"
],
"Verif.Sol.Matching.C50_search_sorted": [
"Quot.sound",
"propext"
],
"Verif.Sol.Matching.C50_two_disjoint_groups_partial": [
"Classical.choice",
"Quot.sound",
"propext"
],
"Verif.Solver.C16_solver_partial": [
"Classical.choice",
"Quot.sound",
"propext"
],
"Verif.Solver.C19_solver_partial": [
"Classical.choice",
"Quot.sound",
"propext"
],
"Verif.Solver.C20_solver_partial": [
"Classical.choice",
"Quot.sound",
"propext"
],
"Verif.Solver.C41_history_partial": [
"Classical.choice",
"Quot.sound",
"propext"
],
"Verif.Solver.C41_nodup_partial": [
"Classical.choice",
"Quot.sound",
"propext"
],
"Verif.Solver.C41_resolve_violation": [
"Quot.sound",
"propext"
],
"Verif.Solver.C41_solved_forever": [
"Classical.choice",
"Quot.sound",
"propext"
],
"Verif.Solver.C42_no_starvation": [
"Classical.choice",
"Quot.sound",
"propext"
],
"Verif.Solver.C42_round_partial": [
"Classical.choice",
"Quot.sound",
"propext"
],
"Verif.Solver.C42_solved_violation": [],
"Verif.Solver.C42_twice_violation": [],
"Verif.Solver.C43_completion": [
"Classical.choice",
"Quot.sound",
"propext"
],
"Verif.Solver.C44_rank": [
"Classical.choice",
"Quot.sound",
"propext"
],
"Verif.Solver.C44_subtree": [
"Classical.choice",
"Quot.sound",
"propext"
],
"Verif.Solver.C45_bounded": [
"Classical.choice",
"Quot.sound",
"propext"
],
"Verif.Solver.C45_only_leaf_exceptions": [
"Classical.choice",
"Quot.sound",
"propext"
],
"Verif.Solver.C45_success_iff_all_solved": [
"Classical.choice",
"Quot.sound",
"propext"
],
"Verif.Solver.C47_solver_violation": [
"Classical.choice",
"Quot.sound",
"propext"
],
"Verif.Solver.C51_no_solution_lost": [
"Classical.choice",
"Quot.sound",
"propext"
],
"Verif.Solver.C51_row_partial": [
"Classical.choice",
"Quot.sound",
"propext"
],
"Verif.Solver.C52_solver_violation": [
"Classical.choice",
"Quot.sound",
"propext"
],
"Verif.Solver.C53_some_row_reaches_partial": [
"Classical.choice",
"Quot.sound",
"propext"
],
"Verif.Solver.C53_spurious_row_violation": [
"Classical.choice",
"Quot.sound",
"propext"
],
"Verif.Solver.C58_eight_violation": [
"Quot.sound",
"propext"
],
"Verif.Solver.C58_more_than_ten_violation": [
"Classical.choice",
"Quot.sound",
"propext"
],
"Verif.Solver.C58_six_partial": [
"Classical.choice",
"Quot.sound",
"propext"
],
"Verif.Solver.C58_tangent_first_violation": [
"Quot.sound",
"propext"
],
"Verif.Solver.C58_triangular_partial": [
"Classical.choice",
"Quot.sound",
"propext"
],
"Verif.Solver.C62_resolve_violation": [
"Quot.sound",
"propext"
],
"Verif.Solver.C62_solutions_counted": [
"Classical.choice",
"Quot.sound",
"propext"
],
"Verif.Solver.C62_solutions_named_partial": [
"Classical.choice",
"Quot.sound",
"propext"
],
"Verif.Solver.C62_solved_has_method": [
"Classical.choice",
"Quot.sound",
"propext"
],
"Verif.Solver.C62_solver_partial": [
"Classical.choice",
"Quot.sound",
"propext"
],
"Verif.Solver.C63_solver_order_violation": [
"Quot.sound",
"propext"
],
"Verif.Solver.C64_seven_violation": [
"Classical.choice",
"Quot.sound",
"propext"
],
"Verif.Solver.C64_six_partial": [
"Classical.choice",
"Quot.sound",
"propext"
],
"Verif.Solver.C64_solver_partial": [
"Classical.choice",
"Quot.sound",
"propext"
],
"Verif.Solver.C65_solver_violation": [
"Classical.choice",
"Quot.sound",
"propext"
],
"Verif.Solver.C71_aux_violation": [
"Quot.sound",
"propext"
],
"Verif.Solver.C71_no_attribute_error": [
"Classical.choice",
"Quot.sound",
"propext"
],
"Verif.Solver.C71_order_violation": [
"Quot.sound",
"propext"
],
"Verif.Solver.C71_sincos_after_update_violation": [
"Quot.sound",
"propext"
],
"Verif.Solver.C71_sincos_exact": [
"Classical.choice",
"Quot.sound",
"propext"
],
"Verif.Solver.C71_tree": [
"Classical.choice",
"Quot.sound",
"propext"
],
"Verif.Solver.C76_abort_partial": [
"Classical.choice",
"Quot.sound",
"propext"
],
"Verif.Solver.C76_bare_violation": [
"Quot.sound",
"propext"
],
"Verif.Solver.C76_exceptions": [
"Classical.choice",
"Quot.sound",
"propext"
],
"Verif.Solver.C76_left_violation": [
"Quot.sound",
"propext"
],
"Verif.Solver.C76_length_first_partial": [
"Classical.choice",
"Quot.sound",
"propext"
],
"Verif.Solver.C76_rework_violation": [
"Classical.choice",
"Quot.sound",
"propext"
],
"Verif.Solver.C76_sincos_declines": [],
"Verif.Solver.C76_sum_violation": [
"Quot.sound",
"propext"
],
"Verif.Solver.C76_tan_id_declines": [
"Quot.sound",
"propext"
],
"Verif.Solver.C76_tan_solve_declines": [
"Quot.sound",
"propext"
],
"Verif.Solver.C77_second_violation": [
"Classical.choice",
"Quot.sound",
"propext"
],
"Verif.Solver.C77_shown_equations_follow": [
"Classical.choice",
"Quot.sound",
"propext"
],
"Verif.Solver.C77_shown_violation": [
"Classical.choice",
"Quot.sound",
"propext"
],
"Verif.Solver.C77_solutions_exact_partial": [
"Classical.choice",
"Quot.sound",
"propext"
],
"Verif.Solver.C87_determined_partial": [
"Classical.choice",
"Quot.sound",
"propext"
],
"Verif.Solver.C87_guarantees": [
"Classical.choice",
"Quot.sound",
"propext"
],
"Verif.Solver.C87_large_counter": [
"Classical.choice",
"Quot.sound",
"propext"
],
"Verif.Solver.C87_new_board_partial": [
"Classical.choice",
"Quot.sound",
"propext"
],
"Verif.Solver.C87_old_board_violation": [
"Classical.choice",
"Quot.sound",
"propext"
],
"Verif.Solver.C87_only_counter": [
"Classical.choice",
"Quot.sound",
"propext"
]
}