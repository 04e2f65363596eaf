#!/usr/bin/env python3
"""Writes /verif/MANIFEST.json. One entry per property."""
import json
C=[]
def c(p,st,ths,note=''):
    C.append(dict(property=p,status=st,theorems=ths.split(),note=note))
B='Verif.BT.'
def n(pre,s): return ' '+' '.join(pre+x for x in s.split())
c('C01','proved',n(B,'C01_sequence C01_sequence_exception'))
c('C02','proved',n(B,'C02_priority C02_priority_exception'))
c('C03','partial',n(B,'C03_orNode_general C03_orNode_partial C03_orNode_error_violation'),
  'False of the code for children returning RUNNING or ERROR (counted as success); proved for SUCCESS/FAILURE children, and the exact behaviour for all statuses.')
c('C04','proved',n(B,'C04_repeatUntilSuccess C04_repeatUntilSuccess_unbounded'))
c('C05','partial',n(B,'C05_repeatUntilFailure C05_repeater C05_no_raise_partial C05_zero_bound_raises'),
  'Everything but "never raises": with bound 0 RepeatUntilSuccess/Failure raise UnboundLocalError (proved).')
c('C06','proved',n(B,'C06_inverter C06_inverter_twice'))
c('C07','proved',n(B,'C07_engine_refines_spec C07_spec_is_executed C07_closed_after_ticks C07_tick_independent_of_history'))
c('C08','proved',n(B,'C08_counters_step C08_success_le_ticks C08_counters_exact C08_counters_all C08_node_count C08_trace_unique C08_rules_iff_engine C08_no_pop_from_empty'))
c('C09','partial',n(B,'C09_totalCost_violation C09_nested_violation C09_totalCost_exact C09_composite_cost_exact C09_no_composite_partial C09_leaf_charged_once_partial C09_sequence_charges_twice'),
  'False of the code: a leaf is charged once more per composite above it, up to the nearest decorator. C09_totalCost_exact gives the exact formula for every tree of distinct nodes; the English claim holds only without composites (C09_no_composite_partial).')
c('C10','partial',n(B,'C10_limiter_never_limits C10_limiter_counts C10_limiter_nonpositive_partial'),
  'False of the code for every positive bound: the counter is reset whenever the node closes.')
K='Verif.BT.Blackboard.'
c('C11','partial',n(K,'C11_blackboard_flat_partial C11_read_returns_last_write_partial C11_flat_read_own_write C11_flat_isolated C11_node_memory_violation C11_open_nodes_violation C11_node_memory_read_violation C11_float_increment_quits'),
  'Proved for all histories avoiding the tree-scope keys node_memory and open_nodes, for which it is false of the code.')
c('C12','partial',n(B,'C12_mem_composites_raise C12_no_mem_no_nameError_partial C12_xrange_memSequence_partial C12_xrange_memPriority_partial C12_xrange_resumes C12_xrange_memory C12_xrange_plain C12_xrange_otherwise'),
  'False of the code under Python 3: xrange is undefined, every execution raises. Where xrange is defined (Python 2, or a program that sets builtins.xrange), the claim is proved in full for both classes: for all children, leaves and histories of ticks (C12_xrange_*).')
D='Verif.BT.DumpLoad.'
c('C13','partial',n(D,'C13_load_dump_mirror_partial C13_plain_trees_partial C13_load_dump_only_symmetric C13_double_round_trip_partial C13_parametrised_decorator_violation C13_order_violation'),
  'False of the code: dump lists children in reverse order and load cannot construct decorators with arguments; proved: load(dump t) is the mirror image of t.')
c('C14','proved',n(B,'C14_bounded_tick_terminates C14_executions_bounded C14_executions_all C14_unbounded_diverges')+n('Verif.Solver.','C45_bounded'))
c('C15','partial',n(B,'C15_maxTime_violation C15_maxTime_partial'),
  'False of the code: the clock is read before the child runs.')
S='Verif.Sol.'
c('C16','partial',n(S,'C16_solution_table_partial C16_rows_distinct_partial C16_end_to_end_partial C16_row_count C16_three_solutions_violation')+' Verif.Solver.C16_solver_partial',
  'Proved when every unknown after the first has 1 or 2 solutions; false of the code for 3 or more (2^(n-1) rows instead of n).')
c('C17','proved',n(S,'C17_rows_labelled C17_end_to_end C17_reads_left'), 'The last clause (reading left to right) is about histories in which no unknown is solved twice or occurs in its own solution; otherwise it is false (C19).')
c('C18','partial',n(S,'C18_equations_exact C18_defined_before_use_partial C18_all_solutions_used_partial C18_last_single_drops_branches C18_index_error_violation C18_first_unknown_violation C18_subs_order C18_subs_order_violation'),
  'False of the code: the solution is chosen by row modulo the number of solutions of the last unknown.')
c('C19','partial',n(S,'C19_orders C19_dependencies_partial C19_acyclic_partial C19_unsolved_dependency_raises C19_self_dependency_violation C19_resolve_violation C19_empty_solutions_marks_solved')+' Verif.Solver.C19_solver_partial',
  'Proved for histories where each unknown is solved once and not in terms of itself; the code checks neither.')
c('C20','partial',n(S,'C20_versions_formula C20_versions_partial C20_version_names C20_chain_violation')+' Verif.Solver.C20_solver_partial',
  'False of the code for chains of dependencies: it multiplies numbers of solutions, not of versions.')
E='Verif.Eqn.'
c('C21','partial',n(E,'C21_scan_general C21_scan_partial C21_scan_mequation C21_both_sides_violation'),
  'Proved for equations without an unknown on both sides; such an unknown is counted twice by the code.')
c('C22','proved',n(E,'C22_erank_perm C22_erank_sorted C22_erank_stable'))
Q='Verif.Eqn.Equality.'
c('C23','partial',n(Q,'C23_eq_iff C23_equivalence C23_list_membership C23_hash_partial C23_hash_violation'),
  'The hash contract is false of the code (1 and 1.0); everything else is proved.')
c('C24','proved',n(E,'C24_count_unknowns C24_get_unknowns C24_get_variables C24_find_obj C24_repeated_unknown_counted_twice')+' '+n(S,'C24_get_deps'),
  'count_unknowns for lists without repeated unknowns; a repeated unknown is counted twice (proved).')
c('C25','partial',n(E,'C25_updateL_partial C25_three_way_sum_violation'),
  'False of the code for auxiliary equations with four unknowns (three-way sums of angles), which are dropped.')
K='Verif.Kin.'
c('C26','proved',n(K,'C26_link_factors C26_link_rigid C26_linkCS_rigid C26_link_zero'))
c('C27','proved',n(K,'C27_inverse C27_inverse_cancels'))
c('C28','proved',n(K,'C28_equations_equivalent C28_target'))
c('C29','proved',n(K,'C29_forward_kinematics'))
c('C30','proved',n(K,'C30_velocity_recursion C30_jacobian'))
c('C31','proved',n(K,'C31_rotations C31_additive C31_axes C31_rpy C31_trans'))
c('C32','partial',n(K,'C32_wrap_partial C32_wrap_congruent C32_wrap_violation C32_approx'),
  'The code makes at most one turn: the range is only reached for angles within 3*pi; congruence modulo 2*pi always.')
c('C33','partial',n(K,'C33_squeeze C33_squeeze_every_joint_vector C33_sum_of_angles_partial C33_other_summand_raises C33_stale_flag_violation C33_registered_twice_violation'),
  'notation_squeeze: proved. Sum of angles: proved for runs that complete on joint variables named th_<index>; stale found2/found3 flags, summands that are no joint variable and double registration are shown as violations. sympy find/subs/simplify are parameters.')
L='Verif.Leaf.'
c('C34','proved',n(L,'C34_algebra'),'Relative to Sympy.Sound (sympy transformations keep values, match decomposes correctly) wherever the divisor is not zero.')
c('C35','proved',n(L,'C35_sincos'),'Relative to Sympy.Sound wherever the coefficient is not zero.')
c('C36','proved',n(L,'C36_tan'),'Relative to Sympy.Sound wherever the coefficients are not zero; two-answer form: soundness for coefficients of period 2*pi.')
c('C37','partial',n(L,'C37_sinANDcos_partial C37_violation'),'Soundness only if the coefficients read off do not contain the unknown, which the code does not check (violation proved); completeness always.')
c('C38','partial',n(L,'C38_simultaneous_partial C38_violation'),'Soundness only if coefficients and rests do not contain the unknown, which the code does not check (violation proved); completeness always.')
c('C39','proved',n(L,'C39_x2z2 C39_x2z2_otherwise'),'Relative to Sympy.Sound; the joint vector is read with the sums of angles th_12 = th_1+th_2 and so on. The number of unsolved unknowns of the new equation is 1 (from pairs of two-unknown equations).')
c('C40','partial',n(L,'C40_consequence_partial C40_equivalent_partial C40_violation'),'Consequence and unknown count: always. Equivalence: when subs replaces subtrees and the left sides contain no unsolved unknowns; false with the flat sums of sympy (violation proved: an entry is substituted into itself and an equation is lost).')
S='Verif.Solver.'
c('C41','partial',n(S,'C41_solved_forever C41_history_partial C41_nodup_partial C41_resolve_violation'),
  'Solved unknowns stay solved; node iff solved; one node and unchanged record for all unknowns except the first one of the list when the tangent method was found for it, which the code solves again (violation proved on a full run of the tree).')
c('C42','partial',n(S,'C42_round_partial C42_no_starvation C42_solved_violation C42_twice_violation'),
  'Every unsolved unknown is handed out in each window of k+1 ticks, in order; at the wrap the first unknown is handed out even if solved, and twice in a row if not (violations proved).')
c('C43','proved',n(S,'C43_completion'))
c('C44','proved',n(S,'C44_rank C44_subtree'))
c('C45','proved',n(S,'C45_success_iff_all_solved C45_only_leaf_exceptions C45_bounded'))
O='Verif.Out.'
c('C46','partial',n(O,'C46_line_partial C46_text_partial C46_unambiguous C46_one_value C46_text_violation C46_unchanged C46_denominator_violation C46_acos_violation C46_nested_violation C46_power_violation C46_int_division_violation'),
  'A text has at most one reading (C46_unambiguous, by a recursive descent parser), so values of texts are well defined. The rewriting of x**2 and the C++ text denote the same value for the stated expressions; violations proved for powers of other shapes, denominators, integer division and function names.')
c('C47','partial',n(O,'C47_balanced C47_indentation C47_layout C47_cpp_count C47_cpp_once_partial C47_sinANDcos_violation C47_twice_violation C47_arccos_violation C47_columns C47_packing C47_first_unknown_violation C47_first_unknown_used C47_python_count C47_python_none_violation C47_python_twice_violation C47_cpp_packed C47_python_once_partial')+n('Verif.Solver.','C47_solver_violation'),
  'Braces: always balanced. One assignment per unknown and row only for methods with exactly one case; the first unknown is never assigned under the name the packing uses (violation proved for every solution).')
c('C48','partial',n(O,'C48_kinematics_partial C48_same_description C48_changed_table C48_joint_type_violation C48_lost_parameter_violation C48_idempotent C48_crash_violation'),
  'The check compares DH table, unknowns and parameters only; joint types are not compared (violation proved).')
c('C49','partial',n(O,'C49_names_partial C49_undefined_violation C49_refused_violation C49_reachable C49_minidd_violation C49_velocity_reads C49_undeclared_violation C49_defined_once C49_last_joint C49_one_joint_violation'),
  'The set of accepted names and of defined names differ (violations proved).')
c('C52','partial',n(O,'C52_packing_partial C52_vectors_partial C52_domain_partial C52_always_raises_violation C52_never_false_violation C52_guard_text_violation')+n('Verif.Solver.','C52_solver_violation'),
  'A call that returns gives one vector per group with the values of the variables; but the generated function raises for every robot and pose, never returns False, and its domain test can test another value (violations proved).')
c('C50','partial',n('Verif.Sol.Matching.','C50_groups_cover_partial C50_poses_partial C50_two_disjoint_groups_partial C50_search_mem C50_search_sorted C50_empty C50_countained_violation C50_root_conflict_violation C50_lost_pose_violation C50_length_violation C50_root_overlap_violation'),
  'False of the code in four ways (misspelt variable, root conflicts unchecked, only the first completion kept, groups accepted by length). Proved: merged groups always cover every unknown in order and use given notations only; they are poses when the first unknown has one solution and the subgroups overlap.')
c('C51','proved',n('Verif.Solver.','C51_no_solution_lost C51_row_partial'),
  'For every run and every sound sympy, at every assignment that satisfies the equations and at which no recorded divisor vanishes, every solved unknown has a solution with its value; the row of the table that combines them is unique (C51_row_partial: for runs that solve nothing twice).')
c('C53','partial',n('Verif.Solver.','C53_some_row_reaches_partial C53_spurious_row_violation'),
  'For every reachable non-singular pose at least one row of the table reaches it, however it is evaluated; other rows need not (violation proved on a run of the whole tree: each unknown is solved from one equation, the others are not consulted).')
c('C54','partial',n('Verif.BT.','C54_open_iff_last_running C54_open_nodes_partial C54_first_tick_partial C54_ornode_violation C54_abandoned_violation'),
  'The open flags: for every tree in which no node is its own descendant and every history, a node is open iff its last execution ended RUNNING (C54_open_iff_last_running). The published list: proved for trees without OrNode and MaxTime, per tick from any state, and as an equality for the first tick. Violated by OrNode (closes itself while a child runs) and by abandoned nodes (closing them is commented out; the stale start time of MaxTime makes the next run fail at once).')
c('C55','proved',n('Verif.BT.','C55_wait C55_wait_runs'),
  'For all clocks and histories; time is an integer in the model.')
c('C56','partial',n('Verif.BT.','C56_utility_partial C56_estimate_violation C56_blind_violation'),
  'Violated for every tree and history: the counter N_ticks is never incremented (commented out), so prob() is 0.1 for ever; what is proved of the utility is that it orders nodes by cost alone.')
c('C57','partial',n('Verif.Leaf.','C57_algebra C57_algebra_otherwise C57_sincos_partial C57_sincos_otherwise C57_tan_partial C57_tan_otherwise C57_sinANDcos C57_sinANDcos_otherwise C57_simu C57_simu_otherwise C57_simu_candidates C57_squares C57_tan_solves C57_simu_solver C57_sincos_once_violation C57_tan_memory_violation C57_squares_names_violation'),
  'Equivalences for all six identifiers (for sincos_id and tan_id under the hypothesis that they have not found anything for this unknown before). The full claim is false: sincos_id never looks a second time even if its solver failed, tan_id answers SUCCESS from memory, x2z2_transform only works for unknowns named th_2 and th_3.')
c('C58','partial',n('Verif.Solver.','C58_six_partial C58_triangular_partial C58_eight_violation C58_tangent_first_violation C58_more_than_ten_violation'),
  'Proved for at most six unknowns (with any counter left on the blackboard), and for seven if the first one has no tangent solution, for runs in which x2z2_transform found no equation (up to five of them for at most five unknowns) and which return. Both bounds are sharp: counterexamples with eight, and with seven and a tangent solution; more than ten unknowns are never solved.')
c('C59','partial',n('Verif.Out.','C59_every_robot_partial C59_values_partial C59_wrist_violation C59_subscript_violation C59_other_summand_violation C59_order_violation C59_missing_value_violation'),
  'Proved for all robots of the table but Wrist, whatever sums the transform adds. The code violates it for Wrist (variables A, B, C are not assigned), for two-character subscripts, for a second variable with the same digit, for sums listed before their angles, and for parameters without a value.')
c('C60','partial',n('Verif.Out.','C60_history C60_table C60_one_report_partial C60_no_report_violation C60_repeated_report_violation C60_no_table_violation'),
  'Proved: what each call writes is determined by the number of reports made before it, and any history with exactly one report, made after the table, writes the intended output. The code violates the full statement: without a report the generated programs have no assignments; each further report appends a copy of the versions; a report before the table crashes.')
c('C61','partial',n('Verif.Out.','C61_python2_iff C61_python3_violation C61_parameters_violation'),
  'Exact characterisation: Python 2 accepts the line structure iff the robot has no parameters (they are printed at column 0 inside the function) and its name has no underscore (it is written LaTeX-escaped); Python 3 never accepts it because of the print statements of the test code.')
c('C62','partial',n('Verif.Out.Tex.','C62_report_partial C62_fk_report C62_empty_violation C62_count_violation C62_name_violation C62_edges_shown C62_sets_shown')+n('Verif.Solver.','C62_solver_partial C62_solved_has_method C62_solutions_counted C62_solutions_named_partial C62_resolve_violation'),
  'Proved for every report that is in order, against an independent reader of LaTeX characters; and from the solver: after every run in which nothing was solved twice etc. the report is in order. The edges of the solution graph and the solution sets, which stand in verbatim environments, are shown line by line in every report that is written. output_FK_equations without restriction. The code violates the full statement: an empty solution set raises IndexError; an unknown solved twice is listed twice and two of its solutions get the same name; a robot name with & or the like is not escaped.')
c('C63','partial',n('Verif.Sol.','C63_set_solved')+n('Verif.Kin.','C63_soa_unknowns_partial C63_soa_same_unknowns_partial C63_order_violation C63_double_violation')+n('Verif.Out.','C63_python C63_cpp C63_text_violation')+n('Verif.Solver.','C63_solver_order_violation'),
  'Proved: the state after every history of set_solved calls is the same up to the order of the edges; the generated Python returns the same vectors (or raises or refuses alike) and the C++ writes the same rows, up to order; the sum-of-angles step adds the same unknowns, under stated conditions on the finder of sums. The code violates the full statement: the order in which sum unknowns are appended follows a set, and the order of the unknowns decides which formulas the solver finds.')
c('C64','partial',n('Verif.Out.','C64_bounds_iff')+n('Verif.Solver.','C64_solver_partial C64_six_partial C64_seven_violation'),
  'Proved exactly: in bounds iff at most 64 rows and at most 6 names per row; after a run of the solver in which nothing was solved twice, iff at most 6 unknowns were solved (the number of rows then never exceeds 64). The code violates the full statement: with seven solved unknowns (six joints and a sum of angles is enough) it writes solution_list[0][6].')
c('C65','partial',n('Verif.Out.','C65_same_assignments C65_declared C65_assigned C65_declared_iff C65_terminated_partial C65_argument_violation C65_empty_violation C65_never_compiles_violation')+n('Verif.Solver.','C65_solver_violation'),
  "The file is read back as text by an independent reader. Proved exactly which names are declared and which are assigned, and (without arcsine, arccosine and parameters) that all lines are complete. The code violates the statement for every robot: it assigns the versions xv1, xv2, ... of the unknown solved first but declares only its solution names xs1, ...; the line that sets argument has no semicolon; without solutions it declares 'doubl;'.")
c('C66','partial',n('Verif.Kin.','C66_correct C66_complete C66_missing_value C66_added_parameters C66_own_values_violation C66_numeric_agree C66_trans C66_rpy4S C66_rpy4_violation C66_hinv_violation'),
  "Proved for all DH tables and dictionaries, with sympy's simplification and substitution as assumptions (they keep values and add no symbols). The code violates the statement in three places: RPY4_N always raises IndexError, H_inv_N raises AttributeError for numpy matrices, and forward_kinematics_N raises for the values that forward_kinematics stored itself when some alpha is no multiple of 90 degrees.")
c('C67','partial',n('Verif.Kin.','C67_value C67_values_exist C67_read_back C67_injective C67_shortened C67_name_clash_violation'),
  'The value is kept for every substitution that exchanges equals for equals; losslessness and completeness are proved for substitution as replacement of subterms, for expressions that use none of the 24 short names. Without that condition the statement is false (C67_name_clash_violation).')
c('C68','partial',n('Verif.Kin.','C68_position_partial C68_turned C68_all C68_returns C68_rows_violation C68_missing_violation C68_degree_violation C68_verify_violation C68_checker_rows C68_script_violation'),
  "The positions are right up to the height d_1, and with the sign of th_5 changed and d_1 = 0 the claim is proved in full (sound, complete, and exactly where the script computes numbers). As it is the code violates it for every pose: the table of the repository has the opposite sign of th_5, d_1 is missing from the script's parameters (the program ends) and from its formulas, and deg is 6.28317531/360 instead of 2 pi/360.")
c('C69','partial',n('Verif.Kin.','C69_orientation_partial C69_all C69_returns_partial C69_distinct C69_position C69_loop_errors C69_right_angle_violation'),
  'Proved: the DH table is the matrix of the ZYX Euler angles; for every rigid pose with r_11 not 0 the two solutions are different, right and complete. The full statement is false: reachable poses with A a right angle (no singularity) have no solution, and the loop test compares no positions, so it prints zero errors for poses that no joint vector reaches.')
c('C70','partial',n('Verif.BT.','C70_counts_partial C70_raises C70_questions C70_utility_partial C70_estimate_violation C70_mode_violation'),
  'The counts are right after every history. The estimates by state are not: N_tik2 is never incremented, so prob_state is 0.5 for ever and get_Utility2 depends on nothing but the cost; a success in a state outside -4..3 raises IndexError (exactly then); with an unknown mode both utilities return a stale value.')
c('C71','partial',n('Verif.Solver.','C71_tree C71_no_attribute_error C71_sincos_exact C71_sincos_after_update_violation C71_order_violation C71_aux_violation'),
  'Proved for whole runs of the tree of ikSolver.py (robots whose given auxiliary equations do not contain Px, Py, Pz): algebra_id, which comes first in worktools, converts the left sides of the equations it passes, and x2z2 never squares two of them. False of the leaves by themselves: sincos_id right after updateL raises AttributeError, and so does a whole run with sc_tan before algSol.')
c('C72','partial',n('Verif.Sol.','C72_sum_solve_partial C72_no_exception C72_three_angles C72_unsolved_lhs_violation C72_no_match_violation C72_one_pass_violation C72_three_angles_violation'),
  'Proved for ticks without exception (values, status, frame, equations solvable at the beginning), and the conditions under which no exception is raised. False in full: the leaf does not look whether the sum itself is solved (AssertionError, leaving the unknown marked solved without a node), raises TypeError on an equation that is not a sum, makes one pass only, and ignores sums of three angles.')
c('C73','partial',n('Verif.Sol.Identity.','C73_eq_iff C73_none C73_equivalence C73_edge C73_sets C73_edges C73_foreign_violation C73_hash_seed_violation C73_sort_violation'),
  'Equality, hashes, sets of unknowns/nodes and of edges are proved. False of the code: comparing with an object of another class raises AttributeError (in a set: depending on the hash seed), and sorting nodes never changes their order, because Node.solveorder is always -1.')
c('C74','partial',n('Verif.Out.Tikz.','C74_drawing_partial C74_returns_iff C74_cycle_violation C74_missing_parent_violation C74_shared_violation'),
  'Proved: if every node below the root has a parent in its own list and the root has none, the lines read back to exactly the forest below the root; it returns iff no path as long as the recursion limit starts at the root. False of the code: graphs with a cycle raise RecursionError, a node with an empty parents list is left out, and a node with two parents is drawn twice.')
c('C75','partial',n('Verif.Kin.','C75_joint_column_partial C75_empty_rows C75_column_lengths C75_phantom_joints_violation'),
  'Empty rows and the columns of joints are proved. False of the code: a row without joint has a non-zero column whenever its joint type is 0 or 1, which is so for every robot of the table with fewer than six joints (MiniDD raises, C49).')
c('C76','partial',n('Verif.Solver.','C76_exceptions C76_abort_partial C76_length_first_partial C76_tan_id_declines C76_tan_solve_declines C76_sincos_declines C76_rework_violation C76_bare_violation C76_left_violation C76_sum_violation'),
  "Proved for all inputs: the only exceptions are the assertions and sum_id's NameError (no None equation, no IndexError), and the declines the tests ask for. Proved for separated input (angles only as sin(x), cos(x); left sides balanced): the only exception is the assertion of set_solved when the first unknown, solved, is worked on again; none if the first unknown is a length. False of the code in general: four runs that raise, one of them over separated input.")
c('C77','partial',n('Verif.Solver.','C77_shown_equations_follow C77_solutions_exact_partial C77_shown_violation C77_second_violation'),
  "Proved for every run: the printed equations follow from the robot's. Proved for runs that solve nothing twice and solutions that do not contain their own unknown: the solutions are exactly those of equations that follow from the robot's, and these are the printed first one or the printed pair, but for one combination of methods. False of the code in general: a run whose printed pair has a root that is no solution (the pair mixes two solvers), and a run that prints a second equation that was never used.")
c('C78','partial',n('Verif.Main.','C78_equations C78_no_configuration_lost C78_every_joint_vector C78_row_partial C78_some_row_reaches_partial C78_first_row_violation C78_first_row_iff planar_meets'),
  'Composition of the models of forward kinematics, matrix equations, sum-of-angles transform and solver tree. C78_equations, C78_no_configuration_lost and C78_every_joint_vector are full; the statements about the table rows are for runs in which nothing was solved twice and no unknown is in its own solutions (the code can violate both, C41, C19), and only some row is shown to reach the pose (C53_spurious_row_violation). C78_first_row_violation: an arm without a variable in its first DH row, or with only that variable, ends in an exception.')
c('C79','partial',n('Verif.Main.','C79_first_run C79_every_run_partial C79_described_table C79_second_run_violation C79_stale_values_violation C79_raven_violation C79_planar_violation proper_raven proper_twoArm'),
  "Full for the first run (C79_first_run) and, for arms with right-angled twists, for every history in which the description of that name did not change (C79_every_run_partial). The code violates the rest: with any other twist angle in the pose the second run writes a program that raises NameError for all joint values (C79_second_run_violation; C79_raven_violation for Raven-II, the script's default robot), and changed parameter values are not noticed (C79_stale_values_violation, C79_planar_violation).")
c('C80','proved',n('Verif.Main.','C80_python C80_python_imports C80_cpp C80_target C80_parameter_violation'),
  'Read back from the text of the files with small independent readers (pyAssign, cppInit, declares, assigns). C80_parameter_violation shows that the condition on the names is needed: a parameter named Px replaces the entry of the target.')
c('C81','partial',n('Verif.BT.','C81_transparent C81_log_exact C81_log_all C81_log_counts C81_success_only C81_crash_prefix C81_no_file C81_no_file_violation'),
  'Proved for trees that have a log file. The full claim is false of the code: log_file is None until the user sets it, and with log_flag > 0 the first line then aborts the tick (C81_no_file, for every history; C81_no_file_violation). The exact lines and their order are proved for all trees, leaves (RUNNING included), clocks and states (C81_log_all, against the rules of RunSpec.lean, which are deterministic: C08_trace_unique).')
c('C82','partial',n('Verif.Imports.','C82_imports_succeed C82_names_found_partial C82_wrong_entry_violation C82_set_solved_violation C82_same_meaning C82_meaning C82_programs C82_package_star'),
  "The imports themselves always succeed (C82_imports_succeed). The names are found, with one meaning, exactly if the first of the four circular modules that a program imports is kin_cl (C82_names_found_partial, C82_same_meaning, C82_meaning), which is so for every program and leaf of the library (C82_programs). The full claim is false of the code: a program that first imports solutionGraphV3, matching or ik_classes (as solChecker.py does), or the package with * in an order that lists one of them first, gets a kin_cl without get_deps, Node and Edge, so that recording a solution raises NameError (C82_wrong_entry_violation, C82_set_solved_violation, C82_package_star). Which names a function uses and which statements a module executes is read off the source by tools/gen_imports.py (generated table ImportData.lean), and CPython's import rules (3.7 or later) are part of the trusted base.")
c('C83','proved',n('Verif.BT.Board.','C83_tick C83_alone C83_alone_new C83_other_trees C83_published C83_mem_is_get C83_treeMem_is_get C83_shared_statistics'),
  'The engine is modelled once more, now making the calls of blackboard.py that the source makes, with the scopes it passes. C83_alone: for every history of calls, the outcomes of the calls of one tree are those of the one-tree engine of BT/Model started with the memory that the blackboard holds for this tree and called in the same worlds; C83_alone_new: on a new blackboard that memory is empty. C83_tick: one tick agrees with the one-tree engine on everything, TotalCost, statistics and log included, and the blackboard raises nothing. C83_other_trees and C83_published: what is written where. Assumed of leaves and clock: they use the global scope only and not its key TotalCost (true of the leaves of this repository).')
c('C84','partial',n('Verif.BT.','C84_next_ticks_fresh_partial C84_open_path C84_same_engine C84_maxTime_violation C84_left_open_violation'),
  'C84_next_ticks_fresh_partial: for every tree without MaxTime nodes (ids may be shared, but not between a node with a counter and one without) every tick of every history with exceptions equals the first tick of a new tree. C84_open_path: the nodes left open are exactly a path to the root. C84_same_engine: this engine and that of BT/Model agree. The code violates the full statement: MaxTime keeps the start time of the tick that raised (C84_maxTime_violation), and nodes left open stay open after later ticks that return (C84_left_open_violation).')
c('C85','partial',n('Verif.Main.Disk.','C85_one_file_torn C85_templates C85_other_robots_partial C85_offered_robots C85_rerun_partial C85_damaged_pickle C85_file_names C85_complete C85_complete_fk C85_other_description C85_exceptions C85_forward_kin2 C85_three_programs C85_three_programs_robots C85_lost_file_violation C85_rerun_violation C85_damaged_pickle_violation C85_test_name_violation'),
  "C85_one_file_torn, C85_templates: proved without conditions. C85_other_robots_partial: names must also differ without the text 'test: '; true of all robots in ik_robots.py (C85_offered_robots). C85_rerun_partial: if the pickle is not cut off and the robot had a pickle or forward_kinematics adds no parameters. The code violates the rest of the statement: a kill while the pickle is written blocks the robot for ever (C85_damaged_pickle, C85_damaged_pickle_violation), a rerun after a kill loses the parameters that forward_kinematics adds (C85_rerun_violation), output files are truncated before their text is made, so that a kill loses the old program too (C85_lost_file_violation), and names that differ in 'test: ' only share their programs (C85_test_name_violation). C85_three_programs: histories that also run forward_kin2.py are like histories of the two programs in which some runs are killed, so all of this holds for the three programs. C85_complete and C85_exceptions say what is on disk after runs that are not killed.")
c('C86','partial',n('Verif.Main.Disk.','C86_alone C86_apart C86_same_command_partial C86_first_runs_partial C86_all_partial C86_unwritten C86_three_programs C86_forward_kin2_alone C86_first_runs_violation C86_mixed_program_violation'),
  "C86_alone: a process alone passes exactly the disks of the runs of C85 and ends. C86_apart: non-interference for every schedule. C86_same_command_partial, C86_all_partial: the same command any number of times, with others, for a robot that has its pickle. C86_first_runs_partial: the same without a pickle, if what is dumped is loaded, a pickle that is incomplete or has holes (two processes write it) is not, and the forward kinematics adds no parameters; some of the processes may end with an exception. C86_three_programs: the same for processes of forward_kin2.py. The code violates the rest: two first runs for a robot, where one reads the pickle the other has just opened and ends with an exception (C86_first_runs_violation); robots whose names differ in 'test: ' only get mixed programs (C86_mixed_program_violation).")
c('C87','partial',n('Verif.Solver.','C87_only_counter C87_new_board_partial C87_large_counter C87_guarantees C87_determined_partial C87_old_board_violation C58_six_partial'),
  "C87_only_counter: whatever went before, the result of a run depends on the past only through the key 'counter' of its blackboard; with a new blackboard it is that of a process of its own (C87_new_board_partial). With an old one, the guarantees of single runs still hold (C87_guarantees; all theorems over 'solve … counter' of C16-C20, C45, C51, C58, C62, C76, C77 hold for any counter), and determined robots of at most six unknowns are solved (C87_determined_partial). The code violates the rest: the counter left by an earlier robot changes the order in which unknowns are solved, and with it solutions and poses (C87_old_board_violation).")
c('C88','partial',n('Verif.Kin.','C88_frame_velocities C88_column C88_jacobian C88_script_violation'),
  'Proved for the library in full (C88_frame_velocities, C88_column, C88_jacobian). The script violates the claim: it passes the joint positions th_1, th_2, th_3 instead of the rates, and its robot has no th_1, so that the first column it prints is zero at every pose (C88_script_violation).')
json.dump(dict(claims=C),open('/verif/MANIFEST.json','w'),indent=1)
