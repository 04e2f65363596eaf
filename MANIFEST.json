{
 "claims": [
  {
   "property": "C01",
   "status": "proved",
   "theorems": [
    "Verif.BT.C01_sequence",
    "Verif.BT.C01_sequence_exception"
   ],
   "note": ""
  },
  {
   "property": "C02",
   "status": "proved",
   "theorems": [
    "Verif.BT.C02_priority",
    "Verif.BT.C02_priority_exception"
   ],
   "note": ""
  },
  {
   "property": "C03",
   "status": "partial",
   "theorems": [
    "Verif.BT.C03_orNode_general",
    "Verif.BT.C03_orNode_partial",
    "Verif.BT.C03_orNode_error_violation"
   ],
   "note": "False of the code for children returning RUNNING or ERROR (counted as success); proved for SUCCESS/FAILURE children, and the exact behaviour for all statuses."
  },
  {
   "property": "C04",
   "status": "proved",
   "theorems": [
    "Verif.BT.C04_repeatUntilSuccess",
    "Verif.BT.C04_repeatUntilSuccess_unbounded"
   ],
   "note": ""
  },
  {
   "property": "C05",
   "status": "partial",
   "theorems": [
    "Verif.BT.C05_repeatUntilFailure",
    "Verif.BT.C05_repeater",
    "Verif.BT.C05_no_raise_partial",
    "Verif.BT.C05_zero_bound_raises"
   ],
   "note": "Everything but \"never raises\": with bound 0 RepeatUntilSuccess/Failure raise UnboundLocalError (proved)."
  },
  {
   "property": "C06",
   "status": "proved",
   "theorems": [
    "Verif.BT.C06_inverter",
    "Verif.BT.C06_inverter_twice"
   ],
   "note": ""
  },
  {
   "property": "C07",
   "status": "proved",
   "theorems": [
    "Verif.BT.C07_engine_refines_spec",
    "Verif.BT.C07_spec_is_executed",
    "Verif.BT.C07_closed_after_ticks",
    "Verif.BT.C07_tick_independent_of_history"
   ],
   "note": ""
  },
  {
   "property": "C08",
   "status": "proved",
   "theorems": [
    "Verif.BT.C08_counters_step",
    "Verif.BT.C08_success_le_ticks",
    "Verif.BT.C08_counters_exact",
    "Verif.BT.C08_counters_all",
    "Verif.BT.C08_node_count",
    "Verif.BT.C08_trace_unique",
    "Verif.BT.C08_rules_iff_engine",
    "Verif.BT.C08_no_pop_from_empty"
   ],
   "note": ""
  },
  {
   "property": "C09",
   "status": "partial",
   "theorems": [
    "Verif.BT.C09_totalCost_violation",
    "Verif.BT.C09_nested_violation",
    "Verif.BT.C09_totalCost_exact",
    "Verif.BT.C09_composite_cost_exact",
    "Verif.BT.C09_no_composite_partial",
    "Verif.BT.C09_leaf_charged_once_partial",
    "Verif.BT.C09_sequence_charges_twice"
   ],
   "note": "False of the code: a leaf is charged once more per composite above it, up to the nearest decorator. C09_totalCost_exact gives the exact formula for every tree of distinct nodes; the English claim holds only without composites (C09_no_composite_partial)."
  },
  {
   "property": "C10",
   "status": "partial",
   "theorems": [
    "Verif.BT.C10_limiter_never_limits",
    "Verif.BT.C10_limiter_counts",
    "Verif.BT.C10_limiter_nonpositive_partial"
   ],
   "note": "False of the code for every positive bound: the counter is reset whenever the node closes."
  },
  {
   "property": "C11",
   "status": "partial",
   "theorems": [
    "Verif.BT.Blackboard.C11_blackboard_flat_partial",
    "Verif.BT.Blackboard.C11_read_returns_last_write_partial",
    "Verif.BT.Blackboard.C11_flat_read_own_write",
    "Verif.BT.Blackboard.C11_flat_isolated",
    "Verif.BT.Blackboard.C11_node_memory_violation",
    "Verif.BT.Blackboard.C11_open_nodes_violation",
    "Verif.BT.Blackboard.C11_node_memory_read_violation",
    "Verif.BT.Blackboard.C11_float_increment_quits"
   ],
   "note": "Proved for all histories avoiding the tree-scope keys node_memory and open_nodes, for which it is false of the code."
  },
  {
   "property": "C12",
   "status": "partial",
   "theorems": [
    "Verif.BT.C12_mem_composites_raise",
    "Verif.BT.C12_no_mem_no_nameError_partial",
    "Verif.BT.C12_xrange_memSequence_partial",
    "Verif.BT.C12_xrange_memPriority_partial",
    "Verif.BT.C12_xrange_resumes",
    "Verif.BT.C12_xrange_memory",
    "Verif.BT.C12_xrange_plain",
    "Verif.BT.C12_xrange_otherwise"
   ],
   "note": "False of the code under Python 3: xrange is undefined, every execution raises. Where xrange is defined (Python 2, or a program that sets builtins.xrange), the claim is proved in full for both classes: for all children, leaves and histories of ticks (C12_xrange_*)."
  },
  {
   "property": "C13",
   "status": "partial",
   "theorems": [
    "Verif.BT.DumpLoad.C13_load_dump_mirror_partial",
    "Verif.BT.DumpLoad.C13_plain_trees_partial",
    "Verif.BT.DumpLoad.C13_load_dump_only_symmetric",
    "Verif.BT.DumpLoad.C13_double_round_trip_partial",
    "Verif.BT.DumpLoad.C13_parametrised_decorator_violation",
    "Verif.BT.DumpLoad.C13_order_violation"
   ],
   "note": "False of the code: dump lists children in reverse order and load cannot construct decorators with arguments; proved: load(dump t) is the mirror image of t."
  },
  {
   "property": "C14",
   "status": "proved",
   "theorems": [
    "Verif.BT.C14_bounded_tick_terminates",
    "Verif.BT.C14_executions_bounded",
    "Verif.BT.C14_executions_all",
    "Verif.BT.C14_unbounded_diverges",
    "Verif.Solver.C45_bounded"
   ],
   "note": ""
  },
  {
   "property": "C15",
   "status": "partial",
   "theorems": [
    "Verif.BT.C15_maxTime_violation",
    "Verif.BT.C15_maxTime_partial"
   ],
   "note": "False of the code: the clock is read before the child runs."
  },
  {
   "property": "C16",
   "status": "partial",
   "theorems": [
    "Verif.Sol.C16_solution_table_partial",
    "Verif.Sol.C16_rows_distinct_partial",
    "Verif.Sol.C16_end_to_end_partial",
    "Verif.Sol.C16_row_count",
    "Verif.Sol.C16_three_solutions_violation",
    "Verif.Solver.C16_solver_partial"
   ],
   "note": "Proved when every unknown after the first has 1 or 2 solutions; false of the code for 3 or more (2^(n-1) rows instead of n)."
  },
  {
   "property": "C17",
   "status": "proved",
   "theorems": [
    "Verif.Sol.C17_rows_labelled",
    "Verif.Sol.C17_end_to_end",
    "Verif.Sol.C17_reads_left"
   ],
   "note": "The last clause (reading left to right) is about histories in which no unknown is solved twice or occurs in its own solution; otherwise it is false (C19)."
  },
  {
   "property": "C18",
   "status": "partial",
   "theorems": [
    "Verif.Sol.C18_equations_exact",
    "Verif.Sol.C18_defined_before_use_partial",
    "Verif.Sol.C18_all_solutions_used_partial",
    "Verif.Sol.C18_last_single_drops_branches",
    "Verif.Sol.C18_index_error_violation",
    "Verif.Sol.C18_first_unknown_violation",
    "Verif.Sol.C18_subs_order",
    "Verif.Sol.C18_subs_order_violation"
   ],
   "note": "False of the code: the solution is chosen by row modulo the number of solutions of the last unknown."
  },
  {
   "property": "C19",
   "status": "partial",
   "theorems": [
    "Verif.Sol.C19_orders",
    "Verif.Sol.C19_dependencies_partial",
    "Verif.Sol.C19_acyclic_partial",
    "Verif.Sol.C19_unsolved_dependency_raises",
    "Verif.Sol.C19_self_dependency_violation",
    "Verif.Sol.C19_resolve_violation",
    "Verif.Sol.C19_empty_solutions_marks_solved",
    "Verif.Solver.C19_solver_partial"
   ],
   "note": "Proved for histories where each unknown is solved once and not in terms of itself; the code checks neither."
  },
  {
   "property": "C20",
   "status": "partial",
   "theorems": [
    "Verif.Sol.C20_versions_formula",
    "Verif.Sol.C20_versions_partial",
    "Verif.Sol.C20_version_names",
    "Verif.Sol.C20_chain_violation",
    "Verif.Solver.C20_solver_partial"
   ],
   "note": "False of the code for chains of dependencies: it multiplies numbers of solutions, not of versions."
  },
  {
   "property": "C21",
   "status": "partial",
   "theorems": [
    "Verif.Eqn.C21_scan_general",
    "Verif.Eqn.C21_scan_partial",
    "Verif.Eqn.C21_scan_mequation",
    "Verif.Eqn.C21_both_sides_violation"
   ],
   "note": "Proved for equations without an unknown on both sides; such an unknown is counted twice by the code."
  },
  {
   "property": "C22",
   "status": "proved",
   "theorems": [
    "Verif.Eqn.C22_erank_perm",
    "Verif.Eqn.C22_erank_sorted",
    "Verif.Eqn.C22_erank_stable"
   ],
   "note": ""
  },
  {
   "property": "C23",
   "status": "partial",
   "theorems": [
    "Verif.Eqn.Equality.C23_eq_iff",
    "Verif.Eqn.Equality.C23_equivalence",
    "Verif.Eqn.Equality.C23_list_membership",
    "Verif.Eqn.Equality.C23_hash_partial",
    "Verif.Eqn.Equality.C23_hash_violation"
   ],
   "note": "The hash contract is false of the code (1 and 1.0); everything else is proved."
  },
  {
   "property": "C24",
   "status": "proved",
   "theorems": [
    "Verif.Eqn.C24_count_unknowns",
    "Verif.Eqn.C24_get_unknowns",
    "Verif.Eqn.C24_get_variables",
    "Verif.Eqn.C24_find_obj",
    "Verif.Eqn.C24_repeated_unknown_counted_twice",
    "Verif.Sol.C24_get_deps"
   ],
   "note": "count_unknowns for lists without repeated unknowns; a repeated unknown is counted twice (proved)."
  },
  {
   "property": "C25",
   "status": "partial",
   "theorems": [
    "Verif.Eqn.C25_updateL_partial",
    "Verif.Eqn.C25_three_way_sum_violation"
   ],
   "note": "False of the code for auxiliary equations with four unknowns (three-way sums of angles), which are dropped."
  },
  {
   "property": "C26",
   "status": "proved",
   "theorems": [
    "Verif.Kin.C26_link_factors",
    "Verif.Kin.C26_link_rigid",
    "Verif.Kin.C26_linkCS_rigid",
    "Verif.Kin.C26_link_zero"
   ],
   "note": ""
  },
  {
   "property": "C27",
   "status": "proved",
   "theorems": [
    "Verif.Kin.C27_inverse",
    "Verif.Kin.C27_inverse_cancels"
   ],
   "note": ""
  },
  {
   "property": "C28",
   "status": "proved",
   "theorems": [
    "Verif.Kin.C28_equations_equivalent",
    "Verif.Kin.C28_target"
   ],
   "note": ""
  },
  {
   "property": "C29",
   "status": "proved",
   "theorems": [
    "Verif.Kin.C29_forward_kinematics"
   ],
   "note": ""
  },
  {
   "property": "C30",
   "status": "proved",
   "theorems": [
    "Verif.Kin.C30_velocity_recursion",
    "Verif.Kin.C30_jacobian"
   ],
   "note": ""
  },
  {
   "property": "C31",
   "status": "proved",
   "theorems": [
    "Verif.Kin.C31_rotations",
    "Verif.Kin.C31_additive",
    "Verif.Kin.C31_axes",
    "Verif.Kin.C31_rpy",
    "Verif.Kin.C31_trans"
   ],
   "note": ""
  },
  {
   "property": "C32",
   "status": "partial",
   "theorems": [
    "Verif.Kin.C32_wrap_partial",
    "Verif.Kin.C32_wrap_congruent",
    "Verif.Kin.C32_wrap_violation",
    "Verif.Kin.C32_approx"
   ],
   "note": "The code makes at most one turn: the range is only reached for angles within 3*pi; congruence modulo 2*pi always."
  },
  {
   "property": "C33",
   "status": "partial",
   "theorems": [
    "Verif.Kin.C33_squeeze",
    "Verif.Kin.C33_squeeze_every_joint_vector",
    "Verif.Kin.C33_sum_of_angles_partial",
    "Verif.Kin.C33_other_summand_raises",
    "Verif.Kin.C33_stale_flag_violation",
    "Verif.Kin.C33_registered_twice_violation"
   ],
   "note": "notation_squeeze: proved. Sum of angles: proved for runs that complete on joint variables named th_<index>; stale found2/found3 flags, summands that are no joint variable and double registration are shown as violations. sympy find/subs/simplify are parameters."
  },
  {
   "property": "C34",
   "status": "proved",
   "theorems": [
    "Verif.Leaf.C34_algebra"
   ],
   "note": "Relative to Sympy.Sound (sympy transformations keep values, match decomposes correctly) wherever the divisor is not zero."
  },
  {
   "property": "C35",
   "status": "proved",
   "theorems": [
    "Verif.Leaf.C35_sincos"
   ],
   "note": "Relative to Sympy.Sound wherever the coefficient is not zero."
  },
  {
   "property": "C36",
   "status": "proved",
   "theorems": [
    "Verif.Leaf.C36_tan"
   ],
   "note": "Relative to Sympy.Sound wherever the coefficients are not zero; two-answer form: soundness for coefficients of period 2*pi."
  },
  {
   "property": "C37",
   "status": "partial",
   "theorems": [
    "Verif.Leaf.C37_sinANDcos_partial",
    "Verif.Leaf.C37_violation"
   ],
   "note": "Soundness only if the coefficients read off do not contain the unknown, which the code does not check (violation proved); completeness always."
  },
  {
   "property": "C38",
   "status": "partial",
   "theorems": [
    "Verif.Leaf.C38_simultaneous_partial",
    "Verif.Leaf.C38_violation"
   ],
   "note": "Soundness only if coefficients and rests do not contain the unknown, which the code does not check (violation proved); completeness always."
  },
  {
   "property": "C39",
   "status": "proved",
   "theorems": [
    "Verif.Leaf.C39_x2z2",
    "Verif.Leaf.C39_x2z2_otherwise"
   ],
   "note": "Relative to Sympy.Sound; the joint vector is read with the sums of angles th_12 = th_1+th_2 and so on. The number of unsolved unknowns of the new equation is 1 (from pairs of two-unknown equations)."
  },
  {
   "property": "C40",
   "status": "partial",
   "theorems": [
    "Verif.Leaf.C40_consequence_partial",
    "Verif.Leaf.C40_equivalent_partial",
    "Verif.Leaf.C40_violation"
   ],
   "note": "Consequence and unknown count: always. Equivalence: when subs replaces subtrees and the left sides contain no unsolved unknowns; false with the flat sums of sympy (violation proved: an entry is substituted into itself and an equation is lost)."
  },
  {
   "property": "C41",
   "status": "partial",
   "theorems": [
    "Verif.Solver.C41_solved_forever",
    "Verif.Solver.C41_history_partial",
    "Verif.Solver.C41_nodup_partial",
    "Verif.Solver.C41_resolve_violation"
   ],
   "note": "Solved unknowns stay solved; node iff solved; one node and unchanged record for all unknowns except the first one of the list when the tangent method was found for it, which the code solves again (violation proved on a full run of the tree)."
  },
  {
   "property": "C42",
   "status": "partial",
   "theorems": [
    "Verif.Solver.C42_round_partial",
    "Verif.Solver.C42_no_starvation",
    "Verif.Solver.C42_solved_violation",
    "Verif.Solver.C42_twice_violation"
   ],
   "note": "Every unsolved unknown is handed out in each window of k+1 ticks, in order; at the wrap the first unknown is handed out even if solved, and twice in a row if not (violations proved)."
  },
  {
   "property": "C43",
   "status": "proved",
   "theorems": [
    "Verif.Solver.C43_completion"
   ],
   "note": ""
  },
  {
   "property": "C44",
   "status": "proved",
   "theorems": [
    "Verif.Solver.C44_rank",
    "Verif.Solver.C44_subtree"
   ],
   "note": ""
  },
  {
   "property": "C45",
   "status": "proved",
   "theorems": [
    "Verif.Solver.C45_success_iff_all_solved",
    "Verif.Solver.C45_only_leaf_exceptions",
    "Verif.Solver.C45_bounded"
   ],
   "note": ""
  },
  {
   "property": "C46",
   "status": "partial",
   "theorems": [
    "Verif.Out.C46_line_partial",
    "Verif.Out.C46_text_partial",
    "Verif.Out.C46_unambiguous",
    "Verif.Out.C46_one_value",
    "Verif.Out.C46_text_violation",
    "Verif.Out.C46_unchanged",
    "Verif.Out.C46_denominator_violation",
    "Verif.Out.C46_acos_violation",
    "Verif.Out.C46_nested_violation",
    "Verif.Out.C46_power_violation",
    "Verif.Out.C46_int_division_violation"
   ],
   "note": "A text has at most one reading (C46_unambiguous, by a recursive descent parser), so values of texts are well defined. The rewriting of x**2 and the C++ text denote the same value for the stated expressions; violations proved for powers of other shapes, denominators, integer division and function names."
  },
  {
   "property": "C47",
   "status": "partial",
   "theorems": [
    "Verif.Out.C47_balanced",
    "Verif.Out.C47_indentation",
    "Verif.Out.C47_layout",
    "Verif.Out.C47_cpp_count",
    "Verif.Out.C47_cpp_once_partial",
    "Verif.Out.C47_sinANDcos_violation",
    "Verif.Out.C47_twice_violation",
    "Verif.Out.C47_arccos_violation",
    "Verif.Out.C47_columns",
    "Verif.Out.C47_packing",
    "Verif.Out.C47_first_unknown_violation",
    "Verif.Out.C47_first_unknown_used",
    "Verif.Out.C47_python_count",
    "Verif.Out.C47_python_none_violation",
    "Verif.Out.C47_python_twice_violation",
    "Verif.Out.C47_cpp_packed",
    "Verif.Out.C47_python_once_partial",
    "Verif.Solver.C47_solver_violation"
   ],
   "note": "Braces: always balanced. One assignment per unknown and row only for methods with exactly one case; the first unknown is never assigned under the name the packing uses (violation proved for every solution)."
  },
  {
   "property": "C48",
   "status": "partial",
   "theorems": [
    "Verif.Out.C48_kinematics_partial",
    "Verif.Out.C48_same_description",
    "Verif.Out.C48_changed_table",
    "Verif.Out.C48_joint_type_violation",
    "Verif.Out.C48_lost_parameter_violation",
    "Verif.Out.C48_idempotent",
    "Verif.Out.C48_crash_violation"
   ],
   "note": "The check compares DH table, unknowns and parameters only; joint types are not compared (violation proved)."
  },
  {
   "property": "C49",
   "status": "partial",
   "theorems": [
    "Verif.Out.C49_names_partial",
    "Verif.Out.C49_undefined_violation",
    "Verif.Out.C49_refused_violation",
    "Verif.Out.C49_reachable",
    "Verif.Out.C49_minidd_violation",
    "Verif.Out.C49_velocity_reads",
    "Verif.Out.C49_undeclared_violation",
    "Verif.Out.C49_defined_once",
    "Verif.Out.C49_last_joint",
    "Verif.Out.C49_one_joint_violation"
   ],
   "note": "The set of accepted names and of defined names differ (violations proved)."
  },
  {
   "property": "C52",
   "status": "partial",
   "theorems": [
    "Verif.Out.C52_packing_partial",
    "Verif.Out.C52_vectors_partial",
    "Verif.Out.C52_domain_partial",
    "Verif.Out.C52_always_raises_violation",
    "Verif.Out.C52_never_false_violation",
    "Verif.Out.C52_guard_text_violation",
    "Verif.Solver.C52_solver_violation"
   ],
   "note": "A call that returns gives one vector per group with the values of the variables; but the generated function raises for every robot and pose, never returns False, and its domain test can test another value (violations proved)."
  },
  {
   "property": "C50",
   "status": "partial",
   "theorems": [
    "Verif.Sol.Matching.C50_groups_cover_partial",
    "Verif.Sol.Matching.C50_poses_partial",
    "Verif.Sol.Matching.C50_two_disjoint_groups_partial",
    "Verif.Sol.Matching.C50_search_mem",
    "Verif.Sol.Matching.C50_search_sorted",
    "Verif.Sol.Matching.C50_empty",
    "Verif.Sol.Matching.C50_countained_violation",
    "Verif.Sol.Matching.C50_root_conflict_violation",
    "Verif.Sol.Matching.C50_lost_pose_violation",
    "Verif.Sol.Matching.C50_length_violation",
    "Verif.Sol.Matching.C50_root_overlap_violation"
   ],
   "note": "False of the code in four ways (misspelt variable, root conflicts unchecked, only the first completion kept, groups accepted by length). Proved: merged groups always cover every unknown in order and use given notations only; they are poses when the first unknown has one solution and the subgroups overlap."
  },
  {
   "property": "C51",
   "status": "proved",
   "theorems": [
    "Verif.Solver.C51_no_solution_lost",
    "Verif.Solver.C51_row_partial"
   ],
   "note": "For every run and every sound sympy, at every assignment that satisfies the equations and at which no recorded divisor vanishes, every solved unknown has a solution with its value; the row of the table that combines them is unique (C51_row_partial: for runs that solve nothing twice)."
  },
  {
   "property": "C53",
   "status": "partial",
   "theorems": [
    "Verif.Solver.C53_some_row_reaches_partial",
    "Verif.Solver.C53_spurious_row_violation"
   ],
   "note": "For every reachable non-singular pose at least one row of the table reaches it, however it is evaluated; other rows need not (violation proved on a run of the whole tree: each unknown is solved from one equation, the others are not consulted)."
  },
  {
   "property": "C54",
   "status": "partial",
   "theorems": [
    "Verif.BT.C54_open_iff_last_running",
    "Verif.BT.C54_open_nodes_partial",
    "Verif.BT.C54_first_tick_partial",
    "Verif.BT.C54_ornode_violation",
    "Verif.BT.C54_abandoned_violation"
   ],
   "note": "The open flags: for every tree in which no node is its own descendant and every history, a node is open iff its last execution ended RUNNING (C54_open_iff_last_running). The published list: proved for trees without OrNode and MaxTime, per tick from any state, and as an equality for the first tick. Violated by OrNode (closes itself while a child runs) and by abandoned nodes (closing them is commented out; the stale start time of MaxTime makes the next run fail at once)."
  },
  {
   "property": "C55",
   "status": "proved",
   "theorems": [
    "Verif.BT.C55_wait",
    "Verif.BT.C55_wait_runs"
   ],
   "note": "For all clocks and histories; time is an integer in the model."
  },
  {
   "property": "C56",
   "status": "partial",
   "theorems": [
    "Verif.BT.C56_utility_partial",
    "Verif.BT.C56_estimate_violation",
    "Verif.BT.C56_blind_violation"
   ],
   "note": "Violated for every tree and history: the counter N_ticks is never incremented (commented out), so prob() is 0.1 for ever; what is proved of the utility is that it orders nodes by cost alone."
  },
  {
   "property": "C57",
   "status": "partial",
   "theorems": [
    "Verif.Leaf.C57_algebra",
    "Verif.Leaf.C57_algebra_otherwise",
    "Verif.Leaf.C57_sincos_partial",
    "Verif.Leaf.C57_sincos_otherwise",
    "Verif.Leaf.C57_tan_partial",
    "Verif.Leaf.C57_tan_otherwise",
    "Verif.Leaf.C57_sinANDcos",
    "Verif.Leaf.C57_sinANDcos_otherwise",
    "Verif.Leaf.C57_simu",
    "Verif.Leaf.C57_simu_otherwise",
    "Verif.Leaf.C57_simu_candidates",
    "Verif.Leaf.C57_squares",
    "Verif.Leaf.C57_tan_solves",
    "Verif.Leaf.C57_simu_solver",
    "Verif.Leaf.C57_sincos_once_violation",
    "Verif.Leaf.C57_tan_memory_violation",
    "Verif.Leaf.C57_squares_names_violation"
   ],
   "note": "Equivalences for all six identifiers (for sincos_id and tan_id under the hypothesis that they have not found anything for this unknown before). The full claim is false: sincos_id never looks a second time even if its solver failed, tan_id answers SUCCESS from memory, x2z2_transform only works for unknowns named th_2 and th_3."
  },
  {
   "property": "C58",
   "status": "partial",
   "theorems": [
    "Verif.Solver.C58_six_partial",
    "Verif.Solver.C58_triangular_partial",
    "Verif.Solver.C58_eight_violation",
    "Verif.Solver.C58_tangent_first_violation",
    "Verif.Solver.C58_more_than_ten_violation"
   ],
   "note": "Proved for at most six unknowns (with any counter left on the blackboard), and for seven if the first one has no tangent solution, for runs in which x2z2_transform found no equation (up to five of them for at most five unknowns) and which return. Both bounds are sharp: counterexamples with eight, and with seven and a tangent solution; more than ten unknowns are never solved."
  },
  {
   "property": "C59",
   "status": "partial",
   "theorems": [
    "Verif.Out.C59_every_robot_partial",
    "Verif.Out.C59_values_partial",
    "Verif.Out.C59_wrist_violation",
    "Verif.Out.C59_subscript_violation",
    "Verif.Out.C59_other_summand_violation",
    "Verif.Out.C59_order_violation",
    "Verif.Out.C59_missing_value_violation"
   ],
   "note": "Proved for all robots of the table but Wrist, whatever sums the transform adds. The code violates it for Wrist (variables A, B, C are not assigned), for two-character subscripts, for a second variable with the same digit, for sums listed before their angles, and for parameters without a value."
  },
  {
   "property": "C60",
   "status": "partial",
   "theorems": [
    "Verif.Out.C60_history",
    "Verif.Out.C60_table",
    "Verif.Out.C60_one_report_partial",
    "Verif.Out.C60_no_report_violation",
    "Verif.Out.C60_repeated_report_violation",
    "Verif.Out.C60_no_table_violation"
   ],
   "note": "Proved: what each call writes is determined by the number of reports made before it, and any history with exactly one report, made after the table, writes the intended output. The code violates the full statement: without a report the generated programs have no assignments; each further report appends a copy of the versions; a report before the table crashes."
  },
  {
   "property": "C61",
   "status": "partial",
   "theorems": [
    "Verif.Out.C61_python2_iff",
    "Verif.Out.C61_python3_violation",
    "Verif.Out.C61_parameters_violation"
   ],
   "note": "Exact characterisation: Python 2 accepts the line structure iff the robot has no parameters (they are printed at column 0 inside the function) and its name has no underscore (it is written LaTeX-escaped); Python 3 never accepts it because of the print statements of the test code."
  },
  {
   "property": "C62",
   "status": "partial",
   "theorems": [
    "Verif.Out.Tex.C62_report_partial",
    "Verif.Out.Tex.C62_fk_report",
    "Verif.Out.Tex.C62_empty_violation",
    "Verif.Out.Tex.C62_count_violation",
    "Verif.Out.Tex.C62_name_violation",
    "Verif.Out.Tex.C62_edges_shown",
    "Verif.Out.Tex.C62_sets_shown",
    "Verif.Solver.C62_solver_partial",
    "Verif.Solver.C62_solved_has_method",
    "Verif.Solver.C62_solutions_counted",
    "Verif.Solver.C62_solutions_named_partial",
    "Verif.Solver.C62_resolve_violation"
   ],
   "note": "Proved for every report that is in order, against an independent reader of LaTeX characters; and from the solver: after every run in which nothing was solved twice etc. the report is in order. The edges of the solution graph and the solution sets, which stand in verbatim environments, are shown line by line in every report that is written. output_FK_equations without restriction. The code violates the full statement: an empty solution set raises IndexError; an unknown solved twice is listed twice and two of its solutions get the same name; a robot name with & or the like is not escaped."
  },
  {
   "property": "C63",
   "status": "partial",
   "theorems": [
    "Verif.Sol.C63_set_solved",
    "Verif.Kin.C63_soa_unknowns_partial",
    "Verif.Kin.C63_soa_same_unknowns_partial",
    "Verif.Kin.C63_order_violation",
    "Verif.Kin.C63_double_violation",
    "Verif.Out.C63_python",
    "Verif.Out.C63_cpp",
    "Verif.Out.C63_text_violation",
    "Verif.Solver.C63_solver_order_violation"
   ],
   "note": "Proved: the state after every history of set_solved calls is the same up to the order of the edges; the generated Python returns the same vectors (or raises or refuses alike) and the C++ writes the same rows, up to order; the sum-of-angles step adds the same unknowns, under stated conditions on the finder of sums. The code violates the full statement: the order in which sum unknowns are appended follows a set, and the order of the unknowns decides which formulas the solver finds."
  },
  {
   "property": "C64",
   "status": "partial",
   "theorems": [
    "Verif.Out.C64_bounds_iff",
    "Verif.Solver.C64_solver_partial",
    "Verif.Solver.C64_six_partial",
    "Verif.Solver.C64_seven_violation"
   ],
   "note": "Proved exactly: in bounds iff at most 64 rows and at most 6 names per row; after a run of the solver in which nothing was solved twice, iff at most 6 unknowns were solved (the number of rows then never exceeds 64). The code violates the full statement: with seven solved unknowns (six joints and a sum of angles is enough) it writes solution_list[0][6]."
  },
  {
   "property": "C65",
   "status": "partial",
   "theorems": [
    "Verif.Out.C65_same_assignments",
    "Verif.Out.C65_declared",
    "Verif.Out.C65_assigned",
    "Verif.Out.C65_declared_iff",
    "Verif.Out.C65_terminated_partial",
    "Verif.Out.C65_argument_violation",
    "Verif.Out.C65_empty_violation",
    "Verif.Out.C65_never_compiles_violation",
    "Verif.Solver.C65_solver_violation"
   ],
   "note": "The file is read back as text by an independent reader. Proved exactly which names are declared and which are assigned, and (without arcsine, arccosine and parameters) that all lines are complete. The code violates the statement for every robot: it assigns the versions xv1, xv2, ... of the unknown solved first but declares only its solution names xs1, ...; the line that sets argument has no semicolon; without solutions it declares 'doubl;'."
  },
  {
   "property": "C66",
   "status": "partial",
   "theorems": [
    "Verif.Kin.C66_correct",
    "Verif.Kin.C66_complete",
    "Verif.Kin.C66_missing_value",
    "Verif.Kin.C66_added_parameters",
    "Verif.Kin.C66_own_values_violation",
    "Verif.Kin.C66_numeric_agree",
    "Verif.Kin.C66_trans",
    "Verif.Kin.C66_rpy4S",
    "Verif.Kin.C66_rpy4_violation",
    "Verif.Kin.C66_hinv_violation"
   ],
   "note": "Proved for all DH tables and dictionaries, with sympy's simplification and substitution as assumptions (they keep values and add no symbols). The code violates the statement in three places: RPY4_N always raises IndexError, H_inv_N raises AttributeError for numpy matrices, and forward_kinematics_N raises for the values that forward_kinematics stored itself when some alpha is no multiple of 90 degrees."
  },
  {
   "property": "C67",
   "status": "partial",
   "theorems": [
    "Verif.Kin.C67_value",
    "Verif.Kin.C67_values_exist",
    "Verif.Kin.C67_read_back",
    "Verif.Kin.C67_injective",
    "Verif.Kin.C67_shortened",
    "Verif.Kin.C67_name_clash_violation"
   ],
   "note": "The value is kept for every substitution that exchanges equals for equals; losslessness and completeness are proved for substitution as replacement of subterms, for expressions that use none of the 24 short names. Without that condition the statement is false (C67_name_clash_violation)."
  },
  {
   "property": "C68",
   "status": "partial",
   "theorems": [
    "Verif.Kin.C68_position_partial",
    "Verif.Kin.C68_turned",
    "Verif.Kin.C68_all",
    "Verif.Kin.C68_returns",
    "Verif.Kin.C68_rows_violation",
    "Verif.Kin.C68_missing_violation",
    "Verif.Kin.C68_degree_violation",
    "Verif.Kin.C68_verify_violation",
    "Verif.Kin.C68_checker_rows",
    "Verif.Kin.C68_script_violation"
   ],
   "note": "The positions are right up to the height d_1, and with the sign of th_5 changed and d_1 = 0 the claim is proved in full (sound, complete, and exactly where the script computes numbers). As it is the code violates it for every pose: the table of the repository has the opposite sign of th_5, d_1 is missing from the script's parameters (the program ends) and from its formulas, and deg is 6.28317531/360 instead of 2 pi/360."
  },
  {
   "property": "C69",
   "status": "partial",
   "theorems": [
    "Verif.Kin.C69_orientation_partial",
    "Verif.Kin.C69_all",
    "Verif.Kin.C69_returns_partial",
    "Verif.Kin.C69_distinct",
    "Verif.Kin.C69_position",
    "Verif.Kin.C69_loop_errors",
    "Verif.Kin.C69_right_angle_violation"
   ],
   "note": "Proved: the DH table is the matrix of the ZYX Euler angles; for every rigid pose with r_11 not 0 the two solutions are different, right and complete. The full statement is false: reachable poses with A a right angle (no singularity) have no solution, and the loop test compares no positions, so it prints zero errors for poses that no joint vector reaches."
  },
  {
   "property": "C70",
   "status": "partial",
   "theorems": [
    "Verif.BT.C70_counts_partial",
    "Verif.BT.C70_raises",
    "Verif.BT.C70_questions",
    "Verif.BT.C70_utility_partial",
    "Verif.BT.C70_estimate_violation",
    "Verif.BT.C70_mode_violation"
   ],
   "note": "The counts are right after every history. The estimates by state are not: N_tik2 is never incremented, so prob_state is 0.5 for ever and get_Utility2 depends on nothing but the cost; a success in a state outside -4..3 raises IndexError (exactly then); with an unknown mode both utilities return a stale value."
  },
  {
   "property": "C71",
   "status": "partial",
   "theorems": [
    "Verif.Solver.C71_tree",
    "Verif.Solver.C71_no_attribute_error",
    "Verif.Solver.C71_sincos_exact",
    "Verif.Solver.C71_sincos_after_update_violation",
    "Verif.Solver.C71_order_violation",
    "Verif.Solver.C71_aux_violation"
   ],
   "note": "Proved for whole runs of the tree of ikSolver.py (robots whose given auxiliary equations do not contain Px, Py, Pz): algebra_id, which comes first in worktools, converts the left sides of the equations it passes, and x2z2 never squares two of them. False of the leaves by themselves: sincos_id right after updateL raises AttributeError, and so does a whole run with sc_tan before algSol."
  },
  {
   "property": "C72",
   "status": "partial",
   "theorems": [
    "Verif.Sol.C72_sum_solve_partial",
    "Verif.Sol.C72_no_exception",
    "Verif.Sol.C72_three_angles",
    "Verif.Sol.C72_unsolved_lhs_violation",
    "Verif.Sol.C72_no_match_violation",
    "Verif.Sol.C72_one_pass_violation",
    "Verif.Sol.C72_three_angles_violation"
   ],
   "note": "Proved for ticks without exception (values, status, frame, equations solvable at the beginning), and the conditions under which no exception is raised. False in full: the leaf does not look whether the sum itself is solved (AssertionError, leaving the unknown marked solved without a node), raises TypeError on an equation that is not a sum, makes one pass only, and ignores sums of three angles."
  },
  {
   "property": "C73",
   "status": "partial",
   "theorems": [
    "Verif.Sol.Identity.C73_eq_iff",
    "Verif.Sol.Identity.C73_none",
    "Verif.Sol.Identity.C73_equivalence",
    "Verif.Sol.Identity.C73_edge",
    "Verif.Sol.Identity.C73_sets",
    "Verif.Sol.Identity.C73_edges",
    "Verif.Sol.Identity.C73_foreign_violation",
    "Verif.Sol.Identity.C73_hash_seed_violation",
    "Verif.Sol.Identity.C73_sort_violation"
   ],
   "note": "Equality, hashes, sets of unknowns/nodes and of edges are proved. False of the code: comparing with an object of another class raises AttributeError (in a set: depending on the hash seed), and sorting nodes never changes their order, because Node.solveorder is always -1."
  },
  {
   "property": "C74",
   "status": "partial",
   "theorems": [
    "Verif.Out.Tikz.C74_drawing_partial",
    "Verif.Out.Tikz.C74_returns_iff",
    "Verif.Out.Tikz.C74_cycle_violation",
    "Verif.Out.Tikz.C74_missing_parent_violation",
    "Verif.Out.Tikz.C74_shared_violation"
   ],
   "note": "Proved: if every node below the root has a parent in its own list and the root has none, the lines read back to exactly the forest below the root; it returns iff no path as long as the recursion limit starts at the root. False of the code: graphs with a cycle raise RecursionError, a node with an empty parents list is left out, and a node with two parents is drawn twice."
  },
  {
   "property": "C75",
   "status": "partial",
   "theorems": [
    "Verif.Kin.C75_joint_column_partial",
    "Verif.Kin.C75_empty_rows",
    "Verif.Kin.C75_column_lengths",
    "Verif.Kin.C75_phantom_joints_violation"
   ],
   "note": "Empty rows and the columns of joints are proved. False of the code: a row without joint has a non-zero column whenever its joint type is 0 or 1, which is so for every robot of the table with fewer than six joints (MiniDD raises, C49)."
  },
  {
   "property": "C76",
   "status": "partial",
   "theorems": [
    "Verif.Solver.C76_exceptions",
    "Verif.Solver.C76_abort_partial",
    "Verif.Solver.C76_length_first_partial",
    "Verif.Solver.C76_tan_id_declines",
    "Verif.Solver.C76_tan_solve_declines",
    "Verif.Solver.C76_sincos_declines",
    "Verif.Solver.C76_rework_violation",
    "Verif.Solver.C76_bare_violation",
    "Verif.Solver.C76_left_violation",
    "Verif.Solver.C76_sum_violation"
   ],
   "note": "Proved for all inputs: the only exceptions are the assertions and sum_id's NameError (no None equation, no IndexError), and the declines the tests ask for. Proved for separated input (angles only as sin(x), cos(x); left sides balanced): the only exception is the assertion of set_solved when the first unknown, solved, is worked on again; none if the first unknown is a length. False of the code in general: four runs that raise, one of them over separated input."
  },
  {
   "property": "C77",
   "status": "partial",
   "theorems": [
    "Verif.Solver.C77_shown_equations_follow",
    "Verif.Solver.C77_solutions_exact_partial",
    "Verif.Solver.C77_shown_violation",
    "Verif.Solver.C77_second_violation"
   ],
   "note": "Proved for every run: the printed equations follow from the robot's. Proved for runs that solve nothing twice and solutions that do not contain their own unknown: the solutions are exactly those of equations that follow from the robot's, and these are the printed first one or the printed pair, but for one combination of methods. False of the code in general: a run whose printed pair has a root that is no solution (the pair mixes two solvers), and a run that prints a second equation that was never used."
  },
  {
   "property": "C78",
   "status": "partial",
   "theorems": [
    "Verif.Main.C78_equations",
    "Verif.Main.C78_no_configuration_lost",
    "Verif.Main.C78_every_joint_vector",
    "Verif.Main.C78_row_partial",
    "Verif.Main.C78_some_row_reaches_partial",
    "Verif.Main.C78_first_row_violation",
    "Verif.Main.C78_first_row_iff",
    "Verif.Main.planar_meets"
   ],
   "note": "Composition of the models of forward kinematics, matrix equations, sum-of-angles transform and solver tree. C78_equations, C78_no_configuration_lost and C78_every_joint_vector are full; the statements about the table rows are for runs in which nothing was solved twice and no unknown is in its own solutions (the code can violate both, C41, C19), and only some row is shown to reach the pose (C53_spurious_row_violation). C78_first_row_violation: an arm without a variable in its first DH row, or with only that variable, ends in an exception."
  },
  {
   "property": "C79",
   "status": "partial",
   "theorems": [
    "Verif.Main.C79_first_run",
    "Verif.Main.C79_every_run_partial",
    "Verif.Main.C79_described_table",
    "Verif.Main.C79_second_run_violation",
    "Verif.Main.C79_stale_values_violation",
    "Verif.Main.C79_raven_violation",
    "Verif.Main.C79_planar_violation",
    "Verif.Main.proper_raven",
    "Verif.Main.proper_twoArm"
   ],
   "note": "Full for the first run (C79_first_run) and, for arms with right-angled twists, for every history in which the description of that name did not change (C79_every_run_partial). The code violates the rest: with any other twist angle in the pose the second run writes a program that raises NameError for all joint values (C79_second_run_violation; C79_raven_violation for Raven-II, the script's default robot), and changed parameter values are not noticed (C79_stale_values_violation, C79_planar_violation)."
  },
  {
   "property": "C80",
   "status": "proved",
   "theorems": [
    "Verif.Main.C80_python",
    "Verif.Main.C80_python_imports",
    "Verif.Main.C80_cpp",
    "Verif.Main.C80_target",
    "Verif.Main.C80_parameter_violation"
   ],
   "note": "Read back from the text of the files with small independent readers (pyAssign, cppInit, declares, assigns). C80_parameter_violation shows that the condition on the names is needed: a parameter named Px replaces the entry of the target."
  },
  {
   "property": "C81",
   "status": "partial",
   "theorems": [
    "Verif.BT.C81_transparent",
    "Verif.BT.C81_log_exact",
    "Verif.BT.C81_log_all",
    "Verif.BT.C81_log_counts",
    "Verif.BT.C81_success_only",
    "Verif.BT.C81_crash_prefix",
    "Verif.BT.C81_no_file",
    "Verif.BT.C81_no_file_violation"
   ],
   "note": "Proved for trees that have a log file. The full claim is false of the code: log_file is None until the user sets it, and with log_flag > 0 the first line then aborts the tick (C81_no_file, for every history; C81_no_file_violation). The exact lines and their order are proved for all trees, leaves (RUNNING included), clocks and states (C81_log_all, against the rules of RunSpec.lean, which are deterministic: C08_trace_unique)."
  },
  {
   "property": "C82",
   "status": "partial",
   "theorems": [
    "Verif.Imports.C82_imports_succeed",
    "Verif.Imports.C82_names_found_partial",
    "Verif.Imports.C82_wrong_entry_violation",
    "Verif.Imports.C82_set_solved_violation",
    "Verif.Imports.C82_same_meaning",
    "Verif.Imports.C82_meaning",
    "Verif.Imports.C82_programs",
    "Verif.Imports.C82_package_star"
   ],
   "note": "The imports themselves always succeed (C82_imports_succeed). The names are found, with one meaning, exactly if the first of the four circular modules that a program imports is kin_cl (C82_names_found_partial, C82_same_meaning, C82_meaning), which is so for every program and leaf of the library (C82_programs). The full claim is false of the code: a program that first imports solutionGraphV3, matching or ik_classes (as solChecker.py does), or the package with * in an order that lists one of them first, gets a kin_cl without get_deps, Node and Edge, so that recording a solution raises NameError (C82_wrong_entry_violation, C82_set_solved_violation, C82_package_star). Which names a function uses and which statements a module executes is read off the source by tools/gen_imports.py (generated table ImportData.lean), and CPython's import rules (3.7 or later) are part of the trusted base."
  },
  {
   "property": "C83",
   "status": "proved",
   "theorems": [
    "Verif.BT.Board.C83_tick",
    "Verif.BT.Board.C83_alone",
    "Verif.BT.Board.C83_alone_new",
    "Verif.BT.Board.C83_other_trees",
    "Verif.BT.Board.C83_published",
    "Verif.BT.Board.C83_mem_is_get",
    "Verif.BT.Board.C83_treeMem_is_get",
    "Verif.BT.Board.C83_shared_statistics"
   ],
   "note": "The engine is modelled once more, now making the calls of blackboard.py that the source makes, with the scopes it passes. C83_alone: for every history of calls, the outcomes of the calls of one tree are those of the one-tree engine of BT/Model started with the memory that the blackboard holds for this tree and called in the same worlds; C83_alone_new: on a new blackboard that memory is empty. C83_tick: one tick agrees with the one-tree engine on everything, TotalCost, statistics and log included, and the blackboard raises nothing. C83_other_trees and C83_published: what is written where. Assumed of leaves and clock: they use the global scope only and not its key TotalCost (true of the leaves of this repository)."
  },
  {
   "property": "C84",
   "status": "partial",
   "theorems": [
    "Verif.BT.C84_next_ticks_fresh_partial",
    "Verif.BT.C84_open_path",
    "Verif.BT.C84_same_engine",
    "Verif.BT.C84_maxTime_violation",
    "Verif.BT.C84_left_open_violation"
   ],
   "note": "C84_next_ticks_fresh_partial: for every tree without MaxTime nodes (ids may be shared, but not between a node with a counter and one without) every tick of every history with exceptions equals the first tick of a new tree. C84_open_path: the nodes left open are exactly a path to the root. C84_same_engine: this engine and that of BT/Model agree. The code violates the full statement: MaxTime keeps the start time of the tick that raised (C84_maxTime_violation), and nodes left open stay open after later ticks that return (C84_left_open_violation)."
  },
  {
   "property": "C85",
   "status": "partial",
   "theorems": [
    "Verif.Main.Disk.C85_one_file_torn",
    "Verif.Main.Disk.C85_templates",
    "Verif.Main.Disk.C85_other_robots_partial",
    "Verif.Main.Disk.C85_offered_robots",
    "Verif.Main.Disk.C85_rerun_partial",
    "Verif.Main.Disk.C85_damaged_pickle",
    "Verif.Main.Disk.C85_file_names",
    "Verif.Main.Disk.C85_complete",
    "Verif.Main.Disk.C85_complete_fk",
    "Verif.Main.Disk.C85_other_description",
    "Verif.Main.Disk.C85_exceptions",
    "Verif.Main.Disk.C85_forward_kin2",
    "Verif.Main.Disk.C85_three_programs",
    "Verif.Main.Disk.C85_three_programs_robots",
    "Verif.Main.Disk.C85_lost_file_violation",
    "Verif.Main.Disk.C85_rerun_violation",
    "Verif.Main.Disk.C85_damaged_pickle_violation",
    "Verif.Main.Disk.C85_test_name_violation"
   ],
   "note": "C85_one_file_torn, C85_templates: proved without conditions. C85_other_robots_partial: names must also differ without the text 'test: '; true of all robots in ik_robots.py (C85_offered_robots). C85_rerun_partial: if the pickle is not cut off and the robot had a pickle or forward_kinematics adds no parameters. The code violates the rest of the statement: a kill while the pickle is written blocks the robot for ever (C85_damaged_pickle, C85_damaged_pickle_violation), a rerun after a kill loses the parameters that forward_kinematics adds (C85_rerun_violation), output files are truncated before their text is made, so that a kill loses the old program too (C85_lost_file_violation), and names that differ in 'test: ' only share their programs (C85_test_name_violation). C85_three_programs: histories that also run forward_kin2.py are like histories of the two programs in which some runs are killed, so all of this holds for the three programs. C85_complete and C85_exceptions say what is on disk after runs that are not killed."
  },
  {
   "property": "C86",
   "status": "partial",
   "theorems": [
    "Verif.Main.Disk.C86_alone",
    "Verif.Main.Disk.C86_apart",
    "Verif.Main.Disk.C86_same_command_partial",
    "Verif.Main.Disk.C86_first_runs_partial",
    "Verif.Main.Disk.C86_all_partial",
    "Verif.Main.Disk.C86_unwritten",
    "Verif.Main.Disk.C86_three_programs",
    "Verif.Main.Disk.C86_forward_kin2_alone",
    "Verif.Main.Disk.C86_first_runs_violation",
    "Verif.Main.Disk.C86_mixed_program_violation"
   ],
   "note": "C86_alone: a process alone passes exactly the disks of the runs of C85 and ends. C86_apart: non-interference for every schedule. C86_same_command_partial, C86_all_partial: the same command any number of times, with others, for a robot that has its pickle. C86_first_runs_partial: the same without a pickle, if what is dumped is loaded, a pickle that is incomplete or has holes (two processes write it) is not, and the forward kinematics adds no parameters; some of the processes may end with an exception. C86_three_programs: the same for processes of forward_kin2.py. The code violates the rest: two first runs for a robot, where one reads the pickle the other has just opened and ends with an exception (C86_first_runs_violation); robots whose names differ in 'test: ' only get mixed programs (C86_mixed_program_violation)."
  },
  {
   "property": "C87",
   "status": "partial",
   "theorems": [
    "Verif.Solver.C87_only_counter",
    "Verif.Solver.C87_new_board_partial",
    "Verif.Solver.C87_large_counter",
    "Verif.Solver.C87_guarantees",
    "Verif.Solver.C87_determined_partial",
    "Verif.Solver.C87_old_board_violation",
    "Verif.Solver.C58_six_partial"
   ],
   "note": "C87_only_counter: whatever went before, the result of a run depends on the past only through the key 'counter' of its blackboard; with a new blackboard it is that of a process of its own (C87_new_board_partial). With an old one, the guarantees of single runs still hold (C87_guarantees; all theorems over 'solve \u2026 counter' of C16-C20, C45, C51, C58, C62, C76, C77 hold for any counter), and determined robots of at most six unknowns are solved (C87_determined_partial). The code violates the rest: the counter left by an earlier robot changes the order in which unknowns are solved, and with it solutions and poses (C87_old_board_violation)."
  },
  {
   "property": "C88",
   "status": "partial",
   "theorems": [
    "Verif.Kin.C88_frame_velocities",
    "Verif.Kin.C88_column",
    "Verif.Kin.C88_jacobian",
    "Verif.Kin.C88_script_violation"
   ],
   "note": "Proved for the library in full (C88_frame_velocities, C88_column, C88_jacobian). The script violates the claim: it passes the joint positions th_1, th_2, th_3 instead of the rates, and its robot has no th_1, so that the first column it prints is zero at every pose (C88_script_violation)."
  }
 ]
}