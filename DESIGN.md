# Formal model of IKBT in Lean 4 — design

Everything under `lean/Verif/` is a shallow, executable model of the Python in `/repo`, function by function; each definition cites
the file and lines it models and says where it simplifies. `properties.jsonl` lists the properties, `MANIFEST.json` the theorems for
each, `seeded/LOG.jsonl` the wrong programs the theorems were tested against. This file is generated by `tools/gen_design.py` from
`tools/design_notes.py` (prose) and the two lists.

## 1. Method

* **Code as functions.** Each Python function or method becomes a total Lean function on explicit state; exceptions, `quit()` and
  failed assertions are values of `Except`/`Option`; `while` loops without a bound take fuel, and the theorems either hold for every
  fuel or show that the fuel does not matter. Objects that the code compares by name are identified by that name.
* **What is not ours is a parameter.** The behaviour of the leaves (in the engine), the clock, sympy, the order in which Python
  enumerates a set, the result of the (expensive) symbolic forward kinematics: universally quantified parameters with the weakest
  hypotheses under which the claim makes sense.
* **Independent specifications.** The engine is compared with big-step rules without bookkeeping (`BT/Spec`); the blackboard with a
  flat map; kinematics with products of matrices and `HasDerivAt`; solvers with the set of real roots of the equations; generated
  text with the value its parse denotes.
* **Negative results are theorems.** When the code does not do what the property says, a theorem named `…_violation` exhibits a
  concrete input and what the modelled code does on it; the strongest true part is a theorem named `…_partial`, with a comment saying
  what is missing.
* **Non-vacuity.** Beside each theorem with hypotheses there is an `example` that meets them with a concrete non-trivial case.

## 2. Layout

| module | models | properties |
|---|---|---|
| `BT/Model`, `BT/Spec`, `BT/Lemmas`, `BT/Forward`, `BT/Complete`, `BT/Den`, `BT/General`, `BT/Laws`, `BT/Bound`, `BT/Props`, `BT/CostProps`, `BT/RunSpec`, `BT/RunProps`, `BT/RunClaims`, `BT/RunBound`, `BT/RunOpen`, `BT/RunComplete` | b3 engine: `_execute`, composites, decorators, tick | C01–C10, C12, C14, C15 |
| `BT/Blackboard`, `BT/BlackboardProps` | blackboard dictionaries | C11 |
| `BT/Board`, `BT/BoardProps`, `BT/BoardClaims` | the b3 engine on the real blackboard, several trees | C83 |
| `BT/Crash`, `BT/CrashProps`, `BT/CrashClaims` | the b3 engine when ticks raise: what is left behind | C84 |
| `Main/Disk`, `Main/DiskProps`, `Main/DiskClaims` | the file operations of `ikSolver.py` and `fkOnly.py`, with kills and exceptions | C85 |
| `Main/Parallel`, `Main/ParallelProps`, `Main/ParallelSame`, `Main/ParallelClaims`, `Main/ParallelFirst` | the same, several processes at the same time | C86 |
| `Main/ThirdProgram` | forward_kin2.py, the third program that uses the pickles | C85, C86 |
| `Solver/Session` | several robots in one process, with new or reused blackboards | C87 |
| `BT/MemXrange` | MemSequence, MemPriority where `xrange` is defined | C12 |
| `Main/Exits` | the early exits of `Robot.__init__`, exactly | C78 |
| `BT/DumpLoad`, `BT/DumpLoadProps` | `BehaviorTree.dump/load` | C13 |
| `Sym/Expr`, `Sym/Eval` | expression trees, occurrence, substitution, real value | all below |
| `Sol/Versions*`, `Sol/SetSolved*`, `Sol/EndToEnd` | `create_solution_set`, `make_LHS_versions`, `set_solved`, solution graph | C16–C20 |
| `Sol/Matching*` | `matching.py` | C50 |
| `Eqn/*` | `count_unknowns` …, `scan_for_equations`, `scan_Mequation`, `erank`, `updateL`, equality of equations | C21–C25 |
| `Kin/Model`, `Kin/Props`, `Kin/Velocity` | DH links, inverse, matrix equations, forward kinematics, velocity recursion, rotations, `wrap_angle_N` | C26–C32 |
| `Kin/Padding`, `Kin/Frames` | empty rows, Jacobian columns; velocities and Jacobians of all frames, fk_EE543.py | C75, C88 |
| `Kin/Soa*` | `notation_squeeze`, sum-of-angles substitution | C33 |
| `Leaf/*` | the leaves of the solver tree (identification, solvers, rank, transforms) and their mathematics over ℝ | C34–C40, C44 |
| `Solver/*` | the tree of `ikSolver.py` over these leaves, run by the engine of `BT/Model` | C16–C20 (runs), C41–C45, C51 |
| `Out/*` | code generators, pickle cache, robot table | C46–C49, C52 |

## 3. Property by property

For each property: what is modelled, how it is proved, and where code and claim disagree. "Violation" theorems are proved counterexamples of the claim in the model of the code; a `_partial` theorem proves the part that is true.

### C01 — Sequence stops at the first child that does not succeed (proved)

Modelled: `Sequence.tick` inside `_execute`, any children (as functions on the state), RUNNING and ERROR included. Statement: the children form a `Chain` (executed left to right, each in the state the previous one left) and the statuses are SUCCESS except possibly the last. Induction over the child list; the exception case separately.

*Theorems.* `C01_sequence`, `C01_sequence_exception`

### C02 — Priority stops at the first child that does not fail (proved)

As C01 for `Priority.tick`.

*Theorems.* `C02_priority`, `C02_priority_exception`

### C03 — OrNode runs every child and succeeds iff one of them did (partial)

`OrNode.tick`: exact law for all statuses, from it the claim for children that return SUCCESS/FAILURE, and a counterexample for ERROR.

*Result.* False of the code for children returning RUNNING or ERROR (counted as success); proved for SUCCESS/FAILURE children, and the exact behaviour for all statuses.

*Theorems.* `C03_orNode_general`, `C03_orNode_partial`, `C03_orNode_error_violation`

### C04 — RepeatUntilSuccess retries a failing child at most max_loop times (proved)

`RepeatUntilSuccess.tick`: the `while` loop with the counter read from and written to the blackboard. Statement with `Iter` (the same child executed again and again). Induction over the loop bound; for negative bounds for every fuel.

*Theorems.* `C04_repeatUntilSuccess`, `C04_repeatUntilSuccess_unbounded`

### C05 — Repeater and RepeatUntilFailure obey their bound and return the last child status (partial)

As C04 for the other two repeat decorators; the `UnboundLocalError` of a zero bound is a value of the model.

*Result.* Everything but "never raises": with bound 0 RepeatUntilSuccess/Failure raise UnboundLocalError (proved).

*Theorems.* `C05_repeatUntilFailure`, `C05_repeater`, `C05_no_raise_partial`, `C05_zero_bound_raises`

### C06 — Inverter swaps SUCCESS and FAILURE and nothing else (proved)

Direct from the inversion of `_execute`.

*Theorems.* `C06_inverter`, `C06_inverter_twice`

### C07 — A tick that ends with no RUNNING node leaves no node open (proved)

The engine (open flags, stack, counters, fuel) refines the memory-less big-step semantics `Big` in both directions (`C07_engine_refines_spec`, `C07_spec_is_executed`), by mutual induction over trees; consequently flags are clear after any history of ticks and a tick does not depend on the history. For leaves that never return RUNNING.

*Theorems.* `C07_engine_refines_spec`, `C07_spec_is_executed`, `C07_closed_after_ticks`, `C07_tick_independent_of_history`

### C08 — Node statistics are consistent (proved)

Counters against the trace of completed executions; monotonicity for all leaves by a relational induction (`Stable` relations over `exec`).

*Theorems.* `C08_counters_step`, `C08_success_le_ticks`, `C08_counters_exact`, `C08_counters_all`, `C08_node_count`, `C08_trace_unique`, `C08_rules_iff_engine`, `C08_no_pop_from_empty`

### C09 — TotalCost is the summed cost of the leaves that ran (partial)

All bookkeeping of `Cost` in `_tick` and the composites. The exact law is proved for every tree of distinct node objects by an induction that tracks, per execution, `Cost`, `N_ticks_all` and `TotalCost` (`Bill`).

*Result.* False of the code: a leaf is charged once more per composite above it, up to the nearest decorator. C09_totalCost_exact gives the exact formula for every tree of distinct nodes; the English claim holds only without composites (C09_no_composite_partial).

*Theorems.* `C09_totalCost_violation`, `C09_nested_violation`, `C09_totalCost_exact`, `C09_composite_cost_exact`, `C09_no_composite_partial`, `C09_leaf_charged_once_partial`, `C09_sequence_charges_twice`

### C10 — Limiter stops executing its child after max_loop completed executions (partial)

Histories of ticks of a Limiter (`ticks`), using C07.

*Result.* False of the code for every positive bound: the counter is reset whenever the node closes.

*Theorems.* `C10_limiter_never_limits`, `C10_limiter_counts`, `C10_limiter_nonpositive_partial`

### C11 — Blackboard scopes are isolated and reads return the last write (partial)

`blackboard.py` as nested partial maps; refinement to a flat map by induction over operation lists.

*Result.* Proved for all histories avoiding the tree-scope keys node_memory and open_nodes, for which it is false of the code.

*Theorems.* `C11_blackboard_flat_partial`, `C11_read_returns_last_write_partial`, `C11_flat_read_own_write`, `C11_flat_isolated`, `C11_node_memory_violation`, `C11_open_nodes_violation`, `C11_node_memory_read_violation`, `C11_float_increment_quits`

### C12 — MemSequence and MemPriority resume at the running child (partial)

Under Python 3 `xrange` is undefined: the model raises `nameError`, which is proved to be what always happens. BT/MemXrange models the same two classes where the name is defined (a second `execX`, equal to `exec` on trees without them), with a specification of resuming; the memory of a node is framed by induction over trees.

*Result.* False of the code under Python 3: xrange is undefined, every execution raises. Where xrange is defined (Python 2, or a program that sets builtins.xrange), the claim is proved in full for both classes: for all children, leaves and histories of ticks (C12_xrange_*).

*Theorems.* `C12_mem_composites_raise`, `C12_no_mem_no_nameError_partial`, `C12_xrange_memSequence_partial`, `C12_xrange_memPriority_partial`, `C12_xrange_resumes`, `C12_xrange_memory`, `C12_xrange_plain`, `C12_xrange_otherwise`

### C13 — load inverts dump (partial)

`dump` and `load` as operations on a node table; mirror image by induction over the tree.

*Result.* False of the code: dump lists children in reverse order and load cannot construct decorators with arguments; proved: load(dump t) is the mirror image of t.

*Theorems.* `C13_load_dump_mirror_partial`, `C13_plain_trees_partial`, `C13_load_dump_only_symmetric`, `C13_double_round_trip_partial`, `C13_parametrised_decorator_violation`, `C13_order_violation`

### C14 — A tick of a tree without unbounded repeaters terminates (proved)

Fuel is shown irrelevant for trees whose repeat bounds are non-negative; executions are bounded by the product of the bounds.

*Theorems.* `C14_bounded_tick_terminates`, `C14_executions_bounded`, `C14_executions_all`, `C14_unbounded_diverges`, `C45_bounded`

### C15 — MaxTime fails a child that takes longer than max_time (partial)

The clock is part of the environment; reading it may advance the world.

*Result.* False of the code: the clock is read before the child runs.

*Theorems.* `C15_maxTime_violation`, `C15_maxTime_partial`

### C16 — The solution set lists every combination of solution branches exactly once (partial)

`create_solution_set` on columns of names; specification: all choice functions. Induction over the columns.

*Result.* Proved when every unknown after the first has 1 or 2 solutions; false of the code for 3 or more (2^(n-1) rows instead of n).

*Theorems.* `C16_solution_table_partial`, `C16_rows_distinct_partial`, `C16_end_to_end_partial`, `C16_row_count`, `C16_three_solutions_violation`, `C16_solver_partial`

### C17 — Every solution vector assigns every solved unknown, in solving order (proved)

As C16 and, end to end, for the nodes that `set_solved` has recorded.

*Result.* The last clause (reading left to right) is about histories in which no unknown is solved twice or occurs in its own solution; otherwise it is false (C19).

*Theorems.* `C17_rows_labelled`, `C17_end_to_end`, `C17_reads_left`

### C18 — The versioned equations define each version of each unknown from earlier ones (partial)

`make_LHS_versions` with its indices and `IndexError`.

*Result.* False of the code: the solution is chosen by row modulo the number of solutions of the last unknown.

*Theorems.* `C18_equations_exact`, `C18_defined_before_use_partial`, `C18_all_solutions_used_partial`, `C18_last_single_drops_branches`, `C18_index_error_violation`, `C18_first_unknown_violation`, `C18_subs_order`, `C18_subs_order_violation`

### C19 — set_solved records a well-founded solution order (partial)

`set_solved` and `get_deps` as operations on unknowns, nodes and edges; invariants over all histories.

*Result.* Proved for histories where each unknown is solved once and not in terms of itself; the code checks neither.

*Theorems.* `C19_orders`, `C19_dependencies_partial`, `C19_acyclic_partial`, `C19_unsolved_dependency_raises`, `C19_self_dependency_violation`, `C19_resolve_violation`, `C19_empty_solutions_marks_solved`, `C19_solver_partial`

### C20 — The number of versions of an unknown is the number of ways to instantiate its solutions (partial)

The formula of the code against the number of instantiations defined by recursion over dependencies.

*Result.* False of the code for chains of dependencies: it multiplies numbers of solutions, not of versions.

*Theorems.* `C20_versions_formula`, `C20_versions_partial`, `C20_version_names`, `C20_chain_violation`, `C20_solver_partial`

### C21 — Equation lists are sorted by number of unsolved unknowns (partial)

Three lists, count of unknowns per side, `not in` with `kequation.__eq__`; sympy equality is a parameter that is reflexive.

*Result.* Proved for equations without an unknown on both sides; such an unknown is counted twice by the code.

*Theorems.* `C21_scan_general`, `C21_scan_partial`, `C21_scan_mequation`, `C21_both_sides_violation`

### C22 — Ranking equations reorders without losing or inventing any (proved)

The bucket sort of `erank`: permutation, sortedness, stability.

*Theorems.* `C22_erank_perm`, `C22_erank_sorted`, `C22_erank_stable`

### C23 — Equal equations are found equal regardless of how they are used in lists or sets (partial)

`kequation.__eq__`, `__hash__` and Python list/set membership.

*Result.* The hash contract is false of the code (1 and 1.0); everything else is proved.

*Theorems.* `C23_eq_iff`, `C23_equivalence`, `C23_list_membership`, `C23_hash_partial`, `C23_hash_violation`

### C24 — The variable counting helpers agree with the variables that occur (proved)

`count_unknowns`, `get_unknowns`, `get_variables`, `find_obj`, `get_deps` against syntactic occurrence.

*Result.* count_unknowns for lists without repeated unknowns; a repeated unknown is counted twice (proved).

*Theorems.* `C24_count_unknowns`, `C24_get_unknowns`, `C24_get_variables`, `C24_find_obj`, `C24_repeated_unknown_counted_twice`, `C24_get_deps`

### C25 — updateL keeps every equation available and classified by its current number of unknowns (partial)

The leaf `updateL` after `scan_for_equations`.

*Result.* False of the code for auxiliary equations with four unknowns (three-way sums of angles), which are dropped.

*Theorems.* `C25_updateL_partial`, `C25_three_way_sum_violation`

### C26 — A link transform is a rigid motion with the modified DH form (proved)

Link transforms as real 4×4 matrices; product of the four elementary modified-DH motions.

*Theorems.* `C26_link_factors`, `C26_link_rigid`, `C26_linkCS_rigid`, `C26_link_zero`

### C27 — The symbolic inverse is the inverse (proved)

`H_inv`-style inverse; rigid motions.

*Theorems.* `C27_inverse`, `C27_inverse_cancels`

### C28 — All generated matrix equations follow from the forward kinematics and imply it (proved)

The set of matrix equations generated from the links, as real matrices: each is equivalent to the forward kinematics equation.

*Theorems.* `C28_equations_equivalent`, `C28_target`

### C29 — The forward kinematics is a rigid transform and the product of the link transforms (proved)

The product of the links.

*Theorems.* `C29_forward_kinematics`

### C30 — The velocity recursion gives the true end-effector velocity (proved)

The velocity recursion against `HasDerivAt` of the forward kinematics along any differentiable joint trajectory; the Jacobian from it.

*Theorems.* `C30_velocity_recursion`, `C30_jacobian`

### C31 — The elementary rotation matrices are rotations and RPY composes them (proved)

Elementary rotations and RPY as matrices.

*Theorems.* `C31_rotations`, `C31_additive`, `C31_axes`, `C31_rpy`, `C31_trans`

### C32 — wrap_angle_N brings any angle into the principal range without changing it modulo 2*pi (partial)

`wrap_angle_N` over ℝ.

*Result.* The code makes at most one turn: the range is only reached for angles within 3*pi; congruence modulo 2*pi always.

*Theorems.* `C32_wrap_partial`, `C32_wrap_congruent`, `C32_wrap_violation`, `C32_approx`

### C33 — notation_squeeze/sum-of-angle substitutions preserve the value of every expression (partial)

`notation_squeeze` symbol by symbol; `sum_of_angles_transform` as a state machine over variables, auxiliary equations and matrix entries, with sympy's `find`, `subs`, `simplify` as parameters.

*Result.* notation_squeeze: proved. Sum of angles: proved for runs that complete on joint variables named th_<index>; stale found2/found3 flags, summands that are no joint variable and double registration are shown as violations. sympy find/subs/simplify are parameters.

*Theorems.* `C33_squeeze`, `C33_squeeze_every_joint_vector`, `C33_sum_of_angles_partial`, `C33_other_summand_raises`, `C33_stale_flag_violation`, `C33_registered_twice_violation`

### C34 — Every solution of the linear (algebra) solver satisfies its equation, and no other does (proved)

Identification leaf and solver leaf ticked one after the other; the solution recorded denotes exactly the real roots of the equation, relative to `Sympy.Sound` (section 4) and wherever the divisor is non-zero.

*Result.* Relative to Sympy.Sound (sympy transformations keep values, match decomposes correctly) wherever the divisor is not zero.

*Theorems.* `C34_algebra`

### C35 — arcsin/arccos solutions are sound and complete modulo 2*pi (proved)

As C34, modulo 2π; completeness by the inverse trigonometric functions of Mathlib (`Leaf/Math`).

*Result.* Relative to Sympy.Sound wherever the coefficient is not zero.

*Theorems.* `C35_sincos`

### C36 — atan2 solutions are sound and complete modulo 2*pi (proved)

As C35 for `atan2` (`Complex.arg`).

*Result.* Relative to Sympy.Sound wherever the coefficients are not zero; two-answer form: soundness for coefficients of period 2*pi.

*Theorems.* `C36_tan`

### C37 — A*sin(u)+B*cos(u)=C solutions are sound and complete modulo 2*pi (partial)

As C35 for A sin u + B cos u = C.

*Result.* Soundness only if the coefficients read off do not contain the unknown, which the code does not check (violation proved); completeness always.

*Theorems.* `C37_sinANDcos_partial`, `C37_violation`

### C38 — The simultaneous-equation solution is sound and complete modulo 2*pi (partial)

As C35 for the pair of simultaneous equations.

*Result.* Soundness only if coefficients and rests do not contain the unknown, which the code does not check (violation proved); completeness always.

*Theorems.* `C38_simultaneous_partial`, `C38_violation`

### C39 — The x2z2 transform produces consequences of the equations it squares (proved)

`x2y2_transform`: consequences of pairs of equations, with the sums of angles read as defined.

*Result.* Relative to Sympy.Sound; the joint vector is read with the sums of angles th_12 = th_1+th_2 and so on. The number of unsolved unknowns of the new equation is 1 (from pairs of two-unknown equations).

*Theorems.* `C39_x2z2`, `C39_x2z2_otherwise`

### C40 — Substituting matrix elements into each other keeps the solution set (partial)

`sub_transform` over all pairs of entries, sequentially, as in the code.

*Result.* Consequence and unknown count: always. Equivalence: when subs replaces subtrees and the left sides contain no unsolved unknowns; false with the flat sums of sympy (violation proved: an entry is substituted into itself and an equation is lost).

*Theorems.* `C40_consequence_partial`, `C40_equivalent_partial`, `C40_violation`

### C41 — Solved unknowns stay solved and each is recorded in the solution graph exactly once (partial)

Invariants over every run of the solver tree.

*Result.* Solved unknowns stay solved; node iff solved; one node and unchanged record for all unknowns except the first one of the list when the tangent method was found for it, which the code solves again (violation proved on a full run of the tree).

*Theorems.* `C41_solved_forever`, `C41_history_partial`, `C41_nodup_partial`, `C41_resolve_violation`

### C42 — The assigner offers every unsolved unknown in turn (partial)

The leaf `assigner` with its counter.

*Result.* Every unsolved unknown is handed out in each window of k+1 ticks, in order; at the wrap the first unknown is handed out even if solved, and twice in a row if not (violations proved).

*Theorems.* `C42_round_partial`, `C42_no_starvation`, `C42_solved_violation`, `C42_twice_violation`

### C43 — Completion is reported exactly when everything is solved (proved)

The leaf `comp_det`.

*Theorems.* `C43_completion`

### C44 — rank picks the candidate with fewer solutions, then the simpler one (proved)

The leaf `rank`.

*Theorems.* `C44_rank`, `C44_subtree`

### C45 — The solver reports success only when all joints are solved (proved)

The whole tree of `ikSolver.py` run by the engine model; reduction of the tree to a composition of leaf functions (`Solver/Basic`), then induction over the repeat bound.

*Theorems.* `C45_success_iff_all_solved`, `C45_only_leaf_exceptions`, `C45_bounded`

### C46 — The generated C++ computes the same value as the symbolic solution (partial)

The two regular-expression substitutions of `cpp_output.line` on text; a grammar of printed expressions, parsing, and the value of the text.

*Result.* A text has at most one reading (C46_unambiguous, by a recursive descent parser), so values of texts are well defined. The rewriting of x**2 and the C++ text denote the same value for the stated expressions; violations proved for powers of other shapes, denominators, integer division and function names.

*Theorems.* `C46_line_partial`, `C46_text_partial`, `C46_unambiguous`, `C46_one_value`, `C46_text_violation`, `C46_unchanged`, `C46_denominator_violation`, `C46_acos_violation`, `C46_nested_violation`, `C46_power_violation`, `C46_int_division_violation`

### C47 — Generated code has balanced blocks and assigns every solved unknown (partial)

The emitted lines of both generators as data, per solve method.

*Result.* Braces: always balanced. One assignment per unknown and row only for methods with exactly one case; the first unknown is never assigned under the name the packing uses (violation proved for every solution).

*Theorems.* `C47_balanced`, `C47_indentation`, `C47_layout`, `C47_cpp_count`, `C47_cpp_once_partial`, `C47_sinANDcos_violation`, `C47_twice_violation`, `C47_arccos_violation`, `C47_columns`, `C47_packing`, `C47_first_unknown_violation`, `C47_first_unknown_used`, `C47_python_count`, `C47_python_none_violation`, `C47_python_twice_violation`, `C47_cpp_packed`, `C47_python_once_partial`, `C47_solver_violation`

### C48 — A cached forward kinematics is only used for the DH table it was computed from (partial)

Histories of runs (create, load, check, crash while writing) over files; the kinematics function is a parameter.

*Result.* The check compares DH table, unknowns and parameters only; joint types are not compared (violation proved).

*Theorems.* `C48_kinematics_partial`, `C48_same_description`, `C48_changed_table`, `C48_joint_type_violation`, `C48_lost_parameter_violation`, `C48_idempotent`, `C48_crash_violation`

### C49 — Every robot offered by name is defined (partial)

The table generated from the source text by `tools/gen_robots.py`; acceptance by name.

*Result.* The set of accepted names and of defined names differ (violations proved).

*Theorems.* `C49_names_partial`, `C49_undefined_violation`, `C49_refused_violation`, `C49_reachable`, `C49_minidd_violation`, `C49_velocity_reads`, `C49_undeclared_violation`, `C49_defined_once`, `C49_last_joint`, `C49_one_joint_violation`

### C50 — matching_func groups solution notations into complete, conflict-free poses (partial)

`matching.py` complete; the order in which Python enumerates a set is a universally quantified permutation.

*Result.* False of the code in four ways (misspelt variable, root conflicts unchecked, only the first completion kept, groups accepted by length). Proved: merged groups always cover every unknown in order and use given notations only; they are poses when the first unknown has one solution and the subgroups overlap.

*Theorems.* `C50_groups_cover_partial`, `C50_poses_partial`, `C50_two_disjoint_groups_partial`, `C50_search_mem`, `C50_search_sorted`, `C50_empty`, `C50_countained_violation`, `C50_root_conflict_violation`, `C50_lost_pose_violation`, `C50_length_violation`, `C50_root_overlap_violation`

### C51 — No solution is lost: every joint vector that reaches the pose is among the computed solutions (proved)

Completeness of the whole tree: an invariant (`Good`) over runs that says that each equation list holds consequences of the robot's equations and each solved unknown has a solution with its true value.

*Result.* For every run and every sound sympy, at every assignment that satisfies the equations and at which no recorded divisor vanishes, every solved unknown has a solution with its value; the row of the table that combines them is unique (C51_row_partial: for runs that solve nothing twice).

*Theorems.* `C51_no_solution_lost`, `C51_row_partial`

### C52 — The generated Python function returns the solution list, or False exactly when a domain test fails (partial)

Running the generated Python: variables, domain tests, exceptions.

*Result.* A call that returns gives one vector per group with the values of the variables; but the generated function raises for every robot and pose, never returns False, and its domain test can test another value (violations proved).

*Theorems.* `C52_packing_partial`, `C52_vectors_partial`, `C52_domain_partial`, `C52_always_raises_violation`, `C52_never_false_violation`, `C52_guard_text_violation`, `C52_solver_violation`

### C53 — Every joint vector in the solution list reaches the pose (partial)

From C51 (a row with the true values exists) by induction over the solving order: an assignment that follows that row agrees with the true one up to full turns, and equations in which angles occur only in sines and cosines do not see full turns (`turns_sound`). Counterexample: a run with a spurious second arcsine branch.

*Result.* For every reachable non-singular pose at least one row of the table reaches it, however it is evaluated; other rows need not (violation proved on a run of the whole tree: each unknown is solved from one equation, the others are not consulted).

*Theorems.* `C53_some_row_reaches_partial`, `C53_spurious_row_violation`

### C54 — A tick publishes the nodes that are open (partial)

Induction over the tree: an execution pushes exactly the path of running nodes, changes open flags only of executed nodes, and execution is visible in the tick counters. Counterexamples by evaluation.

*Result.* The open flags: for every tree in which no node is its own descendant and every history, a node is open iff its last execution ended RUNNING (C54_open_iff_last_running). The published list: proved for trees without OrNode and MaxTime, per tick from any state, and as an equality for the first tick. Violated by OrNode (closes itself while a child runs) and by abandoned nodes (closing them is commented out; the stale start time of MaxTime makes the next run fail at once).

*Theorems.* `C54_open_iff_last_running`, `C54_open_nodes_partial`, `C54_first_tick_partial`, `C54_ornode_violation`, `C54_abandoned_violation`

### C55 — Wait answers RUNNING until its time has passed, then SUCCESS (proved)

Model of Wait as an execute with an open hook; the answers of n executions are related to the clock readings by the inductive specification Waits, by induction on n.

*Result.* For all clocks and histories; time is an integer in the model.

*Theorems.* `C55_wait`, `C55_wait_runs`

### C56 — prob() estimates a node's success rate and get_Utility() the success per cost (partial)

N_ticks is a field of the machine state that no step changes (invariant over exec, Stable); prob and utility are then constant. Rationals for floats.

*Result.* Violated for every tree and history: the counter N_ticks is never incremented (commented out), so prob() is 0.1 for ever; what is proved of the utility is that it orders nodes by cost alone.

*Theorems.* `C56_utility_partial`, `C56_estimate_violation`, `C56_blind_violation`

### C57 — An identifier succeeds exactly when there is an equation it can use (partial)

Each search loop is shown equivalent to 'first list member with the form', the form being written out in terms of sympy's answers; counterexamples by evaluation and by unfolding.

*Result.* Equivalences for all six identifiers (for sincos_id and tan_id under the hypothesis that they have not found anything for this unknown before). The full claim is false: sincos_id never looks a second time even if its solver failed, tan_id answers SUCCESS from memory, x2z2_transform only works for unknowns named th_2 and th_3.

*Theorems.* `C57_algebra`, `C57_algebra_otherwise`, `C57_sincos_partial`, `C57_sincos_otherwise`, `C57_tan_partial`, `C57_tan_otherwise`, `C57_sinANDcos`, `C57_sinANDcos_otherwise`, `C57_simu`, `C57_simu_otherwise`, `C57_simu_candidates`, `C57_squares`, `C57_tan_solves`, `C57_simu_solver`, `C57_sincos_once_violation`, `C57_tan_memory_violation`, `C57_squares_names_violation`

### C58 — The bounded loops are long enough (partial)

A potential function on the state at the start of each round (unsolved unknowns, position of the counter, whether the first unknown is solved) bounds the number of rounds still needed; the inner loop is analysed with C42's account of the assigner. Counterexamples by evaluation of the model with a small computer algebra system.

*Result.* Proved for at most six unknowns (with any counter left on the blackboard), and for seven if the first one has no tangent solution, for runs in which x2z2_transform found no equation (up to five of them for at most five unknowns) and which return. Both bounds are sharp: counterexamples with eight, and with seven and a tangent solution; more than ten unknowns are never solved.

*Theorems.* `C58_six_partial`, `C58_triangular_partial`, `C58_eight_violation`, `C58_tangent_first_violation`, `C58_more_than_ten_violation`

### C59 — The generated forward kinematics program computes the forward kinematics (partial)

Model of the generator as a function to a list of assignments, with a Python semantics that can raise NameError/SyntaxError. An invariant of the sum-of-angles transform gives the shape of the variable list; then the statements and their execution are computed by induction. The robot table is checked by evaluation (it is finite).

*Result.* Proved for all robots of the table but Wrist, whatever sums the transform adds. The code violates it for Wrist (variables A, B, C are not assigned), for two-character subscripts, for a second variable with the same digit, for sums listed before their angles, and for parameters without a value.

*Theorems.* `C59_every_robot_partial`, `C59_values_partial`, `C59_wrist_violation`, `C59_subscript_violation`, `C59_other_summand_violation`, `C59_order_violation`, `C59_missing_value_violation`

### C60 — What the output calls write does not depend on the history of calls (partial)

State machine with the four attributes that the calls read and write; a history is a list of calls. Invariant by induction on the history: FinalEqnMatrix is k copies of the table of versions and nversions its length, where k is the number of reports.

*Result.* Proved: what each call writes is determined by the number of reports made before it, and any history with exactly one report, made after the table, writes the intended output. The code violates the full statement: without a report the generated programs have no assignments; each further report appends a copy of the versions; a report before the table crashes.

*Theorems.* `C60_history`, `C60_table`, `C60_one_report_partial`, `C60_no_report_violation`, `C60_repeated_report_violation`, `C60_no_table_violation`

### C61 — The generated inverse kinematics program can be loaded by Python (partial)

Character-level model of the whole file, and an independent specification of Python's line structure (indentation stack, compound headers, def names, print statements). The file's shape is computed by induction on the solution graph.

*Result.* Exact characterisation: Python 2 accepts the line structure iff the robot has no parameters (they are printed at column 0 inside the function) and its name has no underscore (it is written LaTeX-escaped); Python 3 never accepts it because of the print statements of the test code.

*Theorems.* `C61_python2_iff`, `C61_python3_violation`, `C61_parameters_violation`

### C62 — The LaTeX report shows all of the solution (partial)

LatexSpec.lean is a character-level reader of LaTeX (stack of open groups, list of shown items); LatexModel.lean writes the sections as output_latex.py does. Each section is fed to the reader by induction on nodes, solutions, versions, rows; sections compose by feed_append. What sympy prints is an arbitrary text that may stand in a formula. The verbatim parts are given line by line (LatexVerbatim.lean). The link to the solver uses the invariants that every solved unknown has a method, a count and names.

*Result.* Proved for every report that is in order, against an independent reader of LaTeX characters; and from the solver: after every run in which nothing was solved twice etc. the report is in order. The edges of the solution graph and the solution sets, which stand in verbatim environments, are shown line by line in every report that is written. output_FK_equations without restriction. The code violates the full statement: an empty solution set raises IndexError; an unknown solved twice is listed twice and two of its solutions get the same name; a robot name with & or the like is not escaped.

*Theorems.* `C62_report_partial`, `C62_fk_report`, `C62_empty_violation`, `C62_count_violation`, `C62_name_violation`, `C62_edges_shown`, `C62_sets_shown`, `C62_solver_partial`, `C62_solved_has_method`, `C62_solutions_counted`, `C62_solutions_named_partial`, `C62_resolve_violation`

### C63 — Results do not depend on the iteration order of Python sets (partial)

The order of iteration is a parameter (a permutation chosen anew at each call). set_solved: the product of version counts and the set of edges are invariant under permutation. Generated programs: packing statements commute up to the order of rows. Sum of angles: an exact description of the unknowns added that does not mention the order. Violations by concrete runs.

*Result.* Proved: the state after every history of set_solved calls is the same up to the order of the edges; the generated Python returns the same vectors (or raises or refuses alike) and the C++ writes the same rows, up to order; the sum-of-angles step adds the same unknowns, under stated conditions on the finder of sums. The code violates the full statement: the order in which sum unknowns are appended follows a set, and the order of the unknowns decides which formulas the solver finds.

*Theorems.* `C63_set_solved`, `C63_soa_unknowns_partial`, `C63_soa_same_unknowns_partial`, `C63_order_violation`, `C63_double_violation`, `C63_python`, `C63_cpp`, `C63_text_violation`, `C63_solver_order_violation`

### C64 — The generated C++ writes only inside its array of solutions (partial)

From the list of statements of the program (cppCode): the elements assigned are read off by injectivity of the decimal notation; the sizes come from C16_solver_partial and the fact that the solver gives one or two solutions per unknown. Violation: a concrete successful run.

*Result.* Proved exactly: in bounds iff at most 64 rows and at most 6 names per row; after a run of the solver in which nothing was solved twice, iff at most 6 unknowns were solved (the number of rows then never exceeds 64). The code violates the full statement: with seven solved unknowns (six joints and a sum of angles is enough) it writes solution_list[0][6].

*Theorems.* `C64_bounds_iff`, `C64_solver_partial`, `C64_six_partial`, `C64_seven_violation`

### C65 — The generated C++ function assigns only variables that it declares, in complete statements (partial)

Model of all lines of the file (cppFile). A small reader (declares, assigns) works on printed lines; lemmas show what the rewriting of powers by cpp_output.line leaves unchanged. Exact sets of names by induction over nodes and rows; the violation follows from the labels of the table (C17) and the form of its equations (C18).

*Result.* The file is read back as text by an independent reader. Proved exactly which names are declared and which are assigned, and (without arcsine, arccosine and parameters) that all lines are complete. The code violates the statement for every robot: it assigns the versions xv1, xv2, ... of the unknown solved first but declares only its solution names xs1, ...; the line that sets argument has no semicolon; without solutions it declares 'doubl;'.

*Theorems.* `C65_same_assignments`, `C65_declared`, `C65_assigned`, `C65_declared_iff`, `C65_terminated_partial`, `C65_argument_violation`, `C65_empty_violation`, `C65_never_compiles_violation`, `C65_solver_violation`

### C66 — Numerical forward kinematics and numerical matrices agree with the symbolic ones (partial)

Expression-level model of the DH table, the constants for odd alphas, the link matrices and T_06; evaluation commutes with every step, so the result of forward_kinematics_N is the product of the numerical links for every valuation that respects the dictionaries.

*Result.* Proved for all DH tables and dictionaries, with sympy's simplification and substitution as assumptions (they keep values and add no symbols). The code violates the statement in three places: RPY4_N always raises IndexError, H_inv_N raises AttributeError for numpy matrices, and forward_kinematics_N raises for the values that forward_kinematics stored itself when some alpha is no multiple of 90 degrees.

*Theorems.* `C66_correct`, `C66_complete`, `C66_missing_value`, `C66_added_parameters`, `C66_own_values_violation`, `C66_numeric_agree`, `C66_trans`, `C66_rpy4S`, `C66_rpy4_violation`, `C66_hinv_violation`

### C67 — The short notation shows the same expression (partial)

The table of replacements as data, checked against an independent table of what each short name means; induction over the list of replacements and over expressions.

*Result.* The value is kept for every substitution that exchanges equals for equals; losslessness and completeness are proved for substitution as replacement of subterms, for expressions that use none of the 24 short names. Without that condition the statement is false (C67_name_clash_violation).

*Theorems.* `C67_value`, `C67_values_exist`, `C67_read_back`, `C67_injective`, `C67_shortened`, `C67_name_clash_violation`

### C68 — The Puma solutions of the checker script reach the pose they were computed from (partial)

Kin/Puma.lean transcribes the 38 assignments and eight rows of the script (generated from its text), with math.sqrt and division raising, the DH table, convert_to_degrees and verify_T_matrices; forward_kinematics_N is taken by its value (C66). Proof: the formulas solve the equations A cos + B sin = C also in the degenerate cases; the wrist is recovered from the third column and second row of a rotation. The violations are universal (every pose), with a concrete arm and pose for which the script computes rows.

*Result.* The positions are right up to the height d_1, and with the sign of th_5 changed and d_1 = 0 the claim is proved in full (sound, complete, and exactly where the script computes numbers). As it is the code violates it for every pose: the table of the repository has the opposite sign of th_5, d_1 is missing from the script's parameters (the program ends) and from its formulas, and deg is 6.28317531/360 instead of 2 pi/360.

*Theorems.* `C68_position_partial`, `C68_turned`, `C68_all`, `C68_returns`, `C68_rows_violation`, `C68_missing_violation`, `C68_degree_violation`, `C68_verify_violation`, `C68_checker_rows`, `C68_script_violation`

### C69 — The generated solutions of the Wrist give the orientation they were computed from (partial)

Kin/Wrist.lean transcribes ikin_Wrist, the DH table of the Wrist and the error loop of the test; numbers are exact reals, a division by zero is an error. Proof: polar form of atan2, the elements of a rotation (orthogonality and adjugate).

*Result.* Proved: the DH table is the matrix of the ZYX Euler angles; for every rigid pose with r_11 not 0 the two solutions are different, right and complete. The full statement is false: reachable poses with A a right angle (no singularity) have no solution, and the loop test compares no positions, so it prints zero errors for poses that no joint vector reaches.

*Theorems.* `C69_orientation_partial`, `C69_all`, `C69_returns_partial`, `C69_distinct`, `C69_position`, `C69_loop_errors`, `C69_right_angle_violation`

### C70 — The statistics of a node count its executions since the last reset, also by state (partial)

BT/Stats.lean: one node with all its counters and every call on them as events; python's negative indices. Proof: an invariant (Counts) over histories, against counts over the list of (state, result) pairs since the last reset.

*Result.* The counts are right after every history. The estimates by state are not: N_tik2 is never incremented, so prob_state is 0.5 for ever and get_Utility2 depends on nothing but the cost; a success in a state outside -4..3 raises IndexError (exactly then); with an unknown mode both utilities return a stale value.

*Theorems.* `C70_counts_partial`, `C70_raises`, `C70_questions`, `C70_utility_partial`, `C70_estimate_violation`, `C70_mode_violation`

### C71 — A zero made by python and a zero made by sympy are the same to the solver (partial)

Solver/Typed.lean: the solver again with the kind of every left side kept (python int or sympy), short-circuit `or`/`and`, AttributeError as error 5; Solver/TypedProps.lean: a simulation of the run with kinds by the run without (Sim for all composites and bounded loops), with the invariant that int equations of two unknowns never contain Px, Py, Pz and that eqns_1u is free of ints between algebra_id and sincos_id.

*Result.* Proved for whole runs of the tree of ikSolver.py (robots whose given auxiliary equations do not contain Px, Py, Pz): algebra_id, which comes first in worktools, converts the left sides of the equations it passes, and x2z2 never squares two of them. False of the leaves by themselves: sincos_id right after updateL raises AttributeError, and so does a whole run with sc_tan before algSol.

*Theorems.* `C71_tree`, `C71_no_attribute_error`, `C71_sincos_exact`, `C71_sincos_after_update_violation`, `C71_order_violation`, `C71_aux_violation`

### C72 — The sum-of-angles leaf solves the missing part of a sum (partial)

Sol/SumSolve.lean: the loop over auxeqns on the objects of SetSolved.lean, with sympy's `match` as an oracle of which only soundness of the pattern is assumed; Sol/SumSolveProps.lean: the effect of one equation, composed by induction over the list.

*Result.* Proved for ticks without exception (values, status, frame, equations solvable at the beginning), and the conditions under which no exception is raised. False in full: the leaf does not look whether the sum itself is solved (AssertionError, leaving the unknown marked solved without a node), raises TypeError on an equation that is not a sum, makes one pass only, and ignores sums of three angles.

*Theorems.* `C72_sum_solve_partial`, `C72_no_exception`, `C72_three_angles`, `C72_unsolved_lhs_violation`, `C72_no_match_violation`, `C72_one_pass_violation`, `C72_three_angles_violation`

### C73 — Unknowns, nodes and edges with the same symbols are the same to sets and comparisons, and nodes sort in solving order (partial)

Sol/Identity.lean: objects with identity and symbol, python's == with the reflected operand, __hash__ over an arbitrary hash of symbols, set lookup by hash then identity then ==; a key lemma (Keyed) for histories of additions, used for unknowns/nodes and for edges; it justifies representing these sets by lists of names in SetSolved.lean.

*Result.* Equality, hashes, sets of unknowns/nodes and of edges are proved. False of the code: comparing with an object of another class raises AttributeError (in a set: depending on the hash seed), and sorting nodes never changes their order, because Node.solveorder is always -1.

*Theorems.* `C73_eq_iff`, `C73_none`, `C73_equivalence`, `C73_edge`, `C73_sets`, `C73_edges`, `C73_foreign_violation`, `C73_hash_seed_violation`, `C73_sort_violation`

### C74 — The drawing of a solution graph shows every node and edge of it (partial)

Out/Tikz.lean: graphs with independent children and parents lists, the recursion with a depth limit, and an independent reader of the printed lines with a stack.

*Result.* Proved: if every node below the root has a parent in its own list and the root has none, the lines read back to exactly the forest below the root; it returns iff no path as long as the recursion limit starts at the root. False of the code: graphs with a cycle raise RecursionError, a node with an empty parents list is left out, and a node with two parents is drawn twice.

*Theorems.* `C74_drawing_partial`, `C74_returns_iff`, `C74_cycle_violation`, `C74_missing_parent_violation`, `C74_shared_violation`

### C75 — The Jacobian shows the joints of the robot and no others (partial)

Kin/Padding.lean: on the model of C29/C30 (links, velocity recursion, Jacobian) and the robot table of C49.

*Result.* Empty rows and the columns of joints are proved. False of the code: a row without joint has a non-zero column whenever its joint type is 0 or 1, which is so for every robot of the table with fewer than six joints (MiniDD raises, C49).

*Theorems.* `C75_joint_column_partial`, `C75_empty_rows`, `C75_column_lengths`, `C75_phantom_joints_violation`

### C76 — A leaf that cannot use an equation declines; no equation aborts the run (partial)

Solver/Abort*.lean: Hoare triples with exceptions over the composition of the leaves, invariants that the equations stay separated and that what tan_id marked stays usable; the rework exception and the other violations as concrete runs (Solver/AbortDemo.lean).

*Result.* Proved for all inputs: the only exceptions are the assertions and sum_id's NameError (no None equation, no IndexError), and the declines the tests ask for. Proved for separated input (angles only as sin(x), cos(x); left sides balanced): the only exception is the assertion of set_solved when the first unknown, solved, is worked on again; none if the first unknown is a length. False of the code in general: four runs that raise, one of them over separated input.

*Theorems.* `C76_exceptions`, `C76_abort_partial`, `C76_length_first_partial`, `C76_tan_id_declines`, `C76_tan_solve_declines`, `C76_sincos_declines`, `C76_rework_violation`, `C76_bare_violation`, `C76_left_violation`, `C76_sum_violation`

### C77 — The equations printed for an unknown are the ones its solutions solve, exactly (partial)

Solver/Exact.lean: real-analysis lemmas per solver (set equality of roots and solution values, modulo 2π for angles, by sign of the divisor for two-branch tangents), invariants that every equation of the state holds whenever the robot's do, and that each solved unknown has its equations. Solver/ExactDemo.lean: the violations as concrete runs.

*Result.* Proved for every run: the printed equations follow from the robot's. Proved for runs that solve nothing twice and solutions that do not contain their own unknown: the solutions are exactly those of equations that follow from the robot's, and these are the printed first one or the printed pair, but for one combination of methods. False of the code in general: a run whose printed pair has a root that is no solution (the pair mixes two solvers), and a run that prints a second equation that was never used.

*Theorems.* `C77_shown_equations_follow`, `C77_solutions_exact_partial`, `C77_shown_violation`, `C77_second_violation`

### C78 — From the DH table to the solutions: no arm configuration is lost (partial)

`Main.Model` composes `Kin.Numeric`, `Kin.SoaModel` and `Solver.Model` into `program`, from DH table to the final solver state; matrices are functions to expressions, sympy's evaluation steps are abstract operations. Specification in `Main.Props`: `Configuration` (values of all symbols such that the target symbols are the numerical forward kinematics `armPose`, an independent definition) and `Sound`. Proof: the symbolic matrix equations evaluate to those of C28, hence are equivalent to reaching the pose; the sum-of-angles transform keeps values (C33); then C51 and C53's `row_close`. `C78_every_joint_vector` constructs a configuration for all joint values. `Main.Demo` runs the whole program on a planar arm in the kernel and shows all hypotheses met for all joint angles. Not included: pickle file, Jacobian, outputs.

*Result.* Composition of the models of forward kinematics, matrix equations, sum-of-angles transform and solver tree. C78_equations, C78_no_configuration_lost and C78_every_joint_vector are full; the statements about the table rows are for runs in which nothing was solved twice and no unknown is in its own solutions (the code can violate both, C41, C19), and only some row is shown to reach the pose (C53_spurious_row_violation). C78_first_row_violation: an arm without a variable in its first DH row, or with only that variable, ends in an exception.

*Theorems.* `C78_equations`, `C78_no_configuration_lost`, `C78_every_joint_vector`, `C78_row_partial`, `C78_some_row_reaches_partial`, `C78_first_row_violation`, `C78_first_row_iff`, `planar_meets`

### C79 — The forward kinematics program written by fkOnly.py prints the pose of the arm (partial)

`Main.FkOnly` models the script from the DH table to the text of the program (lines with expressions), the pickle directory as a map, and Python's execution of the program (NameError for names without value, SyntaxError for an empty sum). Specification in `Main.FkOnlyProps`: `Proper` (what a user writes), `given` (values of the symbols), `armPose` (product of six numerical transforms). Proof: the assignments give parameters, cosines and sines, joints and sums their values, then C67's evaluation of `T06`; histories by an invariant on the pickle.

*Result.* Full for the first run (C79_first_run) and, for arms with right-angled twists, for every history in which the description of that name did not change (C79_every_run_partial). The code violates the rest: with any other twist angle in the pose the second run writes a program that raises NameError for all joint values (C79_second_run_violation; C79_raven_violation for Raven-II, the script's default robot), and changed parameter values are not noticed (C79_stale_values_violation, C79_planar_violation).

*Theorems.* `C79_first_run`, `C79_every_run_partial`, `C79_described_table`, `C79_second_run_violation`, `C79_stale_values_violation`, `C79_raven_violation`, `C79_planar_violation`, `proper_raven`, `proper_twoArm`

### C80 — The generated functions read the target pose from the right entries of their argument (proved)

Readers of lines (`x = text`, `double x = text;`) are applied to the whole text of the generated files (models of C61 and C65); the twelve input lines give exactly the twelve entries by row and column of the symbolic target of C78, every other line assigns another name.

*Result.* Read back from the text of the files with small independent readers (pyAssign, cppInit, declares, assigns). C80_parameter_violation shows that the condition on the names is needed: a parameter named Px replaces the entry of the target.

*Theorems.* `C80_python`, `C80_python_imports`, `C80_cpp`, `C80_target`, `C80_parameter_violation`

### C81 — The node log lists the results of the node executions, also up to a crash (partial)

A second model of the engine that delivers the lines written also when a run raises (LogModel.lean). One simulation against the first model gives transparency and the lines of completed runs; one relational induction (relations between two runs that sequencing respects) gives the flag comparison, the crash prefix and the missing file.

*Result.* Proved for trees that have a log file. The full claim is false of the code: log_file is None until the user sets it, and with log_flag > 0 the first line then aborts the tick (C81_no_file, for every history; C81_no_file_violation). The exact lines and their order are proved for all trees, leaves (RUNNING included), clocks and states (C81_log_all, against the rules of RunSpec.lean, which are deterministic: C08_trace_unique).

*Theorems.* `C81_transparent`, `C81_log_exact`, `C81_log_all`, `C81_log_counts`, `C81_success_only`, `C81_crash_prefix`, `C81_no_file`, `C81_no_file_violation`

### C82 — The functions of the library find the names they use, whatever is imported in whatever order (partial)

An interpreter for the top-level statements (import, from-import-star with copying of the names bound so far, need, bind, del) with sys.modules entered at the start of execution. The reachable states are classified by the first module of the circle that is imported; the transitions between these finitely many classes are computed by the kernel and the theorem for all histories is by induction on the history.

*Result.* The imports themselves always succeed (C82_imports_succeed). The names are found, with one meaning, exactly if the first of the four circular modules that a program imports is kin_cl (C82_names_found_partial, C82_same_meaning, C82_meaning), which is so for every program and leaf of the library (C82_programs). The full claim is false of the code: a program that first imports solutionGraphV3, matching or ik_classes (as solChecker.py does), or the package with * in an order that lists one of them first, gets a kin_cl without get_deps, Node and Edge, so that recording a solution raises NameError (C82_wrong_entry_violation, C82_set_solved_violation, C82_package_star). Which names a function uses and which statements a module executes is read off the source by tools/gen_imports.py (generated table ImportData.lean), and CPython's import rules (3.7 or later) are part of the trusted base.

*Theorems.* `C82_imports_succeed`, `C82_names_found_partial`, `C82_wrong_entry_violation`, `C82_set_solved_violation`, `C82_same_meaning`, `C82_meaning`, `C82_programs`, `C82_package_star`

### C83 — Trees that share a blackboard do not disturb each other (proved)

BT/Board repeats the engine with the real blackboard calls; BT/BoardProps relates it to BT/Model by a simulation through the entries in the scope of one tree, with a frame for the entries of the other trees; the history theorem is by induction on the calls.

*Result.* The engine is modelled once more, now making the calls of blackboard.py that the source makes, with the scopes it passes. C83_alone: for every history of calls, the outcomes of the calls of one tree are those of the one-tree engine of BT/Model started with the memory that the blackboard holds for this tree and called in the same worlds; C83_alone_new: on a new blackboard that memory is empty. C83_tick: one tick agrees with the one-tree engine on everything, TotalCost, statistics and log included, and the blackboard raises nothing. C83_other_trees and C83_published: what is written where. Assumed of leaves and clock: they use the global scope only and not its key TotalCost (true of the leaves of this repository).

*Theorems.* `C83_tick`, `C83_alone`, `C83_alone_new`, `C83_other_trees`, `C83_published`, `C83_mem_is_get`, `C83_treeMem_is_get`, `C83_shared_statistics`

### C84 — After a tick that raised, the next ticks behave as on a new tree (partial)

BT/Crash repeats the engine with the state kept at an exception; two runs with different leftovers are related by an invariant (an open counting decorator has counter 0) through every kind of node; the open marks are followed by a second invariant.

*Result.* C84_next_ticks_fresh_partial: for every tree without MaxTime nodes (ids may be shared, but not between a node with a counter and one without) every tick of every history with exceptions equals the first tick of a new tree. C84_open_path: the nodes left open are exactly a path to the root. C84_same_engine: this engine and that of BT/Model agree. The code violates the full statement: MaxTime keeps the start time of the tick that raised (C84_maxTime_violation), and nodes left open stay open after later ticks that return (C84_left_open_violation).

*Theorems.* `C84_next_ticks_fresh_partial`, `C84_open_path`, `C84_same_engine`, `C84_maxTime_violation`, `C84_left_open_violation`

### C85 — What the runs of ikSolver.py and fkOnly.py leave on disk, when a run is killed or raises (partial)

Main/Disk models both programs as sequences of file operations on a disk with a kill point and a lost buffer; the computation between them is a parameter. A run is shown equal to playing a plan (a list of files with texts); the claims are inductions over plans and over histories.

*Result.* C85_one_file_torn, C85_templates: proved without conditions. C85_other_robots_partial: names must also differ without the text 'test: '; true of all robots in ik_robots.py (C85_offered_robots). C85_rerun_partial: if the pickle is not cut off and the robot had a pickle or forward_kinematics adds no parameters. The code violates the rest of the statement: a kill while the pickle is written blocks the robot for ever (C85_damaged_pickle, C85_damaged_pickle_violation), a rerun after a kill loses the parameters that forward_kinematics adds (C85_rerun_violation), output files are truncated before their text is made, so that a kill loses the old program too (C85_lost_file_violation), and names that differ in 'test: ' only share their programs (C85_test_name_violation). C85_three_programs: histories that also run forward_kin2.py are like histories of the two programs in which some runs are killed, so all of this holds for the three programs. C85_complete and C85_exceptions say what is on disk after runs that are not killed.

*Theorems.* `C85_one_file_torn`, `C85_templates`, `C85_other_robots_partial`, `C85_offered_robots`, `C85_rerun_partial`, `C85_damaged_pickle`, `C85_file_names`, `C85_complete`, `C85_complete_fk`, `C85_other_description`, `C85_exceptions`, `C85_forward_kin2`, `C85_three_programs`, `C85_three_programs_robots`, `C85_lost_file_violation`, `C85_rerun_violation`, `C85_damaged_pickle_violation`, `C85_test_name_violation`

### C86 — Runs of ikSolver.py and fkOnly.py at the same time (partial)

Main/Parallel is a small-step version of Main/Disk, shown equivalent for one process; non-interference is a simulation with read and write sets; for the same command an invariant says which positions of a file are right or still to be written by whom.

*Result.* C86_alone: a process alone passes exactly the disks of the runs of C85 and ends. C86_apart: non-interference for every schedule. C86_same_command_partial, C86_all_partial: the same command any number of times, with others, for a robot that has its pickle. C86_first_runs_partial: the same without a pickle, if what is dumped is loaded, a pickle that is incomplete or has holes (two processes write it) is not, and the forward kinematics adds no parameters; some of the processes may end with an exception. C86_three_programs: the same for processes of forward_kin2.py. The code violates the rest: two first runs for a robot, where one reads the pickle the other has just opened and ends with an exception (C86_first_runs_violation); robots whose names differ in 'test: ' only get mixed programs (C86_mixed_program_violation).

*Theorems.* `C86_alone`, `C86_apart`, `C86_same_command_partial`, `C86_first_runs_partial`, `C86_all_partial`, `C86_unwritten`, `C86_three_programs`, `C86_forward_kin2_alone`, `C86_first_runs_violation`, `C86_mixed_program_violation`

### C87 — Solving several robots in one process (partial)

Solver/Session runs jobs on the engine with exceptions of BT/Crash; C84 removes the leftovers of the engine, a relation between blackboards that differ in counter and current unknown removes curr_unk; `solve` takes the counter as a parameter, and the path of a run from any counter is one from counter 0 with extra steps of the assigner.

*Result.* C87_only_counter: whatever went before, the result of a run depends on the past only through the key 'counter' of its blackboard; with a new blackboard it is that of a process of its own (C87_new_board_partial). With an old one, the guarantees of single runs still hold (C87_guarantees; all theorems over 'solve … counter' of C16-C20, C45, C51, C58, C62, C76, C77 hold for any counter), and determined robots of at most six unknowns are solved (C87_determined_partial). The code violates the rest: the counter left by an earlier robot changes the order in which unknowns are solved, and with it solutions and poses (C87_old_board_violation).

*Theorems.* `C87_only_counter`, `C87_new_board_partial`, `C87_large_counter`, `C87_guarantees`, `C87_determined_partial`, `C87_old_board_violation`, `C58_six_partial`

### C88 — Velocities and Jacobians of every frame of the arm (partial)

Kin/Frames states the recursion of C30 for the beginnings of the list of links, with tables and velocities as functions of the values of all symbols, and ManipJacobian_S for any list of symbols; linearity in the rates gives the columns.

*Result.* Proved for the library in full (C88_frame_velocities, C88_column, C88_jacobian). The script violates the claim: it passes the joint positions th_1, th_2, th_3 instead of the rates, and its robot has no th_1, so that the first column it prints is zero at every pose (C88_script_violation).

*Theorems.* `C88_frame_velocities`, `C88_column`, `C88_jacobian`, `C88_script_violation`


## 4. Trusted base

* **Lean 4.33.0's kernel**, the definitions of Mathlib used in statements (ℝ, `Matrix`, `HasDerivAt`, `Real.sin/cos/arcsin/arccos`,
  `Complex.arg`, `Set`, `Function.update`), and the axioms `propext`, `Classical.choice`, `Quot.sound`. No axioms of our own, no
  compiled evaluation: concrete runs are checked by the kernel (`decide +kernel`).
* **The reading of the Python text.** Nothing here runs the code; the model is a transcription. Every definition cites its lines so
  that the transcription can be checked.
* **sympy.** Expressions are binary trees over rational numbers, symbols and a few functions (`Sym/Expr`). sympy's operations are the
  fields of the parameter `Sympy` (`Leaf/Model`) and of the parameters of `Kin/SoaModel`. Theorems about values assume
  `Sympy.Sound P G` (`Leaf/Props`): at every assignment satisfying `G` the transformations (`expand`, `collect`, `simplify`,
  subtraction, cancellation) keep the value, `match` returns a decomposition with that value that excludes what it was told to
  exclude, structural equality implies equal values, and `subs(old,new)` keeps the value where old and new agree. `Leaf/Toy` gives a
  concrete system that meets these assumptions, so they are consistent, and runs the leaves with it. Theorems about control flow
  (C16–C25, C41–C45) assume nothing about sympy, or only reflexivity of its equality.
* **Numbers.** Floating point is read as exact real (or rational) arithmetic; `eps`-comparisons are kept as they are.
* **Ghost state.** `LS.guards` (`Leaf/Model`) records the divisors of the solutions the leaves emit; the code has no such list. It is
  written, never read, by the model, and only used to say "at poses where no divisor vanishes".

## 5. What is modelled and what is not

Modelled: `b3/core/*`, `b3/composites/*`, `b3/decorators/*` (except `walktilldestination.py`, which does not import);
`ikbtbasics/ik_classes.py` (robot, solution sets, equation lists, sums of angles, pickle), `kin_cl.py` (equations, unknowns,
`set_solved`, mechanism, forward kinematics and velocity recursion), `pykinsym.py` (transforms and rotations),
`matching.py`, `solutionGraphV3.py` (nodes, edges); `ikbtfunctions/helperfunctions.py`, `ik_robots.py`, `output_cpp.py`,
`output_python.py` (both generators), `output_latex.py` (both reports); all leaves of `ikbtleaves/` used by `ikSolver.py`; the tree and blackboard set-up of
`ikSolver.py`; `fkOnly.py`; what `forward_kin2.py` does to files.

Also modelled: `graph2latex.py` (the recursive drawing, called by nothing), the formulas of `solChecker.py` and of `tests/Wrist_IK_loop_test.py`.

Not modelled: printing to the terminal and progress bars; the fixed texts of `graph2latex.py`; `DisplayEqn.py` (Python 2) and `randomnodeBH.py`
(TabError: neither parses under Python 3); the scripts other than `ikSolver.py`, `fkOnly.py` and those named above; the unit tests; `HTMLTestRunner.py`; performance; file system errors
other than kills (C85, C86); threads inside one process (there are none).


## 6. Axioms of each theorem

Output of `#print axioms` for every theorem of MANIFEST.json (regenerate with `tools/axioms.py`). No theorem depends on anything outside `propext`, `Classical.choice`, `Quot.sound`.

**no axioms** (6): `BT.Blackboard.C11_flat_isolated`, `Eqn.C24_repeated_unknown_counted_twice`, `Solver.C42_solved_violation`, `Solver.C42_twice_violation`, `Out.C49_defined_once`, `Solver.C76_sincos_declines`

**Classical.choice, Quot.sound, propext** (330): `BT.C04_repeatUntilSuccess`, `BT.C04_repeatUntilSuccess_unbounded`, `BT.C05_repeatUntilFailure`, `BT.C05_repeater`, `BT.C05_no_raise_partial`, `BT.C07_engine_refines_spec`, `BT.C07_spec_is_executed`, `BT.C07_closed_after_ticks`, `BT.C07_tick_independent_of_history`, `BT.C08_counters_step`, `BT.C08_success_le_ticks`, `BT.C08_counters_exact`, `BT.C08_trace_unique`, `BT.C08_rules_iff_engine`, `BT.C08_no_pop_from_empty`, `BT.C10_limiter_never_limits`, `BT.C10_limiter_counts`, `BT.Blackboard.C11_blackboard_flat_partial`, `BT.Blackboard.C11_read_returns_last_write_partial`, `BT.Blackboard.C11_node_memory_violation`, `BT.Blackboard.C11_open_nodes_violation`, `BT.Blackboard.C11_node_memory_read_violation`, `BT.Blackboard.C11_float_increment_quits`, `BT.C12_no_mem_no_nameError_partial`, `BT.DumpLoad.C13_load_dump_mirror_partial`, `BT.DumpLoad.C13_plain_trees_partial`, `BT.DumpLoad.C13_load_dump_only_symmetric`, `BT.DumpLoad.C13_double_round_trip_partial`, `BT.DumpLoad.C13_parametrised_decorator_violation`, `BT.DumpLoad.C13_order_violation`, `BT.C14_bounded_tick_terminates`, `BT.C14_executions_bounded`, `Solver.C45_bounded`, `Sol.C16_solution_table_partial`, `Sol.C16_rows_distinct_partial`, `Sol.C16_end_to_end_partial`, `Sol.C16_row_count`, `Solver.C16_solver_partial`, `Sol.C18_defined_before_use_partial`, `Sol.C18_index_error_violation`, `Sol.C18_subs_order`, `Solver.C19_solver_partial`, `Solver.C20_solver_partial`, `Eqn.C21_scan_general`, `Eqn.C21_scan_partial`, `Eqn.C21_scan_mequation`, `Eqn.C22_erank_perm`, `Eqn.C22_erank_sorted`, `Eqn.C22_erank_stable`, `Eqn.Equality.C23_hash_partial`, `Eqn.C25_updateL_partial`, `Kin.C26_link_factors`, `Kin.C26_link_rigid`, `Kin.C26_linkCS_rigid`, `Kin.C26_link_zero`, `Kin.C27_inverse`, `Kin.C27_inverse_cancels`, `Kin.C28_equations_equivalent`, `Kin.C28_target`, `Kin.C29_forward_kinematics`, `Kin.C30_velocity_recursion`, `Kin.C30_jacobian`, `Kin.C31_rotations`, `Kin.C31_additive`, `Kin.C31_axes`, `Kin.C31_rpy`, `Kin.C31_trans`, `Kin.C32_wrap_partial`, `Kin.C32_wrap_congruent`, `Kin.C32_wrap_violation`, `Kin.C32_approx`, `Kin.C33_squeeze`, `Kin.C33_squeeze_every_joint_vector`, `Kin.C33_sum_of_angles_partial`, `Kin.C33_other_summand_raises`, `Kin.C33_stale_flag_violation`, `Leaf.C34_algebra`, `Leaf.C35_sincos`, `Leaf.C36_tan`, `Leaf.C37_sinANDcos_partial`, `Leaf.C37_violation`, `Leaf.C38_simultaneous_partial`, `Leaf.C38_violation`, `Leaf.C39_x2z2`, `Leaf.C40_consequence_partial`, `Leaf.C40_equivalent_partial`, `Leaf.C40_violation`, `Solver.C41_solved_forever`, `Solver.C41_history_partial`, `Solver.C41_nodup_partial`, `Solver.C42_round_partial`, `Solver.C42_no_starvation`, `Solver.C43_completion`, `Solver.C44_rank`, `Solver.C44_subtree`, `Solver.C45_success_iff_all_solved`, `Solver.C45_only_leaf_exceptions`, `Solver.C45_bounded`, `Out.C46_line_partial`, `Out.C46_text_partial`, `Out.C46_unambiguous`, `Out.C46_one_value`, `Out.C46_text_violation`, `Out.C46_denominator_violation`, `Out.C46_acos_violation`, `Out.C46_nested_violation`, `Out.C46_power_violation`, `Out.C46_int_division_violation`, `Out.C47_balanced`, `Out.C47_indentation`, `Out.C47_layout`, `Out.C47_cpp_count`, `Out.C47_cpp_once_partial`, `Out.C47_sinANDcos_violation`, `Out.C47_twice_violation`, `Out.C47_arccos_violation`, `Out.C47_columns`, `Out.C47_packing`, `Out.C47_first_unknown_violation`, `Out.C47_first_unknown_used`, `Out.C47_python_count`, `Out.C47_python_none_violation`, `Out.C47_python_twice_violation`, `Out.C47_cpp_packed`, `Out.C47_python_once_partial`, `Solver.C47_solver_violation`, `Out.C48_kinematics_partial`, `Out.C48_same_description`, `Out.C48_changed_table`, `Out.C48_lost_parameter_violation`, `Out.C48_idempotent`, `Out.C49_names_partial`, `Out.C49_last_joint`, `Out.C52_vectors_partial`, `Out.C52_always_raises_violation`, `Out.C52_guard_text_violation`, `Solver.C52_solver_violation`, `Sol.Matching.C50_poses_partial`, `Sol.Matching.C50_two_disjoint_groups_partial`, `Sol.Matching.C50_countained_violation`, `Sol.Matching.C50_root_conflict_violation`, `Sol.Matching.C50_root_overlap_violation`, `Solver.C51_no_solution_lost`, `Solver.C51_row_partial`, `Solver.C53_some_row_reaches_partial`, `Solver.C53_spurious_row_violation`, `BT.C56_utility_partial`, `BT.C56_estimate_violation`, `BT.C56_blind_violation`, `Leaf.C57_algebra_otherwise`, `Leaf.C57_sincos_otherwise`, `Leaf.C57_tan_partial`, `Leaf.C57_tan_otherwise`, `Leaf.C57_sinANDcos_otherwise`, `Leaf.C57_tan_solves`, `Leaf.C57_sincos_once_violation`, `Leaf.C57_squares_names_violation`, `Solver.C58_six_partial`, `Solver.C58_triangular_partial`, `Solver.C58_more_than_ten_violation`, `Out.C59_every_robot_partial`, `Out.C59_values_partial`, `Out.C59_wrist_violation`, `Out.C59_subscript_violation`, `Out.C59_other_summand_violation`, `Out.C59_order_violation`, `Out.C59_missing_value_violation`, `Out.C60_history`, `Out.C60_table`, `Out.C60_one_report_partial`, `Out.C60_no_report_violation`, `Out.C60_repeated_report_violation`, `Out.C60_no_table_violation`, `Out.C61_python2_iff`, `Out.C61_python3_violation`, `Out.C61_parameters_violation`, `Out.Tex.C62_report_partial`, `Out.Tex.C62_fk_report`, `Out.Tex.C62_empty_violation`, `Out.Tex.C62_count_violation`, `Out.Tex.C62_name_violation`, `Out.Tex.C62_edges_shown`, `Out.Tex.C62_sets_shown`, `Solver.C62_solver_partial`, `Solver.C62_solved_has_method`, `Solver.C62_solutions_counted`, `Solver.C62_solutions_named_partial`, `Kin.C63_soa_unknowns_partial`, `Kin.C63_soa_same_unknowns_partial`, `Out.C63_python`, `Out.C63_cpp`, `Out.C63_text_violation`, `Out.C64_bounds_iff`, `Solver.C64_solver_partial`, `Solver.C64_six_partial`, `Solver.C64_seven_violation`, `Out.C65_same_assignments`, `Out.C65_declared`, `Out.C65_assigned`, `Out.C65_declared_iff`, `Out.C65_terminated_partial`, `Out.C65_argument_violation`, `Out.C65_empty_violation`, `Out.C65_never_compiles_violation`, `Solver.C65_solver_violation`, `Kin.C66_correct`, `Kin.C66_complete`, `Kin.C66_missing_value`, `Kin.C66_own_values_violation`, `Kin.C66_numeric_agree`, `Kin.C66_trans`, `Kin.C66_rpy4S`, `Kin.C66_rpy4_violation`, `Kin.C66_hinv_violation`, `Kin.C67_value`, `Kin.C67_values_exist`, `Kin.C67_read_back`, `Kin.C67_injective`, `Kin.C68_position_partial`, `Kin.C68_turned`, `Kin.C68_all`, `Kin.C68_returns`, `Kin.C68_rows_violation`, `Kin.C68_missing_violation`, `Kin.C68_degree_violation`, `Kin.C68_verify_violation`, `Kin.C68_checker_rows`, `Kin.C68_script_violation`, `Kin.C69_orientation_partial`, `Kin.C69_all`, `Kin.C69_returns_partial`, `Kin.C69_distinct`, `Kin.C69_position`, `Kin.C69_loop_errors`, `Kin.C69_right_angle_violation`, `BT.C70_counts_partial`, `BT.C70_raises`, `BT.C70_utility_partial`, `BT.C70_estimate_violation`, `BT.C70_mode_violation`, `Solver.C71_tree`, `Solver.C71_no_attribute_error`, `Solver.C71_sincos_exact`, `Sol.C72_sum_solve_partial`, `Out.Tikz.C74_drawing_partial`, `Out.Tikz.C74_returns_iff`, `Out.Tikz.C74_cycle_violation`, `Out.Tikz.C74_missing_parent_violation`, `Out.Tikz.C74_shared_violation`, `Kin.C75_joint_column_partial`, `Kin.C75_empty_rows`, `Kin.C75_column_lengths`, `Kin.C75_phantom_joints_violation`, `Solver.C76_exceptions`, `Solver.C76_abort_partial`, `Solver.C76_length_first_partial`, `Solver.C76_rework_violation`, `Solver.C77_shown_equations_follow`, `Solver.C77_solutions_exact_partial`, `Solver.C77_shown_violation`, `Solver.C77_second_violation`, `Main.C78_equations`, `Main.C78_no_configuration_lost`, `Main.C78_every_joint_vector`, `Main.C78_row_partial`, `Main.C78_some_row_reaches_partial`, `Main.C78_first_row_iff`, `Main.planar_meets`, `Main.C79_first_run`, `Main.C79_every_run_partial`, `Main.C79_described_table`, `Main.C79_second_run_violation`, `Main.C79_stale_values_violation`, `Main.C79_raven_violation`, `Main.C79_planar_violation`, `Main.proper_raven`, `Main.proper_twoArm`, `Main.C80_python`, `Main.C80_python_imports`, `Main.C80_cpp`, `Main.C80_parameter_violation`, `BT.C81_log_exact`, `BT.C81_log_counts`, `BT.C81_success_only`, `Imports.C82_package_star`, `BT.Board.C83_tick`, `BT.Board.C83_alone`, `BT.Board.C83_alone_new`, `BT.Board.C83_other_trees`, `BT.Board.C83_published`, `BT.Board.C83_shared_statistics`, `Main.Disk.C85_one_file_torn`, `Main.Disk.C85_templates`, `Main.Disk.C85_other_robots_partial`, `Main.Disk.C85_offered_robots`, `Main.Disk.C85_rerun_partial`, `Main.Disk.C85_damaged_pickle`, `Main.Disk.C85_file_names`, `Main.Disk.C85_complete`, `Main.Disk.C85_complete_fk`, `Main.Disk.C85_other_description`, `Main.Disk.C85_exceptions`, `Main.Disk.C85_forward_kin2`, `Main.Disk.C85_three_programs`, `Main.Disk.C85_three_programs_robots`, `Main.Disk.C85_lost_file_violation`, `Main.Disk.C85_rerun_violation`, `Main.Disk.C85_damaged_pickle_violation`, `Main.Disk.C85_test_name_violation`, `Main.Disk.C86_alone`, `Main.Disk.C86_apart`, `Main.Disk.C86_same_command_partial`, `Main.Disk.C86_first_runs_partial`, `Main.Disk.C86_all_partial`, `Main.Disk.C86_unwritten`, `Main.Disk.C86_three_programs`, `Main.Disk.C86_forward_kin2_alone`, `Main.Disk.C86_first_runs_violation`, `Main.Disk.C86_mixed_program_violation`, `Solver.C87_only_counter`, `Solver.C87_new_board_partial`, `Solver.C87_large_counter`, `Solver.C87_guarantees`, `Solver.C87_determined_partial`, `Solver.C87_old_board_violation`, `Solver.C58_six_partial`, `Kin.C88_frame_velocities`, `Kin.C88_column`, `Kin.C88_jacobian`, `Kin.C88_script_violation`

**Quot.sound** (1): `Leaf.C39_x2z2_otherwise`

**Quot.sound, propext** (107): `BT.C01_sequence`, `BT.C01_sequence_exception`, `BT.C02_priority`, `BT.C02_priority_exception`, `BT.C03_orNode_general`, `BT.C03_orNode_partial`, `BT.C05_zero_bound_raises`, `BT.C06_inverter`, `BT.C06_inverter_twice`, `BT.C08_counters_all`, `BT.C08_node_count`, `BT.C09_totalCost_exact`, `BT.C09_composite_cost_exact`, `BT.C09_no_composite_partial`, `BT.C09_sequence_charges_twice`, `BT.C10_limiter_nonpositive_partial`, `BT.C12_xrange_memSequence_partial`, `BT.C12_xrange_memPriority_partial`, `BT.C12_xrange_resumes`, `BT.C12_xrange_memory`, `BT.C12_xrange_plain`, `BT.C14_executions_all`, `BT.C14_unbounded_diverges`, `Sol.C16_three_solutions_violation`, `Sol.C17_rows_labelled`, `Sol.C17_end_to_end`, `Sol.C17_reads_left`, `Sol.C18_equations_exact`, `Sol.C18_all_solutions_used_partial`, `Sol.C18_last_single_drops_branches`, `Sol.C18_first_unknown_violation`, `Sol.C18_subs_order_violation`, `Sol.C19_orders`, `Sol.C19_dependencies_partial`, `Sol.C19_acyclic_partial`, `Sol.C19_unsolved_dependency_raises`, `Sol.C19_self_dependency_violation`, `Sol.C20_versions_formula`, `Sol.C20_versions_partial`, `Sol.C20_version_names`, `Eqn.C21_both_sides_violation`, `Eqn.Equality.C23_list_membership`, `Eqn.Equality.C23_hash_violation`, `Eqn.C24_count_unknowns`, `Eqn.C24_find_obj`, `Sol.C24_get_deps`, `Eqn.C25_three_way_sum_violation`, `Kin.C33_registered_twice_violation`, `Solver.C41_resolve_violation`, `Out.C52_never_false_violation`, `Sol.Matching.C50_groups_cover_partial`, `Sol.Matching.C50_search_mem`, `Sol.Matching.C50_search_sorted`, `BT.C54_open_iff_last_running`, `BT.C54_open_nodes_partial`, `BT.C54_first_tick_partial`, `BT.C55_wait`, `BT.C55_wait_runs`, `Leaf.C57_algebra`, `Leaf.C57_sincos_partial`, `Leaf.C57_sinANDcos`, `Leaf.C57_simu`, `Leaf.C57_simu_otherwise`, `Leaf.C57_simu_candidates`, `Leaf.C57_squares`, `Leaf.C57_simu_solver`, `Leaf.C57_tan_memory_violation`, `Solver.C58_eight_violation`, `Solver.C58_tangent_first_violation`, `Solver.C62_resolve_violation`, `Sol.C63_set_solved`, `Kin.C63_order_violation`, `Kin.C63_double_violation`, `Solver.C63_solver_order_violation`, `Kin.C67_shortened`, `Solver.C71_sincos_after_update_violation`, `Solver.C71_order_violation`, `Solver.C71_aux_violation`, `Sol.C72_no_exception`, `Sol.C72_three_angles`, `Sol.C72_unsolved_lhs_violation`, `Sol.C72_one_pass_violation`, `Sol.C72_three_angles_violation`, `Sol.Identity.C73_sets`, `Sol.Identity.C73_edges`, `Sol.Identity.C73_sort_violation`, `Solver.C76_tan_id_declines`, `Solver.C76_tan_solve_declines`, `Solver.C76_bare_violation`, `Solver.C76_left_violation`, `Solver.C76_sum_violation`, `Main.C78_first_row_violation`, `Main.C80_target`, `BT.C81_transparent`, `BT.C81_log_all`, `BT.C81_crash_prefix`, `BT.C81_no_file`, `Imports.C82_imports_succeed`, `Imports.C82_names_found_partial`, `Imports.C82_wrong_entry_violation`, `Imports.C82_set_solved_violation`, `Imports.C82_same_meaning`, `Imports.C82_meaning`, `Imports.C82_programs`, `BT.Board.C83_mem_is_get`, `BT.C84_open_path`, `BT.C84_same_engine`

**propext** (48): `BT.C03_orNode_error_violation`, `BT.C09_totalCost_violation`, `BT.C09_nested_violation`, `BT.C09_leaf_charged_once_partial`, `BT.Blackboard.C11_flat_read_own_write`, `BT.C12_mem_composites_raise`, `BT.C12_xrange_otherwise`, `BT.C15_maxTime_violation`, `BT.C15_maxTime_partial`, `Sol.C19_resolve_violation`, `Sol.C19_empty_solutions_marks_solved`, `Sol.C20_chain_violation`, `Eqn.Equality.C23_eq_iff`, `Eqn.Equality.C23_equivalence`, `Eqn.C24_get_unknowns`, `Eqn.C24_get_variables`, `Out.C46_unchanged`, `Out.C48_joint_type_violation`, `Out.C48_crash_violation`, `Out.C49_undefined_violation`, `Out.C49_refused_violation`, `Out.C49_reachable`, `Out.C49_minidd_violation`, `Out.C49_velocity_reads`, `Out.C49_undeclared_violation`, `Out.C49_one_joint_violation`, `Out.C52_packing_partial`, `Out.C52_domain_partial`, `Sol.Matching.C50_empty`, `Sol.Matching.C50_lost_pose_violation`, `Sol.Matching.C50_length_violation`, `BT.C54_ornode_violation`, `BT.C54_abandoned_violation`, `Kin.C66_added_parameters`, `Kin.C67_name_clash_violation`, `BT.C70_questions`, `Sol.C72_no_match_violation`, `Sol.Identity.C73_eq_iff`, `Sol.Identity.C73_none`, `Sol.Identity.C73_equivalence`, `Sol.Identity.C73_edge`, `Sol.Identity.C73_foreign_violation`, `Sol.Identity.C73_hash_seed_violation`, `BT.C81_no_file_violation`, `BT.Board.C83_treeMem_is_get`, `BT.C84_next_ticks_fresh_partial`, `BT.C84_maxTime_violation`, `BT.C84_left_open_violation`
