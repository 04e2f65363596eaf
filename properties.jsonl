{"id": "C01", "title": "Sequence stops at the first child that does not succeed", "statement": "Ticking a b3.Sequence executes its children from left to right; it returns SUCCESS exactly when every child returned SUCCESS, otherwise it returns the status of the first child whose status was not SUCCESS, and no child to the right of that one is executed.", "quantifier": "every list of children, every behaviour of the leaves, every state of the tree and blackboard", "why_tests_cant": "The number of children, their nesting and the statuses/side effects of the leaves are unbounded; a test samples a handful of trees.", "anchors": ["b3/composites/sequence.py:Sequence.tick", "b3/core/basenode.py:BaseNode._execute"]}
{"id": "C02", "title": "Priority stops at the first child that does not fail", "statement": "Ticking a b3.Priority executes its children from left to right; it returns FAILURE exactly when every child returned FAILURE, otherwise the status of the first child whose status was not FAILURE, and no child to the right of that one is executed.", "quantifier": "every list of children, every behaviour of the leaves, every state", "why_tests_cant": "Unbounded trees and leaf behaviours.", "anchors": ["b3/composites/priority.py:Priority.tick"]}
{"id": "C03", "title": "OrNode runs every child and succeeds iff one of them did", "statement": "Ticking a b3.OrNode executes all of its children in order whatever their statuses, and returns SUCCESS exactly when some child returned SUCCESS, FAILURE otherwise.", "quantifier": "every list of children, every behaviour of the leaves, every state", "why_tests_cant": "Unbounded trees; the RUNNING/ERROR statuses of a child are never exercised by the repository's tests.", "anchors": ["b3/composites/ornode.py:OrNode.tick"]}
{"id": "C04", "title": "RepeatUntilSuccess retries a failing child at most max_loop times", "statement": "A RepeatUntilSuccess(child,n) with n>0 executes its child again exactly while it returns FAILURE, at most n times, and returns the status of the last execution of the child.", "quantifier": "every bound n, every child, every sequence of statuses the child returns over time", "why_tests_cant": "The child's statuses depend on its whole history, and n and the history are unbounded.", "anchors": ["b3/decorators/repeatuntilsuccess.py:RepeatUntilSuccess.tick"]}
{"id": "C05", "title": "Repeater and RepeatUntilFailure obey their bound and return the last child status", "statement": "A RepeatUntilFailure(child,n) with n>0 executes its child again exactly while it returns SUCCESS, at most n times; a Repeater(child,n) executes it again while it returns SUCCESS or FAILURE, at most n times; both return the status of the last execution (Repeater with n=0 returns SUCCESS without executing the child). No repeat decorator with a non-negative bound raises.", "quantifier": "every bound, every child, every sequence of statuses", "why_tests_cant": "Unbounded histories; the max_loop=0 corner is never exercised.", "anchors": ["b3/decorators/repeater.py:Repeater.tick", "b3/decorators/repeatuntilfailure.py:RepeatUntilFailure.tick", "b3/decorators/repeatuntilsuccess.py:RepeatUntilSuccess.tick"]}
{"id": "C06", "title": "Inverter swaps SUCCESS and FAILURE and nothing else", "statement": "An Inverter executes its child exactly once and returns FAILURE for SUCCESS, SUCCESS for FAILURE, and any other status unchanged; two nested Inverters return what the child returns.", "quantifier": "every child, every state", "why_tests_cant": "Unbounded trees.", "anchors": ["b3/decorators/inverter.py:Inverter.tick"]}
{"id": "C07", "title": "A tick that ends with no RUNNING node leaves no node open", "statement": "If every node of the tree is closed before a tick and no leaf returns RUNNING, then after the tick every node is closed again, the tick's list of open nodes is empty, and the next tick behaves as on a fresh tree (its statuses and leaf effects do not depend on previous ticks' bookkeeping).", "quantifier": "every tree with distinct node objects, every leaf behaviour without RUNNING, every number of ticks", "why_tests_cant": "Quantifies over all trees and over all tick histories.", "anchors": ["b3/core/basenode.py:BaseNode._execute", "b3/core/tick.py:Tick", "b3/core/behaviortree.py:BehaviorTree.tick"]}
{"id": "C08", "title": "Node statistics are consistent", "statement": "After any history of ticks, a node's N_success is at most its N_ticks_all, both counters never decrease, and N_ticks_all equals the number of times the node was executed; closing a node never pops from an empty list.", "quantifier": "every tree, every leaf behaviour (RUNNING and ERROR included), every number of ticks", "why_tests_cant": "Quantifies over all histories.", "anchors": ["b3/core/basenode.py:BaseNode._tick", "b3/core/tick.py:Tick._close_node"]}
{"id": "C09", "title": "TotalCost is the summed cost of the leaves that ran", "statement": "The blackboard's 'TotalCost' grows during a tick by the sum of the Costs of the leaves executed in it.", "quantifier": "every tree, every assignment of costs", "why_tests_cant": "Unbounded nesting depth.", "anchors": ["b3/core/basenode.py:BaseNode._tick", "b3/core/blackboard.py:Blackboard.inc", "b3/composites/sequence.py:Sequence.tick"]}
{"id": "C10", "title": "Limiter stops executing its child after max_loop completed executions", "statement": "Over any number of ticks a Limiter(child,n) lets its child complete (return SUCCESS or FAILURE) at most n times and returns FAILURE from then on.", "quantifier": "every n, every child, every number of ticks", "why_tests_cant": "Quantifies over all tick histories.", "anchors": ["b3/decorators/limiter.py:Limiter"]}
{"id": "C11", "title": "Blackboard scopes are isolated and reads return the last write", "statement": "After any sequence of blackboard writes, reading a key in a scope (global, per tree, per node of a tree) returns the value most recently written to that key in that same scope, and None if there was no such write; a write never changes what is read from any other scope or key.", "quantifier": "every sequence of set/get operations, every key, every tree and node id", "why_tests_cant": "Quantifies over all operation sequences and over all (also internal) key names.", "anchors": ["b3/core/blackboard.py:Blackboard"]}
{"id": "C12", "title": "MemSequence and MemPriority resume at the running child", "statement": "MemSequence and MemPriority behave as Sequence and Priority except that a tick following a RUNNING child resumes at that child.", "quantifier": "every list of children, every history of ticks", "why_tests_cant": "Quantifies over all histories.", "anchors": ["b3/composites/memsequence.py:MemSequence.tick", "b3/composites/mempriority.py:MemPriority.tick"]}
{"id": "C13", "title": "load inverts dump", "statement": "Loading the dictionary produced by BehaviorTree.dump gives back a tree with the same nodes in the same order, hence with the same behaviour.", "quantifier": "every tree with distinct node ids", "why_tests_cant": "Quantifies over all trees.", "anchors": ["b3/core/behaviortree.py:BehaviorTree.dump", "b3/core/behaviortree.py:BehaviorTree.load"]}
{"id": "C14", "title": "A tick of a tree without unbounded repeaters terminates", "statement": "If no repeat decorator in the tree has a negative max_loop, one tick performs only finitely many leaf executions, bounded by the product of the loop bounds; in particular the IKBT solver tree calls each solver leaf at most 10*6 times per tick.", "quantifier": "every tree, every leaf behaviour", "why_tests_cant": "Non-termination cannot be observed by a test, and the trees are unbounded.", "anchors": ["b3/decorators/repeater.py", "b3/decorators/repeatuntilfailure.py", "b3/decorators/repeatuntilsuccess.py", "ikSolver.py:230-243"]}
{"id": "C15", "title": "MaxTime fails a child that takes longer than max_time", "statement": "A MaxTime(child,t) returns FAILURE whenever more than t time passed from its opening to the end of the child's execution, and the child's status otherwise.", "quantifier": "every child, every clock behaviour", "why_tests_cant": "Quantifies over all clock readings.", "anchors": ["b3/decorators/maxtime.py:MaxTime"]}
{"id": "C16", "title": "The solution set lists every combination of solution branches exactly once", "statement": "For unknowns solved in some order with n1,...,nk solutions each, the set of joint solution vectors produced by create_solution_set has n1*...*nk rows, the rows are pairwise different, and each row picks for each unknown one of its solutions so that every combination of picks occurs exactly once.", "quantifier": "every number of unknowns, every list of solution counts", "why_tests_cant": "Quantifies over all lists of solution counts.", "anchors": ["ikbtbasics/ik_classes.py:Robot.create_solution_set", "IKdocs/solExamp.tex"]}
{"id": "C17", "title": "Every solution vector assigns every solved unknown, in solving order", "statement": "Each row of the solution list has exactly one entry per solved unknown and the entry in column c names the c-th solved unknown, so that (unless an unknown is solved twice or occurs in its own solution) reading a row left to right only uses values computed earlier.", "quantifier": "every list of solved unknowns", "why_tests_cant": "Quantifies over all lists.", "anchors": ["ikbtbasics/ik_classes.py:Robot.create_solution_set"]}
{"id": "C18", "title": "The versioned equations define each version of each unknown from earlier ones", "statement": "make_LHS_versions produces, for every row of the solution list and every unknown, one equation whose left side is that row's name for the unknown and whose right side is the matching solution with the unknowns it depends on replaced by that row's names; every solution of every unknown is used.", "quantifier": "every solution list", "why_tests_cant": "Quantifies over all numbers of unknowns, rows and solutions.", "anchors": ["ikbtbasics/ik_classes.py:Robot.make_LHS_versions"]}
{"id": "C19", "title": "set_solved records a well-founded solution order", "statement": "After any sequence of set_solved calls, the recorded solve orders are 1,2,3,... in call order, an unknown's solution depends only on unknowns solved strictly before it, and the solution graph has no cycle.", "quantifier": "every sequence of set_solved calls on every set of unknowns and solutions", "why_tests_cant": "Quantifies over all call histories.", "anchors": ["ikbtbasics/kin_cl.py:unknown.set_solved", "ikbtfunctions/helperfunctions.py:get_deps", "ikbtbasics/solutionGraphV3.py"]}
{"id": "C20", "title": "The number of versions of an unknown is the number of ways to instantiate its solutions", "statement": "nversions of a solved unknown equals its number of solutions times the product of the numbers of versions of the unknowns it depends on.", "quantifier": "every dependency graph", "why_tests_cant": "Quantifies over all graphs.", "anchors": ["ikbtbasics/kin_cl.py:unknown.set_solved", "IKdocs/solExamp.tex"]}
{"id": "C21", "title": "Equation lists are sorted by number of unsolved unknowns", "statement": "After scan_for_equations every equation put into the one-, two- and three-or-more-unknowns lists has exactly 1, exactly 2, or at least 3 distinct unsolved unknowns, and every non-trivial entry of every matrix equation is in exactly the list for its number of unsolved unknowns (up to equality).", "quantifier": "every list of matrix equations, every set of unknowns with any of them solved", "why_tests_cant": "Quantifies over all equations and solved sets.", "anchors": ["ikbtbasics/ik_classes.py:Robot.scan_for_equations", "ikbtfunctions/helperfunctions.py:count_unknowns"]}
{"id": "C22", "title": "Ranking equations reorders without losing or inventing any", "statement": "erank returns a permutation of the given list of equations, in non-decreasing order of operation count, and keeps equations with equal count in their original order.", "quantifier": "every list of equations", "why_tests_cant": "Quantifies over all lists.", "anchors": ["ikbtbasics/ik_classes.py:erank"]}
{"id": "C23", "title": "Equal equations are found equal regardless of how they are used in lists or sets", "statement": "Equality of kequation objects is an equivalence relation that agrees with equality of both sides, membership tests agree with it, and two equal equations have equal hashes.", "quantifier": "every pair/triple of equations", "why_tests_cant": "Quantifies over all expressions.", "anchors": ["ikbtbasics/kin_cl.py:kequation.__eq__", "ikbtbasics/kin_cl.py:kequation.__hash__"]}
{"id": "C24", "title": "The variable counting helpers agree with the variables that occur", "statement": "count_unknowns, get_unknowns, get_variables and get_deps return respectively the number, the set, all and the solved subset of the listed unknowns occurring in an expression, and get_deps rejects expressions that contain an unsolved unknown.", "quantifier": "every expression, every list of unknowns", "why_tests_cant": "Quantifies over all expressions.", "anchors": ["ikbtfunctions/helperfunctions.py"]}
{"id": "C25", "title": "updateL keeps every equation available and classified by its current number of unknowns", "statement": "After updateL, the lists contain every equation of the matrix equations and every auxiliary equation, classified by the number of unknowns still unsolved.", "quantifier": "every robot state", "why_tests_cant": "Quantifies over all histories of solved unknowns.", "anchors": ["ikbtleaves/updateL.py:updateL"]}
{"id": "C26", "title": "A link transform is a rigid motion with the modified DH form", "statement": "The 4x4 matrix built from a DH row equals RotX(alpha)*TransX(a)*TransZ(d)*RotZ(theta), and it is a homogeneous rigid transform (its rotation part is orthonormal with determinant 1, last row 0 0 0 1).", "quantifier": "every real alpha, a, d, theta", "why_tests_cant": "Quantifies over all reals.", "anchors": ["ikbtbasics/pykinsym.py:Link_S", "ikbtbasics/pykinsym.py:Link_N"]}
{"id": "C27", "title": "The symbolic inverse is the inverse", "statement": "H_inv_S of a rigid transform T is its two-sided inverse and again a rigid transform.", "quantifier": "every rigid transform", "why_tests_cant": "Quantifies over all reals.", "anchors": ["ikbtbasics/pykinsym.py:H_inv_S"]}
{"id": "C28", "title": "All generated matrix equations follow from the forward kinematics and imply it", "statement": "Each of the matrix equations produced by get_mequation_set holds for joint values q whenever T_desired equals the forward kinematics at q, and conversely each single one of them implies it.", "quantifier": "every DH table, every joint vector, every target pose", "why_tests_cant": "Quantifies over all robots and poses.", "anchors": ["ikbtbasics/kin_cl.py:mechanism.get_mequation_set"]}
{"id": "C29", "title": "The forward kinematics is a rigid transform and the product of the link transforms", "statement": "For every DH table, T_06 is the ordered product of the six link transforms and is a rigid transform; entries of the target outside the model (last row) are constant 0 0 0 1.", "quantifier": "every DH table and joint vector", "why_tests_cant": "Quantifies over all reals.", "anchors": ["ikbtbasics/kin_cl.py:mechanism.forward_kinematics", "ikbtbasics/kin_cl.py:mechanism.forward_kinematics_N"]}
{"id": "C30", "title": "The velocity recursion gives the true end-effector velocity", "statement": "For every robot, joint trajectory and time, the linear and angular velocity computed by the outward recursion equal the end-effector frame's body-frame velocities obtained by differentiating the forward kinematics along the trajectory (hence J66 maps joint rates to them).", "quantifier": "every DH table with revolute and prismatic joints, every differentiable joint trajectory", "why_tests_cant": "A limit statement over all trajectories.", "anchors": ["ikbtbasics/kin_cl.py:mechanism.forward_kinematics"]}
{"id": "C31", "title": "The elementary rotation matrices are rotations and RPY composes them", "statement": "RotX/RotY/RotZ (3x3 and 4x4) are orthonormal with determinant one, compose additively in the angle, fix their axis; RPY3_S/RPY4_S are the products RotZ(rz) RotY(ry) RotX(rx) in documented order, and Trans4_S composes additively.", "quantifier": "every real angle", "why_tests_cant": "Quantifies over all reals.", "anchors": ["ikbtbasics/pykinsym.py"]}
{"id": "C32", "title": "wrap_angle_N brings any angle into the principal range without changing it modulo 2*pi", "statement": "The result differs from the argument by a multiple of 2*pi and lies in [-pi, pi].", "quantifier": "every real angle", "why_tests_cant": "Quantifies over all reals.", "anchors": ["ikbtbasics/pykinsym.py:wrap_angle_N", "ikbtbasics/pykinsym.py:approx_N"]}
{"id": "C33", "title": "notation_squeeze/sum-of-angle substitutions preserve the value of every expression", "statement": "Rewriting an expression with the abbreviations c_ij/s_ij/th_ij and the sum-of-angle identities gives an expression with the same value for every joint vector.", "quantifier": "every expression and joint vector", "why_tests_cant": "Quantifies over all expressions.", "anchors": ["ikbtbasics/pykinsym.py:notation_squeeze", "ikbtbasics/ik_classes.py:sum_of_angles_sub"]}
{"id": "C34", "title": "Every solution of the linear (algebra) solver satisfies its equation, and no other does", "statement": "When the algebra solver reports a solution for an equation A*u+B=C with A non-zero, the value satisfies the equation and is the only one that does.", "quantifier": "every real coefficient", "why_tests_cant": "Quantifies over all reals.", "anchors": ["ikbtleaves/algebra_solver.py"]}
{"id": "C35", "title": "arcsin/arccos solutions are sound and complete modulo 2*pi", "statement": "When A*sin(u)+B=C (or cos) is solvable over the reals, both reported values satisfy it and every solution equals one of them modulo 2*pi.", "quantifier": "every real A,B,C with A non-zero", "why_tests_cant": "Quantifies over all reals.", "anchors": ["ikbtleaves/sincos_solver.py"]}
{"id": "C36", "title": "atan2 solutions are sound and complete modulo 2*pi", "statement": "From A*sin(u)=Y and B*cos(u)=X the tangent solver's answer(s) satisfy both equations whenever they are consistent, and every u satisfying both equals one of the answers modulo 2*pi; the two-answer form lists exactly the candidates for the two signs of the common factor.", "quantifier": "every real data with non-zero factors", "why_tests_cant": "Quantifies over all reals.", "anchors": ["ikbtleaves/tan_solver.py"]}
{"id": "C37", "title": "A*sin(u)+B*cos(u)=C solutions are sound and complete modulo 2*pi", "statement": "Whenever A^2+B^2>=C^2 and (A,B) is not zero, the two reported angles satisfy the equation, and every solution equals one of them modulo 2*pi.", "quantifier": "every real A,B,C", "why_tests_cant": "Quantifies over all reals.", "anchors": ["ikbtleaves/sinANDcos_solver.py"]}
{"id": "C38", "title": "The simultaneous-equation solution is sound and complete modulo 2*pi", "statement": "From A=C*cos(u)+... the matched pair, the reported atan2 value satisfies both equations whenever they have a common solution, and is the unique one modulo 2*pi.", "quantifier": "every real coefficients not both zero", "why_tests_cant": "Quantifies over all reals.", "anchors": ["ikbtleaves/two_eqn_m7.py"]}
{"id": "C39", "title": "The x2z2 transform produces consequences of the equations it squares", "statement": "Every equation that x2z2_transform adds holds at every joint vector that satisfies the equations it was derived from, and it contains fewer unknowns.", "quantifier": "every equations and joint vectors", "why_tests_cant": "Quantifies over all expressions.", "anchors": ["ikbtleaves/x2y2_transform.py"]}
{"id": "C40", "title": "Substituting matrix elements into each other keeps the solution set", "statement": "sub_transform replaces equations only by equations that are equivalent given the remaining ones and never increases the number of unsolved unknowns of an equation.", "quantifier": "every matrix equation", "why_tests_cant": "Quantifies over all expressions.", "anchors": ["ikbtleaves/sub_transform.py"]}
{"id": "C41", "title": "Solved unknowns stay solved and each is recorded in the solution graph exactly once", "statement": "During a run of the solver tree no unknown ever becomes unsolved, each solved unknown has exactly one node in the solution graph, and its solutions are not changed after it was solved.", "quantifier": "every robot and every sequence of leaf outcomes", "why_tests_cant": "Quantifies over all histories.", "anchors": ["ikSolver.py", "ikbtleaves/rank_leaf.py", "ikbtleaves/tan_solver.py", "ikbtbasics/kin_cl.py"]}
{"id": "C42", "title": "The assigner offers every unsolved unknown in turn", "statement": "Repeated ticks of the assigner leaf hand out every unsolved unknown before handing out any of them a second time, and never hand out a solved unknown while an unsolved one exists.", "quantifier": "every list of unknowns, every pattern of solved flags", "why_tests_cant": "Quantifies over all histories.", "anchors": ["ikbtleaves/assigner_leaf.py"]}
{"id": "C43", "title": "Completion is reported exactly when everything is solved", "statement": "comp_det returns SUCCESS (or FAILURE in its fail-when-done mode) exactly when every unknown is solved, and its printed report names every unknown once, in order, marks exactly the unsolved ones as unsolved, and counts them correctly.", "quantifier": "every list of unknowns", "why_tests_cant": "Quantifies over all lists.", "anchors": ["ikbtleaves/comp_detect.py"]}
{"id": "C44", "title": "rank picks the candidate with fewer solutions, then the simpler one", "statement": "When both the tangent and the sin/cos solver solved an unknown, the kept candidate has the fewer solutions, and among equals the one with fewer variables (tangent on ties); if only one did, that one is kept; if none did, the unknown is not marked solved.", "quantifier": "every pair of candidate solution lists", "why_tests_cant": "Quantifies over all expressions.", "anchors": ["ikbtleaves/rank_leaf.py"]}
{"id": "C45", "title": "The solver reports success only when all joints are solved", "statement": "If the top-level tree returns SUCCESS then every unknown is solved; the result is independent of bookkeeping, and it always returns within its loop bounds.", "quantifier": "every robot, every leaf behaviour", "why_tests_cant": "Quantifies over all histories.", "anchors": ["ikSolver.py:230-300"]}
{"id": "C46", "title": "The generated C++ computes the same value as the symbolic solution", "statement": "The C++ text emitted for a solution expression denotes the same arithmetic expression.", "quantifier": "every expression", "why_tests_cant": "Quantifies over all expressions.", "anchors": ["ikbtfunctions/output_cpp.py:cpp_output.line"]}
{"id": "C47", "title": "Generated code has balanced blocks and assigns every solved unknown", "statement": "The C++ code emitted for any solution set has balanced braces, and it and the Python code contain, for every row of the solution list, exactly one assignment to every unknown of the row, before any use.", "quantifier": "every set of solved unknowns", "why_tests_cant": "Quantifies over all solutions.", "anchors": ["ikbtfunctions/output_cpp.py", "ikbtfunctions/output_python.py"]}
{"id": "C48", "title": "A cached forward kinematics is only used for the DH table it was computed from", "statement": "When a pickle file exists for a robot name, the kinematics returned are those of the robot description passed in, or the program stops.", "quantifier": "every sequence of runs with any robot descriptions", "why_tests_cant": "Quantifies over all histories of runs.", "anchors": ["ikbtbasics/ik_classes.py:kinematics_pickle", "ikbtbasics/ik_classes.py:check_the_pickle"]}
{"id": "C49", "title": "Every robot offered by name is defined", "statement": "robot_params accepts exactly the names it defines, and returns for each accepted name a DH table with six rows, a joint type per row, and the list of its joint variables with their row numbers.", "quantifier": "every name", "why_tests_cant": "The set of strings is unbounded.", "anchors": ["ikbtfunctions/ik_robots.py:robot_params"]}
{"id": "C50", "title": "matching_func groups solution notations into complete, conflict-free poses", "statement": "Given subgroups of compatible solution notations and the solution nodes, matching_func returns groups that contain exactly one solution notation of every unknown, listed in the order of the unknowns, and returns every such group that the subgroups allow.", "quantifier": "every list of subgroups, every list of nodes, every set iteration order", "why_tests_cant": "Quantifies over all inputs and the hash order of Python sets.", "anchors": ["ikbtbasics/matching.py:matching_func", "ikbtbasics/matching.py:search_notation", "ikbtbasics/matching.py:sort_variables"]}
{"id": "C51", "title": "No solution is lost: every joint vector that reaches the pose is among the computed solutions", "statement": "After a run of the solver, for every assignment of the joint variables that satisfies the initial matrix equations (and at which no coefficient divided by vanishes), the value of every solved joint equals, up to full turns for angles, one of the solutions recorded for it evaluated at that assignment.", "quantifier": "every robot, every run of the solver, every joint vector outside the singular ones", "why_tests_cant": "Quantifies over all equations, runs and real joint vectors.", "anchors": ["ikSolver.py", "ikbtleaves/*.py"]}
{"id": "C52", "title": "The generated Python function returns the solution list, or False exactly when a domain test fails", "statement": "A call of the generated function returns a list with one vector per solution set if all arguments of asin/acos are within [-1,1], and False if one is not; it does not raise.", "quantifier": "every robot solution, every pose, every meaning of the expression texts", "why_tests_cant": "Quantifies over all generated programs and inputs.", "anchors": ["ikbtfunctions/output_python.py:output_python_code"]}
{"id": "C53", "title": "Every joint vector in the solution list reaches the pose", "statement": "After a successful run, evaluating any row of the solution list at a reachable pose gives joint values that satisfy the matrix equations (forward kinematics equals the target).", "quantifier": "every robot, every run, every row, every reachable non-singular pose", "why_tests_cant": "Quantifies over all robots and all real poses.", "anchors": ["ikSolver.py", "ikbtbasics/ik_classes.py:Robot.create_solution_set", "ikbtleaves/"]}
{"id": "C54", "title": "A tick publishes the nodes that are open", "statement": "After a tick the published list of open nodes is exactly the set of nodes whose open flag is set: the path from the root to the running leaf if the tick returned RUNNING, none otherwise; a node that was running and is not reached by a later tick is closed, so that it starts afresh the next time.", "quantifier": "every tree, all leaves, every history of ticks", "why_tests_cant": "Quantifies over all trees and all histories of ticks.", "anchors": ["b3/core/behaviortree.py:tick", "b3/core/tick.py", "b3/core/basenode.py:_execute"]}
{"id": "C55", "title": "Wait answers RUNNING until its time has passed, then SUCCESS", "statement": "A Wait(ms) node answers RUNNING at every execution whose clock reading is at most ms after the reading at which the round started, SUCCESS at the first one beyond, and then starts a new round; it never crashes.", "quantifier": "every duration, every clock (also one that goes back), any number of executions", "why_tests_cant": "Quantifies over all histories of executions and all clocks.", "anchors": ["b3/actions/wait.py"]}
{"id": "C56", "title": "prob() estimates a node's success rate and get_Utility() the success per cost", "statement": "After any history, prob() of a node is its number of successes over its number of executions (0.1 before the first), and get_Utility() is prob() over Cost.", "quantifier": "every tree, all leaves, every history of ticks", "why_tests_cant": "Quantifies over all histories.", "anchors": ["b3/core/basenode.py:prob", "b3/core/basenode.py:get_Utility", "b3/core/basenode.py:_tick"]}
{"id": "C57", "title": "An identifier succeeds exactly when there is an equation it can use", "statement": "Each identifying leaf returns SUCCESS if and only if the current unknown is unsolved and one of the equations (or pairs of equations) on the blackboard has the form the leaf looks for; it then records the first one together with the method, and changes nothing else. Otherwise it returns FAILURE and changes nothing. It never raises an exception.", "quantifier": "every identifier leaf, every list of equations, every unknown, every history", "why_tests_cant": "Quantifies over all lists of equations and all symbolic forms.", "anchors": ["ikbtleaves/algebra_solver.py:algebra_id", "ikbtleaves/sincos_solver.py:sincos_id", "ikbtleaves/tan_solver.py:tan_id", "ikbtleaves/sinANDcos_solver.py:sinANDcos_id", "ikbtleaves/two_eqn_m7.py:simu_id", "ikbtleaves/x2y2_transform.py:x2z2_transform"]}
{"id": "C58", "title": "The bounded loops are long enough", "statement": "If the equations determine the unknowns one after another (each from an equation linear in it with only earlier ones), the solver, which tries at most six unknowns per round and does at most ten rounds, solves them all and returns SUCCESS.", "quantifier": "every list of unknowns, every set of equations, every order in which they become solvable", "why_tests_cant": "Quantifies over all systems of equations, all orders of the unknowns and the whole history of the two nested loops; a failure needs a particular order.", "anchors": ["ikSolver.py:subtree", "ikSolver.py:solveRoutine", "ikSolver.py:topnode", "ikbtleaves/assigner_leaf.py:assigner", "ikbtleaves/algebra_solver.py:algebra_id"]}
{"id": "C59", "title": "The generated forward kinematics program computes the forward kinematics", "statement": "For every robot, the Python file written by output_FK_python_code assigns every parameter its value, every joint variable the value the user gives, and every sum-of-angles variable the sum of its angles, all before they are used; so the T06 it prints is the forward kinematics at those values.", "quantifier": "every robot description, every outcome of the sum-of-angles transform, all joint values", "why_tests_cant": "Quantifies over all variable lists the transform can produce and all joint values.", "anchors": ["ikbtfunctions/output_python.py:output_FK_python_code", "fkOnly.py", "ikbtbasics/ik_classes.py:sum_of_angles_sub"]}
{"id": "C60", "title": "What the output calls write does not depend on the history of calls", "statement": "After the solver has run, create_solution_set, output_latex_solution, output_python_code and output_cpp_code may be called in any order and any number of times: each writes the same as if it were the only one called after create_solution_set.", "quantifier": "all histories of these calls, all solution graphs", "why_tests_cant": "Quantifies over all call histories; a test runs one script.", "anchors": ["ikbtbasics/ik_classes.py:make_LHS_versions", "ikbtbasics/ik_classes.py:create_solution_set", "ikbtfunctions/output_latex.py:output_latex_solution", "ikbtfunctions/output_python.py:output_python_code", "ikbtfunctions/output_cpp.py:output_cpp_code", "ikSolver.py:405-412"]}
{"id": "C61", "title": "The generated inverse kinematics program can be loaded by Python", "statement": "For every robot and every solution graph, the text written by output_python_code is accepted by the Python interpreter: consistent indentation, function names that are identifiers, no statement of another version of the language.", "quantifier": "every robot name, parameter list and solution graph; Python 2 and Python 3", "why_tests_cant": "Quantifies over all generated files.", "anchors": ["ikbtfunctions/output_python.py:output_python_code"]}
{"id": "C62", "title": "The LaTeX report shows all of the solution", "statement": "The report of a solved robot is accepted by LaTeX (environments, braces, dollars, alignment marks and table cells nest and fit) and shows, in order, the DH matrix, the columns of the forward kinematics, every solved unknown, for each of them every solution under its own name and its equation in every version, every row of the solution set, and the columns of the Jacobian; output_FK_equations shows the DH matrix, the forward kinematics and the Jacobian.", "quantifier": "all robots, runs of the solver, texts printed by sympy", "why_tests_cant": "Quantifies over all robots, numbers of solutions and versions and printed texts; tests never read the report.", "anchors": ["ikbtfunctions/output_latex.py:output_latex_solution", "ikbtfunctions/output_latex.py:output_FK_equations", "ikbtfunctions/output_latex.py:LatexFile", "ikbtbasics/kin_cl.py:LaTexOutput", "ikbtleaves/rank_leaf.py:rank"]}
{"id": "C63", "title": "Results do not depend on the iteration order of Python sets", "statement": "Running the program twice on the same robot, with different hash seeds, gives the same unknowns, solution graph, numbers of versions and the same set of joint vectors: where the code iterates over a set (dependencies, graph edges, sums of angles found in an expression, the solution set) the order of iteration changes nothing but the order of rows.", "quantifier": "all iteration orders of all sets at all calls, all robots and histories of solved unknowns, all inputs of the generated programs", "why_tests_cant": "A test runs one process with one hash seed.", "anchors": ["ikbtbasics/kin_cl.py:set_solved", "ikbtbasics/ik_classes.py:sum_of_angles_transform", "ikbtbasics/ik_classes.py:sum_of_angles_sub", "ikbtbasics/ik_classes.py:create_solution_set", "ikbtfunctions/output_python.py:output_python_code", "ikbtfunctions/output_cpp.py:output_cpp_code"]}
{"id": "C64", "title": "The generated C++ writes only inside its array of solutions", "statement": "The generated C++ program, which declares its result as double[64][6], never writes an element outside of it.", "quantifier": "all robots, runs of the solver and orders of the solution set", "why_tests_cant": "An out-of-bounds write is undefined behaviour that depends on the robot and is silent in a test.", "anchors": ["ikbtfunctions/output_cpp.py:output_cpp_code", "ikbtbasics/ik_classes.py:create_solution_set"]}
{"id": "C65", "title": "The generated C++ function assigns only variables that it declares, in complete statements", "statement": "In the generated C++ file every variable that the function ikin assigns is declared in it, and every statement line is complete (ends with a semicolon, a brace, or is the head of an if or a comment).", "quantifier": "all robots, solved unknowns, parameters, solution sets and orders of the sets", "why_tests_cant": "Whether the file compiles depends on the names in the solution set and the methods of all unknowns; no test compiles the output.", "anchors": ["ikbtfunctions/output_cpp.py:output_cpp_code", "ikbtfunctions/output_cpp.py:line"]}
{"id": "C66", "title": "Numerical forward kinematics and numerical matrices agree with the symbolic ones", "statement": "forward_kinematics_N returns the product of the link transforms for the given pose and parameters (parameters win), or stops if a needed value is missing; the numerical matrix functions return the values of the symbolic ones.", "quantifier": "all DH tables, poses, parameter dictionaries and arguments", "why_tests_cant": "Agreement for all poses and parameters, and the independence of the result from values that were not given, are statements about all inputs.", "anchors": ["ikbtbasics/kin_cl.py:forward_kinematics", "ikbtbasics/kin_cl.py:forward_kinematics_N", "ikbtbasics/pykinsym.py:Num_check", "ikbtbasics/pykinsym.py:RPY4_N", "ikbtbasics/pykinsym.py:H_inv_N"]}
{"id": "C67", "title": "The short notation shows the same expression", "statement": "notation_squeeze, which abbreviates every shown matrix, keeps the value of every element, loses nothing (it can be written out again to exactly the given expression) and leaves no sine or cosine of a joint angle.", "quantifier": "all expressions and all values of the symbols", "why_tests_cant": "A wrong entry in the table of 24 replacements would show only for particular matrices; value preservation and losslessness are about all expressions.", "anchors": ["ikbtbasics/pykinsym.py:notation_squeeze"]}
{"id": "C68", "title": "The Puma solutions of the checker script reach the pose they were computed from", "statement": "solChecker.py computes a pose of the Puma by forward kinematics, eight joint vectors from the pose with the formulas that the solver generated, and the pose again from each vector: every one of the eight vectors reaches the pose, and every joint vector that reaches the pose is one of them (modulo full turns).", "quantifier": "all joint vectors and all real parameters of the Puma, all poses", "why_tests_cant": "Quantifies over all real poses and parameters; the formulas are transcendental.", "anchors": ["solChecker.py", "ikbtfunctions/ik_robots.py:robot_params (Puma)", "ikbtbasics/pykinsym.py:deg", "ikbtbasics/kin_cl.py:forward_kinematics_N"]}
{"id": "C69", "title": "The generated solutions of the Wrist give the orientation they were computed from", "statement": "The generated function ikin_Wrist of tests/Wrist_IK_loop_test.py returns for every reachable pose of the Wrist two different joint vectors; each of them gives the orientation of the pose by forward kinematics with the DH table of the Wrist, every joint vector that gives it is one of them (modulo full turns), and the loop test prints errors of zero only if the pose is reached.", "quantifier": "all rigid poses and all joint vectors", "why_tests_cant": "Quantifies over all rotations; the formulas are transcendental and have singular poses a test will not hit.", "anchors": ["tests/Wrist_IK_loop_test.py:ikin_Wrist", "ikbtfunctions/ik_robots.py:robot_params (Wrist)", "ikbtbasics/kin_cl.py:forward_kinematics_N"]}
{"id": "C70", "title": "The statistics of a node count its executions since the last reset, also by state", "statement": "After any history of executions, changes of state, cost and mode, resets and questions, N_ticks_all, N_success and N_suc2[k] of a node are the numbers of executions, of successes, and of successes in state k since the last p_reset(); prob_state()[k] is the success rate in state k (0.5 before the first execution in it), get_Utility2() is computed from it and from the current cost and mode; asking for statistics changes no counter, and no execution raises.", "quantifier": "all histories of one node", "why_tests_cant": "Quantifies over all histories; the state, cost and mode are public fields that can change at any point.", "anchors": ["b3/core/basenode.py:_tick", "b3/core/basenode.py:prob_state", "b3/core/basenode.py:get_Utility", "b3/core/basenode.py:get_Utility2", "b3/core/basenode.py:p_reset", "b3/core/basenode.py:report_stats"]}
{"id": "C71", "title": "A zero made by python and a zero made by sympy are the same to the solver", "statement": "Equations whose left side is the python number 0 (which the list update makes from auxiliary equations) are treated by every solver leaf like equations with sympy's zero on the left: a run ends with the same exception or the same status and the same state, and in particular never with AttributeError because a method is called on a python number.", "quantifier": "all lists of unknowns, matrix equations and auxiliary equations, all rounds of the solver", "why_tests_cant": "The python number gets into the lists only in some round after an auxiliary equation was made, and which leaf meets it first depends on the history of the run.", "anchors": ["ikbtleaves/updateL.py:updateL.tick", "ikbtleaves/sincos_solver.py:sincos_id.tick", "ikbtleaves/x2y2_transform.py:x2z2_transform.tick", "ikbtleaves/algebra_solver.py:algebra_id.tick", "ikSolver.py:worktools"]}
{"id": "C72", "title": "The sum-of-angles leaf solves the missing part of a sum", "statement": "A tick of sum_solve leaves every unknown exactly as it was, except unsolved unknowns that are one part of a sum of angles th_xy = th_x + th_y whose sum and other part are solved: these become solved, with the one solution for which the equation holds. It returns SUCCESS exactly when it solved something, FAILURE otherwise, and raises nothing; afterwards no such sum has one missing part.", "quantifier": "all lists of unknowns in all solving states, all lists of auxiliary equations, and all answers of the pattern matcher that satisfy the pattern", "why_tests_cant": "The leaf can be ticked in every intermediate state of the solver; which parts are known then depends on the whole history, and the list of sums on the robot.", "anchors": ["ikbtleaves/sum_id.py:sum_solve.tick", "ikbtfunctions/helperfunctions.py:find_obj", "ikbtbasics/kin_cl.py:unknown.set_solved"]}
{"id": "C73", "title": "Unknowns, nodes and edges with the same symbols are the same to sets and comparisons, and nodes sort in solving order", "statement": "Two unknown or Node objects are equal exactly when their symbols are, compare unequal to everything else without raising, and equal objects have equal hashes, so that after any history of additions a set of them contains each symbol once and membership tests answer by symbol, whatever the hash seed of the process; likewise edges by their two ends and multiplicity. Sorting a list of nodes puts them in solving order.", "quantifier": "all objects, all symbols, all hash functions, all histories of set additions, all lists of nodes", "why_tests_cant": "Hash values change from process to process, and the outcome of a set operation depends on every object added before.", "anchors": ["ikbtbasics/kin_cl.py:unknown.__eq__", "ikbtbasics/kin_cl.py:unknown.__hash__", "ikbtbasics/solutionGraphV3.py:Node", "ikbtbasics/solutionGraphV3.py:Edge"]}
{"id": "C74", "title": "The drawing of a solution graph shows every node and edge of it", "statement": "Called on the root of a graph of nodes, the drawing function prints nested child groups that, read back, are the graph below the root: every node once, under its parent, with its label and with its children in order. It ends for every graph.", "quantifier": "all graphs of nodes, all roots, all recursion limits", "why_tests_cant": "Quantifies over all graphs, of any size and depth; the children and parents lists are filled separately.", "anchors": ["ikbtfunctions/graph2latex.py:tikz_place_children", "ikbtfunctions/graph2latex.py:newnode"]}
{"id": "C75", "title": "The Jacobian shows the joints of the robot and no others", "statement": "A robot with fewer than six joints is described with empty rows: they do not change the pose of the last frame; the Jacobian has, for each joint, the velocities of the last frame when that joint alone moves at unit rate, and nothing for the rows without a joint.", "quantifier": "all DH tables with any pattern of empty rows, all joint types, all values and motions of the joints; all robots of the table", "why_tests_cant": "Quantifies over all real tables and motions; the derivative cannot be observed by testing, and the expressions are symbolic.", "anchors": ["ikbtbasics/kin_cl.py:mechanism.forward_kinematics", "ikbtbasics/pykinsym.py:ManipJacobian_S", "ikbtfunctions/ik_robots.py:robot_params"]}
{"id": "C76", "title": "A leaf that cannot use an equation declines; no equation aborts the run", "statement": "Given any equations, a run of the solver ends with SUCCESS or FAILURE and not with an exception: a leaf offered an equation it cannot solve returns FAILURE and leaves the unknown to the other leaves.", "quantifier": "all unknowns, matrix equations and auxiliary equations, all answers of sympy, all runs of the solver", "why_tests_cant": "The repository's own tests (tan_solver.py:443-537, sincos_solver.py:377-415) fix two shapes of equations seen on two robots; the claim is about all equations and about all states a run can reach, including those that other leaves leave behind.", "anchors": ["ikSolver.py", "ikbtleaves/tan_solver.py:tan_id,tan_solve", "ikbtleaves/sincos_solver.py:sincos_solve", "ikbtleaves/rank_leaf.py", "ikbtleaves/sum_id.py", "ikbtbasics/kin_cl.py:unknown.set_solved", "ikbtfunctions/helperfunctions.py:get_deps"]}
{"id": "C77", "title": "The equations printed for an unknown are the ones its solutions solve, exactly", "statement": "For every solved unknown the program prints the equation(s) it was solved from. These equations follow from the equations of the robot, and the unknown's solutions are exactly their solutions: every value that satisfies the printed equations is one of the solutions, and every solution satisfies them.", "quantifier": "all unknowns, matrix equations and auxiliary equations, all sound answers of sympy, all runs of the solver, all values of the other symbols at which no divisor is zero", "why_tests_cant": "The printed equations and the solutions are set by different leaves at different times, over rounds; a test compares them on one robot, and checks numbers, not the set of all real solutions.", "anchors": ["ikSolver.py:414-423", "ikbtbasics/kin_cl.py:unknown", "ikbtleaves/algebra_solver.py", "ikbtleaves/sincos_solver.py", "ikbtleaves/tan_solver.py", "ikbtleaves/sinANDcos_solver.py", "ikbtleaves/two_eqn_m7.py", "ikbtleaves/rank_leaf.py"]}
{"id": "C78", "title": "From the DH table to the solutions: no arm configuration is lost", "statement": "Running the program on a robot definition (a DH table with its list of joint variables) hands the solver eight matrix equations, each of which says exactly that the arm has the target pose; and whatever the solver then computes, every joint vector (at which none of the divisors in the run vanishes) is among the solutions: each solved joint has a solution whose value at the pose of the arm is the joint's value (angles modulo 2 pi), for a run reported as a success this holds for all joints, exactly one row of the solution table carries that choice of solutions, and the joint values computed from a suitable row give the arm the same pose.", "quantifier": "all DH tables (any expressions in the entries), all lists of joint variables, all joint values and parameter values, and every behaviour of sympy that preserves values", "why_tests_cant": "Unit tests run the program on a dozen fixed robots and compare with stored formulas or spot-check numerically; the claim is about every robot and every pose.", "anchors": ["ikbtbasics/kin_cl.py: forward_kinematics, get_mequation_set, matrix_equation", "ikbtbasics/pykinsym.py: H_inv_S", "ikbtbasics/helperfunctions.py: ik_lhs", "ikbtbasics/ik_classes.py: kinematics_pickle, Robot.__init__, sum_of_angles_transform", "ikSolver.py"]}
{"id": "C79", "title": "The forward kinematics program written by fkOnly.py prints the pose of the arm", "statement": "Whenever fkOnly.py runs for a robot definition, whatever was run before, it writes a Python program that, for all joint values the user writes into it, prints the pose of the arm: the product of the link transforms of the DH table at those joint values and the described parameter values.", "quantifier": "all DH tables with any (named or numeric) twist angles, parameters and values, all joint values, every history of earlier runs that left pickle files, every value-preserving behaviour of sympy", "why_tests_cant": "A test runs the script once for one robot; the claim ranges over all robots, joint values and histories of runs, and the second run is where it fails.", "anchors": ["fkOnly.py", "ikbtfunctions/output_python.py: output_FK_python_code", "ikbtbasics/ik_classes.py: kinematics_pickle, check_the_pickle, sum_of_angles_transform", "ikbtbasics/kin_cl.py: forward_kinematics", "ikbtfunctions/ik_robots.py: robot_params"]}
{"id": "C80", "title": "The generated functions read the target pose from the right entries of their argument", "statement": "Whatever robot the code was generated for, the generated Python and C++ functions give each name of the symbolic target (r_11 \u2026 r_33, Px, Py, Pz) the entry of their argument T in the row and column where the symbolic target has it, before the first solution is computed, and never change it afterwards; the Python file imports every function that a solution can use.", "quantifier": "all robots whose parameters and unknowns are not named like an entry of the target, all solution matrices, groups and parameter values", "why_tests_cant": "A test looks at one generated file; the claim ranges over all files the generators can write.", "anchors": ["ikbtfunctions/output_python.py: output_python_code", "ikbtfunctions/output_cpp.py: output_cpp_code", "ikbtbasics/helperfunctions.py: ik_lhs"]}
{"id": "C81", "title": "The node log lists the results of the node executions, also up to a crash", "statement": "With log_flag 1 the log file of a tree gets, in the order in which they end, one line 'S name' for every node execution that ends in SUCCESS, with log_flag 2 also one line 'F name' for every one that ends in FAILURE, and nothing else; so it agrees with the counters N_success; a run that ends in an exception has written exactly a beginning of what it would have written without the exception; and keeping the log changes neither the statuses nor the state.", "quantifier": "all trees, leaves (also such that return RUNNING or raise), clocks, states and histories of ticks, all flags", "why_tests_cant": "The log must be right for every tree, every history and every point at which a leaf can raise.", "anchors": ["b3/core/basenode.py: _tick", "b3/core/behaviortree.py: BehaviorTree.__init__"]}
{"id": "C82", "title": "The functions of the library find the names they use, whatever is imported in whatever order", "statement": "Importing the modules of the library in any order succeeds, and afterwards every function of kin_cl, solutionGraphV3, matching, ik_classes, pykinsym, helperfunctions and graph2latex finds every global name it uses, with the same meaning whatever else was imported before or after.", "quantifier": "all import histories of all programs: every finite sequence of imports of these modules or of the programs and leaves of the library, in a fresh interpreter; every file system order of the package's star import", "why_tests_cant": "Four modules import each other in a circle with star imports, so what a name means depends on the order of all imports of a program; a test fixes one order.", "anchors": ["ikbtbasics/kin_cl.py: top-level imports, unknown.set_solved, unknown.scan, kequation.LaTexOutput", "ikbtbasics/solutionGraphV3.py: top-level imports", "ikbtbasics/matching.py: top-level imports", "ikbtbasics/ik_classes.py: top-level imports", "ikbtbasics/__init__.py: __all__", "helperfunctions.py, graph2latex.py: top level"]}
{"id": "C83", "title": "Trees that share a blackboard do not disturb each other", "statement": "Several trees may be ticked with the same blackboard, in any order, also trees that contain the same node objects or nodes with the same ids. The statuses (or exceptions) that the ticks of one tree give, and the worlds they leave, are those of this tree with a blackboard of its own, called in the same worlds; open marks, counters, start times, open_nodes and node_count of the other trees stay as they are. Only the global scope, TotalCost and the statistics kept in shared node objects are common.", "quantifier": "all finite sequences of ticks of any number of trees of any shape with any node ids, all behaviours of the leaves and of the clock on the world and the global scope, all changes of the world and of the global scope between the ticks, all contents of the blackboard left by earlier ticks", "why_tests_cant": "Isolation has to hold for every interleaving of ticks of every set of trees with every sharing of nodes; a test ticks one tree, or two in one order.", "anchors": ["b3/core/basenode.py: _execute, _open, _tick, _close", "b3/core/blackboard.py: Blackboard", "b3/core/behaviortree.py: BehaviorTree.tick", "b3/decorators/*.py"]}
{"id": "C84", "title": "After a tick that raised, the next ticks behave as on a new tree", "statement": "When a leaf raises (or a node itself does), the exception leaves the tick at once, without closing any node. A program may catch it and tick the same tree with the same blackboard again. If no leaf returns RUNNING, the worlds left and the statuses or exceptions of all later ticks are those of a tree and a blackboard that were never used. What an exception leaves behind is exactly this: the nodes on the way from the node that raised up to the root stay marked open; a tick that returns leaves the marks as they were.", "quantifier": "all trees, all leaves that do not return RUNNING and may raise anywhere after changing the world, all histories of ticks with exceptions at any points, all changes of the world between ticks, all clocks", "why_tests_cant": "The exception may come out of any node at any tick, after any earlier exceptions; a test raises at one place once.", "anchors": ["b3/core/basenode.py: _execute, _open, _tick, _close", "b3/core/behaviortree.py: BehaviorTree.tick", "b3/decorators/maxtime.py: MaxTime.open, MaxTime.tick", "b3/decorators/repeater.py", "b3/decorators/limiter.py"]}
{"id": "C85", "title": "What the runs of ikSolver.py and fkOnly.py leave on disk, when a run is killed or raises", "statement": "A run for a robot writes only the files of that robot: its pickle, its LaTeX report and its programs. However it ends and wherever it is killed, every file is as before, or as an undisturbed run leaves it, or a beginning of that; at most one file is incomplete, and all files written before that one are as the undisturbed run leaves them. Running the same command again after any number of kills gives the files of a run that was never killed; runs for other robots make no difference to the files of a robot; the templates of the reports are never written.", "quantifier": "all robots and names, all results of the computation between the file operations (including exceptions in the solver, the report and the generators), all initial contents of the disk, all points at which a run is killed and all amounts of unwritten buffer lost, all histories of runs of these programs and forward_kin2.py for several robots", "why_tests_cant": "A run can be killed between any two file operations, with any part of the buffer lost, in any history of earlier runs; a test kills at a few points.", "anchors": ["ikSolver.py", "fkOnly.py", "ikbtbasics/ik_classes.py: kinematics_pickle, check_the_pickle", "ikbtbasics/output_latex.py: LatexFile, output_latex_solution, output_FK_equations", "ikbtbasics/output_python.py: output_python_code, output_FK_python_code", "ikbtbasics/output_cpp.py: output_cpp_code", "forward_kin2.py"]}
{"id": "C86", "title": "Runs of ikSolver.py and fkOnly.py at the same time", "statement": "Commands that run at the same time (in several terminals, or started by a script for many robots) leave the files as if each had run alone. For different robots, and for the two programs on a robot that already has its pickle, every process is at every moment where it would be alone, with the same files. The same command started several times leaves, when all have ended, the files of one run.", "quantifier": "all numbers of processes, all commands and robots, all results of the computation, all initial contents of the disk, all orders in which the steps of the processes (reading a file, truncating a file, single characters reaching the disk) alternate, all processes killed anywhere", "why_tests_cant": "The order in which the operating system lets processes run cannot be enumerated by tests, and the outcome depends on it.", "anchors": ["ikSolver.py", "fkOnly.py", "ikbtbasics/ik_classes.py: kinematics_pickle", "ikbtbasics/output_latex.py: LatexFile", "ikbtbasics/output_python.py: output_python_code, output_FK_python_code", "ikbtbasics/output_cpp.py: output_cpp_code"]}
{"id": "C87", "title": "Solving several robots in one process", "statement": "A program may build the solver tree once and tick it for one robot after another, with a new blackboard for each or always the same one, and go on after exceptions. Each robot is solved as if it were the first of the process: the status, the solutions, their order and the exceptions are the same, nothing of an earlier robot enters the equations, and the guarantees of a single run hold.", "quantifier": "all sequences of robots, all unknowns and equations of each, all results of the computer algebra, runs that raise anywhere and leave anything behind, blackboards new or reused for each robot", "why_tests_cant": "The number and the order of the robots solved before are unbounded, and what they leave on a shared blackboard depends on their equations.", "anchors": ["ikSolver.py", "ikbtleaves/assigner_leaf.py: assigner.tick", "ikbtleaves/x2y2_transform.py: x2z2_transform", "b3/core/behaviortree.py: BehaviorTree.tick", "b3/core/blackboard.py: Blackboard"]}
{"id": "C88", "title": "Velocities and Jacobians of every frame of the arm", "statement": "After the forward kinematics the velocities of every frame (w_11 ... w_66, v_11 ... v_66) are its true angular and linear velocities in its own coordinates, for every motion of the joints. ManipJacobian_S, given the velocities of a frame and a list of joint rates, returns a matrix whose columns are the velocities of that frame when that joint alone moves at unit rate; it maps the rates to the velocities, contains no rates, and is zero for the joints after the frame. The script fk_EE543.py prints this matrix for frame 3 of its robot.", "quantifier": "all DH tables over any symbols, all joint types, all frames, all lists of joint rates, all differentiable motions of the joints, all values of the symbols", "why_tests_cant": "The claim is an identity of derivatives at every pose and rate; a test looks at single numbers.", "anchors": ["ikbtbasics/kin_cl.py: mechanism.forward_kinematics", "ikbtbasics/pykinsym.py: ManipJacobian_S", "fk_EE543.py"]}
