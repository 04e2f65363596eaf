#!/usr/bin/env python3
"""Writes /verif/properties.jsonl (one property per line)."""
import json
P=[]
def p(id,title,statement,quantifier,why,anchors):
    P.append(dict(id=id,title=title,statement=statement,quantifier=quantifier,why_tests_cant=why,anchors=anchors))

# ---------------- behaviour-tree engine ------------------------------------------------
p("C01","Sequence stops at the first child that does not succeed",
 "Ticking a b3.Sequence executes its children from left to right; it returns SUCCESS exactly when every child returned SUCCESS, otherwise it returns the status of the first child whose status was not SUCCESS, and no child to the right of that one is executed.",
 "every list of children, every behaviour of the leaves, every state of the tree and blackboard",
 "The number of children, their nesting and the statuses/side effects of the leaves are unbounded; a test samples a handful of trees.",
 ["b3/composites/sequence.py:Sequence.tick","b3/core/basenode.py:BaseNode._execute"])
p("C02","Priority stops at the first child that does not fail",
 "Ticking a b3.Priority executes its children from left to right; it returns FAILURE exactly when every child returned FAILURE, otherwise the status of the first child whose status was not FAILURE, and no child to the right of that one is executed.",
 "every list of children, every behaviour of the leaves, every state",
 "Unbounded trees and leaf behaviours.",
 ["b3/composites/priority.py:Priority.tick"])
p("C03","OrNode runs every child and succeeds iff one of them did",
 "Ticking a b3.OrNode executes all of its children in order whatever their statuses, and returns SUCCESS exactly when some child returned SUCCESS, FAILURE otherwise.",
 "every list of children, every behaviour of the leaves, every state",
 "Unbounded trees; the RUNNING/ERROR statuses of a child are never exercised by the repository's tests.",
 ["b3/composites/ornode.py:OrNode.tick"])
p("C04","RepeatUntilSuccess retries a failing child at most max_loop times",
 "A RepeatUntilSuccess(child,n) with n>0 executes its child again exactly while it returns FAILURE, at most n times, and returns the status of the last execution of the child.",
 "every bound n, every child, every sequence of statuses the child returns over time",
 "The child's statuses depend on its whole history, and n and the history are unbounded.",
 ["b3/decorators/repeatuntilsuccess.py:RepeatUntilSuccess.tick"])
p("C05","Repeater and RepeatUntilFailure obey their bound and return the last child status",
 "A RepeatUntilFailure(child,n) with n>0 executes its child again exactly while it returns SUCCESS, at most n times; a Repeater(child,n) executes it again while it returns SUCCESS or FAILURE, at most n times; both return the status of the last execution (Repeater with n=0 returns SUCCESS without executing the child). No repeat decorator with a non-negative bound raises.",
 "every bound, every child, every sequence of statuses",
 "Unbounded histories; the max_loop=0 corner is never exercised.",
 ["b3/decorators/repeater.py:Repeater.tick","b3/decorators/repeatuntilfailure.py:RepeatUntilFailure.tick","b3/decorators/repeatuntilsuccess.py:RepeatUntilSuccess.tick"])
p("C06","Inverter swaps SUCCESS and FAILURE and nothing else",
 "An Inverter executes its child exactly once and returns FAILURE for SUCCESS, SUCCESS for FAILURE, and any other status unchanged; two nested Inverters return what the child returns.",
 "every child, every state","Unbounded trees.",["b3/decorators/inverter.py:Inverter.tick"])
p("C07","A tick that ends with no RUNNING node leaves no node open",
 "If every node of the tree is closed before a tick and no leaf returns RUNNING, then after the tick every node is closed again, the tick's list of open nodes is empty, and the next tick behaves as on a fresh tree (its statuses and leaf effects do not depend on previous ticks' bookkeeping).",
 "every tree with distinct node objects, every leaf behaviour without RUNNING, every number of ticks",
 "Quantifies over all trees and over all tick histories.",
 ["b3/core/basenode.py:BaseNode._execute","b3/core/tick.py:Tick","b3/core/behaviortree.py:BehaviorTree.tick"])
p("C08","Node statistics are consistent",
 "After any history of ticks, a node's N_success is at most its N_ticks_all, both counters never decrease, and N_ticks_all equals the number of times the node was executed; closing a node never pops from an empty list.",
 "every tree, every leaf behaviour (RUNNING and ERROR included), every number of ticks",
 "Quantifies over all histories.",["b3/core/basenode.py:BaseNode._tick","b3/core/tick.py:Tick._close_node"])
p("C09","TotalCost is the summed cost of the leaves that ran",
 "The blackboard's 'TotalCost' grows during a tick by the sum of the Costs of the leaves executed in it.",
 "every tree, every assignment of costs","Unbounded nesting depth.",
 ["b3/core/basenode.py:BaseNode._tick","b3/core/blackboard.py:Blackboard.inc","b3/composites/sequence.py:Sequence.tick"])
p("C10","Limiter stops executing its child after max_loop completed executions",
 "Over any number of ticks a Limiter(child,n) lets its child complete (return SUCCESS or FAILURE) at most n times and returns FAILURE from then on.",
 "every n, every child, every number of ticks","Quantifies over all tick histories.",["b3/decorators/limiter.py:Limiter"])
p("C11","Blackboard scopes are isolated and reads return the last write",
 "After any sequence of blackboard writes, reading a key in a scope (global, per tree, per node of a tree) returns the value most recently written to that key in that same scope, and None if there was no such write; a write never changes what is read from any other scope or key.",
 "every sequence of set/get operations, every key, every tree and node id","Quantifies over all operation sequences and over all (also internal) key names.",
 ["b3/core/blackboard.py:Blackboard"])
p("C12","MemSequence and MemPriority resume at the running child",
 "MemSequence and MemPriority behave as Sequence and Priority except that a tick following a RUNNING child resumes at that child.",
 "every list of children, every history of ticks","Quantifies over all histories.",
 ["b3/composites/memsequence.py:MemSequence.tick","b3/composites/mempriority.py:MemPriority.tick"])
p("C13","load inverts dump",
 "Loading the dictionary produced by BehaviorTree.dump gives back a tree with the same nodes in the same order, hence with the same behaviour.",
 "every tree with distinct node ids","Quantifies over all trees.",
 ["b3/core/behaviortree.py:BehaviorTree.dump","b3/core/behaviortree.py:BehaviorTree.load"])
p("C14","A tick of a tree without unbounded repeaters terminates",
 "If no repeat decorator in the tree has a negative max_loop, one tick performs only finitely many leaf executions, bounded by the product of the loop bounds; in particular the IKBT solver tree calls each solver leaf at most 10*6 times per tick.",
 "every tree, every leaf behaviour","Non-termination cannot be observed by a test, and the trees are unbounded.",
 ["b3/decorators/repeater.py","b3/decorators/repeatuntilfailure.py","b3/decorators/repeatuntilsuccess.py","ikSolver.py:230-243"])
p("C15","MaxTime fails a child that takes longer than max_time",
 "A MaxTime(child,t) returns FAILURE whenever more than t time passed from its opening to the end of the child's execution, and the child's status otherwise.",
 "every child, every clock behaviour","Quantifies over all clock readings.",["b3/decorators/maxtime.py:MaxTime"])

# ---------------- solution bookkeeping ------------------------------------------------
p("C16","The solution set lists every combination of solution branches exactly once",
 "For unknowns solved in some order with n1,...,nk solutions each, the set of joint solution vectors produced by create_solution_set has n1*...*nk rows, the rows are pairwise different, and each row picks for each unknown one of its solutions so that every combination of picks occurs exactly once.",
 "every number of unknowns, every list of solution counts","Quantifies over all lists of solution counts.",
 ["ikbtbasics/ik_classes.py:Robot.create_solution_set","IKdocs/solExamp.tex"])
p("C17","Every solution vector assigns every solved unknown, in solving order",
 "Each row of the solution list has exactly one entry per solved unknown and the entry in column c names the c-th solved unknown, so that (unless an unknown is solved twice or occurs in its own solution) reading a row left to right only uses values computed earlier.",
 "every list of solved unknowns","Quantifies over all lists.",["ikbtbasics/ik_classes.py:Robot.create_solution_set"])
p("C18","The versioned equations define each version of each unknown from earlier ones",
 "make_LHS_versions produces, for every row of the solution list and every unknown, one equation whose left side is that row's name for the unknown and whose right side is the matching solution with the unknowns it depends on replaced by that row's names; every solution of every unknown is used.",
 "every solution list","Quantifies over all numbers of unknowns, rows and solutions.",["ikbtbasics/ik_classes.py:Robot.make_LHS_versions"])
p("C19","set_solved records a well-founded solution order",
 "After any sequence of set_solved calls, the recorded solve orders are 1,2,3,... in call order, an unknown's solution depends only on unknowns solved strictly before it, and the solution graph has no cycle.",
 "every sequence of set_solved calls on every set of unknowns and solutions","Quantifies over all call histories.",
 ["ikbtbasics/kin_cl.py:unknown.set_solved","ikbtfunctions/helperfunctions.py:get_deps","ikbtbasics/solutionGraphV3.py"])
p("C20","The number of versions of an unknown is the number of ways to instantiate its solutions",
 "nversions of a solved unknown equals its number of solutions times the product of the numbers of versions of the unknowns it depends on.",
 "every dependency graph","Quantifies over all graphs.",["ikbtbasics/kin_cl.py:unknown.set_solved","IKdocs/solExamp.tex"])

# ---------------- equations bookkeeping ------------------------------------------------
p("C21","Equation lists are sorted by number of unsolved unknowns",
 "After scan_for_equations every equation put into the one-, two- and three-or-more-unknowns lists has exactly 1, exactly 2, or at least 3 distinct unsolved unknowns, and every non-trivial entry of every matrix equation is in exactly the list for its number of unsolved unknowns (up to equality).",
 "every list of matrix equations, every set of unknowns with any of them solved","Quantifies over all equations and solved sets.",
 ["ikbtbasics/ik_classes.py:Robot.scan_for_equations","ikbtfunctions/helperfunctions.py:count_unknowns"])
p("C22","Ranking equations reorders without losing or inventing any",
 "erank returns a permutation of the given list of equations, in non-decreasing order of operation count, and keeps equations with equal count in their original order.",
 "every list of equations","Quantifies over all lists.",["ikbtbasics/ik_classes.py:erank"])
p("C23","Equal equations are found equal regardless of how they are used in lists or sets",
 "Equality of kequation objects is an equivalence relation that agrees with equality of both sides, membership tests agree with it, and two equal equations have equal hashes.",
 "every pair/triple of equations","Quantifies over all expressions.",["ikbtbasics/kin_cl.py:kequation.__eq__","ikbtbasics/kin_cl.py:kequation.__hash__"])
p("C24","The variable counting helpers agree with the variables that occur",
 "count_unknowns, get_unknowns, get_variables and get_deps return respectively the number, the set, all and the solved subset of the listed unknowns occurring in an expression, and get_deps rejects expressions that contain an unsolved unknown.",
 "every expression, every list of unknowns","Quantifies over all expressions.",["ikbtfunctions/helperfunctions.py"])
p("C25","updateL keeps every equation available and classified by its current number of unknowns",
 "After updateL, the lists contain every equation of the matrix equations and every auxiliary equation, classified by the number of unknowns still unsolved.",
 "every robot state","Quantifies over all histories of solved unknowns.",["ikbtleaves/updateL.py:updateL"])

# ---------------- kinematics ------------------------------------------------
p("C26","A link transform is a rigid motion with the modified DH form",
 "The 4x4 matrix built from a DH row equals RotX(alpha)*TransX(a)*TransZ(d)*RotZ(theta), and it is a homogeneous rigid transform (its rotation part is orthonormal with determinant 1, last row 0 0 0 1).",
 "every real alpha, a, d, theta","Quantifies over all reals.",["ikbtbasics/pykinsym.py:Link_S","ikbtbasics/pykinsym.py:Link_N"])
p("C27","The symbolic inverse is the inverse",
 "H_inv_S of a rigid transform T is its two-sided inverse and again a rigid transform.",
 "every rigid transform","Quantifies over all reals.",["ikbtbasics/pykinsym.py:H_inv_S"])
p("C28","All generated matrix equations follow from the forward kinematics and imply it",
 "Each of the matrix equations produced by get_mequation_set holds for joint values q whenever T_desired equals the forward kinematics at q, and conversely each single one of them implies it.",
 "every DH table, every joint vector, every target pose","Quantifies over all robots and poses.",["ikbtbasics/kin_cl.py:mechanism.get_mequation_set"])
p("C29","The forward kinematics is a rigid transform and the product of the link transforms",
 "For every DH table, T_06 is the ordered product of the six link transforms and is a rigid transform; entries of the target outside the model (last row) are constant 0 0 0 1.",
 "every DH table and joint vector","Quantifies over all reals.",["ikbtbasics/kin_cl.py:mechanism.forward_kinematics","ikbtbasics/kin_cl.py:mechanism.forward_kinematics_N"])
p("C30","The velocity recursion gives the true end-effector velocity",
 "For every robot, joint trajectory and time, the linear and angular velocity computed by the outward recursion equal the end-effector frame's body-frame velocities obtained by differentiating the forward kinematics along the trajectory (hence J66 maps joint rates to them).",
 "every DH table with revolute and prismatic joints, every differentiable joint trajectory","A limit statement over all trajectories.",["ikbtbasics/kin_cl.py:mechanism.forward_kinematics"])
p("C31","The elementary rotation matrices are rotations and RPY composes them",
 "RotX/RotY/RotZ (3x3 and 4x4) are orthonormal with determinant one, compose additively in the angle, fix their axis; RPY3_S/RPY4_S are the products RotZ(rz) RotY(ry) RotX(rx) in documented order, and Trans4_S composes additively.",
 "every real angle","Quantifies over all reals.",["ikbtbasics/pykinsym.py"])
p("C32","wrap_angle_N brings any angle into the principal range without changing it modulo 2*pi",
 "The result differs from the argument by a multiple of 2*pi and lies in [-pi, pi].",
 "every real angle","Quantifies over all reals.",["ikbtbasics/pykinsym.py:wrap_angle_N","ikbtbasics/pykinsym.py:approx_N"])
p("C33","notation_squeeze/sum-of-angle substitutions preserve the value of every expression",
 "Rewriting an expression with the abbreviations c_ij/s_ij/th_ij and the sum-of-angle identities gives an expression with the same value for every joint vector.",
 "every expression and joint vector","Quantifies over all expressions.",["ikbtbasics/pykinsym.py:notation_squeeze","ikbtbasics/ik_classes.py:sum_of_angles_sub"])

# ---------------- solver leaves ------------------------------------------------
p("C34","Every solution of the linear (algebra) solver satisfies its equation, and no other does",
 "When the algebra solver reports a solution for an equation A*u+B=C with A non-zero, the value satisfies the equation and is the only one that does.",
 "every real coefficient","Quantifies over all reals.",["ikbtleaves/algebra_solver.py"])
p("C35","arcsin/arccos solutions are sound and complete modulo 2*pi",
 "When A*sin(u)+B=C (or cos) is solvable over the reals, both reported values satisfy it and every solution equals one of them modulo 2*pi.",
 "every real A,B,C with A non-zero","Quantifies over all reals.",["ikbtleaves/sincos_solver.py"])
p("C36","atan2 solutions are sound and complete modulo 2*pi",
 "From A*sin(u)=Y and B*cos(u)=X the tangent solver's answer(s) satisfy both equations whenever they are consistent, and every u satisfying both equals one of the answers modulo 2*pi; the two-answer form lists exactly the candidates for the two signs of the common factor.",
 "every real data with non-zero factors","Quantifies over all reals.",["ikbtleaves/tan_solver.py"])
p("C37","A*sin(u)+B*cos(u)=C solutions are sound and complete modulo 2*pi",
 "Whenever A^2+B^2>=C^2 and (A,B) is not zero, the two reported angles satisfy the equation, and every solution equals one of them modulo 2*pi.",
 "every real A,B,C","Quantifies over all reals.",["ikbtleaves/sinANDcos_solver.py"])
p("C38","The simultaneous-equation solution is sound and complete modulo 2*pi",
 "From A=C*cos(u)+... the matched pair, the reported atan2 value satisfies both equations whenever they have a common solution, and is the unique one modulo 2*pi.",
 "every real coefficients not both zero","Quantifies over all reals.",["ikbtleaves/two_eqn_m7.py"])
p("C39","The x2z2 transform produces consequences of the equations it squares",
 "Every equation that x2z2_transform adds holds at every joint vector that satisfies the equations it was derived from, and it contains fewer unknowns.",
 "every equations and joint vectors","Quantifies over all expressions.",["ikbtleaves/x2y2_transform.py"])
p("C40","Substituting matrix elements into each other keeps the solution set",
 "sub_transform replaces equations only by equations that are equivalent given the remaining ones and never increases the number of unsolved unknowns of an equation.",
 "every matrix equation","Quantifies over all expressions.",["ikbtleaves/sub_transform.py"])

# ---------------- the solver loop ------------------------------------------------
p("C41","Solved unknowns stay solved and each is recorded in the solution graph exactly once",
 "During a run of the solver tree no unknown ever becomes unsolved, each solved unknown has exactly one node in the solution graph, and its solutions are not changed after it was solved.",
 "every robot and every sequence of leaf outcomes","Quantifies over all histories.",["ikSolver.py","ikbtleaves/rank_leaf.py","ikbtleaves/tan_solver.py","ikbtbasics/kin_cl.py"])
p("C42","The assigner offers every unsolved unknown in turn",
 "Repeated ticks of the assigner leaf hand out every unsolved unknown before handing out any of them a second time, and never hand out a solved unknown while an unsolved one exists.",
 "every list of unknowns, every pattern of solved flags","Quantifies over all histories.",["ikbtleaves/assigner_leaf.py"])
p("C43","Completion is reported exactly when everything is solved",
 "comp_det returns SUCCESS (or FAILURE in its fail-when-done mode) exactly when every unknown is solved, and its printed report names every unknown once, in order, marks exactly the unsolved ones as unsolved, and counts them correctly.",
 "every list of unknowns","Quantifies over all lists.",["ikbtleaves/comp_detect.py"])
p("C44","rank picks the candidate with fewer solutions, then the simpler one",
 "When both the tangent and the sin/cos solver solved an unknown, the kept candidate has the fewer solutions, and among equals the one with fewer variables (tangent on ties); if only one did, that one is kept; if none did, the unknown is not marked solved.",
 "every pair of candidate solution lists","Quantifies over all expressions.",["ikbtleaves/rank_leaf.py"])
p("C45","The solver reports success only when all joints are solved",
 "If the top-level tree returns SUCCESS then every unknown is solved; the result is independent of bookkeeping, and it always returns within its loop bounds.",
 "every robot, every leaf behaviour","Quantifies over all histories.",["ikSolver.py:230-300"])

# ---------------- output & configuration ------------------------------------------------
p("C46","The generated C++ computes the same value as the symbolic solution",
 "The C++ text emitted for a solution expression denotes the same arithmetic expression.",
 "every expression","Quantifies over all expressions.",["ikbtfunctions/output_cpp.py:cpp_output.line"])
p("C47","Generated code has balanced blocks and assigns every solved unknown",
 "The C++ code emitted for any solution set has balanced braces, and it and the Python code contain, for every row of the solution list, exactly one assignment to every unknown of the row, before any use.",
 "every set of solved unknowns","Quantifies over all solutions.",["ikbtfunctions/output_cpp.py","ikbtfunctions/output_python.py"])
p("C48","A cached forward kinematics is only used for the DH table it was computed from",
 "When a pickle file exists for a robot name, the kinematics returned are those of the robot description passed in, or the program stops.",
 "every sequence of runs with any robot descriptions","Quantifies over all histories of runs.",["ikbtbasics/ik_classes.py:kinematics_pickle","ikbtbasics/ik_classes.py:check_the_pickle"])
p("C49","Every robot offered by name is defined",
 "robot_params accepts exactly the names it defines, and returns for each accepted name a DH table with six rows, a joint type per row, and the list of its joint variables with their row numbers.",
 "every name","The set of strings is unbounded.",["ikbtfunctions/ik_robots.py:robot_params"])
p("C50","matching_func groups solution notations into complete, conflict-free poses",
"Given subgroups of compatible solution notations and the solution nodes, matching_func returns groups that contain exactly one solution notation of every unknown, listed in the order of the unknowns, and returns every such group that the subgroups allow.",
"every list of subgroups, every list of nodes, every set iteration order","Quantifies over all inputs and the hash order of Python sets.",["ikbtbasics/matching.py:matching_func","ikbtbasics/matching.py:search_notation","ikbtbasics/matching.py:sort_variables"])
p("C51","No solution is lost: every joint vector that reaches the pose is among the computed solutions",
 "After a run of the solver, for every assignment of the joint variables that satisfies the initial matrix equations (and at which no coefficient divided by vanishes), the value of every solved joint equals, up to full turns for angles, one of the solutions recorded for it evaluated at that assignment.",
 "every robot, every run of the solver, every joint vector outside the singular ones","Quantifies over all equations, runs and real joint vectors.",["ikSolver.py","ikbtleaves/*.py"])
p("C52","The generated Python function returns the solution list, or False exactly when a domain test fails",
 "A call of the generated function returns a list with one vector per solution set if all arguments of asin/acos are within [-1,1], and False if one is not; it does not raise.",
 "every robot solution, every pose, every meaning of the expression texts","Quantifies over all generated programs and inputs.",["ikbtfunctions/output_python.py:output_python_code"])
p("C53","Every joint vector in the solution list reaches the pose",
 "After a successful run, evaluating any row of the solution list at a reachable pose gives joint values that satisfy the matrix equations (forward kinematics equals the target).",
 "every robot, every run, every row, every reachable non-singular pose","Quantifies over all robots and all real poses.",["ikSolver.py", "ikbtbasics/ik_classes.py:Robot.create_solution_set", "ikbtleaves/"])
p("C54","A tick publishes the nodes that are open",
 "After a tick the published list of open nodes is exactly the set of nodes whose open flag is set: the path from the root to the running leaf if the tick returned RUNNING, none otherwise; a node that was running and is not reached by a later tick is closed, so that it starts afresh the next time.",
 "every tree, all leaves, every history of ticks","Quantifies over all trees and all histories of ticks.",["b3/core/behaviortree.py:tick", "b3/core/tick.py", "b3/core/basenode.py:_execute"])
p("C55","Wait answers RUNNING until its time has passed, then SUCCESS",
 "A Wait(ms) node answers RUNNING at every execution whose clock reading is at most ms after the reading at which the round started, SUCCESS at the first one beyond, and then starts a new round; it never crashes.",
 "every duration, every clock (also one that goes back), any number of executions","Quantifies over all histories of executions and all clocks.",["b3/actions/wait.py"])
p("C56","prob() estimates a node's success rate and get_Utility() the success per cost",
 "After any history, prob() of a node is its number of successes over its number of executions (0.1 before the first), and get_Utility() is prob() over Cost.",
 "every tree, all leaves, every history of ticks","Quantifies over all histories.",["b3/core/basenode.py:prob", "b3/core/basenode.py:get_Utility", "b3/core/basenode.py:_tick"])
p("C57","An identifier succeeds exactly when there is an equation it can use",
 "Each identifying leaf returns SUCCESS if and only if the current unknown is unsolved and one of the equations (or pairs of equations) on the blackboard has the form the leaf looks for; it then records the first one together with the method, and changes nothing else. Otherwise it returns FAILURE and changes nothing. It never raises an exception.",
 "every identifier leaf, every list of equations, every unknown, every history","Quantifies over all lists of equations and all symbolic forms.",["ikbtleaves/algebra_solver.py:algebra_id", "ikbtleaves/sincos_solver.py:sincos_id", "ikbtleaves/tan_solver.py:tan_id", "ikbtleaves/sinANDcos_solver.py:sinANDcos_id", "ikbtleaves/two_eqn_m7.py:simu_id", "ikbtleaves/x2y2_transform.py:x2z2_transform"])
p("C58","The bounded loops are long enough",
 "If the equations determine the unknowns one after another (each from an equation linear in it with only earlier ones), the solver, which tries at most six unknowns per round and does at most ten rounds, solves them all and returns SUCCESS.",
 "every list of unknowns, every set of equations, every order in which they become solvable","Quantifies over all systems of equations, all orders of the unknowns and the whole history of the two nested loops; a failure needs a particular order.",["ikSolver.py:subtree", "ikSolver.py:solveRoutine", "ikSolver.py:topnode", "ikbtleaves/assigner_leaf.py:assigner", "ikbtleaves/algebra_solver.py:algebra_id"])
p("C59","The generated forward kinematics program computes the forward kinematics",
 "For every robot, the Python file written by output_FK_python_code assigns every parameter its value, every joint variable the value the user gives, and every sum-of-angles variable the sum of its angles, all before they are used; so the T06 it prints is the forward kinematics at those values.",
 "every robot description, every outcome of the sum-of-angles transform, all joint values","Quantifies over all variable lists the transform can produce and all joint values.",["ikbtfunctions/output_python.py:output_FK_python_code", "fkOnly.py", "ikbtbasics/ik_classes.py:sum_of_angles_sub"])
p("C60","What the output calls write does not depend on the history of calls",
 "After the solver has run, create_solution_set, output_latex_solution, output_python_code and output_cpp_code may be called in any order and any number of times: each writes the same as if it were the only one called after create_solution_set.",
 "all histories of these calls, all solution graphs","Quantifies over all call histories; a test runs one script.",["ikbtbasics/ik_classes.py:make_LHS_versions", "ikbtbasics/ik_classes.py:create_solution_set", "ikbtfunctions/output_latex.py:output_latex_solution", "ikbtfunctions/output_python.py:output_python_code", "ikbtfunctions/output_cpp.py:output_cpp_code", "ikSolver.py:405-412"])
p("C61","The generated inverse kinematics program can be loaded by Python",
 "For every robot and every solution graph, the text written by output_python_code is accepted by the Python interpreter: consistent indentation, function names that are identifiers, no statement of another version of the language.",
 "every robot name, parameter list and solution graph; Python 2 and Python 3","Quantifies over all generated files.",["ikbtfunctions/output_python.py:output_python_code"])
p("C62","The LaTeX report shows all of the solution",
 "The report of a solved robot is accepted by LaTeX (environments, braces, dollars, alignment marks and table cells nest and fit) and shows, in order, the DH matrix, the columns of the forward kinematics, every solved unknown, for each of them every solution under its own name and its equation in every version, every row of the solution set, and the columns of the Jacobian; output_FK_equations shows the DH matrix, the forward kinematics and the Jacobian.",
 "all robots, runs of the solver, texts printed by sympy","Quantifies over all robots, numbers of solutions and versions and printed texts; tests never read the report.",["ikbtfunctions/output_latex.py:output_latex_solution", "ikbtfunctions/output_latex.py:output_FK_equations", "ikbtfunctions/output_latex.py:LatexFile", "ikbtbasics/kin_cl.py:LaTexOutput", "ikbtleaves/rank_leaf.py:rank"])
p("C63","Results do not depend on the iteration order of Python sets",
 "Running the program twice on the same robot, with different hash seeds, gives the same unknowns, solution graph, numbers of versions and the same set of joint vectors: where the code iterates over a set (dependencies, graph edges, sums of angles found in an expression, the solution set) the order of iteration changes nothing but the order of rows.",
 "all iteration orders of all sets at all calls, all robots and histories of solved unknowns, all inputs of the generated programs","A test runs one process with one hash seed.",["ikbtbasics/kin_cl.py:set_solved", "ikbtbasics/ik_classes.py:sum_of_angles_transform", "ikbtbasics/ik_classes.py:sum_of_angles_sub", "ikbtbasics/ik_classes.py:create_solution_set", "ikbtfunctions/output_python.py:output_python_code", "ikbtfunctions/output_cpp.py:output_cpp_code"])
p("C64","The generated C++ writes only inside its array of solutions",
 "The generated C++ program, which declares its result as double[64][6], never writes an element outside of it.",
 "all robots, runs of the solver and orders of the solution set","An out-of-bounds write is undefined behaviour that depends on the robot and is silent in a test.",["ikbtfunctions/output_cpp.py:output_cpp_code", "ikbtbasics/ik_classes.py:create_solution_set"])
p("C65","The generated C++ function assigns only variables that it declares, in complete statements",
 "In the generated C++ file every variable that the function ikin assigns is declared in it, and every statement line is complete (ends with a semicolon, a brace, or is the head of an if or a comment).",
 "all robots, solved unknowns, parameters, solution sets and orders of the sets","Whether the file compiles depends on the names in the solution set and the methods of all unknowns; no test compiles the output.",["ikbtfunctions/output_cpp.py:output_cpp_code", "ikbtfunctions/output_cpp.py:line"])
p("C66","Numerical forward kinematics and numerical matrices agree with the symbolic ones",
 "forward_kinematics_N returns the product of the link transforms for the given pose and parameters (parameters win), or stops if a needed value is missing; the numerical matrix functions return the values of the symbolic ones.",
 "all DH tables, poses, parameter dictionaries and arguments","Agreement for all poses and parameters, and the independence of the result from values that were not given, are statements about all inputs.",["ikbtbasics/kin_cl.py:forward_kinematics", "ikbtbasics/kin_cl.py:forward_kinematics_N", "ikbtbasics/pykinsym.py:Num_check", "ikbtbasics/pykinsym.py:RPY4_N", "ikbtbasics/pykinsym.py:H_inv_N"])
p("C67","The short notation shows the same expression",
 "notation_squeeze, which abbreviates every shown matrix, keeps the value of every element, loses nothing (it can be written out again to exactly the given expression) and leaves no sine or cosine of a joint angle.",
 "all expressions and all values of the symbols","A wrong entry in the table of 24 replacements would show only for particular matrices; value preservation and losslessness are about all expressions.",["ikbtbasics/pykinsym.py:notation_squeeze"])
p("C68","The Puma solutions of the checker script reach the pose they were computed from",
 "solChecker.py computes a pose of the Puma by forward kinematics, eight joint vectors from the pose with the formulas that the solver generated, and the pose again from each vector: every one of the eight vectors reaches the pose, and every joint vector that reaches the pose is one of them (modulo full turns).",
 "all joint vectors and all real parameters of the Puma, all poses","Quantifies over all real poses and parameters; the formulas are transcendental.",["solChecker.py", "ikbtfunctions/ik_robots.py:robot_params (Puma)", "ikbtbasics/pykinsym.py:deg", "ikbtbasics/kin_cl.py:forward_kinematics_N"])
p("C69","The generated solutions of the Wrist give the orientation they were computed from",
 "The generated function ikin_Wrist of tests/Wrist_IK_loop_test.py returns for every reachable pose of the Wrist two different joint vectors; each of them gives the orientation of the pose by forward kinematics with the DH table of the Wrist, every joint vector that gives it is one of them (modulo full turns), and the loop test prints errors of zero only if the pose is reached.",
 "all rigid poses and all joint vectors","Quantifies over all rotations; the formulas are transcendental and have singular poses a test will not hit.",["tests/Wrist_IK_loop_test.py:ikin_Wrist", "ikbtfunctions/ik_robots.py:robot_params (Wrist)", "ikbtbasics/kin_cl.py:forward_kinematics_N"])
p("C70","The statistics of a node count its executions since the last reset, also by state",
 "After any history of executions, changes of state, cost and mode, resets and questions, N_ticks_all, N_success and N_suc2[k] of a node are the numbers of executions, of successes, and of successes in state k since the last p_reset(); prob_state()[k] is the success rate in state k (0.5 before the first execution in it), get_Utility2() is computed from it and from the current cost and mode; asking for statistics changes no counter, and no execution raises.",
 "all histories of one node","Quantifies over all histories; the state, cost and mode are public fields that can change at any point.",["b3/core/basenode.py:_tick", "b3/core/basenode.py:prob_state", "b3/core/basenode.py:get_Utility", "b3/core/basenode.py:get_Utility2", "b3/core/basenode.py:p_reset", "b3/core/basenode.py:report_stats"])
p("C71","A zero made by python and a zero made by sympy are the same to the solver",
 "Equations whose left side is the python number 0 (which the list update makes from auxiliary equations) are treated by every solver leaf like equations with sympy's zero on the left: a run ends with the same exception or the same status and the same state, and in particular never with AttributeError because a method is called on a python number.",
 "all lists of unknowns, matrix equations and auxiliary equations, all rounds of the solver","The python number gets into the lists only in some round after an auxiliary equation was made, and which leaf meets it first depends on the history of the run.",["ikbtleaves/updateL.py:updateL.tick", "ikbtleaves/sincos_solver.py:sincos_id.tick", "ikbtleaves/x2y2_transform.py:x2z2_transform.tick", "ikbtleaves/algebra_solver.py:algebra_id.tick", "ikSolver.py:worktools"])
p("C72","The sum-of-angles leaf solves the missing part of a sum",
 "A tick of sum_solve leaves every unknown exactly as it was, except unsolved unknowns that are one part of a sum of angles th_xy = th_x + th_y whose sum and other part are solved: these become solved, with the one solution for which the equation holds. It returns SUCCESS exactly when it solved something, FAILURE otherwise, and raises nothing; afterwards no such sum has one missing part.",
 "all lists of unknowns in all solving states, all lists of auxiliary equations, and all answers of the pattern matcher that satisfy the pattern","The leaf can be ticked in every intermediate state of the solver; which parts are known then depends on the whole history, and the list of sums on the robot.",["ikbtleaves/sum_id.py:sum_solve.tick", "ikbtfunctions/helperfunctions.py:find_obj", "ikbtbasics/kin_cl.py:unknown.set_solved"])
p("C73","Unknowns, nodes and edges with the same symbols are the same to sets and comparisons, and nodes sort in solving order",
 "Two unknown or Node objects are equal exactly when their symbols are, compare unequal to everything else without raising, and equal objects have equal hashes, so that after any history of additions a set of them contains each symbol once and membership tests answer by symbol, whatever the hash seed of the process; likewise edges by their two ends and multiplicity. Sorting a list of nodes puts them in solving order.",
 "all objects, all symbols, all hash functions, all histories of set additions, all lists of nodes","Hash values change from process to process, and the outcome of a set operation depends on every object added before.",["ikbtbasics/kin_cl.py:unknown.__eq__", "ikbtbasics/kin_cl.py:unknown.__hash__", "ikbtbasics/solutionGraphV3.py:Node", "ikbtbasics/solutionGraphV3.py:Edge"])
p("C74","The drawing of a solution graph shows every node and edge of it",
 "Called on the root of a graph of nodes, the drawing function prints nested child groups that, read back, are the graph below the root: every node once, under its parent, with its label and with its children in order. It ends for every graph.",
 "all graphs of nodes, all roots, all recursion limits","Quantifies over all graphs, of any size and depth; the children and parents lists are filled separately.",["ikbtfunctions/graph2latex.py:tikz_place_children", "ikbtfunctions/graph2latex.py:newnode"])
p("C75","The Jacobian shows the joints of the robot and no others",
 "A robot with fewer than six joints is described with empty rows: they do not change the pose of the last frame; the Jacobian has, for each joint, the velocities of the last frame when that joint alone moves at unit rate, and nothing for the rows without a joint.",
 "all DH tables with any pattern of empty rows, all joint types, all values and motions of the joints; all robots of the table","Quantifies over all real tables and motions; the derivative cannot be observed by testing, and the expressions are symbolic.",["ikbtbasics/kin_cl.py:mechanism.forward_kinematics", "ikbtbasics/pykinsym.py:ManipJacobian_S", "ikbtfunctions/ik_robots.py:robot_params"])
p("C76","A leaf that cannot use an equation declines; no equation aborts the run",
 "Given any equations, a run of the solver ends with SUCCESS or FAILURE and not with an exception: a leaf offered an equation it cannot solve returns FAILURE and leaves the unknown to the other leaves.",
 "all unknowns, matrix equations and auxiliary equations, all answers of sympy, all runs of the solver","The repository's own tests (tan_solver.py:443-537, sincos_solver.py:377-415) fix two shapes of equations seen on two robots; the claim is about all equations and about all states a run can reach, including those that other leaves leave behind.",["ikSolver.py", "ikbtleaves/tan_solver.py:tan_id,tan_solve", "ikbtleaves/sincos_solver.py:sincos_solve", "ikbtleaves/rank_leaf.py", "ikbtleaves/sum_id.py", "ikbtbasics/kin_cl.py:unknown.set_solved", "ikbtfunctions/helperfunctions.py:get_deps"])
p("C77","The equations printed for an unknown are the ones its solutions solve, exactly",
 "For every solved unknown the program prints the equation(s) it was solved from. These equations follow from the equations of the robot, and the unknown's solutions are exactly their solutions: every value that satisfies the printed equations is one of the solutions, and every solution satisfies them.",
 "all unknowns, matrix equations and auxiliary equations, all sound answers of sympy, all runs of the solver, all values of the other symbols at which no divisor is zero","The printed equations and the solutions are set by different leaves at different times, over rounds; a test compares them on one robot, and checks numbers, not the set of all real solutions.",["ikSolver.py:414-423", "ikbtbasics/kin_cl.py:unknown", "ikbtleaves/algebra_solver.py", "ikbtleaves/sincos_solver.py", "ikbtleaves/tan_solver.py", "ikbtleaves/sinANDcos_solver.py", "ikbtleaves/two_eqn_m7.py", "ikbtleaves/rank_leaf.py"])
p("C78","From the DH table to the solutions: no arm configuration is lost",
 "Running the program on a robot definition (a DH table with its list of joint variables) hands the solver eight matrix equations, each of which says exactly that the arm has the target pose; and whatever the solver then computes, every joint vector (at which none of the divisors in the run vanishes) is among the solutions: each solved joint has a solution whose value at the pose of the arm is the joint's value (angles modulo 2 pi), for a run reported as a success this holds for all joints, exactly one row of the solution table carries that choice of solutions, and the joint values computed from a suitable row give the arm the same pose.",
 "all DH tables (any expressions in the entries), all lists of joint variables, all joint values and parameter values, and every behaviour of sympy that preserves values","Unit tests run the program on a dozen fixed robots and compare with stored formulas or spot-check numerically; the claim is about every robot and every pose.",["ikbtbasics/kin_cl.py: forward_kinematics, get_mequation_set, matrix_equation", "ikbtbasics/pykinsym.py: H_inv_S", "ikbtbasics/helperfunctions.py: ik_lhs", "ikbtbasics/ik_classes.py: kinematics_pickle, Robot.__init__, sum_of_angles_transform", "ikSolver.py"])
p("C79","The forward kinematics program written by fkOnly.py prints the pose of the arm",
 "Whenever fkOnly.py runs for a robot definition, whatever was run before, it writes a Python program that, for all joint values the user writes into it, prints the pose of the arm: the product of the link transforms of the DH table at those joint values and the described parameter values.",
 "all DH tables with any (named or numeric) twist angles, parameters and values, all joint values, every history of earlier runs that left pickle files, every value-preserving behaviour of sympy","A test runs the script once for one robot; the claim ranges over all robots, joint values and histories of runs, and the second run is where it fails.",["fkOnly.py", "ikbtfunctions/output_python.py: output_FK_python_code", "ikbtbasics/ik_classes.py: kinematics_pickle, check_the_pickle, sum_of_angles_transform", "ikbtbasics/kin_cl.py: forward_kinematics", "ikbtfunctions/ik_robots.py: robot_params"])
p("C80","The generated functions read the target pose from the right entries of their argument",
 "Whatever robot the code was generated for, the generated Python and C++ functions give each name of the symbolic target (r_11 \u2026 r_33, Px, Py, Pz) the entry of their argument T in the row and column where the symbolic target has it, before the first solution is computed, and never change it afterwards; the Python file imports every function that a solution can use.",
 "all robots whose parameters and unknowns are not named like an entry of the target, all solution matrices, groups and parameter values","A test looks at one generated file; the claim ranges over all files the generators can write.",["ikbtfunctions/output_python.py: output_python_code", "ikbtfunctions/output_cpp.py: output_cpp_code", "ikbtbasics/helperfunctions.py: ik_lhs"])
p("C81","The node log lists the results of the node executions, also up to a crash",
 "With log_flag 1 the log file of a tree gets, in the order in which they end, one line 'S name' for every node execution that ends in SUCCESS, with log_flag 2 also one line 'F name' for every one that ends in FAILURE, and nothing else; so it agrees with the counters N_success; a run that ends in an exception has written exactly a beginning of what it would have written without the exception; and keeping the log changes neither the statuses nor the state.",
 "all trees, leaves (also such that return RUNNING or raise), clocks, states and histories of ticks, all flags","The log must be right for every tree, every history and every point at which a leaf can raise.",["b3/core/basenode.py: _tick", "b3/core/behaviortree.py: BehaviorTree.__init__"])
p("C82","The functions of the library find the names they use, whatever is imported in whatever order",
 "Importing the modules of the library in any order succeeds, and afterwards every function of kin_cl, solutionGraphV3, matching, ik_classes, pykinsym, helperfunctions and graph2latex finds every global name it uses, with the same meaning whatever else was imported before or after.",
 "all import histories of all programs: every finite sequence of imports of these modules or of the programs and leaves of the library, in a fresh interpreter; every file system order of the package's star import","Four modules import each other in a circle with star imports, so what a name means depends on the order of all imports of a program; a test fixes one order.",["ikbtbasics/kin_cl.py: top-level imports, unknown.set_solved, unknown.scan, kequation.LaTexOutput", "ikbtbasics/solutionGraphV3.py: top-level imports", "ikbtbasics/matching.py: top-level imports", "ikbtbasics/ik_classes.py: top-level imports", "ikbtbasics/__init__.py: __all__", "helperfunctions.py, graph2latex.py: top level"])
p("C83","Trees that share a blackboard do not disturb each other",
 "Several trees may be ticked with the same blackboard, in any order, also trees that contain the same node objects or nodes with the same ids. The statuses (or exceptions) that the ticks of one tree give, and the worlds they leave, are those of this tree with a blackboard of its own, called in the same worlds; open marks, counters, start times, open_nodes and node_count of the other trees stay as they are. Only the global scope, TotalCost and the statistics kept in shared node objects are common.",
 "all finite sequences of ticks of any number of trees of any shape with any node ids, all behaviours of the leaves and of the clock on the world and the global scope, all changes of the world and of the global scope between the ticks, all contents of the blackboard left by earlier ticks","Isolation has to hold for every interleaving of ticks of every set of trees with every sharing of nodes; a test ticks one tree, or two in one order.",["b3/core/basenode.py: _execute, _open, _tick, _close", "b3/core/blackboard.py: Blackboard", "b3/core/behaviortree.py: BehaviorTree.tick", "b3/decorators/*.py"])
p("C84","After a tick that raised, the next ticks behave as on a new tree",
 "When a leaf raises (or a node itself does), the exception leaves the tick at once, without closing any node. A program may catch it and tick the same tree with the same blackboard again. If no leaf returns RUNNING, the worlds left and the statuses or exceptions of all later ticks are those of a tree and a blackboard that were never used. What an exception leaves behind is exactly this: the nodes on the way from the node that raised up to the root stay marked open; a tick that returns leaves the marks as they were.",
 "all trees, all leaves that do not return RUNNING and may raise anywhere after changing the world, all histories of ticks with exceptions at any points, all changes of the world between ticks, all clocks","The exception may come out of any node at any tick, after any earlier exceptions; a test raises at one place once.",["b3/core/basenode.py: _execute, _open, _tick, _close", "b3/core/behaviortree.py: BehaviorTree.tick", "b3/decorators/maxtime.py: MaxTime.open, MaxTime.tick", "b3/decorators/repeater.py", "b3/decorators/limiter.py"])
p("C85","What the runs of ikSolver.py and fkOnly.py leave on disk, when a run is killed or raises",
 "A run for a robot writes only the files of that robot: its pickle, its LaTeX report and its programs. However it ends and wherever it is killed, every file is as before, or as an undisturbed run leaves it, or a beginning of that; at most one file is incomplete, and all files written before that one are as the undisturbed run leaves them. Running the same command again after any number of kills gives the files of a run that was never killed; runs for other robots make no difference to the files of a robot; the templates of the reports are never written.",
 "all robots and names, all results of the computation between the file operations (including exceptions in the solver, the report and the generators), all initial contents of the disk, all points at which a run is killed and all amounts of unwritten buffer lost, all histories of runs of these programs and forward_kin2.py for several robots","A run can be killed between any two file operations, with any part of the buffer lost, in any history of earlier runs; a test kills at a few points.",["ikSolver.py", "fkOnly.py", "ikbtbasics/ik_classes.py: kinematics_pickle, check_the_pickle", "ikbtbasics/output_latex.py: LatexFile, output_latex_solution, output_FK_equations", "ikbtbasics/output_python.py: output_python_code, output_FK_python_code", "ikbtbasics/output_cpp.py: output_cpp_code", "forward_kin2.py"])
p("C86","Runs of ikSolver.py and fkOnly.py at the same time",
 "Commands that run at the same time (in several terminals, or started by a script for many robots) leave the files as if each had run alone. For different robots, and for the two programs on a robot that already has its pickle, every process is at every moment where it would be alone, with the same files. The same command started several times leaves, when all have ended, the files of one run.",
 "all numbers of processes, all commands and robots, all results of the computation, all initial contents of the disk, all orders in which the steps of the processes (reading a file, truncating a file, single characters reaching the disk) alternate, all processes killed anywhere","The order in which the operating system lets processes run cannot be enumerated by tests, and the outcome depends on it.",["ikSolver.py", "fkOnly.py", "ikbtbasics/ik_classes.py: kinematics_pickle", "ikbtbasics/output_latex.py: LatexFile", "ikbtbasics/output_python.py: output_python_code, output_FK_python_code", "ikbtbasics/output_cpp.py: output_cpp_code"])
p("C87","Solving several robots in one process",
 "A program may build the solver tree once and tick it for one robot after another, with a new blackboard for each or always the same one, and go on after exceptions. Each robot is solved as if it were the first of the process: the status, the solutions, their order and the exceptions are the same, nothing of an earlier robot enters the equations, and the guarantees of a single run hold.",
 "all sequences of robots, all unknowns and equations of each, all results of the computer algebra, runs that raise anywhere and leave anything behind, blackboards new or reused for each robot","The number and the order of the robots solved before are unbounded, and what they leave on a shared blackboard depends on their equations.",["ikSolver.py", "ikbtleaves/assigner_leaf.py: assigner.tick", "ikbtleaves/x2y2_transform.py: x2z2_transform", "b3/core/behaviortree.py: BehaviorTree.tick", "b3/core/blackboard.py: Blackboard"])
p("C88","Velocities and Jacobians of every frame of the arm",
 "After the forward kinematics the velocities of every frame (w_11 ... w_66, v_11 ... v_66) are its true angular and linear velocities in its own coordinates, for every motion of the joints. ManipJacobian_S, given the velocities of a frame and a list of joint rates, returns a matrix whose columns are the velocities of that frame when that joint alone moves at unit rate; it maps the rates to the velocities, contains no rates, and is zero for the joints after the frame. The script fk_EE543.py prints this matrix for frame 3 of its robot.",
 "all DH tables over any symbols, all joint types, all frames, all lists of joint rates, all differentiable motions of the joints, all values of the symbols","The claim is an identity of derivatives at every pose and rate; a test looks at single numbers.",["ikbtbasics/kin_cl.py: mechanism.forward_kinematics", "ikbtbasics/pykinsym.py: ManipJacobian_S", "fk_EE543.py"])
open('/verif/properties.jsonl','w').write(''.join(json.dumps(x)+'\n' for x in P))
print(len(P))
