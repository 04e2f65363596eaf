HEAD='''# Formal model of IKBT in Lean 4 — design

Everything under `lean/Verif/` is a shallow, executable model of the Python in `/repo`, function by function; each definition cites
the file and lines it models and says where it simplifies. `properties.jsonl` lists the properties, `MANIFEST.json` the theorems for
each, `seeded/LOG.jsonl` the wrong programs the theorems were tested against. This file is generated by `tools/gen_design.py` from
`tools/design_notes.py` (prose) and the two lists.

## 1. Method

* **Code as functions.** Each Python function or method becomes a total Lean function on explicit state; exceptions, `quit()` and
  failed assertions are values of `Except`/`Option`; `while` loops without a bound take fuel, and the theorems either hold for every
  fuel or show that the fuel does not matter. Objects that the code compares by name are identified by that name.
* **What is not ours is a parameter.** The behaviour of the leaves (in the engine), the clock, sympy, the order in which Python
  enumerates a set, the result of the (expensive) symbolic forward kinematics: universally quantified parameters with the weakest
  hypotheses under which the claim makes sense.
* **Independent specifications.** The engine is compared with big-step rules without bookkeeping (`BT/Spec`); the blackboard with a
  flat map; kinematics with products of matrices and `HasDerivAt`; solvers with the set of real roots of the equations; generated
  text with the value its parse denotes.
* **Negative results are theorems.** When the code does not do what the property says, a theorem named `…_violation` exhibits a
  concrete input and what the modelled code does on it; the strongest true part is a theorem named `…_partial`, with a comment saying
  what is missing.
* **Non-vacuity.** Beside each theorem with hypotheses there is an `example` that meets them with a concrete non-trivial case.

## 2. Layout

| module | models | properties |
|---|---|---|
| `BT/Model`, `BT/Spec`, `BT/Lemmas`, `BT/Forward`, `BT/Complete`, `BT/Den`, `BT/General`, `BT/Laws`, `BT/Bound`, `BT/Props`, `BT/CostProps`, `BT/RunSpec`, `BT/RunProps`, `BT/RunClaims`, `BT/RunBound`, `BT/RunOpen`, `BT/RunComplete` | b3 engine: `_execute`, composites, decorators, tick | C01–C10, C12, C14, C15 |
| `BT/Blackboard`, `BT/BlackboardProps` | blackboard dictionaries | C11 |
| `BT/Board`, `BT/BoardProps`, `BT/BoardClaims` | the b3 engine on the real blackboard, several trees | C83 |
| `BT/Crash`, `BT/CrashProps`, `BT/CrashClaims` | the b3 engine when ticks raise: what is left behind | C84 |
| `Main/Disk`, `Main/DiskProps`, `Main/DiskClaims` | the file operations of `ikSolver.py` and `fkOnly.py`, with kills and exceptions | C85 |
| `Main/Parallel`, `Main/ParallelProps`, `Main/ParallelSame`, `Main/ParallelClaims`, `Main/ParallelFirst` | the same, several processes at the same time | C86 |
| `Main/ThirdProgram` | forward_kin2.py, the third program that uses the pickles | C85, C86 |
| `Solver/Session` | several robots in one process, with new or reused blackboards | C87 |
| `BT/MemXrange` | MemSequence, MemPriority where `xrange` is defined | C12 |
| `Main/Exits` | the early exits of `Robot.__init__`, exactly | C78 |
| `BT/DumpLoad`, `BT/DumpLoadProps` | `BehaviorTree.dump/load` | C13 |
| `Sym/Expr`, `Sym/Eval` | expression trees, occurrence, substitution, real value | all below |
| `Sol/Versions*`, `Sol/SetSolved*`, `Sol/EndToEnd` | `create_solution_set`, `make_LHS_versions`, `set_solved`, solution graph | C16–C20 |
| `Sol/Matching*` | `matching.py` | C50 |
| `Eqn/*` | `count_unknowns` …, `scan_for_equations`, `scan_Mequation`, `erank`, `updateL`, equality of equations | C21–C25 |
| `Kin/Model`, `Kin/Props`, `Kin/Velocity` | DH links, inverse, matrix equations, forward kinematics, velocity recursion, rotations, `wrap_angle_N` | C26–C32 |
| `Kin/Padding`, `Kin/Frames` | empty rows, Jacobian columns; velocities and Jacobians of all frames, fk_EE543.py | C75, C88 |
| `Kin/Soa*` | `notation_squeeze`, sum-of-angles substitution | C33 |
| `Leaf/*` | the leaves of the solver tree (identification, solvers, rank, transforms) and their mathematics over ℝ | C34–C40, C44 |
| `Solver/*` | the tree of `ikSolver.py` over these leaves, run by the engine of `BT/Model` | C16–C20 (runs), C41–C45, C51 |
| `Out/*` | code generators, pickle cache, robot table | C46–C49, C52 |
'''
NOTES={}
def d(k,t): NOTES[k]=t
d('C01','Modelled: `Sequence.tick` inside `_execute`, any children (as functions on the state), RUNNING and ERROR included. Statement: the children form a `Chain` (executed left to right, each in the state the previous one left) and the statuses are SUCCESS except possibly the last. Induction over the child list; the exception case separately.')
d('C02','As C01 for `Priority.tick`.')
d('C03','`OrNode.tick`: exact law for all statuses, from it the claim for children that return SUCCESS/FAILURE, and a counterexample for ERROR.')
d('C04','`RepeatUntilSuccess.tick`: the `while` loop with the counter read from and written to the blackboard. Statement with `Iter` (the same child executed again and again). Induction over the loop bound; for negative bounds for every fuel.')
d('C05','As C04 for the other two repeat decorators; the `UnboundLocalError` of a zero bound is a value of the model.')
d('C06','Direct from the inversion of `_execute`.')
d('C07','The engine (open flags, stack, counters, fuel) refines the memory-less big-step semantics `Big` in both directions (`C07_engine_refines_spec`, `C07_spec_is_executed`), by mutual induction over trees; consequently flags are clear after any history of ticks and a tick does not depend on the history. For leaves that never return RUNNING.')
d('C08','Counters against the trace of completed executions; monotonicity for all leaves by a relational induction (`Stable` relations over `exec`).')
d('C09','All bookkeeping of `Cost` in `_tick` and the composites. The exact law is proved for every tree of distinct node objects by an induction that tracks, per execution, `Cost`, `N_ticks_all` and `TotalCost` (`Bill`).')
d('C10','Histories of ticks of a Limiter (`ticks`), using C07.')
d('C11','`blackboard.py` as nested partial maps; refinement to a flat map by induction over operation lists.')
d('C12','Under Python 3 `xrange` is undefined: the model raises `nameError`, which is proved to be what always happens. BT/MemXrange models the same two classes where the name is defined (a second `execX`, equal to `exec` on trees without them), with a specification of resuming; the memory of a node is framed by induction over trees.')
d('C13','`dump` and `load` as operations on a node table; mirror image by induction over the tree.')
d('C14','Fuel is shown irrelevant for trees whose repeat bounds are non-negative; executions are bounded by the product of the bounds.')
d('C15','The clock is part of the environment; reading it may advance the world.')
d('C16','`create_solution_set` on columns of names; specification: all choice functions. Induction over the columns.')
d('C17','As C16 and, end to end, for the nodes that `set_solved` has recorded.')
d('C18','`make_LHS_versions` with its indices and `IndexError`.')
d('C19','`set_solved` and `get_deps` as operations on unknowns, nodes and edges; invariants over all histories.')
d('C20','The formula of the code against the number of instantiations defined by recursion over dependencies.')
d('C21','Three lists, count of unknowns per side, `not in` with `kequation.__eq__`; sympy equality is a parameter that is reflexive.')
d('C22','The bucket sort of `erank`: permutation, sortedness, stability.')
d('C23','`kequation.__eq__`, `__hash__` and Python list/set membership.')
d('C24','`count_unknowns`, `get_unknowns`, `get_variables`, `find_obj`, `get_deps` against syntactic occurrence.')
d('C25','The leaf `updateL` after `scan_for_equations`.')
d('C26','Link transforms as real 4×4 matrices; product of the four elementary modified-DH motions.')
d('C27','`H_inv`-style inverse; rigid motions.')
d('C28','The set of matrix equations generated from the links, as real matrices: each is equivalent to the forward kinematics equation.')
d('C29','The product of the links.')
d('C30','The velocity recursion against `HasDerivAt` of the forward kinematics along any differentiable joint trajectory; the Jacobian from it.')
d('C31','Elementary rotations and RPY as matrices.')
d('C32','`wrap_angle_N` over ℝ.')
d('C33','`notation_squeeze` symbol by symbol; `sum_of_angles_transform` as a state machine over variables, auxiliary equations and matrix entries, with sympy\'s `find`, `subs`, `simplify` as parameters.')
d('C34','Identification leaf and solver leaf ticked one after the other; the solution recorded denotes exactly the real roots of the equation, relative to `Sympy.Sound` (section 4) and wherever the divisor is non-zero.')
d('C35','As C34, modulo 2π; completeness by the inverse trigonometric functions of Mathlib (`Leaf/Math`).')
d('C36','As C35 for `atan2` (`Complex.arg`).')
d('C37','As C35 for A sin u + B cos u = C.')
d('C38','As C35 for the pair of simultaneous equations.')
d('C39','`x2y2_transform`: consequences of pairs of equations, with the sums of angles read as defined.')
d('C40','`sub_transform` over all pairs of entries, sequentially, as in the code.')
d('C41','Invariants over every run of the solver tree.')
d('C42','The leaf `assigner` with its counter.')
d('C43','The leaf `comp_det`.')
d('C44','The leaf `rank`.')
d('C45','The whole tree of `ikSolver.py` run by the engine model; reduction of the tree to a composition of leaf functions (`Solver/Basic`), then induction over the repeat bound.')
d('C46','The two regular-expression substitutions of `cpp_output.line` on text; a grammar of printed expressions, parsing, and the value of the text.')
d('C47','The emitted lines of both generators as data, per solve method.')
d('C48','Histories of runs (create, load, check, crash while writing) over files; the kinematics function is a parameter.')
d('C49','The table generated from the source text by `tools/gen_robots.py`; acceptance by name.')
d('C50','`matching.py` complete; the order in which Python enumerates a set is a universally quantified permutation.')
d('C53','From C51 (a row with the true values exists) by induction over the solving order: an assignment that follows that row agrees with the true one up to full turns, and equations in which angles occur only in sines and cosines do not see full turns (`turns_sound`). Counterexample: a run with a spurious second arcsine branch.')
d('C54','Induction over the tree: an execution pushes exactly the path of running nodes, changes open flags only of executed nodes, and execution is visible in the tick counters. Counterexamples by evaluation.')
d('C55','Model of Wait as an execute with an open hook; the answers of n executions are related to the clock readings by the inductive specification Waits, by induction on n.')
d('C56','N_ticks is a field of the machine state that no step changes (invariant over exec, Stable); prob and utility are then constant. Rationals for floats.')
d('C57',"Each search loop is shown equivalent to 'first list member with the form', the form being written out in terms of sympy's answers; counterexamples by evaluation and by unfolding.")
d('C58',"A potential function on the state at the start of each round (unsolved unknowns, position of the counter, whether the first unknown is solved) bounds the number of rounds still needed; the inner loop is analysed with C42's account of the assigner. Counterexamples by evaluation of the model with a small computer algebra system.")
d('C59','Model of the generator as a function to a list of assignments, with a Python semantics that can raise NameError/SyntaxError. An invariant of the sum-of-angles transform gives the shape of the variable list; then the statements and their execution are computed by induction. The robot table is checked by evaluation (it is finite).')
d('C60','State machine with the four attributes that the calls read and write; a history is a list of calls. Invariant by induction on the history: FinalEqnMatrix is k copies of the table of versions and nversions its length, where k is the number of reports.')
d('C61',"Character-level model of the whole file, and an independent specification of Python's line structure (indentation stack, compound headers, def names, print statements). The file's shape is computed by induction on the solution graph.")
d('C62','LatexSpec.lean is a character-level reader of LaTeX (stack of open groups, list of shown items); LatexModel.lean writes the sections as output_latex.py does. Each section is fed to the reader by induction on nodes, solutions, versions, rows; sections compose by feed_append. What sympy prints is an arbitrary text that may stand in a formula. The verbatim parts are given line by line (LatexVerbatim.lean). The link to the solver uses the invariants that every solved unknown has a method, a count and names.')
d('C63','The order of iteration is a parameter (a permutation chosen anew at each call). set_solved: the product of version counts and the set of edges are invariant under permutation. Generated programs: packing statements commute up to the order of rows. Sum of angles: an exact description of the unknowns added that does not mention the order. Violations by concrete runs.')
d('C64','From the list of statements of the program (cppCode): the elements assigned are read off by injectivity of the decimal notation; the sizes come from C16_solver_partial and the fact that the solver gives one or two solutions per unknown. Violation: a concrete successful run.')
d('C65','Model of all lines of the file (cppFile). A small reader (declares, assigns) works on printed lines; lemmas show what the rewriting of powers by cpp_output.line leaves unchanged. Exact sets of names by induction over nodes and rows; the violation follows from the labels of the table (C17) and the form of its equations (C18).')
d('C66','Expression-level model of the DH table, the constants for odd alphas, the link matrices and T_06; evaluation commutes with every step, so the result of forward_kinematics_N is the product of the numerical links for every valuation that respects the dictionaries.')
d('C67','The table of replacements as data, checked against an independent table of what each short name means; induction over the list of replacements and over expressions.')
d('C68','Kin/Puma.lean transcribes the 38 assignments and eight rows of the script (generated from its text), with math.sqrt and division raising, the DH table, convert_to_degrees and verify_T_matrices; forward_kinematics_N is taken by its value (C66). Proof: the formulas solve the equations A cos + B sin = C also in the degenerate cases; the wrist is recovered from the third column and second row of a rotation. The violations are universal (every pose), with a concrete arm and pose for which the script computes rows.')
d('C69','Kin/Wrist.lean transcribes ikin_Wrist, the DH table of the Wrist and the error loop of the test; numbers are exact reals, a division by zero is an error. Proof: polar form of atan2, the elements of a rotation (orthogonality and adjugate).')
d('C70',"BT/Stats.lean: one node with all its counters and every call on them as events; python's negative indices. Proof: an invariant (Counts) over histories, against counts over the list of (state, result) pairs since the last reset.")
d('C71','Solver/Typed.lean: the solver again with the kind of every left side kept (python int or sympy), short-circuit `or`/`and`, AttributeError as error 5; Solver/TypedProps.lean: a simulation of the run with kinds by the run without (Sim for all composites and bounded loops), with the invariant that int equations of two unknowns never contain Px, Py, Pz and that eqns_1u is free of ints between algebra_id and sincos_id.')
d('C72',"Sol/SumSolve.lean: the loop over auxeqns on the objects of SetSolved.lean, with sympy's `match` as an oracle of which only soundness of the pattern is assumed; Sol/SumSolveProps.lean: the effect of one equation, composed by induction over the list.")
d('C73',"Sol/Identity.lean: objects with identity and symbol, python's == with the reflected operand, __hash__ over an arbitrary hash of symbols, set lookup by hash then identity then ==; a key lemma (Keyed) for histories of additions, used for unknowns/nodes and for edges; it justifies representing these sets by lists of names in SetSolved.lean.")
d('C74','Out/Tikz.lean: graphs with independent children and parents lists, the recursion with a depth limit, and an independent reader of the printed lines with a stack.')
d('C75','Kin/Padding.lean: on the model of C29/C30 (links, velocity recursion, Jacobian) and the robot table of C49.')
d('C76','Solver/Abort*.lean: Hoare triples with exceptions over the composition of the leaves, invariants that the equations stay separated and that what tan_id marked stays usable; the rework exception and the other violations as concrete runs (Solver/AbortDemo.lean).')
d('C77',"Solver/Exact.lean: real-analysis lemmas per solver (set equality of roots and solution values, modulo 2π for angles, by sign of the divisor for two-branch tangents), invariants that every equation of the state holds whenever the robot's do, and that each solved unknown has its equations. Solver/ExactDemo.lean: the violations as concrete runs.")
d('C78',"`Main.Model` composes `Kin.Numeric`, `Kin.SoaModel` and `Solver.Model` into `program`, from DH table to the final solver state; matrices are functions to expressions, sympy's evaluation steps are abstract operations. Specification in `Main.Props`: `Configuration` (values of all symbols such that the target symbols are the numerical forward kinematics `armPose`, an independent definition) and `Sound`. Proof: the symbolic matrix equations evaluate to those of C28, hence are equivalent to reaching the pose; the sum-of-angles transform keeps values (C33); then C51 and C53's `row_close`. `C78_every_joint_vector` constructs a configuration for all joint values. `Main.Demo` runs the whole program on a planar arm in the kernel and shows all hypotheses met for all joint angles. Not included: pickle file, Jacobian, outputs.")
d('C79',"`Main.FkOnly` models the script from the DH table to the text of the program (lines with expressions), the pickle directory as a map, and Python's execution of the program (NameError for names without value, SyntaxError for an empty sum). Specification in `Main.FkOnlyProps`: `Proper` (what a user writes), `given` (values of the symbols), `armPose` (product of six numerical transforms). Proof: the assignments give parameters, cosines and sines, joints and sums their values, then C67's evaluation of `T06`; histories by an invariant on the pickle.")
d('C80','Readers of lines (`x = text`, `double x = text;`) are applied to the whole text of the generated files (models of C61 and C65); the twelve input lines give exactly the twelve entries by row and column of the symbolic target of C78, every other line assigns another name.')
d('C81','A second model of the engine that delivers the lines written also when a run raises (LogModel.lean). One simulation against the first model gives transparency and the lines of completed runs; one relational induction (relations between two runs that sequencing respects) gives the flag comparison, the crash prefix and the missing file.')
d('C82','An interpreter for the top-level statements (import, from-import-star with copying of the names bound so far, need, bind, del) with sys.modules entered at the start of execution. The reachable states are classified by the first module of the circle that is imported; the transitions between these finitely many classes are computed by the kernel and the theorem for all histories is by induction on the history.')
d('C83','BT/Board repeats the engine with the real blackboard calls; BT/BoardProps relates it to BT/Model by a simulation through the entries in the scope of one tree, with a frame for the entries of the other trees; the history theorem is by induction on the calls.')
d('C84','BT/Crash repeats the engine with the state kept at an exception; two runs with different leftovers are related by an invariant (an open counting decorator has counter 0) through every kind of node; the open marks are followed by a second invariant.')
d('C85','Main/Disk models both programs as sequences of file operations on a disk with a kill point and a lost buffer; the computation between them is a parameter. A run is shown equal to playing a plan (a list of files with texts); the claims are inductions over plans and over histories.')
d('C86','Main/Parallel is a small-step version of Main/Disk, shown equivalent for one process; non-interference is a simulation with read and write sets; for the same command an invariant says which positions of a file are right or still to be written by whom.')
d('C87','Solver/Session runs jobs on the engine with exceptions of BT/Crash; C84 removes the leftovers of the engine, a relation between blackboards that differ in counter and current unknown removes curr_unk; `solve` takes the counter as a parameter, and the path of a run from any counter is one from counter 0 with extra steps of the assigner.')
d('C88','Kin/Frames states the recursion of C30 for the beginnings of the list of links, with tables and velocities as functions of the values of all symbols, and ManipJacobian_S for any list of symbols; linearity in the rates gives the columns.')
d('C51','Completeness of the whole tree: an invariant (`Good`) over runs that says that each equation list holds consequences of the robot\'s equations and each solved unknown has a solution with its true value.')
d('C52','Running the generated Python: variables, domain tests, exceptions.')
TAIL='''
## 4. Trusted base

* **Lean 4.33.0's kernel**, the definitions of Mathlib used in statements (ℝ, `Matrix`, `HasDerivAt`, `Real.sin/cos/arcsin/arccos`,
  `Complex.arg`, `Set`, `Function.update`), and the axioms `propext`, `Classical.choice`, `Quot.sound`. No axioms of our own, no
  compiled evaluation: concrete runs are checked by the kernel (`decide +kernel`).
* **The reading of the Python text.** Nothing here runs the code; the model is a transcription. Every definition cites its lines so
  that the transcription can be checked.
* **sympy.** Expressions are binary trees over rational numbers, symbols and a few functions (`Sym/Expr`). sympy's operations are the
  fields of the parameter `Sympy` (`Leaf/Model`) and of the parameters of `Kin/SoaModel`. Theorems about values assume
  `Sympy.Sound P G` (`Leaf/Props`): at every assignment satisfying `G` the transformations (`expand`, `collect`, `simplify`,
  subtraction, cancellation) keep the value, `match` returns a decomposition with that value that excludes what it was told to
  exclude, structural equality implies equal values, and `subs(old,new)` keeps the value where old and new agree. `Leaf/Toy` gives a
  concrete system that meets these assumptions, so they are consistent, and runs the leaves with it. Theorems about control flow
  (C16–C25, C41–C45) assume nothing about sympy, or only reflexivity of its equality.
* **Numbers.** Floating point is read as exact real (or rational) arithmetic; `eps`-comparisons are kept as they are.
* **Ghost state.** `LS.guards` (`Leaf/Model`) records the divisors of the solutions the leaves emit; the code has no such list. It is
  written, never read, by the model, and only used to say "at poses where no divisor vanishes".

## 5. What is modelled and what is not

Modelled: `b3/core/*`, `b3/composites/*`, `b3/decorators/*` (except `walktilldestination.py`, which does not import);
`ikbtbasics/ik_classes.py` (robot, solution sets, equation lists, sums of angles, pickle), `kin_cl.py` (equations, unknowns,
`set_solved`, mechanism, forward kinematics and velocity recursion), `pykinsym.py` (transforms and rotations),
`matching.py`, `solutionGraphV3.py` (nodes, edges); `ikbtfunctions/helperfunctions.py`, `ik_robots.py`, `output_cpp.py`,
`output_python.py` (both generators), `output_latex.py` (both reports); all leaves of `ikbtleaves/` used by `ikSolver.py`; the tree and blackboard set-up of
`ikSolver.py`; `fkOnly.py`; what `forward_kin2.py` does to files.

Also modelled: `graph2latex.py` (the recursive drawing, called by nothing), the formulas of `solChecker.py` and of `tests/Wrist_IK_loop_test.py`.

Not modelled: printing to the terminal and progress bars; the fixed texts of `graph2latex.py`; `DisplayEqn.py` (Python 2) and `randomnodeBH.py`
(TabError: neither parses under Python 3); the scripts other than `ikSolver.py`, `fkOnly.py` and those named above; the unit tests; `HTMLTestRunner.py`; performance; file system errors
other than kills (C85, C86); threads inside one process (there are none).

'''
