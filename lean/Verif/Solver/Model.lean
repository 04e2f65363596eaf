import Verif.Leaf.Model
import Verif.BT.Model
/-!
# Model of the solver tree (ikSolver.py:128-243, 325-349)

The tree of ikSolver.py over the leaves of `Verif.Leaf.Model`, executed by the engine of `Verif.BT.Model`.
-/
namespace Verif.Solver
open Verif.Leaf Verif.Eqn Verif.Sol Verif.Sym
open Verif.BT hiding Tree

/-- The leaf objects of ikSolver.py:128-225. -/
inductive LeafName where
  | asgn | rank | tanID | tanSolver | algID | algSolver | scID | scSolver | sacID | sacSolver | x2z2 | simuID | simuSolver
  | subTrans | sumID | updateL | compDetect
  deriving DecidableEq, Repr

/-- `tick` of each leaf object (`compDetect.FailAllDone` keeps its default False, comp_detect.py:40) -/
def act (P : Sympy) : LeafName → LS → Out
  | .asgn => assigner
  | .rank => rankLeaf
  | .tanID => tanId P
  | .tanSolver => tanSolve P
  | .algID => algebraId P
  | .algSolver => algebraSolve P
  | .scID => sincosId
  | .scSolver => sincosSolve P
  | .sacID => sacId P
  | .sacSolver => sacSolve P
  | .x2z2 => x2z2 P
  | .simuID => simuId P
  | .simuSolver => simuSolve P
  | .subTrans => subTransform P
  | .sumID => sumId P
  | .updateL => updateLeaf P
  | .compDetect => compDetect false

/-- The leaves as environment of the engine; the clock is never read (the tree has no MaxTime). -/
def env (P : Sympy) : Env LS LeafName := ⟨act P, fun s => (0, s)⟩

/-- a leaf node -/
def lf (i : Nat) (l : LeafName) : BT.Tree LeafName := .leaf i l
/-- `b3.Sequence([...])` -/
def sq (i : Nat) (cs : List (BT.Tree LeafName)) : BT.Tree LeafName := .comp .sequence i cs

/-- ikSolver.py:141 -/
def tanSol : BT.Tree LeafName := sq 1 [lf 2 .tanID, lf 3 .tanSolver]
/-- ikSolver.py:154 -/
def algSol : BT.Tree LeafName := sq 4 [lf 5 .algID, lf 6 .algSolver]
/-- ikSolver.py:167 -/
def scSol : BT.Tree LeafName := sq 7 [lf 8 .scID, lf 9 .scSolver]
/-- ikSolver.py:180 -/
def sacSol : BT.Tree LeafName := sq 10 [lf 11 .sacID, lf 12 .sacSolver]
/-- ikSolver.py:200 -/
def simuSol : BT.Tree LeafName := sq 13 [lf 14 .simuID, lf 15 .simuSolver]
/-- ikSolver.py:230 -/
def scTan : BT.Tree LeafName := sq 16 [.comp .orNode 17 [tanSol, scSol], lf 18 .rank]
/-- ikSolver.py:235 -/
def worktools : BT.Tree LeafName := .comp .priority 19 [algSol, scTan, simuSol, sacSol, lf 20 .x2z2]
/-- ikSolver.py:238, the child of the decorator -/
def attempt : BT.Tree LeafName := sq 21 [lf 22 .asgn, lf 23 .sumID, worktools]
/-- ikSolver.py:238 -/
def subtree : BT.Tree LeafName := .deco (.untilSuccess 6) 24 attempt
/-- ikSolver.py:239 -/
def solveRoutine : BT.Tree LeafName := sq 25 [lf 26 .subTrans, subtree, lf 27 .updateL, lf 28 .compDetect]
/-- ikSolver.py:241 -/
def topnode : BT.Tree LeafName := .deco (.untilSuccess 10) 29 solveRoutine

/-- ikSolver.py:325-349: the lists are made, then the tree is ticked once, with a fresh blackboard. The loops are bounded,
so the fuel of the engine model (for unbounded loops) is irrelevant. `k` is what the blackboard holds under `counter`: nothing (0,
assigner_leaf.py:36-38) in ikSolver.py, something else in a program that solves several robots with one blackboard (C87). -/
def solve (P : Sympy) (unknowns : List String) (ms : List MEqn) (aux : List KEqn) (k : Nat := 0) : Except Crash (Status × LS) :=
  match scanForEquations P.toCAS ms aux (unknowns.map fun n => ⟨n, false⟩) with
  | .error _ => .error (.leaf 1)
  | .ok L =>
    match treeTick (env P) 0 topnode { user := { w := Sol.start unknowns, lists := L, ms := ms, aux := aux, counter := k } } with
    | .error c => .error c
    | .ok (s, st) => .ok (s, st.user)

end Verif.Solver
