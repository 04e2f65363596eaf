import Verif.Out.Assign
/-!
# Model of the output phase
the calls at the end of ikSolver.py:405-412, which may be made in any order and any number of times: `Robot.create_solution_set`
(ik_classes.py:238-285), `output_latex_solution` (output_latex.py:79-387), `output_python_code` and `output_cpp_code`.
-/
namespace Verif.Out
open Verif.Sol

/-- what these calls read and write of the `Robot` and its unknowns -/
structure OutSt where
  /-- the lists `LHSversionNames` of the unknowns (kin_cl.py:110) -/
  lhs : LhsMap
  /-- `solListMatrix`; `none`: the attribute does not exist (it is first set in ik_classes.py:272) -/
  table : Option (List Row)
  /-- `FinalEqnMatrix` (ik_classes.py:148) -/
  final : List (List FEqn)
  /-- `nversions` (ik_classes.py:149) -/
  nversions : Nat

/-- after `Robot.__init__` (ik_classes.py:143-194) and the solver -/
def OutSt.start : OutSt := ⟨fun _ => [], none, [], 0⟩

/-- `groups` is the argument of the generators; python iterates a set, so it may be any order of the rows -/
inductive Call where
  | create
  | latex
  | python (groups : List (List Text))
  | cpp (groups : List (List Text))

inductive OutErr where
  /-- `self.solListMatrix` does not exist -/
  | attributeError
  | table (e : Err)
  /-- one of the errors of the generators (`none` of `pyCode` and `cppCode`) -/
  | generator
  deriving DecidableEq, Repr

/-- What a call writes: nothing, the versions in the report, the python statements, the C++ lines -/
inductive Written where
  | nothing
  | report (t : List (List FEqn))
  | py (ops : List PyOp)
  | cpp (ops : List Op)

/-- ik_classes.py:200-226 as it changes the robot: the rows are appended to `FinalEqnMatrix`, and `nversions` is increased by one for each -/
def reportVersions (us : List SolUnk) (s : OutSt) : Except OutErr OutSt :=
  match s.table with
  | none => .error .attributeError
  | some M => match makeLHSVersions us M with
    | .error e => .error (.table e)
    | .ok t => .ok { s with final := s.final ++ t, nversions := s.nversions + t.length }

/-- the rows that the generators visit: `for rowindex in range(nvers)` with `FinalEqnMatrix[rowindex]` (output_latex.py:242-247,
output_python.py:266-269, output_cpp.py:171-178) -/
def OutSt.visited (s : OutSt) : Option (List (List FEqn)) := (List.range s.nversions).mapM fun i => s.final[i]?

/-- one call. `str` is sympy's printer; `us` are the solution nodes' unknowns and `nodes` what the generators read of the nodes.
Of the report only the table of versions (output_latex.py:224-262) is recorded; the rest does not depend on the state. -/
def outStep (str : Sym.Expr → Text) (us : List SolUnk) (nodes : List GNode) (s : OutSt) : Call → Except OutErr (OutSt × Written)
  | .create =>
    let r := us.foldl createStep ([], s.lhs)
    .ok ({ s with lhs := r.2, table := some r.1 }, .nothing)
  | .latex => match reportVersions us s with                    -- output_latex.py:182
    | .error e => .error e
    | .ok s' => match s'.visited with
      | none => .error .generator
      | some t => .ok (s', .report t)
  | .python groups => match s.visited.bind fun t => pyCode nodes (textMat str t) groups with
    | none => .error .generator
    | some ops => .ok (s, .py ops)
  | .cpp groups => match s.visited.bind fun t => cppCode nodes (textMat str t) groups with
    | none => .error .generator
    | some ops => .ok (s, .cpp ops)

/-- a history of calls; an exception ends the program -/
def outRun (str : Sym.Expr → Text) (us : List SolUnk) (nodes : List GNode) : OutSt → List Call → Except OutErr (OutSt × List Written)
  | s, [] => .ok (s, [])
  | s, c :: cs => match outStep str us nodes s c with
    | .error e => .error e
    | .ok (s', w) => match outRun str us nodes s' cs with
      | .error e => .error e
      | .ok (s'', ws) => .ok (s'', w :: ws)

end Verif.Out
