import Verif.Main.Model
import Verif.Out.FkModel
/-!
# The script fkOnly.py: from the DH table to the forward kinematics program (fkOnly.py:104-126)

Composition of `robot_params`' result, `kinematics_pickle` (ik_classes.py:66-115), `check_the_pickle` (118-135) and `output_FK_python_code`
(output_python.py:46-155), and Python's execution of the program it writes. The report (fkOnly.py:145) is in `Out.LatexFk`. Simplified: a pickle
file is never torn (see `Out.Pickle`); a printed expression is kept as the expression; comments and printing are left out.
-/
namespace Verif.Main
open Verif.Sym Verif.Eqn
open Verif.Kin (SM4 SymOps DHRow t06S alphaSubs caName saName dset dget evalM M4 addE sinE cosE)
open Verif.Out (FkErr FkStmt fkVar fkSet)

/-- what `robot_params` returns (fkOnly.py:105), but for the joint types; a value of a parameter is a number, kept as an expression -/
structure Arm where
  dh : Fin 6 → DHRow
  params : List String
  pvals : List (String × Expr)
  vars : List Kin.Var

/-- what fkOnly.py uses of a pickle: `M.DH`, `M.pvals`, `unknowns` (ik_classes.py:111-112) -/
structure Saved where
  dh : Fin 6 → DHRow
  pvals : List (String × Expr)
  vars : List Kin.Var

/-- the directory fk_eqns/ -/
abbrev Pickles := String → Option Saved

/-- kin_cl.py:300-301, all rows: `pvals` after `forward_kinematics`; the texts `np.cos(…)` are kept as expressions -/
def addValues (P : SymOps) (dh : Fin 6 → DHRow) (pvals : List (String × Expr)) : List (String × Expr) :=
  (List.finRange 6).foldl (fun d i => if P.nice (dh i).al then d else dset (saName i) (sinE (dh i).al) (dset (caName i) (cosE (dh i).al) d)) pvals

/-- kin_cl.py:298-299: `params` after `forward_kinematics` -/
def addParams (P : SymOps) (dh : Fin 6 → DHRow) (params : List String) : List String := (alphaSubs P dh { params := params }).params

/-- ik_classes.py:118-135 `check_the_pickle` -/
def sameTable (a b : Fin 6 → DHRow) : Bool :=
  (List.finRange 6).all fun i => (a i).al == (b i).al && (a i).a == (b i).a && (a i).d == (b i).d && (a i).th == (b i).th

/-- a line of the generated program -/
inductive Line where
  /-- `x = e` -/
  | assign (x : String) (e : Expr)
  /-- `x = 1.0`, the value to be replaced by the user (output_python.py:123) -/
  | given (x : String)
  /-- `x =`, a sum without summands (output_python.py:113-121) -/
  | cut (x : String)
  deriving DecidableEq

/-- The generated file: the assignments, and the matrix `T06` that is evaluated and printed (output_python.py:143-149). -/
structure FkFile where
  lines : List Line
  T06 : SM4

/-- output_python.py:90-100: the parameters; `XXXXX` is no variable of the program -/
def declLines (pvals : List (String × Expr)) (params : List String) : Except FkErr (List Line) :=
  if pvals.isEmpty then .ok (params.map fun p => .assign p (.sym "XXXXX"))
  else params.mapM fun p => match dget pvals p with
    | some e => .ok (.assign p e)
    | none => .error .keyError

/-- the text of a statement for a variable (output_python.py:113-123); `fkVar` gives `dummy` and `sum` only -/
def lineOf : FkStmt → Line
  | .dummy x => .given x
  | .sum x [] => .cut x
  | .sum x (t :: ts) => .assign x (ts.foldl (fun e s => addE e (.sym s)) (.sym t))
  | .decl x v => .assign x (.sym v)
  | .missing x => .assign x (.sym "XXXXX")

/-- output_python.py:46-155 `output_FK_python_code`; `T_06` is computed again from the DH table (line 139) -/
def writeFk (P : SymOps) (params : List String) (pvals : List (String × Expr)) (vars : List Kin.Var) (dh : Fin 6 → DHRow) : Except FkErr FkFile :=
  match declLines pvals params with
  | .error e => .error e
  | .ok a => match (vars.map (·.symbol)).mapM (fkVar (vars.map (·.symbol))) with
    | .error e => .error e
    | .ok b => .ok ⟨a ++ b.flatten.map lineOf, t06S P dh⟩

/-- how the script can end without a program -/
inductive FkOnlyErr where
  | setup (e : Err)
  /-- `quit()` in `check_the_pickle` -/
  | quit
  | write (e : FkErr)

def toEnding : Except FkErr FkFile → Except FkOnlyErr FkFile
  | .ok f => .ok f
  | .error e => .error (.write e)

/-- fkOnly.py:104-126. Without a pickle, `R.params` (line 117) is the list that `forward_kinematics` has appended to (it is the mechanism's own list);
with one, it is the list as `robot_params` gives it, while the values are those in the pickle. -/
def fkOnly (O : Ops) (fs : Pickles) (name : String) (d : Arm) : Pickles × Except FkOnlyErr FkFile :=
  match fs name with
  | some k => (fs, if sameTable k.dh d.dh then toEnding (writeFk O.fk d.params k.pvals k.vars k.dh) else .error .quit)
  | none =>
    match prepare O d.dh d.vars with
    | .error e => (fs, .error (.setup e))
    | .ok (_, vars, _) =>
      let pvals := addValues O.fk d.dh d.pvals
      (fun n => if n = name then some ⟨d.dh, pvals, vars⟩ else fs n, toEnding (writeFk O.fk (addParams O.fk d.dh d.params) pvals vars d.dh))

/-- a history of runs of the script, by name and description -/
def fkHistory (O : Ops) : Pickles → List (String × Arm) → Pickles
  | fs, [] => fs
  | fs, (n, d) :: l => fkHistory O (fkOnly O fs n d).1 l

/-! ## Python's execution of the program -/

open Classical in
/-- one line; a variable without value raises NameError -/
noncomputable def execLine (q : String → ℝ) (env : String → Option ℝ) : Line → Except FkErr (String → Option ℝ)
  | .assign x e => if ∀ s, e.has s = true → env s ≠ none then .ok (fkSet env x (e.eval fun s => (env s).getD 0)) else .error .nameError
  | .given x => .ok (fkSet env x (q x))
  | .cut _ => .error .syntaxError

noncomputable def execLines (q : String → ℝ) : (String → Option ℝ) → List Line → Except FkErr (String → Option ℝ)
  | env, [] => .ok env
  | env, l :: ls => match execLine q env l with
    | .error e => .error e
    | .ok env' => execLines q env' ls

/-- `pi = np.pi` (output_python.py:64) -/
noncomputable def startEnv (s : String) : Option ℝ := if s = "pi" then some Real.pi else none

open Classical in
/-- what the program prints if the user has given the joint variables the values `q` -/
noncomputable def printed (f : FkFile) (q : String → ℝ) : Except FkErr M4 :=
  if ∃ x, Line.cut x ∈ f.lines then .error .syntaxError else
  match execLines q startEnv f.lines with
  | .error e => .error e
  | .ok env =>
    if ∀ i j s, (f.T06 i j).has s = true → env s ≠ none then .ok (evalM (fun s => (env s).getD 0) f.T06) else .error .nameError

end Verif.Main
