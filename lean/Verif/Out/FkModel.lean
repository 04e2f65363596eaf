import Verif.Kin.SoaModel
import Verif.Out.RobotTable
/-!
# Model of `output_FK_python_code` (ikbtfunctions/output_python.py:46-155)

The generated program: assignments of the parameters, assignments of the joint variables, and the evaluation of `T06`. Printing of comments and
of the class `Matrix` is not modelled; the number texts and the printed expressions of `T06` are kept as sympy has them.
-/
namespace Verif.Out
open Verif.Kin Verif.Sym

/-- `str(v).split('_')` -/
def splitU : List Char → List (List Char)
  | [] => [[]]
  | c :: cs => if c = '_' then [] :: splitU cs else match splitU cs with
    | [] => [[c]]
    | p :: ps => (c :: p) :: ps

/-- statements of the generated program -/
inductive FkStmt where
  /-- output_python.py:96 `p = value` -/
  | decl (x val : String)
  /-- output_python.py:99 `p = XXXXX` -/
  | missing (x : String)
  /-- output_python.py:123 `v = 1.0`, a dummy the user replaces -/
  | dummy (x : String)
  /-- output_python.py:113-121 `v =  a + b`; without summands the text is `v =` -/
  | sum (x : String) (terms : List String)
  deriving DecidableEq, Repr

/-- how the generator or the generated program fails -/
inductive FkErr where | keyError | indexError | syntaxError | nameError
  deriving DecidableEq, Repr

/-- output_python.py:90-100: the parameters. An empty dictionary means that there are no numerical values. -/
def fkDecls (pvals : List (String × String)) (params : List String) : Except FkErr (List FkStmt) :=
  if pvals.isEmpty then .ok (params.map .missing)
  else params.mapM fun p => match pvals.lookup p with
    | some v => .ok (.decl p v)
    | none => .error .keyError

/-- output_python.py:116-120: the variables with a subscript character `s`; `str(v1).split('_')[1]` is only read if `s in str(v1)` -/
def fkTerms (s : Char) : List String → Except FkErr (List String)
  | [] => .ok []
  | v1 :: vs =>
    if v1.toList.contains s then
      match (splitU v1.toList)[1]? with
      | none => .error .indexError
      | some sub => match fkTerms s vs with
        | .error e => .error e
        | .ok l => .ok (if sub.length = 1 then v1 :: l else l)
    else fkTerms s vs

/-- output_python.py:108-123: one variable. A name without `_` is skipped. -/
def fkVar (vars : List String) (v : String) : Except FkErr (List FkStmt) :=
  match (splitU v.toList)[1]? with
  | none => .ok []
  | some sub =>
    if sub.length > 1 then
      match sub.mapM fun s => fkTerms s vars with
      | .error e => .error e
      | .ok l => .ok [.sum v l.flatten]
    else .ok [.dummy v]

/-- output_python.py:46-155: the statements before the evaluation of `T06` -/
def fkCode (params : List String) (pvals : List (String × String)) (vars : List String) : Except FkErr (List FkStmt) :=
  match fkDecls pvals params with
  | .error e => .error e
  | .ok a => match vars.mapM (fkVar vars) with
    | .error e => .error e
    | .ok b => .ok (a ++ b.flatten)

/-! ## The generated program -/

section
variable {V : Type} [Add V]

def fkSet (env : String → Option V) (x : String) (v : V) : String → Option V := fun y => if y = x then some v else env y

/-- the value of `a + b + …` -/
def fkSum (env : String → Option V) : V → List String → Except FkErr V
  | acc, [] => .ok acc
  | acc, t :: ts => match env t with
    | some v => fkSum env (acc + v) ts
    | none => .error .nameError

/-- Python's execution of one statement. `num` gives the value of a number text, `q` what the user wrote in place of the dummy value. -/
def fkStep (num q : String → V) (env : String → Option V) : FkStmt → Except FkErr (String → Option V)
  | .decl x val => .ok (fkSet env x (num val))
  | .missing _ => .error .nameError
  | .dummy x => .ok (fkSet env x (q x))
  | .sum _ [] => .error .syntaxError
  | .sum x (t :: ts) => match env t with
    | none => .error .nameError
    | some v => match fkSum env v ts with
      | .error e => .error e
      | .ok s => .ok (fkSet env x s)

def fkRun (num q : String → V) : (String → Option V) → List FkStmt → Except FkErr (String → Option V)
  | env, [] => .ok env
  | env, o :: os => match fkStep num q env o with
    | .error e => .error e
    | .ok env' => fkRun num q env' os

/-- Python compiles the file before it runs it: an incomplete assignment stops it at once. -/
def fkExec (num q : String → V) (ops : List FkStmt) : Except FkErr (String → Option V) :=
  if ops.any (fun o => match o with | .sum _ [] => true | _ => false) then .error .syntaxError
  else fkRun num q (fun _ => none) ops

end

/-- The joint variables of a description (`Robot.variables`), with the index kept as digits; the numbers of `robot_params` are below 10. -/
def descVars (d : Desc) : List Kin.Var := d.vars.map fun v => ⟨v.1, [Fin.ofNat 10 v.2]⟩

end Verif.Out
