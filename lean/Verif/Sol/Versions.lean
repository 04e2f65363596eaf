import Verif.Sym.Expr
/-!
# Model of the solution table: `Robot.create_solution_set` and `Robot.make_LHS_versions`
(ikbtbasics/ik_classes.py:200-285)
-/
namespace Verif.Sol
open Verif.Sym

/-- Names in the solution table.  `s u k` is `u.name + 's' + str(k)` (kin_cl.py:175), a solution name;
`v u i` is `u.name + 'v' + str(i)` (ik_classes.py:259), a version name. Both are 1-based. -/
inductive VName where
  | s (unk : String) (k : Nat)
  | v (unk : String) (i : Nat)
  deriving DecidableEq, Repr

/-- The python string. -/
def VName.render : VName → String
  | .s u k => u ++ "s" ++ toString k
  | .v u i => u ++ "v" ++ toString i

/-- The unknown that a name belongs to. -/
def VName.unk : VName → String
  | .s u _ => u
  | .v u _ => u

/-- What the two methods read of a solved unknown (kin_cl.py:88-111). -/
structure SolUnk where
  name : String
  /-- `nsolutions` -/
  nsols : Nat
  solutions : List Expr
  /-- `versionNames` (kin_cl.py:192-194) -/
  versionNames : List VName

abbrev Row := List VName

/-- ik_classes.py:249-252: append the reversed copy, `n` times. (`verListMatrix` stays empty throughout and is
omitted.) -/
def dup {α : Type} (M : List α) : Nat → List α
  | 0 => M
  | n + 1 => dup (M ++ M.reverse) n

/-- ik_classes.py:256-261: the loop adding one column; `lhs` is the unknown's list `LHSversionNames`, which grows.
The index is always in range: at iteration `i` the list got its `(i+1)`-th element in this call. -/
def addCol (u : String) : Nat → List VName → List Row → List Row × List VName
  | _, lhs, [] => ([], lhs)
  | i, lhs, r :: rs =>
    let lhs := lhs ++ [.v u (i + 1)]
    let (rs', lhs') := addCol u (i + 1) lhs rs
    ((r ++ [(lhs[i]?).getD (.v u 0)]) :: rs', lhs')

/-- All `LHSversionNames` lists, by unknown. -/
abbrev LhsMap := String → List VName

/-- ik_classes.py:242-268: one iteration of the loop over the solution nodes. -/
def createStep (st : List Row × LhsMap) (u : SolUnk) : List Row × LhsMap :=
  let M := st.1
  let M' := if u.nsols > 1 then dup M (u.nsols - 1) else M
  if M.length > 0 then
    let (rows, l) := addCol u.name 0 (st.2 u.name) M'
    (rows, fun n => if n = u.name then l else st.2 n)
  else (M' ++ u.versionNames.map (fun vn => [vn]), st.2)

/-- ik_classes.py:238-285: the rows of `solListMatrix`, for the solution nodes in order, starting with empty
`LHSversionNames`. `solutionSet` is the set of the rows. -/
def createSolutionSet (us : List SolUnk) : List Row :=
  (us.foldl createStep ([], fun _ => [])).1

/-- An equation `LHS = RHS` of the final table. -/
structure FEqn where
  lhs : String
  rhs : Expr
  deriving DecidableEq, Repr

inductive Err where | indexError | zeroDivision | unboundLocal
  deriving DecidableEq, Repr

/-- ik_classes.py:205-208: the substitution dictionary of a row (a later column wins). -/
def subdict : List SolUnk → Row → String → Option Expr
  | u :: us, e :: es, n =>
    match subdict us es n with
    | some r => some r
    | none => if n = u.name then some (.sym e.render) else none
  | _, _, _ => none

/-- ik_classes.py:213-224: the equations of one row; `nsols` is that of the last solution node. -/
def rowEqns (nsols row : Nat) (f : String → Option Expr) : List SolUnk → Except Err (List FEqn)
  | [] => .ok []
  | u :: us =>
    match u.solutions[row % nsols]? with
    | none => .error .indexError
    | some sol =>
      match rowEqns nsols row f us with
      | .error e => .error e
      | .ok es => .ok (⟨(VName.v u.name (row + 1)).render, sol.subs f⟩ :: es)

/-- ik_classes.py:203-226: the loop over the rows, from row number `row`. -/
def rowsEqns (us : List SolUnk) (nsols : Nat) : Nat → List Row → Except Err (List (List FEqn))
  | _, [] => .ok []
  | row, r :: rs =>
    match rowEqns nsols row (subdict us r) us with
    | .error e => .error e
    | .ok es =>
      match rowsEqns us nsols (row + 1) rs with
      | .error e => .error e
      | .ok t => .ok (es :: t)

/-- ik_classes.py:200-226 `make_LHS_versions`, for a table whose rows have one column per solution node (`nunks`,
line 202, proved in C17) and an empty `FinalEqnMatrix` (initially, ik_classes.py:148). -/
def makeLHSVersions (us : List SolUnk) (M : List Row) : Except Err (List (List FEqn)) :=
  match M with
  | [] => .error .indexError                       -- self.solListMatrix[0]
  | _ :: _ =>
    match us.getLast? with
    | none => .error .unboundLocal                 -- `col` after an empty loop
    | some u => if u.nsols = 0 then .error .zeroDivision else rowsEqns us u.nsols 0 M

end Verif.Sol
