import Verif.Kin.Numeric
import Verif.Kin.SoaModel
import Verif.Solver.Model
import Verif.Sol.Versions
/-!
# The whole program: ikSolver.py from the DH table to the solutions

Composition of the parts modelled elsewhere: the link transforms (`Kin.Numeric`), the matrix equations (kin_cl.py:474-514, here on expressions),
`Robot.__init__`, the sum-of-angles transform (`Kin.SoaModel`) and the solver tree (`Solver.Model`). Not part of it: the Jacobian, the file with
the pickled kinematics (`Out.Pickle`: taken as absent), printing and the generated files (`Out`).
-/
namespace Verif.Main
open Verif.Sym Verif.Eqn
open Verif.Kin (SM4 SymOps DHRow linkMat mulS Match SoaErr soaTransform zero one mulE addE)
open Verif.BT (Status Crash)
open Verif.Leaf (Sympy LS cells)

/-- What the whole program needs of sympy. -/
structure Ops where
  /-- for the link transforms -/
  fk : SymOps
  /-- automatic evaluation of the entries of a matrix product -/
  auto : Expr → Expr
  /-- `expr.subs(old, new)` (sum of angles) -/
  sub : Expr → Expr → Expr → Expr
  /-- `sp.simplify` (sum of angles) -/
  simp : Expr → Expr
  /-- the sines and cosines of sums in an expression (sum of angles) -/
  find : Expr → List Match
  /-- for the solver -/
  solver : Sympy

/-- pykinsym.py:250-255 `H_inv_S`, on expressions -/
def hInvS (T : SM4) : SM4 := fun i j =>
  if i = 3 then (if j = 3 then one else zero)
  else if j = 3 then addE (addE (mulE (.un .neg (T 0 i)) (T 0 3)) (mulE (.un .neg (T 1 i)) (T 1 3))) (mulE (.un .neg (T 2 i)) (T 2 3))
  else T j i

/-- the name `r_11`, … (helperfunctions.py:90-92) or `Px`, `Py`, `Pz` (94-96) of an entry of the target -/
def poseName (i : Fin 3) (j : Fin 4) : String :=
  ((["r_11", "r_12", "r_13", "Px", "r_21", "r_22", "r_23", "Py", "r_31", "r_32", "r_33", "Pz"])[4 * i.val + j.val]?).getD ""

/-- helperfunctions.py:87-101 `ik_lhs` -/
def ikLhsS : SM4 := fun i j => if h : i.val < 3 then .sym (poseName ⟨i, h⟩ j) else if j = 3 then one else zero

/-- kin_cl.py:222-235 `matrix_equation` -/
def matrixEquation (td ts : SM4) : MEqn := ⟨fun i j => td i.castSucc j, fun i j => ts i.castSucc j, []⟩

/-- `A * B` (kin_cl.py:479-511) -/
def mulA (O : Ops) (A B : SM4) : SM4 := fun i j => O.auto (mulS A B i j)

/-- kin_cl.py:474-514 `get_mequation_set` -/
def mequationSet (O : Ops) (T : Fin 6 → SM4) : List MEqn :=
  let m := mulA O
  let I := fun i => hInvS (T i)
  [matrixEquation ikLhsS (m (m (m (m (m (T 0) (T 1)) (T 2)) (T 3)) (T 4)) (T 5)),
   matrixEquation (m (I 0) ikLhsS) (m (m (m (m (T 1) (T 2)) (T 3)) (T 4)) (T 5)),
   matrixEquation (m (m (I 1) (I 0)) ikLhsS) (m (m (m (T 2) (T 3)) (T 4)) (T 5)),
   matrixEquation (m (m (m (I 2) (I 1)) (I 0)) ikLhsS) (m (m (T 3) (T 4)) (T 5)),
   matrixEquation (m (m (m (m (I 3) (I 2)) (I 1)) (I 0)) ikLhsS) (m (T 4) (T 5)),
   matrixEquation (m (m (m (m (m (I 4) (I 3)) (I 2)) (I 1)) (I 0)) ikLhsS) (T 5),
   matrixEquation (m (m (I 0) ikLhsS) (I 5)) (m (m (m (T 1) (T 2)) (T 3)) (T 4)),
   matrixEquation (m (m (m (m (I 1) (I 0)) ikLhsS) (I 5)) (I 4)) (m (T 2) (T 3))]

/-- How the program can end early. -/
inductive Err where
  /-- ik_classes.py:185 -/
  | noFirstVariable
  /-- ik_classes.py:190 -/
  | noIndex
  /-- an exception in `sum_of_angles_transform` -/
  | soa (e : SoaErr)
  /-- an exception in the solver -/
  | solver (c : Crash)

/-- the elements of a matrix equation in the order of the loops (ik_classes.py:379-380) -/
def elements (m : MEqn) : List (Expr × Expr) := cells.map fun c => (m.td c.1 c.2, m.ts c.1 c.2)

/-- ik_classes.py:405-406: the elements are written back -/
def ofElements (l : List (Expr × Expr)) (aux : List KEqn) : MEqn :=
  ⟨fun i j => ((l[4 * i.val + j.val]?).getD (zero, zero)).1, fun i j => ((l[4 * i.val + j.val]?).getD (zero, zero)).2, aux⟩

/-- ik_classes.py:377-406: all matrix equations -/
def soaMatrices (O : Ops) : List MEqn → List Kin.Var → List (String × Expr) →
    Except SoaErr (List MEqn × List Kin.Var × List (String × Expr))
  | [], vars, aux => .ok ([], vars, aux)
  | m :: ms, vars, aux =>
    match soaTransform O.sub O.simp O.find (elements m) vars aux with
    | .error e => .error e
    | .ok (l, vars, aux) =>
      match soaMatrices O ms vars aux with
      | .error e => .error e
      | .ok (ms', vars, aux) => .ok (ofElements l m.aux :: ms', vars, aux)

/-- `DH[i,2] != 0 or DH[i,3] != 0` (ik_classes.py:185, 187) -/
def hasVariable (r : DHRow) : Bool := r.d != .num 0 || r.th != .num 0

/-- The equations and unknowns handed to the solver: ik_classes.py:92-106 (forward kinematics, `Robot.__init__` 176-193, sum of angles); the scan at
line 101 leaves nothing behind. -/
def prepare (O : Ops) (dh : Fin 6 → DHRow) (vars : List Kin.Var) : Except Err (List MEqn × List Kin.Var × List (String × Expr)) :=
  if !hasVariable (dh 0) then .error .noFirstVariable
  else if !([5, 4, 3, 2, 1] : List (Fin 6)).any fun i => hasVariable (dh i) then .error .noIndex
  else match soaMatrices O (mequationSet O (linkMat O.fk dh)) vars [] with
    | .error e => .error (.soa e)
    | .ok r => .ok r

/-- a recorded sum of angles as an equation (ik_classes.py:503 `tmpeqn = kc.kequation(th_new, ...)`) -/
def auxEqn (q : String × Expr) : KEqn := ⟨.sym q.1, q.2⟩

/-- ikSolver.py:98-349 for a DH table and the list of joint variables: the equations are set up, the tree is ticked once. -/
def program (O : Ops) (dh : Fin 6 → DHRow) (vars : List Kin.Var) : Except Err (Status × LS) :=
  match prepare O dh vars with
  | .error e => .error e
  | .ok (ms, vars, aux) =>
    match Solver.solve O.solver (vars.map (·.symbol)) ms (aux.map auxEqn) with
    | .error c => .error (.solver c)
    | .ok r => .ok r

end Verif.Main
