import Verif.Sym.Eval
/-!
# notation_squeeze and the sum-of-angles transform

Models ikbtbasics/pykinsym.py:133-166, ikbtbasics/ik_classes.py:367-411 (`sum_of_angles_transform`), :419-529
(`sum_of_angles_sub`) and :531-547 (`get_variable_index`).

sympy enters through three parameters: `sub e old new` for `expr.subs(old, new)`, `find e` for the matches of
`expr.find(sin(aw+bw+cw)) | expr.find(cos(aw+bw+cw))` (each match as the three values of the wildcards; 0 for an unused one)
and `simp e` for `sp.simplify`.
-/
namespace Verif.Kin
open Verif.Sym

/-! ## notation_squeeze -/

/-- pykinsym.py:135-140 -/
def sinPairs : List (Expr × Expr) :=
  [(.un .sin (.sym "th_1"), .sym "s_1"), (.un .sin (.sym "th_2"), .sym "s_2"), (.un .sin (.sym "th_3"), .sym "s_3"),
   (.un .sin (.sym "th_4"), .sym "s_4"), (.un .sin (.sym "th_5"), .sym "s_5"), (.un .sin (.sym "th_6"), .sym "s_6")]

/-- pykinsym.py:142-147 -/
def cosPairs : List (Expr × Expr) :=
  [(.un .cos (.sym "th_1"), .sym "c_1"), (.un .cos (.sym "th_2"), .sym "c_2"), (.un .cos (.sym "th_3"), .sym "c_3"),
   (.un .cos (.sym "th_4"), .sym "c_4"), (.un .cos (.sym "th_5"), .sym "c_5"), (.un .cos (.sym "th_6"), .sym "c_6")]

/-- pykinsym.py:151-163 -/
def sumPairs : List (Expr × Expr) :=
  [(.un .cos (.bin .add (.sym "th_1") (.sym "th_2")), .sym "c_12"),
   (.un .sin (.bin .add (.sym "th_1") (.sym "th_2")), .sym "s_12"),
   (.un .cos (.bin .add (.sym "th_2") (.sym "th_3")), .sym "c_23"),
   (.un .sin (.bin .add (.sym "th_2") (.sym "th_3")), .sym "s_23"),
   (.un .cos (.bin .add (.sym "th_3") (.sym "th_4")), .sym "c_34"),
   (.un .sin (.bin .add (.sym "th_3") (.sym "th_4")), .sym "s_34"),
   (.un .cos (.bin .add (.sym "th_4") (.sym "th_5")), .sym "c_45"),
   (.un .sin (.bin .add (.sym "th_4") (.sym "th_5")), .sym "s_45"),
   (.un .cos (.bin .add (.sym "th_5") (.sym "th_6")), .sym "c_56"),
   (.un .sin (.bin .add (.sym "th_5") (.sym "th_6")), .sym "s_56"),
   (.un .cos (.bin .add (.sym "th_1") (.sym "th_3")), .sym "c_13"),
   (.un .sin (.bin .add (.sym "th_1") (.sym "th_3")), .sym "s_13")]

/-- pykinsym.py:133-166 -/
def notationSqueeze (sub : Expr → Expr → Expr → Expr) (e : Expr) : Expr :=
  (sinPairs ++ cosPairs ++ sumPairs).foldl (fun e p => sub e p.1 p.2) e

/-! ## sum of angles -/

/-- A joint variable (kin_cl.py:88-92): its symbol and its index `n`, kept as the list of its decimal digits (`[]` is the
unset index 0). `v.n == int(ni)` for a string `ni` of digits without leading zeros is equality of the digits. -/
structure Var where
  symbol : String
  n : List (Fin 10)
  deriving DecidableEq, Repr

/-- `'th_' + ni` -/
def thName (ni : List (Fin 10)) : String := String.ofList ('t' :: 'h' :: '_' :: ni.map (fun d => Nat.digitChar d.val))

/-- How the calls can fail: `quit()`, or the `assert` of get_variable_index (an `UnboundLocalError` if there is no variable),
or `int('')`. -/
inductive SoaErr where | quit | notAVariable | valueError
  deriving DecidableEq, Repr

/-- ik_classes.py:531-547 get_variable_index -/
def getVariableIndex : List Var → Expr → Except SoaErr (List (Fin 10))
  | [], _ => .error .notAVariable
  | v :: vs, x => if v.n = [] then .error .quit else if x = .sym v.symbol then .ok v.n else getVariableIndex vs x

/-- Comparison of strings of digits, as `nil.sort()` uses. -/
def strLe : List (Fin 10) → List (Fin 10) → Bool
  | [], _ => true
  | _ :: _, [] => false
  | a :: l, b :: m => a < b || (a == b && strLe l m)

def insertStr (x : List (Fin 10)) : List (List (Fin 10)) → List (List (Fin 10))
  | [] => [x]
  | y :: l => if strLe x y then x :: y :: l else y :: insertStr x l

/-- `nil.sort()` -/
def sortStr (l : List (List (Fin 10))) : List (List (Fin 10)) := l.foldr insertStr []

/-- A match: the values of `aw`, `bw`, `cw`. -/
abbrev Match := Expr × Expr × Expr

/-- ik_classes.py:460-467: the non-zero wildcard values -/
def varlist (m : Match) : List Expr := [m.1, m.2.1, m.2.2].filter (fun x => decide (x ≠ .num 0))

/-- `d[aw] + d[bw] + d[cw]` (sympy drops the zeros) -/
def sumOf : List Expr → Expr
  | [] => .num 0
  | x :: l => l.foldl (.bin .add) x

/-- ik_classes.py:436-449: matches sorted by the key `-(number of non-zero wildcards)`; python's sort is stable. -/
def sortMatches (l : List Match) : List Match :=
  l.filter (fun m => (varlist m).length == 3) ++ l.filter (fun m => (varlist m).length == 2) ++
  l.filter (fun m => (varlist m).length == 1) ++ l.filter (fun m => (varlist m).length == 0)

/-- The variables of sum_of_angles_sub that live across iterations, with the two lists it appends to: `variables` and
`R.kequation_aux_list` (equations `symbol = expression`). -/
structure SoaSt where
  expr : Expr
  vars : List Var
  aux : List (String × Expr)
  found2 : Bool := false
  found3 : Bool := false
  newjoint : Option Var := none
  tmpeqn : Option (String × Expr) := none
  deriving DecidableEq, Repr

/-- ik_classes.py:480-486: the new subscript -/
def newIndex (vars : List Var) (vl : List Expr) : Except SoaErr (List (Fin 10)) := do
  let nil ← vl.mapM (getVariableIndex vars)
  return (sortStr nil).flatten

/-- ik_classes.py:451-525: the body of the loop. `found2`, `found3` are not reset (as in the code). -/
def soaStep (sub : Expr → Expr → Expr → Expr) (st : SoaSt) (m : Match) : Except SoaErr SoaSt :=
  let vl := varlist m
  let st := { st with
    found2 := st.found2 || vl.length == 2, found3 := st.found3 || vl.length == 3, newjoint := none, tmpeqn := none }
  if st.found2 || st.found3 then
    match newIndex st.vars vl with
    | .error e => .error e
    | .ok [] => .error .valueError
    | .ok ni =>
      let thNew := thName ni
      let st := if st.vars.any (fun v => v.n == ni) then st else
        { st with
          newjoint := some ⟨thNew, ni⟩, tmpeqn := some (thNew, sumOf vl)
          vars := st.vars ++ [⟨thNew, ni⟩], aux := st.aux ++ [(thNew, sumOf vl)] }
      .ok { st with expr := sub st.expr (sumOf vl) (.sym thNew) }
  else .ok st

def soaLoop (sub : Expr → Expr → Expr → Expr) (st : SoaSt) : List Match → Except SoaErr SoaSt
  | [] => .ok st
  | m :: l => match soaStep sub st m with
    | .error e => .error e
    | .ok st' => soaLoop sub st' l

/-- ik_classes.py:419-529 sum_of_angles_sub -/
def soaSub (sub : Expr → Expr → Expr → Expr) (find : Expr → List Match) (e : Expr) (vars : List Var)
    (aux : List (String × Expr)) : Except SoaErr SoaSt :=
  soaLoop sub { expr := e, vars := vars, aux := aux } (sortMatches (find e))

/-- ik_classes.py:384-406: one matrix element. The left side's new joint and equation are appended again by the caller. -/
def soaElement (sub : Expr → Expr → Expr → Expr) (simp : Expr → Expr) (find : Expr → List Match) (td ts : Expr)
    (vars : List Var) (aux : List (String × Expr)) : Except SoaErr (Expr × Expr × List Var × List (String × Expr)) :=
  match soaSub sub find (simp td) vars aux with
  | .error e => .error e
  | .ok l =>
    match soaSub sub find (simp ts) (l.vars ++ l.newjoint.toList) (l.aux ++ l.tmpeqn.toList) with
    | .error e => .error e
    | .ok r => .ok (l.expr, r.expr, r.vars, r.aux)

/-- ik_classes.py:367-411 sum_of_angles_transform: all elements (Td, Ts) of the matrix equations, in order. -/
def soaTransform (sub : Expr → Expr → Expr → Expr) (simp : Expr → Expr) (find : Expr → List Match) :
    List (Expr × Expr) → List Var → List (String × Expr) →
      Except SoaErr (List (Expr × Expr) × List Var × List (String × Expr))
  | [], vars, aux => .ok ([], vars, aux)
  | (td, ts) :: l, vars, aux =>
    match soaElement sub simp find td ts vars aux with
    | .error e => .error e
    | .ok (td', ts', vars', aux') =>
      match soaTransform sub simp find l vars' aux' with
      | .error e => .error e
      | .ok (l', vars'', aux'') => .ok ((td', ts') :: l', vars'', aux'')

end Verif.Kin
