import Verif.Solver.Model
/-!
# The solver with python's two kinds of zero

`updateL` (updateL.py:48) makes equations whose left side is the python `int` 0. An `int` has no methods `has` and `simplify`, so
the leaves that call these on a left side (sincos_solver.py:127-142, x2y2_transform.py:231-232) raise AttributeError for such an
equation; `algebra_id` replaces the `int` by sympy's zero on its way (algebra_solver.py:91-94, 154-155), in the equation objects
themselves. `Verif.Leaf.Model` treats all zeros as sympy's. Here is the same solver with the kind of the left sides kept.
The equations in the matrices and in `kequation_aux_list` have sympy expressions on both sides (matrix elements;
ik_classes.py:503; x2y2_transform.py:279), and no leaf keeps an equation of the lists longer than the lists.
-/
namespace Verif.Solver
open Verif.Leaf Verif.Eqn Verif.Sol Verif.Sym
open Verif.BT hiding Tree

/-- An equation of a list and whether its left side is a python `int` (updateL.py:48). -/
abbrev TEqn := KEqn × Bool

/-- The state of a run, with the kinds of the left sides of `eqns_1u` and `eqns_2u` (in the order of the lists). The third list is
read by no leaf (its users only print it). -/
structure TLS where
  s : LS
  int1 : List Bool := []
  int2 : List Bool := []

/-- blackboard `eqns_1u` -/
def TLS.eqns1 (t : TLS) : List TEqn := t.s.lists.l1.zip t.int1
/-- blackboard `eqns_2u` -/
def TLS.eqns2 (t : TLS) : List TEqn := t.s.lists.l2.zip t.int2

/-- Result of a leaf's tick -/
abbrev TOut := Except Nat (Status × TLS)

/-- `e.LHS.has(x)`; error 5 is AttributeError (sincos_solver.py:127) -/
def lhsHas (x : Expr) (e : TEqn) : Except Nat Bool := if e.2 then .error 5 else .ok (occurs x e.1.lhs)

/-- python's `a or b`: the right operand is evaluated only if needed -/
def pyOr (a : Bool) (b : Except Nat Bool) : Except Nat Bool := if a then .ok true else b

/-- python's `a and b` -/
def pyAnd (a b : Except Nat Bool) : Except Nat Bool :=
  match a with
  | .ok true => b
  | r => r

/-- python's `if` on an evaluated condition -/
def pyIf {α : Type} (c : Except Nat Bool) (a b : Except Nat α) : Except Nat α :=
  match c with
  | .ok true => a
  | .ok false => b
  | .error c => .error c

/-- `e.RHS.has(x) or e.LHS.has(x)` (sincos_solver.py:127, 128, 130, 142) -/
def sideHas (x : Expr) (e : TEqn) : Except Nat Bool := pyOr (occurs x e.1.rhs) (lhsHas x e)

/-- sincos_solver.py:121-149 -/
def sincosFindT (u : String) : List TEqn → Except Nat (Option (KEqn × Tag))
  | [] => .ok none
  | e :: l =>
    pyIf (pyAnd (sideHas (sinU u) e) (sideHas (cosU u) e)) (sincosFindT u l)
      (pyIf (sideHas (sinU u) e) (.ok (some (e.1, .arcsin)))
        (pyIf (sideHas (cosU u) e) (.ok (some (e.1, .arccos))) (sincosFindT u l)))

/-- sincos_solver.py:97-159 -/
def sincosIdT (t : TLS) : TOut :=
  let u := t.s.curr
  if !(t.s.ld u).solvableSc && !t.s.solved u then
    match sincosFindT u t.eqns1 with
    | .error c => .error c
    | .ok none => .ok (.failure, t)
    | .ok (some (e, g)) => .ok (.success, { t with s := t.s.updLd u fun d =>
        { d with eqn := some e, method := d.method ++ [g], solvableSc := true } })
  else .ok (.failure, t)

/-- algebra_solver.py:149-192: the loop, with the kinds of the left sides after it (lines 154-155 before everything else) -/
def algebraFindT (P : Sympy) (u : String) : List TEqn → Option Expr × List Bool
  | [] => (none, [])
  | (e, _) :: l =>
    let go := fun _ : Unit => let r := algebraFindT P u l; (r.1, false :: r.2)
    if occurs (sinU u) e.rhs || occurs (cosU u) e.rhs || occurs (sinU u) e.lhs || occurs (cosU u) e.lhs then go ()
    else if e.rhs.has u || e.lhs.has u then
      let tmp := P.collectU u (P.sub e.rhs e.lhs)
      match linearMatch P tmp u with
      | none => go ()
      | some _ => (some tmp, false :: l.map (·.2))
    else go ()

/-- algebra_solver.py:123-200 -/
def algebraIdT (P : Sympy) (t : TLS) : TOut :=
  if t.s.lists.l1.length = 0 then .ok (.failure, t) else
  let u := t.s.curr
  if t.s.solved u then .ok (.failure, t) else
  let r := algebraFindT P u t.eqns1
  match r.1 with
  | none => .ok (.failure, { t with int1 := r.2 })
  | some tmp => .ok (.success, { t with int1 := r.2, s := t.s.updLd u fun d =>
      { d with ready := true, eqn := some ⟨.num 0, tmp⟩, method := d.method ++ [.algebra] } })

/-- x2y2_transform.py:217-248: the inner loop. The sum of the squares of two `int`s is an `int`, which has no `simplify` (line 232). -/
def x2z2RowT (P : Sympy) (vs : List Var) (a : TEqn) : List TEqn → Except Nat (Option KEqn)
  | [] => .ok none
  | b :: l =>
    if a.2 && b.2 then .error 5 else
    match x2z2Pair P vs a.1 b.1 with
    | some r => .ok (some r)
    | none => x2z2RowT P vs a l

/-- x2y2_transform.py:213-249 -/
def x2z2FindT (P : Sympy) (vs : List Var) : List TEqn → Except Nat (Option KEqn)
  | [] => .ok none
  | e :: l =>
    match x2z2RowT P vs e l with
    | .error c => .error c
    | .ok (some r) => .ok (some r)
    | .ok none => x2z2FindT P vs l

/-- x2y2_transform.py:150-286 -/
def x2z2T (P : Sympy) (t : TLS) : TOut :=
  if t.s.curr = "th_2" || t.s.curr = "th_3" then
    match x2z2FindT P t.s.vars (t.eqns2.filter fun e => hasP e.1) with
    | .error c => .error c
    | .ok none => .ok (.failure, t)
    | .ok (some e) =>
      match t.s.vars.find? (fun v => e.rhs.has v.name && !v.solved) with
      | none => .ok (.failure, t)
      | some v =>
        let s : LS := { t.s with aux := t.s.aux ++ [e] }
        .ok (.success, { t with s := s.updLd v.name fun d => { d with method := d.method ++ [Tag.x2z2] } })
  else .ok (.failure, t)

/-- lists with sympy expressions only (ik_classes.py:304, 325-327) -/
def plainLists (s : LS) : TLS := ⟨s, s.lists.l1.map fun _ => false, s.lists.l2.map fun _ => false⟩

/-- sub_transform.py:87-164: if something was replaced, the lists are made anew by `scan_for_equations` (line 156-159) -/
def subTransformT (P : Sympy) (t : TLS) : TOut :=
  match t.s.ms with
  | [] => .error 1
  | m :: ms =>
    let r := cells.foldl (subCell P t.s.vars) (m, false)
    let s := { t.s with ms := r.1 :: ms }
    if r.2 then
      match scanForEquations P.toCAS s.ms s.aux s.vars with
      | .error _ => .error 1
      | .ok L => .ok (.success, plainLists { s with lists := L })
    else .ok (.success, { t with s := s })

/-- updateL.py:46-55 for one auxiliary equation: the lists and the kinds of the left sides; line 48 makes an `int` -/
def updAuxT (c : CAS) (vs : List Var) (r : Lists × List Bool × List Bool) (e : KEqn) : Lists × List Bool × List Bool :=
  let e1 : KEqn := ⟨.num 0, c.sub e.lhs e.rhs⟩
  let cu := countUnknowns vs e1.rhs
  if cu = 1 then ({ r.1 with l1 := r.1.l1 ++ [e1] }, r.2.1 ++ [true], r.2.2)
  else if cu = 2 then ({ r.1 with l2 := r.1.l2 ++ [e1] }, r.2.1, r.2.2 ++ [true])
  else if cu = 3 then ({ r.1 with l3p := r.1.l3p ++ [e1] }, r.2)
  else r

/-- updateL.py:37-64 -/
def updateLeafT (P : Sympy) (t : TLS) : TOut :=
  match scanForEquations P.toCAS t.s.ms t.s.aux t.s.vars with
  | .error _ => .error 1
  | .ok L =>
    let r := t.s.aux.foldl (updAuxT P.toCAS t.s.vars) (L, L.l1.map fun _ => false, L.l2.map fun _ => false)
    .ok (.success, ⟨{ t.s with lists := r.1 }, r.2.1, r.2.2⟩)

/-- a leaf that calls no method on a left side and makes no lists: tan_solver.py:81, two_eqn_m7.py:94 and sinANDcos_solver.py:116
only subtract the left side, the other leaves do not read the lists -/
def same (f : LS → Out) (t : TLS) : TOut :=
  match f t.s with
  | .error c => .error c
  | .ok (st, s) => .ok (st, { t with s := s })

/-- `tick` of each leaf object of ikSolver.py:128-225 -/
def actT (P : Sympy) : LeafName → TLS → TOut
  | .algID => algebraIdT P
  | .scID => sincosIdT
  | .x2z2 => x2z2T P
  | .subTrans => subTransformT P
  | .updateL => updateLeafT P
  | l => same (act P l)

/-- The leaves as environment of the engine (ikSolver.py:128-225) -/
def envT (P : Sympy) : Env TLS LeafName := ⟨actT P, fun t => (0, t)⟩

/-- ikSolver.py:325-349 with some tree: the lists are made, then the tree is ticked once -/
def solveWith (tree : BT.Tree LeafName) (P : Sympy) (unknowns : List String) (ms : List MEqn) (aux : List KEqn) : Except Crash (Status × TLS) :=
  match scanForEquations P.toCAS ms aux (unknowns.map fun n => ⟨n, false⟩) with
  | .error _ => .error (.leaf 1)
  | .ok L =>
    match treeTick (envT P) 0 tree { user := plainLists { w := Sol.start unknowns, lists := L, ms := ms, aux := aux } } with
    | .error c => .error c
    | .ok (s, st) => .ok (s, st.user)

end Verif.Solver
