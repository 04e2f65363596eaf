import Verif.Sol.SetSolved
import Verif.Eqn.Model
import Verif.BT.Model
import Verif.Sym.Eval
/-!
# Model of the leaves of the solver tree

algebra_solver.py, sincos_solver.py, tan_solver.py, rank_leaf.py, two_eqn_m7.py, sinANDcos_solver.py, x2y2_transform.py,
sub_transform.py, sum_id.py, updateL.py, comp_detect.py, assigner_leaf.py (all in ikbtleaves/).

sympy enters through the parameter `Sympy`. Results of sympy arithmetic are kept as unsimplified trees, except where the
code's control flow depends on a simplification (`sub`, `ratio`, `simplify`, the collect/expand combinations).
Objects (`unknown`s) are identified by their symbol, as python's `==` and `hash` do (kin_cl.py:125-131).
Printing is omitted.
-/
namespace Verif.Leaf
open Verif.Sym Verif.Sol Verif.Eqn
open Verif.BT (Status)

/-- What the leaves need of sympy. -/
structure Sympy extends CAS where
  /-- `e.expand().collect(u)` (algebra_solver.py:163-165) -/
  collectU : String → Expr → Expr
  /-- `sp.collect(e, [sin(u), cos(u)])` (sincos_solver.py:182, tan_solver.py:120,130) -/
  collectSC : String → Expr → Expr
  /-- `e.expand()`, then `collect(sin(u))`, then `collect(cos(u))` (sinANDcos_solver.py:120-123, two_eqn_m7.py:95-104) -/
  expandSC : String → Expr → Expr
  /-- `e.match(Aw*t + Bw)` with `exclude=ex`: the values of `Aw`, `Bw` -/
  lin : Expr → Expr → List Expr → Option (Expr × Expr)
  /-- `e.coeff(t)` -/
  coeff : Expr → Expr → Expr
  /-- `a == b` on expressions (structural after sympy's normalisation) -/
  eqE : Expr → Expr → Bool
  /-- `a / b` with sympy's cancellation of common factors -/
  ratio : Expr → Expr → Expr
  /-- `sp.simplify(e)` -/
  simplify : Expr → Expr
  /-- `e.has(t)` for a general subexpression (sub_transform.py) -/
  hasE : Expr → Expr → Bool
  /-- `e.subs(old, new)` -/
  subst : Expr → Expr → Expr → Expr
  /-- sum_id.py:75-90: the expression contains sin or cos of `thx + sgn*thy` with all three wildcards non-zero -/
  sumFound : Expr → Bool

/-- `e.has(sin(u))` etc. (algebra_solver.py:156-157): occurrence of a subexpression -/
def occurs (t : Expr) : Expr → Bool
  | .num q => .num q == t
  | .sym s => .sym s == t
  | .un f a => .un f a == t || occurs t a
  | .bin f a b => .bin f a b == t || occurs t a || occurs t b

/-- The pieces `solvemethod` is built from (strings in the code; membership tests are substring tests, and no piece occurs
inside another one or across a joint). -/
inductive Tag where | algebra | arcsin | arccos | atan2 | sinANDcos | simu | x2z2 | bestRanked | sinOrCos
  deriving DecidableEq, Repr

/-- The fields of an `unknown` (kin_cl.py:88-120) used by the leaves, besides those in `Sol.Unk`. -/
structure LeafData where
  ready : Bool := false
  eqn : Option KEqn := none
  second : Option KEqn := none
  method : List Tag := []
  scSols : List Expr := []
  scEqns : List KEqn := []
  solvableSc : Bool := false
  tanSols : List Expr := []
  tanEqns : List KEqn := []
  solvableTan : Bool := false
  /-- (true, e): `Q.positive(e)`; (false, e): `Q.negative(e)` -/
  assumption : List (Bool × Expr) := []
  /-- after rank_leaf.py:80-87 `u.solutions` is the same list object as `u.sincos_solutions` (`some false`) or
  `u.tan_solutions` (`some true`) -/
  shared : Option Bool := none

/-- The state of a run: robot, unknowns and blackboard. -/
structure LS where
  /-- unknown objects and solution graph -/
  w : World
  ld : String → LeafData := fun _ => {}
  /-- blackboard `eqns_1u`, `eqns_2u`, `eqns_3pu` -/
  lists : Lists
  /-- `R.mequation_list` -/
  ms : List MEqn
  /-- `R.kequation_aux_list` -/
  aux : List KEqn := []
  /-- blackboard `curr_unk` -/
  curr : String := ""
  /-- blackboard `counter` -/
  counter : Nat := 0
  /-- not in the code: the coefficients that the computed solutions divide by (or need non-zero), for the theorems -/
  guards : List Expr := []

/-- The `unknowns` with their solved flags. -/
def LS.vars (s : LS) : List Var := s.w.unknowns.map fun n => ⟨n, (s.w.unk n).solved⟩

/-- `u.solved` -/
def LS.solved (s : LS) (x : String) : Bool := (s.w.unk x).solved

/-- write to the leaf fields of an unknown -/
def LS.updLd (s : LS) (x : String) (f : LeafData → LeafData) : LS :=
  { s with ld := fun n => if n = x then f (s.ld n) else s.ld n }

/-- write to the fields of an unknown that `Sol.Unk` holds -/
def LS.updU (s : LS) (x : String) (f : Unk → Unk) : LS := { s with w := s.w.upd x f }

/-- Result of a leaf's tick: an exception or a status and the new state. -/
abbrev Out := Except Nat (Status × LS)

/-- `u.set_solved(R, unknowns)` (kin_cl.py:153-200): also clears `readytosolve` (line 155). -/
def LS.setSolved (s : LS) (x : String) : Except Nat LS :=
  match Sol.setSolved s.w x with
  | (w, none) => .ok ({ s with w := w }.updLd x fun d => { d with ready := false })
  | (_, some _) => .error 1

/-- `u.solutions.append(sol)` (the list may be shared with `sincos_solutions` or `tan_solutions`) -/
def LS.pushSol (s : LS) (x : String) (e : Expr) : LS :=
  let s' := s.updU x fun u => { u with solutions := u.solutions ++ [e] }
  match (s.ld x).shared with
  | none => s'
  | some false => s'.updLd x fun d => { d with scSols := d.scSols ++ [e] }
  | some true => s'.updLd x fun d => { d with tanSols := d.tanSols ++ [e] }

/-- `u.sincos_solutions.append(sol)` -/
def LS.pushSc (s : LS) (x : String) (e : Expr) : LS :=
  let s' := s.updLd x fun d => { d with scSols := d.scSols ++ [e] }
  if (s.ld x).shared = some false then s'.updU x fun u => { u with solutions := u.solutions ++ [e] } else s'

/-- `u.tan_solutions.append(sol)` -/
def LS.pushTan (s : LS) (x : String) (e : Expr) : LS :=
  let s' := s.updLd x fun d => { d with tanSols := d.tanSols ++ [e] }
  if (s.ld x).shared = some true then s'.updU x fun u => { u with solutions := u.solutions ++ [e] } else s'

/-! ## algebra_solver.py -/

/-- algebra_solver.py:96-121 -/
def linearMatch (P : Sympy) (e : Expr) (u : String) : Option (Expr × Expr) :=
  match P.lin e (.sym u) [.sym u] with
  | none => none
  | some (A, B) => if P.eqE A (.num 0) then none else some (A, B)

/-- `sp.sin(u.symbol)` (algebra_solver.py:156) -/
def sinU (u : String) : Expr := .un .sin (.sym u)
/-- `sp.cos(u.symbol)` (algebra_solver.py:156) -/
def cosU (u : String) : Expr := .un .cos (.sym u)

/-- algebra_solver.py:149-192: the loop over the one-unknown equations -/
def algebraFind (P : Sympy) (u : String) : List KEqn → Option Expr
  | [] => none
  | e :: l =>
    if occurs (sinU u) e.rhs || occurs (cosU u) e.rhs || occurs (sinU u) e.lhs || occurs (cosU u) e.lhs then algebraFind P u l
    else if e.rhs.has u || e.lhs.has u then
      let tmp := P.collectU u (P.sub e.rhs e.lhs)
      match linearMatch P tmp u with
      | none => algebraFind P u l
      | some _ => some tmp
    else algebraFind P u l

/-- algebra_solver.py:123-200 -/
def algebraId (P : Sympy) (s : LS) : Out :=
  if s.lists.l1.length = 0 then .ok (.failure, s) else
  let u := s.curr
  if s.solved u then .ok (.failure, s) else
  match algebraFind P u s.lists.l1 with
  | none => .ok (.failure, s)
  | some tmp => .ok (.success, s.updLd u fun d =>
      { d with ready := true, eqn := some ⟨.num 0, tmp⟩, method := d.method ++ [.algebra] })

/-- `(LHS - B) / A` (algebra_solver.py:230, sincos_solver.py:212, 246) -/
def quot (P : Sympy) (l B A : Expr) : Expr := P.ratio (P.sub l B) A

/-- algebra_solver.py:204-246 -/
def algebraSolve (P : Sympy) (s : LS) : Out :=
  let u := s.curr
  if (s.ld u).ready && (s.ld u).method.contains .algebra then
    match (s.ld u).eqn with
    | none => .error 2
    | some e =>
      match linearMatch P e.rhs u with
      | none => .ok (.failure, s)
      | some (A, B) =>
        let sol := quot P e.lhs B A
        if sol.has u then .ok (.failure, s) else
        let s := { s with guards := s.guards ++ [A] }
        match ((s.pushSol u sol).updU u fun u => { u with nsolutions := 1 }).setSolved u with
        | .error c => .error c
        | .ok s => .ok (.success, s)
  else .ok (.success, s)

/-! ## sincos_solver.py -/

/-- sincos_solver.py:120-149: the loop over the one-unknown equations: the equation and the method -/
def sincosFind (u : String) : List KEqn → Option (KEqn × Tag)
  | [] => none
  | e :: l =>
    let hs := occurs (sinU u) e.rhs || occurs (sinU u) e.lhs
    let hc := occurs (cosU u) e.rhs || occurs (cosU u) e.lhs
    if hs && hc then sincosFind u l
    else if hs then some (e, .arcsin)
    else if hc then some (e, .arccos)
    else sincosFind u l

/-- sincos_solver.py:97-159 -/
def sincosId (s : LS) : Out :=
  let u := s.curr
  if !(s.ld u).solvableSc && !s.solved u then
    match sincosFind u s.lists.l1 with
    | none => .ok (.failure, s)
    | some (e, t) => .ok (.success, s.updLd u fun d =>
        { d with eqn := some e, method := d.method ++ [t], solvableSc := true })
  else .ok (.failure, s)

/-- the common part of the two branches (sincos_solver.py:221-226, 253-266): record two solutions and their equation (no `set_solved`: rank does it) -/
def sincosRecord (s : LS) (u : String) (e : KEqn) (A sol1 sol2 : Expr) : Out :=
  let s := { s with guards := s.guards ++ [A] }
  let s := (((s.pushSol u sol1).pushSol u sol2).pushSc u sol1).pushSc u sol2
  .ok (.success, (s.updLd u fun d => { d with scEqns := d.scEqns ++ [e] }).updU u fun u => { u with nsolutions := 2 })

/-- sincos_solver.py:164-279 -/
def sincosSolve (P : Sympy) (s : LS) : Out :=
  let u := s.curr
  if (s.ld u).solvableSc then
    match (s.ld u).eqn with
    | none => .error 2
    | some e =>
      let rhs := P.collectSC u e.rhs
      if (s.ld u).method.contains .arcsin then
        match P.lin rhs (sinU u) [sinU u, cosU u] with
        | none => .ok (.failure, s)
        | some (A, B) =>
          let t := quot P e.lhs B A
          if t.has u then .error 1
          else sincosRecord s u e A (.un .asin t) (.bin .add (.sym "pi") (.un .neg (.un .asin t)))
      else if (s.ld u).method.contains .arccos then
        match P.lin rhs (cosU u) [sinU u, cosU u] with
        | none => .ok (.failure, s)
        | some (A, B) =>
          let t := quot P e.lhs B A
          if t.has u then .error 1
          else sincosRecord s u e A (.un .acos t) (.un .neg (.un .acos t))
      else .ok (.failure, s)
  else .ok (.failure, s)

/-! ## tan_solver.py -/

/-- tan_solver.py:78-103: `e.RHS - e.LHS` of the equations with only a sine, or only a cosine, of u -/
def tanCands (P : Sympy) (u : String) (l : List KEqn) : List KEqn × List KEqn :=
  let ok := fun e : KEqn => let t := P.sub e.rhs e.lhs
    t.has u && !(occurs (sinU u) t && occurs (cosU u) t)
  (l.filter fun e => ok e && occurs (sinU u) (P.sub e.rhs e.lhs),
   l.filter fun e => ok e && occurs (cosU u) (P.sub e.rhs e.lhs))

/-- tan_solver.py:120-197, one pair: the two collected expressions if the pair can be solved -/
def tanPair (P : Sympy) (vs : List Var) (u : String) (es ec : KEqn) : Option (Expr × Expr) :=
  let a := P.collectSC u (P.sub es.rhs es.lhs)
  let b := P.collectSC u (P.sub ec.rhs ec.lhs)
  match P.lin a (sinU u) [sinU u, cosU u], P.lin b (cosU u) [sinU u, cosU u] with
  | some (A, B), some (C, D) =>
    if countUnknowns vs (P.ratio A C) > 0 || countUnknowns vs B > 0 || countUnknowns vs D > 0 then none else some (a, b)
  | _, _ => none

/-- tan_solver.py:119-215: the double loop, first hit -/
def tanFind (P : Sympy) (vs : List Var) (u : String) (sins coss : List KEqn) : Option (Expr × Expr) :=
  sins.findSome? fun es => coss.findSome? fun ec => tanPair P vs u es ec

/-- tan_solver.py:53-223; SUCCESS whenever `solvable_tan` is set, be it from an earlier tick -/
def tanId (P : Sympy) (s : LS) : Out :=
  let u := s.curr
  let s :=
    if !(s.ld u).solvableTan && !s.solved u then
      let c := tanCands P u (s.lists.l1 ++ s.lists.l2)
      match tanFind P s.vars u c.1 c.2 with
      | none => s
      | some (a, b) => s.updLd u fun d =>
          { d with eqn := some ⟨.num 0, a⟩, second := some ⟨.num 0, b⟩, ready := true, method := d.method ++ [.atan2],
                   solvableTan := true }
    else s
  if (s.ld u).solvableTan then .ok (.success, s) else .ok (.failure, s)

/-- tan_solver.py:228-346 -/
def tanSolve (P : Sympy) (s : LS) : Out :=
  let u := s.curr
  if (s.ld u).solvableTan then
    match (s.ld u).eqn, (s.ld u).second with
    | some e1, some e2 =>
      match P.lin e1.rhs (sinU u) [sinU u, cosU u], P.lin e2.rhs (cosU u) [sinU u, cosU u] with
      | some (A, B), some (C, D) =>
        if countUnknowns s.vars B ≠ 0 || countUnknowns s.vars D ≠ 0 then .ok (.failure, s) else
        let co := P.ratio A C
        let Y := P.sub e1.lhs B
        let X := P.sub e2.lhs D
        let unsolved := s.vars.filter fun v => !v.solved
        let s := { s with guards := s.guards ++ [A, C] }
        if (getVariables unsolved A).length = 0 then
          let sol : Expr := .bin .atan2 (P.ratio Y A) (P.ratio X C)
          let s := (s.pushSol u sol).pushTan u sol
          .ok (.success, (s.updLd u fun d => { d with tanEqns := d.tanEqns ++ [e1, e2] }).updU u fun u => { u with nsolutions := 1 })
        else
          let sol1 : Expr := .bin .atan2 (P.ratio Y co) X
          let sol2 : Expr := .bin .atan2 (P.ratio (.un .neg Y) co) (.un .neg X)
          let s := (((s.pushSol u sol1).pushSol u sol2).pushTan u sol1).pushTan u sol2
          .ok (.success, (s.updLd u fun d => { d with
            tanEqns := d.tanEqns ++ [e1, e2], assumption := d.assumption ++ [(true, C), (false, C)] }).updU u
              fun u => { u with nsolutions := 2 })
      | _, _ => .ok (.failure, s)
    | _, _ => .error 2
  else .ok (.failure, s)

/-! ## rank_leaf.py -/

/-- rank_leaf.py:31-36 -/
def countVariables (vs : List Var) (e : Expr) : Nat := vs.foldl (fun n u => if e.has u.name then n + 1 else n) 0

/-- rank_leaf.py:38-107. Reading an empty list raises (`IndexError`). -/
def rankLeaf (s : LS) : Out :=
  let u := s.curr
  let d := s.ld u
  let fin := fun s : LS => match s.setSolved u with
    | .error c => .error c
    | .ok s => (.ok (.success, s) : Out)
  match d.scSols, d.tanSols with
  | sol_sin :: _, sol_tan :: _ =>
    let sc := if d.scSols.length < d.tanSols.length then true
      else if d.scSols.length > d.tanSols.length then false
      else countVariables s.vars sol_sin < countVariables s.vars sol_tan
    if sc then
      match d.scEqns with
      | [] => .error 3
      | e :: _ => fin ((s.updU u fun x => { x with solutions := d.scSols, nsolutions := d.scSols.length }).updLd u fun x =>
          { x with eqn := some e, method := x.method ++ [.bestRanked, .sinOrCos], shared := some false })
    else
      match d.tanEqns with
      | e :: e2 :: _ => fin ((s.updU u fun x => { x with solutions := d.tanSols, nsolutions := d.tanSols.length }).updLd u fun x =>
          { x with eqn := some e, second := some e2, method := x.method ++ [.bestRanked, .atan2], shared := some true })
      | _ => .error 3
  | _ :: _, [] => fin s
  | [], _ :: _ => fin s
  | [], [] => .ok (.success, s)

/-! ## two_eqn_m7.py -/

/-- `-e` (two_eqn_m7.py:63, sub_transform.py:141) -/
def negE (e : Expr) : Expr := .un .neg e

/-- two_eqn_m7.py:39-68 -/
def canonicalSecond (P : Sympy) (u : String) (e1 e2 : Expr) : Option Expr :=
  let A := P.coeff e1 (sinU u)
  let B := P.coeff e1 (cosU u)
  if P.eqE A (.num 0) && P.eqE B (.num 0) then none else
  let a2 := P.coeff e2 (cosU u)
  let b2 := negE (P.coeff e2 (sinU u))
  if P.eqE a2 A && P.eqE b2 B then some e2
  else if P.eqE a2 (negE A) && P.eqE b2 (negE B) then some (negE e2)
  else none

/-- two_eqn_m7.py:93-106: the candidate expressions without repetition -/
def simuCands (P : Sympy) (u : String) (l : List KEqn) : List Expr :=
  l.foldl (fun acc e =>
    let f := P.expandSC u (P.sub e.rhs e.lhs)
    if (occurs (sinU u) f || occurs (cosU u) f) && !acc.any (fun x => P.eqE x f) then acc ++ [f] else acc) []

/-- two_eqn_m7.py:121-137: one pair, both role assignments -/
def simuPair (P : Sympy) (u : String) (c1 c2 : Expr) : Option (Expr × Expr) :=
  if P.eqE (P.sub c2 c1) (.num 0) || P.eqE (.bin .add c2 c1) (.num 0) then none else
  match canonicalSecond P u c1 c2 with
  | some n2 => some (c1, n2)
  | none => match canonicalSecond P u c2 c1 with
    | some n2 => some (c2, n2)
    | none => none

/-- two_eqn_m7.py:112-148: pairs i < j, first hit -/
def simuFind (P : Sympy) (u : String) : List Expr → Option (Expr × Expr)
  | [] => none
  | c :: l => match l.findSome? (simuPair P u c) with
    | some r => some r
    | none => simuFind P u l

/-- two_eqn_m7.py:71-150 -/
def simuId (P : Sympy) (s : LS) : Out :=
  let u := s.curr
  if s.solved u then .ok (.failure, s) else
  match simuFind P u (simuCands P u s.lists.l1) with
  | none => .ok (.failure, s)
  | some (a, b) => .ok (.success, s.updLd u fun d =>
      { d with eqn := some ⟨.num 0, a⟩, second := some ⟨.num 0, b⟩, method := d.method ++ [.simu] })

/-- `A*sin(u) + B*cos(u)` (two_eqn_m7.py:165, sinANDcos_solver.py:174) -/
def sinCosComb (A B : Expr) (u : String) : Expr := .bin .add (.bin .mul A (sinU u)) (.bin .mul B (cosU u))
/-- `A*cos(u) - B*sin(u)` (two_eqn_m7.py:168) -/
def cosSinComb (A B : Expr) (u : String) : Expr := .bin .add (.bin .mul A (cosU u)) (negE (.bin .mul B (sinU u)))

/-- two_eqn_m7.py:152-187 -/
def simuSolve (P : Sympy) (s : LS) : Out :=
  let u := s.curr
  match (s.ld u).eqn, (s.ld u).second with
  | some e1, some e2 =>
    let A := P.coeff e1.rhs (sinU u)
    let B := P.coeff e1.rhs (cosU u)
    let C := P.simplify (P.sub (sinCosComb A B u) e1.rhs)
    let D := P.simplify (P.sub (cosSinComb A B u) e2.rhs)
    if P.eqE C (.num 0) && P.eqE D (.num 0) then .ok (.failure, s) else
    let sol : Expr := .bin .atan2 (P.sub (.bin .mul A C) (.bin .mul B D)) (.bin .add (.bin .mul A D) (.bin .mul B C))
    let s := { s with guards := s.guards ++ [Expr.bin .add (.bin .mul A A) (.bin .mul B B)] }
    match ((s.updU u fun x => { x with solutions := [sol], nsolutions := 1 }).updLd u fun x => { x with shared := none }).setSolved u with
    | .error c => .error c
    | .ok s => .ok (.success, s)
  | _, _ => .error 2

/-! ## sinANDcos_solver.py -/

/-- sinANDcos_solver.py:112-140: the loop over the one-unknown equations -/
def sacFind (P : Sympy) (u : String) : List KEqn → Option Expr
  | [] => none
  | e :: l =>
    let t := P.sub e.rhs e.lhs
    if occurs (sinU u) t && occurs (cosU u) t then
      let es := P.expandSC u t
      let C := P.sub es (sinCosComb (P.coeff es (sinU u)) (P.coeff es (cosU u)) u)
      if !C.has u then some es else sacFind P u l
    else sacFind P u l

/-- sinANDcos_solver.py:93-149 -/
def sacId (P : Sympy) (s : LS) : Out :=
  let u := s.curr
  if s.solved u then .ok (.failure, s) else
  match sacFind P u s.lists.l1 with
  | none => .ok (.failure, s)
  | some es => .ok (.success, s.updLd u fun d =>
      { d with ready := true, eqn := some ⟨.num 0, es⟩, method := d.method ++ [.sinANDcos] })

/-- sinANDcos_solver.py:156-218 -/
def sacSolve (P : Sympy) (s : LS) : Out :=
  let u := s.curr
  if !s.solved u && (s.ld u).ready && (s.ld u).method.contains .sinANDcos then
    match (s.ld u).eqn with
    | none => .error 2
    | some e =>
      let A := P.coeff e.rhs (sinU u)
      let B := P.coeff e.rhs (cosU u)
      let C := P.sub (sinCosComb A B u) e.rhs
      let r2 : Expr := .bin .add (.bin .mul A A) (.bin .mul B B)
      if P.eqE r2 (.num 0) then .error 1 else
      let sols : Expr × Expr :=
        if P.eqE C (.num 0) then
          (.bin .atan2 (negE B) A, .bin .add (.bin .atan2 (negE B) A) (.sym "pi"))
        else
          let t : Expr := .un .sqrt (P.sub r2 (.bin .mul C C))
          (.bin .add (.bin .atan2 A B) (.bin .atan2 t C), .bin .add (.bin .atan2 A B) (.bin .atan2 (negE t) C))
      let s := { s with guards := s.guards ++ [r2] }
      match (((s.pushSol u sols.1).pushSol u sols.2).updU u fun x => { x with nsolutions := 2 }).setSolved u with
      | .error c => .error c
      | .ok s => .ok (.success, s)
  else .ok (.success, s)

/-! ## x2y2_transform.py -/

/-- ik_classes.py:51-60 `soa_expansions` -/
def soaExpansions (s : String) : Option Expr :=
  let t := fun i => Expr.sym i
  let a2 := fun i j => Expr.bin .add (t i) (t j)
  let a3 := fun i j k => Expr.bin .add (a2 i j) (t k)
  if s = "th_12" then some (a2 "th_1" "th_2") else if s = "th_23" then some (a2 "th_2" "th_3")
  else if s = "th_34" then some (a2 "th_3" "th_4") else if s = "th_45" then some (a2 "th_4" "th_5")
  else if s = "th_56" then some (a2 "th_5" "th_6") else if s = "th_123" then some (a3 "th_1" "th_2" "th_3")
  else if s = "th_234" then some (a3 "th_2" "th_3" "th_4") else if s = "th_345" then some (a3 "th_3" "th_4" "th_5")
  else if s = "th_456" then some (a3 "th_4" "th_5" "th_6") else none

/-- x2y2_transform.py:229-245, one pair: the new equation -/
def x2z2Pair (P : Sympy) (vs : List Var) (e1 e2 : KEqn) : Option KEqn :=
  let tl := P.simplify (.bin .add (.bin .mul e1.lhs e1.lhs) (.bin .mul e2.lhs e2.lhs))
  if countUnknowns vs tl = 0 then
    let tr := P.simplify ((P.simplify (.bin .add (.bin .mul e1.rhs e1.rhs) (.bin .mul e2.rhs e2.rhs))).subs soaExpansions)
    if countUnknowns vs tr = 1 then some ⟨tl, tr⟩ else none
  else none

/-- x2y2_transform.py:214-249: pairs i < j, first hit -/
def x2z2Find (P : Sympy) (vs : List Var) : List KEqn → Option KEqn
  | [] => none
  | e :: l => match l.findSome? (x2z2Pair P vs e) with
    | some r => some r
    | none => x2z2Find P vs l

/-- x2y2_transform.py:199-200 -/
def hasP (e : KEqn) : Bool :=
  e.rhs.has "Px" || e.rhs.has "Py" || e.rhs.has "Pz" || e.lhs.has "Px" || e.lhs.has "Py" || e.lhs.has "Pz"

/-- x2y2_transform.py:150-286 (`e.RHS + e.LHS` has a symbol iff one side has: cancellation in the sum is not modelled) -/
def x2z2 (P : Sympy) (s : LS) : Out :=
  if s.curr = "th_2" || s.curr = "th_3" then
    match x2z2Find P s.vars (s.lists.l2.filter hasP) with
    | none => .ok (.failure, s)
    | some e =>
      match s.vars.find? (fun v => e.rhs.has v.name && !v.solved) with
      | none => .ok (.failure, s)
      | some v =>
        let s : LS := { s with aux := s.aux ++ [e] }
        .ok (.success, s.updLd v.name fun d => { d with method := d.method ++ [Tag.x2z2] })
  else .ok (.failure, s)

/-! ## sub_transform.py -/

/-- sub_transform.py:114-115, 118-119: the entries of the first three rows, in loop order -/
def cells : List (Fin 3 × Fin 4) := (List.finRange 3).flatMap fun i => (List.finRange 4).map fun j => (i, j)

/-- `Ts[i,j] = new` (sub_transform.py:138, 152) -/
def MEqn.setTs (m : MEqn) (c : Fin 3 × Fin 4) (e : Expr) : MEqn :=
  { m with ts := fun i j => if (i, j) = c then e else m.ts i j }

/-- sub_transform.py:123-153: one (k,l) for the entry c = (i,j) whose expression was `e2` when the loop over (k,l) began -/
def subStep (P : Sympy) (vs : List Var) (c : Fin 3 × Fin 4) (e2 : Expr) (r : MEqn × Bool) (kl : Fin 3 × Fin 4) : MEqn × Bool :=
  let m := r.1
  let e1 := m.ts kl.1 kl.2
  if !P.eqE e1 e2 && !P.eqE e2 (.num 0) && P.hasE e2 e1 then
    let new := P.subst e2 e1 (m.td kl.1 kl.2)
    if countUnknowns vs new < countUnknowns vs e2 then (MEqn.setTs m c new, true) else r
  else if !P.eqE e1 e2 && !P.eqE e2 (.num 0) && P.hasE e2 (negE e1) then
    let new := P.subst e2 (negE e1) (negE (m.td kl.1 kl.2))
    if countUnknowns vs new < countUnknowns vs e2 then (MEqn.setTs m c new, true) else r
  else r

/-- sub_transform.py:118-122: one entry -/
def subCell (P : Sympy) (vs : List Var) (r : MEqn × Bool) (c : Fin 3 × Fin 4) : MEqn × Bool :=
  cells.foldl (subStep P vs c (r.1.ts c.1 c.2)) r

/-- sub_transform.py:87-164 (N = 1: only the first matrix equation) -/
def subTransform (P : Sympy) (s : LS) : Out :=
  match s.ms with
  | [] => .error 1
  | m :: ms =>
    let r := cells.foldl (subCell P s.vars) (m, false)
    let s := { s with ms := r.1 :: ms }
    if r.2 then
      match scanForEquations P.toCAS s.ms s.aux s.vars with
      | .error _ => .error 1
      | .ok L => .ok (.success, { s with lists := L })
    else .ok (.success, s)

/-! ## sum_id.py, updateL.py, comp_detect.py, assigner_leaf.py -/

/-- sum_id.py:29-140: `find_xy` (line 95) is not defined anywhere, so a detected sum raises `NameError`; otherwise nothing
changes. -/
def sumId (P : Sympy) (s : LS) : Out :=
  if s.ms.any (fun m => m.kequationList.any fun e => P.sumFound e.lhs || P.sumFound e.rhs) then .error 4
  else .ok (.success, s)

/-- updateL.py:37-64 -/
def updateLeaf (P : Sympy) (s : LS) : Out :=
  match updateL P.toCAS s.ms s.aux s.vars with
  | .error _ => .error 1
  | .ok L => .ok (.success, { s with lists := L })

/-- comp_detect.py:33-96 -/
def compDetect (failAllDone : Bool) (s : LS) : Out :=
  let n := s.w.unknowns.length
  let ns := s.w.unknowns.foldl (fun k x => if s.solved x then k + 1 else k) 0
  if n = ns then .ok (if failAllDone then .failure else .success, s)
  else .ok (if failAllDone then .success else .failure, s)

/-- comp_detect.py:56-69: what is printed: a line per unknown with its status ('SOLVED' = true), the numbers of all and of solved
unknowns, and the list of the solved ones (the solution methods are omitted) -/
def compReport (s : LS) : List (String × Bool) × Nat × Nat × List String :=
  let r := s.w.unknowns.foldl (fun (r : List (String × Bool) × Nat × Nat) x =>
    (r.1 ++ [(x, s.solved x)], r.2.1 + 1, if s.solved x then r.2.2 + 1 else r.2.2)) ([], 0, 0)
  (r.1, r.2.1, r.2.2, s.w.unknowns.filter fun x => s.solved x)

/-- assigner_leaf.py:38-47: the while loop from position `i` on, over the rest of the list: the position after the first
unsolved unknown, and the unknown -/
def assignFind (s : LS) (i : Nat) : List String → Option (Nat × String)
  | [] => none
  | x :: l => if s.solved x then assignFind s (i + 1) l else some (i + 1, x)

/-- assigner_leaf.py:32-56 -/
def assigner (s : LS) : Out :=
  match assignFind s s.counter (s.w.unknowns.drop s.counter) with
  | some (c, x) => .ok (.success, { s with counter := c, curr := x })
  | none =>
    match s.w.unknowns with
    | [] => .error 3
    | x :: _ => .ok (.success, { s with counter := 0, curr := x })

end Verif.Leaf
