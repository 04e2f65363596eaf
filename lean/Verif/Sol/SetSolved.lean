import Verif.Sol.Versions
/-!
# Model of `unknown.set_solved` (ikbtbasics/kin_cl.py:153-200) and `get_deps` (ikbtfunctions/helperfunctions.py:53-65)
-/
namespace Verif.Sol
open Verif.Sym

/-- The fields of an `unknown` object that `set_solved` reads or writes (kin_cl.py:88-111), with the initial values
given there. Objects are identified by their symbol (`__eq__`, `__hash__`: kin_cl.py:126-132). -/
structure Unk where
  solved : Bool := false
  solveorder : Nat := 0
  solutions : List Expr := []
  solutionNames : List VName := []
  versionNames : List VName := []
  /-- the set `dependencies`, as a list without repetitions -/
  deps : List String := []
  nversions : Nat := 1
  nsolutions : Nat := 0

/-- The state that `set_solved` works on: the unknown objects by name, the list `unknowns` that is passed (its order is
that of the caller, and `sum_of_angles_transform` may put an unknown into it twice), and the fields `solveN`,
`solution_nodes`, `notation_graph_edges` of the robot (ik_classes.py:160-175). An edge is (unknown, dependency). -/
structure World where
  unknowns : List String
  unk : String → Unk
  solveN : Nat := 0
  nodes : List String := []
  edges : List (String × String) := []

inductive SErr where | assertion
  deriving DecidableEq, Repr

/-- insertion into a python set -/
def ins {α : Type} [DecidableEq α] (a : α) (s : List α) : List α := if a ∈ s then s else s ++ [a]

/-- helperfunctions.py:53-65: the solved unknowns occurring in the expression; assertion failure if an unsolved one
occurs. -/
def getDeps (w : World) (e : Expr) : Except SErr (List String) :=
  if w.unknowns.any (fun n => e.has n && !(w.unk n).solved) then .error .assertion
  else .ok (w.unknowns.foldl (fun s n => if e.has n && (w.unk n).solved then ins n s else s) [])

/-- write to an unknown object -/
def World.upd (w : World) (x : String) (f : Unk → Unk) : World :=
  { w with unk := fun n => if n = x then f (w.unk n) else w.unk n }

/-- kin_cl.py:171-177: the loop over the solutions, `n` starts at 1. -/
def solLoop (x : String) : Nat → List Expr → World → World × Option SErr
  | _, [], w => (w, none)
  | n, sol :: sols, w =>
    match getDeps w sol with
    | .error e => (w, some e)
    | .ok ds =>
      solLoop x (n + 1) sols (w.upd x fun u =>
        { u with deps := ds.foldl (fun s d => ins d s) u.deps, solutionNames := u.solutionNames ++ [.s x n] })

/-- kin_cl.py:153-200 `set_solved` on the unknown `x`: the new state, and the exception if one is raised (the fields
written before it keep their new values). Printing is omitted. -/
def setSolved (w : World) (x : String) : World × Option SErr :=
  -- 154, 161: solved is set before anything is checked
  let w := w.upd x fun u => { u with solved := true, nsolutions := u.solutions.length }
  if (w.unk x).nsolutions = 0 then (w, some .assertion)                                    -- 162-163
  else
    let w := { w with solveN := w.solveN + 1 }                                             -- 168
    let w := w.upd x fun u => { u with solveorder := w.solveN }                            -- 169
    match solLoop x 1 (w.unk x).solutions w with                                           -- 171-177
    | (w, some e) => (w, some e)
    | (w, none) =>
      let w := { w with nodes := w.nodes ++ [x] }                                          -- 179-184
      let nver := (w.unk x).deps.foldl (fun n d => n * (w.unk d).nsolutions)
        (w.unk x).solutions.length                                                         -- 188-190
      let w := w.upd x fun u => { u with
        nversions := nver                                                                  -- 191
        versionNames := u.versionNames ++                                                  -- 192-194
          (List.range nver).map fun i => (u.solutionNames[i % u.nsolutions]?).getD (.s x 0) }
      ({ w with edges := (w.unk x).deps.foldl (fun s d => ins (x, d) s) w.edges }, none)   -- 199-200

/-- What the solver does between two calls: it gives the next unknown its list of solutions. -/
def setSolutions (w : World) (x : String) (sols : List Expr) : World := w.upd x fun u => { u with solutions := sols }

/-- A run of the solver, as far as `set_solved` sees it: for each call the unknown and its solutions at that time.
The program stops at the first exception. -/
def runCalls : World → List (String × List Expr) → World × Option SErr
  | w, [] => (w, none)
  | w, (x, sols) :: cs =>
    match setSolved (setSolutions w x sols) x with
    | (w, some e) => (w, some e)
    | (w, none) => runCalls w cs

/-- The state before solving starts: all unknowns fresh (kin_cl.py:88-111, ik_classes.py:160-175). -/
def start (unknowns : List String) : World := { unknowns := unknowns, unk := fun _ => {} }

end Verif.Sol
