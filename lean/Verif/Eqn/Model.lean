import Verif.Sym.Expr
/-!
# Model of the equation lists

`count_unknowns`, `get_unknowns`, `get_variables`, `find_obj` (ikbtfunctions/helperfunctions.py:37-84), `erank`,
`scan_for_equations`, `scan_Mequation` (ikbtbasics/ik_classes.py:289-361, 558-577), `matrix_equation`
(ikbtbasics/kin_cl.py:222-243) and the leaf `updateL` (ikbtleaves/updateL.py:37-64).
-/
namespace Verif.Eqn
open Verif.Sym

/-- What the list code needs of sympy, left abstract: `eqv a b` is `a - b == 0`; `ops` is `count_ops`;
`sub a b` is `a - b` (after sympy's automatic simplification). -/
structure CAS where
  eqv : Expr → Expr → Bool
  ops : Expr → Nat
  sub : Expr → Expr → Expr

/-- The fields of an `unknown` read here: its symbol and its `solved` flag (kin_cl.py:88-101). -/
structure Var where
  name : String
  solved : Bool
  deriving DecidableEq, Repr

/-- A `kequation` (kin_cl.py:49-53). -/
structure KEqn where
  lhs : Expr
  rhs : Expr
  deriving DecidableEq, Repr

/-- helperfunctions.py:37-42 -/
def countUnknowns (vs : List Var) (e : Expr) : Nat :=
  vs.foldl (fun n u => if e.has u.name && u.solved == false then n + 1 else n) 0

/-- helperfunctions.py:45-50 -/
def getUnknowns (vs : List Var) (e : Expr) : List Var :=
  vs.foldl (fun us u => if e.has u.name && u.solved == false then us ++ [u] else us) []

/-- helperfunctions.py:70-77 -/
def getVariables (vs : List Var) (e : Expr) : List Var :=
  vs.foldl (fun us u => if e.has u.name then us ++ [u] else us) []

/-- helperfunctions.py:80-84 -/
def findObj (s : String) : List Var → Option Var
  | [] => none
  | u :: us => if u.name = s then some u else findObj s us

/-- kin_cl.py:61-67 `kequation.__eq__` for another equation -/
def KEqn.eq (c : CAS) (a b : KEqn) : Bool := c.eqv a.lhs b.lhs && c.eqv a.rhs b.rhs

/-- `e in list` (identity implies `__eq__` here because `eqv` is reflexive, an assumption of the theorems using it) -/
def isIn (c : CAS) (e : KEqn) (l : List KEqn) : Bool := l.any (fun x => KEqn.eq c x e)

/-- the idiom `if e1 not in l: l.append(e1)` -/
def addNew (c : CAS) (e : KEqn) (l : List KEqn) : List KEqn := if isIn c e l then l else l ++ [e]

/-- ik_classes.py:566-570: one step of the loop filling the dictionary of buckets (insertion order kept). -/
def bucketAdd (k : Nat) (e : KEqn) : List (Nat × List KEqn) → List (Nat × List KEqn)
  | [] => [(k, [e])]
  | (k', b) :: d => if k' = k then (k', b ++ [e]) :: d else (k', b) :: bucketAdd k e d

/-- `list_d[key]` for an existing key -/
def bucketGet (k : Nat) : List (Nat × List KEqn) → List KEqn
  | [] => []
  | (k', b) :: d => if k' = k then b else bucketGet k d

/-- the key of an equation, ik_classes.py:567 -/
def opCount (c : CAS) (e : KEqn) : Nat := c.ops e.rhs + c.ops e.lhs

def insertNat (k : Nat) : List Nat → List Nat
  | [] => [k]
  | a :: l => if k ≤ a then k :: a :: l else a :: insertNat k l
/-- `sorted(keys)` (ik_classes.py:573); any sorting algorithm gives the same list of numbers. -/
def sortNat : List Nat → List Nat
  | [] => []
  | a :: l => insertNat a (sortNat l)

/-- ik_classes.py:558-577 `erank` -/
def erank (c : CAS) (l : List KEqn) : List KEqn :=
  let d := l.foldl (fun d e => bucketAdd (opCount c e) e d) []
  let keys := sortNat (d.map (·.1))
  keys.foldl (fun s k => s ++ bucketGet k d) []

/-- The three lists l1, l2, l3p. -/
structure Lists where
  l1 : List KEqn := []
  l2 : List KEqn := []
  l3p : List KEqn := []
  deriving DecidableEq, Repr

/-- ik_classes.py:300-318: one matrix entry; the number of unknowns is added up over both sides (line 303). -/
def scanEntry (c : CAS) (vs : List Var) (L : Lists) (e : KEqn) : Lists :=
  let n := countUnknowns vs e.lhs + countUnknowns vs e.rhs
  let L := if n = 1 then { L with l1 := addNew c e L.l1 } else L
  let L := if n = 2 then { L with l2 := addNew c e L.l2 } else L
  if n > 2 then { L with l3p := addNew c e L.l3p } else L

/-- ik_classes.py:320-327: an auxiliary equation (no test whether it is already there, nothing for n > 2) -/
def scanAux (vs : List Var) (L : Lists) (e : KEqn) : Lists :=
  let n := countUnknowns vs e.lhs + countUnknowns vs e.rhs
  let L := if n = 1 then { L with l1 := L.l1 ++ [e] } else L
  if n = 2 then { L with l2 := L.l2 ++ [e] } else L

/-- A matrix equation (kin_cl.py:222-235), by entries of the first three rows; the constructor makes row 3 equal to
0 0 0 1 on both sides. -/
structure MEqn where
  td : Fin 3 → Fin 4 → Expr
  ts : Fin 3 → Fin 4 → Expr
  aux : List KEqn := []

/-- the entry (i,j) of the matrices, all four rows -/
def MEqn.entry (m : MEqn) (i j : Fin 4) : KEqn :=
  if h : i.val < 3 then ⟨m.td ⟨i, h⟩ j, m.ts ⟨i, h⟩ j⟩
  else if j = 3 then ⟨.num 1, .num 1⟩ else ⟨.num 0, .num 0⟩

/-- the double loop over i, j in ik_classes.py:298-299 -/
def MEqn.entries (m : MEqn) : List KEqn := (List.finRange 4).flatMap fun i => (List.finRange 4).map fun j => m.entry i j

/-- kin_cl.py:237-243 `get_kequation_list` -/
def MEqn.kequationList (m : MEqn) : List KEqn :=
  ((List.finRange 3).flatMap fun i => (List.finRange 4).map fun j => ⟨m.td i j, m.ts i j⟩) ++ m.aux

inductive Err where | assertion
  deriving DecidableEq, Repr

def Lists.rank (c : CAS) (L : Lists) : Lists := ⟨erank c L.l1, erank c L.l2, erank c L.l3p⟩

/-- ik_classes.py:289-332 `scan_for_equations` of a robot with these matrix equations and auxiliary equations -/
def scanForEquations (c : CAS) (ms : List MEqn) (aux : List KEqn) (vs : List Var) : Except Err Lists :=
  if ms.length > 0 then
    let L := ms.foldl (fun L m => m.entries.foldl (scanEntry c vs) L) {}
    let L := aux.foldl (scanAux vs) L
    .ok (L.rank c)
  else .error .assertion

/-- ik_classes.py:340-361 `scan_Mequation` -/
def scanMequation (c : CAS) (m : MEqn) (vs : List Var) : Lists :=
  (m.kequationList.foldl (scanEntry c vs) {}).rank c

/-- updateL.py:46-55: one auxiliary equation, in the form 0 = LHS - RHS -/
def updAux (c : CAS) (vs : List Var) (L : Lists) (e : KEqn) : Lists :=
  let e1 : KEqn := ⟨.num 0, c.sub e.lhs e.rhs⟩
  let cu := countUnknowns vs e1.rhs
  if cu = 1 then { L with l1 := L.l1 ++ [e1] }
  else if cu = 2 then { L with l2 := L.l2 ++ [e1] }
  else if cu = 3 then { L with l3p := L.l3p ++ [e1] }
  else L

/-- updateL.py:37-64: the lists put on the blackboard -/
def updateL (c : CAS) (ms : List MEqn) (aux : List KEqn) (vs : List Var) : Except Err Lists :=
  match scanForEquations c ms aux vs with
  | .error e => .error e
  | .ok L => .ok (aux.foldl (updAux c vs) L)

end Verif.Eqn
