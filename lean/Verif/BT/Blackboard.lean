/-!
# Model of `b3/core/blackboard.py`

Dictionaries are partial functions.  Keys are strings, scopes (tree and node ids: uuid strings) are numbers,
`None` as a scope is `Option.none`.
Simplification: the values written by callers are scalars (never a dict or list taken from the
blackboard itself), floats are rationals.
-/
namespace Verif.BT.Blackboard

/-- Python values stored by callers, and two values the blackboard itself creates. -/
inductive Val where
  | none
  | int (i : Int)
  /-- a python float -/
  | flt (q : Rat)
  /-- any other scalar object (bool, string, node list, robot, …) -/
  | other (n : Nat)
  /-- the list literal `[]` of blackboard.py:13 -/
  | emptyList
  /-- the dict object `tree_memory['node_memory']` -/
  | nodeMemoryDict
  deriving DecidableEq, Repr

/-- How an operation fails. -/
inductive Err where
  | keyError | typeError
  /-- `quit()`, blackboard.py:55 -/
  | quit
  deriving DecidableEq, Repr

abbrev Key := String
/-- A python dict with string keys. -/
abbrev Dict := Key → Option Val

/-- What is stored under the key `'node_memory'` of a tree memory: the dict of dicts created at
blackboard.py:12, or whatever a caller wrote over it. -/
inductive Slot where
  | dict (d : Nat → Option Dict)
  | val (v : Val)

/-- blackboard.py:11-14: one tree's memory. -/
structure TreeMem where
  slot : Slot
  keys : Dict

/-- blackboard.py:4-6 -/
structure BB where
  base : Dict
  trees : Nat → Option TreeMem

/-- dict assignment `d[k] = v` -/
def put (d : Dict) (k : Key) (v : Val) : Dict := fun k' => if k' = k then some v else d k'

/-- blackboard.py:11-14 -/
def freshTree : TreeMem where
  slot := .dict (fun _ => Option.none)
  keys := put (fun _ => Option.none) "open_nodes" .emptyList

/-- A resolved dict. -/
inductive Loc where
  | base | tree (t : Nat) | node (t n : Nat)
  deriving DecidableEq

/-- blackboard.py:9-16 `_get_tree_memory` -/
def getTree (bb : BB) (t : Nat) : BB × TreeMem :=
  match bb.trees t with
  | some m => (bb, m)
  | Option.none => ({ bb with trees := fun t' => if t' = t then some freshTree else bb.trees t' }, freshTree)

/-- blackboard.py:26-35 `_get_memory` with 18-24 `_get_node_memory`: the dict meant by the two scopes, created
if it does not exist. `node_scope not in memory` raises a TypeError if `memory` is not a container. -/
def resolve (bb : BB) (ts ns : Option Nat) : Except Err (BB × Loc) :=
  match ts with
  | Option.none => .ok (bb, .base)
  | some t =>
    let (bb, m) := getTree bb t
    match ns with
    | Option.none => .ok (bb, .tree t)
    | some n =>
      match m.slot with
      | .val _ => .error .typeError
      | .dict d =>
        match d n with
        | some _ => .ok (bb, .node t n)
        | Option.none =>
          let m' := { m with slot := .dict fun n' => if n' = n then some (fun _ => Option.none) else d n' }
          .ok ({ bb with trees := fun t' => if t' = t then some m' else bb.trees t' }, .node t n)

/-- Reading a key of a resolved dict. -/
def readLoc (bb : BB) : Loc → Key → Option Val
  | .base, k => bb.base k
  | .tree t, k =>
    match bb.trees t with
    | Option.none => Option.none
    | some m =>
      if k = "node_memory" then
        match m.slot with
        | .dict _ => some .nodeMemoryDict
        | .val v => some v
      else m.keys k
  | .node t n, k =>
    match bb.trees t with
    | Option.none => Option.none
    | some m =>
      match m.slot with
      | .val _ => Option.none
      | .dict d =>
        match d n with
        | Option.none => Option.none
        | some nd => nd k

/-- Assigning a key of a resolved dict. -/
def writeLoc (bb : BB) : Loc → Key → Val → BB
  | .base, k, v => { bb with base := put bb.base k v }
  | .tree t, k, v =>
    match bb.trees t with
    | Option.none => bb
    | some m =>
      let m' := if k = "node_memory" then { m with slot := .val v } else { m with keys := put m.keys k v }
      { bb with trees := fun t' => if t' = t then some m' else bb.trees t' }
  | .node t n, k, v =>
    match bb.trees t with
    | Option.none => bb
    | some m =>
      match m.slot with
      | .val _ => bb
      | .dict d =>
        match d n with
        | Option.none => bb
        | some nd =>
          let m' := { m with slot := .dict fun n' => if n' = n then some (put nd k v) else d n' }
          { bb with trees := fun t' => if t' = t then some m' else bb.trees t' }

/-- blackboard.py:37-39 -/
def set (bb : BB) (k : Key) (v : Val) (ts ns : Option Nat) : Except Err BB :=
  match resolve bb ts ns with
  | .error e => .error e
  | .ok (bb, loc) => .ok (writeLoc bb loc k v)

/-- blackboard.py:41-43; `dict.get` gives `None` for a missing key. -/
def get (bb : BB) (k : Key) (ts ns : Option Nat) : Except Err (Val × BB) :=
  match resolve bb ts ns with
  | .error e => .error e
  | .ok (bb, loc) => .ok ((readLoc bb loc k).getD .none, bb)

/-- `a += b` for an int `a` (blackboard.py:50). -/
def addVal (a : Int) : Val → Except Err Val
  | .int b => .ok (.int (a + b))
  | .flt q => .ok (.flt (a + q))
  | _ => .error .typeError

/-- blackboard.py:46-55 -/
def inc (bb : BB) (k : Key) (v : Val) (ts ns : Option Nat) : Except Err BB :=
  match resolve bb ts ns with
  | .error e => .error e
  | .ok (bb, loc) =>
    match readLoc bb loc k with
    | Option.none => .error .keyError
    | some (.int a) =>
      match addVal a v with
      | .error e => .error e
      | .ok s => .ok (writeLoc bb loc k s)
    | some _ => .error .quit

/-- blackboard.py:4-7: a new blackboard. -/
def init : BB where
  base := put (fun _ => Option.none) "TotalCost" (.int 0)
  trees := fun _ => Option.none

/-- A call of the API. -/
inductive Op where
  | set (k : Key) (v : Val) (ts ns : Option Nat)
  | get (k : Key) (ts ns : Option Nat)
  | inc (k : Key) (v : Val) (ts ns : Option Nat)

/-- One call: what it returns (`None` for `set`/`inc`) and the new blackboard. -/
def step (bb : BB) : Op → Except Err (Val × BB)
  | .set k v ts ns => (set bb k v ts ns).map fun b => (.none, b)
  | .get k ts ns => get bb k ts ns
  | .inc k v ts ns => (inc bb k v ts ns).map fun b => (.none, b)

/-- A history of calls, up to the first exception. -/
def run (bb : BB) : List Op → Except Err (List Val × BB)
  | [] => .ok ([], bb)
  | o :: os =>
    match step bb o with
    | .error e => .error e
    | .ok (v, bb1) =>
      match run bb1 os with
      | .error e => .error e
      | .ok (vs, bb2) => .ok (v :: vs, bb2)

end Verif.BT.Blackboard
