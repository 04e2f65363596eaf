/-!
# Model of `BehaviorTree.dump` and `BehaviorTree.load` (b3/core/behaviortree.py:19-106)

Node objects are identified by their id (non-empty uuid strings; here numbers).  `properties` and `description`
are opaque strings standing for values whose empty default is the falsy value.
-/
namespace Verif.BT.DumpLoad

abbrev Id := Nat

/-- The attributes dumped for every node (behaviortree.py:78-82). -/
structure Hdr where
  id : Id
  cls : String
  title : String
  descr : String := ""
  props : String := ""
  deriving DecidableEq, Repr

/-- A tree of node objects: leaf (action or condition), composite, decorator with a child, decorator without
(`child or []`, decorator.py:12). -/
inductive T where
  | leaf (h : Hdr)
  | comp (h : Hdr) (children : List T)
  | deco (h : Hdr) (child : T)
  | decoEmpty (h : Hdr)

/-- The header of the root. -/
def T.hdr : T → Hdr
  | .leaf h => h
  | .comp h _ => h
  | .deco h _ => h
  | .decoEmpty h => h

/-- One entry of `data['nodes']`. -/
structure Spec where
  hdr : Hdr
  /-- key `children`, absent unless the node is a composite -/
  children : Option (List Id) := none
  /-- key `child` -/
  child : Option Id := none
  deriving DecidableEq, Repr

inductive Err where
  /-- dump: `[].id` for a decorator without child (behaviortree.py:102) -/
  | attributeError
  /-- load: `raise AttibuteError(...)` — the name is misspelt (behaviortree.py:36) -/
  | nameError
  /-- load: `cls()` for a class with required constructor arguments (behaviortree.py:38) -/
  | typeError
  /-- load: `nodes[cid]` -/
  | keyError
  /-- not python: the model's loop bound ran out (proved not to happen) -/
  | outOfFuel
  deriving DecidableEq, Repr

/-- A python dict in insertion order. -/
abbrev Dict (α : Type) := List (Id × α)

/-- `d[k] = v`: replaces in place or appends. -/
def Dict.put {α : Type} (d : Dict α) (k : Id) (v : α) : Dict α :=
  match d with
  | [] => [(k, v)]
  | (k', v') :: d => if k' = k then (k', v) :: d else (k', v') :: Dict.put d k v

/-- `d[k]` -/
def Dict.get? {α : Type} (d : Dict α) (k : Id) : Option α :=
  match d with
  | [] => none
  | (k', v') :: d => if k' = k then some v' else Dict.get? d k

/-- behaviortree.py:74-104, the loop; the stack's top is the head of the list. A node's children are pushed in
reverse order, so the first child is on top; their ids are listed in the order of the pushes. -/
def dumpLoop : Nat → List T → Dict Spec → Except Err (Dict Spec)
  | _, [], d => .ok d
  | 0, _ :: _, _ => .error .outOfFuel
  | n + 1, .leaf h :: st, d => dumpLoop n st (d.put h.id { hdr := h })
  | n + 1, .comp h cs :: st, d =>
      dumpLoop n (cs ++ st) (d.put h.id { hdr := h, children := some ((cs.map (·.hdr.id)).reverse) })
  | n + 1, .deco h c :: st, d => dumpLoop n (c :: st) (d.put h.id { hdr := h, child := some c.hdr.id })
  | _ + 1, .decoEmpty _ :: _, _ => .error .attributeError

mutual
/-- Number of nodes, counting shared ones repeatedly. -/
def T.size : T → Nat
  | .leaf _ => 1
  | .comp _ cs => 1 + sizes cs
  | .deco _ c => 1 + c.size
  | .decoEmpty _ => 1
def sizes : List T → Nat
  | [] => 0
  | c :: cs => c.size + sizes cs
end

/-- The dumped data: root id and nodes (title, description and properties of the tree itself are copied verbatim
and not modelled; `custom_nodes` is ignored by `load`). -/
structure Data where
  root : Id
  nodes : Dict Spec

/-- behaviortree.py:60-106 for a tree with a root. -/
def dump (t : T) : Except Err Data :=
  match dumpLoop t.size [t] [] with
  | .error e => .error e
  | .ok d => .ok ⟨t.hdr.id, d⟩

/-- Node categories (b3/__init__.py:8-11); actions and conditions alike. -/
inductive Cat where | composite | decorator | leaf
  deriving DecidableEq, Repr

/-- What `load` needs to know of a class: its category and whether `cls()` works without arguments. -/
structure Cls where
  cat : Cat
  noArgs : Bool
  deriving DecidableEq, Repr

/-- The node classes exported by b3 (b3/__init__.py:14-46) with the signatures of their constructors:
composites `(children=None)`; Inverter `(children=None)` (inverter.py:6); Limiter `(child, max_loop)` (limiter.py:6);
MaxTime `(child, max_time=0)` (maxtime.py:7); Repeater, RepeatUntilFailure, RepeatUntilSuccess
`(child, max_loop=-1)`; the actions have no required arguments. -/
def b3Class (name : String) : Option Cls :=
  if name = "Sequence" ∨ name = "Priority" ∨ name = "MemPriority" ∨ name = "MemSequence" ∨ name = "OrNode" then
    some ⟨.composite, true⟩
  else if name = "Inverter" then some ⟨.decorator, true⟩
  else if name = "Limiter" ∨ name = "MaxTime" ∨ name = "Repeater" ∨ name = "RepeatUntilFailure" ∨
      name = "RepeatUntilSuccess" then some ⟨.decorator, false⟩
  else if name = "Succeeder" ∨ name = "Failer" ∨ name = "Runner" ∨ name = "Error" ∨ name = "Wait" then
    some ⟨.leaf, true⟩
  else none

/-- behaviortree.py:29-36: look up the class, first in the caller's `names`. -/
def findClass (names : String → Option Cls) (n : String) : Option Cls :=
  match names n with
  | some c => some c
  | none => b3Class n

/-- A freshly constructed node object with its references to other objects (by key). -/
structure Obj where
  hdr : Hdr
  cat : Cat
  children : List Id := []
  child : Option Id := none
  deriving DecidableEq, Repr

/-- behaviortree.py:38-42: construct, then overwrite the attributes that are not falsy. A new node's title is its
class name (basenode.py:14), its description and properties are empty. -/
def build (names : String → Option Cls) (s : Spec) : Except Err Obj :=
  match findClass names s.hdr.cls with
  | none => .error .nameError
  | some c =>
    if c.noArgs then
      .ok { hdr := { s.hdr with title := if s.hdr.title = "" then s.hdr.cls else s.hdr.title }, cat := c.cat }
    else .error .typeError

/-- behaviortree.py:25-43: the first loop. -/
def buildAll (names : String → Option Cls) : Dict Spec → Except Err (Dict Obj)
  | [] => .ok []
  | (k, s) :: d =>
    match build names s with
    | .error e => .error e
    | .ok o =>
      match buildAll names d with
      | .error e => .error e
      | .ok d' => .ok ((k, o) :: d')

/-- behaviortree.py:45-54: link one node; every referenced key must exist. -/
def link (heap : Dict Obj) (s : Spec) (o : Obj) : Except Err Obj :=
  match o.cat, s.children, s.child with
  | .composite, some ids, _ =>
    if ids.all (fun i => (heap.get? i).isSome) then .ok { o with children := o.children ++ ids }
    else .error .keyError
  | .decorator, _, some i => if (heap.get? i).isSome then .ok { o with child := some i } else .error .keyError
  | _, _, _ => .ok o

/-- The second loop: over the same keys, in the same order. -/
def linkAll (heap : Dict Obj) : Dict Spec → Dict Obj → Except Err (Dict Obj)
  | (k, s) :: d, (_, o) :: os =>
    match link heap s o with
    | .error e => .error e
    | .ok o' =>
      match linkAll heap d os with
      | .error e => .error e
      | .ok os' => .ok ((k, o') :: os')
  | _, _ => .ok []

/-- A loaded tree: the node objects and the root's key. -/
structure Loaded where
  root : Id
  heap : Dict Obj

/-- behaviortree.py:19-57 -/
def load (names : String → Option Cls) (data : Data) : Except Err Loaded :=
  match buildAll names data.nodes with
  | .error e => .error e
  | .ok heap =>
    match linkAll heap data.nodes heap with
    | .error e => .error e
    | .ok heap' =>
      match heap'.get? data.root with
      | none => .error .keyError
      | some _ => .ok ⟨data.root, heap'⟩

end Verif.BT.DumpLoad
