/-!
# Model of the behaviour-tree engine `b3`

Sources: `/repo/b3/__init__.py`, `/repo/b3/core/{basenode,tick,behaviortree}.py`,
`/repo/b3/composites/*.py`, `/repo/b3/decorators/*.py`, `/repo/b3/actions/*.py`.

A node object is represented by its id (a natural number; python: a uuid string, basenode.py:13).
The same id occurring twice in a tree is the same python object occurring twice.

What the leaves do is a parameter (`Env.act`): a leaf reads and writes a user state `σ` (the tick target,
the blackboard keys it owns, the robot object, the clock, …) and returns a status or raises.
The framework's own blackboard keys (`is_open`, `i`, `startTime`, `TotalCost`) are separate fields of the
machine state `St`; that they behave as independent variables is proved in `Verif.BT.Blackboard`.
-/

namespace Verif.BT

/-- b3/__init__.py:3-6 — the four status codes. -/
inductive Status where
  | success | failure | running | error
  deriving DecidableEq, Repr

/-- Ways in which a tick does not return a status. -/
inductive Crash where
  /-- an exception raised by a leaf's `tick` -/
  | leaf (code : Nat)
  /-- `UnboundLocalError`: `return status` before `status` was assigned (repeatuntil*.py:28) -/
  | unboundStatus
  /-- `NameError`: name 'xrange' is not defined in python 3 (memsequence.py:15, mempriority.py:15) -/
  | nameError
  /-- `IndexError`: pop from empty list (tick.py:63) -/
  | popEmpty
  /-- `TypeError`: the blackboard has no counter / start time for the node (`None < int`) -/
  | typeError
  /-- not a python exception: the loop bound given to the model for an *infinite* repeater ran out -/
  | outOfFuel
  deriving DecidableEq, Repr

/-- Node ids (basenode.py:13). -/
abbrev Id := Nat

/-- The composite classes (b3/composites/). -/
inductive CKind where
  | sequence | priority | orNode | memSequence | memPriority
  deriving DecidableEq, Repr

/-- The decorator classes (b3/decorators/) with their constructor arguments.
`walktilldestination.py` is not modelled: it calls `super(RepeatUntilSuccess, self)` with an undefined
name and mixes tabs and spaces, so it cannot be constructed. -/
inductive DKind where
  | inverter
  | limiter (maxLoop : Int)
  | repeater (maxLoop : Int)
  | untilFailure (maxLoop : Int)
  | untilSuccess (maxLoop : Int)
  | maxTime (t : Int)
  deriving DecidableEq, Repr

/-- A behaviour tree: leaves (actions/conditions), composites (composite.py:10-12), decorators
(decorator.py:10-12) with a child, and decorators constructed without one (`child or []`, falsy). -/
inductive Tree (L : Type) where
  | leaf (id : Id) (act : L)
  | comp (k : CKind) (id : Id) (children : List (Tree L))
  | deco (k : DKind) (id : Id) (child : Tree L)
  | emptyDeco (k : DKind) (id : Id)

/-- The node object's id. -/
def Tree.id {L} : Tree L → Id
  | .leaf i _ => i
  | .comp _ i _ => i
  | .deco _ i _ => i
  | .emptyDeco _ i => i

/-- What the engine takes from outside: the leaves' `tick` methods and `time.time()`. -/
structure Env (σ L : Type) where
  /-- `leaf.tick(tick)`; `Except.error` = an exception -/
  act : L → σ → Except Nat (Status × σ)
  /-- `time.time()`: reading the clock may advance the world -/
  now : σ → Int × σ

/-- The machine state: everything `_execute` reads and writes. -/
structure St (σ : Type) where
  /-- user state, touched by leaves and the clock only -/
  user : σ
  /-- blackboard `is_open` of a node (absent counts as `False`: basenode.py:124) -/
  isOpen : Id → Bool := fun _ => false
  /-- blackboard key `i` of a node (limiter/repeaters); `none` = never set -/
  cnt : Id → Option Int := fun _ => none
  /-- blackboard key `startTime` of a node (maxtime.py:14) -/
  start : Id → Option Int := fun _ => none
  /-- blackboard key `TotalCost` (blackboard.py:7, basenode.py:154) -/
  totalCost : Int := 0
  /-- `node.Cost` (basenode.py:31) -/
  cost : Id → Int := fun _ => 0
  /-- `node.N_ticks_all` -/
  ticksAll : Id → Nat := fun _ => 0
  /-- `node.N_success` -/
  nSuccess : Id → Nat := fun _ => 0
  /-- `node.N_ticks` (basenode.py:22): the increment in `_tick` is commented out (basenode.py:147), nothing else writes it -/
  nTicks : Id → Nat := fun _ => 0
  /-- `tick._open_nodes`, last pushed first -/
  stack : List Id := []
  /-- `tick._node_count` -/
  count : Nat := 0
  /-- lines written to `tree.log_file` with `log_flag = 2`, newest first: (status, node) -/
  log : List (Status × Id) := []

/-- Update a per-node attribute. -/
def upd {α : Type} (f : Id → α) (i : Id) (v : α) : Id → α := fun j => if j = i then v else f j

variable {σ L : Type}

/-- Result of running something: an exception, or a status and the new state. -/
abbrev Res (σ : Type) := Except Crash (Status × St σ)

/-- tick.py:36-42 `_enter_node` (called from basenode.py:136-138). -/
def enter (id : Id) (st : St σ) : St σ :=
  { st with count := st.count + 1, stack := id :: st.stack }

/-- `open` hooks: limiter.py:11-12, repeater.py:11-12, repeatuntil*.py:11-12 set `i` to 0;
maxtime.py:12-14 records the clock. The other classes inherit the empty hook. -/
def openHook (E : Env σ L) : DKind → Id → St σ → St σ
  | .inverter, _, st => st
  | .limiter _, id, st => { st with cnt := upd st.cnt id (some 0) }
  | .repeater _, id, st => { st with cnt := upd st.cnt id (some 0) }
  | .untilFailure _, id, st => { st with cnt := upd st.cnt id (some 0) }
  | .untilSuccess _, id, st => { st with cnt := upd st.cnt id (some 0) }
  | .maxTime _, id, st =>
      { st with user := (E.now st.user).2, start := upd st.start id (some (E.now st.user).1) }

/-- basenode.py:140-143 `_open`, guarded as in basenode.py:124-125. -/
def openIfClosed (id : Id) (hook : St σ → St σ) (st : St σ) : St σ :=
  if st.isOpen id then st else hook { st with isOpen := upd st.isOpen id true }

/-- basenode.py:151: the part of `_tick` before `self.tick`. -/
def countTick (id : Id) (st : St σ) : St σ :=
  { st with ticksAll := upd st.ticksAll id (st.ticksAll id + 1) }

/-- basenode.py:153-171: the part of `_tick` after `self.tick` (log as with `log_flag = 2`). -/
def afterTick (id : Id) (s : Status) (st : St σ) : St σ :=
  let st := { st with totalCost := st.totalCost + st.cost id }
  match s with
  | .success => { st with nSuccess := upd st.nSuccess id (st.nSuccess id + 1),
                          log := (.success, id) :: st.log }
  | .failure => { st with log := (.failure, id) :: st.log }
  | _ => st

/-- basenode.py:129-130, 173-176 and tick.py:58-63: `_close` unless RUNNING; `pop()` on an empty list
raises. -/
def closeIfDone (id : Id) (s : Status) (st : St σ) : Except Crash (St σ) :=
  if s = .running then .ok st
  else match st.stack with
    | [] => .error .popEmpty
    | _ :: rest => .ok { st with stack := rest, isOpen := upd st.isOpen id false }

/-- basenode.py:122-134 `_execute`, for a node whose class has `open` hook `hook` and `tick` method
`body`. -/
def execute (id : Id) (hook : St σ → St σ) (body : St σ → Res σ) (st : St σ) : Res σ :=
  match body (countTick id (openIfClosed id hook (enter id st))) with
  | .error c => .error c
  | .ok (s, st1) =>
    match closeIfDone id s (afterTick id s st1) with
    | .error c => .error c
    | .ok st2 => .ok (s, st2)

/-- A child as its parent sees it: the object's id (to read `node.Cost`) and its `_execute`. -/
structure Child (σ : Type) where
  id : Id
  run : St σ → Res σ

/-- sequence.py:11-22: the loop over the children, `tmp` = `tmpCost`. -/
def seqTick (self : Id) : List (Child σ) → Int → St σ → Res σ
  | [], tmp, st => .ok (.success, { st with cost := upd st.cost self tmp })
  | c :: cs, tmp, st =>
    match c.run st with
    | .error e => .error e
    | .ok (s, st1) =>
      let tmp := tmp + st1.cost c.id
      if s = .success then seqTick self cs tmp st1
      else .ok (s, { st1 with cost := upd st1.cost self tmp })

/-- priority.py:10-19, loop (the initial `self.Cost = 0` is in `compTick`). -/
def priTick (self : Id) : List (Child σ) → St σ → Res σ
  | [], st => .ok (.failure, st)
  | c :: cs, st =>
    match c.run st with
    | .error e => .error e
    | .ok (s, st1) =>
      let st2 := { st1 with cost := upd st1.cost self (st1.cost self + st1.cost c.id) }
      if s = .failure then priTick self cs st2 else .ok (s, st2)

/-- ornode.py:33-45, loop; `acc` = `status`. -/
def orTick (self : Id) : List (Child σ) → Status → St σ → Res σ
  | [], acc, st => .ok (acc, st)
  | c :: cs, acc, st =>
    match c.run st with
    | .error e => .error e
    | .ok (s, st1) =>
      let st2 := { st1 with cost := upd st1.cost self (st1.cost self + st1.cost c.id) }
      orTick self cs (if s = .failure then acc else .success) st2

/-- The `tick` methods of the composites. `MemSequence`/`MemPriority` (memsequence.py:12-24,
mempriority.py:12-24) evaluate `xrange` before anything else observable happens. -/
def compTick (k : CKind) (self : Id) (cs : List (Child σ)) (st : St σ) : Res σ :=
  match k with
  | .sequence => seqTick self cs 0 st
  | .priority => priTick self cs { st with cost := upd st.cost self 0 }
  | .orNode => orTick self cs .failure { st with cost := upd st.cost self 0 }
  | .memSequence => .error .nameError
  | .memPriority => .error .nameError

/-- The common `while` loop of repeater.py:21-30, repeatuntilfailure.py:19-28 and
repeatuntilsuccess.py:19-28.
`cont s` = "the loop goes on after the child returned `s`" (there `i += 1`).
`maxLoop < 0` loops for ever in python; here at most `fuel` times.
Returns the last status (`none` = `status` never assigned), `i`, and the state. -/
def whileLoop (cont : Status → Bool) (maxLoop : Int) (run : St σ → Res σ) :
    Nat → Option Status → Int → St σ → Except Crash (Option Status × Int × St σ)
  | fuel, last, i, st =>
    if maxLoop < 0 ∨ i < maxLoop then
      match fuel with
      | 0 => .error .outOfFuel
      | fuel + 1 =>
        match run st with
        | .error e => .error e
        | .ok (s, st1) =>
          if cont s then whileLoop cont maxLoop run fuel (some s) (i + 1) st1
          else .ok (some s, i, st1)
    else .ok (last, i, st)

/-- Number of iterations the model allows: exactly the bound when there is one, else the fuel. -/
def loopFuel (fuel : Nat) (maxLoop i : Int) : Nat :=
  if maxLoop < 0 then fuel else (maxLoop - i).toNat

/-- `tick` of the three repeat decorators: read `i`, loop, write `i`, `return status`
(which raises when `status` was never assigned). -/
def repeatTick (cont : Status → Bool) (init : Option Status) (fuel : Nat) (maxLoop : Int) (self : Id)
    (run : St σ → Res σ) (st : St σ) : Res σ :=
  match st.cnt self with
  | none => .error .typeError
  | some i =>
    match whileLoop cont maxLoop run (loopFuel fuel maxLoop i) init i st with
    | .error e => .error e
    | .ok (last, i', st1) =>
      let st2 := { st1 with cnt := upd st1.cnt self (some i') }
      match last with
      | none => .error .unboundStatus
      | some s => .ok (s, st2)

/-- inverter.py:16-19 -/
def invert : Status → Status
  | .success => .failure
  | .failure => .success
  | s => s

/-- The `tick` methods of the decorators that have a child. -/
def decoTick (E : Env σ L) (fuel : Nat) (k : DKind) (self : Id) (run : St σ → Res σ) (st : St σ) : Res σ :=
  match k with
  | .inverter =>                                       -- inverter.py:10-21
    match run st with
    | .error e => .error e
    | .ok (s, st1) => .ok (invert s, st1)
  | .limiter m =>                                      -- limiter.py:14-27
    match st.cnt self with
    | none => .error .typeError
    | some i =>
      if i < m then
        match run st with
        | .error e => .error e
        | .ok (s, st1) =>
          if s = .success ∨ s = .failure then
            .ok (s, { st1 with cnt := upd st1.cnt self (some (i + 1)) })
          else .ok (s, st1)
      else .ok (.failure, st)
  | .repeater m =>                                     -- repeater.py:14-30
    repeatTick (fun s => s = .success ∨ s = .failure) (some .success) fuel m self run st
  | .untilFailure m =>                                 -- repeatuntilfailure.py:14-28
    repeatTick (fun s => s = .success) none fuel m self run st
  | .untilSuccess m =>                                 -- repeatuntilsuccess.py:14-28
    repeatTick (fun s => s = .failure) none fuel m self run st
  | .maxTime t =>                                      -- maxtime.py:16-27
    match st.start self with
    | none => .error .typeError
    | some t0 =>
      match run { st with user := (E.now st.user).2 } with
      | .error e => .error e
      | .ok (s, st1) => if (E.now st.user).1 - t0 > t then .ok (.failure, st1) else .ok (s, st1)

mutual
/-- `node._execute(tick)` for every kind of node. -/
def exec (E : Env σ L) (fuel : Nat) : Tree L → St σ → Res σ
  | .leaf id a => execute id (fun st => st) fun st =>
      match E.act a st.user with
      | .error c => .error (.leaf c)
      | .ok (s, u) => .ok (s, { st with user := u })
  | .comp k id cs => execute id (fun st => st) (compTick k id (execs E fuel cs))
  | .deco k id c => execute id (openHook E k id) (decoTick E fuel k id (exec E fuel c))
  | .emptyDeco k id => execute id (openHook E k id) fun st => .ok (.error, st)   -- `if not self.child`
/-- The children of a composite. -/
def execs (E : Env σ L) (fuel : Nat) : List (Tree L) → List (Child σ)
  | [] => []
  | c :: cs => ⟨c.id, exec E fuel c⟩ :: execs E fuel cs
end

/-- behaviortree.py:109-150 `BehaviorTree.tick`: a fresh `Tick` object (empty open list, count 0), run the
root, publish `open_nodes` and `node_count`. Closing nodes left open by the previous tick is commented out
in the source (behaviortree.py:137-144) and so absent here.  The published lists are the fields `stack`
and `count` of the resulting state. -/
def treeTick (E : Env σ L) (fuel : Nat) (t : Tree L) (st : St σ) : Res σ :=
  exec E fuel t { st with stack := [], count := 0 }

/-- A history of ticks of the same tree; the world may change arbitrarily between ticks (`world`).
Stops at the first crash. -/
def ticks (E : Env σ L) (fuel : Nat) (t : Tree L) : List (σ → σ) → St σ → Except Crash (List Status × St σ)
  | [], st => .ok ([], st)
  | w :: ws, st =>
    match treeTick E fuel t { st with user := w st.user } with
    | .error e => .error e
    | .ok (s, st1) =>
      match ticks E fuel t ws st1 with
      | .error e => .error e
      | .ok (ss, st2) => .ok (s :: ss, st2)

end Verif.BT
