import Verif.BT.Model
import Verif.BT.Blackboard

/-!
# The engine on the real blackboard

`Verif.BT.Model` keeps the engine's own blackboard entries (`is_open`, `i`, `startTime`, `TotalCost`) as separate
variables and knows one tree.  Here every `_execute` calls the blackboard of `Verif.BT.Blackboard`
(`/repo/b3/core/blackboard.py`) with the id of the tree as tree scope and the id of the node as node scope, as the
source does, so that several trees can be ticked with the same blackboard.

Sources: `/repo/b3/core/basenode.py` 122-186, `/repo/b3/core/tick.py` 36-63, `/repo/b3/core/behaviortree.py` 109-150,
`/repo/b3/composites/*.py`, `/repo/b3/decorators/*.py`.

Simplifications: leaves and the clock use the global scope of the blackboard only (as the leaves of this
repository do), and not its key `TotalCost`; `Cost` and the clock are integers, as in `Verif.BT.Model`; the list
object stored as `open_nodes` is represented by a number (`enc`).
-/

namespace Verif.BT.Board

open Verif.BT.Blackboard (BB Val Err Key)

variable {σ L : Type}

/-- The global scope of the blackboard as leaves see it: every key but `TotalCost`. (blackboard.py:5) -/
abbrev GDict := { k : Key // k ≠ "TotalCost" } → Option Val

/-- Everything `_execute` reads and writes: the world and the blackboard; the attributes of the node objects
(basenode.py:22-31); the `Tick` object (tick.py:33-34); the log (basenode.py:163-169 with `log_flag = 2`). -/
structure BSt (σ : Type) where
  world : σ
  bb : BB
  cost : Id → Int := fun _ => 0
  ticksAll : Id → Nat := fun _ => 0
  nSuccess : Id → Nat := fun _ => 0
  stack : List Id := []
  count : Nat := 0
  log : List (Status × Id) := []

/-- Ways in which a tick does not return: as in `Crash`, or an exception or `quit()` of the blackboard
(blackboard.py:46-55). -/
inductive BCrash where
  | engine (c : Crash)
  | board (e : Err)
  deriving DecidableEq, Repr

/-- What leaves and the clock see. (tick.py:29-31: `tick.target`, `tick.blackboard`) -/
def BSt.global (b : BSt σ) : σ × GDict := (b.world, fun k => b.bb.base k.1)

/-- What leaves and the clock leave behind; `TotalCost` and the scoped entries are as before. -/
def BSt.withGlobal (b : BSt σ) (u : σ × GDict) : BSt σ :=
  { b with world := u.1
           bb := { b.bb with base := fun k => if h : k = "TotalCost" then b.bb.base k else u.2 ⟨k, h⟩ } }

/-- An exception of the blackboard, as one of the tick. -/
def lift {α : Type} : Except Err α → Except BCrash α
  | .ok a => .ok a
  | .error e => .error (.board e)

/-- `tick.blackboard.get(k, tick.tree.id, self.id)` (blackboard.py:41-43) -/
def BSt.get (b : BSt σ) (T : Nat) (n : Id) (k : Key) : Except BCrash (Val × BSt σ) := do
  let p ← lift (Blackboard.get b.bb k (some T) (some n))
  return (p.1, { b with bb := p.2 })

/-- `tick.blackboard.set(k, v, tick.tree.id, self.id)` (blackboard.py:37-39) -/
def BSt.set (b : BSt σ) (T : Nat) (n : Id) (k : Key) (v : Val) : Except BCrash (BSt σ) := do
  let bb ← lift (Blackboard.set b.bb k v (some T) (some n))
  return { b with bb := bb }

/-- Python truth value of what `get('is_open')` returns; `True` and `False` are `other 1` and `other 0`. -/
def truthy : Val → Bool
  | .none => false
  | .int i => i != 0
  | .flt q => q != 0
  | .other n => n != 0
  | .emptyList => false
  | .nodeMemoryDict => true

/-- A value used as a number (`i < self.max_loop`, `currTime - startTime`): `None` and the like raise a
TypeError. -/
def number : Val → Except BCrash Int
  | .int i => .ok i
  | _ => .error (.engine .typeError)

/-- basenode.py:136-138, tick.py:36-42 -/
def bEnter (id : Id) (b : BSt σ) : BSt σ := { b with count := b.count + 1, stack := id :: b.stack }

/-- The `open` hooks: limiter.py:11-12, repeater.py:11-12, repeatuntilfailure.py:11-12,
repeatuntilsuccess.py:11-12, maxtime.py:12-14. -/
def bHook (E : Env (σ × GDict) L) (T : Nat) : DKind → Id → BSt σ → Except BCrash (BSt σ)
  | .inverter, _, b => .ok b
  | .limiter _, id, b => b.set T id "i" (.int 0)
  | .repeater _, id, b => b.set T id "i" (.int 0)
  | .untilFailure _, id, b => b.set T id "i" (.int 0)
  | .untilSuccess _, id, b => b.set T id "i" (.int 0)
  | .maxTime _, id, b => (b.withGlobal (E.now b.global).2).set T id "startTime" (.int (E.now b.global).1)

/-- basenode.py:124-125, 140-143 -/
def bOpen (T : Nat) (id : Id) (hook : BSt σ → Except BCrash (BSt σ)) (b : BSt σ) : Except BCrash (BSt σ) := do
  let p ← b.get T id "is_open"
  if truthy p.1 then return p.2
  else do
    let b ← p.2.set T id "is_open" (.other 1)
    hook b

/-- basenode.py:151 -/
def bCount (id : Id) (b : BSt σ) : BSt σ := { b with ticksAll := upd b.ticksAll id (b.ticksAll id + 1) }

/-- basenode.py:153-169: `blackboard.inc('TotalCost', self.Cost)`, the number of successes, the log. -/
def bAfter (id : Id) (s : Status) (b : BSt σ) : Except BCrash (BSt σ) := do
  let bb ← lift (Blackboard.inc b.bb "TotalCost" (.int (b.cost id)) none none)
  let b := { b with bb := bb }
  match s with
  | .success => return { b with nSuccess := upd b.nSuccess id (b.nSuccess id + 1), log := (.success, id) :: b.log }
  | .failure => return { b with log := (.failure, id) :: b.log }
  | _ => return b

/-- basenode.py:129-130, 173-176, tick.py:58-63 -/
def bClose (T : Nat) (id : Id) (s : Status) (b : BSt σ) : Except BCrash (BSt σ) :=
  if s = .running then .ok b
  else match b.stack with
    | [] => .error (.engine .popEmpty)
    | _ :: rest => { b with stack := rest }.set T id "is_open" (.other 0)

/-- basenode.py:122-134 -/
def bExecute (T : Nat) (id : Id) (hook : BSt σ → Except BCrash (BSt σ))
    (body : BSt σ → Except BCrash (Status × BSt σ)) (b : BSt σ) : Except BCrash (Status × BSt σ) := do
  let b ← bOpen T id hook (bEnter id b)
  let p ← body (bCount id b)
  let b ← bAfter id p.1 p.2
  let b ← bClose T id p.1 b
  return (p.1, b)

/-- A child as its parent sees it. -/
structure BChild (σ : Type) where
  id : Id
  run : BSt σ → Except BCrash (Status × BSt σ)

/-- sequence.py:11-22 -/
def bSeq (self : Id) : List (BChild σ) → Int → BSt σ → Except BCrash (Status × BSt σ)
  | [], tmp, b => .ok (.success, { b with cost := upd b.cost self tmp })
  | c :: cs, tmp, b => do
    let p ← c.run b
    if p.1 = .success then bSeq self cs (tmp + p.2.cost c.id) p.2
    else return (p.1, { p.2 with cost := upd p.2.cost self (tmp + p.2.cost c.id) })

/-- priority.py:10-19 -/
def bPri (self : Id) : List (BChild σ) → BSt σ → Except BCrash (Status × BSt σ)
  | [], b => .ok (.failure, b)
  | c :: cs, b => do
    let p ← c.run b
    let b := { p.2 with cost := upd p.2.cost self (p.2.cost self + p.2.cost c.id) }
    if p.1 = .failure then bPri self cs b else return (p.1, b)

/-- ornode.py:33-45 -/
def bOr (self : Id) : List (BChild σ) → Status → BSt σ → Except BCrash (Status × BSt σ)
  | [], acc, b => .ok (acc, b)
  | c :: cs, acc, b => do
    let p ← c.run b
    bOr self cs (if p.1 = .failure then acc else .success)
      { p.2 with cost := upd p.2.cost self (p.2.cost self + p.2.cost c.id) }

/-- The `tick` methods of the composites; memsequence.py:12-24 and mempriority.py:12-24 raise: there is no
`xrange`. -/
def bComp (k : CKind) (self : Id) (cs : List (BChild σ)) (b : BSt σ) : Except BCrash (Status × BSt σ) :=
  match k with
  | .sequence => bSeq self cs 0 b
  | .priority => bPri self cs { b with cost := upd b.cost self 0 }
  | .orNode => bOr self cs .failure { b with cost := upd b.cost self 0 }
  | .memSequence => .error (.engine .nameError)
  | .memPriority => .error (.engine .nameError)

/-- repeater.py:21-30, repeatuntilfailure.py:19-28, repeatuntilsuccess.py:19-28: the loop, with the bound on
the number of rounds of `whileLoop`. -/
def bLoop (cont : Status → Bool) (maxLoop : Int) (run : BSt σ → Except BCrash (Status × BSt σ)) :
    Nat → Option Status → Int → BSt σ → Except BCrash (Option Status × Int × BSt σ)
  | fuel, last, i, b =>
    if maxLoop < 0 ∨ i < maxLoop then
      match fuel with
      | 0 => .error (.engine .outOfFuel)
      | fuel + 1 => do
        let p ← run b
        if cont p.1 then bLoop cont maxLoop run fuel (some p.1) (i + 1) p.2
        else return (some p.1, i, p.2)
    else .ok (last, i, b)

/-- `tick` of the three repeat decorators (same files). -/
def bRepeat (T : Nat) (cont : Status → Bool) (init : Option Status) (fuel : Nat) (maxLoop : Int) (self : Id)
    (run : BSt σ → Except BCrash (Status × BSt σ)) (b : BSt σ) : Except BCrash (Status × BSt σ) := do
  let p ← b.get T self "i"
  let i ← number p.1
  let q ← bLoop cont maxLoop run (loopFuel fuel maxLoop i) init i p.2
  let b ← q.2.2.set T self "i" (.int q.2.1)
  match q.1 with
  | none => .error (.engine .unboundStatus)
  | some s => return (s, b)

/-- The `tick` methods of the decorators that have a child: inverter.py:10-21, limiter.py:14-27,
repeater.py:14-30, repeatuntilfailure.py:14-28, repeatuntilsuccess.py:14-28, maxtime.py:16-27 (that a missing
`startTime` raises only after the child has run is not modelled). -/
def bDeco (E : Env (σ × GDict) L) (T : Nat) (fuel : Nat) (k : DKind) (self : Id)
    (run : BSt σ → Except BCrash (Status × BSt σ)) (b : BSt σ) : Except BCrash (Status × BSt σ) :=
  match k with
  | .inverter => do
    let p ← run b
    return (invert p.1, p.2)
  | .limiter m => do
    let p ← b.get T self "i"
    let i ← number p.1
    if i < m then do
      let q ← run p.2
      if q.1 = .success ∨ q.1 = .failure then do
        let b ← q.2.set T self "i" (.int (i + 1))
        return (q.1, b)
      else return q
    else return (.failure, p.2)
  | .repeater m => bRepeat T (fun s => s = .success ∨ s = .failure) (some .success) fuel m self run b
  | .untilFailure m => bRepeat T (fun s => s = .success) none fuel m self run b
  | .untilSuccess m => bRepeat T (fun s => s = .failure) none fuel m self run b
  | .maxTime t => do
    let p ← (b.withGlobal (E.now b.global).2).get T self "startTime"
    let t0 ← number p.1
    let q ← run p.2
    if (E.now b.global).1 - t0 > t then return (.failure, q.2) else return q

mutual
/-- `node._execute(tick)` for every kind of node, in the tree with id `T`. -/
def bExec (E : Env (σ × GDict) L) (T : Nat) (fuel : Nat) : Tree L → BSt σ → Except BCrash (Status × BSt σ)
  | .leaf id a => bExecute T id .ok fun b =>
      match E.act a b.global with
      | .error c => .error (.engine (.leaf c))
      | .ok (s, u) => .ok (s, b.withGlobal u)
  | .comp k id cs => bExecute T id .ok (bComp k id (bExecs E T fuel cs))
  | .deco k id c => bExecute T id (bHook E T k id) (bDeco E T fuel k id (bExec E T fuel c))
  | .emptyDeco k id => bExecute T id (bHook E T k id) fun b => .ok (.error, b)
/-- The children of a composite. -/
def bExecs (E : Env (σ × GDict) L) (T : Nat) (fuel : Nat) : List (Tree L) → List (BChild σ)
  | [] => []
  | c :: cs => ⟨c.id, bExec E T fuel c⟩ :: bExecs E T fuel cs
end

/-- behaviortree.py:109-150 `BehaviorTree.tick` of the tree with id `T` and root `t`: a new `Tick` object, the root,
and the publication of the open nodes and of the number of nodes in the scope of the tree. -/
def bTick (enc : List Id → Nat) (E : Env (σ × GDict) L) (fuel : Nat) (T : Nat) (t : Tree L) (b : BSt σ) :
    Except BCrash (Status × BSt σ) := do
  let p ← bExec E T fuel t { b with stack := [], count := 0 }
  let o ← lift (Blackboard.get p.2.bb "open_nodes" (some T) none)
  let bb ← lift (Blackboard.set o.2 "open_nodes" (.other (enc p.2.stack)) (some T) none)
  let bb ← lift (Blackboard.set bb "node_count" (.int p.2.count) (some T) none)
  return (p.1, { p.2 with bb := bb })

/-- One call of the user: before it the world and the global scope of the blackboard may have changed; then
`tree.tick(target, blackboard)` with the blackboard that all calls share. -/
structure Call (σ L : Type) where
  before : σ × GDict → σ × GDict
  tree : Nat
  root : Tree L

/-- What is seen of one call: the tree ticked, the world and the global scope when it was called, and its status
with the world and the global scope afterwards, or the exception. -/
structure Seen (σ : Type) where
  tree : Nat
  before : σ × GDict
  out : Except BCrash (Status × (σ × GDict))

/-- A history of calls, up to and including the first that raises. -/
def bHistory (enc : List Id → Nat) (E : Env (σ × GDict) L) (fuel : Nat) :
    List (Call σ L) → BSt σ → List (Seen σ)
  | [], _ => []
  | c :: cs, b =>
    match bTick enc E fuel c.tree c.root (b.withGlobal (c.before b.global)) with
    | .error e => [⟨c.tree, c.before b.global, .error e⟩]
    | .ok (s, b1) => ⟨c.tree, c.before b.global, .ok (s, b1.global)⟩ :: bHistory enc E fuel cs b1

end Verif.BT.Board
