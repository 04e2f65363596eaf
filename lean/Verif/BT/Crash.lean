import Verif.BT.Model

/-!
# Ticks that raise, and what they leave behind

In `Verif.BT.Model` a run that ends in an exception has no final state. Here the engine is repeated with the state at
the moment of the exception: an exception propagates through `_execute` of all ancestors without `_close`
(there is no `try` in `/repo/b3`), and a program may catch it and tick the tree again, with the same blackboard.

Sources: `/repo/b3/core/basenode.py` 122-186, `/repo/b3/core/behaviortree.py` 109-150, `/repo/b3/composites/*.py`,
`/repo/b3/decorators/*.py`; simplifications as in `Verif.BT.Model`.
-/

namespace Verif.BT

variable {σ L : Type}

/-- What the engine takes from outside; a leaf that raises has also changed the world. (leaf classes: b3/actions, ikbtleaves) -/
structure XEnv (σ L : Type) where
  act : L → σ → σ × Except Nat Status
  now : σ → Int × σ

/-- The same leaves for the engine that forgets the state after an exception. (helper of the model) -/
def XEnv.env (E : XEnv σ L) : Env σ L where
  act a u := match (E.act a u).2 with
    | .ok s => .ok (s, (E.act a u).1)
    | .error c => .error c
  now := E.now

/-- A run with the state it leaves, whatever its outcome. -/
abbrev X (σ α : Type) := St σ × Except Crash α

/-- One after the other; an exception skips the second. (helper of the model) -/
def X.bind {α β : Type} (x : X σ α) (k : α → St σ → X σ β) : X σ β :=
  match x.2 with
  | .ok a => k a x.1
  | .error c => (x.1, .error c)

/-- basenode.py:122-134 -/
def xexecute (id : Id) (hook : St σ → St σ) (body : St σ → X σ Status) (st : St σ) : X σ Status :=
  (body (countTick id (openIfClosed id hook (enter id st)))).bind fun s st1 =>
    match closeIfDone id s (afterTick id s st1) with
    | .error c => (afterTick id s st1, .error c)
    | .ok st2 => (st2, .ok s)

/-- A child as its parent sees it. -/
structure XChild (σ : Type) where
  id : Id
  run : St σ → X σ Status

/-- sequence.py:11-22: `self.Cost` is assigned at the end only. -/
def xseqTick (self : Id) : List (XChild σ) → Int → St σ → X σ Status
  | [], tmp, st => ({ st with cost := upd st.cost self tmp }, .ok .success)
  | c :: cs, tmp, st => (c.run st).bind fun s st1 =>
      if s = .success then xseqTick self cs (tmp + st1.cost c.id) st1
      else ({ st1 with cost := upd st1.cost self (tmp + st1.cost c.id) }, .ok s)

/-- priority.py:10-19 -/
def xpriTick (self : Id) : List (XChild σ) → St σ → X σ Status
  | [], st => (st, .ok .failure)
  | c :: cs, st => (c.run st).bind fun s st1 =>
      let st2 := { st1 with cost := upd st1.cost self (st1.cost self + st1.cost c.id) }
      if s = .failure then xpriTick self cs st2 else (st2, .ok s)

/-- ornode.py:33-45 -/
def xorTick (self : Id) : List (XChild σ) → Status → St σ → X σ Status
  | [], acc, st => (st, .ok acc)
  | c :: cs, acc, st => (c.run st).bind fun s st1 =>
      xorTick self cs (if s = .failure then acc else .success)
        { st1 with cost := upd st1.cost self (st1.cost self + st1.cost c.id) }

/-- The `tick` methods of the composites; memsequence.py:12-24, mempriority.py:12-24 raise: there is no `xrange`. -/
def xcompTick (k : CKind) (self : Id) (cs : List (XChild σ)) (st : St σ) : X σ Status :=
  match k with
  | .sequence => xseqTick self cs 0 st
  | .priority => xpriTick self cs { st with cost := upd st.cost self 0 }
  | .orNode => xorTick self cs .failure { st with cost := upd st.cost self 0 }
  | .memSequence => (st, .error .nameError)
  | .memPriority => (st, .error .nameError)

/-- repeater.py:21-30, repeatuntilfailure.py:19-28, repeatuntilsuccess.py:19-28: the loop; `i` is a local variable,
an exception leaves the blackboard's `i` as it was. -/
def xwhileLoop (cont : Status → Bool) (maxLoop : Int) (run : St σ → X σ Status) :
    Nat → Option Status → Int → St σ → X σ (Option Status × Int)
  | fuel, last, i, st =>
    if maxLoop < 0 ∨ i < maxLoop then
      match fuel with
      | 0 => (st, .error .outOfFuel)
      | fuel + 1 => (run st).bind fun s st1 =>
          if cont s then xwhileLoop cont maxLoop run fuel (some s) (i + 1) st1
          else (st1, .ok (some s, i))
    else (st, .ok (last, i))

/-- `tick` of the three repeat decorators (same files): `i` is written before `return status` can raise. -/
def xrepeatTick (cont : Status → Bool) (init : Option Status) (fuel : Nat) (maxLoop : Int) (self : Id)
    (run : St σ → X σ Status) (st : St σ) : X σ Status :=
  match st.cnt self with
  | none => (st, .error .typeError)
  | some i => (xwhileLoop cont maxLoop run (loopFuel fuel maxLoop i) init i st).bind fun p st1 =>
      let st2 := { st1 with cnt := upd st1.cnt self (some p.2) }
      match p.1 with
      | none => (st2, .error .unboundStatus)
      | some s => (st2, .ok s)

/-- The `tick` methods of the decorators that have a child: inverter.py:10-21, limiter.py:14-27,
repeater.py:14-30, repeatuntilfailure.py:14-28, repeatuntilsuccess.py:14-28, maxtime.py:16-27. -/
def xdecoTick (E : XEnv σ L) (fuel : Nat) (k : DKind) (self : Id) (run : St σ → X σ Status) (st : St σ) : X σ Status :=
  match k with
  | .inverter => (run st).bind fun s st1 => (st1, .ok (invert s))
  | .limiter m =>
    match st.cnt self with
    | none => (st, .error .typeError)
    | some i =>
      if i < m then (run st).bind fun s st1 =>
        if s = .success ∨ s = .failure then ({ st1 with cnt := upd st1.cnt self (some (i + 1)) }, .ok s)
        else (st1, .ok s)
      else (st, .ok .failure)
  | .repeater m => xrepeatTick (fun s => s = .success ∨ s = .failure) (some .success) fuel m self run st
  | .untilFailure m => xrepeatTick (fun s => s = .success) none fuel m self run st
  | .untilSuccess m => xrepeatTick (fun s => s = .failure) none fuel m self run st
  | .maxTime t =>
    match st.start self with
    | none => ({ st with user := (E.now st.user).2 }, .error .typeError)
    | some t0 => (run { st with user := (E.now st.user).2 }).bind fun s st1 =>
        if (E.now st.user).1 - t0 > t then (st1, .ok .failure) else (st1, .ok s)

mutual
/-- `node._execute(tick)` for every kind of node. -/
def xexec (E : XEnv σ L) (fuel : Nat) : Tree L → St σ → X σ Status
  | .leaf id a => xexecute id (fun st => st) fun st =>
      ({ st with user := (E.act a st.user).1 },
        match (E.act a st.user).2 with
        | .ok s => .ok s
        | .error c => .error (.leaf c))
  | .comp k id cs => xexecute id (fun st => st) (xcompTick k id (xexecs E fuel cs))
  | .deco k id c => xexecute id (openHook E.env k id) (xdecoTick E fuel k id (xexec E fuel c))
  | .emptyDeco k id => xexecute id (openHook E.env k id) fun st => (st, .ok .error)
/-- The children of a composite. -/
def xexecs (E : XEnv σ L) (fuel : Nat) : List (Tree L) → List (XChild σ)
  | [] => []
  | c :: cs => ⟨c.id, xexec E fuel c⟩ :: xexecs E fuel cs
end

/-- behaviortree.py:109-150 `BehaviorTree.tick`: a new `Tick` object, the root. -/
def xtreeTick (E : XEnv σ L) (fuel : Nat) (t : Tree L) (st : St σ) : X σ Status :=
  xexec E fuel t { st with stack := [], count := 0 }

/-- What is seen of a tick: the world before, the world after, the status or the exception. -/
structure Shown (σ : Type) where
  before : σ
  after : σ
  out : Except Crash Status

/-- A history of ticks of the same tree with the same blackboard, by a program that catches the exceptions and goes on;
the world may change arbitrarily between ticks. -/
def xhistory (E : XEnv σ L) (fuel : Nat) (t : Tree L) : List (σ → σ) → St σ → List (Shown σ)
  | [], _ => []
  | w :: ws, st =>
    let r := xtreeTick E fuel t { st with user := w st.user }
    ⟨w st.user, r.1.user, r.2⟩ :: xhistory E fuel t ws r.1

end Verif.BT
