import Verif.BT.Model

/-!
# The node log: `tree.log_flag` and `tree.log_file`

Sources: `/repo/b3/core/behaviortree.py` 16-17 (`log_flag`: "write a log of node results 1 = SUCCESS only 2 = both
S+F", `log_file`: "file object", initially `None`), `/repo/b3/core/basenode.py` 163-169 (the writes in `_tick`),
and the engine of `Verif.BT.Model`, which is repeated here with the lines that are written: a run now delivers
the lines written to the file *also when it ends in an exception*.

Simplifications: writing to an open file object always succeeds and the file is unbuffered (the lines are in
the file when `write` returns); nobody else writes to the file during the tick.
-/

namespace Verif.BT

/-- What `_tick` reads for the log: `tree.log_flag`, whether `tree.log_file` is a file (not `None`), and the
attribute `Name` of the nodes (basenode.py:17). behaviortree.py:16-17. -/
structure Logger where
  flag : Int
  file : Bool
  name : Id → String

/-- The ways a tick with a log does not return a status: as in `Crash`, or the `AttributeError` of
`None.write` (basenode.py:167, 169). -/
inductive LCrash where
  | engine (c : Crash)
  | noFile
  deriving DecidableEq, Repr

/-- A run with a log: the lines written, oldest first, and what became of it. -/
abbrev Logged (α : Type) := List String × Except LCrash α

/-- No line, return. (helper of the model) -/
def Logged.ret {α : Type} (a : α) : Logged α := ([], .ok a)

/-- No line, raise. (helper of the model) -/
def Logged.fail {α : Type} (c : Crash) : Logged α := ([], .error (.engine c))

/-- One after the other; an exception in the first skips the second. (helper of the model) -/
def Logged.bind {α β : Type} (w : Logged α) (k : α → Logged β) : Logged β :=
  match w.2 with
  | .error e => (w.1, .error e)
  | .ok a => (w.1 ++ (k a).1, (k a).2)

variable {σ L : Type}

/-- `tick.tree.log_file.write(...)`. -/
def Logger.write (lg : Logger) (line : String) : Logged Unit :=
  if lg.file then ([line], .ok ()) else ([], .error .noFile)

/-- basenode.py:162-169: the lines for a node that returned `s`. -/
def Logger.result (lg : Logger) (id : Id) (s : Status) : Logged Unit :=
  match s with
  | .success => if lg.flag > 0 then lg.write ("S " ++ lg.name id ++ "\n") else .ret ()
  | .failure => if lg.flag > 1 then lg.write ("F " ++ lg.name id ++ "\n") else .ret ()
  | _ => .ret ()

/-- basenode.py:122-134 `_execute` with basenode.py:162-169. -/
def lexecute (lg : Logger) (id : Id) (hook : St σ → St σ) (body : St σ → Logged (Status × St σ))
    (st : St σ) : Logged (Status × St σ) :=
  (body (countTick id (openIfClosed id hook (enter id st)))).bind fun p =>
    (lg.result id p.1).bind fun _ =>
      match closeIfDone id p.1 (afterTick id p.1 p.2) with
      | .error c => .fail c
      | .ok st2 => .ret (p.1, st2)

/-- A child as its parent sees it. -/
structure LChild (σ : Type) where
  id : Id
  run : St σ → Logged (Status × St σ)

/-- sequence.py:11-22. -/
def lseqTick (self : Id) : List (LChild σ) → Int → St σ → Logged (Status × St σ)
  | [], tmp, st => .ret (.success, { st with cost := upd st.cost self tmp })
  | c :: cs, tmp, st => (c.run st).bind fun p =>
      if p.1 = .success then lseqTick self cs (tmp + p.2.cost c.id) p.2
      else .ret (p.1, { p.2 with cost := upd p.2.cost self (tmp + p.2.cost c.id) })

/-- priority.py:10-19. -/
def lpriTick (self : Id) : List (LChild σ) → St σ → Logged (Status × St σ)
  | [], st => .ret (.failure, st)
  | c :: cs, st => (c.run st).bind fun p =>
      let st2 := { p.2 with cost := upd p.2.cost self (p.2.cost self + p.2.cost c.id) }
      if p.1 = .failure then lpriTick self cs st2 else .ret (p.1, st2)

/-- ornode.py:33-45. -/
def lorTick (self : Id) : List (LChild σ) → Status → St σ → Logged (Status × St σ)
  | [], acc, st => .ret (acc, st)
  | c :: cs, acc, st => (c.run st).bind fun p =>
      lorTick self cs (if p.1 = .failure then acc else .success)
        { p.2 with cost := upd p.2.cost self (p.2.cost self + p.2.cost c.id) }

/-- The `tick` methods of the composites; memsequence.py:12-24, mempriority.py:12-24 raise before anything else. -/
def lcompTick (k : CKind) (self : Id) (cs : List (LChild σ)) (st : St σ) : Logged (Status × St σ) :=
  match k with
  | .sequence => lseqTick self cs 0 st
  | .priority => lpriTick self cs { st with cost := upd st.cost self 0 }
  | .orNode => lorTick self cs .failure { st with cost := upd st.cost self 0 }
  | .memSequence => .fail .nameError
  | .memPriority => .fail .nameError

/-- repeater.py:21-30, repeatuntilfailure.py:19-28, repeatuntilsuccess.py:19-28: the loop, with the same
bound on the number of rounds as in `whileLoop`. -/
def lwhileLoop (cont : Status → Bool) (maxLoop : Int) (run : St σ → Logged (Status × St σ)) :
    Nat → Option Status → Int → St σ → Logged (Option Status × Int × St σ)
  | fuel, last, i, st =>
    if maxLoop < 0 ∨ i < maxLoop then
      match fuel with
      | 0 => .fail .outOfFuel
      | fuel + 1 => (run st).bind fun p =>
          if cont p.1 then lwhileLoop cont maxLoop run fuel (some p.1) (i + 1) p.2
          else .ret (some p.1, i, p.2)
    else .ret (last, i, st)

/-- `tick` of the three repeat decorators (same files). -/
def lrepeatTick (cont : Status → Bool) (init : Option Status) (fuel : Nat) (maxLoop : Int) (self : Id)
    (run : St σ → Logged (Status × St σ)) (st : St σ) : Logged (Status × St σ) :=
  match st.cnt self with
  | none => .fail .typeError
  | some i => (lwhileLoop cont maxLoop run (loopFuel fuel maxLoop i) init i st).bind fun p =>
      match p.1 with
      | none => .fail .unboundStatus
      | some s => .ret (s, { p.2.2 with cnt := upd p.2.2.cnt self (some p.2.1) })

/-- The `tick` methods of the decorators that have a child: inverter.py:10-21, limiter.py:14-27,
repeater.py:14-30, repeatuntilfailure.py:14-28, repeatuntilsuccess.py:14-28, maxtime.py:16-27. -/
def ldecoTick (E : Env σ L) (fuel : Nat) (k : DKind) (self : Id) (run : St σ → Logged (Status × St σ))
    (st : St σ) : Logged (Status × St σ) :=
  match k with
  | .inverter => (run st).bind fun p => .ret (invert p.1, p.2)
  | .limiter m =>
    match st.cnt self with
    | none => .fail .typeError
    | some i =>
      if i < m then (run st).bind fun p =>
        if p.1 = .success ∨ p.1 = .failure then
          .ret (p.1, { p.2 with cnt := upd p.2.cnt self (some (i + 1)) })
        else .ret p
      else .ret (.failure, st)
  | .repeater m => lrepeatTick (fun s => s = .success ∨ s = .failure) (some .success) fuel m self run st
  | .untilFailure m => lrepeatTick (fun s => s = .success) none fuel m self run st
  | .untilSuccess m => lrepeatTick (fun s => s = .failure) none fuel m self run st
  | .maxTime t =>
    match st.start self with
    | none => .fail .typeError
    | some t0 => (run { st with user := (E.now st.user).2 }).bind fun p =>
        if (E.now st.user).1 - t0 > t then .ret (.failure, p.2) else .ret p

mutual
/-- `node._execute(tick)` for every kind of node, with the log. -/
def lexec (lg : Logger) (E : Env σ L) (fuel : Nat) : Tree L → St σ → Logged (Status × St σ)
  | .leaf id a => lexecute lg id (fun st => st) fun st =>
      match E.act a st.user with
      | .error c => .fail (.leaf c)
      | .ok (s, u) => .ret (s, { st with user := u })
  | .comp k id cs => lexecute lg id (fun st => st) (lcompTick k id (lexecs lg E fuel cs))
  | .deco k id c => lexecute lg id (openHook E k id) (ldecoTick E fuel k id (lexec lg E fuel c))
  | .emptyDeco k id => lexecute lg id (openHook E k id) fun st => .ret (.error, st)
/-- The children of a composite. -/
def lexecs (lg : Logger) (E : Env σ L) (fuel : Nat) : List (Tree L) → List (LChild σ)
  | [] => []
  | c :: cs => ⟨c.id, lexec lg E fuel c⟩ :: lexecs lg E fuel cs
end

/-- behaviortree.py:109-150 `BehaviorTree.tick`, as `treeTick`. -/
def ltreeTick (lg : Logger) (E : Env σ L) (fuel : Nat) (t : Tree L) (st : St σ) : Logged (Status × St σ) :=
  lexec lg E fuel t { st with stack := [], count := 0 }

/-- A history of ticks of the same tree with the same open log file, as `ticks`. -/
def lticks (lg : Logger) (E : Env σ L) (fuel : Nat) (t : Tree L) :
    List (σ → σ) → St σ → Logged (List Status × St σ)
  | [], st => .ret ([], st)
  | w :: ws, st => (ltreeTick lg E fuel t { st with user := w st.user }).bind fun p =>
      (lticks lg E fuel t ws p.2).bind fun q => .ret (p.1 :: q.1, q.2)

end Verif.BT
