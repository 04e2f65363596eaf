import Verif.BT.Model
/-!
# What a behaviour tree means: a specification without engine bookkeeping

`Big E t u tr s u'` : executing the tree `t` in world `u` ends with status `s` in world `u'`, and `tr`
lists every node execution that completed, in order of completion, with its status.
No open flags, no counters, no stack: a node has no memory between executions.
This is the behaviour documented for the node classes, for leaves that never return RUNNING.
-/
namespace Verif.BT

variable {σ L : Type}

/-- One completed node execution. -/
abbrev Ev := Id × Status

/-- "go on" conditions of the three repeat decorators, as documented by their names. -/
inductive Rep where | always | whileSuccess | whileFailure

/-- After a child status `s`, does the repeat decorator try again (bound permitting)? -/
def Rep.again : Rep → Status → Prop
  | .always, s => s = .success ∨ s = .failure
  | .whileSuccess, s => s = .success
  | .whileFailure, s => s = .failure

mutual
/-- Big-step meaning of a tree. -/
inductive Big (E : Env σ L) : Tree L → σ → List Ev → Status → σ → Prop where
  | leaf {id a u s u'} : E.act a u = .ok (s, u') → Big E (.leaf id a) u [(id, s)] s u'
  | sequence {id cs u tr s u'} : BigSeq E cs u tr s u' →
      Big E (.comp .sequence id cs) u (tr ++ [(id, s)]) s u'
  | priority {id cs u tr s u'} : BigPri E cs u tr s u' →
      Big E (.comp .priority id cs) u (tr ++ [(id, s)]) s u'
  | orNode {id cs u tr ss u'} : BigAll E cs u tr ss u' →
      ∀ s, s = (if ∃ x ∈ ss, x ≠ Status.failure then .success else .failure) →
      Big E (.comp .orNode id cs) u (tr ++ [(id, s)]) s u'
  | invSuccess {id c u tr u'} : Big E c u tr .success u' →
      Big E (.deco .inverter id c) u (tr ++ [(id, .failure)]) .failure u'
  | invFailure {id c u tr u'} : Big E c u tr .failure u' →
      Big E (.deco .inverter id c) u (tr ++ [(id, .success)]) .success u'
  | invOther {id c u tr s u'} : Big E c u tr s u' → s ≠ .success → s ≠ .failure →
      Big E (.deco .inverter id c) u (tr ++ [(id, s)]) s u'
  | limiterRun {id c m u tr s u'} : 0 < m → Big E c u tr s u' →
      Big E (.deco (.limiter m) id c) u (tr ++ [(id, s)]) s u'
  | limiterStop {id c m u} : m ≤ 0 →
      Big E (.deco (.limiter m) id c) u [(id, .failure)] .failure u
  | repeater0 {id c u} : Big E (.deco (.repeater 0) id c) u [(id, .success)] .success u
  | repeater {id c m u tr s u'} : BigLoop E .always c m u tr s u' →
      Big E (.deco (.repeater m) id c) u (tr ++ [(id, s)]) s u'
  | untilFailure {id c m u tr s u'} : BigLoop E .whileSuccess c m u tr s u' →
      Big E (.deco (.untilFailure m) id c) u (tr ++ [(id, s)]) s u'
  | untilSuccess {id c m u tr s u'} : BigLoop E .whileFailure c m u tr s u' →
      Big E (.deco (.untilSuccess m) id c) u (tr ++ [(id, s)]) s u'
  /-- The clock is read when the node opens and again *before* the child runs. -/
  | maxTimeOk {id c m u tr s u'} :
      (E.now (E.now u).2).1 - (E.now u).1 ≤ m → Big E c (E.now (E.now u).2).2 tr s u' →
      Big E (.deco (.maxTime m) id c) u (tr ++ [(id, s)]) s u'
  | maxTimeLate {id c m u tr s u'} :
      (E.now (E.now u).2).1 - (E.now u).1 > m → Big E c (E.now (E.now u).2).2 tr s u' →
      Big E (.deco (.maxTime m) id c) u (tr ++ [(id, .failure)]) .failure u'
  | emptyDeco {k id u} : (∀ m, k ≠ .maxTime m) → Big E (.emptyDeco k id) u [(id, .error)] .error u
  | emptyMaxTime {m id u} :
      Big E (.emptyDeco (.maxTime m) id) u [(id, .error)] .error (E.now u).2
/-- Children of a Sequence: left to right up to the first that does not succeed. -/
inductive BigSeq (E : Env σ L) : List (Tree L) → σ → List Ev → Status → σ → Prop where
  | done {u} : BigSeq E [] u [] .success u
  | stop {c cs u tr s u'} : Big E c u tr s u' → s ≠ .success → BigSeq E (c :: cs) u tr s u'
  | next {c cs u tr u1 tr' s u'} : Big E c u tr .success u1 → BigSeq E cs u1 tr' s u' →
      BigSeq E (c :: cs) u (tr ++ tr') s u'
/-- Children of a Priority: left to right up to the first that does not fail. -/
inductive BigPri (E : Env σ L) : List (Tree L) → σ → List Ev → Status → σ → Prop where
  | done {u} : BigPri E [] u [] .failure u
  | stop {c cs u tr s u'} : Big E c u tr s u' → s ≠ .failure → BigPri E (c :: cs) u tr s u'
  | next {c cs u tr u1 tr' s u'} : Big E c u tr .failure u1 → BigPri E cs u1 tr' s u' →
      BigPri E (c :: cs) u (tr ++ tr') s u'
/-- Children of an OrNode: all of them, with the list of their statuses. -/
inductive BigAll (E : Env σ L) : List (Tree L) → σ → List Ev → List Status → σ → Prop where
  | done {u} : BigAll E [] u [] [] u
  | next {c cs u tr s u1 tr' ss u'} : Big E c u tr s u1 → BigAll E cs u1 tr' ss u' →
      BigAll E (c :: cs) u (tr ++ tr') (s :: ss) u'
/-- At least one execution of the child; at most `m` of them if `m ≥ 0` (a negative `m`: no bound);
again after status `s` iff `r.again s` and the bound is not reached. The status is that of the last one. -/
inductive BigLoop (E : Env σ L) : Rep → Tree L → Int → σ → List Ev → Status → σ → Prop where
  | last {r c m u tr s u'} : m ≠ 0 → Big E c u tr s u' → (¬ r.again s ∨ m = 1) →
      BigLoop E r c m u tr s u'
  | again {r c m u tr s u1 tr' s' u'} : m ≠ 0 → Big E c u tr s u1 → r.again s → m ≠ 1 →
      BigLoop E r c (if m < 0 then m else m - 1) u1 tr' s' u' → BigLoop E r c m u (tr ++ tr') s' u'
end

mutual
/-- All node ids of a tree. -/
def Tree.ids : Tree L → List Id
  | .leaf i _ => [i]
  | .comp _ i cs => i :: idsList cs
  | .deco _ i c => i :: c.ids
  | .emptyDeco _ i => [i]
/-- All node ids of a list of trees. -/
def idsList : List (Tree L) → List Id
  | [] => []
  | c :: cs => c.ids ++ idsList cs
end

mutual
/-- No node is its own descendant. (Sharing a node object between two places is allowed.) -/
def Tree.Acyclic : Tree L → Prop
  | .leaf _ _ => True
  | .comp _ i cs => i ∉ idsList cs ∧ AcyclicList cs
  | .deco _ i c => i ∉ c.ids ∧ c.Acyclic
  | .emptyDeco _ _ => True
def AcyclicList : List (Tree L) → Prop
  | [] => True
  | c :: cs => c.Acyclic ∧ AcyclicList cs
end

/-- No leaf ever returns RUNNING. -/
def Env.NoRunning (E : Env σ L) : Prop := ∀ a u s u', E.act a u = .ok (s, u') → s ≠ .running

/-- Every node of the tree is closed. -/
def Closed (t : Tree L) (st : St σ) : Prop := ∀ j ∈ t.ids, st.isOpen j = false

/-- The bookkeeping that a completed execution must leave behind, given its trace `tr` of completed node
executions: counters and log reflect the trace exactly, no node of the tree (ids `S`) stays open, the
open-node stack is as before, and nodes outside the tree (ids not in `T`) are untouched. -/
structure Acc (S T : List Id) (st : St σ) (tr : List Ev) (st' : St σ) : Prop where
  stack : st'.stack = st.stack
  count : st'.count = st.count + tr.length
  ticks : ∀ j, st'.ticksAll j = st.ticksAll j + (tr.filter (fun e => e.1 = j)).length
  succ : ∀ j, st'.nSuccess j = st.nSuccess j + (tr.filter (fun e => e = (j, .success))).length
  log : st'.log = ((tr.filter (fun e => e.2 = .success ∨ e.2 = .failure)).map
          (fun e => (e.2, e.1))).reverse ++ st.log
  closed : ∀ j ∈ S, st'.isOpen j = false
  frameOpen : ∀ j, j ∉ S → st'.isOpen j = st.isOpen j
  frameCnt : ∀ j, j ∉ T → st'.cnt j = st.cnt j
  frameStart : ∀ j, j ∉ T → st'.start j = st.start j
  frameCost : ∀ j, j ∉ T → st'.cost j = st.cost j

/-- `Acc` for a whole tree. -/
def Accounts (t : Tree L) (st : St σ) (tr : List Ev) (st' : St σ) : Prop := Acc t.ids t.ids st tr st'

/-- A repeat decorator's `max_loop` is not negative. -/
def DKind.Bounded : DKind → Prop
  | .repeater m => 0 ≤ m
  | .untilFailure m => 0 ≤ m
  | .untilSuccess m => 0 ≤ m
  | .inverter => True
  | .limiter _ => True
  | .maxTime _ => True

mutual
/-- Every repeat decorator of the tree has a non-negative `max_loop`. -/
def Tree.Bounded : Tree L → Prop
  | .leaf _ _ => True
  | .comp _ _ cs => BoundedList cs
  | .deco k _ c => k.Bounded ∧ c.Bounded
  | .emptyDeco _ _ => True
def BoundedList : List (Tree L) → Prop
  | [] => True
  | c :: cs => c.Bounded ∧ BoundedList cs
end

/-- How often the child of a decorator can run in one execution of the decorator. -/
def DKind.maxRuns : DKind → Nat
  | .repeater m => m.toNat
  | .untilFailure m => m.toNat
  | .untilSuccess m => m.toNat
  | .inverter => 1
  | .limiter _ => 1
  | .maxTime _ => 1

mutual
/-- Product-of-loop-bounds estimate of the number of executions of node `j` in one execution of the tree. -/
def Tree.maxExec (j : Id) : Tree L → Nat
  | .leaf i _ => if i = j then 1 else 0
  | .comp _ i cs => (if i = j then 1 else 0) + maxExecList j cs
  | .deco k i c => (if i = j then 1 else 0) + k.maxRuns * c.maxExec j
  | .emptyDeco _ i => if i = j then 1 else 0
def maxExecList (j : Id) : List (Tree L) → Nat
  | [] => 0
  | c :: cs => c.maxExec j + maxExecList j cs
end

/-- What remains of a result when the engine's bookkeeping is forgotten. -/
abbrev DRes (σ : Type) := Except Crash (Status × σ)

/-- What the caller of a tick can see of the result: the exception, or the status and the world. -/
def obs : Res σ → DRes σ
  | .error c => .error c
  | .ok (s, st) => .ok (s, st.user)

mutual
/-- The tree contains no MemSequence and no MemPriority. -/
def Tree.NoMem : Tree L → Prop
  | .leaf _ _ => True
  | .comp k _ cs => k ≠ .memSequence ∧ k ≠ .memPriority ∧ NoMemList cs
  | .deco _ _ c => c.NoMem
  | .emptyDeco _ _ => True
def NoMemList : List (Tree L) → Prop
  | [] => True
  | c :: cs => c.NoMem ∧ NoMemList cs
end

/-! ### Specifications that also cover RUNNING -/

/-- The two states agree on everything but node `id`'s own bookkeeping and the tick's stack/log/counters. -/
structure SameOff (id : Id) (a b : St σ) : Prop where
  user : b.user = a.user
  isOpen : ∀ j, j ≠ id → b.isOpen j = a.isOpen j
  cnt : ∀ j, j ≠ id → b.cnt j = a.cnt j
  start : ∀ j, j ≠ id → b.start j = a.start j
  cost : ∀ j, j ≠ id → b.cost j = a.cost j
  ticksAll : ∀ j, j ≠ id → b.ticksAll j = a.ticksAll j
  nSuccess : ∀ j, j ≠ id → b.nSuccess j = a.nSuccess j

/-- The trees are executed one after the other, the list of their statuses is recorded; between two of
them nothing changes except the parent's own `Cost`. -/
inductive Chain (E : Env σ L) (fuel : Nat) (parent : Id) :
    List (Tree L) → St σ → List Status → St σ → Prop where
  | nil {st v} : Chain E fuel parent [] st [] { st with cost := upd st.cost parent v }
  | cons {c cs st s st1 v ss st'} : exec E fuel c st = .ok (s, st1) →
      Chain E fuel parent cs { st1 with cost := upd st1.cost parent v } ss st' →
      Chain E fuel parent (c :: cs) st (s :: ss) st'

/-- The same tree is executed again and again, the list of its statuses is recorded. -/
inductive Iter (E : Env σ L) (fuel : Nat) (c : Tree L) : St σ → List Status → St σ → Prop where
  | nil {st} : Iter E fuel c st [] st
  | cons {st s st1 ss st'} : exec E fuel c st = .ok (s, st1) → Iter E fuel c st1 ss st' →
      Iter E fuel c st (s :: ss) st'

end Verif.BT
