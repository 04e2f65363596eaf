import Verif.BT.Spec
/-!
# What executing a node means, RUNNING included (specification)

Big-step rules for all trees, leaves and states: nodes remember between executions whether they are open, how often they have counted
(Limiter and the repeaters) and when they started (MaxTime), and nothing else. A run has a trace: every node execution that it
contains, with its status, in the order in which they end. The bookkeeping of the engine (open lists, costs, counters, log) does not occur here.
-/
namespace Verif.BT
variable {σ L : Type}

/-- The world and what the nodes remember. -/
structure Memory (σ : Type) where
  user : σ
  isOpen : Id → Bool
  cnt : Id → Option Int
  start : Id → Option Int

/-- What `open` does: limiter.py:11-12, repeater.py:11-12, repeatuntil*.py:11-12 (count from 0), maxtime.py:12-14 (record the clock). -/
def Memory.init (E : Env σ L) : Option DKind → Id → Memory σ → Memory σ
  | none, _, w => w
  | some .inverter, _, w => w
  | some (.maxTime _), id, w => { w with user := (E.now w.user).2, start := upd w.start id (some (E.now w.user).1) }
  | some (.limiter _), id, w => { w with cnt := upd w.cnt id (some 0) }
  | some (.repeater _), id, w => { w with cnt := upd w.cnt id (some 0) }
  | some (.untilFailure _), id, w => { w with cnt := upd w.cnt id (some 0) }
  | some (.untilSuccess _), id, w => { w with cnt := upd w.cnt id (some 0) }

/-- A node starts: it is opened unless it is open. -/
def Memory.opened (E : Env σ L) (k : Option DKind) (id : Id) (w : Memory σ) : Memory σ :=
  if w.isOpen id then w else Memory.init E k id { w with isOpen := upd w.isOpen id true }

/-- A node ends: it is closed unless it is running. -/
def Memory.ended (id : Id) (s : Status) (w : Memory σ) : Memory σ :=
  if s = .running then w else { w with isOpen := upd w.isOpen id false }

mutual
/-- The meaning of executing a node. -/
inductive Run (E : Env σ L) : Tree L → Memory σ → List Ev → Status → Memory σ → Prop where
  | leaf {id a w s u} : E.act a (w.opened E none id).user = .ok (s, u) →
      Run E (.leaf id a) w [(id, s)] s ({ (w.opened E none id) with user := u }.ended id s)
  | sequence {id cs w tr s w'} : RunSeq E cs (w.opened E none id) tr s w' →
      Run E (.comp .sequence id cs) w (tr ++ [(id, s)]) s (w'.ended id s)
  | priority {id cs w tr s w'} : RunPri E cs (w.opened E none id) tr s w' →
      Run E (.comp .priority id cs) w (tr ++ [(id, s)]) s (w'.ended id s)
  | orNode {id cs w tr ss s w'} : RunAll E cs (w.opened E none id) tr ss w' →
      s = (if ∃ x ∈ ss, x ≠ Status.failure then .success else .failure) →
      Run E (.comp .orNode id cs) w (tr ++ [(id, s)]) s (w'.ended id s)
  | inverter {id c w tr s s' w'} : Run E c (w.opened E (some .inverter) id) tr s w' →
      s' = (if s = .success then .failure else if s = .failure then .success else s) →
      Run E (.deco .inverter id c) w (tr ++ [(id, s')]) s' (w'.ended id s')
  | limiterRun {id c m w i tr s w'} : (w.opened E (some (.limiter m)) id).cnt id = some i → i < m →
      Run E c (w.opened E (some (.limiter m)) id) tr s w' →
      Run E (.deco (.limiter m) id c) w (tr ++ [(id, s)]) s
        ((if s = .success ∨ s = .failure then { w' with cnt := upd w'.cnt id (some (i + 1)) } else w').ended id s)
  | limiterStop {id c m w i} : (w.opened E (some (.limiter m)) id).cnt id = some i → m ≤ i →
      Run E (.deco (.limiter m) id c) w [(id, .failure)] .failure ((w.opened E (some (.limiter m)) id).ended id .failure)
  | repeater {id c m w i tr s i' w'} : (w.opened E (some (.repeater m)) id).cnt id = some i →
      RunLoop E .always c m (some .success) i (w.opened E (some (.repeater m)) id) tr (some s) i' w' →
      Run E (.deco (.repeater m) id c) w (tr ++ [(id, s)]) s ({ w' with cnt := upd w'.cnt id (some i') }.ended id s)
  | untilFailure {id c m w i tr s i' w'} : (w.opened E (some (.untilFailure m)) id).cnt id = some i →
      RunLoop E .whileSuccess c m none i (w.opened E (some (.untilFailure m)) id) tr (some s) i' w' →
      Run E (.deco (.untilFailure m) id c) w (tr ++ [(id, s)]) s ({ w' with cnt := upd w'.cnt id (some i') }.ended id s)
  | untilSuccess {id c m w i tr s i' w'} : (w.opened E (some (.untilSuccess m)) id).cnt id = some i →
      RunLoop E .whileFailure c m none i (w.opened E (some (.untilSuccess m)) id) tr (some s) i' w' →
      Run E (.deco (.untilSuccess m) id c) w (tr ++ [(id, s)]) s ({ w' with cnt := upd w'.cnt id (some i') }.ended id s)
  /-- The clock is read *before* the child runs. -/
  | maxTime {id c m w w1 t0 tr s s' w'} : w1 = w.opened E (some (.maxTime m)) id → w1.start id = some t0 →
      Run E c { w1 with user := (E.now w1.user).2 } tr s w' →
      s' = (if (E.now w1.user).1 - t0 > m then .failure else s) →
      Run E (.deco (.maxTime m) id c) w (tr ++ [(id, s')]) s' (w'.ended id s')
  | emptyDeco {k id w} : Run E (.emptyDeco k id) w [(id, .error)] .error ((w.opened E (some k) id).ended id .error)
/-- Children of a Sequence: left to right up to the first that does not succeed. -/
inductive RunSeq (E : Env σ L) : List (Tree L) → Memory σ → List Ev → Status → Memory σ → Prop where
  | done {w} : RunSeq E [] w [] .success w
  | stop {c cs w tr s w'} : Run E c w tr s w' → s ≠ .success → RunSeq E (c :: cs) w tr s w'
  | next {c cs w tr w1 tr' s w'} : Run E c w tr .success w1 → RunSeq E cs w1 tr' s w' → RunSeq E (c :: cs) w (tr ++ tr') s w'
/-- Children of a Priority: left to right up to the first that does not fail. -/
inductive RunPri (E : Env σ L) : List (Tree L) → Memory σ → List Ev → Status → Memory σ → Prop where
  | done {w} : RunPri E [] w [] .failure w
  | stop {c cs w tr s w'} : Run E c w tr s w' → s ≠ .failure → RunPri E (c :: cs) w tr s w'
  | next {c cs w tr w1 tr' s w'} : Run E c w tr .failure w1 → RunPri E cs w1 tr' s w' → RunPri E (c :: cs) w (tr ++ tr') s w'
/-- Children of an OrNode: all of them, with the list of their statuses. -/
inductive RunAll (E : Env σ L) : List (Tree L) → Memory σ → List Ev → List Status → Memory σ → Prop where
  | done {w} : RunAll E [] w [] [] w
  | next {c cs w tr s w1 tr' ss w'} : Run E c w tr s w1 → RunAll E cs w1 tr' ss w' → RunAll E (c :: cs) w (tr ++ tr') (s :: ss) w'
/-- The loop of a repeater with bound `m` (negative: none): the last status so far, the count and the memory, before and after. -/
inductive RunLoop (E : Env σ L) : Rep → Tree L → Int → Option Status → Int → Memory σ → List Ev → Option Status → Int → Memory σ → Prop where
  | full {r c m last i w} : ¬ m < 0 → m ≤ i → RunLoop E r c m last i w [] last i w
  | quit {r c m last i w tr s w'} : (m < 0 ∨ i < m) → Run E c w tr s w' → ¬ r.again s → RunLoop E r c m last i w tr (some s) i w'
  | again {r c m last i w tr s w1 tr' x i' w'} : (m < 0 ∨ i < m) → Run E c w tr s w1 → r.again s →
      RunLoop E r c m (some s) (i + 1) w1 tr' x i' w' → RunLoop E r c m last i w (tr ++ tr') x i' w'
end

/-- What the nodes remember in a state of the engine. -/
def St.mem (st : St σ) : Memory σ := ⟨st.user, st.isOpen, st.cnt, st.start⟩

/-- The statistics and the log say what is in the trace, for all nodes. -/
structure Tallies (st : St σ) (tr : List Ev) (st' : St σ) : Prop where
  count : st'.count = st.count + tr.length
  ticks : ∀ j, st'.ticksAll j = st.ticksAll j + tr.countP (fun e => e.1 = j)
  succ : ∀ j, st'.nSuccess j = st.nSuccess j + tr.count (j, .success)
  log : st'.log = ((tr.filter (fun e => e.2 = .success ∨ e.2 = .failure)).map (fun e => (e.2, e.1))).reverse ++ st.log

/-- A history of ticks; the world may change in between. -/
inductive Runs (E : Env σ L) (t : Tree L) : List (σ → σ) → Memory σ → List Ev → List Status → Memory σ → Prop
  | nil {w} : Runs E t [] w [] [] w
  | cons {f fs w tr s w1 tr' ss w'} : Run E t { w with user := f w.user } tr s w1 → Runs E t fs w1 tr' ss w' →
      Runs E t (f :: fs) w (tr ++ tr') (s :: ss) w'

end Verif.BT
