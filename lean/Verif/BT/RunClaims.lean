import Verif.BT.RunProps
import Verif.BT.LogProps
/-!
# C08, C81: statistics and log count the executions, RUNNING included

`Runs` (`RunSpec.lean`) says which node executions a history of ticks consists of; here: the counters and the log file
say the same, for all trees (cyclic ids included), leaves, clocks and states, and there is only one such list of executions.
-/
namespace Verif.BT
variable {σ L : Type} {E : Env σ L} {fuel : Nat}

/-- (proof) a history with its counters and its internal list of results -/
theorem history_runs (t : Tree L) : ∀ (ws : List (σ → σ)) (st : St σ) (ss : List Status) (st' : St σ),
    ticks E fuel t ws st = .ok (ss, st') → ∃ tr, Runs E t ws st.mem tr ss st'.mem ∧
      (∀ j, st'.ticksAll j = st.ticksAll j + tr.countP (fun e => e.1 = j)) ∧
      (∀ j, st'.nSuccess j = st.nSuccess j + tr.count (j, .success)) ∧
      st'.log = ((tr.filter (fun e => e.2 = .success ∨ e.2 = .failure)).map (fun e => (e.2, e.1))).reverse ++ st.log
  | [], st, ss, st', h => by
    simp only [ticks, Except.ok.injEq, Prod.mk.injEq] at h
    obtain ⟨rfl, rfl⟩ := h
    exact ⟨[], .nil, by simp, by simp, by simp⟩
  | w :: ws, st, ss, st', h => by
    simp only [ticks] at h
    cases hx : treeTick E fuel t { st with user := w st.user } with
    | error e => rw [hx] at h; cases h
    | ok p =>
      obtain ⟨s, st1⟩ := p
      rw [hx] at h; simp only at h
      obtain ⟨tr, hr, hc⟩ := follows_exec E fuel t _ _ _ hx
      cases hy : ticks E fuel t ws st1 with
      | error e => rw [hy] at h; cases h
      | ok q =>
        obtain ⟨ss', st2⟩ := q
        rw [hy] at h; simp only [Except.ok.injEq, Prod.mk.injEq] at h
        obtain ⟨rfl, rfl⟩ := h
        obtain ⟨tr', hr', h1, h2, h3⟩ := history_runs t ws st1 ss' st2 hy
        have t1 := hc.ticks; have t2 := hc.succ; have t3 := hc.log
        simp only at t1 t2 t3
        refine ⟨tr ++ tr', .cons hr hr', fun j => ?_, fun j => ?_, ?_⟩
        · rw [h1, t1, List.countP_append]; omega
        · rw [h2, t2, List.count_append]; omega
        · rw [h3, t3]; simp

/-- C08, exactly, for every tree, every leaf (RUNNING and ERROR included), every clock, every state: after a history of ticks that returned,
N_ticks_all of every node has grown by the number of its executions, and N_success by the number of those that succeeded. -/
theorem C08_counters_all {t : Tree L} {ws : List (σ → σ)} {st : St σ} {ss : List Status} {st' : St σ}
    (h : ticks E fuel t ws st = .ok (ss, st')) : ∃ tr, Runs E t ws st.mem tr ss st'.mem ∧
      ∀ j, st'.ticksAll j = st.ticksAll j + tr.countP (fun e => e.1 = j) ∧
           st'.nSuccess j = st.nSuccess j + tr.count (j, .success) := by
  obtain ⟨tr, hr, h1, h2, _⟩ := history_runs t ws st ss st' h
  exact ⟨tr, hr, fun j => ⟨h1 j, h2 j⟩⟩

/-- C08: the published `node_count` of one tick is the number of node executions in it (any tree, leaves, state). -/
theorem C08_node_count {t : Tree L} {st : St σ} {s : Status} {st' : St σ} (h : treeTick E fuel t st = .ok (s, st')) :
    ∃ tr, Run E t st.mem tr s st'.mem ∧ st'.count = tr.length := by
  obtain ⟨tr, hr, hc⟩ := follows_exec E fuel t _ _ _ h
  exact ⟨tr, hr, by simpa using hc.count⟩

/-- C08: there is one list of executions only, so the two theorems above speak of *the* executions of the history. -/
theorem C08_trace_unique {t : Tree L} {ws : List (σ → σ)} {w : Memory σ} {tr tr2 : List Ev} {ss ss2 : List Status} {w1 w2 : Memory σ}
    (h : Runs E t ws w tr ss w1) (h' : Runs E t ws w tr2 ss2 w2) : tr = tr2 ∧ ss = ss2 ∧ w1 = w2 :=
  det_runs h h'

/-- C81, exactly, for every tree, every leaf (RUNNING and ERROR included), every clock, every state: after a history of ticks that returned,
the file has, in the order in which they ended, one line for each node execution that ended in SUCCESS (flag 1)
or in SUCCESS or FAILURE (flag 2), and no other line. -/
theorem C81_log_all {lg : Logger} (hf : lg.file = true) {t : Tree L} {ws : List (σ → σ)} {st : St σ} {ss : List Status} {st' : St σ}
    (h : (lticks lg E fuel t ws st).2 = .ok (ss, st')) :
    ∃ tr, Runs E t ws st.mem tr ss st'.mem ∧ (lticks lg E fuel t ws st).1 = logLines lg.flag lg.name tr := by
  have hs := sim_ticks (.inl hf) E fuel t ws st
  have ho := hs.outcome
  rw [h] at ho
  cases hx : ticks E fuel t ws st with
  | error c => rw [hx] at ho; cases ho
  | ok p =>
    rw [hx] at ho hs
    simp only [plainOutcome, Except.ok.injEq] at ho
    subst ho
    obtain ⟨_, evs, he, _, hl⟩ := hs
    obtain ⟨tr, hr, _, _, hlog⟩ := history_runs t ws st ss st' hx
    refine ⟨tr, hr, ?_⟩
    have := new_entries (he.symm.trans hlog)
    rw [hl, this, logLines_filter]

/-! ## Instances -/

/-- A leaf that runs on for one tick and then succeeds, under a Limiter, in a Sequence. -/
def slowTree : Tree (List Status) := .comp .sequence 0 [.leaf 1 [.success], .deco (.limiter 3) 2 (.leaf 3 [.success, .running, .success, .failure])]

/-- Three ticks of it: the returned statuses, the counters of the four nodes, and the log (flag 2). -/
example : (match ticks scriptEnv 0 slowTree [id, fun _ => 1, fun _ => 2] { user := 0 } with
      | .error _ => none
      | .ok (ss, st) => some (ss, [0, 1, 2, 3].map st.ticksAll, [0, 1, 2, 3].map st.nSuccess)) =
    some ([.running, .success, .failure], [3, 3, 3, 3], [1, 3, 1, 1]) := by decide +kernel

/-- Its log: the RUNNING executions of the first tick leave no line. -/
example : seen (lticks (demoLogger 2 true) scriptEnv 0 slowTree [id, fun _ => 1] { user := 0 }) =
    (["S try\n", "S try\n", "S go\n", "S go\n", "S root\n"], .inr [.running, .success]) := by decide +kernel

end Verif.BT
