import Verif.BT.Stats
import Mathlib.Algebra.Order.Field.Rat
import Mathlib.Tactic.Ring
import Mathlib.Tactic.NormNum
/-!
# C70: the statistics of a node, also by state
-/
namespace Verif.BT

/-! ## Specification: what a user counts -/

/-- the state a node is in after a history: the last one that was set -/
def stateAfter : List StatEv → Int → Int
  | [], i => i
  | .setState i :: h, _ => stateAfter h i
  | _ :: h, i => stateAfter h i

/-- the cost and the mode that were set last -/
def costAfter : List StatEv → Int → Int
  | [], c => c
  | .setCost c :: h, _ => costAfter h c
  | _ :: h, c => costAfter h c
def modeAfter : List StatEv → String → String
  | [], m => m
  | .setMode m :: h, _ => modeAfter h m
  | _ :: h, m => modeAfter h m

/-- the results since the last reset, each with the state it was obtained in -/
def results : List StatEv → Int → List (Int × Status) → List (Int × Status)
  | [], _, r => r
  | .execute s :: h, i, r => results h i (r ++ [(i, s)])
  | .setState i :: h, _, r => results h i r
  | .reset :: h, i, _ => results h i []
  | _ :: h, i, r => results h i r

/-- all executions, all successes, the successes in one of the four states -/
def executions (r : List (Int × Status)) : Nat := r.length
def successes (r : List (Int × Status)) : Nat := r.countP fun p => p.2 = .success
def executionsIn (k : Nat) (r : List (Int × Status)) : Nat := r.countP fun p => p.1 = (k : Int)
def successesIn (k : Nat) (r : List (Int × Status)) : Nat := r.countP fun p => p.1 = (k : Int) ∧ p.2 = .success

/-- a new node (basenode.py:12-35) -/
def newNode : NodeStat := {}

/-! ## The invariant -/

/-- python's negative indices mean the states 0-3 as well -/
def inState (k : Nat) (i : Int) : Prop := i = k ∨ i = k - 4

instance (k i) : Decidable (inState k i) := by unfold inState; infer_instance

structure Counts (n : NodeStat) (i : Int) (r : List (Int × Status)) : Prop where
  state : n.state = i
  all : n.nTicksAll = r.length
  suc : n.nSuccess = r.countP fun p => p.2 = .success
  tik : n.nTicks = 0
  tik2 : n.nTik2 = [0, 0, 0, 0]
  suc2 : n.nSuc2 = (List.range 4).map fun k => r.countP fun p => inState k p.1 ∧ p.2 = .success

theorem probCall_fields {n : NodeStat} (h : n.nTicks = 0) : n.probCall = (1 / 10, n) := by simp [NodeStat.probCall, h]

theorem getUtility_fields {n : NodeStat} (h : n.nTicks = 0) : ∃ u, n.getUtility.2 = { n with utility := u } ∧ n.getUtility.1 = u := by
  simp only [NodeStat.getUtility, probCall_fields h]
  by_cases h1 : n.mode = "RATIO"
  · refine ⟨if n.cost > 0 then 1 / 10 / n.cost else 1 / 10, ?_⟩
    simp [h1]
  · by_cases h2 : n.mode = "NEG_COST"
    · refine ⟨1 / 10 * (-1) * n.cost, ?_⟩
      simp [h2, probCall_fields h]
    · exact ⟨n.utility, by simp [h1, h2]⟩

theorem getUtility2_fields {n n' : NodeStat} {u : Rat} (h : n.getUtility2 = some (u, n')) : ∃ u, n' = { n with utility := u } := by
  simp only [NodeStat.getUtility2] at h
  split at h
  · split at h
    · cases h
    · cases h; exact ⟨_, rfl⟩
  · cases h; exact ⟨n.utility, rfl⟩

theorem Counts.withUtility {n : NodeStat} {i r} (h : Counts n i r) (u : Rat) : Counts { n with utility := u } i r :=
  ⟨h.state, h.all, h.suc, h.tik, h.tik2, h.suc2⟩

theorem pyIndex_four {i : Int} : pyIndex 4 i = if 0 ≤ i ∧ i < 4 then some i.toNat else if -4 ≤ i ∧ i < 0 then some (i + 4).toNat else none := rfl

theorem Counts.execute {n : NodeStat} {i r} (h : Counts n i r) (s : Status) : Counts (n.execute s).1 i (r ++ [(i, s)]) := by
  by_cases hs : s = .success
  · subst hs
    have hl : n.nSuc2.length = 4 := by rw [h.suc2]; simp
    simp only [NodeStat.execute, if_pos, incAt, h.state, hl]
    cases hk : pyIndex 4 i with
    | none =>
      refine ⟨rfl, by simp [h.all], by simp [h.suc, List.countP_append], h.tik, h.tik2, ?_⟩
      show n.nSuc2 = _
      rw [h.suc2]
      apply List.map_congr_left
      intro k hk'
      rw [List.countP_append]
      have : ¬ inState k i := by
        rw [pyIndex_four] at hk
        simp only [List.mem_range] at hk'
        unfold inState
        split at hk
        · cases hk
        · split at hk
          · cases hk
          · omega
      simp [this]
    | some k =>
      have hk4 : k < 4 ∧ ∀ j, j < 4 → (inState j i ↔ j = k) := by
        rw [pyIndex_four] at hk
        unfold inState
        split at hk
        · cases hk; constructor
          · omega
          · intro j hj; omega
        · split at hk
          · cases hk; constructor
            · omega
            · intro j hj; omega
          · cases hk
      refine ⟨rfl, by simp [h.all], by simp [h.suc, List.countP_append], h.tik, h.tik2, ?_⟩
      show n.nSuc2.set k _ = _
      rw [h.suc2]
      apply List.ext_getElem (by simp)
      intro j hj hj'
      have hj4 : j < 4 := by simpa using hj'
      simp only [List.getElem_set, List.getElem_map, List.getElem_range, List.countP_append]
      by_cases hjk : k = j
      · subst hjk
        have := (hk4.2 k hj4).2 rfl
        simp [this, hj4]
      · have : ¬ inState j i := fun hc => hjk ((hk4.2 j hj4).1 hc).symm
        simp [this, hjk]
  · simp only [NodeStat.execute, if_neg hs]
    refine ⟨h.state, by simp [h.all], by simp [h.suc, List.countP_append, hs], h.tik, h.tik2, ?_⟩
    show n.nSuc2 = _
    rw [h.suc2]
    apply List.map_congr_left
    intro k _
    rw [List.countP_append]; simp [hs]

theorem counts_run : ∀ (h : List StatEv) (n : NodeStat) (i : Int) (r), Counts n i r → Counts (statRun n h) (stateAfter h i) (results h i r)
  | [], n, i, r, hc => hc
  | e :: h, n, i, r, hc => by
    show Counts (statRun (statStep n e).1 h) _ _
    cases e with
    | execute s => exact counts_run h _ _ _ (hc.execute s)
    | setState j => exact counts_run h _ j r ⟨rfl, hc.all, hc.suc, hc.tik, hc.tik2, hc.suc2⟩
    | setCost c => exact counts_run h _ i r ⟨hc.state, hc.all, hc.suc, hc.tik, hc.tik2, hc.suc2⟩
    | setMode m => exact counts_run h _ i r ⟨hc.state, hc.all, hc.suc, hc.tik, hc.tik2, hc.suc2⟩
    | reset => exact counts_run h _ i [] ⟨hc.state, rfl, rfl, rfl, rfl, rfl⟩
    | prob =>
      refine counts_run h _ i r ?_
      show Counts n.probCall.2 i r
      rw [probCall_fields hc.tik]; exact hc
    | getUtility =>
      refine counts_run h _ i r ?_
      obtain ⟨u, e, -⟩ := getUtility_fields hc.tik
      show Counts n.getUtility.2 i r
      rw [e]; exact hc.withUtility u
    | getUtility2 =>
      refine counts_run h _ i r ?_
      simp only [statStep]
      cases hu : n.getUtility2 with
      | none => exact hc
      | some p =>
        obtain ⟨u, e⟩ := getUtility2_fields (n' := p.2) (u := p.1) hu
        show Counts p.2 i r
        rw [e]; exact hc.withUtility u
    | report =>
      refine counts_run h _ i r ?_
      show Counts (n.probCall.2).getUtility.2 i r
      rw [probCall_fields hc.tik]
      obtain ⟨u, e, -⟩ := getUtility_fields hc.tik
      rw [e]; exact hc.withUtility u

theorem counts_new (h : List StatEv) : Counts (statRun newNode h) (stateAfter h 0) (results h 0 []) :=
  counts_run h newNode 0 [] ⟨rfl, rfl, rfl, rfl, rfl, rfl⟩

/-! ## C70 -/

/-- **C70, what is right: the counts.** After every history, N_ticks_all is the number of executions and N_success the number of successes since the
last reset, also if an exception was raised; and as long as the states are 0-3, N_suc2[k] is the number of successes in state k. Missing: the
executions by state, and so the estimate (`C70_estimate_violation`). -/
theorem C70_counts_partial (h : List StatEv) :
    (statRun newNode h).nTicksAll = executions (results h 0 []) ∧ (statRun newNode h).nSuccess = successes (results h 0 []) ∧
    ((∀ p ∈ results h 0 [], 0 ≤ p.1) → ∀ k < 4, (statRun newNode h).nSuc2[k]? = some (successesIn k (results h 0 []))) := by
  have c := counts_new h
  refine ⟨c.all, c.suc, fun hp k hk => ?_⟩
  rw [c.suc2, List.getElem?_map, List.getElem?_range hk]
  simp only [Option.map_some, successesIn, Option.some.injEq]
  apply List.countP_congr
  intro p hm
  have := hp p hm
  have e : ∀ a b : Prop, ∀ [Decidable a] [Decidable b], (a ↔ b) → (decide a = true ↔ decide b = true) := by
    intro a b _ _ h; simp [h]
  apply e
  unfold inState
  constructor
  · rintro ⟨h1 | h1, h2⟩
    · exact ⟨h1, h2⟩
    · omega
  · rintro ⟨h1, h2⟩; exact ⟨.inl h1, h2⟩

/-- **C70: exactly when an execution raises.** An execution raises an IndexError exactly if the node succeeds in a state outside of -4 … 3. -/
theorem C70_raises (h : List StatEv) (s : Status) :
    (statStep (statRun newNode h) (.execute s)).2 = false ↔ s = .success ∧ (stateAfter h 0 < -4 ∨ 4 ≤ stateAfter h 0) := by
  have c := counts_new h
  generalize statRun newNode h = n at *
  have hl : n.nSuc2.length = 4 := by rw [c.suc2]; simp
  simp only [statStep, NodeStat.execute]
  by_cases hs : s = .success
  · simp only [hs, if_true, incAt, hl, c.state, true_and]
    rw [pyIndex_four]
    by_cases h1 : 0 ≤ stateAfter h 0 ∧ stateAfter h 0 < 4
    · simp only [if_pos h1]; simp; omega
    · by_cases h2 : -4 ≤ stateAfter h 0 ∧ stateAfter h 0 < 0
      · simp only [if_neg h1, if_pos h2]; simp; omega
      · simp only [if_neg h1, if_neg h2]; simp; omega
  · simp [hs]

/-- **C70 is false for every history.** The estimates by state stay at 0.5, however often the node was executed in the state and with whatever result. -/
theorem C70_estimate_violation (h : List StatEv) : (statRun newNode h).probState = [1 / 2, 1 / 2, 1 / 2, 1 / 2] := by
  have c := counts_new h
  simp only [NodeStat.probState, c.tik2]
  rfl

theorem cost_mode : ∀ (h : List StatEv) (n : NodeStat), (statRun n h).cost = costAfter h n.cost ∧ (statRun n h).mode = modeAfter h n.mode
  | [], n => ⟨rfl, rfl⟩
  | e :: h, n => by
    have ih := cost_mode h (statStep n e).1
    have pc : ∀ n : NodeStat, n.probCall.2.cost = n.cost ∧ n.probCall.2.mode = n.mode := by
      intro n; unfold NodeStat.probCall; split <;> exact ⟨rfl, rfl⟩
    have gu : ∀ n : NodeStat, n.getUtility.2.cost = n.cost ∧ n.getUtility.2.mode = n.mode := by
      intro n
      simp only [NodeStat.getUtility]
      by_cases h1 : n.mode = "RATIO"
      · simp [h1, pc]
      · by_cases h2 : n.mode = "NEG_COST" <;> simp [h1, h2, pc]
    show (statRun (statStep n e).1 h).cost = _ ∧ (statRun (statStep n e).1 h).mode = _
    rw [ih.1, ih.2]
    cases e with
    | execute s =>
      have : (n.execute s).1.cost = n.cost ∧ (n.execute s).1.mode = n.mode := by
        simp only [NodeStat.execute]
        split
        · split <;> exact ⟨rfl, rfl⟩
        · exact ⟨rfl, rfl⟩
      simp only [statStep, costAfter, modeAfter, this, and_self]
    | setState j => exact ⟨rfl, rfl⟩
    | setCost c => exact ⟨rfl, rfl⟩
    | setMode m => exact ⟨rfl, rfl⟩
    | reset => exact ⟨rfl, rfl⟩
    | prob => simp only [statStep, costAfter, modeAfter, pc, and_self]
    | getUtility => simp only [statStep, costAfter, modeAfter, gu, and_self]
    | getUtility2 =>
      simp only [statStep, costAfter, modeAfter]
      cases hu : n.getUtility2 with
      | none => exact ⟨rfl, rfl⟩
      | some p =>
        obtain ⟨u, e⟩ := getUtility2_fields (n' := p.2) (u := p.1) hu
        show costAfter h p.2.cost = _ ∧ modeAfter h p.2.mode = _
        rw [e]; exact ⟨rfl, rfl⟩
    | report => simp only [statStep, costAfter, modeAfter, gu, pc, and_self]

/-- **C70, what is left of the utilities**: in the mode `RATIO` they are 0.1/Cost and 0.5/Cost (0.1 and 0.5 without a cost), in the mode `NEG_COST`
-0.1 Cost and -0.5 Cost; the history of executions has no influence. Missing: the dependence on the successes. -/
theorem C70_utility_partial (h : List StatEv) (hs : 0 ≤ stateAfter h 0 ∧ stateAfter h 0 < 4)
    (c : Int) (hc : c = costAfter h 0) :
    (modeAfter h "RATIO" = "RATIO" → (statRun newNode h).getUtility.1 = ((if c > 0 then 1 / 10 / c else 1 / 10 : Rat)) ∧
      (statRun newNode h).getUtility2.map (·.1) = some ((if c > 0 then 1 / 2 / c else 1 / 2 : Rat))) ∧
    (modeAfter h "RATIO" = "NEG_COST" → (statRun newNode h).getUtility.1 = (-(1 / 10 * c) : Rat) ∧
      (statRun newNode h).getUtility2.map (·.1) = some (-(1 / 2 * c) : Rat)) := by
  have k := counts_new h
  have e := C70_estimate_violation h
  have cm := cost_mode h newNode
  rw [show newNode.cost = 0 from rfl, ← hc, show newNode.mode = "RATIO" from rfl] at cm
  generalize statRun newNode h = n at *
  have hst := k.state
  generalize stateAfter h 0 = i at *
  have hp : pyIndex 4 i = some i.toNat := by rw [pyIndex_four, if_pos hs]
  have hq : ([1 / 2, 1 / 2, 1 / 2, 1 / 2] : List Rat).getD i.toNat 0 = 1 / 2 := by
    have : i.toNat < 4 := by omega
    match i.toNat, this with
    | 0, _ | 1, _ | 2, _ | 3, _ => rfl
  constructor
  · intro hm
    rw [hm] at cm
    refine ⟨?_, ?_⟩
    · simp only [NodeStat.getUtility, probCall_fields k.tik, cm]
      simp
    · simp only [NodeStat.getUtility2, cm.2, true_or, if_true, e, List.length_cons, List.length_nil, hst]
      rw [show (0 + 1 + 1 + 1 + 1 : Nat) = 4 from rfl, hp]
      simp only [hq, cm.1, Option.map_some]
  · intro hm
    rw [hm] at cm
    refine ⟨?_, ?_⟩
    · simp [NodeStat.getUtility, probCall_fields k.tik, cm]
    · simp only [NodeStat.getUtility2, cm.2, or_true, if_true, e, List.length_cons, List.length_nil, hst]
      rw [show (0 + 1 + 1 + 1 + 1 : Nat) = 4 from rfl, hp]
      simp only [hq, cm.1, Option.map_some, show ¬ ("NEG_COST" = "RATIO") by decide, if_false, Option.some.injEq]
      ring

/-- **C70 violated: stale utility.** With a mode that is neither `RATIO` nor `NEG_COST`, nothing is computed: both utilities return what was computed
last, whatever the cost is now. -/
theorem C70_mode_violation (h : List StatEv) (hm : modeAfter h "RATIO" ≠ "RATIO" ∧ modeAfter h "RATIO" ≠ "NEG_COST") :
    (statRun newNode h).getUtility.1 = (statRun newNode h).utility ∧
    (statRun newNode h).getUtility2.map (·.1) = some (statRun newNode h).utility := by
  have cm := (cost_mode h newNode).2
  rw [show newNode.mode = "RATIO" from rfl] at cm
  simp [NodeStat.getUtility, NodeStat.getUtility2, cm, hm]

/-- **C70: asking changes nothing.** The counts after a history are those of the history without its questions. -/
theorem C70_questions (h : List StatEv) :
    results (h.filter fun e => match e with | .prob | .getUtility | .getUtility2 | .report => false | _ => true) 0 [] = results h 0 [] := by
  have key : ∀ (h : List StatEv) i r,
      results (h.filter fun e => match e with | .prob | .getUtility | .getUtility2 | .report => false | _ => true) i r = results h i r := by
    intro h
    induction h with
    | nil => intro i r; rfl
    | cons e h ih => intro i r; cases e <;> simp [results, ih]
  exact key h 0 []

/-! ## A history -/

/-- two successes and a failure in state 0, a success in state 2; then a reset, and a success in state 2 -/
def demoHist : List StatEv :=
  [.execute .success, .execute .failure, .setCost 4, .getUtility, .execute .success, .setState 2, .execute .success, .report]

example : (statRun newNode demoHist).nTicksAll = 4 ∧ (statRun newNode demoHist).nSuccess = 3 ∧ (statRun newNode demoHist).nSuc2 = [2, 0, 1, 0] ∧
    (∀ p ∈ results demoHist 0 [], 0 ≤ p.1) ∧ executionsIn 0 (results demoHist 0 []) = 3 ∧ (statRun newNode demoHist).probState = [1/2, 1/2, 1/2, 1/2] ∧
    (statRun newNode (demoHist ++ [.reset, .execute .success])).nSuc2 = [0, 0, 1, 0] := by decide +kernel

/-- A node in state 4 raises when it succeeds, and the success is counted all the same. -/
example : (statStep (statRun newNode [.setState 4]) (.execute .success)).2 = false ∧
    (statStep (statRun newNode [.setState 4]) (.execute .success)).1.nSuccess = 1 ∧
    (statStep (statRun newNode [.setState 4]) (.execute .failure)).2 = true := by decide +kernel

example : modeAfter [.getUtility, .setCost 7, .setMode "LOG"] "RATIO" ≠ "RATIO" ∧
    (statRun newNode [.getUtility, .setCost 7, .setMode "LOG"]).getUtility.1 = 1 / 10 := by decide +kernel

end Verif.BT
