import Verif.BT.RunClaims
/-!
# C54: which nodes are open, for all trees

A node is open iff its last execution ended RUNNING, whatever the published list says; trees with OrNode and MaxTime included.
-/
namespace Verif.BT
variable {σ L : Type} {E : Env σ L} {fuel : Nat}

/-- Whether the last execution of `j` in the trace ended RUNNING; `b` if there is none. -/
def lastRunning (j : Id) : List Ev → Bool → Bool
  | [], b => b
  | e :: tr, b => lastRunning j tr (if e.1 = j then decide (e.2 = .running) else b)

theorem lastRunning_append (j : Id) : ∀ (tr tr' : List Ev) (b : Bool), lastRunning j (tr ++ tr') b = lastRunning j tr' (lastRunning j tr b)
  | [], _, _ => rfl
  | e :: tr, tr', b => by rw [List.cons_append, lastRunning, lastRunning, lastRunning_append j tr]

theorem lastRunning_none {j : Id} : ∀ {tr : List Ev} {b : Bool}, (∀ e ∈ tr, e.1 ≠ j) → lastRunning j tr b = b
  | [], _, _ => rfl
  | e :: tr, b, h => by
    rw [lastRunning, if_neg (h e (by simp))]
    exact lastRunning_none (fun e' he => h e' (by simp [he]))

theorem opened_isOpen (w : Memory σ) (k : Option DKind) (id j : Id) :
    (w.opened E k id).isOpen j = (if j = id then true else w.isOpen j) := by
  have hi : ∀ (w : Memory σ), (Memory.init E k id w).isOpen = w.isOpen := by
    intro w; cases k with
    | none => rfl
    | some k => cases k <;> rfl
  simp only [Memory.opened]
  split
  · rename_i h
    split
    · rename_i e; rw [e]; exact h
    · rfl
  · rw [hi]; simp only [upd]

/-- (proof) the end of a node, given its body -/
theorem open_node {w w' : Memory σ} {tr : List Ev} {s : Status} {id : Id} {ids : List Id} {w0 : Memory σ}
    (hw : ∀ j, w0.isOpen j = (if j = id then true else w.isOpen j))
    (hn : id ∉ ids) (he : ∀ e ∈ tr, e.1 ∈ ids) (hb : ∀ j, w'.isOpen j = lastRunning j tr (w0.isOpen j)) (j : Id) :
    (w'.ended id s).isOpen j = lastRunning j (tr ++ [(id, s)]) (w.isOpen j) := by
  rw [lastRunning_append]
  simp only [lastRunning, Memory.ended]
  by_cases hj : j = id
  · subst hj
    rw [if_pos rfl]
    by_cases hs : s = .running
    · rw [if_pos hs, hb, hw, if_pos rfl, lastRunning_none (fun e h h' => hn (by rw [← h']; exact he e h))]; simp [hs]
    · rw [if_neg hs]; simp [upd, hs]
  · rw [if_neg (show ¬ id = j from fun h => hj h.symm)]
    have : (if s = .running then w' else { w' with isOpen := upd w'.isOpen id false }).isOpen j = w'.isOpen j := by
      split
      · rfl
      · simp [upd, hj]
    rw [this, hb, hw, if_neg hj]

/-- (proof) the open flags after a run -/
theorem run_open {t : Tree L} {w : Memory σ} {tr : List Ev} {s : Status} {w' : Memory σ} (h : Run E t w tr s w') :
    t.Acyclic → (∀ e ∈ tr, e.1 ∈ t.ids) ∧ ∀ j, w'.isOpen j = lastRunning j tr (w.isOpen j) := by
  refine Run.rec
    (motive_1 := fun t w tr s w' _ => t.Acyclic → (∀ e ∈ tr, e.1 ∈ t.ids) ∧ ∀ j, w'.isOpen j = lastRunning j tr (w.isOpen j))
    (motive_2 := fun ts w tr s w' _ => AcyclicList ts → (∀ e ∈ tr, e.1 ∈ idsList ts) ∧ ∀ j, w'.isOpen j = lastRunning j tr (w.isOpen j))
    (motive_3 := fun ts w tr s w' _ => AcyclicList ts → (∀ e ∈ tr, e.1 ∈ idsList ts) ∧ ∀ j, w'.isOpen j = lastRunning j tr (w.isOpen j))
    (motive_4 := fun ts w tr s w' _ => AcyclicList ts → (∀ e ∈ tr, e.1 ∈ idsList ts) ∧ ∀ j, w'.isOpen j = lastRunning j tr (w.isOpen j))
    (motive_5 := fun r c m l i w tr x i' w' _ => c.Acyclic → (∀ e ∈ tr, e.1 ∈ c.ids) ∧ ∀ j, w'.isOpen j = lastRunning j tr (w.isOpen j))
    ?leaf ?sequence ?priority ?orNode ?inverter ?limiterRun ?limiterStop ?repeater ?untilFailure ?untilSuccess ?maxTime ?emptyDeco
    ?sdone ?sstop ?snext ?pdone ?pstop ?pnext ?adone ?anext ?full ?quit ?again h
  case leaf =>
    intro id a w s u h ha
    refine ⟨by simp [Tree.ids], fun j => ?_⟩
    refine open_node (tr := []) (ids := []) (w0 := w.opened E none id) (opened_isOpen w _ id) (by simp) (by simp) (fun _ => ?_) j
    rfl
  case sequence =>
    intro id cs w tr s w' h ih ha
    rw [Tree.Acyclic] at ha
    have := ih ha.2
    refine ⟨?_, open_node (opened_isOpen w _ id) ha.1 this.1 this.2⟩
    intro e he; rcases List.mem_append.1 he with he | he
    · rw [Tree.ids]; exact List.mem_cons_of_mem _ (this.1 e he)
    · simp at he; simp [he, Tree.ids]
  case priority =>
    intro id cs w tr s w' h ih ha
    rw [Tree.Acyclic] at ha
    have := ih ha.2
    refine ⟨?_, open_node (opened_isOpen w _ id) ha.1 this.1 this.2⟩
    intro e he; rcases List.mem_append.1 he with he | he
    · rw [Tree.ids]; exact List.mem_cons_of_mem _ (this.1 e he)
    · simp at he; simp [he, Tree.ids]
  case orNode =>
    intro id cs w tr ss s w' h hs ih ha
    rw [Tree.Acyclic] at ha
    have := ih ha.2
    refine ⟨?_, open_node (opened_isOpen w _ id) ha.1 this.1 this.2⟩
    intro e he; rcases List.mem_append.1 he with he | he
    · rw [Tree.ids]; exact List.mem_cons_of_mem _ (this.1 e he)
    · simp at he; simp [he, Tree.ids]
  case inverter =>
    intro id c w tr s s' w' h hs ih ha
    rw [Tree.Acyclic] at ha
    have := ih ha.2
    refine ⟨?_, open_node (opened_isOpen w _ id) ha.1 this.1 this.2⟩
    intro e he; rcases List.mem_append.1 he with he | he
    · rw [Tree.ids]; exact List.mem_cons_of_mem _ (this.1 e he)
    · simp at he; simp [he, Tree.ids]
  case limiterRun =>
    intro id c m w i tr s w' hi hm h ih ha
    rw [Tree.Acyclic] at ha
    have := ih ha.2
    refine ⟨?_, fun j => ?_⟩
    · intro e he; rcases List.mem_append.1 he with he | he
      · rw [Tree.ids]; exact List.mem_cons_of_mem _ (this.1 e he)
      · simp at he; simp [he, Tree.ids]
    · refine open_node (opened_isOpen (E := E) w (some (.limiter m)) id) ha.1 this.1 (fun j => ?_) j
      rw [← this.2 j]; split <;> rfl
  case limiterStop =>
    intro id c m w i hi hm ha
    refine ⟨by simp [Tree.ids], fun j => ?_⟩
    exact open_node (tr := []) (ids := []) (opened_isOpen w _ id) (by simp) (by simp) (fun _ => rfl) j
  case repeater =>
    intro id c m w i tr s i' w' hi h ih ha
    rw [Tree.Acyclic] at ha
    have := ih ha.2
    refine ⟨?_, fun j => ?_⟩
    · intro e he; rcases List.mem_append.1 he with he | he
      · rw [Tree.ids]; exact List.mem_cons_of_mem _ (this.1 e he)
      · simp at he; simp [he, Tree.ids]
    · refine open_node (opened_isOpen (E := E) w (some (.repeater m)) id) ha.1 this.1 (fun j => ?_) j
      exact this.2 j
  case untilFailure =>
    intro id c m w i tr s i' w' hi h ih ha
    rw [Tree.Acyclic] at ha
    have := ih ha.2
    refine ⟨?_, fun j => ?_⟩
    · intro e he; rcases List.mem_append.1 he with he | he
      · rw [Tree.ids]; exact List.mem_cons_of_mem _ (this.1 e he)
      · simp at he; simp [he, Tree.ids]
    · refine open_node (opened_isOpen (E := E) w (some (.untilFailure m)) id) ha.1 this.1 (fun j => ?_) j
      exact this.2 j
  case untilSuccess =>
    intro id c m w i tr s i' w' hi h ih ha
    rw [Tree.Acyclic] at ha
    have := ih ha.2
    refine ⟨?_, fun j => ?_⟩
    · intro e he; rcases List.mem_append.1 he with he | he
      · rw [Tree.ids]; exact List.mem_cons_of_mem _ (this.1 e he)
      · simp at he; simp [he, Tree.ids]
    · refine open_node (opened_isOpen (E := E) w (some (.untilSuccess m)) id) ha.1 this.1 (fun j => ?_) j
      exact this.2 j
  case maxTime =>
    intro id c m w w1 t0 tr s s' w' h1 hi h hs ih ha
    rw [Tree.Acyclic] at ha
    have := ih ha.2
    subst h1
    refine ⟨?_, fun j => ?_⟩
    · intro e he; rcases List.mem_append.1 he with he | he
      · rw [Tree.ids]; exact List.mem_cons_of_mem _ (this.1 e he)
      · simp at he; simp [he, Tree.ids]
    · refine open_node (opened_isOpen (E := E) w (some (.maxTime m)) id) ha.1 this.1 (fun j => ?_) j
      exact this.2 j
  case emptyDeco =>
    intro k id w ha
    refine ⟨by simp [Tree.ids], fun j => ?_⟩
    exact open_node (tr := []) (ids := []) (opened_isOpen w _ id) (by simp) (by simp) (fun _ => rfl) j
  case sdone => intro w ha; exact ⟨by simp, fun _ => rfl⟩
  case sstop =>
    intro c cs w tr s w' h hs ih ha
    rw [AcyclicList] at ha; have := ih ha.1
    exact ⟨fun e he => by rw [idsList]; exact List.mem_append_left _ (this.1 e he), this.2⟩
  case snext =>
    intro c cs w tr w1 tr' s w' h hn ih ihn ha
    rw [AcyclicList] at ha
    have h1 := ih ha.1; have h2 := ihn ha.2
    refine ⟨fun e he => ?_, fun j => by rw [lastRunning_append, h2.2, h1.2]⟩
    rw [idsList]
    rcases List.mem_append.1 he with he | he
    · exact List.mem_append_left _ (h1.1 e he)
    · exact List.mem_append_right _ (h2.1 e he)
  case pdone => intro w ha; exact ⟨by simp, fun _ => rfl⟩
  case pstop =>
    intro c cs w tr s w' h hs ih ha
    rw [AcyclicList] at ha; have := ih ha.1
    exact ⟨fun e he => by rw [idsList]; exact List.mem_append_left _ (this.1 e he), this.2⟩
  case pnext =>
    intro c cs w tr w1 tr' s w' h hn ih ihn ha
    rw [AcyclicList] at ha
    have h1 := ih ha.1; have h2 := ihn ha.2
    refine ⟨fun e he => ?_, fun j => by rw [lastRunning_append, h2.2, h1.2]⟩
    rw [idsList]
    rcases List.mem_append.1 he with he | he
    · exact List.mem_append_left _ (h1.1 e he)
    · exact List.mem_append_right _ (h2.1 e he)
  case adone => intro w ha; exact ⟨by simp, fun _ => rfl⟩
  case anext =>
    intro c cs w tr s w1 tr' ss w' h hn ih ihn ha
    rw [AcyclicList] at ha
    have h1 := ih ha.1; have h2 := ihn ha.2
    refine ⟨fun e he => ?_, fun j => by rw [lastRunning_append, h2.2, h1.2]⟩
    rw [idsList]
    rcases List.mem_append.1 he with he | he
    · exact List.mem_append_left _ (h1.1 e he)
    · exact List.mem_append_right _ (h2.1 e he)
  case full => intro r c m last i w h1 h2 ha; exact ⟨by simp, fun _ => rfl⟩
  case quit => intro r c m last i w tr s w' hg h hs ih ha; exact ih ha
  case again =>
    intro r c m last i w tr s w1 tr' x i' w' hg h hs hn ih ihn ha
    have h1 := ih ha; have h2 := ihn ha
    refine ⟨fun e he => ?_, fun j => by rw [lastRunning_append, h2.2, h1.2]⟩
    rcases List.mem_append.1 he with he | he
    · exact h1.1 e he
    · exact h2.1 e he

/-- C54, the open flags, for *every* tree in which no node is its own descendant (OrNode and MaxTime included), every leaf, every history of
ticks from every state: a node is open afterwards iff its last execution ended RUNNING; one that was not executed is open iff it was before. -/
theorem C54_open_iff_last_running {t : Tree L} (ha : t.Acyclic) {ws : List (σ → σ)} {st : St σ} {ss : List Status} {st' : St σ}
    (h : ticks E fuel t ws st = .ok (ss, st')) :
    ∃ tr, Runs E t ws st.mem tr ss st'.mem ∧ ∀ j, st'.isOpen j = lastRunning j tr (st.isOpen j) := by
  obtain ⟨tr, hr, _⟩ := C08_counters_all h
  refine ⟨tr, hr, ?_⟩
  have key : ∀ {ws w tr ss w'}, Runs E t ws w tr ss w' → ∀ j, w'.isOpen j = lastRunning j tr (w.isOpen j) := by
    intro ws w tr ss w' hr
    induction hr with
    | nil => intro j; rfl
    | cons h _ ih => intro j; rw [lastRunning_append, ih, (run_open h ha).2]
  exact key hr

/-- An OrNode whose second child runs on: the tick succeeds, the child is open, the OrNode is not; in the next tick the child ends. -/
example : (Tree.comp (L := List Status) .orNode 0 [.leaf 1 [.success], .leaf 2 [.success, .running]]).Acyclic ∧
    (∃ st', ticks scriptEnv 0 (.comp .orNode 0 [.leaf 1 [.success], .leaf 2 [.success, .running]]) [id] { user := 0 } = .ok ([.success], st') ∧
      [0, 1, 2].map st'.isOpen = [false, false, true]) ∧
    ∃ st', ticks scriptEnv 0 (.comp .orNode 0 [.leaf 1 [.success], .leaf 2 [.success, .running]]) [id, id] { user := 0 } = .ok ([.success, .success], st') ∧
      [0, 1, 2].map st'.isOpen = [false, false, false] := by
  refine ⟨by simp [Tree.Acyclic, AcyclicList, idsList, Tree.ids], rans (fun st => [0, 1, 2].map st.isOpen) (by decide +kernel),
    rans (fun st => [0, 1, 2].map st.isOpen) (by decide +kernel)⟩

end Verif.BT
