import Verif.BT.RunClaims
import Verif.BT.Bound
/-!
# C14: the number of executions, RUNNING included

Counters of nodes are never negative in a state reached from a new tree; with such counters one tick of a tree without unbounded repeaters
executes every node at most as often as the loop bounds above it allow, whatever the leaves return.
-/
namespace Verif.BT
variable {σ L : Type} {E : Env σ L} {fuel : Nat}

/-- The counts that Limiter and the repeaters keep are not negative (they start at 0 and are only counted up). -/
def CountsUp (cnt : Id → Option Int) : Prop := ∀ i n, cnt i = some n → 0 ≤ n

theorem CountsUp.upd {c : Id → Option Int} (h : CountsUp c) (id : Id) {n : Int} (hn : 0 ≤ n) : CountsUp (upd c id (some n)) := by
  intro i m hm
  simp only [Verif.BT.upd] at hm
  split at hm
  · cases hm; exact hn
  · exact h i m hm

theorem CountsUp.opened {w : Memory σ} (h : CountsUp w.cnt) (k : Option DKind) (id : Id) : CountsUp (w.opened E k id).cnt := by
  simp only [Memory.opened]
  split
  · exact h
  · cases k with
    | none => exact h
    | some k =>
      cases k
      case inverter => exact h
      case maxTime => exact h
      all_goals exact CountsUp.upd (c := w.cnt) h id (Int.le_refl 0)

theorem ended_cnt (id : Id) (s : Status) (w : Memory σ) : (w.ended id s).cnt = w.cnt := by
  simp only [Memory.ended]; split <;> rfl

/-- (proof) the bound, with the counts -/
theorem run_occ {t : Tree L} {w : Memory σ} {tr : List Ev} {s : Status} {w' : Memory σ} (j : Id) (h : Run E t w tr s w') :
    t.Bounded → CountsUp w.cnt → occ j tr ≤ t.maxExec j ∧ CountsUp w'.cnt := by
  refine Run.rec
    (motive_1 := fun t w tr s w' _ => t.Bounded → CountsUp w.cnt → occ j tr ≤ t.maxExec j ∧ CountsUp w'.cnt)
    (motive_2 := fun ts w tr s w' _ => BoundedList ts → CountsUp w.cnt → occ j tr ≤ maxExecList j ts ∧ CountsUp w'.cnt)
    (motive_3 := fun ts w tr s w' _ => BoundedList ts → CountsUp w.cnt → occ j tr ≤ maxExecList j ts ∧ CountsUp w'.cnt)
    (motive_4 := fun ts w tr s w' _ => BoundedList ts → CountsUp w.cnt → occ j tr ≤ maxExecList j ts ∧ CountsUp w'.cnt)
    (motive_5 := fun r c m l i w tr x i' w' _ => c.Bounded → 0 ≤ m → CountsUp w.cnt → 0 ≤ i →
      occ j tr ≤ (m - i).toNat * c.maxExec j ∧ CountsUp w'.cnt ∧ 0 ≤ i')
    ?leaf ?sequence ?priority ?orNode ?inverter ?limiterRun ?limiterStop ?repeater ?untilFailure ?untilSuccess ?maxTime ?emptyDeco
    ?sdone ?sstop ?snext ?pdone ?pstop ?pnext ?adone ?anext ?full ?quit ?again h
  case leaf =>
    intro id a w s u h hb hc
    refine ⟨by rw [occ_single, Tree.maxExec]; omega, ?_⟩
    rw [ended_cnt]; exact hc.opened none id
  case sequence =>
    intro id cs w tr s w' h ih hb hc
    rw [Tree.Bounded] at hb
    have := ih hb (hc.opened _ _)
    refine ⟨by rw [occ_append, occ_single, Tree.maxExec]; omega, by rw [ended_cnt]; exact this.2⟩
  case priority =>
    intro id cs w tr s w' h ih hb hc
    rw [Tree.Bounded] at hb
    have := ih hb (hc.opened _ _)
    refine ⟨by rw [occ_append, occ_single, Tree.maxExec]; omega, by rw [ended_cnt]; exact this.2⟩
  case orNode =>
    intro id cs w tr ss s w' h hs ih hb hc
    rw [Tree.Bounded] at hb
    have := ih hb (hc.opened _ _)
    refine ⟨by rw [occ_append, occ_single, Tree.maxExec]; omega, by rw [ended_cnt]; exact this.2⟩
  case inverter =>
    intro id c w tr s s' w' h hs ih hb hc
    rw [Tree.Bounded] at hb
    have := ih hb.2 (hc.opened _ _)
    refine ⟨by rw [occ_append, occ_single, Tree.maxExec, DKind.maxRuns]; omega, by rw [ended_cnt]; exact this.2⟩
  case limiterRun =>
    intro id c m w i tr s w' hi hm h ih hb hc
    rw [Tree.Bounded] at hb
    have := ih hb.2 (hc.opened _ _)
    refine ⟨by rw [occ_append, occ_single, Tree.maxExec, DKind.maxRuns]; omega, ?_⟩
    rw [ended_cnt]
    split
    · exact this.2.upd id (by have := (hc.opened (E := E) (some (.limiter m)) id) id i hi; omega)
    · exact this.2
  case limiterStop =>
    intro id c m w i hi hm hb hc
    refine ⟨by rw [occ_single, Tree.maxExec]; omega, by rw [ended_cnt]; exact hc.opened _ _⟩
  case repeater =>
    intro id c m w i tr s i' w' hi h ih hb hc
    rw [Tree.Bounded] at hb
    have h0 := (hc.opened (E := E) (some (.repeater m)) id) id i hi
    have := ih hb.2 hb.1 (hc.opened _ _) h0
    have h1 : (m - i).toNat * c.maxExec j ≤ m.toNat * c.maxExec j := Nat.mul_le_mul_right _ (by omega)
    refine ⟨by rw [occ_append, occ_single, Tree.maxExec, DKind.maxRuns]; omega, ?_⟩
    rw [ended_cnt]; exact this.2.1.upd id this.2.2
  case untilFailure =>
    intro id c m w i tr s i' w' hi h ih hb hc
    rw [Tree.Bounded] at hb
    have h0 := (hc.opened (E := E) (some (.untilFailure m)) id) id i hi
    have := ih hb.2 hb.1 (hc.opened _ _) h0
    have h1 : (m - i).toNat * c.maxExec j ≤ m.toNat * c.maxExec j := Nat.mul_le_mul_right _ (by omega)
    refine ⟨by rw [occ_append, occ_single, Tree.maxExec, DKind.maxRuns]; omega, ?_⟩
    rw [ended_cnt]; exact this.2.1.upd id this.2.2
  case untilSuccess =>
    intro id c m w i tr s i' w' hi h ih hb hc
    rw [Tree.Bounded] at hb
    have h0 := (hc.opened (E := E) (some (.untilSuccess m)) id) id i hi
    have := ih hb.2 hb.1 (hc.opened _ _) h0
    have h1 : (m - i).toNat * c.maxExec j ≤ m.toNat * c.maxExec j := Nat.mul_le_mul_right _ (by omega)
    refine ⟨by rw [occ_append, occ_single, Tree.maxExec, DKind.maxRuns]; omega, ?_⟩
    rw [ended_cnt]; exact this.2.1.upd id this.2.2
  case maxTime =>
    intro id c m w w1 t0 tr s s' w' h1 hi h hs ih hb hc
    rw [Tree.Bounded] at hb
    have := ih hb.2 (by rw [h1]; exact hc.opened (E := E) (some (.maxTime m)) id)
    refine ⟨by rw [occ_append, occ_single, Tree.maxExec, DKind.maxRuns]; omega, by rw [ended_cnt]; exact this.2⟩
  case emptyDeco =>
    intro k id w hb hc
    refine ⟨by rw [occ_single, Tree.maxExec]; omega, by rw [ended_cnt]; exact hc.opened _ _⟩
  case sdone => intro w hb hc; exact ⟨by simp [occ], hc⟩
  case sstop =>
    intro c cs w tr s w' h hs ih hb hc
    rw [BoundedList] at hb; have := ih hb.1 hc
    exact ⟨by rw [maxExecList]; omega, this.2⟩
  case snext =>
    intro c cs w tr w1 tr' s w' h hn ih ihn hb hc
    rw [BoundedList] at hb
    have h1 := ih hb.1 hc; have h2 := ihn hb.2 h1.2
    exact ⟨by rw [maxExecList, occ_append]; omega, h2.2⟩
  case pdone => intro w hb hc; exact ⟨by simp [occ], hc⟩
  case pstop =>
    intro c cs w tr s w' h hs ih hb hc
    rw [BoundedList] at hb; have := ih hb.1 hc
    exact ⟨by rw [maxExecList]; omega, this.2⟩
  case pnext =>
    intro c cs w tr w1 tr' s w' h hn ih ihn hb hc
    rw [BoundedList] at hb
    have h1 := ih hb.1 hc; have h2 := ihn hb.2 h1.2
    exact ⟨by rw [maxExecList, occ_append]; omega, h2.2⟩
  case adone => intro w hb hc; exact ⟨by simp [occ], hc⟩
  case anext =>
    intro c cs w tr s w1 tr' ss w' h hn ih ihn hb hc
    rw [BoundedList] at hb
    have h1 := ih hb.1 hc; have h2 := ihn hb.2 h1.2
    exact ⟨by rw [maxExecList, occ_append]; omega, h2.2⟩
  case full => intro r c m last i w h1 h2 hb hm hc hi; exact ⟨by simp [occ], hc, hi⟩
  case quit =>
    intro r c m last i w tr s w' hg h hs ih hb hm hc hi
    have := ih hb hc
    have h1 : 1 * c.maxExec j ≤ (m - i).toNat * c.maxExec j := Nat.mul_le_mul_right _ (by omega)
    exact ⟨by omega, this.2, hi⟩
  case again =>
    intro r c m last i w tr s w1 tr' x i' w' hg h hs hn ih ihn hb hm hc hi
    have h1 := ih hb hc
    have h2 := ihn hb hm h1.2 (by omega)
    refine ⟨?_, h2.2⟩
    have e : (m - i).toNat = (m - (i + 1)).toNat + 1 := by omega
    rw [occ_append, e, Nat.add_mul]; omega

/-- C14, whatever the leaves return (RUNNING and ERROR included), for every tree without unbounded repeaters: in a history of ticks from
a state whose counts are not negative (a new tree has none), every node is executed at most as often as the product of the loop bounds above
its occurrences allows, times the number of ticks; and the counts stay so. -/
theorem C14_executions_all {t : Tree L} (hb : t.Bounded) (j : Id) : ∀ {ws : List (σ → σ)} {st : St σ} {ss : List Status} {st' : St σ},
    CountsUp st.cnt → ticks E fuel t ws st = .ok (ss, st') →
    st'.ticksAll j ≤ st.ticksAll j + ws.length * t.maxExec j ∧ CountsUp st'.cnt := by
  intro ws st ss st' hc h
  obtain ⟨tr, hr, hn⟩ := C08_counters_all h
  have key : ∀ {ws w tr ss w'}, Runs E t ws w tr ss w' → CountsUp w.cnt → occ j tr ≤ ws.length * t.maxExec j ∧ CountsUp w'.cnt := by
    intro ws w tr ss w' hr
    induction hr with
    | nil => intro h; exact ⟨by simp [occ], h⟩
    | cons h _ ih =>
      intro hc
      have h1 := run_occ j h hb hc
      have h2 := ih h1.2
      refine ⟨?_, h2.2⟩
      rw [occ_append, List.length_cons, Nat.add_mul]; omega
  have hk := key hr hc
  refine ⟨?_, hk.2⟩
  have := (hn j).1
  rw [List.countP_eq_length_filter] at this
  have h1 := hk.1
  simp only [occ] at h1
  omega

/-- A Repeater(3) over a leaf that returns RUNNING now and then: two ticks, the leaf runs 1 + 3 times; the bound is 2 · 3. -/
example : (∃ st', ticks scriptEnv 0 (.deco (.repeater 3) 0 (.leaf 1 [.running])) [id, id] { user := 0 } = .ok ([.running, .success], st') ∧
      (st'.ticksAll 1, st'.ticksAll 0) = (4, 2)) ∧
    (Tree.deco (L := List Status) (.repeater 3) 0 (.leaf 1 [.running])).Bounded ∧
    (Tree.deco (L := List Status) (.repeater 3) 0 (.leaf 1 [.running])).maxExec 1 = 3 ∧
    CountsUp ({ user := 0 } : St Nat).cnt := by
  refine ⟨rans (fun st => (st.ticksAll 1, st.ticksAll 0)) (by decide +kernel), ?_, by decide +kernel, by simp [CountsUp]⟩
  simp [Tree.Bounded, DKind.Bounded]

end Verif.BT
