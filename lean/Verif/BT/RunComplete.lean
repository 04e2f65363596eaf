import Verif.BT.RunClaims
import Verif.BT.Props
/-!
# The rules with RUNNING are what the engine does: the converse

Whatever the rules of `RunSpec.lean` allow is what `exec` does, for all fuel that is large enough (it matters for unbounded repeaters only).
-/
namespace Verif.BT
variable {σ L : Type} {E : Env σ L}

/-- (proof) `_execute` returns if the body does -/
theorem execute_returns {id : Id} {hook : St σ → St σ} {k : Option DKind} (hk : HookOf E id hook k) {body : St σ → Res σ} {st : St σ}
    {w1 : Memory σ} {s : Status} (hb : ∀ st0, st0.mem = st.mem.opened E k id → ∃ st1, body st0 = .ok (s, st1) ∧ st1.mem = w1)
    (hne : execute id hook body st ≠ .error .popEmpty) :
    ∃ st', execute id hook body st = .ok (s, st') ∧ st'.mem = w1.ended id s := by
  have h0 : (countTick id (openIfClosed id hook (enter id st))).mem = st.mem.opened E k id := by
    show (openIfClosed id hook (enter id st)).mem = _
    unfold openIfClosed Memory.opened
    have e : (enter id st).isOpen id = st.mem.isOpen id := rfl
    rw [e]
    split
    · rfl
    · exact (hk.mem _).1
  obtain ⟨st1, h1, h2⟩ := hb _ h0
  have hex : ∃ st', execute id hook body st = .ok (s, st') := by
    unfold execute at hne ⊢
    rw [h1] at hne ⊢
    simp only at hne ⊢
    cases hc : closeIfDone id s (afterTick id s st1) with
    | ok st2 => exact ⟨st2, rfl⟩
    | error c =>
      rw [hc] at hne
      simp only [closeIfDone] at hc
      split at hc
      · cases hc
      · split at hc
        · cases hc; exact absurd rfl hne
        · cases hc
  obtain ⟨st', hex⟩ := hex
  obtain ⟨st0', st1', hb', hm, he, _⟩ := run_execute hk hex
  obtain ⟨st1'', h1', h2'⟩ := hb st0' hm
  rw [hb'] at h1'
  simp only [Except.ok.injEq, Prod.mk.injEq, true_and] at h1'
  exact ⟨st', hex, by rw [he, h1', h2']⟩

/-- (proof) the loop of the repeaters: status, counter and memory -/
theorem repeat_returns {self : Id} {m : Int} {cont : Status → Bool} {init : Option Status} {fuel : Nat} {run : St σ → Res σ} {st : St σ} {i i' : Int}
    {s : Status} {w' : Memory σ} (hi : st.cnt self = some i)
    (h : ∃ st', whileLoop cont m run (loopFuel fuel m i) init i st = .ok (some s, i', st') ∧ st'.mem = w') :
    ∃ st', repeatTick cont init fuel m self run st = .ok (s, st') ∧ st'.mem = { w' with cnt := upd w'.cnt self (some i') } := by
  obtain ⟨st', h1, h2⟩ := h
  refine ⟨{ st' with cnt := upd st'.cnt self (some i') }, ?_, by rw [← h2]; rfl⟩
  simp only [repeatTick, hi, h1]

/-- (proof) every run of the rules is executed -/
theorem run_executed {t : Tree L} {w : Memory σ} {tr : List Ev} {s : Status} {w' : Memory σ} (h : Run E t w tr s w') :
    ∃ f0, ∀ fuel, f0 ≤ fuel → ∀ st : St σ, st.mem = w → ∃ st', exec E fuel t st = .ok (s, st') ∧ st'.mem = w' := by
  refine Run.rec
    (motive_1 := fun t w tr s w' _ => ∃ f0, ∀ fuel, f0 ≤ fuel → ∀ st : St σ, st.mem = w → ∃ st', exec E fuel t st = .ok (s, st') ∧ st'.mem = w')
    (motive_2 := fun ts w tr s w' _ => ∃ f0, ∀ fuel, f0 ≤ fuel → ∀ self tmp (st : St σ), st.mem = w →
      ∃ st', seqTick self (execs E fuel ts) tmp st = .ok (s, st') ∧ st'.mem = w')
    (motive_3 := fun ts w tr s w' _ => ∃ f0, ∀ fuel, f0 ≤ fuel → ∀ self (st : St σ), st.mem = w →
      ∃ st', priTick self (execs E fuel ts) st = .ok (s, st') ∧ st'.mem = w')
    (motive_4 := fun ts w tr ss w' _ => ∃ f0, ∀ fuel, f0 ≤ fuel → ∀ self acc (st : St σ), st.mem = w →
      ∃ st', orTick self (execs E fuel ts) acc st = .ok (if ∃ x ∈ ss, x ≠ Status.failure then .success else acc, st') ∧ st'.mem = w')
    (motive_5 := fun r c m l i w tr x i' w' _ => ∃ f0, ∀ fuel, f0 ≤ fuel → ∀ n, (if m < 0 then f0 else (m - i).toNat) ≤ n →
      ∀ cont : Status → Bool, (∀ s, cont s = true ↔ r.again s) → ∀ st : St σ, st.mem = w →
      ∃ st', whileLoop cont m (exec E fuel c) n l i st = .ok (x, i', st') ∧ st'.mem = w')
    ?leaf ?sequence ?priority ?orNode ?inverter ?limiterRun ?limiterStop ?repeater ?untilFailure ?untilSuccess ?maxTime ?emptyDeco
    ?sdone ?sstop ?snext ?pdone ?pstop ?pnext ?adone ?anext ?full ?quit ?again h
  case leaf =>
    intro id a w s u h
    refine ⟨0, fun fuel _ st hw => ?_⟩
    have hne := C08_no_pop_from_empty (E := E) (fuel := fuel) (.leaf id a) st
    rw [exec] at hne ⊢
    subst hw
    refine execute_returns (E := E) .plain (fun st0 h0 => ?_) hne
    have e : st0.user = (st.mem.opened E none id).user := congrArg Memory.user h0
    rw [← e] at h
    simp only [h]
    exact ⟨_, rfl, by rw [← h0]; rfl⟩
  case sequence =>
    intro id cs w tr s w' h ih
    obtain ⟨f0, ih⟩ := ih
    refine ⟨f0, fun fuel hf st hw => ?_⟩
    have hne := C08_no_pop_from_empty (E := E) (fuel := fuel) (.comp .sequence id cs) st
    rw [exec] at hne ⊢
    subst hw
    exact execute_returns (E := E) .plain (fun st0 h0 => ih fuel hf id 0 st0 h0) hne
  case priority =>
    intro id cs w tr s w' h ih
    obtain ⟨f0, ih⟩ := ih
    refine ⟨f0, fun fuel hf st hw => ?_⟩
    have hne := C08_no_pop_from_empty (E := E) (fuel := fuel) (.comp .priority id cs) st
    rw [exec] at hne ⊢
    subst hw
    exact execute_returns (E := E) .plain (fun st0 h0 => ih fuel hf id { st0 with cost := upd st0.cost id 0 } h0) hne
  case orNode =>
    intro id cs w tr ss s w' h hs ih
    obtain ⟨f0, ih⟩ := ih
    refine ⟨f0, fun fuel hf st hw => ?_⟩
    have hne := C08_no_pop_from_empty (E := E) (fuel := fuel) (.comp .orNode id cs) st
    rw [exec] at hne ⊢
    subst hw hs
    exact execute_returns (E := E) .plain (fun st0 h0 => ih fuel hf id .failure { st0 with cost := upd st0.cost id 0 } h0) hne
  case inverter =>
    intro id c w tr s s' w' h hs ih
    obtain ⟨f0, ih⟩ := ih
    refine ⟨f0, fun fuel hf st hw => ?_⟩
    have hne := C08_no_pop_from_empty (E := E) (fuel := fuel) (.deco .inverter id c) st
    rw [exec] at hne ⊢
    subst hw
    refine execute_returns (E := E) (.deco _) (fun st0 h0 => ?_) hne
    obtain ⟨st1, h1, h2⟩ := ih fuel hf st0 h0
    refine ⟨st1, ?_, h2⟩
    simp only [decoTick, h1, hs]
    cases s <;> rfl
  case limiterRun =>
    intro id c m w i tr s w' hi hm h ih
    obtain ⟨f0, ih⟩ := ih
    refine ⟨f0, fun fuel hf st hw => ?_⟩
    have hne := C08_no_pop_from_empty (E := E) (fuel := fuel) (.deco (.limiter m) id c) st
    rw [exec] at hne ⊢
    subst hw
    refine execute_returns (E := E) (.deco _) (fun st0 h0 => ?_) hne
    obtain ⟨st1, h1, h2⟩ := ih fuel hf st0 h0
    have e : st0.cnt id = some i := by rw [← h0] at hi; exact hi
    simp only [decoTick, e, if_pos hm, h1]
    split
    · exact ⟨_, rfl, by rw [← h2]; rfl⟩
    · exact ⟨_, rfl, h2⟩
  case limiterStop =>
    intro id c m w i hi hm
    refine ⟨0, fun fuel hf st hw => ?_⟩
    have hne := C08_no_pop_from_empty (E := E) (fuel := fuel) (.deco (.limiter m) id c) st
    rw [exec] at hne ⊢
    subst hw
    refine execute_returns (E := E) (.deco _) (fun st0 h0 => ?_) hne
    have e : st0.cnt id = some i := by rw [← h0] at hi; exact hi
    refine ⟨st0, ?_, h0⟩
    simp only [decoTick, e, if_neg (by omega : ¬ i < m)]
  case repeater =>
    intro id c m w i tr s i' w' hi h ih
    obtain ⟨f0, ih⟩ := ih
    refine ⟨f0, fun fuel hf st hw => ?_⟩
    have hne := C08_no_pop_from_empty (E := E) (fuel := fuel) (.deco (.repeater m) id c) st
    rw [exec] at hne ⊢
    subst hw
    refine execute_returns (E := E) (.deco _) (fun st0 h0 => ?_) hne
    have e : st0.cnt id = some i := by rw [← h0] at hi; exact hi
    simp only [decoTick]
    exact repeat_returns e (ih fuel hf _ (by simp only [loopFuel]; split <;> omega) _ (fun s => by simp [Rep.again]) st0 h0)
  case untilFailure =>
    intro id c m w i tr s i' w' hi h ih
    obtain ⟨f0, ih⟩ := ih
    refine ⟨f0, fun fuel hf st hw => ?_⟩
    have hne := C08_no_pop_from_empty (E := E) (fuel := fuel) (.deco (.untilFailure m) id c) st
    rw [exec] at hne ⊢
    subst hw
    refine execute_returns (E := E) (.deco _) (fun st0 h0 => ?_) hne
    have e : st0.cnt id = some i := by rw [← h0] at hi; exact hi
    simp only [decoTick]
    exact repeat_returns e (ih fuel hf _ (by simp only [loopFuel]; split <;> omega) _ (fun s => by simp [Rep.again]) st0 h0)
  case untilSuccess =>
    intro id c m w i tr s i' w' hi h ih
    obtain ⟨f0, ih⟩ := ih
    refine ⟨f0, fun fuel hf st hw => ?_⟩
    have hne := C08_no_pop_from_empty (E := E) (fuel := fuel) (.deco (.untilSuccess m) id c) st
    rw [exec] at hne ⊢
    subst hw
    refine execute_returns (E := E) (.deco _) (fun st0 h0 => ?_) hne
    have e : st0.cnt id = some i := by rw [← h0] at hi; exact hi
    simp only [decoTick]
    exact repeat_returns e (ih fuel hf _ (by simp only [loopFuel]; split <;> omega) _ (fun s => by simp [Rep.again]) st0 h0)
  case maxTime =>
    intro id c m w w1 t0 tr s s' w' h1 hi h hs ih
    obtain ⟨f0, ih⟩ := ih
    refine ⟨f0, fun fuel hf st hw => ?_⟩
    have hne := C08_no_pop_from_empty (E := E) (fuel := fuel) (.deco (.maxTime m) id c) st
    rw [exec] at hne ⊢
    subst hw
    refine execute_returns (E := E) (.deco _) (fun st0 h0 => ?_) hne
    rw [← h1] at h0
    have e : st0.start id = some t0 := by rw [← h0] at hi; exact hi
    have eu : st0.user = w1.user := congrArg Memory.user h0
    obtain ⟨st1, h2, h3⟩ := ih fuel hf { st0 with user := (E.now st0.user).2 } (by rw [eu, ← h0]; rfl)
    refine ⟨st1, ?_, h3⟩
    rw [hs, ← eu]
    simp only [decoTick, e, h2]
    split <;> rfl
  case emptyDeco =>
    intro k id w
    refine ⟨0, fun fuel hf st hw => ?_⟩
    have hne := C08_no_pop_from_empty (E := E) (fuel := fuel) (.emptyDeco (L := L) k id) st
    rw [exec] at hne ⊢
    subst hw
    exact execute_returns (E := E) (.deco _) (fun st0 h0 => ⟨st0, rfl, h0⟩) hne
  case sdone => intro w; exact ⟨0, fun fuel _ self tmp st hw => ⟨_, rfl, hw⟩⟩
  case sstop =>
    intro c cs w tr s w' h hs ih
    obtain ⟨f0, ih⟩ := ih
    refine ⟨f0, fun fuel hf self tmp st hw => ?_⟩
    obtain ⟨st1, h1, h2⟩ := ih fuel hf st hw
    simp only [execs, seqTick, h1, if_neg hs]
    exact ⟨_, rfl, h2⟩
  case snext =>
    intro c cs w tr w1 tr' s w' h hn ih ihn
    obtain ⟨f0, ih⟩ := ih; obtain ⟨f1, ihn⟩ := ihn
    refine ⟨f0 + f1, fun fuel hf self tmp st hw => ?_⟩
    obtain ⟨st1, h1, h2⟩ := ih fuel (by omega) st hw
    simp only [execs, seqTick, h1, if_true]
    exact ihn fuel (by omega) self _ st1 h2
  case pdone => intro w; exact ⟨0, fun fuel _ self st hw => ⟨_, rfl, hw⟩⟩
  case pstop =>
    intro c cs w tr s w' h hs ih
    obtain ⟨f0, ih⟩ := ih
    refine ⟨f0, fun fuel hf self st hw => ?_⟩
    obtain ⟨st1, h1, h2⟩ := ih fuel hf st hw
    simp only [execs, priTick, h1, if_neg hs]
    exact ⟨_, rfl, h2⟩
  case pnext =>
    intro c cs w tr w1 tr' s w' h hn ih ihn
    obtain ⟨f0, ih⟩ := ih; obtain ⟨f1, ihn⟩ := ihn
    refine ⟨f0 + f1, fun fuel hf self st hw => ?_⟩
    obtain ⟨st1, h1, h2⟩ := ih fuel (by omega) st hw
    simp only [execs, priTick, h1, if_true]
    exact ihn fuel (by omega) self { st1 with cost := upd st1.cost self (st1.cost self + st1.cost c.id) } h2
  case adone => intro w; exact ⟨0, fun fuel _ self acc st hw => ⟨st, by simp [execs, orTick], hw⟩⟩
  case anext =>
    intro c cs w tr s w1 tr' ss w' h hn ih ihn
    obtain ⟨f0, ih⟩ := ih; obtain ⟨f1, ihn⟩ := ihn
    refine ⟨f0 + f1, fun fuel hf self acc st hw => ?_⟩
    obtain ⟨st1, h1, h2⟩ := ih fuel (by omega) st hw
    obtain ⟨st2, h3, h4⟩ := ihn fuel (by omega) self (if s = .failure then acc else .success)
      { st1 with cost := upd st1.cost self (st1.cost self + st1.cost c.id) } h2
    refine ⟨st2, ?_, h4⟩
    simp only [execs, orTick, h1, h3]
    by_cases hs : s = .failure
    · simp [hs]
    · simp [hs]
  case full =>
    intro r c m last i w h1 h2
    refine ⟨0, fun fuel _ n _ cont _ st hw => ⟨st, ?_, hw⟩⟩
    rw [whileLoop.eq_def]
    simp only [if_neg (by omega : ¬ (m < 0 ∨ i < m))]
  case quit =>
    intro r c m last i w tr s w' hg h hs ih
    obtain ⟨f0, ih⟩ := ih
    refine ⟨f0 + 1, fun fuel hf n hn cont hcont st hw => ?_⟩
    obtain ⟨st1, h1, h2⟩ := ih fuel (by omega) st hw
    refine ⟨st1, ?_, h2⟩
    obtain ⟨n', rfl⟩ : ∃ n', n = n' + 1 := ⟨n - 1, by split at hn <;> omega⟩
    have hc : ¬ cont s = true := fun x => hs ((hcont s).1 x)
    rw [whileLoop.eq_def]
    simp only [if_pos hg, h1, if_neg hc]
  case again =>
    intro r c m last i w tr s w1 tr' x i' w' hg h hs hn ih ihn
    obtain ⟨f0, ih⟩ := ih; obtain ⟨f1, ihn⟩ := ihn
    refine ⟨f0 + f1 + 1, fun fuel hf n hn cont hcont st hw => ?_⟩
    obtain ⟨st1, h1, h2⟩ := ih fuel (by omega) st hw
    obtain ⟨n', rfl⟩ : ∃ n', n = n' + 1 := ⟨n - 1, by split at hn <;> omega⟩
    have hc : cont s = true := (hcont s).2 hs
    rw [whileLoop.eq_def]
    simp only [if_pos hg, h1, if_pos hc]
    exact ihn fuel (by omega) n' (by split at hn <;> split <;> omega) cont hcont st1 h2

/-- C08: the rules and the engine agree, for all trees, leaves, clocks and states: one execution of the tree from a state returns the status `s` and leaves
the memory `w'` (for all fuel that is large enough: it matters only for repeaters without a bound) iff the rules say so. -/
theorem C08_rules_iff_engine (t : Tree L) (st : St σ) (s : Status) (w' : Memory σ) :
    (∃ tr, Run E t st.mem tr s w') ↔ ∃ f0, ∀ fuel, f0 ≤ fuel → ∃ st', exec E fuel t st = .ok (s, st') ∧ st'.mem = w' := by
  constructor
  · rintro ⟨tr, h⟩
    obtain ⟨f0, h0⟩ := run_executed h
    exact ⟨f0, fun fuel hf => h0 fuel hf st rfl⟩
  · rintro ⟨f0, h0⟩
    obtain ⟨st', h1, rfl⟩ := h0 f0 (Nat.le_refl _)
    obtain ⟨tr, hr, _⟩ := follows_exec E f0 t _ _ _ h1
    exact ⟨tr, hr⟩

/-- The slow tree of the example above, second tick: a state in which node 3 is open, and its execution. -/
example : ∃ tr w', Run scriptEnv slowTree ({ user := 1, isOpen := fun i => i = 3 } : St Nat).mem tr .success w' := by
  obtain ⟨st', h, _⟩ := ran (fun _ => ()) (r := exec scriptEnv 0 slowTree { user := 1, isOpen := fun i => i = 3 }) (s := .success) (a := ())
    (by decide +kernel)
  obtain ⟨tr, hr, _⟩ := follows_exec scriptEnv 0 slowTree _ _ _ h
  exact ⟨tr, _, hr⟩

end Verif.BT
