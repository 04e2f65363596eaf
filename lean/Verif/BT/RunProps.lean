import Verif.BT.RunSpec
import Verif.BT.LogProps
/-!
# The engine does what the rules say, RUNNING included

Soundness of `exec` with respect to `Run` for all trees, leaves and states, with the exact statistics and log of the trace; `Run` is
deterministic. Used for C08 and C81.
-/
namespace Verif.BT
variable {σ L : Type}

theorem Tallies.same {st st' : St σ} (h1 : st'.count = st.count) (h2 : st'.ticksAll = st.ticksAll) (h3 : st'.nSuccess = st.nSuccess)
    (h4 : st'.log = st.log) : Tallies st [] st' := ⟨by simp [h1], fun j => by simp [h2], fun j => by simp [h3], by simp [h4]⟩

theorem Tallies.trans {st st1 st2 : St σ} {tr tr' : List Ev} (h : Tallies st tr st1) (h' : Tallies st1 tr' st2) :
    Tallies st (tr ++ tr') st2 := by
  refine ⟨?_, fun j => ?_, fun j => ?_, ?_⟩
  · rw [h'.count, h.count, List.length_append]; omega
  · rw [h'.ticks, h.ticks, List.countP_append]; omega
  · rw [h'.succ, h.succ, List.count_append]; omega
  · rw [h'.log, h.log]; simp

theorem Tallies.after {st st1 st2 : St σ} {tr : List Ev} (h : Tallies st tr st1) (h1 : st2.count = st1.count)
    (h2 : st2.ticksAll = st1.ticksAll) (h3 : st2.nSuccess = st1.nSuccess) (h4 : st2.log = st1.log) : Tallies st tr st2 := by
  have := h.trans (Tallies.same h1 h2 h3 h4); rwa [List.append_nil] at this

theorem Tallies.before {st st1 st2 : St σ} {tr : List Ev} (h : Tallies st1 tr st2) (h1 : st1.count = st.count)
    (h2 : st1.ticksAll = st.ticksAll) (h3 : st1.nSuccess = st.nSuccess) (h4 : st1.log = st.log) : Tallies st tr st2 :=
  (Tallies.same h1 h2 h3 h4).trans h

/-- which hook a node has -/
inductive HookOf (E : Env σ L) (id : Id) : (St σ → St σ) → Option DKind → Prop
  | plain : HookOf E id (fun st => st) none
  | deco (k : DKind) : HookOf E id (openHook E k id) (some k)

theorem HookOf.mem {E : Env σ L} {id : Id} {hook : St σ → St σ} {k : Option DKind} (h : HookOf E id hook k) (st : St σ) :
    (hook st).mem = Memory.init E k id st.mem ∧ (hook st).count = st.count ∧ (hook st).ticksAll = st.ticksAll ∧
    (hook st).nSuccess = st.nSuccess ∧ (hook st).log = st.log := by
  cases h with
  | plain => exact ⟨rfl, rfl, rfl, rfl, rfl⟩
  | deco k => cases k <;> exact ⟨rfl, rfl, rfl, rfl, rfl⟩

/-- `_execute` -/
theorem run_execute {E : Env σ L} {id : Id} {hook : St σ → St σ} {k : Option DKind} (hk : HookOf E id hook k) {body : St σ → Res σ}
    {st : St σ} {s : Status} {st' : St σ} (h : execute id hook body st = .ok (s, st')) :
    ∃ st0 st1, body st0 = .ok (s, st1) ∧ st0.mem = st.mem.opened E k id ∧ st'.mem = st1.mem.ended id s ∧
      ∀ tr, Tallies st0 tr st1 → Tallies st (tr ++ [(id, s)]) st' := by
  unfold execute at h
  cases hb : body (countTick id (openIfClosed id hook (enter id st))) with
  | error c => rw [hb] at h; cases h
  | ok p =>
    obtain ⟨s1, st1⟩ := p
    rw [hb] at h; simp only at h
    cases hc : closeIfDone id s1 (afterTick id s1 st1) with
    | error c => rw [hc] at h; cases h
    | ok st2 =>
      rw [hc] at h
      simp only [Except.ok.injEq, Prod.mk.injEq] at h
      obtain ⟨rfl, rfl⟩ := h
      refine ⟨_, st1, hb, ?_, ?_, fun tr hC => ?_⟩
      · show (openIfClosed id hook (enter id st)).mem = _
        unfold openIfClosed Memory.opened
        have e : (enter id st).isOpen id = st.mem.isOpen id := rfl
        rw [e]
        split
        · rfl
        · exact (hk.mem _).1
      · have ha : (afterTick id s1 st1).mem = st1.mem := by cases s1 <;> rfl
        unfold closeIfDone at hc
        unfold Memory.ended
        split at hc
        · cases hc; rename_i h; rw [if_pos h, ha]
        · rename_i h; rw [if_neg h]
          split at hc
          · cases hc
          · cases hc
            rw [← ha]; rfl
      · -- the statistics
        have h0 : (openIfClosed id hook (enter id st)).count = st.count + 1 ∧
            (openIfClosed id hook (enter id st)).ticksAll = st.ticksAll ∧
            (openIfClosed id hook (enter id st)).nSuccess = st.nSuccess ∧ (openIfClosed id hook (enter id st)).log = st.log := by
          unfold openIfClosed
          split
          · exact ⟨rfl, rfl, rfl, rfl⟩
          · exact (hk.mem _).2
        have h2 : st2.count = (afterTick id s1 st1).count ∧ st2.ticksAll = (afterTick id s1 st1).ticksAll ∧
            st2.nSuccess = (afterTick id s1 st1).nSuccess ∧ st2.log = (afterTick id s1 st1).log := by
          unfold closeIfDone at hc
          split at hc
          · cases hc; exact ⟨rfl, rfl, rfl, rfl⟩
          · split at hc
            · cases hc
            · cases hc; exact ⟨rfl, rfl, rfl, rfl⟩
        have ht := hC.ticks
        have hs := hC.succ
        have hn := hC.count
        have hl := hC.log
        simp only [countTick, upd, h0.1, h0.2.1, h0.2.2.1, h0.2.2.2] at ht hs hn hl
        refine ⟨?_, fun j => ?_, fun j => ?_, ?_⟩
        · rw [h2.1]
          have : (afterTick id s1 st1).count = st1.count := by cases s1 <;> rfl
          rw [this, hn, List.length_append]; simp; omega
        · rw [h2.2.1]
          have : (afterTick id s1 st1).ticksAll = st1.ticksAll := by cases s1 <;> rfl
          rw [this, ht, List.countP_append]
          by_cases hj : j = id
          · subst hj; simp; omega
          · have : ¬ id = j := fun x => hj x.symm
            simp [hj, this]
        · rw [h2.2.2.1, List.count_append]
          cases s1 with
          | success =>
            show upd st1.nSuccess id _ j = _
            simp only [upd]
            by_cases hj : j = id
            · subst hj; rw [if_pos rfl, hs]; simp; omega
            · have : ¬ id = j := fun x => hj x.symm
              rw [if_neg hj, hs]
              have : List.count (j, Status.success) [(id, Status.success)] = 0 := by
                rw [List.count_eq_zero]; simp [hj]
              omega
          | _ =>
            show st1.nSuccess j = _
            rw [hs]
            simp
        · rw [h2.2.2.2]
          cases s1 with
          | success => show (Status.success, id) :: st1.log = _; rw [hl]; simp
          | failure => show (Status.failure, id) :: st1.log = _; rw [hl]; simp
          | _ => show st1.log = _; rw [hl]; simp

/-- the induction statement: every execution follows the rules -/
def Follows (E : Env σ L) (c : Tree L) (run : St σ → Res σ) : Prop :=
  ∀ st s st', run st = .ok (s, st') → ∃ tr, Run E c st.mem tr s st'.mem ∧ Tallies st tr st'

/-- children and their trees -/
inductive FollowsAll (E : Env σ L) : List (Tree L) → List (Child σ) → Prop
  | nil : FollowsAll E [] []
  | cons {t : Tree L} {ts : List (Tree L)} {c : Child σ} {cs : List (Child σ)} : Follows E t c.run → FollowsAll E ts cs → FollowsAll E (t :: ts) (c :: cs)

theorem follows_seq {E : Env σ L} (self : Id) : ∀ {ts : List (Tree L)} {cs : List (Child σ)}, FollowsAll E ts cs → ∀ tmp st s st',
    seqTick self cs tmp st = .ok (s, st') → ∃ tr, RunSeq E ts st.mem tr s st'.mem ∧ Tallies st tr st'
  | _, _, .nil, tmp, st, s, st', h => by
    simp only [seqTick, Except.ok.injEq, Prod.mk.injEq] at h
    obtain ⟨rfl, rfl⟩ := h
    exact ⟨[], .done, .same rfl rfl rfl rfl⟩
  | _, _, .cons (c := c) (cs := cs) hc hcs, tmp, st, s, st', h => by
    simp only [seqTick] at h
    cases hr : c.run st with
    | error e => rw [hr] at h; cases h
    | ok p =>
      obtain ⟨s1, st1⟩ := p
      rw [hr] at h; simp only at h
      obtain ⟨tr, h1, h2⟩ := hc _ _ _ hr
      split at h
      · rename_i hs; subst hs
        obtain ⟨tr', h3, h4⟩ := follows_seq self hcs _ _ _ _ h
        exact ⟨_, .next h1 h3, h2.trans h4⟩
      · rename_i hs
        simp only [Except.ok.injEq, Prod.mk.injEq] at h
        obtain ⟨rfl, rfl⟩ := h
        exact ⟨tr, .stop h1 hs, h2.after rfl rfl rfl rfl⟩

theorem follows_pri {E : Env σ L} (self : Id) : ∀ {ts : List (Tree L)} {cs : List (Child σ)}, FollowsAll E ts cs → ∀ st s st',
    priTick self cs st = .ok (s, st') → ∃ tr, RunPri E ts st.mem tr s st'.mem ∧ Tallies st tr st'
  | _, _, .nil, st, s, st', h => by
    simp only [priTick, Except.ok.injEq, Prod.mk.injEq] at h
    obtain ⟨rfl, rfl⟩ := h
    exact ⟨[], .done, .same rfl rfl rfl rfl⟩
  | _, _, .cons (c := c) (cs := cs) hc hcs, st, s, st', h => by
    simp only [priTick] at h
    cases hr : c.run st with
    | error e => rw [hr] at h; cases h
    | ok p =>
      obtain ⟨s1, st1⟩ := p
      rw [hr] at h; simp only at h
      obtain ⟨tr, h1, h2⟩ := hc _ _ _ hr
      split at h
      · rename_i hs; subst hs
        obtain ⟨tr', h3, h4⟩ := follows_pri self hcs _ _ _ h
        exact ⟨_, .next h1 h3, h2.trans (h4.before rfl rfl rfl rfl)⟩
      · rename_i hs
        simp only [Except.ok.injEq, Prod.mk.injEq] at h
        obtain ⟨rfl, rfl⟩ := h
        exact ⟨tr, .stop h1 hs, h2.after rfl rfl rfl rfl⟩

theorem follows_or {E : Env σ L} (self : Id) : ∀ {ts : List (Tree L)} {cs : List (Child σ)}, FollowsAll E ts cs → ∀ acc st s st',
    orTick self cs acc st = .ok (s, st') → ∃ tr ss, RunAll E ts st.mem tr ss st'.mem ∧ Tallies st tr st' ∧
      s = (if ∃ x ∈ ss, x ≠ Status.failure then .success else acc)
  | _, _, .nil, acc, st, s, st', h => by
    simp only [orTick, Except.ok.injEq, Prod.mk.injEq] at h
    obtain ⟨rfl, rfl⟩ := h
    exact ⟨[], [], .done, .same rfl rfl rfl rfl, by simp⟩
  | _, _, .cons (c := c) (cs := cs) hc hcs, acc, st, s, st', h => by
    simp only [orTick] at h
    cases hr : c.run st with
    | error e => rw [hr] at h; cases h
    | ok p =>
      obtain ⟨s1, st1⟩ := p
      rw [hr] at h; simp only at h
      obtain ⟨tr, h1, h2⟩ := hc _ _ _ hr
      obtain ⟨tr', ss, h3, h4, h5⟩ := follows_or self hcs _ _ _ _ h
      refine ⟨_, s1 :: ss, .next h1 h3, h2.trans (h4.before rfl rfl rfl rfl), ?_⟩
      rw [h5]
      by_cases hs : s1 = .failure
      · simp [hs]
      · simp [hs]

theorem follows_loop {E : Env σ L} {c : Tree L} {run : St σ → Res σ} (hc : Follows E c run) {r : Rep} {cont : Status → Bool}
    (hr : ∀ s, cont s = true ↔ r.again s) (m : Int) : ∀ fuel last i st x i' st',
    whileLoop cont m run fuel last i st = .ok (x, i', st') →
      ∃ tr, RunLoop E r c m last i st.mem tr x i' st'.mem ∧ Tallies st tr st' := by
  intro fuel
  induction fuel with
  | zero =>
    intro last i st x i' st' h
    rw [whileLoop.eq_def] at h
    simp only at h
    split at h
    · cases h
    · rename_i hg
      simp only [Except.ok.injEq, Prod.mk.injEq] at h
      obtain ⟨rfl, rfl, rfl⟩ := h
      exact ⟨[], .full (by omega) (by omega), .same rfl rfl rfl rfl⟩
  | succ fuel ih =>
    intro last i st x i' st' h
    rw [whileLoop.eq_def] at h
    simp only at h
    split at h
    · rename_i hg
      cases hx : run st with
      | error e => rw [hx] at h; cases h
      | ok p =>
        obtain ⟨s1, st1⟩ := p
        rw [hx] at h; simp only at h
        obtain ⟨tr, h1, h2⟩ := hc _ _ _ hx
        split at h
        · rename_i hs
          obtain ⟨tr', h3, h4⟩ := ih _ _ _ _ _ _ h
          exact ⟨_, .again hg h1 ((hr _).1 hs) h3, h2.trans h4⟩
        · rename_i hs
          simp only [Except.ok.injEq, Prod.mk.injEq] at h
          obtain ⟨rfl, rfl, rfl⟩ := h
          exact ⟨tr, .quit hg h1 fun x => hs ((hr _).2 x), h2⟩
    · rename_i hg
      simp only [Except.ok.injEq, Prod.mk.injEq] at h
      obtain ⟨rfl, rfl, rfl⟩ := h
      exact ⟨[], .full (by omega) (by omega), .same rfl rfl rfl rfl⟩

theorem follows_repeat {E : Env σ L} {c : Tree L} {run : St σ → Res σ} (hc : Follows E c run) {r : Rep} {cont : Status → Bool}
    (hr : ∀ s, cont s = true ↔ r.again s) {m : Int} {init : Option Status} {fuel : Nat} {self : Id} {st : St σ} {s : Status} {st' : St σ}
    (h : repeatTick cont init fuel m self run st = .ok (s, st')) :
    ∃ i tr i' w', st.mem.cnt self = some i ∧ RunLoop E r c m init i st.mem tr (some s) i' w' ∧
      st'.mem = { w' with cnt := upd w'.cnt self (some i') } ∧ Tallies st tr st' := by
  unfold repeatTick at h
  cases hi : st.cnt self with
  | none => rw [hi] at h; cases h
  | some i =>
    rw [hi] at h; simp only at h
    cases hl : whileLoop cont m run (loopFuel fuel m i) init i st with
    | error e => rw [hl] at h; cases h
    | ok p =>
      obtain ⟨x, i', st1⟩ := p
      rw [hl] at h; simp only at h
      obtain ⟨tr, h1, h2⟩ := follows_loop hc hr m _ _ _ _ _ _ _ hl
      cases x with
      | none => cases h
      | some y =>
        simp only [Except.ok.injEq, Prod.mk.injEq] at h
        obtain ⟨rfl, rfl⟩ := h
        exact ⟨i, tr, i', _, hi, h1, rfl, h2.after rfl rfl rfl rfl⟩

mutual
theorem follows_exec (E : Env σ L) (fuel : Nat) : ∀ t : Tree L, Follows E t (exec E fuel t)
  | .leaf id a => fun st s st' h => by
    rw [exec] at h
    obtain ⟨st0, st1, hb, h0, h1, h2⟩ := run_execute (E := E) .plain h
    cases ha : E.act a st0.user with
    | error c => simp only [ha] at hb; cases hb
    | ok p =>
      obtain ⟨s1, u⟩ := p
      simp only [ha, Except.ok.injEq, Prod.mk.injEq] at hb
      obtain ⟨rfl, rfl⟩ := hb
      refine ⟨[(id, s1)], ?_, h2 [] (.same rfl rfl rfl rfl)⟩
      have e0 : st0.user = (st.mem.opened E none id).user := congrArg Memory.user h0
      rw [e0] at ha
      rw [h1]
      have := Run.leaf (id := id) (w := st.mem) ha
      rw [← h0] at this
      exact this
  | .comp k id cs => fun st s st' h => by
    rw [exec] at h
    obtain ⟨st0, st1, hb, h0, h1, h2⟩ := run_execute (E := E) .plain h
    have hcs := follows_execs E fuel cs
    cases k with
    | sequence =>
      obtain ⟨tr, h3, h4⟩ := follows_seq id hcs _ _ _ _ hb
      rw [h0] at h3
      exact ⟨_, h1 ▸ .sequence h3, h2 _ h4⟩
    | priority =>
      obtain ⟨tr, h3, h4⟩ := follows_pri id hcs _ _ _ hb
      have h3 : RunPri E cs st0.mem tr s st1.mem := h3
      rw [h0] at h3
      exact ⟨_, by rw [h1]; exact .priority h3, h2 _ (h4.before rfl rfl rfl rfl)⟩
    | orNode =>
      obtain ⟨tr, ss, h3, h4, h5⟩ := follows_or id hcs _ _ _ _ hb
      have h3 : RunAll E cs st0.mem tr ss st1.mem := h3
      rw [h0] at h3
      exact ⟨_, by rw [h1]; exact .orNode h3 h5, h2 _ (h4.before rfl rfl rfl rfl)⟩
    | memSequence => cases hb
    | memPriority => cases hb
  | .deco k id c => fun st s st' h => by
    rw [exec] at h
    obtain ⟨st0, st1, hb, h0, h1, h2⟩ := run_execute (E := E) (.deco k) h
    have hc := follows_exec E fuel c
    cases k with
    | inverter =>
      simp only [decoTick] at hb
      cases hx : exec E fuel c st0 with
      | error e => rw [hx] at hb; cases hb
      | ok p =>
        obtain ⟨s1, st2⟩ := p
        rw [hx] at hb
        simp only [Except.ok.injEq, Prod.mk.injEq] at hb
        obtain ⟨hs, rfl⟩ := hb
        obtain ⟨tr, h3, h4⟩ := hc _ _ _ hx
        rw [h0] at h3
        exact ⟨_, h1 ▸ .inverter h3 (by rw [← hs]; cases s1 <;> rfl), h2 _ h4⟩
    | limiter m =>
      simp only [decoTick] at hb
      cases hi : st0.cnt id with
      | none => rw [hi] at hb; cases hb
      | some i =>
        rw [hi] at hb; simp only at hb
        have hi' : (st.mem.opened E (some (.limiter m)) id).cnt id = some i := by rw [← h0]; exact hi
        split at hb
        · rename_i him
          cases hx : exec E fuel c st0 with
          | error e => rw [hx] at hb; cases hb
          | ok p =>
            obtain ⟨s1, st2⟩ := p
            rw [hx] at hb; simp only at hb
            obtain ⟨tr, h3, h4⟩ := hc _ _ _ hx
            rw [h0] at h3
            split at hb
            · rename_i hs
              simp only [Except.ok.injEq, Prod.mk.injEq] at hb
              obtain ⟨rfl, rfl⟩ := hb
              have := Run.limiterRun hi' him h3
              rw [if_pos hs] at this
              exact ⟨_, h1 ▸ this, h2 _ (h4.after rfl rfl rfl rfl)⟩
            · rename_i hs
              simp only [Except.ok.injEq, Prod.mk.injEq] at hb
              obtain ⟨rfl, rfl⟩ := hb
              have := Run.limiterRun hi' him h3
              rw [if_neg hs] at this
              exact ⟨_, h1 ▸ this, h2 _ h4⟩
        · rename_i him
          simp only [Except.ok.injEq, Prod.mk.injEq] at hb
          obtain ⟨rfl, rfl⟩ := hb
          refine ⟨_, ?_, h2 [] (.same rfl rfl rfl rfl)⟩
          rw [h1, h0]
          exact .limiterStop hi' (by omega)
    | repeater m =>
      obtain ⟨i, tr, i', w', h3, h4, h5, h6⟩ := follows_repeat (r := .always) hc (by intro s; simp [Rep.again]) hb
      rw [h0] at h3 h4
      exact ⟨_, by rw [h1, h5]; exact .repeater h3 h4, h2 _ h6⟩
    | untilFailure m =>
      obtain ⟨i, tr, i', w', h3, h4, h5, h6⟩ := follows_repeat (r := .whileSuccess) hc (by intro s; simp [Rep.again]) hb
      rw [h0] at h3 h4
      exact ⟨_, by rw [h1, h5]; exact .untilFailure h3 h4, h2 _ h6⟩
    | untilSuccess m =>
      obtain ⟨i, tr, i', w', h3, h4, h5, h6⟩ := follows_repeat (r := .whileFailure) hc (by intro s; simp [Rep.again]) hb
      rw [h0] at h3 h4
      exact ⟨_, by rw [h1, h5]; exact .untilSuccess h3 h4, h2 _ h6⟩
    | maxTime m =>
      simp only [decoTick] at hb
      cases hi : st0.start id with
      | none => rw [hi] at hb; cases hb
      | some t0 =>
        rw [hi] at hb; simp only at hb
        cases hx : exec E fuel c { st0 with user := (E.now st0.user).2 } with
        | error e => rw [hx] at hb; cases hb
        | ok p =>
          obtain ⟨s1, st2⟩ := p
          rw [hx] at hb; simp only at hb
          obtain ⟨tr, h3, h4⟩ := hc _ _ _ hx
          have hst : st1 = st2 ∧ s = (if (E.now st0.mem.user).1 - t0 > m then .failure else s1) := by
            show st1 = st2 ∧ s = (if (E.now st0.user).1 - t0 > m then .failure else s1)
            split at hb <;> simp only [Except.ok.injEq, Prod.mk.injEq] at hb <;> rename_i hg
            · rw [if_pos hg]; exact ⟨hb.2.symm, hb.1.symm⟩
            · rw [if_neg hg]; exact ⟨hb.2.symm, hb.1.symm⟩
          obtain ⟨rfl, hs⟩ := hst
          exact ⟨_, by rw [h1]; exact .maxTime h0 (w1 := st0.mem) hi h3 hs, h2 _ (h4.before rfl rfl rfl rfl)⟩
  | .emptyDeco k id => fun st s st' h => by
    rw [exec] at h
    obtain ⟨st0, st1, hb, h0, h1, h2⟩ := run_execute (E := E) (.deco k) h
    simp only [Except.ok.injEq, Prod.mk.injEq] at hb
    obtain ⟨rfl, rfl⟩ := hb
    refine ⟨_, ?_, h2 [] (.same rfl rfl rfl rfl)⟩
    rw [h1, h0]
    exact .emptyDeco
theorem follows_execs (E : Env σ L) (fuel : Nat) : ∀ ts : List (Tree L), FollowsAll E ts (execs E fuel ts)
  | [] => .nil
  | t :: ts => by rw [execs]; exact .cons (follows_exec E fuel t) (follows_execs E fuel ts)
end

/-! ## The rules are deterministic -/

theorem det_run {E : Env σ L} {t : Tree L} {w : Memory σ} {tr : List Ev} {s : Status} {w' : Memory σ} (h : Run E t w tr s w') :
    ∀ {tr2 : List Ev} {s2 : Status} {w2 : Memory σ}, Run E t w tr2 s2 w2 → tr = tr2 ∧ s = s2 ∧ w' = w2 := by
  refine Run.rec
    (motive_1 := fun t w tr s w' _ => ∀ {tr2 s2 w2}, Run E t w tr2 s2 w2 → tr = tr2 ∧ s = s2 ∧ w' = w2)
    (motive_2 := fun t w tr s w' _ => ∀ {tr2 s2 w2}, RunSeq E t w tr2 s2 w2 → tr = tr2 ∧ s = s2 ∧ w' = w2)
    (motive_3 := fun t w tr s w' _ => ∀ {tr2 s2 w2}, RunPri E t w tr2 s2 w2 → tr = tr2 ∧ s = s2 ∧ w' = w2)
    (motive_4 := fun t w tr s w' _ => ∀ {tr2 s2 w2}, RunAll E t w tr2 s2 w2 → tr = tr2 ∧ s = s2 ∧ w' = w2)
    (motive_5 := fun r c m l i w tr x i' w' _ => ∀ {tr2 x2 i2 w2}, RunLoop E r c m l i w tr2 x2 i2 w2 →
      tr = tr2 ∧ x = x2 ∧ i' = i2 ∧ w' = w2)
    ?leaf ?sequence ?priority ?orNode ?inverter ?limiterRun ?limiterStop ?repeater ?untilFailure ?untilSuccess ?maxTime ?emptyDeco
    ?sdone ?sstop ?snext ?pdone ?pstop ?pnext ?adone ?anext ?full ?quit ?again h
  case leaf =>
    intro id a w s u h _ _ _ h'
    cases h' with | leaf g => ?_
    rw [h] at g; cases g; exact ⟨rfl, rfl, rfl⟩
  case sequence =>
    intro id cs w tr s w' h ih _ _ _ h'
    cases h' with | sequence g => ?_
    obtain ⟨rfl, rfl, rfl⟩ := ih g; exact ⟨rfl, rfl, rfl⟩
  case priority =>
    intro id cs w tr s w' h ih _ _ _ h'
    cases h' with | priority g => ?_
    obtain ⟨rfl, rfl, rfl⟩ := ih g; exact ⟨rfl, rfl, rfl⟩
  case orNode =>
    intro id cs w tr ss s w' h hs ih _ _ _ h'
    cases h' with | orNode g gs => ?_
    obtain ⟨rfl, rfl, rfl⟩ := ih g
    rw [← hs] at gs
    subst gs; exact ⟨rfl, rfl, rfl⟩
  case inverter =>
    intro id c w tr s s' w' h hs ih _ _ _ h'
    cases h' with | inverter g gs => ?_
    obtain ⟨rfl, rfl, rfl⟩ := ih g
    rw [← hs] at gs
    subst gs; exact ⟨rfl, rfl, rfl⟩
  case limiterRun =>
    intro id c m w i tr s w' hi hm h ih _ _ _ h'
    cases h' with
    | limiterRun gi gm g =>
      rw [hi] at gi; cases gi
      obtain ⟨rfl, rfl, rfl⟩ := ih g; exact ⟨rfl, rfl, rfl⟩
    | limiterStop gi gm => rw [hi] at gi; cases gi; omega
  case limiterStop =>
    intro id c m w i hi hm _ _ _ h'
    cases h' with
    | limiterRun gi gm g => rw [hi] at gi; cases gi; omega
    | limiterStop gi gm => exact ⟨rfl, rfl, rfl⟩
  case repeater =>
    intro id c m w i tr s i' w' hi h ih _ _ _ h'
    cases h' with | repeater gi g => ?_
    rw [hi] at gi; cases gi
    obtain ⟨rfl, h1, rfl, rfl⟩ := ih g; cases h1; exact ⟨rfl, rfl, rfl⟩
  case untilFailure =>
    intro id c m w i tr s i' w' hi h ih _ _ _ h'
    cases h' with | untilFailure gi g => ?_
    rw [hi] at gi; cases gi
    obtain ⟨rfl, h1, rfl, rfl⟩ := ih g; cases h1; exact ⟨rfl, rfl, rfl⟩
  case untilSuccess =>
    intro id c m w i tr s i' w' hi h ih _ _ _ h'
    cases h' with | untilSuccess gi g => ?_
    rw [hi] at gi; cases gi
    obtain ⟨rfl, h1, rfl, rfl⟩ := ih g; cases h1; exact ⟨rfl, rfl, rfl⟩
  case maxTime =>
    intro id c m w w1 t0 tr s s' w' h1 hi h hs ih _ _ _ h'
    cases h' with | maxTime g1 gi g gs => ?_
    subst h1; subst g1
    rw [hi] at gi; cases gi
    obtain ⟨rfl, rfl, rfl⟩ := ih g
    rw [← hs] at gs
    subst gs; exact ⟨rfl, rfl, rfl⟩
  case emptyDeco => intro k id w _ _ _ h'; cases h'; exact ⟨rfl, rfl, rfl⟩
  case sdone => intro w _ _ _ h'; cases h'; exact ⟨rfl, rfl, rfl⟩
  case sstop =>
    intro c cs w tr s w' h hs ih _ _ _ h'
    cases h' with
    | stop g gs => exact ih g
    | next g g' => obtain ⟨_, h1, _⟩ := ih g; exact absurd h1 hs
  case snext =>
    intro c cs w tr w1 tr' s w' h hn ih ihn _ _ _ h'
    cases h' with
    | stop g gs => obtain ⟨_, h1, _⟩ := ih g; exact absurd h1.symm gs
    | next g g' =>
      obtain ⟨rfl, _, rfl⟩ := ih g
      obtain ⟨rfl, rfl, rfl⟩ := ihn g'; exact ⟨rfl, rfl, rfl⟩
  case pdone => intro w _ _ _ h'; cases h'; exact ⟨rfl, rfl, rfl⟩
  case pstop =>
    intro c cs w tr s w' h hs ih _ _ _ h'
    cases h' with
    | stop g gs => exact ih g
    | next g g' => obtain ⟨_, h1, _⟩ := ih g; exact absurd h1 hs
  case pnext =>
    intro c cs w tr w1 tr' s w' h hn ih ihn _ _ _ h'
    cases h' with
    | stop g gs => obtain ⟨_, h1, _⟩ := ih g; exact absurd h1.symm gs
    | next g g' =>
      obtain ⟨rfl, _, rfl⟩ := ih g
      obtain ⟨rfl, rfl, rfl⟩ := ihn g'; exact ⟨rfl, rfl, rfl⟩
  case adone => intro w _ _ _ h'; cases h'; exact ⟨rfl, rfl, rfl⟩
  case anext =>
    intro c cs w tr s w1 tr' ss w' h hn ih ihn _ _ _ h'
    cases h' with
    | next g g' =>
      obtain ⟨rfl, rfl, rfl⟩ := ih g
      obtain ⟨rfl, rfl, rfl⟩ := ihn g'; exact ⟨rfl, rfl, rfl⟩
  case full =>
    intro r c m last i w h1 h2 _ _ _ _ h'
    cases h' with
    | full => exact ⟨rfl, rfl, rfl, rfl⟩
    | quit g => omega
    | again g => omega
  case quit =>
    intro r c m last i w tr s w' hg h hs ih _ _ _ _ h'
    cases h' with
    | full => omega
    | quit gg g gs => obtain ⟨rfl, rfl, rfl⟩ := ih g; exact ⟨rfl, rfl, rfl, rfl⟩
    | again gg g gs => obtain ⟨_, rfl, _⟩ := ih g; exact absurd gs hs
  case again =>
    intro r c m last i w tr s w1 tr' x i' w' hg h hs hn ih ihn _ _ _ _ h'
    cases h' with
    | full => omega
    | quit gg g gs => obtain ⟨_, rfl, _⟩ := ih g; exact absurd hs gs
    | again gg g gs gn =>
      obtain ⟨rfl, rfl, rfl⟩ := ih g
      obtain ⟨rfl, rfl, rfl, rfl⟩ := ihn gn; exact ⟨rfl, rfl, rfl, rfl⟩

theorem det_runs {E : Env σ L} {t : Tree L} {fs : List (σ → σ)} {w : Memory σ} {tr : List Ev} {ss : List Status} {w' : Memory σ}
    (h : Runs E t fs w tr ss w') : ∀ {tr2 : List Ev} {ss2 : List Status} {w2 : Memory σ}, Runs E t fs w tr2 ss2 w2 →
      tr = tr2 ∧ ss = ss2 ∧ w' = w2 := by
  induction h with
  | nil => intro _ _ _ h'; cases h'; exact ⟨rfl, rfl, rfl⟩
  | cons h _ ih =>
    intro _ _ _ h'
    cases h' with | cons g gn => ?_
    obtain ⟨rfl, rfl, rfl⟩ := det_run h g
    obtain ⟨rfl, rfl, rfl⟩ := ih gn; exact ⟨rfl, rfl, rfl⟩

end Verif.BT
