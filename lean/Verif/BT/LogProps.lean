import Verif.BT.LogModel
import Verif.BT.Props

/-!
# C81: the node log

The log file lists, in the order in which they ended, the node executions that ended in SUCCESS (`log_flag` 1) or
in SUCCESS or FAILURE (`log_flag` 2); it does so also up to an exception; and keeping the log changes
nothing else.  Without a file the first line aborts the tick.
-/

namespace Verif.BT

variable {σ L : Type}

/-! ## Specification -/

/-- The lines for node results `evs` (node, status), in their order: with flag 1 those of the SUCCESSes, with
flag 2 also those of the FAILUREs. -/
def logLines (flag : Int) (name : Id → String) (evs : List Ev) : List String :=
  (evs.filter fun e => (e.2 = .success ∧ 1 ≤ flag) ∨ (e.2 = .failure ∧ 2 ≤ flag)).map fun e =>
    (if e.2 = .success then "S " else "F ") ++ name e.1 ++ "\n"

/-- The outcome of a run without a log, as the outcome of a run with one. -/
def plainOutcome {α : Type} : Except Crash α → Except LCrash α
  | .ok a => .ok a
  | .error c => .error (.engine c)

/-! ## The run with a log against the run without -/

/-- (proof) `w` behaves as `r`, and its lines are those of the results that `r` adds. -/
def Sim {β : Type} (π : β → St σ) (lg : Logger) (st : St σ) (w : Logged β) (r : Except Crash β) : Prop :=
  match r with
  | .error c => w.2 = .error (.engine c)
  | .ok b => w.2 = .ok b ∧ ∃ evs : List Ev, (π b).log = (evs.map fun e => (e.2, e.1)).reverse ++ st.log ∧
      (∀ e ∈ evs, e.2 = .success ∨ e.2 = .failure) ∧ w.1 = logLines lg.flag lg.name evs

theorem logLines_append (f : Int) (n : Id → String) (a b : List Ev) :
    logLines f n (a ++ b) = logLines f n a ++ logLines f n b := by simp [logLines]

section sim
variable {α β : Type} {π : α → St σ} {π' : β → St σ} {lg : Logger} {st : St σ}

theorem Sim.ret (b : β) (h : (π' b).log = st.log) : Sim π' lg st (.ret b) (.ok b) :=
  ⟨rfl, [], by simp [h], by simp, rfl⟩

theorem Sim.fail (c : Crash) : Sim π' lg st (.fail c) (.error c) := rfl

theorem Sim.err {w : Logged α} {c : Crash} {k : α → Logged β} (h : Sim π lg st w (.error c)) :
    Sim π' lg st (w.bind k) (.error c) := by
  simp only [Sim] at h
  simp [Sim, Logged.bind, h]

theorem Sim.ok {w : Logged α} {a : α} {k : α → Logged β} {r : Except Crash β}
    (h : Sim π lg st w (.ok a)) (hk : Sim π' lg (π a) (k a) r) : Sim π' lg st (w.bind k) r := by
  obtain ⟨h2, evs, he, hm, hl⟩ := h
  cases r with
  | error c => simp only [Sim] at hk; simp [Sim, Logged.bind, h2, hk]
  | ok b =>
    obtain ⟨k2, evs', ke, km, kl⟩ := hk
    refine ⟨by simp [Logged.bind, h2, k2], evs ++ evs', by simp [ke, he], ?_, ?_⟩
    · intro e h; rcases List.mem_append.1 h with h | h
      · exact hm e h
      · exact km e h
    · simp [Logged.bind, h2, kl, hl, logLines_append]

theorem Sim.from {st0 : St σ} {w : Logged β} {r : Except Crash β} (h : Sim π' lg st0 w r)
    (hs : st0.log = st.log) : Sim π' lg st w r := by
  cases r with
  | error c => exact h
  | ok b => obtain ⟨a, e, b, c⟩ := h; exact ⟨a, e, by rw [b, hs], c⟩
end sim

/-- (proof) `Sim` for the executions of one node. -/
def SimRun (lg : Logger) (f : St σ → Logged (Status × St σ)) (g : St σ → Res σ) : Prop :=
  ∀ st, Sim (fun p => p.2) lg st (f st) (g st)

/-- (proof) `Sim` for lists of children. -/
inductive SimRuns (lg : Logger) : List (LChild σ) → List (Child σ) → Prop
  | nil : SimRuns lg [] []
  | cons {i f g cs ds} : SimRun lg f g → SimRuns lg cs ds → SimRuns lg (⟨i, f⟩ :: cs) (⟨i, g⟩ :: ds)

section
variable {lg : Logger} (hw : lg.file = true ∨ lg.flag ≤ 0)

include hw in
theorem sim_result (id : Id) (s : Status) (st : St σ) :
    Sim (fun _ => afterTick id s st) lg st (lg.result id s) (.ok ()) := by
  cases s with
  | success =>
    refine ⟨?_, [(id, .success)], by simp [afterTick], by simp, ?_⟩
    · simp only [Logger.result, Logger.write, Logged.ret]; repeat' split
      all_goals first | rfl | (rcases hw with h | h <;> simp_all; omega)
    · simp only [Logger.result, Logger.write, Logged.ret, logLines]
      by_cases h : lg.flag > 0
      · have h1 : 1 ≤ lg.flag := by omega
        rcases hw with hf | hf
        · simp [h, h1, hf]
        · omega
      · have h1 : ¬ 1 ≤ lg.flag := by omega
        simp [h, h1]
  | failure =>
    refine ⟨?_, [(id, .failure)], by simp [afterTick], by simp, ?_⟩
    · simp only [Logger.result, Logger.write, Logged.ret]; repeat' split
      all_goals first | rfl | (rcases hw with h | h <;> simp_all; omega)
    · simp only [Logger.result, Logger.write, Logged.ret, logLines]
      by_cases h : lg.flag > 1
      · have h1 : 2 ≤ lg.flag := by omega
        rcases hw with hf | hf
        · simp [h, h1, hf]
        · omega
      · have h1 : ¬ 2 ≤ lg.flag := by omega
        simp [h, h1]
  | running => exact ⟨rfl, [], by simp [afterTick], by simp, rfl⟩
  | error => exact ⟨rfl, [], by simp [afterTick], by simp, rfl⟩

theorem hook_log (E : Env σ L) (k : DKind) (id : Id) (st : St σ) : (openHook E k id st).log = st.log := by
  cases k <;> rfl

include hw in
theorem sim_execute {id : Id} {hook : St σ → St σ} (hh : ∀ st, (hook st).log = st.log)
    {f : St σ → Logged (Status × St σ)} {g : St σ → Res σ} (h : SimRun lg f g) :
    SimRun lg (lexecute lg id hook f) (execute id hook g) := by
  intro st
  have hs : (countTick id (openIfClosed id hook (enter id st))).log = st.log := by
    simp only [countTick, openIfClosed]; split
    · rfl
    · rw [hh]; rfl
  have h1 := (h (countTick id (openIfClosed id hook (enter id st)))).from hs
  simp only [lexecute, execute]
  cases hb : g (countTick id (openIfClosed id hook (enter id st))) with
  | error c => rw [hb] at h1; exact h1.err
  | ok p =>
    obtain ⟨s, st1⟩ := p
    rw [hb] at h1
    refine h1.ok ?_
    refine (sim_result hw id s st1).ok ?_
    simp only
    cases hc : closeIfDone id s (afterTick id s st1) with
    | error c => exact .fail c
    | ok st2 =>
      refine .ret _ ?_
      simp only [closeIfDone] at hc
      split at hc
      · cases hc; rfl
      · split at hc
        · cases hc
        · cases hc; rfl

theorem sim_seq (self : Id) : ∀ {cs : List (LChild σ)} {ds : List (Child σ)}, SimRuns lg cs ds → ∀ tmp st,
    Sim (fun p => p.2) lg st (lseqTick self cs tmp st) (seqTick self ds tmp st) := by
  intro cs ds h
  induction h with
  | nil => intro tmp st; exact .ret _ rfl
  | @cons i f g cs ds hf _ ih =>
    intro tmp st
    simp only [lseqTick, seqTick]
    have h1 := hf st
    cases hb : g st with
    | error c => rw [hb] at h1; exact h1.err
    | ok p =>
      rw [hb] at h1; refine h1.ok ?_
      simp only
      split
      · exact ih _ _
      · exact .ret _ rfl

theorem sim_pri (self : Id) : ∀ {cs : List (LChild σ)} {ds : List (Child σ)}, SimRuns lg cs ds → ∀ st,
    Sim (fun p => p.2) lg st (lpriTick self cs st) (priTick self ds st) := by
  intro cs ds h
  induction h with
  | nil => intro st; exact .ret _ rfl
  | @cons i f g cs ds hf _ ih =>
    intro st
    simp only [lpriTick, priTick]
    have h1 := hf st
    cases hb : g st with
    | error c => rw [hb] at h1; exact h1.err
    | ok p =>
      rw [hb] at h1; refine h1.ok ?_
      simp only
      split
      · exact (ih _).from rfl
      · exact .ret _ rfl

theorem sim_or (self : Id) : ∀ {cs : List (LChild σ)} {ds : List (Child σ)}, SimRuns lg cs ds → ∀ acc st,
    Sim (fun p => p.2) lg st (lorTick self cs acc st) (orTick self ds acc st) := by
  intro cs ds h
  induction h with
  | nil => intro acc st; exact .ret _ rfl
  | @cons i f g cs ds hf _ ih =>
    intro acc st
    simp only [lorTick, orTick]
    have h1 := hf st
    cases hb : g st with
    | error c => rw [hb] at h1; exact h1.err
    | ok p => rw [hb] at h1; exact h1.ok ((ih _ _).from rfl)

theorem sim_loop {f : St σ → Logged (Status × St σ)} {g : St σ → Res σ} (h : SimRun lg f g)
    (cont : Status → Bool) (m : Int) : ∀ fuel last i st,
    Sim (fun p => p.2.2) lg st (lwhileLoop cont m f fuel last i st) (whileLoop cont m g fuel last i st) := by
  intro fuel
  induction fuel with
  | zero =>
    intro last i st
    unfold lwhileLoop whileLoop
    split
    · exact .fail _
    · exact .ret _ rfl
  | succ n ih =>
    intro last i st
    unfold lwhileLoop whileLoop
    split
    · have h1 := h st
      simp only
      cases hb : g st with
      | error c => rw [hb] at h1; exact h1.err
      | ok p =>
        rw [hb] at h1; refine h1.ok ?_
        simp only
        split
        · exact ih _ _ _
        · exact .ret _ rfl
    · exact .ret _ rfl

theorem sim_repeat {f : St σ → Logged (Status × St σ)} {g : St σ → Res σ} (h : SimRun lg f g)
    (cont : Status → Bool) (init : Option Status) (fuel : Nat) (m : Int) (self : Id) :
    SimRun lg (lrepeatTick cont init fuel m self f) (repeatTick cont init fuel m self g) := by
  intro st
  simp only [lrepeatTick, repeatTick]
  cases hcnt : st.cnt self with
  | none => exact .fail _
  | some i =>
    simp only
    have h1 := sim_loop h cont m (loopFuel fuel m i) init i st
    cases hb : whileLoop cont m g (loopFuel fuel m i) init i st with
    | error c => rw [hb] at h1; exact h1.err
    | ok p =>
      rw [hb] at h1; refine h1.ok ?_
      obtain ⟨l, j, st1⟩ := p
      cases l with
      | none => exact .fail _
      | some s => exact .ret _ rfl

theorem sim_deco (E : Env σ L) (fuel : Nat) (k : DKind) (self : Id) {f : St σ → Logged (Status × St σ)}
    {g : St σ → Res σ} (h : SimRun lg f g) :
    SimRun lg (ldecoTick E fuel k self f) (decoTick E fuel k self g) := by
  intro st
  cases k with
  | inverter =>
    have h1 := h st
    simp only [ldecoTick, decoTick]
    cases hb : g st with
    | error c => rw [hb] at h1; exact h1.err
    | ok p => rw [hb] at h1; exact h1.ok (.ret _ rfl)
  | limiter m =>
    simp only [ldecoTick, decoTick]
    cases hcnt : st.cnt self with
    | none => exact .fail _
    | some i =>
      simp only
      split
      · have h1 := h st
        cases hb : g st with
        | error c => rw [hb] at h1; exact h1.err
        | ok p =>
          rw [hb] at h1; refine h1.ok ?_
          simp only
          split
          · exact .ret _ rfl
          · exact .ret _ rfl
      · exact .ret _ rfl
  | repeater m => exact sim_repeat h _ _ _ _ _ st
  | untilFailure m => exact sim_repeat h _ _ _ _ _ st
  | untilSuccess m => exact sim_repeat h _ _ _ _ _ st
  | maxTime t =>
    simp only [ldecoTick, decoTick]
    cases hcnt : st.start self with
    | none => exact .fail _
    | some t0 =>
      simp only
      have h1 := (h { st with user := (E.now st.user).2 }).from (st := st) rfl
      cases hb : g { st with user := (E.now st.user).2 } with
      | error c => rw [hb] at h1; exact h1.err
      | ok p =>
        rw [hb] at h1; refine h1.ok ?_
        simp only
        split
        · exact .ret _ rfl
        · exact .ret _ rfl

mutual
theorem sim_exec (hw : lg.file = true ∨ lg.flag ≤ 0) (E : Env σ L) (fuel : Nat) :
    ∀ t : Tree L, SimRun lg (lexec lg E fuel t) (exec E fuel t)
  | .leaf id a => by
    rw [lexec, exec]
    refine sim_execute hw (fun _ => rfl) fun st => ?_
    cases hcnt : E.act a st.user with
    | error c => simp only [hcnt]; exact .fail _
    | ok p => simp only [hcnt]; exact .ret _ rfl
  | .comp k id cs => by
    rw [lexec, exec]
    refine sim_execute hw (fun _ => rfl) fun st => ?_
    cases k with
    | sequence => exact sim_seq id (sim_execs hw E fuel cs) 0 st
    | priority => exact (sim_pri id (sim_execs hw E fuel cs) _).from rfl
    | orNode => exact (sim_or id (sim_execs hw E fuel cs) _ _).from rfl
    | memSequence => exact .fail _
    | memPriority => exact .fail _
  | .deco k id c => by
    rw [lexec, exec]
    exact sim_execute hw (hook_log E k id) (sim_deco E fuel k id (sim_exec hw E fuel c))
  | .emptyDeco k id => by
    rw [lexec, exec]
    exact sim_execute hw (hook_log E k id) fun st => .ret _ rfl
theorem sim_execs (hw : lg.file = true ∨ lg.flag ≤ 0) (E : Env σ L) (fuel : Nat) :
    ∀ cs : List (Tree L), SimRuns lg (lexecs lg E fuel cs) (execs E fuel cs)
  | [] => by rw [lexecs, execs]; exact .nil
  | c :: cs => by rw [lexecs, execs]; exact .cons (sim_exec hw E fuel c) (sim_execs hw E fuel cs)
end

theorem sim_ticks (hw : lg.file = true ∨ lg.flag ≤ 0) (E : Env σ L) (fuel : Nat) (t : Tree L) :
    ∀ ws st, Sim (fun p => p.2) lg st (lticks lg E fuel t ws st) (ticks E fuel t ws st)
  | [], st => .ret _ rfl
  | w :: ws, st => by
    simp only [lticks, ticks, ltreeTick, treeTick]
    have h1 := (sim_exec hw E fuel t { st with user := w st.user, stack := [], count := 0 }).from (st := st) rfl
    cases hb : exec E fuel t { st with user := w st.user, stack := [], count := 0 } with
    | error c => rw [hb] at h1; exact h1.err
    | ok p =>
      rw [hb] at h1; refine h1.ok ?_
      simp only
      have h2 := sim_ticks hw E fuel t ws p.2
      cases hc : ticks E fuel t ws p.2 with
      | error c => rw [hc] at h2; exact h2.err
      | ok q => rw [hc] at h2; exact h2.ok (.ret _ rfl)
end

theorem Sim.outcome {β : Type} {π : β → St σ} {lg : Logger} {st : St σ} {w : Logged β} {r : Except Crash β}
    (h : Sim π lg st w r) : w.2 = plainOutcome r := by
  cases r with
  | error c => exact h
  | ok b => exact h.1

/-! ## Two runs with a log against each other -/

/-- (proof) A relation between runs that is respected by what the engine does with them. -/
structure Lift (R : ∀ α : Type, Logged α → Logged α → Prop) : Prop where
  ret : ∀ α a, R α (.ret a) (.ret a)
  fail : ∀ α c, R α (.fail c) (.fail c)
  bind : ∀ α β w w' k k', R α w w' → (∀ a, R β (k a) (k' a)) → R β (w.bind k) (w'.bind k')

section
variable {R : ∀ α : Type, Logged α → Logged α → Prop} (hR : Lift R)

/-- (proof) the runs of a child are related -/
def RelRun (R : ∀ α : Type, Logged α → Logged α → Prop) (f g : St σ → Logged (Status × St σ)) : Prop :=
  ∀ st, R _ (f st) (g st)

/-- (proof) the runs of the children are related -/
inductive RelRuns (R : ∀ α : Type, Logged α → Logged α → Prop) : List (LChild σ) → List (LChild σ) → Prop
  | nil : RelRuns R [] []
  | cons {i f g cs ds} : RelRun R f g → RelRuns R cs ds → RelRuns R (⟨i, f⟩ :: cs) (⟨i, g⟩ :: ds)

include hR

theorem rel_execute {lg lg' : Logger} (hres : ∀ id s, R Unit (lg.result id s) (lg'.result id s)) {id : Id}
    {hook : St σ → St σ} {f g : St σ → Logged (Status × St σ)} (h : RelRun R f g) :
    RelRun R (lexecute lg id hook f) (lexecute lg' id hook g) := by
  intro st
  refine hR.bind _ _ _ _ _ _ (h _) fun p => hR.bind _ _ _ _ _ _ (hres _ _) fun _ => ?_
  cases closeIfDone id p.1 (afterTick id p.1 p.2) with
  | error c => exact hR.fail _ _
  | ok st2 => exact hR.ret _ _

theorem rel_seq (self : Id) : ∀ {cs ds : List (LChild σ)}, RelRuns R cs ds → ∀ tmp,
    RelRun R (lseqTick self cs tmp) (lseqTick self ds tmp) := by
  intro cs ds h
  induction h with
  | nil => intro tmp st; exact hR.ret _ _
  | cons hf _ ih =>
    intro tmp st
    refine hR.bind _ _ _ _ _ _ (hf st) fun p => ?_
    split
    · exact ih _ _
    · exact hR.ret _ _

theorem rel_pri (self : Id) : ∀ {cs ds : List (LChild σ)}, RelRuns R cs ds →
    RelRun R (lpriTick self cs) (lpriTick self ds) := by
  intro cs ds h
  induction h with
  | nil => intro st; exact hR.ret _ _
  | cons hf _ ih =>
    intro st
    refine hR.bind _ _ _ _ _ _ (hf st) fun p => ?_
    simp only
    split
    · exact ih _
    · exact hR.ret _ _

theorem rel_or (self : Id) : ∀ {cs ds : List (LChild σ)}, RelRuns R cs ds → ∀ acc,
    RelRun R (lorTick self cs acc) (lorTick self ds acc) := by
  intro cs ds h
  induction h with
  | nil => intro acc st; exact hR.ret _ _
  | cons hf _ ih => intro acc st; exact hR.bind _ _ _ _ _ _ (hf st) fun p => ih _ _

theorem rel_loop {f g : St σ → Logged (Status × St σ)} (h : RelRun R f g) (cont : Status → Bool) (m : Int) :
    ∀ fuel last i st, R _ (lwhileLoop cont m f fuel last i st) (lwhileLoop cont m g fuel last i st) := by
  intro fuel
  induction fuel with
  | zero =>
    intro last i st
    unfold lwhileLoop
    split
    · exact hR.fail _ _
    · exact hR.ret _ _
  | succ n ih =>
    intro last i st
    unfold lwhileLoop
    split
    · refine hR.bind _ _ _ _ _ _ (h st) fun p => ?_
      split
      · exact ih _ _ _
      · exact hR.ret _ _
    · exact hR.ret _ _

theorem rel_repeat {f g : St σ → Logged (Status × St σ)} (h : RelRun R f g) (cont : Status → Bool)
    (init : Option Status) (fuel : Nat) (m : Int) (self : Id) :
    RelRun R (lrepeatTick cont init fuel m self f) (lrepeatTick cont init fuel m self g) := by
  intro st
  simp only [lrepeatTick]
  cases st.cnt self with
  | none => exact hR.fail _ _
  | some i =>
    refine hR.bind _ _ _ _ _ _ (rel_loop hR h cont m _ _ _ _) fun p => ?_
    obtain ⟨l, j, st1⟩ := p
    cases l with
    | none => exact hR.fail _ _
    | some s => exact hR.ret _ _

theorem rel_deco {E E' : Env σ L} (hn : E'.now = E.now) (fuel : Nat) (k : DKind) (self : Id)
    {f g : St σ → Logged (Status × St σ)} (h : RelRun R f g) :
    RelRun R (ldecoTick E fuel k self f) (ldecoTick E' fuel k self g) := by
  intro st
  cases k with
  | inverter => exact hR.bind _ _ _ _ _ _ (h st) fun p => hR.ret _ _
  | limiter m =>
    simp only [ldecoTick]
    cases st.cnt self with
    | none => exact hR.fail _ _
    | some i =>
      simp only
      split
      · refine hR.bind _ _ _ _ _ _ (h st) fun p => ?_
        split <;> exact hR.ret _ _
      · exact hR.ret _ _
  | repeater m => exact rel_repeat hR h _ _ _ _ _ st
  | untilFailure m => exact rel_repeat hR h _ _ _ _ _ st
  | untilSuccess m => exact rel_repeat hR h _ _ _ _ _ st
  | maxTime t =>
    simp only [ldecoTick, hn]
    cases st.start self with
    | none => exact hR.fail _ _
    | some t0 =>
      refine hR.bind _ _ _ _ _ _ (h _) fun p => ?_
      split <;> exact hR.ret _ _

omit hR in
theorem hook_now {E E' : Env σ L} (hn : E'.now = E.now) (k : DKind) (id : Id) :
    openHook E' k id = openHook E k id := by
  funext st; cases k <;> simp [openHook, hn]
end

/-- (proof) what a leaf does in a run with a log -/
def leafRun (E : Env σ L) (a : L) (st : St σ) : Logged (Status × St σ) :=
  match E.act a st.user with
  | .error c => .fail (.leaf c)
  | .ok (s, u) => .ret (s, { st with user := u })

section
variable {R : ∀ α : Type, Logged α → Logged α → Prop} {lg lg' : Logger} {E E' : Env σ L}

mutual
theorem rel_exec (hR : Lift R) (hres : ∀ id s, R Unit (lg.result id s) (lg'.result id s)) (hn : E'.now = E.now)
    (hl : ∀ a, RelRun R (leafRun E a) (leafRun E' a)) (fuel : Nat) :
    ∀ t : Tree L, RelRun R (lexec lg E fuel t) (lexec lg' E' fuel t)
  | .leaf id a => by rw [lexec, lexec]; exact rel_execute hR hres (hl a)
  | .comp k id cs => by
    rw [lexec, lexec]
    refine rel_execute hR hres fun st => ?_
    have h := rel_execs hR hres hn hl fuel cs
    cases k with
    | sequence => exact rel_seq hR id h 0 st
    | priority => exact rel_pri hR id h _
    | orNode => exact rel_or hR id h _ _
    | memSequence => exact hR.fail _ _
    | memPriority => exact hR.fail _ _
  | .deco k id c => by
    rw [lexec, lexec, hook_now hn]
    exact rel_execute hR hres (rel_deco hR hn fuel k id (rel_exec hR hres hn hl fuel c))
  | .emptyDeco k id => by
    rw [lexec, lexec, hook_now hn]
    exact rel_execute hR hres fun st => hR.ret _ _
theorem rel_execs (hR : Lift R) (hres : ∀ id s, R Unit (lg.result id s) (lg'.result id s)) (hn : E'.now = E.now)
    (hl : ∀ a, RelRun R (leafRun E a) (leafRun E' a)) (fuel : Nat) :
    ∀ cs : List (Tree L), RelRuns R (lexecs lg E fuel cs) (lexecs lg' E' fuel cs)
  | [] => by rw [lexecs, lexecs]; exact .nil
  | c :: cs => by
    rw [lexecs, lexecs]; exact .cons (rel_exec hR hres hn hl fuel c) (rel_execs hR hres hn hl fuel cs)
end

theorem rel_ticks (hR : Lift R) (hres : ∀ id s, R Unit (lg.result id s) (lg'.result id s)) (hn : E'.now = E.now)
    (hl : ∀ a, RelRun R (leafRun E a) (leafRun E' a)) (fuel : Nat) (t : Tree L) :
    ∀ ws st, R _ (lticks lg E fuel t ws st) (lticks lg' E' fuel t ws st)
  | [], st => hR.ret _ _
  | w :: ws, st => hR.bind _ _ _ _ _ _ (rel_exec hR hres hn hl fuel t _) fun p =>
      hR.bind _ _ _ _ _ _ (rel_ticks hR hres hn hl fuel t ws p.2) fun _ => hR.ret _ _
end

/-! ## C81 -/

section
variable {lg : Logger} {E : Env σ L} {fuel : Nat}

/-- C81: keeping the log changes nothing else: with a file, or without a log, a history of ticks (any leaves, any
clock, any tree, any state) ends as it does without the log, exceptions included. -/
theorem C81_transparent (hw : lg.file = true ∨ lg.flag ≤ 0) (t : Tree L) (ws : List (σ → σ)) (st : St σ) :
    (lticks lg E fuel t ws st).2 = plainOutcome (ticks E fuel t ws st) :=
  (sim_ticks hw E fuel t ws st).outcome

/-- A history of completed ticks: the node executions of all of them in the order in which they ended. -/
inductive History (E : Env σ L) (t : Tree L) : List (σ → σ) → σ → List Ev → List Status → σ → Prop
  | nil {u} : History E t [] u [] [] u
  | cons {w ws u tr s u1 tr' ss u'} : Big E t (w u) tr s u1 → History E t ws u1 tr' ss u' →
      History E t (w :: ws) u (tr ++ tr') (s :: ss) u'

/-- (proof) the state's own list of results over a history -/
theorem history_log (hE : E.NoRunning) {t : Tree L} (ht : t.Acyclic) : ∀ (ws : List (σ → σ)) (st : St σ),
    Closed t st → ∀ ss st', ticks E fuel t ws st = .ok (ss, st') →
    ∃ tr, History E t ws st.user tr ss st'.user ∧
      st'.log = ((tr.filter (fun e => e.2 = .success ∨ e.2 = .failure)).map (fun e => (e.2, e.1))).reverse ++ st.log
  | [], st, _, ss, st', h => by
    simp only [ticks, Except.ok.injEq, Prod.mk.injEq] at h
    obtain ⟨rfl, rfl⟩ := h
    exact ⟨[], .nil, by simp⟩
  | w :: ws, st, hc, ss, st', h => by
    simp only [ticks, treeTick] at h
    cases hx : exec E fuel t { st with user := w st.user, stack := [], count := 0 } with
    | error e => rw [hx] at h; cases h
    | ok p =>
      obtain ⟨s, st1⟩ := p
      rw [hx] at h; simp only at h
      obtain ⟨_, tr, hB, hA⟩ := exec_sound hE fuel t ht { st with user := w st.user, stack := [], count := 0 } s st1 hc hx
      cases hy : ticks E fuel t ws st1 with
      | error e => rw [hy] at h; cases h
      | ok q =>
        obtain ⟨ss', st2⟩ := q
        rw [hy] at h; simp only [Except.ok.injEq, Prod.mk.injEq] at h
        obtain ⟨rfl, rfl⟩ := h
        obtain ⟨tr', hH, hl⟩ := history_log hE ht ws st1 (fun j hj => hA.closed j hj) ss' st2 hy
        refine ⟨tr ++ tr', .cons hB hH, ?_⟩
        rw [hl, hA.log]; simp

theorem logLines_filter (f : Int) (n : Id → String) (evs : List Ev) :
    logLines f n (evs.filter (fun e => e.2 = .success ∨ e.2 = .failure)) = logLines f n evs := by
  simp only [logLines, List.filter_filter]
  congr 1
  apply List.filter_congr
  intro e _
  rcases e with ⟨i, s⟩
  cases s <;> simp

/-- (proof) the new entries of the list are determined by it -/
theorem new_entries {a b : List Ev} {l : List (Status × Id)}
    (h : (a.map fun e => (e.2, e.1)).reverse ++ l = (b.map fun e => (e.2, e.1)).reverse ++ l) : a = b := by
  have h1 := List.reverse_inj.1 (List.append_cancel_right h)
  have := congrArg (List.map fun p : Status × Id => (p.2, p.1)) h1
  simpa [List.map_map, Function.comp_def] using this

/-- C81, exactly (leaves that do not return RUNNING, no node its own descendant): after a history of ticks the file
has, in the order in which they ended, one line for each node execution that ended in SUCCESS (flag 1) or
in SUCCESS or FAILURE (flag 2), and no other line. -/
theorem C81_log_exact (hf : lg.file = true) (hE : E.NoRunning) {t : Tree L} (ht : t.Acyclic)
    {ws : List (σ → σ)} {st : St σ} (hc : Closed t st) {ss : List Status} {st' : St σ}
    (h : (lticks lg E fuel t ws st).2 = .ok (ss, st')) :
    ∃ tr, History E t ws st.user tr ss st'.user ∧ (lticks lg E fuel t ws st).1 = logLines lg.flag lg.name tr := by
  have hs := sim_ticks (.inl hf) E fuel t ws st
  have ho := hs.outcome
  rw [h] at ho
  cases hx : ticks E fuel t ws st with
  | error c => rw [hx] at ho; cases ho
  | ok p =>
    rw [hx] at ho hs
    simp only [plainOutcome, Except.ok.injEq] at ho
    subst ho
    obtain ⟨_, evs, he, _, hl⟩ := hs
    obtain ⟨tr, hH, hlog⟩ := history_log hE ht ws st hc ss st' hx
    refine ⟨tr, hH, ?_⟩
    have := new_entries (he.symm.trans hlog)
    rw [hl, this, logLines_filter]

/-- (proof) the list of results against the counters -/
def LogCtr (a b : St σ) : Prop :=
  ∀ j, b.nSuccess j + a.log.count (.success, j) = a.nSuccess j + b.log.count (.success, j) ∧
    b.log.countP (fun e => e.2 = j) + a.ticksAll j ≤ b.ticksAll j + a.log.countP (fun e => e.2 = j)

theorem close_log {id : Id} {s : Status} {st1 st2 : St σ}
    (h : closeIfDone id s (afterTick id s st1) = .ok st2) :
    st2.log = (if s = .success ∨ s = .failure then [(s, id)] else []) ++ st1.log := by
  cases s
  case running => simp [closeIfDone, afterTick] at h; rw [← h]; simp
  all_goals
    simp only [closeIfDone, afterTick] at h
    rw [if_neg (by simp)] at h
    split at h
    · cases h
    · simp only [Except.ok.injEq] at h; rw [← h]; simp

theorem logCtr_stable (E : Env σ L) : Stable E (LogCtr (σ := σ)) where
  refl _ _ := by omega
  trans _ _ _ h h' j := by have := h j; have := h' j; omega
  user _ _ _ := ⟨rfl, Nat.le_of_eq (Nat.add_comm _ _)⟩
  cost _ _ _ _ := ⟨rfl, Nat.le_of_eq (Nat.add_comm _ _)⟩
  cnt _ _ _ _ := ⟨rfl, Nat.le_of_eq (Nat.add_comm _ _)⟩
  node id hook st s st1 st2 hh h hc j := by
    obtain ⟨_, _, h1, h2, h5⟩ := around hh st
    obtain ⟨_, _, h3, h4⟩ := close_spec hc
    have hj := h j
    rw [h1, h2, h5] at hj
    rw [h3, h4, close_log hc]
    by_cases e : j = id
    · subst e
      simp only [upd_same] at hj
      cases s <;> simp <;> omega
    · rw [upd_other _ _ e] at hj
      have e' : ¬ id = j := fun x => e x.symm
      cases s <;> simp [upd_other _ _ e, e'] <;> omega

theorem logCtr_ticks (t : Tree L) : ∀ (ws : List (σ → σ)) (st : St σ) ss st',
    ticks E fuel t ws st = .ok (ss, st') → LogCtr st st'
  | [], st, ss, st', h => by
    simp only [ticks, Except.ok.injEq, Prod.mk.injEq] at h
    rw [← h.2]; exact (logCtr_stable E).refl _
  | w :: ws, st, ss, st', h => by
    simp only [ticks, treeTick] at h
    cases hx : exec E fuel t { st with user := w st.user, stack := [], count := 0 } with
    | error e => rw [hx] at h; cases h
    | ok p =>
      obtain ⟨s, st1⟩ := p
      rw [hx] at h; simp only at h
      have h1 : LogCtr st st1 := exec_rel (logCtr_stable E) fuel t { st with user := w st.user, stack := [], count := 0 } s st1 hx
      cases hy : ticks E fuel t ws st1 with
      | error e => rw [hy] at h; cases h
      | ok q =>
        rw [hy] at h; simp only [Except.ok.injEq, Prod.mk.injEq] at h
        rw [← h.2]
        exact (logCtr_stable E).trans _ _ _ h1 (logCtr_ticks t ws st1 _ _ hy)

/-- C81 against the statistics (any leaves, RUNNING included, any tree): the lines of a history of ticks are those of a
list of node results in which every node occurs with SUCCESS as often as its N_success grew, and with
SUCCESS or FAILURE at most as often as its N_ticks_all grew. -/
theorem C81_log_counts (hf : lg.file = true) {t : Tree L} {ws : List (σ → σ)} {st : St σ} {ss : List Status}
    {st' : St σ} (h : (lticks lg E fuel t ws st).2 = .ok (ss, st')) :
    ∃ evs : List Ev, (lticks lg E fuel t ws st).1 = logLines lg.flag lg.name evs ∧
      (∀ e ∈ evs, e.2 = .success ∨ e.2 = .failure) ∧
      ∀ j, st'.nSuccess j = st.nSuccess j + evs.count (j, .success) ∧
        st.ticksAll j + evs.countP (fun e => e.1 = j) ≤ st'.ticksAll j := by
  have hs := sim_ticks (.inl hf) E fuel t ws st
  have ho := hs.outcome
  rw [h] at ho
  cases hx : ticks E fuel t ws st with
  | error c => rw [hx] at ho; cases ho
  | ok p =>
    rw [hx] at ho hs
    simp only [plainOutcome, Except.ok.injEq] at ho
    subst ho
    obtain ⟨_, evs, he, hm, hl⟩ := hs
    refine ⟨evs, hl, hm, fun j => ?_⟩
    have hc := logCtr_ticks t ws st ss st' hx j
    simp only at he
    have c1 : ((evs.map fun e => (e.2, e.1)).reverse).count (Status.success, j) = evs.count (j, .success) := by
      rw [List.count_reverse]
      simp only [List.count, List.countP_map]
      apply List.countP_congr
      rintro ⟨a, b⟩ _
      simp [and_comm]
    have c2 : ((evs.map fun e => (e.2, e.1)).reverse).countP (fun e => e.2 = j) = evs.countP (fun e => e.1 = j) := by
      rw [List.countP_reverse, List.countP_map]; rfl
    rw [he, List.count_append, List.countP_append, c1, c2] at hc
    omega

/-- C81: the log with flag 1 is what remains of the log with flag 2 (or more) when the lines of the FAILUREs are
taken out; in every run, also one that ends in an exception. -/
theorem C81_success_only {a b : Logger} (ha : a.flag = 1) (hb : 2 ≤ b.flag) (hn : a.name = b.name)
    (fa : a.file = true) (fb : b.file = true) (t : Tree L) (ws : List (σ → σ)) (st : St σ) :
    (lticks a E fuel t ws st).1 = (lticks b E fuel t ws st).1.filter (fun l => l.toList.head? = some 'S') ∧
    (lticks a E fuel t ws st).2 = (lticks b E fuel t ws st).2 := by
  let R : ∀ α : Type, Logged α → Logged α → Prop := fun _ w w' =>
    w.1 = w'.1.filter (fun l => l.toList.head? = some 'S') ∧ w.2 = w'.2
  have hR : Lift R := by
    refine ⟨fun _ _ => ⟨rfl, rfl⟩, fun _ _ => ⟨rfl, rfl⟩, ?_⟩
    rintro α β ⟨l, r⟩ ⟨l', r'⟩ k k' ⟨h1, h2⟩ hk
    simp only at h1 h2
    subst h1; subst h2
    cases r with
    | error c => exact ⟨rfl, rfl⟩
    | ok x => exact ⟨by simp [Logged.bind, (hk x).1], (hk x).2⟩
  refine rel_ticks hR ?_ rfl (fun _ _ => ?_) fuel t ws st
  · intro id s
    cases s with
    | success =>
      have : 0 < b.flag := by omega
      refine ⟨?_, ?_⟩ <;> simp [Logger.result, Logger.write, ha, fa, fb, this, hn]
    | failure =>
      have : 1 < b.flag := by omega
      refine ⟨?_, ?_⟩ <;> simp [Logger.result, Logger.write, Logged.ret, ha, fb, this]
    | running => exact ⟨rfl, rfl⟩
    | error => exact ⟨rfl, rfl⟩
  · simp only [leafRun]; split <;> exact ⟨rfl, rfl⟩

/-- C81 at a crash: take any history of ticks in which a leaf raises, and the same history with leaves that go
on instead; the log of the first is a beginning of the log of the second. What was written before the exception is
there and is nothing but what would have been written anyway. -/
theorem C81_crash_prefix {E' : Env σ L} (hnow : E'.now = E.now)
    (hact : ∀ a u, E.act a u = E'.act a u ∨ ∃ c, E.act a u = .error c) (lg : Logger) (t : Tree L)
    (ws : List (σ → σ)) (st : St σ) :
    lticks lg E fuel t ws st = lticks lg E' fuel t ws st ∨
    (∃ c, (lticks lg E fuel t ws st).2 = .error (.engine (.leaf c))) ∧
      (lticks lg E fuel t ws st).1 <+: (lticks lg E' fuel t ws st).1 := by
  let R : ∀ α : Type, Logged α → Logged α → Prop := fun _ w w' =>
    w = w' ∨ (∃ c, w.2 = .error (.engine (.leaf c))) ∧ w.1 <+: w'.1
  have hR : Lift R := by
    refine ⟨fun _ _ => .inl rfl, fun _ _ => .inl rfl, ?_⟩
    rintro α β w w' k k' (rfl | ⟨⟨c, h1⟩, h2⟩) hk
    · obtain ⟨l, r⟩ := w
      cases r with
      | error c => exact .inl rfl
      | ok x =>
        rcases hk x with h | ⟨⟨c, h1⟩, h2⟩
        · left; simp [Logged.bind, h]
        · exact .inr ⟨⟨c, h1⟩, (List.prefix_append_right_inj _).2 h2⟩
    · right
      obtain ⟨l, r⟩ := w
      simp only at h1 h2
      subst h1
      refine ⟨⟨c, rfl⟩, h2.trans ?_⟩
      simp only [Logged.bind]
      cases w'.2 with
      | error c => exact List.prefix_refl _
      | ok x => exact List.prefix_append _ _
  refine rel_ticks (R := R) hR (fun _ _ => .inl rfl) hnow (fun a st => ?_) fuel t ws st
  rcases hact a st.user with h | ⟨c, h⟩
  · left; simp only [leafRun, h]
  · right; simp only [leafRun, h]; exact ⟨⟨c, rfl⟩, List.nil_prefix⟩

/-- C81 is false of the code for a tree that is told to log but has no file (`log_file` is `None` until it is set):
whenever a line would be written, the history aborts with an AttributeError instead. -/
theorem C81_no_file {a b : Logger} (hfl : a.flag = b.flag) (hn : a.name = b.name)
    (fa : a.file = false) (fb : b.file = true) (t : Tree L) (ws : List (σ → σ)) (st : St σ) :
    ((lticks b E fuel t ws st).1 = [] → lticks a E fuel t ws st = lticks b E fuel t ws st) ∧
    ((lticks b E fuel t ws st).1 ≠ [] → lticks a E fuel t ws st = ([], .error .noFile)) := by
  let R : ∀ α : Type, Logged α → Logged α → Prop := fun _ w w' =>
    (w'.1 = [] → w = w') ∧ (w'.1 ≠ [] → w = ([], .error .noFile))
  have hR : Lift R := by
    refine ⟨fun _ _ => ⟨fun _ => rfl, fun h => absurd rfl h⟩, fun _ _ => ⟨fun _ => rfl, fun h => absurd rfl h⟩, ?_⟩
    rintro α β w ⟨l, r⟩ k k' ⟨h1, h2⟩ hk
    cases l with
    | cons x l =>
      have := h2 (by simp)
      subst this
      cases r with
      | error c => exact ⟨fun h => by simp [Logged.bind] at h, fun _ => rfl⟩
      | ok y => exact ⟨fun h => by simp [Logged.bind] at h, fun _ => rfl⟩
    | nil =>
      have := h1 rfl
      subst this
      cases r with
      | error c => exact ⟨fun _ => rfl, fun h => by simp [Logged.bind] at h⟩
      | ok y =>
        have := hk y
        refine ⟨fun h => ?_, fun h => ?_⟩
        · simp only [Logged.bind, List.nil_append] at h ⊢
          rw [this.1 h]
        · simp only [Logged.bind, List.nil_append] at h ⊢
          rw [this.2 h]
  refine rel_ticks (R := R) hR ?_ rfl (fun _ _ => ?_) fuel t ws st
  · intro id s
    have hnoop : R Unit (.ret ()) (.ret ()) := ⟨fun _ => rfl, fun h => absurd rfl h⟩
    have hline : ∀ l, R Unit (a.write l) (b.write l) := fun l => by
      simp only [Logger.write, fa, fb]
      exact ⟨fun h => by simp at h, fun _ => rfl⟩
    cases s with
    | success => simp only [Logger.result, hfl, hn]; split <;> first | exact hline _ | exact hnoop
    | failure => simp only [Logger.result, hfl, hn]; split <;> first | exact hline _ | exact hnoop
    | running => exact hnoop
    | error => exact hnoop
  · simp only [leafRun]; split <;> exact ⟨fun _ => rfl, fun h => absurd rfl h⟩
end

/-! ## Instances -/

/-- What can be compared of a run: the lines, and whether it raised or which statuses it returned. -/
def seen (w : Logged (List Status × St Nat)) : List String × (LCrash ⊕ List Status) :=
  (w.1, match w.2 with | .error c => .inl c | .ok p => .inr p.1)

/-- Three nodes with different names. -/
def demoLogger (flag : Int) (file : Bool) : Logger :=
  ⟨flag, file, fun i => if i = 0 then "root" else if i = 1 then "try" else "go"⟩

/-- A Priority whose first leaf fails and whose second succeeds. -/
def demoLogTree : Tree Status := .comp .priority 0 [.leaf 1 .failure, .leaf 2 .success]

/-- The same leaves, but the third call of a leaf raises. -/
def crashEnv : Env Nat Status where
  act s u := if u = 2 then .error 7 else .ok (s, u + 1)
  now u := (u, u)

/-- Two ticks of the tree, log with flag 2 and 1 (hypotheses of C81_log_exact: `constEnv` leaves here do not return
RUNNING, nothing is open). -/
example : seen (lticks (demoLogger 2 true) constEnv 0 demoLogTree [id, id] { user := 0 }) =
      (["F try\n", "S go\n", "S root\n", "F try\n", "S go\n", "S root\n"], .inr [.success, .success]) ∧
    seen (lticks (demoLogger 1 true) constEnv 0 demoLogTree [id, id] { user := 0 }) =
      (["S go\n", "S root\n", "S go\n", "S root\n"], .inr [.success, .success]) ∧
    seen (lticks (demoLogger 0 false) constEnv 0 demoLogTree [id, id] { user := 0 }) =
      ([], .inr [.success, .success]) := by decide +kernel

example : demoLogTree.Acyclic := by simp [demoLogTree, Tree.Acyclic, AcyclicList, idsList, Tree.ids]

/-- Leaves that succeed or fail. -/
def yesNo : Env Nat Bool where
  act b u := .ok (if b then .success else .failure, u + 1)
  now u := (u, u)

/-- A case of C81_log_exact: its hypotheses hold of this tree with an open file, and the history ends normally. -/
example : (demoLogger 2 true).file = true ∧ yesNo.NoRunning ∧
    (Tree.comp (L := Bool) .priority 0 [.leaf 1 false, .leaf 2 true]).Acyclic ∧
    Closed (Tree.comp (L := Bool) .priority 0 [.leaf 1 false, .leaf 2 true]) ({ user := 0 } : St Nat) ∧
    seen (lticks (demoLogger 2 true) yesNo 0 (.comp .priority 0 [.leaf 1 false, .leaf 2 true]) [id, id] { user := 0 }) =
      (["F try\n", "S go\n", "S root\n", "F try\n", "S go\n", "S root\n"], .inr [.success, .success]) := by
  refine ⟨rfl, ?_, by simp [Tree.Acyclic, AcyclicList, idsList, Tree.ids], fun _ _ => rfl, by decide +kernel⟩
  intro a u s u' h
  cases a <;> simp [yesNo] at h <;> rw [← h.1] <;> simp

/-- The crash in the second tick: the lines up to it are in the file. -/
example : seen (lticks (demoLogger 2 true) crashEnv 0 demoLogTree [id, id] { user := 0 }) =
      (["F try\n", "S go\n", "S root\n"], .inl (.engine (.leaf 7))) ∧
    (∀ a u, crashEnv.act a u = constEnv.act a u ∨ ∃ c, crashEnv.act a u = .error c) := by
  refine ⟨by decide +kernel, fun a u => ?_⟩
  simp only [crashEnv, constEnv]
  split
  · exact .inr ⟨7, rfl⟩
  · exact .inl rfl

/-- C81 is false of the code without a file: the tick that succeeds without a log aborts with one. -/
theorem C81_no_file_violation :
    seen (lticks (demoLogger 1 false) constEnv 0 demoLogTree [id] { user := 0 }) = ([], .inl .noFile) ∧
    seen (lticks (demoLogger 0 false) constEnv 0 demoLogTree [id] { user := 0 }) = ([], .inr [.success]) := by
  decide +kernel

end Verif.BT
