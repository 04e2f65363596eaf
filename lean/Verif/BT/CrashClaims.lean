import Verif.BT.CrashProps

/-!
# C84: the theorems

What a tick that raises leaves behind, and what the next ticks give.
-/

namespace Verif.BT

variable {σ L : Type}

/-! ## Every tick is like the first one -/

/-- In a program that catches the exceptions of its ticks and goes on ticking the same tree with the same blackboard,
every tick — whatever ticks went before, and wherever they raised — leaves the same world and has the same outcome
(status or exception) as the only tick of a new tree with a new blackboard, provided that the leaves do not return
RUNNING and there is no `MaxTime` node (`C84_maxTime_violation`). Node ids may be shared, but not by a node that
counts and one that does not. -/
theorem C84_next_ticks_fresh_partial (E : XEnv σ L) (hE : E.NoRunning) (fuel : Nat) (t : Tree L) (hu : t.Untimed)
    (hd : ∀ i ∈ t.counterIds, i ∉ t.plainIds) (ws : List (σ → σ)) (u : σ) :
    ∀ o ∈ xhistory E fuel t ws { user := u }, (o.after, o.out) = fresh E fuel t o.before := by
  have key := two_exec (C := (· ∈ t.counterIds)) E hE fuel t hu (fun _ h => h) (fun i hi h => hd i h hi)
  suffices h : ∀ ws (st : St σ), Ready (· ∈ t.counterIds) st → ∀ o ∈ xhistory E fuel t ws st,
      (o.after, o.out) = fresh E fuel t o.before from
    h ws _ (fun i _ ho => by cases ho)
  intro ws
  induction ws with
  | nil => intro st _ o ho; cases ho
  | cons w ws ih =>
    intro st hr o ho
    have h0 := key { st with user := w st.user, stack := [], count := 0 }
      { user := w st.user, stack := [], count := 0 } ⟨rfl, rfl, hr, fun i _ ho => by cases ho⟩
    simp only [xhistory, List.mem_cons] at ho
    rcases ho with rfl | ho
    · exact Prod.ext h0.alike.user h0.out
    · exact ih _ h0.alike.ra o ho

/-! ## What is left open -/

/-- (proof) -/
structure POut (P : List Id → Prop) (o : Id → Bool) (S : List Id) {α : Type} (bad : α → Prop) (x : X σ α) : Prop where
  ok : ∀ s, x.2 = .ok s → ¬ bad s ∧ x.1.stack = S ∧ x.1.isOpen = o
  err : ∀ c, x.2 = .error c → ∃ p, P p ∧ x.1.stack = p ++ S ∧ ∀ j, x.1.isOpen j = (decide (j ∈ p) || o j)

/-- (proof) -/
def Kid (P : List Id → Prop) (o : Id → Bool) (f : St σ → X σ Status) : Prop :=
  ∀ st, st.isOpen = o → POut P o st.stack isRunning (f st)

section
variable {P : List Id → Prop} {o : Id → Bool}

theorem POut.bind {α β : Type} {S : List Id} {bad : α → Prop} {bad' : β → Prop} {x : X σ α} (h : POut P o S bad x)
    {k : α → St σ → X σ β} (hk : ∀ s st, ¬ bad s → st.stack = S → st.isOpen = o → POut P o S bad' (k s st)) :
    POut P o S bad' (x.bind k) := by
  obtain ⟨st, r⟩ := x
  cases r with
  | error c => exact ⟨(fun s e => by cases e), fun c' e => h.err c rfl⟩
  | ok s => obtain ⟨h1, h2, h3⟩ := h.ok s rfl; exact hk s st h1 h2 h3

theorem pout_ok {S : List Id} {α : Type} {bad : α → Prop} {s : α} {st : St σ} (hs : ¬ bad s) (hS : st.stack = S)
    (ho : st.isOpen = o) : POut P o S bad (st, .ok s) :=
  ⟨fun s' e => by cases e; exact ⟨hs, hS, ho⟩, fun c e => by cases e⟩

theorem pout_error {S : List Id} {α : Type} {bad : α → Prop} {c : Crash} {st : St σ} (hP : P []) (hS : st.stack = S)
    (ho : st.isOpen = o) : POut P o S bad ((st, .error c) : X σ α) :=
  ⟨(fun s' e => by cases e), fun c e => ⟨[], hP, hS, fun j => by simp [ho]⟩⟩

theorem kid_execute {Q : List Id → Prop} {id : Id} (hid : o id = false) (hPQ : ∀ p, P p → Q (p ++ [id])) {hook : St σ → St σ}
    (hh : ∀ st, (hook st).isOpen = st.isOpen ∧ (hook st).stack = st.stack) {body : St σ → X σ Status}
    (hb : Kid P (upd o id true) body) : Kid Q o (xexecute id hook body) := by
  intro st hst
  have hne : ¬ st.isOpen id = true := by rw [hst, hid]; decide
  have e : openIfClosed id hook (enter id st) =
    hook { enter id st with isOpen := upd (enter id st).isOpen id true } := if_neg hne
  obtain ⟨h1, h2⟩ := hh { enter id st with isOpen := upd (enter id st).isOpen id true }
  have h0 := hb (countTick id (openIfClosed id hook (enter id st))) (by
    rw [e]; show (hook _).isOpen = _; rw [h1]; show upd st.isOpen id true = _; rw [hst])
  have hS : (countTick id (openIfClosed id hook (enter id st))).stack = id :: st.stack := by
    rw [e]; show (hook _).stack = _; rw [h2]; rfl
  rw [hS] at h0
  unfold xexecute
  generalize body (countTick id (openIfClosed id hook (enter id st))) = x at h0
  obtain ⟨st1, r⟩ := x
  cases r with
  | error c =>
    refine ⟨fun s e => (by cases e), fun c' e => ?_⟩
    obtain ⟨p, hp, h3, h4⟩ := h0.err c rfl
    refine ⟨p ++ [id], hPQ p hp, by show st1.stack = _; rw [h3]; simp, fun j => ?_⟩
    show st1.isOpen j = _
    rw [h4, upd]
    by_cases hj : j = id <;> simp [hj]
  | ok s =>
    obtain ⟨h3, h4, h5⟩ := h0.ok s rfl
    obtain ⟨_, a2, a3, _⟩ := afterTick_same id s st1
    have ea : closeIfDone id s (afterTick id s st1) =
        .ok { afterTick id s st1 with stack := st.stack, isOpen := upd (afterTick id s st1).isOpen id false } := by
      have : s ≠ .running := h3
      simp only [closeIfDone, if_neg this, a2]
      have h4' : st1.stack = id :: st.stack := h4
      rw [h4']
    simp only [X.bind, ea]
    refine pout_ok h3 rfl ?_
    have h5' : st1.isOpen = upd o id true := h5
    funext j
    simp only [a3, h5', upd]
    by_cases hj : j = id
    · simp [hj, hid]
    · simp [hj]

/-- (proof) -/
inductive Kids (P : List Id → Prop) (o : Id → Bool) : List (XChild σ) → Prop
  | nil : Kids P o []
  | cons {i f cs} : Kid P o f → Kids P o cs → Kids P o (⟨i, f⟩ :: cs)

theorem kid_seq (self : Id) (S : List Id) : ∀ {cs : List (XChild σ)}, Kids P o cs → ∀ x st, st.stack = S → st.isOpen = o →
    POut P o S isRunning (xseqTick self cs x st)
  | _, .nil, x, st, hS, ho => pout_ok (by decide) hS ho
  | _, .cons hf hcs, x, st, hS, ho => by
    unfold xseqTick
    have h0 := hf st ho
    rw [hS] at h0
    refine h0.bind fun s st1 hs hS ho => ?_
    by_cases h : s = .success
    · rw [if_pos h]; exact kid_seq self S hcs _ _ hS ho
    · rw [if_neg h]; exact pout_ok hs hS ho

theorem kid_pri (self : Id) (S : List Id) : ∀ {cs : List (XChild σ)}, Kids P o cs → ∀ st, st.stack = S → st.isOpen = o →
    POut P o S isRunning (xpriTick self cs st)
  | _, .nil, st, hS, ho => pout_ok (by decide) hS ho
  | _, .cons hf hcs, st, hS, ho => by
    unfold xpriTick
    have h0 := hf st ho
    rw [hS] at h0
    refine h0.bind fun s st1 hs hS ho => ?_
    dsimp only
    by_cases h : s = .failure
    · rw [if_pos h]; exact kid_pri self S hcs _ hS ho
    · rw [if_neg h]; exact pout_ok hs hS ho

theorem kid_or (self : Id) (S : List Id) : ∀ {cs : List (XChild σ)}, Kids P o cs → ∀ acc, acc ≠ .running → ∀ st, st.stack = S →
    st.isOpen = o → POut P o S isRunning (xorTick self cs acc st)
  | _, .nil, acc, hacc, st, hS, ho => pout_ok hacc hS ho
  | _, .cons hf hcs, acc, hacc, st, hS, ho => by
    unfold xorTick
    have h0 := hf st ho
    rw [hS] at h0
    refine h0.bind fun s st1 hs hS ho => ?_
    refine kid_or self S hcs _ ?_ _ hS ho
    by_cases hf : s = .failure
    · rw [if_pos hf]; exact hacc
    · rw [if_neg hf]; decide

theorem kid_comp (k : CKind) (self : Id) (hP : P []) {cs : List (XChild σ)} (hcs : Kids P o cs) : Kid P o (xcompTick k self cs) := by
  intro st ho
  cases k with
  | sequence => exact kid_seq self _ hcs 0 st rfl ho
  | priority => exact kid_pri self _ hcs _ rfl ho
  | orNode => exact kid_or self _ hcs .failure (by decide) _ rfl ho
  | memSequence => exact pout_error hP rfl ho
  | memPriority => exact pout_error hP rfl ho

theorem kid_loop (cont : Status → Bool) (m : Int) (S : List Id) (hP : P []) {run : St σ → X σ Status} (hr : Kid P o run) :
    ∀ (fuel : Nat) (last : Option Status) (i : Int) (st : St σ), last ≠ some .running → st.stack = S → st.isOpen = o →
    POut P o S (fun p : Option Status × Int => p.1 = some .running) (xwhileLoop cont m run fuel last i st)
  | 0, last, i, st, hl, hS, ho => by
    unfold xwhileLoop
    by_cases h : m < 0 ∨ i < m
    · rw [if_pos h]; exact pout_error hP hS ho
    · rw [if_neg h]; exact pout_ok hl hS ho
  | fuel + 1, last, i, st, hl, hS, ho => by
    unfold xwhileLoop
    by_cases h : m < 0 ∨ i < m
    · rw [if_pos h]
      have h0 := hr st ho
      rw [hS] at h0
      refine h0.bind fun s st1 hs hS ho => ?_
      have hs' : some s ≠ some Status.running := fun e => hs (Option.some.inj e)
      by_cases h : cont s = true
      · rw [if_pos h]; exact kid_loop cont m S hP hr fuel _ _ _ hs' hS ho
      · rw [if_neg h]; exact pout_ok hs' hS ho
    · rw [if_neg h]; exact pout_ok hl hS ho

theorem kid_repeat (cont : Status → Bool) (init : Option Status) (hinit : init ≠ some .running) (fuel : Nat) (m : Int) (self : Id)
    (hP : P []) {run : St σ → X σ Status} (hr : Kid P o run) : Kid P o (xrepeatTick cont init fuel m self run) := by
  intro st ho
  unfold xrepeatTick
  cases hc : st.cnt self with
  | none => exact pout_error hP rfl ho
  | some i =>
    refine (kid_loop cont m st.stack hP hr (loopFuel fuel m i) init i st hinit rfl ho).bind fun p st1 hs hS ho => ?_
    obtain ⟨last, i'⟩ := p
    cases last with
    | none => exact pout_error hP hS ho
    | some s => exact pout_ok (fun h => hs (by rw [h])) hS ho

theorem kid_deco (E : XEnv σ L) (fuel : Nat) (k : DKind) (self : Id) (hP : P []) {run : St σ → X σ Status} (hr : Kid P o run) :
    Kid P o (xdecoTick E fuel k self run) := by
  cases k with
  | inverter =>
    intro st ho
    refine (hr st ho).bind fun s st1 hs hS ho => pout_ok ?_ hS ho
    cases s <;> simp_all [invert, isRunning]
  | limiter m =>
    intro st ho
    simp only [xdecoTick]
    cases hc : st.cnt self with
    | none => exact pout_error hP rfl ho
    | some i =>
      dsimp only
      by_cases hi : i < m
      · rw [if_pos hi]
        refine (hr st ho).bind fun s st1 hs hS ho => ?_
        by_cases h : s = .success ∨ s = .failure
        · rw [if_pos h]; exact pout_ok hs hS ho
        · rw [if_neg h]; exact pout_ok hs hS ho
      · rw [if_neg hi]; exact pout_ok (by decide) rfl ho
  | repeater m => exact kid_repeat _ _ (by decide) fuel m self hP hr
  | untilFailure m => exact kid_repeat _ _ (by decide) fuel m self hP hr
  | untilSuccess m => exact kid_repeat _ _ (by decide) fuel m self hP hr
  | maxTime m =>
    intro st ho
    simp only [xdecoTick]
    cases hc : st.start self with
    | none => exact pout_error hP rfl ho
    | some t0 =>
      refine (hr { st with user := (E.now st.user).2 } ho).bind fun s st1 hs hS ho => ?_
      by_cases h : (E.now st.user).1 - t0 > m
      · rw [if_pos h]; exact pout_ok (by decide) hS ho
      · rw [if_neg h]; exact pout_ok hs hS ho
end

theorem openHook_isOpen (E : Env σ L) (k : DKind) (id : Id) (st : St σ) :
    (openHook E k id st).isOpen = st.isOpen ∧ (openHook E k id st).stack = st.stack := by
  cases k <;> exact ⟨rfl, rfl⟩

mutual
theorem kid_exec (E : XEnv σ L) (hE : E.NoRunning) (fuel : Nat) : ∀ (t : Tree L), t.Acyclic → ∀ o : Id → Bool,
    (∀ j ∈ t.ids, o j = false) → Kid (IsPath t) o (xexec E fuel t)
  | .leaf id a, _, o, ho => by
    unfold xexec
    refine kid_execute (P := fun p => p = []) (ho id (by simp [Tree.ids])) (fun p hp => ?_) (fun _ => ⟨rfl, rfl⟩) fun st hst => ?_
    · subst hp; exact .here _
    · cases h : (E.act a st.user).2 with
      | error c => exact pout_error rfl rfl hst
      | ok s => exact pout_ok (fun e => hE a _ (by rw [h, e])) rfl hst
  | .comp k id cs, hac, o, ho => by
    unfold xexec
    simp only [Tree.Acyclic] at hac
    refine kid_execute (P := fun p => p = [] ∨ ∃ c ∈ cs, IsPath c p) (ho id (by simp [Tree.ids])) (fun p hp => ?_)
      (fun _ => ⟨rfl, rfl⟩) (kid_comp k id (.inl rfl) ?_)
    · rcases hp with rfl | ⟨c, hc, hp⟩
      · exact .here _
      · exact .comp hc hp
    · refine kid_execs E hE fuel cs cs (fun _ h => h) hac.2 _ fun j hj => ?_
      have hne : j ≠ id := fun h => hac.1 (h ▸ hj)
      simp only [upd, if_neg hne]
      exact ho j (by simp [Tree.ids, hj])
  | .deco k id c, hac, o, ho => by
    unfold xexec
    simp only [Tree.Acyclic] at hac
    refine kid_execute (P := fun p => p = [] ∨ IsPath c p) (ho id (by simp [Tree.ids])) (fun p hp => ?_)
      (openHook_isOpen _ k id) (kid_deco E fuel k id (.inl rfl) ?_)
    · rcases hp with rfl | hp
      · exact .here _
      · exact .deco hp
    · have hk := kid_exec E hE fuel c hac.2 (upd o id true) fun j hj => by
        have hne : j ≠ id := fun h => hac.1 (h ▸ hj)
        simp only [upd, if_neg hne]
        exact ho j (by simp [Tree.ids, hj])
      intro st hst
      have := hk st hst
      exact ⟨this.ok, fun c' e => (this.err c' e).imp fun p hp => ⟨.inr hp.1, hp.2⟩⟩
  | .emptyDeco k id, _, o, ho => by
    unfold xexec
    refine kid_execute (P := fun p => p = []) (ho id (by simp [Tree.ids])) (fun p hp => ?_) (openHook_isOpen _ k id)
      fun st hst => pout_ok (by decide) rfl hst
    subst hp; exact .here _
theorem kid_execs (E : XEnv σ L) (hE : E.NoRunning) (fuel : Nat) (all : List (Tree L)) : ∀ (cs : List (Tree L)), (∀ c ∈ cs, c ∈ all) →
    AcyclicList cs → ∀ o : Id → Bool, (∀ j ∈ idsList cs, o j = false) →
    Kids (fun p => p = [] ∨ ∃ c ∈ all, IsPath c p) o (xexecs E fuel cs)
  | [], _, _, _, _ => by unfold xexecs; exact .nil
  | c :: cs, hall, hac, o, ho => by
    unfold xexecs
    simp only [AcyclicList] at hac
    refine .cons ?_ (kid_execs E hE fuel all cs (fun c hc => hall c (by simp [hc])) hac.2 o fun j hj => ho j (by simp [idsList, hj]))
    intro st hst
    have := kid_exec E hE fuel c hac.1 o (fun j hj => ho j (by simp [idsList, hj])) st hst
    exact ⟨this.ok, fun c' e => (this.err c' e).imp fun p hp => ⟨.inr ⟨c, hall c (by simp), hp.1⟩, hp.2⟩⟩
end

/-- A tick started with all nodes closed: if it returns, the nodes that were open are open and no other (and the list of the
open nodes is empty); if it raises, the nodes that are left open are those on the way from one node of the tree up to
the root, which are also the list of the open nodes of the tick object. -/
theorem C84_open_path (E : XEnv σ L) (hE : E.NoRunning) (fuel : Nat) (t : Tree L) (hac : t.Acyclic) (st : St σ) (hcl : Closed t st) :
    (∀ s, (xtreeTick E fuel t st).2 = .ok s →
      (xtreeTick E fuel t st).1.stack = [] ∧ ∀ j, (xtreeTick E fuel t st).1.isOpen j = st.isOpen j) ∧
    (∀ c, (xtreeTick E fuel t st).2 = .error c → ∃ p, IsPath t p ∧ (xtreeTick E fuel t st).1.stack = p ∧
      ∀ j, (xtreeTick E fuel t st).1.isOpen j = true ↔ j ∈ p ∨ st.isOpen j = true) := by
  have h := kid_exec E hE fuel t hac st.isOpen hcl { st with stack := [], count := 0 } rfl
  refine ⟨fun s e => ?_, fun c e => ?_⟩
  · obtain ⟨_, h2, h3⟩ := h.ok s e
    exact ⟨h2, fun j => congrFun h3 j⟩
  · obtain ⟨p, h1, h2, h3⟩ := h.err c e
    refine ⟨p, h1, by rw [xtreeTick, h2, List.append_nil], fun j => ?_⟩
    rw [xtreeTick, h3]
    simp

/-! ## Examples and violations -/

/-- (helper of the examples) -/
instance : DecidableEq (Except Crash Status)
  | .ok a, .ok b => if h : a = b then .isTrue (by rw [h]) else .isFalse fun e => h (by cases e; rfl)
  | .error a, .error b => if h : a = b then .isTrue (by rw [h]) else .isFalse fun e => h (by cases e; rfl)
  | .ok _, .error _ => .isFalse fun e => by cases e
  | .error _, .ok _ => .isFalse fun e => by cases e

/-- The world: a clock; leaf `n` raises 7 at time `n` and succeeds at other times. -/
def clockEnv : XEnv Int Int where
  act n u := (u, if u = n then .error 7 else .ok .success)
  now u := (u, u)

theorem clockEnv_noRunning : clockEnv.NoRunning := by
  intro a u
  simp only [clockEnv]
  split <;> exact fun h => by cases h

/-- A counting decorator and an Inverter under a Sequence. -/
def crashTree : Tree Int :=
  .comp .sequence 0 [.deco (.repeater 2) 1 (.leaf 2 5), .deco .inverter 3 (.leaf 4 6)]

/-- The hypotheses of `C84_next_ticks_fresh_partial` hold, with a history in which ticks raise at two different places. -/
example : crashTree.Untimed ∧ (∀ i ∈ crashTree.counterIds, i ∉ crashTree.plainIds) ∧
    (xhistory clockEnv 9 crashTree [fun u => u + 5, fun u => u + 1, fun u => u + 1] { user := 0 }).map (fun o => o.out) =
      [.error (.leaf 7), .error (.leaf 7), .ok .failure] := by
  refine ⟨?_, ?_, ?_⟩
  · simp [crashTree, Tree.Untimed, UntimedList, DKind.timed]
  · decide +kernel
  · decide +kernel

/-- Those of `C84_open_path`; after the exception 4, 3 and 0 are open. -/
example : crashTree.Acyclic ∧ Closed crashTree ({ user := 6 } : St Int) ∧
    (xtreeTick clockEnv 9 crashTree { user := 6 }).2 = .error (.leaf 7) ∧
    (xtreeTick clockEnv 9 crashTree { user := 6 }).1.stack = [4, 3, 0] := by
  refine ⟨?_, fun _ _ => rfl, ?_, ?_⟩
  · simp [crashTree, Tree.Acyclic, AcyclicList, Tree.ids, idsList]
  · decide +kernel
  · decide +kernel

/-- The code violates the full property: a `MaxTime` node keeps the start time of the tick that raised, and fails the next
tick, in which the child succeeds at once; a new tree gives SUCCESS. -/
theorem C84_maxTime_violation : ∃ (E : XEnv Int Int) (t : Tree Int) (ws : List (Int → Int)), E.NoRunning ∧ t.Acyclic ∧
    (xhistory E 9 t ws { user := 0 }).map (fun o => (o.out, (fresh E 9 t o.before).2)) =
      [(.error (.leaf 7), .error (.leaf 7)), (.ok .failure, .ok .success)] := by
  refine ⟨clockEnv, .deco (.maxTime 10) 0 (.leaf 1 5), [fun u => u + 5, fun u => u + 20], clockEnv_noRunning, ?_, ?_⟩
  · simp [Tree.Acyclic, Tree.ids]
  · decide +kernel

/-- Nodes left open by a tick that raised stay open after a tick that returned, if it does not come to them. -/
theorem C84_left_open_violation : ∃ (E : XEnv Int Int) (t : Tree Int), E.NoRunning ∧ t.Acyclic ∧
    (xtreeTick E 9 t { user := 5 }).2 = .error (.leaf 7) ∧
    (xtreeTick E 9 t { (xtreeTick E 9 t { user := 5 }).1 with user := 6 }).2 = .ok .success ∧
    (xtreeTick E 9 t { (xtreeTick E 9 t { user := 5 }).1 with user := 6 }).1.isOpen 2 = true := by
  refine ⟨⟨fun n u => (u, if u = n then .error 7 else if n = 0 ∧ u = 5 then .ok .failure else .ok .success), fun u => (u, u)⟩,
    .comp .priority 0 [.leaf 1 0, .leaf 2 5], ?_, ?_, ?_, ?_, ?_⟩
  · intro a u
    dsimp only
    split
    · exact fun h => by cases h
    · split <;> exact fun h => by cases h
  · simp [Tree.Acyclic, AcyclicList, Tree.ids, idsList]
  · decide +kernel
  · decide +kernel
  · decide +kernel

end Verif.BT
