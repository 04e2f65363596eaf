import Verif.BT.Den
/-! Facts about the engine for arbitrary leaves (RUNNING included) and arbitrary states. -/
namespace Verif.BT
variable {σ L : Type}

/-- A relation between the state before and after that every engine step respects. -/
structure Stable (E : Env σ L) (R : St σ → St σ → Prop) : Prop where
  refl : ∀ st, R st st
  trans : ∀ a b c, R a b → R b c → R a c
  user : ∀ st u, R st { st with user := u }
  cost : ∀ st i v, R st { st with cost := upd st.cost i v }
  cnt : ∀ st i v, R st { st with cnt := upd st.cnt i v }
  node : ∀ id hook st s st1 st2, Hook E id hook → R (bodyStart id hook st) st1 →
    closeIfDone id s (afterTick id s st1) = .ok st2 → R st st2

section
variable {E : Env σ L} {fuel : Nat} {R : St σ → St σ → Prop}

/-- `run` respects `R`. -/
def Resp (R : St σ → St σ → Prop) (run : St σ → Res σ) : Prop := ∀ st s st', run st = .ok (s, st') → R st st'

theorem execute_rel (hR : Stable E R) {id hook body} (hh : Hook E id hook) (hb : Resp R body) :
    Resp R (execute id hook body) := by
  intro st s st2 h
  simp only [execute] at h
  rw [show countTick id (openIfClosed id hook (enter id st)) = bodyStart id hook st from rfl] at h
  cases hx : body (bodyStart id hook st) with
  | error e => rw [hx] at h; cases h
  | ok p =>
    obtain ⟨s1, st1⟩ := p
    rw [hx] at h; simp only at h
    cases hc : closeIfDone id s1 (afterTick id s1 st1) with
    | error e => rw [hc] at h; cases h
    | ok st3 =>
      rw [hc] at h; simp only [Except.ok.injEq, Prod.mk.injEq] at h
      rw [← h.2]
      exact hR.node id hook st s1 st1 st3 hh (hb _ _ _ hx) hc

theorem seq_rel (hR : Stable E R) {self} : ∀ (cs : List (Child σ)), (∀ c ∈ cs, Resp R c.run) → ∀ tmp,
    Resp R (seqTick self cs tmp)
  | [], _, tmp => by
    intro st s st' h
    simp only [seqTick, Except.ok.injEq, Prod.mk.injEq] at h
    rw [← h.2]; exact hR.cost _ _ _
  | c :: cs, hc, tmp => by
    intro st s st' h
    simp only [seqTick] at h
    cases hx : c.run st with
    | error e => rw [hx] at h; cases h
    | ok p =>
      obtain ⟨s1, st1⟩ := p
      rw [hx] at h; simp only at h
      have h1 := hc c (by simp) _ _ _ hx
      split at h
      · exact hR.trans _ _ _ h1 (seq_rel hR cs (fun c h => hc c (by simp [h])) _ _ _ _ h)
      · simp only [Except.ok.injEq, Prod.mk.injEq] at h
        rw [← h.2]; exact hR.trans _ _ _ h1 (hR.cost _ _ _)

theorem pri_rel (hR : Stable E R) {self} : ∀ (cs : List (Child σ)), (∀ c ∈ cs, Resp R c.run) →
    Resp R (priTick self cs)
  | [], _ => by
    intro st s st' h
    simp only [priTick, Except.ok.injEq, Prod.mk.injEq] at h
    rw [← h.2]; exact hR.refl _
  | c :: cs, hc => by
    intro st s st' h
    simp only [priTick] at h
    cases hx : c.run st with
    | error e => rw [hx] at h; cases h
    | ok p =>
      obtain ⟨s1, st1⟩ := p
      rw [hx] at h; simp only at h
      have h1 := hR.trans _ _ _ (hc c (by simp) _ _ _ hx) (hR.cost st1 self (st1.cost self + st1.cost c.id))
      split at h
      · exact hR.trans _ _ _ h1 (pri_rel hR cs (fun c h => hc c (by simp [h])) _ _ _ h)
      · simp only [Except.ok.injEq, Prod.mk.injEq] at h
        rw [← h.2]; exact h1

theorem or_rel (hR : Stable E R) {self} : ∀ (cs : List (Child σ)), (∀ c ∈ cs, Resp R c.run) → ∀ acc,
    Resp R (orTick self cs acc)
  | [], _, acc => by
    intro st s st' h
    simp only [orTick, Except.ok.injEq, Prod.mk.injEq] at h
    rw [← h.2]; exact hR.refl _
  | c :: cs, hc, acc => by
    intro st s st' h
    simp only [orTick] at h
    cases hx : c.run st with
    | error e => rw [hx] at h; cases h
    | ok p =>
      obtain ⟨s1, st1⟩ := p
      rw [hx] at h; simp only at h
      have h1 := hR.trans _ _ _ (hc c (by simp) _ _ _ hx) (hR.cost st1 self (st1.cost self + st1.cost c.id))
      exact hR.trans _ _ _ h1 (or_rel hR cs (fun c h => hc c (by simp [h])) _ _ _ _ h)

theorem loop_rel (hR : Stable E R) {cont m} {run : St σ → Res σ} (hc : Resp R run) :
    ∀ n last i st l i' st', whileLoop cont m run n last i st = .ok (l, i', st') → R st st' := by
  intro n
  induction n with
  | zero =>
    intro last i st l i' st' h
    rw [whileLoop] at h
    split at h
    · cases h
    · simp only [Except.ok.injEq, Prod.mk.injEq] at h; rw [← h.2.2]; exact hR.refl _
  | succ n ih =>
    intro last i st l i' st' h
    rw [whileLoop] at h
    split at h
    · cases hx : run st with
      | error e => rw [hx] at h; cases h
      | ok p =>
        obtain ⟨s1, st1⟩ := p
        rw [hx] at h; simp only at h
        split at h
        · exact hR.trans _ _ _ (hc _ _ _ hx) (ih _ _ _ _ _ _ h)
        · simp only [Except.ok.injEq, Prod.mk.injEq] at h; rw [← h.2.2]; exact hc _ _ _ hx
    · simp only [Except.ok.injEq, Prod.mk.injEq] at h; rw [← h.2.2]; exact hR.refl _

theorem repeat_rel (hR : Stable E R) {cont init m self} {run : St σ → Res σ} (hc : Resp R run) :
    Resp R (repeatTick cont init fuel m self run) := by
  intro st s st' h
  simp only [repeatTick] at h
  split at h
  · cases h
  · rename_i i hi
    split at h
    · cases h
    · rename_i l i' st1 hw
      have h1 := loop_rel hR hc _ _ _ _ _ _ _ hw
      split at h
      · cases h
      · simp only [Except.ok.injEq, Prod.mk.injEq] at h
        rw [← h.2]; exact hR.trans _ _ _ h1 (hR.cnt _ _ _)

theorem deco_rel (hR : Stable E R) {k self} {run : St σ → Res σ} (hc : Resp R run) :
    Resp R (decoTick E fuel k self run) := by
  intro st s st' h
  cases k with
  | inverter =>
    simp only [decoTick] at h
    split at h
    · cases h
    · rename_i hx; simp only [Except.ok.injEq, Prod.mk.injEq] at h; rw [← h.2]; exact hc _ _ _ hx
  | limiter m =>
    simp only [decoTick] at h
    split at h
    · cases h
    · split at h
      · split at h
        · cases h
        · rename_i hx
          split at h <;> simp only [Except.ok.injEq, Prod.mk.injEq] at h <;> rw [← h.2]
          · exact hR.trans _ _ _ (hc _ _ _ hx) (hR.cnt _ _ _)
          · exact hc _ _ _ hx
      · simp only [Except.ok.injEq, Prod.mk.injEq] at h; rw [← h.2]; exact hR.refl _
  | repeater m => exact repeat_rel hR hc st s st' h
  | untilFailure m => exact repeat_rel hR hc st s st' h
  | untilSuccess m => exact repeat_rel hR hc st s st' h
  | maxTime m =>
    simp only [decoTick] at h
    split at h
    · cases h
    · split at h
      · cases h
      · rename_i hx
        have := hR.trans _ _ _ (hR.user st (E.now st.user).2) (hc _ _ _ hx)
        split at h <;> simp only [Except.ok.injEq, Prod.mk.injEq] at h <;> rw [← h.2] <;> exact this

mutual
theorem exec_rel (hR : Stable E R) (fuel : Nat) : ∀ t : Tree L, Resp R (exec E fuel t)
  | .leaf id a => by
    rw [exec]
    refine execute_rel hR .none ?_
    intro st s st' h
    simp only at h
    split at h
    · cases h
    · simp only [Except.ok.injEq, Prod.mk.injEq] at h; rw [← h.2]; exact hR.user _ _
  | .comp k id cs => by
    rw [exec]
    refine execute_rel hR .none ?_
    have hc := execs_rel hR fuel cs
    intro st s st' h
    cases k with
    | sequence => exact seq_rel hR _ hc 0 st s st' h
    | priority => exact hR.trans _ _ _ (hR.cost st id 0) (pri_rel hR _ hc _ s st' h)
    | orNode => exact hR.trans _ _ _ (hR.cost st id 0) (or_rel hR _ hc _ _ s st' h)
    | memSequence => cases h
    | memPriority => cases h
  | .deco k id c => by
    rw [exec]
    exact execute_rel hR (.deco k) (deco_rel hR (exec_rel hR fuel c))
  | .emptyDeco k id => by
    rw [exec]
    refine execute_rel hR (.deco k) ?_
    intro st s st' h
    simp only [Except.ok.injEq, Prod.mk.injEq] at h; rw [← h.2]; exact hR.refl _
theorem execs_rel (hR : Stable E R) (fuel : Nat) : ∀ cs : List (Tree L), ∀ c ∈ execs E fuel cs, Resp R c.run
  | [] => by simp [execs]
  | c :: cs => by
    have h1 := exec_rel hR fuel c
    have h2 := execs_rel hR fuel cs
    intro c' hc'
    rw [execs] at hc'
    rcases List.mem_cons.1 hc' with rfl | h
    · exact h1
    · exact h2 c' h
end
end

/-- What `_execute` does around the body, field by field. -/
theorem around {E : Env σ L} {id : Id} {hook : St σ → St σ} (hh : Hook E id hook) (st : St σ) :
    (bodyStart id hook st).stack = id :: st.stack ∧ (bodyStart id hook st).count = st.count + 1 ∧
    (bodyStart id hook st).ticksAll = upd st.ticksAll id (st.ticksAll id + 1) ∧
    (bodyStart id hook st).nSuccess = st.nSuccess ∧ (bodyStart id hook st).log = st.log := by
  refine ⟨bodyStart_stack hh st, ?_⟩
  simp only [bodyStart, openIfClosed]
  split
  · exact ⟨rfl, rfl, rfl, rfl⟩
  · obtain ⟨u, c, s, h, _⟩ := hh.spec { (enter id st) with isOpen := upd (enter id st).isOpen id true }
    rw [h]; exact ⟨rfl, rfl, rfl, rfl⟩

theorem close_spec {id : Id} {s : Status} {st1 st2 : St σ}
    (h : closeIfDone id s (afterTick id s st1) = .ok st2) :
    st2.stack.length + 1 ≥ st1.stack.length ∧ st2.count = st1.count ∧ st2.ticksAll = st1.ticksAll ∧
    st2.nSuccess = (if s = .success then upd st1.nSuccess id (st1.nSuccess id + 1) else st1.nSuccess) := by
  cases s
  case running =>
    simp [closeIfDone, afterTick] at h; rw [← h]; simp
  all_goals
    simp only [closeIfDone, afterTick] at h
    rw [if_neg (by simp)] at h
    split at h
    · cases h
    · rename_i hs
      simp only [Except.ok.injEq] at h; rw [← h]
      simp [hs]

/-- The stack never shrinks across an execution. -/
def LenLe (a b : St σ) : Prop := a.stack.length ≤ b.stack.length

theorem lenLe_stable (E : Env σ L) : Stable E (LenLe (σ := σ)) where
  refl _ := Nat.le_refl _
  trans _ _ _ h h' := Nat.le_trans h h'
  user _ _ := Nat.le_refl _
  cost _ _ _ := Nat.le_refl _
  cnt _ _ _ := Nat.le_refl _
  node id hook st s st1 st2 hh h hc := by
    have h1 := (around hh st).1
    have h2 := (close_spec hc).1
    simp only [LenLe] at *
    rw [h1] at h
    simp at h; omega

/-- Counters: both grow, executions that did not succeed are never forgotten. -/
def CtrLe (a b : St σ) : Prop :=
  ∀ j, a.ticksAll j ≤ b.ticksAll j ∧ a.nSuccess j ≤ b.nSuccess j ∧
    b.nSuccess j + a.ticksAll j ≤ b.ticksAll j + a.nSuccess j

theorem ctrLe_stable (E : Env σ L) : Stable E (CtrLe (σ := σ)) where
  refl _ _ := by omega
  trans _ _ _ h h' j := by have := h j; have := h' j; omega
  user _ _ _ := by simp; omega
  cost _ _ _ _ := by simp; omega
  cnt _ _ _ _ := by simp; omega
  node id hook st s st1 st2 hh h hc j := by
    obtain ⟨_, _, h1, h2, _⟩ := around hh st
    obtain ⟨_, _, h3, h4⟩ := close_spec hc
    have hj := h j
    rw [h1, h2] at hj
    rw [h3, h4]
    by_cases e : j = id
    · subst e
      simp only [upd_same] at hj
      split
      · simp only [upd_same]; omega
      · omega
    · rw [upd_other _ _ e] at hj
      split
      · rw [upd_other _ _ e]; omega
      · omega

/-! ### Exceptions the engine itself never raises -/

section
variable {E : Env σ L} {fuel : Nat} {B : Crash}

/-- `run` never raises `B`. -/
def Never (B : Crash) (run : St σ → Res σ) : Prop := ∀ st, run st ≠ .error B

theorem seq_never {self} : ∀ (cs : List (Child σ)), (∀ c ∈ cs, Never B c.run) → ∀ tmp, Never B (seqTick self cs tmp)
  | [], _, tmp => by intro st h; cases h
  | c :: cs, hc, tmp => by
    intro st h
    simp only [seqTick] at h
    split at h
    · rename_i hx; cases h; exact hc c (by simp) st hx
    · split at h
      · exact seq_never cs (fun c h => hc c (by simp [h])) _ _ h
      · cases h
theorem pri_never {self} : ∀ (cs : List (Child σ)), (∀ c ∈ cs, Never B c.run) → Never B (priTick self cs)
  | [], _ => by intro st h; cases h
  | c :: cs, hc => by
    intro st h
    simp only [priTick] at h
    split at h
    · rename_i hx; cases h; exact hc c (by simp) st hx
    · split at h
      · exact pri_never cs (fun c h => hc c (by simp [h])) _ h
      · cases h
theorem or_never {self} : ∀ (cs : List (Child σ)), (∀ c ∈ cs, Never B c.run) → ∀ acc, Never B (orTick self cs acc)
  | [], _, acc => by intro st h; cases h
  | c :: cs, hc, acc => by
    intro st h
    simp only [orTick] at h
    split at h
    · rename_i hx; cases h; exact hc c (by simp) st hx
    · exact or_never cs (fun c h => hc c (by simp [h])) _ _ h

theorem loop_never {cont m} {run : St σ → Res σ} (hc : Never B run) :
    ∀ n last i st, (B = .outOfFuel → 0 ≤ m ∧ (m - i).toNat ≤ n) → whileLoop cont m run n last i st ≠ .error B := by
  intro n
  induction n with
  | zero =>
    intro last i st hB h
    rw [whileLoop] at h
    split at h
    · cases h; have := hB rfl; omega
    · cases h
  | succ n ih =>
    intro last i st hB h
    rw [whileLoop] at h
    split at h
    · split at h
      · rename_i hx; cases h; exact hc st hx
      · split at h
        · exact ih _ _ _ (fun h => by have := hB h; omega) h
        · cases h
    · cases h

/-- Decorator kinds and the engine-level exceptions they can raise. -/
def DKind.safe : DKind → Crash → Prop
  | .repeater m, c => c ≠ .typeError ∧ (c = .outOfFuel → 0 ≤ m) ∧ c ≠ .unboundStatus
  | .untilFailure m, c => c ≠ .typeError ∧ (c = .outOfFuel → 0 ≤ m) ∧ c ≠ .unboundStatus
  | .untilSuccess m, c => c ≠ .typeError ∧ (c = .outOfFuel → 0 ≤ m) ∧ c ≠ .unboundStatus
  | .limiter _, c => c ≠ .typeError
  | .maxTime _, c => c ≠ .typeError
  | .inverter, _ => True

theorem repeat_never {cont init m self} {run : St σ → Res σ} (hc : Never B run)
    (h1 : B ≠ .typeError) (h2 : B = .outOfFuel → 0 ≤ m) (h3 : B ≠ .unboundStatus) :
    Never B (repeatTick cont init fuel m self run) := by
  intro st h
  simp only [repeatTick] at h
  split at h
  · cases h; exact h1 rfl
  · split at h
    · rename_i i _ _ hw
      cases h
      exact loop_never hc _ _ _ _ (fun e => by
        have := h2 e; refine ⟨this, ?_⟩; simp only [loopFuel]; rw [if_neg (by omega)]; omega) hw
    · split at h
      · cases h; exact h3 rfl
      · cases h

theorem deco_never {k self} {run : St σ → Res σ} (hc : Never B run) (hk : k.safe B) :
    Never B (decoTick E fuel k self run) := by
  intro st h
  cases k with
  | inverter =>
    simp only [decoTick] at h
    split at h
    · rename_i hx; cases h; exact hc _ hx
    · cases h
  | limiter m =>
    simp only [decoTick] at h
    split at h
    · cases h; exact hk rfl
    · split at h
      · split at h
        · rename_i hx; cases h; exact hc _ hx
        · split at h <;> cases h
      · cases h
  | repeater m => exact repeat_never hc hk.1 hk.2.1 hk.2.2 st h
  | untilFailure m => exact repeat_never hc hk.1 hk.2.1 hk.2.2 st h
  | untilSuccess m => exact repeat_never hc hk.1 hk.2.1 hk.2.2 st h
  | maxTime m =>
    simp only [decoTick] at h
    split at h
    · cases h; exact hk rfl
    · split at h
      · rename_i hx; cases h; exact hc _ hx
      · split at h <;> cases h

/-- A node never pops from an empty list. -/
theorem execute_never {id hook body} (hh : Hook E id hook) (hl : Resp LenLe body) (hb : Never B body) :
    Never B (execute (σ := σ) id hook body) := by
  intro st h
  simp only [execute] at h
  rw [show countTick id (openIfClosed id hook (enter id st)) = bodyStart id hook st from rfl] at h
  cases hx : body (bodyStart id hook st) with
  | error e => rw [hx] at h; cases h; exact hb _ hx
  | ok p =>
    obtain ⟨s1, st1⟩ := p
    have hlen := hl _ _ _ hx
    have h1 := (around hh st).1
    simp only [LenLe, h1] at hlen
    rw [hx] at h; simp only at h
    cases hs : st1.stack with
    | nil => rw [hs] at hlen; simp at hlen
    | cons a l => cases s1 <;> simp [closeIfDone, afterTick, hs] at h

mutual
/-- All decorators and composites of the tree satisfy the condition. -/
def Tree.Safe (B : Crash) : Tree L → Prop
  | .leaf _ _ => ∀ n, B ≠ .leaf n
  | .comp k _ cs => (k = .memSequence ∨ k = .memPriority → B ≠ .nameError) ∧ SafeList B cs
  | .deco k _ c => k.safe B ∧ c.Safe B
  | .emptyDeco _ _ => True
def SafeList (B : Crash) : List (Tree L) → Prop
  | [] => True
  | c :: cs => c.Safe B ∧ SafeList B cs
end

mutual
theorem exec_never : ∀ t : Tree L, t.Safe B → Never B (exec E fuel t)
  | .leaf id a, hs => by
    rw [exec]
    refine execute_never (E := E) .none ?_ ?_
    · intro st s st' h
      simp only at h
      split at h
      · cases h
      · simp only [Except.ok.injEq, Prod.mk.injEq] at h; rw [← h.2]; exact Nat.le_refl _
    · intro st h
      simp only at h
      split at h
      · rw [Tree.Safe] at hs; cases h; exact hs _ rfl
      · cases h
  | .comp k id cs, hs => by
    rw [Tree.Safe] at hs
    have hc := execs_never cs hs.2
    have hr := execs_rel (lenLe_stable E) fuel cs
    rw [exec]
    refine execute_never (E := E) .none ?_ ?_
    · intro st s st' h
      cases k with
      | sequence => exact seq_rel (lenLe_stable E) _ hr 0 st s st' h
      | priority => exact pri_rel (lenLe_stable E) _ hr { st with cost := upd st.cost id 0 } s st' h
      | orNode => exact or_rel (lenLe_stable E) _ hr _ { st with cost := upd st.cost id 0 } s st' h
      | memSequence => cases h
      | memPriority => cases h
    · intro st h
      cases k with
      | sequence => exact seq_never _ hc _ _ h
      | priority => exact pri_never _ hc _ h
      | orNode => exact or_never _ hc _ _ h
      | memSequence => cases h; exact hs.1 (.inl rfl) rfl
      | memPriority => cases h; exact hs.1 (.inr rfl) rfl
  | .deco k id c, hs => by
    rw [Tree.Safe] at hs
    rw [exec]
    exact execute_never (E := E) (.deco k) (deco_rel (lenLe_stable E) (exec_rel (lenLe_stable E) fuel c))
      (deco_never (exec_never c hs.2) hs.1)
  | .emptyDeco k id, _ => by
    rw [exec]
    refine execute_never (E := E) (.deco k) ?_ ?_
    · intro st s st' h
      simp only [Except.ok.injEq, Prod.mk.injEq] at h; rw [← h.2]; exact Nat.le_refl _
    · intro st h; cases h
theorem execs_never : ∀ cs : List (Tree L), SafeList B cs → ∀ c ∈ execs E fuel cs, Never B c.run
  | [], _ => by simp [execs]
  | c :: cs, hs => by
    rw [SafeList] at hs
    have h1 := exec_never c hs.1
    have h2 := execs_never cs hs.2
    intro c' hc'
    rw [execs] at hc'
    rcases List.mem_cons.1 hc' with rfl | h
    · exact h1
    · exact h2 c' h
end
end

mutual
/-- `popEmpty` is never a cause. -/
theorem safe_popEmpty : ∀ t : Tree L, t.Safe .popEmpty
  | .leaf _ _ => by rw [Tree.Safe]; intro n h; cases h
  | .comp _ _ cs => by rw [Tree.Safe]; exact ⟨fun _ h => (by cases h), safeList_popEmpty cs⟩
  | .deco k _ c => by
    rw [Tree.Safe]; refine ⟨?_, safe_popEmpty c⟩
    cases k <;> simp [DKind.safe]
  | .emptyDeco _ _ => by rw [Tree.Safe]; trivial
theorem safeList_popEmpty : ∀ cs : List (Tree L), SafeList .popEmpty cs
  | [] => by rw [SafeList]; trivial
  | c :: cs => by rw [SafeList]; exact ⟨safe_popEmpty c, safeList_popEmpty cs⟩
end

mutual
theorem safe_outOfFuel : ∀ t : Tree L, t.Bounded → t.Safe .outOfFuel
  | .leaf _ _, _ => by rw [Tree.Safe]; intro n h; cases h
  | .comp _ _ cs, h => by
    rw [Tree.Bounded] at h; rw [Tree.Safe]
    exact ⟨fun _ h => (by cases h), safeList_outOfFuel cs h⟩
  | .deco k _ c, h => by
    rw [Tree.Bounded] at h; rw [Tree.Safe]
    refine ⟨?_, safe_outOfFuel c h.2⟩
    cases k <;> simp_all [DKind.safe, DKind.Bounded]
  | .emptyDeco _ _, _ => by rw [Tree.Safe]; trivial
theorem safeList_outOfFuel : ∀ cs : List (Tree L), BoundedList cs → SafeList .outOfFuel cs
  | [], _ => by rw [SafeList]; trivial
  | c :: cs, h => by
    rw [BoundedList] at h; rw [SafeList]; exact ⟨safe_outOfFuel c h.1, safeList_outOfFuel cs h.2⟩
end

mutual
/-- A bounded tree does not look at the fuel. -/
theorem exec_fuel {E : Env σ L} (f f' : Nat) : ∀ t : Tree L, t.Bounded → exec E f t = exec E f' t
  | .leaf _ _, _ => by rw [exec, exec]
  | .comp _ _ cs, h => by rw [Tree.Bounded] at h; rw [exec, exec, execs_fuel f f' cs h]
  | .deco k id c, h => by
    rw [Tree.Bounded] at h
    have hc := exec_fuel (E := E) f f' c h.2
    rw [exec, exec, hc]
    congr 1
    funext st
    cases k with
    | inverter => rfl
    | limiter m => rfl
    | maxTime m => rfl
    | repeater m => 
      have : 0 ≤ m := h.1
      simp only [decoTick, repeatTick, loopFuel, if_neg (Int.not_lt.2 this)]
    | untilFailure m =>
      have : 0 ≤ m := h.1
      simp only [decoTick, repeatTick, loopFuel, if_neg (Int.not_lt.2 this)]
    | untilSuccess m =>
      have : 0 ≤ m := h.1
      simp only [decoTick, repeatTick, loopFuel, if_neg (Int.not_lt.2 this)]
  | .emptyDeco _ _, _ => by rw [exec, exec]
theorem execs_fuel {E : Env σ L} (f f' : Nat) : ∀ cs : List (Tree L), BoundedList cs → execs E f cs = execs E f' cs
  | [], _ => by rw [execs, execs]
  | c :: cs, h => by
    rw [BoundedList] at h
    rw [execs, execs, exec_fuel f f' c h.1, execs_fuel f f' cs h.2]
end

end Verif.BT
