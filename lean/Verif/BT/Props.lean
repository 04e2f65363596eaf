import Verif.BT.Bound
/-!
# Properties of the behaviour-tree engine (C01–C10, C12, C14, C15)

Statements only use the model (`Verif.BT.Model`) and the specification (`Verif.BT.Spec`).
-/
namespace Verif.BT
variable {σ L : Type} {E : Env σ L} {fuel : Nat}

/-! Concrete environments for the non-vacuity examples. -/

/-- Leaves that return a fixed status and count their executions in the world. -/
def constEnv : Env Nat Status where
  act s u := .ok (s, u + 1)
  now u := (u, u)

/-- Leaves that follow a script: the status depends on how often any leaf ran before. -/
def scriptEnv : Env Nat (List Status) where
  act script u := .ok (script[u]?.getD .success, u + 1)
  now u := (u, u)

/-- What an observer `f` of the final state sees (for the concrete examples below). -/
def view {α : Type} (f : St σ → α) : Res σ → Option (Status × α)
  | .ok (s, st) => some (s, f st)
  | .error _ => none

theorem ran {α : Type} (f : St σ → α) {r : Res σ} {s : Status} {a : α} (h : view f r = some (s, a)) :
    ∃ st', r = .ok (s, st') ∧ f st' = a := by
  cases r with
  | error e => cases h
  | ok p =>
    obtain ⟨s', st'⟩ := p
    simp only [view, Option.some.injEq, Prod.mk.injEq] at h
    obtain ⟨rfl, h⟩ := h
    exact ⟨_, rfl, h⟩

def views {α : Type} (f : St σ → α) : Except Crash (List Status × St σ) → Option (List Status × α)
  | .ok (s, st) => some (s, f st)
  | .error _ => none

theorem rans {α : Type} (f : St σ → α) {r : Except Crash (List Status × St σ)} {s : List Status} {a : α}
    (h : views f r = some (s, a)) : ∃ st', r = .ok (s, st') ∧ f st' = a := by
  cases r with
  | error e => cases h
  | ok p =>
    obtain ⟨s', st'⟩ := p
    simp only [views, Option.some.injEq, Prod.mk.injEq] at h
    obtain ⟨rfl, h⟩ := h
    exact ⟨_, rfl, h⟩

/-! ## C01 Sequence -/

/-- C01. A Sequence executes a prefix of its children from left to right. Either it executed all of them, all
succeeded and so does it; or its status is that of the last executed child, which is the first
that did not succeed. -/
theorem C01_sequence {id : Id} {cs : List (Tree L)} {st : St σ} {s : Status} {st' : St σ}
    (h : exec E fuel (.comp .sequence id cs) st = .ok (s, st')) :
    ∃ n ss st0 st1, n ≤ cs.length ∧ SameOff id st st0 ∧ Chain E fuel id (cs.take n) st0 ss st1 ∧
      SameOff id st1 st' ∧
      ((s = .success ∧ n = cs.length ∧ ∀ x ∈ ss, x = .success) ∨
       (s ≠ .success ∧ ∃ k, ss = List.replicate k .success ++ [s])) := by
  rw [exec] at h
  obtain ⟨st1, h1, h2⟩ := execute_ok_inv h
  obtain ⟨n, ss, hn, hC, hr⟩ := seq_law cs 0 _ s st1 h1
  exact ⟨n, ss, _, st1, hn, sameOff_bodyStart (E := E) .none st (bodyStart_user_none st), hC, h2, hr⟩

/-- C01, exceptions: a Sequence raises only what one of its children raised, all children before that one
having succeeded and no child after it being executed. -/
theorem C01_sequence_exception {id : Id} {cs : List (Tree L)} {st : St σ} {e : Crash}
    (h : exec E fuel (.comp .sequence id cs) st = .error e) :
    ∃ n ss st0 st1 c, SameOff id st st0 ∧ Chain E fuel id (cs.take n) st0 ss st1 ∧
      (∀ x ∈ ss, x = .success) ∧ cs[n]? = some c ∧ exec E fuel c st1 = .error e := by
  rw [exec] at h
  have h1 := execute_err_inv (E := E) .none (fun st s st' h =>
    seq_rel (lenLe_stable E) _ (execs_rel (lenLe_stable E) fuel cs) 0 st s st' h) h
  obtain ⟨n, ss, st1, c, hC, hs, hg, he⟩ := seq_law_err cs 0 _ e h1
  exact ⟨n, ss, _, st1, c, sameOff_bodyStart (E := E) .none st (bodyStart_user_none st), hC, hs, hg, he⟩

/-- Non-vacuity: [SUCCESS, FAILURE, SUCCESS] executes two leaves and fails. -/
example : ∃ st', exec constEnv 0 (.comp .sequence 0 [.leaf 1 .success, .leaf 2 .failure, .leaf 3 .success])
    { user := 0 } = .ok (.failure, st') ∧ st'.user = 2 := ran (·.user) (by decide +kernel)

/-! ## C02 Priority -/

/-- C02. A Priority executes a prefix of its children from left to right. Either it executed all of them, all
failed and so does it; or its status is that of the last executed child, which is the first that did not
fail. -/
theorem C02_priority {id : Id} {cs : List (Tree L)} {st : St σ} {s : Status} {st' : St σ}
    (h : exec E fuel (.comp .priority id cs) st = .ok (s, st')) :
    ∃ n ss st0 st1, n ≤ cs.length ∧ SameOff id st st0 ∧ Chain E fuel id (cs.take n) st0 ss st1 ∧
      SameOff id st1 st' ∧
      ((s = .failure ∧ n = cs.length ∧ ∀ x ∈ ss, x = .failure) ∨
       (s ≠ .failure ∧ ∃ k, ss = List.replicate k .failure ++ [s])) := by
  rw [exec] at h
  obtain ⟨st1, h1, h2⟩ := execute_ok_inv h
  obtain ⟨n, ss, hn, hC, hr⟩ := pri_law cs _ s st1 h1
  exact ⟨n, ss, _, st1, hn, (sameOff_bodyStart (E := E) .none st (bodyStart_user_none st)).trans
    (sameOff_cost id _ 0), hC, h2, hr⟩

/-- C02, exceptions. -/
theorem C02_priority_exception {id : Id} {cs : List (Tree L)} {st : St σ} {e : Crash}
    (h : exec E fuel (.comp .priority id cs) st = .error e) :
    ∃ n ss st0 st1 c, SameOff id st st0 ∧ Chain E fuel id (cs.take n) st0 ss st1 ∧
      (∀ x ∈ ss, x = .failure) ∧ cs[n]? = some c ∧ exec E fuel c st1 = .error e := by
  rw [exec] at h
  have h1 := execute_err_inv (E := E) .none (fun st s st' h =>
    (lenLe_stable E).trans _ _ _ ((lenLe_stable E).cost st id 0)
      (pri_rel (lenLe_stable E) _ (execs_rel (lenLe_stable E) fuel cs) _ s st' h)) h
  obtain ⟨n, ss, st1, c, hC, hs, hg, he⟩ := pri_law_err cs _ e h1
  exact ⟨n, ss, _, st1, c, (sameOff_bodyStart (E := E) .none st (bodyStart_user_none st)).trans
    (sameOff_cost id _ 0), hC, hs, hg, he⟩

example : ∃ st', exec constEnv 0 (.comp .priority 0 [.leaf 1 .failure, .leaf 2 .running, .leaf 3 .success])
    { user := 0 } = .ok (.running, st') ∧ st'.user = 2 := ran (·.user) (by decide +kernel)

/-! ## C03 OrNode -/

/-- C03 as far as it holds: an OrNode executes all its children in order; it returns SUCCESS exactly when some
child returned something else than FAILURE, and FAILURE otherwise. -/
theorem C03_orNode_general {id : Id} {cs : List (Tree L)} {st : St σ} {s : Status} {st' : St σ}
    (h : exec E fuel (.comp .orNode id cs) st = .ok (s, st')) :
    ∃ ss st0 st1, ss.length = cs.length ∧ SameOff id st st0 ∧ Chain E fuel id cs st0 ss st1 ∧
      SameOff id st1 st' ∧ (s = .success ∨ s = .failure) ∧ (s = .success ↔ ∃ x ∈ ss, x ≠ .failure) := by
  rw [exec] at h
  obtain ⟨st1, h1, h2⟩ := execute_ok_inv h
  obtain ⟨ss, hn, hC, hr⟩ := or_law cs _ _ s st1 h1
  refine ⟨ss, _, st1, hn, (sameOff_bodyStart (E := E) .none st (bodyStart_user_none st)).trans
    (sameOff_cost id _ 0), hC, h2, ?_, ?_⟩
  · rw [hr, orAcc]; split <;> simp
  · rw [hr, orAcc]
    split
    · rename_i hx; simpa using hx
    · rename_i hx; simpa using hx

/-- C03 for children that return SUCCESS or FAILURE only: SUCCESS iff some child succeeded.
Missing for the full C03: children returning RUNNING or ERROR, for which it is false (below). -/
theorem C03_orNode_partial {id : Id} {cs : List (Tree L)} {st : St σ} {s : Status} {st' : St σ}
    (h : exec E fuel (.comp .orNode id cs) st = .ok (s, st')) :
    ∃ ss st0 st1, ss.length = cs.length ∧ SameOff id st st0 ∧ Chain E fuel id cs st0 ss st1 ∧
      SameOff id st1 st' ∧
      ((∀ x ∈ ss, x = .success ∨ x = .failure) →
        ((s = .success ↔ .success ∈ ss) ∧ (s = .failure ↔ ∀ x ∈ ss, x = .failure))) := by
  obtain ⟨ss, st0, st1, h1, h2, h3, h4, h5, h6⟩ := C03_orNode_general h
  refine ⟨ss, st0, st1, h1, h2, h3, h4, fun hx => ?_⟩
  constructor
  · rw [h6]
    constructor
    · rintro ⟨x, hm, hne⟩
      rcases hx x hm with rfl | rfl
      · exact hm
      · exact absurd rfl hne
    · exact fun hm => ⟨_, hm, by simp⟩
  · constructor
    · intro hs x hm
      apply Decidable.byContradiction
      intro hne
      have := h6.2 ⟨x, hm, hne⟩
      rw [hs] at this; cases this
    · intro hall
      rcases h5 with h5 | h5
      · obtain ⟨x, hm, hne⟩ := h6.1 h5
        exact absurd (hall x hm) hne
      · exact h5

/-- C03 is false of the code: an OrNode whose only child ends in ERROR returns SUCCESS; likewise RUNNING. -/
theorem C03_orNode_error_violation :
    (∃ st', exec constEnv 0 (.comp .orNode 0 [.leaf 1 .error]) { user := 0 } = .ok (.success, st')) ∧
    (∃ st', exec constEnv 0 (.comp .orNode 0 [.leaf 1 .running]) { user := 0 } = .ok (.success, st')) :=
  ⟨(ran (fun _ => ()) (a := ()) (by decide +kernel)).imp fun _ h => h.1,
   (ran (fun _ => ()) (a := ()) (by decide +kernel)).imp fun _ h => h.1⟩

example : ∃ st', exec constEnv 0 (.comp .orNode 0 [.leaf 1 .success, .leaf 2 .failure, .leaf 3 .failure])
    { user := 0 } = .ok (.success, st') ∧ st'.user = 3 := ran (·.user) (by decide +kernel)

/-! ## C04 RepeatUntilSuccess -/

/-- C04. A closed RepeatUntilSuccess(c, n), n > 0: the child is executed at least once and at most n times, all
its executions but the last returned FAILURE, the status of the last is returned, and it is FAILURE only if
the child was executed n times. -/
theorem C04_repeatUntilSuccess {c : Tree L} {id : Id} {n : Int} {st : St σ} {s : Status} {st' : St σ}
    (hn : 0 < n) (hcl : st.isOpen id = false)
    (h : exec E fuel (.deco (.untilSuccess n) id c) st = .ok (s, st')) :
    ∃ pre st0 st1, SameOff id st st0 ∧ Iter E fuel c st0 (pre ++ [s]) st1 ∧ SameOff id st1 st' ∧
      (∀ x ∈ pre, x = .failure) ∧ ((pre ++ [s]).length : Int) ≤ n ∧
      (s = .failure → ((pre ++ [s]).length : Int) = n) := by
  obtain ⟨ss, st0, st1, h1, h2, h3, h4⟩ := repeat_law (k := .untilSuccess n) (m := n) (init := none)
    (cont := fun s => s = .failure) hcl (by simp) (by simp) (fun _ => rfl) h
  rcases h4 with ⟨_, h4, _⟩ | ⟨_, pre, h5, h6, h7, h8⟩
  · cases h4
  · subst h5
    refine ⟨pre, st0, st1, h1, h2, h3, by simpa using h6, by omega, fun hs => ?_⟩
    exact (h8 (by simp [hs])).2

/-- C04: `RepeatUntilSuccess` without a bound (`max_loop < 0`) only returns a status other than FAILURE. -/
theorem C04_repeatUntilSuccess_unbounded {c : Tree L} {id : Id} {n : Int} {st : St σ} {s : Status} {st' : St σ}
    (hn : n < 0) (hcl : st.isOpen id = false)
    (h : exec E fuel (.deco (.untilSuccess n) id c) st = .ok (s, st')) :
    ∃ pre st0 st1, SameOff id st st0 ∧ Iter E fuel c st0 (pre ++ [s]) st1 ∧ SameOff id st1 st' ∧
      (∀ x ∈ pre, x = .failure) ∧ s ≠ .failure := by
  obtain ⟨ss, st0, st1, h1, h2, h3, h4⟩ := repeat_law (k := .untilSuccess n) (m := n) (init := none)
    (cont := fun s => s = .failure) hcl (by simp) (by simp) (fun _ => rfl) h
  rcases h4 with ⟨_, h4, _⟩ | ⟨_, pre, h5, h6, h7, h8⟩
  · cases h4
  · subst h5
    refine ⟨pre, st0, st1, h1, h2, h3, by simpa using h6, fun hs => ?_⟩
    have := (h8 (by simp [hs])).1; omega

example : ∃ st', exec scriptEnv 0 (.deco (.untilSuccess 5) 0 (.leaf 1 [.failure, .failure, .success]))
    { user := 0 } = .ok (.success, st') ∧ st'.user = 3 := ran (·.user) (by decide +kernel)
example : ∃ st', exec constEnv 0 (.deco (.untilSuccess 4) 0 (.leaf 1 .failure))
    { user := 0 } = .ok (.failure, st') ∧ st'.user = 4 := ran (·.user) (by decide +kernel)

/-! ## C05 RepeatUntilFailure, Repeater -/

/-- C05 for RepeatUntilFailure(c, n), n > 0. -/
theorem C05_repeatUntilFailure {c : Tree L} {id : Id} {n : Int} {st : St σ} {s : Status} {st' : St σ}
    (hn : 0 < n) (hcl : st.isOpen id = false)
    (h : exec E fuel (.deco (.untilFailure n) id c) st = .ok (s, st')) :
    ∃ pre st0 st1, SameOff id st st0 ∧ Iter E fuel c st0 (pre ++ [s]) st1 ∧ SameOff id st1 st' ∧
      (∀ x ∈ pre, x = .success) ∧ ((pre ++ [s]).length : Int) ≤ n ∧
      (s = .success → ((pre ++ [s]).length : Int) = n) := by
  obtain ⟨ss, st0, st1, h1, h2, h3, h4⟩ := repeat_law (k := .untilFailure n) (m := n) (init := none)
    (cont := fun s => s = .success) hcl (by simp) (by simp) (fun _ => rfl) h
  rcases h4 with ⟨_, h4, _⟩ | ⟨_, pre, h5, h6, h7, h8⟩
  · cases h4
  · subst h5
    refine ⟨pre, st0, st1, h1, h2, h3, by simpa using h6, by omega, fun hs => ?_⟩
    exact (h8 (by simp [hs])).2

/-- C05 for Repeater(c, n), n ≥ 0: with n = 0 nothing runs and the status is SUCCESS; otherwise the child runs
exactly n times unless it returns RUNNING or ERROR, which ends the loop, and the last status is returned. -/
theorem C05_repeater {c : Tree L} {id : Id} {n : Int} {st : St σ} {s : Status} {st' : St σ}
    (hn : 0 ≤ n) (hcl : st.isOpen id = false)
    (h : exec E fuel (.deco (.repeater n) id c) st = .ok (s, st')) :
    ∃ ss st0 st1, SameOff id st st0 ∧ Iter E fuel c st0 ss st1 ∧ SameOff id st1 st' ∧
      ((n = 0 ∧ ss = [] ∧ s = .success) ∨
       (0 < n ∧ ∃ pre, ss = pre ++ [s] ∧ (∀ x ∈ pre, x = .success ∨ x = .failure) ∧ (ss.length : Int) ≤ n ∧
         (s = .success ∨ s = .failure → (ss.length : Int) = n))) := by
  obtain ⟨ss, st0, st1, h1, h2, h3, h4⟩ := repeat_law (k := .repeater n) (m := n) (init := some .success)
    (cont := fun s => s = .success ∨ s = .failure) hcl (by simp) (by simp) (fun _ => rfl) h
  refine ⟨ss, st0, st1, h1, h2, h3, ?_⟩
  rcases h4 with ⟨h4, h5, h6⟩ | ⟨h4, pre, h5, h6, h7, h8⟩
  · cases h5; exact .inl ⟨h6, h4, rfl⟩
  · refine .inr ⟨by omega, pre, h5, by simpa using h6, by omega, fun hs => ?_⟩
    exact (h8 (by simpa using hs)).2

/-- C05 is false of the code at `max_loop = 0`: a closed RepeatUntilSuccess/RepeatUntilFailure with bound 0
raises (`status` is unbound), whatever its child. -/
theorem C05_zero_bound_raises (c : Tree L) (id : Id) (st : St σ) (hcl : st.isOpen id = false) :
    exec E fuel (.deco (.untilSuccess 0) id c) st = .error .unboundStatus ∧
    exec E fuel (.deco (.untilFailure 0) id c) st = .error .unboundStatus := by
  constructor
  · rw [exec]
    simp only [execute]
    rw [show countTick id (openIfClosed id (openHook E (.untilSuccess 0) id) (enter id st))
      = bodyStart id (openHook E (.untilSuccess 0) id) st from rfl]
    simp only [decoTick, repeatTick, bodyStart_cnt (E := E) hcl (k := .untilSuccess 0) (by simp) (by simp)]
    rw [whileLoop.eq_def]
    simp
  · rw [exec]
    simp only [execute]
    rw [show countTick id (openIfClosed id (openHook E (.untilFailure 0) id) (enter id st))
      = bodyStart id (openHook E (.untilFailure 0) id) st from rfl]
    simp only [decoTick, repeatTick, bodyStart_cnt (E := E) hcl (k := .untilFailure 0) (by simp) (by simp)]
    rw [whileLoop.eq_def]
    simp

/-- C05, what remains of "no repeat decorator with a non-negative bound raises": with bound n > 0 (n ≥ 0 for
Repeater) it raises only if an execution of the child raised, the n-th at the latest.
Missing: bound 0 of the other two, where the claim is false (above). -/
theorem C05_no_raise_partial {c : Tree L} {k : DKind} {id : Id} {n : Int} {st : St σ} {e : Crash}
    (hk : (k = .repeater n ∧ 0 ≤ n) ∨ (k = .untilFailure n ∧ 0 < n) ∨ (k = .untilSuccess n ∧ 0 < n))
    (hcl : st.isOpen id = false) (h : exec E fuel (.deco k id c) st = .error e) :
    ∃ ss st0 st1, SameOff id st st0 ∧ Iter E fuel c st0 ss st1 ∧ (ss.length : Int) < n ∧
      exec E fuel c st1 = .error e := by
  rcases hk with ⟨rfl, hn⟩ | ⟨rfl, hn⟩ | ⟨rfl, hn⟩
  · obtain ⟨ss, st0, st1, h1, h2, _, h3, h4⟩ := repeat_law_err (k := .repeater n) (m := n)
      (init := some .success) (cont := fun s => s = .success ∨ s = .failure) hn (.inr (by simp)) hcl
      (by simp) (by simp) (fun _ => rfl) h
    exact ⟨ss, st0, st1, h1, h2, h3, h4⟩
  · obtain ⟨ss, st0, st1, h1, h2, _, h3, h4⟩ := repeat_law_err (k := .untilFailure n) (m := n)
      (init := none) (cont := fun s => s = .success) (by omega) (.inl hn) hcl
      (by simp) (by simp) (fun _ => rfl) h
    exact ⟨ss, st0, st1, h1, h2, h3, h4⟩
  · obtain ⟨ss, st0, st1, h1, h2, _, h3, h4⟩ := repeat_law_err (k := .untilSuccess n) (m := n)
      (init := none) (cont := fun s => s = .failure) (by omega) (.inl hn) hcl
      (by simp) (by simp) (fun _ => rfl) h
    exact ⟨ss, st0, st1, h1, h2, h3, h4⟩

example : ∃ st', exec scriptEnv 0 (.deco (.untilFailure 5) 0 (.leaf 1 [.success, .failure, .success]))
    { user := 0 } = .ok (.failure, st') ∧ st'.user = 2 := ran (·.user) (by decide +kernel)
example : ∃ st', exec scriptEnv 0 (.deco (.repeater 3) 0 (.leaf 1 [.success, .failure, .failure]))
    { user := 0 } = .ok (.failure, st') ∧ st'.user = 3 := ran (·.user) (by decide +kernel)

/-! ## C06 Inverter -/

/-- C06. An Inverter executes its child once and swaps SUCCESS and FAILURE. -/
theorem C06_inverter {c : Tree L} {id : Id} {st : St σ} {s : Status} {st' : St σ}
    (h : exec E fuel (.deco .inverter id c) st = .ok (s, st')) :
    ∃ s1 st0 st1, SameOff id st st0 ∧ exec E fuel c st0 = .ok (s1, st1) ∧ SameOff id st1 st' ∧
      (s = .success ↔ s1 = .failure) ∧ (s = .failure ↔ s1 = .success) ∧
      (s1 ≠ .success → s1 ≠ .failure → s = s1) := by
  rw [exec] at h
  obtain ⟨st2, h1, h2⟩ := execute_ok_inv h
  simp only [decoTick] at h1
  cases hx : exec E fuel c (bodyStart id (openHook E .inverter id) st) with
  | error e => rw [hx] at h1; cases h1
  | ok p =>
    obtain ⟨s1, st1⟩ := p
    rw [hx] at h1; simp only [Except.ok.injEq, Prod.mk.injEq] at h1
    obtain ⟨rfl, rfl⟩ := h1
    exact ⟨s1, _, st1, sameOff_bodyStart (.deco .inverter) st (bodyStart_user_deco (by simp)), hx, h2,
      by cases s1 <;> simp [invert], by cases s1 <;> simp [invert], by cases s1 <;> simp [invert]⟩

/-- C06: two nested Inverters return the child's status. -/
theorem C06_inverter_twice {c : Tree L} {i1 i2 : Id} {st : St σ} {s : Status} {st' : St σ}
    (h : exec E fuel (.deco .inverter i1 (.deco .inverter i2 c)) st = .ok (s, st')) :
    ∃ st0 st1 stA stB, SameOff i1 st stA ∧ SameOff i2 stA st0 ∧ exec E fuel c st0 = .ok (s, st1) ∧
      SameOff i2 st1 stB ∧ SameOff i1 stB st' := by
  obtain ⟨s1, stA, stB, h1, h2, h3, h4, h5, h6⟩ := C06_inverter h
  obtain ⟨s2, st0, st1, h1', h2', h3', h4', h5', h6'⟩ := C06_inverter h2
  refine ⟨st0, st1, stA, stB, h1, h1', ?_, h3', h3⟩
  have : s2 = s := by
    clear h h1 h2 h3 h1' h2' h3'
    revert h4 h5 h6 h4' h5' h6'
    cases s <;> cases s1 <;> cases s2 <;> decide
  rw [← this]; exact h2'

example : ∃ st', exec constEnv 0 (.deco .inverter 0 (.leaf 1 .success)) { user := 0 } = .ok (.failure, st') :=
  (ran (fun _ => ()) (a := ()) (by decide +kernel)).imp fun _ h => h.1

/-! ## C07 No node stays open; ticks are independent -/

/-- C07 (and the engine's central correctness statement). From a state in which all nodes of the tree are
closed, with leaves that never return RUNNING, every execution that returns is one described by the
memory-less big-step rules `Big`, and its bookkeeping is exactly that of the trace: in particular all nodes
are closed again and the open-node stack is as before. -/
theorem C07_engine_refines_spec (hE : E.NoRunning) {t : Tree L} (ht : t.Acyclic) {st : St σ}
    (hc : Closed t st) {s : Status} {st' : St σ} (h : exec E fuel t st = .ok (s, st')) :
    s ≠ .running ∧ ∃ tr, Big E t st.user tr s st'.user ∧ Accounts t st tr st' :=
  exec_sound hE fuel t ht st s st' hc h

/-- C07, converse: whatever the big-step rules allow is what the engine does (for enough fuel in the case of
unbounded repeaters). -/
theorem C07_spec_is_executed (hE : E.NoRunning) {t : Tree L} (ht : t.Acyclic) {u : σ} {tr : List Ev}
    {s : Status} {u' : σ} (h : Big E t u tr s u') :
    ∃ f0, ∀ fuel, f0 ≤ fuel → ∀ st, Closed t st → st.user = u →
      ∃ st', exec E fuel t st = .ok (s, st') ∧ st'.user = u' :=
  big_does hE h ht

/-- C07: after any number of ticks of the tree (the world changing arbitrarily in between) all its nodes are
closed, and each tick left the open-node list empty. -/
theorem C07_closed_after_ticks (hE : E.NoRunning) {t : Tree L} (ht : t.Acyclic) :
    ∀ (ws : List (σ → σ)) (st : St σ), Closed t st → ∀ ss st', ticks E fuel t ws st = .ok (ss, st') →
      Closed t st' ∧ (ws ≠ [] → st'.stack = [])
  | [], st, hc, ss, st', h => by
    simp only [ticks, Except.ok.injEq, Prod.mk.injEq] at h
    rw [← h.2]; exact ⟨hc, fun h => absurd rfl h⟩
  | w :: ws, st, hc, ss, st', h => by
    simp only [ticks] at h
    cases hx : treeTick E fuel t { st with user := w st.user } with
    | error e => rw [hx] at h; cases h
    | ok p =>
      obtain ⟨s, st1⟩ := p
      rw [hx] at h; simp only at h
      obtain ⟨_, tr, _, hA⟩ := exec_sound hE fuel t ht _ s st1 (by exact hc) hx
      cases hy : ticks E fuel t ws st1 with
      | error e => rw [hy] at h; cases h
      | ok q =>
        obtain ⟨ss', st2⟩ := q
        rw [hy] at h; simp only [Except.ok.injEq, Prod.mk.injEq] at h
        have ih := C07_closed_after_ticks hE ht ws st1 hA.closed ss' st2 hy
        rw [← h.2]
        refine ⟨ih.1, fun _ => ?_⟩
        cases ws with
        | nil =>
          simp only [ticks, Except.ok.injEq, Prod.mk.injEq] at hy
          rw [← hy.2, hA.stack]
        | cons _ _ => exact ih.2 (by simp)

/-- C07: what a tick shows (status and effect on the world, or exception) depends only on the world, not on the
bookkeeping left behind by earlier ticks. -/
theorem C07_tick_independent_of_history (hE : E.NoRunning) {t : Tree L} (ht : t.Acyclic) {st1 st2 : St σ}
    (h1 : Closed t st1) (h2 : Closed t st2) (hu : st1.user = st2.user) :
    obs (treeTick E fuel t st1) = obs (treeTick E fuel t st2) := by
  have e1 := exec_obs hE fuel t ht { st1 with stack := [], count := 0 } h1
  have e2 := exec_obs hE fuel t ht { st2 with stack := [], count := 0 } h2
  simp only [treeTick]
  rw [e1, e2]; simp only [hu]

/-- Non-vacuity: an environment without RUNNING, an acyclic tree with a shared node, a closed state. -/
def okEnv : Env Nat Bool where
  act b u := .ok (if b then .success else .failure, u + 1)
  now u := (u, u)
theorem okEnv_noRunning : okEnv.NoRunning := by
  intro a u s u' h
  simp only [okEnv, Except.ok.injEq, Prod.mk.injEq] at h
  rw [← h.1]; split <;> simp
/-- Sequence(shared leaf, RepeatUntilSuccess(Priority(fail, shared leaf), 6)). -/
def demoTree : Tree Bool :=
  .comp .sequence 0 [.leaf 1 true, .deco (.untilSuccess 6) 2 (.comp .priority 3 [.leaf 4 false, .leaf 1 true])]
example : okEnv.NoRunning ∧ demoTree.Acyclic ∧ Closed demoTree ({ user := 0 } : St Nat) ∧
    ∃ st', exec okEnv 0 demoTree { user := 0 } = .ok (.success, st') ∧ (st'.user, st'.ticksAll 1) = (3, 2) :=
  ⟨okEnv_noRunning, by simp [demoTree, Tree.Acyclic, AcyclicList, idsList, Tree.ids], by simp [Closed],
    ran (fun st => (st.user, st.ticksAll 1)) (by decide +kernel)⟩

/-! ## C08 Statistics -/

/-- C08, one execution, arbitrary leaves and states: neither counter decreases, and the number of executions
that did not succeed does not decrease either. -/
theorem C08_counters_step {t : Tree L} {st : St σ} {s : Status} {st' : St σ}
    (h : exec E fuel t st = .ok (s, st')) (j : Id) :
    st.ticksAll j ≤ st'.ticksAll j ∧ st.nSuccess j ≤ st'.nSuccess j ∧
      st'.nSuccess j + st.ticksAll j ≤ st'.ticksAll j + st.nSuccess j :=
  exec_rel (ctrLe_stable E) fuel t st s st' h j

/-- C08, any history of ticks: N_success ≤ N_ticks_all for every node, if so at the start. -/
theorem C08_success_le_ticks (t : Tree L) :
    ∀ (ws : List (σ → σ)) (st : St σ), (∀ j, st.nSuccess j ≤ st.ticksAll j) → ∀ ss st',
      ticks E fuel t ws st = .ok (ss, st') → ∀ j, st'.nSuccess j ≤ st'.ticksAll j ∧
        st.ticksAll j ≤ st'.ticksAll j ∧ st.nSuccess j ≤ st'.nSuccess j
  | [], st, h0, ss, st', h, j => by
    simp only [ticks, Except.ok.injEq, Prod.mk.injEq] at h
    rw [← h.2]; exact ⟨h0 j, Nat.le_refl _, Nat.le_refl _⟩
  | w :: ws, st, h0, ss, st', h, j => by
    simp only [ticks] at h
    cases hx : treeTick E fuel t { st with user := w st.user } with
    | error e => rw [hx] at h; cases h
    | ok p =>
      obtain ⟨s, st1⟩ := p
      rw [hx] at h; simp only at h
      have hs := fun j => C08_counters_step hx j
      simp only at hs
      cases hy : ticks E fuel t ws st1 with
      | error e => rw [hy] at h; cases h
      | ok q =>
        obtain ⟨ss', st2⟩ := q
        rw [hy] at h; simp only [Except.ok.injEq, Prod.mk.injEq] at h
        have ih := C08_success_le_ticks t ws st1 (fun j => by have := hs j; have := h0 j; omega) ss' st2 hy j
        rw [← h.2]
        have := hs j
        omega

/-- C08: for leaves that do not return RUNNING, N_ticks_all grows by the number of executions of the node, and
N_success by the number of its successful executions, `node_count` by the number of all executions. -/
theorem C08_counters_exact (hE : E.NoRunning) {t : Tree L} (ht : t.Acyclic) {st : St σ}
    (hc : Closed t st) {s : Status} {st' : St σ} (h : exec E fuel t st = .ok (s, st')) :
    ∃ tr, Big E t st.user tr s st'.user ∧ st'.count = st.count + tr.length ∧
      ∀ j, st'.ticksAll j = st.ticksAll j + (tr.filter (fun e => e.1 = j)).length ∧
           st'.nSuccess j = st.nSuccess j + (tr.filter (fun e => e = (j, .success))).length := by
  obtain ⟨_, tr, hB, hA⟩ := exec_sound hE fuel t ht st s st' hc h
  exact ⟨tr, hB, hA.count, fun j => ⟨hA.ticks j, hA.succ j⟩⟩

/-- C08: closing a node never pops from an empty list, for any tree, any leaves, any state. -/
theorem C08_no_pop_from_empty (t : Tree L) (st : St σ) : exec E fuel t st ≠ .error .popEmpty :=
  exec_never t (safe_popEmpty t) st

example : ∃ st', ticks constEnv 0 (.comp .orNode 0 [.leaf 1 .running, .leaf 2 .success]) [id, id, id]
    { user := 0 } = .ok ([.success, .success, .success], st') ∧ (st'.ticksAll 1, st'.nSuccess 1) = (3, 0) :=
  rans (fun st => (st.ticksAll 1, st.nSuccess 1)) (by decide +kernel)

/-! ## C09 TotalCost -/

/-- C09 is false of the code: a Sequence with one executed leaf of Cost 5 adds 10 to TotalCost. -/
theorem C09_totalCost_violation :
    ∃ st', exec constEnv 0 (.comp .sequence 0 [.leaf 1 .success]) { user := 0, cost := upd (fun _ => 0) 1 5 }
      = .ok (.success, st') ∧ st'.totalCost = 10 :=
  ran (·.totalCost) (by decide +kernel)

/-- A leaf's execution, in full. -/
theorem leaf_exec {id : Id} {a : L} {st : St σ} {s : Status} {st' : St σ}
    (h : exec E fuel (.leaf id a) st = .ok (s, st')) :
    st'.totalCost = st.totalCost + st.cost id ∧ st'.cost = st.cost := by
  rw [exec] at h
  simp only [execute] at h
  have hb : ∀ st : St σ, (openIfClosed id (fun st => st) (enter id st)).cost = st.cost ∧
      (openIfClosed id (fun st => st) (enter id st)).totalCost = st.totalCost := by
    intro st; simp only [openIfClosed]; split <;> exact ⟨rfl, rfl⟩
  cases ha : E.act a (countTick id (openIfClosed id (fun st => st) (enter id st))).user with
  | error e => rw [ha] at h; cases h
  | ok p =>
    obtain ⟨s1, u1⟩ := p
    rw [ha] at h; simp only at h
    generalize hst : openIfClosed id (fun st => st) (enter id st) = st0 at h
    have h1 := hb st
    rw [hst] at h1
    cases s1
    case running =>
      simp [closeIfDone, afterTick, countTick] at h
      rw [← h.2]; exact ⟨by rw [h1.1, h1.2], h1.1⟩
    all_goals
      simp only [closeIfDone, afterTick, countTick] at h
      rw [if_neg (by simp)] at h
      split at h
      · cases h
      · rename_i heq
        split at heq
        · cases heq
        · cases heq; simp only [Except.ok.injEq, Prod.mk.injEq] at h
          rw [← h.2]; exact ⟨by rw [h1.1, h1.2], h1.1⟩

/-- What remains of C09: a single leaf is charged its Cost once. Missing: any tree with a composite —
a composite adds the Costs of its executed children a second time (violation above and the law below). -/
theorem C09_leaf_charged_once_partial {id : Id} {a : L} {st : St σ} {s : Status} {st' : St σ}
    (h : exec E fuel (.leaf id a) st = .ok (s, st')) :
    st'.totalCost = st.totalCost + st.cost id := (leaf_exec h).1

theorem C09_seq_of_leaves {self : Id} : ∀ (ls : List (Id × L)) (tmp : Int) (st : St σ) (s : Status) (st' : St σ),
    self ∉ ls.map (·.1) →
    seqTick self (execs E fuel (ls.map fun p => .leaf p.1 p.2)) tmp st = .ok (s, st') →
    ∃ n, n ≤ ls.length ∧ st'.cost self = tmp + ((ls.take n).map fun p => st.cost p.1).sum ∧
      st'.totalCost = st.totalCost + ((ls.take n).map fun p => st.cost p.1).sum ∧
      (s = .success → n = ls.length)
  | [], tmp, st, s, st', _, h => by
    simp only [List.map_nil, execs, seqTick, Except.ok.injEq, Prod.mk.injEq] at h
    rw [← h.2]; exact ⟨0, by simp, by simp, by simp, by simp⟩
  | (i, a) :: ls, tmp, st, s, st', hni, h => by
    simp only [List.map_cons, execs, seqTick] at h
    cases hx : exec E fuel (Tree.leaf i a) st with
    | error e => rw [hx] at h; cases h
    | ok p =>
      obtain ⟨s1, st1⟩ := p
      rw [hx] at h; simp only [Tree.id] at h
      obtain ⟨h1, h2⟩ := leaf_exec hx
      rw [h2] at h
      split at h
      · obtain ⟨n, hn, h3, h4, h5⟩ := C09_seq_of_leaves ls _ st1 s st' (by simp at hni ⊢; exact hni.2) h
        rw [h2] at h3 h4
        refine ⟨n + 1, by simp; omega, ?_, ?_, fun hs => by simp [h5 hs]⟩
        · rw [h3]; simp; omega
        · rw [h4, h1]; simp; omega
      · rename_i hs
        simp only [Except.ok.injEq, Prod.mk.injEq] at h
        obtain ⟨rfl, rfl⟩ := h
        exact ⟨1, by simp, by simp, by simp [h1], fun h => absurd h hs⟩

/-- How C09 fails, exactly, for a Sequence of leaves: the n executed leaves are charged *twice*. -/
theorem C09_sequence_charges_twice {id : Id} (ls : List (Id × L)) {st : St σ} {s : Status} {st' : St σ}
    (hni : id ∉ ls.map (·.1))
    (h : exec E fuel (.comp .sequence id (ls.map fun p => .leaf p.1 p.2)) st = .ok (s, st')) :
    ∃ n, n ≤ ls.length ∧
      st'.totalCost = st.totalCost + 2 * ((ls.take n).map fun p => st.cost p.1).sum ∧
      (s = .success → n = ls.length) := by
  rw [exec] at h
  simp only [execute] at h
  rw [show countTick id (openIfClosed id (fun st => st) (enter id st)) = bodyStart id (fun st => st) st from rfl] at h
  have hb : (bodyStart id (fun st => st) st).cost = st.cost ∧
      (bodyStart id (fun st => st) st).totalCost = st.totalCost := by
    simp only [bodyStart, openIfClosed]; split <;> exact ⟨rfl, rfl⟩
  cases hx : compTick .sequence id (execs E fuel (ls.map fun p => Tree.leaf p.1 p.2)) (bodyStart id (fun st => st) st) with
  | error e => rw [hx] at h; cases h
  | ok p =>
    obtain ⟨s1, st1⟩ := p
    obtain ⟨n, hn, h3, h4, h5⟩ := C09_seq_of_leaves ls 0 _ s1 st1 hni hx
    rw [hb.1] at h3 h4
    rw [hb.2] at h4
    rw [hx] at h; simp only at h
    have hclose : ∀ st2, closeIfDone id s1 (afterTick id s1 st1) = .ok st2 →
        st2.totalCost = st1.totalCost + st1.cost id := by
      intro st2 hc
      cases s1
      case running => simp [closeIfDone, afterTick] at hc; rw [← hc]
      all_goals
        simp only [closeIfDone, afterTick] at hc
        rw [if_neg (by simp)] at hc
        split at hc
        · cases hc
        · simp only [Except.ok.injEq] at hc; rw [← hc]
    cases hc : closeIfDone id s1 (afterTick id s1 st1) with
    | error e => rw [hc] at h; cases h
    | ok st2 =>
      rw [hc] at h; simp only [Except.ok.injEq, Prod.mk.injEq] at h
      obtain ⟨rfl, rfl⟩ := h
      refine ⟨n, hn, ?_, h5⟩
      rw [hclose _ hc, h3, h4]; omega

/-! ## C10 Limiter -/

theorem big_root {t : Tree L} {u tr s u'} (hb : Big E t u tr s u') : ∃ pre, tr = pre ++ [(t.id, s)] := by
  cases hb <;> first | exact ⟨_, rfl⟩ | exact ⟨[], rfl⟩

theorem limiter_runs_child {c : Tree L} {id : Id} {m : Int} (hm : 1 ≤ m) {u tr s u'}
    (hB : Big E (.deco (.limiter m) id c) u tr s u') : 1 ≤ (tr.filter (fun e => e.1 = c.id)).length := by
  cases hB with
  | limiterStop h => omega
  | limiterRun _ hb =>
    obtain ⟨pre, rfl⟩ := big_root hb
    simp [List.filter_append]
    omega

/-- C10 is false of the code: for leaves without RUNNING, a Limiter with `max_loop ≥ 1` executes its child in
every one of any number of ticks (it is closed, hence reset, after each). -/
theorem C10_limiter_never_limits (hE : E.NoRunning) {c : Tree L} {id : Id} {m : Int} (hm : 1 ≤ m)
    (ht : (Tree.deco (.limiter m) id c).Acyclic) :
    ∀ (ws : List (σ → σ)) (st : St σ), Closed (.deco (.limiter m) id c) st → ∀ ss st',
      ticks E fuel (.deco (.limiter m) id c) ws st = .ok (ss, st') →
      st.ticksAll c.id + ws.length ≤ st'.ticksAll c.id
  | [], st, hc, ss, st', h => by
    simp only [ticks, Except.ok.injEq, Prod.mk.injEq] at h
    rw [← h.2]; simp
  | w :: ws, st, hc, ss, st', h => by
    simp only [ticks] at h
    cases hx : treeTick E fuel (.deco (.limiter m) id c) { st with user := w st.user } with
    | error e => rw [hx] at h; cases h
    | ok p =>
      obtain ⟨s, st1⟩ := p
      rw [hx] at h; simp only at h
      obtain ⟨_, tr, hB, hA⟩ := exec_sound hE fuel _ ht _ s st1 (by exact hc) hx
      cases hy : ticks E fuel (.deco (.limiter m) id c) ws st1 with
      | error e => rw [hy] at h; cases h
      | ok q =>
        obtain ⟨ss', st2⟩ := q
        rw [hy] at h; simp only [Except.ok.injEq, Prod.mk.injEq] at h
        have ih := C10_limiter_never_limits hE hm ht ws st1 hA.closed ss' st2 hy
        rw [← h.2]
        have hk := hA.ticks c.id
        have h1 : 1 ≤ (tr.filter (fun e => e.1 = c.id)).length := by
          exact limiter_runs_child hm hB
        simp only [List.length_cons]
        simp only at hk
        omega

/-- What remains of C10: with `max_loop ≤ 0` the child is never executed and the status is FAILURE.
Missing: every positive `max_loop`, where the code does not limit (violation above). -/
theorem C10_limiter_nonpositive_partial {c : Tree L} {id : Id} {m : Int} (hm : m ≤ 0) {st : St σ} {s st'}
    (hcl : st.isOpen id = false) (h : exec E fuel (.deco (.limiter m) id c) st = .ok (s, st')) :
    s = .failure ∧ SameOff id st st' := by
  rw [exec] at h
  obtain ⟨st1, h1, h2⟩ := execute_ok_inv h
  simp only [decoTick, bodyStart_cnt (E := E) hcl (k := .limiter m) (by simp) (by simp)] at h1
  rw [if_neg (by omega)] at h1
  simp only [Except.ok.injEq, Prod.mk.injEq] at h1
  obtain ⟨rfl, rfl⟩ := h1
  exact ⟨rfl, (sameOff_bodyStart (.deco _) st (bodyStart_user_deco (by simp))).trans h2⟩

/-- Non-vacuity: Limiter(SUCCESS leaf, 1) ticked five times executes the leaf five times. -/
example : ∃ st', ticks okEnv 0 (.deco (.limiter 1) 0 (.leaf 1 true)) [id, id, id, id, id] { user := 0 }
    = .ok (List.replicate 5 .success, st') ∧ st'.ticksAll 1 = 5 := rans (·.ticksAll 1) (by decide +kernel)
example : ∃ st', exec okEnv 0 (.deco (.limiter 0) 0 (.leaf 1 true)) { user := 0 } = .ok (.failure, st') :=
  (ran (fun _ => ()) (a := ()) (by decide +kernel)).imp fun _ h => h.1

/-! ## C12 MemSequence / MemPriority -/

/-- C12 is false of the code: under python 3 every execution of a MemSequence or MemPriority raises, whatever
the children and the state. -/
theorem C12_mem_composites_raise (id : Id) (cs : List (Tree L)) (st : St σ) :
    exec E fuel (.comp .memSequence id cs) st = .error .nameError ∧
    exec E fuel (.comp .memPriority id cs) st = .error .nameError := by
  constructor <;> rw [exec] <;> rfl

mutual
theorem safe_nameError : ∀ t : Tree L, t.NoMem → t.Safe .nameError
  | .leaf _ _, _ => by simp [Tree.Safe]
  | .comp k _ cs, h => by
    simp only [Tree.NoMem] at h
    exact ⟨fun hk => by rcases hk with hk | hk <;> simp [hk] at h, safeList_nameError cs h.2.2⟩
  | .deco k _ c, h => ⟨by cases k <;> simp [DKind.safe], safe_nameError c h⟩
  | .emptyDeco _ _, _ => trivial
theorem safeList_nameError : ∀ cs : List (Tree L), NoMemList cs → SafeList .nameError cs
  | [], _ => trivial
  | c :: cs, h => ⟨safe_nameError c h.1, safeList_nameError cs h.2⟩
end

/-- What remains: trees without them never raise this exception. -/
theorem C12_no_mem_no_nameError_partial (t : Tree L) (h : t.NoMem) (st : St σ) :
    exec E fuel t st ≠ .error .nameError := exec_never t (safe_nameError t h) st

example : demoTree.NoMem := by
  simp [demoTree, Tree.NoMem, NoMemList]

/-! ## C14 Termination -/

/-- C14. In a tree whose repeaters are all bounded, a tick never runs out of fuel — for *every* fuel, and its result
does not depend on it: the python loops terminate. Any leaves, any state. -/
theorem C14_bounded_tick_terminates {t : Tree L} (ht : t.Bounded) (st : St σ) :
    exec E fuel t st ≠ .error .outOfFuel ∧ ∀ fuel', exec E fuel' t st = exec E fuel t st :=
  ⟨exec_never t (safe_outOfFuel t ht) st, fun fuel' => by rw [exec_fuel fuel' fuel t ht]⟩

/-- C14: in one tick of a bounded tree, every node is executed at most as often as the product of the loop
bounds above its occurrences allows. -/
theorem C14_executions_bounded (hE : E.NoRunning) {t : Tree L} (ha : t.Acyclic) (hb : t.Bounded) {st : St σ}
    (hc : Closed t st) {s : Status} {st' : St σ} (h : exec E fuel t st = .ok (s, st')) (j : Id) :
    st'.ticksAll j ≤ st.ticksAll j + t.maxExec j := by
  obtain ⟨_, tr, hB, hA⟩ := exec_sound hE fuel t ha st s st' hc h
  have := big_occ j hB hb
  rw [hA.ticks j]; simp only [occ] at this; omega

/-- Without the bound the model's fuel does run out: RepeatUntilSuccess(-1) over a leaf that always fails. -/
theorem C14_unbounded_diverges (n : Nat) :
    exec constEnv n (.deco (.untilSuccess (-1)) 0 (.leaf 1 .failure)) { user := 0 } = .error .outOfFuel := by
  have key : ∀ n last i st, whileLoop (fun s => s = .failure) (-1) (exec constEnv n (.leaf 1 .failure)) n last i st
      = .error .outOfFuel := by
    intro n
    generalize hk : n = k
    conv => intro last i st; lhs; arg 4; rw [← hk]
    clear hk
    induction n with
    | zero => intro last i st; rw [whileLoop]; simp
    | succ n ih =>
      intro last i st
      rw [whileLoop]
      simp only [Int.reduceNeg, show ((-1 : Int) < 0) from by decide, true_or, if_true]
      obtain ⟨st1, hst⟩ : ∃ st1, exec constEnv k (.leaf 1 .failure) st = .ok (.failure, st1) := by
        cases ho : st.isOpen 1 <;>
          simp [exec, execute, constEnv, closeIfDone, afterTick, countTick, openIfClosed, enter, ho]
      rw [hst]
      simp only [decide_true, if_true]
      exact ih _ _ _
  rw [exec]
  simp only [execute]
  rw [show countTick 0 (openIfClosed 0 (openHook constEnv (.untilSuccess (-1)) 0) (enter 0 { user := 0 }))
      = bodyStart 0 (openHook constEnv (.untilSuccess (-1)) 0) { user := 0 } from rfl]
  simp only [decoTick, repeatTick, bodyStart_cnt (E := constEnv) (id := 0) (st := { user := 0 }) rfl
    (k := .untilSuccess (-1)) (by simp) (by simp)]
  rw [show loopFuel n (-1) 0 = n from rfl, key]

example : demoTree.Bounded ∧ demoTree.maxExec 4 = 6 := by
  simp [demoTree, Tree.Bounded, BoundedList, DKind.Bounded, Tree.maxExec, maxExecList, DKind.maxRuns]

/-! ## C15 MaxTime -/

/-- A world that is a clock; the only leaf takes 100 time units and succeeds. -/
def slowEnv : Env Int Unit where
  act _ u := .ok (.success, u + 100)
  now u := (u, u)

/-- C15 is false of the code: the clock is read before the child runs, so a child that takes 100 units under
MaxTime(1) is reported as SUCCESS. -/
theorem C15_maxTime_violation :
    ∃ st', exec slowEnv 0 (.deco (.maxTime 1) 0 (.leaf 1 ())) { user := 0 } = .ok (.success, st') ∧
      st'.user - 0 > 1 := by
  obtain ⟨st', h, hu⟩ := ran (·.user) (a := 100)
    (show view (·.user) (exec slowEnv 0 (.deco (.maxTime 1) 0 (.leaf 1 ())) { user := 0 }) = some (.success, 100)
      by decide +kernel)
  exact ⟨st', h, by rw [hu]; decide⟩

/-- What remains of C15: a closed MaxTime compares its bound with the time between opening and the *start* of the
child; beyond it FAILURE, else the child's status. Missing: time spent in the child. -/
theorem C15_maxTime_partial {c : Tree L} {id : Id} {m : Int} {st : St σ} {s st'}
    (hcl : st.isOpen id = false) (h : exec E fuel (.deco (.maxTime m) id c) st = .ok (s, st')) :
    ∃ st0 s1 st1, st0.user = (E.now (E.now st.user).2).2 ∧ exec E fuel c st0 = .ok (s1, st1) ∧
      st'.user = st1.user ∧
      s = if (E.now (E.now st.user).2).1 - (E.now st.user).1 > m then .failure else s1 := by
  rw [exec] at h
  obtain ⟨st2, h1, h2⟩ := execute_ok_inv h
  obtain ⟨e1, e2⟩ := bodyStart_maxTime (E := E) (t := m) hcl
  simp only [decoTick, e2] at h1
  rw [e1] at h1
  cases hx : exec E fuel c { (bodyStart id (openHook E (.maxTime m) id) st) with
      user := (E.now (E.now st.user).2).2 } with
  | error e => rw [hx] at h1; cases h1
  | ok p =>
    obtain ⟨s1, st1⟩ := p
    rw [hx] at h1; simp only at h1
    refine ⟨_, s1, st1, rfl, hx, ?_, ?_⟩
    · split at h1 <;> simp only [Except.ok.injEq, Prod.mk.injEq] at h1 <;> rw [h2.user, ← h1.2]
    · split at h1 <;> simp only [Except.ok.injEq, Prod.mk.injEq] at h1 <;> rw [← h1.1] <;> simp [*]

end Verif.BT
