import Verif.BT.Complete
/-! A memory-less functional semantics `den`, equal to what the engine shows when it starts with closed
nodes and no leaf returns RUNNING — exceptions included. Used for history independence and for the list
of possible exceptions. -/
namespace Verif.BT
variable {σ L : Type}

/-- Observable result: exception, or status and user state. -/
theorem obs_mk (s : Status) (st : St σ) : obs (.ok (s, st)) = .ok (s, st.user) := rfl

def denSeq : List (σ → DRes σ) → σ → DRes σ
  | [], u => .ok (.success, u)
  | f :: fs, u => match f u with
    | .error e => .error e
    | .ok (s, u1) => if s = .success then denSeq fs u1 else .ok (s, u1)

def denPri : List (σ → DRes σ) → σ → DRes σ
  | [], u => .ok (.failure, u)
  | f :: fs, u => match f u with
    | .error e => .error e
    | .ok (s, u1) => if s = .failure then denPri fs u1 else .ok (s, u1)

def denOr : List (σ → DRes σ) → Status → σ → DRes σ
  | [], acc, u => .ok (acc, u)
  | f :: fs, acc, u => match f u with
    | .error e => .error e
    | .ok (s, u1) => denOr fs (if s = .failure then acc else .success) u1

def denLoop (cont : Status → Bool) (maxLoop : Int) (f : σ → DRes σ) :
    Nat → Option Status → Int → σ → Except Crash (Option Status × σ)
  | fuel, last, i, u =>
    if maxLoop < 0 ∨ i < maxLoop then
      match fuel with
      | 0 => .error .outOfFuel
      | fuel + 1 =>
        match f u with
        | .error e => .error e
        | .ok (s, u1) => if cont s then denLoop cont maxLoop f fuel (some s) (i + 1) u1 else .ok (some s, u1)
    else .ok (last, u)

def denRepeat (cont : Status → Bool) (init : Option Status) (fuel : Nat) (m : Int)
    (f : σ → DRes σ) (u : σ) : DRes σ :=
  match denLoop cont m f (loopFuel fuel m 0) init 0 u with
  | .error e => .error e
  | .ok (none, _) => .error .unboundStatus
  | .ok (some s, u1) => .ok (s, u1)

def denDeco (E : Env σ L) (fuel : Nat) (k : DKind) (f : σ → DRes σ) (u : σ) : DRes σ :=
  match k with
  | .inverter => match f u with
    | .error e => .error e
    | .ok (s, u1) => .ok (invert s, u1)
  | .limiter m => if 0 < m then f u else .ok (.failure, u)
  | .repeater m => denRepeat (fun s => s = .success ∨ s = .failure) (some .success) fuel m f u
  | .untilFailure m => denRepeat (fun s => s = .success) none fuel m f u
  | .untilSuccess m => denRepeat (fun s => s = .failure) none fuel m f u
  | .maxTime t => match f (E.now (E.now u).2).2 with
    | .error e => .error e
    | .ok (s, u1) => if (E.now (E.now u).2).1 - (E.now u).1 > t then .ok (.failure, u1) else .ok (s, u1)

def denComp (k : CKind) (fs : List (σ → DRes σ)) (u : σ) : DRes σ :=
  match k with
  | .sequence => denSeq fs u
  | .priority => denPri fs u
  | .orNode => denOr fs .failure u
  | .memSequence => .error .nameError
  | .memPriority => .error .nameError

mutual
def den (E : Env σ L) (fuel : Nat) : Tree L → σ → DRes σ
  | .leaf _ a => fun u => match E.act a u with
      | .error c => .error (.leaf c)
      | .ok r => .ok r
  | .comp k _ cs => denComp k (dens E fuel cs)
  | .deco k _ c => denDeco E fuel k (den E fuel c)
  | .emptyDeco k _ => fun u => match k with
      | .maxTime _ => .ok (.error, (E.now u).2)
      | _ => .ok (.error, u)
def dens (E : Env σ L) (fuel : Nat) : List (Tree L) → List (σ → DRes σ)
  | [] => []
  | c :: cs => den E fuel c :: dens E fuel cs
end

/-- `obs` of a node from its body, when no RUNNING and enough stack. -/
theorem obs_execute {id : Id} {hook : St σ → St σ} {body : St σ → Res σ} {st : St σ}
    (h : ∀ s st1, body (bodyStart id hook st) = .ok (s, st1) → st1.stack ≠ []) :
    obs (execute id hook body st) = obs (body (bodyStart id hook st)) := by
  simp only [execute]
  rw [show countTick id (openIfClosed id hook (enter id st)) = bodyStart id hook st from rfl]
  cases hb : body (bodyStart id hook st) with
  | error e => rfl
  | ok p =>
    obtain ⟨s, st1⟩ := p
    have := h s st1 hb
    simp only
    cases hs : st1.stack with
    | nil => exact absurd hs this
    | cons a l =>
      cases s <;> simp [closeIfDone, afterTick, hs, obs]

theorem bodyStart_stack {E : Env σ L} {id : Id} {hook : St σ → St σ} (hh : Hook E id hook) (st : St σ) :
    (bodyStart id hook st).stack = id :: st.stack := by
  simp only [bodyStart, openIfClosed]
  split
  · rfl
  · obtain ⟨u, c, s, h, _⟩ := hh.spec { (enter id st) with isOpen := upd (enter id st).isOpen id true }
    rw [h]; rfl

section
variable {E : Env σ L} {fuel : Nat}

/-- The tree is observably `den`. -/
def ObsEq (E : Env σ L) (fuel : Nat) (t : Tree L) : Prop :=
  ∀ st, Closed t st → obs (exec E fuel t st) = den E fuel t st.user

theorem obs_ok {r : Res σ} {s u} (h : obs r = .ok (s, u)) : ∃ st, r = .ok (s, st) ∧ st.user = u := by
  cases r with
  | error e => cases h
  | ok p => obtain ⟨s', st⟩ := p; simp only [obs, Except.ok.injEq, Prod.mk.injEq] at h
            exact ⟨st, by rw [h.1], h.2⟩
theorem obs_err {r : Res σ} {e} (h : obs r = .error e) : r = .error e := by
  cases r with
  | error e' => simp only [obs, Except.error.injEq] at h; rw [h]
  | ok p => obtain ⟨s', st⟩ := p; cases h

theorem seq_obs (hE : E.NoRunning) {self : Id} : ∀ (cs : List (Tree L)), AcyclicList cs → (∀ c ∈ cs, ObsEq E fuel c) →
    ∀ tmp st, (∀ j ∈ idsList cs, st.isOpen j = false) →
    obs (seqTick self (execs E fuel cs) tmp st) = denSeq (dens E fuel cs) st.user
  | [], _, _, tmp, st, _ => rfl
  | c :: cs, hac, ho, tmp, st, hc => by
    rw [AcyclicList] at hac
    have h1 := ho c (by simp) st (fun j hj => hc j (by simp [idsList, hj]))
    simp only [execs, seqTick, dens, denSeq]
    rw [← h1]
    cases hx : exec E fuel c st with
    | error e => rfl
    | ok p =>
      obtain ⟨s, st1⟩ := p
      simp only [obs_mk]
      by_cases hs : s = .success
      · rw [if_pos hs, if_pos hs]
        exact seq_obs hE cs hac.2 (fun c hc => ho c (by simp [hc])) _ st1 (after_child hE hac.1 hc hx)
      · rw [if_neg hs, if_neg hs]; rfl

theorem pri_obs (hE : E.NoRunning) {self : Id} : ∀ (cs : List (Tree L)), AcyclicList cs → (∀ c ∈ cs, ObsEq E fuel c) →
    ∀ st, (∀ j ∈ idsList cs, st.isOpen j = false) →
    obs (priTick self (execs E fuel cs) st) = denPri (dens E fuel cs) st.user
  | [], _, _, st, _ => rfl
  | c :: cs, hac, ho, st, hc => by
    rw [AcyclicList] at hac
    have h1 := ho c (by simp) st (fun j hj => hc j (by simp [idsList, hj]))
    simp only [execs, priTick, dens, denPri]
    rw [← h1]
    cases hx : exec E fuel c st with
    | error e => rfl
    | ok p =>
      obtain ⟨s, st1⟩ := p
      simp only [obs_mk]
      by_cases hs : s = .failure
      · rw [if_pos hs, if_pos hs]
        exact pri_obs hE cs hac.2 (fun c hc => ho c (by simp [hc])) _ (by have := after_child hE hac.1 hc hx; exact this)
      · rw [if_neg hs, if_neg hs]; rfl

theorem or_obs (hE : E.NoRunning) {self : Id} : ∀ (cs : List (Tree L)), AcyclicList cs → (∀ c ∈ cs, ObsEq E fuel c) →
    ∀ acc st, (∀ j ∈ idsList cs, st.isOpen j = false) →
    obs (orTick self (execs E fuel cs) acc st) = denOr (dens E fuel cs) acc st.user
  | [], _, _, acc, st, _ => rfl
  | c :: cs, hac, ho, acc, st, hc => by
    rw [AcyclicList] at hac
    have h1 := ho c (by simp) st (fun j hj => hc j (by simp [idsList, hj]))
    simp only [execs, orTick, dens, denOr]
    rw [← h1]
    cases hx : exec E fuel c st with
    | error e => rfl
    | ok p =>
      obtain ⟨s, st1⟩ := p
      simp only [obs_mk]
      exact or_obs hE cs hac.2 (fun c hc => ho c (by simp [hc])) _ _ (by have := after_child hE hac.1 hc hx; exact this)

theorem loop_obs (hE : E.NoRunning) {c : Tree L} (hac : c.Acyclic) (ho : ObsEq E fuel c)
    (cont : Status → Bool) (m : Int) :
    ∀ n last i st, Closed c st →
      (match whileLoop cont m (exec E fuel c) n last i st with
        | .error e => .error e
        | .ok (l, _, st') => .ok (l, st'.user)) = denLoop cont m (den E fuel c) n last i st.user := by
  intro n
  induction n with
  | zero =>
    intro last i st hc
    rw [whileLoop, denLoop]
    split
    · rename_i e
      split at e
      · cases e; rw [if_pos (by assumption)]
      · cases e
    · rename_i e
      split at e
      · cases e
      · simp only [Except.ok.injEq, Prod.mk.injEq] at e
        obtain ⟨rfl, _, rfl⟩ := e
        rw [if_neg (by assumption)]
  | succ n ih =>
    intro last i st hc
    rw [whileLoop, denLoop]
    by_cases hm : m < 0 ∨ i < m
    · rw [if_pos hm, if_pos hm]
      have h1 := ho st hc
      rw [← h1]
      cases hx : exec E fuel c st with
      | error e => rfl
      | ok p =>
        obtain ⟨s, st1⟩ := p
        simp only [obs_mk]
        obtain ⟨_, tr, _, hA⟩ := exec_sound hE fuel c hac st s st1 hc hx
        by_cases hs : cont s = true
        · rw [if_pos hs, if_pos hs]; exact ih (some s) (i + 1) st1 hA.closed
        · rw [if_neg hs, if_neg hs]
    · rw [if_neg hm, if_neg hm]

theorem repeat_obs (hE : E.NoRunning) {c : Tree L} (hac : c.Acyclic) (ho : ObsEq E fuel c)
    (cont : Status → Bool) (init : Option Status) (m : Int) (self : Id) (st : St σ) (hc : Closed c st)
    (hi : st.cnt self = some 0) :
    obs (repeatTick cont init fuel m self (exec E fuel c) st) = denRepeat cont init fuel m (den E fuel c) st.user := by
  have h := loop_obs hE hac ho cont m (loopFuel fuel m 0) init 0 st hc
  simp only [repeatTick, hi, denRepeat]
  rw [← h]
  cases hw : whileLoop cont m (exec E fuel c) (loopFuel fuel m 0) init 0 st with
  | error e => rfl
  | ok p =>
    obtain ⟨l, i', st1⟩ := p
    cases l <;> rfl
end

mutual
theorem exec_obs {E : Env σ L} (hE : E.NoRunning) (fuel : Nat) :
    ∀ t : Tree L, t.Acyclic → ObsEq E fuel t
  | .leaf id a, _ => by
    intro st hc
    rw [exec, obs_execute, den, bodyStart_user_none]
    · cases ha : E.act a st.user <;> simp only [ha] <;> rfl
    · intro s st1 hb
      rw [bodyStart_user_none] at hb
      cases ha : E.act a st.user with
      | error e => rw [ha] at hb; cases hb
      | ok r =>
        rw [ha] at hb; simp only [Except.ok.injEq, Prod.mk.injEq] at hb
        rw [← hb.2]; show (bodyStart id (fun st => st) st).stack ≠ []
        rw [bodyStart_stack (E := E) .none]; simp
  | .comp k id cs, hac => by
    intro st hc
    have hac0 := hac
    rw [Tree.Acyclic] at hac
    have hcs := execs_obs hE fuel cs hac.2
    have hsd := execs_sound hE fuel cs hac.2
    have hb := closed_bodyStart (E := E) (st := st) .none hac.1 (fun j hj => hc j (by simp [Tree.ids, hj]))
    rw [exec, obs_execute, den]
    · cases k with
      | sequence => have := seq_obs hE (self := id) cs hac.2 hcs 0 _ hb; rw [bodyStart_user_none] at this; exact this
      | priority =>
        have := pri_obs hE (self := id) cs hac.2 hcs { (bodyStart id (fun st => st) st) with
          cost := upd (bodyStart id (fun st => st) st).cost id 0 } hb
        have e := bodyStart_user_none (id := id) st
        show _ = denPri (dens E fuel cs) st.user
        rw [← e]; exact this
      | orNode =>
        have := or_obs hE (self := id) cs hac.2 hcs .failure { (bodyStart id (fun st => st) st) with
          cost := upd (bodyStart id (fun st => st) st).cost id 0 } hb
        have e := bodyStart_user_none (id := id) st
        show _ = denOr (dens E fuel cs) .failure st.user
        rw [← e]; exact this
      | memSequence => rfl
      | memPriority => rfl
    · intro s st1 h1
      have hst := bodyStart_stack (E := E) (id := id) .none st
      cases k with
      | sequence =>
        obtain ⟨_, tr, _, hA⟩ := seq_sound cs hsd (fun _ h => h) 0 _ _ _ hb h1
        rw [hA.stack, hst]; simp
      | priority =>
        obtain ⟨_, tr, _, hA⟩ := pri_sound cs hsd (fun _ h => h) _ _ _ (by exact hb) h1
        rw [hA.stack]; show (bodyStart id (fun st => st) st).stack ≠ []; rw [hst]; simp
      | orNode =>
        obtain ⟨tr, _, _, _, hA⟩ := or_sound cs hsd (fun _ h => h) _ _ _ _ (by exact hb) h1
        rw [hA.stack]; show (bodyStart id (fun st => st) st).stack ≠ []; rw [hst]; simp
      | memSequence => cases h1
      | memPriority => cases h1
  | .deco k id c, hac => by
    intro st hc
    rw [Tree.Acyclic] at hac
    have ho := exec_obs hE fuel c hac.2
    have hsd := exec_sound hE fuel c hac.2
    have hcl := hc id (by simp [Tree.ids])
    have hb := closed_bodyStart (E := E) (st := st) (.deco k) hac.1 (fun j hj => hc j (by simp [Tree.ids, hj]))
    have hst := bodyStart_stack (E := E) (id := id) (.deco k) st
    rw [exec, obs_execute, den]
    · cases k with
      | inverter =>
        have h1 := ho _ hb
        rw [bodyStart_user_deco (by simp)] at h1
        simp only [decoTick, denDeco]
        rw [← h1]
        cases exec E fuel c (bodyStart id (openHook E .inverter id) st) <;> rfl
      | limiter m =>
        have h1 := ho _ hb
        rw [bodyStart_user_deco (by simp)] at h1
        simp only [decoTick, denDeco, bodyStart_cnt (E := E) hcl (k := .limiter m) (by simp) (by simp)]
        rw [← h1]
        split
        · cases exec E fuel c (bodyStart id (openHook E (.limiter m) id) st) with
          | error e => rfl
          | ok p => obtain ⟨s, st1⟩ := p; cases s <;> rfl
        · simp only [obs]; rw [bodyStart_user_deco (by simp)]
      | repeater m =>
        have := repeat_obs hE hac.2 ho (fun s => s = .success ∨ s = .failure) (some .success) m id _ hb
          (bodyStart_cnt (E := E) hcl (k := .repeater m) (by simp) (by simp))
        rw [bodyStart_user_deco (by simp)] at this; exact this
      | untilFailure m =>
        have := repeat_obs hE hac.2 ho (fun s => s = .success) none m id _ hb
          (bodyStart_cnt (E := E) hcl (k := .untilFailure m) (by simp) (by simp))
        rw [bodyStart_user_deco (by simp)] at this; exact this
      | untilSuccess m =>
        have := repeat_obs hE hac.2 ho (fun s => s = .failure) none m id _ hb
          (bodyStart_cnt (E := E) hcl (k := .untilSuccess m) (by simp) (by simp))
        rw [bodyStart_user_deco (by simp)] at this; exact this
      | maxTime m =>
        obtain ⟨e1, e2⟩ := bodyStart_maxTime (E := E) (t := m) hcl
        have h1 := ho { (bodyStart id (openHook E (.maxTime m) id) st) with
          user := (E.now (E.now st.user).2).2 } hb
        simp only [decoTick, denDeco, e2]
        rw [e1, ← h1]
        cases exec E fuel c { (bodyStart id (openHook E (.maxTime m) id) st) with
          user := (E.now (E.now st.user).2).2 } with
        | error e => rfl
        | ok p =>
          obtain ⟨s, st1⟩ := p
          by_cases hh : (E.now (E.now st.user).2).1 - (E.now st.user).1 > m <;> simp [obs, hh]
    · intro s st1 h1
      have hrun : ∀ st0 s st1, Closed c st0 → exec E fuel c st0 = .ok (s, st1) → st1.stack = st0.stack :=
        fun st0 s st1 h0 h => by
          obtain ⟨_, _, _, hA⟩ := hsd st0 s st1 h0 h; exact hA.stack
      cases k with
      | inverter =>
        simp only [decoTick] at h1
        split at h1
        · cases h1
        · rename_i hx; simp only [Except.ok.injEq, Prod.mk.injEq] at h1
          rw [← h1.2, hrun _ _ _ hb hx, hst]; simp
      | limiter m =>
        simp only [decoTick, bodyStart_cnt (E := E) hcl (k := .limiter m) (by simp) (by simp)] at h1
        split at h1
        · split at h1
          · cases h1
          · rename_i hx
            have := hrun _ _ _ hb hx
            split at h1 <;> simp only [Except.ok.injEq, Prod.mk.injEq] at h1 <;> rw [← h1.2] <;>
              simp only [this, hst] <;> simp
        · simp only [Except.ok.injEq, Prod.mk.injEq] at h1; rw [← h1.2, hst]; simp
      | repeater m =>
        rcases repeat_sound hsd .always _ rep_always m _ hb
          (bodyStart_cnt hcl (k := .repeater m) (by simp) (by simp)) h1 with ⟨_, _, _, hA⟩ | ⟨_, _, _, hA⟩ <;>
          rw [hA.stack, hst] <;> simp
      | untilFailure m =>
        rcases repeat_sound hsd .whileSuccess _ rep_success m _ hb
          (bodyStart_cnt hcl (k := .untilFailure m) (by simp) (by simp)) h1 with ⟨_, _, _, hA⟩ | ⟨_, _, _, hA⟩ <;>
          rw [hA.stack, hst] <;> simp
      | untilSuccess m =>
        rcases repeat_sound hsd .whileFailure _ rep_failure m _ hb
          (bodyStart_cnt hcl (k := .untilSuccess m) (by simp) (by simp)) h1 with ⟨_, _, _, hA⟩ | ⟨_, _, _, hA⟩ <;>
          rw [hA.stack, hst] <;> simp
      | maxTime m =>
        obtain ⟨e1, e2⟩ := bodyStart_maxTime (E := E) (t := m) hcl
        simp only [decoTick, e2] at h1
        split at h1
        · cases h1
        · rename_i hx
          have := hrun _ _ _ (by exact hb) hx
          split at h1 <;> simp only [Except.ok.injEq, Prod.mk.injEq] at h1 <;> rw [← h1.2] <;>
              simp only [this, hst] <;> simp
  | .emptyDeco k id, _ => by
    intro st hc
    have hcl := hc id (by simp [Tree.ids])
    have hst := bodyStart_stack (E := E) (id := id) (.deco k) st
    rw [exec, obs_execute, den]
    · simp only [obs]
      cases k with
      | maxTime m => rw [(bodyStart_maxTime (E := E) (t := m) hcl).1]
      | inverter => rw [bodyStart_user_deco (by simp)]
      | limiter m => rw [bodyStart_user_deco (by simp)]
      | repeater m => rw [bodyStart_user_deco (by simp)]
      | untilFailure m => rw [bodyStart_user_deco (by simp)]
      | untilSuccess m => rw [bodyStart_user_deco (by simp)]
    · intro s st1 h1
      simp only [Except.ok.injEq, Prod.mk.injEq] at h1; rw [← h1.2, hst]; simp
theorem execs_obs {E : Env σ L} (hE : E.NoRunning) (fuel : Nat) :
    ∀ cs : List (Tree L), AcyclicList cs → ∀ c ∈ cs, ObsEq E fuel c
  | [], _ => by simp
  | c :: cs, hac => by
    rw [AcyclicList] at hac
    have h1 := exec_obs hE fuel c hac.1
    have h2 := execs_obs hE fuel cs hac.2
    intro c' hc'
    rcases List.mem_cons.1 hc' with rfl | h
    · exact h1
    · exact h2 c' h
end

end Verif.BT
