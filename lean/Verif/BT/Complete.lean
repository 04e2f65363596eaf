import Verif.BT.Forward
/-! The engine refines the big-step specification: completeness direction
(every specified behaviour is what the engine does, given enough fuel for the unbounded repeaters). -/
namespace Verif.BT
variable {σ L : Type}

/-- For all large enough fuels, the engine does this. -/
def Does (E : Env σ L) (t : Tree L) (u : σ) (s : Status) (u' : σ) (f0 : Nat) : Prop :=
  ∀ fuel, f0 ≤ fuel → ∀ st, Closed t st → st.user = u →
    ∃ st', exec E fuel t st = .ok (s, st') ∧ st'.user = u'

theorem execute_ok {E : Env σ L} {id : Id} {hook : St σ → St σ} {body : St σ → Res σ} {st : St σ}
    {S : List Id} (hh : Hook E id hook) (hid : id ∉ S) (hcl : st.isOpen id = false)
    {s : Status} {st1 : St σ}
    (hb : body (bodyStart id hook st) = .ok (s, st1))
    (hA : s ≠ .running ∧ ∃ tr, Acc S (id :: S) (bodyStart id hook st) tr st1) :
    ∃ st2, execute id hook body st = .ok (s, st2) ∧ st2.user = st1.user := by
  obtain ⟨hs, tr, hA⟩ := hA
  obtain ⟨st2, h1, h2, _⟩ := execute_acc hh hid hcl hb hs hA
  exact ⟨st2, h1, h2⟩

theorem closed_bodyStart {E : Env σ L} {id : Id} {hook : St σ → St σ} {st : St σ} {S : List Id}
    (hh : Hook E id hook) (hid : id ∉ S) (hc : ∀ j ∈ S, st.isOpen j = false) :
    ∀ j ∈ S, (bodyStart id hook st).isOpen j = false := fun j hj => by
  rw [bodyStart_open hh st (fun e => hid (e ▸ hj))]; exact hc j hj

/-- Loop completeness, used through `BigLoop`. -/
def LoopDoes (E : Env σ L) (r : Rep) (c : Tree L) (m' : Int) (u : σ) (s : Status) (u' : σ) (f0 : Nat) : Prop :=
  ∀ fuel, f0 ≤ fuel → ∀ (cont : Status → Bool), (∀ s, cont s = true ↔ r.again s) →
    ∀ m i, ((m < 0 ∧ m' = m) ∨ (0 ≤ m ∧ m' = m - i ∧ 0 ≤ m')) →
    ∀ n, (if m' < 0 then f0 else m'.toNat) ≤ n → ∀ last st, Closed c st → st.user = u →
    ∃ i' st', whileLoop cont m (exec E fuel c) n last i st = .ok (some s, i', st') ∧ st'.user = u'

theorem loop_last {E : Env σ L} {r : Rep} {c : Tree L} {m' : Int} {u s u' f0}
    (hm : m' ≠ 0) (hB : Does E c u s u' f0) (hl : ¬ r.again s ∨ m' = 1) :
    LoopDoes E r c m' u s u' (f0 + 1) := by
  intro fuel hf cont hcont m i hmi n hn last st hc hu
  obtain ⟨st', he, hu'⟩ := hB fuel (by omega) st hc hu
  cases n with
  | zero =>
    exfalso; split at hn <;> omega
  | succ n =>
    rw [whileLoop]
    rw [if_pos (by omega)]
    simp only [he]
    by_cases hct : cont s = true
    · rw [if_pos hct]
      have h1 : m' = 1 := by
        rcases hl with h | h
        · exact absurd ((hcont s).1 hct) h
        · exact h
      have hng : ¬ (m < 0 ∨ i + 1 < m) := by omega
      rw [whileLoop.eq_def]; simp only; rw [if_neg hng]
      exact ⟨_, _, rfl, hu'⟩
    · rw [if_neg hct]; exact ⟨_, _, rfl, hu'⟩

theorem loop_again {E : Env σ L} (hE : E.NoRunning) {r : Rep} {c : Tree L} (hac : c.Acyclic)
    {m' : Int} {u s u1 s' u' f1 f2}
    (hm : m' ≠ 0) (hB : Does E c u s u1 f1) (ha : r.again s)
    (hL : LoopDoes E r c (if m' < 0 then m' else m' - 1) u1 s' u' f2) :
    LoopDoes E r c m' u s' u' (f1 + f2 + 1) := by
  intro fuel hf cont hcont m i hmi n hn last st hc hu
  obtain ⟨st1, he, hu1⟩ := hB fuel (by omega) st hc hu
  obtain ⟨_, tr, _, hA⟩ := exec_sound hE fuel c hac st s st1 hc he
  cases n with
  | zero => exfalso; split at hn <;> omega
  | succ n =>
    rw [whileLoop]
    rw [if_pos (by omega)]
    simp only [he]
    rw [if_pos ((hcont s).2 ha)]
    apply hL fuel (by omega) cont hcont m (i + 1) _ n _ (some s) st1 hA.closed hu1
    · rcases hmi with ⟨h1, h2⟩ | ⟨h1, h2, h3⟩
      · left; exact ⟨h1, by rw [if_pos (by omega)]; exact h2⟩
      · right; rw [if_neg (by omega)]; omega
    · split at hn
      · rw [if_pos (by rw [if_pos (by assumption)]; assumption)]; omega
      · rename_i hge
        rw [if_neg (by rw [if_neg hge]; omega), if_neg hge]; omega

theorem repeat_ok {E : Env σ L} {fuel f0 : Nat} {r : Rep} {c : Tree L} {m : Int} {u s u'}
    (hL : LoopDoes E r c m u s u' f0) (hf : f0 ≤ fuel) {cont : Status → Bool}
    (hcont : ∀ s, cont s = true ↔ r.again s) {init : Option Status} {self : Id} {st : St σ}
    (hc : Closed c st) (hu : st.user = u) (hi : st.cnt self = some 0) :
    ∃ st', repeatTick cont init fuel m self (exec E fuel c) st = .ok (s, st') ∧ st'.user = u' := by
  obtain ⟨i', st', h, hu'⟩ := hL fuel hf cont hcont m 0 (by omega) (loopFuel fuel m 0)
    (by unfold loopFuel; split <;> omega) init st hc hu
  simp only [repeatTick, hi, h]
  exact ⟨_, rfl, hu'⟩

section
variable {E : Env σ L} (hE : E.NoRunning)
include hE

/-- Node-level completeness of a repeat decorator from loop-level completeness. -/
theorem rep_does {k : DKind} {id : Id} {c : Tree L} (hac : (Tree.deco k id c).Acyclic)
    {r : Rep} {m : Int} {u s u' f0} (hL : LoopDoes E r c m u s u' f0)
    (hk : (k = .repeater m ∧ r = .always) ∨ (k = .untilFailure m ∧ r = .whileSuccess) ∨
      (k = .untilSuccess m ∧ r = .whileFailure)) :
    Does E (.deco k id c) u s u' f0 := by
  intro fuel hf st hc hu
  have hac' := hac
  rw [Tree.Acyclic] at hac
  have hcl : st.isOpen id = false := hc id (by simp [Tree.ids])
  have hclS : ∀ j ∈ c.ids, st.isOpen j = false := fun j hj => hc j (by simp [Tree.ids, hj])
  have hb := closed_bodyStart (E := E) (st := st) (.deco k) hac.1 hclS
  have hsnd := exec_sound hE fuel c hac.2
  rw [exec]
  rcases hk with ⟨rfl, rfl⟩ | ⟨rfl, rfl⟩ | ⟨rfl, rfl⟩
  · have hcn := bodyStart_cnt (E := E) hcl (k := .repeater m) (by simp) (by simp)
    obtain ⟨st1, h1, h2⟩ := repeat_ok (init := some .success) hL hf rep_always hb
      (by rw [bodyStart_user_deco (by simp)]; exact hu) hcn
    obtain ⟨st2, h3, h4⟩ := execute_ok (E := E) (.deco (.repeater m)) hac.1 hcl
      (body := decoTick E fuel (.repeater m) id (exec E fuel c)) h1 (by
        rcases repeat_sound hsnd .always _ rep_always m _ hb hcn h1 with ⟨_, h, _, hA⟩ | ⟨h, tr, _, hA⟩
        · cases h; exact ⟨by simp, _, hA⟩
        · exact ⟨h, tr, hA⟩)
    exact ⟨st2, h3, by rw [h4, h2]⟩
  · have hcn := bodyStart_cnt (E := E) hcl (k := .untilFailure m) (by simp) (by simp)
    obtain ⟨st1, h1, h2⟩ := repeat_ok (init := none) hL hf rep_success hb
      (by rw [bodyStart_user_deco (by simp)]; exact hu) hcn
    obtain ⟨st2, h3, h4⟩ := execute_ok (E := E) (.deco (.untilFailure m)) hac.1 hcl
      (body := decoTick E fuel (.untilFailure m) id (exec E fuel c)) h1 (by
        rcases repeat_sound hsnd .whileSuccess _ rep_success m _ hb hcn h1 with ⟨_, h, _, hA⟩ | ⟨h, tr, _, hA⟩
        · cases h
        · exact ⟨h, tr, hA⟩)
    exact ⟨st2, h3, by rw [h4, h2]⟩
  · have hcn := bodyStart_cnt (E := E) hcl (k := .untilSuccess m) (by simp) (by simp)
    obtain ⟨st1, h1, h2⟩ := repeat_ok (init := none) hL hf rep_failure hb
      (by rw [bodyStart_user_deco (by simp)]; exact hu) hcn
    obtain ⟨st2, h3, h4⟩ := execute_ok (E := E) (.deco (.untilSuccess m)) hac.1 hcl
      (body := decoTick E fuel (.untilSuccess m) id (exec E fuel c)) h1 (by
        rcases repeat_sound hsnd .whileFailure _ rep_failure m _ hb hcn h1 with ⟨_, h, _, hA⟩ | ⟨h, tr, _, hA⟩
        · cases h
        · exact ⟨h, tr, hA⟩)
    exact ⟨st2, h3, by rw [h4, h2]⟩

omit hE in
/-- Node-level completeness of a decorator that executes its child once. -/
theorem deco_does {k : DKind} {id : Id} {c : Tree L} (hac : (Tree.deco k id c).Acyclic)
    {u s u' f0}
    (hb : ∀ fuel, f0 ≤ fuel → ∀ st, Closed (.deco k id c) st → st.user = u →
      ∃ st1, decoTick E fuel k id (exec E fuel c) (bodyStart id (openHook E k id) st) = .ok (s, st1) ∧
        st1.user = u' ∧ s ≠ .running ∧
          ∃ tr, Acc c.ids (id :: c.ids) (bodyStart id (openHook E k id) st) tr st1) :
    Does E (.deco k id c) u s u' f0 := by
  intro fuel hf st hc hu
  rw [Tree.Acyclic] at hac
  obtain ⟨st1, h1, h2, h3⟩ := hb fuel hf st hc hu
  rw [exec]
  obtain ⟨st2, h4, h5⟩ := execute_ok (E := E) (.deco k) hac.1 (hc id (by simp [Tree.ids])) h1 h3
  exact ⟨st2, h4, by rw [h5, h2]⟩

/-- The child of a decorator, run from the body. -/
theorem child_run {k : DKind} {id : Id} {c : Tree L} (hac : (Tree.deco k id c).Acyclic)
    {v s u' f0} (hD : Does E c v s u' f0) {fuel} (hf : f0 ≤ fuel) {st : St σ}
    (hc : Closed (.deco k id c) st) :
    ∃ st1, exec E fuel c { (bodyStart id (openHook E k id) st) with user := v } = .ok (s, st1) ∧
      st1.user = u' ∧ s ≠ .running ∧
      ∃ tr, Acc c.ids (id :: c.ids) (bodyStart id (openHook E k id) st) tr st1 := by
  rw [Tree.Acyclic] at hac
  have hclS : ∀ j ∈ c.ids, st.isOpen j = false := fun j hj => hc j (by simp [Tree.ids, hj])
  have hb := closed_bodyStart (E := E) (st := st) (.deco k) hac.1 hclS
  obtain ⟨st1, h1, h2⟩ := hD fuel hf { (bodyStart id (openHook E k id) st) with user := v } hb rfl
  obtain ⟨h3, tr, _, hA⟩ := exec_sound hE fuel c hac.2 _ _ _ (by exact hb) h1
  refine ⟨st1, h1, h2, h3, tr, ?_⟩
  have := ((Acc.refl _ (id :: c.ids) _ hb).tweak v
    (fun _ _ => rfl) (fun _ _ => rfl) (fun _ _ => rfl)).trans
      (hA.mono (T' := id :: c.ids) (fun _ h => h) (fun j h => by simp [h]) (by exact hb))
  simpa using this

/-- Completeness of the children loops. -/
def SeqDoes (E : Env σ L) (cs : List (Tree L)) (u : σ) (s : Status) (u' : σ) (f0 : Nat) : Prop :=
  ∀ fuel, f0 ≤ fuel → ∀ self tmp st, (∀ j ∈ idsList cs, st.isOpen j = false) → st.user = u →
    ∃ st', seqTick self (execs E fuel cs) tmp st = .ok (s, st') ∧ st'.user = u'
def PriDoes (E : Env σ L) (cs : List (Tree L)) (u : σ) (s : Status) (u' : σ) (f0 : Nat) : Prop :=
  ∀ fuel, f0 ≤ fuel → ∀ self st, (∀ j ∈ idsList cs, st.isOpen j = false) → st.user = u →
    ∃ st', priTick self (execs E fuel cs) st = .ok (s, st') ∧ st'.user = u'
def AllDoes (E : Env σ L) (cs : List (Tree L)) (u : σ) (ss : List Status) (u' : σ) (f0 : Nat) : Prop :=
  ∀ fuel, f0 ≤ fuel → ∀ self acc st, (∀ j ∈ idsList cs, st.isOpen j = false) → st.user = u →
    ∃ st', orTick self (execs E fuel cs) acc st = .ok (orAcc acc ss, st') ∧ st'.user = u'

omit hE in
theorem orAcc_cons (acc s : Status) (ss : List Status) :
    orAcc (if s = .failure then acc else .success) ss = orAcc acc (s :: ss) := by
  simp only [orAcc]
  by_cases hf : s = .failure
  · simp [hf]
  · by_cases hx : ∃ x ∈ ss, x ≠ Status.failure <;> simp [hf]

theorem after_child {c : Tree L} {cs : List (Tree L)} (hac : c.Acyclic) {fuel} {st : St σ} {s st1}
    (hc : ∀ j ∈ idsList (c :: cs), st.isOpen j = false) (h : exec E fuel c st = .ok (s, st1)) :
    ∀ j ∈ idsList cs, st1.isOpen j = false := by
  obtain ⟨_, tr, _, hA⟩ := exec_sound hE fuel c hac st s st1 (fun j hj => hc j (by simp [idsList, hj])) h
  intro j hj
  by_cases h : j ∈ c.ids
  · exact hA.closed j h
  · rw [hA.frameOpen j h]; exact hc j (by simp [idsList, hj])

mutual
theorem big_does : ∀ {t : Tree L} {u tr s u'}, Big E t u tr s u' → t.Acyclic → ∃ f0, Does E t u s u' f0
  | .leaf id a, u, _, s, u', .leaf ha, hac => by
    refine ⟨0, fun fuel _ st hc hu => ?_⟩
    rw [exec]
    subst hu
    obtain ⟨st2, h1, h2⟩ := execute_ok (E := E) (S := []) (.none) (by simp) (hc id (by simp [Tree.ids]))
      (body := fun st => match E.act a st.user with
        | .error c => .error (.leaf c)
        | .ok (s, u) => .ok (s, { st with user := u }))
      (s := s) (st1 := { (bodyStart id (fun st => st) st) with user := u' })
      (by simp only [bodyStart_user_none, ha])
      ⟨hE _ _ _ _ ha, [], (Acc.refl [] [id] _ (by simp)).tweak u' (fun _ _ => rfl) (fun _ _ => rfl) (fun _ _ => rfl)⟩
    exact ⟨st2, h1, h2⟩
  | .comp .sequence id cs, u, _, s, u', .sequence h, hac => by
    rw [Tree.Acyclic] at hac
    obtain ⟨f0, hD⟩ := bigseq_does h hac.2
    refine ⟨f0, fun fuel hf st hc hu => ?_⟩
    rw [exec]
    have hb := closed_bodyStart (E := E) (st := st) .none hac.1 (fun j hj => hc j (by simp [Tree.ids, hj]))
    obtain ⟨st1, h1, h2⟩ := hD fuel hf id 0 _ hb (by rw [bodyStart_user_none]; exact hu)
    obtain ⟨st2, h3, h4⟩ := execute_ok (E := E) .none hac.1 (hc id (by simp [Tree.ids]))
      (body := compTick .sequence id (execs E fuel cs)) h1 (by
        obtain ⟨h, tr, _, hA⟩ := seq_sound cs (execs_sound hE fuel cs hac.2) (fun _ h => h) 0 _ _ _ hb h1
        exact ⟨h, tr, hA⟩)
    exact ⟨st2, h3, by rw [h4, h2]⟩
  | .comp .priority id cs, u, _, s, u', .priority h, hac => by
    rw [Tree.Acyclic] at hac
    obtain ⟨f0, hD⟩ := bigpri_does h hac.2
    refine ⟨f0, fun fuel hf st hc hu => ?_⟩
    rw [exec]
    have hb := closed_bodyStart (E := E) (st := st) .none hac.1 (fun j hj => hc j (by simp [Tree.ids, hj]))
    obtain ⟨st1, h1, h2⟩ := hD fuel hf id { (bodyStart id (fun st => st) st) with
      cost := upd (bodyStart id (fun st => st) st).cost id 0 } hb (by
        show (bodyStart id (fun st => st) st).user = u
        rw [bodyStart_user_none]; exact hu)
    obtain ⟨st2, h3, h4⟩ := execute_ok (E := E) .none hac.1 (hc id (by simp [Tree.ids]))
      (body := compTick .priority id (execs E fuel cs)) h1 (by
        obtain ⟨h, tr, _, hA⟩ := pri_sound cs (execs_sound hE fuel cs hac.2) (fun _ h => h) _ _ _ (by exact hb) h1
        exact ⟨h, _, ((Acc.refl _ _ _ hb).cost (i := id) (by simp) 0).trans hA⟩)
    exact ⟨st2, h3, by rw [h4, h2]⟩
  | .comp .orNode id cs, u, _, s, u', .orNode (ss := ss) h _ hs, hac => by
    rw [Tree.Acyclic] at hac
    obtain ⟨f0, hD⟩ := bigall_does h hac.2
    refine ⟨f0, fun fuel hf st hc hu => ?_⟩
    rw [exec]
    have hb := closed_bodyStart (E := E) (st := st) .none hac.1 (fun j hj => hc j (by simp [Tree.ids, hj]))
    obtain ⟨st1, h1, h2⟩ := hD fuel hf id .failure { (bodyStart id (fun st => st) st) with
      cost := upd (bodyStart id (fun st => st) st).cost id 0 } hb (by
        show (bodyStart id (fun st => st) st).user = u
        rw [bodyStart_user_none]; exact hu)
    have hs' : s = orAcc .failure ss := hs
    rw [← hs'] at h1
    obtain ⟨st2, h3, h4⟩ := execute_ok (E := E) .none hac.1 (hc id (by simp [Tree.ids]))
      (body := compTick .orNode id (execs E fuel cs)) h1 (by
        obtain ⟨tr, _, _, _, hA⟩ := or_sound cs (execs_sound hE fuel cs hac.2) (fun _ h => h) _ _ _ _ (by exact hb) h1
        exact ⟨by rw [hs', orAcc]; split <;> simp, _, ((Acc.refl _ _ _ hb).cost (i := id) (by simp) 0).trans hA⟩)
    exact ⟨st2, h3, by rw [h4, h2]⟩
  | .deco .inverter id c, u, _, _, u', .invSuccess h, hac => by
    obtain ⟨f0, hD⟩ := big_does h hac.2
    refine ⟨f0, deco_does hac fun fuel hf st hc hu => ?_⟩
    obtain ⟨st1, h1, h2, h3, h4⟩ := child_run hE hac hD hf hc
    have hst : { (bodyStart id (openHook E .inverter id) st) with user := u }
        = bodyStart id (openHook E .inverter id) st := by
      rw [← hu, ← bodyStart_user_deco (E := E) (id := id) (k := .inverter) (st := st) (by simp)]
    rw [hst] at h1
    exact ⟨st1, by simp only [decoTick, h1, invert], h2, by simp, h4⟩
  | .deco .inverter id c, u, _, _, u', .invFailure h, hac => by
    obtain ⟨f0, hD⟩ := big_does h hac.2
    refine ⟨f0, deco_does hac fun fuel hf st hc hu => ?_⟩
    obtain ⟨st1, h1, h2, h3, h4⟩ := child_run hE hac hD hf hc
    have hst : { (bodyStart id (openHook E .inverter id) st) with user := u }
        = bodyStart id (openHook E .inverter id) st := by
      rw [← hu, ← bodyStart_user_deco (E := E) (id := id) (k := .inverter) (st := st) (by simp)]
    rw [hst] at h1
    exact ⟨st1, by simp only [decoTick, h1, invert], h2, by simp, h4⟩
  | .deco .inverter id c, u, _, s, u', .invOther h hn1 hn2, hac => by
    obtain ⟨f0, hD⟩ := big_does h hac.2
    refine ⟨f0, deco_does hac fun fuel hf st hc hu => ?_⟩
    obtain ⟨st1, h1, h2, h3, h4⟩ := child_run hE hac hD hf hc
    have hst : { (bodyStart id (openHook E .inverter id) st) with user := u }
        = bodyStart id (openHook E .inverter id) st := by
      rw [← hu, ← bodyStart_user_deco (E := E) (id := id) (k := .inverter) (st := st) (by simp)]
    rw [hst] at h1
    refine ⟨st1, ?_, h2, h3, h4⟩
    simp only [decoTick, h1]
    cases s <;> simp_all [invert]
  | .deco (.limiter m) id c, u, _, s, u', .limiterRun hm h, hac => by
    obtain ⟨f0, hD⟩ := big_does h hac.2
    refine ⟨f0, deco_does hac fun fuel hf st hc hu => ?_⟩
    obtain ⟨st1, h1, h2, h3, tr, h4⟩ := child_run hE hac hD hf hc
    have hst : { (bodyStart id (openHook E (.limiter m) id) st) with user := u }
        = bodyStart id (openHook E (.limiter m) id) st := by
      rw [← hu, ← bodyStart_user_deco (E := E) (id := id) (k := .limiter m) (st := st) (by simp)]
    rw [hst] at h1
    simp only [decoTick, bodyStart_cnt (E := E) (hc id (by simp [Tree.ids])) (k := .limiter m) (by simp) (by simp),
      if_pos hm, h1]
    split
    · exact ⟨_, rfl, h2, h3, tr, h4.cntUpd (by simp) _⟩
    · exact ⟨_, rfl, h2, h3, tr, h4⟩
  | .deco (.limiter m) id c, u, _, _, _, .limiterStop hm, hac => by
    refine ⟨0, deco_does hac fun fuel hf st hc hu => ?_⟩
    simp only [decoTick, bodyStart_cnt (E := E) (hc id (by simp [Tree.ids])) (k := .limiter m) (by simp) (by simp)]
    rw [if_neg (by omega)]
    exact ⟨_, rfl, by rw [bodyStart_user_deco (by simp), hu], by simp, [],
      Acc.refl _ _ _ (closed_bodyStart (E := E) (.deco _) hac.1 (fun j hj => hc j (by simp [Tree.ids, hj])))⟩
  | .deco (.repeater _) id c, u, _, _, _, .repeater0, hac => by
    refine ⟨0, deco_does hac fun fuel hf st hc hu => ?_⟩
    have hcl := hc id (by simp [Tree.ids])
    simp only [decoTick, repeatTick, bodyStart_cnt (E := E) hcl (k := .repeater 0) (by simp) (by simp)]
    rw [whileLoop.eq_def]
    simp only [Int.lt_irrefl, or_self, if_false]
    exact ⟨_, rfl, by rw [bodyStart_user_deco (by simp), hu], by simp, [],
      (Acc.refl _ _ _ (closed_bodyStart (E := E) (.deco _) hac.1
        (fun j hj => hc j (by simp [Tree.ids, hj])))).cntUpd (by simp) _⟩
  | .deco (.repeater m) id c, u, _, s, u', .repeater h, hac => by
    obtain ⟨f0, hD⟩ := bigloop_does h hac.2
    exact ⟨f0, rep_does hE hac hD (.inl ⟨rfl, rfl⟩)⟩
  | .deco (.untilFailure m) id c, u, _, s, u', .untilFailure h, hac => by
    obtain ⟨f0, hD⟩ := bigloop_does h hac.2
    exact ⟨f0, rep_does hE hac hD (.inr (.inl ⟨rfl, rfl⟩))⟩
  | .deco (.untilSuccess m) id c, u, _, s, u', .untilSuccess h, hac => by
    obtain ⟨f0, hD⟩ := bigloop_does h hac.2
    exact ⟨f0, rep_does hE hac hD (.inr (.inr ⟨rfl, rfl⟩))⟩
  | .deco (.maxTime m) id c, u, _, s, u', .maxTimeOk hm h, hac => by
    obtain ⟨f0, hD⟩ := big_does h hac.2
    refine ⟨f0, deco_does hac fun fuel hf st hc hu => ?_⟩
    obtain ⟨st1, h1, h2, h3, h4⟩ := child_run hE hac hD hf hc
    obtain ⟨e1, e2⟩ := bodyStart_maxTime (E := E) (t := m) (hc id (by simp [Tree.ids]))
    rw [hu] at e1 e2
    simp only [decoTick, e2]
    rw [e1, h1]
    simp only
    rw [if_neg (by omega)]
    exact ⟨st1, rfl, h2, h3, h4⟩
  | .deco (.maxTime m) id c, u, _, _, u', .maxTimeLate hm h, hac => by
    obtain ⟨f0, hD⟩ := big_does h hac.2
    refine ⟨f0, deco_does hac fun fuel hf st hc hu => ?_⟩
    obtain ⟨st1, h1, h2, h3, h4⟩ := child_run hE hac hD hf hc
    obtain ⟨e1, e2⟩ := bodyStart_maxTime (E := E) (t := m) (hc id (by simp [Tree.ids]))
    rw [hu] at e1 e2
    simp only [decoTick, e2]
    rw [e1, h1]
    simp only
    rw [if_pos hm]
    exact ⟨st1, rfl, h2, by simp, h4⟩
  | .emptyDeco k id, u, _, _, _, .emptyDeco hk, hac => by
    refine ⟨0, fun fuel hf st hc hu => ?_⟩
    rw [exec]
    obtain ⟨st2, h3, h4⟩ := execute_ok (E := E) (S := []) (.deco k) (by simp) (hc id (by simp [Tree.ids]))
      (body := fun st => .ok (.error, st)) rfl ⟨by simp, [], Acc.refl _ _ _ (by simp)⟩
    exact ⟨st2, h3, by rw [h4, bodyStart_user_deco hk, hu]⟩
  | .emptyDeco (.maxTime m) id, u, _, _, _, .emptyMaxTime, hac => by
    refine ⟨0, fun fuel hf st hc hu => ?_⟩
    rw [exec]
    obtain ⟨st2, h3, h4⟩ := execute_ok (E := E) (S := []) (.deco (.maxTime m)) (by simp) (hc id (by simp [Tree.ids]))
      (body := fun st => .ok (.error, st)) rfl ⟨by simp, [], Acc.refl _ _ _ (by simp)⟩
    exact ⟨st2, h3, by rw [h4, (bodyStart_maxTime (hc id (by simp [Tree.ids]))).1, hu]⟩
theorem bigseq_does : ∀ {cs : List (Tree L)} {u tr s u'}, BigSeq E cs u tr s u' → AcyclicList cs →
    ∃ f0, SeqDoes E cs u s u' f0
  | [], u, _, _, _, .done, _ => ⟨0, fun fuel _ self tmp st hc hu => ⟨_, rfl, hu⟩⟩
  | c :: cs, u, _, s, u', .stop h hn, hac => by
    rw [AcyclicList] at hac
    obtain ⟨f0, hD⟩ := big_does h hac.1
    refine ⟨f0, fun fuel hf self tmp st hc hu => ?_⟩
    obtain ⟨st1, h1, h2⟩ := hD fuel hf st (fun j hj => hc j (by simp [idsList, hj])) hu
    simp only [execs, seqTick, h1]
    rw [if_neg hn]
    exact ⟨_, rfl, h2⟩
  | c :: cs, u, _, s, u', .next h h', hac => by
    rw [AcyclicList] at hac
    obtain ⟨f0, hD⟩ := big_does h hac.1
    obtain ⟨f1, hD'⟩ := bigseq_does h' hac.2
    refine ⟨f0 + f1, fun fuel hf self tmp st hc hu => ?_⟩
    obtain ⟨st1, h1, h2⟩ := hD fuel (by omega) st (fun j hj => hc j (by simp [idsList, hj])) hu
    simp only [execs, seqTick, h1, if_true]
    exact hD' fuel (by omega) self _ st1 (after_child hE hac.1 hc h1) h2
theorem bigpri_does : ∀ {cs : List (Tree L)} {u tr s u'}, BigPri E cs u tr s u' → AcyclicList cs →
    ∃ f0, PriDoes E cs u s u' f0
  | [], u, _, _, _, .done, _ => ⟨0, fun fuel _ self st hc hu => ⟨_, rfl, hu⟩⟩
  | c :: cs, u, _, s, u', .stop h hn, hac => by
    rw [AcyclicList] at hac
    obtain ⟨f0, hD⟩ := big_does h hac.1
    refine ⟨f0, fun fuel hf self st hc hu => ?_⟩
    obtain ⟨st1, h1, h2⟩ := hD fuel hf st (fun j hj => hc j (by simp [idsList, hj])) hu
    simp only [execs, priTick, h1]
    rw [if_neg hn]
    exact ⟨_, rfl, h2⟩
  | c :: cs, u, _, s, u', .next h h', hac => by
    rw [AcyclicList] at hac
    obtain ⟨f0, hD⟩ := big_does h hac.1
    obtain ⟨f1, hD'⟩ := bigpri_does h' hac.2
    refine ⟨f0 + f1, fun fuel hf self st hc hu => ?_⟩
    obtain ⟨st1, h1, h2⟩ := hD fuel (by omega) st (fun j hj => hc j (by simp [idsList, hj])) hu
    simp only [execs, priTick, h1, if_true]
    exact hD' fuel (by omega) self _ (by have := after_child hE hac.1 hc h1; exact this) h2
theorem bigall_does : ∀ {cs : List (Tree L)} {u tr ss u'}, BigAll E cs u tr ss u' → AcyclicList cs →
    ∃ f0, AllDoes E cs u ss u' f0
  | [], u, _, _, _, .done, _ => ⟨0, fun fuel _ self acc st hc hu => ⟨_, by simp [execs, orTick, orAcc], hu⟩⟩
  | c :: cs, u, _, _, u', .next h h', hac => by
    rw [AcyclicList] at hac
    obtain ⟨f0, hD⟩ := big_does h hac.1
    obtain ⟨f1, hD'⟩ := bigall_does h' hac.2
    refine ⟨f0 + f1, fun fuel hf self acc st hc hu => ?_⟩
    obtain ⟨st1, h1, h2⟩ := hD fuel (by omega) st (fun j hj => hc j (by simp [idsList, hj])) hu
    simp only [execs, orTick, h1]
    rw [← orAcc_cons]
    exact hD' fuel (by omega) self _ _ (by have := after_child hE hac.1 hc h1; exact this) h2
theorem bigloop_does : ∀ {r : Rep} {c : Tree L} {m u tr s u'}, BigLoop E r c m u tr s u' → c.Acyclic →
    ∃ f0, LoopDoes E r c m u s u' f0
  | r, c, m, u, _, s, u', .last hm h hl, hac => by
    obtain ⟨f0, hD⟩ := big_does h hac
    exact ⟨_, loop_last hm hD hl⟩
  | r, c, m, u, _, s, u', .again hm h ha h1 hL, hac => by
    obtain ⟨f0, hD⟩ := big_does h hac
    obtain ⟨f1, hD'⟩ := bigloop_does hL hac
    exact ⟨_, loop_again hE hac hm hD ha hD'⟩
end
end

end Verif.BT
