import Verif.BT.Lemmas
/-! The engine refines the big-step specification: soundness direction. -/
namespace Verif.BT
variable {σ L : Type}

/-- Soundness of one tree. -/
def Sound (E : Env σ L) (fuel : Nat) (t : Tree L) : Prop :=
  ∀ st s st', Closed t st → exec E fuel t st = .ok (s, st') →
    s ≠ .running ∧ ∃ tr, Big E t st.user tr s st'.user ∧ Acc t.ids t.ids st tr st'

theorem execute_inv {id : Id} {hook : St σ → St σ} {body : St σ → Res σ} {st : St σ} {s st2}
    (h : execute id hook body st = .ok (s, st2)) :
    ∃ st1, body (bodyStart id hook st) = .ok (s, st1) := by
  simp only [execute] at h
  cases hb : body (countTick id (openIfClosed id hook (enter id st))) with
  | error e => rw [hb] at h; cases h
  | ok p =>
    obtain ⟨s', st1⟩ := p
    rw [hb] at h
    simp only at h
    cases hc : closeIfDone id s' (afterTick id s' st1) with
    | error e => rw [hc] at h; cases h
    | ok st3 =>
      rw [hc] at h; simp only [Except.ok.injEq, Prod.mk.injEq] at h
      exact ⟨st1, by rw [bodyStart, hb, h.1]⟩

theorem bodyStart_open {E : Env σ L} {id : Id} {hook : St σ → St σ} (hh : Hook E id hook) (st : St σ)
    {j : Id} (hj : j ≠ id) : (bodyStart id hook st).isOpen j = st.isOpen j := by
  simp only [bodyStart, openIfClosed]
  split
  · rfl
  · obtain ⟨u, c, s, h, _⟩ := hh.spec { (enter id st) with isOpen := upd (enter id st).isOpen id true }
    rw [h]; simp [countTick, upd_other _ _ hj, enter]

theorem bodyStart_user_none {id : Id} (st : St σ) :
    (bodyStart id (fun st => st) st).user = st.user := by
  simp only [bodyStart, openIfClosed]; split <;> rfl

/-- From a body-level statement to the node-level statement. -/
theorem sound_of_body {E : Env σ L} {id : Id} {hook : St σ → St σ} {body : St σ → Res σ} {st : St σ}
    {S : List Id} (hh : Hook E id hook) (hid : id ∉ S) (hcl : st.isOpen id = false)
    (hcS : ∀ j ∈ S, st.isOpen j = false) {s st'}
    (Post : List Ev → Status → σ → Prop)
    (hbody : (∀ j ∈ S, (bodyStart id hook st).isOpen j = false) → ∀ s st1, body (bodyStart id hook st) = .ok (s, st1) →
      s ≠ .running ∧ ∃ tr, Post tr s st1.user ∧ Acc S (id :: S) (bodyStart id hook st) tr st1)
    (h : execute id hook body st = .ok (s, st')) :
    s ≠ .running ∧ ∃ tr, Post tr s st'.user ∧ Acc (id :: S) (id :: S) st (tr ++ [(id, s)]) st' := by
  obtain ⟨st1, hb⟩ := execute_inv h
  have hclS : ∀ j ∈ S, (bodyStart id hook st).isOpen j = false := fun j hj => by
    rw [bodyStart_open hh st (fun e => hid (e ▸ hj))]; exact hcS j hj
  obtain ⟨hr, tr, hP, hA⟩ := hbody hclS s st1 hb
  obtain ⟨st2, he, hu, _, _, hA2⟩ := execute_acc hh hid hcl hb hr hA
  rw [h] at he
  simp only [Except.ok.injEq, Prod.mk.injEq, true_and] at he
  subst he
  exact ⟨hr, tr, by rw [hu]; exact hP, hA2⟩

section Lists
variable {E : Env σ L} {fuel : Nat}

theorem seq_sound {self : Id} {S : List Id} :
    ∀ (cs : List (Tree L)), (∀ c ∈ cs, Sound E fuel c) → (∀ j ∈ idsList cs, j ∈ S) →
    ∀ tmp st s st', (∀ j ∈ S, st.isOpen j = false) →
      seqTick self (execs E fuel cs) tmp st = .ok (s, st') →
      s ≠ .running ∧ ∃ tr, BigSeq E cs st.user tr s st'.user ∧ Acc S (self :: S) st tr st'
  | [], _, _, tmp, st, s, st', hc, h => by
    simp only [execs, seqTick, Except.ok.injEq, Prod.mk.injEq] at h
    obtain ⟨rfl, rfl⟩ := h
    exact ⟨by simp, [], .done, (Acc.refl _ _ _ hc).cost (by simp) _⟩
  | c :: cs, hs, hS, tmp, st, s, st', hc, h => by
    simp only [execs, seqTick] at h
    have hsub : ∀ j ∈ c.ids, j ∈ S := fun j hj => hS j (by simp [idsList, hj])
    cases hr : exec E fuel c st with
    | error e => rw [hr] at h; cases h
    | ok p =>
      obtain ⟨s1, st1⟩ := p
      rw [hr] at h; simp only at h
      obtain ⟨h1, tr, hB, hA⟩ := hs c (by simp) st s1 st1 (fun j hj => hc j (hsub j hj)) hr
      have hA' := hA.mono (S' := S) (T' := self :: S) hsub (fun j hj => by simp [hsub j hj]) hc
      split at h
      · rename_i he
        subst he
        obtain ⟨h2, tr', hB', hA2⟩ := seq_sound cs (fun c hc => hs c (by simp [hc]))
          (fun j hj => hS j (by simp [idsList, hj])) _ st1 s st' hA'.closed h
        exact ⟨h2, tr ++ tr', .next hB hB', hA'.trans hA2⟩
      · rename_i he
        simp only [Except.ok.injEq, Prod.mk.injEq] at h
        obtain ⟨rfl, rfl⟩ := h
        exact ⟨h1, tr, .stop hB he, hA'.cost (by simp) _⟩

theorem pri_sound {self : Id} {S : List Id} :
    ∀ (cs : List (Tree L)), (∀ c ∈ cs, Sound E fuel c) → (∀ j ∈ idsList cs, j ∈ S) →
    ∀ st s st', (∀ j ∈ S, st.isOpen j = false) →
      priTick self (execs E fuel cs) st = .ok (s, st') →
      s ≠ .running ∧ ∃ tr, BigPri E cs st.user tr s st'.user ∧ Acc S (self :: S) st tr st'
  | [], _, _, st, s, st', hc, h => by
    simp only [execs, priTick, Except.ok.injEq, Prod.mk.injEq] at h
    obtain ⟨rfl, rfl⟩ := h
    exact ⟨by simp, [], .done, (Acc.refl _ _ _ hc)⟩
  | c :: cs, hs, hS, st, s, st', hc, h => by
    simp only [execs, priTick] at h
    have hsub : ∀ j ∈ c.ids, j ∈ S := fun j hj => hS j (by simp [idsList, hj])
    cases hr : exec E fuel c st with
    | error e => rw [hr] at h; cases h
    | ok p =>
      obtain ⟨s1, st1⟩ := p
      rw [hr] at h; simp only at h
      obtain ⟨h1, tr, hB, hA⟩ := hs c (by simp) st s1 st1 (fun j hj => hc j (hsub j hj)) hr
      have hA' := (hA.mono (S' := S) (T' := self :: S) hsub (fun j hj => by simp [hsub j hj]) hc).cost
        (i := self) (by simp) (st1.cost self + st1.cost c.id)
      split at h
      · rename_i he
        subst he
        obtain ⟨h2, tr', hB', hA2⟩ := pri_sound cs (fun c hc => hs c (by simp [hc]))
          (fun j hj => hS j (by simp [idsList, hj])) _ s st' hA'.closed h
        exact ⟨h2, tr ++ tr', .next hB hB', hA'.trans hA2⟩
      · rename_i he
        simp only [Except.ok.injEq, Prod.mk.injEq] at h
        obtain ⟨rfl, rfl⟩ := h
        exact ⟨h1, tr, .stop hB he, hA'⟩

/-- The status an OrNode returns, from the initial accumulator and the statuses of the children. -/
def orAcc (acc : Status) (ss : List Status) : Status :=
  if ∃ x ∈ ss, x ≠ Status.failure then .success else acc

theorem or_sound {self : Id} {S : List Id} :
    ∀ (cs : List (Tree L)), (∀ c ∈ cs, Sound E fuel c) → (∀ j ∈ idsList cs, j ∈ S) →
    ∀ acc st s st', (∀ j ∈ S, st.isOpen j = false) →
      orTick self (execs E fuel cs) acc st = .ok (s, st') →
      ∃ tr ss, s = orAcc acc ss ∧ BigAll E cs st.user tr ss st'.user ∧ Acc S (self :: S) st tr st'
  | [], _, _, acc, st, s, st', hc, h => by
    simp only [execs, orTick, Except.ok.injEq, Prod.mk.injEq] at h
    obtain ⟨rfl, rfl⟩ := h
    exact ⟨[], [], by simp [orAcc], .done, (Acc.refl _ _ _ hc)⟩
  | c :: cs, hs, hS, acc, st, s, st', hc, h => by
    simp only [execs, orTick] at h
    have hsub : ∀ j ∈ c.ids, j ∈ S := fun j hj => hS j (by simp [idsList, hj])
    cases hr : exec E fuel c st with
    | error e => rw [hr] at h; cases h
    | ok p =>
      obtain ⟨s1, st1⟩ := p
      rw [hr] at h; simp only at h
      obtain ⟨h1, tr, hB, hA⟩ := hs c (by simp) st s1 st1 (fun j hj => hc j (hsub j hj)) hr
      have hA' := (hA.mono (S' := S) (T' := self :: S) hsub (fun j hj => by simp [hsub j hj]) hc).cost
        (i := self) (by simp) (st1.cost self + st1.cost c.id)
      obtain ⟨tr', ss, he, hB', hA2⟩ := or_sound cs (fun c hc => hs c (by simp [hc]))
          (fun j hj => hS j (by simp [idsList, hj])) _ _ s st' hA'.closed h
      refine ⟨tr ++ tr', s1 :: ss, ?_, .next hB hB', hA'.trans hA2⟩
      rw [he]
      simp only [orAcc]
      by_cases hf : s1 = .failure
      · simp [hf]
      · by_cases hx : ∃ x ∈ ss, x ≠ Status.failure <;> simp [hf]

theorem loop_sound {self : Id} {c : Tree L} (hs : Sound E fuel c)
    (r : Rep) (cont : Status → Bool) (hcont : ∀ s, cont s = true ↔ r.again s) (m : Int) :
    ∀ n last i st l i' st', (∀ j ∈ c.ids, st.isOpen j = false) →
      whileLoop cont m (exec E fuel c) n last i st = .ok (l, i', st') →
      (l = last ∧ st' = st ∧ ¬ (m < 0 ∨ i < m)) ∨
      (∃ s, l = some s ∧ s ≠ .running ∧ ∃ tr, BigLoop E r c (if m < 0 then m else m - i) st.user tr s st'.user ∧
        Acc c.ids (self :: c.ids) st tr st') := by
  intro n
  induction n with
  | zero =>
    intro last i st l i' st' hc h
    rw [whileLoop] at h
    split at h
    · cases h
    · rename_i hm
      simp only [Except.ok.injEq, Prod.mk.injEq] at h
      obtain ⟨rfl, _, rfl⟩ := h
      exact .inl ⟨rfl, rfl, hm⟩
  | succ n ih =>
    intro last i st l i' st' hc h
    rw [whileLoop] at h
    split at h
    · rename_i hm
      have hm0 : (if m < 0 then m else m - i) ≠ 0 := by split <;> omega
      cases hr : exec E fuel c st with
      | error e => rw [hr] at h; cases h
      | ok p =>
        obtain ⟨s1, st1⟩ := p
        rw [hr] at h; simp only at h
        obtain ⟨h1, tr, hB, hA⟩ := hs st s1 st1 hc hr
        have hA' := hA.mono (S' := c.ids) (T' := self :: c.ids) (fun _ h => h)
          (fun j hj => by simp [hj]) hc
        split at h
        · rename_i hct
          rcases ih (some s1) (i + 1) st1 l i' st' hA'.closed h with ⟨rfl, rfl, hn⟩ | ⟨s, rfl, hs2, tr', hB', hA2⟩
          · refine .inr ⟨s1, rfl, h1, tr, .last hm0 hB (.inr ?_), hA'⟩
            rw [if_neg (by omega)]; omega
          · refine .inr ⟨s, rfl, hs2, tr ++ tr', ?_, hA'.trans hA2⟩
            have hne : (if m < 0 then m else m - i) ≠ 1 := by
              intro h1'
              have hge : ¬ m < 0 := by intro hlt; rw [if_pos hlt] at h1'; omega
              rw [if_neg hge] at h1'
              rw [if_neg hge] at hB'
              have : m - (i + 1) = 0 := by omega
              rw [this] at hB'
              cases hB' with
              | last h => exact h rfl
              | again h => exact h rfl
            refine .again hm0 hB ((hcont s1).1 hct) hne ?_
            have e : (if (if m < 0 then m else m - i) < 0 then (if m < 0 then m else m - i)
                else (if m < 0 then m else m - i) - 1) = if m < 0 then m else m - (i + 1) := by
              by_cases hlt : m < 0
              · simp [hlt]
              · simp only [hlt, if_false]; rw [if_neg (by omega)]; omega
            rw [e]; exact hB'
        · rename_i hct
          simp only [Except.ok.injEq, Prod.mk.injEq] at h
          obtain ⟨rfl, _, rfl⟩ := h
          exact .inr ⟨s1, rfl, h1, tr, .last hm0 hB (.inl (fun h => hct ((hcont s1).2 h))), hA'⟩
    · rename_i hm
      simp only [Except.ok.injEq, Prod.mk.injEq] at h
      obtain ⟨rfl, _, rfl⟩ := h
      exact .inl ⟨rfl, rfl, hm⟩

theorem rep_always (s : Status) :
    (decide (s = .success ∨ s = .failure)) = true ↔ Rep.always.again s := by simp [Rep.again]
theorem rep_success (s : Status) : (decide (s = .success)) = true ↔ Rep.whileSuccess.again s := by
  simp [Rep.again]
theorem rep_failure (s : Status) : (decide (s = .failure)) = true ↔ Rep.whileFailure.again s := by
  simp [Rep.again]

/-- Body of a repeat decorator, started with `i = 0`. -/
theorem repeat_sound {self : Id} {c : Tree L} (hs : Sound E fuel c)
    (r : Rep) (cont : Status → Bool) (hcont : ∀ s, cont s = true ↔ r.again s) (m : Int)
    (init : Option Status) {st : St σ} {s st'} (hc : ∀ j ∈ c.ids, st.isOpen j = false)
    (hi : st.cnt self = some 0)
    (h : repeatTick cont init fuel m self (exec E fuel c) st = .ok (s, st')) :
    (m = 0 ∧ init = some s ∧ st'.user = st.user ∧ Acc c.ids (self :: c.ids) st [] st') ∨
    (s ≠ .running ∧ ∃ tr, BigLoop E r c m st.user tr s st'.user ∧ Acc c.ids (self :: c.ids) st tr st') := by
  simp only [repeatTick, hi] at h
  cases hw : whileLoop cont m (exec E fuel c) (loopFuel fuel m 0) init 0 st with
  | error e => rw [hw] at h; cases h
  | ok p =>
    obtain ⟨l, i', st1⟩ := p
    rw [hw] at h; simp only at h
    rcases loop_sound (self := self) hs r cont hcont m _ _ _ _ _ _ _ hc hw with
      ⟨rfl, rfl, hn⟩ | ⟨s1, rfl, h1, tr, hB, hA⟩
    · cases l with
      | none => cases h
      | some s1 =>
        simp only [Except.ok.injEq, Prod.mk.injEq] at h
        obtain ⟨rfl, rfl⟩ := h
        exact .inl ⟨by omega, rfl, rfl, (Acc.refl _ _ _ hc).cntUpd (by simp) _⟩
    · simp only [Except.ok.injEq, Prod.mk.injEq] at h
      obtain ⟨rfl, rfl⟩ := h
      refine .inr ⟨h1, tr, ?_, hA.cntUpd (by simp) _⟩
      have e : (if m < 0 then m else m - 0) = m := by split <;> omega
      rw [e] at hB; exact hB
end Lists

/-- With the node closed, `open` runs: the counter is 0. -/
theorem bodyStart_cnt {E : Env σ L} {id : Id} {k : DKind} {st : St σ} (hcl : st.isOpen id = false)
    (hk : k ≠ .inverter) (hk' : ∀ t, k ≠ .maxTime t) :
    (bodyStart id (openHook E k id) st).cnt id = some 0 := by
  simp only [bodyStart, openIfClosed, enter, countTick, hcl]
  cases k <;> simp_all [openHook]

theorem bodyStart_user_deco {E : Env σ L} {id : Id} {k : DKind} {st : St σ} 
    (hk' : ∀ t, k ≠ .maxTime t) :
    (bodyStart id (openHook E k id) st).user = st.user := by
  simp only [bodyStart, openIfClosed, enter, countTick]
  by_cases h : st.isOpen id
  · simp [h]
  · cases k <;> simp_all [openHook]

theorem bodyStart_maxTime {E : Env σ L} {id : Id} {t : Int} {st : St σ} (hcl : st.isOpen id = false) :
    (bodyStart id (openHook E (.maxTime t) id) st).user = (E.now st.user).2 ∧
    (bodyStart id (openHook E (.maxTime t) id) st).start id = some (E.now st.user).1 := by
  simp [bodyStart, openIfClosed, enter, countTick, hcl, openHook]

mutual
theorem exec_sound {E : Env σ L} (hE : E.NoRunning) (fuel : Nat) :
    ∀ t : Tree L, t.Acyclic → Sound E fuel t
  | .leaf id a, _ => by
    intro st s st' hc h
    rw [exec] at h
    obtain ⟨hr, tr, hP, hA⟩ := sound_of_body (E := E) (S := []) .none (by simp)
      (hc id (by simp [Tree.ids])) (by simp)
      (fun tr s u => tr = [] ∧ E.act a st.user = .ok (s, u)) (fun _ s st1 hb => by
        cases ha : E.act a (bodyStart id (fun st => st) st).user with
        | error e => rw [ha] at hb; cases hb
        | ok p =>
          obtain ⟨s1, u1⟩ := p
          rw [ha] at hb
          simp only [Except.ok.injEq, Prod.mk.injEq] at hb
          obtain ⟨rfl, rfl⟩ := hb
          refine ⟨hE _ _ _ _ ha, [], ⟨rfl, ?_⟩, ?_⟩
          · rw [bodyStart_user_none] at ha; exact ha
          · exact (Acc.refl [] [id] _ (by simp)).tweak u1 (fun _ _ => rfl) (fun _ _ => rfl) (fun _ _ => rfl)) h
    obtain ⟨rfl, ha⟩ := hP
    exact ⟨hr, _, .leaf ha, hA⟩
  | .comp k id cs, hac => by
    intro st s st' hc h
    rw [exec] at h
    rw [Tree.Acyclic] at hac
    have hcs := execs_sound hE fuel cs hac.2
    have hcl : st.isOpen id = false := hc id (by simp [Tree.ids])
    have hclS : ∀ j ∈ idsList cs, st.isOpen j = false := fun j hj => hc j (by simp [Tree.ids, hj])
    cases k with
    | sequence =>
      obtain ⟨hr, tr, hP, hA⟩ := sound_of_body (E := E) .none hac.1 hcl hclS
        (fun tr s u => BigSeq E cs st.user tr s u) (fun hS s st1 hb => by
          have := seq_sound (self := id) cs hcs (fun _ h => h) 0 _ s st1 hS hb
          rwa [bodyStart_user_none] at this) h
      exact ⟨hr, _, .sequence hP, hA⟩
    | priority =>
      obtain ⟨hr, tr, hP, hA⟩ := sound_of_body (E := E) .none hac.1 hcl hclS
        (fun tr s u => BigPri E cs st.user tr s u) (fun hS s st1 hb => by
          obtain ⟨h1, tr, hB, hA⟩ := pri_sound (self := id) cs hcs (fun _ h => h) { (bodyStart id (fun st => st) st) with
            cost := upd (bodyStart id (fun st => st) st).cost id 0 } s st1 hS hb
          have hB : BigPri E cs (bodyStart id (fun st => st) st).user tr s st1.user := hB
          rw [bodyStart_user_none] at hB
          exact ⟨h1, tr, hB, by simpa using ((Acc.refl _ _ _ hS).cost (i := id) (by simp) 0).trans hA⟩) h
      exact ⟨hr, _, .priority hP, hA⟩
    | orNode =>
      obtain ⟨hr, tr, hP, hA⟩ := sound_of_body (E := E) .none hac.1 hcl hclS
        (fun tr s u => ∃ ss, s = orAcc .failure ss ∧ BigAll E cs st.user tr ss u) (fun hS s st1 hb => by
          obtain ⟨tr, ss, h1, hB, hA⟩ := or_sound (self := id) cs hcs (fun _ h => h) _ { (bodyStart id (fun st => st) st) with
            cost := upd (bodyStart id (fun st => st) st).cost id 0 } s st1 hS hb
          have hB : BigAll E cs (bodyStart id (fun st => st) st).user tr ss st1.user := hB
          rw [bodyStart_user_none] at hB
          refine ⟨?_, tr, ⟨ss, h1, hB⟩, by simpa using ((Acc.refl _ _ _ hS).cost (i := id) (by simp) 0).trans hA⟩
          rw [h1, orAcc]; split <;> simp) h
      obtain ⟨ss, h1, hB⟩ := hP
      exact ⟨hr, _, .orNode hB s h1, hA⟩
    | memSequence => obtain ⟨_, hb⟩ := execute_inv h; cases hb
    | memPriority => obtain ⟨_, hb⟩ := execute_inv h; cases hb
  | .deco k id c, hac => by
    intro st s st' hc h
    rw [exec] at h
    rw [Tree.Acyclic] at hac
    have hs := exec_sound hE fuel c hac.2
    have hcl : st.isOpen id = false := hc id (by simp [Tree.ids])
    have hclS : ∀ j ∈ c.ids, st.isOpen j = false := fun j hj => hc j (by simp [Tree.ids, hj])
    cases k with
    | inverter =>
      obtain ⟨hr, tr, ⟨s1, he, hB⟩, hA⟩ := sound_of_body (E := E) (.deco .inverter) hac.1 hcl hclS
        (fun tr s u => ∃ s1, s = invert s1 ∧ Big E c st.user tr s1 u) (fun hS s st1 hb => by
          simp only [decoTick] at hb
          cases hx : exec E fuel c (bodyStart id (openHook E .inverter id) st) with
          | error e => rw [hx] at hb; cases hb
          | ok p =>
            obtain ⟨s1, st2⟩ := p
            rw [hx] at hb; simp only [Except.ok.injEq, Prod.mk.injEq] at hb
            obtain ⟨rfl, rfl⟩ := hb
            obtain ⟨h1, tr, hB, hA⟩ := hs _ _ _ hS hx
            rw [bodyStart_user_deco (by simp)] at hB
            exact ⟨by cases s1 <;> simp_all [invert], tr, ⟨s1, rfl, hB⟩,
              hA.mono (fun _ h => h) (fun j h => by simp [h]) hS⟩) h
      refine ⟨hr, _, ?_, hA⟩
      subst he
      cases s1 with
      | success => exact .invSuccess hB
      | failure => exact .invFailure hB
      | running => exact .invOther hB (by simp [invert]) (by simp [invert])
      | error => exact .invOther hB (by simp [invert]) (by simp [invert])
    | limiter m =>
      obtain ⟨hr, tr, hP, hA⟩ := sound_of_body (E := E) (.deco (.limiter m)) hac.1 hcl hclS
        (fun tr s u => (0 < m ∧ Big E c st.user tr s u) ∨ (m ≤ 0 ∧ tr = [] ∧ s = .failure ∧ u = st.user))
        (fun hS s st1 hb => by
          simp only [decoTick, bodyStart_cnt hcl (k := .limiter m) (by simp) (by simp)] at hb
          split at hb
          · rename_i hm
            cases hx : exec E fuel c (bodyStart id (openHook E (.limiter m) id) st) with
            | error e => rw [hx] at hb; cases hb
            | ok p =>
              obtain ⟨s1, st2⟩ := p
              rw [hx] at hb; simp only at hb
              obtain ⟨h1, tr, hB, hA⟩ := hs _ _ _ hS hx
              rw [bodyStart_user_deco (by simp)] at hB
              have hA' := hA.mono (T' := id :: c.ids) (fun _ h => h) (fun j h => by simp [h]) hS
              split at hb <;> simp only [Except.ok.injEq, Prod.mk.injEq] at hb <;> obtain ⟨rfl, rfl⟩ := hb
              · exact ⟨h1, tr, .inl ⟨hm, hB⟩, hA'.cntUpd (by simp) _⟩
              · exact ⟨h1, tr, .inl ⟨hm, hB⟩, hA'⟩
          · rename_i hm
            simp only [Except.ok.injEq, Prod.mk.injEq] at hb
            obtain ⟨rfl, rfl⟩ := hb
            exact ⟨by simp, [], .inr ⟨by omega, rfl, rfl, bodyStart_user_deco (by simp)⟩, Acc.refl _ _ _ hS⟩) h
      refine ⟨hr, _, ?_, hA⟩
      rcases hP with ⟨hm, hB⟩ | ⟨hm, rfl, rfl, hu⟩
      · exact .limiterRun hm hB
      · rw [hu]; exact .limiterStop hm
    | repeater m =>
      obtain ⟨hr, tr, hP, hA⟩ := sound_of_body (E := E) (.deco (.repeater m)) hac.1 hcl hclS
        (fun tr s u => (m = 0 ∧ tr = [] ∧ s = .success ∧ u = st.user) ∨ BigLoop E .always c m st.user tr s u)
        (fun hS s st1 hb => by
          rcases repeat_sound hs .always _ rep_always m _ hS
            (bodyStart_cnt hcl (k := .repeater m) (by simp) (by simp)) hb with
            ⟨h1, h2, h3, h4⟩ | ⟨h1, tr, hB, hA⟩
          · simp only [Option.some.injEq] at h2
            rw [bodyStart_user_deco (by simp)] at h3
            exact ⟨by simp [← h2], [], .inl ⟨h1, rfl, h2.symm, h3⟩, h4⟩
          · rw [bodyStart_user_deco (by simp)] at hB
            exact ⟨h1, tr, .inr hB, hA⟩) h
      refine ⟨hr, _, ?_, hA⟩
      rcases hP with ⟨rfl, rfl, rfl, hu⟩ | hB
      · rw [hu]; exact .repeater0
      · exact .repeater hB
    | untilFailure m =>
      obtain ⟨hr, tr, hP, hA⟩ := sound_of_body (E := E) (.deco (.untilFailure m)) hac.1 hcl hclS
        (fun tr s u => BigLoop E .whileSuccess c m st.user tr s u)
        (fun hS s st1 hb => by
          rcases repeat_sound hs .whileSuccess _ rep_success m _ hS
            (bodyStart_cnt hcl (k := .untilFailure m) (by simp) (by simp)) hb with
            ⟨_, h2, _⟩ | ⟨h1, tr, hB, hA⟩
          · cases h2
          · rw [bodyStart_user_deco (by simp)] at hB
            exact ⟨h1, tr, hB, hA⟩) h
      exact ⟨hr, _, .untilFailure hP, hA⟩
    | untilSuccess m =>
      obtain ⟨hr, tr, hP, hA⟩ := sound_of_body (E := E) (.deco (.untilSuccess m)) hac.1 hcl hclS
        (fun tr s u => BigLoop E .whileFailure c m st.user tr s u)
        (fun hS s st1 hb => by
          rcases repeat_sound hs .whileFailure _ rep_failure m _ hS
            (bodyStart_cnt hcl (k := .untilSuccess m) (by simp) (by simp)) hb with
            ⟨_, h2, _⟩ | ⟨h1, tr, hB, hA⟩
          · cases h2
          · rw [bodyStart_user_deco (by simp)] at hB
            exact ⟨h1, tr, hB, hA⟩) h
      exact ⟨hr, _, .untilSuccess hP, hA⟩
    | maxTime m =>
      obtain ⟨hr, tr, ⟨s1, he, hB⟩, hA⟩ := sound_of_body (E := E) (.deco (.maxTime m)) hac.1 hcl hclS
        (fun tr s u => ∃ s1, s = (if (E.now (E.now st.user).2).1 - (E.now st.user).1 > m then .failure else s1) ∧
          Big E c (E.now (E.now st.user).2).2 tr s1 u)
        (fun hS s st1 hb => by
          obtain ⟨hu, hst⟩ := bodyStart_maxTime (E := E) (t := m) hcl
          simp only [decoTick, hst] at hb
          rw [hu] at hb
          cases hx : exec E fuel c { (bodyStart id (openHook E (.maxTime m) id) st) with
              user := (E.now (E.now st.user).2).2 } with
          | error e => rw [hx] at hb; cases hb
          | ok p =>
            obtain ⟨s1, st2⟩ := p
            rw [hx] at hb; simp only at hb
            obtain ⟨h1, tr, hB, hA⟩ := hs _ _ _ (by exact hS) hx
            have hA1 := ((Acc.refl _ (id :: c.ids) _ hS).tweak (E.now (E.now st.user).2).2
              (fun _ _ => rfl) (fun _ _ => rfl) (fun _ _ => rfl)).trans
                (hA.mono (T' := id :: c.ids) (fun _ h => h) (fun j h => by simp [h]) (by exact hS))
            refine ⟨?_, tr, ⟨s1, ?_, ?_⟩, ?_⟩
            · split at hb <;> simp only [Except.ok.injEq, Prod.mk.injEq] at hb <;> obtain ⟨rfl, rfl⟩ := hb
              · simp
              · exact h1
            · split at hb <;> simp only [Except.ok.injEq, Prod.mk.injEq] at hb <;> obtain ⟨rfl, rfl⟩ := hb <;> simp [*]
            · split at hb <;> simp only [Except.ok.injEq, Prod.mk.injEq] at hb <;> obtain ⟨rfl, rfl⟩ := hb <;> exact hB
            · split at hb <;> simp only [Except.ok.injEq, Prod.mk.injEq] at hb <;> obtain ⟨rfl, rfl⟩ := hb <;> simpa using hA1) h
      refine ⟨hr, _, ?_, hA⟩
      split at he
      · rename_i hm
        subst he; exact .maxTimeLate hm hB
      · rename_i hm
        subst he; exact .maxTimeOk (by omega) hB
  | .emptyDeco k id, _ => by
    intro st s st' hc h
    rw [exec] at h
    have hcl : st.isOpen id = false := hc id (by simp [Tree.ids])
    obtain ⟨hr, tr, ⟨rfl, rfl, hu⟩, hA⟩ := sound_of_body (E := E) (S := []) (.deco k) (by simp)
      hcl (by simp)
      (fun tr s u => tr = [] ∧ s = .error ∧ u = (bodyStart id (openHook E k id) st).user)
      (fun hS s st1 hb => by
        simp only [Except.ok.injEq, Prod.mk.injEq] at hb
        obtain ⟨rfl, rfl⟩ := hb
        exact ⟨by simp, [], ⟨rfl, rfl, rfl⟩, Acc.refl _ _ _ hS⟩) h
    refine ⟨hr, _, ?_, hA⟩
    rw [hu]
    by_cases hk : ∃ t, k = .maxTime t
    · obtain ⟨t, rfl⟩ := hk
      rw [(bodyStart_maxTime hcl).1]; exact .emptyMaxTime
    · have hk' : ∀ t, k ≠ .maxTime t := fun t ht => hk ⟨t, ht⟩
      rw [bodyStart_user_deco hk']; exact .emptyDeco hk'
theorem execs_sound {E : Env σ L} (hE : E.NoRunning) (fuel : Nat) :
    ∀ cs : List (Tree L), AcyclicList cs → ∀ c ∈ cs, Sound E fuel c
  | [], _ => by simp
  | c :: cs, hac => by
    rw [AcyclicList] at hac
    have h1 := exec_sound hE fuel c hac.1
    have h2 := execs_sound hE fuel cs hac.2
    intro c' hc'
    rcases List.mem_cons.1 hc' with rfl | h
    · exact h1
    · exact h2 c' h
end

end Verif.BT
