import Verif.BT.General
/-! Proofs of the node-by-node laws (arbitrary leaves, RUNNING included). -/
namespace Verif.BT
variable {σ L : Type} {E : Env σ L} {fuel : Nat}

theorem SameOff.refl (id : Id) (a : St σ) : SameOff id a a := by constructor <;> intros <;> rfl
theorem SameOff.trans {id : Id} {a b c : St σ} (h : SameOff id a b) (h' : SameOff id b c) : SameOff id a c := by
  constructor
  · rw [h'.user, h.user]
  all_goals intro j hj
  · rw [h'.isOpen j hj, h.isOpen j hj]
  · rw [h'.cnt j hj, h.cnt j hj]
  · rw [h'.start j hj, h.start j hj]
  · rw [h'.cost j hj, h.cost j hj]
  · rw [h'.ticksAll j hj, h.ticksAll j hj]
  · rw [h'.nSuccess j hj, h.nSuccess j hj]

theorem sameOff_cost (id : Id) (a : St σ) (v : Int) : SameOff id a { a with cost := upd a.cost id v } := by
  constructor <;> intros <;> simp [upd, *]
theorem sameOff_cnt (id : Id) (a : St σ) (v) : SameOff id a { a with cnt := upd a.cnt id v } := by
  constructor <;> intros <;> simp [upd, *]

/-- Entering a node changes only the node's own bookkeeping (its `open` hook may read the clock). -/
theorem sameOff_bodyStart {id : Id} {hook : St σ → St σ} (hh : Hook E id hook) (st : St σ)
    (hu : (bodyStart id hook st).user = st.user) : SameOff id st (bodyStart id hook st) := by
  obtain ⟨u, c, s, h, h1, h2⟩ := hh.spec { (enter id st) with isOpen := upd (enter id st).isOpen id true }
  simp only [bodyStart, openIfClosed] at hu ⊢
  split
  · constructor <;> intros <;> simp [countTick, enter, upd, *]
  · rw [h]
    rename_i hop
    rw [if_neg hop, h] at hu
    simp only [enter, countTick] at *
    constructor
    · exact hu
    all_goals intro j hj
    · simp [upd, hj]
    · exact h1 j hj
    · exact h2 j hj
    · rfl
    · simp [upd, hj]
    · rfl

theorem sameOff_close {id : Id} {s : Status} {st1 st2 : St σ}
    (h : closeIfDone id s (afterTick id s st1) = .ok st2) : SameOff id st1 st2 := by
  cases s
  case running =>
    simp [closeIfDone, afterTick] at h; rw [← h]
    constructor <;> intros <;> simp
  all_goals
    simp only [closeIfDone, afterTick] at h
    rw [if_neg (by simp)] at h
    split at h
    · cases h
    · simp only [Except.ok.injEq] at h; rw [← h]
      constructor <;> intros <;> simp [upd, *]

/-- Inversion of `_execute` around the body. -/
theorem execute_ok_inv {id : Id} {hook : St σ → St σ} {body : St σ → Res σ} {st : St σ} {s st'}
    (h : execute id hook body st = .ok (s, st')) :
    ∃ st1, body (bodyStart id hook st) = .ok (s, st1) ∧ SameOff id st1 st' := by
  simp only [execute] at h
  cases hb : body (countTick id (openIfClosed id hook (enter id st))) with
  | error e => rw [hb] at h; cases h
  | ok p =>
    obtain ⟨s', st1⟩ := p
    rw [hb] at h
    simp only at h
    cases hc : closeIfDone id s' (afterTick id s' st1) with
    | error e => rw [hc] at h; cases h
    | ok st3 =>
      rw [hc] at h; simp only [Except.ok.injEq, Prod.mk.injEq] at h
      obtain ⟨rfl, rfl⟩ := h
      exact ⟨st1, hb, sameOff_close hc⟩

theorem execute_err_inv {id : Id} {hook : St σ → St σ} {body : St σ → Res σ} {st : St σ} {e}
    (hh : Hook E id hook) (hl : Resp LenLe body)
    (h : execute id hook body st = .error e) : body (bodyStart id hook st) = .error e := by
  simp only [execute] at h
  rw [show countTick id (openIfClosed id hook (enter id st)) = bodyStart id hook st from rfl] at h
  cases hx : body (bodyStart id hook st) with
  | error e' => rw [hx] at h; cases h; rfl
  | ok p =>
    obtain ⟨s1, st1⟩ := p
    have hlen := hl _ _ _ hx
    have h1 := (around hh st).1
    simp only [LenLe, h1] at hlen
    rw [hx] at h; simp only at h
    cases hs : st1.stack with
    | nil => rw [hs] at hlen; simp at hlen
    | cons a l => cases s1 <;> simp [closeIfDone, afterTick, hs] at h

/-! ### Sequence -/

theorem upd_id {α} (f : Id → α) (i : Id) : upd f i (f i) = f := by
  funext j; simp only [upd]; split
  · rename_i h; rw [h]
  · rfl

theorem st_cost_id (st : St σ) (i : Id) : { st with cost := upd st.cost i (st.cost i) } = st := by
  rw [upd_id]

theorem seq_law {self : Id} : ∀ (cs : List (Tree L)) tmp (st : St σ) s st',
    seqTick self (execs E fuel cs) tmp st = .ok (s, st') →
    ∃ n ss, n ≤ cs.length ∧ Chain E fuel self (cs.take n) st ss st' ∧
      ((s = .success ∧ n = cs.length ∧ ∀ x ∈ ss, x = .success) ∨
       (s ≠ .success ∧ ∃ k, ss = List.replicate k .success ++ [s]))
  | [], tmp, st, s, st', h => by
    simp only [execs, seqTick, Except.ok.injEq, Prod.mk.injEq] at h
    obtain ⟨rfl, rfl⟩ := h
    exact ⟨0, [], by simp, .nil, .inl ⟨rfl, rfl, by simp⟩⟩
  | c :: cs, tmp, st, s, st', h => by
    simp only [execs, seqTick] at h
    cases hx : exec E fuel c st with
    | error e => rw [hx] at h; cases h
    | ok p =>
      obtain ⟨s1, st1⟩ := p
      rw [hx] at h; simp only at h
      split at h
      · rename_i hs
        obtain ⟨n, ss, hn, hC, hr⟩ := seq_law cs _ st1 s st' h
        refine ⟨n + 1, s1 :: ss, by simp; omega, ?_, ?_⟩
        · rw [List.take_succ_cons]
          exact .cons (v := st1.cost self) hx (by rw [st_cost_id]; exact hC)
        · rcases hr with ⟨h1, h2, h3⟩ | ⟨h1, k, h2⟩
          · exact .inl ⟨h1, by simp [h2], by simpa [hs] using h3⟩
          · exact .inr ⟨h1, k + 1, by rw [h2, hs, List.replicate_succ]; rfl⟩
      · rename_i hs
        simp only [Except.ok.injEq, Prod.mk.injEq] at h
        obtain ⟨rfl, rfl⟩ := h
        refine ⟨1, [s1], by simp, ?_, .inr ⟨hs, 0, rfl⟩⟩
        simp only [List.take_succ_cons, List.take_zero]
        exact .cons (v := st1.cost self) hx (by rw [st_cost_id]; exact .nil)

theorem seq_law_err {self : Id} : ∀ (cs : List (Tree L)) tmp (st : St σ) e,
    seqTick self (execs E fuel cs) tmp st = .error e →
    ∃ n ss st1 c, Chain E fuel self (cs.take n) st ss st1 ∧ (∀ x ∈ ss, x = .success) ∧
      cs[n]? = some c ∧ exec E fuel c st1 = .error e
  | [], tmp, st, e, h => by cases h
  | c :: cs, tmp, st, e, h => by
    simp only [execs, seqTick] at h
    cases hx : exec E fuel c st with
    | error e' =>
      rw [hx] at h; cases h
      exact ⟨0, [], _, c, .nil (v := st.cost self), by simp, rfl, by rw [st_cost_id]; exact hx⟩
    | ok p =>
      obtain ⟨s1, st1⟩ := p
      rw [hx] at h; simp only at h
      split at h
      · rename_i hs
        obtain ⟨n, ss, st2, c', hC, hr, hg, he⟩ := seq_law_err cs _ st1 e h
        refine ⟨n + 1, s1 :: ss, st2, c', ?_, by simpa [hs] using hr, by simpa using hg, he⟩
        rw [List.take_succ_cons]
        exact .cons (v := st1.cost self) hx (by rw [st_cost_id]; exact hC)
      · cases h

/-! ### Priority -/

theorem pri_law {self : Id} : ∀ (cs : List (Tree L)) (st : St σ) s st',
    priTick self (execs E fuel cs) st = .ok (s, st') →
    ∃ n ss, n ≤ cs.length ∧ Chain E fuel self (cs.take n) st ss st' ∧
      ((s = .failure ∧ n = cs.length ∧ ∀ x ∈ ss, x = .failure) ∨
       (s ≠ .failure ∧ ∃ k, ss = List.replicate k .failure ++ [s]))
  | [], st, s, st', h => by
    simp only [execs, priTick, Except.ok.injEq, Prod.mk.injEq] at h
    obtain ⟨rfl, rfl⟩ := h
    refine ⟨0, [], by simp, ?_, .inl ⟨rfl, rfl, by simp⟩⟩
    have := Chain.nil (E := E) (fuel := fuel) (parent := self) (st := st) (v := st.cost self)
    rw [st_cost_id] at this; exact this
  | c :: cs, st, s, st', h => by
    simp only [execs, priTick] at h
    cases hx : exec E fuel c st with
    | error e => rw [hx] at h; cases h
    | ok p =>
      obtain ⟨s1, st1⟩ := p
      rw [hx] at h; simp only at h
      split at h
      · rename_i hs
        obtain ⟨n, ss, hn, hC, hr⟩ := pri_law cs _ s st' h
        refine ⟨n + 1, s1 :: ss, by simp; omega, ?_, ?_⟩
        · rw [List.take_succ_cons]
          exact .cons hx hC
        · rcases hr with ⟨h1, h2, h3⟩ | ⟨h1, k, h2⟩
          · exact .inl ⟨h1, by simp [h2], by simpa [hs] using h3⟩
          · exact .inr ⟨h1, k + 1, by rw [h2, hs, List.replicate_succ]; rfl⟩
      · rename_i hs
        simp only [Except.ok.injEq, Prod.mk.injEq] at h
        obtain ⟨rfl, rfl⟩ := h
        refine ⟨1, [s1], by simp, ?_, .inr ⟨hs, 0, rfl⟩⟩
        simp only [List.take_succ_cons, List.take_zero]
        refine .cons (v := st1.cost self) hx ?_
        rw [st_cost_id]
        exact .nil

theorem pri_law_err {self : Id} : ∀ (cs : List (Tree L)) (st : St σ) e,
    priTick self (execs E fuel cs) st = .error e →
    ∃ n ss st1 c, Chain E fuel self (cs.take n) st ss st1 ∧ (∀ x ∈ ss, x = .failure) ∧
      cs[n]? = some c ∧ exec E fuel c st1 = .error e
  | [], st, e, h => by cases h
  | c :: cs, st, e, h => by
    simp only [execs, priTick] at h
    cases hx : exec E fuel c st with
    | error e' =>
      rw [hx] at h; cases h
      exact ⟨0, [], _, c, .nil (v := st.cost self), by simp, rfl, by rw [st_cost_id]; exact hx⟩
    | ok p =>
      obtain ⟨s1, st1⟩ := p
      rw [hx] at h; simp only at h
      split at h
      · rename_i hs
        obtain ⟨n, ss, st2, c', hC, hr, hg, he⟩ := pri_law_err cs _ e h
        exact ⟨n + 1, s1 :: ss, st2, c', by rw [List.take_succ_cons]; exact .cons hx hC,
          by simpa [hs] using hr, by simpa using hg, he⟩
      · cases h

/-! ### OrNode -/

theorem or_law {self : Id} : ∀ (cs : List (Tree L)) acc (st : St σ) s st',
    orTick self (execs E fuel cs) acc st = .ok (s, st') →
    ∃ ss, ss.length = cs.length ∧ Chain E fuel self cs st ss st' ∧ s = orAcc acc ss
  | [], acc, st, s, st', h => by
    simp only [execs, orTick, Except.ok.injEq, Prod.mk.injEq] at h
    obtain ⟨rfl, rfl⟩ := h
    refine ⟨[], rfl, ?_, by simp [orAcc]⟩
    have := Chain.nil (E := E) (fuel := fuel) (parent := self) (st := st) (v := st.cost self)
    rw [st_cost_id] at this; exact this
  | c :: cs, acc, st, s, st', h => by
    simp only [execs, orTick] at h
    cases hx : exec E fuel c st with
    | error e => rw [hx] at h; cases h
    | ok p =>
      obtain ⟨s1, st1⟩ := p
      rw [hx] at h; simp only at h
      obtain ⟨ss, hn, hC, hr⟩ := or_law cs _ _ s st' h
      exact ⟨s1 :: ss, by simp [hn], .cons hx hC, by rw [hr, orAcc_cons]⟩

/-! ### Loops -/

theorem while_law {c : Tree L} {cont : Status → Bool} {m : Int} :
    ∀ n last i (st : St σ) l i' st', whileLoop cont m (exec E fuel c) n last i st = .ok (l, i', st') →
    ∃ ss, Iter E fuel c st ss st' ∧
      ((ss = [] ∧ l = last ∧ ¬ (m < 0 ∨ i < m)) ∨
       (∃ pre s, ss = pre ++ [s] ∧ l = some s ∧ (∀ x ∈ pre, cont x = true) ∧
          (m < 0 ∨ i + ss.length ≤ m) ∧ (cont s = true → 0 ≤ m ∧ i + ss.length = m))) := by
  intro n
  induction n with
  | zero =>
    intro last i st l i' st' h
    rw [whileLoop] at h
    split at h
    · cases h
    · rename_i hm
      simp only [Except.ok.injEq, Prod.mk.injEq] at h
      obtain ⟨rfl, _, rfl⟩ := h
      exact ⟨[], .nil, .inl ⟨rfl, rfl, hm⟩⟩
  | succ n ih =>
    intro last i st l i' st' h
    rw [whileLoop] at h
    split at h
    · rename_i hm
      cases hx : exec E fuel c st with
      | error e => rw [hx] at h; cases h
      | ok p =>
        obtain ⟨s1, st1⟩ := p
        rw [hx] at h; simp only at h
        split at h
        · rename_i hc
          obtain ⟨ss, hI, hr⟩ := ih _ _ _ _ _ _ h
          refine ⟨s1 :: ss, .cons hx hI, .inr ?_⟩
          rcases hr with ⟨rfl, rfl, hn⟩ | ⟨pre, s, rfl, rfl, h1, h2, h3⟩
          · exact ⟨[], s1, rfl, rfl, by simp, by simp; omega, fun _ => by simp; omega⟩
          · refine ⟨s1 :: pre, s, rfl, rfl, by simpa [hc] using h1, ?_, fun hcs => ?_⟩
            · simp only [List.length_append, List.length_cons, List.length_nil] at *; omega
            · have := h3 hcs
              simp only [List.length_append, List.length_cons, List.length_nil] at *; omega
        · rename_i hc
          simp only [Except.ok.injEq, Prod.mk.injEq] at h
          obtain ⟨rfl, _, rfl⟩ := h
          exact ⟨[s1], .cons hx .nil, .inr ⟨[], s1, rfl, rfl, by simp, by simp; omega,
            fun h => absurd h hc⟩⟩
    · rename_i hm
      simp only [Except.ok.injEq, Prod.mk.injEq] at h
      obtain ⟨rfl, _, rfl⟩ := h
      exact ⟨[], .nil, .inl ⟨rfl, rfl, hm⟩⟩

/-- The three repeat decorators entered closed, in terms of the list `ss` of child statuses. -/
theorem repeat_law {c : Tree L} {k : DKind} {id : Id} {cont : Status → Bool} {init : Option Status} {m : Int}
    {st : St σ} {s st'} (hcl : st.isOpen id = false) (hk : k ≠ .inverter) (hk' : ∀ t, k ≠ .maxTime t)
    (hdec : ∀ st, decoTick E fuel k id (exec E fuel c) st = repeatTick cont init fuel m id (exec E fuel c) st)
    (h : exec E fuel (.deco k id c) st = .ok (s, st')) :
    ∃ ss st0 st1, SameOff id st st0 ∧ Iter E fuel c st0 ss st1 ∧ SameOff id st1 st' ∧
      ((ss = [] ∧ init = some s ∧ m = 0) ∨
       (m ≠ 0 ∧ ∃ pre, ss = pre ++ [s] ∧ (∀ x ∈ pre, cont x = true) ∧ (m < 0 ∨ (ss.length : Int) ≤ m) ∧
          (cont s = true → 0 ≤ m ∧ (ss.length : Int) = m))) := by
  rw [exec] at h
  obtain ⟨st2, h1, h2⟩ := execute_ok_inv h
  rw [hdec] at h1
  simp only [repeatTick, bodyStart_cnt hcl hk hk'] at h1
  cases hw : whileLoop cont m (exec E fuel c) (loopFuel fuel m 0) init 0 (bodyStart id (openHook E k id) st) with
  | error e => rw [hw] at h1; cases h1
  | ok p =>
    obtain ⟨l, i', st3⟩ := p
    rw [hw] at h1; simp only at h1
    cases l with
    | none => cases h1
    | some s1 =>
      simp only [Except.ok.injEq, Prod.mk.injEq] at h1
      obtain ⟨rfl, rfl⟩ := h1
      obtain ⟨ss, hI, hr⟩ := while_law _ _ _ _ _ _ _ hw
      refine ⟨ss, _, st3, sameOff_bodyStart (.deco k) st (bodyStart_user_deco hk'), hI,
        (sameOff_cnt id st3 (some i')).trans h2, ?_⟩
      rcases hr with ⟨h3, h4, h5⟩ | ⟨pre, s, h3, h4, h5, h6, h7⟩
      · exact .inl ⟨h3, h4.symm, by omega⟩
      · cases h4
        refine .inr ⟨?_, pre, h3, h5, by simpa using h6, by simpa using h7⟩
        rw [h3] at h6; simp at h6; omega

theorem while_law_err {c : Tree L} {cont : Status → Bool} {m : Int} (hm : 0 ≤ m) :
    ∀ n last i (st : St σ) e, (m - i).toNat ≤ n →
      whileLoop cont m (exec E fuel c) n last i st = .error e →
    ∃ ss st1, Iter E fuel c st ss st1 ∧ (∀ x ∈ ss, cont x = true) ∧ i + ss.length < m ∧
      exec E fuel c st1 = .error e := by
  intro n
  induction n with
  | zero =>
    intro last i st e hn h
    rw [whileLoop] at h
    rw [if_neg (by omega)] at h
    cases h
  | succ n ih =>
    intro last i st e hn h
    rw [whileLoop] at h
    split at h
    · rename_i hlt
      cases hx : exec E fuel c st with
      | error e' => rw [hx] at h; cases h; exact ⟨[], st, .nil, by simp, by simp; omega, hx⟩
      | ok p =>
        obtain ⟨s1, st1⟩ := p
        rw [hx] at h; simp only at h
        split at h
        · rename_i hc
          obtain ⟨ss, st2, h1, h2, h3, h4⟩ := ih _ _ _ _ (by omega) h
          exact ⟨s1 :: ss, st2, .cons hx h1, by simpa [hc] using h2, by simp; omega, h4⟩
        · cases h
    · cases h

/-- A closed bounded repeat decorator raises only what its child raised (or, with bound 0 and no initial
status, the unbound local). -/
theorem repeat_law_err {c : Tree L} {k : DKind} {id : Id} {cont : Status → Bool} {init : Option Status} {m : Int}
    {st : St σ} {e} (hm : 0 ≤ m) (hi : 0 < m ∨ init ≠ none)
    (hcl : st.isOpen id = false) (hk : k ≠ .inverter) (hk' : ∀ t, k ≠ .maxTime t)
    (hdec : ∀ st, decoTick E fuel k id (exec E fuel c) st = repeatTick cont init fuel m id (exec E fuel c) st)
    (h : exec E fuel (.deco k id c) st = .error e) :
    ∃ ss st0 st1, SameOff id st st0 ∧ Iter E fuel c st0 ss st1 ∧ (∀ x ∈ ss, cont x = true) ∧
      (ss.length : Int) < m ∧ exec E fuel c st1 = .error e := by
  rw [exec] at h
  have h1 := execute_err_inv (E := E) (.deco k)
    (deco_rel (lenLe_stable E) (exec_rel (lenLe_stable E) fuel c)) h
  rw [hdec] at h1
  simp only [repeatTick, bodyStart_cnt hcl hk hk'] at h1
  have hlf : (m - 0).toNat ≤ loopFuel fuel m 0 := by simp only [loopFuel]; split <;> omega
  cases hw : whileLoop cont m (exec E fuel c) (loopFuel fuel m 0) init 0 (bodyStart id (openHook E k id) st) with
  | error e' =>
    rw [hw] at h1; cases h1
    obtain ⟨ss, st1, h2, h3, h4, h5⟩ := while_law_err hm _ _ _ _ _ hlf hw
    exact ⟨ss, _, st1, sameOff_bodyStart (.deco k) st (bodyStart_user_deco hk'), h2, h3, by omega, h5⟩
  | ok p =>
    obtain ⟨l, i', st3⟩ := p
    rw [hw] at h1; simp only at h1
    obtain ⟨ss, hI, hr⟩ := while_law _ _ _ _ _ _ _ hw
    rcases hr with ⟨_, h4, h5⟩ | ⟨pre, s, h3, h4, _⟩
    · subst h4
      cases hl : l with
      | none => rw [hl] at hi; simp at hi; omega
      | some x => rw [hl] at h1; cases h1
    · subst h4; cases h1

end Verif.BT
