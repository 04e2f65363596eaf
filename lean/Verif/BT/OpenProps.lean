import Verif.BT.Props
import Mathlib.Data.Rat.Defs
import Mathlib.Tactic.NormNum
/-!
# C54: which nodes are open after a tick; C55: Wait; C56: the success estimate of a node

`BehaviorTree.tick` publishes the open nodes of the tick. The part that would close the nodes left over from the tick before is commented out
(behaviortree.py:137-144).
-/
namespace Verif.BT
variable {σ L : Type} {E : Env σ L} {fuel : Nat}

/-! ### Specification -/

/-- The ids on a path from a leaf (first) to the root (last) of the tree. -/
inductive RunPath : Tree L → List Id → Prop where
  | leaf (i : Id) (a : L) : RunPath (.leaf i a) [i]
  | comp {k : CKind} {i : Id} {cs : List (Tree L)} {c : Tree L} {p : List Id} : c ∈ cs → RunPath c p → RunPath (.comp k i cs) (p ++ [i])
  | deco {k : DKind} {i : Id} {c : Tree L} {p : List Id} : RunPath c p → RunPath (.deco k i c) (p ++ [i])

mutual
/-- The tree has no node that answers something else than RUNNING when its child is RUNNING: no OrNode, no MaxTime. -/
def Tree.Passing : Tree L → Prop
  | .leaf _ _ => True
  | .comp k _ cs => k ≠ .orNode ∧ PassingList cs
  | .deco k _ c => (∀ t, k ≠ .maxTime t) ∧ c.Passing
  | .emptyDeco _ _ => True
def PassingList : List (Tree L) → Prop
  | [] => True
  | c :: cs => c.Passing ∧ PassingList cs
end

/-! ### Proof -/

/-- What an execution that leaves the nodes `p` running does (ids of the tree: `S`). -/
structure Eff (S p : List Id) (st st' : St σ) : Prop where
  stack : st'.stack = p ++ st.stack
  mono : ∀ i, st.ticksAll i ≤ st'.ticksAll i
  frame : ∀ i, i ∉ S → st'.isOpen i = st.isOpen i ∧ st'.ticksAll i = st.ticksAll i
  onPath : ∀ i ∈ p, st'.isOpen i = true ∧ st.ticksAll i < st'.ticksAll i
  off : ∀ i, i ∉ p → (st.ticksAll i < st'.ticksAll i → st'.isOpen i = false) ∧ (st'.ticksAll i = st.ticksAll i → st'.isOpen i = st.isOpen i)

theorem Eff.refl (S : List Id) (st : St σ) : Eff S [] st st :=
  ⟨rfl, fun _ => Nat.le_refl _, fun _ _ => ⟨rfl, rfl⟩, fun i h => absurd h (by simp), fun i _ => ⟨fun h => absurd h (Nat.lt_irrefl _), fun _ => rfl⟩⟩

/-- Only `stack`, `isOpen` and `ticksAll` count. -/
theorem Eff.same {S p : List Id} {a b a' b' : St σ} (h : Eff S p a b) (ha : a'.stack = a.stack ∧ a'.isOpen = a.isOpen ∧ a'.ticksAll = a.ticksAll)
    (hb : b'.stack = b.stack ∧ b'.isOpen = b.isOpen ∧ b'.ticksAll = b.ticksAll) : Eff S p a' b' := by
  obtain ⟨a1, a2, a3⟩ := ha
  obtain ⟨b1, b2, b3⟩ := hb
  constructor
  · rw [a1, b1]; exact h.stack
  · rw [a3, b3]; exact h.mono
  · rw [a2, a3, b2, b3]; exact h.frame
  · rw [a3, b2, b3]; exact h.onPath
  · rw [a2, a3, b2, b3]; exact h.off

theorem Eff.trans {S S' T p : List Id} {a b c : St σ} (h : Eff S [] a b) (h' : Eff S' p b c) (h1 : ∀ i ∈ S, i ∈ T) (h2 : ∀ i ∈ S', i ∈ T) :
    Eff T p a c := by
  constructor
  · rw [h'.stack, h.stack]; rfl
  · exact fun i => Nat.le_trans (h.mono i) (h'.mono i)
  · intro i hi
    obtain ⟨x1, x2⟩ := h.frame i (fun k => hi (h1 i k))
    obtain ⟨y1, y2⟩ := h'.frame i (fun k => hi (h2 i k))
    exact ⟨y1.trans x1, y2.trans x2⟩
  · intro i hi
    obtain ⟨x1, x2⟩ := h'.onPath i hi
    exact ⟨x1, Nat.lt_of_le_of_lt (h.mono i) x2⟩
  · intro i hi
    have m1 := h.mono i
    have m2 := h'.mono i
    obtain ⟨x1, x2⟩ := h.off i (by simp)
    obtain ⟨y1, y2⟩ := h'.off i hi
    refine ⟨fun k => ?_, fun k => ?_⟩
    · by_cases e : b.ticksAll i < c.ticksAll i
      · exact y1 e
      · rw [y2 (by omega)]; exact x1 (by omega)
    · rw [y2 (by omega)]; exact x2 (by omega)

/-- The path belongs to the status: empty unless RUNNING. -/
def PathFor (Q : List Id → Prop) (s : Status) (p : List Id) : Prop := (s = .running → Q p) ∧ (s ≠ .running → p = [])

def Obeys (S : List Id) (Q : List Id → Prop) (run : St σ → Res σ) : Prop :=
  ∀ st s st', run st = .ok (s, st') → ∃ p, PathFor Q s p ∧ Eff S p st st'

theorem execute_open {id : Id} {hook : St σ → St σ} {body : St σ → Res σ} {S : List Id} {Q : List Id → Prop} (hh : Hook E id hook)
    (hid : id ∉ S) (hb : Obeys S Q body) : Obeys (id :: S) (fun p => ∃ q, Q q ∧ p = q ++ [id]) (execute id hook body) := by
  intro st s st' h
  simp only [execute] at h
  rw [show countTick id (openIfClosed id hook (enter id st)) = bodyStart id hook st from rfl] at h
  cases hx : body (bodyStart id hook st) with
  | error e => rw [hx] at h; cases h
  | ok r =>
    obtain ⟨s1, st1⟩ := r
    rw [hx] at h
    simp only at h
    obtain ⟨p, ⟨hp1, hp2⟩, he⟩ := hb _ _ _ hx
    obtain ⟨a1, -, a3, -, -⟩ := around hh st
    have a2 : (bodyStart id hook st).isOpen = upd st.isOpen id true := by
      simp only [bodyStart, openIfClosed, countTick]
      split
      · next k =>
        simp only [enter] at k ⊢
        funext j
        simp only [upd]
        split
        · next e => rw [e]; exact k
        · rfl
      · obtain ⟨u, c, s', h', _⟩ := hh.spec { (enter id st) with isOpen := upd (enter id st).isOpen id true }
        rw [h']; rfl
    have hst : (afterTick id s1 st1).stack = st1.stack ∧ (afterTick id s1 st1).isOpen = st1.isOpen ∧
        (afterTick id s1 st1).ticksAll = st1.ticksAll := by cases s1 <;> exact ⟨rfl, rfl, rfl⟩
    have hstk : st1.stack = p ++ id :: st.stack := by rw [he.stack, a1]
    have hself := he.frame id hid
    rw [a2, a3] at hself
    simp only [upd, if_pos] at hself
    by_cases hr : s1 = .running
    · subst hr
      simp only [closeIfDone, if_pos] at h
      cases h
      obtain ⟨q, hq⟩ : ∃ q, q = p := ⟨p, rfl⟩
      refine ⟨p ++ [id], ⟨fun _ => ⟨p, hp1 rfl, rfl⟩, fun k => absurd rfl k⟩, ?_⟩
      refine Eff.same (a := st) (b := st1) ?_ ⟨rfl, rfl, rfl⟩ hst
      refine ⟨by rw [hstk]; simp, fun i => ?_, fun i hi => ?_, fun i hi => ?_, fun i hi => ?_⟩
      · have := he.mono i
        rw [a3] at this
        simp only [upd] at this
        split at this <;> rename_i e
        · subst e; omega
        · exact this
      · simp only [List.mem_cons, not_or] at hi
        have := he.frame i hi.2
        rwa [a2, a3, upd_other _ _ hi.1, upd_other _ _ hi.1] at this
      · rw [List.mem_append, List.mem_singleton] at hi
        by_cases e : i = id
        · subst e; exact ⟨hself.1, by omega⟩
        · obtain ⟨x1, x2⟩ := he.onPath i (hi.resolve_right e)
          rw [a3, upd_other _ _ e] at x2
          exact ⟨x1, x2⟩
      · rw [List.mem_append, List.mem_singleton, not_or] at hi
        have := he.off i hi.1
        rwa [a2, a3, upd_other _ _ hi.2, upd_other _ _ hi.2] at this
    · have hp := hp2 hr
      subst hp
      simp only [closeIfDone, if_neg hr] at h
      rw [hst.1, hstk] at h
      simp only [List.nil_append] at h
      cases h
      refine ⟨[], ⟨fun k => absurd k hr, fun _ => rfl⟩, ?_⟩
      refine ⟨rfl, fun i => ?_, fun i hi => ?_, fun i hi => absurd hi (by simp), fun i _ => ?_⟩
      · show st.ticksAll i ≤ (afterTick id s st1).ticksAll i
        rw [hst.2.2]
        have := he.mono i
        rw [a3] at this
        simp only [upd] at this
        split at this <;> rename_i e
        · subst e; omega
        · exact this
      · simp only [List.mem_cons, not_or] at hi
        have := he.frame i hi.2
        rw [a2, a3, upd_other _ _ hi.1, upd_other _ _ hi.1] at this
        show upd _ id false i = _ ∧ (afterTick id s st1).ticksAll i = _
        rw [upd_other _ _ hi.1, hst.2.1, hst.2.2]
        exact this
      · show (_ < (afterTick id s st1).ticksAll i → upd _ id false i = false) ∧ ((afterTick id s st1).ticksAll i = _ → upd _ id false i = _)
        rw [hst.2.1, hst.2.2]
        by_cases e : i = id
        · subst e
          exact ⟨fun _ => by simp [upd], fun k => by omega⟩
        · have := he.off i (by simp)
          rw [a2, a3, upd_other _ _ e, upd_other _ _ e] at this
          rw [upd_other _ _ e]
          exact this

/-- Some child has the path. -/
def ChildPath (cs : List (Tree L)) (p : List Id) : Prop := ∃ c ∈ cs, RunPath c p

theorem obeys_pre {c : Tree L} {cs : List (Tree L)} {p : List Id} {s : Status} (h : PathFor (ChildPath cs) s p) :
    PathFor (ChildPath (c :: cs)) s p :=
  ⟨fun k => by obtain ⟨d, hd, hp⟩ := h.1 k; exact ⟨d, List.mem_cons_of_mem _ hd, hp⟩, h.2⟩

theorem seq_open {self : Id} : ∀ (cs : List (Tree L)), (∀ c ∈ cs, Obeys c.ids (RunPath c) (exec E fuel c)) → ∀ tmp,
    Obeys (idsList cs) (ChildPath cs) (seqTick self (execs E fuel cs) tmp)
  | [], _, tmp => by
    intro st s st' h
    simp only [execs, seqTick, Except.ok.injEq, Prod.mk.injEq] at h
    obtain ⟨rfl, rfl⟩ := h
    exact ⟨[], ⟨by simp, fun _ => rfl⟩, (Eff.refl _ st).same ⟨rfl, rfl, rfl⟩ ⟨rfl, rfl, rfl⟩⟩
  | c :: cs, hc, tmp => by
    intro st s st' h
    simp only [execs, seqTick] at h
    cases hx : exec E fuel c st with
    | error e => rw [hx] at h; cases h
    | ok r =>
      obtain ⟨s1, st1⟩ := r
      rw [hx] at h
      simp only at h
      obtain ⟨p, ⟨hp1, hp2⟩, he⟩ := hc c (by simp) _ _ _ hx
      split at h
      · next hs =>
        have hp := hp2 (by rw [hs]; simp)
        subst hp
        obtain ⟨q, hq, he'⟩ := seq_open cs (fun d hd => hc d (by simp [hd])) _ _ _ _ h
        exact ⟨q, obeys_pre hq, he.trans he' (by simp [idsList]; exact fun i h => .inl h) (by simp [idsList]; exact fun i h => .inr h)⟩
      · simp only [Except.ok.injEq, Prod.mk.injEq] at h
        obtain ⟨rfl, rfl⟩ := h
        refine ⟨p, ⟨fun k => ⟨c, by simp, hp1 k⟩, hp2⟩, ?_⟩
        have hw : Eff (idsList (c :: cs)) p st st1 := by
          refine (Eff.refl (idsList (c :: cs)) st).trans he (fun _ h => h) ?_
          simp [idsList]; exact fun i h => .inl h
        exact hw.same ⟨rfl, rfl, rfl⟩ ⟨rfl, rfl, rfl⟩

theorem pri_open {self : Id} : ∀ (cs : List (Tree L)), (∀ c ∈ cs, Obeys c.ids (RunPath c) (exec E fuel c)) →
    Obeys (idsList cs) (ChildPath cs) (priTick self (execs E fuel cs))
  | [], _ => by
    intro st s st' h
    simp only [execs, priTick, Except.ok.injEq, Prod.mk.injEq] at h
    obtain ⟨rfl, rfl⟩ := h
    exact ⟨[], ⟨by simp, fun _ => rfl⟩, Eff.refl _ st⟩
  | c :: cs, hc => by
    intro st s st' h
    simp only [execs, priTick] at h
    cases hx : exec E fuel c st with
    | error e => rw [hx] at h; cases h
    | ok r =>
      obtain ⟨s1, st1⟩ := r
      rw [hx] at h
      simp only at h
      obtain ⟨p, ⟨hp1, hp2⟩, he⟩ := hc c (by simp) _ _ _ hx
      split at h
      · next hs =>
        have hp := hp2 (by rw [hs]; simp)
        subst hp
        obtain ⟨q, hq, he'⟩ := pri_open cs (fun d hd => hc d (by simp [hd])) _ _ _ h
        have he'' : Eff (idsList cs) q st1 st' := he'.same ⟨rfl, rfl, rfl⟩ ⟨rfl, rfl, rfl⟩
        exact ⟨q, obeys_pre hq, he.trans he'' (by simp [idsList]; exact fun i h => .inl h) (by simp [idsList]; exact fun i h => .inr h)⟩
      · simp only [Except.ok.injEq, Prod.mk.injEq] at h
        obtain ⟨rfl, rfl⟩ := h
        refine ⟨p, ⟨fun k => ⟨c, by simp, hp1 k⟩, hp2⟩, ?_⟩
        have hw : Eff (idsList (c :: cs)) p st st1 := by
          refine (Eff.refl (idsList (c :: cs)) st).trans he (fun _ h => h) ?_
          simp [idsList]; exact fun i h => .inl h
        exact hw.same ⟨rfl, rfl, rfl⟩ ⟨rfl, rfl, rfl⟩

theorem loop_open {S : List Id} {Q : List Id → Prop} {cont : Status → Bool} {m : Int} {run : St σ → Res σ} (hcont : cont .running = false)
    (hr : Obeys S Q run) : ∀ (n : Nat) (last : Option Status) (i : Int) (st : St σ) r i' st', last ≠ some .running →
    whileLoop cont m run n last i st = .ok (r, i', st') →
      ∃ p, ((r = some .running → Q p) ∧ (r ≠ some .running → p = [])) ∧ Eff S p st st' := by
  intro n
  induction n with
  | zero =>
    intro last i st r i' st' hl h
    unfold whileLoop at h
    split at h
    · cases h
    · simp only [Except.ok.injEq, Prod.mk.injEq] at h
      obtain ⟨rfl, rfl, rfl⟩ := h
      exact ⟨[], ⟨fun k => absurd k hl, fun _ => rfl⟩, Eff.refl _ _⟩
  | succ n ih =>
    intro last i st r i' st' hl h
    unfold whileLoop at h
    split at h
    · simp only at h
      cases hx : run st with
      | error e => rw [hx] at h; cases h
      | ok q =>
        obtain ⟨s1, st1⟩ := q
        rw [hx] at h
        simp only at h
        obtain ⟨p, ⟨hp1, hp2⟩, he⟩ := hr _ _ _ hx
        split at h
        · next hc =>
          have hne : s1 ≠ .running := by rintro rfl; rw [hcont] at hc; cases hc
          have hp := hp2 hne
          subst hp
          obtain ⟨q, hq, he'⟩ := ih _ _ _ _ _ _ (by simpa using hne) h
          exact ⟨q, hq, he.trans he' (fun _ h => h) (fun _ h => h)⟩
        · simp only [Except.ok.injEq, Prod.mk.injEq] at h
          obtain ⟨rfl, rfl, rfl⟩ := h
          exact ⟨p, ⟨fun k => hp1 (by simpa using k), fun k => hp2 (by simpa using k)⟩, he⟩
    · simp only [Except.ok.injEq, Prod.mk.injEq] at h
      obtain ⟨rfl, rfl, rfl⟩ := h
      exact ⟨[], ⟨fun k => absurd k hl, fun _ => rfl⟩, Eff.refl _ _⟩

theorem repeat_open {S : List Id} {Q : List Id → Prop} {cont : Status → Bool} {init : Option Status} {m : Int} {self : Id} {run : St σ → Res σ}
    (hcont : cont .running = false) (hi : init ≠ some .running) (hr : Obeys S Q run) :
    Obeys S Q (repeatTick cont init fuel m self run) := by
  intro st s st' h
  simp only [repeatTick] at h
  split at h
  · cases h
  split at h
  · cases h
  next hl =>
    obtain ⟨p, ⟨hp1, hp2⟩, he⟩ := loop_open hcont hr _ _ _ _ _ _ _ hi hl
    split at h
    · cases h
    · simp only [Except.ok.injEq, Prod.mk.injEq] at h
      obtain ⟨rfl, rfl⟩ := h
      exact ⟨p, ⟨fun k => hp1 (by rw [k]), fun k => hp2 (by simpa using k)⟩, he.same ⟨rfl, rfl, rfl⟩ ⟨rfl, rfl, rfl⟩⟩

theorem deco_open {S : List Id} {Q : List Id → Prop} {k : DKind} {self : Id} {run : St σ → Res σ} (hk : ∀ t, k ≠ .maxTime t)
    (hr : Obeys S Q run) : Obeys S Q (decoTick E fuel k self run) := by
  cases k with
  | inverter =>
    intro st s st' h
    simp only [decoTick] at h
    cases hx : run st with
    | error e => rw [hx] at h; cases h
    | ok q =>
      obtain ⟨s1, st1⟩ := q
      rw [hx] at h
      simp only [Except.ok.injEq, Prod.mk.injEq] at h
      obtain ⟨rfl, rfl⟩ := h
      obtain ⟨p, ⟨hp1, hp2⟩, he⟩ := hr _ _ _ hx
      refine ⟨p, ⟨fun k => hp1 ?_, fun k => hp2 ?_⟩, he⟩
      · cases s1 <;> simp_all [invert]
      · cases s1 <;> simp_all [invert]
  | limiter m =>
    intro st s st' h
    simp only [decoTick] at h
    split at h
    · cases h
    split at h
    · cases hx : run st with
      | error e => rw [hx] at h; cases h
      | ok q =>
        obtain ⟨s1, st1⟩ := q
        rw [hx] at h
        simp only at h
        obtain ⟨p, hp, he⟩ := hr _ _ _ hx
        split at h
        all_goals
          simp only [Except.ok.injEq, Prod.mk.injEq] at h
          obtain ⟨rfl, rfl⟩ := h
          exact ⟨p, hp, he.same ⟨rfl, rfl, rfl⟩ ⟨rfl, rfl, rfl⟩⟩
    · simp only [Except.ok.injEq, Prod.mk.injEq] at h
      obtain ⟨rfl, rfl⟩ := h
      exact ⟨[], ⟨by simp, fun _ => rfl⟩, Eff.refl _ _⟩
  | repeater m => exact repeat_open (by simp) (by simp) hr
  | untilFailure m => exact repeat_open (by simp) (by simp) hr
  | untilSuccess m => exact repeat_open (by simp) (by simp) hr
  | maxTime t => exact absurd rfl (hk t)

theorem Obeys.weaken {S : List Id} {Q Q' : List Id → Prop} {run : St σ → Res σ} (h : Obeys S Q run) (hQ : ∀ p, Q p → Q' p) : Obeys S Q' run := by
  intro st s st' hr
  obtain ⟨p, ⟨h1, h2⟩, he⟩ := h _ _ _ hr
  exact ⟨p, ⟨fun k => hQ _ (h1 k), h2⟩, he⟩

mutual
theorem exec_open {E : Env σ L} {fuel : Nat} : ∀ t : Tree L, t.Passing → t.Acyclic → Obeys t.ids (RunPath t) (exec E fuel t)
  | .leaf i a, _, _ => by
    have hb : Obeys (σ := σ) [] (fun p => p = []) (fun st => match E.act a st.user with
        | .error c => .error (.leaf c)
        | .ok (s, u) => .ok (s, { st with user := u })) := by
      intro st s st' h
      dsimp only at h
      split at h
      · cases h
      · simp only [Except.ok.injEq, Prod.mk.injEq] at h
        obtain ⟨rfl, rfl⟩ := h
        exact ⟨[], ⟨fun _ => rfl, fun _ => rfl⟩, (Eff.refl _ st).same ⟨rfl, rfl, rfl⟩ ⟨rfl, rfl, rfl⟩⟩
    have := execute_open (E := E) (id := i) Hook.none (by simp) hb
    simp only [exec, Tree.ids]
    exact this.weaken fun p ⟨q, hq, hp⟩ => by subst hq hp; exact RunPath.leaf i a
  | .comp k i cs, hp, ha => by
    simp only [Tree.Passing, Tree.Acyclic] at hp ha
    have hcs := execs_open (E := E) (fuel := fuel) cs hp.2 ha.2
    have hb : Obeys (σ := σ) (idsList cs) (ChildPath cs) (compTick k i (execs E fuel cs)) := by
      intro st s st' h
      cases k with
      | sequence => exact seq_open cs hcs _ _ _ _ h
      | priority =>
        obtain ⟨p, h1, h2⟩ := pri_open cs hcs _ _ _ h
        exact ⟨p, h1, h2.same ⟨rfl, rfl, rfl⟩ ⟨rfl, rfl, rfl⟩⟩
      | orNode => exact absurd rfl hp.1
      | memSequence => cases h
      | memPriority => cases h
    simp only [exec, Tree.ids]
    exact (execute_open (E := E) Hook.none ha.1 hb).weaken fun p ⟨q, ⟨c, hc, hq⟩, e⟩ => by subst e; exact .comp hc hq
  | .deco k i c, hp, ha => by
    simp only [Tree.Passing, Tree.Acyclic] at hp ha
    simp only [exec, Tree.ids]
    exact (execute_open (E := E) (Hook.deco k) ha.1 (deco_open hp.1 (exec_open c hp.2 ha.2))).weaken
      fun p ⟨q, hq, e⟩ => by subst e; exact .deco hq
  | .emptyDeco k i, _, _ => by
    have hb : Obeys (σ := σ) [] (fun _ => False) (fun st => .ok (.error, st)) := by
      intro st s st' h
      simp only [Except.ok.injEq, Prod.mk.injEq] at h
      obtain ⟨rfl, rfl⟩ := h
      exact ⟨[], ⟨by simp, fun _ => rfl⟩, Eff.refl _ st⟩
    simp only [exec, Tree.ids]
    exact (execute_open (E := E) (Hook.deco k) (by simp) hb).weaken fun p ⟨q, hq, _⟩ => hq.elim
theorem execs_open {E : Env σ L} {fuel : Nat} : ∀ cs : List (Tree L), PassingList cs → AcyclicList cs →
    ∀ c ∈ cs, Obeys c.ids (RunPath c) (exec E fuel c)
  | [], _, _ => fun c hc => by cases hc
  | c :: cs, hp, ha => by
    simp only [PassingList, AcyclicList] at hp ha
    have h1 := exec_open (E := E) (fuel := fuel) c hp.1 ha.1
    have h2 := execs_open (E := E) (fuel := fuel) cs hp.2 ha.2
    intro d hd
    rcases List.mem_cons.1 hd with e | hd
    · rw [e]; exact h1
    · exact h2 d hd
end

/-! ### C54 -/

/-- C54 for trees without OrNode and MaxTime in which no node is its own descendant, for one tick from any state: if the tick returns RUNNING, the
published `open_nodes` (innermost first) are a path from a leaf to the root; otherwise there are none. A node is open after the tick iff it is in
`open_nodes`, or it was open before and was not executed in this tick.
Missing: OrNode and MaxTime, and the closing of the nodes that were not executed (both false, below). -/
theorem C54_open_nodes_partial {t : Tree L} (hp : t.Passing) (ha : t.Acyclic) {st st' : St σ} {s : Status}
    (h : treeTick E fuel t st = .ok (s, st')) :
    (s = .running → RunPath t st'.stack) ∧ (s ≠ .running → st'.stack = []) ∧
    ∀ i, st'.isOpen i = true ↔ i ∈ st'.stack ∨ (st.isOpen i = true ∧ st'.ticksAll i = st.ticksAll i) := by
  obtain ⟨p, ⟨h1, h2⟩, he⟩ := exec_open t hp ha _ _ _ h
  have hs : st'.stack = p := by rw [he.stack]; simp
  rw [hs]
  refine ⟨h1, h2, fun i => ?_⟩
  have hoff := he.off i
  have hm := he.mono i
  have hon := he.onPath i
  simp only at hoff hm hon
  by_cases hi : i ∈ p
  · exact ⟨fun _ => .inl hi, fun _ => (hon hi).1⟩
  · constructor
    · intro ho
      right
      by_cases e : st'.ticksAll i = st.ticksAll i
      · exact ⟨by rw [← (hoff hi).2 e]; exact ho, e⟩
      · rw [(hoff hi).1 (by omega)] at ho; cases ho
    · rintro (k | ⟨k1, k2⟩)
      · exact absurd k hi
      · rw [(hoff hi).2 k2]; exact k1

/-- C54 for the first tick of such a tree: the nodes open afterwards are exactly the published ones. -/
theorem C54_first_tick_partial {t : Tree L} (hp : t.Passing) (ha : t.Acyclic) {st st' : St σ} {s : Status}
    (hc : ∀ i, st.isOpen i = false) (h : treeTick E fuel t st = .ok (s, st')) : ∀ i, st'.isOpen i = true ↔ i ∈ st'.stack := by
  intro i
  rw [(C54_open_nodes_partial hp ha h).2.2 i, hc i]; simp

/-- Leaves for the examples below: RUNNING for ever, or the truth of the world's flag. The world is the clock and the flag. -/
def flagEnv : Env (Int × Bool) Bool where
  act isCond u := .ok (if isCond then (if u.2 then .success else .failure) else .running, u)
  now u := (u.1, u)

example : ∃ st', treeTick flagEnv 0 (.comp .sequence 0 [.leaf 1 true, .comp .priority 2 [.leaf 3 false, .leaf 4 true]]) { user := (0, true) }
    = .ok (.running, st') ∧ (st'.stack, st'.isOpen 1, st'.isOpen 4) = ([3, 2, 0], false, false) :=
  ran (fun st => (st.stack, st.isOpen 1, st.isOpen 4)) (by decide +kernel)

/-- C54 is false with an OrNode: it closes itself while its child runs on, and takes the child, not itself, off the list of open nodes: the list
says that the OrNode is open and the child is not, and it is the other way round. -/
theorem C54_ornode_violation :
    ∃ st', treeTick flagEnv 0 (.comp .orNode 0 [.leaf 1 false]) { user := (0, true) } = .ok (.success, st') ∧
      (st'.stack, st'.isOpen 0, st'.isOpen 1) = ([0], false, true) :=
  ran (fun st => (st.stack, st.isOpen 0, st.isOpen 1)) (by decide +kernel)

/-- The tree of the next theorem: a condition, else a task with a time limit of 10. -/
def taskTree : Tree Bool := .comp .priority 0 [.leaf 1 true, .deco (.maxTime 10) 2 (.leaf 3 false)]

/-- C54 is false over several ticks: a running task that a later tick does not reach stays open although the tick says that no node is open
(second tick), and when it is reached again it does not start afresh: its time limit counts from the first start (third tick: FAILURE at once,
where a fresh tree says RUNNING). -/
theorem C54_abandoned_violation :
    (∃ st', ticks flagEnv 0 taskTree [fun _ => (0, false), fun _ => (1, true)] { user := (0, false) } = .ok ([.running, .success], st') ∧
      (st'.stack, st'.isOpen 2, st'.isOpen 3) = ([], true, true)) ∧
    (∃ st', ticks flagEnv 0 taskTree [fun _ => (0, false), fun _ => (1, true), fun _ => (100, false)] { user := (0, false) } =
      .ok ([.running, .success, .failure], st') ∧ st'.isOpen 2 = false) ∧
    ∃ st', treeTick flagEnv 0 taskTree { user := (100, false) } = .ok (.running, st') ∧ st'.stack = [3, 2, 0] :=
  ⟨rans (fun st => (st.stack, st.isOpen 2, st.isOpen 3)) (by decide +kernel), rans (·.isOpen 2) (by decide +kernel),
   ran (·.stack) (by decide +kernel)⟩

/-! ### C55: Wait -/

/-- b3/actions/wait.py:11-23: `Wait(milliseconds)`; `d` is `end_time`. `open` stores the clock (the blackboard key is `start_time` where MaxTime has
`startTime`; both are keys of the node's own memory, so the model uses the same field). -/
def waitExec (E : Env σ L) (d : Int) (id : Id) : St σ → Res σ :=
  execute id (fun st => { st with user := (E.now st.user).2, start := upd st.start id (some (E.now st.user).1) }) fun st =>
    match st.start id with
    | none => .error .typeError
    | some t0 => .ok (if (E.now st.user).1 - t0 > d then .success else .running, { st with user := (E.now st.user).2 })

/-- The same `Wait` node executed `n` times, one after the other. -/
def waits (E : Env σ L) (d : Int) (id : Id) : Nat → St σ → Except Crash (List Status × St σ)
  | 0, st => .ok ([], st)
  | n + 1, st =>
    match waitExec E d id st with
    | .error e => .error e
    | .ok (s, st1) =>
      match waits E d id n st1 with
      | .error e => .error e
      | .ok (ss, st2) => .ok (s :: ss, st2)

/-- Reading the clock several times, from the world `u` to the world `u'`, gives these values. -/
inductive Reads (E : Env σ L) : σ → List Int → σ → Prop where
  | nil {u : σ} : Reads E u [] u
  | cons {u u' : σ} {r : List Int} : Reads E (E.now u).2 r u' → Reads E u ((E.now u).1 :: r) u'

/-- What a `Wait` of duration `d` answers to a sequence of clock readings: the first reading `t0` of a round is the start; every later reading of
the round gives one answer, RUNNING up to `t0 + d`; the first one beyond gives SUCCESS and ends the round. -/
inductive Waits (d : Int) : List Int → List Status → Prop where
  | none : Waits d [] []
  | going {t0 : Int} {rs : List Int} : rs ≠ [] → (∀ r ∈ rs, r ≤ t0 + d) → Waits d (t0 :: rs) (List.replicate rs.length .running)
  | done {t0 r : Int} {rs rest : List Int} {ss : List Status} : (∀ x ∈ rs, x ≤ t0 + d) → t0 + d < r → Waits d rest ss →
      Waits d (t0 :: rs ++ r :: rest) (List.replicate rs.length .running ++ .success :: ss)

theorem waitExec_open (d : Int) (id : Id) (st : St σ) {t0 : Int} (ho : st.isOpen id = true) (ht : st.start id = some t0) :
    ∃ st', waitExec E d id st = .ok (if (E.now st.user).1 - t0 > d then .success else .running, st') ∧ st'.user = (E.now st.user).2 ∧
      st'.start id = some t0 ∧ st'.isOpen id = !decide ((E.now st.user).1 - t0 > d) := by
  have hb : waitExec E d id st = (match closeIfDone id (if (E.now st.user).1 - t0 > d then .success else .running)
      (afterTick id (if (E.now st.user).1 - t0 > d then .success else .running) { countTick id (enter id st) with user := (E.now st.user).2 }) with
      | .error c => .error c
      | .ok st2 => .ok (if (E.now st.user).1 - t0 > d then .success else .running, st2)) := by
    simp only [waitExec, execute, openIfClosed, enter, countTick, ho, ht, if_pos]
    rfl
  rw [hb]
  by_cases hd : (E.now st.user).1 - t0 > d
  · simp only [if_pos hd]
    exact ⟨_, rfl, rfl, ht, by simp [upd, hd]⟩
  · simp only [if_neg hd]
    exact ⟨_, rfl, rfl, ht, by simp [enter, countTick, afterTick, ho, hd]⟩

theorem waitExec_closed (d : Int) (id : Id) (st : St σ) (ho : st.isOpen id = false) :
    ∃ st1, st1.isOpen id = true ∧ st1.start id = some (E.now st.user).1 ∧ st1.user = (E.now st.user).2 ∧
      waitExec E d id st = waitExec E d id st1 := by
  refine ⟨{ st with isOpen := upd st.isOpen id true, user := (E.now st.user).2, start := upd st.start id (some (E.now st.user).1) },
    by simp [upd], by simp [upd], rfl, ?_⟩
  simp [waitExec, execute, openIfClosed, enter, countTick, ho, upd]

theorem waits_rounds (d : Int) (id : Id) : ∀ (n : Nat) (st : St σ) (ss : List Status) (st' : St σ), waits E d id n st = .ok (ss, st') →
    (st.isOpen id = false → ∃ rs, Reads E st.user rs st'.user ∧ Waits d rs ss) ∧
    (∀ t0, st.isOpen id = true → st.start id = some t0 → ∀ (pre : List Int), (∀ x ∈ pre, x ≤ t0 + d) → pre ++ ss.map (fun _ => (0 : Int)) ≠ [] →
      ∃ rs, Reads E st.user rs st'.user ∧ Waits d (t0 :: pre ++ rs) (List.replicate pre.length .running ++ ss)) := by
  intro n
  induction n with
  | zero =>
    intro st ss st' h
    simp only [waits, Except.ok.injEq, Prod.mk.injEq] at h
    obtain ⟨rfl, rfl⟩ := h
    refine ⟨fun _ => ⟨[], .nil, .none⟩, fun t0 _ _ pre hp hne => ⟨[], .nil, ?_⟩⟩
    simp only [List.append_nil]
    exact .going (by simpa using hne) hp
  | succ n ih =>
    intro st ss st' h
    have opened : ∀ (st : St σ) t0, waits E d id (n + 1) st = .ok (ss, st') → st.isOpen id = true → st.start id = some t0 →
        ∀ (pre : List Int), (∀ x ∈ pre, x ≤ t0 + d) →
        ∃ rs, Reads E st.user rs st'.user ∧ Waits d (t0 :: pre ++ rs) (List.replicate pre.length .running ++ ss) := by
      intro st t0 h ho ht pre hp
      obtain ⟨st1, e, e1, e2, e3⟩ := waitExec_open (E := E) d id st ho ht
      simp only [waits, e] at h
      cases hx : waits E d id n st1 with
      | error x => rw [hx] at h; cases h
      | ok q =>
        obtain ⟨ss1, st2⟩ := q
        rw [hx] at h
        simp only [Except.ok.injEq, Prod.mk.injEq] at h
        obtain ⟨rfl, rfl⟩ := h
        by_cases hd : (E.now st.user).1 - t0 > d
        · obtain ⟨rs, hr, hw⟩ := (ih _ _ _ hx).1 (by rw [e3]; simp [hd])
          rw [e1] at hr
          refine ⟨_, .cons hr, ?_⟩
          rw [if_pos hd]
          exact .done hp (by omega) hw
        · obtain ⟨rs, hr, hw⟩ := (ih _ _ _ hx).2 t0 (by rw [e3]; simp [hd]) e2 (pre ++ [(E.now st.user).1])
            (by intro x hx; rcases List.mem_append.1 hx with k | k
                · exact hp x k
                · rw [List.mem_singleton] at k; omega) (by simp)
          rw [e1] at hr
          refine ⟨_, .cons hr, ?_⟩
          rw [if_neg hd]
          simpa [List.replicate_succ', List.append_assoc] using hw
    refine ⟨fun hc => ?_, fun t0 ho ht pre hp _ => opened st t0 h ho ht pre hp⟩
    obtain ⟨st1, f1, f2, f3, f4⟩ := waitExec_closed (E := E) d id st hc
    have h' : waits E d id (n + 1) st1 = .ok (ss, st') := by
      simp only [waits] at h ⊢
      rw [← f4]; exact h
    obtain ⟨rs, hr, hw⟩ := opened st1 _ h' f1 f2 [] (by simp)
    rw [f3] at hr
    exact ⟨_, .cons hr, by simpa using hw⟩

/-- C55. A `Wait` node that is not open, executed any number of times, whatever the clock does: it reads the clock once to start a round and once per
execution; it answers RUNNING until a reading is more than the duration after the start, then SUCCESS, and the next execution starts a new round. -/
theorem C55_wait (d : Int) (id : Id) (n : Nat) {st st' : St σ} {ss : List Status} (hc : st.isOpen id = false)
    (h : waits E d id n st = .ok (ss, st')) : ss.length = n ∧ ∃ rs, Reads E st.user rs st'.user ∧ Waits d rs ss := by
  refine ⟨?_, (waits_rounds d id n st ss st' h).1 hc⟩
  clear hc
  induction n generalizing st ss with
  | zero => simp only [waits, Except.ok.injEq, Prod.mk.injEq] at h; rw [← h.1]; rfl
  | succ n ih =>
    simp only [waits] at h
    split at h
    · cases h
    split at h
    · cases h
    next hx =>
      simp only [Except.ok.injEq, Prod.mk.injEq] at h
      rw [h.2] at hx
      rw [← h.1, List.length_cons, ih hx]

/-- C55: a closed `Wait` node never crashes. -/
theorem C55_wait_runs (d : Int) (id : Id) (n : Nat) : ∀ st : St σ, (st.isOpen id = true → st.start id ≠ none) →
    ∃ ss st', waits E d id n st = .ok (ss, st') := by
  induction n with
  | zero => exact fun st _ => ⟨_, _, rfl⟩
  | succ n ih =>
    have opened : ∀ (st : St σ) t0, st.isOpen id = true → st.start id = some t0 → ∃ ss st', waits E d id (n + 1) st = .ok (ss, st') := by
      intro st t0 ho ht
      obtain ⟨st1, e, e1, e2, e3⟩ := waitExec_open (E := E) d id st ho ht
      obtain ⟨ss, st2, h⟩ := ih st1 (fun _ => by rw [e2]; simp)
      exact ⟨_, _, by simp only [waits, e, h]; rfl⟩
    intro st hs
    by_cases ho : st.isOpen id = true
    · obtain ⟨t0, ht⟩ := Option.ne_none_iff_exists'.1 (hs ho)
      exact opened st t0 ho ht
    · obtain ⟨st1, f1, f2, f3, f4⟩ := waitExec_closed (E := E) d id st (by simpa using ho)
      obtain ⟨ss, st', h⟩ := opened st1 _ f1 f2
      refine ⟨ss, st', ?_⟩
      simp only [waits] at h ⊢
      rw [f4]; exact h

/-- A clock that advances by 2 at every reading. -/
def tickEnv : Env Int Unit where
  act _ u := .ok (.success, u)
  now u := (u, u + 2)

example : ∃ st', waits tickEnv 5 7 7 { user := 0 } =
    .ok ([.running, .running, .success, .running, .running, .success, .running], st') ∧ st'.start 7 = some 16 :=
  rans (·.start 7) (by decide +kernel)

/-! ### C56: the success estimate -/

/-- basenode.py:39-45 `prob()`. Rationals for python floats. -/
def prob (st : St σ) (i : Id) : Rat :=
  if st.nTicks i > 0 then (st.nSuccess i : Rat) / st.nTicks i else 1 / 10

/-- basenode.py:48-60 `get_Utility()` with the initial `Utility_Mode`, "RATIO". -/
def utility (st : St σ) (i : Id) : Rat :=
  if st.cost i > 0 then prob st i / st.cost i else prob st i

theorem nTicks_stable (E : Env σ L) : Stable E (fun a b : St σ => b.nTicks = a.nTicks) where
  refl _ := rfl
  trans _ _ _ h h' := h'.trans h
  user _ _ := rfl
  cost _ _ _ := rfl
  cnt _ _ _ := rfl
  node id hook st s st1 st2 hh h1 h2 := by
    have e1 : (bodyStart id hook st).nTicks = st.nTicks := by
      simp only [bodyStart, openIfClosed, countTick]
      split
      · rfl
      · obtain ⟨u, c, s', h', _⟩ := hh.spec { (enter id st) with isOpen := upd (enter id st).isOpen id true }
        rw [h']; rfl
    have e2 : (afterTick id s st1).nTicks = st1.nTicks := by cases s <;> rfl
    simp only [closeIfDone] at h2
    split at h2
    · cases h2; rw [e2, h1, e1]
    · split at h2
      · cases h2
      · cases h2
        show (afterTick id s st1).nTicks = st.nTicks
        rw [e2, h1, e1]

theorem ticks_nTicks {t : Tree L} : ∀ (ws : List (σ → σ)) (st : St σ) ss st', ticks E fuel t ws st = .ok (ss, st') → st'.nTicks = st.nTicks
  | [], st, ss, st', h => by
    simp only [ticks, Except.ok.injEq, Prod.mk.injEq] at h
    rw [h.2]
  | w :: ws, st, ss, st', h => by
    simp only [ticks] at h
    split at h
    · cases h
    next hx =>
      split at h
      · cases h
      next hy =>
        simp only [Except.ok.injEq, Prod.mk.injEq] at h
        rw [← h.2, ticks_nTicks ws _ _ _ hy]
        exact (exec_rel (nTicks_stable E) fuel t _ _ _ hx :)

/-- C56 is false for every tree, all leaves and every history: the estimate stays at its initial value 0.1 for every node, however often it was
executed and with whatever success. -/
theorem C56_estimate_violation {t : Tree L} {ws : List (σ → σ)} {u : σ} {ss : List Status} {st' : St σ}
    (h : ticks E fuel t ws { user := u } = .ok (ss, st')) (i : Id) : prob st' i = 1 / 10 := by
  have := ticks_nTicks ws _ _ _ h
  simp [prob, this]

/-- C56, in numbers: a leaf that succeeded 3 times out of 3 and one that never succeeded have the same estimate. -/
theorem C56_blind_violation :
    ∃ st', ticks constEnv 0 (.comp .orNode 0 [.leaf 1 .success, .leaf 2 .failure]) [id, id, id] { user := 0 } =
        .ok ([.success, .success, .success], st') ∧
      (st'.ticksAll 1, st'.nSuccess 1, st'.ticksAll 2, st'.nSuccess 2) = (3, 3, 3, 0) ∧ prob st' 1 = prob st' 2 := by
  obtain ⟨st', h, e⟩ := rans (fun st => (st.ticksAll 1, st.nSuccess 1, st.ticksAll 2, st.nSuccess 2))
    (r := ticks constEnv 0 (.comp .orNode 0 [.leaf 1 .success, .leaf 2 .failure]) [id, id, id] { user := 0 })
    (s := [.success, .success, .success]) (a := (3, 3, 3, 0)) (by decide +kernel)
  exact ⟨st', h, e, by rw [C56_estimate_violation h, C56_estimate_violation h]⟩

/-- C56, what is left of the utility: it is `0.1 / Cost` (0.1 for a node without cost), so it orders nodes by cost alone.
Missing: the dependence on the successes. -/
theorem C56_utility_partial {t : Tree L} {ws : List (σ → σ)} {u : σ} {ss : List Status} {st' : St σ}
    (h : ticks E fuel t ws { user := u } = .ok (ss, st')) (i j : Id) (hi : 0 < st'.cost i) (hj : 0 < st'.cost j) :
    utility st' i < utility st' j ↔ st'.cost j < st'.cost i := by
  have hi' : (0 : Rat) < st'.cost i := by exact_mod_cast hi
  have hj' : (0 : Rat) < st'.cost j := by exact_mod_cast hj
  simp only [utility, if_pos hi, if_pos hj, C56_estimate_violation h, gt_iff_lt]
  rw [div_lt_div_iff_of_pos_left (by norm_num) hi' hj']
  exact_mod_cast Iff.rfl

end Verif.BT
