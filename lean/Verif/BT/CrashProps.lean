import Verif.BT.Crash
import Verif.BT.Spec

/-!
# C84: after an exception

A program that catches the exception of a tick and ticks the tree again gets what a fresh tree gives — unless
there is a `MaxTime` node.
-/

namespace Verif.BT

variable {σ L : Type}

/-! ## Specification -/

/-- No leaf ever returns RUNNING. -/
def XEnv.NoRunning (E : XEnv σ L) : Prop := ∀ a u, (E.act a u).2 ≠ .ok .running

/-- The decorators that count in the blackboard. -/
def DKind.counts : DKind → Bool
  | .limiter _ => true
  | .repeater _ => true
  | .untilFailure _ => true
  | .untilSuccess _ => true
  | .inverter => false
  | .maxTime _ => false

/-- A `MaxTime` decorator. -/
def DKind.timed : DKind → Bool
  | .maxTime _ => true
  | _ => false

mutual
/-- The ids of the counting decorators. -/
def Tree.counterIds : Tree L → List Id
  | .leaf _ _ => []
  | .comp _ _ cs => counterIdsList cs
  | .deco k i c => (if k.counts then [i] else []) ++ c.counterIds
  | .emptyDeco k i => if k.counts then [i] else []
def counterIdsList : List (Tree L) → List Id
  | [] => []
  | c :: cs => c.counterIds ++ counterIdsList cs
end

mutual
/-- The ids of the other nodes. -/
def Tree.plainIds : Tree L → List Id
  | .leaf i _ => [i]
  | .comp _ i cs => i :: plainIdsList cs
  | .deco k i c => (if k.counts then [] else [i]) ++ c.plainIds
  | .emptyDeco k i => if k.counts then [] else [i]
def plainIdsList : List (Tree L) → List Id
  | [] => []
  | c :: cs => c.plainIds ++ plainIdsList cs
end

mutual
/-- There is no `MaxTime` node. -/
def Tree.Untimed : Tree L → Prop
  | .leaf _ _ => True
  | .comp _ _ cs => UntimedList cs
  | .deco k _ c => k.timed = false ∧ c.Untimed
  | .emptyDeco k _ => k.timed = false
def UntimedList : List (Tree L) → Prop
  | [] => True
  | c :: cs => c.Untimed ∧ UntimedList cs
end

/-- The only tick of a tree that was never ticked before, with a new blackboard, in the world `u`: the world it leaves
and its outcome. -/
def fresh (E : XEnv σ L) (fuel : Nat) (t : Tree L) (u : σ) : σ × Except Crash Status :=
  ((xtreeTick E fuel t { user := u }).1.user, (xtreeTick E fuel t { user := u }).2)

/-- The ids on the way from a node (first) up to the root (last). -/
inductive IsPath : Tree L → List Id → Prop
  | here (t) : IsPath t [t.id]
  | comp {k i cs c p} : c ∈ cs → IsPath c p → IsPath (.comp k i cs) (p ++ [i])
  | deco {k i c p} : IsPath c p → IsPath (.deco k i c) (p ++ [i])

/-! ## The same engine -/

/-- (proof) Forget the state after an exception. -/
def forget {α : Type} (x : X σ α) : Except Crash (α × St σ) :=
  match x.2 with
  | .ok a => .ok (a, x.1)
  | .error c => .error c

theorem forget_bind {α β : Type} (x : X σ α) (k : α → St σ → X σ β) :
    forget (x.bind k) = match forget x with
      | .error c => .error c
      | .ok (a, st) => forget (k a st) := by
  obtain ⟨st, r⟩ := x
  cases r <;> rfl

theorem forget_execute (id : Id) (hook : St σ → St σ) {body : St σ → X σ Status} {body' : St σ → Res σ}
    (h : ∀ st, forget (body st) = body' st) (st : St σ) :
    forget (xexecute id hook body st) = execute id hook body' st := by
  simp only [xexecute, forget_bind, h, execute]
  split <;> rename_i h1
  · rw [h1]
  · rw [h1]
    dsimp only
    split <;> rename_i h2 <;> rw [h2] <;> rfl

/-- (proof) -/
inductive Forgets : List (XChild σ) → List (Child σ) → Prop
  | nil : Forgets [] []
  | cons {i f g cs ds} : (∀ st, forget (f st) = g st) → Forgets cs ds → Forgets (⟨i, f⟩ :: cs) (⟨i, g⟩ :: ds)

theorem forget_seq (self : Id) : ∀ {cs : List (XChild σ)} {ds : List (Child σ)}, Forgets cs ds → ∀ tmp st,
    forget (xseqTick self cs tmp st) = seqTick self ds tmp st
  | _, _, .nil, tmp, st => rfl
  | _, _, .cons hf hcs, tmp, st => by
    simp only [xseqTick, seqTick, forget_bind, hf]
    split <;> rename_i h1 <;> rw [h1]
    dsimp only
    split
    · exact forget_seq self hcs _ _
    · rfl

theorem forget_pri (self : Id) : ∀ {cs : List (XChild σ)} {ds : List (Child σ)}, Forgets cs ds → ∀ st,
    forget (xpriTick self cs st) = priTick self ds st
  | _, _, .nil, st => rfl
  | _, _, .cons hf hcs, st => by
    simp only [xpriTick, priTick, forget_bind, hf]
    split <;> rename_i h1 <;> rw [h1]
    dsimp only
    split
    · exact forget_pri self hcs _
    · rfl

theorem forget_or (self : Id) : ∀ {cs : List (XChild σ)} {ds : List (Child σ)}, Forgets cs ds → ∀ acc st,
    forget (xorTick self cs acc st) = orTick self ds acc st
  | _, _, .nil, acc, st => rfl
  | _, _, .cons hf hcs, acc, st => by
    simp only [xorTick, orTick, forget_bind, hf]
    split <;> rename_i h1 <;> rw [h1]
    exact forget_or self hcs _ _

theorem forget_loop (cont : Status → Bool) (m : Int) {run : St σ → X σ Status} {run' : St σ → Res σ}
    (h : ∀ st, forget (run st) = run' st) : ∀ (fuel : Nat) (last : Option Status) (i : Int) (st : St σ),
    (match forget (xwhileLoop cont m run fuel last i st) with
      | .error c => .error c
      | .ok (p, st1) => .ok (p.1, p.2, st1)) = whileLoop cont m run' fuel last i st
  | 0, last, i, st => by
    unfold xwhileLoop whileLoop
    by_cases hc : m < 0 ∨ i < m
    · rw [if_pos hc, if_pos hc]; rfl
    · rw [if_neg hc, if_neg hc]; rfl
  | fuel + 1, last, i, st => by
    unfold xwhileLoop whileLoop
    by_cases hc : m < 0 ∨ i < m
    · rw [if_pos hc, if_pos hc]
      dsimp only
      rw [forget_bind, h]
      cases h1 : run' st with
      | error c => rfl
      | ok p =>
        obtain ⟨s, st1⟩ := p
        dsimp only
        by_cases hs : cont s = true
        · rw [if_pos hs, if_pos hs]; exact forget_loop cont m h fuel _ _ _
        · rw [if_neg hs, if_neg hs]; rfl
    · rw [if_neg hc, if_neg hc]; rfl

theorem forget_repeat (cont : Status → Bool) (init : Option Status) (fuel : Nat) (m : Int) (self : Id)
    {run : St σ → X σ Status} {run' : St σ → Res σ} (h : ∀ st, forget (run st) = run' st) (st : St σ) :
    forget (xrepeatTick cont init fuel m self run st) = repeatTick cont init fuel m self run' st := by
  unfold xrepeatTick repeatTick
  cases hi : st.cnt self with
  | none => rfl
  | some i =>
    dsimp only
    rw [forget_bind, ← forget_loop cont m h]
    cases h1 : forget (xwhileLoop cont m run (loopFuel fuel m i) init i st) with
    | error c => rfl
    | ok p =>
      obtain ⟨⟨last, i'⟩, st1⟩ := p
      cases last <;> rfl

theorem forget_deco (E : XEnv σ L) (fuel : Nat) (k : DKind) (self : Id) {run : St σ → X σ Status} {run' : St σ → Res σ}
    (h : ∀ st, forget (run st) = run' st) (st : St σ) :
    forget (xdecoTick E fuel k self run st) = decoTick E.env fuel k self run' st := by
  cases k with
  | inverter =>
    simp only [xdecoTick, decoTick, forget_bind, h]
    split <;> rename_i h1 <;> rw [h1] <;> rfl
  | limiter m =>
    simp only [xdecoTick, decoTick]
    cases hi : st.cnt self with
    | none => rfl
    | some i =>
      dsimp only
      by_cases hc : i < m
      · rw [if_pos hc, if_pos hc, forget_bind, h]
        cases h1 : run' st with
        | error c => rfl
        | ok p =>
          obtain ⟨s, st1⟩ := p
          dsimp only
          by_cases hs : s = .success ∨ s = .failure
          · rw [if_pos hs, if_pos hs]; rfl
          · rw [if_neg hs, if_neg hs]; rfl
      · rw [if_neg hc, if_neg hc]; rfl
  | repeater m => exact forget_repeat _ _ fuel m self h st
  | untilFailure m => exact forget_repeat _ _ fuel m self h st
  | untilSuccess m => exact forget_repeat _ _ fuel m self h st
  | maxTime m =>
    simp only [xdecoTick, decoTick]
    cases hi : st.start self with
    | none => rfl
    | some t0 =>
      dsimp only
      rw [forget_bind, h]
      simp only [XEnv.env]
      cases h1 : run' { st with user := (E.now st.user).2 } with
      | error c => rfl
      | ok p =>
        obtain ⟨s, st1⟩ := p
        dsimp only
        by_cases hs : (E.now st.user).1 - t0 > m
        · rw [if_pos hs]; exact (if_pos hs).symm
        · rw [if_neg hs]; exact (if_neg hs).symm

mutual
theorem forget_exec (E : XEnv σ L) (fuel : Nat) : ∀ (t : Tree L) st, forget (xexec E fuel t st) = exec E.env fuel t st
  | .leaf id a, st => by
    unfold xexec exec
    refine forget_execute id _ (fun st => ?_) st
    simp only [forget, XEnv.env]
    cases h : (E.act a st.user).2 <;> rfl
  | .comp k id cs, st => by
    unfold xexec exec
    refine forget_execute id _ (fun st => ?_) st
    have hcs := forget_execs E fuel cs
    cases k with
    | sequence => exact forget_seq id hcs _ _
    | priority => exact forget_pri id hcs _
    | orNode => exact forget_or id hcs _ _
    | memSequence => rfl
    | memPriority => rfl
  | .deco k id c, st => by
    unfold xexec exec
    exact forget_execute id _ (forget_deco E fuel k id (forget_exec E fuel c)) st
  | .emptyDeco k id, st => by
    unfold xexec exec
    exact forget_execute id _ (fun _ => rfl) st
theorem forget_execs (E : XEnv σ L) (fuel : Nat) : ∀ cs : List (Tree L), Forgets (xexecs E fuel cs) (execs E.env fuel cs)
  | [] => by unfold xexecs execs; exact .nil
  | c :: cs => by unfold xexecs execs; exact .cons (forget_exec E fuel c) (forget_execs E fuel cs)
end

/-- The model of this file and that of `Verif.BT.Model` are the same as long as there is no exception, and raise the same exceptions. -/
theorem C84_same_engine (E : XEnv σ L) (fuel : Nat) (t : Tree L) (st : St σ) :
    treeTick E.env fuel t st = match xtreeTick E fuel t st with
      | (st', .ok s) => .ok (s, st')
      | (_, .error c) => .error c := by
  unfold treeTick xtreeTick
  rw [← forget_exec]
  generalize xexec E fuel t _ = x
  obtain ⟨st', r⟩ := x
  cases r <;> rfl

/-! ## Two runs, with different leftovers -/

/-- (proof) An open counting decorator has the counter of a decorator just opened. -/
def Ready (C : Id → Prop) (st : St σ) : Prop := ∀ i, C i → st.isOpen i = true → st.cnt i = some 0

/-- (proof) The same world and open nodes of the current tick; leftovers may differ. -/
structure Alike (C : Id → Prop) (a b : St σ) : Prop where
  user : a.user = b.user
  stack : a.stack = b.stack
  ra : Ready C a
  rb : Ready C b

/-- (proof) -/
structure Out (C : Id → Prop) (st : List Id) {α : Type} (bad : α → Prop) (x y : X σ α) : Prop where
  out : x.2 = y.2
  alike : Alike C x.1 y.1
  ok : ∀ s, x.2 = .ok s → ¬ bad s ∧ x.1.stack = st

/-- (proof) -/
abbrev isRunning (s : Status) : Prop := s = .running

/-- (proof) -/
def Two (C : Id → Prop) (f : St σ → X σ Status) : Prop :=
  ∀ a b, Alike C a b → Out C a.stack isRunning (f a) (f b)

theorem Out.bind {C : Id → Prop} {α β : Type} {st : List Id} {bad : α → Prop} {bad' : β → Prop} {x y : X σ α}
    (h : Out C st bad x y) {k k' : α → St σ → X σ β}
    (hk : ∀ s a b, Alike C a b → ¬ bad s → a.stack = st → Out C st bad' (k s a) (k' s b)) :
    Out C st bad' (x.bind k) (y.bind k') := by
  obtain ⟨a, r⟩ := x
  obtain ⟨b, r'⟩ := y
  obtain ⟨h1, h2, h3⟩ := h
  dsimp only at h1 h2 h3
  subst h1
  cases r with
  | error c => exact ⟨rfl, h2, fun s h => by cases h⟩
  | ok s => exact hk s a b h2 (h3 s rfl).1 (h3 s rfl).2

/-- (proof) Steps that touch neither world, open nodes, marks nor counters. -/
theorem Alike.same {C : Id → Prop} {a b a' b' : St σ} (h : Alike C a b) (ha : a'.user = a.user ∧ a'.stack = a.stack ∧
    a'.isOpen = a.isOpen ∧ a'.cnt = a.cnt) (hb : b'.user = b.user ∧ b'.stack = b.stack ∧ b'.isOpen = b.isOpen ∧ b'.cnt = b.cnt) :
    Alike C a' b' :=
  ⟨by rw [ha.1, hb.1, h.user], by rw [ha.2.1, hb.2.1, h.stack],
   fun i hi => by rw [ha.2.2.1, ha.2.2.2]; exact h.ra i hi, fun i hi => by rw [hb.2.2.1, hb.2.2.2]; exact h.rb i hi⟩

theorem afterTick_same (id : Id) (s : Status) (st : St σ) : (afterTick id s st).user = st.user ∧
    (afterTick id s st).stack = st.stack ∧ (afterTick id s st).isOpen = st.isOpen ∧ (afterTick id s st).cnt = st.cnt := by
  cases s <;> exact ⟨rfl, rfl, rfl, rfl⟩

section
variable {C : Id → Prop}

/-- (proof) The part of `_execute` after `tick`. -/
theorem two_close {id : Id} {s : Status} (hs : s ≠ .running) {a b : St σ} {st : List Id} (hu : a.user = b.user)
    (hst : a.stack = id :: st) (hst' : b.stack = id :: st) (ha : ∀ i, C i → i ≠ id → a.isOpen i = true → a.cnt i = some 0)
    (hb : ∀ i, C i → i ≠ id → b.isOpen i = true → b.cnt i = some 0) :
    Out C st isRunning
      (match closeIfDone id s (afterTick id s a) with
        | .error c => (afterTick id s a, .error c)
        | .ok st2 => (st2, .ok s))
      (match closeIfDone id s (afterTick id s b) with
        | .error c => (afterTick id s b, .error c)
        | .ok st2 => (st2, .ok s)) := by
  obtain ⟨a1, a2, a3, a4⟩ := afterTick_same id s a
  obtain ⟨b1, b2, b3, b4⟩ := afterTick_same id s b
  have ea : closeIfDone id s (afterTick id s a) =
      .ok { afterTick id s a with stack := st, isOpen := upd (afterTick id s a).isOpen id false } := by
    simp only [closeIfDone, if_neg hs, a2, hst]
  have eb : closeIfDone id s (afterTick id s b) =
      .ok { afterTick id s b with stack := st, isOpen := upd (afterTick id s b).isOpen id false } := by
    simp only [closeIfDone, if_neg hs, b2, hst']
  rw [ea, eb]
  refine ⟨rfl, ⟨by simp only [a1, b1, hu], rfl, ?_, ?_⟩, ?_⟩
  · intro i hi ho
    simp only [upd] at ho
    split at ho
    · cases ho
    · rename_i hne; rw [a3] at ho; simp only [a4]; exact ha i hi hne ho
  · intro i hi ho
    simp only [upd] at ho
    split at ho
    · cases ho
    · rename_i hne; rw [b3] at ho; simp only [b4]; exact hb i hi hne ho
  · rintro s' h; cases h; exact ⟨hs, rfl⟩

/-- (proof) `_execute` of a node that does not count. -/
theorem two_plain {id : Id} (hid : ¬ C id) {body : St σ → X σ Status} (hb : Two C body) :
    Two C (xexecute id (fun st => st) body) := by
  intro a b h
  have hop : ∀ st : St σ, Ready C st → Ready C (countTick id (openIfClosed id (fun st => st) (enter id st))) ∧
      (countTick id (openIfClosed id (fun st => st) (enter id st))).user = st.user ∧
      (countTick id (openIfClosed id (fun st => st) (enter id st))).stack = id :: st.stack := by
    intro st hr
    by_cases ho : st.isOpen id = true
    · have e : openIfClosed id (fun st => st) (enter id st) = enter id st := if_pos ho
      rw [e]
      exact ⟨hr, rfl, rfl⟩
    · have e : openIfClosed id (fun st => st) (enter id st) =
        { enter id st with isOpen := upd (enter id st).isOpen id true } := if_neg ho
      rw [e]
      refine ⟨fun i hi ho => ?_, rfl, rfl⟩
      have hne : i ≠ id := fun h => hid (h ▸ hi)
      have ho' : upd st.isOpen id true i = true := ho
      rw [upd, if_neg hne] at ho'
      exact hr i hi ho'
  obtain ⟨ra, ua, sa⟩ := hop a h.ra
  obtain ⟨rb, ub, sb⟩ := hop b h.rb
  have h0 := hb _ _ ⟨by rw [ua, ub, h.user], by rw [sa, sb, h.stack], ra, rb⟩
  unfold xexecute
  obtain ⟨h1, h2, h3⟩ := h0
  generalize body (countTick id (openIfClosed id (fun st => st) (enter id a))) = x at *
  generalize body (countTick id (openIfClosed id (fun st => st) (enter id b))) = y at *
  obtain ⟨a', r⟩ := x
  obtain ⟨b', r'⟩ := y
  dsimp only at h1 h2 h3
  subst h1
  cases r with
  | error c => exact ⟨rfl, h2, fun s h => by cases h⟩
  | ok s =>
    obtain ⟨hs, hst⟩ := h3 s rfl
    rw [sa] at hst
    exact two_close hs h2.user hst (by rw [← h2.stack, hst]) (fun i hi _ => h2.ra i hi) (fun i hi _ => h2.rb i hi)

/-- (proof) What the body of a counting decorator must do, starting with counter 0. -/
structure BOut (C : Id → Prop) (self : Id) (st : List Id) (x y : X σ Status) : Prop where
  out : x.2 = y.2
  user : x.1.user = y.1.user
  stack : x.1.stack = y.1.stack
  ok : ∀ s, x.2 = .ok s → s ≠ .running ∧ x.1.stack = st ∧ (∀ i, C i → i ≠ self → x.1.isOpen i = true → x.1.cnt i = some 0) ∧
    (∀ i, C i → i ≠ self → y.1.isOpen i = true → y.1.cnt i = some 0)
  err : ∀ c, x.2 = .error c → Ready C x.1 ∧ Ready C y.1

/-- (proof) `_execute` of a counting decorator. -/
theorem two_counting {id : Id} {hook : St σ → St σ}
    (hh : ∀ st : St σ, hook st = { st with cnt := upd st.cnt id (some 0) }) (hid : C id)
    {body : St σ → X σ Status}
    (hb : ∀ a b, Alike C a b → a.cnt id = some 0 → b.cnt id = some 0 → BOut C id a.stack (body a) (body b)) :
    Two C (xexecute id hook body) := by
  intro a b h
  have hop : ∀ st : St σ, Ready C st → Ready C (countTick id (openIfClosed id hook (enter id st))) ∧
      (countTick id (openIfClosed id hook (enter id st))).user = st.user ∧
      (countTick id (openIfClosed id hook (enter id st))).stack = id :: st.stack ∧
      (countTick id (openIfClosed id hook (enter id st))).cnt id = some 0 := by
    intro st hr
    simp only [countTick, openIfClosed, enter, hh]
    split
    · rename_i ho; exact ⟨hr, rfl, rfl, hr id hid ho⟩
    · refine ⟨fun i hi ho => ?_, rfl, rfl, by simp [upd]⟩
      simp only [upd] at ho ⊢
      split
      · rfl
      · rename_i hne; rw [if_neg hne] at ho; exact hr i hi ho
  obtain ⟨ra, ua, sa, ca⟩ := hop a h.ra
  obtain ⟨rb, ub, sb, cb⟩ := hop b h.rb
  have h0 := hb _ _ ⟨by rw [ua, ub, h.user], by rw [sa, sb, h.stack], ra, rb⟩ ca cb
  unfold xexecute
  obtain ⟨h1, h2, h3, h4, h5⟩ := h0
  generalize body (countTick id (openIfClosed id hook (enter id a))) = x at *
  generalize body (countTick id (openIfClosed id hook (enter id b))) = y at *
  obtain ⟨a', r⟩ := x
  obtain ⟨b', r'⟩ := y
  dsimp only at h1 h2 h3 h4 h5
  subst h1
  cases r with
  | error c => exact ⟨rfl, ⟨h2, h3, (h5 c rfl).1, (h5 c rfl).2⟩, fun s h => by cases h⟩
  | ok s =>
    obtain ⟨hs, hst, h6, h7⟩ := h4 s rfl
    rw [sa] at hst
    exact two_close hs h2 hst (by rw [← h3, hst]) h6 h7

/-- (proof) -/
inductive Twos (C : Id → Prop) : List (XChild σ) → Prop
  | nil : Twos C []
  | cons {i f cs} : Two C f → Twos C cs → Twos C (⟨i, f⟩ :: cs)

theorem two_seq (self : Id) : ∀ {cs : List (XChild σ)}, Twos C cs → ∀ x y a b, Alike C a b →
    Out C a.stack isRunning (xseqTick self cs x a) (xseqTick self cs y b)
  | _, .nil, x, y, a, b, h => ⟨rfl, h.same ⟨rfl, rfl, rfl, rfl⟩ ⟨rfl, rfl, rfl, rfl⟩, fun s e => by cases e; exact ⟨by decide, rfl⟩⟩
  | _, .cons hf hcs, x, y, a, b, h => by
    unfold xseqTick
    refine (hf a b h).bind fun s a1 b1 h1 hs hst => ?_
    split
    · rw [← hst]; exact two_seq self hcs _ _ _ _ h1
    · exact ⟨rfl, h1.same ⟨rfl, rfl, rfl, rfl⟩ ⟨rfl, rfl, rfl, rfl⟩, fun s' e => by cases e; exact ⟨hs, hst⟩⟩

theorem Alike.cost {a b : St σ} (h : Alike C a b) (f g : Id → Int) : Alike C { a with cost := f } { b with cost := g } :=
  h.same ⟨rfl, rfl, rfl, rfl⟩ ⟨rfl, rfl, rfl, rfl⟩

theorem two_pri (self : Id) (st : List Id) : ∀ {cs : List (XChild σ)}, Twos C cs → ∀ a b, Alike C a b → a.stack = st →
    Out C st isRunning (xpriTick self cs a) (xpriTick self cs b)
  | _, .nil, a, b, h, hst => ⟨rfl, h, fun s e => by cases e; exact ⟨by decide, hst⟩⟩
  | _, .cons hf hcs, a, b, h, hst => by
    unfold xpriTick
    have h0 := hf a b h
    rw [hst] at h0
    refine h0.bind fun s a1 b1 h1 hs hst => ?_
    dsimp only
    split
    · exact two_pri self st hcs _ _ (h1.cost _ _) hst
    · exact ⟨rfl, h1.cost _ _, fun s' e => by cases e; exact ⟨hs, hst⟩⟩

theorem two_or (self : Id) (st : List Id) : ∀ {cs : List (XChild σ)}, Twos C cs → ∀ acc, acc ≠ .running → ∀ a b, Alike C a b →
    a.stack = st → Out C st isRunning (xorTick self cs acc a) (xorTick self cs acc b)
  | _, .nil, acc, hacc, a, b, h, hst => ⟨rfl, h, fun s e => by cases e; exact ⟨hacc, hst⟩⟩
  | _, .cons hf hcs, acc, hacc, a, b, h, hst => by
    unfold xorTick
    have h0 := hf a b h
    rw [hst] at h0
    refine h0.bind fun s a1 b1 h1 hs hst => ?_
    have hacc' : (if s = .failure then acc else .success) ≠ .running := by
      by_cases hf : s = .failure
      · rw [if_pos hf]; exact hacc
      · rw [if_neg hf]; decide
    exact two_or self st hcs _ hacc' _ _ (h1.cost _ _) hst

theorem two_comp (k : CKind) (self : Id) {cs : List (XChild σ)} (hcs : Twos C cs) : Two C (xcompTick k self cs) := by
  intro a b h
  cases k with
  | sequence => exact two_seq self hcs 0 0 a b h
  | priority => exact two_pri self a.stack hcs _ _ (h.cost _ _) rfl
  | orNode => exact two_or self a.stack hcs .failure (by decide) _ _ (h.cost _ _) rfl
  | memSequence => exact ⟨rfl, h, fun s e => by cases e⟩
  | memPriority => exact ⟨rfl, h, fun s e => by cases e⟩

theorem two_loop (cont : Status → Bool) (m : Int) {run : St σ → X σ Status} (hr : Two C run) : ∀ (fuel : Nat) (last : Option Status)
    (i : Int) (a b : St σ), Alike C a b → last ≠ some .running →
    Out C a.stack (fun p : Option Status × Int => p.1 = some .running ∨ (p.1 = none ∧ (last ≠ none ∨ p.2 ≠ i)))
      (xwhileLoop cont m run fuel last i a) (xwhileLoop cont m run fuel last i b)
  | 0, last, i, a, b, h, hl => by
    unfold xwhileLoop
    split
    · exact ⟨rfl, h, fun s e => by cases e⟩
    · exact ⟨rfl, h, fun s e => by cases e; exact ⟨by rintro (h | ⟨h, h' | h'⟩) <;> contradiction, rfl⟩⟩
  | fuel + 1, last, i, a, b, h, hl => by
    unfold xwhileLoop
    split
    · refine (hr a b h).bind fun s a1 b1 h1 hs hst => ?_
      split
      · have := two_loop cont m hr fuel (some s) (i + 1) a1 b1 h1 (by simpa using hs)
        rw [← hst]
        refine ⟨this.out, this.alike, fun p hp => ⟨?_, (this.ok p hp).2⟩⟩
        have hp1 := (this.ok p hp).1
        rintro (h | ⟨h, h'⟩)
        · exact hp1 (.inl h)
        · exact hp1 (.inr ⟨h, .inl (by simp)⟩)
      · refine ⟨rfl, h1, fun p hp => ?_⟩
        cases hp
        refine ⟨?_, hst⟩
        rintro (h | ⟨h, _⟩)
        · exact hs (by simpa using h)
        · cases h
    · exact ⟨rfl, h, fun s e => by cases e; exact ⟨by rintro (h | ⟨h, h' | h'⟩) <;> contradiction, rfl⟩⟩

theorem bout_repeat (cont : Status → Bool) (init : Option Status) (hinit : init ≠ some .running) (fuel : Nat) (m : Int) (self : Id)
    {run : St σ → X σ Status} (hr : Two C run) (a b : St σ) (h : Alike C a b) (ha : a.cnt self = some 0)
    (hb : b.cnt self = some 0) :
    BOut C self a.stack (xrepeatTick cont init fuel m self run a) (xrepeatTick cont init fuel m self run b) := by
  unfold xrepeatTick
  rw [ha, hb]
  dsimp only
  have hl := two_loop cont m hr (loopFuel fuel m 0) init 0 a b h hinit
  obtain ⟨h1, h2, h3⟩ := hl
  generalize xwhileLoop cont m run (loopFuel fuel m 0) init 0 a = x at *
  generalize xwhileLoop cont m run (loopFuel fuel m 0) init 0 b = y at *
  obtain ⟨a', r⟩ := x
  obtain ⟨b', r'⟩ := y
  dsimp only at h1 h2 h3
  subst h1
  have but : ∀ (st : St σ) (v : Option Int), Ready C st → ∀ i, C i → i ≠ self → st.isOpen i = true →
      upd st.cnt self v i = some 0 := fun st v hr i hi hne ho => by simp only [upd, if_neg hne]; exact hr i hi ho
  cases r with
  | error c => exact ⟨rfl, h2.user, h2.stack, (fun s e => by cases e), fun c e => ⟨h2.ra, h2.rb⟩⟩
  | ok p =>
    obtain ⟨last, i'⟩ := p
    obtain ⟨hp, hst⟩ := h3 _ rfl
    cases last with
    | none =>
      have hi : i' = 0 := by
        exact Decidable.byContradiction fun hne => hp (.inr ⟨rfl, .inr hne⟩)
      subst hi
      refine ⟨rfl, h2.user, h2.stack, fun s e => ?_, fun c e => ⟨fun i hi ho => ?_, fun i hi ho => ?_⟩⟩
      · cases e
      · show upd a'.cnt self (some 0) i = some 0
        simp only [upd]; split
        · rfl
        · exact h2.ra i hi ho
      · show upd b'.cnt self (some 0) i = some 0
        simp only [upd]; split
        · rfl
        · exact h2.rb i hi ho
    | some s =>
      refine ⟨rfl, h2.user, h2.stack, fun s' e => ?_, fun c e => ?_⟩
      · cases e
        exact ⟨fun h => hp (.inl (by rw [h])), hst, but a' _ h2.ra, but b' _ h2.rb⟩
      · cases e

theorem bout_limiter (E : XEnv σ L) (fuel : Nat) (m : Int) (self : Id) {run : St σ → X σ Status} (hr : Two C run) (a b : St σ)
    (h : Alike C a b) (ha : a.cnt self = some 0) (hb : b.cnt self = some 0) :
    BOut C self a.stack (xdecoTick E fuel (.limiter m) self run a) (xdecoTick E fuel (.limiter m) self run b) := by
  simp only [xdecoTick, ha, hb]
  split
  · obtain ⟨h1, h2, h3⟩ := hr a b h
    generalize run a = x at *
    generalize run b = y at *
    obtain ⟨a', r⟩ := x
    obtain ⟨b', r'⟩ := y
    dsimp only at h1 h2 h3
    subst h1
    cases r with
    | error c => exact ⟨rfl, h2.user, h2.stack, (fun s e => by cases e), fun c e => ⟨h2.ra, h2.rb⟩⟩
    | ok s =>
      obtain ⟨hs, hst⟩ := h3 s rfl
      simp only [X.bind]
      split
      · refine ⟨rfl, h2.user, h2.stack, fun s' e => ?_, fun c e => by cases e⟩
        cases e
        exact ⟨hs, hst, fun i hi hne ho => by simp only [upd, if_neg hne]; exact h2.ra i hi ho,
          fun i hi hne ho => by simp only [upd, if_neg hne]; exact h2.rb i hi ho⟩
      · refine ⟨rfl, h2.user, h2.stack, fun s' e => ?_, fun c e => by cases e⟩
        cases e
        exact ⟨hs, hst, fun i hi _ ho => h2.ra i hi ho, fun i hi _ ho => h2.rb i hi ho⟩
  · refine ⟨rfl, h.user, h.stack, fun s' e => ?_, fun c e => by cases e⟩
    cases e
    exact ⟨by decide, rfl, fun i hi _ ho => h.ra i hi ho, fun i hi _ ho => h.rb i hi ho⟩

mutual
theorem two_exec (E : XEnv σ L) (hE : E.NoRunning) (fuel : Nat) : ∀ t : Tree L, t.Untimed → (∀ i ∈ t.counterIds, C i) →
    (∀ i ∈ t.plainIds, ¬ C i) → Two C (xexec E fuel t)
  | .leaf id a, _, _, hp => by
    unfold xexec
    refine two_plain (hp id (by simp [Tree.plainIds])) fun x y h => ?_
    refine ⟨by rw [h.user], ⟨by simp only [h.user], h.stack, h.ra, h.rb⟩, fun s e => ⟨?_, rfl⟩⟩
    dsimp only at e
    split at e
    · rename_i s' hs; cases e; rintro rfl; exact hE a _ hs
    · cases e
  | .comp k id cs, hu, hc, hp => by
    unfold xexec
    refine two_plain (hp id (by simp [Tree.plainIds])) (two_comp k id ?_)
    exact two_execs E hE fuel cs (by simpa [Tree.Untimed] using hu) (fun i hi => hc i (by simpa [Tree.counterIds] using hi))
      fun i hi => hp i (by simp [Tree.plainIds, hi])
  | .deco k id c, hu, hc, hp => by
    unfold xexec
    simp only [Tree.Untimed] at hu
    have ih := two_exec E hE fuel c hu.2 (fun i hi => hc i (by simp [Tree.counterIds, hi]))
      fun i hi => hp i (by simp [Tree.plainIds, hi])
    have hcid : k.counts = true → C id := fun h => hc id (by simp [Tree.counterIds, h])
    cases k with
    | inverter =>
      refine two_plain (hp id (by simp [Tree.plainIds, DKind.counts])) fun a b h => ?_
      refine (ih a b h).bind (bad' := isRunning) fun s a1 b1 h1 hs hst => Out.mk (x := (a1, .ok (invert s)))
        (y := (b1, .ok (invert s))) rfl h1 fun s' e => ?_
      cases e
      exact ⟨by cases s <;> simp_all [invert], hst⟩
    | limiter m => exact two_counting (fun _ => rfl) (hcid rfl) (bout_limiter E fuel m id ih)
    | repeater m => exact two_counting (fun _ => rfl) (hcid rfl) (bout_repeat _ _ (by decide) fuel m id ih)
    | untilFailure m => exact two_counting (fun _ => rfl) (hcid rfl) (bout_repeat _ _ (by decide) fuel m id ih)
    | untilSuccess m => exact two_counting (fun _ => rfl) (hcid rfl) (bout_repeat _ _ (by decide) fuel m id ih)
    | maxTime m => exact absurd hu.1 (by simp [DKind.timed])
  | .emptyDeco k id, hu, hc, hp => by
    unfold xexec
    simp only [Tree.Untimed] at hu
    have hb : ∀ a b : St σ, Alike C a b → a.cnt id = some 0 → b.cnt id = some 0 →
        BOut C id a.stack ((a, .ok .error) : X σ Status) (b, .ok .error) := fun a b h _ _ =>
      ⟨rfl, h.user, h.stack, fun s e => by cases e; exact ⟨by decide, rfl, fun i hi _ ho => h.ra i hi ho, fun i hi _ ho => h.rb i hi ho⟩,
        fun c e => by cases e⟩
    have hcid : k.counts = true → C id := fun h => hc id (by simp [Tree.counterIds, h])
    cases k with
    | inverter =>
      refine two_plain (hp id (by simp [Tree.plainIds, DKind.counts])) fun a b h => ?_
      exact ⟨rfl, h, fun s e => by cases e; exact ⟨by decide, rfl⟩⟩
    | limiter m => exact two_counting (fun _ => rfl) (hcid rfl) hb
    | repeater m => exact two_counting (fun _ => rfl) (hcid rfl) hb
    | untilFailure m => exact two_counting (fun _ => rfl) (hcid rfl) hb
    | untilSuccess m => exact two_counting (fun _ => rfl) (hcid rfl) hb
    | maxTime m => exact absurd hu (by simp [DKind.timed])
theorem two_execs (E : XEnv σ L) (hE : E.NoRunning) (fuel : Nat) : ∀ cs : List (Tree L), UntimedList cs →
    (∀ i ∈ counterIdsList cs, C i) → (∀ i ∈ plainIdsList cs, ¬ C i) → Twos C (xexecs E fuel cs)
  | [], _, _, _ => by unfold xexecs; exact .nil
  | c :: cs, hu, hc, hp => by
    unfold xexecs
    simp only [UntimedList] at hu
    exact .cons (two_exec E hE fuel c hu.1 (fun i hi => hc i (by simp [counterIdsList, hi])) fun i hi => hp i (by simp [plainIdsList, hi]))
      (two_execs E hE fuel cs hu.2 (fun i hi => hc i (by simp [counterIdsList, hi])) fun i hi => hp i (by simp [plainIdsList, hi]))
end
end

end Verif.BT
