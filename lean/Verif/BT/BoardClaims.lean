import Verif.BT.BoardProps
import Verif.BT.OpenProps

/-!
# C83: trees that share a blackboard — the claims
-/

namespace Verif.BT.Board

open Verif.BT.Blackboard (BB Val Err Key)

variable {σ L : Type}

/-- `mem` is what the blackboard returns. -/
theorem C83_mem_is_get {bb : BB} (h : Good bb) (T n : Nat) (k : Key) :
    (Blackboard.get bb k (some T) (some n)).map Prod.fst = .ok (mem bb T n k) := by
  obtain ⟨bb', h1, _⟩ := get_node (Fr.refl (T := T) h) n k
  rw [h1]; rfl

/-- `treeMem` is what the blackboard returns. -/
theorem C83_treeMem_is_get {bb : BB} (T : Nat) (k : Key) (hk : k ≠ "node_memory") :
    (Blackboard.get bb k (some T) none).map Prod.fst = .ok (treeMem bb T k) := by
  cases ht : bb.trees T <;>
    simp [Blackboard.get, Blackboard.resolve, Blackboard.getTree, ht, Except.map, Blackboard.readLoc, hk, treeMem]

/-- C83, one tick: with a shared blackboard a tree does exactly what the engine of one tree does to the state read off the
scope of this tree: the same status or exception, the same world, open marks, counters, start times, open nodes, costs,
`TotalCost`, statistics and log. In particular the blackboard itself never raises. -/
theorem C83_tick (enc : List Id → Nat) (E : Env (σ × GDict) L) (fuel : Nat) (T : Nat) (t : Tree L) (b : BSt σ)
    (hg : Good b.bb) :
    (∀ c, treeTick E fuel t (view T b) = .error c → bTick enc E fuel T t b = .error (.engine c)) ∧
    (∀ s st', treeTick E fuel t (view T b) = .ok (s, st') →
      ∃ b', bTick enc E fuel T t b = .ok (s, b') ∧ view T b' = st' ∧ Good b'.bb) := by
  have h := sim_tick enc E fuel True T t b (view T b) hg (by
    have := rep_view (T := T) (b := { b with stack := [], count := 0 }) hg
    exact this)
  constructor
  · intro c hc
    rw [hc] at h
    cases hb : bTick enc E fuel T t b with
    | error e => rw [hb] at h; simp only [Sim] at h; rw [h]
    | ok p => rw [hb] at h; exact False.elim h
  · intro s st' hs
    rw [hs] at h
    cases hb : bTick enc E fuel T t b with
    | error e => rw [hb] at h; exact False.elim h
    | ok p =>
      rw [hb] at h
      obtain ⟨s', b'⟩ := p
      have h1 : s' = s := h.status
      subst h1
      refine ⟨b', rfl, (rep_eq h.rep ?_).symm, h.good⟩
      exact (exec_rel (nTicks_stable E) fuel t _ _ _ hs :)

/-- C83, the other trees: a tick of the tree `T` leaves every entry in the scope of another tree, of the tree itself or of its
nodes, as it was. -/
theorem C83_other_trees {enc : List Id → Nat} {E : Env (σ × GDict) L} {fuel : Nat} {T : Nat} {t : Tree L} {b b' : BSt σ}
    {s : Status} (hg : Good b.bb) (h : bTick enc E fuel T t b = .ok (s, b')) (T' : Nat) (hT : T' ≠ T) :
    (∀ n k, mem b'.bb T' n k = mem b.bb T' n k) ∧ ∀ k, treeMem b'.bb T' k = treeMem b.bb T' k := by
  have hs := sim_tick enc E fuel True T t b (view T b) hg (rep_view (b := { b with stack := [], count := 0 }) hg)
  rw [h] at hs
  cases hx : treeTick E fuel t (view T b) with
  | error c => rw [hx] at hs; exact False.elim hs
  | ok q =>
    rw [hx] at hs
    have := hs.other T' hT
    refine ⟨fun n k => ?_, fun k => ?_⟩
    · simp only [mem, Blackboard.readLoc]; dsimp only at this; rw [this]
    · simp only [treeMem]; dsimp only at this; rw [this]

/-- C83, what is published: in the scope of its tree, a tick writes the open nodes and the number of nodes entered, and
nothing else. -/
theorem C83_published {enc : List Id → Nat} {E : Env (σ × GDict) L} {fuel : Nat} {T : Nat} {t : Tree L} {b b' : BSt σ}
    {s : Status} (hg : Good b.bb) (h : bTick enc E fuel T t b = .ok (s, b')) :
    treeMem b'.bb T "open_nodes" = .other (enc b'.stack) ∧ treeMem b'.bb T "node_count" = .int b'.count ∧
    ∀ k, k ≠ "open_nodes" → k ≠ "node_count" → treeMem b'.bb T k = treeMem b.bb T k := by
  have hs := sim_tick enc E fuel True T t b (view T b) hg (rep_view (b := { b with stack := [], count := 0 }) hg)
  rw [h] at hs
  cases hx : treeTick E fuel t (view T b) with
  | error c => rw [hx] at hs; exact False.elim hs
  | ok q =>
    rw [hx] at hs
    refine ⟨?_, ?_, fun k h1 h2 => ?_⟩
    · rw [hs.keys]; simp
    · rw [hs.keys]; simp
    · rw [hs.keys, if_neg h2, if_neg h1]

/-- (proof) The memory of the tree `T`. -/
structure Remembers (T : Nat) (b : BSt σ) (st : St (σ × GDict)) : Prop where
  isOpen : ∀ n, st.isOpen n = truthy (mem b.bb T n "is_open")
  cnt : ∀ n, st.cnt n = intOf (mem b.bb T n "i")
  start : ∀ n, st.start n = intOf (mem b.bb T n "startTime")

theorem withGlobal_mem (b : BSt σ) (u : σ × GDict) (T n : Nat) (k : Key) : mem (b.withGlobal u).bb T n k = mem b.bb T n k := rfl

theorem withGlobal_good {b : BSt σ} (h : Good b.bb) (u : σ × GDict) : Good (b.withGlobal u).bb :=
  ⟨by simpa [BSt.withGlobal] using h.total, h.slot⟩

theorem withGlobal_global (b : BSt σ) (u : σ × GDict) : (b.withGlobal u).global = u := by
  simp only [BSt.global, BSt.withGlobal]
  refine Prod.ext rfl ?_
  funext k; simp [k.2]

theorem history_alone (enc : List Id → Nat) (E : Env (σ × GDict) L) (fuel : Nat) (T : Nat) (t : Tree L) :
    ∀ (cs : List (Call σ L)) (b : BSt σ) (st : St (σ × GDict)), Good b.bb → Remembers T b st →
    (∀ c ∈ cs, c.tree = T → c.root = t) →
    ((bHistory enc E fuel cs b).filter fun o => o.tree = T).map Seen.out =
      alone E fuel t (((bHistory enc E fuel cs b).filter fun o => o.tree = T).map Seen.before) st
  | [], b, st, _, _, _ => rfl
  | c :: cs, b, st, hg, hm, hc => by
    have ih := fun b1 st1 h1 h2 => history_alone enc E fuel T t cs b1 st1 h1 h2 fun c h => hc c (by simp [h])
    have hg' := withGlobal_good hg (c.before b.global)
    by_cases hT : c.tree = T
    · have hs := sim_tick enc E fuel False T t (b.withGlobal (c.before b.global)) { st with user := c.before b.global } hg'
        ⟨(withGlobal_global b _).symm, hm.isOpen, hm.cnt, hm.start, rfl, fun h => h.elim⟩
      simp only [bHistory, hT, hc c (by simp) hT]
      cases hx : treeTick E fuel t { st with user := c.before b.global } with
      | error e =>
        rw [hx] at hs
        cases hb : bTick enc E fuel T t (b.withGlobal (c.before b.global)) with
        | ok p => rw [hb] at hs; exact False.elim hs
        | error e' =>
          rw [hb] at hs; simp only [Sim] at hs
          simp [alone, hx, hs]
      | ok q =>
        rw [hx] at hs
        cases hb : bTick enc E fuel T t (b.withGlobal (c.before b.global)) with
        | error e => rw [hb] at hs; exact False.elim hs
        | ok p =>
          rw [hb] at hs
          obtain ⟨s, b1⟩ := p
          obtain ⟨s', st1⟩ := q
          have e1 : s = s' := hs.status
          have e2 : st1.user = b1.global := hs.rep.user
          have := ih b1 st1 hs.good ⟨hs.rep.isOpen, hs.rep.cnt, hs.rep.start⟩
          simp [alone, hx, e1, e2, this]
    · simp only [bHistory]
      cases hb : bTick enc E fuel c.tree c.root (b.withGlobal (c.before b.global)) with
      | error e => simp [hT, alone]
      | ok p =>
        obtain ⟨s, b1⟩ := p
        have hg1 : Good b1.bb := by
          have h2 := sim_tick enc E fuel True c.tree c.root _ (view c.tree (b.withGlobal (c.before b.global))) hg'
            (rep_view (b := { b.withGlobal (c.before b.global) with stack := [], count := 0 }) hg')
          rw [hb] at h2
          cases hx : treeTick E fuel c.root (view c.tree (b.withGlobal (c.before b.global))) with
          | error e => rw [hx] at h2; exact False.elim h2
          | ok q => rw [hx] at h2; exact h2.good
        have hf := (C83_other_trees hg' hb T (fun h => hT h.symm)).1
        have := ih b1 st hg1 ⟨fun n => by rw [hf]; exact hm.isOpen n, fun n => by rw [hf]; exact hm.cnt n,
          fun n => by rw [hf]; exact hm.start n⟩
        simp [hT, this]

/-- C83, any history: calls of `tick` of any trees, in any order, with one blackboard, the world and the global scope changing in
any way in between. The outcomes of the calls of one tree, with the worlds they leave, are those of this tree alone, with the memory that
the blackboard holds for it at the start, called in the same worlds. The trees may have node objects in common. -/
theorem C83_alone (enc : List Id → Nat) (E : Env (σ × GDict) L) (fuel : Nat) (cs : List (Call σ L)) (b : BSt σ)
    (hg : Good b.bb) (T : Nat) (t : Tree L) (hc : ∀ c ∈ cs, c.tree = T → c.root = t) :
    ((bHistory enc E fuel cs b).filter fun o => o.tree = T).map Seen.out =
      alone E fuel t (((bHistory enc E fuel cs b).filter fun o => o.tree = T).map Seen.before) (view T b) :=
  history_alone enc E fuel T t cs b (view T b) hg ⟨fun _ => rfl, fun _ => rfl, fun _ => rfl⟩ hc

/-- C83, from a new blackboard: every tree is as with a blackboard of its own that nobody has used. -/
theorem C83_alone_new (enc : List Id → Nat) (E : Env (σ × GDict) L) (fuel : Nat) (cs : List (Call σ L)) (u : σ)
    (T : Nat) (t : Tree L) (hc : ∀ c ∈ cs, c.tree = T → c.root = t) (u' : σ × GDict) :
    ((bHistory enc E fuel cs { world := u, bb := Blackboard.init }).filter fun o => o.tree = T).map Seen.out =
      alone E fuel t (((bHistory enc E fuel cs { world := u, bb := Blackboard.init }).filter fun o => o.tree = T).map Seen.before)
        { user := u' } :=
  history_alone enc E fuel T t cs _ { user := u' } good_init
    ⟨fun _ => rfl, fun _ => rfl, fun _ => rfl⟩ hc

/-! ## Two trees with the same nodes -/

/-- A leaf that is RUNNING in every odd world and SUCCEEDS in every even one, and moves the world on. -/
def stepper : Env (Nat × GDict) Unit where
  act _ u := .ok (if u.1 % 2 = 0 then .success else .running, (u.1 + 1, u.2))
  now u := (0, u)

/-- At most three rounds of the leaf in one opening of the tree. -/
def threeRounds : Tree Unit := .deco (.repeater 3) 0 (.leaf 1 ())

/-- Three calls of the tree 7, two of the tree 8 in between; both have the same root object. -/
def interleaved : List (Call Nat Unit) :=
  [⟨id, 7, threeRounds⟩, ⟨fun u => (0, u.2), 8, threeRounds⟩, ⟨fun u => (4, u.2), 7, threeRounds⟩,
   ⟨id, 8, threeRounds⟩, ⟨id, 7, threeRounds⟩]

/-- (example) -/
def glimpse (o : Seen Nat) : Nat × Nat × Option (Status × Nat) :=
  (o.tree, o.before.1, match o.out with | .ok (s, u) => some (s, u.1) | .error _ => none)

/-- Two trees with the same nodes, ticked in turn: each remembers its own count. -/
example : (bHistory List.length stepper 10 interleaved { world := 0, bb := Blackboard.init }).map glimpse =
    [(7, 0, some (.running, 2)), (8, 0, some (.running, 2)), (7, 4, some (.running, 6)), (8, 6, some (.running, 8)),
     (7, 8, some (.success, 9))] := by decide +kernel

example : Good Blackboard.init := good_init

example : ∀ c ∈ interleaved, c.tree = 7 → c.root = threeRounds := by simp [interleaved]

/-- (example) -/
def tallies (b : BSt Nat) : Nat × Nat × Option Val := (b.ticksAll 1, b.nSuccess 1, b.bb.base "TotalCost")

/-- What the trees share: the statistics of the node objects count the executions in both, and `TotalCost` adds up the costs of
both. -/
theorem C83_shared_statistics :
    (do let p ← bTick List.length stepper 10 7 threeRounds
          { world := 0, bb := Blackboard.init, cost := fun i => if i = 1 then 5 else 0 }
        let q ← bTick List.length stepper 10 8 threeRounds (p.2.withGlobal (0, p.2.global.2))
        return (tallies p.2, tallies q.2)) =
      .ok ((2, 1, some (.int 10)), (4, 2, some (.int 20))) := by decide +kernel

end Verif.BT.Board
