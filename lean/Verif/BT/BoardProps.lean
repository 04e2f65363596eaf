import Verif.BT.Board
import Verif.BT.Spec

/-!
# C83: trees that share a blackboard

Ticks of several trees with one blackboard, in any order: every tree behaves as if it were alone with a
blackboard of its own, in the worlds in which it is called.
-/

namespace Verif.BT.Board

open Verif.BT.Blackboard (BB Val Err Key TreeMem Slot freshTree readLoc writeLoc resolve getTree put)

variable {σ L : Type}

/-! ## Specification -/

/-- What `get(k, T, n)` of a blackboard returns (`None` if there is nothing). -/
def mem (bb : BB) (T n : Nat) (k : Key) : Val := (readLoc bb (.node T n) k).getD .none

/-- What `get(k, T)` of a blackboard returns, for other keys than `node_memory`. -/
def treeMem (bb : BB) (T : Nat) (k : Key) : Val := (((bb.trees T).getD freshTree).keys k).getD .none

/-- A number, or nothing. -/
def intOf : Val → Option Int
  | .int i => some i
  | _ => none

/-- A blackboard as `Blackboard()` makes it and ticks keep it: `TotalCost` is an integer and nobody has written
over the key `node_memory` of a tree. -/
structure Good (bb : BB) : Prop where
  total : ∃ c, bb.base "TotalCost" = some (.int c)
  slot : ∀ T m, bb.trees T = some m → ∃ d, m.slot = .dict d

/-- The state of one tree alone, read off a shared blackboard: the open marks, counters and start times in the scope of
`T`, and all else as it is. -/
def view (T : Nat) (b : BSt σ) : St (σ × GDict) where
  user := b.global
  isOpen n := truthy (mem b.bb T n "is_open")
  cnt n := intOf (mem b.bb T n "i")
  start n := intOf (mem b.bb T n "startTime")
  totalCost := (intOf ((b.bb.base "TotalCost").getD .none)).getD 0
  cost := b.cost
  ticksAll := b.ticksAll
  nSuccess := b.nSuccess
  stack := b.stack
  count := b.count
  log := b.log

/-- A tree alone, ticked in the given worlds one after the other, up to the first exception: status and world
after each tick. -/
def alone (E : Env (σ × GDict) L) (fuel : Nat) (t : Tree L) :
    List (σ × GDict) → St (σ × GDict) → List (Except BCrash (Status × (σ × GDict)))
  | [], _ => []
  | u :: us, st =>
    match treeTick E fuel t { st with user := u } with
    | .error c => [.error (.engine c)]
    | .ok (s, st1) => .ok (s, st1.user) :: alone E fuel t us st1

/-! ## The blackboard -/

/-- (proof) `bb` came from `bb0` by writes to the node scopes of `T` and to the global scope. -/
structure Fr (T : Nat) (bb0 bb : BB) : Prop where
  good : Good bb
  other : ∀ T', T' ≠ T → bb.trees T' = bb0.trees T'
  keys : ((bb.trees T).getD freshTree).keys = ((bb0.trees T).getD freshTree).keys

theorem Fr.refl {T : Nat} {bb : BB} (h : Good bb) : Fr T bb bb := ⟨h, fun _ _ => rfl, rfl⟩

/-- (proof) -/
def withTree (bb : BB) (T : Nat) (m : TreeMem) : BB :=
  { bb with trees := fun T' => if T' = T then some m else bb.trees T' }

theorem withTree_fr {T : Nat} {bb0 bb : BB} (h : Fr T bb0 bb) {m : TreeMem} {d : Nat → Option Blackboard.Dict}
    (hd : m.slot = .dict d) (hk : m.keys = ((bb.trees T).getD freshTree).keys) : Fr T bb0 (withTree bb T m) := by
  refine ⟨⟨h.good.total, ?_⟩, ?_, ?_⟩
  · intro T' m' hm
    simp only [withTree] at hm
    split at hm
    · obtain rfl := Option.some.inj hm; exact ⟨_, hd⟩
    · exact h.good.slot T' m' hm
  · intro T' hT; simp [withTree, hT, h.other T' hT]
  · simp only [withTree, if_true, Option.getD_some, hk, h.keys]

theorem withTree_mem {bb : BB} {T : Nat} {m : TreeMem} {d : Nat → Option Blackboard.Dict} (hd : m.slot = .dict d)
    (n : Nat) (k : Key) : mem (withTree bb T m) T n k = ((d n).bind fun nd => nd k).getD .none := by
  simp only [mem, readLoc, withTree, if_true, hd]
  cases d n <;> rfl

theorem mem_eq {bb : BB} {T : Nat} {m : TreeMem} {d : Nat → Option Blackboard.Dict} (hm : bb.trees T = some m)
    (hd : m.slot = .dict d) (n : Nat) (k : Key) : mem bb T n k = ((d n).bind fun nd => nd k).getD .none := by
  simp only [mem, readLoc, hm, hd]
  cases d n <;> rfl

theorem resolve_node {T : Nat} {bb0 bb : BB} (h : Fr T bb0 bb) (n : Nat) :
    ∃ bb', resolve bb (some T) (some n) = .ok (bb', .node T n) ∧ Fr T bb0 bb' ∧ bb'.base = bb.base ∧
      (∀ n' k, mem bb' T n' k = mem bb T n' k) ∧
      ∃ m d nd, bb'.trees T = some m ∧ m.slot = .dict d ∧ d n = some nd := by
  cases ht : bb.trees T with
  | none =>
    refine ⟨withTree bb T { freshTree with slot := .dict fun n' => if n' = n then some (fun _ => none) else none },
      ?_, withTree_fr h rfl (by simp [ht]), rfl, ?_, ?_⟩
    · simp only [resolve, getTree, ht, freshTree, withTree]
      congr 3
      funext T'; by_cases hT : T' = T <;> simp [hT]
    · intro n' k
      rw [withTree_mem rfl]
      simp only [mem, readLoc, ht]
      by_cases hn : n' = n <;> simp [hn]
    · exact ⟨_, _, fun _ => none, by simp only [withTree, if_true]; rfl, rfl, by simp only [if_true]⟩
  | some m =>
    obtain ⟨d, hd⟩ := h.good.slot T m ht
    cases hn : d n with
    | some nd =>
      exact ⟨bb, by simp [resolve, getTree, ht, hd, hn], h, rfl, fun _ _ => rfl, m, d, nd, ht, hd, hn⟩
    | none =>
      refine ⟨withTree bb T { m with slot := .dict fun n' => if n' = n then some (fun _ => none) else d n' },
        ?_, withTree_fr h rfl (by simp [ht]), rfl, ?_, ?_⟩
      · simp only [resolve, getTree, ht, hd, hn]; rfl
      · intro n' k
        rw [withTree_mem rfl, mem_eq ht hd]
        by_cases hn' : n' = n <;> simp [hn', hn]
      · exact ⟨_, _, fun _ => none, by simp only [withTree, if_true]; rfl, rfl, by simp only [if_true]⟩

theorem get_node {T : Nat} {bb0 bb : BB} (h : Fr T bb0 bb) (n : Nat) (k : Key) :
    ∃ bb', Blackboard.get bb k (some T) (some n) = .ok (mem bb T n k, bb') ∧ Fr T bb0 bb' ∧ bb'.base = bb.base ∧
      ∀ n' k, mem bb' T n' k = mem bb T n' k := by
  obtain ⟨bb', hr, hf, hb, hm, _⟩ := resolve_node h n
  exact ⟨bb', by simp only [Blackboard.get, hr, ← hm]; rfl, hf, hb, hm⟩

theorem set_node {T : Nat} {bb0 bb : BB} (h : Fr T bb0 bb) (n : Nat) (k : Key) (v : Val) :
    ∃ bb', Blackboard.set bb k v (some T) (some n) = .ok bb' ∧ Fr T bb0 bb' ∧ bb'.base = bb.base ∧
      ∀ n' k', mem bb' T n' k' = if n' = n ∧ k' = k then v else mem bb T n' k' := by
  obtain ⟨bb', hr, hf, hb, hm, m, d, nd, h1, h2, h3⟩ := resolve_node h n
  refine ⟨withTree bb' T { m with slot := .dict fun n' => if n' = n then some (put nd k v) else d n' },
    ?_, withTree_fr hf rfl (by simp [h1]), hb, ?_⟩
  · simp only [Blackboard.set, hr, writeLoc, h1, h2, h3]; rfl
  · intro n' k'
    rw [← hm, withTree_mem rfl, mem_eq h1 h2]
    by_cases hn : n' = n
    · subst hn
      by_cases hk : k' = k <;> simp [put, hk, h3]
    · simp [hn]

/-! ## The shared engine against the engine of one tree -/

/-- (proof) The state of the tree `T`; `full`: also the statistics. -/
structure Rep (full : Prop) (T : Nat) (b : BSt σ) (st : St (σ × GDict)) : Prop where
  user : st.user = b.global
  isOpen : ∀ n, st.isOpen n = truthy (mem b.bb T n "is_open")
  cnt : ∀ n, st.cnt n = intOf (mem b.bb T n "i")
  start : ∀ n, st.start n = intOf (mem b.bb T n "startTime")
  stack : st.stack = b.stack
  stats : full → b.bb.base "TotalCost" = some (.int st.totalCost) ∧ st.cost = b.cost ∧ st.ticksAll = b.ticksAll ∧
    st.nSuccess = b.nSuccess ∧ st.count = b.count ∧ st.log = b.log

/-- (proof) -/
structure Inv (full : Prop) (T : Nat) (bb0 : BB) (b : BSt σ) (st : St (σ × GDict)) : Prop where
  rep : Rep full T b st
  fr : Fr T bb0 b.bb

/-- (proof) Same outcome, related by `R`. -/
def Sim {α β : Type} (R : α → β → Prop) : Except BCrash α → Except Crash β → Prop
  | .ok a, .ok b => R a b
  | .error e, .error c => e = .engine c
  | .error _, .ok _ => False
  | .ok _, .error _ => False

section
variable {full : Prop} {T : Nat} {bb0 : BB}

/-- (proof) -/
def SimS (full : Prop) (T : Nat) (bb0 : BB) (w : Except BCrash (BSt σ)) (r : Except Crash (St (σ × GDict))) : Prop :=
  Sim (Inv full T bb0) w r

/-- (proof) -/
def Pair (full : Prop) (T : Nat) (bb0 : BB) (p : Status × BSt σ) (q : Status × St (σ × GDict)) : Prop :=
  p.1 = q.1 ∧ Inv full T bb0 p.2 q.2

/-- (proof) -/
def SimRun (full : Prop) (T : Nat) (bb0 : BB) (f : BSt σ → Except BCrash (Status × BSt σ))
    (g : St (σ × GDict) → Res (σ × GDict)) : Prop :=
  ∀ b st, Inv full T bb0 b st → Sim (Pair full T bb0) (f b) (g st)

/-- (proof) -/
inductive SimRuns (full : Prop) (T : Nat) (bb0 : BB) : List (BChild σ) → List (Child (σ × GDict)) → Prop
  | nil : SimRuns full T bb0 [] []
  | cons {i f g cs ds} : SimRun full T bb0 f g → SimRuns full T bb0 cs ds →
      SimRuns full T bb0 (⟨i, f⟩ :: cs) (⟨i, g⟩ :: ds)

theorem Sim.elim {α β γ δ : Type} {R : α → β → Prop} {Q : γ → δ → Prop} {w : Except BCrash α} {r : Except Crash β}
    (h : Sim R w r) {k : α → Except BCrash γ} {G : Except Crash δ}
    (he : ∀ c, r = .error c → G = .error c) (hk : ∀ a b, r = .ok b → R a b → Sim Q (k a) G) :
    Sim Q (w >>= k) G := by
  cases w <;> cases r <;> simp only [Sim] at h
  · subst h; rw [he _ rfl]; rfl
  · exact hk _ _ rfl h

theorem inv_set {b : BSt σ} {st : St (σ × GDict)} (h : Inv full T bb0 b st) (n : Id) (k : Key) (v : Val)
    (st' : St (σ × GDict))
    (hu : st'.user = st.user)
    (ho : ∀ n', st'.isOpen n' = if n' = n ∧ "is_open" = k then truthy v else st.isOpen n')
    (hc : ∀ n', st'.cnt n' = if n' = n ∧ "i" = k then intOf v else st.cnt n')
    (hs : ∀ n', st'.start n' = if n' = n ∧ "startTime" = k then intOf v else st.start n')
    (hk : st'.stack = st.stack)
    (hf : st'.totalCost = st.totalCost ∧ st'.cost = st.cost ∧ st'.ticksAll = st.ticksAll ∧
      st'.nSuccess = st.nSuccess ∧ st'.count = st.count ∧ st'.log = st.log) :
    SimS full T bb0 (b.set T n k v) (.ok st') := by
  obtain ⟨bb', h1, h2, h3, h4⟩ := set_node h.fr n k v
  have e : b.set T n k v = .ok { b with bb := bb' } := by simp only [BSt.set, h1]; rfl
  rw [e]
  refine ⟨⟨?_, ?_, ?_, ?_, ?_, ?_⟩, h2⟩
  · rw [hu, h.rep.user]; simp only [BSt.global, h3]
  · intro n'; rw [ho, h4, h.rep.isOpen]; split <;> rfl
  · intro n'; rw [hc, h4, h.rep.cnt]; split <;> rfl
  · intro n'; rw [hs, h4, h.rep.start]; split <;> rfl
  · rw [hk]; exact h.rep.stack
  · intro hfu
    obtain ⟨a1, a2, a3, a4, a5, a6⟩ := h.rep.stats hfu
    obtain ⟨c1, c2, c3, c4, c5, c6⟩ := hf
    refine ⟨?_, c2.trans a2, c3.trans a3, c4.trans a4, c5.trans a5, c6.trans a6⟩
    rw [h3, c1]; exact a1

theorem inv_get {b : BSt σ} {st : St (σ × GDict)} (h : Inv full T bb0 b st) (n : Id) (k : Key) :
    ∃ b', b.get T n k = .ok (mem b.bb T n k, b') ∧ Inv full T bb0 b' st := by
  obtain ⟨bb', h1, h2, h3, h4⟩ := get_node h.fr n k
  refine ⟨{ b with bb := bb' }, by simp only [BSt.get, h1]; rfl, ⟨?_, ?_, ?_, ?_, ?_, ?_⟩, h2⟩
  · rw [h.rep.user]; simp only [BSt.global, h3]
  · intro n'; rw [h4, h.rep.isOpen]
  · intro n'; rw [h4, h.rep.cnt]
  · intro n'; rw [h4, h.rep.start]
  · exact h.rep.stack
  · intro hfu; have := h.rep.stats hfu; rw [h3]; exact this

theorem inv_global {b : BSt σ} {st : St (σ × GDict)} (h : Inv full T bb0 b st) (u : σ × GDict) :
    Inv full T bb0 (b.withGlobal u) { st with user := u } := by
  refine ⟨⟨?_, h.rep.isOpen, h.rep.cnt, h.rep.start, h.rep.stack, ?_⟩, ⟨⟨?_, h.fr.good.slot⟩, h.fr.other, h.fr.keys⟩⟩
  · simp only [BSt.global, BSt.withGlobal]
    refine Prod.ext rfl ?_
    funext k; simp [k.2]
  · intro hf
    simpa [BSt.withGlobal] using h.rep.stats hf
  · simpa [BSt.withGlobal] using h.fr.good.total

theorem inv_enter {b : BSt σ} {st : St (σ × GDict)} (h : Inv full T bb0 b st) (id : Id) :
    Inv full T bb0 (bEnter id b) (enter id st) := by
  refine ⟨⟨h.rep.user, h.rep.isOpen, h.rep.cnt, h.rep.start, by simp [bEnter, enter, h.rep.stack], ?_⟩, h.fr⟩
  intro hf
  have := h.rep.stats hf
  exact ⟨this.1, this.2.1, this.2.2.1, this.2.2.2.1, by simp [bEnter, enter, this.2.2.2.2.1], this.2.2.2.2.2⟩

theorem inv_count {b : BSt σ} {st : St (σ × GDict)} (h : Inv full T bb0 b st) (id : Id) :
    Inv full T bb0 (bCount id b) (countTick id st) := by
  refine ⟨⟨h.rep.user, h.rep.isOpen, h.rep.cnt, h.rep.start, h.rep.stack, ?_⟩, h.fr⟩
  intro hf
  have := h.rep.stats hf
  exact ⟨this.1, this.2.1, by simp [bCount, countTick, this.2.2.1], this.2.2.2.1, this.2.2.2.2.1, this.2.2.2.2.2⟩

/-- (proof) Assigning `Cost`, given the same values if statistics count. -/
theorem inv_cost {b : BSt σ} {st : St (σ × GDict)} (h : Inv full T bb0 b st) (id : Id) (x y : Int)
    (hxy : full → x = y) :
    Inv full T bb0 { b with cost := upd b.cost id x } { st with cost := upd st.cost id y } := by
  refine ⟨⟨h.rep.user, h.rep.isOpen, h.rep.cnt, h.rep.start, h.rep.stack, ?_⟩, h.fr⟩
  intro hf
  have := h.rep.stats hf
  exact ⟨this.1, by rw [this.2.1, hxy hf], this.2.2⟩

theorem sim_after {b : BSt σ} {st : St (σ × GDict)} (h : Inv full T bb0 b st) (id : Id) (s : Status) :
    SimS full T bb0 (bAfter id s b) (.ok (afterTick id s st)) := by
  obtain ⟨c, hc⟩ := h.fr.good.total
  have e : Blackboard.inc b.bb "TotalCost" (.int (b.cost id)) none none =
      .ok { b.bb with base := put b.bb.base "TotalCost" (.int (c + b.cost id)) } := by
    simp [Blackboard.inc, resolve, readLoc, hc, Blackboard.addVal, writeLoc]
  have hi : Inv full T bb0 { b with bb := { b.bb with base := put b.bb.base "TotalCost" (.int (c + b.cost id)) } }
      { st with totalCost := st.totalCost + st.cost id } := by
    refine ⟨⟨?_, h.rep.isOpen, h.rep.cnt, h.rep.start, h.rep.stack, ?_⟩,
      ⟨⟨⟨_, by simp [put]; rfl⟩, h.fr.good.slot⟩, h.fr.other, h.fr.keys⟩⟩
    · show st.user = _
      rw [h.rep.user]; simp only [BSt.global, put]
      refine Prod.ext rfl ?_
      funext k; simp [k.2]
    · intro hf
      have := h.rep.stats hf
      refine ⟨?_, this.2⟩
      have h1 := this.1
      rw [hc] at h1
      injection h1 with h1; injection h1 with h1
      simp [put, h1, this.2.1]
  simp only [bAfter, e, lift, SimS]
  cases s with
  | success =>
    refine ⟨⟨hi.rep.user, hi.rep.isOpen, hi.rep.cnt, hi.rep.start, hi.rep.stack, ?_⟩, hi.fr⟩
    intro hf
    obtain ⟨a1, a2, a3, a4, a5, a6⟩ := hi.rep.stats hf
    dsimp only at a4 a6
    exact ⟨a1, a2, a3, by simp [afterTick, a4], a5, by simp [afterTick, a6]⟩
  | failure =>
    refine ⟨⟨hi.rep.user, hi.rep.isOpen, hi.rep.cnt, hi.rep.start, hi.rep.stack, ?_⟩, hi.fr⟩
    intro hf
    obtain ⟨a1, a2, a3, a4, a5, a6⟩ := hi.rep.stats hf
    dsimp only at a4 a6
    exact ⟨a1, a2, a3, a4, a5, by simp [afterTick, a6]⟩
  | running => exact hi
  | error => exact hi

theorem sim_close {b : BSt σ} {st : St (σ × GDict)} (h : Inv full T bb0 b st) (id : Id) (s : Status) :
    SimS full T bb0 (bClose T id s b) (closeIfDone id s st) := by
  unfold bClose closeIfDone
  by_cases hs : s = .running
  · simp only [hs, if_true]; exact h
  · simp only [hs, if_false]
    rw [h.rep.stack]
    cases hst : b.stack with
    | nil => exact rfl
    | cons x rest =>
      have h' : Inv full T bb0 { b with stack := rest } { st with stack := rest } :=
        ⟨⟨h.rep.user, h.rep.isOpen, h.rep.cnt, h.rep.start, rfl, h.rep.stats⟩, h.fr⟩
      refine inv_set h' id "is_open" (.other 0) _ rfl ?_ ?_ ?_ rfl ⟨rfl, rfl, rfl, rfl, rfl, rfl⟩
      · intro n'; simp only [upd]; by_cases hn : n' = id <;> simp [hn, truthy]
      · intro n'; simp
      · intro n'; simp

theorem sim_hook (E : Env (σ × GDict) L) {b : BSt σ} {st : St (σ × GDict)} (h : Inv full T bb0 b st) (k : DKind) (id : Id) :
    SimS full T bb0 (bHook E T k id b) (.ok (openHook E k id st)) := by
  have hi : ∀ st', st' = { st with cnt := upd st.cnt id (some 0) } →
      SimS full T bb0 (b.set T id "i" (.int 0)) (.ok st') := by
    rintro _ rfl
    refine inv_set h id "i" (.int 0) _ rfl ?_ ?_ ?_ rfl ⟨rfl, rfl, rfl, rfl, rfl, rfl⟩
    · intro n'; simp
    · intro n'; simp only [upd]; by_cases hn : n' = id <;> simp [hn, intOf]
    · intro n'; simp
  cases k with
  | inverter => exact h
  | limiter m => exact hi _ rfl
  | repeater m => exact hi _ rfl
  | untilFailure m => exact hi _ rfl
  | untilSuccess m => exact hi _ rfl
  | maxTime m =>
    simp only [bHook, openHook, ← h.rep.user]
    refine inv_set (inv_global h _) id "startTime" (.int (E.now st.user).1) _ rfl ?_ ?_ ?_ rfl ⟨rfl, rfl, rfl, rfl, rfl, rfl⟩
    · intro n'; simp
    · intro n'; simp
    · intro n'; simp only [upd]; by_cases hn : n' = id <;> simp [hn, intOf]

theorem sim_open {b : BSt σ} {st : St (σ × GDict)} (h : Inv full T bb0 b st) (id : Id)
    {hook : BSt σ → Except BCrash (BSt σ)} {hook' : St (σ × GDict) → St (σ × GDict)}
    (hh : ∀ b st, Inv full T bb0 b st → SimS full T bb0 (hook b) (.ok (hook' st))) :
    SimS full T bb0 (bOpen T id hook b) (.ok (openIfClosed id hook' st)) := by
  obtain ⟨b', h1, h2⟩ := inv_get h id "is_open"
  unfold bOpen openIfClosed
  rw [h1, h.rep.isOpen]
  show SimS full T bb0 (if truthy (mem b.bb T id "is_open") = true then pure b' else _) _
  by_cases ho : truthy (mem b.bb T id "is_open") = true
  · simp only [ho, if_true]; exact h2
  · simp only [ho]
    have hs : SimS full T bb0 (b'.set T id "is_open" (.other 1)) (.ok { st with isOpen := upd st.isOpen id true }) := by
      refine inv_set h2 id "is_open" (.other 1) _ rfl ?_ ?_ ?_ rfl ⟨rfl, rfl, rfl, rfl, rfl, rfl⟩
      · intro n'; simp only [upd]; by_cases hn : n' = id <;> simp [hn, truthy]
      · intro n'; simp
      · intro n'; simp
    exact Sim.elim hs (fun c e => by cases e) fun a b e hab => by cases e; exact hh a _ hab

theorem sim_execute (id : Id) {hook : BSt σ → Except BCrash (BSt σ)} {hook' : St (σ × GDict) → St (σ × GDict)}
    (hh : ∀ b st, Inv full T bb0 b st → SimS full T bb0 (hook b) (.ok (hook' st)))
    {body : BSt σ → Except BCrash (Status × BSt σ)} {body' : St (σ × GDict) → Res (σ × GDict)}
    (hb : SimRun full T bb0 body body') : SimRun full T bb0 (bExecute T id hook body) (execute id hook' body') := by
  intro b st h
  unfold bExecute execute
  refine Sim.elim (sim_open (inv_enter h id) id hh) (fun c e => by cases e) ?_
  rintro b0 _ e h0; cases e
  refine Sim.elim (hb _ _ (inv_count h0 id)) (fun c e => by simp only [e]) ?_
  rintro ⟨s, b1⟩ ⟨s', st1⟩ e ⟨rfl, h1⟩
  simp only [e]
  refine Sim.elim (sim_after h1 id s) (fun c e => by cases e) ?_
  rintro b2 _ e h2; cases e
  refine Sim.elim (sim_close h2 id s) (fun c e => by simp only [e]) ?_
  intro b3 st3 e h3
  rw [e]
  exact ⟨rfl, h3⟩

theorem costs_eq {b : BSt σ} {st : St (σ × GDict)} (h : Inv full T bb0 b st) (hf : full) : st.cost = b.cost :=
  (h.rep.stats hf).2.1

theorem sim_seq (self : Id) : ∀ {cs : List (BChild σ)} {ds : List (Child (σ × GDict))}, SimRuns full T bb0 cs ds →
    ∀ (x y : Int), (full → x = y) → SimRun full T bb0 (bSeq self cs x) (seqTick self ds y)
  | _, _, .nil, x, y, hxy => fun b st h => ⟨rfl, inv_cost h self x y hxy⟩
  | _, _, .cons (i := i) hc hcs, x, y, hxy => fun b st h => by
    unfold bSeq seqTick
    refine Sim.elim (hc b st h) (fun c e => by simp only [e]) ?_
    rintro ⟨s, b1⟩ ⟨s', st1⟩ e ⟨rfl, h1⟩
    simp only [e]
    have hx : full → x + b1.cost i = y + st1.cost i := fun hf => by rw [hxy hf, costs_eq h1 hf]
    dsimp only at h1
    split
    · exact sim_seq self hcs _ _ hx b1 st1 h1
    · exact ⟨rfl, inv_cost h1 self _ _ hx⟩

theorem add_cost {b : BSt σ} {st : St (σ × GDict)} (h : Inv full T bb0 b st) (self i : Id) :
    Inv full T bb0 { b with cost := upd b.cost self (b.cost self + b.cost i) }
      { st with cost := upd st.cost self (st.cost self + st.cost i) } :=
  inv_cost h self _ _ fun hf => by rw [costs_eq h hf]

theorem sim_pri (self : Id) : ∀ {cs : List (BChild σ)} {ds : List (Child (σ × GDict))}, SimRuns full T bb0 cs ds →
    SimRun full T bb0 (bPri self cs) (priTick self ds)
  | _, _, .nil => fun b st h => ⟨rfl, h⟩
  | _, _, .cons (i := i) hc hcs => fun b st h => by
    unfold bPri priTick
    refine Sim.elim (hc b st h) (fun c e => by simp only [e]) ?_
    rintro ⟨s, b1⟩ ⟨s', st1⟩ e ⟨rfl, h1⟩
    simp only [e]
    dsimp only at h1
    split
    · exact sim_pri self hcs _ _ (add_cost h1 self i)
    · exact ⟨rfl, add_cost h1 self i⟩

theorem sim_or (self : Id) : ∀ {cs : List (BChild σ)} {ds : List (Child (σ × GDict))}, SimRuns full T bb0 cs ds →
    ∀ acc, SimRun full T bb0 (bOr self cs acc) (orTick self ds acc)
  | _, _, .nil, acc => fun b st h => ⟨rfl, h⟩
  | _, _, .cons (i := i) hc hcs, acc => fun b st h => by
    unfold bOr orTick
    refine Sim.elim (hc b st h) (fun c e => by simp only [e]) ?_
    rintro ⟨s, b1⟩ ⟨s', st1⟩ e ⟨rfl, h1⟩
    simp only [e]
    exact sim_or self hcs _ _ _ (add_cost h1 self i)

theorem sim_comp (k : CKind) (self : Id) {cs : List (BChild σ)} {ds : List (Child (σ × GDict))}
    (hcs : SimRuns full T bb0 cs ds) : SimRun full T bb0 (bComp k self cs) (compTick k self ds) := by
  intro b st h
  cases k with
  | sequence => exact sim_seq self hcs 0 0 (fun _ => rfl) b st h
  | priority => exact sim_pri self hcs _ _ (inv_cost h self 0 0 fun _ => rfl)
  | orNode => exact sim_or self hcs _ _ _ (inv_cost h self 0 0 fun _ => rfl)
  | memSequence => exact rfl
  | memPriority => exact rfl

/-- (proof) -/
def Triple (full : Prop) (T : Nat) (bb0 : BB) (p : Option Status × Int × BSt σ) (q : Option Status × Int × St (σ × GDict)) :
    Prop := p.1 = q.1 ∧ p.2.1 = q.2.1 ∧ Inv full T bb0 p.2.2 q.2.2

theorem sim_loop (cont : Status → Bool) (m : Int) {run : BSt σ → Except BCrash (Status × BSt σ)}
    {run' : St (σ × GDict) → Res (σ × GDict)} (hr : SimRun full T bb0 run run') : ∀ (fuel : Nat) (last : Option Status)
    (i : Int) (b : BSt σ) (st : St (σ × GDict)), Inv full T bb0 b st →
    Sim (Triple full T bb0) (bLoop cont m run fuel last i b) (whileLoop cont m run' fuel last i st)
  | 0, last, i, b, st, h => by
    unfold bLoop whileLoop
    split
    · exact rfl
    · exact ⟨rfl, rfl, h⟩
  | fuel + 1, last, i, b, st, h => by
    unfold bLoop whileLoop
    split
    · refine Sim.elim (hr b st h) (fun c e => by simp only [e]) ?_
      rintro ⟨s, b1⟩ ⟨s', st1⟩ e ⟨rfl, h1⟩
      simp only [e]
      dsimp only at h1
      split
      · exact sim_loop cont m hr fuel _ _ _ _ h1
      · exact ⟨rfl, rfl, h1⟩
    · exact ⟨rfl, rfl, h⟩

theorem number_of (v : Val) : (∃ i, number v = .ok i ∧ intOf v = some i) ∨
    (number v = .error (.engine .typeError) ∧ intOf v = none) := by
  cases v <;> simp [number, intOf]

theorem sim_setI {b : BSt σ} {st : St (σ × GDict)} (h : Inv full T bb0 b st) (self : Id) (i : Int) :
    SimS full T bb0 (b.set T self "i" (.int i)) (.ok { st with cnt := upd st.cnt self (some i) }) := by
  refine inv_set h self "i" (.int i) _ rfl ?_ ?_ ?_ rfl ⟨rfl, rfl, rfl, rfl, rfl, rfl⟩
  · intro n'; simp
  · intro n'; simp only [upd]; by_cases hn : n' = self <;> simp [hn, intOf]
  · intro n'; simp

theorem sim_repeat (cont : Status → Bool) (init : Option Status) (fuel : Nat) (m : Int) (self : Id)
    {run : BSt σ → Except BCrash (Status × BSt σ)} {run' : St (σ × GDict) → Res (σ × GDict)}
    (hr : SimRun full T bb0 run run') :
    SimRun full T bb0 (bRepeat T cont init fuel m self run) (repeatTick cont init fuel m self run') := by
  intro b st h
  obtain ⟨b', h1, h2⟩ := inv_get h self "i"
  unfold bRepeat repeatTick
  rw [h1, h.rep.cnt]
  rcases number_of (mem b.bb T self "i") with ⟨i, hi, hi'⟩ | ⟨hi, hi'⟩
  · simp only [hi']
    show Sim _ (number (mem b.bb T self "i") >>= _) _
    rw [hi]
    refine Sim.elim (sim_loop cont m hr (loopFuel fuel m i) init i b' st h2) (fun c e => by simp only [e]) ?_
    rintro ⟨last, i', b1⟩ ⟨_, _, st1⟩ e ⟨rfl, rfl, h3⟩
    simp only [e]
    refine Sim.elim (sim_setI h3 self i') (fun c e => by cases e) ?_
    rintro b2 _ e h4; cases e
    cases last with
    | none => exact rfl
    | some s => exact ⟨rfl, h4⟩
  · simp only [hi']
    show Sim _ (number (mem b.bb T self "i") >>= _) _
    rw [hi]; exact rfl

theorem sim_deco (E : Env (σ × GDict) L) (fuel : Nat) (k : DKind) (self : Id)
    {run : BSt σ → Except BCrash (Status × BSt σ)} {run' : St (σ × GDict) → Res (σ × GDict)}
    (hr : SimRun full T bb0 run run') :
    SimRun full T bb0 (bDeco E T fuel k self run) (decoTick E fuel k self run') := by
  intro b st h
  cases k with
  | inverter =>
    unfold bDeco decoTick
    refine Sim.elim (hr b st h) (fun c e => by simp only [e]) ?_
    rintro ⟨s, b1⟩ ⟨s', st1⟩ e ⟨rfl, h1⟩
    simp only [e]
    exact ⟨rfl, h1⟩
  | limiter m =>
    obtain ⟨b', h1, h2⟩ := inv_get h self "i"
    unfold bDeco decoTick
    dsimp only
    rw [h1, h.rep.cnt]
    rcases number_of (mem b.bb T self "i") with ⟨i, hi, hi'⟩ | ⟨hi, hi'⟩
    · simp only [hi']
      show Sim _ (number (mem b.bb T self "i") >>= _) _
      rw [hi]
      show Sim _ (if i < m then _ else _) _
      split
      · refine Sim.elim (hr b' st h2) (fun c e => by simp only [e]) ?_
        rintro ⟨s, b1⟩ ⟨s', st1⟩ e ⟨rfl, h3⟩
        simp only [e]
        dsimp only at h3
        split
        · refine Sim.elim (sim_setI h3 self (i + 1)) (fun c e => by cases e) ?_
          rintro b2 _ e h4; cases e
          exact ⟨rfl, h4⟩
        · exact ⟨rfl, h3⟩
      · exact ⟨rfl, h2⟩
    · simp only [hi']
      show Sim _ (number (mem b.bb T self "i") >>= _) _
      rw [hi]; exact rfl
  | repeater m => exact sim_repeat _ _ fuel m self hr b st h
  | untilFailure m => exact sim_repeat _ _ fuel m self hr b st h
  | untilSuccess m => exact sim_repeat _ _ fuel m self hr b st h
  | maxTime m =>
    unfold bDeco decoTick
    dsimp only
    have hg := inv_global h (E.now b.global).2
    obtain ⟨b', h1, h2⟩ := inv_get hg self "startTime"
    rw [h1, h.rep.user, show st.start self = _ from hg.rep.start self]
    rcases number_of (mem (b.withGlobal (E.now b.global).2).bb T self "startTime") with ⟨i, hi, hi'⟩ | ⟨hi, hi'⟩
    · simp only [hi']
      show Sim _ (number (mem (b.withGlobal (E.now b.global).2).bb T self "startTime") >>= _) _
      rw [hi]
      refine Sim.elim (hr b' _ h2) (fun c e => by simp only [e]) ?_
      rintro ⟨s, b1⟩ ⟨s', st1⟩ e ⟨rfl, h3⟩
      simp only [e]
      dsimp only at h3
      split
      · exact ⟨rfl, h3⟩
      · exact ⟨rfl, h3⟩
    · simp only [hi']
      show Sim _ (number (mem (b.withGlobal (E.now b.global).2).bb T self "startTime") >>= _) _
      rw [hi]; exact rfl

mutual
theorem sim_exec (E : Env (σ × GDict) L) (fuel : Nat) : ∀ t : Tree L, SimRun full T bb0 (bExec E T fuel t) (exec E fuel t)
  | .leaf id a => by
    unfold bExec exec
    refine sim_execute id (hook := .ok) (hook' := fun st => st) (fun b st h => h) fun b st h => ?_
    simp only [h.rep.user]
    cases E.act a b.global with
    | error c => exact rfl
    | ok p => exact ⟨rfl, inv_global h p.2⟩
  | .comp k id cs => by
    unfold bExec exec
    exact sim_execute id (hook := .ok) (hook' := fun st => st) (fun b st h => h) (sim_comp k id (sim_execs E fuel cs))
  | .deco k id c => by
    unfold bExec exec
    exact sim_execute id (fun b st h => sim_hook E h k id) (sim_deco E fuel k id (sim_exec E fuel c))
  | .emptyDeco k id => by
    unfold bExec exec
    exact sim_execute id (fun b st h => sim_hook E h k id) fun b st h => ⟨rfl, h⟩
theorem sim_execs (E : Env (σ × GDict) L) (fuel : Nat) : ∀ cs : List (Tree L),
    SimRuns full T bb0 (bExecs E T fuel cs) (execs E fuel cs)
  | [] => by unfold bExecs execs; exact .nil
  | c :: cs => by unfold bExecs execs; exact .cons (sim_exec E fuel c) (sim_execs E fuel cs)
end

end

/-! ## One tick -/

theorem good_init : Good Blackboard.init := ⟨⟨0, by simp [Blackboard.init, put]⟩, by simp [Blackboard.init]⟩

/-- (proof) -/
def Pub (T : Nat) (bb1 : BB) (o n : Val) (bb : BB) : Prop :=
  Good bb ∧ bb.base = bb1.base ∧ (∀ T', T' ≠ T → bb.trees T' = bb1.trees T') ∧
  (∀ n' k, mem bb T n' k = mem bb1 T n' k) ∧
  ∀ k, treeMem bb T k = if k = "node_count" then n else if k = "open_nodes" then o else treeMem bb1 T k

theorem publish {T : Nat} {bb : BB} (h : Good bb) (o n : Val) : ∃ v bb1 bb2 bb3,
    Blackboard.get bb "open_nodes" (some T) none = .ok (v, bb1) ∧
    Blackboard.set bb1 "open_nodes" o (some T) none = .ok bb2 ∧
    Blackboard.set bb2 "node_count" n (some T) none = .ok bb3 ∧ Pub T bb o n bb3 := by
  have key : ∀ (bb1 : BB) (m : TreeMem) (d : Nat → Option Blackboard.Dict), bb1 = withTree bb T m → m.slot = .dict d →
      m.keys = ((bb.trees T).getD freshTree).keys → (∀ n' k, ((d n').bind fun nd => nd k).getD .none = mem bb T n' k) →
      ∃ bb2 bb3, Blackboard.set bb1 "open_nodes" o (some T) none = .ok bb2 ∧
        Blackboard.set bb2 "node_count" n (some T) none = .ok bb3 ∧ Pub T bb o n bb3 := by
    rintro bb1 m d rfl hd hk hm
    refine ⟨_, withTree bb T { m with keys := put (put m.keys "open_nodes" o) "node_count" n }, rfl, ?_, ?_⟩
    · simp only [Blackboard.set, resolve, getTree, withTree, writeLoc, if_true]
      simp only [show ("open_nodes" = "node_memory") = False by decide, show ("node_count" = "node_memory") = False by decide, if_false]
      congr 2
      funext T'; by_cases hT : T' = T <;> simp [hT]
    · refine ⟨⟨h.total, ?_⟩, rfl, fun T' hT => by simp [withTree, hT], fun n' k => ?_, fun k => ?_⟩
      · intro T' m' hm'
        simp only [withTree] at hm'
        split at hm'
        · obtain rfl := Option.some.inj hm'; exact ⟨d, hd⟩
        · exact h.slot T' m' hm'
      · rw [withTree_mem (m := { m with keys := put (put m.keys "open_nodes" o) "node_count" n }) (d := d) hd, hm]
      · simp only [treeMem, withTree, if_true, Option.getD_some, put, hk]
        by_cases h1 : k = "node_count"
        · simp [h1]
        · by_cases h2 : k = "open_nodes" <;> simp [h1, h2]
  cases ht : bb.trees T with
  | none =>
    obtain ⟨bb2, bb3, h2, h3, h4⟩ := key (withTree bb T freshTree) freshTree (fun _ => none) rfl rfl (by simp [ht])
      (fun n' k => by simp [mem, readLoc, ht])
    exact ⟨_, _, bb2, bb3, by simp only [Blackboard.get, resolve, getTree, ht]; rfl, h2, h3, h4⟩
  | some m =>
    obtain ⟨d, hd⟩ := h.slot T m ht
    obtain ⟨bb2, bb3, h2, h3, h4⟩ := key bb m d
      (by
        cases bb with | mk base trees =>
        simp only [withTree]; congr 1
        funext T'; by_cases hT : T' = T
        · subst hT; simpa using ht
        · simp [hT]) hd (by simp [ht]) (fun n' k => (mem_eq ht hd n' k).symm)
    exact ⟨_, _, bb2, bb3, by simp only [Blackboard.get, resolve, getTree, ht]; rfl, h2, h3, h4⟩

/-- (proof) What a call must do. -/
structure Done (enc : List Id → Nat) (full : Prop) (T : Nat) (bb0 : BB) (p : Status × BSt σ)
    (q : Status × St (σ × GDict)) : Prop where
  status : p.1 = q.1
  rep : Rep full T p.2 q.2
  good : Good p.2.bb
  other : ∀ T', T' ≠ T → p.2.bb.trees T' = bb0.trees T'
  keys : ∀ k, treeMem p.2.bb T k =
    if k = "node_count" then .int p.2.count else if k = "open_nodes" then .other (enc p.2.stack) else treeMem bb0 T k

theorem ok_bind {α β : Type} (a : α) (k : α → Except BCrash β) : ((Except.ok a : Except BCrash α) >>= k) = k a := rfl

theorem sim_tick (enc : List Id → Nat) (E : Env (σ × GDict) L) (fuel : Nat) (full : Prop) (T : Nat) (t : Tree L) (b : BSt σ)
    (st : St (σ × GDict)) (hg : Good b.bb)
    (hr : Rep full T { b with stack := [], count := 0 } { st with stack := [], count := 0 }) :
    Sim (Done enc full T b.bb) (bTick enc E fuel T t b) (treeTick E fuel t st) := by
  unfold bTick treeTick
  refine Sim.elim (sim_exec (full := full) (bb0 := b.bb) E fuel t _ _ ⟨hr, .refl hg⟩) (fun c e => e ▸ rfl) ?_
  rintro ⟨s, b1⟩ ⟨s', st1⟩ e ⟨rfl, hi⟩
  rw [e]
  dsimp only at hi
  obtain ⟨v, bb1, bb2, bb3, h1, h2, h3, h4, h5, h6, h7, h8⟩ :=
    publish (T := T) hi.fr.good (.other (enc b1.stack)) (.int b1.count)
  have h1' : lift (Blackboard.get b1.bb "open_nodes" (some T) none) = .ok (v, bb1) := by rw [h1]; rfl
  have h2' : lift (Blackboard.set bb1 "open_nodes" (.other (enc b1.stack)) (some T) none) = .ok bb2 := by rw [h2]; rfl
  have h3' : lift (Blackboard.set bb2 "node_count" (.int b1.count) (some T) none) = .ok bb3 := by rw [h3]; rfl
  simp only [h1', h2', h3', ok_bind]
  show Done enc full T b.bb (s, { b1 with bb := bb3 }) (s, st1)
  refine ⟨rfl, ⟨?_, ?_, ?_, ?_, ?_, ?_⟩, h4, fun T' hT => ?_, fun k => ?_⟩
  · simp only [BSt.global, h5]; exact hi.rep.user
  · intro n; simp only [h7]; exact hi.rep.isOpen n
  · intro n; simp only [h7]; exact hi.rep.cnt n
  · intro n; simp only [h7]; exact hi.rep.start n
  · exact hi.rep.stack
  · intro hf; have := hi.rep.stats hf; simp only [h5]; exact this
  · exact (h6 T' hT).trans (hi.fr.other T' hT)
  · rw [h8]
    have : treeMem b1.bb T k = treeMem b.bb T k := by simp only [treeMem, hi.fr.keys]
    rw [this]

theorem rep_view {T : Nat} {b : BSt σ} (hg : Good b.bb) : Rep True T b (view T b) := by
  refine ⟨rfl, fun _ => rfl, fun _ => rfl, fun _ => rfl, rfl, fun _ => ?_⟩
  obtain ⟨c, hc⟩ := hg.total
  simp [view, hc, intOf]

theorem rep_eq {T : Nat} {b : BSt σ} {st : St (σ × GDict)} (h : Rep True T b st) (hn : st.nTicks = fun _ => 0) :
    st = view T b := by
  obtain ⟨h1, h2, h3, h4, h5, h6⟩ := h
  obtain ⟨a1, a2, a3, a4, a5, a6⟩ := h6 trivial
  cases st
  simp only [view]
  simp only at *
  congr 1
  · funext n; exact h2 n
  · funext n; exact h3 n
  · funext n; exact h4 n
  · simp [a1, intOf]

end Verif.BT.Board
