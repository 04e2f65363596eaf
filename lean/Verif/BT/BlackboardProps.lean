import Verif.BT.Blackboard
/-!
# C11: the blackboard is a flat map from (scope, key) to the last written value
-/
namespace Verif.BT.Blackboard

/-! ## Specification -/

/-- The three kinds of scope. -/
inductive Scope where
  | global | tree (t : Nat) | node (t n : Nat)
  deriving DecidableEq

/-- The scope that a pair of arguments means: without a tree, the node is ignored. -/
def scopeOf : Option Nat → Option Nat → Scope
  | Option.none, _ => .global
  | some t, Option.none => .tree t
  | some t, some n => .node t n

/-- The abstract blackboard. -/
abbrev Flat := Scope → Key → Option Val

/-- An abstract write. -/
def Flat.write (f : Flat) (s : Scope) (k : Key) (v : Val) : Flat :=
  fun s' k' => if s' = s ∧ k' = k then some v else f s' k'

/-- The abstract blackboard before any call: nothing but `TotalCost = 0`. -/
def Flat.init : Flat := fun s k => if s = .global ∧ k = "TotalCost" then some (.int 0) else Option.none

/-- What one call does to the abstract blackboard. -/
def Flat.step (f : Flat) : Op → Except Err (Val × Flat)
  | .set k v ts ns => .ok (.none, f.write (scopeOf ts ns) k v)
  | .get k ts ns => .ok ((f (scopeOf ts ns) k).getD .none, f)
  | .inc k v ts ns =>
    match f (scopeOf ts ns) k, v with
    | Option.none, _ => .error .keyError
    | some (.int a), .int b => .ok (.none, f.write (scopeOf ts ns) k (.int (a + b)))
    | some (.int a), .flt b => .ok (.none, f.write (scopeOf ts ns) k (.flt (a + b)))
    | some (.int _), _ => .error .typeError
    | some _, _ => .error .quit

/-- A history of abstract calls. -/
def Flat.run (f : Flat) : List Op → Except Err (List Val)
  | [] => .ok []
  | o :: os =>
    match f.step o with
    | .error e => .error e
    | .ok (v, f1) => (f1.run os).map (v :: ·)

/-- The scope and key of a call. -/
def Op.at : Op → Scope × Key
  | .set k _ ts ns => (scopeOf ts ns, k)
  | .get k ts ns => (scopeOf ts ns, k)
  | .inc k _ ts ns => (scopeOf ts ns, k)

/-- The call does not touch the two keys the blackboard uses for itself in a *tree* scope. -/
def Op.Plain (o : Op) : Prop :=
  ∀ t, o.at ≠ (.tree t, "node_memory") ∧ o.at ≠ (.tree t, "open_nodes")

/-! ## Refinement -/

/-- Abstraction relation. -/
structure Abs (bb : BB) (f : Flat) : Prop where
  base : ∀ k, f .global k = bb.base k
  slot : ∀ t m, bb.trees t = some m → ∃ d, m.slot = .dict d
  tree : ∀ t k, k ≠ "node_memory" → k ≠ "open_nodes" → f (.tree t) k = readLoc bb (.tree t) k
  node : ∀ t n k, f (.node t n) k = readLoc bb (.node t n) k

def locOf : Option Nat → Option Nat → Loc
  | Option.none, _ => .base
  | some t, Option.none => .tree t
  | some t, some n => .node t n

theorem getTree_abs {bb : BB} {f : Flat} (h : Abs bb f) (t : Nat) :
    Abs (getTree bb t).1 f ∧ (getTree bb t).1.trees t = some (getTree bb t).2 := by
  unfold getTree
  cases hm : bb.trees t with
  | some m => exact ⟨h, hm⟩
  | none =>
    refine ⟨⟨h.base, ?_, ?_, ?_⟩, by simp⟩
    · intro t' m' hm'
      simp only at hm'
      split at hm'
      · cases hm'; exact ⟨_, rfl⟩
      · exact h.slot _ _ hm'
    · intro t' k h1 h2
      rw [h.tree t' k h1 h2]
      simp only [readLoc]
      by_cases ht : t' = t
      · subst ht; simp [hm, freshTree, put, h1, h2]
      · simp [ht]
    · intro t' n k
      rw [h.node]
      simp only [readLoc]
      by_cases ht : t' = t
      · subst ht; simp [hm, freshTree]
      · simp [ht]

theorem resolve_abs {bb : BB} {f : Flat} (h : Abs bb f) (ts ns : Option Nat) :
    ∃ bb', resolve bb ts ns = .ok (bb', locOf ts ns) ∧ Abs bb' f ∧
      (∀ t, ts = some t → ∃ m, bb'.trees t = some m ∧
        ∀ n, ns = some n → ∃ d nd, m.slot = .dict d ∧ d n = some nd) := by
  cases ts with
  | none => exact ⟨bb, rfl, h, by simp⟩
  | some t =>
    obtain ⟨h1, h2⟩ := getTree_abs h t
    cases ns with
    | none => exact ⟨_, rfl, h1, by intro t' ht'; cases ht'; exact ⟨_, h2, by simp⟩⟩
    | some n =>
      obtain ⟨d, hd⟩ := h1.slot _ _ h2
      simp only [resolve, hd, locOf]
      cases hn : d n with
      | some nd =>
        exact ⟨_, rfl, h1, by intro t' ht'; cases ht'; exact ⟨_, h2, by intro n' hn'; cases hn'; exact ⟨d, nd, hd, hn⟩⟩⟩
      | none =>
        refine ⟨_, rfl, ⟨h1.base, ?_, ?_, ?_⟩, ?_⟩
        · intro t' m' hm'
          simp only at hm'
          split at hm'
          · cases hm'; exact ⟨_, rfl⟩
          · exact h1.slot _ _ hm'
        · intro t' k hk1 hk2
          rw [h1.tree t' k hk1 hk2]
          simp only [readLoc]
          by_cases ht : t' = t
          · subst ht; simp [h2, hk1]
          · simp [ht]
        · intro t' n' k
          rw [h1.node]
          simp only [readLoc]
          by_cases ht : t' = t
          · subst ht
            by_cases hnn : n' = n
            · subst hnn; simp [h2, hd, hn]
            · simp [h2, hd, hnn]
          · simp [ht]
        · intro t' ht'; cases ht'
          refine ⟨_, by simp; rfl, ?_⟩
          intro n' hn'; cases hn'
          exact ⟨_, _, rfl, by simp; rfl⟩

theorem readLoc_abs {bb : BB} {f : Flat} (h : Abs bb f) (ts ns : Option Nat) (k : Key)
    (hp : ∀ t, (scopeOf ts ns, k) ≠ (Scope.tree t, "node_memory") ∧ (scopeOf ts ns, k) ≠ (Scope.tree t, "open_nodes")) :
    readLoc bb (locOf ts ns) k = f (scopeOf ts ns) k := by
  cases ts with
  | none => exact (h.base k).symm
  | some t =>
    cases ns with
    | none =>
      have := hp t
      simp [scopeOf] at this
      exact (h.tree t k this.1 this.2).symm
    | some n => exact (h.node t n k).symm

theorem writeLoc_abs {bb : BB} {f : Flat} (h : Abs bb f) (ts ns : Option Nat) (k : Key) (v : Val)
    (hp : ∀ t, (scopeOf ts ns, k) ≠ (Scope.tree t, "node_memory") ∧ (scopeOf ts ns, k) ≠ (Scope.tree t, "open_nodes"))
    (hex : ∀ t, ts = some t → ∃ m, bb.trees t = some m ∧
        ∀ n, ns = some n → ∃ d nd, m.slot = .dict d ∧ d n = some nd) :
    Abs (writeLoc bb (locOf ts ns) k v) (f.write (scopeOf ts ns) k v) := by
  cases ts with
  | none =>
    refine ⟨?_, h.slot, ?_, ?_⟩
    · intro k'; simp [Flat.write, scopeOf, locOf, writeLoc, put, h.base]
    · intro t k' h1 h2; simp [Flat.write, scopeOf]; rw [h.tree t k' h1 h2]; rfl
    · intro t n k'; simp [Flat.write, scopeOf]; rw [h.node]; rfl
  | some t =>
    obtain ⟨m, hm, hn⟩ := hex t rfl
    obtain ⟨d0, hd0⟩ := h.slot _ _ hm
    cases ns with
    | none =>
      have hk := hp t
      simp [scopeOf] at hk
      simp only [locOf, writeLoc, hm, scopeOf, if_neg hk.1]
      refine ⟨?_, ?_, ?_, ?_⟩
      · intro k'; simp [Flat.write, h.base]
      · intro t' m' hm'
        simp only at hm'
        split at hm'
        · cases hm'; exact ⟨d0, hd0⟩
        · exact h.slot _ _ hm'
      · intro t' k' h1 h2
        have := h.tree t' k' h1 h2
        simp only [Flat.write, readLoc, Scope.tree.injEq] at this ⊢
        by_cases ht : t' = t
        · subst ht
          by_cases hkk : k' = k
          · subst hkk; simp [h1, put]
          · simp [h1, put, hkk, this, hm]
        · simp [ht, this]
      · intro t' n k'
        have := h.node t' n k'
        simp only [Flat.write, readLoc] at this ⊢
        by_cases ht : t' = t
        · subst ht; simp [this, hm]
        · simp [ht, this]
    | some n =>
      obtain ⟨d, nd, hd, hdn⟩ := hn n rfl
      simp only [locOf, writeLoc, hm, hd, hdn, scopeOf]
      refine ⟨?_, ?_, ?_, ?_⟩
      · intro k'; simp [Flat.write, h.base]
      · intro t' m' hm'
        simp only at hm'
        split at hm'
        · cases hm'; exact ⟨_, rfl⟩
        · exact h.slot _ _ hm'
      · intro t' k' h1 h2
        have := h.tree t' k' h1 h2
        simp only [Flat.write, readLoc] at this ⊢
        by_cases ht : t' = t
        · subst ht; simp [h1, this, hm]
        · simp [ht, this]
      · intro t' n' k'
        have := h.node t' n' k'
        simp only [Flat.write, readLoc, Scope.node.injEq] at this ⊢
        by_cases ht : t' = t
        · subst ht
          by_cases hnn : n' = n
          · subst hnn
            by_cases hkk : k' = k
            · subst hkk; simp [put]
            · simp [put, hkk, this, hm, hd, hdn]
          · simp [hnn, this, hm, hd]
        · simp [ht, this]

theorem init_abs : Abs init Flat.init where
  base k := by simp [Flat.init, init, put]
  slot t m h := by simp [init] at h
  tree t k _ _ := by simp [Flat.init, init, readLoc]
  node t n k := by simp [Flat.init, init, readLoc]

theorem step_abs {bb : BB} {f : Flat} (h : Abs bb f) (o : Op) (hp : o.Plain) :
    (∃ e, step bb o = .error e ∧ f.step o = .error e) ∨
    (∃ v bb' f', step bb o = .ok (v, bb') ∧ f.step o = .ok (v, f') ∧ Abs bb' f') := by
  cases o with
  | set k v ts ns =>
    obtain ⟨bb', hr, h1, hex⟩ := resolve_abs h ts ns
    exact .inr ⟨.none, _, _, by simp [step, set, hr, Except.map], rfl, writeLoc_abs h1 ts ns k v hp hex⟩
  | get k ts ns =>
    obtain ⟨bb', hr, h1, hex⟩ := resolve_abs h ts ns
    exact .inr ⟨(f (scopeOf ts ns) k).getD .none, bb', f, by simp only [step, get, hr, readLoc_abs h1 ts ns k hp], by simp only [Flat.step], h1⟩
  | inc k v ts ns =>
    obtain ⟨bb', hr, h1, hex⟩ := resolve_abs h ts ns
    have hrd := readLoc_abs h1 ts ns k hp
    cases hf : f (scopeOf ts ns) k with
    | none => exact .inl ⟨.keyError, by simp [step, inc, hr, hrd, hf, Except.map], by simp [Flat.step, hf]⟩
    | some x =>
      cases x with
      | int a =>
        cases v with
        | int b => exact .inr ⟨.none, writeLoc bb' (locOf ts ns) k (.int (a + b)), f.write (scopeOf ts ns) k (.int (a + b)), by simp [step, inc, hr, hrd, hf, addVal, Except.map], by simp [Flat.step, hf],
            writeLoc_abs h1 ts ns k _ hp hex⟩
        | flt b => exact .inr ⟨.none, writeLoc bb' (locOf ts ns) k (.flt (a + b)), f.write (scopeOf ts ns) k (.flt (a + b)), by simp [step, inc, hr, hrd, hf, addVal, Except.map], by simp [Flat.step, hf],
            writeLoc_abs h1 ts ns k _ hp hex⟩
        | none => exact .inl ⟨.typeError, by simp [step, inc, hr, hrd, hf, addVal, Except.map], by simp [Flat.step, hf]⟩
        | other n => exact .inl ⟨.typeError, by simp [step, inc, hr, hrd, hf, addVal, Except.map], by simp [Flat.step, hf]⟩
        | emptyList => exact .inl ⟨.typeError, by simp [step, inc, hr, hrd, hf, addVal, Except.map], by simp [Flat.step, hf]⟩
        | nodeMemoryDict => exact .inl ⟨.typeError, by simp [step, inc, hr, hrd, hf, addVal, Except.map], by simp [Flat.step, hf]⟩
      | none => exact .inl ⟨.quit, by simp [step, inc, hr, hrd, hf, Except.map], by simp [Flat.step, hf]⟩
      | flt q => exact .inl ⟨.quit, by simp [step, inc, hr, hrd, hf, Except.map], by simp [Flat.step, hf]⟩
      | other q => exact .inl ⟨.quit, by simp [step, inc, hr, hrd, hf, Except.map], by simp [Flat.step, hf]⟩
      | emptyList => exact .inl ⟨.quit, by simp [step, inc, hr, hrd, hf, Except.map], by simp [Flat.step, hf]⟩
      | nodeMemoryDict => exact .inl ⟨.quit, by simp [step, inc, hr, hrd, hf, Except.map], by simp [Flat.step, hf]⟩

theorem run_abs : ∀ (os : List Op) (bb : BB) (f : Flat), Abs bb f → (∀ o ∈ os, o.Plain) →
    (run bb os).map Prod.fst = f.run os
  | [], bb, f, _, _ => rfl
  | o :: os, bb, f, h, hp => by
    simp only [run, Flat.run]
    rcases step_abs h o (hp o (by simp)) with ⟨e, h1, h2⟩ | ⟨v, bb', f', h1, h2, h3⟩
    · rw [h1, h2]; rfl
    · rw [h1, h2]
      have ih := run_abs os bb' f' h3 fun o ho => hp o (by simp [ho])
      simp only
      rw [← ih]
      cases run bb' os <;> rfl

/-! ## The property -/

/-- C11 as far as it holds: any history of calls that avoids the two reserved tree-scope keys returns exactly what
the flat map returns, exceptions included.
Missing for the full C11: `node_memory` and `open_nodes` in a tree scope (violations below). -/
theorem C11_blackboard_flat_partial (os : List Op) (hp : ∀ o ∈ os, o.Plain) :
    (run init os).map Prod.fst = Flat.init.run os := run_abs os init Flat.init init_abs hp

/-- The flat map itself does what C11 says: reading gives the value just written … -/
theorem C11_flat_read_own_write (f : Flat) (s : Scope) (k : Key) (v : Val) : f.write s k v s k = some v := by
  simp [Flat.write]
/-- … and a write changes nothing else. -/
theorem C11_flat_isolated (f : Flat) (s s' : Scope) (k k' : Key) (v : Val) (h : s' ≠ s ∨ k' ≠ k) :
    f.write s k v s' k' = f s' k' := by
  simp only [Flat.write]; rw [if_neg]; rintro ⟨h1, h2⟩; rcases h with h | h <;> contradiction

/-- Whether a call writes to scope `s`, key `k`. -/
def Op.Writes (o : Op) (s : Scope) (k : Key) : Prop :=
  match o with
  | .get _ _ _ => False
  | .set k' _ ts ns => scopeOf ts ns = s ∧ k' = k
  | .inc k' _ ts ns => scopeOf ts ns = s ∧ k' = k

theorem flat_run_keeps : ∀ (os : List Op) (f : Flat) (s : Scope) (k : Key), (∀ o ∈ os, ¬ o.Writes s k) →
    ∀ (last : Op) (ts ns : Option Nat), scopeOf ts ns = s → last = .get k ts ns →
    ∀ vs, f.run (os ++ [last]) = .ok vs → vs.getLast? = some ((f s k).getD .none)
  | [], f, s, k, _, last, ts, ns, hs, hl, vs, h => by
    subst hl
    simp only [List.nil_append, Flat.run, Flat.step, Except.map, Except.ok.injEq, hs] at h
    rw [← h]; rfl
  | o :: os, f, s, k, hw, last, ts, ns, hs, hl, vs, h => by
    simp only [List.cons_append, Flat.run] at h
    cases hst : f.step o with
    | error e => rw [hst] at h; cases h
    | ok p =>
      obtain ⟨v, f1⟩ := p
      rw [hst] at h; simp only at h
      cases hr : f1.run (os ++ [last]) with
      | error e => rw [hr] at h; cases h
      | ok vs' =>
        rw [hr] at h; simp only [Except.map, Except.ok.injEq] at h
        have ih := flat_run_keeps os f1 s k (fun o ho => hw o (by simp [ho])) last ts ns hs hl vs' hr
        have hno := hw o (by simp)
        have hf : f1 s k = f s k := by
          cases o with
          | get k' ts' ns' => simp only [Flat.step, Except.ok.injEq, Prod.mk.injEq] at hst; rw [← hst.2]
          | set k' v' ts' ns' =>
            simp only [Op.Writes] at hno
            simp only [Flat.step, Except.ok.injEq, Prod.mk.injEq] at hst
            rw [← hst.2]; apply C11_flat_isolated
            by_cases hc : scopeOf ts' ns' = s
            · exact .inr fun hk => hno ⟨hc, hk.symm⟩
            · exact .inl fun hc' => hc hc'.symm
          | inc k' v' ts' ns' =>
            simp only [Op.Writes] at hno
            have hne : s ≠ scopeOf ts' ns' ∨ k ≠ k' := by
              by_cases hc : scopeOf ts' ns' = s
              · exact .inr fun hk => hno ⟨hc, hk.symm⟩
              · exact .inl fun hc' => hc hc'.symm
            simp only [Flat.step] at hst
            split at hst <;> first | (cases hst; done) | skip
            all_goals
              simp only [Except.ok.injEq, Prod.mk.injEq] at hst
              rw [← hst.2]; exact C11_flat_isolated _ _ _ _ _ _ hne
        rw [← hf, ← ih, ← h]
        cases vs' with
        | nil => simp at ih
        | cons a l => simp [List.getLast?_cons_cons]

theorem flat_run_append : ∀ (os os' : List Op) (f : Flat) vs, f.run (os ++ os') = .ok vs →
    ∃ (f' : Flat) (vs1 vs2 : List Val), vs = vs1 ++ vs2 ∧ f'.run os' = .ok vs2 ∧ vs1.length = os.length
  | [], os', f, vs, h => ⟨f, [], vs, rfl, h, rfl⟩
  | o :: os, os', f, vs, h => by
    simp only [List.cons_append, Flat.run] at h
    cases hst : f.step o with
    | error e => rw [hst] at h; cases h
    | ok p =>
      rw [hst] at h; simp only at h
      cases hr : p.2.run (os ++ os') with
      | error e => rw [hr] at h; cases h
      | ok vs' =>
        rw [hr] at h; simp only [Except.map, Except.ok.injEq] at h
        obtain ⟨f', vs1, vs2, h1, h2, h3⟩ := flat_run_append os os' p.2 vs' hr
        exact ⟨f', p.1 :: vs1, vs2, by rw [← h, h1]; rfl, h2, by simp [h3]⟩

/-- C11 in terms of the API alone: after any history `before`, a write of `v` to a key of a scope, and any calls
`between` that do not write to that key of that scope, a read of it returns `v`. -/
theorem C11_read_returns_last_write_partial (before between : List Op) (k : Key) (v : Val)
    (ts ns ts' ns' : Option Nat) (hsame : scopeOf ts' ns' = scopeOf ts ns)
    (hp : ∀ o ∈ before ++ .set k v ts ns :: between ++ [.get k ts' ns'], o.Plain)
    (hb : ∀ o ∈ between, ¬ o.Writes (scopeOf ts ns) k) {vs : List Val} {bb : BB}
    (h : run init (before ++ .set k v ts ns :: between ++ [.get k ts' ns']) = .ok (vs, bb)) :
    vs.getLast? = some v := by
  have h1 := C11_blackboard_flat_partial _ hp
  rw [h] at h1
  simp only [Except.map] at h1
  rw [List.append_assoc] at h1
  obtain ⟨f', vs1, vs2, e1, e2, _⟩ := flat_run_append before _ _ _ h1.symm
  simp only [List.cons_append, Flat.run, Flat.step] at e2
  cases hr : (f'.write (scopeOf ts ns) k v).run (between ++ [.get k ts' ns']) with
  | error e => rw [hr] at e2; cases e2
  | ok vs3 =>
    rw [hr] at e2
    simp only [Except.map, Except.ok.injEq] at e2
    have h3 := flat_run_keeps between _ _ k hb (.get k ts' ns') ts' ns' hsame rfl vs3 hr
    rw [C11_flat_read_own_write] at h3
    rw [e1, ← e2]
    simp only [Option.getD_some] at h3
    cases vs3 with
    | nil => simp at h3
    | cons a l => rw [List.getLast?_append]; simp [List.getLast?_cons_cons, h3]

/-- Non-vacuity: writes to the same key in four scopes and an increment, then five reads. -/
def demoOps : List Op :=
  [.set "i" (.int 1) (some 7) (some 3), .set "i" (.int 2) (some 7) (some 4), .set "i" (.int 3) (some 7) Option.none,
   .set "i" (.int 4) Option.none (some 3), .inc "i" (.int 10) (some 7) (some 3),
   .get "i" (some 7) (some 3), .get "i" (some 7) (some 4), .get "i" (some 7) Option.none,
   .get "i" Option.none Option.none, .get "x" (some 7) (some 3)]
example : (∀ o ∈ demoOps, o.Plain) ∧
    (run init demoOps).map Prod.fst = .ok [.none, .none, .none, .none, .none, .int 11, .int 2, .int 3, .int 4, .none] := by
  constructor
  · simp [demoOps, Op.Plain, Op.at, scopeOf]
  · rfl

/-- C11 is false of the code (1): writing the tree-scope key `node_memory` destroys every node's memory of that tree:
a later read in a node scope raises although that scope was never written to. -/
theorem C11_node_memory_violation :
    (run init [.set "i" (.int 1) (some 0) (some 1), .set "node_memory" (.int 5) (some 0) Option.none,
      .get "i" (some 0) (some 1)]).map Prod.fst = .error .typeError := rfl

/-- C11 is false of the code (2): `open_nodes` of a tree reads as a list although it was never written. -/
theorem C11_open_nodes_violation (t : Nat) :
    (run init [.get "open_nodes" (some t) Option.none]).map Prod.fst = .ok [.emptyList] := by
  simp [run, step, get, resolve, getTree, init, readLoc, freshTree, put, Except.map]

/-- C11 is false of the code (3): `node_memory` of a tree reads as a dictionary although it was never written; once
written, it reads as the value written. -/
theorem C11_node_memory_read_violation (t n : Nat) (v w : Val) :
    (run init [.set "i" w (some t) (some n), .get "node_memory" (some t) Option.none]).map Prod.fst =
      .ok [.none, .nodeMemoryDict] ∧
    (run init [.set "node_memory" v (some t) Option.none, .get "node_memory" (some t) Option.none]).map Prod.fst =
      .ok [.none, v] := by
  constructor <;>
    simp [run, step, get, set, resolve, getTree, init, readLoc, writeLoc, freshTree, put, Except.map]

/-- A float added to an int counter makes the *next* increment terminate the program: a non-integer `Cost` stops the
solver at the second node execution (`TotalCost`). For every counter key in the global scope. -/
theorem C11_float_increment_quits (bb : BB) (k : Key) (a : Int) (q : Rat) (v : Val) (h : bb.base k = some (.int a)) :
    (run bb [.inc k (.flt q) Option.none Option.none, .inc k v Option.none Option.none]).map Prod.fst
      = .error .quit := by
  simp [run, step, inc, resolve, readLoc, h, addVal, writeLoc, put, Except.map]

example : init.base "TotalCost" = some (.int 0) := rfl

end Verif.BT.Blackboard
