import Verif.Solver.Steps
/-! A whole run of the tree as a sequence of steps. -/
namespace Verif.Solver
open Verif.Leaf Verif.Eqn Verif.Sol Verif.Sym
open Verif.BT hiding Tree

/-- assigner: SUCCESS, only counter and current unknown change. -/
theorem assigner_cases {s s' : LS} {st : Status} (h : assigner s = .ok (st, s')) :
    st = .success ∧ (∃ c x, x ∈ s.w.unknowns ∧ s' = { s with counter := c, curr := x } ∧
      (s.solved x = false ∨ s.w.unknowns.head? = some x)) := by
  unfold assigner at h
  have key : ∀ (l : List String) (i : Nat) (r : Nat × String), assignFind s i l = some r → r.2 ∈ l ∧ s.solved r.2 = false := by
    intro l
    induction l with
    | nil => intro i r h; cases h
    | cons y l ih =>
      intro i r h
      rw [assignFind] at h
      split at h
      · exact ⟨List.mem_cons_of_mem _ (ih _ _ h).1, (ih _ _ h).2⟩
      · next hy => cases h; exact ⟨List.mem_cons_self, by simpa using hy⟩
  split at h
  · next c x hx =>
    cases h
    have := key _ _ _ hx
    exact ⟨rfl, c, x, List.mem_of_mem_drop this.1, rfl, .inl this.2⟩
  · split at h
    · cases h
    · next x l hl => cases h; exact ⟨rfl, 0, x, by rw [hl]; simp, rfl, .inr (by rw [hl]; rfl)⟩

theorem sumId_cases {P : Sympy} {s s' : LS} {st : Status} (h : sumId P s = .ok (st, s')) : st = .success ∧ s' = s := by
  unfold sumId at h
  split at h
  · cases h
  · cases h; exact ⟨rfl, rfl⟩

/-- One pass through the child of the inner loop: the assigner, then the work tools. -/
theorem attempt_cases {P : Sympy} {s s' : LS} {st : Status} (h : den (env P) 0 attempt s = .ok (st, s')) :
    ∃ s1, assigner s = .ok (.success, s1) ∧ den (env P) 0 worktools s1 = .ok (st, s') := by
  rw [attempt, sq, lf, lf, den, dens, dens, dens, dens, denComp] at h
  rcases denSeq_cons h with ⟨h1, hne⟩ | ⟨s1, h1, h⟩
  · exact absurd (assigner_cases (denLeaf_ok.mp h1)).1 hne
  have a1 := denLeaf_ok.mp h1
  rcases denSeq_cons h with ⟨h1, hne⟩ | ⟨s2, h1, h⟩
  · exact absurd (sumId_cases (denLeaf_ok.mp h1)).1 hne
  have he := (sumId_cases (denLeaf_ok.mp h1)).2
  refine ⟨s1, a1, ?_⟩
  rw [he] at h
  rcases denSeq_cons h with ⟨h3, hne⟩ | ⟨s3, h3, h⟩
  · exact h3
  · simp only [denSeq] at h; cases h; exact h3

/-- Who can be the current unknown when the work tools are ticked: an unsolved one or the first of the list. -/
def CurrOk (s : LS) : Prop := s.curr ∈ s.w.unknowns ∧ (s.solved s.curr = false ∨ s.w.unknowns.head? = some s.curr)

/-- A step of a run. -/
inductive Step (P : Sympy) : LS → LS → Prop where
  | assign {s s'} : assigner s = .ok (.success, s') → Step P s s'
  | work {s s' st} : CurrOk s → den (env P) 0 worktools s = .ok (st, s') → Step P s s'
  | sub {s s'} : subTransform P s = .ok (.success, s') → Step P s s'
  | upd {s s'} : updateLeaf P s = .ok (.success, s') → Step P s s'

/-- The steps of a run, in their order. -/
inductive Path (P : Sympy) : LS → LS → Prop where
  | refl {s} : Path P s s
  | tail {a b c} : Path P a b → Step P b c → Path P a c

theorem Path.one {P : Sympy} {a b : LS} (h : Step P a b) : Path P a b := .tail .refl h
theorem Path.trans {P : Sympy} {a b c : LS} (h : Path P a b) (h' : Path P b c) : Path P a c := by
  induction h' with
  | refl => exact h
  | tail _ hs ih => exact .tail ih hs

theorem Path.inv {P : Sympy} {I : LS → Prop} (hI : ∀ a b, I a → Step P a b → I b) {a b : LS} (h : Path P a b) (ha : I a) : I b := by
  induction h with
  | refl => exact ha
  | tail _ hs ih => exact hI _ _ ih hs

/-- An invariant together with a relation to the start. -/
theorem Path.rel {P : Sympy} {I : LS → Prop} {R : LS → LS → Prop} (hI : ∀ a b, I a → Step P a b → I b)
    (hr : ∀ a, R a a) (ht : ∀ a b c, R a b → R b c → R a c) (hR : ∀ a b, I a → Step P a b → R a b) {a b : LS}
    (h : Path P a b) (ha : I a) : R a b := by
  induction h with
  | refl => exact hr _
  | tail h' hs ih => exact ht _ _ _ ih (hR _ _ (h'.inv hI ha) hs)

/-- Flags and the list of unknowns are the same. -/
def SameFlags (s s' : LS) : Prop := s'.w.unknowns = s.w.unknowns ∧ ∀ n, s'.solved n = s.solved n

theorem SameFlags.trans {a b c : LS} (h : SameFlags a b) (h' : SameFlags b c) : SameFlags a c :=
  ⟨h'.1.trans h.1, fun n => (h'.2 n).trans (h.2 n)⟩

theorem Runs.path {P : Sympy} {f : LS → DRes LS} (hf : ∀ u u' st, f u = .ok (st, u') → Path P u u') {u u' : LS} {l : List LS}
    (h : Runs f u l u') : Path P u u' := by
  induction h with
  | nil => exact .refl
  | cons h1 _ ih => exact (hf _ _ _ h1).trans ih

theorem attempt_path {P : Sympy} {s s' : LS} {st : Status} (h : den (env P) 0 attempt s = .ok (st, s')) : Path P s s' := by
  obtain ⟨s1, h1, h2⟩ := attempt_cases h
  refine .tail (.one (.assign h1)) (.work ?_ h2)
  obtain ⟨-, c, x, hx, rfl, ho⟩ := assigner_cases h1
  exact ⟨hx, ho⟩

theorem attempt_two {P : Sympy} {s s' : LS} {st : Status} (h : den (env P) 0 attempt s = .ok (st, s')) :
    st = .success ∨ (st = .failure ∧ SameFlags s s') := by
  obtain ⟨s1, h1, h2⟩ := attempt_cases h
  obtain ⟨-, c, x, hx, rfl, -⟩ := assigner_cases h1
  rcases work_cases h2 with ⟨rfl, hq⟩ | ⟨rfl, _⟩ | ⟨rfl, _⟩
  · exact .inr ⟨rfl, by rw [hq.w], fun n => by rw [LS.solved, hq.w]; rfl⟩
  · exact .inl rfl
  · exact .inl rfl

theorem subtree_cases {P : Sympy} {s s' : LS} {st : Status} (h : den (env P) 0 subtree s = .ok (st, s')) :
    Path P s s' ∧ (st = .success ∨ (st = .failure ∧ SameFlags s s')) := by
  rw [subtree, den] at h
  obtain ⟨l, u1, hr, h1, hl1, hl2⟩ := denUntil h (by decide)
  refine ⟨(Runs.path (fun _ _ _ h => attempt_path h) hr).trans (attempt_path h1), ?_⟩
  rcases attempt_two h1 with rfl | ⟨rfl, hs⟩
  · exact .inl rfl
  · refine .inr ⟨rfl, SameFlags.trans ?_ hs⟩
    clear h h1 hs hl1 hl2
    induction hr with
    | nil => exact ⟨rfl, fun _ => rfl⟩
    | cons h1 _ ih =>
      rcases attempt_two h1 with h | ⟨-, hs⟩
      · cases h
      · exact hs.trans ih

theorem subTransform_cases {P : Sympy} {s s' : LS} {st : Status} (h : subTransform P s = .ok (st, s')) :
    st = .success ∧ s'.w = s.w ∧ s'.ld = s.ld ∧ s'.aux = s.aux ∧ s'.curr = s.curr ∧ s'.counter = s.counter ∧ s'.guards = s.guards := by
  unfold subTransform at h
  split at h
  · cases h
  dsimp only at h
  split at h
  · split at h
    · cases h
    · cases h; exact ⟨rfl, rfl, rfl, rfl, rfl, rfl, rfl⟩
  · cases h; exact ⟨rfl, rfl, rfl, rfl, rfl, rfl, rfl⟩

theorem updateLeaf_cases {P : Sympy} {s s' : LS} {st : Status} (h : updateLeaf P s = .ok (st, s')) :
    st = .success ∧ ∃ L, updateL P.toCAS s.ms s.aux s.vars = .ok L ∧ s' = { s with lists := L } := by
  unfold updateLeaf at h
  split at h
  · cases h
  · next L hL => cases h; exact ⟨rfl, L, hL, rfl⟩

theorem foldl_solved (s : LS) : ∀ (l : List String) (k : Nat),
    l.foldl (fun k x => if s.solved x then k + 1 else k) k = k + l.countP s.solved
  | [], k => by simp
  | x :: l, k => by
    rw [List.foldl_cons, foldl_solved s l, List.countP_cons]
    by_cases h : s.solved x = true
    · simp [h]; omega
    · simp [h]

/-- comp_detect looks at the flags and changes nothing. -/
theorem compDetect_eq (b : Bool) (s : LS) : compDetect b s =
    .ok (if (∀ x ∈ s.w.unknowns, s.solved x = true) then (if b then .failure else .success) else (if b then .success else .failure), s) := by
  unfold compDetect
  rw [foldl_solved]
  have : (s.w.unknowns.length = 0 + s.w.unknowns.countP s.solved) ↔ ∀ x ∈ s.w.unknowns, s.solved x = true := by
    rw [Nat.zero_add, eq_comm, List.countP_eq_length]
  by_cases hc : ∀ x ∈ s.w.unknowns, s.solved x = true
  · rw [if_pos hc]; simp only; rw [if_pos (this.2 hc)]
  · rw [if_neg hc]; simp only; rw [if_neg (fun h => hc (this.1 h))]

/-- One pass through the child of the outer loop. -/
theorem routine_cases {P : Sympy} {s s' : LS} {st : Status} (h : den (env P) 0 solveRoutine s = .ok (st, s')) :
    Path P s s' ∧ ((st = .success ∧ ∀ x ∈ s'.w.unknowns, s'.solved x = true) ∨
      (st = .failure ∧ ((∃ x ∈ s'.w.unknowns, s'.solved x = false) ∨ SameFlags s s'))) := by
  rw [solveRoutine, sq, lf, lf, lf, den, dens, dens, dens, dens, dens, denComp] at h
  rcases denSeq_cons h with ⟨h1, hne⟩ | ⟨s1, h1, h⟩
  · exact absurd (subTransform_cases (denLeaf_ok.mp h1)).1 hne
  have a1 := denLeaf_ok.mp h1
  have p1 : Path P s s1 := .one (.sub a1)
  have f1 : SameFlags s s1 := by
    obtain ⟨-, hw, _⟩ := subTransform_cases a1
    exact ⟨by rw [hw], fun n => by rw [LS.solved, hw]; rfl⟩
  rcases denSeq_cons h with ⟨h2, hne⟩ | ⟨s2, h2, h⟩
  · obtain ⟨p2, h3⟩ := subtree_cases h2
    refine ⟨p1.trans p2, .inr ?_⟩
    rcases h3 with rfl | ⟨rfl, hs⟩
    · exact absurd rfl hne
    · exact ⟨rfl, .inr (f1.trans hs)⟩
  have p2 := (subtree_cases h2).1
  rcases denSeq_cons h with ⟨h3, hne⟩ | ⟨s3, h3, h⟩
  · exact absurd (updateLeaf_cases (denLeaf_ok.mp h3)).1 hne
  have p3 : Path P s s3 := (p1.trans p2).tail (.upd (denLeaf_ok.mp h3))
  have h4 : compDetect false s3 = .ok (st, s') := by
    rcases denSeq_cons h with ⟨h4, hne⟩ | ⟨s4, h4, h⟩
    · exact denLeaf_ok.mp h4
    · simp only [denSeq] at h; cases h; exact denLeaf_ok.mp h4
  rw [compDetect_eq] at h4
  cases h4
  refine ⟨p3, ?_⟩
  by_cases hc : ∀ x ∈ s'.w.unknowns, s'.solved x = true
  · exact .inl ⟨by rw [if_pos hc]; rfl, hc⟩
  · refine .inr ⟨by rw [if_neg hc]; rfl, .inl ?_⟩
    by_contra hx
    exact hc fun x hx' => by
      by_contra h0
      exact hx ⟨x, hx', by simpa using h0⟩

theorem topnode_cases {P : Sympy} {s s' : LS} {st : Status} (h : den (env P) 0 topnode s = .ok (st, s'))
    (hu : ∃ x ∈ s.w.unknowns, s.solved x = false) :
    Path P s s' ∧ ((st = .success ∧ ∀ x ∈ s'.w.unknowns, s'.solved x = true) ∨
      (st = .failure ∧ ∃ x ∈ s'.w.unknowns, s'.solved x = false)) := by
  rw [topnode, den] at h
  obtain ⟨l, u1, hr, h1, hl1, hl2⟩ := denUntil h (by decide)
  have hone : ∀ u u', (∃ x ∈ u.w.unknowns, u.solved x = false) → den (env P) 0 solveRoutine u = .ok (.failure, u') →
      ∃ x ∈ u'.w.unknowns, u'.solved x = false := by
    intro u u' ⟨x, hx, hs⟩ h
    rcases (routine_cases h).2 with ⟨h, _⟩ | ⟨-, h | h⟩
    · cases h
    · exact h
    · exact ⟨x, by rw [h.1]; exact hx, by rw [h.2]; exact hs⟩
  have hu1 := Runs.inv hone hr hu
  refine ⟨(Runs.path (fun _ _ _ h => (routine_cases h).1) hr).trans (routine_cases h1).1, ?_⟩
  rcases (routine_cases h1).2 with ⟨rfl, h'⟩ | ⟨rfl, _⟩
  · exact .inl ⟨rfl, h'⟩
  · exact .inr ⟨rfl, hone _ _ hu1 h1⟩

/-- The state in which the tree starts. -/
def init (us : List String) (ms : List MEqn) (aux : List KEqn) (L : Lists) : LS :=
  { w := Sol.start us, lists := L, ms := ms, aux := aux }

theorem attempt_ne {P : Sympy} {s s' : LS} {st : Status} (h : den (env P) 0 attempt s = .ok (st, s')) : s.w.unknowns ≠ [] := by
  obtain ⟨s1, h1, _⟩ := attempt_cases h
  obtain ⟨-, c, x, hx, _⟩ := assigner_cases h1
  intro he; rw [he] at hx; cases hx

theorem topnode_ne {P : Sympy} {s s' : LS} {st : Status} (h : den (env P) 0 topnode s = .ok (st, s')) : s.w.unknowns ≠ [] := by
  have sub : ∀ {s s' st}, den (env P) 0 subtree s = .ok (st, s') → s.w.unknowns ≠ [] := by
    intro s s' st h
    rw [subtree, den] at h
    obtain ⟨l, u1, hr, h1, hl1, hl2⟩ := denUntil h (by decide)
    cases hr with
    | nil => exact attempt_ne h1
    | cons h _ => exact attempt_ne h
  have rout : ∀ {s s' st}, den (env P) 0 solveRoutine s = .ok (st, s') → s.w.unknowns ≠ [] := by
    intro s s' st h
    rw [solveRoutine, sq, lf, lf, lf, den, dens, dens, dens, dens, dens, denComp] at h
    rcases denSeq_cons h with ⟨h1, hne⟩ | ⟨s1, h1, h⟩
    · exact absurd (subTransform_cases (denLeaf_ok.mp h1)).1 hne
    have hw := (subTransform_cases (denLeaf_ok.mp h1)).2.1
    rcases denSeq_cons h with ⟨h2, hne⟩ | ⟨s2, h2, h⟩
    · rw [← hw]; exact sub h2
    · rw [← hw]; exact sub h2
  rw [topnode, den] at h
  obtain ⟨l, u1, hr, h1, hl1, hl2⟩ := denUntil h (by decide)
  cases hr with
  | nil => exact rout h1
  | cons h _ => exact rout h

/-! ## The counter and the current unknown that an earlier run left on the blackboard -/

/-- What the assigner puts on the blackboard: counter and current unknown. -/
def pick (w : World) (k : Nat) : Option (Nat × String) :=
  match assignFind { w := w, lists := ⟨[], [], []⟩, ms := [] } k (w.unknowns.drop k) with
  | some p => some p
  | none => w.unknowns.head?.map fun x => (0, x)

theorem assignFind_w (s s' : LS) (h : s'.w = s.w) : ∀ (l : List String) (i : Nat), assignFind s' i l = assignFind s i l
  | [], _ => rfl
  | x :: l, i => by
    simp only [assignFind, LS.solved, h, assignFind_w s s' h l]
    rfl

theorem assigner_pick (s : LS) : assigner s = match pick s.w s.counter with
    | none => .error 3
    | some (c, x) => .ok (.success, { s with counter := c, curr := x }) := by
  unfold assigner pick
  rw [assignFind_w s { w := s.w, lists := ⟨[], [], []⟩, ms := [] } rfl]
  cases assignFind s s.counter (s.w.unknowns.drop s.counter) with
  | some p => rfl
  | none => cases s.w.unknowns <;> rfl

/-- A counter that is too large is as good as one at the end of the list: both make the assigner start again. -/
theorem pick_min (w : World) (k : Nat) : pick w k = pick w (min k w.unknowns.length) := by
  rcases Nat.le_total k w.unknowns.length with h | h
  · rw [Nat.min_eq_left h]
  · rw [Nat.min_eq_right h]
    unfold pick
    rw [List.drop_eq_nil_of_le h, List.drop_length]; rfl

/-- The same blackboards up to counter and current unknown, with the same next choice of the assigner. -/
structure Leftover (s s' : LS) : Prop where
  rest : s' = { s with counter := s'.counter, curr := s'.curr }
  pick : pick s'.w s'.counter = pick s.w s.counter

theorem denSeq_head {σ : Type} {f : σ → DRes σ} {fs : List (σ → DRes σ)} {u u' : σ} (h : f u' = f u) :
    denSeq (f :: fs) u' = denSeq (f :: fs) u := by simp only [denSeq, h]

theorem denUntil_head {E : Env LS LeafName} {f : LS → DRes LS} {m : Int} {u u' : LS} (hm : 0 < m) (h : f u' = f u) :
    denDeco E 0 (.untilSuccess m) f u' = denDeco E 0 (.untilSuccess m) f u := by
  have key : ∀ n, denLoop (fun s => s = .failure) m f (n + 1) none 0 u' = denLoop (fun s => s = .failure) m f (n + 1) none 0 u := by
    intro n
    unfold denLoop
    rw [if_pos (.inr hm), if_pos (.inr hm)]
    simp only [h]
  simp only [denDeco, denRepeat]
  obtain ⟨n, hn⟩ : ∃ n, loopFuel 0 m 0 = n + 1 := ⟨loopFuel 0 m 0 - 1, by unfold loopFuel; split <;> omega⟩
  rw [hn, key n]

theorem attempt_warm {P : Sympy} {s s' : LS} (h : Leftover s s') : den (env P) 0 attempt s' = den (env P) 0 attempt s := by
  have ha : assigner s' = assigner s := by
    rw [assigner_pick, assigner_pick, h.pick]
    cases pick s.w s.counter with
    | none => rfl
    | some p => dsimp only; rw [h.rest]
  rw [attempt, sq, lf, lf, den, dens, dens, dens, dens, denComp]
  refine denSeq_head ?_
  have e : (env P).act .asgn = assigner := rfl
  simp only [den, e, ha]

theorem subTransform_warm {P : Sympy} {s s' : LS} (h : Leftover s s') :
    (∃ c, subTransform P s' = .error c ∧ subTransform P s = .error c) ∨
      ∃ s1 s1', subTransform P s' = .ok (.success, s1') ∧ subTransform P s = .ok (.success, s1) ∧ Leftover s1 s1' := by
  obtain ⟨hr, hp⟩ := h
  generalize s'.counter = k at hr hp
  generalize s'.curr = x at hr
  subst hr
  dsimp only at hp
  unfold subTransform
  dsimp only [LS.vars]
  cases s.ms with
  | nil => exact .inl ⟨_, rfl, rfl⟩
  | cons m ms =>
    dsimp only
    split
    · split
      · exact .inl ⟨_, rfl, rfl⟩
      · exact .inr ⟨_, _, rfl, rfl, rfl, hp⟩
    · exact .inr ⟨_, _, rfl, rfl, rfl, hp⟩

theorem routine_warm {P : Sympy} {s s' : LS} (h : Leftover s s') : den (env P) 0 solveRoutine s' = den (env P) 0 solveRoutine s := by
  rw [solveRoutine, sq, lf, lf, lf, den, dens, dens, dens, dens, dens, denComp]
  have e : ∀ u, den (env P) 0 (.leaf 26 .subTrans) u = match subTransform P u with | .error c => .error (.leaf c) | .ok r => .ok r := by
    intro u
    have e : (env P).act .subTrans u = subTransform P u := rfl
    simp only [den, e]
    cases subTransform P u <;> rfl
  rcases subTransform_warm (P := P) h with ⟨c, h1, h2⟩ | ⟨s1, s1', h1, h2, hw⟩
  · refine denSeq_head ?_
    rw [e, e, h1, h2]
  · simp only [denComp, denSeq, e, h1, h2, if_true]
    have hsub : den (env P) 0 subtree s1' = den (env P) 0 subtree s1 := by
      rw [subtree, den]
      exact denUntil_head (by decide) (attempt_warm hw)
    rw [hsub]

/-- A run does not depend on the current unknown that the blackboard holds at its start, and on the counter only through the first
choice of the assigner. -/
theorem topnode_warm {P : Sympy} {s s' : LS} (h : Leftover s s') : den (env P) 0 topnode s' = den (env P) 0 topnode s := by
  rw [topnode, den]
  exact denUntil_head (by decide) (routine_warm h)

/-- The assigner alone, at the start of a run, where all unknowns are unsolved: it reaches every counter of the list. -/
theorem assign_path {P : Sympy} (s : LS) (hs : ∀ x, s.solved x = false) (h0 : s.counter = 0) : ∀ k ≤ s.w.unknowns.length,
    ∃ x, Path P s { s with counter := k, curr := x }
  | 0, _ => ⟨s.curr, by rw [← h0]; exact .refl⟩
  | k + 1, hk => by
    obtain ⟨x, hp⟩ := assign_path s hs h0 k (by omega)
    refine ⟨s.w.unknowns[k], hp.tail (.assign ?_)⟩
    rw [assigner]
    dsimp only
    rw [List.drop_eq_getElem_cons (by omega), assignFind]
    have : LS.solved { s with counter := k, curr := x } s.w.unknowns[k] = false := hs _
    rw [this]; rfl

/-- Every run that returns is a path from the initial state (also if it started with another counter: the assigner would have reached
it), and its status is SUCCESS iff everything is solved. -/
theorem solve_cases {P : Sympy} {us : List String} {ms : List MEqn} {aux : List KEqn} {k : Nat} {st : Status} {s : LS}
    (h : solve P us ms aux k = .ok (st, s)) :
    us ≠ [] ∧ ∃ L, scanForEquations P.toCAS ms aux (us.map fun n => ⟨n, false⟩) = .ok L ∧ Path P (init us ms aux L) s ∧
      ((st = .success ∧ ∀ x ∈ s.w.unknowns, s.solved x = true) ∨ (st = .failure ∧ ∃ x ∈ s.w.unknowns, s.solved x = false)) := by
  rw [solve_eq] at h
  split at h
  · cases h
  next L hL =>
  have hne := topnode_ne h
  refine ⟨hne, L, hL, ?_⟩
  obtain ⟨x, hp⟩ := assign_path (P := P) (init us ms aux L) (fun _ => rfl) rfl (min k us.length) (Nat.min_le_right _ _)
  rw [topnode_warm (s := { init us ms aux L with counter := min k us.length, curr := x }) ⟨rfl, pick_min _ _⟩] at h
  have := topnode_cases h (by
    cases us with
    | nil => exact absurd rfl hne
    | cons x l => exact ⟨x, List.mem_cons_self, rfl⟩)
  exact ⟨hp.trans this.1, this.2⟩

end Verif.Solver
