import Verif.Solver.Run
import Verif.Leaf.Toy
/-!
# C42–C45: assigner, completion detector, rank, and the result of the whole tree
-/
namespace Verif.Solver
open Verif.Leaf Verif.Eqn Verif.Sol Verif.Sym
open Verif.BT hiding Tree

/-! ## C45 The result of a run -/

theorem step_unknowns {P : Sympy} {a b : LS} (h : Step P a b) : b.w.unknowns = a.w.unknowns := by
  cases h with
  | assign h => obtain ⟨-, c, x, hx, rfl, -⟩ := assigner_cases h; rfl
  | work _ h =>
    rcases work_cases h with ⟨_, hq⟩ | ⟨_, _, sols, hs⟩ | ⟨_, s1, hq, ha⟩
    · rw [hq.w]
    · rw [(Sol.setSolved_ok hs.w).unknowns]; rfl
    · obtain ⟨e, he⟩ := ha.rest; rw [he]; exact congrArg World.unknowns hq.w
  | sub h => rw [(subTransform_cases h).2.1]
  | upd h => obtain ⟨-, L, _, rfl⟩ := updateLeaf_cases h; rfl

theorem path_unknowns {P : Sympy} {a b : LS} (h : Path P a b) : b.w.unknowns = a.w.unknowns := by
  induction h with
  | refl => rfl
  | tail _ hs ih => rw [step_unknowns hs, ih]

/-- C45: whatever sympy answers, a run that returns says SUCCESS exactly when every unknown is solved, and FAILURE otherwise; the set
of unknowns is the given one. -/
theorem C45_success_iff_all_solved {P : Sympy} {us : List String} {ms : List MEqn} {aux : List KEqn} {st : Status} {s : LS}
    {counter : Nat} (h : solve P us ms aux counter = .ok (st, s)) :
    s.w.unknowns = us ∧ (st = .success ↔ ∀ x ∈ us, (s.w.unk x).solved = true) ∧ (st = .failure ↔ ∃ x ∈ us, (s.w.unk x).solved = false) := by
  obtain ⟨hne, L, _, hp, hst⟩ := solve_cases h
  have hu := path_unknowns hp
  change _ = us at hu
  rw [hu] at hst
  refine ⟨hu, ?_⟩
  rcases hst with ⟨rfl, ha⟩ | ⟨rfl, x, hx, hs⟩
  · refine ⟨⟨fun _ => ha, fun _ => rfl⟩, ⟨fun h => (by cases h), ?_⟩⟩
    rintro ⟨x, hx, hs⟩
    have := ha x hx
    rw [LS.solved, hs] at this; cases this
  · refine ⟨⟨fun h => (by cases h), fun ha => ?_⟩, ⟨fun _ => ⟨x, hx, hs⟩, fun _ => rfl⟩⟩
    have := ha x hx
    rw [LS.solved, this] at hs; cases hs

section crash
variable {σ : Type}
/-- The only exceptions are those of leaves. -/
def LeafOnly (f : σ → DRes σ) : Prop := ∀ u c, f u = .error c → ∃ k, c = .leaf k

theorem leafOnly_seq : ∀ {fs : List (σ → DRes σ)}, (∀ f ∈ fs, LeafOnly f) → LeafOnly (denSeq fs)
  | [], _, u, c, h => by simp [denSeq] at h
  | f :: fs, hf, u, c, h => by
    simp only [denSeq] at h
    split at h
    · next e he => cases h; exact hf f (by simp) u _ he
    · split at h
      · exact leafOnly_seq (fun g hg => hf g (by simp [hg])) _ _ h
      · cases h
theorem leafOnly_pri : ∀ {fs : List (σ → DRes σ)}, (∀ f ∈ fs, LeafOnly f) → LeafOnly (denPri fs)
  | [], _, u, c, h => by simp [denPri] at h
  | f :: fs, hf, u, c, h => by
    simp only [denPri] at h
    split at h
    · next e he => cases h; exact hf f (by simp) u _ he
    · split at h
      · exact leafOnly_pri (fun g hg => hf g (by simp [hg])) _ _ h
      · cases h
theorem leafOnly_or : ∀ {fs : List (σ → DRes σ)} {acc : Status}, (∀ f ∈ fs, LeafOnly f) → LeafOnly (denOr fs acc)
  | [], _, _, u, c, h => by simp [denOr] at h
  | f :: fs, _, hf, u, c, h => by
    simp only [denOr] at h
    split at h
    · next e he => cases h; exact hf f (by simp) u _ he
    · exact leafOnly_or (fun g hg => hf g (by simp [hg])) _ _ h
theorem leafOnly_loop {f : σ → DRes σ} (hf : LeafOnly f) {cont : Status → Bool} {m : Int} (hm : 0 ≤ m) : ∀ {n : Nat} {last : Option Status} {i : Int} {u : σ} {c},
    0 ≤ i → n = (m - i).toNat → denLoop cont m f n last i u = .error c → ∃ k, c = .leaf k
  | 0, last, i, u, c, hi, hn, h => by
    unfold denLoop at h
    rw [if_neg (by omega)] at h
    cases h
  | n + 1, last, i, u, c, hi, hn, h => by
    unfold denLoop at h
    rw [if_pos (by omega)] at h
    dsimp only at h
    split at h
    · next e he => cases h; exact hf _ _ he
    · split at h
      · exact leafOnly_loop hf hm (by omega) (by omega) h
      · cases h
theorem leafOnly_until {E : Env σ LeafName} {fuel : Nat} {f : σ → DRes σ} (hf : LeafOnly f) {m : Int} (hm : 0 < m) :
    LeafOnly (denDeco E fuel (.untilSuccess m) f) := by
  intro u c h
  simp only [denDeco, denRepeat, loopFuel] at h
  rw [if_neg (by omega)] at h
  split at h
  · next e he => cases h; exact leafOnly_loop hf (by omega) (le_refl _) (by omega) he
  · next hd =>
    rcases denLoop_until (by omega) (le_refl _) (by omega) hd with ⟨h2, _, _⟩ | ⟨l, u2, s2, h1, _⟩
    · omega
    · cases h1
  · cases h
end crash

theorem leafOnly_leaf (P : Sympy) (i : Nat) (l : LeafName) : LeafOnly (den (env P) 0 (.leaf i l)) := by
  intro u c h
  simp only [den] at h
  split at h
  · cases h; exact ⟨_, rfl⟩
  · cases h

/-- C45: nothing but an exception inside a leaf can stop a run: no loop runs out of its bound without a status, no bookkeeping error
of the engine, no endless loop (`outOfFuel`). -/
theorem C45_only_leaf_exceptions {P : Sympy} {us : List String} {ms : List MEqn} {aux : List KEqn} {c : Crash}
    {counter : Nat} (h : solve P us ms aux counter = .error c) : ∃ k, c = .leaf k := by
  rw [solve_eq] at h
  split at h
  · cases h; exact ⟨1, rfl⟩
  have lfs : ∀ i l, LeafOnly (den (env P) 0 (.leaf i l)) := leafOnly_leaf P
  have pr : ∀ i a b f g, LeafOnly (den (env P) 0 (sq i [lf a f, lf b g])) := by
    intro i a b f g
    rw [sq, lf, lf, den, dens, dens, dens]
    refine leafOnly_seq ?_
    intro f hf
    simp only [List.mem_cons, List.not_mem_nil, or_false] at hf
    rcases hf with rfl | rfl <;> exact lfs _ _
  have hst : LeafOnly (den (env P) 0 scTan) := by
    rw [scTan, sq, lf, den, dens, dens, dens]
    refine leafOnly_seq ?_
    intro f hf
    simp only [List.mem_cons, List.not_mem_nil, or_false] at hf
    rcases hf with rfl | rfl
    · rw [den, dens, dens, dens]
      refine leafOnly_or ?_
      intro f hf
      simp only [List.mem_cons, List.not_mem_nil, or_false] at hf
      rcases hf with rfl | rfl <;> exact pr _ _ _ _ _
    · exact lfs _ _
  have hw : LeafOnly (den (env P) 0 worktools) := by
    rw [worktools, lf, den, dens, dens, dens, dens, dens, dens]
    refine leafOnly_pri ?_
    intro f hf
    simp only [List.mem_cons, List.not_mem_nil, or_false] at hf
    rcases hf with rfl | rfl | rfl | rfl | rfl
    · exact pr _ _ _ _ _
    · exact hst
    · exact pr _ _ _ _ _
    · exact pr _ _ _ _ _
    · exact lfs _ _
  have ha : LeafOnly (den (env P) 0 attempt) := by
    rw [attempt, sq, lf, lf, den, dens, dens, dens, dens]
    refine leafOnly_seq ?_
    intro f hf
    simp only [List.mem_cons, List.not_mem_nil, or_false] at hf
    rcases hf with rfl | rfl | rfl
    · exact lfs _ _
    · exact lfs _ _
    · exact hw
  have hs : LeafOnly (den (env P) 0 subtree) := by
    rw [subtree, den]
    exact leafOnly_until ha (by decide)
  have hr : LeafOnly (den (env P) 0 solveRoutine) := by
    rw [solveRoutine, sq, lf, lf, lf, den, dens, dens, dens, dens, dens]
    refine leafOnly_seq ?_
    intro f hf
    simp only [List.mem_cons, List.not_mem_nil, or_false] at hf
    rcases hf with rfl | rfl | rfl | rfl
    · exact lfs _ _
    · exact hs
    · exact lfs _ _
    · exact lfs _ _
  rw [topnode, den] at h
  exact leafOnly_until hr (by decide) _ _ h

/-- C45, loop bounds: in one run the work tools are tried at most 60 times, the outer routine runs at most 10 times; whatever the
leaves do. The fuel given to the engine model plays no role. -/
theorem C45_bounded {P : Sympy} {u : LS} {fuel : Nat} :
    (∀ fuel', treeTick (env P) fuel' topnode { user := u } = treeTick (env P) fuel topnode { user := u }) ∧
    ∀ s st', treeTick (env P) fuel topnode { user := u } = .ok (s, st') →
      st'.ticksAll 21 ≤ 60 ∧ st'.ticksAll 25 ≤ 10 ∧ ∀ j, st'.ticksAll j ≤ 60 := by
  refine ⟨fun fuel' => (C14_bounded_tick_terminates topnode_bounded _).2 fuel', fun s st' h => ?_⟩
  have key : ∀ j, st'.ticksAll j ≤ topnode.maxExec j := by
    intro j
    have := C14_executions_bounded (env_noRunning P) topnode_acyclic topnode_bounded (fun j _ => rfl) h j
    simpa using this
  have mx : ∀ j, topnode.maxExec j ≤ 60 := by
    intro j
    by_cases hj : j < 30
    · have : ∀ j : Fin 30, topnode.maxExec j.val ≤ 60 := by decide
      exact this ⟨j, hj⟩
    · simp only [topnode, solveRoutine, subtree, attempt, worktools, scTan, simuSol, sacSol, scSol, algSol, tanSol, sq, lf,
        BT.Tree.maxExec, maxExecList, DKind.maxRuns]
      have hk : ∀ k : Nat, k < 30 → ¬ (k = j) := fun k hk h => hj (h ▸ hk)
      simp [hk]
  exact ⟨(key 21).trans (mx 21), (key 25).trans (by decide), fun j => (key j).trans (mx j)⟩

/-! ## C43 Completion -/

/-- C43: comp_detect returns its "done" status (SUCCESS, or FAILURE in the inverted mode) iff every unknown is solved, and changes
nothing; what it prints names every unknown once, in order, with its flag, counts them, and lists exactly the solved ones. -/
theorem C43_completion (b : Bool) (s : LS) :
    (∃ st, compDetect b s = .ok (st, s) ∧ (st = (if b then .failure else .success) ↔ ∀ x ∈ s.w.unknowns, (s.w.unk x).solved = true)) ∧
    compReport s = (s.w.unknowns.map (fun x => (x, (s.w.unk x).solved)), s.w.unknowns.length,
      (s.w.unknowns.filter fun x => (s.w.unk x).solved).length, s.w.unknowns.filter fun x => (s.w.unk x).solved) := by
  refine ⟨⟨_, compDetect_eq b s, ?_⟩, ?_⟩
  · by_cases hc : ∀ x ∈ s.w.unknowns, s.solved x = true
    · rw [if_pos hc]; exact ⟨fun _ => hc, fun _ => rfl⟩
    · rw [if_neg hc]
      refine ⟨fun h => ?_, fun h => absurd h hc⟩
      cases b <;> cases h
  · have key : ∀ (l : List String) (r : List (String × Bool) × Nat × Nat),
        l.foldl (fun (r : List (String × Bool) × Nat × Nat) x =>
          (r.1 ++ [(x, s.solved x)], r.2.1 + 1, if s.solved x then r.2.2 + 1 else r.2.2)) r =
        (r.1 ++ l.map (fun x => (x, s.solved x)), r.2.1 + l.length, r.2.2 + (l.filter fun x => s.solved x).length) := by
      intro l
      induction l with
      | nil => intro r; simp
      | cons x l ih =>
        intro r
        rw [List.foldl_cons, ih]
        by_cases hx : s.solved x = true
        · simp [hx]; omega
        · simp [hx]; omega
    unfold compReport
    rw [key]
    simp [LS.solved]

/-! ## C42 The assigner -/

/-- The unknowns handed out by n ticks of the assigner, and the state after. -/
def hands : Nat → LS → Except Nat (List String × LS)
  | 0, s => .ok ([], s)
  | n + 1, s => match assigner s with
    | .error c => .error c
    | .ok (_, s1) => match hands n s1 with
      | .error c => .error c
      | .ok (xs, s2) => .ok (s1.curr :: xs, s2)

theorem hands_add {s s1 s2 : LS} {xs ys : List String} : ∀ {m n : Nat}, hands m s = .ok (xs, s1) → hands n s1 = .ok (ys, s2) →
    hands (m + n) s = .ok (xs ++ ys, s2) := by
  intro m
  induction m generalizing s xs with
  | zero => intro n h1 h2; simp only [hands, Except.ok.injEq, Prod.mk.injEq] at h1; obtain ⟨rfl, rfl⟩ := h1; simpa using h2
  | succ m ih =>
    intro n h1 h2
    rw [Nat.add_right_comm, hands]
    rw [hands] at h1
    split at h1
    · cases h1
    next st s3 ha =>
    split at h1
    · cases h1
    next xs' s4 hh =>
    simp only [Except.ok.injEq, Prod.mk.injEq] at h1
    obtain ⟨rfl, rfl⟩ := h1
    rw [ih hh h2]; rfl

/-- The unsolved ones of a list, in order. -/
def unsolvedOf (s : LS) (l : List String) : List String := l.filter fun x => !(s.w.unk x).solved

theorem assignFind_none {s : LS} {l : List String} {i : Nat} (h : unsolvedOf s l = []) : assignFind s i l = none := by
  induction l generalizing i with
  | nil => rfl
  | cons x l ih =>
    rw [assignFind]
    simp only [unsolvedOf, List.filter_cons] at h
    split at h
    · cases h
    · next hx => rw [if_pos (by simpa [LS.solved] using hx)]; exact ih h

theorem assignFind_some {s : LS} {x : String} {r : List String} : ∀ {l : List String} {i : Nat}, unsolvedOf s l = x :: r →
    ∃ k, assignFind s i l = some (i + k + 1, x) ∧ unsolvedOf s (l.drop (k + 1)) = r ∧ unsolvedOf s (l.take (k + 1)) = [x]
  | [], i, h => by simp [unsolvedOf] at h
  | y :: l, i, h => by
    simp only [unsolvedOf, List.filter_cons] at h
    rw [assignFind]
    split at h
    · next hy =>
      simp only [List.cons.injEq] at h
      obtain ⟨rfl, h⟩ := h
      refine ⟨0, ?_, by simpa [unsolvedOf] using h, ?_⟩
      · rw [if_neg (by simpa [LS.solved] using hy)]
      · simpa [unsolvedOf] using hy
    · next hy =>
      obtain ⟨k, h1, h2, h3⟩ := assignFind_some (i := i + 1) h
      refine ⟨k + 1, ?_, by simpa using h2, ?_⟩
      · rw [if_pos (by simpa [LS.solved] using hy), h1]
        congr 2; omega
      · simp only [unsolvedOf, List.take_succ_cons, List.filter_cons]
        rw [if_neg hy]
        simpa [unsolvedOf] using h3

/-- from the counter to the end of the list -/
theorem hands_rest : ∀ {r : List String} {s : LS}, unsolvedOf s (s.w.unknowns.drop s.counter) = r → ∀ {k : Nat}, k ≤ r.length →
    ∃ c x, hands k s = .ok (r.take k, { s with counter := c, curr := x }) ∧ s.counter ≤ c ∧
      unsolvedOf s (s.w.unknowns.drop c) = r.drop k ∧ unsolvedOf s (s.w.unknowns.take c) = unsolvedOf s (s.w.unknowns.take s.counter) ++ r.take k := by
  intro r
  induction r with
  | nil =>
    intro s h k hk
    simp only [List.length_nil, Nat.le_zero] at hk
    subst hk
    exact ⟨s.counter, s.curr, by simp [hands], le_refl _, h, by simp⟩
  | cons y r ih =>
    intro s h k hk
    cases k with
    | zero => exact ⟨s.counter, s.curr, by simp [hands], le_refl _, by simpa using h, by simp⟩
    | succ k =>
      obtain ⟨j, h1, h2, h3⟩ := assignFind_some (i := s.counter) h
      rw [List.drop_drop] at h2
      have hs1 : unsolvedOf { s with counter := s.counter + j + 1, curr := y } (s.w.unknowns.drop (s.counter + j + 1)) = r := by
        simpa [unsolvedOf, Nat.add_assoc] using h2
      obtain ⟨c, x, g1, g2, g3, g4⟩ := ih hs1 (k := k) (by simpa using hk)
      refine ⟨c, x, ?_, ?_, by simpa [unsolvedOf] using g3, ?_⟩
      · rw [hands]
        simp only [assigner, h1, g1, List.take_succ_cons]
      · simp only at g2; omega
      · have e1 : unsolvedOf s (s.w.unknowns.take (s.counter + j + 1)) = unsolvedOf s (s.w.unknowns.take s.counter) ++ [y] := by
          rw [Nat.add_assoc, List.take_add, unsolvedOf, List.filter_append, ← unsolvedOf, ← unsolvedOf, h3]
        have e2 : unsolvedOf s (s.w.unknowns.take c) = unsolvedOf s (s.w.unknowns.take (s.counter + j + 1)) ++ r.take k := g4
        rw [e2, e1]; simp

/-- the wrap -/
theorem hands_wrap {s : LS} {y : String} {l : List String} (hu : s.w.unknowns = y :: l)
    (h : unsolvedOf s (s.w.unknowns.drop s.counter) = []) : hands 1 s = .ok ([y], { s with counter := 0, curr := y }) := by
  have e : assigner s = .ok (.success, { s with counter := 0, curr := y }) := by
    unfold assigner; rw [assignFind_none h]; simp only [hu]
  simp only [hands, e]

/-- C42. With fixed flags, any k+1 consecutive ticks of the assigner (k the number of unsolved unknowns), from any position of
the counter, hand out: the unsolved unknowns after that position in order, then the *first* unknown of the list, solved or not, then the
unsolved ones before that position; nothing but counter and current unknown changes. So every unsolved unknown is handed out.
Missing: the extra first unknown (`C42_solved_violation`, `C42_twice_violation`). -/
theorem C42_round_partial {s : LS} {y : String} {l : List String} (hu : s.w.unknowns = y :: l) :
    ∃ c x, hands ((unsolvedOf s s.w.unknowns).length + 1) s =
      .ok (unsolvedOf s (s.w.unknowns.drop s.counter) ++ [y] ++ unsolvedOf s (s.w.unknowns.take s.counter), { s with counter := c, curr := x }) := by
  obtain ⟨c1, x1, a1, a2, a3, a4⟩ := hands_rest (s := s) rfl (k := (unsolvedOf s (s.w.unknowns.drop s.counter)).length) (le_refl _)
  rw [List.take_length] at a1
  have w1 := hands_wrap (s := { s with counter := c1, curr := x1 }) hu (by simpa [unsolvedOf] using a3)
  have hsplit : unsolvedOf s s.w.unknowns = unsolvedOf s (s.w.unknowns.take s.counter) ++ unsolvedOf s (s.w.unknowns.drop s.counter) := by
    rw [unsolvedOf, unsolvedOf, unsolvedOf, ← List.filter_append, List.take_append_drop]
  obtain ⟨c2, x2, b1, _, _, _⟩ := hands_rest (s := { s with counter := 0, curr := y }) (r := unsolvedOf s s.w.unknowns) rfl
    (k := (unsolvedOf s (s.w.unknowns.take s.counter)).length) (by rw [hsplit]; simp)
  rw [hsplit, List.take_left] at b1
  refine ⟨c2, x2, ?_⟩
  have := hands_add (hands_add a1 w1) b1
  rw [hsplit]
  simp only [List.length_append]
  rw [show (unsolvedOf s (s.w.unknowns.take s.counter)).length + (unsolvedOf s (s.w.unknowns.drop s.counter)).length + 1 =
    (unsolvedOf s (s.w.unknowns.drop s.counter)).length + 1 + (unsolvedOf s (s.w.unknowns.take s.counter)).length by omega]
  exact this

/-- C42: hence, as long as nothing is solved, an unsolved unknown is handed out in every window of k+1 ticks. -/
theorem C42_no_starvation {s s' : LS} {xs : List String}
    (h : hands ((unsolvedOf s s.w.unknowns).length + 1) s = .ok (xs, s')) {x : String} (hx : x ∈ s.w.unknowns)
    (hs : (s.w.unk x).solved = false) : x ∈ xs := by
  cases hu : s.w.unknowns with
  | nil => rw [hu] at hx; cases hx
  | cons y l =>
    obtain ⟨c, z, h1⟩ := C42_round_partial hu
    rw [h1] at h
    cases h
    have : x ∈ unsolvedOf s s.w.unknowns := by simp [unsolvedOf, hx, hs]
    have hsplit : unsolvedOf s s.w.unknowns = unsolvedOf s (s.w.unknowns.take s.counter) ++ unsolvedOf s (s.w.unknowns.drop s.counter) := by
      rw [unsolvedOf, unsolvedOf, unsolvedOf, ← List.filter_append, List.take_append_drop]
    rw [hsplit] at this
    simp only [List.mem_append] at this ⊢
    rcases this with h | h
    · exact .inr h
    · exact .inl (.inl h)

/-- a state with these unknowns and the first k of them solved -/
def flagged (us : List String) (k : Nat) : LS :=
  { w := { unknowns := us, unk := fun n => { solved := (us.take k).contains n } }, lists := {}, ms := [] }

/-- what the ticks handed out -/
def handed (n : Nat) (s : LS) : Option (List String) := ((hands n s).toOption).map Prod.fst

/-- C42 is false of the code: with a solved, b unsolved, the second tick hands out the solved a. -/
theorem C42_solved_violation : handed 2 (flagged ["a", "b"] 1) = some ["b", "a"] := by decide +kernel
/-- C42 is false of the code: with a, b unsolved, a is handed out twice in a row at the wrap. -/
theorem C42_twice_violation : handed 4 (flagged ["a", "b"] 0) = some ["a", "b", "a", "a"] := by decide +kernel

/-! ## C44 rank -/

/-- How many of the unknowns occur in the expression. -/
def varsIn (us : List String) (e : Expr) : Nat := (us.filter fun x => e.has x).length

/-- The rule of C44 (S: the sine/cosine candidate, T: the tangent candidate). -/
def best (us : List String) : List Expr → List Expr → List Expr
  | S, [] => S
  | [], T => T
  | a :: S, b :: T => if S.length < T.length then a :: S else if T.length < S.length then b :: T
    else if varsIn us a < varsIn us b then a :: S else b :: T

theorem countVariables_eq (s : LS) (e : Expr) : countVariables s.vars e = varsIn s.w.unknowns e := by
  have key : ∀ (l : List String) (f : String → Bool) (n : Nat), (l.map fun x => (⟨x, f x⟩ : Var)).foldl (fun n u => if e.has u.name then n + 1 else n) n =
      n + (l.filter fun x => e.has x).length := by
    intro l f
    induction l with
    | nil => intro n; simp
    | cons x l ih =>
      intro n
      rw [List.map_cons, List.foldl_cons, ih]
      by_cases h : e.has x = true
      · simp [h]; omega
      · simp [h]
  unfold countVariables LS.vars varsIn
  rw [key]; simp

/-- C44 for the leaf: SUCCESS always. Without candidates nothing changes (in particular the unknown is not marked solved); with one
the solutions are left as they are; with both they become the better candidate, and its first equation the equation of the unknown. Then the unknown is solved. -/
theorem C44_rank {s s' : LS} {st : Status} (h : rankLeaf s = .ok (st, s')) :
    st = .success ∧
    ((s.ld s.curr).scSols = [] ∧ (s.ld s.curr).tanSols = [] → s' = s) ∧
    ((s.ld s.curr).scSols ≠ [] ∨ (s.ld s.curr).tanSols ≠ [] → (s'.w.unk s.curr).solved = true) ∧
    ((s.ld s.curr).scSols ≠ [] ∧ (s.ld s.curr).tanSols = [] ∨ (s.ld s.curr).scSols = [] ∧ (s.ld s.curr).tanSols ≠ [] →
      (s'.w.unk s.curr).solutions = (s.w.unk s.curr).solutions) ∧
    ((s.ld s.curr).scSols ≠ [] ∧ (s.ld s.curr).tanSols ≠ [] →
      (s'.w.unk s.curr).solutions = best s.w.unknowns (s.ld s.curr).scSols (s.ld s.curr).tanSols ∧
      ((s'.ld s.curr).eqn = (s.ld s.curr).scEqns.head? ∧ (s'.w.unk s.curr).solutions = (s.ld s.curr).scSols ∨
       (s'.ld s.curr).eqn = (s.ld s.curr).tanEqns.head? ∧ (s'.ld s.curr).second = (s.ld s.curr).tanEqns[1]? ∧
         (s'.w.unk s.curr).solutions = (s.ld s.curr).tanSols)) := by
  obtain ⟨rfl, hr⟩ := rank_cases h
  refine ⟨rfl, ?_⟩
  cases hr with
  | none h1 h2 => simp [h1, h2]
  | one h1 h2 =>
    obtain ⟨q1, _⟩ := LS.setSolved_ok h2
    have hs := Sol.setSolved_ok (LS.setSolved_raw h2)
    refine ⟨?_, fun _ => hs.solved, fun _ => hs.solutions, ?_⟩
    · rintro ⟨e1, e2⟩; simp [e1, e2] at h1
    · rintro ⟨e1, e2⟩
      exact absurd (h1.2 e2) e1
  | @chosen _ a l a' l' e b sec tags h1 h2 hb he hsec h3 =>
    have hs := Sol.setSolved_ok (LS.setSolved_raw h3)
    obtain ⟨_, _, _, _, _, _, _, hld⟩ := LS.setSolved_ok h3
    have hsol := hs.solutions
    simp only [updLd_w, updU_w, Sol.upd_same] at hsol
    refine ⟨by simp [h1, h2], fun _ => hs.solved, by simp [h1, h2], fun _ => ⟨?_, ?_⟩⟩
    · rw [hsol, h1, h2]
      rw [countVariables_eq, countVariables_eq] at hb
      cases b
      · have := hb.1 rfl
        simp only [cand, Bool.false_eq_true, if_false, best, h1]
        rcases this with h | ⟨h, h'⟩
        · rw [if_pos h]
        · rw [if_neg (by omega), if_neg (by omega), if_pos h']
      · have : ¬ _ := fun h => Bool.noConfusion (hb.2 h)
        simp only [cand, if_true, best, h2]
        rw [not_or] at this
        rw [if_neg this.1]
        by_cases hl : l'.length < l.length
        · rw [if_pos hl]
        · rw [if_neg hl, if_neg (fun h => this.2 ⟨by omega, h⟩)]
    · cases b
      · left; rw [hld, hsol]
        simp only [updLd_same, if_true]
        exact ⟨by simpa [candE] using he.symm, by simp [cand]⟩
      · right; rw [hld, hsol]
        simp only [updLd_same, if_true]
        obtain ⟨e2, g1, g2⟩ := hsec rfl
        exact ⟨by simpa [candE] using he.symm, by rw [g2, ← g1], by simp [cand]⟩

end Verif.Solver
