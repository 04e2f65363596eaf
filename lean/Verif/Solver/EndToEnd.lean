import Verif.Solver.History
import Verif.Leaf.Toy
/-!
# From the tree to the solution table: C16–C20 for the runs of the solver, and concrete runs
-/
namespace Verif.Solver
open Verif.Leaf Verif.Eqn Verif.Sol Verif.Sym
open Verif.BT hiding Tree

theorem Untouched.quiet {s s' : LS} {x : String} (h : Untouched s x) (hq : Quiet s s') : Untouched s' x := by
  unfold Untouched; rw [hq.w, hq.kept]; exact h

theorem tanSolutions_length (P : Sympy) (l1 l2 A B C D : Expr) (one : Bool) :
    (tanSolutions P l1 l2 A B C D one).length = 1 ∨ (tanSolutions P l1 l2 A B C D one).length = 2 := by
  unfold tanSolutions; cases one <;> simp
theorem sincosSolutions_length (P : Sympy) (l A B : Expr) (b : Bool) : (sincosSolutions P l A B b).length = 2 := by
  unfold sincosSolutions; cases b <;> simp

/-- An unknown nobody has worked on gets one or two solutions, whichever solver finds them. -/
theorem work_fresh {P : Sympy} {s s' : LS} {st : Status} (hun : Untouched s s.curr) (h : den (env P) 0 worktools s = .ok (st, s')) :
    (s'.w = s.w) ∨ ∃ sols, (sols.length = 1 ∨ sols.length = 2) ∧ Solves sols s s' := by
  rw [worktools, lf, den, dens, dens, dens, dens, dens, dens, denComp] at h
  rcases denPri_cons h with ⟨h1, hne⟩ | ⟨s1, h1, h⟩
  · rcases algSol_cases h1 with ⟨rfl, _⟩ | ⟨rfl, hu, _, _, _, _, _, _, hs, _⟩
    · exact absurd rfl hne
    · exact .inr ⟨_, .inl (by simp [hun.1]), hs⟩
  have q1 : Quiet s s1 := by
    rcases algSol_cases h1 with ⟨_, hq, _⟩ | ⟨h, _⟩
    · exact hq
    · cases h
  clear h1
  rcases denPri_cons h with ⟨h1, hne⟩ | ⟨s2, h1, h⟩
  · rcases scTan_cases h1 with ⟨rfl, _⟩ | ⟨rfl, -⟩
    · exact absurd rfl hne
    · have hu1 : Untouched s1 s1.curr := by rw [q1.curr]; exact hun.quiet q1
      obtain ⟨S, T, hne', hS, hT, hs, _⟩ := C44_subtree hu1 h1
      refine .inr ⟨_, ?_, hs.of_quiet q1⟩
      have hS' : S = [] ∨ S.length = 2 := by
        rcases hS with h | ⟨e, t, A, B, sine, _, _, rfl⟩
        · exact .inl h
        · exact .inr (sincosSolutions_length _ _ _ _ _)
      have hT' : T = [] ∨ T.length = 1 ∨ T.length = 2 := by
        rcases hT with h | ⟨es, _, ec, _, a, b, A, B, C, D, one, _, _, _, rfl⟩
        · exact .inl h
        · exact .inr (tanSolutions_length _ _ _ _ _ _ _ _)
      rcases hS' with rfl | hS'
      · rcases hT' with rfl | hT'
        · simp at hne'
        · rcases T with _ | ⟨a, T⟩
          · simp at hT'
          · simpa [best] using hT'
      · rcases hT' with rfl | hT'
        · right; simpa [best] using hS'
        · rcases best_cases s1.w.unknowns S T with h | h
          · rw [h]; exact .inr hS'
          · rw [h]; exact hT'
  have q2 : Quiet s s2 := by
    rcases scTan_cases h1 with ⟨_, hq, _⟩ | ⟨h, _⟩
    · exact q1.trans hq
    · cases h
  clear h1
  rcases denPri_cons h with ⟨h1, hne⟩ | ⟨s3, h1, h⟩
  · rcases simuSol_cases h1 with ⟨rfl, _⟩ | ⟨rfl, hu, _, _, _, hs, _⟩
    · exact absurd rfl hne
    · exact .inr ⟨_, .inl rfl, hs.of_quiet q2⟩
  have q3 : Quiet s s3 := by
    rcases simuSol_cases h1 with ⟨_, hq, _⟩ | ⟨h, _⟩
    · exact q2.trans hq
    · cases h
  clear h1
  rcases denPri_cons h with ⟨h1, hne⟩ | ⟨s4, h1, h⟩
  · rcases sacSol_cases h1 with ⟨rfl, _⟩ | ⟨rfl, hu, _, _, hs, _⟩
    · exact absurd rfl hne
    · refine .inr ⟨_, .inr ?_, hs.of_quiet q3⟩
      rw [q3.w, q3.curr, hun.1]; rfl
  have q4 : Quiet s s4 := by
    rcases sacSol_cases h1 with ⟨_, rfl⟩ | ⟨h, _⟩
    · exact q3
    · cases h
  clear h1
  have hx : ∃ st5 s5, act P .x2z2 s4 = .ok (st5, s5) ∧ s' = s5 := by
    rcases denPri_cons h with ⟨h1, hne⟩ | ⟨s5, h1, h⟩
    · exact ⟨_, _, denLeaf_ok.mp h1, rfl⟩
    · simp only [denPri] at h
      cases h
      exact ⟨_, _, denLeaf_ok.mp h1, rfl⟩
  obtain ⟨st5, s5, h5, rfl⟩ := hx
  left
  rcases x2z2_cases h5 with ⟨_, rfl⟩ | ⟨_, ha⟩
  · exact q4.w
  · obtain ⟨e, he⟩ := ha.rest
    rw [he]; exact q4.w

theorem runCalls_snoc {w w1 w2 : World} {cs : List (String × List Expr)} {x : String} {s : List Expr}
    (h : runCalls w cs = (w1, none)) (h2 : Sol.setSolved (setSolutions w1 x s) x = (w2, none)) :
    runCalls w (cs ++ [(x, s)]) = (w2, none) := by
  induction cs generalizing w with
  | nil => simp only [runCalls] at h; cases h; simp [runCalls, h2]
  | cons c cs ih =>
    obtain ⟨y, t⟩ := c
    rw [List.cons_append]
    simp only [runCalls] at h ⊢
    split at h
    · cases h
    · next hs => exact ih h

/-- In every run, the graph and the records of the unknowns are made by a sequence of `set_solved` calls. If nothing is solved twice, each
has one or two solutions. -/
theorem path_calls {P : Sympy} {a b : LS} (h : Path P a b) (hi : Inv a) :
    ∃ cs, runCalls a.w cs = (b.w, none) ∧ (b.w.nodes.Nodup → ∀ c ∈ cs, c.2.length = 1 ∨ c.2.length = 2) := by
  induction h with
  | refl => exact ⟨[], rfl, by simp⟩
  | @tail b0 c0 h0 hst ih =>
    obtain ⟨cs, h1, h2⟩ := ih
    have hib := path_inv h0 hi
    rcases hst with h | ⟨hc, h⟩ | h | h
    case work =>
      have hb : (c0.w = b0.w) ∨ ∃ sols, Solves sols b0 c0 ∧ ((b0.w.unk b0.curr).solved = false → sols.length = 1 ∨ sols.length = 2) := by
        by_cases hs : (b0.w.unk b0.curr).solved = true
        · rcases work_cases h with ⟨_, hq⟩ | ⟨_, _, sols, hsol⟩ | ⟨_, s1, hq, ha⟩
          · exact .inl hq.w
          · exact .inr ⟨sols, hsol, fun h => by rw [hs] at h; cases h⟩
          · obtain ⟨e, he⟩ := ha.rest
            exact .inl (by rw [he]; exact hq.w)
        · rcases work_fresh (hib.fresh _ (by simpa using hs)) h with h | ⟨sols, hl, hsol⟩
          · exact .inl h
          · exact .inr ⟨sols, hsol, fun _ => hl⟩
      rcases hb with he | ⟨sols, hsol, hl⟩
      · exact ⟨cs, by rw [h1, he], by rw [he]; exact h2⟩
      · refine ⟨cs ++ [(b0.curr, sols)], runCalls_snoc h1 hsol.w, ?_⟩
        have hst := Sol.setSolved_ok hsol.w
        rw [hst.nodes]
        intro hnd c hc
        have hnd' : (b0.w.nodes ++ [b0.curr]).Nodup := hnd
        rw [List.nodup_append] at hnd'
        rcases List.mem_append.1 hc with hc | hc
        · exact h2 hnd'.1 c hc
        · rw [List.mem_singleton] at hc
          subst hc
          refine hl ?_
          cases hx : (b0.w.unk b0.curr).solved with
          | false => rfl
          | true => exact absurd rfl (hnd'.2.2 _ ((hib.nodes _).1 hx) b0.curr (by simp))
    case assign => obtain ⟨-, c, x, hx, rfl, -⟩ := assigner_cases h; exact ⟨cs, h1, h2⟩
    case sub => exact ⟨cs, by rw [h1, (subTransform_cases h).2.1], by rw [(subTransform_cases h).2.1]; exact h2⟩
    case upd => obtain ⟨-, L, _, rfl⟩ := updateLeaf_cases h; exact ⟨cs, h1, h2⟩

/-- The calls of a run in which nothing was solved twice, as the final state shows them. -/
def callsOf (w : World) : List (String × List Expr) := w.nodes.map fun x => (x, (w.unk x).solutions)

/-- No unknown occurs in its own solutions. (The solvers do not guarantee it: `C37_violation`, `C38_violation`.) -/
def SelfFree (w : World) : Prop := ∀ x, ∀ sol ∈ (w.unk x).solutions, sol.has x = false

/-- A run of the solver in which nothing was solved twice is a run of `set_solved` calls, with one or two solutions each. -/
theorem solve_calls {P : Sympy} {us : List String} {ms : List MEqn} {aux : List KEqn} {st : Status} {s : LS}
    {counter : Nat} (h : solve P us ms aux counter = .ok (st, s)) (hn : s.w.nodes.Nodup) :
    runCalls (start us) (callsOf s.w) = (s.w, none) ∧ ∀ c ∈ callsOf s.w, c.2.length = 1 ∨ c.2.length = 2 := by
  obtain ⟨_, L, _, hp, _⟩ := solve_cases h
  obtain ⟨cs, h1, h2⟩ := path_calls hp (inv_init us ms aux L)
  have h1' : runCalls (start us) cs = (s.w, none) := h1
  have hno := (C19_orders h1').1
  have heq : callsOf s.w = cs := by
    rw [callsOf, hno, List.map_map]
    have : ∀ c ∈ cs, ((fun x => (x, (s.w.unk x).solutions)) ∘ fun c : String × List Expr => c.1) c = c := by
      rintro ⟨x, sols⟩ hc
      obtain ⟨pre, post, rfl⟩ := List.append_of_mem hc
      obtain ⟨w1, w2, _, k2, _, _, _, k6⟩ := run_split (hno ▸ hn) h1'
      simp only [Function.comp, Prod.mk.injEq, true_and]
      rw [k6, k2.solutions]; simp [setSolutions]
    rw [List.map_congr_left this]; simp
  rw [heq]
  exact ⟨h1', h2 hn⟩

theorem callsOf_fresh {w : World} (hn : w.nodes.Nodup) (hf : SelfFree w) : FreshCalls (callsOf w) := by
  refine ⟨?_, ?_⟩
  · rw [callsOf, List.map_map]; simpa [Function.comp_def] using hn
  · intro c hc
    obtain ⟨x, _, rfl⟩ := List.mem_map.1 hc
    exact hf x

/-- When is nothing solved twice? E.g. if the tangent method was never found for the first unknown of the list. -/
theorem C41_nodup_partial {P : Sympy} {us : List String} {ms : List MEqn} {aux : List KEqn} {st : Status} {s : LS}
    {counter : Nat} (h : solve P us ms aux counter = .ok (st, s)) (hh : ∀ x, us.head? = some x → (s.ld x).solvableTan = false) : s.w.nodes.Nodup := by
  obtain ⟨_, L, _, hp, _⟩ := solve_cases h
  rw [List.nodup_iff_count]
  intro x
  refine ((C41_history_partial .refl hp x).2.2 ?_).1
  by_cases hx : us.head? = some x
  · exact .inr (hh x hx)
  · exact .inl hx

/-- C16 and C17 for the solver: after every run in which no unknown was solved twice, the solution table built from the result
contains every combination of solutions exactly once, has as many rows as the product of the numbers of solutions, and each row
has one entry per solved unknown, in the order of the solution nodes. In particular no unknown has more than two solutions, so the limit
of `C16_solution_table_partial` is never reached.
Missing: runs in which the first unknown was solved twice, solutions that contain their own unknown. -/
theorem C16_solver_partial {P : Sympy} {us : List String} {ms : List MEqn} {aux : List KEqn} {st : Status} {s : LS}
    {counter : Nat} (h : solve P us ms aux counter = .ok (st, s)) (hn : s.w.nodes.Nodup) (hf : SelfFree s.w) (hne : s.w.nodes ≠ []) :
    ExactlyOnce (tableInput s.w) (createSolutionSet (tableInput s.w)) ∧
    (createSolutionSet (tableInput s.w)).length = prod (s.w.nodes.map fun x => (s.w.unk x).solutions.length) ∧
    (∀ r ∈ createSolutionSet (tableInput s.w), r.map (·.unk) = s.w.nodes) := by
  obtain ⟨h1, h2⟩ := solve_calls h hn
  have hfr := callsOf_fresh hn hf
  have h17 := C17_end_to_end hfr h1
  have hm : (callsOf s.w).map (·.1) = s.w.nodes := by rw [callsOf, List.map_map]; simp [Function.comp_def]
  rw [hm] at h17
  have hlen : (callsOf s.w).map (·.2.length) = s.w.nodes.map fun x => (s.w.unk x).solutions.length := by
    rw [callsOf, List.map_map]; rfl
  rw [← hlen]
  rcases hcs : callsOf s.w with _ | ⟨⟨x, t⟩, cs⟩
  · rw [callsOf, List.map_eq_nil_iff] at hcs; exact absurd hcs hne
  rw [hcs] at h1 h2 hfr
  obtain ⟨q1, q2⟩ := C16_end_to_end_partial hfr h1 (fun c hc => h2 c (by simp [hc]))
  exact ⟨q1, q2, h17⟩

/-- C19 for the solver: after every run in which no unknown was solved twice, the i-th node records order i+1, its
dependencies are exactly the unknowns of the robot in its solutions, each of them solved earlier, the edges are exactly the dependencies and
form no cycle. -/
theorem C19_solver_partial {P : Sympy} {us : List String} {ms : List MEqn} {aux : List KEqn} {st : Status} {s : LS}
    {counter : Nat} (h : solve P us ms aux counter = .ok (st, s)) (hn : s.w.nodes.Nodup) (hf : SelfFree s.w) :
    (∀ (i : Nat) x, s.w.nodes[i]? = some x →
      (s.w.unk x).solveorder = i + 1 ∧
      (∀ d, d ∈ (s.w.unk x).deps ↔ d ∈ us ∧ ∃ sol ∈ (s.w.unk x).solutions, sol.has d = true) ∧
      (∀ d ∈ (s.w.unk x).deps, (s.w.unk d).solved = true ∧ (s.w.unk d).solveorder < (s.w.unk x).solveorder) ∧
      ∀ d, (x, d) ∈ s.w.edges ↔ d ∈ (s.w.unk x).deps) ∧
    ∀ x, ¬ Relation.TransGen (fun a d => (a, d) ∈ s.w.edges) x x := by
  obtain ⟨h1, h2⟩ := solve_calls h hn
  have hfr := callsOf_fresh hn hf
  refine ⟨fun i x hi => ?_, C19_acyclic_partial hfr h1⟩
  have hi' : (callsOf s.w)[i]? = some (x, (s.w.unk x).solutions) := by simp [callsOf, hi]
  obtain ⟨q1, q2, q3, q4⟩ := C19_dependencies_partial hfr h1 hi'
  exact ⟨q1, q2, fun d hd => (q3 d hd).2, q4⟩

/-- C20 for the solver: the number of versions is the number of solutions (one or two) times the product of the numbers of solutions of the
dependencies, and the version names run cyclically through the solution names. -/
theorem C20_solver_partial {P : Sympy} {us : List String} {ms : List MEqn} {aux : List KEqn} {st : Status} {s : LS}
    {counter : Nat} (h : solve P us ms aux counter = .ok (st, s)) (hn : s.w.nodes.Nodup) (hf : SelfFree s.w) {x : String} (hx : (s.w.unk x).solved = true) :
    ((s.w.unk x).solutions.length = 1 ∨ (s.w.unk x).solutions.length = 2) ∧
    (s.w.unk x).nversions = (s.w.unk x).solutions.length * prod ((s.w.unk x).deps.map fun d => (s.w.unk d).solutions.length) ∧
    (s.w.unk x).versionNames = (List.range (s.w.unk x).nversions).map fun i => .s x (i % (s.w.unk x).solutions.length + 1) := by
  obtain ⟨h1, h2⟩ := solve_calls h hn
  have hfr := callsOf_fresh hn hf
  obtain ⟨_, L, _, hp, _⟩ := solve_cases h
  have hmem : x ∈ s.w.nodes := ((path_inv hp (inv_init us ms aux L)).nodes x).1 hx
  have hc : (x, (s.w.unk x).solutions) ∈ callsOf s.w := List.mem_map.2 ⟨x, hmem, rfl⟩
  refine ⟨h2 _ hc, ?_, C20_version_names hfr h1 hc⟩
  rw [(C20_versions_formula hfr h1 hc).1]
  congr 2
  apply List.map_congr_left
  intro d hd
  obtain ⟨i, hi⟩ := List.mem_iff_getElem?.1 hc
  obtain ⟨⟨j, c, _, hj, rfl⟩, _⟩ := (C19_dependencies_partial hfr h1 hi).2.2.1 d hd
  have hcm := List.mem_of_getElem? hj
  obtain ⟨y, hy, rfl⟩ := List.mem_map.1 hcm
  exact (C20_versions_formula hfr h1 hcm).2.2

/-! ## Concrete runs -/

/-- a matrix equation from its entries (left, right) -/
def matOf (f : Fin 3 → Fin 4 → Expr × Expr) : MEqn := ⟨fun i j => (f i j).1, fun i j => (f i j).2, []⟩
/-- A rotation about th_1: r_11 = cos th_1, r_21 = sin th_1, and further entries. -/
def demoM (p33 p34 : Expr × Expr) : MEqn := matOf fun i j =>
  if i = 0 ∧ j = 0 then (.sym "r_11", .un .cos (.sym "th_1")) else if i = 1 ∧ j = 0 then (.sym "r_21", .un .sin (.sym "th_1"))
  else if i = 2 ∧ j = 2 then p33 else if i = 2 ∧ j = 3 then p34 else (.num 0, .num 0)

/-- status, solution nodes, solutions by node -/
def view (r : Except Crash (Status × LS)) : Option (Status × List String × List (List Expr)) :=
  r.toOption.map fun r => (r.1, r.2.w.nodes, r.2.w.nodes.map fun x => (r.2.w.unk x).solutions)

/-- th_1, d_2 with Pz = d_2 + l_1 -/
def demoTwo : Except Crash (Status × LS) :=
  solve toy ["th_1", "d_2"] [demoM (.num 0, .num 0) (.sym "Pz", .bin .add (.sym "d_2") (.sym "l_1"))] []
/-- Pz = x + l_1, r_33 = y + x: y can only be solved after x -/
def demoThree (us : List String) : Except Crash (Status × LS) :=
  solve toy us [demoM (.sym "r_33", .bin .add (.sym "y") (.sym "x")) (.sym "Pz", .bin .add (.sym "x") (.sym "l_1"))] []

/-- Two unknowns: both solved, SUCCESS. The tangent solution (one branch) beats the sine/cosine solutions (two). -/
theorem demoTwo_view : view demoTwo = some (.success, ["th_1", "d_2"],
    [[.bin .atan2 (.sym "r_21") (.sym "r_11")], [.bin .add (.un .neg (.sym "l_1")) (.sym "Pz")]]) := by decide +kernel

/-- C41 is false of the code: in this successful run the first unknown th_1 is solved, then, after x, solved again: it has two nodes,
and its (right) solution atan2(r_21, r_11) has been replaced by acos(r_11) and the spurious -acos(r_11). -/
theorem C41_resolve_violation : view (demoThree ["th_1", "y", "x"]) = some (.success, ["th_1", "x", "th_1", "y"],
    [[.un .acos (.sym "r_11"), .un .neg (.un .acos (.sym "r_11"))], [.bin .add (.un .neg (.sym "l_1")) (.sym "Pz")],
     [.un .acos (.sym "r_11"), .un .neg (.un .acos (.sym "r_11"))], [.bin .add (.un .neg (.sym "x")) (.sym "r_33")]]) := by decide +kernel
/-- The same robot with its unknowns in another order: nothing is solved twice. -/
theorem demoThree_ok : view (demoThree ["y", "th_1", "x"]) = some (.success, ["th_1", "x", "y"],
    [[.bin .atan2 (.sym "r_21") (.sym "r_11")], [.bin .add (.un .neg (.sym "l_1")) (.sym "Pz")],
     [.bin .add (.un .neg (.sym "x")) (.sym "r_33")]]) := by decide +kernel

/-- Non-vacuity of C41_nodup_partial, C16_solver_partial, C19_solver_partial, C20_solver_partial: this run returns SUCCESS, the first
unknown y has no tangent mark, every solution is free of its unknown, y depends on x. -/
example : ∃ s, demoThree ["y", "th_1", "x"] = .ok (.success, s) ∧ (s.ld "y").solvableTan = false ∧ s.w.nodes.Nodup ∧ SelfFree s.w ∧
    s.w.nodes ≠ [] ∧ (s.w.unk "y").deps = ["x"] ∧ (s.w.unk "x").solved = true := by
  have hv := demoThree_ok
  have hd : (demoThree ["y", "th_1", "x"]).toOption.map (fun r => ((r.2.ld "y").solvableTan, (r.2.w.unk "y").deps, (r.2.w.unk "x").solved))
      = some (false, ["x"], true) := by decide +kernel
  rcases hr : demoThree ["y", "th_1", "x"] with c | ⟨st, s⟩
  · rw [hr] at hv; simp [view, Except.toOption] at hv
  rw [hr] at hv hd
  simp only [view, Except.toOption, Option.map_some, Option.some.injEq, Prod.mk.injEq] at hv hd
  obtain ⟨h1, h2, h3⟩ := hv
  subst h1
  have hn : s.w.nodes.Nodup := by rw [h2]; decide
  refine ⟨s, rfl, hd.1, hn, ?_, by rw [h2]; simp, hd.2.1, hd.2.2⟩
  have hcalls := (solve_calls hr hn).1
  intro x sol hsol
  by_cases hx : x ∈ s.w.nodes
  · rw [h2] at hx h3
    simp only [List.map_cons, List.map_nil, List.cons.injEq, and_true] at h3
    simp only [List.mem_cons, List.not_mem_nil, or_false] at hx
    rcases hx with rfl | rfl | rfl
    · rw [h3.1] at hsol; revert sol; decide
    · rw [h3.2.1] at hsol; revert sol; decide
    · rw [h3.2.2] at hsol; revert sol; decide
  · have : s.w.unk x = {} := by
      refine run_frame hcalls ?_
      rwa [callsOf, List.map_map, show ((fun c : String × List Expr => c.1) ∘ fun x => (x, (s.w.unk x).solutions)) = id from rfl, List.map_id]
    rw [this] at hsol; cases hsol

/-- Non-vacuity of C44_subtree: th_1 is new, both solvers find candidates, the subtree succeeds. -/
example :
    let L : Lists := ⟨[⟨.sym "r_11", .un .cos (.sym "th_1")⟩, ⟨.sym "r_21", .un .sin (.sym "th_1")⟩], [], []⟩
    let s : LS := { w := Sol.start ["th_1"], lists := L, ms := [], curr := "th_1" }
    Untouched s s.curr ∧ (den (env toy) 0 scTan s).toOption.map (fun r => (r.1, (r.2.w.unk "th_1").solutions, (r.2.ld "th_1").scSols)) =
      some (.success, [.bin .atan2 (.sym "r_21") (.sym "r_11")], [.un .acos (.sym "r_11"), .un .neg (.un .acos (.sym "r_11"))]) :=
  ⟨⟨rfl, rfl⟩, by decide +kernel⟩

/-- C45, both outcomes occur: here d_2 is in no equation. -/
example : view (solve toy ["d_2", "th_1"] [demoM (.num 0, .num 0) (.num 0, .num 0)] []) =
    some (.failure, ["th_1"], [[.bin .atan2 (.sym "r_21") (.sym "r_11")]]) := by decide +kernel

end Verif.Solver
