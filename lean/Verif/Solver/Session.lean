import Verif.Solver.Props
import Verif.Solver.Report
import Verif.Solver.Method
import Verif.Solver.AbortKinds
import Verif.Solver.Exact
import Verif.Solver.Progress
import Verif.BT.CrashClaims
/-!
# C87: several robots in one process

ikSolver.py solves one robot. A program that imports the same leaves may build the tree once (ikSolver.py:122-243) and tick it for one robot
after another, with a new `b3.Blackboard()` for each or with the same one, and catch what a run raises. Node objects keep their statistics,
a blackboard its open marks, its loop counters, and the keys `counter` (assigner_leaf.py:36-54) and `curr_unk`; the other keys are written
again before each tick (ikSolver.py:328-337). The only attribute a leaf object writes in `tick`, `x2z2_transform.SolvedOneFlag`
(x2y2_transform.py:155, 283), is read nowhere.
-/
namespace Verif.Solver
open Verif.Leaf Verif.Eqn Verif.Sol Verif.Sym
open Verif.BT hiding Tree

/-! ## Model -/

/-- A robot as ikSolver.py:325-337 hands it to the tree, and whether a new blackboard is made for it (ikSolver.py:325). -/
structure Job where
  unknowns : List String
  ms : List MEqn
  aux : List KEqn
  newBoard : Bool

/-- The leaves, with what they leave behind when they raise (ikbtleaves; `left` is arbitrary). -/
def xenv (P : Sympy) (left : LeafName → LS → LS) : XEnv LS LeafName where
  act l s := match act P l s with
    | .ok (st, s') => (s', .ok st)
    | .error c => (left l s, .error c)
  now s := (0, s)

/-- `b3.Blackboard()` (blackboard.py:5-10): no marks, no loop counters, no keys. The statistics are in the node objects. -/
def freshBoard (st : St LS) : St LS :=
  { st with isOpen := fun _ => false, cnt := fun _ => none, start := fun _ => none, totalCost := 0,
            user := { st.user with counter := 0, curr := "" } }

/-- The blackboard of a job (ikSolver.py:325, or the old one). -/
def boardOf (j : Job) (st : St LS) : St LS := if j.newBoard then freshBoard st else st

/-- ikSolver.py:325-354 for one more robot: the unknown objects and the robot are new, the lists are made and written, the tree is
ticked. The result is what `ikbt.tick` returns and the blackboard then holds, or the exception. -/
def runJob (P : Sympy) (left : LeafName → LS → LS) (j : Job) (st : St LS) : St LS × Except Crash (Status × LS) :=
  match scanForEquations P.toCAS j.ms j.aux (j.unknowns.map fun n => ⟨n, false⟩) with
  | .error _ => (boardOf j st, .error (.leaf 1))
  | .ok L =>
    let b := boardOf j st
    let r := xtreeTick (xenv P left) 0 topnode { b with user := { w := Sol.start j.unknowns, lists := L, ms := j.ms, aux := j.aux, counter := b.user.counter, curr := b.user.curr } }
    (r.1, r.2.map fun s => (s, r.1.user))

/-- What is seen of a job: `counter` on its blackboard before, the result. -/
structure JobSeen where
  job : Job
  counter : Nat
  result : Except Crash (Status × LS)

/-- One robot after the other; the program catches exceptions and goes on (a driver around ikSolver.py:325-354). -/
def session (P : Sympy) (left : LeafName → LS → LS) : List Job → St LS → List JobSeen
  | [], _ => []
  | j :: js, st => ⟨j, (boardOf j st).user.counter, (runJob P left j st).2⟩ :: session P left js (runJob P left j st).1

/-- Where a process starts: nothing was ever ticked. (ikSolver.py:122, 325) -/
def process : St LS := { user := { w := Sol.start [], lists := ⟨[], [], []⟩, ms := [] } }

/-! ## Proofs -/

theorem xenv_env (P : Sympy) (left : LeafName → LS → LS) : (xenv P left).env = env P := by
  unfold XEnv.env xenv env
  congr 1
  funext l s
  dsimp only
  cases act P l s <;> rfl

theorem xenv_noRunning (P : Sympy) (left : LeafName → LS → LS) : (xenv P left).NoRunning := by
  intro l s h
  unfold xenv at h
  dsimp only at h
  split at h
  · next st s' h1 =>
    cases h
    rcases act_two P l s _ _ h1 with h | h <;> cases h
  · cases h

theorem topnode_untimed : topnode.Untimed := by
  simp [topnode, solveRoutine, subtree, attempt, worktools, scTan, simuSol, sacSol, scSol, algSol, tanSol, sq, lf,
    BT.Tree.Untimed, UntimedList, DKind.timed]

theorem topnode_ids : ∀ i ∈ topnode.counterIds, i ∉ topnode.plainIds := by decide

theorem tick_den (P : Sympy) (u : LS) : (match treeTick (env P) 0 topnode { user := u } with
    | .error c => .error c
    | .ok (s, st) => .ok (s, st.user)) = den (env P) 0 topnode u := by
  have := exec_obs (env_noRunning P) 0 topnode topnode_acyclic { user := u } (fun j _ => rfl)
  rw [← this]
  unfold treeTick
  show _ = obs (exec (env P) 0 topnode _)
  cases exec (env P) 0 topnode { user := u } with
  | error c => rfl
  | ok r => rfl

/-- The engine in any leftover state, seen from outside, is the denotation. -/
theorem xtick_den (P : Sympy) (left : LeafName → LS → LS) (st : St LS) (hr : Ready (· ∈ topnode.counterIds) st) :
    Ready (· ∈ topnode.counterIds) (xtreeTick (xenv P left) 0 topnode st).1 ∧
    ((xtreeTick (xenv P left) 0 topnode st).2.map fun s => (s, (xtreeTick (xenv P left) 0 topnode st).1.user)) =
      den (env P) 0 topnode st.user := by
  have h0 := two_exec (C := (· ∈ topnode.counterIds)) (xenv P left) (xenv_noRunning P left) 0 topnode topnode_untimed (fun _ h => h)
    (fun i hi h => topnode_ids i h hi) { st with stack := [], count := 0 } { user := st.user, stack := [], count := 0 }
    ⟨rfl, rfl, hr, fun i _ ho => by cases ho⟩
  refine ⟨h0.alike.ra, ?_⟩
  have hs := C84_same_engine (xenv P left) 0 topnode { user := st.user }
  rw [xenv_env] at hs
  rw [← tick_den, hs]
  have hu := h0.alike.user
  have ho := h0.out
  change (xtreeTick (xenv P left) 0 topnode st).1.user = (xtreeTick (xenv P left) 0 topnode { user := st.user }).1.user at hu
  change (xtreeTick (xenv P left) 0 topnode st).2 = (xtreeTick (xenv P left) 0 topnode { user := st.user }).2 at ho
  rw [ho, hu]
  obtain ⟨a, r⟩ := xtreeTick (xenv P left) 0 topnode { user := st.user }
  cases r <;> rfl

theorem boardOf_ready (j : Job) {st : St LS} (hr : Ready (· ∈ topnode.counterIds) st) : Ready (· ∈ topnode.counterIds) (boardOf j st) := by
  unfold boardOf
  split
  · intro i _ ho; cases ho
  · exact hr

theorem runJob_solve (P : Sympy) (left : LeafName → LS → LS) (j : Job) (st : St LS) (hr : Ready (· ∈ topnode.counterIds) st) :
    Ready (· ∈ topnode.counterIds) (runJob P left j st).1 ∧
    (runJob P left j st).2 = solve P j.unknowns j.ms j.aux (boardOf j st).user.counter := by
  rw [solve_eq]
  unfold runJob
  cases scanForEquations P.toCAS j.ms j.aux (j.unknowns.map fun n => ⟨n, false⟩) with
  | error e => exact ⟨boardOf_ready j hr, rfl⟩
  | ok L =>
    dsimp only
    obtain ⟨h1, h2⟩ := xtick_den P left { boardOf j st with user := { w := Sol.start j.unknowns, lists := L, ms := j.ms, aux := j.aux, counter := (boardOf j st).user.counter, curr := (boardOf j st).user.curr } } (boardOf_ready j hr)
    refine ⟨h1, h2.trans ?_⟩
    exact topnode_warm ⟨rfl, rfl⟩

/-! ## The theorems -/

/-- C87: whatever robots were solved before, with the same tree, with the same or with other blackboards, and whatever the runs raised and
left behind: the result of a run (status and blackboard, or exception) is that of the first run of a process on the same robot, up to the
`counter` that its blackboard holds. -/
theorem C87_only_counter (P : Sympy) (left : LeafName → LS → LS) (js : List Job) :
    ∀ o ∈ session P left js process, o.result = solve P o.job.unknowns o.job.ms o.job.aux o.counter := by
  suffices h : ∀ js (st : St LS), Ready (· ∈ topnode.counterIds) st → ∀ o ∈ session P left js st,
      o.result = solve P o.job.unknowns o.job.ms o.job.aux o.counter from h js _ (fun i _ ho => by cases ho)
  intro js
  induction js with
  | nil => intro st _ o ho; cases ho
  | cons j js ih =>
    intro st hr o ho
    obtain ⟨h1, h2⟩ := runJob_solve P left j st hr
    rcases List.mem_cons.1 ho with rfl | ho
    · exact h2
    · exact ih _ h1 o ho

/-- C87, with a new blackboard for the robot: the run is that of a process of its own. -/
theorem C87_new_board_partial (P : Sympy) (left : LeafName → LS → LS) (js : List Job) :
    ∀ o ∈ session P left js process, o.job.newBoard = true → o.result = solve P o.job.unknowns o.job.ms o.job.aux := by
  have hc : ∀ js (st : St LS), ∀ o ∈ session P left js st, o.job.newBoard = true → o.counter = 0 := by
    intro js
    induction js with
    | nil => intro st o ho; cases ho
    | cons j js ih =>
      intro st o ho hn
      rcases List.mem_cons.1 ho with rfl | ho
      · dsimp only at hn ⊢
        rw [boardOf, if_pos hn]; rfl
      · exact ih _ o ho hn
  intro o ho hn
  rw [C87_only_counter P left js o ho, hc js _ o ho hn]

/-- C87: every counter beyond the list of the unknowns is as good as the length of the list. -/
theorem C87_large_counter (P : Sympy) (us : List String) (ms : List MEqn) (aux : List KEqn) (k : Nat) :
    solve P us ms aux k = solve P us ms aux (min k us.length) := by
  rw [solve_eq, solve_eq]
  cases scanForEquations P.toCAS ms aux (us.map fun n => ⟨n, false⟩) with
  | error e => rfl
  | ok L => exact topnode_warm ⟨rfl, pick_min _ _⟩

/-- C87: what a user may rely on with an old blackboard, too. A run that returns says SUCCESS exactly if it has solved every unknown; the
equations it shows follow from those of this robot (not of an earlier one); every solved unknown has a method and solutions; a run that
raises raises a failed assertion or the NameError of sum_id.py. -/
theorem C87_guarantees {P : Sympy} {G} (hP : P.Sound G) (left : LeafName → LS → LS) (js : List Job) (o : JobSeen) (ho : o ∈ session P left js process) :
    (∀ st s, o.result = .ok (st, s) →
      (st = .success ↔ ∀ x ∈ o.job.unknowns, (s.w.unk x).solved = true) ∧
      (∀ x, Implied G o.job.ms o.job.aux ((s.ld x).eqn.toList ++ (s.ld x).second.toList)) ∧
      ∀ x ∈ s.w.nodes, (s.ld x).method ≠ [] ∧ (s.w.unk x).solutions ≠ []) ∧
    ∀ c, o.job.unknowns ≠ [] → o.result = .error c → c = .leaf 1 ∨ c = .leaf 4 := by
  rw [C87_only_counter P left js o ho]
  exact ⟨fun st s h => ⟨(C45_success_iff_all_solved h).2.1, fun x => C77_shown_equations_follow hP h x,
    fun x hx => ⟨C62_solved_has_method h x hx, (C62_solutions_counted h x hx).2.1⟩⟩, fun c hu h => C76_exceptions hu h⟩

/-- C87: robots with at most six unknowns that the equations determine one after another are solved with any blackboard (as in C58, if no
auxiliary equation was added on the way). -/
theorem C87_determined_partial {P : Sympy} {G} (hP : P.Sound G)
    (hratio : ∀ a b x, (P.ratio a b).has x = true → a.has x = true ∨ b.has x = true)
    (hrefl : ∀ a, P.eqv a a = true) (hresp : ∀ x e e', SameEqn P.toCAS e' e → LinearIn P x e → LinearIn P x e')
    (left : LeafName → LS → LS) (js : List Job) (o : JobSeen) (ho : o ∈ session P left js process) {order : List String}
    (hnd : o.job.unknowns.Nodup) (hlad : Ladder P o.job.unknowns (Given o.job.ms o.job.aux) order) (hlen : o.job.unknowns.length ≤ 6)
    {st : Status} {s : LS} (h : o.result = .ok (st, s)) (haux : s.aux.length = o.job.aux.length) : st = .success := by
  rw [C87_only_counter P left js o ho] at h
  exact C58_six_partial hP hratio hrefl hresp hnd hlad h hlen haux

/-! ## Runs -/

/-- A robot with one unknown, x = Pz - l_1 (input of `session`, as assembled at ikSolver.py:325-337). -/
def oneJob : Job := ⟨["x"], [demoM (.num 0, .num 0) (.sym "Pz", .bin .add (.sym "x") (.sym "l_1"))], [], true⟩
/-- The robot of `demoThree` with the unknowns in the order th_1, y, x (input of `session`, as assembled at ikSolver.py:325-337). -/
def threeJob (new : Bool) : Job :=
  ⟨["th_1", "y", "x"], [demoM (.sym "r_33", .bin .add (.sym "y") (.sym "x")) (.sym "Pz", .bin .add (.sym "x") (.sym "l_1"))], [], new⟩

theorem session_two (P : Sympy) (left : LeafName → LS → LS) (a b : Job) {st : Status} {s : LS} (ha : a.newBoard = true) (hb : b.newBoard = false)
    (h : solve P a.unknowns a.ms a.aux = .ok (st, s)) :
    (session P left [a, b] process).map (fun o => (o.counter, o.result)) =
      [(0, .ok (st, s)), (s.counter, solve P b.unknowns b.ms b.aux s.counter)] := by
  have r0 : Ready (· ∈ topnode.counterIds) process := fun i _ ho => by cases ho
  obtain ⟨r1, h1⟩ := runJob_solve P left a process r0
  obtain ⟨_, h2⟩ := runJob_solve P left b (runJob P left a process).1 r1
  have hc : (boardOf a process).user.counter = 0 := by rw [boardOf, if_pos ha]; rfl
  have hk : (runJob P left a process).1.user = s := by
    rw [hc, h] at h1
    unfold runJob at h1 ⊢
    split
    · next he => rw [he] at h1; cases h1
    · next L he =>
      rw [he] at h1
      dsimp only at h1 ⊢
      generalize xtreeTick _ _ _ _ = r at h1 ⊢
      obtain ⟨r1, r2⟩ := r
      cases r2 with
      | error _ => cases h1
      | ok st' => cases h1; rfl
  have hbd : boardOf b (runJob P left a process).1 = (runJob P left a process).1 := by rw [boardOf, hb]; rfl
  simp only [session, List.map_cons, List.map_nil, h1, h2, hc, hbd, hk, h]

/-- C87 is false of the code for an old blackboard. After a robot with one unknown, the blackboard holds the counter 1; on it, the next
robot is solved in another order than with a new blackboard: x and th_1 and y, instead of th_1, x, th_1 again and y, and th_1 gets the one
solution of the tangent method instead of the two of the arc cosine, so that the reports and the programs written for it differ (one pose
instead of two). -/
theorem C87_old_board_violation (left : LeafName → LS → LS) :
    (session toy left [oneJob, threeJob false] process).map (fun o => (o.counter, view o.result)) =
      [(0, some (.success, ["x"], [[.bin .add (.un .neg (.sym "l_1")) (.sym "Pz")]])),
       (1, view (solve toy (threeJob false).unknowns (threeJob false).ms [] 1))] ∧
    (view (solve toy (threeJob false).unknowns (threeJob false).ms [] 1)).map (·.2.1) = some ["x", "th_1", "y"] ∧
    (view (solve toy (threeJob true).unknowns (threeJob true).ms [])).map (·.2.1) = some ["th_1", "x", "th_1", "y"] ∧
    (solve toy (threeJob false).unknowns (threeJob false).ms [] 1).toOption.map (fun r => (r.2.w.unk "th_1").solutions) =
      some [.bin .atan2 (.sym "r_21") (.sym "r_11")] ∧
    (solve toy (threeJob true).unknowns (threeJob true).ms []).toOption.map (fun r => (r.2.w.unk "th_1").solutions) =
      some [.un .acos (.sym "r_11"), .un .neg (.un .acos (.sym "r_11"))] := by
  have hv : (solve toy oneJob.unknowns oneJob.ms oneJob.aux).toOption.map (fun r => (r.1, r.2.counter)) = some (.success, 1) := by decide +kernel
  have hw : view (solve toy oneJob.unknowns oneJob.ms oneJob.aux) = some (.success, ["x"], [[.bin .add (.un .neg (.sym "l_1")) (.sym "Pz")]]) := by
    decide +kernel
  refine ⟨?_, by decide +kernel, by decide +kernel, by decide +kernel, by decide +kernel⟩
  cases hr : solve toy oneJob.unknowns oneJob.ms oneJob.aux with
  | error c => rw [hr] at hv; cases hv
  | ok r =>
    obtain ⟨st, s⟩ := r
    have h2 := session_two toy left oneJob (threeJob false) rfl rfl hr
    rw [hr] at hv hw
    have hs : s.counter = 1 := by
      simp only [Except.toOption, Option.map_some, Option.some.injEq, Prod.mk.injEq] at hv; exact hv.2
    have h3 := congrArg (List.map fun p : Nat × Except Crash (Status × LS) => (p.1, view p.2)) h2
    rw [List.map_map] at h3
    refine h3.trans ?_
    simp only [List.map_cons, List.map_nil, hs, hw]
    rfl

/-- Non-vacuity of C87_only_counter, C87_new_board_partial and C87_guarantees: a session of three robots, one of them on an old blackboard
and one that raises (no matrix equation); the sum-of-angles set-up is not needed. -/
example (left : LeafName → LS → LS) : ∃ o1 o2 o3, session toy left [oneJob, ⟨["x"], [], [], true⟩, threeJob true] process = [o1, o2, o3] ∧
    o1.job.newBoard = true ∧ (view o1.result).map (·.2.1) = some ["x"] ∧
    o3.job.newBoard = true ∧ (view o3.result).map (·.2.1) = some ["th_1", "x", "th_1", "y"] ∧ (view o2.result).isNone := by
  refine ⟨_, _, _, rfl, rfl, ?_, rfl, ?_, ?_⟩
  · rw [C87_new_board_partial toy left [oneJob, ⟨["x"], [], [], true⟩, threeJob true] _ (List.mem_cons_self) rfl]
    exact (by decide +kernel : (view (solve toy oneJob.unknowns oneJob.ms oneJob.aux)).map (·.2.1) = some ["x"])
  · rw [C87_new_board_partial toy left [oneJob, ⟨["x"], [], [], true⟩, threeJob true] _
      (List.mem_cons_of_mem _ (List.mem_cons_of_mem _ List.mem_cons_self)) rfl]
    exact (by decide +kernel : (view (solve toy (threeJob true).unknowns (threeJob true).ms (threeJob true).aux)).map (·.2.1) = some ["th_1", "x", "th_1", "y"])
  · rw [C87_new_board_partial toy left [oneJob, ⟨["x"], [], [], true⟩, threeJob true] _ (List.mem_cons_of_mem _ List.mem_cons_self) rfl]
    exact (by decide +kernel : (view (solve toy ["x"] [] [])).isNone = true)

end Verif.Solver
