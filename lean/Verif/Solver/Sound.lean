import Verif.Solver.Complete
/-!
# C53: do the computed joint vectors reach the pose?

Every reachable pose has a row of the solution table all of whose evaluations reach the pose; but not every row does.
-/
namespace Verif.Solver
open Verif.Leaf Verif.Eqn Verif.Sol Verif.Sym
open Verif.BT hiding Tree

/-! ## Full turns -/

/-- Syntactic test of an expression, given the symbols that stand for angles:
`.1`: it does not change when angles are changed by full turns (angles occur only in sums inside sines and cosines);
`.2`: it changes by full turns only. -/
def turns (A : String → Bool) : Expr → Bool × Bool
  | .num _ => (true, true)
  | .sym s => (!A s, true)
  | .un .sin a => ((turns A a).2, (turns A a).2)
  | .un .cos a => ((turns A a).2, (turns A a).2)
  | .un .neg a => turns A a
  | .un _ a => ((turns A a).1, (turns A a).1)
  | .bin .add a b => ((turns A a).1 && (turns A b).1, (turns A a).2 && (turns A b).2)
  | .bin _ a b => ((turns A a).1 && (turns A b).1, (turns A a).1 && (turns A b).1)

/-- The assignments agree, the angles among the symbols up to full turns. -/
def TurnOn (A : String → Bool) (v v' : String → ℝ) (e : Expr) : Prop :=
  ∀ s, e.has s = true → v s = v' s ∨ (A s = true ∧ SameAngle (v s) (v' s))

theorem _root_.Verif.Leaf.SameAngle.rfl {x : ℝ} : SameAngle x x := ⟨0, by simp⟩
theorem _root_.Verif.Leaf.SameAngle.neg {x y : ℝ} (h : SameAngle x y) : SameAngle (-x) (-y) := by
  obtain ⟨k, hk⟩ := h
  exact ⟨-k, by rw [hk]; push_cast; ring⟩
theorem _root_.Verif.Leaf.SameAngle.add {x y x' y' : ℝ} (h : SameAngle x y) (h' : SameAngle x' y') : SameAngle (x + x') (y + y') := by
  obtain ⟨k, hk⟩ := h
  obtain ⟨l, hl⟩ := h'
  exact ⟨k + l, by rw [hk, hl]; push_cast; ring⟩

theorem turns_sound {A : String → Bool} {v v' : String → ℝ} : ∀ {e : Expr}, TurnOn A v v' e →
    ((turns A e).1 = true → e.eval v = e.eval v') ∧ ((turns A e).2 = true → SameAngle (e.eval v) (e.eval v'))
  | .num q, _ => ⟨fun _ => rfl, fun _ => SameAngle.rfl⟩
  | .sym s, h => by
    have hs := h s (by simp [Expr.has])
    refine ⟨fun k => ?_, fun _ => ?_⟩
    · simp only [turns, Bool.not_eq_true'] at k
      rcases hs with hs | ⟨ha, _⟩
      · exact hs
      · rw [k] at ha; cases ha
    · rcases hs with hs | ⟨_, hs⟩
      · rw [Expr.eval, Expr.eval, hs]; exact SameAngle.rfl
      · exact hs
  | .un f a, h => by
    obtain ⟨h1, h2⟩ := turns_sound (e := a) (fun s hs => h s (by simpa [Expr.has] using hs))
    cases f
    case neg =>
      simp only [turns, Expr.eval, Fn1.eval]
      exact ⟨fun k => by rw [h1 k], fun k => (h2 k).neg⟩
    case sin =>
      simp only [turns, Expr.eval, Fn1.eval]
      have := fun k => (sameAngle_iff.1 (h2 k)).1
      exact ⟨this, fun k => by rw [this k]; exact SameAngle.rfl⟩
    case cos =>
      simp only [turns, Expr.eval, Fn1.eval]
      have := fun k => (sameAngle_iff.1 (h2 k)).2
      exact ⟨this, fun k => by rw [this k]; exact SameAngle.rfl⟩
    all_goals
      simp only [turns, Expr.eval]
      exact ⟨fun k => by rw [h1 k], fun k => by rw [h1 k]; exact SameAngle.rfl⟩
  | .bin f a b, h => by
    obtain ⟨h1, h2⟩ := turns_sound (e := a) (fun s hs => h s (by simp [Expr.has, hs]))
    obtain ⟨h3, h4⟩ := turns_sound (e := b) (fun s hs => h s (by simp [Expr.has, hs]))
    cases f
    case add =>
      simp only [turns, Expr.eval, Fn2.eval, Bool.and_eq_true]
      exact ⟨fun k => by rw [h1 k.1, h3 k.2], fun k => (h2 k.1).add (h4 k.2)⟩
    all_goals
      simp only [turns, Expr.eval, Bool.and_eq_true]
      exact ⟨fun k => by rw [h1 k.1, h3 k.2], fun k => by rw [h1 k.1, h3 k.2]; exact SameAngle.rfl⟩

/-- The unknowns that have an angle among their solutions. -/
def angleUnk (w : World) (x : String) : Bool := (w.unk x).solutions.any isAngle

/-- Only given unknowns are solved. -/
theorem nodes_sub {P : Sympy} {us : List String} {ms : List MEqn} {aux : List KEqn} {st : Status} {s : LS}
    {counter : Nat} (h : solve P us ms aux counter = .ok (st, s)) : ∀ x ∈ s.w.nodes, x ∈ us := by
  obtain ⟨_, L, hL, hp, _⟩ := solve_cases h
  have hfin := hp.inv (I := fun s => Inv s ∧ ∀ x, (s.w.unk x).solved = true → x ∈ s.w.unknowns) (fun a b ha hst => ⟨inv_step ha.1 hst, by
    intro x hx
    rw [path_unknowns (Path.one hst)]
    have ha := ha.2
    cases hst with
    | assign h => obtain ⟨-, c, y, hy, rfl, -⟩ := assigner_cases h; exact ha x hx
    | work hc h =>
      rcases work_cases h with ⟨_, hq⟩ | ⟨_, _, sols, hs⟩ | ⟨_, s1, hq, hadd⟩
      · rw [hq.w] at hx; exact ha x hx
      · by_cases hxc : x = a.curr
        · rw [hxc]; exact hc.1
        · have hst := Sol.setSolved_ok hs.w
          have he : b.w.unk x = a.w.unk x := by rw [hst.other x hxc]; exact Sol.upd_other _ _ hxc
          rw [he] at hx; exact ha x hx
      · obtain ⟨e, he⟩ := hadd.rest
        have hw : b.w = a.w := by rw [he]; exact hq.w
        rw [hw] at hx; exact ha x hx
    | sub h => obtain ⟨-, h1, -⟩ := subTransform_cases h; rw [h1] at hx; exact ha x hx
    | upd h => obtain ⟨-, L, _, rfl⟩ := updateLeaf_cases h; exact ha x hx⟩)
    ⟨inv_init us ms aux L, fun x hx => by simp [init, Sol.start] at hx⟩
  intro x hx
  have := hfin.2 x ((hfin.1.nodes x).2 hx)
  rw [path_unknowns hp] at this
  exact this

/-- The values `v'` follow the choice `c` of solutions: each solved unknown has the value of the chosen solution (angles modulo 2π), computed
from the values `v'` gives to the symbols in it. -/
def Follows (w : World) (c : List Nat) (v' : String → ℝ) : Prop :=
  ∀ (i : Nat) x j sol, w.nodes[i]? = some x → c[i]? = some j → (w.unk x).solutions[j]? = some sol → Gives v' x sol

/-- One row of the table gives, however it is evaluated, the values of v, angles up to full turns. -/
theorem row_close {P : Sympy} {G} (hP : P.Sound G) {us : List String} {ms : List MEqn} {aux : List KEqn} {st : Status}
    {s : LS} {counter : Nat} (h : solve P us ms aux counter = .ok (st, s)) (hn : s.w.nodes.Nodup) (hf : SelfFree s.w) (hne : s.w.nodes ≠ [])
    {v : String → ℝ} (hG : G v) (hpi : v "pi" = Real.pi) (hsum : RespectsSums v)
    (hv : Satisfies v ms aux) (hg : ∀ g ∈ s.guards, g.eval v ≠ 0)
    {A : String → Bool} (hA : ∀ x, angleUnk s.w x = true → A x = true) (hsols : ∀ x ∈ s.w.nodes, ∀ sol ∈ (s.w.unk x).solutions, (turns A sol).2 = true ∧
      (A x = false → (turns A sol).1 = true)) :
    ∃ (k : Nat) (r : Row), (createSolutionSet (tableInput s.w))[k]? = some r ∧
      ∀ v' : String → ℝ, (∀ y, y ∉ s.w.nodes → v' y = v y) → Follows s.w (picks (tableInput s.w) r) v' →
        ∀ x ∈ s.w.nodes, v x = v' x ∨ (A x = true ∧ SameAngle (v x) (v' x)) := by
  obtain ⟨c, hcl, hc, k, r, hr, hpk, -⟩ := C51_row_partial hP h hn hf hne hG hpi hsum hv hg
  refine ⟨k, r, hr, fun v' hout hfol => ?_⟩
  rw [hpk] at hfol
  have hus := nodes_sub h
  have hdep := (C19_solver_partial h hn hf).1
  have hord : ∀ x, x ∈ s.w.nodes → ∃ (i : Nat), s.w.nodes[i]? = some x ∧ (s.w.unk x).solveorder = i + 1 := by
    intro x hx
    obtain ⟨i, hi⟩ := List.mem_iff_getElem?.1 hx
    exact ⟨i, hi, (hdep i x hi).1⟩
  have key : ∀ n, ∀ x ∈ s.w.nodes, (s.w.unk x).solveorder ≤ n →
      v x = v' x ∨ (A x = true ∧ SameAngle (v x) (v' x)) := by
    intro n
    induction n with
    | zero =>
      intro x hx hle
      obtain ⟨i, _, ho⟩ := hord x hx
      omega
    | succ n ih =>
      intro x hx hle
      obtain ⟨i, hi, ho⟩ := hord x hx
      obtain ⟨j, sol, h1, h2, h3⟩ := hc i x hi
      have h4 : Gives v' x sol := hfol i x j sol hi h1 h2
      have hm : sol ∈ (s.w.unk x).solutions := List.mem_of_getElem? h2
      have ht : TurnOn A v v' sol := by
        intro y hy
        by_cases hyn : y ∈ s.w.nodes
        · have hd := ((hdep i x hi).2.1 y).2 ⟨hus y hyn, sol, hm, hy⟩
          have hlt := ((hdep i x hi).2.2.1 y hd).2
          exact ih y hyn (by omega)
        · exact .inl (hout y hyn).symm
      obtain ⟨t1, t2⟩ := turns_sound ht
      obtain ⟨q1, q2⟩ := hsols x hx sol hm
      by_cases ha : A x = true
      · right
        refine ⟨ha, ?_⟩
        have g1 : SameAngle (v x) (sol.eval v) := by
          rcases h3 with h3 | h3
          · rw [h3]; exact SameAngle.rfl
          · exact h3.2
        have g2 : SameAngle (v' x) (sol.eval v') := by
          rcases h4 with h4 | h4
          · rw [h4]; exact SameAngle.rfl
          · exact h4.2
        exact (g1.trans (t2 q1)).trans g2.symm
      · have hna : isAngle sol = false := by
          have ha : ¬ angleUnk s.w x = true := fun h => ha (hA x h)
          rw [Bool.not_eq_true, angleUnk, List.any_eq_false] at ha
          simpa using ha sol hm
        left
        rw [Bool.not_eq_true] at ha
        rcases h3 with h3 | h3
        · rcases h4 with h4 | h4
          · rw [h3, h4]; exact t1 (q2 ha)
          · rw [hna] at h4; cases h4.1
        · rw [hna] at h3; cases h3.1
  exact fun x hx => key _ x hx (Nat.le_refl _)

/-- C53, the part that holds: for every sympy that is sound at v and every run in which nothing was solved twice and no unknown is in its own
solutions: if v satisfies the equations (so the pose it gives to the symbols of the target is reachable) and makes no divisor zero, the
solution table has a row such that every assignment that has v's values for pose and parameters and follows the row satisfies all matrix
equations: at least one row reaches the pose. `A` says which symbols are angles (at least those
solved by an arc function); the equations and solutions must use angles only in sums, the equations only inside sines and cosines, the solutions
of the other unknowns likewise.
Missing: the other rows, which need not reach the pose (`C53_spurious_row_violation`). -/
theorem C53_some_row_reaches_partial {P : Sympy} {G} (hP : P.Sound G) {us : List String} {ms : List MEqn} {aux : List KEqn} {st : Status}
    {s : LS} {counter : Nat} (h : solve P us ms aux counter = .ok (st, s)) (hn : s.w.nodes.Nodup) (hf : SelfFree s.w) (hne : s.w.nodes ≠ [])
    {v : String → ℝ} (hG : G v) (hpi : v "pi" = Real.pi) (hsum : RespectsSums v)
    (hv : Satisfies v ms aux) (hg : ∀ g ∈ s.guards, g.eval v ≠ 0)
    {A : String → Bool} (hA : ∀ x, angleUnk s.w x = true → A x = true)
    (hms : ∀ m ∈ ms, ∀ i j, (turns A (m.td i j)).1 = true ∧ (turns A (m.ts i j)).1 = true)
    (hsols : ∀ x ∈ s.w.nodes, ∀ sol ∈ (s.w.unk x).solutions, (turns A sol).2 = true ∧
      (A x = false → (turns A sol).1 = true)) :
    ∃ (k : Nat) (r : Row), (createSolutionSet (tableInput s.w))[k]? = some r ∧
      ∀ v' : String → ℝ, (∀ y, y ∉ s.w.nodes → v' y = v y) → Follows s.w (picks (tableInput s.w) r) v' →
        (∀ m ∈ ms, MHolds v' m) ∧ ∀ x ∈ s.w.nodes, v x = v' x ∨ (A x = true ∧ SameAngle (v x) (v' x)) := by
  obtain ⟨k, r, hr, hc⟩ := row_close hP h hn hf hne hG hpi hsum hv hg hA hsols
  refine ⟨k, r, hr, fun v' hout hfol => ⟨fun m hm i j => ?_, hc v' hout hfol⟩⟩
  have hT : ∀ e : Expr, TurnOn A v v' e := by
    intro e y _
    by_cases hyn : y ∈ s.w.nodes
    · exact hc v' hout hfol y hyn
    · exact .inl (hout y hyn).symm
  rw [← (turns_sound (hT _)).1 (hms m hm i j).1, ← (turns_sound (hT _)).1 (hms m hm i j).2]
  exact hv.1 m hm i j

/-! ## Concrete runs -/

/-- r_11 = sin th_1, r_12 = sin th_1 + cos th_1 -/
def spurM : MEqn := matOf fun i j =>
  if i = 0 ∧ j = 0 then (.sym "r_11", .un .sin (.sym "th_1"))
  else if i = 0 ∧ j = 1 then (.sym "r_12", .bin .add (.un .sin (.sym "th_1")) (.un .cos (.sym "th_1"))) else (.num 0, .num 0)

/-- th_1 = 0: r_11 = 0, r_12 = 1 -/
noncomputable def spurV (t : ℝ) (x : String) : ℝ :=
  if x = "th_1" then t else if x = "r_12" then 1 else if x = "pi" then Real.pi else 0

/-- The run on `spurM`. -/
theorem spur_run : ∃ s, solve toy ["th_1"] [spurM] [] = .ok (.success, s) ∧ s.w.nodes = ["th_1"] ∧ s.guards = [.num 1] ∧
    (s.w.unk "th_1").solutions = [.un .asin (.sym "r_11"), .bin .add (.sym "pi") (.un .neg (.un .asin (.sym "r_11")))] ∧
    (createSolutionSet (tableInput s.w)).map (picks (tableInput s.w)) = [[0], [1]] := by
  have hd : (solve toy ["th_1"] [spurM] []).toOption.map (fun r => (r.1, r.2.w.nodes, r.2.guards)) =
      some (.success, ["th_1"], [.num 1]) := by decide +kernel
  have hd2 : (solve toy ["th_1"] [spurM] []).toOption.map (fun r => ((r.2.w.unk "th_1").solutions,
      (createSolutionSet (tableInput r.2.w)).map (picks (tableInput r.2.w)))) = some (
      [.un .asin (.sym "r_11"), .bin .add (.sym "pi") (.un .neg (.un .asin (.sym "r_11")))], [[0], [1]]) := by decide +kernel
  rcases hr : solve toy ["th_1"] [spurM] [] with c | ⟨st, s⟩
  · rw [hr] at hd; simp [Except.toOption] at hd
  rw [hr] at hd hd2
  simp only [Except.toOption, Option.map_some, Option.some.injEq, Prod.mk.injEq] at hd hd2
  obtain ⟨rfl, h⟩ := hd
  exact ⟨s, rfl, h.1, h.2, hd2⟩

theorem spurM_holds (t : ℝ) : MHolds (spurV t) spurM ↔ Real.sin t = 0 ∧ Real.cos t = 1 := by
  constructor
  · intro h
    have h1 := h 0 0
    have h2 := h 0 1
    simp [spurM, matOf, Expr.eval, Fn1.eval, Fn2.eval, spurV] at h1 h2
    exact ⟨h1.symm, by linarith⟩
  · rintro ⟨h1, h2⟩ i j
    simp only [spurM, matOf]
    repeat' split
    all_goals simp [Expr.eval, Fn1.eval, Fn2.eval, spurV, h1, h2]

/-- C53 is false of the code: the solver returns SUCCESS, the pose r_11 = 0, r_12 = 1 is reached by th_1 = 0 and is no singularity; the table has a
second row, with th_1 = π - asin(r_11) = π, which follows the row but does not satisfy the equations. (The solutions are made from one
equation; the others are not consulted.) -/
theorem C53_spurious_row_violation : ∃ s, solve toy ["th_1"] [spurM] [] = .ok (.success, s) ∧
    ∃ (k : Nat) (r : Row), (createSolutionSet (tableInput s.w))[k]? = some r ∧
      ∃ v v' : String → ℝ, Satisfies v [spurM] [] ∧ v "pi" = Real.pi ∧ RespectsSums v ∧ (∀ g ∈ s.guards, g.eval v ≠ 0) ∧
        (∀ y, y ∉ s.w.nodes → v' y = v y) ∧ Follows s.w (picks (tableInput s.w) r) v' ∧ ¬ MHolds v' spurM := by
  obtain ⟨s, hr, hn, hg, hs, ht⟩ := spur_run
  refine ⟨s, hr, 1, ?_⟩
  have h1 : ((createSolutionSet (tableInput s.w)).map (picks (tableInput s.w)))[1]? = some [1] := by rw [ht]; rfl
  rw [List.getElem?_map, Option.map_eq_some_iff] at h1
  obtain ⟨r, hr1, hp⟩ := h1
  refine ⟨r, hr1, spurV 0, spurV Real.pi, ⟨?_, by simp⟩, by simp [spurV], ⟨?_, ?_⟩, ?_, ?_, ?_, ?_⟩
  · intro m hm
    rw [List.mem_singleton] at hm
    rw [hm, spurM_holds]; simp
  · intro i hi
    simp only [List.mem_cons, List.not_mem_nil, or_false] at hi
    rcases hi with rfl | rfl | rfl | rfl | rfl
    · show spurV 0 "th_12" = spurV 0 "th_1" + spurV 0 "th_2"; simp [spurV]
    · show spurV 0 "th_23" = spurV 0 "th_2" + spurV 0 "th_3"; simp [spurV]
    · show spurV 0 "th_34" = spurV 0 "th_3" + spurV 0 "th_4"; simp [spurV]
    · show spurV 0 "th_45" = spurV 0 "th_4" + spurV 0 "th_5"; simp [spurV]
    · show spurV 0 "th_56" = spurV 0 "th_5" + spurV 0 "th_6"; simp [spurV]
  · intro i hi
    simp only [List.mem_cons, List.not_mem_nil, or_false] at hi
    rcases hi with rfl | rfl | rfl | rfl
    · show spurV 0 "th_123" = spurV 0 "th_1" + spurV 0 "th_2" + spurV 0 "th_3"; simp [spurV]
    · show spurV 0 "th_234" = spurV 0 "th_2" + spurV 0 "th_3" + spurV 0 "th_4"; simp [spurV]
    · show spurV 0 "th_345" = spurV 0 "th_3" + spurV 0 "th_4" + spurV 0 "th_5"; simp [spurV]
    · show spurV 0 "th_456" = spurV 0 "th_4" + spurV 0 "th_5" + spurV 0 "th_6"; simp [spurV]
  · rw [hg]; simp [Expr.eval]
  · intro y hy
    rw [hn, List.mem_singleton] at hy
    simp [spurV, hy]
  · rw [hp]
    intro i x j sol hx hj hsol
    rw [hn] at hx
    match i with
    | 0 =>
      cases hx; cases hj
      rw [hs] at hsol; cases hsol
      left
      simp [spurV, Expr.eval, Fn1.eval, Fn2.eval]
    | i + 1 => simp at hx
  · rw [spurM_holds]; simp; norm_num

/-- Non-vacuity of `C53_some_row_reaches_partial`: the run of `demoTwo` (a rotation and a translation) meets all its hypotheses. -/
example : ∃ s, demoTwo = .ok (.success, s) ∧ s.w.nodes.Nodup ∧ SelfFree s.w ∧ s.w.nodes ≠ [] ∧ demoV "pi" = Real.pi ∧ RespectsSums demoV ∧
    Satisfies demoV [demoM (.num 0, .num 0) (.sym "Pz", .bin .add (.sym "d_2") (.sym "l_1"))] [] ∧ (∀ g ∈ s.guards, g.eval demoV ≠ 0) ∧
    (∀ m ∈ [demoM (.num 0, .num 0) (.sym "Pz", .bin .add (.sym "d_2") (.sym "l_1"))], ∀ i j,
      (turns (angleUnk s.w) (m.td i j)).1 = true ∧ (turns (angleUnk s.w) (m.ts i j)).1 = true) ∧
    (∀ x ∈ s.w.nodes, ∀ sol ∈ (s.w.unk x).solutions, (turns (angleUnk s.w) sol).2 = true ∧
      (angleUnk s.w x = false → (turns (angleUnk s.w) sol).1 = true)) := by
  obtain ⟨s, h1, h2, h3, h4, h5, h6, h7, h8, h9, h10⟩ := demoTwo_meets
  have hv := demoTwo_view
  rw [h1] at hv
  simp only [view, Except.toOption, Option.map_some, Option.some.injEq, Prod.mk.injEq, true_and] at hv
  obtain ⟨k1, k2⟩ := hv
  refine ⟨s, h1, h8, h10, h9, h3, h4, h2, h5, ?_⟩
  have hA : ∀ y, y ≠ "th_1" → angleUnk s.w y = false := by
    intro y hy
    by_cases hm : y ∈ s.w.nodes
    · rw [k1] at hm k2
      simp only [List.mem_cons, List.not_mem_nil, or_false] at hm
      simp only [List.map_cons, List.map_nil, List.cons.injEq, and_true] at k2
      rcases hm with rfl | rfl
      · exact absurd rfl hy
      · rw [angleUnk, k2.2]; rfl
    · have : s.w.unk y = {} := by
        refine run_frame (solve_calls h1 h8).1 ?_
        rwa [callsOf, List.map_map, show ((fun c : String × List Expr => c.1) ∘ fun x => (x, (s.w.unk x).solutions)) = id from rfl, List.map_id]
      rw [angleUnk, this]; rfl
  constructor
  · intro m hm i j
    rw [List.mem_singleton] at hm
    subst hm
    simp only [demoM, matOf]
    repeat' split
    all_goals simp [turns, hA]
  · rw [k1] at k2 ⊢
    simp only [List.map_cons, List.map_nil, List.cons.injEq, and_true] at k2
    intro x hx sol hsol
    simp only [List.mem_cons, List.not_mem_nil, or_false] at hx
    rcases hx with rfl | rfl
    · rw [k2.1] at hsol
      simp only [List.mem_singleton] at hsol
      subst hsol; simp [turns, hA]
    · rw [k2.2] at hsol
      simp only [List.mem_singleton] at hsol
      subst hsol; simp [turns, hA]

end Verif.Solver
