import Verif.Solver.Exact
import Verif.Solver.Progress
/-!
# C77: concrete runs
-/
namespace Verif.Solver
open Verif.Leaf Verif.Eqn Verif.Sol Verif.Sym
open Verif.BT hiding Tree

/-- The product of three link lengths (a coefficient of the equations below). -/
def l3 (a b c : String) : Expr := .bin .mul (.bin .mul (.sym a) (.sym b)) (.sym c)

/-- Px = l_1 l_2 l_3 cos(th_1), Py = l_1 l_2 l_3 sin(th_1), Pz = sin(th_1) sin(th_1): input of `solve`, as assembled at ikSolver.py:325-349. -/
def hideM : MEqn := matOf fun i j =>
  if i = 0 ∧ j = 3 then (.sym "Px", .bin .mul (l3 "l_1" "l_2" "l_3") (.un .cos (.sym "th_1")))
  else if i = 1 ∧ j = 3 then (.sym "Py", .bin .mul (l3 "l_1" "l_2" "l_3") (.un .sin (.sym "th_1")))
  else if i = 2 ∧ j = 3 then (.sym "Pz", .bin .mul (.un .sin (.sym "th_1")) (.un .sin (.sym "th_1"))) else (.num 0, .num 0)

/-- r_11 = cos(th_1), Px = d cos(th_1), Py = d sin(th_1) + y, Pz = y: input of `solve`, as assembled at ikSolver.py:325-349. -/
def staleM : MEqn := matOf fun i j =>
  if i = 0 ∧ j = 0 then (.sym "r_11", .un .cos (.sym "th_1")) else
  if i = 0 ∧ j = 3 then (.sym "Px", .bin .mul (.sym "d") (.un .cos (.sym "th_1")))
  else if i = 1 ∧ j = 3 then (.sym "Py", .bin .add (.bin .mul (.sym "d") (.un .sin (.sym "th_1"))) (.sym "y"))
  else if i = 2 ∧ j = 3 then (.sym "Pz", .sym "y") else (.num 0, .num 0)

/-- What ikSolver.py:418-423 prints for `x` (`eqntosolve`, `secondeqn`), with the solution nodes, the methods and the solutions. -/
def shown (x : String) (r : Except Crash (Status × LS)) : Option (List String × Option (Expr × Expr) × Option (Expr × Expr) × List Tag × List Expr × List Expr) :=
  r.toOption.map fun r => (r.2.w.nodes, (r.2.ld x).eqn.map (fun e => (e.lhs, e.rhs)), (r.2.ld x).second.map (fun e => (e.lhs, e.rhs)), (r.2.ld x).method, (r.2.w.unk x).solutions, r.2.guards)

theorem shown_ok {x : String} {r : Except Crash (Status × LS)} {a : List String} {b c : Expr × Expr} {d : List Tag} {e f : List Expr}
    (h : shown x r = some (a, some b, some c, d, e, f)) : ∃ st s, r = .ok (st, s) ∧ s.w.nodes = a ∧ (s.ld x).eqn = some ⟨b.1, b.2⟩ ∧ (s.ld x).second = some ⟨c.1, c.2⟩ ∧
      (s.ld x).method = d ∧ (s.w.unk x).solutions = e ∧ s.guards = f := by
  cases r with
  | error _ => cases h
  | ok r =>
    obtain ⟨st, s⟩ := r
    simp only [shown, Except.toOption, Option.map_some, Option.some.injEq, Prod.mk.injEq] at h
    obtain ⟨h1, h2, h3, h4⟩ := h
    rw [Option.map_eq_some_iff] at h2 h3
    obtain ⟨e1, k1, rfl⟩ := h2
    obtain ⟨e2, k2, rfl⟩ := h3
    exact ⟨st, s, rfl, h1, k1, k2, h4⟩


/-- A configuration of the robot of `hideM`: th_1 = -π/2, all links of length 1. -/
noncomputable def hideV (x : String) : ℝ :=
  if x = "th_1" ∨ x = "th_12" ∨ x = "th_123" then -(Real.pi / 2) else if x = "l_1" ∨ x = "l_2" ∨ x = "l_3" ∨ x = "Pz" then 1
  else if x = "Py" then -1 else if x = "pi" then Real.pi else 0

theorem hideV_sums : RespectsSums hideV := by
  constructor
  · intro i hi
    simp only [List.mem_cons, List.not_mem_nil, or_false] at hi
    rcases hi with rfl | rfl | rfl | rfl | rfl
    · show hideV "th_12" = hideV "th_1" + hideV "th_2"; simp [hideV]
    · show hideV "th_23" = hideV "th_2" + hideV "th_3"; simp [hideV]
    · show hideV "th_34" = hideV "th_3" + hideV "th_4"; simp [hideV]
    · show hideV "th_45" = hideV "th_4" + hideV "th_5"; simp [hideV]
    · show hideV "th_56" = hideV "th_5" + hideV "th_6"; simp [hideV]
  · intro i hi
    simp only [List.mem_cons, List.not_mem_nil, or_false] at hi
    rcases hi with rfl | rfl | rfl | rfl
    · show hideV "th_123" = hideV "th_1" + hideV "th_2" + hideV "th_3"; simp [hideV]
    · show hideV "th_234" = hideV "th_2" + hideV "th_3" + hideV "th_4"; simp [hideV]
    · show hideV "th_345" = hideV "th_3" + hideV "th_4" + hideV "th_5"; simp [hideV]
    · show hideV "th_456" = hideV "th_4" + hideV "th_5" + hideV "th_6"; simp [hideV]

theorem hideV_satisfies : Satisfies hideV [zeroM, hideM] [] := by
  refine ⟨fun m hm => ?_, by simp⟩
  simp only [List.mem_cons, List.not_mem_nil, or_false] at hm
  rcases hm with rfl | rfl <;> intro i j
  · rfl
  · simp only [hideM, matOf]
    repeat' split
    all_goals simp [Expr.eval, Fn1.eval, Fn2.eval, hideV, l3]

set_option synthInstance.maxSize 2000 in
/-- C77 is false of the code, first way: the equations shown need not be those solved. A run in which the unknown was solved once and its
solution does not contain it, a configuration that satisfies the equations of the robot and makes no divisor zero; an angle satisfies both
equations shown, and is not the angle of any solution. (The solution is right: it is th_1 = -π/2. The shown equations are Pz = sin² th_1 of
the sine solver, which did not solve it, and the second equation of the tangent solver; they are satisfied by th_1 = π/2, too.) -/
theorem C77_shown_violation : toy.Sound (fun _ => True) ∧ ∃ st s e e2 v t, solve toy ["th_1"] [zeroM, hideM] [] = .ok (st, s) ∧
    s.w.nodes = ["th_1"] ∧ (∀ sol ∈ (s.w.unk "th_1").solutions, sol.has "th_1" = false) ∧
    (s.ld "th_1").eqn = some e ∧ (s.ld "th_1").second = some e2 ∧
    v "pi" = Real.pi ∧ RespectsSums v ∧ Satisfies v [zeroM, hideM] [] ∧ (∀ g ∈ s.guards, ∀ t, g.eval (Function.update v "th_1" t) ≠ 0) ∧
    t ∈ Roots v "th_1" [e, e2] ∧ ∀ sol ∈ (s.w.unk "th_1").solutions, ¬ SameAngle t (sol.eval v) := by
  have h : shown "th_1" (solve toy ["th_1"] [zeroM, hideM] []) = some (["th_1"],
      some (.sym "Pz", .bin .mul (.un .sin (.sym "th_1")) (.un .sin (.sym "th_1"))),
      some (.num 0, .bin .add (.un .neg (.sym "Px")) (.bin .mul (l3 "l_1" "l_2" "l_3") (.un .cos (.sym "th_1")))), [.atan2, .arcsin],
      [.bin .atan2 (.bin .div (.sym "Py") (l3 "l_1" "l_2" "l_3")) (.bin .div (.sym "Px") (l3 "l_1" "l_2" "l_3"))],
      [l3 "l_1" "l_2" "l_3", l3 "l_1" "l_2" "l_3"]) := by decide +kernel
  obtain ⟨st, s, h1, h2, h3, h4, -, h6, h7⟩ := shown_ok h
  refine ⟨toy_sound, st, s, _, _, hideV, Real.pi / 2, h1, h2, by rw [h6]; decide, h3, h4, by simp [hideV], hideV_sums, hideV_satisfies, ?_, ?_, ?_⟩
  · rw [h7]; intro g hg t
    simp only [List.mem_cons, List.not_mem_nil, or_false, or_self] at hg
    subst hg
    simp [l3, Expr.eval, Fn2.eval, hideV, Function.update]
  · simp [Roots, Holds, Expr.eval, Fn1.eval, Fn2.eval, hideV, l3, Function.update]
  · rw [h6]; intro sol hs
    rw [List.mem_singleton] at hs; subst hs
    have : Expr.eval hideV (.bin .atan2 (.bin .div (.sym "Py") (l3 "l_1" "l_2" "l_3")) (.bin .div (.sym "Px") (l3 "l_1" "l_2" "l_3"))) = -(Real.pi / 2) := by
      simp only [Expr.eval, Fn2.eval, hideV, l3, atan2]
      have := Complex.arg_neg_I
      rw [show -Complex.I = (⟨0, -1⟩ : ℂ) by apply Complex.ext <;> simp] at this
      simp [this]
    rw [this, sameAngle_iff]
    rintro ⟨h, -⟩
    norm_num at h

set_option synthInstance.maxSize 2000 in
/-- C77 is false of the code, second way: an equation is shown that was not used. Here the second equation shown for th_1 contains the unknown
d, which the run never solves; th_1 was solved from the first equation alone (the second was put there by tan_id for a tangent pair that the
ranking rejected). -/
theorem C77_second_violation : ∃ st s e2, solve toy ["y", "th_1", "d"] [zeroM, staleM] [] = .ok (st, s) ∧ "th_1" ∈ s.w.nodes ∧ s.w.nodes.Nodup ∧
    (s.ld "th_1").second = some e2 ∧ (e2.lhs.has "d" || e2.rhs.has "d") = true ∧ "d" ∉ s.w.nodes ∧
    (∃ e, (s.ld "th_1").eqn = some e ∧ Determines (fun _ => True) [] "th_1" (s.w.unk "th_1").solutions [e]) := by
  have h : shown "th_1" (solve toy ["y", "th_1", "d"] [zeroM, staleM] []) = some (["y", "th_1"], some (.sym "r_11", .un .cos (.sym "th_1")),
      some (.num 0, .bin .add (.un .neg (.sym "Px")) (.bin .mul (.sym "d") (.un .cos (.sym "th_1")))), [.atan2, .arccos, .bestRanked, .sinOrCos],
      [.un .acos (.sym "r_11"), .un .neg (.un .acos (.sym "r_11"))], [.num 1, .sym "d", .sym "d", .num 1]) := by decide +kernel
  obtain ⟨st, s, h1, h2, h3, h4, -, h6, -⟩ := shown_ok h
  refine ⟨st, s, _, h1, by rw [h2]; decide, by rw [h2]; decide, h4, by decide, by rw [h2]; decide, _, h3, .inr (.inl ?_)⟩
  rw [h6]
  have := sc_exact (e := ⟨.sym "r_11", .un .cos (.sym "th_1")⟩) (x := "th_1") (A := .num 1) (B := .num 0) (sine := false) toy_sound (by decide +kernel) (by decide +kernel)
  intro env hu hne
  have := this env ⟨hu.1, hu.2.1, by simp [Expr.eval]⟩ hne
  rw [this]; rfl

/-- Non-vacuity of C77_shown_equations_follow and C77_solutions_exact_partial: the run of `demoTwo` solves two unknowns, th_1 from both equations
shown and d_2 from the first, and there is a configuration that satisfies the equations of the robot. -/
example : ∃ s, demoTwo = .ok (.success, s) ∧ s.w.nodes.Nodup ∧ s.w.nodes = ["th_1", "d_2"] ∧
    (∀ x ∈ s.w.nodes, ∀ sol ∈ (s.w.unk x).solutions, sol.has x = false) ∧ (s.ld "th_1").eqn ≠ none ∧ (s.ld "th_1").second ≠ none ∧
    (s.ld "d_2").eqn ≠ none ∧ RespectsSums demoV ∧
    Satisfies demoV [demoM (.num 0, .num 0) (.sym "Pz", .bin .add (.sym "d_2") (.sym "l_1"))] [] ∧ ∀ g ∈ s.guards, g.eval demoV ≠ 0 := by
  obtain ⟨s, h1, h2, h3, h4, h5, h6, h7, h8, h9, h10⟩ := demoTwo_meets
  have hv : demoTwo.toOption.map (fun r => (r.2.w.nodes, (r.2.ld "th_1").eqn.isSome, (r.2.ld "th_1").second.isSome, (r.2.ld "d_2").eqn.isSome)) =
      some (["th_1", "d_2"], true, true, true) := by decide +kernel
  rw [h1] at hv
  simp only [Except.toOption, Option.map_some, Option.some.injEq, Prod.mk.injEq] at hv
  obtain ⟨k1, k2, k3, k4⟩ := hv
  exact ⟨s, h1, h8, k1, fun x _ sol hs => h10 x sol hs, fun h => by simp [h] at k2, fun h => by simp [h] at k3, fun h => by simp [h] at k4, h4, h2, h5⟩

/-- and the equations of `C77_shown_violation` do follow from those of the robot, as C77_shown_equations_follow says -/
example : ∃ st s, solve toy ["th_1"] [zeroM, hideM] [] = .ok (st, s) ∧ (∃ e e2, (s.ld "th_1").eqn = some e ∧ (s.ld "th_1").second = some e2 ∧
    Holds hideV e ∧ Holds hideV e2) := by
  obtain ⟨hs, st, s, e, e2, -, -, h1, -, -, h4, h5, -⟩ := C77_shown_violation
  have := C77_shown_equations_follow hs h1 "th_1" hideV trivial hideV_sums hideV_satisfies
  rw [h4, h5] at this
  exact ⟨st, s, h1, e, e2, h4, h5, this e (by simp), this e2 (by simp)⟩

end Verif.Solver
