import Verif.Solver.Complete
import Verif.Solver.Sound
import Verif.Solver.Method
/-!
# C77: the equations shown for an unknown and its solutions

ikSolver.py:414-423 prints, for every unknown, `eqntosolve` and `secondeqn` as the equations used to solve it.
-/
namespace Verif.Solver
open Verif.Leaf Verif.Eqn Verif.Sol Verif.Sym
open Verif.BT hiding Tree

/-! ## The specification -/

/-- The equations follow from those of the robot: whatever values satisfy these satisfy them. -/
def Implied (G : (String → ℝ) → Prop) (ms : List MEqn) (aux : List KEqn) (es : List KEqn) : Prop :=
  ∀ v, G v → RespectsSums v → Satisfies v ms aux → ∀ e ∈ es, Holds v e

/-- Values of the other symbols at which, whatever the value of `x`, no expression of `gs` is zero. -/
def Usable (G : (String → ℝ) → Prop) (gs : List Expr) (x : String) (env : String → ℝ) : Prop :=
  env "pi" = Real.pi ∧ (∀ t, G (Function.update env x t)) ∧ ∀ g ∈ gs, ∀ t, g.eval (Function.update env x t) ≠ 0

/-- The values of `x` that satisfy the equations are the values of the solutions. -/
def ExactValues (G : (String → ℝ) → Prop) (gs : List Expr) (x : String) (sols : List Expr) (es : List KEqn) : Prop :=
  ∀ env, Usable G gs x env → Roots env x es = {t | ∃ sol ∈ sols, t = sol.eval env}

/-- The angles `x` that satisfy the equations, if there is one, are the values of the solutions modulo 2π. -/
def ExactAngles (G : (String → ℝ) → Prop) (gs : List Expr) (x : String) (sols : List Expr) (es : List KEqn) : Prop :=
  ∀ env, Usable G gs x env → (Roots env x es).Nonempty → Roots env x es = {t | ∃ sol ∈ sols, SameAngle t (sol.eval env)}

/-- There are two solutions; the angles `x` that satisfy the equations are the first (modulo 2π) where `C` is positive and the second where
it is negative; and these do satisfy the equations as soon as some angle does for which `C` has that sign (if what they are divided by does
not change when `x` makes a full turn). -/
def ExactBySign (G : (String → ℝ) → Prop) (gs : List Expr) (x : String) (sols : List Expr) (es : List KEqn) : Prop :=
  ∃ sol1 sol2 C : Expr, sols = [sol1, sol2] ∧ ∀ env, Usable G gs x env →
    (∀ t ∈ Roots env x es, (0 < C.eval (Function.update env x t) → SameAngle t (sol1.eval env)) ∧
      (C.eval (Function.update env x t) < 0 → SameAngle t (sol2.eval env))) ∧
    (∀ t, C.eval (Function.update env x t) ≠ 0) ∧
    ((∀ g ∈ gs, Periodic env x g) → ∀ t0 ∈ Roots env x es,
      (0 < C.eval (Function.update env x t0) → {t | SameAngle t (sol1.eval env)} ⊆ Roots env x es) ∧
      (C.eval (Function.update env x t0) < 0 → {t | SameAngle t (sol2.eval env)} ⊆ Roots env x es))

/-- The solutions are those of the equations. -/
def Determines (G : (String → ℝ) → Prop) (gs : List Expr) (x : String) (sols : List Expr) (es : List KEqn) : Prop :=
  ExactValues G gs x sols es ∨ ExactAngles G gs x sols es ∨ ExactBySign G gs x sols es

/-! ## The five solvers -/

theorem Usable.here {G : (String → ℝ) → Prop} {gs : List Expr} {x : String} {env : String → ℝ} (h : Usable G gs x env) : G env := by
  simpa using h.2.1 (env x)

section
variable {P : Sympy} {G : (String → ℝ) → Prop} (hP : P.Sound G)
include hP

theorem alg_exact {x : String} {tmp A B : Expr} (hm : linearMatch P tmp x = some (A, B)) :
    ExactValues G [A] x [quot P (.num 0) B A] [⟨.num 0, tmp⟩] := by
  intro env hu
  obtain ⟨hA, hB, -, hlin⟩ := linearMatch_spec hP hm
  have hGe := hu.here
  have hne : A.eval env ≠ 0 := by simpa using hu.2.2 A (by simp) (env x)
  ext t
  have hk := hlin _ (hu.2.1 t)
  rw [eval_update hA, eval_update hB, Function.update_self] at hk
  simp only [Roots, List.mem_singleton, forall_eq, Set.mem_ofPred_eq, Holds, exists_eq_left, eval_quot hP hGe hne, hk]
  rw [← lin_iff hne]
  simp [Expr.eval]

theorem sc_exact {x : String} {e : KEqn} {A B : Expr} {sine : Bool}
    (hl : P.lin (P.collectSC x e.rhs) (if sine then sinU x else cosU x) [sinU x, cosU x] = some (A, B))
    (hf : (quot P e.lhs B A).has x = false) : ExactAngles G [A] x (sincosSolutions P e.lhs A B sine) [e] := by
  intro env hu ⟨t0, ht0⟩
  have hne : ∀ t, A.eval (Function.update env x t) ≠ 0 := hu.2.2 A (by simp)
  have key : ∀ t, t ∈ Roots env x [e] ↔ e.lhs.eval (Function.update env x t) = e.rhs.eval (Function.update env x t) := fun t => by
    simp only [Roots, List.mem_singleton, forall_eq, Set.mem_ofPred_eq, Holds]
  have tv : ∀ t, (quot P e.lhs B A).eval env = (e.lhs.eval (Function.update env x t) - B.eval (Function.update env x t)) /
      A.eval (Function.update env x t) := fun t => by
    rw [← eval_update hf env t, eval_quot hP (hu.2.1 t) (hne t)]
  have hv : ∀ t, e.rhs.eval (Function.update env x t) =
      A.eval (Function.update env x t) * (if sine then Real.sin t else Real.cos t) + B.eval (Function.update env x t) := fun t => by
    rw [← hP.collectSC x _ _ (hu.2.1 t), hP.lin hl _ (hu.2.1 t)]
    cases sine <;> simp
  rw [key] at ht0
  ext t
  rw [key, Set.mem_ofPred_eq, hv]
  rw [hv] at ht0
  cases sine with
  | true =>
    simp only [if_true] at ht0 ⊢
    have hb := asin_none (hne t0) ht0
    rw [← tv t0] at hb
    rw [asin_iff (hne t) (tv t ▸ hb.1) (tv t ▸ hb.2), ← tv t]
    simp [sincosSolutions, Expr.eval, Fn1.eval, Fn2.eval, hu.1, ← sub_eq_add_neg]
  | false =>
    simp only [Bool.false_eq_true, if_false] at ht0 ⊢
    have hb := acos_none (hne t0) ht0
    rw [← tv t0] at hb
    rw [acos_iff (hne t) (tv t ▸ hb.1) (tv t ▸ hb.2), ← tv t]
    simp [sincosSolutions, Expr.eval, Fn1.eval]

theorem tan_exact {x : String} {a b A B C D : Expr} {one : Bool} (hA : P.lin a (sinU x) [sinU x, cosU x] = some (A, B))
    (hC : P.lin b (cosU x) [sinU x, cosU x] = some (C, D)) (hBu : B.has x = false) (hDu : D.has x = false) (hru : (P.ratio A C).has x = false)
    (hone : one = true → A.has x = false) :
    Determines G [A, C] x (tanSolutions P (.num 0) (.num 0) A B C D one) [⟨.num 0, a⟩, ⟨.num 0, b⟩] := by
  have key : ∀ env, Usable G [A, C] x env → ∀ t, t ∈ Roots env x [⟨.num 0, a⟩, ⟨.num 0, b⟩] ↔
      A.eval (Function.update env x t) * Real.sin t = -B.eval env ∧ C.eval (Function.update env x t) * Real.cos t = -D.eval env := by
    intro env hu t
    have k1 := hP.lin hA _ (hu.2.1 t)
    have k2 := hP.lin hC _ (hu.2.1 t)
    rw [eval_update hBu, eval_sinU, Function.update_self] at k1
    rw [eval_update hDu, eval_cosU, Function.update_self] at k2
    simp only [Roots, List.mem_cons, List.not_mem_nil, or_false, forall_eq_or_imp, forall_eq, Set.mem_ofPred_eq, Holds, k1, k2]
    simp only [Expr.eval, Rat.cast_zero]
    constructor
    · rintro ⟨p, q⟩; exact ⟨by linarith, by linarith⟩
    · rintro ⟨p, q⟩; exact ⟨by linarith, by linarith⟩
  have hY : ∀ env, G env → ∀ E : Expr, (P.sub (.num 0) E).eval env = -E.eval env := by
    intro env hG E; rw [hP.sub _ _ _ hG]; simp [Expr.eval]
  cases one with
  | true =>
    have hAu := hone rfl
    refine .inr (.inl fun env hu => ?_)
    rintro ⟨x0, hx0⟩
    have hGe := hu.here
    have hAe : A.eval env ≠ 0 := by simpa using hu.2.2 A (by simp) (env x)
    have hCe : C.eval env ≠ 0 := by simpa using hu.2.2 C (by simp) (env x)
    have hCn := hu.2.2 C (by simp)
    have hCc : ∀ t, C.eval (Function.update env x t) = C.eval env := by
      intro t
      have r1 := hP.ratio A C _ (hu.2.1 t) (hCn t)
      have r2 := hP.ratio A C _ hGe hCe
      rw [eval_update hru, r2, eval_update hAu, div_eq_div_iff hCe (hCn t)] at r1
      exact mul_left_cancel₀ hAe r1
    have key' : ∀ t, t ∈ Roots env x [⟨.num 0, a⟩, ⟨.num 0, b⟩] ↔
        A.eval env * Real.sin t = -B.eval env ∧ C.eval env * Real.cos t = -D.eval env := fun t => by
      rw [key env hu t, eval_update hAu, hCc]
    ext t
    rw [key', Set.mem_ofPred_eq]
    simp only [tanSolutions, if_true, List.mem_singleton, exists_eq_left, Expr.eval, Fn2.eval, hP.ratio _ _ _ hGe hAe, hP.ratio _ _ _ hGe hCe, hY _ hGe]
    constructor
    · rintro ⟨p, q⟩
      exact tan_complete hAe hCe p q
    · intro h
      rw [key'] at hx0
      refine tan_sound hAe hCe ?_ h
      rw [← hx0.1, ← hx0.2, mul_div_cancel_left₀ _ hAe, mul_div_cancel_left₀ _ hCe]
      linarith [Real.sin_sq_add_cos_sq x0]
  | false =>
    refine .inr (.inr ⟨_, _, C, rfl, fun env hu => ?_⟩)
    have hGe := hu.here
    have hAn := hu.2.2 A (by simp)
    have hCn := hu.2.2 C (by simp)
    have hco : ∀ t, (P.ratio A C).eval env = A.eval (Function.update env x t) / C.eval (Function.update env x t) := by
      intro t
      rw [← hP.ratio A C _ (hu.2.1 t) (hCn t), eval_update hru]
    have hco0 : (P.ratio A C).eval env ≠ 0 := by
      rw [hco 0]; exact div_ne_zero (hAn 0) (hCn 0)
    have complete : ∀ t ∈ Roots env x [⟨.num 0, a⟩, ⟨.num 0, b⟩],
        (0 < C.eval (Function.update env x t) → SameAngle t
          (Expr.eval env (.bin .atan2 (P.ratio (P.sub (.num 0) B) (P.ratio A C)) (P.sub (.num 0) D)))) ∧
        (C.eval (Function.update env x t) < 0 → SameAngle t (Expr.eval env
          (.bin .atan2 (P.ratio (.un .neg (P.sub (.num 0) B)) (P.ratio A C)) (.un .neg (P.sub (.num 0) D))))) := by
      intro t ht
      obtain ⟨p, q⟩ := (key env hu t).mp ht
      simp only [Expr.eval, Fn1.eval, Fn2.eval, hP.ratio _ _ _ hGe hco0, hY _ hGe, hco t]
      exact ⟨fun hpos => tan_pos (hAn t) hpos p q, fun hneg => tan_neg (hAn t) hneg p q⟩
    refine ⟨complete, hCn, fun hper x0 hx0 => ?_⟩
    have hback : ∀ t, SameAngle t x0 → t ∈ Roots env x [⟨.num 0, a⟩, ⟨.num 0, b⟩] := by
      intro t h
      obtain ⟨hs, hc⟩ := sameAngle_iff.mp h
      rw [key env hu] at hx0 ⊢
      rw [hs, hc, hper A (by simp) t x0 h, hper C (by simp) t x0 h]; exact hx0
    exact ⟨fun hpos t h => hback t (SameAngle.trans h ((complete x0 hx0).1 hpos).symm),
      fun hneg t h => hback t (SameAngle.trans h ((complete x0 hx0).2 hneg).symm)⟩

theorem sac_exact {x : String} {es : Expr} (hC : (P.sub es (sinCosComb (P.coeff es (sinU x)) (P.coeff es (cosU x)) x)).has x = false)
    (hf1 : (sacSolutions P x es).1.has x = false) :
    ExactAngles G [radius2 P x es] x [(sacSolutions P x es).1, (sacSolutions P x es).2] [⟨.num 0, es⟩] := by
  have hAB : (P.coeff es (sinU x)).has x = false ∧ (P.coeff es (cosU x)).has x = false := by
    unfold sacSolutions at hf1
    dsimp only at hf1
    split at hf1 <;> simp [Expr.has, negE] at hf1 <;> tauto
  intro env hu ⟨t0, ht0⟩
  have hGe := hu.here
  have hr := by simpa using hu.2.2 (radius2 P x es) (by simp) (env x)
  have hval : ∀ t, t ∈ Roots env x [⟨.num 0, es⟩] ↔ (P.coeff es (sinU x)).eval env * Real.sin t + (P.coeff es (cosU x)).eval env * Real.cos t =
      (P.sub (sinCosComb (P.coeff es (sinU x)) (P.coeff es (cosU x)) x) es).eval env := by
    intro t
    have k1 := eval_update hC env t
    rw [hP.sub _ _ _ (hu.2.1 t), hP.sub _ _ _ hGe, eval_sinCosComb, eval_sinCosComb, eval_update hAB.1, eval_update hAB.2, Function.update_self] at k1
    rw [hP.sub _ _ _ hGe, eval_sinCosComb]
    simp only [Roots, List.mem_singleton, forall_eq, Set.mem_ofPred_eq, Holds]
    simp only [Expr.eval, Rat.cast_zero]
    constructor <;> intro h <;> linarith
  have hv := fun t => sac_values hP (A := P.coeff es (sinU x)) (B := P.coeff es (cosU x))
    (C := P.sub (sinCosComb (P.coeff es (sinU x)) (P.coeff es (cosU x)) x) es) (r2 := radius2 P x es)
    (sol1 := (sacSolutions P x es).1) (sol2 := (sacSolutions P x es).2) rfl (by
      unfold sacSolutions
      by_cases h : P.eqE (P.sub (sinCosComb (P.coeff es (sinU x)) (P.coeff es (cosU x)) x) es) (.num 0) = true
      · left; simp [h]
      · right; simp [h]) hGe hu.1 hr t ⟨t0, (hval t0).1 ht0⟩
  ext t
  rw [hval t, hv t]
  simp

theorem simu_exact {x : String} {a b : Expr} (hf : (simuSolution P x a b).has x = false) :
    ExactAngles G [radius2 P x a] x [simuSolution P x a b] [⟨.num 0, a⟩, ⟨.num 0, b⟩] := by
  have hfree : (P.coeff a (sinU x)).has x = false ∧ (P.coeff a (cosU x)).has x = false ∧
      (P.simplify (P.sub (sinCosComb (P.coeff a (sinU x)) (P.coeff a (cosU x)) x) a)).has x = false ∧
      (P.simplify (P.sub (cosSinComb (P.coeff a (sinU x)) (P.coeff a (cosU x)) x) b)).has x = false := by
    simp [simuSolution, Expr.has] at hf
    tauto
  obtain ⟨hA, hB, hC, hD⟩ := hfree
  intro env hu ⟨t0, ht0⟩
  have hGe := hu.here
  have hr := sq_pos_of_guard (P := P) (u := x) (r := a) (v := env) (by simpa using hu.2.2 (radius2 P x a) (by simp) (env x))
  have key : ∀ t, t ∈ Roots env x [⟨.num 0, a⟩, ⟨.num 0, b⟩] ↔
      (P.coeff a (sinU x)).eval env * Real.sin t + (P.coeff a (cosU x)).eval env * Real.cos t =
        (P.simplify (P.sub (sinCosComb (P.coeff a (sinU x)) (P.coeff a (cosU x)) x) a)).eval env ∧
      (P.coeff a (sinU x)).eval env * Real.cos t - (P.coeff a (cosU x)).eval env * Real.sin t =
        (P.simplify (P.sub (cosSinComb (P.coeff a (sinU x)) (P.coeff a (cosU x)) x) b)).eval env := by
    intro t
    have k1 := eval_update hC env t
    have k2 := eval_update hD env t
    rw [← k1, ← k2]
    simp only [hP.simplify _ _ (hu.2.1 t), hP.sub _ _ _ (hu.2.1 t), eval_sinCosComb, eval_cosSinComb, eval_update hA, eval_update hB, Function.update_self,
      Roots, List.mem_cons, List.not_mem_nil, or_false, forall_eq_or_imp, forall_eq, Set.mem_ofPred_eq, Holds]
    simp only [Expr.eval, Rat.cast_zero]
    constructor
    · rintro ⟨p, q⟩; exact ⟨by linarith, by linarith⟩
    · rintro ⟨p, q⟩; exact ⟨by linarith, by linarith⟩
  ext t
  rw [key, Set.mem_ofPred_eq]
  simp only [List.mem_singleton, exists_eq_left, simuSolution, Expr.eval, Fn2.eval, hP.sub _ _ _ hGe]
  constructor
  · rintro ⟨p, q⟩; exact simu_complete hr p q
  · intro h
    rw [key] at ht0
    exact simu_sound hr (by linarith [simu_consistent ht0.1 ht0.2]) h
end

/-! ## One attempt on an unknown that was not touched before -/

/-- How the equations `es` are shown: as the printed equation, as the two printed equations, or (a tangent pair, after which the equation of a
sine or cosine was identified but could not be solved) not at all. -/
def Shown (d : LeafData) (es : List KEqn) : Prop :=
  (∃ e, d.eqn = some e ∧ es = [e]) ∨ (∃ e e2, d.eqn = some e ∧ d.second = some e2 ∧ es = [e, e2]) ∨
  (es ≠ [] ∧ Tag.atan2 ∈ d.method ∧ (Tag.arcsin ∈ d.method ∨ Tag.arccos ∈ d.method) ∧ Tag.bestRanked ∉ d.method)

/-- the current unknown of `s` got in `s'` solutions that are those of equations which follow from the lists of `s` -/
def Found (G : (String → ℝ) → Prop) (s s' : LS) : Prop := ∃ es gs, Shown (s'.ld s.curr) es ∧ (∀ g ∈ gs, g ∈ s'.guards) ∧
  (∀ v, G v → (∀ e ∈ s.lists.l1 ++ s.lists.l2, Holds v e) → ∀ e ∈ es, Holds v e) ∧ Determines G gs s.curr (s'.w.unk s.curr).solutions es

theorem Solves.solutions {sols : List Expr} {s s' : LS} (h : Solves sols s s') : (s'.w.unk s.curr).solutions = sols := by
  rw [(Sol.setSolved_ok h.w).solutions]; simp [setSolutions]

theorem Untouched.fields {s : LS} {x : String} (h : Untouched s x) : (s.ld x).scSols = [] ∧ (s.ld x).scEqns = [] ∧ (s.ld x).tanSols = [] ∧
    (s.ld x).tanEqns = [] ∧ (s.ld x).shared = none ∧ (s.ld x).solvableTan = false := by
  have := h.2
  simpa only [LeafData.kept, Prod.mk.injEq] using this

theorem sincosFind_tag {u : String} {e : KEqn} {t : Tag} : ∀ {l : List KEqn}, sincosFind u l = some (e, t) → t = .arcsin ∨ t = .arccos
  | [], h => by simp [sincosFind] at h
  | e' :: l, h => by
    simp only [sincosFind] at h
    split at h
    · exact sincosFind_tag h
    split at h
    · cases h; simp
    split at h
    · cases h; simp
    · exact sincosFind_tag h

section
variable {P : Sympy} {G : (String → ℝ) → Prop} (hP : P.Sound G)
include hP

theorem alg_found {s s' : LS} (h : den (env P) 0 algSol s = .ok (.success, s')) (hun : Untouched s s.curr) : Found G s s' := by
  rcases algSol_cases h with ⟨h, _⟩ | ⟨-, hu, tmp, A, B, hf, hm, hfree, hsv, hgd, hld⟩
  · cases h
  refine ⟨[⟨.num 0, tmp⟩], [A], .inl ⟨_, by rw [hld hun.fields.2.2.2.2.1], rfl⟩, by rw [hgd]; simp, ?_, .inl ?_⟩
  · intro v hG hl e he
    rw [List.mem_singleton] at he; subst he
    exact alg_eqn hP hG (fun e he => hl e (by simp [he])) hf
  · rw [hsv.solutions, hun.1]; exact alg_exact hP hm

theorem simu_found {s s' : LS} (h : den (env P) 0 simuSol s = .ok (.success, s'))
    (hfree : ∀ sol ∈ (s'.w.unk s.curr).solutions, sol.has s.curr = false) : Found G s s' := by
  rcases simuSol_cases h with ⟨h, _⟩ | ⟨-, hu, a, b, hf, hsv, hgd, hld⟩
  · cases h
  refine ⟨[⟨.num 0, a⟩, ⟨.num 0, b⟩], [radius2 P s.curr a], .inr (.inl ⟨_, _, by rw [hld], by rw [hld], rfl⟩), by rw [hgd]; simp, ?_, .inr (.inl ?_)⟩
  · intro v hG hl
    obtain ⟨r1, r2⟩ := simu_holds hP hG (fun e he => hl e (by simp [he])) hf
    simp [r1, r2]
  · rw [hsv.solutions] at hfree ⊢; exact simu_exact hP (hfree _ (by simp))

theorem sac_found {s s' : LS} (h : den (env P) 0 sacSol s = .ok (.success, s')) (hun : Untouched s s.curr)
    (hfree : ∀ sol ∈ (s'.w.unk s.curr).solutions, sol.has s.curr = false) : Found G s s' := by
  rcases sacSol_cases h with ⟨h, _⟩ | ⟨-, hu, es, hf, hsv, hgd, hld⟩
  · cases h
  refine ⟨[⟨.num 0, es⟩], [radius2 P s.curr es], .inl ⟨_, by rw [hld hun.fields.2.2.2.2.1], rfl⟩, by rw [hgd]; simp, ?_, .inr (.inl ?_)⟩
  · intro v hG hl e he
    rw [List.mem_singleton] at he; subst he
    exact sac_holds hP hG (fun e he => hl e (by simp [he])) hf
  · rw [hsv.solutions, hun.1] at hfree ⊢
    obtain ⟨_, _, _, hC⟩ := sacFind_spec hf
    exact sac_exact hP hC (hfree _ (by simp))

/-- The tangent pair, on an untouched unknown. -/
theorem tan_fresh {s s' : LS} (h : den (env P) 0 tanSol s = .ok (.success, s')) (hin : s.curr ∈ s.w.unknowns) (hun : Untouched s s.curr)
    (hu : s.solved s.curr = false) : ∃ e1 e2 gs, (s'.ld s.curr).eqn = some e1 ∧ (s'.ld s.curr).second = some e2 ∧
      (s'.ld s.curr).method = (s.ld s.curr).method ++ [.atan2] ∧ (s'.ld s.curr).tanEqns = [e1, e2] ∧ (s'.ld s.curr).scEqns = [] ∧
      (s'.ld s.curr).scSols = [] ∧ (s'.ld s.curr).tanSols ≠ [] ∧ (s'.w.unk s.curr).solutions = (s'.ld s.curr).tanSols ∧
      (s'.ld s.curr).shared = none ∧ (∀ g ∈ gs, g ∈ s'.guards) ∧
      (∀ v, G v → (∀ e ∈ s.lists.l1 ++ s.lists.l2, Holds v e) → ∀ e ∈ [e1, e2], Holds v e) ∧
      Determines G gs s.curr (s'.ld s.curr).tanSols [e1, e2] := by
  obtain ⟨f1, f2, f3, f4, f5, f6⟩ := hun.fields
  rcases pair_cases h with ⟨h, h1⟩ | ⟨s1, h1, h2⟩
  · cases h
  obtain ⟨es, hes, ec, hec, a, b, hpair, rfl⟩ := tanId_spec f6 hu h1
  obtain ⟨ha, hb, A, B, C, D, hA, hC, hco, hB, hD⟩ := tanPair_spec hpair
  obtain ⟨A', B', C', D', hA', hC', -, -, hcase⟩ := tanSolve_spec (e1 := ⟨.num 0, a⟩) (e2 := ⟨.num 0, b⟩)
    (by simp [LS.updLd]) (by simp [LS.updLd]) h2
  simp only [updLd_curr, hA, Option.some.injEq, Prod.mk.injEq] at hA'
  simp only [updLd_curr, hC, Option.some.injEq, Prod.mk.injEq] at hC'
  obtain ⟨rfl, rfl⟩ := hA'
  obtain ⟨rfl, rfl⟩ := hC'
  rcases tanSolve_cases h2 with ⟨h, _⟩ | ⟨-, -, e1, e2, A', B', C', D', one, q1, q2, q3, q4, hE⟩
  · cases h
  simp only [updLd_curr, updLd_same, Option.some.injEq] at q1 q2 q3 q4
  subst q1 q2
  rw [hA, Option.some.injEq, Prod.mk.injEq] at q3
  rw [hC, Option.some.injEq, Prod.mk.injEq] at q4
  obtain ⟨rfl, rfl⟩ := q3
  obtain ⟨rfl, rfl⟩ := q4
  have hmem := mem_vars hin
  rw [hu] at hmem
  have hs := hE.sols
  have hm := hE.mine
  have ho := hE.oth
  have hme := hE.mineE
  have hoe := hE.othE
  have hf := hE.fields
  simp only [updLd_curr, updLd_same, updLd_w, hun.1, f5, cand, candE, f1, f2, f3, f4, reduceCtorEq, if_false, if_true, Bool.not_true,
    Bool.false_eq_true, List.nil_append, List.append_nil, Prod.mk.injEq] at hs hm ho hme hoe hf
  have hone : one = true → A.has s.curr = false := by
    rintro rfl
    rcases hcase with ⟨hg, -⟩ | ⟨-, rfl⟩
    · exact free_of_variables (v := ⟨s.curr, false⟩) hg (List.mem_filter.mpr ⟨hmem, rfl⟩)
    · exfalso
      have := congrArg List.length hs
      simp [pushTan_w, LS.updLd, f5, hun.1, tanSolutions] at this
  refine ⟨_, _, [A, C], hf.1, hf.2.1, hf.2.2.1, hme, hoe, ho, by rw [hm]; exact tanSolutions_ne _ _ _ _ _ _ _ _, by rw [hs, hm], hf.2.2.2.2.2.1, ?_, ?_, ?_⟩
  · rw [hE.guards]; simp
  · intro v hG hl
    obtain ⟨r1, r2⟩ := tanPair_holds hP hG hpair (hl _ hes) (hl _ hec)
    simp [r1, r2]
  · rw [hm]
    exact tan_exact hP hA hC (free_of_count hB hmem rfl) (free_of_count hD hmem rfl) (free_of_count hco hmem rfl) hone

/-- The tangent, the sine or cosine, and the choice between them, on an untouched unknown. -/
theorem scTan_found {s s' : LS} (h : den (env P) 0 scTan s = .ok (.success, s')) (hin : s.curr ∈ s.w.unknowns) (hun : Untouched s s.curr)
    (hu : s.solved s.curr = false) (hpl : Tag.bestRanked ∉ (s.ld s.curr).method) : Found G s s' := by
  obtain ⟨st1, s1, st2, s2, h1, h2, ⟨_, _, h0, _⟩ | ⟨hne, h3⟩⟩ := scTan_parts h
  · cases h0
  obtain ⟨-, hr⟩ := rank_cases h3
  have hsoft1 := tanSol_guards h1
  have hsoft2 := (scSol_soft h2).1
  have hc1 := hsoft1.curr
  have hc2 : s2.curr = s.curr := hsoft2.curr.trans hc1
  have g2 : ∀ g ∈ s1.guards, g ∈ s2.guards := by
    obtain ⟨l, hl⟩ := hsoft2.guards
    intro g hg; rw [hl]; simp [hg]
  have gr : s'.guards = s2.guards := RankCase.guards hr
  -- what is known after the tangent
  have A1 : (s1.ld s.curr).scSols = [] ∧ (s1.ld s.curr).scEqns = [] ∧ (s1.ld s.curr).shared = none ∧
      (s1.w.unk s.curr).solutions = (s1.ld s.curr).tanSols ∧ Tag.bestRanked ∉ (s1.ld s.curr).method ∧
      ((s1.ld s.curr).tanSols = [] ∨ ∃ e1 e2 gs, (s1.ld s.curr).eqn = some e1 ∧ (s1.ld s.curr).second = some e2 ∧
        Tag.atan2 ∈ (s1.ld s.curr).method ∧ (s1.ld s.curr).tanEqns = [e1, e2] ∧ (∀ g ∈ gs, g ∈ s1.guards) ∧
        (∀ v, G v → (∀ e ∈ s.lists.l1 ++ s.lists.l2, Holds v e) → ∀ e ∈ [e1, e2], Holds v e) ∧
        Determines G gs s.curr (s1.ld s.curr).tanSols [e1, e2]) := by
    rcases tanSol_cases h1 with ⟨_, rfl⟩ | ⟨rfl, _⟩
    · obtain ⟨f1, f2, f3, f4, f5, f6⟩ := hun.fields
      exact ⟨f1, f2, f5, by rw [hun.1, f3], hpl, .inl f3⟩
    · obtain ⟨e1, e2, gs, r1, r2, r3, r4, r5, r6, r7, r8, r9, r10, r11, r12⟩ := tan_fresh hP h1 hin hun hu
      exact ⟨r6, r5, r9, r8, by rw [r3]; simpa using hpl, .inr ⟨e1, e2, gs, r1, r2, by rw [r3]; simp, r4, r10, r11, r12⟩⟩
  obtain ⟨a1, a2, a3, a4, a5, a6⟩ := A1
  -- what is known after the sine or cosine
  have B1 : (s2.ld s.curr).tanSols = (s1.ld s.curr).tanSols ∧ (s2.ld s.curr).tanEqns = (s1.ld s.curr).tanEqns ∧
      (s2.ld s.curr).second = (s1.ld s.curr).second ∧
      (((s2.ld s.curr).scSols = [] ∧ (s2.w.unk s.curr).solutions = (s1.ld s.curr).tanSols ∧
        ((s2.ld s.curr).eqn = (s1.ld s.curr).eqn ∧ (s2.ld s.curr).method = (s1.ld s.curr).method ∨
         ∃ t, (t = Tag.arcsin ∨ t = Tag.arccos) ∧ (s2.ld s.curr).method = (s1.ld s.curr).method ++ [t])) ∨
       (∃ e gs, (s2.ld s.curr).scEqns = [e] ∧ (s2.ld s.curr).eqn = some e ∧ (∀ g ∈ gs, g ∈ s2.guards) ∧ (s2.ld s.curr).scSols ≠ [] ∧
        (s2.w.unk s.curr).solutions = (s1.ld s.curr).tanSols ++ (s2.ld s.curr).scSols ∧ e ∈ s.lists.l1 ∧
        ExactAngles G gs s.curr (s2.ld s.curr).scSols [e])) := by
    have hls := hsoft1.lists
    rcases scSol_cases h2 with ⟨_, rfl | ⟨_, e, t, hf, rfl⟩⟩ | ⟨_, _, e, t, A, B, sine, q1, q2, q3, q4, hE⟩
    · exact ⟨rfl, rfl, rfl, .inl ⟨a1, a4, .inl ⟨rfl, rfl⟩⟩⟩
    · rw [hc1, updLd_same]
      exact ⟨rfl, rfl, rfl, .inl ⟨a1, a4, .inr ⟨t, sincosFind_tag hf, rfl⟩⟩⟩
    · have k1 := hE.sols
      have k2 := hE.mine
      have k3 := hE.oth
      have k4 := hE.mineE
      have k5 := hE.othE
      have k6 := hE.fields
      simp only [updLd_curr, hc1, updLd_same, updLd_w, a1, a2, a3, a4, cand, candE, reduceCtorEq, if_false, if_true, Bool.not_false,
        Bool.false_eq_true, List.nil_append, List.append_nil, Prod.mk.injEq] at k1 k2 k3 k4 k5 k6
      rw [hc1] at q1 q3 q4
      refine ⟨k3, k5, k6.2.1, .inr ⟨e, [A], k4, k6.1, by rw [hE.guards]; simp, by rw [k2]; exact sincosSolutions_ne _ _ _ _ _, by rw [k1, k2], ?_, ?_⟩⟩
      · rw [← hls]; exact sincosFind_mem q1
      · rw [k2]; exact sc_exact hP q3 q4
  obtain ⟨b1, b2, b3, b4⟩ := B1
  -- the choice
  have tan_case : ∀ {e1 e2 : KEqn} {gs : List Expr}, (∀ g ∈ gs, g ∈ s1.guards) → (∀ v, G v → (∀ e ∈ s.lists.l1 ++ s.lists.l2, Holds v e) → ∀ e ∈ [e1, e2], Holds v e) →
      Determines G gs s.curr (s1.ld s.curr).tanSols [e1, e2] → (s'.w.unk s.curr).solutions = (s1.ld s.curr).tanSols →
      Shown (s'.ld s.curr) [e1, e2] → Found G s s' := fun k1 k2 k3 k4 k5 =>
    ⟨_, _, k5, fun g hg => by rw [gr]; exact g2 g (k1 g hg), k2, by rw [k4]; exact k3⟩
  have sc_case : ∀ {e : KEqn} {gs : List Expr}, (∀ g ∈ gs, g ∈ s2.guards) → e ∈ s.lists.l1 → ExactAngles G gs s.curr (s2.ld s.curr).scSols [e] →
      (s'.w.unk s.curr).solutions = (s2.ld s.curr).scSols → (s'.ld s.curr).eqn = some e → Found G s s' := fun k1 k2 k3 k4 k5 =>
    ⟨_, _, .inl ⟨_, k5, rfl⟩, fun g hg => by rw [gr]; exact k1 g hg, fun v _ hl e he => by
      rw [List.mem_singleton] at he; subst he; exact hl _ (by simp [k2]), by rw [k4]; exact .inr (.inl k3)⟩
  cases hr with
  | none n1 n2 =>
    exfalso
    rw [hc2] at n1 n2
    have two1 : st1 = .success ∨ st1 = .failure := by
      rcases tanSol_cases h1 with ⟨rfl, _⟩ | ⟨rfl, _⟩ <;> simp
    have two2 : st2 = .success ∨ st2 = .failure := by
      rcases scSol_cases h2 with ⟨rfl, _⟩ | ⟨rfl, _⟩ <;> simp
    rcases hne with h | h
    · have := tan_fresh hP (two1.resolve_right h ▸ h1) hin hun hu
      obtain ⟨_, _, _, _, _, _, _, _, _, r7, _⟩ := this
      exact r7 (by rw [← b1]; exact n2)
    · have := (scSol_soft h2).2.2 (two2.resolve_right h)
      rw [hc1] at this
      exact this.2 n1
  | one k0 k1 =>
    rw [hc2] at k0 k1
    have hld : s'.ld s.curr = { s2.ld s.curr with ready := false } := by
      rw [(LS.setSolved_ok k1).2.2.2.2.2.2.2]; simp
    have hso : (s'.w.unk s.curr).solutions = (s2.w.unk s.curr).solutions := (LS.setSolved_ok k1).1.solutions
    rcases b4 with ⟨c1, c2, c3⟩ | ⟨e, gs, c1, c2, c3, c4, c5, c6, c7⟩
    · have hT : (s1.ld s.curr).tanSols ≠ [] := by rw [← b1]; exact k0.1 c1
      obtain ⟨e1, e2, gs, r1, r2, r3, r4, r5, r6, r7⟩ := a6.resolve_left hT
      refine tan_case r5 r6 r7 (by rw [hso, c2]) ?_
      rw [hld]
      rcases c3 with ⟨c3, -⟩ | ⟨t, ht, c3⟩
      · exact .inr (.inl ⟨e1, e2, by rw [← r1, ← c3], by rw [← r2, ← b3], rfl⟩)
      · refine .inr (.inr ⟨by simp, ?_, ?_, ?_⟩) <;> dsimp only <;> rw [c3]
        · simp [r3]
        · rcases ht with rfl | rfl <;> simp
        · rcases ht with rfl | rfl <;> simpa using a5
    · have hT : (s1.ld s.curr).tanSols = [] := by
        by_contra hc
        exact c4 (k0.2 (by rw [b1]; exact hc))
      refine sc_case c3 c6 c7 (by rw [hso, c5, hT, List.nil_append]) (by rw [hld]; exact c2)
  | @chosen _ x0 l0 x1 l1 e0 b sec tags n1 n2 _ n4 n5 n3 =>
    rw [hc2] at n1 n2 n4 n5 n3
    have hld : s'.ld s.curr = { s2.ld s.curr with
        ready := false, eqn := some e0, second := if b then sec else (s2.ld s.curr).second, method := (s2.ld s.curr).method ++ tags, shared := some b } := by
      rw [(LS.setSolved_ok n3).2.2.2.2.2.2.2]; simp only [if_true, updLd_same, updU_ld]
    have hso : (s'.w.unk s.curr).solutions = cand b (s2.ld s.curr) := by
      rw [(LS.setSolved_ok n3).1.solutions]; simp
    have hT : (s1.ld s.curr).tanSols ≠ [] := by rw [← b1, n2]; simp
    obtain ⟨e1, e2, gs, r1, r2, r3, r4, r5, r6, r7⟩ := a6.resolve_left hT
    rcases b4 with ⟨c1, c2, c3⟩ | ⟨e, gs', c1, c2, c3, c4, c5, c6, c7⟩
    · rw [c1] at n1; cases n1
    cases b with
    | true =>
      obtain ⟨e2', m1, m2⟩ := n5 rfl
      rw [b2, r4] at m1
      simp only [List.getElem?_cons_succ, List.getElem?_cons_zero, Option.some.injEq] at m1
      simp only [candE, if_true, b2, r4, List.head?_cons, Option.some.injEq] at n4
      subst m1 n4
      refine tan_case r5 r6 r7 (by rw [hso, cand, if_pos rfl, b1]) (.inr (.inl ⟨e1, e2, by rw [hld], by rw [hld]; simpa using m2, rfl⟩))
    | false =>
      simp only [candE, Bool.false_eq_true, if_false, c1, List.head?_cons, Option.some.injEq] at n4
      subst n4
      exact sc_case c3 c6 c7 (by rw [hso]; rfl) (by rw [hld])
end

/-! ## Runs -/

/-- No unsolved unknown carries the mark of a choice between candidates. -/
def Plain (s : LS) : Prop := ∀ x, s.solved x = false → Tag.bestRanked ∉ (s.ld x).method

theorem Plain.one {s s' : LS} (h : Plain s) (x : String) (ho : ∀ n, n ≠ x → s'.ld n = s.ld n)
    (hs : ∀ n, s'.solved n = false → s.solved n = false) (hx : s'.solved x = false → Tag.bestRanked ∉ (s'.ld x).method) : Plain s' := by
  intro n hn
  by_cases he : n = x
  · subst he; exact hx hn
  · rw [ho n he]; exact h n (hs n hn)

theorem Plain.updLd {s : LS} (h : Plain s) (x : String) (f : LeafData → LeafData)
    (hf : ∀ d : LeafData, Tag.bestRanked ∉ d.method → Tag.bestRanked ∉ (f d).method) : Plain (s.updLd x f) :=
  h.one x (fun _ hn => updLd_other _ _ _ hn) (fun _ => id) (fun hn => by rw [updLd_same]; exact hf _ (h x hn))

theorem Plain.set {s s1 s' : LS} {x : String} (h : Plain s) (ho : ∀ n, n ≠ x → s1.ld n = s.ld n)
    (hw : ∀ n, (s1.w.unk n).solved = (s.w.unk n).solved) (h1 : s1.setSolved x = .ok s') : Plain s' := by
  obtain ⟨hst, -, -, -, -, -, -, hl⟩ := LS.setSolved_ok h1
  refine h.one x (fun n hn => ?_) (fun n hn => ?_) (fun hx => ?_)
  · rw [hl]; dsimp only; rw [if_neg hn]; exact ho n hn
  · by_cases he : n = x
    · subst he; rw [LS.solved, hst.solved] at hn; cases hn
    · rw [LS.solved, hst.other n he, hw] at hn; exact hn
  · rw [LS.solved, hst.solved] at hx; cases hx

theorem Plain.ext {own : Bool} {new : List Expr} {es : List KEqn} {g : List Expr} {s s' : LS} (h : Plain s) (hE : Ext own new es g s s') : Plain s' := by
  refine h.one s.curr hE.other (fun n hn => ?_) (fun hn => ?_)
  · rw [LS.solved, hE.only.solved] at hn; exact hn
  · have : (s'.ld s.curr).method = (s.ld s.curr).method := congrArg (fun p => p.2.2.1) hE.fields
    rw [this]
    rw [LS.solved, hE.only.solved] at hn
    exact h _ hn

theorem Plain.solves {sols : List Expr} {s s' : LS} (h : Plain s) (hs : Solves sols s s') : Plain s' := by
  have hst := Sol.setSolved_ok hs.w
  refine h.one s.curr hs.other (fun n hn => ?_) (fun hn => ?_)
  · by_cases he : n = s.curr
    · subst he; rw [LS.solved, hst.solved] at hn; cases hn
    · rw [LS.solved, hst.other n he] at hn
      have : (setSolutions s.w s.curr sols).unk n = s.w.unk n := Sol.upd_other _ _ he
      rw [this] at hn; exact hn
  · rw [LS.solved, hst.solved] at hn; cases hn

theorem act_plain (P : Sympy) (l : LeafName) (s : LS) (st : Status) (s' : LS) (h : act P l s = .ok (st, s')) (hN : Plain s) : Plain s' := by
  cases l <;> simp only [act] at h
  case asgn => obtain ⟨-, c, x, hx, rfl, -⟩ := assigner_cases h; exact hN
  case rank =>
    obtain ⟨-, hr⟩ := rank_cases h
    cases hr with
    | none => exact hN
    | one h0 h => exact hN.set (fun _ _ => rfl) (fun _ => rfl) h
    | chosen b sec tags h1 _ _ _ _ h =>
      refine hN.set (x := s.curr) (s1 := (s.updU s.curr _).updLd s.curr _) (fun n hn => ?_) (fun n => ?_) h
      · rw [updLd_other _ _ _ hn, updU_ld]
      · rw [updLd_w, updU_w]
        by_cases hn : n = s.curr
        · subst hn; simp
        · rw [Sol.upd_other _ _ hn]
  case tanID =>
    rcases tanId_cases h with ⟨-, rfl, -⟩ | ⟨-, rfl, -⟩ | ⟨-, _, _, es, _, ec, _, a, b, _, rfl⟩
    · exact hN
    · exact hN
    · exact hN.updLd _ _ fun d hd => by simpa using hd
  case tanSolver =>
    rcases tanSolve_cases h with ⟨-, rfl, -⟩ | ⟨-, _, e1, e2, A, B, C, D, one, he, _, _, _, hE⟩
    · exact hN
    · exact hN.ext hE
  case algID =>
    rcases act_two P .algID s st s' h with rfl | rfl
    · obtain ⟨_, tmp, _, rfl⟩ := algebraId_ok h; exact hN.updLd _ _ fun d hd => by simpa using hd
    · rw [algebraId_fail h]; exact hN
  case algSolver =>
    unfold algebraSolve at h
    dsimp only at h
    repeat' split at h
    all_goals first | (cases h; done) | (cases h; exact hN) | skip
    next h1 =>
    cases h
    refine hN.set (fun n hn => ?_) (fun n => ?_) h1
    · simp [pushSol_other _ _ _ hn]
    · simp only [updU_w, pushSol_w]
      by_cases hn : n = s.curr
      · subst hn; simp
      · rw [Sol.upd_other _ _ hn, Sol.upd_other _ _ hn]
  case scID =>
    rcases sincosId_cases h with ⟨_, rfl⟩ | ⟨_, _, _, e, t, hf, rfl⟩
    · exact hN
    · exact hN.updLd _ _ fun d hd => by rcases sincosFind_tag hf with rfl | rfl <;> simpa using hd
  case scSolver =>
    rcases sincosSolve_cases h with ⟨-, rfl⟩ | ⟨-, e, A, B, sine, he, _, _, _, hE⟩
    · exact hN
    · exact hN.ext hE
  case sacID =>
    rcases sacId_cases h with ⟨_, rfl⟩ | ⟨_, _, es, _, rfl⟩
    · exact hN
    · exact hN.updLd _ _ fun d hd => by simpa using hd
  case sacSolver =>
    unfold sacSolve at h
    dsimp only at h
    split at h
    swap
    · cases h; exact hN
    split at h
    · cases h
    split at h
    · cases h
    split at h
    · cases h
    next h1 =>
    cases h
    refine hN.set (fun n hn => ?_) (fun n => ?_) h1
    · simp [pushSol_other _ _ _ hn]
    · simp only [updU_w, pushSol_w]
      by_cases hn : n = s.curr
      · subst hn; simp
      · rw [Sol.upd_other _ _ hn, Sol.upd_other _ _ hn, Sol.upd_other _ _ hn]
  case x2z2 =>
    unfold x2z2 at h
    split at h
    swap
    · cases h; exact hN
    split at h
    · cases h; exact hN
    next e he =>
    split at h
    · cases h; exact hN
    next v hv =>
    cases h
    exact Plain.updLd (s := { s with aux := s.aux ++ [e] }) hN _ _ fun d hd => by simpa using hd
  case simuID =>
    rcases simuId_cases h with ⟨_, rfl⟩ | ⟨_, _, a, b, _, rfl⟩
    · exact hN
    · exact hN.updLd _ _ fun d hd => by simpa using hd
  case simuSolver =>
    rcases simuSolve_cases h with ⟨_, rfl⟩ | ⟨_, e1, e2, he, _, hs, _, hld⟩
    · exact hN
    · exact hN.solves hs
  case subTrans =>
    obtain ⟨-, h1, h2, -⟩ := subTransform_cases h
    intro x hx
    rw [LS.solved, h1] at hx
    rw [h2]
    exact hN x hx
  case sumID => rw [(sumId_cases h).2]; exact hN
  case updateL => obtain ⟨-, L, _, rfl⟩ := updateLeaf_cases h; exact hN
  case compDetect => rw [compDetect_eq] at h; cases h; exact hN

theorem den_plain {P : Sympy} {t : BT.Tree LeafName} {s s' : LS} {st : Status} (h : den (env P) 0 t s = .ok (st, s')) (hN : Plain s) : Plain s' :=
  den_rel (E := env P) (R := fun a b => Plain a → Plain b) (fun _ => id) (fun _ _ _ f g a => g (f a))
    (fun l u s u' h => act_plain P l u s u' h) (fun _ => id) t s st s' h hN

theorem Found.of_quiet {G : (String → ℝ) → Prop} {s s1 s' : LS} (h : Found G s1 s') (hq : Quiet s s1) : Found G s s' := by
  obtain ⟨es, gs, h1, h2, h3, h4⟩ := h
  rw [hq.curr] at h1 h4
  rw [hq.lists] at h3
  exact ⟨es, gs, h1, h2, h3, h4⟩

section
variable {P : Sympy} {G : (String → ℝ) → Prop} (hP : P.Sound G)
include hP

/-- An attempt that solves an untouched unknown. -/
theorem work_found {s s' : LS} {st : Status} (h : den (env P) 0 worktools s = .ok (st, s')) (hin : s.curr ∈ s.w.unknowns) (hun : Untouched s s.curr)
    (hu : s.solved s.curr = false) (hpl : Plain s) (hsol : s'.solved s.curr = true)
    (hfree : ∀ sol ∈ (s'.w.unk s.curr).solutions, sol.has s.curr = false) : Found G s s' := by
  rw [worktools, lf, den, dens, dens, dens, dens, dens, dens, denComp] at h
  rcases denPri_cons h with ⟨h1, hne⟩ | ⟨s1, h1, h⟩
  · rcases algSol_cases h1 with ⟨rfl, _⟩ | ⟨rfl, _⟩
    · exact absurd rfl hne
    · exact alg_found hP h1 hun
  have q1 : Quiet s s1 := by
    rcases algSol_cases h1 with ⟨_, hq, _⟩ | ⟨h, _⟩
    · exact hq
    · cases h
  have p1 := den_plain h1 hpl
  clear h1
  have fr : ∀ {t : LS}, Quiet s t → Untouched t t.curr ∧ t.curr ∈ t.w.unknowns ∧ t.solved t.curr = false := fun hq =>
    ⟨by rw [hq.curr]; exact hun.quiet hq, by rw [hq.curr, hq.w]; exact hin, by rw [LS.solved, hq.curr, hq.w]; exact hu⟩
  have hfr : ∀ {t : LS}, Quiet s t → ∀ sol ∈ (s'.w.unk t.curr).solutions, sol.has t.curr = false := fun hq => by rw [hq.curr]; exact hfree
  rcases denPri_cons h with ⟨h1, hne⟩ | ⟨s2, h1, h⟩
  · rcases scTan_cases h1 with ⟨rfl, _⟩ | ⟨rfl, -⟩
    · exact absurd rfl hne
    · obtain ⟨f1, f2, f3⟩ := fr q1
      exact (scTan_found hP h1 f2 f1 f3 (p1 _ f3)).of_quiet q1
  have q2 : Quiet s s2 := by
    rcases scTan_cases h1 with ⟨_, hq, _⟩ | ⟨h, _⟩
    · exact q1.trans hq
    · cases h
  clear h1
  rcases denPri_cons h with ⟨h1, hne⟩ | ⟨s3, h1, h⟩
  · rcases simuSol_cases h1 with ⟨rfl, _⟩ | ⟨rfl, hu, _⟩
    · exact absurd rfl hne
    · exact (simu_found hP h1 (hfr q2)).of_quiet q2
  have q3 : Quiet s s3 := by
    rcases simuSol_cases h1 with ⟨_, hq, _⟩ | ⟨h, _⟩
    · exact q2.trans hq
    · cases h
  clear h1
  rcases denPri_cons h with ⟨h1, hne⟩ | ⟨s4, h1, h⟩
  · rcases sacSol_cases h1 with ⟨rfl, _⟩ | ⟨rfl, hu, _⟩
    · exact absurd rfl hne
    · exact (sac_found hP h1 (fr q3).1 (hfr q3)).of_quiet q3
  have q4 : Quiet s s4 := by
    rcases sacSol_cases h1 with ⟨_, rfl⟩ | ⟨h, _⟩
    · exact q3
    · cases h
  clear h1
  exfalso
  have hw : s'.w = s4.w := by
    rcases denPri_cons h with ⟨h1, hne⟩ | ⟨s5, h1, h⟩
    · rcases x2z2_cases (denLeaf_ok.mp h1) with ⟨_, rfl⟩ | ⟨_, ha⟩
      · rfl
      · obtain ⟨e, he⟩ := ha.rest; rw [he]
    · simp only [denPri] at h
      cases h
      rcases x2z2_cases (denLeaf_ok.mp h1) with ⟨_, rfl⟩ | ⟨_, ha⟩
      · rfl
      · obtain ⟨e, he⟩ := ha.rest; rw [he]
  rw [LS.solved, hw, q4.w] at hsol
  rw [LS.solved] at hu
  rw [hu] at hsol; cases hsol
end

/-! ### Every equation of the state follows from those of the robot -/

/-- The values satisfy all equations of the state, also those shown for the unknowns. -/
structure Sys (v : String → ℝ) (s : LS) : Prop where
  ms : ∀ m ∈ s.ms, MHolds v m
  aux : ∀ e ∈ s.aux, Holds v e
  l1 : ∀ e ∈ s.lists.l1, Holds v e
  l2 : ∀ e ∈ s.lists.l2, Holds v e
  eqn : ∀ x e, (s.ld x).eqn = some e → Holds v e
  second : ∀ x e, (s.ld x).second = some e → Holds v e
  eqns : ∀ x b, ∀ e ∈ candE b (s.ld x), Holds v e

/-- Only the leaf fields of `x` changed. -/
theorem Sys.ld {v : String → ℝ} {s s' : LS} (h : Sys v s) (x : String) (hm : s'.ms = s.ms) (ha : s'.aux = s.aux) (hl : s'.lists = s.lists)
    (ho : ∀ n, n ≠ x → s'.ld n = s.ld n) (h1 : ∀ e, (s'.ld x).eqn = some e → Holds v e) (h2 : ∀ e, (s'.ld x).second = some e → Holds v e)
    (h3 : ∀ b, ∀ e ∈ candE b (s'.ld x), Holds v e) : Sys v s' := by
  refine ⟨by rw [hm]; exact h.ms, by rw [ha]; exact h.aux, by rw [hl]; exact h.l1, by rw [hl]; exact h.l2, fun n => ?_, fun n => ?_, fun n => ?_⟩ <;>
    by_cases hn : n = x
  · subst hn; exact h1
  · rw [ho n hn]; exact h.eqn n
  · subst hn; exact h2
  · rw [ho n hn]; exact h.second n
  · subst hn; exact h3
  · rw [ho n hn]; exact h.eqns n

theorem Sys.updLd {v : String → ℝ} {s : LS} (h : Sys v s) (f : LeafData → LeafData) (hE : ∀ b d, candE b (f d) = candE b d)
    (h1 : ∀ e, (f (s.ld s.curr)).eqn = some e → Holds v e) (h2 : ∀ e, (f (s.ld s.curr)).second = some e → Holds v e) : Sys v (s.updLd s.curr f) :=
  h.ld s.curr rfl rfl rfl (fun _ hn => updLd_other _ _ _ hn) (by rw [updLd_same]; exact h1) (by rw [updLd_same]; exact h2)
    (fun b => by rw [updLd_same, hE]; exact h.eqns _ b)

theorem Sys.ext {v : String → ℝ} {own : Bool} {new : List Expr} {es : List KEqn} {g : List Expr} {s s' : LS} (h : Sys v s) (hE : Ext own new es g s s')
    (he : ∀ e ∈ es, Holds v e) : Sys v s' := by
  have hf := hE.fields
  simp only [Prod.mk.injEq] at hf
  refine h.ld s.curr hE.ms hE.aux hE.lists hE.other (by rw [hf.1]; exact h.eqn _) (by rw [hf.2.1]; exact h.second _) fun b => ?_
  by_cases hb : b = own
  · subst hb
    rw [hE.mineE]
    intro e he'
    rcases List.mem_append.1 he' with he' | he'
    · exact h.eqns _ b e he'
    · exact he e he'
  · have : b = !own := by cases b <;> cases own <;> simp_all
    subst this
    rw [hE.othE]; exact h.eqns _ _

theorem pushSol_same (s : LS) (x : String) (e : Expr) (n : String) : ((s.pushSol x e).ld n).eqn = (s.ld n).eqn ∧
    ((s.pushSol x e).ld n).second = (s.ld n).second ∧ ∀ b, candE b ((s.pushSol x e).ld n) = candE b (s.ld n) := by
  unfold LS.pushSol; dsimp only
  split
  · exact ⟨rfl, rfl, fun _ => rfl⟩
  all_goals
    by_cases hn : n = x
    · subst hn; rw [updLd_same]; exact ⟨rfl, rfl, fun b => by cases b <;> rfl⟩
    · rw [updLd_other _ _ _ hn]; exact ⟨rfl, rfl, fun _ => rfl⟩

/-- `set_solved` after a change of `x` that keeps the shown equations -/
theorem Sys.set {v : String → ℝ} {s s1 s' : LS} {x : String} (h : Sys v s) (hm : s1.ms = s.ms) (ha : s1.aux = s.aux) (hl : s1.lists = s.lists)
    (ho : ∀ n, n ≠ x → s1.ld n = s.ld n) (h1 : ∀ e, (s1.ld x).eqn = some e → Holds v e) (h2 : ∀ e, (s1.ld x).second = some e → Holds v e)
    (h3 : ∀ b, ∀ e ∈ candE b (s1.ld x), Holds v e) (hs : s1.setSolved x = .ok s') : Sys v s' := by
  obtain ⟨-, k1, k2, k3, -, -, -, k4⟩ := LS.setSolved_ok hs
  refine h.ld x (k2.trans hm) (k3.trans ha) (k1.trans hl) (fun n hn => ?_) ?_ ?_ ?_
  · rw [k4]; dsimp only; rw [if_neg hn]; exact ho n hn
  · rw [k4]; simpa using h1
  · rw [k4]; simpa using h2
  · rw [k4]; intro b; have := h3 b; cases b <;> simpa [candE] using this

theorem act_sys {P : Sympy} {G : (String → ℝ) → Prop} (hP : P.Sound G) {v : String → ℝ} (hG : G v) (hsum : RespectsSums v) (l : LeafName) (s : LS)
    (st : Status) (s' : LS) (h : act P l s = .ok (st, s')) (hN : Sys v s) : Sys v s' := by
  cases l <;> simp only [act] at h
  case asgn =>
    obtain ⟨-, c, x, hx, rfl, -⟩ := assigner_cases h
    exact ⟨hN.ms, hN.aux, hN.l1, hN.l2, hN.eqn, hN.second, hN.eqns⟩
  case rank =>
    obtain ⟨-, hr⟩ := rank_cases h
    cases hr with
    | none => exact hN
    | one h0 h => exact hN.set rfl rfl rfl (fun _ _ => rfl) (hN.eqn _) (hN.second _) (hN.eqns _) h
    | @chosen _ _ _ _ _ e0 b sec tags _ _ _ h4 h5 h =>
      refine hN.set (x := s.curr) (s1 := (s.updU s.curr _).updLd s.curr _) rfl rfl rfl (fun n hn => ?_) ?_ ?_ ?_ h
      · rw [updLd_other _ _ _ hn, updU_ld]
      · rw [updLd_same]; intro e he; cases he; exact hN.eqns _ b _ (List.mem_of_mem_head? h4)
      · rw [updLd_same]
        intro e he
        dsimp only at he
        split at he
        · next hb =>
          obtain ⟨e2, q1, q2⟩ := h5 hb
          rw [q2] at he; cases he
          exact hN.eqns s.curr true _ (by rw [candE, if_pos rfl]; exact List.mem_of_getElem? q1)
        · exact hN.second _ e he
      · rw [updLd_same]; intro b e he; exact hN.eqns s.curr b e (by cases b <;> exact he)
  case tanID =>
    rcases tanId_cases h with ⟨-, rfl, -⟩ | ⟨-, rfl, -⟩ | ⟨-, _, _, es, hes, ec, hec, a, b, hp, rfl⟩
    · exact hN
    · exact hN
    · have hmem : ∀ e ∈ s.lists.l1 ++ s.lists.l2, Holds v e := by
        intro e he
        rcases List.mem_append.1 he with he | he
        · exact hN.l1 e he
        · exact hN.l2 e he
      obtain ⟨r1, r2⟩ := tanPair_holds hP hG hp (hmem _ hes) (hmem _ hec)
      refine hN.updLd _ (fun b d => by cases b <;> rfl) ?_ ?_
      · intro e he; cases he; exact r1
      · intro e he; cases he; exact r2
  case tanSolver =>
    rcases tanSolve_cases h with ⟨-, rfl, -⟩ | ⟨-, _, e1, e2, A, B, C, D, one, he, he2, _, _, hE⟩
    · exact hN
    · refine hN.ext hE ?_
      simp [hN.eqn _ _ he, hN.second _ _ he2]
  case algID =>
    rcases act_two P .algID s st s' h with rfl | rfl
    · obtain ⟨_, tmp, hf, rfl⟩ := algebraId_ok h
      refine hN.updLd _ (fun b d => by cases b <;> rfl) ?_ (hN.second _)
      intro e he; cases he; exact alg_eqn hP hG hN.l1 hf
    · rw [algebraId_fail h]; exact hN
  case algSolver =>
    unfold algebraSolve at h
    dsimp only at h
    repeat' split at h
    all_goals first | (cases h; done) | (cases h; exact hN) | skip
    next h1 =>
    cases h
    refine hN.set (by simp) (by simp) (by simp) (fun n hn => ?_) ?_ ?_ ?_ h1
    · simp [pushSol_other _ _ _ hn]
    · rw [updU_ld, (pushSol_same _ _ _ _).1]; exact hN.eqn _
    · rw [updU_ld, (pushSol_same _ _ _ _).2.1]; exact hN.second _
    · intro b; rw [updU_ld, (pushSol_same _ _ _ _).2.2]; exact hN.eqns _ b
  case scID =>
    rcases sincosId_cases h with ⟨_, rfl⟩ | ⟨_, _, _, e, t, hf, rfl⟩
    · exact hN
    · refine hN.updLd _ (fun b d => by cases b <;> rfl) ?_ (hN.second _)
      intro e' he'; cases he'; exact hN.l1 e (sincosFind_mem hf)
  case scSolver =>
    rcases sincosSolve_cases h with ⟨-, rfl⟩ | ⟨-, e, A, B, sine, he, _, _, _, hE⟩
    · exact hN
    · refine hN.ext hE ?_
      simp [hN.eqn _ _ he]
  case sacID =>
    rcases sacId_cases h with ⟨_, rfl⟩ | ⟨_, _, es, hf, rfl⟩
    · exact hN
    · refine hN.updLd _ (fun b d => by cases b <;> rfl) ?_ (hN.second _)
      intro e' he'; cases he'; exact sac_holds hP hG hN.l1 hf
  case sacSolver =>
    unfold sacSolve at h
    dsimp only at h
    split at h
    swap
    · cases h; exact hN
    split at h
    · cases h
    split at h
    · cases h
    split at h
    · cases h
    next h1 =>
    cases h
    refine hN.set (by simp) (by simp) (by simp) (fun n hn => ?_) ?_ ?_ ?_ h1
    · simp [pushSol_other _ _ _ hn]
    · rw [updU_ld, (pushSol_same _ _ _ _).1, (pushSol_same _ _ _ _).1]; exact hN.eqn _
    · rw [updU_ld, (pushSol_same _ _ _ _).2.1, (pushSol_same _ _ _ _).2.1]; exact hN.second _
    · intro b; rw [updU_ld, (pushSol_same _ _ _ _).2.2, (pushSol_same _ _ _ _).2.2]; exact hN.eqns _ b
  case x2z2 =>
    rcases x2z2_cases h with ⟨rfl, rfl⟩ | ⟨rfl, ha⟩
    · exact hN
    · obtain ⟨e, h1, h2, h3, h4, -, -, -, -, e1, m1, e2, m2, -, -, -, -, -, hh⟩ := C39_x2z2 hP h
      refine ⟨by rw [h4]; exact hN.ms, ?_, by rw [h3]; exact hN.l1, by rw [h3]; exact hN.l2, fun x => ?_, fun x => ?_, fun x b => ?_⟩
      · rw [h1]
        intro a ha
        rcases List.mem_append.1 ha with ha | ha
        · exact hN.aux a ha
        · rw [List.mem_singleton] at ha; subst ha
          exact hh v hG hsum (hN.l2 e1 m1) (hN.l2 e2 m2)
      · rw [ha.ld x]; exact hN.eqn x
      · rw [ha.ld x]; exact hN.second x
      · rw [ha.ld x]; cases b <;> exact hN.eqns x _
  case simuID =>
    rcases simuId_cases h with ⟨_, rfl⟩ | ⟨_, _, a, b, hf, rfl⟩
    · exact hN
    · obtain ⟨r1, r2⟩ := simu_holds hP hG hN.l1 hf
      refine hN.updLd _ (fun b d => by cases b <;> rfl) ?_ ?_
      · intro e he; cases he; exact r1
      · intro e he; cases he; exact r2
  case simuSolver =>
    rcases simuSolve_cases h with ⟨_, rfl⟩ | ⟨_, e1, e2, he, _, hs, _, hld⟩
    · exact hN
    · refine hN.ld s.curr hs.ms hs.aux hs.lists hs.other ?_ ?_ ?_
      · rw [hld]; exact hN.eqn _
      · rw [hld]; exact hN.second _
      · intro b; rw [hld]; cases b <;> exact hN.eqns s.curr _
  case subTrans =>
    have hst : st = .success := by rcases act_two P .subTrans s st s' h with rfl | rfl; · rfl
                                   · exact absurd (subTransform_cases h).1 (by simp)
    subst hst
    obtain ⟨m, ms, hms, -, h1, h2, h3, h4, h5, h6, h7, h8⟩ := subTransform_spec h
    obtain ⟨m0, m', ms', k1, k2, -, -, -, -, k3⟩ := C40_consequence_partial hP h
    have hms' : ∀ m ∈ s'.ms, MHolds v m := by
      rw [k2]
      intro a ha
      rcases List.mem_cons.1 ha with rfl | ha
      · exact k3 v hG (hN.ms m0 (by rw [k1]; simp))
      · exact hN.ms a (by rw [k1]; simp [ha])
    have hlists : (∀ e ∈ s'.lists.l1, Holds v e) ∧ ∀ e ∈ s'.lists.l2, Holds v e := by
      rcases h8 with ⟨-, hl⟩ | hsc
      · rw [hl]; exact ⟨hN.l1, hN.l2⟩
      · exact ⟨fun e he => scan_holds hsc ⟨hms', hN.aux⟩ (.inl he), fun e he => scan_holds hsc ⟨hms', hN.aux⟩ (.inr (.inl he))⟩
    exact ⟨hms', by rw [h4]; exact hN.aux, hlists.1, hlists.2, by rw [h3]; exact hN.eqn, by rw [h3]; exact hN.second, by rw [h3]; exact hN.eqns⟩
  case sumID => rw [(sumId_cases h).2]; exact hN
  case updateL =>
    obtain ⟨-, L, hL, rfl⟩ := updateLeaf_cases h
    exact ⟨hN.ms, hN.aux, fun e he => update_holds hP hL hG ⟨hN.ms, hN.aux⟩ (.inl he),
      fun e he => update_holds hP hL hG ⟨hN.ms, hN.aux⟩ (.inr (.inl he)), hN.eqn, hN.second, hN.eqns⟩
  case compDetect => rw [compDetect_eq] at h; cases h; exact hN

theorem den_sys {P : Sympy} {G : (String → ℝ) → Prop} (hP : P.Sound G) {v : String → ℝ} (hG : G v) (hsum : RespectsSums v) {t : BT.Tree LeafName}
    {s s' : LS} {st : Status} (h : den (env P) 0 t s = .ok (st, s')) (hN : Sys v s) : Sys v s' :=
  den_rel (E := env P) (R := fun a b => Sys v a → Sys v b) (fun _ => id) (fun _ _ _ f g a => g (f a))
    (fun l u s u' h => act_sys hP hG hsum l u s u' h) (fun _ => id) t s st s' h hN

theorem sys_init {c : CAS} {us : List String} {ms : List MEqn} {aux : List KEqn} {vs : List Var} {L : Lists} (hL : scanForEquations c ms aux vs = .ok L) {v : String → ℝ}
    (hv : Satisfies v ms aux) : Sys v (init us ms aux L) :=
  ⟨hv.1, hv.2, fun e he => scan_holds hL hv (.inl he), fun e he => scan_holds hL hv (.inr (.inl he)), fun x e he => (by cases he), fun x e he => (by cases he),
    fun x b e he => (by cases b <;> cases he)⟩

/-! ### The invariant -/

/-- One attempt either solves the current unknown or leaves what is known of the solved ones. -/
theorem work_ld {P : Sympy} {s s' : LS} {st : Status} (h : den (env P) 0 worktools s = .ok (st, s')) : (∃ sols, Solves sols s s') ∨
    (s'.w = s.w ∧ s'.guards = s.guards ∧ ∀ n, s.solved n = true → s'.ld n = s.ld n) := by
  have upd : ∀ (t : LS) (f : LeafData → LeafData), t.solved t.curr = false → ∀ n, t.solved n = true → (t.updLd t.curr f).ld n = t.ld n := by
    intro t f hu n hn
    refine updLd_other _ _ _ fun hc => ?_
    subst hc; rw [hu] at hn; cases hn
  rw [worktools, lf, den, dens, dens, dens, dens, dens, dens, denComp] at h
  rcases denPri_cons h with ⟨h1, hne⟩ | ⟨s1, h1, h⟩
  · rcases algSol_cases h1 with ⟨rfl, _⟩ | ⟨rfl, hu, _, _, _, _, _, _, hs, _⟩
    · exact absurd rfl hne
    · exact .inl ⟨_, hs⟩
  have q1 : Quiet s s1 ∧ ∀ n, s.solved n = true → s1.ld n = s.ld n := by
    rcases algSol_cases h1 with ⟨_, hq, rfl | ⟨hu, tmp, _, rfl⟩⟩ | ⟨h, _⟩
    · exact ⟨hq, fun _ _ => rfl⟩
    · exact ⟨hq, upd s _ hu⟩
    · cases h
  clear h1
  rcases denPri_cons h with ⟨h1, hne⟩ | ⟨s2, h1, h⟩
  · rcases scTan_cases h1 with ⟨rfl, _⟩ | ⟨rfl, -, sols, hs⟩
    · exact absurd rfl hne
    · exact .inl ⟨_, hs.of_quiet q1.1⟩
  have sol : ∀ {t : LS}, Quiet s t → ∀ n, s.solved n = true → t.solved n = true := fun hq n hn => by rw [LS.solved, hq.w]; exact hn
  have q2 : Quiet s s2 ∧ ∀ n, s.solved n = true → s2.ld n = s.ld n := by
    rcases scTan_cases h1 with ⟨_, hq, rfl | ⟨hu, e, t, _, rfl⟩⟩ | ⟨h, _⟩
    · exact q1
    · exact ⟨q1.1.trans hq, fun n hn => (upd s1 _ hu n (sol q1.1 n hn)).trans (q1.2 n hn)⟩
    · cases h
  clear h1
  rcases denPri_cons h with ⟨h1, hne⟩ | ⟨s3, h1, h⟩
  · rcases simuSol_cases h1 with ⟨rfl, _⟩ | ⟨rfl, hu, _, _, _, hs, _⟩
    · exact absurd rfl hne
    · exact .inl ⟨_, hs.of_quiet q2.1⟩
  have q3 : Quiet s s3 ∧ ∀ n, s.solved n = true → s3.ld n = s.ld n := by
    rcases simuSol_cases h1 with ⟨_, hq, rfl | ⟨hu, a, b, _, rfl⟩⟩ | ⟨h, _⟩
    · exact q2
    · exact ⟨q2.1.trans hq, fun n hn => (upd s2 _ hu n (sol q2.1 n hn)).trans (q2.2 n hn)⟩
    · cases h
  clear h1
  rcases denPri_cons h with ⟨h1, hne⟩ | ⟨s4, h1, h⟩
  · rcases sacSol_cases h1 with ⟨rfl, _⟩ | ⟨rfl, hu, _, _, hs, _⟩
    · exact absurd rfl hne
    · exact .inl ⟨_, hs.of_quiet q3.1⟩
  have q4 : Quiet s s4 ∧ ∀ n, s.solved n = true → s4.ld n = s.ld n := by
    rcases sacSol_cases h1 with ⟨_, rfl⟩ | ⟨h, _⟩
    · exact q3
    · cases h
  clear h1
  have hx : ∃ st, x2z2 P s4 = .ok (st, s') := by
    rcases denPri_cons h with ⟨h1, hne⟩ | ⟨s5, h1, h⟩
    · exact ⟨_, denLeaf_ok.mp h1⟩
    · simp only [denPri] at h
      cases h
      exact ⟨_, denLeaf_ok.mp h1⟩
  obtain ⟨st', hx⟩ := hx
  right
  unfold x2z2 at hx
  split at hx
  swap
  · cases hx; exact ⟨q4.1.w, q4.1.guards, q4.2⟩
  split at hx
  · cases hx; exact ⟨q4.1.w, q4.1.guards, q4.2⟩
  next e he =>
  split at hx
  · cases hx; exact ⟨q4.1.w, q4.1.guards, q4.2⟩
  next v hv =>
  cases hx
  refine ⟨q4.1.w, q4.1.guards, fun n hn => ?_⟩
  rw [updLd_other]
  · exact q4.2 n hn
  · intro hc
    have h1 := List.find?_some hv
    have h2 := List.mem_of_find?_eq_some hv
    simp only [Bool.and_eq_true, Bool.not_eq_true'] at h1
    obtain ⟨m, _, hm⟩ := List.mem_map.1 h2
    have h3 : v.solved = s4.solved v.name := by rw [← hm]; rfl
    rw [h3, ← hc, sol q4.1 n hn] at h1
    cases h1.2

/-- For the unknowns solved once, whose solutions do not contain them: their solutions are those of equations that follow from the robot's. -/
def Exact (G : (String → ℝ) → Prop) (ms : List MEqn) (aux : List KEqn) (s : LS) : Prop := s.w.nodes.Nodup → ∀ x ∈ s.w.nodes,
  (∀ sol ∈ (s.w.unk x).solutions, sol.has x = false) →
  ∃ es gs, Shown (s.ld x) es ∧ (∀ g ∈ gs, g ∈ s.guards) ∧ Implied G ms aux es ∧ Determines G gs x (s.w.unk x).solutions es

theorem exact_step {P : Sympy} {G : (String → ℝ) → Prop} (hP : P.Sound G) {ms : List MEqn} {aux : List KEqn} {s s' : LS} (h : Step P s s') (hi : Inv s)
    (hpl : Plain s) (hsys : ∀ v, G v → RespectsSums v → Satisfies v ms aux → Sys v s) (he : Exact G ms aux s) : Exact G ms aux s' := by
  cases h with
  | assign h => obtain ⟨-, c, x, hx, rfl, -⟩ := assigner_cases h; exact he
  | sub h =>
    obtain ⟨m, ms', hms, -, h1, h2, h3, h4, h5, h6, h7, h8⟩ := subTransform_spec h
    intro hn
    rw [h2] at hn ⊢
    rw [h3, h7]
    exact he hn
  | upd h => obtain ⟨-, L, hL, rfl⟩ := updateLeaf_cases h; exact he
  | work hc h =>
    intro hn x hx hfree
    rcases work_ld h with ⟨sols, hs⟩ | ⟨h1, h2, h3⟩
    · have hst := Sol.setSolved_ok hs.w
      have hnodes : s'.w.nodes = s.w.nodes ++ [s.curr] := by rw [hst.nodes]; rfl
      rw [hnodes] at hn hx
      have hfresh : s.curr ∉ s.w.nodes := fun hm => (List.nodup_append.1 hn).2.2 _ hm _ (by simp) rfl
      have hu : s.solved s.curr = false := by
        by_contra hc
        exact hfresh ((hi.nodes _).1 (by simpa [LS.solved] using hc))
      by_cases hxc : x = s.curr
      · subst hxc
        obtain ⟨es, gs, k1, k2, k3, k4⟩ := work_found hP h hc.1 (hi.fresh _ hu) hu hpl hst.solved hfree
        refine ⟨es, gs, k1, k2, fun v hG hsum hv => k3 v hG fun e he => ?_, k4⟩
        have := hsys v hG hsum hv
        rcases List.mem_append.1 he with he | he
        · exact this.l1 e he
        · exact this.l2 e he
      · have hx' : x ∈ s.w.nodes := by simpa [hxc] using hx
        have hunk : s'.w.unk x = s.w.unk x := by rw [hst.other x hxc]; exact Sol.upd_other _ _ hxc
        rw [hunk] at hfree ⊢
        obtain ⟨es, gs, k1, k2, k3, k4⟩ := he (List.nodup_append.1 hn).1 x hx' hfree
        obtain ⟨g, hg⟩ := hs.guards
        exact ⟨es, gs, by rw [hs.other x hxc]; exact k1, fun a ha => by rw [hg]; simp [k2 a ha], k3, k4⟩
    · rw [h1] at hn hx hfree ⊢
      obtain ⟨es, gs, k1, k2, k3, k4⟩ := he hn x hx hfree
      exact ⟨es, gs, by rw [h3 x ((hi.nodes x).2 hx)]; exact k1, by rw [h2]; exact k2, k3, k4⟩

theorem step_den {P : Sympy} {s s' : LS} (h : Step P s s') : ∃ t st, den (env P) 0 t s = .ok (st, s') := by
  cases h with
  | assign h => exact ⟨.leaf 0 .asgn, _, denLeaf_ok.mpr h⟩
  | work _ h => exact ⟨_, _, h⟩
  | sub h => exact ⟨.leaf 0 .subTrans, _, denLeaf_ok.mpr h⟩
  | upd h => exact ⟨.leaf 0 .updateL, _, denLeaf_ok.mpr h⟩

/-- C77, first part: every equation the program shows for an unknown (solved or not, first or second) follows from the equations of the
robot, in every run. -/
theorem C77_shown_equations_follow {P : Sympy} {G} (hP : P.Sound G) {us : List String} {ms : List MEqn} {aux : List KEqn} {st : Status} {s : LS}
    {counter : Nat} (h : solve P us ms aux counter = .ok (st, s)) (x : String) : Implied G ms aux ((s.ld x).eqn.toList ++ (s.ld x).second.toList) := by
  obtain ⟨_, L, hL, hp, _⟩ := solve_cases h
  intro v hG hsum hv e he
  have hsys : Sys v s := hp.inv (I := Sys v) (fun a b ha hst => by obtain ⟨t, st, hd⟩ := step_den hst; exact den_sys hP hG hsum hd ha) (sys_init hL hv)
  rcases List.mem_append.1 he with he | he
  · exact hsys.eqn x e (by simpa using he)
  · exact hsys.second x e (by simpa using he)

/-- C77, second part: for every sympy that is sound on G and every run in which nothing was solved twice: every solved unknown whose solutions
do not contain it has been solved from equations that follow from those of the robot, and its solutions are the solutions of these
equations, no more and no fewer (`Determines`), wherever the divisors are not zero. The equations are those shown: the first, or both;
unless a tangent pair was solved and then a sine or cosine equation identified but not solved.
Missing: `C77_shown_violation` (the exception), `C77_second_violation` (an equation may be shown that was not used), runs in which an unknown
was solved twice. -/
theorem C77_solutions_exact_partial {P : Sympy} {G} (hP : P.Sound G) {us : List String} {ms : List MEqn} {aux : List KEqn} {st : Status} {s : LS}
    {counter : Nat} (h : solve P us ms aux counter = .ok (st, s)) (hn : s.w.nodes.Nodup) {x : String} (hx : x ∈ s.w.nodes) (hf : ∀ sol ∈ (s.w.unk x).solutions, sol.has x = false) :
    ∃ es gs, Implied G ms aux es ∧ (∀ g ∈ gs, g ∈ s.guards) ∧ Determines G gs x (s.w.unk x).solutions es ∧
      ((∃ e, (s.ld x).eqn = some e ∧ es = [e]) ∨ (∃ e e2, (s.ld x).eqn = some e ∧ (s.ld x).second = some e2 ∧ es = [e, e2]) ∨
       (es ≠ [] ∧ Tag.atan2 ∈ (s.ld x).method ∧ (Tag.arcsin ∈ (s.ld x).method ∨ Tag.arccos ∈ (s.ld x).method) ∧
        Tag.bestRanked ∉ (s.ld x).method)) := by
  obtain ⟨_, L, hL, hp, _⟩ := solve_cases h
  have hfin := hp.inv (I := fun s => Inv s ∧ Plain s ∧ (∀ v, G v → RespectsSums v → Satisfies v ms aux → Sys v s) ∧ Exact G ms aux s)
    (fun a b ha hst => by
      obtain ⟨t, st, hd⟩ := step_den hst
      exact ⟨inv_step ha.1 hst, den_plain hd ha.2.1, fun v hG hsum hv => den_sys hP hG hsum hd (ha.2.2.1 v hG hsum hv),
        exact_step hP hst ha.1 ha.2.1 ha.2.2.1 ha.2.2.2⟩)
    ⟨inv_init us ms aux L, fun x _ => by simp [init], fun v _ _ hv => sys_init hL hv, fun _ x hx => by simp [init, Sol.start] at hx⟩
  obtain ⟨es, gs, k1, k2, k3, k4⟩ := hfin.2.2.2 hn x hx hf
  exact ⟨es, gs, k3, k2, k4, k1⟩
end Verif.Solver
