import Verif.Leaf.Model
import Verif.Leaf.Math
import Verif.Sol.SetSolvedProps
import Verif.Eqn.Props
/-!
# C34-C38: the solver leaves find exactly the solutions of their equations

The identification leaf and the solver leaf are ticked one after the other on the current unknown. What is assumed of
sympy is `Sympy.Sound`: relative to a set `G` of values of the symbols (those at which no denominator that sympy cancels
vanishes), its transformations keep the value of an expression and `match` returns a correct decomposition.
-/
namespace Verif.Leaf
open Verif.Sym Verif.Sol Verif.Eqn
open Verif.BT (Status)

/-- What is assumed of sympy, for the values of the symbols in `G`. -/
structure Sympy.Sound (P : Sympy) (G : (String → ℝ) → Prop) : Prop where
  sub : ∀ a b env, G env → (P.sub a b).eval env = a.eval env - b.eval env
  sub_has : ∀ a b x, (P.sub a b).has x = true → a.has x = true ∨ b.has x = true
  collectU : ∀ u e env, G env → (P.collectU u e).eval env = e.eval env
  collectSC : ∀ u e env, G env → (P.collectSC u e).eval env = e.eval env
  expandSC : ∀ u e env, G env → (P.expandSC u e).eval env = e.eval env
  simplify : ∀ e env, G env → (P.simplify e).eval env = e.eval env
  lin : ∀ {e t ex A B}, P.lin e t ex = some (A, B) → ∀ env, G env → e.eval env = A.eval env * t.eval env + B.eval env
  lin_free : ∀ {e t ex A B}, P.lin e t ex = some (A, B) → ∀ x ∈ ex, occurs x A = false ∧ occurs x B = false
  eqE : ∀ {a b}, P.eqE a b = true → ∀ env, G env → a.eval env = b.eval env
  ratio : ∀ a b env, G env → b.eval env ≠ 0 → (P.ratio a b).eval env = a.eval env / b.eval env
  subst : ∀ e old new env, G env → old.eval env = new.eval env → (P.subst e old new).eval env = e.eval env

/-- The values of the symbols satisfy the equation. -/
def Holds (env : String → ℝ) (e : KEqn) : Prop := e.lhs.eval env = e.rhs.eval env

/-- The values of `u` that satisfy the equations, the other symbols having the values `env`. -/
def Roots (env : String → ℝ) (u : String) (es : List KEqn) : Set ℝ :=
  {x | ∀ e ∈ es, Holds (Function.update env u x) e}

theorem occurs_sym (u : String) : ∀ e : Expr, occurs (.sym u) e = e.has u
  | .num q => by simp [occurs, Expr.has]
  | .sym s => by simp only [occurs, Expr.has]; by_cases h : s = u <;> simp [h]
  | .un f a => by simp [occurs, Expr.has, occurs_sym u a]
  | .bin f a b => by
    have : (Expr.bin f a b == Expr.sym u) = false := by simp
    simp [occurs, Expr.has, occurs_sym u a, occurs_sym u b, this]

/-- An expression without `u` has the same value whatever `u` is. -/
theorem eval_update {e : Expr} {u : String} (h : e.has u = false) (env : String → ℝ) (x : ℝ) :
    e.eval (Function.update env u x) = e.eval env := by
  apply Expr.eval_congr
  intro s hs
  rw [Function.update_of_ne]
  rintro rfl
  rw [h] at hs; cases hs

@[simp] theorem eval_sinU (u : String) (env : String → ℝ) : (sinU u).eval env = Real.sin (env u) := rfl
@[simp] theorem eval_cosU (u : String) (env : String → ℝ) : (cosU u).eval env = Real.cos (env u) := rfl

theorem eval_quot {P : Sympy} {G} (hP : P.Sound G) {l B A : Expr} {env : String → ℝ} (hG : G env)
    (hA : A.eval env ≠ 0) : (quot P l B A).eval env = (l.eval env - B.eval env) / A.eval env := by
  rw [quot, hP.ratio _ _ _ hG hA, hP.sub _ _ _ hG]

/-! ## The state after set_solved -/

theorem LS.setSolved_ok {s s' : LS} {x : String} (h : s.setSolved x = .ok s') :
    Step s.w x s'.w ∧ s'.lists = s.lists ∧ s'.ms = s.ms ∧ s'.aux = s.aux ∧ s'.curr = s.curr ∧ s'.counter = s.counter ∧
    s'.guards = s.guards ∧ s'.ld = (fun n => if n = x then { s.ld n with ready := false } else s.ld n) := by
  unfold LS.setSolved at h
  split at h
  · next w hw =>
    cases h
    exact ⟨Sol.setSolved_ok hw, rfl, rfl, rfl, rfl, rfl, rfl, rfl⟩
  · cases h

/-! ## Appending to the solution lists -/

section Push
variable (s : LS) (x : String) (e : Expr)

@[simp] theorem updU_w (f) : (s.updU x f).w = s.w.upd x f := rfl
@[simp] theorem updU_ld (f) : (s.updU x f).ld = s.ld := rfl
@[simp] theorem updU_lists (f) : (s.updU x f).lists = s.lists := rfl
@[simp] theorem updU_guards (f) : (s.updU x f).guards = s.guards := rfl
@[simp] theorem updU_curr (f) : (s.updU x f).curr = s.curr := rfl
@[simp] theorem updU_counter (f) : (s.updU x f).counter = s.counter := rfl
@[simp] theorem updU_ms (f) : (s.updU x f).ms = s.ms := rfl
@[simp] theorem updU_aux (f) : (s.updU x f).aux = s.aux := rfl
@[simp] theorem updLd_w (f) : (s.updLd x f).w = s.w := rfl
@[simp] theorem updLd_lists (f) : (s.updLd x f).lists = s.lists := rfl
@[simp] theorem updLd_guards (f) : (s.updLd x f).guards = s.guards := rfl
@[simp] theorem updLd_curr (f) : (s.updLd x f).curr = s.curr := rfl
@[simp] theorem updLd_counter (f) : (s.updLd x f).counter = s.counter := rfl
@[simp] theorem updLd_ms (f) : (s.updLd x f).ms = s.ms := rfl
@[simp] theorem updLd_aux (f) : (s.updLd x f).aux = s.aux := rfl
@[simp] theorem updLd_same (f) : (s.updLd x f).ld x = f (s.ld x) := by simp [LS.updLd]
theorem updLd_other {n : String} (f) (h : n ≠ x) : (s.updLd x f).ld n = s.ld n := by simp [LS.updLd, h]

@[simp] theorem pushSol_w : (s.pushSol x e).w = s.w.upd x fun u => { u with solutions := u.solutions ++ [e] } := by
  unfold LS.pushSol; dsimp only; split <;> rfl
@[simp] theorem pushSol_lists : (s.pushSol x e).lists = s.lists := by unfold LS.pushSol; dsimp only; split <;> rfl
@[simp] theorem pushSol_guards : (s.pushSol x e).guards = s.guards := by unfold LS.pushSol; dsimp only; split <;> rfl
@[simp] theorem pushSol_curr : (s.pushSol x e).curr = s.curr := by unfold LS.pushSol; dsimp only; split <;> rfl
@[simp] theorem pushSol_counter : (s.pushSol x e).counter = s.counter := by unfold LS.pushSol; dsimp only; split <;> rfl
@[simp] theorem pushSol_ms : (s.pushSol x e).ms = s.ms := by unfold LS.pushSol; dsimp only; split <;> rfl
@[simp] theorem pushSol_aux : (s.pushSol x e).aux = s.aux := by unfold LS.pushSol; dsimp only; split <;> rfl
@[simp] theorem pushSol_shared (n : String) : ((s.pushSol x e).ld n).shared = (s.ld n).shared := by
  unfold LS.pushSol; dsimp only
  split <;> simp only [LS.updU, LS.updLd] <;> split <;> rfl

@[simp] theorem pushSol_assumption (n : String) : ((s.pushSol x e).ld n).assumption = (s.ld n).assumption := by
  unfold LS.pushSol; dsimp only
  split <;> simp only [LS.updU, LS.updLd] <;> split <;> rfl
@[simp] theorem pushTan_assumption (n : String) : ((s.pushTan x e).ld n).assumption = (s.ld n).assumption := by
  unfold LS.pushTan; dsimp only
  split <;> simp only [LS.updU, LS.updLd] <;> split <;> rfl
@[simp] theorem pushSc_lists : (s.pushSc x e).lists = s.lists := by unfold LS.pushSc; dsimp only; split <;> rfl
@[simp] theorem pushSc_guards : (s.pushSc x e).guards = s.guards := by unfold LS.pushSc; dsimp only; split <;> rfl
@[simp] theorem pushSc_curr : (s.pushSc x e).curr = s.curr := by unfold LS.pushSc; dsimp only; split <;> rfl
@[simp] theorem pushSc_counter : (s.pushSc x e).counter = s.counter := by unfold LS.pushSc; dsimp only; split <;> rfl
@[simp] theorem pushSc_ms : (s.pushSc x e).ms = s.ms := by unfold LS.pushSc; dsimp only; split <;> rfl
@[simp] theorem pushSc_aux : (s.pushSc x e).aux = s.aux := by unfold LS.pushSc; dsimp only; split <;> rfl
@[simp] theorem pushSc_shared (n : String) : ((s.pushSc x e).ld n).shared = (s.ld n).shared := by
  unfold LS.pushSc; dsimp only
  split <;> simp only [LS.updU, LS.updLd] <;> split <;> rfl
theorem pushSc_w (h : (s.ld x).shared ≠ some false) : (s.pushSc x e).w = s.w := by
  simp [LS.pushSc, h]

@[simp] theorem pushTan_lists : (s.pushTan x e).lists = s.lists := by unfold LS.pushTan; dsimp only; split <;> rfl
@[simp] theorem pushTan_guards : (s.pushTan x e).guards = s.guards := by unfold LS.pushTan; dsimp only; split <;> rfl
@[simp] theorem pushTan_curr : (s.pushTan x e).curr = s.curr := by unfold LS.pushTan; dsimp only; split <;> rfl
@[simp] theorem pushTan_counter : (s.pushTan x e).counter = s.counter := by unfold LS.pushTan; dsimp only; split <;> rfl
@[simp] theorem pushTan_ms : (s.pushTan x e).ms = s.ms := by unfold LS.pushTan; dsimp only; split <;> rfl
@[simp] theorem pushTan_aux : (s.pushTan x e).aux = s.aux := by unfold LS.pushTan; dsimp only; split <;> rfl
@[simp] theorem pushTan_shared (n : String) : ((s.pushTan x e).ld n).shared = (s.ld n).shared := by
  unfold LS.pushTan; dsimp only
  split <;> simp only [LS.updU, LS.updLd] <;> split <;> rfl
theorem pushTan_w (h : (s.ld x).shared ≠ some true) : (s.pushTan x e).w = s.w := by
  simp [LS.pushTan, h]
end Push

/-! ## C34 -/

theorem linearMatch_spec {P : Sympy} {G} (hP : P.Sound G) {e : Expr} {u : String} {A B : Expr}
    (h : linearMatch P e u = some (A, B)) :
    A.has u = false ∧ B.has u = false ∧ P.lin e (.sym u) [.sym u] = some (A, B) ∧
    ∀ env, G env → e.eval env = A.eval env * env u + B.eval env := by
  unfold linearMatch at h
  split at h
  · cases h
  · next A' B' hl =>
    split at h
    · cases h
    · cases h
      have := hP.lin_free hl (.sym u) (by simp)
      simp only [occurs_sym] at this
      exact ⟨this.1, this.2, hl, fun env hG => hP.lin hl env hG⟩

theorem algebraFind_spec {P : Sympy} {u : String} {tmp : Expr} : ∀ {l : List KEqn}, algebraFind P u l = some tmp →
    ∃ e ∈ l, tmp = P.collectU u (P.sub e.rhs e.lhs) ∧ ∃ r, linearMatch P tmp u = some r
  | [], h => by simp [algebraFind] at h
  | e :: l, h => by
    simp only [algebraFind] at h
    split at h
    · obtain ⟨e', h1, h2⟩ := algebraFind_spec h
      exact ⟨e', by simp [h1], h2⟩
    · split at h
      · split at h
        · obtain ⟨e', h1, h2⟩ := algebraFind_spec h
          exact ⟨e', by simp [h1], h2⟩
        · next r hr => cases h; exact ⟨e, by simp, rfl, r, hr⟩
      · obtain ⟨e', h1, h2⟩ := algebraFind_spec h
        exact ⟨e', by simp [h1], h2⟩

/-- C34: after the two leaves have succeeded on the unknown u, u is solved, one solution was added, made from one of the
one-unknown equations; it does not contain u, and for all values of the other symbols at which the coefficient it divides by
is not zero, it is the one and only value that satisfies the equation. -/
theorem C34_algebra {P : Sympy} {G} (hP : P.Sound G) {s s1 s2 : LS} (h1 : algebraId P s = .ok (.success, s1))
    (h2 : algebraSolve P s1 = .ok (.success, s2)) :
    ∃ e ∈ s.lists.l1, ∃ A sol : Expr,
      (s2.w.unk s.curr).solved = true ∧
      (s2.w.unk s.curr).solutions = (s.w.unk s.curr).solutions ++ [sol] ∧ s2.guards = s.guards ++ [A] ∧
      A.has s.curr = false ∧ sol.has s.curr = false ∧
      ∀ env, (∀ x, G (Function.update env s.curr x)) → A.eval env ≠ 0 → Roots env s.curr [e] = {sol.eval env} := by
  unfold algebraId at h1
  split at h1
  · cases h1
  dsimp only at h1
  split at h1
  · cases h1
  split at h1
  · cases h1
  next tmp htmp =>
  simp only [Except.ok.injEq, Prod.mk.injEq, true_and] at h1
  obtain ⟨e, he, hte, ⟨A, B⟩, hr⟩ := algebraFind_spec htmp
  subst h1
  simp only [algebraSolve, LS.updLd, if_true, List.contains_eq_mem, List.mem_append, List.mem_singleton, or_true,
    decide_true, Bool.and_true, hr] at h2
  split at h2
  · cases h2
  next hsol =>
  split at h2
  · cases h2
  next s' hs' =>
  simp only [Except.ok.injEq, Prod.mk.injEq, true_and] at h2
  subst h2
  obtain ⟨hst, hfr⟩ := LS.setSolved_ok hs'
  obtain ⟨hA, hB, -, hlin⟩ := linearMatch_spec hP hr
  refine ⟨e, he, A, quot P (.num 0) B A, hst.solved, ?_, ?_, hA, by simpa using hsol, ?_⟩
  · rw [hst.solutions]; simp
  · rw [hfr.2.2.2.2.2.1]; simp
  · intro env hG hne
    have key : ∀ x, e.rhs.eval (Function.update env s.curr x) - e.lhs.eval (Function.update env s.curr x) =
        A.eval env * x + B.eval env := by
      intro x
      have h := hlin _ (hG x)
      rw [hte, hP.collectU _ _ _ (hG x), hP.sub _ _ _ (hG x), eval_update hA, eval_update hB] at h
      simpa using h
    have hGe : G env := by simpa using hG (env s.curr)
    ext x
    simp only [Roots, List.mem_singleton, forall_eq, Set.mem_ofPred_eq, Set.mem_singleton_iff, Holds, eval_quot hP hGe hne]
    have hk := key x
    rw [← lin_iff hne]
    simp only [Expr.eval, Rat.cast_zero]
    constructor <;> intro h <;> linarith

/-! ## C35 -/

theorem sincosFind_mem {u : String} {e : KEqn} {t : Tag} : ∀ {l : List KEqn}, sincosFind u l = some (e, t) → e ∈ l
  | [], h => by simp [sincosFind] at h
  | e' :: l, h => by
    simp only [sincosFind] at h
    split at h
    · exact List.mem_cons_of_mem _ (sincosFind_mem h)
    split at h
    · cases h; simp
    split at h
    · cases h; simp
    · exact List.mem_cons_of_mem _ (sincosFind_mem h)

/-- What sincos_solve does when it succeeds. -/
theorem sincosSolve_spec {P : Sympy} {G} (hP : P.Sound G) {s s2 : LS} {e : KEqn} (he : (s.ld s.curr).eqn = some e)
    (h : sincosSolve P s = .ok (.success, s2)) :
    ∃ A B t sol1 sol2 : Expr, t = quot P e.lhs B A ∧ t.has s.curr = false ∧
      sincosRecord s s.curr e A sol1 sol2 = .ok (.success, s2) ∧
      ((sol1 = .un .asin t ∧ sol2 = .bin .add (.sym "pi") (.un .neg (.un .asin t)) ∧
          ∀ env, G env → e.rhs.eval env = A.eval env * Real.sin (env s.curr) + B.eval env) ∨
       (sol1 = .un .acos t ∧ sol2 = .un .neg (.un .acos t) ∧
          ∀ env, G env → e.rhs.eval env = A.eval env * Real.cos (env s.curr) + B.eval env)) := by
  unfold sincosSolve at h
  dsimp only at h
  split at h
  swap
  · cases h
  rw [he] at h
  dsimp only at h
  split at h
  · split at h
    · cases h
    next A B hl =>
    split at h
    · cases h
    next ht =>
    refine ⟨A, B, _, _, _, rfl, by simpa using ht, h, .inl ⟨rfl, rfl, ?_⟩⟩
    intro env hG
    rw [← hP.collectSC s.curr _ _ hG, hP.lin hl _ hG]; rfl
  · split at h
    swap
    · cases h
    split at h
    · cases h
    next A B hl =>
    split at h
    · cases h
    next ht =>
    refine ⟨A, B, _, _, _, rfl, by simpa using ht, h, .inr ⟨rfl, rfl, ?_⟩⟩
    intro env hG
    rw [← hP.collectSC s.curr _ _ hG, hP.lin hl _ hG]; rfl

/-- C35: after the two leaves have succeeded on u, two solutions were added, made from one of the one-unknown equations.
They do not contain u, and for all values of the other symbols at which the coefficient of sin(u) or cos(u) is not zero: if some angle satisfies
the equation then exactly the angles equal to one of the two modulo 2π do. -/
theorem C35_sincos {P : Sympy} {G} (hP : P.Sound G) {s s1 s2 : LS} (hsh : (s.ld s.curr).shared = none)
    (hpi : s.curr ≠ "pi")
    (h1 : sincosId s = .ok (.success, s1)) (h2 : sincosSolve P s1 = .ok (.success, s2)) :
    ∃ e ∈ s.lists.l1, ∃ A sol1 sol2 : Expr,
      (s2.w.unk s.curr).solutions = (s.w.unk s.curr).solutions ++ [sol1, sol2] ∧ s2.guards = s.guards ++ [A] ∧
      sol1.has s.curr = false ∧ sol2.has s.curr = false ∧
      ∀ env, env "pi" = Real.pi → (∀ x, G (Function.update env s.curr x)) →
        (∀ x, A.eval (Function.update env s.curr x) ≠ 0) → (Roots env s.curr [e]).Nonempty →
        Roots env s.curr [e] = {x | SameAngle x (sol1.eval env) ∨ SameAngle x (sol2.eval env)} := by
  unfold sincosId at h1
  dsimp only at h1
  split at h1
  swap
  · cases h1
  split at h1
  · cases h1
  next e tg hf =>
  simp only [Except.ok.injEq, Prod.mk.injEq, true_and] at h1
  subst h1
  obtain ⟨A, B, t, sol1, sol2, ht, htu, hrec, hcase⟩ := sincosSolve_spec hP (e := e) (by simp [LS.updLd]) h2
  simp only [sincosRecord, Except.ok.injEq, Prod.mk.injEq, true_and] at hrec
  simp only [updLd_curr] at htu hcase
  refine ⟨e, sincosFind_mem hf, A, sol1, sol2, ?_, ?_, ?_, ?_, ?_⟩
  · rw [← hrec]
    simp [pushSc_w, LS.updLd, hsh]
  · rw [← hrec]; simp
  · rcases hcase with ⟨h1, -, -⟩ | ⟨h1, -, -⟩ <;> rw [h1] <;> simpa [Expr.has] using htu
  · rcases hcase with ⟨-, h1, -⟩ | ⟨-, h1, -⟩ <;> rw [h1] <;> simp [Expr.has] <;>
      first | exact ⟨fun h => hpi h.symm, htu⟩ | exact htu
  · intro env hpi' hG hne ⟨x0, hx0⟩
    have key : ∀ x, x ∈ Roots env s.curr [e] ↔ e.lhs.eval (Function.update env s.curr x) =
        e.rhs.eval (Function.update env s.curr x) := fun x => by
      simp only [Roots, List.mem_singleton, forall_eq, Set.mem_ofPred_eq, Holds]
    have tv : ∀ x, t.eval env = (e.lhs.eval (Function.update env s.curr x) - B.eval (Function.update env s.curr x)) /
        A.eval (Function.update env s.curr x) := fun x => by
      rw [← eval_update htu env x, ht, eval_quot hP (hG x) (hne x)]
    rw [key] at hx0
    ext x
    rw [key, Set.mem_ofPred_eq]
    rcases hcase with ⟨r1, r2, hv⟩ | ⟨r1, r2, hv⟩
    · rw [hv _ (hG x0)] at hx0
      have hb := asin_none (hne x0) hx0
      rw [← tv x0] at hb
      rw [hv _ (hG x), Function.update_self, asin_iff (hne x) (tv x ▸ hb.1) (tv x ▸ hb.2), ← tv x, r1, r2]
      simp only [Expr.eval, Fn1.eval, Fn2.eval, hpi', ← sub_eq_add_neg]
    · rw [hv _ (hG x0)] at hx0
      have hb := acos_none (hne x0) hx0
      rw [← tv x0] at hb
      rw [hv _ (hG x), Function.update_self, acos_iff (hne x) (tv x ▸ hb.1) (tv x ▸ hb.2), ← tv x, r1, r2]
      simp only [Expr.eval, Fn1.eval]

/-! ## C36 -/

theorem free_of_count {vs : List Var} {e : Expr} {v : Var} (h : countUnknowns vs e = 0) (hv : v ∈ vs)
    (hs : v.solved = false) : e.has v.name = false := by
  by_contra hc
  have : v ∈ getUnknowns vs e := ((C24_get_unknowns vs e).1 v).mpr ⟨hv, hs, by simpa using hc⟩
  rw [countUnknowns_eq] at h
  rw [List.length_eq_zero_iff.mp h] at this
  cases this

theorem free_of_variables {vs : List Var} {e : Expr} {v : Var} (h : (getVariables vs e).length = 0) (hv : v ∈ vs) :
    e.has v.name = false := by
  by_contra hc
  have : v ∈ getVariables vs e := ((C24_get_variables vs e).1 v).mpr ⟨hv, by simpa using hc⟩
  rw [List.length_eq_zero_iff.mp h] at this
  cases this

theorem mem_vars {s : LS} {x : String} (h : x ∈ s.w.unknowns) : (⟨x, s.solved x⟩ : Var) ∈ s.vars :=
  List.mem_map.mpr ⟨x, h, rfl⟩

theorem tanPair_spec {P : Sympy} {vs : List Var} {u : String} {es ec : KEqn} {a b : Expr}
    (h : tanPair P vs u es ec = some (a, b)) :
    a = P.collectSC u (P.sub es.rhs es.lhs) ∧ b = P.collectSC u (P.sub ec.rhs ec.lhs) ∧
    ∃ A B C D, P.lin a (sinU u) [sinU u, cosU u] = some (A, B) ∧ P.lin b (cosU u) [sinU u, cosU u] = some (C, D) ∧
      countUnknowns vs (P.ratio A C) = 0 ∧ countUnknowns vs B = 0 ∧ countUnknowns vs D = 0 := by
  unfold tanPair at h
  dsimp only at h
  split at h
  · next A B C D h1 h2 =>
    split at h
    · cases h
    · next hc =>
      simp only [Option.some.injEq, Prod.mk.injEq] at h
      obtain ⟨rfl, rfl⟩ := h
      simp only [gt_iff_lt, Bool.or_eq_true, decide_eq_true_eq, not_or, not_lt, Nat.le_zero] at hc
      exact ⟨rfl, rfl, A, B, C, D, h1, h2, hc.1.1, hc.1.2, hc.2⟩
  · cases h

theorem tanFind_spec {P : Sympy} {vs : List Var} {u : String} {sins coss : List KEqn} {r : Expr × Expr}
    (h : tanFind P vs u sins coss = some r) : ∃ es ∈ sins, ∃ ec ∈ coss, tanPair P vs u es ec = some r := by
  obtain ⟨es, h1, h2⟩ := List.exists_of_findSome?_eq_some h
  obtain ⟨ec, h3, h4⟩ := List.exists_of_findSome?_eq_some h2
  exact ⟨es, h1, ec, h3, h4⟩

/-- The expression does not change when u is increased by a multiple of 2π. -/
def Periodic (env : String → ℝ) (u : String) (e : Expr) : Prop :=
  ∀ x y, SameAngle x y → e.eval (Function.update env u x) = e.eval (Function.update env u y)

/-- What tan_id has stored when it found a pair. -/
theorem tanId_spec {P : Sympy} {s s1 : LS} (h0 : (s.ld s.curr).solvableTan = false) (hu : s.solved s.curr = false)
    (h : tanId P s = .ok (.success, s1)) :
    ∃ es ∈ s.lists.l1 ++ s.lists.l2, ∃ ec ∈ s.lists.l1 ++ s.lists.l2, ∃ a b,
      tanPair P s.vars s.curr es ec = some (a, b) ∧
      s1 = s.updLd s.curr fun d => { d with
        eqn := some ⟨.num 0, a⟩, second := some ⟨.num 0, b⟩, ready := true, method := d.method ++ [.atan2],
        solvableTan := true } := by
  unfold tanId at h
  simp only [h0, hu, Bool.not_false, Bool.and_self, if_true] at h
  cases hf : tanFind P s.vars s.curr (tanCands P s.curr (s.lists.l1 ++ s.lists.l2)).1
      (tanCands P s.curr (s.lists.l1 ++ s.lists.l2)).2 with
  | none => rw [hf] at h; simp [h0] at h
  | some r =>
    obtain ⟨a, b⟩ := r
    rw [hf] at h
    simp only [updLd_same, if_true, Except.ok.injEq, Prod.mk.injEq, true_and] at h
    obtain ⟨es, h1, ec, h2, h3⟩ := tanFind_spec hf
    exact ⟨es, List.mem_of_mem_filter h1, ec, List.mem_of_mem_filter h2, a, b, h3, h.symm⟩

/-- What tan_solve does when it succeeds. -/
theorem tanSolve_spec {P : Sympy} {s s2 : LS} {e1 e2 : KEqn} (he1 : (s.ld s.curr).eqn = some e1)
    (he2 : (s.ld s.curr).second = some e2) (h : tanSolve P s = .ok (.success, s2)) :
    ∃ A B C D, P.lin e1.rhs (sinU s.curr) [sinU s.curr, cosU s.curr] = some (A, B) ∧
      P.lin e2.rhs (cosU s.curr) [sinU s.curr, cosU s.curr] = some (C, D) ∧
      countUnknowns s.vars B = 0 ∧ countUnknowns s.vars D = 0 ∧
      (((getVariables (s.vars.filter fun v => !v.solved) A).length = 0 ∧
        s2 = let sol : Expr := .bin .atan2 (P.ratio (P.sub e1.lhs B) A) (P.ratio (P.sub e2.lhs D) C)
          let s : LS := { s with guards := s.guards ++ [A, C] }
          ((((s.pushSol s.curr sol).pushTan s.curr sol).updLd s.curr fun d =>
            { d with tanEqns := d.tanEqns ++ [e1, e2] }).updU s.curr fun u => { u with nsolutions := 1 })) ∨
       ((getVariables (s.vars.filter fun v => !v.solved) A).length ≠ 0 ∧
        s2 =
          let Y := P.sub e1.lhs B
          let X := P.sub e2.lhs D
          let co := P.ratio A C
          let sol1 : Expr := .bin .atan2 (P.ratio Y co) X
          let sol2 : Expr := .bin .atan2 (P.ratio (.un .neg Y) co) (.un .neg X)
          let s : LS := { s with guards := s.guards ++ [A, C] }
          ((((((s.pushSol s.curr sol1).pushSol s.curr sol2).pushTan s.curr sol1).pushTan s.curr sol2).updLd s.curr fun d =>
            { d with tanEqns := d.tanEqns ++ [e1, e2], assumption := d.assumption ++ [(true, C), (false, C)] }).updU s.curr
              fun u => { u with nsolutions := 2 }))) := by
  unfold tanSolve at h
  dsimp only at h
  split at h
  swap
  · cases h
  rw [he1, he2] at h
  dsimp only at h
  split at h
  swap
  · cases h
  next A B C D hA hC =>
  split at h
  · cases h
  next hc =>
  simp only [ne_eq, decide_not, Bool.or_eq_true, Bool.not_eq_eq_eq_not, Bool.not_true, decide_eq_false_iff_not, not_or,
    not_not] at hc
  refine ⟨A, B, C, D, hA, hC, hc.1, hc.2, ?_⟩
  split at h
  · next hg =>
    simp only [Except.ok.injEq, Prod.mk.injEq, true_and] at h
    exact .inl ⟨hg, h.symm⟩
  · next hg =>
    simp only [Except.ok.injEq, Prod.mk.injEq, true_and] at h
    exact .inr ⟨hg, h.symm⟩

/-- C36: after the two leaves have succeeded on an unsolved u not tried before, solutions were added that were made from two
of the equations with one or two unknowns, 0 = A sin(u) + B and 0 = C cos(u) + D.
If A has no unsolved unknown, one solution was added; for all values of the other symbols at which A, C are not zero, if some
angle satisfies both equations then exactly the angles equal to the solution modulo 2π do.
Otherwise two were added, with the assumptions C > 0 and C < 0: every angle that satisfies both equations is the first one
modulo 2π if C > 0 there and the second if C < 0; and then this solution satisfies both equations (if the angle u occurs in
A and C at most as an angle, i.e. they have the period 2π). -/
theorem C36_tan {P : Sympy} {G} (hP : P.Sound G) {s s1 s2 : LS} (hin : s.curr ∈ s.w.unknowns)
    (hu : s.solved s.curr = false) (h0 : (s.ld s.curr).solvableTan = false) (hsh : (s.ld s.curr).shared = none)
    (h1 : tanId P s = .ok (.success, s1)) (h2 : tanSolve P s1 = .ok (.success, s2)) :
    ∃ es ∈ s.lists.l1 ++ s.lists.l2, ∃ ec ∈ s.lists.l1 ++ s.lists.l2, ∃ A C : Expr, s2.guards = s.guards ++ [A, C] ∧
    ((∃ sol, (s2.w.unk s.curr).solutions = (s.w.unk s.curr).solutions ++ [sol] ∧
        ∀ env, (∀ x, G (Function.update env s.curr x)) →
          (∀ x, A.eval (Function.update env s.curr x) ≠ 0 ∧ C.eval (Function.update env s.curr x) ≠ 0) →
          (Roots env s.curr [es, ec]).Nonempty → Roots env s.curr [es, ec] = {x | SameAngle x (sol.eval env)}) ∨
     (∃ sol1 sol2, (s2.w.unk s.curr).solutions = (s.w.unk s.curr).solutions ++ [sol1, sol2] ∧
        (s2.ld s.curr).assumption = (s.ld s.curr).assumption ++ [(true, C), (false, C)] ∧
        ∀ env, (∀ x, G (Function.update env s.curr x)) →
          (∀ x, A.eval (Function.update env s.curr x) ≠ 0 ∧ C.eval (Function.update env s.curr x) ≠ 0) →
          (∀ x ∈ Roots env s.curr [es, ec],
            (0 < C.eval (Function.update env s.curr x) → SameAngle x (sol1.eval env)) ∧
            (C.eval (Function.update env s.curr x) < 0 → SameAngle x (sol2.eval env))) ∧
          (Periodic env s.curr A → Periodic env s.curr C → ∀ x0 ∈ Roots env s.curr [es, ec],
            (0 < C.eval (Function.update env s.curr x0) → {x | SameAngle x (sol1.eval env)} ⊆ Roots env s.curr [es, ec]) ∧
            (C.eval (Function.update env s.curr x0) < 0 →
              {x | SameAngle x (sol2.eval env)} ⊆ Roots env s.curr [es, ec])))) := by
  obtain ⟨es, hes, ec, hec, a, b, hpair, rfl⟩ := tanId_spec h0 hu h1
  obtain ⟨ha, hb, A, B, C, D, hA, hC, hco, hB, hD⟩ := tanPair_spec hpair
  obtain ⟨A', B', C', D', hA', hC', -, -, hcase⟩ := tanSolve_spec (e1 := ⟨.num 0, a⟩) (e2 := ⟨.num 0, b⟩)
    (by simp [LS.updLd]) (by simp [LS.updLd]) h2
  simp only [updLd_curr, hA, Option.some.injEq, Prod.mk.injEq] at hA'
  simp only [updLd_curr, hC, Option.some.injEq, Prod.mk.injEq] at hC'
  obtain ⟨rfl, rfl⟩ := hA'
  obtain ⟨rfl, rfl⟩ := hC'
  refine ⟨es, hes, ec, hec, A, C, ?_, ?_⟩
  · rcases hcase with ⟨-, rfl⟩ | ⟨-, rfl⟩ <;> simp
  have hmem := mem_vars hin
  rw [hu] at hmem
  have hBu := free_of_count hB hmem rfl
  have hDu := free_of_count hD hmem rfl
  have hru := free_of_count hco hmem rfl
  dsimp only at hBu hDu hru
  -- the equations at a value of u
  have key : ∀ env, (∀ x, G (Function.update env s.curr x)) → ∀ x, x ∈ Roots env s.curr [es, ec] ↔
      A.eval (Function.update env s.curr x) * Real.sin x = -B.eval env ∧
      C.eval (Function.update env s.curr x) * Real.cos x = -D.eval env := by
    intro env hG x
    have k1 := hP.lin hA _ (hG x)
    have k2 := hP.lin hC _ (hG x)
    rw [ha, hP.collectSC _ _ _ (hG x), hP.sub _ _ _ (hG x), eval_update hBu, eval_sinU, Function.update_self] at k1
    rw [hb, hP.collectSC _ _ _ (hG x), hP.sub _ _ _ (hG x), eval_update hDu, eval_cosU, Function.update_self] at k2
    simp only [Roots, List.mem_cons, List.not_mem_nil, or_false, forall_eq_or_imp, forall_eq, Set.mem_ofPred_eq, Holds]
    constructor
    · rintro ⟨p, q⟩; exact ⟨by linarith, by linarith⟩
    · rintro ⟨p, q⟩; exact ⟨by linarith, by linarith⟩
  have hY : ∀ env, G env → (P.sub (.num 0) B).eval env = -B.eval env := by
    intro env hG; rw [hP.sub _ _ _ hG]; simp [Expr.eval]
  have hX : ∀ env, G env → (P.sub (.num 0) D).eval env = -D.eval env := by
    intro env hG; rw [hP.sub _ _ _ hG]; simp [Expr.eval]
  have hst : ((s.updLd s.curr fun d => { d with
        eqn := some ⟨.num 0, a⟩, second := some ⟨.num 0, b⟩, ready := true, method := d.method ++ [.atan2],
        solvableTan := true }).ld s.curr).shared = none := by simp [hsh]
  rcases hcase with ⟨hg, rfl⟩ | ⟨hg, rfl⟩
  · left
    refine ⟨_, by simp [pushTan_w, LS.updLd, hsh]; rfl, ?_⟩
    have hAu : A.has s.curr = false := by
      refine free_of_variables (v := ⟨s.curr, false⟩) hg (List.mem_filter.mpr ⟨hmem, rfl⟩)
    intro env hG hne ⟨x0, hx0⟩
    have hGe : G env := by simpa using hG (env s.curr)
    have hAe : A.eval env ≠ 0 := by simpa using (hne (env s.curr)).1
    have hCe : C.eval env ≠ 0 := by simpa using (hne (env s.curr)).2
    have hCc : ∀ x, C.eval (Function.update env s.curr x) = C.eval env := by
      intro x
      have r1 := hP.ratio A C _ (hG x) (hne x).2
      have r2 := hP.ratio A C _ hGe hCe
      rw [eval_update hru, r2, eval_update hAu, div_eq_div_iff hCe (hne x).2] at r1
      exact mul_left_cancel₀ hAe r1
    have key' : ∀ x, x ∈ Roots env s.curr [es, ec] ↔
        A.eval env * Real.sin x = -B.eval env ∧ C.eval env * Real.cos x = -D.eval env := fun x => by
      rw [key env hG x, eval_update hAu, hCc]
    have hv : Expr.eval env (.bin .atan2 (P.ratio (P.sub (.num 0) B) A) (P.ratio (P.sub (.num 0) D) C)) =
        atan2 (-B.eval env / A.eval env) (-D.eval env / C.eval env) := by
      simp only [Expr.eval, Fn2.eval, hP.ratio _ _ _ hGe hAe, hP.ratio _ _ _ hGe hCe, hY _ hGe, hX _ hGe]
    ext x
    rw [key', Set.mem_ofPred_eq, hv]
    constructor
    · rintro ⟨p, q⟩
      exact tan_complete hAe hCe p q
    · intro h
      rw [key'] at hx0
      refine tan_sound hAe hCe ?_ h
      rw [← hx0.1, ← hx0.2, mul_div_cancel_left₀ _ hAe, mul_div_cancel_left₀ _ hCe]
      linarith [Real.sin_sq_add_cos_sq x0]
  · right
    refine ⟨_, _, by simp [pushTan_w, LS.updLd, hsh]; exact ⟨rfl, rfl⟩, ?_, ?_⟩
    · simp
    intro env hG hne
    have hGe : G env := by simpa using hG (env s.curr)
    have hCe : C.eval env ≠ 0 := by simpa using (hne (env s.curr)).2
    -- the values of the two solutions, in terms of the coefficients at any value of u
    have hco : ∀ x, (P.ratio A C).eval env =
        A.eval (Function.update env s.curr x) / C.eval (Function.update env s.curr x) := by
      intro x
      rw [← hP.ratio A C _ (hG x) (hne x).2, eval_update hru]
    have hco0 : (P.ratio A C).eval env ≠ 0 := by
      rw [hco 0]; exact div_ne_zero (hne 0).1 (hne 0).2
    have hv1 : ∀ x, Expr.eval env (.bin .atan2 (P.ratio (P.sub (.num 0) B) (P.ratio A C)) (P.sub (.num 0) D)) =
        atan2 (-B.eval env / (A.eval (Function.update env s.curr x) / C.eval (Function.update env s.curr x)))
          (-D.eval env) := by
      intro x
      simp only [Expr.eval, Fn2.eval, hP.ratio _ _ _ hGe hco0, hY _ hGe, hX _ hGe, ← hco x]
    have hv2 : ∀ x, Expr.eval env
          (.bin .atan2 (P.ratio (.un .neg (P.sub (.num 0) B)) (P.ratio A C)) (.un .neg (P.sub (.num 0) D))) =
        atan2 (-(-B.eval env) / (A.eval (Function.update env s.curr x) / C.eval (Function.update env s.curr x)))
          (-(-D.eval env)) := by
      intro x
      simp only [Expr.eval, Fn1.eval, Fn2.eval, hP.ratio _ _ _ hGe hco0, hY _ hGe, hX _ hGe, ← hco x]
    have complete : ∀ x ∈ Roots env s.curr [es, ec],
        (0 < C.eval (Function.update env s.curr x) → SameAngle x
          (Expr.eval env (.bin .atan2 (P.ratio (P.sub (.num 0) B) (P.ratio A C)) (P.sub (.num 0) D)))) ∧
        (C.eval (Function.update env s.curr x) < 0 → SameAngle x (Expr.eval env
          (.bin .atan2 (P.ratio (.un .neg (P.sub (.num 0) B)) (P.ratio A C)) (.un .neg (P.sub (.num 0) D))))) := by
      intro x hx
      obtain ⟨p, q⟩ := (key env hG x).mp hx
      refine ⟨fun hpos => ?_, fun hneg => ?_⟩
      · rw [hv1 x]; exact tan_pos (hne x).1 hpos p q
      · rw [hv2 x]; exact tan_neg (hne x).1 hneg p q
    refine ⟨complete, ?_⟩
    intro hAu hCu x0 hx0
    have hback : ∀ x, SameAngle x x0 → x ∈ Roots env s.curr [es, ec] := by
      intro x h
      obtain ⟨hs, hc⟩ := sameAngle_iff.mp h
      rw [key env hG] at hx0 ⊢
      rw [hs, hc, hAu x x0 h, hCu x x0 h]; exact hx0
    exact ⟨fun hpos x h => hback x (SameAngle.trans h ((complete x0 hx0).1 hpos).symm),
      fun hneg x h => hback x (SameAngle.trans h ((complete x0 hx0).2 hneg).symm)⟩

/-! ## C37 -/

@[simp] theorem eval_sinCosComb (A B : Expr) (u : String) (env : String → ℝ) :
    (sinCosComb A B u).eval env = A.eval env * Real.sin (env u) + B.eval env * Real.cos (env u) := rfl
@[simp] theorem eval_cosSinComb (A B : Expr) (u : String) (env : String → ℝ) :
    (cosSinComb A B u).eval env = A.eval env * Real.cos (env u) - B.eval env * Real.sin (env u) := by
  simp [cosSinComb, negE, Expr.eval, Fn1.eval, Fn2.eval, cosU, sinU, sub_eq_add_neg]

theorem sacFind_spec {P : Sympy} {u : String} {es : Expr} : ∀ {l : List KEqn}, sacFind P u l = some es →
    ∃ e ∈ l, es = P.expandSC u (P.sub e.rhs e.lhs) ∧
      (P.sub es (sinCosComb (P.coeff es (sinU u)) (P.coeff es (cosU u)) u)).has u = false
  | [], h => by simp [sacFind] at h
  | e :: l, h => by
    simp only [sacFind] at h
    split at h
    · split at h
      · next hc =>
        cases h
        exact ⟨e, by simp, rfl, by simpa using hc⟩
      · obtain ⟨e', h1, h2⟩ := sacFind_spec h
        exact ⟨e', by simp [h1], h2⟩
    · obtain ⟨e', h1, h2⟩ := sacFind_spec h
      exact ⟨e', by simp [h1], h2⟩

/-- What the sinANDcos solver does when it succeeds on an unknown that its ID has just prepared. -/
theorem sacSolve_spec {P : Sympy} {s s2 : LS} {e : KEqn} (hu : s.solved s.curr = false) (hr : (s.ld s.curr).ready = true)
    (hm : Tag.sinANDcos ∈ (s.ld s.curr).method) (he : (s.ld s.curr).eqn = some e)
    (h : sacSolve P s = .ok (.success, s2)) :
    ∃ A B C r2 sol1 sol2 : Expr, A = P.coeff e.rhs (sinU s.curr) ∧ B = P.coeff e.rhs (cosU s.curr) ∧
      C = P.sub (sinCosComb A B s.curr) e.rhs ∧ r2 = .bin .add (.bin .mul A A) (.bin .mul B B) ∧ P.eqE r2 (.num 0) = false ∧
      ((P.eqE C (.num 0) = true ∧ sol1 = .bin .atan2 (negE B) A ∧
          sol2 = .bin .add (.bin .atan2 (negE B) A) (.sym "pi")) ∨
       (P.eqE C (.num 0) = false ∧
          sol1 = .bin .add (.bin .atan2 A B) (.bin .atan2 (.un .sqrt (P.sub r2 (.bin .mul C C))) C) ∧
          sol2 = .bin .add (.bin .atan2 A B) (.bin .atan2 (negE (.un .sqrt (P.sub r2 (.bin .mul C C)))) C))) ∧
      (((({ s with guards := s.guards ++ [r2] } : LS).pushSol s.curr sol1).pushSol s.curr sol2).updU s.curr
        fun x => { x with nsolutions := 2 }).setSolved s.curr = .ok s2 := by
  unfold sacSolve at h
  simp only [hu, hr, he, List.contains_eq_mem, hm, Bool.not_false, decide_true, Bool.and_self, if_true] at h
  split at h
  · cases h
  next hr2 =>
  split at h
  · cases h
  next s' hs' =>
  simp only [Except.ok.injEq, Prod.mk.injEq, true_and] at h
  subst h
  refine ⟨_, _, _, _, _, _, rfl, rfl, rfl, rfl, by simpa using hr2, ?_, hs'⟩
  by_cases hC : P.eqE (P.sub (sinCosComb (P.coeff e.rhs (sinU s.curr)) (P.coeff e.rhs (cosU s.curr)) s.curr) e.rhs)
      (.num 0) = true
  · simp [hC]
  · simp [hC]

/-- C37 for the values of the symbols at which the equation holds or the reported angles are taken: A sin(u) + B cos(u) = C with
the coefficients the solver has read off. -/
theorem sac_values {P : Sympy} {G} (hP : P.Sound G) {A B C r2 sol1 sol2 : Expr} (hr2 : r2 = .bin .add (.bin .mul A A) (.bin .mul B B))
    (hcase : (P.eqE C (.num 0) = true ∧ sol1 = .bin .atan2 (negE B) A ∧
          sol2 = .bin .add (.bin .atan2 (negE B) A) (.sym "pi")) ∨
       (P.eqE C (.num 0) = false ∧
          sol1 = .bin .add (.bin .atan2 A B) (.bin .atan2 (.un .sqrt (P.sub r2 (.bin .mul C C))) C) ∧
          sol2 = .bin .add (.bin .atan2 A B) (.bin .atan2 (negE (.un .sqrt (P.sub r2 (.bin .mul C C)))) C)))
    {env : String → ℝ} (hG : G env) (hpi : env "pi" = Real.pi) (hne : r2.eval env ≠ 0) (x : ℝ)
    (hsolv : ∃ y, A.eval env * Real.sin y + B.eval env * Real.cos y = C.eval env) :
    A.eval env * Real.sin x + B.eval env * Real.cos x = C.eval env ↔
      SameAngle x (sol1.eval env) ∨ SameAngle x (sol2.eval env) := by
  have hpos : 0 < A.eval env ^ 2 + B.eval env ^ 2 := by
    have h0 : 0 ≤ A.eval env ^ 2 + B.eval env ^ 2 := by positivity
    refine lt_of_le_of_ne h0 (fun h => hne ?_)
    rw [hr2]; simp only [Expr.eval, Fn2.eval]; linarith [sq (A.eval env), sq (B.eval env)]
  rcases hcase with ⟨h0, h1, h2⟩ | ⟨h0, h1, h2⟩
  · have hc0 : C.eval env = 0 := by rw [hP.eqE h0 _ hG]; simp [Expr.eval]
    rw [hc0, sincos_zero_iff hpos, h1, h2]
    simp only [Expr.eval, Fn2.eval, Fn1.eval, negE, hpi]
  · obtain ⟨y, hy⟩ := hsolv
    have hb := sincos_bound hy
    rw [sincos_iff hpos hb, h1, h2, hr2]
    simp only [Expr.eval, Fn2.eval, Fn1.eval, negE, hP.sub _ _ _ hG, sq]

/-- C37, as far as it holds: after the two leaves have succeeded on u, two solutions were added, made from one of the
one-unknown equations. For all values of the symbols that satisfy the equation (and where A²+B² is not 0) the value of u is
one of the two modulo 2π. If the coefficients A, B that were read off do not contain u: whenever some angle satisfies the
equation, exactly the angles equal to one of the two modulo 2π do.
The missing part is `C37_violation`: the coefficients may contain u. -/
theorem C37_sinANDcos_partial {P : Sympy} {G} (hP : P.Sound G) {s s1 s2 : LS}
    (h1 : sacId P s = .ok (.success, s1)) (h2 : sacSolve P s1 = .ok (.success, s2)) :
    ∃ e ∈ s.lists.l1, ∃ A B sol1 sol2 : Expr,
      (s2.w.unk s.curr).solved = true ∧
      (s2.w.unk s.curr).solutions = (s.w.unk s.curr).solutions ++ [sol1, sol2] ∧
      s2.guards = s.guards ++ [.bin .add (.bin .mul A A) (.bin .mul B B)] ∧
      (∀ env, env "pi" = Real.pi → G env → A.eval env ^ 2 + B.eval env ^ 2 ≠ 0 → Holds env e →
        SameAngle (env s.curr) (sol1.eval env) ∨ SameAngle (env s.curr) (sol2.eval env)) ∧
      (A.has s.curr = false → B.has s.curr = false →
        ∀ env, env "pi" = Real.pi → (∀ x, G (Function.update env s.curr x)) → A.eval env ^ 2 + B.eval env ^ 2 ≠ 0 →
          (Roots env s.curr [e]).Nonempty →
          Roots env s.curr [e] = {x | SameAngle x (sol1.eval env) ∨ SameAngle x (sol2.eval env)}) := by
  unfold sacId at h1
  dsimp only at h1
  split at h1
  · cases h1
  next hu =>
  split at h1
  · cases h1
  next es hes =>
  simp only [Except.ok.injEq, Prod.mk.injEq, true_and] at h1
  subst h1
  obtain ⟨e, he, hee, hfree⟩ := sacFind_spec hes
  obtain ⟨A, B, C, r2, sol1, sol2, hA, hB, hC, hr2, -, hcase, hset⟩ := sacSolve_spec (e := ⟨.num 0, es⟩)
    (by simpa [LS.solved] using hu) (by simp) (by simp) (by simp) h2
  obtain ⟨hst, hfr⟩ := LS.setSolved_ok hset
  simp only [updLd_curr] at hA hB hC
  have hval : ∀ env, G env → (Holds env e ↔
      A.eval env * Real.sin (env s.curr) + B.eval env * Real.cos (env s.curr) = C.eval env) := by
    intro env hG
    rw [hC, hP.sub _ _ _ hG, eval_sinCosComb, hee, hP.expandSC _ _ _ hG, hP.sub _ _ _ hG, Holds]
    constructor <;> intro h <;> linarith
  have hsq : ∀ env, A.eval env ^ 2 + B.eval env ^ 2 ≠ 0 → r2.eval env ≠ 0 := by
    intro env h
    rw [hr2]; simp only [Expr.eval, Fn2.eval]; rw [← sq, ← sq]; exact h
  refine ⟨e, he, A, B, sol1, sol2, hst.solved, ?_, ?_, ?_, ?_⟩
  · rw [updLd_curr] at hst; rw [hst.solutions]; simp
  · rw [hfr.2.2.2.2.2.1]; simp [hr2]
  · intro env hpi' hG hne hh
    have hv := (hval env hG).mp hh
    exact (sac_values hP hr2 hcase hG hpi' (hsq _ hne) _ ⟨_, hv⟩).mp hv
  · intro hAu hBu env hpi' hG hne ⟨x0, hx0⟩
    have hGe : G env := by simpa using hG (env s.curr)
    -- C is -(the part without u) of the expression
    have hCc : ∀ x, C.eval (Function.update env s.curr x) = C.eval env := by
      have : ∀ y, G (Function.update env s.curr y) → C.eval (Function.update env s.curr y) =
          -(P.sub es (sinCosComb (P.coeff es (sinU s.curr)) (P.coeff es (cosU s.curr)) s.curr)).eval env := by
        intro y hy
        rw [← eval_update hfree env y, hC, hP.sub _ _ _ hy, hP.sub _ _ _ hy, hA, hB]; ring
      intro x
      rw [this x (hG x)]
      have h := this (env s.curr) (by simpa using hGe)
      rw [Function.update_eq_self] at h
      exact h.symm
    have key : ∀ x, x ∈ Roots env s.curr [e] ↔ A.eval env * Real.sin x + B.eval env * Real.cos x = C.eval env := by
      intro x
      simp only [Roots, List.mem_singleton, forall_eq, Set.mem_ofPred_eq]
      rw [hval _ (hG x), eval_update hAu, eval_update hBu, hCc, Function.update_self]
    ext x
    rw [key, Set.mem_ofPred_eq]
    exact sac_values hP hr2 hcase hGe hpi' (hsq _ hne) x ⟨x0, (key x0).mp hx0⟩

/-! ## C38 -/

theorem simuFind_spec {P : Sympy} {u : String} {r : Expr × Expr} : ∀ {l : List Expr}, simuFind P u l = some r →
    ∃ c1 ∈ l, ∃ c2 ∈ l, r.1 = c1 ∧ (r.2 = c2 ∨ r.2 = negE c2)
  | [], h => by simp [simuFind] at h
  | c :: l, h => by
    simp only [simuFind] at h
    split at h
    · next r' hr' =>
      cases h
      obtain ⟨c', hc', hp⟩ := List.exists_of_findSome?_eq_some hr'
      have hcan : ∀ {a b n2}, canonicalSecond P u a b = some n2 → n2 = b ∨ n2 = negE b := by
        intro a b n2 h
        unfold canonicalSecond at h
        dsimp only at h
        split at h
        · cases h
        split at h
        · cases h; exact .inl rfl
        split at h
        · cases h; exact .inr rfl
        · cases h
      unfold simuPair at hp
      split at hp
      · cases hp
      split at hp
      · next n2 h2 => cases hp; exact ⟨c, by simp, c', by simp [hc'], rfl, hcan h2⟩
      · split at hp
        · next n2 h2 => cases hp; exact ⟨c', by simp [hc'], c, by simp, rfl, hcan h2⟩
        · cases hp
    · obtain ⟨c1, h1, c2, h2, h3⟩ := simuFind_spec h
      exact ⟨c1, by simp [h1], c2, by simp [h2], h3⟩

theorem simuCands_mem {P : Sympy} {u : String} {f : Expr} {l : List KEqn} (h : f ∈ simuCands P u l) :
    ∃ e ∈ l, f = P.expandSC u (P.sub e.rhs e.lhs) := by
  have gen : ∀ (l : List KEqn) (acc : List Expr), f ∈ l.foldl (fun acc e =>
      let f := P.expandSC u (P.sub e.rhs e.lhs)
      if (occurs (sinU u) f || occurs (cosU u) f) && !acc.any (fun x => P.eqE x f) then acc ++ [f] else acc) acc →
      f ∈ acc ∨ ∃ e ∈ l, f = P.expandSC u (P.sub e.rhs e.lhs) := by
    intro l
    induction l with
    | nil => intro acc h; exact .inl h
    | cons e l ih =>
      intro acc h
      rw [List.foldl_cons] at h
      rcases ih _ h with h | ⟨e', h1, h2⟩
      · dsimp only at h
        split at h
        · rcases List.mem_append.mp h with h | h
          · exact .inl h
          · exact .inr ⟨e, by simp, by simpa using h⟩
        · exact .inl h
      · exact .inr ⟨e', by simp [h1], h2⟩
  rcases gen l [] h with h | h
  · cases h
  · exact h

/-- What the simultaneous-equation solver does when it succeeds. -/
theorem simuSolve_spec {P : Sympy} {s s2 : LS} {e1 e2 : KEqn} (he1 : (s.ld s.curr).eqn = some e1)
    (he2 : (s.ld s.curr).second = some e2) (h : simuSolve P s = .ok (.success, s2)) :
    ∃ A B C D sol : Expr, A = P.coeff e1.rhs (sinU s.curr) ∧ B = P.coeff e1.rhs (cosU s.curr) ∧
      C = P.simplify (P.sub (sinCosComb A B s.curr) e1.rhs) ∧ D = P.simplify (P.sub (cosSinComb A B s.curr) e2.rhs) ∧
      sol = .bin .atan2 (P.sub (.bin .mul A C) (.bin .mul B D)) (.bin .add (.bin .mul A D) (.bin .mul B C)) ∧
      ((({ s with guards := s.guards ++ [.bin .add (.bin .mul A A) (.bin .mul B B)] } : LS).updU s.curr
        fun x => { x with solutions := [sol], nsolutions := 1 }).updLd s.curr fun x => { x with shared := none }).setSolved
          s.curr = .ok s2 := by
  unfold simuSolve at h
  simp only [he1, he2] at h
  split at h
  · cases h
  split at h
  · cases h
  next s' hs' =>
  simp only [Except.ok.injEq, Prod.mk.injEq, true_and] at h
  subst h
  exact ⟨_, _, _, _, _, rfl, rfl, rfl, rfl, rfl, hs'⟩

/-- C38, as far as it holds: after the two leaves have succeeded on u, its one solution was made from two of the one-unknown
equations. For all values of the symbols that satisfy both (and where A²+B² is not 0) the value of u is the solution modulo
2π. If the coefficients A, B and the rests C, D that were read off do not contain u, neither does the solution, and whenever
some angle satisfies both equations exactly the angles equal to it modulo 2π do.
The missing part is `C38_violation`: the rests may contain u. -/
theorem C38_simultaneous_partial {P : Sympy} {G} (hP : P.Sound G) {s s1 s2 : LS}
    (h1 : simuId P s = .ok (.success, s1)) (h2 : simuSolve P s1 = .ok (.success, s2)) :
    ∃ e1 ∈ s.lists.l1, ∃ e2 ∈ s.lists.l1, ∃ A B C D sol : Expr,
      (s2.w.unk s.curr).solved = true ∧ (s2.w.unk s.curr).solutions = [sol] ∧
      s2.guards = s.guards ++ [.bin .add (.bin .mul A A) (.bin .mul B B)] ∧
      (∀ env, G env → A.eval env ^ 2 + B.eval env ^ 2 ≠ 0 → Holds env e1 → Holds env e2 →
        SameAngle (env s.curr) (sol.eval env)) ∧
      (A.has s.curr = false → B.has s.curr = false → C.has s.curr = false → D.has s.curr = false →
        sol.has s.curr = false ∧
        ∀ env, (∀ x, G (Function.update env s.curr x)) → A.eval env ^ 2 + B.eval env ^ 2 ≠ 0 →
          (Roots env s.curr [e1, e2]).Nonempty →
          Roots env s.curr [e1, e2] = {x | SameAngle x (sol.eval env)}) := by
  unfold simuId at h1
  dsimp only at h1
  split at h1
  · cases h1
  split at h1
  · cases h1
  next a b hab =>
  simp only [Except.ok.injEq, Prod.mk.injEq, true_and] at h1
  subst h1
  obtain ⟨c1, hc1, c2, hc2, r1, r2⟩ := simuFind_spec hab
  obtain ⟨e1, he1, hv1⟩ := simuCands_mem hc1
  obtain ⟨e2, he2, hv2⟩ := simuCands_mem hc2
  obtain ⟨A, B, C, D, sol, hA, hB, hC, hD, hsol, hset⟩ := simuSolve_spec (e1 := ⟨.num 0, a⟩) (e2 := ⟨.num 0, b⟩)
    (by simp) (by simp) h2
  simp only [updLd_curr] at hA hB hC hD hset
  obtain ⟨hst, hfr⟩ := LS.setSolved_ok hset
  dsimp only at r1 r2
  have k1 : ∀ env, G env → (Holds env e1 ↔ A.eval env * Real.sin (env s.curr) + B.eval env * Real.cos (env s.curr) =
      C.eval env) := by
    intro env hG
    rw [hC, hP.simplify _ _ hG, hP.sub _ _ _ hG, eval_sinCosComb, r1, hv1, hP.expandSC _ _ _ hG, hP.sub _ _ _ hG, Holds]
    constructor <;> intro h <;> linarith
  have k2 : ∀ env, G env → (Holds env e2 ↔ A.eval env * Real.cos (env s.curr) - B.eval env * Real.sin (env s.curr) =
      D.eval env) := by
    intro env hG
    have hb : b.eval env = 0 ↔ Holds env e2 := by
      have hc : c2.eval env = e2.rhs.eval env - e2.lhs.eval env := by
        rw [hv2, hP.expandSC _ _ _ hG, hP.sub _ _ _ hG]
      rcases r2 with rfl | rfl
      · rw [hc, Holds]; constructor <;> intro h <;> linarith
      · rw [negE, Expr.eval, Fn1.eval, hc, Holds]; constructor <;> intro h <;> linarith
    rw [hD, hP.simplify _ _ hG, hP.sub _ _ _ hG, eval_cosSinComb, ← hb]
    constructor <;> intro h <;> linarith
  have hs : ∀ env, G env → sol.eval env = atan2 (A.eval env * C.eval env - B.eval env * D.eval env)
      (A.eval env * D.eval env + B.eval env * C.eval env) := by
    intro env hG
    rw [hsol]; simp only [Expr.eval, Fn2.eval, hP.sub _ _ _ hG]
  have hpos : ∀ env, A.eval env ^ 2 + B.eval env ^ 2 ≠ 0 → 0 < A.eval env ^ 2 + B.eval env ^ 2 := by
    intro env h
    exact lt_of_le_of_ne (by positivity) h.symm
  refine ⟨e1, he1, e2, he2, A, B, C, D, sol, hst.solved, ?_, ?_, ?_, ?_⟩
  · rw [hst.solutions]; simp
  · rw [hfr.2.2.2.2.2.1]; simp
  · intro env hG hne hh1 hh2
    rw [hs env hG]
    exact simu_complete (hpos env hne) ((k1 env hG).mp hh1) ((k2 env hG).mp hh2)
  · intro hAu hBu hCu hDu
    refine ⟨?_, ?_⟩
    · rw [hsol]
      have : (P.sub (.bin .mul A C) (.bin .mul B D)).has s.curr = false := by
        by_contra hc
        rcases hP.sub_has _ _ _ (by simpa using hc) with h | h <;>
          simp [Expr.has, hAu, hBu, hCu, hDu] at h
      simp [Expr.has, hAu, hBu, hCu, hDu, this]
    · intro env hG hne ⟨x0, hx0⟩
      have hGe : G env := by simpa using hG (env s.curr)
      have key : ∀ x, x ∈ Roots env s.curr [e1, e2] ↔
          A.eval env * Real.sin x + B.eval env * Real.cos x = C.eval env ∧
          A.eval env * Real.cos x - B.eval env * Real.sin x = D.eval env := by
        intro x
        simp only [Roots, List.mem_cons, List.not_mem_nil, or_false, forall_eq_or_imp, forall_eq, Set.mem_ofPred_eq]
        rw [k1 _ (hG x), k2 _ (hG x), eval_update hAu, eval_update hBu, eval_update hCu, eval_update hDu,
          Function.update_self]
      ext x
      rw [key, Set.mem_ofPred_eq, hs env hGe]
      rw [key] at hx0
      constructor
      · rintro ⟨p, q⟩; exact simu_complete (hpos env hne) p q
      · intro h; exact simu_sound (hpos env hne) (simu_consistent hx0.1 hx0.2) h

end Verif.Leaf
