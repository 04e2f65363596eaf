import Verif.Leaf.Props
/-!
# A small computer algebra system that meets the assumptions, and runs of the leaves with it

`toy` simplifies `0*x`, `1*x`, `0+x`, `x-x` and reads off coefficients syntactically, which agrees with sympy on the
expressions below. The runs show that the hypotheses of C34-C38 are met, and that C37 and C38 fail in general.
-/
namespace Verif.Leaf
open Verif.Sym Verif.Sol Verif.Eqn
open Verif.BT (Status)

/-- sum with `0 + x`, `x + 0` and `x + -x` simplified -/
def sAdd (a b : Expr) : Expr :=
  if a = .num 0 then b else if b = .num 0 then a else if b = .un .neg a then .num 0 else .bin .add a b
/-- product with `0*x`, `x*0`, `1*x`, `x*1` simplified -/
def sMul (a b : Expr) : Expr :=
  if a = .num 0 ∨ b = .num 0 then .num 0 else if a = .num 1 then b else if b = .num 1 then a else .bin .mul a b
/-- negation with `-0` and `--x` simplified -/
def sNeg : Expr → Expr
  | .un .neg a => a
  | a => if a = .num 0 then .num 0 else .un .neg a

/-- simplification, bottom up -/
def toyS : Expr → Expr
  | .num q => .num q
  | .sym s => .sym s
  | .un .neg a => sNeg (toyS a)
  | .un f a => .un f (toyS a)
  | .bin .add a b => sAdd (toyS a) (toyS b)
  | .bin .mul a b => sMul (toyS a) (toyS b)
  | .bin f a b => .bin f (toyS a) (toyS b)

/-- the terms of a sum, with their signs (`true`: negative) -/
def terms (neg : Bool) : Expr → List (Bool × Expr)
  | .bin .add a b => terms neg a ++ terms neg b
  | .un .neg a => terms (!neg) a
  | e => [(neg, e)]

/-- add a term, or remove the opposite one -/
def addTerm (t : Bool × Expr) : List (Bool × Expr) → List (Bool × Expr)
  | [] => [t]
  | x :: l => if x = (!t.1, t.2) then l else x :: addTerm t l

def cancel : List (Bool × Expr) → List (Bool × Expr)
  | [] => []
  | t :: l => addTerm t (cancel l)

def signed (t : Bool × Expr) : Expr := if t.1 then sNeg t.2 else t.2
def rebuild : List (Bool × Expr) → Expr
  | [] => .num 0
  | t :: l => sAdd (signed t) (rebuild l)

/-- `a - b` -/
def toySub (a b : Expr) : Expr := rebuild (cancel (terms false (toyS (.bin .add a (.un .neg b)))))

/-- the coefficients of the terms `c * t` or `t` of a sum -/
def toyCoeff : Expr → Expr → Expr
  | .bin .add a b, t => sAdd (toyCoeff a t) (toyCoeff b t)
  | .un .neg a, t => sNeg (toyCoeff a t)
  | .bin .mul a b, t => if b = t then a else .num 0
  | e, t => if e = t then .num 1 else .num 0

/-- the other terms -/
def toyRest : Expr → Expr → Expr
  | .bin .add a b, t => sAdd (toyRest a t) (toyRest b t)
  | .un .neg a, t => sNeg (toyRest a t)
  | .bin .mul a b, t => if b = t then .num 0 else .bin .mul a b
  | e, t => if e = t then .num 0 else e

/-- `e` as `A*t + B`, if A and B do not contain the excluded expressions -/
def toyLin (e t : Expr) (ex : List Expr) : Option (Expr × Expr) :=
  let A := toyCoeff e t
  let B := toyRest e t
  if ex.all (fun x => !occurs x A && !occurs x B) then some (A, B) else none

/-- `a/b` with equal factors cancelled -/
def toyRatio (a b : Expr) : Expr := if a = b then .num 1 else if b = .num 1 then a else .bin .div a b

def toySize : Expr → Nat
  | .num _ => 0
  | .sym _ => 0
  | .un _ a => toySize a + 1
  | .bin _ a b => toySize a + toySize b + 1

def toy : Sympy where
  eqv a b := toyS a == toyS b
  ops := toySize
  sub := toySub
  collectU _ := toyS
  collectSC _ := toyS
  expandSC _ := toyS
  lin := toyLin
  coeff := toyCoeff
  eqE a b := toyS a == toyS b
  ratio := toyRatio
  simplify := toyS
  hasE e t := occurs t e
  subst := Expr.replace
  sumFound _ := false

theorem eval_sAdd (a b : Expr) (env) : (sAdd a b).eval env = a.eval env + b.eval env := by
  unfold sAdd
  split
  · next h => subst h; simp [Expr.eval]
  split
  · next h => subst h; simp [Expr.eval]
  split
  · next h => subst h; simp [Expr.eval, Fn1.eval]
  · rfl
theorem eval_sMul (a b : Expr) (env) : (sMul a b).eval env = a.eval env * b.eval env := by
  unfold sMul
  split
  · next h => rcases h with h | h <;> subst h <;> simp [Expr.eval]
  split
  · next h => subst h; simp [Expr.eval]
  split
  · next h => subst h; simp [Expr.eval]
  · rfl
theorem eval_sNeg (a : Expr) (env) : (sNeg a).eval env = -a.eval env := by
  unfold sNeg
  split
  · simp [Expr.eval, Fn1.eval]
  · split
    · next h => subst h; simp [Expr.eval]
    · rfl

theorem eval_toyS (env : String → ℝ) : ∀ e : Expr, (toyS e).eval env = e.eval env
  | .num q => rfl
  | .sym s => rfl
  | .un f a => by
    cases f <;> simp only [toyS, eval_sNeg, Expr.eval, Fn1.eval, eval_toyS env a]
  | .bin f a b => by
    cases f <;> simp only [toyS, eval_sAdd, eval_sMul, Expr.eval, Fn2.eval, eval_toyS env a, eval_toyS env b]

theorem has_sAdd {a b : Expr} {x : String} (h : (sAdd a b).has x = true) : a.has x = true ∨ b.has x = true := by
  unfold sAdd at h
  split at h
  · exact .inr h
  split at h
  · exact .inl h
  split at h
  · simp [Expr.has] at h
  · simpa [Expr.has] using h
theorem has_sMul {a b : Expr} {x : String} (h : (sMul a b).has x = true) : a.has x = true ∨ b.has x = true := by
  unfold sMul at h
  split at h
  · simp [Expr.has] at h
  split at h
  · exact .inr h
  split at h
  · exact .inl h
  · simpa [Expr.has] using h
theorem has_sNeg {a : Expr} {x : String} (h : (sNeg a).has x = true) : a.has x = true := by
  unfold sNeg at h
  split at h
  · exact h
  · split at h
    · simp [Expr.has] at h
    · simpa [Expr.has] using h
theorem has_toyS {x : String} : ∀ {e : Expr}, (toyS e).has x = true → e.has x = true
  | .num q, h => h
  | .sym s, h => h
  | .un f a, h => by
    cases f <;> simp only [toyS, Expr.has] at h ⊢
    · exact has_toyS (has_sNeg h)
    all_goals exact has_toyS h
  | .bin f a b, h => by
    have k : (toyS a).has x = true ∨ (toyS b).has x = true := by
      cases f <;> simp only [toyS, Expr.has, Bool.or_eq_true] at h
      · exact has_sAdd h
      · exact has_sMul h
      all_goals exact h
    simp only [Expr.has, Bool.or_eq_true]
    exact k.imp has_toyS has_toyS

/-- the value of a list of terms -/
noncomputable def tval (env : String → ℝ) (t : Bool × Expr) : ℝ := if t.1 then -t.2.eval env else t.2.eval env
noncomputable def tsum (env : String → ℝ) (l : List (Bool × Expr)) : ℝ := (l.map (tval env)).sum

theorem tsum_terms (env : String → ℝ) : ∀ (n : Bool) (e : Expr), tsum env (terms n e) = tval env (n, e)
  | n, .num q => by simp [terms, tsum]
  | n, .sym s => by simp [terms, tsum]
  | n, .un f a => by
    cases f
    case neg =>
      rw [terms, tsum_terms env (!n) a]
      cases n <;> simp [tval, Expr.eval, Fn1.eval]
    all_goals simp [terms, tsum]
  | n, .bin f a b => by
    cases f
    case add =>
      have ha := tsum_terms env n a
      have hb := tsum_terms env n b
      simp only [tsum] at ha hb
      rw [terms, tsum, List.map_append, List.sum_append, ha, hb]
      cases n <;> simp [tval, Expr.eval, Fn2.eval]
      ring
    all_goals simp [terms, tsum]

theorem tsum_addTerm (env : String → ℝ) (t) : ∀ l, tsum env (addTerm t l) = tval env t + tsum env l
  | [] => by simp [addTerm, tsum]
  | x :: l => by
    rw [addTerm]
    split
    · next h =>
      subst h
      obtain ⟨b, e⟩ := t
      cases b <;> simp [tsum, tval]
    · have ih := tsum_addTerm env t l
      simp only [tsum] at ih ⊢
      rw [List.map_cons, List.sum_cons, ih, List.map_cons, List.sum_cons]; ring

theorem tsum_cancel (env : String → ℝ) : ∀ l, tsum env (cancel l) = tsum env l
  | [] => rfl
  | t :: l => by
    rw [cancel, tsum_addTerm, tsum_cancel env l]; simp [tsum]

theorem eval_rebuild (env : String → ℝ) : ∀ l, (rebuild l).eval env = tsum env l
  | [] => by simp [rebuild, tsum, Expr.eval]
  | t :: l => by
    rw [rebuild, eval_sAdd, eval_rebuild env l]
    obtain ⟨b, e⟩ := t
    cases b <;> simp [signed, tsum, tval, eval_sNeg]

theorem eval_toySub (a b : Expr) (env : String → ℝ) : (toySub a b).eval env = a.eval env - b.eval env := by
  rw [toySub, eval_rebuild, tsum_cancel, tsum_terms, tval]
  simp [eval_toyS, Expr.eval, Fn1.eval, Fn2.eval, sub_eq_add_neg]

theorem has_terms {x : String} : ∀ {n : Bool} {e : Expr} {t}, t ∈ terms n e → t.2.has x = true → e.has x = true
  | n, .num q, t, h, hx => by simp [terms] at h; subst h; exact hx
  | n, .sym s, t, h, hx => by simp [terms] at h; subst h; exact hx
  | n, .un f a, t, h, hx => by
    cases f
    case neg => rw [terms] at h; exact has_terms (e := a) h hx
    all_goals simp [terms] at h; subst h; exact hx
  | n, .bin f a b, t, h, hx => by
    cases f
    case add =>
      rw [terms, List.mem_append] at h
      simp only [Expr.has, Bool.or_eq_true]
      exact h.imp (fun h => has_terms h hx) (fun h => has_terms h hx)
    all_goals simp [terms] at h; subst h; exact hx

theorem mem_addTerm {t r} : ∀ {l : List (Bool × Expr)}, r ∈ addTerm t l → r = t ∨ r ∈ l
  | [], h => by simpa [addTerm] using h
  | x :: l, h => by
    rw [addTerm] at h
    split at h
    · exact .inr (List.mem_cons_of_mem _ h)
    · rcases List.mem_cons.mp h with h | h
      · exact .inr (by simp [h])
      · exact (mem_addTerm h).imp id (List.mem_cons_of_mem _)
theorem mem_cancel {r} : ∀ {l : List (Bool × Expr)}, r ∈ cancel l → r ∈ l
  | [], h => h
  | t :: l, h => by
    rcases mem_addTerm h with h | h
    · simp [h]
    · exact List.mem_cons_of_mem _ (mem_cancel h)
theorem has_rebuild {x : String} : ∀ {l : List (Bool × Expr)}, (rebuild l).has x = true → ∃ t ∈ l, t.2.has x = true
  | [], h => by simp [rebuild, Expr.has] at h
  | t :: l, h => by
    rcases has_sAdd h with h | h
    · refine ⟨t, by simp, ?_⟩
      unfold signed at h
      split at h
      · exact has_sNeg h
      · exact h
    · obtain ⟨t', h1, h2⟩ := has_rebuild h
      exact ⟨t', by simp [h1], h2⟩
theorem has_toySub {a b : Expr} {x : String} (h : (toySub a b).has x = true) : a.has x = true ∨ b.has x = true := by
  obtain ⟨t, h1, h2⟩ := has_rebuild h
  have := has_toyS (has_terms (mem_cancel h1) h2)
  simpa [Expr.has] using this

theorem eval_toyCoeff (t : Expr) (env : String → ℝ) : ∀ e : Expr,
    e.eval env = (toyCoeff e t).eval env * t.eval env + (toyRest e t).eval env
  | .num q => by
    simp only [toyCoeff, toyRest]
    split
    · next h => rw [← h]; simp [Expr.eval]
    · simp [Expr.eval]
  | .sym s => by
    simp only [toyCoeff, toyRest]
    split
    · next h => rw [← h]; simp [Expr.eval]
    · simp [Expr.eval]
  | .un f a => by
    cases f
    case neg =>
      simp only [toyCoeff, toyRest, eval_sNeg]
      rw [Expr.eval, Fn1.eval, eval_toyCoeff t env a]; ring
    all_goals
      simp only [toyCoeff, toyRest]
      split
      · next h => rw [← h]; simp [Expr.eval]
      · simp [Expr.eval]
  | .bin f a b => by
    cases f
    case add =>
      simp only [toyCoeff, toyRest, eval_sAdd]
      rw [Expr.eval, Fn2.eval, eval_toyCoeff t env a, eval_toyCoeff t env b]; ring
    case mul =>
      simp only [toyCoeff, toyRest]
      split
      · next h => rw [← h]; simp [Expr.eval, Fn2.eval]
      · simp [Expr.eval]
    all_goals
      simp only [toyCoeff, toyRest]
      split
      · next h => rw [← h]; simp [Expr.eval]
      · simp [Expr.eval]

theorem toyLin_spec {e t : Expr} {ex : List Expr} {A B : Expr} (h : toyLin e t ex = some (A, B)) :
    (∀ env, e.eval env = A.eval env * t.eval env + B.eval env) ∧
    ∀ x ∈ ex, occurs x A = false ∧ occurs x B = false := by
  unfold toyLin at h
  dsimp only at h
  split at h
  · next hex =>
    cases h
    refine ⟨fun env => eval_toyCoeff t env e, fun x hx => ?_⟩
    simpa using List.all_eq_true.mp hex x hx
  · cases h

/-- The toy system meets the assumptions, at all values of the symbols. -/
theorem toy_sound : toy.Sound fun _ => True where
  sub a b env _ := eval_toySub a b env
  sub_has a b x h := has_toySub h
  collectU _ e env _ := eval_toyS env e
  collectSC _ e env _ := eval_toyS env e
  expandSC _ e env _ := eval_toyS env e
  simplify e env _ := eval_toyS env e
  lin h env _ := (toyLin_spec h).1 env
  lin_free h := (toyLin_spec h).2
  eqE h env _ := by
    have : toyS _ = toyS _ := eq_of_beq h
    rw [← eval_toyS env, this, eval_toyS]
  ratio a b env _ hb := by
    show (toyRatio a b).eval env = _
    unfold toyRatio
    split
    · next h => subst h; rw [div_self hb]; simp [Expr.eval]
    split
    · next h => subst h; simp [Expr.eval]
    · rfl
  subst e old new env _ h := soundSub_replace e old new env h

/-! ## Running two leaves in sequence -/

/-- an identification leaf and then its solver -/
def run2 (f g : LS → Out) (s : LS) : Out :=
  match f s with
  | .ok (.success, s1) => g s1
  | r => r

theorem run2_success {f g : LS → Out} {s s2 : LS} (h : run2 f g s = .ok (.success, s2)) :
    ∃ s1, f s = .ok (.success, s1) ∧ g s1 = .ok (.success, s2) := by
  unfold run2 at h
  split at h
  · next s1 h1 => exact ⟨s1, h1, h⟩
  · next r hr => exact absurd h (hr s2)

/-- what can be looked at: the solutions of an unknown and whether it is solved, if the run succeeded -/
def look (x : String) : Out → Option (List Expr × Bool)
  | .ok (.success, s) => some ((s.w.unk x).solutions, (s.w.unk x).solved)
  | _ => none

theorem look_some {x : String} {o : Out} {r} (h : look x o = some r) :
    ∃ s, o = .ok (.success, s) ∧ ((s.w.unk x).solutions, (s.w.unk x).solved) = r := by
  unfold look at h
  split at h
  · next s => exact ⟨s, rfl, by simpa using h⟩
  · cases h

/-- a state with these unknowns and lists; the first unknown is the current one -/
def mk (us : List String) (l1 : List KEqn) (l2 : List KEqn := []) : LS :=
  { w := start us, lists := { l1 := l1, l2 := l2 }, ms := [], curr := us.headD "" }

/-- 0 = e -/
def zero (e : Expr) : KEqn := ⟨.num 0, e⟩
def ex_u : Expr := .sym "th_1"
def plus (a b : Expr) : Expr := .bin .add a b
def times (a b : Expr) : Expr := .bin .mul a b

/-- C34: Px = l_3*d_1 + l_1 gives d_1 = (-(l_1 - Px)) / l_3. -/
def demoAlg : LS := mk ["d_1"] [⟨.sym "Px", plus (times (.sym "l_3") (.sym "d_1")) (.sym "l_1")⟩]
theorem demoAlg_run : look "d_1" (run2 (algebraId toy) (algebraSolve toy) demoAlg) =
    some ([.bin .div (plus (.un .neg (.sym "l_1")) (.sym "Px")) (.sym "l_3")], true) := by decide +kernel
example : ∃ s1 s2, algebraId toy demoAlg = .ok (.success, s1) ∧ algebraSolve toy s1 = .ok (.success, s2) := by
  obtain ⟨s, h, -⟩ := look_some demoAlg_run
  obtain ⟨s1, h1, h2⟩ := run2_success h
  exact ⟨s1, s, h1, h2⟩

/-- C35: r_11 = l_1*cos(th_1) + l_2 -/
def demoCos : LS := mk ["th_1"] [⟨.sym "r_11", plus (times (.sym "l_1") (.un .cos ex_u)) (.sym "l_2")⟩]
theorem demoCos_run : look "th_1" (run2 sincosId (sincosSolve toy) demoCos) =
    some (let t : Expr := .bin .div (plus (.un .neg (.sym "l_2")) (.sym "r_11")) (.sym "l_1")
      [.un .acos t, .un .neg (.un .acos t)], false) := by decide +kernel
example : (demoCos.ld demoCos.curr).shared = none ∧ demoCos.curr ≠ "pi" ∧
    ∃ s1 s2, sincosId demoCos = .ok (.success, s1) ∧ sincosSolve toy s1 = .ok (.success, s2) := by
  obtain ⟨s, h, -⟩ := look_some demoCos_run
  obtain ⟨s1, h1, h2⟩ := run2_success h
  exact ⟨rfl, by decide, s1, s, h1, h2⟩

/-- C36: 0 = l_1*sin(th_1) + Py, 0 = l_2*cos(th_1) + Px -/
def demoTan1 : LS := mk ["th_1"] [zero (plus (times (.sym "l_1") (.un .sin ex_u)) (.sym "Py")),
  zero (plus (times (.sym "l_2") (.un .cos ex_u)) (.sym "Px"))]
theorem demoTan1_run : look "th_1" (run2 (tanId toy) (tanSolve toy) demoTan1) =
    some ([.bin .atan2 (.bin .div (.un .neg (.sym "Py")) (.sym "l_1")) (.bin .div (.un .neg (.sym "Px")) (.sym "l_2"))],
      false) := by decide +kernel
/-- C36: 0 = d_3*sin(th_1) + Py, 0 = d_3*cos(th_1) + Px with d_3 unknown, too: two solutions -/
def demoTan2 : LS := mk ["th_1", "d_3"] [] [zero (plus (times (.sym "d_3") (.un .sin ex_u)) (.sym "Py")),
  zero (plus (times (.sym "d_3") (.un .cos ex_u)) (.sym "Px"))]
theorem demoTan2_run : look "th_1" (run2 (tanId toy) (tanSolve toy) demoTan2) =
    some ([.bin .atan2 (.un .neg (.sym "Py")) (.un .neg (.sym "Px")),
      .bin .atan2 (.un .neg (.un .neg (.sym "Py"))) (.un .neg (.un .neg (.sym "Px")))], false) := by decide +kernel
example : ∀ d ∈ [demoTan1, demoTan2], d.curr ∈ d.w.unknowns ∧ d.solved d.curr = false ∧
    (d.ld d.curr).solvableTan = false ∧ (d.ld d.curr).shared = none ∧
    ∃ s1 s2, tanId toy d = .ok (.success, s1) ∧ tanSolve toy s1 = .ok (.success, s2) := by
  intro d hd
  simp only [List.mem_cons, List.not_mem_nil, or_false] at hd
  rcases hd with rfl | rfl
  · obtain ⟨s, h, -⟩ := look_some demoTan1_run
    obtain ⟨s1, h1, h2⟩ := run2_success h
    exact ⟨by decide, rfl, rfl, rfl, s1, s, h1, h2⟩
  · obtain ⟨s, h, -⟩ := look_some demoTan2_run
    obtain ⟨s1, h1, h2⟩ := run2_success h
    exact ⟨by decide, rfl, rfl, rfl, s1, s, h1, h2⟩

/-- C37: 0 = l_1*sin(th_1) + (l_2*cos(th_1) + Px) -/
def demoSac : LS := mk ["th_1"]
  [zero (plus (times (.sym "l_1") (.un .sin ex_u)) (plus (times (.sym "l_2") (.un .cos ex_u)) (.sym "Px")))]

/-- C38: 0 = l_1*sin(th_1) + (l_2*cos(th_1) + Px), 0 = l_1*cos(th_1) + (-l_2*sin(th_1) + Py) -/
def demoSimu : LS := mk ["th_1"]
  [zero (plus (times (.sym "l_1") (.un .sin ex_u)) (plus (times (.sym "l_2") (.un .cos ex_u)) (.sym "Px"))),
   zero (plus (times (.sym "l_1") (.un .cos ex_u)) (plus (.un .neg (times (.sym "l_2") (.un .sin ex_u))) (.sym "Py")))]

/-- 0 = (sin(th_1) + 1)*cos(th_1) - l_1, as sympy's collect leaves it -/
def badSac : LS := mk ["th_1"] [zero (plus (times (plus (.un .sin ex_u) (.num 1)) (.un .cos ex_u)) (.un .neg (.sym "l_1")))]

/-- 0 = sin(th_1) + sin(th_1 + l_1), 0 = cos(th_1) + cos(th_1 + l_2) -/
def badSimu : LS := mk ["th_1"] [zero (plus (.un .sin ex_u) (.un .sin (plus ex_u (.sym "l_1")))),
  zero (plus (.un .cos ex_u) (.un .cos (plus ex_u (.sym "l_2"))))]


/-- for each solution whether it contains x, and whether x is solved -/
def selfRef (x : String) (o : Out) : Option (List Bool × Bool) := (look x o).map fun r => (r.1.map (·.has x), r.2)

theorem selfRef_some {x : String} {o : Out} {r} (h : selfRef x o = some r) :
    ∃ s, o = .ok (.success, s) ∧ (s.w.unk x).solutions.map (·.has x) = r.1 ∧ (s.w.unk x).solved = r.2 := by
  unfold selfRef at h
  cases hl : look x o with
  | none => rw [hl] at h; cases h
  | some q =>
    obtain ⟨s, h1, h2⟩ := look_some hl
    rw [hl] at h
    simp only [Option.map_some, Option.some.injEq] at h
    subst h
    rw [← h2]
    exact ⟨s, h1, rfl, rfl⟩

example : ∃ s1 s2, sacId toy demoSac = .ok (.success, s1) ∧ sacSolve toy s1 = .ok (.success, s2) ∧
    (s2.w.unk "th_1").solutions.map (·.has "th_1") = [false, false] ∧ (s2.w.unk "th_1").solved = true := by
  obtain ⟨s, h, h3⟩ := selfRef_some (x := "th_1") (o := run2 (sacId toy) (sacSolve toy) demoSac)
    (r := ([false, false], true)) (by decide +kernel)
  obtain ⟨s1, h1, h2⟩ := run2_success h
  exact ⟨s1, s, h1, h2, h3⟩

example : ∃ s1 s2, simuId toy demoSimu = .ok (.success, s1) ∧ simuSolve toy s1 = .ok (.success, s2) ∧
    (s2.w.unk "th_1").solutions.map (·.has "th_1") = [false] ∧ (s2.w.unk "th_1").solved = true := by
  obtain ⟨s, h, h3⟩ := selfRef_some (x := "th_1") (o := run2 (simuId toy) (simuSolve toy) demoSimu)
    (r := ([false], true)) (by decide +kernel)
  obtain ⟨s1, h1, h2⟩ := run2_success h
  exact ⟨s1, s, h1, h2, h3⟩

/-- C37 is false of the code: for 0 = (sin u + 1) cos u - l_1 the sinANDcos leaves succeed, u counts as solved, and both
reported "solutions" are functions of u itself: the check in the identification leaf looks at the rest, not at the coefficients
(the check in the solver is commented out, sinANDcos_solver.py:188). -/
theorem C37_violation : ∃ (P : Sympy) (s s1 s2 : LS), P.Sound (fun _ => True) ∧
    sacId P s = .ok (.success, s1) ∧ sacSolve P s1 = .ok (.success, s2) ∧ s.curr = "th_1" ∧
    (s2.w.unk "th_1").solutions.map (·.has "th_1") = [true, true] ∧ (s2.w.unk "th_1").solved = true := by
  obtain ⟨s, h, h3⟩ := selfRef_some (x := "th_1") (o := run2 (sacId toy) (sacSolve toy) badSac)
    (r := ([true, true], true)) (by decide +kernel)
  obtain ⟨s1, h1, h2⟩ := run2_success h
  exact ⟨toy, badSac, s1, s, toy_sound, h1, h2, rfl, h3⟩

/-- C38 is false of the code: for 0 = sin u + sin(u + l_1), 0 = cos u + cos(u + l_2) the simultaneous-equation leaves
succeed, u counts as solved, and the reported "solution" is a function of u itself: nothing checks that the rests do not
contain u. -/
theorem C38_violation : ∃ (P : Sympy) (s s1 s2 : LS), P.Sound (fun _ => True) ∧
    simuId P s = .ok (.success, s1) ∧ simuSolve P s1 = .ok (.success, s2) ∧ s.curr = "th_1" ∧
    (s2.w.unk "th_1").solutions.map (·.has "th_1") = [true] ∧ (s2.w.unk "th_1").solved = true := by
  obtain ⟨s, h, h3⟩ := selfRef_some (x := "th_1") (o := run2 (simuId toy) (simuSolve toy) badSimu)
    (r := ([true], true)) (by decide +kernel)
  obtain ⟨s1, h1, h2⟩ := run2_success h
  exact ⟨toy, badSimu, s1, s, toy_sound, h1, h2, rfl, h3⟩

end Verif.Leaf
