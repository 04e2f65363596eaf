import Verif.Solver.Basic
/-! What the parts of the solver tree do to the state. -/
namespace Verif.Solver
open Verif.Leaf Verif.Eqn Verif.Sol Verif.Sym
open Verif.BT hiding Tree

/-- The fields of an unknown that only solvers that succeed write. -/
def LeafData.kept (d : LeafData) : List Expr × List KEqn × List Expr × List KEqn × Option Bool × Bool :=
  (d.scSols, d.scEqns, d.tanSols, d.tanEqns, d.shared, d.solvableTan)

/-- Nothing but identification marks of the current unknown changed. -/
structure Quiet (s s' : LS) : Prop where
  rest : s' = { s with ld := s'.ld }
  kept : ∀ n, LeafData.kept (s'.ld n) = LeafData.kept (s.ld n)
  other : ∀ n, n ≠ s.curr → s'.ld n = s.ld n

theorem Quiet.refl (s : LS) : Quiet s s := ⟨rfl, fun _ => rfl, fun _ _ => rfl⟩
theorem Quiet.curr {s s' : LS} (h : Quiet s s') : s'.curr = s.curr := by rw [h.rest]
theorem Quiet.w {s s' : LS} (h : Quiet s s') : s'.w = s.w := by rw [h.rest]
theorem Quiet.lists {s s' : LS} (h : Quiet s s') : s'.lists = s.lists := by rw [h.rest]
theorem Quiet.ms {s s' : LS} (h : Quiet s s') : s'.ms = s.ms := by rw [h.rest]
theorem Quiet.aux {s s' : LS} (h : Quiet s s') : s'.aux = s.aux := by rw [h.rest]
theorem Quiet.guards {s s' : LS} (h : Quiet s s') : s'.guards = s.guards := by rw [h.rest]
theorem Quiet.counter {s s' : LS} (h : Quiet s s') : s'.counter = s.counter := by rw [h.rest]
theorem Quiet.trans {a b c : LS} (h : Quiet a b) (h' : Quiet b c) : Quiet a c := by
  refine ⟨?_, fun n => (h'.kept n).trans (h.kept n), fun n hn => ?_⟩
  · rw [h'.rest, h.rest]
  · rw [h'.other n (by rwa [h.curr]), h.other n hn]

theorem quiet_updLd (s : LS) (f : LeafData → LeafData) (hf : ∀ d, LeafData.kept (f d) = LeafData.kept d) :
    Quiet s (s.updLd s.curr f) := by
  refine ⟨rfl, fun n => ?_, fun n hn => updLd_other _ _ _ hn⟩
  by_cases hn : n = s.curr
  · subst hn; rw [updLd_same, hf]
  · rw [updLd_other _ _ _ hn]

/-- The current unknown was given the solutions `sols`, and `set_solved` was called and returned. -/
structure Solves (sols : List Expr) (s s' : LS) : Prop where
  w : Sol.setSolved (setSolutions s.w s.curr sols) s.curr = (s'.w, none)
  lists : s'.lists = s.lists
  ms : s'.ms = s.ms
  aux : s'.aux = s.aux
  curr : s'.curr = s.curr
  counter : s'.counter = s.counter
  guards : ∃ g, s'.guards = s.guards ++ g
  other : ∀ n, n ≠ s.curr → s'.ld n = s.ld n

theorem Solves.of_quiet {sols : List Expr} {a b c : LS} (h : Quiet a b) (h' : Solves sols b c) : Solves sols a c := by
  have hc := h.curr
  refine ⟨?_, ?_, ?_, ?_, ?_, ?_, ?_, fun n hn => ?_⟩
  · rw [← h'.w, hc, h.w]
  · rw [h'.lists, h.lists]
  · rw [h'.ms, h.ms]
  · rw [h'.aux, h.aux]
  · rw [h'.curr, hc]
  · rw [h'.counter, h.counter]
  · obtain ⟨g, hg⟩ := h'.guards; exact ⟨g, by rw [hg, h.guards]⟩
  · rw [h'.other n (by rwa [hc]), h.other n hn]

/-- Only the solutions of `x` (and their number) changed. -/
def OnlySols (x : String) (w w' : World) : Prop :=
  ∃ sols k, w' = w.upd x fun u => { u with solutions := sols, nsolutions := k }

theorem upd_upd (w : World) (x : String) (f g : Unk → Unk) : (w.upd x f).upd x g = w.upd x (fun u => g (f u)) := by
  unfold World.upd
  congr 1
  funext n
  by_cases h : n = x <;> simp [h]

theorem OnlySols.trans {x : String} {a b c : World} (h : OnlySols x a b) (h' : OnlySols x b c) : OnlySols x a c := by
  obtain ⟨s1, k1, rfl⟩ := h
  obtain ⟨s2, k2, rfl⟩ := h'
  exact ⟨s2, k2, by rw [upd_upd]⟩
theorem OnlySols.refl (x : String) (w : World) : OnlySols x w w := by
  refine ⟨(w.unk x).solutions, (w.unk x).nsolutions, ?_⟩
  unfold World.upd
  cases w with
  | mk u unk n nd e =>
    congr 1
    funext m
    by_cases h : m = x <;> simp [h]
theorem onlySols_upd (w : World) (x : String) (f : Unk → Unk)
    (hf : ∀ u, f u = { u with solutions := (f u).solutions, nsolutions := (f u).nsolutions }) : OnlySols x w (w.upd x f) := by
  refine ⟨(f (w.unk x)).solutions, (f (w.unk x)).nsolutions, ?_⟩
  unfold World.upd
  congr 1
  funext n
  by_cases h : n = x
  · subst h; simp only [if_true]; exact hf _
  · simp [h]

/-- `set_solved` does not look at the old number of solutions. -/
theorem setSolved_onlySols {w w' : World} {x : String} (h : OnlySols x w w') :
    Sol.setSolved w' x = Sol.setSolved (setSolutions w x (w'.unk x).solutions) x := by
  obtain ⟨sols, k, rfl⟩ := h
  unfold Sol.setSolved setSolutions
  simp only [upd_upd, Sol.upd_same]

theorem LS.setSolved_raw {s s' : LS} {x : String} (h : s.setSolved x = .ok s') : Sol.setSolved s.w x = (s'.w, none) := by
  unfold LS.setSolved at h
  split at h
  · next w hw => cases h; exact hw
  · cases h

/-- Closing a solver leaf: from the changes before the call of `set_solved` to `Solves`. -/
theorem solves_of {s s1 s' : LS} (hw : OnlySols s.curr s.w s1.w) (hl : s1.lists = s.lists) (hm : s1.ms = s.ms) (ha : s1.aux = s.aux)
    (hc : s1.curr = s.curr) (hk : s1.counter = s.counter) (hg : ∃ g, s1.guards = s.guards ++ g)
    (ho : ∀ n, n ≠ s.curr → s1.ld n = s.ld n) (h : s1.setSolved s.curr = .ok s') : Solves (s1.w.unk s.curr).solutions s s' := by
  obtain ⟨h1, h2, h3, h4, h5, h6, h7, h8⟩ := LS.setSolved_ok h
  refine ⟨?_, by rw [h2, hl], by rw [h3, hm], by rw [h4, ha], by rw [h5, hc], by rw [h6, hk], by rw [h7]; exact hg, ?_⟩
  · rw [← setSolved_onlySols hw]; exact LS.setSolved_raw h
  · intro n hn; rw [h8]; simp only [if_neg hn]; exact ho n hn

theorem pushSol_other (s : LS) (x : String) (e : Expr) {n : String} (h : n ≠ x) : (s.pushSol x e).ld n = s.ld n := by
  unfold LS.pushSol; dsimp only
  split <;> simp [updLd_other _ _ _ h]
theorem pushSc_other (s : LS) (x : String) (e : Expr) {n : String} (h : n ≠ x) : (s.pushSc x e).ld n = s.ld n := by
  unfold LS.pushSc; dsimp only
  split <;> simp [updLd_other _ _ _ h]
theorem pushTan_other (s : LS) (x : String) (e : Expr) {n : String} (h : n ≠ x) : (s.pushTan x e).ld n = s.ld n := by
  unfold LS.pushTan; dsimp only
  split <;> simp [updLd_other _ _ _ h]
theorem pushSol_only (s : LS) (x : String) (e : Expr) : OnlySols x s.w (s.pushSol x e).w := by
  rw [pushSol_w]; exact onlySols_upd _ _ _ fun u => rfl
theorem pushSc_only (s : LS) (x : String) (e : Expr) : OnlySols x s.w (s.pushSc x e).w := by
  unfold LS.pushSc; dsimp only
  split
  · exact onlySols_upd s.w x (fun u => { u with solutions := u.solutions ++ [e] }) fun u => rfl
  · exact OnlySols.refl _ _
theorem pushTan_only (s : LS) (x : String) (e : Expr) : OnlySols x s.w (s.pushTan x e).w := by
  unfold LS.pushTan; dsimp only
  split
  · exact onlySols_upd s.w x (fun u => { u with solutions := u.solutions ++ [e] }) fun u => rfl
  · exact OnlySols.refl _ _

/-! ## The pairs -/

theorem algebraId_fail {P : Sympy} {s s' : LS} (h : algebraId P s = .ok (.failure, s')) : s' = s := by
  unfold algebraId at h
  dsimp only at h
  repeat' split at h
  all_goals cases h
  all_goals rfl

theorem algebraId_ok {P : Sympy} {s s' : LS} (h : algebraId P s = .ok (.success, s')) :
    s.solved s.curr = false ∧ ∃ tmp, algebraFind P s.curr s.lists.l1 = some tmp ∧ s' = s.updLd s.curr fun d =>
      { d with ready := true, eqn := some ⟨.num 0, tmp⟩, method := d.method ++ [.algebra] } := by
  unfold algebraId at h
  dsimp only at h
  split at h
  · cases h
  split at h
  · cases h
  split at h
  · cases h
  · next h1 _ tmp hf => cases h; exact ⟨by simpa using h1, tmp, hf, rfl⟩

/-- algebra_solve on an unknown that is ready. -/
theorem algebraSolve_ok {P : Sympy} {s s' : LS} {st : Status} (h : algebraSolve P s = .ok (st, s'))
    (hr : (s.ld s.curr).ready = true) (hm : (s.ld s.curr).method.contains .algebra = true) :
    (st = .failure ∧ s' = s) ∨ (st = .success ∧ ∃ e A B sol, (s.ld s.curr).eqn = some e ∧ linearMatch P e.rhs s.curr = some (A, B) ∧
      sol = quot P e.lhs B A ∧ sol.has s.curr = false ∧
      (({ s with guards := s.guards ++ [A] }.pushSol s.curr sol).updU s.curr fun u => { u with nsolutions := 1 }).setSolved s.curr = .ok s') := by
  unfold algebraSolve at h
  dsimp only at h
  rw [hr, hm] at h
  simp only [Bool.and_self, if_true] at h
  split at h
  · cases h
  next e he =>
  split at h
  · cases h; exact .inl ⟨rfl, rfl⟩
  next A B hl =>
  split at h
  · cases h; exact .inl ⟨rfl, rfl⟩
  next hs =>
  split at h
  · cases h
  · next s1 h1 =>
    cases h
    exact .inr ⟨rfl, e, A, B, _, he, hl, rfl, by simpa using hs, h1⟩

/-- Two leaves in a Sequence. -/
theorem pair_cases {P : Sympy} {i a b : Nat} {f g : LeafName} {s s' : LS} {st : Status}
    (h : den (env P) 0 (sq i [lf a f, lf b g]) s = .ok (st, s')) :
    (st = .failure ∧ act P f s = .ok (.failure, s')) ∨ ∃ s1, act P f s = .ok (.success, s1) ∧ act P g s1 = .ok (st, s') := by
  simp only [sq, lf, den, dens, denComp, env] at h
  rcases denSeq_cons h with ⟨h1, h2⟩ | ⟨s1, h1, h2⟩
  · left
    split at h1
    · cases h1
    next r hr =>
    cases h1
    rcases act_two P f s _ _ hr with rfl | rfl
    · exact absurd rfl h2
    · exact ⟨rfl, hr⟩
  · right
    split at h1
    · cases h1
    next r hr =>
    cases h1
    refine ⟨s1, hr, ?_⟩
    rcases denSeq_cons h2 with ⟨h3, h4⟩ | ⟨s2, h3, h4⟩
    · split at h3
      · cases h3
      · next hr => cases h3; exact hr
    · split at h3
      · cases h3
      · next hr => cases h3; cases h4; exact hr

theorem onlySols_nsol (w : World) (x : String) (k : Nat) : OnlySols x w (w.upd x fun u => { u with nsolutions := k }) :=
  onlySols_upd _ _ (fun u : Unk => { u with nsolutions := k }) fun _ => rfl

/-- the end of algebra_solve -/
theorem algebra_end {s s' : LS} {A sol : Expr}
    (h : (({ s with guards := s.guards ++ [A] }.pushSol s.curr sol).updU s.curr fun u => { u with nsolutions := 1 }).setSolved s.curr = .ok s') :
    Solves ((s.w.unk s.curr).solutions ++ [sol]) s s' ∧ s'.guards = s.guards ++ [A] ∧
    ((s.ld s.curr).shared = none → s'.ld s.curr = { s.ld s.curr with ready := false }) := by
  refine ⟨?_, ?_, ?_⟩
  · have := solves_of (s := s) ?_ (by simp) (by simp) (by simp) (by simp) (by simp) ⟨[A], by simp⟩ ?_ h
    · simpa using this
    · exact OnlySols.trans (pushSol_only { s with guards := s.guards ++ [A] } s.curr sol) (onlySols_nsol _ _ _)
    · intro n hn; rw [updU_ld, pushSol_other _ _ _ hn]
  · rw [(LS.setSolved_ok h).2.2.2.2.2.2.1]; simp
  · intro hsh
    rw [(LS.setSolved_ok h).2.2.2.2.2.2.2]
    simp [LS.pushSol, hsh]

/-- algebra_id then algebra_solve -/
theorem algSol_cases {P : Sympy} {s s' : LS} {st : Status} (h : den (env P) 0 algSol s = .ok (st, s')) :
    (st = .failure ∧ Quiet s s' ∧ (s' = s ∨ s.solved s.curr = false ∧ ∃ tmp, algebraFind P s.curr s.lists.l1 = some tmp ∧
      s' = s.updLd s.curr fun d => { d with ready := true, eqn := some ⟨.num 0, tmp⟩, method := d.method ++ [.algebra] })) ∨
    (st = .success ∧ s.solved s.curr = false ∧ ∃ tmp A B, algebraFind P s.curr s.lists.l1 = some tmp ∧
      linearMatch P tmp s.curr = some (A, B) ∧ (quot P (.num 0) B A).has s.curr = false ∧
      Solves ((s.w.unk s.curr).solutions ++ [quot P (.num 0) B A]) s s' ∧ s'.guards = s.guards ++ [A] ∧
      ((s.ld s.curr).shared = none → s'.ld s.curr = { s.ld s.curr with
        ready := false, eqn := some ⟨.num 0, tmp⟩, method := (s.ld s.curr).method ++ [.algebra] })) := by
  rcases pair_cases h with ⟨rfl, h1⟩ | ⟨s1, h1, h2⟩
  · rw [algebraId_fail h1]; exact .inl ⟨rfl, Quiet.refl s, .inl rfl⟩
  · obtain ⟨hu, tmp, hf, rfl⟩ := algebraId_ok h1
    have hq : Quiet s _ := quiet_updLd s (fun d =>
      { d with ready := true, eqn := some ⟨.num 0, tmp⟩, method := d.method ++ [.algebra] }) fun _ => rfl
    rcases algebraSolve_ok h2 (by simp) (by simp) with ⟨rfl, rfl⟩ | ⟨rfl, e, A, B, sol, he, hl, rfl, hs, h3⟩
    · exact .inl ⟨rfl, hq, .inr ⟨hu, tmp, hf, rfl⟩⟩
    · simp only [updLd_curr, updLd_same, Option.some.injEq] at he
      subst he
      obtain ⟨g1, g2, g3⟩ := algebra_end h3
      exact .inr ⟨rfl, hu, tmp, A, B, hf, hl, hs, Solves.of_quiet hq g1, g2, by
        intro hsh; rw [updLd_curr, updLd_same] at g3; exact g3 hsh⟩

/-! ### two_eqn_m7 -/

theorem simuId_cases {P : Sympy} {s s' : LS} {st : Status} (h : simuId P s = .ok (st, s')) :
    (st = .failure ∧ s' = s) ∨ (st = .success ∧ s.solved s.curr = false ∧ ∃ a b, simuFind P s.curr (simuCands P s.curr s.lists.l1) = some (a, b) ∧
      s' = s.updLd s.curr fun d => { d with eqn := some ⟨.num 0, a⟩, second := some ⟨.num 0, b⟩, method := d.method ++ [.simu] }) := by
  unfold simuId at h
  dsimp only at h
  split at h
  · cases h; exact .inl ⟨rfl, rfl⟩
  next hu =>
  split at h
  · cases h; exact .inl ⟨rfl, rfl⟩
  · next a b hf => cases h; exact .inr ⟨rfl, by simpa using hu, a, b, hf, rfl⟩

/-- the solution of two_eqn_m7.py:163-176 from the right-hand sides r1, r2: A, B, C, D and the atan2 -/
def simuSolution (P : Sympy) (u : String) (r1 r2 : Expr) : Expr :=
  let A := P.coeff r1 (sinU u)
  let B := P.coeff r1 (cosU u)
  let C := P.simplify (P.sub (sinCosComb A B u) r1)
  let D := P.simplify (P.sub (cosSinComb A B u) r2)
  .bin .atan2 (P.sub (.bin .mul A C) (.bin .mul B D)) (.bin .add (.bin .mul A D) (.bin .mul B C))
/-- A² + B² of an expression in which A, B are the coefficients of sin(u), cos(u) -/
def radius2 (P : Sympy) (u : String) (r : Expr) : Expr :=
  .bin .add (.bin .mul (P.coeff r (sinU u)) (P.coeff r (sinU u))) (.bin .mul (P.coeff r (cosU u)) (P.coeff r (cosU u)))

theorem simuSolve_cases {P : Sympy} {s s' : LS} {st : Status} (h : simuSolve P s = .ok (st, s')) :
    (st = .failure ∧ s' = s) ∨ (st = .success ∧ ∃ e1 e2, (s.ld s.curr).eqn = some e1 ∧ (s.ld s.curr).second = some e2 ∧
      Solves [simuSolution P s.curr e1.rhs e2.rhs] s s' ∧ s'.guards = s.guards ++ [radius2 P s.curr e1.rhs] ∧
      s'.ld s.curr = { s.ld s.curr with ready := false, shared := none }) := by
  unfold simuSolve at h
  dsimp only at h
  split at h
  swap
  · cases h
  next e1 e2 he1 he2 =>
  split at h
  · cases h; exact .inl ⟨rfl, rfl⟩
  split at h
  · cases h
  next s1 h1 =>
  cases h
  refine .inr ⟨rfl, e1, e2, he1, he2, ?_, ?_, ?_⟩
  · have := solves_of (s := s) ?_ (by simp) (by simp) (by simp) (by simp) (by simp) ⟨[_], by simp; rfl⟩ ?_ h1
    · simpa [simuSolution] using this
    · simp only [updLd_w, updU_w]
      exact onlySols_upd _ _ (fun u : Unk => { u with solutions := _, nsolutions := 1 }) fun _ => rfl
    · intro n hn; rw [updLd_other _ _ _ hn, updU_ld]
  · rw [(LS.setSolved_ok h1).2.2.2.2.2.2.1]; simp [radius2]
  · rw [(LS.setSolved_ok h1).2.2.2.2.2.2.2]; simp

theorem simuSol_cases {P : Sympy} {s s' : LS} {st : Status} (h : den (env P) 0 simuSol s = .ok (st, s')) :
    (st = .failure ∧ Quiet s s' ∧ (s' = s ∨ s.solved s.curr = false ∧ ∃ a b, simuFind P s.curr (simuCands P s.curr s.lists.l1) = some (a, b) ∧
      s' = s.updLd s.curr fun d => { d with eqn := some ⟨.num 0, a⟩, second := some ⟨.num 0, b⟩, method := d.method ++ [.simu] })) ∨
    (st = .success ∧ s.solved s.curr = false ∧ ∃ a b, simuFind P s.curr (simuCands P s.curr s.lists.l1) = some (a, b) ∧
      Solves [simuSolution P s.curr a b] s s' ∧ s'.guards = s.guards ++ [radius2 P s.curr a] ∧
      s'.ld s.curr = { s.ld s.curr with
        ready := false, shared := none, eqn := some ⟨.num 0, a⟩, second := some ⟨.num 0, b⟩,
        method := (s.ld s.curr).method ++ [.simu] }) := by
  rcases pair_cases h with ⟨rfl, h1⟩ | ⟨s1, h1, h2⟩
  · rcases simuId_cases h1 with ⟨-, rfl⟩ | ⟨h, -⟩
    · exact .inl ⟨rfl, Quiet.refl _, .inl rfl⟩
    · cases h
  · rcases simuId_cases h1 with ⟨h, -⟩ | ⟨-, hu, a, b, hf, rfl⟩
    · cases h
    have hq : Quiet s _ := quiet_updLd s (fun d =>
      { d with eqn := some ⟨.num 0, a⟩, second := some ⟨.num 0, b⟩, method := d.method ++ [.simu] }) fun _ => rfl
    rcases simuSolve_cases h2 with ⟨rfl, rfl⟩ | ⟨rfl, e1, e2, he1, he2, h3, h4, h5⟩
    · exact .inl ⟨rfl, hq, .inr ⟨hu, a, b, hf, rfl⟩⟩
    · simp only [updLd_curr, updLd_same, Option.some.injEq] at he1 he2
      subst he1 he2
      refine .inr ⟨rfl, hu, a, b, hf, Solves.of_quiet hq h3, h4, ?_⟩
      simpa using h5

/-! ### sinANDcos_solver -/

theorem sacId_cases {P : Sympy} {s s' : LS} {st : Status} (h : sacId P s = .ok (st, s')) :
    (st = .failure ∧ s' = s) ∨ (st = .success ∧ s.solved s.curr = false ∧ ∃ es, sacFind P s.curr s.lists.l1 = some es ∧
      s' = s.updLd s.curr fun d => { d with ready := true, eqn := some ⟨.num 0, es⟩, method := d.method ++ [.sinANDcos] }) := by
  unfold sacId at h
  dsimp only at h
  split at h
  · cases h; exact .inl ⟨rfl, rfl⟩
  next hu =>
  split at h
  · cases h; exact .inl ⟨rfl, rfl⟩
  · next es hf => cases h; exact .inr ⟨rfl, by simpa using hu, es, hf, rfl⟩

/-- the two solutions of sinANDcos_solver.py:168-208 from the right-hand side r -/
def sacSolutions (P : Sympy) (u : String) (r : Expr) : Expr × Expr :=
  let A := P.coeff r (sinU u)
  let B := P.coeff r (cosU u)
  let C := P.sub (sinCosComb A B u) r
  if P.eqE C (.num 0) then
    (.bin .atan2 (negE B) A, .bin .add (.bin .atan2 (negE B) A) (.sym "pi"))
  else
    let t : Expr := .un .sqrt (P.sub (radius2 P u r) (.bin .mul C C))
    (.bin .add (.bin .atan2 A B) (.bin .atan2 t C), .bin .add (.bin .atan2 A B) (.bin .atan2 (negE t) C))

theorem sacSolve_cases {P : Sympy} {s s' : LS} {st : Status} (h : sacSolve P s = .ok (st, s'))
    (hu : s.solved s.curr = false) (hr : (s.ld s.curr).ready = true) (hm : (s.ld s.curr).method.contains .sinANDcos = true) :
    st = .success ∧ ∃ e, (s.ld s.curr).eqn = some e ∧
      Solves ((s.w.unk s.curr).solutions ++ [(sacSolutions P s.curr e.rhs).1, (sacSolutions P s.curr e.rhs).2]) s s' ∧
      s'.guards = s.guards ++ [radius2 P s.curr e.rhs] ∧
      ((s.ld s.curr).shared = none → s'.ld s.curr = { s.ld s.curr with ready := false }) := by
  unfold sacSolve at h
  dsimp only at h
  rw [hu, hr, hm] at h
  simp only [Bool.not_false, Bool.and_self, if_true] at h
  split at h
  · cases h
  next e he =>
  split at h
  · cases h
  split at h
  · cases h
  next s1 h1 =>
  cases h
  change ((((({ s with guards := s.guards ++ [radius2 P s.curr e.rhs] } : LS).pushSol s.curr (sacSolutions P s.curr e.rhs).1).pushSol s.curr
    (sacSolutions P s.curr e.rhs).2).updU s.curr fun x => { x with nsolutions := 2 }).setSolved s.curr = .ok s') at h1
  refine ⟨rfl, e, he, ?_, ?_, ?_⟩
  · have := solves_of (s := s) ?_ (by simp) (by simp) (by simp) (by simp) (by simp) ⟨[_], by simp; rfl⟩ ?_ h1
    · simpa using this
    · exact OnlySols.trans (OnlySols.trans (pushSol_only { s with guards := s.guards ++ [radius2 P s.curr e.rhs] } s.curr _) (pushSol_only _ _ _))
        (onlySols_nsol _ _ _)
    · intro n hn; rw [updU_ld, pushSol_other _ _ _ hn, pushSol_other _ _ _ hn]
  · rw [(LS.setSolved_ok h1).2.2.2.2.2.2.1]; simp
  · intro hsh
    rw [(LS.setSolved_ok h1).2.2.2.2.2.2.2]
    simp [LS.pushSol, hsh]

theorem sacSol_cases {P : Sympy} {s s' : LS} {st : Status} (h : den (env P) 0 sacSol s = .ok (st, s')) :
    (st = .failure ∧ s' = s) ∨
    (st = .success ∧ s.solved s.curr = false ∧ ∃ es, sacFind P s.curr s.lists.l1 = some es ∧
      Solves ((s.w.unk s.curr).solutions ++ [(sacSolutions P s.curr es).1, (sacSolutions P s.curr es).2]) s s' ∧
      s'.guards = s.guards ++ [radius2 P s.curr es] ∧
      ((s.ld s.curr).shared = none → s'.ld s.curr = { s.ld s.curr with
        ready := false, eqn := some ⟨.num 0, es⟩, method := (s.ld s.curr).method ++ [.sinANDcos] })) := by
  rcases pair_cases h with ⟨rfl, h1⟩ | ⟨s1, h1, h2⟩
  · rcases sacId_cases h1 with ⟨-, rfl⟩ | ⟨h, -⟩
    · exact .inl ⟨rfl, rfl⟩
    · cases h
  · rcases sacId_cases h1 with ⟨h, -⟩ | ⟨-, hu, es, hf, rfl⟩
    · cases h
    have hq : Quiet s _ := quiet_updLd s (fun d =>
      { d with ready := true, eqn := some ⟨.num 0, es⟩, method := d.method ++ [.sinANDcos] }) fun _ => rfl
    obtain ⟨rfl, e, he, h3, h4, h5⟩ := sacSolve_cases h2 hu (by simp) (by simp)
    simp only [updLd_curr, updLd_same, Option.some.injEq] at he
    subst he
    refine .inr ⟨rfl, hu, es, hf, Solves.of_quiet hq h3, h4, ?_⟩
    intro hsh
    simp only [updLd_curr, updLd_same] at h5
    exact h5 hsh

/-! ### tan_solver, sincos_solver -/

/-- `sincos_solutions` (false) or `tan_solutions` (true) -/
def cand (b : Bool) (d : LeafData) : List Expr := if b then d.tanSols else d.scSols

/-- the list of the equations of the candidate -/
def candE (b : Bool) (d : LeafData) : List KEqn := if b then d.tanEqns else d.scEqns

/-- `solutions.append` for all of `new`, then `sincos_solutions.append` (own = false) or `tan_solutions.append` (own = true)
for all of `new`, on the current unknown; the lists may be shared. Besides, its solution counter and the list of equations
of the candidate were written. -/
structure Ext (own : Bool) (new : List Expr) (es : List KEqn) (g : List Expr) (s s' : LS) : Prop where
  only : OnlySols s.curr s.w s'.w
  guards : s'.guards = s.guards ++ g
  sols : (s'.w.unk s.curr).solutions = (s.w.unk s.curr).solutions ++ new ++ (if (s.ld s.curr).shared = some own then new else [])
  mine : cand own (s'.ld s.curr) = cand own (s.ld s.curr) ++ (if (s.ld s.curr).shared = some own then new else []) ++ new
  oth : cand (!own) (s'.ld s.curr) = cand (!own) (s.ld s.curr) ++ (if (s.ld s.curr).shared = some (!own) then new else [])
  mineE : candE own (s'.ld s.curr) = candE own (s.ld s.curr) ++ es
  othE : candE (!own) (s'.ld s.curr) = candE (!own) (s.ld s.curr)
  fields : ((s'.ld s.curr).eqn, (s'.ld s.curr).second, (s'.ld s.curr).method, (s'.ld s.curr).solvableSc, (s'.ld s.curr).solvableTan,
    (s'.ld s.curr).shared, (s'.ld s.curr).ready) = ((s.ld s.curr).eqn, (s.ld s.curr).second, (s.ld s.curr).method, (s.ld s.curr).solvableSc,
      (s.ld s.curr).solvableTan, (s.ld s.curr).shared, (s.ld s.curr).ready)
  other : ∀ n, n ≠ s.curr → s'.ld n = s.ld n
  lists : s'.lists = s.lists
  ms : s'.ms = s.ms
  aux : s'.aux = s.aux
  curr : s'.curr = s.curr
  counter : s'.counter = s.counter

theorem tanPush1 (s : LS) (a : Expr) (es : List KEqn) (k : Nat) (g : List Expr) :
    Ext true [a] es g s (((({ s with guards := s.guards ++ g }.pushSol s.curr a).pushTan s.curr a).updLd s.curr fun d =>
      { d with tanEqns := d.tanEqns ++ es }).updU s.curr fun u => { u with nsolutions := k }) := by
  constructor
  · exact ((OnlySols.trans (pushSol_only { s with guards := s.guards ++ g } _ _) (pushTan_only _ _ _))).trans (onlySols_nsol _ _ _)
  all_goals try simp
  · rcases h : (s.ld s.curr).shared with _ | _ | _ <;> simp [LS.pushSol, LS.pushTan, LS.updLd, h]
  · rcases h : (s.ld s.curr).shared with _ | _ | _ <;> simp [LS.pushSol, LS.pushTan, LS.updLd, LS.updU, h, cand]
  · rcases h : (s.ld s.curr).shared with _ | _ | _ <;> simp [LS.pushSol, LS.pushTan, LS.updLd, LS.updU, h, cand]
  · rcases h : (s.ld s.curr).shared with _ | _ | _ <;> simp [LS.pushSol, LS.pushTan, LS.updLd, LS.updU, h, candE]
  · rcases h : (s.ld s.curr).shared with _ | _ | _ <;> simp [LS.pushSol, LS.pushTan, LS.updLd, LS.updU, h, candE]
  · rcases h : (s.ld s.curr).shared with _ | _ | _ <;> simp [LS.pushSol, LS.pushTan, LS.updLd, LS.updU, h]
  · intro n hn; rw [updLd_other _ _ _ hn, pushTan_other _ _ _ hn, pushSol_other _ _ _ hn]

theorem tanPush2 (s : LS) (a b : Expr) (es : List KEqn) (as : List (Bool × Expr)) (k : Nat) (g : List Expr) :
    Ext true [a, b] es g s (((((({ s with guards := s.guards ++ g }.pushSol s.curr a).pushSol s.curr b).pushTan s.curr a).pushTan s.curr b).updLd s.curr fun d =>
      { d with tanEqns := d.tanEqns ++ es, assumption := d.assumption ++ as }).updU s.curr fun u => { u with nsolutions := k }) := by
  constructor
  · exact (((OnlySols.trans (pushSol_only { s with guards := s.guards ++ g } _ _) (pushSol_only _ _ _)).trans (pushTan_only _ _ _)).trans
      (pushTan_only _ _ _)).trans (onlySols_nsol _ _ _)
  all_goals try simp
  · rcases h : (s.ld s.curr).shared with _ | _ | _ <;> simp [LS.pushSol, LS.pushTan, LS.updLd, h]
  · rcases h : (s.ld s.curr).shared with _ | _ | _ <;> simp [LS.pushSol, LS.pushTan, LS.updLd, LS.updU, h, cand]
  · rcases h : (s.ld s.curr).shared with _ | _ | _ <;> simp [LS.pushSol, LS.pushTan, LS.updLd, LS.updU, h, cand]
  · rcases h : (s.ld s.curr).shared with _ | _ | _ <;> simp [LS.pushSol, LS.pushTan, LS.updLd, LS.updU, h, candE]
  · rcases h : (s.ld s.curr).shared with _ | _ | _ <;> simp [LS.pushSol, LS.pushTan, LS.updLd, LS.updU, h, candE]
  · rcases h : (s.ld s.curr).shared with _ | _ | _ <;> simp [LS.pushSol, LS.pushTan, LS.updLd, LS.updU, h]
  · intro n hn; rw [updLd_other _ _ _ hn, pushTan_other _ _ _ hn, pushTan_other _ _ _ hn, pushSol_other _ _ _ hn, pushSol_other _ _ _ hn]

theorem scPush2 (s : LS) (a b : Expr) (es : List KEqn) (k : Nat) (g : List Expr) :
    Ext false [a, b] es g s (((((({ s with guards := s.guards ++ g }.pushSol s.curr a).pushSol s.curr b).pushSc s.curr a).pushSc s.curr b).updLd s.curr fun d =>
      { d with scEqns := d.scEqns ++ es }).updU s.curr fun u => { u with nsolutions := k }) := by
  constructor
  · exact (((OnlySols.trans (pushSol_only { s with guards := s.guards ++ g } _ _) (pushSol_only _ _ _)).trans (pushSc_only _ _ _)).trans
      (pushSc_only _ _ _)).trans (onlySols_nsol _ _ _)
  all_goals try simp
  · rcases h : (s.ld s.curr).shared with _ | _ | _ <;> simp [LS.pushSol, LS.pushSc, LS.updLd, h]
  · rcases h : (s.ld s.curr).shared with _ | _ | _ <;> simp [LS.pushSol, LS.pushSc, LS.updLd, LS.updU, h, cand]
  · rcases h : (s.ld s.curr).shared with _ | _ | _ <;> simp [LS.pushSol, LS.pushSc, LS.updLd, LS.updU, h, cand]
  · rcases h : (s.ld s.curr).shared with _ | _ | _ <;> simp [LS.pushSol, LS.pushSc, LS.updLd, LS.updU, h, candE]
  · rcases h : (s.ld s.curr).shared with _ | _ | _ <;> simp [LS.pushSol, LS.pushSc, LS.updLd, LS.updU, h, candE]
  · rcases h : (s.ld s.curr).shared with _ | _ | _ <;> simp [LS.pushSol, LS.pushSc, LS.updLd, LS.updU, h]
  · intro n hn; rw [updLd_other _ _ _ hn, pushSc_other _ _ _ hn, pushSc_other _ _ _ hn, pushSol_other _ _ _ hn, pushSol_other _ _ _ hn]

/-- the solutions tan_solve makes (tan_solver.py:283-331) of l1 = A sin(u) + B, l2 = C cos(u) + D: one or two -/
def tanSolutions (P : Sympy) (l1 l2 A B C D : Expr) (one : Bool) : List Expr :=
  let Y := P.sub l1 B
  let X := P.sub l2 D
  if one then [.bin .atan2 (P.ratio Y A) (P.ratio X C)]
  else [.bin .atan2 (P.ratio Y (P.ratio A C)) X, .bin .atan2 (P.ratio (.un .neg Y) (P.ratio A C)) (.un .neg X)]

theorem tanSolve_cases {P : Sympy} {s s' : LS} {st : Status} (h : tanSolve P s = .ok (st, s')) :
    (st = .failure ∧ s' = s ∧ ((s.ld s.curr).solvableTan = true → ∀ e1 e2 A B C D, (s.ld s.curr).eqn = some e1 → (s.ld s.curr).second = some e2 →
      P.lin e1.rhs (sinU s.curr) [sinU s.curr, cosU s.curr] = some (A, B) → P.lin e2.rhs (cosU s.curr) [sinU s.curr, cosU s.curr] = some (C, D) →
      countUnknowns s.vars B = 0 → countUnknowns s.vars D = 0 → False)) ∨
    (st = .success ∧ (s.ld s.curr).solvableTan = true ∧ ∃ e1 e2 A B C D one, (s.ld s.curr).eqn = some e1 ∧ (s.ld s.curr).second = some e2 ∧
      P.lin e1.rhs (sinU s.curr) [sinU s.curr, cosU s.curr] = some (A, B) ∧ P.lin e2.rhs (cosU s.curr) [sinU s.curr, cosU s.curr] = some (C, D) ∧
      Ext true (tanSolutions P e1.lhs e2.lhs A B C D one) [e1, e2] [A, C] s s') := by
  unfold tanSolve at h
  dsimp only at h
  split at h
  swap
  · next hn => cases h; exact .inl ⟨rfl, rfl, fun h => absurd h hn⟩
  next hflag =>
  split at h
  swap
  · cases h
  next e1 e2 he1 he2 =>
  split at h
  swap
  · next hn =>
    cases h
    refine .inl ⟨rfl, rfl, fun _ e1' e2' A B C D h1 h2 h3 h4 _ _ => ?_⟩
    rw [he1] at h1; rw [he2] at h2
    cases h1; cases h2
    exact hn A B C D h3 h4
  next A B C D hl1 hl2 =>
  split at h
  · next hn =>
    cases h
    refine .inl ⟨rfl, rfl, fun _ e1' e2' A' B' C' D' h1 h2 h3 h4 h5 h6 => ?_⟩
    rw [he1] at h1; rw [he2] at h2
    cases h1; cases h2
    rw [hl1] at h3; rw [hl2] at h4
    cases h3; cases h4
    simp [h5, h6] at hn
  split at h
  · cases h
    exact .inr ⟨rfl, hflag, e1, e2, A, B, C, D, true, he1, he2, hl1, hl2, tanPush1 s _ [e1, e2] 1 [A, C]⟩
  · cases h
    exact .inr ⟨rfl, hflag, e1, e2, A, B, C, D, false, he1, he2, hl1, hl2, tanPush2 s _ _ [e1, e2] _ 2 [A, C]⟩

theorem tanId_cases {P : Sympy} {s s' : LS} {st : Status} (h : tanId P s = .ok (st, s')) :
    (st = .failure ∧ s' = s ∧ (s.ld s.curr).solvableTan = false) ∨ (st = .success ∧ s' = s ∧ (s.ld s.curr).solvableTan = true) ∨
    (st = .success ∧ s.solved s.curr = false ∧ (s.ld s.curr).solvableTan = false ∧
      ∃ es ∈ s.lists.l1 ++ s.lists.l2, ∃ ec ∈ s.lists.l1 ++ s.lists.l2, ∃ a b, tanPair P s.vars s.curr es ec = some (a, b) ∧
      s' = s.updLd s.curr fun d => { d with
        eqn := some ⟨.num 0, a⟩, second := some ⟨.num 0, b⟩, ready := true, method := d.method ++ [.atan2], solvableTan := true }) := by
  cases hf : (s.ld s.curr).solvableTan with
  | true =>
    unfold tanId at h
    simp only [hf, Bool.not_true, Bool.false_and, Bool.false_eq_true, if_false, if_true] at h
    cases h
    exact .inr (.inl ⟨rfl, rfl, rfl⟩)
  | false =>
    cases hu : s.solved s.curr with
    | true =>
      unfold tanId at h
      simp [hu, hf] at h
      exact .inl ⟨h.1.symm, h.2.symm, rfl⟩
    | false =>
      have hst : st = .success ∨ st = .failure := act_two P .tanID s st s' h
      rcases hst with rfl | rfl
      · obtain ⟨es, h1, ec, h2, a, b, h3, h4⟩ := tanId_spec hf hu h
        exact .inr (.inr ⟨rfl, rfl, rfl, es, h1, ec, h2, a, b, h3, h4⟩)
      · left
        refine ⟨rfl, ?_, rfl⟩
        unfold tanId at h
        simp only [hu, hf, Bool.not_false, Bool.and_self, if_true] at h
        cases hx : tanFind P s.vars s.curr (tanCands P s.curr (s.lists.l1 ++ s.lists.l2)).1
            (tanCands P s.curr (s.lists.l1 ++ s.lists.l2)).2 with
        | none => rw [hx] at h; simp [hf] at h; exact h.symm
        | some r => rw [hx] at h; simp at h

/-- What tan_id leaves for tan_solve: the state, marked if the pair is new. -/
inductive TanMark (P : Sympy) (s : LS) : LS → Prop where
  | old : (s.ld s.curr).solvableTan = true → TanMark P s s
  | new {es ec a b} : s.solved s.curr = false → (s.ld s.curr).solvableTan = false → es ∈ s.lists.l1 ++ s.lists.l2 →
      ec ∈ s.lists.l1 ++ s.lists.l2 → tanPair P s.vars s.curr es ec = some (a, b) →
      TanMark P s (s.updLd s.curr fun d => { d with
        eqn := some ⟨.num 0, a⟩, second := some ⟨.num 0, b⟩, ready := true, method := d.method ++ [.atan2], solvableTan := true })

theorem tanSol_cases {P : Sympy} {s s' : LS} {st : Status} (h : den (env P) 0 tanSol s = .ok (st, s')) :
    (st = .failure ∧ s' = s) ∨ (st = .success ∧ ∃ s1, TanMark P s s1 ∧
      ∃ e1 e2 A B C D one, (s1.ld s.curr).eqn = some e1 ∧ (s1.ld s.curr).second = some e2 ∧
        P.lin e1.rhs (sinU s.curr) [sinU s.curr, cosU s.curr] = some (A, B) ∧ P.lin e2.rhs (cosU s.curr) [sinU s.curr, cosU s.curr] = some (C, D) ∧
        Ext true (tanSolutions P e1.lhs e2.lhs A B C D one) [e1, e2] [A, C] s1 s') := by
  rcases pair_cases h with ⟨rfl, h1⟩ | ⟨s1, h1, h2⟩
  · rcases tanId_cases h1 with ⟨_, rfl, _⟩ | ⟨h, _⟩ | ⟨h, _⟩
    · exact .inl ⟨rfl, rfl⟩
    · cases h
    · cases h
  · rcases tanId_cases h1 with ⟨h, _⟩ | ⟨-, rfl, hf⟩ | ⟨-, hu, hf, es, hes, ec, hec, a, b, hp, rfl⟩
    · cases h
    · rcases tanSolve_cases h2 with ⟨rfl, rfl, _⟩ | ⟨rfl, -, e1, e2, A, B, C, D, one, q1, q2, q3, q4, q5⟩
      · exact .inl ⟨rfl, rfl⟩
      · exact .inr ⟨rfl, s1, .old hf, e1, e2, A, B, C, D, one, q1, q2, q3, q4, q5⟩
    · rcases tanSolve_cases h2 with ⟨rfl, rfl, hc⟩ | ⟨rfl, -, e1, e2, A, B, C, D, one, q1, q2, q3, q4, q5⟩
      · exfalso
        obtain ⟨_, _, A, B, C, D, l1, l2, _, c1, c2⟩ := tanPair_spec hp
        simp only [updLd_curr, updLd_same] at hc
        exact hc trivial _ _ A B C D rfl rfl l1 l2 c1 c2
      · exact .inr ⟨rfl, _, .new hu hf hes hec hp, e1, e2, A, B, C, D, one, q1, q2, q3, q4, q5⟩

theorem sincosId_cases {s s' : LS} {st : Status} (h : sincosId s = .ok (st, s')) :
    (st = .failure ∧ s' = s) ∨ (st = .success ∧ s.solved s.curr = false ∧ (s.ld s.curr).solvableSc = false ∧
      ∃ e t, sincosFind s.curr s.lists.l1 = some (e, t) ∧
        s' = s.updLd s.curr fun d => { d with eqn := some e, method := d.method ++ [t], solvableSc := true }) := by
  unfold sincosId at h
  dsimp only at h
  split at h
  · next hc =>
    simp only [Bool.and_eq_true, Bool.not_eq_eq_eq_not, Bool.not_true] at hc
    split at h
    · cases h; exact .inl ⟨rfl, rfl⟩
    · next e t hf => cases h; exact .inr ⟨rfl, hc.2, hc.1, e, t, hf, rfl⟩
  · cases h; exact .inl ⟨rfl, rfl⟩

/-- the two solutions of sincos_solve (sincos_solver.py:208-260) of l = A sin(u) + B (`sine`) or l = A cos(u) + B -/
def sincosSolutions (P : Sympy) (l A B : Expr) (sine : Bool) : List Expr :=
  let t := quot P l B A
  if sine then [.un .asin t, .bin .add (.sym "pi") (.un .neg (.un .asin t))] else [.un .acos t, .un .neg (.un .acos t)]

theorem sincosSolve_cases {P : Sympy} {s s' : LS} {st : Status} (h : sincosSolve P s = .ok (st, s')) :
    (st = .failure ∧ s' = s) ∨ (st = .success ∧ ∃ e A B sine, (s.ld s.curr).eqn = some e ∧
      (if sine then Tag.arcsin else Tag.arccos) ∈ (s.ld s.curr).method ∧
      P.lin (P.collectSC s.curr e.rhs) (if sine then sinU s.curr else cosU s.curr) [sinU s.curr, cosU s.curr] = some (A, B) ∧
      (quot P e.lhs B A).has s.curr = false ∧
      Ext false (sincosSolutions P e.lhs A B sine) [e] [A] s s') := by
  unfold sincosSolve at h
  dsimp only at h
  split at h
  swap
  · cases h; exact .inl ⟨rfl, rfl⟩
  split at h
  · cases h
  next e he =>
  split at h
  · next hm =>
    split at h
    · cases h; exact .inl ⟨rfl, rfl⟩
    next A B hl =>
    split at h
    · cases h
    next ht =>
    cases h
    exact .inr ⟨rfl, e, A, B, true, he, by simpa using hm, hl, by simpa using ht, scPush2 s _ _ [e] 2 [A]⟩
  · split at h
    swap
    · cases h; exact .inl ⟨rfl, rfl⟩
    next hm =>
    split at h
    · cases h; exact .inl ⟨rfl, rfl⟩
    next A B hl =>
    split at h
    · cases h
    next ht =>
    cases h
    exact .inr ⟨rfl, e, A, B, false, he, by simpa using hm, hl, by simpa using ht, scPush2 s _ _ [e] 2 [A]⟩

theorem scSol_cases {P : Sympy} {s s' : LS} {st : Status} (h : den (env P) 0 scSol s = .ok (st, s')) :
    (st = .failure ∧ (s' = s ∨ s.solved s.curr = false ∧ ∃ e t, sincosFind s.curr s.lists.l1 = some (e, t) ∧
        s' = s.updLd s.curr fun d => { d with eqn := some e, method := d.method ++ [t], solvableSc := true })) ∨
    (st = .success ∧ s.solved s.curr = false ∧ ∃ e t A B sine, sincosFind s.curr s.lists.l1 = some (e, t) ∧
      (if sine then Tag.arcsin else Tag.arccos) ∈ (s.ld s.curr).method ++ [t] ∧
      P.lin (P.collectSC s.curr e.rhs) (if sine then sinU s.curr else cosU s.curr) [sinU s.curr, cosU s.curr] = some (A, B) ∧
      (quot P e.lhs B A).has s.curr = false ∧
      Ext false (sincosSolutions P e.lhs A B sine) [e] [A]
        (s.updLd s.curr fun d => { d with eqn := some e, method := d.method ++ [t], solvableSc := true }) s') := by
  rcases pair_cases h with ⟨rfl, h1⟩ | ⟨s1, h1, h2⟩
  · rcases sincosId_cases h1 with ⟨_, rfl⟩ | ⟨h, _⟩
    · exact .inl ⟨rfl, .inl rfl⟩
    · cases h
  · rcases sincosId_cases h1 with ⟨h, _⟩ | ⟨-, hu, hf, e, t, hfi, rfl⟩
    · cases h
    rcases sincosSolve_cases h2 with ⟨rfl, rfl⟩ | ⟨rfl, e', A, B, sine, q1, q2, q3, q4, q5⟩
    · exact .inl ⟨rfl, .inr ⟨hu, e, t, hfi, rfl⟩⟩
    · simp only [updLd_curr, updLd_same, Option.some.injEq] at q1 q2
      subst q1
      exact .inr ⟨rfl, hu, e, t, A, B, sine, hfi, q2, q3, q4, q5⟩

/-! ### rank_leaf and the OrNode -/

/-- What rank does. `Chosen b`: both candidate lists were there and the sin/cos one (b = false) or the tangent one was taken. -/
inductive RankCase (s : LS) : LS → Prop where
  | none : (s.ld s.curr).scSols = [] → (s.ld s.curr).tanSols = [] → RankCase s s
  | one {s'} : ((s.ld s.curr).scSols = [] ↔ (s.ld s.curr).tanSols ≠ []) → s.setSolved s.curr = .ok s' → RankCase s s'
  | chosen {s' a l a' l' e} (b : Bool) (sec : Option KEqn) (tags : List Tag) : (s.ld s.curr).scSols = a :: l → (s.ld s.curr).tanSols = a' :: l' →
      (b = false ↔ (l.length < l'.length ∨ (l.length = l'.length ∧ countVariables s.vars a < countVariables s.vars a'))) →
      (candE b (s.ld s.curr)).head? = some e →
      (b = true → ∃ e2, (s.ld s.curr).tanEqns[1]? = some e2 ∧ sec = some e2) →
      ((s.updU s.curr fun x => { x with solutions := cand b (s.ld s.curr), nsolutions := (cand b (s.ld s.curr)).length }).updLd s.curr fun x =>
          { x with eqn := some e, second := if b then sec else x.second, method := x.method ++ tags, shared := some b }).setSolved s.curr = .ok s' → RankCase s s'

theorem rank_cases {s s' : LS} {st : Status} (h : rankLeaf s = .ok (st, s')) : st = .success ∧ RankCase s s' := by
  unfold rankLeaf at h
  dsimp only at h
  have fin : ∀ s1 : LS, (match s1.setSolved s.curr with
      | .error c => (.error c : Out)
      | .ok s => .ok (.success, s)) = .ok (st, s') → st = .success ∧ s1.setSolved s.curr = .ok s' := by
    intro s1 h
    split at h
    · cases h
    · next hs => cases h; exact ⟨rfl, hs⟩
  split at h
  · next a l a' l' hsc htan =>
    rw [hsc, htan] at h
    simp only [List.length_cons, Nat.add_lt_add_iff_right] at h
    have key : ∀ b : Bool, (b = false ↔ (if l.length < l'.length then true else if l.length > l'.length then false
        else decide (countVariables s.vars a < countVariables s.vars a')) = true) →
        (b = false ↔ (l.length < l'.length ∨ (l.length = l'.length ∧ countVariables s.vars a < countVariables s.vars a'))) := by
      intro b hb
      rw [hb]
      split
      · next h => simp [h]
      · next h =>
        split
        · next h' => simp; omega
        · next h' => simp; omega
    generalize hsc' : (if l.length < l'.length then true else if l.length > l'.length then false
        else decide (countVariables s.vars a < countVariables s.vars a')) = sc at h key
    cases sc
    case true =>
      simp only [if_true] at h
      split at h
      · cases h
      · next e es he =>
        obtain ⟨rfl, h1⟩ := fin _ h
        refine ⟨rfl, .chosen false none [.bestRanked, .sinOrCos] hsc htan (key false ?_) (e := e) (by simp [candE, he]) (by simp) ?_⟩
        · simp
        · simp only [cand, hsc, Bool.false_eq_true, if_false, List.length_cons]
          exact h1
    case false =>
      simp only [Bool.false_eq_true, if_false] at h
      split at h
      swap
      · cases h
      · next e e2 es he =>
        obtain ⟨rfl, h1⟩ := fin _ h
        refine ⟨rfl, .chosen true (some e2) [.bestRanked, .atan2] hsc htan (key true ?_) (e := e) (by simp [candE, he]) (fun _ => ⟨e2, by simp [he], rfl⟩) ?_⟩
        · simp
        · simp only [cand, htan, if_true, List.length_cons]
          exact h1
  · next a l hsc htan =>
    obtain ⟨rfl, h1⟩ := fin _ h
    exact ⟨rfl, .one (by simp [hsc, htan]) h1⟩
  · next a l hsc htan =>
    obtain ⟨rfl, h1⟩ := fin _ h
    exact ⟨rfl, .one (by simp [hsc, htan]) h1⟩
  · next hsc htan => cases h; exact ⟨rfl, .none hsc htan⟩

/-- tan_sol or sincos_sol, then rank. -/
theorem scTan_parts {P : Sympy} {s s' : LS} {st : Status} (h : den (env P) 0 scTan s = .ok (st, s')) :
    ∃ st1 s1 st2 s2, den (env P) 0 tanSol s = .ok (st1, s1) ∧ den (env P) 0 scSol s1 = .ok (st2, s2) ∧
      ((st1 = .failure ∧ st2 = .failure ∧ st = .failure ∧ s' = s2) ∨
       ((st1 ≠ .failure ∨ st2 ≠ .failure) ∧ rankLeaf s2 = .ok (st, s'))) := by
  rw [scTan, sq, lf, den, dens, dens, dens, denComp] at h
  have hor : ∀ {st2 s2}, den (env P) 0 (.comp .orNode 17 [tanSol, scSol]) s = .ok (st2, s2) →
      ∃ a s1 b, den (env P) 0 tanSol s = .ok (a, s1) ∧ den (env P) 0 scSol s1 = .ok (b, s2) ∧
        st2 = if a = .failure ∧ b = .failure then .failure else .success := by
    intro st2 s2 h
    rw [den, dens, dens, dens, denComp] at h
    simp only [denOr] at h
    split at h
    · cases h
    next a s1 ha =>
    split at h
    · cases h
    next b s3 hb =>
    cases h
    refine ⟨a, s1, b, ha, hb, ?_⟩
    by_cases h1 : a = .failure <;> by_cases h2 : b = .failure <;> simp [h1, h2]
  rcases denSeq_cons h with ⟨h1, h2⟩ | ⟨s2, h1, h2⟩
  · obtain ⟨a, s1, b, q1, q2, q3⟩ := hor h1
    refine ⟨a, s1, b, s', q1, q2, .inl ?_⟩
    by_cases hc : a = .failure ∧ b = .failure
    · rw [if_pos hc] at q3; exact ⟨hc.1, hc.2, q3, rfl⟩
    · rw [if_neg hc] at q3; exact absurd q3 h2
  · obtain ⟨a, s1, b, q1, q2, q3⟩ := hor h1
    refine ⟨a, s1, b, s2, q1, q2, .inr ⟨?_, ?_⟩⟩
    · by_cases hc : a = .failure ∧ b = .failure
      · rw [if_pos hc] at q3; cases q3
      · rw [not_and_or] at hc; exact hc
    · rcases denSeq_cons h2 with ⟨h3, h4⟩ | ⟨s3, h3, h4⟩
      · exact denLeaf_ok.mp h3
      · simp only [denSeq] at h4; cases h4; exact denLeaf_ok.mp h3

/-- Only the current unknown's candidate solutions and marks changed. -/
structure Soft (s s' : LS) : Prop where
  only : OnlySols s.curr s.w s'.w
  lists : s'.lists = s.lists
  ms : s'.ms = s.ms
  aux : s'.aux = s.aux
  curr : s'.curr = s.curr
  counter : s'.counter = s.counter
  guards : ∃ g, s'.guards = s.guards ++ g
  other : ∀ n, n ≠ s.curr → s'.ld n = s.ld n

theorem Soft.refl (s : LS) : Soft s s := ⟨OnlySols.refl _ _, rfl, rfl, rfl, rfl, rfl, ⟨[], by simp⟩, fun _ _ => rfl⟩
theorem Soft.trans {a b c : LS} (h : Soft a b) (h' : Soft b c) : Soft a c := by
  have hc := h.curr
  refine ⟨h.only.trans (hc ▸ h'.only), by rw [h'.lists, h.lists], by rw [h'.ms, h.ms], by rw [h'.aux, h.aux],
    by rw [h'.curr, hc], by rw [h'.counter, h.counter], ?_, fun n hn => ?_⟩
  · obtain ⟨g, hg⟩ := h.guards; obtain ⟨g', hg'⟩ := h'.guards
    exact ⟨g ++ g', by rw [hg', hg, List.append_assoc]⟩
  · rw [h'.other n (by rwa [hc]), h.other n hn]
theorem soft_updLd (s : LS) (f : LeafData → LeafData) : Soft s (s.updLd s.curr f) :=
  ⟨OnlySols.refl _ _, rfl, rfl, rfl, rfl, rfl, ⟨[], by simp⟩, fun _ hn => updLd_other _ _ _ hn⟩
theorem Ext.soft {own : Bool} {new es g} {s s' : LS} (h : Ext own new es g s s') : Soft s s' :=
  ⟨h.only, h.lists, h.ms, h.aux, h.curr, h.counter, ⟨g, h.guards⟩, h.other⟩
theorem TanMark.soft {P : Sympy} {s s' : LS} (h : TanMark P s s') : Soft s s' := by
  cases h with
  | old => exact Soft.refl s
  | new => exact soft_updLd s _
theorem OnlySols.solved {x : String} {w w' : World} (h : OnlySols x w w') (n : String) : (w'.unk n).solved = (w.unk n).solved := by
  obtain ⟨a, b, rfl⟩ := h
  by_cases hn : n = x
  · subst hn; simp
  · rw [Sol.upd_other _ _ hn]
theorem OnlySols.other {x : String} {w w' : World} (h : OnlySols x w w') {n : String} (hn : n ≠ x) : w'.unk n = w.unk n := by
  obtain ⟨a, b, rfl⟩ := h
  rw [Sol.upd_other _ _ hn]
theorem OnlySols.frame {x : String} {w w' : World} (h : OnlySols x w w') :
    w'.unknowns = w.unknowns ∧ w'.solveN = w.solveN ∧ w'.nodes = w.nodes ∧ w'.edges = w.edges := by
  obtain ⟨a, b, rfl⟩ := h
  exact ⟨rfl, rfl, rfl, rfl⟩
theorem Soft.solved {s s' : LS} (h : Soft s s') (n : String) : s'.solved n = s.solved n := h.only.solved n

theorem setSolutions_onlySols {w w' : World} {x : String} (h : OnlySols x w w') (sols : List Expr) :
    Sol.setSolved (setSolutions w' x sols) x = Sol.setSolved (setSolutions w x sols) x := by
  obtain ⟨a, b, rfl⟩ := h
  unfold setSolutions Sol.setSolved
  simp only [upd_upd, Sol.upd_same]

theorem Solves.of_soft {sols : List Expr} {a b c : LS} (h : Soft a b) (h' : Solves sols b c) : Solves sols a c := by
  have hc := h.curr
  refine ⟨?_, ?_, ?_, ?_, ?_, ?_, ?_, fun n hn => ?_⟩
  · rw [← h'.w, hc, setSolutions_onlySols h.only]
  · rw [h'.lists, h.lists]
  · rw [h'.ms, h.ms]
  · rw [h'.aux, h.aux]
  · rw [h'.curr, hc]
  · rw [h'.counter, h.counter]
  · obtain ⟨g, hg⟩ := h'.guards; obtain ⟨g', hg'⟩ := h.guards
    exact ⟨g' ++ g, by rw [hg, hg', List.append_assoc]⟩
  · rw [h'.other n (by rwa [hc]), h.other n hn]

theorem RankCase.solves {s s' : LS} (h : RankCase s s') (hne : (s.ld s.curr).scSols ≠ [] ∨ (s.ld s.curr).tanSols ≠ []) :
    ∃ sols, Solves sols s s' ∧ (sols = (s.w.unk s.curr).solutions ∨
      ((s.ld s.curr).scSols ≠ [] ∧ (s.ld s.curr).tanSols ≠ [] ∧ ∃ b, sols = cand b (s.ld s.curr))) := by
  cases h with
  | none h1 h2 => rcases hne with h | h; exact absurd h1 h; exact absurd h2 h
  | one _ h1 =>
    exact ⟨_, solves_of (OnlySols.refl _ _) rfl rfl rfl rfl rfl ⟨[], by simp⟩ (fun _ _ => rfl) h1, .inl rfl⟩
  | chosen b sec tags h1 h2 _ _ _ h3 =>
    refine ⟨cand b (s.ld s.curr), ?_, .inr ⟨by simp [h1], by simp [h2], b, rfl⟩⟩
    have := solves_of (s := s) ?_ (by simp) (by simp) (by simp) (by simp) (by simp) ⟨[], by simp⟩ ?_ h3
    · simpa using this
    · exact onlySols_upd s.w s.curr (fun x => { x with solutions := cand b (s.ld s.curr), nsolutions := (cand b (s.ld s.curr)).length }) fun _ => rfl
    · intro n hn; rw [updLd_other _ _ _ hn, updU_ld]

theorem tanSolutions_ne (P : Sympy) (l1 l2 A B C D : Expr) (one : Bool) : tanSolutions P l1 l2 A B C D one ≠ [] := by
  unfold tanSolutions; cases one <;> simp

theorem sincosSolutions_ne (P : Sympy) (l A B : Expr) (b : Bool) : sincosSolutions P l A B b ≠ [] := by
  unfold sincosSolutions; cases b <;> simp

/-- tan_sol never takes candidates away; a success leaves one. -/
theorem scSol_soft {P : Sympy} {s s' : LS} {st : Status} (h : den (env P) 0 scSol s = .ok (st, s')) :
    Soft s s' ∧ ((s.ld s.curr).tanSols ≠ [] → (s'.ld s.curr).tanSols ≠ []) ∧ (st = .success → s.solved s.curr = false ∧ (s'.ld s.curr).scSols ≠ []) := by
  rcases scSol_cases h with ⟨rfl, rfl | ⟨_, e, t, _, rfl⟩⟩ | ⟨rfl, hu, e, t, A, B, sine, _, _, _, _, hE⟩
  · exact ⟨Soft.refl _, id, by simp⟩
  · exact ⟨soft_updLd _ _, by simp, by simp⟩
  · refine ⟨(soft_updLd s _).trans hE.soft, ?_, fun _ => ⟨hu, ?_⟩⟩
    · have := hE.oth
      simp only [updLd_curr, updLd_same, cand, Bool.not_false, if_true] at this
      rw [this]
      intro h h'; simp at h'; exact h h'.1
    · have := hE.mine
      simp only [updLd_curr, updLd_same, cand, Bool.false_eq_true, if_false] at this
      rw [this]
      simp [sincosSolutions_ne]

theorem scTan_cases {P : Sympy} {s s' : LS} {st : Status} (h : den (env P) 0 scTan s = .ok (st, s')) :
    (st = .failure ∧ Quiet s s' ∧ (s' = s ∨ s.solved s.curr = false ∧ ∃ e t, sincosFind s.curr s.lists.l1 = some (e, t) ∧
        s' = s.updLd s.curr fun d => { d with eqn := some e, method := d.method ++ [t], solvableSc := true })) ∨
    (st = .success ∧ (s.solved s.curr = false ∨ (s.ld s.curr).solvableTan = true) ∧ ∃ sols, Solves sols s s') := by
  obtain ⟨st1, s1, st2, s2, h1, h2, ⟨rfl, rfl, rfl, rfl⟩ | ⟨hne, h3⟩⟩ := scTan_parts h
  · left
    rcases tanSol_cases h1 with ⟨-, rfl⟩ | ⟨h, _⟩
    swap
    · cases h
    rcases scSol_cases h2 with ⟨-, rfl | ⟨hu, e, t, hf, rfl⟩⟩ | ⟨h, _⟩
    · exact ⟨rfl, Quiet.refl _, .inl rfl⟩
    · exact ⟨rfl, quiet_updLd s1 _ fun _ => rfl, .inr ⟨hu, e, t, hf, rfl⟩⟩
    · cases h
  · right
    obtain ⟨rfl, hr⟩ := rank_cases h3
    obtain ⟨g1, g2, g3⟩ := scSol_soft h2
    have key : Soft s s1 ∧ (st1 = .success → (s.solved s.curr = false ∨ (s.ld s.curr).solvableTan = true) ∧ (s1.ld s.curr).tanSols ≠ []) := by
      rcases tanSol_cases h1 with ⟨rfl, rfl⟩ | ⟨rfl, s0, hm, e1, e2, A, B, C, D, one, _, _, _, _, hE⟩
      · exact ⟨Soft.refl _, by simp⟩
      · refine ⟨hm.soft.trans hE.soft, fun _ => ⟨?_, ?_⟩⟩
        · cases hm with
          | old h => exact .inr h
          | new h => exact .inl h
        · have := hE.mine
          rw [hm.soft.curr] at this
          simp only [cand, if_true] at this
          rw [this]; simp [tanSolutions_ne]
    obtain ⟨k1, k2⟩ := key
    have two1 : st1 = .success ∨ st1 = .failure := by
      rcases tanSol_cases h1 with ⟨rfl, _⟩ | ⟨rfl, _⟩ <;> simp
    have two2 : st2 = .success ∨ st2 = .failure := by
      rcases scSol_cases h2 with ⟨rfl, _⟩ | ⟨rfl, _⟩ <;> simp
    rw [k1.curr] at g2 g3
    have hc2 : s2.curr = s.curr := by rw [g1.curr, k1.curr]
    have : (s.solved s.curr = false ∨ (s.ld s.curr).solvableTan = true) ∧ ((s2.ld s2.curr).scSols ≠ [] ∨ (s2.ld s2.curr).tanSols ≠ []) := by
      rw [hc2]
      rcases hne with h | h
      · have := k2 (two1.resolve_right h)
        exact ⟨this.1, .inr (g2 this.2)⟩
      · have := g3 (two2.resolve_right h)
        rw [k1.solved] at this
        exact ⟨.inl this.1, .inl this.2⟩
    obtain ⟨sols, hs, _⟩ := hr.solves this.2
    exact ⟨rfl, this.1, sols, (hs.of_soft g1).of_soft k1⟩

/-! ### The Priority, one attempt -/

/-- x2z2 found an equation -/
structure Adds (s s' : LS) : Prop where
  rest : ∃ e, s' = { s with aux := s.aux ++ [e], ld := s'.ld }
  ld : ∀ n, (s'.ld n) = { s.ld n with method := (s'.ld n).method }

theorem x2z2_cases {P : Sympy} {s s' : LS} {st : Status} (h : x2z2 P s = .ok (st, s')) :
    (st = .failure ∧ s' = s) ∨ (st = .success ∧ Adds s s') := by
  unfold x2z2 at h
  split at h
  swap
  · cases h; exact .inl ⟨rfl, rfl⟩
  split at h
  · cases h; exact .inl ⟨rfl, rfl⟩
  next e he =>
  split at h
  · cases h; exact .inl ⟨rfl, rfl⟩
  next v hv =>
  cases h
  refine .inr ⟨rfl, ⟨e, rfl⟩, fun n => ?_⟩
  by_cases hn : n = v.name
  · subst hn; rw [updLd_same]
  · rw [updLd_other _ _ _ hn]

theorem work_cases {P : Sympy} {s s' : LS} {st : Status} (h : den (env P) 0 worktools s = .ok (st, s')) :
    (st = .failure ∧ Quiet s s') ∨
    (st = .success ∧ ((s.solved s.curr = false ∨ (s.ld s.curr).solvableTan = true) ∧ ∃ sols, Solves sols s s')) ∨
    (st = .success ∧ ∃ s1, Quiet s s1 ∧ Adds s1 s') := by
  rw [worktools, lf, den, dens, dens, dens, dens, dens, dens, denComp] at h
  rcases denPri_cons h with ⟨h1, hne⟩ | ⟨s1, h1, h⟩
  · rcases algSol_cases h1 with ⟨rfl, _⟩ | ⟨rfl, hu, _, _, _, _, _, _, hs, _⟩
    · exact absurd rfl hne
    · exact .inr (.inl ⟨rfl, .inl hu, _, hs⟩)
  have q1 : Quiet s s1 := by
    rcases algSol_cases h1 with ⟨_, hq, _⟩ | ⟨h, _⟩
    · exact hq
    · cases h
  clear h1
  have tr : ∀ {t : LS}, Quiet s t → (t.solved t.curr = false ∨ (t.ld t.curr).solvableTan = true) →
      s.solved s.curr = false ∨ (s.ld s.curr).solvableTan = true := by
    intro t hq h
    have hk := congrArg (fun p => p.2.2.2.2.2) (hq.kept s.curr)
    simp only [LeafData.kept] at hk
    rwa [LS.solved, hq.w, hq.curr, hk] at h
  rcases denPri_cons h with ⟨h1, hne⟩ | ⟨s2, h1, h⟩
  · rcases scTan_cases h1 with ⟨rfl, _⟩ | ⟨rfl, hu, _, hs⟩
    · exact absurd rfl hne
    · exact .inr (.inl ⟨rfl, tr q1 hu, _, hs.of_quiet q1⟩)
  have q2 : Quiet s s2 := by
    rcases scTan_cases h1 with ⟨_, hq, _⟩ | ⟨h, _⟩
    · exact q1.trans hq
    · cases h
  clear h1
  rcases denPri_cons h with ⟨h1, hne⟩ | ⟨s3, h1, h⟩
  · rcases simuSol_cases h1 with ⟨rfl, _⟩ | ⟨rfl, hu, _, _, _, hs, _⟩
    · exact absurd rfl hne
    · exact .inr (.inl ⟨rfl, tr q2 (.inl hu), _, hs.of_quiet q2⟩)
  have q3 : Quiet s s3 := by
    rcases simuSol_cases h1 with ⟨_, hq, _⟩ | ⟨h, _⟩
    · exact q2.trans hq
    · cases h
  clear h1
  rcases denPri_cons h with ⟨h1, hne⟩ | ⟨s4, h1, h⟩
  · rcases sacSol_cases h1 with ⟨rfl, _⟩ | ⟨rfl, hu, _, _, hs, _⟩
    · exact absurd rfl hne
    · exact .inr (.inl ⟨rfl, tr q3 (.inl hu), _, hs.of_quiet q3⟩)
  have q4 : Quiet s s4 := by
    rcases sacSol_cases h1 with ⟨_, rfl⟩ | ⟨h, _⟩
    · exact q3
    · cases h
  clear h1
  rcases denPri_cons h with ⟨h1, hne⟩ | ⟨s5, h1, h⟩
  · have := denLeaf_ok.mp h1
    rcases x2z2_cases this with ⟨rfl, _⟩ | ⟨rfl, ha⟩
    · exact absurd rfl hne
    · exact .inr (.inr ⟨rfl, s4, q4, ha⟩)
  · simp only [denPri] at h
    cases h
    have := denLeaf_ok.mp h1
    rcases x2z2_cases this with ⟨_, rfl⟩ | ⟨h, _⟩
    · exact .inl ⟨rfl, q4⟩
    · cases h

end Verif.Solver
