import Verif.Sol.SumSolve
/-!
# C72: the leaf `sum_solve` solves the missing part of a sum of angles
-/
namespace Verif.Sol
open Verif.Sym

/-- The value of a recorded solution: the unknown has this value iff the equation holds (when the factor of the second part is
not zero). -/
theorem Recorded.value {mt : Expr → Option SumMatch} (hm : SoundMatch mt) {w : World} {eq : Expr × Expr} {x : String}
    {sol : Expr} (h : Recorded mt w eq x sol) (env : String → ℝ)
    (hz : ∀ d, mt eq.2 = some d → d.sgn.eval env ≠ 0) :
    env x = sol.eval env ↔ eq.1.eval env = eq.2.eval env := by
  cases h with
  | second a d h1 ha hb _ _ _ _ hs =>
    have hv := hm _ _ h1 env
    have hn := hz d h1
    rw [hv, ha, hb, hs]
    simp only [Expr.eval, Fn1.eval, Fn2.eval]
    rw [eq_div_iff hn]
    constructor <;> intro h <;> linarith
  | first b d h1 ha hb _ _ _ _ hs =>
    have hv := hm _ _ h1 env
    rw [hv, ha, hb, hs]
    simp only [Expr.eval, Fn1.eval, Fn2.eval]
    constructor <;> intro h <;> linarith

/-- The effect of one tick on the unknown objects, with the status, in terms of the equations: `w` before, `w'` after. -/
structure Effect (mt : Expr → Option SumMatch) (w w' : World) (t : Bool) (aux : List (Expr × Expr)) : Prop where
  unknowns : w'.unknowns = w.unknowns
  each : ∀ n, w'.unk n = w.unk n ∨ ((w.unk n).solved = false ∧ n ∈ w.unknowns ∧ (w'.unk n).solved = true ∧
    ∃ eq ∈ aux, ∃ sol, (w'.unk n).solutions = (w.unk n).solutions ++ [sol] ∧ ∀ env : String → ℝ,
      (∀ d, mt eq.2 = some d → d.sgn.eval env ≠ 0) → (env n = sol.eval env ↔ eq.1.eval env = eq.2.eval env))
  tag : t = true ↔ ∃ n, (w.unk n).solved = false ∧ (w'.unk n).solved = true
  handled : ∀ eq ∈ aux, ∀ d, mt eq.2 = some d → ∀ a ∈ w.unknowns, ∀ b ∈ w.unknowns, d.thx = .sym a → d.thy = .sym b →
    (w.unk a).solved = true ∨ (w.unk b).solved = true → (w'.unk a).solved = true ∧ (w'.unk b).solved = true
  matched : ∀ eq ∈ aux, ∃ d, mt eq.2 = some d

theorem Effect.mono {mt w w' t aux} (h : Effect mt w w' t aux) (n : String) (hs : (w.unk n).solved = true) :
    w'.unk n = w.unk n := by
  rcases h.each n with h' | ⟨h', _⟩
  · exact h'
  · rw [hs] at h'; cases h'

theorem sumStep_effect {mt : Expr → Option SumMatch} (hm : SoundMatch mt) {w w' : World} {eq : Expr × Expr} {t : Bool}
    (h : sumStep mt w eq = (w', .ok t)) : Effect mt w w' t [eq] := by
  rcases sumStep_cases mt w eq with ⟨_, h2⟩ | ⟨d, h1, h2, h3⟩ | ⟨x, sol, h1, h2⟩
  · rw [h2] at h; cases h
  · rw [h2] at h
    cases h
    refine ⟨rfl, fun n => .inl rfl, ?_, ?_, ?_⟩
    · constructor
      · intro h; cases h
      · rintro ⟨n, h1, h2⟩; rw [h1] at h2; cases h2
    · intro e he d' hd a ha b hb h4 h5 h6
      simp only [List.mem_singleton] at he
      subst he
      rw [h1] at hd; cases hd
      have := h3 a ha b hb h4 h5
      rcases h6 with h6 | h6
      · exact ⟨h6, this ▸ h6⟩
      · exact ⟨this ▸ h6, h6⟩
    · intro e he; simp only [List.mem_singleton] at he; subst he; exact ⟨d, h1⟩
  · rw [h2] at h
    obtain ⟨rfl, hu, ho, hs, hso, _⟩ := sumRecord_ok h
    refine ⟨hu, fun n => ?_, ?_, ?_, ?_⟩
    · by_cases hn : n = x
      · subst hn
        right
        exact ⟨h1.unsolved, h1.mem, hs, eq, by simp, sol, hso, fun env hz => h1.value hm env hz⟩
      · exact .inl (ho n hn)
    · exact ⟨fun _ => ⟨x, h1.unsolved, hs⟩, fun _ => rfl⟩
    · intro e he d' hd a ha b hb h4 h5 h6
      simp only [List.mem_singleton] at he
      subst he
      have mono : ∀ n, (w.unk n).solved = true → (w'.unk n).solved = true := by
        intro n h
        by_cases hn : n = x
        · subst hn; exact hs
        · rw [ho n hn]; exact h
      cases h1 with
      | second a' d h7 h8 h9 _ _ h10 =>
        rw [h7] at hd; cases hd
        rw [h8] at h4; rw [h9] at h5
        cases h4; cases h5
        exact ⟨mono _ h10, hs⟩
      | first b' d h7 h8 h9 _ _ h10 =>
        rw [h7] at hd; cases hd
        rw [h8] at h4; rw [h9] at h5
        cases h4; cases h5
        exact ⟨hs, mono _ h10⟩
    · intro e he
      simp only [List.mem_singleton] at he; subst he
      cases h1 with
      | second _ d h7 => exact ⟨d, h7⟩
      | first _ d h7 => exact ⟨d, h7⟩

theorem Effect.trans {mt w w1 w2 t1 t2 l1 l2} (h1 : Effect mt w w1 t1 l1) (h2 : Effect mt w1 w2 t2 l2) :
    Effect mt w w2 (t1 || t2) (l1 ++ l2) := by
  have solved2 : ∀ n, (w.unk n).solved = true → (w2.unk n).solved = true := by
    intro n h
    have e1 := h1.mono n h
    rw [← e1] at h
    rw [h2.mono n h]; exact h
  have solved1 : ∀ n, (w1.unk n).solved = true → (w2.unk n).solved = true := fun n h => by
    rw [h2.mono n h]; exact h
  refine ⟨h2.unknowns.trans h1.unknowns, fun n => ?_, ?_, ?_, ?_⟩
  · rcases h1.each n with e1 | ⟨a1, b1, c1, eq, he, sol, hs, hv⟩
    · rcases h2.each n with e2 | ⟨a2, b2, c2, eq, he, sol, hs, hv⟩
      · exact .inl (e2.trans e1)
      · right
        rw [e1] at a2 hs
        rw [h1.unknowns] at b2
        exact ⟨a2, b2, c2, eq, by simp [he], sol, hs, hv⟩
    · right
      have e2 := h2.mono n c1
      exact ⟨a1, b1, by rw [e2]; exact c1, eq, by simp [he], sol, by rw [e2]; exact hs, hv⟩
  · rw [Bool.or_eq_true, h1.tag, h2.tag]
    constructor
    · rintro (⟨n, a, b⟩ | ⟨n, a, b⟩)
      · exact ⟨n, a, solved1 n b⟩
      · refine ⟨n, ?_, b⟩
        cases hw : (w.unk n).solved with
        | false => rfl
        | true => rw [h1.mono n hw, hw] at a; cases a
    · rintro ⟨n, a, b⟩
      cases hw : (w1.unk n).solved with
      | false => exact .inr ⟨n, hw, b⟩
      | true => exact .inl ⟨n, a, hw⟩
  · intro eq he d hd a ha b hb h3 h4 h5
    rcases List.mem_append.1 he with he | he
    · obtain ⟨p, q⟩ := h1.handled eq he d hd a ha b hb h3 h4 h5
      exact ⟨solved1 a p, solved1 b q⟩
    · refine h2.handled eq he d hd a (by rw [h1.unknowns]; exact ha) b (by rw [h1.unknowns]; exact hb) h3 h4 ?_
      rcases h5 with h5 | h5
      · left; rw [h1.mono a h5]; exact h5
      · right; rw [h1.mono b h5]; exact h5
  · intro eq he
    rcases List.mem_append.1 he with he | he
    · exact h1.matched eq he
    · exact h2.matched eq he

theorem sumLoop_effect {mt : Expr → Option SumMatch} (hm : SoundMatch mt) : ∀ {aux : List (Expr × Expr)} {w w' : World}
    {t0 t : Bool}, sumLoop mt w t0 aux = (w', .ok t) → ∃ t1, t = (t0 || t1) ∧ Effect mt w w' t1 aux
  | [], w, w', t0, t, h => by
    simp only [sumLoop, Prod.mk.injEq, Except.ok.injEq] at h
    obtain ⟨rfl, rfl⟩ := h
    refine ⟨false, by simp, rfl, fun n => .inl rfl, ?_, by simp, by simp⟩
    constructor
    · intro h; cases h
    · rintro ⟨n, h1, h2⟩; rw [h1] at h2; cases h2
  | eq :: aux, w, w', t0, t, h => by
    rw [sumLoop] at h
    split at h
    · cases h
    · rename_i w1 t1 hs
      obtain ⟨t2, h1, h2⟩ := sumLoop_effect hm h
      refine ⟨t1 || t2, by rw [h1, Bool.or_assoc], ?_⟩
      exact Effect.trans (sumStep_effect hm hs) h2

/-- C72 (for ticks that end without exception). Every unknown object is left exactly as it was, or it was unsolved, is now
solved, and got one more solution `sol`, which is the solution of one of the auxiliary equations for it: the unknown has
this value exactly when the equation holds. The status is SUCCESS iff some unknown was solved by this tick. After the
tick no equation whose sum had one solved and one unsolved part at the beginning has an unsolved part left. -/
theorem C72_sum_solve_partial {mt : Expr → Option SumMatch} (hm : SoundMatch mt) {w w' : World} {aux : List (Expr × Expr)}
    {t : Bool} (h : sumSolve mt w aux = (w', .ok t)) :
    (∀ n, w'.unk n = w.unk n ∨ ((w.unk n).solved = false ∧ n ∈ w.unknowns ∧ (w'.unk n).solved = true ∧
      ∃ eq ∈ aux, ∃ sol, (w'.unk n).solutions = (w.unk n).solutions ++ [sol] ∧ ∀ env : String → ℝ,
        (∀ d, mt eq.2 = some d → d.sgn.eval env ≠ 0) → (env n = sol.eval env ↔ eq.1.eval env = eq.2.eval env))) ∧
    (t = true ↔ ∃ n, (w.unk n).solved = false ∧ (w'.unk n).solved = true) ∧
    (∀ eq ∈ aux, ∀ d, mt eq.2 = some d → ∀ a ∈ w.unknowns, ∀ b ∈ w.unknowns, d.thx = .sym a → d.thy = .sym b →
      (w.unk a).solved = true ∨ (w.unk b).solved = true → (w'.unk a).solved = true ∧ (w'.unk b).solved = true) := by
  obtain ⟨t1, h1, h2⟩ := sumLoop_effect hm h
  simp only [Bool.false_or] at h1
  subst h1
  exact ⟨h2.each, h2.tag, h2.handled⟩

/-! ## Exceptions -/

/-- `set_solved` raises nothing if there is a solution and every listed unknown occurring in a solution is solved (or is the
unknown itself). -/
theorem solLoop_noerr {x : String} : ∀ (sols : List Expr) (n : Nat) (w : World),
    (∀ sol ∈ sols, ∀ m ∈ w.unknowns, sol.has m = true → (w.unk m).solved = true) → (solLoop x n sols w).2 = none
  | [], _, _, _ => rfl
  | sol :: sols, n, w, h => by
    rw [solLoop]
    rcases C24_get_deps w sol with ⟨⟨m, hm, h1, h2⟩, _⟩ | ⟨_, ds, h1, _⟩
    · have := h sol (by simp) m hm h1; rw [h2] at this; cases this
    · rw [h1]
      refine solLoop_noerr sols (n + 1) _ ?_
      intro s hs m hm he
      have := h s (by simp [hs]) m hm he
      by_cases hx : m = x
      · subst hx; simpa using this
      · rw [upd_other _ _ hx]; exact this

theorem setSolved_noerr {w : World} {x : String} (h0 : (w.unk x).solutions ≠ [])
    (h : ∀ sol ∈ (w.unk x).solutions, ∀ m ∈ w.unknowns, sol.has m = true → m = x ∨ (w.unk m).solved = true) :
    (setSolved w x).2 = none := by
  unfold setSolved
  simp only [upd_same]
  rw [if_neg (by simpa using h0)]
  rcases he : solLoop x 1 (w.unk x).solutions _ with ⟨w1, o⟩
  have := solLoop_noerr (x := x) (w.unk x).solutions 1
    (({ w.upd x fun u => { u with solved := true, nsolutions := u.solutions.length } with solveN := w.solveN + 1 } : World).upd x
      fun u => { u with solveorder := w.solveN + 1 }) (by
      intro sol hs m hm hh
      by_cases hx : m = x
      · subst hx; simp
      · rw [upd_other _ _ hx]
        simp only [World.upd, hx, if_false]
        rcases h sol hs m hm hh with h' | h'
        · exact absurd h' hx
        · exact h')
  simp only [upd_solveN] at he
  rw [he] at this
  cases this
  rfl

/-- C72: when the leaf raises nothing. Every right hand side matches, the unknowns in the left hand sides and in the factors
are solved, and no unsolved unknown has solutions already. -/
theorem C72_no_exception {mt : Expr → Option SumMatch} : ∀ {aux : List (Expr × Expr)} {w : World} {t0 : Bool},
    (∀ eq ∈ aux, ∃ d, mt eq.2 = some d ∧ ∀ n ∈ w.unknowns, eq.1.has n = true ∨ d.sgn.has n = true → (w.unk n).solved = true) →
    (∀ n, (w.unk n).solved = false → (w.unk n).solutions = []) →
    ∃ w' t, sumLoop mt w t0 aux = (w', .ok t)
  | [], w, t0, _, _ => ⟨w, t0, rfl⟩
  | eq :: aux, w, t0, h, h0 => by
    rw [sumLoop]
    obtain ⟨d, hd, hl⟩ := h eq (by simp)
    rcases sumStep_cases mt w eq with ⟨h1, _⟩ | ⟨d', h1, h2, h3⟩ | ⟨x, sol, h1, h2⟩
    · rw [hd] at h1; cases h1
    · rw [h2]
      exact C72_no_exception (fun e he => h e (by simp [he])) h0
    · rw [h2]
      have hu := h1.unsolved
      have hsol : ∀ m ∈ w.unknowns, sol.has m = true → (w.unk m).solved = true := by
        intro m hm hh
        cases h1 with
        | second a d2 h7 _ _ _ _ h10 _ hs =>
          rw [hd] at h7; cases h7
          subst hs
          simp only [Expr.has, Bool.or_eq_true, beq_iff_eq] at hh
          rcases hh with (hh | rfl) | hh
          · exact hl m hm (.inl hh)
          · exact h10
          · exact hl m hm (.inr hh)
        | first b d2 h7 _ _ _ _ h10 _ hs =>
          rw [hd] at h7; cases h7
          subst hs
          simp only [Expr.has, Bool.or_eq_true, beq_iff_eq] at hh
          rcases hh with hh | hh | rfl
          · exact hl m hm (.inl hh)
          · exact hl m hm (.inr hh)
          · exact h10
      have hne := setSolved_noerr
        (w := w.upd x fun u => { u with solutions := u.solutions ++ [sol], nsolutions := 1 }) (x := x) (by simp) (by
          intro s hs m hm hh
          simp only [upd_same, h0 x hu, List.nil_append, List.mem_singleton] at hs
          subst hs
          by_cases hx : m = x
          · exact .inl hx
          · right; rw [upd_other _ _ hx]; exact hsol m hm hh)
      have hr : ∃ w', sumRecord w x sol = (w', .ok true) := by
        unfold sumRecord
        rcases hss : setSolved (w.upd x fun u => { u with solutions := u.solutions ++ [sol], nsolutions := 1 }) x with ⟨w1, o⟩
        rw [hss] at hne
        cases hne
        exact ⟨w1, rfl⟩
      obtain ⟨w1, hr⟩ := hr
      rw [hr]
      obtain ⟨_, hun, ho, hs, _, _⟩ := sumRecord_ok hr
      have mono : ∀ n, (w.unk n).solved = true → (w1.unk n).solved = true := by
        intro n h'
        by_cases hn : n = x
        · subst hn; exact hs
        · rw [ho n hn]; exact h'
      refine C72_no_exception ?_ ?_
      · intro e he
        obtain ⟨d2, h3, h4⟩ := h e (by simp [he])
        exact ⟨d2, h3, fun n hn hh => mono n (h4 n (by rw [← hun]; exact hn) hh)⟩
      · intro n hn
        by_cases hx : n = x
        · subst hx; rw [hs] at hn; cases hn
        · rw [ho n hx] at hn ⊢; exact h0 n hn

/-! ## Examples and violations -/

/-- A matcher for sums of two symbols. -/
def matchTwo : Expr → Option SumMatch
  | .bin .add a b => some ⟨a, .num 1, b⟩
  | _ => none

theorem matchTwo_sound : SoundMatch matchTwo := by
  intro e d h env
  unfold matchTwo at h
  split at h
  · cases h; simp [Expr.eval, Fn2.eval]
  · cases h

/-- th_2 and th_23 solved, th_3 not. -/
def demoSum : World :=
  { unknowns := ["th_2", "th_3", "th_23", "th_4"]
    unk := fun n => if n = "th_2" ∨ n = "th_23" then { solved := true, nsolutions := 2, solutions := [.sym "p", .sym "q"] } else {} }

/-- view of the result for one unknown -/
def sumView (r : World × Except SumErr Bool) (n : String) : Except SumErr Bool × Bool × List Expr × List String :=
  (r.2, (r.1.unk n).solved, (r.1.unk n).solutions, r.1.nodes)

instance : DecidableEq (Except SumErr Bool) := fun a b => by
  cases a <;> cases b
  · rename_i x y; exact if h : x = y then isTrue (by rw [h]) else isFalse (by simpa using h)
  · exact isFalse (by simp)
  · exact isFalse (by simp)
  · rename_i x y; exact if h : x = y then isTrue (by rw [h]) else isFalse (by simpa using h)

def auxDemo : List (Expr × Expr) := [(.sym "th_23", .bin .add (.sym "th_2") (.sym "th_3"))]

/-- Non-vacuity of `C72_sum_solve_partial` and `C72_no_exception`. -/
example : sumView (sumSolve matchTwo demoSum auxDemo) "th_3" =
    (.ok true, true, [.bin .div (.bin .add (.sym "th_23") (.un .neg (.sym "th_2"))) (.num 1)], ["th_3"]) := by decide +kernel

example : (∀ eq ∈ auxDemo, ∃ d, matchTwo eq.2 = some d ∧
      ∀ n ∈ demoSum.unknowns, eq.1.has n = true ∨ d.sgn.has n = true → (demoSum.unk n).solved = true) ∧
    (∀ n, (demoSum.unk n).solved = false → (demoSum.unk n).solutions = []) := by
  constructor
  · intro eq he
    simp only [auxDemo, List.mem_singleton] at he
    subst he
    exact ⟨_, rfl, by decide +kernel⟩
  · intro n h
    by_cases hn : n = "th_2" ∨ n = "th_23"
    · simp [demoSum, hn] at h
    · simp [demoSum, hn]

/-- C72 is false of the code (1): the leaf does not look whether the left hand side is solved. With only th_2 solved, th_3 is
given the solution th_23 - th_2 although th_23 is unknown; the call of `set_solved` raises AssertionError and leaves
th_3 marked as solved, with the solution, but without a node in the solution graph. -/
theorem C72_unsolved_lhs_violation :
    sumView (sumSolve matchTwo (demoSum.upd "th_23" fun u => { u with solved := false }) auxDemo) "th_3" =
      (.error (.set .assertion), true, [.bin .div (.bin .add (.sym "th_23") (.un .neg (.sym "th_2"))) (.num 1)], []) := by
  decide +kernel

/-- C72 is false of the code (2): an auxiliary equation that is not a sum makes the leaf raise TypeError, even if an earlier
equation has been solved. -/
theorem C72_no_match_violation (mt : Expr → Option SumMatch) (w : World) (l r : Expr) (aux : List (Expr × Expr))
    (h : mt r = none) : sumSolve mt w ((l, r) :: aux) = (w, .error .type) := by
  simp [sumSolve, sumLoop, sumStep, h]

example : matchTwo (.sym "th_2") = none := rfl

/-- C72 is false of the code (3): one pass is not enough: an equation can become solvable by a later one. Here th_4 is known,
th_34 = th_3 + th_4 gives th_3, but th_23 = th_2 + th_3, which comes first, is not used for th_2 although the tick
ends with SUCCESS. -/
theorem C72_one_pass_violation :
    let w : World := { unknowns := ["th_2", "th_3", "th_4", "th_23", "th_34"], unk := fun n =>
      if n = "th_2" ∨ n = "th_3" then {} else { solved := true, nsolutions := 1, solutions := [.sym "p"] } }
    let r := sumSolve matchTwo w [(.sym "th_23", .bin .add (.sym "th_2") (.sym "th_3")), (.sym "th_34", .bin .add (.sym "th_3") (.sym "th_4"))]
    (r.2, (r.1.unk "th_2").solved, (r.1.unk "th_3").solved, (r.1.unk "th_23").solved) = (.ok true, false, true, true) := by
  decide +kernel

/-- C72, a limit of the code: an equation of which one part is not a symbol (as for a sum of three angles, whatever the matcher
takes as the two parts) is passed over without any effect. -/
theorem C72_three_angles {mt : Expr → Option SumMatch} (w : World) (l r : Expr) (d : SumMatch) (h : mt r = some d)
    (hs : (∀ s, d.thx ≠ .sym s) ∨ (∀ s, d.thy ≠ .sym s)) : sumSolve mt w [(l, r)] = (w, .ok false) := by
  have key : sumStep mt w (l, r) = (w, .ok false) := by
    rcases sumStep_cases mt w (l, r) with ⟨h1, _⟩ | ⟨_, _, h2, _⟩ | ⟨x, sol, h1, _⟩
    · simp only [] at h1; rw [h] at h1; cases h1
    · exact h2
    · exfalso
      cases h1 with
      | second a d2 h7 h8 h9 =>
        simp only [] at h7; rw [h] at h7; cases h7
        rcases hs with hs | hs
        · exact hs a h8
        · exact hs x h9
      | first a d2 h7 h8 h9 =>
        simp only [] at h7; rw [h] at h7; cases h7
        rcases hs with hs | hs
        · exact hs x h8
        · exact hs a h9
  simp [sumSolve, sumLoop, key]

/-- C72 is false of the code (4): th_234 = (th_2 + th_3) + th_4 with everything but th_4 solved determines th_4, but the tick ends
with FAILURE and th_4 stays unsolved. -/
theorem C72_three_angles_violation :
    let w : World := { unknowns := ["th_2", "th_3", "th_4", "th_234"], unk := fun n =>
      if n = "th_4" then {} else { solved := true, nsolutions := 1, solutions := [.sym "p"] } }
    sumView (sumSolve matchTwo w [(.sym "th_234", .bin .add (.bin .add (.sym "th_2") (.sym "th_3")) (.sym "th_4"))]) "th_4" =
      (.ok false, false, [], []) := by
  decide +kernel

end Verif.Sol
