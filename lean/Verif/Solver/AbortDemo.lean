import Verif.Solver.AbortTop
import Verif.Solver.Progress
/-!
# C76: runs that meet the hypotheses, and runs that raise an exception
-/
namespace Verif.Solver
open Verif.Leaf Verif.Eqn Verif.Sol Verif.Sym
open Verif.BT hiding Tree

/-! ## A small computer algebra system that meets the assumptions -/

/-- `toyE`, with differences left as they are -/
def toyT : Sympy := { toyE with sub := fun a b => .bin .add a (.un .neg b) }

section
variable {ang : String → Bool}

theorem sep_sNeg {a : Expr} (h : Separated ang a) : Separated ang (sNeg a) := by
  unfold sNeg
  split
  · cases h with | un _ _ h => exact h
  · split
    · exact .num 0
    · exact .un (by simp) (by simp) h

theorem sep_sAdd {a b : Expr} (ha : Separated ang a) (hb : Separated ang b) : Separated ang (sAdd a b) := by
  unfold sAdd
  split
  · exact hb
  split
  · exact ha
  split
  · exact .num 0
  · exact .bin ha hb

theorem sep_sMul {a b : Expr} (ha : Separated ang a) (hb : Separated ang b) : Separated ang (sMul a b) := by
  unfold sMul
  split
  · exact .num 0
  split
  · exact hb
  split
  · exact ha
  · exact .bin ha hb

theorem sep_toyS {e : Expr} (h : Separated ang e) : Separated ang (toyS e) := by
  induction h with
  | num q => exact .num q
  | sym h1 h2 => exact .sym h1 h2
  | sin h1 h2 => exact .sin h1 h2
  | cos h1 h2 => exact .cos h1 h2
  | @un f a h1 h2 _ ih =>
    cases f <;> simp only [toyS] <;> first | exact sep_sNeg ih | exact .un h1 h2 ih
  | @bin f a b _ _ ih1 ih2 =>
    cases f <;> simp only [toyS] <;> first | exact sep_sAdd ih1 ih2 | exact sep_sMul ih1 ih2 | exact .bin ih1 ih2

theorem sep_replace {e a b : Expr} (h : Separated ang e) (ha : Separated ang a) (hb : Separated ang b) : Separated ang (e.replace a b) := by
  induction h with
  | num q => unfold Expr.replace; split; exacts [hb, .num q]
  | sym h1 h2 => unfold Expr.replace; split; exacts [hb, .sym h1 h2]
  | @sin s h1 h2 =>
    have : Expr.sym s ≠ a := by rintro rfl; cases ha with | sym h => rw [h] at h1; cases h1
    unfold Expr.replace; split
    · exact hb
    · simp only [Expr.replace, this, if_false]; exact .sin h1 h2
  | @cos s h1 h2 =>
    have : Expr.sym s ≠ a := by rintro rfl; cases ha with | sym h => rw [h] at h1; cases h1
    unfold Expr.replace; split
    · exact hb
    · simp only [Expr.replace, this, if_false]; exact .cos h1 h2
  | un h1 h2 _ ih => unfold Expr.replace; split; exacts [hb, .un h1 h2 ih]
  | bin _ _ ih1 ih2 => unfold Expr.replace; split; exacts [hb, .bin ih1 ih2]

theorem sep_coeff {e t : Expr} (h : Separated ang e) : Separated ang (toyCoeff e t) := by
  induction h with
  | num q => simp only [toyCoeff]; split <;> exact .num _
  | sym h1 h2 => simp only [toyCoeff]; split <;> exact .num _
  | sin h1 h2 => simp only [toyCoeff]; split <;> exact .num _
  | cos h1 h2 => simp only [toyCoeff]; split <;> exact .num _
  | @un f a h1 h2 _ ih =>
    cases f <;> simp only [toyCoeff] <;> first | exact sep_sNeg ih | (split <;> exact .num _)
  | @bin f a b ha _ ih1 ih2 =>
    cases f <;> simp only [toyCoeff] <;> first | exact sep_sAdd ih1 ih2 | (split <;> first | exact ha | exact .num _)

theorem sep_rest {e t : Expr} (h : Separated ang e) : Separated ang (toyRest e t) := by
  induction h with
  | num q => simp only [toyRest]; split <;> exact .num _
  | sym h1 h2 => simp only [toyRest]; split <;> first | exact .num _ | exact .sym h1 h2
  | sin h1 h2 => simp only [toyRest]; split <;> first | exact .num _ | exact .sin h1 h2
  | cos h1 h2 => simp only [toyRest]; split <;> first | exact .num _ | exact .cos h1 h2
  | @un f a h1 h2 ha ih =>
    cases f <;> simp only [toyRest] <;> first | exact sep_sNeg ih | (split <;> first | exact .num _ | exact .un h1 h2 ha)
  | @bin f a b ha hb ih1 ih2 =>
    cases f <;> simp only [toyRest] <;> first | exact sep_sAdd ih1 ih2 | (split <;> first | exact .num _ | exact .bin ha hb)
end

theorem has_coeff {e t : Expr} {x : String} (h : (toyCoeff e t).has x = true) : e.has x = true := by
  induction e with
  | num q => simp only [toyCoeff] at h; split at h <;> cases h
  | sym s => simp only [toyCoeff] at h; split at h <;> cases h
  | un f a ih =>
    cases f <;> simp only [toyCoeff] at h <;> simp only [Expr.has] <;>
      first | exact ih (has_sNeg h) | (split at h <;> cases h)
  | bin f a b ih1 ih2 =>
    cases f <;> simp only [toyCoeff] at h <;> simp only [Expr.has, Bool.or_eq_true] <;>
      first | exact (has_sAdd h).imp ih1 ih2 | (split at h <;> first | exact .inl h | cases h)

theorem has_rest {e t : Expr} {x : String} (h : (toyRest e t).has x = true) : e.has x = true := by
  induction e with
  | num q => simp only [toyRest] at h; split at h <;> cases h
  | sym s => simp only [toyRest] at h; split at h <;> first | exact h | cases h
  | un f a ih =>
    cases f <;> simp only [toyRest] at h <;> first | exact ih (has_sNeg h) | (split at h <;> first | exact h | cases h)
  | bin f a b ih1 ih2 =>
    cases f <;> simp only [toyRest] at h <;>
      first | (split at h <;> first | exact h | cases h) | (simp only [Expr.has, Bool.or_eq_true]; exact (has_sAdd h).imp ih1 ih2)

theorem toyLin_some {e t : Expr} {ex : List Expr} {A B : Expr} (h : toyLin e t ex = some (A, B)) :
    A = toyCoeff e t ∧ B = toyRest e t ∧ ∀ x ∈ ex, occurs x A = false ∧ occurs x B = false := by
  unfold toyLin at h
  dsimp only at h
  split at h
  · next hc =>
    cases h
    simp only [List.all_eq_true, Bool.and_eq_true, Bool.not_eq_true'] at hc
    exact ⟨rfl, rfl, hc⟩
  · cases h

theorem toyT_tame (ang : String → Bool) : TameOn ang toyT where
  refl := toyE_refl
  sub ha hb := .bin ha (.un (by simp) (by simp) hb)
  subst := sep_replace
  simplify := sep_toyS
  collectSC := sep_toyS
  lin h hl := by obtain ⟨rfl, rfl, _⟩ := toyLin_some hl; exact ⟨sep_coeff h, sep_rest h⟩
  sums _ := rfl
  sub_has h := by simpa [toyT, Expr.has] using h
  ratio_has := toyE_ratio _ _ _
  simplify_has := has_toyS
  collectU_has := has_toyS
  collectSC_has := has_toyS
  expandSC_has := has_toyS
  coeff_has := has_coeff
  lin_has hl h := by obtain ⟨rfl, rfl, _⟩ := toyLin_some hl; exact h.elim has_coeff has_rest
  lin_excl hl := (toyLin_some hl).2.2
  denom {u t t' A B C D x} _ _ _ hr ha := by
    change (toyRatio A C).has x = false at hr
    unfold toyRatio at hr
    split at hr
    · next h => subst h; exact ha
    split at hr
    · next h => subst h; rfl
    · simpa [Expr.has, ha] using hr
  radius {u t} _ _ h := by simp [toyT, Expr.has] at h

/-! ## Tests for the specifications -/

def sepB (ang : String → Bool) : Expr → Bool
  | .num _ => true
  | .sym s => !ang s && (soaExpansions s).isNone
  | .un .sin (.sym s) => ang s && (soaExpansions s).isNone
  | .un .cos (.sym s) => ang s && (soaExpansions s).isNone
  | .un .neg a => sepB ang a
  | .un .asin a => sepB ang a
  | .un .acos a => sepB ang a
  | .un .sqrt a => sepB ang a
  | .un _ _ => false
  | .bin _ a b => sepB ang a && sepB ang b

theorem sepB_sound {ang : String → Bool} {e : Expr} (h : sepB ang e = true) : Separated ang e := by
  induction e with
  | num q => exact .num q
  | sym s => simp only [sepB, Bool.and_eq_true, Bool.not_eq_true', Option.isNone_iff_eq_none] at h; exact .sym h.1 h.2
  | un f a ih =>
    have plain : f ≠ .sin → f ≠ .cos → Separated ang (.un f a) := by
      intro h1 h2
      refine .un h1 h2 (ih ?_)
      cases f <;> first | exact (h1 rfl).elim | exact (h2 rfl).elim | exact h
    cases f with
    | sin =>
      cases a with
      | sym s => simp only [sepB, Bool.and_eq_true, Option.isNone_iff_eq_none] at h; exact .sin h.1 h.2
      | _ => simp [sepB] at h
    | cos =>
      cases a with
      | sym s => simp only [sepB, Bool.and_eq_true, Option.isNone_iff_eq_none] at h; exact .cos h.1 h.2
      | _ => simp [sepB] at h
    | _ => exact plain (by simp) (by simp)
  | bin f a b ih1 ih2 => simp only [sepB, Bool.and_eq_true] at h; exact .bin (ih1 h.1) (ih2 h.2)

def balB (us : List String) (ang : String → Bool) (e : Expr) : Bool :=
  us.all fun x => !(ang x && e.has x) || (occurs (.un .sin (.sym x)) e && occurs (.un .cos (.sym x)) e)

theorem balB_sound {us : List String} {ang : String → Bool} {e : Expr} (h : balB us ang e = true) : Balanced us ang e := by
  intro x hx ha hh
  have := List.all_eq_true.1 h x hx
  simpa [ha, hh] using this

def goodB (us : List String) (ang : String → Bool) (ms : List MEqn) (aux : List KEqn) : Bool :=
  !us.contains "pi" && !ms.isEmpty && (ms.all fun m => m.kequationList.all fun e => sepB ang e.lhs && sepB ang e.rhs) &&
  (ms.all fun m => (List.finRange 3).all fun i => (List.finRange 4).all fun j => balB us ang (m.td i j)) &&
  aux.all fun e => sepB ang e.lhs && sepB ang e.rhs && balB us ang e.lhs

theorem goodB_sound {us : List String} {ang : String → Bool} {ms : List MEqn} {aux : List KEqn} (h : goodB us ang ms aux = true) :
    GoodInput us ang ms aux := by
  simp only [goodB, Bool.and_eq_true, List.all_eq_true, Bool.not_eq_true', List.contains_eq_mem, decide_eq_false_iff_not, List.isEmpty_eq_false_iff] at h
  obtain ⟨⟨⟨⟨h1, h2⟩, h3⟩, h4⟩, h5⟩ := h
  exact ⟨h1, h2, fun m hm e he => ⟨sepB_sound (h3 m hm e he).1, sepB_sound (h3 m hm e he).2⟩,
    fun m hm i j => balB_sound (h4 m hm i (List.mem_finRange i) j (List.mem_finRange j)),
    fun e he => ⟨sepB_sound (h5 e he).1.1, sepB_sound (h5 e he).1.2, balB_sound (h5 e he).2⟩⟩

/-! ## Runs -/

deriving instance DecidableEq for Crash

/-- the exception of a run -/
def crash (r : Except Crash (Status × LS)) : Option Crash := match r with | .error c => some c | .ok _ => none

theorem crash_some {r : Except Crash (Status × LS)} {c : Crash} (h : crash r = some c) : r = .error c := by
  cases r with
  | ok _ => cases h
  | error c' => cases h; rfl

/-- sin(x) and cos(x) of a symbol -/
def trig (f : Fn1) (x : String) : Expr := .un f (.sym x)

/-- Px = l sin(x), Py = l cos(x), Pz = y + z -/
def goodM (x y z : String) : MEqn := matOf fun i j =>
  if i = 0 ∧ j = 3 then (.sym "Px", .bin .mul (.sym "l") (trig .sin x)) else if i = 1 ∧ j = 3 then (.sym "Py", .bin .mul (.sym "l") (trig .cos x))
  else if i = 2 ∧ j = 3 then (.sym "Pz", .bin .add (.sym y) (.sym z)) else if i = 2 ∧ j = 2 then (.sym "w", .bin .mul (trig .sin x) (.sym y)) else (.num 0, .num 0)

/-- Non-vacuity of C76_length_first_partial: a length is the first unknown, two lengths and an angle are solved. -/
example : TameOn (· == "th_1") toyT ∧ GoodInput ["d", "th_1", "y"] (· == "th_1") [zeroM, goodM "th_1" "y" "d"] [] ∧
    ("d" == "th_1") = false ∧ ∃ s, solve toyT ["d", "th_1", "y"] [zeroM, goodM "th_1" "y" "d"] [] = .ok (.success, s) ∧ s.w.nodes = ["th_1", "y", "d"] := by
  have h : glance "d" (solve toyT ["d", "th_1", "y"] [zeroM, goodM "th_1" "y" "d"] []) = some (.success, ["th_1", "y", "d"], false, 0) := by
    decide +kernel
  obtain ⟨s, h1, h2, _⟩ := glance_ok h
  exact ⟨toyT_tame _, goodB_sound (by decide +kernel), by decide, s, h1, h2⟩

/-- Px = sqrt(y) sin(x), Py = sqrt(y) cos(x), Pz = sin(x) -/
def reworkM : MEqn := matOf fun i j =>
  if i = 0 ∧ j = 3 then (.sym "Px", .bin .mul (.un .sqrt (.sym "y")) (trig .sin "x"))
  else if i = 1 ∧ j = 3 then (.sym "Py", .bin .mul (.un .sqrt (.sym "y")) (trig .cos "x"))
  else if i = 2 ∧ j = 3 then (.sym "Pz", trig .sin "x") else (.num 0, .num 0)

/-- C76 is false of the code, also where its leaves have declined everything they cannot use: x is solved from Pz = sin(x), and is solved
again in the next attempt, from Px and Py, where y is not known yet. rank_leaf.py keeps the two solutions it chose among, `set_solved`
meets the unsolved y and asserts. The equations are separated, so this is the exception named in C76_abort_partial. -/
theorem C76_rework_violation : TameOn (· == "x") toyT ∧ GoodInput ["x", "y"] (· == "x") [zeroM, reworkM] [] ∧
    solve toyT ["x", "y"] [zeroM, reworkM] [] = .error (.leaf 1) :=
  ⟨toyT_tame _, goodB_sound (by decide +kernel), crash_some (by decide +kernel)⟩

/-- Px = sin(x) + x -/
def bareM : MEqn := matOf fun i j => if i = 0 ∧ j = 3 then (.sym "Px", .bin .add (trig .sin "x") (.sym "x")) else (.num 0, .num 0)
/-- sin(x) = l, with the sine on the left -/
def leftM : MEqn := matOf fun i j => if i = 0 ∧ j = 3 then (trig .sin "x", .sym "l") else (.num 0, .num 0)
/-- Px = sin(x + y) -/
def sumM : MEqn := matOf fun i j => if i = 0 ∧ j = 3 then (.sym "Px", .un .sin (.bin .add (.sym "x") (.sym "y"))) else (.num 0, .num 0)

/-- C76 is false of the code: an equation in which the unknown occurs inside and outside the sine passes sincos_id, and the solver leaf does not
decline it but asserts that its own solution does not contain the unknown (sincos_solver.py:~215). -/
theorem C76_bare_violation : solve toyE ["x"] [bareM] [] = .error (.leaf 1) := crash_some (by decide +kernel)

/-- C76 is false of the code: the identification leaf looks at both sides of an equation, the solver leaf at the right side only. -/
theorem C76_left_violation : solve toyE ["x"] [leftM] [] = .error (.leaf 1) := crash_some (by decide +kernel)

/-- is the sine or cosine of a sum -/
def hasSum : Expr → Bool
  | .un .sin (.bin .add _ _) => true
  | .un .cos (.bin .add _ _) => true
  | .un _ a => hasSum a
  | .bin _ a b => hasSum a || hasSum b
  | _ => false

/-- C76 is false of the code: a sum of angles that sum_id.py finds ends the run with a NameError. -/
theorem C76_sum_violation : solve { toyE with sumFound := hasSum } ["x", "y"] [zeroM, sumM] [] = .error (.leaf 4) :=
  crash_some (by decide +kernel)

/-- Non-vacuity of C76_exceptions: both exceptions occur. -/
example : ["x"] ≠ [] ∧ solve toyE ["x"] [bareM] [] = .error (.leaf 1) ∧
    solve { toyE with sumFound := hasSum } ["x", "y"] [zeroM, sumM] [] = .error (.leaf 4) :=
  ⟨by decide, C76_bare_violation, C76_sum_violation⟩

/-- Non-vacuity of C76_abort_partial: the exception occurs. -/
example : Crash.leaf 1 = .leaf 1 ∧ ∃ L, scanForEquations toyT.toCAS [zeroM, reworkM] [] (["x", "y"].map fun n => ⟨n, false⟩) = .ok L ∧
    Reworked toyT (init ["x", "y"] [zeroM, reworkM] [] L) (.leaf 1) :=
  C76_abort_partial C76_rework_violation.1 C76_rework_violation.2.1 (by decide) C76_rework_violation.2.2

/-! ## Equations that cannot be decomposed -/

/-- **C76.** tan_id declines, and changes nothing, if no equation of the two lists can be written as `A*sin(u) + B`, or none as `C*cos(u) + D`
(A to D without sin(u), cos(u)). (The case KawasakiRS007L, tan_solver.py:480-537.) -/
theorem C76_tan_id_declines (P : Sympy) (s : LS) (ht : (s.ld s.curr).solvableTan = false)
    (h : ∀ e1 ∈ s.lists.l1 ++ s.lists.l2, ∀ e2 ∈ s.lists.l1 ++ s.lists.l2,
      P.lin (P.collectSC s.curr (P.sub e1.rhs e1.lhs)) (trig .sin s.curr) [trig .sin s.curr, trig .cos s.curr] = none ∨
      P.lin (P.collectSC s.curr (P.sub e2.rhs e2.lhs)) (trig .cos s.curr) [trig .sin s.curr, trig .cos s.curr] = none) :
    tanId P s = .ok (.failure, s) := by
  have hn : tanFind P s.vars s.curr (tanCands P s.curr (s.lists.l1 ++ s.lists.l2)).1 (tanCands P s.curr (s.lists.l1 ++ s.lists.l2)).2 = none := by
    simp only [tanFind, List.findSome?_eq_none_iff, tanCands, List.mem_filter]
    rintro e1 ⟨h1, _⟩ e2 ⟨h2, _⟩
    unfold tanPair
    dsimp only
    rcases h e1 h1 e2 h2 with h | h
    · simp only [trig] at h; simp only [sinU, cosU, h]
    · simp only [trig] at h
      simp only [sinU, cosU, h]
      cases P.lin (P.collectSC s.curr (P.sub e1.rhs e1.lhs)) (.un .sin (.sym s.curr)) [.un .sin (.sym s.curr), .un .cos (.sym s.curr)] <;> rfl
  unfold tanId
  simp only [ht, hn]
  split <;> simp [ht]

/-- **C76.** tan_solve, given a pair of equations that cannot be decomposed, declines and changes nothing (tan_solver.py:443-478). -/
theorem C76_tan_solve_declines (P : Sympy) (s : LS) (e1 e2 : KEqn) (h1 : (s.ld s.curr).eqn = some e1) (h2 : (s.ld s.curr).second = some e2)
    (h : P.lin e1.rhs (trig .sin s.curr) [trig .sin s.curr, trig .cos s.curr] = none ∨
      P.lin e2.rhs (trig .cos s.curr) [trig .sin s.curr, trig .cos s.curr] = none) :
    tanSolve P s = .ok (.failure, s) := by
  unfold tanSolve
  simp only [h1, h2]
  split
  swap
  · rfl
  rcases h with h | h
  · simp only [trig] at h; simp only [sinU, cosU, h]
  · simp only [trig] at h
    simp only [sinU, cosU, h]
    cases P.lin e1.rhs (.un .sin (.sym s.curr)) [.un .sin (.sym s.curr), .un .cos (.sym s.curr)] <;> rfl

/-- **C76.** sincos_solve, given an equation that it can write neither as `A*sin(u) + B` nor as `A*cos(u) + B`, declines and changes nothing
(sincos_solver.py:377-415). -/
theorem C76_sincos_declines (P : Sympy) (s : LS) (e : KEqn) (he : (s.ld s.curr).eqn = some e)
    (h1 : P.lin (P.collectSC s.curr e.rhs) (trig .sin s.curr) [trig .sin s.curr, trig .cos s.curr] = none)
    (h2 : P.lin (P.collectSC s.curr e.rhs) (trig .cos s.curr) [trig .sin s.curr, trig .cos s.curr] = none) :
    sincosSolve P s = .ok (.failure, s) := by
  simp only [trig] at h1 h2
  unfold sincosSolve
  simp only [he, sinU, cosU, h1, h2]
  split
  · split
    · rfl
    · split <;> rfl
  · rfl

/-- sin(x)² - l, as in the test of the repository -/
def squareE : Expr := .bin .add (.bin .mul (trig .sin "x") (trig .sin "x")) (.un .neg (.sym "l"))
/-- an unknown with the equation 0 = sin(x)² - l, as second equation 0 = m cos(x) - 1 -/
def squareS : LS := ({ (init ["x"] [] [] { l1 := [⟨.num 0, squareE⟩] }) with curr := "x" } : LS).updLd "x" fun d =>
  { d with eqn := some ⟨.num 0, squareE⟩, second := some ⟨.num 0, .bin .add (.bin .mul (.sym "m") (trig .cos "x")) (.un .neg (.num 1))⟩,
           method := [.arcsin], solvableSc := true }

/-- Non-vacuity of C76_tan_id_declines, C76_tan_solve_declines, C76_sincos_declines. -/
example : (squareS.ld squareS.curr).solvableTan = false ∧
    (∀ e1 ∈ squareS.lists.l1 ++ squareS.lists.l2, ∀ e2 ∈ squareS.lists.l1 ++ squareS.lists.l2,
      toyT.lin (toyT.collectSC squareS.curr (toyT.sub e1.rhs e1.lhs)) (trig .sin squareS.curr) [trig .sin squareS.curr, trig .cos squareS.curr] = none ∨
      toyT.lin (toyT.collectSC squareS.curr (toyT.sub e2.rhs e2.lhs)) (trig .cos squareS.curr) [trig .sin squareS.curr, trig .cos squareS.curr] = none) ∧
    (squareS.ld squareS.curr).second.isSome ∧
    toyT.lin squareE (trig .sin squareS.curr) [trig .sin squareS.curr, trig .cos squareS.curr] = none ∧
    toyT.lin (toyT.collectSC squareS.curr squareE) (trig .sin squareS.curr) [trig .sin squareS.curr, trig .cos squareS.curr] = none ∧
    toyT.lin (toyT.collectSC squareS.curr squareE) (trig .cos squareS.curr) [trig .sin squareS.curr, trig .cos squareS.curr] = none := by
  decide +kernel

end Verif.Solver
