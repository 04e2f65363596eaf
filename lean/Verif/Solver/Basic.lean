import Verif.Solver.Model
import Verif.BT.Props
import Verif.Leaf.Transform
/-! The tree of ikSolver.py as a composition of leaf functions. -/
namespace Verif.Solver
open Verif.Leaf Verif.Eqn Verif.Sol Verif.Sym
open Verif.BT hiding Tree

/-- A leaf result is SUCCESS or FAILURE. -/
def Two (o : Out) : Prop := ∀ st s, o = .ok (st, s) → st = .success ∨ st = .failure

theorem two_ok_s (s : LS) : Two (.ok (.success, s)) := by intro st s' h; cases h; exact .inl rfl
theorem two_ok_f (s : LS) : Two (.ok (.failure, s)) := by intro st s' h; cases h; exact .inr rfl
theorem two_err (c : Nat) : Two (.error c) := by intro st s' h; cases h
theorem act_two (P : Sympy) (l : LeafName) (s : LS) : Two (act P l s) := by
  cases l <;> simp only [act]
  all_goals first
    | unfold assigner | unfold rankLeaf | unfold tanId | unfold tanSolve | unfold algebraId | unfold algebraSolve
    | unfold sincosId | unfold sincosSolve | unfold sacId | unfold sacSolve | unfold x2z2 | unfold simuId | unfold simuSolve
    | unfold subTransform | unfold sumId | unfold updateLeaf | unfold compDetect
  all_goals try dsimp only [sincosRecord]
  all_goals try simp only [Bool.false_eq_true, if_false, gt_iff_lt]
  all_goals repeat' split
  all_goals first | exact two_ok_s _ | exact two_ok_f _ | exact two_err _

theorem env_noRunning (P : Sympy) : (env P).NoRunning := by
  intro a u s u' h
  rcases act_two P a u s u' h with h | h <;> rw [h] <;> simp

theorem topnode_acyclic : topnode.Acyclic := by
  simp [topnode, solveRoutine, subtree, attempt, worktools, scTan, simuSol, sacSol, scSol, algSol, tanSol, sq, lf,
    BT.Tree.Acyclic, AcyclicList, BT.Tree.ids, idsList]

theorem topnode_bounded : topnode.Bounded := by
  simp [topnode, solveRoutine, subtree, attempt, worktools, scTan, simuSol, sacSol, scSol, algSol, tanSol, sq, lf,
    BT.Tree.Bounded, BoundedList, DKind.Bounded]

/-- The result of the tree as seen from outside. -/
theorem solve_eq (P : Sympy) (us : List String) (ms : List MEqn) (aux : List KEqn) (k : Nat) :
    solve P us ms aux k = match scanForEquations P.toCAS ms aux (us.map fun n => ⟨n, false⟩) with
      | .error _ => .error (.leaf 1)
      | .ok L => den (env P) 0 topnode { w := Sol.start us, lists := L, ms := ms, aux := aux, counter := k } := by
  unfold solve
  cases scanForEquations P.toCAS ms aux (us.map fun n => ⟨n, false⟩) with
  | error e => rfl
  | ok L =>
    dsimp only
    have := exec_obs (env_noRunning P) 0 topnode topnode_acyclic
      { user := { w := Sol.start us, lists := L, ms := ms, aux := aux, counter := k } } (fun j _ => rfl)
    rw [← this]
    unfold treeTick
    show _ = obs (exec (env P) 0 topnode _)
    cases exec (env P) 0 topnode { user := { w := Sol.start us, lists := L, ms := ms, aux := aux, counter := k } } with
    | error c => rfl
    | ok r => rfl

section
variable {σ L : Type}

theorem denLeaf_ok {E : Env σ L} {fuel : Nat} {i : Nat} {a : L} {u : σ} {r} :
    den E fuel (.leaf i a) u = .ok r ↔ E.act a u = .ok r := by
  simp only [den]
  cases E.act a u <;> simp

theorem denSeq_cons {f : σ → DRes σ} {fs : List (σ → DRes σ)} {u u' : σ} {s : Status}
    (h : denSeq (f :: fs) u = .ok (s, u')) :
    (f u = .ok (s, u') ∧ s ≠ .success) ∨ ∃ u1, f u = .ok (.success, u1) ∧ denSeq fs u1 = .ok (s, u') := by
  simp only [denSeq] at h
  split at h
  · cases h
  · next s1 u1 hf =>
    split at h
    · next hs => subst hs; exact .inr ⟨u1, hf, h⟩
    · next hs => cases h; exact .inl ⟨hf, hs⟩

theorem denPri_cons {f : σ → DRes σ} {fs : List (σ → DRes σ)} {u u' : σ} {s : Status}
    (h : denPri (f :: fs) u = .ok (s, u')) :
    (f u = .ok (s, u') ∧ s ≠ .failure) ∨ ∃ u1, f u = .ok (.failure, u1) ∧ denPri fs u1 = .ok (s, u') := by
  simp only [denPri] at h
  split at h
  · cases h
  · next s1 u1 hf =>
    split at h
    · next hs => subst hs; exact .inr ⟨u1, hf, h⟩
    · next hs => cases h; exact .inl ⟨hf, hs⟩

/-- The iterations of a bounded until-success loop: `n` failing runs of the child and one more, which succeeded or is the
last one allowed. -/
inductive Runs (f : σ → DRes σ) : σ → List σ → σ → Prop where
  | nil {u} : Runs f u [] u
  | cons {u u1 l u'} : f u = .ok (.failure, u1) → Runs f u1 l u' → Runs f u (u :: l) u'

theorem denLoop_until {f : σ → DRes σ} {m : Int} (hm : 0 ≤ m) : ∀ {n : Nat} {last : Option Status} {i : Int} {u u' : σ} {s : Option Status},
    0 ≤ i → n = (m - i).toNat → denLoop (fun s => s = .failure) m f n last i u = .ok (s, u') →
    (n = 0 ∧ s = last ∧ u' = u) ∨ ∃ (l : List σ) (u1 : σ) (s1 : Status), s = some s1 ∧ Runs f u l u1 ∧ f u1 = .ok (s1, u') ∧
      l.length < n ∧ (s1 = .failure → l.length + 1 = n)
  | 0, last, i, u, u', s, hi, hn, h => by
    unfold denLoop at h
    rw [if_neg (by omega)] at h
    cases h
    exact .inl ⟨rfl, rfl, rfl⟩
  | n + 1, last, i, u, u', s, hi, hn, h => by
    unfold denLoop at h
    rw [if_pos (by omega)] at h
    dsimp only at h
    split at h
    · cases h
    · next s1 u1 hf =>
      right
      split at h
      · next hc =>
        have hc : s1 = .failure := by simpa using hc
        subst hc
        rcases denLoop_until hm (by omega) (by omega) h with ⟨h1, h2, h3⟩ | ⟨l, u2, s2, h1, h2, h3, h4, h5⟩
        · subst h3
          exact ⟨[], u, .failure, h2, .nil, hf, by simp, by simp [h1]⟩
        · exact ⟨u :: l, u2, s2, h1, .cons hf h2, h3, by simp; omega, fun h => by simp [← h5 h]⟩
      · next hc =>
        cases h
        exact ⟨[], u, s1, rfl, .nil, hf, by simp, fun h => absurd h (by simpa using hc)⟩

theorem denUntil {E : Env σ L} {fuel : Nat} {f : σ → DRes σ} {m : Int} {u u' : σ} {s : Status}
    (h : denDeco E fuel (.untilSuccess m) f u = .ok (s, u')) (hm : 0 ≤ m) :
    ∃ (l : List σ) (u1 : σ), Runs f u l u1 ∧ f u1 = .ok (s, u') ∧ l.length < m.toNat ∧
      (s = .failure → l.length + 1 = m.toNat) := by
  simp only [denDeco, denRepeat, loopFuel] at h
  rw [if_neg (by omega)] at h
  split at h
  · cases h
  · cases h
  · next s1 u1 hd =>
    cases h
    rcases denLoop_until hm (le_refl _) (by omega) hd with ⟨_, h2, _⟩ | ⟨l, u2, s2, h1, h2, h3, h4, h5⟩
    · cases h2
    · cases h1
      exact ⟨l, u2, h2, h3, by omega, fun h => by have := h5 h; omega⟩

/-- What every failing run of the body keeps, the loop keeps. -/
theorem Runs.inv {f : σ → DRes σ} {I : σ → Prop} (hI : ∀ u u', I u → f u = .ok (.failure, u') → I u') {u u' : σ} {l : List σ}
    (h : Runs f u l u') : I u → I u' := by
  induction h with
  | nil => exact id
  | cons hf _ ih => exact fun hu => ih (hI _ _ hu hf)
end

end Verif.Solver
