import Verif.Solver.EndToEnd
/-!
# Every solved unknown has a solution method (used in C62)

The report and the generators read `solvemethod` as it was when `set_solved` was called (solutionGraphV3.py:35). The leaves call `set_solved`
last, so it is the text at the end of that leaf.
-/
namespace Verif.Solver
open Verif.Sol Verif.Leaf Verif.Sym Verif.Eqn
open Verif.BT hiding Tree

/-- An unknown whose method is still empty has not been touched by any leaf that identifies or solves. -/
def Named (s : LS) : Prop := ∀ x, (s.ld x).method = [] →
  (s.ld x).eqn = none ∧ (s.ld x).solvableTan = false ∧ (s.ld x).scSols = [] ∧ (s.ld x).tanSols = [] ∧ x ∉ s.w.nodes

theorem Named.one {s s' : LS} (h : Named s) (x : String) (ho : ∀ n, n ≠ x → s'.ld n = s.ld n) (hn : ∀ n, n ≠ x → (n ∈ s'.w.nodes → n ∈ s.w.nodes))
    (hm : (s'.ld x).method ≠ []) : Named s' := by
  intro n he
  by_cases hx : n = x
  · subst hx; exact absurd he hm
  · rw [ho n hx] at he ⊢
    obtain ⟨h1, h2, h3, h4, h5⟩ := h n he
    exact ⟨h1, h2, h3, h4, fun hm => h5 (hn n hx hm)⟩

theorem solved_nodes {s s' : LS} {x : String} (h : s.setSolved x = .ok s') : ∀ n, n ≠ x → (n ∈ s'.w.nodes → n ∈ s.w.nodes) := by
  intro n hn hm
  rw [(LS.setSolved_ok h).1.nodes] at hm
  simpa [hn] using hm

theorem Named.updLd {s : LS} (h : Named s) (f : LeafData → LeafData) (hf : ∀ d, (f d).method ≠ []) : Named (s.updLd s.curr f) :=
  h.one s.curr (fun _ hn => updLd_other _ _ _ hn) (fun _ _ => id) (by rw [updLd_same]; exact hf _)

theorem Named.set {s s1 s' : LS} {x : String} (h : Named s) (ho : ∀ n, n ≠ x → s1.ld n = s.ld n) (hm : (s1.ld x).method ≠ [])
    (hw : s1.w.nodes = s.w.nodes) (h1 : s1.setSolved x = .ok s') : Named s' := by
  have hl := (LS.setSolved_ok h1).2.2.2.2.2.2.2
  refine h.one x (fun n hn => ?_) (fun n hn hm => ?_) ?_
  · rw [hl]; dsimp only; rw [if_neg hn]; exact ho n hn
  · have := solved_nodes h1 n hn hm; rw [hw] at this; exact this
  · rw [hl]; dsimp only; rw [if_pos rfl]; exact hm

theorem Named.ext {own : Bool} {new : List Expr} {es : List KEqn} {g : List Expr} {s s' : LS} (h : Named s) (hE : Ext own new es g s s')
    (hm : (s.ld s.curr).method ≠ []) : Named s' := by
  refine h.one s.curr hE.other (fun n _ hm => ?_) ?_
  · have := hE.only.frame
    rw [this.2.2.1] at hm
    exact hm
  · have : (s'.ld s.curr).method = (s.ld s.curr).method := congrArg (fun p => p.2.2.1) hE.fields
    rw [this]; exact hm

theorem Named.eqn {s : LS} (h : Named s) {x : String} {e : KEqn} (he : (s.ld x).eqn = some e) : (s.ld x).method ≠ [] := by
  intro hm
  rw [(h x hm).1] at he; cases he

theorem pushSol_method (s : LS) (x : String) (e : Expr) (n : String) : ((s.pushSol x e).ld n).method = (s.ld n).method := by
  unfold LS.pushSol; dsimp only
  split
  · rfl
  all_goals
    by_cases hn : n = x
    · subst hn; rw [updLd_same]; rfl
    · rw [updLd_other _ _ _ hn]; rfl

theorem act_named (P : Sympy) (l : LeafName) (s : LS) (st : Status) (s' : LS) (h : act P l s = .ok (st, s')) (hN : Named s) : Named s' := by
  cases l <;> simp only [act] at h
  case asgn => obtain ⟨-, c, x, hx, rfl, -⟩ := assigner_cases h; exact hN
  case rank =>
    obtain ⟨-, hr⟩ := rank_cases h
    cases hr with
    | none => exact hN
    | one h0 h =>
      refine hN.set (fun _ _ => rfl) ?_ rfl h
      intro hm
      obtain ⟨_, _, h3, h4, _⟩ := hN _ hm
      exact h0.1 h3 h4
    | chosen b sec tags h1 _ _ _ _ h =>
      refine hN.set (x := s.curr) (s1 := (s.updU s.curr _).updLd s.curr _) (fun n hn => ?_) ?_ rfl h
      · rw [updLd_other _ _ _ hn, updU_ld]
      rw [updLd_same, updU_ld]
      intro hm
      have := hN s.curr (List.append_eq_nil_iff.1 hm).1
      rw [this.2.2.1] at h1; cases h1
  case tanID =>
    rcases tanId_cases h with ⟨-, rfl, -⟩ | ⟨-, rfl, -⟩ | ⟨-, _, _, es, _, ec, _, a, b, _, rfl⟩
    · exact hN
    · exact hN
    · exact hN.updLd _ fun d => by simp
  case tanSolver =>
    rcases tanSolve_cases h with ⟨-, rfl, -⟩ | ⟨-, _, e1, e2, A, B, C, D, one, he, _, _, _, hE⟩
    · exact hN
    · exact hN.ext hE (hN.eqn he)
  case algID =>
    rcases act_two P .algID s st s' h with rfl | rfl
    · obtain ⟨_, tmp, _, rfl⟩ := algebraId_ok h; exact hN.updLd _ fun d => by simp
    · rw [algebraId_fail h]; exact hN
  case algSolver =>
    unfold algebraSolve at h
    dsimp only at h
    split at h
    swap
    · cases h; exact hN
    next hc =>
    have hm : (s.ld s.curr).method ≠ [] := by
      intro hm; rw [hm] at hc; simp at hc
    repeat' split at h
    all_goals first | (cases h; done) | (cases h; exact hN) | skip
    next h1 =>
    cases h
    refine hN.set (fun n hn => ?_) ?_ ?_ h1
    · simp [hn, pushSol_other _ _ _ hn]
    · simpa [pushSol_method] using hm
    · simp
  case scID =>
    rcases sincosId_cases h with ⟨_, rfl⟩ | ⟨_, _, _, e, t, _, rfl⟩
    · exact hN
    · exact hN.updLd _ fun d => by simp
  case scSolver =>
    rcases sincosSolve_cases h with ⟨-, rfl⟩ | ⟨-, e, A, B, sine, he, _, _, _, hE⟩
    · exact hN
    · exact hN.ext hE (hN.eqn he)
  case sacID =>
    rcases sacId_cases h with ⟨_, rfl⟩ | ⟨_, _, es, _, rfl⟩
    · exact hN
    · exact hN.updLd _ fun d => by simp
  case sacSolver =>
    unfold sacSolve at h
    dsimp only at h
    split at h
    swap
    · cases h; exact hN
    next hc =>
    have hm : (s.ld s.curr).method ≠ [] := by
      intro hm; rw [hm] at hc; simp at hc
    split at h
    · cases h
    split at h
    · cases h
    split at h
    · cases h
    next h1 =>
    cases h
    refine hN.set (fun n hn => ?_) ?_ ?_ h1
    · simp [hn, pushSol_other _ _ _ hn]
    · simpa [pushSol_method] using hm
    · simp
  case x2z2 =>
    unfold x2z2 at h
    split at h
    swap
    · cases h; exact hN
    split at h
    · cases h; exact hN
    next e he =>
    split at h
    · cases h; exact hN
    next v hv =>
    cases h
    refine Named.one (s := s) hN v.name (fun n hn => by rw [updLd_other _ _ _ hn]) (fun _ _ => id) ?_
    rw [updLd_same]; simp
  case simuID =>
    rcases simuId_cases h with ⟨_, rfl⟩ | ⟨_, _, a, b, _, rfl⟩
    · exact hN
    · exact hN.updLd _ fun d => by simp
  case simuSolver =>
    rcases simuSolve_cases h with ⟨_, rfl⟩ | ⟨_, e1, e2, he, _, hs, _, hld⟩
    · exact hN
    · refine hN.one s.curr hs.other (fun n hn hm => ?_) ?_
      · have := (Sol.setSolved_ok hs.w).nodes
        rw [this] at hm
        simpa [hn, setSolutions] using hm
      · rw [hld]; exact hN.eqn he
  case subTrans =>
    obtain ⟨-, h1, h2, -⟩ := subTransform_cases h
    intro x hx
    rw [h2] at hx ⊢
    rw [h1]
    exact hN x hx
  case sumID => rw [(sumId_cases h).2]; exact hN
  case updateL => obtain ⟨-, L, _, rfl⟩ := updateLeaf_cases h; exact hN
  case compDetect => rw [compDetect_eq] at h; cases h; exact hN

theorem init_named (us : List String) (ms : List MEqn) (aux : List KEqn) (L : Lists) : Named (init us ms aux L) :=
  fun x _ => ⟨rfl, rfl, rfl, rfl, by simp [init, Sol.start]⟩

/-- **C62.** Whatever sympy answers: at the end of every run, every solved unknown has a non-empty solution method, so the report does not
skip it (output_latex.py:188, 226). -/
theorem C62_solved_has_method {P : Sympy} {us : List String} {ms : List MEqn} {aux : List KEqn} {st : Status} {s : LS}
    {counter : Nat} (h : solve P us ms aux counter = .ok (st, s)) : ∀ x ∈ s.w.nodes, (s.ld x).method ≠ [] := by
  rw [solve_eq] at h
  split at h
  · cases h
  · have := den_rel (R := fun a b => Named a → Named b) (fun _ => id) (fun _ _ _ f g a => g (f a))
      (fun l u s u' h => act_named P l u s u' h) (fun _ => id) _ _ _ _ h (init_named us ms aux ⟨[], [], []⟩)
    intro x hx hm
    exact (this x hm).2.2.2.2 hx

/-- a run in which all unknowns are solved -/
example : ∃ st s, demoTwo = .ok (st, s) ∧ s.w.nodes = ["th_1", "d_2"] := by
  have hv : demoTwo.toOption.map (fun r => r.2.w.nodes) = some ["th_1", "d_2"] := by decide +kernel
  cases hd : demoTwo with
  | error c => rw [hd] at hv; cases hv
  | ok p =>
    rw [hd] at hv
    exact ⟨p.1, p.2, rfl, by simpa using Option.some.inj hv⟩

end Verif.Solver
