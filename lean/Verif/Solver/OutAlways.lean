import Verif.Solver.CppSize
import Verif.Out.CppUndeclared
import Verif.Out.Packed
/-!
# C47, C52, C65 for the solver: what is wrong with the programs of every run
-/
namespace Verif.Solver
open Verif.Sol Verif.Leaf Verif.Sym Verif.Eqn Verif.Out
open Verif.BT hiding Tree

/-- After a run that solved something, in which no unknown was solved twice or refers to itself, the table of solutions has a
well-formed input. -/
theorem solve_tableInput {P : Sympy} {us : List String} {ms : List MEqn} {aux : List KEqn} {st : Status} {s : LS}
    {counter : Nat} (h : solve P us ms aux counter = .ok (st, s)) (hn : s.w.nodes.Nodup) (hf : SelfFree s.w) {x : String} {xs : List String}
    (hx : s.w.nodes = x :: xs) :
    ∃ u vs, tableInput s.w = u :: vs ∧ u.name = x ∧ vs.map (·.name) = xs ∧ TableInput u vs ∧
      ∀ v ∈ u :: vs, v.versionNames ≠ [] ∧ ∀ e ∈ v.versionNames, e.unk = v.name := by
  obtain ⟨h1, _⟩ := solve_calls h hn
  have hfr := callsOf_fresh hn hf
  have hnames := tableInput_names hfr h1
  rcases hcs : callsOf s.w with _ | ⟨⟨y, t⟩, cs⟩
  · rw [callsOf, List.map_eq_nil_iff, hx] at hcs; cases hcs
  rw [hcs] at h1 hfr
  obtain ⟨u, vs, h2, h3, _⟩ := tableInput_ok hfr h1
  have hm : (tableInput s.w).map (·.name) = s.w.nodes := by rw [tableInput, List.map_map]; simp [Function.comp_def]
  rw [h2, hx, List.map_cons, List.cons.injEq] at hm
  exact ⟨u, vs, h2, hm.1, hm.2, h3, by rw [← h2]; exact hnames⟩

/-- **C52 violated, for every run.** After every run of the solver that solved something (no unknown twice, none from itself), whatever the pose,
the values of the parameters and the order of the solution set: the generated Python function raises an exception. -/
theorem C52_solver_violation {V : Type} (ev : PyEval V) {P : Sympy} {us : List String} {ms : List MEqn} {aux : List KEqn} {st : Status} {s : LS}
    {counter : Nat} (h : solve P us ms aux counter = .ok (st, s)) (hn : s.w.nodes.Nodup) (hf : SelfFree s.w) (hne : s.w.nodes ≠ [])
    (inputs : Text → Option V) (hinp : ∀ x ∈ s.w.nodes, ∀ k, inputs (VName.s x k).render.toList = none)
    (str : Expr → Text) (t : List (List FEqn)) (ht : makeLHSVersions (tableInput s.w) (createSolutionSet (tableInput s.w)) = .ok t)
    (gn : List GNode) (groups : List (List Text)) (hg : IsGroups (tableInput s.w) groups)
    (ops : List PyOp) (hops : pyCode gn (textMat str t) groups = some ops) :
    ∀ r, pyCall ev inputs ops ≠ .ok r := by
  rcases hx : s.w.nodes with _ | ⟨x, xs⟩
  · exact absurd hx hne
  obtain ⟨u, vs, h1, h2, _, h3, _⟩ := solve_tableInput h hn hf hx
  rw [h1] at ht hg
  exact C52_always_raises_violation ev inputs str u vs h3 (fun k => by rw [h2]; exact hinp x (by rw [hx]; simp) k) t ht gn groups hg ops hops

/-- **C47 violated, for every run.** After every run that solved something (no unknown twice, none from itself), each of the solutions
that the generated C++ program writes to its list contains a variable that the program never assigns. -/
theorem C47_solver_violation {P : Sympy} {us : List String} {ms : List MEqn} {aux : List KEqn} {st : Status} {s : LS}
    {counter : Nat} (h : solve P us ms aux counter = .ok (st, s)) (hn : s.w.nodes.Nodup) (hf : SelfFree s.w) (hne : s.w.nodes ≠ [])
    (str : Expr → Text) (t : List (List FEqn)) (ht : makeLHSVersions (tableInput s.w) (createSolutionSet (tableInput s.w)) = .ok t)
    (gn : List GNode) (groups : List (List Text)) (hg : IsGroups (tableInput s.w) groups)
    (ops : List Op) (hops : cppCode gn (textMat str t) groups = some ops) (i : Nat) (hi : i < groups.length) :
    ∃ j x, ("solution_list[".toList ++ natText i ++ "][".toList ++ natText j ++ "]".toList, x) ∈ asgns ops ∧
      x ∈ groups[i] ∧ x ∉ (asgns ops).map (·.1) := by
  rcases hx : s.w.nodes with _ | ⟨x, xs⟩
  · exact absurd hx hne
  obtain ⟨u, vs, h1, h2, _, h3, _⟩ := solve_tableInput h hn hf hx
  rw [h1] at ht hg
  obtain ⟨r, hr, hre⟩ := (hg _).1 (List.getElem_mem hi)
  obtain ⟨k, hk⟩ := C47_first_unknown_used u vs h3 r hr
  have hmem : (VName.s u.name k).render.toList ∈ groups[i] := by
    rw [hre]; exact List.mem_map.2 ⟨_, List.mem_of_mem_head? hk, rfl⟩
  obtain ⟨front, sorted, hs, hp⟩ := C47_cpp_packed gn _ groups ops hops
  have hil : i < sorted.length := by rw [← hs.length_eq]; exact hi
  have hperm : Ascending groups[i] sorted[i] := by
    have := hs.get hi hil
    simpa using this
  have hms : (VName.s u.name k).render.toList ∈ sorted[i] := hperm.1.symm.mem_iff.1 hmem
  obtain ⟨j, hj⟩ := List.getElem?_of_mem hms
  refine ⟨j, _, ?_, hmem, C47_first_unknown_violation str u vs t ht gn groups ops hops k⟩
  rw [hp]
  refine List.mem_append_right _ (List.mem_flatMap.2 ⟨(sorted[i], i), ?_, ?_⟩)
  · rw [List.mem_zipIdx_iff_getElem?]; simp [hil]
  · refine List.mem_map.2 ⟨((VName.s u.name k).render.toList, j), ?_, rfl⟩
    rw [List.mem_zipIdx_iff_getElem?]; exact hj

/-- **C65 violated, for every run.** After every run that solved something (no unknown twice, none from itself, each by a method of which the
generator knows exactly one case), the C++ function assigns variables that it does not declare: a compiler rejects it. -/
theorem C65_solver_violation {P : Sympy} {us : List String} {ms : List MEqn} {aux : List KEqn} {st : Status} {s : LS}
    {counter : Nat} (h : solve P us ms aux counter = .ok (st, s)) (hn : s.w.nodes.Nodup) (hf : SelfFree s.w) (hne : s.w.nodes ≠ [])
    (hid : ∀ x ∈ s.w.nodes, ∀ c ∈ x.toList, isW c = true) (hcase : ∀ x ∈ s.w.nodes, OneCase (s.ld x).method)
    (str : Expr → Text) (t : List (List FEqn)) (ht : makeLHSVersions (tableInput s.w) (createSolutionSet (tableInput s.w)) = .ok t)
    (groups : List (List Text)) (hg : IsGroups (tableInput s.w) groups)
    (name : Text) (hnl : '\n' ∉ name) (vars : List Text) (hvars : ∀ x, x ∈ vars ↔ ∃ g ∈ groups, x ∈ g)
    (params : List Text) (hp : ∀ p ∈ params, Ident p) (hpar : ∀ x ∈ s.w.nodes, ∀ k, (VName.v x k).render.toList ∉ params) (arg : String → Text)
    (ops : List Op) (hops : cppFile name vars params
      (s.w.nodes.map fun x => (x.toList, ⟨(s.w.unk x).solveorder, methodText (s.ld x).method, arg x⟩)) (textMat str t) groups = some ops) :
    ∃ x, x ∈ assigned (printed ops) ∧ x ∉ declared (printed ops) := by
  rcases hx : s.w.nodes with _ | ⟨x, xs⟩
  · exact absurd hx hne
  obtain ⟨u, vs, h1, h2, h2', h3, h4⟩ := solve_tableInput h hn hf hx
  have hord := (C19_solver_partial h hn hf).1
  rw [h1] at ht hg
  have hmem : ∀ w ∈ u :: vs, w.name ∈ s.w.nodes := by
    intro w hw
    have : w.name ∈ (tableInput s.w).map (·.name) := by rw [h1]; exact List.mem_map.2 ⟨w, hw, rfl⟩
    rwa [tableInput, List.map_map, show ((fun v : SolUnk => v.name) ∘ fun x => ⟨x, (s.w.unk x).nsolutions, (s.w.unk x).solutions,
      (s.w.unk x).versionNames⟩) = id from rfl, List.map_id] at this
  have hk : 0 < (createSolutionSet (u :: vs)).length := by
    cases hc : createSolutionSet (u :: vs) with
    | nil => rw [hc] at ht; cases ht
    | cons _ _ => simp
  obtain ⟨q1, q2, _⟩ := C65_never_compiles_violation name hnl str u vs h3 (fun w hw => (h4 w hw).1) (fun w hw => (h4 w hw).2)
    (fun w hw => hid _ (hmem w hw)) t ht groups hg vars hvars params hp _ (by
      intro sn hsn
      obtain ⟨y, hy, rfl⟩ := List.mem_map.1 hsn
      obtain ⟨i, hi⟩ := List.getElem?_of_mem hy
      refine ⟨?_, _, rfl, hcase y hy⟩
      have := (hord i y hi).1
      simp only; omega) (by
      refine ⟨_, List.mem_map.2 ⟨x, by rw [hx]; simp, rfl⟩, ?_⟩
      have := (hord 0 x (by rw [hx]; rfl)).1
      simpa using this) ops hops 0 hk (hpar _ (hmem u (by simp)) _)
  exact ⟨_, q1, q2⟩

/-- what the two generators make of a run, the right sides printed as `?`, the groups in table order -/
def filesOf (s : LS) : Option (List Op × List PyOp) :=
  match makeLHSVersions (tableInput s.w) (createSolutionSet (tableInput s.w)) with
  | .error _ => none
  | .ok t =>
    let groups := (createSolutionSet (tableInput s.w)).map fun r => r.map fun x => x.render.toList
    match cppFile "Rob".toList groups.flatten [] (s.w.nodes.map fun x =>
        (x.toList, ⟨(s.w.unk x).solveorder, methodText (s.ld x).method, "a/b".toList⟩)) (textMat (fun _ => ['?']) t) groups,
      pyCode (cppNodesOf s) (textMat (fun _ => ['?']) t) groups with
    | some c, some p => some (c, p)
    | _, _ => none

/-- Non-vacuity of the three theorems: the run `demoTwo` meets the hypotheses about the run, and both programs exist. -/
example : ∃ s, demoTwo = .ok (.success, s) ∧ s.w.nodes.Nodup ∧ SelfFree s.w ∧ s.w.nodes ≠ [] ∧
    (∀ x ∈ s.w.nodes, ∀ c ∈ x.toList, isW c = true) ∧ (∀ x ∈ s.w.nodes, OneCase (s.ld x).method) ∧ (filesOf s).isSome := by
  have h : demoTwo.toOption.map (fun r => decide (r.1 = .success ∧ r.2.w.nodes.Nodup ∧ r.2.w.nodes ≠ [] ∧
      (∀ x ∈ r.2.w.nodes, ∀ c ∈ x.toList, isW c = true) ∧ (∀ x ∈ r.2.w.nodes, OneCase (r.2.ld x).method) ∧ (filesOf r.2).isSome = true ∧
      ∀ x ∈ r.2.w.nodes, ∀ sol ∈ (r.2.w.unk x).solutions, sol.has x = false)) = some true := by decide +kernel
  rcases hd : demoTwo with e | ⟨st, s⟩
  · rw [hd] at h; cases h
  rw [hd] at h
  simp only [Except.toOption, Option.map_some, Option.some.injEq, decide_eq_true_eq] at h
  obtain ⟨rfl, h2, h3, h4, h5, h6, h7⟩ := h
  exact ⟨s, rfl, h2, selfFree_of hd h2 h7, h3, h4, h5, h6⟩

end Verif.Solver
