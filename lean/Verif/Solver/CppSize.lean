import Verif.Solver.Progress
import Verif.Out.CppBounds
/-!
# C64 for the solver
-/
namespace Verif.Solver
open Verif.Sol Verif.Leaf Verif.Sym Verif.Eqn Verif.Out
open Verif.BT hiding Tree

theorem prod_pos_of {l : List Nat} (h : ∀ n ∈ l, 0 < n) : 0 < prod l := by
  induction l with
  | nil => decide
  | cons a l ih => exact Nat.mul_pos (h a (by simp)) (ih fun n hn => h n (by simp [hn]))

/-- **C64 for the solver (partial).** After every run in which no unknown was solved twice and no solution refers to its own unknown, for every
order of the solution set, the C++ program writes only inside of its array of 64 rows of 6 numbers if and only if at most 6 unknowns were solved
and the product of their numbers of solutions is at most 64. -/
theorem C64_solver_partial {P : Sympy} {us : List String} {ms : List MEqn} {aux : List KEqn} {st : Status} {s : LS}
    {counter : Nat} (h : solve P us ms aux counter = .ok (st, s)) (hn : s.w.nodes.Nodup) (hf : SelfFree s.w) (hne : s.w.nodes ≠ [])
    (str : Expr → Text) (t : List (List FEqn)) (ht : makeLHSVersions (tableInput s.w) (createSolutionSet (tableInput s.w)) = .ok t)
    (gn : List GNode) (groups : List (List Text))
    (hg : SameGroups ((createSolutionSet (tableInput s.w)).map fun r => r.map fun x => x.render.toList) groups) (ops : List Op)
    (hops : cppCode gn (textMat str t) groups = some ops) :
    InBounds ops ↔ s.w.nodes.length ≤ 6 ∧ prod (s.w.nodes.map fun x => (s.w.unk x).solutions.length) ≤ 64 := by
  obtain ⟨_, h2, h3⟩ := C16_solver_partial h hn hf hne
  have hm : ∀ row ∈ textMat str t, ∀ e ∈ row, ∀ i j, e.1 ≠ element i j := by
    intro row hr e he i j hij
    simp only [textMat, List.mem_map] at hr
    obtain ⟨es, hes, rfl⟩ := hr
    obtain ⟨fe, hfe, rfl⟩ := List.mem_map.1 he
    obtain ⟨u, k, hu⟩ := make_lhs ht es hes fe hfe
    simp only at hij
    have h1 := lastStem_v u k
    rw [← hu, hij, element_eq, show "]".toList = [']'] from by decide, lastStem_bracket] at h1
    cases h1
  rw [(C64_bounds_iff gn _ groups ops hops hm).2.2]
  obtain ⟨c, hp, hc⟩ := hg
  have hlen : groups.length = prod (s.w.nodes.map fun x => (s.w.unk x).solutions.length) := by
    rw [← hc.length_eq, ← hp.length_eq, List.length_map, h2]
  have hrow : ∀ g ∈ groups, g.length = s.w.nodes.length := by
    intro g hg
    obtain ⟨i, hi⟩ := List.getElem?_of_mem hg
    have hil : i < groups.length := (List.getElem?_eq_some_iff.1 hi).1
    have hic : i < c.length := by rw [hc.length_eq]; exact hil
    have hcg : (c[i]).Perm g := by
      have := hc.get hic hil
      simpa [(List.getElem?_eq_some_iff.1 hi).2] using this
    have hm : c[i] ∈ c := List.getElem_mem hic
    rw [← hp.mem_iff] at hm
    obtain ⟨r, hr, hre⟩ := List.mem_map.1 hm
    rw [← hcg.length_eq, ← hre, List.length_map, ← h3 r hr, List.length_map]
  have hpos : 0 < s.w.nodes.length := List.length_pos_iff.2 hne
  constructor
  · rintro ⟨h4, h5⟩
    rw [← hlen]
    have hl : groups.length ≤ 64 := by
      by_cases hl : groups.length ≤ 64
      · exact hl
      · have h64 : groups[64]? = some groups[64] := List.getElem?_eq_getElem (by omega)
        have := h4 64 _ h64 (by intro he; have := hrow _ (List.mem_of_getElem? h64); rw [he] at this; simp at this; omega)
        omega
    refine ⟨?_, hl⟩
    have : groups ≠ [] := by
      intro he
      have h0 : 0 < prod (s.w.nodes.map fun x => (s.w.unk x).solutions.length) := by
        have := (solve_calls h hn).2
        refine prod_pos_of fun n hn => ?_
        obtain ⟨x, hx, rfl⟩ := List.mem_map.1 hn
        rcases this (x, (s.w.unk x).solutions) (List.mem_map.2 ⟨x, hx, rfl⟩) with h | h <;> simp only at h <;> omega
      rw [← hlen, he] at h0
      cases h0
    obtain ⟨g, hg⟩ := List.exists_mem_of_ne_nil _ this
    rw [← hrow g hg]; exact h5 g hg
  · rintro ⟨h4, h5⟩
    refine ⟨?_, fun g hg => by rw [hrow g hg]; exact h4⟩
    intro i g hg _
    have := (List.getElem?_eq_some_iff.1 hg).1
    omega

theorem prod_le_pow {l : List Nat} (h : ∀ n ∈ l, n ≤ 2) : prod l ≤ 2 ^ l.length := by
  induction l with
  | nil => decide
  | cons a l ih =>
    rw [List.length_cons, Nat.pow_succ, Nat.mul_comm]
    exact Nat.mul_le_mul (h a (by simp)) (ih fun n hn => h n (by simp [hn]))

/-- **C64, six unknowns (partial).** Because the solver gives no unknown more than two solutions, the number of rows never matters: the program
stays inside of its array if and only if at most six unknowns were solved. -/
theorem C64_six_partial {P : Sympy} {us : List String} {ms : List MEqn} {aux : List KEqn} {st : Status} {s : LS}
    {counter : Nat} (h : solve P us ms aux counter = .ok (st, s)) (hn : s.w.nodes.Nodup) (hf : SelfFree s.w) (hne : s.w.nodes ≠ [])
    (str : Expr → Text) (t : List (List FEqn)) (ht : makeLHSVersions (tableInput s.w) (createSolutionSet (tableInput s.w)) = .ok t)
    (gn : List GNode) (groups : List (List Text))
    (hg : SameGroups ((createSolutionSet (tableInput s.w)).map fun r => r.map fun x => x.render.toList) groups) (ops : List Op)
    (hops : cppCode gn (textMat str t) groups = some ops) : InBounds ops ↔ s.w.nodes.length ≤ 6 := by
  rw [C64_solver_partial h hn hf hne str t ht gn groups hg ops hops]
  refine ⟨And.left, fun h6 => ⟨h6, ?_⟩⟩
  have h2 := (solve_calls h hn).2
  refine Nat.le_trans (prod_le_pow fun n hn => ?_) (Nat.le_trans (Nat.pow_le_pow_right (n := 2) (by decide) (j := 6) ?_) (by decide))
  · obtain ⟨x, hx, rfl⟩ := List.mem_map.1 hn
    rcases h2 (x, (s.w.unk x).solutions) (List.mem_map.2 ⟨x, hx, rfl⟩) with h | h <;> simp only at h <;> omega
  · rw [List.length_map]; exact h6

/-- What output_cpp.py:165-236 reads of the solved unknowns after a run: solve order, method, argument (here left empty, it is only used
for arcsine and arccosine). -/
def cppNodesOf (s : LS) : List GNode :=
  s.w.nodes.map fun x => ⟨(s.w.unk x).solveorder, methodText (s.ld x).method, []⟩

/-- the program of a run, its right sides printed as `?` (ikSolver.py:405-412) -/
def cppOf (s : LS) : Option (List (Text × Text)) :=
  match makeLHSVersions (tableInput s.w) (createSolutionSet (tableInput s.w)) with
  | .error _ => none
  | .ok t => (cppCode (cppNodesOf s) (textMat (fun _ => ['?']) t)
      ((createSolutionSet (tableInput s.w)).map fun r => r.map fun x => x.render.toList)).map asgns

/-- **C64 violated.** A successful run for seven unknowns, each solved once: the generated program writes `solution_list[0][6]`, outside of
the array of 64 rows of 6 numbers. -/
theorem C64_seven_violation : ∃ s as, chain ["a", "b", "c", "d", "e", "f", "g"] = .ok (.success, s) ∧
    s.w.nodes = ["g", "f", "e", "d", "c", "b", "a"] ∧ cppOf s = some as ∧ (element 0 6, "gs1".toList) ∈ as := by
  obtain ⟨s, h1, h2, _⟩ := glance_ok chain7
  have h : ((chain ["a", "b", "c", "d", "e", "f", "g"]).toOption.bind fun r => cppOf r.2).map
      (fun as => decide ((element 0 6, "gs1".toList) ∈ as)) = some true := by decide +kernel
  rw [h1] at h
  simp only [Except.toOption, Option.bind_some, Option.map_eq_some_iff, decide_eq_true_eq] at h
  obtain ⟨as, h3, h4⟩ := h
  exact ⟨s, as, h1, h2, h3, h4⟩

theorem selfFree_of {P : Sympy} {us : List String} {ms : List MEqn} {aux : List KEqn} {st : Status} {s : LS}
    {counter : Nat} (h : solve P us ms aux counter = .ok (st, s)) (hn : s.w.nodes.Nodup)
    (hf : ∀ x ∈ s.w.nodes, ∀ sol ∈ (s.w.unk x).solutions, sol.has x = false) : SelfFree s.w := by
  have hcalls := (solve_calls h hn).1
  intro x sol hsol
  by_cases hx : x ∈ s.w.nodes
  · exact hf x hx sol hsol
  · have : s.w.unk x = {} := by
      refine run_frame hcalls ?_
      rwa [callsOf, List.map_map, show ((fun c : String × List Expr => c.1) ∘ fun x => (x, (s.w.unk x).solutions)) = id from rfl, List.map_id]
    rw [this] at hsol; cases hsol

/-- Non-vacuity of C64_solver_partial: the run of C64_seven_violation meets the hypotheses (and is out of bounds); a run with six unknowns does
not write to a seventh column. -/
example : (∃ s, chain ["a", "b", "c", "d", "e", "f", "g"] = .ok (.success, s) ∧ s.w.nodes.Nodup ∧ SelfFree s.w ∧ s.w.nodes ≠ [] ∧
      (cppOf s).isSome) ∧
    ((chain ["a", "b", "c", "d", "e", "f"]).toOption.bind fun r => cppOf r.2).map
      (fun as => (as.filter fun a => a.1 = element 0 5, as.filter fun a => a.1 = element 0 6)) = some ([(element 0 5, "fs1".toList)], []) := by
  refine ⟨?_, by decide +kernel⟩
  obtain ⟨s, as, h1, h2, h3, _⟩ := C64_seven_violation
  have hn : s.w.nodes.Nodup := by rw [h2]; decide
  refine ⟨s, h1, hn, selfFree_of h1 hn ?_, by rw [h2]; simp, by rw [h3]; rfl⟩
  have h : (chain ["a", "b", "c", "d", "e", "f", "g"]).toOption.map (fun r => decide (∀ x ∈ r.2.w.nodes, ∀ sol ∈ (r.2.w.unk x).solutions,
      sol.has x = false)) = some true := by decide +kernel
  rw [h1] at h
  simpa [Except.toOption] using h

end Verif.Solver
