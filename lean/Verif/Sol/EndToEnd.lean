import Verif.Sol.VersionsProps
import Verif.Sol.SetSolvedProps
/-!
# From `set_solved` to the solution table: C16 and C17 for the tables the program actually builds
-/
namespace Verif.Sol
open Verif.Sym

/-- What `create_solution_set` reads of the solved unknowns (ik_classes.py:242-262): the unknowns of the solution nodes,
in their order. -/
def tableInput (w : World) : List SolUnk :=
  w.nodes.map fun x => ⟨x, (w.unk x).nsolutions, (w.unk x).solutions, (w.unk x).versionNames⟩

theorem first_deps {us : List String} {x : String} {s : List Expr} {cs : List (String × List Expr)} {w : World}
    (hf : FreshCalls ((x, s) :: cs)) (h : runCalls (start us) ((x, s) :: cs) = (w, none)) : (w.unk x).deps = [] := by
  have h0 : ((x, s) :: cs)[0]? = some (x, s) := rfl
  obtain ⟨_, _, h3, _⟩ := C19_dependencies_partial hf h h0
  cases hd : (w.unk x).deps with
  | nil => rfl
  | cons d ds =>
    obtain ⟨⟨j, _, hj, _⟩, _⟩ := h3 d (by rw [hd]; simp)
    omega

theorem tableInput_ok {us : List String} {x : String} {s : List Expr} {cs : List (String × List Expr)} {w : World}
    (hf : FreshCalls ((x, s) :: cs)) (h : runCalls (start us) ((x, s) :: cs) = (w, none)) :
    ∃ u vs, tableInput w = u :: vs ∧ TableInput u vs ∧ u.nsols = s.length ∧ vs.map (·.nsols) = cs.map (·.2.length) := by
  have hn := (C19_orders h).1
  have hns : ∀ c ∈ (x, s) :: cs, (w.unk c.1).nsolutions = c.2.length := fun c hc => (C20_versions_formula hf h hc).2.2
  have h1 := C20_versions_formula hf h (x := x) (s := s) (by simp)
  rw [first_deps hf h] at h1
  have hv : (w.unk x).nversions = s.length := by rw [h1.1]; simp [prod]
  have hl : 0 < s.length := by
    obtain ⟨w1, w2, _, h2, _⟩ := run_split (pre := []) hf.1 h
    simpa [setSolutions] using h2.pos
  refine ⟨_, _, by rw [tableInput, hn, List.map_cons, List.map_cons], ⟨?_, ?_, ?_⟩, ?_, ?_⟩
  · have := hf.1
    simp only [List.map_cons, List.map_map] at this ⊢
    exact this
  · simp only [solNames]
    rw [C20_version_names hf h (x := x) (s := s) (by simp), hv, hns (x, s) (by simp)]
    apply List.map_congr_left
    intro i hi
    rw [Nat.mod_eq_of_lt (List.mem_range.1 hi)]
  · simp only; rw [hns (x, s) (by simp)]; exact hl
  · exact hns (x, s) (by simp)
  · rw [List.map_map, List.map_map]
    apply List.map_congr_left
    intro c hc
    exact hns c (List.mem_cons_of_mem _ hc)

/-- C16, from the solver to the table: after any fresh run of `set_solved` calls that raises nothing, in which the unknowns
after the first have one or two solutions each, the table lists every combination of solutions exactly once and has Π nᵢ rows.
Missing: later unknowns with more than two solutions (`C16_three_solutions_violation`). -/
theorem C16_end_to_end_partial {us : List String} {x : String} {s : List Expr} {cs : List (String × List Expr)} {w : World}
    (hf : FreshCalls ((x, s) :: cs)) (h : runCalls (start us) ((x, s) :: cs) = (w, none))
    (hn : ∀ c ∈ cs, c.2.length = 1 ∨ c.2.length = 2) :
    ExactlyOnce (tableInput w) (createSolutionSet (tableInput w)) ∧
    (createSolutionSet (tableInput w)).length = prod (((x, s) :: cs).map (·.2.length)) := by
  obtain ⟨u, vs, h1, h2, h3, h4⟩ := tableInput_ok hf h
  have hvs : ∀ v ∈ vs, v.nsols = 1 ∨ v.nsols = 2 := by
    intro v hv
    have : v.nsols ∈ cs.map (·.2.length) := h4 ▸ List.mem_map.2 ⟨v, hv, rfl⟩
    obtain ⟨c, hc, he⟩ := List.mem_map.1 this
    rw [← he]; exact hn c hc
  rw [h1]
  obtain ⟨h5, h6⟩ := C16_solution_table_partial u vs h2 hvs
  refine ⟨h5, ?_⟩
  rw [h6]
  simp only [prodSols, prod, List.map_cons, List.foldr_cons, h3, ← h4]
  congr 1
  clear h1 h2 h3 h4 hvs h5 h6
  induction vs with
  | nil => rfl
  | cons v vs ih => simp only [List.foldr_cons, List.map_cons]; rw [ih]

/-- After a fresh run every solved unknown has versions, named after it. -/
theorem tableInput_names {us : List String} {cs : List (String × List Expr)} {w : World}
    (hf : FreshCalls cs) (h : runCalls (start us) cs = (w, none)) :
    ∀ u ∈ tableInput w, u.versionNames ≠ [] ∧ ∀ e ∈ u.versionNames, e.unk = u.name := by
  have hn := (C19_orders h).1
  have hx : ∀ u ∈ tableInput w, ∃ c ∈ cs, u.name = c.1 ∧ u.versionNames = (w.unk c.1).versionNames := by
    intro u hu
    rw [tableInput, hn] at hu
    obtain ⟨x, hx, rfl⟩ := List.mem_map.1 hu
    obtain ⟨c, hc, rfl⟩ := List.mem_map.1 hx
    exact ⟨c, hc, rfl, rfl⟩
  intro u hu
  constructor
  · obtain ⟨c, hc, h1, h2⟩ := hx u hu
    rw [h2, C20_version_names hf h hc]
    obtain ⟨h3, _, _⟩ := C20_versions_formula hf h hc
    have hpos : ∀ c ∈ cs, 0 < c.2.length := by
      intro c hc
      obtain ⟨pre, post, rfl⟩ := List.append_of_mem hc
      obtain ⟨w1, w2, _, h2, _⟩ := run_split hf.1 h
      simpa [setSolutions] using h2.pos
    have hprod : 0 < (w.unk c.1).nversions := by
      rw [h3]
      refine Nat.mul_pos (hpos c hc) ?_
      have : ∀ d ∈ (w.unk c.1).deps, 0 < (w.unk d).nsolutions := by
        intro d hd
        obtain ⟨i, hi⟩ := List.mem_iff_getElem?.1 hc
        obtain ⟨⟨j, c', _, hc', rfl⟩, _⟩ := (C19_dependencies_partial hf h hi).2.2.1 d hd
        rw [(C20_versions_formula hf h (List.mem_of_getElem? hc')).2.2]
        exact hpos c' (List.mem_of_getElem? hc')
      generalize (w.unk c.1).deps = l at this
      induction l with
      | nil => simp [prod]
      | cons a l ih =>
        simp only [prod, List.map_cons, List.foldr_cons] at ih ⊢
        exact Nat.mul_pos (this a (by simp)) (ih (fun d hd => this d (by simp [hd])))
    intro he
    have := congrArg List.length he
    simp at this; omega
  · intro e he
    obtain ⟨c, hc, h1, h2⟩ := hx u hu
    rw [h2, C20_version_names hf h hc] at he
    obtain ⟨i, _, rfl⟩ := List.mem_map.1 he
    exact h1.symm

/-- C17, from the solver to the table: after *any* run of `set_solved` calls without exception each unknown of which is new and not
in its own solutions, each row has one entry per solved unknown, and column c names the c-th solved unknown. -/
theorem C17_end_to_end {us : List String} {cs : List (String × List Expr)} {w : World}
    (hf : FreshCalls cs) (h : runCalls (start us) cs = (w, none)) :
    ∀ r ∈ createSolutionSet (tableInput w), r.map (·.unk) = cs.map (·.1) := by
  intro r hr
  have hn := (C19_orders h).1
  have := C17_rows_labelled (tableInput w) (fun u hu => (tableInput_names hf h u hu).1)
    (fun u hu => (tableInput_names hf h u hu).2) r hr
  rw [this, tableInput, hn, List.map_map]
  simp

/-- C17, reading from left to right: an unknown that occurs in a solution of the unknown of column `c` is the unknown of a column further left,
in every row (same runs). -/
theorem C17_reads_left {us : List String} {cs : List (String × List Expr)} {w : World}
    (hf : FreshCalls cs) (h : runCalls (start us) cs = (w, none)) {r : Row} (hr : r ∈ createSolutionSet (tableInput w))
    {c : Nat} {e : VName} (hc : r[c]? = some e) {sol : Expr} (hs : ∃ x s, cs[c]? = some (x, s) ∧ sol ∈ s)
    {d : String} (hd : d ∈ us) (ho : sol.has d = true) :
    ∃ (b : Nat) (e' : VName), b < c ∧ r[b]? = some e' ∧ e'.unk = d := by
  obtain ⟨x, s, hx, hm⟩ := hs
  obtain ⟨_, hdep, hbef, _⟩ := C19_dependencies_partial hf h hx
  obtain ⟨⟨b, q, hb, hq, hqd⟩, _⟩ := hbef d ((hdep d).2 ⟨hd, sol, hm, ho⟩)
  have hrow := C17_end_to_end hf h r hr
  have hq' : (r.map (·.unk))[b]? = some d := by rw [hrow, List.getElem?_map, hq, ← hqd]; rfl
  rw [List.getElem?_map] at hq'
  cases he : r[b]? with
  | none => rw [he] at hq'; cases hq'
  | some e' => rw [he] at hq'; exact ⟨b, e', hb, he, by simpa using hq'⟩

/-- Non-vacuity of these: three unknowns with 2, 1, 1 solutions; two rows. -/
example : FreshCalls demoCalls ∧ (runCalls (start ["a", "b", "c"]) demoCalls).2 = none ∧
    (∀ c ∈ demoCalls.tail, c.2.length = 1 ∨ c.2.length = 2) ∧
    createSolutionSet (tableInput (runCalls (start ["a", "b", "c"]) demoCalls).1) =
      [[.s "a" 1, .v "b" 1, .v "c" 1], [.s "a" 2, .v "b" 2, .v "c" 2]] :=
  ⟨⟨by decide, by decide⟩, by decide +kernel, by decide, by decide +kernel⟩

end Verif.Sol
