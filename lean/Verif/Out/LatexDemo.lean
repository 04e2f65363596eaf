import Verif.Out.LatexProps
/-!
# C62: a concrete report, and reports that are not in order
-/
namespace Verif.Out.Tex
open Verif.Out

/-! ## Not in order -/

/-- a report like those of the code, with two unknowns, one of which has two solutions, and two versions -/
def demoReport : Report :=
  { name := "test: A_b".toList
    dh := "\\left[\\begin{matrix}a & b\\\\c & d\\end{matrix}\\right]".toList
    lhs := "\\left[\\begin{matrix}r_{11} & p_x\\\\0 & 1\\end{matrix}\\right]".toList
    fk := ["c_{1}".toList, "s_{1}".toList]
    jac := ["0".toList, "\\theta".toList]
    nodes := [⟨"\\theta_{1}".toList, "arccos".toList, "arccos".toList, 2, ["x^{2}".toList, "- x^{2}".toList],
        ["th_{1s1}".toList, "th_{1s2}".toList], 1⟩,
      ⟨"d_{2}".toList, "algebra".toList, "algebra".toList, 1, ["\\frac{p_{x}}{2}".toList], ["d_{2s1}".toList], 2⟩]
    final := [[("a".toList, "x".toList), ("b".toList, "y".toList)], [("a".toList, "- x".toList), ("b".toList, "z".toList)]]
    nversions := 2
    edges := ["Edge(a, b)".toList]
    groups := ["('th_1s1', 'd_2v1')".toList]
    table := [["th_1s1".toList, "d_2v1".toList], ["th_1s2".toList, "d_2v2".toList]] }

/-- `NodeOK` and `VersionsOK`, computed -/
def nodeB (final : List (List (Text × Text))) (n : LNode) : Bool :=
  mathOK n.sym && (decide (n.method ≠ []) && (n.method ++ n.umethod).all fun c => decide (c ∉ ['\\', '{', '}', '$', '&', '#', '%', '_', '^', '\n'])) &&
  (decide (n.nsolutions = n.sols.length) && decide (n.sols ≠ []) && decide (n.sols.length ≤ n.names.length)) &&
  (n.sols.all mathOK && n.names.all mathOK) &&
  final.all fun row => match pyGet row (n.order - 1) with
    | some e => mathOK e.1 && mathOK e.2
    | none => false

theorem nodeB_ok {final : List (List (Text × Text))} {n : LNode} (h : nodeB final n = true) : NodeOK n ∧ VersionsOK final n := by
  simp only [nodeB, Bool.and_eq_true, List.all_eq_true, decide_eq_true_eq, List.mem_append] at h
  obtain ⟨⟨⟨⟨h1, h2, h3⟩, ⟨h4, h5⟩, h6⟩, h7, h8⟩, h9⟩ := h
  refine ⟨⟨h1, ⟨h2, fun c hc => h3 c (.inl hc), fun c hc => h3 c (.inr hc)⟩, ⟨h4, h5, h6⟩, h7, h8⟩, fun row hr => ?_⟩
  have := h9 row hr
  split at this
  · next e he => exact ⟨e, he, by simpa using this⟩
  · cases this

theorem demoReport_nodes : ∀ n ∈ demoReport.nodes, NodeOK n ∧ VersionsOK demoReport.final n := by
  have h : (demoReport.nodes.all (nodeB demoReport.final)) = true := by decide +kernel
  exact fun n hn => nodeB_ok (List.all_eq_true.1 h n hn)

/-- Non-vacuity of `C62_report_partial`. -/
theorem demoReport_ok : ReportOK demoReport where
  name := by unfold nameText; decide +kernel
  texts := ⟨by decide +kernel, by decide +kernel, by decide +kernel, by decide +kernel⟩
  nodes := fun n hn => (demoReport_nodes n hn).1
  versions := ⟨rfl, by decide +kernel, fun n hn => (demoReport_nodes n hn).2⟩
  verbatim := ⟨by decide +kernel, by decide +kernel⟩
  table := ⟨_, _, rfl, by decide +kernel⟩

/-- The equations of the first unknown are shown each with its name. -/
example : ∃ t, reportBody demoReport = some t ∧ Shows t (reportItems demoReport) ∧
    Item.eqn (mathToks "th_{1s2}".toList ++ [.amp, .ch '='] ++ mathToks "- x^{2}".toList) ∈ reportItems demoReport := by
  obtain ⟨t, h1, h2⟩ := C62_report_partial _ demoReport_ok
  exact ⟨t, h1, h2, by decide +kernel⟩

/-- **C62 is violated** if the solution set is empty: `list(Robot.solutionSet)[0]` raises IndexError and no report is written. -/
theorem C62_empty_violation (r : Report) (h : r.table = []) : reportBody r = none := by
  have : tableSection [] = none := rfl
  unfold reportBody reportSections
  rw [h, this]
  cases genericSection r.nodes <;> cases versionSection r.nodes r.final r.nversions <;> rfl

example : ∃ r : Report, r.table = [] ∧ r.nodes ≠ [] := ⟨{ demoReport with table := [] }, rfl, by decide⟩

/-- **C62 is violated** if an unknown has more solutions than were counted when it was solved: with one solution counted, both equations are
put into the same `dmath`, without a break between them. -/
theorem C62_count_violation : ∃ n : LNode, n.sols.length = 2 ∧ n.names.length = 2 ∧
    (genericNode n).isSome ∧ ∀ t, genericNode n = some t → ∃ a, Shows t [.heading, .eqn a] :=
  ⟨⟨"x".toList, "a".toList, "a".toList, 1, ["p".toList, "q".toList], ["u".toList, "v".toList], 1⟩, by decide, by decide, by decide,
    fun t h => ⟨[.ch 'u', .ch '=', .ch 'p', .ch 'v', .ch '=', .ch 'q'], by cases h; unfold Shows; decide +kernel⟩⟩

end Verif.Out.Tex
