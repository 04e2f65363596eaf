import Verif.Out.LatexDemo
/-!
# C62: the parts of the report that LaTeX copies as they are
The edges of the solution graph and the solution sets stand in `verbatim` environments, so that the layout of the file is what the reader sees:
which line shows what. (`Shows` says only that LaTeX accepts them.)
-/
namespace Verif.Out.Tex
open Verif.Out

/-- `t` has these lines, one below the other, the first of them at the beginning of a line -/
def HasLines (t : Text) (ls : List Text) : Prop :=
  ∃ before after, t = before ++ ls.flatMap (fun l => l ++ ['\n']) ++ after ∧ (before = [] ∨ before.getLast? = some '\n')

/-- edges, two in a line, five spaces after the first of them; after the last stands the closing command -/
def edgePage : List Text → List Text
  | [] => ["\\end{verbatim} ".toList]
  | [e] => [e ++ "     ".toList ++ "\\end{verbatim} ".toList]
  | e :: e' :: es => (e ++ "     ".toList ++ e') :: edgePage es

theorem edgeLines_page (es : List Text) (i : Nat) (hi : i % 2 = 0) :
    edgeLines i es ++ "\\end{verbatim} ".toList ++ eol = (edgePage es).flatMap (fun l => l ++ ['\n']) := by
  induction es using edgePage.induct generalizing i with
  | case1 => simp [edgeLines, edgePage, eol]
  | case2 e =>
    have h1 : ¬ (i + 1) % 2 = 0 := by omega
    simp [edgeLines, edgePage, eol, h1]
  | case3 e e' es ih =>
    have h1 : ¬ (i + 1) % 2 = 0 := by omega
    have h2 : (i + 1 + 1) % 2 = 0 := by omega
    have := ih (i + 1 + 1) h2
    simp only [edgeLines, edgePage, if_neg h1, if_pos h2, List.flatMap_cons, ← this]
    simp [eol]

theorem section_lines {ss : List Text} {s a c : Text} {ls : List Text} (hs : s ∈ ss)
    (h : s = a ++ ['\n'] ++ ls.flatMap (fun l => l ++ ['\n']) ++ c) (he : ∃ d, s = d ++ eol) : HasLines (sectionsText ss) ls := by
  obtain ⟨p, q, rfl⟩ := List.append_of_mem hs
  obtain ⟨d, hd⟩ := he
  refine ⟨sectionsText p ++ "\n\n\n".toList ++ a ++ ['\n'], c ++ sectionsText q, ?_, .inr List.getLast?_concat⟩
  simp only [sectionsText, List.map_append, List.map_cons, List.flatten_append, List.flatten_cons, plines_eol hd]
  rw [h]
  simp [List.append_assoc]

theorem body_sections {r : Report} {t : Text} (h : reportBody r = some t) :
    ∃ ss, t = sectionsText ss ∧ edgeSection r.edges ∈ ss ∧ setSection r.groups ∈ ss := by
  simp only [reportBody, reportSections, Option.map_eq_some_iff, Option.bind_eq_bind, Option.bind_eq_some_iff, Option.pure_def, Option.some.injEq] at h
  obtain ⟨ss, ⟨_, _, _, _, _, _, rfl⟩, rfl⟩ := h
  exact ⟨_, rfl, by simp, by simp⟩

theorem intro_ends : (∃ a, "\nThe following is the abstract representation of solution graph for this manipulator (nodes with parent -1 are roots).  Future: graphic representation. :\n\\begin{verbatim}\n".toList =
      a ++ (['\n'] ++ ("\\begin{verbatim}".toList ++ ['\n']))) ∧
    ∃ a, "\nThe following are the sets of joint solutions (poses) for this manipulator:\n\\begin{verbatim}\n".toList =
      a ++ (['\n'] ++ ("\\begin{verbatim}".toList ++ ['\n'])) :=
  ⟨⟨"\nThe following is the abstract representation of solution graph for this manipulator (nodes with parent -1 are roots).  Future: graphic representation. :".toList, by decide +kernel⟩,
    ⟨"\nThe following are the sets of joint solutions (poses) for this manipulator:".toList, by decide +kernel⟩⟩

/-- **C62.** Every report that is written shows the edges of the solution graph, all of them in their order, two in a line and apart. -/
theorem C62_edges_shown {r : Report} {t : Text} (h : reportBody r = some t) :
    HasLines t ("\\begin{verbatim}".toList :: edgePage r.edges) := by
  obtain ⟨ss, rfl, he, -⟩ := body_sections h
  obtain ⟨a, ha⟩ := intro_ends.1
  have hd : ∃ d, edgeSection r.edges = d ++ eol := by unfold edgeSection; exact ⟨_, rfl⟩
  have hp := edgeLines_page r.edges 0 rfl
  unfold edgeSection at he hd
  refine section_lines (a := "\\section{Solution Graph (Edges)} ".toList ++ eol ++ a) (c := []) he ?_ hd
  rw [List.flatMap_cons, ← hp, ha]
  generalize "\\section{Solution Graph (Edges)} ".toList = l1
  generalize "\\begin{verbatim}".toList = l2
  generalize "\\end{verbatim} ".toList = l3
  simp only [List.append_assoc, List.append_nil]

/-- **C62.** Every report that is written shows the solution sets, each in a line of its own. -/
theorem C62_sets_shown {r : Report} {t : Text} (h : reportBody r = some t) :
    HasLines t ("\\begin{verbatim}".toList :: (r.groups ++ ["\\end{verbatim}".toList])) := by
  obtain ⟨ss, rfl, -, hs⟩ := body_sections h
  obtain ⟨a, ha⟩ := intro_ends.2
  have hd : ∃ d, setSection r.groups = d ++ eol := by unfold setSection; exact ⟨_, rfl⟩
  unfold setSection at hs hd
  refine section_lines (a := "\\section{Solution Set}".toList ++ eol ++ a) (c := eol) hs ?_ hd
  rw [ha]
  generalize "\\section{Solution Set}".toList = l1
  generalize "\\begin{verbatim}".toList = l2
  generalize "\\end{verbatim}".toList = l3
  simp [List.flatMap_def, List.append_assoc, eol]
/-- a report that is written: the hypothesis of both theorems -/
example : (reportBody { demoReport with edges := ["Edge(a, b)".toList, "Edge(b, c)".toList, "Edge(-1, a)".toList] }).isSome = true ∧
    edgePage ["Edge(a, b)".toList, "Edge(b, c)".toList, "Edge(-1, a)".toList] =
      ["Edge(a, b)     Edge(b, c)".toList, "Edge(-1, a)     \\end{verbatim} ".toList] := by decide +kernel

end Verif.Out.Tex
