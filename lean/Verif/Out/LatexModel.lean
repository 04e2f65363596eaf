import Verif.Out.PyFile
/-!
# Model of the text of the LaTeX reports
`output_latex_solution` (ikbtfunctions/output_latex.py:79-387) and `output_FK_equations` (397-490): the part of the file between the preamble
and the closing lines (LaTex/IK_preamble.tex and LaTex/IK_close.tex, which are copied).

What sympy prints is given: `sp.latex` of a matrix or an expression, after `theta_expand` and the substitutions `re.sub` of
output_latex.py:146-148 and kin_cl.py:76-87, is a text of the input. (The substitutions of `LaTexOutput` are made in the whole equation;
both sides are separated by ` = ` or ` &= `, which no match can span.)
`tmp.replace(r'(.+)=(.+)/(.+)', …)` (output_latex.py:210, 262) is a replacement of a literal text which does not occur; it is left out.
-/
namespace Verif.Out

/-- what the report reads of a solution node and its unknown -/
structure LNode where
  /-- `sp.latex(node.symbol)`, after the substitutions -/
  sym : Text
  /-- `node.solvemethod`, `u.solvemethod` -/
  method : Text
  umethod : Text
  nsolutions : Nat
  /-- the solutions and the names `solutionNames`, printed -/
  sols : List Text
  names : List Text
  order : Int

/-- what the report reads of the robot -/
structure Report where
  name : Text
  /-- `Robot.Mech.DH`, `ik_lhs()`, the columns of `T_06`, the columns of `J66`, printed -/
  dh : Text
  lhs : Text
  fk : List Text
  jac : List Text
  nodes : List LNode
  /-- `FinalEqnMatrix` after `make_LHS_versions`, both sides of the equations printed; `nversions` -/
  final : List (List (Text × Text))
  nversions : Nat
  /-- `str(edge)`; `str(g)` for `g` in `groups`; `Robot.solutionSet`, in the order in which python iterates the sets -/
  edges : List Text
  groups : List Text
  table : List (List Text)

def eol : Text := ['\n']

/-- `str.splitlines` for a text whose only line breaks are newlines -/
def splitLines : Text → List Text
  | [] => []
  | c :: cs =>
    if c = '\n' then [] :: splitLines cs
    else match splitLines cs with
      | [] => [[c]]
      | l :: ls => (c :: l) :: ls

/-- `plines` (output_latex.py:69-72) -/
def plines (ls : List Text) : Text := (ls.map (· ++ eol)).flatten

/-- `fixed_name` (output_latex.py:83-84) -/
def texName (name : Text) : Text := escU (dropTest name)

/-- output_latex.py:92-106 -/
def introSection (name : Text) : Text :=
  "\n    \\begin{center}\n    \\section*{Inverse Kinematic Solution for ".toList ++ texName name ++
  "}\n    \\today\n    \\end{center}\n    \\section{Introduction}\n    This report describes closed form inverse kinematics solutions for ".toList ++
  texName name ++
  ".   The solution was generated by\n    the \\href{https://github.com/uw-biorobotics/IKBT}{IK-BT package}\n    from the University of Washington Biorobotics Lab.\n    The IK-BT package is described in\n    \\url{https://arxiv.org/abs/1711.05412}.\n    IK-BT derives your  equations\n    using {\\tt Python 3.8} and the {\\tt sympy 1.9} module for symbolic mathematics.\n    ".toList

/-- output_latex.py:112-115 -/
def paramSection (dh : Text) : Text :=
  "\\section{Kinematic Parameters}\n    The kinematic parameters for this robot are\n    \\[ \\left [ \\alpha_{i-1}, \\quad a_{i-1}, \\quad d_i, \\quad \\theta_i \\right  ] \\]\n    \\begin{dmath}".toList ++
  dh ++ "\\end{dmath}".toList

/-- `str(c+1)` -/
def colNo (c : Nat) : Text := Nat.toDigits 10 (c + 1)

/-- output_latex.py:134-136: a column of the forward kinematics -/
def fkColumn (c : Nat) (t : Text) : Text :=
  "\\mathrm{Column \\quad".toList ++ colNo c ++ "}".toList ++ eol ++ t ++ "\\\\".toList ++ eol

/-- output_latex.py:123-143 -/
def fkSection (lhs : Text) (cols : List Text) : Text :=
  "\\section{Forward Kinematic Equations}\n    The forward kinematic equations for this robot are:".toList ++ eol ++
  "\\begin{dmath} ".toList ++ eol ++ lhs ++ " \\\\".toList ++ eol ++
  (cols.mapIdx fkColumn).flatten ++
  "\\end{dmath}".toList ++ eol ++ "Note: column numbers use math notation rather than python indeces.".toList ++ eol

/-- output_latex.py:149-164 -/
def unkSection (nodes : List LNode) : Text :=
  "\\section{Unknown Variables: }".toList ++ eol ++ "The unknown variables for this robot are (in solution order): ".toList ++ eol ++
  "\\begin{enumerate}".toList ++ eol ++
  (nodes.map fun n => eol ++ "\\item {".toList ++ ("$".toList ++ n.sym ++ "$".toList) ++ "}".toList).flatten ++
  "\\end{enumerate}".toList ++ eol

/-- `LaTexOutput` (kin_cl.py:76-87) -/
def latexOutput (align : Bool) (lhs rhs : Text) : Text :=
  lhs ++ (if align then " &".toList else " ".toList) ++ "= ".toList ++ rhs

/-- output_latex.py:204-217: the equations of a node; `none`: `solutionNames[i]` does not exist -/
def genericEqns (align : Bool) (nsols : Nat) (names : List Text) : Nat → List Text → Option Text
  | _, [] => some []
  | i, sol :: sols => do
    let nm ← names[i]?
    let rest ← genericEqns align nsols names (i + 1) sols
    let thisEOL := if align && decide ((i : Int) < (nsols : Int) - 1) then "\\\\".toList else []
    pure (latexOutput align nm sol ++ " ".toList ++ thisEOL ++ rest)

/-- output_latex.py:196, 243 -/
def subSection (sym method : Text) : Text :=
  "\n".toList ++ "\\subsection{".toList ++ ("$".toList ++ sym ++ "$".toList) ++ " } ".toList ++ eol ++ "Solution Method: ".toList ++ method ++ eol

/-- output_latex.py:180-224 -/
def genericNode (n : LNode) : Option Text :=
  if n.method ≠ [] then do
    let align := decide (n.nsolutions > 1)
    let body ← genericEqns align n.nsolutions n.names 0 n.sols
    pure (subSection n.sym n.umethod ++
      (if align then "\\begin{align}".toList else "\\begin{dmath} ".toList) ++ body ++
      (if align then "\\end{align} ".toList ++ eol else "\\end{dmath} ".toList ++ eol) ++ eol ++ eol)
  else some []

/-- output_latex.py:169-226 -/
def genericSection (nodes : List LNode) : Option Text := do
  let body ← nodes.mapM genericNode
  pure ("\\section{Solutions in Generic Form} ".toList ++ eol ++ " The following equations comprise solutions for each unknown.".toList ++ eol ++
    body.flatten)

/-- output_latex.py:254-270: the versions of a node; `rows` are the indices still to do -/
def versionEqns (final : List (List (Text × Text))) (nvers : Nat) (col : Int) : List Nat → Option Text
  | [] => some []
  | row :: rows => do
    let r ← final[row]?
    let e ← pyGet r col
    let rest ← versionEqns final nvers col rows
    let thisEOL := if decide ((row : Int) < (nvers : Int) - 1) then "\\\\".toList else []
    pure (latexOutput true e.1 e.2 ++ " ".toList ++ thisEOL ++ rest)

/-- output_latex.py:234-277 -/
def versionNode (final : List (List (Text × Text))) (nvers : Nat) (n : LNode) : Option Text :=
  if n.method ≠ [] then do
    let body ← versionEqns final nvers (n.order - 1) (List.range nvers)
    pure (subSection n.sym n.method ++ "\\begin{align}".toList ++ body ++ ("\\end{align} ".toList ++ eol) ++ eol ++ eol)
  else some []

/-- output_latex.py:230-279 -/
def versionSection (nodes : List LNode) (final : List (List (Text × Text))) (nvers : Nat) : Option Text := do
  let body ← nodes.mapM (versionNode final nvers)
  pure ("\\section{Solutions to Generate all Versions} ".toList ++ eol ++
    " The following equations are the full set of solutions for each unknown\n    incorporating all combinations of dependencies.".toList ++ eol ++
    body.flatten)

/-- output_latex.py:291-303: `i` counts the edges -/
def edgeLines : Nat → List Text → Text
  | _, [] => []
  | i, e :: es => e ++ (if (i + 1) % 2 = 0 then eol else "     ".toList) ++ edgeLines (i + 1) es

/-- output_latex.py:283-307 -/
def edgeSection (edges : List Text) : Text :=
  "\\section{Solution Graph (Edges)} ".toList ++ eol ++
  "\nThe following is the abstract representation of solution graph for this manipulator (nodes with parent -1 are roots).  Future: graphic representation. :\n\\begin{verbatim}\n".toList ++
  edgeLines 0 edges ++ "\\end{verbatim} ".toList ++ eol

/-- output_latex.py:312-326 -/
def setSection (groups : List Text) : Text :=
  "\\section{Solution Set}".toList ++ eol ++
  "\nThe following are the sets of joint solutions (poses) for this manipulator:\n\\begin{verbatim}\n".toList ++
  (groups.map (· ++ eol)).flatten ++ "\\end{verbatim}".toList ++ eol ++ eol

/-- output_latex.py:335-339; `none`: `s[0]` does not exist -/
def tableRow : List Text → Option Text
  | [] => none
  | v :: vs => some ("$".toList ++ v ++ "$".toList ++ (vs.map fun v => " & $".toList ++ v ++ "$ ".toList).flatten ++ "\\\\\\hline".toList ++ eol)

/-- output_latex.py:331-342; `none`: the set is empty, or one of its tuples is -/
def tableSection (table : List (List Text)) : Option Text := do
  let first ← table.head?
  let rows ← table.mapM tableRow
  pure ("\\section{Solution Set v3} \\begin{tabular}{".toList ++ ("|".toList ++ (List.replicate first.length "l|".toList).flatten) ++
    "}\\hline".toList ++ eol ++ rows.flatten ++ "\\end{tabular}".toList ++ eol)

/-- output_latex.py:377-380 -/
def jacColumn (c : Nat) (t : Text) : Text :=
  "\\mathrm{".toList ++ " Column \\quad".toList ++ colNo c ++ "}\\\\".toList ++ eol ++ t ++ eol ++ "\\\\ ".toList ++ eol

/-- output_latex.py:364-384 -/
def jacSection (cols : List Text) : Text :=
  "\\newpage\n\\section{Jacobian Matrix}\n\n".toList ++ "\\begin{dmath}".toList ++ eol ++ "^6J_6  = ".toList ++ "\\\\".toList ++ eol ++
  (cols.mapIdx jacColumn).flatten ++ "\\end{dmath}".toList ++ eol

/-- the sections in the order in which they are appended (output_latex.py:108-386) -/
def reportSections (r : Report) : Option (List Text) := do
  let generic ← genericSection r.nodes
  let versions ← versionSection r.nodes r.final r.nversions
  let table ← tableSection r.table
  pure [introSection r.name, paramSection r.dh, fkSection r.lhs r.fk, unkSection r.nodes, generic, versions, edgeSection r.edges,
    setSection r.groups, table, jacSection r.jac]

/-- `LatexFile.output` (output_latex.py:59-66), between the preamble and the closing lines -/
def sectionsText (ss : List Text) : Text := (ss.map fun s => "\n\n\n".toList ++ plines (splitLines s)).flatten

/-- The body of the report; `none`: an exception, no file is written -/
def reportBody (r : Report) : Option Text := (reportSections r).map sectionsText

/-! ## The report of the forward kinematics -/

/-- output_latex.py:412-426 -/
def fkIntro (name : Text) : Text :=
  "\n    \\begin{center}\n    \\section*{Forward Kinematic Computations for ".toList ++ texName name ++
  "}\n    \\today\n    \\end{center}\n    \\section{Introduction}\n    This report gives the forward kinematics solutions for ".toList ++
  texName name ++
  ".\n    These equations are automatically generated by the \\href{https://github.com/uw-biorobotics/IKBT}{IK-BT package}\n    from the University of Washington Biorobotics Lab.\n    The IK-BT package is described in\n    \\url{https://arxiv.org/abs/1711.05412}.\n    IK-BT derives your inverse kinematics equations\n    using {\\tt Python 3.8} and the {\\tt sympy 1.9} module for symbolic mathematics.\n    ".toList

/-- output_latex.py:452-454: a column of the forward kinematics -/
def fkColumn' (c : Nat) (t : Text) : Text :=
  "\\mathrm{Column \\quad".toList ++ colNo c ++ "}\\\\".toList ++ eol ++ t ++ "\\\\".toList ++ eol

/-- output_latex.py:440-461 -/
def fkSection' (lhs : Text) (cols : List Text) : Text :=
  "\\section{Forward Kinematic Equations}\n    The forward kinematic equations for this robot are:".toList ++ eol ++
  "\\begin{dmath} ".toList ++ eol ++ lhs ++ "= \\\\".toList ++ eol ++
  (cols.mapIdx fkColumn').flatten ++
  "\\end{dmath}".toList ++ eol ++ "Note: column numbers use math notation rather than python indeces.".toList ++ eol

/-- output_latex.py:479-482 -/
def jacColumn' (c : Nat) (t : Text) : Text :=
  "\\mathrm{Column \\quad ".toList ++ colNo c ++ "}\\\\".toList ++ eol ++ t ++ eol ++ "\\\\ ".toList ++ eol

/-- output_latex.py:467-487 -/
def jacSection' (cols : List Text) : Text :=
  "\\newpage\n\\section{Jacobian Matrix}\n\n".toList ++ "\\begin{dmath}".toList ++ eol ++ "^6J_6  = \\\\".toList ++ eol ++
  (cols.mapIdx jacColumn').flatten ++ "\\end{dmath}".toList ++ eol

/-- `output_FK_equations` (output_latex.py:397-490); the attributes of the robot are those of `Report` -/
def fkReportBody (r : Report) : Text :=
  sectionsText [fkIntro r.name, paramSection r.dh, fkSection' r.lhs r.fk, jacSection' r.jac]

end Verif.Out
