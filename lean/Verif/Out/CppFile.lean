import Verif.Out.CppBounds
/-!
# Model of the whole C++ file (ikbtfunctions/output_cpp.py:56-282)

`cppCode` keeps the statements; here are all lines of the file, in order: header, declarations, inputs, comments.
-/
namespace Verif.Out
open Verif.Leaf Verif.Sol

/-- output_cpp.py:37 `str.split('\n')` -/
def splitNl : Text → List Text
  | [] => [[]]
  | c :: cs => if c = '\n' then [] :: splitNl cs else
    match splitNl cs with
    | [] => [[c]]
    | l :: ls => (c :: l) :: ls

/-- output_cpp.py:36-47 `c.line` of a text with line breaks -/
def multi (t : Text) : List Op := (splitNl t).map .line

/-- output_cpp.py:71-86, the text before the robot's name -/
def headText1 : Text := "//\n//  C++ inverse kinematic equations for ".toList
/-- output_cpp.py:71-86, the text after the robot's name -/
def headText2 : Text := "\n\n\n#include <math.h>\n#include <stdio.h>\n#include <iostream>\n\ndouble pi = 3.1415926;\n\n// ikin_Wrists modifies solution_list in-place and\n// returns 1 for valid solutions and 0 for no solutions\nint ikin(double T[4][4], double solution_list[64][6]);\n\n".toList

/-- output_cpp.py:127 -/
def ikinHead : Text := "int ikin(double T[4][4], double solution_list[64][6] )".toList

/-- output_cpp.py:131-156 -/
def inputText : Text := "\n//define the input vars\ndouble r_11 = T[0][0];\ndouble r_12 = T[0][1];\ndouble r_13 = T[0][2];\ndouble r_21 = T[1][0];\ndouble r_22 = T[1][1];\ndouble r_23 = T[1][2];\ndouble r_31 = T[2][0];\ndouble r_32 = T[2][1];\ndouble r_33 = T[2][2];\ndouble Px = T[0][3];\ndouble Py = T[1][3];\ndouble Pz = T[2][3];\n\ndouble argument;\n\n//\n// Caution:    Generated code is not yet validated\n//\n\nint True = 1;\nint False = 0;\n".toList

/-- output_cpp.py:97-101: `'double' + ' a,' + ' b,'`, without its last character, and a semicolon -/
def varDecl (vars : List Text) : Text :=
  ("double".toList ++ vars.flatMap fun v => ' ' :: v ++ [',']).dropLast ++ [';']

/-- output_cpp.py:106, after the name -/
def parTail : Text := " = XXXXX ; \\ deliberate undeclared error!  USER needs to give numerical value".toList

/-- output_cpp.py:105-106: the line of one parameter -/
def parDecl (p : Text) : Text := "double ".toList ++ (p ++ parTail)

/-- output_cpp.py:173-236: all lines of one version of one unknown; `k` counts the solutions (line 177) -/
def fileVersion (n : GNode) (k : Nat) (e : Text × Text) : List Op :=
  [.line [], .line ("// solution ".toList ++ natText k), .line ("// solvemethod: ".toList ++ n.method),
   .line ("//    argument: ".toList ++ n.arg)] ++
  (if isTrig n.method then .line "// Arcsin() or Arccos() based solution:".toList :: (cppVersion n e).tail else (cppVersion n e).tail)

/-- output_cpp.py:165-236: all lines of one node; `sym` is `str(node.symbol)` -/
def fileNode (mat : FMat) (sn : Text × GNode) : Option (List Op) :=
  ((mat.zipIdx).mapM fun rk => (pyGet rk.1 (sn.2.order - 1)).map (fileVersion sn.2 rk.2)).map fun ls =>
    multi "\n\n".toList ++ [.line ("//Variable: ".toList ++ sn.1)] ++ ls.flatten

/-- output_cpp.py:238-262 -/
def packText : Text := "\n//##################################\n//#\n//#package the solutions into a list for each set\n//#\n//###################################\n".toList

/-- output_cpp.py:71-126: everything before the head of `ikin` -/
def filePre (name : Text) : List Op :=
  multi (headText1 ++ name ++ headText2) ++ (cppMain ++
    multi "\n// Code to solve the unknowns ".toList ++ multi "\n\n// Declarations".toList)

/-- output_cpp.py:130-159: inputs and declarations of variables -/
def fileDecls (vars params : List Text) : List Op :=
  .push :: (multi inputText ++ [.line "int solvable_pose = True;".toList, .line "// declare variables in solutions".toList]) ++
    [.line (varDecl vars)] ++ [.line [], .line "// declare constant parameters (note they will need values!)".toList, .line []] ++
    params.map (fun p => .line (parDecl p)) ++ [.line []]

/-- output_cpp.py:56-282: the whole file. `name` is the robot's name as it is written in the first comment, `vars` the set of the names in
the solutions in the order in which it is iterated (98), `params` the parameters, `nodes` the solved unknowns with their printed symbols. -/
def cppFile (name : Text) (vars params : List Text) (nodes : List (Text × GNode)) (mat : FMat) (groups : List (List Text)) : Option (List Op) :=
  (nodes.mapM (fileNode mat)).map fun bs =>
    filePre name ++ .line ikinHead :: (fileDecls vars params ++ bs.flatten ++
    (multi packText ++ [.line "//(note trailing commas allowed in C++".toList, .line []]) ++ packRows 0 groups ++
    (multi "\n\n".toList ++ [.line "// return 1 for solved, 0 for no solution".toList, .line "return(solvable_pose);".toList, .pop]))

end Verif.Out
