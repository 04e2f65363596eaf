import Verif.Out.CppLine
import Verif.Leaf.Model
/-!
# Model of the code generators
`output_cpp_code` (ikbtfunctions/output_cpp.py:56-282) and `output_python_code` (ikbtfunctions/output_python.py:164-395)

Fixed text that neither contains a brace line nor an assignment to a variable of the solution (headers, comments, declarations of inputs,
the test code of the python file) is left out. Text is a list of characters.
-/
namespace Verif.Out
open Verif.Leaf

/-- `pat` is a prefix of the text -/
def startsWith : Text → Text → Bool
  | [], _ => true
  | p :: ps, c :: cs => p == c && startsWith ps cs
  | _ :: _, [] => false

/-- python's `pat in t` (also `re.search(pat, t)` for a pattern without special characters) -/
def within (pat : Text) : Text → Bool
  | [] => startsWith pat []
  | c :: cs => startsWith pat (c :: cs) || within pat cs

/-- `str.join` of what the leaves append to `solvemethod` -/
def Tag.piece : Tag → Text
  | .algebra => "algebra".toList              -- algebra_solver.py:190
  | .arcsin => "arcsin".toList                -- sincos_solver.py:133-135
  | .arccos => "arccos".toList                -- sincos_solver.py:145-147
  | .atan2 => "atan2(y,x)".toList             -- tan_solver.py:196, rank_leaf.py:91
  | .sinANDcos => "sinANDcos".toList          -- sinANDcos_solver.py:138
  | .simu => "simultaneous eqn".toList        -- two_eqn_m7.py:144
  | .x2z2 => "x2z2 transform and ".toList     -- x2y2_transform.py:278
  | .bestRanked => ", best ranked, ".toList   -- rank_leaf.py:74
  | .sinOrCos => "sin or cos".toList          -- rank_leaf.py:85

/-- one `u.solvemethod += ...`; `arcsin` and `arccos` are preceded by a comma if something is there (sincos_solver.py:132-147) -/
def addTag (m : Text) (t : Tag) : Text :=
  if (t = .arcsin ∨ t = .arccos) ∧ m ≠ [] then m ++ ", ".toList ++ Tag.piece t else m ++ Tag.piece t

/-- the string `solvemethod` (initially empty, kin_cl.py:100) -/
def methodText (ts : List Tag) : Text := ts.foldl addTag []

/-- What the generators read of a node (solutionGraphV3.py:30-37): the solve order of its unknown, method and argument -/
structure GNode where
  order : Nat
  method : Text
  arg : Text

/-- `FinalEqnMatrix` (ik_classes.py:200-226): rows of equations, as text `(str(LHS), str(RHS))` -/
abbrev FMat := List (List (Text × Text))

/-- python's indexing: negative indices count from the end; `none`: IndexError -/
def pyGet {α : Type} (l : List α) (i : Int) : Option α :=
  if 0 ≤ i then l[i.toNat]? else if -i ≤ l.length then l[l.length - (-i).toNat]? else none

/-! ## C++ -/

/-- the calls of the writer object (output_cpp.py:30-54); `asgn l r` is `c.line(l + ' = ' + r + ';')` -/
inductive Op where
  | line (t : Text)
  | asgn (lhs rhs : Text)
  | push
  | pop
  deriving DecidableEq, Repr

/-- output_cpp.py:36-54: the lines printed, with their indentation; `push` prints after incrementing, `pop` before decrementing -/
def emit : Int → List Op → List (Int × Text) × Int
  | lv, [] => ([], lv)
  | lv, .line t :: r => let (o, l) := emit lv r; ((lv, cppLine t) :: o, l)
  | lv, .asgn a b :: r => let (o, l) := emit lv r; ((lv, cppLine (a ++ " = ".toList ++ b ++ ";".toList)) :: o, l)
  | lv, .push :: r => let (o, l) := emit (lv + 1) r; ((lv + 1, "{".toList) :: o, l)
  | lv, .pop :: r => let (o, l) := emit (lv - 1) r; ((lv, "}".toList) :: o, l)

/-- output_cpp.py:202 -/
def isTrig (m : Text) : Bool := m == "arcsin".toList || m == "arccos".toList

/-- output_cpp.py:173-236: what is written for one version (row) of one unknown -/
def cppVersion (n : GNode) (e : Text × Text) : List Op :=
  [.line ("// solvemethod: ".toList ++ n.method)] ++
  (if isTrig n.method then
    [.line ("argument = ".toList ++ n.arg), .line "if (solvable_pose && fabs(argument) > 1)".toList, .push,
     .line "solvable_pose = False; ".toList, .pop, .line "else if (solvable_pose)".toList, .push,
     .asgn e.1 (n.method ++ "(argument)".toList), .pop] else []) ++
  (if !isTrig n.method && within "atan2(y,x)".toList n.method then [.asgn e.1 e.2] else []) ++
  (if within "algebra".toList n.method then [.asgn e.1 e.2] else []) ++
  (if within "x2z2".toList n.method then [.asgn e.1 e.2] else []) ++
  (if within "simultaneous eqn".toList n.method then [.asgn e.1 e.2] else [])

/-- output_cpp.py:171-236: all versions of one node; `nversions` is the number of rows of the matrix (ik_classes.py:226) -/
def cppNode (mat : FMat) (n : GNode) : Option (List Op) :=
  (mat.mapM fun row => (pyGet row (n.order - 1)).map (cppVersion n)).map List.flatten

/-- output_cpp.py:165-236: the loop over the nodes -/
def cppNodes (mat : FMat) (nodes : List GNode) : Option (List Op) :=
  (nodes.mapM (cppNode mat)).map List.flatten

/-- the order of python's strings -/
def tle : Text → Text → Bool
  | [], _ => true
  | _ :: _, [] => false
  | a :: as, b :: bs => if a = b then tle as bs else a.val ≤ b.val

def tinsert (x : Text) : List Text → List Text
  | [] => [x]
  | y :: ys => if tle x y then x :: y :: ys else y :: tinsert x ys
/-- `g.sort()` -/
def tsort : List Text → List Text
  | [] => []
  | x :: xs => tinsert x (tsort xs)

def natText (n : Nat) : Text := Nat.toDigits 10 n

/-- output_cpp.py:264-271: one group -/
def packRow (i : Nat) : Nat → List Text → List Op
  | _, [] => []
  | j, v :: vs => .asgn ("solution_list[".toList ++ natText i ++ "][".toList ++ natText j ++ "]".toList) v :: packRow i (j + 1) vs

/-- output_cpp.py:247-273: the packing of the groups, in the order in which the set is iterated -/
def packRows : Nat → List (List Text) → List Op
  | _, [] => []
  | i, g :: gs => packRow i 0 (tsort g) ++ packRows (i + 1) gs

/-- output_cpp.py:111-124: `main` -/
def cppMain : List Op :=
  [.line "int main()".toList, .push, .line "double T[4][4] = { {1,0,0,0},{0,1,0,0},{0,0,1,0},{0,0,0,1}, };".toList,
   .line "double sol_list[64][6] = {0};  // list of solutions".toList, .line "if(ikin(T, sol_list))".toList, .push,
   .line "std::cout << sol_list;".toList, .pop, .line "else".toList, .push,
   .line "std::cout <<  \"No valid solution\" ;".toList, .pop, .pop]

/-- output_cpp.py:56-282 -/
def cppCode (nodes : List GNode) (mat : FMat) (groups : List (List Text)) : Option (List Op) :=
  (cppNodes mat nodes).map fun body =>
    cppMain ++ [.line "int ikin(double T[4][4], double solution_list[64][6] )".toList, .push] ++ body ++ packRows 0 groups ++
      [.line "return(solvable_pose);".toList, .pop]

/-! ## Python -/

/-- statements of the generated function -/
inductive PyOp where
  /-- `if (solvable_pose and abs g > 1): solvable_pose = False else: lhs = rhs` -/
  | guarded (g lhs rhs : Text)
  | asgn (lhs rhs : Text)
  /-- `solution_list.append([ ... ])` -/
  | pack (vs : List Text)
  deriving DecidableEq, Repr

/-- the text up to and with the last `)`; empty if there is none -/
def upToLast : Text → Text
  | [] => []
  | c :: cs => match upToLast cs with
    | [] => if c = ')' then [c] else []
    | r => c :: r

/-- output_python.py:272 `re.search('\((.*)\)', t).group(0)`: from the first `(` to the last `)`; `none`: no match, AttributeError. -/
def argText : Text → Option Text
  | [] => none
  | '(' :: cs => match upToLast cs with
    | [] => argText cs
    | r => some ('(' :: r)
  | _ :: cs => argText cs

/-- output_python.py:270-286: one version of one unknown -/
def pyVersion (n : GNode) (e : Text × Text) : Option (List PyOp) :=
  let a := if within "asin".toList e.2 || within "acos".toList e.2 then
      (argText e.2).map fun g => [PyOp.guarded g e.1 e.2]
    else some []
  -- the second `re.search` of line 280 is not used, and `None` does no harm there
  a.map fun ops => ops ++
    (if within "atan".toList e.2 then [PyOp.asgn e.1 e.2] else []) ++
    (if n.method = "algebra".toList then [PyOp.asgn e.1 e.2] else [])

def pyNode (mat : FMat) (n : GNode) : Option (List PyOp) :=
  (mat.mapM fun row => (pyGet row (n.order - 1)).bind (pyVersion n)).map List.flatten

/-- output_python.py:259-286 and 313-332: statements of the generated function in order -/
def pyCode (nodes : List GNode) (mat : FMat) (groups : List (List Text)) : Option (List PyOp) :=
  ((nodes.mapM (pyNode mat)).map List.flatten).map fun body => body ++ groups.map fun g => .pack (tsort g)

end Verif.Out
