import Verif.Out.CodeGen
/-!
# Model of the text of the file written by `output_python_code` (ikbtfunctions/output_python.py:164-395)

The lines of the file, without the newline characters. Fixed text is copied from the source.
-/
namespace Verif.Out

/-- `name.replace('test: ', '')` (output_python.py:181-182) -/
def dropTest : Text → Text
  | 't' :: 'e' :: 's' :: 't' :: ':' :: ' ' :: cs => dropTest cs
  | c :: cs => c :: dropTest cs
  | [] => []

/-- `name.replace('_', '\_')`, meant for LaTeX (output_python.py:180) -/
def escU : Text → Text
  | [] => []
  | c :: cs => if c = '_' then '\\' :: '_' :: escU cs else c :: escU cs

/-- `funcname` (output_python.py:180-181, 209) -/
def pyFuncName (name : Text) : Text := "ikin_".toList ++ dropTest (escU name)

/-- output_python.py:166-179: the lines after the one with the robot's name -/
def pyImports : List String :=
  ["",
   "import numpy as np",
   "from math import sqrt",
   "from math import atan2",
   "from math import cos",
   "from math import sin",
   "from math import acos",
   "from math import asin",
   "",
   "pi = np.pi",
   "",
   ""]
/-- output_python.py:210-214 -/
def pyIntro : List String :=
  ["",
   "# Auto Generated Code to solve the unknowns",
   "#        parameter:  T   4x4 numerical target for T06",
   "#",
   ""]
/-- output_python.py:219-238 -/
def pyInputs : List String :=
  ["#define the input vars ",
   "    r_11 = T[0,0]",
   "    r_12 = T[0,1]",
   "    r_13 = T[0,2]",
   "    r_21 = T[1,0]",
   "    r_22 = T[1,1]",
   "    r_23 = T[1,2]",
   "    r_31 = T[2,0]",
   "    r_32 = T[2,1]",
   "    r_33 = T[2,2]",
   "    Px = T[0,3]",
   "    Py = T[1,3]",
   "    Pz = T[2,3]",
   "",
   "#",
   "# Caution:    Generated code is not yet validated",
   "#",
   "",
   "    "]
/-- output_python.py:240 -/
def pyParamHead : List String :=
  ["#  Declare the parameters"]
/-- output_python.py:244-260 -/
def pyCaution : List String :=
  ["    print ( \" Caution - this code has no solution checking.\")",
   "    print (\"in case of domain errors, change the test position / orientation \")",
   "    print ( \" to a pose reachable by your specific robot\")",
   "    ",
   "    solvable_pose = True",
   "    ",
   " ",
   "#############################################################",
   "#",
   "# Future reachable pose checking code (autogenerated) will go here",
   "#",
   "#    This code will check asin / acos args etc to determine",
   "#",
   "#        solvable_pose = True/False",
   "#",
   "#############################################################",
   " "]
/-- output_python.py:288-294 -/
def pyPackHead : List String :=
  ["",
   "##################################",
   "#",
   "#package the solutions into a list for each set",
   "#",
   "###################################",
   ""]
/-- output_python.py:334-338 -/
def pyReturn : List String :=
  ["    if(solvable_pose):",
   "        return(solution_list)",
   "    else: ",
   "        return(False)"]
/-- output_python.py:341-379, up to the line with the call -/
def pyTest : List String :=
  ["",
   "",
   "#",
   "#    TEST CODE",
   "#",
   "if __name__ == \"__main__\":",
   "",
   "#  4x4 transforms which are pure rotations",
   "",
   "    def RotX4_N(t):",
   "      return(np.matrix([",
   "        [1,         0,           0,      0],",
   "        [0, np.cos(t),  -np.sin(t),      0],",
   "        [0, np.sin(t),   np.cos(t),      0],",
   "        [0,0,0,1.0]",
   "        ]))",
   "",
   "    def RotY4_N(t):",
   "      return(np.matrix([",
   "        [ np.cos(t),   0,      np.sin(t),    0],",
   "        [0,            1,          0    ,    0],",
   "        [-np.sin(t),   0,      np.cos(t),    0],",
   "        [0,0,0,1]",
   "        ]))",
   "",
   "    def RotZ4_N(t):",
   "      return(np.matrix([",
   "        [ np.cos(t),  -np.sin(t),       0,    0],",
   "        [ np.sin(t),   np.cos(t),       0,    0],",
   "        [ 0,              0,            1,    0],",
   "        [0,0,0,1]",
   "        ]))",
   "",
   "    px = 0.2   # desired EE position",
   "    py = 0.3",
   "    pz = 0.6",
   "    th = np.pi/7  # just a random angle",
   "",
   "    # generate a 4x4 pose to test IK",
   "",
   "    T1 = RotX4_N(th) * RotY4_N(2*th)  # combine two rotations",
   "    T1[0,3] = px",
   "    T1[1,3] = py",
   "    T1[2,3] = pz",
   "",
   "    # try the Puma IK",
   ""]
/-- output_python.py:381-390, after the line with the call -/
def pyTestEnd : List String :=
  ["",
   "    i = 0",
   "    for sol in list:",
   "        print ''",
   "        print 'Solution ', i",
   "        i+=1",
   "        print sol",
   "",
   "",
   "    "]

/-- output_python.py:191-200: the declarations of the parameters. `pvals` as in `fkDecls`; `none`: KeyError. The text begins and ends with
an empty line. -/
def pyParams (pvals : List (Text × Text)) (params : List Text) : Option (List Text) :=
  (if pvals.isEmpty then
    some (params.map fun p => p ++ " = XXXXX    # deliberate undeclared error!  USER needs to give numerical value ".toList)
  else params.mapM fun p => (pvals.lookup p).map fun v => p ++ " = ".toList ++ v).map fun l => [] :: l ++ [[]]

/-- output_python.py:270-286 and 318-324: the lines of a statement -/
def PyOp.lines : PyOp → List Text
  | .guarded g x r => ["    if (solvable_pose and abs ".toList ++ g ++ "  > 1):".toList, "        solvable_pose = False".toList,
      "    else:".toList, "        ".toList ++ x ++ " = ".toList ++ r]
  | .asgn x r => ["    ".toList ++ x ++ " = ".toList ++ r]
  | .pack vs => ["    #(note trailing commas allowed in python".toList, "    solution_list.append( [ ".toList] ++
      (vs.map fun v => v ++ ", ".toList) ++ ["] )".toList]

/-- output_python.py:259-286: the lines of a node, with the name of its variable -/
def pyNodeLines (mat : FMat) (n : Text × GNode) : Option (List Text) :=
  (pyNode mat n.2).map fun ops => [[], [], "    #Variable:  ".toList ++ n.1] ++ (ops.map PyOp.lines).flatten

/-- output_python.py:164-395: the whole file -/
def pyFile (name : Text) (pvals : List (Text × Text)) (params : List Text) (nodes : List (Text × GNode)) (mat : FMat)
    (groups : List (List Text)) : Option (List Text) :=
  match pyParams pvals params, nodes.mapM (pyNodeLines mat) with
  | some ps, some body => some (
      ["#!/usr/bin/python".toList, "#  Python inverse kinematic equations for ".toList ++ name] ++
      pyImports.map String.toList ++ pyIntro.map String.toList ++
      ["def ".toList ++ pyFuncName name ++ "(T):".toList, "    if(T.shape != (4,4)):".toList,
       "        print ( \"bad input to \"+funcname)".toList, "        quit()".toList] ++
      pyInputs.map String.toList ++ pyParamHead.map String.toList ++ ps ++ pyCaution.map String.toList ++
      body.flatten ++ pyPackHead.map String.toList ++ ["    solution_list = []".toList] ++
      (groups.map fun g => (PyOp.pack (tsort g)).lines).flatten ++
      pyReturn.map String.toList ++ pyTest.map String.toList ++
      ["    list = ".toList ++ pyFuncName name ++ "(T1)".toList] ++ pyTestEnd.map String.toList)
  | _, _ => none

end Verif.Out
