import Verif.Out.PyFile

/-!
# What the programs leave on disk

`ikSolver.py` and `fkOnly.py` as sequences of file operations; the process may be killed (or interrupted) before any of them.
What is computed between the operations is a parameter (`Prog`): the theorems hold for all of it.

Sources: ikSolver.py:98-117, 325-412, fkOnly.py:104-146, ik_classes.py:66-135, output_latex.py:41-75, 79-90, 397-410, output_python.py:46-51, 155, 180-189, 393,
output_cpp.py:56-66, 281. Not modelled: directories (the ones written to exist in the repository, `fk_eqns/` is made by the program), errors of the
file system, loss of data after `close` (power failure).
-/
namespace Verif.Main.Disk
open Verif.Out

abbrev Path := Text

/-- the files of the working directory: their contents -/
abbrev Disk := Path → Option Text

/-- What the programs compute. `D`: robot descriptions (`robot_params`), `K`: the objects `[m, R, unknowns]`, `S`: the solved robot. -/
structure Prog (D K S : Type) where
  /-- forward kinematics and equations of a robot without pickle (ik_classes.py:89-108) -/
  fk : D → K
  /-- the description after that: `forward_kinematics` appends to the caller's list of parameters (kin_cl.py:284-296) -/
  grown : D → D
  /-- `pickle.dump`, `pickle.load` (`none`: an exception) -/
  dump : K → Text
  load : Text → Option K
  /-- `check_the_pickle` goes on (ik_classes.py:118-135) -/
  same : K → D → Bool
  /-- ikSolver.py:119-404: the solver, with `R.params = params`; `none`: an exception -/
  solve : K → D → Option S
  /-- the text of the report, from preamble and close (output_latex.py:79-388); `none`: an exception while it is made -/
  tex : S → Text → Text → Option Text
  /-- the text that `output_python_code` writes, and whether it ends with an exception (output_python.py:191-391) -/
  py : S → Text × Bool
  /-- the same for `output_cpp_code` (output_cpp.py:67-280) -/
  cpp : S → Text × Bool
  /-- the same for `output_FK_python_code` (output_python.py:53-154) -/
  fkpy : K → D → Text × Bool
  /-- the report of `output_FK_equations` (output_latex.py:397-486) -/
  fktex : K → D → Text → Text → Option Text

/-- The process: the disk, the file that is open for writing, and the number of file operations after which it is killed (`none`: never). -/
structure Proc where
  disk : Disk
  opened : Option Path
  left : Option Nat

/-- how a process ends early -/
inductive Stop where | killed | raised | quit
  deriving DecidableEq, Repr

/-- state and outcome -/
abbrev R (α : Type) := Proc × Except Stop α

/-- one after the other (helper of the model) -/
def R.andThen {α β : Type} (r : R α) (k : α → Proc → R β) : R β :=
  match r.2 with
  | .ok a => k a r.1
  | .error e => (r.1, .error e)

/-- one file operation, unless the process is killed before it -/
def op (f : Proc → Proc) (s : Proc) : R Unit :=
  match s.left with
  | none => (f s, .ok ())
  | some 0 => (s, .error .killed)
  | some (k + 1) => ({ f s with left := some k }, .ok ())

/-- contents of a file replaced (helper of the model) -/
def Disk.set (d : Disk) (p : Path) (t : Text) : Disk := fun q => if q = p then some t else d q

/-- `f = open(fname, 'w')`: the file exists and is empty -/
def openW (p : Path) (s : Proc) : Proc := { s with disk := s.disk.set p [], opened := some p }

/-- all the writes into a file -/
def write (p : Path) (t : Text) (s : Proc) : Proc := { s with disk := s.disk.set p ((s.disk p).getD [] ++ t) }

/-- `f.close()` -/
def close (s : Proc) : Proc := { s with opened := none }

/-- A file written from open to close. `t.2`: an exception before `close`; then the interpreter closes the file as it ends. -/
def save (p : Path) (t : Text × Bool) (s : Proc) : R Unit :=
  (op (openW p) s).andThen fun _ s => (op (write p t.1) s).andThen fun _ s => (op close s).andThen fun _ s =>
    if t.2 then (s, .error .raised) else (s, .ok ())

/-- ik_classes.py:75-82: `pickle_dir + rname + '_pickle.p'` -/
def pickleFile (n : Text) : Path := "fk_eqns/".toList ++ n ++ "_pickle.p".toList

/-- output_latex.py:42-45: `fname + '.tex'`, unless that ends in `.tex.tex` -/
def latexName (fname : Text) : Path :=
  let g := fname ++ ".tex".toList
  if ".tex.tex".toList.isSuffixOf g then g.take (g.length - 4) else g

/-- output_latex.py:83-88 -/
def ikTexFile (n : Text) : Path := latexName ("LaTex/ik_solution_".toList ++ dropTest n ++ ".tex".toList)

/-- output_latex.py:401-406 -/
def fkTexFile (n : Text) : Path := latexName ("LaTex/fk_equations_".toList ++ dropTest n ++ ".tex".toList)

/-- output_python.py:182-185 -/
def ikPyFile (n : Text) : Path := "CodeGen/Python/IK_equations".toList ++ dropTest n ++ ".py".toList

/-- output_python.py:48-50 -/
def fkPyFile (n : Text) : Path := "CodeGen/Python/FK_equations".toList ++ dropTest n ++ ".py".toList

/-- output_cpp.py:60-65 -/
def cppFile (n : Text) : Path := "CodeGen/Cpp/IK_equations".toList ++ dropTest n ++ ".cpp".toList

/-- output_latex.py:51, 54 -/
def preambleFile : Path := "LaTex/IK_preamble.tex".toList
def closeFile : Path := "LaTex/IK_close.tex".toList

variable {D K S : Type}

/-- ik_classes.py:66-115 `kinematics_pickle`: the objects, and the description as the caller has it now -/
def stored (P : Prog D K S) (n : Text) (d : D) (s : Proc) : R (K × D) :=
  match s.disk (pickleFile n) with
  | some t => match P.load t with
    | none => (s, .error .raised)
    | some k => (s, .ok (k, d))
  | none => (save (pickleFile n) (P.dump (P.fk d), false) s).andThen fun _ s => (s, .ok (P.fk d, P.grown d))

/-- ikSolver.py:109-117 (fkOnly.py:113-121): the pickle, and the check of it -/
def kinematics (P : Prog D K S) (n : Text) (d : D) (s : Proc) : R (K × D) :=
  (stored P n d s).andThen fun kd s => if P.same kd.1 kd.2 then (s, .ok kd) else (s, .error .quit)

/-- output_latex.py:41-75 with the function that makes the sections: the templates are read, the report is made, then the file is written. -/
def report (p : Path) (make : Text → Text → Option Text) (s : Proc) : R Unit :=
  match s.disk preambleFile, s.disk closeFile with
  | some a, some b => match make a b with
    | some t => save p (t, false) s
    | none => (s, .error .raised)
  | _, _ => (s, .error .raised)

/-- ikSolver.py -/
def ikSolver (P : Prog D K S) (n : Text) (d : D) (s : Proc) : R Unit :=
  (kinematics P n d s).andThen fun kd s =>
    match P.solve kd.1 kd.2 with
    | none => (s, .error .raised)
    | some r => (report (ikTexFile n) (P.tex r) s).andThen fun _ s =>
        (save (ikPyFile n) (P.py r) s).andThen fun _ s => save (cppFile n) (P.cpp r) s

/-- fkOnly.py -/
def fkOnly (P : Prog D K S) (n : Text) (d : D) (s : Proc) : R Unit :=
  (kinematics P n d s).andThen fun kd s =>
    (save (fkPyFile n) (P.fkpy kd.1 kd.2) s).andThen fun _ s => report (fkTexFile n) (P.fktex kd.1 kd.2) s

/-- A run of one of the programs: robot, description, and `kill = some (k, m)`: the process is killed before its `k`-th file operation (from 0), and
the last `m` characters written to the file that is open are lost (they were in the buffer). -/
structure Run (D : Type) where
  solver : Bool
  name : Text
  desc : D
  kill : Option (Nat × Nat)

/-- The disk when the process has ended: of the file that is open when the process is killed, the last `lost` characters are missing. -/
def fin {α : Type} (lost : Nat) (e : R α) : Disk :=
  match e.2, e.1.opened with
  | .error .killed, some p => fun q => if q = p then (e.1.disk p).map fun t => t.take (t.length - lost) else e.1.disk q
  | _, _ => e.1.disk

/-- The disk after a run. -/
def after (P : Prog D K S) (d : Disk) (r : Run D) : Disk :=
  fin ((r.kill.map (·.2)).getD 0)
    ((if r.solver then ikSolver P r.name r.desc else fkOnly P r.name r.desc) ⟨d, none, r.kill.map (·.1)⟩)

/-- a history of runs -/
def afterAll (P : Prog D K S) (d : Disk) (rs : List (Run D)) : Disk := rs.foldl (after P) d

end Verif.Main.Disk
