import Verif.Main.DiskClaims

/-!
# Several runs at the same time

The programs of `Main/Disk` step by step, so that steps of several processes (in several terminals, or started by a script for many robots) can alternate
in any order. Characters reach the disk one by one, in order, at any later time: a process that is killed, with characters still in the buffer, is one
that takes no more steps. Nothing is locked.

Sources: as in `Main/Disk`. Simplified: looking whether a file exists and reading it is one step; a file that is opened is truncated in the same step
(that is how `open(…, 'w')` works). Closing a file has no effect on the disk beyond the characters, and is no step.
-/
namespace Verif.Main.Disk
open Verif.Out

/-- What is left to do of a process. -/
inductive Act where
  /-- ended, at its end or early -/
  | ended (e : Option Stop)
  /-- a file is read (`none`: it does not exist) -/
  | look (p : Path) (k : Option Text → Act)
  /-- `open(p, 'w')` -/
  | trunc (p : Path) (k : Act)
  /-- a character reaches position `i` of the file -/
  | put (p : Path) (i : Nat) (c : Char) (k : Act)

/-- A character written at a position of the file's text; a gap before it is filled with zeros, as by the operating system. -/
def putAt (t : Text) (i : Nat) (c : Char) : Text :=
  if i < t.length then t.set i c else t ++ List.replicate (i - t.length) (Char.ofNat 0) ++ [c]

/-- One step of a process: output_latex.py:51-62, output_python.py:51, 186, output_cpp.py:66, ik_classes.py:82-84, 111-112. A file
that somebody has removed meanwhile does not occur: nothing removes files. -/
def step (d : Disk) : Act → Disk × Act
  | .ended e => (d, .ended e)
  | .look p k => (d, k (d p))
  | .trunc p k => (d.set p [], k)
  | .put p i c k => (d.set p (putAt ((d p).getD []) i c), k)

/-- characters written from position `i` on, then `k` (helper of the model) -/
def puts (p : Path) (i : Nat) : Text → Act → Act
  | [], k => k
  | c :: t, k => .put p i c (puts p (i + 1) t k)

/-- A file written from open to close (see `save`). -/
def saveA (p : Path) (t : Text × Bool) (k : Act) : Act :=
  .trunc p (puts p 0 t.1 (if t.2 then .ended (some .raised) else k))

variable {D K S : Type}

/-- ik_classes.py:66-115 `kinematics_pickle` -/
def storedA (P : Prog D K S) (n : Text) (d : D) (k : K → D → Act) : Act :=
  .look (pickleFile n) fun
    | some t => match P.load t with
      | none => .ended (some .raised)
      | some x => k x d
    | none => saveA (pickleFile n) (P.dump (P.fk d), false) (k (P.fk d) (P.grown d))

/-- ikSolver.py:109-117, fkOnly.py:113-121 -/
def kinematicsA (P : Prog D K S) (n : Text) (d : D) (k : K → D → Act) : Act :=
  storedA P n d fun x e => if P.same x e then k x e else .ended (some .quit)

/-- output_latex.py:41-75 with the function that makes the sections -/
def reportA (p : Path) (make : Text → Text → Option Text) (k : Act) : Act :=
  .look preambleFile fun a => match a with
    | none => .ended (some .raised)
    | some a => .look closeFile fun b => match b with
      | none => .ended (some .raised)
      | some b => match make a b with
        | some t => saveA p (t, false) k
        | none => .ended (some .raised)

/-- ikSolver.py -/
def ikSolverA (P : Prog D K S) (n : Text) (d : D) : Act :=
  kinematicsA P n d fun x e => match P.solve x e with
    | none => .ended (some .raised)
    | some r => reportA (ikTexFile n) (P.tex r) (saveA (ikPyFile n) (P.py r) (saveA (cppFile n) (P.cpp r) (.ended none)))

/-- fkOnly.py -/
def fkOnlyA (P : Prog D K S) (n : Text) (d : D) : Act :=
  kinematicsA P n d fun x e => saveA (fkPyFile n) (P.fkpy x e) (reportA (fkTexFile n) (P.fktex x e) (.ended none))

/-- A command: program, robot and description. -/
structure Cmd (D : Type) where
  solver : Bool
  name : Text
  desc : D

/-- a command as a process that has not begun -/
def start (P : Prog D K S) (c : Cmd D) : Act := if c.solver then ikSolverA P c.name c.desc else fkOnlyA P c.name c.desc

/-- `m` steps of one process alone -/
def alone : Nat → Disk × Act → Disk × Act
  | 0, s => s
  | m + 1, s => alone m (step s.1 s.2)

/-- Processes that run at the same time: `who` says which process takes the next step. -/
def together : List Nat → Disk × (Nat → Act) → Disk × (Nat → Act)
  | [], s => s
  | i :: who, (d, as) => together who ((step d (as i)).1, fun j => if j = i then (step d (as i)).2 else as j)

end Verif.Main.Disk
