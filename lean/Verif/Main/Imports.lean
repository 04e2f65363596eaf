import Verif.Main.ImportData

/-!
# Model: importing the modules of the library

The modules kin_cl, solutionGraphV3, matching and ik_classes import each other in a circle, partly with
`from … import *`.  Modelled here is what CPython (3.7 or later) does with the top-level statements of
`Verif.Main.ImportData`: `sys.modules` holds a module from the moment its execution *starts*; a module that is already
there is not executed again; `from m import *` copies the names that `m` has *at that moment*; `import m as n`
works also for a module that is not finished (IMPORT_FROM falls back to `sys.modules`).

Simplifications: none of the modules has `__all__` and none of the names starts with an underscore, so `*` means all names; the
packages' own `__init__.py` (which import nothing of the library) are left out; what the statements compute is left out, except
which names they need and bind.
-/

namespace Verif.Imports

/-- A module's dictionary, newest binding first. -/
abbrev Dict := List (N × Val)

/-- The value of a name. -/
def Dict.find (d : Dict) (n : N) : Option Val :=
  match d with
  | [] => none
  | (k, v) :: r => if k = n then some v else Dict.find r n

/-- Position of a module in the table of modules. -/
def Mod.idx : Mod → Nat
  | .pykinsym => 0 | .kin_cl => 1 | .solutionGraphV3 => 2 | .matching => 3 | .ik_classes => 4
  | .helperfunctions => 5 | .graph2latex => 6

/-- `sys.modules`, restricted to the modules of the model: `none` = not there. -/
abbrev Sys := List (Option Dict)

/-- A fresh interpreter. -/
def fresh : Sys := [none, none, none, none, none, none, none]

/-- `sys.modules.get(m)` -/
def Sys.get (s : Sys) (m : Mod) : Option Dict := (s[m.idx]?).join

/-- Store the dictionary of a module. -/
def Sys.put (s : Sys) (m : Mod) (d : Dict) : Sys := s.set m.idx (some d)

/-- What can go wrong: a NameError in a module (the module, the name), or the depth bound of the model (proved not to happen). -/
inductive Err where
  | nameError (m : Mod) (n : N)
  | tooDeep
  deriving DecidableEq, Repr

/-- The first of the names that is not bound. -/
def firstMissing (d : Dict) : List N → Option N
  | [] => none
  | n :: ns => if (d.find n).isSome then firstMissing d ns else some n

/-- Bind a name in the dictionary of the module that is being executed. -/
def Sys.bind (s : Sys) (m : Mod) (n : N) (v : Val) : Sys := s.put m ((n, v) :: (s.get m).getD [])

/-- Execute the statements of module `me`; `ld` imports a module. Statements: `Verif.Main.ImportData`. -/
def run (ld : Mod → Sys → Except Err Sys) (me : Mod) : List Stmt → Sys → Except Err Sys
  | [], s => .ok s
  | .importExt e n :: r, s => run ld me r (s.bind me n (.ext e))
  | .importAs m n :: r, s =>
    match ld m s with
    | .error e => .error e
    | .ok s => run ld me r (s.bind me n (.module m))
  | .star m :: r, s =>
    match ld m s with
    | .error e => .error e
    | .ok s => run ld me r (s.put me ((s.get m).getD [] ++ (s.get me).getD []))
  | .need ns :: r, s =>
    match firstMissing ((s.get me).getD []) ns with
    | some n => .error (.nameError me n)
    | none => run ld me r s
  | .bind n v :: r, s => run ld me r (s.bind me n v)
  | .del n :: r, s => run ld me r (s.put me (((s.get me).getD []).filter fun p => p.1 ≠ n))

/-- The import of a module: nothing if it is in `sys.modules`, otherwise it is entered there with an empty dictionary and
executed. The first argument bounds the depth of nested imports. -/
def load : Nat → Mod → Sys → Except Err Sys
  | 0, m, s => if (s.get m).isSome then .ok s else .error .tooDeep
  | k + 1, m, s => if (s.get m).isSome then .ok s else run (load k) m (body m) (s.put m [])

/-- `import m` in a program. There are 7 modules, so no more than 7 imports can be nested. -/
def importMod (m : Mod) (s : Sys) : Except Err Sys := load 7 m s

/-- A program that imports modules one after the other. -/
def importAll : List Mod → Sys → Except Err Sys
  | [], s => .ok s
  | m :: ms, s =>
    match importMod m s with
    | .error e => .error e
    | .ok s => importAll ms s

/-- The modules of the package ikbtbasics (the files of `/repo/ikbtbasics`). -/
def package : List Mod := [.ik_classes, .kin_cl, .matching, .pykinsym, .solutionGraphV3]

/-- The modules of the model that a program or module reaches when it is imported, in order; `glob` is the order in which
`from ikbtbasics import *` imports the package (ikbtbasics/__init__.py:7-8, the order of `glob.glob`). A client that is
imported twice is listed twice, which changes nothing. The number bounds the nesting of clients (ikSolver → rank_leaf →
tan_solver → updateL → ik_robots). -/
def reach (glob : List Mod) : Nat → List Target → List Mod
  | 0, ts => ts.flatMap fun t => match t with
    | .base m => [m]
    | .package => glob
    | .client _ => []
  | k + 1, ts => ts.flatMap fun t => match t with
    | .base m => [m]
    | .package => glob
    | .client c => reach glob k (imports c)

/-- The modules of the model that importing (or running) a client imports, in order. -/
def clientImports (glob : List Mod) (c : Client) : List Mod := reach glob 5 (imports c)

end Verif.Imports
