import Verif.Kin.Model
import Verif.Sym.Eval
/-!
# Model of the symbolic link transforms and of the numerical functions
(ikbtbasics/kin_cl.py:269-343 and 526-535, ikbtbasics/pykinsym.py:52-84 and 259-343)

Here symbolic matrices are matrices of expressions; `Kin.Model` has their values.
-/
namespace Verif.Kin
open Matrix Verif.Sym

/-- a sympy 4×4 matrix -/
abbrev SM4 := Fin 4 → Fin 4 → Expr
abbrev SM3 := Fin 3 → Fin 3 → Expr

/-- the matrix of the values -/
noncomputable def evalM (env : String → ℝ) (T : SM4) : M4 := fun i j => (T i j).eval env
noncomputable def evalM3 (env : String → ℝ) (T : SM3) : M3 := fun i j => (T i j).eval env

def zero : Expr := .num 0
def one : Expr := .num 1
def mulE (a b : Expr) : Expr := .bin .mul a b
def addE (a b : Expr) : Expr := .bin .add a b
def negE (a : Expr) : Expr := .un .neg a
def sinE (a : Expr) : Expr := .un .sin a
def cosE (a : Expr) : Expr := .un .cos a

/-- a row of the DH table: alpha, a, d, theta (kin_cl.py:284-288) -/
structure DHRow where
  al : Expr
  a : Expr
  d : Expr
  th : Expr

/-- pykinsym.py:92-99 `Link_S` -/
def linkS (r : DHRow) : SM4 :=
  ![![cosE r.th, negE (sinE r.th), zero, r.a],
    ![mulE (sinE r.th) (cosE r.al), mulE (cosE r.th) (cosE r.al), negE (sinE r.al), mulE (negE (sinE r.al)) r.d],
    ![mulE (sinE r.th) (sinE r.al), mulE (cosE r.th) (sinE r.al), cosE r.al, mulE (cosE r.al) r.d],
    ![zero, zero, zero, one]]

/-- the product of sympy matrices -/
def mulS (A B : SM4) : SM4 := fun i j =>
  addE (addE (addE (mulE (A i 0) (B 0 j)) (mulE (A i 1) (B 1 j))) (mulE (A i 2) (B 2 j))) (mulE (A i 3) (B 3 j))

/-- What is taken from sympy, left abstract. -/
structure SymOps where
  /-- `sin(alpha) == 0 or cos(alpha) == 0` (kin_cl.py:294) -/
  nice : Expr → Bool
  /-- automatic simplification, `doit`, `trigsimp` -/
  simp : Expr → Expr
  /-- `expr.subs(dict)` with expressions as keys -/
  subD : List (Expr × Expr) → Expr → Expr

/-- the names `ca0`, `sa0`, … (kin_cl.py:295-296) -/
def caName (i : Fin 6) : String := "ca" ++ toString i.val
def saName (i : Fin 6) : String := "sa" ++ toString i.val

/-- `dict[k] = v` -/
def dset {α β : Type} [DecidableEq α] (k : α) (v : β) : List (α × β) → List (α × β)
  | [] => [(k, v)]
  | p :: ps => if p.1 = k then (k, v) :: ps else p :: dset k v ps

/-- A value in a dictionary of parameters: a number (or expression), or a string of python code. -/
inductive Val where
  | expr (e : Expr)
  | code (s : String)

/-- What `forward_kinematics` keeps of the parameters. -/
structure Params where
  params : List String := []
  pvals : List (String × Val) := []
  subst : List (Expr × Expr) := []

/-- kin_cl.py:292-306: one row -/
def alphaStep (P : SymOps) (i : Fin 6) (al : Expr) (s : Params) : Params :=
  if P.nice al then s else
    { params := s.params ++ [caName i, saName i]                                    -- 298-299
      pvals := dset (saName i) (.code "np.sin(...)") (dset (caName i) (.code "np.cos(...)") s.pvals)   -- 300-301
      subst := dset (P.simp (sinE al)) (.sym (saName i)) (dset (P.simp (cosE al)) (.sym (caName i)) s.subst) }   -- 303-304

/-- kin_cl.py:291-306: all rows -/
def alphaSubs (P : SymOps) (dh : Fin 6 → DHRow) (s : Params) : Params :=
  (List.finRange 6).foldl (fun s i => alphaStep P i (dh i).al s) s

/-- kin_cl.py:308-330: `T_01` … `T_56` -/
def linkMat (P : SymOps) (dh : Fin 6 → DHRow) (i : Fin 6) : SM4 := fun r c =>
  P.simp (P.subD (alphaSubs P dh {}).subst (P.simp (linkS (dh i) r c)))

/-- kin_cl.py:343 `T_06` -/
def t06S (P : SymOps) (dh : Fin 6 → DHRow) : SM4 :=
  let T := linkMat P dh
  fun r c => P.simp (mulS (mulS (mulS (mulS (mulS (T 0) (T 1)) (T 2)) (T 3)) (T 4)) (T 5) r c)

/-! ## Numerical forward kinematics -/

inductive NErr where
  /-- `sys.exit()` in `Num_check` -/
  | exit
  | indexError
  | attributeError
  deriving DecidableEq, Repr

/-- `pp = pose.copy(); pp.update(params)` (kin_cl.py:527-528) -/
def update {β : Type} (pose params : List (String × β)) : List (String × β) := params.foldl (fun d p => dset p.1 p.2 d) pose

def dget {β : Type} (d : List (String × β)) (x : String) : Option β := (d.find? fun p => p.1 = x).map (·.2)

/-- the dictionary that `subs` works with: a string of python code like `np.cos(1.3)` is parsed by sympy as the attribute `cos` of a symbol
`np`, which raises AttributeError -/
def sympifyDict : List (String × Val) → Except NErr (List (String × Expr))
  | [] => .ok []
  | (x, .expr e) :: d => match sympifyDict d with
    | .ok d => .ok ((x, e) :: d)
    | .error e => .error e
  | (_, .code _) :: _ => .error .attributeError

/-- no symbol is left; `pi` is a number -/
def closed (e : Expr) : Prop := ∀ x, e.has x = true → x = "pi"

/-- symbols are 0 except `pi` -/
noncomputable def constEnv (x : String) : ℝ := if x = "pi" then Real.pi else 0

open Classical in
/-- kin_cl.py:526-535 `forward_kinematics_N`, given `M.T_06`; pykinsym.py:71-84 `Num_check`: the program ends if some element is not a number. -/
noncomputable def fkN (P : SymOps) (T06 : SM4) (pose params : List (String × Val)) : Except NErr M4 :=
  match sympifyDict (update pose params) with
  | .error e => .error e
  | .ok pp =>
    let T1 : SM4 := fun i j => P.simp ((T06 i j).subs (dget pp))
    if ∀ i j, closed (T1 i j) then .ok (evalM constEnv T1) else .error .exit

/-! ## Numerical matrices (pykinsym.py:263-343) -/

/-- pykinsym.py:102-109 -/
noncomputable def linkN (al a d th : ℝ) : M4 :=
  !![Real.cos th, -Real.sin th, 0, a;
     Real.sin th * Real.cos al, Real.cos th * Real.cos al, -Real.sin al, -Real.sin al * d;
     Real.sin th * Real.sin al, Real.cos th * Real.sin al, Real.cos al, Real.cos al * d;
     0, 0, 0, 1]

/-- pykinsym.py:178-197, symbolic -/
def rotXS (t : Expr) : SM3 := ![![one, zero, zero], ![zero, cosE t, negE (sinE t)], ![zero, sinE t, cosE t]]
def rotYS (t : Expr) : SM3 := ![![cosE t, zero, sinE t], ![zero, one, zero], ![negE (sinE t), zero, cosE t]]
def rotZS (t : Expr) : SM3 := ![![cosE t, negE (sinE t), zero], ![sinE t, cosE t, zero], ![zero, zero, one]]
/-- pykinsym.py:201-223, symbolic -/
def rotX4S (t : Expr) : SM4 :=
  ![![one, zero, zero, zero], ![zero, cosE t, negE (sinE t), zero], ![zero, sinE t, cosE t, zero], ![zero, zero, zero, one]]
def rotY4S (t : Expr) : SM4 :=
  ![![cosE t, zero, sinE t, zero], ![zero, one, zero, zero], ![negE (sinE t), zero, cosE t, zero], ![zero, zero, zero, one]]
def rotZ4S (t : Expr) : SM4 :=
  ![![cosE t, negE (sinE t), zero, zero], ![sinE t, cosE t, zero, zero], ![zero, zero, one, zero], ![zero, zero, zero, one]]
/-- pykinsym.py:241-246, symbolic -/
def trans4S (v : Fin 3 → Expr) : SM4 :=
  ![![one, zero, zero, v 0], ![zero, one, zero, v 1], ![zero, zero, one, v 2], ![zero, zero, zero, one]]
/-- 3×3 product -/
def mulS3 (A B : SM3) : SM3 := fun i j => addE (addE (mulE (A i 0) (B 0 j)) (mulE (A i 1) (B 1 j))) (mulE (A i 2) (B 2 j))
/-- pykinsym.py:227-229, symbolic -/
def rpy3S (r p y : Expr) : SM3 := mulS3 (mulS3 (rotZS y) (rotYS p)) (rotXS r)
/-- pykinsym.py:231-238, symbolic -/
def rpy4S (r p y : Expr) : SM4 := fun i j =>
  if i = 3 ∧ j = 3 then one else if h : i.val < 3 ∧ j.val < 3 then rpy3S r p y ⟨i, h.1⟩ ⟨j, h.2⟩ else zero

/-- pykinsym.py:273-292 -/
noncomputable def rotXN (t : ℝ) : M3 := !![1, 0, 0; 0, Real.cos t, -Real.sin t; 0, Real.sin t, Real.cos t]
noncomputable def rotYN (t : ℝ) : M3 := !![Real.cos t, 0, Real.sin t; 0, 1, 0; -Real.sin t, 0, Real.cos t]
noncomputable def rotZN (t : ℝ) : M3 := !![Real.cos t, -Real.sin t, 0; Real.sin t, Real.cos t, 0; 0, 0, 1]
/-- pykinsym.py:296-318 -/
noncomputable def rotX4N (t : ℝ) : M4 :=
  !![1, 0, 0, 0; 0, Real.cos t, -Real.sin t, 0; 0, Real.sin t, Real.cos t, 0; 0, 0, 0, 1]
noncomputable def rotY4N (t : ℝ) : M4 :=
  !![Real.cos t, 0, Real.sin t, 0; 0, 1, 0, 0; -Real.sin t, 0, Real.cos t, 0; 0, 0, 0, 1]
noncomputable def rotZ4N (t : ℝ) : M4 :=
  !![Real.cos t, -Real.sin t, 0, 0; Real.sin t, Real.cos t, 0, 0; 0, 0, 1, 0; 0, 0, 0, 1]
/-- pykinsym.py:323-325 -/
noncomputable def rpy3N (r p y : ℝ) : M3 := rotZN y * rotYN p * rotXN r

/-- a numpy array with its shape; elements outside of the shape have no meaning -/
structure NArr where
  rows : Nat
  cols : Nat
  get : Nat → Nat → ℝ

/-- `T[i,j] = v` -/
def NArr.set (T : NArr) (i j : Nat) (v : ℝ) : Except NErr NArr :=
  if i < T.rows ∧ j < T.cols then .ok { T with get := fun a b => if a = i ∧ b = j then v else T.get a b } else .error .indexError

/-- `np.matrix(np.zeros(n))`: one row; `np.zeros(n)` is a vector -/
def npZerosVec (n : Nat) : NArr := ⟨1, n, fun _ _ => 0⟩
/-- `np.eye(n)` -/
def npEye (n : Nat) : NArr := ⟨n, n, fun i j => if i = j then 1 else 0⟩

/-- pykinsym.py:263-268 `Trans4_N` -/
def trans4N (v : V3) : Except NErr NArr := do
  let T := npEye 4
  let T ← T.set 0 3 (v 0)
  let T ← T.set 1 3 (v 1)
  T.set 2 3 (v 2)

/-- the loops of pykinsym.py:331-333 -/
def copyBlock (R : M3) (T : NArr) : Except NErr NArr :=
  (List.finRange 3).foldlM (fun T i => (List.finRange 3).foldlM (fun (T : NArr) j => T.set i.val j.val (R i j)) T) T

/-- pykinsym.py:327-335 `RPY4_N` -/
noncomputable def rpy4N (r p y : ℝ) : Except NErr NArr := do
  let R := rpy3N r p y
  let T ← copyBlock R (npZerosVec 4)
  T.set 3 3 1

/-- A matrix given to `H_inv_N`: numpy's, or sympy's (then with the values of its elements). -/
inductive AnyMat where
  | numpy (T : M4)
  | sympy (T : M4)

/-- pykinsym.py:338-343 `H_inv_N`: `row_join` is a method of sympy's matrices only -/
def hInvN : AnyMat → Except NErr M4
  | .numpy _ => .error .attributeError
  | .sympy T => .ok (hInv T)

end Verif.Kin
