import Mathlib.LinearAlgebra.Matrix.Notation
import Mathlib.LinearAlgebra.Matrix.Determinant.Basic
import Mathlib.Analysis.SpecialFunctions.Trigonometric.Basic
/-!
# Model of the kinematics code (ikbtbasics/pykinsym.py, ikbtbasics/kin_cl.py)

Symbolic matrices are read as matrices of real numbers, one for each value of the symbols. sympy's `simplify`/`trigsimp`/`doit`,
which keep values, are the identity here; floating point is read as exact.
-/
namespace Verif.Kin
open Matrix

abbrev M3 := Matrix (Fin 3) (Fin 3) ℝ
abbrev M4 := Matrix (Fin 4) (Fin 4) ℝ
abbrev V3 := Fin 3 → ℝ

/-- pykinsym.py:92-109 `Link_S`, `Link_N`, with `cos(al)`, `sin(al)` as separate arguments: `forward_kinematics` replaces
them by constants `ca<i>`, `sa<i>` if alpha is not a multiple of 90° (kin_cl.py:294-308, 323-330). -/
noncomputable def linkCS (ca sa a d th : ℝ) : M4 :=
  !![Real.cos th, -Real.sin th, 0, a;
     Real.sin th * ca, Real.cos th * ca, -sa, -sa * d;
     Real.sin th * sa, Real.cos th * sa, ca, ca * d;
     0, 0, 0, 1]

/-- pykinsym.py:92-99 `Link_S` (and 102-109 `Link_N`) -/
noncomputable def link (al a d th : ℝ) : M4 := linkCS (Real.cos al) (Real.sin al) a d th

/-- `T[0:3,0:3]` -/
def rot (T : M4) : M3 := fun i j => T i.castSucc j.castSucc
/-- `T[0:3,3]` -/
def pos (T : M4) : V3 := fun i => T i.castSucc 3

/-- `R.row_join(P).col_join([0,0,0,1])` -/
def mk4 (R : M3) (P : V3) : M4 :=
  !![R 0 0, R 0 1, R 0 2, P 0;
     R 1 0, R 1 1, R 1 2, P 1;
     R 2 0, R 2 1, R 2 2, P 2;
     0, 0, 0, 1]

/-- pykinsym.py:250-255 `H_inv_S` -/
def hInv (T : M4) : M4 :=
  let R := (rot T)ᵀ
  let P := (-R) *ᵥ pos T
  mk4 R P

/-- pykinsym.py:178-197 -/
noncomputable def rotX (t : ℝ) : M3 := !![1, 0, 0; 0, Real.cos t, -Real.sin t; 0, Real.sin t, Real.cos t]
noncomputable def rotY (t : ℝ) : M3 := !![Real.cos t, 0, Real.sin t; 0, 1, 0; -Real.sin t, 0, Real.cos t]
noncomputable def rotZ (t : ℝ) : M3 := !![Real.cos t, -Real.sin t, 0; Real.sin t, Real.cos t, 0; 0, 0, 1]
/-- pykinsym.py:201-223 -/
noncomputable def rotX4 (t : ℝ) : M4 :=
  !![1, 0, 0, 0; 0, Real.cos t, -Real.sin t, 0; 0, Real.sin t, Real.cos t, 0; 0, 0, 0, 1]
noncomputable def rotY4 (t : ℝ) : M4 :=
  !![Real.cos t, 0, Real.sin t, 0; 0, 1, 0, 0; -Real.sin t, 0, Real.cos t, 0; 0, 0, 0, 1]
noncomputable def rotZ4 (t : ℝ) : M4 :=
  !![Real.cos t, -Real.sin t, 0, 0; Real.sin t, Real.cos t, 0, 0; 0, 0, 1, 0; 0, 0, 0, 1]

/-- pykinsym.py:227-229 -/
noncomputable def rpy3 (r p y : ℝ) : M3 := rotZ y * rotY p * rotX r

/-- pykinsym.py:231-238: a zero matrix, the 3×3 block copied, then `T[3,3] = 1.0` -/
noncomputable def rpy4 (r p y : ℝ) : M4 := fun i j =>
  if i = 3 ∧ j = 3 then 1
  else if h : i.val < 3 ∧ j.val < 3 then rpy3 r p y ⟨i, h.1⟩ ⟨j, h.2⟩ else 0

/-- pykinsym.py:241-246 -/
noncomputable def trans4 (v : V3) : M4 := !![1, 0, 0, v 0; 0, 1, 0, v 1; 0, 0, 1, v 2; 0, 0, 0, 1]

/-- pykinsym.py:61-66 `wrap_angle_N` -/
noncomputable def wrapAngle (t : ℝ) : ℝ :=
  if t < -Real.pi then t + 2 * Real.pi
  else if t ≥ Real.pi then t - 2 * Real.pi
  else t

/-- pykinsym.py:52-58 `approx_N` -/
noncomputable def approx (a b : ℝ) : Prop := |a - b| < max (0.001 * max |a| |b|) 0.00001

/-- A DH row as numbers: `ca`, `sa` stand for cos/sin of alpha. -/
structure Row where
  ca : ℝ
  sa : ℝ
  a : ℝ
  d : ℝ
  th : ℝ

noncomputable def Row.link (r : Row) : M4 := linkCS r.ca r.sa r.a r.d r.th

/-- The six link transforms T_01 … T_56 (kin_cl.py:311-316). -/
noncomputable def links (rows : Fin 6 → Row) : Fin 6 → M4 := fun i => (rows i).link

/-- kin_cl.py:343 (and 479, 482): T_06 -/
def t06 (T : Fin 6 → M4) : M4 := T 0 * T 1 * T 2 * T 3 * T 4 * T 5

/-- A matrix equation (kin_cl.py:222-235): rows 0-2 are copied from the arguments, row 3 is 0 0 0 1. -/
structure MEqn where
  td : M4
  ts : M4

def topRows (T : M4) : M4 := fun i j => if i.val < 3 then T i j else if j = 3 then 1 else 0

def matrixEquation (td ts : M4) : MEqn := ⟨topRows td, topRows ts⟩

/-- kin_cl.py:474-514 `get_mequation_set`: the eight matrix equations; `td` is the target (helperfunctions.py:87-101 `ik_lhs`). -/
def mequationSet (T : Fin 6 → M4) (td : M4) : List MEqn :=
  [matrixEquation td (T 0 * T 1 * T 2 * T 3 * T 4 * T 5),
   matrixEquation (hInv (T 0) * td) (T 1 * T 2 * T 3 * T 4 * T 5),
   matrixEquation (hInv (T 1) * hInv (T 0) * td) (T 2 * T 3 * T 4 * T 5),
   matrixEquation (hInv (T 2) * hInv (T 1) * hInv (T 0) * td) (T 3 * T 4 * T 5),
   matrixEquation (hInv (T 3) * hInv (T 2) * hInv (T 1) * hInv (T 0) * td) (T 4 * T 5),
   matrixEquation (hInv (T 4) * hInv (T 3) * hInv (T 2) * hInv (T 1) * hInv (T 0) * td) (T 5),
   matrixEquation (hInv (T 0) * td * hInv (T 5)) (T 1 * T 2 * T 3 * T 4),
   matrixEquation (hInv (T 1) * hInv (T 0) * td * hInv (T 5) * hInv (T 4)) (T 2 * T 3)]

/-- helperfunctions.py:87-101 `ik_lhs`, for values of the symbols r_ij, Px, Py, Pz -/
def ikLhs (r : M3) (p : V3) : M4 := mk4 r p

end Verif.Kin
