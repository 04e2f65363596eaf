import Verif.Kin.Numeric
/-!
# The Puma arm and the checker script (ikbtfunctions/ik_robots.py:286-299, solChecker.py)

`solChecker.py` holds the eight solutions that the solver generated for the Puma, and checks them: it computes a pose by forward kinematics, the
eight joint vectors from the pose, and from each vector the pose again. Floating point is read as exact.
-/
namespace Verif.Kin
open Matrix Verif.Sym Real

/-- `sp.pi/2`, `-sp.pi/2` -/
def halfPi : Expr := .bin .div (.sym "pi") (.num 2)
def minusHalfPi : Expr := .bin .div (.un .neg (.sym "pi")) (.num 2)

/-- ik_robots.py:287-294: the DH table of the Puma -/
def pumaDH : Fin 6 → DHRow := ![
  ⟨zero, zero, .sym "d_1", .sym "th_1"⟩,
  ⟨minusHalfPi, zero, zero, .sym "th_2"⟩,
  ⟨zero, .sym "a_2", .sym "d_3", .sym "th_3"⟩,
  ⟨minusHalfPi, .sym "a_3", .sym "d_4", .sym "th_4"⟩,
  ⟨minusHalfPi, zero, zero, .sym "th_5"⟩,
  ⟨halfPi, zero, zero, .sym "th_6"⟩]

/-- The parameters of the Puma: a_2, a_3, d_3, d_4 are those of solChecker.py:27-33; the script has no d_1. -/
structure PumaPar where
  d_1 : ℝ
  a_2 : ℝ
  a_3 : ℝ
  d_3 : ℝ
  d_4 : ℝ

inductive PyErr where
  /-- `math domain error` -/
  | valueError
  /-- a division by zero: ZeroDivisionError of python floats; with numpy or sympy numbers the quotient is an infinity, which `atan2` refuses or
  turns into a wrong angle, or nan. In no case is the result the number that the formula stands for. -/
  | zeroDivision
  deriving DecidableEq, Repr

open Classical in
/-- `math.sqrt` -/
noncomputable def pySqrt (x : ℝ) : Except PyErr ℝ := if x < 0 then .error .valueError else .ok (√x)

open Classical in
/-- division of floats -/
noncomputable def pyDiv (x y : ℝ) : Except PyErr ℝ := if y = 0 then .error .zeroDivision else .ok (x / y)

/-- solChecker.py:70-171: the joint vectors (th_1, th_23, th_2, th_3, th_4, th_5, th_6) computed from the pose `T`. Each assignment of the
script is one line here (generated from the text of the script), in the same order. -/
noncomputable def pumaRows (p : PumaPar) (T : M4) : Except PyErr (List (List ℝ)) := do
  let a_2 := p.a_2
  let a_3 := p.a_3
  let d_3 := p.d_3
  let d_4 := p.d_4
  let r_11 := T 0 0
  let r_12 := T 0 1
  let r_13 := T 0 2
  let r_21 := T 1 0
  let r_22 := T 1 1
  let r_23 := T 1 2
  let r_31 := T 2 0
  let r_32 := T 2 1
  let r_33 := T 2 2
  let Px := T 0 3
  let Py := T 1 3
  let Pz := T 2 3
  let th_1s1 ← pure (atan2 Px (-Py) + atan2 (← pySqrt (Px ^ 2 + Py ^ 2 - d_3 ^ 2)) (-d_3))
  let th_1s2 ← pure (atan2 Px (-Py) + atan2 (-(← pySqrt (Px ^ 2 + Py ^ 2 - d_3 ^ 2))) (-d_3))
  let th_3s3 ← pure (atan2 (-2 * a_2 * d_4) (2 * a_2 * a_3) + atan2 (← pySqrt (4 * a_2 ^ 2 * a_3 ^ 2 + 4 * a_2 ^ 2 * d_4 ^ 2 - (Pz ^ 2 - a_2 ^ 2 - a_3 ^ 2 - d_4 ^ 2 + (Px * cos th_1s2 + Py * sin th_1s2) ^ 2) ^ 2)) (Pz ^ 2 - a_2 ^ 2 - a_3 ^ 2 - d_4 ^ 2 + (Px * cos th_1s2 + Py * sin th_1s2) ^ 2))
  let th_3s2 ← pure (atan2 (-2 * a_2 * d_4) (2 * a_2 * a_3) + atan2 (-(← pySqrt (4 * a_2 ^ 2 * a_3 ^ 2 + 4 * a_2 ^ 2 * d_4 ^ 2 - (Pz ^ 2 - a_2 ^ 2 - a_3 ^ 2 - d_4 ^ 2 + (Px * cos th_1s1 + Py * sin th_1s1) ^ 2) ^ 2))) (Pz ^ 2 - a_2 ^ 2 - a_3 ^ 2 - d_4 ^ 2 + (Px * cos th_1s1 + Py * sin th_1s1) ^ 2))
  let th_3s1 ← pure (atan2 (-2 * a_2 * d_4) (2 * a_2 * a_3) + atan2 (← pySqrt (4 * a_2 ^ 2 * a_3 ^ 2 + 4 * a_2 ^ 2 * d_4 ^ 2 - (Pz ^ 2 - a_2 ^ 2 - a_3 ^ 2 - d_4 ^ 2 + (Px * cos th_1s1 + Py * sin th_1s1) ^ 2) ^ 2)) (Pz ^ 2 - a_2 ^ 2 - a_3 ^ 2 - d_4 ^ 2 + (Px * cos th_1s1 + Py * sin th_1s1) ^ 2))
  let th_3s4 ← pure (atan2 (-2 * a_2 * d_4) (2 * a_2 * a_3) + atan2 (-(← pySqrt (4 * a_2 ^ 2 * a_3 ^ 2 + 4 * a_2 ^ 2 * d_4 ^ 2 - (Pz ^ 2 - a_2 ^ 2 - a_3 ^ 2 - d_4 ^ 2 + (Px * cos th_1s2 + Py * sin th_1s2) ^ 2) ^ 2))) (Pz ^ 2 - a_2 ^ 2 - a_3 ^ 2 - d_4 ^ 2 + (Px * cos th_1s2 + Py * sin th_1s2) ^ 2))
  let th_23s2 ← pure (atan2 (Pz * (-a_2 * cos th_3s2 - a_3) - (-Px * cos th_1s1 - Py * sin th_1s1) * (a_2 * sin th_3s2 - d_4)) (Pz * (a_2 * sin th_3s2 - d_4) + (-Px * cos th_1s1 - Py * sin th_1s1) * (-a_2 * cos th_3s2 - a_3)))
  let th_23s4 ← pure (atan2 (Pz * (-a_2 * cos th_3s4 - a_3) - (-Px * cos th_1s2 - Py * sin th_1s2) * (a_2 * sin th_3s4 - d_4)) (Pz * (a_2 * sin th_3s4 - d_4) + (-Px * cos th_1s2 - Py * sin th_1s2) * (-a_2 * cos th_3s4 - a_3)))
  let th_23s1 ← pure (atan2 (Pz * (-a_2 * cos th_3s3 - a_3) - (-Px * cos th_1s2 - Py * sin th_1s2) * (a_2 * sin th_3s3 - d_4)) (Pz * (a_2 * sin th_3s3 - d_4) + (-Px * cos th_1s2 - Py * sin th_1s2) * (-a_2 * cos th_3s3 - a_3)))
  let th_23s3 ← pure (atan2 (Pz * (-a_2 * cos th_3s1 - a_3) - (-Px * cos th_1s1 - Py * sin th_1s1) * (a_2 * sin th_3s1 - d_4)) (Pz * (a_2 * sin th_3s1 - d_4) + (-Px * cos th_1s1 - Py * sin th_1s1) * (-a_2 * cos th_3s1 - a_3)))
  let th_2s2 ← pure (th_23s4 - th_3s4)
  let th_2s4 ← pure (th_23s3 - th_3s1)
  let th_2s1 ← pure (th_23s2 - th_3s2)
  let th_2s3 ← pure (th_23s1 - th_3s3)
  let th_4s3 ← pure (atan2 (r_13 * sin th_1s2 - r_23 * cos th_1s2) (r_13 * cos th_1s2 * cos th_23s4 + r_23 * sin th_1s2 * cos th_23s4 - r_33 * sin th_23s4))
  let th_4s7 ← pure (atan2 (r_13 * sin th_1s1 - r_23 * cos th_1s1) (r_13 * cos th_1s1 * cos th_23s3 + r_23 * sin th_1s1 * cos th_23s3 - r_33 * sin th_23s3))
  let th_4s2 ← pure (atan2 (-r_13 * sin th_1s1 + r_23 * cos th_1s1) (-r_13 * cos th_1s1 * cos th_23s2 - r_23 * sin th_1s1 * cos th_23s2 + r_33 * sin th_23s2))
  let th_4s6 ← pure (atan2 (-r_13 * sin th_1s2 + r_23 * cos th_1s2) (-r_13 * cos th_1s2 * cos th_23s1 - r_23 * sin th_1s2 * cos th_23s1 + r_33 * sin th_23s1))
  let th_4s4 ← pure (atan2 (-r_13 * sin th_1s2 + r_23 * cos th_1s2) (-r_13 * cos th_1s2 * cos th_23s4 - r_23 * sin th_1s2 * cos th_23s4 + r_33 * sin th_23s4))
  let th_4s1 ← pure (atan2 (r_13 * sin th_1s1 - r_23 * cos th_1s1) (r_13 * cos th_1s1 * cos th_23s2 + r_23 * sin th_1s1 * cos th_23s2 - r_33 * sin th_23s2))
  let th_4s8 ← pure (atan2 (-r_13 * sin th_1s1 + r_23 * cos th_1s1) (-r_13 * cos th_1s1 * cos th_23s3 - r_23 * sin th_1s1 * cos th_23s3 + r_33 * sin th_23s3))
  let th_4s5 ← pure (atan2 (r_13 * sin th_1s2 - r_23 * cos th_1s2) (r_13 * cos th_1s2 * cos th_23s1 + r_23 * sin th_1s2 * cos th_23s1 - r_33 * sin th_23s1))
  let th_5s4 ← pure (atan2 (← pyDiv (-r_13 * sin th_1s2 + r_23 * cos th_1s2) (sin th_4s6)) (-r_13 * sin th_23s1 * cos th_1s2 - r_23 * sin th_1s2 * sin th_23s1 - r_33 * cos th_23s1))
  let th_5s8 ← pure (atan2 (← pyDiv (-r_13 * sin th_1s2 + r_23 * cos th_1s2) (sin th_4s5)) (-r_13 * sin th_23s1 * cos th_1s2 - r_23 * sin th_1s2 * sin th_23s1 - r_33 * cos th_23s1))
  let th_5s1 ← pure (atan2 (← pyDiv (-r_13 * sin th_1s2 + r_23 * cos th_1s2) (sin th_4s3)) (-r_13 * sin th_23s4 * cos th_1s2 - r_23 * sin th_1s2 * sin th_23s4 - r_33 * cos th_23s4))
  let th_5s2 ← pure (atan2 (← pyDiv (-r_13 * sin th_1s1 + r_23 * cos th_1s1) (sin th_4s7)) (-r_13 * sin th_23s3 * cos th_1s1 - r_23 * sin th_1s1 * sin th_23s3 - r_33 * cos th_23s3))
  let th_5s6 ← pure (atan2 (← pyDiv (-r_13 * sin th_1s1 + r_23 * cos th_1s1) (sin th_4s1)) (-r_13 * sin th_23s2 * cos th_1s1 - r_23 * sin th_1s1 * sin th_23s2 - r_33 * cos th_23s2))
  let th_5s3 ← pure (atan2 (← pyDiv (-r_13 * sin th_1s1 + r_23 * cos th_1s1) (sin th_4s2)) (-r_13 * sin th_23s2 * cos th_1s1 - r_23 * sin th_1s1 * sin th_23s2 - r_33 * cos th_23s2))
  let th_5s7 ← pure (atan2 (← pyDiv (-r_13 * sin th_1s1 + r_23 * cos th_1s1) (sin th_4s8)) (-r_13 * sin th_23s3 * cos th_1s1 - r_23 * sin th_1s1 * sin th_23s3 - r_33 * cos th_23s3))
  let th_5s5 ← pure (atan2 (← pyDiv (-r_13 * sin th_1s2 + r_23 * cos th_1s2) (sin th_4s4)) (-r_13 * sin th_23s4 * cos th_1s2 - r_23 * sin th_1s2 * sin th_23s4 - r_33 * cos th_23s4))
  let th_6s6 ← pure (atan2 (← pyDiv (-(-r_12 * sin th_23s2 * cos th_1s1 - r_22 * sin th_1s1 * sin th_23s2 - r_32 * cos th_23s2)) (sin th_5s3)) (← pyDiv (-r_11 * sin th_23s2 * cos th_1s1 - r_21 * sin th_1s1 * sin th_23s2 - r_31 * cos th_23s2) (sin th_5s3)))
  let th_6s5 ← pure (atan2 (← pyDiv (-(-r_12 * sin th_23s2 * cos th_1s1 - r_22 * sin th_1s1 * sin th_23s2 - r_32 * cos th_23s2)) (sin th_5s6)) (← pyDiv (-r_11 * sin th_23s2 * cos th_1s1 - r_21 * sin th_1s1 * sin th_23s2 - r_31 * cos th_23s2) (sin th_5s6)))
  let th_6s1 ← pure (atan2 (← pyDiv (-(-r_12 * sin th_23s1 * cos th_1s2 - r_22 * sin th_1s2 * sin th_23s1 - r_32 * cos th_23s1)) (sin th_5s4)) (← pyDiv (-r_11 * sin th_23s1 * cos th_1s2 - r_21 * sin th_1s2 * sin th_23s1 - r_31 * cos th_23s1) (sin th_5s4)))
  let th_6s8 ← pure (atan2 (← pyDiv (-(-r_12 * sin th_23s4 * cos th_1s2 - r_22 * sin th_1s2 * sin th_23s4 - r_32 * cos th_23s4)) (sin th_5s5)) (← pyDiv (-r_11 * sin th_23s4 * cos th_1s2 - r_21 * sin th_1s2 * sin th_23s4 - r_31 * cos th_23s4) (sin th_5s5)))
  let th_6s4 ← pure (atan2 (← pyDiv (-(-r_12 * sin th_23s3 * cos th_1s1 - r_22 * sin th_1s1 * sin th_23s3 - r_32 * cos th_23s3)) (sin th_5s2)) (← pyDiv (-r_11 * sin th_23s3 * cos th_1s1 - r_21 * sin th_1s1 * sin th_23s3 - r_31 * cos th_23s3) (sin th_5s2)))
  let th_6s2 ← pure (atan2 (← pyDiv (-(-r_12 * sin th_23s1 * cos th_1s2 - r_22 * sin th_1s2 * sin th_23s1 - r_32 * cos th_23s1)) (sin th_5s8)) (← pyDiv (-r_11 * sin th_23s1 * cos th_1s2 - r_21 * sin th_1s2 * sin th_23s1 - r_31 * cos th_23s1) (sin th_5s8)))
  let th_6s7 ← pure (atan2 (← pyDiv (-(-r_12 * sin th_23s3 * cos th_1s1 - r_22 * sin th_1s1 * sin th_23s3 - r_32 * cos th_23s3)) (sin th_5s7)) (← pyDiv (-r_11 * sin th_23s3 * cos th_1s1 - r_21 * sin th_1s1 * sin th_23s3 - r_31 * cos th_23s3) (sin th_5s7)))
  let th_6s3 ← pure (atan2 (← pyDiv (-(-r_12 * sin th_23s4 * cos th_1s2 - r_22 * sin th_1s2 * sin th_23s4 - r_32 * cos th_23s4)) (sin th_5s1)) (← pyDiv (-r_11 * sin th_23s4 * cos th_1s2 - r_21 * sin th_1s2 * sin th_23s4 - r_31 * cos th_23s4) (sin th_5s1)))
  return [
    [th_1s2, th_23s4, th_2s2, th_3s4, th_4s3, th_5s1, th_6s3],
    [th_1s1, th_23s3, th_2s4, th_3s1, th_4s7, th_5s2, th_6s4],
    [th_1s1, th_23s2, th_2s1, th_3s2, th_4s2, th_5s3, th_6s6],
    [th_1s2, th_23s1, th_2s3, th_3s3, th_4s6, th_5s4, th_6s1],
    [th_1s2, th_23s4, th_2s2, th_3s4, th_4s4, th_5s5, th_6s8],
    [th_1s1, th_23s2, th_2s1, th_3s2, th_4s1, th_5s6, th_6s5],
    [th_1s1, th_23s3, th_2s4, th_3s1, th_4s8, th_5s7, th_6s7],
    [th_1s2, th_23s1, th_2s3, th_3s3, th_4s5, th_5s8, th_6s2]]

/-- the values of the symbols, given the parameters and a joint vector (th_1, …, th_6) -/
noncomputable def pumaEnv (p : PumaPar) (q : Fin 6 → ℝ) (x : String) : ℝ :=
  if x = "pi" then π else
  if x = "d_1" then p.d_1 else if x = "a_2" then p.a_2 else if x = "a_3" then p.a_3 else if x = "d_3" then p.d_3 else if x = "d_4" then p.d_4 else
  if x = "th_1" then q 0 else if x = "th_2" then q 1 else if x = "th_3" then q 2 else
  if x = "th_4" then q 3 else if x = "th_5" then q 4 else if x = "th_6" then q 5 else 0

/-- `forward_kinematics_N(M, pose, params)` of the Puma: its value by `C66_correct`. -/
noncomputable def pumaFK (p : PumaPar) (q : Fin 6 → ℝ) : M4 :=
  t06 fun i => linkN ((pumaDH i).al.eval (pumaEnv p q)) ((pumaDH i).a.eval (pumaEnv p q)) ((pumaDH i).d.eval (pumaEnv p q)) ((pumaDH i).th.eval (pumaEnv p q))

/-- pykinsym.py:29: the factor from degrees to radians -/
noncomputable def degC : ℝ := 6.28317531 / 360

open Classical in
/-- solChecker.py:41-50 `convert_to_degrees`, one angle; `%` of floats with a positive divisor is the remainder in [0, 2π) -/
noncomputable def toDegrees (x : ℝ) : ℝ := (if x > 2 * π then x - 2 * π * ⌊x / (2 * π)⌋ else x) * (180 / π)

/-- The joint vector of a row: `pose[variable_template[i]] = one_pose[i]*deg` with the template th_1, th_23, th_2, th_3, … (solChecker.py:57-58,
181). The table has no th_23. -/
def jointsOf (row : List ℝ) : Fin 6 → ℝ := ![row.getD 0 0, row.getD 2 0, row.getD 3 0, row.getD 4 0, row.getD 5 0, row.getD 6 0]

/-- solChecker.py:52-62, 177-185: the poses computed from the rows -/
noncomputable def verify (p : PumaPar) (rows : List (List ℝ)) : List M4 :=
  rows.map fun row => pumaFK p (jointsOf (row.map fun x => toDegrees x * degC))

/-- solChecker.py:39-185 with a value for d_1: the pose of the joint vector `q`, the rows and the poses computed from them. -/
noncomputable def checker (p : PumaPar) (q : Fin 6 → ℝ) : Except PyErr (M4 × List M4) := do
  let T := pumaFK p q
  let rows ← pumaRows p T
  return (T, verify p rows)

end Verif.Kin
