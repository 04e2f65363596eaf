import Verif.Kin.Puma
/-!
# The Wrist and its generated solutions (ikbtfunctions/ik_robots.py:337-355, tests/Wrist_IK_loop_test.py)

The test file holds the python function that the solver generated for the robot `Wrist`, and puts its solutions back into forward kinematics.
Floating point is read as exact.
-/
namespace Verif.Kin
open Matrix Verif.Sym Real

/-- ik_robots.py:342-349: the DH table of the Wrist -/
def wristDH : Fin 6 → DHRow := ![
  ⟨zero, zero, zero, .sym "A"⟩,
  ⟨minusHalfPi, zero, zero, addE halfPi (.sym "B")⟩,
  ⟨halfPi, zero, zero, addE halfPi (.sym "C")⟩,
  ⟨minusHalfPi, zero, zero, minusHalfPi⟩,
  ⟨zero, zero, zero, zero⟩,
  ⟨zero, zero, zero, zero⟩]

/-- Wrist_IK_loop_test.py:42-96 `ikin_Wrist`: the solutions (A, B, C). Each assignment is one line here, in the same order; `solvable_pose` is
always true, and the shape of the matrix is that of the type. -/
noncomputable def ikinWrist (T : M4) : Except PyErr (List (List ℝ)) := do
  let r_11 := T 0 0
  let r_21 := T 1 0
  let r_31 := T 2 0
  let r_32 := T 2 1
  let r_33 := T 2 2
  let As1 ← pure (atan2 r_21 r_11)                                                      -- 69
  let As2 ← pure (atan2 (-r_21) (-r_11))                                                -- 70
  let Bs2 ← pure (atan2 (-r_31) (← pyDiv r_11 (cos As2)))                               -- 74
  let Bs1 ← pure (atan2 (-r_31) (← pyDiv r_11 (cos As1)))                               -- 75
  let Cs2 ← pure (atan2 (← pyDiv r_32 (cos Bs1)) (← pyDiv r_33 (cos Bs1)))              -- 79
  let Cs1 ← pure (atan2 (← pyDiv r_32 (cos Bs2)) (← pyDiv r_33 (cos Bs2)))              -- 80
  return [[As1, Bs1, Cs2], [As2, Bs2, Cs1]]                                             -- 88-94

/-- the values of the symbols for the joint vector (A, B, C) -/
noncomputable def wristEnv (q : Fin 3 → ℝ) (x : String) : ℝ :=
  if x = "pi" then π else if x = "A" then q 0 else if x = "B" then q 1 else if x = "C" then q 2 else 0

/-- `forward_kinematics_N(M, pose, M.pvals)` of the Wrist (Wrist_IK_loop_test.py:182): its value by `C66_correct`. -/
noncomputable def wristFK (q : Fin 3 → ℝ) : M4 :=
  t06 fun i => linkN ((wristDH i).al.eval (wristEnv q)) ((wristDH i).a.eval (wristEnv q)) ((wristDH i).d.eval (wristEnv q)) ((wristDH i).th.eval (wristEnv q))

/-- `pose = {A : sol[0], B : sol[1], C : sol[2]}` (181) -/
def wristJoints (row : List ℝ) : Fin 3 → ℝ := ![row.getD 0 0, row.getD 1 0, row.getD 2 0]

/-- Wrist_IK_loop_test.py:183-192: the error that the test prints, the largest difference in rows 0-3 and columns 0-2. -/
noncomputable def loopError (T1 T2 : M4) : ℝ :=
  ((List.finRange 4).flatMap fun k => [0, 1, 2].map fun j => T1 k j - T2 k j).foldl
    (fun maxe e => if |e| > maxe then |e| else maxe) (-9999999.99)

/-- Wrist_IK_loop_test.py:180-194: the printed errors -/
noncomputable def loopErrors (T : M4) : Except PyErr (List ℝ) := do
  let sols ← ikinWrist T
  return sols.map fun sol => loopError T (wristFK (wristJoints sol))

end Verif.Kin
