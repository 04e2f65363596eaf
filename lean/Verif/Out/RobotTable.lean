import Verif.Out.RobotModel
/-!
# The table of ikbtfunctions/ik_robots.py

Generated by tools/gen_robots.py from the text of the source; each entry cites its lines.
-/
namespace Verif.Out

/-- ik_robots.py:35-58: the names offered; adjacent string literals are concatenated, as python does -/
def offered : List String := ["ICP5p5_A21", "KR16", "Issue4", "UR5", "Puma", "Pumaoffset", "Chair_Helper", "Bartell", "Brad", "Sims11", "ArmRobo", "Wrist", "Arm_3", "MiniDD", "Olson13", "Stanford", "Chair6DOF", "Khat6DOF", "Craig417", "KawasakiRS05L", "KawasakiRS007L", "Khat6DOF", "Raven-II", "Wachtveitl", "Frei13", "Parkman13", "Palm13", "Minder13", "Mackler13", "Axtman13", "Srisuan11", "MiniDD", "ICP5p5_A21", "KR16", "Issue4DZhang", "JennyGuoSp24"]

/-- ik_robots.py:67-83 -/
def robot0 : Block :=
  let dh : List (List Cell) := [
    [.con "-sp.pi/2", .zero, .sym "d_1", .zero],
    [.con "sp.pi/2", .zero, .sym "l_2", .sym "th_2"],
    [.con "sp.pi/2", .zero, .zero, .sym "th_3"],
    [.zero, .sym "l_3", .zero, .sym "th_4"],
    [.zero, .sym "l_4", .zero, .sym "th_5"],
    [.zero, .zero, .zero, .zero]]
  { name := "JennyGuoSp24", dh := dh, vv := [0, 1, 1, 1, 1, 1],
    vars := ["d_1", "th_2", "th_3", "th_4", "th_5"], params := ["l_2", "l_3", "l_4"], pvals := ["l_2", "l_3", "l_4"] }

/-- ik_robots.py:88-107 -/
def robot1 : Block :=
  let dh : List (List Cell) := [
    [.zero, .zero, .zero, .sym "th_1"],
    [.sym "al_1", .zero, .zero, .sym "th_2"],
    [.sym "al_2", .zero, .sym "d_3", .con "sp.pi/2"],
    [.zero, .zero, .sym "ld_2", .sym "th_4"],
    [.con "sp.pi/2", .zero, .zero, .sym "th_5"],
    [.con "sp.pi/2", .sym "ld_3", .zero, .sym "th_6"]]
  { name := "Raven-II", dh := dh, vv := [1, 1, 0, 1, 1, 1],
    vars := ["th_1", "th_2", "d_3", "th_4", "th_5", "th_6"], params := ["ld_2", "ld_3", "al_1", "al_2"], pvals := ["ld_2", "ld_3", "al_1", "al_2"] }

/-- ik_robots.py:110-128 -/
def robot2 : Block :=
  let dh : List (List Cell) := [
    [.zero, .zero, .sym "ld_1", .sym "th_1"],
    [.con "-sp.pi/2", .sym "a_1", .zero, .sym "th_2"],
    [.zero, .sym "a_2", .zero, .sym "th_3"],
    [.con "sp.pi/2", .sym "a_3", .sym "ld_2", .sym "th_4"],
    [.con "sp.pi/2", .zero, .sym "ld_3", .sym "th_5"],
    [.con "-sp.pi/2", .zero, .sym "ld_4", .sym "th_6"]]
  { name := "Issue4", dh := dh, vv := [1, 1, 1, 1, 1, 1],
    vars := ["th_1", "th_2", "th_3", "th_4", "th_5", "th_6"], params := ["ld_1", "a_1", "a_2", "a_3", "ld_2", "ld_3", "ld_4"], pvals := ["ld_1", "a_1", "a_2", "a_3", "ld_2", "ld_3", "ld_4"] }

/-- ik_robots.py:131-145 -/
def robot3 : Block :=
  let dh : List (List Cell) := [
    [.zero, .zero, .sym "l_1", .sym "th_1"],
    [.con "-sp.pi/2", .sym "a_1", .zero, .sym "th_2"],
    [.zero, .sym "a_2", .zero, .sym "th_3"],
    [.con "sp.pi/2", .sym "a_3", .sym "l_3", .sym "th_4"],
    [.con "-sp.pi/2", .zero, .zero, .sym "th_5"],
    [.con "sp.pi/2", .zero, .zero, .sym "th_6"]]
  { name := "KR16", dh := dh, vv := [1, 1, 1, 1, 1, 1],
    vars := ["th_1", "th_2", "th_3", "th_4", "th_5", "th_6"], params := ["a_1", "a_2", "a_3", "l_1", "l_2", "l_3", "l_4"], pvals := ["a_1", "a_2", "a_3", "l_1", "l_2", "l_3", "l_4"] }

/-- ik_robots.py:151-164 -/
def robot4 : Block :=
  let dh : List (List Cell) := [
    [.zero, .zero, .zero, .sym "th_1"],
    [.zero, .sym "l_1", .sym "d_2", .zero],
    [.con "sp.pi/2", .zero, .sym "l_2", .sym "th_3"],
    [.con "-sp.pi/2", .sym "l_3", .zero, .sym "th_4"],
    [.zero, .zero, .zero, .zero],
    [.zero, .zero, .zero, .zero]]
  { name := "ICP5p5_A21", dh := dh, vv := [1, 0, 1, 1, 1, 1],
    vars := ["th_1", "d_2", "th_3", "th_4"], params := ["l_1", "l_2", "l_3"], pvals := ["l_1", "l_2", "l_3"] }

/-- ik_robots.py:167-179 -/
def robot5 : Block :=
  let dh : List (List Cell) := [
    [.zero, .zero, .zero, .sym "th_1"],
    [.con "sp.pi/2", .sym "l_2", .zero, .sym "th_2"],
    [.zero, .sym "l_3", .zero, .sym "th_3"],
    [.con "-sp.pi/2", .sym "l_4", .zero, .sym "th_4"],
    [.con "-sp.pi/2", .zero, .sym "l_5", .sym "th_5"],
    [.con "sp.pi/2", .zero, .zero, .sym "th_6"]]
  { name := "KawasakiRS05L", dh := dh, vv := [1, 1, 1, 1, 1, 1],
    vars := ["th_1", "th_2", "th_3", "th_4", "th_5", "th_6"], params := ["l_1", "l_2", "l_3", "l_4", "l_5"], pvals := ["l_1", "l_2", "l_3", "l_4", "l_5"] }

/-- ik_robots.py:181-193 -/
def robot6 : Block :=
  let dh : List (List Cell) := [
    [.zero, .zero, .sym "l_1", .sym "th_1"],
    [.con "sp.pi/2", .zero, .zero, .sym "th_2"],
    [.zero, .sym "l_2", .zero, .sym "th_3"],
    [.con "sp.pi/2", .zero, .sym "l_3", .sym "th_4"],
    [.con "-sp.pi/2", .zero, .zero, .sym "th_5"],
    [.con "sp.pi/2", .zero, .zero, .sym "th_6"]]
  { name := "KawasakiRS007L", dh := dh, vv := [1, 1, 1, 1, 1, 1],
    vars := ["th_1", "th_2", "th_3", "th_4", "th_5", "th_6"], params := ["l_1", "l_2", "l_3"], pvals := ["l_1", "l_2", "l_3"] }

/-- ik_robots.py:195-215 -/
def robot7 : Block :=
  let dh : List (List Cell) := [
    [.con "sp.pi/2", .zero, .sym "l_2", .sym "th_1"],
    [.zero, .sym "l_1", .zero, .sym "th_2"],
    [.con "sp.pi/2", .zero, .zero, .sym "th_3"],
    [.con "-sp.pi/2", .zero, .sym "l_3", .sym "th_4"],
    [.con "sp.pi/2", .zero, .zero, .sym "th_5"],
    [.zero, .zero, .sym "d_6", .zero]]
  { name := "ArmRobo", dh := dh, vv := [1, 1, 1, 1, 1, 0],
    vars := ["th_1", "th_2", "th_3", "th_4", "th_5", "d_6"], params := ["l_1", "l_2", "l_3"], pvals := ["l_1", "l_2", "l_3"] }

/-- ik_robots.py:218-232 -/
def robot8 : Block :=
  let dh : List (List Cell) := [
    [.zero, .sym "a_1", .zero, .sym "th_1"],
    [.zero, .sym "a_2", .zero, .sym "th_2"],
    [.zero, .sym "a_3", .zero, .sym "th_3"],
    [.zero, .zero, .zero, .zero],
    [.zero, .zero, .zero, .zero],
    [.zero, .zero, .zero, .zero]]
  { name := "Arm_3", dh := dh, vv := [1, 1, 1, 0, 0, 0],
    vars := ["th_1", "th_2", "th_3"], params := ["a_1", "a_2", "a_3"], pvals := ["a_1", "a_2", "a_3"] }

/-- ik_robots.py:234-250 -/
def robot9 : Block :=
  let dh : List (List Cell) := [
    [.zero, .zero, .sym "d_1", .sym "th_1"],
    [.con "sp.pi/2.0", .sym "l_2", .zero, .sym "th_2"],
    [.zero, .sym "l_3", .zero, .sym "th_3"],
    [.zero, .zero, .zero, .zero],
    [.zero, .zero, .zero, .zero],
    [.zero, .zero, .zero, .zero]]
  { name := "Brad", dh := dh, vv := [1, 1, 1, 0, 0, 0],
    vars := ["th_1", "th_2", "th_3"], params := ["d_1", "l_2", "l_3"], pvals := ["d_1", "l_2", "l_3"] }

/-- ik_robots.py:252-265 -/
def robot10 : Block :=
  let dh : List (List Cell) := [
    [.zero, .zero, .sym "d_1", .sym "th_1"],
    [.con "sp.pi/2", .zero, .zero, .sym "th_2"],
    [.zero, .sym "a_2", .zero, .sym "th_3"],
    [.zero, .sym "a_3", .sym "d_4", .sym "th_4"],
    [.con "sp.pi/2", .zero, .sym "d_5", .sym "th_5"],
    [.con "-sp.pi/2", .zero, .sym "d_6", .sym "th_6"]]
  { name := "UR5", dh := dh, vv := [1, 1, 1, 1, 1, 1],
    vars := ["th_1", "th_2", "th_3", "th_4", "th_5", "th_6"], params := ["a_2", "a_3", "d_1", "d_4", "d_5", "d_6"], pvals := ["a_2", "a_3", "d_1", "d_4", "d_5", "d_6"] }

/-- ik_robots.py:268-281 -/
def robot11 : Block :=
  let dh : List (List Cell) := [
    [.zero, .zero, .zero, .sym "th_1"],
    [.con "-sp.pi/2", .zero, .zero, .sym "th_2"],
    [.con "sp.pi/4", .zero, .sym "d_2", .sym "th_3"],
    [.zero, .sym "a_3", .sym "d_3", .sym "th_4"],
    [.zero, .zero, .zero, .zero],
    [.zero, .zero, .zero, .zero]]
  { name := "Craig417", dh := dh, vv := [1, 1, 1, 1, 1, 1],
    vars := ["th_1", "th_2", "th_3", "th_4"], params := ["d_2", "d_3", "a_3"], pvals := ["d_2", "d_3", "a_3"] }

/-- ik_robots.py:286-299 -/
def robot12 : Block :=
  let dh : List (List Cell) := [
    [.zero, .zero, .sym "d_1", .sym "th_1"],
    [.con "-sp.pi/2", .zero, .zero, .sym "th_2"],
    [.zero, .sym "a_2", .sym "d_3", .sym "th_3"],
    [.con "-sp.pi/2", .sym "a_3", .sym "d_4", .sym "th_4"],
    [.con "-sp.pi/2", .zero, .zero, .sym "th_5"],
    [.con "sp.pi/2", .zero, .zero, .sym "th_6"]]
  { name := "Puma", dh := dh, vv := [1, 1, 1, 1, 1, 1],
    vars := ["th_1", "th_2", "th_3", "th_4", "th_5", "th_6"], params := ["d_1", "a_2", "a_3", "d_3", "d_4"], pvals := ["d_1", "a_2", "a_3", "d_3", "d_4"] }

/-- ik_robots.py:304-317 -/
def robot13 : Block :=
  let dh : List (List Cell) := [
    [.zero, .zero, .sym "d_1", .sym "th_1"],
    [.con "-sp.pi/2", .zero, .zero, .sym "th_2"],
    [.zero, .sym "a_2", .sym "d_3", .sym "th_3"],
    [.con "-sp.pi/2", .sym "a_3", .sym "d_4", .sym "th_4"],
    [.con "-sp.pi/2", .zero, .zero, .sym "th_5"],
    [.con "sp.pi/2", .zero, .sym "d_6", .sym "th_6"]]
  { name := "Pumaoffset", dh := dh, vv := [1, 1, 1, 1, 1, 1],
    vars := ["th_1", "th_2", "th_3", "th_4", "th_5", "th_6"], params := ["d_1", "a_2", "a_3", "d_3", "d_4", "d_6"], pvals := ["d_1", "a_2", "a_3", "d_3", "d_4", "d_6"] }

/-- ik_robots.py:320-335 -/
def robot14 : Block :=
  let dh : List (List Cell) := [
    [.zero, .zero, .sym "d_1", .zero],
    [.zero, .sym "l_1", .zero, .sym "th_2"],
    [.con "sp.pi/2", .zero, .sym "l_2", .sym "th_3"],
    [.con "sp.pi/2", .zero, .zero, .sym "th_4"],
    [.con "-sp.pi/2", .zero, .sym "l_4", .sym "th_5"],
    [.zero, .zero, .zero, .zero]]
  { name := "Chair_Helper", dh := dh, vv := [0, 1, 1, 1, 1, 1],
    vars := ["d_1", "th_2", "th_3", "th_4", "th_5"], params := ["l_1", "l_2", "l_4"], pvals := ["l_1", "l_2", "l_4"] }

/-- ik_robots.py:337-354 -/
def robot15 : Block :=
  let dh : List (List Cell) := [
    [.zero, .zero, .zero, .sym "A"],
    [.con "-sp.pi/2", .zero, .zero, .off "sp.pi/2" "B"],
    [.con "sp.pi/2", .zero, .zero, .off "sp.pi/2" "C"],
    [.con "-sp.pi/2", .zero, .zero, .con "-sp.pi/2"],
    [.zero, .zero, .zero, .zero],
    [.zero, .zero, .zero, .zero]]
  { name := "Wrist", dh := dh, vv := [1, 1, 1, 1, 1, 1],
    vars := ["A", "B", "C"], params := [], pvals := [] }

/-- ik_robots.py:357-374 -/
def robot16 : Block :=
  let dh : List (List Cell) := [
    [.zero, .zero, .sym "d_1", .zero],
    [.con "-sp.pi/2", .zero, .zero, .sym "th_2"],
    [.con "-sp.pi/2", .sym "l_3", .zero, .sym "th_3"],
    [.con "-sp.pi/2", .zero, .sym "l_4", .sym "th_4"],
    [.con "-sp.pi/2", .zero, .zero, .sym "th_5"],
    [.zero, .zero, .zero, .zero]]
  { name := "MiniDD", dh := dh, vv := [0, 1, 1, 1, 1],
    vars := ["d_1", "th_2", "th_3", "th_4", "th_5"], params := ["l_3", "l_4"], pvals := ["l_3", "l_4"] }

/-- ik_robots.py:377-396 -/
def robot17 : Block :=
  let dh : List (List Cell) := [
    [.con "-sp.pi/2", .zero, .sym "d_1", .con "sp.pi/2"],
    [.con "sp.pi/2", .zero, .sym "d_2", .con "-sp.pi/2"],
    [.con "sp.pi/2", .zero, .sym "l_3", .sym "th_3"],
    [.con "sp.pi/2", .zero, .zero, .sym "th_4"],
    [.zero, .sym "l_4", .zero, .sym "th_5"],
    [.con "sp.pi/2", .zero, .sym "l_5", .sym "th_6"]]
  { name := "Olson13", dh := dh, vv := [0, 0, 1, 1, 1, 1],
    vars := ["d_1", "d_2", "th_3", "th_4", "th_5", "th_6"], params := ["l_3", "l_4", "l_5"], pvals := ["l_3", "l_4", "l_5"] }

/-- ik_robots.py:400-414 -/
def robot18 : Block :=
  let dh : List (List Cell) := [
    [.zero, .zero, .sym "l_1", .sym "th_1"],
    [.con "sp.pi/2", .zero, .sym "l_2", .sym "th_2"],
    [.con "sp.pi/2", .zero, .sym "d_3", .zero],
    [.zero, .zero, .zero, .sym "th_4"],
    [.con "-sp.pi/2", .zero, .zero, .sym "th_5"],
    [.con "sp.pi/2.0", .zero, .zero, .sym "th_6"]]
  { name := "Stanford", dh := dh, vv := [1, 1, 0, 1, 1, 1],
    vars := ["th_1", "th_2", "d_3", "th_4", "th_5", "th_6"], params := ["l_1", "l_2"], pvals := ["l_1", "l_2"] }

/-- ik_robots.py:416-434 -/
def robot19 : Block :=
  let dh : List (List Cell) := [
    [.zero, .zero, .sym "d_1", .zero],
    [.con "sp.pi/2", .zero, .sym "d_2", .zero],
    [.con "sp.pi/2", .sym "l_1", .zero, .sym "th_3"],
    [.con "sp.pi/2", .zero, .sym "l_2", .sym "th_4"],
    [.con "sp.pi/2", .sym "l_3", .zero, .sym "th_5"],
    [.zero, .zero, .zero, .zero]]
  { name := "Sims11", dh := dh, vv := [0, 0, 1, 1, 1, 1, 1],
    vars := ["d_1", "d_2", "th_3", "th_4", "th_5"], params := ["l_1", "l_2", "l_3"], pvals := ["l_1", "l_2", "l_3"] }

/-- ik_robots.py:436-451 -/
def robot20 : Block :=
  let dh : List (List Cell) := [
    [.zero, .zero, .sym "d_1", .zero],
    [.zero, .zero, .zero, .sym "th_2"],
    [.con "sp.pi/2", .zero, .sym "l_1", .sym "th_3"],
    [.con "sp.pi/2", .zero, .sym "d_4", .con "sp.pi/2"],
    [.zero, .zero, .zero, .sym "th_5"],
    [.con "sp.pi/2", .zero, .zero, .sym "th_6"]]
  { name := "Srisuan11", dh := dh, vv := [0, 1, 1, 0, 1, 1],
    vars := ["d_1", "th_2", "th_3", "d_4", "th_5", "th_6"], params := ["l_1"], pvals := ["l_1"] }

/-- ik_robots.py:453-468 -/
def robot21 : Block :=
  let dh : List (List Cell) := [
    [.zero, .zero, .sym "d_1", .zero],
    [.con "sp.pi/2", .zero, .sym "l_2", .sym "th_2"],
    [.con "sp.pi/2", .zero, .zero, .sym "th_3"],
    [.zero, .sym "l_3", .zero, .sym "th_4"],
    [.zero, .sym "l_4", .zero, .zero],
    [.zero, .zero, .zero, .zero]]
  { name := "Axtman13", dh := dh, vv := [0, 1, 1, 1, 0, 0],
    vars := ["d_1", "th_2", "th_3", "th_4"], params := ["l_2", "l_3", "l_4"], pvals := ["l_2", "l_3", "l_4"] }

/-- ik_robots.py:470-485 -/
def robot22 : Block :=
  let dh : List (List Cell) := [
    [.con "-sp.pi/2", .sym "h", .sym "d_1", .zero],
    [.con "sp.pi/2", .zero, .sym "l_1", .sym "th_2"],
    [.con "sp.pi/2", .sym "l_2", .zero, .sym "th_3"],
    [.con "sp.pi/2", .zero, .sym "l_3", .sym "th_4"],
    [.con "-sp.pi/2", .zero, .zero, .sym "th_5"],
    [.zero, .zero, .zero, .zero]]
  { name := "Mackler13", dh := dh, vv := [0, 1, 1, 1, 1, 0],
    vars := ["d_1", "th_2", "th_3", "th_4", "th_5"], params := ["l_1", "l_2", "l_3"], pvals := ["l_1", "l_2", "l_3"] }

/-- ik_robots.py:487-503 -/
def robot23 : Block :=
  let dh : List (List Cell) := [
    [.zero, .zero, .sym "d_1", .zero],
    [.con "sp.pi/2", .zero, .sym "l_2", .sym "th_2"],
    [.con "sp.pi/2", .zero, .zero, .sym "th_3"],
    [.con "sp.pi/2", .zero, .neg "l_3", .sym "th_4"],
    [.zero, .zero, .zero, .zero],
    [.zero, .zero, .zero, .zero]]
  { name := "Minder13", dh := dh, vv := [0, 1, 1, 1, 0, 0],
    vars := ["d_1", "th_2", "th_3", "th_4"], params := ["l_2", "l_3"], pvals := ["l_2", "l_3"] }

/-- ik_robots.py:505-520 -/
def robot24 : Block :=
  let dh : List (List Cell) := [
    [.con "sp.pi/2", .zero, .sym "l_1", .sym "th_1"],
    [.con "sp.pi/2", .zero, .sym "d_2", .con "-sp.pi/2"],
    [.zero, .zero, .zero, .sym "th_3"],
    [.con "-sp.pi/2", .sym "l_3", .sym "h", .sym "th_4"],
    [.zero, .zero, .zero, .zero],
    [.zero, .zero, .zero, .zero]]
  { name := "Palm13", dh := dh, vv := [1, 0, 1, 1, 0, 0],
    vars := ["th_1", "d_2", "th_3", "th_4"], params := ["l_1", "l_3", "h"], pvals := ["l_1", "l_3", "h"] }

/-- ik_robots.py:522-538 -/
def robot25 : Block :=
  let dh : List (List Cell) := [
    [.zero, .zero, .sym "h", .sym "th_1"],
    [.con "sp.pi/2", .zero, .zero, .sym "th_2"],
    [.zero, .sym "l_2", .zero, .sym "th_3"],
    [.con "sp.pi", .sym "l_3", .sym "d_4", .zero],
    [.con "sp.pi/2", .zero, .sym "l_5", .sym "th_5"],
    [.zero, .zero, .zero, .zero]]
  { name := "Parkman13", dh := dh, vv := [1, 1, 1, 0, 1, 0],
    vars := ["th_1", "th_2", "th_3", "d_4", "th_5"], params := ["h", "l_2", "l_3", "l_5"], pvals := ["h", "l_2", "l_3", "l_5"] }

/-- ik_robots.py:540-555 -/
def robot26 : Block :=
  let dh : List (List Cell) := [
    [.zero, .zero, .sym "d_1", .zero],
    [.con "sp.pi/2", .zero, .zero, .sym "th_2"],
    [.con "sp.pi/2", .zero, .sym "l_3", .sym "th_3"],
    [.con "sp.pi/2", .zero, .zero, .sym "th_4"],
    [.con "sp.pi/2", .zero, .sym "l_5", .sym "th_5"],
    [.zero, .zero, .zero, .zero]]
  { name := "Frei13", dh := dh, vv := [0, 1, 1, 1, 1, 0],
    vars := ["d_1", "th_2", "th_3", "th_4", "th_5"], params := ["l_3", "l_5"], pvals := ["l_3", "l_5"] }

/-- ik_robots.py:557-573 -/
def robot27 : Block :=
  let dh : List (List Cell) := [
    [.con "-sp.pi/2", .zero, .sym "d_1", .zero],
    [.con "sp.pi/2", .zero, .sym "h", .sym "th_2"],
    [.con "sp.pi/2", .zero, .zero, .sym "th_3"],
    [.zero, .sym "l_2", .sym "l_3", .sym "th_4"],
    [.con "sp.pi/2", .zero, .sym "l_4", .sym "th_5"],
    [.zero, .zero, .zero, .zero]]
  { name := "Wachtveitl", dh := dh, vv := [0, 1, 1, 1, 1, 0],
    vars := ["d_1", "th_2", "th_3", "th_4", "th_5"], params := ["h", "l_2", "l_3", "l_4"], pvals := ["h", "l_2", "l_3", "l_4"] }

/-- ik_robots.py:576-592 -/
def robot28 : Block :=
  let dh : List (List Cell) := [
    [.zero, .zero, .sym "l_1", .sym "th_1"],
    [.con "sp.pi/2", .zero, .sym "d_2", .zero],
    [.zero, .zero, .zero, .sym "th_3"],
    [.con "sp.pi/2", .zero, .sym "d_4", .zero],
    [.zero, .zero, .zero, .sym "th_5"],
    [.con "sp.pi/2", .zero, .zero, .zero]]
  { name := "Bartell", dh := dh, vv := [1, 0, 1, 0, 1, 1],
    vars := ["th_1", "d_2", "th_3", "d_4", "th_5"], params := ["l_1"], pvals := ["l_1"] }

/-- ik_robots.py:594-610 -/
def robot29 : Block :=
  let dh : List (List Cell) := [
    [.zero, .zero, .sym "h", .sym "th_1"],
    [.con "sp.pi/2", .sym "l_1", .zero, .sym "th_2"],
    [.zero, .sym "l_3", .zero, .sym "th_3"],
    [.con "sp.pi/2", .zero, .sym "l_4", .sym "th_4"],
    [.con "sp.pi/2", .zero, .zero, .sym "th_5"],
    [.zero, .zero, .zero, .zero]]
  { name := "DZhang", dh := dh, vv := [1, 1, 1, 1, 1, 1],
    vars := ["th_1", "th_2", "th_3", "th_4", "th_5"], params := ["h", "l_1", "l_3", "l_4"], pvals := ["h", "l_1", "l_3", "l_4"] }

/-- ik_robots.py:612-631 -/
def robot30 : Block :=
  let dh : List (List Cell) := [
    [.zero, .sym "a_1", .sym "l_1", .sym "th_1"],
    [.con "sp.pi/2", .zero, .zero, .sym "th_2"],
    [.zero, .sym "a_2", .zero, .sym "th_3"],
    [.con "sp.pi/2", .sym "a_3", .sym "l_4", .sym "th_4"],
    [.con "-sp.pi/2", .zero, .zero, .sym "th_5"],
    [.con "sp.pi/2", .zero, .zero, .sym "th_6"]]
  { name := "Khat6DOF", dh := dh, vv := [1, 1, 1, 1, 1, 1],
    vars := ["th_1", "th_2", "th_3", "th_4", "th_5", "th_6"], params := ["a_1", "l_1", "a_2", "a_3", "l_4"], pvals := ["a_1", "l_1", "a_2", "a_3", "l_4"] }

/-- the blocks in the order of the source -/
def blocks : List Block := [robot0, robot1, robot2, robot3, robot4, robot5, robot6, robot7, robot8, robot9, robot10, robot11, robot12, robot13, robot14, robot15, robot16, robot17, robot18, robot19, robot20, robot21, robot22, robot23, robot24, robot25, robot26, robot27, robot28, robot29, robot30]

end Verif.Out
