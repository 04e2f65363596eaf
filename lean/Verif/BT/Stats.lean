import Verif.BT.Model
/-!
# The statistics of one node (b3/core/basenode.py:18-116, 145-171)

`BT.Model` runs whole trees; here is one node with all fields that its statistics use, and every call a program can make on them.
-/
namespace Verif.BT

/-- basenode.py:22-33: the counters of a node. The lists have four elements; floats are rationals. -/
structure NodeStat where
  nTicks : Nat := 0
  nTicksAll : Nat := 0
  nSuccess : Nat := 0
  state : Int := 0
  nTik2 : List Nat := [0, 0, 0, 0]
  nSuc2 : List Nat := [0, 0, 0, 0]
  ps : Rat := 0
  cost : Int := 0
  utility : Rat := 0
  mode : String := "RATIO"
  deriving DecidableEq

/-- the position that the python index `i` means in a list of length `n` -/
def pyIndex (n : Nat) (i : Int) : Option Nat :=
  if 0 ≤ i ∧ i < n then some i.toNat else if -n ≤ i ∧ i < 0 then some (i + n).toNat else none

/-- `l[i] += 1` -/
def incAt (l : List Nat) (i : Int) : Option (List Nat) :=
  match pyIndex l.length i with
  | some k => some (l.set k (l.getD k 0 + 1))
  | none => none

/-- basenode.py:151-165: what one execution with result `s` does to the counters. `none` is IndexError. -/
def NodeStat.execute (s : Status) (n : NodeStat) : NodeStat × Bool :=
  let n := { n with nTicksAll := n.nTicksAll + 1 }                            -- 151
  if s = .success then
    let n := { n with nSuccess := n.nSuccess + 1 }                            -- 164
    match incAt n.nSuc2 n.state with                                          -- 165
    | some l => ({ n with nSuc2 := l }, true)
    | none => (n, false)
  else (n, true)

/-- basenode.py:98-104 `p_reset` -/
def NodeStat.reset (n : NodeStat) : NodeStat :=
  { n with nTicks := 0, nTicksAll := 0, nSuccess := 0, ps := 0, nTik2 := [0, 0, 0, 0], nSuc2 := [0, 0, 0, 0] }

/-- basenode.py:40-46 `prob`: the value and the node after the call -/
def NodeStat.probCall (n : NodeStat) : Rat × NodeStat :=
  if n.nTicks > 0 then ((n.nSuccess : Rat) / n.nTicks, { n with ps := (n.nSuccess : Rat) / n.nTicks }) else (1 / 10, n)

/-- basenode.py:49-59 `get_Utility` -/
def NodeStat.getUtility (n : NodeStat) : Rat × NodeStat :=
  let n := if n.mode = "RATIO" then
      let (p, n) := n.probCall
      { n with utility := if n.cost > 0 then p / n.cost else p }
    else n
  let n := if n.mode = "NEG_COST" then
      let (p, n) := n.probCall
      { n with utility := p * (-1) * n.cost }
    else n
  (n.utility, n)

/-- basenode.py:80-95 `prob_state` -/
def NodeStat.probState (n : NodeStat) : List Rat :=
  (List.range 4).map fun i => if n.nTik2.getD i 0 > 0 then (n.nSuc2.getD i 0 : Rat) / n.nTik2.getD i 0 else 1 / 2

/-- basenode.py:62-72 `get_Utility2`; `none` is IndexError -/
def NodeStat.getUtility2 (n : NodeStat) : Option (Rat × NodeStat) :=
  if n.mode = "RATIO" ∨ n.mode = "NEG_COST" then
    match pyIndex n.probState.length n.state with
    | none => none
    | some k =>
      let p := n.probState.getD k 0
      let u := if n.mode = "RATIO" then (if n.cost > 0 then p / n.cost else p) else p * (-1) * n.cost
      some (u, { n with utility := u })
  else some (n.utility, n)

/-- Everything that happens to a node between its creation and the moment we look at it. -/
inductive StatEv where
  /-- the tree executes it with this result -/
  | execute (s : Status)
  /-- the program sets its state, cost or mode (the fields are public) -/
  | setState (i : Int)
  | setCost (c : Int)
  | setMode (m : String)
  /-- `p_reset()` -/
  | reset
  /-- `prob()`, `get_Utility()`, `get_Utility2()`, `report_stats()` (basenode.py:109-116 calls the first two) -/
  | prob
  | getUtility
  | getUtility2
  | report

/-- one event; `false`: it raised an IndexError (the node stays as it is then, and can be used further) -/
def statStep (n : NodeStat) : StatEv → NodeStat × Bool
  | .execute s => n.execute s
  | .setState i => ({ n with state := i }, true)
  | .setCost c => ({ n with cost := c }, true)
  | .setMode m => ({ n with mode := m }, true)
  | .reset => (n.reset, true)
  | .prob => (n.probCall.2, true)
  | .getUtility => (n.getUtility.2, true)
  | .getUtility2 => match n.getUtility2 with
    | some p => (p.2, true)
    | none => (n, false)
  | .report => ((n.probCall.2).getUtility.2, true)

/-- a history; the program goes on after an exception -/
def statRun (n : NodeStat) (h : List StatEv) : NodeStat := h.foldl (fun n e => (statStep n e).1) n

end Verif.BT
