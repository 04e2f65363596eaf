/-!
# Model of `robot_params` (ikbtfunctions/ik_robots.py:33-643)

Symbols are their names; numbers and multiples of pi are kept as text. The table itself is in `RobotTable.lean`.
-/
namespace Verif.Out

/-- an entry of a DH table as the source writes it: 0, a number, a symbol, a negated symbol, a symbol plus a number -/
inductive Cell where
  | zero
  | con (c : String)
  | sym (s : String)
  | neg (s : String)
  | off (c s : String)
  deriving DecidableEq, Repr

/-- the symbol in an entry -/
def Cell.name? : Cell → Option String
  | .zero | .con _ => none
  | .sym s | .neg s | .off _ s => some s

/-- one `if(name == '...'):` block: what it assigns (ik_robots.py:67-631) -/
structure Block where
  name : String
  dh : List (List Cell)
  vv : List Nat
  vars : List String
  params : List String
  pvals : List String
  deriving Repr

/-- what `robot_params` returns: `[dh, vv, params, pvals, variables]`; `pvals` by its keys, `variables` with their `n` -/
structure Desc where
  dh : List (List Cell)
  vv : List Nat
  params : List String
  pvals : List String
  vars : List (String × Nat)
  deriving DecidableEq, Repr

/-- how a call of `robot_params` ends -/
inductive RP where
  | quit
  | crash (e : String)
  | ok (d : Desc)
  deriving DecidableEq, Repr

/-- ik_robots.py:636-641: `i = 1; for v in variables: v.n = i; i += 1` -/
def numberFrom : Nat → List String → List (String × Nat)
  | _, [] => []
  | i, v :: vs => (v, i) :: numberFrom (i + 1) vs

/-- ik_robots.py:33-643: quit for a name that is not offered (60-65); then every block whose name matches assigns its values, the last
one stays (67-631); the numbering and the return raise UnboundLocalError if none did (638, 643). -/
def robotParams (offered : List String) (blocks : List Block) (name : String) : RP :=
  if name ∈ offered then
    match (blocks.filter fun b => name == b.name).getLast? with
    | none => .crash "UnboundLocalError: variables"
    | some b => .ok { dh := b.dh, vv := b.vv, params := b.params, pvals := b.pvals, vars := numberFrom 1 b.vars }
  else .quit

/-- kin_cl.py:381-447: the velocity recursion of `forward_kinematics` reads `vv[0]` … `vv[5]` -/
def readsVv (vv : List Nat) : Except String (List Nat) :=
  [0, 1, 2, 3, 4, 5].mapM fun i => match vv[i]? with
    | some x => .ok x
    | none => .error "IndexError: list index out of range"

/-- ik_classes.py:185-190: the two assertions of `Robot.__init__` on the DH table and the `max_index` it finds -/
def maxIndex (dh : List (List Cell)) : Except String Nat :=
  let used : Nat → Bool := fun i => match dh[i]? with
    | some [_, _, d, th] => d != .zero || th != .zero
    | _ => false
  if used 0 then
    match [5, 4, 3, 2, 1].find? used with
    | some i => .ok i
    | none => .error "AssertionError: Couldn't find mechanism index"
  else .error "AssertionError: You do not have a variable in first DH row!"

end Verif.Out
