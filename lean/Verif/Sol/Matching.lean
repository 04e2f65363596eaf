/-!
# ikbtbasics/matching.py: grouping joint-solution notations ("version 2" of the solution sets)

The inputs are the notation subgroups (`notation_collections`, a list of lists of names such as `th_1s2`) and the
solution nodes, of which only the attribute `sol_notations` is read. (`Node` of solutionGraphV3.py:29-47 no longer
has that attribute and `Robot.notation_collections` stays `[]`, so ikSolver.py:370-390 keeps this step switched off
with `VERSION02 = False`; the functions are still importable and documented in matching.py:20-33.)

Simplifications: names are values of a type `α`; a python `set` is a duplicate-free list, and the order in which
`list(new_set)` enumerates it is an arbitrary parameter `enum`; dictionaries are association lists; printing is
left out.
-/
namespace Verif.Sol.Matching

variable {α : Type} [DecidableEq α]

/-- solutionGraphV3.Node as matching.py uses it: the list `sol_notations`. -/
structure Node (α : Type) where
  nots : List α

/-- `d[k].append(x)` after `if k not in d.keys(): d[k] = []` (matching.py:47-49, 73-75). -/
def push {β : Type} (d : List (Nat × List β)) (k : Nat) (x : β) : List (Nat × List β) :=
  match d with
  | [] => [(k, [x])]
  | (k', xs) :: d => if k' = k then (k', xs ++ [x]) :: d else (k', xs) :: push d k x

/-- `d[k]` (absent: not reached by the callers; `[]` here). -/
def get {β : Type} (d : List (Nat × List β)) (k : Nat) : List β :=
  match d with
  | [] => []
  | (k', xs) :: d => if k' = k then xs else get d k

/-- matching.py:50-51: `if len(subset) > max_len: max_len = len(subset)` -/
def maxLen (m : Option Nat) (n : Nat) : Option Nat :=
  match m with
  | none => some n
  | some k => if n > k then some n else some k

/-- matching.py:41-57 `sort_by_length`; `max_len` as `Option` (`none` = -1). -/
def sortByLength : List (List α) → List (Nat × List (List α)) → Option Nat →
    List (Nat × List (List α)) × Option Nat
  | [], d, m => (d, m)
  | g :: gs, d, m =>
    sortByLength gs (push d g.length g) (maxLen m g.length)

/-- matching.py:72-75: the score of a potential group. -/
def score (start g : List α) : Nat :=
  g.foldl (fun s x => if x ∈ start then s + 1 else s) g.length

/-- `sorted(keys, reverse=True)` (matching.py:78): insertion into a descending list. -/
def insertDesc (k : Nat) : List Nat → List Nat
  | [] => [k]
  | k' :: ks => if k' < k then k :: k' :: ks else k' :: insertDesc k ks

/-- matching.py:78 -/
def sortDesc : List Nat → List Nat
  | [] => []
  | k :: ks => insertDesc k (sortDesc ks)

/-- matching.py:60-84 `search_notation`: groups that contain a notation of a goal node (once per hit), by
descending score. -/
def searchNotation (list : List (List α)) (goals : List (Node α)) (start : List α) : List (List α) :=
  let potential := list.flatMap fun g => goals.flatMap fun n => (n.nots.filter (· ∈ g)).map fun _ => g
  let d := potential.foldl (fun d g => push d (score start g) g) []
  (sortDesc (d.map (·.1))).flatMap (get d)

/-- matching.py:88-93 `finish_found` -/
def finishFound : List Bool → Bool
  | [] => true
  | c :: cs => if !c then false else finishFound cs

/-- The three lists `mark_off` returns. -/
structure Marks (α : Type) where
  check : List Bool
  goals : List (Node α)
  contained : List (Node α)

/-- matching.py:95-112 `mark_off` -/
def markOff (set : List α) : List (Node α) → Marks α
  | [] => ⟨[], [], []⟩
  | n :: ns =>
    let m := markOff set ns
    if set.any (· ∈ n.nots) then ⟨true :: m.check, m.goals, n :: m.contained⟩
    else ⟨false :: m.check, n :: m.goals, m.contained⟩

/-- The state of the loop over the potential groups. -/
structure St (α : Type) where
  set : List α
  marks : Marks α

/-- `a.union(b)` -/
def union (a b : List α) : List α := b.foldl (fun s x => if x ∈ s then s else s ++ [x]) a

/-- matching.py:153-157 `has_new_sym` — in fact: some symbol of the group belongs to a node (other than the first)
that is already checked off. -/
def hasNewSym (nodes : List (Node α)) (check : List Bool) (g : List α) : Bool :=
  g.any fun sym => ((nodes.zip check).drop 1).any fun p => decide (sym ∈ p.1.nots) && p.2

/-- matching.py:160-168 `no_conflict`: no two different symbols of one node other than the first. -/
def noConflict (nodes : List (Node α)) (set g : List α) : Bool :=
  g.all fun sym => set.all fun x => decide (sym = x) ||
    (nodes.drop 1).all fun n => !(decide (sym ∈ n.nots) && decide (x ∈ n.nots))

/-- matching.py:148-181: the merge for overlapping groups, once per common notation. -/
def mergeOne (nodes : List (Node α)) (start g : List α) (st : St α) : St α :=
  start.foldl (fun st x =>
    if x ∈ g then
      if hasNewSym nodes st.marks.check g && noConflict nodes st.set g then
        let s := union st.set g
        ⟨s, markOff s nodes⟩
      else st
    else st) st

/-- matching.py:185-208: the merge for a group without a common element. The third result of `mark_off` goes to
the misspelt variable `countained`, so `contained` keeps its old value. -/
def mergeTwo (nodes : List (Node α)) (g : List α) (st : St α) : St α :=
  if g.all (· ∉ st.set) then
    let unmarked := st.marks.goals.any fun n => g.any (· ∈ n.nots)
    let noRepeats := st.marks.contained.all fun n => g.all (· ∉ n.nots)
    if unmarked && noRepeats then
      let s := union st.set g
      let m := markOff s nodes
      ⟨s, ⟨m.check, m.goals, st.marks.contained⟩⟩
    else st
  else st

/-- matching.py:228-235 `sort_variables` -/
def sortVariables (l : List α) (nodes : List (Node α)) : List α :=
  nodes.flatMap fun n => l.filter (· ∈ n.nots)

/-- matching.py:144-222: the loop over the potential groups; `none` = it ends without a complete set. -/
def groupLoop (enum : List α → List α) (nodes : List (Node α)) (start : List α) :
    List (List α) → St α → Option (List α)
  | [], _ => none
  | g :: gs, st =>
    let st := mergeTwo nodes g (mergeOne nodes start g st)
    if finishFound st.marks.check then some (sortVariables (enum st.set) nodes)
    else groupLoop enum nodes start gs st

/-- matching.py:127-224: the loop over the longest groups; `acc` = `final_group` (a set of tuples). -/
def startLoop (enum : List α → List α) (cols longest : List (List α)) (nodes : List (Node α)) :
    List (List α) → List (List α) → List (List α)
  | [], acc => acc
  | start :: rest, acc =>
    if start.length = nodes.length then longest
    else
      let m := markOff start nodes
      match groupLoop enum nodes start (searchNotation cols m.goals start) ⟨union [] start, m⟩ with
      | none => startLoop enum cols longest nodes rest acc
      | some g => startLoop enum cols longest nodes rest (if g ∈ acc then acc else acc ++ [g])

/-- matching.py:116-224 `matching_func` -/
def matching (enum : List α → List α) (cols : List (List α)) (nodes : List (Node α)) : List (List α) :=
  let (d, m) := sortByLength cols [] none
  match m with
  | none => []
  | some k => startLoop enum cols (get d k) nodes (get d k) []

end Verif.Sol.Matching
