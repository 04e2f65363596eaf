import Verif.Out.Packed
/-!
# C63: the generated programs do not depend on the order of the set of solutions

`R.solutionSet` (ik_classes.py:274) is a python set; output_python.py:307 and output_cpp.py:93, 254 iterate over it, in an order that changes
with the hash seed of the process. The argument `groups` of `pyCode` and `cppCode` is this order.
-/
namespace Verif.Out
open Verif.Leaf Verif.Sol

/-- The same groups of names: the groups in another order, the names in each group in another order. -/
def SameGroups (a b : List (List Text)) : Prop := ∃ c, a.Perm c ∧ List.Forall₂ List.Perm c b

/-- The same outcome up to the order of the list of solutions. -/
inductive SameAnswer {V : Type} : Except PyErr (Option (List (List V))) → Except PyErr (Option (List (List V))) → Prop
  /-- both raise the same exception -/
  | raise (e : PyErr) : SameAnswer (.error e) (.error e)
  /-- both return `False` -/
  | refuse : SameAnswer (.ok none) (.ok none)
  /-- both return the same vectors, with the same multiplicities -/
  | list {l l' : List (List V)} (h : l.Perm l') : SameAnswer (.ok (some l)) (.ok (some l'))

theorem tsort_congr {g g' : List Text} (h : g.Perm g') : tsort g = tsort g' :=
  (tsort_ascending g).unique ⟨(tsort_ascending g').1.trans h.symm, (tsort_ascending g').2⟩

theorem sorted_perm {a b : List (List Text)} (h : SameGroups a b) : (a.map tsort).Perm (b.map tsort) := by
  obtain ⟨c, h1, h2⟩ := h
  refine (h1.map _).trans (.of_eq ?_)
  clear h1
  induction h2 with
  | nil => rfl
  | cons h _ ih => simp only [List.map_cons, ih, tsort_congr h]

/-- the vectors of a list of packing statements -/
def packed {V : Type} (vars : Text → Option V) : List (List Text) → Except PyErr (List (List V))
  | [] => .ok []
  | g :: gs => match pyNames vars g with
    | .error e => .error e
    | .ok l => match packed vars gs with
      | .error e => .error e
      | .ok ls => .ok (l :: ls)

theorem run_packs {V : Type} (ev : PyEval V) (gs : List (List Text)) (s : PySt V) :
    pyRun ev s (gs.map .pack) = match packed s.vars gs with
      | .error e => .error e
      | .ok ls => .ok { s with out := s.out ++ ls } := by
  induction gs generalizing s with
  | nil => simp [pyRun, packed]
  | cons g gs ih =>
    simp only [List.map_cons, pyRun, pyStep, packed]
    cases pyNames s.vars g with
    | error e => rfl
    | ok l =>
      simp only [ih]
      cases packed s.vars gs with
      | error e => rfl
      | ok ls => simp

theorem pyNames_err {V : Type} {vars : Text → Option V} {g : List Text} {e : PyErr} (h : pyNames vars g = .error e) : e = .nameError := by
  induction g with
  | nil => cases h
  | cons x xs ih =>
    rw [pyNames] at h
    split at h
    · cases h; rfl
    · split at h
      · rename_i e' he; cases h; exact ih he
      · cases h

/-- the same error, or the same vectors in another order -/
def SamePacked {V : Type} (a b : Except PyErr (List (List V))) : Prop :=
  (∃ e, a = .error e ∧ b = .error e) ∨ ∃ l l', a = .ok l ∧ b = .ok l' ∧ l.Perm l'

theorem packed_perm {V : Type} (vars : Text → Option V) {a b : List (List Text)} (h : a.Perm b) :
    SamePacked (packed vars a) (packed vars b) := by
  have refl : ∀ x : Except PyErr (List (List V)), SamePacked x x := by
    intro x
    cases x with
    | error e => exact .inl ⟨e, rfl, rfl⟩
    | ok l => exact .inr ⟨l, l, rfl, rfl, .refl _⟩
  induction h with
  | nil => exact refl _
  | cons g _ ih =>
    simp only [packed]
    cases pyNames vars g with
    | error e => exact .inl ⟨e, rfl, rfl⟩
    | ok l =>
      rcases ih with ⟨e, h1, h2⟩ | ⟨l1, l2, h1, h2, hp⟩
      · exact .inl ⟨e, by simp only [h1], by simp only [h2]⟩
      · exact .inr ⟨l :: l1, l :: l2, by simp only [h1], by simp only [h2], hp.cons _⟩
  | swap g g' l =>
    simp only [packed]
    cases h1 : pyNames vars g with
    | error e =>
      have h1 := pyNames_err h1
      subst h1
      cases h2 : pyNames vars g' with
      | error e' => have h2 := pyNames_err h2; subst h2; exact refl _
      | ok l1 => exact .inl ⟨_, rfl, rfl⟩
    | ok l1 =>
      cases h2 : pyNames vars g' with
      | error e' => exact .inl ⟨_, rfl, rfl⟩
      | ok l2 =>
        cases packed vars l with
        | error e => exact .inl ⟨_, rfl, rfl⟩
        | ok ls => exact .inr ⟨_, _, rfl, rfl, .swap ..⟩
  | trans _ _ ih1 ih2 =>
    rcases ih1 with ⟨e, h1, h2⟩ | ⟨l1, l2, h1, h2, hp⟩
    · rcases ih2 with ⟨e', h3, h4⟩ | ⟨l3, l4, h3, h4, hq⟩
      · rw [h2] at h3; cases h3; exact .inl ⟨e, h1, h4⟩
      · rw [h2] at h3; cases h3
    · rcases ih2 with ⟨e', h3, h4⟩ | ⟨l3, l4, h3, h4, hq⟩
      · rw [h2] at h3; cases h3
      · rw [h2] at h3; cases h3; exact .inr ⟨l1, l4, h1, h4, hp.trans hq⟩

/-- **C63, Python.** For every order in which the set of solutions is iterated, the Python program is generated in the same cases, and every call
of it has the same outcome: the same exception, `False`, or the same list of joint vectors up to its order. -/
theorem C63_python {V : Type} (ev : PyEval V) (inputs : Text → Option V) (nodes : List GNode) (mat : FMat) (groups groups' : List (List Text))
    (hg : SameGroups groups groups') :
    (pyCode nodes mat groups = none ∧ pyCode nodes mat groups' = none) ∨
    ∃ ops ops', pyCode nodes mat groups = some ops ∧ pyCode nodes mat groups' = some ops' ∧
      SameAnswer (pyCall ev inputs ops) (pyCall ev inputs ops') := by
  unfold pyCode
  cases (nodes.mapM (pyNode mat)).map List.flatten with
  | none => exact .inl ⟨rfl, rfl⟩
  | some body =>
    refine .inr ⟨_, _, rfl, rfl, ?_⟩
    have e : ∀ gs : List (List Text), (gs.map fun g => PyOp.pack (tsort g)) = (gs.map tsort).map .pack := by
      intro gs; simp [List.map_map, Function.comp_def]
    simp only [e, pyCall, pyRun_append]
    cases pyRun ev ⟨true, inputs, []⟩ body with
    | error e => exact .raise e
    | ok s =>
      simp only [run_packs]
      rcases packed_perm s.vars (sorted_perm hg) with ⟨e, h1, h2⟩ | ⟨l, l', h1, h2, hp⟩
      · simp only [h1, h2]; exact .raise e
      · simp only [h1, h2]
        cases s.solvable with
        | false => exact .refuse
        | true => exact .list (hp.append_left _)

/-- two groups in the other order, one of them with its names in the other order: the program that evaluates every right side to its number of
characters returns its two vectors in the other order -/
example : SameGroups [["yv1".toList, "xv1".toList], ["xv2".toList, "yv2".toList]] [["xv2".toList, "yv2".toList], ["xv1".toList, "yv1".toList]] ∧
    (pyCode demoNodes demoPyMat [["yv1".toList, "xv1".toList], ["xv2".toList, "yv2".toList]]).map
      (fun ops => (pyCall ⟨fun _ _ => .ok false, fun _ t => .ok t.length⟩ (fun _ => none) ops).toOption) = some (some (some [[13, 8], [15, 9]])) ∧
    (pyCode demoNodes demoPyMat [["xv2".toList, "yv2".toList], ["xv1".toList, "yv1".toList]]).map
      (fun ops => (pyCall ⟨fun _ _ => .ok false, fun _ t => .ok t.length⟩ (fun _ => none) ops).toOption) = some (some (some [[15, 9], [13, 8]])) := by
  refine ⟨⟨_, .swap .., .cons (.refl _) (.cons (.swap ..) .nil)⟩, ?_, ?_⟩ <;> decide +kernel

/-- **C63, C++.** For every order in which the set of solutions is iterated, the C++ program is generated in the same cases; its statements up to
the packing and after it are the same, and the rows that are written to `solution_list[0]`, `solution_list[1]`, … are the same, in another
order. -/
theorem C63_cpp (nodes : List GNode) (mat : FMat) (groups groups' : List (List Text)) (hg : SameGroups groups groups') :
    (cppCode nodes mat groups = none ∧ cppCode nodes mat groups' = none) ∨
    ∃ (pre post ops ops' : List Op) (rows rows' : List (List Text)), cppCode nodes mat groups = some (pre ++ ops ++ post) ∧
      cppCode nodes mat groups' = some (pre ++ ops' ++ post) ∧ rows.Perm rows' ∧
      (∀ (o : List Op) (r : List (List Text)), (o, r) = (ops, rows) ∨ (o, r) = (ops', rows') → o = r.zipIdx.flatMap fun gi =>
        gi.1.zipIdx.map fun vj => Op.asgn ("solution_list[".toList ++ natText gi.2 ++ "][".toList ++ natText vj.2 ++ "]".toList) vj.1) := by
  unfold cppCode
  cases cppNodes mat nodes with
  | none => exact .inl ⟨rfl, rfl⟩
  | some body =>
    refine .inr ⟨_, _, packRows 0 groups, packRows 0 groups', groups.map tsort, groups'.map tsort, rfl, rfl, sorted_perm hg, ?_⟩
    have hrow : ∀ (i j : Nat) (vs : List Text), packRow i j vs = (vs.zipIdx j).map fun vj =>
        Op.asgn ("solution_list[".toList ++ natText i ++ "][".toList ++ natText vj.2 ++ "]".toList) vj.1 := by
      intro i j vs
      induction vs generalizing j with
      | nil => rfl
      | cons v vs ih => simp only [packRow, List.zipIdx_cons, List.map_cons, ih]
    have hrows : ∀ (i : Nat) (gs : List (List Text)), packRows i gs = (((gs.map tsort).zipIdx i).flatMap fun gi => gi.1.zipIdx.map fun vj =>
          Op.asgn ("solution_list[".toList ++ natText gi.2 ++ "][".toList ++ natText vj.2 ++ "]".toList) vj.1) := by
      intro i gs
      induction gs generalizing i with
      | nil => rfl
      | cons g gs ih => simp only [packRows, hrow, ih, List.map_cons, List.zipIdx_cons, List.flatMap_cons]
    rintro o r (h | h) <;> cases h <;> exact hrows 0 _

/-- both orders give a program -/
example : (cppCode demoNodes demoPyMat [["yv1".toList, "xv1".toList], ["xv2".toList, "yv2".toList]]).isSome ∧
    (cppCode demoNodes demoPyMat [["xv2".toList, "yv2".toList], ["yv1".toList, "xv1".toList]]).isSome := by decide +kernel

/-- **C63 violated.** The generated texts themselves are not the same: the rows of the answer change places with the order of the set. -/
theorem C63_text_violation : SameGroups [["xv1".toList], ["xv2".toList]] [["xv2".toList], ["xv1".toList]] ∧
    (cppCode [⟨1, methodText [.atan2], []⟩] [[("xv1".toList, "a".toList)], [("xv2".toList, "b".toList)]] [["xv1".toList], ["xv2".toList]]).map
        (fun ops => (asgns ops).drop 2) = some [("solution_list[0][0]".toList, "xv1".toList), ("solution_list[1][0]".toList, "xv2".toList)] ∧
    (cppCode [⟨1, methodText [.atan2], []⟩] [[("xv1".toList, "a".toList)], [("xv2".toList, "b".toList)]] [["xv2".toList], ["xv1".toList]]).map
        (fun ops => (asgns ops).drop 2) = some [("solution_list[0][0]".toList, "xv2".toList), ("solution_list[1][0]".toList, "xv1".toList)] := by
  refine ⟨⟨_, .swap .., .cons (.refl _) (.cons (.refl _) .nil)⟩, ?_, ?_⟩ <;> decide +kernel

end Verif.Out
