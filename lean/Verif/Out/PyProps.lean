import Verif.Out.Assign
/-!
# C47, C52: the generated Python function
-/
namespace Verif.Out
open Verif.Leaf Verif.Sol

/-! ## Running the generated function -/

inductive PyErr where | nameError | other
  deriving DecidableEq, Repr

/-- What Python does with the texts, left abstract: the condition `abs g > 1` and the value of a right side, in the given variables. -/
structure PyEval (V : Type) where
  tooBig : (Text → Option V) → Text → Except PyErr Bool
  rhs : (Text → Option V) → Text → Except PyErr V

/-- state of the generated function: `solvable_pose`, the local variables, `solution_list` -/
structure PySt (V : Type) where
  solvable : Bool
  vars : Text → Option V
  out : List (List V)

variable {V : Type}

def PySt.set (s : PySt V) (x : Text) (v : V) : PySt V := { s with vars := fun y => if y = x then some v else s.vars y }

/-- `x = r` -/
def pyAssign (ev : PyEval V) (s : PySt V) (x r : Text) : Except PyErr (PySt V) :=
  match ev.rhs s.vars r with
  | .error e => .error e
  | .ok v => .ok (s.set x v)

/-- the values of the names in a list display -/
def pyNames (vars : Text → Option V) : List Text → Except PyErr (List V)
  | [] => .ok []
  | x :: xs => match vars x with
    | none => .error .nameError
    | some v => match pyNames vars xs with
      | .error e => .error e
      | .ok vs => .ok (v :: vs)

/-- one statement of the text written by output_python.py:270-286 and 324-332 -/
def pyStep (ev : PyEval V) (s : PySt V) : PyOp → Except PyErr (PySt V)
  | .guarded g x r =>
    if s.solvable then
      match ev.tooBig s.vars g with
      | .error e => .error e
      | .ok true => .ok { s with solvable := false }
      | .ok false => pyAssign ev s x r
    else pyAssign ev s x r
  | .asgn x r => pyAssign ev s x r
  | .pack vs => match pyNames s.vars vs with
    | .error e => .error e
    | .ok l => .ok { s with out := s.out ++ [l] }

def pyRun (ev : PyEval V) : PySt V → List PyOp → Except PyErr (PySt V)
  | s, [] => .ok s
  | s, o :: os => match pyStep ev s o with
    | .error e => .error e
    | .ok s' => pyRun ev s' os

/-- A call of the generated function, in which `inputs` are the variables of its argument and of the parameters (output_python.py:226-255,
334-338): `none` is `return(False)`. -/
def pyCall (ev : PyEval V) (inputs : Text → Option V) (ops : List PyOp) : Except PyErr (Option (List (List V))) :=
  match pyRun ev ⟨true, inputs, []⟩ ops with
  | .error e => .error e
  | .ok s => .ok (if s.solvable then some s.out else none)

/-! ## Counting -/

/-- the variable a statement assigns -/
def PyOp.lhs? : PyOp → Option Text
  | .guarded _ x _ => some x
  | .asgn x _ => some x
  | .pack _ => none

/-- the names of the assigned variables, in order -/
def pyLhs (ops : List PyOp) : List Text := ops.filterMap PyOp.lhs?

/-- **C47, count in Python.** How often the version of an unknown is assigned, for every method and every text of the right side. -/
theorem C47_python_count (n : GNode) (ts : List Tag) (hm : n.method = methodText ts) (e : Text × Text) (ops : List PyOp)
    (h : pyVersion n e = some ops) :
    pyLhs ops = List.replicate (b2n (within "asin".toList e.2 || within "acos".toList e.2) + b2n (within "atan".toList e.2) +
      b2n (ts = [.algebra])) e.1 := by
  obtain ⟨_, _, e3⟩ := method_eq ts
  have ha : (n.method = "algebra".toList) ↔ ts = [.algebra] := by rw [hm]; exact e3
  simp only [pyVersion, Option.map_eq_some_iff] at h
  obtain ⟨a, ha1, rfl⟩ := h
  simp only [pyLhs, List.filterMap_append, List.replicate_add]
  congr 1
  · congr 1
    · split at ha1
      · rename_i hc
        simp only [Option.map_eq_some_iff] at ha1
        obtain ⟨g, _, rfl⟩ := ha1
        simp only [b2n, hc]; rfl
      · rename_i hc
        cases ha1
        simp only [b2n, hc]; rfl
    · simp only [b2n]; split <;> rfl
  · by_cases hc : ts = [.algebra]
    · rw [if_pos (ha.2 hc)]; simp only [b2n, hc]; rfl
    · rw [if_neg (fun h => hc (ha.1 h))]; simp only [b2n, hc]; rfl

/-- the usual cases are assigned once: an algebraic solution without inverse functions, an arctangent, an arcsine -/
example : (pyVersion ⟨1, methodText [.algebra], []⟩ ("xv1".toList, "Px - l_1".toList)).map pyLhs = some ["xv1".toList] ∧
    (pyVersion ⟨1, methodText [.atan2], []⟩ ("xv1".toList, "atan2(Px, Py)".toList)).map pyLhs = some ["xv1".toList] ∧
    (pyVersion ⟨1, methodText [.arcsin], []⟩ ("xv1".toList, "asin(Px/l_1)".toList)) =
      some [.guarded "(Px/l_1)".toList "xv1".toList "asin(Px/l_1)".toList] := by
  decide +kernel

/-- **C47 violated.** An algebraic solution found after the x2z2 transform is not assigned at all in Python. -/
theorem C47_python_none_violation :
    pyVersion ⟨1, methodText [.x2z2, .algebra], []⟩ ("d_3v1".toList, "Px**2 + Py**2".toList) = some [] := by
  decide +kernel

/-- **C47 violated.** A solution with an arcsine and an arctangent is assigned twice, and the domain test is made of a text that is not
the argument of the arcsine; the second assignment is not guarded. -/
theorem C47_python_twice_violation :
    pyVersion ⟨1, methodText [.arcsin], []⟩ ("xv1".toList, "asin(Px) + atan2(y, z)".toList) =
      some [.guarded "(Px) + atan2(y, z)".toList "xv1".toList "asin(Px) + atan2(y, z)".toList,
        .asgn "xv1".toList "asin(Px) + atan2(y, z)".toList] := by
  decide +kernel

/-- **C52 violated.** The domain test of the second solution of an arcsine, `pi - asin(x)` as sympy prints it, is right; that of a
solution with an arcsine inside a quotient tests another value than the argument. -/
theorem C52_guard_text_violation :
    argText "-asin(x) + pi".toList = some "(x)".toList ∧
    argText "(pi + asin(x))/2".toList = some "(pi + asin(x))".toList := by
  decide +kernel

/-! ## Running it -/

theorem pyNames_mem {vars : Text → Option V} {vs : List Text} {l : List V} (h : pyNames vars vs = .ok l) :
    ∀ x ∈ vs, (vars x).isSome := by
  induction vs generalizing l with
  | nil => simp
  | cons y ys ih =>
    rw [pyNames] at h
    split at h
    · cases h
    · rename_i v hv
      split at h
      · cases h
      · rename_i vs' hvs
        intro x hx
        rcases List.mem_cons.1 hx with rfl | hx
        · simp [hv]
        · exact ih hvs x hx

theorem pyAssign_other {ev : PyEval V} {s s' : PySt V} {x r : Text} (h : pyAssign ev s x r = .ok s') :
    s'.solvable = s.solvable ∧ ∀ y, y ≠ x → s'.vars y = s.vars y := by
  unfold pyAssign at h
  split at h
  · cases h
  · cases h; exact ⟨rfl, fun y hy => by simp [PySt.set, hy]⟩

/-- a statement leaves the variables that it does not assign -/
theorem pyStep_other {ev : PyEval V} {s s' : PySt V} {o : PyOp} (h : pyStep ev s o = .ok s') {y : Text} (hy : o.lhs? ≠ some y) :
    s'.vars y = s.vars y := by
  cases o with
  | guarded g x r =>
    have hyx : y ≠ x := fun e => hy (by rw [e]; rfl)
    simp only [pyStep] at h
    split at h
    · split at h
      · cases h
      · cases h; rfl
      · exact (pyAssign_other h).2 y hyx
    · exact (pyAssign_other h).2 y hyx
  | asgn x r =>
    have hyx : y ≠ x := fun e => hy (by rw [e]; rfl)
    exact (pyAssign_other h).2 y hyx
  | pack vs =>
    simp only [pyStep] at h
    split at h
    · cases h
    · cases h; rfl

/-- a program that packs a variable which is not defined at that time raises -/
theorem pyRun_undefined {ev : PyEval V} {x : Text} : ∀ {ops : List PyOp} {s : PySt V}, s.vars x = none → x ∉ pyLhs ops →
    (∃ vs, .pack vs ∈ ops ∧ x ∈ vs) → ∀ s', pyRun ev s ops ≠ .ok s'
  | [], _, _, _, ⟨_, h, _⟩, _ => by cases h
  | o :: os, s, hx, hn, ⟨vs, hv, hxv⟩, s' => by
    rw [pyRun]
    split
    · intro h; cases h
    · rename_i s1 h1
      have hn1 : o.lhs? ≠ some x := fun h => hn (by simp [pyLhs, h])
      have hn2 : x ∉ pyLhs os := fun h => hn (by
        simp only [pyLhs, List.mem_filterMap] at h ⊢
        obtain ⟨o', ho', h⟩ := h
        exact ⟨o', List.mem_cons_of_mem _ ho', h⟩)
      rcases List.mem_cons.1 hv with rfl | hv
      · simp only [pyStep] at h1
        split at h1
        · cases h1
        · rename_i l hl
          have := pyNames_mem hl x hxv
          rw [hx] at this; cases this
      · exact pyRun_undefined (by rw [pyStep_other h1 hn1]; exact hx) hn2 ⟨vs, hv, hxv⟩ s'

theorem pyVersion_lhs {n : GNode} {e : Text × Text} {ops : List PyOp} (h : pyVersion n e = some ops) : ∀ x ∈ pyLhs ops, x = e.1 := by
  simp only [pyVersion, Option.map_eq_some_iff] at h
  obtain ⟨a, ha1, rfl⟩ := h
  intro x hx
  simp only [pyLhs, List.filterMap_append, List.mem_append] at hx
  rcases hx with (hx | hx) | hx
  · split at ha1
    · simp only [Option.map_eq_some_iff] at ha1
      obtain ⟨g, _, rfl⟩ := ha1
      simpa [PyOp.lhs?] using hx
    · cases ha1; cases hx
  · split at hx <;> simp [PyOp.lhs?] at hx; exact hx
  · split at hx <;> simp [PyOp.lhs?] at hx; exact hx

theorem pyLhs_flatten (ls : List (List PyOp)) : ∀ x ∈ pyLhs ls.flatten, ∃ l ∈ ls, x ∈ pyLhs l := by
  intro x hx
  simp only [pyLhs, List.mem_filterMap, List.mem_flatten] at hx
  obtain ⟨o, ⟨l, hl, ho⟩, h⟩ := hx
  exact ⟨l, hl, List.mem_filterMap.2 ⟨o, ho, h⟩⟩

/-- the variables that the program assigns are left sides of the matrix -/
theorem pyCode_lhs {nodes : List GNode} {mat : FMat} {groups : List (List Text)} {ops : List PyOp}
    (h : pyCode nodes mat groups = some ops) : ∀ x ∈ pyLhs ops, ∃ row ∈ mat, ∃ e ∈ row, x = e.1 := by
  simp only [pyCode, Option.map_eq_some_iff] at h
  obtain ⟨body, ⟨bs, hbs, rfl⟩, rfl⟩ := h
  intro x hx
  simp only [pyLhs, List.filterMap_append, List.mem_append] at hx
  rcases hx with hx | hx
  · obtain ⟨l, hl1, hl2⟩ := pyLhs_flatten bs x hx
    obtain ⟨n, _, hn⟩ := mapM_mem hbs l hl1
    simp only [pyNode, Option.map_eq_some_iff] at hn
    obtain ⟨rs, hrs, rfl⟩ := hn
    obtain ⟨l', hl3, hl4⟩ := pyLhs_flatten rs x hl2
    obtain ⟨row, hrow, hr⟩ := mapM_mem hrs l' hl3
    simp only [Option.bind_eq_some_iff] at hr
    obtain ⟨e, he, hv⟩ := hr
    exact ⟨row, hrow, e, pyGet_mem he, pyVersion_lhs hv x hl4⟩
  · simp only [List.mem_filterMap, List.mem_map] at hx
    obtain ⟨o, ⟨g, _, rfl⟩, h⟩ := hx
    cases h

/-- the groups that the generators get (ikSolver.py: `R.solutionSet`), as texts, in the order in which the set is iterated -/
def IsGroups (us : List SolUnk) (groups : List (List Text)) : Prop :=
  ∀ g, g ∈ groups ↔ ∃ r ∈ createSolutionSet us, g = r.map fun v => v.render.toList

/-- **C52 violated, for every robot.** Whatever the solution, the pose and the meaning of the texts are: the generated Python function
raises an exception. It packs the name of the first solved unknown's solution, which it never assigns. -/
theorem C52_always_raises_violation (ev : PyEval V) (inputs : Text → Option V) (str : Sym.Expr → Text) (u : SolUnk) (us : List SolUnk)
    (hin : TableInput u us) (hinp : ∀ k, inputs (VName.s u.name k).render.toList = none)
    (t : List (List FEqn)) (ht : makeLHSVersions (u :: us) (createSolutionSet (u :: us)) = .ok t)
    (nodes : List GNode) (groups : List (List Text)) (hg : IsGroups (u :: us) groups)
    (ops : List PyOp) (h : pyCode nodes (textMat str t) groups = some ops) :
    ∀ r, pyCall ev inputs ops ≠ .ok r := by
  have hne : createSolutionSet (u :: us) ≠ [] := by
    intro h0; rw [h0] at ht; cases ht
  obtain ⟨row, hrow⟩ := List.exists_mem_of_ne_nil _ hne
  obtain ⟨k, hk⟩ := C47_first_unknown_used u us hin row hrow
  obtain ⟨rest, rfl⟩ : ∃ rest, row = VName.s u.name k :: rest := by
    cases row with
    | nil => cases hk
    | cons a l => cases hk; exact ⟨l, rfl⟩
  have hgm := (hg _).2 ⟨_, hrow, rfl⟩
  let x := (VName.s u.name k).render.toList
  have hxn : x ∉ pyLhs ops := by
    intro hx
    obtain ⟨mrow, hm, e, he, hxe⟩ := pyCode_lhs h x hx
    simp only [textMat, List.mem_map] at hm
    obtain ⟨es, hes, rfl⟩ := hm
    obtain ⟨fe, hfe, rfl⟩ := List.mem_map.1 he
    obtain ⟨w, i, hw⟩ := make_lhs ht es hes fe hfe
    have hs := lastStem_s u.name k
    rw [show (VName.s u.name k).render.toList = _ from hxe] at hs
    simp only at hs
    rw [hw, lastStem_v] at hs
    cases hs
  have hpack : ∃ vs, PyOp.pack vs ∈ ops ∧ x ∈ vs := by
    simp only [pyCode, Option.map_eq_some_iff] at h
    obtain ⟨body, _, rfl⟩ := h
    refine ⟨_, List.mem_append_right _ (List.mem_map.2 ⟨_, hgm, rfl⟩), ?_⟩
    exact (tsort_perm _).mem_iff.2 (by simp [x])
  intro r hr
  unfold pyCall at hr
  split at hr
  · cases hr
  · rename_i s hs
    exact pyRun_undefined (hinp k) hxn hpack s hs

/-- **C52 violated.** Even apart from the first unknown: no program of these statements, in which every variable is assigned at one place
and every guarded one is packed, returns `False`; when a domain test fails, the function raises instead. -/
theorem C52_never_false_violation (ev : PyEval V) (inputs : Text → Option V) (ops : List PyOp) (hnd : (pyLhs ops).Nodup)
    (hin : ∀ x ∈ pyLhs ops, inputs x = none)
    (hp : ∀ g x r pre post, ops = pre ++ .guarded g x r :: post → ∃ vs, .pack vs ∈ post ∧ x ∈ vs) :
    pyCall ev inputs ops ≠ .ok none := by
  intro h
  unfold pyCall at h
  split at h
  · cases h
  · rename_i s hs
    have hsol : s.solvable = false := by
      cases hb : s.solvable
      · rfl
      · rw [hb] at h; cases h
    clear h
    -- generalise over the statements already executed
    suffices H : ∀ (post pre : List PyOp) (s0 : PySt V), ops = pre ++ post → s0.solvable = true →
        (∀ x ∈ pyLhs post, s0.vars x = none) → ∀ s1, pyRun ev s0 post = .ok s1 → s1.solvable = true by
      have := H ops [] ⟨true, inputs, []⟩ rfl rfl hin s hs
      rw [hsol] at this; cases this
    intro post
    induction post with
    | nil => intro pre s0 _ h0 _ s1 h1; cases h1; exact h0
    | cons o os ih =>
      intro pre s0 hops h0 hv s1 h1
      rw [pyRun] at h1
      split at h1
      · cases h1
      · rename_i s2 h2
        have hnd' : (pyLhs (o :: os)).Nodup := by
          rw [hops] at hnd
          simp only [pyLhs, List.filterMap_append] at hnd
          exact (List.nodup_append.1 hnd).2.1
        have hdisj : ∀ x ∈ pyLhs os, o.lhs? ≠ some x := by
          intro x hx ho
          simp only [pyLhs, List.filterMap_cons, ho, List.nodup_cons] at hnd'
          exact hnd'.1 hx
        have hv2 : ∀ x ∈ pyLhs os, s2.vars x = none := by
          intro x hx
          rw [pyStep_other h2 (hdisj x hx)]
          refine hv x ?_
          simp only [pyLhs, List.filterMap_cons] at hx ⊢
          split
          · exact hx
          · exact List.mem_cons_of_mem _ hx
        by_cases hs2 : s2.solvable = true
        · exact ih (pre ++ [o]) s2 (by simp [hops]) hs2 hv2 s1 h1
        · -- the test failed: its variable stays undefined and is packed
          exfalso
          cases o with
          | guarded g x r =>
            have hx2 : s2.vars x = none := by
              have hx0 := hv x (by simp [pyLhs, PyOp.lhs?])
              simp only [pyStep, h0, if_true] at h2
              split at h2
              · cases h2
              · cases h2; exact hx0
              · exact absurd ((pyAssign_other h2).1.trans h0) hs2
            have hxo : x ∉ pyLhs os := fun hx => hdisj x hx rfl
            exact pyRun_undefined hx2 hxo (hp g x r pre os hops) s1 h1
          | asgn x r => exact hs2 ((pyAssign_other h2).1.trans h0)
          | pack vs =>
            simp only [pyStep] at h2
            split at h2
            · cases h2
            · cases h2; exact hs2 h0

/-- a program that meets the hypotheses, and raises when the test fails; when it does not fail it returns the list -/
def demoPy : List PyOp := [.asgn "a".toList "1".toList, .guarded "(t)".toList "b".toList "asin(t)".toList, .pack ["a".toList, "b".toList]]
def demoEv (big : Bool) : PyEval Nat := ⟨fun _ _ => .ok big, fun _ _ => .ok 7⟩

example : (pyLhs demoPy).Nodup ∧ (∀ x ∈ pyLhs demoPy, (fun _ => none : Text → Option Nat) x = none) ∧
    (pyCall (demoEv true) (fun _ => none) demoPy matches .error .nameError) ∧
    (pyCall (demoEv false) (fun _ => none) demoPy).toOption = some (some [[7, 7]]) := by
  refine ⟨by decide, by simp, by decide +kernel, by decide +kernel⟩

example : ∀ g x r pre post, demoPy = pre ++ PyOp.guarded g x r :: post → ∃ vs, PyOp.pack vs ∈ post ∧ x ∈ vs := by
  intro g x r pre post h
  match pre with
  | [] => cases h
  | [_] => cases h; exact ⟨["a".toList, "b".toList], by simp, by simp⟩
  | [_, _] => cases h
  | _ :: _ :: _ :: l => simp [demoPy] at h

/-- **C52, what holds.** A call that returns, returns one vector of values per group, in the order of the groups, each with one value per
name; the values are those the variables have at the end. -/
theorem C52_packing_partial (ev : PyEval V) (inputs : Text → Option V) (body : List PyOp) (groups : List (List Text))
    (hb : ∀ o ∈ body, ∀ vs, o ≠ .pack vs) (L : List (List V))
    (h : pyCall ev inputs (body ++ groups.map fun g => .pack (tsort g)) = .ok (some L)) :
    ∃ s, pyRun ev ⟨true, inputs, []⟩ body = .ok s ∧ s.solvable = true ∧
      L.map (·.map some) = groups.map fun g => (tsort g).map s.vars := by
  have happ : ∀ (a b : List PyOp) (s s' : PySt V), pyRun ev s (a ++ b) = .ok s' →
      ∃ s1, pyRun ev s a = .ok s1 ∧ pyRun ev s1 b = .ok s' := by
    intro a
    induction a with
    | nil => intro b s s' h; exact ⟨s, rfl, h⟩
    | cons o os ih =>
      intro b s s' h
      rw [List.cons_append, pyRun] at h
      split at h
      · cases h
      · rename_i s1 h1
        obtain ⟨s2, h2, h3⟩ := ih b s1 s' h
        exact ⟨s2, by rw [pyRun, h1]; exact h2, h3⟩
  have hout : ∀ (os : List PyOp) (s s' : PySt V), (∀ o ∈ os, ∀ vs, o ≠ .pack vs) → pyRun ev s os = .ok s' → s'.out = s.out := by
    intro os
    induction os with
    | nil => intro s s' _ h; cases h; rfl
    | cons o os ih =>
      intro s s' hn h
      rw [pyRun] at h
      split at h
      · cases h
      · rename_i s1 h1
        rw [ih s1 s' (fun o ho => hn o (by simp [ho])) h]
        have hA : ∀ x r, pyAssign ev s x r = .ok s1 → s1.out = s.out := by
          intro x r h; unfold pyAssign at h; split at h
          · cases h
          · cases h; rfl
        cases o with
        | guarded g x r =>
          simp only [pyStep] at h1
          split at h1
          · split at h1
            · cases h1
            · cases h1; rfl
            · exact hA _ _ h1
          · exact hA _ _ h1
        | asgn x r => exact hA _ _ h1
        | pack vs => exact absurd rfl (hn (.pack vs) (by simp) vs)
  have hnames : ∀ (vars : Text → Option V) (vs : List Text) (l : List V), pyNames vars vs = .ok l → l.map some = vs.map vars := by
    intro vars vs
    induction vs with
    | nil => intro l h; cases h; rfl
    | cons y ys ih =>
      intro l h
      rw [pyNames] at h
      split at h
      · cases h
      · rename_i v hv
        split at h
        · cases h
        · rename_i vs' hvs; cases h
          simp [hv, ih _ hvs]
  have hpack : ∀ (gs : List (List Text)) (s s' : PySt V), pyRun ev s (gs.map fun g => .pack (tsort g)) = .ok s' →
      s'.solvable = s.solvable ∧ s'.out.map (·.map some) = s.out.map (·.map some) ++ gs.map fun g => (tsort g).map s.vars := by
    intro gs
    induction gs with
    | nil => intro s s' h; cases h; simp
    | cons g gs ih =>
      intro s s' h
      rw [List.map_cons, pyRun] at h
      split at h
      · cases h
      · rename_i s1 h1
        simp only [pyStep] at h1
        split at h1
        · cases h1
        · rename_i l hl; cases h1
          obtain ⟨h2, h3⟩ := ih _ _ h
          refine ⟨h2, ?_⟩
          rw [h3]
          simp [hnames _ _ _ hl]
  unfold pyCall at h
  split at h
  · cases h
  · rename_i s' hs'
    obtain ⟨s, h1, h2⟩ := happ _ _ _ _ hs'
    obtain ⟨h3, h4⟩ := hpack _ _ _ h2
    cases hb' : s'.solvable
    · rw [hb'] at h; cases h
    · rw [hb'] at h; cases h
      refine ⟨s, h1, by rw [← h3, hb'], ?_⟩
      rw [h4, hout _ _ _ hb h1]; rfl

end Verif.Out
