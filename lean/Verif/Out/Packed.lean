import Verif.Out.PyProps
/-!
# C47, C52: what is packed, and what Python assigns

The order of Python's strings is specified here by Lean's own order of lists of characters.
-/
namespace Verif.Out
open Verif.Leaf Verif.Sol

/-- `vs` is what `g.sort()` makes of `g`: the same names, in ascending order. -/
def Ascending (g vs : List Text) : Prop := vs.Perm g ∧ vs.Pairwise (· ≤ ·)

theorem tle_iff (a b : Text) : tle a b = true ↔ a ≤ b := by
  induction a generalizing b with
  | nil => simp [tle]
  | cons x a ih =>
    cases b with
    | nil => simp [tle]
    | cons y b =>
      rw [List.cons_le_cons_iff]
      simp only [tle]
      by_cases h : x = y
      · subst h
        rw [if_pos rfl, ih]
        constructor
        · exact fun h => .inr ⟨rfl, h⟩
        · rintro (h | h)
          · exact absurd h (Nat.lt_irrefl _)
          · exact h.2
      · rw [if_neg h]
        simp only [decide_eq_true_eq, h, false_and, or_false]
        constructor
        · intro hle
          refine Nat.lt_of_le_of_ne hle fun hv => h ?_
          exact Char.ext (UInt32.toNat_inj.1 hv)
        · exact fun hlt => Nat.le_of_lt hlt

theorem tinsert_sorted (x : Text) {l : List Text} (h : l.Pairwise (· ≤ ·)) : (tinsert x l).Pairwise (· ≤ ·) := by
  induction l with
  | nil => simp [tinsert]
  | cons y l ih =>
    rw [List.pairwise_cons] at h
    rw [tinsert]; split
    · rename_i hxy
      have hxy := (tle_iff _ _).1 hxy
      refine List.pairwise_cons.2 ⟨fun z hz => ?_, List.pairwise_cons.2 h⟩
      rcases List.mem_cons.1 hz with rfl | hz
      · exact hxy
      · exact List.le_trans hxy (h.1 z hz)
    · rename_i hxy
      rw [tle_iff] at hxy
      refine List.pairwise_cons.2 ⟨fun z hz => ?_, ih h.2⟩
      rcases List.mem_cons.1 ((tinsert_perm x l).mem_iff.1 hz) with rfl | hz
      · exact (List.le_total y z).resolve_right hxy
      · exact h.1 z hz

theorem tsort_ascending (g : List Text) : Ascending g (tsort g) := by
  refine ⟨tsort_perm g, ?_⟩
  induction g with
  | nil => exact .nil
  | cons x l ih => exact tinsert_sorted x ih

/-- the ascending order of a group is unique -/
theorem Ascending.unique {g a b : List Text} (ha : Ascending g a) (hb : Ascending g b) : a = b :=
  (ha.1.trans hb.1.symm).eq_of_pairwise (fun _ _ _ _ h1 h2 => List.le_antisymm h1 h2) ha.2 hb.2

/-- a table of two unknowns with two solutions -/
def demoPyMat : FMat :=
  [[("xv1".toList, "atan2(Px, Py)".toList), ("yv1".toList, "acos(Pz)".toList)],
   [("xv2".toList, "atan2(-Px, -Py)".toList), ("yv2".toList, "-acos(Pz)".toList)]]

/-- **C47, packing in C++.** The assignments after the solutions write the names of the group number `i`, in ascending order, to
`solution_list[i][0]`, `solution_list[i][1]`, …, one group after the other. -/
theorem C47_cpp_packed (nodes : List GNode) (mat : FMat) (groups : List (List Text)) (ops : List Op)
    (h : cppCode nodes mat groups = some ops) :
    ∃ (front : List (Text × Text)) (sorted : List (List Text)), List.Forall₂ Ascending groups sorted ∧
      asgns ops = front ++ (sorted.zipIdx.flatMap fun gi => gi.1.zipIdx.map fun vj =>
        ("solution_list[".toList ++ natText gi.2 ++ "][".toList ++ natText vj.2 ++ "]".toList, vj.1)) := by
  simp only [cppCode, Option.map_eq_some_iff] at h
  obtain ⟨body, hb, rfl⟩ := h
  refine ⟨asgns body, groups.map tsort, ?_, ?_⟩
  · clear hb
    induction groups with
    | nil => exact .nil
    | cons g gs ih => exact .cons (tsort_ascending g) ih
  have h1 : asgns cppMain = [] := rfl
  have hrow : ∀ (i j : Nat) (vs : List Text), asgns (packRow i j vs) = (vs.zipIdx j).map fun vj =>
      ("solution_list[".toList ++ natText i ++ "][".toList ++ natText vj.2 ++ "]".toList, vj.1) := by
    intro i j vs
    induction vs generalizing j with
    | nil => rfl
    | cons v vs ih => simp only [packRow, asgns, List.zipIdx_cons, List.map_cons, ih]
  have hrows : ∀ (i : Nat) (gs : List (List Text)), asgns (packRows i gs) = (((gs.map tsort).zipIdx i).flatMap fun gi => gi.1.zipIdx.map fun vj =>
        ("solution_list[".toList ++ natText gi.2 ++ "][".toList ++ natText vj.2 ++ "]".toList, vj.1)) := by
    intro i gs
    induction gs generalizing i with
    | nil => rfl
    | cons g gs ih => simp only [packRows, asgns_append, hrow, ih, List.map_cons, List.zipIdx_cons, List.flatMap_cons]
  simp only [asgns_append, h1, hrows, List.nil_append]
  simp [asgns]

theorem body_noPack {mat : FMat} {nodes : List GNode} {bs : List (List PyOp)} (hbs : nodes.mapM (pyNode mat) = some bs) :
    ∀ o ∈ bs.flatten, ∀ vs, o ≠ PyOp.pack vs := by
  intro o ho vs he
  obtain ⟨l, hl, hol⟩ := List.mem_flatten.1 ho
  obtain ⟨n, _, hnn⟩ := mapM_mem hbs l hl
  simp only [pyNode, Option.map_eq_some_iff] at hnn
  obtain ⟨rs, hrs, rfl⟩ := hnn
  obtain ⟨l', hl', hol'⟩ := List.mem_flatten.1 hol
  obtain ⟨row, _, hr⟩ := mapM_mem hrs l' hl'
  simp only [Option.bind_eq_some_iff] at hr
  obtain ⟨e, _, hv⟩ := hr
  simp only [pyVersion, Option.map_eq_some_iff] at hv
  obtain ⟨a, ha, rfl⟩ := hv
  subst he
  simp only [List.mem_append] at hol'
  rcases hol' with (h1 | h1) | h1
  · split at ha
    · simp only [Option.map_eq_some_iff] at ha
      obtain ⟨g, _, rfl⟩ := ha
      simp at h1
    · cases ha; cases h1
  · split at h1 <;> simp at h1
  · split at h1 <;> simp at h1

/-- two groups, the first with names in descending order -/
example : ((cppCode demoNodes demoPyMat [["yv1".toList, "xv1".toList], ["xv2".toList, "yv2".toList]]).map fun ops =>
      (asgns ops).drop 4) =
    some [("solution_list[0][0]".toList, "xv1".toList), ("solution_list[0][1]".toList, "yv1".toList),
      ("solution_list[1][0]".toList, "xv2".toList), ("solution_list[1][1]".toList, "yv2".toList)] := by
  decide +kernel

/-- **C47, assignments in Python (partial).** The program is: for every node in solving order and every row of the table, the version of
the unknown (the entry in column solve order − 1), assigned as often as `C47_python_count` says; then one `append` per group, of the names in
ascending order. Missing: the version is assigned exactly once (only for the texts and methods where the three conditions add up to 1). -/
theorem C47_python_once_partial (nodes : List GNode) (mat : FMat) (groups : List (List Text)) (ops : List PyOp)
    (h : pyCode nodes mat groups = some ops) (hn : ∀ n ∈ nodes, 1 ≤ n.order ∧ ∃ ts, n.method = methodText ts ∧
      ∀ row ∈ mat, ∀ e, row[n.order - 1]? = some e →
        b2n (within "asin".toList e.2 || within "acos".toList e.2) + b2n (within "atan".toList e.2) + b2n (ts = [.algebra]) = 1) :
    ∃ (body : List PyOp) (packs : List (List Text)), ops = body ++ packs.map .pack ∧ (∀ o ∈ body, ∀ vs, o ≠ .pack vs) ∧
      pyLhs body = (nodes.flatMap fun n => mat.map (lhsAt n.order)) ∧
      packs.length = groups.length ∧ ∀ (i : Nat) (g vs : List Text), groups[i]? = some g → packs[i]? = some vs → Ascending g vs := by
  simp only [pyCode, Option.map_eq_some_iff] at h
  obtain ⟨body, ⟨bs, hbs, rfl⟩, rfl⟩ := h
  refine ⟨bs.flatten, groups.map tsort, by simp [List.map_map, Function.comp_def], ?_, ?_, by simp, ?_⟩
  · exact body_noPack hbs
  · refine mapM_flat (g := pyLhs) (h := fun n => mat.map (lhsAt n.order))
      (fun a b => by simp [pyLhs, List.filterMap_append]) rfl hbs ?_
    intro n hnm b hbn
    obtain ⟨h1, ts, hm, ho⟩ := hn n hnm
    simp only [pyNode, Option.map_eq_some_iff] at hbn
    obtain ⟨rs, hrs, rfl⟩ := hbn
    rw [show mat.map (lhsAt n.order) = mat.flatMap fun row => [lhsAt n.order row] from List.map_eq_flatMap ..]
    refine mapM_flat (g := pyLhs) (h := fun row => [lhsAt n.order row])
      (fun a b => by simp [pyLhs, List.filterMap_append]) rfl hrs ?_
    intro row hrow b hb
    simp only [pyGet_order row h1, Option.bind_eq_some_iff] at hb
    obtain ⟨e, he, hv⟩ := hb
    rw [C47_python_count n ts hm e b hv, ho row hrow e he]
    simp [lhsAt, he]
  · intro i g vs hg hv
    simp only [List.getElem?_map, hg, Option.map_some, Option.some.injEq] at hv
    subst hv
    exact tsort_ascending g

example : (∀ n ∈ demoNodes, 1 ≤ n.order ∧ ∃ ts, n.method = methodText ts ∧
      ∀ row ∈ demoPyMat, ∀ e, row[n.order - 1]? = some e →
        b2n (within "asin".toList e.2 || within "acos".toList e.2) + b2n (within "atan".toList e.2) + b2n (ts = [.algebra]) = 1) ∧
    (pyCode demoNodes demoPyMat [["yv1".toList, "xv1".toList]]).map pyLhs =
      some ["xv1".toList, "xv2".toList, "yv1".toList, "yv2".toList] := by
  refine ⟨?_, by decide +kernel⟩
  have key : ∀ (k : Nat) (ts : List Tag), (∀ row ∈ demoPyMat, ((row[k - 1]?).all fun e =>
        b2n (within "asin".toList e.2 || within "acos".toList e.2) + b2n (within "atan".toList e.2) + b2n (ts = [.algebra]) = 1) = true) →
      ∀ row ∈ demoPyMat, ∀ e, row[k - 1]? = some e →
        b2n (within "asin".toList e.2 || within "acos".toList e.2) + b2n (within "atan".toList e.2) + b2n (ts = [.algebra]) = 1 := by
    intro k ts h row hr e he
    have := h row hr
    rw [he] at this
    simpa using this
  intro n hn
  simp only [demoNodes, List.mem_cons, List.not_mem_nil, or_false] at hn
  rcases hn with rfl | rfl
  · exact ⟨by decide, [.atan2], by decide +kernel, key 1 [.atan2] (by decide +kernel)⟩
  · exact ⟨by decide, [.arccos], by decide +kernel, key 2 [.arccos] (by decide +kernel)⟩

/-- **C52, vectors in ascending order of names.** What a returning call gives for group `i` are the values of its variables in ascending order
of the names. -/
theorem C52_vectors_partial {V : Type} (ev : PyEval V) (inputs : Text → Option V) (nodes : List GNode) (mat : FMat) (groups : List (List Text))
    (ops : List PyOp) (L : List (List V)) (hops : pyCode nodes mat groups = some ops) (h : pyCall ev inputs ops = .ok (some L)) :
    ∃ vars : Text → Option V, L.length = groups.length ∧
      ∀ (i : Nat) (g vs : List Text) (l : List V), groups[i]? = some g → Ascending g vs → L[i]? = some l → l.map some = vs.map vars := by
  simp only [pyCode, Option.map_eq_some_iff] at hops
  obtain ⟨body, ⟨bs, hbs, rfl⟩, rfl⟩ := hops
  have hb := body_noPack hbs
  obtain ⟨s, _, _, h3⟩ := C52_packing_partial ev inputs bs.flatten groups hb L h
  refine ⟨s.vars, by simpa using congrArg List.length h3, ?_⟩
  intro i g vs l hg hvs hl
  have := congrArg (·[i]?) h3
  simp only [List.getElem?_map, hl, hg, Option.map_some, Option.some.injEq] at this
  rw [this, (tsort_ascending g).unique hvs]

/-- a call that returns (two vectors) -/
example : (pyCode demoNodes demoPyMat [["yv1".toList, "xv1".toList], ["xv2".toList, "yv2".toList]]).map
      (fun ops => (pyCall (demoEv false) (fun _ => none) ops).toOption) = some (some (some [[7, 7], [7, 7]])) := by
  decide +kernel

/-! ## `False` and the domain tests -/

theorem pyRun_append {V : Type} (ev : PyEval V) (a b : List PyOp) (s : PySt V) :
    pyRun ev s (a ++ b) = match pyRun ev s a with
      | .error e => .error e
      | .ok s1 => pyRun ev s1 b := by
  induction a generalizing s with
  | nil => rfl
  | cons o os ih =>
    rw [List.cons_append, pyRun, pyRun]
    cases pyStep ev s o with
    | error e => rfl
    | ok s' => exact ih s'

/-- a statement clears `solvable_pose` only if it is a domain test that fails -/
theorem pyStep_solvable {V : Type} {ev : PyEval V} {s s' : PySt V} {o : PyOp} (h : pyStep ev s o = .ok s') :
    (s'.solvable = s.solvable ∧ ∀ g x r, o = .guarded g x r → s.solvable = true → ev.tooBig s.vars g = .ok false) ∨
    (s.solvable = true ∧ s'.solvable = false ∧ ∃ g x r, o = .guarded g x r ∧ ev.tooBig s.vars g = .ok true) := by
  have hA : ∀ x r, pyAssign ev s x r = .ok s' → s'.solvable = s.solvable := by
    intro x r h; unfold pyAssign at h; split at h
    · cases h
    · cases h; rfl
  cases o with
  | guarded g x r =>
    simp only [pyStep] at h
    split at h
    · rename_i hs
      split at h
      · cases h
      · rename_i ht; cases h; exact .inr ⟨hs, rfl, g, x, r, rfl, ht⟩
      · rename_i ht; refine .inl ⟨hA _ _ h, ?_⟩
        intro g' x' r' e _; cases e; exact ht
    · rename_i hs; exact .inl ⟨hA _ _ h, fun _ _ _ _ h' => absurd h' hs⟩
  | asgn x r => exact .inl ⟨hA _ _ h, fun _ _ _ e => (by cases e)⟩
  | pack vs =>
    simp only [pyStep] at h
    split at h
    · cases h
    · cases h; exact .inl ⟨rfl, fun _ _ _ e => (by cases e)⟩

theorem pyRun_solvable {V : Type} {ev : PyEval V} : ∀ {ops : List PyOp} {s s' : PySt V}, pyRun ev s ops = .ok s' → s.solvable = true →
    (s'.solvable = true ∧ ∀ pre g x r post s1, ops = pre ++ .guarded g x r :: post → pyRun ev s pre = .ok s1 →
        ev.tooBig s1.vars g = .ok false) ∨
    (s'.solvable = false ∧ ∃ pre g x r post s1, ops = pre ++ .guarded g x r :: post ∧ pyRun ev s pre = .ok s1 ∧ s1.solvable = true ∧
        ev.tooBig s1.vars g = .ok true) := by
  intro ops
  induction ops with
  | nil =>
    intro s s' h hs; cases h
    refine .inl ⟨hs, ?_⟩
    intro pre g x r post s1 e
    simp at e
  | cons o os ih =>
    intro s s' h hs
    rw [pyRun] at h
    split at h
    · cases h
    · rename_i s2 h2
      rcases pyStep_solvable h2 with ⟨e1, e2⟩ | ⟨-, e2, g, x, r, rfl, e3⟩
      · rcases ih h (e1.trans hs) with ⟨a, b⟩ | ⟨a, pre, g, x, r, post, s1, rfl, b, c, d⟩
        · refine .inl ⟨a, ?_⟩
          intro pre g x r post s1 e hp
          cases pre with
          | nil =>
            cases e; cases hp
            exact e2 g x r rfl hs
          | cons p pre =>
            cases e
            rw [pyRun, h2] at hp
            exact b pre g x r post s1 rfl hp
        · exact .inr ⟨a, o :: pre, g, x, r, post, s1, rfl, by rw [pyRun, h2]; exact b, c, d⟩
      · refine .inr ⟨?_, [], g, x, r, os, s, rfl, rfl, hs, e3⟩
        -- once cleared it stays cleared
        have key : ∀ (l : List PyOp) (a b : PySt V), pyRun ev a l = .ok b → a.solvable = false → b.solvable = false := by
          intro l
          induction l with
          | nil => intro a b h ha; cases h; exact ha
          | cons o l ihl =>
            intro a b h ha
            rw [pyRun] at h
            split at h
            · cases h
            · rename_i a' h'
              refine ihl _ _ h ?_
              rcases pyStep_solvable h' with ⟨f1, -⟩ | ⟨f1, -⟩
              · rw [f1, ha]
              · rw [ha] at f1; cases f1
        exact key os s2 s' h e2

/-- **C52, `False` (partial).** A call that returns (does not raise), returns a list exactly when every domain test, at its place in the
program, is passed, and `False` exactly when one is failed. Missing: that the call returns (see the violations), and that the test is about the argument of the
inverse function. -/
theorem C52_domain_partial {V : Type} (ev : PyEval V) (inputs : Text → Option V) (ops : List PyOp) (res : Option (List (List V)))
    (h : pyCall ev inputs ops = .ok res) :
    ((∃ L, res = some L) ↔ ∀ pre g x r post s, ops = pre ++ .guarded g x r :: post → pyRun ev ⟨true, inputs, []⟩ pre = .ok s →
        ev.tooBig s.vars g = .ok false) ∧
    (res = none ↔ ∃ pre g x r post s, ops = pre ++ .guarded g x r :: post ∧ pyRun ev ⟨true, inputs, []⟩ pre = .ok s ∧
        s.solvable = true ∧ ev.tooBig s.vars g = .ok true) := by
  unfold pyCall at h
  split at h
  · cases h
  · rename_i s' hs'
    rcases pyRun_solvable hs' rfl with ⟨a, b⟩ | ⟨a, pre, g, x, r, post, s1, b⟩
    · rw [a] at h; cases h
      refine ⟨⟨fun _ => b, fun _ => ⟨_, rfl⟩⟩, ⟨fun h => (by cases h), ?_⟩⟩
      rintro ⟨pre, g, x, r, post, s, h1, h2, -, h3⟩
      rw [b pre g x r post s h1 h2] at h3; cases h3
    · rw [a] at h; cases h
      refine ⟨⟨fun ⟨_, h⟩ => (by cases h), fun hb => ?_⟩, ⟨fun _ => ⟨pre, g, x, r, post, s1, b⟩, fun _ => rfl⟩⟩
      have := hb pre g x r post s1 b.1 b.2.1
      rw [b.2.2.2] at this; cases this

/-- both results occur: a program whose guarded variable is not packed -/
example : (pyCall (demoEv true) (fun _ => none) (demoPy.take 2)).toOption = some none ∧
    (pyCall (demoEv false) (fun _ => none) (demoPy.take 2)).toOption = some (some []) := by
  decide +kernel

end Verif.Out
