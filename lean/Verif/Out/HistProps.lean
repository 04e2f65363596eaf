import Verif.Out.HistModel
import Verif.Out.PyProps
/-!
# C60: what the output calls write does not depend on the calls made before — where it is true and where not
-/
namespace Verif.Out
open Verif.Sol

/-! ## The table -/

def vnames (u : String) (m : Nat) : List VName := (List.range m).map fun j => .v u (j + 1)

theorem vnames_succ (u : String) (m : Nat) : vnames u (m + 1) = vnames u m ++ [.v u (m + 1)] := by simp [vnames, List.range_succ]

theorem vnames_length (u : String) (m : Nat) : (vnames u m).length = m := by simp [vnames]

theorem addCol_dirty (u : String) : ∀ (rs : List Row) (i : Nat) (lhs : List VName), vnames u i <+: lhs →
    (lhs.length = i ∨ vnames u (i + rs.length) <+: lhs) →
    (addCol u i lhs rs).1 = (rs.mapIdx fun j r => r ++ [.v u (i + j + 1)]) ∧ vnames u (i + rs.length) <+: (addCol u i lhs rs).2
  | [], i, lhs, h, _ => by simpa [addCol] using h
  | r :: rs, i, lhs, h, hc => by
    have hget : (lhs ++ [VName.v u (i + 1)])[i]? = some (.v u (i + 1)) ∧ vnames u (i + 1) <+: lhs ++ [VName.v u (i + 1)] := by
      rcases hc with hc | hc
      · have : vnames u i = lhs := h.eq_of_length (by rw [vnames_length, hc])
        subst this
        rw [← vnames_succ]
        refine ⟨?_, List.prefix_rfl⟩
        rw [vnames_succ, List.getElem?_append_right (by simp [vnames_length])]
        simp [vnames_length]
      · have h1 : vnames u (i + 1) <+: lhs := by
          refine List.IsPrefix.trans ?_ hc
          obtain ⟨m, hm⟩ : ∃ m, i + (r :: rs).length = i + 1 + m := ⟨rs.length, by simp; omega⟩
          rw [hm]
          clear hm
          induction m with
          | zero => exact List.prefix_rfl
          | succ m ih => rw [← Nat.add_assoc, vnames_succ u (i + 1 + m)]; exact ih.trans (List.prefix_append _ _)
        obtain ⟨t, rfl⟩ := h1
        refine ⟨?_, by rw [List.append_assoc]; exact List.prefix_append _ _⟩
        rw [List.append_assoc, List.getElem?_append_left (by simp [vnames_length]), vnames_succ,
          List.getElem?_append_right (by simp [vnames_length])]
        simp [vnames_length]
    have hc' : (lhs ++ [VName.v u (i + 1)]).length = i + 1 ∨ vnames u (i + 1 + rs.length) <+: lhs ++ [VName.v u (i + 1)] := by
      rcases hc with hc | hc
      · exact .inl (by simp [hc])
      · refine .inr ?_
        rw [List.length_cons] at hc
        rw [show i + 1 + rs.length = i + (rs.length + 1) by omega]
        exact hc.trans (List.prefix_append _ _)
    obtain ⟨ih1, ih2⟩ := addCol_dirty u rs (i + 1) _ hget.2 hc'
    simp only [addCol]
    rw [hget.1, ih1]
    constructor
    · simp only [Option.getD_some, List.mapIdx_cons, Nat.add_zero, List.cons.injEq, true_and]
      congr 1
      funext j r
      rw [show i + (j + 1) + 1 = i + 1 + j + 1 by omega]
    · rw [List.length_cons, show i + (rs.length + 1) = i + 1 + rs.length by omega]
      exact ih2

/-- one column, without the lists of names -/
def pureStep (M : List Row) (u : SolUnk) : List Row :=
  if M.length > 0 then colStep M u else dup M (u.nsols - 1) ++ u.versionNames.map (fun vn => [vn])

/-- the lists of names are fresh, or left by an earlier call -/
def Left : List SolUnk → List Row → LhsMap → Prop
  | [], _, _ => True
  | u :: us, M, lhs => (lhs u.name = [] ∨ vnames u.name (dup M (u.nsols - 1)).length <+: lhs u.name) ∧ Left us (pureStep M u) lhs

theorem Left.congr : ∀ {us : List SolUnk} {M : List Row} {l l' : LhsMap}, (∀ u ∈ us, l' u.name = l u.name) → Left us M l → Left us M l'
  | [], _, _, _, _, _ => trivial
  | u :: us, M, l, l', h, hl => by
    refine ⟨?_, Left.congr (fun v hv => h v (by simp [hv])) hl.2⟩
    rw [h u (by simp)]; exact hl.1

theorem step_left {u : SolUnk} {M : List Row} {lhs : LhsMap}
    (h : lhs u.name = [] ∨ vnames u.name (dup M (u.nsols - 1)).length <+: lhs u.name) :
    (createStep (M, lhs) u).1 = pureStep M u ∧ (∀ n, n ≠ u.name → (createStep (M, lhs) u).2 n = lhs n) ∧
      ((createStep (M, lhs) u).2 u.name = [] ∨ vnames u.name (dup M (u.nsols - 1)).length <+: (createStep (M, lhs) u).2 u.name) := by
  unfold createStep pureStep
  simp only [dup_ite]
  by_cases hM : M.length > 0
  · rw [if_pos hM, if_pos hM]
    obtain ⟨h1, h2⟩ := addCol_dirty u.name (dup M (u.nsols - 1)) 0 (lhs u.name) (by simp [vnames])
      (by rw [Nat.zero_add]; rcases h with h | h
          · exact .inl (by rw [h]; rfl)
          · exact .inr h)
    refine ⟨?_, fun n hn => by simp [hn], .inr ?_⟩
    · simpa [colStep] using h1
    · simpa using h2
  · rw [if_neg hM, if_neg hM]
    exact ⟨rfl, fun _ _ => rfl, h⟩

theorem fold_left : ∀ (us : List SolUnk) (M : List Row) (lhs : LhsMap), (us.map (·.name)).Nodup → Left us M lhs →
    (us.foldl createStep (M, lhs)).1 = us.foldl pureStep M ∧ Left us M (us.foldl createStep (M, lhs)).2 ∧
      ∀ n, n ∉ us.map (·.name) → (us.foldl createStep (M, lhs)).2 n = lhs n
  | [], _, _, _, _ => ⟨rfl, trivial, fun _ _ => rfl⟩
  | u :: us, M, lhs, hnd, hl => by
    simp only [List.foldl_cons]
    simp only [List.map_cons, List.nodup_cons] at hnd
    obtain ⟨h1, h2, h3⟩ := step_left hl.1
    have hne : ∀ v ∈ us, v.name ≠ u.name := fun v hv h => hnd.1 (List.mem_map.2 ⟨v, hv, h⟩)
    have hl' : Left us (pureStep M u) (createStep (M, lhs) u).2 := hl.2.congr fun v hv => h2 _ (hne v hv)
    obtain ⟨i1, i2, i3⟩ := fold_left us (pureStep M u) (createStep (M, lhs) u).2 hnd.2 hl'
    rw [show createStep (M, lhs) u = (pureStep M u, (createStep (M, lhs) u).2) from Prod.ext h1 rfl]
    refine ⟨i1, ⟨?_, i2⟩, ?_⟩
    · rw [i3 u.name hnd.1]; exact h3
    · intro n hn
      simp only [List.map_cons, List.mem_cons, not_or] at hn
      rw [i3 n hn.2, h2 n hn.1]

theorem left_fresh : ∀ (us : List SolUnk) (M : List Row), Left us M (fun _ => [])
  | [], _ => trivial
  | _ :: us, _ => ⟨.inl rfl, left_fresh us _⟩

/-! ## Histories -/

def Call.isReport : Call → Bool
  | .latex => true
  | _ => false

def Call.isCreate : Call → Bool
  | .create => true
  | _ => false

/-- how many LaTeX reports a history contains -/
def reports (h : List Call) : Nat := h.countP Call.isReport

/-- `k` copies of a table of equations, one below the other -/
def copies (k : Nat) (t : List (List FEqn)) : List (List FEqn) := (List.replicate k t).flatten

theorem copies_succ (k : Nat) (t : List (List FEqn)) : copies (k + 1) t = copies k t ++ t := by
  simp [copies, List.replicate_succ']

theorem visited_all (s : OutSt) (h : s.nversions = s.final.length) : s.visited = some s.final := by
  unfold OutSt.visited
  rw [h]
  generalize s.final = l
  have : ∀ (l p : List (List FEqn)), (List.range' p.length l.length).mapM (fun i => (p ++ l)[i]?) = some l := by
    intro l
    induction l with
    | nil => intro p; rfl
    | cons a l ih =>
      intro p
      have := ih (p ++ [a])
      simp only [List.length_append, List.length_cons, List.length_nil, List.append_assoc, List.singleton_append] at this
      simp only [List.length_cons, List.range'_succ, List.mapM_cons]
      rw [List.getElem?_append_right (Nat.le_refl _), this]
      simp
  simpa [List.range_eq_range'] using this l []

/-- The invariant: what is left by a history with `k` reports (and `c`: has the table been made). -/
structure After (us : List SolUnk) (t : List (List FEqn)) (k : Nat) (c : Bool) (s : OutSt) : Prop where
  left : Left us [] s.lhs
  table : s.table = if c then some (createSolutionSet us) else none
  final : s.final = copies k t
  nvers : s.nversions = s.final.length

theorem step_after {str : Sym.Expr → Text} {us : List SolUnk} {nodes : List GNode} {t : List (List FEqn)}
    (hnd : (us.map (·.name)).Nodup) (ht : makeLHSVersions us (createSolutionSet us) = .ok t) {k : Nat} {c : Bool} {s s' : OutSt} {a : Call}
    {w : Written} (hs : After us t k c s) (h : outStep str us nodes s a = .ok (s', w)) :
    After us t (k + if a.isReport then 1 else 0) (c || a.isCreate) s' := by
  cases a with
  | create =>
    simp only [outStep, Except.ok.injEq, Prod.mk.injEq] at h
    obtain ⟨rfl, _⟩ := h
    obtain ⟨i1, i2, _⟩ := fold_left us [] s.lhs hnd hs.left
    refine ⟨i2, ?_, by simpa [Call.isReport] using hs.final, hs.nvers⟩
    simp only [Call.isCreate, Bool.or_true, if_true]
    rw [i1, createSolutionSet, (fold_left us [] _ hnd (left_fresh us [])).1]
  | latex =>
    simp only [outStep, reportVersions, hs.table] at h
    cases c with
    | false => cases h
    | true =>
      simp only [if_true, ht] at h
      split at h
      · cases h
      · simp only [Except.ok.injEq, Prod.mk.injEq] at h
        obtain ⟨rfl, _⟩ := h
        refine ⟨hs.left, by simp [hs.table], ?_, ?_⟩
        · simp [Call.isReport, copies_succ, hs.final]
        · simp [hs.nvers]
  | python g =>
    simp only [outStep] at h
    split at h
    · cases h
    · simp only [Except.ok.injEq, Prod.mk.injEq] at h
      obtain ⟨rfl, _⟩ := h
      simpa [Call.isReport, Call.isCreate] using hs
  | cpp g =>
    simp only [outStep] at h
    split at h
    · cases h
    · simp only [Except.ok.injEq, Prod.mk.injEq] at h
      obtain ⟨rfl, _⟩ := h
      simpa [Call.isReport, Call.isCreate] using hs

theorem run_after {str : Sym.Expr → Text} {us : List SolUnk} {nodes : List GNode} {t : List (List FEqn)}
    (hnd : (us.map (·.name)).Nodup) (ht : makeLHSVersions us (createSolutionSet us) = .ok t) : ∀ {h : List Call} {k : Nat} {c : Bool}
    {s s' : OutSt} {ws : List Written}, After us t k c s → outRun str us nodes s h = .ok (s', ws) →
    After us t (k + reports h) (c || h.any Call.isCreate) s'
  | [], k, c, s, s', ws, hs, h => by
    simp only [outRun, Except.ok.injEq, Prod.mk.injEq] at h
    obtain ⟨rfl, _⟩ := h
    simpa [reports] using hs
  | a :: as, k, c, s, s', ws, hs, h => by
    simp only [outRun] at h
    cases h1 : outStep str us nodes s a with
    | error e => rw [h1] at h; cases h
    | ok p =>
      rw [h1] at h
      obtain ⟨s1, w⟩ := p
      simp only at h
      cases h2 : outRun str us nodes s1 as with
      | error e => rw [h2] at h; cases h
      | ok q =>
        rw [h2] at h
        obtain ⟨s2, ws'⟩ := q
        simp only [Except.ok.injEq, Prod.mk.injEq] at h
        obtain ⟨rfl, _⟩ := h
        have := run_after hnd ht (step_after hnd ht hs h1) h2
        simp only [reports, List.countP_cons, List.any_cons] at this ⊢
        rw [Bool.or_assoc] at this
        convert this using 1
        omega

theorem start_after (us : List SolUnk) (t : List (List FEqn)) : After us t 0 false .start :=
  ⟨left_fresh us [], rfl, rfl, rfl⟩

/-- the last thing written -/
theorem run_last {str : Sym.Expr → Text} {us : List SolUnk} {nodes : List GNode} : ∀ {h : List Call} {a : Call} {s s' : OutSt}
    {ws : List Written}, outRun str us nodes s (h ++ [a]) = .ok (s', ws) →
    ∃ (s1 : OutSt) (ws1 : List Written) (w : Written), outRun str us nodes s h = .ok (s1, ws1) ∧ outStep str us nodes s1 a = .ok (s', w) ∧
      ws = ws1 ++ [w]
  | [], a, s, s', ws, h => by
    simp only [List.nil_append, outRun] at h
    cases h1 : outStep str us nodes s a with
    | error e => rw [h1] at h; cases h
    | ok p =>
      rw [h1] at h
      simp only [Except.ok.injEq, Prod.mk.injEq] at h
      obtain ⟨rfl, rfl⟩ := h
      exact ⟨s, [], p.2, rfl, h1, rfl⟩
  | b :: bs, a, s, s', ws, h => by
    simp only [List.cons_append, outRun] at h
    cases h1 : outStep str us nodes s b with
    | error e => rw [h1] at h; cases h
    | ok p =>
      rw [h1] at h
      obtain ⟨s1, w⟩ := p
      simp only at h
      cases h2 : outRun str us nodes s1 (bs ++ [a]) with
      | error e => rw [h2] at h; cases h
      | ok q =>
        rw [h2] at h
        obtain ⟨s2, ws'⟩ := q
        simp only [Except.ok.injEq, Prod.mk.injEq] at h
        obtain ⟨rfl, rfl⟩ := h
        obtain ⟨s3, ws3, w3, e1, e2, e3⟩ := run_last h2
        exact ⟨s3, w :: ws3, w3, by simp [outRun, h1, e1], e2, by simp [e3]⟩

/-! ## Specification -/

/-- What a call writes if `T` is the table of final equations. -/
def writtenFrom (str : Sym.Expr → Text) (nodes : List GNode) (T : List (List FEqn)) (a : Call) (w : Written) : Prop :=
  match a, w with
  | .create, .nothing => True
  | .latex, .report t => t = T
  | .python g, .py ops => pyCode nodes (textMat str T) g = some ops
  | .cpp g, .cpp ops => cppCode nodes (textMat str T) g = some ops
  | _, _ => False

/-- **C60, every history.** What a call writes is determined by the solution and by the number of reports written so far (a report counts
itself), whatever else has been called in whatever order: it is written from as many copies of the table of equations. -/
theorem C60_history (str : Sym.Expr → Text) (us : List SolUnk) (nodes : List GNode) (t : List (List FEqn))
    (hnd : (us.map (·.name)).Nodup) (ht : makeLHSVersions us (createSolutionSet us) = .ok t)
    (h : List Call) (a : Call) (s : OutSt) (ws : List Written) (hr : outRun str us nodes .start (h ++ [a]) = .ok (s, ws)) :
    ∃ w, ws.getLast? = some w ∧ writtenFrom str nodes (copies (reports (h ++ [a])) t) a w := by
  obtain ⟨s1, ws1, w, e1, e2, rfl⟩ := run_last hr
  have h1 := run_after hnd ht (start_after us t) e1
  rw [Nat.zero_add] at h1
  have h2 := step_after hnd ht h1 e2
  have hk : reports (h ++ [a]) = reports h + if a.isReport then 1 else 0 := by
    simp only [reports, List.countP_append, List.countP_cons, List.countP_nil, Nat.zero_add]
  refine ⟨w, by simp, ?_⟩
  rw [hk]
  cases a with
  | create =>
    simp only [outStep, Except.ok.injEq, Prod.mk.injEq] at e2
    obtain ⟨_, rfl⟩ := e2
    trivial
  | latex =>
    simp only [outStep] at e2
    split at e2
    · cases e2
    · rename_i s2 _
      split at e2
      · cases e2
      · rename_i T hT
        simp only [Except.ok.injEq, Prod.mk.injEq] at e2
        obtain ⟨rfl, rfl⟩ := e2
        rw [visited_all _ h2.nvers] at hT
        cases hT
        exact h2.final
  | python g =>
    simp only [outStep, visited_all _ h1.nvers, Option.bind_some, h1.final] at e2
    split at e2
    · cases e2
    · rename_i ops hops
      simp only [Except.ok.injEq, Prod.mk.injEq] at e2
      obtain ⟨_, rfl⟩ := e2
      simpa [writtenFrom, Call.isReport] using hops
  | cpp g =>
    simp only [outStep, visited_all _ h1.nvers, Option.bind_some, h1.final] at e2
    split at e2
    · cases e2
    · rename_i ops hops
      simp only [Except.ok.injEq, Prod.mk.injEq] at e2
      obtain ⟨_, rfl⟩ := e2
      simpa [writtenFrom, Call.isReport] using hops

/-- **C60, the table.** However often and wherever in the history `create_solution_set` is called, the table is the same. -/
theorem C60_table (str : Sym.Expr → Text) (us : List SolUnk) (nodes : List GNode) (t : List (List FEqn))
    (hnd : (us.map (·.name)).Nodup) (ht : makeLHSVersions us (createSolutionSet us) = .ok t)
    (h : List Call) (s : OutSt) (ws : List Written) (hr : outRun str us nodes .start h = .ok (s, ws)) (hc : h.any Call.isCreate = true) :
    s.table = some (createSolutionSet us) := by
  have := (run_after hnd ht (start_after us t) hr).table
  simpa [hc] using this

theorem writtenFrom_unique {str : Sym.Expr → Text} {nodes : List GNode} {T : List (List FEqn)} {a : Call} {w w' : Written}
    (h : writtenFrom str nodes T a w) (h' : writtenFrom str nodes T a w') : w = w' := by
  cases a <;> cases w <;> simp only [writtenFrom] at h <;> cases w' <;> simp only [writtenFrom] at h'
  · rfl
  · rw [h, h']
  · rw [h] at h'; cases h'; rfl
  · rw [h] at h'; cases h'; rfl

/-- **C60, partial.** After one report (as in ikSolver.py) the programs written are the same in every history. -/
theorem C60_one_report_partial (str : Sym.Expr → Text) (us : List SolUnk) (nodes : List GNode) (t : List (List FEqn))
    (hnd : (us.map (·.name)).Nodup) (ht : makeLHSVersions us (createSolutionSet us) = .ok t)
    (h h' : List Call) (a : Call) (s s' : OutSt) (ws ws' : List Written)
    (h1 : reports (h ++ [a]) = 1) (h1' : reports (h' ++ [a]) = 1)
    (hr : outRun str us nodes .start (h ++ [a]) = .ok (s, ws)) (hr' : outRun str us nodes .start (h' ++ [a]) = .ok (s', ws')) :
    ws.getLast? = ws'.getLast? ∧ ∃ w, ws.getLast? = some w ∧ writtenFrom str nodes t a w := by
  obtain ⟨w, e, hw⟩ := C60_history str us nodes t hnd ht h a s ws hr
  obtain ⟨w', e', hw'⟩ := C60_history str us nodes t hnd ht h' a s' ws' hr'
  rw [h1] at hw; rw [h1'] at hw'
  refine ⟨by rw [e, e', writtenFrom_unique hw hw'], w, e, ?_⟩
  simpa [copies] using hw

/-- **C60 violated.** A program written before the report contains no assignment at all, although the packing uses the variables. -/
theorem C60_no_report_violation (str : Sym.Expr → Text) (us : List SolUnk) (nodes : List GNode) (t : List (List FEqn))
    (hnd : (us.map (·.name)).Nodup) (ht : makeLHSVersions us (createSolutionSet us) = .ok t)
    (h : List Call) (h0 : reports h = 0) (g : List (List Text)) (s : OutSt) (ws : List Written)
    (hr : outRun str us nodes .start (h ++ [.python g]) = .ok (s, ws)) :
    ws.getLast? = some (.py (g.map fun v => .pack (tsort v))) := by
  obtain ⟨w, e, hw⟩ := C60_history str us nodes t hnd ht h _ s ws hr
  have hk : reports (h ++ [Call.python g]) = 0 := by
    simp only [reports, List.countP_append] at h0 ⊢
    rw [h0]; rfl
  rw [hk] at hw
  rw [e]
  cases w <;> simp only [writtenFrom] at hw
  rename_i ops
  have hb : ∀ ns : List GNode, ns.mapM (pyNode []) = some (ns.map fun _ => []) := by
    intro ns
    induction ns with
    | nil => rfl
    | cons n ns ih => rw [List.mapM_cons, ih]; rfl
  simp only [copies, List.replicate_zero, List.flatten_nil, textMat, List.map_nil, pyCode, hb] at hw
  simp only [Option.map_some, Option.some.injEq] at hw
  rw [← hw]
  simp

/-- **C60 violated.** The `n`-th report repeats the table of equations `n` times, whatever was called between. -/
theorem C60_repeated_report_violation (str : Sym.Expr → Text) (us : List SolUnk) (nodes : List GNode) (t : List (List FEqn))
    (hnd : (us.map (·.name)).Nodup) (ht : makeLHSVersions us (createSolutionSet us) = .ok t)
    (h : List Call) (s : OutSt) (ws : List Written) (hr : outRun str us nodes .start (h ++ [.latex]) = .ok (s, ws)) :
    ws.getLast? = some (.report (copies (reports h + 1) t)) := by
  obtain ⟨w, e, hw⟩ := C60_history str us nodes t hnd ht h _ s ws hr
  rw [e]
  cases w <;> simp only [writtenFrom] at hw
  subst hw
  simp [reports, Call.isReport]

/-- **C60 violated.** A report before the table has been made is an error. -/
theorem C60_no_table_violation (str : Sym.Expr → Text) (us : List SolUnk) (nodes : List GNode) (h : List Call) :
    outRun str us nodes .start (.latex :: h) = .error .attributeError := rfl

/-! A concrete run: the table of `demoX`, `demoZ` has four rows. -/

def demoUs : List SolUnk := [demoX, demoZ]
def demoGs : List GNode := [⟨1, methodText [.atan2], []⟩, ⟨2, methodText [.atan2], []⟩]
def strLen (e : Sym.Expr) : Text := match e with
  | .sym s => "atan2(1,".toList ++ s.toList ++ ")".toList
  | _ => "-atan2(1,2)".toList

/-- what a run wrote, counted -/
def sizes (r : Except OutErr (OutSt × List Written)) : Option (List Nat) :=
  r.toOption.map fun p => p.2.map fun w => match w with
    | .nothing => 0
    | .report t => t.length
    | .py ops => (pyLhs ops).length
    | .cpp ops => (asgns ops).length

example : sizes (outRun strLen demoUs demoGs .start [.create, .python [], .latex, .python [], .cpp [], .create, .python []]) =
      some [0, 0, 4, 8, 8, 0, 8] ∧
    sizes (outRun strLen demoUs demoGs .start [.create, .latex, .create, .latex, .python [], .cpp []]) = some [0, 4, 0, 8, 16, 16] ∧
    ((makeLHSVersions demoUs (createSolutionSet demoUs)).toOption.map List.length) = some 4 ∧ (demoUs.map (·.name)).Nodup := by
  refine ⟨by decide +kernel, by decide +kernel, by decide +kernel, by decide⟩

end Verif.Out
