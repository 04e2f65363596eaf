import Verif.Solver.Method
import Verif.Out.LatexDemo
import Verif.Out.CodeGenProps
/-!
# C62 for the solver: the report that is written after a run
-/
namespace Verif.Solver
open Verif.Sol Verif.Leaf Verif.Sym Verif.Eqn
open Verif.BT hiding Tree
open Verif.Out (Text LNode Report methodText reportBody pyGet)
open Verif.Out.Tex

/-! ## The counts -/

/-- the solutions of the solved unknowns are counted and named -/
def Counted (w : World) : Prop := ∀ x ∈ w.nodes,
  (w.unk x).nsolutions = (w.unk x).solutions.length ∧ (w.unk x).solutions ≠ [] ∧
    (w.unk x).solutions.length ≤ (w.unk x).solutionNames.length

theorem Counted.step {w w' : World} (h : Counted w) {x : String} {sols : List Expr}
    (h1 : Sol.setSolved (setSolutions w x sols) x = (w', none)) : Counted w' := by
  have hs := Sol.setSolved_ok h1
  intro y hy
  by_cases hyx : y = x
  · subst hyx
    rw [hs.solutions, hs.nsols, hs.solNames]
    refine ⟨rfl, fun he => ?_, by simp⟩
    have := hs.pos
    rw [he] at this; simp at this
  · rw [hs.nodes] at hy
    have hy' : y ∈ w.nodes := by simpa [hyx, setSolutions] using hy
    rw [hs.other y hyx, show (setSolutions w x sols).unk y = w.unk y from upd_other _ _ hyx]
    exact h y hy'

theorem Counted.run {cs : List (String × List Expr)} : ∀ {w w' : World}, Counted w → runCalls w cs = (w', none) → Counted w' := by
  induction cs with
  | nil => intro w w' h h1; simp only [runCalls] at h1; cases h1; exact h
  | cons c cs ih =>
    obtain ⟨x, sols⟩ := c
    intro w w' h h1
    simp only [runCalls] at h1
    split at h1
    · cases h1
    · next hs => exact ih (h.step hs) h1

/-- **C62.** Whatever sympy answers: at the end of every run, every solved unknown has at least one solution, their number is what was recorded
when it was solved, and every solution has a name. -/
theorem C62_solutions_counted {P : Sympy} {us : List String} {ms : List MEqn} {aux : List KEqn} {st : Status} {s : LS}
    {counter : Nat} (h : solve P us ms aux counter = .ok (st, s)) : ∀ x ∈ s.w.nodes,
      (s.w.unk x).nsolutions = (s.w.unk x).solutions.length ∧ (s.w.unk x).solutions ≠ [] ∧
        (s.w.unk x).solutions.length ≤ (s.w.unk x).solutionNames.length := by
  obtain ⟨_, L, _, hp, _⟩ := solve_cases h
  obtain ⟨cs, h1, _⟩ := path_calls hp (inv_init us ms aux L)
  exact Counted.run (w := (init us ms aux L).w) (fun x hx => by simp [init, Sol.start] at hx) h1

/-- If no unknown was solved twice, the names of its solutions are exactly `s1`, `s2`, …, one for each. -/
theorem C62_solutions_named_partial {P : Sympy} {us : List String} {ms : List MEqn} {aux : List KEqn} {st : Status} {s : LS}
    {counter : Nat} (h : solve P us ms aux counter = .ok (st, s)) (hn : s.w.nodes.Nodup) : ∀ x ∈ s.w.nodes,
      (s.w.unk x).solutionNames = (List.range (s.w.unk x).solutions.length).map fun k => .s x (1 + k) := by
  intro x hx
  obtain ⟨h1, _⟩ := solve_calls h hn
  have hno := (C19_orders h1).1
  have hc : (x, (s.w.unk x).solutions) ∈ callsOf s.w := List.mem_map.2 ⟨x, hx, rfl⟩
  obtain ⟨pre, post, he⟩ := List.append_of_mem hc
  rw [he] at h1 hno
  obtain ⟨w1, w2, k1, k2, k3, k4, k5, k6⟩ := run_split (hno ▸ hn) h1
  have hk := k2.solNames
  rw [← k6] at hk
  rw [hk]
  have : ((setSolutions w1 x (s.w.unk x).solutions).unk x).solutionNames = [] := by
    simp [setSolutions, k5]
  rw [this]
  simp [setSolutions]

/-! ## The report -/

/-- what sympy prints (and `theta_expand`, `re.sub` make of it): expressions, and the symbol with a given name -/
structure Printer where
  expr : Expr → Text
  name : String → Text

/-- What the report reads of a solution node (output_latex.py:150, 180-212): `m` is the method when the node was made
(solutionGraphV3.py:35), the rest is read from the unknown. -/
def lnode (pr : Printer) (s : LS) (m : String → List Tag) (x : String) : LNode :=
  { sym := pr.name x
    method := methodText (m x)
    umethod := methodText (s.ld x).method
    nsolutions := (s.w.unk x).nsolutions
    sols := (s.w.unk x).solutions.map pr.expr
    names := (s.w.unk x).solutionNames.map fun v => pr.name v.render
    order := (s.w.unk x).solveorder }

/-- The report of a run: `t` are the versions that `make_LHS_versions` makes, `table` is the solution set as python iterates it; the texts of
the robot and of the `verbatim` parts are those of `base`. -/
def reportOf (pr : Printer) (s : LS) (m : String → List Tag) (t : List (List FEqn)) (table : List Row) (base : Report) : Report :=
  { base with
    nodes := s.w.nodes.map (lnode pr s m)
    final := t.map fun row => row.map fun e => (pr.name e.lhs, pr.expr e.rhs)
    nversions := t.length
    table := table.map fun r => r.map fun v => v.render.toList }

/-- What the report of a run should show: the DH matrix, the columns of the forward kinematics, the solved unknowns in solution order, the
solutions of each with their names, the equation of each in each version, the rows of the solution set, the columns of the Jacobian. -/
def runItems (pr : Printer) (s : LS) (t : List (List FEqn)) (table : List Row) (base : Report) : List Item :=
  [.eqn (mathToks base.dh)] ++ [fkItem base.lhs base.fk] ++
  s.w.nodes.map (fun x => unkItem (pr.name x)) ++
  s.w.nodes.flatMap (fun x => .heading ::
    ((s.w.unk x).solutions.mapIdx fun k sol =>
      eqnItem (decide ((s.w.unk x).solutions.length > 1)) (pr.name (VName.s x (k + 1)).render) (pr.expr sol))) ++
  s.w.nodes.zipIdx.flatMap (fun p => .heading ::
    (t.filterMap fun row => row[p.2]?).map fun e => eqnItem true (pr.name e.lhs) (pr.expr e.rhs)) ++
  table.flatMap (fun r => r.map (fun v => cellItem v.render.toList) ++ [.row]) ++
  [jacItem base.jac]

theorem method_plain (ts : List Tag) : plainText (methodText ts) := by
  rw [Verif.Out.methodText_eq]
  have hp : ∀ b t, ∀ c ∈ Verif.Out.Tag.piece' b t, c ∉ ['\\', '{', '}', '$', '&', '#', '%', '_', '^', '\n'] := by
    intro b t; cases b <;> cases t <;> decide
  have : ∀ (ts : List Tag) (b : Bool), plainText (Verif.Out.methodFrom b ts) := by
    intro ts
    induction ts with
    | nil => intro b c hc; cases hc
    | cons t ts ih =>
      intro b c hc
      rcases List.mem_append.1 (show c ∈ _ ++ _ from hc) with hc | hc
      · exact hp b t c hc
      · exact ih true c hc
  exact this ts false

theorem method_ne {ts : List Tag} (h : ts ≠ []) : methodText ts ≠ [] := by
  rw [Verif.Out.methodText_eq]
  cases ts with
  | nil => exact absurd rfl h
  | cons t ts =>
    intro he
    exact Verif.Out.piece_ne false t (List.append_eq_nil_iff.1 (show _ ++ _ = [] from he)).1

theorem pyGet_nat {α : Type} (l : List α) (i : Nat) : pyGet l (((i + 1 : Nat) : Int) - 1) = l[i]? := by
  unfold pyGet
  rw [if_pos (by omega)]
  congr 1
  omega

/-- **C62, from the solver to the file.** After every run of the solver in which something was solved, nothing twice, and no unknown
occurs in its own solutions, and for which the versions could be made: the report is written, LaTeX accepts it, and it shows every solved
unknown, each of its solutions under its own name, its equation in each version, and every row of the solution set.
Assumed of the texts: what sympy prints may stand in a formula; the robot's name has no character with a meaning in LaTeX but the underscore;
no backslash in the `verbatim` parts. `m` are the methods when the nodes were made, which are not empty (`C62_solved_has_method` holds in
every state of the run).
Missing: the other runs (`C62_empty_violation`, `C62_resolve_violation`, `C18_index_error_violation`). -/
theorem C62_solver_partial {P : Sympy} {us : List String} {ms : List MEqn} {aux : List KEqn} {st : Status} {s : LS}
    {counter : Nat} (h : solve P us ms aux counter = .ok (st, s)) (hn : s.w.nodes.Nodup) (hf : SelfFree s.w) (hne : s.w.nodes ≠ [])
    {t : List (List FEqn)} (ht : makeLHSVersions (tableInput s.w) (createSolutionSet (tableInput s.w)) = .ok t)
    {table : List Row} (htab : ∀ r, r ∈ table ↔ r ∈ createSolutionSet (tableInput s.w))
    (pr : Printer) (hpe : ∀ e, mathOK (pr.expr e) = true)
    (hpn : ∀ x ∈ s.w.nodes, mathOK (pr.name x) = true ∧ ∀ v ∈ (s.w.unk x).solutionNames, mathOK (pr.name v.render) = true)
    (hpt : ∀ row ∈ t, ∀ e ∈ row, mathOK (pr.name e.lhs) = true) (hpv : ∀ r ∈ table, ∀ v ∈ r, mathOK v.render.toList = true)
    (m : String → List Tag) (hm : ∀ x ∈ s.w.nodes, m x ≠ [])
    (base : Report) (hbn : nameText base.name)
    (hbt : mathOK base.dh = true ∧ mathOK base.lhs = true ∧ (∀ t ∈ base.fk, mathOK t = true) ∧ ∀ t ∈ base.jac, mathOK t = true)
    (hbv : (∀ t ∈ base.edges, '\\' ∉ t) ∧ ∀ t ∈ base.groups, '\\' ∉ t) :
    ∃ text, reportBody (reportOf pr s m t table base) = some text ∧ Shows text (runItems pr s t table base) := by
  have hcount := C62_solutions_counted h
  have hname := C62_solutions_named_partial h hn
  have hmeth := C62_solved_has_method h
  obtain ⟨h16, hlen, h17⟩ := C16_solver_partial h hn hf hne
  have horder := (C19_solver_partial h hn hf).1
  -- the table
  have hMne : createSolutionSet (tableInput s.w) ≠ [] := by
    intro he; rw [he] at ht; cases ht
  have hrowlen : ∀ r ∈ table, r.length = s.w.nodes.length := by
    intro r hr
    have := congrArg List.length (h17 r ((htab r).1 hr))
    simpa using this
  have htne : table ≠ [] := by
    obtain ⟨r, hr⟩ := List.exists_mem_of_ne_nil _ hMne
    intro he
    have := (htab r).2 hr
    rw [he] at this; cases this
  -- the versions
  obtain ⟨l, hl⟩ : ∃ l, (tableInput s.w).getLast? = some l := by
    cases hti : tableInput s.w with
    | nil => rw [tableInput, List.map_eq_nil_iff] at hti; exact absurd hti hne
    | cons a b => exact ⟨_, List.getLast?_eq_some_getLast (by simp)⟩
  obtain ⟨hF, hE⟩ := C18_equations_exact hl ht
  have htl : t ≠ [] := by
    intro he
    rw [he] at hF
    exact hMne (List.length_eq_zero_iff.1 hF.symm)
  have hrow : ∀ row ∈ t, ∀ (i : Nat) x, s.w.nodes[i]? = some x → ∃ e : FEqn, row[i]? = some e := by
    intro row hr i x hi
    obtain ⟨k, hk⟩ := List.mem_iff_getElem?.1 hr
    have hk' : k < (createSolutionSet (tableInput s.w)).length := by
      rw [← hF]; exact (List.getElem?_eq_some_iff.1 hk).1
    obtain ⟨es, e1, _, e3⟩ := hE k _ (List.getElem?_eq_getElem hk')
    rw [hk] at e1; cases e1
    obtain ⟨sol, _, e5⟩ := e3 i _ (by rw [tableInput, List.getElem?_map, hi]; rfl)
    exact ⟨_, e5⟩
  have hix : ∀ x ∈ s.w.nodes, ∃ i : Nat, s.w.nodes[i]? = some x ∧ (s.w.unk x).solveorder = i + 1 := by
    intro x hx
    obtain ⟨i, hi⟩ := List.mem_iff_getElem?.1 hx
    exact ⟨i, hi, (horder i x hi).1⟩
  have hok : ReportOK (reportOf pr s m t table base) := by
    refine ⟨hbn, hbt, ?_, ⟨by simp [reportOf], by simpa [reportOf] using htl, ?_⟩, hbv, ?_⟩
    · intro n hnm
      obtain ⟨x, hx, rfl⟩ := List.mem_map.1 (show n ∈ s.w.nodes.map (lnode pr s m) from hnm)
      obtain ⟨c1, c2, c3⟩ := hcount x hx
      refine ⟨(hpn x hx).1, ⟨method_ne (hm x hx), method_plain _, method_plain _⟩, ⟨?_, ?_, ?_⟩, ?_, ?_⟩
      · simpa [lnode] using c1
      · simpa [lnode] using c2
      · simpa [lnode] using c3
      · intro t ht
        obtain ⟨e, _, rfl⟩ := List.mem_map.1 (show t ∈ (s.w.unk x).solutions.map pr.expr from ht)
        exact hpe e
      · intro t ht
        obtain ⟨v, hv, rfl⟩ := List.mem_map.1 (show t ∈ (s.w.unk x).solutionNames.map _ from ht)
        exact (hpn x hx).2 v hv
    · intro n hnm row hr
      obtain ⟨x, hx, rfl⟩ := List.mem_map.1 (show n ∈ s.w.nodes.map (lnode pr s m) from hnm)
      obtain ⟨row', hr', rfl⟩ := List.mem_map.1 (show row ∈ t.map _ from hr)
      obtain ⟨i, hi, ho⟩ := hix x hx
      obtain ⟨e, he⟩ := hrow row' hr' i x hi
      refine ⟨(pr.name e.lhs, pr.expr e.rhs), ?_, ?_, hpe _⟩
      · show pyGet _ ((((s.w.unk x).solveorder : Nat) : Int) - 1) = _
        rw [ho, pyGet_nat, List.getElem?_map, he]; rfl
      · exact hpt row' hr' e (List.mem_of_getElem? he)
    · cases htb : table with
      | nil => exact absurd htb htne
      | cons r rs =>
        refine ⟨_, _, by simp only [reportOf, List.map_cons]; rfl, ?_⟩
        intro row hr
        obtain ⟨r', hr', rfl⟩ := List.mem_map.1 (show row ∈ (r :: rs).map _ from hr)
        rw [← htb] at hr'
        have hlen' := hrowlen r' hr'
        refine ⟨?_, ?_, ?_⟩
        · intro he
          rw [List.map_eq_nil_iff] at he
          rw [he] at hlen'
          exact hne (List.length_eq_zero_iff.1 hlen'.symm)
        · rw [List.length_map, List.length_map, hlen', hrowlen r (by rw [htb]; simp)]
        · intro tx htx
          obtain ⟨v, hv, rfl⟩ := List.mem_map.1 htx
          exact hpv r' hr' v hv
  obtain ⟨text, h1, h2⟩ := C62_report_partial _ hok
  refine ⟨text, h1, ?_⟩
  have e1 : (s.w.nodes.map (lnode pr s m)).map (fun n => unkItem n.sym) = s.w.nodes.map fun x => unkItem (pr.name x) := by
    rw [List.map_map]; rfl
  have e2 : (s.w.nodes.map (lnode pr s m)).flatMap genericItems = s.w.nodes.flatMap (fun x => Item.heading ::
      ((s.w.unk x).solutions.mapIdx fun k sol =>
        eqnItem (decide ((s.w.unk x).solutions.length > 1)) (pr.name (VName.s x (k + 1)).render) (pr.expr sol))) := by
    rw [List.flatMap_map]
    refine List.flatMap_congr fun x hx => ?_
    unfold genericItems lnode
    simp only [List.length_map]
    rw [hname x hx]
    congr 1
    apply List.ext_getElem
    · simp
    · intro i h1 h2
      simp [Nat.add_comm]
  have e3 : (s.w.nodes.map (lnode pr s m)).flatMap (versionItems (t.map fun row => row.map fun e => (pr.name e.lhs, pr.expr e.rhs))) =
      s.w.nodes.zipIdx.flatMap (fun p => Item.heading ::
        (t.filterMap fun row => row[p.2]?).map fun e => eqnItem true (pr.name e.lhs) (pr.expr e.rhs)) := by
    rw [List.flatMap_map]
    have hz : s.w.nodes.flatMap (fun a => versionItems (t.map fun row => row.map fun e => (pr.name e.lhs, pr.expr e.rhs)) (lnode pr s m a)) =
        s.w.nodes.zipIdx.flatMap (fun p => versionItems (t.map fun row => row.map fun e => (pr.name e.lhs, pr.expr e.rhs)) (lnode pr s m p.1)) := by
      conv_lhs => rw [← List.zipIdx_map_fst 0 s.w.nodes, List.flatMap_map]
    rw [hz]
    refine List.flatMap_congr fun p hp => ?_
    obtain ⟨x, i⟩ := p
    have hi : s.w.nodes[i]? = some x := List.mk_mem_zipIdx_iff_getElem?.1 hp
    unfold versionItems
    congr 1
    have ho := (horder i x hi).1
    show List.map _ (List.filterMap (fun row => pyGet row ((((s.w.unk x).solveorder : Nat) : Int) - 1)) _) = _
    rw [ho]
    simp only [pyGet_nat, List.filterMap_map]
    rw [List.map_filterMap, List.map_filterMap]
    apply List.filterMap_congr
    intro row _
    simp only [Function.comp, List.getElem?_map]
    cases row[i]? <;> rfl
  have e4 : (table.map fun r => r.map fun v => v.render.toList).flatMap rowItems =
      table.flatMap (fun r => r.map (fun v => cellItem v.render.toList) ++ [.row]) := by
    rw [List.flatMap_map]
    refine List.flatMap_congr fun r _ => ?_
    unfold rowItems
    rw [List.map_map]; rfl
  have e : reportItems (reportOf pr s m t table base) = runItems pr s t table base := by
    unfold reportItems runItems
    show _ ++ _ ++ (s.w.nodes.map (lnode pr s m)).map (fun n => unkItem n.sym) ++ (s.w.nodes.map (lnode pr s m)).flatMap genericItems ++
      (s.w.nodes.map (lnode pr s m)).flatMap (versionItems (t.map fun row => row.map fun e => (pr.name e.lhs, pr.expr e.rhs))) ++
      (table.map fun r => r.map fun v => v.render.toList).flatMap rowItems ++ _ = _
    rw [e1, e2, e3, e4]
    rfl
  rw [← e]; exact h2

/-- Non-vacuity of `C62_solver_partial`, `C62_solutions_counted` and `C62_solutions_named_partial`: a run with three unknowns, for a printer that
prints every expression as `x` and every name as `n`. -/
example : ∃ s t text, demoThree ["y", "th_1", "x"] = .ok (.success, s) ∧ s.w.nodes = ["th_1", "x", "y"] ∧
    reportBody (reportOf ⟨fun _ => ['x'], fun _ => ['n']⟩ s (fun _ => [.algebra]) t (createSolutionSet (tableInput s.w)) demoReport) = some text ∧
    Shows text (runItems ⟨fun _ => ['x'], fun _ => ['n']⟩ s t (createSolutionSet (tableInput s.w)) demoReport) := by
  have hv := demoThree_ok
  have hd : (demoThree ["y", "th_1", "x"]).toOption.map (fun r =>
      (match makeLHSVersions (tableInput r.2.w) (createSolutionSet (tableInput r.2.w)) with | .ok t => t.length | .error _ => 0,
       (createSolutionSet (tableInput r.2.w)).all fun r => r.all fun v => mathOK v.render.toList)) = some (1, true) := by decide +kernel
  rcases hr : demoThree ["y", "th_1", "x"] with c | ⟨st, s⟩
  · rw [hr] at hv; simp [view, Except.toOption] at hv
  rw [hr] at hv hd
  simp only [view, Except.toOption, Option.map_some, Option.some.injEq, Prod.mk.injEq] at hv hd
  obtain ⟨rfl, hn, hsol⟩ := hv
  rw [hn] at hsol
  simp only [List.map_cons, List.map_nil, List.cons.injEq, and_true] at hsol
  have hnd : s.w.nodes.Nodup := by rw [hn]; decide
  have hself : SelfFree s.w := by
    have hcalls := (solve_calls hr hnd).1
    intro x sol hs
    by_cases hx : x ∈ s.w.nodes
    · rw [hn] at hx
      simp only [List.mem_cons, List.not_mem_nil, or_false] at hx
      rcases hx with rfl | rfl | rfl
      · rw [hsol.1] at hs; revert sol; decide
      · rw [hsol.2.1] at hs; revert sol; decide
      · rw [hsol.2.2] at hs; revert sol; decide
    · have : s.w.unk x = {} := by
        refine run_frame hcalls ?_
        rwa [callsOf, List.map_map, show ((fun c : String × List Expr => c.1) ∘ fun x => (x, (s.w.unk x).solutions)) = id from rfl, List.map_id]
      rw [this] at hs; cases hs
  have hx : mathOK ['x'] = true := by decide +kernel
  have hN : mathOK ['n'] = true := by decide +kernel
  obtain ⟨h1, h2⟩ := hd
  split at h1
  swap
  · cases h1
  next t ht =>
  obtain ⟨text, k1, k2⟩ := C62_solver_partial hr hnd hself (by rw [hn]; simp) ht (fun _ => Iff.rfl) ⟨fun _ => ['x'], fun _ => ['n']⟩
    (fun _ => hx) (fun _ _ => ⟨hN, fun _ _ => hN⟩) (fun _ _ _ _ => hN)
    (by simpa using h2) (fun _ => [.algebra]) (fun _ _ => by simp) demoReport demoReport_ok.name demoReport_ok.texts demoReport_ok.verbatim
  exact ⟨s, t, text, rfl, hn, k1, k2⟩

/-- what the examples look at: the nodes, the names and the number of the solutions, the number of versions -/
def peek (r : Except Crash (Status × LS)) : Option (List String × List (List String × Nat)) :=
  r.toOption.map fun r => (r.2.w.nodes, r.2.w.nodes.map fun x => ((r.2.w.unk x).solutionNames.map VName.render, (r.2.w.unk x).solutions.length))

/-- **C62 is violated** if the first unknown is solved twice: it is listed twice, and its two solutions have the same name `th_1s1`, as the names
of the earlier solution are kept. -/
theorem C62_resolve_violation : peek (demoThree ["th_1", "y", "x"]) = some (["th_1", "x", "th_1", "y"],
    [(["th_1s1", "th_1s1", "th_1s2"], 2), (["xs1"], 1), (["th_1s1", "th_1s1", "th_1s2"], 2), (["ys1"], 1)]) := by
  decide +kernel

end Verif.Solver
