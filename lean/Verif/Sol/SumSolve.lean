import Verif.Sol.SetSolvedProps
import Verif.Sym.Eval
/-!
# Model of the leaf `sum_solve` (ikbtleaves/sum_id.py:197-255) and `find_obj` (ikbtfunctions/helperfunctions.py:80-84)
-/
namespace Verif.Sol
open Verif.Sym

/-- What `e.RHS.match(thx + sgn * thy)` returns (sum_id.py:217): the values of the three `Wild`s. -/
structure SumMatch where
  thx : Expr
  sgn : Expr
  thy : Expr
  deriving DecidableEq

/-- What is assumed of sympy's `match` (sum_id.py:217, not modelled): the pattern, filled in, is the expression. -/
def SoundMatch (mt : Expr → Option SumMatch) : Prop :=
  ∀ e d, mt e = some d → ∀ env, e.eval env = d.thx.eval env + d.sgn.eval env * d.thy.eval env

/-- helperfunctions.py:80-84 `find_obj`: the first unknown whose symbol is the expression. -/
def findObj (unknowns : List String) (e : Expr) : Option String := unknowns.find? fun n => decide (Expr.sym n = e)

/-- The exceptions of the leaf: `d[thx]` with `d` None (line 219), and those of `set_solved`. -/
inductive SumErr where | type | set (e : SErr)
  deriving DecidableEq, Repr

/-- sum_id.py:232-235 and 243-246: append the solution, set `nsolutions` to 1, call `set_solved`. -/
def sumRecord (w : World) (x : String) (sol : Expr) : World × Except SumErr Bool :=
  match setSolved (w.upd x fun u => { u with solutions := u.solutions ++ [sol], nsolutions := 1 }) x with
  | (w', some e) => (w', .error (.set e))
  | (w', none) => (w', .ok true)

/-- sum_id.py:213-251: the body of the loop for the equation `lhs = rhs`; the answer tells whether `solvedtag` is set here. -/
def sumStep (mt : Expr → Option SumMatch) (w : World) (eq : Expr × Expr) : World × Except SumErr Bool :=
  match mt eq.2 with                                                                           -- 217
  | none => (w, .error .type)                                                                  -- 219
  | some d =>
    match findObj w.unknowns d.thx, findObj w.unknowns d.thy with                              -- 219, 221
    | none, _ => (w, .ok false)                                                                -- 223-224
    | some _, none => (w, .ok false)                                                           -- 225-226
    | some a, some b =>
      if (w.unk a).solved && !(w.unk b).solved then                                            -- 229
        sumRecord w b (.bin .div (.bin .add eq.1 (.un .neg (.sym a))) d.sgn)                   -- 230-234
      else if (w.unk b).solved && !(w.unk a).solved then                                       -- 240
        sumRecord w a (.bin .add eq.1 (.un .neg (.bin .mul d.sgn (.sym b))))                   -- 241-245
      else (w, .ok false)

/-- sum_id.py:212-255: the loop over `Tm.auxeqns` with the flag `solvedtag`; the answer is `true` for SUCCESS and `false`
for FAILURE. Printing and the blackboard calls (which store the same objects again) are omitted. -/
def sumLoop (mt : Expr → Option SumMatch) : World → Bool → List (Expr × Expr) → World × Except SumErr Bool
  | w, tag, [] => (w, .ok tag)
  | w, tag, eq :: eqs =>
    match sumStep mt w eq with
    | (w', .error e) => (w', .error e)
    | (w', .ok t) => sumLoop mt w' (tag || t) eqs

/-- sum_id.py:197-255 `sum_solve.tick`. -/
def sumSolve (mt : Expr → Option SumMatch) (w : World) (aux : List (Expr × Expr)) : World × Except SumErr Bool :=
  sumLoop mt w false aux                                                                       -- 203

/-! ## Lemmas -/

theorem findObj_some {us : List String} {e : Expr} {n : String} (h : findObj us e = some n) : n ∈ us ∧ e = .sym n := by
  unfold findObj at h
  have h1 := List.mem_of_find?_eq_some h
  have h2 := List.find?_some h
  exact ⟨h1, (of_decide_eq_true h2).symm⟩

theorem findObj_sym {us : List String} {n : String} (h : n ∈ us) : findObj us (.sym n) = some n := by
  unfold findObj
  cases hf : us.find? fun m => decide (Expr.sym m = .sym n) with
  | none => simpa using List.find?_eq_none.1 hf n h
  | some m =>
    have := List.find?_some hf
    simp at this
    rw [this]

/-- What a recorded solution is. -/
inductive Recorded (mt : Expr → Option SumMatch) (w : World) (eq : Expr × Expr) (x : String) (sol : Expr) : Prop where
  | second (a : String) (d : SumMatch) (hm : mt eq.2 = some d) (ha : d.thx = .sym a) (hb : d.thy = .sym x)
      (hau : a ∈ w.unknowns) (hxu : x ∈ w.unknowns) (hsa : (w.unk a).solved = true) (hsx : (w.unk x).solved = false)
      (hs : sol = .bin .div (.bin .add eq.1 (.un .neg (.sym a))) d.sgn)
  | first (b : String) (d : SumMatch) (hm : mt eq.2 = some d) (ha : d.thx = .sym x) (hb : d.thy = .sym b)
      (hau : b ∈ w.unknowns) (hxu : x ∈ w.unknowns) (hsa : (w.unk b).solved = true) (hsx : (w.unk x).solved = false)
      (hs : sol = .bin .add eq.1 (.un .neg (.bin .mul d.sgn (.sym b))))

/-- One equation: nothing happens, or exactly one unsolved unknown gets one solution and is set solved. -/
theorem sumStep_cases (mt : Expr → Option SumMatch) (w : World) (eq : Expr × Expr) :
    (mt eq.2 = none ∧ sumStep mt w eq = (w, .error .type)) ∨
    (∃ d, mt eq.2 = some d ∧ sumStep mt w eq = (w, .ok false) ∧
      ∀ a ∈ w.unknowns, ∀ b ∈ w.unknowns, d.thx = .sym a → d.thy = .sym b → (w.unk a).solved = (w.unk b).solved) ∨
    (∃ x sol, Recorded mt w eq x sol ∧ sumStep mt w eq = sumRecord w x sol) := by
  unfold sumStep
  cases hm : mt eq.2 with
  | none => exact .inl ⟨rfl, rfl⟩
  | some d =>
    right
    simp only []
    cases ha : findObj w.unknowns d.thx with
    | none =>
      refine .inl ⟨d, rfl, rfl, ?_⟩
      intro a hau b _ h1 _
      rw [h1, findObj_sym hau] at ha; cases ha
    | some a =>
      cases hb : findObj w.unknowns d.thy with
      | none =>
        refine .inl ⟨d, rfl, rfl, ?_⟩
        intro a _ b hbu _ h1
        rw [h1, findObj_sym hbu] at hb; cases hb
      | some b =>
        obtain ⟨ha1, ha2⟩ := findObj_some ha
        obtain ⟨hb1, hb2⟩ := findObj_some hb
        simp only []
        cases hsa : (w.unk a).solved <;> cases hsb : (w.unk b).solved
        · left
          refine ⟨d, rfl, by simp, ?_⟩
          intro a' _ b' _ h1 h2
          rw [ha2] at h1; rw [hb2] at h2; cases h1; cases h2; rw [hsa, hsb]
        · right
          exact ⟨a, _, .first b d hm ha2 hb2 hb1 ha1 hsb hsa rfl, by simp⟩
        · right
          exact ⟨b, _, .second a d hm ha2 hb2 ha1 hb1 hsa hsb rfl, by simp⟩
        · left
          refine ⟨d, rfl, by simp, ?_⟩
          intro a' _ b' _ h1 h2
          rw [ha2] at h1; rw [hb2] at h2; cases h1; cases h2; rw [hsa, hsb]

theorem Recorded.unsolved {mt : Expr → Option SumMatch} {w : World} {eq : Expr × Expr} {x : String} {sol : Expr}
    (h : Recorded mt w eq x sol) : (w.unk x).solved = false := by
  cases h <;> assumption

theorem Recorded.mem {mt : Expr → Option SumMatch} {w : World} {eq : Expr × Expr} {x : String} {sol : Expr}
    (h : Recorded mt w eq x sol) : x ∈ w.unknowns := by
  cases h <;> assumption

/-- Everything recorded by one equation, when no exception is raised. -/
theorem sumRecord_ok {w w' : World} {x : String} {sol : Expr} {t : Bool} (h : sumRecord w x sol = (w', .ok t)) :
    t = true ∧ w'.unknowns = w.unknowns ∧ (∀ n, n ≠ x → w'.unk n = w.unk n) ∧ (w'.unk x).solved = true ∧
      (w'.unk x).solutions = (w.unk x).solutions ++ [sol] ∧ w'.nodes = w.nodes ++ [x] := by
  unfold sumRecord at h
  split at h
  · cases h
  · rename_i w1 hs
    cases h
    have st := setSolved_ok hs
    refine ⟨rfl, st.unknowns, ?_, st.solved, ?_, st.nodes⟩
    · intro n hn; rw [st.other n hn, upd_other _ _ hn]
    · rw [st.solutions]; simp

end Verif.Sol
