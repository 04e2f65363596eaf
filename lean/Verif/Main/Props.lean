import Verif.Main.Model
import Verif.Kin.NumericProps
import Verif.Kin.SoaProps
import Verif.Solver.Sound
import Verif.Solver.Props
/-!
# C78: from the DH table to the solutions
-/
namespace Verif.Main
open Verif.Sym Verif.Eqn
open Verif.Kin (SM4 SymOps DHRow linkMat mulS Match SoaErr soaTransform zero one mulE addE evalM GoodOps RespectsAlpha armPose linkN thName angleSum
  BaseVars Angular M3 V3 M4)
open Verif.BT (Status Crash)
open Verif.Leaf (Sympy LS cells MHolds RespectsSums SameAngle)
open Verif.Solver (Satisfies SelfFree Gives Follows turns angleUnk isAngle)
open Verif.Sol (createSolutionSet tableInput Row picks)

/-! ## The specification -/

/-- The name of an entry of the target: `r_` with row and column (from 1), or `Px`, `Py`, `Pz` in the last column. -/
def targetName (i : Fin 3) (j : Fin 4) : String :=
  if j = 3 then "P" ++ (if i = 0 then "x" else if i = 1 then "y" else "z") else "r_" ++ toString (i.val + 1) ++ toString (j.val + 1)

/-- The symbols of the target (`r_11`, …, `Pz`) have the values of the pose of the arm: the product of the six link transforms, as numbers. -/
def Reaches (v : String → ℝ) (dh : Fin 6 → DHRow) : Prop := ∀ i j, v (targetName i j) = armPose v dh i.castSucc j

/-- Every `th_<digits>` is the sum of the joint angles it lists. -/
def SumsNamed (v : String → ℝ) : Prop := ∀ n : List (Fin 10), n ≠ [] → v (thName n) = angleSum v n

/-- The values of a configuration of the arm: `pi`, the pose it has, the cosines and sines of the alphas that were named, the sums of angles. -/
structure Configuration (P : SymOps) (dh : Fin 6 → DHRow) (v : String → ℝ) : Prop where
  pi : v "pi" = Real.pi
  pose : Reaches v dh
  alpha : RespectsAlpha P v dh
  sums : SumsNamed v

/-- What is assumed of sympy: simplification and substitution keep values; the solver's part is sound at the values in `G`. -/
structure Sound (O : Ops) (G : (String → ℝ) → Prop) : Prop where
  fk : GoodOps O.fk
  auto : ∀ e env, (O.auto e).eval env = e.eval env
  sub : SoundSub O.sub
  simp : ∀ e env, (O.simp e).eval env = e.eval env
  solver : O.solver.Sound G

theorem poseName_eq : ∀ i j, poseName i j = targetName i j := by decide +kernel

/-! ## The matrix equations hold at a configuration -/

theorem eval_mulA {O : Ops} (h : ∀ e env, (O.auto e).eval env = e.eval env) (v : String → ℝ) (A B : SM4) :
    evalM v (mulA O A B) = evalM v A * evalM v B := by
  rw [← Kin.eval_mulS]
  ext i j
  simp only [evalM, mulA, h]

theorem eval_hInvS (v : String → ℝ) (T : SM4) : evalM v (hInvS T) = Kin.hInv (evalM v T) := by
  ext i j
  fin_cases i <;> fin_cases j <;>
    simp [evalM, hInvS, Kin.hInv, Kin.mk4, Kin.rot, Kin.pos, Matrix.mulVec, dotProduct, Fin.sum_univ_three, Expr.eval, Fn1.eval, Fn2.eval, one, zero, addE, mulE] <;> ring

theorem eval_ikLhsS (v : String → ℝ) : evalM v ikLhsS = Kin.ikLhs (fun i j => v (poseName i j.castSucc)) (fun i => v (poseName i 3)) := by
  ext i j
  fin_cases i <;> fin_cases j <;> simp [evalM, ikLhsS, Kin.ikLhs, Kin.mk4, Expr.eval, one, zero]

/-- the numerical rows of the table -/
noncomputable def rowsOf (v : String → ℝ) (dh : Fin 6 → DHRow) (i : Fin 6) : Kin.Row :=
  ⟨Real.cos ((dh i).al.eval v), Real.sin ((dh i).al.eval v), (dh i).a.eval v, (dh i).d.eval v, (dh i).th.eval v⟩

theorem holds_of_values {v : String → ℝ} {A B : SM4} (h : (Kin.matrixEquation (evalM v A) (evalM v B)).Holds) : MHolds v (matrixEquation A B) := by
  intro i j
  have := congrFun (congrFun h i.castSucc) j
  simp [Kin.matrixEquation, Kin.topRows, evalM] at this
  exact this

theorem values_of_holds {v : String → ℝ} {A B : SM4} (h : MHolds v (matrixEquation A B)) : (Kin.matrixEquation (evalM v A) (evalM v B)).Holds := by
  funext i j
  simp only [Kin.matrixEquation, Kin.topRows]
  split
  · next hi => exact h ⟨i, hi⟩ j
  · rfl

/-- Each of the eight matrix equations holds exactly when the pose is reached. -/
theorem equations_iff {O : Ops} (hfk : GoodOps O.fk) (hauto : ∀ e env, (O.auto e).eval env = e.eval env) {dh : Fin 6 → DHRow} {v : String → ℝ}
    (hpi : v "pi" = Real.pi) (hal : RespectsAlpha O.fk v dh) : ∀ m ∈ mequationSet O (linkMat O.fk dh), (MHolds v m ↔ Reaches v dh) := by
  have hT : ∀ i, evalM v (linkMat O.fk dh i) = Kin.links (rowsOf v dh) i := fun i => by
    rw [Kin.eval_linkMat hfk hpi hal]; rfl
  have hpose : Kin.Pose (fun i j => v (poseName i j.castSucc)) (fun i => v (poseName i 3)) = Kin.t06 (Kin.links (rowsOf v dh)) ↔ Reaches v dh := by
    have h0 := (Kin.C29_forward_kinematics (rowsOf v dh) (fun i => by simp [rowsOf])).2.2
    have h1 : Reaches v dh ↔ ∀ i j, v (poseName i j) = Kin.t06 (Kin.links (rowsOf v dh)) i.castSucc j := by
      simp only [poseName_eq]; rfl
    rw [h1]
    generalize Kin.t06 (Kin.links (rowsOf v dh)) = T at h0
    obtain ⟨a, b, c, d⟩ := h0
    constructor
    · intro h i j
      have := congrFun (congrFun h i.castSucc) j
      rw [← this]
      fin_cases i <;> fin_cases j <;> simp [Kin.Pose]
    · intro h1
      ext i j
      fin_cases i
      · fin_cases j <;> simp [Kin.Pose, h1]
      · fin_cases j <;> simp [Kin.Pose, h1]
      · fin_cases j <;> simp [Kin.Pose, h1]
      · fin_cases j <;> simp [Kin.Pose, a, b, c, d]
  have hall := (Kin.C28_equations_equivalent (rowsOf v dh) (fun i => by simp [rowsOf]) (fun i j => v (poseName i j.castSucc)) (fun i => v (poseName i 3))).2
  rw [hpose] at hall
  simp only [Kin.mequationSet, List.mem_cons, List.not_mem_nil, or_false, forall_eq_or_imp, forall_eq] at hall
  obtain ⟨h1, h2, h3, h4, h5, h6, h7, h8⟩ := hall
  have key : ∀ {A B : SM4}, ((Kin.matrixEquation (evalM v A) (evalM v B)).Holds ↔ Reaches v dh) → (MHolds v (matrixEquation A B) ↔ Reaches v dh) :=
    fun h => ⟨fun k => h.1 (values_of_holds k), fun k => holds_of_values (h.2 k)⟩
  intro m hm
  simp only [mequationSet, List.mem_cons, List.not_mem_nil, or_false] at hm
  rcases hm with rfl | rfl | rfl | rfl | rfl | rfl | rfl | rfl
  · refine key ?_
    simp only [eval_mulA hauto, eval_ikLhsS, hT]
    exact h1
  · refine key ?_
    simp only [eval_mulA hauto, eval_hInvS, eval_ikLhsS, hT]
    exact h2
  · refine key ?_
    simp only [eval_mulA hauto, eval_hInvS, eval_ikLhsS, hT]
    exact h3
  · refine key ?_
    simp only [eval_mulA hauto, eval_hInvS, eval_ikLhsS, hT]
    exact h4
  · refine key ?_
    simp only [eval_mulA hauto, eval_hInvS, eval_ikLhsS, hT]
    exact h5
  · refine key ?_
    simp only [eval_mulA hauto, eval_hInvS, eval_ikLhsS, hT]
    exact h6
  · refine key ?_
    simp only [eval_mulA hauto, eval_hInvS, eval_ikLhsS, hT]
    exact h7
  · refine key ?_
    simp only [eval_mulA hauto, eval_hInvS, eval_ikLhsS, hT]
    exact h8

/-! ## The sum of angles transform -/

theorem getD_elements (m : MEqn) (i : Fin 3) (j : Fin 4) : (elements m)[4 * i.val + j.val]? = some (m.td i j, m.ts i j) := by
  have hc : ∀ i : Fin 3, ∀ j : Fin 4, cells[4 * i.val + j.val]? = some (i, j) := by decide
  rw [elements, List.getElem?_map, hc]; rfl

theorem forall₂_getElem? {α β : Type} {R : α → β → Prop} : ∀ {l : List α} {l' : List β}, List.Forall₂ R l l' → ∀ {k : Nat} {a : α}, l[k]? = some a →
    ∃ b, l'[k]? = some b ∧ R a b
  | _, _, .nil, k, a, h => by simp at h
  | _, _, .cons h0 hl, 0, a, h => by cases h; exact ⟨_, rfl, h0⟩
  | _, _, .cons h0 hl, k + 1, a, h => forall₂_getElem? hl (k := k) (by simpa using h)

theorem soaMatrices_inv {O : Ops} (hsub : SoundSub O.sub) (hsimp : ∀ e env, (O.simp e).eval env = e.eval env) {vars0 : List Kin.Var}
    (hb : BaseVars vars0) (hang : ∀ e, Angular vars0 (O.find e)) : ∀ {ms ms' : List MEqn} {vars vars' : List Kin.Var} {aux aux' : List (String × Expr)},
    Kin.SoaInv vars0 vars aux → soaMatrices O ms vars aux = .ok (ms', vars', aux') →
    Kin.SoaInv vars0 vars' aux' ∧ (∀ q ∈ aux, q ∈ aux') ∧ ∀ v, Kin.AuxHold v aux' → List.Forall₂ (fun m m' => MHolds v m ↔ MHolds v m') ms ms'
  | [], ms', vars, vars', aux, aux', hi, h => by
    simp only [soaMatrices, Except.ok.injEq, Prod.mk.injEq] at h
    obtain ⟨rfl, rfl, rfl⟩ := h
    exact ⟨hi, fun _ h => h, fun _ _ => .nil⟩
  | m :: ms, ms', vars, vars', aux, aux', hi, h => by
    simp only [soaMatrices] at h
    split at h
    · cases h
    · next l v1 x1 h1 =>
      split at h
      · cases h
      · next r v2 x2 h2 =>
        simp only [Except.ok.injEq, Prod.mk.injEq] at h
        obtain ⟨rfl, rfl, rfl⟩ := h
        obtain ⟨a1, a2, a3⟩ := Kin.soaTransform_inv hsub hsimp hb hang hi h1
        obtain ⟨b1, b2, b3⟩ := soaMatrices_inv hsub hsimp hb hang a1 h2
        refine ⟨b1, fun q hq => b2 q (a2 q hq), fun v hv => .cons ?_ (b3 v hv)⟩
        have hf := a3 v (fun q hq => hv q (b2 q hq))
        have hc : ∀ i j, ((ofElements l m.aux).td i j).eval v = (m.td i j).eval v ∧ ((ofElements l m.aux).ts i j).eval v = (m.ts i j).eval v := by
          intro i j
          obtain ⟨b, hb1, hb2⟩ := forall₂_getElem? hf (getD_elements m i j)
          simp only [ofElements, hb1, Option.getD_some]
          exact hb2
        simp only [MHolds, fun i j => (hc i j).1, fun i j => (hc i j).2]

/-- The variables are kept. -/
theorem soaStep_vars {sub : Expr → Expr → Expr → Expr} {st st' : Kin.SoaSt} {m : Match} (h : Kin.soaStep sub st m = .ok st') : ∀ x ∈ st.vars, x ∈ st'.vars := by
  intro x hx
  simp only [Kin.soaStep] at h
  split at h
  · split at h
    · cases h
    · cases h
    · injection h with h
      subst h
      split
      · exact hx
      · exact List.mem_append_left _ hx
  · injection h with h
    subst h; exact hx

theorem soaLoop_vars {sub : Expr → Expr → Expr → Expr} : ∀ {ms : List Match} {st st' : Kin.SoaSt}, Kin.soaLoop sub st ms = .ok st' → ∀ x ∈ st.vars, x ∈ st'.vars
  | [], st, st', h => by injection h with h; subst h; exact fun _ h => h
  | m :: ms, st, st', h => by
    simp only [Kin.soaLoop] at h
    cases hm : Kin.soaStep sub st m with
    | error e => rw [hm] at h; cases h
    | ok s1 => rw [hm] at h; exact fun x hx => soaLoop_vars h x (soaStep_vars hm x hx)

theorem soaTransform_vars {sub : Expr → Expr → Expr → Expr} {simp : Expr → Expr} {find : Expr → List Match} : ∀ {l l' : List (Expr × Expr)}
    {vars vars' : List Kin.Var} {aux aux' : List (String × Expr)}, soaTransform sub simp find l vars aux = .ok (l', vars', aux') → ∀ x ∈ vars, x ∈ vars'
  | [], l', vars, vars', aux, aux', h => by
    injection h with h
    simp only [Prod.mk.injEq] at h
    obtain ⟨rfl, rfl, rfl⟩ := h
    exact fun _ h => h
  | (td, ts) :: l, l', vars, vars', aux, aux', h => by
    simp only [soaTransform] at h
    cases he : Kin.soaElement sub simp find td ts vars aux with
    | error e => rw [he] at h; cases h
    | ok r =>
      obtain ⟨td', ts', v1, x1⟩ := r
      simp only [he] at h
      cases ht : soaTransform sub simp find l v1 x1 with
      | error e => rw [ht] at h; cases h
      | ok r =>
        obtain ⟨l2, v2, x2⟩ := r
        simp only [ht] at h
        injection h with h
        simp only [Prod.mk.injEq] at h
        obtain ⟨rfl, rfl, rfl⟩ := h
        intro x hx
        refine soaTransform_vars ht x ?_
        simp only [Kin.soaElement] at he
        cases hl : Kin.soaSub sub find (simp td) vars aux with
        | error e => rw [hl] at he; cases he
        | ok s1 =>
          simp only [hl] at he
          cases hr : Kin.soaSub sub find (simp ts) (s1.vars ++ s1.newjoint.toList) (s1.aux ++ s1.tmpeqn.toList) with
          | error e => rw [hr] at he; cases he
          | ok s2 =>
            simp only [hr] at he
            injection he with he
            simp only [Prod.mk.injEq] at he
            obtain ⟨_, _, rfl, _⟩ := he
            exact soaLoop_vars hr x (List.mem_append_left _ (soaLoop_vars hl x hx))

theorem soaMatrices_vars {O : Ops} : ∀ {ms ms' : List MEqn} {vars vars' : List Kin.Var} {aux aux' : List (String × Expr)},
    soaMatrices O ms vars aux = .ok (ms', vars', aux') → ∀ x ∈ vars, x ∈ vars'
  | [], ms', vars, vars', aux, aux', h => by
    simp only [soaMatrices, Except.ok.injEq, Prod.mk.injEq] at h
    obtain ⟨rfl, rfl, rfl⟩ := h
    exact fun _ h => h
  | m :: ms, ms', vars, vars', aux, aux', h => by
    simp only [soaMatrices] at h
    split at h
    · cases h
    · next l v1 x1 h1 =>
      split at h
      · cases h
      · next r v2 x2 h2 =>
        simp only [Except.ok.injEq, Prod.mk.injEq] at h
        obtain ⟨rfl, rfl, rfl⟩ := h
        exact fun x hx => soaMatrices_vars h2 x (soaTransform_vars h1 x hx)

theorem prepare_ok {O : Ops} {dh : Fin 6 → DHRow} {vars vars' : List Kin.Var} {ms : List MEqn} {aux : List (String × Expr)}
    (h : prepare O dh vars = .ok (ms, vars', aux)) : soaMatrices O (mequationSet O (linkMat O.fk dh)) vars [] = .ok (ms, vars', aux) := by
  simp only [prepare] at h
  split at h
  · cases h
  · split at h
    · cases h
    · split at h
      · cases h
      · next r hr => rw [hr]; cases h; rfl

/-- `th_12` and so on are sums. -/
theorem respectsSums {v : String → ℝ} (h : SumsNamed v) : RespectsSums v := by
  have two : ∀ a b : Fin 10, v (thName [a, b]) = v (thName [a]) + v (thName [b]) := fun a b => by
    rw [h _ (by simp)]; simp [angleSum]
  have three : ∀ a b c : Fin 10, v (thName [a, b, c]) = v (thName [a]) + v (thName [b]) + v (thName [c]) := fun a b c => by
    rw [h _ (by simp)]; simp [angleSum, add_assoc]
  constructor
  · intro i hi
    simp only [List.mem_cons, List.not_mem_nil, or_false] at hi
    rcases hi with rfl | rfl | rfl | rfl | rfl
    · exact two 1 2
    · exact two 2 3
    · exact two 3 4
    · exact two 4 5
    · exact two 5 6
  · intro i hi
    simp only [List.mem_cons, List.not_mem_nil, or_false] at hi
    rcases hi with rfl | rfl | rfl | rfl
    · exact three 1 2 3
    · exact three 2 3 4
    · exact three 3 4 5
    · exact three 4 5 6

/-! ## The theorems -/

/-- C78, the equations: for every DH table, all joint variables and every sympy that keeps values: the program hands eight matrix equations to the
solver, and at all values of the symbols (with `pi` and the named cosines and sines of alphas as they should be, and every `th_<digits>` the sum it
stands for) each of them says exactly that the pose of the arm is the target; the auxiliary equations hold; the joint variables are among the
unknowns. -/
theorem C78_equations {O : Ops} {G} (hO : Sound O G) {dh : Fin 6 → DHRow} {vars vars' : List Kin.Var} (hb : BaseVars vars)
    (hang : ∀ e, Angular vars (O.find e)) {ms : List MEqn} {aux : List (String × Expr)} (h : prepare O dh vars = .ok (ms, vars', aux)) :
    ms.length = 8 ∧ (∀ x ∈ vars, x ∈ vars') ∧ ∀ v : String → ℝ, v "pi" = Real.pi → RespectsAlpha O.fk v dh → SumsNamed v →
      (∀ m ∈ ms, (MHolds v m ↔ Reaches v dh)) ∧ ∀ e ∈ aux.map auxEqn, Leaf.Holds v e := by
  have h := prepare_ok h
  obtain ⟨a1, _, a3⟩ := soaMatrices_inv hO.sub hO.simp hb hang (Kin.soaInv_init hb) h
  refine ⟨?_, soaMatrices_vars h, fun v hpi hal hs => ?_⟩
  · have := (a3 (Kin.extendSums 0) (a1.sound _ (fun n hn => Kin.extendSums_sums 0 hn))).length_eq
    rw [← this]; rfl
  · have hax := a1.sound v hs
    refine ⟨fun m' hm' => ?_, fun e he => ?_⟩
    · obtain ⟨k, hk⟩ := List.mem_iff_getElem?.1 hm'
      have hf := (a3 v hax).flip
      obtain ⟨m, hm, hmm⟩ := forall₂_getElem? hf hk
      rw [← hmm, equations_iff hO.fk hO.auto hpi hal m (List.mem_of_getElem? hm)]
    · obtain ⟨q, hq, rfl⟩ := List.mem_map.1 he
      exact hax q hq

theorem satisfies {O : Ops} {G} (hO : Sound O G) {dh : Fin 6 → DHRow} {vars vars' : List Kin.Var} (hb : BaseVars vars)
    (hang : ∀ e, Angular vars (O.find e)) {ms : List MEqn} {aux : List (String × Expr)} (h : prepare O dh vars = .ok (ms, vars', aux))
    {v : String → ℝ} (hv : Configuration O.fk dh v) : Satisfies v ms (aux.map auxEqn) := by
  obtain ⟨_, _, h3⟩ := C78_equations hO hb hang h
  obtain ⟨h4, h5⟩ := h3 v hv.pi hv.alpha hv.sums
  exact ⟨fun m hm => (h4 m hm).2 hv.pose, h5⟩

theorem program_ok {O : Ops} {dh : Fin 6 → DHRow} {vars : List Kin.Var} {st : Status} {s : LS} (h : program O dh vars = .ok (st, s)) :
    ∃ ms vars' aux, prepare O dh vars = .ok (ms, vars', aux) ∧ Solver.solve O.solver (vars'.map (·.symbol)) ms (aux.map auxEqn) = .ok (st, s) := by
  simp only [program] at h
  split at h
  · cases h
  · next ms vars' aux hp =>
    split at h
    · cases h
    · next r hr => cases h; exact ⟨ms, vars', aux, hp, hr⟩

/-- C78: for every DH table, all joint variables and every sympy (sound in the sense of `Sound`), whatever the program computes: every configuration of
the arm at which no divisor vanishes is found. That is, each unknown that was solved has a solution with the value of the configuration, computed
from the pose and the other joints (angles modulo 2π); and if the program reports success this holds for every joint variable. -/
theorem C78_no_configuration_lost {O : Ops} {G} (hO : Sound O G) {dh : Fin 6 → DHRow} {vars : List Kin.Var} (hb : BaseVars vars)
    (hang : ∀ e, Angular vars (O.find e)) {st : Status} {s : LS} (h : program O dh vars = .ok (st, s))
    {v : String → ℝ} (hv : Configuration O.fk dh v) (hG : G v) (hg : ∀ g ∈ s.guards, g.eval v ≠ 0) :
    (∀ x, (s.w.unk x).solved = true → ∃ sol ∈ (s.w.unk x).solutions, Gives v x sol) ∧
    (st = .success → ∀ x ∈ vars, ∃ sol ∈ (s.w.unk x.symbol).solutions, Gives v x.symbol sol) := by
  obtain ⟨ms, vars', aux, hp, hs⟩ := program_ok h
  have hsat := satisfies hO hb hang hp hv
  have h1 : ∀ x, (s.w.unk x).solved = true → ∃ sol ∈ (s.w.unk x).solutions, Gives v x sol := fun x hx =>
    Solver.C51_no_solution_lost hO.solver hs hG hv.pi (respectsSums hv.sums) hsat hg hx
  refine ⟨h1, fun hst x hx => h1 _ ?_⟩
  exact (Solver.C45_success_iff_all_solved hs).2.1.1 hst _ (List.mem_map_of_mem ((C78_equations hO hb hang hp).2.1 x hx))

/-- C78, the table: for every run in which nothing was solved twice and no unknown is in its own solutions, every configuration at which no divisor
vanishes has exactly one row of the solution table: the one with its choice of solutions. -/
theorem C78_row_partial {O : Ops} {G} (hO : Sound O G) {dh : Fin 6 → DHRow} {vars : List Kin.Var} (hb : BaseVars vars)
    (hang : ∀ e, Angular vars (O.find e)) {st : Status} {s : LS} (h : program O dh vars = .ok (st, s)) (hn : s.w.nodes.Nodup) (hf : SelfFree s.w)
    (hne : s.w.nodes ≠ []) {v : String → ℝ} (hv : Configuration O.fk dh v) (hG : G v) (hg : ∀ g ∈ s.guards, g.eval v ≠ 0) :
    ∃ c : List Nat, c.length = s.w.nodes.length ∧
      (∀ (i : Nat) x, s.w.nodes[i]? = some x → ∃ (j : Nat) (sol : Expr), c[i]? = some j ∧ (s.w.unk x).solutions[j]? = some sol ∧ Gives v x sol) ∧
      ∃ (k : Nat) (r : Row), (createSolutionSet (tableInput s.w))[k]? = some r ∧ picks (tableInput s.w) r = c ∧
        ∀ (k' : Nat) r', (createSolutionSet (tableInput s.w))[k']? = some r' → picks (tableInput s.w) r' = c → k' = k := by
  obtain ⟨ms, vars', aux, hp, hs⟩ := program_ok h
  exact Solver.C51_row_partial hO.solver hs hn hf hne hG hv.pi (respectsSums hv.sums) (satisfies hO hb hang hp hv) hg

/-- The pose is not changed by full turns of the joints: in the table, angles occur only in sums in the last column and in none of the others. -/
def TurnsOnly (A : String → Bool) (dh : Fin 6 → DHRow) : Prop :=
  ∀ i, (turns A (dh i).al).2 = true ∧ (turns A (dh i).th).2 = true ∧ (turns A (dh i).a).1 = true ∧ (turns A (dh i).d).1 = true

theorem armPose_turn {A : String → Bool} {dh : Fin 6 → DHRow} (hA : TurnsOnly A dh) {v v' : String → ℝ} (h : ∀ e, Solver.TurnOn A v v' e) :
    armPose v' dh = armPose v dh := by
  have : (fun i => linkN ((dh i).al.eval v') ((dh i).a.eval v') ((dh i).d.eval v') ((dh i).th.eval v')) =
      fun i => linkN ((dh i).al.eval v) ((dh i).a.eval v) ((dh i).d.eval v) ((dh i).th.eval v) := by
    funext i
    obtain ⟨a1, a2, a3, a4⟩ := hA i
    have b1 := Leaf.sameAngle_iff.1 ((Solver.turns_sound (h _)).2 a1)
    have b2 := Leaf.sameAngle_iff.1 ((Solver.turns_sound (h _)).2 a2)
    have b3 := (Solver.turns_sound (h _)).1 a3
    have b4 := (Solver.turns_sound (h _)).1 a4
    simp only [linkN, b1.1, b1.2, b2.1, b2.2, b3, b4]
  rw [armPose, armPose, this]

/-- C78, the way back: for every such run and every configuration at which no divisor vanishes, the table has a row that reaches the pose of the
configuration: all values that follow the row (the pose and the parameters being those of the configuration) give the arm that pose. `A` says which
symbols are angles (at least those solved by an arc function): in the DH table and the solutions, angles occur only in sums; in the columns a and d,
and in the solutions of the other unknowns, only inside sines and cosines.
Missing: the other rows of the table, which need not reach the pose (`C53_spurious_row_violation`). -/
theorem C78_some_row_reaches_partial {O : Ops} {G} (hO : Sound O G) {dh : Fin 6 → DHRow} {vars : List Kin.Var} (hb : BaseVars vars)
    (hang : ∀ e, Angular vars (O.find e)) {st : Status} {s : LS} (h : program O dh vars = .ok (st, s)) (hn : s.w.nodes.Nodup) (hf : SelfFree s.w)
    (hne : s.w.nodes ≠ []) {v : String → ℝ} (hv : Configuration O.fk dh v) (hG : G v) (hg : ∀ g ∈ s.guards, g.eval v ≠ 0)
    {A : String → Bool} (hA : ∀ x, angleUnk s.w x = true → A x = true) (hdh : TurnsOnly A dh)
    (hsols : ∀ x ∈ s.w.nodes, ∀ sol ∈ (s.w.unk x).solutions, (turns A sol).2 = true ∧
      (A x = false → (turns A sol).1 = true)) :
    ∃ (k : Nat) (r : Row), (createSolutionSet (tableInput s.w))[k]? = some r ∧
      ∀ v' : String → ℝ, (∀ y, y ∉ s.w.nodes → v' y = v y) → Follows s.w (picks (tableInput s.w) r) v' →
        armPose v' dh = armPose v dh := by
  obtain ⟨ms, vars', aux, hp, hs⟩ := program_ok h
  obtain ⟨k, r, hr, hc⟩ := Solver.row_close hO.solver hs hn hf hne hG hv.pi (respectsSums hv.sums) (satisfies hO hb hang hp hv) hg hA hsols
  refine ⟨k, r, hr, fun v' hout hfol => armPose_turn hdh fun e y _ => ?_⟩
  by_cases hyn : y ∈ s.w.nodes
  · exact hc v' hout hfol y hyn
  · exact .inl (hout y hyn).symm

/-! ## Every arm has configurations -/

/-- The symbols the program makes up: the target, the cosines and sines of alphas, the sums of angles. -/
def Reserved (s : String) : Prop :=
  (∃ i j, s = targetName i j) ∨ (∃ i, s = Kin.caName i ∨ s = Kin.saName i) ∨ ∃ n, 2 ≤ n.length ∧ s = thName n

/-- no entry of the table uses a made-up symbol -/
def NoReserved (dh : Fin 6 → DHRow) : Prop :=
  ∀ i s, Reserved s → (dh i).al.has s = false ∧ (dh i).a.has s = false ∧ (dh i).d.has s = false ∧ (dh i).th.has s = false

theorem thName_cons (n : List (Fin 10)) : ∃ l, (thName n).toList = 't' :: 'h' :: '_' :: l := ⟨n.map fun d => Nat.digitChar d.val, by simp [thName]⟩

theorem name_facts : (∀ i j, ∃ c l, (targetName i j).toList = c :: l ∧ c ≠ 't') ∧ (∀ i, ∃ l, (Kin.caName i).toList = 'c' :: l) ∧
    (∀ i, ∃ l, (Kin.saName i).toList = 's' :: l) ∧ (∀ i j k, targetName i j ≠ Kin.caName k ∧ targetName i j ≠ Kin.saName k ∧ targetName i j ≠ "pi") ∧
    (∀ i j, Kin.caName i ≠ Kin.saName j ∧ Kin.caName i ≠ "pi" ∧ Kin.saName i ≠ "pi") := by
  have h1 : ∀ i j, (targetName i j).toList.head? ∈ [some 'r', some 'P'] := by decide +kernel
  have h2 : ∀ i, (Kin.caName i).toList.head? = some 'c' := by decide +kernel
  have h3 : ∀ i, (Kin.saName i).toList.head? = some 's' := by decide +kernel
  have h4 : ∀ i j k, targetName i j ≠ Kin.caName k ∧ targetName i j ≠ Kin.saName k ∧ targetName i j ≠ "pi" := by decide +kernel
  have h5 : ∀ i j, Kin.caName i ≠ Kin.saName j ∧ Kin.caName i ≠ "pi" ∧ Kin.saName i ≠ "pi" := by decide +kernel
  refine ⟨fun i j => ?_, fun i => ?_, fun i => ?_, h4, h5⟩
  · have := h1 i j
    rcases hl : (targetName i j).toList with _ | ⟨c, l⟩
    · rw [hl] at this; simp at this
    · rw [hl] at this
      refine ⟨c, l, rfl, ?_⟩
      simp only [List.head?_cons, List.mem_cons, Option.some.injEq, List.not_mem_nil, or_false] at this
      rcases this with rfl | rfl <;> decide
  · have := h2 i
    rcases hl : (Kin.caName i).toList with _ | ⟨c, l⟩
    · rw [hl] at this; simp at this
    · rw [hl] at this; cases this; exact ⟨l, rfl⟩
  · have := h3 i
    rcases hl : (Kin.saName i).toList with _ | ⟨c, l⟩
    · rw [hl] at this; simp at this
    · rw [hl] at this; cases this; exact ⟨l, rfl⟩

theorem pose_inj : ∀ i j i' j', targetName i j = targetName i' j' → i = i' ∧ j = j' := by decide +kernel
theorem ca_inj : ∀ i j, Kin.caName i = Kin.caName j → i = j := by decide +kernel
theorem sa_inj : ∀ i j, Kin.saName i = Kin.saName j → i = j := by decide +kernel

theorem thName_ne {n : List (Fin 10)} : (∀ i j, thName n ≠ targetName i j) ∧ (∀ i, thName n ≠ Kin.caName i) ∧ (∀ i, thName n ≠ Kin.saName i) ∧ thName n ≠ "pi" := by
  obtain ⟨f1, f2, f3, _, _⟩ := name_facts
  obtain ⟨l, hl⟩ := thName_cons n
  refine ⟨fun i j h => ?_, fun i h => ?_, fun i h => ?_, fun h => ?_⟩
  · obtain ⟨c, l', h1, h2⟩ := f1 i j
    rw [h, h1] at hl; cases hl; exact h2 rfl
  · obtain ⟨l', h1⟩ := f2 i
    rw [h, h1] at hl; cases hl
  · obtain ⟨l', h1⟩ := f3 i
    rw [h, h1] at hl; cases hl
  · rw [h] at hl; cases hl

open Classical in
/-- the values of the joints and parameters, extended to the made-up symbols -/
noncomputable def configure (dh : Fin 6 → DHRow) (q : String → ℝ) (s : String) : ℝ :=
  let e := Kin.extendSums fun s => if s = "pi" then Real.pi else q s
  if h : ∃ p : Fin 3 × Fin 4, s = targetName p.1 p.2 then armPose e dh h.choose.1.castSucc h.choose.2
  else if h : ∃ i, s = Kin.caName i then Real.cos ((dh h.choose).al.eval e)
  else if h : ∃ i, s = Kin.saName i then Real.sin ((dh h.choose).al.eval e)
  else e s

/-- C78: for every DH table that does not use the made-up symbols, and all values of joints and parameters, there is a configuration with these
values. (So the theorems above speak about all joint vectors.) -/
theorem C78_every_joint_vector (P : SymOps) {dh : Fin 6 → DHRow} (hr : NoReserved dh) (q : String → ℝ) :
    ∃ v, Configuration P dh v ∧ ∀ s, ¬ Reserved s → s ≠ "pi" → v s = q s := by
  obtain ⟨_, _, _, f4, f5⟩ := name_facts
  set q' : String → ℝ := fun s => if s = "pi" then Real.pi else q s with hq'
  have hnot : ∀ {s}, ¬ Reserved s → configure dh q s = Kin.extendSums q' s := by
    intro s hs
    rw [configure, dif_neg (fun ⟨p, hp⟩ => hs (.inl ⟨p.1, p.2, hp⟩)), dif_neg (fun ⟨i, hi⟩ => hs (.inr (.inl ⟨i, .inl hi⟩))),
      dif_neg (fun ⟨i, hi⟩ => hs (.inr (.inl ⟨i, .inr hi⟩)))]
  have hth : ∀ n, configure dh q (thName n) = Kin.extendSums q' (thName n) := by
    intro n
    obtain ⟨t1, t2, t3, _⟩ := @thName_ne n
    rw [configure, dif_neg (fun ⟨p, hp⟩ => t1 _ _ hp), dif_neg (fun ⟨i, hi⟩ => t2 _ hi), dif_neg (fun ⟨i, hi⟩ => t3 _ hi)]
  have hev : ∀ {e : Expr}, (∀ s, Reserved s → e.has s = false) → e.eval (configure dh q) = e.eval (Kin.extendSums q') := by
    intro e he
    refine Expr.eval_congr fun s hs => hnot fun hR => ?_
    rw [he s hR] at hs; cases hs
  have hpi' : ¬ Reserved "pi" := by
    rintro (⟨i, j, h⟩ | ⟨i, h | h⟩ | ⟨n, _, h⟩)
    · exact (f4 i j 0).2.2 h.symm
    · exact (f5 i 0).2.1 h.symm
    · exact (f5 i 0).2.2 h.symm
    · exact (@thName_ne n).2.2.2 h.symm
  have hoth : ∀ {s}, ¬ Reserved s → Kin.extendSums q' s = q' s := fun hs =>
    Kin.extendSums_other q' fun n hn h => hs (.inr (.inr ⟨n, hn, h⟩))
  have harm : armPose (configure dh q) dh = armPose (Kin.extendSums q') dh := by
    simp only [armPose]
    congr 1
    funext i
    rw [hev (fun s hs => (hr i s hs).1), hev (fun s hs => (hr i s hs).2.1), hev (fun s hs => (hr i s hs).2.2.1), hev (fun s hs => (hr i s hs).2.2.2)]
  refine ⟨configure dh q, ⟨?_, ?_, ?_, ?_⟩, ?_⟩
  · rw [hnot hpi', hoth hpi']; simp [hq']
  · intro i j
    rw [harm]
    have h : ∃ p : Fin 3 × Fin 4, targetName i j = targetName p.1 p.2 := ⟨(i, j), rfl⟩
    rw [configure, dif_pos h, ← (pose_inj _ _ _ _ h.choose_spec).1, ← (pose_inj _ _ _ _ h.choose_spec).2]
  · intro i _
    rw [hev (fun s hs => (hr i s hs).1)]
    constructor
    · have h : ∃ j, Kin.caName i = Kin.caName j := ⟨i, rfl⟩
      rw [configure, dif_neg (fun ⟨p, hp⟩ => (f4 p.1 p.2 i).1 hp.symm), dif_pos h, ← ca_inj _ _ h.choose_spec]
    · have h : ∃ j, Kin.saName i = Kin.saName j := ⟨i, rfl⟩
      rw [configure, dif_neg (fun ⟨p, hp⟩ => (f4 p.1 p.2 i).2.1 hp.symm), dif_neg (fun ⟨j, hj⟩ => (f5 j i).1 hj.symm), dif_pos h, ← sa_inj _ _ h.choose_spec]
  · intro n hn
    rw [hth, Kin.extendSums_sums q' hn]
    simp only [angleSum, hth]
  · intro s hs hpi
    rw [hnot hs, hoth hs]; simp [hq', hpi]

/-- C78, early exit: an arm whose first row has no variable, or whose only variable is in the first row, is not solved: the program stops with an
exception, whatever sympy does. -/
theorem C78_first_row_violation (O : Ops) {dh : Fin 6 → DHRow} (vars : List Kin.Var)
    (h : ((dh 0).d = .num 0 ∧ (dh 0).th = .num 0) ∨ ∀ i, i ≠ 0 → (dh i).d = .num 0 ∧ (dh i).th = .num 0) :
    ∃ e, program O dh vars = .error e := by
  have hv : ∀ i, (dh i).d = .num 0 ∧ (dh i).th = .num 0 → hasVariable (dh i) = false := fun i hi => by simp [hasVariable, hi.1, hi.2]
  simp only [program, prepare]
  by_cases h0 : hasVariable (dh 0) = true
  · rcases h with h | h
    · rw [hv 0 h] at h0; cases h0
    · have : (([5, 4, 3, 2, 1] : List (Fin 6)).any fun i => hasVariable (dh i)) = false := by
        simp [hv 1 (h 1 (by decide)), hv 2 (h 2 (by decide)), hv 3 (h 3 (by decide)), hv 4 (h 4 (by decide)), hv 5 (h 5 (by decide))]
      simp [h0, this]
  · simp [h0]

end Verif.Main
