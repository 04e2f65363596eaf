import Verif.Main.FkOnlyProps
import Verif.Leaf.Toy
/-!
# C79 on two arms: the Raven-II (ik_robots.py:88-107), the default robot of fkOnly.py, and a planar arm
-/
namespace Verif.Main
open Verif.Sym Verif.Eqn
open Verif.Kin (SM4 SymOps DHRow t06S caName saName dget M4 GoodOps armPose thName closed Angular soaTransform linkN zero)
open Verif.Out (Numbered dName)

/-! ## Non-vacuity: the Raven-II (ik_robots.py:88-107), the default robot of the script -/

/-- right angles are nice, nothing is simplified -/
def plainO : Ops where
  fk := { Kin.plainOps with nice := fun e => e == .num 0 || e == .bin .div (.sym "pi") (.num 2) }
  auto := id
  sub := fun e _ _ => e
  simp := id
  find := fun _ => []
  solver := Leaf.toy

def ravenDH (i : Fin 6) : DHRow :=
  ![⟨.num 0, .num 0, .num 0, .sym "th_1"⟩, ⟨.sym "al_1", .num 0, .num 0, .sym "th_2"⟩, ⟨.sym "al_2", .num 0, .sym "d_3", .bin .div (.sym "pi") (.num 2)⟩,
    ⟨.num 0, .num 0, .sym "ld_2", .sym "th_4"⟩, ⟨.bin .div (.sym "pi") (.num 2), .num 0, .num 0, .sym "th_5"⟩,
    ⟨.bin .div (.sym "pi") (.num 2), .sym "ld_3", .num 0, .sym "th_6"⟩] i

def raven : Arm where
  dh := ravenDH
  params := ["ld_2", "ld_3", "al_1", "al_2"]
  pvals := [("ld_2", .num (-470)), ("ld_3", .num 13), ("al_1", .bin .div (.bin .mul (.sym "pi") (.num 75)) (.num 180)),
    ("al_2", .bin .div (.bin .mul (.num (180 - 52)) (.sym "pi")) (.num 180))]
  vars := [⟨"th_1", [1]⟩, ⟨"th_2", [2]⟩, ⟨"d_3", [3]⟩, ⟨"th_4", [4]⟩, ⟨"th_5", [5]⟩, ⟨"th_6", [6]⟩]

theorem good_plainO : GoodOps plainO.fk :=
  ⟨Kin.good_plainOps.simp_eval, Kin.good_plainOps.simp_has, Kin.good_plainOps.sub_eval, Kin.good_plainOps.sub_has⟩

theorem angular_plainO (vars : List Kin.Var) (e : Expr) : Angular vars (plainO.find e) := by intro m hm; cases hm

theorem soa_none {sub : Expr → Expr → Expr → Expr} {simp : Expr → Expr} : ∀ (l : List (Expr × Expr)) (vars : List Kin.Var) (aux : List (String × Expr)),
    ∃ l', soaTransform sub simp (fun _ => []) l vars aux = .ok (l', vars, aux)
  | [], vars, aux => ⟨[], rfl⟩
  | (td, ts) :: l, vars, aux => by
    obtain ⟨l', h⟩ := soa_none (sub := sub) (simp := simp) l vars aux
    refine ⟨(simp td, simp ts) :: l', ?_⟩
    have h0 : Kin.soaElement sub simp (fun _ => []) td ts vars aux = .ok (simp td, simp ts, vars, aux) := by
      simp [Kin.soaElement, Kin.soaSub, Kin.sortMatches, Kin.soaLoop]
    rw [soaTransform, h0]
    simp only [h]

theorem soaMatrices_none : ∀ (ms : List MEqn) (vars : List Kin.Var) (aux : List (String × Expr)), ∃ ms', soaMatrices plainO ms vars aux = .ok (ms', vars, aux)
  | [], vars, aux => ⟨[], rfl⟩
  | m :: ms, vars, aux => by
    obtain ⟨l, h⟩ := soa_none (sub := plainO.sub) (simp := plainO.simp) (elements m) vars aux
    obtain ⟨ms', h2⟩ := soaMatrices_none ms vars aux
    refine ⟨ofElements l m.aux :: ms', ?_⟩
    rw [soaMatrices, show plainO.find = fun _ => [] from rfl, h]
    simp only [h2]

theorem prepare_none {dh : Fin 6 → DHRow} (h0 : hasVariable (dh 0) = true) (h1 : hasVariable (dh 1) = true) (vars : List Kin.Var) :
    ∃ ms, prepare plainO dh vars = .ok (ms, vars, []) := by
  obtain ⟨ms, h⟩ := soaMatrices_none (mequationSet plainO (Kin.linkMat plainO.fk dh)) vars []
  refine ⟨ms, ?_⟩
  rw [prepare, h0, h]
  simp [h1]

/-- the symbols of an expression -/
def symbolsOf : Expr → List String
  | .num _ => []
  | .sym s => [s]
  | .un _ a => symbolsOf a
  | .bin _ a b => symbolsOf a ++ symbolsOf b

theorem mem_symbolsOf {e : Expr} {x : String} (h : e.has x = true) : x ∈ symbolsOf e := by
  induction e with
  | num q => simp [Expr.has] at h
  | sym s =>
    simp only [Expr.has, beq_iff_eq] at h
    simp [symbolsOf, h]
  | un f a ih => exact ih (by simpa [Expr.has] using h)
  | bin f a b iha ihb =>
    simp only [symbolsOf, List.mem_append]
    simp only [Expr.has, Bool.or_eq_true] at h
    exact h.imp iha ihb

/-- `Proper` in a form that can be computed -/
def okArm (d : Arm) : Bool :=
  (d.vars.all fun v => decide (∃ e : Fin 10, v.n = [e] ∧ (v.symbol = thName [e] ∨ v.symbol = dName e))) && decide (d.vars.map (·.n)).Nodup &&
  decide (d.pvals.map (·.1) = d.params) && (d.pvals.all fun p => (symbolsOf p.2).all (· == "pi")) &&
  ((List.finRange 6).all fun i => (symbolsOf (d.dh i).al).all fun x => x == "pi" || d.params.contains x) &&
  ((List.finRange 6).all fun i => (symbolsOf (d.dh i).a ++ symbolsOf (d.dh i).d ++ symbolsOf (d.dh i).th).all fun x => x == "pi" || d.params.contains x || (d.vars.map (·.symbol)).contains x) &&
  (d.params.all fun p => p != "pi" && !(d.vars.map (·.symbol)).contains p && p.toList.head? != some 't' && (List.finRange 6).all fun i => p != caName i && p != saName i)

theorem mem_keys {x : String} {l : List (String × Expr)} (h : x ∈ l.map (·.1)) : ∃ e, dget l x = some e := by
  obtain ⟨p, hp, rfl⟩ := List.mem_map.1 h
  cases hf : l.find? (fun r => r.1 = p.1) with
  | none => simpa using List.find?_eq_none.1 hf p hp
  | some r => exact ⟨r.2, by simp [dget, hf]⟩

theorem of_dget {x : String} {e : Expr} {l : List (String × Expr)} (h : dget l x = some e) : (x, e) ∈ l := by
  simp only [dget, Option.map_eq_some_iff] at h
  obtain ⟨r, h1, rfl⟩ := h
  have h2 := List.find?_some h1
  have h3 := List.mem_of_find?_eq_some h1
  simp only [decide_eq_true_eq] at h2
  subst h2
  exact h3

theorem proper_of {d : Arm} (h : okArm d = true) : Proper d := by
  simp only [okArm, Bool.and_eq_true, List.all_eq_true, decide_eq_true_eq, List.mem_finRange, true_imp_iff, Bool.or_eq_true, beq_iff_eq,
    List.contains_iff_mem, bne_iff_ne, Bool.not_eq_true', List.mem_append, ne_eq] at h
  obtain ⟨⟨⟨⟨⟨⟨h1, h2⟩, h3⟩, h4⟩, h5⟩, h6⟩, h7⟩ := h
  refine ⟨⟨h1, h2⟩, ?_, ?_, ?_, ?_, ?_⟩
  · intro p hp
    obtain ⟨e, he⟩ := mem_keys (h3 ▸ hp)
    exact ⟨e, he, fun x hx => h4 _ (of_dget he) x (mem_symbolsOf hx)⟩
  · intro x hx
    obtain ⟨e, he⟩ := Option.ne_none_iff_exists'.1 hx
    rw [← h3]
    exact List.mem_map.2 ⟨_, of_dget he, rfl⟩
  · intro i x hx
    exact h5 i x (mem_symbolsOf hx)
  · intro i x hx
    have := h6 i x (by
      rcases hx with h | h | h
      · exact .inl (.inl (mem_symbolsOf h))
      · exact .inl (.inr (mem_symbolsOf h))
      · exact .inr (mem_symbolsOf h))
    rcases this with (h | h) | h
    · exact .inl h
    · exact .inr (.inl h)
    · exact .inr (.inr h)
  · intro p hp
    obtain ⟨⟨⟨h8, h9⟩, h10⟩, h11⟩ := h7 p hp
    refine ⟨h8, ?_, ?_, h11⟩
    · intro hm
      rw [← List.contains_iff_mem, h9] at hm
      cases hm
    · rintro n - rfl
      rw [Out.thName_toList] at h10
      simp at h10

theorem proper_raven : Proper raven := proper_of (by decide +kernel)

/-- the first run for the Raven-II: the hypotheses of `C79_first_run` are met, the program prints the pose -/
example : ∃ f, (fkOnly plainO (fun _ => none) "Raven-II" raven).2 = .ok f ∧ ∀ q, printed f q = .ok (armPose (given raven q) raven.dh) := by
  obtain ⟨ms, h⟩ := prepare_none (dh := raven.dh) (by decide +kernel) (by decide +kernel) raven.vars
  exact C79_first_run good_plainO proper_raven (angular_plainO _) rfl h

theorem raven_ca : (t06S plainO.fk ravenDH 0 0).has (caName 1) = true := by decide +kernel

/-- **C79 violated** for the default robot of the script: the second run for the Raven-II writes a program that raises NameError -/
theorem C79_raven_violation : ∃ f, (fkOnly plainO (fkHistory plainO (fun _ => none) [("Raven-II", raven)]) "Raven-II" raven).2 = .ok f ∧
    ∀ q, printed f q = .error .nameError := by
  obtain ⟨ms, h⟩ := prepare_none (dh := raven.dh) (by decide +kernel) (by decide +kernel) raven.vars
  exact C79_second_run_violation proper_raven (angular_plainO _) "Raven-II" ⟨0, 0, caName 1, mem_oddNames.2 ⟨1, by decide +kernel, .inl rfl⟩, raven_ca⟩ h

/-! ## A planar arm with two joints -/

def twoDH (i : Fin 6) : DHRow :=
  ![⟨.num 0, .num 0, .num 0, .sym "th_1"⟩, ⟨.num 0, .sym "l_1", .num 0, .sym "th_2"⟩, ⟨.num 0, .num 0, .num 0, .num 0⟩,
    ⟨.num 0, .num 0, .num 0, .num 0⟩, ⟨.num 0, .num 0, .num 0, .num 0⟩, ⟨.num 0, .num 0, .num 0, .num 0⟩] i

def twoArm : Arm := ⟨twoDH, ["l_1"], [("l_1", .num 1)], [⟨"th_1", [1]⟩, ⟨"th_2", [2]⟩]⟩

theorem proper_twoArm : Proper twoArm := proper_of (by decide +kernel)

/-- the hypotheses of `C79_every_run_partial` are met, after a history with two runs -/
example : ∃ f, (fkOnly plainO (fkHistory plainO (fun _ => none) [("planar", twoArm), ("Raven-II", raven), ("planar", twoArm)]) "planar" twoArm).2 = .ok f ∧
    ∀ q, printed f q = .ok (armPose (given twoArm q) twoArm.dh) := by
  obtain ⟨ms, h⟩ := prepare_none (dh := twoArm.dh) (by decide +kernel) (by decide +kernel) twoArm.vars
  refine C79_every_run_partial good_plainO proper_twoArm (angular_plainO _) _ ?_ (by decide +kernel) h
  intro p hp
  simp only [List.mem_cons, List.not_mem_nil, or_false] at hp
  rcases hp with rfl | rfl | rfl <;> intro hn
  · rfl
  · exact absurd hn (by decide)
  · rfl

/-- after a run for the planar arm the name cannot be used for the Raven-II: the hypotheses of `C79_described_table` are met -/
example : (fkOnly plainO (fkHistory plainO (fun _ => none) [("planar", twoArm)]) "planar" raven).2 = .error .quit := by
  obtain ⟨ms, h⟩ := prepare_none (dh := twoArm.dh) (by decide +kernel) (by decide +kernel) twoArm.vars
  have hk : fkHistory plainO (fun _ => none) [("planar", twoArm)] "planar" = some ⟨twoArm.dh, addValues plainO.fk twoArm.dh twoArm.pvals, twoArm.vars⟩ := by
    simp only [fkHistory, fkOnly, h, if_true]
  have hne : twoDH ≠ ravenDH := fun e => absurd (congrArg DHRow.al (congrFun e 1)) (by decide +kernel)
  rw [(C79_described_table (d := raven)).2 _ hk hne]

/-- the arm after the link has been made twice as long -/
def twoArm2 : Arm := { twoArm with pvals := [("l_1", .num 2)] }

theorem poses_differ : armPose (given twoArm fun _ => 0) twoArm.dh ≠ armPose (given twoArm2 fun _ => 0) twoArm2.dh := by
  intro h
  have := congrFun (congrFun h 0) 3
  have h0 : ∀ (d : Arm), d.dh = twoDH → dget d.pvals "th_1" = none → dget d.pvals "th_2" = none → armPose (given d fun _ => 0) d.dh 0 3 = given d (fun _ => 0) "l_1" := by
    intro d hd t1 t2
    have e1 : given d (fun _ => 0) "th_1" = 0 := by simp [given, t1]
    have e2 : given d (fun _ => 0) "th_2" = 0 := by simp [given, t2]
    have h1 : linkN 0 0 0 0 = 1 := by
      ext i j; fin_cases i <;> fin_cases j <;> simp [linkN]
    simp only [armPose, hd, Kin.t06, twoDH, Matrix.cons_val, Expr.eval, e1, e2, Rat.cast_zero, h1, one_mul, mul_one]
    simp [linkN]
  rw [h0 twoArm rfl (by decide +kernel) (by decide +kernel), h0 twoArm2 rfl (by decide +kernel) (by decide +kernel)] at this
  simp [given, twoArm, twoArm2, dget, Expr.eval] at this

/-- **C79 violated**, concretely: the length of the link is changed after a run; the program of the next run prints a pose that the arm does not have -/
theorem C79_planar_violation : ∃ f, (fkOnly plainO (fkHistory plainO (fun _ => none) [("planar", twoArm)]) "planar" twoArm2).2 = .ok f ∧
    ∃ q m, printed f q = .ok m ∧ m ≠ armPose (given twoArm2 q) twoArm2.dh := by
  obtain ⟨ms, h⟩ := prepare_none (dh := twoArm.dh) (by decide +kernel) (by decide +kernel) twoArm.vars
  obtain ⟨f, h1, h2⟩ := C79_stale_values_violation good_plainO proper_twoArm (angular_plainO _) "planar" (by decide +kernel) h [("l_1", .num 2)]
  exact ⟨f, h1, _, _, h2 fun _ => 0, poses_differ⟩

end Verif.Main
