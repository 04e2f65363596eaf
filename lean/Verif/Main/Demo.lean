import Verif.Main.Props
import Verif.Leaf.Toy
/-!
# C78 on a planar arm with two parallel axes, with a small sympy: from the DH table to the table of solutions
-/
namespace Verif.Main
open Verif.Sym Verif.Eqn
open Verif.Kin (SM4 SymOps DHRow linkMat mulS Match SoaErr soaTransform zero one mulE addE evalM GoodOps RespectsAlpha armPose linkN thName angleSum
  BaseVars Angular exFind)
open Verif.Leaf (sAdd sMul sNeg LS)
open Verif.BT (Status)
open Verif.Solver (SelfFree angleUnk turns)

/-- sum, with the addition theorems -/
def tAdd (a b : Expr) : Expr :=
  match a, b with
  | .bin .mul (.un .cos x) (.un .cos y), .bin .mul (.un .neg (.un .sin x')) (.un .sin y') =>
    if x = x' ∧ y = y' then .un .cos (.bin .add x y) else sAdd a b
  | .bin .mul (.un .cos x) (.un .neg (.un .sin y)), .bin .mul (.un .neg (.un .sin x')) (.un .cos y') =>
    if x = x' ∧ y = y' then .un .neg (.un .sin (.bin .add x y)) else sAdd a b
  | .bin .mul (.un .sin x) (.un .cos y), .bin .mul (.un .cos x') (.un .sin y') =>
    if x = x' ∧ y = y' then .un .sin (.bin .add x y) else sAdd a b
  | .bin .mul (.un .sin x) (.un .neg (.un .sin y)), .bin .mul (.un .cos x') (.un .cos y') =>
    if x = x' ∧ y = y' then .un .cos (.bin .add x y) else sAdd a b
  | _, _ => sAdd a b

/-- product; a symbol goes to the left of a sine or cosine -/
def tMul (a b : Expr) : Expr :=
  match a, b with
  | .un .cos x, .sym s => .bin .mul (.sym s) (.un .cos x)
  | .un .sin x, .sym s => .bin .mul (.sym s) (.un .sin x)
  | _, _ => sMul a b

/-- simplification, bottom up -/
def tidy : Expr → Expr
  | .num q => .num q
  | .sym s => .sym s
  | .un .neg a => sNeg (tidy a)
  | .un .sin a => if tidy a = .num 0 then .num 0 else .un .sin (tidy a)
  | .un .cos a => if tidy a = .num 0 then .num 1 else .un .cos (tidy a)
  | .un f a => .un f (tidy a)
  | .bin .add a b => tAdd (tidy a) (tidy b)
  | .bin .mul a b => tMul (tidy a) (tidy b)
  | .bin f a b => .bin f (tidy a) (tidy b)

/-- A small sympy for the whole program. -/
def tinyO : Ops where
  fk := ⟨fun _ => true, tidy, fun _ e => e⟩
  auto := tidy
  sub := Expr.replace
  simp := tidy
  find := exFind
  solver := Leaf.toy

/-- An arm with two parallel axes: th_1, then l_1 along x, then th_2. -/
def planarDH (i : Fin 6) : DHRow :=
  if i = 0 then ⟨.num 0, .num 0, .num 0, .sym "th_1"⟩
  else if i = 1 then ⟨.num 0, .sym "l_1", .num 0, .sym "th_2"⟩ else ⟨.num 0, .num 0, .num 0, .num 0⟩

def planarVars : List Kin.Var := [⟨"th_2", [2]⟩, ⟨"th_1", [1]⟩]


/-! ### It is sound -/

theorem eval_tAdd (a b : Expr) (v : String → ℝ) : (tAdd a b).eval v = a.eval v + b.eval v := by
  unfold tAdd
  split
  all_goals try split
  all_goals try exact Leaf.eval_sAdd _ _ v
  all_goals
    next h =>
      obtain ⟨rfl, rfl⟩ := h
      simp only [Expr.eval, Fn1.eval, Fn2.eval, Real.cos_add, Real.sin_add]
      try ring

theorem eval_tMul (a b : Expr) (v : String → ℝ) : (tMul a b).eval v = a.eval v * b.eval v := by
  unfold tMul
  split
  · simp only [Expr.eval, Fn1.eval, Fn2.eval]; ring
  · simp only [Expr.eval, Fn1.eval, Fn2.eval]; ring
  · exact Leaf.eval_sMul _ _ v

theorem eval_tidy (v : String → ℝ) : ∀ e : Expr, (tidy e).eval v = e.eval v
  | .num _ => rfl
  | .sym _ => rfl
  | .un f a => by
    have ih := eval_tidy v a
    cases f
    case neg => simp only [tidy, Leaf.eval_sNeg, ih, Expr.eval, Fn1.eval]
    case sin =>
      simp only [tidy]
      split
      · next h => rw [h] at ih; simp only [Expr.eval, Fn1.eval, ← ih]; simp
      · simp only [Expr.eval, ih]
    case cos =>
      simp only [tidy]
      split
      · next h => rw [h] at ih; simp only [Expr.eval, Fn1.eval, ← ih]; simp
      · simp only [Expr.eval, ih]
    all_goals simp only [tidy, Expr.eval, ih]
  | .bin f a b => by
    have iha := eval_tidy v a
    have ihb := eval_tidy v b
    cases f
    case add => simp only [tidy, eval_tAdd, iha, ihb, Expr.eval, Fn2.eval]
    case mul => simp only [tidy, eval_tMul, iha, ihb, Expr.eval, Fn2.eval]
    all_goals simp only [tidy, Expr.eval, iha, ihb]

theorem has_tAdd {a b : Expr} {x : String} (h : (tAdd a b).has x = true) : a.has x = true ∨ b.has x = true := by
  unfold tAdd at h
  split at h
  all_goals try split at h
  all_goals try exact Leaf.has_sAdd h
  all_goals
    simp only [Expr.has, Bool.or_eq_true] at h ⊢
    exact .inl h

theorem has_tMul {a b : Expr} {x : String} (h : (tMul a b).has x = true) : a.has x = true ∨ b.has x = true := by
  unfold tMul at h
  split at h
  · simp only [Expr.has, Bool.or_eq_true] at h ⊢; exact h.symm
  · simp only [Expr.has, Bool.or_eq_true] at h ⊢; exact h.symm
  · exact Leaf.has_sMul h

theorem has_tidy {x : String} : ∀ {e : Expr}, (tidy e).has x = true → e.has x = true
  | .num _, h => h
  | .sym _, h => h
  | .un f a, h => by
    cases f
    case neg => exact has_tidy (e := a) (Leaf.has_sNeg h)
    case sin =>
      simp only [tidy] at h
      split at h
      · cases h
      · exact has_tidy (e := a) h
    case cos =>
      simp only [tidy] at h
      split at h
      · cases h
      · exact has_tidy (e := a) h
    all_goals exact has_tidy (e := a) h
  | .bin f a b, h => by
    have k : (tidy a).has x = true ∨ (tidy b).has x = true := by
      cases f <;> simp only [tidy, Expr.has, Bool.or_eq_true] at h
      · exact has_tAdd h
      · exact has_tMul h
      all_goals exact h
    simp only [Expr.has, Bool.or_eq_true]
    exact k.imp has_tidy has_tidy

theorem tinyO_sound : Sound tinyO fun _ => True where
  fk := ⟨fun e v _ => eval_tidy v e, fun _ _ h => has_tidy h, fun _ _ _ _ _ => rfl, fun _ _ _ h => .inl h⟩
  auto e v := eval_tidy v e
  sub := soundSub_replace
  simp e v := eval_tidy v e
  solver := Leaf.toy_sound

/-! ### The run -/

private def y (s : String) : Expr := .sym s
private def c1 : Expr := .un .cos (y "th_1")
private def s1 : Expr := .un .sin (y "th_1")
private def c2 : Expr := .un .cos (y "th_2")
private def s2 : Expr := .un .sin (y "th_2")
private def n (e : Expr) : Expr := .un .neg e
/-- r_11 = cos th_12, …, Px = l_1 cos th_1 -/
private def planar1 : List (Expr × Expr) :=
  [(y "r_11", .un .cos (y "th_12")), (y "r_12", n (.un .sin (y "th_12"))), (y "r_13", zero), (y "Px", mulE (y "l_1") c1),
   (y "r_21", .un .sin (y "th_12")), (y "r_22", .un .cos (y "th_12")), (y "r_23", zero), (y "Py", mulE (y "l_1") s1),
   (y "r_31", zero), (y "r_32", zero), (y "r_33", one), (y "Pz", zero)]
/-- r_11 cos th_1 + r_21 sin th_1 = cos th_2, … -/
private def planar2 : List (Expr × Expr) :=
  [(addE (mulE (y "r_11") c1) (mulE (y "r_21") s1), c2), (addE (mulE (y "r_12") c1) (mulE (y "r_22") s1), n s2),
   (addE (mulE (y "r_13") c1) (mulE (y "r_23") s1), zero), (addE (mulE (y "Px") c1) (mulE (y "Py") s1), y "l_1"),
   (addE (mulE (n s1) (y "r_11")) (mulE (y "r_21") c1), s2), (addE (mulE (n s1) (y "r_12")) (mulE (y "r_22") c1), c2),
   (addE (mulE (n s1) (y "r_13")) (mulE (y "r_23") c1), zero), (addE (mulE (n s1) (y "Px")) (mulE (y "Py") c1), zero),
   (y "r_31", zero), (y "r_32", zero), (y "r_33", one), (y "Pz", zero)]
private def ua : Expr := addE (mulE c2 c1) (mulE s2 (n s1))
private def ub : Expr := addE (mulE c2 s1) (mulE s2 c1)
private def uc : Expr := addE (mulE (n s2) c1) (mulE c2 (n s1))
private def ud : Expr := addE (mulE (n s2) s1) (mulE c2 c1)
private def planar3 : List (Expr × Expr) :=
  [(addE (mulE ua (y "r_11")) (mulE ub (y "r_21")), one), (addE (mulE ua (y "r_12")) (mulE ub (y "r_22")), zero),
   (addE (mulE ua (y "r_13")) (mulE ub (y "r_23")), zero), (addE (addE (mulE ua (y "Px")) (mulE ub (y "Py"))) (mulE (n c2) (y "l_1")), zero),
   (addE (mulE uc (y "r_11")) (mulE ud (y "r_21")), zero), (addE (mulE uc (y "r_12")) (mulE ud (y "r_22")), one),
   (addE (mulE uc (y "r_13")) (mulE ud (y "r_23")), zero), (addE (addE (mulE uc (y "Px")) (mulE ud (y "Py"))) (mulE (y "l_1") s2), zero),
   (y "r_31", zero), (y "r_32", zero), (y "r_33", one), (y "Pz", zero)]

/-- before the sum of angles is named -/
private def raw1 : List (Expr × Expr) :=
  let t := addE (y "th_1") (y "th_2")
  [(y "r_11", .un .cos t), (y "r_12", n (.un .sin t)), (y "r_13", zero), (y "Px", mulE (y "l_1") c1),
   (y "r_21", .un .sin t), (y "r_22", .un .cos t), (y "r_23", zero), (y "Py", mulE (y "l_1") s1),
   (y "r_31", zero), (y "r_32", zero), (y "r_33", one), (y "Pz", zero)]

theorem ofElements_elements {m : MEqn} (h : m.aux.length = 0) : ofElements (elements m) [] = m := by
  obtain ⟨td, ts, aux⟩ := m
  have : aux = [] := List.length_eq_zero_iff.1 h
  subst this
  simp only [ofElements, getD_elements, Option.getD_some]

theorem map_ofElements : ∀ {ms : List MEqn} {k : Nat}, ms.map (·.aux.length) = List.replicate k 0 → (ms.map elements).map (ofElements · []) = ms
  | [], _, _ => rfl
  | m :: ms, 0, h => by simp at h
  | m :: ms, k + 1, h => by
    simp only [List.map_cons, List.replicate_succ, List.cons.injEq] at h
    simp only [List.map_cons, ofElements_elements h.1, map_ofElements h.2]

set_option synthInstance.maxSize 2000 in
/-- The matrix equations of the planar arm. -/
theorem planar_raw : (mequationSet tinyO (linkMat tinyO.fk planarDH)).map elements =
    [raw1, planar2, planar3, planar3, planar3, planar3, planar2, planar3] := by decide +kernel

private def planarRaw : List MEqn := [raw1, planar2, planar3, planar3, planar3, planar3, planar2, planar3].map (ofElements · [])

theorem planar_mequationSet : mequationSet tinyO (linkMat tinyO.fk planarDH) = planarRaw := by
  rw [planarRaw, ← planar_raw, map_ofElements (k := 8) rfl]

set_option synthInstance.maxSize 2000 in
/-- The sum of angles is named. -/
theorem planar_soa : (soaMatrices tinyO planarRaw planarVars []).toOption.map (fun r => (r.1.map elements, r.1.map (·.aux.length), r.2)) =
    some ([planar1, planar2, planar3, planar3, planar3, planar3, planar2, planar3], [0, 0, 0, 0, 0, 0, 0, 0],
      planarVars ++ [⟨"th_12", [1, 2]⟩], [("th_12", addE (y "th_1") (y "th_2"))]) := by decide +kernel

private def planarMs : List MEqn := [planar1, planar2, planar3, planar3, planar3, planar3, planar2, planar3].map (ofElements · [])

/-- what is looked at -/
def seen (r : Except BT.Crash (Status × LS)) : Option (Status × List String × List (List Expr) × List Expr) :=
  r.toOption.map fun r => (r.1, r.2.w.nodes, r.2.w.nodes.map (fun x => (r.2.w.unk x).solutions), r.2.guards)

set_option synthInstance.maxSize 2000 in
/-- The run: th_1 = atan2(Py/l_1, Px/l_1), th_12 = atan2(r_21, r_11), th_2 = th_12 - th_1. -/
theorem planar_solve : seen (Solver.solve Leaf.toy ["th_2", "th_1", "th_12"] planarMs [⟨y "th_12", addE (y "th_1") (y "th_2")⟩]) =
    some (.success, ["th_1", "th_12", "th_2"],
      [[.bin .atan2 (.bin .div (y "Py") (y "l_1")) (.bin .div (y "Px") (y "l_1"))], [.bin .atan2 (y "r_21") (y "r_11")],
       [.bin .add (.un .neg (y "th_1")) (y "th_12")]], [y "l_1", y "l_1", y "l_1", .num 1, .num 1, .num 1, .num 1]) := by decide +kernel

theorem planar_program : ∃ s, program tinyO planarDH planarVars = .ok (.success, s) ∧
    Solver.solve Leaf.toy ["th_2", "th_1", "th_12"] planarMs [⟨y "th_12", addE (y "th_1") (y "th_2")⟩] = .ok (.success, s) ∧
    s.w.nodes = ["th_1", "th_12", "th_2"] ∧
    (s.w.unk "th_1").solutions = [.bin .atan2 (.bin .div (y "Py") (y "l_1")) (.bin .div (y "Px") (y "l_1"))] ∧
    (s.w.unk "th_12").solutions = [.bin .atan2 (y "r_21") (y "r_11")] ∧
    (s.w.unk "th_2").solutions = [.bin .add (.un .neg (y "th_1")) (y "th_12")] ∧
    s.guards = [y "l_1", y "l_1", y "l_1", .num 1, .num 1, .num 1, .num 1] := by
  have hp := planar_soa
  have hs := planar_solve
  rcases hq : soaMatrices tinyO planarRaw planarVars [] with e | ⟨ms, vars, aux⟩
  · rw [hq] at hp; simp [Except.toOption] at hp
  rw [hq] at hp
  simp only [Except.toOption, Option.map_some, Option.some.injEq, Prod.mk.injEq] at hp
  obtain ⟨p1, p2, rfl, rfl⟩ := hp
  have hms : ms = planarMs := by rw [planarMs, ← map_ofElements (k := 8) p2, p1]
  subst hms
  rcases hr : Solver.solve Leaf.toy ["th_2", "th_1", "th_12"] planarMs [⟨y "th_12", addE (y "th_1") (y "th_2")⟩] with c | ⟨st, s⟩
  · rw [hr] at hs; simp [seen, Except.toOption] at hs
  rw [hr] at hs
  simp only [seen, Except.toOption, Option.map_some, Option.some.injEq, Prod.mk.injEq] at hs
  obtain ⟨rfl, h1, h2, h3⟩ := hs
  rw [h1] at h2
  simp only [List.map_cons, List.map_nil, List.cons.injEq, and_true] at h2
  refine ⟨s, ?_, rfl, h1, h2.1, h2.2.1, h2.2.2, h3⟩
  have h6 : (planarVars ++ [(⟨"th_12", [1, 2]⟩ : Kin.Var)]).map (fun x : Kin.Var => x.symbol) = ["th_2", "th_1", "th_12"] := by decide
  have h7 : [("th_12", addE (y "th_1") (y "th_2"))].map auxEqn = [⟨y "th_12", addE (y "th_1") (y "th_2")⟩] := by simp [auxEqn, y]
  have h8 : tinyO.solver = Leaf.toy := rfl
  have h5 : prepare tinyO planarDH planarVars = .ok (planarMs, planarVars ++ [⟨"th_12", [1, 2]⟩], [("th_12", addE (y "th_1") (y "th_2"))]) := by
    rw [prepare, planar_mequationSet, hq]
    rw [if_neg (by decide), if_neg (by decide)]
  simp only [program, h5, h6, h7, h8, hr]

theorem planar_base : BaseVars planarVars := by
  intro v hv
  simp only [planarVars, List.mem_cons, List.not_mem_nil, or_false] at hv
  rcases hv with rfl | rfl <;> exact ⟨_, rfl⟩

theorem planar_angular (ms : List Match) : Angular planarVars ms := by
  intro m _ x _ v hv _
  have : ∀ v ∈ planarVars, v.symbol = thName v.n := by decide +kernel
  exact this v hv

theorem planar_noReserved : NoReserved planarDH := by
  have hsym : ∀ {s x : String}, Reserved s → x ∈ ["th_1", "th_2", "l_1"] → s ≠ x := by
    intro s x hs hx he
    subst he
    obtain ⟨f1, f2, f3, _, _⟩ := name_facts
    rcases hs with ⟨i, j, h⟩ | ⟨i, h | h⟩ | ⟨n, hn, h⟩
    · have : ∀ i j, targetName i j ∉ ["th_1", "th_2", "l_1"] := by decide +kernel
      exact this i j (h ▸ hx)
    · have : ∀ i, Kin.caName i ∉ ["th_1", "th_2", "l_1"] := by decide +kernel
      exact this i (h ▸ hx)
    · have : ∀ i, Kin.saName i ∉ ["th_1", "th_2", "l_1"] := by decide +kernel
      exact this i (h ▸ hx)
    · simp only [List.mem_cons, List.not_mem_nil, or_false] at hx
      rcases hx with rfl | rfl | rfl
      · have e : thName [1] = "th_1" := by decide +kernel
        have : thName [1] = thName n := e.trans h
        rw [← Kin.thName_inj this] at hn; simp at hn
      · have e : thName [2] = "th_2" := by decide +kernel
        have : thName [2] = thName n := e.trans h
        rw [← Kin.thName_inj this] at hn; simp at hn
      · obtain ⟨l, hl⟩ := thName_cons n
        rw [← h] at hl; cases hl
  intro i s hs
  have h1 := hsym hs (x := "th_1") (by simp)
  have h2 := hsym hs (x := "th_2") (by simp)
  have h3 := hsym hs (x := "l_1") (by simp)
  simp only [planarDH]
  split
  · simp [Expr.has, Ne.symm h1]
  split
  · simp [Expr.has, Ne.symm h2, Ne.symm h3]
  · simp [Expr.has]

/-- the angles of the planar arm -/
def planarA (x : String) : Bool := x = "th_1" || x = "th_2" || x = "th_12"

/-- Non-vacuity of the theorems of C78: the run on the planar arm is a success and meets all hypotheses, for all joint angles and every length that is
not zero. -/
theorem planar_meets : ∃ s, program tinyO planarDH planarVars = .ok (.success, s) ∧ Sound tinyO (fun _ => True) ∧ BaseVars planarVars ∧
    (∀ e, Angular planarVars (tinyO.find e)) ∧ s.w.nodes.Nodup ∧ SelfFree s.w ∧ s.w.nodes ≠ [] ∧ (∀ x, angleUnk s.w x = true → planarA x = true) ∧ TurnsOnly planarA planarDH ∧
    (∀ x ∈ s.w.nodes, ∀ sol ∈ (s.w.unk x).solutions, (turns planarA sol).2 = true ∧ (planarA x = false → (turns planarA sol).1 = true)) ∧
    ∀ t1 t2 l : ℝ, l ≠ 0 → ∃ v, Configuration tinyO.fk planarDH v ∧ v "th_1" = t1 ∧ v "th_2" = t2 ∧ v "l_1" = l ∧ ∀ g ∈ s.guards, g.eval v ≠ 0 := by
  obtain ⟨s, h0, hr, h1, h2, h3, h4, h5⟩ := planar_program
  have hn : s.w.nodes.Nodup := by rw [h1]; decide
  have hempty : ∀ x, x ∉ s.w.nodes → s.w.unk x = {} := by
    intro x hx
    refine Sol.run_frame (Solver.solve_calls hr hn).1 ?_
    rwa [Solver.callsOf, List.map_map, show ((fun c : String × List Expr => c.1) ∘ fun x => (x, (s.w.unk x).solutions)) = id from rfl, List.map_id]
  have hA : ∀ x, x ∉ ["th_1", "th_12"] → angleUnk s.w x = false := by
    intro x hx
    by_cases hm : x ∈ s.w.nodes
    · rw [h1] at hm
      simp only [List.mem_cons, List.not_mem_nil, or_false, not_or] at hm hx
      have : x = "th_2" := (hm.resolve_left hx.1).resolve_left hx.2
      subst this
      rw [angleUnk, h4]; rfl
    · rw [angleUnk, hempty x hm]; rfl
  refine ⟨s, h0, tinyO_sound, planar_base, fun _ => planar_angular _, hn, ?_, by rw [h1]; simp, ?_, ?_, ?_, ?_⟩
  · intro x sol hsol
    by_cases hx : x ∈ s.w.nodes
    · rw [h1] at hx
      simp only [List.mem_cons, List.not_mem_nil, or_false] at hx
      rcases hx with rfl | rfl | rfl
      · rw [h2] at hsol; revert sol; decide
      · rw [h3] at hsol; revert sol; decide
      · rw [h4] at hsol; revert sol; decide
    · rw [hempty x hx] at hsol; cases hsol
  · intro x hx
    by_contra hc
    have : x ∉ ["th_1", "th_12"] := by
      intro hm
      simp only [List.mem_cons, List.not_mem_nil, or_false] at hm
      rcases hm with rfl | rfl <;> simp [planarA] at hc
    rw [hA x this] at hx; cases hx
  · intro i
    simp only [planarDH]
    repeat' split
    all_goals simp [turns, planarA]
  · rw [h1]
    intro x hx sol hsol
    simp only [List.mem_cons, List.not_mem_nil, or_false] at hx
    rcases hx with rfl | rfl | rfl
    · rw [h2, List.mem_singleton] at hsol
      subst hsol; simp [turns, y, planarA]
    · rw [h3, List.mem_singleton] at hsol
      subst hsol; simp [turns, y, planarA]
    · rw [h4, List.mem_singleton] at hsol
      subst hsol; simp [turns, y, planarA]
  · intro t1 t2 l hl
    obtain ⟨v, hv, hq⟩ := C78_every_joint_vector tinyO.fk planar_noReserved fun s => if s = "th_1" then t1 else if s = "th_2" then t2 else l
    have hnr : ∀ x ∈ ["th_1", "th_2", "l_1"], ¬ Reserved x := by
      intro x hx hR
      have a0 := planar_noReserved 0 x hR
      have a1 := planar_noReserved 1 x hR
      simp only [List.mem_cons, List.not_mem_nil, or_false] at hx
      rcases hx with rfl | rfl | rfl
      · simp [planarDH, Expr.has] at a0
      · simp [planarDH, Expr.has] at a1
      · simp [planarDH, Expr.has] at a1
    have v3 := hq "l_1" (hnr _ (by simp)) (by decide)
    simp at v3
    refine ⟨v, hv, by rw [hq "th_1" (hnr _ (by simp)) (by decide)]; simp, by rw [hq "th_2" (hnr _ (by simp)) (by decide)]; simp, v3, ?_⟩
    rw [h5]
    simp [y, Expr.eval, v3, hl]

end Verif.Main
