import Verif.Main.FkOnly
import Verif.Main.Props
import Verif.Out.FkProps
/-!
# C79: the forward kinematics program written by fkOnly.py
-/
namespace Verif.Main
open Verif.Sym Verif.Eqn
open Verif.Kin (SM4 SymOps DHRow t06S alphaSubs caName saName dset dget evalM M4 addE sinE cosE GoodOps RespectsAlpha armPose linkMat linkS mulS thName
  closed constEnv Angular zero one mulE linkN)
open Verif.Out (FkErr FkStmt fkVar fkSet Numbered SumsOver Grown dName)

/-! ## The specification -/

/-- A description as a user writes it: joint variables `th_<n>`, `d_<n>` with different digits; every parameter has a number as value and every value
belongs to a parameter; the table is written in parameters and joint variables, the alphas in parameters; no name has two meanings. -/
structure Proper (d : Arm) : Prop where
  numbered : Numbered d.vars
  values : ∀ p ∈ d.params, ∃ e, dget d.pvals p = some e ∧ closed e
  keys : ∀ x, dget d.pvals x ≠ none → x ∈ d.params
  alphas : ∀ i x, (d.dh i).al.has x = true → x = "pi" ∨ x ∈ d.params
  others : ∀ i x, ((d.dh i).a.has x = true ∨ (d.dh i).d.has x = true ∨ (d.dh i).th.has x = true) → x = "pi" ∨ x ∈ d.params ∨ x ∈ d.vars.map (·.symbol)
  names : ∀ p ∈ d.params, p ≠ "pi" ∧ p ∉ d.vars.map (·.symbol) ∧ (∀ n, 2 ≤ n.length → p ≠ thName n) ∧ ∀ i, p ≠ caName i ∧ p ≠ saName i

/-- The values of the symbols: parameters as described, joint variables as given by the user. -/
noncomputable def given (d : Arm) (q : String → ℝ) (s : String) : ℝ :=
  if s = "pi" then Real.pi else match dget d.pvals s with
    | some e => e.eval constEnv
    | none => q s

/-! ## Names -/

theorem toString_small : ∀ i : Fin 6, (toString i.val).toList = [Nat.digitChar i.val] := by decide +kernel

theorem ca_list (i : Fin 6) : (caName i).toList = ['c', 'a', Nat.digitChar i.val] := by
  revert i; decide +kernel
theorem sa_list (i : Fin 6) : (saName i).toList = ['s', 'a', Nat.digitChar i.val] := by
  revert i; decide +kernel
theorem ca_ne_sa : ∀ i j : Fin 6, caName i ≠ saName j := by decide +kernel
theorem ca_ne_pi : ∀ i : Fin 6, caName i ≠ "pi" ∧ saName i ≠ "pi" := by decide +kernel
theorem ca_ne_th (i : Fin 6) (n : List (Fin 10)) : caName i ≠ thName n ∧ saName i ≠ thName n := by
  constructor <;> intro h <;> have := congrArg String.toList h <;> rw [Out.thName_toList] at this
  · rw [ca_list] at this; simp at this
  · rw [sa_list] at this; simp at this
theorem ca_ne_d (i : Fin 6) (e : Fin 10) : caName i ≠ dName e ∧ saName i ≠ dName e := by
  constructor <;> intro h <;> have := congrArg String.toList h
  · rw [ca_list] at this; simp [dName] at this
  · rw [sa_list] at this; simp [dName] at this
theorem pi_ne_th (n : List (Fin 10)) : "pi" ≠ thName n := by
  intro h
  have := congrArg String.toList h
  rw [Out.thName_toList] at this
  have h2 : "pi".toList = ['p', 'i'] := by decide +kernel
  rw [h2] at this; simp at this
theorem pi_ne_d (e : Fin 10) : "pi" ≠ dName e := by
  intro h
  have := congrArg String.toList h
  have h2 : "pi".toList = ['p', 'i'] := by decide +kernel
  rw [h2] at this; simp [dName] at this

/-- the rows whose alpha gets a name -/
def odd (P : SymOps) (dh : Fin 6 → DHRow) : List (Fin 6) := (List.finRange 6).filter fun i => !P.nice (dh i).al

theorem mem_odd {P : SymOps} {dh : Fin 6 → DHRow} {i : Fin 6} : i ∈ odd P dh ↔ P.nice (dh i).al = false := by simp [odd]

/-- the names of their cosines and sines -/
def oddNames (P : SymOps) (dh : Fin 6 → DHRow) : List String := (odd P dh).flatMap fun i => [caName i, saName i]

theorem mem_oddNames {P : SymOps} {dh : Fin 6 → DHRow} {x : String} :
    x ∈ oddNames P dh ↔ ∃ i, P.nice (dh i).al = false ∧ (x = caName i ∨ x = saName i) := by
  simp [oddNames, mem_odd]

theorem addParams_eq (P : SymOps) (dh : Fin 6 → DHRow) (params : List String) : addParams P dh params = params ++ oddNames P dh :=
  Kin.C66_added_parameters P dh _

theorem addValues_fold (P : SymOps) (dh : Fin 6 → DHRow) : ∀ (l : List (Fin 6)) (pvals : List (String × Expr)),
    let r := l.foldl (fun d i => if P.nice (dh i).al then d else dset (saName i) (sinE (dh i).al) (dset (caName i) (cosE (dh i).al) d)) pvals
    (∀ i, i ∈ l → P.nice (dh i).al = false → dget r (caName i) = some (cosE (dh i).al) ∧ dget r (saName i) = some (sinE (dh i).al)) ∧
    (∀ x, (∀ i ∈ l, P.nice (dh i).al = false → x ≠ caName i ∧ x ≠ saName i) → dget r x = dget pvals x)
  | [], pvals => ⟨by simp, fun _ _ => rfl⟩
  | i :: l, pvals => by
    simp only [List.foldl_cons]
    obtain ⟨a, b⟩ := addValues_fold P dh l (if P.nice (dh i).al then pvals else dset (saName i) (sinE (dh i).al) (dset (caName i) (cosE (dh i).al) pvals))
    refine ⟨?_, ?_⟩
    · intro j hj hn
      by_cases hjl : j ∈ l
      · exact a j hjl hn
      · have hji : j = i := (List.mem_cons.1 hj).resolve_right hjl
        subst hji
        refine ⟨?_, ?_⟩
        · rw [b _ fun k hk _ => ⟨fun e => hjl ((ca_inj _ _ e : j = k) ▸ hk), ca_ne_sa _ _⟩, if_neg (by simp [hn]), Kin.dget_dset, Kin.dget_dset,
            if_neg (ca_ne_sa _ _), if_pos rfl]
        · rw [b _ fun k hk _ => ⟨(ca_ne_sa _ _).symm, fun e => hjl ((sa_inj _ _ e : j = k) ▸ hk)⟩, if_neg (by simp [hn]), Kin.dget_dset, if_pos rfl]
    · intro x hx
      rw [b x fun k hk => hx k (by simp [hk])]
      cases hn : P.nice (dh i).al with
      | true => rfl
      | false =>
        obtain ⟨h1, h2⟩ := hx i (by simp) hn
        rw [if_neg (by simp), Kin.dget_dset, Kin.dget_dset, if_neg h2, if_neg h1]

theorem dget_addValues (P : SymOps) (dh : Fin 6 → DHRow) (pvals : List (String × Expr)) :
    (∀ i, P.nice (dh i).al = false → dget (addValues P dh pvals) (caName i) = some (cosE (dh i).al) ∧
      dget (addValues P dh pvals) (saName i) = some (sinE (dh i).al)) ∧
    ∀ x, x ∉ oddNames P dh → dget (addValues P dh pvals) x = dget pvals x := by
  obtain ⟨a, b⟩ := addValues_fold P dh (List.finRange 6) pvals
  refine ⟨fun i hn => a i (List.mem_finRange i) hn, fun x hx => b x fun i _ hn => ?_⟩
  constructor <;> rintro rfl
  · exact hx (mem_oddNames.2 ⟨i, hn, .inl rfl⟩)
  · exact hx (mem_oddNames.2 ⟨i, hn, .inr rfl⟩)

/-! ## The lines -/

theorem declLines_ok {pvals : List (String × Expr)} {params : List String} (h : ∀ p ∈ params, ∃ e, dget pvals p = some e) :
    declLines pvals params = .ok (params.map fun p => .assign p ((dget pvals p).getD zero)) := by
  unfold declLines
  split
  · next he =>
    cases params with
    | nil => rfl
    | cons p ps =>
      obtain ⟨e, he'⟩ := h p (by simp)
      rw [List.isEmpty_iff.1 he] at he'
      simp [dget] at he'
  · refine Out.mapM_ok fun p hp => ?_
    obtain ⟨e, he⟩ := h p hp
    simp [he]

/-- the line of a sum of angles -/
def sumLine (v : Kin.Var) : Line := lineOf (.sum v.symbol (v.n.map fun d => thName [d]))

theorem writeFk_ok {P : SymOps} {params : List String} {pvals : List (String × Expr)} {vars tail : List Kin.Var} {dh : Fin 6 → DHRow}
    (h : ∀ p ∈ params, ∃ e, dget pvals p = some e) (hv : Numbered vars) (ht : SumsOver vars tail) :
    writeFk P params pvals (vars ++ tail) dh =
      .ok ⟨(params.map fun p => .assign p ((dget pvals p).getD zero)) ++ ((vars.map fun v => .given v.symbol) ++ tail.map sumLine), t06S P dh⟩ := by
  have h2 : ((vars ++ tail).map (·.symbol)).mapM (fkVar ((vars ++ tail).map (·.symbol))) =
      .ok ((vars.map fun v => [FkStmt.dummy v.symbol]) ++ tail.map fun v => [.sum v.symbol (v.n.map fun d => thName [d])]) := by
    rw [List.mapM_map, List.mapM_append,
      Out.mapM_ok (l := vars) (f := fkVar ((vars ++ tail).map fun v : Kin.Var => v.symbol) ∘ fun v : Kin.Var => v.symbol)
        (g := fun v : Kin.Var => [FkStmt.dummy v.symbol]) (fun v h => Out.fkVar_base hv h _),
      Out.mapM_ok (l := tail) (f := fkVar ((vars ++ tail).map fun v : Kin.Var => v.symbol) ∘ fun v : Kin.Var => v.symbol)
        (g := fun v : Kin.Var => [.sum v.symbol (v.n.map fun d => thName [d])]) (fun v h => Out.fkVar_sum hv ht h)]
    rfl
  unfold writeFk
  rw [declLines_ok h, h2]
  simp only [Except.ok.injEq, FkFile.mk.injEq, and_true]
  rw [List.flatten_append, ← List.flatMap_def, ← List.flatMap_def, ← List.map_eq_flatMap, ← List.map_eq_flatMap, List.map_append, List.map_map, List.map_map]
  rfl

/-! ## Running them -/

theorem execLines_append (q : String → ℝ) (a b : List Line) (env : String → Option ℝ) :
    execLines q env (a ++ b) = match execLines q env a with
      | .error e => .error e
      | .ok env' => execLines q env' b := by
  induction a generalizing env with
  | nil => rfl
  | cons o os ih =>
    rw [List.cons_append, execLines, execLines]
    cases execLine q env o with
    | error e => rfl
    | ok env' => exact ih env'

/-- assignments whose right sides use none of the variables assigned -/
theorem run_assigns (q : String → ℝ) (f : String → Expr) (Q : String → Prop) : ∀ (ps : List String) (env : String → Option ℝ), (∀ p ∈ ps, Q p) →
    (∀ p ∈ ps, ∀ s, (f p).has s = true → env s ≠ none ∧ ¬ Q s) →
    ∃ env', execLines q env (ps.map fun p => .assign p (f p)) = .ok env' ∧ (∀ p ∈ ps, env' p = some ((f p).eval fun s => (env s).getD 0)) ∧
      ∀ s, s ∉ ps → env' s = env s
  | [], env, _, _ => ⟨env, rfl, by simp, fun _ _ => rfl⟩
  | p :: ps, env, hQ, h => by
    have hp := h p (by simp)
    let w := (f p).eval fun s => (env s).getD 0
    have hne : ∀ p' ∈ p :: ps, ∀ s, (f p').has s = true → fkSet env p w s = env s := by
      intro p' hp' s hs
      have : s ≠ p := fun e => (h p' hp' s hs).2 (e ▸ hQ p (by simp))
      simp [fkSet, this]
    obtain ⟨env', h1, h2, h3⟩ := run_assigns q f Q ps (fkSet env p w) (fun p' hp' => hQ p' (by simp [hp'])) (by
      intro p' hp' s hs
      rw [hne p' (by simp [hp']) s hs]
      exact h p' (by simp [hp']) s hs)
    refine ⟨env', ?_, ?_, ?_⟩
    · rw [List.map_cons, execLines, execLine, if_pos fun s hs => (hp s hs).1]
      exact h1
    · intro p' hp'
      by_cases hm : p' ∈ ps
      · rw [h2 p' hm]
        congr 1
        exact Expr.eval_congr fun s hs => by rw [hne p' (by simp [hm]) s hs]
      · have : p' = p := (List.mem_cons.1 hp').resolve_right hm
        subst this
        rw [h3 _ hm]; simp [fkSet, w]
    · intro s hs
      simp only [List.mem_cons, not_or] at hs
      rw [h3 s hs.2]; simp [fkSet, hs.1]

theorem run_given (q : String → ℝ) : ∀ (vs : List Kin.Var) (env : String → Option ℝ),
    ∃ env', execLines q env (vs.map fun v => .given v.symbol) = .ok env' ∧ (∀ v ∈ vs, env' v.symbol = some (q v.symbol)) ∧
      ∀ s, s ∉ vs.map (·.symbol) → env' s = env s
  | [], env => ⟨env, rfl, by simp, fun _ _ => rfl⟩
  | v :: vs, env => by
    obtain ⟨env', h1, h2, h3⟩ := run_given q vs (fkSet env v.symbol (q v.symbol))
    refine ⟨env', by rw [List.map_cons, execLines, execLine]; exact h1, ?_, ?_⟩
    · intro w hw
      by_cases hm : w.symbol ∈ vs.map (·.symbol)
      · obtain ⟨u, hu, e⟩ := List.mem_map.1 hm
        rw [← e]; exact h2 u hu
      · have : w = v := by
          rcases List.mem_cons.1 hw with h | h
          · exact h
          · exact absurd (List.mem_map.2 ⟨w, h, rfl⟩) hm
        subst this
        rw [h3 _ hm]; simp [fkSet]
    · intro s hs
      simp only [List.map_cons, List.mem_cons, not_or] at hs
      rw [h3 s hs.2]; simp [fkSet, hs.1]

theorem has_sum {s : String} : ∀ {ts : List String} {e : Expr}, (ts.foldl (fun e t => addE e (.sym t)) e).has s = true → e.has s = true ∨ s ∈ ts
  | [], e, h => .inl h
  | t :: ts, e, h => by
    rcases has_sum (ts := ts) h with h | h
    · simp only [addE, Expr.has, Bool.or_eq_true, beq_iff_eq] at h
      rcases h with h | h
      · exact .inl h
      · exact .inr (by simp [h])
    · exact .inr (by simp [h])

/-- a sum of angles is one assignment, in the joint variables -/
theorem sumLine_eq {v : Kin.Var} (h : 2 ≤ v.n.length) : ∃ e, sumLine v = .assign v.symbol e ∧ ∀ s, e.has s = true → ∃ d ∈ v.n, s = thName [d] := by
  match hn : v.n, h with
  | d :: n, _ =>
    refine ⟨_, by rw [sumLine, hn]; rfl, ?_⟩
    intro s hs
    rcases has_sum hs with h | h
    · exact ⟨d, by simp, (beq_iff_eq.1 h).symm⟩
    · obtain ⟨e, he, rfl⟩ := List.mem_map.1 h
      exact ⟨e, by simp [he], rfl⟩

theorem run_sumLines (q : String → ℝ) : ∀ (tail : List Kin.Var) (env : String → Option ℝ),
    (∀ v ∈ tail, 2 ≤ v.n.length ∧ ∀ d ∈ v.n, env (thName [d]) ≠ none) →
    ∃ env', execLines q env (tail.map sumLine) = .ok env' ∧ ∀ s, s ∉ tail.map (·.symbol) → env' s = env s
  | [], env, _ => ⟨env, rfl, fun _ _ => rfl⟩
  | v :: tail, env, h => by
    obtain ⟨e, he, hs⟩ := sumLine_eq (h v (by simp)).1
    obtain ⟨env', h1, h2⟩ := run_sumLines q tail (fkSet env v.symbol (e.eval fun s => (env s).getD 0)) (by
      intro w hw
      refine ⟨(h w (by simp [hw])).1, fun d hd => ?_⟩
      have := (h w (by simp [hw])).2 d hd
      simp only [fkSet]
      split <;> simp_all)
    refine ⟨env', ?_, ?_⟩
    · rw [List.map_cons, he, execLines, execLine, if_pos]
      · exact h1
      · intro s hse
        obtain ⟨d, hd, rfl⟩ := hs s hse
        exact (h v (by simp)).2 d hd
    · intro s hs'
      simp only [List.map_cons, List.mem_cons, not_or] at hs'
      rw [h2 s hs'.2]; simp [fkSet, hs'.1]

/-! ## The symbols of T06 -/

theorem linkS_has (r : DHRow) (i j : Fin 4) (x : String) (h : (linkS r i j).has x = true) :
    r.al.has x = true ∨ r.a.has x = true ∨ r.d.has x = true ∨ r.th.has x = true := by
  revert h
  fin_cases i <;> fin_cases j <;>
    simp [linkS, Expr.has, zero, one, mulE, Kin.negE, sinE, cosE] <;> tauto

theorem mulS_has {A B : SM4} {Q : String → Prop} (hA : ∀ i j x, (A i j).has x = true → Q x) (hB : ∀ i j x, (B i j).has x = true → Q x) :
    ∀ i j x, (mulS A B i j).has x = true → Q x := by
  intro i j x hx
  simp only [mulS, addE, mulE, Expr.has, Bool.or_eq_true] at hx
  rcases hx with ((((h | h) | (h | h)) | (h | h)) | (h | h))
  all_goals first | exact hA _ _ _ h | exact hB _ _ _ h

theorem t06_has {P : SymOps} (hP : GoodOps P) {dh : Fin 6 → DHRow} {Q : String → Prop}
    (hd : ∀ i x, ((dh i).al.has x = true ∨ (dh i).a.has x = true ∨ (dh i).d.has x = true ∨ (dh i).th.has x = true) → Q x)
    (ho : ∀ x ∈ oddNames P dh, Q x) : ∀ i j x, (t06S P dh i j).has x = true → Q x := by
  have hmat : ∀ k i j x, (linkMat P dh k i j).has x = true → Q x := by
    intro k i j x hx
    rcases hP.sub_has _ _ _ (hP.simp_has _ _ hx) with h | ⟨p, hp, h⟩
    · exact hd k x (linkS_has _ _ _ _ (hP.simp_has _ _ h))
    · exact ho x (mem_oddNames.2 (Kin.alpha_has p hp x h))
  intro i j x hx
  exact mulS_has (mulS_has (mulS_has (mulS_has (mulS_has (hmat 0) (hmat 1)) (hmat 2)) (hmat 3)) (hmat 4)) (hmat 5) i j x (hP.simp_has _ _ hx)

theorem armPose_congr {v w : String → ℝ} {dh : Fin 6 → DHRow}
    (h : ∀ i x, ((dh i).al.has x = true ∨ (dh i).a.has x = true ∨ (dh i).d.has x = true ∨ (dh i).th.has x = true) → v x = w x) :
    armPose v dh = armPose w dh := by
  have h1 : ∀ i, (dh i).al.eval v = (dh i).al.eval w := fun i => Expr.eval_congr fun s hs => h i s (.inl hs)
  have h2 : ∀ i, (dh i).a.eval v = (dh i).a.eval w := fun i => Expr.eval_congr fun s hs => h i s (.inr (.inl hs))
  have h3 : ∀ i, (dh i).d.eval v = (dh i).d.eval w := fun i => Expr.eval_congr fun s hs => h i s (.inr (.inr (.inl hs)))
  have h4 : ∀ i, (dh i).th.eval v = (dh i).th.eval w := fun i => Expr.eval_congr fun s hs => h i s (.inr (.inr (.inr hs)))
  simp only [armPose, h1, h2, h3, h4]

/-! ## The program computes the pose -/

theorem given_pi (d : Arm) (q : String → ℝ) : given d q "pi" = Real.pi := by simp [given]

/-- The program of a first run, for all joint values. -/
theorem printed_first {P : SymOps} (hP : GoodOps P) {d : Arm} (hd : Proper d) {tail : List Kin.Var} (ht : SumsOver d.vars tail) (q : String → ℝ) :
    ∃ f, writeFk P (addParams P d.dh d.params) (addValues P d.dh d.pvals) (d.vars ++ tail) d.dh = .ok f ∧ printed f q = .ok (armPose (given d q) d.dh) := by
  obtain ⟨hca, hother⟩ := dget_addValues P d.dh d.pvals
  have hpo : ∀ p ∈ d.params, p ∉ oddNames P d.dh := by
    intro p hp hm
    obtain ⟨i, -, h | h⟩ := mem_oddNames.1 hm
    · exact ((hd.names p hp).2.2.2 i).1 h
    · exact ((hd.names p hp).2.2.2 i).2 h
  have hvo : ∀ x ∈ d.vars.map (·.symbol), x ∉ oddNames P d.dh ∧ x ≠ "pi" := by
    intro x hx
    obtain ⟨v, hv, rfl⟩ := List.mem_map.1 hx
    obtain ⟨e, -, hs | hs⟩ := hd.numbered.named v hv
    · refine ⟨fun hm => ?_, fun h => pi_ne_th [e] (h.symm.trans hs)⟩
      obtain ⟨i, -, h | h⟩ := mem_oddNames.1 hm
      · exact (ca_ne_th i [e]).1 (h.symm.trans hs)
      · exact (ca_ne_th i [e]).2 (h.symm.trans hs)
    · refine ⟨fun hm => ?_, fun h => pi_ne_d e (h.symm.trans hs)⟩
      obtain ⟨i, -, h | h⟩ := mem_oddNames.1 hm
      · exact (ca_ne_d i e).1 (h.symm.trans hs)
      · exact (ca_ne_d i e).2 (h.symm.trans hs)
  have htail : ∀ x ∈ tail.map (·.symbol), x ≠ "pi" ∧ x ∉ d.params ∧ x ∉ oddNames P d.dh ∧ x ∉ d.vars.map (·.symbol) := by
    intro x hx
    obtain ⟨v, hv, rfl⟩ := List.mem_map.1 hx
    obtain ⟨hs, hl, -⟩ := ht v hv
    refine ⟨fun h => pi_ne_th v.n (h.symm.trans hs), fun h => (hd.names _ h).2.2.1 v.n hl hs, fun hm => ?_, fun hm => ?_⟩
    · obtain ⟨i, -, h | h⟩ := mem_oddNames.1 hm
      · exact (ca_ne_th i v.n).1 (h.symm.trans hs)
      · exact (ca_ne_th i v.n).2 (h.symm.trans hs)
    · obtain ⟨w, hw, e⟩ := List.mem_map.1 hm
      obtain ⟨d', -, h | h⟩ := hd.numbered.named w hw
      · have := Kin.thName_inj ((h.symm.trans e).trans hs)
        rw [← this] at hl; simp at hl
      · exact Out.thName_ne_dName v.n d' ((hs.symm.trans e.symm).trans h)
  have hval : ∀ p ∈ addParams P d.dh d.params, ∃ e, dget (addValues P d.dh d.pvals) p = some e := by
    intro p hp
    rw [addParams_eq, List.mem_append] at hp
    rcases hp with hp | hp
    · obtain ⟨e, he, -⟩ := hd.values p hp
      exact ⟨e, by rw [hother p (hpo p hp), he]⟩
    · obtain ⟨i, hn, rfl | rfl⟩ := mem_oddNames.1 hp
      · exact ⟨_, (hca i hn).1⟩
      · exact ⟨_, (hca i hn).2⟩
  refine ⟨_, writeFk_ok hval hd.numbered ht, ?_⟩
  let f : String → Expr := fun p => (dget (addValues P d.dh d.pvals) p).getD zero
  have hfp : ∀ p ∈ d.params, ∃ e, dget d.pvals p = some e ∧ f p = e ∧ closed e := by
    intro p hp
    obtain ⟨e, he, hc⟩ := hd.values p hp
    exact ⟨e, he, by simp [f, hother p (hpo p hp), he], hc⟩
  have hfo : ∀ i, P.nice (d.dh i).al = false → f (caName i) = cosE (d.dh i).al ∧ f (saName i) = sinE (d.dh i).al := by
    intro i hn
    simp [f, hca i hn]
  -- parameters
  obtain ⟨e1, a1, a2, a3⟩ := run_assigns q f (· ∈ d.params) d.params startEnv (fun _ h => h) (by
    intro p hp s hs
    obtain ⟨e, -, h2, h3⟩ := hfp p hp
    rw [h2] at hs
    rw [h3 s hs]
    exact ⟨by simp [startEnv], fun hm => (hd.names _ hm).1 rfl⟩)
  have g1 : ∀ s, s = "pi" ∨ s ∈ d.params → e1 s = some (given d q s) := by
    intro s hs
    by_cases hp : s ∈ d.params
    · obtain ⟨e, h1, h2, h3⟩ := hfp s hp
      rw [a2 s hp, h2, given, if_neg (hd.names s hp).1, h1]
      congr 1
      exact Expr.eval_congr fun x hx => by rw [h3 x hx]; simp [startEnv, constEnv]
    · rw [a3 s hp, hs.resolve_right hp, given_pi]; simp [startEnv]
  have hal : ∀ i, (d.dh i).al.eval (fun s => (e1 s).getD 0) = (d.dh i).al.eval (given d q) := by
    intro i
    exact Expr.eval_congr fun s hs => by rw [g1 s (hd.alphas i s hs)]; rfl
  -- cosines and sines
  obtain ⟨e2, b1, b2, b3⟩ := run_assigns q f (· ∈ oddNames P d.dh) (oddNames P d.dh) e1 (fun _ h => h) (by
    intro p hp s hs
    have key : s = "pi" ∨ s ∈ d.params := by
      obtain ⟨i, hn, rfl | rfl⟩ := mem_oddNames.1 hp
      · rw [(hfo i hn).1] at hs; exact hd.alphas i s hs
      · rw [(hfo i hn).2] at hs; exact hd.alphas i s hs
    refine ⟨by rw [g1 s key]; simp, fun hm => ?_⟩
    rcases key with rfl | hp
    · obtain ⟨i, -, h | h⟩ := mem_oddNames.1 hm
      · exact (ca_ne_pi i).1 h.symm
      · exact (ca_ne_pi i).2 h.symm
    · exact hpo s hp hm)
  -- joint variables and sums
  obtain ⟨e3, c1, c2, c3⟩ := run_given q d.vars e2
  obtain ⟨e4, d1, d2⟩ := run_sumLines q tail e3 (by
    intro v hv
    obtain ⟨-, hl, hd'⟩ := ht v hv
    refine ⟨hl, fun x hx => ?_⟩
    have := c2 _ (hd' x hx)
    simp only at this
    rw [this]; simp)
  have f1 : ∀ s, s = "pi" ∨ s ∈ d.params → e4 s = some (given d q s) := by
    intro s hs
    have n1 : s ∉ oddNames P d.dh := by
      rcases hs with rfl | h
      · intro hm
        obtain ⟨i, -, h | h⟩ := mem_oddNames.1 hm
        · exact (ca_ne_pi i).1 h.symm
        · exact (ca_ne_pi i).2 h.symm
      · exact hpo s h
    have n2 : s ∉ d.vars.map (·.symbol) := by
      rcases hs with rfl | h
      · exact fun hm => (hvo _ hm).2 rfl
      · exact (hd.names s h).2.1
    have n3 : s ∉ tail.map (·.symbol) := by
      rcases hs with rfl | h
      · exact fun hm => (htail _ hm).1 rfl
      · exact fun hm => (htail _ hm).2.1 h
    rw [d2 s n3, c3 s n2, b3 s n1, g1 s hs]
  have f2 : ∀ s ∈ d.vars.map (·.symbol), e4 s = some (given d q s) := by
    intro s hs
    rw [d2 s fun hm => (htail s hm).2.2.2 hs]
    have hn : dget d.pvals s = none := by
      by_contra hc
      exact (hd.names s (hd.keys s hc)).2.1 hs
    have : given d q s = q s := by simp [given, hn, (hvo s hs).2]
    rw [this]
    obtain ⟨v, hv, rfl⟩ := List.mem_map.1 hs
    exact c2 v hv
  have f3 : ∀ p ∈ oddNames P d.dh, e4 p = some ((f p).eval fun s => (e1 s).getD 0) := by
    intro p hp
    rw [d2 p fun hm => (htail p hm).2.2.1 hp, c3 p fun hm => (hvo p hm).1 hp, b2 p hp]
  have hsym : ∀ i x, ((d.dh i).al.has x = true ∨ (d.dh i).a.has x = true ∨ (d.dh i).d.has x = true ∨ (d.dh i).th.has x = true) →
      e4 x = some (given d q x) := by
    intro i x hx
    have : x = "pi" ∨ x ∈ d.params ∨ x ∈ d.vars.map (·.symbol) := by
      rcases hx with h | h
      · rcases hd.alphas i x h with h | h
        · exact .inl h
        · exact .inr (.inl h)
      · exact hd.others i x h
    rcases this with h | h | h
    · exact f1 x (.inl h)
    · exact f1 x (.inr h)
    · exact f2 x h
  have hrun : execLines q startEnv ((addParams P d.dh d.params).map (fun p => Line.assign p (f p)) ++
      ((d.vars.map fun v => Line.given v.symbol) ++ tail.map sumLine)) = .ok e4 := by
    rw [addParams_eq, List.map_append, execLines_append, execLines_append, a1]
    simp only
    rw [b1]; simp only
    rw [execLines_append, c1]; simp only
    exact d1
  have hnocut : ¬ ∃ x, Line.cut x ∈ (addParams P d.dh d.params).map (fun p => Line.assign p (f p)) ++
      ((d.vars.map fun v => Line.given v.symbol) ++ tail.map sumLine) := by
    rintro ⟨x, hx⟩
    simp only [List.mem_append, List.mem_map, reduceCtorEq, and_false, exists_false, false_or] at hx
    obtain ⟨v, hv, he⟩ := hx
    obtain ⟨e, h1, -⟩ := sumLine_eq (ht v hv).2.1
    rw [h1] at he; cases he
  rw [printed, if_neg hnocut]
  show (match execLines q startEnv ((addParams P d.dh d.params).map (fun p => Line.assign p (f p)) ++
      ((d.vars.map fun v => Line.given v.symbol) ++ tail.map sumLine)) with | .error e => _ | .ok env => _) = _
  rw [hrun]
  simp only
  rw [if_pos]
  · congr 1
    have hpi : (fun s => (e4 s).getD 0) "pi" = Real.pi := by simp only [f1 "pi" (.inl rfl), given_pi, Option.getD_some]
    have hA : ∀ i, (d.dh i).al.eval (fun s => (e4 s).getD 0) = (d.dh i).al.eval (given d q) := fun i =>
      Expr.eval_congr fun s hs => by rw [hsym i s (.inl hs)]; rfl
    rw [Kin.eval_t06S hP hpi]
    · exact armPose_congr fun i x hx => by rw [hsym i x hx]; rfl
    · intro i hn
      refine ⟨?_, ?_⟩
      · show (e4 (caName i)).getD 0 = _
        rw [hA, ← hal, f3 _ (mem_oddNames.2 ⟨i, hn, .inl rfl⟩), (hfo i hn).1]; rfl
      · show (e4 (saName i)).getD 0 = _
        rw [hA, ← hal, f3 _ (mem_oddNames.2 ⟨i, hn, .inr rfl⟩), (hfo i hn).2]; rfl
  · refine t06_has hP (Q := fun s => e4 s ≠ none) (fun i x hx => by rw [hsym i x hx]; simp) fun x hx => by rw [f3 x hx]; simp

theorem soaMatrices_grown {O : Ops} {vars0 : List Kin.Var} (hb : Numbered vars0) (hang : ∀ e, Angular vars0 (O.find e)) : ∀ {ms ms' : List MEqn}
    {vars vars' : List Kin.Var} {aux aux' : List (String × Expr)}, Grown vars0 vars → soaMatrices O ms vars aux = .ok (ms', vars', aux') → Grown vars0 vars'
  | [], ms', vars, vars', aux, aux', hg, h => by
    simp only [soaMatrices, Except.ok.injEq, Prod.mk.injEq] at h
    obtain ⟨-, rfl, -⟩ := h
    exact hg
  | m :: ms, ms', vars, vars', aux, aux', hg, h => by
    simp only [soaMatrices] at h
    split at h
    · cases h
    · next l v1 x1 h1 =>
      split at h
      · cases h
      · next r v2 x2 h2 =>
        simp only [Except.ok.injEq, Prod.mk.injEq] at h
        obtain ⟨-, rfl, -⟩ := h
        exact soaMatrices_grown hb hang (Out.grown_transform hb hang hg h1) h2

theorem prepare_grown {O : Ops} {d : Arm} (hd : Proper d) (hang : ∀ e, Angular d.vars (O.find e)) {ms : List MEqn} {vars : List Kin.Var}
    {aux : List (String × Expr)} (h : prepare O d.dh d.vars = .ok (ms, vars, aux)) : ∃ tail, vars = d.vars ++ tail ∧ SumsOver d.vars tail := by
  unfold prepare at h
  split at h
  · cases h
  split at h
  · cases h
  split at h
  · cases h
  · next r hr =>
    cases h
    exact soaMatrices_grown hd.numbered hang ⟨[], by simp, fun v hv => by cases hv⟩ hr

theorem sameTable_iff (a b : Fin 6 → DHRow) : sameTable a b = true ↔ a = b := by
  simp only [sameTable, List.all_eq_true, List.mem_finRange, true_imp_iff, Bool.and_eq_true, beq_iff_eq]
  constructor
  · intro h
    funext i
    obtain ⟨⟨⟨h1, h2⟩, h3⟩, h4⟩ := h i
    cases ha : a i; cases hb : b i
    simp_all
  · rintro rfl i; simp

/-- **C79 (partial), first run.** For every proper description, in a directory without a pickle of that name: if the kinematics can be computed, fkOnly.py writes
a program, and for all values of the joint variables that the user writes into it, it prints the pose of the arm: the product of the six numerical link
transforms. (Sums of angles, named alphas and parameters included.) -/
theorem C79_first_run {O : Ops} (hP : GoodOps O.fk) {d : Arm} (hd : Proper d) (hang : ∀ e, Angular d.vars (O.find e)) {fs : Pickles} {name : String}
    (hn : fs name = none) {r : List MEqn × List Kin.Var × List (String × Expr)} (hr : prepare O d.dh d.vars = .ok r) :
    ∃ f, (fkOnly O fs name d).2 = .ok f ∧ ∀ q, printed f q = .ok (armPose (given d q) d.dh) := by
  obtain ⟨ms, vars, aux⟩ := r
  obtain ⟨tail, rfl, ht⟩ := prepare_grown hd hang hr
  obtain ⟨f, h1, -⟩ := printed_first hP hd ht (fun _ => 0)
  refine ⟨f, ?_, fun q => ?_⟩
  · simp only [fkOnly, hn, hr, h1, toEnding]
  · obtain ⟨f', h1', h2⟩ := printed_first hP hd ht q
    rw [h1] at h1'; cases h1'
    exact h2

/-- what a pickle of a name can hold if the name always had the same description -/
theorem history_inv {O : Ops} {name : String} {d : Arm} : ∀ (l : List (String × Arm)) (fs : Pickles),
    (∀ p ∈ l, p.1 = name → p.2 = d) →
    (∀ k, fs name = some k → ∃ ms aux, prepare O d.dh d.vars = .ok (ms, k.vars, aux) ∧ k.dh = d.dh ∧ k.pvals = addValues O.fk d.dh d.pvals) →
    ∀ k, fkHistory O fs l name = some k → ∃ ms aux, prepare O d.dh d.vars = .ok (ms, k.vars, aux) ∧ k.dh = d.dh ∧ k.pvals = addValues O.fk d.dh d.pvals
  | [], fs, _, h => h
  | (n, d') :: l, fs, hl, h => by
    refine history_inv l _ (fun p hp => hl p (by simp [hp])) ?_
    intro k hk
    unfold fkOnly at hk
    split at hk
    · exact h k hk
    · split at hk
      · exact h k hk
      · next vars _ hp =>
        dsimp only at hk
        split at hk
        · next e =>
          subst e
          cases hk
          have := hl (name, d') (by simp) rfl
          dsimp only at this
          subst this
          exact ⟨_, _, hp, rfl, rfl⟩
        · exact h k hk

/-- **C79 (partial), every history.** After any runs of the script, for any robots, in which this name had this description: if all alphas are multiples of
right angles and the kinematics can be computed, the next run of fkOnly.py writes a program that prints the pose of the arm for all joint values.
Missing: other alphas, and descriptions that changed (below). -/
theorem C79_every_run_partial {O : Ops} (hP : GoodOps O.fk) {d : Arm} (hd : Proper d) (hang : ∀ e, Angular d.vars (O.find e)) {name : String}
    (hist : List (String × Arm)) (hh : ∀ p ∈ hist, p.1 = name → p.2 = d) (hnice : ∀ i, O.fk.nice (d.dh i).al = true)
    {r : List MEqn × List Kin.Var × List (String × Expr)} (hr : prepare O d.dh d.vars = .ok r) :
    ∃ f, (fkOnly O (fkHistory O (fun _ => none) hist) name d).2 = .ok f ∧ ∀ q, printed f q = .ok (armPose (given d q) d.dh) := by
  cases hk : fkHistory O (fun _ => none) hist name with
  | none => exact C79_first_run hP hd hang hk hr
  | some k =>
    obtain ⟨ms, aux, hp, hdh, hpv⟩ := history_inv hist (fun _ => none) hh (by simp) k hk
    obtain ⟨f, h1, h2⟩ := C79_first_run (fs := fun _ => none) (name := name) hP hd hang rfl hp
    refine ⟨f, ?_, h2⟩
    rw [← h1]
    have hodd : oddNames O.fk d.dh = [] := by
      rw [List.eq_nil_iff_forall_not_mem]
      intro x hx
      obtain ⟨i, hi, -⟩ := mem_oddNames.1 hx
      rw [hnice i] at hi; cases hi
    have hpar : addParams O.fk d.dh d.params = d.params := by rw [addParams_eq, hodd, List.append_nil]
    simp only [fkOnly, hk, hp, hdh, (sameTable_iff _ _).2 rfl, if_true, hpv, hpar]

/-- **C79, safety.** Whatever was run before, for whatever robots and descriptions: if the script writes a program, the matrix in it is that of the table
described now; a pickle of another table ends the script. -/
theorem C79_described_table {O : Ops} {fs : Pickles} {name : String} {d : Arm} :
    (∀ f, (fkOnly O fs name d).2 = .ok f → f.T06 = t06S O.fk d.dh) ∧
    (∀ k, fs name = some k → k.dh ≠ d.dh → fkOnly O fs name d = (fs, .error .quit)) := by
  have hT : ∀ {params pvals vars dh f}, toEnding (writeFk O.fk params pvals vars dh) = .ok f → f.T06 = t06S O.fk dh := by
    intro params pvals vars dh f h
    unfold writeFk at h
    split at h
    · cases h
    · split at h
      · cases h
      · cases h; rfl
  refine ⟨fun f h => ?_, fun k hk hne => ?_⟩
  · unfold fkOnly at h
    split at h
    · split at h
      · next k _ hs =>
        rw [← (sameTable_iff _ _).1 hs]
        exact hT h
      · cases h
    · split at h
      · cases h
      · exact hT h
  · simp only [fkOnly, hk, if_neg (fun h => hne ((sameTable_iff _ _).1 h))]

/-! ## What goes wrong from the second run on -/

/-- The program without the cosines and sines of the alphas: it runs up to the matrix, and stops there. -/
theorem printed_without {P : SymOps} {d : Arm} (hd : Proper d) {tail : List Kin.Var} (ht : SumsOver d.vars tail)
    (hx : ∃ i j, ∃ x ∈ oddNames P d.dh, (t06S P d.dh i j).has x = true) (q : String → ℝ) :
    ∃ f, writeFk P d.params (addValues P d.dh d.pvals) (d.vars ++ tail) d.dh = .ok f ∧ printed f q = .error .nameError := by
  obtain ⟨hca, hother⟩ := dget_addValues P d.dh d.pvals
  have hpo : ∀ p ∈ d.params, p ∉ oddNames P d.dh := by
    intro p hp hm
    obtain ⟨i, -, h | h⟩ := mem_oddNames.1 hm
    · exact ((hd.names p hp).2.2.2 i).1 h
    · exact ((hd.names p hp).2.2.2 i).2 h
  have hval : ∀ p ∈ d.params, ∃ e, dget (addValues P d.dh d.pvals) p = some e := by
    intro p hp
    obtain ⟨e, he, -⟩ := hd.values p hp
    exact ⟨e, by rw [hother p (hpo p hp), he]⟩
  refine ⟨_, writeFk_ok hval hd.numbered ht, ?_⟩
  let f : String → Expr := fun p => (dget (addValues P d.dh d.pvals) p).getD zero
  obtain ⟨e1, a1, a2, a3⟩ := run_assigns q f (· ∈ d.params) d.params startEnv (fun _ h => h) (by
    intro p hp s hs
    obtain ⟨e, he, hc⟩ := hd.values p hp
    have : f p = e := by simp [f, hother p (hpo p hp), he]
    rw [this] at hs
    rw [hc s hs]
    exact ⟨by simp [startEnv], fun hm => (hd.names _ hm).1 rfl⟩)
  obtain ⟨e3, c1, c2, c3⟩ := run_given q d.vars e1
  obtain ⟨e4, d1, d2⟩ := run_sumLines q tail e3 (by
    intro v hv
    obtain ⟨-, hl, hd'⟩ := ht v hv
    refine ⟨hl, fun x hx => ?_⟩
    have := c2 _ (hd' x hx)
    simp only at this
    rw [this]; simp)
  obtain ⟨i, j, x, hxo, hxh⟩ := hx
  have hnone : e4 x = none := by
    obtain ⟨k, -, hk⟩ := mem_oddNames.1 hxo
    have n1 : x ∉ tail.map (·.symbol) := by
      intro hm
      obtain ⟨v, hv, e⟩ := List.mem_map.1 hm
      rw [(ht v hv).1] at e
      rcases hk with h | h
      · exact (ca_ne_th k v.n).1 (h.symm.trans e.symm)
      · exact (ca_ne_th k v.n).2 (h.symm.trans e.symm)
    have n2 : x ∉ d.vars.map (·.symbol) := by
      intro hm
      obtain ⟨v, hv, e⟩ := List.mem_map.1 hm
      obtain ⟨n, -, hs | hs⟩ := hd.numbered.named v hv <;> rcases hk with h | h
      · exact (ca_ne_th k [n]).1 ((h.symm.trans e.symm).trans hs)
      · exact (ca_ne_th k [n]).2 ((h.symm.trans e.symm).trans hs)
      · exact (ca_ne_d k n).1 ((h.symm.trans e.symm).trans hs)
      · exact (ca_ne_d k n).2 ((h.symm.trans e.symm).trans hs)
    rw [d2 x n1, c3 x n2, a3 x fun hm => hpo x hm hxo, startEnv, if_neg]
    rcases hk with rfl | rfl
    · exact (ca_ne_pi k).1
    · exact (ca_ne_pi k).2
  have hrun : execLines q startEnv (d.params.map (fun p => Line.assign p (f p)) ++
      ((d.vars.map fun v => Line.given v.symbol) ++ tail.map sumLine)) = .ok e4 := by
    rw [execLines_append, a1]
    simp only
    rw [execLines_append, c1]; simp only
    exact d1
  have hnocut : ¬ ∃ x, Line.cut x ∈ d.params.map (fun p => Line.assign p (f p)) ++
      ((d.vars.map fun v => Line.given v.symbol) ++ tail.map sumLine) := by
    rintro ⟨x, hx⟩
    simp only [List.mem_append, List.mem_map, reduceCtorEq, and_false, exists_false, false_or] at hx
    obtain ⟨v, hv, he⟩ := hx
    obtain ⟨e, h1, -⟩ := sumLine_eq (ht v hv).2.1
    rw [h1] at he; cases he
  rw [printed, if_neg hnocut]
  show (match execLines q startEnv (d.params.map (fun p => Line.assign p (f p)) ++
      ((d.vars.map fun v => Line.given v.symbol) ++ tail.map sumLine)) with | .error e => _ | .ok env => _) = _
  rw [hrun]
  simp only
  rw [if_neg fun h => h i j x hxh hnone]

/-- **C79 violated.** For every arm whose pose depends on an alpha that is no multiple of a right angle (`T06` contains some `ca_i` or `sa_i`): the second run
of fkOnly.py, with the same description, writes a program that raises NameError, for all joint values. -/
theorem C79_second_run_violation {O : Ops} {d : Arm} (hd : Proper d) (hang : ∀ e, Angular d.vars (O.find e)) (name : String)
    (hx : ∃ i j, ∃ x ∈ oddNames O.fk d.dh, (t06S O.fk d.dh i j).has x = true)
    {r : List MEqn × List Kin.Var × List (String × Expr)} (hr : prepare O d.dh d.vars = .ok r) :
    ∃ f, (fkOnly O (fkHistory O (fun _ => none) [(name, d)]) name d).2 = .ok f ∧ ∀ q, printed f q = .error .nameError := by
  obtain ⟨ms, vars, aux⟩ := r
  obtain ⟨tail, rfl, ht⟩ := prepare_grown hd hang hr
  obtain ⟨f, h1, -⟩ := printed_without hd ht hx (fun _ => 0)
  refine ⟨f, ?_, fun q => ?_⟩
  · have hk : fkHistory O (fun _ => none) [(name, d)] name = some ⟨d.dh, addValues O.fk d.dh d.pvals, d.vars ++ tail⟩ := by
      simp only [fkHistory, fkOnly, hr, if_true]
    simp only [fkOnly, hk, (sameTable_iff _ _).2 rfl, if_true, h1, toEnding]
  · obtain ⟨f', h1', h2⟩ := printed_without hd ht hx q
    rw [h1] at h1'; cases h1'
    exact h2

/-- **C79 violated.** The values of the parameters are not compared: if they are changed in the description after a run, the program of the next run prints
the pose of the arm as it was before. -/
theorem C79_stale_values_violation {O : Ops} (hP : GoodOps O.fk) {d : Arm} (hd : Proper d) (hang : ∀ e, Angular d.vars (O.find e)) (name : String)
    (hnice : ∀ i, O.fk.nice (d.dh i).al = true) {r : List MEqn × List Kin.Var × List (String × Expr)} (hr : prepare O d.dh d.vars = .ok r)
    (pvals : List (String × Expr)) :
    ∃ f, (fkOnly O (fkHistory O (fun _ => none) [(name, d)]) name { d with pvals := pvals }).2 = .ok f ∧
      ∀ q, printed f q = .ok (armPose (given d q) d.dh) := by
  obtain ⟨f, h1, h2⟩ := C79_every_run_partial hP hd hang (name := name) [(name, d)] (by
    intro p hp
    simp only [List.mem_singleton] at hp
    subst hp; intro _; rfl) hnice hr
  refine ⟨f, ?_, h2⟩
  obtain ⟨ms, vars, aux⟩ := r
  have hk : fkHistory O (fun _ => none) [(name, d)] name = some ⟨d.dh, addValues O.fk d.dh d.pvals, vars⟩ := by
    simp only [fkHistory, fkOnly, hr, if_true]
  rw [← h1]
  simp only [fkOnly, hk]

end Verif.Main
