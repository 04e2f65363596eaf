import Verif.Out.FkModel
import Verif.Out.RobotProps
import Verif.Kin.SoaProps
/-!
# C59: the generated forward kinematics program

What is claimed: for every robot, the program assigns every parameter its value, every joint variable the value the user gives, and every
sum-of-angles variable the sum of the joint angles in its subscript; so the printed `T06` is the forward kinematics at those values.
-/
namespace Verif.Out
open Verif.Kin Verif.Sym

/-- `d_` followed by a digit: the name of a translation -/
def dName (d : Fin 10) : String := String.ofList ['d', '_', Nat.digitChar d.val]

/-- Joint variables as the robots have them: numbered with different digits, a rotation is named `th_<n>`, a translation `d_<n>`. -/
structure Numbered (vars : List Kin.Var) : Prop where
  named : ∀ v ∈ vars, ∃ d : Fin 10, v.n = [d] ∧ (v.symbol = thName [d] ∨ v.symbol = dName d)
  nodup : (vars.map (·.n)).Nodup

/-- Sum-of-angles variables over the joint variables `vars`. -/
def SumsOver (vars tail : List Kin.Var) : Prop :=
  ∀ v ∈ tail, v.symbol = thName v.n ∧ 2 ≤ v.n.length ∧ ∀ d ∈ v.n, (⟨thName [d], [d]⟩ : Kin.Var) ∈ vars

/-! ## Names -/

theorem digit_ne_us (d : Fin 10) : Nat.digitChar d.val ≠ '_' := by revert d; decide
theorem digit_inj {a b : Fin 10} (h : Nat.digitChar a.val = Nat.digitChar b.val) : a = b := by revert a b; decide
theorem digit_ne (d : Fin 10) : Nat.digitChar d.val ≠ 't' ∧ Nat.digitChar d.val ≠ 'h' ∧ Nat.digitChar d.val ≠ 'd' := by revert d; decide

theorem splitU_plain : ∀ l : List Char, '_' ∉ l → splitU l = [l]
  | [], _ => rfl
  | c :: cs, h => by
    simp only [List.mem_cons, not_or] at h
    rw [splitU, if_neg (fun e => h.1 e.symm), splitU_plain cs h.2]

theorem digits_plain (n : List (Fin 10)) : '_' ∉ n.map (fun d => Nat.digitChar d.val) := by
  simp only [List.mem_map, not_exists, not_and]
  exact fun d _ => digit_ne_us d

theorem thName_toList (n : List (Fin 10)) : (thName n).toList = 't' :: 'h' :: '_' :: n.map (fun d => Nat.digitChar d.val) := by
  simp [thName]

theorem splitU_th (n : List (Fin 10)) : splitU (thName n).toList = [['t', 'h'], n.map (fun d => Nat.digitChar d.val)] := by
  rw [thName_toList]
  have := splitU_plain _ (digits_plain n)
  simp [splitU, this]

theorem splitU_d (d : Fin 10) : splitU (dName d).toList = [['d'], [Nat.digitChar d.val]] := by
  have h := digit_ne_us d
  simp [dName, splitU, h]

theorem contains_th (d : Fin 10) (n : List (Fin 10)) : (thName n).toList.contains (Nat.digitChar d.val) = n.contains d := by
  have h := digit_ne d
  have hu := digit_ne_us d
  rw [Bool.eq_iff_iff, List.contains_iff_mem, List.contains_iff_mem, thName_toList]
  simp only [List.mem_cons, h.1, h.2.1, hu, false_or, List.mem_map]
  constructor
  · rintro ⟨a, ha, he⟩; rwa [← digit_inj he]
  · exact fun ha => ⟨d, ha, rfl⟩

theorem contains_d (d e : Fin 10) : (dName e).toList.contains (Nat.digitChar d.val) = decide (d = e) := by
  have h := digit_ne d
  have hu := digit_ne_us d
  rw [Bool.eq_iff_iff, List.contains_iff_mem]
  simp only [dName, String.toList_ofList, List.mem_cons, h.2.2, hu, false_or, List.not_mem_nil, or_false, decide_eq_true_eq]
  exact ⟨fun he => digit_inj he, fun he => by rw [he]⟩

theorem thName_ne_dName (n : List (Fin 10)) (d : Fin 10) : thName n ≠ dName d := by
  intro h
  have := congrArg String.toList h
  rw [thName_toList] at this
  simp [dName] at this

/-! ## The generated statements -/

/-- a variable that is a candidate of the inner loop -/
def cand (d : Fin 10) (v : Kin.Var) : Bool := decide (v.n = [d])

theorem fkTerms_eq (d : Fin 10) : ∀ {vs : List Kin.Var},
    (∀ v ∈ vs, (∃ e : Fin 10, v.n = [e] ∧ (v.symbol = thName [e] ∨ v.symbol = dName e)) ∨ (v.symbol = thName v.n ∧ 2 ≤ v.n.length)) →
    fkTerms (Nat.digitChar d.val) (vs.map (·.symbol)) = .ok ((vs.filter (cand d)).map (·.symbol))
  | [], _ => rfl
  | v :: vs, h => by
    have ih := fkTerms_eq d (vs := vs) fun w hw => h w (by simp [hw])
    rw [List.map_cons, fkTerms, List.filter_cons]
    rcases h v (by simp) with ⟨e, hn, hs | hs⟩ | ⟨hs, hl⟩
    · rw [hs, contains_th, splitU_th, ih]
      by_cases hde : d = e
      · subst hde; simp [cand, hn, hs]
      · have h1 : ([e] : List (Fin 10)).contains d = false := by simp [hde]
        have h2 : cand d v = false := by simp [cand, hn, Ne.symm hde]
        rw [h1, h2]; rfl
    · rw [hs, contains_d, splitU_d, ih]
      by_cases hde : d = e
      · subst hde; simp [cand, hn, hs]
      · have h2 : cand d v = false := by simp [cand, hn, Ne.symm hde]
        rw [h2]; simp [hde]
    · rw [hs, contains_th, splitU_th, ih]
      have h2 : cand d v = false := by
        simp only [cand, decide_eq_false_iff_not]
        intro e; rw [e] at hl; simp at hl
      rw [h2]
      have h3 : v.n.length ≠ 1 := by omega
      split
      · simp [h3]
      · rfl

theorem filter_single {α β : Type} [DecidableEq β] {f : α → β} : ∀ {l : List α} {x : α}, (l.map f).Nodup → x ∈ l →
    l.filter (fun y => decide (f y = f x)) = [x]
  | [], x, _, hx => by cases hx
  | a :: l, x, hd, hx => by
    rw [List.map_cons, List.nodup_cons] at hd
    rw [List.filter_cons]
    rcases List.mem_cons.1 hx with rfl | hx
    · simp only [decide_true, if_true]
      congr 1
      rw [List.filter_eq_nil_iff]
      intro y hy hyx
      exact hd.1 (List.mem_map.2 ⟨y, hy, by simpa using hyx⟩)
    · have : f a ≠ f x := fun e => hd.1 (List.mem_map.2 ⟨x, hx, e.symm⟩)
      rw [if_neg (by simpa using this)]
      exact filter_single hd.2 hx

theorem mapM_ok {α β ε : Type} {f : α → Except ε β} {g : α → β} : ∀ {l : List α}, (∀ a ∈ l, f a = .ok (g a)) → l.mapM f = .ok (l.map g)
  | [], _ => rfl
  | a :: l, h => by
    rw [List.mapM_cons, h a (by simp), mapM_ok fun b hb => h b (by simp [hb])]
    rfl

section
variable {vars tail : List Kin.Var}

theorem shapes (hv : Numbered vars) (ht : SumsOver vars tail) : ∀ v ∈ vars ++ tail,
    (∃ e : Fin 10, v.n = [e] ∧ (v.symbol = thName [e] ∨ v.symbol = dName e)) ∨ (v.symbol = thName v.n ∧ 2 ≤ v.n.length) := by
  intro v h
  rcases List.mem_append.1 h with h | h
  · exact .inl (hv.named v h)
  · exact .inr ⟨(ht v h).1, (ht v h).2.1⟩

theorem fkVar_base (hv : Numbered vars) {v : Kin.Var} (h : v ∈ vars) (vs : List String) : fkVar vs v.symbol = .ok [.dummy v.symbol] := by
  obtain ⟨e, hn, hs | hs⟩ := hv.named v h
  · rw [fkVar, hs, splitU_th]; simp
  · rw [fkVar, hs, splitU_d]; simp

theorem fkVar_sum (hv : Numbered vars) (ht : SumsOver vars tail) {v : Kin.Var} (h : v ∈ tail) :
    fkVar ((vars ++ tail).map (·.symbol)) v.symbol = .ok [.sum v.symbol (v.n.map fun d => thName [d])] := by
  obtain ⟨hs, hl, hd⟩ := ht v h
  have key : ∀ d ∈ v.n, fkTerms (Nat.digitChar d.val) ((vars ++ tail).map (·.symbol)) = .ok [thName [d]] := by
    intro d hdn
    rw [fkTerms_eq d (shapes hv ht)]
    have h1 : tail.filter (cand d) = [] := by
      rw [List.filter_eq_nil_iff]
      intro w hw hc
      have := (ht w hw).2.1
      simp only [cand, decide_eq_true_eq] at hc
      rw [hc] at this; simp at this
    have h2 : vars.filter (cand d) = [⟨thName [d], [d]⟩] := 
      (filter_single (f := fun v : Kin.Var => v.n) hv.nodup (hd d hdn) :)
    rw [List.filter_append, h1, h2]; rfl
  rw [fkVar, hs, splitU_th]
  simp only [List.getElem?_cons_succ, List.getElem?_cons_zero, List.length_map]
  rw [if_pos (by omega), List.mapM_map]
  have := mapM_ok (f := fun d : Fin 10 => fkTerms (Nat.digitChar d.val) ((vars ++ tail).map (·.symbol))) (g := fun d => [thName [d]]) key
  have h3 : (fun s => fkTerms s ((vars ++ tail).map (·.symbol))) ∘ (fun d : Fin 10 => Nat.digitChar d.val) =
    fun d : Fin 10 => fkTerms (Nat.digitChar d.val) ((vars ++ tail).map (·.symbol)) := rfl
  rw [h3, this]
  simp only [Except.ok.injEq, List.cons.injEq, FkStmt.sum.injEq, true_and, and_true]
  rw [← List.flatMap_def, ← List.map_eq_flatMap]

/-- the statements of the program -/
theorem fkCode_eq (hv : Numbered vars) (ht : SumsOver vars tail) {params : List String} {pvals : List (String × String)}
    (hp : ∀ p ∈ params, ∃ t, pvals.lookup p = some t) :
    fkCode params pvals ((vars ++ tail).map (·.symbol)) = .ok (params.map (fun p => .decl p ((pvals.lookup p).getD "")) ++
      vars.map (fun v => .dummy v.symbol) ++ tail.map (fun v => .sum v.symbol (v.n.map fun d => thName [d]))) := by
  have h1 : fkDecls pvals params = .ok (params.map (fun p => .decl p ((pvals.lookup p).getD ""))) := by
    unfold fkDecls
    split
    · rename_i he
      cases params with
      | nil => rfl
      | cons p ps =>
        obtain ⟨t, ht⟩ := hp p (by simp)
        rw [List.isEmpty_iff.1 he] at ht; simp at ht
    · refine mapM_ok fun p hpm => ?_
      obtain ⟨t, ht⟩ := hp p hpm
      simp [ht]
  have h2 : ((vars ++ tail).map (·.symbol)).mapM (fkVar ((vars ++ tail).map (·.symbol))) =
      .ok ((vars.map fun v => [FkStmt.dummy v.symbol]) ++ tail.map fun v => [.sum v.symbol (v.n.map fun d => thName [d])]) := by
    rw [List.mapM_map, List.mapM_append,
      mapM_ok (l := vars) (f := fkVar ((vars ++ tail).map fun v : Kin.Var => v.symbol) ∘ fun v : Kin.Var => v.symbol) (g := fun v : Kin.Var => [FkStmt.dummy v.symbol]) (fun v h => fkVar_base hv h _),
      mapM_ok (l := tail) (f := fkVar ((vars ++ tail).map fun v : Kin.Var => v.symbol) ∘ fun v : Kin.Var => v.symbol) (g := fun v : Kin.Var => [.sum v.symbol (v.n.map fun d => thName [d])]) (fun v h => fkVar_sum hv ht h)]
    rfl
  unfold fkCode
  rw [h1, h2]
  simp only [Except.ok.injEq]
  rw [List.flatten_append, ← List.flatMap_def, ← List.flatMap_def, ← List.map_eq_flatMap, ← List.map_eq_flatMap, List.append_assoc]

/-! ## Running it -/

theorem fkRun_append {V : Type} [Add V] (num q : String → V) (a b : List FkStmt) (env : String → Option V) :
    fkRun num q env (a ++ b) = match fkRun num q env a with
      | .error e => .error e
      | .ok env' => fkRun num q env' b := by
  induction a generalizing env with
  | nil => rfl
  | cons o os ih =>
    rw [List.cons_append, fkRun, fkRun]
    cases fkStep num q env o with
    | error e => rfl
    | ok env' => exact ih env'

theorem run_decls {V : Type} [Add V] (num q : String → V) (f : String → String) : ∀ (ps : List String) (env : String → Option V),
    ∃ env', fkRun num q env (ps.map fun p => .decl p (f p)) = .ok env' ∧ (∀ p ∈ ps, env' p = some (num (f p))) ∧
      ∀ s, s ∉ ps → env' s = env s
  | [], env => ⟨env, rfl, by simp, fun _ _ => rfl⟩
  | p :: ps, env => by
    obtain ⟨env', h1, h2, h3⟩ := run_decls num q f ps (fkSet env p (num (f p)))
    refine ⟨env', by simpa [fkRun, fkStep] using h1, ?_, ?_⟩
    · intro p' hp'
      by_cases hm : p' ∈ ps
      · exact h2 p' hm
      · rcases List.mem_cons.1 hp' with rfl | h
        · rw [h3 _ hm]; simp [fkSet]
        · exact absurd h hm
    · intro s hs
      simp only [List.mem_cons, not_or] at hs
      rw [h3 s hs.2]; simp [fkSet, hs.1]

theorem run_dummies {V : Type} [Add V] (num q : String → V) : ∀ (vs : List String) (env : String → Option V),
    ∃ env', fkRun num q env (vs.map .dummy) = .ok env' ∧ (∀ p ∈ vs, env' p = some (q p)) ∧ ∀ s, s ∉ vs → env' s = env s
  | [], env => ⟨env, rfl, by simp, fun _ _ => rfl⟩
  | p :: ps, env => by
    obtain ⟨env', h1, h2, h3⟩ := run_dummies num q ps (fkSet env p (q p))
    refine ⟨env', by simpa [fkRun, fkStep] using h1, ?_, ?_⟩
    · intro p' hp'
      by_cases hm : p' ∈ ps
      · exact h2 p' hm
      · rcases List.mem_cons.1 hp' with rfl | h
        · rw [h3 _ hm]; simp [fkSet]
        · exact absurd h hm
    · intro s hs
      simp only [List.mem_cons, not_or] at hs
      rw [h3 s hs.2]; simp [fkSet, hs.1]

theorem fkSum_eq {env : String → Option ℝ} {q : String → ℝ} : ∀ {n : List (Fin 10)} (acc : ℝ), (∀ d ∈ n, env (thName [d]) = some (q (thName [d]))) →
    fkSum env acc (n.map fun d => thName [d]) = .ok (acc + angleSum q n)
  | [], acc, _ => by simp [fkSum, angleSum]
  | d :: n, acc, h => by
    rw [List.map_cons, fkSum, h d (by simp)]
    simp only
    rw [fkSum_eq _ fun e he => h e (by simp [he])]
    simp [angleSum, add_assoc]

theorem run_sums (num q : String → ℝ) : ∀ (tail : List Kin.Var) (env : String → Option ℝ),
    (∀ v ∈ tail, v.symbol = thName v.n ∧ 2 ≤ v.n.length ∧ ∀ d ∈ v.n, env (thName [d]) = some (q (thName [d]))) →
    ∃ env', fkRun num q env (tail.map fun v => .sum v.symbol (v.n.map fun d => thName [d])) = .ok env' ∧
      (∀ v ∈ tail, env' v.symbol = some (angleSum q v.n)) ∧ ∀ s, s ∉ tail.map (·.symbol) → env' s = env s
  | [], env, _ => ⟨env, rfl, by simp, fun _ _ => rfl⟩
  | v :: tail, env, h => by
    obtain ⟨hs, hl, hd⟩ := h v (by simp)
    have hstep : fkStep num q env (.sum v.symbol (v.n.map fun d => thName [d])) = .ok (fkSet env v.symbol (angleSum q v.n)) := by
      match hn : v.n, hl with
      | d :: n, _ =>
        rw [hn] at hd
        simp only [List.map_cons, fkStep, hd d (by simp)]
        rw [fkSum_eq _ fun e he => hd e (by simp [he])]
        simp [angleSum]
    have hset : ∀ d : Fin 10, fkSet env v.symbol (angleSum q v.n) (thName [d]) = env (thName [d]) := by
      intro d
      have : thName [d] ≠ v.symbol := by
        rw [hs]; intro e
        have := thName_inj e
        rw [← this] at hl; simp at hl
      simp [fkSet, this]
    obtain ⟨env', h1, h2, h3⟩ := run_sums num q tail (fkSet env v.symbol (angleSum q v.n)) (by
      intro w hw
      obtain ⟨a, b, c⟩ := h w (by simp [hw])
      exact ⟨a, b, fun d hd => by rw [hset]; exact c d hd⟩)
    refine ⟨env', by rw [List.map_cons, fkRun, hstep]; exact h1, ?_, ?_⟩
    · intro w hw
      rcases List.mem_cons.1 hw with rfl | hw
      · by_cases hm : w.symbol ∈ tail.map (·.symbol)
        · obtain ⟨u, hu, hus⟩ := List.mem_map.1 hm
          have : u.n = w.n := by
            rw [(h u (by simp [hu])).1, hs] at hus
            exact thName_inj hus
          rw [← hus, h2 u hu, this]
        · rw [h3 _ hm]; simp [fkSet]
      · exact h2 w hw
    · intro s hs'
      simp only [List.map_cons, List.mem_cons, not_or] at hs'
      rw [h3 s hs'.2]; simp [fkSet, hs'.1]

/-- **C59 for numbered variables (partial).** The program exists, runs, and leaves every parameter, every joint variable and every sum of angles
with the right value. Missing: other names of variables (below). -/
theorem C59_values_partial (hv : Numbered vars) (ht : SumsOver vars tail) (params : List String) (pvals : List (String × String))
    (hp : ∀ p ∈ params, ∃ t, pvals.lookup p = some t) (hdis : ∀ p ∈ params, p ∉ (vars ++ tail).map (·.symbol)) (num q : String → ℝ) :
    ∃ ops env, fkCode params pvals ((vars ++ tail).map (·.symbol)) = .ok ops ∧ fkExec num q ops = .ok env ∧
      (∀ p ∈ params, ∀ t, pvals.lookup p = some t → env p = some (num t)) ∧
      (∀ v ∈ vars, env v.symbol = some (q v.symbol)) ∧
      (∀ v ∈ tail, env v.symbol = some (v.n.map fun d => q (thName [d])).sum) := by
  obtain ⟨e1, a1, a2, a3⟩ := run_decls num q (fun p => (pvals.lookup p).getD "") params (fun _ => none)
  obtain ⟨e2, b1, b2, b3⟩ := run_dummies num q (vars.map (·.symbol)) e1
  obtain ⟨e3, c1, c2, c3⟩ := run_sums num q tail e2 (by
    intro v h
    obtain ⟨x, y, z⟩ := ht v h
    exact ⟨x, y, fun d hd => b2 _ (List.mem_map.2 ⟨_, z d hd, rfl⟩)⟩)
  have hnt : ∀ v ∈ vars, v.symbol ∉ tail.map (·.symbol) := by
    intro v h hm
    obtain ⟨w, hw, e⟩ := List.mem_map.1 hm
    obtain ⟨x, y, -⟩ := ht w hw
    rw [x] at e
    obtain ⟨d, -, hs | hs⟩ := hv.named v h
    · rw [hs] at e
      rw [thName_inj e] at y; simp at y
    · rw [hs] at e; exact thName_ne_dName _ _ e
  refine ⟨_, e3, fkCode_eq hv ht hp, ?_, ?_, ?_, ?_⟩
  · unfold fkExec
    rw [if_neg]
    · rw [fkRun_append, fkRun_append, a1]
      simp only
      rw [show (vars.map fun v => FkStmt.dummy v.symbol) = (vars.map (·.symbol)).map .dummy by simp [Function.comp_def], b1]
      exact c1
    · simp only [List.any_append, List.any_map, Bool.or_eq_true, not_or, List.any_eq_true, not_exists, not_and]
      refine ⟨⟨fun p _ h => (by cases h), fun p _ h => (by cases h)⟩, fun v hvt h => ?_⟩
      have hl := (ht v hvt).2.1
      match hn : v.n, hl with
      | d :: n, _ => simp [hn] at h
  · intro p hpm t htt
    have hd := hdis p hpm
    simp only [List.map_append, List.mem_append, not_or] at hd
    rw [c3 p hd.2, b3 p hd.1, a2 p hpm, htt]; rfl
  · intro v h
    rw [c3 _ (hnt v h), b2 _ (List.mem_map.2 ⟨v, h, rfl⟩)]
  · intro v h
    exact c2 v h

end

/-- the hypotheses are met by a robot with a translation and a sum of angles, and the program is the expected one -/
example : Numbered [⟨"d_1", [1]⟩, ⟨"th_2", [2]⟩, ⟨"th_3", [3]⟩] ∧ SumsOver [⟨"d_1", [1]⟩, ⟨"th_2", [2]⟩, ⟨"th_3", [3]⟩] [⟨"th_23", [2, 3]⟩] ∧
    (fkCode ["l_1"] [("l_1", "0.5")] ["d_1", "th_2", "th_3", "th_23"]).toOption =
      some [.decl "l_1" "0.5", .dummy "d_1", .dummy "th_2", .dummy "th_3", .sum "th_23" ["th_2", "th_3"]] := by
  refine ⟨⟨?_, by decide⟩, ?_, by decide +kernel⟩
  · intro v hv
    simp only [List.mem_cons, List.not_mem_nil, or_false] at hv
    rcases hv with rfl | rfl | rfl
    · exact ⟨1, rfl, .inr (by decide +kernel)⟩
    · exact ⟨2, rfl, .inl (by decide +kernel)⟩
    · exact ⟨3, rfl, .inl (by decide +kernel)⟩
  · intro v hv
    simp only [List.mem_cons, List.not_mem_nil, or_false] at hv
    subst hv
    exact ⟨by decide +kernel, by decide, by decide +kernel⟩

/-! ## The variables that the sum-of-angles transform adds -/

/-- What the list of variables looks like during the transform. -/
def Grown (vars0 vars : List Kin.Var) : Prop := ∃ tail, vars = vars0 ++ tail ∧ SumsOver vars0 tail

theorem Grown.digits {vars0 vars : List Kin.Var} (hb : Numbered vars0) (h : Grown vars0 vars) {v : Kin.Var} (hv : v ∈ vars)
    (hth : v ∈ vars0 → v.symbol = thName v.n) : ∀ d ∈ v.n, (⟨thName [d], [d]⟩ : Kin.Var) ∈ vars0 := by
  obtain ⟨tail, rfl, ht⟩ := h
  rcases List.mem_append.1 hv with hv | hv
  · intro d hd
    obtain ⟨e, hn, -⟩ := hb.named v hv
    rw [hn, List.mem_singleton] at hd
    subst hd
    have hs := hth hv
    rw [hn] at hs
    rw [← hs, ← hn]; exact hv
  · exact (ht v hv).2.2

theorem newIndex_digits {vars : List Kin.Var} {vl : List Expr} {ni : List (Fin 10)} (h : newIndex vars vl = .ok ni) :
    (∀ d ∈ ni, ∃ v ∈ vars, (∃ x ∈ vl, x = .sym v.symbol) ∧ d ∈ v.n) ∧ (ni.length ≤ 1 → ni ≠ [] → ∃ v ∈ vars, v.n = ni) := by
  unfold newIndex at h
  cases hl : vl.mapM (getVariableIndex vars) with
  | error e => rw [hl] at h; cases h
  | ok l =>
    rw [hl] at h
    have h2 : (sortStr l).flatten = ni := by injection h
    have hf := mapM_index_ok hl
    have hmem : ∀ n ∈ l, ∃ v ∈ vars, (∃ x ∈ vl, x = .sym v.symbol) ∧ v.n = n ∧ n ≠ [] := by
      clear hl h h2
      induction hf with
      | nil => intro n hn; cases hn
      | cons hx _ ih =>
        intro n hn
        rcases List.mem_cons.1 hn with rfl | hn
        · obtain ⟨v, hv, rfl, a, b⟩ := hx
          exact ⟨v, hv, ⟨_, List.mem_cons_self, rfl⟩, a, b⟩
        · obtain ⟨v, hv, ⟨x, hx, e⟩, a, b⟩ := ih n hn
          exact ⟨v, hv, ⟨x, List.mem_cons_of_mem _ hx, e⟩, a, b⟩
    constructor
    · intro d hd
      rw [← h2, List.mem_flatten] at hd
      obtain ⟨n, hn, hdn⟩ := hd
      obtain ⟨v, hv, hx, a, -⟩ := hmem n ((sortStr_perm l).mem_iff.1 hn)
      exact ⟨v, hv, hx, a ▸ hdn⟩
    · intro hle hne
      have hp := sortStr_perm l
      match hs : sortStr l with
      | [] => rw [hs] at h2; exact absurd h2.symm hne
      | [n] =>
        rw [hs] at h2 hp
        obtain ⟨v, hv, -, a, -⟩ := hmem n (hp.mem_iff.1 (by simp))
        exact ⟨v, hv, by rw [a, ← h2]; simp⟩
      | n :: m :: r =>
        rw [hs] at h2 hp
        obtain ⟨-, -, -, -, a⟩ := hmem n (hp.mem_iff.1 (by simp))
        obtain ⟨-, -, -, -, b⟩ := hmem m (hp.mem_iff.1 (by simp))
        rw [← h2] at hle
        have := List.length_pos_iff.2 a
        have := List.length_pos_iff.2 b
        simp only [List.flatten_cons, List.length_append] at hle
        omega

theorem grown_step {sub : Expr → Expr → Expr → Expr} {vars0 : List Kin.Var} (hb : Numbered vars0) {st st' : SoaSt} {m : Match}
    (hang : ∀ x ∈ varlist m, ∀ v ∈ vars0, x = .sym v.symbol → IsTh v) (hg : Grown vars0 st.vars) (h : soaStep sub st m = .ok st') :
    Grown vars0 st'.vars ∧ ∀ v ∈ st'.newjoint, v ∈ st'.vars ∧ ∃ tail, SumsOver vars0 tail ∧ v ∈ tail := by
  simp only [soaStep] at h
  split at h
  · split at h
    · cases h
    · cases h
    · next ni hne hni =>
      have hne : ni ≠ [] := fun h0 => hne h0
      cases h
      obtain ⟨hd, h1⟩ := newIndex_digits hni
      split
      · refine ⟨hg, ?_⟩
        intro v hv; cases hv
      · rename_i hex
        have hlen : 2 ≤ ni.length := by
          by_contra hc
          obtain ⟨v, hv, hvn⟩ := h1 (by omega) hne
          exact hex (List.any_eq_true.2 ⟨v, hv, by simp [hvn]⟩)
        have hdig : ∀ d ∈ ni, (⟨thName [d], [d]⟩ : Kin.Var) ∈ vars0 := by
          intro d hdn
          obtain ⟨v, hv, ⟨x, hx, e⟩, hdv⟩ := hd d hdn
          exact hg.digits hb hv (fun h0 => hang x hx v h0 e) d hdv
        obtain ⟨tail, ht, hs⟩ := hg
        have hs' : SumsOver vars0 (tail ++ [⟨thName ni, ni⟩]) := by
          intro v hv
          rcases List.mem_append.1 hv with hv | hv
          · exact hs v hv
          · rw [List.mem_singleton] at hv; subst hv
            exact ⟨rfl, hlen, hdig⟩
        refine ⟨⟨tail ++ [⟨thName ni, ni⟩], by simp [ht], hs'⟩, ?_⟩
        intro v hv
        cases hv
        exact ⟨by simp, tail ++ [⟨thName ni, ni⟩], hs', by simp⟩
  · cases h
    refine ⟨hg, ?_⟩
    intro v hv; cases hv

theorem grown_loop {sub : Expr → Expr → Expr → Expr} {vars0 : List Kin.Var} (hb : Numbered vars0) : ∀ {ms : List Match} {st st' : SoaSt},
    Angular vars0 ms → Grown vars0 st.vars → (∀ v ∈ st.newjoint, ∃ tail, SumsOver vars0 tail ∧ v ∈ tail) → soaLoop sub st ms = .ok st' →
    Grown vars0 st'.vars ∧ ∀ v ∈ st'.newjoint, ∃ tail, SumsOver vars0 tail ∧ v ∈ tail
  | [], st, st', _, hg, hn, h => by cases h; exact ⟨hg, hn⟩
  | m :: ms, st, st', ha, hg, hn, h => by
    rw [soaLoop] at h
    split at h
    · cases h
    · rename_i s1 h1
      obtain ⟨a, b⟩ := grown_step hb (fun x hx => ha m (by simp) x hx) hg h1
      exact grown_loop hb (fun m' hm' => ha m' (by simp [hm'])) a (fun v hv => (b v hv).2) h

theorem Grown.snoc {vars0 vars : List Kin.Var} (hg : Grown vars0 vars) {o : Option Kin.Var}
    (h : ∀ v ∈ o, ∃ tail, SumsOver vars0 tail ∧ v ∈ tail) : Grown vars0 (vars ++ o.toList) := by
  obtain ⟨tail, rfl, hs⟩ := hg
  refine ⟨tail ++ o.toList, by simp, ?_⟩
  intro v hv
  rcases List.mem_append.1 hv with hv | hv
  · exact hs v hv
  · obtain ⟨t, ht, hvt⟩ := h v (by simpa using hv)
    exact ht v hvt

theorem grown_transform {sub : Expr → Expr → Expr → Expr} {simp : Expr → Expr} {find : Expr → List Match} {vars0 : List Kin.Var}
    (hb : Numbered vars0) (hang : ∀ e, Angular vars0 (find e)) : ∀ {l l' : List (Expr × Expr)} {vars vars' : List Kin.Var}
    {aux aux' : List (String × Expr)}, Grown vars0 vars → soaTransform sub simp find l vars aux = .ok (l', vars', aux') → Grown vars0 vars'
  | [], l', vars, vars', aux, aux', hg, h => by cases h; exact hg
  | (td, ts) :: l, l', vars, vars', aux, aux', hg, h => by
    rw [soaTransform] at h
    split at h
    · cases h
    · rename_i td' ts' v1 a1 h1
      have hg1 : Grown vars0 v1 := by
        unfold soaElement at h1
        split at h1
        · cases h1
        · rename_i s1 e1
          split at h1
          · cases h1
          · rename_i s2 e2
            cases h1
            obtain ⟨a, b⟩ := grown_loop hb (fun m hm => hang _ m (mem_sortMatches hm)) (st := { expr := simp td, vars := vars, aux := aux }) hg
              (by intro v hv; cases hv) e1
            exact (grown_loop hb (fun m hm => hang _ m (mem_sortMatches hm))
              (st := { expr := simp ts, vars := s1.vars ++ s1.newjoint.toList, aux := s1.aux ++ s1.tmpeqn.toList }) (a.snoc b)
              (by intro v hv; cases hv) e2).1
      split at h
      · cases h
      · rename_i l1 v2 a2 h2
        cases h
        exact grown_transform hb hang hg1 h2

/-! ## Every robot -/

/-- what the variables of a robot's file mean: the parameters have the values of its description, the joint variables those given by the user -/
noncomputable def meaning (num q : String → ℝ) (pvals : List (String × String)) (s : String) : ℝ :=
  match pvals.lookup s with
  | some t => num t
  | none => q s

theorem table_numbered : ∀ name ∈ offered, name ≠ "Wrist" → ∀ d ∈ isOk (robotParams offered blocks name),
    (∀ v ∈ descVars d, ∃ e : Fin 10, v.n = [e] ∧ (v.symbol = thName [e] ∨ v.symbol = dName e)) ∧ ((descVars d).map (·.n)).Nodup := by
  decide +kernel

/-- parameters are not named like sums of angles -/
theorem table_params : ∀ name ∈ offered, ∀ d ∈ isOk (robotParams offered blocks name), ∀ p ∈ d.params,
    p.toList.head? ≠ some 't' ∧ p ∉ (descVars d).map (·.symbol) := by
  decide +kernel

/-- **C59 (partial).** For every robot of the table except `Wrist`, after the sum-of-angles transform of any equations: the generator
writes a program, the program runs, and every expression in the joint variables and parameters (so every element of `T06`) has
the value it has at the joint values given by the user; each sum of angles has the sum of its angles as value. Missing: `Wrist` (below),
and for `Mackler13` the elements with the undeclared `h`. -/
theorem C59_every_robot_partial (name : String) (hw : name ≠ "Wrist") (d : Desc) (hd : robotParams offered blocks name = .ok d)
    {sub : Expr → Expr → Expr → Expr} {simp : Expr → Expr} {find : Expr → List Match} (hang : ∀ e, Angular (descVars d) (find e))
    {l l' : List (Expr × Expr)} {vars : List Kin.Var} {aux : List (String × Expr)}
    (hs : soaTransform sub simp find l (descVars d) [] = .ok (l', vars, aux))
    (pvals : List (String × String)) (hpv : pvals.map (·.1) = d.pvals) (num q : String → ℝ) :
    ∃ ops env, fkCode d.params pvals (vars.map (·.symbol)) = .ok ops ∧ fkExec num q ops = .ok env ∧
      (∀ e : Expr, (∀ s, e.has s = true → s ∈ d.vars.map (·.1) ∨ s ∈ d.params) →
        (∀ s, e.has s = true → env s ≠ none) ∧ e.eval (fun s => (env s).getD 0) = e.eval (meaning num q pvals)) ∧
      (∀ v ∈ vars, 2 ≤ v.n.length → env v.symbol = some (v.n.map fun d => q (thName [d])).sum) := by
  have hm : name ∈ offered := by
    by_contra hm
    rw [robotParams_mem hm] at hd; cases hd
  have hdi : d ∈ isOk (robotParams offered blocks name) := by simp [hd, isOk]
  obtain ⟨n1, n2⟩ := table_numbered name hm hw d hdi
  have hnum : Numbered (descVars d) := ⟨n1, n2⟩
  obtain ⟨tail, rfl, ht⟩ := grown_transform hnum hang (vars := descVars d) ⟨[], by simp, fun v hv => by cases hv⟩ hs
  have hperm : d.pvals.Perm d.params := by
    by_cases h1 : name = "Chair6DOF"
    · subst h1
      have := (C49_undefined_violation "Chair6DOF" (by simp)).2
      rw [this] at hd; cases hd
    · by_cases h2 : name = "Issue4DZhang"
      · subst h2
        have := (C49_undefined_violation "Issue4DZhang" (by simp)).2
        rw [this] at hd; cases hd
      · obtain ⟨b, -, -, d', hd', -, hsane, -⟩ := table_ok name hm h1 h2
        rw [hd] at hd'; cases hd'
        exact hsane.2.2.2.2.2.1
  have hlk : ∀ p, (∃ t, pvals.lookup p = some t) ↔ p ∈ d.params := by
    intro p
    rw [← hperm.mem_iff, ← hpv]
    clear hpv
    induction pvals with
    | nil => simp
    | cons x xs ih =>
      obtain ⟨k, v⟩ := x
      rw [List.lookup_cons, List.map_cons, List.mem_cons]
      by_cases hk : p = k
      · subst hk; simp
      · have : (p == k) = false := by simpa using hk
        rw [this]; simp only [hk, false_or]; exact ih
  have htp := table_params name hm d hdi
  have hdis : ∀ p ∈ d.params, p ∉ (descVars d ++ tail).map (·.symbol) := by
    intro p hp hc
    rw [List.map_append, List.mem_append] at hc
    rcases hc with hc | hc
    · exact (htp p hp).2 hc
    · obtain ⟨v, hv, rfl⟩ := List.mem_map.1 hc
      have := (htp _ hp).1
      rw [(ht v hv).1, thName_toList] at this
      exact this rfl
  obtain ⟨ops, env, c1, c2, c3, c4, c5⟩ := C59_values_partial hnum ht d.params pvals (fun p hp => (hlk p).2 hp) hdis num q
  have hvars : (descVars d).map (·.symbol) = d.vars.map (·.1) := by simp [descVars, Function.comp_def]
  have hval : ∀ s, s ∈ d.vars.map (·.1) ∨ s ∈ d.params → env s = some (meaning num q pvals s) := by
    intro s hsm
    by_cases hp : s ∈ d.params
    · obtain ⟨t, htt⟩ := (hlk s).2 hp
      rw [c3 s hp t htt]; simp [meaning, htt]
    · have hv := hsm.resolve_right hp
      rw [← hvars] at hv
      obtain ⟨v, hvm, rfl⟩ := List.mem_map.1 hv
      rw [c4 v hvm]
      have : pvals.lookup v.symbol = none := by
        cases hl : pvals.lookup v.symbol with
        | none => rfl
        | some t => exact absurd ((hlk _).1 ⟨t, hl⟩) hp
      simp [meaning, this]
  refine ⟨ops, env, c1, c2, ?_, ?_⟩
  · intro e he
    refine ⟨fun s hs' => by rw [hval s (he s hs')]; simp, ?_⟩
    refine Expr.eval_congr fun s hs' => ?_
    rw [hval s (he s hs')]; rfl
  · intro v hv hl
    rcases List.mem_append.1 hv with hv | hv
    · obtain ⟨e, hn, -⟩ := n1 v hv
      rw [hn] at hl; simp at hl
    · exact c5 v hv

/-- the hypotheses are met: the Puma with the two sums that its equations contain -/
example : (isOk (robotParams offered blocks "Puma")).map descVars = some exVars ∧
    (soaTransform Expr.replace id exFind
      [(.sym "r_11", .bin .add (.un .sin (.bin .add (th "2") (th "3"))) (.un .cos (.bin .add (.bin .add (th "2") (th "3")) (th "4"))))]
      exVars []).toOption.map (fun r => r.2.1.drop 6) = some [⟨"th_234", [2, 3, 4]⟩, ⟨"th_23", [2, 3]⟩] := by
  decide +kernel

/-- **C59 violated.** The joint variables of the robot `Wrist` are `A`, `B`, `C`: the program assigns none of them, so that the evaluation of
`T06` fails. -/
theorem C59_wrist_violation (num q : String → ℝ) (pvals : List (String × String)) :
    ∃ d, robotParams offered blocks "Wrist" = .ok d ∧ d.vars.map (·.1) = ["A", "B", "C"] ∧ d.params = [] ∧
    ∃ ops env, fkCode d.params pvals (d.vars.map (·.1)) = .ok ops ∧ fkExec num q ops = .ok env ∧
      env "A" = none ∧ env "B" = none ∧ env "C" = none := by
  obtain ⟨d, hd, h1, h2⟩ : ∃ d ∈ isOk (robotParams offered blocks "Wrist"), d.vars.map (·.1) = ["A", "B", "C"] ∧ d.params = [] := by
    decide +kernel
  refine ⟨d, ?_, h1, h2, [], fun _ => none, ?_, rfl, rfl, rfl, rfl⟩
  · cases hr : robotParams offered blocks "Wrist" <;> simp_all [isOk]
  · rw [h1, h2]
    have h3 : fkDecls pvals [] = .ok [] := by unfold fkDecls; split <;> rfl
    have h4 : (["A", "B", "C"] : List String).mapM (fkVar ["A", "B", "C"]) = .ok [[], [], []] := by rfl
    unfold fkCode
    rw [h3, h4]; rfl

/-- **C59 violated.** A joint variable with a two-character subscript, say of joint 10, is taken for a sum of angles: it gets the value of
joint 1, or, if there is none, the file is not valid Python. -/
theorem C59_subscript_violation :
    (fkCode [] [] ["th_1", "th_10"]).toOption = some [.dummy "th_1", .sum "th_10" ["th_1"]] ∧
    (fkCode [] [] ["th_2", "th_10"]).toOption = some [.dummy "th_2", .sum "th_10" []] ∧
    ∀ num q : String → ℝ, fkExec num q [.dummy "th_2", .sum "th_10" []] = .error .syntaxError := by
  refine ⟨by decide +kernel, by decide +kernel, fun _ _ => rfl⟩

/-- **C59 violated.** The subscript is searched in the whole name and among all variables: with another variable that has the subscript,
the sum has a summand too many. -/
theorem C59_other_summand_violation :
    (fkCode [] [] ["th_2", "th_3", "d_3", "th_23"]).toOption =
      some [.dummy "th_2", .dummy "th_3", .dummy "d_3", .sum "th_23" ["th_2", "th_3", "d_3"]] := by
  decide +kernel

/-- **C59 violated.** A sum of angles listed before its angles: the program stops with a NameError. -/
theorem C59_order_violation (num q : String → ℝ) : (fkCode [] [] ["th_23", "th_2", "th_3"]).toOption =
      some [.sum "th_23" ["th_2", "th_3"], .dummy "th_2", .dummy "th_3"] ∧
    fkExec num q [.sum "th_23" ["th_2", "th_3"], .dummy "th_2", .dummy "th_3"] = .error .nameError := by
  refine ⟨by decide +kernel, rfl⟩

/-- **C59 violated.** A parameter without a value: if other parameters have values, the generator raises; if none has, the program does. -/
theorem C59_missing_value_violation :
    (match fkCode ["l_1", "l_2"] [("l_1", "1")] [] with | .error e => some e | .ok _ => none) = some .keyError ∧
    ∀ num q : String → ℝ, (fkCode ["l_1"] [] []).toOption = some [.missing "l_1"] ∧ fkExec num q [.missing "l_1"] = .error .nameError := by
  refine ⟨by decide +kernel, fun _ _ => ⟨by decide +kernel, rfl⟩⟩

end Verif.Out
