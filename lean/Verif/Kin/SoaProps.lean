import Verif.Kin.SoaModel
/-!
# C33: abbreviations and sums of angles preserve values
-/
namespace Verif.Kin
open Verif.Sym

/-! ## notation_squeeze -/

/-- Specification: the abbreviations have their intended values. -/
def Abbreviates (env : String → ℝ) : Prop :=
  (∀ i ∈ ["1", "2", "3", "4", "5", "6"],
    env ("s_" ++ i) = Real.sin (env ("th_" ++ i)) ∧ env ("c_" ++ i) = Real.cos (env ("th_" ++ i))) ∧
  (∀ p ∈ [("1", "2"), ("2", "3"), ("3", "4"), ("4", "5"), ("5", "6"), ("1", "3")],
    env ("s_" ++ p.1 ++ p.2) = Real.sin (env ("th_" ++ p.1) + env ("th_" ++ p.2)) ∧
    env ("c_" ++ p.1 ++ p.2) = Real.cos (env ("th_" ++ p.1) + env ("th_" ++ p.2)))

theorem squeeze_fold {sub : Expr → Expr → Expr → Expr} (hs : SoundSub sub) {env : String → ℝ} :
    ∀ (l : List (Expr × Expr)) (e : Expr), (∀ p ∈ l, p.1.eval env = p.2.eval env) →
      (l.foldl (fun e p => sub e p.1 p.2) e).eval env = e.eval env
  | [], _, _ => rfl
  | p :: l, e, h => by
    rw [List.foldl_cons, squeeze_fold hs l _ (fun q hq => h q (List.mem_cons_of_mem _ hq)),
      hs _ _ _ _ (h p List.mem_cons_self)]

theorem pairs_value {env : String → ℝ} (h : Abbreviates env) :
    ∀ p ∈ sinPairs ++ cosPairs ++ sumPairs, p.1.eval env = p.2.eval env := by
  obtain ⟨h1, h2⟩ := h
  simp only [List.mem_cons, List.not_mem_nil, or_false, forall_eq_or_imp, forall_eq] at h1 h2
  simp only [sinPairs, cosPairs, sumPairs, List.cons_append, List.nil_append, List.mem_cons, List.not_mem_nil, or_false,
    forall_eq_or_imp, forall_eq, Expr.eval, Fn1.eval, Fn2.eval]
  obtain ⟨⟨a1, b1⟩, ⟨a2, b2⟩, ⟨a3, b3⟩, ⟨a4, b4⟩, ⟨a5, b5⟩, ⟨a6, b6⟩⟩ := h1
  obtain ⟨⟨x1, y1⟩, ⟨x2, y2⟩, ⟨x3, y3⟩, ⟨x4, y4⟩, ⟨x5, y5⟩, ⟨x6, y6⟩⟩ := h2
  exact ⟨a1.symm, a2.symm, a3.symm, a4.symm, a5.symm, a6.symm, b1.symm, b2.symm, b3.symm, b4.symm, b5.symm, b6.symm,
    y1.symm, x1.symm, y2.symm, x2.symm, y3.symm, x3.symm, y4.symm, x4.symm, y5.symm, x5.symm, y6.symm, x6.symm⟩

/-- C33, notation_squeeze: for every expression and all joint values, when the abbreviations have their intended values the
squeezed expression has the value of the original. -/
theorem C33_squeeze {sub : Expr → Expr → Expr → Expr} (hs : SoundSub sub) (e : Expr) {env : String → ℝ}
    (h : Abbreviates env) : (notationSqueeze sub e).eval env = e.eval env :=
  squeeze_fold hs _ e (pairs_value h)

/-- The abbreviation symbols. -/
def abbrevNames : List String :=
  ["s_1", "s_2", "s_3", "s_4", "s_5", "s_6", "c_1", "c_2", "c_3", "c_4", "c_5", "c_6",
   "s_12", "s_23", "s_34", "s_45", "s_56", "s_13", "c_12", "c_23", "c_34", "c_45", "c_56", "c_13"]

/-- The intended values of the abbreviations, over given joint values. -/
noncomputable def extendAbbrev (env : String → ℝ) (s : String) : ℝ :=
  match (sinPairs ++ cosPairs ++ sumPairs).find? (fun p => p.2 == .sym s) with
  | some p => p.1.eval env
  | none => env s

theorem extendAbbrev_other (env : String → ℝ) {s : String} (h : s ∉ abbrevNames) : extendAbbrev env s = env s := by
  have : (sinPairs ++ cosPairs ++ sumPairs).find? (fun p => p.2 == .sym s) = none := by
    rw [List.find?_eq_none]
    intro p hp hps
    have hn : p.2 = .sym s := by simpa using hps
    have : ∀ p ∈ sinPairs ++ cosPairs ++ sumPairs, ∃ x ∈ abbrevNames, p.2 = .sym x := by decide +kernel
    obtain ⟨x, hx, hpx⟩ := this p hp
    rw [hn] at hpx
    injection hpx with hpx
    exact h (hpx ▸ hx)
  rw [extendAbbrev, this]

theorem extendAbbrev_abbreviates (env : String → ℝ) : Abbreviates (extendAbbrev env) := by
  constructor
  · intro i hi
    simp only [List.mem_cons, List.not_mem_nil, or_false] at hi
    rcases hi with rfl | rfl | rfl | rfl | rfl | rfl <;> exact ⟨rfl, rfl⟩
  · intro i hi
    simp only [List.mem_cons, List.not_mem_nil, or_false] at hi
    rcases hi with rfl | rfl | rfl | rfl | rfl | rfl <;> exact ⟨rfl, rfl⟩

/-- C33, notation_squeeze: for every expression that does not use the abbreviations and all joint values, the squeezed
expression has the value of the original once the abbreviations are read as what they stand for. -/
theorem C33_squeeze_every_joint_vector {sub : Expr → Expr → Expr → Expr} (hs : SoundSub sub) (e : Expr)
    (he : ∀ s ∈ abbrevNames, e.has s = false) (env : String → ℝ) :
    (notationSqueeze sub e).eval (extendAbbrev env) = e.eval env := by
  rw [C33_squeeze hs e (extendAbbrev_abbreviates env)]
  apply Expr.eval_congr
  intro s hs'
  apply extendAbbrev_other
  intro hmem
  rw [he s hmem] at hs'
  cases hs'

/-- A concrete case: sin(th_1)·cos(th_1+th_2) becomes s_1·c_12. -/
example : notationSqueeze Expr.replace
    (.bin .mul (.un .sin (.sym "th_1")) (.un .cos (.bin .add (.sym "th_1") (.sym "th_2")))) =
    .bin .mul (.sym "s_1") (.sym "c_12") := by decide +kernel
/-- The order matters: cos(th_1 + th_4) is not in the table and stays, but sin(th_4) inside other terms is replaced. -/
example : notationSqueeze Expr.replace (.un .cos (.bin .add (.sym "th_1") (.sym "th_4"))) =
    .un .cos (.bin .add (.sym "th_1") (.sym "th_4")) := by decide +kernel

/-! ## sum_of_angles -/

/-- A joint angle or a sum of angles: its name is `th_` followed by its index. -/
def IsTh (v : Var) : Prop := v.symbol = thName v.n

/-- Specification: the sum of the joint angles listed in an index. -/
def angleSum (env : String → ℝ) (n : List (Fin 10)) : ℝ := (n.map (fun d => env (thName [d]))).sum

/-- The auxiliary equations hold. -/
def AuxHold (env : String → ℝ) (aux : List (String × Expr)) : Prop := ∀ q ∈ aux, env q.1 = q.2.eval env

/-- Every variable named `th_<index>` is the sum of the joint angles listed in its index. -/
def SumsHold (env : String → ℝ) (vars : List Var) : Prop := ∀ v ∈ vars, IsTh v → env v.symbol = angleSum env v.n

/-- A list of joint variables as a robot has them: indices 1..9, each angle named th_<index>. -/
def BaseVars (vars : List Var) : Prop := ∀ v ∈ vars, ∃ d : Fin 10, v.n = [d]

theorem angleSum_append (env : String → ℝ) (a b : List (Fin 10)) : angleSum env (a ++ b) = angleSum env a + angleSum env b := by
  simp [angleSum]

theorem insertStr_perm (x : List (Fin 10)) : ∀ l, (insertStr x l).Perm (x :: l)
  | [] => .refl _
  | y :: l => by
    simp only [insertStr]
    split
    · exact .refl _
    · exact ((insertStr_perm x l).cons y).trans (.swap x y l)

theorem sortStr_perm : ∀ l, (sortStr l).Perm l
  | [] => .refl _
  | x :: l => (insertStr_perm x _).trans ((sortStr_perm l).cons x)

theorem angleSum_flatten (env : String → ℝ) : ∀ l : List (List (Fin 10)), angleSum env l.flatten = (l.map (angleSum env)).sum
  | [] => rfl
  | x :: l => by rw [List.flatten_cons, angleSum_append, angleSum_flatten env l]; simp

theorem foldl_add_value (env : String → ℝ) : ∀ (l : List Expr) (x : Expr),
    (l.foldl (.bin .add) x).eval env = x.eval env + (l.map (Expr.eval env)).sum
  | [], x => by simp
  | y :: l, x => by rw [List.foldl_cons, foldl_add_value env l]; simp [Expr.eval, Fn2.eval, add_assoc]

theorem sumOf_value (env : String → ℝ) (l : List Expr) : (sumOf l).eval env = (l.map (Expr.eval env)).sum := by
  cases l with
  | nil => simp [sumOf, Expr.eval]
  | cons x l => rw [sumOf, foldl_add_value]; simp

/-- get_variable_index only returns the index of a variable of that name, and it is set. -/
theorem getVariableIndex_ok {x : Expr} {n : List (Fin 10)} : ∀ {vars : List Var}, getVariableIndex vars x = .ok n →
    ∃ v ∈ vars, x = .sym v.symbol ∧ v.n = n ∧ n ≠ []
  | v :: vs, h => by
    simp only [getVariableIndex] at h
    split at h
    · cases h
    · next hn =>
      split at h
      · next hx => injection h with h; exact ⟨v, List.mem_cons_self, hx, h, h ▸ hn⟩
      · obtain ⟨w, hw, h1, h2⟩ := getVariableIndex_ok h
        exact ⟨w, List.mem_cons_of_mem _ hw, h1, h2⟩

theorem mapM_index_ok {vars : List Var} : ∀ {vl : List Expr} {l : List (List (Fin 10))},
    vl.mapM (getVariableIndex vars) = .ok l →
    List.Forall₂ (fun x n => ∃ v ∈ vars, x = .sym v.symbol ∧ v.n = n ∧ n ≠ []) vl l
  | [], l, h => by
    simp only [List.mapM_nil] at h
    cases h; exact .nil
  | x :: vl, l, h => by
    rw [List.mapM_cons] at h
    cases hx : getVariableIndex vars x with
    | error e => rw [hx] at h; cases h
    | ok n =>
      rw [hx] at h
      cases hl : vl.mapM (getVariableIndex vars) with
      | error e => simp only [hl] at h; cases h
      | ok l' =>
        simp only [hl] at h
        cases h
        exact .cons (getVariableIndex_ok hx) (mapM_index_ok hl)

/-- What is preserved by the transform. -/
structure SoaInv (vars0 vars : List Var) (aux : List (String × Expr)) : Prop where
  /-- the sums follow from the auxiliary equations -/
  sums : ∀ env, AuxHold env aux → SumsHold env vars
  /-- every variable is an original one or a sum of angles -/
  named : ∀ v ∈ vars, v ∈ vars0 ∨ IsTh v
  /-- in the intended reading the auxiliary equations hold -/
  sound : ∀ env, (∀ n : List (Fin 10), n ≠ [] → env (thName n) = angleSum env n) → AuxHold env aux

/-- The arguments of sines and cosines are not prismatic variables: no match contains an original variable that is not named
`th_<index>`. -/
def Angular (vars0 : List Var) (ms : List Match) : Prop :=
  ∀ m ∈ ms, ∀ x ∈ varlist m, ∀ v ∈ vars0, x = .sym v.symbol → IsTh v

/-- In the new index, the digits are those of the summands. -/
theorem newIndex_value {vars0 vars : List Var} {aux : List (String × Expr)} (hi : SoaInv vars0 vars aux) {m : Match}
    (hang : ∀ x ∈ varlist m, ∀ v ∈ vars0, x = .sym v.symbol → IsTh v) {ni : List (Fin 10)}
    (h : newIndex vars (varlist m) = .ok ni) {env : String → ℝ} (hs : SumsHold env vars) :
    (sumOf (varlist m)).eval env = angleSum env ni := by
  simp only [newIndex] at h
  cases hl : (varlist m).mapM (getVariableIndex vars) with
  | error e => rw [hl] at h; cases h
  | ok l =>
    rw [hl] at h
    have h2 : (sortStr l).flatten = ni := by injection h
    clear h
    rw [← h2, angleSum_flatten, ((sortStr_perm l).map _).sum_eq, sumOf_value]
    have hf := mapM_index_ok hl
    generalize varlist m = vl at hf hang
    clear hl h2
    induction hf with
    | nil => rfl
    | cons hx _ ih =>
      obtain ⟨v, hv, rfl, hn, hne⟩ := hx
      have hth : IsTh v := by
        rcases hi.named v hv with h0 | h0
        · exact hang _ List.mem_cons_self v h0 rfl
        · exact h0
      simp only [List.map_cons, List.sum_cons, Expr.eval, hs v hv hth, hn]
      rw [ih (fun x hx => hang x (List.mem_cons_of_mem _ hx))]

theorem angleSum_single (env : String → ℝ) (d : Fin 10) : angleSum env [d] = env (thName [d]) := by
  simp [angleSum]

/-- One iteration of the loop. -/
theorem soaStep_inv {sub : Expr → Expr → Expr → Expr} (hsub : SoundSub sub) {vars0 : List Var} (hb : BaseVars vars0)
    {st st' : SoaSt} {m : Match} (hang : ∀ x ∈ varlist m, ∀ v ∈ vars0, x = .sym v.symbol → IsTh v)
    (hi : SoaInv vars0 st.vars st.aux) (h : soaStep sub st m = .ok st') :
    SoaInv vars0 st'.vars st'.aux ∧ (∀ q ∈ st.aux, q ∈ st'.aux) ∧
    (∀ env, AuxHold env st'.aux → st'.expr.eval env = st.expr.eval env) ∧
    (∀ q ∈ st'.tmpeqn, q ∈ st'.aux) ∧ (∀ v ∈ st'.newjoint, v ∈ st'.vars) := by
  simp only [soaStep] at h
  split at h
  · split at h
    · cases h
    · cases h
    · next ni hne hni =>
      have hne : ni ≠ [] := fun h0 => hne h0
      have key : ∀ env, SumsHold env st.vars → (sumOf (varlist m)).eval env = angleSum env ni :=
        fun env hs => newIndex_value hi hang hni hs
      injection h with h
      subst h
      split
      · next hex =>
        refine ⟨hi, fun q hq => hq, fun env ha => ?_, by simp, by simp⟩
        apply hsub
        rw [key env (hi.sums env ha)]
        obtain ⟨v, hv, hvn⟩ := List.any_eq_true.mp hex
        have hvn : v.n = ni := by simpa using hvn
        rcases hi.named v hv with h0 | h0
        · obtain ⟨d, hd⟩ := hb v h0
          rw [← hvn, hd, angleSum_single]; rfl
        · have := hi.sums env ha v hv h0
          rw [h0, hvn] at this
          exact this.symm
      · refine ⟨⟨?_, ?_, ?_⟩, ?_, ?_, ?_, ?_⟩
        · intro env ha v hv hth
          have ha0 : AuxHold env st.aux := fun q hq => ha q (List.mem_append_left _ hq)
          rcases List.mem_append.mp hv with hv | hv
          · exact hi.sums env ha0 v hv hth
          · have hv : v = ⟨thName ni, ni⟩ := by simpa using hv
            subst hv
            rw [ha (thName ni, sumOf (varlist m)) (List.mem_append_right _ (by simp))]
            exact key env (hi.sums env ha0)
        · intro v hv
          rcases List.mem_append.mp hv with hv | hv
          · exact hi.named v hv
          · have hv : v = ⟨thName ni, ni⟩ := by simpa using hv
            subst hv; exact .inr rfl
        · intro env henv q hq
          rcases List.mem_append.mp hq with hq | hq
          · exact hi.sound env henv q hq
          · have hq : q = (thName ni, sumOf (varlist m)) := by simpa using hq
            subst hq
            rw [key env (hi.sums env (hi.sound env henv)), henv ni hne]
        · intro q hq; exact List.mem_append_left _ hq
        · intro env ha
          apply hsub
          have ha0 : AuxHold env st.aux := fun q hq => ha q (List.mem_append_left _ hq)
          exact (ha (thName ni, sumOf (varlist m)) (List.mem_append_right _ (by simp))).symm
        · intro q hq
          have hq : (thName ni, sumOf (varlist m)) = q := by simpa using hq
          subst hq; exact List.mem_append_right _ (by simp)
        · intro v hv
          have hv : (⟨thName ni, ni⟩ : Var) = v := by simpa using hv
          subst hv; exact List.mem_append_right _ (by simp)
  · injection h with h
    subst h
    exact ⟨hi, fun q hq => hq, fun env _ => rfl, by simp, by simp⟩

theorem soaLoop_inv {sub : Expr → Expr → Expr → Expr} (hsub : SoundSub sub) {vars0 : List Var} (hb : BaseVars vars0) :
    ∀ {ms : List Match} {st st' : SoaSt}, Angular vars0 ms → SoaInv vars0 st.vars st.aux →
      (∀ q ∈ st.tmpeqn, q ∈ st.aux) → (∀ v ∈ st.newjoint, v ∈ st.vars) → soaLoop sub st ms = .ok st' →
      SoaInv vars0 st'.vars st'.aux ∧ (∀ q ∈ st.aux, q ∈ st'.aux) ∧
      (∀ env, AuxHold env st'.aux → st'.expr.eval env = st.expr.eval env) ∧
      (∀ q ∈ st'.tmpeqn, q ∈ st'.aux) ∧ (∀ v ∈ st'.newjoint, v ∈ st'.vars)
  | [], st, st', _, hi, ht, hn, h => by
    injection h with h; subst h
    exact ⟨hi, fun q hq => hq, fun _ _ => rfl, ht, hn⟩
  | m :: ms, st, st', hang, hi, _, _, h => by
    simp only [soaLoop] at h
    cases hm : soaStep sub st m with
    | error e => rw [hm] at h; cases h
    | ok s1 =>
      rw [hm] at h
      obtain ⟨a1, a2, a3, a4, a5⟩ := soaStep_inv hsub hb (hang m List.mem_cons_self) hi hm
      obtain ⟨b1, b2, b3, b4⟩ := soaLoop_inv hsub hb (fun m hm => hang m (List.mem_cons_of_mem _ hm)) a1 a4 a5 h
      refine ⟨b1, fun q hq => b2 q (a2 q hq), fun env ha => ?_, b4⟩
      rw [b3 env ha, a3 env (fun q hq => ha q (b2 q hq))]

theorem mem_sortMatches {l : List Match} {m : Match} (h : m ∈ sortMatches l) : m ∈ l := by
  simp only [sortMatches, List.mem_append, List.mem_filter] at h
  rcases h with ((⟨h, _⟩ | ⟨h, _⟩) | ⟨h, _⟩) | ⟨h, _⟩ <;> exact h

theorem soaSub_inv {sub : Expr → Expr → Expr → Expr} (hsub : SoundSub sub) {find : Expr → List Match} {vars0 : List Var}
    (hb : BaseVars vars0) (hang : ∀ e, Angular vars0 (find e)) {e : Expr} {vars : List Var} {aux : List (String × Expr)}
    {st : SoaSt} (hi : SoaInv vars0 vars aux) (h : soaSub sub find e vars aux = .ok st) :
    SoaInv vars0 st.vars st.aux ∧ (∀ q ∈ aux, q ∈ st.aux) ∧
    (∀ env, AuxHold env st.aux → st.expr.eval env = e.eval env) ∧
    (∀ q ∈ st.tmpeqn, q ∈ st.aux) ∧ (∀ v ∈ st.newjoint, v ∈ st.vars) :=
  soaLoop_inv hsub hb (fun m hm => hang e m (mem_sortMatches hm)) (st := { expr := e, vars := vars, aux := aux }) hi
    (by simp) (by simp) h

/-- Adding a variable or an equation a second time changes nothing semantically. -/
theorem SoaInv.dup {vars0 vars : List Var} {aux : List (String × Expr)} (h : SoaInv vars0 vars aux) {v : Option Var}
    {q : Option (String × Expr)} (hv : ∀ x ∈ v, x ∈ vars) (hq : ∀ x ∈ q, x ∈ aux) :
    SoaInv vars0 (vars ++ v.toList) (aux ++ q.toList) where
  sums env ha w hw hth := by
    have hw' : w ∈ vars := by
      rcases List.mem_append.mp hw with hw | hw
      · exact hw
      · exact hv w (by simpa using hw)
    exact h.sums env (fun p hp => ha p (List.mem_append_left _ hp)) w hw' hth
  named w hw := by
    rcases List.mem_append.mp hw with hw | hw
    · exact h.named w hw
    · exact h.named w (hv w (by simpa using hw))
  sound env henv p hp := by
    rcases List.mem_append.mp hp with hp | hp
    · exact h.sound env henv p hp
    · exact h.sound env henv p (hq p (by simpa using hp))

theorem soaElement_inv {sub : Expr → Expr → Expr → Expr} (hsub : SoundSub sub) {simp : Expr → Expr}
    (hsimp : ∀ e env, (simp e).eval env = e.eval env) {find : Expr → List Match} {vars0 : List Var} (hb : BaseVars vars0)
    (hang : ∀ e, Angular vars0 (find e)) {td ts td' ts' : Expr} {vars vars' : List Var} {aux aux' : List (String × Expr)}
    (hi : SoaInv vars0 vars aux) (h : soaElement sub simp find td ts vars aux = .ok (td', ts', vars', aux')) :
    SoaInv vars0 vars' aux' ∧ (∀ q ∈ aux, q ∈ aux') ∧
    ∀ env, AuxHold env aux' → td'.eval env = td.eval env ∧ ts'.eval env = ts.eval env := by
  simp only [soaElement] at h
  cases hl : soaSub sub find (simp td) vars aux with
  | error e => rw [hl] at h; cases h
  | ok l =>
    simp only [hl] at h
    cases hr : soaSub sub find (simp ts) (l.vars ++ l.newjoint.toList) (l.aux ++ l.tmpeqn.toList) with
    | error e => rw [hr] at h; cases h
    | ok r =>
      simp only [hr] at h
      injection h with h
      simp only [Prod.mk.injEq] at h
      obtain ⟨rfl, rfl, rfl, rfl⟩ := h
      obtain ⟨a1, a2, a3, a4, a5⟩ := soaSub_inv hsub hb hang hi hl
      obtain ⟨b1, b2, b3, _, _⟩ := soaSub_inv hsub hb hang (a1.dup a5 a4) hr
      have hmono : ∀ q ∈ l.aux, q ∈ r.aux := fun q hq => b2 q (List.mem_append_left _ hq)
      refine ⟨b1, fun q hq => hmono q (a2 q hq), fun env ha => ⟨?_, ?_⟩⟩
      · rw [a3 env (fun q hq => ha q (hmono q hq)), hsimp]
      · rw [b3 env ha, hsimp]

theorem soaTransform_inv {sub : Expr → Expr → Expr → Expr} (hsub : SoundSub sub) {simp : Expr → Expr}
    (hsimp : ∀ e env, (simp e).eval env = e.eval env) {find : Expr → List Match} {vars0 : List Var} (hb : BaseVars vars0)
    (hang : ∀ e, Angular vars0 (find e)) : ∀ {l l' : List (Expr × Expr)} {vars vars' : List Var}
    {aux aux' : List (String × Expr)}, SoaInv vars0 vars aux →
    soaTransform sub simp find l vars aux = .ok (l', vars', aux') →
    SoaInv vars0 vars' aux' ∧ (∀ q ∈ aux, q ∈ aux') ∧
    ∀ env, AuxHold env aux' → List.Forall₂ (fun p p' => p'.1.eval env = p.1.eval env ∧ p'.2.eval env = p.2.eval env) l l'
  | [], l', vars, vars', aux, aux', hi, h => by
    injection h with h
    simp only [Prod.mk.injEq] at h
    obtain ⟨rfl, rfl, rfl⟩ := h
    exact ⟨hi, fun q hq => hq, fun _ _ => .nil⟩
  | (td, ts) :: l, l', vars, vars', aux, aux', hi, h => by
    simp only [soaTransform] at h
    cases he : soaElement sub simp find td ts vars aux with
    | error e => rw [he] at h; cases h
    | ok r =>
      obtain ⟨td', ts', v1, x1⟩ := r
      simp only [he] at h
      obtain ⟨a1, a2, a3⟩ := soaElement_inv hsub hsimp hb hang hi he
      cases ht : soaTransform sub simp find l v1 x1 with
      | error e => rw [ht] at h; cases h
      | ok r =>
        obtain ⟨l2, v2, x2⟩ := r
        simp only [ht] at h
        injection h with h
        simp only [Prod.mk.injEq] at h
        obtain ⟨rfl, rfl, rfl⟩ := h
        obtain ⟨b1, b2, b3⟩ := soaTransform_inv hsub hsimp hb hang a1 ht
        exact ⟨b1, fun q hq => b2 q (a2 q hq), fun env ha => .cons (a3 env (fun q hq => ha q (b2 q hq))) (b3 env ha)⟩

theorem soaInv_init {vars : List Var} (hb : BaseVars vars) : SoaInv vars vars [] where
  sums env _ v hv hth := by
    obtain ⟨d, hd⟩ := hb v hv
    rw [hth, hd, angleSum_single]
  named v hv := .inl hv
  sound _ _ q hq := by cases hq

/-! ### The intended values of the sums -/

theorem thName_inj {a b : List (Fin 10)} (h : thName a = thName b) : a = b := by
  simp only [thName] at h
  have h := String.ofList_injective h
  simp only [List.cons.injEq, true_and] at h
  have hinj : ∀ x y : Fin 10, Nat.digitChar x.val = Nat.digitChar y.val → x = y := by decide +kernel
  exact List.map_injective_iff.mpr (fun x y hxy => hinj x y hxy) h

open Classical in
/-- Every `th_<index>` read as the sum of the joint angles in its index. -/
noncomputable def extendSums (env : String → ℝ) (s : String) : ℝ :=
  if h : ∃ n : List (Fin 10), n ≠ [] ∧ s = thName n then angleSum env h.choose else env s

theorem extendSums_th (env : String → ℝ) {n : List (Fin 10)} (hn : n ≠ []) : extendSums env (thName n) = angleSum env n := by
  have h : ∃ m : List (Fin 10), m ≠ [] ∧ thName n = thName m := ⟨n, hn, rfl⟩
  rw [extendSums, dif_pos h, ← thName_inj h.choose_spec.2]

theorem extendSums_other (env : String → ℝ) {s : String} (h : ∀ n, 2 ≤ n.length → s ≠ thName n) : extendSums env s = env s := by
  by_cases hs : ∃ n : List (Fin 10), n ≠ [] ∧ s = thName n
  · obtain ⟨n, hn, rfl⟩ := hs
    rw [extendSums_th env hn]
    match n, hn, h with
    | [d], _, _ => exact angleSum_single env d
    | d :: d' :: l, _, h => exact absurd rfl (h _ (by simp))
  · rw [extendSums, dif_neg hs]

theorem extendSums_sums (env : String → ℝ) {n : List (Fin 10)} (hn : n ≠ []) :
    extendSums env (thName n) = angleSum (extendSums env) n := by
  rw [extendSums_th env hn]
  simp only [angleSum]
  congr 1
  apply List.map_congr_left
  intro d _
  rw [extendSums_th env (by simp), angleSum_single]

/-- C33, sum-of-angles transform (partial: see the violations below). For every robot (joint indices 1..9), all matrix equations and all expressions:
if the transform completes and no prismatic variable occurs under a sine or cosine, then
(1) at all values of the symbols that satisfy the added auxiliary equations every transformed matrix element has its
    original value, so every equation holds iff it held before;
(2) for all joint values the auxiliary equations are satisfied when each new variable is the sum of the angles in its
    index, so nothing is lost. -/
theorem C33_sum_of_angles_partial {sub : Expr → Expr → Expr → Expr} (hsub : SoundSub sub) {simp : Expr → Expr}
    (hsimp : ∀ e env, (simp e).eval env = e.eval env) {find : Expr → List Match} {vars : List Var} (hb : BaseVars vars)
    (hang : ∀ e, Angular vars (find e)) {l l' : List (Expr × Expr)} {vars' : List Var} {aux : List (String × Expr)}
    (h : soaTransform sub simp find l vars [] = .ok (l', vars', aux)) :
    (∀ env, AuxHold env aux →
      List.Forall₂ (fun p p' => p'.1.eval env = p.1.eval env ∧ p'.2.eval env = p.2.eval env) l l') ∧
    (∀ env, AuxHold (extendSums env) aux) ∧
    (∀ env s, (∀ n, 2 ≤ n.length → s ≠ thName n) → extendSums env s = env s) := by
  obtain ⟨a1, _, a3⟩ := soaTransform_inv hsub hsimp hb hang (soaInv_init hb) h
  exact ⟨a3, fun env => a1.sound _ (fun n hn => extendSums_sums env hn), fun env s hs => extendSums_other env hs⟩

/-! ### Concrete runs and violations -/

/-- The summands of a sum. -/
def summands : Expr → List Expr
  | .bin .add a b => summands a ++ summands b
  | e => [e]

/-- A match of `aw + bw + cw`, for the examples. -/
def matchArg (e : Expr) : List Match :=
  match summands e with
  | [a] => [(a, .num 0, .num 0)]
  | [a, b] => [(a, b, .num 0)]
  | [a, b, c] => [(a, b, c)]
  | _ => []

/-- The matches in an expression, for the examples. -/
def exFind : Expr → List Match
  | .un .sin a => matchArg a
  | .un .cos a => matchArg a
  | .un _ a => exFind a
  | .bin _ a b => exFind a ++ exFind b
  | _ => []

/-- Six joint angles. -/
def exVars : List Var := [⟨"th_1", [1]⟩, ⟨"th_2", [2]⟩, ⟨"th_3", [3]⟩, ⟨"th_4", [4]⟩, ⟨"th_5", [5]⟩, ⟨"th_6", [6]⟩]

def th (i : String) : Expr := .sym ("th_" ++ i)

theorem exVars_base : BaseVars exVars := by
  intro v hv
  simp only [exVars, List.mem_cons, List.not_mem_nil, or_false] at hv
  rcases hv with rfl | rfl | rfl | rfl | rfl | rfl <;> exact ⟨_, rfl⟩

theorem exVars_angular (ms : List Match) : Angular exVars ms := by
  intro m _ x _ v hv _
  have : ∀ v ∈ exVars, v.symbol = thName v.n := by decide +kernel
  exact this v hv

/-- Non-vacuity of `C33_sum_of_angles_partial`: a run with a two-way and a three-way sum,
r11 = sin(th_2+th_3)·cos(th_4) + cos(th_2+th_3+th_4). -/
example : (soaTransform Expr.replace id exFind
    [(.sym "r_11", .bin .add (.bin .mul (.un .sin (.bin .add (th "2") (th "3"))) (.un .cos (th "4")))
      (.un .cos (.bin .add (.bin .add (th "2") (th "3")) (th "4"))))] exVars []).toOption =
    some ([(.sym "r_11", .bin .add (.bin .mul (.un .sin (th "23")) (.un .cos (th "4"))) (.un .cos (th "234")))],
      exVars ++ [⟨"th_234", [2, 3, 4]⟩, ⟨"th_23", [2, 3]⟩],
      [("th_234", .bin .add (.bin .add (th "2") (th "3")) (th "4")), ("th_23", .bin .add (th "2") (th "3"))]) := by
  decide +kernel

/-- A sum of angles with a summand that is not a joint variable (an offset such as `th_1 + pi/4`, a difference `th_2 - th_3`,
or a sum of four angles) stops the program: the assertion in get_variable_index fails. -/
theorem C33_other_summand_raises (sub : Expr → Expr → Expr → Expr) (st : SoaSt) (m : Match)
    (hlen : (varlist m).length = 2 ∨ (varlist m).length = 3) {x : Expr} (hx : x ∈ varlist m)
    (hno : ∀ v ∈ st.vars, x ≠ .sym v.symbol) : ∃ e, soaStep sub st m = .error e := by
  have hf : (st.found2 || (varlist m).length == 2 || (st.found3 || (varlist m).length == 3)) = true := by
    rcases hlen with h | h <;> simp [h]
  have herr : ∃ e, newIndex st.vars (varlist m) = .error e := by
    cases hn : newIndex st.vars (varlist m) with
    | error e => exact ⟨e, rfl⟩
    | ok ni =>
      exfalso
      simp only [newIndex] at hn
      cases hl : (varlist m).mapM (getVariableIndex st.vars) with
      | error e => rw [hl] at hn; cases hn
      | ok l =>
        have hfa := mapM_index_ok hl
        clear hn hl hlen hf
        generalize varlist m = vl at hfa hx
        induction hfa with
        | nil => cases hx
        | cons h1 _ ih =>
          rcases List.mem_cons.mp hx with rfl | hx
          · obtain ⟨v, hv, h2, _⟩ := h1
            exact hno v hv h2
          · exact ih hx
  obtain ⟨e, he⟩ := herr
  refine ⟨e, ?_⟩
  simp only [soaStep, hf, if_true, he]

/-- Concretely: sin(th_2 - th_3). -/
example : (soaSub Expr.replace exFind (.un .sin (.bin .add (th "2") (.un .neg (th "3")))) exVars []).toOption = none := by
  decide +kernel

/-- Violation: `found2` is not reset, so after a sum of angles every later single angle is renamed to `th_<index>`; if the
robot's joint variable has another name the value changes. Here q_4 is the 4th joint. -/
theorem C33_stale_flag_violation :
    ∃ (vars : List Var) (e : Expr) (st : SoaSt), BaseVars vars ∧ soaSub Expr.replace exFind e vars [] = .ok st ∧
      e.has "th_4" = false ∧ e.has "q_4" = true ∧ st.expr.has "th_4" = true ∧ st.expr.has "q_4" = false ∧
      ∃ env, AuxHold env st.aux ∧ (∀ n : List (Fin 10), n ≠ [] → env (thName n) = angleSum env n) ∧
        st.expr.eval env ≠ e.eval env := by
  refine ⟨exVars.take 3 ++ [⟨"q_4", [4]⟩], .bin .mul (.un .cos (.bin .add (th "2") (th "3"))) (.un .cos (.sym "q_4")),
    { expr := .bin .mul (.un .cos (th "23")) (.un .cos (th "4"))
      vars := exVars.take 3 ++ [⟨"q_4", [4]⟩] ++ [⟨"th_23", [2, 3]⟩]
      aux := [("th_23", .bin .add (th "2") (th "3"))], found2 := true }, ?_, ?_, ?_, ?_, ?_, ?_,
      fun s => if s = "q_4" then Real.pi else 0, ?_, ?_, ?_⟩
  · intro v hv
    simp only [exVars, List.take_succ_cons, List.take_zero, List.cons_append, List.nil_append, List.mem_cons,
      List.not_mem_nil, or_false] at hv
    rcases hv with rfl | rfl | rfl | rfl <;> exact ⟨_, rfl⟩
  · have hview : ∀ {x : Except SoaErr SoaSt} {s : SoaSt}, x.toOption = some s → x = .ok s := by
      intro x s h; cases x with
      | error e => cases h
      | ok y => injection h with h; rw [h]
    exact hview (by decide +kernel)
  · decide +kernel
  · decide +kernel
  · decide +kernel
  · decide +kernel
  · intro q hq
    have hq : q = ("th_23", .bin .add (th "2") (th "3")) := by simpa using hq
    subst hq; simp [th, Expr.eval, Fn2.eval]
  · intro n _
    have hne : ∀ n, thName n ≠ "q_4" := by
      intro n h
      have h : String.ofList ('t' :: 'h' :: '_' :: n.map (fun d => Nat.digitChar d.val)) = String.ofList ['q', '_', '4'] := h
      have h := String.ofList_injective h
      simp at h
    simp [angleSum, hne]
  · simp [th, Expr.eval, Fn1.eval, Fn2.eval]
    norm_num

/-- Violation: a sum of angles first met on a left-hand side is registered twice, as a variable and as an equation (the
callee appends it and so does the caller). -/
theorem C33_registered_twice_violation :
    ∃ (td ts : Expr) (r : Expr × Expr × List Var × List (String × Expr)),
      soaElement Expr.replace id exFind td ts exVars [] = .ok r ∧
      r.2.2.1.count ⟨"th_23", [2, 3]⟩ = 2 ∧ r.2.2.2.length = 2 := by
  refine ⟨.un .cos (.bin .add (th "2") (th "3")), .sym "r_11",
    (.un .cos (th "23"), .sym "r_11", exVars ++ [⟨"th_23", [2, 3]⟩, ⟨"th_23", [2, 3]⟩],
      [("th_23", .bin .add (th "2") (th "3")), ("th_23", .bin .add (th "2") (th "3"))]), ?_, by decide +kernel, rfl⟩
  have hview : ∀ {α : Type} {x : Except SoaErr α} {s : α}, x.toOption = some s → x = .ok s := by
    intro α x s h; cases x with
    | error e => cases h
    | ok y => injection h with h; rw [h]
  exact hview (by decide +kernel)

end Verif.Kin
