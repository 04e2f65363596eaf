import Verif.Kin.Numeric
import Verif.Kin.Props
/-!
# C66: numerical forward kinematics and numerical matrices
-/
namespace Verif.Kin
open Matrix Verif.Sym

/-! ## Specification -/

/-- What is assumed of sympy: simplification and substitution keep the value and bring in no symbol. -/
structure GoodOps (P : SymOps) : Prop where
  simp_eval : ∀ e env, env "pi" = Real.pi → (P.simp e).eval env = e.eval env
  simp_has : ∀ e x, (P.simp e).has x = true → e.has x = true
  sub_eval : ∀ d e env, env "pi" = Real.pi → (∀ p ∈ d, p.1.eval env = p.2.eval env) → (P.subD d e).eval env = e.eval env
  sub_has : ∀ d e x, (P.subD d e).has x = true → e.has x = true ∨ ∃ p ∈ d, p.2.has x = true

/-- The symbols have the values that the two dictionaries give them; the parameters win. -/
def Respects (env : String → ℝ) (pose params : List (String × Val)) : Prop :=
  ∀ x e, (dget params x = some (.expr e) ∨ dget params x = none ∧ dget pose x = some (.expr e)) → env x = e.eval env

/-- The constants `ca0`, `sa0`, … have their values. -/
def RespectsAlpha (P : SymOps) (env : String → ℝ) (dh : Fin 6 → DHRow) : Prop :=
  ∀ i, P.nice (dh i).al = false → env (caName i) = Real.cos ((dh i).al.eval env) ∧ env (saName i) = Real.sin ((dh i).al.eval env)

/-- The forward kinematics of the arm: the product of the six link transforms (numbers). -/
noncomputable def armPose (env : String → ℝ) (dh : Fin 6 → DHRow) : M4 :=
  t06 fun i => linkN ((dh i).al.eval env) ((dh i).a.eval env) ((dh i).d.eval env) ((dh i).th.eval env)

/-- python dictionary -/
def IsDict {β : Type} (d : List (String × β)) : Prop := (d.map (·.1)).Nodup

/-! ## Dictionaries -/

theorem dget_dset {β : Type} (k : String) (v : β) (x : String) : ∀ d : List (String × β), dget (dset k v d) x = if x = k then some v else dget d x
  | [] => by
    simp only [dset, dget, List.find?_cons, List.find?_nil]
    by_cases h : x = k
    · simp [h]
    · rw [if_neg h]; simp [Ne.symm h]
  | p :: ps => by
    simp only [dset]
    by_cases hp : p.1 = k
    · rw [if_pos hp]
      by_cases h : x = k
      · simp [dget, h]
      · rw [if_neg h]; simp [dget, Ne.symm h, hp]
    · rw [if_neg hp]
      have ih := dget_dset k v x ps
      simp only [dget] at ih ⊢
      by_cases h : p.1 = x
      · have : x ≠ k := fun e => hp (h.trans e)
        simp [h, this]
      · simp [h, ih]

theorem mem_dset {α β : Type} [DecidableEq α] {k : α} {v : β} {p : α × β} : ∀ {d : List (α × β)}, p ∈ dset k v d → p = (k, v) ∨ p ∈ d
  | [], h => by simpa [dset] using h
  | q :: ps, h => by
    simp only [dset] at h
    split at h
    · rcases List.mem_cons.1 h with h | h
      · exact .inl h
      · exact .inr (by simp [h])
    · rcases List.mem_cons.1 h with h | h
      · exact .inr (by simp [h])
      · rcases mem_dset h with h | h
        · exact .inl h
        · exact .inr (by simp [h])

theorem keys_dset {β : Type} (k : String) (v : β) : ∀ d : List (String × β), ∀ x, x ∈ (dset k v d).map (·.1) ↔ x = k ∨ x ∈ d.map (·.1)
  | [], x => by simp [dset]
  | p :: ps, x => by
    simp only [dset]
    split
    · rename_i h; simp [h]
    · simp only [List.map_cons, List.mem_cons, keys_dset k v ps x]
      constructor
      · rintro (h | h | h) <;> simp [h]
      · rintro (h | h | h) <;> simp [h]

theorem isDict_dset {β : Type} (k : String) (v : β) : ∀ {d : List (String × β)}, IsDict d → IsDict (dset k v d)
  | [], _ => by simp [dset, IsDict]
  | p :: ps, h => by
    simp only [IsDict, List.map_cons, List.nodup_cons] at h
    simp only [dset]
    split
    · rename_i hp; simp only [IsDict, List.map_cons, List.nodup_cons]; rw [← hp]; exact h
    · rename_i hp
      simp only [IsDict, List.map_cons, List.nodup_cons]
      refine ⟨?_, isDict_dset k v h.2⟩
      rw [keys_dset]
      rintro (h' | h')
      · exact hp h'
      · exact h.1 h'

theorem dget_none {β : Type} {d : List (String × β)} {x : String} (h : x ∉ d.map (·.1)) : dget d x = none := by
  simp only [dget, Option.map_eq_none_iff, List.find?_eq_none, decide_eq_true_eq]
  intro p hp he
  exact h (List.mem_map.2 ⟨p, hp, he⟩)

/-- `update`: the parameters win -/
theorem dget_update {β : Type} (x : String) : ∀ (params pose : List (String × β)), IsDict params →
    dget (update pose params) x = (dget params x).or (dget pose x)
  | [], pose, _ => by simp [update, dget]
  | p :: ps, pose, h => by
    simp only [IsDict, List.map_cons, List.nodup_cons] at h
    rw [show update pose (p :: ps) = update (dset p.1 p.2 pose) ps from rfl, dget_update x ps _ h.2, dget_dset]
    by_cases hx : p.1 = x
    · subst hx
      rw [dget_none h.1]
      simp [dget]
    · have hxk : ¬ x = p.1 := fun e => hx e.symm
      rw [if_neg hxk]
      congr 1
      simp [dget, hx]

theorem sympify_ok : ∀ {d : List (String × Val)} {pp : List (String × Expr)}, sympifyDict d = .ok pp →
    ∀ x, dget d x = (dget pp x).map .expr
  | [], pp, h, x => by cases h; rfl
  | (y, .expr e) :: d, pp, h, x => by
    simp only [sympifyDict] at h
    cases hd : sympifyDict d with
    | error e => rw [hd] at h; cases h
    | ok d' =>
      rw [hd] at h; cases h
      have ih := sympify_ok hd x
      simp only [dget, List.find?_cons] at ih ⊢
      by_cases hy : y = x
      · simp [hy]
      · simp only [hy, decide_false]; exact ih
  | (y, .code s) :: d, pp, h, x => by cases h

theorem sympify_total : ∀ {d : List (String × Val)}, (∀ p ∈ d, ∃ e, p.2 = .expr e) → ∃ pp, sympifyDict d = .ok pp
  | [], _ => ⟨[], rfl⟩
  | (y, v) :: d, h => by
    obtain ⟨e, rfl⟩ := h (y, v) (by simp)
    obtain ⟨pp, hpp⟩ := sympify_total (d := d) fun p hp => h p (by simp [hp])
    exact ⟨(y, e) :: pp, by simp [sympifyDict, hpp]⟩

theorem sympify_code : ∀ {d : List (String × Val)} {x s : String}, dget d x = some (.code s) → sympifyDict d = .error .attributeError
  | [], x, s, h => by cases h
  | (y, .code t) :: d, x, s, _ => rfl
  | (y, .expr e) :: d, x, s, h => by
    have hd : dget d x = some (.code s) := by
      simp only [dget, List.find?_cons] at h ⊢
      by_cases hy : y = x
      · simp [hy] at h
      · simpa [hy] using h
    simp [sympifyDict, sympify_code hd]

theorem mem_update {β : Type} {p : String × β} : ∀ {params pose : List (String × β)}, p ∈ update pose params → p ∈ params ∨ p ∈ pose
  | [], pose, h => .inr h
  | q :: ps, pose, h => by
    rcases mem_update (params := ps) (pose := dset q.1 q.2 pose) h with h | h
    · exact .inl (by simp [h])
    · rcases mem_dset h with h | h
      · exact .inl (by simp [h])
      · exact .inr h

/-! ## The constants for alpha -/

theorem alpha_fold {I : Params → Prop} (P : SymOps) (dh : Fin 6 → DHRow) (h : ∀ i s, P.nice (dh i).al = false → I s → I (alphaStep P i (dh i).al s)) :
    ∀ (l : List (Fin 6)) (s : Params), I s → I (l.foldl (fun s i => alphaStep P i (dh i).al s) s)
  | [], s, hs => hs
  | i :: l, s, hs => by
    rw [List.foldl_cons]
    refine alpha_fold P dh h l _ ?_
    cases hn : P.nice (dh i).al with
    | true => rw [alphaStep, if_pos hn]; exact hs
    | false => exact h i s hn hs

theorem alpha_subst {P : SymOps} (hP : GoodOps P) {env : String → ℝ} (hpi : env "pi" = Real.pi) {dh : Fin 6 → DHRow} (ha : RespectsAlpha P env dh) :
    ∀ p ∈ (alphaSubs P dh {}).subst, p.1.eval env = p.2.eval env := by
  refine alpha_fold (I := fun s => ∀ p ∈ s.subst, p.1.eval env = p.2.eval env) P dh ?_ _ {} (by simp)
  intro i s hn hs p hp
  rw [alphaStep, if_neg (by simp [hn])] at hp
  rcases mem_dset hp with rfl | hp
  · simp only [hP.simp_eval _ _ hpi]
    exact (ha i hn).2.symm
  · rcases mem_dset hp with rfl | hp
    · simp only [hP.simp_eval _ _ hpi]
      exact (ha i hn).1.symm
    · exact hs p hp

theorem alpha_has {P : SymOps} {dh : Fin 6 → DHRow} :
    ∀ p ∈ (alphaSubs P dh {}).subst, ∀ x, p.2.has x = true → ∃ i, P.nice (dh i).al = false ∧ (x = caName i ∨ x = saName i) := by
  refine alpha_fold (I := fun s => ∀ p ∈ s.subst, ∀ x, p.2.has x = true → ∃ i, P.nice (dh i).al = false ∧ (x = caName i ∨ x = saName i)) P dh ?_ _ {} (by simp)
  intro i s hn hs p hp x hx
  rw [alphaStep, if_neg (by simp [hn])] at hp
  rcases mem_dset hp with rfl | hp
  · exact ⟨i, hn, .inr (beq_iff_eq.1 hx).symm⟩
  · rcases mem_dset hp with rfl | hp
    · exact ⟨i, hn, .inl (beq_iff_eq.1 hx).symm⟩
    · exact hs p hp x hx

/-! ## Values of the matrices -/

theorem eval_linkS (env : String → ℝ) (r : DHRow) :
    evalM env (linkS r) = linkN (r.al.eval env) (r.a.eval env) (r.d.eval env) (r.th.eval env) := by
  ext i j
  fin_cases i <;> fin_cases j <;> simp [evalM, linkS, linkN, Expr.eval, Fn1.eval, Fn2.eval, zero, one, mulE, negE, sinE, cosE]

theorem eval_mulS (env : String → ℝ) (A B : SM4) : evalM env (mulS A B) = evalM env A * evalM env B := by
  ext i j
  simp [evalM, mulS, Matrix.mul_apply, Fin.sum_univ_four, Expr.eval, Fn2.eval, addE, mulE]

theorem eval_linkMat {P : SymOps} (hP : GoodOps P) {env : String → ℝ} (hpi : env "pi" = Real.pi) {dh : Fin 6 → DHRow} (ha : RespectsAlpha P env dh)
    (i : Fin 6) : evalM env (linkMat P dh i) = linkN ((dh i).al.eval env) ((dh i).a.eval env) ((dh i).d.eval env) ((dh i).th.eval env) := by
  rw [← eval_linkS]
  ext r c
  simp only [evalM, linkMat]
  rw [hP.simp_eval _ _ hpi, hP.sub_eval _ _ _ hpi (alpha_subst hP hpi ha), hP.simp_eval _ _ hpi]

theorem eval_t06S {P : SymOps} (hP : GoodOps P) {env : String → ℝ} (hpi : env "pi" = Real.pi) {dh : Fin 6 → DHRow} (ha : RespectsAlpha P env dh) :
    evalM env (t06S P dh) = armPose env dh := by
  have : evalM env (t06S P dh) = evalM env (mulS (mulS (mulS (mulS (mulS (linkMat P dh 0) (linkMat P dh 1)) (linkMat P dh 2)) (linkMat P dh 3))
      (linkMat P dh 4)) (linkMat P dh 5)) := by
    ext r c
    simp only [evalM, t06S]
    rw [hP.simp_eval _ _ hpi]
  rw [this]
  simp only [eval_mulS, eval_linkMat hP hpi ha]
  rfl

/-! ## C66 -/

/-- **C66, the result is right.** Whatever pose and parameters are given: if `forward_kinematics_N` returns a matrix, it is the forward kinematics of
the arm, for these values (parameters win over the pose) and for *every* choice of the values that were not given. -/
theorem C66_correct (P : SymOps) (hP : GoodOps P) (dh : Fin 6 → DHRow) (pose params : List (String × Val)) (hd : IsDict params) (T : M4)
    (h : fkN P (t06S P dh) pose params = .ok T) (env : String → ℝ) (hpi : env "pi" = Real.pi) (he : Respects env pose params)
    (ha : RespectsAlpha P env dh) : T = armPose env dh := by
  rw [fkN] at h
  split at h
  · cases h
  · rename_i pp hpp
    simp only at h
    split at h
    · rename_i hc
      cases h
      rw [← eval_t06S hP hpi ha]
      ext i j
      simp only [evalM]
      rw [Expr.eval_congr (env' := env) (fun s hs => by rw [hc i j s hs, hpi]; simp [constEnv]), hP.simp_eval _ _ hpi, Expr.eval_subs]
      refine Expr.eval_congr fun s _ => ?_
      have hs := sympify_ok hpp s
      rw [dget_update s params pose hd] at hs
      cases hf : dget pp s with
      | none => rfl
      | some e =>
        rw [hf, Option.map_some] at hs
        simp only
        refine (he s e ?_).symm
        cases hps : dget params s with
        | some v => rw [hps] at hs; exact .inl (by simpa using hs)
        | none => rw [hps] at hs; exact .inr ⟨rfl, by simpa using hs⟩
    · cases h

/-- **C66, it returns.** If all given values are numbers, and every symbol of the DH table and every constant `ca_i`, `sa_i` has one, then
`forward_kinematics_N` returns a matrix. -/
theorem C66_complete (P : SymOps) (hP : GoodOps P) (dh : Fin 6 → DHRow) (pose params : List (String × Val)) (hd : IsDict params)
    (hv : ∀ p ∈ pose ++ params, ∃ e, p.2 = .expr e ∧ closed e)
    (hs : ∀ i x, ((dh i).al.has x = true ∨ (dh i).a.has x = true ∨ (dh i).d.has x = true ∨ (dh i).th.has x = true) → x ≠ "pi" →
      x ∈ (pose ++ params).map (·.1))
    (ha : ∀ i, P.nice (dh i).al = false → caName i ∈ (pose ++ params).map (·.1) ∧ saName i ∈ (pose ++ params).map (·.1)) :
    ∃ T, fkN P (t06S P dh) pose params = .ok T := by
  obtain ⟨pp, hpp⟩ := sympify_total (d := update pose params) (by
    intro p hp
    obtain ⟨e, he, _⟩ := hv p (by rcases mem_update hp with h | h <;> simp [h])
    exact ⟨e, he⟩)
  refine ⟨evalM constEnv fun i j => P.simp ((t06S P dh i j).subs (dget pp)), ?_⟩
  rw [fkN, hpp]
  simp only
  rw [if_pos]
  -- values in `pp` are numbers
  have hval : ∀ x e, dget pp x = some e → closed e := by
    intro x e hx
    have h1 := sympify_ok hpp x
    rw [hx, Option.map_some] at h1
    simp only [dget, Option.map_eq_some_iff] at h1
    obtain ⟨p, hp, hpe⟩ := h1
    obtain ⟨e', he', hc⟩ := hv p (by rcases mem_update (List.mem_of_find?_eq_some hp) with h | h <;> simp [h])
    rw [he'] at hpe; cases hpe
    exact hc
  -- known symbols have a value
  have hknown : ∀ x ∈ (pose ++ params).map (·.1), dget pp x ≠ none := by
    intro x hx hn
    have h1 := sympify_ok hpp x
    rw [hn, Option.map_none, dget_update x params pose hd, Option.or_eq_none_iff] at h1
    have hno : ∀ d : List (String × Val), dget d x = none → x ∉ d.map (·.1) := by
      intro d hd' hm
      obtain ⟨p, hp, hpe⟩ := List.mem_map.1 hm
      simp only [dget, Option.map_eq_none_iff, List.find?_eq_none, decide_eq_true_eq] at hd'
      exact hd' p hp hpe
    rw [List.map_append, List.mem_append] at hx
    exact hx.elim (hno _ h1.2) (hno _ h1.1)
  -- symbols of the links
  have hlink : ∀ (r : DHRow) (i j : Fin 4) x, (linkS r i j).has x = true → r.al.has x = true ∨ r.a.has x = true ∨ r.d.has x = true ∨ r.th.has x = true := by
    intro r i j x
    fin_cases i <;> fin_cases j <;>
      simp [linkS, Expr.has, zero, one, mulE, negE, sinE, cosE] <;> tauto
  have hmat : ∀ k i j x, (linkMat P dh k i j).has x = true → x = "pi" ∨ x ∈ (pose ++ params).map (·.1) := by
    intro k i j x hx
    rcases hP.sub_has _ _ _ (hP.simp_has _ _ hx) with h | ⟨p, hp, h⟩
    · by_cases hpi : x = "pi"
      · exact .inl hpi
      · exact .inr (hs k x (hlink _ _ _ _ (hP.simp_has _ _ h)) hpi)
    · obtain ⟨i, hi, rfl | rfl⟩ := alpha_has p hp x h
      · exact .inr (ha i hi).1
      · exact .inr (ha i hi).2
  have hmul : ∀ (A B : SM4) (Q : String → Prop), (∀ i j x, (A i j).has x = true → Q x) → (∀ i j x, (B i j).has x = true → Q x) →
      ∀ i j x, (mulS A B i j).has x = true → Q x := by
    intro A B Q hA hB i j x hx
    simp only [mulS, addE, mulE, Expr.has, Bool.or_eq_true] at hx
    rcases hx with ((((h | h) | (h | h)) | (h | h)) | (h | h))
    all_goals first | exact hA _ _ _ h | exact hB _ _ _ h
  have ht06 : ∀ i j x, (t06S P dh i j).has x = true → x = "pi" ∨ x ∈ (pose ++ params).map (·.1) := by
    intro i j x hx
    refine hmul _ _ _ (hmul _ _ _ (hmul _ _ _ (hmul _ _ _ (hmul _ _ _ (hmat 0) (hmat 1)) (hmat 2)) (hmat 3)) (hmat 4)) (hmat 5) i j x ?_
    exact hP.simp_has _ _ hx
  intro i j x hx
  rcases (Expr.has_subs _ _ _).1 (hP.simp_has _ _ hx) with ⟨h1, h2⟩ | ⟨s, r, _, h2, h3⟩
  · rcases ht06 i j x h1 with h | h
    · exact h
    · exact absurd h2 (hknown x h)
  · exact hval s r h2 x h3

/-- **C66, missing values are noticed.** If the forward kinematics depend on a value that was not given, the program ends with `sys.exit()`. -/
theorem C66_missing_value (P : SymOps) (hP : GoodOps P) (dh : Fin 6 → DHRow) (pose params : List (String × Val)) (hd : IsDict params)
    (hv : ∀ p ∈ pose ++ params, ∃ e, p.2 = .expr e)
    (env env' : String → ℝ) (hpi : env "pi" = Real.pi) (hpi' : env' "pi" = Real.pi) (he : Respects env pose params) (he' : Respects env' pose params)
    (ha : RespectsAlpha P env dh) (ha' : RespectsAlpha P env' dh) (hne : armPose env dh ≠ armPose env' dh) :
    fkN P (t06S P dh) pose params = .error .exit := by
  obtain ⟨pp, hpp⟩ := sympify_total (d := update pose params) (by
    intro p hp
    exact hv p (by rcases mem_update hp with h | h <;> simp [h]))
  have key : ∀ T, fkN P (t06S P dh) pose params ≠ .ok T := fun T hT =>
    hne ((C66_correct P hP dh pose params hd T hT env hpi he ha).symm.trans (C66_correct P hP dh pose params hd T hT env' hpi' he' ha'))
  rw [fkN, hpp] at key ⊢
  simp only at key ⊢
  split
  · rename_i hc
    rw [if_pos hc] at key
    exact absurd rfl (key _)
  · rfl

/-- **C66, added parameters.** `forward_kinematics` adds to the list of parameters exactly `ca_i` and `sa_i` for the rows whose alpha is no multiple
of a right angle — each time that it is called. -/
theorem C66_added_parameters (P : SymOps) (dh : Fin 6 → DHRow) (s : Params) :
    (alphaSubs P dh s).params = s.params ++ ((List.finRange 6).filter fun i => !P.nice (dh i).al).flatMap fun i => [caName i, saName i] := by
  rw [alphaSubs]
  generalize List.finRange 6 = l
  induction l generalizing s with
  | nil => simp
  | cons i l ih =>
    rw [List.foldl_cons, ih]
    cases hn : P.nice (dh i).al with
    | true => simp [alphaStep, hn]
    | false => simp [alphaStep, hn]

theorem alpha_pvals {P : SymOps} {dh : Fin 6 → DHRow} {s : Params} (hs : IsDict s.pvals) :
    IsDict (alphaSubs P dh s).pvals ∧ ∀ i, P.nice (dh i).al = false → ∃ t, dget (alphaSubs P dh s).pvals (caName i) = some (.code t) := by
  rw [alphaSubs]
  have hdict : ∀ (l : List (Fin 6)) (s : Params), IsDict s.pvals → IsDict (l.foldl (fun s i => alphaStep P i (dh i).al s) s).pvals :=
    fun l s h => alpha_fold (I := fun s => IsDict s.pvals) P dh (by
      intro i s hn h
      rw [alphaStep, if_neg (by simp [hn])]
      exact isDict_dset _ _ (isDict_dset _ _ h)) l s h
  have hkeep : ∀ (i : Fin 6) (l : List (Fin 6)) (s : Params), (∃ t, dget s.pvals (caName i) = some (.code t)) →
      ∃ t, dget (l.foldl (fun s i => alphaStep P i (dh i).al s) s).pvals (caName i) = some (.code t) :=
    fun i l s h => alpha_fold (I := fun s => ∃ t, dget s.pvals (caName i) = some (.code t)) P dh (by
      intro j s hn ⟨t, ht⟩
      rw [alphaStep, if_neg (by simp [hn])]
      simp only [dget_dset]
      split
      · exact ⟨_, rfl⟩
      · split
        · exact ⟨_, rfl⟩
        · exact ⟨t, ht⟩) l s h
  refine ⟨hdict _ s hs, ?_⟩
  have hin : ∀ (l : List (Fin 6)) (s : Params), ∀ i ∈ l, P.nice (dh i).al = false →
      ∃ t, dget (l.foldl (fun s i => alphaStep P i (dh i).al s) s).pvals (caName i) = some (.code t) := by
    intro l
    induction l with
    | nil => intro s i hi; cases hi
    | cons j l ih =>
      intro s i hi hn
      rw [List.foldl_cons]
      rcases List.mem_cons.1 hi with rfl | hi
      · refine hkeep i l _ ?_
        rw [alphaStep, if_neg (by simp [hn])]
        simp only [dget_dset]
        split
        · exact ⟨_, rfl⟩
        · rw [if_pos trivial]; exact ⟨_, rfl⟩
      · exact ih _ i hi hn
  exact fun i hn => hin _ s i (List.mem_finRange i) hn

/-- **C66 violated.** For every arm with an alpha that is no multiple of a right angle, `forward_kinematics_N` raises an exception for every pose if
it is given the parameter values that `forward_kinematics` itself stored in the mechanism (`M.pvals`): they are texts of python code. -/
theorem C66_own_values_violation (P : SymOps) (dh : Fin 6 → DHRow) (pose : List (String × Val)) (s : Params) (hs : IsDict s.pvals)
    (i : Fin 6) (hn : P.nice (dh i).al = false) :
    fkN P (t06S P dh) pose (alphaSubs P dh s).pvals = .error .attributeError := by
  obtain ⟨hd, hc⟩ := alpha_pvals (P := P) (dh := dh) hs
  obtain ⟨t, ht⟩ := hc i hn
  have : sympifyDict (update pose (alphaSubs P dh s).pvals) = .error .attributeError :=
    sympify_code (x := caName i) (s := t) (by rw [dget_update _ _ _ hd, ht]; rfl)
  rw [fkN, this]

/-! ## Numerical matrices -/

/-- **C66, numerical and symbolic matrices agree.** Building a matrix from symbols and then putting in numbers gives the same as building it from
the numbers. -/
theorem C66_numeric_agree (env : String → ℝ) (t r p y : Expr) (row : DHRow) :
    evalM3 env (rotXS t) = rotXN (t.eval env) ∧ evalM3 env (rotYS t) = rotYN (t.eval env) ∧ evalM3 env (rotZS t) = rotZN (t.eval env) ∧
    evalM env (rotX4S t) = rotX4N (t.eval env) ∧ evalM env (rotY4S t) = rotY4N (t.eval env) ∧ evalM env (rotZ4S t) = rotZ4N (t.eval env) ∧
    evalM3 env (rpy3S r p y) = rpy3N (r.eval env) (p.eval env) (y.eval env) ∧
    evalM env (linkS row) = linkN (row.al.eval env) (row.a.eval env) (row.d.eval env) (row.th.eval env) := by
  have hx : ∀ t : Expr, evalM3 env (rotXS t) = rotXN (t.eval env) := by
    intro t; ext i j
    fin_cases i <;> fin_cases j <;> simp [evalM3, rotXS, rotXN, Expr.eval, Fn1.eval, zero, one, negE, sinE, cosE]
  have hy : ∀ t : Expr, evalM3 env (rotYS t) = rotYN (t.eval env) := by
    intro t; ext i j
    fin_cases i <;> fin_cases j <;> simp [evalM3, rotYS, rotYN, Expr.eval, Fn1.eval, zero, one, negE, sinE, cosE]
  have hz : ∀ t : Expr, evalM3 env (rotZS t) = rotZN (t.eval env) := by
    intro t; ext i j
    fin_cases i <;> fin_cases j <;> simp [evalM3, rotZS, rotZN, Expr.eval, Fn1.eval, zero, one, negE, sinE, cosE]
  have hm : ∀ A B : SM3, evalM3 env (mulS3 A B) = evalM3 env A * evalM3 env B := by
    intro A B; ext i j
    simp [evalM3, mulS3, Matrix.mul_apply, Fin.sum_univ_three, Expr.eval, Fn2.eval, addE, mulE]
  refine ⟨hx t, hy t, hz t, ?_, ?_, ?_, ?_, eval_linkS env row⟩
  · ext i j
    fin_cases i <;> fin_cases j <;> simp [evalM, rotX4S, rotX4N, Expr.eval, Fn1.eval, zero, one, negE, sinE, cosE]
  · ext i j
    fin_cases i <;> fin_cases j <;> simp [evalM, rotY4S, rotY4N, Expr.eval, Fn1.eval, zero, one, negE, sinE, cosE]
  · ext i j
    fin_cases i <;> fin_cases j <;> simp [evalM, rotZ4S, rotZ4N, Expr.eval, Fn1.eval, zero, one, negE, sinE, cosE]
  · rw [rpy3S, hm, hm, hx, hy, hz]; rfl

/-- a numpy array holds a 4×4 matrix -/
def Holds (A : NArr) (T : M4) : Prop := A.rows = 4 ∧ A.cols = 4 ∧ ∀ i j : Fin 4, A.get i j = T i j

/-- **C66, translation.** `Trans4_N` returns the value of `Trans4_S`. -/
theorem C66_trans (env : String → ℝ) (v : Fin 3 → Expr) :
    ∃ A, trans4N (fun i => (v i).eval env) = .ok A ∧ Holds A (evalM env (trans4S v)) := by
  refine ⟨_, rfl, rfl, rfl, ?_⟩
  intro i j
  fin_cases i <;> fin_cases j <;> simp [evalM, trans4S, Expr.eval, zero, one, npEye]

/-- **C66, roll, pitch and yaw.** The value of the symbolic `RPY4_S` is the product of the three numerical rotations. -/
theorem C66_rpy4S (env : String → ℝ) (r p y : Expr) :
    evalM env (rpy4S r p y) = rotZ4N (y.eval env) * rotY4N (p.eval env) * rotX4N (r.eval env) := by
  ext i j
  fin_cases i <;> fin_cases j <;>
    simp [evalM, rpy4S, rpy3S, mulS3, rotZS, rotYS, rotXS, rotZ4N, rotY4N, rotX4N, Matrix.mul_apply, Fin.sum_univ_four, Expr.eval, Fn1.eval, Fn2.eval,
      zero, one, negE, sinE, cosE, mulE, addE]

/-- **C66 violated.** `RPY4_N` raises IndexError, whatever its arguments are: its matrix has one row. (`RPY4_S` returns a matrix.) -/
theorem C66_rpy4_violation (r p y : ℝ) : rpy4N r p y = .error .indexError := by
  rfl

/-- **C66 violated.** `H_inv_N` raises AttributeError for every numpy matrix; for a sympy matrix it returns what `H_inv_S` returns. -/
theorem C66_hinv_violation (T : M4) : hInvN (.numpy T) = .error .attributeError ∧ hInvN (.sympy T) = .ok (hInv T) := ⟨rfl, rfl⟩

/-! ## Non-vacuity -/

theorem replace_has {old new : Expr} {x : String} : ∀ {e : Expr}, (e.replace old new).has x = true → e.has x = true ∨ new.has x = true
  | .num q, h => by
    simp only [Expr.replace] at h
    split at h
    · exact .inr h
    · exact .inl h
  | .sym s, h => by
    simp only [Expr.replace] at h
    split at h
    · exact .inr h
    · exact .inl h
  | .un f a, h => by
    simp only [Expr.replace] at h
    split at h
    · exact .inr h
    · simp only [Expr.has] at h ⊢; exact replace_has h
  | .bin f a b, h => by
    simp only [Expr.replace] at h
    split at h
    · exact .inr h
    · simp only [Expr.has, Bool.or_eq_true] at h ⊢
      rcases h with h | h
      · rcases replace_has h with h | h
        · exact .inl (.inl h)
        · exact .inr h
      · rcases replace_has h with h | h
        · exact .inl (.inr h)
        · exact .inr h

/-- no simplification; subtrees are replaced one after the other; only 0 is a nice angle -/
def plainOps : SymOps := ⟨fun e => e == .num 0, id, fun d e => d.foldl (fun e p => e.replace p.1 p.2) e⟩

theorem good_plainOps : GoodOps plainOps where
  simp_eval _ _ _ := rfl
  simp_has _ _ h := h
  sub_eval := by
    intro d
    induction d with
    | nil => intro e env _ _; rfl
    | cons p d ih =>
      intro e env hpi h
      refine (ih (e.replace p.1 p.2) env hpi fun q hq => h q (by simp [hq])).trans ?_
      exact soundSub_replace e p.1 p.2 env (h p (by simp))
  sub_has := by
    intro d
    induction d with
    | nil => intro e x h; exact .inl h
    | cons p d ih =>
      intro e x h
      rcases ih (e.replace p.1 p.2) x h with h | ⟨q, hq, h⟩
      · rcases replace_has h with h | h
        · exact .inl h
        · exact .inr ⟨p, by simp, h⟩
      · exact .inr ⟨q, by simp [hq], h⟩

/-- an arm: first alpha `g`, link length `l`, joint angle `q`; the other rows are zero -/
def demoArm (i : Fin 6) : DHRow := if i = 0 then ⟨.sym "g", .sym "l", zero, .sym "q"⟩ else ⟨zero, zero, zero, zero⟩

def demoPose : List (String × Val) := [("q", .expr (.num 1)), ("l", .expr (.num 7))]
def demoPar : List (String × Val) := [("l", .expr (.num 2)), ("g", .expr (.num 3)), ("ca0", .expr (.un .cos (.num 3))), ("sa0", .expr (.un .sin (.num 3)))]

/-- Non-vacuity of C66_correct and C66_complete: the hypotheses hold, with a link length in both dictionaries. -/
example : (∃ T, fkN plainOps (t06S plainOps demoArm) demoPose demoPar = .ok T) ∧ plainOps.nice (demoArm 0).al = false ∧
    ∃ env : String → ℝ, env "pi" = Real.pi ∧ Respects env demoPose demoPar ∧ RespectsAlpha plainOps env demoArm ∧ env "l" = 2 := by
  refine ⟨C66_complete plainOps good_plainOps demoArm demoPose demoPar (by unfold IsDict; decide) ?_ ?_ ?_, by decide, ?_⟩
  · intro p hp
    simp only [demoPose, demoPar, List.cons_append, List.nil_append, List.mem_cons, List.not_mem_nil, or_false] at hp
    rcases hp with rfl | rfl | rfl | rfl | rfl | rfl
    all_goals exact ⟨_, rfl, fun x hx => by simp [Expr.has] at hx⟩
  · intro i x hx _
    by_cases hi : i = 0
    · subst hi
      simp only [demoArm, if_true, Expr.has, zero, beq_iff_eq, Bool.false_eq_true, false_or] at hx
      rcases hx with rfl | rfl | rfl <;> decide
    · simp [demoArm, hi, Expr.has, zero] at hx
  · intro i hi
    by_cases h0 : i = 0
    · subst h0; decide
    · simp [demoArm, h0, plainOps, zero] at hi
  · refine ⟨fun x => if x = "pi" then Real.pi else if x = "q" then 1 else if x = "l" then 2 else if x = "g" then 3 else
      if x = "ca0" then Real.cos 3 else if x = "sa0" then Real.sin 3 else 0, by simp, ?_, ?_, by simp⟩
    · intro x e h
      simp only [demoPose, demoPar, dget, List.find?_cons, List.find?_nil] at h
      by_cases h1 : "l" = x
      · subst h1; simp at h; subst h; simp [Expr.eval]
      by_cases h2 : "g" = x
      · subst h2; simp at h; subst h; simp [Expr.eval]
      by_cases h3 : "ca0" = x
      · subst h3; simp at h; subst h; simp [Expr.eval, Fn1.eval]
      by_cases h4 : "sa0" = x
      · subst h4; simp at h; subst h; simp [Expr.eval, Fn1.eval]
      by_cases h5 : "q" = x
      · subst h5; simp at h; subst h; simp [Expr.eval]
      simp [h1, h2, h3, h4, h5] at h
    · intro i hi
      by_cases h0 : i = 0
      · subst h0
        have : caName 0 = "ca0" ∧ saName 0 = "sa0" := by decide
        simp [demoArm, Expr.eval, this]
      · simp [demoArm, h0, plainOps, zero] at hi

theorem linkN_zero : linkN 0 0 0 0 = 1 := by
  ext i j
  fin_cases i <;> fin_cases j <;> simp [linkN]

theorem demoArm_pose (env : String → ℝ) : armPose env demoArm 0 0 = Real.cos (env "q") := by
  have h : ∀ i : Fin 6, i ≠ 0 → linkN ((demoArm i).al.eval env) ((demoArm i).a.eval env) ((demoArm i).d.eval env) ((demoArm i).th.eval env) = 1 := by
    intro i hi
    rw [← linkN_zero]
    simp [demoArm, hi, zero, Expr.eval]
  rw [armPose, t06, h 1 (by decide), h 2 (by decide), h 3 (by decide), h 4 (by decide), h 5 (by decide)]
  simp [demoArm, Expr.eval, linkN]

/-- Non-vacuity of C66_missing_value: without a value of the joint angle. -/
example : fkN plainOps (t06S plainOps demoArm) [] demoPar = .error .exit := by
  let E : ℝ → String → ℝ := fun q x => if x = "pi" then Real.pi else if x = "q" then q else if x = "l" then 2 else if x = "g" then 3 else
      if x = "ca0" then Real.cos 3 else if x = "sa0" then Real.sin 3 else 0
  have hr : ∀ q, Respects (E q) [] demoPar := by
    intro q x e h
    simp only [demoPar, dget, List.find?_cons, List.find?_nil] at h
    by_cases h1 : "l" = x
    · subst h1; simp at h; subst h; simp [E, Expr.eval]
    by_cases h2 : "g" = x
    · subst h2; simp at h; subst h; simp [E, Expr.eval]
    by_cases h3 : "ca0" = x
    · subst h3; simp at h; subst h; simp [E, Expr.eval, Fn1.eval]
    by_cases h4 : "sa0" = x
    · subst h4; simp at h; subst h; simp [E, Expr.eval, Fn1.eval]
    simp [h1, h2, h3, h4] at h
  have ha : ∀ q, RespectsAlpha plainOps (E q) demoArm := by
    intro q i hi
    by_cases h0 : i = 0
    · subst h0
      have : caName 0 = "ca0" ∧ saName 0 = "sa0" := by decide
      simp [demoArm, Expr.eval, this, E]
    · simp [demoArm, h0, plainOps, zero] at hi
  refine C66_missing_value plainOps good_plainOps demoArm [] demoPar (by unfold IsDict; decide) ?_ (E 0) (E Real.pi) (by simp [E]) (by simp [E])
    (hr 0) (hr _) (ha 0) (ha _) ?_
  · intro p hp
    simp only [demoPar, List.nil_append, List.mem_cons, List.not_mem_nil, or_false] at hp
    rcases hp with rfl | rfl | rfl | rfl
    all_goals exact ⟨_, rfl⟩
  · intro h
    have := congrFun (congrFun h 0) 0
    rw [demoArm_pose, demoArm_pose] at this
    simp [E] at this
    norm_num at this

/-- Non-vacuity of C66_own_values_violation: the arm has such an alpha. -/
example : fkN plainOps (t06S plainOps demoArm) demoPose (alphaSubs plainOps demoArm {}).pvals = .error .attributeError :=
  C66_own_values_violation plainOps demoArm demoPose {} (by simp [IsDict]) 0 (by decide)

end Verif.Kin
