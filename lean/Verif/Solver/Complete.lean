import Verif.Solver.EndToEnd
/-!
# C51: no solution is lost

If the values of the symbols satisfy the equations of the robot then, after every run, the value of each solved unknown is the value of one
of its solutions.
-/
namespace Verif.Solver
open Verif.Leaf Verif.Eqn Verif.Sol Verif.Sym
open Verif.BT hiding Tree

/-! ## The specification -/

/-- The solution is an angle: made of inverse trigonometric functions. -/
def isAngle : Expr → Bool
  | .un .asin _ => true
  | .un .acos _ => true
  | .un .neg e => isAngle e
  | .bin .atan2 _ _ => true
  | .bin .add a b => isAngle a || isAngle b
  | _ => false

/-- The solution gives the value of the unknown (for an angle: modulo 2π). -/
def Gives (v : String → ℝ) (x : String) (sol : Expr) : Prop :=
  v x = sol.eval v ∨ (isAngle sol = true ∧ SameAngle (v x) (sol.eval v))

/-- One of the solutions gives the value of the unknown. -/
def Covers (v : String → ℝ) (x : String) (sols : List Expr) : Prop := ∃ sol ∈ sols, Gives v x sol

/-- The values satisfy the matrix equations and the auxiliary equations. -/
def Satisfies (v : String → ℝ) (ms : List MEqn) (aux : List KEqn) : Prop := (∀ m ∈ ms, MHolds v m) ∧ ∀ e ∈ aux, Holds v e

/-! ## The invariant -/

theorem Covers.mono {v : String → ℝ} {x : String} {l l' : List Expr} (h : Covers v x l) (hl : ∀ e ∈ l, e ∈ l') : Covers v x l' := by
  obtain ⟨e, h1, h2⟩ := h; exact ⟨e, hl e h1, h2⟩

theorem Covers.angle {v : String → ℝ} {x : String} {l : List Expr} {e : Expr} (he : e ∈ l) (ha : isAngle e = true)
    (h : SameAngle (v x) (e.eval v)) : Covers v x l := ⟨e, he, .inr ⟨ha, h⟩⟩

/-- What is known of an unknown. -/
structure GoodU (v : String → ℝ) (u : Unk) (d : LeafData) (x : String) : Prop where
  eqn : ∀ e, d.eqn = some e → Holds v e
  second : ∀ e, d.second = some e → Holds v e
  cands : ∀ b, cand b d = [] ∨ Covers v x (cand b d)
  eqns : ∀ b, ∀ e ∈ candE b d, Holds v e
  sols : u.solutions = [] ∨ Covers v x u.solutions
  done : u.solved = true → u.solutions ≠ []

/-- What is known of a state. -/
structure Good (v : String → ℝ) (s : LS) : Prop where
  ms : ∀ m ∈ s.ms, MHolds v m
  aux : ∀ e ∈ s.aux, Holds v e
  l1 : ∀ e ∈ s.lists.l1, Holds v e
  l2 : ∀ e ∈ s.lists.l2, Holds v e
  unk : ∀ x, GoodU v (s.w.unk x) (s.ld x) x

/-- All coefficients that solutions divide by are not zero. -/
def GuardsOk (v : String → ℝ) (s : LS) : Prop := ∀ g ∈ s.guards, g.eval v ≠ 0

/-! ### The lists -/

theorem addNew_mem {c : CAS} {e x : KEqn} {l : List KEqn} (h : x ∈ addNew c e l) : x ∈ l ∨ x = e := by
  unfold addNew at h
  split at h
  · exact .inl h
  · rcases List.mem_append.1 h with h | h
    · exact .inl h
    · exact .inr (by simpa using h)

/-- membership in one of the three lists -/
def Lists.mem (L : Lists) (e : KEqn) : Prop := e ∈ L.l1 ∨ e ∈ L.l2 ∨ e ∈ L.l3p

theorem scanEntry_mem {c : CAS} {vs : List Var} {L : Lists} {e x : KEqn} (h : Lists.mem (scanEntry c vs L e) x) : Lists.mem L x ∨ x = e := by
  unfold scanEntry at h
  dsimp only at h
  have step : ∀ (L' : Lists) (k : Bool), Lists.mem (if k then { L' with l3p := addNew c e L'.l3p } else L') x → Lists.mem L' x ∨ x = e := by
    intro L' k h
    cases k
    · exact .inl h
    · rcases h with h | h | h
      · exact .inl (.inl h)
      · exact .inl (.inr (.inl h))
      · rcases addNew_mem h with h | h
        · exact .inl (.inr (.inr h))
        · exact .inr h
  have h := step _ (decide (countUnknowns vs e.lhs + countUnknowns vs e.rhs > 2)) (by simpa using h)
  rcases h with h | h
  swap
  · exact .inr h
  split at h
  · rcases h with h | h | h
    · split at h
      · rcases addNew_mem h with h | h
        · exact .inl (.inl h)
        · exact .inr h
      · exact .inl (.inl h)
    · rcases addNew_mem h with h | h
      · split at h
        · exact .inl (.inr (.inl h))
        · exact .inl (.inr (.inl h))
      · exact .inr h
    · split at h
      · exact .inl (.inr (.inr h))
      · exact .inl (.inr (.inr h))
  · split at h
    · rcases h with h | h | h
      · rcases addNew_mem h with h | h
        · exact .inl (.inl h)
        · exact .inr h
      · exact .inl (.inr (.inl h))
      · exact .inl (.inr (.inr h))
    · exact .inl h

theorem scanAux_mem {vs : List Var} {L : Lists} {e x : KEqn} (h : Lists.mem (scanAux vs L e) x) : Lists.mem L x ∨ x = e := by
  have key : ∀ {l : List KEqn}, x ∈ l ++ [e] → x ∈ l ∨ x = e := by
    intro l h
    rcases List.mem_append.1 h with h | h
    · exact .inl h
    · exact .inr (by simpa using h)
  unfold scanAux at h
  dsimp only at h
  by_cases h1 : countUnknowns vs e.lhs + countUnknowns vs e.rhs = 1 <;> by_cases h2 : countUnknowns vs e.lhs + countUnknowns vs e.rhs = 2 <;>
    simp only [h1, h2, if_true, if_false] at h
  · omega
  all_goals
    rcases h with h | h | h
    all_goals first
      | exact .inl (.inl h)
      | exact .inl (.inr (.inl h))
      | exact .inl (.inr (.inr h))
      | (rcases key h with h | h
         · first
           | exact .inl (.inl h)
           | exact .inl (.inr (.inl h))
         · exact .inr h)

theorem rank_mem {c : CAS} {L : Lists} {e : KEqn} : Lists.mem (L.rank c) e ↔ Lists.mem L e := by
  simp only [Lists.mem, Lists.rank, (C22_erank_perm c _).mem_iff]

/-- The lists contain only entries of the matrix equations and auxiliary equations. -/
theorem scan_mem {c : CAS} {ms : List MEqn} {aux : List KEqn} {vs : List Var} {L : Lists} (h : scanForEquations c ms aux vs = .ok L)
    {e : KEqn} (he : Lists.mem L e) : (∃ m ∈ ms, e ∈ m.entries) ∨ e ∈ aux := by
  unfold scanForEquations at h
  split at h
  swap
  · cases h
  cases h
  rw [rank_mem] at he
  have h2 : ∀ (aux : List KEqn) (L : Lists), Lists.mem (aux.foldl (scanAux vs) L) e → Lists.mem L e ∨ e ∈ aux := by
    intro aux
    induction aux with
    | nil => intro L h; exact .inl h
    | cons a aux ih =>
      intro L h
      rcases ih _ h with h | h
      · rcases scanAux_mem h with h | h
        · exact .inl h
        · exact .inr (by simp [h])
      · exact .inr (by simp [h])
  have h1 : ∀ (es : List KEqn) (L : Lists), Lists.mem (es.foldl (scanEntry c vs) L) e → Lists.mem L e ∨ e ∈ es := by
    intro es
    induction es with
    | nil => intro L h; exact .inl h
    | cons a aux ih =>
      intro L h
      rcases ih _ h with h | h
      · rcases scanEntry_mem h with h | h
        · exact .inl h
        · exact .inr (by simp [h])
      · exact .inr (by simp [h])
  have h0 : ∀ (ms : List MEqn) (L : Lists), Lists.mem (ms.foldl (fun L m => m.entries.foldl (scanEntry c vs) L) L) e →
      Lists.mem L e ∨ ∃ m ∈ ms, e ∈ m.entries := by
    intro ms
    induction ms with
    | nil => intro L h; exact .inl h
    | cons m ms ih =>
      intro L h
      rcases ih _ h with h | ⟨m', h, h'⟩
      · rcases h1 _ _ h with h | h
        · exact .inl h
        · exact .inr ⟨m, by simp, h⟩
      · exact .inr ⟨m', by simp [h], h'⟩
  rcases h2 _ _ he with h | h
  · rcases h0 _ _ h with h | h
    · rcases h with h | h | h <;> cases h
    · exact .inl h
  · exact .inr h

theorem entries_hold {v : String → ℝ} {m : MEqn} (h : MHolds v m) {e : KEqn} (he : e ∈ m.entries) : Holds v e := by
  simp only [MEqn.entries, List.mem_flatMap, List.mem_map] at he
  obtain ⟨i, -, j, -, rfl⟩ := he
  unfold MEqn.entry
  split
  · exact h _ _
  · split <;> rfl

theorem scan_holds {c : CAS} {ms : List MEqn} {aux : List KEqn} {vs : List Var} {L : Lists} (h : scanForEquations c ms aux vs = .ok L)
    {v : String → ℝ} (hv : Satisfies v ms aux) {e : KEqn} (he : Lists.mem L e) : Holds v e := by
  rcases scan_mem h he with ⟨m, h1, h2⟩ | h1
  · exact entries_hold (hv.1 m h1) h2
  · exact hv.2 e h1

theorem updAux_mem {c : CAS} {vs : List Var} {L : Lists} {e x : KEqn} (h : Lists.mem (updAux c vs L e) x) :
    Lists.mem L x ∨ x = ⟨.num 0, c.sub e.lhs e.rhs⟩ := by
  have key : ∀ {l : List KEqn}, x ∈ l ++ [⟨.num 0, c.sub e.lhs e.rhs⟩] → x ∈ l ∨ x = ⟨.num 0, c.sub e.lhs e.rhs⟩ := by
    intro l h
    rcases List.mem_append.1 h with h | h
    · exact .inl h
    · exact .inr (by simpa using h)
  unfold updAux at h
  dsimp only at h
  split at h
  · rcases h with h | h | h
    · exact (key h).imp (.inl ·) id
    · exact .inl (.inr (.inl h))
    · exact .inl (.inr (.inr h))
  split at h
  · rcases h with h | h | h
    · exact .inl (.inl h)
    · exact (key h).imp (fun h => .inr (.inl h)) id
    · exact .inl (.inr (.inr h))
  split at h
  · rcases h with h | h | h
    · exact .inl (.inl h)
    · exact .inl (.inr (.inl h))
    · exact (key h).imp (fun h => .inr (.inr h)) id
  · exact .inl h

theorem update_holds {P : Sympy} {G} (hP : P.Sound G) {ms : List MEqn} {aux : List KEqn} {vs : List Var} {L : Lists}
    (h : updateL P.toCAS ms aux vs = .ok L) {v : String → ℝ} (hG : G v) (hv : Satisfies v ms aux) {e : KEqn} (he : Lists.mem L e) : Holds v e := by
  unfold updateL at h
  split at h
  · cases h
  next L0 hL0 =>
  cases h
  have h2 : ∀ (l : List KEqn) (L : Lists), (∀ a ∈ l, Holds v a) → (∀ x, Lists.mem L x → Holds v x) →
      ∀ x, Lists.mem (l.foldl (updAux P.toCAS vs) L) x → Holds v x := by
    intro l
    induction l with
    | nil => intro L _ h; exact h
    | cons a l ih =>
      intro L ha hL
      refine ih _ (fun x hx => ha x (by simp [hx])) fun x hx => ?_
      rcases updAux_mem hx with h | rfl
      · exact hL x h
      · have h0 := ha a (by simp)
        unfold Holds at h0 ⊢
        rw [hP.sub _ _ _ hG, h0]
        simp [Expr.eval]
  exact h2 aux L0 hv.2 (fun x hx => scan_holds hL0 hv hx) e he

/-! ### The mathematics of the solvers, at one point -/

section
variable {P : Sympy} {G : (String → ℝ) → Prop} (hP : P.Sound G) {v : String → ℝ} (hG : G v)
include hP hG

theorem alg_covers {u : String} {l : List KEqn} {tmp A B : Expr} (hl : ∀ e ∈ l, Holds v e) (hf : algebraFind P u l = some tmp)
    (hm : linearMatch P tmp u = some (A, B)) (hA : A.eval v ≠ 0) : Holds v ⟨.num 0, tmp⟩ ∧ v u = (quot P (.num 0) B A).eval v := by
  obtain ⟨e, he, rfl, -⟩ := algebraFind_spec hf
  have h0 : (P.collectU u (P.sub e.rhs e.lhs)).eval v = 0 := by
    rw [hP.collectU _ _ _ hG, hP.sub _ _ _ hG, hl e he, sub_self]
  have hlin := (linearMatch_spec hP hm).2.2.2 v hG
  refine ⟨by rw [Holds, h0]; simp [Expr.eval], ?_⟩
  rw [eval_quot hP hG hA]
  apply (lin_iff hA).1
  rw [← hlin, h0]; simp [Expr.eval]

theorem alg_eqn {u : String} {l : List KEqn} {tmp : Expr} (hl : ∀ e ∈ l, Holds v e) (hf : algebraFind P u l = some tmp) :
    Holds v ⟨.num 0, tmp⟩ := by
  obtain ⟨e, he, rfl, -⟩ := algebraFind_spec hf
  rw [Holds, hP.collectU _ _ _ hG, hP.sub _ _ _ hG, hl e he, sub_self]; simp [Expr.eval]

theorem sc_covers {u : String} {e : KEqn} {A B : Expr} {sine : Bool} (hpi : v "pi" = Real.pi) (he : Holds v e)
    (hl : P.lin (P.collectSC u e.rhs) (if sine then sinU u else cosU u) [sinU u, cosU u] = some (A, B)) (hA : A.eval v ≠ 0) :
    Covers v u (sincosSolutions P e.lhs A B sine) := by
  have h := hP.lin hl v hG
  rw [hP.collectSC _ _ _ hG, ← he] at h
  cases sine with
  | true =>
    simp only [if_true, eval_sinU] at h
    obtain ⟨b1, b2⟩ := asin_none hA h
    have hq := eval_quot hP (l := e.lhs) (B := B) hG hA
    rcases (asin_iff hA b1 b2).1 h with h | h
    · refine Covers.angle (e := .un .asin (quot P e.lhs B A)) (by simp [sincosSolutions]) rfl ?_
      simpa [Expr.eval, Fn1.eval, hq] using h
    · refine Covers.angle (e := .bin .add (.sym "pi") (.un .neg (.un .asin (quot P e.lhs B A)))) (by simp [sincosSolutions]) rfl ?_
      simpa [Expr.eval, Fn1.eval, Fn2.eval, hq, hpi, sub_eq_add_neg] using h
  | false =>
    simp only [Bool.false_eq_true, if_false, eval_cosU] at h
    obtain ⟨b1, b2⟩ := acos_none hA h
    have hq := eval_quot hP (l := e.lhs) (B := B) hG hA
    rcases (acos_iff hA b1 b2).1 h with h | h
    · refine Covers.angle (e := .un .acos (quot P e.lhs B A)) (by simp [sincosSolutions]) rfl ?_
      simpa [Expr.eval, Fn1.eval, hq] using h
    · refine Covers.angle (e := .un .neg (.un .acos (quot P e.lhs B A))) (by simp [sincosSolutions]) rfl ?_
      simpa [Expr.eval, Fn1.eval, Fn2.eval, hq] using h

theorem tan_covers {u : String} {e1 e2 : KEqn} {A B C D : Expr} {one : Bool} (h1 : Holds v e1) (h2 : Holds v e2)
    (hl1 : P.lin e1.rhs (sinU u) [sinU u, cosU u] = some (A, B)) (hl2 : P.lin e2.rhs (cosU u) [sinU u, cosU u] = some (C, D))
    (hA : A.eval v ≠ 0) (hC : C.eval v ≠ 0) : Covers v u (tanSolutions P e1.lhs e2.lhs A B C D one) := by
  have k1 := hP.lin hl1 v hG
  have k2 := hP.lin hl2 v hG
  rw [← h1, eval_sinU] at k1
  rw [← h2, eval_cosU] at k2
  have hs : A.eval v * Real.sin (v u) = e1.lhs.eval v - B.eval v := by linarith
  have hc : C.eval v * Real.cos (v u) = e2.lhs.eval v - D.eval v := by linarith
  have hco : (P.ratio A C).eval v = A.eval v / C.eval v := hP.ratio _ _ _ hG hC
  have hco0 : (P.ratio A C).eval v ≠ 0 := by rw [hco]; exact div_ne_zero hA hC
  cases one with
  | true =>
    refine Covers.angle (e := .bin .atan2 (P.ratio (P.sub e1.lhs B) A) (P.ratio (P.sub e2.lhs D) C)) (by simp [tanSolutions]) rfl ?_
    simp only [Expr.eval, Fn2.eval, hP.ratio _ _ _ hG hA, hP.ratio _ _ _ hG hC, hP.sub _ _ _ hG]
    exact tan_complete hA hC hs hc
  | false =>
    rcases lt_or_gt_of_ne hC with hn | hp
    · refine Covers.angle (e := .bin .atan2 (P.ratio (.un .neg (P.sub e1.lhs B)) (P.ratio A C)) (.un .neg (P.sub e2.lhs D)))
        (by simp [tanSolutions]) rfl ?_
      simp only [Expr.eval, Fn2.eval, Fn1.eval, hP.ratio _ _ _ hG hco0, hco, hP.sub _ _ _ hG]
      exact tan_neg hA hn hs hc
    · refine Covers.angle (e := .bin .atan2 (P.ratio (P.sub e1.lhs B) (P.ratio A C)) (P.sub e2.lhs D)) (by simp [tanSolutions]) rfl ?_
      simp only [Expr.eval, Fn2.eval, hP.ratio _ _ _ hG hco0, hco, hP.sub _ _ _ hG]
      exact tan_pos hA hp hs hc

theorem tanPair_holds {vs : List Var} {u : String} {es ec : KEqn} {a b : Expr} (h : tanPair P vs u es ec = some (a, b)) (hs : Holds v es)
    (hc : Holds v ec) : Holds v ⟨.num 0, a⟩ ∧ Holds v ⟨.num 0, b⟩ := by
  obtain ⟨rfl, rfl, -⟩ := tanPair_spec h
  refine ⟨?_, ?_⟩
  · rw [Holds, hP.collectSC _ _ _ hG, hP.sub _ _ _ hG, hs, sub_self]; simp [Expr.eval]
  · rw [Holds, hP.collectSC _ _ _ hG, hP.sub _ _ _ hG, hc, sub_self]; simp [Expr.eval]

theorem simu_holds {u : String} {l : List KEqn} {a b : Expr} (hl : ∀ e ∈ l, Holds v e)
    (h : simuFind P u (simuCands P u l) = some (a, b)) : Holds v ⟨.num 0, a⟩ ∧ Holds v ⟨.num 0, b⟩ := by
  obtain ⟨c1, h1, c2, h2, r1, r2⟩ := simuFind_spec h
  have key : ∀ c ∈ simuCands P u l, c.eval v = 0 := by
    intro c hc
    obtain ⟨e, he, rfl⟩ := simuCands_mem hc
    rw [hP.expandSC _ _ _ hG, hP.sub _ _ _ hG, hl e he, sub_self]
  dsimp only at r1 r2
  refine ⟨?_, ?_⟩
  · rw [Holds, r1, key c1 h1]; simp [Expr.eval]
  · rcases r2 with rfl | rfl
    · rw [Holds, key _ h2]; simp [Expr.eval]
    · simp [Holds, Expr.eval, negE, Fn1.eval, key _ h2]

omit hP hG in
theorem sq_pos_of_guard {u : String} {r : Expr} (h : (radius2 P u r).eval v ≠ 0) :
    0 < (P.coeff r (sinU u)).eval v ^ 2 + (P.coeff r (cosU u)).eval v ^ 2 := by
  refine lt_of_le_of_ne (by positivity) fun h0 => h ?_
  simp only [radius2, Expr.eval, Fn2.eval]
  rw [← pow_two, ← pow_two, ← h0]

theorem simu_covers {u : String} {a b : Expr} (ha : Holds v ⟨.num 0, a⟩) (hb : Holds v ⟨.num 0, b⟩) (hr : (radius2 P u a).eval v ≠ 0) :
    Covers v u [simuSolution P u a b] := by
  have ha' : a.eval v = 0 := by rw [← ha]; simp [Expr.eval]
  have hb' : b.eval v = 0 := by rw [← hb]; simp [Expr.eval]
  refine Covers.angle (e := simuSolution P u a b) (by simp) rfl ?_
  simp only [simuSolution, Expr.eval, Fn2.eval, hP.sub _ _ _ hG, hP.simplify _ _ hG, ha', hb', sub_zero]
  refine simu_complete (sq_pos_of_guard hr) ?_ ?_
  · rw [eval_sinCosComb]
  · rw [eval_cosSinComb]

theorem sac_holds {u : String} {l : List KEqn} {es : Expr} (hl : ∀ e ∈ l, Holds v e) (h : sacFind P u l = some es) : Holds v ⟨.num 0, es⟩ := by
  obtain ⟨e, he, rfl, -⟩ := sacFind_spec h
  rw [Holds, hP.expandSC _ _ _ hG, hP.sub _ _ _ hG, hl e he, sub_self]; simp [Expr.eval]

theorem sac_covers {u : String} {es : Expr} (hpi : v "pi" = Real.pi) (he : Holds v ⟨.num 0, es⟩) (hr : (radius2 P u es).eval v ≠ 0) :
    Covers v u [(sacSolutions P u es).1, (sacSolutions P u es).2] := by
  have he' : es.eval v = 0 := by rw [← he]; simp [Expr.eval]
  have heq : (P.coeff es (sinU u)).eval v * Real.sin (v u) + (P.coeff es (cosU u)).eval v * Real.cos (v u) =
      (P.sub (sinCosComb (P.coeff es (sinU u)) (P.coeff es (cosU u)) u) es).eval v := by
    rw [hP.sub _ _ _ hG, he', sub_zero, eval_sinCosComb]
  have hcase := sac_values hP (A := P.coeff es (sinU u)) (B := P.coeff es (cosU u))
    (C := P.sub (sinCosComb (P.coeff es (sinU u)) (P.coeff es (cosU u)) u) es) (r2 := radius2 P u es)
    (sol1 := (sacSolutions P u es).1) (sol2 := (sacSolutions P u es).2) rfl (by
      unfold sacSolutions
      by_cases h : P.eqE (P.sub (sinCosComb (P.coeff es (sinU u)) (P.coeff es (cosU u)) u) es) (.num 0) = true
      · left; simp [h]
      · right; simp [h]) hG hpi hr (v u) ⟨_, heq⟩
  have hang : isAngle (sacSolutions P u es).1 = true ∧ isAngle (sacSolutions P u es).2 = true := by
    unfold sacSolutions
    dsimp only
    split <;> exact ⟨rfl, rfl⟩
  rcases hcase.1 heq with h | h
  · exact Covers.angle (by simp) hang.1 h
  · exact Covers.angle (by simp) hang.2 h
end

/-! ### The steps keep the invariant -/

theorem GuardsOk.of_append {v : String → ℝ} {s s' : LS} {g : List Expr} (h : GuardsOk v s') (hg : s'.guards = s.guards ++ g) :
    GuardsOk v s ∧ ∀ e ∈ g, e.eval v ≠ 0 :=
  ⟨fun e he => h e (by rw [hg]; simp [he]), fun e he => h e (by rw [hg]; simp [he])⟩

/-- A change of identification marks. -/
theorem good_updLd {v : String → ℝ} {s : LS} (h : Good v s) (f : LeafData → LeafData)
    (hc : ∀ b, cand b (f (s.ld s.curr)) = cand b (s.ld s.curr)) (hE : ∀ b, candE b (f (s.ld s.curr)) = candE b (s.ld s.curr))
    (he : ∀ e, (f (s.ld s.curr)).eqn = some e → Holds v e) (he2 : ∀ e, (f (s.ld s.curr)).second = some e → Holds v e) :
    Good v (s.updLd s.curr f) := by
  refine ⟨h.ms, h.aux, h.l1, h.l2, fun x => ?_⟩
  by_cases hx : x = s.curr
  · subst hx
    have hu := h.unk s.curr
    rw [updLd_same, updLd_w]
    exact ⟨he, he2, fun b => by rw [hc b]; exact hu.cands b, fun b => by rw [hE b]; exact hu.eqns b, hu.sols, hu.done⟩
  · rw [updLd_other _ _ _ hx, updLd_w]; exact h.unk x

/-- New candidates that cover. -/
theorem good_ext {v : String → ℝ} {own : Bool} {new : List Expr} {es : List KEqn} {g : List Expr} {s s' : LS} (h : Good v s)
    (hE : Ext own new es g s s') (hn : Covers v s.curr new) (hes : ∀ e ∈ es, Holds v e) : Good v s' := by
  refine ⟨by rw [hE.ms]; exact h.ms, by rw [hE.aux]; exact h.aux, by rw [hE.lists]; exact h.l1, by rw [hE.lists]; exact h.l2, fun x => ?_⟩
  by_cases hx : x = s.curr
  · subst hx
    have hu := h.unk s.curr
    have hf := hE.fields
    simp only [Prod.mk.injEq] at hf
    have hcov : Covers v s.curr (s'.w.unk s.curr).solutions := by
      rw [hE.sols]; exact hn.mono fun e he => by simp [he]
    have hown : Covers v s.curr (cand own (s'.ld s.curr)) := by rw [hE.mine]; exact hn.mono fun e he => by simp [he]
    have hoth : cand (!own) (s'.ld s.curr) = [] ∨ Covers v s.curr (cand (!own) (s'.ld s.curr)) := by
      rw [hE.oth]
      split
      · exact .inr (hn.mono fun e he => by simp [he])
      · rw [List.append_nil]; exact hu.cands (!own)
    refine ⟨by rw [hf.1]; exact hu.eqn, by rw [hf.2.1]; exact hu.second, fun b => ?_, fun b => ?_, .inr hcov, fun _ => ?_⟩
    · by_cases hb : b = own
      · subst hb; exact .inr hown
      · have : b = !own := by cases b <;> cases own <;> simp_all
        subst this; exact hoth
    · by_cases hb : b = own
      · subst hb
        rw [hE.mineE]
        intro e he
        rcases List.mem_append.1 he with he | he
        · exact hu.eqns b e he
        · exact hes e he
      · have : b = !own := by cases b <;> cases own <;> simp_all
        subst this
        rw [hE.othE]; exact hu.eqns _
    · obtain ⟨e, he, -⟩ := hcov
      intro h0; rw [h0] at he; cases he
  · rw [hE.other x hx, hE.only.other hx]; exact h.unk x

/-- The current unknown was solved with solutions that cover. -/
theorem good_solves {v : String → ℝ} {sols : List Expr} {s s' : LS} (h : Good v s) (hs : Solves sols s s') (hc : Covers v s.curr sols)
    (hcand : ∀ b, cand b (s'.ld s.curr) = [] ∨ Covers v s.curr (cand b (s'.ld s.curr))) (hcE : ∀ b, ∀ e ∈ candE b (s'.ld s.curr), Holds v e)
    (he : ∀ e, (s'.ld s.curr).eqn = some e → Holds v e) (he2 : ∀ e, (s'.ld s.curr).second = some e → Holds v e) : Good v s' := by
  have hst := Sol.setSolved_ok hs.w
  refine ⟨by rw [hs.ms]; exact h.ms, by rw [hs.aux]; exact h.aux, by rw [hs.lists]; exact h.l1, by rw [hs.lists]; exact h.l2, fun x => ?_⟩
  by_cases hx : x = s.curr
  · subst hx
    have hsol : (s'.w.unk s.curr).solutions = sols := by rw [hst.solutions]; simp [setSolutions]
    refine ⟨he, he2, hcand, hcE, by rw [hsol]; exact .inr hc, fun _ h0 => ?_⟩
    rw [hsol] at h0
    obtain ⟨e, he, -⟩ := hc
    rw [h0] at he; cases he
  · rw [hs.other x hx, hst.other x hx]
    have : (setSolutions s.w s.curr sols).unk x = s.w.unk x := Sol.upd_other _ _ hx
    rw [this]; exact h.unk x

/-- rank chooses among candidates that cover -/
theorem good_rank {v : String → ℝ} {s s' : LS} (h : Good v s) (hr : RankCase s s')
    (hne : (s.w.unk s.curr).solutions ≠ [] ∨ ((s.ld s.curr).scSols = [] ∧ (s.ld s.curr).tanSols = [])) : Good v s' := by
  have hu := h.unk s.curr
  cases hr with
  | none => exact h
  | one h0 h1 =>
    have hsv := solves_of (s := s) (OnlySols.refl _ _) rfl rfl rfl rfl rfl ⟨[], by simp⟩ (fun _ _ => rfl) h1
    have hld : s'.ld s.curr = { s.ld s.curr with ready := false } := by
      rw [(LS.setSolved_ok h1).2.2.2.2.2.2.2]; simp
    refine good_solves h hsv ?_ ?_ ?_ ?_ ?_
    · rcases hu.sols with h2 | h2
      · rcases hne with h3 | ⟨h3, h4⟩
        · exact absurd h2 h3
        · exact absurd h4 (h0.1 h3)
      · exact h2
    · rw [hld]; exact hu.cands
    · rw [hld]; exact hu.eqns
    · rw [hld]; exact hu.eqn
    · rw [hld]; exact hu.second
  | @chosen _ a0 l0 a1 l1 e0 b sec tags h1 h2 _ h4 h5 h3 =>
    have hsv := solves_of (s := s) (by
      simp only [updLd_w, updU_w]
      exact onlySols_upd _ _ (fun x : Unk => { x with solutions := _, nsolutions := _ }) fun _ => rfl)
      (by simp) (by simp) (by simp) (by simp) (by simp) ⟨[], by simp⟩
      (fun n hn => by rw [updLd_other _ _ _ hn, updU_ld]) h3
    have hld := (LS.setSolved_ok h3).2.2.2.2.2.2.2
    have hld : s'.ld s.curr = { s.ld s.curr with
        ready := false, eqn := some e0, second := if b then sec else (s.ld s.curr).second, method := (s.ld s.curr).method ++ tags, shared := some b } := by
      rw [hld]; simp only [if_true, updLd_same, updU_ld]
    have hne : ∀ b, cand b (s.ld s.curr) ≠ [] := by intro b; cases b <;> simp [cand, h1, h2]
    refine good_solves h hsv ?_ ?_ ?_ ?_ ?_
    · simp only [updLd_w, updU_w, Sol.upd_same]
      exact (hu.cands b).resolve_left (hne b)
    · rw [hld]; exact hu.cands
    · rw [hld]; exact hu.eqns
    · rw [hld]
      intro e he
      cases he
      exact hu.eqns b _ (List.mem_of_mem_head? h4)
    · rw [hld]
      intro e he
      dsimp only at he
      split at he
      · next hb =>
        obtain ⟨e2, q1, q2⟩ := h5 hb
        rw [q2] at he; cases he
        exact hu.eqns true _ (by rw [candE, if_pos rfl]; exact List.mem_of_getElem? q1)
      · exact hu.second e he

section
variable {P : Sympy} {G : (String → ℝ) → Prop} (hP : P.Sound G) {v : String → ℝ} (hG : G v) (hpi : v "pi" = Real.pi)
include hP hG

theorem good_tanSol {s s' : LS} {st : Status} (h : den (env P) 0 tanSol s = .ok (st, s')) (hg : GuardsOk v s') (hs : Good v s) :
    Good v s' ∧ (st = .success → (s'.w.unk s.curr).solutions ≠ []) := by
  rcases tanSol_cases h with ⟨rfl, rfl⟩ | ⟨rfl, s1, hm, e1, e2, A, B, C, D, one, q1, q2, q3, q4, hE⟩
  · exact ⟨hs, by simp⟩
  have hc1 : s1.curr = s.curr := hm.soft.curr
  have hs1 : Good v s1 := by
    cases hm with
    | old _ => exact hs
    | new _ _ hes hec hp =>
      have hmem : ∀ e ∈ s.lists.l1 ++ s.lists.l2, Holds v e := by
        intro e he
        rcases List.mem_append.1 he with he | he
        · exact hs.l1 e he
        · exact hs.l2 e he
      obtain ⟨r1, r2⟩ := tanPair_holds hP hG hp (hmem _ hes) (hmem _ hec)
      refine good_updLd hs _ (fun b => rfl) (fun b => rfl) ?_ ?_
      · intro e he; cases he; exact r1
      · intro e he; cases he; exact r2
  obtain ⟨-, g2⟩ := hg.of_append hE.guards
  have r1 := (hs1.unk s.curr).eqn e1 q1
  have r2 := (hs1.unk s.curr).second e2 q2
  have hcov : Covers v s1.curr (tanSolutions P e1.lhs e2.lhs A B C D one) := by
    rw [hc1]; exact tan_covers hP hG r1 r2 q3 q4 (g2 A (by simp)) (g2 C (by simp))
  refine ⟨good_ext hs1 hE hcov (by simp [r1, r2]), fun _ => ?_⟩
  rw [← hc1, hE.sols]
  simp [tanSolutions_ne]

include hpi in
theorem good_scSol {s s' : LS} {st : Status} (h : den (env P) 0 scSol s = .ok (st, s')) (hg : GuardsOk v s') (hs : Good v s) :
    Good v s' ∧ (st = .success → (s'.w.unk s.curr).solutions ≠ []) ∧
      ((s.w.unk s.curr).solutions ≠ [] → (s'.w.unk s.curr).solutions ≠ []) := by
  have mark : ∀ e t, sincosFind s.curr s.lists.l1 = some (e, t) →
      Good v (s.updLd s.curr fun d => { d with eqn := some e, method := d.method ++ [t], solvableSc := true }) := by
    intro e t hf
    refine good_updLd hs _ (fun b => rfl) (fun b => rfl) ?_ (hs.unk s.curr).second
    intro e' he'; cases he'; exact hs.l1 e (sincosFind_mem hf)
  rcases scSol_cases h with ⟨rfl, rfl | ⟨_, e, t, hf, rfl⟩⟩ | ⟨rfl, hu, e, t, A, B, sine, q1, q2, q3, q4, hE⟩
  · exact ⟨hs, by simp, id⟩
  · exact ⟨mark e t hf, by simp, id⟩
  · have hmk := mark e t q1
    have he := hs.l1 e (sincosFind_mem q1)
    obtain ⟨-, g2⟩ := hg.of_append hE.guards
    have hcov := sc_covers hP hG hpi he q3 (g2 A (by simp))
    have hsol := hE.sols
    rw [updLd_curr] at hsol
    refine ⟨good_ext hmk hE hcov (by simp [he]), fun _ => ?_, fun _ => ?_⟩
    · rw [hsol]; simp [sincosSolutions_ne]
    · rw [hsol]; simp [sincosSolutions_ne]

omit hP hG in
theorem tanSol_guards {s s' : LS} {st : Status} (h : den (env P) 0 tanSol s = .ok (st, s')) : Soft s s' := by
  rcases tanSol_cases h with ⟨rfl, rfl⟩ | ⟨rfl, s0, hm, e1, e2, A, B, C, D, one, _, _, _, _, hE⟩
  · exact Soft.refl _
  · exact hm.soft.trans hE.soft

omit hP hG in
theorem RankCase.guards {s s' : LS} (h : RankCase s s') : s'.guards = s.guards := by
  cases h with
  | none => rfl
  | one _ h1 => exact (LS.setSolved_ok h1).2.2.2.2.2.2.1
  | chosen b sec tags _ _ _ _ _ h1 => rw [(LS.setSolved_ok h1).2.2.2.2.2.2.1]; simp

include hpi in
theorem good_scTan {s s' : LS} {st : Status} (h : den (env P) 0 scTan s = .ok (st, s')) (hg : GuardsOk v s') (hs : Good v s) :
    Good v s' ∧ GuardsOk v s := by
  obtain ⟨st1, s1, st2, s2, h1, h2, hor⟩ := scTan_parts h
  have two1 : st1 = .success ∨ st1 = .failure := by
    rcases tanSol_cases h1 with ⟨rfl, _⟩ | ⟨rfl, _⟩ <;> simp
  have two2 : st2 = .success ∨ st2 = .failure := by
    rcases scSol_cases h2 with ⟨rfl, _⟩ | ⟨rfl, _⟩ <;> simp
  have hs1 := tanSol_guards h1
  have hs2 := (scSol_soft h2).1
  have hg2 : GuardsOk v s2 := by
    rcases hor with ⟨_, _, _, rfl⟩ | ⟨_, h3⟩
    · exact hg
    · have := RankCase.guards (rank_cases h3).2
      intro e he; exact hg e (by rw [this]; exact he)
  have hg1 : GuardsOk v s1 := by obtain ⟨g, h⟩ := hs2.guards; exact (hg2.of_append h).1
  have hg0 : GuardsOk v s := by obtain ⟨g, h⟩ := hs1.guards; exact (hg1.of_append h).1
  obtain ⟨k1, k2⟩ := good_tanSol hP hG h1 hg1 hs
  obtain ⟨k3, k4, k5⟩ := good_scSol hP hG hpi h2 hg2 k1
  rw [hs1.curr] at k4 k5
  refine ⟨?_, hg0⟩
  rcases hor with ⟨_, _, _, rfl⟩ | ⟨hne, h3⟩
  · exact k3
  · refine good_rank k3 (rank_cases h3).2 (.inl ?_)
    rw [hs2.curr, hs1.curr]
    rcases hne with h | h
    · exact k5 (k2 (two1.resolve_right h))
    · exact k4 (two2.resolve_right h)

theorem good_algSol {s s' : LS} {st : Status} (h : den (env P) 0 algSol s = .ok (st, s')) (hi : Inv s) (hg : GuardsOk v s') (hs : Good v s) :
    Good v s' ∧ GuardsOk v s := by
  rcases algSol_cases h with ⟨rfl, hq, rfl | ⟨hu, tmp, hf, rfl⟩⟩ | ⟨rfl, hu, tmp, A, B, hf, hm, hfree, hsv, hgd, hld⟩
  · exact ⟨hs, hg⟩
  · refine ⟨good_updLd hs _ (fun b => rfl) (fun b => rfl) ?_ (hs.unk s.curr).second, hg⟩
    intro e he; cases he; exact alg_eqn hP hG hs.l1 hf
  · obtain ⟨g1, g2⟩ := hg.of_append hgd
    obtain ⟨r1, r2⟩ := alg_covers hP hG hs.l1 hf hm (g2 A (by simp))
    have hun := (hi.fresh s.curr hu).2
    simp only [LeafData.kept, Prod.mk.injEq] at hun
    have hld := hld hun.2.2.2.2.1
    have hu' := hs.unk s.curr
    refine ⟨good_solves hs hsv ⟨quot P (.num 0) B A, by simp, .inl r2⟩ ?_ ?_ ?_ ?_, g1⟩
    · rw [hld]; exact hu'.cands
    · rw [hld]; exact hu'.eqns
    · rw [hld]; intro e he; cases he; exact r1
    · rw [hld]; exact hu'.second

theorem good_simuSol {s s' : LS} {st : Status} (h : den (env P) 0 simuSol s = .ok (st, s')) (hg : GuardsOk v s') (hs : Good v s) :
    Good v s' ∧ GuardsOk v s := by
  rcases simuSol_cases h with ⟨rfl, hq, rfl | ⟨hu, a, b, hf, rfl⟩⟩ | ⟨rfl, hu, a, b, hf, hsv, hgd, hld⟩
  · exact ⟨hs, hg⟩
  · obtain ⟨r1, r2⟩ := simu_holds hP hG hs.l1 hf
    refine ⟨good_updLd hs _ (fun b => rfl) (fun b => rfl) ?_ ?_, hg⟩
    · intro e he; cases he; exact r1
    · intro e he; cases he; exact r2
  · obtain ⟨r1, r2⟩ := simu_holds hP hG hs.l1 hf
    obtain ⟨g1, g2⟩ := hg.of_append hgd
    have hu' := hs.unk s.curr
    refine ⟨good_solves hs hsv (simu_covers hP hG r1 r2 (g2 _ (by simp))) ?_ ?_ ?_ ?_, g1⟩
    · rw [hld]; exact hu'.cands
    · rw [hld]; exact hu'.eqns
    · rw [hld]; intro e he; cases he; exact r1
    · rw [hld]; intro e he; cases he; exact r2

include hpi in
theorem good_sacSol {s s' : LS} {st : Status} (h : den (env P) 0 sacSol s = .ok (st, s')) (hi : Inv s) (hg : GuardsOk v s') (hs : Good v s) :
    Good v s' ∧ GuardsOk v s := by
  rcases sacSol_cases h with ⟨rfl, rfl⟩ | ⟨rfl, hu, es, hf, hsv, hgd, hld⟩
  · exact ⟨hs, hg⟩
  · have r1 := sac_holds hP hG hs.l1 hf
    obtain ⟨g1, g2⟩ := hg.of_append hgd
    have hun := (hi.fresh s.curr hu).2
    simp only [LeafData.kept, Prod.mk.injEq] at hun
    have hld := hld hun.2.2.2.2.1
    have hu' := hs.unk s.curr
    refine ⟨good_solves hs hsv ((sac_covers hP hG hpi r1 (g2 _ (by simp))).mono fun e he => by simp at he ⊢; tauto) ?_ ?_ ?_ ?_, g1⟩
    · rw [hld]; exact hu'.cands
    · rw [hld]; exact hu'.eqns
    · rw [hld]; intro e he; cases he; exact r1
    · rw [hld]; exact hu'.second

theorem good_x2z2 (hsum : RespectsSums v) {s s' : LS} {st : Status} (h : x2z2 P s = .ok (st, s')) (hg : GuardsOk v s') (hs : Good v s) :
    Good v s' ∧ GuardsOk v s := by
  rcases x2z2_cases h with ⟨rfl, rfl⟩ | ⟨rfl, ha⟩
  · exact ⟨hs, hg⟩
  · obtain ⟨e, h1, h2, h3, h4, -, -, -, -, e1, m1, e2, m2, -, -, -, -, -, hh⟩ := C39_x2z2 hP h
    obtain ⟨e', he'⟩ := ha.rest
    have hgd : s'.guards = s.guards := by rw [he']
    refine ⟨⟨by rw [h4]; exact hs.ms, ?_, by rw [h3]; exact hs.l1, by rw [h3]; exact hs.l2, fun x => ?_⟩, fun g hg' => hg g (by rw [hgd]; exact hg')⟩
    · rw [h1]
      intro a ha
      rcases List.mem_append.1 ha with ha | ha
      · exact hs.aux a ha
      · rw [List.mem_singleton] at ha; subst ha
        exact hh v hG hsum (hs.l2 e1 m1) (hs.l2 e2 m2)
    · have hu := hs.unk x
      rw [h2, ha.ld x]
      exact ⟨hu.eqn, hu.second, hu.cands, hu.eqns, hu.sols, hu.done⟩

omit hP hG in
theorem quiet_inv {s s' : LS} (hi : Inv s) (hq : Quiet s s') : Inv s' :=
  ⟨fun x hx => by rw [hq.w] at hx; exact (hi.fresh x hx).quiet hq, fun x => by rw [hq.w]; exact hi.nodes x⟩

include hpi in
theorem good_work (hsum : RespectsSums v) {s s' : LS} {st : Status} (h : den (env P) 0 worktools s = .ok (st, s')) (hi : Inv s)
    (hg : GuardsOk v s') (hI : GuardsOk v s → Good v s) : Good v s' := by
  have hgs : ∃ g, s'.guards = s.guards ++ g := by
    rcases work_cases h with ⟨_, hq⟩ | ⟨_, _, sols, hsv⟩ | ⟨_, s1, hq, ha⟩
    · exact ⟨[], by rw [hq.guards]; simp⟩
    · exact hsv.guards
    · obtain ⟨e, he⟩ := ha.rest
      exact ⟨[], by rw [he]; simp [hq.guards]⟩
  obtain ⟨g, hgs⟩ := hgs
  have hs := hI (hg.of_append hgs).1
  have hg0 : GuardsOk v s := (hg.of_append hgs).1
  clear hI
  rw [worktools, lf, den, dens, dens, dens, dens, dens, dens, denComp] at h
  rcases denPri_cons h with ⟨h1, hne⟩ | ⟨s1, h1, h⟩
  · exact (good_algSol hP hG h1 hi hg hs).1
  have q1 : Quiet s s1 := by
    rcases algSol_cases h1 with ⟨_, hq, _⟩ | ⟨h, _⟩
    · exact hq
    · cases h
  have gd : ∀ {t : LS}, Quiet s t → GuardsOk v t := fun hq e he => hg0 e (by rw [← hq.guards]; exact he)
  have hs1 := (good_algSol hP hG h1 hi (gd q1) hs).1
  clear h1
  rcases denPri_cons h with ⟨h1, hne⟩ | ⟨s2, h1, h⟩
  · exact (good_scTan hP hG hpi h1 hg hs1).1
  have q2 : Quiet s s2 := by
    rcases scTan_cases h1 with ⟨_, hq, _⟩ | ⟨h, _⟩
    · exact q1.trans hq
    · cases h
  have hs2 := (good_scTan hP hG hpi h1 (gd q2) hs1).1
  clear h1
  rcases denPri_cons h with ⟨h1, hne⟩ | ⟨s3, h1, h⟩
  · exact (good_simuSol hP hG h1 hg hs2).1
  have q3 : Quiet s s3 := by
    rcases simuSol_cases h1 with ⟨_, hq, _⟩ | ⟨h, _⟩
    · exact q2.trans hq
    · cases h
  have hs3 := (good_simuSol hP hG h1 (gd q3) hs2).1
  clear h1
  rcases denPri_cons h with ⟨h1, hne⟩ | ⟨s4, h1, h⟩
  · exact (good_sacSol hP hG hpi h1 (quiet_inv hi q3) hg hs3).1
  have q4 : Quiet s s4 := by
    rcases sacSol_cases h1 with ⟨_, rfl⟩ | ⟨h, _⟩
    · exact q3
    · cases h
  have hs4 := (good_sacSol hP hG hpi h1 (quiet_inv hi q3) (gd q4) hs3).1
  clear h1
  rcases denPri_cons h with ⟨h1, hne⟩ | ⟨s5, h1, h⟩
  · exact (good_x2z2 hP hG hsum (denLeaf_ok.mp h1) hg hs4).1
  · simp only [denPri] at h
    cases h
    exact (good_x2z2 hP hG hsum (denLeaf_ok.mp h1) hg hs4).1

include hpi in
/-- One step. -/
theorem good_step (hsum : RespectsSums v) {s s' : LS} (h : Step P s s') (hi : Inv s) (hI : GuardsOk v s → Good v s) :
    GuardsOk v s' → Good v s' := by
  intro hg
  cases h with
  | assign h =>
    obtain ⟨-, c, x, hx, rfl, -⟩ := assigner_cases h
    have hs := hI hg
    exact ⟨hs.ms, hs.aux, hs.l1, hs.l2, hs.unk⟩
  | work hc h => exact good_work hP hG hpi hsum h hi hg hI
  | sub h =>
    obtain ⟨m, ms, hms, -, h1, h2, h3, h4, h5, h6, h7, h8⟩ := subTransform_spec h
    have hs : Good v s := hI fun g hg' => hg g (by rw [h7]; exact hg')
    obtain ⟨m0, m', ms', k1, k2, -, -, -, -, k3⟩ := C40_consequence_partial hP h
    have hms' : ∀ m ∈ s'.ms, MHolds v m := by
      rw [k2]
      intro a ha
      rcases List.mem_cons.1 ha with rfl | ha
      · exact k3 v hG (hs.ms m0 (by rw [k1]; simp))
      · exact hs.ms a (by rw [k1]; simp [ha])
    have hlists : (∀ e ∈ s'.lists.l1, Holds v e) ∧ ∀ e ∈ s'.lists.l2, Holds v e := by
      rcases h8 with ⟨-, hl⟩ | hsc
      · rw [hl]; exact ⟨hs.l1, hs.l2⟩
      · exact ⟨fun e he => scan_holds hsc ⟨hms', hs.aux⟩ (.inl he), fun e he => scan_holds hsc ⟨hms', hs.aux⟩ (.inr (.inl he))⟩
    exact ⟨hms', by rw [h4]; exact hs.aux, hlists.1, hlists.2, by rw [h2, h3]; exact hs.unk⟩
  | upd h =>
    obtain ⟨-, L, hL, rfl⟩ := updateLeaf_cases h
    have hs := hI hg
    exact ⟨hs.ms, hs.aux, fun e he => update_holds hP hL hG ⟨hs.ms, hs.aux⟩ (.inl he),
      fun e he => update_holds hP hL hG ⟨hs.ms, hs.aux⟩ (.inr (.inl he)), hs.unk⟩
end

/-- C51: For every sympy that is sound at the values v, and every run of the solver that returns (with success or failure): if v satisfies the
matrix equations and the auxiliary equations of the robot, gives the sums of angles the sum of the values of their summands, and makes no
coefficient zero that the solutions divide by, then for every solved unknown one of its solutions has the value v gives it (angles: modulo
2π). No configuration of the robot is lost. -/
theorem C51_no_solution_lost {P : Sympy} {G} (hP : P.Sound G) {us : List String} {ms : List MEqn} {aux : List KEqn} {st : Status} {s : LS}
    {counter : Nat} (h : solve P us ms aux counter = .ok (st, s)) {v : String → ℝ} (hG : G v) (hpi : v "pi" = Real.pi) (hsum : RespectsSums v)
    (hv : Satisfies v ms aux) (hg : ∀ g ∈ s.guards, g.eval v ≠ 0) {x : String} (hx : (s.w.unk x).solved = true) :
    ∃ sol ∈ (s.w.unk x).solutions, v x = sol.eval v ∨ (isAngle sol = true ∧ SameAngle (v x) (sol.eval v)) := by
  obtain ⟨_, L, hL, hp, _⟩ := solve_cases h
  have h0 : Inv (init us ms aux L) ∧ (GuardsOk v (init us ms aux L) → Good v (init us ms aux L)) := by
    refine ⟨inv_init us ms aux L, fun _ => ⟨hv.1, hv.2, fun e he => scan_holds hL hv (.inl he), fun e he => scan_holds hL hv (.inr (.inl he)), fun x => ?_⟩⟩
    refine ⟨fun e he => ?_, fun e he => ?_, fun b => ?_, fun b e he => ?_, .inl rfl, fun h => ?_⟩
    · cases he
    · cases he
    · cases b <;> exact .inl rfl
    · cases b <;> cases he
    · cases h
  have hfin := hp.inv (I := fun s => Inv s ∧ (GuardsOk v s → Good v s))
    (fun a b ha hst => ⟨inv_step ha.1 hst, good_step hP hG hpi hsum hst ha.1 ha.2⟩) h0
  have hgood := hfin.2 hg
  exact ((hgood.unk x).sols).resolve_left ((hgood.unk x).done hx)

/-- C51 for whole configurations: if moreover nothing was solved twice and no unknown is in its own solutions, the solution table has exactly
one row for a combination of solutions that gives, for every solved unknown at once, the value v gives it.
Missing: runs in which an unknown was solved twice, solutions that contain their own unknown. -/
theorem C51_row_partial {P : Sympy} {G} (hP : P.Sound G) {us : List String} {ms : List MEqn} {aux : List KEqn} {st : Status} {s : LS}
    {counter : Nat} (h : solve P us ms aux counter = .ok (st, s)) (hn : s.w.nodes.Nodup) (hf : SelfFree s.w) (hne : s.w.nodes ≠ [])
    {v : String → ℝ} (hG : G v) (hpi : v "pi" = Real.pi) (hsum : RespectsSums v)
    (hv : Satisfies v ms aux) (hg : ∀ g ∈ s.guards, g.eval v ≠ 0) :
    ∃ c : List Nat, c.length = s.w.nodes.length ∧
      (∀ (i : Nat) x, s.w.nodes[i]? = some x → ∃ (j : Nat) (sol : Expr), c[i]? = some j ∧ (s.w.unk x).solutions[j]? = some sol ∧ Gives v x sol) ∧
      ∃ (k : Nat) (r : Row), (createSolutionSet (tableInput s.w))[k]? = some r ∧ picks (tableInput s.w) r = c ∧
        ∀ (k' : Nat) r', (createSolutionSet (tableInput s.w))[k']? = some r' → picks (tableInput s.w) r' = c → k' = k := by
  obtain ⟨_, L, _, hp, _⟩ := solve_cases h
  have hi := path_inv hp (inv_init us ms aux L)
  have hcov : ∀ x ∈ s.w.nodes, ∃ (j : Nat) (sol : Expr), (s.w.unk x).solutions[j]? = some sol ∧ Gives v x sol := by
    intro x hx
    obtain ⟨sol, hs, hgv⟩ := C51_no_solution_lost hP h hG hpi hsum hv hg ((hi.nodes x).2 hx)
    obtain ⟨j, hj⟩ := List.mem_iff_getElem?.1 hs
    exact ⟨j, sol, hj, hgv⟩
  classical
  let c : List Nat := s.w.nodes.map fun x => if hx : x ∈ s.w.nodes then (hcov x hx).choose else 0
  have hc : ∀ (i : Nat) x, s.w.nodes[i]? = some x → ∃ (j : Nat) (sol : Expr), c[i]? = some j ∧ (s.w.unk x).solutions[j]? = some sol ∧ Gives v x sol := by
    intro i x hx
    have hm := List.mem_of_getElem? hx
    obtain ⟨sol, h1, h2⟩ := (hcov x hm).choose_spec
    refine ⟨(hcov x hm).choose, sol, ?_, h1, h2⟩
    simp [c, hx, hm]
  refine ⟨c, by simp [c], hc, ?_⟩
  refine (C16_solver_partial h hn hf hne).1.2 c ⟨by simp [c, tableInput], ?_⟩
  intro i u j hu hj
  rw [tableInput, List.getElem?_map] at hu
  obtain ⟨x, hx, rfl⟩ := Option.map_eq_some_iff.1 hu
  obtain ⟨j', sol, k1, k2, -⟩ := hc i x hx
  rw [k1] at hj; cases hj
  have hlt := (List.getElem?_eq_some_iff.1 k2).1
  obtain ⟨q1, q2⟩ := solve_calls h hn
  have hcm : (x, (s.w.unk x).solutions) ∈ callsOf s.w := List.mem_map.2 ⟨x, List.mem_of_getElem? hx, rfl⟩
  have := (C20_versions_formula (callsOf_fresh hn hf) q1 hcm).2.2
  simp only
  rw [this]; exact hlt

/-- A configuration of the robot of `demoTwo`: th_1 = 1, d_2 = 2, l_1 = 3. -/
noncomputable def demoV (x : String) : ℝ :=
  if x = "th_1" ∨ x = "th_12" ∨ x = "th_123" then 1 else if x = "d_2" then 2 else if x = "l_1" then 3 else if x = "Pz" then 5
  else if x = "r_11" then Real.cos 1 else if x = "r_21" then Real.sin 1 else if x = "pi" then Real.pi else 0

theorem demoV_sums : RespectsSums demoV := by
  constructor
  · intro i hi
    simp only [List.mem_cons, List.not_mem_nil, or_false] at hi
    rcases hi with rfl | rfl | rfl | rfl | rfl
    · show demoV "th_12" = demoV "th_1" + demoV "th_2"; simp [demoV]
    · show demoV "th_23" = demoV "th_2" + demoV "th_3"; simp [demoV]
    · show demoV "th_34" = demoV "th_3" + demoV "th_4"; simp [demoV]
    · show demoV "th_45" = demoV "th_4" + demoV "th_5"; simp [demoV]
    · show demoV "th_56" = demoV "th_5" + demoV "th_6"; simp [demoV]
  · intro i hi
    simp only [List.mem_cons, List.not_mem_nil, or_false] at hi
    rcases hi with rfl | rfl | rfl | rfl
    · show demoV "th_123" = demoV "th_1" + demoV "th_2" + demoV "th_3"; simp [demoV]
    · show demoV "th_234" = demoV "th_2" + demoV "th_3" + demoV "th_4"; simp [demoV]
    · show demoV "th_345" = demoV "th_3" + demoV "th_4" + demoV "th_5"; simp [demoV]
    · show demoV "th_456" = demoV "th_4" + demoV "th_5" + demoV "th_6"; simp [demoV]

/-- Non-vacuity of C51_no_solution_lost and C51_row_partial: the run of `demoTwo` solves both unknowns, its guards are 1, demoV satisfies the
equations. (The solution of th_1 is atan2(r_21, r_11), that of d_2 is Pz - l_1.) -/
theorem demoTwo_meets : ∃ s, demoTwo = .ok (.success, s) ∧ Satisfies demoV [demoM (.num 0, .num 0) (.sym "Pz", .bin .add (.sym "d_2") (.sym "l_1"))] [] ∧
    demoV "pi" = Real.pi ∧ RespectsSums demoV ∧ (∀ g ∈ s.guards, g.eval demoV ≠ 0) ∧ (s.w.unk "th_1").solved = true ∧
    (s.w.unk "d_2").solved = true ∧ s.w.nodes.Nodup ∧ s.w.nodes ≠ [] ∧ SelfFree s.w := by
  have hv := demoTwo_view
  have hd : demoTwo.toOption.map (fun r => (r.2.guards, (r.2.w.unk "th_1").solved, (r.2.w.unk "d_2").solved))
      = some ([.num 1, .num 1, .num 1, .num 1], true, true) := by decide +kernel
  rcases hr : demoTwo with c | ⟨st, s⟩
  · rw [hr] at hv; simp [view, Except.toOption] at hv
  rw [hr] at hv hd
  simp only [view, Except.toOption, Option.map_some, Option.some.injEq, Prod.mk.injEq] at hv hd
  obtain ⟨h1, h2, h3⟩ := hv
  subst h1
  have hn : s.w.nodes.Nodup := by rw [h2]; decide
  refine ⟨s, rfl, ⟨?_, by simp⟩, by simp [demoV], demoV_sums, ?_, hd.2.1, hd.2.2, hn, by rw [h2]; simp, ?_⟩
  · intro m hm
    rw [List.mem_singleton] at hm
    subst hm
    intro i j
    simp only [demoM, matOf]
    repeat' split
    all_goals simp [Expr.eval, Fn1.eval, Fn2.eval, demoV]
    norm_num
  · rw [hd.1]; simp [Expr.eval]
  · have hcalls := (solve_calls hr hn).1
    intro x sol hsol
    by_cases hx : x ∈ s.w.nodes
    · rw [h2] at hx h3
      simp only [List.map_cons, List.map_nil, List.cons.injEq, and_true] at h3
      simp only [List.mem_cons, List.not_mem_nil, or_false] at hx
      rcases hx with rfl | rfl
      · rw [h3.1] at hsol; revert sol; decide
      · rw [h3.2] at hsol; revert sol; decide
    · have : s.w.unk x = {} := by
        refine run_frame hcalls ?_
        rwa [callsOf, List.map_map, show ((fun c : String × List Expr => c.1) ∘ fun x => (x, (s.w.unk x).solutions)) = id from rfl, List.map_id]
      rw [this] at hsol; cases hsol

end Verif.Solver
