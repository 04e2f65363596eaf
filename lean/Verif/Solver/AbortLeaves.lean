import Verif.Solver.AbortSteps
/-!
# C76, second part: no leaf raises on an unsolved unknown
-/
namespace Verif.Solver
open Verif.Leaf Verif.Eqn Verif.Sol Verif.Sym
open Verif.BT hiding Tree

theorem has_sinU {x : String} {e : Expr} (h : occurs (sinU x) e = true) : e.has x = true := by
  induction e with
  | num => simp [occurs, sinU] at h
  | sym => simp [occurs, sinU] at h
  | un f a ih =>
    simp only [occurs, Bool.or_eq_true, beq_iff_eq] at h
    rcases h with h | h
    · cases h; simp [Expr.has]
    · simpa [Expr.has] using ih h
  | bin f a b ih1 ih2 =>
    simp only [occurs, Bool.or_eq_true, beq_iff_eq] at h
    rcases h with (h | h) | h
    · cases h
    · simp [Expr.has, ih1 h]
    · simp [Expr.has, ih2 h]

theorem has_cosU {x : String} {e : Expr} (h : occurs (cosU x) e = true) : e.has x = true := by
  induction e with
  | num => simp [occurs, cosU] at h
  | sym => simp [occurs, cosU] at h
  | un f a ih =>
    simp only [occurs, Bool.or_eq_true, beq_iff_eq] at h
    rcases h with h | h
    · cases h; simp [Expr.has]
    · simpa [Expr.has] using ih h
  | bin f a b ih1 ih2 =>
    simp only [occurs, Bool.or_eq_true, beq_iff_eq] at h
    rcases h with (h | h) | h
    · cases h
    · simp [Expr.has, ih1 h]
    · simp [Expr.has, ih2 h]

/-! ## Clean expressions -/

theorem CleanFor.of {s : LS} {x : String} {e f : Expr} (h : CleanFor s x f) (hh : ∀ n, e.has n = true → f.has n = true) : CleanFor s x e :=
  fun n hn he => h n hn (hh n he)
theorem CleanFor.of2 {s : LS} {x : String} {e f g : Expr} (hf : CleanFor s x f) (hg : CleanFor s x g)
    (hh : ∀ n, e.has n = true → f.has n = true ∨ g.has n = true) : CleanFor s x e :=
  fun n hn he => (hh n he).elim (hf n hn) (hg n hn)
theorem CleanFor.bin {s : LS} {x : String} {o : Fn2} {f g : Expr} (hf : CleanFor s x f) (hg : CleanFor s x g) : CleanFor s x (.bin o f g) :=
  hf.of2 hg fun n h => by simpa [Expr.has] using h
theorem CleanFor.un {s : LS} {x : String} {o : Fn1} {f : Expr} (hf : CleanFor s x f) : CleanFor s x (.un o f) :=
  hf.of fun n h => by simpa [Expr.has] using h
theorem CleanFor.num {s : LS} {x : String} (q : Rat) : CleanFor s x (.num q) := fun n _ h => by cases h
theorem CleanFor.self {s : LS} (x : String) : CleanFor s x (.sym x) := fun n _ h => .inl (by simp [Expr.has] at h; exact h.symm)
theorem CleanFor.free {s : LS} {x y : String} (h : y ∉ s.w.unknowns) : CleanFor s x (.sym y) := fun n hn hh => by
  simp [Expr.has] at hh; subst hh; exact absurd hn h
theorem CleanFor.cong {s s' : LS} {x : String} {e : Expr} (h : CleanFor s x e) (hu : s'.w.unknowns = s.w.unknowns)
    (hs : ∀ n, s.solved n = true → s'.solved n = true) : CleanFor s' x e :=
  fun n hn hh => (h n (hu ▸ hn) hh).imp id (hs n)
theorem CleanFor.count {s : LS} {x : String} {e : Expr} (h : countUnknowns s.vars e = 0) : CleanFor s x e := by
  intro n hn hh
  rw [count_eq, List.countP_eq_zero] at h
  have := h n hn
  simp [hh] at this
  exact .inr this

theorem two_le {α : Type} {p : α → Bool} {x y : α} (hxy : x ≠ y) (hx : p x = true) (hy : p y = true) :
    ∀ {l : List α}, x ∈ l → y ∈ l → 2 ≤ l.countP p
  | [], h, _ => by cases h
  | a :: l, h1, h2 => by
    rw [List.countP_cons]
    rcases List.mem_cons.1 h1 with rfl | g1
    · have h3 : y ∈ l := (List.mem_cons.1 h2).resolve_left (Ne.symm hxy)
      have := List.countP_pos_iff.2 ⟨y, h3, hy⟩
      rw [if_pos hx]; omega
    · rcases List.mem_cons.1 h2 with rfl | g2
      · have := List.countP_pos_iff.2 ⟨x, g1, hx⟩
        rw [if_pos hy]; omega
      · have := two_le hxy hx hy g1 g2; omega

/-- an equation with one unknown that contains `x` contains no other -/
theorem one_clean {s : LS} {e : KEqn} {x : String} (h : countUnknowns s.vars e.lhs + countUnknowns s.vars e.rhs ≤ 1) (hx : x ∈ s.w.unknowns)
    (hu : s.solved x = false) (hh : e.lhs.has x = true ∨ e.rhs.has x = true) : CleanFor s x e.lhs ∧ CleanFor s x e.rhs := by
  rw [count_eq, count_eq] at h
  have pos : ∀ {f : Expr} {n : String}, n ∈ s.w.unknowns → f.has n = true → s.solved n = false →
      0 < s.w.unknowns.countP fun x => f.has x && !s.solved x :=
    fun hn hf hu => List.countP_pos_iff.2 ⟨_, hn, by simp [hf, hu]⟩
  have key : ∀ n ∈ s.w.unknowns, e.lhs.has n = true ∨ e.rhs.has n = true → n = x ∨ s.solved n = true := by
    intro n hn hf
    by_contra hc
    rw [not_or, Bool.not_eq_true] at hc
    rcases hh with hh | hh <;> rcases hf with hf | hf
    · have := two_le (p := fun x => e.lhs.has x && !s.solved x) hc.1 (by simp [hf, hc.2]) (by simp [hh, hu]) hn hx; omega
    · have := pos hx hh hu; have := pos hn hf hc.2; omega
    · have := pos hx hh hu; have := pos hn hf hc.2; omega
    · have := two_le (p := fun x => e.rhs.has x && !s.solved x) hc.1 (by simp [hf, hc.2]) (by simp [hh, hu]) hn hx; omega
  exact ⟨fun n hn h => key n hn (.inl h), fun n hn h => key n hn (.inr h)⟩

section leaves
variable {P : Sympy} {ang : String → Bool} (hP : TameOn ang P)
include hP

theorem clean_ratio {s : LS} {x : String} {a b : Expr} (ha : CleanFor s x a) (hb : CleanFor s x b) : CleanFor s x (P.ratio a b) :=
  ha.of2 hb fun _ => hP.ratio_has
theorem clean_sub {s : LS} {x : String} {a b : Expr} (ha : CleanFor s x a) (hb : CleanFor s x b) : CleanFor s x (P.sub a b) :=
  ha.of2 hb fun _ => hP.sub_has
theorem clean_coeff {s : LS} {x : String} {e t : Expr} (h : CleanFor s x e) : CleanFor s x (P.coeff e t) := h.of fun _ => hP.coeff_has
theorem clean_simplify {s : LS} {x : String} {e : Expr} (h : CleanFor s x e) : CleanFor s x (P.simplify e) := h.of fun _ => hP.simplify_has

end leaves

/-- the unknown that is worked on: unsolved and nobody has worked on it -/
structure Ready (ang : String → Bool) (s : LS) : Prop where
  un : s.solved s.curr = false
  mem : s.curr ∈ s.w.unknowns
  sep : SepInv ang s
  fresh : Untouched s s.curr
  comp : AllComplete s

theorem Ready.quiet {ang : String → Bool} {s s' : LS} (h : Ready ang s) (hq : Quiet s s') (hc : AllComplete s') : Ready ang s' where
  un := by rw [LS.solved, hq.w, hq.curr]; exact h.un
  mem := by rw [hq.w, hq.curr]; exact h.mem
  sep := h.sep.mono (by rw [hq.w]) (fun n hn => by rw [LS.solved, hq.w]; exact hn) hq.ms hq.aux hq.lists
  fresh := by unfold Untouched; rw [hq.curr, hq.w, hq.kept]; exact h.fresh
  comp := hc

/-- `set_solved` fails on no clean list -/
theorem setSolved_no_error {s0 s : LS} {x : String} {c : Nat} (h : s.setSolved x = .error c) (hu : s.w.unknowns = s0.w.unknowns)
    (hs : ∀ n, s0.solved n = true → s.solved n = true) (hne : (s.w.unk x).solutions ≠ [])
    (hc : ∀ e ∈ (s.w.unk x).solutions, CleanFor s0 x e) : False := by
  obtain ⟨s', h'⟩ := setSolved_total hne fun e he => (hc e he).cong hu hs
  rw [h] at h'; cases h'

theorem push_solved {s : LS} {x : String} {e : Expr} {n : String} (h : s.solved n = true) : (s.pushSol x e).solved n = true := by
  rw [LS.solved, (pushSol_only s x e).solved]; exact h
theorem updN_solved {s : LS} {x : String} {k : Nat} {n : String} (h : s.solved n = true) :
    (s.updU x fun u => { u with nsolutions := k }).solved n = true := by
  rw [LS.solved, updU_w, (onlySols_nsol s.w x k).solved]; exact h

/-! ### algebra_solver -/

section leaves
variable {P : Sympy} {ang : String → Bool} (hP : TameOn ang P)
include hP

theorem alg_safe {s : LS} (h : Ready ang s) {tmp : Expr} (he : (s.ld s.curr).eqn = some ⟨.num 0, tmp⟩)
    (hf : algebraFind P s.curr s.lists.l1 = some tmp) {c : Nat} (hr : algebraSolve P s = .error c) : False := by
  obtain ⟨e, ⟨l1, l2, hl, _, hhas, _, _, A', B', hlin', hA⟩, rfl⟩ := algebraFind_some.1 hf
  obtain ⟨o1, o2, _, o4⟩ := h.sep.one e (by rw [hl]; simp)
  obtain ⟨c1, c2⟩ := one_clean o4 h.mem h.un hhas
  have ct : CleanFor s s.curr (P.collectU s.curr (P.sub e.rhs e.lhs)) := (clean_sub hP c2 c1).of fun _ => hP.collectU_has
  unfold algebraSolve at hr
  dsimp only at hr
  split at hr
  swap
  · cases hr
  rw [he] at hr
  dsimp only at hr
  split at hr
  · cases hr
  next A B hm =>
  have hlin : P.lin (P.collectU s.curr (P.sub e.rhs e.lhs)) (.sym s.curr) [.sym s.curr] = some (A, B) := by
    unfold linearMatch at hm
    split at hm
    · cases hm
    next h => split at hm
              · cases hm
              · cases hm; exact h
  have cA : CleanFor s s.curr A := ct.of fun _ h => hP.lin_has hlin (.inl h)
  have cB : CleanFor s s.curr B := ct.of fun _ h => hP.lin_has hlin (.inr h)
  split at hr
  · cases hr
  split at hr
  · next hs =>
    refine setSolved_no_error (s0 := s) hs (by simp [World.upd]) (fun n hn => updN_solved (push_solved hn)) (by simp) ?_
    simp [h.fresh.1]
    exact clean_ratio hP (clean_sub hP (.num 0) cB) cA
  · cases hr

/-! ### tan_solver, sincos_solver, rank -/

omit hP in
theorem ang_of {s : LS} (hs : SepInv ang s) {e : KEqn} (he : e ∈ s.lists.l1) {u : String}
    (h : occurs (sinU u) e.lhs = true ∨ occurs (sinU u) e.rhs = true ∨ occurs (cosU u) e.lhs = true ∨ occurs (cosU u) e.rhs = true) : ang u = true := by
  obtain ⟨o1, o2, _⟩ := hs.one e he
  cases hu : ang u with
  | true => rfl
  | false =>
    have k1 := sep_len o1 hu
    have k2 := sep_len o2 hu
    rw [k1.1, k1.2, k2.1, k2.2] at h
    simp at h

end leaves

/-- the unknown while the tangent and the sine solver work on it: all candidates are clean -/
structure Mid (ang : String → Bool) (s : LS) : Prop where
  un : s.solved s.curr = false
  mem : s.curr ∈ s.w.unknowns
  sep : SepInv ang s
  comp : AllComplete s
  shared : (s.ld s.curr).shared = none
  cands : ∀ b, ∀ e ∈ cand b (s.ld s.curr), CleanFor s s.curr e
  all : ∀ e ∈ (s.w.unk s.curr).solutions, CleanFor s s.curr e
  ne : ∀ b, cand b (s.ld s.curr) ≠ [] → (s.w.unk s.curr).solutions ≠ []

theorem Ready.mid {ang : String → Bool} {s : LS} (h : Ready ang s) : Mid ang s := by
  have hk := h.fresh.2
  simp only [LeafData.kept, Prod.mk.injEq] at hk
  have hc : ∀ b, cand b (s.ld s.curr) = [] := by intro b; cases b <;> simp [cand, hk]
  exact ⟨h.un, h.mem, h.sep, h.comp, hk.2.2.2.2.1, fun b e he => (by rw [hc] at he; cases he), by simp [h.fresh.1], fun b hb => absurd (hc b) hb⟩

theorem Mid.mark {ang : String → Bool} {s : LS} (h : Mid ang s) (f : LeafData → LeafData) (h1 : ∀ d b, cand b (f d) = cand b d)
    (h2 : ∀ d, (f d).shared = d.shared) (hc : AllComplete (s.updLd s.curr f)) : Mid ang (s.updLd s.curr f) where
  un := h.un
  mem := h.mem
  sep := h.sep.mono rfl (fun _ h => h) rfl rfl rfl
  comp := hc
  shared := by simp [h2, h.shared]
  cands := by simp only [updLd_curr, updLd_same, h1]; exact h.cands
  all := h.all
  ne := by simp only [updLd_curr, updLd_same, h1]; exact h.ne

theorem Mid.ext {ang : String → Bool} {s s' : LS} {own : Bool} {new : List Expr} {es : List KEqn} {g : List Expr} (h : Mid ang s)
    (hE : Ext own new es g s s') (hn : new ≠ []) (hc : ∀ e ∈ new, CleanFor s s.curr e) (hA : AllComplete s') : Mid ang s' := by
  have hs : ∀ n, s'.solved n = s.solved n := hE.soft.solved
  have hu : s'.w.unknowns = s.w.unknowns := hE.only.frame.1
  have hcl : ∀ {e}, CleanFor s s.curr e → CleanFor s' s'.curr e := fun he => by
    rw [hE.curr]; exact he.cong hu fun n hn => by rw [hs]; exact hn
  have hsol : (s'.w.unk s.curr).solutions = (s.w.unk s.curr).solutions ++ new := by
    rw [hE.sols, h.shared]; simp
  have hcand : ∀ b, cand b (s'.ld s.curr) = cand b (s.ld s.curr) ++ (if b = own then new else []) := by
    intro b
    by_cases hb : b = own
    · subst hb; rw [hE.mine, h.shared]; simp
    · have : b = !own := by cases b <;> cases own <;> simp_all
      subst this; rw [hE.oth, h.shared]; simp
  refine ⟨by rw [hE.curr, hs]; exact h.un, by rw [hE.curr, hu]; exact h.mem,
    h.sep.mono hu (fun n hn => by rw [hs]; exact hn) hE.ms hE.aux hE.lists, hA, ?_, ?_, ?_, ?_⟩
  · have := congrArg (fun p => p.2.2.2.2.2.1) hE.fields
    simp only at this
    rw [hE.curr, this, h.shared]
  · intro b e he
    rw [hE.curr, hcand] at he
    rcases List.mem_append.1 he with he | he
    · exact hcl (h.cands b e he)
    · split at he
      · exact hcl (hc e he)
      · cases he
  · intro e he
    rw [hE.curr, hsol] at he
    rcases List.mem_append.1 he with he | he
    · exact hcl (h.all e he)
    · exact hcl (hc e he)
  · intro b _
    rw [hE.curr, hsol]
    simp [hn]

/-- `tanSolve_cases` with the condition for one solution -/
theorem tanSolve_ok {P : Sympy} {s s' : LS} {st : Status} (h : tanSolve P s = .ok (st, s')) :
    s' = s ∨ ∃ e1 e2 A B C D one, (s.ld s.curr).eqn = some e1 ∧ (s.ld s.curr).second = some e2 ∧
      P.lin e1.rhs (sinU s.curr) [sinU s.curr, cosU s.curr] = some (A, B) ∧ P.lin e2.rhs (cosU s.curr) [sinU s.curr, cosU s.curr] = some (C, D) ∧
      (one = true → (getVariables (s.vars.filter fun v => !v.solved) A).length = 0) ∧
      Ext true (tanSolutions P e1.lhs e2.lhs A B C D one) [e1, e2] [A, C] s s' := by
  unfold tanSolve at h
  dsimp only at h
  split at h
  swap
  · cases h; exact .inl rfl
  split at h
  swap
  · cases h
  next e1 e2 he1 he2 =>
  split at h
  swap
  · cases h; exact .inl rfl
  next A B C D hl1 hl2 =>
  split at h
  · cases h; exact .inl rfl
  split at h
  · next hv => cases h; exact .inr ⟨e1, e2, A, B, C, D, true, he1, he2, hl1, hl2, fun _ => hv, tanPush1 s _ [e1, e2] 1 [A, C]⟩
  · cases h; exact .inr ⟨e1, e2, A, B, C, D, false, he1, he2, hl1, hl2, (fun h => by cases h), tanPush2 s _ _ [e1, e2] _ 2 [A, C]⟩

/-- what tan_id leaves for tan_solve -/
def TanFound (P : Sympy) (s : LS) : Prop :=
  ∃ es ec a b, (s.ld s.curr).eqn = some ⟨.num 0, a⟩ ∧ (s.ld s.curr).second = some ⟨.num 0, b⟩ ∧ tanPair P s.vars s.curr es ec = some (a, b) ∧
    occurs (sinU s.curr) (P.sub es.rhs es.lhs) = true

theorem tanId_found {P : Sympy} {ang : String → Bool} {s s' : LS} {st : Status} (h : Ready ang s) (hr : tanId P s = .ok (st, s')) :
    Mid ang s' ∧ (st = .success → TanFound P s') := by
  have hk := h.fresh.2
  simp only [LeafData.kept, Prod.mk.injEq] at hk
  have hf := hk.2.2.2.2.2
  rcases act_two P .tanID s st s' hr with rfl | rfl
  swap
  · rcases tanId_cases hr with ⟨_, rfl, _⟩ | ⟨h, _⟩ | ⟨h, _⟩
    · exact ⟨h.mid, by simp⟩
    · cases h
    · cases h
  have hA := act_complete P .tanID s .success s' hr h.comp
  unfold tanId at hr
  simp only [hf, h.un, Bool.not_false, Bool.and_self, if_true] at hr
  cases hx : tanFind P s.vars s.curr (tanCands P s.curr (s.lists.l1 ++ s.lists.l2)).1 (tanCands P s.curr (s.lists.l1 ++ s.lists.l2)).2 with
  | none => rw [hx] at hr; simp [hf] at hr
  | some r =>
    obtain ⟨a, b⟩ := r
    rw [hx] at hr
    simp only [updLd_same, if_true, Except.ok.injEq, Prod.mk.injEq, true_and] at hr
    subst hr
    obtain ⟨es, h1, ec, h2, h3⟩ := tanFind_spec hx
    simp only [tanCands, List.mem_filter, Bool.and_eq_true] at h1
    exact ⟨h.mid.mark _ (fun d b => by cases b <;> rfl) (fun _ => rfl) hA, fun _ => ⟨es, ec, a, b, by simp, by simp, h3, h1.2.2⟩⟩

section leaves2
variable {P : Sympy} {ang : String → Bool} (hP : TameOn ang P)
include hP

theorem tan_clean {s : LS} {x : String} {t t' A B C D : Expr} {one : Bool} (ho : occurs (sinU x) t = true)
    (l1 : P.lin (P.collectSC x t) (sinU x) [sinU x, cosU x] = some (A, B)) (l2 : P.lin (P.collectSC x t') (cosU x) [sinU x, cosU x] = some (C, D))
    (kR : CleanFor s x (P.ratio A C)) (kB : CleanFor s x B) (kD : CleanFor s x D)
    (hone : one = true → (getVariables (s.vars.filter fun v => !v.solved) A).length = 0) :
    ∀ e ∈ tanSolutions P (.num 0) (.num 0) A B C D one, CleanFor s x e := by
  intro e he
  have kY := clean_sub hP (s := s) (x := x) (.num 0) kB
  have kX := clean_sub hP (s := s) (x := x) (.num 0) kD
  unfold tanSolutions at he
  dsimp only at he
  cases one
  · simp only [Bool.false_eq_true, if_false, List.mem_cons, List.not_mem_nil, or_false] at he
    rcases he with rfl | rfl
    · exact .bin (clean_ratio hP kY kR) kX
    · exact .bin (clean_ratio hP kY.un kR) kX.un
  · simp only [if_true, List.mem_singleton] at he
    subst he
    have kA' : ∀ n ∈ s.w.unknowns, s.solved n = false → A.has n = false := by
      intro n hn hu
      exact free_of_variables (v := ⟨n, s.solved n⟩) (hone rfl) (List.mem_filter.2 ⟨mem_vars hn, by simp [hu]⟩)
    have kA : CleanFor s x A := by
      intro n hn hh
      cases hu : s.solved n with
      | true => exact .inr rfl
      | false => rw [kA' n hn hu] at hh; cases hh
    have kC : CleanFor s x C := by
      intro n hn hh
      cases hu : s.solved n with
      | true => exact .inr rfl
      | false =>
        by_cases hnx : n = x
        · exact .inl hnx
        have hR : (P.ratio A C).has n = false := by
          by_contra hc
          rw [Bool.not_eq_false] at hc
          rcases kR n hn hc with h | h
          · exact hnx h
          · rw [hu] at h; cases h
        rw [hP.denom ho l1 l2 hR (kA' n hn hu)] at hh
        cases hh
    exact .bin (clean_ratio hP kY kA) (clean_ratio hP kX kC)

theorem tanSolve_mid {s s' : LS} {st : Status} (h : Mid ang s) (hf : TanFound P s) (hr : tanSolve P s = .ok (st, s')) : Mid ang s' := by
  have hA := act_complete P .tanSolver s st s' hr h.comp
  rcases tanSolve_ok hr with rfl | ⟨e1, e2, A, B, C, D, one, he1, he2, hl1, hl2, hone, hE⟩
  · exact h
  obtain ⟨es, ec, a, b, q1, q2, hp, ho⟩ := hf
  rw [q1] at he1; rw [q2] at he2
  cases he1; cases he2
  obtain ⟨rfl, rfl, A', B', C', D', l1, l2, cR, cB, cD⟩ := tanPair_spec hp
  rw [l1] at hl1; rw [l2] at hl2
  cases hl1; cases hl2
  exact h.ext hE (tanSolutions_ne _ _ _ _ _ _ _ _) (tan_clean hP ho l1 l2 (.count cR) (.count cB) (.count cD) hone) hA

omit hP in
theorem tanSolve_safe {s : LS} (h : AllComplete s) {c : Nat} (hr : tanSolve P s = .error c) : False := by
  unfold tanSolve at hr
  dsimp only at hr
  split at hr
  swap
  · cases hr
  next hf =>
  obtain ⟨g1, g2⟩ := (h s.curr).flag hf
  split at hr
  · repeat' split at hr
    all_goals cases hr
  · next hn =>
    cases he : (s.ld s.curr).eqn with
    | none => exact absurd he g1
    | some e1 => cases he2 : (s.ld s.curr).second with
      | none => exact absurd he2 g2
      | some e2 => exact absurd he2 (hn e1 e2 he)

/-- what sincos_id leaves for sincos_solve -/
def ScFound (s : LS) : Prop := ∃ e t, (s.ld s.curr).eqn = some e ∧ sincosFind s.curr s.lists.l1 = some (e, t)

omit hP in
theorem sincosId_found (P : Sympy) {s s' : LS} {st : Status} (h : Mid ang s) (hr : sincosId s = .ok (st, s')) : Mid ang s' ∧ (st = .success → ScFound s') := by
  have hA := act_complete P .scID s st s' hr h.comp
  rcases sincosId_cases hr with ⟨rfl, rfl⟩ | ⟨rfl, _, _, e, t, hf, rfl⟩
  · exact ⟨h, by simp⟩
  · exact ⟨h.mark _ (fun d b => by cases b <;> rfl) (fun _ => rfl) hA, fun _ => ⟨e, t, by simp, hf⟩⟩

/-- the two sides of the equation, and what is matched in it, do not contain the unknown outside the sine or cosine -/
theorem sc_free {s : LS} (h : Mid ang s) {e : KEqn} {t : Tag} (hf : sincosFind s.curr s.lists.l1 = some (e, t)) {f A B : Expr}
    (hl : P.lin (P.collectSC s.curr e.rhs) f [sinU s.curr, cosU s.curr] = some (A, B)) :
    (quot P e.lhs B A).has s.curr = false ∧ CleanFor s s.curr (quot P e.lhs B A) := by
  obtain ⟨⟨l1, l2, hmem, -, ho⟩, -⟩ := sincosFind_some.1 hf
  have he : e ∈ s.lists.l1 := by rw [hmem]; simp
  obtain ⟨o1, o2, o3, o4⟩ := h.sep.one e he
  have hang : ang s.curr = true := by
    refine ang_of h.sep he ?_
    simp only [OneOf, HasSin, HasCos] at ho
    rcases ho with ⟨h | h, _⟩ | ⟨h | h, _⟩
    · exact .inl h
    · exact .inr (.inl h)
    · exact .inr (.inr (.inl h))
    · exact .inr (.inr (.inr h))
  have hlhs : e.lhs.has s.curr = false := by
    by_contra hc
    rw [Bool.not_eq_false] at hc
    obtain ⟨b1, b2⟩ := o3 s.curr h.mem h.un hang hc
    rcases ho with ⟨_, h⟩ | ⟨_, h⟩
    · exact h (.inl b2)
    · exact h (.inl b1)
  have hhas : e.lhs.has s.curr = true ∨ e.rhs.has s.curr = true := by
    simp only [OneOf, HasSin, HasCos] at ho
    rcases ho with ⟨h | h, _⟩ | ⟨h | h, _⟩
    · exact .inl (has_sinU h)
    · exact .inr (has_sinU h)
    · exact .inl (has_cosU h)
    · exact .inr (has_cosU h)
  obtain ⟨c1, c2⟩ := one_clean o4 h.mem h.un hhas
  obtain ⟨sA, sB⟩ := hP.lin (hP.collectSC o2) hl
  have ex1 := hP.lin_excl hl (sinU s.curr) (by simp)
  have ex2 := hP.lin_excl hl (cosU s.curr) (by simp)
  have fA : A.has s.curr = false := by
    by_contra hc
    rw [Bool.not_eq_false] at hc
    rcases sep_has sA hang hc with h | h
    · rw [ex1.1] at h; cases h
    · rw [ex2.1] at h; cases h
  have fB : B.has s.curr = false := by
    by_contra hc
    rw [Bool.not_eq_false] at hc
    rcases sep_has sB hang hc with h | h
    · rw [ex1.2] at h; cases h
    · rw [ex2.2] at h; cases h
  have cr : CleanFor s s.curr (P.collectSC s.curr e.rhs) := c2.of fun _ => hP.collectSC_has
  constructor
  · by_contra hc
    rw [Bool.not_eq_false] at hc
    rcases hP.ratio_has hc with hc | hc
    · rcases hP.sub_has hc with hc | hc
      · rw [hlhs] at hc; cases hc
      · rw [fB] at hc; cases hc
    · rw [fA] at hc; cases hc
  · exact clean_ratio hP (clean_sub hP c1 (cr.of fun _ h => hP.lin_has hl (.inr h))) (cr.of fun _ h => hP.lin_has hl (.inl h))

theorem sincosSolve_mid {s s' : LS} {st : Status} (h : Mid ang s) (hf : ScFound s) (hr : sincosSolve P s = .ok (st, s')) : Mid ang s' := by
  have hA := act_complete P .scSolver s st s' hr h.comp
  rcases sincosSolve_cases hr with ⟨-, rfl⟩ | ⟨-, e, A, B, sine, he, _, hl, _, hE⟩
  · exact h
  obtain ⟨e', t, he', hfi⟩ := hf
  rw [he'] at he; cases he
  refine h.ext hE (sincosSolutions_ne _ _ _ _ _) (fun x hx => ?_) hA
  have k := (sc_free hP h hfi hl).2
  have kpi : CleanFor s s.curr (.sym "pi") := .free h.sep.pi
  unfold sincosSolutions at hx
  dsimp only at hx
  cases sine
  · simp only [Bool.false_eq_true, if_false, List.mem_cons, List.not_mem_nil, or_false] at hx
    rcases hx with rfl | rfl
    · exact k.un
    · exact k.un.un
  · simp only [if_true, List.mem_cons, List.not_mem_nil, or_false] at hx
    rcases hx with rfl | rfl
    · exact k.un
    · exact .bin kpi k.un.un

theorem sincosSolve_safe {s : LS} (h : Mid ang s) (hf : ScFound s) {c : Nat} (hr : sincosSolve P s = .error c) : False := by
  obtain ⟨e, t, he, hfi⟩ := hf
  unfold sincosSolve sincosRecord at hr
  dsimp only at hr
  rw [he] at hr
  split at hr
  swap
  · cases hr
  dsimp only at hr
  split at hr
  · split at hr
    · cases hr
    next hl =>
    rw [(sc_free hP h hfi hl).1] at hr
    cases hr
  · split at hr
    swap
    · cases hr
    split at hr
    · cases hr
    next hl =>
    rw [(sc_free hP h hfi hl).1] at hr
    cases hr

omit hP in
theorem rank_safe {s : LS} (h : Mid ang s) {c : Nat} (hr : rankLeaf s = .error c) : False := by
  have hC := h.comp s.curr
  have sol : ∀ {l k n}, s.solved n = true → ((s.updU s.curr fun x => { x with solutions := l, nsolutions := k }).solved n) = true := by
    intro l k n hn
    rw [LS.solved, updU_w, (onlySols_upd s.w s.curr (fun x => { x with solutions := l, nsolutions := k }) fun _ => rfl).solved]; exact hn
  unfold rankLeaf at hr
  dsimp only at hr
  split at hr
  · next a l a' l' hsc htan =>
    generalize (if (s.ld s.curr).scSols.length < (s.ld s.curr).tanSols.length then true
      else if (s.ld s.curr).scSols.length > (s.ld s.curr).tanSols.length then false
      else decide (countVariables s.vars a < countVariables s.vars a')) = b at hr
    cases b
    · simp only [Bool.false_eq_true, if_false] at hr
      split at hr
      · split at hr
        · next hs =>
          refine setSolved_no_error (s0 := s) hs rfl (fun n hn => sol hn) ?_ ?_
          · simp [htan]
          · simpa [cand] using h.cands true
        · cases hr
      · next hn =>
        have := hC.tan (.inl (by simp [htan]))
        rcases ht : (s.ld s.curr).tanEqns with _ | ⟨e, _ | ⟨e2, l⟩⟩
        · simp [ht] at this
        · simp [ht] at this
        · exact absurd ht (hn e e2 l)
    · simp only [if_true] at hr
      split at hr
      · next he => exact absurd he (hC.sc (.inl (by simp [hsc])))
      · split at hr
        · next hs =>
          refine setSolved_no_error (s0 := s) hs rfl (fun n hn => sol hn) ?_ ?_
          · simp [hsc]
          · simpa [cand] using h.cands false
        · cases hr
  · next hsc htan =>
    split at hr
    · next hs => exact setSolved_no_error (s0 := s) hs rfl (fun _ h => h) (h.ne false (by simp [cand, hsc])) h.all
    · cases hr
  · next hsc htan =>
    split at hr
    · next hs => exact setSolved_no_error (s0 := s) hs rfl (fun _ h => h) (h.ne true (by simp [cand, htan])) h.all
    · cases hr
  · cases hr

/-! ### simu_solver, sinANDcos_solver -/

omit hP in
theorem simuCands_occ {u : String} {f : Expr} {l : List KEqn} (h : f ∈ simuCands P u l) :
    ∃ e ∈ l, f = P.expandSC u (P.sub e.rhs e.lhs) ∧ (occurs (sinU u) f = true ∨ occurs (cosU u) f = true) := by
  have gen : ∀ (l : List KEqn) (acc : List Expr), f ∈ l.foldl (fun acc e =>
      let f := P.expandSC u (P.sub e.rhs e.lhs)
      if (occurs (sinU u) f || occurs (cosU u) f) && !acc.any (fun x => P.eqE x f) then acc ++ [f] else acc) acc →
      f ∈ acc ∨ ∃ e ∈ l, f = P.expandSC u (P.sub e.rhs e.lhs) ∧ (occurs (sinU u) f = true ∨ occurs (cosU u) f = true) := by
    intro l
    induction l with
    | nil => intro acc h; exact .inl h
    | cons e l ih =>
      intro acc h
      rw [List.foldl_cons] at h
      rcases ih _ h with h | ⟨e', h1, h2⟩
      · dsimp only at h
        split at h
        · next hc =>
          rcases List.mem_append.mp h with h | h
          · exact .inl h
          · simp only [List.mem_singleton] at h
            subst h
            simp only [Bool.and_eq_true, Bool.or_eq_true] at hc
            exact .inr ⟨e, by simp, rfl, hc.1⟩
        · exact .inl h
      · exact .inr ⟨e', by simp [h1], h2⟩
  rcases gen l [] h with h | h
  · cases h
  · exact h

/-- an equation with one unknown that contains the current one makes clean expressions -/
theorem expand_clean {s : LS} (h : Ready ang s) {e : KEqn} (he : e ∈ s.lists.l1) (hh : (P.expandSC s.curr (P.sub e.rhs e.lhs)).has s.curr = true ∨
    (P.sub e.rhs e.lhs).has s.curr = true) : CleanFor s s.curr (P.expandSC s.curr (P.sub e.rhs e.lhs)) := by
  obtain ⟨o1, o2, _, o4⟩ := h.sep.one e he
  have h1 : (P.sub e.rhs e.lhs).has s.curr = true := hh.elim (fun h => hP.expandSC_has h) id
  obtain ⟨c1, c2⟩ := one_clean o4 h.mem h.un (hP.sub_has h1).symm
  exact (clean_sub hP c2 c1).of fun _ => hP.expandSC_has

theorem comb_clean {s : LS} {A B : Expr} (hA : CleanFor s s.curr A) (hB : CleanFor s s.curr B) :
    CleanFor s s.curr (sinCosComb A B s.curr) ∧ CleanFor s s.curr (cosSinComb A B s.curr) :=
  have _ := hP
  ⟨.bin (.bin hA (.un (.self _))) (.bin hB (.un (.self _))), .bin (.bin hA (.un (.self _))) (.un (.bin hB (.un (.self _))))⟩

theorem simu_safe {s : LS} (h : Ready ang s) {a b : Expr} (he : (s.ld s.curr).eqn = some ⟨.num 0, a⟩) (he2 : (s.ld s.curr).second = some ⟨.num 0, b⟩)
    (hf : simuFind P s.curr (simuCands P s.curr s.lists.l1) = some (a, b)) {c : Nat} (hr : simuSolve P s = .error c) : False := by
  obtain ⟨c1, h1, c2, h2, r1, r2⟩ := simuFind_spec hf
  have cl : ∀ {f}, f ∈ simuCands P s.curr s.lists.l1 → CleanFor s s.curr f := by
    intro f hf
    obtain ⟨e, hm, rfl, ho⟩ := simuCands_occ hf
    exact expand_clean hP h hm (.inl (ho.elim has_sinU has_cosU))
  have ca : CleanFor s s.curr a := by rw [show a = c1 from r1]; exact cl h1
  have cb : CleanFor s s.curr b := by
    rcases r2 with r2 | r2
    · rw [show b = c2 from r2]; exact cl h2
    · rw [show b = negE c2 from r2]; exact (cl h2).un
  have kA := clean_coeff hP (t := sinU s.curr) ca
  have kB := clean_coeff hP (t := cosU s.curr) ca
  have kC := clean_simplify hP (clean_sub hP (comb_clean hP kA kB).1 ca)
  have kD := clean_simplify hP (clean_sub hP (comb_clean hP kA kB).2 cb)
  unfold simuSolve at hr
  dsimp only at hr
  rw [he, he2] at hr
  dsimp only at hr
  split at hr
  · cases hr
  split at hr
  · next hs =>
    refine setSolved_no_error (s0 := s) hs rfl (fun n hn => ?_) (by simp) ?_
    · simp only [LS.solved, updLd_w, updU_w]
      rw [(onlySols_upd s.w s.curr (fun x => { x with solutions := _, nsolutions := 1 }) fun _ => rfl).solved]; exact hn
    · simp
      exact .bin (clean_sub hP (.bin kA kC) (.bin kB kD)) (.bin (.bin kA kD) (.bin kB kC))
  · cases hr

theorem sac_safe {s : LS} (h : Ready ang s) {es : Expr} (he : (s.ld s.curr).eqn = some ⟨.num 0, es⟩)
    (hf : sacFind P s.curr s.lists.l1 = some es) {c : Nat} (hr : sacSolve P s = .error c) : False := by
  obtain ⟨e, ⟨l1, l2, hl, _, h1, h2, h3⟩, rfl⟩ := sacFind_some.1 hf
  have cE := expand_clean hP h (e := e) (by rw [hl]; simp) (.inr (has_sinU h1))
  have kA := clean_coeff hP (t := sinU s.curr) cE
  have kB := clean_coeff hP (t := cosU s.curr) cE
  have kC := clean_sub hP (comb_clean hP kA kB).1 cE
  have kpi : CleanFor s s.curr (.sym "pi") := .free h.sep.pi
  have kr := hP.radius h1 h2 h3
  unfold sacSolve at hr
  dsimp only at hr
  split at hr
  swap
  · cases hr
  rw [he] at hr
  dsimp only at hr
  split at hr
  · next hz => exact absurd (kr.symm.trans hz) (by simp)
  split at hr
  · next hs =>
    refine setSolved_no_error (s0 := s) hs (by simp [World.upd]) (fun n hn => updN_solved (push_solved (push_solved hn))) (by simp) ?_
    simp [h.fresh.1]
    split
    · exact ⟨.bin kB.un kA, .bin (.bin kB.un kA) kpi⟩
    · have kt := clean_sub hP (.bin (o := .add) (.bin (o := .mul) kA kA) (.bin (o := .mul) kB kB)) (.bin (o := .mul) kC kC)
      exact ⟨.bin (.bin kA kB) (.bin kt.un kC), .bin (.bin kA kB) (.bin kt.un.un kC)⟩
  · cases hr

end leaves2
end Verif.Solver
