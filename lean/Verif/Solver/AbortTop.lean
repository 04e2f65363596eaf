import Verif.Solver.AbortWarm
/-!
# C76, second part: the whole run
-/
namespace Verif.Solver
open Verif.Leaf Verif.Eqn Verif.Sol Verif.Sym
open Verif.BT hiding Tree

/-! ## A run -/

/-- what holds between the attempts -/
structure Alive (P : Sympy) (ang : String → Bool) (s0 s : LS) : Prop where
  path : Path P s0 s
  sep : SepInv ang s
  inv : Inv s
  comp : AllComplete s
  ne : s.w.unknowns ≠ []
  tepid : Tepid P s

/-- Working again on the first unknown `x` raises `c`: `x` is solved, tan_id and sincos_id have both found equations for it. -/
def Reworked (P : Sympy) (s0 : LS) (c : Crash) : Prop :=
  ∃ s x, Path P s0 s ∧ s.w.unknowns.head? = some x ∧ s.solved x = true ∧ (s.ld x).solvableTan = true ∧
    (Tag.arcsin ∈ (s.ld x).method ∨ Tag.arccos ∈ (s.ld x).method) ∧ den (env P) 0 attempt s = .error c

section
variable {P : Sympy} {ang : String → Bool} (hP : TameOn ang P)
include hP

theorem Alive.next {s0 s s' : LS} {t : BT.Tree LeafName} {st : Status} (h : Alive P ang s0 s) (hd : den (env P) 0 t s = .ok (st, s'))
    (hp : Path P s s') (ht : Tepid P s') : Alive P ang s0 s' :=
  ⟨h.path.trans hp, den_sep hP hd h.sep, path_inv hp h.inv, den_complete hd h.comp, (by rw [den_unknowns hd]; exact h.ne), ht⟩

theorem attempt_tepid {s0 s s' : LS} {st : Status} (h : Alive P ang s0 s) (hr : den (env P) 0 attempt s = .ok (st, s')) : Tepid P s' := by
  obtain ⟨s1, h1, h2⟩ := attempt_cases hr
  have hA := act_complete P .asgn s .success s1 h1 h.comp
  have hS := act_sep hP .asgn s .success s1 h1 h.sep
  have hI := inv_step h.inv (.assign (P := P) h1)
  obtain ⟨-, k, x, hx, rfl, ho⟩ := assigner_cases h1
  have hT : Tepid P { s with counter := k, curr := x } := tepid_same h.tepid rfl rfl
  cases hu : s.solved x with
  | false => exact tepid_new hP hT (.of hS hI hA hx hu) h2
  | true => exact (tepid_old hP hT hA hu).2 _ _ h2

theorem sum_safe {s : LS} (h : SepInv ang s) {k : Nat} (hr : sumId P s = .error k) : False := by
  unfold sumId at hr
  split at hr
  swap
  · cases hr
  next hc =>
  simp only [List.any_eq_true, Bool.or_eq_true] at hc
  obtain ⟨m, hm, e, he, hs⟩ := hc
  obtain ⟨h1, h2⟩ := h.mat m hm e he
  rw [hP.sums h1, hP.sums h2] at hs
  simp at hs

theorem attempt_safe {s0 s : LS} (h : Alive P ang s0 s) {c : Crash} (hr : den (env P) 0 attempt s = .error c) : Reworked P s0 c := by
  have hr0 := hr
  rw [attempt, sq, den_comp] at hr
  simp only [denComp, dens] at hr
  rcases seq_err hr with hr | ⟨s1, h1, hr⟩
  · exfalso
    obtain ⟨k, hk⟩ := leaf_err hr
    simp only [act, assigner] at hk
    split at hk
    · cases hk
    split at hk
    · next he => exact h.ne he
    · cases hk
  have h1' : assigner s = .ok (.success, s1) := denLeaf_ok.mp h1
  have hA := act_complete P .asgn s .success s1 h1' h.comp
  have hS := act_sep hP .asgn s .success s1 h1' h.sep
  have hI := inv_step h.inv (.assign (P := P) h1')
  rcases seq_err hr with hr2 | ⟨s2, h2, hr2⟩
  · exfalso
    obtain ⟨k, hk⟩ := leaf_err hr2
    exact sum_safe hP hS hk
  have h2' : sumId P s1 = .ok (.success, s2) := denLeaf_ok.mp h2
  obtain ⟨-, rfl⟩ := sumId_cases h2'
  rcases seq_err hr2 with hr3 | ⟨s3, h3, hr3⟩
  swap
  · cases hr3
  obtain ⟨-, k, x, hx, rfl, ho⟩ := assigner_cases h1'
  cases hu : s.solved x with
  | false => exact (work_safe hP ⟨hu, hx, hS, hI.fresh x hu, hA⟩ hr3).elim
  | true =>
    have hT : Tepid P { s with counter := k, curr := x } := tepid_same h.tepid rfl rfl
    cases hf : (s.ld x).solvableTan with
    | false => exact (work_cold hu hf hr3).elim
    | true =>
      by_cases hn : NoSc (s.ld x)
      · exact ((tepid_old hP hT hA hu).1 hn _ hr3).elim
      · refine ⟨s, x, h.path, ho.resolve_left (by rw [hu]; simp), hu, hf, ?_, hr0⟩
        unfold NoSc at hn
        by_contra hc
        rw [not_or] at hc
        exact hn hc

theorem scan_ok {s : LS} {ms : List MEqn} {aux : List KEqn} (hne : ms ≠ []) : ∃ L, scanForEquations P.toCAS ms aux s.vars = .ok L := by
  obtain ⟨L, h, _⟩ := (C21_scan_general P.toCAS hP.refl ms aux s.vars).2 hne
  exact ⟨L, h⟩

theorem sub_safe {s : LS} (h : SepInv ang s) {k : Nat} (hr : subTransform P s = .error k) : False := by
  unfold subTransform at hr
  split at hr
  · next he => exact h.ne he
  dsimp only at hr
  split at hr
  · split at hr
    · next he =>
      obtain ⟨L, hL⟩ := scan_ok hP (s := s) (aux := s.aux) (List.cons_ne_nil _ _)
      exact absurd (hL.symm.trans he) (by simp)
    · cases hr
  · cases hr

theorem upd_safe {s : LS} (h : SepInv ang s) {k : Nat} (hr : updateLeaf P s = .error k) : False := by
  obtain ⟨L, hL⟩ := scan_ok hP (s := s) (aux := s.aux) h.ne
  unfold updateLeaf updateL at hr
  rw [hL] at hr
  cases hr

theorem top_safe {s0 : LS} : Safe (Reworked P s0) (Alive P ang s0) (fun _ => Alive P ang s0) (den (env P) 0 topnode) := by
  simp only [topnode]
  rw [den]
  refine safe_until ?_ (by decide)
  simp only [solveRoutine, sq]
  rw [den_comp]
  simp only [dens]
  refine safe_seq_cons (J := fun _ => Alive P ang s0) ?_ (fun _ _ _ h => h) ?_
  · intro s hs
    refine ⟨fun c hc => ?_, fun st s' hd => ?_⟩
    · obtain ⟨k, hk⟩ := leaf_err hc; exact (sub_safe hP hs.sep hk).elim
    · obtain ⟨h1, h2, h3, -⟩ := subTransform_cases (denLeaf_ok.mp hd)
      refine hs.next hP hd (.one (.sub ?_)) (tepid_same hs.tepid h2 h3)
      rw [← h1]; exact denLeaf_ok.mp hd
  refine safe_seq_cons (J := fun _ => Alive P ang s0) ?_ (fun _ _ _ h => h) ?_
  · simp only [subtree]; rw [den]; refine safe_until ?_ (by decide)
    exact fun s hs => ⟨fun c hc => attempt_safe hP hs hc, fun st s' hd => hs.next hP hd (attempt_path hd) (attempt_tepid hP hs hd)⟩
  refine safe_seq_cons (J := fun _ => Alive P ang s0) ?_ (fun _ _ _ h => h) ?_
  · intro s hs
    refine ⟨fun c hc => ?_, fun st s' hd => ?_⟩
    · obtain ⟨k, hk⟩ := leaf_err hc; exact (upd_safe hP hs.sep hk).elim
    · obtain ⟨h1, L, hL, h3⟩ := updateLeaf_cases (denLeaf_ok.mp hd)
      refine hs.next hP hd (.one (.upd ?_)) (tepid_same hs.tepid (by rw [h3]) (by rw [h3]))
      rw [← h1]; exact denLeaf_ok.mp hd
  refine safe_seq_cons (J := fun _ => Alive P ang s0) ?_ (fun _ _ _ h => h) (safe_seq_nil fun _ h => h)
  · intro s hs
    refine ⟨fun c hc => ?_, fun st s' hd => ?_⟩
    · obtain ⟨k, hk⟩ := leaf_err hc
      simp only [act, compDetect_eq] at hk; cases hk
    · have := denLeaf_ok.mp hd
      simp only [env, act, compDetect_eq] at this
      cases this
      exact hs

end

theorem init_vars (us : List String) (ms : List MEqn) (aux : List KEqn) (L : Lists) : (init us ms aux L).vars = us.map fun n => ⟨n, false⟩ := rfl

/-- **C76.** Over separated equations with balanced left sides, a run raises no exception but one: the assertion of `set_solved`, when the first
unknown, already solved and with equations found by both tan_id and sincos_id, is worked on again. -/
theorem C76_abort_partial {P : Sympy} {ang : String → Bool} {us : List String} {ms : List MEqn} {aux : List KEqn} {c : Crash} (hP : TameOn ang P)
    (hg : GoodInput us ang ms aux) (hu : us ≠ []) {counter : Nat} (h : solve P us ms aux counter = .error c) :
    c = .leaf 1 ∧ ∃ L, scanForEquations P.toCAS ms aux (us.map fun n => ⟨n, false⟩) = .ok L ∧ Reworked P (init us ms aux L) c := by
  rw [solve_eq] at h
  split at h
  · next he =>
    obtain ⟨L, hL⟩ := scan_ok hP (s := init us ms aux {}) (aux := aux) hg.2.1
    rw [init_vars] at hL
    rw [hL] at he; cases he
  next L hL =>
  have hA : AllComplete (init us ms aux L) := fun n => ⟨by simp [init], by simp [init], by simp [init]⟩
  have hne : (init us ms aux L).w.unknowns ≠ [] := by simpa [init, Sol.start] using hu
  have hS : SepInv ang (init us ms aux L) := sep_init hP hg (by rw [init_vars]; exact hL)
  constructor
  · exact (exceptions_gen (P := P) (Bad := fun c => c = .leaf 1) (J := SepInv ang) (fun l s st s' hs ha => act_sep hP l s st s' ha hs) rfl
      (fun s hs hr => (sum_safe hP hs hr).elim) { init us ms aux L with counter := counter } ⟨⟨hA, hne⟩, ⟨hS.pi, hS.ne, hS.mat, hS.bal, hS.aux, hS.one, hS.two⟩⟩).1 c h
  · obtain ⟨x, hp⟩ := assign_path (P := P) (init us ms aux L) (fun _ => rfl) rfl (min counter us.length) (Nat.min_le_right _ _)
    rw [topnode_warm (s := { init us ms aux L with counter := min counter us.length, curr := x }) ⟨rfl, pick_min _ _⟩] at h
    refine ⟨L, hL, (top_safe hP (s0 := init us ms aux L) _ ⟨hp, ⟨hS.pi, hS.ne, hS.mat, hS.bal, hS.aux, hS.one, hS.two⟩, path_inv hp (inv_init us ms aux L), hA, hne, ?_⟩).1 c h⟩
    intro x hx
    cases hx

/-! ## The first unknown is not an angle -/

theorem pushSol_flag (s : LS) (x : String) (e : Expr) (n : String) : ((s.pushSol x e).ld n).solvableTan = (s.ld n).solvableTan := by
  unfold LS.pushSol
  dsimp only
  by_cases hn : n = x
  · subst hn; split <;> simp
  · split <;> simp [updLd_other _ _ _ hn]

theorem set_flag {s s' : LS} {x : String} (h : s.setSolved x = .ok s') (n : String) : (s'.ld n).solvableTan = (s.ld n).solvableTan := by
  rw [(LS.setSolved_ok h).2.2.2.2.2.2.2]; dsimp only; split <;> rfl

/-- only tan_id marks an unknown -/
theorem act_flag (P : Sympy) (l : LeafName) (s : LS) (st : Status) (s' : LS) (h : act P l s = .ok (st, s')) (n : String)
    (hn : (s'.ld n).solvableTan = true) : (s.ld n).solvableTan = true ∨ (n = s.curr ∧ ∃ e ∈ s.lists.l1 ++ s.lists.l2,
      occurs (sinU s.curr) (P.sub e.rhs e.lhs) = true) := by
  have mark : ∀ {x : String} {f : LeafData → LeafData}, s' = s.updLd x f → (∀ d, (f d).solvableTan = d.solvableTan) → (s.ld n).solvableTan = true := by
    rintro x f rfl hf
    by_cases he : n = x
    · subst he; rw [updLd_same, hf] at hn; exact hn
    · rw [updLd_other _ _ _ he] at hn; exact hn
  have ext : ∀ {own new es g}, Ext own new es g s s' → (s.ld n).solvableTan = true := by
    intro own new es g hE
    by_cases he : n = s.curr
    · subst he
      have hf := hE.fields
      simp only [Prod.mk.injEq] at hf
      rw [hf.2.2.2.2.1] at hn; exact hn
    · rw [hE.other n he] at hn; exact hn
  cases l <;> simp only [act] at h
  case asgn => obtain ⟨-, c, x, hx, rfl, -⟩ := assigner_cases h; exact .inl hn
  case rank =>
    left
    obtain ⟨-, hr⟩ := rank_cases h
    cases hr with
    | none => exact hn
    | one h0 h => rw [set_flag h] at hn; exact hn
    | chosen b sec tags h1 h2 _ h3 h4 h =>
      rw [set_flag h] at hn
      by_cases he : n = s.curr
      · subst he; simpa using hn
      · simpa [updLd_other _ _ _ he] using hn
  case tanID =>
    rcases tanId_cases h with ⟨-, rfl, -⟩ | ⟨-, rfl, -⟩ | ⟨-, hu, hf, -⟩
    · exact .inl hn
    · exact .inl hn
    · unfold tanId at h
      simp only [hf, hu, Bool.not_false, Bool.and_self, if_true] at h
      cases hx : tanFind P s.vars s.curr (tanCands P s.curr (s.lists.l1 ++ s.lists.l2)).1 (tanCands P s.curr (s.lists.l1 ++ s.lists.l2)).2 with
      | none =>
        rw [hx] at h
        simp [hf] at h
        obtain ⟨_, rfl⟩ := h
        exact .inl hn
      | some r =>
        rw [hx] at h
        simp only [updLd_same, if_true, Except.ok.injEq, Prod.mk.injEq] at h
        obtain ⟨es, h1, _⟩ := tanFind_spec hx
        simp only [tanCands, List.mem_filter, Bool.and_eq_true] at h1
        by_cases he : n = s.curr
        · exact .inr ⟨he, es, h1.1, h1.2.2⟩
        · rw [← h.2, updLd_other _ _ _ he] at hn; exact .inl hn
  case tanSolver =>
    rcases tanSolve_cases h with ⟨-, rfl, -⟩ | ⟨-, _, e1, e2, A, B, C, D, one, he, _, _, _, hE⟩
    · exact .inl hn
    · exact .inl (ext hE)
  case algID =>
    rcases act_two P .algID s st s' h with rfl | rfl
    · obtain ⟨_, tmp, _, h⟩ := algebraId_ok h; exact .inl (mark h (fun _ => rfl))
    · rw [algebraId_fail h] at hn; exact .inl hn
  case algSolver =>
    left
    unfold algebraSolve at h
    dsimp only at h
    repeat' split at h
    all_goals first | (cases h; done) | (cases h; exact hn) | skip
    next h1 =>
    cases h
    rw [set_flag h1, updU_ld, pushSol_flag] at hn
    exact hn
  case scID =>
    rcases sincosId_cases h with ⟨_, rfl⟩ | ⟨_, _, _, e, t, _, h⟩
    · exact .inl hn
    · exact .inl (mark h (fun _ => rfl))
  case scSolver =>
    rcases sincosSolve_cases h with ⟨-, rfl⟩ | ⟨-, e, A, B, sine, he, _, _, _, hE⟩
    · exact .inl hn
    · exact .inl (ext hE)
  case sacID =>
    rcases sacId_cases h with ⟨_, rfl⟩ | ⟨_, _, es, _, h⟩
    · exact .inl hn
    · exact .inl (mark h (fun _ => rfl))
  case sacSolver =>
    left
    unfold sacSolve at h
    dsimp only at h
    split at h
    swap
    · cases h; exact hn
    split at h
    · cases h
    split at h
    · cases h
    split at h
    · cases h
    next h1 =>
    cases h
    rw [set_flag h1, updU_ld, pushSol_flag, pushSol_flag] at hn
    exact hn
  case x2z2 =>
    rcases x2z2_cases h with ⟨_, rfl⟩ | ⟨_, ha⟩
    · exact .inl hn
    · rw [ha.ld n] at hn; exact .inl hn
  case simuID =>
    rcases simuId_cases h with ⟨_, rfl⟩ | ⟨_, _, a, b, _, h⟩
    · exact .inl hn
    · exact .inl (mark h (fun _ => rfl))
  case simuSolver =>
    rcases simuSolve_cases h with ⟨_, rfl⟩ | ⟨_, e1, e2, he, _, hs, _, hld⟩
    · exact .inl hn
    · by_cases he : n = s.curr
      · subst he; rw [hld] at hn; exact .inl hn
      · rw [hs.other n he] at hn; exact .inl hn
  case subTrans => obtain ⟨-, h1, h2, -⟩ := subTransform_cases h; rw [h2] at hn; exact .inl hn
  case sumID => rw [(sumId_cases h).2] at hn; exact .inl hn
  case updateL => obtain ⟨-, L, _, rfl⟩ := updateLeaf_cases h; exact .inl hn
  case compDetect => rw [compDetect_eq] at h; cases h; exact .inl hn

theorem step_flag {P : Sympy} {ang : String → Bool} (hP : TameOn ang P) {a b : LS} (h : Step P a b)
    (hs : SepInv ang a ∧ ∀ n, (a.ld n).solvableTan = true → ang n = true) : SepInv ang b ∧ ∀ n, (b.ld n).solvableTan = true → ang n = true := by
  have one : ∀ (l : LeafName) (a : LS) (st : Status) (b : LS), act P l a = .ok (st, b) →
      (SepInv ang a ∧ ∀ n, (a.ld n).solvableTan = true → ang n = true) → SepInv ang b ∧ ∀ n, (b.ld n).solvableTan = true → ang n = true := by
    intro l a st b h ⟨hs, hf⟩
    refine ⟨act_sep hP l a st b h hs, fun n hn => ?_⟩
    rcases act_flag P l a st b h n hn with h | ⟨rfl, e, he, ho⟩
    · exact hf n h
    · have hse : Separated ang e.lhs ∧ Separated ang e.rhs := by
        rcases List.mem_append.1 he with he | he
        · exact ⟨(hs.one e he).1, (hs.one e he).2.1⟩
        · exact hs.two e he
      cases ha : ang a.curr with
      | true => rfl
      | false =>
        have := (sep_len (hP.sub hse.2 hse.1) ha).1
        rw [this] at ho; cases ho
  cases h with
  | assign h => exact one .asgn _ _ _ h hs
  | work _ h =>
    exact den_rel (E := env P) (R := fun a b => (SepInv ang a ∧ ∀ n, (a.ld n).solvableTan = true → ang n = true) →
      SepInv ang b ∧ ∀ n, (b.ld n).solvableTan = true → ang n = true) (fun _ => id) (fun _ _ _ f g => g ∘ f) one (fun _ => id) _ _ _ _ h hs
  | sub h => exact one .subTrans _ _ _ h hs
  | upd h => exact one .updateL _ _ _ h hs

/-- **C76.** If moreover the first unknown is not an angle, the run ends. -/
theorem C76_length_first_partial {P : Sympy} {ang : String → Bool} {x : String} {us : List String} {ms : List MEqn} {aux : List KEqn} (hP : TameOn ang P)
    (hg : GoodInput (x :: us) ang ms aux) (hx : ang x = false) : ∃ r, solve P (x :: us) ms aux = .ok r := by
  cases h : solve P (x :: us) ms aux with
  | ok r => exact ⟨r, rfl⟩
  | error c =>
    exfalso
    obtain ⟨-, L, hL, s, y, hp, hh, _, hf, _⟩ := C76_abort_partial hP hg (by simp) h
    have hS : SepInv ang (init (x :: us) ms aux L) := sep_init hP hg (by rw [init_vars]; exact hL)
    have := hp.inv (I := fun s => SepInv ang s ∧ ∀ n, (s.ld n).solvableTan = true → ang n = true) (fun a b hs h => step_flag hP h hs)
      ⟨hS, fun n hn => by cases hn⟩
    rw [path_unknowns hp] at hh
    cases hh
    rw [this.2 _ hf] at hx
    cases hx

end Verif.Solver
