import Verif.Solver.AbortFree
/-!
# C76, second part: the invariant along a run, and the leaves on an unsolved unknown
-/
namespace Verif.Solver
open Verif.Leaf Verif.Eqn Verif.Sol Verif.Sym
open Verif.BT hiding Tree

/-! ## The invariant is kept -/

theorem BalancedIn.mono {ang : String → Bool} {s s' : LS} {e : Expr} (h : BalancedIn s ang e) (hu : s'.w.unknowns = s.w.unknowns)
    (hs : ∀ n, s.solved n = true → s'.solved n = true) : BalancedIn s' ang e := by
  intro x hx hf ha hh
  rw [hu] at hx
  refine h x hx ?_ ha hh
  cases hx' : s.solved x with
  | false => rfl
  | true => rw [hs x hx'] at hf; cases hf

theorem count_mono {s s' : LS} (hu : s'.w.unknowns = s.w.unknowns) (hs : ∀ n, s.solved n = true → s'.solved n = true) (e : Expr) :
    countUnknowns s'.vars e ≤ countUnknowns s.vars e := by
  rw [count_eq, count_eq, hu]
  apply List.countP_mono_left
  intro x _ hx
  simp only [Bool.and_eq_true, Bool.not_eq_true'] at hx ⊢
  refine ⟨hx.1, ?_⟩
  cases h : s.solved x with
  | false => rfl
  | true => rw [hs x h] at hx; cases hx.2

theorem SepInv.mono {ang : String → Bool} {s s' : LS} (h : SepInv ang s) (hu : s'.w.unknowns = s.w.unknowns)
    (hs : ∀ n, s.solved n = true → s'.solved n = true) (hm : s'.ms = s.ms) (ha : s'.aux = s.aux) (hl : s'.lists = s.lists) : SepInv ang s' where
  pi := by rw [hu]; exact h.pi
  ne := by rw [hm]; exact h.ne
  mat := by rw [hm]; exact h.mat
  bal := by rw [hm]; exact fun m hm i j => (h.bal m hm i j).mono hu hs
  aux := by rw [ha]; exact fun e he => ⟨(h.aux e he).1, (h.aux e he).2.1, (h.aux e he).2.2.mono hu hs⟩
  one := by
    rw [hl]
    intro e he
    obtain ⟨h1, h2, h3, h4⟩ := h.one e he
    have := count_mono hu hs e.lhs
    have := count_mono hu hs e.rhs
    exact ⟨h1, h2, h3.mono hu hs, by omega⟩
  two := by rw [hl]; exact h.two

theorem sep_init {P : Sympy} {ang : String → Bool} (hP : TameOn ang P) {us : List String} {ms : List MEqn} {aux : List KEqn} {L : Lists}
    (hg : GoodInput us ang ms aux) (h : scanForEquations P.toCAS ms aux (init us ms aux L).vars = .ok L) : SepInv ang (init us ms aux L) := by
  obtain ⟨h1, h2, h3, h4, h5⟩ := hg
  have hb : ∀ e, Balanced us ang e → BalancedIn (init us ms aux L) ang e := fun e he x hx _ ha hh => he x hx ha hh
  obtain ⟨k1, k2⟩ := scan_sep hP (s := init us ms aux L) h3 (fun m hm i j => hb _ (h4 m hm i j))
    (fun e he => ⟨(h5 e he).1, (h5 e he).2.1, hb _ (h5 e he).2.2⟩) h
  exact ⟨h1, h2, h3, fun m hm i j => hb _ (h4 m hm i j), fun e he => ⟨(h5 e he).1, (h5 e he).2.1, hb _ (h5 e he).2.2⟩, k1, k2⟩

theorem x2z2_sep {P : Sympy} {ang : String → Bool} (hP : TameOn ang P) {s s' : LS} {st : Status} (hs : SepInv ang s)
    (h : x2z2 P s = .ok (st, s')) : SepInv ang s' := by
  unfold x2z2 at h
  split at h
  swap
  · cases h; exact hs
  split at h
  · cases h; exact hs
  next e he =>
  split at h
  · cases h; exact hs
  next v hv =>
  cases h
  obtain ⟨i, j, -, e1, e2, h1, h2, h3⟩ := x2z2Find_spec he
  have m1 := hs.two e1 (List.mem_of_mem_filter (List.mem_of_getElem? h1))
  have m2 := hs.two e2 (List.mem_of_mem_filter (List.mem_of_getElem? h2))
  unfold x2z2Pair at h3
  dsimp only at h3
  split at h3
  swap
  · cases h3
  next hc =>
  split at h3
  swap
  · cases h3
  cases h3
  have sq2 : ∀ {a b : Expr}, Separated ang a → Separated ang b → Separated ang (P.simplify (.bin .add (.bin .mul a a) (.bin .mul b b))) :=
    fun ha hb => hP.simplify (.bin (.bin ha ha) (.bin hb hb))
  have hr := sq2 m1.2 m2.2
  refine ⟨hs.pi, hs.ne, hs.mat, hs.bal, fun e he => ?_, hs.one, hs.two⟩
  rcases List.mem_append.1 he with he | he
  · exact hs.aux e he
  · simp only [List.mem_singleton] at he
    subst he
    refine ⟨sq2 m1.1 m2.1, by dsimp only; rw [sep_subs hr]; exact hP.simplify hr, fun x hx hf _ hh => ?_⟩
    exfalso
    rw [count_eq, List.countP_eq_zero] at hc
    exact hc x hx (by simp [hh]; exact hf)

theorem subTransform_sep {P : Sympy} {ang : String → Bool} (hP : TameOn ang P) {s s' : LS} {st : Status} (hs : SepInv ang s)
    (h : subTransform P s = .ok (st, s')) : SepInv ang s' := by
  unfold subTransform at h
  split at h
  · cases h
  next m ms hm =>
  dsimp only at h
  obtain ⟨ht, hk⟩ := sub_sep hP s.vars m false (hs.mat m (by simp [hm]))
  have hmat : ∀ m' ∈ (cells.foldl (subCell P s.vars) (m, false)).1 :: ms, ∀ e ∈ m'.kequationList, Separated ang e.lhs ∧ Separated ang e.rhs := by
    intro m' hm'
    rcases List.mem_cons.1 hm' with rfl | hm'
    · exact hk
    · exact hs.mat m' (by simp [hm, hm'])
  have hbal : ∀ m' ∈ (cells.foldl (subCell P s.vars) (m, false)).1 :: ms, ∀ i j, BalancedIn s ang (m'.td i j) := by
    intro m' hm' i j
    rcases List.mem_cons.1 hm' with rfl | hm'
    · rw [ht]; exact hs.bal m (by simp [hm]) i j
    · exact hs.bal m' (by simp [hm, hm']) i j
  split at h
  · split at h
    · cases h
    next L hL =>
    cases h
    obtain ⟨k1, k2⟩ := scan_sep hP (s := s) hmat hbal hs.aux hL
    exact ⟨hs.pi, by simp, hmat, hbal, hs.aux, k1, k2⟩
  · cases h
    exact ⟨hs.pi, by simp, hmat, hbal, hs.aux, hs.one, hs.two⟩

theorem updateLeaf_sep {P : Sympy} {ang : String → Bool} (hP : TameOn ang P) {s s' : LS} {st : Status} (hs : SepInv ang s)
    (h : updateLeaf P s = .ok (st, s')) : SepInv ang s' := by
  obtain ⟨-, L, hL, rfl⟩ := updateLeaf_cases h
  unfold updateL at hL
  split at hL
  · cases hL
  next L0 h0 =>
  cases hL
  obtain ⟨k1, k2⟩ := scan_sep hP (s := s) hs.mat hs.bal hs.aux h0
  obtain ⟨j1, j2⟩ := updAux_sep hP (s := s) hs.aux k1 k2
  exact ⟨hs.pi, hs.ne, hs.mat, hs.bal, hs.aux, j1, j2⟩

/-- only the substitution writes to the matrices -/
theorem act_ms {P : Sympy} {l : LeafName} {s s' : LS} {st : Status} (hl : l ≠ .subTrans) (h : act P l s = .ok (st, s')) : s'.ms = s.ms := by
  cases l <;> simp only [act] at h
  case asgn => obtain ⟨-, c, x, hx, rfl, -⟩ := assigner_cases h; rfl
  case rank =>
    obtain ⟨-, hr⟩ := rank_cases h
    cases hr with
    | none => rfl
    | one h0 h => exact (LS.setSolved_ok h).2.2.1
    | chosen b sec tags h1 h2 _ h3 h4 h => exact (LS.setSolved_ok h).2.2.1
  case tanID =>
    rcases tanId_cases h with ⟨-, rfl, -⟩ | ⟨-, rfl, -⟩ | ⟨-, _, _, es, _, ec, _, a, b, _, rfl⟩ <;> rfl
  case tanSolver =>
    rcases tanSolve_cases h with ⟨-, rfl, -⟩ | ⟨-, _, e1, e2, A, B, C, D, one, he, _, _, _, hE⟩
    · rfl
    · exact hE.ms
  case algID =>
    rcases act_two P .algID s st s' h with rfl | rfl
    · obtain ⟨_, tmp, _, rfl⟩ := algebraId_ok h; rfl
    · rw [algebraId_fail h]
  case algSolver =>
    unfold algebraSolve at h
    dsimp only at h
    repeat' split at h
    all_goals first | (cases h; done) | (cases h; rfl) | skip
    next h1 =>
    cases h
    rw [(LS.setSolved_ok h1).2.2.1]; simp
  case scID => rcases sincosId_cases h with ⟨_, rfl⟩ | ⟨_, _, _, e, t, _, rfl⟩ <;> rfl
  case scSolver =>
    rcases sincosSolve_cases h with ⟨-, rfl⟩ | ⟨-, e, A, B, sine, he, _, _, _, hE⟩
    · rfl
    · exact hE.ms
  case sacID => rcases sacId_cases h with ⟨_, rfl⟩ | ⟨_, _, es, _, rfl⟩ <;> rfl
  case sacSolver =>
    unfold sacSolve at h
    dsimp only at h
    split at h
    swap
    · cases h; rfl
    split at h
    · cases h
    split at h
    · cases h
    split at h
    · cases h
    next h1 =>
    cases h
    rw [(LS.setSolved_ok h1).2.2.1]; simp
  case x2z2 =>
    unfold x2z2 at h
    dsimp only at h
    repeat' split at h
    all_goals cases h
    all_goals rfl
  case simuID => rcases simuId_cases h with ⟨_, rfl⟩ | ⟨_, _, a, b, _, rfl⟩ <;> rfl
  case simuSolver =>
    rcases simuSolve_cases h with ⟨_, rfl⟩ | ⟨_, e1, e2, he, _, hs, _, hld⟩
    · rfl
    · exact hs.ms
  case subTrans => exact absurd rfl hl
  case sumID => rw [(sumId_cases h).2]
  case updateL => obtain ⟨-, L, _, rfl⟩ := updateLeaf_cases h; rfl
  case compDetect => rw [compDetect_eq] at h; cases h; rfl

theorem act_sep {P : Sympy} {ang : String → Bool} (hP : TameOn ang P) (l : LeafName) (s : LS) (st : Status) (s' : LS)
    (h : act P l s = .ok (st, s')) (hs : SepInv ang s) : SepInv ang s' := by
  have calm : Calm l → l ≠ .subTrans → SepInv ang s' := by
    intro hc hl
    have hf := frame_calm hc h
    exact hs.mono hf.unknowns hf.solved (act_ms hl h) hf.aux hf.lists
  cases l
  case asgn => obtain ⟨-, c, x, hx, rfl, -⟩ := assigner_cases h; exact hs.mono rfl (fun _ h => h) rfl rfl rfl
  case algID =>
    rcases act_two P .algID s st s' h with rfl | rfl
    · obtain ⟨_, tmp, _, rfl⟩ := algebraId_ok h; exact hs.mono rfl (fun _ h => h) rfl rfl rfl
    · rw [algebraId_fail h]; exact hs
  case scID =>
    rcases sincosId_cases h with ⟨_, rfl⟩ | ⟨_, _, _, e, t, _, rfl⟩
    · exact hs
    · exact hs.mono rfl (fun _ h => h) rfl rfl rfl
  case x2z2 => exact x2z2_sep hP hs h
  case subTrans => exact subTransform_sep hP hs h
  case updateL => exact updateLeaf_sep hP hs h
  all_goals exact calm trivial (by simp)

/-! ## set_solved -/

/-- no unsolved unknown but `x` occurs in the expression -/
def CleanFor (s : LS) (x : String) (e : Expr) : Prop := ∀ n ∈ s.w.unknowns, e.has n = true → n = x ∨ s.solved n = true

theorem solLoop_total (x : String) : ∀ (sols : List Expr) (n : Nat) (w : World),
    (∀ e ∈ sols, ∀ n ∈ w.unknowns, e.has n = true → (w.unk n).solved = true) → (solLoop x n sols w).2 = none
  | [], _, _, _ => rfl
  | e :: sols, n, w, h => by
    simp only [solLoop]
    have hd : getDeps w e = .ok (w.unknowns.foldl (fun s n => if e.has n && (w.unk n).solved then ins n s else s) []) := by
      unfold getDeps
      rw [if_neg]
      simp only [List.any_eq_true, not_exists, not_and]
      intro n hn
      cases hh : e.has n with
      | false => simp
      | true => simp [h e (by simp) n hn hh]
    rw [hd]
    refine solLoop_total x sols _ _ fun e' he' m hm hh => ?_
    have := h e' (by simp [he']) m hm hh
    simp only [World.upd]
    split <;> exact this

theorem setSolved_total {s : LS} {x : String} (hne : (s.w.unk x).solutions ≠ []) (hc : ∀ e ∈ (s.w.unk x).solutions, CleanFor s x e) :
    ∃ s', s.setSolved x = .ok s' := by
  unfold LS.setSolved
  rcases hr : Sol.setSolved s.w x with ⟨w, _ | e⟩
  · exact ⟨_, rfl⟩
  exfalso
  unfold Sol.setSolved at hr
  simp only [Sol.upd_same] at hr
  rw [if_neg (by simpa using hne)] at hr
  split at hr
  · next w1 e1 hl =>
    have := solLoop_total x _ 1 _ ?_ |>.symm.trans (congrArg Prod.snd hl)
    · cases this
    intro e' he' n hn hh
    by_cases hnx : n = x
    · subst hnx; simp
    · simp only [World.upd, if_neg hnx]
      exact (hc e' he' n hn hh).resolve_left hnx
  · simp at hr

end Verif.Solver
