import Verif.Solver.Typed
import Verif.Solver.Progress
namespace Verif.Solver
open Verif.Leaf Verif.Eqn Verif.Sol Verif.Sym
open Verif.BT hiding Tree

/-! ## Simulation of one run by another -/
section
variable {L : Type}

/-- forget the kinds -/
def er : DRes TLS → DRes LS
  | .error c => .error c
  | .ok (s, t) => .ok (s, t.s)

structure Sim (I : TLS → Prop) (J : Status → TLS → Prop) (f : TLS → DRes TLS) (g : LS → DRes LS) : Prop where
  same : ∀ t, I t → er (f t) = g t.s
  post : ∀ t, I t → ∀ st t', f t = .ok (st, t') → J st t'

theorem Sim.mono {I I' J J'} {f : TLS → DRes TLS} {g} (h : Sim I J f g) (hi : ∀ t, I' t → I t) (hj : ∀ st t, J st t → J' st t) :
    Sim I' J' f g := ⟨fun t ht => h.same t (hi t ht), fun t ht st t' e => hj _ _ (h.post t (hi t ht) st t' e)⟩

theorem seq_nil {I : TLS → Prop} {K : Status → TLS → Prop} (h : ∀ t, I t → K .success t) : Sim I K (denSeq []) (denSeq []) :=
  ⟨fun t _ => rfl, fun t ht st t' e => by cases e; exact h t ht⟩

theorem seq_cons {I J K} {f : TLS → DRes TLS} {g fs gs} (h : Sim I J f g) (hn : ∀ st t, st ≠ .success → J st t → K st t)
    (hs : Sim (J .success) K (denSeq fs) (denSeq gs)) : Sim I K (denSeq (f :: fs)) (denSeq (g :: gs)) := by
  constructor
  · intro t ht
    have h1 := h.same t ht
    simp only [denSeq]
    rw [← h1]
    cases hf : f t with
    | error c => rfl
    | ok r =>
      obtain ⟨st, t'⟩ := r
      simp only [er]
      by_cases he : st = .success
      · subst he
        simp only [if_true]
        exact hs.same t' (h.post t ht _ _ hf)
      · simp [he]
  · intro t ht st t' e
    rcases denSeq_cons e with ⟨h1, h2⟩ | ⟨t1, h1, h2⟩
    · exact hn _ _ h2 (h.post t ht _ _ h1)
    · exact hs.post t1 (h.post t ht _ _ h1) _ _ h2

theorem pri_nil {I : TLS → Prop} {K : Status → TLS → Prop} (h : ∀ t, I t → K .failure t) : Sim I K (denPri []) (denPri []) :=
  ⟨fun t _ => rfl, fun t ht st t' e => by cases e; exact h t ht⟩

theorem pri_cons {I J K} {f : TLS → DRes TLS} {g fs gs} (h : Sim I J f g) (hn : ∀ st t, st ≠ .failure → J st t → K st t)
    (hs : Sim (J .failure) K (denPri fs) (denPri gs)) : Sim I K (denPri (f :: fs)) (denPri (g :: gs)) := by
  constructor
  · intro t ht
    have h1 := h.same t ht
    simp only [denPri]
    rw [← h1]
    cases hf : f t with
    | error c => rfl
    | ok r =>
      obtain ⟨st, t'⟩ := r
      simp only [er]
      by_cases he : st = .failure
      · subst he
        simp only [if_true]
        exact hs.same t' (h.post t ht _ _ hf)
      · simp [he]
  · intro t ht st t' e
    rcases denPri_cons e with ⟨h1, h2⟩ | ⟨t1, h1, h2⟩
    · exact hn _ _ h2 (h.post t ht _ _ h1)
    · exact hs.post t1 (h.post t ht _ _ h1) _ _ h2

theorem or_nil {I : TLS → Prop} {K : Status → TLS → Prop} (h : ∀ st t, I t → K st t) (acc : Status) :
    Sim I K (denOr [] acc) (denOr [] acc) :=
  ⟨fun t _ => rfl, fun t ht st t' e => by cases e; exact h _ t ht⟩

theorem or_cons {I J : TLS → Prop} {K} {f : TLS → DRes TLS} {g fs gs} (h : Sim I (fun _ => J) f g)
    (hs : ∀ acc, Sim J K (denOr fs acc) (denOr gs acc)) (acc : Status) : Sim I K (denOr (f :: fs) acc) (denOr (g :: gs) acc) := by
  constructor
  · intro t ht
    have h1 := h.same t ht
    simp only [denOr]
    rw [← h1]
    cases hf : f t with
    | error c => rfl
    | ok r =>
      obtain ⟨st, t'⟩ := r
      exact (hs _).same t' (h.post t ht _ _ hf)
  · intro t ht st t' e
    simp only [denOr] at e
    split at e
    · cases e
    · next s1 t1 hf => exact (hs _).post t1 (h.post t ht _ _ hf) _ _ e

def erO : Except Crash (Option Status × TLS) → Except Crash (Option Status × LS)
  | .error c => .error c
  | .ok (s, t) => .ok (s, t.s)

theorem loop_sim {I : TLS → Prop} {f : TLS → DRes TLS} {g} (h : Sim I (fun _ => I) f g) (cont : Status → Bool) (m : Int) :
    ∀ n last i t, I t → erO (denLoop cont m f n last i t) = denLoop cont m g n last i t.s ∧
      ∀ st t', denLoop cont m f n last i t = .ok (st, t') → I t' := by
  intro n
  induction n with
  | zero =>
    intro last i t ht
    unfold denLoop
    split
    · exact ⟨rfl, fun st t' e => by cases e⟩
    · exact ⟨rfl, fun st t' e => by cases e; exact ht⟩
  | succ n ih =>
    intro last i t ht
    unfold denLoop
    split
    · dsimp only
      have h1 := h.same t ht
      cases hf : f t with
      | error c =>
        rw [hf] at h1
        rw [← h1]
        exact ⟨rfl, fun st t' e => by cases e⟩
      | ok r =>
        obtain ⟨st, t1⟩ := r
        rw [hf] at h1
        rw [← h1]
        simp only [er]
        have h2 := h.post t ht _ _ hf
        cases cont st with
        | true => simpa using ih (some st) (i + 1) t1 h2
        | false => exact ⟨rfl, fun st t' e => by cases e; exact h2⟩
    · exact ⟨rfl, fun st t' e => by cases e; exact ht⟩

theorem until_sim {E : Env TLS L} {E' : Env LS L} {fuel : Nat} {I : TLS → Prop} {f : TLS → DRes TLS} {g} (h : Sim I (fun _ => I) f g) (m : Int) :
    Sim I (fun _ => I) (denDeco E fuel (.untilSuccess m) f) (denDeco E' fuel (.untilSuccess m) g) := by
  constructor
  · intro t ht
    simp only [denDeco, denRepeat]
    rw [← (loop_sim h (fun s => decide (s = .failure)) m (loopFuel fuel m 0) none 0 t ht).1]
    cases denLoop (fun s => decide (s = .failure)) m f (loopFuel fuel m 0) none 0 t with
    | error c => rfl
    | ok r => obtain ⟨_ | s, t1⟩ := r <;> rfl
  · intro t ht st t' e
    simp only [denDeco, denRepeat] at e
    split at e
    · cases e
    · cases e
    · next s1 t1 hl =>
      cases e
      exact (loop_sim h _ m _ none 0 t ht).2 _ _ hl
end

/-! ## What the leaves leave alone -/

structure Frame (s s' : LS) : Prop where
  lists : s'.lists = s.lists
  aux : s'.aux = s.aux
  curr : s'.curr = s.curr
  unknowns : s'.w.unknowns = s.w.unknowns
  solved : ∀ n, s.solved n = true → s'.solved n = true

theorem Frame.refl (s : LS) : Frame s s := ⟨rfl, rfl, rfl, rfl, fun _ h => h⟩
theorem Frame.trans {a b c : LS} (h : Frame a b) (h' : Frame b c) : Frame a c :=
  ⟨h'.lists.trans h.lists, h'.aux.trans h.aux, h'.curr.trans h.curr, h'.unknowns.trans h.unknowns, fun n hn => h'.solved n (h.solved n hn)⟩

theorem frame_updLd (s : LS) (x : String) (f : LeafData → LeafData) : Frame s (s.updLd x f) := ⟨rfl, rfl, rfl, rfl, fun _ h => h⟩
theorem frame_only {s s' : LS} {x : String} (h : OnlySols x s.w s'.w) (hl : s'.lists = s.lists) (ha : s'.aux = s.aux) (hc : s'.curr = s.curr) :
    Frame s s' := by
  obtain ⟨sols, k, hw⟩ := h
  refine ⟨hl, ha, hc, by rw [hw]; rfl, fun n hn => ?_⟩
  unfold LS.solved at hn ⊢
  rw [hw]
  unfold World.upd
  dsimp only
  split
  · next h => subst h; exact hn
  · exact hn

theorem frame_step {s s' : LS} {x : String} (h : s.setSolved x = .ok s') : Frame s s' := by
  obtain ⟨h1, h2, _, h4, h5, _⟩ := LS.setSolved_ok h
  refine ⟨h2, h4, h5, h1.unknowns, fun n hn => ?_⟩
  by_cases he : n = x
  · subst he; exact h1.solved
  · unfold LS.solved at hn ⊢; rw [h1.other n he]; exact hn

theorem frame_solves {sols : List Expr} {s s' : LS} (h : Solves sols s s') : Frame s s' := by
  have := Sol.setSolved_ok h.w
  refine ⟨h.lists, h.aux, h.curr, this.unknowns.trans rfl, fun n hn => ?_⟩
  by_cases he : n = s.curr
  · subst he; exact this.solved
  · unfold LS.solved at hn ⊢
    rw [this.other n he]
    unfold setSolutions
    rw [Sol.upd_other _ _ he]
    exact hn

theorem frame_ext {own : Bool} {new es g} {s s' : LS} (h : Ext own new es g s s') (hc : s'.curr = s.curr) : Frame s s' :=
  frame_only h.only h.lists h.aux hc


/-- leaves that touch neither lists nor equations -/
def Calm : LeafName → Prop
  | .rank | .tanID | .tanSolver | .algSolver | .scSolver | .sacID | .sacSolver | .simuID | .simuSolver | .sumID | .compDetect => True
  | _ => False

theorem frame_pushSol (s : LS) (x : String) (e : Expr) : Frame s (s.pushSol x e) :=
  frame_only (pushSol_only s x e) (by simp) (by simp) (by simp)
theorem frame_updU (s : LS) (x : String) (f : Unk → Unk)
    (hf : ∀ u, f u = { u with solutions := (f u).solutions, nsolutions := (f u).nsolutions }) : Frame s (s.updU x f) :=
  frame_only (x := x) (onlySols_upd _ _ _ hf) rfl rfl rfl
theorem frame_guards (s : LS) (g : List Expr) : Frame s { s with guards := g } := ⟨rfl, rfl, rfl, rfl, fun _ h => h⟩

theorem frame_calm {P : Sympy} {l : LeafName} (hl : Calm l) {s s' : LS} {st : Status} (h : act P l s = .ok (st, s')) : Frame s s' := by
  cases l <;> simp only [Calm] at hl <;> simp only [act] at h
  case rank =>
    obtain ⟨_, h⟩ := rank_cases h
    cases h with
    | none => exact .refl _
    | one _ h => exact frame_step h
    | chosen b sec tags _ _ _ _ _ h =>
      refine Frame.trans ?_ (frame_step h)
      exact (frame_updU _ _ (fun x => { x with solutions := cand b (s.ld s.curr), nsolutions := (cand b (s.ld s.curr)).length }) (fun _ => rfl)).trans (frame_updLd _ _ _)
  case tanID =>
    rcases tanId_cases h with ⟨_, rfl, _⟩ | ⟨_, rfl, _⟩ | ⟨_, _, _, _, _, _, _, _, _, _, rfl⟩
    · exact .refl _
    · exact .refl _
    · exact frame_updLd _ _ _
  case tanSolver =>
    rcases tanSolve_cases h with ⟨_, rfl, _⟩ | h
    · exact .refl _
    · obtain ⟨_, _, _, _, _, _, _, _, _, _, _, _, _, h⟩ := h
      exact frame_ext h h.curr
  case scSolver =>
    rcases sincosSolve_cases h with ⟨_, rfl⟩ | ⟨_, _, _, _, _, _, _, _, _, h⟩
    · exact .refl _
    · exact frame_ext h h.curr
  case sacID =>
    rcases sacId_cases h with ⟨_, rfl⟩ | ⟨_, _, _, _, rfl⟩
    · exact .refl _
    · exact frame_updLd _ _ _
  case simuID =>
    rcases simuId_cases h with ⟨_, rfl⟩ | ⟨_, _, _, _, _, rfl⟩
    · exact .refl _
    · exact frame_updLd _ _ _
  case simuSolver =>
    rcases simuSolve_cases h with ⟨_, rfl⟩ | ⟨_, _, _, _, _, h, _⟩
    · exact .refl _
    · exact frame_solves h
  case sumID => rw [(sumId_cases h).2]; exact .refl _
  case compDetect => rw [compDetect_eq] at h; cases h; exact .refl _
  case algSolver =>
    unfold algebraSolve at h
    dsimp only at h
    split at h
    · split at h
      · cases h
      · split at h
        · cases h; exact .refl _
        · split at h
          · cases h; exact .refl _
          · split at h
            · cases h
            · next s1 hs =>
              cases h
              refine Frame.trans ?_ (frame_step hs)
              refine ((frame_guards _ _).trans (frame_pushSol _ _ _)).trans (frame_updU _ _ _ fun _ => rfl)
    · cases h; exact .refl _
  case sacSolver =>
    unfold sacSolve at h
    dsimp only at h
    split at h
    · split at h
      · cases h
      · split at h
        · cases h
        · split at h
          · cases h
          · next s1 hs =>
            cases h
            refine Frame.trans ?_ (frame_step hs)
            exact (((frame_guards _ _).trans (frame_pushSol _ _ _)).trans (frame_pushSol _ _ _)).trans (frame_updU _ _ _ fun _ => rfl)
    · cases h; exact .refl _


/-! ## The invariant -/

/-- What is assumed of sympy here: subtraction and division make no new symbols, and `match` keeps its promise about `exclude`. -/
structure NoNewSymbols (P : Sympy) : Prop where
  sub : ∀ a b x, (P.sub a b).has x = true → a.has x = true ∨ b.has x = true
  ratio : ∀ a b x, (P.ratio a b).has x = true → a.has x = true ∨ b.has x = true
  lin : ∀ {e t ex A B}, P.lin e t ex = some (A, B) → ∀ x ∈ ex, occurs x A = false ∧ occurs x B = false

def Small (vs : List Var) (e : KEqn) : Prop := hasP e = false ∨ countUnknowns vs e.lhs + countUnknowns vs e.rhs ≤ 1

structure TInv (t : TLS) : Prop where
  len1 : t.int1.length = t.s.lists.l1.length
  len2 : t.int2.length = t.s.lists.l2.length
  noP : ∀ e ∈ t.eqns2, e.2 = true → hasP e.1 = false
  aux : ∀ e ∈ t.s.aux, Small t.s.vars e

theorem count_eq (s : LS) (e : Expr) : countUnknowns s.vars e = s.w.unknowns.countP fun x => e.has x && !s.solved x := by
  have key : ∀ (l : List String) (n : Nat), (l.map fun x => (⟨x, (s.w.unk x).solved⟩ : Var)).foldl
      (fun n u => if e.has u.name && u.solved == false then n + 1 else n) n = n + l.countP fun x => e.has x && !s.solved x := by
    intro l
    induction l with
    | nil => simp
    | cons x l ih =>
      intro n
      simp only [List.map_cons, List.foldl_cons, List.countP_cons]
      rw [ih]
      unfold LS.solved
      cases e.has x <;> cases (s.w.unk x).solved <;> (simp; try omega)
  unfold countUnknowns LS.vars
  rw [key]; simp

theorem count_frame {s s' : LS} (h : Frame s s') (e : Expr) : countUnknowns s'.vars e ≤ countUnknowns s.vars e := by
  rw [count_eq, count_eq, h.unknowns]
  apply List.countP_mono_left
  intro x _ hx
  simp only [Bool.and_eq_true, Bool.not_eq_true'] at hx ⊢
  refine ⟨hx.1, ?_⟩
  cases hs : s.solved x with
  | false => rfl
  | true => rw [h.solved x hs] at hx; cases hx.2

theorem count_sub {P : Sympy} (hP : NoNewSymbols P) (s : LS) (a b : Expr) :
    countUnknowns s.vars (P.sub a b) ≤ countUnknowns s.vars a + countUnknowns s.vars b := by
  rw [count_eq, count_eq, count_eq]
  induction s.w.unknowns with
  | nil => simp
  | cons x l ih =>
    simp only [List.countP_cons]
    have := hP.sub a b x
    cases h : (P.sub a b).has x <;> cases h1 : a.has x <;> cases h2 : b.has x <;> cases s.solved x <;> simp_all <;> omega

theorem Small.frame {s s' : LS} (h : Frame s s') {e : KEqn} (he : Small s.vars e) : Small s'.vars e := by
  rcases he with he | he
  · exact .inl he
  · have h1 := count_frame h e.lhs
    have h2 := count_frame h e.rhs
    exact .inr (by omega)

theorem TInv.frame {t : TLS} {s' : LS} (ht : TInv t) (h : Frame t.s s') : TInv { t with s := s' } where
  len1 := by simp only [h.lists]; exact ht.len1
  len2 := by simp only [h.lists]; exact ht.len2
  noP := by
    intro e he
    unfold TLS.eqns2 at he
    simp only [h.lists] at he
    exact ht.noP e he
  aux := by
    intro e he
    simp only [h.aux] at he
    exact (ht.aux e he).frame h

/-- No left side of the one-unknown equations is an `int`. -/
def Clean (t : TLS) : Prop := t.s.solved t.s.curr = true ∨ ∀ b ∈ t.int1, b = false

theorem Clean.frame {t : TLS} {s' : LS} (ht : Clean t) (h : Frame t.s s') : Clean { t with s := s' } := by
  rcases ht with ht | ht
  · exact .inl (by simp only [h.curr]; exact h.solved _ ht)
  · exact .inr ht

/-- forget the kinds in the result of a leaf -/
def erN : TOut → Out
  | .error c => .error c
  | .ok (st, t) => .ok (st, t.s)

theorem leaf_sim {P : Sympy} {i : Nat} {l : LeafName} {I : TLS → Prop} {J : Status → TLS → Prop}
    (h1 : ∀ t, I t → erN (actT P l t) = act P l t.s) (h2 : ∀ t, I t → ∀ st t', actT P l t = .ok (st, t') → J st t') :
    Sim I J (den (envT P) 0 (lf i l)) (den (env P) 0 (lf i l)) := by
  constructor
  · intro t ht
    have := h1 t ht
    simp only [lf, den, envT, env]
    rw [← this]
    cases actT P l t with
    | error c => rfl
    | ok r => rfl
  · intro t ht st t' h
    exact h2 t ht st t' (denLeaf_ok.mp h)

theorem same_sim (P : Sympy) {l : LeafName} (hl : Calm l) (i : Nat) {X : TLS → Prop}
    (hX : ∀ t s', X t → Frame t.s s' → X { t with s := s' }) :
    Sim (fun t => TInv t ∧ X t) (fun _ t => TInv t ∧ X t) (den (envT P) 0 (lf i l)) (den (env P) 0 (lf i l)) := by
  have ha : actT P l = same (act P l) := by cases l <;> simp only [Calm] at hl <;> rfl
  apply leaf_sim
  · intro t _
    rw [ha]
    unfold same
    cases act P l t.s with
    | error c => rfl
    | ok r => rfl
  · intro t ht st t' h
    rw [ha] at h
    unfold same at h
    split at h
    · cases h
    · next st1 s1 h1 =>
      cases h
      have := frame_calm hl h1
      exact ⟨ht.1.frame this, hX _ _ ht.2 this⟩

theorem clean_stable : ∀ (t : TLS) (s' : LS), Clean t → Frame t.s s' → Clean { t with s := s' } := fun _ _ h hf => h.frame hf
theorem true_stable : ∀ (t : TLS) (s' : LS), True → Frame t.s s' → True := fun _ _ _ _ => trivial

/-! ## The leaves that look at left sides -/

theorem sincosFindT_eq (u : String) : ∀ l : List TEqn, (∀ e ∈ l, e.2 = false) → sincosFindT u l = .ok (sincosFind u (l.map (·.1)))
  | [], _ => rfl
  | (e, b) :: l, h => by
    have hb : b = false := h (e, b) (by simp)
    subst hb
    have ih := sincosFindT_eq u l fun e he => h e (by simp [he])
    simp only [sincosFindT, sincosFind, List.map_cons, ih, sideHas, pyOr, lhsHas]
    cases occurs (sinU u) e.rhs <;> cases occurs (sinU u) e.lhs <;> cases occurs (cosU u) e.rhs <;> cases occurs (cosU u) e.lhs <;> rfl

theorem eqns1_fst {t : TLS} (h : t.int1.length = t.s.lists.l1.length) : t.eqns1.map (·.1) = t.s.lists.l1 := by
  unfold TLS.eqns1
  rw [List.map_fst_zip]; omega

theorem eqns2_fst {t : TLS} (h : t.int2.length = t.s.lists.l2.length) : t.eqns2.map (·.1) = t.s.lists.l2 := by
  unfold TLS.eqns2
  rw [List.map_fst_zip]; omega

theorem scID_sim (P : Sympy) (i : Nat) :
    Sim (fun t => TInv t ∧ Clean t) (fun _ t => TInv t ∧ Clean t) (den (envT P) 0 (lf i .scID)) (den (env P) 0 (lf i .scID)) := by
  have key : ∀ t, TInv t → Clean t → t.s.solved t.s.curr = false →
      sincosFindT t.s.curr t.eqns1 = .ok (sincosFind t.s.curr t.s.lists.l1) := by
    intro t ht hc hs
    rw [sincosFindT_eq, eqns1_fst ht.len1]
    rcases hc with h | h
    · rw [h] at hs; cases hs
    · intro e he
      exact h _ (List.of_mem_zip he).2
  apply leaf_sim
  · rintro t ⟨ht, hc⟩
    show erN (sincosIdT t) = sincosId t.s
    unfold sincosIdT sincosId
    dsimp only
    split
    · next hs =>
      simp only [Bool.and_eq_true, Bool.not_eq_true'] at hs
      rw [key t ht hc hs.2]
      cases sincosFind t.s.curr t.s.lists.l1 with
      | none => rfl
      | some r => rfl
    · rfl
  · rintro t ⟨ht, hc⟩ st t' h
    have h : sincosIdT t = .ok (st, t') := h
    unfold sincosIdT at h
    dsimp only at h
    split at h
    · split at h
      · cases h
      · cases h; exact ⟨ht, hc⟩
      · cases h
        exact ⟨ht.frame (frame_updLd _ _ _), hc.frame (frame_updLd _ _ _)⟩
    · cases h; exact ⟨ht, hc⟩

theorem algebraFindT_eq (P : Sympy) (u : String) : ∀ l : List TEqn, (algebraFindT P u l).1 = algebraFind P u (l.map (·.1)) ∧
    (algebraFindT P u l).2.length = l.length ∧ ((algebraFindT P u l).1 = none → ∀ b ∈ (algebraFindT P u l).2, b = false)
  | [] => by simp [algebraFindT, algebraFind]
  | (e, b) :: l => by
    obtain ⟨h1, h2, h3⟩ := algebraFindT_eq P u l
    have go : (algebraFindT P u l).1 = algebraFind P u (l.map (·.1)) ∧ (false :: (algebraFindT P u l).2).length = l.length + 1 ∧
        ((algebraFindT P u l).1 = none → ∀ b ∈ false :: (algebraFindT P u l).2, b = false) := by
      refine ⟨h1, by simp [h2], fun h b hb => ?_⟩
      rcases List.mem_cons.1 hb with hb | hb
      · exact hb
      · exact h3 h b hb
    simp only [algebraFindT, algebraFind, List.map_cons, List.length_cons]
    split
    · exact go
    · split
      · cases linearMatch P (P.collectU u (P.sub e.rhs e.lhs)) u with
        | none => exact go
        | some r => exact ⟨rfl, by simp, fun h => by cases h⟩
      · exact go


/-- what `algebra_id` leaves behind -/
theorem algebraIdT_cases {P : Sympy} {t t' : TLS} {st : Status} (ht : TInv t) (h : algebraIdT P t = .ok (st, t')) :
    (st = .failure ∧ TInv t' ∧ Clean t') ∨ (st = .success ∧ TInv t' ∧ ∃ tmp A B, linearMatch P tmp t'.s.curr = some (A, B) ∧
      (t'.s.ld t'.s.curr).ready = true ∧ (t'.s.ld t'.s.curr).method.contains .algebra = true ∧
      (t'.s.ld t'.s.curr).eqn = some ⟨.num 0, tmp⟩) := by
  unfold algebraIdT at h
  split at h
  · next h0 =>
    cases h
    refine .inl ⟨rfl, ht, .inr ?_⟩
    have := ht.len1
    rw [h0] at this
    rw [List.length_eq_zero_iff.1 this]
    simp
  · dsimp only at h
    split at h
    · next hs => cases h; exact .inl ⟨rfl, ht, .inl hs⟩
    · obtain ⟨h1, h2, h3⟩ := algebraFindT_eq P t.s.curr t.eqns1
      have hl : t.eqns1.length = t.s.lists.l1.length := by
        unfold TLS.eqns1; rw [List.length_zip, ht.len1]; simp
      split at h
      · next hn =>
        cases h
        exact .inl ⟨rfl, ⟨by rw [h2, hl], ht.len2, ht.noP, ht.aux⟩, .inr (h3 hn)⟩
      · next tmp hn =>
        cases h
        refine .inr ⟨rfl, ⟨by rw [h2, hl]; rfl, ht.len2, ht.noP, ht.aux⟩, tmp, ?_⟩
        rw [h1] at hn
        have : ∃ r, linearMatch P tmp t.s.curr = some r := by
          clear h1 h2 h3 hl
          generalize t.eqns1.map (·.1) = l at hn
          induction l with
          | nil => cases hn
          | cons e l ih =>
            simp only [algebraFind] at hn
            split at hn
            · exact ih hn
            · split at hn
              · split at hn
                · exact ih hn
                · next r hr => cases hn; exact ⟨_, hr⟩
              · exact ih hn
        obtain ⟨⟨A, B⟩, hr⟩ := this
        exact ⟨A, B, hr, by simp [LS.updLd], by simp [LS.updLd], by simp [LS.updLd]⟩

theorem algID_sim (P : Sympy) (i : Nat) : Sim TInv (fun st t => (st = .failure ∧ TInv t ∧ Clean t) ∨ (st = .success ∧ TInv t ∧
      ∃ tmp A B, linearMatch P tmp t.s.curr = some (A, B) ∧
      (t.s.ld t.s.curr).ready = true ∧ (t.s.ld t.s.curr).method.contains .algebra = true ∧
      (t.s.ld t.s.curr).eqn = some ⟨.num 0, tmp⟩)) (den (envT P) 0 (lf i .algID)) (den (env P) 0 (lf i .algID)) := by
  apply leaf_sim
  · intro t ht
    show erN (algebraIdT P t) = algebraId P t.s
    unfold algebraIdT algebraId
    dsimp only
    split
    · rfl
    · split
      · rfl
      · rw [(algebraFindT_eq P t.s.curr t.eqns1).1, eqns1_fst ht.len1]
        cases algebraFind P t.s.curr t.s.lists.l1 with
        | none => rfl
        | some r => rfl
  · intro t ht st t' h
    exact algebraIdT_cases ht h

/-- `algebra_solve` never declines what `algebra_id` found. -/
theorem algSolver_sim {P : Sympy} (hP : NoNewSymbols P) (i : Nat) : Sim (fun t => TInv t ∧ ∃ tmp A B, linearMatch P tmp t.s.curr = some (A, B) ∧
      (t.s.ld t.s.curr).ready = true ∧ (t.s.ld t.s.curr).method.contains .algebra = true ∧
      (t.s.ld t.s.curr).eqn = some ⟨.num 0, tmp⟩) (fun st t => st = .success ∧ TInv t)
    (den (envT P) 0 (lf i .algSolver)) (den (env P) 0 (lf i .algSolver)) := by
  have hs := same_sim P (l := .algSolver) trivial i true_stable
  refine ⟨fun t ht => hs.same t ⟨ht.1, trivial⟩, ?_⟩
  rintro t ⟨ht, tmp, A, B, h1, h2, h3, h4⟩ st t' h
  refine ⟨?_, (hs.post t ⟨ht, trivial⟩ _ _ h).1⟩
  have h : same (algebraSolve P) t = .ok (st, t') := denLeaf_ok.mp h
  unfold same at h
  split at h
  · cases h
  · next st1 s1 ha =>
    cases h
    have hlin := (linearMatch_some.1 h1).1
    have hf := hP.lin hlin (.sym t.s.curr) (by simp)
    rw [occurs_sym, occurs_sym] at hf
    rcases algebraSolve_ok ha h2 h3 with ⟨hst, hs1⟩ | ⟨hst, _⟩
    · exfalso
      subst hst
      unfold algebraSolve at ha
      dsimp only at ha
      rw [h2, h3, h4] at ha
      simp only [Bool.true_and, if_true, h1] at ha
      split at ha
      · next hq =>
        rcases hP.ratio _ _ _ hq with h | h
        · rcases hP.sub _ _ _ h with h | h
          · simp [Expr.has] at h
          · rw [hf.2] at h; cases h
        · rw [hf.1] at h; cases h
      · split at ha <;> cases ha
    · exact hst

theorem den_comp {σ L : Type} {E : Env σ L} {i : Nat} {k : CKind} {cs : List (BT.Tree L)} :
    den E 0 (.comp k i cs) = denComp k (dens E 0 cs) := by rw [den]

theorem algSol_sim {P : Sympy} (hP : NoNewSymbols P) :
    Sim TInv (fun st t => TInv t ∧ (st = .failure → Clean t)) (den (envT P) 0 algSol) (den (env P) 0 algSol) := by
  simp only [algSol, sq]
  rw [den_comp, den_comp]
  refine seq_cons (algID_sim P 5) ?_ (seq_cons ((algSolver_sim hP 6).mono ?_ fun _ _ h => h) ?_ (seq_nil ?_))
  · rintro st t hst (⟨rfl, h⟩ | ⟨rfl, _⟩)
    · exact ⟨h.1, fun _ => h.2⟩
    · exact absurd rfl hst
  · rintro t (⟨h, _⟩ | ⟨_, h⟩)
    · cases h
    · exact h
  · rintro st t hst ⟨rfl, _⟩; exact absurd rfl hst
  · rintro t ⟨_, h⟩; exact ⟨h, fun h => by cases h⟩

theorem x2z2RowT_eq (P : Sympy) (vs : List Var) (a : TEqn) (ha : a.2 = false) : ∀ l : List TEqn,
    x2z2RowT P vs a l = .ok ((l.map (·.1)).findSome? (x2z2Pair P vs a.1))
  | [] => rfl
  | b :: l => by
    simp only [x2z2RowT, ha, Bool.false_and, List.map_cons, List.findSome?_cons]
    rw [if_neg (by simp)]
    cases x2z2Pair P vs a.1 b.1 with
    | none => exact x2z2RowT_eq P vs a ha l
    | some r => rfl

theorem x2z2FindT_eq (P : Sympy) (vs : List Var) : ∀ l : List TEqn, (∀ e ∈ l, e.2 = false) →
    x2z2FindT P vs l = .ok (x2z2Find P vs (l.map (·.1)))
  | [], _ => rfl
  | a :: l, h => by
    simp only [x2z2FindT, x2z2Find, List.map_cons]
    rw [x2z2RowT_eq P vs a (h a (by simp)), x2z2FindT_eq P vs l fun e he => h e (by simp [he])]
    cases (l.map (·.1)).findSome? (x2z2Pair P vs a.1) with
    | none => rfl
    | some r => rfl

theorem x2z2_key {P : Sympy} {t : TLS} (ht : TInv t) :
    x2z2FindT P t.s.vars (t.eqns2.filter fun e => hasP e.1) = .ok (x2z2Find P t.s.vars (t.s.lists.l2.filter hasP)) := by
  rw [x2z2FindT_eq]
  · congr 2
    rw [← eqns2_fst ht.len2, List.filter_map]
    rfl
  · intro e he
    rw [List.mem_filter] at he
    cases hb : e.2 with
    | false => rfl
    | true => rw [ht.noP e he.1 hb] at he; cases he.2

theorem x2z2Find_small {P : Sympy} {vs : List Var} {r : KEqn} : ∀ {l : List KEqn}, x2z2Find P vs l = some r → Small vs r
  | [], h => by cases h
  | e :: l, h => by
    simp only [x2z2Find] at h
    split at h
    · next r' hr =>
      cases h
      obtain ⟨e2, _, h2⟩ := List.exists_of_findSome?_eq_some hr
      unfold x2z2Pair at h2
      dsimp only at h2
      split at h2
      · next h0 =>
        split at h2
        · next h1 =>
          cases h2
          right
          show countUnknowns vs _ + countUnknowns vs _ ≤ 1
          dsimp only at h0 h1 ⊢
          omega
        · cases h2
      · cases h2
    · exact x2z2Find_small h

theorem x2z2_sim (P : Sympy) (i : Nat) : Sim TInv (fun _ => TInv) (den (envT P) 0 (lf i .x2z2)) (den (env P) 0 (lf i .x2z2)) := by
  apply leaf_sim
  · intro t ht
    show erN (x2z2T P t) = x2z2 P t.s
    unfold x2z2T x2z2
    rw [x2z2_key ht]
    split
    · cases x2z2Find P t.s.vars (t.s.lists.l2.filter hasP) with
      | none => rfl
      | some e =>
        dsimp only
        cases t.s.vars.find? (fun v => e.rhs.has v.name && !v.solved) with
        | none => rfl
        | some v => rfl
    · rfl
  · intro t ht st t' h
    have h : x2z2T P t = .ok (st, t') := h
    unfold x2z2T at h
    rw [x2z2_key ht] at h
    split at h
    · cases hf : x2z2Find P t.s.vars (t.s.lists.l2.filter hasP) with
      | none => rw [hf] at h; cases h; exact ht
      | some e =>
        rw [hf] at h
        dsimp only at h
        split at h
        · cases h; exact ht
        · cases h
          refine ⟨ht.len1, ht.len2, ht.noP, ?_⟩
          intro e' he'
          have he' : e' ∈ t.s.aux ++ [e] := he'
          rcases List.mem_append.1 he' with h | h
          · exact ht.aux e' h
          · simp only [List.mem_singleton] at h
            subst h
            exact x2z2Find_small hf
    · cases h; exact ht

theorem hasP_sub {P : Sympy} (hP : NoNewSymbols P) {e : KEqn} (h : hasP e = false) : hasP ⟨.num 0, P.sub e.lhs e.rhs⟩ = false := by
  unfold hasP at h ⊢
  simp only [Bool.or_eq_false_iff, Expr.has] at h ⊢
  have := fun x => hP.sub e.lhs e.rhs x
  refine ⟨⟨⟨⟨⟨?_, ?_⟩, ?_⟩, trivial⟩, trivial⟩, trivial⟩
  · cases hx : (P.sub e.lhs e.rhs).has "Px" with
    | false => rfl
    | true => rcases this _ hx with h' | h' <;> simp_all
  · cases hx : (P.sub e.lhs e.rhs).has "Py" with
    | false => rfl
    | true => rcases this _ hx with h' | h' <;> simp_all
  · cases hx : (P.sub e.lhs e.rhs).has "Pz" with
    | false => rfl
    | true => rcases this _ hx with h' | h' <;> simp_all

/-- the lists of `updateL` -/
theorem updAuxT_inv {P : Sympy} (hP : NoNewSymbols P) (s : LS) : ∀ (aux : List KEqn), (∀ e ∈ aux, Small s.vars e) →
    ∀ r : Lists × List Bool × List Bool, r.2.1.length = r.1.l1.length → r.2.2.length = r.1.l2.length →
      (∀ e ∈ r.1.l2.zip r.2.2, e.2 = true → hasP e.1 = false) →
      let r' := aux.foldl (updAuxT P.toCAS s.vars) r
      r'.1 = aux.foldl (updAux P.toCAS s.vars) r.1 ∧ r'.2.1.length = r'.1.l1.length ∧ r'.2.2.length = r'.1.l2.length ∧
      (∀ e ∈ r'.1.l2.zip r'.2.2, e.2 = true → hasP e.1 = false)
  | [], _, r, h1, h2, h3 => ⟨rfl, h1, h2, h3⟩
  | e :: aux, hs, r, h1, h2, h3 => by
    have ih := updAuxT_inv hP s aux (fun e he => hs e (by simp [he]))
    have hf : (updAuxT P.toCAS s.vars r e).1 = updAux P.toCAS s.vars r.1 e := by
      unfold updAuxT updAux
      dsimp only
      split
      · rfl
      · split
        · rfl
        · split <;> rfl
    have h := ih (updAuxT P.toCAS s.vars r e) ?_ ?_ ?_
    · simp only [List.foldl_cons]
      rw [hf] at h
      exact h
    · unfold updAuxT
      dsimp only
      split
      · simp [h1]
      · split
        · exact h1
        · split <;> exact h1
    · unfold updAuxT
      dsimp only
      split
      · exact h2
      · split
        · simp [h2]
        · split <;> exact h2
    · unfold updAuxT
      dsimp only
      split
      · exact h3
      · split
        · next hc =>
          intro e' he'
          dsimp only at he'
          rw [List.zip_append h2.symm] at he'
          rcases List.mem_append.1 he' with h | h
          · exact h3 e' h
          · simp only [List.zip_cons_cons, List.zip_nil_right, List.mem_singleton] at h
            subst h
            intro _
            rcases hs e (by simp) with h | h
            · exact hasP_sub hP h
            · exfalso
              have := count_sub hP s e.lhs e.rhs
              omega
        · split <;> exact h3

theorem updateL_sim {P : Sympy} (hP : NoNewSymbols P) (i : Nat) :
    Sim TInv (fun _ => TInv) (den (envT P) 0 (lf i .updateL)) (den (env P) 0 (lf i .updateL)) := by
  have key : ∀ (t : TLS) (L : Lists), TInv t → let r' := t.s.aux.foldl (updAuxT P.toCAS t.s.vars) (L, L.l1.map fun _ => false, L.l2.map fun _ => false)
      r'.1 = t.s.aux.foldl (updAux P.toCAS t.s.vars) L ∧ r'.2.1.length = r'.1.l1.length ∧ r'.2.2.length = r'.1.l2.length ∧
      (∀ e ∈ r'.1.l2.zip r'.2.2, e.2 = true → hasP e.1 = false) := by
    intro t L ht
    refine updAuxT_inv hP t.s t.s.aux ht.aux (L, L.l1.map fun _ => false, L.l2.map fun _ => false) (by simp) (by simp) ?_
    intro e he hb
    have := (List.of_mem_zip he).2
    simp at this
    rw [this.2] at hb; cases hb
  apply leaf_sim
  · intro t ht
    show erN (updateLeafT P t) = updateLeaf P t.s
    unfold updateLeafT updateLeaf updateL
    cases scanForEquations P.toCAS t.s.ms t.s.aux t.s.vars with
    | error c => rfl
    | ok L =>
      dsimp only [erN]
      rw [(key t L ht).1]
  · intro t ht st t' h
    have h : updateLeafT P t = .ok (st, t') := h
    unfold updateLeafT at h
    split at h
    · cases h
    · next L hL =>
      cases h
      have := key t L ht
      exact ⟨this.2.1, this.2.2.1, this.2.2.2, ht.aux⟩

theorem plainLists_inv {s : LS} (h : ∀ e ∈ s.aux, Small s.vars e) : TInv (plainLists s) := by
  refine ⟨by simp [plainLists], by simp [plainLists], ?_, h⟩
  intro e he hb
  have := (List.of_mem_zip he).2
  simp [plainLists] at this
  rw [this.2] at hb; cases hb

theorem subTrans_sim (P : Sympy) (i : Nat) : Sim TInv (fun _ => TInv) (den (envT P) 0 (lf i .subTrans)) (den (env P) 0 (lf i .subTrans)) := by
  apply leaf_sim
  · intro t ht
    show erN (subTransformT P t) = subTransform P t.s
    unfold subTransformT subTransform
    cases hm : t.s.ms with
    | nil => rfl
    | cons m ms =>
      dsimp only
      split
      · split <;> simp_all [erN, plainLists]
      · rfl
  · intro t ht st t' h
    have h : subTransformT P t = .ok (st, t') := h
    unfold subTransformT at h
    split at h
    · cases h
    · dsimp only at h
      split at h
      · split at h
        · cases h
        · cases h
          exact plainLists_inv ht.aux
      · cases h
        exact ⟨ht.len1, ht.len2, ht.noP, ht.aux⟩

theorem asgn_sim (P : Sympy) (i : Nat) : Sim TInv (fun _ => TInv) (den (envT P) 0 (lf i .asgn)) (den (env P) 0 (lf i .asgn)) := by
  apply leaf_sim
  · intro t _
    show erN (same assigner t) = assigner t.s
    unfold same
    cases assigner t.s with
    | error c => rfl
    | ok r => rfl
  · intro t ht st t' h
    have h : same assigner t = .ok (st, t') := h
    unfold same at h
    split at h
    · cases h
    · next st1 s1 h1 =>
      cases h
      obtain ⟨-, c, x, hx, rfl, -⟩ := assigner_cases h1
      exact ⟨ht.len1, ht.len2, ht.noP, ht.aux⟩


/-! ## The tree -/

theorem calm2 (P : Sympy) {a b : LeafName} (ha : Calm a) (hb : Calm b) (i j k : Nat) {X : TLS → Prop}
    (hX : ∀ t s', X t → Frame t.s s' → X { t with s := s' }) :
    Sim (fun t => TInv t ∧ X t) (fun _ t => TInv t ∧ X t) (den (envT P) 0 (sq i [lf j a, lf k b])) (den (env P) 0 (sq i [lf j a, lf k b])) := by
  simp only [sq]
  rw [den_comp, den_comp]
  exact seq_cons (same_sim P ha j hX) (fun _ _ _ h => h) (seq_cons (same_sim P hb k hX) (fun _ _ _ h => h) (seq_nil fun _ h => h))

theorem scSol_sim (P : Sympy) :
    Sim (fun t => TInv t ∧ Clean t) (fun _ t => TInv t ∧ Clean t) (den (envT P) 0 scSol) (den (env P) 0 scSol) := by
  simp only [scSol, sq]
  rw [den_comp, den_comp]
  exact seq_cons (scID_sim P 8) (fun _ _ _ h => h) (seq_cons (same_sim P (l := .scSolver) trivial 9 clean_stable) (fun _ _ _ h => h) (seq_nil fun _ h => h))

theorem scTan_sim (P : Sympy) :
    Sim (fun t => TInv t ∧ Clean t) (fun _ t => TInv t ∧ Clean t) (den (envT P) 0 scTan) (den (env P) 0 scTan) := by
  simp only [scTan, sq]
  rw [den_comp, den_comp]
  refine seq_cons (J := fun _ t => TInv t ∧ Clean t) ?_ (fun _ _ _ h => h)
    (seq_cons (same_sim P (l := .rank) trivial 18 clean_stable) (fun _ _ _ h => h) (seq_nil fun _ h => h))
  rw [den_comp, den_comp]
  exact or_cons (calm2 P (a := .tanID) (b := .tanSolver) trivial trivial 1 2 3 clean_stable) (fun acc => or_cons (scSol_sim P) (fun acc => or_nil (fun _ _ h => h) acc) acc) _

theorem worktools_sim {P : Sympy} (hP : NoNewSymbols P) : Sim TInv (fun _ => TInv) (den (envT P) 0 worktools) (den (env P) 0 worktools) := by
  simp only [worktools]
  rw [den_comp, den_comp]
  refine pri_cons (algSol_sim hP) (fun _ _ _ h => h.1) ?_
  refine pri_cons ((scTan_sim P).mono (fun t h => ⟨h.1, h.2 rfl⟩) fun _ _ h => h) (fun _ _ _ h => h.1) ?_
  refine pri_cons ((calm2 P (a := .simuID) (b := .simuSolver) trivial trivial 13 14 15 true_stable).mono (fun t h => ⟨h.1, trivial⟩) fun _ _ h => h) (fun _ _ _ h => h.1) ?_
  refine pri_cons ((calm2 P (a := .sacID) (b := .sacSolver) trivial trivial 10 11 12 true_stable).mono (fun t h => h) fun _ _ h => h) (fun _ _ _ h => h.1) ?_
  exact pri_cons ((x2z2_sim P 20).mono (fun t h => h.1) fun _ _ h => h) (fun _ _ _ h => h) (pri_nil fun _ h => h)

theorem attempt_sim {P : Sympy} (hP : NoNewSymbols P) : Sim TInv (fun _ => TInv) (den (envT P) 0 attempt) (den (env P) 0 attempt) := by
  simp only [attempt, sq]
  rw [den_comp, den_comp]
  refine seq_cons (asgn_sim P 22) (fun _ _ _ h => h) ?_
  refine seq_cons ((same_sim P (l := .sumID) trivial 23 true_stable).mono (fun t h => ⟨h, trivial⟩) fun _ _ h => h.1) (fun _ _ _ h => h) ?_
  exact seq_cons (worktools_sim hP) (fun _ _ _ h => h) (seq_nil fun _ h => h)

theorem topnode_sim {P : Sympy} (hP : NoNewSymbols P) : Sim TInv (fun _ => TInv) (den (envT P) 0 topnode) (den (env P) 0 topnode) := by
  simp only [topnode]
  rw [den, den]
  refine until_sim ?_ 10
  simp only [solveRoutine, sq]
  rw [den_comp, den_comp]
  refine seq_cons (subTrans_sim P 26) (fun _ _ _ h => h) ?_
  refine seq_cons (J := fun _ => TInv) ?_ (fun _ _ _ h => h) ?_
  · simp only [subtree]
    rw [den, den]
    exact until_sim (attempt_sim hP) 6
  · refine seq_cons (updateL_sim hP 27) (fun _ _ _ h => h) ?_
    exact seq_cons ((same_sim P (l := .compDetect) trivial 28 true_stable).mono (fun t h => ⟨h, trivial⟩) fun _ _ h => h.1) (fun _ _ _ h => h) (seq_nil fun _ h => h)

theorem envT_noRunning (P : Sympy) : (envT P).NoRunning := by
  intro l t st t' h
  have h : actT P l t = .ok (st, t') := h
  have hs : ∀ l, same (act P l) t = .ok (st, t') → st ≠ .running := by
    intro l h
    unfold same at h
    split at h
    · cases h
    · next st1 s1 h1 =>
      cases h
      rcases act_two P l t.s _ _ h1 with h | h <;> rw [h] <;> simp
  cases l <;> simp only [actT] at h
  all_goals first
    | exact hs _ h
    | (first | unfold algebraIdT at h | unfold sincosIdT at h | unfold x2z2T at h | unfold subTransformT at h | unfold updateLeafT at h)
      dsimp only at h
      repeat' split at h
      all_goals cases h
      all_goals simp

theorem solveWith_eq (P : Sympy) (us : List String) (ms : List MEqn) (aux : List KEqn) :
    solveWith topnode P us ms aux = match scanForEquations P.toCAS ms aux (us.map fun n => ⟨n, false⟩) with
      | .error _ => .error (.leaf 1)
      | .ok L => den (envT P) 0 topnode (plainLists { w := Sol.start us, lists := L, ms := ms, aux := aux }) := by
  unfold solveWith
  cases scanForEquations P.toCAS ms aux (us.map fun n => ⟨n, false⟩) with
  | error e => rfl
  | ok L =>
    dsimp only
    have := exec_obs (envT_noRunning P) 0 topnode topnode_acyclic
      { user := plainLists { w := Sol.start us, lists := L, ms := ms, aux := aux } } (fun j _ => rfl)
    rw [← this]
    unfold treeTick
    show _ = obs (exec (envT P) 0 topnode _)
    cases exec (envT P) 0 topnode { user := plainLists { w := Sol.start us, lists := L, ms := ms, aux := aux } } with
    | error c => rfl
    | ok r => rfl

/-! ## The property -/

/-- the result of a run without the kinds -/
def plainResult (r : Except Crash (Status × TLS)) : Except Crash (Status × LS) := r.map fun p => (p.1, p.2.s)

/-- **C71.** In the tree of ikSolver.py the python zeros do no harm: for every list of unknowns, all matrix equations and all auxiliary
equations without the end effector's position symbols, the run with the two kinds of zero ends like the run in which all zeros are
sympy's (Verif.Solver.Model): the same exception or the same status and the same final state. -/
theorem C71_tree {P : Sympy} (hP : NoNewSymbols P) (us : List String) (ms : List MEqn) (aux : List KEqn)
    (haux : ∀ e ∈ aux, ∀ p ∈ ["Px", "Py", "Pz"], e.lhs.has p = false ∧ e.rhs.has p = false) :
    plainResult (solveWith topnode P us ms aux) = solve P us ms aux := by
  rw [solveWith_eq, solve_eq]
  cases scanForEquations P.toCAS ms aux (us.map fun n => ⟨n, false⟩) with
  | error e => rfl
  | ok L =>
    dsimp only
    have hi : TInv (plainLists { w := Sol.start us, lists := L, ms := ms, aux := aux }) := by
      apply plainLists_inv
      intro e he
      left
      have h := haux e he
      simp only [List.mem_cons, List.not_mem_nil, or_false, forall_eq_or_imp, forall_eq] at h
      simp [hasP, h]
    have := (topnode_sim hP).same _ hi
    rw [show ((plainLists { w := Sol.start us, lists := L, ms := ms, aux := aux }).s) = { w := Sol.start us, lists := L, ms := ms, aux := aux } from rfl] at this
    rw [← this]
    cases den (envT P) 0 topnode (plainLists { w := Sol.start us, lists := L, ms := ms, aux := aux }) with
    | error c => rfl
    | ok r => rfl

/-! ### The exception itself -/

def NeverD {σ : Type} (B : Crash) (f : σ → DRes σ) : Prop := ∀ u, f u ≠ .error B

theorem seq_neverD {σ : Type} {B : Crash} : ∀ {fs : List (σ → DRes σ)}, (∀ f ∈ fs, NeverD B f) → NeverD B (denSeq fs)
  | [], _, u, h => by cases h
  | f :: fs, hf, u, h => by
    simp only [denSeq] at h
    split at h
    · next e he => cases h; exact hf f (by simp) u he
    · split at h
      · exact seq_neverD (fun g hg => hf g (by simp [hg])) _ h
      · cases h

theorem pri_neverD {σ : Type} {B : Crash} : ∀ {fs : List (σ → DRes σ)}, (∀ f ∈ fs, NeverD B f) → NeverD B (denPri fs)
  | [], _, u, h => by cases h
  | f :: fs, hf, u, h => by
    simp only [denPri] at h
    split at h
    · next e he => cases h; exact hf f (by simp) u he
    · split at h
      · exact pri_neverD (fun g hg => hf g (by simp [hg])) _ h
      · cases h

theorem or_neverD {σ : Type} {B : Crash} : ∀ {fs : List (σ → DRes σ)}, (∀ f ∈ fs, NeverD B f) → ∀ acc, NeverD B (denOr fs acc)
  | [], _, acc, u, h => by cases h
  | f :: fs, hf, acc, u, h => by
    simp only [denOr] at h
    split at h
    · next e he => cases h; exact hf f (by simp) u he
    · exact or_neverD (fun g hg => hf g (by simp [hg])) _ _ h

theorem loop_neverD {σ : Type} {c : Nat} {f : σ → DRes σ} (hf : NeverD (.leaf c) f) (cont : Status → Bool) (m : Int) :
    ∀ n last i u, denLoop cont m f n last i u ≠ .error (.leaf c) := by
  intro n
  induction n with
  | zero => intro last i u h; unfold denLoop at h; split at h <;> cases h
  | succ n ih =>
    intro last i u h
    unfold denLoop at h
    split at h
    · dsimp only at h
      split at h
      · next e he => cases h; exact hf u he
      · split at h
        · exact ih _ _ _ h
        · cases h
    · cases h

theorem until_neverD {σ L : Type} {E : Env σ L} {c : Nat} {f : σ → DRes σ} (hf : NeverD (.leaf c) f) (m : Int) :
    NeverD (.leaf c) (denDeco E 0 (.untilSuccess m) f) := by
  intro u h
  simp only [denDeco, denRepeat] at h
  split at h
  · next e he => cases h; exact loop_neverD hf _ _ _ _ _ _ he
  · cases h
  · cases h

theorem act_not5 (P : Sympy) (l : LeafName) (s : LS) : act P l s ≠ .error 5 := by
  have hset : ∀ (s : LS) x c, s.setSolved x = .error c → c = 1 := by
    intro s x c h
    unfold LS.setSolved at h
    split at h
    · cases h
    · cases h; rfl
  intro h
  cases l <;> simp only [act] at h
  all_goals first
    | unfold assigner at h | unfold rankLeaf at h | unfold tanId at h | unfold tanSolve at h | unfold algebraId at h | unfold algebraSolve at h
    | unfold sincosId at h | unfold sincosSolve at h | unfold sacId at h | unfold sacSolve at h | unfold x2z2 at h | unfold simuId at h | unfold simuSolve at h
    | unfold subTransform at h | unfold sumId at h | unfold updateLeaf at h | unfold compDetect at h
  all_goals try dsimp only [sincosRecord] at h
  all_goals repeat' split at h
  all_goals try (simp only [Except.error.injEq, Nat.reduceEqDiff, reduceCtorEq] at h)
  all_goals try cases h
  all_goals first
    | (next hs => exact absurd (hset _ _ _ hs) (by decide))

theorem lf_neverD (P : Sympy) (i : Nat) (l : LeafName) : NeverD (.leaf 5) (den (env P) 0 (lf i l)) := by
  intro s h
  simp only [lf, den, env] at h
  split at h
  · next c hc => cases h; exact act_not5 P l s hc
  · cases h

theorem topnode_not5 (P : Sympy) : NeverD (.leaf 5) (den (env P) 0 topnode) := by
  have pair : ∀ i j k a b, NeverD (.leaf 5) (den (env P) 0 (sq i [lf j a, lf k b])) := by
    intro i j k a b
    simp only [sq]
    rw [den_comp]
    apply seq_neverD
    intro f hf
    simp only [dens, List.mem_cons, List.not_mem_nil, or_false] at hf
    rcases hf with rfl | rfl <;> exact lf_neverD _ _ _
  have hsc : NeverD (.leaf 5) (den (env P) 0 scTan) := by
    simp only [scTan, sq]
    rw [den_comp]
    apply seq_neverD
    intro f hf
    simp only [dens, List.mem_cons, List.not_mem_nil, or_false] at hf
    rcases hf with rfl | rfl
    · rw [den_comp]
      apply or_neverD
      intro f hf
      simp only [dens, List.mem_cons, List.not_mem_nil, or_false] at hf
      rcases hf with rfl | rfl <;> exact pair _ _ _ _ _
    · exact lf_neverD _ _ _
  have hw : NeverD (.leaf 5) (den (env P) 0 worktools) := by
    simp only [worktools]
    rw [den_comp]
    apply pri_neverD
    intro f hf
    simp only [dens, List.mem_cons, List.not_mem_nil, or_false] at hf
    rcases hf with rfl | rfl | rfl | rfl | rfl
    · exact pair _ _ _ _ _
    · exact hsc
    · exact pair _ _ _ _ _
    · exact pair _ _ _ _ _
    · exact lf_neverD _ _ _
  have ha : NeverD (.leaf 5) (den (env P) 0 attempt) := by
    simp only [attempt, sq]
    rw [den_comp]
    apply seq_neverD
    intro f hf
    simp only [dens, List.mem_cons, List.not_mem_nil, or_false] at hf
    rcases hf with rfl | rfl | rfl
    · exact lf_neverD _ _ _
    · exact lf_neverD _ _ _
    · exact hw
  simp only [topnode]
  rw [den]
  apply until_neverD
  simp only [solveRoutine, sq]
  rw [den_comp]
  apply seq_neverD
  intro f hf
  simp only [dens, List.mem_cons, List.not_mem_nil, or_false] at hf
  rcases hf with rfl | rfl | rfl | rfl
  · exact lf_neverD _ _ _
  · simp only [subtree]; rw [den]; exact until_neverD ha 6
  · exact lf_neverD _ _ _
  · exact lf_neverD _ _ _

/-- **C71.** In particular no leaf of that tree calls a method on a python zero. -/
theorem C71_no_attribute_error {P : Sympy} (hP : NoNewSymbols P) (us : List String) (ms : List MEqn) (aux : List KEqn)
    (haux : ∀ e ∈ aux, ∀ p ∈ ["Px", "Py", "Pz"], e.lhs.has p = false ∧ e.rhs.has p = false) :
    solveWith topnode P us ms aux ≠ .error (.leaf 5) := by
  intro h
  have := C71_tree hP us ms aux haux
  rw [h, solve_eq] at this
  split at this
  · cases this
  · exact topnode_not5 P _ this.symm


/-! ### Outside that tree -/

theorem sincosFindT_append (u : String) (b : List TEqn) : ∀ a : List TEqn, (∀ e ∈ a, e.2 = false) → sincosFind u (a.map (·.1)) = none →
    sincosFindT u (a ++ b) = sincosFindT u b
  | [], _, _ => rfl
  | (e, f) :: l, h, hn => by
    have hf : f = false := h (e, f) (by simp)
    subst hf
    have ih := sincosFindT_append u b l fun x hx => h x (by simp [hx])
    simp only [List.map_cons, sincosFind] at hn
    simp only [List.cons_append, sincosFindT, sideHas, lhsHas, pyOr, pyAnd, pyIf]
    cases h1 : occurs (sinU u) e.rhs <;> cases h2 : occurs (sinU u) e.lhs <;> cases h3 : occurs (cosU u) e.rhs <;>
      cases h4 : occurs (cosU u) e.lhs <;> simp_all

theorem sincosFindT_err (u : String) : ∀ a : List TEqn, (∀ e ∈ a, e.2 = true) →
    (∃ e ∈ a, ¬ (occurs (sinU u) e.1.rhs = true ∧ occurs (cosU u) e.1.rhs = true)) → sincosFindT u a = .error 5
  | [], _, h => by simp at h
  | (e, f) :: l, h, hn => by
    have hf : f = true := h (e, f) (by simp)
    subst hf
    have ih := sincosFindT_err u l fun x hx => h x (by simp [hx])
    simp only [sincosFindT, sideHas, lhsHas, pyOr, pyAnd, pyIf]
    cases h1 : occurs (sinU u) e.rhs <;> cases h3 : occurs (cosU u) e.rhs <;> simp_all

theorem updAuxT_fold (P : Sympy) (vs : List Var) : ∀ (aux : List KEqn) (L : Lists) (a b : List Bool), a.length = L.l1.length →
    let r := aux.foldl (updAuxT P.toCAS vs) (L, a, b)
    r.1.l1.zip r.2.1 = L.l1.zip a ++ ((aux.filter fun e => countUnknowns vs (P.sub e.lhs e.rhs) = 1).map fun e => (⟨.num 0, P.sub e.lhs e.rhs⟩, true))
  | [], L, a, b, h => by simp
  | e :: aux, L, a, b, h => by
    simp only [List.foldl_cons, updAuxT, List.filter_cons]
    by_cases h1 : countUnknowns vs (P.sub e.lhs e.rhs) = 1
    · simp only [h1, if_true, decide_true, List.map_cons]
      rw [updAuxT_fold P vs aux _ _ _ (by simp [h])]
      simp only
      rw [List.zip_append h.symm]
      simp
    · simp only [h1, if_false, decide_false, Bool.false_eq_true]
      split
      · exact updAuxT_fold P vs aux _ _ _ h
      split
      · exact updAuxT_fold P vs aux _ _ _ h
      · exact updAuxT_fold P vs aux _ _ _ h

/-- C71 is false of the leaves: if `sincos_id` runs directly after `updateL`, for an unknown that is unsolved and not yet identified by it,
it raises AttributeError as soon as the matrices give it no equation to take and some auxiliary equation `l = r` is left with one unknown
(and does not contain both the sine and the cosine of the current one). -/
theorem C71_sincos_after_update_violation (P : Sympy) (t t' : TLS) (L : Lists) (hu : updateLeafT P t = .ok (.success, t'))
    (hs : t.s.solved t.s.curr = false) (hsc : (t.s.ld t.s.curr).solvableSc = false)
    (hL : scanForEquations P.toCAS t.s.ms t.s.aux t.s.vars = .ok L) (hn : sincosFind t.s.curr L.l1 = none)
    (e : KEqn) (he : e ∈ t.s.aux) (h1 : countUnknowns t.s.vars (P.sub e.lhs e.rhs) = 1)
    (hb : ¬ (occurs (sinU t.s.curr) (P.sub e.lhs e.rhs) = true ∧ occurs (cosU t.s.curr) (P.sub e.lhs e.rhs) = true)) :
    sincosIdT t' = .error 5 := by
  unfold updateLeafT at hu
  rw [hL] at hu
  simp only [Except.ok.injEq, Prod.mk.injEq, true_and] at hu
  subst hu
  have hz := updAuxT_fold P t.s.vars t.s.aux L (L.l1.map fun _ => false) (L.l2.map fun _ => false) (by simp)
  unfold sincosIdT
  have h0 : (!(t.s.ld t.s.curr).solvableSc && !t.s.solved t.s.curr) = true := by simp [hs, hsc]
  have hf : ∀ l : List TEqn, l = (L.l1.zip (L.l1.map fun _ => false)) ++
      ((t.s.aux.filter fun e => countUnknowns t.s.vars (P.sub e.lhs e.rhs) = 1).map fun e => ((⟨.num 0, P.sub e.lhs e.rhs⟩ : KEqn), true)) →
      sincosFindT t.s.curr l = .error 5 := by
    rintro l rfl
    have hm : (L.l1.zip (L.l1.map fun _ => false)).map (·.1) = L.l1 := by
      rw [List.map_fst_zip]; simp
    rw [sincosFindT_append _ _ _ _ (by rw [hm]; exact hn)]
    · apply sincosFindT_err
      · intro x hx
        obtain ⟨y, _, rfl⟩ := List.mem_map.1 hx
        rfl
      · exact ⟨(⟨.num 0, P.sub e.lhs e.rhs⟩, true), List.mem_map.2 ⟨e, List.mem_filter.2 ⟨he, by simpa using h1⟩, rfl⟩, hb⟩
    · intro x hx
      have := (List.of_mem_zip (a := x.1) (b := x.2) hx).2
      obtain ⟨_, _, h⟩ := List.mem_map.1 this
      exact h.symm
  have := hf _ hz
  show (if (!(t.s.ld t.s.curr).solvableSc && !t.s.solved t.s.curr) = true then _ else _) = _
  rw [if_pos h0]
  show (match sincosFindT t.s.curr _ with | .error c => _ | .ok none => _ | .ok (some (e, g)) => _) = _
  simp only [TLS.eqns1]
  rw [this]

/-- the tree of ikSolver.py:230-241 with sc_tan before algSol in worktools -/
def swapped : BT.Tree LeafName :=
  .deco (.untilSuccess 10) 29 (sq 25 [lf 26 .subTrans,
    .deco (.untilSuccess 6) 24 (sq 21 [lf 22 .asgn, lf 23 .sumID, .comp .priority 19 [scTan, algSol, simuSol, sacSol, lf 20 .x2z2]]),
    lf 27 .updateL, lf 28 .compDetect])
/-- p = x + l -/
def oneM : MEqn := matOf fun i j => if i = 0 ∧ j = 3 then (.sym "p", .bin .add (.sym "x") (.sym "l")) else (.num 0, .num 0)
/-- y = x + k -/
def auxY : KEqn := ⟨.sym "y", .bin .add (.sym "x") (.sym "k")⟩
/-- status and nodes, or the exception -/
def outcome (r : Except Crash (Status × TLS)) : Option Crash × Option (Status × List String) :=
  match r with
  | .error c => (some c, none)
  | .ok r => (none, some (r.1, r.2.s.w.nodes))


/-- C71 is false of the same leaves in a tree with sc_tan before algSol: the run ends with AttributeError. -/
theorem C71_order_violation : outcome (solveWith swapped toyE ["x", "y"] [zeroM, oneM] [auxY]) = (some (.leaf 5), none) := by decide +kernel

theorem toyE_noNew : NoNewSymbols toyE := ⟨toyE_sound.sub_has, toyE_ratio, toyE_sound.lin_free⟩

/-- Non-vacuity of C71_tree: the same robot in the tree of ikSolver.py is solved, with an auxiliary equation that `updateL` rewrites. -/
example : outcome (solveWith topnode toyE ["x", "y"] [zeroM, oneM] [auxY]) = (none, some (.success, ["x", "y"])) ∧
    (∀ e ∈ [auxY], ∀ p ∈ ["Px", "Py", "Pz"], e.lhs.has p = false ∧ e.rhs.has p = false) ∧ NoNewSymbols toyE :=
  ⟨by decide +kernel, by decide +kernel, toyE_noNew⟩

/-- the state of that robot with x solved and y current -/
def afterX : TLS :=
  let w : World := ⟨["x", "y"], fun n => { solved := n == "x" }, 0, [], []⟩
  let s : LS := { w := w, lists := {}, ms := [zeroM, oneM], aux := [auxY], curr := "y" }
  plainLists s

/-- Non-vacuity of C71_sincos_after_update_violation. -/
example : ∃ t' L, updateLeafT toyE afterX = .ok (.success, t') ∧ afterX.s.solved afterX.s.curr = false ∧ (afterX.s.ld afterX.s.curr).solvableSc = false ∧
    scanForEquations toyE.toCAS afterX.s.ms afterX.s.aux afterX.s.vars = .ok L ∧ sincosFind afterX.s.curr L.l1 = none ∧ auxY ∈ afterX.s.aux ∧
    countUnknowns afterX.s.vars (toyE.sub auxY.lhs auxY.rhs) = 1 ∧ sincosIdT t' = .error 5 := by
  have h1 : afterX.s.solved afterX.s.curr = false := by decide +kernel
  have h2 : (afterX.s.ld afterX.s.curr).solvableSc = false := by decide +kernel
  have h4 : auxY ∈ afterX.s.aux := by decide +kernel
  have h5 : countUnknowns afterX.s.vars (toyE.sub auxY.lhs auxY.rhs) = 1 := by decide +kernel
  have h6 : ¬ (occurs (sinU afterX.s.curr) (toyE.sub auxY.lhs auxY.rhs) = true ∧ occurs (cosU afterX.s.curr) (toyE.sub auxY.lhs auxY.rhs) = true) := by
    decide +kernel
  have h3 : ((scanForEquations toyE.toCAS afterX.s.ms afterX.s.aux afterX.s.vars).toOption.map fun L => (sincosFind afterX.s.curr L.l1).isNone) =
      some true := by decide +kernel
  cases hL : scanForEquations toyE.toCAS afterX.s.ms afterX.s.aux afterX.s.vars with
  | error e => rw [hL] at h3; cases h3
  | ok L =>
    rw [hL] at h3
    have h3' : sincosFind afterX.s.curr L.l1 = none := by simpa [Except.toOption] using h3
    have hu : ∃ t', updateLeafT toyE afterX = .ok (.success, t') := by
      unfold updateLeafT; rw [hL]; exact ⟨_, rfl⟩
    obtain ⟨t', hu⟩ := hu
    exact ⟨t', L, hu, h1, h2, rfl, h3', h4, h5, C71_sincos_after_update_violation toyE _ _ _ hu h1 h2 hL h3' auxY h4 h5 h6⟩

/-- the right side contains both the sine and the cosine -/
def Both (u : String) (e : TEqn) : Prop := occurs (sinU u) e.1.rhs = true ∧ occurs (cosU u) e.1.rhs = true

theorem sincosFindT_exact (u : String) : ∀ l : List TEqn, sincosFindT u l = .error 5 ↔
    ∃ a e b, l = a ++ e :: b ∧ e.2 = true ∧ ¬ Both u e ∧ (∀ x ∈ a, x.2 = true → Both u x) ∧ sincosFind u (a.map (·.1)) = none
  | [] => by simp [sincosFindT]
  | (e, true) :: l => by
    have ih := sincosFindT_exact u l
    by_cases hb : Both u (e, true)
    · have h1 : sincosFindT u ((e, true) :: l) = sincosFindT u l := by
        simp [sincosFindT, sideHas, pyOr, pyAnd, pyIf, hb.1, hb.2]
      rw [h1, ih]
      constructor
      · rintro ⟨a, x, b, rfl, h2, h3, h4, h5⟩
        refine ⟨(e, true) :: a, x, b, rfl, h2, h3, ?_, ?_⟩
        · intro y hy hy2
          rcases List.mem_cons.1 hy with rfl | hy
          · exact hb
          · exact h4 y hy hy2
        · simp only [List.map_cons, sincosFind]
          have := hb.1; have := hb.2
          simp_all
      · rintro ⟨a, x, b, h, h2, h3, h4, h5⟩
        cases a with
        | nil => simp only [List.nil_append, List.cons.injEq] at h; rw [← h.1] at h3; exact absurd hb h3
        | cons y a =>
          simp only [List.cons_append, List.cons.injEq] at h
          refine ⟨a, x, b, h.2, h2, h3, fun z hz => h4 z (by simp [hz]), ?_⟩
          rw [← h.1] at h5
          simp only [List.map_cons, sincosFind] at h5
          have := hb.1; have := hb.2
          simp_all
    · constructor
      · intro _
        exact ⟨[], (e, true), l, rfl, rfl, hb, by simp, rfl⟩
      · intro _
        simp only [Both] at hb
        simp only [sincosFindT, sideHas, lhsHas, pyOr, pyAnd, pyIf]
        cases h1 : occurs (sinU u) e.rhs <;> cases h3 : occurs (cosU u) e.rhs <;> simp_all
  | (e, false) :: l => by
    have ih := sincosFindT_exact u l
    cases hf : sincosFind u [e] with
    | none =>
      have h1 : sincosFindT u ((e, false) :: l) = sincosFindT u l := sincosFindT_append u l [(e, false)] (by simp) hf
      have h2 : ∀ k, sincosFind u (e :: k) = sincosFind u k := by
        intro k
        simp only [sincosFind] at hf ⊢
        split at hf
        · simp_all
        split at hf
        · cases hf
        split at hf
        · cases hf
        · simp_all
      rw [h1, ih]
      constructor
      · rintro ⟨a, x, b, rfl, h3, h4, h5, h6⟩
        refine ⟨(e, false) :: a, x, b, rfl, h3, h4, ?_, ?_⟩
        · intro y hy hy2
          rcases List.mem_cons.1 hy with rfl | hy
          · cases hy2
          · exact h5 y hy hy2
        · rw [List.map_cons, h2]; exact h6
      · rintro ⟨a, x, b, h, h3, h4, h5, h6⟩
        cases a with
        | nil => simp only [List.nil_append, List.cons.injEq] at h; rw [← h.1] at h3; cases h3
        | cons y a =>
          simp only [List.cons_append, List.cons.injEq] at h
          refine ⟨a, x, b, h.2, h3, h4, fun z hz => h5 z (by simp [hz]), ?_⟩
          rw [← h.1, List.map_cons, h2] at h6
          exact h6
    | some r =>
      have h1 : sincosFindT u ((e, false) :: l) = .ok (some r) := by
        simp only [sincosFindT, sideHas, lhsHas, pyOr, pyAnd, pyIf]
        simp only [sincosFind] at hf
        cases h1 : occurs (sinU u) e.rhs <;> cases h2 : occurs (sinU u) e.lhs <;> cases h3 : occurs (cosU u) e.rhs <;>
          cases h4 : occurs (cosU u) e.lhs <;> simp_all
      have h2 : ∀ k, sincosFind u (e :: k) ≠ none := by
        intro k
        simp only [sincosFind] at hf ⊢
        split at hf
        · cases hf
        split at hf
        · simp_all
        split at hf
        · simp_all
        · cases hf
      rw [h1]
      constructor
      · intro h; cases h
      · rintro ⟨a, x, b, h, h3, h4, h5, h6⟩
        cases a with
        | nil => simp only [List.nil_append, List.cons.injEq] at h; rw [← h.1] at h3; cases h3
        | cons y a =>
          simp only [List.cons_append, List.cons.injEq] at h
          rw [← h.1, List.map_cons] at h6
          exact absurd h6 (h2 _)

/-- **C71**, exactly when `sincos_id` raises AttributeError: the unknown is unsolved and not yet identified, and some equation of the list
with a python zero on the left does not contain both its sine and its cosine, and nothing before it in the list can be taken. -/
theorem C71_sincos_exact (t : TLS) : sincosIdT t = .error 5 ↔
    ((t.s.ld t.s.curr).solvableSc = false ∧ t.s.solved t.s.curr = false ∧
      ∃ a e b, t.eqns1 = a ++ e :: b ∧ e.2 = true ∧ ¬ Both t.s.curr e ∧ (∀ x ∈ a, x.2 = true → Both t.s.curr x) ∧
        sincosFind t.s.curr (a.map (·.1)) = none) := by
  rw [← sincosFindT_exact]
  unfold sincosIdT
  by_cases h : (!(t.s.ld t.s.curr).solvableSc && !t.s.solved t.s.curr) = true
  · rw [if_pos h]
    simp only [Bool.and_eq_true, Bool.not_eq_true'] at h
    cases sincosFindT t.s.curr t.eqns1 with
    | error c => simp [h]
    | ok r => cases r <;> simp
  · rw [if_neg h]
    constructor
    · intro h; cases h
    · rintro ⟨h1, h2, _⟩; simp [h1, h2] at h

/-- Px = th_2 + y, Py = th_2 + z -/
def auxP : List KEqn := [⟨.sym "Px", .bin .add (.sym "th_2") (.sym "y")⟩, ⟨.sym "Py", .bin .add (.sym "th_2") (.sym "z")⟩]

/-- The condition of C71_tree on the auxiliary equations is needed: with two of them that contain the position of the end effector, a run
of the tree of ikSolver.py ends with AttributeError in x2z2_transform. -/
theorem C71_aux_violation : outcome (solveWith topnode toyE ["x", "th_2", "y", "z"] [zeroM, oneM] auxP) = (some (.leaf 5), none) := by decide +kernel

end Verif.Solver
