import Verif.Solver.Props
import Verif.Sol.EndToEnd
/-!
# C41: what happens to unknowns in the course of a run; C16–C20 for the runs of the solver
-/
namespace Verif.Solver
open Verif.Leaf Verif.Eqn Verif.Sol Verif.Sym
open Verif.BT hiding Tree

/-! ## A relation kept by all leaves is kept by every tree -/
section rel
variable {σ L : Type} {E : Env σ L} {fuel : Nat} {R : σ → σ → Prop}

theorem rel_seq (hr : ∀ a, R a a) (ht : ∀ a b c, R a b → R b c → R a c) : ∀ {fs : List (σ → DRes σ)},
    (∀ f ∈ fs, ∀ u s u', f u = .ok (s, u') → R u u') → ∀ u s u', denSeq fs u = .ok (s, u') → R u u'
  | [], _, u, s, u', h => by simp only [denSeq, Except.ok.injEq, Prod.mk.injEq] at h; rw [← h.2]; exact hr _
  | f :: fs, hf, u, s, u', h => by
    rcases denSeq_cons h with ⟨h1, _⟩ | ⟨u1, h1, h2⟩
    · exact hf f (by simp) _ _ _ h1
    · exact ht _ _ _ (hf f (by simp) _ _ _ h1) (rel_seq hr ht (fun g hg => hf g (by simp [hg])) _ _ _ h2)
theorem rel_pri (hr : ∀ a, R a a) (ht : ∀ a b c, R a b → R b c → R a c) : ∀ {fs : List (σ → DRes σ)},
    (∀ f ∈ fs, ∀ u s u', f u = .ok (s, u') → R u u') → ∀ u s u', denPri fs u = .ok (s, u') → R u u'
  | [], _, u, s, u', h => by simp only [denPri, Except.ok.injEq, Prod.mk.injEq] at h; rw [← h.2]; exact hr _
  | f :: fs, hf, u, s, u', h => by
    rcases denPri_cons h with ⟨h1, _⟩ | ⟨u1, h1, h2⟩
    · exact hf f (by simp) _ _ _ h1
    · exact ht _ _ _ (hf f (by simp) _ _ _ h1) (rel_pri hr ht (fun g hg => hf g (by simp [hg])) _ _ _ h2)
theorem rel_or (hr : ∀ a, R a a) (ht : ∀ a b c, R a b → R b c → R a c) : ∀ {fs : List (σ → DRes σ)} {acc : Status},
    (∀ f ∈ fs, ∀ u s u', f u = .ok (s, u') → R u u') → ∀ u s u', denOr fs acc u = .ok (s, u') → R u u'
  | [], _, _, u, s, u', h => by simp only [denOr, Except.ok.injEq, Prod.mk.injEq] at h; rw [← h.2]; exact hr _
  | f :: fs, _, hf, u, s, u', h => by
    simp only [denOr] at h
    split at h
    · cases h
    next s1 u1 h1 =>
    exact ht _ _ _ (hf f (by simp) _ _ _ h1) (rel_or hr ht (fun g hg => hf g (by simp [hg])) _ _ _ h)
theorem rel_loop (hr : ∀ a, R a a) (ht : ∀ a b c, R a b → R b c → R a c) {f : σ → DRes σ}
    (hf : ∀ u s u', f u = .ok (s, u') → R u u') {cont : Status → Bool} {m : Int} : ∀ {n : Nat} {last : Option Status} {i : Int} {u s u'},
    denLoop cont m f n last i u = .ok (s, u') → R u u'
  | 0, last, i, u, s, u', h => by
    unfold denLoop at h
    split at h
    · cases h
    · cases h; exact hr _
  | n + 1, last, i, u, s, u', h => by
    unfold denLoop at h
    split at h
    · dsimp only at h
      split at h
      · cases h
      · next s1 u1 h1 =>
        split at h
        · exact ht _ _ _ (hf _ _ _ h1) (rel_loop hr ht hf h)
        · cases h; exact hf _ _ _ h1
    · cases h; exact hr _

theorem rel_repeat (hr : ∀ a, R a a) (ht : ∀ a b c, R a b → R b c → R a c) {f : σ → DRes σ}
    (hf : ∀ u s u', f u = .ok (s, u') → R u u') {cont : Status → Bool} {init m} {u s u'}
    (h : denRepeat cont init fuel m f u = .ok (s, u')) : R u u' := by
  unfold denRepeat at h
  split at h
  · cases h
  · cases h
  · next hd => cases h; exact rel_loop hr ht hf hd

mutual
theorem den_rel (hr : ∀ a, R a a) (ht : ∀ a b c, R a b → R b c → R a c)
    (hl : ∀ l u s u', E.act l u = .ok (s, u') → R u u') (hn : ∀ u, R u (E.now u).2) :
    ∀ (t : BT.Tree L) u s u', den E fuel t u = .ok (s, u') → R u u'
  | .leaf i a, u, s, u', h => hl a u s u' (denLeaf_ok.mp h)
  | .comp k i cs, u, s, u', h => by
    rw [den] at h
    have hd := dens_rel hr ht hl hn cs
    cases k with
    | sequence => exact rel_seq hr ht hd _ _ _ h
    | priority => exact rel_pri hr ht hd _ _ _ h
    | orNode => exact rel_or hr ht hd _ _ _ h
    | memSequence => cases h
    | memPriority => cases h
  | .deco k i c, u, s, u', h => by
    rw [den] at h
    have hd := den_rel hr ht hl hn c
    cases k with
    | inverter =>
      simp only [denDeco] at h
      split at h
      · cases h
      · next h1 => cases h; exact hd _ _ _ h1
    | limiter m =>
      simp only [denDeco] at h
      split at h
      · exact hd _ _ _ h
      · cases h; exact hr _
    | repeater m => exact rel_repeat hr ht hd h
    | untilFailure m => exact rel_repeat hr ht hd h
    | untilSuccess m => exact rel_repeat hr ht hd h
    | maxTime m =>
      simp only [denDeco] at h
      split at h
      · cases h
      · next h1 =>
        have := ht _ _ _ (ht _ _ _ (hn u) (hn _)) (hd _ _ _ h1)
        split at h <;> (cases h; exact this)
  | .emptyDeco k i, u, s, u', h => by
    simp only [den] at h
    split at h
    · cases h; exact hn _
    · cases h; exact hr _
theorem dens_rel (hr : ∀ a, R a a) (ht : ∀ a b c, R a b → R b c → R a c)
    (hl : ∀ l u s u', E.act l u = .ok (s, u') → R u u') (hn : ∀ u, R u (E.now u).2) :
    ∀ (cs : List (BT.Tree L)) f, f ∈ dens E fuel cs → ∀ u s u', f u = .ok (s, u') → R u u'
  | [], f, hf => by simp [dens] at hf
  | c :: cs, f, hf => by
    simp only [dens, List.mem_cons] at hf
    rcases hf with rfl | hf
    · exact den_rel hr ht hl hn c
    · exact dens_rel hr ht hl hn cs f hf
end
end rel

/-! ## The tangent mark is never taken back -/

/-- The mark `solvable_tan` of an unknown stays. -/
def TanKept (s s' : LS) : Prop := ∀ n, (s.ld n).solvableTan = true → (s'.ld n).solvableTan = true

theorem tanKept_updLd (s : LS) (x : String) (f : LeafData → LeafData) (hf : ∀ d, d.solvableTan = true → (f d).solvableTan = true) :
    TanKept s (s.updLd x f) := by
  intro n h
  by_cases hn : n = x
  · subst hn; rw [updLd_same]; exact hf _ h
  · rwa [updLd_other _ _ _ hn]
theorem TanKept.trans {a b c : LS} (h : TanKept a b) (h' : TanKept b c) : TanKept a c := fun n hn => h' n (h n hn)
theorem tanKept_ld {a b : LS} (h : b.ld = a.ld) : TanKept a b := fun n hn => by rw [h]; exact hn
theorem tanKept_pushSol (s : LS) (x : String) (e : Expr) : TanKept s (s.pushSol x e) := by
  unfold LS.pushSol; dsimp only
  split
  · exact tanKept_ld rfl
  · exact (tanKept_ld (b := s.updU x _) rfl).trans (tanKept_updLd _ _ _ fun _ => id)
  · exact (tanKept_ld (b := s.updU x _) rfl).trans (tanKept_updLd _ _ _ fun _ => id)
theorem tanKept_pushSc (s : LS) (x : String) (e : Expr) : TanKept s (s.pushSc x e) := by
  unfold LS.pushSc; dsimp only
  split
  · exact (tanKept_updLd s x (fun d => { d with scSols := d.scSols ++ [e] }) fun _ => id).trans (tanKept_ld rfl)
  · exact tanKept_updLd _ _ _ fun _ => id
theorem tanKept_pushTan (s : LS) (x : String) (e : Expr) : TanKept s (s.pushTan x e) := by
  unfold LS.pushTan; dsimp only
  split
  · exact (tanKept_updLd s x (fun d => { d with tanSols := d.tanSols ++ [e] }) fun _ => id).trans (tanKept_ld rfl)
  · exact tanKept_updLd _ _ _ fun _ => id
theorem tanKept_setSolved {s s' : LS} {x : String} (h : s.setSolved x = .ok s') : TanKept s s' := by
  obtain ⟨_, _, _, _, _, _, _, h8⟩ := LS.setSolved_ok h
  intro n hn
  rw [h8]; dsimp only
  split <;> exact hn

theorem act_tanKept (P : Sympy) (l : LeafName) (s : LS) (st : Status) (s' : LS) (h : act P l s = .ok (st, s')) : TanKept s s' := by
  have refl : TanKept s s := fun _ => id
  have g : ∀ g', TanKept s { s with guards := g' } := fun _ _ => id
  cases l <;> simp only [act] at h
  case asgn => obtain ⟨-, c, x, hx, rfl, -⟩ := assigner_cases h; exact fun _ => id
  case rank =>
    obtain ⟨-, hr⟩ := rank_cases h
    cases hr with
    | none => exact refl
    | one _ h => exact tanKept_setSolved h
    | chosen b sec tags _ _ _ _ _ h =>
      refine TanKept.trans ?_ (tanKept_setSolved h)
      intro n hn
      by_cases hc : n = s.curr
      · subst hc; simp only [updLd_same, updU_ld]; exact hn
      · rw [updLd_other _ _ _ hc]; exact hn
  case tanID =>
    rcases tanId_cases h with ⟨-, rfl, -⟩ | ⟨-, rfl, -⟩ | ⟨-, _, _, es, _, ec, _, a, b, _, rfl⟩
    · exact refl
    · exact refl
    · exact tanKept_updLd _ _ _ fun _ _ => rfl
  case tanSolver =>
    rcases tanSolve_cases h with ⟨-, rfl, -⟩ | ⟨-, _, e1, e2, A, B, C, D, one, _, _, _, _, hE⟩
    · exact refl
    · intro n hn
      by_cases hc : n = s.curr
      · subst hc
        have : (s'.ld s.curr).solvableTan = (s.ld s.curr).solvableTan := congrArg (fun p => p.2.2.2.2.1) hE.fields
        rw [this]; exact hn
      · rw [hE.other n hc]; exact hn
  case algID =>
    rcases act_two P .algID s st s' h with rfl | rfl
    · obtain ⟨_, tmp, _, rfl⟩ := algebraId_ok h; exact tanKept_updLd _ _ _ fun _ => id
    · rw [algebraId_fail h]; exact refl
  case algSolver =>
    unfold algebraSolve at h
    dsimp only at h
    repeat' split at h
    all_goals first | (cases h; done) | (cases h; exact refl) | skip
    next h1 =>
    cases h
    refine TanKept.trans ?_ (tanKept_setSolved h1)
    exact TanKept.trans (TanKept.trans (g _) (tanKept_pushSol _ _ _)) (tanKept_ld rfl)
  case scID =>
    rcases sincosId_cases h with ⟨_, rfl⟩ | ⟨_, _, _, e, t, _, rfl⟩
    · exact refl
    · exact tanKept_updLd _ _ _ fun _ => id
  case scSolver =>
    rcases sincosSolve_cases h with ⟨-, rfl⟩ | ⟨-, e, A, B, sine, _, _, _, _, hE⟩
    · exact refl
    · intro n hn
      by_cases hc : n = s.curr
      · subst hc
        have : (s'.ld s.curr).solvableTan = (s.ld s.curr).solvableTan := congrArg (fun p => p.2.2.2.2.1) hE.fields
        rw [this]; exact hn
      · rw [hE.other n hc]; exact hn
  case sacID =>
    rcases sacId_cases h with ⟨_, rfl⟩ | ⟨_, _, es, _, rfl⟩
    · exact refl
    · exact tanKept_updLd _ _ _ fun _ => id
  case sacSolver =>
    unfold sacSolve at h
    dsimp only at h
    split at h
    swap
    · cases h; exact refl
    split at h
    · cases h
    split at h
    · cases h
    split at h
    · cases h
    next h1 =>
    cases h
    refine TanKept.trans ?_ (tanKept_setSolved h1)
    exact TanKept.trans (TanKept.trans (TanKept.trans (g _) (tanKept_pushSol _ _ _)) (tanKept_pushSol _ _ _)) (tanKept_ld rfl)
  case x2z2 =>
    rcases x2z2_cases h with ⟨_, rfl⟩ | ⟨_, ha⟩
    · exact refl
    · intro n hn; rw [ha.ld n]; exact hn
  case simuID =>
    rcases simuId_cases h with ⟨_, rfl⟩ | ⟨_, _, a, b, _, rfl⟩
    · exact refl
    · exact tanKept_updLd _ _ _ fun _ => id
  case simuSolver =>
    rcases simuSolve_cases h with ⟨_, rfl⟩ | ⟨_, e1, e2, _, _, hs, _, hld⟩
    · exact refl
    · intro n hn
      by_cases hc : n = s.curr
      · subst hc; rw [hld]; exact hn
      · rw [hs.other n hc]; exact hn
  case subTrans => exact tanKept_ld (subTransform_cases h).2.2.1
  case sumID => rw [(sumId_cases h).2]; exact refl
  case updateL => obtain ⟨-, L, _, rfl⟩ := updateLeaf_cases h; exact refl
  case compDetect => rw [compDetect_eq] at h; cases h; exact refl

theorem step_tanKept {P : Sympy} {a b : LS} (h : Step P a b) : TanKept a b := by
  cases h with
  | assign h => exact act_tanKept P .asgn _ _ _ h
  | work _ h =>
    exact den_rel (R := TanKept) (fun _ _ => id) (fun _ _ _ => TanKept.trans) (fun l u s u' h => act_tanKept P l u s u' h)
      (fun _ _ => id) _ _ _ _ h
  | sub h => exact act_tanKept P .subTrans _ _ _ h
  | upd h => exact act_tanKept P .updateL _ _ _ h

theorem path_tanKept {P : Sympy} {a b : LS} (h : Path P a b) : TanKept a b := by
  induction h with
  | refl => exact fun _ => id
  | tail _ hs ih => exact ih.trans (step_tanKept hs)

/-! ## The state of the unknowns -/

/-- An unknown nobody has worked on (kin_cl.py:88-120). -/
def Untouched (s : LS) (x : String) : Prop :=
  (s.w.unk x).solutions = [] ∧ LeafData.kept (s.ld x) = ([], [], [], [], none, false)

/-- Unsolved unknowns have no solutions and no candidates; the solved ones are those with a node. -/
structure Inv (s : LS) : Prop where
  fresh : ∀ x, (s.w.unk x).solved = false → Untouched s x
  nodes : ∀ x, (s.w.unk x).solved = true ↔ x ∈ s.w.nodes

theorem inv_init (us : List String) (ms : List MEqn) (aux : List KEqn) (L : Lists) : Inv (init us ms aux L) :=
  ⟨fun _ _ => ⟨rfl, rfl⟩, fun x => by simp [init, Sol.start]⟩

theorem inv_step {P : Sympy} {a b : LS} (hi : Inv a) (h : Step P a b) : Inv b := by
  cases h with
  | assign h => obtain ⟨-, c, x, hx, rfl, -⟩ := assigner_cases h; exact ⟨hi.fresh, hi.nodes⟩
  | work _ h =>
    rcases work_cases h with ⟨_, hq⟩ | ⟨_, _, sols, hs⟩ | ⟨_, s1, hq, ha⟩
    · refine ⟨fun x hx => ?_, fun x => by rw [hq.w]; exact hi.nodes x⟩
      rw [hq.w] at hx
      unfold Untouched
      rw [hq.w, hq.kept]
      exact hi.fresh x hx
    · have hst := Sol.setSolved_ok hs.w
      refine ⟨fun x hx => ?_, fun x => ?_⟩
      · have hxc : x ≠ a.curr := by
          rintro rfl; rw [hst.solved] at hx; cases hx
        have he : b.w.unk x = a.w.unk x := by rw [hst.other x hxc]; exact Sol.upd_other _ _ hxc
        unfold Untouched
        rw [he, hs.other x hxc]
        rw [he] at hx
        exact hi.fresh x hx
      · rw [hst.nodes]
        by_cases hxc : x = a.curr
        · subst hxc; simp [hst.solved]
        · rw [hst.other x hxc]
          have : (setSolutions a.w a.curr sols).unk x = a.w.unk x := Sol.upd_other _ _ hxc
          rw [this, hi.nodes x]
          simp [setSolutions, hxc]
    · obtain ⟨e, he⟩ := ha.rest
      have hw : b.w = a.w := by rw [he]; exact hq.w
      refine ⟨fun x hx => ?_, fun x => by rw [hw]; exact hi.nodes x⟩
      rw [hw] at hx
      unfold Untouched
      rw [hw]
      have : LeafData.kept (b.ld x) = LeafData.kept (s1.ld x) := by rw [ha.ld x]; rfl
      rw [this, hq.kept]
      exact hi.fresh x hx
  | sub h =>
    obtain ⟨-, h1, h2, -⟩ := subTransform_cases h
    refine ⟨fun x hx => ?_, fun x => by rw [h1]; exact hi.nodes x⟩
    unfold Untouched; rw [h1, h2]; rw [h1] at hx; exact hi.fresh x hx
  | upd h => obtain ⟨-, L, _, rfl⟩ := updateLeaf_cases h; exact ⟨hi.fresh, hi.nodes⟩

theorem path_inv {P : Sympy} {a b : LS} (h : Path P a b) (hi : Inv a) : Inv b := h.inv (fun _ _ => inv_step) hi

/-- C41: no unknown ever becomes unsolved again. -/
theorem C41_solved_forever {P : Sympy} {a b : LS} (h : Path P a b) {x : String} (hx : (a.w.unk x).solved = true) : (b.w.unk x).solved = true := by
  induction h with
  | refl => exact hx
  | @tail b0 c0 _ hs ih =>
    cases hs with
    | assign h => obtain ⟨-, c, y, _, rfl, -⟩ := assigner_cases h; exact ih
    | work _ h =>
      rcases work_cases h with ⟨_, hq⟩ | ⟨_, _, sols, hs⟩ | ⟨_, s1, hq, ha⟩
      · rw [hq.w]; exact ih
      · have hst := Sol.setSolved_ok hs.w
        by_cases hxc : x = b0.curr
        · rw [hxc]; exact hst.solved
        · rw [hst.other x hxc, setSolutions, Sol.upd_other _ _ hxc]; exact ih
      · obtain ⟨e, he⟩ := ha.rest
        rw [he]; simp only; rw [hq.w]; exact ih
    | sub h => rw [(subTransform_cases h).2.1]; exact ih
    | upd h => obtain ⟨-, L, _, rfl⟩ := updateLeaf_cases h; exact ih

/-- What a step does to the unknowns' records: nothing, or `set_solved` of the current unknown. -/
theorem step_w {P : Sympy} {a b : LS} (h : Step P a b) :
    b.w = a.w ∨ (CurrOk a ∧ (a.solved a.curr = false ∨ (a.ld a.curr).solvableTan = true) ∧ ∃ sols, Solves sols a b) := by
  cases h with
  | assign h => obtain ⟨-, c, x, hx, rfl, -⟩ := assigner_cases h; exact .inl rfl
  | work hc h =>
    rcases work_cases h with ⟨_, hq⟩ | ⟨_, hu, sols, hs⟩ | ⟨_, s1, hq, ha⟩
    · exact .inl hq.w
    · exact .inr ⟨hc, hu, sols, hs⟩
    · obtain ⟨e, he⟩ := ha.rest
      exact .inl (by rw [he]; exact hq.w)
  | sub h => exact .inl (subTransform_cases h).2.1
  | upd h => obtain ⟨-, L, _, rfl⟩ := updateLeaf_cases h; exact .inl rfl

/-- Unknowns that cannot be solved a second time: all but the first of the list, and those without a tangent mark. -/
def Settled (s : LS) (x : String) : Prop := s.w.unknowns.head? ≠ some x ∨ (s.ld x).solvableTan = false

theorem settled_back {P : Sympy} {a b : LS} (h : Path P a b) {x : String} (hx : Settled b x) : Settled a x := by
  rcases hx with h1 | h1
  · left; rwa [← path_unknowns h]
  · right
    cases ha : (a.ld x).solvableTan with
    | false => rfl
    | true => rw [path_tanKept h x ha] at h1; cases h1

theorem settled_record {P : Sympy} {a b : LS} (h : Path P a b) {x : String} (hx : (a.w.unk x).solved = true) (hs : Settled b x) :
    b.w.unk x = a.w.unk x ∧ b.w.nodes.count x = a.w.nodes.count x := by
  induction h with
  | refl => exact ⟨rfl, rfl⟩
  | @tail b0 c0 h0 hst ih =>
    have hs0 := settled_back (.one hst) hs
    obtain ⟨ih1, ih2⟩ := ih hs0
    rcases step_w hst with he | ⟨hc, hu, sols, hsol⟩
    · rw [he]; exact ⟨ih1, ih2⟩
    · have hxc : x ≠ b0.curr := by
        rintro rfl
        have hsv : b0.solved b0.curr = true := C41_solved_forever h0 hx
        rcases hc.2 with h | h
        · rw [hsv] at h; cases h
        · rcases hs0 with h' | h'
          · exact h' h
          · rcases hu with h2 | h2
            · rw [hsv] at h2; cases h2
            · rw [h'] at h2; cases h2
      have hst := Sol.setSolved_ok hsol.w
      refine ⟨?_, ?_⟩
      · rw [hst.other x hxc, ← ih1]; exact Sol.upd_other _ _ hxc
      · rw [hst.nodes, ← ih2]
        simp [setSolutions, Ne.symm hxc]

theorem settled_count {P : Sympy} {a b : LS} (h : Path P a b) (hi : Inv a) (ha : ∀ x, a.w.nodes.count x ≤ 1) {x : String} (hs : Settled b x) :
    b.w.nodes.count x ≤ 1 := by
  induction h with
  | refl => exact ha x
  | @tail b0 c0 h0 hst ih =>
    by_cases hx : (b0.w.unk x).solved = true
    · rw [(settled_record (.one hst) hx hs).2]; exact ih (settled_back (.one hst) hs)
    · have h0' : b0.w.nodes.count x = 0 := by
        rw [List.count_eq_zero]
        exact fun hm => hx (((path_inv h0 hi).nodes x).2 hm)
      rcases step_w hst with he | ⟨hc, hu, sols, hsol⟩
      · rw [he]; omega
      · have hst := Sol.setSolved_ok hsol.w
        rw [hst.nodes]
        have : (setSolutions b0.w b0.curr sols).nodes = b0.w.nodes := rfl
        rw [this, List.count_append, h0', List.count_cons]
        simp; split <;> omega

/-- C41, what holds: in every run that returns, at every intermediate state `a` and for every unknown x:
a solved unknown stays solved; x has a node in the solution graph iff it is solved; and if x is not the first of the list of unknowns,
or the tangent method was never found for it, then it has at most one node and, once solved, neither its solutions nor anything else of
its record changes any more.
Missing: the first unknown with a tangent solution, for which it is false (`C41_resolve_violation`). -/
theorem C41_history_partial {P : Sympy} {us : List String} {ms : List MEqn} {aux : List KEqn} {L : Lists} {a s : LS}
    (ha : Path P (init us ms aux L) a) (hs : Path P a s) (x : String) :
    ((a.w.unk x).solved = true → (s.w.unk x).solved = true) ∧
    ((s.w.unk x).solved = true ↔ x ∈ s.w.nodes) ∧
    (us.head? ≠ some x ∨ (s.ld x).solvableTan = false →
      s.w.nodes.count x ≤ 1 ∧ ((a.w.unk x).solved = true → s.w.unk x = a.w.unk x)) := by
  have hp := ha.trans hs
  have hi := path_inv hp (inv_init us ms aux L)
  refine ⟨C41_solved_forever hs, hi.nodes x, fun h => ?_⟩
  have hset : Settled s x := by
    rcases h with h | h
    · left; rw [path_unknowns hp]; exact h
    · exact .inr h
  exact ⟨settled_count hp (inv_init us ms aux L) (fun _ => by simp [init, Sol.start]) hset,
    fun h => (settled_record hs h hset).1⟩

/-! ## C44 for the subtree of the tangent and the sine/cosine solver -/

/-- For an unknown nobody has worked on: if the subtree [tan or sincos, rank] succeeds, S are the sine/cosine solutions and T the
tangent solutions found (empty if that solver failed), not both empty, and the unknown was given the better ones and marked solved. -/
theorem C44_subtree {P : Sympy} {s s' : LS} (hun : Untouched s s.curr) (h : den (env P) 0 scTan s = .ok (.success, s')) :
    ∃ S T : List Expr, (S ≠ [] ∨ T ≠ []) ∧
      (S = [] ∨ ∃ e t A B sine, sincosFind s.curr s.lists.l1 = some (e, t) ∧
        P.lin (P.collectSC s.curr e.rhs) (if sine then sinU s.curr else cosU s.curr) [sinU s.curr, cosU s.curr] = some (A, B) ∧
        S = sincosSolutions P e.lhs A B sine) ∧
      (T = [] ∨ ∃ es ∈ s.lists.l1 ++ s.lists.l2, ∃ ec ∈ s.lists.l1 ++ s.lists.l2, ∃ a b A B C D one,
        tanPair P s.vars s.curr es ec = some (a, b) ∧ P.lin a (sinU s.curr) [sinU s.curr, cosU s.curr] = some (A, B) ∧
        P.lin b (cosU s.curr) [sinU s.curr, cosU s.curr] = some (C, D) ∧ T = tanSolutions P (.num 0) (.num 0) A B C D one) ∧
      Solves (best s.w.unknowns S T) s s' ∧ (s'.w.unk s.curr).solutions = best s.w.unknowns S T := by
  obtain ⟨hsol, hk⟩ := hun
  simp only [LeafData.kept, Prod.mk.injEq] at hk
  obtain ⟨k1, k2, k3, k4, k5, k6⟩ := hk
  obtain ⟨st1, s1, st2, s2, h1, h2, ⟨_, _, hf, _⟩ | ⟨hne, h3⟩⟩ := scTan_parts h
  · cases hf
  -- after tan
  have t1 : ∃ T, (T ≠ [] ∨ st1 = .failure) ∧ (T = [] ∨ ∃ es ∈ s.lists.l1 ++ s.lists.l2, ∃ ec ∈ s.lists.l1 ++ s.lists.l2, ∃ a b A B C D one,
        tanPair P s.vars s.curr es ec = some (a, b) ∧ P.lin a (sinU s.curr) [sinU s.curr, cosU s.curr] = some (A, B) ∧
        P.lin b (cosU s.curr) [sinU s.curr, cosU s.curr] = some (C, D) ∧ T = tanSolutions P (.num 0) (.num 0) A B C D one) ∧
      Soft s s1 ∧ (s1.w.unk s.curr).solutions = T ∧ (s1.ld s.curr).tanSols = T ∧ (s1.ld s.curr).scSols = [] ∧ (s1.ld s.curr).shared = none := by
    rcases tanSol_cases h1 with ⟨rfl, rfl⟩ | ⟨rfl, s0, hm, e1, e2, A, B, C, D, one, q1, q2, q3, q4, hE⟩
    · exact ⟨[], .inr rfl, .inl rfl, Soft.refl _, hsol, k3, k1, k5⟩
    · cases hm with
      | old h => rw [k6] at h; cases h
      | @new es ec a b hu hf hes hec hp =>
        simp only [updLd_same, Option.some.injEq] at q1 q2
        subst q1 q2
        refine ⟨_, .inl (tanSolutions_ne P (.num 0) (.num 0) A B C D one), .inr ⟨es, hes, ec, hec, a, b, A, B, C, D, one, hp, q3, q4, rfl⟩,
          (soft_updLd s _).trans hE.soft, ?_, ?_, ?_, ?_⟩
        · have := hE.sols
          simpa [hsol, k5] using this
        · have := hE.mine
          simpa [cand, k3, k5] using this
        · have := hE.oth
          simpa [cand, k1, k5] using this
        · have := congrArg (fun p => p.2.2.2.2.2.1) hE.fields
          simpa [k5] using this
  obtain ⟨T, hT1, hT2, hsoft1, u1, u2, u3, u4⟩ := t1
  have hc1 := hsoft1.curr
  have t2 : ∃ S, (S ≠ [] ∨ st2 = .failure) ∧ (S = [] ∨ ∃ e t A B sine, sincosFind s.curr s.lists.l1 = some (e, t) ∧
        P.lin (P.collectSC s.curr e.rhs) (if sine then sinU s.curr else cosU s.curr) [sinU s.curr, cosU s.curr] = some (A, B) ∧
        S = sincosSolutions P e.lhs A B sine) ∧
      Soft s s2 ∧ (s2.w.unk s.curr).solutions = T ++ S ∧ (s2.ld s.curr).tanSols = T ∧ (s2.ld s.curr).scSols = S := by
    rcases scSol_cases h2 with ⟨rfl, rfl | ⟨_, e, t, _, rfl⟩⟩ | ⟨rfl, hu, e, t, A, B, sine, q1, q2, q3, q4, hE⟩
    · exact ⟨[], .inr rfl, .inl rfl, hsoft1, by simp [u1], u2, u3⟩
    · rw [hc1]
      exact ⟨[], .inr rfl, .inl rfl, hsoft1.trans (hc1 ▸ soft_updLd s1 _), by simp [u1], by simp [u2], by simp [u3]⟩
    · rw [hc1] at q1 q3 hE
      rw [hsoft1.lists] at q1
      refine ⟨_, .inl (sincosSolutions_ne P e.lhs A B sine), .inr ⟨e, t, A, B, sine, q1, q3, rfl⟩, ?_, ?_, ?_, ?_⟩
      · exact hsoft1.trans ((hc1 ▸ soft_updLd s1 _ : Soft s1 (s1.updLd s.curr _)).trans hE.soft)
      · have := hE.sols
        simpa [hc1, u1, u4] using this
      · have := hE.oth
        simpa [hc1, cand, u2, u4] using this
      · have := hE.mine
        simpa [hc1, cand, u3, u4] using this
  obtain ⟨S, hS1, hS2, hsoft2, v1, v2, v3⟩ := t2
  have hc2 := hsoft2.curr
  have hne' : S ≠ [] ∨ T ≠ [] := by
    rcases hne with h | h
    · exact .inr (hT1.resolve_right h)
    · exact .inl (hS1.resolve_right h)
  obtain ⟨-, hr⟩ := rank_cases h3
  obtain ⟨sols, hs, hor⟩ := hr.solves (by rw [hc2, v2, v3]; exact hne')
  have hsol' : (s'.w.unk s.curr).solutions = sols := by
    have := (Sol.setSolved_ok hs.w).solutions
    rw [hc2] at this
    rw [this]; simp [setSolutions]
  obtain ⟨-, -, -, r3, r4⟩ := C44_rank h3
  rw [hc2, v2, v3] at r3 r4
  have hbest : sols = best s.w.unknowns S T := by
    rw [← hsol']
    by_cases hS : S = []
    · have hT : T ≠ [] := by rcases hne' with h | h; exact absurd hS h; exact h
      rw [r3 (.inr ⟨hS, hT⟩), v1, hS]
      cases T with
      | nil => rfl
      | cons _ _ => simp [best]
    · by_cases hT : T = []
      · rw [r3 (.inl ⟨hS, hT⟩), v1, hT]; simp [best]
      · rw [(r4 ⟨hS, hT⟩).1]
        rw [hsoft2.only.frame.1]
  subst hbest
  exact ⟨S, T, hne', hS2, hT2, hs.of_soft hsoft2, hsol'⟩

theorem best_cases (us : List String) (S T : List Expr) : best us S T = S ∨ best us S T = T := by
  unfold best
  split
  · exact .inl rfl
  · exact .inr rfl
  · repeat' split
    all_goals simp

end Verif.Solver
