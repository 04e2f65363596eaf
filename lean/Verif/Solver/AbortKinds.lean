import Verif.Solver.Abort
/-!
# C76, first part: the only exceptions of a run

Whatever sympy answers and whatever the equations are, a run over at least one unknown never reads an equation that is `None`, never indexes an
empty list, and never leaves a loop of the tree without a status: what can end it is a failed `assert` or the undefined name in sum_id.py.
-/
namespace Verif.Solver
open Verif.Leaf Verif.Eqn Verif.Sol Verif.Sym
open Verif.BT hiding Tree

/-- the records of an unknown are complete: candidates come with their equations -/
structure Complete (d : LeafData) : Prop where
  sc : d.scSols ≠ [] ∨ d.shared = some false → d.scEqns ≠ []
  tan : d.tanSols ≠ [] ∨ d.shared = some true → 2 ≤ d.tanEqns.length
  flag : d.solvableTan = true → d.eqn ≠ none ∧ d.second ≠ none

theorem Complete.kept {d d' : LeafData} (h : Complete d) (hk : LeafData.kept d' = LeafData.kept d) (h1 : d.eqn ≠ none → d'.eqn ≠ none)
    (h2 : d.second ≠ none → d'.second ≠ none) : Complete d' := by
  simp only [LeafData.kept, Prod.mk.injEq] at hk
  obtain ⟨a, b, c, e, f, g⟩ := hk
  constructor
  · rw [a, b, f]; exact h.sc
  · rw [c, e, f]; exact h.tan
  · rw [g]; exact fun hf => ⟨h1 (h.flag hf).1, h2 (h.flag hf).2⟩

/-- all records are complete -/
def AllComplete (s : LS) : Prop := ∀ n, Complete (s.ld n)

theorem AllComplete.upd {s : LS} (h : AllComplete s) (x : String) (f : LeafData → LeafData) (hf : Complete (s.ld x) → Complete (f (s.ld x))) :
    AllComplete (s.updLd x f) := by
  intro n
  by_cases hn : n = x
  · subst hn; rw [updLd_same]; exact hf (h n)
  · rw [updLd_other _ _ _ hn]; exact h n

theorem AllComplete.pushSol {s : LS} (h : AllComplete s) (x : String) (e : Expr) : AllComplete (s.pushSol x e) := by
  unfold LS.pushSol
  dsimp only
  split
  · exact h
  · next hs => exact AllComplete.upd (s := s.updU x _) h x _ fun hc => ⟨fun _ => hc.sc (.inr hs), hc.tan, hc.flag⟩
  · next hs => exact AllComplete.upd (s := s.updU x _) h x _ fun hc => ⟨hc.sc, fun _ => hc.tan (.inr hs), hc.flag⟩

theorem AllComplete.set {s s' : LS} {x : String} (h : AllComplete s) (h1 : s.setSolved x = .ok s') : AllComplete s' := by
  intro n
  rw [(LS.setSolved_ok h1).2.2.2.2.2.2.2]
  dsimp only
  split
  · exact (h n).kept rfl (fun h => h) fun h => h
  · exact h n

theorem AllComplete.ext {own : Bool} {new : List Expr} {es : List KEqn} {g : List Expr} {s s' : LS} (h : AllComplete s)
    (hE : Ext own new es g s s') (hl : (if own then 2 else 1) ≤ es.length) : AllComplete s' := by
  intro n
  by_cases hn : n = s.curr
  swap
  · rw [hE.other n hn]; exact h n
  subst hn
  have hf := hE.fields
  simp only [Prod.mk.injEq] at hf
  obtain ⟨f1, f2, _, _, f5, f6, _⟩ := hf
  have hc := h s.curr
  have m1 := hE.mineE
  have m2 := hE.othE
  have m3 := hE.oth
  cases own
  · simp only [cand, candE, Bool.not_false, Bool.false_eq_true, if_false, if_true] at m1 m2 m3 hl
    refine ⟨fun _ => ?_, ?_, ?_⟩
    · rw [m1]; intro he; rw [(List.append_eq_nil_iff.1 he).2] at hl; simp at hl
    · rw [m2, m3, f6]
      rintro (hx | hx)
      · by_cases hs : (s.ld s.curr).shared = some true
        · exact hc.tan (.inr hs)
        · rw [if_neg hs, List.append_nil] at hx; exact hc.tan (.inl hx)
      · exact hc.tan (.inr hx)
    · rw [f1, f2, f5]; exact hc.flag
  · simp only [cand, candE, Bool.not_true, Bool.false_eq_true, if_false, if_true] at m1 m2 m3 hl
    refine ⟨?_, fun _ => ?_, ?_⟩
    · rw [m2, m3, f6]
      rintro (hx | hx)
      · by_cases hs : (s.ld s.curr).shared = some false
        · exact hc.sc (.inr hs)
        · rw [if_neg hs, List.append_nil] at hx; exact hc.sc (.inl hx)
      · exact hc.sc (.inr hx)
    · rw [m1, List.length_append]; omega
    · rw [f1, f2, f5]; exact hc.flag

theorem act_complete (P : Sympy) (l : LeafName) (s : LS) (st : Status) (s' : LS) (h : act P l s = .ok (st, s')) (hC : AllComplete s) :
    AllComplete s' := by
  have mark : ∀ (x : String) (f : LeafData → LeafData), (∀ d, LeafData.kept (f d) = LeafData.kept d) → (∀ d, d.eqn ≠ none → (f d).eqn ≠ none) →
      (∀ d, d.second ≠ none → (f d).second ≠ none) → AllComplete (s.updLd x f) := by
    intro x f h1 h2 h3
    exact hC.upd x f fun hc => hc.kept (h1 _) (h2 _) (h3 _)
  cases l <;> simp only [act] at h
  case asgn => obtain ⟨-, c, x, hx, rfl, -⟩ := assigner_cases h; exact hC
  case rank =>
    obtain ⟨-, hr⟩ := rank_cases h
    cases hr with
    | none => exact hC
    | one h0 h => exact hC.set h
    | chosen b sec tags h1 h2 _ h3 h4 h =>
      refine AllComplete.set ?_ h
      refine AllComplete.upd (s := s.updU s.curr _) hC s.curr _ fun hc => ?_
      refine ⟨fun _ => hc.sc (.inl ?_), fun _ => hc.tan (.inl ?_), fun hf => ⟨by simp, ?_⟩⟩
      · simp [h1]
      · simp [h2]
      · cases b
        · exact (hc.flag hf).2
        · obtain ⟨e2, -, rfl⟩ := h4 rfl; simp
  case tanID =>
    rcases tanId_cases h with ⟨-, rfl, -⟩ | ⟨-, rfl, -⟩ | ⟨-, _, _, es, _, ec, _, a, b, _, rfl⟩
    · exact hC
    · exact hC
    · exact hC.upd _ _ fun hc => ⟨hc.sc, hc.tan, fun _ => ⟨by simp, by simp⟩⟩
  case tanSolver =>
    rcases tanSolve_cases h with ⟨-, rfl, -⟩ | ⟨-, _, e1, e2, A, B, C, D, one, he, _, _, _, hE⟩
    · exact hC
    · exact hC.ext hE (by simp)
  case algID =>
    rcases act_two P .algID s st s' h with rfl | rfl
    · obtain ⟨_, tmp, _, rfl⟩ := algebraId_ok h; exact mark _ _ (fun _ => rfl) (fun _ _ => by simp) (fun _ h => h)
    · rw [algebraId_fail h]; exact hC
  case algSolver =>
    unfold algebraSolve at h
    dsimp only at h
    repeat' split at h
    all_goals first | (cases h; done) | (cases h; exact hC) | skip
    next h1 =>
    cases h
    refine AllComplete.set ?_ h1
    exact AllComplete.pushSol (s := { s with guards := s.guards ++ [_] }) hC _ _
  case scID =>
    rcases sincosId_cases h with ⟨_, rfl⟩ | ⟨_, _, _, e, t, _, rfl⟩
    · exact hC
    · exact mark _ _ (fun _ => rfl) (fun _ _ => by simp) (fun _ h => h)
  case scSolver =>
    rcases sincosSolve_cases h with ⟨-, rfl⟩ | ⟨-, e, A, B, sine, he, _, _, _, hE⟩
    · exact hC
    · exact hC.ext hE (by simp)
  case sacID =>
    rcases sacId_cases h with ⟨_, rfl⟩ | ⟨_, _, es, _, rfl⟩
    · exact hC
    · exact mark _ _ (fun _ => rfl) (fun _ _ => by simp) (fun _ h => h)
  case sacSolver =>
    unfold sacSolve at h
    dsimp only at h
    split at h
    swap
    · cases h; exact hC
    split at h
    · cases h
    split at h
    · cases h
    split at h
    · cases h
    next h1 =>
    cases h
    refine AllComplete.set ?_ h1
    exact AllComplete.pushSol (AllComplete.pushSol (s := { s with guards := s.guards ++ [_] }) hC _ _) _ _
  case x2z2 =>
    unfold x2z2 at h
    split at h
    swap
    · cases h; exact hC
    split at h
    · cases h; exact hC
    next e he =>
    split at h
    · cases h; exact hC
    next v hv =>
    cases h
    exact mark v.name (fun d => { d with method := d.method ++ [Tag.x2z2] }) (fun _ => rfl) (fun _ h => h) (fun _ h => h)
  case simuID =>
    rcases simuId_cases h with ⟨_, rfl⟩ | ⟨_, _, a, b, _, rfl⟩
    · exact hC
    · exact mark _ _ (fun _ => rfl) (fun _ _ => by simp) (fun _ _ => by simp)
  case simuSolver =>
    rcases simuSolve_cases h with ⟨_, rfl⟩ | ⟨_, e1, e2, he, _, hs, _, hld⟩
    · exact hC
    · intro n
      by_cases hn : n = s.curr
      · subst hn; rw [hld]
        have hc := hC s.curr
        exact ⟨fun hx => hc.sc (.inl (by simpa using hx)), fun hx => hc.tan (.inl (by simpa using hx)), hc.flag⟩
      · rw [hs.other n hn]; exact hC n
  case subTrans => obtain ⟨-, h1, h2, -⟩ := subTransform_cases h; intro n; rw [h2]; exact hC n
  case sumID => rw [(sumId_cases h).2]; exact hC
  case updateL => obtain ⟨-, L, _, rfl⟩ := updateLeaf_cases h; exact hC
  case compDetect => rw [compDetect_eq] at h; cases h; exact hC

/-- the exceptions named in the property: a failed assertion, the undefined name of sum_id.py -/
def Raises (c : Crash) : Prop := c = .leaf 1 ∨ c = .leaf 4

theorem setSolved_error {s : LS} {x : String} {c : Nat} (h : s.setSolved x = .error c) : c = 1 := by
  unfold LS.setSolved at h
  split at h <;> cases h
  rfl

theorem rank_error {s : LS} {c : Nat} (h : rankLeaf s = .error c) (hC : AllComplete s) : c = 1 := by
  have fin : ∀ s1 : LS, (match s1.setSolved s.curr with
      | .error c => (.error c : Out)
      | .ok s => .ok (.success, s)) = .error c → c = 1 := by
    intro s1 h
    split at h
    · next hs => cases h; exact setSolved_error hs
    · cases h
  have hc := hC s.curr
  unfold rankLeaf at h
  dsimp only at h
  split at h
  · next a l a' l' hsc htan =>
    generalize (if (s.ld s.curr).scSols.length < (s.ld s.curr).tanSols.length then true
      else if (s.ld s.curr).scSols.length > (s.ld s.curr).tanSols.length then false
      else decide (countVariables s.vars a < countVariables s.vars a')) = b at h
    cases b
    · simp only [Bool.false_eq_true, if_false] at h
      split at h
      · exact fin _ h
      · next hn =>
        have := hc.tan (.inl (by simp [htan]))
        rcases ht : (s.ld s.curr).tanEqns with _ | ⟨e, _ | ⟨e2, l⟩⟩
        · simp [ht] at this
        · simp [ht] at this
        · exact absurd ht (hn e e2 l)
    · simp only [if_true] at h
      split at h
      · next he => exact absurd he (hc.sc (.inl (by simp [hsc])))
      · exact fin _ h
  · exact fin _ h
  · exact fin _ h
  · cases h

/-- the leaves that read an equation find one -/
theorem act_error (P : Sympy) (l : LeafName) (s : LS) (c : Nat) (h : act P l s = .error c) (hC : AllComplete s) (hu : s.w.unknowns ≠ [])
    (h1 : l = .algSolver ∨ l = .scSolver ∨ l = .sacSolver ∨ l = .simuSolver → (s.ld s.curr).eqn ≠ none)
    (h2 : l = .simuSolver → (s.ld s.curr).second ≠ none) : c = 1 ∨ (c = 4 ∧ l = .sumID) := by
  have r1 : ∀ {c : Nat} {p : Prop}, c = 1 → c = 1 ∨ p := fun h => .inl h
  cases l <;> simp only [act] at h
  case asgn =>
    unfold assigner at h
    split at h
    · cases h
    split at h
    · next he => exact absurd he hu
    · cases h
  case rank => exact r1 (rank_error h hC)
  case tanID => unfold tanId at h; dsimp only at h; repeat' split at h
                all_goals cases h
  case tanSolver =>
    unfold tanSolve at h
    dsimp only at h
    split at h
    swap
    · cases h
    next hf =>
    obtain ⟨g1, g2⟩ := (hC s.curr).flag hf
    split at h
    · repeat' split at h
      all_goals cases h
    · next hn =>
      cases he : (s.ld s.curr).eqn with
      | none => exact absurd he g1
      | some e1 => cases he2 : (s.ld s.curr).second with
        | none => exact absurd he2 g2
        | some e2 => exact absurd he2 (hn e1 e2 he)
  case algID => unfold algebraId at h; dsimp only at h; repeat' split at h
                all_goals cases h
  case algSolver =>
    unfold algebraSolve at h
    dsimp only at h
    split at h
    swap
    · cases h
    split at h
    · next he => exact absurd he (h1 (by simp))
    split at h
    · cases h
    split at h
    · cases h
    split at h
    · next hs => cases h; exact r1 (setSolved_error hs)
    · cases h
  case scID => unfold sincosId at h; dsimp only at h; repeat' split at h
               all_goals cases h
  case scSolver =>
    unfold sincosSolve at h
    dsimp only at h
    split at h
    swap
    · cases h
    split at h
    · next he => exact absurd he (h1 (by simp))
    unfold sincosRecord at h
    dsimp only at h
    repeat' split at h
    all_goals cases h
    all_goals exact r1 rfl
  case sacID => unfold sacId at h; dsimp only at h; repeat' split at h
                all_goals cases h
  case sacSolver =>
    unfold sacSolve at h
    dsimp only at h
    split at h
    swap
    · cases h
    split at h
    · next he => exact absurd he (h1 (by simp))
    split at h
    · cases h; exact r1 rfl
    split at h
    · next hs => cases h; exact r1 (setSolved_error hs)
    · cases h
  case x2z2 => unfold x2z2 at h; dsimp only at h; repeat' split at h
               all_goals cases h
  case simuID => unfold simuId at h; dsimp only at h; repeat' split at h
                 all_goals cases h
  case simuSolver =>
    unfold simuSolve at h
    dsimp only at h
    split at h
    · split at h
      · cases h
      split at h
      · next hs => cases h; exact r1 (setSolved_error hs)
      · cases h
    · next hn =>
      cases he : (s.ld s.curr).eqn with
      | none => exact absurd he (h1 (by simp))
      | some e1 => cases he2 : (s.ld s.curr).second with
        | none => exact absurd he2 (h2 rfl)
        | some e2 => exact absurd he2 (hn e1 e2 he)
  case subTrans =>
    unfold subTransform at h
    split at h
    · cases h; exact r1 rfl
    dsimp only at h
    repeat' split at h
    all_goals cases h
    exact r1 rfl
  case sumID => unfold sumId at h; split at h <;> cases h; exact .inr ⟨rfl, rfl⟩
  case updateL => unfold updateLeaf at h; split at h <;> cases h; exact r1 rfl
  case compDetect => rw [compDetect_eq] at h; cases h

theorem act_unknowns (P : Sympy) (l : LeafName) (s : LS) (st : Status) (s' : LS) (h : act P l s = .ok (st, s')) : s'.w.unknowns = s.w.unknowns := by
  cases l <;> simp only [act] at h
  case asgn => obtain ⟨-, c, x, hx, rfl, -⟩ := assigner_cases h; rfl
  case rank =>
    obtain ⟨-, hr⟩ := rank_cases h
    cases hr with
    | none => rfl
    | one h0 h => exact (LS.setSolved_ok h).1.unknowns
    | chosen b sec tags h1 h2 _ h3 h4 h => exact (LS.setSolved_ok h).1.unknowns
  case tanID =>
    rcases tanId_cases h with ⟨-, rfl, -⟩ | ⟨-, rfl, -⟩ | ⟨-, _, _, es, _, ec, _, a, b, _, rfl⟩ <;> rfl
  case tanSolver =>
    rcases tanSolve_cases h with ⟨-, rfl, -⟩ | ⟨-, _, e1, e2, A, B, C, D, one, he, _, _, _, hE⟩
    · rfl
    · exact hE.only.frame.1
  case algID =>
    rcases act_two P .algID s st s' h with rfl | rfl
    · obtain ⟨_, tmp, _, rfl⟩ := algebraId_ok h; rfl
    · rw [algebraId_fail h]
  case algSolver =>
    unfold algebraSolve at h
    dsimp only at h
    repeat' split at h
    all_goals first | (cases h; done) | (cases h; rfl) | skip
    next h1 =>
    cases h
    rw [(LS.setSolved_ok h1).1.unknowns]; simp [World.upd]
  case scID => rcases sincosId_cases h with ⟨_, rfl⟩ | ⟨_, _, _, e, t, _, rfl⟩ <;> rfl
  case scSolver =>
    rcases sincosSolve_cases h with ⟨-, rfl⟩ | ⟨-, e, A, B, sine, he, _, _, _, hE⟩
    · rfl
    · exact hE.only.frame.1
  case sacID => rcases sacId_cases h with ⟨_, rfl⟩ | ⟨_, _, es, _, rfl⟩ <;> rfl
  case sacSolver =>
    unfold sacSolve at h
    dsimp only at h
    split at h
    swap
    · cases h; rfl
    split at h
    · cases h
    split at h
    · cases h
    split at h
    · cases h
    next h1 =>
    cases h
    rw [(LS.setSolved_ok h1).1.unknowns]; simp [World.upd]
  case x2z2 =>
    unfold x2z2 at h
    dsimp only at h
    repeat' split at h
    all_goals cases h
    all_goals rfl
  case simuID => rcases simuId_cases h with ⟨_, rfl⟩ | ⟨_, _, a, b, _, rfl⟩ <;> rfl
  case simuSolver =>
    rcases simuSolve_cases h with ⟨_, rfl⟩ | ⟨_, e1, e2, he, _, hs, _, hld⟩
    · rfl
    · rw [(Sol.setSolved_ok hs.w).unknowns]; rfl
  case subTrans => rw [(subTransform_cases h).2.1]
  case sumID => rw [(sumId_cases h).2]
  case updateL => obtain ⟨-, L, _, rfl⟩ := updateLeaf_cases h; rfl
  case compDetect => rw [compDetect_eq] at h; cases h; rfl

/-- the exceptions of the tree: `Bad` contains a failed assertion, and what sum_id.py raises from the states in `J` -/
theorem exceptions_gen {P : Sympy} {Bad : Crash → Prop} {J : LS → Prop} (hJ : ∀ l s st s', J s → act P l s = .ok (st, s') → J s')
    (b1 : Bad (.leaf 1)) (b4 : ∀ s, J s → sumId P s = .error 4 → Bad (.leaf 4)) :
    Safe Bad (fun s => (AllComplete s ∧ s.w.unknowns ≠ []) ∧ J s) (fun _ s => (AllComplete s ∧ s.w.unknowns ≠ []) ∧ J s) (den (env P) 0 topnode) := by
  let K : LS → Prop := fun s => (AllComplete s ∧ s.w.unknowns ≠ []) ∧ J s
  let E : LS → Prop := fun s => K s ∧ (s.ld s.curr).eqn ≠ none
  let F : LS → Prop := fun s => E s ∧ (s.ld s.curr).second ≠ none
  have keep : ∀ l s st s', K s → act P l s = .ok (st, s') → K s' := fun l s st s' hk ha =>
    ⟨⟨act_complete P l s st s' ha hk.1.1, by rw [act_unknowns P l s st s' ha]; exact hk.1.2⟩, hJ l s st s' hk.2 ha⟩
  have err : ∀ l s c, K s → act P l s = .error c → (l = .algSolver ∨ l = .scSolver ∨ l = .sacSolver ∨ l = .simuSolver → (s.ld s.curr).eqn ≠ none) →
      (l = .simuSolver → (s.ld s.curr).second ≠ none) → Bad (.leaf c) := by
    intro l s c hk ha h1 h2
    rcases act_error P l s c ha hk.1.1 hk.1.2 h1 h2 with rfl | ⟨rfl, rfl⟩
    · exact b1
    · exact b4 s hk.2 ha
  have plain : ∀ l, (l = .algSolver ∨ l = .scSolver ∨ l = .sacSolver ∨ l = .simuSolver → False) → ∀ i,
      Safe Bad K (fun _ => K) (den (env P) 0 (lf i l)) := by
    intro l hl i
    exact safe_leaf (fun s c hk ha => err l s c hk ha (fun h => (hl h).elim) (fun h => (hl (by simp [h])).elim)) (keep l)
  have after : ∀ l, (l = .algID ∨ l = .scID ∨ l = .sacID) → ∀ i,
      Safe Bad K (fun st s => if st = .success then E s else K s) (den (env P) 0 (lf i l)) := by
    intro l hl i
    refine safe_leaf (fun s c hk ha => err l s c hk ha (fun h => ?_) (fun h => ?_)) (fun s st s' hk ha => ?_)
    · rcases hl with rfl | rfl | rfl <;> simp at h
    · rcases hl with rfl | rfl | rfl <;> simp at h
    have hk' := keep l s st s' hk ha
    split
    swap
    · exact hk'
    next hs =>
    subst hs
    refine ⟨hk', ?_⟩
    rcases hl with rfl | rfl | rfl <;> simp only [act] at ha
    · obtain ⟨_, tmp, _, rfl⟩ := algebraId_ok ha; simp
    · rcases sincosId_cases ha with ⟨h, _⟩ | ⟨_, _, _, e, t, _, rfl⟩
      · cases h
      · simp
    · rcases sacId_cases ha with ⟨h, _⟩ | ⟨_, _, es, _, rfl⟩
      · cases h
      · simp
  have solver : ∀ l, l ≠ .simuSolver → ∀ i, Safe Bad E (fun _ => K) (den (env P) 0 (lf i l)) := by
    intro l hl i
    exact safe_leaf (fun s c hk ha => err l s c hk.1 ha (fun _ => hk.2) (fun h => (hl h).elim)) (fun s st s' hk ha => keep l s st s' hk.1 ha)
  have hmi : ∀ i, Safe Bad K (fun st s => if st = .success then F s else K s) (den (env P) 0 (lf i .simuID)) := by
    intro i
    refine safe_leaf (fun s c hk ha => err .simuID s c hk ha (fun h => by simp at h) (fun h => by simp at h)) (fun s st s' hk ha => ?_)
    have hk' := keep .simuID s st s' hk ha
    split
    swap
    · exact hk'
    next hs =>
    subst hs
    rcases simuId_cases ha with ⟨h, _⟩ | ⟨_, _, a, b, _, rfl⟩
    · cases h
    · exact ⟨⟨hk', by simp⟩, by simp⟩
  have hms : ∀ i, Safe Bad F (fun _ => K) (den (env P) 0 (lf i .simuSolver)) := fun i =>
    safe_leaf (fun s c hk ha => err .simuSolver s c hk.1.1 ha (fun _ => hk.1.2) (fun _ => hk.2))
      (fun s st s' hk ha => keep .simuSolver s st s' hk.1.1 ha)
  have both : ∀ l, (l = .algSolver ∨ l = .scSolver ∨ l = .sacSolver ∨ l = .simuSolver → False) → ∀ i,
      Safe Bad K (fun st s => if st = .success then K s else K s) (den (env P) 0 (lf i l)) := by
    intro l hl i
    exact (plain l hl i).mono (fun _ h => h) (fun st s h => by simpa using h)
  exact safe_topnode (I := K) (W := K) (A := E) (T := K) (S := E) (M := F) (C := E) (R := K)
      (plain _ (by simp)) (both _ (by simp)) (plain _ (by simp)) (after _ (by simp)) (solver _ (by simp)) (both _ (by simp)) (plain _ (by simp))
      (after _ (by simp)) (solver _ (by simp)) (fun _ h => h) (plain _ (by simp)) (fun _ h => h) hmi hms (after _ (by simp)) (solver _ (by simp))
      (plain _ (by simp)) (fun _ h => h) (plain _ (by simp)) (plain _ (by simp))

/-- **C76.** Whatever the equations are and whatever sympy answers: a run over at least one unknown raises nothing but a failed assertion or the
undefined name of sum_id.py. -/
theorem C76_exceptions {P : Sympy} {us : List String} {ms : List MEqn} {aux : List KEqn} {c : Crash} (hu : us ≠ [])
    {counter : Nat} (h : solve P us ms aux counter = .error c) : c = .leaf 1 ∨ c = .leaf 4 := by
  rw [solve_eq] at h
  split at h
  · cases h; exact .inl rfl
  next L _ =>
  refine (exceptions_gen (P := P) (Bad := Raises) (J := fun _ => True) (fun _ _ _ _ _ _ => trivial) (.inl rfl) (fun _ _ _ => .inr rfl) _ ?_).1 c h
  exact ⟨⟨fun n => ⟨by simp [init], by simp [init], by simp [init]⟩, by simpa [init, Sol.start] using hu⟩, trivial⟩

end Verif.Solver
