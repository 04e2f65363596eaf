import Verif.Solver.AbortLeaves
/-!
# C76, second part: the tree
-/
namespace Verif.Solver
open Verif.Leaf Verif.Eqn Verif.Sol Verif.Sym
open Verif.BT hiding Tree

/-! ## Where an exception of a composite comes from -/

theorem leaf_err {P : Sympy} {i : Nat} {l : LeafName} {s : LS} {c : Crash} (h : den (env P) 0 (lf i l) s = .error c) :
    ∃ k, act P l s = .error k := by
  simp only [lf, den, env] at h
  cases ha : act P l s with
  | error k => exact ⟨k, rfl⟩
  | ok r => rw [ha] at h; cases h

theorem seq_err {σ : Type} {f : σ → DRes σ} {fs : List (σ → DRes σ)} {u : σ} {c : Crash} (h : denSeq (f :: fs) u = .error c) :
    f u = .error c ∨ ∃ u1, f u = .ok (.success, u1) ∧ denSeq fs u1 = .error c := by
  simp only [denSeq] at h
  split at h
  · next hf => cases h; exact .inl hf
  · next st u1 hf =>
    split at h
    · next hs => exact .inr ⟨u1, by rw [hf, hs], h⟩
    · cases h

theorem pri_err {σ : Type} {f : σ → DRes σ} {fs : List (σ → DRes σ)} {u : σ} {c : Crash} (h : denPri (f :: fs) u = .error c) :
    f u = .error c ∨ ∃ u1, f u = .ok (.failure, u1) ∧ denPri fs u1 = .error c := by
  simp only [denPri] at h
  split at h
  · next hf => cases h; exact .inl hf
  · next st u1 hf =>
    split at h
    · next hs => exact .inr ⟨u1, by rw [hf, hs], h⟩
    · cases h

theorem pair_err {P : Sympy} {i a b : Nat} {f g : LeafName} {s : LS} {c : Crash} (h : den (env P) 0 (sq i [lf a f, lf b g]) s = .error c) :
    (∃ k, act P f s = .error k) ∨ ∃ s1 k, act P f s = .ok (.success, s1) ∧ act P g s1 = .error k := by
  rw [sq, den_comp] at h
  simp only [denComp, dens] at h
  rcases seq_err h with h | ⟨s1, h1, h⟩
  · exact .inl (leaf_err h)
  rcases seq_err h with h | ⟨s2, h2, h⟩
  · obtain ⟨k, hk⟩ := leaf_err h
    exact .inr ⟨s1, k, denLeaf_ok.mp h1, hk⟩
  · cases h

theorem scTan_err {P : Sympy} {s : LS} {c : Crash} (h : den (env P) 0 scTan s = .error c) :
    den (env P) 0 tanSol s = .error c ∨ ∃ st1 s1, den (env P) 0 tanSol s = .ok (st1, s1) ∧
      (den (env P) 0 scSol s1 = .error c ∨ ∃ st2 s2 k, den (env P) 0 scSol s1 = .ok (st2, s2) ∧
        (st1 ≠ .failure ∨ st2 ≠ .failure) ∧ rankLeaf s2 = .error k) := by
  rw [scTan, sq, den_comp] at h
  simp only [denComp, dens] at h
  rcases seq_err h with h | ⟨s1, h1, h⟩
  · rw [den_comp] at h
    simp only [denComp, dens, denOr] at h
    split at h
    · next hf => cases h; exact .inl hf
    next st1 s1 hf =>
    refine .inr ⟨st1, s1, hf, .inl ?_⟩
    split at h
    · next hg => cases h; exact hg
    · cases h
  · rcases seq_err h with h | ⟨s2, h2, h⟩
    swap
    · cases h
    obtain ⟨k, hk⟩ := leaf_err h
    rw [den_comp] at h1
    simp only [denComp, dens, denOr] at h1
    split at h1
    · cases h1
    next st1 t1 hf =>
    split at h1
    · cases h1
    next st2 t2 hg =>
    simp only [Except.ok.injEq, Prod.mk.injEq] at h1
    obtain ⟨h3, rfl⟩ := h1
    refine .inr ⟨st1, t1, hf, .inr ⟨st2, _, k, hg, ?_, hk⟩⟩
    by_contra hc
    simp only [not_or, Decidable.not_not] at hc
    rw [hc.1, hc.2] at h3
    simp at h3

theorem den_complete {P : Sympy} {t : BT.Tree LeafName} {s s' : LS} {st : Status} (h : den (env P) 0 t s = .ok (st, s')) (hc : AllComplete s) :
    AllComplete s' :=
  den_rel (E := env P) (R := fun a b => AllComplete a → AllComplete b) (fun _ => id) (fun _ _ _ f g => g ∘ f)
    (fun l u s u' h => act_complete P l u s u' h) (fun _ => id) t s st s' h hc

/-! ## The work tools -/

theorem id_never {P : Sympy} {l : LeafName} (hl : l = .algID ∨ l = .tanID ∨ l = .scID ∨ l = .simuID ∨ l = .sacID ∨ l = .x2z2) {s : LS} {k : Nat}
    (h : act P l s = .error k) : False := by
  rcases hl with rfl | rfl | rfl | rfl | rfl | rfl <;> simp only [act] at h
  · unfold algebraId at h; dsimp only at h; repeat' split at h
    all_goals cases h
  · unfold tanId at h; dsimp only at h; repeat' split at h
    all_goals cases h
  · unfold sincosId at h; dsimp only at h; repeat' split at h
    all_goals cases h
  · unfold simuId at h; dsimp only at h; repeat' split at h
    all_goals cases h
  · unfold sacId at h; dsimp only at h; repeat' split at h
    all_goals cases h
  · unfold x2z2 at h; dsimp only at h; repeat' split at h
    all_goals cases h

theorem Ready.mark {ang : String → Bool} {s : LS} {f : LeafData → LeafData} (h : Ready ang s) (hA : AllComplete (s.updLd s.curr f))
    (hf : ∀ d, LeafData.kept (f d) = LeafData.kept d) : Ready ang (s.updLd s.curr f) := h.quiet (quiet_updLd s f hf) hA

section
variable {P : Sympy} {ang : String → Bool} (hP : TameOn ang P)
include hP

theorem algSol_safe {s : LS} (h : Ready ang s) {c : Crash} (hr : den (env P) 0 algSol s = .error c) : False := by
  rcases pair_err hr with ⟨k, hk⟩ | ⟨s1, k, h1, h2⟩
  · exact id_never (by simp) hk
  have hA := act_complete P _ _ _ _ h1 h.comp
  obtain ⟨_, tmp, hf, rfl⟩ := algebraId_ok h1
  exact alg_safe hP (h.mark hA fun _ => rfl) (by simp) hf h2

theorem simuSol_safe {s : LS} (h : Ready ang s) {c : Crash} (hr : den (env P) 0 simuSol s = .error c) : False := by
  rcases pair_err hr with ⟨k, hk⟩ | ⟨s1, k, h1, h2⟩
  · exact id_never (by simp) hk
  have hA := act_complete P _ _ _ _ h1 h.comp
  rcases simuId_cases h1 with ⟨h, _⟩ | ⟨_, _, a, b, hf, rfl⟩
  · cases h
  exact simu_safe hP (h.mark hA fun _ => rfl) (by simp) (by simp) hf h2

theorem sacSol_safe {s : LS} (h : Ready ang s) {c : Crash} (hr : den (env P) 0 sacSol s = .error c) : False := by
  rcases pair_err hr with ⟨k, hk⟩ | ⟨s1, k, h1, h2⟩
  · exact id_never (by simp) hk
  have hA := act_complete P _ _ _ _ h1 h.comp
  rcases sacId_cases h1 with ⟨h, _⟩ | ⟨_, _, es, hf, rfl⟩
  · cases h
  exact sac_safe hP (h.mark hA fun _ => rfl) (by simp) hf h2

theorem scTan_safe {s : LS} (h : Ready ang s) {c : Crash} (hr : den (env P) 0 scTan s = .error c) : False := by
  rcases scTan_err hr with hr | ⟨st1, s1, h1, hr⟩
  · rcases pair_err hr with ⟨k, hk⟩ | ⟨s1, k, h1, h2⟩
    · exact id_never (by simp) hk
    · exact tanSolve_safe (tanId_found h h1).1.comp h2
  have m1 : Mid ang s1 := by
    rcases pair_cases h1 with ⟨-, ha⟩ | ⟨t, ha, hb⟩
    · exact (tanId_found h ha).1
    · exact tanSolve_mid hP (tanId_found h ha).1 ((tanId_found h ha).2 rfl) hb
  rcases hr with hr | ⟨st2, s2, k, h2, _, hr⟩
  · rcases pair_err hr with ⟨k, hk⟩ | ⟨s2, k, ha, hb⟩
    · exact id_never (by simp) hk
    · exact sincosSolve_safe hP (sincosId_found P m1 ha).1 ((sincosId_found P m1 ha).2 rfl) hb
  have m2 : Mid ang s2 := by
    rcases pair_cases h2 with ⟨-, ha⟩ | ⟨t, ha, hb⟩
    · exact (sincosId_found P m1 ha).1
    · exact sincosSolve_mid hP (sincosId_found P m1 ha).1 ((sincosId_found P m1 ha).2 rfl) hb
  exact rank_safe m2 hr

/-- On an unsolved unknown no work tool raises. -/
theorem work_safe {s : LS} (h : Ready ang s) {c : Crash} (hr : den (env P) 0 worktools s = .error c) : False := by
  rw [worktools, den_comp] at hr
  simp only [denComp, dens] at hr
  rcases pri_err hr with hr | ⟨s1, h1, hr⟩
  · exact algSol_safe hP h hr
  have r1 : Ready ang s1 := by
    rcases algSol_cases h1 with ⟨_, hq, _⟩ | ⟨h, _⟩
    · exact h.quiet hq (den_complete h1 h.comp)
    · cases h
  rcases pri_err hr with hr | ⟨s2, h2, hr⟩
  · exact scTan_safe hP r1 hr
  have r2 : Ready ang s2 := by
    rcases scTan_cases h2 with ⟨_, hq, _⟩ | ⟨h, _⟩
    · exact r1.quiet hq (den_complete h2 r1.comp)
    · cases h
  rcases pri_err hr with hr | ⟨s3, h3, hr⟩
  · exact simuSol_safe hP r2 hr
  have r3 : Ready ang s3 := by
    rcases simuSol_cases h3 with ⟨_, hq, _⟩ | ⟨h, _⟩
    · exact r2.quiet hq (den_complete h3 r2.comp)
    · cases h
  rcases pri_err hr with hr | ⟨s4, h4, hr⟩
  · exact sacSol_safe hP r3 hr
  rcases pri_err hr with hr | ⟨s5, h5, hr⟩
  · obtain ⟨k, hk⟩ := leaf_err hr
    exact id_never (by simp) hk
  · cases hr

end

/-- On a solved unknown that is not marked by tan_id no work tool raises. -/
theorem work_cold {P : Sympy} {s : LS} (hs : s.solved s.curr = true) (hf : (s.ld s.curr).solvableTan = false) {c : Crash}
    (hr : den (env P) 0 worktools s = .error c) : False := by
  have a1 : act P .algID s = .ok (.failure, s) := by simp [act, algebraId, hs]
  have a2 : act P .tanID s = .ok (.failure, s) := by simp [act, tanId, hs, hf]
  have a3 : act P .scID s = .ok (.failure, s) := by simp [act, sincosId, hs]
  have a4 : act P .simuID s = .ok (.failure, s) := by simp [act, simuId, hs]
  have a5 : act P .sacID s = .ok (.failure, s) := by simp [act, sacId, hs]
  have pe : ∀ {i a b : Nat} {f g : LeafName} {c : Crash}, act P f s = .ok (.failure, s) → den (env P) 0 (sq i [lf a f, lf b g]) s = .error c → False := by
    intro i a b f g c h h1
    rcases pair_err h1 with ⟨k, hk⟩ | ⟨s1, k, h2, _⟩
    · rw [h] at hk; cases hk
    · rw [h] at h2; cases h2
  have po : ∀ {i a b : Nat} {f g : LeafName} {st : Status} {s' : LS}, act P f s = .ok (.failure, s) →
      den (env P) 0 (sq i [lf a f, lf b g]) s = .ok (st, s') → st = .failure ∧ s' = s := by
    intro i a b f g st s' h h1
    rcases pair_cases h1 with ⟨h2, h3⟩ | ⟨s1, h2, _⟩
    · rw [h] at h3; cases h3; exact ⟨h2, rfl⟩
    · rw [h] at h2; cases h2
  rw [worktools, den_comp] at hr
  simp only [denComp, dens] at hr
  rcases pri_err hr with hr1 | ⟨s1, h1, hr1⟩
  · exact pe a1 hr1
  obtain ⟨-, rfl⟩ := po a1 h1
  rcases pri_err hr1 with hr2 | ⟨s2, h2, hr2⟩
  · rcases scTan_err hr2 with hr3 | ⟨st1, t1, g1, hr3⟩
    · exact pe a2 hr3
    obtain ⟨rfl, rfl⟩ := po a2 g1
    rcases hr3 with hr4 | ⟨st2, t2, k, g2, hne, hr4⟩
    · exact pe a3 hr4
    · obtain ⟨rfl, rfl⟩ := po a3 g2
      simp at hne
  obtain ⟨st1, t1, st2, t2, g1, g2, hh⟩ := scTan_parts h2
  obtain ⟨rfl, rfl⟩ := po a2 g1
  obtain ⟨rfl, rfl⟩ := po a3 g2
  rcases hh with ⟨-, -, -, rfl⟩ | ⟨hne, _⟩
  swap
  · simp at hne
  rcases pri_err hr2 with hr3 | ⟨s3, h3, hr3⟩
  · exact pe a4 hr3
  obtain ⟨-, rfl⟩ := po a4 h3
  rcases pri_err hr3 with hr4 | ⟨s4, h4, hr4⟩
  · exact pe a5 hr4
  rcases pri_err hr4 with hr5 | ⟨s5, h5, hr5⟩
  · obtain ⟨k, hk⟩ := leaf_err hr5
    exact id_never (by simp) hk
  · cases hr5

theorem den_sep {P : Sympy} {ang : String → Bool} (hP : TameOn ang P) {t : BT.Tree LeafName} {s s' : LS} {st : Status}
    (h : den (env P) 0 t s = .ok (st, s')) (hc : SepInv ang s) : SepInv ang s' :=
  den_rel (E := env P) (R := fun a b => SepInv ang a → SepInv ang b) (fun _ => id) (fun _ _ _ f g => g ∘ f)
    (fun l u s u' h => act_sep hP l u s u' h) (fun _ => id) t s st s' h hc

theorem den_unknowns {P : Sympy} {t : BT.Tree LeafName} {s s' : LS} {st : Status} (h : den (env P) 0 t s = .ok (st, s')) : s'.w.unknowns = s.w.unknowns :=
  den_rel (E := env P) (R := fun a b => b.w.unknowns = a.w.unknowns) (fun _ => rfl) (fun _ _ _ f g => g.trans f)
    (fun l u s u' h => act_unknowns P l u s u' h) (fun _ => rfl) t s st s' h

end Verif.Solver
