import Verif.Solver.AbortRun
/-!
# C76, second part: working again on an unknown solved by the tangent method alone

The tree gives the first unknown to the work tools again when all are solved or the counter has run through the list; tan_id then finds its flag
set (`TanKept`). If sincos_id has not overwritten the equation, the tangent solver finds its own two equations and raises nothing.
-/
namespace Verif.Solver
open Verif.Leaf Verif.Eqn Verif.Sol Verif.Sym
open Verif.BT hiding Tree

/-- no equation of the sine solver was recorded for the unknown -/
def NoSc (d : LeafData) : Prop := Tag.arcsin ∉ d.method ∧ Tag.arccos ∉ d.method

/-- the record of an unknown worked on by the tangent solver alone -/
structure Warm (P : Sympy) (s : LS) (x : String) : Prop where
  sh : (s.ld x).shared = none
  sc : (s.ld x).scSols = []
  sols : ∀ e ∈ (s.w.unk x).solutions, CleanFor s x e
  ne : (s.ld x).tanSols ≠ [] → (s.w.unk x).solutions ≠ []
  eq : ∃ t t' A B C D, (s.ld x).eqn = some ⟨.num 0, P.collectSC x t⟩ ∧ (s.ld x).second = some ⟨.num 0, P.collectSC x t'⟩ ∧
    occurs (sinU x) t = true ∧ P.lin (P.collectSC x t) (sinU x) [sinU x, cosU x] = some (A, B) ∧
    P.lin (P.collectSC x t') (cosU x) [sinU x, cosU x] = some (C, D) ∧ CleanFor s x (P.ratio A C) ∧ CleanFor s x B ∧ CleanFor s x D

/-- the record of `x` is the same -/
theorem Warm.cong {P : Sympy} {s s' : LS} {x : String} (h : Warm P s x) (hl : s'.ld x = s.ld x) (hw : (s'.w.unk x).solutions = (s.w.unk x).solutions)
    (hu : s'.w.unknowns = s.w.unknowns) (hs : ∀ n, s.solved n = true → s'.solved n = true) : Warm P s' x := by
  obtain ⟨h1, h2, h3, h4, t, t', A, B, C, D, e1, e2, ho, l1, l2, k1, k2, k3⟩ := h
  refine ⟨by rw [hl]; exact h1, by rw [hl]; exact h2, by rw [hw]; exact fun e he => (h3 e he).cong hu hs, by rw [hl, hw]; exact h4,
    t, t', A, B, C, D, by rw [hl]; exact e1, by rw [hl]; exact e2, ho, l1, l2, k1.cong hu hs, k2.cong hu hs, k3.cong hu hs⟩

/-- after `set_solved` -/
theorem Warm.set {P : Sympy} {s s' : LS} {x : String} (h : Warm P s x) (h1 : s.setSolved x = .ok s') : Warm P s' x := by
  have hl := (LS.setSolved_ok h1).2.2.2.2.2.2.2
  have hst := Sol.setSolved_ok (LS.setSolved_raw h1)
  have hld : s'.ld x = { s.ld x with ready := false } := by rw [hl]; simp
  have hu := hst.unknowns
  have hs : ∀ n, s.solved n = true → s'.solved n = true := by
    intro n hn
    by_cases he : n = x
    · subst he; exact hst.solved
    · unfold LS.solved; rw [hst.other n he]; exact hn
  obtain ⟨a1, a2, a3, a4, t, t', A, B, C, D, e1, e2, ho, l1, l2, k1, k2, k3⟩ := h
  refine ⟨by rw [hld]; exact a1, by rw [hld]; exact a2, by rw [hst.solutions]; exact fun e he => (a3 e he).cong hu hs, by rw [hld, hst.solutions]; exact a4,
    t, t', A, B, C, D, by rw [hld]; exact e1, by rw [hld]; exact e2, ho, l1, l2, k1.cong hu hs, k2.cong hu hs, k3.cong hu hs⟩

theorem tanSolve_warm {P : Sympy} {ang : String → Bool} (hP : TameOn ang P) {s s' : LS} {st : Status} (h : Warm P s s.curr)
    (hr : tanSolve P s = .ok (st, s')) : Warm P s' s.curr ∧ (s'.ld s.curr).method = (s.ld s.curr).method ∧ s'.curr = s.curr ∧
      (∀ n, s'.solved n = s.solved n) := by
  rcases tanSolve_ok hr with rfl | ⟨e1, e2, A', B', C', D', one, he1, he2, hl1, hl2, hone, hE⟩
  · exact ⟨h, rfl, rfl, fun _ => rfl⟩
  obtain ⟨a1, a2, a3, a4, t, t', A, B, C, D, q1, q2, ho, l1, l2, k1, k2, k3⟩ := h
  rw [q1] at he1; rw [q2] at he2
  cases he1; cases he2
  rw [l1] at hl1; rw [l2] at hl2
  cases hl1; cases hl2
  have hf := hE.fields
  simp only [Prod.mk.injEq] at hf
  obtain ⟨f1, f2, f3, _, _, f6, _⟩ := hf
  have hs : ∀ n, s'.solved n = s.solved n := hE.soft.solved
  have hu : s'.w.unknowns = s.w.unknowns := hE.only.frame.1
  have hsm : ∀ n, s.solved n = true → s'.solved n = true := fun n hn => by rw [hs]; exact hn
  have hcl := tan_clean hP ho l1 l2 k1 k2 k3 hone
  have hsol : (s'.w.unk s.curr).solutions = (s.w.unk s.curr).solutions ++ tanSolutions P (.num 0) (.num 0) A' B' C' D' one := by
    rw [hE.sols, a1]; simp
  refine ⟨⟨by rw [f6]; exact a1, ?_, ?_, ?_, t, t', A', B', C', D', by rw [f1]; exact q1, by rw [f2]; exact q2, ho, l1, l2, k1.cong hu hsm, k2.cong hu hsm,
    k3.cong hu hsm⟩, f3, hE.curr, hs⟩
  · have := hE.oth
    simpa [cand, a1, a2] using this
  · rw [hsol]
    intro e he
    rcases List.mem_append.1 he with he | he
    · exact (a3 e he).cong hu hsm
    · exact (hcl e he).cong hu hsm
  · rw [hsol]; intro _; simp [tanSolutions_ne]

theorem rank_warm {P : Sympy} {s s' : LS} {st : Status} (h : Warm P s s.curr) (hr : rankLeaf s = .ok (st, s')) : Warm P s' s.curr := by
  obtain ⟨-, hc⟩ := rank_cases hr
  cases hc with
  | none => exact h
  | one _ h1 => exact h.set h1
  | chosen b sec tags h1 => rw [h.sc] at h1; cases h1

theorem rank_warm_safe {P : Sympy} {s : LS} (h : Warm P s s.curr) {c : Nat} (hr : rankLeaf s = .error c) : False := by
  unfold rankLeaf at hr
  dsimp only at hr
  rw [h.sc] at hr
  split at hr
  · next hsc _ => cases hsc
  · next hsc _ => cases hsc
  · next htan =>
    split at hr
    · next hs => exact setSolved_no_error (s0 := s) hs rfl (fun _ h => h) (h.ne (by simp [htan])) h.sols
    · cases hr
  · cases hr

/-- tan_id on an unsolved unknown nobody has worked on -/
theorem tanId_warm {P : Sympy} {ang : String → Bool} {s s' : LS} (h : Ready ang s) (hr : tanId P s = .ok (.success, s')) :
    Warm P s' s.curr ∧ s'.curr = s.curr := by
  have hk := h.fresh.2
  simp only [LeafData.kept, Prod.mk.injEq] at hk
  obtain ⟨m, hf⟩ := tanId_found h hr
  obtain ⟨es, ec, a, b, q1, q2, hp, ho⟩ := hf rfl
  have hc : s'.curr = s.curr ∧ s'.w = s.w ∧ (s'.ld s.curr).scSols = [] ∧ (s'.ld s.curr).shared = none ∧ (s'.ld s.curr).tanSols = [] := by
    rcases tanId_cases hr with ⟨h, _⟩ | ⟨_, rfl, _⟩ | ⟨_, _, _, _, _, _, _, _, _, _, rfl⟩
    · cases h
    · exact ⟨rfl, rfl, hk.1, hk.2.2.2.2.1, hk.2.2.1⟩
    · simp [hk]
  obtain ⟨rfl, rfl, A, B, C, D, l1, l2, cR, cB, cD⟩ := tanPair_spec hp
  rw [hc.1] at q1 q2 ho l1 l2
  refine ⟨⟨hc.2.2.2.1, hc.2.2.1, ?_, ?_, _, _, A, B, C, D, q1, q2, ho, l1, l2, .count cR, .count cB, .count cD⟩, hc.1⟩
  · rw [hc.2.1, h.fresh.1]; simp
  · rw [hc.2.2.2.2]; simp

/-! ## One tick of the work tools -/

theorem sc_method {P : Sympy} {s s' : LS} {st : Status} (h : den (env P) 0 scSol s = .ok (st, s')) :
    s' = s ∨ ¬ NoSc (s'.ld s.curr) ∧ s.solved s.curr = false := by
  have tag : ∀ {t : Tag} {e : KEqn}, sincosFind s.curr s.lists.l1 = some (e, t) → t = .arcsin ∨ t = .arccos := by
    intro t e hf
    have : ∀ l, sincosFind s.curr l = some (e, t) → t = .arcsin ∨ t = .arccos := by
      intro l
      induction l with
      | nil => intro h; cases h
      | cons a l ih =>
        intro h
        unfold sincosFind at h
        dsimp only at h
        split at h
        · exact ih h
        split at h
        · cases h; exact .inl rfl
        split at h
        · cases h; exact .inr rfl
        · exact ih h
    exact this _ hf
  have bad : ∀ {d : LeafData} {m : List Tag} {t : Tag}, (t = .arcsin ∨ t = .arccos) → d.method = m ++ [t] → ¬ NoSc d := by
    rintro d m t (rfl | rfl) hd ⟨h1, h2⟩
    · rw [hd] at h1; simp at h1
    · rw [hd] at h2; simp at h2
  rcases scSol_cases h with ⟨_, rfl | ⟨hu, e, t, hf, rfl⟩⟩ | ⟨_, hu, e, t, A, B, sine, hf, _, _, _, hE⟩
  · exact .inl rfl
  · exact .inr ⟨bad (tag hf) (m := (s.ld s.curr).method) (by simp), hu⟩
  · have hm := hE.fields
    simp only [Prod.mk.injEq, updLd_curr, updLd_same] at hm
    exact .inr ⟨bad (tag hf) hm.2.2.1, hu⟩

theorem rank_method {s s' : LS} {st : Status} (h : rankLeaf s = .ok (st, s')) (hn : NoSc (s'.ld s.curr)) : NoSc (s.ld s.curr) := by
  obtain ⟨-, hc⟩ := rank_cases h
  cases hc with
  | none => exact hn
  | one _ h1 => rw [(LS.setSolved_ok h1).2.2.2.2.2.2.2] at hn; simpa [NoSc] using hn
  | chosen b sec tags _ _ _ _ _ h1 =>
    rw [(LS.setSolved_ok h1).2.2.2.2.2.2.2] at hn
    simp [NoSc] at hn
    exact ⟨hn.1.1, hn.2.1⟩

/-- scTan on an unknown without a record -/
theorem scTan_new {P : Sympy} {ang : String → Bool} (hP : TameOn ang P) {s s' : LS} (h : Ready ang s)
    (hr : den (env P) 0 scTan s = .ok (.success, s')) (hn : NoSc (s'.ld s.curr)) : Warm P s' s.curr := by
  obtain ⟨st1, s1, st2, s2, h1, h2, hh⟩ := scTan_parts hr
  rcases hh with ⟨-, -, h, -⟩ | ⟨hne, h3⟩
  · cases h
  have c1 : s1.curr = s.curr := by
    rcases tanSol_cases h1 with ⟨_, rfl⟩ | ⟨_, t, hm, _, _, _, _, _, _, _, _, _, _, _, hE⟩
    · rfl
    · rw [hE.curr]; cases hm <;> rfl
  have c2 : s2.curr = s.curr := by
    rw [← c1]
    rcases scSol_cases h2 with ⟨_, rfl | ⟨_, _, _, _, rfl⟩⟩ | ⟨_, _, _, _, _, _, _, _, _, _, _, hE⟩
    · rfl
    · rfl
    · rw [hE.curr]; rfl
  have hn2 := rank_method h3 (by rw [c2]; exact hn)
  rcases sc_method h2 with rfl | ⟨hb, _⟩
  swap
  · rw [c1] at hb; rw [c2] at hn2; exact absurd hn2 hb
  rcases pair_cases h1 with ⟨rfl, ha⟩ | ⟨t, ha, hb⟩
  · exfalso
    rcases tanId_cases ha with ⟨_, rfl, _⟩ | ⟨h, _⟩ | ⟨h, _⟩
    · rcases hne with hne | hne
      · exact hne rfl
      · rcases scSol_cases h2 with ⟨rfl, _⟩ | ⟨_, _, e, tg, A, B, sine, _, _, _, _, hE⟩
        · exact hne rfl
        · have hm := congrArg (fun p => p.2.2.1) hE.fields
          simp only [updLd_curr, updLd_same] at hm
          simp at hm
    · cases h
    · cases h
  · obtain ⟨w1, hc⟩ := tanId_warm h ha
    obtain ⟨w2, _, hc2, _⟩ := tanSolve_warm hP (by rw [hc]; exact w1) hb
    have := rank_warm (s := s2) (by rw [hc2]; exact w2) h3
    rw [c2] at this
    exact this

/-- scTan on a solved unknown with the flag of tan_id -/
theorem scTan_old {P : Sympy} {ang : String → Bool} (hP : TameOn ang P) {s : LS} (hs : s.solved s.curr = true) (hf : (s.ld s.curr).solvableTan = true)
    (hA : AllComplete s) (h : Warm P s s.curr) :
    (∀ c, den (env P) 0 scTan s ≠ .error c) ∧ ∀ st s', den (env P) 0 scTan s = .ok (st, s') → Warm P s' s.curr := by
  have hid : act P .tanID s = .ok (.success, s) := by simp [act, tanId, hf]
  have sc : ∀ {s1 : LS}, s1.curr = s.curr → (∀ n, s1.solved n = s.solved n) → act P .scID s1 = .ok (.failure, s1) := by
    intro s1 h1 h2
    simp [act, sincosId, h1, h2, hs]
  have tan : ∀ {st1 s1}, den (env P) 0 tanSol s = .ok (st1, s1) → Warm P s1 s.curr ∧ s1.curr = s.curr ∧ ∀ n, s1.solved n = s.solved n := by
    intro st1 s1 h1
    rcases pair_cases h1 with ⟨_, ha⟩ | ⟨t, ha, hb⟩
    · rw [hid] at ha; cases ha
    · rw [hid] at ha; cases ha
      obtain ⟨w, _, w2, w3⟩ := tanSolve_warm hP h hb
      exact ⟨w, w2, w3⟩
  have scs : ∀ {s1 st2 s2}, s1.curr = s.curr → (∀ n, s1.solved n = s.solved n) → den (env P) 0 scSol s1 = .ok (st2, s2) → s2 = s1 := by
    intro s1 st2 s2 h1 h2 h3
    rcases pair_cases h3 with ⟨_, ha⟩ | ⟨t, ha, hb⟩
    · rw [sc h1 h2] at ha; cases ha; rfl
    · rw [sc h1 h2] at ha; cases ha
  constructor
  · intro c hr
    rcases scTan_err hr with hr | ⟨st1, s1, h1, hr⟩
    · rcases pair_err hr with ⟨k, hk⟩ | ⟨s1, k, ha, hb⟩
      · rw [hid] at hk; cases hk
      · rw [hid] at ha; cases ha; exact tanSolve_safe hA hb
    obtain ⟨w, hc, hsol⟩ := tan h1
    rcases hr with hr | ⟨st2, s2, k, h2, _, hr⟩
    · rcases pair_err hr with ⟨k, hk⟩ | ⟨s2, k, ha, hb⟩
      · exact id_never (by simp) hk
      · rw [sc hc hsol] at ha; cases ha
    · rw [scs hc hsol h2] at hr
      exact rank_warm_safe (s := s1) (by rw [hc]; exact w) hr
  · intro st s' hr
    obtain ⟨st1, s1, st2, s2, h1, h2, hh⟩ := scTan_parts hr
    obtain ⟨w, hc, hsol⟩ := tan h1
    have he := scs hc hsol h2
    subst he
    rcases hh with ⟨-, -, -, rfl⟩ | ⟨_, h3⟩
    · exact w
    · have := rank_warm (s := s2) (by rw [hc]; exact w) h3
      rw [hc] at this; exact this

/-- every solved unknown with the flag of tan_id and without an equation of the sine solver has a clean record -/
def Tepid (P : Sympy) (s : LS) : Prop := ∀ x, s.solved x = true → (s.ld x).solvableTan = true → NoSc (s.ld x) → Warm P s x

theorem tepid_same {P : Sympy} {s s' : LS} (h : Tepid P s) (hw : s'.w = s.w) (hl : s'.ld = s.ld) : Tepid P s' := by
  intro x h1 h2 h3
  rw [LS.solved, hw] at h1
  rw [hl] at h2 h3
  exact (h x h1 h2 h3).cong (by rw [hl]) (by rw [hw]) (by rw [hw]) (fun n hn => by rw [LS.solved, hw]; exact hn)

theorem tepid_quiet {P : Sympy} {s s' : LS} (h : Tepid P s) (hq : Quiet s s') (hu : s.solved s.curr = false) : Tepid P s' := by
  intro x h1 h2 h3
  rw [LS.solved, hq.w] at h1
  have hx : x ≠ s.curr := by rintro rfl; rw [LS.solved] at hu; rw [hu] at h1; cases h1
  have hl := hq.other x hx
  rw [hl] at h2 h3
  exact (h x h1 h2 h3).cong hl (by rw [hq.w]) (by rw [hq.w]) (fun n hn => by rw [LS.solved, hq.w]; exact hn)

theorem tepid_solves {P : Sympy} {s s' : LS} {sols : List Expr} (h : Tepid P s) (hs : Solves sols s s')
    (hc : (s'.ld s.curr).solvableTan = true → NoSc (s'.ld s.curr) → Warm P s' s.curr) : Tepid P s' := by
  intro x h1 h2 h3
  by_cases hx : x = s.curr
  · subst hx; exact hc h2 h3
  have hst := Sol.setSolved_ok hs.w
  have ho : ∀ n, n ≠ s.curr → s'.w.unk n = s.w.unk n := fun n hn => by rw [hst.other n hn]; exact Sol.upd_other _ _ hn
  rw [LS.solved, ho x hx] at h1
  rw [hs.other x hx] at h2 h3
  refine (h x h1 h2 h3).cong (hs.other x hx) (by rw [ho x hx]) hst.unknowns (fun n hn => ?_)
  by_cases hc : n = s.curr
  · subst hc; exact hst.solved
  · rw [LS.solved, ho n hc]; exact hn

theorem tepid_x2z2 {P : Sympy} {s s' : LS} {st : Status} (h : Tepid P s) (hr : x2z2 P s = .ok (st, s')) : Tepid P s' := by
  unfold x2z2 at hr
  split at hr
  swap
  · cases hr; exact h
  split at hr
  · cases hr; exact h
  next e he =>
  split at hr
  · cases hr; exact h
  next v hv =>
  cases hr
  have hm := List.mem_of_find?_eq_some hv
  have hp := List.find?_some hv
  simp only [LS.vars, List.mem_map] at hm
  obtain ⟨y, hy, rfl⟩ := hm
  simp only [Bool.and_eq_true, Bool.not_eq_true'] at hp
  intro x h1 h2 h3
  have hx : x ≠ y := by
    rintro rfl
    rw [show (s.w.unk x).solved = true from h1] at hp
    cases hp.2
  rw [updLd_other _ _ _ hx] at h2 h3
  exact (h x h1 h2 h3).cong (updLd_other _ _ _ hx) rfl rfl (fun n hn => hn)

/-- a successful solver other than the two of scTan -/
theorem tepid_plain {P : Sympy} {ang : String → Bool} {s s' : LS} {sols : List Expr} (h : Tepid P s) (hR : Ready ang s) (hs : Solves sols s s')
    (hf : (s'.ld s.curr).solvableTan = (s.ld s.curr).solvableTan) : Tepid P s' := by
  refine tepid_solves h hs fun ht => ?_
  have hk := hR.fresh.2
  simp only [LeafData.kept, Prod.mk.injEq] at hk
  rw [hf, hk.2.2.2.2.2] at ht
  cases ht

theorem Ready.of {ang : String → Bool} {s : LS} (hS : SepInv ang s) (hI : Inv s) (hA : AllComplete s) (hm : s.curr ∈ s.w.unknowns)
    (hu : s.solved s.curr = false) : Ready ang s := ⟨hu, hm, hS, hI.fresh _ hu, hA⟩

theorem Ready.shared {ang : String → Bool} {s : LS} (h : Ready ang s) : (s.ld s.curr).shared = none := by
  have hk := h.fresh.2
  simp only [LeafData.kept, Prod.mk.injEq] at hk
  exact hk.2.2.2.2.1

theorem tepid_new {P : Sympy} {ang : String → Bool} (hP : TameOn ang P) {s s' : LS} {st : Status} (hT : Tepid P s) (hR : Ready ang s)
    (h : den (env P) 0 worktools s = .ok (st, s')) : Tepid P s' := by
  rw [worktools, den_comp] at h
  simp only [denComp, dens] at h
  rcases denPri_cons h with ⟨h1, hne⟩ | ⟨s1, h1, h⟩
  · rcases algSol_cases h1 with ⟨rfl, _⟩ | ⟨rfl, hu, _, _, _, _, _, _, hs, _, hl⟩
    · exact absurd rfl hne
    · exact tepid_plain hT hR hs (by rw [hl hR.shared])
  have r1 : Ready ang s1 ∧ Tepid P s1 := by
    rcases algSol_cases h1 with ⟨_, hq, _⟩ | ⟨h, _⟩
    · exact ⟨hR.quiet hq (den_complete h1 hR.comp), tepid_quiet hT hq hR.un⟩
    · cases h
  rcases denPri_cons h with ⟨h2, hne⟩ | ⟨s2, h2, h⟩
  · rcases scTan_cases h2 with ⟨rfl, _⟩ | ⟨rfl, _, sols, hs⟩
    · exact absurd rfl hne
    · exact tepid_solves r1.2 hs fun _ hn => scTan_new hP r1.1 h2 hn
  have r2 : Ready ang s2 ∧ Tepid P s2 := by
    rcases scTan_cases h2 with ⟨_, hq, _⟩ | ⟨h, _⟩
    · exact ⟨r1.1.quiet hq (den_complete h2 r1.1.comp), tepid_quiet r1.2 hq r1.1.un⟩
    · cases h
  rcases denPri_cons h with ⟨h3, hne⟩ | ⟨s3, h3, h⟩
  · rcases simuSol_cases h3 with ⟨rfl, _⟩ | ⟨rfl, hu, _, _, _, hs, _, hl⟩
    · exact absurd rfl hne
    · exact tepid_plain r2.2 r2.1 hs (by rw [hl])
  have r3 : Ready ang s3 ∧ Tepid P s3 := by
    rcases simuSol_cases h3 with ⟨_, hq, _⟩ | ⟨h, _⟩
    · exact ⟨r2.1.quiet hq (den_complete h3 r2.1.comp), tepid_quiet r2.2 hq r2.1.un⟩
    · cases h
  rcases denPri_cons h with ⟨h4, hne⟩ | ⟨s4, h4, h⟩
  · rcases sacSol_cases h4 with ⟨rfl, _⟩ | ⟨rfl, hu, _, _, hs, _, hl⟩
    · exact absurd rfl hne
    · exact tepid_plain r3.2 r3.1 hs (by rw [hl r3.1.shared])
  have r4 : Tepid P s4 := by
    rcases sacSol_cases h4 with ⟨_, rfl⟩ | ⟨h, _⟩
    · exact r3.2
    · cases h
  rcases denPri_cons h with ⟨h5, hne⟩ | ⟨s5, h5, h⟩
  · exact tepid_x2z2 r4 (denLeaf_ok.mp h5)
  · simp only [denPri] at h
    cases h
    exact tepid_x2z2 r4 (denLeaf_ok.mp h5)

/-- The first unknown is given to the work tools again although it is solved. -/
theorem tepid_old {P : Sympy} {ang : String → Bool} (hP : TameOn ang P) {s : LS} (hT : Tepid P s) (hA : AllComplete s) (hs : s.solved s.curr = true) :
    (NoSc (s.ld s.curr) → ∀ c, den (env P) 0 worktools s ≠ .error c) ∧ ∀ st s', den (env P) 0 worktools s = .ok (st, s') → Tepid P s' := by
  have ids : act P .algID s = .ok (.failure, s) ∧ act P .simuID s = .ok (.failure, s) ∧ act P .sacID s = .ok (.failure, s) := by
    simp [act, algebraId, simuId, sacId, hs]
  obtain ⟨a1, a4, a5⟩ := ids
  have pe : ∀ {i a b : Nat} {f g : LeafName} {c : Crash}, act P f s = .ok (.failure, s) → den (env P) 0 (sq i [lf a f, lf b g]) s = .error c → False := by
    intro i a b f g c h h1
    rcases pair_err h1 with ⟨k, hk⟩ | ⟨s1, k, h2, _⟩
    · rw [h] at hk; cases hk
    · rw [h] at h2; cases h2
  have po : ∀ {i a b : Nat} {f g : LeafName} {st : Status} {s' : LS}, act P f s = .ok (.failure, s) →
      den (env P) 0 (sq i [lf a f, lf b g]) s = .ok (st, s') → st = .failure ∧ s' = s := by
    intro i a b f g st s' h h1
    rcases pair_cases h1 with ⟨h2, h3⟩ | ⟨s1, h2, _⟩
    · rw [h] at h3; cases h3; exact ⟨h2, rfl⟩
    · rw [h] at h2; cases h2
  have sf : ∀ {s2 : LS}, den (env P) 0 scTan s = .ok (.failure, s2) → s2 = s := by
    intro s2 h
    rcases scTan_cases h with ⟨_, _, rfl | ⟨hu, _⟩⟩ | ⟨h, _⟩
    · rfl
    · rw [hs] at hu; cases hu
    · cases h
  constructor
  · intro hn c hr
    cases hf : (s.ld s.curr).solvableTan with
    | false => exact work_cold hs hf hr
    | true =>
      obtain ⟨e1, e2⟩ := scTan_old hP hs hf hA (hT _ hs hf hn)
      rw [worktools, den_comp] at hr
      simp only [denComp, dens] at hr
      rcases pri_err hr with hr1 | ⟨s1, h1, hr1⟩
      · exact pe a1 hr1
      obtain ⟨-, rfl⟩ := po a1 h1
      rcases pri_err hr1 with hr2 | ⟨s2, h2, hr2⟩
      · exact e1 _ hr2
      have := sf h2
      subst this
      rcases pri_err hr2 with hr3 | ⟨s3, h3, hr3⟩
      · exact pe a4 hr3
      obtain ⟨-, rfl⟩ := po a4 h3
      rcases pri_err hr3 with hr4 | ⟨s4, h4, hr4⟩
      · exact pe a5 hr4
      rcases pri_err hr4 with hr5 | ⟨s5, h5, hr5⟩
      · obtain ⟨k, hk⟩ := leaf_err hr5
        exact id_never (by simp) hk
      · cases hr5
  · intro st s' h
    rw [worktools, den_comp] at h
    simp only [denComp, dens] at h
    rcases denPri_cons h with ⟨h1, hne⟩ | ⟨s1, h1, g1⟩
    · exact absurd (po a1 h1).1 hne
    obtain ⟨-, rfl⟩ := po a1 h1
    rcases denPri_cons g1 with ⟨h2, hne⟩ | ⟨s2, h2, g2⟩
    · rcases scTan_cases h2 with ⟨rfl, _⟩ | ⟨rfl, hor, sols, hsv⟩
      · exact absurd rfl hne
      have hf : (s1.ld s1.curr).solvableTan = true := hor.resolve_left (by rw [hs]; simp)
      refine tepid_solves hT hsv fun _ hn => ?_
      by_cases hn0 : NoSc (s1.ld s1.curr)
      · exact (scTan_old hP hs hf hA (hT _ hs hf hn0)).2 _ _ h2
      · exfalso
        apply hn0
        obtain ⟨st1, t1, st2, t2, k1, k2, hh⟩ := scTan_parts h2
        have m1 : (t1.ld s1.curr).method = (s1.ld s1.curr).method ∧ t1.curr = s1.curr ∧ ∀ n, t1.solved n = s1.solved n := by
          rcases tanSol_cases k1 with ⟨_, rfl⟩ | ⟨_, t, hm, _, _, _, _, _, _, _, _, _, _, _, hE⟩
          · exact ⟨rfl, rfl, fun _ => rfl⟩
          · cases hm with
            | old => exact ⟨congrArg (fun p => p.2.2.1) hE.fields, hE.curr, hE.soft.solved⟩
            | new hu => rw [hs] at hu; cases hu
        have m2 : t2 = t1 := by
          rcases sc_method k2 with h | ⟨_, h⟩
          · exact h
          · rw [m1.2.1, m1.2.2, hs] at h; cases h
        subst m2
        rcases hh with ⟨-, -, h, -⟩ | ⟨_, k3⟩
        · cases h
        have := rank_method k3 (by rw [m1.2.1]; exact hn)
        rw [m1.2.1] at this
        unfold NoSc at this ⊢
        rw [m1.1] at this
        exact this
    have := sf h2
    subst this
    rcases denPri_cons g2 with ⟨h3, hne⟩ | ⟨s3, h3, g3⟩
    · exact absurd (po a4 h3).1 hne
    obtain ⟨-, rfl⟩ := po a4 h3
    rcases denPri_cons g3 with ⟨h4, hne⟩ | ⟨s4, h4, g4⟩
    · exact absurd (po a5 h4).1 hne
    obtain ⟨-, rfl⟩ := po a5 h4
    rcases denPri_cons g4 with ⟨h5, hne⟩ | ⟨s5, h5, g5⟩
    · exact tepid_x2z2 hT (denLeaf_ok.mp h5)
    · simp only [denPri] at g5
      cases g5
      exact tepid_x2z2 hT (denLeaf_ok.mp h5)

end Verif.Solver
