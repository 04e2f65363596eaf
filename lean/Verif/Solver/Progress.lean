import Verif.Solver.EndToEnd
import Verif.Leaf.Ident
/-!
# C58: the loops are long enough

ikSolver.py:238-241 repeats "give the next unknown to the tools" at most 6 times per round and does at most 10 rounds. For which sets of
equations is that enough?
-/
namespace Verif.Solver
open Verif.Leaf Verif.Eqn Verif.Sol Verif.Sym
open Verif.BT hiding Tree

/-! ## Specification -/

/-- The equations determine the unknowns one after another, in the given order: for each there is an equation linear in it (on one
side), in which no other unknown occurs but earlier ones. -/
def Ladder (P : Sympy) (us : List String) (eqs : KEqn → Prop) (order : List String) : Prop :=
  (∀ x ∈ us, x ∈ order) ∧ (∀ x ∈ order, x ∈ us) ∧
  ∀ pre x post, order = pre ++ x :: post → ∃ e, eqs e ∧ LinearIn P x e ∧ (e.lhs.has x = false ∨ e.rhs.has x = false) ∧
    ∀ y ∈ us, e.lhs.has y = true ∨ e.rhs.has y = true → y = x ∨ y ∈ pre

/-- The equations the user gives which no leaf rewrites: the entries of the matrix equations but the first, and the auxiliary ones. -/
def Given (ms : List MEqn) (aux : List KEqn) (e : KEqn) : Prop := (∃ m ∈ ms.tail, ∃ i j, e = m.entry i j) ∨ e ∈ aux

/-! ## Flags -/

/-- the number of unsolved unknowns -/
def left (s : LS) : Nat := (unsolvedOf s s.w.unknowns).length

theorem left_congr {s s' : LS} (hu : s'.w.unknowns = s.w.unknowns) (hf : ∀ n, s'.solved n = s.solved n) : left s' = left s := by
  unfold left unsolvedOf
  rw [hu]
  congr 2
  funext n
  rw [show (s'.w.unk n).solved = (s.w.unk n).solved from hf n]

theorem left_zero {s : LS} : left s = 0 ↔ ∀ x ∈ s.w.unknowns, s.solved x = true := by
  simp [left, unsolvedOf, LS.solved]

theorem filter_one {α : Type} [DecidableEq α] {p q : α → Bool} {x : α} (hq : ∀ n, n ≠ x → q n = p n) (hqx : q x = false) : ∀ {l : List α}, l.Nodup →
    (l.filter p).length ≤ (l.filter q).length + 1 ∧ (x ∈ l → p x = true → (l.filter p).length = (l.filter q).length + 1) ∧
    (p x = false → (l.filter p).length = (l.filter q).length)
  | [], _ => by simp
  | a :: l, hnd => by
    obtain ⟨ha, hl⟩ := List.nodup_cons.1 hnd
    obtain ⟨h1, h2, h3⟩ := filter_one hq hqx hl
    by_cases hx : a = x
    · subst hx
      have same : l.filter p = l.filter q := by
        apply List.filter_congr
        intro n hn
        exact (hq n (fun h => ha (h ▸ hn))).symm
      rw [List.filter_cons, List.filter_cons, hqx, same]
      cases hp : p a <;> simp
    · rw [List.filter_cons, List.filter_cons, hq a hx]
      cases hp : p a
      · simp only [Bool.false_eq_true, if_false]
        exact ⟨h1, fun hm => h2 ((List.mem_cons.1 hm).resolve_left (Ne.symm hx)), h3⟩
      · simp only [if_true, List.length_cons]
        refine ⟨by omega, fun hm hpx => ?_, fun hpx => by rw [h3 hpx]⟩
        rw [h2 ((List.mem_cons.1 hm).resolve_left (Ne.symm hx)) hpx]

theorem solves_flags {sols : List Expr} {s s' : LS} (h : Solves sols s s') :
    s'.w.unknowns = s.w.unknowns ∧ s'.solved s.curr = true ∧ ∀ n, n ≠ s.curr → s'.solved n = s.solved n := by
  have hst := Sol.setSolved_ok h.w
  refine ⟨hst.unknowns, hst.solved, fun n hn => ?_⟩
  rw [LS.solved, hst.other n hn, setSolutions, Sol.upd_other _ _ hn]; rfl

theorem solves_left {sols : List Expr} {s s' : LS} (h : Solves sols s s') (hnd : s.w.unknowns.Nodup) :
    left s ≤ left s' + 1 ∧ (s.curr ∈ s.w.unknowns → s.solved s.curr = false → left s = left s' + 1) := by
  obtain ⟨hu, hx, ho⟩ := solves_flags h
  have := filter_one (p := fun x => !(s.w.unk x).solved) (q := fun x => !(s'.w.unk x).solved) (x := s.curr)
    (fun n hn => by rw [show (s'.w.unk n).solved = (s.w.unk n).solved from ho n hn])
    (by rw [show (s'.w.unk s.curr).solved = true from hx]; rfl) hnd
  unfold left unsolvedOf
  rw [hu]
  exact ⟨this.1, fun hm hs => this.2.1 hm (by rw [show (s.w.unk s.curr).solved = false from hs]; rfl)⟩

/-! ## One attempt, one inner loop -/

/-- What a successful attempt did. -/
inductive Won (s s' : LS) : Prop where
  | solved {s1 : LS} {sols : List Expr} : CurrOk s1 → (s1.solved s1.curr = false ∨ (s1.ld s1.curr).solvableTan = true) → s1.w = s.w → s1.ms = s.ms →
      s1.aux = s.aux → s1.lists = s.lists → Solves sols s1 s' → (∀ x, Settled s' x → Settled s1 x) → Won s s'
  | added {e : KEqn} : s'.w = s.w → s'.ms = s.ms → s'.aux = s.aux ++ [e] → s'.lists = s.lists → Won s s'

/-- What a failed attempt changed: marks of unknowns, counter, current unknown. -/
structure Idle (s s' : LS) : Prop where
  w : s'.w = s.w
  ms : s'.ms = s.ms
  aux : s'.aux = s.aux
  lists : s'.lists = s.lists

theorem Idle.refl (s : LS) : Idle s s := ⟨rfl, rfl, rfl, rfl⟩
theorem Idle.trans {a b c : LS} (h : Idle a b) (h' : Idle b c) : Idle a c :=
  ⟨h'.w.trans h.w, h'.ms.trans h.ms, h'.aux.trans h.aux, h'.lists.trans h.lists⟩
theorem Won.of_idle {a b c : LS} (h : Idle a b) (h' : Won b c) : Won a c := by
  cases h' with
  | solved h1 h2 h3 h4 h5 h6 h7 h8 =>
    exact .solved h1 h2 (h3.trans h.w) (h4.trans h.ms) (h5.trans h.aux) (h6.trans h.lists) h7 h8
  | added h1 h2 h3 h4 => exact .added (h1.trans h.w) (h2.trans h.ms) (by rw [h3, h.aux]) (h4.trans h.lists)

theorem attempt_result {P : Sympy} {s s' : LS} {st : Status} (h : den (env P) 0 attempt s = .ok (st, s')) :
    ∃ s1, assigner s = .ok (.success, s1) ∧ ((st = .success ∧ Won s s') ∨ (st = .failure ∧ Idle s s' ∧ s'.counter = s1.counter)) := by
  obtain ⟨s1, h1, h2⟩ := attempt_cases h
  refine ⟨s1, h1, ?_⟩
  obtain ⟨-, c, x, hx, rfl, ho⟩ := assigner_cases h1
  rcases work_cases h2 with ⟨rfl, hq⟩ | ⟨rfl, hu, sols, hs⟩ | ⟨rfl, s2, hq, ha⟩
  · exact .inr ⟨rfl, ⟨hq.w, hq.ms, hq.aux, hq.lists⟩, hq.counter⟩
  · exact .inl ⟨rfl, .solved ⟨hx, ho⟩ hu rfl rfl rfl rfl hs fun x h => settled_back (.one (.work ⟨hx, ho⟩ h2)) h⟩
  · obtain ⟨e, he⟩ := ha.rest
    refine .inl ⟨rfl, .added (e := e) ?_ ?_ ?_ ?_⟩
    · rw [he]; exact hq.w
    · rw [he]; exact hq.ms
    · rw [he]; simp only [hq.aux]
    · rw [he]; exact hq.lists

/-- The unknown can be solved by the algebra leaf. -/
def Ripe (P : Sympy) (s : LS) (x : String) : Prop := s.solved x = false ∧ ∃ e ∈ s.lists.l1, LinearIn P x e

/-- An unknown handed to the tools when it is ripe is solved. -/
theorem work_ripe {P : Sympy} {G} (hP : P.Sound G) (hr : ∀ a b x, (P.ratio a b).has x = true → a.has x = true ∨ b.has x = true)
    {s s' : LS} {st : Status} (hx : Ripe P s s.curr) (h : den (env P) 0 worktools s = .ok (st, s')) : st = .success := by
  obtain ⟨hs, e, he, hl⟩ := hx
  obtain ⟨e', he'⟩ := exists_first ⟨e, he, hl⟩
  have hid := C57_algebra.2 ⟨hs, e', he', rfl⟩
  rw [worktools, lf, den, dens, dens, dens, dens, dens, dens, denComp] at h
  have hsucc : ∀ {st s'}, den (env P) 0 algSol s = .ok (st, s') → st = .success := by
    intro st s' h
    rcases pair_cases h with ⟨_, h1⟩ | ⟨s1, h1, h2⟩
    · rw [show act P .algID s = algebraId P s from rfl, hid] at h1; cases h1
    · rw [show act P .algID s = algebraId P s from rfl, hid] at h1
      obtain ⟨_, _, _, _, ⟨_, _, _, A, B, hlin, hne⟩⟩ := he'
      cases h1
      have hm : linearMatch P (P.collectU s.curr (P.sub e'.rhs e'.lhs)) s.curr = some (A, B) := linearMatch_some.2 ⟨hlin, hne⟩
      have hf := hP.lin_free hlin (.sym s.curr) (by simp)
      rw [occurs_sym, occurs_sym] at hf
      have hsol : (quot P (.num 0) B A).has s.curr = false := by
        cases hq : (quot P (.num 0) B A).has s.curr with
        | false => rfl
        | true =>
          rcases hr _ _ _ hq with h | h
          · rcases hP.sub_has _ _ _ h with h | h
            · simp [Expr.has] at h
            · rw [hf.2] at h; cases h
          · rw [hf.1] at h; cases h
      have h3 : algebraSolve P _ = .ok (st, s') := h2
      unfold algebraSolve at h3
      simp only [if_true, Bool.true_and, List.contains_eq_mem, List.mem_append, List.mem_singleton, or_true, decide_true, hm] at h3
      rw [if_neg (by rw [hsol]; simp)] at h3
      split at h3
      · cases h3
      · cases h3; rfl
  rcases denPri_cons h with ⟨h1, _⟩ | ⟨s1, h1, _⟩
  · exact hsucc h1
  · cases hsucc h1

/-- The unknown is handed out within the next j ticks of the assigner, if no flag changes. -/
def Due (j : Nat) (s : LS) (x : String) : Prop := ∃ i xs t, i ≤ j ∧ hands i s = .ok (xs, t) ∧ x ∈ xs

theorem assignFind_congr {s s' : LS} (hw : s'.w = s.w) : ∀ {l : List String} {i : Nat}, assignFind s' i l = assignFind s i l
  | [], _ => rfl
  | x :: l, i => by
    rw [assignFind, assignFind, show s'.solved x = s.solved x by rw [LS.solved, hw]; rfl, assignFind_congr hw]

theorem assigner_congr {s s' t : LS} (hw : s'.w = s.w) (hc : s'.counter = s.counter) (h : assigner s = .ok (.success, t)) :
    assigner s' = .ok (.success, { s' with counter := t.counter, curr := t.curr }) := by
  unfold assigner at h ⊢
  rw [assignFind_congr hw, hw, hc]
  split at h
  · cases h; rfl
  · split at h
    · cases h
    · cases h; rfl

theorem hands_congr : ∀ {i : Nat} {s s' t : LS} {xs : List String}, s'.w = s.w → s'.counter = s.counter → hands i s = .ok (xs, t) →
    ∃ t', hands i s' = .ok (xs, t')
  | 0, s, s', t, xs, hw, hc, h => by cases h; exact ⟨s', rfl⟩
  | i + 1, s, s', t, xs, hw, hc, h => by
    rw [hands] at h
    split at h
    · cases h
    next st s1 ha =>
    split at h
    · cases h
    next xs' s2 hh =>
    cases h
    have hs := assigner_cases ha
    obtain ⟨rfl, c, x, _, rfl, _⟩ := hs
    have ha' := assigner_congr hw hc ha
    obtain ⟨t', ht'⟩ := hands_congr (s := { s with counter := c, curr := x }) (s' := { s' with counter := c, curr := x }) hw rfl hh
    exact ⟨t', by rw [hands, ha']; simp only [ht']⟩

theorem Due.congr {j : Nat} {s s' : LS} {x : String} (hw : s'.w = s.w) (hc : s'.counter = s.counter) (h : Due j s x) : Due j s' x := by
  obtain ⟨i, xs, t, hi, h, hx⟩ := h
  obtain ⟨t', ht'⟩ := hands_congr hw hc h
  exact ⟨i, xs, t', hi, ht', hx⟩

theorem Due.mono {j j' : Nat} {s : LS} {x : String} (h : Due j s x) (hj : j ≤ j') : Due j' s x := by
  obtain ⟨i, xs, t, hi, h, hx⟩ := h
  exact ⟨i, xs, t, by omega, h, hx⟩

theorem not_due_zero {s : LS} {x : String} : ¬ Due 0 s x := by
  rintro ⟨i, xs, t, hi, h, hx⟩
  obtain rfl : i = 0 := by omega
  cases h; cases hx

theorem due_unsolved {s : LS} {x : String} (hx : x ∈ s.w.unknowns) (hs : s.solved x = false) : Due (left s + 1) s x := by
  cases hu : s.w.unknowns with
  | nil => rw [hu] at hx; cases hx
  | cons y l =>
    obtain ⟨c, z, h⟩ := C42_round_partial hu
    exact ⟨_, _, _, le_refl _, h, C42_no_starvation h hx hs⟩

/-- A failed attempt brings a ripe unknown one tick nearer. -/
theorem due_next {P : Sympy} {G} (hP : P.Sound G) (hr : ∀ a b x, (P.ratio a b).has x = true → a.has x = true ∨ b.has x = true)
    {s s' : LS} {x : String} {j : Nat} (hx : Ripe P s x) (hd : Due (j + 1) s x) (h : den (env P) 0 attempt s = .ok (.failure, s')) :
    Due j s' x ∧ Ripe P s' x := by
  obtain ⟨s1, h1, h2⟩ := attempt_cases h
  obtain ⟨s1', h1', hres⟩ := attempt_result h
  rw [h1] at h1'; cases h1'
  obtain ⟨h, _⟩ | ⟨-, hi, hc⟩ := hres
  · cases h
  have hripe' : Ripe P s' x := by
    obtain ⟨ha, e, he, hl⟩ := hx
    exact ⟨by rw [LS.solved, hi.w]; exact ha, e, by rw [hi.lists]; exact he, hl⟩
  refine ⟨?_, hripe'⟩
  obtain ⟨i, xs, t, hij, hh, hxs⟩ := hd
  cases i with
  | zero => cases hh; cases hxs
  | succ i =>
    rw [hands, h1] at hh
    dsimp only at hh
    split at hh
    · cases hh
    next xs' s2 hh' =>
    cases hh
    obtain ⟨-, c, y, _, rfl, _⟩ := assigner_cases h1
    rcases List.mem_cons.1 hxs with rfl | hxs
    · have := work_ripe hP hr (s := { s with counter := c, curr := x }) hx h2
      cases this
    · obtain ⟨t', ht'⟩ := hands_congr (s := { s with counter := c, curr := y }) (s' := s') hi.w hc hh'
      exact ⟨i, xs', t', by omega, ht', hxs⟩

/-- The failed attempts of an inner loop. -/
theorem runs_due {P : Sympy} {G} (hP : P.Sound G) (hr : ∀ a b x, (P.ratio a b).has x = true → a.has x = true ∨ b.has x = true)
    {s s' : LS} {x : String} {l : List LS} (h : Runs (den (env P) 0 attempt) s l s') : ∀ {j : Nat}, Ripe P s x → Due j s x →
      l.length < j ∧ Due (j - l.length) s' x ∧ Ripe P s' x := by
  induction h with
  | nil =>
    intro j hx hd
    refine ⟨?_, by simpa using hd, hx⟩
    cases j with
    | zero => exact absurd hd not_due_zero
    | succ j => simp
  | @cons u u1 l u' hf _ ih =>
    intro j hx hd
    cases j with
    | zero => exact absurd hd not_due_zero
    | succ j =>
      obtain ⟨hd', hx'⟩ := due_next hP hr hx hd hf
      obtain ⟨h1, h2, h3⟩ := ih hx' hd'
      exact ⟨by simp; omega, by simpa using h2, h3⟩

theorem runs_idle {P : Sympy} {s s' : LS} {l : List LS} (h : Runs (den (env P) 0 attempt) s l s') : Idle s s' := by
  induction h with
  | nil => exact .refl _
  | cons hf _ ih =>
    obtain ⟨s1, _, ⟨h, _⟩ | ⟨_, hi, _⟩⟩ := attempt_result hf
    · cases h
    · exact hi.trans ih

/-- The inner loop: it wins, or changed nothing in six attempts. -/
theorem subtree_result {P : Sympy} {s s' : LS} {st : Status} (h : den (env P) 0 subtree s = .ok (st, s')) :
    (st = .success ∧ Won s s') ∨ (st = .failure ∧ Idle s s') := by
  rw [subtree, den] at h
  obtain ⟨l, u1, hrun, h1, _, _⟩ := denUntil h (by decide)
  have hi := runs_idle hrun
  obtain ⟨s1, _, ⟨rfl, hw⟩ | ⟨rfl, hi', _⟩⟩ := attempt_result h1
  · exact .inl ⟨rfl, hw.of_idle hi⟩
  · exact .inr ⟨rfl, hi.trans hi'⟩

/-- The inner loop with a ripe unknown: if it fails, the unknown is six ticks nearer. -/
theorem subtree_ripe {P : Sympy} {G} (hP : P.Sound G) (hr : ∀ a b x, (P.ratio a b).has x = true → a.has x = true ∨ b.has x = true)
    {s s' : LS} {st : Status} {x : String} {j : Nat} (hx : Ripe P s x) (hd : Due j s x) (h : den (env P) 0 subtree s = .ok (st, s')) :
    (st = .success ∧ Won s s') ∨ (st = .failure ∧ Idle s s' ∧ 6 < j ∧ Due (j - 6) s' x) := by
  rcases subtree_result h with h' | ⟨rfl, hi⟩
  · exact .inl h'
  rw [subtree, den] at h
  obtain ⟨l, u1, hrun, h1, _, hl⟩ := denUntil h (by decide)
  have hl : l.length + 1 = 6 := hl rfl
  obtain ⟨g1, g2, g3⟩ := runs_due hP hr hrun hx hd
  have g2' : Due (j - 6 + 1) u1 x := g2.mono (by omega)
  obtain ⟨g4, _⟩ := due_next hP hr g3 g2' h1
  refine .inr ⟨rfl, hi, ?_, g4⟩
  by_contra hc
  rw [show j - 6 = 0 by omega] at g4
  exact not_due_zero g4

/-! ## One round -/

/-- What one round did: SUCCESS or FAILURE of the inner loop, then the lists are made again. -/
theorem round_result {P : Sympy} {s s' : LS} {st : Status} (h : den (env P) 0 solveRoutine s = .ok (st, s')) :
    ∃ s1, subTransform P s = .ok (.success, s1) ∧
      ((den (env P) 0 subtree s1 = .ok (.failure, s') ∧ st = .failure) ∨
       ∃ s2 L, den (env P) 0 subtree s1 = .ok (.success, s2) ∧ updateL P.toCAS s2.ms s2.aux s2.vars = .ok L ∧ s' = { s2 with lists := L } ∧
        (st = .success ↔ ∀ x ∈ s'.w.unknowns, s'.solved x = true)) := by
  rw [solveRoutine, sq, lf, lf, lf, den, dens, dens, dens, dens, dens, denComp] at h
  rcases denSeq_cons h with ⟨h1, hne⟩ | ⟨s1, h1, h⟩
  · exact absurd (subTransform_cases (denLeaf_ok.mp h1)).1 hne
  refine ⟨s1, denLeaf_ok.mp h1, ?_⟩
  rcases denSeq_cons h with ⟨h2, hne⟩ | ⟨s2, h2, h⟩
  · rcases subtree_result h2 with ⟨rfl, _⟩ | ⟨rfl, _⟩
    · exact absurd rfl hne
    · exact .inl ⟨h2, rfl⟩
  right
  rcases denSeq_cons h with ⟨h3, hne⟩ | ⟨s3, h3, h⟩
  · exact absurd (updateLeaf_cases (denLeaf_ok.mp h3)).1 hne
  obtain ⟨-, L, hL, rfl⟩ := updateLeaf_cases (denLeaf_ok.mp h3)
  have h4 : compDetect false { s2 with lists := L } = .ok (st, s') := by
    rcases denSeq_cons h with ⟨h4, hne⟩ | ⟨s4, h4, h⟩
    · exact denLeaf_ok.mp h4
    · simp only [denSeq] at h; cases h; exact denLeaf_ok.mp h4
  rw [compDetect_eq] at h4
  cases h4
  refine ⟨s2, L, h2, hL, rfl, ?_⟩
  split <;> simp_all

theorem won_left {s s' : LS} (h : Won s s') (hnd : s.w.unknowns.Nodup) : left s ≤ left s' + 1 ∧ s'.w.unknowns = s.w.unknowns := by
  cases h with
  | @solved s1 sols h1 h2 h3 h4 h5 h6 h7 h8 =>
    have e1 : left s1 = left s := left_congr (by rw [h3]) (fun n => by rw [LS.solved, h3]; rfl)
    have := (solves_left h7 (by rw [h3]; exact hnd)).1
    exact ⟨by omega, by rw [(solves_flags h7).1, h3]⟩
  | added h1 =>
    have e1 : left s' = left s := left_congr (by rw [h1]) (fun n => by rw [LS.solved, h1]; rfl)
    exact ⟨by omega, by rw [h1]⟩

/-- A round solves at most one unknown. -/
theorem round_left {P : Sympy} {s s' : LS} {st : Status} (h : den (env P) 0 solveRoutine s = .ok (st, s')) (hnd : s.w.unknowns.Nodup) :
    left s ≤ left s' + 1 ∧ s'.w.unknowns = s.w.unknowns := by
  obtain ⟨s1, h1, h2⟩ := round_result h
  have hw := (subTransform_cases h1).2.1
  have e1 : left s1 = left s := left_congr (by rw [hw]) (fun n => by rw [LS.solved, hw]; rfl)
  rcases h2 with ⟨h2, _⟩ | ⟨s2, L, h2, _, rfl, _⟩
  · rcases subtree_result h2 with ⟨h, _⟩ | ⟨_, hi⟩
    · cases h
    · have e2 : left s' = left s1 := left_congr (by rw [hi.w]) (fun n => by rw [LS.solved, hi.w]; rfl)
      exact ⟨by omega, by rw [hi.w, hw]⟩
  · rcases subtree_result h2 with ⟨_, hwon⟩ | ⟨h, _⟩
    · obtain ⟨g1, g2⟩ := won_left hwon (by rw [hw]; exact hnd)
      have e2 : left { s2 with lists := L } = left s2 := left_congr rfl (fun n => rfl)
      exact ⟨by omega, by rw [show ({ s2 with lists := L } : LS).w.unknowns = s2.w.unknowns from rfl, g2, hw]⟩
    · cases h

theorem left_init {us : List String} {ms : List MEqn} {aux : List KEqn} {L : Lists} : left (init us ms aux L) = us.length := by
  simp [left, unsolvedOf, init, Sol.start]

/-- C58, what is false for large systems: whatever the equations, a run on more than ten (different) unknowns never returns SUCCESS. -/
theorem C58_more_than_ten_violation {P : Sympy} {us : List String} {ms : List MEqn} {aux : List KEqn} {st : Status} {s : LS}
    (hnd : us.Nodup) (hn : 10 < us.length) {counter : Nat} (h : solve P us ms aux counter = .ok (st, s)) :
    st = .failure ∧ us.length ≤ (us.filter fun x => !(s.w.unk x).solved).length + 10 := by
  obtain ⟨hu, _, hfail⟩ := C45_success_iff_all_solved h
  rw [solve_eq] at h
  split at h
  · cases h
  next L hL =>
  rw [topnode, den] at h
  obtain ⟨l, u1, hr, h1, hl, _⟩ := denUntil h (by decide)
  have key : ∀ {a b : LS} {l : List LS}, Runs (den (env P) 0 solveRoutine) a l b → a.w.unknowns = us →
      left a ≤ left b + l.length ∧ b.w.unknowns = us := by
    intro a b l hr
    induction hr with
    | nil => intro h; exact ⟨by simp, h⟩
    | cons hf _ ih =>
      intro h
      obtain ⟨g1, g2⟩ := round_left hf (by rw [h]; exact hnd)
      obtain ⟨g3, g4⟩ := ih (g2.trans h)
      exact ⟨by simp; omega, g4⟩
  obtain ⟨g1, g2⟩ := key hr rfl
  obtain ⟨g3, _⟩ := round_left h1 (by rw [g2]; exact hnd)
  have g0 : left { init us ms aux L with counter := counter } = us.length := left_init (ms := ms) (aux := aux) (L := L)
  rw [init] at g0
  rw [g0] at g1
  have hl : l.length < 10 := hl
  have hle : us.length ≤ left s + 10 := by omega
  have hles : left s = (us.filter fun x => !(s.w.unk x).solved).length := by rw [left, hu]; rfl
  refine ⟨?_, by omega⟩
  rw [hfail]
  by_contra hc
  have : left s = 0 := by
    rw [left_zero, hu]
    intro x hx
    cases hs : s.solved x with
    | true => rfl
    | false => exact absurd ⟨x, hx, hs⟩ hc
  omega

/-! ## Small triangular systems are solved -/

/-- Every given equation with one unsolved unknown has its like in the list of such equations. -/
def Synced (P : Sympy) (ms : List MEqn) (aux : List KEqn) (s : LS) : Prop :=
  ∀ e, Given ms aux e → cls s.vars e = 1 → ∃ e' ∈ s.lists.l1, SameEqn P.toCAS e' e

theorem cls_one {s : LS} {x : String} {e : KEqn} (hnd : s.w.unknowns.Nodup) (hx : x ∈ s.w.unknowns) (hs : s.solved x = false)
    (hh : e.lhs.has x = true ∨ e.rhs.has x = true) (h1 : e.lhs.has x = false ∨ e.rhs.has x = false)
    (ho : ∀ y ∈ s.w.unknowns, e.lhs.has y = true ∨ e.rhs.has y = true → y = x ∨ s.solved y = true) : cls s.vars e = 1 := by
  have hcount : ∀ t : Expr, (t.has x = true → ∀ y ∈ s.w.unknowns, t.has y = true → y = x ∨ s.solved y = true) →
      countUnknowns s.vars t = (s.w.unknowns.filter fun n => t.has n && !(s.w.unk n).solved).length := by
    intro t _
    rw [countUnknowns_eq]
    unfold getUnknowns
    rw [foldl_filter (p := fun u : Var => t.has u.name && u.solved == false), List.nil_append, LS.vars, List.filter_map, List.length_map]
    congr 2
    funext n; simp
  have hone : ∀ t : Expr, t.has x = true → (∀ y ∈ s.w.unknowns, t.has y = true → y = x ∨ s.solved y = true) →
      countUnknowns s.vars t = 1 := by
    intro t ht hy
    rw [hcount t (fun _ => hy)]
    have : s.w.unknowns.filter (fun n => t.has n && !(s.w.unk n).solved) = s.w.unknowns.filter (fun n => n == x) := by
      apply List.filter_congr
      intro n hn
      by_cases hnx : n = x
      · subst hnx; rw [ht, show (s.w.unk n).solved = false from hs]; simp
      · have : (n == x) = false := by simpa using hnx
        rw [this]
        cases htn : t.has n with
        | false => rfl
        | true =>
          rw [show (s.w.unk n).solved = true from (hy n hn htn).resolve_left hnx]; rfl
    rw [this, ← List.countP_eq_length_filter]
    exact List.count_eq_one_of_mem hnd hx
  have hzero : ∀ t : Expr, t.has x = false → (∀ y ∈ s.w.unknowns, t.has y = true → y = x ∨ s.solved y = true) →
      countUnknowns s.vars t = 0 := by
    intro t ht hy
    rw [hcount t (fun _ => hy), List.length_eq_zero_iff, List.filter_eq_nil_iff]
    intro n hn
    cases htn : t.has n with
    | false => simp
    | true =>
      rcases hy n hn htn with rfl | h
      · rw [ht] at htn; cases htn
      · rw [show (s.w.unk n).solved = true from h]; simp
  unfold cls
  rcases hh with hh | hh
  · have h2 : e.rhs.has x = false := by
      rcases h1 with h1 | h1
      · rw [hh] at h1; cases h1
      · exact h1
    rw [hone e.lhs hh (fun y hy h => ho y hy (.inl h)), hzero e.rhs h2 (fun y hy h => ho y hy (.inr h))]; rfl
  · have h2 : e.lhs.has x = false := by
      rcases h1 with h1 | h1
      · exact h1
      · rw [hh] at h1; cases h1
    rw [hone e.rhs hh (fun y hy h => ho y hy (.inr h)), hzero e.lhs h2 (fun y hy h => ho y hy (.inl h))]; rfl

theorem scan_synced {P : Sympy} (hrefl : ∀ a, P.eqv a a = true) {ms ms' : List MEqn} {aux aux' : List KEqn} {L : Lists} {vs : List Var}
    (ht : ms'.tail = ms.tail) (ha : ∀ e ∈ aux, e ∈ aux') (h : scanForEquations P.toCAS ms' aux' vs = .ok L) :
    ∀ e, Given ms aux e → cls vs e = 1 → ∃ e' ∈ L.l1, SameEqn P.toCAS e' e := by
  have hg := C21_scan_general P.toCAS hrefl ms' aux' vs
  have hne : ms' ≠ [] := by
    rintro rfl
    rw [hg.1 rfl] at h; cases h
  obtain ⟨L', hL', hk⟩ := hg.2 hne
  rw [h] at hL'; cases hL'
  obtain ⟨-, k2, k3⟩ := hk 1 (by omega) (by omega)
  rintro e (⟨m, hm, i, j, rfl⟩ | he) hc
  · rw [← ht] at hm
    exact k2 m (List.mem_of_mem_tail hm) i j hc
  · exact ⟨e, k3 e (ha e he) hc (by omega), hrefl _, hrefl _⟩

theorem updAux_l1 {c : CAS} {vs : List Var} : ∀ {aux : List KEqn} {L : Lists} {e : KEqn}, e ∈ L.l1 → e ∈ (aux.foldl (updAux c vs) L).l1
  | [], _, _, h => h
  | a :: aux, L, e, h => by
    rw [List.foldl_cons]
    apply updAux_l1
    unfold updAux
    dsimp only
    split
    · simp [h]
    · split
      · exact h
      · split <;> exact h

theorem update_synced {P : Sympy} (hrefl : ∀ a, P.eqv a a = true) {ms ms' : List MEqn} {aux aux' : List KEqn} {L : Lists} {vs : List Var}
    (ht : ms'.tail = ms.tail) (ha : ∀ e ∈ aux, e ∈ aux') (h : updateL P.toCAS ms' aux' vs = .ok L) :
    ∀ e, Given ms aux e → cls vs e = 1 → ∃ e' ∈ L.l1, SameEqn P.toCAS e' e := by
  unfold updateL at h
  split at h
  · cases h
  next L' hL' =>
  cases h
  intro e he hc
  obtain ⟨e', h1, h2⟩ := scan_synced hrefl ht ha hL' e he hc
  exact ⟨e', updAux_l1 h1, h2⟩

/-- What holds at the start of every round, in a run ending in `z`. -/
structure Steady (P : Sympy) (us : List String) (ms : List MEqn) (aux : List KEqn) (z s : LS) : Prop where
  path : Path P s z
  unknowns : s.w.unknowns = us
  tail : s.ms.tail = ms.tail
  kept : ∀ e ∈ aux, e ∈ s.aux
  synced : Synced P ms aux s

theorem vars_congr {s s' : LS} (h : s'.w = s.w) : s'.vars = s.vars := by rw [LS.vars, h]; rfl

/-- sub_transform at the start of a round -/
theorem steady_sub {P : Sympy} (hrefl : ∀ a, P.eqv a a = true) {us : List String} {ms : List MEqn} {aux : List KEqn} {z s s1 : LS}
    (hg : Steady P us ms aux z s) (h : subTransform P s = .ok (.success, s1)) :
    s1.w.unknowns = us ∧ s1.ms.tail = ms.tail ∧ s1.aux = s.aux ∧ s1.w = s.w ∧ s1.counter = s.counter ∧ Synced P ms aux s1 := by
  obtain ⟨-, hw, _, haux, _, hc, _⟩ := subTransform_cases h
  have hv := vars_congr hw
  unfold subTransform at h
  split at h
  · cases h
  next m ms' hm =>
  have htail : ms' = ms.tail := by have := hg.tail; rw [hm] at this; exact this
  dsimp only at h
  split at h
  · split at h
    · cases h
    next L hL =>
    cases h
    refine ⟨hg.unknowns, htail, rfl, rfl, rfl, ?_⟩
    exact scan_synced hrefl (by exact htail) hg.kept hL
  · cases h
    exact ⟨hg.unknowns, htail, rfl, rfl, rfl, hg.synced⟩

/-- The first unsolved unknown in the order of the ladder. -/
def Next (order : List String) (s : LS) (x : String) : Prop :=
  ∃ pre post, order = pre ++ x :: post ∧ s.solved x = false ∧ ∀ y ∈ pre, s.solved y = true

theorem next_exists {s : LS} : ∀ {l : List String}, (∃ x ∈ l, s.solved x = false) → ∃ x, Next l s x
  | [], ⟨x, hx, _⟩ => by cases hx
  | a :: l, ⟨x, hx, hs⟩ => by
    cases ha : s.solved a with
    | false => exact ⟨a, [], l, rfl, ha, by simp⟩
    | true =>
      have : ∃ x ∈ l, s.solved x = false := by
        rcases List.mem_cons.1 hx with rfl | hx
        · rw [ha] at hs; cases hs
        · exact ⟨x, hx, hs⟩
      obtain ⟨y, pre, post, g1, g2, g3⟩ := next_exists this
      refine ⟨y, a :: pre, post, by rw [g1]; rfl, g2, fun w hw => ?_⟩
      rcases List.mem_cons.1 hw with rfl | hw
      · exact ha
      · exact g3 w hw

theorem Next.congr {order : List String} {s s' : LS} {x : String} (hw : s'.w = s.w) (h : Next order s x) : Next order s' x := by
  obtain ⟨pre, post, h1, h2, h3⟩ := h
  exact ⟨pre, post, h1, by rw [LS.solved, hw]; exact h2, fun y hy => by rw [LS.solved, hw]; exact h3 y hy⟩

/-- With lists made for the present flags, the next unknown of the ladder is ripe. -/
theorem Next.ripe {P : Sympy} {us order : List String} {ms : List MEqn} {aux : List KEqn} {s : LS} {x : String} (hnd : us.Nodup)
    (hlad : Ladder P us (Given ms aux) order)
    (hresp : ∀ x e e', SameEqn P.toCAS e' e → LinearIn P x e → LinearIn P x e')
    (hu : s.w.unknowns = us) (hsy : Synced P ms aux s) (hn : Next order s x) : x ∈ us ∧ Ripe P s x := by
  obtain ⟨h1, h2, h3⟩ := hlad
  obtain ⟨pre, post, ho, hs, hpre⟩ := hn
  have hxus : x ∈ us := h2 x (by rw [ho]; simp)
  obtain ⟨e, heq, hlin, hside, hother⟩ := h3 pre x post ho
  refine ⟨hxus, hs, ?_⟩
  have hc := cls_one (s := s) (x := x) (e := e) (by rw [hu]; exact hnd) (by rw [hu]; exact hxus) hs hlin.1 hside (by
    intro y hy hh
    rw [hu] at hy
    rcases hother y hy hh with h | h
    · exact .inl h
    · exact .inr (hpre y h))
  obtain ⟨e', he', hsame⟩ := hsy e heq hc
  exact ⟨e', he', hresp x e e' hsame hlin⟩

/-- the rounds needed for k unsolved unknowns and a added equations -/
def need (k a : Nat) : Nat := if k ≤ 5 then k + a else 2 * k - 5 + 2 * a

/-- The rounds still needed: `n`; or `n + 1`, when the last round missed and some ripe unknown comes next. -/
def Pot (P : Sympy) (us order : List String) (ms : List MEqn) (aux : List KEqn) (z s : LS) (n : Nat) : Prop :=
  Steady P us ms aux z s ∧ (need (left s) (z.aux.length - s.aux.length) ≤ n ∨
    (6 ≤ left s ∧ need (left s) (z.aux.length - s.aux.length) ≤ n + 1 ∧ ∃ x, Next order s x ∧ Due 6 s x))

theorem aux_grows {P : Sympy} {a b : LS} (h : Path P a b) : a.aux.length ≤ b.aux.length := by
  induction h with
  | refl => exact le_refl _
  | @tail b c _ hs ih =>
    refine le_trans ih ?_
    cases hs with
    | assign h => obtain ⟨-, c, x, _, rfl, -⟩ := assigner_cases h; exact le_refl _
    | work _ h =>
      rcases work_cases h with ⟨_, hq⟩ | ⟨_, _, sols, hs⟩ | ⟨_, s1, hq, ha⟩
      · rw [hq.aux]
      · rw [hs.aux]
      · obtain ⟨e, he⟩ := ha.rest
        rw [he]; simp [hq.aux]
    | sub h => rw [(subTransform_cases h).2.2.2.1]
    | upd h => obtain ⟨-, L, _, rfl⟩ := updateLeaf_cases h; exact le_refl _

/-- Paths of the parts of a round. -/
theorem round_paths {P : Sympy} {s s1 s2 : LS} {st : Status} (h1 : subTransform P s = .ok (.success, s1))
    (h2 : den (env P) 0 subtree s1 = .ok (st, s2)) : Path P s s2 := (Path.one (.sub h1)).trans (subtree_cases h2).1

/-- A win, in a run in which the first unknown is never marked for the tangent rule. -/
theorem won_progress {s s' : LS} (h : Won s s') (hnd : s.w.unknowns.Nodup) (hz : ∀ x, Settled s' x) :
    (left s = left s' + 1 ∧ s'.aux = s.aux) ∨ (left s' = left s ∧ ∃ e, s'.aux = s.aux ++ [e]) := by
  cases h with
  | @solved s1 sols h1 h2 h3 h4 h5 h6 h7 h8 =>
    left
    have e1 : left s1 = left s := left_congr (by rw [h3]) (fun n => by rw [LS.solved, h3]; rfl)
    have hun : s1.solved s1.curr = false := by
      rcases h1.2 with h | h
      · exact h
      · rcases h8 _ (hz s1.curr) with h' | h'
        · exact absurd h h'
        · rcases h2 with h2 | h2
          · exact h2
          · rw [h'] at h2; cases h2
    have := (solves_left h7 (by rw [h3]; exact hnd)).2 h1.1 hun
    exact ⟨by omega, by rw [h7.aux, h5]⟩
  | added h1 _ h3 _ =>
    exact .inr ⟨left_congr (by rw [h1]) (fun n => by rw [LS.solved, h1]; rfl), _, h3⟩

theorem won_ms {s s' : LS} (h : Won s s') : s'.ms = s.ms := by
  cases h with
  | solved h1 h2 h3 h4 h5 h6 h7 h8 => rw [h7.ms, h4]
  | added _ h2 _ _ => exact h2

/-- A round of a run that ends in `z`, with a need of at most `n` more rounds: afterwards one less. -/
theorem round_pot {P : Sympy} {G} (hP : P.Sound G) (hr : ∀ a b x, (P.ratio a b).has x = true → a.has x = true ∨ b.has x = true)
    (hrefl : ∀ a, P.eqv a a = true) (hresp : ∀ x e e', SameEqn P.toCAS e' e → LinearIn P x e → LinearIn P x e')
    {us order : List String} {ms : List MEqn} {aux : List KEqn} (hnd : us.Nodup) (hlad : Ladder P us (Given ms aux) order)
    {s s' z : LS} {n : Nat} (hz : ∀ x, Settled z x) (hn : n ≤ 12) (hp : Pot P us order ms aux z s n)
    (h : den (env P) 0 solveRoutine s = .ok (.failure, s')) (hpath : Path P s' z) (hex : ∃ x ∈ us, s.solved x = false) :
    ∃ n', n = n' + 1 ∧ Pot P us order ms aux z s' n' := by
  obtain ⟨hg, hpot⟩ := hp
  obtain ⟨s1, h1, h2⟩ := round_result h
  obtain ⟨g1, g2, g3, g4, g5, g6⟩ := steady_sub hrefl hg h1
  have hl1 : left s1 = left s := left_congr (by rw [g4]) (fun n => by rw [LS.solved, g4]; rfl)
  have hpos : 0 < left s := by
    rcases Nat.eq_zero_or_pos (left s) with h0 | h0
    · rw [left_zero, hg.unknowns] at h0
      obtain ⟨x, hx, hs⟩ := hex
      rw [h0 x hx] at hs; cases hs
    · exact h0
  have hgrow := aux_grows hpath
  -- a hit
  have hit : ∀ s2, Won s1 s2 → Path P s2 z → left s2 + 1 = left s ∧ s2.aux = s.aux ∨
      left s2 = left s ∧ ∃ e, s2.aux = s.aux ++ [e] := by
    intro s2 hw hp2
    rcases won_progress hw (by rw [g1]; exact hnd) (fun x => settled_back hp2 (hz x)) with ⟨a, b⟩ | ⟨a, e, b⟩
    · exact .inl ⟨by omega, by rw [b, g3]⟩
    · exact .inr ⟨by omega, e, by rw [b, g3]⟩
  have hit2 : ∀ s2 L, Won s1 s2 → updateL P.toCAS s2.ms s2.aux s2.vars = .ok L → s' = { s2 with lists := L } →
      Steady P us ms aux z s' ∧ (left s' + 1 = left s ∧ s'.aux = s.aux ∨ left s' = left s ∧ s'.aux.length = s.aux.length + 1) := by
    intro s2 L hw hL he
    subst he
    have hp2 : Path P s2 z := (Path.one (.upd (by unfold updateLeaf; rw [hL]))).trans hpath
    have hc := hit s2 hw hp2
    have htail : s2.ms.tail = ms.tail := by rw [won_ms hw, g2]
    have hkept : ∀ e ∈ aux, e ∈ s2.aux := by
      intro e he
      rcases hc with ⟨_, b⟩ | ⟨_, e', b⟩
      · rw [b]; exact hg.kept e he
      · rw [b]; exact List.mem_append_left _ (hg.kept e he)
    refine ⟨⟨hpath, ?_, htail, hkept, ?_⟩, ?_⟩
    · exact (won_left hw (by rw [g1]; exact hnd)).2.trans g1
    · exact update_synced hrefl htail hkept hL
    · have e2 : left { s2 with lists := L } = left s2 := left_congr rfl (fun n => rfl)
      rw [e2]
      rcases hc with ⟨a, b⟩ | ⟨a, e, b⟩
      · exact .inl ⟨a, b⟩
      · exact .inr ⟨a, by show s2.aux.length = _; rw [b]; simp⟩
  -- which unknown is due when
  obtain ⟨x, hnext, j, hdue, hj1, hj2⟩ : ∃ x, Next order s x ∧ ∃ j, Due j s x ∧ (j ≤ 6 ∨ (j ≤ 12 ∧ 6 ≤ left s ∧ need (left s) (z.aux.length - s.aux.length) ≤ n)) ∧
      (need (left s) (z.aux.length - s.aux.length) ≤ n ∨ (6 ≤ left s ∧ need (left s) (z.aux.length - s.aux.length) ≤ n + 1)) := by
    rcases hpot with hp | ⟨h6, hp, x, hx, hd⟩
    · obtain ⟨x0, hx0, hs0⟩ := hex
      obtain ⟨x, hx⟩ := next_exists (l := order) ⟨x0, hlad.1 x0 hx0, hs0⟩
      have hxus : x ∈ us := by obtain ⟨pre, post, ho, _⟩ := hx; exact hlad.2.1 x (by rw [ho]; simp)
      have hxs : s.solved x = false := by obtain ⟨pre, post, _, h, _⟩ := hx; exact h
      refine ⟨x, hx, left s + 1, due_unsolved (by rw [hg.unknowns]; exact hxus) hxs, ?_, .inl hp⟩
      by_cases h5 : left s ≤ 5
      · exact .inl (by omega)
      · refine .inr ⟨?_, by omega, hp⟩
        unfold need at hp
        rw [if_neg h5] at hp
        omega
    · exact ⟨x, hx, 6, hd, .inl (le_refl _), .inr ⟨h6, hp⟩⟩
  have hripe := (Next.ripe hnd hlad hresp g1 g6 (hnext.congr g4)).2
  have hdue1 : Due j s1 x := hdue.congr g4 g5
  have arith : ∀ k' a', (k' + 1 = left s ∧ a' = z.aux.length - s.aux.length ∨ k' = left s ∧ a' + 1 = z.aux.length - s.aux.length) →
      ∃ n', n = n' + 1 ∧ need k' a' ≤ n' := by
    intro k' a' hka
    have hN : n ≥ 1 ∧ need k' a' ≤ n - 1 := by
      revert hj2
      unfold need
      split <;> split <;> intro hj2 <;> omega
    exact ⟨n - 1, by omega, hN.2⟩
  rcases h2 with ⟨h2, _⟩ | ⟨s2, L, h2, hL, he, _⟩
  · rcases subtree_ripe hP hr hripe hdue1 h2 with ⟨h, _⟩ | ⟨_, hi, h6, hd'⟩
    · cases h
    · rcases hj1 with hj1 | ⟨hj1, hk6, hnd2⟩
      · omega
      · have hl2 : left s' = left s := by
          rw [← hl1]; exact left_congr (by rw [hi.w]) (fun n => by rw [LS.solved, hi.w]; rfl)
        have haux : s'.aux = s.aux := by rw [hi.aux, g3]
        refine ⟨n - 1, ?_, ⟨hpath, by rw [hi.w, g1], by rw [hi.ms, g2], by rw [haux]; exact hg.kept, ?_⟩, .inr ⟨by omega, ?_, x,
          hnext.congr (by rw [hi.w, g4]), hd'.mono (by omega)⟩⟩
        · unfold need at hnd2; rw [if_neg (by omega)] at hnd2; omega
        · intro e he hc
          rw [vars_congr hi.w] at hc
          rw [hi.lists]
          exact g6 e he hc
        · rw [hl2, haux]; omega
  · rcases subtree_result h2 with ⟨_, hw⟩ | ⟨h, _⟩
    · obtain ⟨hg', hcase⟩ := hit2 s2 L hw hL he
      obtain ⟨n', hn', hneed⟩ := arith (left s') (z.aux.length - s'.aux.length) (by
        rcases hcase with ⟨a, b⟩ | ⟨a, b⟩
        · exact .inl ⟨a, by rw [b]⟩
        · exact .inr ⟨a, by omega⟩)
      exact ⟨n', hn', hg', .inl hneed⟩
    · cases h

theorem runs_path_round {P : Sympy} {s s' : LS} {l : List LS} (h : Runs (den (env P) 0 solveRoutine) s l s') : Path P s s' :=
  Runs.path (fun _ _ _ h => (routine_cases h).1) h

/-- A failed round leaves something unsolved (if there was something). -/
theorem round_open {P : Sympy} {us : List String} {u u' : LS} (hu : u.w.unknowns = us) (hex : ∃ x ∈ us, u.solved x = false)
    (h : den (env P) 0 solveRoutine u = .ok (.failure, u')) : ∃ x ∈ us, u'.solved x = false := by
  have hu' : u'.w.unknowns = us := (path_unknowns (routine_cases h).1).trans hu
  rcases (routine_cases h).2 with ⟨h, _⟩ | ⟨-, h | h⟩
  · cases h
  · rwa [hu'] at h
  · obtain ⟨x, hx, hs⟩ := hex
    exact ⟨x, hx, by rw [h.2]; exact hs⟩

theorem runs_pot {P : Sympy} {G} (hP : P.Sound G) (hr : ∀ a b x, (P.ratio a b).has x = true → a.has x = true ∨ b.has x = true)
    (hrefl : ∀ a, P.eqv a a = true) (hresp : ∀ x e e', SameEqn P.toCAS e' e → LinearIn P x e → LinearIn P x e')
    {us order : List String} {ms : List MEqn} {aux : List KEqn} (hnd : us.Nodup) (hlad : Ladder P us (Given ms aux) order)
    {z : LS} (hz : ∀ x, Settled z x) {s s' : LS} {l : List LS} (h : Runs (den (env P) 0 solveRoutine) s l s') :
    ∀ {n : Nat}, n ≤ 12 → Pot P us order ms aux z s n → Path P s' z → (∃ x ∈ us, s.solved x = false) →
      ∃ n', n = n' + l.length ∧ Pot P us order ms aux z s' n' ∧ ∃ x ∈ us, s'.solved x = false := by
  induction h with
  | nil => intro n _ hp _ hex; exact ⟨n, rfl, hp, hex⟩
  | cons hf hrest ih =>
    intro n hn hp hpath hex
    obtain ⟨n1, rfl, hp1⟩ := round_pot hP hr hrefl hresp hnd hlad hz hn hp hf ((runs_path_round hrest).trans hpath) hex
    obtain ⟨n2, rfl, hp2, hex2⟩ := ih (by omega) hp1 hpath (round_open hp.1.unknowns hex hf)
    exact ⟨n2, by simp; omega, hp2, hex2⟩

/-- C58. If the equations determine the unknowns one after another (each from an equation linear in it, with earlier ones at most),
the unknowns are at most seven and no auxiliary equation was found on the way (or at most five, and at most five equations found),
and the first unknown was not marked for the tangent rule, then a run that returns returns SUCCESS: the six tries per round and the
ten rounds are enough.
`P` is any computer algebra system with the laws of `Sound`, quotients without new symbols, and linearity not depending on which
of two equal equations is taken.
Missing: eight or more unknowns (`C58_eight_violation`, `C58_more_than_ten_violation`), a first unknown with a tangent solution
(`C58_tangent_first_violation`), equations that only occur in the first matrix equation, which sub_transform may rewrite, exceptions. -/
theorem C58_triangular_partial {P : Sympy} {G} (hP : P.Sound G)
    (hratio : ∀ a b x, (P.ratio a b).has x = true → a.has x = true ∨ b.has x = true)
    (hrefl : ∀ a, P.eqv a a = true) (hresp : ∀ x e e', SameEqn P.toCAS e' e → LinearIn P x e → LinearIn P x e')
    {us order : List String} {ms : List MEqn} {aux : List KEqn} {st : Status} {s : LS}
    (hnd : us.Nodup) (hlad : Ladder P us (Given ms aux) order) {counter : Nat} (h : solve P us ms aux counter = .ok (st, s))
    (hhead : ∀ x, us.head? = some x → (s.ld x).solvableTan = false)
    (hb : (us.length ≤ 7 ∧ s.aux.length = aux.length) ∨ (us.length ≤ 5 ∧ s.aux.length ≤ aux.length + 5)) : st = .success := by
  obtain ⟨hu, hsucc, hfail⟩ := C45_success_iff_all_solved h
  obtain ⟨hne, L, hL, hp, hst⟩ := solve_cases h
  rw [solve_eq, hL] at h
  dsimp only at h
  change den (env P) 0 topnode { init us ms aux L with counter := counter } = _ at h
  rw [topnode, den] at h
  obtain ⟨l, u1, hr, h1, hl, hl10⟩ := denUntil h (by decide)
  rcases hst with ⟨rfl, _⟩ | ⟨rfl, _⟩
  · rfl
  exfalso
  have hl10 : l.length + 1 = 10 := hl10 rfl
  have hz : ∀ x, Settled s x := by
    intro x
    by_cases hx : us.head? = some x
    · exact .inr (hhead x hx)
    · exact .inl (by rw [hu]; exact hx)
  have hex : ∃ x ∈ us, (init us ms aux L).solved x = false := by
    cases us with
    | nil => exact absurd rfl hne
    | cons x l => exact ⟨x, List.mem_cons_self, rfl⟩
  have hp1 : Path P u1 s := (routine_cases h1).1
  have hpot : Pot P us order ms aux s { init us ms aux L with counter := counter } 10 := by
    refine ⟨⟨(Runs.path (fun _ _ _ h => (routine_cases h).1) hr).trans hp1, rfl, rfl, fun e he => he, ?_⟩, .inl ?_⟩
    · have hv : LS.vars { init us ms aux L with counter := counter } = us.map fun n => ⟨n, false⟩ := rfl
      intro e he hc
      rw [hv] at hc
      exact scan_synced hrefl rfl (fun e he => he) hL e he hc
    · have hl : left { init us ms aux L with counter := counter } = us.length := left_init (ms := ms) (aux := aux) (L := L)
      rw [hl]
      show need us.length (s.aux.length - aux.length) ≤ 10
      unfold need
      split <;> omega
  obtain ⟨n1, hn1, hpot1, hex1⟩ := runs_pot hP hratio hrefl hresp hnd hlad hz hr (by omega) hpot hp1 hex
  obtain ⟨n2, hn2, hpot2⟩ := round_pot hP hratio hrefl hresp hnd hlad hz (by omega) hpot1 h1 .refl hex1
  have hex2 := round_open hpot1.1.unknowns hex1 h1
  have hpos : left s ≠ 0 := by
    intro h0
    rw [left_zero, hu] at h0
    obtain ⟨x, hx, hs⟩ := hex2
    rw [h0 x hx] at hs; cases hs
  have hn0 : n2 = 0 := by omega
  subst hn0
  rcases hpot2.2 with h | ⟨h6, h, _⟩
  · unfold need at h; split at h <;> omega
  · unfold need at h; rw [if_neg (by omega)] at h; omega

/-! ## Six unknowns, with any marks -/

/-- Where the counter is after the first unknown was handed out. -/
theorem assigner_head {s s1 : LS} {y : String} (hnd : s.w.unknowns.Nodup) (hy : s.w.unknowns.head? = some y)
    (h : assigner s = .ok (.success, s1)) (hc : s1.curr = y) : s1.counter ≤ 1 := by
  cases hu : s.w.unknowns with
  | nil => rw [hu] at hy; cases hy
  | cons z l =>
    rw [hu] at hy hnd
    cases hy
    have hyl : y ∉ l := (List.nodup_cons.1 hnd).1
    have key : ∀ (l : List String) (i : Nat) (r : Nat × String), assignFind s i l = some r → r.2 ∈ l := by
      intro l
      induction l with
      | nil => intro i r h; cases h
      | cons a l ih =>
        intro i r h
        rw [assignFind] at h
        split at h
        · exact List.mem_cons_of_mem _ (ih _ _ h)
        · cases h; exact List.mem_cons_self
    unfold assigner at h
    rw [hu] at h
    split at h
    · next c x hx =>
      cases h
      cases hc
      cases hcnt : s.counter with
      | zero =>
        rw [hcnt] at hx
        rw [List.drop_zero, assignFind] at hx
        split at hx
        · exact absurd (key _ _ _ hx) hyl
        · cases hx; simp
      | succ k =>
        rw [hcnt, List.drop_succ_cons] at hx
        exact absurd (List.mem_of_mem_drop (key _ _ _ hx)) hyl
    · cases h; simp

/-- The failed attempts of an inner loop, with the unknowns to come. -/
theorem runs_hands {P : Sympy} {G} (hP : P.Sound G) (hr : ∀ a b x, (P.ratio a b).has x = true → a.has x = true ∨ b.has x = true)
    {s s' : LS} {x : String} {l : List LS} (h : Runs (den (env P) 0 attempt) s l s') : ∀ {i : Nat} {xs : List String} {t : LS},
      Ripe P s x → hands i s = .ok (xs, t) → x ∈ xs →
      l.length < i ∧ Ripe P s' x ∧ ∃ xs' t', hands (i - l.length) s' = .ok (xs', t') ∧ x ∈ xs' ∧ ∀ y ∈ xs', y ∈ xs := by
  induction h with
  | nil =>
    intro i xs t hx hh hm
    refine ⟨?_, hx, xs, t, by simpa using hh, hm, fun _ => id⟩
    cases i with
    | zero => cases hh; cases hm
    | succ i => simp
  | @cons u u1 l u' hf _ ih =>
    intro i xs t hx hh hm
    cases i with
    | zero => cases hh; cases hm
    | succ i =>
      obtain ⟨s1, h1, h2⟩ := attempt_cases hf
      obtain ⟨s1', h1', hres⟩ := attempt_result hf
      rw [h1] at h1'; cases h1'
      obtain ⟨h, _⟩ | ⟨-, hi, hc⟩ := hres
      · cases h
      have hripe' : Ripe P u1 x := by
        obtain ⟨ha, e, he, hl⟩ := hx
        exact ⟨by rw [LS.solved, hi.w]; exact ha, e, by rw [hi.lists]; exact he, hl⟩
      rw [hands, h1] at hh
      dsimp only at hh
      split at hh
      · cases hh
      next xs1 s2 hh' =>
      cases hh
      obtain ⟨-, c, y, _, rfl, _⟩ := assigner_cases h1
      rcases List.mem_cons.1 hm with rfl | hm
      · have := work_ripe hP hr (s := { u with counter := c, curr := x }) hx h2
        cases this
      · obtain ⟨t', ht'⟩ := hands_congr (s := { u with counter := c, curr := y }) (s' := u1) hi.w hc hh'
        obtain ⟨g1, g2, xs', t'', g3, g4, g5⟩ := ih hripe' ht' hm
        exact ⟨by simp; omega, g2, xs', t'', by simpa using g3, g4, fun z hz => List.mem_cons_of_mem _ (g5 z hz)⟩

/-- The inner loop with a ripe unknown among the next (at most six) to be handed out: it wins, with one of these. -/
theorem subtree_hands {P : Sympy} {G} (hP : P.Sound G) (hr : ∀ a b x, (P.ratio a b).has x = true → a.has x = true ∨ b.has x = true)
    {s s' : LS} {st : Status} {x y : String} {i : Nat} {xs : List String} {t : LS} (hnd : s.w.unknowns.Nodup) (hy : s.w.unknowns.head? = some y)
    (hx : Ripe P s x) (hh : hands i s = .ok (xs, t)) (hm : x ∈ xs) (hi : i ≤ 6) (h : den (env P) 0 subtree s = .ok (st, s')) :
    st = .success ∧ s'.ms = s.ms ∧ ((∃ s1 sols, s1.curr ∈ xs ∧ s1.curr ∈ s.w.unknowns ∧ s1.w = s.w ∧ Solves sols s1 s' ∧ s'.aux = s.aux ∧
      (s1.curr = y → s'.counter ≤ 1) ∧ (s1.solved s1.curr = false ∨ s1.curr = y)) ∨ ∃ e, s'.aux = s.aux ++ [e]) := by
  rw [subtree, den] at h
  obtain ⟨l, u1, hrun, h1, _, hl⟩ := denUntil h (by decide)
  have hidle := runs_idle hrun
  obtain ⟨g1, g2, xs', t', g3, g4, g5⟩ := runs_hands hP hr hrun hx hh hm
  obtain ⟨j, hj⟩ : ∃ j, i - l.length = j + 1 := ⟨i - l.length - 1, by omega⟩
  rw [hj] at g3
  obtain ⟨s1, a1, a2⟩ := attempt_cases h1
  have hcurr : s1.curr ∈ xs' := by
    rw [hands, a1] at g3
    dsimp only at g3
    split at g3
    · cases g3
    · cases g3; simp
  have hcnt : s1.curr = y → s1.counter ≤ 1 := assigner_head (by rw [hidle.w]; exact hnd) (by rw [hidle.w]; exact hy) a1
  obtain ⟨-, c, z, hz, rfl, ho⟩ := assigner_cases a1
  rcases work_cases a2 with ⟨rfl, hq⟩ | ⟨rfl, hu, sols, hs⟩ | ⟨rfl, s2, hq, ha⟩
  · exfalso
    have hl : l.length + 1 = 6 := hl rfl
    obtain rfl : j = 0 := by omega
    obtain ⟨d1, _⟩ := due_next hP hr g2 (j := 0) ⟨1, xs', t', le_refl _, g3, g4⟩ h1
    exact not_due_zero d1
  · refine ⟨rfl, by rw [hs.ms]; exact hidle.ms, .inl ⟨_, sols, g5 _ hcurr, by rw [← hidle.w]; exact hz, by exact hidle.w, hs, by rw [hs.aux]; exact hidle.aux, ?_, ?_⟩⟩
    · intro h; rw [hs.counter]; exact hcnt h
    · rcases ho with ho | ho
      · exact .inl ho
      · rw [hidle.w, hy] at ho; cases ho; exact .inr rfl
  · obtain ⟨e, he⟩ := ha.rest
    refine ⟨rfl, ?_, .inr ⟨e, ?_⟩⟩
    · rw [he]; exact hq.ms.trans hidle.ms
    · rw [he]; simp only [hq.aux, hidle.aux]

/-- After failed attempts, the unknowns to come are the rest of those that were to come. -/
theorem runs_drop {P : Sympy} {s s' : LS} {l : List LS} (h : Runs (den (env P) 0 attempt) s l s') : ∀ {j : Nat} {xs : List String} {t : LS},
    hands (l.length + j) s = .ok (xs, t) → ∃ t', hands j s' = .ok (xs.drop l.length, t') := by
  induction h with
  | nil => intro j xs t hh; exact ⟨t, by simpa using hh⟩
  | @cons u u1 l u' hf _ ih =>
    intro j xs t hh
    obtain ⟨s1, h1, h2⟩ := attempt_cases hf
    obtain ⟨s1', h1', hres⟩ := attempt_result hf
    rw [h1] at h1'; cases h1'
    obtain ⟨h, _⟩ | ⟨-, hi, hc⟩ := hres
    · cases h
    rw [List.length_cons, show l.length + 1 + j = (l.length + j) + 1 by omega, hands, h1] at hh
    dsimp only at hh
    split at hh
    · cases hh
    next xs1 s2 hh' =>
    cases hh
    obtain ⟨-, c, y, _, rfl, _⟩ := assigner_cases h1
    obtain ⟨t', ht'⟩ := hands_congr (s := { u with counter := c, curr := y }) (s' := u1) hi.w hc hh'
    obtain ⟨t'', h3⟩ := ih ht'
    exact ⟨t'', by simpa using h3⟩

theorem hands_take : ∀ {m n : Nat} {s t : LS} {xs : List String}, hands (m + n) s = .ok (xs, t) → ∃ t', hands m s = .ok (xs.take m, t')
  | 0, _, s, _, _, _ => ⟨s, rfl⟩
  | m + 1, n, s, t, xs, h => by
    rw [show m + 1 + n = (m + n) + 1 by omega, hands] at h
    rw [hands]
    split at h
    · cases h
    next c s1 h1 =>
    split at h
    · cases h
    next ys s2 h2 =>
    cases h
    obtain ⟨t', h3⟩ := hands_take h2
    exact ⟨t', by rw [h3]; rfl⟩

/-- The inner loop: it wins with one of the first six unknowns to be handed out, or fails and the rest is still to come. -/
theorem subtree_seven {P : Sympy} {s s' : LS} {st : Status} {y : String} {j : Nat} {xs : List String} {t : LS}
    (hnd : s.w.unknowns.Nodup) (hy : s.w.unknowns.head? = some y) (hh : hands (6 + j) s = .ok (xs, t)) (h : den (env P) 0 subtree s = .ok (st, s')) :
    (st = .failure ∧ Idle s s' ∧ ∃ t', hands j s' = .ok (xs.drop 6, t')) ∨
    st = .success ∧ s'.ms = s.ms ∧ ((∃ s1 sols, s1.curr ∈ xs.take 6 ∧ s1.curr ∈ s.w.unknowns ∧ s1.w = s.w ∧ Solves sols s1 s' ∧ s'.aux = s.aux ∧
      (s1.curr = y → s'.counter ≤ 1) ∧ (s1.solved s1.curr = false ∨ s1.curr = y)) ∨ ∃ e, s'.aux = s.aux ++ [e]) := by
  rw [subtree, den] at h
  obtain ⟨l, u1, hrun, h1, hle, hl⟩ := denUntil h (by decide)
  have hidle := runs_idle hrun
  have hle : l.length + 1 ≤ 6 := hle
  obtain ⟨t', g3⟩ := runs_drop (j := (5 - l.length + j) + 1) hrun (by rw [show l.length + ((5 - l.length + j) + 1) = 6 + j by omega]; exact hh)
  obtain ⟨s1, a1, a2⟩ := attempt_cases h1
  have hcurr : s1.curr ∈ xs.take 6 := by
    rw [hands, a1] at g3
    dsimp only at g3
    split at g3
    · cases g3
    · next hd =>
      simp only [Except.ok.injEq, Prod.mk.injEq] at g3
      have hlt : l.length < xs.length := by
        by_contra hc
        rw [List.drop_eq_nil_of_le (by omega)] at g3
        cases g3.1
      rw [List.drop_eq_getElem_cons hlt] at g3
      rw [(List.cons.inj g3.1).1]
      exact List.mem_take_iff_getElem.2 ⟨l.length, by omega, rfl⟩
  have hcnt : s1.curr = y → s1.counter ≤ 1 := assigner_head (by rw [hidle.w]; exact hnd) (by rw [hidle.w]; exact hy) a1
  have hone : Runs (den (env P) 0 attempt) u1 [] u1 := .nil
  obtain ⟨-, c, z, hz, rfl, ho⟩ := assigner_cases a1
  rcases work_cases a2 with ⟨rfl, hq⟩ | ⟨rfl, hu, sols, hs⟩ | ⟨rfl, s2, hq, ha⟩
  · refine .inl ⟨rfl, ?_, ?_⟩
    · obtain ⟨s1', _, ⟨h, _⟩ | ⟨_, hi, _⟩⟩ := attempt_result h1
      · cases h
      · exact hidle.trans hi
    · have hl : l.length + 1 = 6 := hl rfl
      have hrun2 : Runs (den (env P) 0 attempt) u1 [u1] s' := .cons h1 .nil
      obtain ⟨t'', g4⟩ := runs_drop (j := j) hrun2 (by rw [show [u1].length + j = 5 - l.length + j + 1 by simp; omega]; exact g3)
      refine ⟨t'', ?_⟩
      rw [g4, List.drop_drop, show l.length + [u1].length = 6 by simp; omega]
  · refine .inr ⟨rfl, by rw [hs.ms]; exact hidle.ms, .inl ⟨_, sols, hcurr, by rw [← hidle.w]; exact hz, by exact hidle.w, hs, by rw [hs.aux]; exact hidle.aux, ?_, ?_⟩⟩
    · intro h; rw [hs.counter]; exact hcnt h
    · rcases ho with ho | ho
      · exact .inl ho
      · rw [hidle.w, hy] at ho; cases ho; exact .inr rfl
  · obtain ⟨e, he⟩ := ha.rest
    refine .inr ⟨rfl, ?_, .inr ⟨e, ?_⟩⟩
    · rw [he]; exact hq.ms.trans hidle.ms
    · rw [he]; simp only [hq.aux, hidle.aux]

/-- The rounds still needed, in a run without added equations, at most six unknowns: if the first unknown `y` is unsolved; if in
addition the ripe unknown is the next to be handed out, after a round that was lost; if `y` is solved. -/
def Pot6 (P : Sympy) (us order : List String) (ms : List MEqn) (aux : List KEqn) (y : String) (z s : LS) (n : Nat) : Prop :=
  Steady P us ms aux z s ∧ s.aux.length = z.aux.length ∧
  ((s.solved y = false ∧ left s ≤ 6 ∧ (left s = 1 ∧ 1 ≤ n ∨ 2 ≤ left s ∧ 2 * left s - 2 ≤ n)) ∨
   (s.solved y = false ∧ left s = 6 ∧ 9 ≤ n ∧ ∃ x t, x ≠ y ∧ Next order s x ∧ hands 1 s = .ok ([x], t)) ∨
   (s.solved y = true ∧ left s ≤ 5 ∧ 1 ≤ left s ∧ (2 * left s ≤ n ∨ (2 * left s - 1 ≤ n ∧ s.counter ≤ 1))))

theorem unsolvedOf_mem {s : LS} {l : List String} {x : String} : x ∈ unsolvedOf s l ↔ x ∈ l ∧ s.solved x = false := by
  simp [unsolvedOf, LS.solved]

theorem unsolvedOf_congr {s s' : LS} (h : s'.w = s.w) (l : List String) : unsolvedOf s' l = unsolvedOf s l := by
  unfold unsolvedOf; rw [h]

theorem round_pot6 {P : Sympy} {G} (hP : P.Sound G) (hr : ∀ a b x, (P.ratio a b).has x = true → a.has x = true ∨ b.has x = true)
    (hrefl : ∀ a, P.eqv a a = true) (hresp : ∀ x e e', SameEqn P.toCAS e' e → LinearIn P x e → LinearIn P x e')
    {us order : List String} {ms : List MEqn} {aux : List KEqn} (hnd : us.Nodup) (hlad : Ladder P us (Given ms aux) order)
    {y : String} (hy : us.head? = some y)
    {s s' z : LS} {n : Nat} (hp : Pot6 P us order ms aux y z s n)
    (h : den (env P) 0 solveRoutine s = .ok (.failure, s')) (hpath : Path P s' z) :
    ∃ n', n = n' + 1 ∧ Pot6 P us order ms aux y z s' n' := by
  obtain ⟨hg, hauxl, hpot⟩ := hp
  obtain ⟨s1, h1, h2⟩ := round_result h
  obtain ⟨g1, g2, g3, g4, g5, g6⟩ := steady_sub hrefl hg h1
  have hyus : y ∈ us := List.mem_of_mem_head? hy
  have hl1 : left s1 = left s := left_congr (by rw [g4]) (fun n => by rw [LS.solved, g4]; rfl)
  have hsol1 : ∀ n, s1.solved n = s.solved n := fun n => by rw [LS.solved, g4]; rfl
  have hpos : 1 ≤ left s := by rcases hpot with ⟨_, _, h⟩ | ⟨_, h, _⟩ | ⟨_, _, h, _⟩ <;> omega
  have hex : ∃ x ∈ us, s.solved x = false := by
    by_contra hc
    have : left s = 0 := by
      rw [left_zero, hg.unknowns]
      intro x hx
      cases hs : s.solved x with
      | true => rfl
      | false => exact absurd ⟨x, hx, hs⟩ hc
    omega
  obtain ⟨x0, hx0, hs0⟩ := hex
  obtain ⟨x, hnext⟩ := next_exists (l := order) ⟨x0, hlad.1 x0 hx0, hs0⟩
  obtain ⟨hxus, hripe⟩ := Next.ripe hnd hlad hresp g1 g6 (hnext.congr g4)
  have hxs : s1.solved x = false := hripe.1
  have hu1 : s1.w.unknowns = y :: us.tail := by
    rw [g1]; cases us with
    | nil => cases hy
    | cons a l => cases hy; rfl
  -- the round is won with one of `xs`, or it is lost
  have hround : (∃ n', n = n' + 1 ∧ Pot6 P us order ms aux y z s' n') ∨ ∃ (s2 : LS) (L : Lists) (xs : List String), den (env P) 0 subtree s1 = .ok (.success, s2) ∧
      updateL P.toCAS s2.ms s2.aux s2.vars = .ok L ∧ s' = { s2 with lists := L } ∧
      (Status.failure = .success ↔ ∀ x ∈ s'.w.unknowns, s'.solved x = true) ∧
      (s.solved y = true → s.counter ≤ 1 → ∀ w ∈ xs, s1.solved w = false) ∧ (left s = 6 → n ≤ 9 → ∀ w ∈ xs, w ≠ y) ∧
      s2.ms = s1.ms ∧ ((∃ s3 sols, s3.curr ∈ xs ∧ s3.curr ∈ s1.w.unknowns ∧ s3.w = s1.w ∧ Solves sols s3 s2 ∧ s2.aux = s1.aux ∧
      (s3.curr = y → s2.counter ≤ 1) ∧ (s3.solved s3.curr = false ∨ s3.curr = y)) ∨ ∃ e, s2.aux = s1.aux ++ [e]) := by
    by_contra hno
    have hnd1 : s1.w.unknowns.Nodup := by rw [g1]; exact hnd
    have hy1 : s1.w.unknowns.head? = some y := by rw [g1]; exact hy
    -- a ripe unknown among the next six
    have hwin : ∀ {x : String} {i : Nat} {xs : List String} {t : LS}, Ripe P s1 x → hands i s1 = .ok (xs, t) → x ∈ xs → i ≤ 6 →
        (s.solved y = true → s.counter ≤ 1 → ∀ w ∈ xs, s1.solved w = false) → (left s = 6 → n ≤ 9 → ∀ w ∈ xs, w ≠ y) → False := by
      intro x i xs t hripe hh hm hi6 hu1' hu2'
      rcases h2 with ⟨h2, _⟩ | ⟨s2, L, h2, hL, he, hst⟩
      · have := (subtree_hands hP hr hnd1 hy1 hripe hh hm hi6 h2).1
        cases this
      obtain ⟨-, hms, hcase⟩ := subtree_hands hP hr hnd1 hy1 hripe hh hm hi6 h2
      exact hno (.inr ⟨s2, L, xs, h2, hL, he, hst, hu1', hu2', hms, hcase⟩)
    rcases hpot with ⟨hsy, h6, hn⟩ | ⟨hsy, h6, hn, x', t, hxy, hx', hh⟩ | ⟨hsy, h5, hn⟩
    · obtain ⟨c, w, k1⟩ := C42_round_partial hu1
      have hall : x ∈ _ := C42_no_starvation k1 (by rw [g1]; exact hxus) hxs
      have hlen : (unsolvedOf s1 s1.w.unknowns).length = left s1 := rfl
      by_cases h5 : left s ≤ 5
      · exact hwin hripe k1 hall (by omega) (fun h => by rw [hsy] at h; cases h) (by omega)
      -- six are left
      have h6 : left s = 6 := by omega
      rw [hlen, hl1, h6] at k1
      rcases h2 with ⟨h2, _⟩ | ⟨s2, L, h2, hL, he, hst⟩
      · rcases subtree_seven (j := 1) hnd1 hy1 k1 h2 with ⟨_, hi, t', h3⟩ | ⟨h, _⟩
        swap
        · cases h
        obtain ⟨hxy, hlast⟩ : x ≠ y ∧ ∃ t', hands 1 s' = .ok ([x], t') := by
          have hsplit : unsolvedOf s1 s1.w.unknowns = unsolvedOf s1 (s1.w.unknowns.take s1.counter) ++ unsolvedOf s1 (s1.w.unknowns.drop s1.counter) := by
            rw [unsolvedOf, unsolvedOf, unsolvedOf, ← List.filter_append, List.take_append_drop]
          have hl6 : (unsolvedOf s1 (s1.w.unknowns.take s1.counter)).length + (unsolvedOf s1 (s1.w.unknowns.drop s1.counter)).length = 6 := by
            rw [← List.length_append, ← hsplit, hlen, hl1, h6]
          have hxu : x ∈ unsolvedOf s1 s1.w.unknowns := unsolvedOf_mem.2 ⟨by rw [g1]; exact hxus, hxs⟩
          rw [hsplit, List.mem_append] at hxu
          generalize unsolvedOf s1 (s1.w.unknowns.drop s1.counter) = D at *
          generalize unsolvedOf s1 (s1.w.unknowns.take s1.counter) = T at *
          have hnot : x ∉ (D ++ [y] ++ T).take 6 := by
            intro hm
            obtain ⟨t6, k6⟩ := hands_take (m := 6) (n := 1) k1
            have := (subtree_hands hP hr hnd1 hy1 hripe k6 hm (le_refl _) h2).1
            cases this
          have hxy : x ≠ y := by
            rintro rfl
            apply hnot
            by_cases h : D.length ≤ 5
            · rw [List.append_assoc, List.take_append]
              refine List.mem_append_right _ (List.mem_take_iff_getElem.2 ⟨0, by simp; omega, rfl⟩)
            · have : T = [] := List.length_eq_zero_iff.1 (by omega)
              subst this
              rw [List.append_assoc, List.take_append, List.take_of_length_le (by omega)]
              exact List.mem_append_left _ (by simpa using hxu)
          refine ⟨hxy, t', ?_⟩
          have hd : x ∈ (D ++ [y] ++ T).drop 6 := by
            rw [← List.take_append_drop 6 (D ++ [y] ++ T)] at hall
            exact (List.mem_append.1 hall).resolve_left hnot
          have hl : ((D ++ [y] ++ T).drop 6).length = 1 := by simp; omega
          obtain ⟨a, ha⟩ := List.length_eq_one_iff.1 hl
          rw [ha, List.mem_singleton] at hd
          rw [h3, ha, hd]
        obtain ⟨t', hlast⟩ := hlast
        have hl2 : left s' = left s := by
          rw [← hl1]; exact left_congr (by rw [hi.w]) (fun n => by rw [LS.solved, hi.w]; rfl)
        have haux : s'.aux = s.aux := by rw [hi.aux, g3]
        refine hno (.inl ⟨n - 1, by omega, ⟨hpath, by rw [hi.w, g1], by rw [hi.ms, g2], by rw [haux]; exact hg.kept, ?_⟩, by rw [haux, hauxl], .inr (.inl
          ⟨by rw [LS.solved, hi.w, ← hsy, ← hsol1]; rfl, by rw [hl2, h6], by omega, x, t', hxy, hnext.congr (by rw [hi.w, g4]), hlast⟩)⟩)
        intro e he hc
        rw [vars_congr hi.w] at hc
        rw [hi.lists]
        exact g6 e he hc
      · rcases subtree_seven (j := 1) hnd1 hy1 k1 h2 with ⟨h, _⟩ | ⟨_, hms, hcase⟩
        · cases h
        exact hno (.inr ⟨s2, L, _, h2, hL, he, hst, (fun h => by rw [hsy] at h; cases h), (by omega), hms, hcase⟩)
    · obtain ⟨t1, hh1⟩ := hands_congr (s := s) (s' := s1) g4 g5 hh
      exact hwin (Next.ripe hnd hlad hresp g1 g6 (hx'.congr g4)).2 hh1 (by simp) (by omega) (fun h => by rw [hsy] at h; cases h)
        (fun _ _ w hw => by rw [List.mem_singleton] at hw; rw [hw]; exact hxy)
    · by_cases hc : s.counter ≤ 1
      · -- from the counter to the end
        obtain ⟨c, w, k1, _, _, _⟩ := hands_rest (s := s1) rfl (k := (unsolvedOf s1 (s1.w.unknowns.drop s1.counter)).length) (le_refl _)
        rw [List.take_length] at k1
        refine hwin hripe k1 ?_ ?_ (fun _ _ w hw => (unsolvedOf_mem.1 hw).2) (by omega)
        · rw [unsolvedOf_mem]
          refine ⟨?_, hxs⟩
          rw [g5]
          have hxy : x ≠ y := by rintro rfl; rw [hsol1, hsy] at hxs; cases hxs
          have : s.counter = 0 ∨ s.counter = 1 := by omega
          rcases this with hc | hc
          · rw [hc, List.drop_zero, g1]; exact hxus
          · rw [hc, hu1, List.drop_succ_cons, List.drop_zero]
            have : x ∈ y :: us.tail := by rw [← hu1, g1]; exact hxus
            exact (List.mem_cons.1 this).resolve_left hxy
        · have : (unsolvedOf s1 (s1.w.unknowns.drop s1.counter)).length ≤ left s1 := by
            unfold left unsolvedOf
            exact ((List.drop_sublist _ _).filter _).length_le
          omega
      · obtain ⟨c, w, k1⟩ := C42_round_partial hu1
        have hlen : (unsolvedOf s1 s1.w.unknowns).length = left s1 := rfl
        exact hwin hripe k1 (C42_no_starvation k1 (by rw [g1]; exact hxus) hxs) (by omega) (fun _ h => absurd h hc) (by omega)
  rcases hround with hround | ⟨s2, L, xs, h2, hL, he, hst, hunsolved, hnoty, hms, hcase⟩
  · exact hround
  have hgrow := aux_grows hpath
  rcases hcase with ⟨s3, sols, c1, c1', c2, c3, c4, c5, c6⟩ | ⟨e, hadd⟩
  swap
  · exfalso
    subst he
    have : s2.aux.length ≤ z.aux.length := hgrow
    rw [hadd, g3] at this
    simp at this; omega
  have hg' : Steady P us ms aux z s' := by
    subst he
    have htail : s2.ms.tail = ms.tail := by rw [hms, g2]
    have hkept : ∀ e ∈ aux, e ∈ s2.aux := by rw [c4, g3]; exact hg.kept
    exact ⟨hpath, by rw [show ({ s2 with lists := L } : LS).w.unknowns = s2.w.unknowns from rfl, (solves_flags c3).1, c2, g1], htail, hkept,
      update_synced hrefl htail hkept hL⟩
  have hleft' : left s' = left s2 := by subst he; exact left_congr rfl (fun n => rfl)
  have hcnt' : s'.counter = s2.counter := by subst he; rfl
  have hsolved' : ∀ n, s'.solved n = s2.solved n := by subst he; exact fun n => rfl
  have haux' : s'.aux.length = z.aux.length := by subst he; show s2.aux.length = _; rw [c4, g3, hauxl]
  have hl3 : left s3 = left s := by
    rw [← hl1]; exact left_congr (by rw [c2]) (fun n => by rw [LS.solved, c2]; rfl)
  obtain ⟨f1, f2, f3⟩ := solves_flags c3
  have hopen : 1 ≤ left s' := by
    rcases Nat.eq_zero_or_pos (left s') with h0 | h0
    · rw [left_zero] at h0
      rw [← hst] at h0; cases h0
    · exact h0
  have hmono : ∀ n, s.solved n = true → s'.solved n = true := by
    intro n hn
    rw [hsolved']
    by_cases hnc : n = s3.curr
    · rw [hnc]; exact f2
    · rw [f3 n hnc, LS.solved, c2]; rw [← hsol1] at hn; exact hn
  by_cases hwaste : s3.solved s3.curr = false
  · -- something was solved
    have hk := (solves_left c3 (by rw [c2, g1]; exact hnd)).2 (by rw [c2]; exact c1') hwaste
    cases hsy' : s'.solved y with
    | false =>
      have hsy : s.solved y = false := by
        cases h : s.solved y with
        | false => rfl
        | true => rw [hmono y h] at hsy'; cases hsy'
      rcases hpot with ⟨_, hc, hn⟩ | ⟨_, hc, hn, _⟩ | ⟨h, _⟩
      · exact ⟨n - 1, by omega, hg', haux', .inl ⟨hsy', by omega, by omega⟩⟩
      · exact ⟨n - 1, by omega, hg', haux', .inl ⟨hsy', by omega, by omega⟩⟩
      · rw [hsy] at h; cases h
    | true =>
      have hcy : s.solved y = false → s3.curr = y := by
        intro hsy
        by_contra hne
        have h' := f3 y (fun h => hne h.symm)
        rw [← hsolved', hsy', LS.solved, c2] at h'
        have h'' := hsol1 y
        rw [hsy, LS.solved] at h''
        rw [h''] at h'; cases h'
      rcases hpot with ⟨hsy, hc, hn⟩ | ⟨hsy, hc, hn, _⟩ | ⟨hsy, hc, _, hn⟩
      · -- the first unknown was solved now
        exact ⟨n - 1, by omega, hg', haux', .inr (.inr ⟨hsy', by omega, hopen, .inr ⟨by omega, by rw [hcnt']; exact c5 (hcy hsy)⟩⟩)⟩
      · by_cases h9 : n ≤ 9
        · exact absurd (hcy hsy) (hnoty hc h9 _ c1)
        · exact ⟨n - 1, by omega, hg', haux', .inr (.inr ⟨hsy', by omega, hopen, .inr ⟨by omega, by rw [hcnt']; exact c5 (hcy hsy)⟩⟩)⟩
      · exact ⟨n - 1, by omega, hg', haux', .inr (.inr ⟨hsy', by omega, hopen, .inl (by omega)⟩)⟩
  · -- the first unknown was solved again
    have hw1 : s1.solved s3.curr = true := by
      have : s3.solved s3.curr = s1.solved s3.curr := by rw [LS.solved, c2]; rfl
      rw [← this]; simpa using hwaste
    have hcy : s3.curr = y := c6.resolve_left hwaste
    have hsy : s.solved y = true := by rw [← hcy, ← hsol1]; exact hw1
    have hsame : left s' = left s := by
      rw [hleft', ← hl3]
      refine left_congr f1 (fun n => ?_)
      by_cases hn : n = s3.curr
      · rw [hn, f2]; simpa using (Eq.symm (by simpa using hwaste))
      · exact f3 n hn
    rcases hpot with ⟨h, _⟩ | ⟨h, _⟩ | ⟨_, hc, _, hn⟩
    · rw [hsy] at h; cases h
    · rw [hsy] at h; cases h
    rcases hn with hn | ⟨_, hn⟩
    · exact ⟨n - 1, by omega, hg', haux', .inr (.inr ⟨hmono y hsy, by omega, hopen, .inr ⟨by omega, by rw [hcnt']; exact c5 hcy⟩⟩)⟩
    · have := hunsolved hsy hn _ c1
      rw [hw1] at this; cases this

theorem runs_pot6 {P : Sympy} {G} (hP : P.Sound G) (hr : ∀ a b x, (P.ratio a b).has x = true → a.has x = true ∨ b.has x = true)
    (hrefl : ∀ a, P.eqv a a = true) (hresp : ∀ x e e', SameEqn P.toCAS e' e → LinearIn P x e → LinearIn P x e')
    {us order : List String} {ms : List MEqn} {aux : List KEqn} (hnd : us.Nodup) (hlad : Ladder P us (Given ms aux) order)
    {y : String} (hy : us.head? = some y) {z s s' : LS} {l : List LS} (h : Runs (den (env P) 0 solveRoutine) s l s') :
    ∀ {n : Nat}, Pot6 P us order ms aux y z s n → Path P s' z → ∃ n', n = n' + l.length ∧ Pot6 P us order ms aux y z s' n' := by
  induction h with
  | nil => intro n hp _; exact ⟨n, rfl, hp⟩
  | cons hf hrest ih =>
    intro n hp hpath
    obtain ⟨n1, rfl, hp1⟩ := round_pot6 hP hr hrefl hresp hnd hlad hy hp hf ((runs_path_round hrest).trans hpath)
    obtain ⟨n2, rfl, hp2⟩ := ih hp1 hpath
    exact ⟨n2, by simp; omega, hp2⟩

/-- (proof) -/
theorem six_counter {P : Sympy} {G} (hP : P.Sound G)
    (hratio : ∀ a b x, (P.ratio a b).has x = true → a.has x = true ∨ b.has x = true)
    (hrefl : ∀ a, P.eqv a a = true) (hresp : ∀ x e e', SameEqn P.toCAS e' e → LinearIn P x e → LinearIn P x e')
    {us order : List String} {ms : List MEqn} {aux : List KEqn} {st : Status} {s : LS}
    (hnd : us.Nodup) (hlad : Ladder P us (Given ms aux) order) {counter : Nat} (h : solve P us ms aux counter = .ok (st, s))
    (hlen : us.length ≤ 6) (haux : s.aux.length = aux.length) : st = .success := by
  obtain ⟨hu, hsucc, hfail⟩ := C45_success_iff_all_solved h
  obtain ⟨hne, L, hL, hp, hst⟩ := solve_cases h
  rw [solve_eq, hL] at h
  dsimp only at h
  change den (env P) 0 topnode { init us ms aux L with counter := counter } = _ at h
  rw [topnode, den] at h
  obtain ⟨l, u1, hr, h1, hl, hl10⟩ := denUntil h (by decide)
  rcases hst with ⟨rfl, _⟩ | ⟨rfl, _⟩
  · rfl
  exfalso
  have hl10 : l.length + 1 = 10 := hl10 rfl
  obtain ⟨y, hy⟩ : ∃ y, us.head? = some y := by
    cases us with
    | nil => exact absurd rfl hne
    | cons x l => exact ⟨x, rfl⟩
  have hlen1 : 1 ≤ us.length := by
    cases us with
    | nil => exact absurd rfl hne
    | cons x l => simp
  have hli : left { init us ms aux L with counter := counter } = us.length := left_init (ms := ms) (aux := aux) (L := L)
  have hpot : Pot6 P us order ms aux y s { init us ms aux L with counter := counter } 10 := by
    refine ⟨⟨(Runs.path (fun _ _ _ h => (routine_cases h).1) hr).trans (routine_cases h1).1, rfl, rfl, fun e he => he, ?_⟩, haux.symm, .inl ⟨rfl, ?_, ?_⟩⟩
    · have hv : LS.vars { init us ms aux L with counter := counter } = us.map fun n => ⟨n, false⟩ := rfl
      intro e he hc
      rw [hv] at hc
      exact scan_synced hrefl rfl (fun e he => he) hL e he hc
    · rw [hli]; exact hlen
    · rw [hli]; omega
  obtain ⟨n1, hn1, hpot1⟩ := runs_pot6 hP hratio hrefl hresp hnd hlad hy hr hpot (routine_cases h1).1
  obtain ⟨n2, hn2, hpot2⟩ := round_pot6 hP hratio hrefl hresp hnd hlad hy hpot1 h1 .refl
  have hn0 : n2 = 0 := by omega
  subst hn0
  obtain ⟨_, _, h⟩ := hpot2
  rcases h with ⟨_, _, h⟩ | ⟨_, _, h, _⟩ | ⟨_, _, h, h'⟩ <;> omega

/-- C58 for at most six unknowns, whatever rules identified them, and whatever counter an earlier run left on the blackboard: if the
equations determine the unknowns one after another and no auxiliary equation was found on the way, a run that returns returns SUCCESS. -/
theorem C58_six_partial {P : Sympy} {G} (hP : P.Sound G)
    (hratio : ∀ a b x, (P.ratio a b).has x = true → a.has x = true ∨ b.has x = true)
    (hrefl : ∀ a, P.eqv a a = true) (hresp : ∀ x e e', SameEqn P.toCAS e' e → LinearIn P x e → LinearIn P x e')
    {us order : List String} {ms : List MEqn} {aux : List KEqn} {st : Status} {s : LS}
    (hnd : us.Nodup) (hlad : Ladder P us (Given ms aux) order) {counter : Nat} (h : solve P us ms aux counter = .ok (st, s))
    (hlen : us.length ≤ 6) (haux : s.aux.length = aux.length) : st = .success :=
  six_counter hP hratio hrefl hresp hnd hlad h hlen haux

/-! ## Runs -/

/-- the small computer algebra system with equality of expressions as `==` -/
def toyE : Sympy := { toy with eqv := fun a b => a == b }

theorem toyE_sound : toyE.Sound (fun _ => True) :=
  ⟨toy_sound.sub, toy_sound.sub_has, toy_sound.collectU, toy_sound.collectSC, toy_sound.expandSC, toy_sound.simplify, toy_sound.lin,
    toy_sound.lin_free, toy_sound.eqE, toy_sound.ratio, toy_sound.subst⟩

theorem toyE_ratio (a b : Expr) (x : String) (h : (toyE.ratio a b).has x = true) : a.has x = true ∨ b.has x = true := by
  change (toyRatio a b).has x = true at h
  unfold toyRatio at h
  split at h
  · simp [Expr.has] at h
  split at h
  · exact .inl h
  · simpa [Expr.has] using h

theorem toyE_refl (a : Expr) : toyE.eqv a a = true := by
  show (a == a) = true; simp

theorem toyE_resp (x : String) (e e' : KEqn) (h : SameEqn toyE.toCAS e' e) (hl : LinearIn toyE x e) : LinearIn toyE x e' := by
  obtain ⟨h1, h2⟩ := h
  change (e'.lhs == e.lhs) = true at h1
  change (e'.rhs == e.rhs) = true at h2
  have : e' = e := by
    cases e; cases e'
    simp only [beq_iff_eq] at h1 h2
    simp [h1, h2]
  rw [this]; exact hl

/-- a test for `LinearIn` -/
def linB (P : Sympy) (x : String) (e : KEqn) : Bool :=
  (e.lhs.has x || e.rhs.has x) && !(occurs (.un .sin (.sym x)) e.lhs || occurs (.un .sin (.sym x)) e.rhs) &&
  !(occurs (.un .cos (.sym x)) e.lhs || occurs (.un .cos (.sym x)) e.rhs) &&
  match P.lin (P.collectU x (P.sub e.rhs e.lhs)) (.sym x) [.sym x] with
  | some (A, _) => !P.eqE A (.num 0)
  | none => false

theorem linB_sound {P : Sympy} {x : String} {e : KEqn} (h : linB P x e = true) : LinearIn P x e := by
  simp only [linB, Bool.and_eq_true, Bool.or_eq_true, Bool.not_eq_true', Bool.or_eq_false_iff] at h
  obtain ⟨⟨⟨h1, h2⟩, h3⟩, h4⟩ := h
  refine ⟨h1, by simp [HasSin, h2], by simp [HasCos, h3], ?_⟩
  split at h4
  · next A B hl => exact ⟨A, B, hl, by simpa using h4⟩
  · cases h4

/-- a test for `Ladder`, with the equations in a list -/
def ladderB (P : Sympy) (us : List String) (eqs : List KEqn) : List String → List String → Bool
  | _, [] => true
  | pre, x :: l => (eqs.any fun e => linB P x e && (!e.lhs.has x || !e.rhs.has x) &&
      us.all fun y => !(e.lhs.has y || e.rhs.has y) || y == x || pre.contains y) && ladderB P us eqs (pre ++ [x]) l

theorem ladderB_sound {P : Sympy} {us : List String} {eqs : List KEqn} : ∀ {l pre0 : List String}, ladderB P us eqs pre0 l = true →
    ∀ pre x post, l = pre ++ x :: post → ∃ e ∈ eqs, LinearIn P x e ∧ (e.lhs.has x = false ∨ e.rhs.has x = false) ∧
      ∀ y ∈ us, e.lhs.has y = true ∨ e.rhs.has y = true → y = x ∨ y ∈ pre0 ++ pre
  | [], pre0, _, pre, x, post, h => by simp at h
  | a :: l, pre0, h, pre, x, post, hl => by
    simp only [ladderB, Bool.and_eq_true, List.any_eq_true] at h
    obtain ⟨⟨e, he, ⟨h1, h2⟩, h3⟩, h4⟩ := h
    cases pre with
    | nil =>
      simp only [List.nil_append, List.cons.injEq] at hl
      obtain ⟨rfl, rfl⟩ := hl
      refine ⟨e, he, linB_sound h1, by simpa using h2, fun y hy hh => ?_⟩
      have := List.all_eq_true.1 h3 y hy
      rcases hh with hh | hh <;> simp [hh] at this ⊢ <;> exact this
    | cons b pre =>
      simp only [List.cons_append, List.cons.injEq] at hl
      obtain ⟨rfl, hl⟩ := hl
      obtain ⟨e, g1, g2, g3, g4⟩ := ladderB_sound h4 pre x post hl
      exact ⟨e, g1, g2, g3, fun y hy hh => by simpa using g4 y hy hh⟩

theorem ladder_of {P : Sympy} {us order : List String} {ms : List MEqn} (h1 : us.all order.contains = true) (h2 : order.all us.contains = true)
    (h3 : ladderB P us (ms.tail.flatMap MEqn.entries) [] order = true) : Ladder P us (Given ms []) order := by
  refine ⟨fun x hx => ?_, fun x hx => ?_, fun pre x post ho => ?_⟩
  · simpa using List.all_eq_true.1 h1 x hx
  · simpa using List.all_eq_true.1 h2 x hx
  · obtain ⟨e, he, h⟩ := ladderB_sound h3 pre x post ho
    refine ⟨e, .inl ?_, by simpa using h⟩
    obtain ⟨m, hm, he⟩ := List.mem_flatMap.1 he
    exact ⟨m, hm, mem_entries.1 he⟩

/-- p = u_1 + u_2, p = u_2 + u_3, …, p = u_n + l: they determine u_n first -/
def chainRow (us : List String) (k : Nat) : Expr × Expr :=
  match us.drop k with
  | [] => (.num 0, .num 0)
  | [x] => (.sym "p", .bin .add (.sym x) (.sym "l"))
  | x :: y :: _ => (.sym "p", .bin .add (.sym x) (.sym y))
/-- as entries of a matrix equation -/
def chainM (us : List String) : MEqn := matOf fun i j => chainRow us (4 * i.val + j.val)
/-- the chain, and p = th_1 + (b + c) -/
def chainTh (us : List String) : MEqn := matOf fun i j =>
  if i = 2 ∧ j = 3 then (.sym "p", .bin .add (.sym "th_1") (.bin .add (.sym "b") (.sym "c"))) else chainRow us (4 * i.val + j.val)
/-- 0 = 0 -/
def zeroM : MEqn := matOf fun _ _ => (.num 0, .num 0)
/-- Px = d cos(th_1), Py = d sin(th_1) -/
def polarM (d : String) : MEqn := matOf fun i j =>
  if i = 0 ∧ j = 3 then (.sym "Px", .bin .mul (.sym d) (.un .cos (.sym "th_1")))
  else if i = 1 ∧ j = 3 then (.sym "Py", .bin .mul (.sym d) (.un .sin (.sym "th_1"))) else (.num 0, .num 0)
/-- the solver on the chain -/
def chain (us : List String) : Except Crash (Status × LS) := solve toyE us [zeroM, chainM us] []

/-- what a run shows: status, nodes, tangent mark of an unknown, number of auxiliary equations -/
def glance (y : String) (r : Except Crash (Status × LS)) : Option (Status × List String × Bool × Nat) :=
  r.toOption.map fun r => (r.1, r.2.w.nodes, (r.2.ld y).solvableTan, r.2.aux.length)

theorem glance_ok {y : String} {r : Except Crash (Status × LS)} {st : Status} {ns : List String} {b : Bool} {k : Nat}
    (h : glance y r = some (st, ns, b, k)) : ∃ s, r = .ok (st, s) ∧ s.w.nodes = ns ∧ (s.ld y).solvableTan = b ∧ s.aux.length = k := by
  cases r with
  | error c => cases h
  | ok r =>
    obtain ⟨st', s⟩ := r
    simp only [glance, Except.toOption, Option.map_some, Option.some.injEq, Prod.mk.injEq] at h
    obtain ⟨rfl, h⟩ := h
    exact ⟨s, rfl, h⟩

theorem chain7 : glance "a" (chain ["a", "b", "c", "d", "e", "f", "g"]) = some (.success, ["g", "f", "e", "d", "c", "b", "a"], false, 0) := by
  decide +kernel

/-- Non-vacuity of C58_triangular_partial: seven unknowns, to be solved in reverse order. -/
example : ∃ s, chain ["a", "b", "c", "d", "e", "f", "g"] = .ok (.success, s) ∧
    Ladder toyE ["a", "b", "c", "d", "e", "f", "g"] (Given [zeroM, chainM ["a", "b", "c", "d", "e", "f", "g"]] []) ["g", "f", "e", "d", "c", "b", "a"] ∧
    (∀ x, ["a", "b", "c", "d", "e", "f", "g"].head? = some x → (s.ld x).solvableTan = false) ∧ s.aux.length = 0 := by
  obtain ⟨s, h1, _, h3, h4⟩ := glance_ok chain7
  exact ⟨s, h1, ladder_of (by decide +kernel) (by decide +kernel) (by decide +kernel), fun x hx => by cases hx; exact h3, h4⟩

/-- C58 is false of the code for eight unknowns: the equations determine all eight, one after another, the run returns, and returns
FAILURE with one unknown left: rounds were lost because only six of the unknowns get their turn in a round. -/
theorem C58_eight_violation :
    Ladder toyE ["a", "b", "c", "d", "e", "f", "g", "h"] (Given [zeroM, chainM ["a", "b", "c", "d", "e", "f", "g", "h"]] [])
      ["h", "g", "f", "e", "d", "c", "b", "a"] ∧
    ∃ s, chain ["a", "b", "c", "d", "e", "f", "g", "h"] = .ok (.failure, s) ∧ s.w.nodes = ["h", "g", "f", "e", "d", "c", "b"] := by
  refine ⟨ladder_of (by decide +kernel) (by decide +kernel) (by decide +kernel), ?_⟩
  have h : glance "a" (chain ["a", "b", "c", "d", "e", "f", "g", "h"]) = some (.failure, ["h", "g", "f", "e", "d", "c", "b"], false, 0) := by
    decide +kernel
  obtain ⟨s, h1, h2, _⟩ := glance_ok h
  exact ⟨s, h1, h2⟩

/-- six unknowns, the first with a tangent solution: solved in the tenth round, the first one four times over -/
theorem polar6 : glance "th_1" (solve toyE ["th_1", "b", "c", "d", "e", "f"] [polarM "b", chainTh ["b", "c", "d", "e", "f"]] []) =
    some (.success, ["th_1", "f", "th_1", "e", "th_1", "d", "th_1", "c", "th_1", "b"], true, 0) := by decide +kernel

/-- Non-vacuity of C58_six_partial: all ten rounds are needed. -/
example : ∃ s, solve toyE ["th_1", "b", "c", "d", "e", "f"] [polarM "b", chainTh ["b", "c", "d", "e", "f"]] [] = .ok (.success, s) ∧
    Ladder toyE ["th_1", "b", "c", "d", "e", "f"] (Given [polarM "b", chainTh ["b", "c", "d", "e", "f"]] []) ["f", "e", "d", "c", "b", "th_1"] ∧
    s.aux.length = 0 := by
  obtain ⟨s, h1, _, _, h4⟩ := glance_ok polar6
  exact ⟨s, h1, ladder_of (by decide +kernel) (by decide +kernel) (by decide +kernel), h4⟩

/-- C58 is false of the code for seven unknowns if the first one has a tangent solution: every second round is spent on solving the first
unknown again, and the run returns FAILURE. -/
theorem C58_tangent_first_violation :
    Ladder toyE ["th_1", "b", "c", "d", "e", "f", "g"] (Given [polarM "b", chainTh ["b", "c", "d", "e", "f", "g"]] [])
      ["g", "f", "e", "d", "c", "b", "th_1"] ∧
    ∃ s, solve toyE ["th_1", "b", "c", "d", "e", "f", "g"] [polarM "b", chainTh ["b", "c", "d", "e", "f", "g"]] [] = .ok (.failure, s) ∧
      s.w.nodes = ["th_1", "g", "th_1", "f", "th_1", "e", "th_1", "d", "th_1", "c"] := by
  refine ⟨ladder_of (by decide +kernel) (by decide +kernel) (by decide +kernel), ?_⟩
  have h : glance "th_1" (solve toyE ["th_1", "b", "c", "d", "e", "f", "g"] [polarM "b", chainTh ["b", "c", "d", "e", "f", "g"]] []) =
      some (.failure, ["th_1", "g", "th_1", "f", "th_1", "e", "th_1", "d", "th_1", "c"], true, 0) := by decide +kernel
  obtain ⟨s, h1, h2, _⟩ := glance_ok h
  exact ⟨s, h1, h2⟩

/-- Non-vacuity of C58_more_than_ten_violation: eleven unknowns, each determined by an equation of its own. -/
def eleven : List String := ["a", "b", "c", "d", "e", "f", "g", "h", "i", "j", "k"]
/-- p = u + l for each of them -/
def ownM : MEqn := matOf fun i j => match eleven[4 * i.val + j.val]? with
  | none => (.num 0, .num 0)
  | some x => (.sym "p", .bin .add (.sym x) (.sym "l"))
example : eleven.Nodup ∧ Ladder toyE eleven (Given [zeroM, ownM] []) eleven ∧
    ∃ s, solve toyE eleven [zeroM, ownM] [] = .ok (.failure, s) ∧ s.w.nodes.length = 10 := by
  refine ⟨by decide, ladder_of (by decide +kernel) (by decide +kernel) (by decide +kernel), ?_⟩
  have h : (solve toyE eleven [zeroM, ownM] []).toOption.map (fun r => (r.1, r.2.w.nodes.length)) = some (.failure, 10) := by decide +kernel
  cases hr : solve toyE eleven [zeroM, ownM] [] with
  | error c => rw [hr] at h; cases h
  | ok r =>
    obtain ⟨st, s⟩ := r
    rw [hr] at h
    simp only [Except.toOption, Option.map_some, Option.some.injEq, Prod.mk.injEq] at h
    obtain ⟨rfl, h⟩ := h
    exact ⟨s, rfl, h⟩

end Verif.Solver
