import Verif.Leaf.Toy
/-!
# C39, C40: the two transforms
-/
namespace Verif.Leaf
open Verif.Sym Verif.Sol Verif.Eqn
open Verif.BT (Status)

/-! ## C39 -/

theorem x2z2Find_spec {P : Sympy} {vs : List Var} {e : KEqn} : ∀ {l : List KEqn}, x2z2Find P vs l = some e →
    ∃ i j : Nat, i < j ∧ ∃ e1 e2, l[i]? = some e1 ∧ l[j]? = some e2 ∧ x2z2Pair P vs e1 e2 = some e
  | [], h => by simp [x2z2Find] at h
  | c :: l, h => by
    simp only [x2z2Find] at h
    split at h
    · next r hr =>
      cases h
      obtain ⟨c', hc', hp⟩ := List.exists_of_findSome?_eq_some hr
      obtain ⟨k, hk⟩ := List.mem_iff_getElem?.mp hc'
      exact ⟨0, k + 1, by omega, c, c', rfl, by simpa using hk, hp⟩
    · obtain ⟨i, j, hij, e1, e2, h1, h2, h3⟩ := x2z2Find_spec h
      exact ⟨i + 1, j + 1, by omega, e1, e2, by simpa using h1, by simpa using h2, h3⟩

/-- The values of the symbols respect the sums of angles: th_12 = th_1 + th_2 and so on, for all sums of two or three
angles of consecutive joints. -/
def RespectsSums (env : String → ℝ) : Prop :=
  (∀ i ∈ [1, 2, 3, 4, 5], env s!"th_{i}{i + 1}" = env s!"th_{i}" + env s!"th_{i + 1}") ∧
  (∀ i ∈ [1, 2, 3, 4], env s!"th_{i}{i + 1}{i + 2}" = env s!"th_{i}" + env s!"th_{i + 1}" + env s!"th_{i + 2}")

/-- The table of expansions is right. -/
theorem soa_right {env : String → ℝ} (h : RespectsSums env) {s : String} {e : Expr} (hs : soaExpansions s = some e) :
    env s = e.eval env := by
  obtain ⟨h2, h3⟩ := h
  have a1 := h2 1 (by simp)
  have a2 := h2 2 (by simp)
  have a3 := h2 3 (by simp)
  have a4 := h2 4 (by simp)
  have a5 := h2 5 (by simp)
  have b1 := h3 1 (by simp)
  have b2 := h3 2 (by simp)
  have b3 := h3 3 (by simp)
  have b4 := h3 4 (by simp)
  unfold soaExpansions at hs
  dsimp only at hs
  repeat' split at hs
  all_goals cases hs
  all_goals subst_vars; first | exact a1 | exact a2 | exact a3 | exact a4 | exact a5 | exact b1 | exact b2 | exact b3 | exact b4

theorem eval_soa {env : String → ℝ} (h : RespectsSums env) (e : Expr) : (e.subs soaExpansions).eval env = e.eval env := by
  rw [Expr.eval_subs]
  congr 1
  funext s
  cases hs : soaExpansions s with
  | none => rfl
  | some r => exact (soa_right h hs).symm

theorem x2z2Pair_spec {P : Sympy} {G} (hP : P.Sound G) {vs : List Var} {e1 e2 e : KEqn}
    (h : x2z2Pair P vs e1 e2 = some e) :
    countUnknowns vs e.lhs = 0 ∧ countUnknowns vs e.rhs = 1 ∧
    ∀ env, G env → RespectsSums env → Holds env e1 → Holds env e2 → Holds env e := by
  unfold x2z2Pair at h
  dsimp only at h
  split at h
  swap
  · cases h
  next h0 =>
  split at h
  swap
  · cases h
  next h1 =>
  cases h
  refine ⟨h0, h1, ?_⟩
  intro env hG hs k1 k2
  simp only [Holds, hP.simplify _ _ hG, eval_soa hs, Expr.eval, Fn2.eval] at *
  rw [k1, k2]

/-- C39: a successful tick of x2z2_transform adds one equation to the auxiliary equations and changes nothing else but the
description of the method of one unknown. The equation comes from two different equations of the two-unknown list: it holds
at all values of the symbols that satisfy both and respect the sums of angles. Its left side has no unsolved unknown, its
right side has exactly one. -/
theorem C39_x2z2 {P : Sympy} {G} (hP : P.Sound G) {s s' : LS} (h : x2z2 P s = .ok (.success, s')) :
    ∃ e : KEqn, s'.aux = s.aux ++ [e] ∧ s'.w = s.w ∧ s'.lists = s.lists ∧ s'.ms = s.ms ∧ s'.curr = s.curr ∧
      s'.counter = s.counter ∧
      countUnknowns s.vars e.lhs = 0 ∧ countUnknowns s.vars e.rhs = 1 ∧
      ∃ e1 ∈ s.lists.l2, ∃ e2 ∈ s.lists.l2, ∃ i j : Nat, i < j ∧ (s.lists.l2.filter hasP)[i]? = some e1 ∧
        (s.lists.l2.filter hasP)[j]? = some e2 ∧
        ∀ env, G env → RespectsSums env → Holds env e1 → Holds env e2 → Holds env e := by
  unfold x2z2 at h
  split at h
  swap
  · cases h
  split at h
  · cases h
  next e he =>
  split at h
  · cases h
  next v hv =>
  simp only [Except.ok.injEq, Prod.mk.injEq, true_and] at h
  subst h
  obtain ⟨i, j, hij, e1, e2, h1, h2, h3⟩ := x2z2Find_spec he
  obtain ⟨c0, c1, hh⟩ := x2z2Pair_spec hP h3
  exact ⟨e, rfl, rfl, rfl, rfl, rfl, rfl, c0, c1, e1, List.mem_of_mem_filter (List.mem_of_getElem? h1), e2,
    List.mem_of_mem_filter (List.mem_of_getElem? h2), i, j, hij, h1, h2, hh⟩

/-- ... and it fails, without any effect, if it does not succeed: it never raises. -/
theorem C39_x2z2_otherwise (P : Sympy) (s : LS) : (∃ s', x2z2 P s = .ok (.success, s')) ∨ x2z2 P s = .ok (.failure, s) := by
  unfold x2z2
  split
  · split
    · exact .inr rfl
    · split
      · exact .inr rfl
      · exact .inl ⟨_, rfl⟩
  · exact .inr rfl

/-- Non-vacuity: Px = th_3 - th_3 and Pz = cos(th_2) (kept as trees, so both unknowns occur and the list is the two-unknown one). -/
def demoX2 : LS := mk ["th_2", "th_3"] []
  [⟨.sym "Px", plus (.sym "th_3") (.un .neg (.sym "th_3"))⟩, ⟨.sym "Pz", .un .cos (.sym "th_2")⟩]
def demoX2_view : Out → Option (List KEqn)
  | .ok (.success, s) => some s.aux
  | _ => none
example : ∃ s', x2z2 toy demoX2 = .ok (.success, s') ∧ s'.aux.length = 1 := by
  have h : (demoX2_view (x2z2 toy demoX2)).map List.length = some 1 := by decide +kernel
  rcases C39_x2z2_otherwise toy demoX2 with ⟨s', hs'⟩ | hs'
  · rw [hs'] at h; exact ⟨s', hs', by simpa [demoX2_view] using h⟩
  · rw [hs'] at h; simp [demoX2_view] at h

/-! ## C40 -/

/-- The values of the symbols satisfy the matrix equation (in its first three rows; the last one is 0 0 0 1 on both sides). -/
def MHolds (env : String → ℝ) (m : MEqn) : Prop := ∀ i j, (m.td i j).eval env = (m.ts i j).eval env

/-- If an expression has fewer unsolved unknowns, one of them was lost. -/
theorem exists_lost {vs : List Var} {a b : Expr} (h : countUnknowns vs a < countUnknowns vs b) :
    ∃ v ∈ vs, v.solved = false ∧ b.has v.name = true ∧ a.has v.name = false := by
  by_contra hc
  have hsub : (getUnknowns vs b).length ≤ (getUnknowns vs a).length := by
    unfold getUnknowns
    rw [foldl_filter (p := fun u => b.has u.name && u.solved == false),
      foldl_filter (p := fun u => a.has u.name && u.solved == false)]
    simp only [List.nil_append]
    apply List.Sublist.length_le
    rw [show vs.filter (fun u => b.has u.name && u.solved == false) = (vs.filter (fun u => a.has u.name && u.solved == false)).filter (fun u => b.has u.name && u.solved == false) from ?_]
    · exact List.filter_sublist
    · rw [List.filter_filter]
      apply List.filter_congr
      intro v hv
      by_cases hb : b.has v.name = true <;> by_cases hs : v.solved = false <;> simp [hb, hs]
      by_contra ha
      exact hc ⟨v, hv, hs, hb, by simpa using ha⟩
  rw [countUnknowns_eq, countUnknowns_eq] at h
  omega

/-- symbol w occurs at depth n -/
def OccAt (w : String) : Expr → Nat → Prop
  | .num _, _ => False
  | .sym s, n => s = w ∧ n = 0
  | .un _ _, 0 => False
  | .un _ a, n + 1 => OccAt w a n
  | .bin _ _ _, 0 => False
  | .bin _ a b, n + 1 => OccAt w a n ∨ OccAt w b n

theorem occAt_has {w : String} : ∀ {e : Expr} {n : Nat}, OccAt w e n → e.has w = true
  | .num _, _, h => h.elim
  | .sym s, n, h => by simpa [Expr.has] using h.1
  | .un _ _, 0, h => h.elim
  | .un _ a, n + 1, h => occAt_has (e := a) h
  | .bin _ _ _, 0, h => h.elim
  | .bin _ a b, n + 1, h => by
    rcases h with h | h
    · simp [Expr.has, occAt_has h]
    · simp [Expr.has, occAt_has h]

theorem has_occAt {w : String} : ∀ {e : Expr}, e.has w = true → ∃ n, OccAt w e n
  | .num _, h => by simp [Expr.has] at h
  | .sym s, h => ⟨0, by simpa [Expr.has] using h, rfl⟩
  | .un _ a, h => by
    obtain ⟨n, hn⟩ := has_occAt (e := a) h
    exact ⟨n + 1, hn⟩
  | .bin _ a b, h => by
    simp only [Expr.has, Bool.or_eq_true] at h
    rcases h with h | h
    · obtain ⟨n, hn⟩ := has_occAt h; exact ⟨n + 1, .inl hn⟩
    · obtain ⟨n, hn⟩ := has_occAt h; exact ⟨n + 1, .inr hn⟩

theorem occAt_replace {w : String} {old new : Expr} (hw : new.has w = false) :
    ∀ {e : Expr} {n : Nat}, OccAt w (e.replace old new) n → OccAt w e n := by
  have hn : ∀ n, ¬ OccAt w new n := fun n h => by rw [occAt_has h] at hw; cases hw
  intro e
  induction e with
  | num q =>
    intro n h
    simp only [Expr.replace] at h
    split at h
    · exact (hn _ h).elim
    · exact h
  | sym s =>
    intro n h
    simp only [Expr.replace] at h
    split at h
    · exact (hn _ h).elim
    · exact h
  | un f a ih =>
    intro n h
    simp only [Expr.replace] at h
    split at h
    · exact (hn _ h).elim
    · cases n with
      | zero => exact h
      | succ n => exact ih (n := n) h
  | bin f a b iha ihb =>
    intro n h
    simp only [Expr.replace] at h
    split at h
    · exact (hn _ h).elim
    · cases n with
      | zero => exact h
      | succ n => exact h.imp (iha (n := n)) (ihb (n := n))

theorem occAt_lost {w : String} {old new : Expr} :
    ∀ {e : Expr} {n : Nat}, (e.replace old new).has w = false → OccAt w e n → e = old ∨ ∃ m < n, OccAt w old m := by
  intro e
  induction e with
  | num q => intro n _ h; exact h.elim
  | sym s =>
    intro n h1 h2
    simp only [Expr.replace] at h1
    split at h1
    · next h => exact .inl h
    · rw [occAt_has h2] at h1; cases h1
  | un f a ih =>
    intro n h1 h2
    simp only [Expr.replace] at h1
    split at h1
    · next h => exact .inl h
    · cases n with
      | zero => exact h2.elim
      | succ n =>
        rcases ih (n := n) h1 h2 with rfl | ⟨m, hm, ho⟩
        · exact .inr ⟨n, by omega, h2⟩
        · exact .inr ⟨m, by omega, ho⟩
  | bin f a b iha ihb =>
    intro n h1 h2
    simp only [Expr.replace] at h1
    split at h1
    · next h => exact .inl h
    · simp only [Expr.has, Bool.or_eq_false_iff] at h1
      cases n with
      | zero => exact h2.elim
      | succ n =>
        rcases h2 with h2 | h2
        · rcases iha (n := n) h1.1 h2 with rfl | ⟨m, hm, ho⟩
          · exact .inr ⟨n, by omega, h2⟩
          · exact .inr ⟨m, by omega, ho⟩
        · rcases ihb (n := n) h1.2 h2 with rfl | ⟨m, hm, ho⟩
          · exact .inr ⟨n, by omega, h2⟩
          · exact .inr ⟨m, by omega, ho⟩

/-- Replacing a subtree by something without w and then the result, inside the original, by anything: w is not lost. -/
theorem no_self {w : String} {e old new t : Expr} (hw : new.has w = false) (he : e.has w = true)
    (hne : e.replace old new ≠ e) :
    (e.replace (e.replace old new) t).has w = true ∧ (e.replace (negE (e.replace old new)) t).has w = true := by
  classical
  have hex := has_occAt he
  have hmin := Nat.find_spec hex
  have hm : ∀ m, OccAt w (e.replace old new) m → Nat.find hex ≤ m := fun m h => Nat.find_min' hex (occAt_replace hw h)
  constructor
  · by_contra hc
    rcases occAt_lost (by simpa using hc) hmin with h | ⟨m, hlt, ho⟩
    · exact hne h.symm
    · have := hm m ho; omega
  · by_contra hc
    have key : ∀ m, OccAt w (negE (e.replace old new)) m → Nat.find hex < m := by
      intro m ho
      cases m with
      | zero => exact ho.elim
      | succ m => have := hm m ho; omega
    rcases occAt_lost (by simpa using hc) hmin with h | ⟨m, hlt, ho⟩
    · exact absurd (key _ ((congrArg (fun x => OccAt w x (Nat.find hex)) h).mp hmin)) (by omega)
    · have := key m ho; omega

/-! ### One step -/

@[simp] theorem setTs_td (m : MEqn) (c) (e) : (MEqn.setTs m c e).td = m.td := rfl
@[simp] theorem setTs_ts_self (m : MEqn) (c : Fin 3 × Fin 4) (e) : (MEqn.setTs m c e).ts c.1 c.2 = e := by simp [MEqn.setTs]
theorem setTs_ts_ne (m : MEqn) {c d : Fin 3 × Fin 4} (e) (h : d ≠ c) : (MEqn.setTs m c e).ts d.1 d.2 = m.ts d.1 d.2 := by
  simp [MEqn.setTs, h]

/-- A step does nothing or writes e2 with an entry (or its negative) replaced by its left side (or its negative), if this has
fewer unsolved unknowns. -/
theorem subStep_cases (P : Sympy) (vs : List Var) (c : Fin 3 × Fin 4) (e2 : Expr) (m : MEqn) (b : Bool) (kl : Fin 3 × Fin 4) :
    subStep P vs c e2 (m, b) kl = (m, b) ∨
    ∃ old new : Expr, ((old = m.ts kl.1 kl.2 ∧ new = m.td kl.1 kl.2) ∨
        (old = negE (m.ts kl.1 kl.2) ∧ new = negE (m.td kl.1 kl.2))) ∧
      P.eqE (m.ts kl.1 kl.2) e2 = false ∧ countUnknowns vs (P.subst e2 old new) < countUnknowns vs e2 ∧
      subStep P vs c e2 (m, b) kl = (MEqn.setTs m c (P.subst e2 old new), true) := by
  unfold subStep
  dsimp only
  split
  · next h =>
    split
    · next hlt =>
      simp only [Bool.and_eq_true, Bool.not_eq_true'] at h
      exact .inr ⟨_, _, .inl ⟨rfl, rfl⟩, h.1.1, hlt, rfl⟩
    · exact .inl rfl
  · split
    · next h =>
      split
      · next hlt =>
        simp only [Bool.and_eq_true, Bool.not_eq_true'] at h
        exact .inr ⟨_, _, .inr ⟨rfl, rfl⟩, h.1.1, hlt, rfl⟩
      · exact .inl rfl
    · exact .inl rfl

/-- foldl keeps a property that every step keeps -/
theorem foldl_inv {α β : Type} {f : β → α → β} {I : β → Prop} : ∀ (l : List α) (b : β), I b → (∀ b a, a ∈ l → I b → I (f b a)) →
    I (l.foldl f b)
  | [], _, h, _ => h
  | a :: l, b, h, hs => foldl_inv l (f b a) (hs b a (by simp) h) fun b a' ha => hs b a' (by simp [ha])

/-- The loops over all entries keep what one entry keeps. -/
theorem subAll_inv {P : Sympy} {vs : List Var} {I : MEqn → Prop} (hc : ∀ m b c, I m → I (subCell P vs (m, b) c).1)
    (m : MEqn) (b : Bool) (h : I m) : I (cells.foldl (subCell P vs) (m, b)).1 :=
  foldl_inv (I := fun r : MEqn × Bool => I r.1) cells (m, b) h fun r c _ hr => hc r.1 r.2 c hr

/-- Nothing is written unless the flag is set. -/
theorem subAll_flag {P : Sympy} {vs : List Var} (m : MEqn) (h : (cells.foldl (subCell P vs) (m, false)).2 = false) :
    (cells.foldl (subCell P vs) (m, false)).1 = m := by
  have hstep : ∀ c e2 (r : MEqn × Bool), (r.2 = false → r.1 = m) → ∀ kl, (subStep P vs c e2 r kl).2 = false →
      (subStep P vs c e2 r kl).1 = m := by
    intro c e2 r hr kl h
    rcases subStep_cases P vs c e2 r.1 r.2 kl with h1 | ⟨_, _, _, _, _, h1⟩
    · rw [show (r.1, r.2) = r from rfl] at h1; rw [h1] at h ⊢; exact hr h
    · rw [show (r.1, r.2) = r from rfl] at h1; rw [h1] at h; cases h
  exact foldl_inv (I := fun r : MEqn × Bool => r.2 = false → r.1 = m) cells (m, false) (fun _ => rfl) (fun r c _ hr =>
    foldl_inv (I := fun r : MEqn × Bool => r.2 = false → r.1 = m) cells r hr fun r' kl _ hr' => hstep c _ r' hr' kl) h

/-! ### Consequences, for every sympy -/

theorem subCell_forward {P : Sympy} {G} (hP : P.Sound G) (vs : List Var) {env : String → ℝ} (hG : G env) (m : MEqn) (b : Bool)
    (c : Fin 3 × Fin 4) (h : MHolds env m) : MHolds env (subCell P vs (m, b) c).1 := by
  unfold subCell
  dsimp only
  set e2 := m.ts c.1 c.2 with he2
  have h2 : (m.td c.1 c.2).eval env = e2.eval env := h c.1 c.2
  refine (foldl_inv (I := fun r : MEqn × Bool => r.1.td = m.td ∧ MHolds env r.1) cells (m, b) ⟨rfl, h⟩ ?_).2
  rintro ⟨m', b'⟩ kl - ⟨htd, hm⟩
  rcases subStep_cases P vs c e2 m' b' kl with h1 | ⟨old, new, hon, -, -, h1⟩
  · rw [h1]; exact ⟨htd, hm⟩
  · rw [h1]
    refine ⟨htd, ?_⟩
    have heq : old.eval env = new.eval env := by
      rcases hon with ⟨rfl, rfl⟩ | ⟨rfl, rfl⟩
      · exact (hm kl.1 kl.2).symm
      · simp only [negE, Expr.eval, Fn1.eval, hm kl.1 kl.2]
    intro i j
    by_cases hij : (i, j) = c
    · subst hij
      rw [setTs_ts_self, hP.subst _ _ _ _ hG heq, setTs_td, htd, h2]
    · have := setTs_ts_ne m' (P.subst e2 old new) hij
      dsimp only at this
      rw [this, setTs_td]
      exact hm i j

theorem subCell_count (P : Sympy) (vs : List Var) (m m0 : MEqn) (b : Bool)
    (c : Fin 3 × Fin 4) (h : m.td = m0.td ∧ ∀ i j, countUnknowns vs (m.ts i j) ≤ countUnknowns vs (m0.ts i j)) :
    (subCell P vs (m, b) c).1.td = m0.td ∧
    ∀ i j, countUnknowns vs ((subCell P vs (m, b) c).1.ts i j) ≤ countUnknowns vs (m0.ts i j) := by
  unfold subCell
  dsimp only
  refine foldl_inv (I := fun r : MEqn × Bool => r.1.td = m0.td ∧ ∀ i j, countUnknowns vs (r.1.ts i j) ≤ countUnknowns vs (m0.ts i j))
    cells (m, b) h ?_
  rintro ⟨m', b'⟩ kl - ⟨htd, hm⟩
  rcases subStep_cases P vs c (m.ts c.1 c.2) m' b' kl with h1 | ⟨old, new, -, -, hlt, h1⟩
  · rw [h1]; exact ⟨htd, hm⟩
  · rw [h1]
    refine ⟨htd, ?_⟩
    intro i j
    by_cases hij : (i, j) = c
    · subst hij
      rw [setTs_ts_self]; exact le_trans hlt.le (h.2 i j)
    · have := setTs_ts_ne m' (P.subst (m.ts c.1 c.2) old new) hij
      dsimp only at this
      rw [this]; exact hm i j

/-- What a tick of sub_transform does: the first matrix equation is replaced, the lists are scanned anew if anything was
substituted (and are left alone otherwise, and then the matrix is the same), nothing else changes. -/
theorem subTransform_spec {P : Sympy} {s s' : LS} {st : Status} (h : subTransform P s = .ok (st, s')) :
    ∃ m ms, s.ms = m :: ms ∧ st = .success ∧ s'.ms = (cells.foldl (subCell P s.vars) (m, false)).1 :: ms ∧
      s'.w = s.w ∧ s'.ld = s.ld ∧ s'.aux = s.aux ∧ s'.curr = s.curr ∧ s'.counter = s.counter ∧ s'.guards = s.guards ∧
      ((s'.ms = s.ms ∧ s'.lists = s.lists) ∨ scanForEquations P.toCAS s'.ms s.aux s.vars = .ok s'.lists) := by
  unfold subTransform at h
  split at h
  · cases h
  next m ms hms =>
  dsimp only at h
  split at h
  · split at h
    · cases h
    · next L hL =>
      simp only [Except.ok.injEq, Prod.mk.injEq] at h
      obtain ⟨rfl, rfl⟩ := h
      exact ⟨m, ms, hms, rfl, rfl, rfl, rfl, rfl, rfl, rfl, rfl, .inr hL⟩
  · next hf =>
    simp only [Except.ok.injEq, Prod.mk.injEq] at h
    obtain ⟨rfl, rfl⟩ := h
    refine ⟨m, ms, hms, rfl, rfl, rfl, rfl, rfl, rfl, rfl, rfl, .inl ⟨?_, rfl⟩⟩
    simp only [hms, List.cons.injEq, and_true]
    exact subAll_flag m (by simpa using hf)

/-- C40, the part that holds for every sympy: the left sides are kept, no entry gets more unsolved unknowns, and all values
of the symbols that satisfy the matrix equation satisfy the new one; the other matrix equations, the auxiliary equations and
the unknowns are not touched. -/
theorem C40_consequence_partial {P : Sympy} {G} (hP : P.Sound G) {s s' : LS} {st : Status} (h : subTransform P s = .ok (st, s')) :
    ∃ m m' ms, s.ms = m :: ms ∧ s'.ms = m' :: ms ∧ s'.w = s.w ∧ s'.aux = s.aux ∧ m'.td = m.td ∧
      (∀ i j, countUnknowns s.vars (m'.ts i j) ≤ countUnknowns s.vars (m.ts i j)) ∧
      ∀ env, G env → MHolds env m → MHolds env m' := by
  obtain ⟨m, ms, hms, -, h1, h2, -, h3, -, -, -, -⟩ := subTransform_spec h
  have hc := subAll_inv (P := P) (vs := s.vars)
    (I := fun m' => m'.td = m.td ∧ ∀ i j, countUnknowns s.vars (m'.ts i j) ≤ countUnknowns s.vars (m.ts i j))
    (fun m' b c h => subCell_count P s.vars m' m b c h) m false ⟨rfl, fun _ _ => le_rfl⟩
  exact ⟨m, _, ms, hms, h1, h2, h3, hc.1, hc.2, fun env hG hm =>
    subAll_inv (fun m' b c h => subCell_forward hP s.vars hG m' b c h) m false hm⟩

/-! ### Equivalence, for the replacement of subtrees -/

theorem subCell_equiv {P : Sympy} {G} (hP : P.Sound G) (hsub : P.subst = Expr.replace) (hrefl : ∀ e, P.eqE e e = true)
    (vs : List Var) (m : MEqn)
    (hfree : ∀ i j, ∀ v ∈ vs, v.solved = false → (m.td i j).has v.name = false) (b : Bool) (c : Fin 3 × Fin 4)
    {env : String → ℝ} (hG : G env) : MHolds env m ↔ MHolds env (subCell P vs (m, b) c).1 := by
  constructor
  · exact subCell_forward hP vs hG m b c
  unfold subCell
  dsimp only
  set e2 := m.ts c.1 c.2 with he2
  have inv := foldl_inv (f := subStep P vs c e2) (I := fun r : MEqn × Bool => r.1.td = m.td ∧
      (∀ d : Fin 3 × Fin 4, d ≠ c → r.1.ts d.1 d.2 = m.ts d.1 d.2) ∧
      (r.1.ts c.1 c.2 = e2 ∨ ∃ kl : Fin 3 × Fin 4, kl ≠ c ∧ ∃ old new : Expr,
        ((old = m.ts kl.1 kl.2 ∧ new = m.td kl.1 kl.2) ∨ (old = negE (m.ts kl.1 kl.2) ∧ new = negE (m.td kl.1 kl.2))) ∧
        r.1.ts c.1 c.2 = e2.replace old new)) cells (m, b) ⟨rfl, fun _ _ => rfl, .inl rfl⟩ (by
    rintro ⟨m', b'⟩ kl - ⟨htd, hoff, hself⟩
    rcases subStep_cases P vs c e2 m' b' kl with h1 | ⟨old, new, hon, hne, hlt, h1⟩
    · rw [h1]; exact ⟨htd, hoff, hself⟩
    rw [h1]
    dsimp only at htd hoff hself ⊢
    refine ⟨htd, fun d hd => by rw [setTs_ts_ne _ _ hd, hoff d hd], ?_⟩
    rw [setTs_ts_self, hsub]
    by_cases hkl : kl = c
    · -- an entry substituted into itself: never accepted
      subst hkl
      rcases hself with hs | ⟨kl', hkl', o, n, hon', hs⟩
      · rw [hs, hrefl] at hne; cases hne
      obtain ⟨v, hv, hvs, hhas, hlost⟩ := exists_lost hlt
      rw [hsub] at hlost
      have hn : n.has v.name = false := by
        rcases hon' with ⟨-, rfl⟩ | ⟨-, rfl⟩
        · exact hfree _ _ v hv hvs
        · simpa [negE, Expr.has] using hfree _ _ v hv hvs
      have hne' : e2.replace o n ≠ e2 := by
        intro hh
        rw [hs, hh, hrefl] at hne; cases hne
      have key := no_self (old := o) (t := new) hn hhas hne'
      rcases hon with ⟨rfl, -⟩ | ⟨rfl, -⟩
      · rw [hs, key.1] at hlost; cases hlost
      · rw [hs, key.2] at hlost; cases hlost
    · rw [hoff kl hkl, htd] at hon
      exact .inr ⟨kl, hkl, old, new, hon, rfl⟩)
  obtain ⟨htd, hoff, hself⟩ := inv
  intro hm i j
  by_cases hij : (i, j) = c
  · subst hij
    have hc := hm i j
    rw [htd] at hc
    dsimp only at hself he2
    rcases hself with hs | ⟨kl, hkl, old, new, hon, hs⟩
    · rw [hc, hs]
    · rw [hc, hs, ← hsub, hP.subst _ _ _ _ hG ?_]
      have hk := hm kl.1 kl.2
      rw [htd, hoff kl hkl] at hk
      rcases hon with ⟨rfl, rfl⟩ | ⟨rfl, rfl⟩
      · exact hk.symm
      · simp only [negE, Expr.eval, Fn1.eval, hk]
  · have h1 := hm i j
    rw [htd] at h1
    have := hoff (i, j) hij
    dsimp only at this
    rw [h1, this]

/-- C40 when `subs` replaces subtrees: if the left sides of the first matrix equation contain no unsolved unknowns (they are
the entries of the given pose) the new equations are satisfied by exactly the same values of the symbols. -/
theorem C40_equivalent_partial {P : Sympy} {G} (hP : P.Sound G) (hsub : P.subst = Expr.replace) (hrefl : ∀ e, P.eqE e e = true)
    {s s' : LS} {st : Status} (h : subTransform P s = .ok (st, s'))
    (hfree : ∀ m ∈ s.ms.head?, ∀ i j, ∀ v ∈ s.vars, v.solved = false → (m.td i j).has v.name = false) :
    ∃ m m' ms, s.ms = m :: ms ∧ s'.ms = m' :: ms ∧ ∀ env, G env → (MHolds env m ↔ MHolds env m') := by
  obtain ⟨m, ms, hms, -, h1, -⟩ := subTransform_spec h
  refine ⟨m, _, ms, hms, h1, fun env hG => ?_⟩
  have hf := hfree m (by simp [hms])
  exact (subAll_inv (P := P) (vs := s.vars) (I := fun m' => m'.td = m.td ∧ (MHolds env m ↔ MHolds env m'))
    (fun m' b c hm' => ⟨(subCell_count P s.vars m' m' b c ⟨rfl, fun _ _ => le_rfl⟩).1.trans hm'.1,
      hm'.2.trans (subCell_equiv hP hsub hrefl s.vars m' (by rw [hm'.1]; exact hf) b c hG)⟩) m false ⟨rfl, Iff.rfl⟩).2

/-! ### Demonstrations -/

/-- the right sides of the first matrix equation, if the tick succeeded -/
def tsView : Out → Option (List Expr)
  | .ok (.success, s) => s.ms.head?.map fun m => cells.map fun c => m.ts c.1 c.2
  | _ => none
theorem tsView_some {o : Out} {l} (h : tsView o = some l) :
    ∃ s, o = .ok (.success, s) ∧ s.ms.head?.map (fun m => cells.map fun c => m.ts c.1 c.2) = some l := by
  unfold tsView at h
  split at h
  · next s => exact ⟨s, rfl, h⟩
  · cases h

/-- a matrix equation with two entries, the others are 0 = 0 -/
def twoCells (l0 r0 l1 r1 : Expr) : MEqn where
  td i j := if (i, j) = (0, 0) then l0 else if (i, j) = (0, 1) then l1 else .num 0
  ts i j := if (i, j) = (0, 0) then r0 else if (i, j) = (0, 1) then r1 else .num 0

/-- r_11 = cos(th_1), Px = cos(th_1)*d_2 becomes r_11 = cos(th_1), Px = r_11*d_2. -/
def demoSub : LS :=
  { w := start ["th_1", "d_2"], lists := {},
    ms := [twoCells (.sym "r_11") (.un .cos ex_u) (.sym "Px") (times (.un .cos ex_u) (.sym "d_2"))] }
example : ∃ s', subTransform toy demoSub = .ok (.success, s') ∧
    s'.ms.head?.map (fun m => m.ts 0 1) = some (times (.sym "r_11") (.sym "d_2")) := by
  obtain ⟨s', h, hv⟩ := tsView_some (o := subTransform toy demoSub)
    (l := .un .cos ex_u :: times (.sym "r_11") (.sym "d_2") :: List.replicate 10 (.num 0)) (by decide +kernel)
  refine ⟨s', h, ?_⟩
  cases hm : s'.ms.head? with
  | none => rw [hm] at hv; cases hv
  | some m =>
    rw [hm] at hv
    simp only [Option.map_some, Option.some.injEq] at hv
    have := congrArg (fun l => l[1]?) hv
    simpa [cells, List.finRange] using this
/-- ... and the hypotheses of `C40_equivalent_partial` hold of it. -/
example : toy.Sound (fun _ => True) ∧ toy.subst = Expr.replace ∧ (∀ e, toy.eqE e e = true) ∧
    ∀ m ∈ demoSub.ms.head?, ∀ i j, ∀ v ∈ demoSub.vars, v.solved = false → (m.td i j).has v.name = false := by
  refine ⟨toy_sound, rfl, fun e => by simp [toy], ?_⟩
  intro m hm
  simp only [demoSub, List.head?_cons, Option.mem_def, Option.some.injEq] at hm
  subst hm
  decide

/-- remove the terms of a sum from another one -/
def removeTerms : List (Bool × Expr) → List (Bool × Expr) → Option (List (Bool × Expr))
  | l, [] => some l
  | l, t :: ts => if t ∈ l then removeTerms (l.erase t) ts else none

/-- sympy's sums are flat: `(a+b+c).has(a+c)` holds and `(a+b+c).subs(a+c, x)` is `b+x`. -/
def flatSubst (e old new : Expr) : Expr :=
  match removeTerms (terms false e) (terms false old) with
  | some rest => rebuild (cancel (rest ++ terms false (toyS new)))
  | none => e.replace old new

/-- the toy system with flat sums in `has` and `subs` -/
def toyFlat : Sympy :=
  { toy with
    hasE := fun e t => occurs t e || (removeTerms (terms false e) (terms false t)).isSome
    subst := flatSubst }

theorem tsum_removeTerms (env : String → ℝ) : ∀ {l ts r}, removeTerms l ts = some r → tsum env l = tsum env ts + tsum env r
  | l, [], r, h => by simp only [removeTerms, Option.some.injEq] at h; subst h; simp [tsum]
  | l, t :: ts, r, h => by
    rw [removeTerms] at h
    split at h
    · next hm =>
      have ih := tsum_removeTerms env h
      have hp := ((List.perm_cons_erase hm).map (tval env)).sum_eq
      simp only [tsum, List.map_cons, List.sum_cons] at ih hp ⊢
      rw [hp, ih]; ring
    · cases h

theorem toyFlat_sound : toyFlat.Sound fun _ => True :=
  { toy_sound with
    subst := by
      intro e old new env _ h
      show (flatSubst e old new).eval env = _
      unfold flatSubst
      split
      · next rest hr =>
        have h1 := tsum_removeTerms env hr
        have h2 : tsum env (rest ++ terms false (toyS new)) = tsum env rest + tsum env (terms false (toyS new)) := by
          simp [tsum]
        rw [eval_rebuild, tsum_cancel, h2, tsum_terms]
        rw [tsum_terms, tsum_terms] at h1
        simp only [tval, eval_toyS] at *
        simp only [Bool.false_eq_true, if_false] at *
        linarith
      · exact soundSub_replace e old new env h }

/-- 0 = d_1, Px = d_1 + (d_2 + l_1) -/
def badSub : LS :=
  { w := start ["d_1", "d_2"], lists := {},
    ms := [twoCells (.num 0) (.sym "d_1") (.sym "Px") (plus (.sym "d_1") (plus (.sym "d_2") (.sym "l_1")))] }

/-- C40 is false with sympy's flat sums: from 0 = d_1, Px = d_1 + d_2 + l_1 the entry first becomes d_2 + l_1, which is then
found inside the original expression and replaced by its own left side Px: the new equation is Px = Px + d_1, and d_2 has
disappeared from the equations although the left sides contain no unknowns. -/
theorem C40_violation : ∃ (P : Sympy) (s s' : LS) (m m' : MEqn), P.Sound (fun _ => True) ∧
    subTransform P s = .ok (.success, s') ∧ s.ms = [m] ∧ s'.ms = [m'] ∧
    (∀ i j, ∀ v ∈ s.vars, (m.td i j).has v.name = false) ∧ ∃ env, MHolds env m' ∧ ¬ MHolds env m := by
  obtain ⟨s', h, hv⟩ := tsView_some (o := subTransform toyFlat badSub)
    (l := .sym "d_1" :: plus (.sym "Px") (.sym "d_1") :: List.replicate 10 (.num 0)) (by decide +kernel)
  obtain ⟨m', hm⟩ : ∃ m', s'.ms = [m'] := by
    obtain ⟨m, ms, hms, -, h1, -⟩ := subTransform_spec h
    simp only [badSub, List.cons.injEq] at hms
    rw [← hms.2] at h1
    exact ⟨_, h1⟩
  have htd : m'.td = (twoCells (.num 0) (.sym "d_1") (.sym "Px") (plus (.sym "d_1") (plus (.sym "d_2") (.sym "l_1")))).td := by
    obtain ⟨m, m1, ms, hms, h1, -, -, h2, -⟩ := C40_consequence_partial toyFlat_sound h
    rw [hm] at h1
    simp only [badSub, List.cons.injEq] at hms h1
    rw [h1.1, h2, ← hms.1]
  rw [hm] at hv
  simp only [List.head?_cons, Option.map_some, Option.some.injEq, cells, List.finRange, List.map, List.flatMap,
    List.ofFn, Fin.foldr, Fin.foldr.loop, List.flatten, List.append, List.replicate, List.cons.injEq] at hv
  refine ⟨toyFlat, badSub, s', _, m', toyFlat_sound, h, rfl, hm, by decide, fun x => if x = "d_2" then 1 else 0, ?_, ?_⟩
  · intro i j
    rw [htd]
    fin_cases i <;> fin_cases j <;> simp_all [twoCells, Expr.eval, Fn2.eval, plus]
  · intro hc
    have := hc 0 1
    simp [twoCells, Expr.eval, Fn2.eval, plus] at this

end Verif.Leaf
