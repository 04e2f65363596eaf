import Verif.Leaf.Toy
/-!
# The identifiers find an equation exactly when there is one (C57)

For every identifier leaf: it returns SUCCESS if and only if the unknown at hand is unsolved and some equation (or pair)
on the blackboard has the form the leaf looks for; then the first such equation is recorded, and nothing else changes.
Two identifiers deviate: `sincos_id` never looks again once it has found something, `tan_id` answers SUCCESS from the
memory of an earlier tick.
-/
namespace Verif.Leaf
open Verif.Sym Verif.Sol Verif.Eqn
open Verif.BT (Status)

/-! ## Specification -/

/-- sin(u) occurs in the equation. -/
def HasSin (u : String) (e : KEqn) : Prop := occurs (.un .sin (.sym u)) e.lhs = true ∨ occurs (.un .sin (.sym u)) e.rhs = true
/-- cos(u) occurs in the equation. -/
def HasCos (u : String) (e : KEqn) : Prop := occurs (.un .cos (.sym u)) e.lhs = true ∨ occurs (.un .cos (.sym u)) e.rhs = true

/-- The equation determines `u` algebraically: `u` occurs, but not as sin(u) or cos(u), and sympy writes the difference of
the sides as `A*u + B` with `A` not the expression 0. -/
def LinearIn (P : Sympy) (u : String) (e : KEqn) : Prop :=
  (e.lhs.has u = true ∨ e.rhs.has u = true) ∧ ¬ HasSin u e ∧ ¬ HasCos u e ∧
  ∃ A B, P.lin (P.collectU u (P.sub e.rhs e.lhs)) (.sym u) [.sym u] = some (A, B) ∧ P.eqE A (.num 0) = false

/-- `e` is the first member of `l` with the property. -/
def FirstIn {β : Type} (l : List β) (p : β → Prop) (e : β) : Prop :=
  ∃ l1 l2, l = l1 ++ e :: l2 ∧ (∀ e' ∈ l1, ¬ p e') ∧ p e

/-- The state with other data of one unknown, all else unchanged. -/
def Recorded (s : LS) (d : LeafData) (s' : LS) : Prop :=
  s' = { s with ld := fun n => if n = s.curr then d else s.ld n }

theorem FirstIn.cons_pos {β : Type} {l : List β} {p : β → Prop} {e a : β} (hp : p a) : FirstIn (a :: l) p e ↔ e = a := by
  constructor
  · rintro ⟨l1, l2, h, hn, _⟩
    cases l1 with
    | nil => simp only [List.nil_append, List.cons.injEq] at h; exact h.1.symm
    | cons b l1 =>
      simp only [List.cons_append, List.cons.injEq] at h
      exact absurd (h.1 ▸ hp) (hn b (by simp))
  · rintro rfl; exact ⟨[], l, rfl, by simp, hp⟩

theorem FirstIn.cons_neg {β : Type} {l : List β} {p : β → Prop} {e a : β} (hp : ¬ p a) :
    FirstIn (a :: l) p e ↔ FirstIn l p e := by
  constructor
  · rintro ⟨l1, l2, h, hn, he⟩
    cases l1 with
    | nil => simp only [List.nil_append, List.cons.injEq] at h; exact absurd (h.1 ▸ he) hp
    | cons b l1 =>
      simp only [List.cons_append, List.cons.injEq] at h
      exact ⟨l1, l2, h.2, fun e' h' => hn e' (by simp [h']), he⟩
  · rintro ⟨l1, l2, h, hn, he⟩
    refine ⟨a :: l1, l2, by simp [h], ?_, he⟩
    intro e' h'
    rcases List.mem_cons.1 h' with rfl | h'
    · exact hp
    · exact hn e' h'

theorem firstIn_nil {β : Type} {p : β → Prop} {e : β} : ¬ FirstIn [] p e := by
  rintro ⟨l1, l2, h, _⟩; simp at h

theorem exists_first {β : Type} {p : β → Prop} : ∀ {l : List β}, (∃ e ∈ l, p e) → ∃ e, FirstIn l p e
  | [], h => by obtain ⟨e, he, _⟩ := h; simp at he
  | a :: l, h => by
    by_cases hp : p a
    · exact ⟨a, (FirstIn.cons_pos hp).2 rfl⟩
    · obtain ⟨e, he, hpe⟩ := h
      rcases List.mem_cons.1 he with rfl | he
      · exact absurd hpe hp
      · obtain ⟨e', he'⟩ := exists_first ⟨e, he, hpe⟩
        exact ⟨e', (FirstIn.cons_neg hp).2 he'⟩

/-! ## algebra_solver.py -/

theorem linearMatch_some {P : Sympy} {e : Expr} {u : String} {A B : Expr} :
    linearMatch P e u = some (A, B) ↔ P.lin e (.sym u) [.sym u] = some (A, B) ∧ P.eqE A (.num 0) = false := by
  simp only [linearMatch]
  cases h : P.lin e (.sym u) [.sym u] with
  | none => simp
  | some r =>
    obtain ⟨A', B'⟩ := r
    cases h' : P.eqE A' (.num 0) <;> simp [h']
    · rintro rfl rfl; exact h'
    · rintro rfl rfl; exact h'

theorem algebraFind_some {P : Sympy} {u : String} {t : Expr} : ∀ {l : List KEqn},
    algebraFind P u l = some t ↔ ∃ e, FirstIn l (LinearIn P u) e ∧ t = P.collectU u (P.sub e.rhs e.lhs)
  | [] => by simp [algebraFind, firstIn_nil]
  | a :: l => by
    have ih := algebraFind_some (P := P) (u := u) (t := t) (l := l)
    have hneg : ¬ LinearIn P u a → ((∃ e, FirstIn (a :: l) (LinearIn P u) e ∧ t = P.collectU u (P.sub e.rhs e.lhs)) ↔
        algebraFind P u l = some t) := by
      intro hn; simp only [FirstIn.cons_neg hn]; exact ih.symm
    simp only [algebraFind]
    split
    · rename_i h
      simp only [Bool.or_eq_true, sinU, cosU] at h
      refine (hneg fun hl => ?_).symm
      obtain ⟨_, hs, hc, _⟩ := hl
      simp only [HasSin, HasCos, not_or] at hs hc
      rcases h with ((h | h) | h) | h
      · exact hs.2 h
      · exact hc.2 h
      · exact hs.1 h
      · exact hc.1 h
    · rename_i h
      simp only [Bool.or_eq_true, sinU, cosU, not_or] at h
      split
      · rename_i hh
        simp only [Bool.or_eq_true] at hh
        cases hm : linearMatch P (P.collectU u (P.sub a.rhs a.lhs)) u with
        | none =>
          refine (hneg fun hl => ?_).symm
          obtain ⟨_, _, _, A, B, h1, h2⟩ := hl
          rw [linearMatch_some.2 ⟨h1, h2⟩] at hm; cases hm
        | some r =>
          have hl : LinearIn P u a :=
            ⟨hh.symm, by simp [HasSin, h], by simp [HasCos, h], r.1, r.2, linearMatch_some.1 hm⟩
          simp only [FirstIn.cons_pos hl, exists_eq_left, Option.some.injEq]
          exact eq_comm
      · rename_i hh
        simp only [Bool.or_eq_true] at hh
        exact (hneg fun hl => hh hl.1.symm).symm

/-- C57 (algebra): SUCCESS iff the unknown is unsolved and some equation with one unknown is linear in it; the first one
is recorded. -/
theorem C57_algebra {P : Sympy} {s s' : LS} : algebraId P s = .ok (.success, s') ↔
    (s.w.unk s.curr).solved = false ∧ ∃ e, FirstIn s.lists.l1 (LinearIn P s.curr) e ∧
      Recorded s { s.ld s.curr with
        ready := true, eqn := some ⟨.num 0, P.collectU s.curr (P.sub e.rhs e.lhs)⟩,
        method := (s.ld s.curr).method ++ [.algebra] } s' := by
  have hsv : (s.w.unk s.curr).solved = s.solved s.curr := rfl
  rw [hsv]
  simp only [algebraId]
  cases hl : s.lists.l1 with
  | nil => simp [firstIn_nil]
  | cons a l =>
    rw [if_neg (by simp)]
    by_cases hs : s.solved s.curr = true
    · rw [if_pos hs]; simp [hs]
    · rw [if_neg hs]
      simp only [Bool.not_eq_true] at hs
      simp only [hs, true_and]
      cases hf : algebraFind P s.curr (a :: l) with
      | none =>
        simp only [Except.ok.injEq, Prod.mk.injEq, reduceCtorEq, false_and, false_iff]
        rintro ⟨e, he, _⟩
        rw [algebraFind_some.2 ⟨e, he, rfl⟩] at hf; cases hf
      | some t =>
        simp only [Except.ok.injEq, Prod.mk.injEq, true_and]
        constructor
        · rintro rfl
          obtain ⟨e, he, rfl⟩ := algebraFind_some.1 hf
          refine ⟨e, he, ?_⟩
          simp only [Recorded, LS.updLd, LS.mk.injEq, true_and, and_true]
          funext n; split
          · rename_i h; rw [h]
          · rfl
        · rintro ⟨e, he, rfl⟩
          rw [algebraFind_some.2 ⟨e, he, rfl⟩] at hf; cases hf
          simp only [LS.updLd, LS.mk.injEq, true_and, and_true]
          funext n; split
          · rename_i h; rw [h]
          · rfl

/-- C57 (algebra): FAILURE, with nothing changed, in all other cases; no exception. -/
theorem C57_algebra_otherwise {P : Sympy} {s : LS} : algebraId P s = .ok (.failure, s) ↔
    (s.w.unk s.curr).solved = true ∨ ∀ e ∈ s.lists.l1, ¬ LinearIn P s.curr e := by
  have hcases : (∃ s', algebraId P s = .ok (.success, s')) ∨ algebraId P s = .ok (.failure, s) := by
    simp only [algebraId]
    split
    · exact .inr rfl
    · split
      · exact .inr rfl
      · split
        · exact .inr rfl
        · exact .inl ⟨_, rfl⟩
  constructor
  · intro h
    cases hs : (s.w.unk s.curr).solved with
    | true => exact .inl rfl
    | false =>
      right
      intro e he hl
      obtain ⟨e', he'⟩ := exists_first ⟨e, he, hl⟩
      rw [C57_algebra.2 ⟨hs, e', he', rfl⟩] at h; cases h
  · intro h
    rcases hcases with ⟨s', hc⟩ | hc
    · obtain ⟨hs, e, ⟨l1, l2, hl, _, hp⟩, _⟩ := C57_algebra.1 hc
      rcases h with h | h
      · rw [hs] at h; cases h
      · exact absurd hp (h e (by rw [hl]; simp))
    · exact hc

/-! ## sincos_solver.py -/

/-- The equation contains exactly one of sin(u) and cos(u). -/
def OneOf (u : String) (e : KEqn) : Prop := HasSin u e ∧ ¬ HasCos u e ∨ HasCos u e ∧ ¬ HasSin u e

theorem sincosFind_some {u : String} {e : KEqn} {t : Tag} : ∀ {l : List KEqn},
    sincosFind u l = some (e, t) ↔ FirstIn l (OneOf u) e ∧ (t = .arcsin ∧ HasSin u e ∨ t = .arccos ∧ HasCos u e)
  | [] => by simp [sincosFind, firstIn_nil]
  | a :: l => by
    have ih := sincosFind_some (u := u) (e := e) (t := t) (l := l)
    have hS : (occurs (sinU u) a.rhs || occurs (sinU u) a.lhs) = true ↔ HasSin u a := by
      simp only [HasSin, sinU, Bool.or_eq_true]; exact or_comm
    have hC : (occurs (cosU u) a.rhs || occurs (cosU u) a.lhs) = true ↔ HasCos u a := by
      simp only [HasCos, cosU, Bool.or_eq_true]; exact or_comm
    simp only [sincosFind]
    split
    · rename_i h
      rw [Bool.and_eq_true, hS, hC] at h
      rw [FirstIn.cons_neg (by simp [OneOf, h])]; exact ih
    · rename_i h
      rw [Bool.and_eq_true, hS, hC] at h
      split
      · rename_i h1
        rw [hS] at h1
        have h2 : ¬ HasCos u a := fun h2 => h ⟨h1, h2⟩
        rw [FirstIn.cons_pos (.inl ⟨h1, h2⟩)]
        simp only [Option.some.injEq, Prod.mk.injEq]
        constructor
        · rintro ⟨rfl, rfl⟩; exact ⟨rfl, .inl ⟨rfl, h1⟩⟩
        · rintro ⟨rfl, ⟨rfl, _⟩ | ⟨_, h3⟩⟩
          · exact ⟨rfl, rfl⟩
          · exact absurd h3 h2
      · rename_i h1
        rw [hS] at h1
        split
        · rename_i h2
          rw [hC] at h2
          rw [FirstIn.cons_pos (.inr ⟨h2, h1⟩)]
          simp only [Option.some.injEq, Prod.mk.injEq]
          constructor
          · rintro ⟨rfl, rfl⟩; exact ⟨rfl, .inr ⟨rfl, h2⟩⟩
          · rintro ⟨rfl, ⟨_, h3⟩ | ⟨rfl, _⟩⟩
            · exact absurd h3 h1
            · exact ⟨rfl, rfl⟩
        · rename_i h2
          rw [hC] at h2
          rw [FirstIn.cons_neg (by simp [OneOf, h1, h2])]; exact ih

/-- C57 (sine or cosine), partial: as long as the leaf has not found anything for this unknown before, SUCCESS iff it is
unsolved and some equation with one unknown contains exactly one of its sine and cosine; the first one is recorded, with
the method. Missing: the leaf does not look a second time (`C57_sincos_once_violation`). -/
theorem C57_sincos_partial {s s' : LS} (hn : (s.ld s.curr).solvableSc = false) : sincosId s = .ok (.success, s') ↔
    (s.w.unk s.curr).solved = false ∧ ∃ e t, FirstIn s.lists.l1 (OneOf s.curr) e ∧
      (t = .arcsin ∧ HasSin s.curr e ∨ t = .arccos ∧ HasCos s.curr e) ∧
      Recorded s { s.ld s.curr with eqn := some e, solvableSc := true, method := (s.ld s.curr).method ++ [t] } s' := by
  have hsv : (s.w.unk s.curr).solved = s.solved s.curr := rfl
  rw [hsv]
  simp only [sincosId, hn, Bool.not_false, Bool.true_and]
  by_cases hs : s.solved s.curr = true
  · simp [hs]
  · simp only [Bool.not_eq_true] at hs
    simp only [hs, Bool.not_false, if_true, true_and]
    cases hf : sincosFind s.curr s.lists.l1 with
    | none =>
      simp only [Except.ok.injEq, Prod.mk.injEq, reduceCtorEq, false_and, false_iff]
      rintro ⟨e, t, he, ht, _⟩
      rw [sincosFind_some.2 ⟨he, ht⟩] at hf; cases hf
    | some r =>
      obtain ⟨e', t'⟩ := r
      simp only [Except.ok.injEq, Prod.mk.injEq, true_and]
      constructor
      · rintro rfl
        obtain ⟨he, ht⟩ := sincosFind_some.1 hf
        refine ⟨e', t', he, ht, ?_⟩
        simp only [Recorded, LS.updLd, LS.mk.injEq, true_and, and_true]
        funext n; split
        · rename_i h; rw [h]
        · rfl
      · rintro ⟨e, t, he, ht, rfl⟩
        rw [sincosFind_some.2 ⟨he, ht⟩] at hf; cases hf
        simp only [LS.updLd, LS.mk.injEq, true_and, and_true]
        funext n; split
        · rename_i h; rw [h]
        · rfl

/-- C57 (sine or cosine): FAILURE, with nothing changed, otherwise. -/
theorem C57_sincos_otherwise {s : LS} : sincosId s = .ok (.failure, s) ↔
    (s.ld s.curr).solvableSc = true ∨ (s.w.unk s.curr).solved = true ∨ ∀ e ∈ s.lists.l1, ¬ OneOf s.curr e := by
  have hcases : (∃ s', sincosId s = .ok (.success, s')) ∨ sincosId s = .ok (.failure, s) := by
    simp only [sincosId]
    split
    · split
      · exact .inr rfl
      · exact .inl ⟨_, rfl⟩
    · exact .inr rfl
  cases hf : (s.ld s.curr).solvableSc with
  | true => simp [sincosId, hf]
  | false =>
    simp only [Bool.false_eq_true, false_or]
    constructor
    · intro h
      cases hs : (s.w.unk s.curr).solved with
      | true => exact .inl rfl
      | false =>
        right
        intro e he hl
        obtain ⟨e', he'⟩ := exists_first ⟨e, he, hl⟩
        have : ∃ t, (t = Tag.arcsin ∧ HasSin s.curr e' ∨ t = .arccos ∧ HasCos s.curr e') := by
          obtain ⟨_, _, _, _, hp⟩ := he'
          rcases hp with ⟨hp, _⟩ | ⟨hp, _⟩
          · exact ⟨_, .inl ⟨rfl, hp⟩⟩
          · exact ⟨_, .inr ⟨rfl, hp⟩⟩
        obtain ⟨t, ht⟩ := this
        rw [(C57_sincos_partial hf).2 ⟨hs, e', t, he', ht, rfl⟩] at h; cases h
    · intro h
      rcases hcases with ⟨s', hc⟩ | hc
      · obtain ⟨hs, e, t, ⟨l1, l2, hl, _, hp⟩, _⟩ := (C57_sincos_partial hf).1 hc
        rcases h with h | h
        · rw [hs] at h; cases h
        · exact absurd hp (h e (by rw [hl]; simp))
      · exact hc

/-! ## tan_solver.py -/

/-- The two equations (from different positions or the same) determine tan(u): the difference of the sides of the first
contains sin(u) and no cos(u), that of the second cos(u) and no sin(u); sympy writes them as `A*sin(u) + B` and
`C*cos(u) + D`; no unsolved unknown is left in `A/C`, `B` and `D`. -/
def TanPair (P : Sympy) (s : LS) (es ec : KEqn) : Prop :=
  let u := s.curr
  let a := P.sub es.rhs es.lhs
  let b := P.sub ec.rhs ec.lhs
  (a.has u = true ∧ occurs (.un .sin (.sym u)) a = true ∧ occurs (.un .cos (.sym u)) a = false) ∧
  (b.has u = true ∧ occurs (.un .cos (.sym u)) b = true ∧ occurs (.un .sin (.sym u)) b = false) ∧
  ∃ A B C D, P.lin (P.collectSC u a) (.un .sin (.sym u)) [.un .sin (.sym u), .un .cos (.sym u)] = some (A, B) ∧
    P.lin (P.collectSC u b) (.un .cos (.sym u)) [.un .sin (.sym u), .un .cos (.sym u)] = some (C, D) ∧
    ∀ x ∈ s.w.unknowns, (s.w.unk x).solved = false → (P.ratio A C).has x = false ∧ B.has x = false ∧ D.has x = false

theorem countUnknowns_zero {vs : List Var} {e : Expr} :
    countUnknowns vs e = 0 ↔ ∀ v ∈ vs, v.solved = false → e.has v.name = false := by
  constructor
  · intro h v hv hs; exact free_of_count h hv hs
  · intro h
    rw [countUnknowns_eq, List.length_eq_zero_iff, List.eq_nil_iff_forall_not_mem]
    intro v hv
    obtain ⟨h1, h2, h3⟩ := ((C24_get_unknowns vs e).1 v).1 hv
    rw [h v h1 h2] at h3; cases h3

theorem countUnknowns_vars {s : LS} {e : Expr} :
    countUnknowns s.vars e = 0 ↔ ∀ x ∈ s.w.unknowns, (s.w.unk x).solved = false → e.has x = false := by
  rw [countUnknowns_zero]
  simp [LS.vars]

theorem findSome_first {β γ : Type} {f : β → Option γ} {r : γ} : ∀ {l : List β},
    l.findSome? f = some r ↔ ∃ e, FirstIn l (fun e => (f e).isSome = true) e ∧ f e = some r
  | [] => by simp [firstIn_nil]
  | a :: l => by
    rw [List.findSome?_cons]
    cases h : f a with
    | none =>
      rw [findSome_first (l := l)]
      simp only [FirstIn.cons_neg (p := fun e => (f e).isSome = true) (a := a) (by simp [h])]
    | some x =>
      simp only [FirstIn.cons_pos (p := fun e => (f e).isSome = true) (a := a) (by simp [h]), exists_eq_left, h]

theorem FirstIn.congr {β : Type} {l : List β} {p q : β → Prop} {e : β} (h : ∀ a ∈ l, (p a ↔ q a)) :
    FirstIn l p e ↔ FirstIn l q e := by
  constructor
  · rintro ⟨l1, l2, rfl, hn, he⟩
    exact ⟨l1, l2, rfl, fun a ha hq => hn a ha ((h a (by simp [ha])).2 hq), (h e (by simp)).1 he⟩
  · rintro ⟨l1, l2, rfl, hn, he⟩
    exact ⟨l1, l2, rfl, fun a ha hq => hn a ha ((h a (by simp [ha])).1 hq), (h e (by simp)).2 he⟩

theorem findSome_filter {β γ : Type} {f : β → Option γ} {p : β → Bool} : ∀ {l : List β},
    (l.filter p).findSome? f = l.findSome? (fun e => if p e then f e else none)
  | [] => rfl
  | a :: l => by
    rw [List.findSome?_cons]
    cases h : p a
    · rw [List.filter_cons_of_neg (by simp [h])]; simp [findSome_filter (l := l)]
    · rw [List.filter_cons_of_pos h, List.findSome?_cons, findSome_filter (l := l)]; simp

/-- The pair the leaf takes: the first equation that is the sine part of some pair, with the first cosine part for it. -/
def FirstTanPair (P : Sympy) (s : LS) (es ec : KEqn) : Prop :=
  let l := s.lists.l1 ++ s.lists.l2
  FirstIn l (fun e => ∃ e' ∈ l, TanPair P s e e') es ∧ FirstIn l (TanPair P s es) ec

theorem tanPair_some {P : Sympy} {s : LS} {es ec : KEqn} {r : Expr × Expr} :
    tanPair P s.vars s.curr es ec = some r ↔
      r = (P.collectSC s.curr (P.sub es.rhs es.lhs), P.collectSC s.curr (P.sub ec.rhs ec.lhs)) ∧
      ∃ A B C D, P.lin (P.collectSC s.curr (P.sub es.rhs es.lhs)) (sinU s.curr) [sinU s.curr, cosU s.curr] = some (A, B) ∧
        P.lin (P.collectSC s.curr (P.sub ec.rhs ec.lhs)) (cosU s.curr) [sinU s.curr, cosU s.curr] = some (C, D) ∧
        ∀ x ∈ s.w.unknowns, (s.w.unk x).solved = false →
          (P.ratio A C).has x = false ∧ B.has x = false ∧ D.has x = false := by
  simp only [tanPair]
  cases h1 : P.lin (P.collectSC s.curr (P.sub es.rhs es.lhs)) (sinU s.curr) [sinU s.curr, cosU s.curr] with
  | none => simp
  | some ab =>
    obtain ⟨A, B⟩ := ab
    cases h2 : P.lin (P.collectSC s.curr (P.sub ec.rhs ec.lhs)) (cosU s.curr) [sinU s.curr, cosU s.curr] with
    | none => simp
    | some cd =>
      obtain ⟨C, D⟩ := cd
      dsimp only
      split
      · rename_i h
        simp only [reduceCtorEq, false_iff]
        rintro ⟨_, A', B', C', D', ha, hb, hx⟩
        cases ha; cases hb
        have e1 := countUnknowns_vars.2 fun x hx' hs => (hx x hx' hs).1
        have e2 := countUnknowns_vars.2 fun x hx' hs => (hx x hx' hs).2.1
        have e3 := countUnknowns_vars.2 fun x hx' hs => (hx x hx' hs).2.2
        simp [e1, e2, e3] at h
      · rename_i h
        simp only [gt_iff_lt, Bool.or_eq_true, decide_eq_true_eq, not_or, not_lt, Nat.le_zero] at h
        simp only [Option.some.injEq]
        constructor
        · rintro rfl
          exact ⟨rfl, A, B, C, D, rfl, rfl, fun x hx hs => ⟨countUnknowns_vars.1 h.1.1 x hx hs,
            countUnknowns_vars.1 h.1.2 x hx hs, countUnknowns_vars.1 h.2 x hx hs⟩⟩
        · rintro ⟨rfl, _⟩; rfl

/-- the test for the sine candidates -/
def sinOk (P : Sympy) (u : String) (e : KEqn) : Bool :=
  (P.sub e.rhs e.lhs).has u && !(occurs (sinU u) (P.sub e.rhs e.lhs) && occurs (cosU u) (P.sub e.rhs e.lhs)) &&
    occurs (sinU u) (P.sub e.rhs e.lhs)
/-- the test for the cosine candidates -/
def cosOk (P : Sympy) (u : String) (e : KEqn) : Bool :=
  (P.sub e.rhs e.lhs).has u && !(occurs (sinU u) (P.sub e.rhs e.lhs) && occurs (cosU u) (P.sub e.rhs e.lhs)) &&
    occurs (cosU u) (P.sub e.rhs e.lhs)

theorem tanPair_iff {P : Sympy} {s : LS} {es ec : KEqn} : TanPair P s es ec ↔
    sinOk P s.curr es = true ∧ cosOk P s.curr ec = true ∧ (tanPair P s.vars s.curr es ec).isSome = true := by
  rw [Option.isSome_iff_exists]
  simp only [tanPair_some]
  simp only [TanPair, sinOk, cosOk, sinU, cosU, Bool.and_eq_true, Bool.not_eq_true', Bool.and_eq_false_iff]
  constructor
  · rintro ⟨⟨h1, h2, h3⟩, ⟨h4, h5, h6⟩, h⟩
    exact ⟨⟨⟨h1, .inr h3⟩, h2⟩, ⟨⟨h4, .inl h6⟩, h5⟩, _, rfl, h⟩
  · rintro ⟨⟨⟨h1, h2⟩, h3⟩, ⟨⟨h4, h5⟩, h6⟩, _, _, h⟩
    refine ⟨⟨h1, h3, ?_⟩, ⟨h4, h6, ?_⟩, h⟩
    · rcases h2 with h2 | h2
      · rw [h3] at h2; cases h2
      · exact h2
    · rcases h5 with h5 | h5
      · exact h5
      · rw [h6] at h5; cases h5

theorem tanFind_some {P : Sympy} {s : LS} {r : Expr × Expr} :
    tanFind P s.vars s.curr (tanCands P s.curr (s.lists.l1 ++ s.lists.l2)).1
      (tanCands P s.curr (s.lists.l1 ++ s.lists.l2)).2 = some r ↔
    ∃ es ec, FirstTanPair P s es ec ∧
      r = (P.collectSC s.curr (P.sub es.rhs es.lhs), P.collectSC s.curr (P.sub ec.rhs ec.lhs)) := by
  simp only [FirstTanPair]
  generalize s.lists.l1 ++ s.lists.l2 = l
  have hin : ∀ es, sinOk P s.curr es = true → ∀ r,
      ((l.filter (cosOk P s.curr)).findSome? (tanPair P s.vars s.curr es) = some r ↔
        ∃ ec, FirstIn l (TanPair P s es) ec ∧
          r = (P.collectSC s.curr (P.sub es.rhs es.lhs), P.collectSC s.curr (P.sub ec.rhs ec.lhs))) := by
    intro es hes r
    rw [findSome_filter, findSome_first]
    refine exists_congr fun ec => ?_
    rw [FirstIn.congr (q := TanPair P s es)]
    · constructor
      · rintro ⟨h1, h2⟩
        refine ⟨h1, ?_⟩
        split at h2
        · exact (tanPair_some.1 h2).1
        · cases h2
      · rintro ⟨h1, h2⟩
        refine ⟨h1, ?_⟩
        obtain ⟨_, _, _, _, hp⟩ := h1
        have := tanPair_iff.1 hp
        rw [if_pos this.2.1]
        obtain ⟨r', hr'⟩ := Option.isSome_iff_exists.1 this.2.2
        rw [hr', h2, (tanPair_some.1 hr').1]
    · intro a _
      rw [tanPair_iff]
      by_cases h : cosOk P s.curr a = true <;> simp [h, hes]
  have hsome : ∀ es, sinOk P s.curr es = true →
      (((l.filter (cosOk P s.curr)).findSome? (tanPair P s.vars s.curr es)).isSome = true ↔
        ∃ ec ∈ l, TanPair P s es ec) := by
    intro es hes
    rw [Option.isSome_iff_exists]
    constructor
    · rintro ⟨r, hr⟩
      obtain ⟨ec, ⟨l1, l2, hl, _, hp⟩, _⟩ := (hin es hes r).1 hr
      exact ⟨ec, by rw [hl]; simp, hp⟩
    · intro h
      obtain ⟨ec, hec⟩ := exists_first h
      exact ⟨_, (hin es hes _).2 ⟨ec, hec, rfl⟩⟩
  show (l.filter (sinOk P s.curr)).findSome? (fun es => (l.filter (cosOk P s.curr)).findSome? fun ec =>
    tanPair P s.vars s.curr es ec) = some r ↔ _
  rw [findSome_filter, findSome_first]
  refine exists_congr fun es => ?_
  rw [FirstIn.congr (q := fun e => ∃ e' ∈ l, TanPair P s e e')]
  · constructor
    · rintro ⟨h1, h2⟩
      split at h2
      · rename_i hes
        obtain ⟨ec, hec, hr⟩ := (hin es hes r).1 h2
        exact ⟨ec, ⟨h1, hec⟩, hr⟩
      · cases h2
    · rintro ⟨ec, ⟨h1, hec⟩, hr⟩
      refine ⟨h1, ?_⟩
      have hes : sinOk P s.curr es = true := by
        obtain ⟨_, _, _, _, hp⟩ := hec
        exact (tanPair_iff.1 hp).1
      rw [if_pos hes]
      exact (hin es hes r).2 ⟨ec, hec, hr⟩
  · intro a _
    by_cases h : sinOk P s.curr a = true
    · rw [if_pos h, hsome a h]
    · rw [if_neg h]
      simp only [Option.isSome_none, Bool.false_eq_true, false_iff]
      rintro ⟨e', _, hp⟩
      exact h (tanPair_iff.1 hp).1

/-- C57 (tangent), partial: as long as the leaf has not found anything for this unknown before, SUCCESS iff it is unsolved
and some two equations with one or two unknowns determine its tangent; the first such pair is recorded. Missing: after that
the leaf answers from memory (`C57_tan_memory_violation`). -/
theorem C57_tan_partial {P : Sympy} {s s' : LS} (hn : (s.ld s.curr).solvableTan = false) :
    tanId P s = .ok (.success, s') ↔
    (s.w.unk s.curr).solved = false ∧ ∃ es ec, FirstTanPair P s es ec ∧
      Recorded s { s.ld s.curr with
        eqn := some ⟨.num 0, P.collectSC s.curr (P.sub es.rhs es.lhs)⟩,
        second := some ⟨.num 0, P.collectSC s.curr (P.sub ec.rhs ec.lhs)⟩,
        ready := true, method := (s.ld s.curr).method ++ [.atan2], solvableTan := true } s' := by
  have hsv : (s.w.unk s.curr).solved = s.solved s.curr := rfl
  rw [hsv]
  simp only [tanId, hn, Bool.not_false, Bool.true_and]
  by_cases hs : s.solved s.curr = true
  · simp [hs, hn]
  · simp only [Bool.not_eq_true] at hs
    simp only [hs, Bool.not_false, if_true, true_and]
    cases hf : tanFind P s.vars s.curr (tanCands P s.curr (s.lists.l1 ++ s.lists.l2)).1
      (tanCands P s.curr (s.lists.l1 ++ s.lists.l2)).2 with
    | none =>
      simp only [hn, Bool.false_eq_true, if_false, Except.ok.injEq, Prod.mk.injEq, reduceCtorEq, false_and, false_iff]
      rintro ⟨es, ec, he, _⟩
      rw [tanFind_some.2 ⟨es, ec, he, rfl⟩] at hf; cases hf
    | some r =>
      obtain ⟨a, b⟩ := r
      simp only [LS.updLd, if_true, Except.ok.injEq, Prod.mk.injEq, true_and]
      constructor
      · rintro rfl
        obtain ⟨es, ec, he, hr⟩ := tanFind_some.1 hf
        cases hr
        refine ⟨es, ec, he, ?_⟩
        simp only [Recorded, LS.mk.injEq, true_and, and_true]
        funext n; split
        · rename_i h; rw [h]
        · rfl
      · rintro ⟨es, ec, he, rfl⟩
        rw [tanFind_some.2 ⟨es, ec, he, rfl⟩] at hf; cases hf
        simp only [LS.mk.injEq, true_and, and_true]
        funext n; split
        · rename_i h; rw [h]
        · rfl

/-- C57 (tangent): FAILURE, with nothing changed, iff nothing was found before and there is nothing to be found. -/
theorem C57_tan_otherwise {P : Sympy} {s : LS} : tanId P s = .ok (.failure, s) ↔
    (s.ld s.curr).solvableTan = false ∧ ((s.w.unk s.curr).solved = true ∨
      ∀ es ∈ s.lists.l1 ++ s.lists.l2, ∀ ec ∈ s.lists.l1 ++ s.lists.l2, ¬ TanPair P s es ec) := by
  cases hn : (s.ld s.curr).solvableTan with
  | true => simp [tanId, hn]
  | false =>
    have hcases : (∃ s', tanId P s = .ok (.success, s')) ∨ tanId P s = .ok (.failure, s) := by
      simp only [tanId, hn]
      split
      · split
        · exact .inr (by simp [hn])
        · exact .inl ⟨_, by simp [LS.updLd]; rfl⟩
      · exact .inr (by simp [hn])
    simp only [true_and]
    constructor
    · intro h
      cases hs : (s.w.unk s.curr).solved with
      | true => exact .inl rfl
      | false =>
        right
        intro es hes ec hec hp
        obtain ⟨es', h1⟩ := exists_first (p := fun e => ∃ e' ∈ s.lists.l1 ++ s.lists.l2, TanPair P s e e')
          ⟨es, hes, ec, hec, hp⟩
        obtain ⟨_, _, _, _, hq⟩ := id h1
        obtain ⟨ec', h2⟩ := exists_first hq
        rw [(C57_tan_partial hn).2 ⟨hs, es', ec', ⟨h1, h2⟩, rfl⟩] at h; cases h
    · intro h
      rcases hcases with ⟨s', hc⟩ | hc
      · obtain ⟨hs, es, ec, ⟨⟨l1, l2, hl, _, _⟩, ⟨l3, l4, hl', _, hp⟩⟩, _⟩ := (C57_tan_partial hn).1 hc
        rcases h with h | h
        · rw [hs] at h; cases h
        · exact absurd hp (h es (by rw [hl]; simp) ec (by rw [hl']; simp))
      · exact hc

/-! ## sinANDcos_solver.py -/

/-- The equation has sin(u) and cos(u), and after expanding, what is left beside their terms is free of u. -/
def SinCosIn (P : Sympy) (u : String) (e : KEqn) : Prop :=
  let t := P.sub e.rhs e.lhs
  let f := P.expandSC u t
  occurs (.un .sin (.sym u)) t = true ∧ occurs (.un .cos (.sym u)) t = true ∧
  (P.sub f (.bin .add (.bin .mul (P.coeff f (.un .sin (.sym u))) (.un .sin (.sym u)))
    (.bin .mul (P.coeff f (.un .cos (.sym u))) (.un .cos (.sym u))))).has u = false

theorem sacFind_some {P : Sympy} {u : String} {t : Expr} : ∀ {l : List KEqn},
    sacFind P u l = some t ↔ ∃ e, FirstIn l (SinCosIn P u) e ∧ t = P.expandSC u (P.sub e.rhs e.lhs)
  | [] => by simp [sacFind, firstIn_nil]
  | a :: l => by
    have ih := sacFind_some (P := P) (u := u) (t := t) (l := l)
    have hneg : ¬ SinCosIn P u a → ((∃ e, FirstIn (a :: l) (SinCosIn P u) e ∧ t = P.expandSC u (P.sub e.rhs e.lhs)) ↔
        sacFind P u l = some t) := by
      intro hn; simp only [FirstIn.cons_neg hn]; exact ih.symm
    simp only [sacFind]
    split
    · rename_i h
      simp only [Bool.and_eq_true] at h
      split
      · rename_i hc
        simp only [Bool.not_eq_true'] at hc
        have hl : SinCosIn P u a := ⟨h.1, h.2, hc⟩
        simp only [FirstIn.cons_pos hl, exists_eq_left, Option.some.injEq]
        exact eq_comm
      · rename_i hc
        simp only [Bool.not_eq_true'] at hc
        exact (hneg fun hl => hc hl.2.2).symm
    · rename_i h
      simp only [Bool.and_eq_true] at h
      exact (hneg fun hl => h ⟨hl.1, hl.2.1⟩).symm

/-- C57 (sine and cosine): SUCCESS iff the unknown is unsolved and some equation with one unknown has the form; the first
one is recorded. -/
theorem C57_sinANDcos {P : Sympy} {s s' : LS} : sacId P s = .ok (.success, s') ↔
    (s.w.unk s.curr).solved = false ∧ ∃ e, FirstIn s.lists.l1 (SinCosIn P s.curr) e ∧
      Recorded s { s.ld s.curr with
        ready := true, eqn := some ⟨.num 0, P.expandSC s.curr (P.sub e.rhs e.lhs)⟩,
        method := (s.ld s.curr).method ++ [.sinANDcos] } s' := by
  have hsv : (s.w.unk s.curr).solved = s.solved s.curr := rfl
  rw [hsv]
  simp only [sacId]
  by_cases hs : s.solved s.curr = true
  · rw [if_pos hs]; simp [hs]
  · rw [if_neg hs]
    simp only [Bool.not_eq_true] at hs
    simp only [hs, true_and]
    cases hf : sacFind P s.curr s.lists.l1 with
    | none =>
      simp only [Except.ok.injEq, Prod.mk.injEq, reduceCtorEq, false_and, false_iff]
      rintro ⟨e, he, _⟩
      rw [sacFind_some.2 ⟨e, he, rfl⟩] at hf; cases hf
    | some t =>
      simp only [Except.ok.injEq, Prod.mk.injEq, true_and]
      constructor
      · rintro rfl
        obtain ⟨e, he, rfl⟩ := sacFind_some.1 hf
        refine ⟨e, he, ?_⟩
        simp only [Recorded, LS.updLd, LS.mk.injEq, true_and, and_true]
        funext n; split
        · rename_i h; rw [h]
        · rfl
      · rintro ⟨e, he, rfl⟩
        rw [sacFind_some.2 ⟨e, he, rfl⟩] at hf; cases hf
        simp only [LS.updLd, LS.mk.injEq, true_and, and_true]
        funext n; split
        · rename_i h; rw [h]
        · rfl

/-- C57 (sine and cosine): FAILURE, with nothing changed, otherwise. -/
theorem C57_sinANDcos_otherwise {P : Sympy} {s : LS} : sacId P s = .ok (.failure, s) ↔
    (s.w.unk s.curr).solved = true ∨ ∀ e ∈ s.lists.l1, ¬ SinCosIn P s.curr e := by
  have hcases : (∃ s', sacId P s = .ok (.success, s')) ∨ sacId P s = .ok (.failure, s) := by
    simp only [sacId]
    split
    · exact .inr rfl
    · split
      · exact .inr rfl
      · exact .inl ⟨_, rfl⟩
  constructor
  · intro h
    cases hs : (s.w.unk s.curr).solved with
    | true => exact .inl rfl
    | false =>
      right
      intro e he hl
      obtain ⟨e', he'⟩ := exists_first ⟨e, he, hl⟩
      rw [C57_sinANDcos.2 ⟨hs, e', he', rfl⟩] at h; cases h
  · intro h
    rcases hcases with ⟨s', hc⟩ | hc
    · obtain ⟨hs, e, ⟨l1, l2, hl, _, hp⟩, _⟩ := C57_sinANDcos.1 hc
      rcases h with h | h
      · rw [hs] at h; cases h
      · exact absurd hp (h e (by rw [hl]; simp))
    · exact hc

/-! ## two_eqn_m7.py -/

/-- `b`, or `n = -b`, is the second of two simultaneous equations with first one `a = A sin(u) + B cos(u) + …`: its
coefficients of cos(u) and sin(u) are `A` and `-B`, or `-A` and `B`; `A` and `B` are not both the expression 0. -/
def Partner (P : Sympy) (u : String) (a b n : Expr) : Prop :=
  let A := P.coeff a (.un .sin (.sym u))
  let B := P.coeff a (.un .cos (.sym u))
  let c := P.coeff b (.un .cos (.sym u))
  let d := negE (P.coeff b (.un .sin (.sym u)))
  ¬ (P.eqE A (.num 0) = true ∧ P.eqE B (.num 0) = true) ∧
  (P.eqE c A = true ∧ P.eqE d B = true ∧ n = b ∨
   ¬ (P.eqE c A = true ∧ P.eqE d B = true) ∧ P.eqE c (negE A) = true ∧ P.eqE d (negE B) = true ∧ n = negE b)

/-- Two expressions, not equal or opposite, are usable together: one is the partner of the other. -/
def SimuPair (P : Sympy) (u : String) (c1 c2 : Expr) (r : Expr × Expr) : Prop :=
  P.eqE (P.sub c2 c1) (.num 0) = false ∧ P.eqE (.bin .add c2 c1) (.num 0) = false ∧
  ((∃ n, Partner P u c1 c2 n ∧ r = (c1, n)) ∨ (∀ n, ¬ Partner P u c1 c2 n) ∧ ∃ n, Partner P u c2 c1 n ∧ r = (c2, n))

theorem canonicalSecond_some {P : Sympy} {u : String} {a b n : Expr} :
    canonicalSecond P u a b = some n ↔ Partner P u a b n := by
  have hsu : Expr.un .sin (.sym u) = sinU u := rfl
  have hcu : Expr.un .cos (.sym u) = cosU u := rfl
  simp only [canonicalSecond, Partner, hsu, hcu]
  split
  · rename_i h
    simp only [Bool.and_eq_true] at h
    simp [h]
  · rename_i h
    simp only [Bool.and_eq_true] at h
    split
    · rename_i h2
      simp only [Bool.and_eq_true] at h2
      simp only [h, not_false_eq_true, h2, true_and, and_self, not_true_eq_false, false_and, or_false, Option.some.injEq]
      exact eq_comm
    · rename_i h2
      simp only [Bool.and_eq_true] at h2
      have h2' : ∀ q : Prop, ¬ (P.eqE (P.coeff b (cosU u)) (P.coeff a (sinU u)) = true ∧
          P.eqE (negE (P.coeff b (sinU u))) (P.coeff a (cosU u)) = true ∧ q) :=
        fun q hq => h2 ⟨hq.1, hq.2.1⟩
      split
      · rename_i h3
        simp only [Bool.and_eq_true] at h3
        simp only [h, not_false_eq_true, h2', h2, h3, true_and, false_or, Option.some.injEq]
        exact eq_comm
      · rename_i h3
        simp only [Bool.and_eq_true] at h3
        simp only [h, not_false_eq_true, h2', h2, true_and, false_or, reduceCtorEq, false_iff]
        rintro ⟨ha, hb, _⟩; exact h3 ⟨ha, hb⟩

theorem simuPair_some {P : Sympy} {u : String} {c1 c2 : Expr} {r : Expr × Expr} :
    simuPair P u c1 c2 = some r ↔ SimuPair P u c1 c2 r := by
  simp only [simuPair, SimuPair]
  split
  · rename_i h
    simp only [Bool.or_eq_true] at h
    simp only [reduceCtorEq, false_iff]
    rintro ⟨h1, h2, _⟩
    rcases h with h | h
    · rw [h1] at h; cases h
    · rw [h2] at h; cases h
  · rename_i h
    simp only [Bool.or_eq_true, not_or, Bool.not_eq_true] at h
    simp only [h, true_and]
    cases h1 : canonicalSecond P u c1 c2 with
    | some n =>
      have hp := canonicalSecond_some.1 h1
      simp only [Option.some.injEq]
      constructor
      · rintro rfl; exact .inl ⟨n, hp, rfl⟩
      · rintro (⟨n', hn', rfl⟩ | ⟨hno, _⟩)
        · rw [canonicalSecond_some.2 hn'] at h1; cases h1; rfl
        · exact absurd hp (hno n)
    | none =>
      have hno : ∀ n, ¬ Partner P u c1 c2 n := fun n hn => by
        rw [canonicalSecond_some.2 hn] at h1; cases h1
      simp only [hno, false_and, exists_false, not_false_eq_true, implies_true, true_and, false_or]
      cases h2 : canonicalSecond P u c2 c1 with
      | some n =>
        have hp := canonicalSecond_some.1 h2
        simp only [Option.some.injEq]
        constructor
        · rintro rfl; exact ⟨n, hp, rfl⟩
        · rintro ⟨n', hn', rfl⟩
          rw [canonicalSecond_some.2 hn'] at h2; cases h2; rfl
      | none =>
        simp only [reduceCtorEq, false_iff]
        rintro ⟨n, hn, _⟩
        rw [canonicalSecond_some.2 hn] at h2; cases h2

theorem simuFind_some {P : Sympy} {u : String} {r : Expr × Expr} : ∀ {l : List Expr}, simuFind P u l = some r →
    ∃ c1 c2, [c1, c2].Sublist l ∧ SimuPair P u c1 c2 r
  | [], h => by simp [simuFind] at h
  | c :: l, h => by
    simp only [simuFind] at h
    split at h
    · rename_i r' h'
      cases h
      obtain ⟨c2, hc2, hp⟩ := List.exists_of_findSome?_eq_some h'
      exact ⟨c, c2, .cons_cons _ (List.singleton_sublist.2 hc2), simuPair_some.1 hp⟩
    · obtain ⟨c1, c2, h1, h2⟩ := simuFind_some h
      exact ⟨c1, c2, .cons _ h1, h2⟩

theorem simuFind_none {P : Sympy} {u : String} : ∀ {l : List Expr}, simuFind P u l = none →
    ∀ c1 c2 r, [c1, c2].Sublist l → ¬ SimuPair P u c1 c2 r
  | [], _, c1, c2, r, hs => by simp at hs
  | c :: l, h, c1, c2, r, hs => by
    simp only [simuFind] at h
    split at h
    · cases h
    · rename_i h'
      cases hs with
      | cons _ hs => exact simuFind_none h c1 c2 r hs
      | cons_cons _ hs =>
        have hm := List.singleton_sublist.1 hs
        rw [List.findSome?_eq_none_iff] at h'
        intro hp
        have := h' c2 hm
        rw [simuPair_some.2 hp] at this; cases this

/-- What the pairs are taken from: the differences of the sides of the equations with one unknown, expanded, if sin(u) or
cos(u) occurs in them; of expressions that sympy finds equal only the first. -/
theorem C57_simu_candidates (P : Sympy) (u : String) (l : List KEqn) :
    (∀ f ∈ simuCands P u l, ∃ e ∈ l, f = P.expandSC u (P.sub e.rhs e.lhs) ∧
      (occurs (.un .sin (.sym u)) f = true ∨ occurs (.un .cos (.sym u)) f = true)) ∧
    (∀ e ∈ l, occurs (.un .sin (.sym u)) (P.expandSC u (P.sub e.rhs e.lhs)) = true ∨
      occurs (.un .cos (.sym u)) (P.expandSC u (P.sub e.rhs e.lhs)) = true →
      ∃ g ∈ simuCands P u l, g = P.expandSC u (P.sub e.rhs e.lhs) ∨ P.eqE g (P.expandSC u (P.sub e.rhs e.lhs)) = true) ∧
    (simuCands P u l).Pairwise (fun a b => P.eqE a b = false) := by
  have key : ∀ (l : List KEqn) (acc : List Expr), acc.Pairwise (fun a b => P.eqE a b = false) →
      let r := l.foldl (fun acc e =>
        let f := P.expandSC u (P.sub e.rhs e.lhs)
        if (occurs (sinU u) f || occurs (cosU u) f) && !acc.any (fun x => P.eqE x f) then acc ++ [f] else acc) acc
      (∀ f ∈ r, f ∈ acc ∨ ∃ e ∈ l, f = P.expandSC u (P.sub e.rhs e.lhs) ∧
        (occurs (sinU u) f = true ∨ occurs (cosU u) f = true)) ∧
      (∀ f ∈ acc, f ∈ r) ∧
      (∀ e ∈ l, occurs (sinU u) (P.expandSC u (P.sub e.rhs e.lhs)) = true ∨
        occurs (cosU u) (P.expandSC u (P.sub e.rhs e.lhs)) = true →
        ∃ g ∈ r, g = P.expandSC u (P.sub e.rhs e.lhs) ∨ P.eqE g (P.expandSC u (P.sub e.rhs e.lhs)) = true) ∧
      r.Pairwise (fun a b => P.eqE a b = false) := by
    intro l
    induction l with
    | nil => intro acc h; exact ⟨fun f hf => .inl hf, fun f hf => hf, by simp, h⟩
    | cons e l ih =>
      intro acc h
      simp only [List.foldl_cons]
      split
      · rename_i hc
        simp only [Bool.and_eq_true, Bool.or_eq_true, Bool.not_eq_true', List.any_eq_false, Bool.not_eq_true] at hc
        obtain ⟨h1, h2, h3, h4⟩ := ih (acc ++ [P.expandSC u (P.sub e.rhs e.lhs)]) (by
          rw [List.pairwise_append]
          exact ⟨h, by simp, fun a ha b hb => by
            simp only [List.mem_singleton] at hb; subst hb; exact hc.2 a ha⟩)
        refine ⟨?_, fun f hf => h2 f (by simp [hf]), ?_, h4⟩
        · intro f hf
          rcases h1 f hf with hf | ⟨e', he', hf⟩
          · rcases List.mem_append.1 hf with hf | hf
            · exact .inl hf
            · simp only [List.mem_singleton] at hf; subst hf
              exact .inr ⟨e, by simp, rfl, hc.1⟩
          · exact .inr ⟨e', by simp [he'], hf⟩
        · intro e' he' ho
          rcases List.mem_cons.1 he' with rfl | he'
          · exact ⟨_, h2 _ (by simp), .inl rfl⟩
          · exact h3 e' he' ho
      · rename_i hc
        obtain ⟨h1, h2, h3, h4⟩ := ih acc h
        refine ⟨?_, h2, ?_, h4⟩
        · intro f hf
          rcases h1 f hf with hf | ⟨e', he', hf⟩
          · exact .inl hf
          · exact .inr ⟨e', by simp [he'], hf⟩
        · intro e' he' ho
          rcases List.mem_cons.1 he' with rfl | he'
          · simp only [Bool.and_eq_true, Bool.or_eq_true, ho, Bool.not_eq_true', true_and, Bool.not_eq_false,
              List.any_eq_true] at hc
            obtain ⟨g, hg, hg'⟩ := hc
            exact ⟨g, h2 g hg, .inr hg'⟩
          · exact h3 e' he' ho
  obtain ⟨h1, _, h3, h4⟩ := key l [] List.Pairwise.nil
  refine ⟨fun f hf => ?_, h3, h4⟩
  rcases h1 f hf with hf | hf
  · simp at hf
  · exact hf

/-- C57 (simultaneous equations): SUCCESS means the unknown is unsolved and a usable pair of candidates is recorded. -/
theorem C57_simu {P : Sympy} {s s' : LS} (h : simuId P s = .ok (.success, s')) :
    (s.w.unk s.curr).solved = false ∧ ∃ c1 c2 r, [c1, c2].Sublist (simuCands P s.curr s.lists.l1) ∧
      SimuPair P s.curr c1 c2 r ∧
      Recorded s { s.ld s.curr with
        eqn := some ⟨.num 0, r.1⟩, second := some ⟨.num 0, r.2⟩, method := (s.ld s.curr).method ++ [.simu] } s' := by
  have hsv : (s.w.unk s.curr).solved = s.solved s.curr := rfl
  rw [hsv]
  simp only [simuId] at h
  split at h
  · cases h
  · rename_i hs
    split at h
    · cases h
    · rename_i a b hf
      obtain ⟨c1, c2, h1, h2⟩ := simuFind_some hf
      refine ⟨by simpa using hs, c1, c2, (a, b), h1, h2, ?_⟩
      simp only [Except.ok.injEq, Prod.mk.injEq, true_and] at h
      subst h
      simp only [Recorded, LS.updLd, LS.mk.injEq, true_and, and_true]
      funext n; split
      · rename_i h; rw [h]
      · rfl

/-- C57 (simultaneous equations): FAILURE, with nothing changed, iff the unknown is solved or there is no usable pair. -/
theorem C57_simu_otherwise {P : Sympy} {s : LS} : simuId P s = .ok (.failure, s) ↔
    (s.w.unk s.curr).solved = true ∨
      ∀ c1 c2 r, [c1, c2].Sublist (simuCands P s.curr s.lists.l1) → ¬ SimuPair P s.curr c1 c2 r := by
  have hsv : (s.w.unk s.curr).solved = s.solved s.curr := rfl
  rw [hsv]
  constructor
  · intro h
    simp only [simuId] at h
    split at h
    · rename_i hs; exact .inl hs
    · split at h
      · rename_i hf; exact .inr (simuFind_none hf)
      · cases h
  · intro h
    simp only [simuId]
    split
    · rfl
    · rename_i hs
      split
      · rfl
      · rename_i a b hf
        obtain ⟨c1, c2, h1, h2⟩ := simuFind_some hf
        rcases h with h | h
        · exact absurd h hs
        · exact absurd h2 (h c1 c2 _ h1)

/-! ## x2y2_transform.py -/

/-- The sum of squares of the two equations has no unsolved unknown on the left and exactly one on the right, after the sum
of squares has been simplified and the joint angles written out. -/
def SquarePair (P : Sympy) (s : LS) (e1 e2 : KEqn) : Prop :=
  countUnknowns s.vars (P.simplify (.bin .add (.bin .mul e1.lhs e1.lhs) (.bin .mul e2.lhs e2.lhs))) = 0 ∧
  countUnknowns s.vars (P.simplify ((P.simplify (.bin .add (.bin .mul e1.rhs e1.rhs) (.bin .mul e2.rhs e2.rhs))).subs
    soaExpansions)) = 1

theorem x2z2Pair_isSome {P : Sympy} {s : LS} {e1 e2 : KEqn} :
    (∃ e, x2z2Pair P s.vars e1 e2 = some e) ↔ SquarePair P s e1 e2 := by
  simp only [x2z2Pair, SquarePair]
  split
  · rename_i h
    split
    · rename_i h'; exact ⟨fun _ => ⟨h, h'⟩, fun _ => ⟨_, rfl⟩⟩
    · rename_i h'; exact ⟨fun ⟨_, hc⟩ => (by cases hc), fun hc => absurd hc.2 h'⟩
  · rename_i h; exact ⟨fun ⟨_, hc⟩ => (by cases hc), fun hc => absurd hc.1 h⟩

theorem x2z2Find_some {P : Sympy} {vs : List Var} {e : KEqn} : ∀ {l : List KEqn}, x2z2Find P vs l = some e →
    ∃ e1 e2, [e1, e2].Sublist l ∧ x2z2Pair P vs e1 e2 = some e
  | [], h => by simp [x2z2Find] at h
  | c :: l, h => by
    simp only [x2z2Find] at h
    split at h
    · rename_i r' h'
      cases h
      obtain ⟨c2, hc2, hp⟩ := List.exists_of_findSome?_eq_some h'
      exact ⟨c, c2, .cons_cons _ (List.singleton_sublist.2 hc2), hp⟩
    · obtain ⟨c1, c2, h1, h2⟩ := x2z2Find_some h
      exact ⟨c1, c2, .cons _ h1, h2⟩

theorem x2z2Find_none {P : Sympy} {vs : List Var} : ∀ {l : List KEqn}, x2z2Find P vs l = none →
    ∀ e1 e2, [e1, e2].Sublist l → x2z2Pair P vs e1 e2 = none
  | [], _, c1, c2, hs => by simp at hs
  | c :: l, h, c1, c2, hs => by
    simp only [x2z2Find] at h
    split at h
    · cases h
    · rename_i h'
      cases hs with
      | cons _ hs => exact x2z2Find_none h c1 c2 hs
      | cons_cons _ hs =>
        rw [List.findSome?_eq_none_iff] at h'
        exact h' c2 (List.singleton_sublist.1 hs)

/-- C57 (sum of squares): SUCCESS iff the unknown is called th_2 or th_3 and two of the two-unknown equations that contain a
component of the position have the form; whether that unknown occurs in them, or is solved, does not matter. -/
theorem C57_squares {P : Sympy} {s : LS} : (∃ s', x2z2 P s = .ok (.success, s')) ↔
    (s.curr = "th_2" ∨ s.curr = "th_3") ∧
      ∃ e1 e2, [e1, e2].Sublist (s.lists.l2.filter fun e => e.lhs.has "Px" || e.lhs.has "Py" || e.lhs.has "Pz" ||
        e.rhs.has "Px" || e.rhs.has "Py" || e.rhs.has "Pz") ∧ SquarePair P s e1 e2 := by
  have hfil : (fun e : KEqn => e.lhs.has "Px" || e.lhs.has "Py" || e.lhs.has "Pz" ||
      e.rhs.has "Px" || e.rhs.has "Py" || e.rhs.has "Pz") = hasP := by
    funext e
    simp only [hasP]
    cases e.lhs.has "Px" <;> cases e.lhs.has "Py" <;> cases e.lhs.has "Pz" <;> cases e.rhs.has "Px" <;>
      cases e.rhs.has "Py" <;> cases e.rhs.has "Pz" <;> rfl
  rw [hfil]
  simp only [x2z2]
  split
  · rename_i hc
    simp only [Bool.or_eq_true, decide_eq_true_eq] at hc
    simp only [hc, true_and]
    cases hf : x2z2Find P s.vars (s.lists.l2.filter hasP) with
    | none =>
      simp only [Except.ok.injEq, Prod.mk.injEq, reduceCtorEq, false_and, exists_false, false_iff]
      rintro ⟨e1, e2, h1, h2⟩
      obtain ⟨e, he⟩ := x2z2Pair_isSome.2 h2
      rw [x2z2Find_none hf e1 e2 h1] at he; cases he
    | some e =>
      obtain ⟨e1, e2, h1, h2⟩ := x2z2Find_some hf
      have hone : countUnknowns s.vars e.rhs = 1 := by
        have h2' := h2
        simp only [x2z2Pair] at h2'
        split at h2'
        · split at h2'
          · rename_i h3; cases h2'; exact h3
          · cases h2'
        · cases h2'
      have hex : ∃ v, s.vars.find? (fun v => e.rhs.has v.name && !v.solved) = some v := by
        rw [countUnknowns_eq] at hone
        obtain ⟨v, hv⟩ := List.exists_mem_of_length_pos (by omega : 0 < (getUnknowns s.vars e.rhs).length)
        obtain ⟨h1, h2, h3⟩ := ((C24_get_unknowns s.vars e.rhs).1 v).1 hv
        rw [← Option.isSome_iff_exists, List.find?_isSome]
        exact ⟨v, h1, by simp [h2, h3]⟩
      obtain ⟨v, hv⟩ := hex
      simp only [hv]
      exact ⟨fun _ => ⟨e1, e2, h1, x2z2Pair_isSome.1 ⟨e, h2⟩⟩, fun _ => ⟨_, rfl⟩⟩
  · rename_i hc
    simp only [Bool.or_eq_true, decide_eq_true_eq] at hc
    simp [hc]

/-! ## The hypotheses are met -/

/-- Px = l_3*d_1 + l_1 is found and recorded. -/
example : ∃ s1, algebraId toy demoAlg = .ok (.success, s1) ∧ ∃ e, FirstIn demoAlg.lists.l1 (LinearIn toy "d_1") e := by
  obtain ⟨s, h, -⟩ := look_some demoAlg_run
  obtain ⟨s1, h1, -⟩ := run2_success h
  obtain ⟨_, e, he, _⟩ := C57_algebra.1 h1
  exact ⟨s1, h1, e, he⟩
/-- An equation with the cosine only, among others, is found. -/
example : ∃ s1, sincosId demoCos = .ok (.success, s1) ∧ ∃ e, FirstIn demoCos.lists.l1 (OneOf "th_1") e := by
  obtain ⟨s, h, -⟩ := look_some demoCos_run
  obtain ⟨s1, h1, -⟩ := run2_success h
  obtain ⟨_, e, _, he, _⟩ := (C57_sincos_partial rfl).1 h1
  exact ⟨s1, h1, e, he⟩
/-- A pair with a common unknown factor is found among the two-unknown equations. -/
example : ∃ s1, tanId toy demoTan2 = .ok (.success, s1) ∧ ∃ es ec, FirstTanPair toy demoTan2 es ec := by
  obtain ⟨s, h, -⟩ := look_some demoTan2_run
  obtain ⟨s1, h1, -⟩ := run2_success h
  obtain ⟨_, es, ec, he, _⟩ := (C57_tan_partial rfl).1 h1
  exact ⟨s1, h1, es, ec, he⟩
/-- So are an equation with both, and two simultaneous equations. -/
example : (∃ s1, sacId toy demoSac = .ok (.success, s1) ∧ ∃ e, FirstIn demoSac.lists.l1 (SinCosIn toy "th_1") e) ∧
    ∃ s1, simuId toy demoSimu = .ok (.success, s1) ∧ ∃ c1 c2 r, SimuPair toy "th_1" c1 c2 r := by
  constructor
  · obtain ⟨s, h, -⟩ := selfRef_some (x := "th_1") (o := run2 (sacId toy) (sacSolve toy) demoSac)
      (r := ([false, false], true)) (by decide +kernel)
    obtain ⟨s1, h1, -⟩ := run2_success h
    obtain ⟨_, e, he, _⟩ := C57_sinANDcos.1 h1
    exact ⟨s1, h1, e, he⟩
  · obtain ⟨s, h, -⟩ := selfRef_some (x := "th_1") (o := run2 (simuId toy) (simuSolve toy) demoSimu)
      (r := ([false], true)) (by decide +kernel)
    obtain ⟨s1, h1, -⟩ := run2_success h
    obtain ⟨_, c1, c2, r, _, hp, _⟩ := C57_simu h1
    exact ⟨s1, h1, c1, c2, r, hp⟩

/-! ## What the identifiers miss -/

/-- C57 is false of the sine-or-cosine leaf: of the equations 0 = sin²(th_1) - l_1 and 0 = sin(th_1) - l_2 it takes the
first, for which the solver fails; from then on the leaf fails for this unknown, although the second equation is there and
has the form (sincos_solver.py:119: the flag `solvable_sincos` is never cleared). -/
theorem C57_sincos_once_violation : ∃ (P : Sympy) (s s1 s2 : LS), P.Sound (fun _ => True) ∧
    sincosId s = .ok (.success, s1) ∧ sincosSolve P s1 = .ok (.failure, s2) ∧ sincosId s2 = .ok (.failure, s2) ∧
    (s2.w.unk s2.curr).solved = false ∧ ∃ e ∈ s2.lists.l1, OneOf s2.curr e ∧
      ∃ A B, P.lin (P.collectSC s2.curr e.rhs) (.un .sin (.sym s2.curr))
        [.un .sin (.sym s2.curr), .un .cos (.sym s2.curr)] = some (A, B) := by
  let sinT : Expr := .un .sin ex_u
  let s : LS := mk ["th_1"] [zero (plus (times sinT sinT) (.un .neg (.sym "l_1"))), zero (plus sinT (.un .neg (.sym "l_2")))]
  let s1 : LS := s.updLd "th_1" fun d => { d with
    eqn := some (zero (plus (times sinT sinT) (.un .neg (.sym "l_1")))), method := d.method ++ [.arcsin], solvableSc := true }
  have hid : sincosId s = .ok (.success, s1) := rfl
  have hso : sincosSolve toy s1 = .ok (.failure, s1) := by
    have hl : toy.lin (toy.collectSC "th_1" (plus (times sinT sinT) (.un .neg (.sym "l_1")))) (sinU "th_1")
      [sinU "th_1", cosU "th_1"] = none := by decide +kernel
    have e1 : (s1.ld s1.curr).solvableSc = true := rfl
    have e2 : (s1.ld s1.curr).eqn = some (zero (plus (times sinT sinT) (.un .neg (.sym "l_1")))) := rfl
    have e3 : (s1.ld s1.curr).method.contains .arcsin = true := by decide +kernel
    have e4 : s1.curr = "th_1" := rfl
    simp only [sincosSolve, e1, e2, e3, if_true]
    rw [e4]
    simp only [zero]
    rw [hl]
  refine ⟨toy, s, s1, s1, toy_sound, hid, hso, C57_sincos_otherwise.2 (.inl rfl), rfl,
    zero (plus sinT (.un .neg (.sym "l_2"))), by simp [s1, s, mk], .inl ⟨?_, ?_⟩, .num 1, .un .neg (.sym "l_2"), ?_⟩
  · right; decide +kernel
  · rintro (h | h)
    · exact absurd h (by decide +kernel)
    · exact absurd h (by decide +kernel)
  · decide +kernel

/-- C57 is false of the tangent leaf: once it has found a pair it answers SUCCESS for ever, also when the unknown has been
solved and no equation is left (tan_solver.py:219-223: the answer depends on `u.solvable_tan` only). -/
theorem C57_tan_memory_violation (P : Sympy) (s : LS) (h : (s.ld s.curr).solvableTan = true) :
    tanId P s = .ok (.success, s) := by
  simp [tanId, h]

/-- … which happens: after one success the leaf succeeds with empty lists. -/
example : ∃ s s1, tanId toy s = .ok (.success, s1) ∧ s.curr = "th_1" ∧
    ({ s1 with lists := {} }.w.unk s1.curr).solved = false ∧
    tanId toy { s1 with lists := {} } = .ok (.success, { s1 with lists := {} }) := by
  obtain ⟨s, h, -⟩ := look_some demoTan1_run
  obtain ⟨s1, h1, -⟩ := run2_success h
  obtain ⟨hs, es, ec, -, hr⟩ := (C57_tan_partial (P := toy) (s := demoTan1) rfl).1 h1
  have hc : s1.curr = "th_1" := by rw [hr]; rfl
  refine ⟨demoTan1, s1, h1, rfl, ?_, C57_tan_memory_violation _ _ ?_⟩
  · rw [hr]; exact hs
  · show (s1.ld s1.curr).solvableTan = true
    rw [hc, hr]; rfl

/-- C57 is false of the sum-of-squares leaf: for any unknown but th_2 and th_3 it fails, although the equations are there. -/
theorem C57_squares_names_violation : ∃ (P : Sympy) (s : LS), P.Sound (fun _ => True) ∧ s.curr = "th_4" ∧
    x2z2 P s = .ok (.failure, s) ∧ ∃ s', x2z2 P { s with curr := "th_2" } = .ok (.success, s') := by
  let s : LS := { mk ["d_1", "th_4"] [] [⟨.sym "Px", .sym "d_1"⟩, ⟨.sym "Pz", times (.sym "d_1") (.sym "l_1")⟩] with curr := "th_4" }
  refine ⟨toy, s, toy_sound, rfl, rfl, C57_squares.2 ⟨.inl rfl, ⟨.sym "Px", .sym "d_1"⟩,
    ⟨.sym "Pz", times (.sym "d_1") (.sym "l_1")⟩, ?_, by decide +kernel, by decide +kernel⟩⟩
  have : (s.lists.l2.filter fun e => e.lhs.has "Px" || e.lhs.has "Py" || e.lhs.has "Pz" ||
        e.rhs.has "Px" || e.rhs.has "Py" || e.rhs.has "Pz") =
      [⟨.sym "Px", .sym "d_1"⟩, ⟨.sym "Pz", times (.sym "d_1") (.sym "l_1")⟩] := by decide +kernel
  exact this ▸ List.Sublist.refl _

/-! ## A solver succeeds after its identifier -/

/-- The tangent solver never fails after its identifier has found a pair. -/
theorem C57_tan_solves {P : Sympy} {s s1 : LS} (hn : (s.ld s.curr).solvableTan = false)
    (h : tanId P s = .ok (.success, s1)) : ∃ s2, tanSolve P s1 = .ok (.success, s2) := by
  obtain ⟨hs, es, ec, ⟨_, ⟨_, _, _, _, _, _, A, B, C, D, hA, hC, hx⟩⟩, hr⟩ := (C57_tan_partial hn).1 h
  have hB : countUnknowns s.vars B = 0 := countUnknowns_vars.2 fun x h1 h2 => (hx x h1 h2).2.1
  have hD : countUnknowns s.vars D = 0 := countUnknowns_vars.2 fun x h1 h2 => (hx x h1 h2).2.2
  subst hr
  have hvs : ({ s with ld := fun n => if n = s.curr then { s.ld s.curr with
        eqn := some ⟨.num 0, P.collectSC s.curr (P.sub es.rhs es.lhs)⟩,
        second := some ⟨.num 0, P.collectSC s.curr (P.sub ec.rhs ec.lhs)⟩,
        ready := true, method := (s.ld s.curr).method ++ [.atan2], solvableTan := true } else s.ld n } : LS).vars = s.vars := rfl
  simp only [tanSolve, hvs, if_true]
  have hA' : P.lin (P.collectSC s.curr (P.sub es.rhs es.lhs)) (sinU s.curr) [sinU s.curr, cosU s.curr] = some (A, B) := hA
  have hC' : P.lin (P.collectSC s.curr (P.sub ec.rhs ec.lhs)) (cosU s.curr) [sinU s.curr, cosU s.curr] = some (C, D) := hC
  rw [hA', hC']
  simp only [hB, hD]
  split
  · rename_i hc; simp at hc
  · split
    · exact ⟨_, rfl⟩
    · exact ⟨_, rfl⟩

/-- The simultaneous-equation solver fails only if both rests are zero. -/
theorem C57_simu_solver {P : Sympy} {s : LS} {e1 e2 : KEqn} (h1 : (s.ld s.curr).eqn = some e1)
    (h2 : (s.ld s.curr).second = some e2) : (∃ s', simuSolve P s = .ok (.failure, s')) ↔
    let u := s.curr
    let A := P.coeff e1.rhs (.un .sin (.sym u))
    let B := P.coeff e1.rhs (.un .cos (.sym u))
    P.eqE (P.simplify (P.sub (.bin .add (.bin .mul A (.un .sin (.sym u))) (.bin .mul B (.un .cos (.sym u)))) e1.rhs)) (.num 0)
      = true ∧
    P.eqE (P.simplify (P.sub (.bin .add (.bin .mul A (.un .cos (.sym u))) (.un .neg (.bin .mul B (.un .sin (.sym u))))) e2.rhs))
      (.num 0) = true := by
  simp only [simuSolve, h1, h2]
  split
  · rename_i h
    simp only [Bool.and_eq_true] at h
    exact ⟨fun _ => h, fun _ => ⟨_, rfl⟩⟩
  · rename_i h
    simp only [Bool.and_eq_true] at h
    constructor
    · rintro ⟨s', hs'⟩
      split at hs'
      · cases hs'
      · cases hs'
    · intro h'; exact absurd h' h

end Verif.Leaf
