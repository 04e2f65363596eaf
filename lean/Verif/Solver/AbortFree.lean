import Verif.Solver.AbortKinds
/-!
# C76, second part: a run over separated equations raises nothing, unless the first unknown is worked on again

An equation is separated if angles occur only as sin(x), cos(x) of the bare symbol, and the other unknowns only outside sin and cos.
-/
namespace Verif.Solver
open Verif.Leaf Verif.Eqn Verif.Sol Verif.Sym
open Verif.BT hiding Tree

/-! ## Specification -/

/-- sin and cos are applied to single symbols that are angles, and angles occur nowhere else; no name of a sum of angles occurs. -/
inductive Separated (ang : String → Bool) : Expr → Prop where
  | num (q : Rat) : Separated ang (.num q)
  | sym {s : String} : ang s = false → soaExpansions s = none → Separated ang (.sym s)
  | sin {s : String} : ang s = true → soaExpansions s = none → Separated ang (.un .sin (.sym s))
  | cos {s : String} : ang s = true → soaExpansions s = none → Separated ang (.un .cos (.sym s))
  | un {f : Fn1} {a : Expr} : f ≠ .sin → f ≠ .cos → Separated ang a → Separated ang (.un f a)
  | bin {f : Fn2} {a b : Expr} : Separated ang a → Separated ang b → Separated ang (.bin f a b)

/-- An angle that occurs, occurs in a sine and in a cosine. -/
def Balanced (us : List String) (ang : String → Bool) (e : Expr) : Prop :=
  ∀ x ∈ us, ang x = true → e.has x = true → occurs (.un .sin (.sym x)) e = true ∧ occurs (.un .cos (.sym x)) e = true

/-- The equations given to the solver are separated, and their left sides are balanced. -/
def GoodInput (us : List String) (ang : String → Bool) (ms : List MEqn) (aux : List KEqn) : Prop :=
  "pi" ∉ us ∧ ms ≠ [] ∧ (∀ m ∈ ms, ∀ e ∈ m.kequationList, Separated ang e.lhs ∧ Separated ang e.rhs) ∧ (∀ m ∈ ms, ∀ i j, Balanced us ang (m.td i j)) ∧
  ∀ e ∈ aux, Separated ang e.lhs ∧ Separated ang e.rhs ∧ Balanced us ang e.lhs

/-- What is assumed of sympy: its operations make no new symbols and keep separated expressions separated, `match` keeps its promise about
`exclude`, no sum of angles is found in a separated expression, and what remains after collecting does not vanish: dividing by the coefficient
of cos(u) cancels no symbol that occurs only there, and an expression left linear in sin(u) and cos(u) has a coefficient other than 0. -/
structure TameOn (ang : String → Bool) (P : Sympy) : Prop where
  refl : ∀ a, P.eqv a a = true
  sub : ∀ {a b}, Separated ang a → Separated ang b → Separated ang (P.sub a b)
  subst : ∀ {e a b}, Separated ang e → Separated ang a → Separated ang b → Separated ang (P.subst e a b)
  simplify : ∀ {e}, Separated ang e → Separated ang (P.simplify e)
  collectSC : ∀ {u e}, Separated ang e → Separated ang (P.collectSC u e)
  lin : ∀ {e t ex A B}, Separated ang e → P.lin e t ex = some (A, B) → Separated ang A ∧ Separated ang B
  sums : ∀ {e}, Separated ang e → P.sumFound e = false
  sub_has : ∀ {a b x}, (P.sub a b).has x = true → a.has x = true ∨ b.has x = true
  ratio_has : ∀ {a b x}, (P.ratio a b).has x = true → a.has x = true ∨ b.has x = true
  simplify_has : ∀ {e x}, (P.simplify e).has x = true → e.has x = true
  collectU_has : ∀ {u e x}, (P.collectU u e).has x = true → e.has x = true
  collectSC_has : ∀ {u e x}, (P.collectSC u e).has x = true → e.has x = true
  expandSC_has : ∀ {u e x}, (P.expandSC u e).has x = true → e.has x = true
  coeff_has : ∀ {e t x}, (P.coeff e t).has x = true → e.has x = true
  lin_has : ∀ {e t ex A B x}, P.lin e t ex = some (A, B) → A.has x = true ∨ B.has x = true → e.has x = true
  lin_excl : ∀ {e t ex A B}, P.lin e t ex = some (A, B) → ∀ x ∈ ex, occurs x A = false ∧ occurs x B = false
  denom : ∀ {u t t' A B C D x}, occurs (.un .sin (.sym u)) t = true →
    P.lin (P.collectSC u t) (.un .sin (.sym u)) [.un .sin (.sym u), .un .cos (.sym u)] = some (A, B) →
    P.lin (P.collectSC u t') (.un .cos (.sym u)) [.un .sin (.sym u), .un .cos (.sym u)] = some (C, D) →
    (P.ratio A C).has x = false → A.has x = false → C.has x = false
  radius : ∀ {u t}, occurs (.un .sin (.sym u)) t = true → occurs (.un .cos (.sym u)) t = true →
    (P.sub (P.expandSC u t) (.bin .add (.bin .mul (P.coeff (P.expandSC u t) (.un .sin (.sym u))) (.un .sin (.sym u)))
      (.bin .mul (P.coeff (P.expandSC u t) (.un .cos (.sym u))) (.un .cos (.sym u))))).has u = false →
    P.eqE (radius2 P u (P.expandSC u t)) (.num 0) = false

/-! ## Separated expressions -/

theorem sep_has {ang : String → Bool} {e : Expr} {x : String} (h : Separated ang e) (hx : ang x = true) (hh : e.has x = true) :
    occurs (sinU x) e = true ∨ occurs (cosU x) e = true := by
  induction h with
  | num => cases hh
  | @sym s hs _ => simp only [Expr.has, beq_iff_eq] at hh; subst hh; rw [hx] at hs; cases hs
  | sin => simp only [Expr.has, beq_iff_eq] at hh; subst hh; left; simp [occurs, sinU]
  | cos => simp only [Expr.has, beq_iff_eq] at hh; subst hh; right; simp [occurs, cosU]
  | un _ _ _ ih => rcases ih (by simpa [Expr.has] using hh) with h | h <;> simp [occurs, h]
  | bin _ _ ih1 ih2 =>
    simp only [Expr.has, Bool.or_eq_true] at hh
    rcases hh with hh | hh
    · rcases ih1 hh with h | h <;> simp [occurs, h]
    · rcases ih2 hh with h | h <;> simp [occurs, h]

theorem sep_len {ang : String → Bool} {e : Expr} {x : String} (h : Separated ang e) (hx : ang x = false) :
    occurs (sinU x) e = false ∧ occurs (cosU x) e = false := by
  induction h with
  | num => simp [occurs, sinU, cosU]
  | sym => simp [occurs, sinU, cosU]
  | @sin s hs _ =>
    have : s ≠ x := by rintro rfl; rw [hx] at hs; cases hs
    simp [occurs, sinU, cosU, this]
  | @cos s hs _ =>
    have : s ≠ x := by rintro rfl; rw [hx] at hs; cases hs
    simp [occurs, sinU, cosU, this]
  | un h1 h2 _ ih => simp [occurs, sinU, cosU, h1, h2] at ih ⊢; exact ih
  | bin _ _ ih1 ih2 => simp [occurs, sinU, cosU] at ih1 ih2 ⊢; exact ⟨⟨ih1.1, ih2.1⟩, ih1.2, ih2.2⟩

theorem sep_subs {ang : String → Bool} {e : Expr} (h : Separated ang e) : e.subs soaExpansions = e := by
  induction h with
  | num => rfl
  | sym _ h => simp [Expr.subs, h]
  | sin _ h => simp [Expr.subs, h]
  | cos _ h => simp [Expr.subs, h]
  | un _ _ _ ih => simp [Expr.subs, ih]
  | bin _ _ ih1 ih2 => simp [Expr.subs, ih1, ih2]

/-! ## The invariant: the equations stay separated -/

/-- `Balanced` with respect to the unknowns still unsolved -/
def BalancedIn (s : LS) (ang : String → Bool) (e : Expr) : Prop :=
  ∀ x ∈ s.w.unknowns, s.solved x = false → ang x = true → e.has x = true → occurs (sinU x) e = true ∧ occurs (cosU x) e = true

structure SepInv (ang : String → Bool) (s : LS) : Prop where
  pi : "pi" ∉ s.w.unknowns
  ne : s.ms ≠ []
  mat : ∀ m ∈ s.ms, ∀ e ∈ m.kequationList, Separated ang e.lhs ∧ Separated ang e.rhs
  bal : ∀ m ∈ s.ms, ∀ i j, BalancedIn s ang (m.td i j)
  aux : ∀ e ∈ s.aux, Separated ang e.lhs ∧ Separated ang e.rhs ∧ BalancedIn s ang e.lhs
  one : ∀ e ∈ s.lists.l1, Separated ang e.lhs ∧ Separated ang e.rhs ∧ BalancedIn s ang e.lhs ∧
    countUnknowns s.vars e.lhs + countUnknowns s.vars e.rhs ≤ 1
  two : ∀ e ∈ s.lists.l2, Separated ang e.lhs ∧ Separated ang e.rhs

theorem entry_sep {ang : String → Bool} {m : MEqn} (h : ∀ e ∈ m.kequationList, Separated ang e.lhs ∧ Separated ang e.rhs) (i j : Fin 4) :
    Separated ang (m.entry i j).lhs ∧ Separated ang (m.entry i j).rhs := by
  unfold MEqn.entry
  split
  · next hi =>
    refine h ⟨m.td ⟨i, hi⟩ j, m.ts ⟨i, hi⟩ j⟩ ?_
    simp only [MEqn.kequationList, List.mem_append, List.mem_flatMap, List.mem_map, List.mem_finRange, true_and]
    exact .inl ⟨_, _, rfl⟩
  · split
    · exact ⟨.num 1, .num 1⟩
    · exact ⟨.num 0, .num 0⟩

theorem entry_bal {ang : String → Bool} {s : LS} {m : MEqn} (h : ∀ i j, BalancedIn s ang (m.td i j)) (i j : Fin 4) : BalancedIn s ang (m.entry i j).lhs := by
  unfold MEqn.entry
  split
  · exact h _ _
  · split <;> (intro x _ _ _ hx; cases hx)

theorem zero_bal {ang : String → Bool} {s : LS} : BalancedIn s ang (.num 0) := fun _ _ _ _ hx => by cases hx

/-- the lists made by `scan_for_equations` -/
theorem scan_sep {P : Sympy} {ang : String → Bool} (hP : TameOn ang P) {s : LS} {ms : List MEqn} {aux : List KEqn} {L : Lists}
    (hmat : ∀ m ∈ ms, ∀ e ∈ m.kequationList, Separated ang e.lhs ∧ Separated ang e.rhs) (hbal : ∀ m ∈ ms, ∀ i j, BalancedIn s ang (m.td i j))
    (haux : ∀ e ∈ aux, Separated ang e.lhs ∧ Separated ang e.rhs ∧ BalancedIn s ang e.lhs)
    (h : scanForEquations P.toCAS ms aux s.vars = .ok L) :
    (∀ e ∈ L.l1, Separated ang e.lhs ∧ Separated ang e.rhs ∧ BalancedIn s ang e.lhs ∧
      countUnknowns s.vars e.lhs + countUnknowns s.vars e.rhs ≤ 1) ∧ ∀ e ∈ L.l2, Separated ang e.lhs ∧ Separated ang e.rhs := by
  obtain ⟨g0, g⟩ := C21_scan_general P.toCAS hP.refl ms aux s.vars
  have hne : ms ≠ [] := by intro he; rw [g0 he] at h; cases h
  obtain ⟨L', h', gk⟩ := g hne
  rw [h] at h'; cases h'
  constructor
  · intro e he
    obtain ⟨h1, h2⟩ := (gk 1 (by omega) (by omega)).1 e he
    have hc : countUnknowns s.vars e.lhs + countUnknowns s.vars e.rhs ≤ 1 := by unfold cls at h1; omega
    rcases h2 with ⟨m, hm, i, j, rfl⟩ | ⟨h2, _⟩
    · exact ⟨(entry_sep (hmat m hm) i j).1, (entry_sep (hmat m hm) i j).2, entry_bal (hbal m hm) i j, hc⟩
    · exact ⟨(haux e h2).1, (haux e h2).2.1, (haux e h2).2.2, hc⟩
  · intro e he
    obtain ⟨_, h2⟩ := (gk 2 (by omega) (by omega)).1 e he
    rcases h2 with ⟨m, hm, i, j, rfl⟩ | ⟨h2, _⟩
    · exact entry_sep (hmat m hm) i j
    · exact ⟨(haux e h2).1, (haux e h2).2.1⟩

theorem updAux_sep {P : Sympy} {ang : String → Bool} (hP : TameOn ang P) {s : LS} : ∀ {aux : List KEqn} {L : Lists},
    (∀ e ∈ aux, Separated ang e.lhs ∧ Separated ang e.rhs ∧ BalancedIn s ang e.lhs) →
    (∀ e ∈ L.l1, Separated ang e.lhs ∧ Separated ang e.rhs ∧ BalancedIn s ang e.lhs ∧
      countUnknowns s.vars e.lhs + countUnknowns s.vars e.rhs ≤ 1) → (∀ e ∈ L.l2, Separated ang e.lhs ∧ Separated ang e.rhs) →
    (∀ e ∈ (aux.foldl (updAux P.toCAS s.vars) L).l1, Separated ang e.lhs ∧ Separated ang e.rhs ∧ BalancedIn s ang e.lhs ∧
      countUnknowns s.vars e.lhs + countUnknowns s.vars e.rhs ≤ 1) ∧
    ∀ e ∈ (aux.foldl (updAux P.toCAS s.vars) L).l2, Separated ang e.lhs ∧ Separated ang e.rhs
  | [], _, _, h1, h2 => ⟨h1, h2⟩
  | a :: aux, L, ha, h1, h2 => by
    rw [List.foldl_cons]
    have hz : countUnknowns s.vars (.num 0) = 0 := by rw [count_eq]; simp [Expr.has]
    have hs : Separated ang (P.sub a.lhs a.rhs) := hP.sub (ha a (by simp)).1 (ha a (by simp)).2.1
    have ih := fun L => updAux_sep hP (aux := aux) (L := L) (fun e he => ha e (by simp [he]))
    unfold updAux
    dsimp only
    split
    · next hc =>
      refine ih _ (fun e he => ?_) h2
      rcases List.mem_append.1 he with he | he
      · exact h1 e he
      · simp only [List.mem_singleton] at he; subst he
        exact ⟨.num 0, hs, zero_bal, by rw [hz]; simp only; omega⟩
    split
    · refine ih _ h1 (fun e he => ?_)
      rcases List.mem_append.1 he with he | he
      · exact h2 e he
      · simp only [List.mem_singleton] at he; subst he
        exact ⟨.num 0, hs⟩
    split
    · exact ih _ h1 h2
    · exact ih _ h1 h2

theorem sub_sep {P : Sympy} {ang : String → Bool} (hP : TameOn ang P) (vs : List Var) (m : MEqn) (b : Bool)
    (h : ∀ e ∈ m.kequationList, Separated ang e.lhs ∧ Separated ang e.rhs) :
    let m' := (cells.foldl (subCell P vs) (m, b)).1
    m'.td = m.td ∧ ∀ e ∈ m'.kequationList, Separated ang e.lhs ∧ Separated ang e.rhs := by
  have hk : ∀ m' : MEqn, m'.td = m.td → m'.aux = m.aux → (∀ i j, Separated ang (m'.ts i j)) →
      m'.td = m.td ∧ ∀ e ∈ m'.kequationList, Separated ang e.lhs ∧ Separated ang e.rhs := by
    intro m' h1 h2 h3
    refine ⟨h1, fun e he => ?_⟩
    simp only [MEqn.kequationList, List.mem_append, List.mem_flatMap, List.mem_map, List.mem_finRange, true_and] at he
    rcases he with ⟨i, j, rfl⟩ | he
    · refine ⟨?_, h3 i j⟩
      rw [h1]
      exact (h ⟨m.td i j, m.ts i j⟩ (by
        simp only [MEqn.kequationList, List.mem_append, List.mem_flatMap, List.mem_map, List.mem_finRange, true_and]
        exact .inl ⟨_, _, rfl⟩)).1
    · rw [h2] at he
      exact h e (by simp only [MEqn.kequationList, List.mem_append]; exact .inr he)
  have hent : ∀ i j, Separated ang (m.td i j) ∧ Separated ang (m.ts i j) := fun i j => h ⟨m.td i j, m.ts i j⟩ (by
    simp only [MEqn.kequationList, List.mem_append, List.mem_flatMap, List.mem_map, List.mem_finRange, true_and]
    exact .inl ⟨_, _, rfl⟩)
  have key : ∀ r : MEqn × Bool, (r.1.td = m.td ∧ r.1.aux = m.aux ∧ ∀ i j, Separated ang (r.1.ts i j)) → ∀ c,
      ((subCell P vs r c).1.td = m.td ∧ (subCell P vs r c).1.aux = m.aux ∧ ∀ i j, Separated ang ((subCell P vs r c).1.ts i j)) := by
    intro r hr c
    unfold subCell
    have he2 : Separated ang (r.1.ts c.1 c.2) := hr.2.2 _ _
    refine foldl_inv (I := fun r : MEqn × Bool => r.1.td = m.td ∧ r.1.aux = m.aux ∧ ∀ i j, Separated ang (r.1.ts i j)) cells r hr ?_
    rintro ⟨m', b'⟩ kl - ⟨h1, h2, h3⟩
    rcases subStep_cases P vs c (r.1.ts c.1 c.2) m' b' kl with h4 | ⟨old, new, hon, -, -, h4⟩
    · rw [h4]; exact ⟨h1, h2, h3⟩
    · rw [h4]
      refine ⟨h1, h2, fun i j => ?_⟩
      have hs : Separated ang old ∧ Separated ang new := by
        have ht : Separated ang (m'.td kl.1 kl.2) := by rw [h1]; exact (hent _ _).1
        rcases hon with ⟨rfl, rfl⟩ | ⟨rfl, rfl⟩
        · exact ⟨h3 _ _, ht⟩
        · exact ⟨.un (by simp) (by simp) (h3 _ _), .un (by simp) (by simp) ht⟩
      simp only [MEqn.setTs]
      split
      · exact hP.subst he2 hs.1 hs.2
      · exact h3 i j
  have := foldl_inv (I := fun r : MEqn × Bool => r.1.td = m.td ∧ r.1.aux = m.aux ∧ ∀ i j, Separated ang (r.1.ts i j)) cells (m, b)
    ⟨rfl, rfl, fun i j => (hent i j).2⟩ fun r c _ hr => key r hr c
  exact hk _ this.1 this.2.1 this.2.2

end Verif.Solver
