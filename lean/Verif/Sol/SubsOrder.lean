import Verif.Sol.VersionsProps
/-!
# C18: the order of the substitutions

`thisSol.subs(subdict)` (ik_classes.py:221) of a dictionary is carried out by sympy one key after the other, in an order of sympy's choice;
`rowEqns` replaces all at once.
-/
namespace Verif.Sol
open Verif.Sym

/-- `expr.subs` of one pair -/
def subsOne (p : String × Expr) (e : Expr) : Expr := e.subs fun n => if n = p.1 then some p.2 else none

/-- sympy's `expr.subs(dict)`: one pair after the other (ik_classes.py:221) -/
def subsSeq (D : List (String × Expr)) (e : Expr) : Expr := D.foldl (fun e p => subsOne p e) e

theorem subsOne_absent {p : String × Expr} {e : Expr} (h : e.has p.1 = false) : subsOne p e = e := by
  unfold subsOne
  induction e with
  | num q => rfl
  | sym s =>
    have : s ≠ p.1 := by rintro rfl; simp [Expr.has] at h
    simp [Expr.subs, this]
  | un g a ih => simp only [Expr.has] at h; simp [Expr.subs, ih h]
  | bin g a b iha ihb =>
    simp only [Expr.has, Bool.or_eq_false_iff] at h
    simp [Expr.subs, iha h.1, ihb h.2]

theorem subsSeq_sym {D : List (String × Expr)} {v : String} (h : ∀ p ∈ D, v ≠ p.1) : subsSeq D (.sym v) = .sym v := by
  induction D with
  | nil => rfl
  | cons p D ih =>
    show subsSeq D (subsOne p (.sym v)) = _
    rw [subsOne_absent (by simp [Expr.has]; exact h p (by simp))]
    exact ih fun q hq => h q (by simp [hq])

theorem subsSeq_un (D : List (String × Expr)) (g : Fn1) : ∀ a, subsSeq D (.un g a) = .un g (subsSeq D a) := by
  induction D with
  | nil => intro a; rfl
  | cons p D ih => intro a; exact ih _
theorem subsSeq_bin (D : List (String × Expr)) (g : Fn2) : ∀ a b, subsSeq D (.bin g a b) = .bin g (subsSeq D a) (subsSeq D b) := by
  induction D with
  | nil => intro a b; rfl
  | cons p D ih => intro a b; exact ih _ _
theorem subsSeq_num (D : List (String × Expr)) (q) : subsSeq D (.num q) = .num q := by
  induction D with
  | nil => rfl
  | cons p D ih => exact ih

theorem subdict_value : ∀ {us : List SolUnk} {r : Row} {n : String} {e : Expr}, subdict us r n = some e →
    (∃ v ∈ r, e = .sym v.render) ∧ ∃ u ∈ us, u.name = n
  | [], _, _, _, h => by simp [subdict] at h
  | _ :: _, [], _, _, h => by simp [subdict] at h
  | u :: us, v :: r, n, e, h => by
    simp only [subdict] at h
    cases hs : subdict us r n with
    | some x =>
      rw [hs] at h
      obtain ⟨⟨w, hw, he⟩, u', hu', hn⟩ := subdict_value hs
      simp only [Option.some.injEq] at h
      exact ⟨⟨w, by simp [hw], by rw [← h, he]⟩, u', by simp [hu'], hn⟩
    | none =>
      rw [hs] at h
      simp only at h
      split at h
      · rename_i hn
        simp only [Option.some.injEq] at h
        exact ⟨⟨v, by simp, h.symm⟩, u, by simp, hn.symm⟩
      · cases h

theorem mem_of_lookup : ∀ {D : List (String × Expr)} {n : String} {e : Expr}, D.lookup n = some e → (n, e) ∈ D
  | [], _, _, h => by simp at h
  | (k, v) :: D, n, e, h => by
    rw [List.lookup_cons] at h
    by_cases hk : n = k
    · subst hk
      simp only [beq_self_eq_true, Option.some.injEq] at h
      simp [h]
    · have hb : (n == k) = false := by simpa using hk
      rw [hb] at h
      exact List.mem_cons_of_mem _ (mem_of_lookup h)

theorem lookup_of_mem : ∀ {D : List (String × Expr)}, (D.map (·.1)).Nodup → ∀ {p : String × Expr}, p ∈ D → D.lookup p.1 = some p.2
  | [], _, _, h => by simp at h
  | (k, v) :: D, hn, p, h => by
    simp only [List.map_cons, List.nodup_cons] at hn
    rcases List.mem_cons.1 h with rfl | h'
    · simp
    · have : p.1 ≠ k := by rintro rfl; exact hn.1 (List.mem_map_of_mem h')
      have hb : (p.1 == k) = false := by simpa using this
      rw [List.lookup_cons, hb]
      exact lookup_of_mem hn.2 h'

theorem subsSeq_key : ∀ {D : List (String × Expr)}, (D.map (·.1)).Nodup → (∀ p ∈ D, ∃ v, p.2 = .sym v ∧ ∀ q ∈ D, v ≠ q.1) →
    ∀ {s : String} {e : Expr}, D.lookup s = some e → subsSeq D (.sym s) = e
  | [], _, _, _, _, h => by simp at h
  | p :: D, hn, hv, s, e, h => by
    simp only [List.map_cons, List.nodup_cons] at hn
    show subsSeq D (subsOne p (.sym s)) = e
    rw [List.lookup_cons] at h
    by_cases hs : s = p.1
    · have hb : (s == p.1) = true := by simpa using hs
      rw [hb] at h
      simp only [Option.some.injEq] at h
      obtain ⟨v, hv1, hv2⟩ := hv p (by simp)
      have : subsOne p (.sym s) = .sym v := by simp [subsOne, Expr.subs, hs, hv1]
      rw [this, subsSeq_sym fun q hq => hv2 q (by simp [hq]), ← hv1, h]
    · have hb : (s == p.1) = false := by simpa using hs
      rw [hb] at h
      rw [subsOne_absent (by simp [Expr.has, hs])]
      exact subsSeq_key hn.2 (fun q hq => by
        obtain ⟨v, h1, h2⟩ := hv q (by simp [hq])
        exact ⟨v, h1, fun q' hq' => h2 q' (by simp [hq'])⟩) h

/-- **C18**: in whatever order sympy substitutes the pairs of the dictionary of a row, one at a time, the result is the simultaneous
replacement that `C18_equations_exact` speaks of, provided no name of the table is the name of an unknown. -/
theorem C18_subs_order (us : List SolUnk) (r : Row) (D : List (String × Expr)) (hk : (D.map (·.1)).Nodup)
    (hD : ∀ n, D.lookup n = subdict us r n) (hn : ∀ v ∈ r, ∀ u ∈ us, v.render ≠ u.name) (e : Expr) :
    subsSeq D e = e.subs (subdict us r) := by
  have hv : ∀ p ∈ D, ∃ v, p.2 = .sym v ∧ ∀ q ∈ D, v ≠ q.1 := by
    intro p hp
    obtain ⟨⟨v, hv, he⟩, _⟩ := subdict_value ((hD p.1).symm.trans (lookup_of_mem hk hp))
    refine ⟨v.render, he, fun q hq => ?_⟩
    obtain ⟨_, u, hu, hn'⟩ := subdict_value ((hD q.1).symm.trans (lookup_of_mem hk hq))
    rw [← hn']
    exact hn v hv u hu
  induction e with
  | num q => exact subsSeq_num D q
  | sym s =>
    simp only [Expr.subs, ← hD]
    cases h : D.lookup s with
    | none =>
      apply subsSeq_sym
      rintro p hp rfl
      rw [lookup_of_mem hk hp] at h
      cases h
    | some e => exact subsSeq_key hk hv h
  | un g a ih => rw [subsSeq_un, ih]; rfl
  | bin g a b iha ihb => rw [subsSeq_bin, iha, ihb]; rfl

/-- Non-vacuity: the third row of the table of the example above, in both orders. -/
example (D : List (String × Expr)) (hD : D = [("x", .sym "xs2"), ("z", .sym "zv3")] ∨ D = [("z", .sym "zv3"), ("x", .sym "xs2")]) :
    (createSolutionSet [demoX, demoZ])[2]? = some [.s "x" 2, .v "z" 3] ∧
    (D.map (·.1)).Nodup ∧ (∀ n, D.lookup n = subdict [demoX, demoZ] [.s "x" 2, .v "z" 3] n) ∧
    (∀ v ∈ [VName.s "x" 2, VName.v "z" 3], ∀ u ∈ [demoX, demoZ], v.render ≠ u.name) := by
  refine ⟨by decide +kernel, ?_, ?_, by decide +kernel⟩
  · rcases hD with rfl | rfl <;> decide
  · intro n
    have r1 : (VName.s "x" 2).render = "xs2" := by decide +kernel
    have r2 : (VName.v "z" 3).render = "zv3" := by decide +kernel
    have hz : ¬ ("z" : String) = "x" := by decide
    by_cases hx : n = "x"
    · subst hx
      rcases hD with rfl | rfl <;> simp [subdict, demoX, demoZ, List.lookup, r1]
    · by_cases hz : n = "z"
      · subst hz
        rcases hD with rfl | rfl <;> simp [subdict, demoZ, List.lookup, r2]
      · have b1 : (n == "x") = false := by simpa using hx
        have b2 : (n == "z") = false := by simpa using hz
        rcases hD with rfl | rfl <;> simp [subdict, demoX, demoZ, List.lookup, b1, b2, hx, hz]

/-- Without that condition the order matters: the unknowns x and xs1, and the row xs1, xs1v1. -/
theorem C18_subs_order_violation : ∃ (us : List SolUnk) (r : Row) (D D' : List (String × Expr)) (e : Expr),
    us.map (·.name) = ["x", "xs1"] ∧ r.map VName.render = ["xs1", "xs1v1"] ∧ D.Perm D' ∧ (D.map (·.1)).Nodup ∧
    (∀ p, p ∈ D ↔ p = ("x", .sym "xs1") ∨ p = ("xs1", .sym "xs1v1")) ∧ subsSeq D e ≠ subsSeq D' e := by
  refine ⟨[⟨"x", 1, [], []⟩, ⟨"xs1", 1, [], []⟩], [.s "x" 1, .v "xs1" 1], [("x", .sym "xs1"), ("xs1", .sym "xs1v1")],
    [("xs1", .sym "xs1v1"), ("x", .sym "xs1")], .sym "x", by decide, by decide +kernel, List.Perm.swap _ _ _, by decide, by simp, by decide +kernel⟩

end Verif.Sol
