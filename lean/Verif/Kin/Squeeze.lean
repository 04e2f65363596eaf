import Verif.Kin.Numeric
/-!
# Model of `notation_squeeze` (ikbtbasics/pykinsym.py:133-166) and C67

Used for every matrix that is shown on the screen or in the LaTeX report.
-/
namespace Verif.Kin
open Verif.Sym

def thE (i : Nat) : Expr := .sym ("th_" ++ toString i)

/-- pykinsym.py:135-148: `sin(th_i)` by `s_i`, then `cos(th_i)` by `c_i` -/
def singlePairs : List (Expr × String) :=
  [1, 2, 3, 4, 5, 6].map (fun i => (sinE (thE i), "s_" ++ toString i)) ++ [1, 2, 3, 4, 5, 6].map (fun i => (cosE (thE i), "c_" ++ toString i))

/-- pykinsym.py:151-163: the pairs of joints -/
def jointPairs : List (Nat × Nat) := [(1, 2), (2, 3), (3, 4), (4, 5), (5, 6), (1, 3)]

/-- pykinsym.py:151-163 -/
def squeezePairs : List (Expr × String) :=
  jointPairs.flatMap fun p => [(cosE (addE (thE p.1) (thE p.2)), "c_" ++ toString p.1 ++ toString p.2),
    (sinE (addE (thE p.1) (thE p.2)), "s_" ++ toString p.1 ++ toString p.2)]

/-- pykinsym.py:133-166 `notation_squeeze`, for one element; `sub` is sympy's `expr.subs(old, new)` (a list is worked off in its order) -/
def squeeze (sub : Expr → Expr → Expr → Expr) (e : Expr) : Expr :=
  (singlePairs ++ squeezePairs).foldl (fun e p => sub e p.1 (.sym p.2)) e

/-! ## Specification -/

/-- What the 24 short names stand for. -/
def meaning (x : String) : Option Expr :=
  match x with
  | "s_1" => some (.un .sin (.sym "th_1")) | "s_2" => some (.un .sin (.sym "th_2")) | "s_3" => some (.un .sin (.sym "th_3"))
  | "s_4" => some (.un .sin (.sym "th_4")) | "s_5" => some (.un .sin (.sym "th_5")) | "s_6" => some (.un .sin (.sym "th_6"))
  | "c_1" => some (.un .cos (.sym "th_1")) | "c_2" => some (.un .cos (.sym "th_2")) | "c_3" => some (.un .cos (.sym "th_3"))
  | "c_4" => some (.un .cos (.sym "th_4")) | "c_5" => some (.un .cos (.sym "th_5")) | "c_6" => some (.un .cos (.sym "th_6"))
  | "s_12" => some (.un .sin (.bin .add (.sym "th_1") (.sym "th_2"))) | "c_12" => some (.un .cos (.bin .add (.sym "th_1") (.sym "th_2")))
  | "s_23" => some (.un .sin (.bin .add (.sym "th_2") (.sym "th_3"))) | "c_23" => some (.un .cos (.bin .add (.sym "th_2") (.sym "th_3")))
  | "s_34" => some (.un .sin (.bin .add (.sym "th_3") (.sym "th_4"))) | "c_34" => some (.un .cos (.bin .add (.sym "th_3") (.sym "th_4")))
  | "s_45" => some (.un .sin (.bin .add (.sym "th_4") (.sym "th_5"))) | "c_45" => some (.un .cos (.bin .add (.sym "th_4") (.sym "th_5")))
  | "s_56" => some (.un .sin (.bin .add (.sym "th_5") (.sym "th_6"))) | "c_56" => some (.un .cos (.bin .add (.sym "th_5") (.sym "th_6")))
  | "s_13" => some (.un .sin (.bin .add (.sym "th_1") (.sym "th_3"))) | "c_13" => some (.un .cos (.bin .add (.sym "th_1") (.sym "th_3")))
  | _ => none

/-- the expression contains a subterm -/
def Contains (sub : Expr) : Expr → Prop
  | .num q => sub = .num q
  | .sym s => sub = .sym s
  | .un f a => sub = .un f a ∨ Contains sub a
  | .bin f a b => sub = .bin f a b ∨ Contains sub a ∨ Contains sub b

/-! ## Lemmas -/

theorem pairs_meaning : ∀ p ∈ singlePairs ++ squeezePairs, meaning p.2 = some p.1 ∧ p.1.subs meaning = p.1 := by decide +kernel

theorem replace_subs {f : String → Option Expr} {old : Expr} {s : String} (h : f s = some old) (ho : old.subs f = old) :
    ∀ e : Expr, (e.replace old (.sym s)).subs f = e.subs f
  | .num q => by
    simp only [Expr.replace]
    split
    · rename_i he; rw [he, ho]; simp [Expr.subs, h]
    · rfl
  | .sym x => by
    simp only [Expr.replace]
    split
    · rename_i he; rw [he, ho]; simp [Expr.subs, h]
    · rfl
  | .un g a => by
    simp only [Expr.replace]
    split
    · rename_i he; rw [he, ho]; simp [Expr.subs, h]
    · simp only [Expr.subs]; rw [replace_subs h ho a]
  | .bin g a b => by
    simp only [Expr.replace]
    split
    · rename_i he; rw [he, ho]; simp [Expr.subs, h]
    · simp only [Expr.subs]; rw [replace_subs h ho a, replace_subs h ho b]

theorem subs_none {f : String → Option Expr} : ∀ {e : Expr}, (∀ x, e.has x = true → f x = none) → e.subs f = e
  | .num _, _ => rfl
  | .sym s, h => by simp [Expr.subs, h s (by simp [Expr.has])]
  | .un g a, h => by
    simp only [Expr.subs]; rw [subs_none fun x hx => h x (by simpa [Expr.has] using hx)]
  | .bin g a b, h => by
    simp only [Expr.subs]
    rw [subs_none (e := a) fun x hx => h x (by simp [Expr.has, hx]), subs_none (e := b) fun x hx => h x (by simp [Expr.has, hx])]

theorem replace_sym {old : Expr} {s t : String} (hst : s ≠ t) : ∀ {a : Expr}, a.replace old (.sym s) = .sym t → a = .sym t
  | .num q, h => by
    simp only [Expr.replace] at h
    split at h
    · cases h; exact absurd rfl hst
    · cases h
  | .sym x, h => by
    simp only [Expr.replace] at h
    split at h
    · cases h; exact absurd rfl hst
    · exact h
  | .un f a, h => by
    simp only [Expr.replace] at h
    split at h
    · cases h; exact absurd rfl hst
    · cases h
  | .bin f a b, h => by
    simp only [Expr.replace] at h
    split at h
    · cases h; exact absurd rfl hst
    · cases h

/-- a function of a symbol does not come up by a replacement -/
theorem contains_replace {f : Fn1} {t s : String} {old : Expr} (hst : s ≠ t) :
    ∀ {e : Expr}, Contains (.un f (.sym t)) (e.replace old (.sym s)) → Contains (.un f (.sym t)) e ∧ old ≠ .un f (.sym t)
  | .num q, h => by
    simp only [Expr.replace] at h
    split at h <;> simp [Contains] at h
  | .sym x, h => by
    simp only [Expr.replace] at h
    split at h <;> simp [Contains] at h
  | .un g a, h => by
    simp only [Expr.replace] at h
    split at h
    · simp [Contains] at h
    · rename_i hne
      simp only [Contains] at h ⊢
      rcases h with h | h
      · simp only [Expr.un.injEq] at h
        have ha := replace_sym hst h.2.symm
        rw [ha, ← h.1] at hne ⊢
        exact ⟨.inl rfl, fun e => hne e.symm⟩
      · exact ⟨.inr (contains_replace hst h).1, (contains_replace hst h).2⟩
  | .bin g a b, h => by
    simp only [Expr.replace] at h
    split at h
    · simp [Contains] at h
    · simp only [Contains] at h ⊢
      rcases h with h | h | h
      · cases h
      · exact ⟨.inr (.inl (contains_replace hst h).1), (contains_replace hst h).2⟩
      · exact ⟨.inr (.inr (contains_replace hst h).1), (contains_replace hst h).2⟩

/-! ## C67 -/

/-- **C67, same value.** For every expression and all values of the symbols, if the short names have the values that they stand for, the shown
expression has the value of the given one. (Of sympy's substitution only: it exchanges equals for equals.) -/
theorem C67_value (sub : Expr → Expr → Expr → Expr) (hsub : SoundSub sub) (env : String → ℝ)
    (henv : ∀ x m, meaning x = some m → env x = m.eval env) (e : Expr) : (squeeze sub e).eval env = e.eval env := by
  rw [squeeze]
  have h : ∀ p ∈ singlePairs ++ squeezePairs, p.1.eval env = (Expr.sym p.2).eval env := by
    intro p hp
    exact (henv p.2 p.1 (pairs_meaning p hp).1).symm
  generalize singlePairs ++ squeezePairs = l at h
  induction l generalizing e with
  | nil => rfl
  | cons p l ih =>
    rw [List.foldl_cons, ih _ fun q hq => h q (by simp [hq])]
    exact hsub e p.1 (.sym p.2) env (h p (by simp))

/-- the values of the short names can be chosen like that, for all values of the other symbols -/
theorem C67_values_exist (env : String → ℝ) : ∃ env' : String → ℝ, (∀ x, meaning x = none → env' x = env x) ∧
    ∀ x m, meaning x = some m → env' x = m.eval env' := by
  refine ⟨fun x => match meaning x with | some m => m.eval env | none => env x, ?_, ?_⟩
  · intro x hx; simp only [hx]
  · intro x m hm
    simp only [hm]
    have hth : ∀ s, m.has s = true → meaning s = none := by
      have hp : ∃ p ∈ singlePairs ++ squeezePairs, p.1 = m := by
        simp only [meaning] at hm
        split at hm
        all_goals first | (cases hm; decide +kernel) | cases hm
      obtain ⟨p, hpm, rfl⟩ := hp
      have hall : ∀ p ∈ singlePairs ++ squeezePairs, ∃ i ∈ [1, 2, 3, 4, 5, 6], ∃ j ∈ [1, 2, 3, 4, 5, 6], ∃ f ∈ [Fn1.sin, Fn1.cos],
        p.1 = .un f (thE i) ∨ p.1 = .un f (addE (thE i) (thE j)) := by decide +kernel
      have hno : ∀ i ∈ [1, 2, 3, 4, 5, 6], meaning ("th_" ++ toString i) = none := by decide +kernel
      intro s hs
      obtain ⟨i, hi, j, hj, f, _, h | h⟩ := hall p hpm
      · rw [h] at hs
        simp only [Expr.has, thE, beq_iff_eq] at hs
        rw [← hs]; exact hno i hi
      · rw [h] at hs
        simp only [Expr.has, addE, thE, Bool.or_eq_true, beq_iff_eq] at hs
        rcases hs with hs | hs
        · rw [← hs]; exact hno i hi
        · rw [← hs]; exact hno j hj
    exact Expr.eval_congr fun s hs => by rw [hth s hs]

/-- **C67, nothing is lost.** If an expression uses none of the 24 short names, writing them out in the shown expression gives back exactly the
given one. (For substitution as replacement of subterms.) -/
theorem C67_read_back (e : Expr) (h : ∀ x, e.has x = true → meaning x = none) : (squeeze Expr.replace e).subs meaning = e := by
  rw [← subs_none h]
  conv_rhs => rw [subs_none h]
  rw [squeeze]
  have hp := pairs_meaning
  have key : ∀ (l : List (Expr × String)) (e : Expr), (∀ p ∈ l, meaning p.2 = some p.1 ∧ p.1.subs meaning = p.1) →
      (l.foldl (fun e p => e.replace p.1 (.sym p.2)) e).subs meaning = e.subs meaning := by
    intro l
    induction l with
    | nil => intro e _; rfl
    | cons p l ih =>
      intro e h
      rw [List.foldl_cons, ih _ fun q hq => h q (by simp [hq])]
      exact replace_subs (h p (by simp)).1 (h p (by simp)).2 e
  rw [key _ _ hp, subs_none (f := meaning) (by rw [subs_none h]; exact h), subs_none h]

/-- **C67, different expressions are shown differently**, if they use none of the short names. -/
theorem C67_injective (e e' : Expr) (h : ∀ x, e.has x = true → meaning x = none) (h' : ∀ x, e'.has x = true → meaning x = none)
    (heq : squeeze Expr.replace e = squeeze Expr.replace e') : e = e' := by
  rw [← C67_read_back e h, heq, C67_read_back e' h']

/-- **C67, everything is shortened.** No sine or cosine of one of the six joint angles is left. -/
theorem C67_shortened (e : Expr) (i : Nat) (hi : 1 ≤ i ∧ i ≤ 6) (f : Fn1) (hf : f = .sin ∨ f = .cos) :
    ¬ Contains (.un f (.sym ("th_" ++ toString i))) (squeeze Expr.replace e) := by
  have hmem : ∀ i ∈ [1, 2, 3, 4, 5, 6], ∀ f ∈ [Fn1.sin, Fn1.cos], ∃ p ∈ singlePairs ++ squeezePairs, p.1 = .un f (.sym ("th_" ++ toString i)) := by
    decide +kernel
  have hnew : ∀ p ∈ singlePairs ++ squeezePairs, ∀ i ∈ [1, 2, 3, 4, 5, 6], p.2 ≠ "th_" ++ toString i := by decide +kernel
  have hi' : i ∈ [1, 2, 3, 4, 5, 6] := by
    obtain ⟨h1, h2⟩ := hi
    simp only [List.mem_cons, List.not_mem_nil, or_false]; omega
  obtain ⟨p, hp, hpe⟩ := hmem i hi' f (by rcases hf with rfl | rfl <;> simp)
  have hn : ∀ p ∈ singlePairs ++ squeezePairs, p.2 ≠ "th_" ++ toString i := fun p hp => hnew p hp i hi'
  rw [squeeze]
  generalize singlePairs ++ squeezePairs = l at hp hn
  have key : ∀ (l : List (Expr × String)) (e : Expr), (∀ p ∈ l, p.2 ≠ "th_" ++ toString i) →
      Contains (.un f (.sym ("th_" ++ toString i))) (l.foldl (fun e p => e.replace p.1 (.sym p.2)) e) →
      Contains (.un f (.sym ("th_" ++ toString i))) e ∧ ∀ p ∈ l, p.1 ≠ .un f (.sym ("th_" ++ toString i)) := by
    intro l
    induction l with
    | nil => intro e _ h; exact ⟨h, by simp⟩
    | cons q l ih =>
      intro e hn h
      rw [List.foldl_cons] at h
      obtain ⟨h1, h2⟩ := ih _ (fun p hp => hn p (by simp [hp])) h
      obtain ⟨h3, h4⟩ := contains_replace (hn q (by simp)) h1
      refine ⟨h3, ?_⟩
      intro p hp
      rcases List.mem_cons.1 hp with rfl | hp
      · exact h4
      · exact h2 p hp
  intro h
  exact (key l e hn h).2 p hp hpe

/-- **C67 violated.** A parameter with one of the short names is confused with what the name stands for. -/
theorem C67_name_clash_violation :
    squeeze Expr.replace (.un .sin (.sym "th_1")) = squeeze Expr.replace (.sym "s_1") ∧ Expr.un .sin (.sym "th_1") ≠ .sym "s_1" := by
  decide +kernel

/-- Non-vacuity: `sin(th_1)*cos(th_2 + th_3) + l_1`. -/
def demoShown : Expr := .bin .add (.bin .mul (.un .sin (.sym "th_1")) (.un .cos (.bin .add (.sym "th_2") (.sym "th_3")))) (.sym "l_1")
example : squeeze Expr.replace demoShown = .bin .add (.bin .mul (.sym "s_1") (.sym "c_23")) (.sym "l_1") ∧
    (∀ x, demoShown.has x = true → meaning x = none) ∧ SoundSub Expr.replace := by
  refine ⟨by decide +kernel, ?_, soundSub_replace⟩
  intro x hx
  simp only [demoShown, Expr.has, Bool.or_eq_true, beq_iff_eq] at hx
  rcases hx with (rfl | rfl | rfl) | rfl <;> decide

end Verif.Kin
