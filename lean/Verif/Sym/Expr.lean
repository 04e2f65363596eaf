/-!
# Symbolic expressions

Stands for the part of sympy that IKBT's bookkeeping relies on: expressions are trees over numbers and symbols;
`expr.has(s)` is syntactic occurrence; `expr.subs({...})` replaces symbols.
sympy's automatic simplification, n-ary `Add`/`Mul` and pattern matching are *not* modelled.
-/
namespace Verif.Sym

/-- Unary functions that occur in IKBT's expressions. -/
inductive Fn1 where | neg | sin | cos | asin | acos | sqrt
  deriving DecidableEq, Repr
/-- Binary functions. -/
inductive Fn2 where | add | mul | div | pow | atan2
  deriving DecidableEq, Repr

inductive Expr where
  | num (q : Rat)
  | sym (s : String)
  | un (f : Fn1) (a : Expr)
  | bin (f : Fn2) (a b : Expr)
  deriving DecidableEq, Repr

/-- `expr.has(symbol)` -/
def Expr.has : Expr → String → Bool
  | .num _, _ => false
  | .sym t, s => t == s
  | .un _ a, s => a.has s
  | .bin _ a b, s => a.has s || b.has s

/-- `expr.subs(dict)` for a dict from symbols to expressions (simultaneous replacement). -/
def Expr.subs (f : String → Option Expr) : Expr → Expr
  | .num q => .num q
  | .sym s => (f s).getD (.sym s)
  | .un g a => .un g (a.subs f)
  | .bin g a b => .bin g (a.subs f) (b.subs f)

/-- A symbol of the result comes from an untouched symbol or from a replacement. -/
theorem Expr.has_subs (f : String → Option Expr) (e : Expr) (x : String) :
    (e.subs f).has x = true ↔
      (e.has x = true ∧ f x = none) ∨ ∃ s r, e.has s = true ∧ f s = some r ∧ r.has x = true := by
  induction e with
  | num q => simp [subs, has]
  | sym s =>
    cases h : f s with
    | none =>
      simp only [subs, h, Option.getD_none, has, beq_iff_eq]
      constructor
      · rintro rfl; exact .inl ⟨rfl, h⟩
      · rintro (⟨rfl, _⟩ | ⟨s', r, rfl, h2, _⟩)
        · rfl
        · rw [h] at h2; cases h2
    | some r =>
      simp only [subs, h, Option.getD_some, has, beq_iff_eq]
      constructor
      · intro hr; exact .inr ⟨s, r, rfl, h, hr⟩
      · rintro (⟨rfl, h1⟩ | ⟨s', r', rfl, h2, h3⟩)
        · rw [h] at h1; cases h1
        · rw [h] at h2; cases h2; exact h3
  | un g a ih => simpa [subs, has] using ih
  | bin g a b iha ihb =>
    simp only [subs, has, Bool.or_eq_true, iha, ihb]
    constructor
    · rintro ((⟨h1, h2⟩ | ⟨s, r, h1, h2, h3⟩) | (⟨h1, h2⟩ | ⟨s, r, h1, h2, h3⟩))
      · exact .inl ⟨.inl h1, h2⟩
      · exact .inr ⟨s, r, .inl h1, h2, h3⟩
      · exact .inl ⟨.inr h1, h2⟩
      · exact .inr ⟨s, r, .inr h1, h2, h3⟩
    · rintro (⟨h1 | h1, h2⟩ | ⟨s, r, h1 | h1, h2, h3⟩)
      · exact .inl (.inl ⟨h1, h2⟩)
      · exact .inr (.inl ⟨h1, h2⟩)
      · exact .inl (.inr ⟨s, r, h1, h2, h3⟩)
      · exact .inr (.inr ⟨s, r, h1, h2, h3⟩)

end Verif.Sym
