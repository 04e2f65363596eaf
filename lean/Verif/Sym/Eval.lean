import Verif.Sym.Expr
import Mathlib.Analysis.SpecialFunctions.Complex.Arg
import Mathlib.Analysis.SpecialFunctions.Trigonometric.Inverse
import Mathlib.Analysis.SpecialFunctions.Pow.Real
/-!
# The value of a symbolic expression over the reals
-/
namespace Verif.Sym

/-- `atan2(y, x)`: the angle of the vector (x, y) in (-π, π] (0 for the zero vector). -/
noncomputable def atan2 (y x : ℝ) : ℝ := Complex.arg ⟨x, y⟩

noncomputable def Fn1.eval : Fn1 → ℝ → ℝ
  | .neg, x => -x
  | .sin, x => Real.sin x
  | .cos, x => Real.cos x
  | .asin, x => Real.arcsin x
  | .acos, x => Real.arccos x
  | .sqrt, x => Real.sqrt x

noncomputable def Fn2.eval : Fn2 → ℝ → ℝ → ℝ
  | .add, x, y => x + y
  | .mul, x, y => x * y
  | .div, x, y => x / y
  | .pow, x, y => x ^ y
  | .atan2, y, x => Verif.Sym.atan2 y x

/-- The value of an expression, given the values of the symbols. Where Python has no real value (division by zero, arcsin
outside [-1,1], …) Lean's total functions give an arbitrary one. -/
noncomputable def Expr.eval (env : String → ℝ) : Expr → ℝ
  | .num q => q
  | .sym s => env s
  | .un f a => f.eval (a.eval env)
  | .bin f a b => f.eval (a.eval env) (b.eval env)

/-- `expr.subs(old, new)` on expression trees: replace every occurrence of the subtree. -/
def Expr.replace : Expr → Expr → Expr → Expr
  | .num q, old, new => if Expr.num q = old then new else .num q
  | .sym s, old, new => if Expr.sym s = old then new else .sym s
  | .un f a, old, new => if Expr.un f a = old then new else .un f (a.replace old new)
  | .bin f a b, old, new => if Expr.bin f a b = old then new else .bin f (a.replace old new) (b.replace old new)

/-- What is assumed of sympy's `expr.subs(old, new)`: it exchanges equals for equals. -/
def SoundSub (sub : Expr → Expr → Expr → Expr) : Prop :=
  ∀ e old new env, old.eval env = new.eval env → (sub e old new).eval env = e.eval env

/-- The replacement of subtrees has the property. -/
theorem soundSub_replace : SoundSub Expr.replace := by
  intro e old new env h
  induction e with
  | num q => simp only [Expr.replace]; split <;> simp_all
  | sym s => simp only [Expr.replace]; split <;> simp_all
  | un f a ih =>
    simp only [Expr.replace]
    split
    · next heq => rw [heq, h]
    · simp only [Expr.eval, ih]
  | bin f a b iha ihb =>
    simp only [Expr.replace]
    split
    · next heq => rw [heq, h]
    · simp only [Expr.eval, iha, ihb]

/-- The value depends only on the symbols that occur. -/
theorem Expr.eval_congr {env env' : String → ℝ} :
    ∀ {e : Expr}, (∀ s, e.has s = true → env s = env' s) → e.eval env = e.eval env'
  | .num q, _ => rfl
  | .sym s, h => h s (by simp [Expr.has])
  | .un f a, h => by
    simp only [Expr.eval]
    rw [Expr.eval_congr (e := a) (fun s hs => h s (by simpa [Expr.has] using hs))]
  | .bin f a b, h => by
    simp only [Expr.eval]
    rw [Expr.eval_congr (e := a) (fun s hs => h s (by simp [Expr.has, hs])),
      Expr.eval_congr (e := b) (fun s hs => h s (by simp [Expr.has, hs]))]

/-- Simultaneous substitution of symbols, semantically. -/
theorem Expr.eval_subs (f : String → Option Expr) (env : String → ℝ) :
    ∀ e : Expr, (e.subs f).eval env = e.eval (fun s => match f s with | some r => r.eval env | none => env s)
  | .num q => rfl
  | .sym s => by
    simp only [Expr.subs, Expr.eval]
    cases f s <;> rfl
  | .un g a => by simp only [Expr.subs, Expr.eval, Expr.eval_subs f env a]
  | .bin g a b => by simp only [Expr.subs, Expr.eval, Expr.eval_subs f env a, Expr.eval_subs f env b]

end Verif.Sym
