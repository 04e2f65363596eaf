import Verif.Out.CppLine
/-!
# Expressions as they are written in the generated code, and what `cpp_output.line` makes of them
-/
namespace Verif.Out
open Verif.Sym

/-- the functions that occur in solutions, other than atan2 -/
inductive Fun where | sin | cos | asin | acos | sqrt
  deriving DecidableEq, Repr

/-- how a function is written -/
def Fun.text : Fun → Text
  | .sin => ['s', 'i', 'n']
  | .cos => ['c', 'o', 's']
  | .asin => ['a', 's', 'i', 'n']
  | .acos => ['a', 'c', 'o', 's']
  | .sqrt => ['s', 'q', 'r', 't']

/-- A parse tree of the common part of python's and C++'s expression syntax, with `**` of python. Parentheses are explicit. -/
inductive E where
  | name (s : Text)
  | nat (n : Nat)
  | call (f : Fun) (a : E)
  | at2 (a b : E)
  | par (a : E)
  | pow (a : E) (n : Nat)
  | mul (a b : E)
  | div (a b : E)
  | add (a b : E)
  | sub (a b : E)
  | neg (a : E)
  deriving DecidableEq, Repr

/-- how a number is written -/
def digits (n : Nat) : Text := Nat.toDigits 10 n

/-- The text of a tree, as sympy's `str` prints it. -/
def E.text : E → Text
  | .name s => s
  | .nat n => digits n
  | .call f a => f.text ++ '(' :: a.text ++ [')']
  | .at2 a b => ['a', 't', 'a', 'n', '2'] ++ '(' :: a.text ++ ',' :: ' ' :: b.text ++ [')']
  | .par a => '(' :: a.text ++ [')']
  | .pow a n => a.text ++ '*' :: '*' :: digits n
  | .mul a b => a.text ++ '*' :: b.text
  | .div a b => a.text ++ '/' :: b.text
  | .add a b => a.text ++ ' ' :: '+' :: ' ' :: b.text
  | .sub a b => a.text ++ ' ' :: '-' :: ' ' :: b.text
  | .neg a => '-' :: a.text

/-- binding strength: atoms 3, powers 2, products and quotients 1, sums 0 -/
def E.lvl : E → Nat
  | .name _ | .nat _ | .call _ _ | .at2 _ _ | .par _ => 3
  | .pow _ _ => 2
  | .mul _ _ | .div _ _ => 1
  | .add _ _ | .sub _ _ | .neg _ => 0

/-- The tree is the parse tree of its text: `*`, `/`, `+`, `-` associate to the left, `**` binds tightest, `-` as a sign is a sum. -/
def E.Wf : E → Prop
  | .name s => s ≠ [] ∧ (∀ c ∈ s, isW c = true) ∧ (∀ c, s.head? = some c → c.isDigit = false)
  | .nat _ => True
  | .call _ a => a.Wf
  | .at2 a b => a.Wf ∧ b.Wf
  | .par a => a.Wf
  | .pow a _ => a.Wf ∧ 3 ≤ a.lvl
  | .mul a b => a.Wf ∧ b.Wf ∧ 1 ≤ a.lvl ∧ 2 ≤ b.lvl
  | .div a b => a.Wf ∧ b.Wf ∧ 1 ≤ a.lvl ∧ 2 ≤ b.lvl
  | .add a b => a.Wf ∧ b.Wf ∧ 1 ≤ b.lvl
  | .sub a b => a.Wf ∧ b.Wf ∧ 1 ≤ b.lvl
  | .neg a => a.Wf ∧ 1 ≤ a.lvl

noncomputable def Fun.eval : Fun → ℝ → ℝ
  | .sin => Real.sin
  | .cos => Real.cos
  | .asin => Real.arcsin
  | .acos => Real.arccos
  | .sqrt => Real.sqrt

/-- The value in python (and sympy): real arithmetic. -/
noncomputable def E.val (env : Text → ℝ) : E → ℝ
  | .name s => env s
  | .nat n => n
  | .call f a => f.eval (a.val env)
  | .at2 a b => atan2 (a.val env) (b.val env)
  | .par a => a.val env
  | .pow a n => a.val env ^ n
  | .mul a b => a.val env * b.val env
  | .div a b => a.val env / b.val env
  | .add a b => a.val env + b.val env
  | .sub a b => a.val env - b.val env
  | .neg a => - a.val env

/-- the C++ type: `int` for literals and arithmetic on them, else `double` (powers are not C++; here for the products they become) -/
def E.isInt : E → Bool
  | .nat _ => true
  | .par a => a.isInt
  | .neg a | .pow a _ => a.isInt
  | .mul a b | .div a b | .add a b | .sub a b => a.isInt && b.isInt
  | _ => false

/-- quotient of integers in C++: truncated -/
noncomputable def trunc (x : ℝ) : ℝ := if 0 ≤ x then (⌊x⌋ : ℝ) else (⌈x⌉ : ℝ)

/-- The value in C++ (`none`: no C++ expression, because of `**`); `int` overflow and rounding are not modelled. -/
noncomputable def E.cval (env : Text → ℝ) : E → Option ℝ
  | .name s => some (env s)
  | .nat n => some n
  | .call f a => (a.cval env).map f.eval
  | .at2 a b => (a.cval env).bind fun x => (b.cval env).map fun y => atan2 x y
  | .par a => a.cval env
  | .pow _ _ => none
  | .mul a b => (a.cval env).bind fun x => (b.cval env).map fun y => x * y
  | .div a b => (a.cval env).bind fun x => (b.cval env).map fun y => if a.isInt && b.isInt then trunc (x / y) else x / y
  | .add a b => (a.cval env).bind fun x => (b.cval env).map fun y => x + y
  | .sub a b => (a.cval env).bind fun x => (b.cval env).map fun y => x - y
  | .neg a => (a.cval env).map fun x => -x

end Verif.Out
