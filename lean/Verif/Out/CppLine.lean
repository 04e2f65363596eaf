import Verif.Sym.Eval
/-!
# Model of `cpp_output.line` (ikbtfunctions/output_cpp.py:36-47): the text of an expression made C++

Texts are lists of characters. The regular expressions are modelled by hand-written matchers with python's leftmost,
left-to-right, non-overlapping `sub`. Identifiers are ASCII (`\w` = letters, digits, underscore).
-/
namespace Verif.Out

abbrev Text := List Char

/-- `\w` -/
def isW (c : Char) : Bool := c.isAlphanum || c == '_'
/-- `[a-z]` -/
def isLo (c : Char) : Bool := c.isLower

/-- output_cpp.py:43-44: `re.compile(r'(\w+)\*\*2').sub(r'\1*\1', l)`; `run` is the word read so far. The greedy `\w+` takes the
whole word, and nothing shorter can be followed by `*`. -/
def sub1 : Text → Text → Text
  | run, '*' :: '*' :: '2' :: cs =>
    if run = [] then '*' :: sub1 [] ('*' :: '2' :: cs) else run ++ '*' :: run ++ sub1 [] cs
  | run, c :: cs => if isW c then sub1 (run ++ [c]) cs else run ++ c :: sub1 [] cs
  | run, [] => run

/-- the text up to the first `)` and what follows it -/
def upTo : Text → Option (Text × Text)
  | [] => none
  | c :: cs => if c = ')' then some ([], cs) else
    match upTo cs with
    | none => none
    | some (a, r) => some (c :: a, r)

/-- output_cpp.py:45: a match of `([a-z]{3}\([^\)]+?\))\*\*2` at the beginning of the text: the group -/
def m2 : Text → Option Text
  | a :: b :: c :: '(' :: cs =>
    if isLo a && isLo b && isLo c then
      match upTo cs with
      | some (d :: arg, '*' :: '*' :: '2' :: _) => some (a :: b :: c :: '(' :: d :: arg ++ [')'])
      | _ => none
    else none
  | _ => none

/-- output_cpp.py:46: `r.sub(r'\1*\1', s2)`; the first argument counts the characters of a match still to be skipped -/
def sub2 : Nat → Text → Text
  | _, [] => []
  | n + 1, _ :: cs => sub2 n cs
  | 0, c :: cs =>
    match m2 (c :: cs) with
    | some g => g ++ '*' :: g ++ sub2 (g.length + 2) cs
    | none => c :: sub2 0 cs

/-- `re.search(r'\*\*', l)` (output_cpp.py:41) -/
def hasPow : Text → Bool
  | '*' :: '*' :: _ => true
  | _ :: cs => hasPow cs
  | [] => false

/-- output_cpp.py:38-47: one line, without the indentation -/
def cppLine (l : Text) : Text := if hasPow l then sub2 0 (sub1 [] l) else l


end Verif.Out
