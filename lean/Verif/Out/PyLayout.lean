import Verif.Out.PyFile
/-!
# C61, specification: Python's rules on the lines of a file

Python reference manual, 2.1 (line structure): comments, joining of lines inside brackets, blank lines, indentation; and that `:` at the end of
a logical line opens a block. Rules for the inside of statements are not part of it, except those for `print` and for the character `\`.
-/
namespace Verif.Out

/-- The rest of a physical line, at bracket depth `d`, inside a string literal if `q` is its quote. Result: the depth at the end, and whether
the last character before the comment is a colon. `none`: an unterminated string, a closing bracket without an opening one, or a `\`
(which would have to be the last character of its line; escapes in string literals are not treated). -/
def scan : Option Char → Nat → Bool → Text → Option (Nat × Bool)
  | none, d, b, [] => some (d, b)
  | some _, _, _, [] => none
  | some q, d, b, c :: cs => if c = q then scan none d false cs else if c = '\\' then none else scan (some q) d b cs
  | none, d, b, c :: cs =>
    if c = '#' then some (d, b)
    else if c = '"' ∨ c = '\'' then scan (some c) d false cs
    else if c = '(' ∨ c = '[' ∨ c = '{' then scan none (d + 1) false cs
    else if c = ')' ∨ c = ']' ∨ c = '}' then (if d = 0 then none else scan none (d - 1) false cs)
    else if c = '\\' then none
    else if c = ' ' then scan none d b cs
    else scan none d (c == ':') cs

/-- the state between two lines: the indentations of the open blocks (innermost first), the depth of open brackets, and whether the last
logical line opens a block -/
structure Lay where
  stack : List Nat
  depth : Nat
  block : Bool
  deriving DecidableEq, Repr

def Lay.start : Lay := ⟨[0], 0, false⟩

/-- the open blocks at a line indented by `i` -/
def Lay.indent (s : Lay) (i : Nat) : Option (List Nat) :=
  if s.block then (if s.stack.headD 0 < i then some (i :: s.stack) else none)
  else let st := s.stack.dropWhile (fun j => i < j)
    if st.head? = some i then some st else none

/-- Python 3: `print` is a function. (`print` followed by a blank and something else than an opening parenthesis or an assignment.) -/
def printStatement (t : Text) : Bool :=
  startsWith "print ".toList t && (((t.drop 6).dropWhile (· == ' ')).head?.map fun c => c != '(' && c != '=').getD false

/-- one physical line -/
def Lay.line (py3 : Bool) (s : Lay) (t : Text) : Option Lay :=
  if s.depth > 0 then (scan none s.depth false t).map fun r => ⟨s.stack, r.1, r.1 == 0 && r.2⟩
  else
    let rest := t.dropWhile (· == ' ')
    if rest = [] ∨ rest.head? = some '#' then some s
    else if py3 && printStatement rest then none
    else match s.indent (t.length - rest.length) with
      | none => none
      | some st => (scan none 0 false rest).map fun r => ⟨st, r.1, r.1 == 0 && r.2⟩

def Lay.lines (py3 : Bool) : Lay → List Text → Option Lay
  | s, [] => some s
  | s, t :: ts => (s.line py3 t).bind fun s' => s'.lines py3 ts

/-- Python accepts the lines of the file: no error, and at the end no open bracket and no missing block. -/
def Accepts (py3 : Bool) (file : List Text) : Prop :=
  ∃ s, Lay.start.lines py3 file = some s ∧ s.depth = 0 ∧ s.block = false

end Verif.Out
