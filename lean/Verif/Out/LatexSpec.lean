import Verif.Out.CodeGen
/-!
# The LaTeX that the reports use (specification for C62)

A reader of LaTeX text, independent of the generator: characters are grouped into tokens (commands, `\begin{…}`, braces, `$`, `&`, blank lines;
the inside of `verbatim` is skipped), and the tokens are checked with a stack of open groups and environments:
environments, braces and `$` must nest; `&` is only allowed in `align`, `matrix` and `tabular`, in a row of a table at most as often as the
columns declared allow; `_` and `^` only in mathematics; no blank line in mathematics; `\hline` only at the start of a row; `\item` only in
`enumerate`; `align` and `dmath` not inside mathematics; `#` and `%` not at all.
The reader also records what the text shows: headings of subsections, the equations of `align` and `dmath`, list items, cells and rows of tables.

Not covered: the preamble of the document, undefined commands, double subscripts, `\left`/`\right`.
-/
namespace Verif.Out.Tex
open Verif.Out

inductive Tok where
  | beg (env : Text)
  | fin (env : Text)
  /-- `\name`, or a backslash and one other character -/
  | cmd (name : Text)
  | opn
  | cls
  | dollar
  | amp
  /-- a blank line: end of the paragraph -/
  | par
  | ch (c : Char)
  deriving DecidableEq, Repr

/-- an open group -/
inductive Frame where
  | env (name : Text)
  | brace
  | dollar
  | display
  /-- after `\begin{tabular}`; in its argument with so many columns so far; in its rows: columns and current column -/
  | tabWait
  | tabArg (n : Nat)
  | tab (cols cur : Nat)
  /-- a place in mathematics where only a part of a formula may stand (see `MathOK`) -/
  | hole
  deriving DecidableEq, Repr

/-- what the reader sees in the document -/
inductive Item where
  | heading
  | eqn (ts : List Tok)
  | item (ts : List Tok)
  | cell (ts : List Tok)
  | row
  deriving DecidableEq, Repr

def tAlign : Text := "align".toList
def tDmath : Text := "dmath".toList
def tMatrix : Text := "matrix".toList
def tTabular : Text := "tabular".toList
def tEnum : Text := "enumerate".toList
def tVerb : Text := "verbatim".toList
def tBegin : Text := "begin".toList
def tEnd : Text := "end".toList
def tItem : Text := "item".toList
def tHline : Text := "hline".toList
def tSubsection : Text := "subsection".toList
/-- the names of `\\`, `\[`, `\]` -/
def tBr : Text := ['\\']
def tDispO : Text := ['[']
def tDispC : Text := [']']

def Frame.isMath : Frame → Bool
  | .env n => n = tAlign || n = tDmath || n = tMatrix
  | .dollar => true
  | .display => true
  | .hole => true
  | _ => false

def inMath (st : List Frame) : Bool := st.any Frame.isMath

/-- The reader's state behind the tokens: open groups, what has been read since the last break in an equation, item or cell, what was seen -/
structure Core where
  stack : List Frame
  cur : List Tok
  out : List Item
  deriving DecidableEq, Repr

/-- is this inside an equation, item or cell? -/
def Frame.isRec : Frame → Bool
  | .env n => n = tAlign || n = tDmath || n = tEnum
  | .tab _ _ => true
  | .hole => true
  | _ => false

def recording (st : List Frame) : Bool := st.any Frame.isRec

/-- note a token that belongs to the current equation, item or cell -/
def Core.note (k : Core) (t : Tok) : Core := { k with cur := if recording k.stack then k.cur ++ [t] else k.cur }

/-- one token, but not in the argument of `tabular`; `none`: LaTeX reports an error -/
def Core.tokN (k : Core) (t : Tok) : Option Core :=
  match t with
  | .beg e =>
    if e = tTabular then
      if inMath k.stack then none else some { k with stack := .tabWait :: k.stack }
    else if e = tAlign ∨ e = tDmath then
      if inMath k.stack then none else some { k with stack := .env e :: k.stack, cur := [] }
    else if e = tMatrix then
      if inMath k.stack then some { (k.note t) with stack := .env e :: k.stack } else none
    else if e = tEnum then
      if inMath k.stack then none else some { k with stack := .env e :: k.stack, cur := [] }
    else some { (k.note t) with stack := .env e :: k.stack }
  | .fin e =>
    match k.stack with
    | .env e' :: st =>
      if e' = e then
        if e = tAlign ∨ e = tDmath then some { stack := st, cur := [], out := k.out ++ [.eqn k.cur] }
        else if e = tEnum then some { stack := st, cur := [], out := k.out ++ (if k.cur = [] then [] else [.item k.cur]) }
        else some { (k.note t) with stack := st }
      else none
    | .tab _ c :: st =>
      if e = tTabular then
        some { stack := st, cur := [], out := k.out ++ (if c = 0 ∧ k.cur = [] then [] else [.cell k.cur, .row]) }
      else none
    | _ => none
  | .cmd n =>
    if n = tDispO then if inMath k.stack then none else some { (k.note t) with stack := .display :: k.stack }
    else if n = tDispC then
      match k.stack with
      | .display :: st => some { (k.note t) with stack := st }
      | _ => none
    else if n = tItem then
      match k.stack with
      | .env e :: _ => if e = tEnum then some { k with cur := [], out := k.out ++ (if k.cur = [] then [] else [.item k.cur]) } else none
      | _ => none
    else if n = tHline then
      match k.stack with
      | .tab _ c :: _ => if c = 0 ∧ k.cur = [] then some k else none
      | _ => none
    else if n = tBr then
      match k.stack with
      | .hole :: _ => none
      | .env e :: _ => if e = tAlign then some { k with cur := [], out := k.out ++ [.eqn k.cur] } else some (k.note t)
      | .tab cols _ :: st => some { stack := .tab cols 0 :: st, cur := [], out := k.out ++ [.cell k.cur, .row] }
      | _ => some (k.note t)
    else if n = tSubsection then if k.stack = [] then some { k with out := k.out ++ [.heading] } else none
    else some (k.note t)
  | .opn => some { (k.note t) with stack := .brace :: k.stack }
  | .cls =>
    match k.stack with
    | .brace :: st => some { (k.note t) with stack := st }
    | _ => none
  | .dollar =>
    match k.stack with
    | .dollar :: st => some { (k.note t) with stack := st }
    | st => if inMath st then none else some { (k.note t) with stack := .dollar :: st }
  | .amp =>
    match k.stack with
    | .env e :: _ => if e = tAlign ∨ e = tMatrix then some (k.note t) else none
    | .tab cols c :: st => if c + 1 < cols then some { stack := .tab cols (c + 1) :: st, cur := [], out := k.out ++ [.cell k.cur] } else none
    | _ => none
  | .par => if inMath k.stack then none else some k
  | .ch c =>
    if c = '#' ∨ c = '%' then none
    else if c = '_' ∨ c = '^' then if inMath k.stack then some (k.note t) else none
    else some (k.note t)

/-- one token; `none`: LaTeX reports an error -/
def Core.tok (k : Core) (t : Tok) : Option Core :=
  match k.stack with
  | .tabWait :: st => if t = .opn then some { k with stack := .tabArg 0 :: st } else none
  | .tabArg n :: st =>
    if t = .ch 'l' then some { k with stack := .tabArg (n + 1) :: st }
    else if t = .ch '|' then some k
    else if t = .cls then some { k with stack := .tab n 0 :: st, cur := [] }
    else none
  | _ => k.tokN t

/-- where in a token the reader is -/
inductive Mode where
  /-- between tokens; `nl`: only blanks since the last newline -/
  | txt (nl : Bool)
  /-- after a backslash -/
  | esc
  /-- in the name of a command -/
  | name (acc : Text)
  /-- in the argument of `\begin` (`\end`) -/
  | env (fin : Bool) (acc : Text)
  /-- in `verbatim`, so many characters of the end marker having been read -/
  | verb (k : Nat)
  deriving DecidableEq, Repr

structure St where
  mode : Mode
  core : Core
  deriving DecidableEq, Repr

def isLetter (c : Char) : Bool := (65 ≤ c.toNat && c.toNat ≤ 90) || (97 ≤ c.toNat && c.toNat ≤ 122)

def verbEnd : Text := "\\end{verbatim}".toList

/-- a character between tokens -/
def plainChar (nl : Bool) (k : Core) (c : Char) : Option St :=
  if c = '\n' then
    if nl then (k.tok .par).map (⟨.txt true, ·⟩) else some ⟨.txt true, k⟩
  else if c = ' ' then some ⟨.txt nl, k⟩
  else if c = '\\' then some ⟨.esc, k⟩
  else
    let t := if c = '{' then Tok.opn else if c = '}' then .cls else if c = '$' then .dollar else if c = '&' then .amp else .ch c
    (k.tok t).map (⟨.txt false, ·⟩)

/-- one character -/
def St.step (s : St) (c : Char) : Option St :=
  match s.mode with
  | .txt nl => plainChar nl s.core c
  | .esc =>
    if isLetter c then some ⟨.name [c], s.core⟩
    else (s.core.tok (.cmd [c])).map (⟨.txt false, ·⟩)
  | .name acc =>
    if isLetter c then some ⟨.name (acc ++ [c]), s.core⟩
    else if acc = tBegin then if c = '{' then some ⟨.env false [], s.core⟩ else none
    else if acc = tEnd then if c = '{' then some ⟨.env true [], s.core⟩ else none
    else match s.core.tok (.cmd acc) with
      | none => none
      | some k => plainChar false k c
  | .env fin acc =>
    if c = '}' then
      if fin then (s.core.tok (.fin acc)).map (⟨.txt false, ·⟩)
      else if acc = tVerb then if inMath s.core.stack then none else some ⟨.verb 0, s.core⟩
      else (s.core.tok (.beg acc)).map (⟨.txt false, ·⟩)
    else some ⟨.env fin (acc ++ [c]), s.core⟩
  | .verb k =>
    if verbEnd[k]? = some c then
      if k + 1 = verbEnd.length then some ⟨.txt false, s.core⟩ else some ⟨.verb (k + 1), s.core⟩
    else if c = '\\' then some ⟨.verb 1, s.core⟩
    else some ⟨.verb 0, s.core⟩

/-- a text -/
def feed : St → Text → Option St
  | s, [] => some s
  | s, c :: cs => match s.step c with
    | none => none
    | some s' => feed s' cs

/-- The text `t` is accepted, on its own lines between paragraphs, and shows `out`. -/
def Shows (t : Text) (out : List Item) : Prop := feed ⟨.txt true, ⟨[], [], []⟩⟩ t = some ⟨.txt true, ⟨[], [], out⟩⟩

/-- `t` may stand as a part of a formula: read at a place `hole`, it uses no newline, closes what it opens, breaks no line, is not blank
and does not end inside `\begin`, `\end` or after a lone backslash. -/
def mathOK (t : Text) : Bool :=
  !t.contains '\n' &&
  match feed ⟨.txt true, ⟨[.hole], [], []⟩⟩ t with
  | some ⟨.txt false, k⟩ => k.stack = [.hole]
  | some ⟨.name acc, k⟩ => k.stack = [.hole] && acc ≠ tBegin && acc ≠ tEnd && (k.tok (.cmd acc)).isSome
  | _ => false

/-- the tokens of a part of a formula -/
def mathToks (t : Text) : List Tok :=
  match feed ⟨.txt true, ⟨[.hole], [], []⟩⟩ t with
  | some ⟨.name acc, k⟩ => k.cur ++ [.cmd acc]
  | some ⟨_, k⟩ => k.cur
  | none => []

/-- characters that mean themselves outside mathematics -/
def plainText (t : Text) : Prop := ∀ c ∈ t, c ∉ ['\\', '{', '}', '$', '&', '#', '%', '_', '^', '\n']

end Verif.Out.Tex
