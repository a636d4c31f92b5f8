import Verif.Text

/-
Specification of balanced brackets: a reader that goes through a text from left to right and remembers which brackets are open and
whether it is inside quotation marks.  It stops where a comment begins or the statement ends.
-/

namespace Verif.Spec

/-- Where the reader is: in the text itself, just behind a slash in the text itself, inside single or double quotation marks (possibly just
behind a backslash), or inside back quotes. -/
inductive Mode where
  | code | slash | single | singleEsc | double | doubleEsc | back
  deriving DecidableEq, Repr

/-- A mode, and the closing brackets that are expected, innermost first. -/
abbrev Scan := Mode × List Char

/-- Reading one character of the text itself. -/
def scanCode (st : List Char) (c : Char) : Option Scan :=
  if c = '(' then some (.code, ')' :: st)
  else if c = '[' then some (.code, ']' :: st)
  else if c = '{' then some (.code, '}' :: st)
  else if c = ')' ∨ c = ']' ∨ c = '}' then
    match st with
    | d :: r => if d = c then some (.code, r) else none
    | [] => none
  else if c = '\'' then some (.single, st)
  else if c = '"' then some (.double, st)
  else if c = '`' then some (.back, st)
  else if c = '/' then some (.slash, st)
  else if c = ';' then none
  else some (.code, st)

/-- Reading one character; `none`: a bracket is closed that is not the innermost open one, a comment begins (`//` or `/*`), or another
statement (`;`).  A doubled back quote inside back quotes
ends them and begins them again. -/
def scanChar : Scan → Char → Option Scan
  | (.code, st), c => scanCode st c
  | (.slash, st), c => if c = '/' ∨ c = '*' then none else scanCode st c
  | (.single, st), c => if c = '\\' then some (.singleEsc, st) else if c = '\'' then some (.code, st) else some (.single, st)
  | (.singleEsc, st), _ => some (.single, st)
  | (.double, st), c => if c = '\\' then some (.doubleEsc, st) else if c = '"' then some (.code, st) else some (.double, st)
  | (.doubleEsc, st), _ => some (.double, st)
  | (.back, st), c => if c = '`' then some (.code, st) else some (.back, st)

/-- Reading a text. -/
def scan (x : Scan) : Str → Option Scan
  | [] => some x
  | c :: cs =>
    match scanChar x c with
    | some y => scan y cs
    | none => none

/-- The round, square and curly brackets outside quotation marks are properly nested, no quotation mark is left open, and no comment begins
outside quotation marks, nor is there a semicolon, which would end the statement. -/
def Whole (s : Str) : Prop := scan (.code, []) s = some (.code, []) ∨ scan (.code, []) s = some (.slash, [])

instance (s : Str) : Decidable (Whole s) := inferInstanceAs (Decidable (_ ∨ _))

/-- The same, and the text does not end with a slash, so that no comment can begin where it is followed by another text. -/
def Balanced (s : Str) : Prop := scan (.code, []) s = some (.code, [])

instance (s : Str) : Decidable (Balanced s) := inferInstanceAs (Decidable (_ = _))

theorem Balanced.whole {s : Str} (h : Balanced s) : Whole s := .inl h

example : Balanced c!"MATCH (n:`a``(/*`{x: ']\\'};//'})-[r]->() RETURN [n / 2, \"{\"]" := by decide
example : ¬ Whole c!"(a" ∧ ¬ Whole c!"a)" ∧ ¬ Whole c!"(a]" ∧ ¬ Whole c!"([)]" ∧ ¬ Whole c!"'a" ∧ ¬ Whole c!"`a``" ∧
    ¬ Whole c!"'a\\'" ∧ ¬ Whole c!"a//b" ∧ ¬ Whole c!"a /* b" ∧ ¬ Whole c!"a;b" := by decide
example : Whole c!"a /" ∧ ¬ Balanced c!"a /" := by decide

end Verif.Spec
