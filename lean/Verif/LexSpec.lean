import Verif.Text

/-
Specification: readers for single Cypher tokens.  They follow the openCypher grammar and know nothing of the renderer.
Each reader takes a text and returns what it read together with the rest of the text.
-/

namespace Verif.Spec

/-- The meaning of a backslash escape inside a Cypher string literal (the `\uXXXX` forms are not read). -/
def unescape : Char → Option Char
  | '\\' => some '\\'
  | '\'' => some '\''
  | '"' => some '"'
  | 'b' => some (Char.ofNat 8)
  | 'f' => some (Char.ofNat 12)
  | 'n' => some '\n'
  | 'r' => some '\r'
  | 't' => some '\t'
  | _ => none

/-- The characters of a single-quoted string up to and including its closing quote. -/
def readStringBody : Str → Option (Str × Str)
  | [] => none
  | '\'' :: rest => some ([], rest)
  | '\\' :: c :: rest => do
      let c' ← unescape c
      let (s, rest') ← readStringBody rest
      some (c' :: s, rest')
  | ['\\'] => none
  | c :: rest => do
      let (s, rest') ← readStringBody rest
      some (c :: s, rest')

/-- A single-quoted Cypher string literal. -/
def readString : Str → Option (Str × Str)
  | '\'' :: rest => readStringBody rest
  | _ => none

/-- The characters of a back-quoted name up to and including its closing back-quote; two back-quotes stand for one. -/
def readQuotedBody : Str → Option (Str × Str)
  | [] => none
  | '`' :: '`' :: rest => do
      let (s, rest') ← readQuotedBody rest
      some ('`' :: s, rest')
  | '`' :: rest => some ([], rest)
  | c :: rest => do
      let (s, rest') ← readQuotedBody rest
      some (c :: s, rest')

/-- A back-quoted Cypher name. -/
def readQuoted : Str → Option (Str × Str)
  | '`' :: rest => readQuotedBody rest
  | _ => none

/-- Characters of a plain identifier: first a letter or underscore, then letters, digits, underscores. -/
def isNameStart (u : Unicode) (c : Char) : Prop := u.isLetter c = true ∨ c = '_'
def isNamePart (u : Unicode) (c : Char) : Prop := u.isLetter c = true ∨ c = '_' ∨ u.isDigit c = true
instance (u : Unicode) (c : Char) : Decidable (isNameStart u c) := by unfold isNameStart; infer_instance
instance (u : Unicode) (c : Char) : Decidable (isNamePart u c) := by unfold isNamePart; infer_instance

/-- The longest run of name characters. -/
def readNameParts (u : Unicode) : Str → Str × Str
  | [] => ([], [])
  | c :: rest =>
    if isNamePart u c then
      let (s, r) := readNameParts u rest
      (c :: s, r)
    else ([], c :: rest)

/-- A Cypher name: back-quoted, or the longest plain identifier. -/
def readName (u : Unicode) : Str → Option (Str × Str)
  | [] => none
  | c :: rest =>
    if c = '`' then readQuotedBody rest
    else if isNameStart u c then
      let (s, r) := readNameParts u rest
      some (c :: s, r)
    else none

/-- A Cypher parameter: `$` and a name. -/
def readParameter (u : Unicode) : Str → Option (Str × Str)
  | '$' :: rest => readName u rest
  | _ => none

/-- Value of a decimal digit. -/
def digitVal (c : Char) : Option Nat :=
  if 48 ≤ c.toNat ∧ c.toNat ≤ 57 then some (c.toNat - 48) else none

/-- Value of a non-empty string of decimal digits, accumulating from the left. -/
def readNatAux : Nat → Str → Option Nat
  | acc, [] => some acc
  | acc, c :: cs => do
      let d ← digitVal c
      readNatAux (acc * 10 + d) cs

/-- A decimal natural number: the whole text must be digits, and not empty. -/
def readNat : Str → Option Nat
  | [] => none
  | s => readNatAux 0 s

/-- A decimal integer: optional minus sign and digits, the whole text. -/
def readInt : Str → Option Int
  | '-' :: s => (readNat s).map fun n => -(n : Int)
  | s => (readNat s).map fun n => (n : Int)

end Verif.Spec
