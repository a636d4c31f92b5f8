import Verif.Text

/-
Lexical layer: how single names, strings, numbers and parameters become text.
-/

namespace Verif

/-- Errors are values; the model keeps only which check failed. -/
inductive Err where
  | nilStatement          -- cypher_renderer.go:44
  | emptyName             -- symbolic_name.go:17
  | parameterName         -- parameter.go:18
  | aliasNil              -- alias_expression.go:18
  | aliasEmpty            -- alias_expression.go:24
  | site (file : String) (line : Nat)    -- the error created at this place
  | other (code : Nat)    -- any other error value (for instance one supplied by the user)
  deriving DecidableEq, Repr

deriving instance DecidableEq for Except

/-- string_literal.go:16-21 `RESERVED_CHARS`: the characters `\`, `'` and `"`. -/
def isReservedChar (c : Char) : Bool := c = '\\' || c = '\'' || c = '"'

/-- string_literal.go:46-53 `escapeStringLiteral`: each reserved character gets a backslash in front. -/
def escapeStringLiteral (s : Str) : Str :=
  s.flatMap fun c => if isReservedChar c then ['\\', c] else [c]

/-- string_literal.go:67-69 `StringLiteral.AsString`. -/
def stringLiteralText (s : Str) : Str := '\'' :: (escapeStringLiteral s ++ ['\''])

/-- cypher_renderer.go:192-194 `escapeName`. -/
def escapeName (s : Str) : Str := '`' :: (replaceChar '`' ['`', '`'] s ++ ['`'])

/-- cypher_renderer.go:203-211 `isIdentifier`, the loop body for a rune that is not the first. -/
def identRest (u : Unicode) (c : Char) : Bool := u.isLetter c || c = '_' || u.isDigit c

/-- cypher_renderer.go:203-211 `isIdentifier`, the loop body for the first rune. -/
def identStart (u : Unicode) (c : Char) : Bool := u.isLetter c || c = '_'

/-- cypher_renderer.go:203-211 `isIdentifier`. -/
def isIdentifier (u : Unicode) : Str → Bool
  | [] => false
  | c :: cs => identStart u c && cs.all (identRest u)

/-- cypher_renderer.go:196-201 `EscapeIfNecessary`. -/
def escapeIfNecessary (u : Unicode) (s : Str) : Str :=
  if (trimSpace u s).length = 0 ∨ isIdentifier u s then s else escapeName s

/-- parameter.go:16-30 `ParameterCreate`: the resulting name, or an error. -/
def parameterCreate : Str → Except Err Str
  | [] => .error .parameterName
  | c :: cs => if c = '$' then parameterCreate cs else .ok (c :: cs)

/-- parameter.go:47-49 `Parameter.enter`. -/
def parameterText (name : Str) : Str := '$' :: name

/-- bool_literal.go:44-49. -/
def boolText (b : Bool) : Str := if b then c!"true" else c!"false"

/-- null_literal.go:53-55. -/
def nullText : Str := c!"NULL"

/-- Removes trailing '0' characters (`math/big` `decimal` trims them). -/
def trimZeros (s : Str) : Str := (s.reverse.dropWhile (· = '0')).reverse

/-- `n` rounded to a multiple of `10^k`, divided by `10^k`: nearest, ties to even (`math/big` `decimal.round`). -/
def roundDiv (n k : Nat) : Nat :=
  let q := n / 10 ^ k
  let r := n % 10 ^ k
  if 2 * r > 10 ^ k ∨ (2 * r = 10 ^ k ∧ q % 2 = 1) then q + 1 else q

/-- The exponent part of `%e`: sign `+` and at least two digits. -/
def expText (e : Nat) : Str := c!"e+" ++ (if e < 10 then '0' :: natDigits e else natDigits e)

/-- `big.Float.Text('g', 10)` (this is `big.Float.String`) for a non-negative integer value:
at most ten digits print as they are; otherwise ten significant digits in exponent form, trailing zeros removed. -/
def bigFloatNatText (n : Nat) : Str :=
  let k := (natDigits n).length
  if k ≤ 10 then natDigits n
  else
    let q := roundDiv n (k - 10)
    -- rounding up may give 10^10, one more digit
    let e := if q = 10 ^ 10 then k else k - 1
    match trimZeros (natDigits q) with
    | [] => []
    | [d] => d :: expText e
    | d :: ds => d :: '.' :: (ds ++ expText e)

/-- number_literal.go:15-23,35-43,65-67: `NumberLiteral` of an integer and its `AsString`. -/
def intLiteralText (i : Int) : Str :=
  match i with
  | Int.ofNat n => bigFloatNatText n
  | Int.negSucc n => '-' :: bigFloatNatText (n + 1)

end Verif
