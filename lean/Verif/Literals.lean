import Verif.Leftovers
import Verif.Clauses

/-
Literals and their own texts.
-/

namespace Verif

/-- literal.go:3-7: the literals of the package, each with its key. -/
inductive Lit where
  | null                                   -- null_literal.go
  | asterisk                               -- asterisk.go
  | bool (k : Key) (b : Bool)              -- bool_literal.go
  | int (k : Key) (i : Int)                -- number_literal.go:15-23, 35-43
  | float (k : Key) (f : GoFloat)          -- number_literal.go:25-33
  | str (k : Key) (s : Str)                -- string_literal.go
  | raw (k : Key) (s : Str)                -- raw_string_literal.go
  | namespace_ (k : Key) (parts : List Str) -- name_space.go
  | list (k : Key) (xs : List Lit)         -- list_literal.go

mutual
/-- `AsString()`: null_literal.go:53-55, asterisk.go:48-50, bool_literal.go:44-49, number_literal.go:65-67, string_literal.go:67-69,
raw_string_literal.go:45-47, name_space.go:57-59, list_literal.go:73-84.  There is no literal of NaN. -/
def Lit.asString : Lit → Str
  | .null => nullText
  | .asterisk => c!"*"
  | .bool _ b => boolText b
  | .int _ i => intLiteralText i
  | .float _ f => (floatText f).getD []
  | .str _ s => stringLiteralText s
  | .raw _ s => s
  | .namespace_ _ parts => join c!"." parts
  | .list _ xs => c!"[" ++ Lit.asStrings true xs ++ c!"]"
/-- list_literal.go:76-81: the loop; `first`: `i == 0`. -/
def Lit.asStrings (first : Bool) : List Lit → Str
  | [] => []
  | x :: xs => (if first then [] else c!", ") ++ x.asString ++ Lit.asStrings false xs
end

/-- name_space.go:15-23 `NameSpaceCreate`, 29-39. -/
def nameSpace (k : Key) (parts : List Str) : Val := .mk' k [leaf k (join c!"." parts)]

mutual
/-- The literal as an expression: what its constructor yields (`NaN`: none, the constructor panics). -/
def Lit.val : Lit → Outcome Val
  | .null => .ok nilLiteral
  | .asterisk => .ok Verif.asterisk
  | .bool k b => .ok (boolLiteral k b)
  | .int k i => .ok (intLiteral k i)
  | .float k f => floatLiteral k f
  | .str k s => .ok (stringLiteral k s)
  | .raw k s => .ok (rawStringLiteral k s)
  | .namespace_ k parts => .ok (nameSpace k parts)
  | .list k xs => (Lit.vals xs).bind fun vs => .ok (listLiteral k vs)
/-- The arguments are evaluated from left to right. -/
def Lit.vals : List Lit → Outcome (List Val)
  | [] => .ok []
  | x :: xs => x.val.bind fun v => (Lit.vals xs).bind fun vs => .ok (v :: vs)
end

mutual
/-- The keys of a literal and of what it contains. -/
def Lit.keys : Lit → List Key
  | .null => [33]
  | .asterisk => [34]
  | .bool k _ | .int k _ | .float k _ | .str k _ | .raw k _ | .namespace_ k _ => [k]
  | .list k xs => k :: Lit.keysL xs
def Lit.keysL : List Lit → List Key
  | [] => []
  | x :: xs => x.keys ++ Lit.keysL xs
end

end Verif
