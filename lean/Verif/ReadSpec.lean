import Verif.FloatSpec
import Verif.PatternSpec

/-
A reader of Cypher expressions, from characters to meaning.  Patterns can be expressions.

It follows the openCypher grammar; it knows nothing of the library.  The binding strength of `IN`, `STARTS WITH`, `ENDS WITH`, `CONTAINS`,
`=~` and `IS NULL` differs between versions of Cypher: in the older ones they bind closer than arithmetic, in the newer ones looser.
`tight` tells which.  What the expressions mean is left open: the reader applies the operations of a `Meaning`.
-/

namespace Verif.Spec

/-! ### Tokens -/

inductive Token where
  | word (s : Str)
  | quoted (s : Str)
  | str (s : Str)
  | num (s : Str)
  | param (s : Str)
  | sym (c : Char)
  deriving DecidableEq

/-- The longest run of digits. -/
def takeDigits : Str → Str × Str
  | [] => ([], [])
  | c :: s => if (digitVal c).isSome then (c :: (takeDigits s).1, (takeDigits s).2) else ([], c :: s)

/-- A fraction, if a point and a digit follow. -/
def takeFraction : Str → Str × Str
  | '.' :: c :: s => if (digitVal c).isSome then ('.' :: c :: (takeDigits s).1, (takeDigits s).2) else ([], '.' :: c :: s)
  | s => ([], s)

/-- An exponent, if the letter `e`, possibly a sign, and a digit follow. -/
def takeExponent : Str → Str × Str
  | 'e' :: '+' :: c :: s => if (digitVal c).isSome then ('e' :: '+' :: c :: (takeDigits s).1, (takeDigits s).2) else ([], 'e' :: '+' :: c :: s)
  | 'e' :: '-' :: c :: s => if (digitVal c).isSome then ('e' :: '-' :: c :: (takeDigits s).1, (takeDigits s).2) else ([], 'e' :: '-' :: c :: s)
  | 'e' :: c :: s => if (digitVal c).isSome then ('e' :: c :: (takeDigits s).1, (takeDigits s).2) else ([], 'e' :: c :: s)
  | s => ([], s)

/-- An unsigned number. -/
def takeNumber (s : Str) : Str × Str :=
  let a := takeDigits s
  let b := takeFraction a.2
  let c := takeExponent b.2
  (a.1 ++ b.1 ++ c.1, c.2)

/-- The first token of a text, and the text after it.  Comments are not read. -/
def nextToken (u : Unicode) : Str → Option (Token × Str)
  | [] => none
  | c :: s =>
    if u.isSpace c then nextToken u s
    else if c = '\'' then (readStringBody s).map fun r => (.str r.1, r.2)
    else if c = '`' then (readQuotedBody s).map fun r => (.quoted r.1, r.2)
    else if c = '$' then (readName u s).map fun r => (.param r.1, r.2)
    else if (digitVal c).isSome then some (.num (takeNumber (c :: s)).1, (takeNumber (c :: s)).2)
    else if isNameStart u c then some (.word (c :: (readNameParts u s).1), (readNameParts u s).2)
    else if c = '/' ∧ (s.head? = some '/' ∨ s.head? = some '*') then none
    else some (.sym c, s)

/-- `ts` are the tokens of the text `s`. -/
inductive Tokens (u : Unicode) : Str → List Token → Prop
  | blank {s : Str} : s.all u.isSpace = true → Tokens u s []
  | more {s r : Str} {t : Token} {ts : List Token} : nextToken u s = some (t, r) → Tokens u r ts → Tokens u s (t :: ts)

/-! ### Meaning -/

inductive BinOp where
  | or | xor | and
  | eq | ne | lt | le | gt | ge
  | regex | startsWith | endsWith | contains | in_
  | add | sub | mul | div | mod | pow
  deriving DecidableEq

/-- An item of a map projection. -/
inductive ProjItem (D : Type) where
  | all                       -- `.*`
  | prop (s : Str)            -- `.name`
  | var (s : Str)             -- a variable
  | entry (k : Str) (d : D)   -- `key: value`

/-! What patterns say. -/

inductive Arrow where
  | left | right | either
  deriving DecidableEq

/-- `(name:labels {properties})` -/
structure NodePat (D : Type) where
  name : Option Str
  labels : List Str
  props : Option D

/-- `-[name:types*hops {properties}]->` -/
structure RelPat (D : Type) where
  arrow : Arrow
  name : Option Str
  types : List Str
  hops : Hops
  props : Option D

/-- A node, and relationships each with the node it leads to. -/
structure PathPat (D : Type) where
  first : NodePat D
  steps : List (RelPat D × NodePat D)

/-- `name = function(path)`; the name and the function may be missing. -/
structure Element (D : Type) where
  name : Option Str
  fn : Option Str
  path : PathPat D

/-- What the constructs of Cypher mean.  Assumed is only that AND, OR and XOR are associative, and that the number after a minus sign is
negated.  `D` can be a type of functions of the values of the variables, so nothing is said about them. -/
structure Meaning where
  D : Type
  str : Str → D
  num : ℚ → D
  bool : Bool → D
  null : D
  star : D
  param : Str → D
  name : Str → D
  prop : D → Str → D
  labels : D → List Str → D
  bin : BinOp → D → D → D
  neg : D → D
  not : D → D
  isNull : D → D
  isNotNull : D → D
  call : Str → Bool → List D → D
  list : List D → D
  map : List (Str × D) → D
  projection : Str → List (ProjItem D) → D
  index : D → D → D
  slice : D → Option D → Option D → D
  case : Option D → List (D × D) → Option D → D
  quantified : Str → Str → D → D → D
  comprehension : Str → D → Option D → Option D → D
  pattern : PathPat D → D                                  -- is there such a path?  In functions, the paths
  patternList : PathPat D → Option D → D → D               -- `[path WHERE condition | expression]`
  existsMatch : List (Element D) → Option D → D            -- `EXISTS { MATCH … WHERE condition }`
  assoc : ∀ o, o = .or ∨ o = .xor ∨ o = .and → ∀ a b c, bin o (bin o a b) c = bin o a (bin o b c)
  neg_num : ∀ q, neg (num q) = num (-q)

/-! ### Grammar -/

/-- Keywords may be written in upper and lower case. -/
def lower (s : Str) : Str := s.map Char.toLower

/-- Is the token this keyword? -/
def Token.is (t : Token) (keyword : Str) : Bool :=
  match t with
  | .word w => lower w = keyword
  | _ => false

/-- Words that are not read as names of variables or functions. -/
def reserved : List Str := [c!"or", c!"xor", c!"and", c!"not", c!"is", c!"in", c!"starts", c!"ends", c!"with", c!"contains", c!"null", c!"true",
  c!"false", c!"case", c!"when", c!"then", c!"else", c!"end", c!"distinct", c!"where"]

/-- The other words that are not read as names of variables. -/
def keywords : List Str := [c!"all", c!"asc", c!"ascending", c!"by", c!"create", c!"delete", c!"desc", c!"descending", c!"detach", c!"exists",
  c!"limit", c!"match", c!"merge", c!"on", c!"optional", c!"order", c!"remove", c!"return", c!"set", c!"skip", c!"union", c!"unwind", c!"as",
  c!"constraint", c!"do", c!"for", c!"require", c!"unique", c!"mandatory", c!"scalar", c!"of", c!"add", c!"drop"]

/-- The names of quantifiers. -/
def quantifiers : List Str := [c!"all", c!"any", c!"none", c!"single"]

/-- A variable and IN. -/
def binder : List Token → Option (Str × List Token)
  | .word x :: t :: r => if t.is c!"in" ∧ lower x ∉ reserved ∧ lower x ∉ keywords then some (x, r) else none
  | .quoted x :: t :: r => if t.is c!"in" then some (x, r) else none
  | _ => none

/-- Labels, each after a colon. -/
def labelsOf : List Token → List Str × List Token
  | .sym ':' :: .word l :: r => (l :: (labelsOf r).1, (labelsOf r).2)
  | .sym ':' :: .quoted l :: r => (l :: (labelsOf r).1, (labelsOf r).2)
  | ts => ([], ts)

/-- The operators that bind closer than arithmetic in older versions. -/
def textOp : List Token → Option (BinOp × List Token)
  | .sym '=' :: .sym '~' :: r => some (.regex, r)
  | t :: r =>
    if t.is c!"in" then some (.in_, r)
    else if t.is c!"contains" then some (.contains, r)
    else
      match r with
      | t' :: r' =>
        if t.is c!"starts" && t'.is c!"with" then some (.startsWith, r')
        else if t.is c!"ends" && t'.is c!"with" then some (.endsWith, r')
        else none
      | [] => none
  | [] => none

/-- The other comparisons. -/
def compareOp : List Token → Option (BinOp × List Token)
  | .sym '=' :: .sym '~' :: _ => none
  | .sym '=' :: r => some (.eq, r)
  | .sym '<' :: .sym '>' :: r => some (.ne, r)
  | .sym '<' :: .sym '=' :: r => some (.le, r)
  | .sym '<' :: r => some (.lt, r)
  | .sym '>' :: .sym '=' :: r => some (.ge, r)
  | .sym '>' :: r => some (.gt, r)
  | _ => none

/-- The binary operators of a level.  The levels, from the weakest to the strongest: 0 OR, 1 XOR, 2 AND, 3 NOT, 4 comparisons, 5 `IN` etc. in
newer versions, 6 sums, 7 products, 8 powers, 9 the minus sign, 10 `IN` etc. in older versions, 11 properties and elements. -/
def opAt (tight : Bool) (l : Nat) (ts : List Token) : Option (BinOp × List Token) :=
  match l with
  | 0 => match ts with | t :: r => if t.is c!"or" then some (.or, r) else none | [] => none
  | 1 => match ts with | t :: r => if t.is c!"xor" then some (.xor, r) else none | [] => none
  | 2 => match ts with | t :: r => if t.is c!"and" then some (.and, r) else none | [] => none
  | 4 => compareOp ts
  | 5 => if tight then none else textOp ts
  | 6 => match ts with | .sym '+' :: r => some (.add, r) | .sym '-' :: r => some (.sub, r) | _ => none
  | 7 => match ts with | .sym '*' :: r => some (.mul, r) | .sym '/' :: r => some (.div, r) | .sym '%' :: r => some (.mod, r) | _ => none
  | 8 => match ts with | .sym '^' :: r => some (.pow, r) | _ => none
  | 10 => if tight then textOp ts else none
  | _ => none

/-- `IS NULL` (true) and `IS NOT NULL` (false). -/
def nullOp : List Token → Option (Bool × List Token)
  | a :: b :: r =>
    if a.is c!"is" && b.is c!"null" then some (true, r)
    else
      match r with
      | c :: r' => if a.is c!"is" && b.is c!"not" && c.is c!"null" then some (false, r') else none
      | [] => none
  | _ => none

/-- Where `IS NULL` is looked for. -/
def nullAt (tight : Bool) (l : Nat) (ts : List Token) : Option (Bool × List Token) :=
  if l = (if tight then 10 else 5) then nullOp ts else none

/-- A variable. -/
def varOf : List Token → Option (Str × List Token)
  | .quoted x :: r => some (x, r)
  | .word x :: r => if lower x ∈ reserved ∨ lower x ∈ keywords then none else some (x, r)
  | _ => none

/-- A variable if there is one. -/
def optVar (ts : List Token) : Option Str × List Token :=
  match varOf ts with
  | some (x, r) => (some x, r)
  | none => (none, ts)

/-- The tokens after a keyword. -/
def after (k : Str) : List Token → Option (List Token)
  | t :: r => if t.is k then some r else none
  | [] => none

/-- Further types, each after a vertical bar. -/
def moreTypes : List Token → List Str × List Token
  | .sym '|' :: .word l :: r => (l :: (moreTypes r).1, (moreTypes r).2)
  | .sym '|' :: .quoted l :: r => (l :: (moreTypes r).1, (moreTypes r).2)
  | ts => ([], ts)

/-- The types of a relationship. -/
def typesOf : List Token → List Str × List Token
  | .sym ':' :: .word l :: r => (l :: (moreTypes r).1, (moreTypes r).2)
  | .sym ':' :: .quoted l :: r => (l :: (moreTypes r).1, (moreTypes r).2)
  | ts => ([], ts)

/-- A bound of the length of a relationship, if there is one. -/
def boundOf : List Token → Option Int × List Token
  | .num s :: r => match readNat s with | some n => (some n, r) | none => (none, .num s :: r)
  | .sym '-' :: .num s :: r => match readNat s with | some n => (some (-n), r) | none => (none, .sym '-' :: .num s :: r)
  | ts => (none, ts)

/-- The length of a relationship. -/
def lengthOf : List Token → Hops × List Token
  | .sym '*' :: r =>
    match boundOf r with
    | (a, .sym '.' :: .sym '.' :: r) => (.range a (boundOf r).1, (boundOf r).2)
    | (some i, r) => (.range (some i) (some i), r)
    | (none, r) => (.any, r)
  | ts => (.one, ts)

/-- Is this the rest of a list of what is found for a pattern? -/
def goesOn : List Token → Bool
  | .sym '|' :: _ => true
  | t :: _ => t.is c!"where"
  | [] => false

section
variable {D : Type} (atom : List Token → Option (D × List Token))

/-- Properties if there are any; `atom` reads them. -/
def propsBy (ts : List Token) : Option (Option D × List Token) :=
  if ts.head? = some (.sym '{') then (atom ts).map fun p => (some p.1, p.2) else some (none, ts)

/-- A node. -/
def nodeBy : List Token → Option (NodePat D × List Token)
  | .sym '(' :: ts =>
    let x := optVar ts
    let l := labelsOf x.2
    (propsBy atom l.2).bind fun p =>
      match p.2 with
      | .sym ')' :: r => some (⟨x.1, l.1, p.1⟩, r)
      | _ => none
  | _ => none

/-- What stands in the brackets of a relationship, if there are any. -/
def detailBy (arrow : Arrow) : List Token → Option (RelPat D × List Token)
  | .sym '[' :: ts =>
    let x := optVar ts
    let t := typesOf x.2
    let h := lengthOf t.2
    (propsBy atom h.2).bind fun p =>
      match p.2 with
      | .sym ']' :: r => some (⟨arrow, x.1, t.1, h.1, p.1⟩, r)
      | _ => none
  | ts => some (⟨arrow, none, [], .one, none⟩, ts)

/-- A relationship. -/
def relBy : List Token → Option (RelPat D × List Token)
  | .sym '<' :: .sym '-' :: ts =>
    (detailBy atom .left ts).bind fun p =>
      match p.2 with
      | .sym '-' :: .sym '>' :: r => some ({ p.1 with arrow := .either }, r)
      | .sym '-' :: r => some (p.1, r)
      | _ => none
  | .sym '-' :: ts =>
    (detailBy atom .right ts).bind fun p =>
      match p.2 with
      | .sym '-' :: .sym '>' :: r => some (p.1, r)
      | .sym '-' :: r => some ({ p.1 with arrow := .either }, r)
      | _ => none
  | _ => none

/-- A relationship and a node. -/
def stepBy (ts : List Token) : Option ((RelPat D × NodePat D) × List Token) :=
  (relBy atom ts).bind fun p => (nodeBy atom p.2).map fun q => ((p.1, q.1), q.2)

/-- Relationships and nodes, as many as there are. -/
def stepsBy : Nat → List Token → Option (List (RelPat D × NodePat D) × List Token)
  | 0, _ => none
  | n + 1, ts =>
    match stepBy atom ts with
    | some p => (stepsBy n p.2).map fun s => (p.1 :: s.1, s.2)
    | none => some ([], ts)

/-- A path. -/
def pathBy (n : Nat) (ts : List Token) : Option (PathPat D × List Token) :=
  (nodeBy atom ts).bind fun p => (stepsBy atom n p.2).map fun s => (⟨p.1, s.1⟩, s.2)

/-- A path with a relationship. -/
def patternBy (n : Nat) (ts : List Token) : Option (PathPat D × List Token) :=
  (pathBy atom n ts).bind fun p =>
    match p.1.steps with
    | [] => none
    | _ :: _ => some p

/-- A path, possibly the argument of a function. -/
def anonymousBy (n : Nat) (name : Option Str) : List Token → Option (Element D × List Token)
  | .word w :: .sym '(' :: ts =>
    if lower w = c!"shortestpath" ∨ lower w = c!"allshortestpaths" then
      (pathBy atom n ts).bind fun p =>
        match p.2 with
        | .sym ')' :: r => some (⟨name, some w, p.1⟩, r)
        | _ => none
    else none
  | ts => (pathBy atom n ts).map fun p => (⟨name, none, p.1⟩, p.2)

/-- An element of a pattern. -/
def elementBy (n : Nat) (ts : List Token) : Option (Element D × List Token) :=
  match varOf ts with
  | some (x, .sym '=' :: r) => anonymousBy atom n (some x) r
  | _ => anonymousBy atom n none ts

end

/-- Several, with commas between them. -/
def commaList {α : Type} (p : List Token → Option (α × List Token)) : Nat → List Token → Option (List α × List Token)
  | 0, _ => none
  | n + 1, ts =>
    (p ts).bind fun a =>
      match a.2 with
      | .sym ',' :: r => (commaList p n r).map fun q => (a.1 :: q.1, q.2)
      | r => some ([a.1], r)

section
variable (I : Meaning) (tight : Bool)

mutual

/-- An expression of a level; the first argument bounds the depth of the calls. -/
def readExpr : Nat → Nat → List Token → Option (I.D × List Token)
  | 0, _, _ => none
  | n + 1, l, ts =>
    if l = 3 then
      match ts with
      | t :: r => if t.is c!"not" then (readExpr n 3 r).map fun p => (I.not p.1, p.2) else readExpr n 4 (t :: r)
      | [] => none
    else if l = 9 then
      match ts with
      | .sym '-' :: r => (readExpr n 9 r).map fun p => (I.neg p.1, p.2)
      | ts => readExpr n 10 ts
    else if l ≥ 11 then (readAtom n ts).bind fun p => readPostfix n p.1 p.2
    else (readExpr n (l + 1) ts).bind fun p => readMore n l p.1 p.2

/-- The operators of a level after its first operand.  Comparisons are not chained. -/
def readMore : Nat → Nat → I.D → List Token → Option (I.D × List Token)
  | 0, _, _, _ => none
  | n + 1, l, d, ts =>
    match opAt tight l ts with
    | some (o, r) => (readExpr n (l + 1) r).bind fun p => if l = 4 then some (I.bin o d p.1, p.2) else readMore n l (I.bin o d p.1) p.2
    | none =>
      match nullAt tight l ts with
      | some (b, r) => readMore n l (if b then I.isNull d else I.isNotNull d) r
      | none => some (d, ts)

/-- Properties, elements and sublists of an expression; at the end possibly labels it is tested for. -/
def readPostfix : Nat → I.D → List Token → Option (I.D × List Token)
  | 0, _, _ => none
  | n + 1, d, ts =>
    match ts with
    | .sym '.' :: .word s :: r => readPostfix n (I.prop d s) r
    | .sym '.' :: .quoted s :: r => readPostfix n (I.prop d s) r
    | .sym '[' :: .sym '.' :: .sym '.' :: r =>
      (readExpr n 0 r).bind fun p =>
        match p.2 with
        | .sym ']' :: r => readPostfix n (I.slice d none (some p.1)) r
        | _ => none
    | .sym '[' :: r =>
      (readExpr n 0 r).bind fun p =>
        match p.2 with
        | .sym ']' :: r => readPostfix n (I.index d p.1) r
        | .sym '.' :: .sym '.' :: .sym ']' :: r => readPostfix n (I.slice d (some p.1) none) r
        | .sym '.' :: .sym '.' :: r =>
          (readExpr n 0 r).bind fun q =>
            match q.2 with
            | .sym ']' :: r => readPostfix n (I.slice d (some p.1) (some q.1)) r
            | _ => none
        | _ => none
    | .sym ':' :: r =>
      match labelsOf (.sym ':' :: r) with
      | ([], _) => none
      | (ls, r) => some (I.labels d ls, r)
    | ts => some (d, ts)

/-- Literals, names, calls, lists, maps, map projections, CASE, patterns, and expressions in parentheses.  What can be read as a pattern with
a relationship is a pattern. -/
def readAtom : Nat → List Token → Option (I.D × List Token)
  | 0, _ => none
  | n + 1, ts =>
    match ts with
    | .str s :: r => some (I.str s, r)
    | .num s :: r => (readUnsigned s).map fun q => (I.num q, r)
    | .param s :: r => some (I.param s, r)
    | .quoted s :: .sym '{' :: r => (readItems n r).map fun p => (I.projection s p.1, p.2)
    | .quoted s :: r => some (I.name s, r)
    | .sym '(' :: r =>
      match patternBy (readAtom n) n (.sym '(' :: r) with
      | some p => some (I.pattern p.1, p.2)
      | none =>
        (readExpr n 0 r).bind fun p =>
          match p.2 with
          | .sym ')' :: r => some (p.1, r)
          | _ => none
    | .sym '[' :: r =>
      match binder r with
      | some (x, r) => (readExpr n 0 r).bind fun p => readComprehension n x p.1 p.2
      | none =>
        match patternBy (readAtom n) n r with
        | some p => if goesOn p.2 then readPatternList n p.1 p.2 else (readArgs n ']' r).map fun p => (I.list p.1, p.2)
        | none => (readArgs n ']' r).map fun p => (I.list p.1, p.2)
    | .sym '{' :: .sym '}' :: r => some (I.map [], r)
    | .sym '{' :: r => (readEntries n r).map fun p => (I.map p.1, p.2)
    | .word w :: r =>
      if lower w = c!"true" then some (I.bool true, r)
      else if lower w = c!"false" then some (I.bool false, r)
      else if lower w = c!"null" then some (I.null, r)
      else if lower w = c!"case" then
        match r with
        | t :: _ =>
          if t.is c!"when" then (readBranches n none [] r)
          else (readExpr n 0 r).bind fun p => readBranches n (some p.1) [] p.2
        | [] => none
      else if lower w ∈ reserved then none
      else
        match r with
        | .sym '(' :: .sym '*' :: .sym ')' :: r => some (I.call w false [I.star], r)
        | .sym '(' :: t :: r =>
          if t.is c!"distinct" then (readArgs n ')' r).map fun p => (I.call w true p.1, p.2)
          else
            match (if lower w ∈ quantifiers then binder (t :: r) else none) with
            | some (x, r) => (readExpr n 0 r).bind fun p => readQuantified n w x p.1 p.2
            | none => (readArgs n ')' (t :: r)).map fun p => (I.call w false p.1, p.2)
        | .sym '{' :: r =>
          if lower w = c!"exists" then readExists n r
          else if lower w ∈ keywords then none else (readItems n r).map fun p => (I.projection w p.1, p.2)
        | r => if lower w ∈ keywords then none else some (I.name w, r)
    | _ => none

/-- The items of a map projection. -/
def readItems : Nat → List Token → Option (List (ProjItem I.D) × List Token)
  | 0, _ => none
  | n + 1, ts => if ts.head? = some (.sym '}') then some ([], ts.tail) else readItems1 n ts

/-- The same with at least one item. -/
def readItems1 : Nat → List Token → Option (List (ProjItem I.D) × List Token)
  | 0, _ => none
  | n + 1, ts =>
    (readItem n ts).bind fun p =>
      match p.2 with
      | .sym '}' :: r => some ([p.1], r)
      | .sym ',' :: r => (readItems1 n r).map fun q => (p.1 :: q.1, q.2)
      | _ => none

/-- An item of a map projection. -/
def readItem : Nat → List Token → Option (ProjItem I.D × List Token)
  | 0, _ => none
  | n + 1, ts =>
    match ts with
    | .sym '.' :: .sym '*' :: r => some (.all, r)
    | .sym '.' :: .word s :: r => some (.prop s, r)
    | .sym '.' :: .quoted s :: r => some (.prop s, r)
    | .word k :: .sym ':' :: r => (readExpr n 0 r).map fun p => (.entry k p.1, p.2)
    | .quoted k :: .sym ':' :: r => (readExpr n 0 r).map fun p => (.entry k p.1, p.2)
    | .word x :: r => if lower x ∈ reserved ∨ lower x ∈ keywords then none else some (.var x, r)
    | .quoted x :: r => some (.var x, r)
    | _ => none

/-- The condition of a quantifier. -/
def readQuantified : Nat → Str → Str → I.D → List Token → Option (I.D × List Token)
  | 0, _, _, _, _ => none
  | n + 1, w, x, l, ts =>
    match ts with
    | t :: r =>
      if t.is c!"where" then
        (readExpr n 0 r).bind fun p =>
          match p.2 with
          | .sym ')' :: r => some (I.quantified (lower w) x l p.1, r)
          | _ => none
      else none
    | [] => none

/-- A list comprehension after the list: possibly a condition, possibly an expression. -/
def readComprehension : Nat → Str → I.D → List Token → Option (I.D × List Token)
  | 0, _, _, _ => none
  | n + 1, x, l, ts =>
    match ts with
    | t :: r =>
      if t.is c!"where" then (readExpr n 0 r).bind fun p => readResult n x l (some p.1) p.2
      else readResult n x l none (t :: r)
    | [] => none

/-- The end of a list comprehension. -/
def readResult : Nat → Str → I.D → Option I.D → List Token → Option (I.D × List Token)
  | 0, _, _, _, _ => none
  | n + 1, x, l, c, ts =>
    match ts with
    | .sym ']' :: r => some (I.comprehension x l c none, r)
    | .sym '|' :: r =>
      (readExpr n 0 r).bind fun p =>
        match p.2 with
        | .sym ']' :: r => some (I.comprehension x l c (some p.1), r)
        | _ => none
    | _ => none

/-- A list of what is found for a pattern, after the pattern: possibly a condition, and an expression. -/
def readPatternList : Nat → PathPat I.D → List Token → Option (I.D × List Token)
  | 0, _, _ => none
  | n + 1, p, ts =>
    match after c!"where" ts with
    | some r => (readExpr n 0 r).bind fun c => readPatternResult n p (some c.1) c.2
    | none => readPatternResult n p none ts

/-- The end of it. -/
def readPatternResult : Nat → PathPat I.D → Option I.D → List Token → Option (I.D × List Token)
  | 0, _, _, _ => none
  | n + 1, p, c, ts =>
    match ts with
    | .sym '|' :: r =>
      (readExpr n 0 r).bind fun d =>
        match d.2 with
        | .sym ']' :: r => some (I.patternList p c d.1, r)
        | _ => none
    | _ => none

/-- `MATCH … WHERE condition }` -/
def readExists : Nat → List Token → Option (I.D × List Token)
  | 0, _ => none
  | n + 1, ts =>
    (after c!"match" ts).bind fun r =>
      (commaList (elementBy (readAtom n) n) n r).bind fun ps =>
        match after c!"where" ps.2 with
        | some r => (readExpr n 0 r).bind fun c => readExistsEnd n ps.1 (some c.1) c.2
        | none => readExistsEnd n ps.1 none ps.2

/-- The end of it. -/
def readExistsEnd : Nat → List (Element I.D) → Option I.D → List Token → Option (I.D × List Token)
  | 0, _, _, _ => none
  | _ + 1, ps, c, ts =>
    match ts with
    | .sym '}' :: r => some (I.existsMatch ps c, r)
    | _ => none

/-- Expressions with commas between them, up to the closing symbol. -/
def readArgs : Nat → Char → List Token → Option (List I.D × List Token)
  | 0, _, _ => none
  | n + 1, close, ts => if ts.head? = some (.sym close) then some ([], ts.tail) else readArgs1 n close ts

/-- The same with at least one expression. -/
def readArgs1 : Nat → Char → List Token → Option (List I.D × List Token)
  | 0, _, _ => none
  | n + 1, close, ts =>
    (readExpr n 0 ts).bind fun p =>
      match p.2 with
      | .sym c :: r =>
        if c = close then some ([p.1], r)
        else if c = ',' then (readArgs1 n close r).map fun q => (p.1 :: q.1, q.2)
        else none
      | _ => none

/-- The entries of a map. -/
def readEntries : Nat → List Token → Option (List (Str × I.D) × List Token)
  | 0, _ => none
  | n + 1, ts =>
    match (match ts with | .word k :: .sym ':' :: r => some (k, r) | .quoted k :: .sym ':' :: r => some (k, r) | _ => none) with
    | none => none
    | some (k, r) =>
      (readExpr n 0 r).bind fun p =>
        match p.2 with
        | .sym '}' :: r => some ([(k, p.1)], r)
        | .sym ',' :: r => (readEntries n r).map fun q => ((k, p.1) :: q.1, q.2)
        | _ => none

/-- The branches of CASE, after those read before. -/
def readBranches : Nat → Option I.D → List (I.D × I.D) → List Token → Option (I.D × List Token)
  | 0, _, _, _ => none
  | n + 1, subject, bs, ts =>
    match ts with
    | t :: r =>
      if t.is c!"when" then
        (readExpr n 0 r).bind fun p =>
          match p.2 with
          | t' :: r' => if t'.is c!"then" then (readExpr n 0 r').bind fun q => readBranches n subject (bs ++ [(p.1, q.1)]) q.2 else none
          | [] => none
      else if t.is c!"else" then
        (readExpr n 0 r).bind fun p =>
          match p.2 with
          | t' :: r' => if t'.is c!"end" then some (I.case subject bs (some p.1), r') else none
          | [] => none
      else if t.is c!"end" then some (I.case subject bs none, r)
      else none
    | [] => none

end

end

/-- The text reads as an expression with the meaning `d`: so it is for every sufficiently large bound. -/
def ReadsAs (u : Unicode) (tight : Bool) (I : Meaning) (s : Str) (d : I.D) : Prop :=
  ∃ ts, Tokens u s ts ∧ ∃ n, ∀ m ≥ n, readExpr I tight m 0 ts = some (d, [])

end Verif.Spec
