import Verif.ReadSpec
import Verif.PatternSpec

/-
A reader of Cypher patterns, clauses and statements, from words to what they say.

It follows the openCypher grammar and knows nothing of the library.  Expressions are read by `readExpr` (ReadSpec.lean).
-/

namespace Verif.Spec

/-! ### What patterns, clauses and statements say -/

/-- What is returned: everything, or an expression, possibly with a name. -/
inductive RetItem (D : Type) where
  | all
  | expr (d : D) (as_ : Option Str)

/-- `DISTINCT items ORDER BY … SKIP … LIMIT …` -/
structure Body (D : Type) where
  distinct : Bool
  items : List (RetItem D)
  order : List (D × Bool)      -- is the order descending?
  skip : Option D
  limit : Option D

inductive SetItem (D : Type) where
  | assign (a b : D)           -- `a = b`
  | add (a b : D)              -- `a += b`
  | labels (name : Str) (labels : List Str)

inductive RemItem (D : Type) where
  | prop (d : D)
  | labels (name : Str) (labels : List Str)

inductive Clause (D : Type) where
  | match_ (optional : Bool) (ps : List (Element D)) (cond : Option D)
  | with_ (body : Body D) (cond : Option D)
  | return_ (body : Body D)
  | unwind (d : D) (name : Str)
  | create (ps : List (Element D))
  | merge (p : Element D) (actions : List (Bool × List (SetItem D)))      -- for a created one?
  | delete (detach : Bool) (ds : List D)
  | set (is : List (SetItem D))
  | remove (is : List (RemItem D))
  | call (name : List Str) (args : List D) (yields : List (Str × Option Str)) (cond : Option D)
  | sub (first : List (Clause D)) (more : List (Bool × List (Clause D)))      -- a statement

/-- A statement: queries with UNION (false) or UNION ALL (true) between them. -/
structure Stat (D : Type) where
  first : List (Clause D)
  more : List (Bool × List (Clause D))

/-! ### The reader -/

section
variable (I : Meaning) (tight : Bool)

/-- Nodes, relationships, paths and elements of patterns. -/
def readProps (n : Nat) (ts : List Token) : Option (Option I.D × List Token) := propsBy (readAtom I tight n) ts
def readNode (n : Nat) (ts : List Token) : Option (NodePat I.D × List Token) := nodeBy (readAtom I tight n) ts
def readRel (n : Nat) (ts : List Token) : Option (RelPat I.D × List Token) := relBy (readAtom I tight n) ts
def readSteps (n : Nat) (ts : List Token) : Option (List (RelPat I.D × NodePat I.D) × List Token) := stepsBy (readAtom I tight n) n ts
def readPath (n : Nat) (ts : List Token) : Option (PathPat I.D × List Token) := pathBy (readAtom I tight n) n ts
def readElement (n : Nat) (ts : List Token) : Option (Element I.D × List Token) := elementBy (readAtom I tight n) n ts

/-- The expression after a keyword, if the keyword is there. -/
def readOpt (k : Str) (n : Nat) (ts : List Token) : Option (Option I.D × List Token) :=
  match after k ts with
  | some r => (readExpr I tight n 0 r).map fun p => (some p.1, p.2)
  | none => some (none, ts)

/-- `expression AS name` -/
def readRet (n : Nat) : List Token → Option (RetItem I.D × List Token)
  | .sym '*' :: r => some (.all, r)
  | ts =>
    (readExpr I tight n 0 ts).bind fun p =>
      match after c!"as" p.2 with
      | some r => (varOf r).map fun x => (.expr p.1 (some x.1), x.2)
      | none => some (.expr p.1 none, p.2)

/-- `expression DESC` -/
def readSort (n : Nat) (ts : List Token) : Option ((I.D × Bool) × List Token) :=
  (readExpr I tight n 0 ts).map fun p =>
    match after c!"asc" p.2, after c!"ascending" p.2, after c!"desc" p.2, after c!"descending" p.2 with
    | some r, _, _, _ => ((p.1, false), r)
    | _, some r, _, _ => ((p.1, false), r)
    | _, _, some r, _ => ((p.1, true), r)
    | _, _, _, some r => ((p.1, true), r)
    | _, _, _, _ => ((p.1, false), p.2)

/-- The order, if there is one. -/
def readOrder (n : Nat) (ts : List Token) : Option (List (I.D × Bool) × List Token) :=
  match (after c!"order" ts).bind (after c!"by") with
  | some r => commaList (readSort I tight n) n r
  | none => some ([], ts)

/-- DISTINCT or not. -/
def distinctOf (ts : List Token) : Bool × List Token :=
  match after c!"distinct" ts with
  | some r => (true, r)
  | none => (false, ts)

/-- The body of RETURN and WITH. -/
def readBody (n : Nat) (ts : List Token) : Option (Body I.D × List Token) :=
  let d := distinctOf ts
  (commaList (readRet I tight n) n d.2).bind fun is =>
    (readOrder I tight n is.2).bind fun o =>
      (readOpt I tight c!"skip" n o.2).bind fun s =>
        (readOpt I tight c!"limit" n s.2).map fun l => (⟨d.1, is.1, o.1, s.1, l.1⟩, l.2)

/-- A variable with labels. -/
def labelled (ts : List Token) : Option ((Str × List Str) × List Token) :=
  match varOf ts with
  | some (x, .sym ':' :: r) =>
    match labelsOf (.sym ':' :: r) with
    | ([], _) => none
    | (ls, r) => some ((x, ls), r)
  | _ => none

/-- An assignment. -/
def readSet (n : Nat) (ts : List Token) : Option (SetItem I.D × List Token) :=
  match labelled ts with
  | some (x, r) => some (.labels x.1 x.2, r)
  | none =>
    (readExpr I tight n 11 ts).bind fun p =>
      match p.2 with
      | .sym '=' :: r => (readExpr I tight n 0 r).map fun q => (.assign p.1 q.1, q.2)
      | .sym '+' :: .sym '=' :: r => (readExpr I tight n 0 r).map fun q => (.add p.1 q.1, q.2)
      | _ => none

/-- What is removed. -/
def readRem (n : Nat) (ts : List Token) : Option (RemItem I.D × List Token) :=
  match labelled ts with
  | some (x, r) => some (.labels x.1 x.2, r)
  | none => (readExpr I tight n 11 ts).map fun p => (.prop p.1, p.2)

/-- What is done with a merged pattern. -/
def readActions : Nat → List Token → Option (List (Bool × List (SetItem I.D)) × List Token)
  | 0, _ => none
  | n + 1, ts =>
    match after c!"on" ts with
    | none => some ([], ts)
    | some r =>
      match (after c!"create" r).bind (after c!"set"), (after c!"match" r).bind (after c!"set") with
      | some r, _ => (commaList (readSet I tight n) n r).bind fun p => (readActions n p.2).map fun q => ((true, p.1) :: q.1, q.2)
      | _, some r => (commaList (readSet I tight n) n r).bind fun p => (readActions n p.2).map fun q => ((false, p.1) :: q.1, q.2)
      | _, _ => none

/-- The name of a procedure: words with points between them. -/
def procName : List Token → Option (List Str × List Token)
  | .word w :: .sym '.' :: r => (procName r).map fun p => (w :: p.1, p.2)
  | .word w :: r => some ([w], r)
  | _ => none

/-- `name AS name` -/
def yieldOf (ts : List Token) : Option ((Str × Option Str) × List Token) :=
  (varOf ts).bind fun p =>
    match after c!"as" p.2 with
    | some r => (varOf r).map fun x => ((p.1, some x.1), x.2)
    | none => some ((p.1, none), p.2)

/-- The results of a procedure that are used. -/
def readYield (n : Nat) (ts : List Token) : Option (List (Str × Option Str) × List Token) :=
  match after c!"yield" ts with
  | some r => commaList yieldOf n r
  | none => some ([], ts)

/-- A call of a procedure. -/
def readCall (n : Nat) (ts : List Token) : Option (Clause I.D × List Token) :=
  (procName ts).bind fun p =>
    match p.2 with
    | .sym '(' :: r =>
      (readArgs I tight n ')' r).bind fun a =>
        (readYield n a.2).bind fun y =>
          (readOpt I tight c!"where" n y.2).map fun c => (.call p.1 a.1 y.1 c.1, c.2)
    | _ => none

/-- A clause that contains no statement. -/
def readSimple (n : Nat) : List Token → Option (Clause I.D × List Token)
  | t :: ts =>
    if t.is c!"match" then
      (commaList (readElement I tight n) n ts).bind fun p => (readOpt I tight c!"where" n p.2).map fun c => (.match_ false p.1 c.1, c.2)
    else if t.is c!"optional" then
      (after c!"match" ts).bind fun ts =>
        (commaList (readElement I tight n) n ts).bind fun p => (readOpt I tight c!"where" n p.2).map fun c => (.match_ true p.1 c.1, c.2)
    else if t.is c!"with" then
      (readBody I tight n ts).bind fun p => (readOpt I tight c!"where" n p.2).map fun c => (.with_ p.1 c.1, c.2)
    else if t.is c!"return" then (readBody I tight n ts).map fun p => (.return_ p.1, p.2)
    else if t.is c!"unwind" then
      (readExpr I tight n 0 ts).bind fun p => (after c!"as" p.2).bind fun r => (varOf r).map fun x => (.unwind p.1 x.1, x.2)
    else if t.is c!"create" then (commaList (readElement I tight n) n ts).map fun p => (.create p.1, p.2)
    else if t.is c!"merge" then
      (readElement I tight n ts).bind fun p => (readActions I tight n p.2).map fun a => (.merge p.1 a.1, a.2)
    else if t.is c!"delete" then (commaList (readExpr I tight n 0) n ts).map fun p => (.delete false p.1, p.2)
    else if t.is c!"detach" then
      (after c!"delete" ts).bind fun ts => (commaList (readExpr I tight n 0) n ts).map fun p => (.delete true p.1, p.2)
    else if t.is c!"set" then (commaList (readSet I tight n) n ts).map fun p => (.set p.1, p.2)
    else if t.is c!"remove" then (commaList (readRem I tight n) n ts).map fun p => (.remove p.1, p.2)
    else if t.is c!"call" then readCall I tight n ts
    else none
  | [] => none

/-- Does the query end here? -/
def queryEnds : List Token → Bool
  | [] => true
  | t :: _ => t = .sym '}' || t.is c!"union"

/-- The tokens after UNION, and whether ALL follows. -/
def unionOf (ts : List Token) : Option (Bool × List Token) :=
  (after c!"union" ts).map fun r =>
    match after c!"all" r with
    | some r => (true, r)
    | none => (false, r)

mutual

/-- The clauses of a query. -/
def readClauses : Nat → List Token → Option (List (Clause I.D) × List Token)
  | 0, _ => none
  | n + 1, ts =>
    if queryEnds ts then some ([], ts)
    else (readClause n ts).bind fun p => (readClauses n p.2).map fun q => (p.1 :: q.1, q.2)

/-- A clause. -/
def readClause : Nat → List Token → Option (Clause I.D × List Token)
  | 0, _ => none
  | n + 1, ts =>
    match after c!"call" ts with
    | some (.sym '{' :: r) =>
      (readQueries n r).bind fun p =>
        match p.2 with
        | .sym '}' :: r => some (.sub p.1.first p.1.more, r)
        | _ => none
    | _ => readSimple I tight n ts

/-- A statement. -/
def readQueries : Nat → List Token → Option (Stat I.D × List Token)
  | 0, _ => none
  | n + 1, ts => (readClauses n ts).bind fun p => (readUnions n p.2).map fun q => (⟨p.1, q.1⟩, q.2)

/-- The further queries of a union. -/
def readUnions : Nat → List Token → Option (List (Bool × List (Clause I.D)) × List Token)
  | 0, _ => none
  | n + 1, ts =>
    match unionOf ts with
    | some (all, r) => (readClauses n r).bind fun p => (readUnions n p.2).map fun q => ((all, p.1) :: q.1, q.2)
    | none => some ([], ts)

end

end

/-- The text reads as this element of a pattern. -/
def ReadsAsElement (u : Unicode) (tight : Bool) (I : Meaning) (s : Str) (p : Element I.D) : Prop :=
  ∃ ts, Tokens u s ts ∧ ∃ n, ∀ m ≥ n, readElement I tight m ts = some (p, [])

/-- The text reads as this statement. -/
def ReadsAsStatement (u : Unicode) (tight : Bool) (I : Meaning) (s : Str) (q : Stat I.D) : Prop :=
  ∃ ts, Tokens u s ts ∧ ∃ n, ∀ m ≥ n, readQueries I tight m ts = some (q, [])

end Verif.Spec
