import Verif.Builder

/-
Arguments of interface types (`Expression`, `PatternElement`, `Condition`, `Statement`) that are nil: what the methods of the builder and
the constructors of lists do with them.  A nil argument is `none`.  Constructors that look whether an argument is nil take an
`Option Val` already (Value.lean, Exprs.lean).
-/

namespace Verif

variable (u : Unicode)

/-- An argument of an interface type; `none`: nil. -/
abbrev Arg := Option Val

/-- The loops `for … { if x != nil && x.GetError() != nil { return … } }`. -/
def guardedErr (xs : List Arg) : Option Err := firstErr (xs.map errOf)

/-- The arguments if none of them is nil: type assertions like `visitable.(Expression)` (default_statement_builder.go:617, 629) panic for nil. -/
def asserted : List Arg → Outcome (List Val)
  | [] => .ok []
  | none :: _ => .panic
  | some v :: xs => (asserted xs).map (v :: ·)

/-- The loops of `accept` over expressions or patterns: expression_list.go:58-61, pattern.go:44-47, arguments.go:46-49.  `PrepareVisit` of a
list of expressions panics for nil (expression_list.go:49-52, arguments.go:37-40); in a pattern `accept` of nil is called. -/
def acceptedAll : List Arg → Outcome (List Tree)
  | [] => .ok []
  | none :: _ => .panic
  | some v :: xs => (acceptedAll xs).map (v.visit ++ ·)

/-- expression_list.go:11-24 `ExpressionListCreate`: `GetError` of nil is called. -/
def expressionListN (k : Key) (xs : List Arg) : Outcome Val :=
  (scanArgs xs).map fun
    | .error e => .bad e
    | .ok vs => expressionList k vs

/-- cypher.go:295-297 `ListOf`, list_expression.go:13-34; with an error it prints an empty list, as in `listExpression`. -/
def listOfN (k kl : Key) (xs : List Arg) : Outcome Val :=
  (scanArgs xs).map fun
    | .error e => { Val.bad e with visit := [nd 0 c!"[" c!"]" false [nd 0 [] [] true []]] }
    | .ok vs => listExpression k kl vs

/-! ### Clauses: what `accept` does -/

/-- return.go:57-62, return_body.go:61-66 `accept` of the RETURN that default_statement_with_return_builder.go:23-28 and
default_statement_with_update.go:112-117 make. -/
def returnAccept (k ko : Key) (distinct : Bool) (xs : List Arg) (o : OrderB) : Outcome (List Tree) :=
  if xs = [] then .ok []
  else (acceptedAll xs).map fun ts =>
    [nd k c!"RETURN " [] false (distinctVisit distinct ++ bodyVisit [nd 0 [] [] true ts] (o.build ko) o.skip o.limit)]

/-- match.go:47-52 `accept` of the MATCH that match_builder.go:18-26 makes; pattern.go:15-19 is not called there. -/
def matchAccept (k kw : Key) (optional : Bool) (ps : List Arg) (c : Option Cond) : Except Err (Outcome (List Tree)) :=
  let where_ := (builtCondition c).map fun c => whereCreate kw c.toVal
  match errOf where_ with
  | some e => .error e
  | none => .ok ((acceptedAll ps).map fun ts => [nd k ((if optional then c!"OPTIONAL " else []) ++ c!"MATCH ") c!" " false
      (nd 0 [] [] true ts :: visitIfNotNull where_)])

/-- unwind.go:11-28 `unwindCreate`, 38-42 `accept`. -/
def unwindAccept (k kn : Key) (x : Arg) (variable' : Str) : Except Err (Outcome (List Tree)) :=
  match x with
  | none => .ok .panic
  | some v => match (unwindCreate u k kn v variable').val.err with | some e => .error e | none => .ok (.ok (unwindCreate u k kn v variable').val.visit)

/-- arguments.go:10-23 `ArgumentsCreate`, 44-50 `accept`. -/
def argumentsAccept (k : Key) (xs : List Arg) : Except Err (Outcome (List Tree)) :=
  match guardedErr xs with
  | some e => .error e
  | none => .ok ((acceptedAll xs).map fun ts => [nd k c!"(" c!")" true ts])

/-- sort_item.go:11-22 `SortItemCreate`, 54-61 `accept`: an item without expression panics. -/
def sortAccept (s : SortItemV) : Outcome (List Tree) :=
  match s.expr with
  | none => .panic
  | some _ => .ok s.visit

/-! ### The builder -/

/-- default_statement_builder.go:612-654 `getUpdatingClauseBuilder`: type assertions panic for nil; of patterns only the first is looked
at. -/
def updBuilderN (t : UpdType) (ks : UpdKeys) (xs : List Arg) : Outcome (Except Err UpdBuilder) :=
  match t with
  | .create | .merge => match xs with
    | [] => .ok (updBuilder t ks [])
    | none :: _ => .panic
    | some p :: _ => .ok (updBuilder t ks [p])
  | .delete _ | .set | .remove => (asserted xs).map (updBuilder t ks)

namespace Base

/-- default_statement_builder.go:206-252, 440-450 `Delete`, `DetachDelete`, `Merge`, `Create`, with 604-610 `Update`. -/
def openUpdateN (b : Base) (t : UpdType) (ks : UpdKeys) (xs : List Arg) : Outcome Base :=
  match firstErr [b.err, guardedErr xs] with
  | some e => .ok (dead e)
  | none => (updBuilderN t ks xs).map fun
    | .error _ => { b.closeMatch.closeCall.closeUpdate with oupdate := none }
    | .ok x => { b.closeMatch.closeCall.closeUpdate with oupdate := some x }

/-- default_statement_builder.go:254-265 `Set`, default_statement_with_update.go:35-62. -/
def setN (b : Base) (ks : UpdKeys) (xs : List Arg) : Outcome B :=
  match firstErr [b.err, guardedErr xs] with
  | some e => .ok (.base (dead e))
  | none => (updBuilderN .set ks xs).map fun
    | .error e => .upd { err := some e }
    | .ok x => .upd { base := some b.closeUpdate, builder := some x }

/-- default_statement_builder.go:130-183 `With`, `WithDistinct`, `WithDefault`, followed by the next clause:
default_statement_with_with_builder.go:26-44 `buildWith`, without ordering and condition. -/
def withNextN (b : Base) (ks : WithKeys) (distinct : Bool) (xs : List Arg) : Outcome Base :=
  match firstErr [b.err, guardedErr xs] with
  | some _ => .panic
  | none =>
    if xs = [] then .ok (b.addWith ks.kp none)
    else (scanArgs xs).bind fun
      | .error e => .ok (b.addWith ks.kp (withCreate ks.k ks.kl ks.ko ks.kw distinct [.bad e] {} none))     -- not reachable
      | .ok vs => .ok (b.addWith ks.kp (withCreate ks.k ks.kl ks.ko ks.kw distinct vs {} none))

/-- default_statement_builder.go:38-47 `Where`, of nil: condition_builder.go:11-13 stores nil, which lines 23-36 take for no condition. -/
def whereNil (b : Base) : Base :=
  match b.err with
  | some e => dead e
  | none => { b with omatch := { b.omatch with cond := none } }

end Base

/-- A condition that may contain nil. -/
inductive CondN where
  | ok (c : Cond)
  | holdsNil       -- `accept` calls `accept` of nil (compound_condition.go:188-191)

/-- condition_container.go:13-35 `And`, `Or`, `Xor` of nil, compound_condition.go:148-176 `add`, 43-45: not a `CompoundCondition`. -/
def combineNil (c : Cond) (h : Op) : CondN :=
  match c with
  | .compound _ op _ isEmpty .. =>
    if isEmpty ∨ op = some h then .holdsNil
    else .ok (.bad ((firstErr [c.toVal.err, nilErr (some c.toVal) (.site "compound_condition.go" 29)]).getD (.site "compound_condition.go" 44)))
  | _ => .ok (.bad ((firstErr [c.toVal.err, nilErr (some c.toVal) (.site "compound_condition.go" 29)]).getD (.site "compound_condition.go" 44)))

/-- default_statement_builder.go:391-397 `And`, 409-418 `Or`, of nil, with condition_builder.go:15-21; `none` if the condition then
contains nil. -/
def Base.combineNil (b : Base) (h : Op) : Outcome (Option Base) :=
  match b.err with
  | some e => .ok (some (dead e))
  | none =>
    let keep : CondN → Option Base := fun
      | .ok x => some { b with omatch := { b.omatch with cond := some x } }
      | .holdsNil => none
    match b.omatch.cond with
    | none => .panic
    | some c =>
      if c.isCompound then .ok (keep (Verif.combineNil c h))
      else
        match c.recv with
        | some c' => .ok (keep (Verif.combineNil c' h))
        | none => .panic

/-- default_statement_builder.go:347-367 `Call` of nil, subquery.go:25-43 `SubqueryCall`. -/
def Base.callNil (b : Base) : Base :=
  match b.err with
  | some e => dead e
  | none => { b.closeCall.closeMatch.closeUpdate with err := some (.site "subquery.go" 41) }

/-- cypher.go:568-595 `unionImpl`: nil is not a `SingleQuery`. -/
def unionNil (k : Key) (ks : Nat → Key) (all : Bool) (statements : List (Option Stmt)) : Stmt :=
  if statements.length < 2 then .union [] (some (.site "cypher.go" 570)) false false []
  else
    match statements with
    | some (.union v e all' notNil queries) :: rest =>
      if all' ≠ all then .union [] (some (.site "cypher.go" 577)) false false []
      else if rest.all Option.isSome then unionImpl k ks all (.union v e all' notNil queries :: rest.reduceOption)
      else .union [] (some (.site "cypher.go" 587)) false false []
    | _ =>
      if statements.all Option.isSome then unionImpl k ks all statements.reduceOption
      else .union [] (some (.site "cypher.go" 587)) false false []

end Verif
