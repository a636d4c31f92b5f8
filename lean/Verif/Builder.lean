import Verif.Clauses

/-
The fluent builder: default_statement_builder.go, default_statement_with_update.go, default_statement_with_with_builder.go,
default_statement_with_return_builder.go, default_ongoing_unwind.go, in_query_call_builder.go, match_builder.go,
condition_builder.go, updating_clause_builder.go, and the builder in procedure_call.go.

A builder is used linearly here: every value is used for one call only, so a pointer to another builder is modelled by the builder
itself (`none` is a nil pointer).  `BuilderMem.lean` has the pointers and slices, and `PropsBuilderForks.lean` shows that programs that
use their builders linearly cannot see the difference, and which others can.  The keys of the objects made by a call are given with
the call; for a clause that is built later, they are given when it is opened.

Conditions, expressions and patterns given to the builder are not nil.
-/

namespace Verif

variable (u : Unicode)

/-- A value of type `Named`: its error, and what `GetSymbolicName()` and `GetRequiredSymbolicName()` return. -/
structure NamedV where
  err : Option Err := none
  sym : Val
  req : Val

/-- The arguments of the three variants of a method: `X(expressions...)`, `XByString(names...)`, `XByNamed(nameds...)`. -/
inductive Args where
  | exprs (xs : List Val)
  | strings (xs : List (Key × Str))
  | nameds (xs : List NamedV)

/-- expressions.go:11-28 `CreateSymbolicNameByNamed`, `CreateSymbolicNameByString`: empty strings are dropped. -/
def Args.vals : Args → List Val
  | .exprs xs => xs
  | .strings xs => (xs.filter fun p => p.2 ≠ []).map fun p => symbolicName u p.1 p.2
  | .nameds xs => xs.map (·.sym)

/-- The errors of the given nodes, relationships and so on. -/
def Args.namedErr : Args → Option Err
  | .nameds xs => firstErr (xs.map (·.err))
  | _ => none

/-! ### Conditions -/

/-- condition_builder.go:15-21 `And`, `Or`.  The method of a `CompoundCondition` is its own; that of any other condition is promoted
from the embedded container and acts on the copy inside; no condition, or an empty container, panics. -/
def combineOfGet (ks : Cond.Keys) (c : Option Cond) (h : Op) (x : Cond) : Outcome Cond :=
  match c with
  | none => .panic
  | some c =>
    if c.isCompound then .ok (Cond.combine ks c h x)
    else
      match c.recv with
      | some c' => .ok (Cond.combine ks c' h x)
      | none => .panic

/-! ### The builder for reading and updating clauses -/

/-- match_builder.go:3-8 `MatchBuilder`; the default is the zero value. -/
structure MatchB where
  k : Key := 0
  kw : Key := 0
  patterns : List Val := []
  cond : Option Cond := none
  optional : Bool := false
  notNil : Bool := false

/-- match_builder.go:18-26 `buildMatch`. -/
def MatchB.build (m : MatchB) : Clause := matchCreate m.k m.kw m.optional m.patterns m.cond

/-- updating_clause_builder.go: `MergeBuilder`, `CreateBuilder`, and the builders that hold the finished clause. -/
inductive UpdBuilder where
  | merge (k kp : Key) (patterns actions : List Val)
  | create (k kp : Key) (patterns : List Val)
  | done (c : Clause)

/-- updating_clause_builder.go:32-34, 45-47, 58-60, 71-73, 84-86 `build`. -/
def UpdBuilder.build : UpdBuilder → Clause
  | .merge k kp patterns actions => mergeClause k kp patterns actions
  | .create k kp patterns => createClause k kp patterns
  | .done c => c

/-- The updating clauses, except for MERGE and CREATE (updating_clause.go). -/
inductive UpdType where
  | create | merge | delete (detach : Bool) | set | remove
  deriving DecidableEq, Repr

/-- The keys of the objects of an updating clause: the clause, its list or pattern, assignments. -/
structure UpdKeys where
  k : Key
  kl : Key
  ks : Nat → Key

/-- default_statement_builder.go:612-654 `getUpdatingClauseBuilder`: the loop returns in its first round, so only the first pattern
is kept. -/
def updBuilder (t : UpdType) (ks : UpdKeys) (xs : List Val) : Except Err UpdBuilder :=
  match t with
  | .create => match xs with | [] => .error (.site "default_statement_builder.go" 653) | p :: _ => .ok (.create ks.k ks.kl [p])
  | .merge => match xs with | [] => .error (.site "default_statement_builder.go" 653) | p :: _ => .ok (.merge ks.k ks.kl [p] [])
  | .delete d => .ok (.done (updateClause ks.k ks.kl (deleteKeyword d) xs))
  | .set =>
    match prepareSet ks.ks xs with
    | .error e => .error e
    | .ok ys => .ok (.done (updateClause ks.k ks.kl setKeyword ys))
  | .remove => .ok (.done (updateClause ks.k ks.kl removeKeyword xs))

/-- default_statement_builder.go:8-15 `DefaultStatementBuilder`.  `oupdate`: `none` if `currentOngoingUpdate` is not marked as not
nil; `ocall`: `none` if it is nil or not marked as not nil. -/
structure Base where
  err : Option Err := none
  elems : List Clause := []
  parts : List PartV := []
  omatch : MatchB := {}
  oupdate : Option UpdBuilder := none
  ocall : Option CallB := none

/-- default_statement_with_with_builder.go:3-10 `DefaultStatementWithWithBuilder`; `kp`: the key of the part it will end. -/
structure WithB where
  k : Key := 0
  kl : Key := 0
  ko : Key := 0
  kw : Key := 0
  kp : Key := 0
  base : Option Base := none
  cond : Option Cond := none
  items : List Val := []
  order : OrderB := {}
  distinct : Bool := false
  err : Option Err := none

/-- default_statement_with_return_builder.go:3-9 `DefaultStatementWithReturnBuilder`. -/
structure RetB where
  k : Key := 0
  ko : Key := 0
  base : Option Base := none
  distinct : Bool := false
  items : List Val := []
  order : OrderB := {}
  err : Option Err := none

/-- default_statement_with_update.go:3-11 `DefaultStatementWithUpdateBuilder`; the zero value of `builder` is nil.  `k`, `ko`: keys
of the RETURN clause. -/
structure UpdB where
  k : Key := 0
  ko : Key := 0
  base : Option Base := none
  items : List Val := []
  order : OrderB := {}
  distinct : Bool := false
  builder : Option UpdBuilder := none
  err : Option Err := none

/-- default_ongoing_unwind.go:3-7 `DefaultOngoingUnwind`. -/
structure UnwindB where
  base : Option Base := none
  x : Option Val := none
  err : Option Err := none

/-- in_query_call_builder.go:3-11 `InQueryCallBuilder`. -/
structure InCallB where
  base : Option Base := none
  call : Option CallB := none
  err : Option Err := none

/-- default_statement_builder.go:676-680 `OngoingMergeActionInBuilder`. -/
structure ActionB where
  base : Option Base := none
  type : MergeType := .onCreate
  err : Option Err := none

/-- The values that the interfaces of the builder hold.  `notNil` of a standalone call: it was not made by `StandaloneCallBuilderError`. -/
inductive B where
  | base (b : Base)
  | with_ (w : WithB)
  | ret (r : RetB)
  | upd (x : UpdB)
  | unwind (x : UnwindB)
  | inCall (i : InCallB)
  | standalone (c : CallB) (notNil : Bool)
  | action (a : ActionB)

/-- The keys of a WITH: of the clause, its list, its ordering, its condition, and the part of the query that it ends. -/
structure WithKeys where
  k : Key
  kl : Key
  ko : Key
  kw : Key
  kp : Key

namespace Base

/-- default_statement_builder.go:32-36 `DefaultStatementBuilderError`. -/
def dead (e : Err) : Base := { err := some e }

/-- default_statement_builder.go:497-503 `CloseCurrentOngoingMatch`. -/
def closeMatch (b : Base) : Base :=
  if b.omatch.notNil then { b with elems := b.elems ++ [b.omatch.build], omatch := {} } else b

/-- default_statement_builder.go:505-516 `CloseCurrentOngoingCall`. -/
def closeCall (b : Base) : Base :=
  match b.ocall with
  | none => b
  | some c =>
    match c.build with
    | .error e => { b with err := some e }
    | .ok v => { b with elems := b.elems ++ [v], ocall := none }

/-- default_statement_builder.go:518-524 `CloseCurrentOngoingUpdate`. -/
def closeUpdate (b : Base) : Base :=
  match b.oupdate with
  | none => b
  | some x => { b with elems := b.elems ++ [x.build], oupdate := none }

/-- default_statement_builder.go:38-47 `Where` (also 49-51 `WhereConditionContainer`, 66-74 `WherePattern`). -/
def where_ (b : Base) (c : Cond) : Base :=
  match firstErr [b.err, c.toVal.err] with
  | some e => dead e
  | none => { b with omatch := { b.omatch with cond := some c } }

/-- default_statement_builder.go:391-397 `And` (also 399-407 `AndPattern`): the condition's error is not looked at. -/
def and (b : Base) (ks : Cond.Keys) (c : Cond) : Outcome Base :=
  match b.err with
  | some e => .ok (dead e)
  | none => (combineOfGet ks b.omatch.cond .and c).map fun x => { b with omatch := { b.omatch with cond := some x } }

/-- default_statement_builder.go:409-418 `Or` (also 420-428 `OrPattern`). -/
def or (b : Base) (ks : Cond.Keys) (c : Cond) : Outcome Base :=
  match firstErr [b.err, c.toVal.err] with
  | some e => .ok (dead e)
  | none => (combineOfGet ks b.omatch.cond .or c).map fun x => { b with omatch := { b.omatch with cond := some x } }

/-- default_statement_builder.go:572-596 `BuildListOfVisitable`, without the clearing. -/
def list (b : Base) : Except Err (List Clause) :=
  let cs := b.elems ++ (if b.omatch.notNil then [b.omatch.build] else []) ++ (match b.oupdate with | some x => [x.build] | none => [])
  match b.ocall with
  | none => .ok cs
  | some c =>
    match c.build with
    | .error e => .error e
    | .ok v => .ok (cs ++ [v])

/-- default_statement_builder.go:53-64 `AddWith`; a WITH never has an error.  If the list cannot be built, the part is made of
nothing but the WITH, and nothing is cleared. -/
def addWith (b : Base) (kp : Key) (w : Option Val) : Base :=
  match b.err with
  | some e => dead e
  | none =>
    match w with
    | none => b
    | some v =>
      match b.list with
      | .error e => { b with err := some e, parts := b.parts ++ [partCreate kp [] v] }
      | .ok cs => { parts := b.parts ++ [partCreate kp cs v] }

/-- default_statement_builder.go:119-183 `With…`, `WithDistinct…`, `WithDefault`. -/
def with_ (b : Base) (ks : WithKeys) (distinct : Bool) (a : Args) : WithB :=
  match firstErr [b.err, a.namedErr, errsOf (a.vals u)] with
  | some e => { err := some e }
  | none => { k := ks.k, kl := ks.kl, ko := ks.ko, kw := ks.kw, kp := ks.kp, base := some b, distinct := distinct, items := a.vals u }

/-- default_statement_builder.go:76-117 and 526-548 `Returning…`, `ReturningDistinct…`, `ReturningDefault`. -/
def returning (b : Base) (k ko : Key) (distinct : Bool) (a : Args) : RetB :=
  match firstErr [b.err, a.namedErr, errsOf (a.vals u)] with
  | some e => { err := some e }
  | none => { k := k, ko := ko, base := some b, distinct := distinct, items := a.vals u }

/-- default_statement_builder.go:604-610 `Update` with default_statement_with_update.go:20-33: an error of the new clause is dropped
together with the clause. -/
def update (b : Base) (t : UpdType) (ks : UpdKeys) (xs : List Val) : Base :=
  let b := b.closeMatch.closeCall.closeUpdate
  match updBuilder t ks xs with
  | .error _ => { b with oupdate := none }
  | .ok x => { b with oupdate := some x }

/-- default_statement_builder.go:185-252, 440-450 `Delete…`, `DetachDelete…`, `Merge`, `Create`. -/
def openUpdate (b : Base) (t : UpdType) (ks : UpdKeys) (a : Args) : Base :=
  match firstErr [b.err, a.namedErr, errsOf (a.vals u)] with
  | some e => dead e
  | none => b.update t ks (a.vals u)

/-- default_statement_builder.go:598-602 `addUpdatingClause`. -/
def addClause (b : Base) (c : Clause) : Base := { b.closeMatch with elems := b.closeMatch.elems ++ [c] }

/-- default_statement_with_update.go:35-62 `DefaultStatementWithUpdateBuilderCreate2`. -/
def updB (b : Base) (t : UpdType) (ks : UpdKeys) (xs : List Val) : UpdB :=
  match firstErr [b.err, errsOf xs] with
  | some e => { err := some e }
  | none =>
    match updBuilder t ks xs with
    | .error e => { err := some e }
    | .ok x => { base := some b, builder := some x }

/-- default_statement_builder.go:254-265 `Set`: a call that is still open is not closed. -/
def set (b : Base) (ks : UpdKeys) (xs : List Val) : B :=
  match firstErr [b.err, errsOf xs] with
  | some e => .base (dead e)
  | none => .upd (b.closeUpdate.updB .set ks xs)

/-- default_statement_builder.go:267-278 `SetWithNamed`. -/
def setNamed (b : Base) (ks : UpdKeys) (n : NamedV) (x : Val) : B :=
  match firstErr [b.err, n.err, x.err] with
  | some e => .base (dead e)
  | none => b.set ks [n.sym, x]

/-- default_statement_builder.go:280-298 `SetByNode`, `RemoveByNode`, 300-314 `Remove`, given what is set or removed and the errors
that are looked at first; nothing is closed. -/
def update2 (b : Base) (t : UpdType) (ks : UpdKeys) (checked : Option Err) (xs : List Val) : B :=
  match firstErr [b.err, checked] with
  | some e => .base (dead e)
  | none => .upd (b.updB t ks xs)

/-- default_statement_builder.go:316-345 `Unwinds` (a list literal), `UnwindByString` (a symbolic name), `Unwind`. -/
def unwind (b : Base) (x : Val) : UnwindB :=
  match firstErr [b.err, x.err] with
  | some e => { err := some e }
  | none => { base := some b.closeMatch, x := some x }

/-- default_statement_builder.go:347-367 `Call`. -/
def callStmt (b : Base) (k : Key) (s : Stmt) : Base :=
  match firstErr [b.err, s.err] with
  | some e => dead e
  | none =>
    let b := b.closeCall.closeMatch.closeUpdate
    match (subqueryCall k s).val.err with
    | some e => { b with err := some e }
    | none => { b with elems := b.elems ++ [subqueryCall k s] }

/-- default_statement_builder.go:369-378 `Call1`; `kc`, `ka`, `kw`: keys of the call, its arguments and its condition; `k`, `kn`: of
the name and its namespace. -/
def callProc (b : Base) (kc ka kw k kn : Key) (name : List Str) : Outcome InCallB :=
  match b.err with
  | some e => .ok { err := some e }
  | none =>
    (procName k kn name).map fun p =>
      let c : CallB := { kc := kc, ka := ka, kw := kw, standalone := false, name := p }
      { base := some { b.closeMatch.closeCall with ocall := some c }, call := some c }

/-- default_statement_builder.go:430-438, 471-495 `OptionalMatch`, `Match`, `MatchDefault`: an update that is still open is not closed. -/
def match_ (b : Base) (k kw : Key) (optional : Bool) (ps : List Val) : Base :=
  match firstErr [b.err, errsOf ps] with
  | some e => dead e
  | none => { b.closeMatch.closeCall with omatch := { k := k, kw := kw, patterns := ps, optional := optional, notNil := true } }

/-- default_statement_builder.go:452-469 `OnCreate`, `OnMatch`, `OngoingOnAfterMerge`. -/
def on (b : Base) (t : MergeType) : ActionB :=
  match b.err with
  | some e => { err := some e }
  | none =>
    match b.oupdate with
    | some (.merge ..) => { base := some b, type := t }
    | _ => { err := some (.site "default_statement_builder.go" 466) }

/-- default_statement_builder.go:557-563 `BuildImpl`: if the list cannot be built, the statement is made of nothing but the RETURN. -/
def buildImpl (b : Base) (ret : Option Val) : Outcome Stmt :=
  let s := singlePart (match b.list with | .ok cs => cs | .error _ => []) ret
  if b.parts = [] then .ok s else multiPart b.parts s

/-- default_statement_builder.go:550-555 `Build`. -/
def build (b : Base) : Outcome (Except Err Stmt) :=
  match b.err with
  | some e => .ok (.error e)
  | none => (b.buildImpl none).map .ok

/-- default_statement_builder.go:384-389 `AsCondition`, a condition `EXISTS {…}`. -/
def asCondition (b : Base) (k : Key) : Outcome Val :=
  if !b.omatch.notNil ∨ b.elems ≠ [] then .panic else .ok (existentialSubquery k b.omatch.build.val)

end Base

/-! ### The other builders -/

/-- default_statement_with_with_builder.go:26-44 `buildWith`, and the next clause, lines 84-226: `d.defaultBuilder.AddWith(…)`; a nil
pointer panics. -/
def WithB.next (w : WithB) : Outcome Base :=
  match w.base with
  | none => .panic
  | some b => .ok (b.addWith w.kp (withCreate w.k w.kl w.ko w.kw w.distinct w.items w.order w.cond))

/-- default_statement_with_update.go: `d.defaultBuilder.addUpdatingClause(d.builder.build())`; after an error, both are nil. -/
def UpdB.next (x : UpdB) : Outcome Base :=
  match x.base, x.builder with
  | some b, some c => .ok (b.addClause c.build)
  | _, _ => .panic

/-- default_statement_with_update.go:107-119 `Build`. -/
def UpdB.build (x : UpdB) : Outcome (Except Err Stmt) :=
  match x.err with
  | some e => .ok (.error e)
  | none => x.next.bind fun b => (b.buildImpl (returnCreate x.k x.ko x.distinct x.items x.order)).map .ok

/-- default_statement_with_return_builder.go:19-30 `Build`. -/
def RetB.build (r : RetB) : Outcome (Except Err Stmt) :=
  match r.err, r.base with
  | some e, _ => .ok (.error e)
  | none, some b => (b.buildImpl (returnCreate r.k r.ko r.distinct r.items r.order)).map .ok
  | none, none => .panic     -- not reachable

/-- in_query_call_builder.go:24, 45, 58, 115, 128, 133: the call is put into the builder it came from. -/
def InCallB.next (i : InCallB) : Outcome Base :=
  match i.base, i.call with
  | some b, some c => .ok { b with ocall := some c }
  | _, _ => .panic

/-- default_statement_builder.go:24-30 `DefaultStatementBuilderCreate1`. -/
def startWithCall (c : CallB) (notNil : Bool) : Base := { ocall := if notNil then some c else none }

/-- default_statement_builder.go:702-721 `Set`; the builder holds a MERGE. -/
def ActionB.set (a : ActionB) (k kset kl : Key) (ks : Nat → Key) (xs : List Val) : Outcome Base :=
  match firstErr [a.err, errsOf xs] with
  | some e => .ok (.dead e)
  | none =>
    match a.base with
    | some b =>
      match b.oupdate with
      | some (.merge km kp ps as) =>
        match mergeAction k kset kl ks a.type xs with
        | .error e => .ok { b with err := some e }
        | .ok v => .ok { b with oupdate := some (.merge km kp ps (as ++ [v])) }
      | _ => .panic     -- not reachable
    | none => .panic    -- not reachable

/-! ### The calls -/

/-- The calls of the fluent interface, up to variants for strings and nodes. -/
inductive Call where
  | match_ (k kw : Key) (optional : Bool) (ps : List Val)     -- Match, OptionalMatch, MatchDefault
  | where_ (c : Cond)                                         -- Where, WhereConditionContainer, WherePattern
  | and (ks : Cond.Keys) (c : Cond)                           -- And, AndPattern
  | or (ks : Cond.Keys) (c : Cond)                            -- Or, OrPattern
  | with_ (ks : WithKeys) (distinct : Bool) (a : Args)        -- With, WithDistinct, WithByString, ...
  | returning (k ko : Key) (distinct : Bool) (a : Args)       -- Returning, ReturningDistinct, ReturningByString, ...
  | orderItems (xs : List SortItemV)                          -- OrderBySortItem
  | orderBy (k : Key) (x : Val)                               -- OrderBy, OrderByExpression
  | andBy (k : Key) (x : Val)                                 -- And of a sorted RETURN, And1 of a sorted WITH
  | asc (k : Key)                                             -- Ascending
  | desc                                                      -- Descending
  | skip (k kl : Key) (n : Int)
  | limit (k kl : Key) (n : Int)
  | delete (ks : UpdKeys) (detach : Bool) (a : Args)          -- Delete, DetachDelete, DeleteByString, ...
  | create (ks : UpdKeys) (ps : List Val)
  | merge (ks : UpdKeys) (ps : List Val)
  | set (ks : UpdKeys) (xs : List Val)
  | setNamed (ks : UpdKeys) (n : NamedV) (x : Val)
  | setLabels (ks : UpdKeys) (guid : Str) (ko kl : Key) (kls : Nat → Key) (n : NodeV) (labels : List Str)       -- SetByNode
  | removeLabels (ks : UpdKeys) (guid : Str) (ko kl : Key) (kls : Nat → Key) (n : NodeV) (labels : List Str)    -- RemoveByNode
  | remove (ks : UpdKeys) (xs : List Val)                     -- Remove
  | on (t : MergeType)                                        -- OnCreate, OnMatch
  | actionSet (k kset kl : Key) (ks : Nat → Key) (xs : List Val)      -- Set of an OngoingMergeAction
  | unwind (x : Val)                                          -- Unwind, Unwinds, UnwindByString
  | as (k kn : Key) (name : Str)
  | callStmt (k : Key) (s : Stmt)                             -- Call
  | callProc (kc ka kw k kn : Key) (name : List Str)          -- Call1
  | args (xs : List Val)                                      -- WithArgs, of a slice that is not nil: `WithArgs()` passes nil, which is as if it was never called
  | yield (ky : Key) (xs : List Val)                          -- YieldSymbolic, YieldString, Yield

/-- A call on a `DefaultStatementBuilder`.  A call that the type does not have is counted as panic here and below. -/
def execBase (b : Base) : Call → Outcome B
  | .match_ k kw o ps => .ok (.base (b.match_ k kw o ps))
  | .where_ c => .ok (.base (b.where_ c))
  | .and ks c => (b.and ks c).map .base
  | .or ks c => (b.or ks c).map .base
  | .with_ ks d a => .ok (.with_ (b.with_ u ks d a))
  | .returning k ko d a => .ok (.ret (b.returning u k ko d a))
  | .delete ks d a => .ok (.base (b.openUpdate u (.delete d) ks a))
  | .create ks ps => .ok (.base (b.openUpdate u .create ks (.exprs ps)))
  | .merge ks ps => .ok (.base (b.openUpdate u .merge ks (.exprs ps)))
  | .set ks xs => .ok (b.set ks xs)
  | .setNamed ks n x => .ok (b.setNamed ks n x)
  | .setLabels ks g ko kl kls n ls => .ok (b.update2 .set ks n.err [labelOperation u g ko kl kls .setLabel n ls])
  | .removeLabels ks g ko kl kls n ls => .ok (b.update2 .remove ks n.err [labelOperation u g ko kl kls .removeLabel n ls])
  | .remove ks xs => .ok (b.update2 .remove ks (errsOf xs) xs)
  | .on t => .ok (.action (b.on t))
  | .unwind x => .ok (.unwind (b.unwind x))
  | .callStmt k s => .ok (.base (b.callStmt k s))
  | .callProc kc ka kw k kn name => (b.callProc kc ka kw k kn name).map .inCall
  | _ => .panic

/-- default_statement_with_with_builder.go:50-78, 84-258: a call on a `DefaultStatementWithWithBuilder`.  Conditions are not checked.
169-171: `SetWithNamed` asks for the required name and does not check the error of what is named. -/
def execWith (w : WithB) : Call → Outcome B
  | .where_ c => .ok (.with_ { w with cond := some c })
  | .and ks c => (combineOfGet ks w.cond .and c).map fun x => .with_ { w with cond := some x }
  | .or ks c => (combineOfGet ks w.cond .or c).map fun x => .with_ { w with cond := some x }
  | .orderItems xs => .ok (.with_ { w with order := w.order.addItems xs })
  | .orderBy k x => .ok (.with_ { w with order := w.order.byExpression k x })
  | .andBy k x => .ok (.with_ { w with order := w.order.byExpression k x })
  | .asc k => .ok (.with_ { w with order := w.order.ascending k })
  | .desc => .ok (.with_ { w with order := w.order.descending })
  | .skip k kl n => .ok (.with_ { w with order := w.order.setSkip k kl n })
  | .limit k kl n => .ok (.with_ { w with order := w.order.setLimit k kl n })
  | .with_ ks d a => w.next.bind fun b => execBase u b (.with_ ks d (.exprs (a.vals u)))
  | .returning k ko d a => w.next.bind fun b => execBase u b (.returning k ko d (.exprs (a.vals u)))
  | .delete ks d a => w.next.bind fun b => execBase u b (.delete ks d (.exprs (a.vals u)))
  | .setNamed ks n x => w.next.bind fun b => execBase u b (.set ks [n.req, x])
  | .on _ => .panic
  | c => w.next.bind fun b => execBase u b c

/-- default_statement_with_return_builder.go:32-65: a call on a `DefaultStatementWithReturnBuilder`. -/
def execRet (r : RetB) : Call → Outcome B
  | .orderItems xs => .ok (.ret { r with order := r.order.addItems xs })
  | .orderBy k x => .ok (.ret { r with order := r.order.byExpression k x })
  | .andBy k x => .ok (.ret { r with order := r.order.byExpression k x })
  | .asc k => .ok (.ret { r with order := r.order.ascending k })
  | .desc => .ok (.ret { r with order := r.order.descending })
  | .skip k kl n => .ok (.ret { r with order := r.order.setSkip k kl n })
  | .limit k kl n => .ok (.ret { r with order := r.order.setLimit k kl n })
  | _ => .panic

/-- default_statement_with_update.go:72-105, 121-255: a call on a `DefaultStatementWithUpdateBuilder`.  142-146: `ReturningDistinct`
discards the expressions.  189-202: `Delete` does not check errors.  235-241: `RemoveByNode` makes an operation that sets labels. -/
def execUpd (x : UpdB) : Call → Outcome B
  | .orderItems xs => .ok (.upd { x with order := x.order.addItems xs })
  | .orderBy k v => .ok (.upd { x with order := x.order.byExpression k v })
  | .andBy k v => .ok (.upd { x with order := x.order.byExpression k v })
  | .asc k => .ok (.upd { x with order := x.order.ascending k })
  | .desc => .ok (.upd { x with order := x.order.descending })
  | .skip k kl n => .ok (.upd { x with order := x.order.setSkip k kl n })
  | .limit k kl n => .ok (.upd { x with order := x.order.setLimit k kl n })
  | .returning k ko d a =>
    .ok (.upd (if d then { x with distinct := true } else { x with k := k, ko := ko, items := x.items ++ a.vals u }))
  | .with_ ks d a => x.next.map fun b => .with_ (b.with_ u ks d (.exprs (a.vals u)))
  | .delete ks d a => x.next.map fun b => .base (b.update (.delete d) ks (a.vals u))
  | .merge ks ps => x.next.map fun b => .base (b.openUpdate u .merge ks (.exprs ps))
  | .create ks ps => x.next.map fun b => .base (b.openUpdate u .create ks (.exprs ps))
  | .set ks xs => x.next.map fun b => .upd (b.updB .set ks xs)
  | .setNamed ks n v => x.next.map fun b => .upd (b.updB .set ks [n.sym, v])
  | .setLabels ks g ko kl kls n ls => x.next.map fun b => .upd (b.updB .set ks [labelOperation u g ko kl kls .setLabel n ls])
  | .removeLabels ks g ko kl kls n ls =>
    match x.err with
    | some _ => .ok (.upd x)
    | none => x.next.map fun b => .upd (b.updB .remove ks [labelOperation u g ko kl kls .setLabel n ls])
  | .remove ks xs => x.next.map fun b => .upd (b.updB .remove ks xs)
  | _ => .panic

/-- default_ongoing_unwind.go:24-27 `As`: `As` does not check the error; without builder it panics. -/
def execUnwind (x : UnwindB) : Call → Outcome B
  | .as k kn name =>
    match x.base, x.x with
    | some b, some v => .ok (.base { b with elems := b.elems ++ [unwindCreate u k kn v name] })
    | _, _ => .panic
  | _ => .panic

/-- in_query_call_builder.go:22-135: a call on an `InQueryCallBuilder`. -/
def execInCall (i : InCallB) : Call → Outcome B
  | .args xs => .ok (.inCall { i with call := i.call.map fun c => { c with args := some xs } })
  | .yield ky xs => .ok (.inCall { i with call := i.call.map fun c => { c with yields := yieldItems ky xs } })
  | .where_ c => InCallB.next { i with call := i.call.map fun x => { x with cond := some c } } |>.map .base
  | .returning k ko d a => i.next.bind fun b => execBase u b (.returning k ko d (.exprs (a.vals u)))
  | .with_ ks d a => i.next.bind fun b => execBase u b (.with_ ks d (.exprs (a.vals u)))
  | .callStmt k s => i.next.bind fun b => execBase u b (.callStmt k s)
  | _ => .panic

/-- procedure_call.go:161-193, 228-284: a call on a `StandaloneCallBuilder`. -/
def execStandalone (c : CallB) (notNil : Bool) : Call → Outcome B
  | .args xs => .ok (.standalone { c with args := some xs } notNil)
  | .yield ky xs => .ok (.standalone { c with yields := yieldItems ky xs } notNil)
  | .where_ x => .ok (.base (startWithCall { c with cond := some x } notNil))
  | .returning k ko d a => execBase u (startWithCall c notNil) (.returning k ko d (.exprs (a.vals u)))
  | .with_ ks d a => execBase u (startWithCall c notNil) (.with_ ks d (.exprs (a.vals u)))
  | .callStmt k s => execBase u (startWithCall c notNil) (.callStmt k s)
  | _ => .panic

/-- default_statement_builder.go:702-733: a call on an `OngoingMergeActionInBuilder`. -/
def execAction (a : ActionB) : Call → Outcome B
  | .actionSet k kset kl ks xs => (a.set k kset kl ks xs).map .base
  | _ => .panic

/-- A call on a builder. -/
def exec : B → Call → Outcome B
  | .base b, c => execBase u b c
  | .with_ w, c => execWith u w c
  | .ret r, c => execRet r c
  | .upd x, c => execUpd u x c
  | .unwind x, c => execUnwind u x c
  | .inCall i, c => execInCall u i c
  | .standalone s n, c => execStandalone u s n c
  | .action a, c => execAction a c

/-- Calls one after the other. -/
def execAll (b : B) : List Call → Outcome B
  | [] => .ok b
  | c :: cs => (exec u b c).bind fun b => execAll b cs

/-- cypher.go:158-252, 366-368, 456-458: `Match`, `OptionalMatch`, `Create`, `With`, `Merge`, `Unwind`, `CypherReturning`,
`ACallByStatement`: the first call is made on a new builder (default_statement_builder.go:17-22). -/
def start : B := .base {}

/-- statement.go:15-17 `StatementCall`, cypher.go:442-444 `ACall`. -/
def startCall (kc ka kw k kn : Key) (name : List Str) : Outcome B :=
  (procName k kn name).map fun p => .standalone { kc := kc, ka := ka, kw := kw, standalone := true, name := p } true

/-- cypher.go:430-435 `ACallSimple`, with an empty name. -/
def startCallError : B := .standalone { kc := 0, ka := 0, kw := 0, standalone := true, name := ⟨0, 0, none, []⟩ } false

/-- `Build()`; a type without it is counted as panic. -/
def B.build : B → Outcome (Except Err Stmt)
  | .base b => b.build
  | .ret r => r.build
  | .upd x => x.build
  | .standalone c _ => .ok (c.build.map c.stmt)
  | _ => .panic

end Verif
