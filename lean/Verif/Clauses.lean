import Verif.Patterns

/-
Clauses and statements: match.go, create.go, merge.go, merge_action.go, set.go, remove.go, delete.go, unwind.go, with.go, return.go,
return_body.go, order.go, order_builder.go, skip.go, limit.go, sort_item.go, procedure_call.go, procedure_name.go, yield_items.go,
arguments.go, subquery.go, union_query.go, single_part_query.go, multi_part_query.go.

Expressions inside lists are taken as not nil (a nil interface among them panics when it is rendered).
-/

namespace Verif

variable (u : Unicode)

/-- A value of type `Visitable` in a list of clauses; `isMatch`: its type is `MatchPhrase` (single_part_query.go:20). -/
structure Clause where
  val : Val
  isMatch : Bool := false

/-! ### Sorting, SKIP, LIMIT -/

/-- sort_item.go:83-89 `SortDirectionRaw`. -/
inductive SortDir where
  | undefined | asc | desc
  deriving DecidableEq, Repr

/-- sort_item.go:108-110 `enter`, 54-56: the direction is visited if it is `ASC` or `DESC`; it has no key. -/
def SortDir.visit : SortDir → List Tree
  | .undefined => []
  | .asc => [leaf 0 c!" ASC"]
  | .desc => [leaf 0 c!" DESC"]

/-- sort_item.go:3-9 `SortItem`; the default is the zero value. -/
structure SortItemV where
  key : Key := 0
  expr : Option Val := none
  dir : SortDir := .undefined
  notNil : Bool := false
  err : Option Err := none

namespace SortItemV

/-- sort_item.go:11-22 `SortItemCreate`; cypher.go:275-277 `Sort` is this with `UNDEFINED`. -/
def create (k : Key) (x : Option Val) (dir : SortDir) : SortItemV :=
  match errOf x with
  | some e => { err := some e }
  | none => { key := k, expr := x, dir := dir, notNil := true }

/-- sort_item.go:40-42 `Ascending`. -/
def ascending (s : SortItemV) (k : Key) : SortItemV := create k s.expr .asc

/-- sort_item.go:44-49 `Descending`: no key, not marked as not nil, the error is dropped. -/
def descending (s : SortItemV) : SortItemV := { expr := s.expr, dir := .desc }

/-- sort_item.go:51-58 `accept`; an item without expression panics here: `sortAccept` and ResultAccept.lean. -/
def visit (s : SortItemV) : List Tree := [nd s.key [] [] false ((s.expr.elim [] Val.visit) ++ s.dir.visit)]

end SortItemV

/-- order.go:10-19 `OrderCreate`, 33-50 (a list construct). -/
def orderCreate (k : Key) (items : List SortItemV) : Val :=
  match firstErr (items.map (·.err)) with
  | some e => .bad e
  | none => { key := k, visit := [nd k c!" ORDER BY " [] true (items.flatMap (·.visit))] }

/-- skip.go:10-15 `SkipCreate`, 29-37; `kl`: key of the number. -/
def skipCreate (k kl : Key) (n : Int) : Val := { key := k, visit := [nd k c!" SKIP " [] false (intLiteral kl n).visit] }

/-- limit.go:12-20 `LimitCreate`, 40-48. -/
def limitCreate (k kl : Key) (n : Int) : Val :=
  if n = 0 then .bad (.site "limit.go" 14) else { key := k, visit := [nd k c!" LIMIT " [] false (intLiteral kl n).visit] }

/-- order_builder.go:3-9 `OrderBuilder`; `skip`, `limit`: `none` is the zero value. -/
structure OrderB where
  items : List SortItemV := []
  last : SortItemV := {}
  skip : Option Val := none
  limit : Option Val := none

namespace OrderB

/-- order_builder.go:17-19 `OrderBySortItem`. -/
def addItems (o : OrderB) (xs : List SortItemV) : OrderB := { o with items := o.items ++ xs }

/-- order_builder.go:21-23 `OrderByExpression`, 25-27 `And`. -/
def byExpression (o : OrderB) (k : Key) (x : Val) : OrderB := { o with last := .create k (some x) .undefined }

/-- order_builder.go:29-32 `Descending`. -/
def descending (o : OrderB) : OrderB := { o with items := o.items ++ [o.last.descending], last := {} }

/-- order_builder.go:34-37 `Ascending`. -/
def ascending (o : OrderB) (k : Key) : OrderB := { o with items := o.items ++ [o.last.ascending k], last := {} }

/-- order_builder.go:39-41 `Skip`. -/
def setSkip (o : OrderB) (k kl : Key) (n : Int) : OrderB := { o with skip := some (skipCreate k kl n) }

/-- order_builder.go:43-45 `Limit`. -/
def setLimit (o : OrderB) (k kl : Key) (n : Int) : OrderB := { o with limit := some (limitCreate k kl n) }

/-- order_builder.go:48-50: the items that `BuildOrder` puts into the clause. -/
def allItems (o : OrderB) : List SortItemV := o.items ++ (if o.last.notNil then [o.last] else [])

/-- order_builder.go:47-55 `BuildOrder`; `none`: the zero `Order`. -/
def build (o : OrderB) (k : Key) : Option Val := if o.allItems = [] then none else some (orderCreate k o.allItems)

end OrderB

/-! ### RETURN and WITH -/

/-- distinct.go:10-14 `DISTINCT_INSTANCE`, 28-35; the address of a package variable. -/
def distinctVisit (distinct : Bool) : List Tree := if distinct then [leaf 40 c!"DISTINCT "] else []

/-- return_body.go:13-35 `ReturnBodyCreate` (errors are dropped), 61-66 `accept`, which does not visit the body itself. -/
def bodyVisit (items : List Tree) (order skip limit : Option Val) : List Tree :=
  items ++ visitIfNotNull order ++ visitIfNotNull skip ++ visitIfNotNull limit

/-- The list of returned expressions, default_statement_with_return_builder.go:25: an `ExpressionList` without key, made without
looking at errors. -/
def returnItems (xs : List Val) : List Tree := [nd 0 [] [] true (visitsOf xs)]

/-- return.go:11-31 `ReturnCreate`, `ReturnCreate1`, 51-63; default_statement_with_return_builder.go:23-28: nothing is returned if
the list is empty; `ko`: key of the ordering. -/
def returnCreate (k ko : Key) (distinct : Bool) (xs : List Val) (o : OrderB) : Option Val :=
  if xs = [] then none
  else some { key := k, visit := [nd k c!"RETURN " [] false (distinctVisit distinct ++ bodyVisit (returnItems xs) (o.build ko) o.skip o.limit)] }

/-- expression_list.go:11-30, 56-62: an `ExpressionList` that is rendered although it has an error shows as an empty list. -/
def listVisit (k : Key) (xs : List Val) : List Tree :=
  if (expressionList k xs).err.isSome then [nd 0 [] [] true []] else (expressionList k xs).visit

/-- with.go:12-40 `withCreate` (errors are dropped), 52-66; default_statement_with_with_builder.go:26-44 `buildWith`: an empty list
gives the zero value.  `kl`: key of the list, `kw`: of the condition. -/
def withCreate (k kl ko kw : Key) (distinct : Bool) (xs : List Val) (o : OrderB) (c : Option Cond) : Option Val :=
  if xs = [] then none
  else some { key := k, visit := [nd k c!"WITH " c!" " false (distinctVisit distinct ++
    bodyVisit (listVisit kl xs) (o.build ko) o.skip o.limit ++ visitIfNotNull ((builtCondition c).map fun c => whereCreate kw c.toVal))] }

/-! ### Reading clauses -/

/-- match.go:12-27 `MatchPhraseCreate`, 45-65; match_builder.go:18-26 `buildMatch`: the pattern has no key. -/
def matchCreate (k kw : Key) (optional : Bool) (patterns : List Val) (c : Option Cond) : Clause :=
  let where_ := (builtCondition c).map fun c => whereCreate kw c.toVal
  match errOf where_ with
  | some e => ⟨.bad e, true⟩
  | none => ⟨{ key := k, visit := [nd k ((if optional then c!"OPTIONAL " else []) ++ c!"MATCH ") c!" " false
      (nd 0 [] [] true (visitsOf patterns) :: visitIfNotNull where_)] }, true⟩

/-- unwind.go:11-28 `unwindCreate`, 38-52, for an expression that is not nil; 16-17: an aliased expression is replaced by its name
(alias_expression.go:82-84 `AsName`), a symbolic name with key `kn`. -/
def unwindCreate (k kn : Key) (x : Val) (variable' : Str) : Clause :=
  match x.err with
  | some e => ⟨.bad e, false⟩
  | none =>
    let vis := match x.tag with | .aliased _ a => (symbolicName u kn a).visit | _ => x.visit
    ⟨{ key := k, visit := [nd k c!"UNWIND " (c!" AS " ++ variable' ++ c!" ") false vis] }, false⟩

/-! ### Updating clauses -/

/-- create.go:10-20 `createcreate`, 32-44; updating_clause_builder.go:45-47. -/
def createClause (k kp : Key) (patterns : List Val) : Clause :=
  match (patternCreate kp patterns).err with
  | some e => ⟨.bad e, false⟩
  | none => ⟨{ key := k, visit := [nd k c!"CREATE " c!" " false (patternCreate kp patterns).visit] }, false⟩

/-- set.go:10-20 `SetCreate`, 36-48; remove.go:10-20 `RemoveCreate`, 32-44; delete.go:11-22 `DeleteCreate`, 38-53. -/
def updateClause (k kl : Key) (keyword : Str) (xs : List Val) : Clause :=
  match (expressionList kl xs).err with
  | some e => ⟨.bad e, false⟩
  | none => ⟨{ key := k, visit := [nd k keyword c!" " false (expressionList kl xs).visit] }, false⟩

/-- set.go:42-44 `enter`. -/
def setKeyword : Str := c!"SET "
/-- remove.go:38-40 `enter`. -/
def removeKeyword : Str := c!"REMOVE "
/-- delete.go:44-49 `enter`. -/
def deleteKeyword (detach : Bool) : Str := (if detach then c!"DETACH " else []) ++ c!"DELETE "

/-- default_statement_builder.go:669-671: one assignment for each pair. -/
def pairUp (ks : Nat → Key) (i : Nat) : List Val → List Val
  | a :: b :: rest => operationCreate (ks i) (some a) .set (some b) :: pairUp ks (i + 1) rest
  | _ => []

/-- `.(Operation)`. -/
def Val.isOperation (v : Val) : Bool := match v.tag with | .operation => true | _ => false

/-- default_statement_builder.go:656-673 `prepareSetExpression`. -/
def prepareSet (ks : Nat → Key) (xs : List Val) : Except Err (List Val) :=
  let rest := xs.filter (fun x => !x.isOperation)
  if rest.length % 2 ≠ 0 then .error (.site "default_statement_builder.go" 667)
  else .ok (xs.filter (·.isOperation) ++ pairUp ks 0 rest)

/-- node.go:237-244 `NodeLabelCreate` and node_labels.go:10-22 `NodeLabelsCreate`, 32-38; labels never carry an error. -/
def labelsVisit (kl : Key) (ks : Nat → Key) (labels : List Str) : List Tree :=
  [nd kl [] [] false (labels.zipIdx.map fun l => labelVisit (ks l.2, l.1))]

/-- operation.go:78-110 `OperationCreate2`, for `SET_LABEL` (operations.go:35-37 `OperationSetLabel`) and `REMOVE_LABEL`
(operations.go:39-41 `OperationRemove`); the error of a missing name is not looked at, and the zero name prints the random identifier. -/
def labelOperation (guid : Str) (k kl : Key) (ks : Nat → Key) (o : Op) (n : NodeV) (labels : List Str) : Val :=
  match n.err with
  | some e => .bad e
  | none =>
    if !n.notNil then .bad (.site "operation.go" 86)
    else if labels = [] then .bad (.site "operation.go" 95)
    else .mk' k (operationVisit k (pathName u guid n.name) o (labelsVisit kl ks labels)) false .operation

/-- merge_action.go:52-57 `MERGE_TYPE`. -/
inductive MergeType where
  | onCreate | onMatch
  deriving DecidableEq, Repr

/-- merge_action.go:31-39 `enter`. -/
def MergeType.text : MergeType → Str
  | .onCreate => c!"ON CREATE "
  | .onMatch => c!"ON MATCH "

/-- merge_action.go:11-19 `MergeActionCreate`, 25-29, with updating_clause_builder.go:22-31 `on`: the error of a SET is not looked at
(rendering such a SET shows the items as an empty list).  `ks`: keys of the assignments. -/
def mergeAction (k kset kl : Key) (ks : Nat → Key) (t : MergeType) (xs : List Val) : Except Err Val :=
  match prepareSet ks xs with
  | .error e => .error e
  | .ok ys =>
    let set := (updateClause kset kl setKeyword ys).val
    .ok { key := k, visit := [nd k t.text [] false (if set.err.isSome then [nd 0 setKeyword c!" " false (listVisit kl ys)] else set.visit)] }

/-- merge.go:26-47 `mergeCreate1`, 61-78; updating_clause_builder.go:32-34; 36: a blank is put before the actions, and 74-78: one is
appended at the end only if the list is empty, which it never is.  Merge actions never have an error. -/
def mergeClause (k kp : Key) (patterns : List Val) (actions : List Val) : Clause :=
  match (patternCreate kp patterns).err with
  | some e => ⟨.bad e, false⟩
  | none => ⟨{ key := k, visit := [nd k c!"MERGE " [] false ((patternCreate kp patterns).visit ++ leaf 41 c!" " :: visitsOf actions)] }, false⟩

/-! ### Procedure calls -/

/-- procedure_name.go:7-13 `ProcedureName`; `hasNamespace`: `optionalNamespace.isNotNil()`. -/
structure ProcName where
  key : Key
  kn : Key
  ns : Option (List Str)
  value : Str

/-- procedure_name.go:15-47 `ProcedureNameCreate`; 19-21: the parts are copied into a slice of length zero, so none is copied; no part
at all: the slice bounds are out of range. -/
def procName (k kn : Key) : List Str → Outcome ProcName
  | [] => .panic
  | [p] => .ok ⟨k, kn, none, p⟩
  | p :: ps => .ok ⟨k, kn, some [], (p :: ps).getLast (by simp)⟩

/-- procedure_name.go:49-55 `getQualifiedName`. -/
def ProcName.qualified (p : ProcName) : Str := (match p.ns with | some c => join c!"." c | none => []) ++ c!"." ++ p.value

/-- procedure_name.go:61-72, name_space.go:29-36. -/
def ProcName.visit (p : ProcName) : List Tree :=
  [nd p.key [] p.value false (match p.ns with | some c => [leaf p.kn (join c!"." c)] | none => [])]

/-- strings.Split of cypher.go:434 `Split`, with the separator consisting of a backslash and a dot. -/
def splitBackslashDot : Str → List Str
  | '\\' :: '.' :: rest => [] :: splitBackslashDot rest
  | c :: rest =>
    match splitBackslashDot rest with
    | w :: ws => (c :: w) :: ws
    | [] => [[c]]     -- not reachable
  | [] => [[]]

/-- cypher.go:430-435 `ACallSimple` and 442-444 `ACall`; an empty name gives a builder with an error that no method looks at, whose
procedure name is the zero value. -/
def callSimple (k kn : Key) (name : Str) : Outcome ProcName :=
  if name = [] then .ok ⟨0, 0, none, []⟩ else procName k kn (splitBackslashDot name)

/-- arguments.go:10-22 `ArgumentsCreate`, 36-58 (a list construct). -/
def argumentsCreate (k : Key) (xs : List Val) : Val :=
  match errsOf xs with
  | some e => .bad e
  | none => { key := k, visit := [nd k c!"(" c!")" true (visitsOf xs)] }

/-- yield_items.go:12-33 `YieldItemsCreate`, 47-64 (a list construct); 29-31: errors are dropped.  `none`: the zero value. -/
def yieldItems (k : Key) (xs : List Val) : Option Val :=
  if xs = [] ∨ (errsOf xs).isSome then none else some { key := k, visit := [nd k c!" YIELD " [] true (visitsOf xs)] }

/-- The two builders of procedure calls: procedure_call.go:136-143 `StandaloneCallBuilder`, in_query_call_builder.go:3-11
`InQueryCallBuilder`.  `args`: `none` is a nil slice; `kc`, `ka`, `kw`: keys of the call, its arguments and its condition. -/
structure CallB where
  kc : Key
  ka : Key
  kw : Key
  standalone : Bool
  name : ProcName
  args : Option (List Val) := none
  yields : Option Val := none
  cond : Option Cond := none

/-- procedure_call.go:202-205 and in_query_call_builder.go:63-66: an empty slice that is not nil gives no arguments. -/
def CallB.arguments (c : CallB) : Option Val :=
  match c.args with
  | none => some (argumentsCreate c.ka [])
  | some [] => none
  | some xs => some (argumentsCreate c.ka xs)

/-- procedure_call.go:13-35 `ProcedureCallCreate`, 45-60. -/
def procedureCall (k : Key) (name : ProcName) (args yields where_ : Option Val) : Clause :=
  match firstErr [errOf args, errOf yields, errOf where_] with
  | some e => ⟨.bad e, false⟩
  | none => ⟨{ key := k, visit := [nd k c!"CALL " c!" " false (name.visit ++ visitIfNotNull args ++ visitIfNotNull yields ++ visitIfNotNull where_)] }, false⟩

/-- procedure_call.go:195-218 `Build` and in_query_call_builder.go:62-73 `Build`: only the former returns errors beside the statement. -/
def CallB.build (c : CallB) : Except Err Clause :=
  let where_ := (builtCondition c.cond).map fun x => whereCreate c.kw x.toVal
  let call := procedureCall c.kc c.name c.arguments c.yields where_
  if c.standalone then
    match firstErr [errOf c.yields, errOf c.arguments, errOf ((builtCondition c.cond).map Cond.toVal)] with
    | some e => .error e
    | none => .ok call
  else .ok call

/-- procedure_call.go:224-226 `AsFunction`; a nil slice of arguments is an empty argument list. -/
def CallB.asFunction (c : CallB) (k kl : Key) : Outcome Val :=
  functionInvocation k kl ⟨c.name.qualified, false⟩ ((c.args.getD []).map some)

/-! ### Statements -/

/-- A value of type `Statement`.  `returns`: `doesReturnElements()`; a union always counts as returning. -/
inductive Stmt where
  /-- single_part_query.go:7-13, multi_part_query.go:3-9, procedure_call.go:3-11 -/
  | query (visit : List Tree) (err : Option Err) (returns : Bool)
  /-- union_query.go:7-14 -/
  | union (visit : List Tree) (err : Option Err) (all notNil : Bool) (queries : List Stmt)

namespace Stmt

/-- The calls made by `accept`. -/
def visit : Stmt → List Tree
  | .query v _ _ => v
  | .union v _ _ _ _ => v

/-- `GetError()`. -/
def err : Stmt → Option Err
  | .query _ e _ => e
  | .union _ e _ _ _ => e

/-- subquery.go:30-39: does the statement count as returning something? -/
def returns : Stmt → Bool
  | .query _ _ r => r
  | .union .. => true

end Stmt

/-- The statement that procedure_call.go:195-218 `Build` returns when it returns no error; 70-72 `doesReturnElements`. -/
def CallB.stmt (c : CallB) (v : Clause) : Stmt := .query v.val.visit v.val.err c.yields.isSome

/-- single_part_query.go:15-39 `SinglePartQueryCreate`, 59-64, 72-74 `doesReturnElements`; `ret`: `none` is the zero `Return`. -/
def singlePart (clauses : List Clause) (ret : Option Val) : Stmt :=
  if clauses = [] ∧ ret = none then .query [] (some (.site "single_part_query.go" 17)) false
  else if (clauses.getLast?.map (·.isMatch)) = some true ∧ ret = none then .query [] (some (.site "single_part_query.go" 21)) false
  else
    match firstErr (clauses.map (·.val.err) ++ [errOf ret]) with
    | some e => .query [] (some e) false
    | none => .query (clauses.flatMap (·.val.visit) ++ visitIfNotNull ret) none (ret.elim false (·.notNil))

/-- multipart_element.go:3-9 `MultiPartElement`. -/
structure PartV where
  key : Key
  visit : List Tree
  err : Option Err

/-- multipart_element.go:11-34 `MultiPartElementCreate`, 40-47; the WITH has no error. -/
def partCreate (k : Key) (clauses : List Clause) (with_ : Val) : PartV :=
  match firstErr (clauses.map (·.val.err) ++ [with_.err]) with
  | some e => ⟨0, [], some e⟩
  | none => ⟨k, [nd k [] [] false (clauses.flatMap (·.val.visit) ++ with_.visit)], none⟩

/-- multi_part_query.go:11-30 `MultiPartQueryCreate`, 36-41, 57-59; an error calls `MultiPartQueryError`, which calls itself until the
stack overflows. -/
def multiPart (parts : List PartV) (remainder : Stmt) : Outcome Stmt :=
  match firstErr (parts.map (·.err) ++ [remainder.err]) with
  | some _ => .panic
  | none => .ok (.query (parts.flatMap (·.visit) ++ remainder.visit) none remainder.returns)

/-- subquery.go:14-50 `SubqueryCreate`, `SubqueryCall`, 56-69, for a statement that is not nil. -/
def subqueryCall (k : Key) (s : Stmt) : Clause :=
  match s.err with
  | some e => ⟨.bad e, false⟩
  | none =>
    if !s.returns then ⟨.bad (.site "subquery.go" 41), false⟩
    else ⟨{ key := k, visit := [nd k c!"CALL {" c!"} " false s.visit] }, false⟩

/-- union_part.go:38-51: a part of a union. -/
def unionPart (k : Key) (all : Bool) (q : Stmt) : Tree := nd k (c!" UNION " ++ (if all then c!"ALL " else [])) [] false q.visit

/-- union_query.go:16-42 `UnionQueryCreate`, `unionQueryCreate1`, 64-71; `ks`: keys of the parts. -/
def unionQuery (k : Key) (ks : Nat → Key) (all : Bool) (queries : List Stmt) : Stmt :=
  match queries with
  | q :: r :: rest =>
    match firstErr (queries.map Stmt.err) with
    | some e => .union [] (some e) false false []
    | none => .union [nd k [] [] false (q.visit ++ (r :: rest).zipIdx.map fun p => unionPart (ks p.2) all p.1)] none all true queries
  | _ => .union [] (some (.site "union_query.go" 18)) false false []

/-- cypher.go:568-594 `unionImpl` (347-349 `Union`, 357-359 `UnionAll`), union_query.go:50-58 `addAdditionalQueries`, for statements
that are not nil.  Every statement is a `SingleQuery`. -/
def unionImpl (k : Key) (ks : Nat → Key) (all : Bool) (statements : List Stmt) : Stmt :=
  if statements.length < 2 then .union [] (some (.site "cypher.go" 570)) false false []
  else
    match statements with
    | .union _ _ all' notNil queries :: rest =>
      if all' ≠ all then .union [] (some (.site "cypher.go" 577)) false false []
      else if notNil then unionQuery k ks all' (queries ++ rest)
      else unionQuery k ks all rest
    | _ => unionQuery k ks all statements

end Verif
