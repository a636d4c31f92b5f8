import Verif.Methods
import Verif.Floats

/-
The constructors of expressions and what their `accept` methods send to the renderer.

`u` is the classification of characters by the `unicode` package (Text.lean).  Keys of fresh objects are arguments.
-/

namespace Verif

/-- A call either returns or panics (nil dereference) or never returns. -/
inductive Outcome (α : Type) where
  | ok (a : α)
  | panic

namespace Outcome
def map {α β : Type} (f : α → β) : Outcome α → Outcome β
  | .ok a => .ok (f a)
  | .panic => .panic
def bind {α β : Type} (x : Outcome α) (f : α → Outcome β) : Outcome β :=
  match x with
  | .ok a => f a
  | .panic => .panic
end Outcome

section
variable (u : Unicode)

/-! ### Names, properties, aliases -/

/-- symbolic_name.go:15-26 `SymbolicNameCreate` (also cypher.go:139-141 `ASymbolic`), 65-67 `enter`, cypher_renderer.go:70-79
`resolve` (the map `resolvedSymbolicNames` is never written, so it is always empty).  With an error it is a
`SymbolicName` as well. -/
def symbolicName (k : Key) (name : Str) : Val :=
  if name = [] then { Val.bad (.site "symbolic_name.go" 17) with tag := .symbolicName [] }
  else .mk' k [leaf k (escapeIfNecessary u name)] false (.symbolicName name)

/-- property_lookup.go:33-40 `PropertyLookup.enter`. -/
def lookupText (name : Str) : Str := '.' :: (if name = c!"*" then name else escapeIfNecessary u name)

/-- property_lookup.go:11-18 `PropertyLookupCreate`: `notNil` is never set. -/
def propertyLookup (k : Key) (name : Str) : Val :=
  { key := k, visit := [leaf k (lookupText u name)], notNil := false, copy := some (false, [leaf k (lookupText u name)]),
    tag := .propertyLookup name }

/-- property.go:61-65 `PropertyError`: the container is set; the lookup is the zero `PropertyLookup`. -/
def propertyError (e : Err) : Val := { Val.bad e with copy := some (false, []), tag := .property [leaf 0 (lookupText u [])] }

/-- property.go:44-59 `PropertyCreate1`; `kl`: key of the lookup.  Lookups never have an error. -/
def propertyCreate1 (k kl : Key) (container : Val) (name : Str) : Val :=
  match container.err with
  | some e => propertyError u e
  | none => .mk' k [nd k [] [] false (container.visit ++ (propertyLookup u kl name).visit)] false
      (.property (propertyLookup u kl name).visit)

/-- property.go:31-42 `PropertyCreate2` (cypher.go:85-87 `APropertyByExpression`). -/
def propertyCreate2 (k kl : Key) (container : Option Val) (name : Str) : Val :=
  match container with
  | none => propertyError u (.site "property.go" 36)
  | some c =>
    match c.err with
    | some e => propertyError u e
    | none => if name = [] then propertyError u (.site "property.go" 39) else propertyCreate1 u k kl c name

/-- alias_expression.go:16-40 `AliasedExpressionCreate`, 61-65 `accept`; called by `As` (expression_container.go:17-20). -/
def aliasedCreate (k : Key) (d : Option Val) (alias : Str) : Val :=
  match d with
  | none => { Val.bad (.site "alias_expression.go" 18) with tag := .badAliased }
  | some d =>
    if !d.notNil then { Val.bad (.site "alias_expression.go" 18) with tag := .badAliased }
    else
      match d.err with
      | some e => { Val.bad e with tag := .badAliased }
      | none =>
        if alias = [] then { Val.bad (.site "alias_expression.go" 24) with tag := .badAliased }
        else .mk' k [.node ⟨k, .aliased d.key (escapeIfNecessary u alias)⟩ d.visit] false (.aliased d.visit alias)

/-! ### Literals, parameters -/

/-- number_literal.go:15-23, 35-43, 74-76: integers. -/
def intLiteral (k : Key) (i : Int) : Val := .mk' k [leaf k (intLiteralText i)]

/-- number_literal.go:25-33, 74-76: `big.NewFloat` panics for NaN. -/
def floatLiteral (k : Key) (f : GoFloat) : Outcome Val :=
  match floatText f with
  | some t => .ok (.mk' k [leaf k t])
  | none => .panic

/-- string_literal.go:24-32, 76-78. -/
def stringLiteral (k : Key) (s : Str) : Val := .mk' k [leaf k (stringLiteralText s)]

/-- bool_literal.go:14-22, 56-58. -/
def boolLiteral (k : Key) (b : Bool) : Val := .mk' k [leaf k (boolText b)]

/-- null_literal.go:10-19, 30-32: `NIL_INSTANCE`, a package variable: some fixed key. -/
def nilLiteral : Val := .mk' 33 [leaf 33 nullText]

/-- asterisk.go:11-21, 56-58: `ASTERISK`, a package variable. -/
def asterisk : Val := .mk' 34 [leaf 34 c!"*"] false .asterisk

/-- parameter.go:16-36 `ParameterCreate`, 47-49. -/
def parameter (k : Key) (name : Str) : Val :=
  match parameterCreate name with
  | .error e => .bad e
  | .ok n => .mk' k [leaf k (parameterText n)]

/-- The errors of a list of values, in order. -/
def errsOf (xs : List Val) : Option Err := firstErr (xs.map (·.err))

/-- The calls of a list of values. -/
def visitsOf (xs : List Val) : List Tree := xs.flatMap (·.visit)

/-- list_literal.go:38-47 `accept`: separators are appended directly. -/
def listLiteralKids : List Val → List Tree
  | [] => []
  | [x] => x.visit
  | x :: y :: xs => x.visit ++ .raw c!", " :: listLiteralKids (y :: xs)

/-- list_literal.go:13-32 `ListLiteralCreate`; a nil literal among the contents would panic when rendered.  The container gets
its copy before `notNil` is set. -/
def listLiteral (k : Key) (xs : List Val) : Val :=
  match errsOf xs with
  | some e => .bad e
  | none => { key := k, visit := [nd k c!"[" c!"]" false (listLiteralKids xs)],
              copy := some (false, [nd k c!"[" c!"]" false (listLiteralKids xs)]) }

/-- What can be given to `LiteralOf` and `MapOf`. -/
inductive Obj where
  | nil
  | str (s : Str)
  | int (i : Int)
  | float (f : GoFloat)
  | bool (b : Bool)
  | literals (xs : List Val)      -- []Literal
  | expr (v : Val)                -- an Expression
  | unsupported                   -- any other type

/-- cypher.go:545-566 `LiteralOf`: for any other type it calls `StringLiteralError`, which calls itself for
ever (string_literal.go:34-36). -/
def literalOf (k : Key) : Obj → Outcome Val
  | .nil => .ok nilLiteral
  | .str s => .ok (stringLiteral k s)
  | .int i => .ok (intLiteral k i)
  | .float f => floatLiteral k f
  | .bool b => .ok (boolLiteral k b)
  | .literals xs => .ok (listLiteral k xs)
  | .expr _ => .panic
  | .unsupported => .panic

/-! ### Lists and maps -/

/-- expression_list.go:11-30 `ExpressionListCreate`, 56-68 (`PrepareVisit`: a list construct).  A nil element would panic. -/
def expressionList (k : Key) (xs : List Val) : Val :=
  match errsOf xs with
  | some e => .bad e
  | none => .mk' k [nd k [] [] true (visitsOf xs)]

/-- list_expression.go:13-34 `ListExpressionCreate`, `ListExpressionCreate1` (cypher.go:295-297 `ListOf`), 51-63.  With an error it
prints an empty list, which is seen in comprehensions: they do not check their definitions. -/
def listExpression (k kl : Key) (xs : List Val) : Val :=
  match (expressionList kl xs).err with
  | some e => { Val.bad e with visit := [nd 0 c!"[" c!"]" false [nd 0 [] [] true []]] }
  | none => .mk' k [nd k c!"[" c!"]" false (expressionList kl xs).visit]

/-- list_expression.go:36-45 `ListOrSingleExpression`: no argument gives an empty list (the error is dropped). -/
def listOrSingle (k kl : Key) : List Val → Val
  | [x] => x
  | xs => listExpression k kl xs

/-- map_expression.go:15-34 `MapExpressionCreate`, 76-90 (a list construct). -/
def mapExpression (k : Key) (xs : List Val) : Val :=
  match errsOf xs with
  | some e => .bad e
  | none => .mk' k [nd k c!"{" c!"}" true (visitsOf xs)]

/-- entry_expression.go:12-26 `EntryExpressionCreate`, 44-53, for a value that is not nil. -/
def entryExpression (k : Key) (key : Str) (value : Val) : Val :=
  match value.err with
  | some e => .bad e
  | none => .mk' k [nd k (escapeIfNecessary u key ++ c!": ") [] false value.visit]

/-- key_value_map_entry.go:12-29 `KeyValueMapEntryCreate`, 35-43, for a value that is not nil; `notNil` is never set. -/
def keyValueMapEntry (k : Key) (key : Str) (value : Val) : Val :=
  match value.err with
  | some e => .bad e
  | none =>
    { key := k, visit := [nd k (escapeIfNecessary u key ++ c!": ") [] false value.visit], notNil := false,
      copy := some (false, [nd k (escapeIfNecessary u key ++ c!": ") [] false value.visit]) }

/-- map_expression.go:62-66: the value of an entry. -/
def mapValue (k : Key) : Obj → Outcome Val
  | .expr v => .ok v
  | o => literalOf k o

/-- map_expression.go:58-72, the loop of `NewMapExpression`; `ks` gives the keys of the fresh objects (entry and literal of each
round), `known` the keys seen so far, `i` the round. -/
def mapEntries (ks : Nat → Key) (known : List Str) (i : Nat) : List Obj → Outcome (Except Err (List Val))
  | [] => .ok (.ok [])
  | [_] => .ok (.ok [])      -- not reachable
  | .str key :: value :: rest =>
    (mapValue (ks (2 * i + 1)) value).bind fun v =>
      if key ∈ known then .ok (.error (.site "map_expression.go" 68))
      else (mapEntries ks (key :: known) (i + 1) rest).map fun r => r.map (entryExpression u (ks (2 * i)) key v :: ·)
  | _ :: _ :: _ => .ok (.error (.site "map_expression.go" 61))

/-- map_expression.go:52-74 `NewMapExpression` (cypher.go:285-287 `MapOf`). -/
def newMapExpression (k : Key) (ks : Nat → Key) (objects : List Obj) : Outcome Val :=
  if objects.length % 2 ≠ 0 then .ok (.bad (.site "map_expression.go" 54))
  else (mapEntries u ks [] 0 objects).map fun
    | .error e => .bad e
    | .ok es => mapExpression k es

/-! ### Map projections -/

/-- An argument of `Project`: a string, an expression, a `Named` that is not an expression (node, relationship, path) with its
symbolic name if it has one, or something else. -/
inductive Content where
  | str (s : Str)
  | expr (v : Val)
  | named (name : Option Val)
  | other

/-- map_projection.go:96-107 `contentAt`; a named object without name stays what it is, neither string nor expression. -/
def contentAt : Content → Content
  | .named (some v) => .expr v
  | c => c

/-- map_projection.go:139-163: the entry made from `lastKey` and `lastExpression`. -/
def projectionEntry (k kl : Key) (known : List Str) (lastKey : Str) (x : Val) : Outcome (Except Err Val) :=
  let x := match x.tag with
    | .asterisk => propertyLookup u kl c!"*"
    | _ => x
  if lastKey ≠ [] then
    if lastKey ∈ known then .ok (.error (.site "map_projection.go" 146))
    else .ok (.ok (keyValueMapEntry u k lastKey x))
  else
    match x.tag with
    | .symbolicName _ => .ok (.ok x)
    | .propertyLookup _ => .ok (.ok x)
    | .property lookup => .ok (.ok { key := 0, visit := lookup, notNil := false })
    | .aliased d a => .ok (.ok { key := k, visit := [nd k (escapeIfNecessary u a ++ c!": ") [] false d], notNil := false })
    | .badAliased => .panic      -- a nil delegate: rendering panics
    | _ => .ok (.error (.site "map_projection.go" 161))

/-- map_projection.go:139-168: an entry is made and the loop goes on. -/
def addEntry (k kl : Key) (known : List Str) (lastKey : Str) (x : Val) (rest : Outcome (Except Err (List Val))) :
    Outcome (Except Err (List Val)) :=
  (projectionEntry u k kl known lastKey x).bind fun
    | .error e => .ok (.error e)
    | .ok entry =>
      match entry.err with
      | some e => .ok (.error e)
      | none => rest.map fun r => r.map (entry :: ·)

/-- map_projection.go:115-170, the loop of `createNewContent`, over the contents given by `contentAt`; `known` are the keys seen,
`i` the round. -/
def contentLoop (ks : Nat → Key) (known : List Str) (i : Nat) : List Content → Outcome (Except Err (List Val))
  | [] => .ok (.ok [])
  | .str s :: .expr v :: cs =>
    addEntry u (ks (2 * i)) (ks (2 * i + 1)) known s v (contentLoop ks (if s = [] then known else s :: known) (i + 1) cs)
  | .str s :: cs => addEntry u (ks (2 * i)) (ks (2 * i + 1)) known [] (propertyLookup u (ks (2 * i + 1)) s) (contentLoop ks known (i + 1) cs)
  | .expr v :: cs => addEntry u (ks (2 * i)) (ks (2 * i + 1)) known [] v (contentLoop ks known (i + 1) cs)
  | _ :: _ => .ok (.error (.site "map_projection.go" 159))

/-- map_projection.go:109-172 `createNewContent`. -/
def createNewContent (ks : Nat → Key) (content : List Content) : Outcome (Except Err (List Val)) :=
  contentLoop u ks [] 0 (content.map contentAt)

/-- A `MapProjection`: the entries are kept for `And`. -/
structure Projection where
  name : Val
  entries : List Val
  val : Val

/-- map_projection.go:60-71 `accept`. -/
def projectionVal (k km : Key) (name : Val) (entries : List Val) : Val :=
  .mk' k [nd k [] [] false (name.visit ++ (mapExpression km entries).visit)]

/-- map_projection.go:17-33 `MapProjectionCreate`. -/
def mapProjectionCreate (k km : Key) (ks : Nat → Key) (name : Val) (content : List Content) : Outcome Projection :=
  match name.err with
  | some e => .ok ⟨name, [], .bad e⟩
  | none => (createNewContent u ks content).map fun
    | .error e => ⟨name, [], .bad e⟩
    | .ok es => ⟨name, es, projectionVal k km name es⟩

/-- map_projection.go:85-94 `And`, 35-50 `MapProjectionCreateWithMapExpression`. -/
def mapProjectionAnd (p : Projection) (k km : Key) (ks : Nat → Key) (content : List Content) : Outcome Projection :=
  match p.val.err with
  | some _ => .ok p
  | none => (createNewContent u ks content).map fun
    | .error e => ⟨p.name, [], .bad e⟩
    | .ok es =>
      match (mapExpression km (p.entries ++ es)).err with
      | some e => ⟨p.name, [], .bad e⟩
      | none => ⟨p.name, p.entries ++ es, projectionVal k km p.name (p.entries ++ es)⟩

end

/-! ### List operators -/

/-- list_operator.go:166-176, 202-212: `DOTS`, a package variable. -/
def dots : Tree := leaf 35 c!".."

/-- visitable.go:3-8 `VisitIfNotNull`. -/
def visitIfNotNull : Option Val → List Tree
  | some v => if v.notNil then v.visit else []
  | none => []

/-- list_operator.go:14-23 `listOperatorCreate`, 132-143, 225-260; `kd`: key of the details. -/
def listOperatorCreate (k kd : Key) (target : Val) (start : Option Val) (withDots : Bool) (stop : Option Val) : Val :=
  .mk' k [nd k [] [] false (target.visit ++
    [nd kd c!"[" c!"]" false (visitIfNotNull start ++ (if withDots then [dots] else []) ++ visitIfNotNull stop)])]

/-- list_operator.go:37-57 `SubList`. -/
def subList (k kd : Key) (target start stop : Option Val) : Val :=
  match target, firstErr [errOf target, errOf start, errOf stop, nilErr target (.site "list_operator.go" 48),
      nilErr start (.site "list_operator.go" 51), nilErr stop (.site "list_operator.go" 54)] with
  | _, some e => .bad e
  | some t, none => listOperatorCreate k kd t start true stop
  | none, none => .bad (.other 0)     -- not reachable

/-- list_operator.go:66-80 `SubListFrom`. -/
def subListFrom (k kd : Key) (target start : Option Val) : Val :=
  match target, firstErr [errOf target, errOf start, nilErr target (.site "list_operator.go" 74),
      nilErr start (.site "list_operator.go" 77)] with
  | _, some e => .bad e
  | some t, none => listOperatorCreate k kd t start true none
  | none, none => .bad (.other 0)     -- not reachable

/-- list_operator.go:89-103 `SubListUntil`. -/
def subListUntil (k kd : Key) (target stop : Option Val) : Val :=
  match target, firstErr [errOf target, errOf stop, nilErr target (.site "list_operator.go" 97),
      nilErr stop (.site "list_operator.go" 100)] with
  | _, some e => .bad e
  | some t, none => listOperatorCreate k kd t none true stop
  | none, none => .bad (.other 0)     -- not reachable

/-- list_operator.go:112-126 `ValueAt`. -/
def valueAt (k kd : Key) (target index : Option Val) : Val :=
  match target, firstErr [errOf target, errOf index, nilErr target (.site "list_operator.go" 120),
      nilErr index (.site "list_operator.go" 123)] with
  | _, some e => .bad e
  | some t, none => listOperatorCreate k kd t index false none
  | none, none => .bad (.other 0)     -- not reachable

/-! ### CASE -/

/-- case.go:3-12 `Case`.  Branches carry the key of their `CaseWhenThen`.  `generic`: the case type is one of the generic ones.
Slices are lists here; what sharing them does is in CaseMem.lean. -/
structure CaseV where
  key : Key
  subject : Option Val
  whens : List (Key × Val × Val)
  els : Option (Key × Val)
  generic : Bool
  err : Option Err
  notNil : Bool

namespace CaseV

/-- `Case{err: err}`. -/
def bad (e : Err) : CaseV := ⟨0, none, [], none, false, some e, false⟩

/-- case.go:39-52 `SimpleCaseCreate1` (cypher.go:426-428 `CaseExpression`). -/
def simple (k : Key) (subject : Option Val) : CaseV :=
  match errOf subject with
  | some e => bad e
  | none => ⟨k, subject, [], none, false, none, true⟩

/-- case.go:74-83 `GenericCaseCreate1` (cypher.go:418-420 `GenericCaseExpression`). -/
def start (k : Key) : CaseV := ⟨k, none, [], none, true, none, true⟩

/-- case.go:54-72 `EndingSimpleCaseCreate`, 101-115 `EndingGenericCaseCreate`, chosen as in 212-216; `bad` is the error of the
last branch. -/
def ending (k : Key) (subject : Option Val) (whens : List (Key × Val × Val)) (bad' : Option Err) : CaseV :=
  match subject with
  | some s =>
    if s.notNil then
      match s.err with
      | some e => bad e
      | none =>
        match bad' with
        | some e => bad e
        | none => ⟨k, subject, whens, none, false, none, true⟩
    else
      match bad' with
      | some e => bad e
      | none => ⟨k, none, whens, none, true, none, true⟩
  | none =>
    match bad' with
    | some e => bad e
    | none => ⟨k, none, whens, none, true, none, true⟩

/-- `c.When(w).Then(t)`: case.go:117-119, 202-217, 229-243, for values that are not nil (nil values panic when rendered).  A
`When` with an error loses its case instance, so `Then` panics.  The error and the ELSE of `c` are not looked at. -/
def whenThen (c : CaseV) (k kw : Key) (w t : Val) : Outcome CaseV :=
  match w.err with
  | some _ => .panic
  | none => .ok (ending k c.subject (c.whens ++ [(kw, w, t)]) t.err)

/-- case.go:167-175 `ElseDefault`, 284-291. -/
def elseDefault (c : CaseV) (ke : Key) (d : Val) : CaseV :=
  match d.err with
  | some e => bad e
  | none => { c with els := some (ke, d) }

/-- case.go:253-266: `leave` is called before the THEN expression is visited. -/
def branchVisit (b : Key × Val × Val) : List Tree := nd b.1 c!" WHEN " c!" THEN " false b.2.1.visit :: b.2.2.visit

/-- case.go:297-308. -/
def elseVisit : Option (Key × Val) → List Tree
  | some (k, d) => [nd k c!" ELSE " [] false d.visit]
  | none => []

/-- case.go:125-149 `accept`, `enter`, `leave`. -/
def visit (c : CaseV) : List Tree :=
  [nd c.key (if c.generic then c!"CASE" else c!"CASE ") c!" END" false
    (visitIfNotNull c.subject ++ c.whens.flatMap branchVisit ++ elseVisit c.els)]

/-- The case as a value (a `Condition`).  `ElseDefault` fills the container of a case with an error too (case.go:173). -/
def toVal (c : CaseV) : Val :=
  { key := c.key, visit := c.visit, err := c.err, notNil := c.notNil,
    copy := if c.err.isSome && c.els.isNone then none else some (c.notNil, c.visit), isCond := true }

end CaseV

/-! ### Functions -/

/-- built_in_function.go: a function definition. -/
structure FnDef where
  name : Str
  aggregate : Bool

/-- function_invocation.go:158-165, visitable_list.go:10-14, 36-48 (a list construct): a call with the given arguments. -/
def invocation (k ka : Key) (name : Str) (args : List Tree) : Val :=
  .mk' k [nd k (name ++ c!"(") c!")" false [nd ka [] [] true args]]

/-- The loops `for _, expression := range expressions { if expression.GetError() != nil { return ... } }`. -/
def scanArgs : List (Option Val) → Outcome (Except Err (List Val))
  | [] => .ok (.ok [])
  | none :: _ => .panic
  | some v :: xs =>
    match v.err with
    | some e => .ok (.error e)
    | none => (scanArgs xs).map fun r => r.map (v :: ·)

/-- function_invocation.go:42-65 `FunctionInvocationCreate`. -/
def functionInvocation (k ka : Key) (d : FnDef) (xs : List (Option Val)) : Outcome Val :=
  (scanArgs xs).map fun
    | .error e => .bad e
    | .ok [] => .bad (.site "function_invocation.go" 51)
    | .ok (v :: vs) =>
      if v.notNil then invocation k ka d.name (visitsOf (v :: vs)) else .bad (.site "function_invocation.go" 51)

/-- function_invocation.go:107-136 `FunctionInvocationCreateDistinct`; the `DistinctExpression` (distinct_expression.go:36-44) and
the `Distinct` inside it have no key. -/
def functionInvocationDistinct (k ka : Key) (d : FnDef) (xs : List (Option Val)) : Outcome Val :=
  (scanArgs xs).map fun
    | .error e => .bad e
    | .ok vs =>
      if !d.aggregate then .bad (.site "function_invocation.go" 116)
      else
        match vs with
        | [] => .bad (.site "function_invocation.go" 119)
        | v :: vs =>
          if v.notNil then invocation k ka d.name (nd 0 [] [] false (leaf 0 c!"DISTINCT " :: v.visit) :: visitsOf vs)
          else .bad (.site "function_invocation.go" 119)

/-- function_invocation.go:67-84 `FunctionInvocationCreateWithPatternElement`. -/
def functionInvocationPattern (k ka : Key) (d : FnDef) (p : Option Val) : Val :=
  match firstErr [errOf p, nilErr p (.site "function_invocation.go" 72)] with
  | some e => .bad e
  | none => invocation k ka d.name (p.elim [] Val.visit)     -- `none` is an error above

/-- function_invocation.go:16-40 `FunctionInvocationCreate1`: passes one nil argument, whose `GetError` is called. -/
def functionInvocation0 (_k _ka : Key) (_d : FnDef) : Outcome Val := .panic

/-- built_in_function.go:15-130: the definitions. -/
def fnAll : FnDef := ⟨c!"all", false⟩
def fnAny : FnDef := ⟨c!"any", false⟩
def fnExists : FnDef := ⟨c!"exists", false⟩
def fnNone : FnDef := ⟨c!"none", false⟩
def fnSingle : FnDef := ⟨c!"single", false⟩
def fnCoalesce : FnDef := ⟨c!"coalesce", false⟩
def fnEndNode : FnDef := ⟨c!"endNode", false⟩
def fnHead : FnDef := ⟨c!"head", false⟩
def fnId : FnDef := ⟨c!"id", false⟩
def fnLast : FnDef := ⟨c!"last", false⟩
def fnProperties : FnDef := ⟨c!"properties", false⟩
def fnShortestPath : FnDef := ⟨c!"shortestPath", false⟩
def fnSize : FnDef := ⟨c!"size", false⟩
def fnStartNode : FnDef := ⟨c!"startNode", false⟩
def fnType : FnDef := ⟨c!"type", false⟩
def fnToLower : FnDef := ⟨c!"toLower", false⟩
def fnPoint : FnDef := ⟨c!"point", false⟩
def fnDistance : FnDef := ⟨c!"distance", false⟩
def fnAvg : FnDef := ⟨c!"avg", true⟩
def fnCollect : FnDef := ⟨c!"collect", true⟩
def fnCount : FnDef := ⟨c!"count", true⟩
def fnMax : FnDef := ⟨c!"max", true⟩
def fnMin : FnDef := ⟨c!"min", true⟩
def fnPercentileCont : FnDef := ⟨c!"percentileCont", true⟩
def fnPercentileDisc : FnDef := ⟨c!"percentileDisc", true⟩
def fnStDev : FnDef := ⟨c!"stDev", true⟩
def fnStDevP : FnDef := ⟨c!"stDevP", true⟩
def fnSum : FnDef := ⟨c!"sum", true⟩
def fnLabels : FnDef := ⟨c!"labels", false⟩
def fnNodes : FnDef := ⟨c!"nodes", false⟩
def fnRange : FnDef := ⟨c!"range", false⟩
def fnRelationships : FnDef := ⟨c!"relationships", false⟩
def fnDate : FnDef := ⟨c!"date", false⟩
def fnDatetime : FnDef := ⟨c!"datetime", false⟩
def fnLocaldatetime : FnDef := ⟨c!"localdatetime", false⟩
def fnLocaltime : FnDef := ⟨c!"localtime", false⟩
def fnTime : FnDef := ⟨c!"time", false⟩
def fnDuration : FnDef := ⟨c!"duration", false⟩

/-- functions.go: the functions with one argument that is an expression. -/
inductive Fn1 where
  | countByExpression | countDistinctByExpression | propertiesByMapExpression | toLower | size | exists_ | point | pointByParameter
  | avg | avgDistinct | collect | collectDistinct | max | maxDistinct | min | minDistinct | stDev | stDevDistinct
  | stDevP | stDevPDistinct | sum | sumDistinct | head | last
  | dateWithComponents | dateWithExpression | dateTimeWithComponents | dateTimeWithExpression
  | localDateTimeWithComponents | localDateTimeWithExpression | localTimeWithComponents | localTimeWithExpression
  | timeWithComponents | timeWithExpression | durationWithComponents | durationWithExpression
  deriving DecidableEq, Repr

/-- functions.go: which definition each of them passes on, and if to `FunctionInvocationCreateDistinct`.  (What some of them check
before is checked again by `FunctionInvocationCreate`, up to the text of the error.) -/
def Fn1.def' : Fn1 → FnDef × Bool
  | .countByExpression => (fnCount, false)                     -- 52-54
  | .countDistinctByExpression => (fnCount, true)              -- 60-62
  | .propertiesByMapExpression => (fnProperties, false)        -- 84-86
  | .toLower => (fnToLower, false)                             -- 92-94
  | .size => (fnSize, false)                                   -- 96-98
  | .exists_ => (fnExists, false)                              -- 104-106
  | .point => (fnPoint, false)                                 -- 124-129
  | .pointByParameter => (fnPoint, false)                      -- 131-136
  | .avg => (fnAvg, false)                                     -- 138-143
  | .avgDistinct => (fnAvg, true)                              -- 145-150
  | .collect => (fnCollect, false)                             -- 179-184
  | .collectDistinct => (fnAvg, true)                          -- 193-198
  | .max => (fnMax, false)                                     -- 207-212
  | .maxDistinct => (fnMax, true)                              -- 221-226
  | .min => (fnMin, false)                                     -- 235-240
  | .minDistinct => (fnMin, true)                              -- 249-254
  | .stDev => (fnStDev, false)                                 -- 347-352
  | .stDevDistinct => (fnStDev, true)                          -- 361-366
  | .stDevP => (fnStDevP, false)                               -- 375-380
  | .stDevPDistinct => (fnStDevP, true)                        -- 389-394
  | .sum => (fnSum, false)                                     -- 403-408
  | .sumDistinct => (fnSum, true)                              -- 417-422
  | .head => (fnHead, false)                                   -- 497-502
  | .last => (fnLast, false)                                   -- 511-516
  | .dateWithComponents => (fnDate, false)                     -- 682-690
  | .dateWithExpression => (fnDate, false)                     -- 717-725
  | .dateTimeWithComponents => (fnDatetime, false)             -- 747-755
  | .dateTimeWithExpression => (fnDatetime, false)             -- 782-790
  | .localDateTimeWithComponents => (fnLocaldatetime, false)   -- 827-835
  | .localDateTimeWithExpression => (fnLocaldatetime, false)   -- 862-870
  | .localTimeWithComponents => (fnLocaltime, false)           -- 906-914
  | .localTimeWithExpression => (fnLocaltime, false)           -- 941-949
  | .timeWithComponents => (fnTime, false)                     -- 986-994
  | .timeWithExpression => (fnTime, false)                     -- 1021-1029
  | .durationWithComponents => (fnDuration, false)             -- 1040-1048
  | .durationWithExpression => (fnDuration, false)             -- 1075-1083

/-- functions.go: the functions with one argument that is an expression. -/
def fn1 (f : Fn1) (k ka : Key) (x : Option Val) : Outcome Val :=
  if f.def'.2 then functionInvocationDistinct k ka f.def'.1 [x] else functionInvocation k ka f.def'.1 [x]

/-- functions.go:88-90 `Coalesce`. -/
def coalesce (k ka : Key) (xs : List (Option Val)) : Outcome Val := functionInvocation k ka fnCoalesce xs

/-- functions.go:108-122 `Distance`. -/
def distance (k ka : Key) (a b : Option Val) : Outcome Val :=
  match firstErr [errOf a, errOf b, nilErr a (.site "functions.go" 116), nilErr b (.site "functions.go" 119)] with
  | some e => .ok (.bad e)
  | none => functionInvocation k ka fnDistance [a, b]

/-- functions.go:264-338: `PercentileCont`, `PercentileContDistinct`, `PercentileDisc`, `PercentileDiscDistinct`; `kl` is the key of the
number literal. -/
def percentile (disc distinct : Bool) (k ka kl : Key) (x : Option Val) (f : GoFloat) : Outcome Val :=
  match firstErr [errOf x, nilErr x (.site "functions.go" 269), if f.negative || f.aboveOne then some (.site "functions.go" 272) else none] with
  | some e => .ok (.bad e)
  | none =>
    let d := if disc then fnPercentileDisc else fnPercentileCont
    (floatLiteral kl f).bind fun p =>
      if distinct then functionInvocationDistinct k ka d [x, some p] else functionInvocation k ka d [x, some p]

/-- functions.go:467-488 `RangeWithStep`; 440-442 `Range` is the case of no step. -/
def rangeWithStep (k ka : Key) (start stop step : Option Val) : Outcome Val :=
  match firstErr [errOf start, errOf stop, errOf step, nilErr start (.site "functions.go" 478),
      nilErr stop (.site "functions.go" 481)] with
  | some e => .ok (.bad e)
  | none =>
    if missing step then functionInvocation k ka fnRange [start, stop]
    else functionInvocation k ka fnRange [start, stop, step]

/-- functions.go: the functions without arguments. -/
inductive Fn0 where
  | date | datetime | localDatetime | localtime | time
  deriving DecidableEq, Repr

/-- functions.go:614-616, 734-736, 799-801, 879-881, 958-960. -/
def fn0 (f : Fn0) (k ka : Key) : Outcome Val :=
  match f with
  | .date => functionInvocation0 k ka fnDate
  | .datetime => functionInvocation k ka fnDatetime []
  | .localDatetime => functionInvocation k ka fnLocaldatetime []
  | .localtime => functionInvocation k ka fnLocaltime []
  | .time => functionInvocation k ka fnTime []

/-- expression_container.go:135-138 `IsEmpty`. -/
def isEmpty (kf ka kn k kl kr : Key) (e : Option Val) : Outcome Val :=
  (fn1 .size kf ka e).map fun f => compare .isEqualTo k kl kr (some f) (some (intLiteral kn 0))

/-- expression_container.go:52-58 `IsTrue`, `IsFalse`. -/
def isTrue (b : Bool) (kb k kl kr : Key) (e : Option Val) : Val := compare .isEqualTo k kl kr e (some (boolLiteral kb b))

/-- expression_container.go:65-68 `MatchesPattern`. -/
def matchesPattern (ks k kl kr : Key) (e : Option Val) (pattern : Str) : Val :=
  compare .matches k kl kr e (some (stringLiteral ks pattern))

/-! ### Conditions around expressions and patterns, comprehensions, list predicates -/

/-- boolean_function_condition.go:11-19 `BooleanFunctionConditionCreate`, 32-34: the key of the condition itself is never seen by
the renderer.  An invocation with an error is taken for one without name and arguments. -/
def booleanFunction (k : Key) (d : Val) : Val :=
  .mk' k (if d.err.isSome then [nd 0 c!"(" c!")" false [nd 0 [] [] true []]] else d.visit) true

/-- predicates.go:5-7 `PredicateExists`. -/
def predicateExists (k kf ka : Key) (property : Val) : Outcome Val :=
  (functionInvocation kf ka fnExists [some property]).map (booleanFunction k)

/-- predicates.go:9-11 `PredicateExistsByPattern`. -/
def predicateExistsByPattern (k kf ka : Key) (pattern : Val) : Val :=
  booleanFunction k (functionInvocationPattern kf ka fnExists (some pattern))

/-- where.go:10-20 `WhereCreate`, 40-51; a nil condition would panic when rendered. -/
def whereCreate (k : Key) (c : Val) : Val :=
  match c.err with
  | some e => .bad e
  | none => { key := k, visit := [nd k c!" WHERE " [] false c.visit] }

/-- The zero `SymbolicName`, which prints the random identifier of the renderer (cypher_renderer.go:70-79). -/
def zeroName (guid : Str) : Val := { key := 0, visit := [leaf 0 guid], notNil := false }

/-- list_predicate.go:13-32 `ListPredicateCreate`, 42-49; in lines 18 and 21 the error put into the result is the one of the
variable, which is nil there. -/
def listPredicate (k : Key) (x list where_ : Val) : Val :=
  match x.err with
  | some e => .bad e
  | none =>
    if list.err.isSome || where_.err.isSome then { key := 0, visit := [], notNil := false }
    else .mk' k [nd k [] [] false (x.visit ++ [Op.in_.visit] ++ list.visit ++ where_.visit)]

/-- The quantifiers of predicates.go:13-43. -/
inductive Quantifier where
  | all | any | none | single
  deriving DecidableEq, Repr

/-- predicates.go:13-43. -/
def Quantifier.def' : Quantifier → FnDef
  | .all => fnAll           -- 17-19
  | .any => fnAny           -- 25-27
  | .none => fnNone         -- 33-35
  | .single => fnSingle     -- 41-43

/-- `PredicateAll(variable).In(list).Where(condition)` and its siblings: predicates.go:13-85.  If the variable is missing the
builder forgets the predicate and prints no name; if the list is missing rendering panics. -/
def quantified (guid : Str) (q : Quantifier) (k kf ka kp kw : Key) (x list c : Option Val) : Outcome Val :=
  match c with
  | some c =>
    if !c.notNil then .ok (.bad (.site "predicates.go" 82) true)
    else
      match list with
      | some l =>
        if !l.notNil then .panic
        else
          let d : FnDef := if missing x then ⟨[], false⟩ else q.def'
          let v := match x with | some v => if v.notNil then v else zeroName guid | none => zeroName guid
          (functionInvocation kf ka d [some (listPredicate kp v l (whereCreate kw c))]).map (booleanFunction k)
      | none => .panic
  | none => .ok (.bad (.site "predicates.go" 82) true)

/-- list_comprehension.go:16-30 `ListComprehensionCreate`, 49-68, for a list that is not nil. -/
def listComprehensionCreate (k : Key) (x list : Val) (where_ definition : Option Val) : Val :=
  match x.err with
  | some e => .bad e
  | none => .mk' k [nd k c!"[" c!"]" false (x.visit ++ [Op.in_.visit] ++ list.visit ++ visitIfNotNull where_ ++
      (match definition with | some d => Op.pipe.visit :: d.visit | none => []))]

/-- `CypherListWith(x).In(list)[.Where(c)].Returning(definition...)`, or `.ReturningDefault()` if `definition` is `none`:
list_comprehension.go:104-131, cypher.go:401-403 `CypherListWith`. -/
def listWith (k kw kl kc : Key) (x list : Val) (c : Option Val) (definition : Option (List Val)) : Val :=
  listComprehensionCreate k x list (c.map (whereCreate kw)) (definition.map (listOrSingle kl kc))

/-- The same with `ListComprehensionWith(x)`, list_comprehension.go:38-43: a missing variable is forgotten by the builder. -/
def listComprehensionWith (guid : Str) (k kw kl kc : Key) (x list : Val) (c : Option Val) (definition : Option (List Val)) : Val :=
  listWith k kw kl kc (if x.notNil then x else zeroName guid) list c definition

/-- pattern_comprehension.go:15-25 `PatternComprehensionCreate`, 49-64: errors of the parts are not looked at. -/
def patternComprehensionCreate (k : Key) (pattern : Val) (where_ : Option Val) (definition : Val) : Val :=
  .mk' k [nd k c!"[" c!"]" false (pattern.visit ++ visitIfNotNull where_ ++ [Op.pipe.visit] ++ definition.visit)]

/-- condition_builder.go:23-36 `hasCondition`, `buildCondition`. -/
def builtCondition : Option Cond → Option Cond
  | some c => if c.toVal.notNil && c.hasCondition then some c else none
  | none => none

/-- `PatternComprehensionBasedOn(pattern)` with the condition collected by `Where`, `And`, `Or`, and `.Returning(definition...)`:
pattern_comprehension.go:31-43, 124-161.  A missing pattern is forgotten by the builder, and rendering panics. -/
def patternComprehension (k kw kl kc : Key) (pattern : Val) (c : Option Cond) (definition : List Val) : Outcome Val :=
  if !pattern.notNil then .panic
  else .ok (patternComprehensionCreate k pattern ((builtCondition c).map fun c => whereCreate kw c.toVal) (listOrSingle kl kc definition))

/-- excluded_pattern.go:11-22 `ExcludedPatternCreate`, 34-45 (conditions.go:5-7 `ConditionsNotByPattern`). -/
def excludedPattern (k : Key) (pattern : Val) : Val :=
  match pattern.err with
  | some e => .bad e true
  | none => .mk' k [nd k [] [] false (Op.not.visit :: pattern.visit)] true

/-- relationship_pattern_condition.go:11-22, 42-52. -/
def patternCondition (k : Key) (pattern : Val) : Val :=
  match pattern.err with
  | some e => .bad e true
  | none => .mk' k [nd k [] [] false pattern.visit] true

/-- constant_condition.go:11-25, 35-47: `TRUE_CONDITION`, `FALSE_CONDITION` are package variables, as are `TRUE` and `FALSE`. -/
def constantCondition (b : Bool) : Val :=
  if b then .mk' 36 [nd 36 [] [] false [leaf 38 (boolText true)]] true
  else .mk' 37 [nd 37 [] [] false [leaf 39 (boolText false)]] true

/-- existential_subquery.go:11-22, 38-50. -/
def existentialSubquery (k : Key) (fragment : Val) : Val :=
  match fragment.err with
  | some e => .bad e true
  | none => .mk' k [nd k c!"EXISTS {" c!"}" false fragment.visit] true

end Verif
