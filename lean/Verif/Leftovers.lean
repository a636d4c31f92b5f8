import Verif.Patterns

/-
Exported constructors that no method of the package uses.
-/

namespace Verif

/-- distinct_expression.go:11-22 `DistinctExpressionCreate`, 36-50, for an expression that is not nil; distinct.go:28-36: `IsDistinct`
is not looked at, and the key is empty. -/
def distinctExpression (k : Key) (x : Val) : Val :=
  match x.err with
  | some e => .bad e
  | none => .mk' k [nd k [] [] false (leaf 0 c!"DISTINCT " :: x.visit)]

/-- raw_string_literal.go:11-19 `RawStringLiteralCreate`, 50-57. -/
def rawStringLiteral (k : Key) (s : Str) : Val := .mk' k [leaf k s]

/-- node.go:230-244 `NodeLabel`, `NodeLabelCreate`: labels have no error; `none`: the zero label. -/
abbrev LabelArg := Option (Key × Str)

/-- operation.go:48-76 `OperationCreate1`: an operand is refused if it counts as not nil.  `o`: `none` for the zero operator, which has no type and
no text; operator.go:39-51 puts blanks around it.  What the zero label prints is nothing (node.go:267-270). -/
def operationCreate1 (k : Key) (left : Option Val) (o : Option Op) (right : LabelArg) : Val :=
  match left with
  | none => .bad (.site "operation.go" 59)
  | some l =>
    match l.err with
    | some e => .bad e
    | none =>
      if l.notNil then .bad (.site "operation.go" 59)
      else if o.isSome then .bad (.site "operation.go" 62)
      else if right.isSome then .bad (.site "operation.go" 65)
      else .mk' k [nd k c!"(" c!")" false (l.visit ++ [leaf 0 c!"  ", leaf 0 []])] false .operation

/-- has_label_condition.go:38-56 `HasLabelConditionCreate1`, 68-75; `name`: a symbolic name. -/
def hasLabelCondition1 (k : Key) (name : Val) (labels : List (Key × Str)) : Val :=
  match name.err with
  | some e => .bad e true
  | none =>
    if !name.notNil then .bad (.site "has_label_condition.go" 43) true
    else if labels = [] then .bad (.site "has_label_condition.go" 46) true
    else .mk' k [nd k [] [] false (name.visit ++ labels.map labelVisit)] true

/-- map_expression.go:7-13 `MapExpression`: its contents; or an error, and then it has no contents (31-35). -/
abbrev MapV := Except Err (List Val)

/-- map_expression.go:15-29 `MapExpressionCreate`, for contents that are not nil. -/
def MapV.create (xs : List Val) : MapV :=
  match errsOf xs with
  | some e => .error e
  | none => .ok xs

/-- The map as a value, 76-90. -/
def MapV.toVal (k : Key) : MapV → Val
  | .error e => .bad e
  | .ok xs => .mk' k [nd k c!"{" c!"}" true (visitsOf xs)]

/-- map_expression.go:92-101 `AddEntries`: the error of the map is not looked at, and keys are not compared. -/
def MapV.addEntries (m : MapV) (xs : List Val) : MapV :=
  .create ((match m with | .ok ys => ys | .error _ => []) ++ xs)

/-- alias_expression.go:7-14 `AliasedExpression`: the expression (`none`: nil), the alias, the error. -/
structure AliasedV where
  delegate : Option Val := none
  alias : Str := []
  err : Option Err := none

/-- alias_expression.go:16-34 `AliasedExpressionCreate`. -/
def AliasedV.create (d : Option Val) (alias : Str) : AliasedV :=
  match d with
  | none => { err := some (.site "alias_expression.go" 18) }
  | some x =>
    if !x.notNil then { err := some (.site "alias_expression.go" 18) }
    else
      match x.err with
      | some e => { err := some e }
      | none => if alias = [] then { err := some (.site "alias_expression.go" 24) } else { delegate := some x, alias := alias }

/-- alias_expression.go:54-59 `Aliased`. -/
def AliasedV.aliased (a : AliasedV) (alias : Str) : AliasedV :=
  if alias = [] then { err := some (.site "alias_expression.go" 56) } else .create a.delegate alias

/-- The aliased expression as a value, 61-82. -/
def AliasedV.toVal (u : Unicode) (k : Key) (a : AliasedV) : Val :=
  match a.err with
  | some e => { Val.bad e with tag := .badAliased }
  | none =>
    match a.delegate with
    | some d => .mk' k [.node ⟨k, .aliased d.key (escapeIfNecessary u a.alias)⟩ d.visit] false (.aliased d.visit a.alias)
    | none => .bad (.other 0)      -- not reachable

/-- alias_expression.go:88-90 `AsName`. -/
def AliasedV.asName (u : Unicode) (k : Key) (a : AliasedV) : Val := symbolicName u k a.alias

/-- function_invocation.go:86-104 `FunctionInvocationCreateWithPattern`, of a pattern made by pattern.go:10-22 `PatternCreate` (elements that are
not nil); `none`: the zero pattern. -/
def functionInvocationPatterns (k ka : Key) (d : FnDef) (p : Option (List Val)) : Val :=
  match p with
  | none => .bad (.site "function_invocation.go" 91)
  | some xs =>
    match errsOf xs with
    | some e => .bad e
    | none => invocation k ka d.name (visitsOf xs)

end Verif
