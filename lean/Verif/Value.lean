import Verif.Renderer

/-
Values of the DSL: what the constructor functions look at in their arguments, and what they give to the renderer.

A Go value of an interface type (`Expression`, `Condition`, `Visitable`, ...) is modelled by `Val`; `Option Val` is used where
the code tests for nil (`none` is a nil interface).  Fresh objects get their key (`getAddress`) as an explicit argument.
-/

namespace Verif

/-- What type assertions and type switches of the code distinguish. -/
inductive Tag where
  | other
  | operation                        -- Operation
  | symbolicName (name : Str)        -- SymbolicName
  | asterisk                         -- Asterisk
  | propertyLookup (name : Str)      -- PropertyLookup
  | property (lookup : List Tree)    -- Property, with the calls of its lookup
  | aliased (delegate : List Tree) (alias : Str)    -- AliasedExpression, with the calls of its delegate
  | badAliased                       -- AliasedExpression with an error: its delegate is nil

/-- A value of an interface type. -/
structure Val where
  key : Key
  /-- the calls made by `accept`; for a value with an error it stands for nothing: what a struct with only
  its error set prints is not modelled (`listExpression` is the exception).  Nearly every construct refuses such a part, and comprehensions
  and `Returning` after an updating clause, which do not, are stated for parts without errors -/
  visit : List Tree
  /-- `GetError()` -/
  err : Option Err := none
  /-- `isNotNil()` -/
  notNil : Bool := true
  /-- The expression stored in the embedded `ExpressionContainer`: a copy of the value itself, made inside its constructor.
  The methods `As`, `IsEqualTo`, `Add`, ... are promoted from the container and act on this copy.  Only two components of a
  copy ever differ from the value: `isNotNil()` and `accept`.  `none`: the container is empty. -/
  copy : Option (Bool × List Tree) := none
  /-- does it implement `Condition`? -/
  isCond : Bool := false
  tag : Tag := .other

/-- A construct whose `enter` and `leave` append fixed texts. -/
def nd (k : Key) (op cl : Str) (sub : Bool) (kids : List Tree) : Tree := .node ⟨k, .plain op cl sub⟩ kids

/-- A construct without parts. -/
def leaf (k : Key) (text : Str) : Tree := nd k text [] false []

namespace Val

/-- A value built by a constructor that sets `notNil`, its key, and then its container. -/
def mk' (k : Key) (visit : List Tree) (isCond : Bool := false) (tag : Tag := .other) : Val :=
  { key := k, visit := visit, copy := some (true, visit), isCond := isCond, tag := tag }

/-- The `…Error(err)` constructors: a struct with only the error set. -/
def bad (e : Err) (isCond : Bool := false) : Val :=
  { key := 0, visit := [], err := some e, notNil := false, copy := none, isCond := isCond }

/-- The value that the methods promoted from the embedded container act on. -/
def recv (v : Val) : Option Val :=
  match v.copy with
  | some (nn, vis) => some { v with notNil := nn, visit := vis, copy := none }
  | none => none

end Val

/-- `x != nil && x.GetError() != nil` and the error. -/
def errOf (x : Option Val) : Option Err :=
  match x with
  | some v => v.err
  | none => none

/-- `x == nil || !x.isNotNil()`. -/
def missing (x : Option Val) : Bool :=
  match x with
  | some v => !v.notNil
  | none => true

/-- The error of a nil check: `if x == nil || !x.isNotNil() { return ...Error(...) }`. -/
def nilErr (x : Option Val) (e : Err) : Option Err := if missing x then some e else none

/-- The first failing check of a sequence of checks that each return. -/
def firstErr : List (Option Err) → Option Err
  | [] => none
  | some e :: _ => some e
  | none :: cs => firstErr cs

/-! ### Operators -/

/-- operator.go:64-94: the operators.  Two operators are equal exactly if they are the same variable, because their structs
contain their addresses. -/
inductive Op where
  | addition | subtraction | multiplication | division | modulo | exponentiation
  | equality | inequality | lessThan | greaterThan | lessThanOrEqual | greaterThanOrEqual
  | startsWith | endsWith | contains | and | or | xor | concat | matches | in_ | assignment | pipe
  | isNull | isNotNull | not | set | get | mutate | setLabel | removeLabel
  deriving DecidableEq, Repr

/-- operator.go:116-124 `OperatorType`. -/
inductive OpType where
  | binary | prefix | postfix | property | label
  deriving DecidableEq, Repr

/-- operator.go:64-94: the representations. -/
def Op.repr : Op → Str
  | .addition => c!"+"
  | .subtraction => c!"-"
  | .multiplication => c!"*"
  | .division => c!"/"
  | .modulo => c!"%"
  | .exponentiation => c!"^"
  | .equality => c!"="
  | .inequality => c!"<>"
  | .lessThan => c!"<"
  | .greaterThan => c!">"
  | .lessThanOrEqual => c!"<="
  | .greaterThanOrEqual => c!">="
  | .startsWith => c!"STARTS WITH"
  | .endsWith => c!"ENDS WITH"
  | .contains => c!"CONTAINS"
  | .and => c!"AND"
  | .or => c!"OR"
  | .xor => c!"XOR"
  | .concat => c!"+"
  | .matches => c!"=~"
  | .in_ => c!"IN"
  | .assignment => c!"="
  | .pipe => c!"|"
  | .isNull => c!"IS NULL"
  | .isNotNull => c!"IS NOT NULL"
  | .not => c!"NOT"
  | .set => c!"="
  | .get => c!"."
  | .mutate => c!"+="
  | .setLabel => []
  | .removeLabel => []

/-- operator.go:64-94: the types. -/
def Op.type : Op → OpType
  | .isNull | .isNotNull => .postfix
  | .not => .prefix
  | .set | .get | .mutate => .property
  | .setLabel | .removeLabel => .label
  | _ => .binary

/-- operator.go:60-62 `isUnary`. -/
def Op.isUnary (o : Op) : Bool := o.type != .binary

/-- The addresses of the operators, which are package variables: some fixed distinct keys. -/
def Op.key : Op → Key
  | .addition => 1 | .subtraction => 2 | .multiplication => 3 | .division => 4 | .modulo => 5 | .exponentiation => 6
  | .equality => 7 | .inequality => 8 | .lessThan => 9 | .greaterThan => 10 | .lessThanOrEqual => 11
  | .greaterThanOrEqual => 12 | .startsWith => 13 | .endsWith => 14 | .contains => 15 | .and => 16 | .or => 17
  | .xor => 18 | .concat => 19 | .matches => 20 | .in_ => 21 | .assignment => 22 | .pipe => 23 | .isNull => 24
  | .isNotNull => 25 | .not => 26 | .set => 27 | .get => 28 | .mutate => 29 | .setLabel => 30 | .removeLabel => 31

/-- operator.go:39-51 `Operator.enter`. -/
def Op.text (o : Op) : Str :=
  if o.type = .label then []
  else
    (if o.type ≠ .prefix ∧ o ≠ .exponentiation then c!" " else []) ++ o.repr ++
    (if o.type ≠ .postfix ∧ o ≠ .exponentiation then c!" " else [])

/-- operator.go:34-37 `Operator.accept`. -/
def Op.visit (o : Op) : Tree := leaf o.key o.text

/-! ### Operations, parentheses, comparisons -/

/-- operation.go:152-155 `needsGrouping`. -/
def needsGrouping (o : Op) : Bool :=
  (o.type != .property && o.type != .label) && (o != .exponentiation && o != .pipe)

/-- operation.go:120-138 `Operation.accept`, `enter`, `leave`; `NameOrExpression` (expressions.go:3-9) is the identity on
expressions, since no expression type implements `Named`. -/
def operationVisit (k : Key) (left : List Tree) (o : Op) (right : List Tree) : List Tree :=
  if needsGrouping o then [nd k c!"(" c!")" false (left ++ [o.visit] ++ right)]
  else [nd k [] [] false (left ++ [o.visit] ++ right)]

/-- operation.go:18-46 `OperationCreate`; operators of the package never carry an error. -/
def operationCreate (k : Key) (left : Option Val) (o : Op) (right : Option Val) : Val :=
  match left, right, firstErr [errOf left, errOf right, nilErr left (.site "operation.go" 29),
      nilErr right (.site "operation.go" 35)] with
  | _, _, some e => .bad e
  | some l, some r, none => .mk' k (operationVisit k l.visit o r.visit) false .operation
  | _, _, none => .bad (.other 0)     -- not reachable

/-- nested_expression.go:11-46 `NestedExpressionCreate`, `accept`, `enter`, `leave`. -/
def nestedCreate (k : Key) (d : Val) : Val :=
  match d.err with
  | some e => .bad e
  | none => .mk' k [nd k c!"(" c!")" false d.visit]

/-- comparison.go:127-133 `nestedIfCondition`. -/
def nestedIfCondition (k : Key) (v : Val) : Val := if v.isCond then nestedCreate k v else v

/-- comparison.go:99-101 and 103-105: an operand is visited if it is there. -/
def visitIfNotNil (v : Val) : List Tree := if v.notNil then v.visit else []

/-- comparison.go:17-45 `ComparisonCreate` and 97-113 `accept`; `kl`, `kr` are the keys of the parentheses around the operands,
if there are any.  Line 33 tests the left operand again instead of the right one. -/
def comparisonCreate (k kl kr : Key) (left : Option Val) (o : Op) (right : Option Val) : Val :=
  match left, right, firstErr [errOf left, errOf right, nilErr left (.site "comparison.go" 31),
      (if right.isNone || missing left then some (.site "comparison.go" 34) else none)] with
  | _, _, some e => .bad e true
  | some l, some r, none =>
    .mk' k [nd k [] [] false (visitIfNotNil (nestedIfCondition kl l) ++ [o.visit] ++ visitIfNotNil (nestedIfCondition kr r))] true
  | _, _, none => .bad (.other 0) true     -- not reachable

/-- comparison.go:47-81 `ComparisonCreate1`, for the unary operators `IS NULL`, `IS NOT NULL` and `NOT`. -/
def comparisonCreate1 (k kn : Key) (o : Op) (x : Option Val) : Val :=
  match x, firstErr [errOf x, (if o.isUnary then none else some (.site "comparison.go" 55)), nilErr x (.site "comparison.go" 58)] with
  | _, some e => .bad e true
  | some v, none =>
    match o.type with
    | .prefix => .mk' k [nd k [] [] false ([o.visit] ++ visitIfNotNil (nestedIfCondition kn v))] true
    | .postfix => .mk' k [nd k [] [] false (visitIfNotNil (nestedIfCondition kn v) ++ [o.visit])] true
    | _ => { key := 0, visit := [nd 0 [] [] false [leaf 0 c!"  "]], notNil := false, isCond := true }    -- comparison.go:75
  | none, none => .bad (.other 0) true     -- not reachable

end Verif
