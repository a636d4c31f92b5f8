import Verif.Value

/-
Conditions and how they are combined: compound_condition.go, condition_container.go, conditions.go.
-/

namespace Verif

/-- A value of type `Condition`. -/
inductive Cond where
  /-- any condition that is not a `CompoundCondition`, and not one of the next case -/
  | atom (v : Val)
  /-- the `Comparison` that `Not()` creates (condition_container.go:52-55), with key `k`, around a condition; `kn` is the key of
  the `NestedExpression` -/
  | neg (k kn : Key) (c : Cond)
  /-- compound_condition.go:8-16 `CompoundCondition`.  `op`: `none` is the zero `Operator`; `isEmpty`: `conditionType` is
  `EMPTY_CONDITION_EXPRESSION`; `copy`: the conditions of the copy inside the embedded container, if there is one. -/
  | compound (k : Key) (op : Option Op) (conds : List Cond) (isEmpty : Bool) (err : Option Err) (notNil : Bool)
      (hasCopy : Bool) (copy : List Cond)

namespace Cond

/-- compound_condition.go:140-144 `EMPTY_CONDITION`. -/
def empty : Cond := .compound 0 none [] true none true false []

/-- compound_condition.go:65-69 `CompoundConditionError`. -/
def bad (e : Err) : Cond := .compound 0 none [] false (some e) false false []

/-- compound_condition.go:54-63 `CompoundConditionCreate1`, with conditions appended afterwards (lines 151 and 164-165): the
container keeps the copy without conditions. -/
def wrapped (k : Key) (h : Op) (conds : List Cond) : Cond := .compound k (some h) conds false none true true []

/-- Type assertion `.(CompoundCondition)`. -/
def isCompound : Cond → Bool
  | .compound .. => true
  | _ => false

/-- compound_condition.go:95-101: the operator printed before a condition that is not the first one of a compound with
operator `op`. -/
def actualOp (op : Option Op) : Cond → Option Op
  | .compound _ o .. => o
  | _ => op

/-- compound_condition.go:192-195: the operator is visited if it is not the zero operator. -/
def opVisit : Option Op → List Tree
  | some o => [o.visit]
  | none => []

/-- compound_condition.go:83-114 `accept`, `enter`, `leave`, given the calls made for the list of conditions. -/
def compoundVisit (k : Key) (many : Bool) (kids : List Tree) : List Tree :=
  if many then [nd k c!"(" c!")" false kids] else kids

mutual
/-- A condition as a value. -/
def toVal : Cond → Val
  | .atom v => v
  | .neg k kn c => comparisonCreate1 k kn .not (some c.toVal)
  | .compound k op conds _ err nn hasCopy cp =>
    { key := k, visit := compoundVisit k (conds.length > 1) (visits op true conds), err := err, notNil := nn,
      copy := if hasCopy then some (nn, compoundVisit k (cp.length > 1) (visits op true cp)) else none, isCond := true }
/-- compound_condition.go:91-103: the conditions with the operators between them. -/
def visits (op : Option Op) (first : Bool) : List Cond → List Tree
  | [] => []
  | c :: cs => (if first then [] else opVisit (c.actualOp op)) ++ c.toVal.visit ++ visits op false cs
end

/-- compound_condition.go:178-181 `hasCondition`. -/
def hasCondition : Cond → Bool
  | .compound _ _ conds isEmpty .. => !(isEmpty || conds.isEmpty)
  | _ => true

/-- compound_condition.go:183-190 `canBeFlattenedWith`. -/
def canBeFlattenedWith (h : Op) (conds : List Cond) : Bool :=
  conds.all fun c =>
    match c with
    | .compound _ op .. => op == some h
    | _ => true

/-- compound_condition.go:153-173, except for the last line: the conditions of a compound with operator `op` after adding `x`
with the operator `h`; `ki` is the key of the compound created in line 164. -/
def addConds (op : Option Op) (conds : List Cond) (ki : Key) (h : Op) (x : Cond) : List Cond :=
  match x with
  | .compound _ op' conds' .. =>
    if !x.hasCondition then conds
    else if op = some h ∧ op' = some h then
      if canBeFlattenedWith h conds' then conds ++ conds' else conds ++ [x]
    else conds ++ [wrapped ki h [x]]
  | _ => conds ++ [x]

/-- The keys of the objects one combination may create. -/
structure Keys where
  new : Key
  inner1 : Key
  inner2 : Key

/-- compound_condition.go:18-52 `CompoundConditionCreate`, for one of the valid operators. -/
def compoundCreate (ks : Keys) (left : Cond) (h : Op) (right : Cond) : Cond :=
  match firstErr [left.toVal.err, right.toVal.err, nilErr (some left.toVal) (.site "compound_condition.go" 29),
      nilErr (some right.toVal) (.site "compound_condition.go" 44)] with
  | some e => bad e
  | none =>
    let conds := addConds (some h) (addConds (some h) [] ks.inner1 h left) ks.inner2 h right
    .compound ks.new (some h) conds false none true true conds

/-- compound_condition.go:148-176 `add`, on a receiver that is a `CompoundCondition`. -/
def add (ks : Keys) (c : Cond) (h : Op) (x : Cond) : Cond :=
  match c with
  | .compound k op conds isEmpty err nn hasCopy cp =>
    if isEmpty then wrapped ks.new h (addConds (some h) [] ks.inner1 h x)
    else if x.isCompound ∨ op = some h then
      .compound k op (addConds op conds ks.inner1 h x) isEmpty err nn hasCopy cp
    else compoundCreate ks c h x
  | _ => c     -- not reachable

/-- condition_container.go:13-35 `And`, `Or`, `Xor` of a `ConditionContainer` that holds `c`, and
compound_condition.go:124-134 of a `CompoundCondition`. -/
def combine (ks : Keys) (c : Cond) (h : Op) (x : Cond) : Cond :=
  if c.isCompound then add ks c h x else compoundCreate ks c h x

/-- condition_container.go:37-50 `AndPattern`, `OrPattern`, `XorPattern`; `x` is the `RelationshipPatternCondition`. -/
def combinePattern (ks : Keys) (c : Cond) (h : Op) (x : Val) : Cond := compoundCreate ks c h (.atom x)

/-- condition_container.go:52-55 `Not` of a `ConditionContainer` that holds `c`. -/
def not (k kn : Key) (c : Cond) : Cond := .neg k kn c

/-- The copy inside the embedded container of a condition obtained by `Get()`. -/
def recv : Cond → Option Cond
  | .atom v => v.recv.map .atom
  | .neg k kn c => if (comparisonCreate1 k kn .not (some c.toVal)).err.isSome then none else some (.neg k kn c)
  | .compound k op _ isEmpty err nn hasCopy cp =>
    if hasCopy then some (.compound k op cp isEmpty err nn false []) else none

/-- `Not()` of a condition obtained by `Get()`: the method is promoted from the embedded container and acts on the copy
inside.  An empty container gives an error (comparison.go:57-59). -/
def notOfGet (k kn : Key) (c : Cond) : Cond :=
  match c.recv with
  | some c' => .neg k kn c'
  | none => .atom (comparisonCreate1 k kn .not none)

/-- conditions.go:9-14 `ConditionsNot`. -/
def conditionsNot (k kn : Key) (c : Cond) : Cond :=
  if missing (some c.toVal) then bad (.site "conditions.go" 11) else notOfGet k kn c

end Cond

end Verif
