import Verif.Builder
import Verif.Shortcuts
import Verif.Leftovers
import Verif.NilArgs

/-
A layer over the model whose functions have the names and the arguments of the functions of the package, so that a test of the package
can be copied line by line (`Verif.ReplayTests…`).  Nothing is modelled here: each function hands out the keys of the objects that the
function of the package creates, in the order of the calls, and calls the model.

A key is the address of a variable in the package; `M` hands out a new number for each.
-/

namespace Verif

/-- A computation that takes new keys, and may panic. -/
abbrev M (α : Type) := Nat → Outcome (α × Nat)

instance : Monad M where
  pure a := fun n => .ok (a, n)
  bind x f := fun n => (x n).bind fun p => f p.1 p.2

/-- a new key -/
def newKey : M Key := fun n => .ok (n, n + 1)

/-- forty new keys -/
def newKeys : M (Nat → Key) := fun n => .ok (fun i => n + i, n + 40)

/-- a call of the model that may panic -/
def may {α : Type} (x : Outcome α) : M α := fun n => x.map fun a => (a, n)

/-- The letters, digits and spaces. -/
abbrev uc : Unicode := .ascii

/-- The text of a name drawn at random (random.go); no test needs one. -/
def guid : Str := c!"guid"

/-- An `ExpressionContainer`. -/
structure ExC where
  x : Option Val

/-- A `ConditionContainer`; `none`: it is empty. -/
structure CoC extends ExC where
  c : Option Cond

def CoC.of (c : Cond) : CoC := ⟨⟨some c.toVal⟩, some c⟩

/-- A `NamedPath`. -/
structure PathV where
  name : Option (Key × Str)
  val : Val

/-! ### Interfaces -/

/-- `Expression` -/
class IsEx (α : Type) where ex : α → Val
export IsEx (ex)
instance : IsEx Val := ⟨id⟩
instance : IsEx Cond := ⟨Cond.toVal⟩
instance : IsEx CaseV := ⟨CaseV.toVal⟩
instance : IsEx Projection := ⟨Projection.val⟩

/-- `PatternElement`, `RelationshipPattern` -/
class IsPat (α : Type) where pat : α → Val
export IsPat (pat)
instance : IsPat NodeV := ⟨NodeV.toVal uc⟩
instance : IsPat RelV := ⟨RelV.toVal uc⟩
instance : IsPat ChainV := ⟨ChainV.toVal uc⟩
instance : IsPat PathV := ⟨PathV.val⟩

/-- `Named` -/
class IsNamed (α : Type) where nm : α → NamedV
export IsNamed (nm)
instance : IsNamed NodeV := ⟨fun n => { err := n.err, sym := nameArg uc n.name, req := n.requiredName uc }⟩
instance : IsNamed RelV := ⟨fun r => { err := r.err, sym := nameArg uc r.details.name, req := r.requiredName uc }⟩
instance : IsNamed PathV := ⟨fun p => { err := p.val.err, sym := nameArg uc p.name, req := nameArg uc p.name }⟩

/-- `Condition` -/
class IsCo (α : Type) where co : α → Cond
export IsCo (co)
instance : IsCo Cond := ⟨id⟩
instance : IsCo CaseV := ⟨fun c => .atom c.toVal⟩

/-- what `MapOf` and `WithRawProperties` take -/
class IsObj (α : Type) where obj : α → Obj
export IsObj (obj)
instance : IsObj Str := ⟨.str⟩
instance : IsObj Int := ⟨.int⟩
instance : IsObj Bool := ⟨.bool⟩
instance : IsObj GoFloat := ⟨.float⟩
instance : IsObj Val := ⟨.expr⟩
instance : IsObj Obj := ⟨id⟩

/-- what `Project` takes -/
class IsCont (α : Type) where cont : α → Content
export IsCont (cont)
instance : IsCont Str := ⟨.str⟩
instance : IsCont Val := ⟨.expr⟩
instance : IsCont Projection := ⟨fun p => .expr p.val⟩
instance : IsCont NodeV := ⟨fun n => .named (some (nameArg uc n.name))⟩
instance : IsCont RelV := ⟨fun r => .named (some (nameArg uc r.details.name))⟩

/-- The argument of `And` of a builder: a condition, or an expression to sort by. -/
class IsAnd (α : Type) where andCall : α → M Call
export IsAnd (andCall)
instance : IsAnd Cond := ⟨fun c => do return .and ⟨← newKey, ← newKey, ← newKey⟩ c⟩
instance : IsAnd Val := ⟨fun v => do return .andBy (← newKey) v⟩

/-! ### Values -/

namespace cypher

def ANode (l : Str) : M NodeV := do return .create2 (← newKey) (← newKey) l
def AnyNode : M NodeV := do return NodeV.any
def AnyNodeNamed (s : Str) : M NodeV := do return NodeV.any.namedByString (← newKey) s
def NewNodeWithLabels (l : Str) (ls : List Str) : M NodeV := do return .newWithLabels l ls
def NewNodeWithProperties (l : Str) (m : Val) (ls : List Str) : M NodeV := do return .create5 (← newKey) (← newKey) (← newKeys) l m ls
def AnAsterisk : M Val := do return asterisk
def AProperty (c n : Str) : M Val := do return aProperty uc (← newKey) (← newKey) (← newKey) c n
def ASymbolic (s : Str) : M Val := do return symbolicName uc (← newKey) s
def AParam (s : Str) : M Val := do return parameter (← newKey) s
def LiteralOf (o : Obj) : M Val := do may (literalOf (← newKey) o)
def LiteralTrue : M Val := do return boolLiteral 38 true
def LiteralFalse : M Val := do return boolLiteral 39 false
def StringLiteralCreate (s : Str) : M Val := do return stringLiteral (← newKey) s
def ListLiteralCreate (xs : List Val) : M Val := do return listLiteral (← newKey) xs
def ListOf (xs : List Val) : M Val := do return listExpression (← newKey) (← newKey) xs
def MapOf (xs : List Obj) : M Val := do may (newMapExpression uc (← newKey) (← newKeys) xs)
def SortBy (x : Val) : M SortItemV := do return .create (← newKey) (some x) .undefined
def ExpressionWrap (x : Val) : M ExC := do return ⟨some x⟩

/-! ### Functions -/

def f1 (f : Fn1) (x : Val) : M Val := do may (fn1 f (← newKey) (← newKey) (some x))
def fn (f : FnNode) (n : NodeV) : M Val := do may (fnNode uc f (← newKey) (← newKey) n)
def fr (f : FnRel) (r : RelV) : M Val := do may (fnRel uc f (← newKey) (← newKey) r)
def IdByNode := fn .id
def Labels := fn .labels
def Count := fn .count
def CountDistinct := fn .countDistinct
def IdByRelationship := fr .id
def FunctionType := fr .type
def CountDistinctByExpression := f1 .countDistinctByExpression
def Point := f1 .point
def PointByParameter := f1 .pointByParameter
def Avg := f1 .avg
def Collect := f1 .collect
def Max := f1 .max
def Min := f1 .min
def StDev := f1 .stDev
def StDevP := f1 .stDevP
def Sum := f1 .sum
def Head := f1 .head
def Coalesce (xs : List Val) : M Val := do may (coalesce (← newKey) (← newKey) (xs.map some))
def Distance (a b : Val) : M Val := do may (distance (← newKey) (← newKey) (some a) (some b))
def SizeByPattern (p : Val) : M Val := do return sizeByPattern (← newKey) (← newKey) (some p)
def CollectByNamed (n : NodeV) : M Val := do may (collectNode uc false (← newKey) (← newKey) n)
def CollectDistinctByNamed (n : NodeV) : M Val := do may (collectNode uc true (← newKey) (← newKey) n)
def PercentileCont (x : Val) (f : GoFloat) : M Val := do may (percentile false false (← newKey) (← newKey) (← newKey) (some x) f)
def PercentileDisc (x : Val) (f : GoFloat) : M Val := do may (percentile true false (← newKey) (← newKey) (← newKey) (some x) f)
def Range (a b : Val) : M Val := do may (rangeWithStep (← newKey) (← newKey) (some a) (some b) none)
def RangeRaw (a b : Int) : M Val := do may (rangeRaw (← newKey) (← newKey) (← newKey) (← newKey) (← newKey) a b none)
def Nodes (p : PathV) : M Val := do may (fnPath uc true (← newKey) (← newKey) p.name p.val)
def CypherValueAt (x : Val) (i : Int) : M Val := do return valueAtInt (← newKey) (← newKey) (← newKey) (some x) i
def ASubList (x : Val) (i j : Int) : M Val := do return subListInt (← newKey) (← newKey) (← newKey) (← newKey) (some x) i j
def CypherSubListFrom (x : Val) (i : Int) : M Val := do return subListFromInt (← newKey) (← newKey) (← newKey) (some x) i
def ASubListUntil (x : Val) (i : Int) : M Val := do return subListUntilInt (← newKey) (← newKey) (← newKey) (some x) i
def SubList (x a b : Val) : M Val := do return subList (← newKey) (← newKey) (some x) (some a) (some b)

/-! ### Conditions -/

def ConditionsNotByPattern (p : Val) : M Cond := do return .atom (excludedPattern (← newKey) p)
def ConditionsNot (c : Cond) : M Cond := do return .conditionsNot (← newKey) (← newKey) c
def ConditionsNoCondition : M Cond := do return .empty
def ConditionsIsTrue : M Cond := do return .atom (constantCondition true)
def ConditionsIsFalse : M Cond := do return .atom (constantCondition false)
def PredicateExistsByPattern (p : Val) : M Cond := do return .atom (predicateExistsByPattern (← newKey) (← newKey) (← newKey) p)

end cypher

/-- predicates.go:55-60 `PredicateBuilder` -/
structure PredB where
  q : Quantifier
  x : Val
  list : Option Val := none
def PredB.In (p : PredB) (l : Val) : M PredB := do return { p with list := some l }
def PredB.Where (p : PredB) (c : Cond) : M Cond := do
  return .atom (← may (quantified guid p.q (← newKey) (← newKey) (← newKey) (← newKey) (← newKey) (some p.x) p.list (some c.toVal)))
def cypher.PredicateAll (s : Str) : M PredB := do return { q := .all, x := symbolicName uc (← newKey) s }
def cypher.PredicateAny (s : Str) : M PredB := do return { q := .any, x := symbolicName uc (← newKey) s }
def cypher.PredicateNone (s : Str) : M PredB := do return { q := .none, x := symbolicName uc (← newKey) s }
def cypher.PredicateSingle (s : Str) : M PredB := do return { q := .single, x := symbolicName uc (← newKey) s }

/-! ### Comprehensions -/

/-- list_comprehension.go:97-102 `ListComprehensionBuilder` -/
structure ListB where
  x : Val
  list : Val
  c : Option Val := none
def cypher.CypherListWith (x : Val) : M ListB := do return { x := x, list := x }
def ListB.In (b : ListB) (l : Val) : M ListB := do return { b with list := l }
def ListB.Where (b : ListB) (c : Cond) : M ListB := do return { b with c := some c.toVal }
def ListB.Returning (b : ListB) (xs : List Val) : M Val := do
  return listWith (← newKey) (← newKey) (← newKey) (← newKey) b.x b.list b.c (some xs)
def ListB.ReturningDefault (b : ListB) : M Val := do return listWith (← newKey) (← newKey) (← newKey) (← newKey) b.x b.list b.c none

/-- pattern_comprehension.go:107-111 `PatternComprehensionBuilder` -/
structure PatB where
  pattern : Val
  c : Option Cond := none
def cypher.ListBasedOn (p : Val) : M PatB := do return { pattern := p }
def cypher.ListBasedOnNamed (p : PathV) : M PatB := do return { pattern := p.val }
def PatB.Where (b : PatB) (c : Cond) : M PatB := do return { b with c := some c }
def PatB.WherePattern (b : PatB) (p : Val) : M PatB := do return { b with c := some (.atom (patternCondition (← newKey) p)) }
def PatB.And (b : PatB) (c : Cond) : M PatB := do return { b with c := some (← may (combineOfGet ⟨← newKey, ← newKey, ← newKey⟩ b.c .and c)) }
def PatB.Or (b : PatB) (c : Cond) : M PatB := do return { b with c := some (← may (combineOfGet ⟨← newKey, ← newKey, ← newKey⟩ b.c .or c)) }
def PatB.Returning (b : PatB) (xs : List Val) : M Val := do
  may (patternComprehension (← newKey) (← newKey) (← newKey) (← newKey) b.pattern b.c xs)
def PatB.ReturningByNamed (b : PatB) (xs : List NamedV) : M Val := b.Returning (xs.map (·.sym))

/-! ### Methods of containers: expression_container.go, condition_container.go -/

namespace ExC

def cmp (m : CompareMethod) (e : ExC) (r : Val) : M CoC := do
  return .of (.atom (compare m (← newKey) (← newKey) (← newKey) e.x (some r)))
def ari (m : ArithMethod) (e : ExC) (r : Val) : M ExC := do return ⟨some (arith m (← newKey) e.x (some r))⟩
def Get (e : ExC) : M Val := do match e.x with | some v => return v | none => may .panic
def As (e : ExC) (s : Str) : M ExC := do return ⟨some (aliasedCreate uc (← newKey) e.x s)⟩
def IsEqualTo := cmp .isEqualTo
def IsNotEqualTo := cmp .isNotEqualTo
def Lt := cmp .lt
def Lte := cmp .lte
def Gt := cmp .gt
def Gte := cmp .gte
def In := cmp .in_
def Contains := cmp .contains
def Add := ari .add
def Subtract := ari .subtract
def Multiply := ari .multiply
def Divide := ari .divide
def Remainder := ari .remainder
def Pow := ari .pow
def IsNull (e : ExC) : M CoC := do return .of (.atom (isNull (← newKey) (← newKey) e.x))
def IsNotNull (e : ExC) : M CoC := do return .of (.atom (isNotNull (← newKey) (← newKey) e.x))
def IsTrue (e : ExC) : M CoC := do return .of (.atom (isTrue true (← newKey) (← newKey) (← newKey) (← newKey) e.x))
def IsFalse (e : ExC) : M CoC := do return .of (.atom (isTrue false (← newKey) (← newKey) (← newKey) (← newKey) e.x))
def IsEmpty (e : ExC) : M CoC := do
  return .of (.atom (← may (isEmpty (← newKey) (← newKey) (← newKey) (← newKey) (← newKey) (← newKey) e.x)))
def MatchesPattern (e : ExC) (s : Str) : M CoC := do
  return .of (.atom (matchesPattern (← newKey) (← newKey) (← newKey) (← newKey) e.x s))
def Ascending (e : ExC) : M SortItemV := do return sortBy (← newKey) e.x false
def Descending (e : ExC) : M SortItemV := do return sortBy (← newKey) e.x true

end ExC

namespace CoC

def comb (h : Op) (b : CoC) (x : Cond) : M CoC := do
  match b.c with
  | some c => return .of (c.combine ⟨← newKey, ← newKey, ← newKey⟩ h x)
  | none => may .panic
def And := comb .and
def Or := comb .or
def Xor := comb .xor
def combPat (h : Op) (b : CoC) (p : Val) : M CoC := do
  match b.c with
  | some c => return .of (c.combinePattern ⟨← newKey, ← newKey, ← newKey⟩ h (patternCondition (← newKey) p))
  | none => may .panic
def AndPattern := combPat .and
def OrPattern := combPat .or
def XorPattern := combPat .xor
def Not (b : CoC) : M CoC := do
  match b.c with
  | some c => return .of (c.not (← newKey) (← newKey))
  | none => return .of (.atom (comparisonCreate1 (← newKey) (← newKey) .not none))
def Get (b : CoC) : M Cond := do match b.c with | some c => return c | none => may .panic

end CoC

/-- The methods of a `Condition`: those of the container inside, and `And`, `Or`, `Xor` of a `CompoundCondition`. -/
def Cond.con (c : Cond) : CoC := match c.recv with | some c => .of c | none => ⟨⟨none⟩, none⟩
def Cond.conAnd (c : Cond) : CoC := if c.isCompound then .of c else c.con
def Cond.And (c : Cond) (x : Cond) : M CoC := c.conAnd.And x
def Cond.Or (c : Cond) (x : Cond) : M CoC := c.conAnd.Or x
def Cond.Xor (c : Cond) (x : Cond) : M CoC := c.conAnd.Xor x
def Cond.Not (c : Cond) : M CoC := c.con.Not

namespace Val

/-- The container inside a value. -/
def con (v : Val) : ExC := ⟨v.recv⟩
def As (v : Val) := v.con.As
def IsEqualTo (v : Val) := v.con.IsEqualTo
def IsNotEqualTo (v : Val) := v.con.IsNotEqualTo
def Lt (v : Val) := v.con.Lt
def Lte (v : Val) := v.con.Lte
def Gt (v : Val) := v.con.Gt
def Gte (v : Val) := v.con.Gte
def In (v : Val) := v.con.In
def Contains (v : Val) := v.con.Contains
def Add (v : Val) := v.con.Add
def Subtract (v : Val) := v.con.Subtract
def Multiply (v : Val) := v.con.Multiply
def Divide (v : Val) := v.con.Divide
def Remainder (v : Val) := v.con.Remainder
def Pow (v : Val) := v.con.Pow
def IsNull (v : Val) := v.con.IsNull
def IsNotNull (v : Val) := v.con.IsNotNull
def IsTrue (v : Val) := v.con.IsTrue
def IsFalse (v : Val) := v.con.IsFalse
def IsEmpty (v : Val) := v.con.IsEmpty
def MatchesPattern (v : Val) := v.con.MatchesPattern
def Ascending (v : Val) := v.con.Ascending
def Descending (v : Val) := v.con.Descending
/-- property.go:67-69 -/
def To (v : Val) (x : Val) : M Val := do return propertyTo (← newKey) v (some x)

end Val

def SortItemV.Ascending (s : SortItemV) : M SortItemV := do return s.ascending (← newKey)
def SortItemV.Descending (s : SortItemV) : M SortItemV := do return s.descending
def Projection.As (p : Projection) := p.val.As
def Projection.Ands (p : Projection) (xs : List Content) : M Projection := do
  may (mapProjectionAnd uc p (← newKey) (← newKey) (← newKeys) xs)
def Projection.And {α : Type} [IsCont α] (p : Projection) (x : α) : M Projection := p.Ands [cont x]
def CaseV.As (c : CaseV) := c.toVal.As

/-! ### CASE -/

def cypher.CaseExpression (x : Val) : M CaseV := do return .simple (← newKey) (some x)
def cypher.GenericCaseExpression : M CaseV := do return .start (← newKey)
structure WhenB where
  c : CaseV
  w : Val
def CaseV.When (c : CaseV) (w : Val) : M WhenB := do return ⟨c, w⟩
def WhenB.Then (b : WhenB) (t : Val) : M CaseV := do may (b.c.whenThen (← newKey) (← newKey) b.w t)
def CaseV.ElseDefault (c : CaseV) (d : Val) : M CaseV := do return c.elseDefault (← newKey) d

/-! ### Patterns -/

namespace NodeV

def NamedByString (n : NodeV) (s : Str) : M NodeV := do return n.namedByString (← newKey) s
def Property (n : NodeV) (s : Str) : M Val := do return n.property uc (← newKey) (← newKey) s
def HasLabels (n : NodeV) (ls : List Str) : M Cond := do return .atom (n.hasLabels uc (← newKey) (← newKeys) ls)
def Labels (n : NodeV) : M Val := do may (n.labelsOf uc (← newKey) (← newKey))
def InternalId (n : NodeV) : M Val := do may (n.internalId uc (← newKey) (← newKey))
def As (n : NodeV) (s : Str) : M Val := do return n.as uc (← newKey) s
def Project (n : NodeV) (xs : List Content) : M Projection := do may (n.project uc (← newKey) (← newKey) (← newKeys) xs)
def WithProperties (n : NodeV) (m : Val) : M NodeV := do return n.withProperties (← newKey) (← newKey) m
def WithRawProperties (n : NodeV) (xs : List Obj) : M NodeV := do
  may (n.withRawProperties uc (← newKey) (← newKey) (← newKey) (← newKeys) xs)
def GetRequiredSymbolicName (n : NodeV) : M Val := do return n.requiredName uc
def GetSymbolicName (n : NodeV) : M Val := do return nameArg uc n.name
def rel (d : Direction) (n m : NodeV) (ts : List Str) : M RelV := do return .create (← newKey) (← newKey) (← newKey) n d m ts
def RelationshipTo := rel .ltr
def RelationshipFrom := rel .rtl
def RelationshipBetween := rel .uni

end NodeV

namespace RelV

def NamedByString (r : RelV) (s : Str) : M RelV := do return r.named (← newKey) (← newKey) s
def Named (r : RelV) (s : Str) : M RelV := do return r.named (← newKey) (← newKey) s
def Property (r : RelV) (s : Str) : M Val := do return r.property uc (← newKey) (← newKey) s
def Project (r : RelV) (xs : List Content) : M Projection := do may (r.project uc (← newKey) (← newKey) (← newKeys) xs)
def Unbounded (r : RelV) : M RelV := do return r.unbounded (← newKey) (← newKey)
def Min (r : RelV) (i : Int) : M RelV := do return r.min (← newKey) (← newKey) i
def Max (r : RelV) (i : Int) : M RelV := do return r.max (← newKey) (← newKey) i
def Length (r : RelV) (i j : Int) : M RelV := do return r.length (← newKey) (← newKey) (← newKey) i j
def WithProperties (r : RelV) (m : Val) : M RelV := do return r.withProperties (← newKey) (← newKey) m
def WithRawProperties (r : RelV) (xs : List Obj) : M RelV := do
  may (r.withRawProperties uc (← newKey) (← newKey) (← newKey) (← newKeys) xs)
def GetRequiredSymbolicName (r : RelV) : M Val := do return r.requiredName uc
def GetSymbolicName (r : RelV) : M Val := do return nameArg uc r.details.name
/-- relationship.go:118-128 -/
def chain (d : Direction) (r : RelV) (m : NodeV) (ts : List Str) : M ChainV := do return .start r (← newKey) (← newKey) (← newKey) d m ts
def RelationshipTo := chain .ltr
def RelationshipFrom := chain .rtl
def RelationshipBetween := chain .uni
/-- relationship.go:134-136 -/
def NamedC (_ : RelV) (_ : Str) : M ChainV := do return { err := some (.site "relationship.go" 135) }

end RelV

namespace ChainV

def grow (d : Direction) (c : ChainV) (m : NodeV) (ts : List Str) : M ChainV := do may (c.extend (← newKey) (← newKey) (← newKey) d m ts)
def RelationshipTo := grow .ltr
def RelationshipFrom := grow .rtl
def RelationshipBetween := grow .uni
def last (c : ChainV) (f : RelV → RelV) : M ChainV := may (c.changeLast fun r => .ok (f r))
def NamedC (c : ChainV) (s : Str) : M ChainV := do let k ← newKey; let k' ← newKey; c.last (·.named k k' s)
def Unbounded (c : ChainV) : M ChainV := do let k ← newKey; let k' ← newKey; c.last (·.unbounded k k')
def Min (c : ChainV) (i : Int) : M ChainV := do let k ← newKey; let k' ← newKey; c.last (·.min k k' i)
def Max (c : ChainV) (i : Int) : M ChainV := do let k ← newKey; let k' ← newKey; c.last (·.max k k' i)
def Length (c : ChainV) (i j : Int) : M ChainV := do
  let k ← newKey; let k' ← newKey; let k'' ← newKey; c.last (·.length k k' k'' i j)
def Properties (c : ChainV) (m : Val) : M ChainV := do let k ← newKey; let k' ← newKey; c.last (·.withProperties k k' m)

end ChainV

/-- `OngoingDefinitionWithName`, `OngoingShortestPathDefinitionWithName` -/
structure PathB where
  shortest : Bool
  name : Str
def cypher.APath (s : Str) : M PathB := do return ⟨false, s⟩
def cypher.AShortestPath (s : Str) : M PathB := do return ⟨true, s⟩
/-- What a path is defined by. -/
class IsPath (α : Type) where path : PathB → Key → α → M Val
instance : IsPath RelV := ⟨fun b kn r => do
  if b.shortest then return aShortestPath uc (← newKey) kn (← newKey) (← newKey) b.name r
  else return aPath uc guid (← newKey) kn b.name (r.toVal uc)⟩
instance : IsPath ChainV := ⟨fun b kn r => do return aPath uc guid (← newKey) kn b.name (r.toVal uc)⟩
def PathB.DefinedBy {α : Type} [IsPath α] (b : PathB) (r : α) : M PathV := do
  let kn ← newKey
  return ⟨some (kn, b.name), ← IsPath.path b kn r⟩

/-! ### The builder -/

namespace B

def call (b : B) (c : Call) : M B := may (exec uc b c)
def updKeys : M UpdKeys := do return ⟨← newKey, ← newKey, ← newKeys⟩
def withKeys : M WithKeys := do return ⟨← newKey, ← newKey, ← newKey, ← newKey, ← newKey⟩
def named (xs : List Str) : M (List (Key × Str)) := do
  let ks ← newKeys
  return xs.zipIdx.map fun p => (ks p.2, p.1)

def Match (b : B) (ps : List Val) : M B := do b.call (.match_ (← newKey) (← newKey) false ps)
def OptionalMatch (b : B) (ps : List Val) : M B := do b.call (.match_ (← newKey) (← newKey) true ps)
def Where (b : B) (c : Cond) : M B := b.call (.where_ c)
def WhereNil (b : B) : M B := do
  match b with
  | .base x => return .base x.whereNil
  | _ => may .panic
def WhereConditionContainer (b : B) (c : CoC) : M B := do b.call (.where_ (← c.Get))
def WherePattern (b : B) (p : Val) : M B := do b.call (.where_ (.atom (patternCondition (← newKey) p)))
def And {α : Type} [IsAnd α] (b : B) (x : α) : M B := do b.call (← andCall x)
def Or (b : B) (c : Cond) : M B := do b.call (.or ⟨← newKey, ← newKey, ← newKey⟩ c)
def AndPattern (b : B) (p : Val) : M B := do b.And (Cond.atom (patternCondition (← newKey) p))
def OrPattern (b : B) (p : Val) : M B := do b.Or (.atom (patternCondition (← newKey) p))
def with' (d : Bool) (b : B) (a : Args) : M B := do b.call (.with_ (← withKeys) d a)
def With (b : B) (xs : List Val) : M B := with' false b (.exprs xs)
def WithByNamed (b : B) (xs : List NamedV) : M B := with' false b (.nameds xs)
def WithByString (b : B) (xs : List Str) : M B := do with' false b (.strings (← named xs))
def WithDistinct (b : B) (xs : List Val) : M B := with' true b (.exprs xs)
def WithDistinctByNamed (b : B) (xs : List NamedV) : M B := with' true b (.nameds xs)
def ret' (d : Bool) (b : B) (a : Args) : M B := do b.call (.returning (← newKey) (← newKey) d a)
def Returning (b : B) (xs : List Val) : M B := ret' false b (.exprs xs)
def ReturningByNamed (b : B) (xs : List NamedV) : M B := ret' false b (.nameds xs)
def ReturningByString (b : B) (xs : List Str) : M B := do ret' false b (.strings (← named xs))
def ReturningDistinct (b : B) (xs : List Val) : M B := ret' true b (.exprs xs)
def ReturningDistinctByNamed (b : B) (xs : List NamedV) : M B := ret' true b (.nameds xs)
def OrderBySortItem (b : B) (xs : List SortItemV) : M B := b.call (.orderItems xs)
def OrderBy (b : B) (x : Val) : M B := do b.call (.orderBy (← newKey) x)
def Ascending (b : B) : M B := do b.call (.asc (← newKey))
def Descending (b : B) : M B := b.call .desc
def Skip (b : B) (i : Int) : M B := do b.call (.skip (← newKey) (← newKey) i)
def Limit (b : B) (i : Int) : M B := do b.call (.limit (← newKey) (← newKey) i)
def Delete (b : B) (xs : List Val) : M B := do b.call (.delete (← updKeys) false (.exprs xs))
def DeleteByNamed (b : B) (xs : List NamedV) : M B := do b.call (.delete (← updKeys) false (.nameds xs))
def DeleteByString (b : B) (xs : List Str) : M B := do b.call (.delete (← updKeys) false (.strings (← named xs)))
def DetachDeleteByNamed (b : B) (xs : List NamedV) : M B := do b.call (.delete (← updKeys) true (.nameds xs))
def Create (b : B) (ps : List Val) : M B := do b.call (.create (← updKeys) ps)
def Merge (b : B) (ps : List Val) : M B := do b.call (.merge (← updKeys) ps)
def Set (b : B) (xs : List Val) : M B := do
  match b with
  | .action _ => b.call (.actionSet (← newKey) (← newKey) (← newKey) (← newKeys) xs)
  | _ => b.call (.set (← updKeys) xs)
def SetWithNamed (b : B) (n : NamedV) (x : Val) : M B := do b.call (.setNamed (← updKeys) n x)
def SetByNode (b : B) (n : NodeV) (ls : List Str) : M B := do
  b.call (.setLabels (← updKeys) guid (← newKey) (← newKey) (← newKeys) n ls)
def RemoveByNode (b : B) (n : NodeV) (ls : List Str) : M B := do
  b.call (.removeLabels (← updKeys) guid (← newKey) (← newKey) (← newKeys) n ls)
def Remove (b : B) (xs : List Val) : M B := do b.call (.remove (← updKeys) xs)
def OnCreate (b : B) : M B := b.call (.on .onCreate)
def OnMatch (b : B) : M B := b.call (.on .onMatch)
def Unwind (b : B) (x : Val) : M B := b.call (.unwind x)
def UnwindByString (b : B) (s : Str) : M B := do b.call (.unwind (symbolicName uc (← newKey) s))
def As (b : B) (s : Str) : M B := do b.call (.as (← newKey) (← newKey) s)
def WithArgs (b : B) (xs : List Val) : M B := b.call (.args xs)
def YieldString (b : B) (xs : List Str) : M B := do
  let ks ← named xs
  b.call (.yield (← newKey) (ks.map fun p => symbolicName uc p.1 p.2))

/-- `Build()` gives no error. -/
def Build (b : B) : M Stmt := do
  match ← may b.build with
  | .ok s => return s
  | .error _ => may .panic

/-- `Build()` gives an error. -/
def BuildError (b : B) : M Err := do
  match ← may b.build with
  | .ok _ => may .panic
  | .error e => return e

end B

namespace cypher

def Match := B.Match start
def AnOptionalMatch := B.OptionalMatch start
def Create := B.Create start
def Merge := B.Merge start
def With := B.With start
def WithByNamed := B.WithByNamed start
def WithByString := B.WithByString start
def Unwind := B.Unwind start
/-- cypher.go:265-267 -/
def UnwindMulti (xs : List Val) : M B := do start.Unwind (unwindMultiExpr (← newKey) (← newKey) xs)
def CypherReturning := B.Returning start
def ACall (names : List Str) : M B := do may (startCall (← newKey) (← newKey) (← newKey) (← newKey) (← newKey) names)
def Union (ss : List Stmt) : M Stmt := do return unionImpl (← newKey) (← newKeys) false ss
def UnionAll (ss : List Stmt) : M Stmt := do return unionImpl (← newKey) (← newKeys) true ss

end cypher

/-! ### Checking -/

/-- What the renderer gives for a statement that has no error. -/
def rendered (s : Stmt) : M Str := do
  match (render uc RState.new (some ⟨s.err, s.visit⟩)).1 with
  | .ok t => return t
  | .error _ => may .panic

/-- What is printed for a builder: `Build`, and the renderer. -/
def built (b : B) : M Str := do rendered (← b.Build)

/-- What a test of the package prints; `none`: it panics, or there is an error. -/
def printed (m : M (List Str)) : Option (List Str) :=
  match m 1000 with
  | .ok (ts, _) => some ts
  | .panic => none

/-- What `m` gives if it does not panic; `none`: it panics. -/
def outcome {α : Type} (m : M α) : Option α :=
  match m 1000 with
  | .ok (x, _) => some x
  | .panic => none

/-! ### The nodes of the tests -/

/-- test_cypher/cypherit/single_query_multi_part_test.go, lines 9 and 10 -/
def userNodeM : M NodeV := do (← cypher.ANode c!"User").NamedByString c!"u"
def bikeNodeM : M NodeV := do (← cypher.ANode c!"Bike").NamedByString c!"b"
/-- test_cypher/cypherit/helper.go, lines 56 to 58 -/
def OtherNode : M NodeV := do (← cypher.ANode c!"Other").NamedByString c!"other"

end Verif
