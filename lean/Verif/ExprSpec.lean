import Verif.LayoutSpec
import Verif.Exprs

/-
Specification of the text of expressions: what the documentation of the DSL and Cypher's syntax say.
-/

namespace Verif.Spec

/-- A value that can be used: it carries no error and does not count as nil. -/
def Good (v : Val) : Prop := v.err = none ∧ v.notNil = true

/-- Parts with ", " between each two of them. -/
def commas (xs : List (List Tree)) : List Part := sepParts c!", " (xs.map fun ts => [.hole ts])

/-! ### CASE -/

/-- A call on a CASE expression; the keys are those of the objects the call creates. -/
inductive CaseCall where
  | when (k kw : Key) (w t : Val)     -- .When(w).Then(t)
  | els (ke : Key) (d : Val)          -- .ElseDefault(d)

/-- The calls one after the other. -/
def runCase (c : CaseV) : List CaseCall → Outcome CaseV
  | [] => .ok c
  | .when k kw w t :: cs => (c.whenThen k kw w t).bind fun c => runCase c cs
  | .els ke d :: cs => runCase (c.elseDefault ke d) cs

/-- A branch. -/
structure Branch where
  k : Key
  kw : Key
  w : Val
  t : Val

def Branch.call (b : Branch) : CaseCall := .when b.k b.kw b.w b.t

/-- The text of a CASE expression. -/
def caseParts (subject : Option Val) (branches : List Branch) (els : Option Val) : List Part :=
  (match subject with | some s => [.lit c!"CASE ", .hole s.visit] | none => [.lit c!"CASE"]) ++
  branches.flatMap (fun b => [.lit c!" WHEN ", .hole b.w.visit, .lit c!" THEN ", .hole b.t.visit]) ++
  (match els with | some d => [.lit c!" ELSE ", .hole d.visit] | none => []) ++ [.lit c!" END"]

/-! ### Functions -/

/-- The name of the Cypher function each constructor is for, and if it is the DISTINCT variant. -/
def fn1Name : Fn1 → Str × Bool
  | .countByExpression => (c!"count", false)
  | .countDistinctByExpression => (c!"count", true)
  | .propertiesByMapExpression => (c!"properties", false)
  | .toLower => (c!"toLower", false)
  | .size => (c!"size", false)
  | .exists_ => (c!"exists", false)
  | .point => (c!"point", false)
  | .pointByParameter => (c!"point", false)
  | .avg => (c!"avg", false)
  | .avgDistinct => (c!"avg", true)
  | .collect => (c!"collect", false)
  | .collectDistinct => (c!"collect", true)
  | .max => (c!"max", false)
  | .maxDistinct => (c!"max", true)
  | .min => (c!"min", false)
  | .minDistinct => (c!"min", true)
  | .stDev => (c!"stDev", false)
  | .stDevDistinct => (c!"stDev", true)
  | .stDevP => (c!"stDevP", false)
  | .stDevPDistinct => (c!"stDevP", true)
  | .sum => (c!"sum", false)
  | .sumDistinct => (c!"sum", true)
  | .head => (c!"head", false)
  | .last => (c!"last", false)
  | .dateWithComponents => (c!"date", false)
  | .dateWithExpression => (c!"date", false)
  | .dateTimeWithComponents => (c!"datetime", false)
  | .dateTimeWithExpression => (c!"datetime", false)
  | .localDateTimeWithComponents => (c!"localdatetime", false)
  | .localDateTimeWithExpression => (c!"localdatetime", false)
  | .localTimeWithComponents => (c!"localtime", false)
  | .localTimeWithExpression => (c!"localtime", false)
  | .timeWithComponents => (c!"time", false)
  | .timeWithExpression => (c!"time", false)
  | .durationWithComponents => (c!"duration", false)
  | .durationWithExpression => (c!"duration", false)

/-- The name of the Cypher function each constructor without arguments is for. -/
def fn0Name : Fn0 → Str
  | .date => c!"date"
  | .datetime => c!"datetime"
  | .localDatetime => c!"localdatetime"
  | .localtime => c!"localtime"
  | .time => c!"time"

/-- The text of a function call. -/
def callParts (name : Str) (distinct : Bool) (args : List (List Tree)) : List Part :=
  [.lit name, .lit c!"("] ++ (if distinct then [.lit c!"DISTINCT "] else []) ++ commas args ++ [.lit c!")"]

def quantifierName : Quantifier → Str
  | .all => c!"all"
  | .any => c!"any"
  | .none => c!"none"
  | .single => c!"single"

/-! ### Maps -/

/-- An entry of a map literal. -/
structure Entry where
  key : Str
  value : Obj

/-- The arguments of `MapOf`. -/
def entryArgs (es : List Entry) : List Obj := es.flatMap fun x => [.str x.key, x.value]

/-- The values `MapOf` supports. -/
def Supported : Obj → Prop
  | .literals xs => ∀ x ∈ xs, x.err = none
  | .expr v => v.err = none
  | .float f => f ≠ .nan
  | .unsupported => False
  | _ => True

/-- The text of a value given to `MapOf`. -/
def objParts : Obj → List Part
  | .nil => [.lit c!"NULL"]
  | .str s => [.lit (stringLiteralText s)]
  | .int i => [.lit (intLiteralText i)]
  | .float f => [.lit ((floatText f).getD [])]
  | .bool b => [.lit (if b then c!"true" else c!"false")]
  | .literals xs => [.lit c!"["] ++ commas (xs.map (·.visit)) ++ [.lit c!"]"]
  | .expr v => [.hole v.visit]
  | .unsupported => []

/-! ### Map projections -/

/-- An item of a map projection; the keys are those of the objects given. -/
inductive Item where
  | prop (name : Str)                        -- a string: a property of that name
  | all                                      -- the asterisk: all properties
  | var (k : Key) (name : Str)               -- a variable
  | property (k kl : Key) (container : Val) (name : Str)    -- a property of something: the property of that name
  | aliased (k : Key) (d : Val) (alias : Str)               -- an expression with an alias
  | pair (key : Str) (v : Val)               -- a string and an expression
  | named (k : Key) (name : Str)             -- a node, relationship or path that has a name

/-- The arguments of `Project` an item consists of. -/
def Item.args (u : Unicode) : Item → List Content
  | .prop s => [.str s]
  | .all => [.expr asterisk]
  | .var k n => [.expr (symbolicName u k n)]
  | .property k kl c n => [.expr (propertyCreate1 u k kl c n)]
  | .aliased k d a => [.expr (aliasedCreate u k (some d) a)]
  | .pair key v => [.str key, .expr v]
  | .named k n => [.named (some (symbolicName u k n))]

/-- The item carries no error. -/
def Item.Ok : Item → Prop
  | .prop _ => True
  | .all => True
  | .var _ n => n ≠ []
  | .property _ _ c _ => c.err = none
  | .aliased _ d a => Good d ∧ a ≠ []
  | .pair key v => key ≠ [] ∧ Good v ∧ v.tag ≠ .asterisk
  | .named _ n => n ≠ []

/-- Does the item begin with a string? -/
def Item.isString : Item → Bool
  | .prop _ => true
  | .pair _ _ => true
  | _ => false

/-- No property given by a string is followed by an expression, with which it would be a pair. -/
def Separate : List Item → Prop
  | .prop _ :: x :: is => x.isString = true ∧ Separate (x :: is)
  | _ :: is => Separate is
  | [] => True

/-- The text of an item. -/
def Item.parts (u : Unicode) : Item → List Part
  | .prop s => [.lit c!".", .lit (if s = c!"*" then s else escapeIfNecessary u s)]
  | .all => [.lit c!".*"]
  | .var _ n => [.lit (escapeIfNecessary u n)]
  | .property _ _ _ n => [.lit c!".", .lit (if n = c!"*" then n else escapeIfNecessary u n)]
  | .aliased _ d a => [.lit (escapeIfNecessary u a), .lit c!": ", .hole d.visit]
  | .pair key v => [.lit (escapeIfNecessary u key), .lit c!": ", .hole v.visit]
  | .named _ n => [.lit (escapeIfNecessary u n)]

/-- The keys of the pairs. -/
def Item.pairKey : Item → Option Str
  | .pair key _ => some key
  | _ => none

/-- The objects given in an item that are printed. -/
def Item.keys : Item → List Key
  | .var k _ => [k]
  | .property _ kl _ _ => [kl]
  | .named k _ => [k]
  | _ => []

/-- One call of `Project` or `And`, with the keys of the objects it creates. -/
structure Group where
  k : Key
  km : Key
  ks : Nat → Key
  items : List Item

def Group.content (u : Unicode) (g : Group) : List Content := g.items.flatMap (Item.args u)

/-- The items carry no error, none runs into the next one, and no two pairs have the same key. -/
def Group.Ok (g : Group) : Prop :=
  (∀ x ∈ g.items, x.Ok) ∧ Separate g.items ∧ (g.items.filterMap Item.pairKey).Nodup

/-- `Project(g.items...)`, then `And` for each further group. -/
def projectRun (u : Unicode) (name : Val) (g : Group) (gs : List Group) : Outcome Projection :=
  gs.foldl (fun p g => p.bind fun p => mapProjectionAnd u p g.k g.km g.ks (g.content u))
    (mapProjectionCreate u g.k g.km g.ks name (g.content u))

end Verif.Spec
