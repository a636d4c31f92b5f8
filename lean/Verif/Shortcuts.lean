import Verif.Clauses

/-
Functions and methods that only combine others: temporal functions with parts, strings and time zones, lists and sort items of raw
values, shortcuts for numbers, shortcut methods of nodes, relationships, properties and expressions.
-/

namespace Verif

section
variable (u : Unicode)

/-! ### Temporal functions -/

/-- The arguments of `MapOf` for named integers: functions.go:629, 643, 657, 670 (`LiteralOf` of an `int` is a number literal,
cypher.go:545-566); `kl`: keys of the literals. -/
def componentArgs (kl : Nat → Key) : Nat → List (Str × Int) → List Obj
  | _, [] => []
  | i, (name, value) :: rest => .str name :: .expr (intLiteral (kl i) value) :: componentArgs kl (i + 1) rest

/-- functions.go:629, 643, 657, 670: `FunctionInvocationCreate(DATE, MapOf(...))`. -/
def dateOf (k ka km : Key) (ks kl : Nat → Key) (parts : List (Str × Int)) : Outcome Val :=
  (newMapExpression u km ks (componentArgs kl 0 parts)).bind fun m => functionInvocation k ka fnDate [some m]

/-- functions.go:628-630 `CalendarDate`. -/
def calendarDate (k ka km : Key) (ks kl : Nat → Key) (year month day : Int) : Outcome Val :=
  dateOf u k ka km ks kl [(c!"year", year), (c!"month", month), (c!"day", day)]

/-- functions.go:642-644 `WeekDate`. -/
def weekDate (k ka km : Key) (ks kl : Nat → Key) (year week dayOfWeek : Int) : Outcome Val :=
  dateOf u k ka km ks kl [(c!"year", year), (c!"week", week), (c!"dayOfWeek", dayOfWeek)]

/-- functions.go:656-658 `QuarterDate`. -/
def quarterDate (k ka km : Key) (ks kl : Nat → Key) (year quarter dayOfQuarter : Int) : Outcome Val :=
  dateOf u k ka km ks kl [(c!"year", year), (c!"quarter", quarter), (c!"dayOfQuarter", dayOfQuarter)]

/-- functions.go:669-671 `OrdinalDate`. -/
def ordinalDate (k ka km : Key) (ks kl : Nat → Key) (year ordinalDay : Int) : Outcome Val :=
  dateOf u k ka km ks kl [(c!"year", year), (c!"ordinalDay", ordinalDay)]

/-- functions.go: the functions that take a string. -/
inductive TemporalFn where
  | date | dateTime | localDateTime | localTime | time | duration
  deriving DecidableEq, Repr

/-- functions.go: which definition each of them passes on. -/
def TemporalFn.fn : TemporalFn → FnDef
  | .date => fnDate                     -- 705
  | .dateTime => fnDatetime             -- 770
  | .localDateTime => fnLocaldatetime   -- 850
  | .localTime => fnLocaltime           -- 929
  | .time => fnTime                     -- 1009
  | .duration => fnDuration             -- 1063

/-- functions.go:701-706 `DateWithTemporal`, 766-771 `DateTimeWithTemporal`, 846-851 `LocalDateTimeWithTemporal`, 925-930
`LocalTimeWithTemporal`, 1005-1010 `TimeWithTemporal`, 1059-1064 `DurationWithTemporal`; `kl`: key of the literal. -/
def withTemporal (f : TemporalFn) (k ka kl : Key) (value : Str) : Outcome Val :=
  if value = [] then .ok (.bad (.site "functions.go" 703))
  else functionInvocation k ka f.fn [some (stringLiteral kl value)]

/-- functions.go: the functions that take a time zone. -/
inductive ZoneFn where
  | localDateTime | localTime | time
  deriving DecidableEq, Repr

/-- functions.go: which definition each of them passes on. -/
def ZoneFn.fn : ZoneFn → FnDef
  | .localDateTime => fnLocaldatetime   -- 815
  | .localTime => fnLocaltime           -- 894
  | .time => fnTime                     -- 974

/-- functions.go:811-816 `LocalDateTimeWithTimezone`, 890-895 `LocalTimeWithTimezone`, 970-975 `TimeWithTimeZone`, 1099-1101
`timezoneMapLiteralOf`; `zone` is `location.String()`, `none` the nil pointer. -/
def withTimezone (f : ZoneFn) (k ka km : Key) (ks : Nat → Key) (kl : Key) (zone : Option Str) : Outcome Val :=
  match zone with
  | none => .ok (.bad (.site "functions.go" 813))
  | some z => (newMapExpression u km ks [.str c!"timezone", .expr (stringLiteral kl z)]).bind fun m => functionInvocation k ka f.fn [some m]

/-! ### Raw values -/

/-- cypher.go:299-309 `ListOfRaw`; `LiteralOf` is called twice for each element, `ks` gives the keys of the second ones. -/
def rawLiterals (ks : Nat → Key) : Nat → List Obj → Outcome (Except Err (List Val))
  | _, [] => .ok (.ok [])
  | i, o :: os => (literalOf (ks i) o).bind fun v =>
      match v.err with
      | some e => .ok (.error e)
      | none => (rawLiterals ks (i + 1) os).map fun r => r.map (v :: ·)

/-- cypher.go:299-309 `ListOfRaw`. -/
def listOfRaw (k kl : Key) (ks : Nat → Key) (os : List Obj) : Outcome Val :=
  (rawLiterals ks 0 os).map fun
    | .error e => .bad e
    | .ok vs => listExpression k kl vs

/-- `strings.Split(s, " ")`. -/
def splitSpaces : Str → List Str
  | [] => [[]]
  | c :: cs =>
    match splitSpaces cs with
    | w :: ws => if c = ' ' then [] :: w :: ws else (c :: w) :: ws
    | [] => [[]]      -- not reachable

/-- cypher.go:313-323: one round of the loop of `SortItemsOfRaw`; an index out of range panics. -/
def sortItemOfRaw (k kl : Key) (element : Str) : Outcome SortItemV :=
  match splitSpaces element with
  | w :: d :: _ => .ok (.create k (some (stringLiteral kl w)) (if d = c!"ASC" then .asc else if d = c!"DESC" then .desc else .undefined))
  | _ => .panic

/-- cypher.go:311-325 `SortItemsOfRaw`. -/
def sortItemsOfRaw (ks kl : Nat → Key) : Nat → List Str → Outcome (List SortItemV)
  | _, [] => .ok []
  | i, e :: es => (sortItemOfRaw (ks i) (kl i) e).bind fun s => (sortItemsOfRaw ks kl (i + 1) es).map (s :: ·)

/-! ### Shortcuts for numbers -/

/-- cypher.go:529-531 `CypherValueAt`. -/
def valueAtInt (k kd kn : Key) (target : Option Val) (i : Int) : Val := valueAt k kd target (some (intLiteral kn i))

/-- cypher.go:469-471 `ASubList`. -/
def subListInt (k kd kn kn' : Key) (target : Option Val) (i j : Int) : Val :=
  subList k kd target (some (intLiteral kn i)) (some (intLiteral kn' j))

/-- cypher.go:481-483 `CypherSubListFrom`. -/
def subListFromInt (k kd kn : Key) (target : Option Val) (i : Int) : Val := subListFrom k kd target (some (intLiteral kn i))

/-- cypher.go:505-507 `ASubListUntil`. -/
def subListUntilInt (k kd kn : Key) (target : Option Val) (i : Int) : Val := subListUntil k kd target (some (intLiteral kn i))

/-- functions.go:430-432 `RangeRaw` (no step), 454-456 `RangeWithStepRaw`. -/
def rangeRaw (k ka kn kn' kn'' : Key) (i j : Int) (step : Option Int) : Outcome Val :=
  rangeWithStep k ka (some (intLiteral kn i)) (some (intLiteral kn' j)) (step.map (intLiteral kn''))

/-! ### Shortcut methods -/

/-- cypher.go:74-76 `AProperty`. -/
def aProperty (k kl kn : Key) (container name : Str) : Val := propertyCreate2 u k kl (some (symbolicName u kn container)) name

/-- property.go:67-69 `To`, operations.go:31-33 `OperationSet`. -/
def propertyTo (k : Key) (p : Val) (x : Option Val) : Val := operationCreate k (some p) .set x

/-- expression_container.go:140-146 `Descending`, `Ascending`, sort_item.go:91-97. -/
def sortBy (k : Key) (x : Option Val) (descending : Bool) : SortItemV := .create k x (if descending then .desc else .asc)

/-- node.go:206-212 `As`. -/
def NodeV.as (n : NodeV) (k : Key) (alias : Str) : Val :=
  match (n.requiredName u).err with
  | some e => { Val.bad e with tag := .badAliased }
  | none => aliasedCreate u k (some (n.requiredName u)) alias

/-- node.go:214-216 `InternalId`. -/
def NodeV.internalId (n : NodeV) (k ka : Key) : Outcome Val := fnNode u .id k ka n

/-- node.go:222-224 `Labels`. -/
def NodeV.labelsOf (n : NodeV) (k ka : Key) : Outcome Val := fnNode u .labels k ka n

/-- node.go:226-228 `Project`. -/
def NodeV.project (n : NodeV) (k km : Key) (ks : Nat → Key) (content : List Content) : Outcome Projection :=
  mapProjectionCreate u k km ks (n.requiredName u) content

/-- relationship.go:138-140 `Property`, property.go:14-29 `PropertyCreate`. -/
def RelV.property (r : RelV) (k kl : Key) (name : Str) : Val :=
  match r.err with
  | some e => propertyError u e
  | none =>
    match (r.requiredName u).err with
    | some e => propertyError u e
    | none => if name = [] then propertyError u (.site "property.go" 26) else propertyCreate1 u k kl (r.requiredName u) name

/-- relationship.go:164-166 `Project`. -/
def RelV.project (r : RelV) (k km : Key) (ks : Nat → Key) (content : List Content) : Outcome Projection :=
  mapProjectionCreate u k km ks (r.requiredName u) content

/-- cypher.go:411-413 `AQuote`. -/
def aQuote (s : Str) : Str := stringLiteralText s

/-- The expression that `UnwindMulti` (cypher.go:265-267) unwinds. -/
def unwindMultiExpr (k kl : Key) (xs : List Val) : Val := listExpression k kl xs

end

end Verif
