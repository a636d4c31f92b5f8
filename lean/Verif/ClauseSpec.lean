import Verif.ExprSpec
import Verif.PatternSpec
import Verif.CondSpec
import Verif.Clauses

/-
Specification of clauses and statements: the texts Cypher's grammar gives to what was requested.
-/

namespace Verif.Spec

/-! ### Result clauses -/

/-- A request to sort by `x`: `Sort(x)` or `OrderBy(x)`, followed by `Ascending()` or `Descending()` if `dir` says so.  `kd`: key of
the object made by `Ascending()`. -/
structure SortReq where
  k : Key
  kd : Key
  x : Val
  dir : SortDir

/-- `Sort(x)` with its direction. -/
def SortReq.build (d : SortReq) : SortItemV :=
  let s := SortItemV.create d.k (some d.x) .undefined
  match d.dir with
  | .undefined => s
  | .asc => s.ascending d.kd
  | .desc => s.descending

/-- The text of a sorting. -/
def SortReq.parts (d : SortReq) : List Part :=
  match d.dir with
  | .undefined => [.hole d.x.visit]
  | .asc => [.hole d.x.visit, .lit c!" ASC"]
  | .desc => [.hole d.x.visit, .lit c!" DESC"]

/-- The calls that request sorting. -/
inductive OrderCall where
  | items (ds : List SortReq)     -- OrderBySortItem(ds...)
  | sort (d : SortReq)            -- OrderBy(x), OrderByExpression(x), And(x), And1(x), and then Ascending() or Descending() or neither

def OrderCall.run (o : OrderB) : OrderCall → OrderB
  | .items ds => o.addItems (ds.map SortReq.build)
  | .sort d =>
    let o := o.byExpression d.k d.x
    match d.dir with
    | .undefined => o
    | .asc => o.ascending d.kd
    | .desc => o.descending

def OrderCall.sorts : OrderCall → List SortReq
  | .items ds => ds
  | .sort d => [d]

/-- A number and the keys of the objects for it. -/
structure NumReq where
  k : Key
  kl : Key
  n : Int

/-- What can be requested for RETURN and WITH. -/
structure ResultReq where
  distinct : Bool
  items : List Val
  order : List OrderCall := []
  skip : Option NumReq := none
  limit : Option NumReq := none

namespace ResultReq

/-- The calls on the builder. -/
def orderB (r : ResultReq) : OrderB :=
  let o := r.order.foldl OrderCall.run {}
  let o := match r.skip with | some s => o.setSkip s.k s.kl s.n | none => o
  match r.limit with | some s => o.setLimit s.k s.kl s.n | none => o

def sorts (r : ResultReq) : List SortReq := r.order.flatMap OrderCall.sorts

/-- The text of the body. -/
def parts (r : ResultReq) : List Part :=
  (if r.distinct then [.lit c!"DISTINCT "] else []) ++ commas (r.items.map (·.visit)) ++
  (if r.sorts = [] then [] else .lit c!" ORDER BY " :: sepParts c!", " (r.sorts.map SortReq.parts)) ++
  (match r.skip with | some s => [.lit c!" SKIP ", .lit (itoa s.n)] | none => []) ++
  (match r.limit with | some s => [.lit c!" LIMIT ", .lit (itoa s.n)] | none => [])

/-- The objects of the body that have no text of their own except for fixed ones. -/
def keys (r : ResultReq) : List Key :=
  [0, 40] ++ r.sorts.flatMap (fun d => [d.k, d.kd]) ++ r.skip.toList.flatMap (fun s => [s.k, s.kl]) ++ r.limit.toList.flatMap (fun s => [s.k, s.kl])

/-- What the interfaces of the builder allow: a sorting without direction is not followed by another one. -/
def Typed (r : ResultReq) : Prop := ∀ pre d post, r.order = pre ++ .sort d :: post → d.dir = .undefined → post = []

/-- Requests that can be fulfilled. -/
structure Ok (r : ResultReq) : Prop where
  items : r.items ≠ []
  itemsOk : ∀ x ∈ r.items, x.err = none ∧ One x.visit
  sortsOk : ∀ d ∈ r.sorts, d.x.err = none
  skipOk : ∀ s, r.skip = some s → s.n.natAbs < 10 ^ 10
  limitOk : ∀ s, r.limit = some s → s.n ≠ 0 ∧ s.n.natAbs < 10 ^ 10
  typed : r.Typed

end ResultReq

/-- The text of an optional condition: nothing if there is no condition, or only empty ones. -/
def whereParts : Option Calls → List Part
  | some c => if c.vacuous then [] else [.lit c!" WHERE ", .hole c.build.toVal.visit]
  | none => []

/-! ### SET -/

/-- What is given to `Set`: a property and its value, or an assignment built before. -/
inductive SetArg where
  | pair (a b : Val)
  | built (o : Val)

def SetArg.args : SetArg → List Val
  | .pair a b => [a, b]
  | .built o => [o]

/-- The pairs of plain expressions and the built assignments are usable. -/
def SetArg.Ok : SetArg → Prop
  | .pair a b => Good a ∧ Good b ∧ a.isOperation = false ∧ b.isOperation = false
  | .built o => o.err = none ∧ One o.visit ∧ o.isOperation = true

/-- The text of an assignment. -/
def SetArg.parts : SetArg → List Part
  | .pair a b => [.hole a.visit, .lit c!" = ", .hole b.visit]
  | .built o => [.hole o.visit]

def SetArg.isBuilt : SetArg → Bool
  | .built _ => true
  | _ => false

/-- Assignments with built ones before pairs. -/
def builtFirst (as : List SetArg) : List SetArg := as.filter (·.isBuilt) ++ as.filter (fun a => !a.isBuilt)

/-- The text of a SET clause. -/
def setParts (as : List SetArg) : List Part := [.lit c!"SET "] ++ sepParts c!", " (as.map SetArg.parts) ++ [.lit c!" "]

/-! ### MERGE -/

/-- `OnCreate().Set(args...)` or `OnMatch().Set(args...)`, and the keys of the objects made. -/
structure ActionReq where
  k : Key
  kset : Key
  kl : Key
  ks : Nat → Key
  type : MergeType
  args : List SetArg

/-- The actions built one after the other. -/
def buildActions : List ActionReq → Except Err (List Val)
  | [] => .ok []
  | a :: as =>
    match mergeAction a.k a.kset a.kl a.ks a.type (a.args.flatMap SetArg.args) with
    | .ok v => (buildActions as).map (v :: ·)
    | .error er => .error er

def ActionReq.parts (a : ActionReq) : List Part :=
  .lit (match a.type with | .onCreate => c!"ON CREATE " | .onMatch => c!"ON MATCH ") :: setParts (builtFirst a.args)

def ActionReq.keys (a : ActionReq) : List Key := [a.k, a.kset, a.kl, Op.set.key] ++ (List.range a.args.length).map a.ks

/-! ### UNION -/

/-- The text of a union. -/
def unionParts (all : Bool) (qs : List (List Tree)) : List Part :=
  sepParts (if all then c!" UNION ALL " else c!" UNION ") (qs.map fun q => [.hole q])

end Verif.Spec

namespace Verif

/-- Is the statement not a union? -/
def Stmt.single : Stmt → Prop
  | .query .. => True
  | .union .. => False

end Verif
