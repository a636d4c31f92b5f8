import Verif.ClauseSpec
import Verif.Builder

/-
Specification of the fluent builder: what a user requests, clause by clause, the calls that request it, and the text that Cypher's
grammar gives to the request.
-/

namespace Verif.Spec

variable (u : Unicode)

/-- What the arguments of `X`, `XByString` and `XByNamed` stand for. -/
def items : Args → List Val
  | .exprs xs => xs
  | .strings xs => xs.map fun p => symbolicName u p.1 p.2
  | .nameds xs => xs.map (·.sym)

/-- No part has an error, no name is empty, and every part is one construct. -/
def ArgsOk (a : Args) : Prop :=
  a.namedErr = none ∧ (∀ x ∈ items u a, x.err = none ∧ One x.visit) ∧ ∀ xs, a = .strings xs → ∀ p ∈ xs, p.2 ≠ []

/-- `Where(first)` followed by `And(c)` and `Or(c)`. -/
structure WhereReq where
  first : Calls
  more : List (Cond.Keys × BOp × Calls) := []

/-- The whole condition: each `And` and `Or` combines everything before with its argument. -/
def WhereReq.whole (w : WhereReq) : Calls := w.more.foldl (fun p m => .bin m.1 m.2.1 p m.2.2) w.first

/-- The copy inside a condition shows what the condition shows; true of conditions made by constructors, which make the copy last. -/
def SelfCopy : Calls → Prop
  | .atom v => v.copy = some (true, v.visit)
  | _ => True

def WhereReq.Ok (w : WhereReq) : Prop :=
  w.first.Usable ∧ SelfCopy w.first ∧ ∀ m ∈ w.more, m.2.1 ≠ .xor ∧ m.2.2.Usable

def moreCall (m : Cond.Keys × BOp × Calls) : Call := if m.2.1 = .and then .and m.1 m.2.2.build else .or m.1 m.2.2.build

def WhereReq.calls (w : WhereReq) : List Call := .where_ w.first.build :: w.more.map moreCall

/-- The calls that request a sorting; `again`: by `And` or `And1` instead of `OrderBy` or `OrderByExpression`. -/
def orderCalls (again : Bool) : OrderCall → List Call
  | .items ds => [.orderItems (ds.map SortReq.build)]
  | .sort d => (if again then .andBy d.k d.x else .orderBy d.k d.x) ::
      (match d.dir with | .undefined => [] | .asc => [.asc d.kd] | .desc => [.desc])

/-- What can follow a WITH. -/
inductive WithMod where
  | more (m : Cond.Keys × BOp × Calls)      -- And(c), Or(c)
  | order (again : Bool) (o : OrderCall)

/-- A WITH and what follows it.  The interface that `Skip` returns has no methods, so that a program must convert it back to
`DefaultStatementWithWithBuilder` to go on (`C25_with_skip`). -/
structure WithReq where
  ks : WithKeys
  distinct : Bool := false
  args : Args
  first : Option Calls := none              -- Where(c)
  mods : List WithMod := []
  skip : Option NumReq := none
  limit : Option NumReq := none

namespace WithReq

def mores (mods : List WithMod) : List (Cond.Keys × BOp × Calls) := mods.filterMap fun m => match m with | .more m => some m | .order .. => none
def orders (mods : List WithMod) : List OrderCall := mods.filterMap fun m => match m with | .more _ => none | .order _ o => some o

/-- The body of the clause. -/
def result (r : WithReq) : ResultReq := { distinct := r.distinct, items := items u r.args, order := orders r.mods, skip := r.skip, limit := r.limit }

/-- The conditions given. -/
def where_ (r : WithReq) : Option WhereReq := r.first.map fun c => ⟨c, mores r.mods⟩

/-- The whole condition. -/
def cond (r : WithReq) : Option Calls := r.where_.map WhereReq.whole

/-- `And` and `Or` are called only after `Where`. -/
structure Ok (r : WithReq) : Prop where
  args : ArgsOk u r.args
  result : (r.result u).Ok
  where_ : ∀ w, r.where_ = some w → w.Ok
  first : r.first = none → mores r.mods = []

def modCalls : WithMod → List Call
  | .more m => [moreCall m]
  | .order again o => orderCalls again o

def calls (r : WithReq) : List Call :=
  .with_ r.ks r.distinct r.args :: (r.first.toList.map fun c => .where_ c.build) ++ r.mods.flatMap modCalls ++
    (r.skip.toList.map fun s => .skip s.k s.kl s.n) ++ r.limit.toList.map fun s => .limit s.k s.kl s.n

end WithReq

/-- A procedure call and what follows it.  With an explicit empty list of arguments, parentheses would be missing
(`C47_empty_arguments`). -/
structure ProcReq where
  kc : Key
  ka : Key
  kw : Key
  k : Key
  kn : Key
  ky : Key
  name : Str
  args : List Val := []
  yields : List Val
  cond : Option Calls := none

namespace ProcReq

structure Ok (r : ProcReq) : Prop where
  args : ∀ x ∈ r.args, x.err = none ∧ One x.visit
  yields : ∀ x ∈ r.yields, x.err = none ∧ One x.visit
  cond : ∀ c, r.cond = some c → c.Usable

def parts (r : ProcReq) : List Part :=
  [.lit c!"CALL ", .lit r.name, .lit c!"("] ++ commas (r.args.map (·.visit)) ++ [.lit c!")"] ++
    (if r.yields = [] then [] else .lit c!" YIELD " :: commas (r.yields.map (·.visit))) ++ whereParts r.cond ++ [.lit c!" "]

def keys (r : ProcReq) : List Key := [r.k, r.ka, r.kw, r.kc, r.ky]

/-- The calls after the one that gives the name. -/
def calls (r : ProcReq) : List Call :=
  (if r.args = [] then [] else [.args r.args]) ++ .yield r.ky r.yields :: r.cond.toList.map fun c => .where_ c.build

end ProcReq

/-- One clause, with what follows it. -/
inductive Req where
  | match_ (k kw : Key) (optional : Bool) (ps : List Val) (w : Option WhereReq)
  | with_ (r : WithReq)
  | unwind (k kn : Key) (x : Val) (name : Str)
  | create (ks : UpdKeys) (p : Val)
  | merge (ks : UpdKeys) (p : Val) (as : List ActionReq)
  | delete (ks : UpdKeys) (detach : Bool) (a : Args)
  | set (ks : UpdKeys) (as : List SetArg)
  | setNamed (ks : UpdKeys) (n : NamedV) (x : Val)
  | setLabels (ks : UpdKeys) (guid : Str) (ko kl : Key) (kls : Nat → Key) (n : NodeV) (labels : List Str)
  | removeLabels (ks : UpdKeys) (guid : Str) (ko kl : Key) (kls : Nat → Key) (n : NodeV) (labels : List Str)
  | remove (ks : UpdKeys) (xs : List Val)
  | sub (k : Key) (s : Stmt)
  | proc (r : ProcReq)

namespace Req

/-- The calls that request it. -/
def calls : Req → List Call
  | .match_ k kw o ps w => .match_ k kw o ps :: w.toList.flatMap WhereReq.calls
  | .with_ r => r.calls
  | .unwind k kn x name => [.unwind x, .as k kn name]
  | .create ks p => [.create ks [p]]
  | .merge ks p as => .merge ks [p] :: as.flatMap fun a => [.on a.type, .actionSet a.k a.kset a.kl a.ks (a.args.flatMap SetArg.args)]
  | .delete ks d a => [.delete ks d a]
  | .set ks as => [.set ks (as.flatMap SetArg.args)]
  | .setNamed ks n x => [.setNamed ks n x]
  | .setLabels ks g ko kl kls n ls => [.setLabels ks g ko kl kls n ls]
  | .removeLabels ks g ko kl kls n ls => [.removeLabels ks g ko kl kls n ls]
  | .remove ks xs => [.remove ks xs]
  | .sub k s => [.callStmt k s]
  | .proc r => .callProc r.kc r.ka r.kw r.k r.kn [r.name] :: r.calls

/-- The name of a node. -/
def nodeName (n : NodeV) : Str := (n.name.map (·.2)).getD []
def nodeNameKey (n : NodeV) : Key := (n.name.map (·.1)).getD 0

/-- Requests that can be fulfilled: no part has an error. -/
def Ok : Req → Prop
  | .match_ _ _ _ ps w => (∀ x ∈ ps, x.err = none ∧ One x.visit) ∧ ∀ x, w = some x → x.Ok
  | .with_ r => r.Ok u
  | .unwind _ _ x _ => x.err = none ∧ ∀ d a, x.tag ≠ .aliased d a
  | .create _ p => p.err = none ∧ One p.visit
  | .merge _ p as => (p.err = none ∧ One p.visit) ∧ ∀ a ∈ as, ∀ x ∈ a.args, x.Ok
  | .delete _ _ a => ArgsOk u a
  | .set _ as => ∀ a ∈ as, a.Ok
  | .setNamed _ n x => n.err = none ∧ n.req = n.sym ∧ (SetArg.pair n.sym x).Ok
  | .setLabels _ _ _ _ _ n ls => (n.err = none ∧ n.notNil = true ∧ n.name ≠ none) ∧ ls ≠ [] ∧ ∀ l ∈ ls, l ≠ []
  | .removeLabels _ _ _ _ _ n ls => (n.err = none ∧ n.notNil = true ∧ n.name ≠ none) ∧ ls ≠ [] ∧ ∀ l ∈ ls, l ≠ []
  | .remove _ xs => ∀ x ∈ xs, x.err = none ∧ One x.visit
  | .sub _ s => s.err = none ∧ s.returns = true
  | .proc r => r.Ok

/-- The text of labels set on or removed from a node. -/
def labelsText (n : NodeV) (labels : List Str) : Str := escapeIfNecessary u (nodeName n) ++ labels.flatMap fun l => ':' :: escapeName l

/-- The text of the clause. -/
def parts : Req → List Part
  | .match_ _ _ o ps w => [.lit (if o then c!"OPTIONAL MATCH " else c!"MATCH ")] ++ commas (ps.map (·.visit)) ++ whereParts (w.map WhereReq.whole) ++ [.lit c!" "]
  | .with_ r => .lit c!"WITH " :: ((r.result u).parts ++ whereParts r.cond ++ [.lit c!" "])
  | .unwind _ _ x name => [.lit c!"UNWIND ", .hole x.visit, .lit c!" AS ", .lit name, .lit c!" "]
  | .create _ p => [.lit c!"CREATE ", .hole p.visit, .lit c!" "]
  | .merge _ p as => [.lit c!"MERGE ", .hole p.visit, .lit c!" "] ++ as.flatMap ActionReq.parts
  | .delete _ d a => [.lit (if d then c!"DETACH DELETE " else c!"DELETE ")] ++ commas ((items u a).map (·.visit)) ++ [.lit c!" "]
  | .set _ as => setParts (builtFirst as)
  | .setNamed _ n x => setParts [.pair n.sym x]
  | .setLabels _ _ _ _ _ n ls => [.lit c!"SET ", .lit (labelsText u n ls), .lit c!" "]
  | .removeLabels _ _ _ _ _ n ls => [.lit c!"REMOVE ", .lit (labelsText u n ls), .lit c!" "]
  | .remove _ xs => [.lit c!"REMOVE "] ++ commas (xs.map (·.visit)) ++ [.lit c!" "]
  | .sub _ s => [.lit c!"CALL {", .hole s.visit, .lit c!"} "]
  | .proc r => r.parts

/-- The objects of the clause itself. -/
def keys : Req → List Key
  | .match_ k kw .. => [k, kw, 0]
  | .with_ r => [r.ks.kp, r.ks.k, r.ks.kl, r.ks.ko, r.ks.kw] ++ (r.result u).keys
  | .unwind k .. => [k]
  | .create ks _ => [ks.k, ks.kl]
  | .merge ks _ as => [ks.k, ks.kl, 41] ++ as.flatMap ActionReq.keys
  | .delete ks .. => [ks.k, ks.kl]
  | .set ks as => [ks.k, ks.kl, Op.set.key] ++ (List.range as.length).map ks.ks
  | .setNamed ks .. => [ks.k, ks.kl, Op.set.key, ks.ks 0]
  | .setLabels ks _ ko kl kls n ls => [ks.k, ks.kl, ko, kl, nodeNameKey n, Op.setLabel.key, Op.removeLabel.key] ++ (List.range ls.length).map kls
  | .removeLabels ks _ ko kl kls n ls => [ks.k, ks.kl, ko, kl, nodeNameKey n, Op.setLabel.key, Op.removeLabel.key] ++ (List.range ls.length).map kls
  | .remove ks _ => [ks.k, ks.kl]
  | .sub k _ => [k]
  | .proc r => r.keys

end Req

/-- What was requested last, as far as it matters for what may follow. -/
inductive Stage where
  | plain           -- nothing, UNWIND, CALL {…}
  | match_
  | created         -- CREATE, DELETE, MERGE without actions
  | merged          -- MERGE with actions
  | updated         -- SET, REMOVE
  | with_
  | call            -- a procedure call in the middle of a query
  | callWhere       -- any procedure call followed by WHERE
  | first           -- a procedure call as the first clause
  deriving DecidableEq, Repr

def Req.stage : Req → Stage
  | .match_ .. => .match_
  | .with_ _ => .with_
  | .unwind .. => .plain
  | .create .. => .created
  | .merge _ _ as => if as = [] then .created else .merged
  | .delete .. => .created
  | .set .. | .setNamed .. | .setLabels .. | .removeLabels .. | .remove .. => .updated
  | .sub .. => .plain
  | .proc r => if r.cond = none then .call else .callWhere

/-- What may be requested at a stage.  See `C30_only_gaps` for what the interfaces of the builder allow beyond this. -/
def Stage.allows : Stage → Req → Bool
  | .plain, _ => true
  | .match_, _ => true
  | .with_, _ => true
  | .created, .create .. | .created, .merge .. | .created, .delete .. | .created, .set .. | .created, .setNamed .. | .created, .with_ _ => true
  | .merged, .create .. | .merged, .merge .. | .merged, .delete .. | .merged, .set .. | .merged, .setNamed .. | .merged, .with_ _ => true
  | .updated, .create .. | .updated, .merge .. | .updated, .delete .. | .updated, .set .. | .updated, .setNamed .. | .updated, .with_ _
  | .updated, .setLabels .. | .updated, .removeLabels .. | .updated, .remove .. => true
  | .call, .with_ _ | .call, .sub .. => true
  | .first, .with_ _ | .first, .sub .. => true
  | .callWhere, .create .. | .callWhere, .merge .. | .callWhere, .delete .. | .callWhere, .with_ _ | .callWhere, .sub .. | .callWhere, .proc _
  | .callWhere, .match_ .. => true
  | _, _ => false

/-- A RETURN and what follows it. -/
structure RetReq where
  k : Key
  ko : Key
  distinct : Bool := false
  args : Args
  order : List (Bool × OrderCall) := []
  skip : Option NumReq := none
  limit : Option NumReq := none

namespace RetReq

def result (r : RetReq) : ResultReq :=
  { distinct := r.distinct, items := items u r.args, order := r.order.map (·.2), skip := r.skip, limit := r.limit }

def calls (r : RetReq) : List Call :=
  .returning r.k r.ko r.distinct r.args :: (r.order.flatMap (fun o => orderCalls o.1 o.2) ++ (r.skip.toList.map fun s => .skip s.k s.kl s.n) ++
    r.limit.toList.map fun s => .limit s.k s.kl s.n)

def parts (r : RetReq) : List Part := .lit c!"RETURN " :: (r.result u).parts

def keys (r : RetReq) : List Key := [r.k, r.ko] ++ (r.result u).keys

def Ok (r : RetReq) : Prop := ArgsOk u r.args ∧ (r.result u).Ok

end RetReq

/-- A query: an optional procedure call that it starts with, clauses, and an optional RETURN. -/
structure Query where
  call : Option ProcReq := none
  reqs : List Req := []
  ret : Option RetReq := none

namespace Query

/-- The stage before the first clause. -/
def start (q : Query) : Stage :=
  match q.call with
  | none => .plain
  | some c => if c.cond = none then .first else .callWhere

/-- The stage after clauses, if every clause may follow the one before. -/
def walk : Stage → List Req → Option Stage
  | s, [] => some s
  | s, r :: rs => if s.allows r then walk r.stage rs else none

/-- May the query end at a stage?  Without RETURN it has to end with an updating clause or to be a mere procedure call;
`ReturningDistinct` must not follow SET or REMOVE (`C33_distinct_dropped`). -/
def mayEnd (s : Stage) : Option RetReq → Prop
  | none => s = .created ∨ s = .merged ∨ s = .updated ∨ s = .first
  | some r => s = .updated → r.distinct = false

structure Ok (q : Query) : Prop where
  call : ∀ c, q.call = some c → c.Ok
  reqs : ∀ r ∈ q.reqs, r.Ok u
  ret : ∀ r, q.ret = some r → r.Ok u
  order : ∃ s, walk q.start q.reqs = some s ∧ mayEnd s q.ret

/-- The builder that the first calls give. -/
def first (q : Query) : Outcome B :=
  match q.call with
  | none => .ok Verif.start
  | some c => (startCall c.kc c.ka c.kw c.k c.kn [c.name]).bind fun b => execAll u b c.calls

/-- What `Build()` returns after all calls. -/
def run (q : Query) : Outcome (Except Err Stmt) :=
  (q.first u).bind fun b => (execAll u b (q.reqs.flatMap Req.calls ++ q.ret.toList.flatMap RetReq.calls)).bind B.build

/-- The text of the query. -/
def parts (q : Query) : List Part :=
  q.call.toList.flatMap ProcReq.parts ++ q.reqs.flatMap (Req.parts u) ++ q.ret.toList.flatMap (RetReq.parts u)

def keys (q : Query) : List Key :=
  q.call.toList.flatMap ProcReq.keys ++ q.reqs.flatMap (Req.keys u) ++ q.ret.toList.flatMap (RetReq.keys u)

end Query

end Verif.Spec
