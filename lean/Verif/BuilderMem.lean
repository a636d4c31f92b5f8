import Verif.Slices

/-
The fluent builder in Go's memory: what `Builder.lean` says about builders as values, with the pointers between the builders and the
backing arrays of their slices.  Same files as there, and order_builder.go, order.go, multi_part_query.go.

A `DefaultStatementBuilder` is a value with two slices (clauses, parts) and, for an open MERGE, a slice of actions.  Methods with value
receiver work on a copy, which shares the arrays; `&d` in such a method is a new cell that holds the copy.  The other builders hold
pointers to such cells.  `OrderBuilder` has a slice of sort items, and the builder for updates a slice of returned expressions.

What is made from a slice without copying it looks at the array when it is rendered: the sort items of ORDER BY (order.go:16), the
returned expressions of an update (default_statement_with_update.go:114), and the parts of a query (multi_part_query.go:21).  The
lists of clauses of a part or a query are copied (default_statement_builder.go:573-574), and so are the actions of a MERGE
(merge.go:35-39).

Conditions, expressions, patterns and statements given to the builder are values here (for conditions and chains, see `Slices.lean`).
Slices that are never appended to after the call that made them are lists.
-/

namespace Verif

instance : Inhabited Val := ⟨{ key := 0, visit := [] }⟩
instance : Inhabited Clause := ⟨⟨default, false⟩⟩
instance : Inhabited SortItemV := ⟨{}⟩

/-- multipart_element.go:3-9 `MultiPartElement`, as `PartV`: what is visited depends on the sort items of the WITH. -/
structure HPart where
  key : Key := 0
  err : Option Err := none
  visit : List SortItemV → List Tree := fun _ => []
  sorts : Slice := {}

instance : Inhabited HPart := ⟨{}⟩

/-- updating_clause_builder.go, as `UpdBuilder`; a `MergeBuilder` has a slice of actions. -/
inductive HUpd where
  | merge (k kp : Key) (patterns : List Val) (actions : Slice)
  | create (k kp : Key) (patterns : List Val)
  | done (c : Clause)

/-- updating_clause_builder.go:17-22 `MergeBuilderCreate`: a new builder has no actions. -/
def HUpd.new : UpdBuilder → HUpd
  | .merge k kp ps _ => .merge k kp ps {}
  | .create k kp ps => .create k kp ps
  | .done c => .done c

/-- default_statement_builder.go:8-15 `DefaultStatementBuilder`, as `Base`. -/
structure HBase where
  err : Option Err := none
  elems : Slice := {}
  parts : Slice := {}
  omatch : MatchB := {}
  oupdate : Option HUpd := none
  ocall : Option CallB := none

/-- The memory: arrays of clauses, of parts, of actions of a MERGE, of returned expressions, of sort items; and the builders that
pointers point to. -/
structure Mem where
  cl : Heap Clause := .initial
  pt : Heap HPart := .initial
  ac : Heap Val := .initial
  it : Heap Val := .initial
  so : Heap SortItemV := .initial
  cells : Nat → HBase := fun _ => {}
  ncell : Nat := 0

/-- order_builder.go:3-9 `OrderBuilder`, as `OrderB`. -/
structure HOrder where
  items : Slice := {}
  last : SortItemV := {}
  skip : Option Val := none
  limit : Option Val := none

/-- default_statement_with_with_builder.go:3-10, as `WithB`; `cell`: the pointer. -/
structure HWithB where
  k : Key := 0
  kl : Key := 0
  ko : Key := 0
  kw : Key := 0
  kp : Key := 0
  cell : Option Nat := none
  cond : Option Cond := none
  items : List Val := []
  order : HOrder := {}
  distinct : Bool := false
  err : Option Err := none

/-- default_statement_with_return_builder.go:3-9, as `RetB`. -/
structure HRetB where
  k : Key := 0
  ko : Key := 0
  cell : Option Nat := none
  distinct : Bool := false
  items : List Val := []
  order : HOrder := {}
  err : Option Err := none

/-- default_statement_with_update.go:3-11, as `UpdB`; the clause that its builder makes does not depend on the memory. -/
structure HUpdB where
  k : Key := 0
  ko : Key := 0
  cell : Option Nat := none
  items : Slice := {}
  order : HOrder := {}
  distinct : Bool := false
  builder : Option UpdBuilder := none
  err : Option Err := none

/-- default_ongoing_unwind.go:3-7, as `UnwindB`. -/
structure HUnwindB where
  cell : Option Nat := none
  x : Option Val := none
  err : Option Err := none

/-- in_query_call_builder.go:3-11, as `InCallB`. -/
structure HInCallB where
  cell : Option Nat := none
  call : Option CallB := none
  err : Option Err := none

/-- default_statement_builder.go:676-680, as `ActionB`. -/
structure HActionB where
  cell : Option Nat := none
  type : MergeType := .onCreate
  err : Option Err := none

/-- The values that the interfaces of the builder hold.  A `DefaultStatementBuilder` is there by value or by pointer. -/
inductive HB where
  | base (b : HBase)
  | ptr (c : Nat)
  | with_ (w : HWithB)
  | ret (r : HRetB)
  | upd (x : HUpdB)
  | unwind (x : HUnwindB)
  | inCall (i : HInCallB)
  | standalone (c : CallB) (notNil : Bool)
  | action (a : HActionB)

variable (u : Unicode) (grow : Nat → Nat → Nat)

namespace Mem

/-- `&d`: a new cell. -/
def new (m : Mem) (b : HBase) : Mem × Nat :=
  ({ m with cells := fun c => if c = m.ncell then b else m.cells c, ncell := m.ncell + 1 }, m.ncell)

/-- `*p = d` -/
def store (m : Mem) (p : Nat) (b : HBase) : Mem := { m with cells := fun c => if c = p then b else m.cells c }

end Mem

/-! ### Reading -/

/-- What a part of a query is, now. -/
def HPart.read (m : Mem) (p : HPart) : PartV := ⟨p.key, p.visit (m.so.read p.sorts), p.err⟩

/-- The builder of an updating clause, now. -/
def HUpd.read (m : Mem) : HUpd → UpdBuilder
  | .merge k kp ps as => .merge k kp ps (m.ac.read as)
  | .create k kp ps => .create k kp ps
  | .done c => .done c

/-- What a builder is, now. -/
def HBase.read (m : Mem) (b : HBase) : Base :=
  { err := b.err, elems := m.cl.read b.elems, parts := (m.pt.read b.parts).map (HPart.read m), omatch := b.omatch,
    oupdate := b.oupdate.map (HUpd.read m), ocall := b.ocall }

/-- What an ordering is, now. -/
def HOrder.read (m : Mem) (o : HOrder) : OrderB := { items := m.so.read o.items, last := o.last, skip := o.skip, limit := o.limit }

/-! ### The methods of `DefaultStatementBuilder` -/

namespace HBase

/-- default_statement_builder.go:32-36 `DefaultStatementBuilderError`. -/
def dead (e : Err) : HBase := { err := some e }

/-- `d.currentSinglePartElements = append(d.currentSinglePartElements, c)` -/
def push (m : Mem) (b : HBase) (c : Clause) : Mem × HBase :=
  let r := m.cl.append grow b.elems [c]
  ({ m with cl := r.1 }, { b with elems := r.2 })

/-- default_statement_builder.go:497-503 `CloseCurrentOngoingMatch`. -/
def closeMatch (m : Mem) (b : HBase) : Mem × HBase :=
  if b.omatch.notNil then
    let r := push grow m b b.omatch.build
    (r.1, { r.2 with omatch := {} })
  else (m, b)

/-- default_statement_builder.go:505-516 `CloseCurrentOngoingCall`. -/
def closeCall (m : Mem) (b : HBase) : Mem × HBase :=
  match b.ocall with
  | none => (m, b)
  | some c =>
    match c.build with
    | .error e => (m, { b with err := some e })
    | .ok v =>
      let r := push grow m b v
      (r.1, { r.2 with ocall := none })

/-- default_statement_builder.go:518-524 `CloseCurrentOngoingUpdate`. -/
def closeUpdate (m : Mem) (b : HBase) : Mem × HBase :=
  match b.oupdate with
  | none => (m, b)
  | some x =>
    let r := push grow m b (x.read m).build
    (r.1, { r.2 with oupdate := none })

/-- default_statement_builder.go:38-47 `Where`. -/
def where_ (b : HBase) (c : Cond) : HBase :=
  match firstErr [b.err, c.toVal.err] with
  | some e => dead e
  | none => { b with omatch := { b.omatch with cond := some c } }

/-- default_statement_builder.go:391-397 `And`. -/
def and (b : HBase) (ks : Cond.Keys) (c : Cond) : Outcome HBase :=
  match b.err with
  | some e => .ok (dead e)
  | none => (combineOfGet ks b.omatch.cond .and c).map fun x => { b with omatch := { b.omatch with cond := some x } }

/-- default_statement_builder.go:409-418 `Or`. -/
def or (b : HBase) (ks : Cond.Keys) (c : Cond) : Outcome HBase :=
  match firstErr [b.err, c.toVal.err] with
  | some e => .ok (dead e)
  | none => (combineOfGet ks b.omatch.cond .or c).map fun x => { b with omatch := { b.omatch with cond := some x } }

/-- default_statement_builder.go:572-596 `BuildListOfVisitable`: a new slice, and the clauses in it are finished. -/
def list (m : Mem) (b : HBase) : Except Err (List Clause) :=
  let cs := m.cl.read b.elems ++ (if b.omatch.notNil then [b.omatch.build] else []) ++
    (match b.oupdate with | some x => [(x.read m).build] | none => [])
  match b.ocall with
  | none => .ok cs
  | some c =>
    match c.build with
    | .error e => .error e
    | .ok v => .ok (cs ++ [v])

/-- multipart_element.go:11-34 `MultiPartElementCreate`; `w`: the WITH, given its sort items, which are in the slice `sorts`. -/
def part (m : Mem) (kp : Key) (cs : List Clause) (w : List SortItemV → Val) (sorts : Slice) : HPart :=
  let p := partCreate kp cs (w (m.so.read sorts))
  { key := p.key, err := p.err, visit := fun ss => (partCreate kp cs (w ss)).visit, sorts := sorts }

/-- `d.multipartElements = append(d.multipartElements, p)` -/
def pushPart (m : Mem) (b : HBase) (p : HPart) : Mem × HBase :=
  let r := m.pt.append grow b.parts [p]
  ({ m with pt := r.1 }, { b with parts := r.2 })

/-- default_statement_builder.go:53-64 `AddWith`; `none`: the WITH is the zero value. -/
def addWith (m : Mem) (b : HBase) (kp : Key) (w : Option (List SortItemV → Val)) (sorts : Slice) : Mem × HBase :=
  match b.err with
  | some e => (m, dead e)
  | none =>
    match w with
    | none => (m, b)
    | some w =>
      match list m b with
      | .error e =>
        let r := pushPart grow m b (part m kp [] w sorts)
        (r.1, { r.2 with err := some e })
      | .ok cs =>
        let r := pushPart grow m b (part m kp cs w sorts)
        (r.1, { parts := r.2.parts })

/-- default_statement_builder.go:119-183 `With…`. -/
def with_ (m : Mem) (b : HBase) (ks : WithKeys) (distinct : Bool) (a : Args) : Mem × HWithB :=
  match firstErr [b.err, a.namedErr, errsOf (a.vals u)] with
  | some e => (m, { err := some e })
  | none =>
    let r := m.new b
    (r.1, { k := ks.k, kl := ks.kl, ko := ks.ko, kw := ks.kw, kp := ks.kp, cell := some r.2, distinct := distinct, items := a.vals u })

/-- default_statement_builder.go:76-117 and 526-548 `Returning…`. -/
def returning (m : Mem) (b : HBase) (k ko : Key) (distinct : Bool) (a : Args) : Mem × HRetB :=
  match firstErr [b.err, a.namedErr, errsOf (a.vals u)] with
  | some e => (m, { err := some e })
  | none =>
    let r := m.new b
    (r.1, { k := k, ko := ko, cell := some r.2, distinct := distinct, items := a.vals u })

/-- default_statement_builder.go:604-610 `Update`. -/
def update (m : Mem) (b : HBase) (t : UpdType) (ks : UpdKeys) (xs : List Val) : Mem × HBase :=
  let r := closeMatch grow m b
  let r := closeCall grow r.1 r.2
  let r := closeUpdate grow r.1 r.2
  match updBuilder t ks xs with
  | .error _ => (r.1, { r.2 with oupdate := none })
  | .ok x => (r.1, { r.2 with oupdate := some (.new x) })

/-- default_statement_builder.go:185-252, 440-450 `Delete…`, `DetachDelete…`, `Merge`, `Create`: value receivers. -/
def openUpdate (m : Mem) (b : HBase) (t : UpdType) (ks : UpdKeys) (a : Args) : Mem × HBase :=
  match firstErr [b.err, a.namedErr, errsOf (a.vals u)] with
  | some e => (m, dead e)
  | none => update grow m b t ks (a.vals u)

/-- default_statement_builder.go:598-602 `addUpdatingClause`. -/
def addClause (m : Mem) (b : HBase) (c : Clause) : Mem × HBase :=
  let r := closeMatch grow m b
  push grow r.1 r.2 c

/-- default_statement_with_update.go:35-62 `DefaultStatementWithUpdateBuilderCreate2`, given the pointer and what it points to. -/
def updB (p : Nat) (b : HBase) (t : UpdType) (ks : UpdKeys) (xs : List Val) : HUpdB :=
  match firstErr [b.err, errsOf xs] with
  | some e => { err := some e }
  | none =>
    match updBuilder t ks xs with
    | .error e => { err := some e }
    | .ok x => { cell := some p, builder := some x }

/-- default_statement_builder.go:254-265 `Set`. -/
def set (m : Mem) (b : HBase) (ks : UpdKeys) (xs : List Val) : Mem × HB :=
  match firstErr [b.err, errsOf xs] with
  | some e => (m, .base (dead e))
  | none =>
    let r := closeUpdate grow m b
    let p := r.1.new r.2
    (p.1, .upd (updB p.2 r.2 .set ks xs))

/-- default_statement_builder.go:267-278 `SetWithNamed`. -/
def setNamed (m : Mem) (b : HBase) (ks : UpdKeys) (n : NamedV) (x : Val) : Mem × HB :=
  match firstErr [b.err, n.err, x.err] with
  | some e => (m, .base (dead e))
  | none => set grow m b ks [n.sym, x]

/-- default_statement_builder.go:280-314 `SetByNode`, `RemoveByNode`, `Remove`. -/
def update2 (m : Mem) (b : HBase) (t : UpdType) (ks : UpdKeys) (checked : Option Err) (xs : List Val) : Mem × HB :=
  match firstErr [b.err, checked] with
  | some e => (m, .base (dead e))
  | none =>
    let p := m.new b
    (p.1, .upd (updB p.2 b t ks xs))

/-- default_statement_builder.go:316-345 `Unwinds`, `UnwindByString`, `Unwind`. -/
def unwind (m : Mem) (b : HBase) (x : Val) : Mem × HUnwindB :=
  match firstErr [b.err, x.err] with
  | some e => (m, { err := some e })
  | none =>
    let r := closeMatch grow m b
    let p := r.1.new r.2
    (p.1, { cell := some p.2, x := some x })

/-- default_statement_builder.go:347-367 `Call`. -/
def callStmt (m : Mem) (b : HBase) (k : Key) (s : Stmt) : Mem × HBase :=
  match firstErr [b.err, s.err] with
  | some e => (m, dead e)
  | none =>
    let r := closeCall grow m b
    let r := closeMatch grow r.1 r.2
    let r := closeUpdate grow r.1 r.2
    match (subqueryCall k s).val.err with
    | some e => (r.1, { r.2 with err := some e })
    | none => push grow r.1 r.2 (subqueryCall k s)

/-- default_statement_builder.go:369-378 `Call1`. -/
def callProc (m : Mem) (b : HBase) (kc ka kw k kn : Key) (name : List Str) : Outcome (Mem × HInCallB) :=
  match b.err with
  | some e => .ok (m, { err := some e })
  | none =>
    (procName k kn name).map fun p =>
      let c : CallB := { kc := kc, ka := ka, kw := kw, standalone := false, name := p }
      let r := closeMatch grow m b
      let r := closeCall grow r.1 r.2
      let q := r.1.new { r.2 with ocall := some c }
      (q.1, { cell := some q.2, call := some c })

/-- default_statement_builder.go:430-438, 471-495 `OptionalMatch`, `Match`, `MatchDefault`. -/
def match_ (m : Mem) (b : HBase) (k kw : Key) (optional : Bool) (ps : List Val) : Mem × HBase :=
  match firstErr [b.err, errsOf ps] with
  | some e => (m, dead e)
  | none =>
    let r := closeMatch grow m b
    let r := closeCall grow r.1 r.2
    (r.1, { r.2 with omatch := { k := k, kw := kw, patterns := ps, optional := optional, notNil := true } })

/-- default_statement_builder.go:452-469 `OnCreate`, `OnMatch` have value receivers, so the pointer is to a new cell. -/
def on (m : Mem) (b : HBase) (t : MergeType) : Mem × HActionB :=
  match b.err with
  | some e => (m, { err := some e })
  | none =>
    match b.oupdate with
    | some (.merge ..) =>
      let p := m.new b
      (p.1, { cell := some p.2, type := t })
    | _ => (m, { err := some (.site "default_statement_builder.go" 466) })

end HBase

/-! ### Orderings -/

namespace HOrder

/-- `o.sortItemList = append(o.sortItemList, xs...)`: order_builder.go:17-19, 29-37. -/
def push (m : Mem) (o : HOrder) (xs : List SortItemV) : Mem × HOrder :=
  let r := m.so.append grow o.items xs
  ({ m with so := r.1 }, { o with items := r.2 })

/-- order_builder.go:47-50: `BuildOrder` appends the open item, on a copy of the builder; the slice that the clause gets. -/
def finish (m : Mem) (o : HOrder) : Mem × Slice :=
  if o.last.notNil then
    let r := m.so.append grow o.items [o.last]
    ({ m with so := r.1 }, r.2)
  else (m, o.items)

/-- order_builder.go:17-45: the calls that change an ordering; `none`: another call. -/
def exec (m : Mem) (o : HOrder) : Call → Option (Mem × HOrder)
  | .orderItems xs => some (push grow m o xs)
  | .orderBy k x => some (m, { o with last := .create k (some x) .undefined })
  | .andBy k x => some (m, { o with last := .create k (some x) .undefined })
  | .asc k =>
    let r := push grow m o [o.last.ascending k]
    some (r.1, { r.2 with last := {} })
  | .desc =>
    let r := push grow m o [o.last.descending]
    some (r.1, { r.2 with last := {} })
  | .skip k kl n => some (m, { o with skip := some (skipCreate k kl n) })
  | .limit k kl n => some (m, { o with limit := some (limitCreate k kl n) })
  | _ => none

/-- The ordering of a clause whose sort items are `ss`. -/
def done (o : HOrder) (ss : List SortItemV) : OrderB := { items := ss, skip := o.skip, limit := o.limit }

end HOrder

/-! ### Statements -/

/-- A statement in memory: its parts, the clauses of its last part, and its RETURN, given the returned expressions and sort items; or
the statement that a standalone call makes. -/
inductive HStmt where
  | query (parts : Slice) (clauses : List Clause) (items sorts : Slice) (ret : List Val → List SortItemV → Option Val)
  | call (s : Stmt)

/-- What a statement is, now; `panic`: multi_part_query.go:28-30. -/
def HStmt.read (m : Mem) : HStmt → Outcome Stmt
  | .query parts clauses items sorts ret =>
    let s := singlePart clauses (ret (m.it.read items) (m.so.read sorts))
    if parts.len = 0 then .ok s else multiPart ((m.pt.read parts).map (HPart.read m)) s
  | .call s => .ok s

/-- default_statement_builder.go:557-563 `BuildImpl`. -/
def HBase.buildImpl (m : Mem) (b : HBase) (items sorts : Slice) (ret : List Val → List SortItemV → Option Val) :
    Outcome (Except Err HStmt) :=
  let s := HStmt.query b.parts (match b.list m with | .ok cs => cs | .error _ => []) items sorts ret
  (s.read m).map fun _ => .ok s

/-! ### The other builders -/

/-- default_statement_with_with_builder.go:26-44 `buildWith`, and `d.defaultBuilder.AddWith(…)`, on a copy of what the pointer points
to. -/
def HWithB.next (m : Mem) (w : HWithB) : Outcome (Mem × HBase) :=
  match w.cell with
  | none => .panic
  | some c =>
    if w.items = [] then .ok ((m.cells c).addWith grow m w.kp none {})
    else
      let r := w.order.finish grow m
      .ok ((m.cells c).addWith grow r.1 w.kp
        (some fun ss => (withCreate w.k w.kl w.ko w.kw w.distinct w.items (w.order.done ss) w.cond).getD default) r.2)

/-- default_statement_with_update.go: `d.defaultBuilder.addUpdatingClause(d.builder.build())` changes what the pointer points to. -/
def HUpdB.next (m : Mem) (x : HUpdB) : Outcome (Mem × Nat) :=
  match x.cell, x.builder with
  | some c, some d =>
    let r := (m.cells c).addClause grow m d.build
    .ok (r.1.store c r.2, c)
  | _, _ => .panic

/-- in_query_call_builder.go:24, 45, 58, 115, 128, 133: `i.defaultBuilder.currentOngoingCall = i`. -/
def HInCallB.next (m : Mem) (i : HInCallB) : Outcome (Mem × Nat) :=
  match i.cell, i.call with
  | some c, some d => .ok (m.store c { m.cells c with ocall := some d }, c)
  | _, _ => .panic

/-- default_statement_builder.go:702-721 `Set`: the builder that the pointer points to is changed, and the pointer returned. -/
def HActionB.set (m : Mem) (a : HActionB) (k kset kl : Key) (ks : Nat → Key) (xs : List Val) : Outcome (Mem × HB) :=
  match firstErr [a.err, errsOf xs] with
  | some e => .ok (m, .base (.dead e))
  | none =>
    match a.cell with
    | some c =>
      match (m.cells c).oupdate with
      | some (.merge km kp ps as) =>
        match mergeAction k kset kl ks a.type xs with
        | .error e => .ok (m.store c { m.cells c with err := some e }, .ptr c)
        | .ok v =>
          let r := m.ac.append grow as [v]
          .ok ({ m with ac := r.1 }.store c { m.cells c with oupdate := some (.merge km kp ps r.2) }, .ptr c)
      | _ => .panic
    | none => .panic

/-! ### The calls -/

/-- A call on a `DefaultStatementBuilder`, by value: as `execBase`. -/
def hexecBase (m : Mem) (b : HBase) : Call → Outcome (Mem × HB)
  | .match_ k kw o ps => let r := b.match_ grow m k kw o ps; .ok (r.1, .base r.2)
  | .where_ c => .ok (m, .base (b.where_ c))
  | .and ks c => (b.and ks c).map fun b => (m, .base b)
  | .or ks c => (b.or ks c).map fun b => (m, .base b)
  | .with_ ks d a => let r := b.with_ u m ks d a; .ok (r.1, .with_ r.2)
  | .returning k ko d a => let r := b.returning u m k ko d a; .ok (r.1, .ret r.2)
  | .delete ks d a => let r := b.openUpdate u grow m (.delete d) ks a; .ok (r.1, .base r.2)
  | .create ks ps => let r := b.openUpdate u grow m .create ks (.exprs ps); .ok (r.1, .base r.2)
  | .merge ks ps => let r := b.openUpdate u grow m .merge ks (.exprs ps); .ok (r.1, .base r.2)
  | .set ks xs => .ok (b.set grow m ks xs)
  | .setNamed ks n x => .ok (b.setNamed grow m ks n x)
  | .setLabels ks g ko kl kls n ls => .ok (b.update2 m .set ks n.err [labelOperation u g ko kl kls .setLabel n ls])
  | .removeLabels ks g ko kl kls n ls => .ok (b.update2 m .remove ks n.err [labelOperation u g ko kl kls .removeLabel n ls])
  | .remove ks xs => .ok (b.update2 m .remove ks (errsOf xs) xs)
  | .on t => let r := b.on m t; .ok (r.1, .action r.2)
  | .unwind x => let r := b.unwind grow m x; .ok (r.1, .unwind r.2)
  | .callStmt k s => let r := b.callStmt grow m k s; .ok (r.1, .base r.2)
  | .callProc kc ka kw k kn name => (b.callProc grow m kc ka kw k kn name).map fun r => (r.1, .inCall r.2)
  | _ => .panic

/-- A call on a `DefaultStatementWithWithBuilder`: as `execWith`. -/
def hexecWith (m : Mem) (w : HWithB) (c : Call) : Outcome (Mem × HB) :=
  match w.order.exec grow m c with
  | some r => .ok (r.1, .with_ { w with order := r.2 })
  | none =>
    match c with
    | .where_ c => .ok (m, .with_ { w with cond := some c })
    | .and ks c => (combineOfGet ks w.cond .and c).map fun x => (m, .with_ { w with cond := some x })
    | .or ks c => (combineOfGet ks w.cond .or c).map fun x => (m, .with_ { w with cond := some x })
    | .with_ ks d a => (w.next grow m).bind fun r => hexecBase u grow r.1 r.2 (.with_ ks d (.exprs (a.vals u)))
    | .returning k ko d a => (w.next grow m).bind fun r => hexecBase u grow r.1 r.2 (.returning k ko d (.exprs (a.vals u)))
    | .delete ks d a => (w.next grow m).bind fun r => hexecBase u grow r.1 r.2 (.delete ks d (.exprs (a.vals u)))
    | .setNamed ks n x => (w.next grow m).bind fun r => hexecBase u grow r.1 r.2 (.set ks [n.req, x])
    | .on _ => .panic
    | c => (w.next grow m).bind fun r => hexecBase u grow r.1 r.2 c

/-- A call on a `DefaultStatementWithReturnBuilder`: as `execRet`. -/
def hexecRet (m : Mem) (r : HRetB) (c : Call) : Outcome (Mem × HB) :=
  match r.order.exec grow m c with
  | some o => .ok (o.1, .ret { r with order := o.2 })
  | none => .panic

/-- A call on a `DefaultStatementWithUpdateBuilder`: as `execUpd`.  `ReturningDistinct` appends, and drops the result.  `With` and the methods of `DefaultStatementBuilder` with value
receivers copy what the pointer points to; `Delete` calls `Update` on the pointer itself and returns a copy; `Set` and so on hand the
pointer on. -/
def hexecUpd (m : Mem) (x : HUpdB) (c : Call) : Outcome (Mem × HB) :=
  match x.order.exec grow m c with
  | some o => .ok (o.1, .upd { x with order := o.2 })
  | none =>
    match c with
    | .returning k ko d a =>
      let r := m.it.append grow x.items (a.vals u)
      .ok ({ m with it := r.1 }, .upd (if d then { x with distinct := true } else { x with k := k, ko := ko, items := r.2 }))
    | .with_ ks d a =>
      (x.next grow m).map fun p => let r := (p.1.cells p.2).with_ u p.1 ks d (.exprs (a.vals u)); (r.1, .with_ r.2)
    | .delete ks d a =>
      (x.next grow m).map fun p =>
        let r := (p.1.cells p.2).update grow p.1 (.delete d) ks (a.vals u)
        (r.1.store p.2 r.2, .base r.2)
    | .merge ks ps => (x.next grow m).map fun p => let r := (p.1.cells p.2).openUpdate u grow p.1 .merge ks (.exprs ps); (r.1, .base r.2)
    | .create ks ps => (x.next grow m).map fun p => let r := (p.1.cells p.2).openUpdate u grow p.1 .create ks (.exprs ps); (r.1, .base r.2)
    | .set ks xs => (x.next grow m).map fun p => (p.1, .upd ((p.1.cells p.2).updB p.2 .set ks xs))
    | .setNamed ks n v => (x.next grow m).map fun p => (p.1, .upd ((p.1.cells p.2).updB p.2 .set ks [n.sym, v]))
    | .setLabels ks g ko kl kls n ls =>
      (x.next grow m).map fun p => (p.1, .upd ((p.1.cells p.2).updB p.2 .set ks [labelOperation u g ko kl kls .setLabel n ls]))
    | .removeLabels ks g ko kl kls n ls =>
      match x.err with
      | some _ => .ok (m, .upd x)
      | none =>
        (x.next grow m).map fun p => (p.1, .upd ((p.1.cells p.2).updB p.2 .remove ks [labelOperation u g ko kl kls .setLabel n ls]))
    | .remove ks xs => (x.next grow m).map fun p => (p.1, .upd ((p.1.cells p.2).updB p.2 .remove ks xs))
    | _ => .panic

/-- default_ongoing_unwind.go:24-27 `As`: what the pointer points to is changed, and the pointer returned. -/
def hexecUnwind (m : Mem) (x : HUnwindB) : Call → Outcome (Mem × HB)
  | .as k kn name =>
    match x.cell, x.x with
    | some c, some v =>
      let r := (m.cells c).push grow m (unwindCreate u k kn v name)
      .ok (r.1.store c r.2, .ptr c)
    | _, _ => .panic
  | _ => .panic

/-- in_query_call_builder.go:22-135: a call on an `InQueryCallBuilder`; `Where` returns the pointer. -/
def hexecInCall (m : Mem) (i : HInCallB) : Call → Outcome (Mem × HB)
  | .args xs => .ok (m, .inCall { i with call := i.call.map fun c => { c with args := some xs } })
  | .yield ky xs => .ok (m, .inCall { i with call := i.call.map fun c => { c with yields := yieldItems ky xs } })
  | .where_ c => (HInCallB.next m { i with call := i.call.map fun x => { x with cond := some c } }).map fun p => (p.1, .ptr p.2)
  | .returning k ko d a => (i.next m).bind fun p => hexecBase u grow p.1 (p.1.cells p.2) (.returning k ko d (.exprs (a.vals u)))
  | .with_ ks d a => (i.next m).bind fun p => hexecBase u grow p.1 (p.1.cells p.2) (.with_ ks d (.exprs (a.vals u)))
  | .callStmt k s => (i.next m).bind fun p => hexecBase u grow p.1 (p.1.cells p.2) (.callStmt k s)
  | _ => .panic

/-- default_statement_builder.go:24-30 `DefaultStatementBuilderCreate1`. -/
def hstartWithCall (c : CallB) (notNil : Bool) : HBase := { ocall := if notNil then some c else none }

/-- procedure_call.go:161-193, 228-284: a call on a `StandaloneCallBuilder`. -/
def hexecStandalone (m : Mem) (c : CallB) (notNil : Bool) : Call → Outcome (Mem × HB)
  | .args xs => .ok (m, .standalone { c with args := some xs } notNil)
  | .yield ky xs => .ok (m, .standalone { c with yields := yieldItems ky xs } notNil)
  | .where_ x => .ok (m, .base (hstartWithCall { c with cond := some x } notNil))
  | .returning k ko d a => hexecBase u grow m (hstartWithCall c notNil) (.returning k ko d (.exprs (a.vals u)))
  | .with_ ks d a => hexecBase u grow m (hstartWithCall c notNil) (.with_ ks d (.exprs (a.vals u)))
  | .callStmt k s => hexecBase u grow m (hstartWithCall c notNil) (.callStmt k s)
  | _ => .panic

/-- A call on a builder.  Of a pointer, the methods with value receivers take a copy of what it points to. -/
def hexec (m : Mem) : HB → Call → Outcome (Mem × HB)
  | .base b, c => hexecBase u grow m b c
  | .ptr p, c => hexecBase u grow m (m.cells p) c
  | .with_ w, c => hexecWith u grow m w c
  | .ret r, c => hexecRet grow m r c
  | .upd x, c => hexecUpd u grow m x c
  | .unwind x, c => hexecUnwind u grow m x c
  | .inCall i, c => hexecInCall u grow m i c
  | .standalone s n, c => hexecStandalone u grow m s n c
  | .action a, .actionSet k kset kl ks xs => a.set grow m k kset kl ks xs
  | .action _, _ => .panic

/-- `Build()`: default_statement_builder.go:550-555, default_statement_with_return_builder.go:19-30,
default_statement_with_update.go:107-119, procedure_call.go:195-218. -/
def hbuild (m : Mem) : HB → Outcome (Mem × Except Err HStmt)
  | .base b =>
    match b.err with
    | some e => .ok (m, .error e)
    | none => (b.buildImpl m {} {} fun _ _ => none).map fun s => (m, s)
  | .ptr p =>
    match (m.cells p).err with
    | some e => .ok (m, .error e)
    | none => ((m.cells p).buildImpl m {} {} fun _ _ => none).map fun s => (m, s)
  | .ret r =>
    match r.err, r.cell with
    | some e, _ => .ok (m, .error e)
    | none, some c =>
      if r.items = [] then ((m.cells c).buildImpl m {} {} fun _ _ => none).map fun s => (m, s)
      else
        let o := r.order.finish grow m
        ((m.cells c).buildImpl o.1 {} o.2 fun _ ss => returnCreate r.k r.ko r.distinct r.items (r.order.done ss)).map fun s => (o.1, s)
    | none, none => .panic
  | .upd x =>
    match x.err with
    | some e => .ok (m, .error e)
    | none =>
      (x.next grow m).bind fun p =>
        if x.items.len = 0 then ((p.1.cells p.2).buildImpl p.1 {} {} fun _ _ => none).map fun s => (p.1, s)
        else
          let o := x.order.finish grow p.1
          ((o.1.cells p.2).buildImpl o.1 x.items o.2 fun xs ss => returnCreate x.k x.ko x.distinct xs (x.order.done ss)).map fun s => (o.1, s)
  | .standalone c _ => .ok (m, c.build.map fun v => .call (c.stmt v))
  | _ => .panic

/-! ### Programs that use a builder more than once -/

/-- What is done with a builder: nothing; `Build()`; a call, and what is done with its result; one thing, and then, with the same
builder, another. -/
inductive Use where
  | nothing
  | build
  | call (c : Call) (then_ : Use)
  | both (first second : Use)

/-- What `Build()` returns; a panic, too. -/
abbrev Built (α : Type) : Type := Outcome (Except Err α)

/-- A program in Go's memory: the memory at the end, and, in order, the results of `Build()` together with the memory at that time.  A
call that panics ends what is done with its result, and is among the results. -/
def Use.run (m : Mem) (b : HB) : Use → Mem × List (Built HStmt × Mem)
  | .nothing => (m, [])
  | .build =>
    match hbuild grow m b with
    | .panic => (m, [(.panic, m)])
    | .ok r => (r.1, [(.ok r.2, r.1)])
  | .call c p =>
    match hexec u grow m b c with
    | .panic => (m, [(.panic, m)])
    | .ok r => p.run r.1 r.2
  | .both p q =>
    let r := p.run m b
    let s := q.run r.1 b
    (s.1, r.2 ++ s.2)

/-- The same program, with builders as values. -/
def Use.value (b : B) : Use → List (Built Stmt)
  | .nothing => []
  | .build => [b.build]
  | .call c p =>
    match exec u b c with
    | .panic => [.panic]
    | .ok b => p.value b
  | .both p q => p.value b ++ q.value b

/-- A line of a program that keeps its builders in variables 0, 1, …: `v := b.call(…)`, where `v` is the next variable, or `b.Build()`. -/
inductive Line where
  | call (i : Nat) (c : Call)
  | build (i : Nat)

/-- A program in Go's memory, as `Use.run`; a panic ends it, and so does a variable that there is not. -/
def Line.run (m : Mem) (env : List HB) : List Line → Mem × List (Built HStmt × Mem)
  | [] => (m, [])
  | .call i c :: ls =>
    match env[i]? with
    | none => (m, [])
    | some b =>
      match hexec u grow m b c with
      | .panic => (m, [(.panic, m)])
      | .ok r => Line.run r.1 (env ++ [r.2]) ls
  | .build i :: ls =>
    match env[i]? with
    | none => (m, [])
    | some b =>
      match hbuild grow m b with
      | .panic => (m, [(.panic, m)])
      | .ok r =>
        let s := Line.run r.1 env ls
        (s.1, (.ok r.2, r.1) :: s.2)

/-- The same program, with builders as values. -/
def Line.value (env : List B) : List Line → List (Built Stmt)
  | [] => []
  | .call i c :: ls =>
    match env[i]? with
    | none => []
    | some b =>
      match exec u b c with
      | .panic => [.panic]
      | .ok b => Line.value (env ++ [b]) ls
  | .build i :: ls =>
    match env[i]? with
    | none => []
    | some b =>
      match b.build with
      | .panic => [.panic]
      | .ok s => .ok s :: Line.value env ls

/-- What a result of `Build()` is, now. -/
def Built.look (m : Mem) : Built HStmt → Built Stmt
  | .panic => .panic
  | .ok (.error e) => .ok (.error e)
  | .ok (.ok s) => (s.read m).map .ok

/-- The statements, each looked at when it was built. -/
def atOnce (r : Mem × List (Built HStmt × Mem)) : List (Built Stmt) := r.2.map fun s => Built.look s.2 s.1

/-- The statements, looked at when the program has ended. -/
def atEnd (r : Mem × List (Built HStmt × Mem)) : List (Built Stmt) := r.2.map fun s => Built.look r.1 s.1

end Verif
