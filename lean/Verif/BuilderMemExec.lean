import Verif.BuilderMemLemmas

/-
Every call on a builder in memory does what the call does on the builder as value.
-/

namespace Verif

variable (u : Unicode) (grow : Nat → Nat → Nat)

namespace HB

/-- A new `DefaultStatementBuilder`. -/
theorem Go.base {m m' : Mem} {b : HB} {b' : HBase} (hi : Inv m b) (h : BStep m (b.baseOf m) m' b') : Go m b m' (.base b') := by
  obtain ⟨hcl, hm, hp, ha⟩ := h
  generalize m'.cl = c at hcl hm
  subst hm
  refine ⟨hcl, ?_, ?_, .empty _ _, .empty _ _, ?_, ?_, Nat.le_refl _, ?_, ?_, (fun _ hc => nomatch hc), ?_⟩
  · simp only [baseOf]
    rcases hp with hp | hp
    · rw [hp]; exact .refl hi.pt
    · rw [hp]; exact .empty _ _
  · simp only [baseOf]
    rcases ha with ha | ha
    · rw [ha]; exact .refl hi.ac
    · rw [ha]; exact .empty _ _
  · intro p hpp i hl hr
    simp only [baseOf] at hpp
    rcases hp with hp | hp
    · rw [hp] at hpp
      exact hi.parts p hpp i hl (reg_empty _ hr)
    · rw [hp] at hpp
      simp [Heap.read] at hpp
  · intro c hc; cases hc
  · intro c _ _; exact ⟨fun _ => rfl, _, rfl⟩
  · intro c; exact ⟨fun hh => hh.elim, fun hh => hh.elim⟩
  · intro p hpp
    simp only [baseOf] at hpp
    rcases hp with hp | hp
    · rw [hp] at hpp; exact .inl hpp
    · rw [hp] at hpp
      simp [Heap.read] at hpp

/-- The memory after a step of a `DefaultStatementBuilder`, put into a new cell. -/
theorem Go.new {m m' : Mem} {b : HB} {b' : HBase} (hi : Inv m b) (h : BStep m (b.baseOf m) m' b') {x : HB}
    (hx : x.cell = some m'.ncell) (hb : x.baseOf (m'.new b').1 = b') (ht : x.items = {}) (hs : x.sorts = {}) :
    Go m b (m'.new b').1 x := by
  have h1 := Go.base hi h
  have hn : m'.ncell = m.ncell := by rw [h.mem]
  refine ⟨by rw [hb]; exact h1.cl, by rw [hb]; exact h1.pt, by rw [hb]; exact h1.ac, by rw [ht]; exact h1.it, by rw [hs]; exact h1.so, ?_,
    ?_, ?_, ?_, ?_, ?_, by rw [hb]; exact h1.made⟩
  · rw [hb, hs]; exact h1.parts
  · intro c hc
    rw [hx] at hc
    cases hc
    exact Nat.lt_succ_self _
  · exact Nat.le_trans h1.ncell (Nat.le_succ _)
  · intro c hc hw
    have : (m'.new b').1.cells c = m'.cells c := by
      simp only [Mem.new]
      rw [if_neg (by omega)]
    rw [this]
    exact h1.cells c hc hw
  · intro c
    have key : x.cell = some c → m.ncell ≤ c := by
      intro hh; rw [hx] at hh; cases hh; omega
    refine ⟨fun hh => .inl (key ?_), fun hh => .inl (key ?_)⟩
    · revert hh; cases x <;> intro hh <;> first | exact hh | exact hh.elim
    · revert hh; cases x <;> intro hh <;> first | exact hh | exact hh.elim
  · intro c hh
    rw [hx] at hh; cases hh; exact .inl (by omega)

/-- A builder without pointer. -/
theorem Go.dead {m : Mem} {b : HB} {x : HB} (hx : x.cell = none) (hb : x.baseOf m = {}) (ht : x.items = {}) (hs : x.sorts = {}) :
    Go m b m x := by
  refine ⟨by rw [hb]; exact .empty _ _, by rw [hb]; exact .empty _ _, by rw [hb]; exact .empty _ _, by rw [ht]; exact .empty _ _,
    by rw [hs]; exact .empty _ _, ?_, ?_, Nat.le_refl _, fun c _ _ => ⟨fun _ => rfl, _, rfl⟩, ?_, fun c hc => by (rw [hx] at hc; cases hc),
    fun p hp => by (rw [hb] at hp; simp [Heap.read] at hp)⟩
  · intro p hp; rw [hb] at hp; simp [Heap.read] at hp
  · intro c hc; rw [hx] at hc; cases hc
  · intro c
    have key : x.cell ≠ some c := by rw [hx]; simp
    refine ⟨fun hh => (key ?_).elim, fun hh => (key ?_).elim⟩
    · revert hh; cases x <;> intro hh <;> first | exact hh | exact hh.elim
    · revert hh; cases x <;> intro hh <;> first | exact hh | exact hh.elim

end HB

/-- A builder as value, where the open call inside the builder of a call is the call itself: it is overwritten before it is used. -/
def B.norm : B → B
  | .inCall i => .inCall { i with base := i.base.map fun b => { b with ocall := i.call } }
  | b => b

/-- The call in memory does what the call on values does. -/
def Matches (m : Mem) (b : HB) (r : Outcome (Mem × HB)) (x : Outcome B) : Prop :=
  (∃ m' b' y, r = .ok (m', b') ∧ x = .ok y ∧ HB.Go m b m' b' ∧ b'.read m' = y.norm) ∨ (r = .panic ∧ x = .panic)

theorem Matches.ok {m : Mem} {b : HB} {r : Mem × HB} {y : B} (h : HB.Go m b r.1 r.2) (hr : r.2.read r.1 = y.norm) :
    Matches m b (.ok r) (.ok y) := .inl ⟨r.1, r.2, y, rfl, rfl, h, hr⟩

theorem Matches.panic {m : Mem} {b : HB} : Matches m b .panic .panic := .inr ⟨rfl, rfl⟩

theorem Matches.trans {m m1 : Mem} {b b1 : HB} {r : Outcome (Mem × HB)} {x : Outcome B} (h : HB.Go m b m1 b1) (g : Matches m1 b1 r x) :
    Matches m b r x := by
  rcases g with ⟨m', b', y, h1, h2, h3, h4⟩ | ⟨h1, h2⟩
  · exact .inl ⟨m', b', y, h1, h2, h.trans h3, h4⟩
  · exact .inr ⟨h1, h2⟩

namespace HB

/-- The builder in the new cell. -/
theorem read_new (m : Mem) (b : HBase) : ((m.new b).1.cells (m.new b).2).read (m.new b).1 = b.read m := by
  simp only [Mem.new, if_true]
  rfl

theorem hexecBase_matches {m : Mem} {b : HB} (hi : Inv m b) (c : Call) :
    Matches m b (hexecBase u grow m (b.baseOf m) c) (execBase u ((b.baseOf m).read m) c) := by
  have hcl := hi.cl
  generalize hbb : b.baseOf m = bb at hcl ⊢
  have base : ∀ {r : Mem × HBase} {x : Base}, HBase.Does m bb r x → Matches m b (.ok (r.1, .base r.2)) (.ok (.base x)) := by
    intro r x h
    refine .ok (Go.base hi (by rw [hbb]; exact h.1)) ?_
    exact congrArg B.base h.2
  have refl := BStep.refl hcl
  have newU : ∀ {m' : Mem} {b' : HBase} {y : Base}, BStep m bb m' b' → b'.read m' = y → ∀ (t : UpdType) (ks : UpdKeys) (xs : List Val),
      Matches m b (.ok ((m'.new b').1, .upd (b'.updB (m'.new b').2 t ks xs))) (.ok (.upd (y.updB t ks xs))) := by
    intro m' b' y hs hy t ks xs
    unfold HBase.updB Base.updB
    have he : y.err = b'.err := by rw [← hy]; rfl
    rw [he]
    have h0 : Go m b (m'.new b').1 (.upd { cell := some (m'.new b').2 }) :=
      Go.new hi (by rw [hbb]; exact hs) rfl (by simp [baseOf, HB.cell, Mem.new]) rfl rfl
    cases firstErr [b'.err, errsOf xs] with
    | some e => exact .ok (h0.trans (Go.dead rfl rfl rfl rfl)) rfl
    | none =>
      simp only
      cases updBuilder t ks xs with
      | error e => exact .ok (h0.trans (Go.dead rfl rfl rfl rfl)) rfl
      | ok z =>
        refine .ok (Go.new hi (by rw [hbb]; exact hs) rfl (by simp [baseOf, HB.cell, Mem.new]) rfl rfl) ?_
        simp only [HB.read, Option.map_some, read_new, B.norm, hy]
        rfl
  have set : ∀ ks xs, Matches m b (.ok (bb.set grow m ks xs)) (.ok ((bb.read m).set ks xs)) := by
    intro ks xs
    simp only [HBase.set, Base.set]
    have : (bb.read m).err = bb.err := rfl
    rw [this]
    cases firstErr [bb.err, errsOf xs] with
    | some e => exact base (.dead m bb e)
    | none =>
      have h1 := (HBase.Does.refl hcl).closeUpdate grow
      exact newU h1.1 h1.2 .set ks xs
  have update2 : ∀ t ks e xs, Matches m b (.ok (bb.update2 m t ks e xs)) (.ok ((bb.read m).update2 t ks e xs)) := by
    intro t ks e xs
    simp only [HBase.update2, Base.update2]
    have : (bb.read m).err = bb.err := rfl
    rw [this]
    cases firstErr [bb.err, e] with
    | some e => exact base (.dead m bb e)
    | none => exact newU refl rfl t ks xs
  cases c with
  | match_ k kw o ps => exact base (HBase.match_does grow hcl k kw o ps)
  | where_ c => exact base (HBase.where_does hcl c)
  | and ks c =>
    simp only [hexecBase, execBase, HBase.and, Base.and]
    have : (bb.read m).err = bb.err := rfl
    rw [this]
    cases bb.err with
    | some e => exact base (.dead m bb e)
    | none =>
      simp only
      have : (bb.read m).omatch = bb.omatch := rfl
      rw [this]
      cases combineOfGet ks bb.omatch.cond .and c with
      | panic => exact .panic
      | ok x =>
        exact base (r := (m, { bb with err := none, omatch := { bb.omatch with cond := some x } })) ⟨refl.set _ rfl rfl (.inl rfl), rfl⟩
  | or ks c =>
    simp only [hexecBase, execBase, HBase.or, Base.or]
    have : (bb.read m).err = bb.err := rfl
    rw [this]
    cases firstErr [bb.err, c.toVal.err] with
    | some e => exact base (.dead m bb e)
    | none =>
      simp only
      have : (bb.read m).omatch = bb.omatch := rfl
      rw [this]
      cases combineOfGet ks bb.omatch.cond .or c with
      | panic => exact .panic
      | ok x =>
        exact base (r := (m, { bb with omatch := { bb.omatch with cond := some x } })) ⟨refl.set _ rfl rfl (.inl rfl), rfl⟩
  | with_ ks d a =>
    simp only [hexecBase, execBase, HBase.with_, Base.with_]
    have : (bb.read m).err = bb.err := rfl
    rw [this]
    cases firstErr [bb.err, a.namedErr, errsOf (a.vals u)] with
    | some e => exact .ok (Go.dead rfl rfl rfl rfl) rfl
    | none =>
      refine .ok (Go.new hi (by rw [hbb]; exact refl) rfl (by simp [baseOf, HB.cell, Mem.new]) rfl rfl) ?_
      simp only [HB.read, Option.map_some, read_new, B.norm]
      rfl
  | returning k ko d a =>
    simp only [hexecBase, execBase, HBase.returning, Base.returning]
    have : (bb.read m).err = bb.err := rfl
    rw [this]
    cases firstErr [bb.err, a.namedErr, errsOf (a.vals u)] with
    | some e => exact .ok (Go.dead rfl rfl rfl rfl) rfl
    | none =>
      refine .ok (Go.new hi (by rw [hbb]; exact refl) rfl (by simp [baseOf, HB.cell, Mem.new]) rfl rfl) ?_
      simp only [HB.read, Option.map_some, read_new, B.norm]
      rfl
  | delete ks d a => exact base (HBase.openUpdate_does u grow hcl _ _ _)
  | create ks ps => exact base (HBase.openUpdate_does u grow hcl _ _ _)
  | merge ks ps => exact base (HBase.openUpdate_does u grow hcl _ _ _)
  | set ks xs => exact set ks xs
  | setNamed ks n x =>
    simp only [hexecBase, execBase, HBase.setNamed, Base.setNamed]
    have : (bb.read m).err = bb.err := rfl
    rw [this]
    cases firstErr [bb.err, n.err, x.err] with
    | some e => exact base (.dead m bb e)
    | none => exact set ks _
  | setLabels ks g ko kl kls n ls => exact update2 _ _ _ _
  | removeLabels ks g ko kl kls n ls => exact update2 _ _ _ _
  | remove ks xs => exact update2 _ _ _ _
  | on t =>
    simp only [hexecBase, execBase, HBase.on, Base.on]
    have : (bb.read m).err = bb.err := rfl
    rw [this]
    cases bb.err with
    | some e => exact .ok (Go.dead rfl rfl rfl rfl) rfl
    | none =>
      simp only
      have hu : (bb.read m).oupdate = bb.oupdate.map (HUpd.read m) := rfl
      rw [hu]
      cases ho : bb.oupdate with
      | none => exact .ok (Go.dead rfl rfl rfl rfl) rfl
      | some x =>
        cases x with
        | merge k kp ps s =>
          refine .ok (Go.new hi (by rw [hbb]; exact refl) rfl (by simp [baseOf, HB.cell, Mem.new]) rfl rfl) ?_
          simp only [HB.read, Option.map_some, read_new, B.norm]
          rfl
        | create k kp ps => exact .ok (Go.dead rfl rfl rfl rfl) rfl
        | done c => exact .ok (Go.dead rfl rfl rfl rfl) rfl
  | unwind x =>
    simp only [hexecBase, execBase, HBase.unwind, Base.unwind]
    have : (bb.read m).err = bb.err := rfl
    rw [this]
    cases firstErr [bb.err, x.err] with
    | some e => exact .ok (Go.dead rfl rfl rfl rfl) rfl
    | none =>
      have h1 := (HBase.Does.refl hcl).closeMatch grow
      refine .ok (Go.new hi (by rw [hbb]; exact h1.1) rfl (by simp [baseOf, HB.cell, Mem.new]) rfl rfl) ?_
      simp only [HB.read, Option.map_some, read_new, B.norm]
      exact congrArg (fun y => B.unwind { base := some y, x := some x }) h1.2
  | callStmt k s => exact base (HBase.callStmt_does grow hcl k s)
  | callProc kc ka kw k kn name =>
    simp only [hexecBase, execBase, HBase.callProc, Base.callProc]
    have : (bb.read m).err = bb.err := rfl
    rw [this]
    cases bb.err with
    | some e => exact .ok (Go.dead rfl rfl rfl rfl) rfl
    | none =>
      simp only
      cases procName k kn name with
      | panic => exact .panic
      | ok p =>
        have h1 := ((HBase.Does.refl hcl).closeMatch grow).closeCall grow
        simp only [Outcome.map]
        refine .ok (Go.new hi (by rw [hbb]; exact h1.1.set _ rfl rfl (.inl rfl)) rfl (by simp [baseOf, HB.cell, Mem.new]) rfl rfl) ?_
        simp only [HB.read, Option.map_some, read_new, B.norm]
        let c : CallB := { kc := kc, ka := ka, kw := kw, standalone := false, name := p }
        have h2 := congrArg (fun y : Base => B.inCall { base := some { y with ocall := some c }, call := some c }) h1.2
        exact h2
  | _ => exact .panic

/-! ### Orderings -/

/-- A call that changes the ordering. -/
theorem _root_.Verif.HOrder.exec_does {m : Mem} {o : HOrder} (h : m.so.Fit o.items) {c : Call} {r : Mem × HOrder}
    (hr : o.exec grow m c = some r) : HStep m.so o.items r.1.so r.2.items ∧ r.1 = { m with so := r.1.so } := by
  cases c <;> simp only [HOrder.exec, reduceCtorEq, Option.some.injEq] at hr <;> subst hr
  all_goals first
    | exact ⟨.refl h, rfl⟩
    | exact ⟨.append grow h _, rfl⟩

/-- What the call does to an ordering as value. -/
def _root_.Verif.OrderB.exec (o : OrderB) : Call → Option OrderB
  | .orderItems xs => some (o.addItems xs)
  | .orderBy k x => some (o.byExpression k x)
  | .andBy k x => some (o.byExpression k x)
  | .asc k => some (o.ascending k)
  | .desc => some o.descending
  | .skip k kl n => some (o.setSkip k kl n)
  | .limit k kl n => some (o.setLimit k kl n)
  | _ => none

theorem _root_.Verif.HOrder.exec_read (m : Mem) (o : HOrder) (c : Call) :
    (o.exec grow m c).map (fun r => r.2.read r.1) = (o.read m).exec c := by
  cases c <;> simp only [HOrder.exec, OrderB.exec, Option.map_none, Option.map_some] <;>
    simp [HOrder.push, HOrder.read, OrderB.addItems, OrderB.byExpression, OrderB.ascending, OrderB.descending, OrderB.setSkip,
      OrderB.setLimit, Heap.read_append]

/-- Only the ordering changes. -/
theorem Go.order {m : Mem} {b b' : HB} {h' : Heap SortItemV} (hi : Inv m b) (hs : HStep m.so b.sorts h' b'.sorts)
    (hc : b'.cell = b.cell) (hb : b'.baseOf { m with so := h' } = b.baseOf m) (ht : b'.items = b.items)
    (hw : ∀ c, b'.writes c = b.writes c) (hcl : ∀ c, b'.calls c = b.calls c) : Go m b { m with so := h' } b' := by
  refine ⟨by rw [hb]; exact .refl hi.cl, by rw [hb]; exact .refl hi.pt, by rw [hb]; exact .refl hi.ac, by rw [ht]; exact .refl hi.it, hs,
    ?_, ?_, Nat.le_refl _, fun c _ _ => ⟨fun _ => rfl, _, rfl⟩, ?_, fun c hh => .inr (by rw [← hc]; exact hh),
    fun p hp => .inl (by rw [hb] at hp; exact hp)⟩
  · intro p hp i hl hr
    rw [hb] at hp
    exact hi.parts p hp i hl (hs.shrink _ _ hr)
  · intro c hh; rw [hc] at hh; exact hi.cell c hh
  · intro c; rw [hw, hcl]; exact ⟨.inr, fun h => .inr (.inr h)⟩

theorem base_same {m m' : Mem} {b b' : HB} (h : m'.cells = m.cells) (hc : b'.cell = b.cell) (hb : ∀ x, b ≠ .base x) (hb' : ∀ x, b' ≠ .base x) :
    b'.baseOf m' = b.baseOf m := by
  have h1 : b'.baseOf m' = match b'.cell with | some c => m'.cells c | none => {} := by
    cases b' <;> first | rfl | exact absurd rfl (hb' _)
  have h2 : b.baseOf m = match b.cell with | some c => m.cells c | none => {} := by
    cases b <;> first | rfl | exact absurd rfl (hb _)
  rw [h1, h2, hc, h]

/-- A later memory with other sort items beyond the slice: builders are the same. -/
theorem parts_same {m m' : Mem} {s t : Slice} {parts : List HPart} (h : ∀ a i, ¬ m.so.Reg s a i → m'.so.mem a i = m.so.mem a i)
    (hp : ∀ p ∈ parts, ∀ i, i < p.sorts.len → ¬ m.so.Reg t p.sorts.arr i) (hst : ∀ a i, m.so.Reg s a i → m.so.Reg t a i) :
    parts.map (HPart.read m') = parts.map (HPart.read m) := by
  apply List.map_congr_left
  intro p hpp
  have : m'.so.read p.sorts = m.so.read p.sorts :=
    Heap.read_same h (fun i hi hr => hp p hpp i hi (hst _ _ hr))
  simp only [HPart.read, this]

theorem order_base_read {m : Mem} {b : HB} {h' : Heap SortItemV} {s' : Slice} (hi : Inv m b) (hs : HStep m.so b.sorts h' s') :
    (b.baseOf m).read { m with so := h' } = (b.baseOf m).read m := by
  have : (m.pt.read (b.baseOf m).parts).map (HPart.read { m with so := h' }) = (m.pt.read (b.baseOf m).parts).map (HPart.read m) :=
    parts_same (m := m) (m' := { m with so := h' }) hs.same hi.parts (fun _ _ h => h)
  simp only [HBase.read, this]
  have hu : HUpd.read { m with so := h' } = HUpd.read m := by
    funext x; cases x <;> rfl
  rw [hu]

/-! ### The end of a WITH -/

theorem _root_.Verif.HOrder.finish_does {m : Mem} {o : HOrder} (h : m.so.Fit o.items) :
    HStep m.so o.items (o.finish grow m).1.so (o.finish grow m).2 ∧ (o.finish grow m).1 = { m with so := (o.finish grow m).1.so } ∧
      (o.finish grow m).1.so.read (o.finish grow m).2 = (o.read m).allItems := by
  unfold HOrder.finish OrderB.allItems
  have : (o.read m).last = o.last := rfl
  rw [this]
  split
  · exact ⟨.append grow h _, rfl, Heap.read_append grow _ _ _⟩
  · exact ⟨.refl h, rfl, by simp [HOrder.read]⟩

theorem _root_.Verif.OrderB.done_all (m : Mem) (o : HOrder) (k : Key) :
    (o.done (o.read m).allItems).build k = (o.read m).build k ∧ (o.done (o.read m).allItems).skip = (o.read m).skip ∧
      (o.done (o.read m).allItems).limit = (o.read m).limit := by
  refine ⟨?_, rfl, rfl⟩
  simp [OrderB.build, OrderB.allItems, HOrder.done]

theorem _root_.Verif.HBase.list_read (m : Mem) (b : HBase) : b.list m = (b.read m).list := by
  unfold HBase.list Base.list
  have h1 : (b.read m).ocall = b.ocall := rfl
  have h2 : (b.read m).oupdate = b.oupdate.map (HUpd.read m) := rfl
  have h3 : (b.read m).omatch = b.omatch := rfl
  have h4 : (b.read m).elems = m.cl.read b.elems := rfl
  rw [h1, h2, h3, h4]
  cases b.oupdate <;> rfl

/-- A new part. -/
theorem Go.part {m : Mem} {b : HB} {h' : Heap SortItemV} {s' : Slice} (hi : Inv m b) (hs : HStep m.so b.sorts h' s')
    {p : HPart} (hp : p.sorts = s') {b' : HBase} (hparts : b'.parts = (m.pt.append grow (b.baseOf m).parts [p]).2)
    (he : b'.elems = (b.baseOf m).elems ∨ b'.elems = {}) (ha : b'.acts = (b.baseOf m).acts ∨ b'.acts = {}) :
    Go m b { m with so := h', pt := (m.pt.append grow (b.baseOf m).parts [p]).1 } (.base b') := by
  refine ⟨?_, ?_, ?_, .empty _ _, hs.trans (.empty _ _), ?_, ?_, Nat.le_refl _, fun c _ _ => ⟨fun _ => rfl, _, rfl⟩, ?_,
    (fun _ hc => nomatch hc), ?_⟩
  · simp only [baseOf]
    rcases he with he | he
    · rw [he]; exact .refl hi.cl
    · rw [he]; exact .empty _ _
  · simp only [baseOf, hparts]
    exact .append grow hi.pt _
  · simp only [baseOf]
    rcases ha with ha | ha
    · rw [ha]; exact .refl hi.ac
    · rw [ha]; exact .empty _ _
  · intro q hq i hl hr
    simp only [baseOf, hparts] at hq
    rw [Heap.read_append] at hq
    rcases List.mem_append.mp hq with hq | hq
    · exact hi.parts q hq i hl (hs.shrink _ _ (reg_empty _ hr))
    · simp only [List.mem_singleton] at hq
      subst hq
      rw [hp] at hl hr
      exact hs.fit.out i hl (reg_empty _ hr)
  · intro c hc; cases hc
  · intro c; exact ⟨fun hh => hh.elim, fun hh => hh.elim⟩
  · intro q hq
    simp only [baseOf, hparts] at hq
    rw [Heap.read_append] at hq
    rcases List.mem_append.mp hq with hq | hq
    · exact .inl hq
    · simp only [List.mem_singleton] at hq
      subst hq
      rw [hp]
      exact .inr hs.window

theorem with_next {m : Mem} {w : HWithB} {lw : WithB} (hi : Inv m (.with_ w)) (hr : HB.read m (.with_ w) = .with_ lw) :
    (∃ m' b' y, w.next grow m = .ok (m', b') ∧ lw.next = .ok y ∧ Go m (.with_ w) m' (.base b') ∧ b'.read m' = y) ∨
      (w.next grow m = .panic ∧ lw.next = .panic) := by
  simp only [HB.read, B.with_.injEq] at hr
  subst hr
  cases hc : w.cell with
  | none => exact .inr ⟨by simp [HWithB.next, hc], by simp [WithB.next]⟩
  | some c =>
    left
    have hbase : (HB.with_ w).baseOf m = m.cells c := by simp [baseOf, HB.cell, hc]
    by_cases hx : w.items = []
    · refine ⟨((m.cells c).addWith grow m w.kp none {}).1, ((m.cells c).addWith grow m w.kp none {}).2, _,
        by simp only [HWithB.next, hc, if_pos hx], by simp only [WithB.next, Option.map_some]; rfl, ?_, ?_⟩
      · unfold HBase.addWith
        cases (m.cells c).err with
        | some e => exact Go.base hi (.dead _ _ _)
        | none => exact Go.base hi (by rw [hbase]; exact .refl (by rw [← hbase]; exact hi.cl))
      · unfold HBase.addWith Base.addWith
        have : ((m.cells c).read m).err = (m.cells c).err := rfl
        rw [this]
        have hw : withCreate w.k w.kl w.ko w.kw w.distinct w.items (w.order.read m) w.cond = none := by simp [withCreate, hx]
        rw [hw]
        cases (m.cells c).err <;> rfl
    · obtain ⟨hs, hm, hread⟩ := HOrder.finish_does grow (o := w.order) hi.so
      let r := (m.cells c).addWith grow (w.order.finish grow m).1 w.kp
        (some fun ss => (withCreate w.k w.kl w.ko w.kw w.distinct w.items (w.order.done ss) w.cond).getD default) (w.order.finish grow m).2
      refine ⟨r.1, r.2, _, by simp only [HWithB.next, hc, if_neg hx]; rfl, by simp only [WithB.next, Option.map_some]; rfl, ?_, ?_⟩ <;>
        simp only [r] <;>
        revert hs hm hread <;> generalize w.order.finish grow m = r <;> obtain ⟨m1, sl⟩ := r <;> simp only <;>
        generalize m1.so = h' <;> intro hs hm hread <;> subst hm
      · unfold HBase.addWith
        cases (m.cells c).err with
        | some e =>
          have h0 : Go m (.with_ w) { m with so := h' } (.with_ { w with order := { w.order with items := sl } }) :=
            Go.order hi hs rfl rfl rfl (fun _ => rfl) (fun _ => rfl)
          exact h0.trans (Go.base h0.inv (.dead _ _ _))
        | none =>
          simp only
          have := @Go.part grow m (.with_ w) h' sl hi hs
          rw [hbase] at this
          cases (m.cells c).list { m with so := h' } with
          | error e => exact this rfl rfl (.inl rfl) (.inl rfl)
          | ok cs => exact this rfl rfl (.inr rfl) (.inr rfl)
      · have hw : ∀ d, some ((withCreate w.k w.kl w.ko w.kw w.distinct w.items (w.order.done (h'.read sl)) w.cond).getD d) =
            withCreate w.k w.kl w.ko w.kw w.distinct w.items (w.order.read m) w.cond := by
          intro d
          obtain ⟨e1, e2, e3⟩ := OrderB.done_all m w.order w.ko
          rw [hread]
          simp only [withCreate, if_neg hx, Option.getD_some, e1, e2, e3]
        have hold := order_base_read hi hs
        rw [hbase] at hold
        have hpart : ∀ cs v, some v = withCreate w.k w.kl w.ko w.kw w.distinct w.items (w.order.read m) w.cond → ∀ pt,
            HPart.read { m with so := h', pt := pt } (HBase.part { m with so := h' } w.kp cs
              (fun ss => (withCreate w.k w.kl w.ko w.kw w.distinct w.items (w.order.done ss) w.cond).getD default) sl) = partCreate w.kp cs v := by
          intro cs v hv pt
          have := hw default
          rw [← hv] at this
          simp only [Option.some.injEq] at this
          simp only [HPart.read, HBase.part, this]
        have hlist : (m.cells c).list { m with so := h' } = ((m.cells c).read m).list := by rw [HBase.list_read, hold]
        have hpr : ∀ pt : Heap HPart, HPart.read { m with so := h', pt := pt } = HPart.read { m with so := h' } := fun _ => rfl
        have hur : ∀ pt : Heap HPart, HUpd.read { m with so := h', pt := pt } = HUpd.read m := by
          intro pt; funext x; cases x <;> rfl
        have hps : (m.pt.read (m.cells c).parts).map (HPart.read { m with so := h' }) = ((m.cells c).read m).parts := by
          rw [← hold]; rfl
        cases hv : withCreate w.k w.kl w.ko w.kw w.distinct w.items (w.order.read m) w.cond with
        | none => have := hw default; rw [hv] at this; cases this
        | some v =>
          unfold HBase.addWith Base.addWith
          have : ((m.cells c).read m).err = (m.cells c).err := rfl
          rw [this]
          cases (m.cells c).err with
          | some e => rfl
          | none =>
            simp only
            rw [hlist]
            cases ((m.cells c).read m).list with
            | error e =>
              simp only [HBase.pushPart, HBase.read, Heap.read_append, List.map_append, List.map_cons, List.map_nil,
                hpart [] v hv.symm, hpr, hps, hur]
            | ok cs =>
              simp only [HBase.pushPart, HBase.read, Heap.read_append, List.map_append, List.map_cons, List.map_nil,
                hpart cs v hv.symm, hpr, hps]
              simp [Heap.read]

/-! ### Pointers -/

/-- The builder changes what its pointer points to. -/
theorem Go.store {m m1 : Mem} {b : HB} {b1 : HBase} (hi : Inv m b) {c : Nat} (hc : b.cell = some c) (hw : b.writes c)
    (h : BStep m (b.baseOf m) m1 b1) {x : HB} (hx : x.cell = some c) (hb : x.baseOf (m1.store c b1) = b1) (ht : x.items = {})
    (hs : x.sorts = {}) : Go m b (m1.store c b1) x := by
  have h1 := Go.base hi h
  have hn : m1.ncell = m.ncell := by rw [h.mem]
  have hcells : m1.cells = m.cells := by rw [h.mem]
  have own : ∀ c', (x.writes c' ∨ x.calls c') → c' = c := by
    intro c' hh
    have : x.cell = some c' := by
      rcases hh with hh | hh <;> revert hh <;> cases x <;> intro hh <;> first | exact hh | exact hh.elim
    rw [hx] at this; cases this; rfl
  refine ⟨by rw [hb]; exact h1.cl, by rw [hb]; exact h1.pt, by rw [hb]; exact h1.ac, by rw [ht]; exact h1.it, by rw [hs]; exact h1.so, ?_,
    ?_, h1.ncell, ?_, ?_, fun c' hh => .inr (by rw [hx] at hh; cases hh; exact hc), by rw [hb]; exact h1.made⟩
  · rw [hb, hs]; exact h1.parts
  · intro c' hc'
    rw [hx] at hc'; cases hc'
    simp only [Mem.store, hn]
    exact hi.cell c hc
  · intro c' _ hw'
    have : c' ≠ c := fun hh => hw' (hh ▸ hw)
    simp only [Mem.store, if_neg this, hcells]
    exact ⟨fun _ => trivial, _, rfl⟩
  · intro c'
    refine ⟨fun hh => ?_, fun hh => ?_⟩
    · rw [own c' (.inl hh)]; exact .inr hw
    · rw [own c' (.inr hh)]; exact .inr (.inl hw)

/-- The builder changes the open call of what its pointer points to. -/
theorem Go.setCall {m : Mem} {i : HInCallB} (hi : Inv m (.inCall i)) {c : Nat} (hc : i.cell = some c) (o : Option CallB) {x : HB}
    (hx : x.cell = some c) (hb : x.baseOf (m.store c { m.cells c with ocall := o }) = { m.cells c with ocall := o }) (ht : x.items = {})
    (hs : x.sorts = {}) (hw : ∀ c, ¬ x.writes c) : Go m (.inCall i) (m.store c { m.cells c with ocall := o }) x := by
  have hbase : (HB.inCall i).baseOf m = m.cells c := by simp [baseOf, HB.cell, hc]
  have h1 := hi.cl; have h2 := hi.pt; have h3 := hi.ac; have h4 := hi.parts
  rw [hbase] at h1 h2 h3 h4
  refine ⟨by rw [hb, hbase]; exact .refl h1, by rw [hb, hbase]; exact .refl h2, by rw [hb, hbase]; exact .refl h3,
    by rw [ht]; exact .empty _ _, by rw [hs]; exact .empty _ _, ?_, ?_, Nat.le_refl _, ?_, ?_,
    fun c' hh => .inr (by rw [hx] at hh; cases hh; exact hc), by rw [hb, hbase]; exact fun _ => .inl⟩
  · rw [hb, hs]; exact h4
  · intro c' hc'
    rw [hx] at hc'; cases hc'
    exact hi.cell c hc
  · intro c' _ _
    by_cases he : c' = c
    · subst he
      refine ⟨fun hh => (hh hc).elim, o, ?_⟩
      simp only [Mem.store, if_true]
    · simp only [Mem.store, if_neg he]
      exact ⟨fun _ => trivial, _, rfl⟩
  · intro c'
    refine ⟨fun hh => (hw c' hh).elim, fun hh => ?_⟩
    have : x.cell = some c' := by
      revert hh; cases x <;> intro hh <;> first | exact hh | exact hh.elim
    rw [hx] at this; cases this
    exact .inr (.inr hc)

theorem store_cell (m : Mem) (c : Nat) (b : HBase) : (m.store c b).cells c = b := by simp [Mem.store]

theorem store_read (m : Mem) (c : Nat) (b x : HBase) : x.read (m.store c b) = x.read m := rfl

/-- A builder for updates whose shared builder has changed. -/
theorem Go.keep {m m1 : Mem} {x : HUpdB} {b1 : HBase} (hi : Inv m (.upd x)) {c : Nat} (hc : x.cell = some c)
    (h : BStep m (m.cells c) m1 b1) : Go m (.upd x) (m1.store c b1) (.upd x) := by
  have hbase : (HB.upd x).baseOf m = m.cells c := by simp [baseOf, HB.cell, hc]
  have hbase' : (HB.upd x).baseOf (m1.store c b1) = b1 := by simp [baseOf, HB.cell, hc, Mem.store]
  have h1 := Go.store hi hc hc (by rw [hbase]; exact h) (x := .upd { cell := some c }) rfl (by simp [baseOf, HB.cell, Mem.store]) rfl rfl
  have hb1 : (HB.upd { cell := some c }).baseOf (m1.store c b1) = b1 := by simp [baseOf, HB.cell, Mem.store]
  have hit : (m1.store c b1).it = m.it := by simp only [Mem.store]; rw [h.mem]
  have hso : (m1.store c b1).so = m.so := by simp only [Mem.store]; rw [h.mem]
  have hpt : (m1.store c b1).pt = m.pt := by simp only [Mem.store]; rw [h.mem]
  refine ⟨?_, ?_, ?_, by rw [hit]; exact .refl hi.it, by rw [hso]; exact .refl hi.so, ?_, ?_, h1.ncell, h1.cells, ?_, fun _ => .inr, ?_⟩
  · have := h1.cl; rw [hb1] at this; rw [hbase']; exact this
  · have := h1.pt; rw [hb1] at this; rw [hbase']; exact this
  · have := h1.ac; rw [hb1] at this; rw [hbase']; exact this
  · rw [hbase', hpt, hso]
    have hp := hi.parts
    rw [hbase] at hp
    rcases h.parts with h2 | h2
    · rw [h2]; exact hp
    · rw [h2]
      intro p hp
      rw [Heap.read_empty _ _ rfl] at hp
      cases hp
  · intro c' hh
    rw [HB.cell, hc] at hh
    exact h1.cell c' hh
  · intro c'
    exact ⟨fun hh => .inr hh, fun hh => hh.elim⟩
  · have := h1.made; rw [hb1] at this; rw [hbase']; exact this

/-- default_statement_with_update.go: the clause is added to the builder that the pointer points to. -/
theorem upd_next {m : Mem} {x : HUpdB} {lx : UpdB} (hi : Inv m (.upd x)) (hr : HB.read m (.upd x) = .upd lx) :
    (∃ m' c y, x.next grow m = .ok (m', c) ∧ lx.next = .ok y ∧ Go m (.upd x) m' (.upd { cell := some c }) ∧
      (m'.cells c).read m' = y ∧ Go m (.upd x) m' (.upd x) ∧ x.cell = some c ∧ m'.so = m.so ∧ m'.it = m.it) ∨
      (x.next grow m = .panic ∧ lx.next = .panic) := by
  simp only [HB.read, B.upd.injEq] at hr
  subst hr
  cases hc : x.cell with
  | none => exact .inr ⟨by simp [HUpdB.next, hc], by simp [UpdB.next]⟩
  | some c =>
    cases hd : x.builder with
    | none => exact .inr ⟨by simp [HUpdB.next, hc, hd], by simp [UpdB.next]⟩
    | some d =>
      have hbase : (HB.upd x).baseOf m = m.cells c := by simp [baseOf, HB.cell, hc]
      have hcl := hi.cl
      rw [hbase] at hcl
      have h1 := HBase.addClause_does grow hcl d.build
      refine .inl ⟨((m.cells c).addClause grow m d.build).1.store c ((m.cells c).addClause grow m d.build).2, c, _,
        by simp only [HUpdB.next, hc, hd], by simp only [UpdB.next, Option.map_some]; rfl,
        Go.store hi hc hc (by rw [hbase]; exact h1.1) rfl (by simp [baseOf, HB.cell, Mem.store]) rfl rfl, ?_, Go.keep hi hc h1.1, rfl, ?_, ?_⟩
      · rw [store_cell, store_read]; exact h1.2
      · simp only [Mem.store]; rw [h1.1.mem]
      · simp only [Mem.store]; rw [h1.1.mem]

theorem inCall_next {m : Mem} {i : HInCallB} {li : InCallB} (hi : Inv m (.inCall i)) (hr : HB.read m (.inCall i) = (B.inCall li).norm)
    (d : Option CallB) :
    (∃ m' c y, HInCallB.next m { i with call := d } = .ok (m', c) ∧ InCallB.next { li with call := d } = .ok y ∧
      Go m (.inCall i) m' (.inCall { cell := some c }) ∧ Go m (.inCall i) m' (.ptr c) ∧ (m'.cells c).read m' = y) ∨
      (HInCallB.next m { i with call := d } = .panic ∧ InCallB.next { li with call := d } = .panic) := by
  simp only [HB.read, B.norm, B.inCall.injEq, InCallB.mk.injEq] at hr
  obtain ⟨hr1, hr2, hr3⟩ := hr
  cases hc : i.cell with
  | none =>
    rw [hc] at hr1
    have : li.base = none := by
      cases hb : li.base with
      | none => rfl
      | some _ => rw [hb] at hr1; cases hr1
    exact .inr ⟨by simp [HInCallB.next], by simp [InCallB.next, this]⟩
  | some c =>
    rw [hc] at hr1
    cases hb : li.base with
    | none => rw [hb] at hr1; cases hr1
    | some lb =>
      rw [hb] at hr1
      cases d with
      | none => exact .inr ⟨by simp [HInCallB.next], by simp [InCallB.next]⟩
      | some d =>
        refine .inl ⟨_, c, _, by simp only [HInCallB.next]; rfl, by simp only [InCallB.next]; rfl, ?_, ?_, ?_⟩
        · exact Go.setCall hi hc _ rfl (by simp [baseOf, HB.cell, Mem.store]) rfl rfl (fun _ h => h)
        · exact Go.setCall hi hc _ rfl (by simp [baseOf, HB.cell, Mem.store]) rfl rfl (fun _ h => h)
        · rw [store_cell, store_read]
          simp only [Option.map_some, Option.some.injEq] at hr1
          exact congrArg (fun x : Base => { x with ocall := some d }) hr1

/-! ### The calls -/

theorem norm_base {b : B} {x : Base} (h : b.norm = .base x) : b = .base x := by
  cases b <;> first | exact h | (simp [B.norm] at h)
theorem norm_with {b : B} {x : WithB} (h : b.norm = .with_ x) : b = .with_ x := by
  cases b <;> first | exact h | (simp [B.norm] at h)
theorem norm_ret {b : B} {x : RetB} (h : b.norm = .ret x) : b = .ret x := by
  cases b <;> first | exact h | (simp [B.norm] at h)
theorem norm_upd {b : B} {x : UpdB} (h : b.norm = .upd x) : b = .upd x := by
  cases b <;> first | exact h | (simp [B.norm] at h)
theorem norm_unwind {b : B} {x : UnwindB} (h : b.norm = .unwind x) : b = .unwind x := by
  cases b <;> first | exact h | (simp [B.norm] at h)
theorem norm_standalone {b : B} {c : CallB} {n : Bool} (h : b.norm = .standalone c n) : b = .standalone c n := by
  cases b <;> first | exact h | (simp [B.norm] at h)
theorem norm_action {b : B} {x : ActionB} (h : b.norm = .action x) : b = .action x := by
  cases b <;> first | exact h | (simp [B.norm] at h)
theorem norm_inCall {b : B} {x : InCallB} (h : b.norm = .inCall x) : ∃ i, b = .inCall i := by
  cases b <;> first | exact ⟨_, rfl⟩ | (simp [B.norm] at h)

/-- Same pointer, nothing written. -/
theorem Go.same {m : Mem} {b b' : HB} (hi : Inv m b) (hc : b'.cell = b.cell) (hb : b'.baseOf m = b.baseOf m) (ht : b'.items = b.items)
    (hs : b'.sorts = b.sorts) (hw : ∀ c, b'.writes c = b.writes c) (hcl : ∀ c, b'.calls c = b.calls c) : Go m b m b' :=
  Go.order (h' := m.so) hi (by rw [hs]; exact .refl hi.so) hc hb ht hw hcl

end HB

end Verif
