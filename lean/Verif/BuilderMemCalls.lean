import Verif.BuilderMemExec

/-
Every call on a builder in memory does what the call does on the builder as value: the other builders, and `Build`.
-/

namespace Verif

variable (u : Unicode) (grow : Nat → Nat → Nat)

namespace HB

/-- After a step to a `DefaultStatementBuilder`. -/
theorem then_base {m m1 : Mem} {b b1 : HB} (h : Go m b m1 b1) {x : Base} (hx : (b1.baseOf m1).read m1 = x) (c : Call) :
    Matches m b (hexecBase u grow m1 (b1.baseOf m1) c) (execBase u x c) := by
  subst hx
  exact .trans h (hexecBase_matches u grow h.inv c)

theorem with_order {m : Mem} {w : HWithB} (hi : Inv m (.with_ w)) {c : Call} {r : Mem × HOrder} (hr : w.order.exec grow m c = some r) :
    Go m (.with_ w) r.1 (.with_ { w with order := r.2 }) ∧
      (w.cell.map fun c => (r.1.cells c).read r.1) = (w.cell.map fun c => (m.cells c).read m) := by
  obtain ⟨h1, h2⟩ := HOrder.exec_does grow hi.so hr
  obtain ⟨m', o'⟩ := r
  simp only at h1 h2
  generalize m'.so = h' at h1 h2
  subst h2
  refine ⟨Go.order hi h1 rfl rfl rfl (fun _ => rfl) (fun _ => rfl), ?_⟩
  have := order_base_read hi h1
  cases hc : w.cell with
  | none => rfl
  | some c =>
    simp only [baseOf, HB.cell, hc] at this
    simp only [Option.map_some, this]

theorem ret_order {m : Mem} {w : HRetB} (hi : Inv m (.ret w)) {c : Call} {r : Mem × HOrder} (hr : w.order.exec grow m c = some r) :
    Go m (.ret w) r.1 (.ret { w with order := r.2 }) ∧
      (w.cell.map fun c => (r.1.cells c).read r.1) = (w.cell.map fun c => (m.cells c).read m) := by
  obtain ⟨h1, h2⟩ := HOrder.exec_does grow hi.so hr
  obtain ⟨m', o'⟩ := r
  simp only at h1 h2
  generalize m'.so = h' at h1 h2
  subst h2
  refine ⟨Go.order hi h1 rfl rfl rfl (fun _ => rfl) (fun _ => rfl), ?_⟩
  have := order_base_read hi h1
  cases hc : w.cell with
  | none => rfl
  | some c =>
    simp only [baseOf, HB.cell, hc] at this
    simp only [Option.map_some, this]

theorem upd_order {m : Mem} {w : HUpdB} (hi : Inv m (.upd w)) {c : Call} {r : Mem × HOrder} (hr : w.order.exec grow m c = some r) :
    Go m (.upd w) r.1 (.upd { w with order := r.2 }) ∧
      (w.cell.map fun c => (r.1.cells c).read r.1) = (w.cell.map fun c => (m.cells c).read m) ∧ r.1.it = m.it := by
  obtain ⟨h1, h2⟩ := HOrder.exec_does grow hi.so hr
  obtain ⟨m', o'⟩ := r
  simp only at h1 h2
  generalize m'.so = h' at h1 h2
  subst h2
  refine ⟨Go.order hi h1 rfl rfl rfl (fun _ => rfl) (fun _ => rfl), ?_, rfl⟩
  have := order_base_read hi h1
  cases hc : w.cell with
  | none => rfl
  | some c =>
    simp only [baseOf, HB.cell, hc] at this
    simp only [Option.map_some, this]

theorem hexecWith_matches {m : Mem} {w : HWithB} {lw : WithB} (hi : Inv m (.with_ w)) (hr : HB.read m (.with_ w) = .with_ lw) (c : Call) :
    Matches m (.with_ w) (hexecWith u grow m w c) (execWith u lw c) := by
  have ho := HOrder.exec_read grow m w.order c
  have hlo : lw.order = w.order.read m := by
    simp only [HB.read, B.with_.injEq] at hr; rw [← hr]
  cases hx : w.order.exec grow m c with
  | some r =>
    rw [hx, Option.map_some] at ho
    obtain ⟨h1, h2⟩ := with_order grow hi hx
    have hg : execWith u lw c = .ok (.with_ { lw with order := r.2.read r.1 }) := by
      rw [← hlo] at ho
      cases c <;> simp only [OrderB.exec, reduceCtorEq, Option.some.injEq] at ho <;> rw [ho] <;> rfl
    rw [hg]
    simp only [hexecWith, hx]
    refine .ok h1 ?_
    simp only [HB.read, B.with_.injEq] at hr
    simp only [HB.read, B.norm, ← hr, h2]
  | none =>
    rw [hx, Option.map_none] at ho
    have hn := with_next grow hi hr
    have next : ∀ c', Matches m (.with_ w) ((w.next grow m).bind fun r => hexecBase u grow r.1 r.2 c')
        (lw.next.bind fun b => execBase u b c') := by
      intro c'
      rcases hn with ⟨m', b', y, e1, e2, h3, h4⟩ | ⟨e1, e2⟩
      · rw [e1, e2]
        exact then_base u grow h3 h4 c'
      · rw [e1, e2]; exact .panic
    have hcond : lw.cond = w.cond := by
      simp only [HB.read, B.with_.injEq] at hr; rw [← hr]
    simp only [HB.read, B.with_.injEq] at hr
    have same : ∀ x, Matches m (.with_ w) (.ok (m, .with_ { w with cond := some x })) (.ok (.with_ { lw with cond := some x })) := by
      intro x
      refine .ok (Go.same hi rfl rfl rfl rfl (fun _ => rfl) (fun _ => rfl)) ?_
      simp only [HB.read, B.norm, ← hr]
    simp only [hexecWith, hx]
    cases c <;> simp only [HOrder.exec, reduceCtorEq] at hx
    all_goals simp only [execWith]
    case where_ c => exact same c
    case and ks c =>
      rw [hcond]
      cases combineOfGet ks w.cond .and c with
      | panic => exact .panic
      | ok x => exact same x
    case or ks c =>
      rw [hcond]
      cases combineOfGet ks w.cond .or c with
      | panic => exact .panic
      | ok x => exact same x
    case on => exact .panic
    all_goals exact next _

theorem hexecRet_matches {m : Mem} {w : HRetB} {lw : RetB} (hi : Inv m (.ret w)) (hr : HB.read m (.ret w) = .ret lw) (c : Call) :
    Matches m (.ret w) (hexecRet grow m w c) (execRet lw c) := by
  have ho := HOrder.exec_read grow m w.order c
  have hlo : lw.order = w.order.read m := by
    simp only [HB.read, B.ret.injEq] at hr; rw [← hr]
  cases hx : w.order.exec grow m c with
  | some r =>
    rw [hx, Option.map_some] at ho
    obtain ⟨h1, h2⟩ := ret_order grow hi hx
    have hg : execRet lw c = .ok (.ret { lw with order := r.2.read r.1 }) := by
      rw [← hlo] at ho
      cases c <;> simp only [OrderB.exec, reduceCtorEq, Option.some.injEq] at ho <;> rw [ho] <;> rfl
    rw [hg]
    simp only [hexecRet, hx]
    refine .ok h1 ?_
    simp only [HB.read, B.ret.injEq] at hr
    simp only [HB.read, B.norm, ← hr, h2]
  | none =>
    rw [hx, Option.map_none, ← hlo] at ho
    simp only [hexecRet, hx]
    cases c <;> simp only [OrderB.exec, reduceCtorEq] at ho
    all_goals exact .panic

/-- `DefaultStatementWithUpdateBuilderCreate2` with a pointer that the builder already has. -/
theorem updB_matches {m : Mem} {b : HB} {c : Nat} {m1 : Mem} {y : Base} (h : Go m b m1 (.upd { cell := some c }))
    (hy : (m1.cells c).read m1 = y) (t : UpdType) (ks : UpdKeys) (xs : List Val) :
    Matches m b (.ok (m1, .upd ((m1.cells c).updB c t ks xs))) (.ok (.upd (y.updB t ks xs))) := by
  unfold HBase.updB Base.updB
  have he : y.err = (m1.cells c).err := by rw [← hy]; rfl
  rw [he]
  cases firstErr [(m1.cells c).err, errsOf xs] with
  | some e => exact .ok (h.trans (Go.dead rfl rfl rfl rfl)) rfl
  | none =>
    simp only
    cases updBuilder t ks xs with
    | error e => exact .ok (h.trans (Go.dead rfl rfl rfl rfl)) rfl
    | ok z =>
      refine .ok (h.trans (Go.same h.inv rfl rfl rfl rfl (fun _ => rfl) (fun _ => rfl))) ?_
      simp only [HB.read, Option.map_some, B.norm, hy]
      rfl

theorem Go.items {m : Mem} {b b' : HB} {h' : Heap Val} (hi : Inv m b) (hs : HStep m.it b.items h' b'.items)
    (hc : b'.cell = b.cell) (hb : b'.baseOf { m with it := h' } = b.baseOf m) (ht : b'.sorts = b.sorts)
    (hw : ∀ c, b'.writes c = b.writes c) (hcl : ∀ c, b'.calls c = b.calls c) : Go m b { m with it := h' } b' := by
  refine ⟨by rw [hb]; exact .refl hi.cl, by rw [hb]; exact .refl hi.pt, by rw [hb]; exact .refl hi.ac, hs, by rw [ht]; exact .refl hi.so,
    ?_, ?_, Nat.le_refl _, fun c _ _ => ⟨fun _ => rfl, _, rfl⟩, ?_, fun c hh => .inr (by rw [← hc]; exact hh),
    fun p hp => .inl (by rw [hb] at hp; exact hp)⟩
  · intro p hp i hl hr
    rw [hb] at hp
    rw [ht] at hr
    exact hi.parts p hp i hl hr
  · intro c hh; rw [hc] at hh; exact hi.cell c hh
  · intro c; rw [hw, hcl]; exact ⟨.inr, fun h => .inr (.inr h)⟩

theorem read_it (m : Mem) (h' : Heap Val) (b : HBase) : b.read { m with it := h' } = b.read m := by
  simp only [HBase.read]
  have hu : HUpd.read { m with it := h' } = HUpd.read m := by
    funext x; cases x <;> rfl
  rw [hu]
  rfl

theorem hexecUpd_matches {m : Mem} {x : HUpdB} {lx : UpdB} (hi : Inv m (.upd x)) (hr : HB.read m (.upd x) = .upd lx) (c : Call) :
    Matches m (.upd x) (hexecUpd u grow m x c) (execUpd u lx c) := by
  have ho := HOrder.exec_read grow m x.order c
  have hlo : lx.order = x.order.read m := by
    simp only [HB.read, B.upd.injEq] at hr; rw [← hr]
  cases hx : x.order.exec grow m c with
  | some r =>
    rw [hx, Option.map_some] at ho
    obtain ⟨h1, h2, h3⟩ := upd_order grow hi hx
    have hg : execUpd u lx c = .ok (.upd { lx with order := r.2.read r.1 }) := by
      rw [← hlo] at ho
      cases c <;> simp only [OrderB.exec, reduceCtorEq, Option.some.injEq] at ho <;> rw [ho] <;> rfl
    rw [hg]
    simp only [hexecUpd, hx]
    refine .ok h1 ?_
    simp only [HB.read, B.upd.injEq] at hr
    simp only [HB.read, B.norm, ← hr, h2, h3]
  | none =>
    have hn := upd_next grow hi hr
    have herr : lx.err = x.err := by
      simp only [HB.read, B.upd.injEq] at hr; rw [← hr]
    have hbase : ∀ m' c, (HB.upd { cell := some c }).baseOf m' = m'.cells c := fun _ _ => rfl
    have upd : ∀ t ks xs, Matches m (.upd x) ((x.next grow m).map fun p => (p.1, .upd ((p.1.cells p.2).updB p.2 t ks xs)))
        (lx.next.map fun b => .upd (b.updB t ks xs)) := by
      intro t ks xs
      rcases hn with ⟨m', c', y, e1, e2, h3, h4, -⟩ | ⟨e1, e2⟩
      · rw [e1, e2]; exact updB_matches h3 h4 t ks xs
      · rw [e1, e2]; exact .panic
    simp only [hexecUpd, hx]
    cases c <;> simp only [HOrder.exec, reduceCtorEq] at hx
    all_goals simp only [execUpd]
    case returning k ko d a =>
      simp only [HB.read, B.upd.injEq] at hr
      cases d with
      | true =>
        simp only [if_true]
        have hs := HStep.append grow hi.it (a.vals u)
        refine .ok (Go.items hi (b' := .upd { x with distinct := true }) ?_ rfl rfl rfl (fun _ => rfl) (fun _ => rfl)) ?_
        · refine ⟨hs.next, hs.same, ?_, ?_, fun i hi => .inl ⟨rfl, hi⟩⟩
          · rintro a' i (hh | hh)
            · exact .inl (Nat.le_trans hs.next hh)
            · exact .inr hh
          · exact ⟨hi.it.1, hi.it.2.1.imp id (fun h => Nat.lt_of_lt_of_le h hs.next), hi.it.2.2⟩
        · have hitems : (m.it.append grow x.items (a.vals u)).1.read x.items = m.it.read x.items :=
            Heap.read_same hs.same (fun i hl => hi.it.out i hl)
          simp only [HB.read, B.norm, ← hr, read_it, hitems]
          rfl
      | false =>
        simp only [Bool.false_eq_true, if_false]
        refine .ok (Go.items hi (.append grow hi.it (a.vals u)) rfl rfl rfl (fun _ => rfl) (fun _ => rfl)) ?_
        simp only [HB.read, B.norm, ← hr, read_it, Heap.read_append]
        rfl
    case with_ ks d a =>
      rcases hn with ⟨m', c', y, e1, e2, h3, h4, -⟩ | ⟨e1, e2⟩
      · rw [e1, e2]; exact then_base u grow h3 h4 (.with_ ks d (.exprs (a.vals u)))
      · rw [e1, e2]; exact .panic
    case delete ks d a =>
      rcases hn with ⟨m', c', y, e1, e2, h3, h4, -⟩ | ⟨e1, e2⟩
      · rw [e1, e2]
        simp only [Outcome.map]
        have h5 := HBase.update_does grow h3.inv.cl (.delete d) ks (a.vals u)
        rw [hbase] at h5
        have h6 : Go m' (.upd { cell := some c' }) _ (.upd { cell := some c' }) :=
          Go.store h3.inv rfl rfl h5.1 rfl (by simp [baseOf, HB.cell, Mem.store]) rfl rfl
        refine .ok ((h3.trans h6).trans (Go.base h6.inv ?_)) ?_
        · have := BStep.refl h6.inv.cl
          rw [hbase, store_cell] at this ⊢
          exact this
        · simp only [HB.read, B.norm, store_read, ← h4, h5.2]
      · rw [e1, e2]; exact .panic
    case merge ks ps =>
      rcases hn with ⟨m', c', y, e1, e2, h3, h4, -⟩ | ⟨e1, e2⟩
      · rw [e1, e2]; exact then_base u grow h3 h4 (.merge ks ps)
      · rw [e1, e2]; exact .panic
    case create ks ps =>
      rcases hn with ⟨m', c', y, e1, e2, h3, h4, -⟩ | ⟨e1, e2⟩
      · rw [e1, e2]; exact then_base u grow h3 h4 (.create ks ps)
      · rw [e1, e2]; exact .panic
    case set ks xs => exact upd _ _ _
    case setNamed ks n v => exact upd _ _ _
    case setLabels ks g ko kl kls n ls => exact upd _ _ _
    case removeLabels ks g ko kl kls n ls =>
      rw [herr]
      cases x.err with
      | some e => exact .ok (Go.refl hi) hr
      | none => exact upd _ _ _
    case remove ks xs => exact upd _ _ _
    all_goals exact .panic

/-- `DefaultStatementWithMergeAction.Set`: the list of actions has changed in the shared builder. -/
theorem Go.act {m : Mem} {a : HActionB} {h' : Heap Val} {c : Nat} {km kp : Key} {ps : List Val} {as as' : Slice} (hi : Inv m (.action a))
    (hc : a.cell = some c) (hbase : (HB.action a).baseOf m = m.cells c) (has : (m.cells c).acts = as) (h : HStep m.ac as h' as') :
    Go m (.action a) ({ m with ac := h' }.store c { m.cells c with oupdate := some (.merge km kp ps as') }) (.ptr c) := by
  have hb : (HB.ptr c).baseOf ({ m with ac := h' }.store c { m.cells c with oupdate := some (.merge km kp ps as') }) =
      { m.cells c with oupdate := some (.merge km kp ps as') } := by simp [baseOf, HB.cell, Mem.store]
  have hcl := hi.cl
  have hpt := hi.pt
  have hpa := hi.parts
  rw [hbase] at hcl hpt hpa
  refine ⟨?_, ?_, ?_, .refl hi.it, .refl hi.so, ?_, ?_, Nat.le_refl _, ?_, ?_, fun c' hh => .inr (by cases hh; exact hc),
    by rw [hb, hbase]; exact fun _ => .inl⟩
  · rw [hb, hbase]; exact .refl hcl
  · rw [hb, hbase]; exact .refl hpt
  · rw [hb, hbase, has]; exact h
  · rw [hb]; exact hpa
  · intro c' hh
    cases hh
    exact hi.cell c hc
  · intro c' _ hw
    have : c' ≠ c := fun hh => hw (hh ▸ hc)
    simp only [Mem.store, if_neg this]
    exact ⟨fun _ => trivial, _, rfl⟩
  · intro c'
    refine ⟨fun hh => ?_, fun hh => hh.elim⟩
    exact hh.elim

theorem hexec_matches {m : Mem} {b : HB} {x : B} (hi : Inv m b) (hr : b.read m = x.norm) (c : Call) :
    Matches m b (hexec u grow m b c) (exec u x c) := by
  cases b with
  | base b =>
    rw [norm_base hr.symm]
    exact hexecBase_matches u grow hi c
  | ptr p =>
    rw [norm_base hr.symm]
    exact hexecBase_matches u grow hi c
  | with_ w =>
    rw [norm_with hr.symm]
    exact hexecWith_matches u grow hi rfl c
  | ret w =>
    rw [norm_ret hr.symm]
    exact hexecRet_matches grow hi rfl c
  | upd w =>
    rw [norm_upd hr.symm]
    exact hexecUpd_matches u grow hi rfl c
  | unwind w =>
    rw [norm_unwind hr.symm]
    cases c <;> simp only [hexec, exec, hexecUnwind, execUnwind]
    case as k kn name =>
      cases hc : w.cell with
      | none => exact .panic
      | some c =>
        cases hx : w.x with
        | none => exact .panic
        | some v =>
          have hcl := hi.cl
          have hbase : (HB.unwind w).baseOf m = m.cells c := by simp [baseOf, HB.cell, hc]
          rw [hbase] at hcl
          have h1 := (HBase.Does.refl hcl).push grow (unwindCreate u k kn v name)
          refine .ok (Go.store hi hc hc (by rw [hbase]; exact h1.1) rfl (by simp [baseOf, HB.cell, Mem.store]) rfl rfl) ?_
          simp only [HB.read, B.norm, store_cell, store_read, h1.2]
    all_goals exact .panic
  | inCall i =>
    obtain ⟨li, rfl⟩ := norm_inCall hr.symm
    have hcall : li.call = i.call := by
      simp only [HB.read, B.norm, B.inCall.injEq, InCallB.mk.injEq] at hr; exact hr.2.1.symm
    have hn := inCall_next hi hr i.call
    have next : ∀ c', Matches m (.inCall i) ((i.next m).bind fun p => hexecBase u grow p.1 (p.1.cells p.2) c')
        (li.next.bind fun b => execBase u b c') := by
      intro c'
      have hli : ({ li with call := i.call } : InCallB) = li := by rw [← hcall]
      rw [hli] at hn
      rcases hn with ⟨m', c'', y, e1, e2, h3, -, h4⟩ | ⟨e1, e2⟩
      · have e1' : i.next m = .ok (m', c'') := e1
        rw [e1', e2]
        exact then_base u grow h3 h4 c'
      · have e1' : i.next m = .panic := e1
        rw [e1', e2]; exact .panic
    have change : ∀ f : CallB → CallB, Matches m (.inCall i) (.ok (m, .inCall { i with call := i.call.map f }))
        (.ok (.inCall { li with call := li.call.map f })) := by
      intro f
      refine .ok (Go.same hi rfl rfl rfl rfl (fun _ => rfl) (fun _ => rfl)) ?_
      simp only [HB.read, B.norm, B.inCall.injEq, InCallB.mk.injEq] at hr ⊢
      refine ⟨?_, by rw [hcall], hr.2.2⟩
      have h1 := congrArg (Option.map fun b : Base => { b with ocall := i.call.map f }) hr.1
      rw [hcall]
      simpa [Option.map_map, Function.comp_def] using h1
    cases c <;> simp only [hexec, exec, hexecInCall, execInCall]
    case args xs => exact change _
    case yield ky xs => exact change _
    case where_ c =>
      have hn := inCall_next hi hr (i.call.map fun x => { x with cond := some c })
      rw [hcall]
      rcases hn with ⟨m', c'', y, e1, e2, -, h3, h4⟩ | ⟨e1, e2⟩
      · rw [e1, e2]
        exact .ok h3 (congrArg B.base h4)
      · rw [e1, e2]; exact .panic
    case returning => exact next _
    case with_ => exact next _
    case callStmt => exact next _
    all_goals exact .panic
  | standalone s n =>
    rw [norm_standalone hr.symm]
    have start : ∀ s', Go m (.standalone s n) m (.base (hstartWithCall s' n)) := fun s' =>
      Go.base hi ⟨.empty _ _, rfl, .inr rfl, .inr rfl⟩
    have same : ∀ s', Go m (.standalone s n) m (.standalone s' n) := fun s' => Go.same hi rfl rfl rfl rfl (fun _ => rfl) (fun _ => rfl)
    have hread : ∀ s', (hstartWithCall s' n).read m = startWithCall s' n := fun _ => rfl
    cases c <;> simp only [hexec, exec, hexecStandalone, execStandalone]
    case args xs => exact .ok (same _) rfl
    case yield ky xs => exact .ok (same _) rfl
    case where_ x => exact .ok (start _) rfl
    case returning => exact then_base u grow (start _) (hread _) _
    case with_ => exact then_base u grow (start _) (hread _) _
    case callStmt => exact then_base u grow (start _) (hread _) _
    all_goals exact .panic
  | action a =>
    rw [norm_action hr.symm]
    cases c <;> simp only [hexec, exec, execAction]
    case actionSet k kset kl ks xs =>
      unfold HActionB.set ActionB.set
      simp only
      cases firstErr [a.err, errsOf xs] with
      | some e => exact .ok (Go.base hi (.dead _ _ _)) rfl
      | none =>
        simp only
        cases hc : a.cell with
        | none => exact .panic
        | some c =>
          have hbase : (HB.action a).baseOf m = m.cells c := by simp [baseOf, HB.cell, hc]
          simp only [Option.map_some]
          have hu : ((m.cells c).read m).oupdate = (m.cells c).oupdate.map (HUpd.read m) := rfl
          rw [hu]
          cases ho : (m.cells c).oupdate with
          | none => exact .panic
          | some y =>
            cases y with
            | create => exact .panic
            | done => exact .panic
            | merge km kp ps as =>
              simp only [Option.map_some, HUpd.read]
              cases mergeAction k kset kl ks a.type xs with
              | error e =>
                refine .ok (Go.store hi hc hc ?_ rfl (by simp [baseOf, HB.cell, Mem.store]) rfl rfl) ?_
                · have := BStep.refl hi.cl
                  rw [hbase] at this ⊢
                  exact this.set _ rfl rfl (.inl (by simp [HBase.acts, ho]))
                · simp only [HB.read, B.norm, store_cell, store_read]
                  rfl
              | ok v =>
                have has : (m.cells c).acts = as := by simp [HBase.acts, ho]
                have hac := hi.ac
                rw [hbase, has] at hac
                refine .ok (Go.act hi hc hbase has (.append grow hac [v])) ?_
                simp only [HB.read, B.norm, store_cell, store_read]
                simp only [HBase.read, Option.map_some, HUpd.read, Heap.read_append]
                rfl
    all_goals exact .panic

end HB

end Verif
