import Verif.BuilderMemBuild

/-
What builders are after they have been used.  A builder of an update, of an UNWIND or of an action of a MERGE changes the builder that it
points to (`BuilderMem.lean`), so that a second use starts from something else than the first one.  Here this is described with builders
as values: `Use.live` gives, with the results of a program, the builder as it is afterwards.
-/

namespace Verif

variable (u : Unicode) (grow : Nat → Nat → Nat)

/-- What a builder of an update points to once its clause has been added. -/
def UpdB.added (x : UpdB) : Option Base :=
  match x.next with
  | .ok b => some b
  | .panic => x.base

/-- A builder on which `c` has been called; `y` is what the call returned, as it is after its own uses.

* A SET or REMOVE that is followed by any clause has been added to the builder that it shares with its successors; if the next clause is
  a SET or REMOVE, or only RETURN and ORDER BY were added, what these have added is there, too, and so is a DELETE.
* `As` of an UNWIND adds the UNWIND, and `Set` of an action adds the action.
* All others are as they were. -/
def B.back (x : B) (c : Call) (y : B) : B :=
  match x with
  | .upd x =>
    match c, y with
    | .delete .., .base b => .upd { x with base := some b }
    | _, .upd z => .upd { x with base := z.base.or x.added }
    | _, _ => .upd { x with base := x.added }
  | .unwind x =>
    match y with
    | .base b => .unwind { x with base := some b }
    | _ => .unwind x
  | .action a =>
    match c, y with
    | .actionSet _ _ _ _ xs, .base b => if firstErr [a.err, errsOf xs] = none then .action { a with base := some b } else .action a
    | _, _ => .action a
  | x => x

/-- A builder on which `Build` has been called. -/
def B.built (x : B) : B :=
  match x with
  | .upd x => if x.err = none then match x.build with | .ok _ => .upd { x with base := x.added } | .panic => .upd x else .upd x
  | x => x

/-- A program that uses builders one after the other, with builders as values: the builder, as it is afterwards, and the results.  As in
`Use.run`, a call or `Build()` that panics leaves the builder as it was (in Go, such a program ends). -/
def Use.live (x : B) : Use → B × List (Built Stmt)
  | .nothing => (x, [])
  | .build => (x.built, [x.build])
  | .call c p =>
    match exec u x c with
    | .panic => (x, [.panic])
    | .ok y => let r := p.live y; (x.back c r.1, r.2)
  | .both p q =>
    let r := p.live x
    let s := q.live r.1
    (s.1, r.2 ++ s.2)

namespace HB

/-- A builder after uses of it, or of builders made from it. -/
structure Stay (m : Mem) (b : HB) (m' : Mem) : Prop where
  go : Go m b m' b
  parts : (b.baseOf m').parts = (b.baseOf m).parts

theorem Stay.refl {m : Mem} {b : HB} (hi : Inv m b) : Stay m b m := ⟨.refl hi, rfl⟩

theorem Stay.trans {m m1 m2 : Mem} {b : HB} (h : Stay m b m1) (g : Stay m1 b m2) : Stay m b m2 := ⟨h.go.trans g.go, g.parts.trans h.parts⟩

theorem Around.keep {α : Type} {h h' : Heap α} {s : Slice} (x : Around h s h') (hs : h.Fit s) : HStep h s h' s :=
  ⟨x.next, x.same, fun _ _ hh => hh.imp (Nat.le_trans x.next) id, x.fit hs, fun _ hi => .inl ⟨rfl, hi⟩⟩

theorem Around.of_empty {α : Type} {h h' : Heap α} (x : Around h {} h') (s : Slice) : Around h s h' :=
  ⟨x.next, fun a i hn => x.same a i fun hh => hn (reg_empty s hh)⟩

/-- Builders that share nothing that is written. -/
theorem stay_of {m m' : Mem} {b : HB} (hi : Inv m b) {o : Option CallB} (hb : b.baseOf m' = { b.baseOf m with ocall := o })
    (cl : Around m.cl (b.baseOf m).elems m'.cl) (pt : Around m.pt (b.baseOf m).parts m'.pt) (ac : Around m.ac (b.baseOf m).acts m'.ac)
    (it : Around m.it b.items m'.it) (so : Around m.so b.sorts m'.so) (nc : m.ncell ≤ m'.ncell)
    (cells : ∀ c, c < m.ncell → ¬ b.writes c → (¬ b.calls c → m'.cells c = m.cells c) ∧ ∃ o, m'.cells c = { m.cells c with ocall := o }) :
    Stay m b m' := by
  have e1 : (b.baseOf m').elems = (b.baseOf m).elems := by rw [hb]
  have e2 : (b.baseOf m').parts = (b.baseOf m).parts := by rw [hb]
  have e3 : (b.baseOf m').acts = (b.baseOf m).acts := by rw [hb]; rfl
  refine ⟨⟨by rw [e1]; exact cl.keep hi.cl, by rw [e2]; exact pt.keep hi.pt, by rw [e3]; exact ac.keep hi.ac, it.keep hi.it, so.keep hi.so,
    ?_, fun c hc => Nat.lt_of_lt_of_le (hi.cell c hc) nc, nc, cells, fun c => ⟨.inr, fun hh => .inr (.inr hh)⟩, fun c => .inr, ?_⟩, e2⟩
  · rw [e2, pt.read hi.pt]
    intro p hp i hl hr
    exact hi.parts p hp i hl (hr.imp (Nat.le_trans so.next) id)
  · rw [e2, pt.read hi.pt]
    exact fun p => .inl

/-- A builder that does not change what it points to. -/
theorem stay_forks {m m' : Mem} {b : HB} (hi : Inv m b) (hf : b.forks = true) (h : Frame m b m') : Stay m b m' := by
  obtain ⟨o, e⟩ := h.base hi hf
  exact stay_of hi e h.cl h.pt h.ac h.it h.so h.ncell h.cells

theorem inv_copy {m : Mem} {b : HB} (hi : Inv m b) : Inv m (.base (b.baseOf m)) :=
  ⟨fun _ hh => (nomatch hh), hi.cl, hi.pt, hi.ac, .empty _, .empty _, fun p hp i hl hr => hi.parts p hp i hl (reg_empty _ hr)⟩

/-- A builder of which only a copy was used. -/
theorem stay_copy {m m' : Mem} {b : HB} (hi : Inv m b) (h : Frame m (.base (b.baseOf m)) m') : Stay m b m' ∧ b.read m' = b.read m := by
  have hcells : ∀ c, c < m.ncell → m'.cells c = m.cells c := fun c hc => (h.cells c hc id).1 id
  have hb : b.baseOf m' = b.baseOf m := by
    cases hc : b.cell with
    | none => cases b <;> simp only [HB.cell, reduceCtorEq] at hc <;> simp only [baseOf, HB.cell, hc]
    | some c =>
      have hb : ∀ m : Mem, b.baseOf m = m.cells c := by
        intro m
        cases b <;> simp only [HB.cell, reduceCtorEq] at hc <;> simp only [baseOf, HB.cell, hc]
      rw [hb, hb]
      exact hcells c (hi.cell c hc)
  have hit : Around m.it b.items m'.it := h.it.of_empty _
  have hso : Around m.so b.sorts m'.so := h.so.of_empty _
  refine ⟨stay_of hi (o := (b.baseOf m).ocall) hb h.cl h.pt h.ac hit hso h.ncell fun c hc _ => ⟨fun _ => hcells c hc, _, hcells c hc⟩, ?_⟩
  have hib := inv_copy hi
  have hbr : (b.baseOf m).read m' = (b.baseOf m).read m := Frame.base_read (b := .base (b.baseOf m)) hib h
  have hcr : ∀ c, b.cell = some c → (m'.cells c).read m' = (m.cells c).read m := by
    intro c hc
    have hbm : b.baseOf m = m.cells c := by
      cases b <;> simp only [HB.cell, reduceCtorEq] at hc <;> simp only [baseOf, HB.cell, hc]
    rw [hcells c (hi.cell c hc), ← hbm]; exact hbr
  have hm : (b.cell.map fun c => (m'.cells c).read m') = b.cell.map fun c => (m.cells c).read m := by
    cases hc : b.cell with
    | none => rfl
    | some c => simp only [Option.map_some, hcr c hc]
  have hir : m'.it.read b.items = m.it.read b.items := hit.read hi.it
  have hsr : m'.so.read b.sorts = m.so.read b.sorts := hso.read hi.so
  cases b with
  | base b => exact congrArg B.base hbr
  | ptr c => exact congrArg B.base (hcr c rfl)
  | with_ w => simp only [HB.cell] at hm; simp only [HB.sorts] at hsr; simp only [HB.read, hm, HOrder.read, hsr]
  | ret w => simp only [HB.cell] at hm; simp only [HB.sorts] at hsr; simp only [HB.read, hm, HOrder.read, hsr]
  | upd w =>
    simp only [HB.cell] at hm; simp only [HB.sorts] at hsr; simp only [HB.items] at hir
    simp only [HB.read, hm, HOrder.read, hsr, hir]
  | unwind w => simp only [HB.cell] at hm; simp only [HB.read, hm]
  | inCall w =>
    simp only [HB.read, B.inCall.injEq, InCallB.mk.injEq, and_true, and_self]
    simp only [HB.cell] at hcr
    cases hc : w.cell with
    | none => rfl
    | some c => simp only [Option.map_some, hcr c hc]
  | standalone => rfl
  | action w => simp only [HB.cell] at hm; simp only [HB.read, hm]

/-- A builder and one that points to the same. -/
theorem stay_shared {m m' m'' : Mem} {b b' : HB} (hi : Inv m b) {c : Nat} (hb : ∀ m, b.baseOf m = m.cells c)
    (hb' : ∀ m, b'.baseOf m = m.cells c) (h : Go m b m' b') (hp : (m'.cells c).parts = (m.cells c).parts) (g : Stay m' b' m'') :
    Stay m b m'' := by
  have t := h.trans g.go
  have hp' : (m''.cells c).parts = (m.cells c).parts := by
    have := g.parts
    rw [hb', hb'] at this
    exact this.trans hp
  have hcl := t.cl
  have hpt := t.pt
  have hac := t.ac
  rw [hb, hb'] at hcl hpt hac
  have hpr : m''.pt.read (m''.cells c).parts = m.pt.read (m.cells c).parts := by
    rw [hp']
    have := hi.pt
    rw [hb] at this
    exact hpt.around.read this
  refine ⟨⟨by rw [hb, hb]; exact hcl, by rw [hb, hb]; exact hpt, by rw [hb, hb]; exact hac, t.it.around.keep hi.it, t.so.around.keep hi.so,
    ?_, fun c hc => Nat.lt_of_lt_of_le (hi.cell c hc) t.ncell, t.ncell, t.cells, fun c => ⟨.inr, fun hh => .inr (.inr hh)⟩, fun c => .inr, ?_⟩,
    by rw [hb, hb]; exact hp'⟩
  · rw [hb, hpr]
    intro p hpp i hl hr
    have := hi.parts
    rw [hb] at this
    exact this p hpp i hl (hr.imp (Nat.le_trans t.so.next) id)
  · rw [hb, hpr, hb]
    exact fun p => .inl

/-- A builder without pointer. -/
theorem stay_nocell {m m' : Mem} {b : HB} (hi : Inv m b) (hc : b.cell = none) (h : Frame m b m') : Stay m b m' := by
  have hb : b.baseOf m' = b.baseOf m := by
    cases b <;> simp only [HB.cell, reduceCtorEq] at hc <;> simp only [baseOf, HB.cell, hc]
  exact stay_of hi (o := (b.baseOf m).ocall) hb h.cl h.pt h.ac h.it h.so h.ncell h.cells

theorem base_upd {x : HUpdB} {c : Nat} (hc : x.cell = some c) (m : Mem) : (HB.upd x).baseOf m = m.cells c := by simp [baseOf, HB.cell, hc]

theorem _root_.Verif.HBase.addClause_parts (m : Mem) (b : HBase) (c : Clause) : (b.addClause grow m c).2.parts = b.parts := by
  unfold HBase.addClause HBase.closeMatch
  split <;> rfl

theorem _root_.Verif.HBase.update_parts (m : Mem) (b : HBase) (t : UpdType) (ks : UpdKeys) (xs : List Val) :
    (b.update grow m t ks xs).2.parts = b.parts := by
  have h1 : ∀ m (b : HBase), (b.closeMatch grow m).2.parts = b.parts := by intro m b; unfold HBase.closeMatch; split <;> rfl
  have h2 : ∀ m (b : HBase), (b.closeCall grow m).2.parts = b.parts := by
    intro m b; unfold HBase.closeCall; split
    · rfl
    · split <;> rfl
  have h3 : ∀ m (b : HBase), (b.closeUpdate grow m).2.parts = b.parts := by intro m b; unfold HBase.closeUpdate; split <;> rfl
  unfold HBase.update
  split <;> simp only [h1, h2, h3]

/-- What a builder of an update is when only what it points to has changed. -/
theorem read_upd {m m' : Mem} {x : HUpdB} (hi : Inv m (.upd x)) (h : Stay m (.upd x) m') :
    HB.read m' (.upd x) = .upd {
      k := x.k, ko := x.ko, base := x.cell.map (fun c => (m'.cells c).read m'), items := m.it.read x.items,
      order := x.order.read m, distinct := x.distinct, builder := x.builder, err := x.err } := by
  have h1 : m'.it.read x.items = m.it.read x.items := h.go.it.around.read hi.it
  have h2 : m'.so.read x.order.items = m.so.read x.order.items := h.go.so.around.read hi.so
  simp only [HB.read, HOrder.read, h1, h2]

/-- The clause of an update has been added. -/
theorem stay_next {m m' : Mem} {x : HUpdB} {c : Nat} (hi : Inv m (.upd x)) (e : x.next grow m = .ok (m', c)) :
    Stay m (.upd x) m' ∧ x.cell = some c := by
  rcases upd_next grow hi rfl with ⟨m1, c1, y, e1, -, -, -, h5, h6, -⟩ | ⟨e1, -⟩
  · rw [e1] at e
    cases e
    refine ⟨⟨h5, ?_⟩, h6⟩
    rw [base_upd h6, base_upd h6]
    unfold HUpdB.next at e1
    rw [h6] at e1
    cases hd : x.builder with
    | none => rw [hd] at e1; cases e1
    | some d =>
      rw [hd] at e1
      simp only [Outcome.ok.injEq, Prod.mk.injEq] at e1
      rw [← e1.1, store_cell]
      exact HBase.addClause_parts grow _ _ _
  · rw [e1] at e; cases e

theorem upd_shared {m m' m'' : Mem} {x z : HUpdB} {lx : UpdB} {y' : B} {c : Call} (hi : Inv m (.upd x)) (hz : z.cell = x.cell)
    (g : Go m (.upd x) m' (.upd z)) (hp : ∀ c, x.cell = some c → (m'.cells c).parts = (m.cells c).parts) (s : Stay m' (.upd z) m'')
    (hr : HB.read m (.upd x) = .upd lx) (hr' : HB.read m'' (.upd z) = y'.norm) :
    Stay m (.upd x) m'' ∧ HB.read m'' (.upd x) = (B.upd lx).back c y' := by
  have hy := norm_upd hr'.symm
  have hback : (B.upd lx).back c y' = .upd { lx with base := (z.cell.map fun c => (m''.cells c).read m'').or lx.added } := by
    rw [hy]
    cases c <;> rfl
  rw [hback, hz]
  have hs : Stay m (.upd x) m'' := by
    cases hc : x.cell with
    | none => exact stay_nocell hi hc (g.trans s.go).frame
    | some c => exact stay_shared hi (base_upd hc) (base_upd (hz.trans hc)) g (hp c hc) s
  refine ⟨hs, ?_⟩
  rw [read_upd hi hs]
  simp only [HB.read, B.upd.injEq] at hr
  subst hr
  cases hc : x.cell with
  | none => simp [UpdB.added, UpdB.next]
  | some c => simp

theorem next_added {m m' : Mem} {x : HUpdB} {c : Nat} {lx : UpdB} (hi : Inv m (.upd x)) (e : x.next grow m = .ok (m', c))
    (hr : HB.read m (.upd x) = .upd lx) :
    HB.read m' (.upd x) = .upd { lx with base := lx.added } ∧ lx.added = some ((m'.cells c).read m') := by
  obtain ⟨hs, hc⟩ := stay_next grow hi e
  rcases upd_next grow hi hr with ⟨m1, c1, y, e1, e2, -, h4, -⟩ | ⟨e1, -⟩
  · rw [e1] at e
    cases e
    have ha : lx.added = some ((m'.cells c).read m') := by simp only [UpdB.added, e2, h4]
    refine ⟨?_, ha⟩
    rw [read_upd hi hs, ha, hc]
    simp only [HB.read, B.upd.injEq] at hr
    subst hr
    rfl
  · rw [e1] at e; cases e

theorem upd_back {m m' m'' : Mem} {x : HUpdB} {b' : HB} {lx : UpdB} {y' : B} {c : Call} (hi : Inv m (.upd x))
    (e : hexecUpd u grow m x c = .ok (m', b')) (g : Go m (.upd x) m' b') (s : Stay m' b' m'')
    (hr : HB.read m (.upd x) = .upd lx) (hr' : b'.read m'' = y'.norm) :
    Stay m (.upd x) m'' ∧ HB.read m'' (.upd x) = (B.upd lx).back c y' := by
  have copy : ∀ m1, Stay m (.upd x) m1 → Go m1 (.base ((HB.upd x).baseOf m1)) m' b' → ∀ l, HB.read m1 (.upd x) = .upd l →
      (B.upd lx).back c y' = .upd l → Stay m (.upd x) m'' ∧ HB.read m'' (.upd x) = (B.upd lx).back c y' := by
    intro m1 h1 h2 l h3 h4
    obtain ⟨h5, h6⟩ := stay_copy h1.go.inv (h2.then s.go.frame)
    exact ⟨h1.trans h5, by rw [h6, h3, h4]⟩
  have base : ∀ m1 c1 c2, x.next grow m = .ok (m1, c1) → hexecBase u grow m1 (m1.cells c1) c2 = .ok (m', b') →
      (∀ z, b' ≠ .upd z) → (∀ ks d a, c ≠ .delete ks d a) → Stay m (.upd x) m'' ∧ HB.read m'' (.upd x) = (B.upd lx).back c y' := by
    intro m1 c1 c2 h1 h2 h3 h4
    obtain ⟨h5, h6⟩ := stay_next grow hi h1
    refine copy m1 h5 ?_ _ (next_added grow hi h1 hr).1 ?_
    · rcases hexecBase_matches u grow (inv_copy h5.go.inv) c2 with ⟨m2, b2, y, e1, -, h7, -⟩ | ⟨e1, -⟩
      · have hc : baseOf m1 (.base ((HB.upd x).baseOf m1)) = m1.cells c1 := base_upd h6 m1
        rw [hc, h2] at e1
        simp only [Outcome.ok.injEq, Prod.mk.injEq] at e1
        obtain ⟨rfl, rfl⟩ := e1
        exact h7
      · have hc : baseOf m1 (.base ((HB.upd x).baseOf m1)) = m1.cells c1 := base_upd h6 m1
        rw [hc, h2] at e1
        cases e1
    · have h7 : ∀ z, y' ≠ .upd z := by
        rintro z rfl
        cases b' <;> simp only [HB.read, B.norm, reduceCtorEq] at hr'
        exact h3 _ rfl
      simp only [B.back]
      split
      · exact absurd rfl (h4 _ _ _)
      · exact absurd rfl (h7 _)
      · rfl
  have upd : ∀ t ks xs, ((x.next grow m).map fun p => (p.1, HB.upd ((p.1.cells p.2).updB p.2 t ks xs))) = .ok (m', b') →
      Stay m (.upd x) m'' ∧ HB.read m'' (.upd x) = (B.upd lx).back c y' := by
    intro t ks xs h1
    cases hn : x.next grow m with
    | panic => rw [hn] at h1; cases h1
    | ok p =>
      rw [hn] at h1
      simp only [Outcome.map, Outcome.ok.injEq, Prod.mk.injEq] at h1
      obtain ⟨h2, h3⟩ := h1
      obtain ⟨h5, h6⟩ := stay_next grow hi hn
      subst h2
      have dead : ∀ e, b' = .upd { err := some e } → Stay m (.upd x) m'' ∧ HB.read m'' (.upd x) = (B.upd lx).back c y' := by
        rintro e rfl
        refine copy p.1 h5 (Go.dead rfl rfl rfl rfl) _ (next_added grow hi hn hr).1 ?_
        rw [norm_upd hr'.symm]
        cases c <;> rfl
      unfold HBase.updB at h3
      cases hf : firstErr [(p.1.cells p.2).err, errsOf xs] with
      | some e => rw [hf] at h3; exact dead e h3.symm
      | none =>
        rw [hf] at h3
        simp only at h3
        cases hu : updBuilder t ks xs with
        | error e => rw [hu] at h3; exact dead e h3.symm
        | ok d =>
          rw [hu] at h3
          subst h3
          refine upd_shared hi h6.symm g ?_ s hr hr'
          intro c0 hc
          have := h5.parts
          rw [base_upd hc, base_upd hc] at this
          exact this
  unfold hexecUpd at e
  cases hx : x.order.exec grow m c with
  | some r =>
    rw [hx] at e
    simp only [Outcome.ok.injEq, Prod.mk.injEq] at e
    obtain ⟨rfl, rfl⟩ := e
    have h2 := (HOrder.exec_does grow hi.so hx).2
    refine upd_shared hi ?_ g (fun c _ => ?_) s hr hr'
    · rfl
    · rw [h2]
  | none =>
    rw [hx] at e
    simp only at e
    cases c <;> simp only [reduceCtorEq] at e
    case returning k ko d a =>
      simp only [Outcome.ok.injEq, Prod.mk.injEq] at e
      obtain ⟨rfl, rfl⟩ := e
      refine upd_shared hi ?_ g (fun _ _ => ?_) s hr hr'
      · cases d <;> rfl
      · rfl
    case with_ ks d a =>
      cases hn : x.next grow m with
      | panic => rw [hn] at e; cases e
      | ok p =>
        rw [hn] at e
        refine base p.1 p.2 (.with_ ks d (.exprs (a.vals u))) hn e ?_ (fun _ _ _ => nofun)
        rintro z rfl
        simp only [Outcome.map, Outcome.ok.injEq, Prod.mk.injEq, reduceCtorEq, and_false] at e
    case merge ks ps =>
      cases hn : x.next grow m with
      | panic => rw [hn] at e; cases e
      | ok p =>
        rw [hn] at e
        refine base p.1 p.2 (.merge ks ps) hn e ?_ (fun _ _ _ => nofun)
        rintro z rfl
        simp only [Outcome.map, Outcome.ok.injEq, Prod.mk.injEq, reduceCtorEq, and_false] at e
    case create ks ps =>
      cases hn : x.next grow m with
      | panic => rw [hn] at e; cases e
      | ok p =>
        rw [hn] at e
        refine base p.1 p.2 (.create ks ps) hn e ?_ (fun _ _ _ => nofun)
        rintro z rfl
        simp only [Outcome.map, Outcome.ok.injEq, Prod.mk.injEq, reduceCtorEq, and_false] at e
    case set ks xs => exact upd _ _ _ e
    case setNamed ks n v => exact upd _ _ _ e
    case setLabels ks gg ko kl kls n ls => exact upd _ _ _ e
    case remove ks xs => exact upd _ _ _ e
    case removeLabels ks gg ko kl kls n ls =>
      cases he : x.err with
      | some er =>
        rw [he] at e
        simp only [Outcome.ok.injEq, Prod.mk.injEq] at e
        obtain ⟨rfl, rfl⟩ := e
        exact upd_shared hi rfl g (fun _ _ => rfl) s hr hr'
      | none => rw [he] at e; exact upd _ _ _ e
    case delete ks d a =>
      cases hn : x.next grow m with
      | panic => rw [hn] at e; cases e
      | ok p =>
        rw [hn] at e
        simp only [Outcome.map, Outcome.ok.injEq, Prod.mk.injEq] at e
        obtain ⟨h5, h6⟩ := stay_next grow hi hn
        obtain ⟨m1, c1⟩ := p
        simp only at e h5 h6
        obtain ⟨rfl, rfl⟩ := e
        have h7 := HBase.update_does grow (by have := h5.go.inv.cl; rw [base_upd h6] at this; exact this) (.delete d) ks (a.vals u)
        have hparts := HBase.update_parts grow m1 (m1.cells c1) (.delete d) ks (a.vals u)
        generalize hrr : (m1.cells c1).update grow m1 (.delete d) ks (a.vals u) = r at *
        have h8 : Stay m (.upd x) (r.1.store c1 r.2) := ⟨h5.go.trans (Go.keep h5.go.inv h6 h7.1), by
          have := h5.parts
          rw [base_upd h6] at this
          rw [base_upd h6, store_cell, hparts, this]⟩
        have h9 : (HB.upd x).baseOf (r.1.store c1 r.2) = r.2 := by rw [base_upd h6, store_cell]
        have h10 := inv_copy h8.go.inv
        rw [h9] at h10
        refine copy _ h8 (by rw [h9]; exact .refl h10) { lx with base := some (r.2.read (r.1.store c1 r.2)) } ?_ ?_
        · rw [read_upd hi h8, h6]
          simp only [HB.read, B.upd.injEq] at hr
          subst hr
          simp only [Option.map, store_cell]
        · rw [Frame.read h10 rfl s.go.frame] at hr'
          rw [norm_base hr'.symm]
          rfl

theorem dead_back {m m'' : Mem} {b : HB} {e : Err} (hi : Inv m b) (s : Stay m (.base (.dead e)) m'') : Stay m b m'' ∧ b.read m'' = b.read m := by
  have h := s.go.frame
  exact stay_copy hi ⟨.of_empty h.cl _, .of_empty h.pt _, .of_empty h.ac _, h.it, h.so, h.ncell, h.cells⟩

theorem unwind_back {m m' m'' : Mem} {x : HUnwindB} {b' : HB} {lx : UnwindB} {y' : B} {c : Call} (hi : Inv m (.unwind x))
    (e : hexecUnwind u grow m x c = .ok (m', b')) (g : Go m (.unwind x) m' b') (s : Stay m' b' m'')
    (hr : HB.read m (.unwind x) = .unwind lx) (hr' : b'.read m'' = y'.norm) :
    Stay m (.unwind x) m'' ∧ HB.read m'' (.unwind x) = (B.unwind lx).back c y' := by
  unfold hexecUnwind at e
  split at e
  · rename_i k kn name
    split at e
    · rename_i c0 v hc hx
      simp only [Outcome.ok.injEq, Prod.mk.injEq] at e
      obtain ⟨rfl, rfl⟩ := e
      have hb : ∀ m, (HB.unwind x).baseOf m = m.cells c0 := fun m => by simp [baseOf, HB.cell, hc]
      refine ⟨stay_shared hi hb (b' := .ptr c0) (fun m => rfl) g (by rw [store_cell]; rfl) s, ?_⟩
      rw [norm_base hr'.symm]
      simp only [HB.read, B.unwind.injEq] at hr
      subst hr
      simp only [HB.read, B.back, hc, Option.map]
    · cases e
  · cases e

theorem action_back {m m' m'' : Mem} {a : HActionB} {b' : HB} {la : ActionB} {y' : B} {c : Call} (hi : Inv m (.action a))
    (e : hexec u grow m (.action a) c = .ok (m', b')) (g : Go m (.action a) m' b') (s : Stay m' b' m'')
    (hr : HB.read m (.action a) = .action la) (hr' : b'.read m'' = y'.norm) :
    Stay m (.action a) m'' ∧ HB.read m'' (.action a) = (B.action la).back c y' := by
  cases c <;> simp only [hexec, reduceCtorEq] at e
  case actionSet k kset kl ks xs =>
    have herr : la.err = a.err := by
      simp only [HB.read, B.action.injEq] at hr
      subst hr
      rfl
    unfold HActionB.set at e
    cases hf : firstErr [a.err, errsOf xs] with
    | some er =>
      rw [hf] at e
      simp only [Outcome.ok.injEq, Prod.mk.injEq] at e
      obtain ⟨rfl, rfl⟩ := e
      obtain ⟨h1, h2⟩ := dead_back hi s
      refine ⟨h1, ?_⟩
      rw [h2, hr, norm_base hr'.symm]
      simp [B.back, herr, hf]
    | none =>
      rw [hf] at e
      simp only at e
      cases hc : a.cell with
      | none => rw [hc] at e; cases e
      | some c0 =>
        rw [hc] at e
        simp only at e
        have hb : ∀ m, (HB.action a).baseOf m = m.cells c0 := fun m => by simp [baseOf, HB.cell, hc]
        have fin : ∀ z : HBase, (m'.cells c0).parts = (m.cells c0).parts → b' = .ptr c0 →
            Stay m (.action a) m'' ∧ HB.read m'' (.action a) = (B.action la).back (.actionSet k kset kl ks xs) y' := by
          rintro - hp rfl
          refine ⟨stay_shared hi hb (b' := .ptr c0) (fun m => rfl) g hp s, ?_⟩
          rw [norm_base hr'.symm]
          simp only [HB.read, B.action.injEq] at hr
          subst hr
          simp only [HB.read, B.back, hc, Option.map, hf, if_true]
        split at e
        · split at e <;> simp only [Outcome.ok.injEq, Prod.mk.injEq] at e <;> obtain ⟨rfl, rfl⟩ := e <;>
            exact fin {} (by rw [store_cell]) rfl
        · cases e

theorem step_back {m m' m'' : Mem} {b b' : HB} {x y' : B} {c : Call} (hi : Inv m b) (e : hexec u grow m b c = .ok (m', b'))
    (g : Go m b m' b') (s : Stay m' b' m'') (hr : b.read m = x.norm) (hr' : b'.read m'' = y'.norm) :
    Stay m b m'' ∧ b.read m'' = (x.back c y').norm := by
  cases b with
  | upd w =>
    rw [norm_upd hr.symm]
    obtain ⟨h1, h2⟩ := upd_back u grow hi e g s rfl hr'
    refine ⟨h1, h2.trans ?_⟩
    simp only [B.back]
    split <;> rfl
  | unwind w =>
    rw [norm_unwind hr.symm]
    obtain ⟨h1, h2⟩ := unwind_back u grow hi e g s rfl hr'
    refine ⟨h1, h2.trans ?_⟩
    simp only [B.back]
    split <;> rfl
  | action w =>
    rw [norm_action hr.symm]
    obtain ⟨h1, h2⟩ := action_back u grow hi e g s rfl hr'
    refine ⟨h1, h2.trans ?_⟩
    simp only [B.back]
    split
    · split <;> rfl
    · rfl
  | inCall w =>
    have h := g.then s.go.frame
    refine ⟨stay_forks hi rfl h, ?_⟩
    rw [h.read hi rfl, hr]
    obtain ⟨li, rfl⟩ := norm_inCall hr.symm
    rfl
  | base w => have h := g.then s.go.frame; rw [norm_base hr.symm]; exact ⟨stay_forks hi rfl h, h.read hi rfl⟩
  | ptr w => have h := g.then s.go.frame; rw [norm_base hr.symm]; exact ⟨stay_forks hi rfl h, h.read hi rfl⟩
  | with_ w => have h := g.then s.go.frame; rw [norm_with hr.symm]; exact ⟨stay_forks hi rfl h, h.read hi rfl⟩
  | ret w => have h := g.then s.go.frame; rw [norm_ret hr.symm]; exact ⟨stay_forks hi rfl h, h.read hi rfl⟩
  | standalone w n => have h := g.then s.go.frame; rw [norm_standalone hr.symm]; exact ⟨stay_forks hi rfl h, h.read hi rfl⟩

theorem map_fst {α β : Type} {o : Outcome β} {x y : α} {z : β} (h : (o.map fun s => (x, s)) = .ok (y, z)) : x = y := by
  cases o with
  | panic => cases h
  | ok a => cases h; rfl

theorem built_upd {x : UpdB} {v : Except Err Stmt} (he : x.err = none) (hb : x.build = .ok v) :
    (B.upd x).built = .upd { x with base := x.added } := by
  simp only [B.built]
  rw [if_pos he, hb]

theorem build_back {m : Mem} {b : HB} {x : B} (hi : Inv m b) (hr : b.read m = x.norm) :
    let r := Use.run u grow m b .build
    Stay m b r.1 ∧ b.read r.1 = x.built.norm ∧ atOnce r = [x.build] := by
  have ha := hbuild_agrees grow hi hr
  simp only [Use.run]
  rcases ha with ⟨m', st, b', e1, h2, h3, -, v, h5⟩ | ⟨e1, e2⟩
  · rw [e1]
    refine (and_assoc.1 ⟨?_, by simp [atOnce, h3]⟩)
    by_cases hf : b.forks = true
    · refine ⟨stay_forks hi hf h2.frame, ?_⟩
      rw [h2.frame.read hi hf, hr]
      cases b <;> simp only [HB.forks, reduceCtorEq] at hf
      case base w => rw [norm_base hr.symm]; rfl
      case ptr w => rw [norm_base hr.symm]; rfl
      case with_ w => rw [norm_with hr.symm]; rfl
      case ret w => rw [norm_ret hr.symm]; rfl
      case inCall w => obtain ⟨li, rfl⟩ := norm_inCall hr.symm; rfl
      case standalone w n => rw [norm_standalone hr.symm]; rfl
    · cases b <;> simp only [HB.forks, not_true_eq_false, reduceCtorEq] at hf
      case unwind w => simp only [hbuild, reduceCtorEq] at e1
      case action w => simp only [hbuild, reduceCtorEq] at e1
      case upd w =>
        simp only [HB.read] at hr
        have hx := norm_upd hr.symm
        subst hx
        simp only [hbuild] at e1
        rcases Option.eq_none_or_eq_some w.err with he | ⟨er, he⟩
        rotate_left
        · rw [he] at e1
          simp only [Outcome.ok.injEq, Prod.mk.injEq] at e1
          obtain ⟨rfl, rfl⟩ := e1
          exact ⟨.refl hi, by simp [B.built, he, HB.read, B.norm]⟩
        · rw [he] at e1
          simp only at e1
          cases hn : w.next grow m with
          | panic => rw [hn] at e1; cases e1
          | ok p =>
            rw [hn] at e1
            obtain ⟨h6, h7⟩ := stay_next grow hi hn
            obtain ⟨h8, h9⟩ := next_added grow hi hn rfl
            simp only [Outcome.bind] at e1
            have hm : Stay m (.upd w) m' ∧ HB.read m' (.upd w) = HB.read p.1 (.upd w) := by
              split at e1
              · have e4 := map_fst e1
                subst e4
                exact ⟨h6, rfl⟩
              · have e4 := map_fst e1
                subst e4
                have hi' := h6.go.inv
                obtain ⟨hs, hm, -⟩ := HOrder.finish_does grow (o := w.order) hi'.so
                revert hs hm
                generalize w.order.finish grow p.1 = r
                obtain ⟨m1, sl⟩ := r
                simp only
                generalize m1.so = h'
                intro hs hm
                subst hm
                have hg : Go p.1 (.upd w) { p.1 with so := h' } (.upd { w with order := { w.order with items := sl } }) :=
                  Go.order hi' hs rfl rfl rfl (fun _ => rfl) (fun _ => rfl)
                have hss : Stay p.1 (.upd w) { p.1 with so := h' } :=
                  stay_shared hi' (base_upd h7) (b' := .upd { w with order := { w.order with items := sl } }) (base_upd h7) hg rfl (.refl hg.inv)
                refine ⟨h6.trans hss, ?_⟩
                rw [read_upd hi' hss]
                have hold := order_base_read hi' hs
                rw [base_upd h7] at hold
                simp only [h7, Option.map, hold, HB.read]
            refine ⟨hm.1, ?_⟩
            rw [hm.2, h8]
            simp only [B.build] at h5
            rw [built_upd he h5]
            rfl
  · rw [e1, e2]
    refine ⟨.refl hi, ?_, rfl⟩
    rw [hr]
    cases x <;> try rfl
    case upd w =>
      simp only [B.build] at e2
      simp only [B.built, e2, ite_self]

/-- What a program makes of a builder. -/
theorem run_live (p : Use) : ∀ {m : Mem} {b : HB} {x : B}, Inv m b → b.read m = x.norm →
    let r := p.run u grow m b
    Stay m b r.1 ∧ b.read r.1 = (p.live u x).1.norm ∧ atOnce r = (p.live u x).2 := by
  induction p with
  | nothing => exact fun hi hr => ⟨.refl hi, hr, rfl⟩
  | build => exact fun hi hr => build_back u grow hi hr
  | call c p ih =>
    intro m b x hi hr
    simp only [Use.run, Use.live]
    rcases hexec_matches u grow hi hr c with ⟨m', b', y, e1, e2, h3, h4⟩ | ⟨e1, e2⟩
    · rw [e1, e2]
      obtain ⟨h5, h6, h7⟩ := ih h3.inv h4
      obtain ⟨h8, h9⟩ := step_back u grow hi e1 h3 h5 hr h6
      exact ⟨h8, h9, h7⟩
    · rw [e1, e2]
      exact ⟨.refl hi, hr, rfl⟩
  | both p q ihp ihq =>
    intro m b x hi hr
    simp only [Use.run, Use.live]
    obtain ⟨h1, h2, h3⟩ := ihp hi hr
    obtain ⟨h4, h5, h6⟩ := ihq h1.go.inv h2
    refine ⟨h1.trans h4, h5, ?_⟩
    simp only [atOnce, List.map_append] at h3 h6 ⊢
    rw [h3, h6]

end HB

end Verif
