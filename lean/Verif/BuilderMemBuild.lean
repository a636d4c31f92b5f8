import Verif.BuilderMemCalls

/-
`Build()` in memory, and programs that use a builder more than once.
-/

namespace Verif

variable (u : Unicode) (grow : Nat → Nat → Nat)

namespace HB

/-! ### What may change while a builder is used -/

/-- Arrays of one kind: what cannot be written by appending to `s` is as before. -/
structure Around {α : Type} (h : Heap α) (s : Slice) (h' : Heap α) : Prop where
  next : h.next ≤ h'.next
  same : ∀ a i, ¬ h.Reg s a i → h'.mem a i = h.mem a i

/-- What may have changed in memory after a builder, or builders made from it, have been used. -/
structure Frame (m : Mem) (b : HB) (m' : Mem) : Prop where
  cl : Around m.cl (b.baseOf m).elems m'.cl
  pt : Around m.pt (b.baseOf m).parts m'.pt
  ac : Around m.ac (b.baseOf m).acts m'.ac
  it : Around m.it b.items m'.it
  so : Around m.so b.sorts m'.so
  ncell : m.ncell ≤ m'.ncell
  cells : ∀ c, c < m.ncell → ¬ b.writes c →
    (¬ b.calls c → m'.cells c = m.cells c) ∧ ∃ o, m'.cells c = { m.cells c with ocall := o }

theorem _root_.Verif.HStep.around {α : Type} {h h' : Heap α} {s s' : Slice} (x : HStep h s h' s') : Around h s h' := ⟨x.next, x.same⟩

theorem Around.after {α : Type} {h h1 h2 : Heap α} {s s1 : Slice} (x : HStep h s h1 s1) (y : Around h1 s1 h2) : Around h s h2 where
  next := Nat.le_trans x.next y.next
  same a i hn := by rw [y.same a i (fun hh => hn (x.shrink _ _ hh)), x.same a i hn]

theorem Around.twice {α : Type} {h h1 h2 : Heap α} {s : Slice} (x : Around h s h1) (y : Around h1 s h2) : Around h s h2 where
  next := Nat.le_trans x.next y.next
  same a i hn := by
    rw [y.same a i (fun hh => hn ?_), x.same a i hn]
    exact hh.imp (Nat.le_trans x.next) id

theorem Around.fit {α : Type} {h h1 : Heap α} {s t : Slice} (x : Around h s h1) (ht : h.Fit t) : h1.Fit t :=
  ⟨ht.1, ht.2.1.imp id (fun hh => Nat.lt_of_lt_of_le hh x.next), ht.2.2⟩

theorem Around.read {α : Type} {h h1 : Heap α} {s : Slice} (x : Around h s h1) (hs : h.Fit s) : h1.read s = h.read s :=
  Heap.read_same x.same (fun i hi => hs.out i hi)

theorem Go.frame {m m' : Mem} {b b' : HB} (h : Go m b m' b') : Frame m b m' :=
  ⟨h.cl.around, h.pt.around, h.ac.around, h.it.around, h.so.around, h.ncell, h.cells⟩

theorem Frame.refl {m : Mem} {b : HB} (hi : Inv m b) : Frame m b m := (Go.refl hi).frame

theorem Go.then {m m1 m2 : Mem} {b b1 : HB} (h : Go m b m1 b1) (g : Frame m1 b1 m2) : Frame m b m2 where
  cl := .after h.cl g.cl
  pt := .after h.pt g.pt
  ac := .after h.ac g.ac
  it := .after h.it g.it
  so := .after h.so g.so
  ncell := Nat.le_trans h.ncell g.ncell
  cells c hc hw := by
    have h1 := h.cells c hc hw
    have hw1 : ¬ b1.writes c := fun hh => by
      rcases (h.own c).1 hh with hh | hh
      · omega
      · exact hw hh
    have h2 := g.cells c (Nat.lt_of_lt_of_le hc h.ncell) hw1
    refine ⟨fun hn => ?_, ?_⟩
    · rw [h2.1 (fun hh => ?_), h1.1 hn]
      rcases (h.own c).2 hh with hh | hh | hh
      · omega
      · exact hw hh
      · exact hn hh
    · obtain ⟨o1, e1⟩ := h1.2
      obtain ⟨o2, e2⟩ := h2.2
      exact ⟨o2, by rw [e2, e1]⟩

/-! ### Builders that can be used again -/

/-- The builders that do not change what they point to. -/
def forks : HB → Bool
  | .upd _ | .unwind _ | .action _ => false
  | _ => true

theorem not_writes {b : HB} (h : b.forks = true) (c : Nat) : ¬ b.writes c := by
  cases b <;> first | exact id | cases h

/-- The slices of what is pointed to are the same. -/
theorem Frame.base {m m' : Mem} {b : HB} (hi : Inv m b) (hf : b.forks = true) (h : Frame m b m') :
    ∃ o, b.baseOf m' = { b.baseOf m with ocall := o } := by
  cases hc : b.cell with
  | none =>
    have : b.baseOf m' = b.baseOf m := by
      cases b <;> simp only [HB.cell] at hc <;> simp only [baseOf, HB.cell, hc]
    exact ⟨_, this⟩
  | some c =>
    have hb : ∀ m : Mem, b.baseOf m = m.cells c := by
      intro m
      cases b <;> simp only [HB.cell, reduceCtorEq] at hc <;> simp only [baseOf, HB.cell, hc]
    rw [hb, hb]
    exact (h.cells c (hi.cell c hc) (not_writes hf c)).2

theorem Frame.slices {m m' : Mem} {b : HB} (hi : Inv m b) (hf : b.forks = true) (h : Frame m b m') :
    (b.baseOf m').elems = (b.baseOf m).elems ∧ (b.baseOf m').parts = (b.baseOf m).parts ∧ (b.baseOf m').acts = (b.baseOf m).acts := by
  obtain ⟨o, e⟩ := h.base hi hf
  rw [e]
  exact ⟨rfl, rfl, rfl⟩

theorem Frame.inv {m m' : Mem} {b : HB} (hi : Inv m b) (hf : b.forks = true) (h : Frame m b m') : Inv m' b := by
  obtain ⟨e1, e2, e3⟩ := h.slices hi hf
  refine ⟨fun c hc => Nat.lt_of_lt_of_le (hi.cell c hc) h.ncell, ?_, ?_, ?_, h.it.fit hi.it, h.so.fit hi.so, ?_⟩
  · rw [e1]; exact h.cl.fit hi.cl
  · rw [e2]; exact h.pt.fit hi.pt
  · rw [e3]; exact h.ac.fit hi.ac
  · rw [e2, h.pt.read hi.pt]
    intro p hp i hl hr
    exact hi.parts p hp i hl (hr.imp (Nat.le_trans h.so.next) id)

theorem Frame.twice {m m1 m2 : Mem} {b : HB} (hi : Inv m b) (hf : b.forks = true) (h : Frame m b m1) (g : Frame m1 b m2) :
    Frame m b m2 := by
  obtain ⟨e1, e2, e3⟩ := h.slices hi hf
  obtain ⟨g1, g2, g3, g4, g5, g6, g7⟩ := g
  rw [e1] at g1
  rw [e2] at g2
  rw [e3] at g3
  refine ⟨h.cl.twice g1, h.pt.twice g2, h.ac.twice g3, h.it.twice g4, h.so.twice g5, Nat.le_trans h.ncell g6, ?_⟩
  intro c hc hw
  have h1 := h.cells c hc hw
  have h2 := g7 c (Nat.lt_of_lt_of_le hc h.ncell) hw
  refine ⟨fun hn => by rw [h2.1 hn, h1.1 hn], ?_⟩
  obtain ⟨o1, e1⟩ := h1.2
  obtain ⟨o2, e2⟩ := h2.2
  exact ⟨o2, by rw [e2, e1]⟩

/-- What the shared builder is. -/
theorem Frame.base_read {m m' : Mem} {b : HB} (hi : Inv m b) (h : Frame m b m') :
    (b.baseOf m).read m' = (b.baseOf m).read m := by
  have hp : (m'.pt.read (b.baseOf m).parts).map (HPart.read m') = (m.pt.read (b.baseOf m).parts).map (HPart.read m) := by
    rw [h.pt.read hi.pt]
    exact parts_same (s := b.sorts) (t := b.sorts) h.so.same hi.parts (fun _ _ hh => hh)
  have hu : (b.baseOf m).oupdate.map (HUpd.read m') = (b.baseOf m).oupdate.map (HUpd.read m) := by
    have ha := h.ac.read hi.ac
    cases ho : (b.baseOf m).oupdate with
    | none => rfl
    | some x =>
      cases x with
      | merge km kp ps as =>
        simp only [HBase.acts, ho] at ha
        simp only [Option.map_some, HUpd.read, ha]
      | create => rfl
      | done => rfl
  simp only [HBase.read, h.cl.read hi.cl, hp, hu]

theorem Frame.read {m m' : Mem} {b : HB} (hi : Inv m b) (hf : b.forks = true) (h : Frame m b m') : b.read m' = b.read m := by
  have hr := h.base_read hi
  have hso : m'.so.read b.sorts = m.so.read b.sorts := h.so.read hi.so
  have ho : ∀ o : HOrder, o.items = b.sorts → o.read m' = o.read m := by
    intro o ho
    simp only [HOrder.read, ho, hso]
  have hcell : (∀ c, ¬ b.calls c) → ∀ c, b.cell = some c → (m'.cells c).read m' = (m.cells c).read m := by
    intro hn c hc
    have hb : b.baseOf m = m.cells c := by
      cases b <;> simp only [HB.cell, reduceCtorEq] at hc <;> simp only [baseOf, HB.cell, hc]
    rw [hb] at hr
    rw [(h.cells c (hi.cell c hc) (not_writes hf c)).1 (hn c), hr]
  cases b with
  | base b => simp only [HB.read]; exact congrArg _ hr
  | ptr c => simp only [HB.read]; exact congrArg _ (hcell (fun _ => id) c rfl)
  | with_ w =>
    simp only [HB.read, ho w.order rfl]
    cases hc : w.cell with
    | none => rfl
    | some c => simp only [Option.map_some, hcell (fun _ => id) c hc]
  | ret w =>
    simp only [HB.read, ho w.order rfl]
    cases hc : w.cell with
    | none => rfl
    | some c => simp only [Option.map_some, hcell (fun _ => id) c hc]
  | upd => cases hf
  | unwind => cases hf
  | action => cases hf
  | standalone => rfl
  | inCall i =>
    simp only [HB.read]
    cases hc : i.cell with
    | none => rfl
    | some c =>
      have hb : (HB.inCall i).baseOf m = m.cells c := by simp [baseOf, HB.cell, hc]
      rw [hb] at hr
      obtain ⟨o, e⟩ := (h.cells c (hi.cell c hc) id).2
      simp only [Option.map_some, e]
      have h2 := congrArg (fun x : Base => { x with ocall := i.call }) hr
      have h3 : (({ m.cells c with ocall := o } : HBase).read m') = { (m.cells c).read m' with ocall := o } := rfl
      rw [h3]
      have h4 : ({ (m.cells c).read m' with ocall := i.call } : Base) = { (m.cells c).read m with ocall := i.call } := h2
      simp only [h4]

/-! ### `Build()` -/

theorem read_nil_iff {α β : Type} (h : Heap α) (s : Slice) (f : α → β) : (h.read s).map f = [] ↔ s.len = 0 := by
  rw [List.map_eq_nil_iff, ← List.length_eq_zero_iff, Heap.read_length]

/-- The arrays that a statement looks at have been made. -/
def _root_.Verif.HStmt.Low (m : Mem) : HStmt → Prop
  | .query parts _ items sorts _ =>
    (0 < parts.len → parts.arr < m.pt.next) ∧ (∀ p ∈ m.pt.read parts, 0 < p.sorts.len → p.sorts.arr < m.so.next) ∧
      (0 < items.len → items.arr < m.it.next) ∧ (0 < sorts.len → sorts.arr < m.so.next)
  | .call _ => True

def _root_.Verif.Built.Low (m : Mem) : Built HStmt → Prop
  | .ok (.ok s) => s.Low m
  | _ => True

theorem fit_low {α : Type} {h : Heap α} {s : Slice} (hs : h.Fit s) (hl : 0 < s.len) : s.arr < h.next := by
  obtain ⟨h1, h2, _⟩ := hs
  rcases h2 with h2 | h2 <;> omega

/-- The slices of a statement are those of a builder. -/
def _root_.Verif.Built.From (m : Mem) (b : HB) : Built HStmt → Prop
  | .ok (.ok (.query parts _ items sorts _)) =>
    parts = (b.baseOf m).parts ∧ (items = {} ∨ items = b.items) ∧ (sorts = {} ∨ sorts = b.sorts)
  | _ => True

theorem from_low {m : Mem} {b : HB} (hi : Inv m b) {r : Built HStmt} (h : r.From m b) : r.Low m := by
  cases r with
  | panic => trivial
  | ok r =>
    cases r with
    | error e => trivial
    | ok s =>
      cases s with
      | call s => trivial
      | query parts cs items sorts ret =>
        obtain ⟨rfl, h2, h3⟩ := h
        refine ⟨fit_low hi.pt, ?_, ?_, ?_⟩
        · intro p hp hl
          exact Nat.lt_of_not_le fun hh => hi.parts p hp 0 hl (.inl hh)
        · rcases h2 with rfl | rfl
          · intro hh; cases hh
          · exact fit_low hi.it
        · rcases h3 with rfl | rfl
          · intro hh; cases hh
          · exact fit_low hi.so

/-- `Build()` in memory against `Build()` on values. -/
def Agrees (m : Mem) (b : HB) (r : Outcome (Mem × Except Err HStmt)) (x : Built Stmt) : Prop :=
  (∃ m' s b', r = .ok (m', s) ∧ Go m b m' b' ∧ Built.look m' (.ok s) = x ∧ Built.From m' b' (.ok s) ∧ ∃ v, x = .ok v) ∨
    (r = .panic ∧ x = .panic)

theorem buildImpl_agrees {m0 m : Mem} {b0 b : HB} (hg : Go m0 b0 m b) {items sorts : Slice} {ret : List Val → List SortItemV → Option Val}
    (hit : items = {} ∨ items = b.items) (hso : sorts = {} ∨ sorts = b.sorts) {y : Base} (hy : (b.baseOf m).read m = y) {v : Option Val}
    (hv : ret (m.it.read items) (m.so.read sorts) = v) :
    Agrees m0 b0 (((b.baseOf m).buildImpl m items sorts ret).map fun s => (m, s)) ((y.buildImpl v).map .ok) := by
  subst hy hv
  unfold HBase.buildImpl Base.buildImpl
  have hparts : ((b.baseOf m).read m).parts = (m.pt.read (b.baseOf m).parts).map (HPart.read m) := rfl
  have hs : ∀ cs, (HStmt.query (b.baseOf m).parts cs items sorts ret).read m =
      (if ((b.baseOf m).read m).parts = [] then .ok (singlePart cs (ret (m.it.read items) (m.so.read sorts))) else
        multiPart ((b.baseOf m).read m).parts (singlePart cs (ret (m.it.read items) (m.so.read sorts)))) := by
    intro cs
    simp only [HStmt.read, hparts, read_nil_iff]
  have fin : ∀ cs, Agrees m0 b0
      ((((HStmt.query (b.baseOf m).parts cs items sorts ret).read m).map
        fun _ => (.ok (HStmt.query (b.baseOf m).parts cs items sorts ret) : Except Err HStmt)).map fun s => (m, s))
      ((if ((b.baseOf m).read m).parts = [] then .ok (singlePart cs (ret (m.it.read items) (m.so.read sorts))) else
        multiPart ((b.baseOf m).read m).parts (singlePart cs (ret (m.it.read items) (m.so.read sorts)))).map .ok) := by
    intro cs
    rw [← hs cs]
    cases hst : (HStmt.query (b.baseOf m).parts cs items sorts ret).read m with
    | panic => exact .inr ⟨rfl, rfl⟩
    | ok st =>
      refine .inl ⟨m, _, b, rfl, hg, ?_, ⟨rfl, hit, hso⟩, _, rfl⟩
      simp only [Built.look, hst]
  rw [HBase.list_read]
  cases ((b.baseOf m).read m).list with
  | ok cs => exact fin cs
  | error e => exact fin []

theorem _root_.Verif.Heap.Fit.empty {α : Type} (h : Heap α) : h.Fit {} := ⟨Nat.le_refl _, .inl rfl, fun _ => rfl⟩

theorem return_done (m : Mem) (o : HOrder) (k ko : Key) (d : Bool) {items : List Val} (hx : items ≠ []) :
    returnCreate k ko d items (o.done (o.read m).allItems) = returnCreate k ko d items (o.read m) := by
  obtain ⟨e1, e2, e3⟩ := OrderB.done_all m o ko
  simp only [returnCreate, if_neg hx, e1, e2, e3]

theorem hbuild_agrees {m : Mem} {b : HB} {x : B} (hi : Inv m b) (hr : b.read m = x.norm) : Agrees m b (hbuild grow m b) x.build := by
  cases b with
  | base b =>
    rw [norm_base hr.symm]
    simp only [hbuild, B.build, Base.build]
    have : (b.read m).err = b.err := rfl
    rw [this]
    cases b.err with
    | some e => exact .inl ⟨_, _, _, rfl, .refl hi, rfl, trivial, _, rfl⟩
    | none => exact buildImpl_agrees (b := .base b) (.refl hi) (.inl rfl) (.inl rfl) rfl rfl
  | ptr p =>
    rw [norm_base hr.symm]
    simp only [hbuild, B.build, Base.build]
    have : ((m.cells p).read m).err = (m.cells p).err := rfl
    rw [this]
    cases (m.cells p).err with
    | some e => exact .inl ⟨_, _, _, rfl, .refl hi, rfl, trivial, _, rfl⟩
    | none => exact buildImpl_agrees (b := .ptr p) (.refl hi) (.inl rfl) (.inl rfl) rfl rfl
  | ret w =>
    rw [norm_ret hr.symm]
    simp only [hbuild, B.build, RetB.build]
    cases w.err with
    | some e => exact .inl ⟨_, _, _, rfl, .refl hi, rfl, trivial, _, rfl⟩
    | none =>
      cases hc : w.cell with
      | none => exact .inr ⟨rfl, rfl⟩
      | some c =>
        have hbase : (HB.ret w).baseOf m = m.cells c := by simp [baseOf, HB.cell, hc]
        simp only [Option.map_some]
        by_cases hx : w.items = []
        · rw [if_pos hx, ← hbase]
          exact buildImpl_agrees (.refl hi) (.inl rfl) (.inl rfl) rfl (by simp [returnCreate, hx])
        · rw [if_neg hx]
          obtain ⟨hs, hm, hread⟩ := HOrder.finish_does grow (o := w.order) hi.so
          revert hs hm hread
          generalize w.order.finish grow m = r
          obtain ⟨m1, sl⟩ := r
          simp only
          generalize m1.so = h'
          intro hs hm hread
          subst hm
          have hold := order_base_read hi hs
          rw [hbase] at hold
          have hg : Go m (.ret w) { m with so := h' } (.ret { w with order := { w.order with items := sl } }) :=
            Go.order hi hs rfl rfl rfl (fun _ => rfl) (fun _ => rfl)
          have hb' : (HB.ret { w with order := { w.order with items := sl } }).baseOf { m with so := h' } = m.cells c := by
            simp [baseOf, HB.cell, hc]
          have := buildImpl_agrees (b := .ret { w with order := { w.order with items := sl } }) hg
            (items := {}) (sorts := sl) (ret := fun _ ss => returnCreate w.k w.ko w.distinct w.items (w.order.done ss))
            (.inl rfl) (.inr rfl) (y := (m.cells c).read m) (by rw [hb']; exact hold) (v := returnCreate w.k w.ko w.distinct w.items (w.order.read m))
            (by simp only [hread]; exact return_done m w.order _ _ _ hx)
          rw [hb'] at this
          exact this
  | upd x =>
    have hn := upd_next grow hi rfl
    rw [norm_upd hr.symm]
    simp only [hbuild, B.build, UpdB.build]
    cases he : x.err with
    | some e => exact .inl ⟨_, _, _, rfl, .refl hi, rfl, trivial, _, rfl⟩
    | none =>
      rw [he] at hn
      rcases hn with ⟨m', c, y, e1, e2, -, h4, h5, h6, h7, h8⟩ | ⟨e1, e2⟩
      · simp only at e2 ⊢
        rw [e1, e2]
        simp only [Outcome.bind]
        have hbase : (HB.upd x).baseOf m' = m'.cells c := by simp [baseOf, HB.cell, h6]
        have hnil : m.it.read x.items = [] ↔ x.items.len = 0 := by rw [← List.length_eq_zero_iff, Heap.read_length]
        by_cases hx : x.items.len = 0
        · rw [if_pos hx, ← hbase]
          exact buildImpl_agrees h5 (.inl rfl) (.inl rfl) (by rw [hbase]; exact h4) (by simp [returnCreate, hnil.2 hx])
        · rw [if_neg hx]
          have hi' := h5.inv
          obtain ⟨hs, hm, hread⟩ := HOrder.finish_does grow (o := x.order) hi'.so
          have hord : x.order.read m' = x.order.read m := by simp only [HOrder.read, h7]
          rw [hord] at hread
          have hitems : m'.it.read x.items = m.it.read x.items := by rw [h8]
          revert hs hm hread
          generalize x.order.finish grow m' = r
          obtain ⟨m1, sl⟩ := r
          simp only
          generalize m1.so = h'
          intro hs hm hread
          subst hm
          have hold := order_base_read hi' hs
          rw [hbase] at hold
          have hg : Go m' (.upd x) { m' with so := h' } (.upd { x with order := { x.order with items := sl } }) :=
            Go.order hi' hs rfl rfl rfl (fun _ => rfl) (fun _ => rfl)
          have hb' : (HB.upd { x with order := { x.order with items := sl } }).baseOf { m' with so := h' } = m'.cells c := by
            simp [baseOf, HB.cell, h6]
          have := buildImpl_agrees (b := .upd { x with order := { x.order with items := sl } }) (h5.trans hg)
            (items := x.items) (sorts := sl) (ret := fun xs ss => returnCreate x.k x.ko x.distinct xs (x.order.done ss))
            (.inr rfl) (.inr rfl) (y := y) (by rw [hb']; exact hold.trans h4) (v := returnCreate x.k x.ko x.distinct (m.it.read x.items) (x.order.read m))
            (by simp only [hread, hitems]; exact return_done m x.order _ _ _ (fun hh => hx (hnil.1 hh)))
          rw [hb'] at this
          exact this
      · simp only at e2 ⊢
        rw [e1, e2]; exact .inr ⟨rfl, rfl⟩
  | standalone s n =>
    rw [norm_standalone hr.symm]
    simp only [hbuild, B.build]
    cases s.build with
    | error e => exact .inl ⟨_, _, _, rfl, .refl hi, rfl, trivial, _, rfl⟩
    | ok v => exact .inl ⟨_, _, _, rfl, .refl hi, rfl, trivial, _, rfl⟩
  | with_ w => rw [norm_with hr.symm]; exact .inr ⟨rfl, rfl⟩
  | unwind w => rw [norm_unwind hr.symm]; exact .inr ⟨rfl, rfl⟩
  | inCall w => obtain ⟨li, rfl⟩ := norm_inCall hr.symm; exact .inr ⟨rfl, rfl⟩
  | action w => rw [norm_action hr.symm]; exact .inr ⟨rfl, rfl⟩

end HB

/-! ### Programs -/

/-- A builder as value that may be used again: not one for an update, an UNWIND or an action of a MERGE. -/
def B.again : B → Bool
  | .upd _ | .unwind _ | .action _ => false
  | _ => true

/-- Only such builders are used more than once. -/
def Use.Forks : B → Use → Prop
  | _, .nothing => True
  | _, .build => True
  | b, .call c p => ∀ b', exec u b c = .ok b' → p.Forks b'
  | b, .both p q => b.again = true ∧ p.Forks b ∧ q.Forks b

/-- A builder with no WITH behind it and no sort items: what it shares is only looked at when `Build()` is called. -/
def B.fresh : B → Prop
  | .base b => b.parts = []
  | .with_ w => (∀ b, w.base = some b → b.parts = []) ∧ w.order.items = []
  | .ret r => (∀ b, r.base = some b → b.parts = []) ∧ r.order.items = []
  | .inCall i => ∀ b, i.base = some b → b.parts = []
  | .standalone .. => True
  | _ => False

/-- A builder that has clauses and no RETURN. -/
def B.isBase : B → Prop
  | .base _ => True
  | _ => False

/-- Builders are used more than once only when they are fresh, or in order to go on after `Build()`. -/
def Use.Late : B → Use → Prop
  | _, .nothing => True
  | _, .build => True
  | b, .call c p => ∀ b', exec u b c = .ok b' → p.Late b'
  | b, .both p q => (b.fresh ∨ p = .build ∧ b.isBase) ∧ p.Late b ∧ q.Late b

namespace HB

theorem again_forks {m : Mem} {b : HB} {x : B} (hr : b.read m = x.norm) : b.forks = x.again := by
  cases b <;> cases x <;> first | rfl | cases hr

theorem run_atOnce {m : Mem} {b : HB} {x : B} (hi : Inv m b) (hr : b.read m = x.norm) (p : Use) (hp : p.Forks u x) :
    Frame m b (p.run u grow m b).1 ∧ atOnce (p.run u grow m b) = p.value u x := by
  induction p generalizing m b x with
  | nothing => exact ⟨.refl hi, rfl⟩
  | build =>
    simp only [Use.run, Use.value]
    rcases hbuild_agrees grow hi hr with ⟨m', s, b', e, h1, h2, -⟩ | ⟨e1, e2⟩
    · rw [e]
      exact ⟨h1.frame, by simp only [atOnce, List.map_cons, List.map_nil, h2]⟩
    · rw [e1, e2]
      exact ⟨.refl hi, rfl⟩
  | call c p ih =>
    simp only [Use.run, Use.value]
    rcases hexec_matches u grow hi hr c with ⟨m', b', y, e1, e2, h1, h2⟩ | ⟨e1, e2⟩
    · rw [e1, e2]
      obtain ⟨h3, h4⟩ := ih h1.inv h2 (hp y e2)
      exact ⟨h1.then h3, h4⟩
    · rw [e1, e2]
      exact ⟨.refl hi, rfl⟩
  | both p q ihp ihq =>
    obtain ⟨ha, hp, hq⟩ := hp
    have hf : b.forks = true := by rw [again_forks hr]; exact ha
    obtain ⟨h1, h2⟩ := ihp hi hr hp
    obtain ⟨h3, h4⟩ := ihq (h1.inv hi hf) (by rw [h1.read hi hf]; exact hr) hq
    simp only [Use.run, Use.value]
    refine ⟨h1.twice hi hf h3, ?_⟩
    rw [← h2, ← h4]
    simp only [atOnce, List.map_append]

/-! ### Statements that are looked at later -/

/-- A statement that does not look at what has changed. -/
theorem look_of_reads {m m' : Mem} {r : Built HStmt} (hl : r.Low m) (hpt : m.pt.next ≤ m'.pt.next) (hso : m.so.next ≤ m'.so.next)
    (hit : m.it.next ≤ m'.it.next)
    (h : ∀ parts cs items sorts ret, r = .ok (.ok (.query parts cs items sorts ret)) → m'.pt.read parts = m.pt.read parts ∧
      m'.it.read items = m.it.read items ∧ m'.so.read sorts = m.so.read sorts ∧
      ∀ p ∈ m.pt.read parts, m'.so.read p.sorts = m.so.read p.sorts) :
    Built.look m' r = Built.look m r ∧ r.Low m' := by
  cases r with
  | panic => exact ⟨rfl, trivial⟩
  | ok r =>
    cases r with
    | error e => exact ⟨rfl, trivial⟩
    | ok s =>
      cases s with
      | call s => exact ⟨rfl, trivial⟩
      | query parts cs items sorts ret =>
        obtain ⟨h1, h2, h3, h4⟩ := h _ _ _ _ _ rfl
        obtain ⟨l1, l2, l3, l4⟩ := hl
        refine ⟨?_, ?_⟩
        · simp only [Built.look, HStmt.read, h1, h2, h3]
          have : (m.pt.read parts).map (HPart.read m') = (m.pt.read parts).map (HPart.read m) := by
            apply List.map_congr_left
            intro p hp
            simp only [HPart.read, h4 p hp]
          rw [this]
        · refine ⟨fun hh => Nat.lt_of_lt_of_le (l1 hh) hpt, ?_, fun hh => Nat.lt_of_lt_of_le (l3 hh) hit,
            fun hh => Nat.lt_of_lt_of_le (l4 hh) hso⟩
          rw [h1]
          exact fun p hp hh => Nat.lt_of_lt_of_le (l2 p hp hh) hso

theorem Around.read_low {α : Type} {h h1 : Heap α} {s t : Slice} (x : Around h s h1) (hs : s.cap = 0) (ht : 0 < t.len → t.arr < h.next) :
    h1.read t = h.read t := by
  refine Heap.read_same x.same fun i hi hh => ?_
  rcases hh with hh | ⟨_, _, h3⟩
  · have := ht (by omega); omega
  · omega

theorem look_fresh {m m' : Mem} {b : HB} {r : Built HStmt} (h : Frame m b m') (hp : (b.baseOf m).parts.cap = 0) (hs : b.sorts.cap = 0)
    (ht : b.items.cap = 0) (hl : r.Low m) : Built.look m' r = Built.look m r ∧ r.Low m' := by
  refine look_of_reads hl h.pt.next h.so.next h.it.next ?_
  intro parts cs items sorts ret e
  subst e
  obtain ⟨l1, l2, l3, l4⟩ := hl
  exact ⟨h.pt.read_low hp l1, h.it.read_low ht l3, h.so.read_low hs l4, fun p hp => h.so.read_low hs (l2 p hp)⟩

theorem items_none {b : HB} (h : b.forks = true) : b.items = {} := by
  cases b <;> first | rfl | cases h

theorem fresh_caps {m : Mem} {b : HB} {x : B} (hi : Inv m b) (hr : b.read m = x.norm) (hx : x.fresh) :
    b.forks = true ∧ (b.baseOf m).parts.cap = 0 ∧ b.sorts.cap = 0 := by
  have len : ∀ y : HBase, (y.read m).parts = [] → y.parts.len = 0 := fun y hy => (read_nil_iff m.pt y.parts (HPart.read m)).1 hy
  have slen : ∀ o : HOrder, (o.read m).items = [] → o.items.len = 0 := fun o ho => by
    simpa [HOrder.read, ← List.length_eq_zero_iff, Heap.read_length] using ho
  have hpt := hi.pt.2.2
  have hso := hi.so.2.2
  cases b with
  | base b =>
    rw [norm_base hr.symm] at hx
    exact ⟨rfl, hpt (len _ hx), rfl⟩
  | ptr c =>
    rw [norm_base hr.symm] at hx
    exact ⟨rfl, hpt (len _ hx), rfl⟩
  | with_ w =>
    rw [norm_with hr.symm] at hx
    refine ⟨rfl, ?_, hso (slen _ hx.2)⟩
    cases hc : w.cell with
    | none => simp [baseOf, HB.cell, hc]
    | some c =>
      have hbase : (HB.with_ w).baseOf m = m.cells c := by simp [baseOf, HB.cell, hc]
      rw [hbase] at hpt ⊢
      exact hpt (len _ (hx.1 _ (by simp [hc])))
  | ret w =>
    rw [norm_ret hr.symm] at hx
    refine ⟨rfl, ?_, hso (slen _ hx.2)⟩
    cases hc : w.cell with
    | none => simp [baseOf, HB.cell, hc]
    | some c =>
      have hbase : (HB.ret w).baseOf m = m.cells c := by simp [baseOf, HB.cell, hc]
      rw [hbase] at hpt ⊢
      exact hpt (len _ (hx.1 _ (by simp [hc])))
  | upd w => rw [norm_upd hr.symm] at hx; exact hx.elim
  | unwind w => rw [norm_unwind hr.symm] at hx; exact hx.elim
  | action w => rw [norm_action hr.symm] at hx; exact hx.elim
  | standalone => exact ⟨rfl, rfl, rfl⟩
  | inCall i =>
    obtain ⟨li, rfl⟩ := norm_inCall hr.symm
    refine ⟨rfl, ?_, rfl⟩
    simp only [HB.read, B.norm, B.inCall.injEq, InCallB.mk.injEq] at hr
    cases hc : i.cell with
    | none => simp [baseOf, HB.cell, hc]
    | some c =>
      have hbase : (HB.inCall i).baseOf m = m.cells c := by simp [baseOf, HB.cell, hc]
      rw [hbase] at hpt ⊢
      rw [hc, Option.map_some] at hr
      cases hb : li.base with
      | none => rw [hb] at hr; cases hr.1
      | some lb =>
        rw [hb, Option.map_some, Option.some.injEq] at hr
        refine hpt (len _ ?_)
        have := congrArg Base.parts hr.1
        exact Eq.trans this (hx lb hb)

theorem map_const {α β : Type} {o : Outcome α} {t s : β} (h : (o.map fun _ => t) = .ok s) : s = t := by
  cases o with
  | panic => cases h
  | ok a => cases h; rfl

theorem buildImpl_shape {m : Mem} {b : HBase} {items sorts : Slice} {ret : List Val → List SortItemV → Option Val} {m1 : Mem}
    {s : Except Err HStmt} (h : ((b.buildImpl m items sorts ret).map fun s => (m, s)) = .ok (m1, s)) :
    m1 = m ∧ ∃ cs, s = .ok (.query b.parts cs items sorts ret) := by
  cases hb : b.buildImpl m items sorts ret with
  | panic => rw [hb] at h; cases h
  | ok y =>
    rw [hb] at h
    cases h
    exact ⟨rfl, _, map_const hb⟩

/-- Going on after `Build()`. -/
theorem look_built {m m' : Mem} {b : HB} {x : B} (hi : Inv m b) (hr : b.read m = x.norm) (hx : x.isBase) (h : Frame m b m')
    {s : Except Err HStmt} {m1 : Mem} (e : hbuild grow m b = .ok (m1, s)) (hl : Built.Low m (.ok s)) :
    Built.look m' (.ok s) = Built.look m (.ok s) ∧ Built.Low m' (.ok s) := by
  have key : ∀ parts cs items sorts ret, s = .ok (.query parts cs items sorts ret) →
      parts = (b.baseOf m).parts ∧ items = {} ∧ sorts = {} := by
    cases b <;> simp only [hbuild] at e
    case base b =>
      cases he : b.err with
      | some _ =>
        rw [he] at e; cases e
        exact fun _ _ _ _ _ h => by cases h
      | none =>
        rw [he] at e
        obtain ⟨_, cs, e⟩ := buildImpl_shape e
        subst e
        intro _ _ _ _ _ hh
        cases hh
        exact ⟨rfl, rfl, rfl⟩
    case ptr c =>
      cases he : (m.cells c).err with
      | some _ =>
        rw [he] at e; cases e
        exact fun _ _ _ _ _ h => by cases h
      | none =>
        rw [he] at e
        obtain ⟨_, cs, e⟩ := buildImpl_shape e
        subst e
        intro _ _ _ _ _ hh
        cases hh
        exact ⟨rfl, rfl, rfl⟩
    case ret w => rw [norm_ret hr.symm] at hx; exact hx.elim
    case upd w => rw [norm_upd hr.symm] at hx; exact hx.elim
    case standalone w => rw [norm_standalone hr.symm] at hx; exact hx.elim
    all_goals cases e
  refine look_of_reads hl h.pt.next h.so.next h.it.next ?_
  intro parts cs items sorts ret e
  cases e
  obtain ⟨e1, e2, e3⟩ := key _ _ _ _ _ rfl
  subst e1 e2 e3
  refine ⟨h.pt.read hi.pt, by simp [Heap.read], by simp [Heap.read], fun p hp => ?_⟩
  exact Heap.read_same h.so.same (hi.parts p hp)

theorem build_same {m : Mem} {b : HB} {x : B} (hr : b.read m = x.norm) (hx : x.isBase) {s : Except Err HStmt} {m1 : Mem}
    (e : hbuild grow m b = .ok (m1, s)) : m1 = m := by
  cases b <;> simp only [hbuild] at e
  case base b =>
    cases he : b.err with
    | some _ => rw [he] at e; cases e; rfl
    | none => rw [he] at e; exact (buildImpl_shape e).1
  case ptr c =>
    cases he : (m.cells c).err with
    | some _ => rw [he] at e; cases e; rfl
    | none => rw [he] at e; exact (buildImpl_shape e).1
  case ret w => rw [norm_ret hr.symm] at hx; exact hx.elim
  case upd w => rw [norm_upd hr.symm] at hx; exact hx.elim
  case standalone w => rw [norm_standalone hr.symm] at hx; exact hx.elim
  all_goals cases e

theorem late_forks {x : B} {p : Use} (h : p.Late u x) : p.Forks u x := by
  induction p generalizing x with
  | nothing => trivial
  | build => trivial
  | call c p ih => exact fun b hb => ih (h b hb)
  | both p q ihp ihq =>
    refine ⟨?_, ihp h.2.1, ihq h.2.2⟩
    rcases h.1 with h1 | ⟨_, h1⟩ <;> cases x <;> first | rfl | exact h1.elim

theorem run_atEnd {m : Mem} {b : HB} {x : B} (hi : Inv m b) (hr : b.read m = x.norm) (p : Use) (hp : p.Late u x) :
    ∀ s ∈ (p.run u grow m b).2, Built.look (p.run u grow m b).1 s.1 = Built.look s.2 s.1 ∧ s.1.Low (p.run u grow m b).1 := by
  induction p generalizing m b x with
  | nothing => exact fun s hs => by cases hs
  | build =>
    simp only [Use.run]
    rcases hbuild_agrees grow hi hr with ⟨m', s, b', e, h1, -, h3, -⟩ | ⟨e1, -⟩
    · rw [e]
      intro s hs
      cases List.mem_singleton.1 hs
      exact ⟨rfl, from_low h1.inv h3⟩
    · rw [e1]
      intro s hs
      cases List.mem_singleton.1 hs
      exact ⟨rfl, trivial⟩
  | call c p ih =>
    simp only [Use.run]
    rcases hexec_matches u grow hi hr c with ⟨m', b', y, e1, e2, h1, h2⟩ | ⟨e1, -⟩
    · rw [e1]
      exact ih h1.inv h2 (hp y e2)
    · rw [e1]
      intro s hs
      cases List.mem_singleton.1 hs
      exact ⟨rfl, trivial⟩
  | both p q ihp ihq =>
    have hfk := late_forks u hp
    obtain ⟨hx, hp, hq⟩ := hp
    have hf : b.forks = true := by rw [again_forks hr]; exact hfk.1
    obtain ⟨h1, -⟩ := run_atOnce u grow hi hr p hfk.2.1
    have hi1 := h1.inv hi hf
    have hr1 : b.read (p.run u grow m b).1 = x.norm := by rw [h1.read hi hf]; exact hr
    obtain ⟨h3, -⟩ := run_atOnce u grow hi1 hr1 q hfk.2.2
    have hp' := ihp hi hr hp
    have hq' := ihq hi1 hr1 hq
    simp only [Use.run]
    intro s hs
    rcases List.mem_append.1 hs with hs | hs
    · obtain ⟨e1, l1⟩ := hp' s hs
      rw [← e1]
      rcases hx with hx | ⟨rfl, hx⟩
      · obtain ⟨-, c1, c2⟩ := fresh_caps hi1 hr1 hx
        exact look_fresh h3 c1 c2 (by rw [items_none hf]) l1
      · simp only [Use.run] at hs h3 l1 ⊢
        revert hs h3 l1
        cases e : hbuild grow m b with
        | panic =>
          simp only
          intro h3 hs l1
          cases List.mem_singleton.1 hs
          exact ⟨rfl, trivial⟩
        | ok r =>
          obtain ⟨m1, y⟩ := r
          have := build_same grow hr hx e
          subst this
          simp only
          intro h3 hs l1
          cases List.mem_singleton.1 hs
          exact look_built grow hi hr hx h3 e l1
    · exact hq' s hs

end HB

end Verif
