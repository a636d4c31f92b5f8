import Verif.BuilderMemBuild

/-
Programs that keep several builders in variables and go on with them in any order.
-/

namespace Verif

variable (u : Unicode) (grow : Nat → Nat → Nat)

/-! ### What is asked of the program -/

/-- A builder that has nothing to share: no closed clauses, no parts, no actions of an open MERGE. -/
def Base.bare (b : Base) : Prop :=
  b.elems = [] ∧ b.parts = [] ∧ ∀ k kp ps as, b.oupdate = some (.merge k kp ps as) → as = []

/-- A builder that can be used again at any time: nothing shared, and no sort items. -/
def B.clean : B → Prop
  | .base b => b.bare
  | .with_ w => (∀ b, w.base = some b → b.bare) ∧ w.order.items = []
  | .ret r => (∀ b, r.base = some b → b.bare) ∧ r.order.items = []
  | .standalone .. => True
  | _ => False

/-- No builder is used after it has been continued, or built with its RETURN; except for clean ones, and `Build()` of builders without
RETURN.  `used` are the variables that must not be used any more. -/
def Line.Sound (used : Nat → Prop) (env : List B) : List Line → Prop
  | [] => True
  | .call i c :: ls => ¬ used i ∧ ∀ b b', env[i]? = some b → exec u b c = .ok b' →
      Line.Sound (fun j => used j ∨ (j = i ∧ ¬ b.clean)) (env ++ [b']) ls
  | .build i :: ls => ¬ used i ∧ ∀ b, env[i]? = some b → Line.Sound (fun j => used j ∨ (j = i ∧ ¬ (b.clean ∨ b.isBase))) env ls

namespace HB

/-! ### Builders that do not touch each other -/

/-- Appending to `s` does not reach the array of `t`. -/
def Sep {α : Type} (h : Heap α) (s t : Slice) : Prop := ∀ i, i < t.cap → ¬ h.Reg s t.arr i

theorem Sep.after {α : Type} {h h' : Heap α} {s s' t : Slice} (hs : HStep h s h' s') (hf : h.Fit s) (ht : h.Fit t) (h1 : Sep h s t) (h2 : Sep h t s) :
    Sep h' s' t ∧ Sep h' t s' := by
  refine ⟨fun i hi hh => h1 i hi (hs.shrink _ _ hh), fun i hi hh => ?_⟩
  have old : h.Reg s s'.arr i → False := by
    rintro (ho | ⟨e1, e2, e3⟩)
    · rcases hh with hh | ⟨e1, e2, e3⟩
      · rcases hs.fit.2.1 with h0 | h0
        · omega
        · omega
      · rcases ht.2.1 with h0 | h0 <;> omega
    · rcases hh with hh | hh
      · rcases hs.fit.2.1 with h0 | h0 <;> omega
      · rw [e1] at hh
        exact h2 i e3 (.inr hh)
  by_cases hl : i < s'.len
  · rcases hs.window i hl with ⟨e1, e2⟩ | hr
    · rcases hh with hh | hh
      · rcases hs.fit.2.1 with h0 | h0 <;> omega
      · rw [e1] at hh
        exact h2 i (Nat.lt_of_lt_of_le e2 hf.1) (.inr hh)
    · exact old hr
  · exact old (hs.shrink _ _ (.inr ⟨rfl, by omega, hi⟩))

/-- Using `a` does not touch `b`. -/
structure Off (m : Mem) (a b : HB) : Prop where
  cl : Sep m.cl (a.baseOf m).elems (b.baseOf m).elems
  pt : Sep m.pt (a.baseOf m).parts (b.baseOf m).parts
  ac : Sep m.ac (a.baseOf m).acts (b.baseOf m).acts
  it : Sep m.it a.items b.items
  so : Sep m.so a.sorts b.sorts
  parts : ∀ p ∈ m.pt.read (b.baseOf m).parts, ∀ i, i < p.sorts.len → ¬ m.so.Reg a.sorts p.sorts.arr i
  cells : ∀ c, a.writes c ∨ a.calls c → b.cell ≠ some c

theorem writes_cell {b : HB} {c : Nat} (h : b.writes c ∨ b.calls c) : b.cell = some c := by
  rcases h with hh | hh <;> revert hh <;> cases b <;> intro hh <;> first | exact hh | exact hh.elim

theorem Sep.read {α : Type} {h h' : Heap α} {s t : Slice} (hs : Around h s h') (ht : h.Fit t) (h1 : Sep h s t) : h'.read t = h.read t :=
  Heap.read_same hs.same fun i hi => h1 i (Nat.lt_of_lt_of_le hi ht.1)

section other
variable {m m' : Mem} {a b : HB} (h : Frame m a m') (hb : Inv m b) (ho : Off m a b)
include h hb ho

theorem other_cell {c : Nat} (hc : b.cell = some c) : m'.cells c = m.cells c :=
  (h.cells c (hb.cell c hc) (fun hh => ho.cells c (.inl hh) hc)).1 (fun hh => ho.cells c (.inr hh) hc)

theorem other_base : b.baseOf m' = b.baseOf m := by
  cases hc : b.cell with
  | none => cases b <;> simp only [HB.cell, reduceCtorEq] at hc <;> simp only [baseOf, HB.cell, hc]
  | some c =>
    have := other_cell h hb ho hc
    cases b <;> simp only [HB.cell, reduceCtorEq] at hc <;> simp only [baseOf, HB.cell, hc, this]

theorem other_parts : m'.pt.read (b.baseOf m').parts = m.pt.read (b.baseOf m).parts := by
  rw [other_base h hb ho]; exact Sep.read h.pt hb.pt ho.pt

theorem other_inv : Inv m' b := by
  have e := other_base h hb ho
  refine ⟨fun c hc => Nat.lt_of_lt_of_le (hb.cell c hc) h.ncell, ?_, ?_, ?_, h.it.fit hb.it, h.so.fit hb.so, ?_⟩
  · rw [e]; exact h.cl.fit hb.cl
  · rw [e]; exact h.pt.fit hb.pt
  · rw [e]; exact h.ac.fit hb.ac
  · rw [other_parts h hb ho]
    intro p hp i hl hr
    exact hb.parts p hp i hl (hr.imp (Nat.le_trans h.so.next) id)

theorem other_base_read : (b.baseOf m).read m' = (b.baseOf m).read m := by
  have hp : (m'.pt.read (b.baseOf m).parts).map (HPart.read m') = (m.pt.read (b.baseOf m).parts).map (HPart.read m) := by
    rw [Sep.read h.pt hb.pt ho.pt]
    exact parts_same (s := a.sorts) (t := a.sorts) h.so.same ho.parts (fun _ _ hh => hh)
  have hu : (b.baseOf m).oupdate.map (HUpd.read m') = (b.baseOf m).oupdate.map (HUpd.read m) := by
    have ha := Sep.read h.ac hb.ac ho.ac
    cases hx : (b.baseOf m).oupdate with
    | none => rfl
    | some x =>
      cases x with
      | merge km kp ps as =>
        simp only [HBase.acts, hx] at ha
        simp only [Option.map_some, HUpd.read, ha]
      | create => rfl
      | done => rfl
  simp only [HBase.read, Sep.read h.cl hb.cl ho.cl, hp, hu]

theorem other_read : b.read m' = b.read m := by
  have hr := other_base_read h hb ho
  have hso : m'.so.read b.sorts = m.so.read b.sorts := Sep.read h.so hb.so ho.so
  have hit : m'.it.read b.items = m.it.read b.items := Sep.read h.it hb.it ho.it
  have hord : ∀ o : HOrder, o.items = b.sorts → o.read m' = o.read m := by
    intro o ho
    simp only [HOrder.read, ho, hso]
  have hcell : ∀ o : Option Nat, o = b.cell →
      (o.map fun c => (m'.cells c).read m') = o.map fun c => (m.cells c).read m := by
    intro o hoc
    cases o with
    | none => rfl
    | some c =>
      have hbc : b.baseOf m = m.cells c := by
        cases b <;> simp only [HB.cell, reduceCtorEq] at hoc <;> simp only [baseOf, HB.cell, ← hoc]
      rw [hbc] at hr
      simp only [Option.map_some, other_cell h hb ho hoc.symm, hr]
  cases b with
  | base b => exact congrArg B.base hr
  | ptr c =>
    have := hcell (some c) rfl
    simp only [Option.map_some, Option.some.injEq] at this
    exact congrArg B.base this
  | with_ w => simp only [HB.read, hord w.order rfl, hcell w.cell rfl]
  | ret w => simp only [HB.read, hord w.order rfl, hcell w.cell rfl]
  | upd w =>
    have hit : m'.it.read w.items = m.it.read w.items := hit
    simp only [HB.read, hord w.order rfl, hcell w.cell rfl, hit]
  | unwind w => simp only [HB.read, hcell w.cell rfl]
  | action w => simp only [HB.read, hcell w.cell rfl]
  | standalone => rfl
  | inCall i =>
    have := congrArg (Option.map fun x : Base => { x with ocall := i.call }) (hcell i.cell rfl)
    simp only [Option.map_map, Function.comp_def] at this
    simp only [HB.read, this]

end other

/-- After a step of `a`. -/
theorem Off.after {m m' : Mem} {a a' b : HB} (h : Go m a m' a') (ha : Inv m a) (hb : Inv m b) (h1 : Off m a b) (h2 : Off m b a) :
    Off m' a' b ∧ Off m' b a' := by
  have e := other_base h.frame hb h1
  have ep := other_parts h.frame hb h1
  refine ⟨⟨?_, ?_, ?_, (Sep.after h.it ha.it hb.it h1.it h2.it).1, (Sep.after h.so ha.so hb.so h1.so h2.so).1, ?_, ?_⟩,
    ⟨?_, ?_, ?_, (Sep.after h.it ha.it hb.it h1.it h2.it).2, (Sep.after h.so ha.so hb.so h1.so h2.so).2, ?_, ?_⟩⟩
  · rw [e]; exact (Sep.after h.cl ha.cl hb.cl h1.cl h2.cl).1
  · rw [e]; exact (Sep.after h.pt ha.pt hb.pt h1.pt h2.pt).1
  · rw [e]; exact (Sep.after h.ac ha.ac hb.ac h1.ac h2.ac).1
  · rw [ep]
    exact fun p hp i hl hr => h1.parts p hp i hl (h.so.shrink _ _ hr)
  · intro c hc hbc
    have hlt := hb.cell c hbc
    rcases hc with hc | hc
    · rcases (h.own c).1 hc with h3 | h3
      · omega
      · exact h1.cells c (.inl h3) hbc
    · rcases (h.own c).2 hc with h3 | h3 | h3
      · omega
      · exact h1.cells c (.inl h3) hbc
      · exact h1.cells c (.inr h3) hbc
  · rw [e]; exact (Sep.after h.cl ha.cl hb.cl h1.cl h2.cl).2
  · rw [e]; exact (Sep.after h.pt ha.pt hb.pt h1.pt h2.pt).2
  · rw [e]; exact (Sep.after h.ac ha.ac hb.ac h1.ac h2.ac).2
  · intro p hp i hl hr
    have hnew : p.sorts.arr < m'.so.next := Nat.lt_of_not_le fun hh => h.parts p hp i hl (.inl hh)
    rcases h.made p hp with hm | hm
    · exact h2.parts p hm i hl (hr.imp (Nat.le_trans h.so.next) id)
    · rcases hm i hl with ⟨e1, e2⟩ | ho | ⟨e1, e2, e3⟩
      · rcases hr with hr | hr
        · omega
        · rw [e1] at hr
          exact h2.so i (Nat.lt_of_lt_of_le e2 ha.so.1) (.inr hr)
      · rcases hr with hr | ⟨g1, g2, g3⟩
        · omega
        · rcases hb.so.2.1 with h0 | h0 <;> omega
      · rcases hr with hr | hr
        · omega
        · rw [e1] at hr
          exact h2.so i e3 (.inr hr)
  · intro c hc hac
    have hbc := writes_cell hc
    have hlt := hb.cell c hbc
    rcases h.points c hac with h3 | h3
    · omega
    · exact h2.cells c hc h3

/-- Two builders of which neither is touched. -/
theorem Off.other {m m' : Mem} {a b c : HB} (h : Frame m a m') (hb : Inv m b) (hc : Inv m c) (h1 : Off m a b) (h2 : Off m a c)
    (ho : Off m b c) : Off m' b c := by
  have e := other_base h hb h1
  have e2 := other_base h hc h2
  have mono : ∀ {α : Type} {g g' : Heap α} {s t : Slice}, g.next ≤ g'.next → Sep g s t → Sep g' s t :=
    fun hn hs i hi hr => hs i hi (hr.imp (Nat.le_trans hn) id)
  refine ⟨?_, ?_, ?_, mono h.it.next ho.it, mono h.so.next ho.so, ?_, ho.cells⟩
  · rw [e, e2]; exact mono h.cl.next ho.cl
  · rw [e, e2]; exact mono h.pt.next ho.pt
  · rw [e, e2]; exact mono h.ac.next ho.ac
  · rw [other_parts h hc h2]
    exact fun p hp i hl hr => ho.parts p hp i hl (hr.imp (Nat.le_trans h.so.next) id)

/-! ### Statements -/

/-- Using `a` does not touch the statement. -/
def OffS (m : Mem) (a : HB) : Built HStmt → Prop
  | .ok (.ok (.query parts _ items sorts _)) =>
    (∀ i, i < parts.len → ¬ m.pt.Reg (a.baseOf m).parts parts.arr i) ∧
    (∀ p ∈ m.pt.read parts, ∀ i, i < p.sorts.len → ¬ m.so.Reg a.sorts p.sorts.arr i) ∧
    (∀ i, i < items.len → ¬ m.it.Reg a.items items.arr i) ∧ (∀ i, i < sorts.len → ¬ m.so.Reg a.sorts sorts.arr i)
  | _ => True

theorem built_cases {P : Built HStmt → Prop} (r : Built HStmt) (h : (∀ parts cs items sorts ret, r = .ok (.ok (.query parts cs items sorts ret)) → P r))
    (h0 : (∀ parts cs items sorts ret, r ≠ .ok (.ok (.query parts cs items sorts ret))) → P r) : P r := by
  cases r with
  | panic => exact h0 fun _ _ _ _ _ hh => by cases hh
  | ok r =>
    cases r with
    | error e => exact h0 fun _ _ _ _ _ hh => by cases hh
    | ok s =>
      cases s with
      | call s => exact h0 fun _ _ _ _ _ hh => by cases hh
      | query => exact h _ _ _ _ _ rfl

theorem OffS.other_stmt {m : Mem} {a : HB} {r : Built HStmt}
    (h0 : ∀ parts cs items sorts ret, r ≠ .ok (.ok (.query parts cs items sorts ret))) : OffS m a r := by
  cases r with
  | panic => trivial
  | ok r =>
    cases r with
    | error e => trivial
    | ok s =>
      cases s with
      | call s => trivial
      | query => exact absurd rfl (h0 _ _ _ _ _)

theorem OffS.look {m m' : Mem} {a : HB} {r : Built HStmt} (h : Frame m a m') (hs : OffS m a r) (hl : r.Low m) :
    Built.look m' r = Built.look m r ∧ r.Low m' := by
  refine look_of_reads hl h.pt.next h.so.next h.it.next ?_
  intro parts cs items sorts ret e
  subst e
  obtain ⟨h1, h2, h3, h4⟩ := hs
  exact ⟨Heap.read_same h.pt.same h1, Heap.read_same h.it.same h3, Heap.read_same h.so.same h4,
    fun p hp => Heap.read_same h.so.same (h2 p hp)⟩

theorem OffS.after {m m' : Mem} {a a' : HB} {r : Built HStmt} (h : Go m a m' a') (hs : OffS m a r) : OffS m' a' r := by
  refine built_cases r ?_ OffS.other_stmt
  intro parts cs items sorts ret e
  subst e
  obtain ⟨h1, h2, h3, h4⟩ := hs
  have hp : m'.pt.read parts = m.pt.read parts := Heap.read_same h.pt.same h1
  refine ⟨fun i hl hr => h1 i hl (h.pt.shrink _ _ hr), ?_, fun i hl hr => h3 i hl (h.it.shrink _ _ hr),
    fun i hl hr => h4 i hl (h.so.shrink _ _ hr)⟩
  rw [hp]
  exact fun p hp i hl hr => h2 p hp i hl (h.so.shrink _ _ hr)

theorem OffS.other {m m' : Mem} {a b : HB} {r : Built HStmt} (h : Frame m a m') (hb : Inv m b) (ho : Off m a b) (ha : OffS m a r)
    (hs : OffS m b r) : OffS m' b r := by
  refine built_cases r ?_ OffS.other_stmt
  intro parts cs items sorts ret e
  subst e
  obtain ⟨h1, h2, h3, h4⟩ := hs
  have hp : m'.pt.read parts = m.pt.read parts := Heap.read_same h.pt.same ha.1
  refine ⟨fun i hl hr => h1 i hl ?_, ?_, fun i hl hr => h3 i hl (hr.imp (Nat.le_trans h.it.next) id),
    fun i hl hr => h4 i hl (hr.imp (Nat.le_trans h.so.next) id)⟩
  · rw [other_base h hb ho] at hr
    exact hr.imp (Nat.le_trans h.pt.next) id
  · rw [hp]
    exact fun p hp i hl hr => h2 p hp i hl (hr.imp (Nat.le_trans h.so.next) id)

theorem OffS.of_from {m : Mem} {a b : HB} {r : Built HStmt} (hb : Inv m b) (ho : Off m a b) (h : r.From m b) : OffS m a r := by
  refine built_cases r ?_ OffS.other_stmt
  intro parts cs items sorts ret e
  subst e
  obtain ⟨rfl, h2, h3⟩ := h
  refine ⟨fun i hl => ho.pt i (Nat.lt_of_lt_of_le hl hb.pt.1), ho.parts, ?_, ?_⟩
  · rcases h2 with rfl | rfl
    · intro i hl; cases hl
    · exact fun i hl => ho.it i (Nat.lt_of_lt_of_le hl hb.it.1)
  · rcases h3 with rfl | rfl
    · intro i hl; cases hl
    · exact fun i hl => ho.so i (Nat.lt_of_lt_of_le hl hb.so.1)

theorem OffS.own {m : Mem} {b : HB} {r : Built HStmt} (hb : Inv m b) (h : r.From m b) : OffS m b r := by
  refine built_cases r ?_ OffS.other_stmt
  intro parts cs items sorts ret e
  subst e
  obtain ⟨rfl, h2, h3⟩ := h
  refine ⟨hb.pt.out, hb.parts, ?_, ?_⟩
  · rcases h2 with rfl | rfl
    · intro i hl; cases hl
    · exact hb.it.out
  · rcases h3 with rfl | rfl
    · intro i hl; cases hl
    · exact hb.so.out

/-! ### Clean builders -/

theorem bare_caps {m : Mem} {b : HBase} (h : (b.read m).bare) (hcl : m.cl.Fit b.elems) (hpt : m.pt.Fit b.parts) (hac : m.ac.Fit b.acts) :
    b.elems.cap = 0 ∧ b.parts.cap = 0 ∧ b.acts.cap = 0 := by
  obtain ⟨h1, h2, h3⟩ := h
  refine ⟨hcl.2.2 ?_, hpt.2.2 ((read_nil_iff _ _ _).1 h2), hac.2.2 ?_⟩
  · rw [← Heap.read_length m.cl, List.length_eq_zero_iff]; exact h1
  · unfold HBase.acts
    cases ho : b.oupdate with
    | none => rfl
    | some x =>
      cases x with
      | create => rfl
      | done => rfl
      | merge km kp ps as =>
        have := h3 km kp ps (m.ac.read as) (by simp only [HBase.read, ho, Option.map_some, HUpd.read])
        rw [← Heap.read_length m.ac, this]; rfl

theorem clean_off {m : Mem} {a : HB} {x : B} (hi : Inv m a) (hr : a.read m = x.norm) (hx : x.clean) : Off m a a := by
  have caps : (a.baseOf m).elems.cap = 0 ∧ (a.baseOf m).parts.cap = 0 ∧ (a.baseOf m).acts.cap = 0 ∧ a.items.cap = 0 ∧ a.sorts.cap = 0 ∧
      ∀ c, ¬ (a.writes c ∨ a.calls c) := by
    have slen : ∀ o : HOrder, (o.read m).items = [] → o.items.len = 0 := fun o ho => by
      simpa [HOrder.read, ← List.length_eq_zero_iff, Heap.read_length] using ho
    have hcl := hi.cl
    have hpt := hi.pt
    have hac := hi.ac
    have hso := hi.so.2.2
    have no : ∀ _ : Nat, ¬ (False ∨ False) := fun _ h => h.elim id id
    cases a with
    | base b =>
      rw [norm_base hr.symm] at hx
      obtain ⟨h1, h2, h3⟩ := bare_caps hx hcl hpt hac
      exact ⟨h1, h2, h3, rfl, rfl, no⟩
    | ptr c =>
      rw [norm_base hr.symm] at hx
      obtain ⟨h1, h2, h3⟩ := bare_caps hx hcl hpt hac
      exact ⟨h1, h2, h3, rfl, rfl, no⟩
    | with_ w =>
      rw [norm_with hr.symm] at hx
      cases hc : w.cell with
      | none =>
        have hbase : (HB.with_ w).baseOf m = {} := by simp [baseOf, HB.cell, hc]
        rw [hbase]
        exact ⟨rfl, rfl, rfl, rfl, hso (slen _ hx.2), no⟩
      | some c =>
        have hbase : (HB.with_ w).baseOf m = m.cells c := by simp [baseOf, HB.cell, hc]
        rw [hbase] at hcl hpt hac ⊢
        obtain ⟨h1, h2, h3⟩ := bare_caps (hx.1 _ (by simp [hc])) hcl hpt hac
        exact ⟨h1, h2, h3, rfl, hso (slen _ hx.2), no⟩
    | ret w =>
      rw [norm_ret hr.symm] at hx
      cases hc : w.cell with
      | none =>
        have hbase : (HB.ret w).baseOf m = {} := by simp [baseOf, HB.cell, hc]
        rw [hbase]
        exact ⟨rfl, rfl, rfl, rfl, hso (slen _ hx.2), no⟩
      | some c =>
        have hbase : (HB.ret w).baseOf m = m.cells c := by simp [baseOf, HB.cell, hc]
        rw [hbase] at hcl hpt hac ⊢
        obtain ⟨h1, h2, h3⟩ := bare_caps (hx.1 _ (by simp [hc])) hcl hpt hac
        exact ⟨h1, h2, h3, rfl, hso (slen _ hx.2), no⟩
    | upd w => rw [norm_upd hr.symm] at hx; exact hx.elim
    | unwind w => rw [norm_unwind hr.symm] at hx; exact hx.elim
    | action w => rw [norm_action hr.symm] at hx; exact hx.elim
    | standalone => exact ⟨rfl, rfl, rfl, rfl, rfl, no⟩
    | inCall i => obtain ⟨li, rfl⟩ := norm_inCall hr.symm; exact hx.elim
  obtain ⟨h1, h2, h3, h4, h5, h6⟩ := caps
  have sep : ∀ {α : Type} {h : Heap α} {s t : Slice}, t.cap = 0 → Sep h s t := fun ht i hi => by omega
  refine ⟨sep h1, sep h2, sep h3, sep h4, sep h5, ?_, fun c hc => (h6 c hc).elim⟩
  intro p hp
  have : (a.baseOf m).parts.len = 0 := by have := hi.pt.1; omega
  rw [Heap.read_empty _ _ this] at hp
  cases hp

/-- `Build()` of a builder without RETURN. -/
theorem base_from {m : Mem} {b : HB} {x : B} (hr : b.read m = x.norm) (hx : x.isBase) {s : Except Err HStmt} {m1 : Mem}
    (e : hbuild grow m b = .ok (m1, s)) : m1 = m ∧ Built.From m b (.ok s) := by
  have key : ∀ {bb : HBase}, b.baseOf m = bb → (match bb.err with
      | some e => Outcome.ok (m, Except.error e)
      | none => (bb.buildImpl m {} {} fun _ _ => none).map fun s => (m, s)) = .ok (m1, s) → m1 = m ∧ Built.From m b (.ok s) := by
    intro bb hb e
    cases he : bb.err with
    | some _ => rw [he] at e; cases e; exact ⟨rfl, trivial⟩
    | none =>
      rw [he] at e
      obtain ⟨h1, cs, h2⟩ := buildImpl_shape e
      subst h2
      exact ⟨h1, by rw [hb], .inl rfl, .inl rfl⟩
  cases b <;> simp only [hbuild] at e
  case base b =>
    refine key rfl (bb := b) ?_
    cases he : b.err <;> rw [he] at e <;> exact e
  case ptr c =>
    refine key rfl (bb := m.cells c) ?_
    cases he : (m.cells c).err <;> rw [he] at e <;> exact e
  case ret w => rw [norm_ret hr.symm] at hx; exact hx.elim
  case upd w => rw [norm_upd hr.symm] at hx; exact hx.elim
  case standalone w => rw [norm_standalone hr.symm] at hx; exact hx.elim
  all_goals cases e

/-! ### Programs -/

/-- All builders that may still be used, and all statements, are as they should be, and do not touch each other. -/
structure Fine (used : Nat → Prop) (m : Mem) (henv : List HB) (env : List B) (rs : List (Built HStmt)) : Prop where
  len : henv.length = env.length
  good : ∀ i a x, ¬ used i → henv[i]? = some a → env[i]? = some x → Inv m a ∧ a.read m = x.norm
  off : ∀ i j a b, i ≠ j → ¬ used i → ¬ used j → henv[i]? = some a → henv[j]? = some b → Off m a b
  stm : ∀ i a, ¬ used i → henv[i]? = some a → ∀ r ∈ rs, OffS m a r
  low : ∀ r ∈ rs, r.Low m

theorem Fine.val {used : Nat → Prop} {m : Mem} {henv : List HB} {env : List B} {rs : List (Built HStmt)} (hf : Fine used m henv env rs)
    {i : Nat} {a : HB} (h : henv[i]? = some a) : ∃ x, env[i]? = some x := by
  have hl : i < henv.length := by
    rcases Nat.lt_or_ge i henv.length with hh | hh
    · exact hh
    · rw [List.getElem?_eq_none hh] at h; cases h
  exact ⟨_, List.getElem?_eq_getElem (by rw [← hf.len]; exact hl)⟩

/-- The variables that may still be used after a step of `i`. -/
theorem Fine.others {used : Nat → Prop} {m m' : Mem} {henv : List HB} {env : List B} {rs : List (Built HStmt)} (hf : Fine used m henv env rs)
    {i : Nat} {a : HB} {x : B} (hu : ¬ used i) (ha : henv[i]? = some a) (hx : env[i]? = some x) {a' : HB} (hg : Go m a m' a') :
    Fine (fun j => used j ∨ (j = i ∧ ¬ x.clean)) m' henv env rs ∧
      ∀ j b, ¬ (used j ∨ (j = i ∧ ¬ x.clean)) → henv[j]? = some b → Off m' a' b ∧ Off m' b a' := by
  obtain ⟨hi, hr⟩ := hf.good i a x hu ha hx
  have offs : ∀ j b, ¬ (used j ∨ (j = i ∧ ¬ x.clean)) → henv[j]? = some b → Off m a b ∧ Off m b a ∧ Inv m b := by
    intro j b hj hb
    obtain ⟨y, hy⟩ := hf.val hb
    have huj : ¬ used j := fun hh => hj (.inl hh)
    by_cases he : j = i
    · subst he
      rw [ha] at hb; cases hb
      have hc : x.clean := Classical.byContradiction fun hh => hj (.inr ⟨rfl, hh⟩)
      have := clean_off hi hr hc
      exact ⟨this, this, hi⟩
    · exact ⟨hf.off i j a b (fun hh => he hh.symm) hu huj ha hb, hf.off j i b a he huj hu hb ha, (hf.good j b y huj hb hy).1⟩
  refine ⟨⟨hf.len, ?_, ?_, ?_, ?_⟩, ?_⟩
  · intro j b y hj hb hy
    obtain ⟨h1, h2, h3⟩ := offs j b hj hb
    exact ⟨other_inv hg.frame h3 h1, by
      rw [other_read hg.frame h3 h1]
      exact (hf.good j b y (fun hh => hj (.inl hh)) hb hy).2⟩
  · intro j k b c hjk hj hk hb hc
    obtain ⟨h1, h2, h3⟩ := offs j b hj hb
    obtain ⟨g1, g2, g3⟩ := offs k c hk hc
    exact Off.other hg.frame h3 g3 h1 g1 (hf.off j k b c hjk (fun hh => hj (.inl hh)) (fun hh => hk (.inl hh)) hb hc)
  · intro j b hj hb r hrs
    obtain ⟨h1, h2, h3⟩ := offs j b hj hb
    exact OffS.other hg.frame h3 h1 (hf.stm i a hu ha r hrs) (hf.stm j b (fun hh => hj (.inl hh)) hb r hrs)
  · intro r hrs
    exact (OffS.look hg.frame (hf.stm i a hu ha r hrs) (hf.low r hrs)).2
  · intro j b hj hb
    obtain ⟨h1, h2, h3⟩ := offs j b hj hb
    exact Off.after hg hi h3 h1 h2

theorem get_snoc {α : Type} {l : List α} {x a : α} {i : Nat} (h : (l ++ [x])[i]? = some a) : l[i]? = some a ∨ (i = l.length ∧ a = x) := by
  rcases Nat.lt_trichotomy i l.length with h1 | h1 | h1
  · rw [List.getElem?_append_left h1] at h; exact .inl h
  · subst h1
    rw [List.getElem?_append_right (Nat.le_refl _)] at h
    simp only [Nat.sub_self, List.getElem?_cons_zero, Option.some.injEq] at h
    exact .inr ⟨rfl, h.symm⟩
  · rw [List.getElem?_eq_none (by simp; omega)] at h; cases h

theorem get_lt {α : Type} {l : List α} {a : α} {i : Nat} (h : l[i]? = some a) : i < l.length := by
  rcases Nat.lt_or_ge i l.length with hh | hh
  · exact hh
  · rw [List.getElem?_eq_none hh] at h; cases h

theorem Fine.call {used : Nat → Prop} {m m' : Mem} {henv : List HB} {env : List B} {rs : List (Built HStmt)} (hf : Fine used m henv env rs)
    {i : Nat} {a : HB} {x : B} (hu : ¬ used i) (ha : henv[i]? = some a) (hx : env[i]? = some x) {a' : HB} {y : B} (hg : Go m a m' a')
    (hy : a'.read m' = y.norm) : Fine (fun j => used j ∨ (j = i ∧ ¬ x.clean)) m' (henv ++ [a']) (env ++ [y]) rs := by
  obtain ⟨h1, h2⟩ := hf.others hu ha hx hg
  refine ⟨by simp [hf.len], ?_, ?_, ?_, h1.low⟩
  · intro j b z hj hb hz
    rcases get_snoc hb with hb | ⟨rfl, rfl⟩
    · rcases get_snoc hz with hz | ⟨rfl, rfl⟩
      · exact h1.good j b z hj hb hz
      · have := get_lt hb; rw [hf.len] at this; omega
    · rcases get_snoc hz with hz | ⟨-, rfl⟩
      · have := get_lt hz; rw [hf.len] at this; omega
      · exact ⟨hg.inv, hy⟩
  · intro j k b c hjk hj hk hb hc
    rcases get_snoc hb with hb1 | ⟨e1, e2⟩ <;> rcases get_snoc hc with hc1 | ⟨e3, e4⟩
    · exact h1.off j k b c hjk hj hk hb1 hc1
    · rw [e4]; exact (h2 j b hj hb1).2
    · rw [e2]; exact (h2 k c hk hc1).1
    · exact absurd (e1.trans e3.symm) hjk
  · intro j b hj hb r hrs
    rcases get_snoc hb with hb | ⟨rfl, rfl⟩
    · exact h1.stm j b hj hb r hrs
    · exact OffS.after hg (hf.stm i a hu ha r hrs)

theorem Fine.weaken {used used' : Nat → Prop} {m : Mem} {henv : List HB} {env : List B} {rs : List (Built HStmt)}
    (hf : Fine used m henv env rs) (h : ∀ j, used j → used' j) : Fine used' m henv env rs :=
  ⟨hf.len, fun i a x hi => hf.good i a x (fun hh => hi (h i hh)), fun i j a b hij hi hj => hf.off i j a b hij (fun hh => hi (h i hh))
    (fun hh => hj (h j hh)), fun i a hi => hf.stm i a (fun hh => hi (h i hh)), hf.low⟩

theorem Fine.add {used : Nat → Prop} {m : Mem} {henv : List HB} {env : List B} {rs : List (Built HStmt)} (hf : Fine used m henv env rs)
    {s : Built HStmt} (hs : ∀ i a, ¬ used i → henv[i]? = some a → OffS m a s) (hl : s.Low m) : Fine used m henv env (s :: rs) := by
  refine ⟨hf.len, hf.good, hf.off, ?_, ?_⟩
  · intro i a hi ha r hr
    rcases List.mem_cons.1 hr with rfl | hr
    · exact hs i a hi ha
    · exact hf.stm i a hi ha r hr
  · intro r hr
    rcases List.mem_cons.1 hr with rfl | hr
    · exact hl
    · exact hf.low r hr

theorem Fine.build {used : Nat → Prop} {m m' : Mem} {henv : List HB} {env : List B} {rs : List (Built HStmt)} (hf : Fine used m henv env rs)
    {i : Nat} {a : HB} {x : B} (hu : ¬ used i) (ha : henv[i]? = some a) (hx : env[i]? = some x) {a' : HB} (hg : Go m a m' a')
    {s : Except Err HStmt} (he : hbuild grow m a = .ok (m', s)) (hs : Built.From m' a' (.ok s)) :
    Fine (fun j => used j ∨ (j = i ∧ ¬ (x.clean ∨ x.isBase))) m' henv env (.ok s :: rs) := by
  obtain ⟨h1, h2⟩ := hf.others hu ha hx hg
  obtain ⟨hi, hr⟩ := hf.good i a x hu ha hx
  have hlow : Built.Low m' (.ok s) := from_low hg.inv hs
  by_cases hb : x.isBase
  · obtain ⟨rfl, hfr⟩ := base_from grow hr hb he
    refine Fine.weaken (used := used) (Fine.add hf ?_ hlow) (fun _ => .inl)
    intro j b hj hbj
    by_cases hji : j = i
    · subst hji
      rw [ha] at hbj; cases hbj
      exact OffS.own hi hfr
    · exact OffS.of_from hi (hf.off j i b a hji hj hu hbj ha) hfr
  · have e : (fun j => used j ∨ (j = i ∧ ¬ (x.clean ∨ x.isBase))) = fun j => used j ∨ (j = i ∧ ¬ x.clean) := by
      funext j; simp [hb]
    rw [e]
    refine Fine.add h1 ?_ hlow
    intro j b hj hbj
    exact OffS.of_from hg.inv (h2 j b hj hbj).2 hs

theorem lines {used : Nat → Prop} {m : Mem} {henv : List HB} {env : List B} {rs : List (Built HStmt)} (hf : Fine used m henv env rs)
    (ls : List Line) (hs : Line.Sound u used env ls) :
    atOnce (Line.run u grow m henv ls) = Line.value u env ls ∧
      (∀ s ∈ (Line.run u grow m henv ls).2, Built.look (Line.run u grow m henv ls).1 s.1 = Built.look s.2 s.1) ∧
      ∀ r ∈ rs, Built.look (Line.run u grow m henv ls).1 r = Built.look m r := by
  induction ls generalizing used m henv env rs with
  | nil => exact ⟨rfl, (fun s hs => by cases hs), fun _ _ => rfl⟩
  | cons l ls ih =>
    have one : ∀ s ∈ [((.panic : Built HStmt), m)], Built.look m s.1 = Built.look s.2 s.1 := by
      intro s hs; cases List.mem_singleton.1 hs; rfl
    cases l with
    | call i c =>
      obtain ⟨hu, hs⟩ := hs
      simp only [Line.run, Line.value]
      cases ha : henv[i]? with
      | none =>
        have : env[i]? = none := by
          rw [List.getElem?_eq_none_iff] at ha ⊢; rw [← hf.len]; exact ha
        rw [this]
        exact ⟨rfl, (fun s hs => by cases hs), fun _ _ => rfl⟩
      | some a =>
        obtain ⟨x, hx⟩ := hf.val ha
        rw [hx]
        obtain ⟨hi, hr⟩ := hf.good i a x hu ha hx
        simp only
        rcases hexec_matches u grow hi hr c with ⟨m', b', y, e1, e2, h1, h2⟩ | ⟨e1, e2⟩
        · rw [e1, e2]
          obtain ⟨g1, g2, g3⟩ := ih (hf.call hu ha hx h1 h2) (hs x y hx e2)
          refine ⟨g1, g2, fun r hrs => ?_⟩
          rw [g3 r hrs]
          exact (OffS.look h1.frame (hf.stm i a hu ha r hrs) (hf.low r hrs)).1
        · rw [e1, e2]
          exact ⟨rfl, one, fun _ _ => rfl⟩
    | build i =>
      obtain ⟨hu, hs⟩ := hs
      simp only [Line.run, Line.value]
      cases ha : henv[i]? with
      | none =>
        have : env[i]? = none := by
          rw [List.getElem?_eq_none_iff] at ha ⊢; rw [← hf.len]; exact ha
        rw [this]
        exact ⟨rfl, (fun s hs => by cases hs), fun _ _ => rfl⟩
      | some a =>
        obtain ⟨x, hx⟩ := hf.val ha
        rw [hx]
        obtain ⟨hi, hr⟩ := hf.good i a x hu ha hx
        simp only
        rcases hbuild_agrees grow hi hr with ⟨m', s, b', e, h1, h2, h3, v, hv⟩ | ⟨e1, e2⟩
        · rw [e]
          obtain ⟨g1, g2, g3⟩ := ih (hf.build grow hu ha hx h1 e h3) (hs x hx)
          rw [hv]
          refine ⟨?_, ?_, fun r hrs => ?_⟩
          · simp only [atOnce, List.map_cons, List.cons.injEq]
            exact ⟨by rw [h2, hv], g1⟩
          · intro t ht
            rcases List.mem_cons.1 ht with rfl | ht
            · exact g3 _ (List.mem_cons_self ..)
            · exact g2 t ht
          · simp only
            rw [g3 r (List.mem_cons_of_mem _ hrs)]
            exact (OffS.look h1.frame (hf.stm i a hu ha r hrs) (hf.low r hrs)).1
        · rw [e1, e2]
          exact ⟨rfl, one, fun _ _ => rfl⟩

end HB

end Verif
