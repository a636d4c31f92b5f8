import Verif.BuilderMem
import Verif.SliceLemmas

/-
Lemmas about the builder in memory.  The arrays of each kind are written by a builder only in cells that do not belong to anything
that it reads: beyond the length of its own slice, or in new arrays.
-/

namespace Verif

variable (u : Unicode) (grow : Nat → Nat → Nat)

/-! ### One kind of arrays -/

/-- The cells that may be written by appending to the slice. -/
def Heap.Reg {α : Type} (h : Heap α) (s : Slice) (a i : Nat) : Prop := h.next ≤ a ∨ (a = s.arr ∧ s.len ≤ i ∧ i < s.cap)

/-- A slice that the program can have. -/
def Heap.Fit {α : Type} (h : Heap α) (s : Slice) : Prop := s.len ≤ s.cap ∧ (s.cap = 0 ∨ s.arr < h.next) ∧ (s.len = 0 → s.cap = 0)

/-- From one memory and slice to a later memory and a slice made from it. -/
structure HStep {α : Type} (h : Heap α) (s : Slice) (h' : Heap α) (s' : Slice) : Prop where
  next : h.next ≤ h'.next
  same : ∀ a i, ¬ h.Reg s a i → h'.mem a i = h.mem a i
  shrink : ∀ a i, h'.Reg s' a i → h.Reg s a i
  fit : h'.Fit s'
  window : ∀ i, i < s'.len → (s'.arr = s.arr ∧ i < s.len) ∨ h.Reg s s'.arr i

namespace HStep
variable {α : Type}

theorem refl {h : Heap α} {s : Slice} (hs : h.Fit s) : HStep h s h s :=
  ⟨Nat.le_refl _, fun _ _ _ => rfl, fun _ _ h => h, hs, fun _ hi => .inl ⟨rfl, hi⟩⟩

theorem trans {h h1 h2 : Heap α} {s s1 s2 : Slice} (a : HStep h s h1 s1) (b : HStep h1 s1 h2 s2) : HStep h s h2 s2 where
  next := Nat.le_trans a.next b.next
  same x i hx := by rw [b.same x i (fun hh => hx (a.shrink _ _ hh)), a.same x i hx]
  shrink x i hx := a.shrink _ _ (b.shrink _ _ hx)
  fit := b.fit
  window i hi := by
    rcases b.window i hi with ⟨h1, h2⟩ | h1
    · rw [h1]; exact a.window i h2
    · exact .inr (a.shrink _ _ h1)

theorem empty (h : Heap α) (s : Slice) : HStep h s h {} where
  next := Nat.le_refl _
  same _ _ _ := rfl
  shrink a i hh := by
    rcases hh with hh | ⟨_, _, h3⟩
    · exact .inl hh
    · exact absurd h3 (Nat.not_lt_zero _)
  fit := ⟨Nat.le_refl _, .inl rfl, fun _ => rfl⟩
  window i hi := absurd hi (Nat.not_lt_zero _)

theorem append [Inhabited α] {h : Heap α} {s : Slice} (hs : h.Fit s) (xs : List α) :
    HStep h s (h.append grow s xs).1 (h.append grow s xs).2 := by
  obtain ⟨h1, h2, h3⟩ := hs
  unfold Heap.append
  split
  · rename_i hle
    refine ⟨Nat.le_refl _, ?_, ?_, ?_, ?_⟩
    · intro a i hn
      simp only
      split
      · rename_i hh
        have : ¬ i < s.cap := fun hc => hn (.inr ⟨hh.1, hh.2, hc⟩)
        rw [List.getElem?_eq_none (by omega)]
        rfl
      · rfl
    · intro a i hh
      rcases hh with hh | ⟨h4, h5, h6⟩
      · exact .inl hh
      · exact .inr ⟨h4, by simp only at h5; omega, h6⟩
    · exact ⟨hle, h2, fun h0 => h3 (by simp only at h0; omega)⟩
    · intro i hi
      by_cases hl : i < s.len
      · exact .inl ⟨rfl, hl⟩
      · exact .inr (.inr ⟨rfl, by omega, by simp only at hi; omega⟩)
  · rename_i hle
    refine ⟨Nat.le_succ _, ?_, ?_, ?_, ?_⟩
    · intro a i hn
      simp only
      rw [if_neg (fun he => hn (.inl (by omega)))]
    · intro a i hh
      rcases hh with hh | ⟨h4, _, _⟩
      · exact .inl (Nat.le_of_succ_le hh)
      · exact .inl (by simp only at h4; omega)
    · exact ⟨Nat.le_max_right _ _, .inr (Nat.lt_succ_self _), fun h0 => by simp only at h0; omega⟩
    · intro i _
      exact .inr (.inl (Nat.le_refl _))

end HStep

/-- What is outside is still there. -/
theorem Heap.read_same {α : Type} {h h' : Heap α} {s t : Slice} (hs : ∀ a i, ¬ h.Reg s a i → h'.mem a i = h.mem a i)
    (ht : ∀ i, i < t.len → ¬ h.Reg s t.arr i) : h'.read t = h.read t := by
  simp only [Heap.read]
  apply List.map_congr_left
  intro i hi
  exact hs _ _ (ht i (by simpa using hi))

/-- A slice does not reach into what appending to it writes. -/
theorem Heap.Fit.out {α : Type} {h : Heap α} {s : Slice} (hs : h.Fit s) (i : Nat) (hi : i < s.len) : ¬ h.Reg s s.arr i := by
  obtain ⟨h1, h2, h3⟩ := hs
  rintro (hh | ⟨_, hh, _⟩)
  · rcases h2 with h2 | h2 <;> omega
  · omega

/-! ### Steps of a `DefaultStatementBuilder` -/

/-- The slice of actions of an open MERGE. -/
def HBase.acts (b : HBase) : Slice := match b.oupdate with | some (.merge _ _ _ s) => s | _ => {}

/-- A step that appends clauses and closes or opens clauses. -/
structure BStep (m : Mem) (b : HBase) (m' : Mem) (b' : HBase) : Prop where
  cl : HStep m.cl b.elems m'.cl b'.elems
  mem : m' = { m with cl := m'.cl }
  parts : b'.parts = b.parts ∨ b'.parts = {}
  acts : b'.acts = b.acts ∨ b'.acts = {}

namespace BStep

theorem refl {m : Mem} {b : HBase} (h : m.cl.Fit b.elems) : BStep m b m b := ⟨.refl h, rfl, .inl rfl, .inl rfl⟩

theorem trans {m m1 m2 : Mem} {b b1 b2 : HBase} (h : BStep m b m1 b1) (g : BStep m1 b1 m2 b2) : BStep m b m2 b2 where
  cl := h.cl.trans g.cl
  mem := by rw [g.mem, h.mem]
  parts := by
    rcases g.parts with g1 | g1
    · rw [g1]; exact h.parts
    · exact .inr g1
  acts := by
    rcases g.acts with g1 | g1
    · rw [g1]; exact h.acts
    · exact .inr g1

theorem dead (m : Mem) (b : HBase) (e : Err) : BStep m b m (.dead e) := ⟨.empty _ _, rfl, .inr rfl, .inr rfl⟩

theorem push {m : Mem} {b : HBase} (h : m.cl.Fit b.elems) (c : Clause) : BStep m b (b.push grow m c).1 (b.push grow m c).2 :=
  ⟨.append grow h [c], rfl, .inl rfl, .inl rfl⟩

/-- Changing fields other than the slices. -/
theorem set {m m' : Mem} {b b' : HBase} (h : BStep m b m' b') (b'' : HBase) (h1 : b''.elems = b'.elems) (h2 : b''.parts = b'.parts)
    (h3 : b''.acts = b'.acts ∨ b''.acts = {}) : BStep m b m' b'' :=
  ⟨by rw [h1]; exact h.cl, h.mem, by rw [h2]; exact h.parts, by
    rcases h3 with h3 | h3
    · rw [h3]; exact h.acts
    · exact .inr h3⟩

end BStep

namespace HBase

theorem read_push (m : Mem) (b : HBase) (c : Clause) :
    (b.push grow m c).2.read (b.push grow m c).1 = { b.read m with elems := (b.read m).elems ++ [c] } := by
  have := Heap.read_append grow m.cl b.elems [c]
  simp only [HBase.push, HBase.read, this]
  rfl

theorem closeMatch_step {m : Mem} {b : HBase} (h : m.cl.Fit b.elems) :
    BStep m b (b.closeMatch grow m).1 (b.closeMatch grow m).2 := by
  unfold closeMatch
  split
  · exact (BStep.push grow h _).set _ rfl rfl (.inl rfl)
  · exact .refl h

theorem closeMatch_read (m : Mem) (b : HBase) :
    (b.closeMatch grow m).2.read (b.closeMatch grow m).1 = (b.read m).closeMatch := by
  unfold closeMatch Base.closeMatch
  have : (b.read m).omatch = b.omatch := rfl
  rw [this]
  split
  · exact congrArg (fun x : Base => { x with omatch := {} }) (read_push grow m b b.omatch.build)
  · rfl

theorem closeCall_step {m : Mem} {b : HBase} (h : m.cl.Fit b.elems) :
    BStep m b (b.closeCall grow m).1 (b.closeCall grow m).2 := by
  unfold closeCall
  split
  · exact .refl h
  · split
    · exact (BStep.refl h).set _ rfl rfl (.inl rfl)
    · exact (BStep.push grow h _).set _ rfl rfl (.inl rfl)

theorem closeCall_read (m : Mem) (b : HBase) :
    (b.closeCall grow m).2.read (b.closeCall grow m).1 = (b.read m).closeCall := by
  unfold closeCall Base.closeCall
  have : (b.read m).ocall = b.ocall := rfl
  rw [this]
  cases b.ocall with
  | none => rfl
  | some c =>
    simp only
    cases hc : c.build with
    | error e => rfl
    | ok v => exact congrArg (fun x : Base => { x with ocall := none }) (read_push grow m b v)

theorem closeUpdate_step {m : Mem} {b : HBase} (h : m.cl.Fit b.elems) :
    BStep m b (b.closeUpdate grow m).1 (b.closeUpdate grow m).2 := by
  unfold closeUpdate
  split
  · exact .refl h
  · exact (BStep.push grow h _).set _ rfl rfl (.inr rfl)

theorem closeUpdate_read (m : Mem) (b : HBase) :
    (b.closeUpdate grow m).2.read (b.closeUpdate grow m).1 = (b.read m).closeUpdate := by
  unfold closeUpdate Base.closeUpdate
  have : (b.read m).oupdate = b.oupdate.map (HUpd.read m) := rfl
  rw [this]
  cases b.oupdate with
  | none => rfl
  | some x =>
    exact congrArg (fun x : Base => { x with oupdate := none }) (read_push grow m b (x.read m).build)

/-- A step of the builder in memory that does what the builder as value does. -/
def Does (m : Mem) (b : HBase) (r : Mem × HBase) (x : Base) : Prop := BStep m b r.1 r.2 ∧ r.2.read r.1 = x

theorem Does.dead (m : Mem) (b : HBase) (e : Err) : Does m b (m, .dead e) (.dead e) := ⟨.dead m b e, rfl⟩

theorem Does.closeMatch {m : Mem} {b : HBase} {r : Mem × HBase} {x : Base} (h : Does m b r x) :
    Does m b (r.2.closeMatch grow r.1) x.closeMatch :=
  ⟨h.1.trans (closeMatch_step grow h.1.cl.fit), by rw [closeMatch_read, h.2]⟩

theorem Does.closeCall {m : Mem} {b : HBase} {r : Mem × HBase} {x : Base} (h : Does m b r x) :
    Does m b (r.2.closeCall grow r.1) x.closeCall :=
  ⟨h.1.trans (closeCall_step grow h.1.cl.fit), by rw [closeCall_read, h.2]⟩

theorem Does.closeUpdate {m : Mem} {b : HBase} {r : Mem × HBase} {x : Base} (h : Does m b r x) :
    Does m b (r.2.closeUpdate grow r.1) x.closeUpdate :=
  ⟨h.1.trans (closeUpdate_step grow h.1.cl.fit), by rw [closeUpdate_read, h.2]⟩

theorem Does.push {m : Mem} {b : HBase} {r : Mem × HBase} {x : Base} (h : Does m b r x) (c : Clause) :
    Does m b (r.2.push grow r.1 c) { x with elems := x.elems ++ [c] } :=
  ⟨h.1.trans (BStep.push grow h.1.cl.fit c), by rw [read_push, h.2]⟩

theorem Does.refl {m : Mem} {b : HBase} (h : m.cl.Fit b.elems) : Does m b (m, b) (b.read m) := ⟨.refl h, rfl⟩

theorem new_read (m : Mem) {t : UpdType} {ks : UpdKeys} {xs : List Val} {x : UpdBuilder} (h : updBuilder t ks xs = .ok x) :
    (HUpd.new x).read m = x := by
  unfold updBuilder at h
  split at h
  · split at h <;> cases h; rfl
  · split at h <;> cases h; rfl
  · cases h; rfl
  · split at h <;> cases h; rfl
  · cases h; rfl

theorem new_acts (b : HBase) (x : UpdBuilder) : HBase.acts { b with oupdate := some (.new x) } = {} := by
  cases x <;> rfl

theorem update_does {m : Mem} {b : HBase} (h : m.cl.Fit b.elems) (t : UpdType) (ks : UpdKeys) (xs : List Val) :
    Does m b (b.update grow m t ks xs) ((b.read m).update t ks xs) := by
  have h1 := (((Does.refl h).closeMatch grow).closeCall grow).closeUpdate grow
  unfold update Base.update
  cases hu : updBuilder t ks xs with
  | error e => exact ⟨h1.1.set _ rfl rfl (.inr rfl), congrArg (fun x : Base => { x with oupdate := none }) h1.2⟩
  | ok x =>
    refine ⟨h1.1.set _ rfl rfl (.inr (new_acts _ _)), ?_⟩
    have h2 := congrArg (fun y : Base => { y with oupdate := some x }) h1.2
    simp only
    rw [← h2]
    simp only [HBase.read, Option.map_some, new_read _ hu]

theorem openUpdate_does {m : Mem} {b : HBase} (h : m.cl.Fit b.elems) (t : UpdType) (ks : UpdKeys) (a : Args) :
    Does m b (b.openUpdate u grow m t ks a) ((b.read m).openUpdate u t ks a) := by
  unfold openUpdate Base.openUpdate
  have : (b.read m).err = b.err := rfl
  rw [this]
  cases firstErr [b.err, a.namedErr, errsOf (a.vals u)] with
  | some e => exact .dead m b _
  | none => exact update_does grow h _ _ _

theorem addClause_does {m : Mem} {b : HBase} (h : m.cl.Fit b.elems) (c : Clause) :
    Does m b (b.addClause grow m c) ((b.read m).addClause c) := ((Does.refl h).closeMatch grow).push grow c

theorem callStmt_does {m : Mem} {b : HBase} (h : m.cl.Fit b.elems) (k : Key) (s : Stmt) :
    Does m b (b.callStmt grow m k s) ((b.read m).callStmt k s) := by
  have h1 := (((Does.refl h).closeCall grow).closeMatch grow).closeUpdate grow
  unfold callStmt Base.callStmt
  have : (b.read m).err = b.err := rfl
  rw [this]
  cases firstErr [b.err, s.err] with
  | some e => exact .dead m b _
  | none =>
    simp only
    cases (subqueryCall k s).val.err with
    | some e => exact ⟨h1.1.set _ rfl rfl (.inl rfl), congrArg (fun x : Base => { x with err := some e }) h1.2⟩
    | none => exact h1.push grow _

theorem match_does {m : Mem} {b : HBase} (h : m.cl.Fit b.elems) (k kw : Key) (o : Bool) (ps : List Val) :
    Does m b (b.match_ grow m k kw o ps) ((b.read m).match_ k kw o ps) := by
  have h1 := ((Does.refl h).closeMatch grow).closeCall grow
  unfold match_ Base.match_
  have : (b.read m).err = b.err := rfl
  rw [this]
  cases firstErr [b.err, errsOf ps] with
  | some e => exact .dead m b _
  | none =>
    exact ⟨h1.1.set _ rfl rfl (.inl rfl), congrArg (fun x : Base => { x with omatch :=
      { k := k, kw := kw, patterns := ps, optional := o, notNil := true } }) h1.2⟩

theorem where_does {m : Mem} {b : HBase} (h : m.cl.Fit b.elems) (c : Cond) :
    Does m b (m, b.where_ c) ((b.read m).where_ c) := by
  unfold where_ Base.where_
  have : (b.read m).err = b.err := rfl
  rw [this]
  cases firstErr [b.err, c.toVal.err] with
  | some e => exact .dead m b _
  | none => exact ⟨(BStep.refl h).set _ rfl rfl (.inl rfl), rfl⟩

end HBase

/-! ### Builders and what they may write -/

namespace HB

/-- The pointer of a builder. -/
def cell : HB → Option Nat
  | .base _ => none
  | .ptr c => some c
  | .with_ w => w.cell
  | .ret r => r.cell
  | .upd x => x.cell
  | .unwind x => x.cell
  | .inCall i => i.cell
  | .standalone _ _ => none
  | .action a => a.cell

/-- The `DefaultStatementBuilder` of a builder. -/
def baseOf (m : Mem) : HB → HBase
  | .base b => b
  | h => match h.cell with | some c => m.cells c | none => {}

/-- The slice of sort items. -/
def sorts : HB → Slice
  | .with_ w => w.order.items
  | .ret r => r.order.items
  | .upd x => x.order.items
  | _ => {}

/-- The slice of returned expressions. -/
def items : HB → Slice
  | .upd x => x.items
  | _ => {}

/-- Cells that the builder changes. -/
def writes (h : HB) (c : Nat) : Prop :=
  match h with
  | .upd x => x.cell = some c
  | .unwind x => x.cell = some c
  | .action x => x.cell = some c
  | _ => False

/-- Cells of which the builder changes the open call. -/
def calls (h : HB) (c : Nat) : Prop :=
  match h with
  | .inCall i => i.cell = some c
  | _ => False

/-- What a builder is, now.  The open call of the builder of a call is not looked at. -/
def read (m : Mem) : HB → B
  | .base b => .base (b.read m)
  | .ptr c => .base ((m.cells c).read m)
  | .with_ w =>
    .with_ {
      k := w.k, kl := w.kl, ko := w.ko, kw := w.kw, kp := w.kp, base := w.cell.map (fun c => (m.cells c).read m),
      cond := w.cond, items := w.items, order := w.order.read m, distinct := w.distinct, err := w.err }
  | .ret r =>
    .ret {
      k := r.k, ko := r.ko, base := r.cell.map (fun c => (m.cells c).read m), distinct := r.distinct, items := r.items,
      order := r.order.read m, err := r.err }
  | .upd x =>
    .upd {
      k := x.k, ko := x.ko, base := x.cell.map (fun c => (m.cells c).read m), items := m.it.read x.items,
      order := x.order.read m, distinct := x.distinct, builder := x.builder, err := x.err }
  | .unwind x => .unwind { base := x.cell.map (fun c => (m.cells c).read m), x := x.x, err := x.err }
  | .inCall i => .inCall { base := i.cell.map (fun c => { (m.cells c).read m with ocall := i.call }), call := i.call, err := i.err }
  | .standalone c n => .standalone c n
  | .action a => .action { base := a.cell.map (fun c => (m.cells c).read m), type := a.type, err := a.err }

/-- What the program knows about a builder. -/
structure Inv (m : Mem) (b : HB) : Prop where
  cell : ∀ c, b.cell = some c → c < m.ncell
  cl : m.cl.Fit (b.baseOf m).elems
  pt : m.pt.Fit (b.baseOf m).parts
  ac : m.ac.Fit (b.baseOf m).acts
  it : m.it.Fit b.items
  so : m.so.Fit b.sorts
  parts : ∀ p ∈ m.pt.read (b.baseOf m).parts, ∀ i, i < p.sorts.len → ¬ m.so.Reg b.sorts p.sorts.arr i

/-- From a builder to one made from it. -/
structure Go (m : Mem) (b : HB) (m' : Mem) (b' : HB) : Prop where
  cl : HStep m.cl (b.baseOf m).elems m'.cl (b'.baseOf m').elems
  pt : HStep m.pt (b.baseOf m).parts m'.pt (b'.baseOf m').parts
  ac : HStep m.ac (b.baseOf m).acts m'.ac (b'.baseOf m').acts
  it : HStep m.it b.items m'.it b'.items
  so : HStep m.so b.sorts m'.so b'.sorts
  parts : ∀ p ∈ m'.pt.read (b'.baseOf m').parts, ∀ i, i < p.sorts.len → ¬ m'.so.Reg b'.sorts p.sorts.arr i
  cell : ∀ c, b'.cell = some c → c < m'.ncell
  ncell : m.ncell ≤ m'.ncell
  cells : ∀ c, c < m.ncell → ¬ b.writes c →
    (¬ b.calls c → m'.cells c = m.cells c) ∧ ∃ o, m'.cells c = { m.cells c with ocall := o }
  own : ∀ c, (b'.writes c → m.ncell ≤ c ∨ b.writes c) ∧ (b'.calls c → m.ncell ≤ c ∨ b.writes c ∨ b.calls c)
  points : ∀ c, b'.cell = some c → m.ncell ≤ c ∨ b.cell = some c
  made : ∀ p ∈ m'.pt.read (b'.baseOf m').parts, p ∈ m.pt.read (b.baseOf m).parts ∨
    ∀ i, i < p.sorts.len → (p.sorts.arr = b.sorts.arr ∧ i < b.sorts.len) ∨ m.so.Reg b.sorts p.sorts.arr i

theorem Go.inv {m m' : Mem} {b b' : HB} (h : Go m b m' b') : Inv m' b' :=
  ⟨h.cell, h.cl.fit, h.pt.fit, h.ac.fit, h.it.fit, h.so.fit, h.parts⟩

theorem Go.refl {m : Mem} {b : HB} (h : Inv m b) : Go m b m b where
  cl := .refl h.cl
  pt := .refl h.pt
  ac := .refl h.ac
  it := .refl h.it
  so := .refl h.so
  parts := h.parts
  cell := h.cell
  ncell := Nat.le_refl _
  cells _ _ _ := ⟨fun _ => rfl, _, rfl⟩
  own _ := ⟨.inr, fun h => .inr (.inr h)⟩
  points _ := .inr
  made _ := .inl

theorem Go.trans {m m1 m2 : Mem} {b b1 b2 : HB} (h : Go m b m1 b1) (g : Go m1 b1 m2 b2) : Go m b m2 b2 where
  cl := h.cl.trans g.cl
  pt := h.pt.trans g.pt
  ac := h.ac.trans g.ac
  it := h.it.trans g.it
  so := h.so.trans g.so
  parts := g.parts
  cell := g.cell
  ncell := Nat.le_trans h.ncell g.ncell
  cells c hc hw := by
    have h1 := h.cells c hc hw
    have hw1 : ¬ b1.writes c := fun hh => by
      rcases (h.own c).1 hh with hh | hh
      · omega
      · exact hw hh
    have h2 := g.cells c (Nat.lt_of_lt_of_le hc h.ncell) hw1
    refine ⟨fun hn => ?_, ?_⟩
    · rw [h2.1 (fun hh => ?_), h1.1 hn]
      rcases (h.own c).2 hh with hh | hh | hh
      · omega
      · exact hw hh
      · exact hn hh
    · obtain ⟨o1, e1⟩ := h1.2
      obtain ⟨o2, e2⟩ := h2.2
      exact ⟨o2, by rw [e2, e1]⟩
  own c := by
    refine ⟨fun hh => ?_, fun hh => ?_⟩
    · rcases (g.own c).1 hh with h1 | h1
      · exact .inl (Nat.le_trans h.ncell h1)
      · exact (h.own c).1 h1
    · rcases (g.own c).2 hh with h1 | h1 | h1
      · exact .inl (Nat.le_trans h.ncell h1)
      · exact ((h.own c).1 h1).imp id .inl
      · exact (h.own c).2 h1
  points c hc := by
    rcases g.points c hc with h1 | h1
    · exact .inl (Nat.le_trans h.ncell h1)
    · exact h.points c h1
  made p hp := by
    rcases g.made p hp with h1 | h1
    · exact h.made p h1
    · refine .inr fun i hi => ?_
      rcases h1 i hi with ⟨h2, h3⟩ | h2
      · rw [h2]; exact h.so.window i h3
      · exact .inr (h.so.shrink _ _ h2)

theorem reg_empty {α : Type} {h : Heap α} (s : Slice) {a i : Nat} (hr : h.Reg {} a i) : h.Reg s a i := by
  rcases hr with hr | ⟨_, _, h3⟩
  · exact .inl hr
  · exact absurd h3 (Nat.not_lt_zero _)

end HB

end Verif
