import Verif.BuilderLive
import Verif.PropsBuilderForks
import Verif.PropsForksExact

/-
C82: what several continuations of one builder make of each other when they are all there before one of them is built.
-/

namespace Verif.Spec

variable (u : Unicode) (grow : Nat → Nat → Nat)

/-- The calls that a `DefaultStatementBuilder` answers with another one: MATCH, WHERE, CREATE, MERGE, DELETE, CALL {…}. -/
def addsClause : Call → Bool
  | .match_ .. | .where_ _ | .and .. | .or .. | .create .. | .merge .. | .delete .. | .callStmt .. => true
  | _ => false

/-- Calls, one after the other, each on the result of the one before. -/
def goOn (m : Mem) (b : HB) : List Call → Outcome (Mem × HB)
  | [] => .ok (m, b)
  | c :: cs => (hexec u grow m b c).bind fun r => goOn r.1 r.2 cs

/-- Several continuations of the builder `b`, one after the other: the memory at the end, and the results. -/
def goOns (m : Mem) (b : HB) : List (List Call) → Outcome (Mem × List HB)
  | [] => .ok (m, [])
  | cs :: css => (goOn u grow m b cs).bind fun r => (goOns r.1 b css).map fun s => (s.1, r.2 :: s.2)

/-- A list over which others have been written, from the beginning, one after the other, as far as it goes. -/
def overwritten {α : Type} (xs : List α) : List (List α) → List α
  | [] => xs
  | ys :: later => overwritten (ys.take xs.length ++ xs.drop ys.length) later

/-- The clauses that the continuation of `x` that yields `v` has closed. -/
def closedBy (x v : Base) : List Clause := v.elems.drop x.elems.length

/-- What the continuations of `x` are in the end if the array of clauses has room for `room` more: those that found no room for all their
clauses have their own array and are what they should be, and the others have the clauses of later ones. -/
def inTheEnd (room : Nat) (x : Base) : List Base → List B
  | [] => []
  | v :: later =>
    .base (if (closedBy x v).length ≤ room then { v with elems := x.elems ++ overwritten (closedBy x v) (later.map (closedBy x)) } else v)
      :: inTheEnd room x later

/-- A builder of type `DefaultStatementBuilder`, or a pointer to one. -/
def isDefault : HB → Prop
  | .base _ | .ptr _ => True
  | _ => False

/-- The free places in the array of the clauses of a builder. -/
def roomOf (m : Mem) (b : HB) : Nat := (b.baseOf m).elems.cap - (b.baseOf m).elems.len

end Verif.Spec

namespace Verif
open Spec

/-! ### Appending one by one -/

namespace Heap

variable {α : Type} [Inhabited α] (grow : Nat → Nat → Nat)

/-- `append` for one element after the other. -/
def appendAll (h : Heap α) (s : Slice) (xs : List α) : Heap α × Slice := xs.foldl (fun st x => st.1.append grow st.2 [x]) (h, s)

theorem appendAll_append (h : Heap α) (s : Slice) (xs ys : List α) :
    h.appendAll grow s (xs ++ ys) = (h.appendAll grow s xs).1.appendAll grow (h.appendAll grow s xs).2 ys := by
  simp [appendAll, List.foldl_append]

theorem appendAll_one (h : Heap α) (s : Slice) (x : α) : h.appendAll grow s [x] = h.append grow s [x] := rfl

theorem read_appendAll (h : Heap α) (s : Slice) (xs : List α) : (h.appendAll grow s xs).1.read (h.appendAll grow s xs).2 = h.read s ++ xs := by
  induction xs using snoc_induction with
  | nil => simp [appendAll]
  | append_singleton xs x ih => rw [appendAll_append, appendAll_one, read_append, ih, List.append_assoc]

theorem appendAll_step {h : Heap α} {s : Slice} (hs : h.Fit s) (xs : List α) : HStep h s (h.appendAll grow s xs).1 (h.appendAll grow s xs).2 := by
  induction xs using snoc_induction with
  | nil => exact .refl hs
  | append_singleton xs x ih => rw [appendAll_append, appendAll_one]; exact ih.trans (.append grow ih.fit [x])

/-- The slice that one gets: in the same array, or in a new one. -/
theorem appendAll_shape {h : Heap α} {s : Slice} (hs : h.Fit s) (xs : List α) :
    (h.appendAll grow s xs).2.len = s.len + xs.length ∧
      (if s.len + xs.length ≤ s.cap then (h.appendAll grow s xs).2.arr = s.arr ∧ (h.appendAll grow s xs).2.cap = s.cap
       else h.next ≤ (h.appendAll grow s xs).2.arr) := by
  induction xs using snoc_induction with
  | nil => simp [appendAll, hs.1]
  | append_singleton xs x ih =>
    obtain ⟨h1, h2⟩ := ih
    rw [appendAll_append, appendAll_one]
    simp only [List.length_append, List.length_cons, List.length_nil]
    have hstep := appendAll_step grow hs xs
    unfold Heap.append
    by_cases hc : s.len + xs.length ≤ s.cap
    · rw [if_pos hc] at h2
      by_cases hc' : s.len + (xs.length + (0 + 1)) ≤ s.cap
      · rw [if_pos (by rw [h1, h2.2]; simp; omega), if_pos hc']
        exact ⟨by simp [h1]; omega, h2.1, h2.2⟩
      · rw [if_neg (by rw [h1, h2.2]; simp; omega), if_neg hc']
        exact ⟨by simp [h1]; omega, hstep.next⟩
    · rw [if_neg hc] at h2
      rw [if_neg (c := s.len + (xs.length + (0 + 1)) ≤ s.cap) (by omega)]
      split
      · exact ⟨by simp [h1]; omega, h2⟩
      · exact ⟨by simp [h1]; omega, hstep.next⟩

/-- What is in the free places of the array afterwards. -/
theorem appendAll_mem {h : Heap α} {s : Slice} (hs : h.Fit s) (xs : List α) (j : Nat) (hj : s.len + j < s.cap) :
    (h.appendAll grow s xs).1.mem s.arr (s.len + j) = (xs[j]?).getD (h.mem s.arr (s.len + j)) := by
  induction xs using snoc_induction with
  | nil => simp [appendAll]
  | append_singleton xs x ih =>
    have hshape := appendAll_shape grow hs xs
    have hstep := appendAll_step grow hs xs
    have hlow : s.arr < h.next := by
      rcases hs.2.1 with h0 | h0
      · omega
      · exact h0
    rw [appendAll_append, appendAll_one]
    obtain ⟨h1, h2⟩ := hshape
    unfold Heap.append
    by_cases hc : s.len + xs.length ≤ s.cap
    · rw [if_pos hc] at h2
      split
      · rename_i hf
        simp only [h1, h2, true_and]
        by_cases hjx : j < xs.length
        · rw [if_neg (by omega), ih, List.getElem?_append_left hjx]
        · rw [if_pos (by omega), ih, List.getElem?_append_right (by omega), List.getElem?_eq_none (by omega : xs.length ≤ j)]
          rw [show s.len + j - (s.len + xs.length) = j - xs.length by omega]
          rfl
      · rename_i hf
        rw [h1, h2.2] at hf
        simp only [List.length_cons, List.length_nil] at hf
        have : s.arr ≠ (h.appendAll grow s xs).1.next := by have := hstep.next; omega
        simp only [this, if_false]
        rw [ih, List.getElem?_append_left (by omega)]
    · rw [if_neg hc] at h2
      have hjx : j < xs.length := by omega
      split
      · have : s.arr ≠ (h.appendAll grow s xs).2.arr := by omega
        simp only [this, false_and, if_false]
        rw [ih, List.getElem?_append_left hjx]
      · have : s.arr ≠ (h.appendAll grow s xs).1.next := by have := hstep.next; omega
        simp only [this, if_false]
        rw [ih, List.getElem?_append_left hjx]

/-- `append` for several lists, one after the other and always to the same slice. -/
def writes (h : Heap α) (s : Slice) (yss : List (List α)) : Heap α := yss.foldl (fun h ys => (h.appendAll grow s ys).1) h

omit [Inhabited α] in
theorem Fit.later {h h' : Heap α} {s : Slice} (hs : h.Fit s) (hn : h.next ≤ h'.next) : h'.Fit s :=
  ⟨hs.1, hs.2.1.imp id (fun h => Nat.lt_of_lt_of_le h hn), hs.2.2⟩

theorem writes_around {h : Heap α} {s : Slice} (hs : h.Fit s) (yss : List (List α)) : HB.Around h s (h.writes grow s yss) := by
  induction yss generalizing h with
  | nil => exact ⟨Nat.le_refl _, fun _ _ _ => rfl⟩
  | cons ys yss ih =>
    have h1 := (appendAll_step grow hs ys).around
    exact h1.twice (ih (hs.later h1.next))

omit [Inhabited α] in
theorem read_split {h : Heap α} {s t : Slice} (ha : t.arr = s.arr) (n : Nat) (hl : t.len = s.len + n) :
    h.read t = h.read s ++ (List.range n).map fun j => h.mem s.arr (s.len + j) := by
  simp only [Heap.read, ha, hl, List.range_add, List.map_append, List.map_map]
  rfl

/-- A slice in the same array, after another list was appended to the shorter slice. -/
theorem read_over {h : Heap α} {s t : Slice} (hs : h.Fit s) (ha : t.arr = s.arr) {xs : List α} (hl : t.len = s.len + xs.length)
    (hc : t.len ≤ s.cap) (hr : h.read t = h.read s ++ xs) (ys : List α) :
    (h.appendAll grow s ys).1.read t = h.read s ++ (ys.take xs.length ++ xs.drop ys.length) := by
  rw [read_split ha _ hl, (appendAll_step grow hs ys).around.read hs]
  rw [read_split ha _ hl] at hr
  have hx := List.append_cancel_left hr
  congr 1
  apply List.ext_getElem?
  intro j
  by_cases hj : j < xs.length
  · rw [List.getElem?_map, List.getElem?_range hj, Option.map_some, appendAll_mem grow hs ys j (by omega)]
    have hxj : xs[j]? = some (h.mem s.arr (s.len + j)) := by
      rw [← hx, List.getElem?_map, List.getElem?_range (by simpa using hj), Option.map_some]
    by_cases hy : j < ys.length
    · rw [List.getElem?_append_left (by simp; omega), List.getElem?_take_of_lt hj, List.getElem?_eq_getElem hy]
      rfl
    · rw [List.getElem?_eq_none (by omega : ys.length ≤ j), List.getElem?_append_right (by simp; omega), List.getElem?_drop]
      rw [show ys.length + (j - (ys.take xs.length).length) = j by simp; omega, hxj]
      rfl
  · rw [List.getElem?_eq_none (by simp; omega), List.getElem?_eq_none (by simp; omega)]

theorem read_writes {h : Heap α} {s t : Slice} (hs : h.Fit s) (ha : t.arr = s.arr) {xs : List α} (hl : t.len = s.len + xs.length)
    (hc : t.len ≤ s.cap) (hr : h.read t = h.read s ++ xs) (yss : List (List α)) :
    (h.writes grow s yss).read t = h.read s ++ overwritten xs yss := by
  induction yss generalizing h xs with
  | nil => exact hr
  | cons ys yss ih =>
    have h1 := (appendAll_step grow hs ys).around
    have := ih (h := (h.appendAll grow s ys).1) (hs.later h1.next) (xs := ys.take xs.length ++ xs.drop ys.length)
      (by rw [hl]; simp; omega) (by rw [read_over grow hs ha hl hc hr, h1.read hs])
    rw [h1.read hs] at this
    exact this

/-- A slice of another array. -/
theorem read_elsewhere {h : Heap α} {s t : Slice} (hs : h.Fit s) (ht : h.Fit t) (ha : t.arr ≠ s.arr ∨ s.cap ≤ s.len) (yss : List (List α)) :
    (h.writes grow s yss).read t = h.read t := by
  refine Heap.read_same (writes_around grow hs yss).same fun i hi hh => ?_
  rcases hh with hh | ⟨h1, h2, h3⟩
  · rcases ht.2.1 with h0 | h0
    · have := ht.1; omega
    · omega
  · rcases ha with ha | ha
    · exact ha h1
    · omega

/-- A slice that was made by appending to `s`, after other lists were appended to `s`. -/
theorem read_continued {h : Heap α} {s : Slice} (hs : h.Fit s) (xs : List α) (yss : List (List α)) :
    ((h.appendAll grow s xs).1.writes grow s yss).read (h.appendAll grow s xs).2 =
      h.read s ++ if xs.length ≤ s.cap - s.len then overwritten xs yss else xs := by
  have hstep := appendAll_step grow hs xs
  have hs' := hs.later hstep.next
  obtain ⟨h1, h2⟩ := appendAll_shape grow hs xs
  have hf := hs.1
  by_cases hc : s.len + xs.length ≤ s.cap
  · rw [if_pos hc] at h2
    rw [if_pos (by omega), read_writes grow hs' h2.1 h1 (by omega) (by rw [read_appendAll, hstep.around.read hs]), hstep.around.read hs]
  · rw [if_neg hc] at h2
    rw [if_neg (by omega), read_elsewhere grow hs' hstep.fit ?_, read_appendAll]
    rcases hs.2.1 with h0 | h0
    · right; omega
    · left; omega

end Heap

/-! ### Builders -/

variable {u : Unicode} {grow : Nat → Nat → Nat}

/-- A step that appends clauses. -/
structure Pushes (grow : Nat → Nat → Nat) (m : Mem) (b : HBase) (r : Mem × HBase) (xs : List Clause) : Prop where
  mem : r.1 = { m with cl := (m.cl.appendAll grow b.elems xs).1 }
  elems : r.2.elems = (m.cl.appendAll grow b.elems xs).2
  parts : r.2.parts = b.parts
  acts : r.2.acts = b.acts ∨ r.2.acts = {}

namespace Pushes

theorem refl (m : Mem) (b : HBase) : Pushes grow m b (m, b) [] := ⟨rfl, rfl, rfl, .inl rfl⟩

theorem trans {m : Mem} {b : HBase} {r q : Mem × HBase} {xs ys : List Clause} (h : Pushes grow m b r xs) (g : Pushes grow r.1 r.2 q ys) :
    Pushes grow m b q (xs ++ ys) where
  mem := by rw [g.mem, h.mem, h.elems, Heap.appendAll_append]
  elems := by rw [g.elems, h.mem, h.elems, Heap.appendAll_append]
  parts := g.parts.trans h.parts
  acts := by
    rcases g.acts with g1 | g1
    · rw [g1]; exact h.acts
    · exact .inr g1

theorem set {m : Mem} {b : HBase} {r : Mem × HBase} {xs : List Clause} (h : Pushes grow m b r xs) (b' : HBase) (h1 : b'.elems = r.2.elems)
    (h2 : b'.parts = r.2.parts) (h3 : b'.acts = r.2.acts ∨ b'.acts = {}) : Pushes grow m b (r.1, b') xs :=
  ⟨h.mem, h1.trans h.elems, h2.trans h.parts, by
    rcases h3 with h3 | h3
    · rw [h3]; exact h.acts
    · exact .inr h3⟩

theorem push (m : Mem) (b : HBase) (c : Clause) : Pushes grow m b (b.push grow m c) [c] := ⟨rfl, rfl, rfl, .inl rfl⟩

theorem closeMatch (m : Mem) (b : HBase) : ∃ xs, Pushes grow m b (b.closeMatch grow m) xs := by
  unfold HBase.closeMatch
  split
  · exact ⟨_, (push m b b.omatch.build).set _ rfl rfl (.inl rfl)⟩
  · exact ⟨_, refl m b⟩

theorem closeCall (m : Mem) (b : HBase) : ∃ xs, Pushes grow m b (b.closeCall grow m) xs := by
  unfold HBase.closeCall
  split
  · exact ⟨_, refl m b⟩
  · split
    · exact ⟨_, (refl m b).set _ rfl rfl (.inl rfl)⟩
    · exact ⟨_, (push m b _).set _ rfl rfl (.inl rfl)⟩

theorem closeUpdate (m : Mem) (b : HBase) : ∃ xs, Pushes grow m b (b.closeUpdate grow m) xs := by
  unfold HBase.closeUpdate
  split
  · exact ⟨_, refl m b⟩
  · exact ⟨_, (push m b _).set _ rfl rfl (.inr rfl)⟩

end Pushes

/-- An erroneous builder stays one. -/
theorem continued_dead {x : Base} {c : Call} (hc : addsClause c = true) {y : B} (h : execBase u x c = .ok y) (he : x.err ≠ none) : ∃ v, y = .base v ∧ v.err ≠ none := by
  obtain ⟨e, he⟩ := Option.ne_none_iff_exists'.1 he
  cases c <;> simp only [addsClause, Bool.false_eq_true] at hc <;>
    simp only [execBase, Base.match_, Base.where_, Base.and, Base.or, Base.openUpdate, Base.callStmt, he, firstErr, Outcome.map] at h <;>
    cases h <;> exact ⟨_, rfl, by simp [Base.dead]⟩

theorem close3 (m : Mem) (b : HBase) :
    ∃ xs, Pushes grow m b (let r := b.closeMatch grow m; let r := r.2.closeCall grow r.1; r.2.closeUpdate grow r.1) xs := by
  obtain ⟨x1, h1⟩ := Pushes.closeMatch (grow := grow) m b
  obtain ⟨x2, h2⟩ := Pushes.closeCall (grow := grow) (b.closeMatch grow m).1 (b.closeMatch grow m).2
  have h12 := h1.trans h2
  obtain ⟨x3, h3⟩ := Pushes.closeUpdate (grow := grow) ((b.closeMatch grow m).2.closeCall grow (b.closeMatch grow m).1).1
    ((b.closeMatch grow m).2.closeCall grow (b.closeMatch grow m).1).2
  exact ⟨_, h12.trans h3⟩

theorem update_pushes (m : Mem) (b : HBase) (t : UpdType) (ks : UpdKeys) (xs : List Val) : ∃ ys, Pushes grow m b (b.update grow m t ks xs) ys := by
  obtain ⟨ys, h⟩ := close3 (grow := grow) m b
  unfold HBase.update
  cases updBuilder t ks xs with
  | error e => exact ⟨ys, h.set _ rfl rfl (.inr rfl)⟩
  | ok x => exact ⟨ys, h.set _ rfl rfl (.inr (HBase.new_acts _ x))⟩

/-- One call, without error. -/
theorem adds_step {m : Mem} {b : HBase} {c : Call} (hc : addsClause c = true) {y : Base} (h : execBase u (b.read m) c = .ok (.base y)) (he : y.err = none) :
    ∃ r xs, hexecBase u grow m b c = .ok (r.1, .base r.2) ∧ Pushes grow m b r xs := by
  have hb : (b.read m).err = b.err := rfl
  have upd : ∀ (t : UpdType) (ks : UpdKeys) (a : Args), (b.read m).openUpdate u t ks a = y →
      ∃ ys, Pushes grow m b (b.openUpdate u grow m t ks a) ys := by
    intro t ks a hy
    unfold Base.openUpdate at hy
    unfold HBase.openUpdate
    rw [hb] at hy
    cases hf : firstErr [b.err, a.namedErr, errsOf (a.vals u)] with
    | some e => rw [hf] at hy; rw [← hy] at he; simp [Base.dead] at he
    | none => exact update_pushes m b t ks _
  cases c <;> simp only [addsClause, Bool.false_eq_true] at hc
  case match_ k kw o ps =>
    simp only [execBase, Outcome.ok.injEq, B.base.injEq] at h
    refine ⟨b.match_ grow m k kw o ps, ?_⟩
    refine (exists_and_left.2 ⟨rfl, ?_⟩)
    unfold Base.match_ at h
    unfold HBase.match_
    rw [hb] at h
    cases hf : firstErr [b.err, errsOf ps] with
    | some e => rw [hf] at h; rw [← h] at he; simp [Base.dead] at he
    | none =>
      obtain ⟨x1, h1⟩ := Pushes.closeMatch (grow := grow) m b
      obtain ⟨x2, h2⟩ := Pushes.closeCall (grow := grow) (b.closeMatch grow m).1 (b.closeMatch grow m).2
      exact ⟨_, (h1.trans h2).set _ rfl rfl (.inl rfl)⟩
  case where_ c =>
    simp only [execBase, Outcome.ok.injEq, B.base.injEq] at h
    refine ⟨(m, b.where_ c), [], rfl, ?_⟩
    unfold Base.where_ at h
    unfold HBase.where_
    rw [hb] at h
    cases hf : firstErr [b.err, c.toVal.err] with
    | some e => rw [hf] at h; rw [← h] at he; simp [Base.dead] at he
    | none => exact (Pushes.refl m b).set _ rfl rfl (.inl rfl)
  case and ks c =>
    simp only [execBase, Base.and, hb] at h
    simp only [hexecBase, HBase.and]
    cases hf : b.err with
    | some e => rw [hf] at h; cases h; simp [Base.dead] at he
    | none =>
      rw [hf] at h
      have ho : (b.read m).omatch = b.omatch := rfl
      simp only [ho] at h
      cases hx : combineOfGet ks b.omatch.cond .and c with
      | panic => rw [hx] at h; cases h
      | ok x => exact ⟨(m, { b with err := none, omatch := { b.omatch with cond := some x } }), [], rfl, (Pushes.refl m b).set _ rfl rfl (.inl rfl)⟩
  case or ks c =>
    simp only [execBase, Base.or, hb] at h
    simp only [hexecBase, HBase.or]
    cases hf : firstErr [b.err, c.toVal.err] with
    | some e => rw [hf] at h; cases h; simp [Base.dead] at he
    | none =>
      rw [hf] at h
      have ho : (b.read m).omatch = b.omatch := rfl
      simp only [ho] at h
      cases hx : combineOfGet ks b.omatch.cond .or c with
      | panic => rw [hx] at h; cases h
      | ok x => exact ⟨(m, { b with omatch := { b.omatch with cond := some x } }), [], rfl, (Pushes.refl m b).set _ rfl rfl (.inl rfl)⟩
  case delete ks d a =>
    simp only [execBase, Outcome.ok.injEq, B.base.injEq] at h
    exact ⟨_, exists_and_left.2 ⟨rfl, upd _ _ _ h⟩⟩
  case create ks ps =>
    simp only [execBase, Outcome.ok.injEq, B.base.injEq] at h
    exact ⟨_, exists_and_left.2 ⟨rfl, upd _ _ _ h⟩⟩
  case merge ks ps =>
    simp only [execBase, Outcome.ok.injEq, B.base.injEq] at h
    exact ⟨_, exists_and_left.2 ⟨rfl, upd _ _ _ h⟩⟩
  case callStmt k s =>
    simp only [execBase, Outcome.ok.injEq, B.base.injEq] at h
    refine ⟨b.callStmt grow m k s, exists_and_left.2 ⟨rfl, ?_⟩⟩
    unfold Base.callStmt at h
    unfold HBase.callStmt
    rw [hb] at h
    cases hf : firstErr [b.err, s.err] with
    | some e => rw [hf] at h; rw [← h] at he; simp [Base.dead] at he
    | none =>
      obtain ⟨x1, h1⟩ := Pushes.closeCall (grow := grow) m b
      obtain ⟨x2, h2⟩ := Pushes.closeMatch (grow := grow) (b.closeCall grow m).1 (b.closeCall grow m).2
      have h12 := h1.trans h2
      obtain ⟨x3, h3⟩ := Pushes.closeUpdate (grow := grow) ((b.closeCall grow m).2.closeMatch grow (b.closeCall grow m).1).1
        ((b.closeCall grow m).2.closeMatch grow (b.closeCall grow m).1).2
      have h123 := h12.trans h3
      dsimp only
      split
      · exact ⟨_, h123.set _ rfl rfl (.inl rfl)⟩
      · exact ⟨_, h123.trans (Pushes.push _ _ _)⟩

/-- What a call is answered with. -/
theorem adds_base {x : Base} {c : Call} (hc : addsClause c = true) {y : B} (h : execBase u x c = .ok y) : ∃ v, y = .base v := by
  cases c <;> simp only [addsClause, Bool.false_eq_true] at hc <;> simp only [execBase] at h
  case and ks c => cases hx : x.and ks c <;> rw [hx] at h <;> cases h; exact ⟨_, rfl⟩
  case or ks c => cases hx : x.or ks c <;> rw [hx] at h <;> cases h; exact ⟨_, rfl⟩
  all_goals cases h; exact ⟨_, rfl⟩

theorem continued_alive {cs : List Call} {x : Base} (hc : ∀ c ∈ cs, addsClause c = true) {v : Base} (h : execAll u (.base x) cs = .ok (.base v))
    (he : v.err = none) : x.err = none := by
  induction cs generalizing x with
  | nil => simp only [execAll, Outcome.ok.injEq, B.base.injEq] at h; rw [h]; exact he
  | cons c cs ih =>
    cases hx : x.err with
    | none => rfl
    | some e =>
      simp only [execAll, exec] at h
      cases hy : execBase u x c with
      | panic => rw [hy] at h; cases h
      | ok y =>
        obtain ⟨w, rfl, hw⟩ := continued_dead (hc c (by simp)) hy (by simp [hx])
        rw [hy] at h
        exact absurd (ih (fun c' h' => hc c' (by simp [h'])) h) hw

/-- Several calls, without error. -/
theorem adds_steps {cs : List Call} (hc : ∀ c ∈ cs, addsClause c = true) {m : Mem} {b : HBase} (hi : HB.Inv m (.base b)) {v : Base}
    (h : execAll u (.base (b.read m)) cs = .ok (.base v)) (he : v.err = none) :
    ∃ r xs, goOn u grow m (.base b) cs = .ok (r.1, .base r.2) ∧ Pushes grow m b r xs ∧ r.2.read r.1 = v ∧ HB.Inv r.1 (.base r.2) := by
  induction cs generalizing m b with
  | nil =>
    simp only [execAll, Outcome.ok.injEq, B.base.injEq] at h
    exact ⟨(m, b), [], rfl, .refl m b, h, hi⟩
  | cons c cs ih =>
    simp only [execAll, exec] at h
    cases hy : execBase u (b.read m) c with
    | panic => rw [hy] at h; cases h
    | ok y =>
      obtain ⟨w, rfl⟩ := adds_base (hc c (by simp)) hy
      rw [hy] at h
      have hw := continued_alive (fun c' h' => hc c' (by simp [h'])) h he
      obtain ⟨r, xs, h1, h2⟩ := adds_step (grow := grow) (hc c (by simp)) hy hw
      have hm := HB.hexecBase_matches u grow hi c
      simp only [HB.baseOf] at hm
      rw [h1, hy] at hm
      obtain ⟨m', b', y', e1, e2, hg, hr⟩ | ⟨hh, -⟩ := hm
      · cases e1; cases e2
        simp only [HB.read, B.norm, B.base.injEq] at hr
        simp only [Outcome.bind, ← hr] at h
        obtain ⟨q, ys, g1, g2, g3, g4⟩ := ih (fun c' h' => hc c' (by simp [h'])) hg.inv h
        refine ⟨q, xs ++ ys, ?_, h2.trans g2, g3, g4⟩
        simp only [goOn, hexec, h1, Outcome.bind]
        exact g1
      · cases hh

theorem default_baseOf {b : HB} (hd : isDefault b) (m : Mem) : b.read m = .base ((b.baseOf m).read m) ∧
    ∀ c, hexec u grow m b c = hexecBase u grow m (b.baseOf m) c := by
  cases b <;> first | exact hd.elim | exact ⟨rfl, fun _ => rfl⟩

theorem inv_baseOf {b : HB} {m : Mem} (hi : HB.Inv m b) : HB.Inv m (.base (b.baseOf m)) := HB.inv_copy hi

/-- A continuation of a builder. -/
theorem continuation {cs : List Call} (hc : ∀ c ∈ cs, addsClause c = true) {m : Mem} {b : HB} (hd : isDefault b) (hi : HB.Inv m b) {x v : Base}
    (hx : b.read m = .base x) (h : execAll u (.base x) cs = .ok (.base v)) (he : v.err = none) :
    ∃ m' b' xs, goOn u grow m b cs = .ok (m', b') ∧ Pushes grow m (b.baseOf m) (m', b'.baseOf m') xs ∧ b'.read m' = .base v ∧ HB.Inv m' b' ∧ isDefault b' := by
  obtain ⟨h1, h2⟩ := default_baseOf (u := u) (grow := grow) hd m
  have hx' : (b.baseOf m).read m = x := by rw [h1] at hx; simpa using hx
  cases cs with
  | nil =>
    simp only [execAll, Outcome.ok.injEq, B.base.injEq] at h
    exact ⟨m, b, [], rfl, .refl m _, by rw [hx, h], hi, hd⟩
  | cons c cs =>
    obtain ⟨r, xs, g1, g2, g3, g4⟩ := adds_steps (grow := grow) hc (inv_baseOf hi) (by rw [hx']; exact h) he
    refine ⟨r.1, .base r.2, xs, ?_, g2, by simp only [HB.read, g3], g4, trivial⟩
    rw [← g1]
    simp only [goOn, h2]
    rfl

theorem pushes_closed {m : Mem} {b : HBase} {r : Mem × HBase} {xs : List Clause} (h : Pushes grow m b r xs) :
    (r.2.read r.1).elems = (b.read m).elems ++ xs := by
  show r.1.cl.read r.2.elems = m.cl.read b.elems ++ xs
  rw [h.mem, h.elems, Heap.read_appendAll]

/-- What a builder is when clauses were written somewhere. -/
theorem read_cl (m : Mem) (h : Heap Clause) (b : HBase) : b.read { m with cl := h } = { b.read m with elems := h.read b.elems } := by
  simp only [HBase.read]
  congr 1

/-- What a builder of this kind is afterwards. -/
theorem default_cl {b : HB} (hd : isDefault b) (m : Mem) (h : Heap Clause) :
    b.read { m with cl := h } = .base { (b.baseOf m).read m with elems := h.read (b.baseOf m).elems } ∧ b.baseOf { m with cl := h } = b.baseOf m := by
  cases b <;> first | exact hd.elim | exact ⟨by rw [← read_cl]; rfl, rfl⟩

theorem default_inv {b : HB} (hd : isDefault b) {m : Mem} {h : Heap Clause} (hi : HB.Inv m b) (hn : m.cl.next ≤ h.next) : HB.Inv { m with cl := h } b := by
  have hb := (default_cl hd m h).2
  refine ⟨hi.cell, ?_, ?_, ?_, hi.it, hi.so, ?_⟩
  · rw [hb]; exact hi.cl.later hn
  · rw [hb]; exact hi.pt
  · rw [hb]; exact hi.ac
  · rw [hb]; exact hi.parts

/-- The continuations, one after the other. -/
theorem continuations {css : List (List Call)} (hc : ∀ cs ∈ css, ∀ c ∈ cs, addsClause c = true) {m : Mem} {b : HB} (hd : isDefault b)
    (hi : HB.Inv m b) {x : Base} (hx : b.read m = .base x) {vs : List Base} (hv : css.map (execAll u (.base x)) = vs.map fun v => .ok (.base v))
    (he : ∀ v ∈ vs, v.err = none) :
    ∃ bs, goOns u grow m b css = .ok ({ m with cl := m.cl.writes grow (b.baseOf m).elems (vs.map (closedBy x)) }, bs) ∧
      bs.map (fun b' => b'.read { m with cl := m.cl.writes grow (b.baseOf m).elems (vs.map (closedBy x)) }) = inTheEnd (roomOf m b) x vs ∧
      (∀ b' ∈ bs, HB.Inv { m with cl := m.cl.writes grow (b.baseOf m).elems (vs.map (closedBy x)) } b') ∧
      ∀ v ∈ vs, v.elems = x.elems ++ closedBy x v := by
  induction css generalizing m vs with
  | nil =>
    cases vs with
    | nil => exact ⟨[], rfl, rfl, by simp, by simp⟩
    | cons v vs => cases hv
  | cons cs css ih =>
    cases vs with
    | nil => cases hv
    | cons v vs =>
      simp only [List.map_cons, List.cons.injEq] at hv
      obtain ⟨m', b', xs, h1, h2, h3, h4, h5⟩ := continuation (grow := grow) (fun c h => hc cs (by simp) c h) hd hi hx hv.1 (he v (by simp))
      have hm : m' = { m with cl := (m.cl.appendAll grow (b.baseOf m).elems xs).1 } := h2.mem
      have hstep := Heap.appendAll_step grow hi.cl xs
      have hx1 := (default_baseOf (u := u) (grow := grow) hd m).1
      have hxe : (b.baseOf m).read m = x := by rw [hx] at hx1; simpa using hx1.symm
      have hv1 := (default_baseOf (u := u) (grow := grow) h5 m').1
      have hve : (b'.baseOf m').read m' = v := by rw [h3] at hv1; simpa using hv1.symm
      have hclosed : v.elems = x.elems ++ xs := by
        have := pushes_closed h2
        rwa [hve, hxe] at this
      have hcl : closedBy x v = xs := by simp [closedBy, hclosed]
      have hbm : b.baseOf m' = b.baseOf m := by rw [hm]; exact (default_cl hd m _).2
      have hxm : b.read m' = .base x := by
        rw [hm, (default_cl hd m _).1, hstep.around.read hi.cl, hxe]
        rw [show m.cl.read (b.baseOf m).elems = x.elems by rw [← hxe]; rfl]
      have him : HB.Inv m' b := by rw [hm]; exact default_inv hd hi hstep.next
      obtain ⟨bs, g1, g2, g3, g4⟩ := ih (fun cs h => hc cs (by simp [h])) him hxm hv.2 (fun v h => he v (by simp [h]))
      have hend : ({ m' with cl := m'.cl.writes grow (b.baseOf m').elems (vs.map (closedBy x)) } : Mem) =
          { m with cl := m.cl.writes grow (b.baseOf m).elems ((v :: vs).map (closedBy x)) } := by
        rw [hbm, hm, List.map_cons, hcl]; rfl
      have hcl' : m'.cl = (m.cl.appendAll grow (b.baseOf m).elems xs).1 := by rw [hm]
      have hroom : roomOf m' b = roomOf m b := by simp only [roomOf, hbm]
      refine ⟨b' :: bs, ?_, ?_, ?_, ?_⟩
      · simp only [goOns, h1, Outcome.bind, g1, Outcome.map, hend]
      · rw [← hend, List.map_cons, g2, hroom, inTheEnd, hcl]
        congr 1
        rw [(default_cl h5 m' _).1, hve, hbm, hcl', show (b'.baseOf m').elems = _ from h2.elems, Heap.read_continued grow hi.cl]
        rw [show m.cl.read (b.baseOf m).elems = x.elems by rw [← hxe]; rfl]
        by_cases hr : xs.length ≤ roomOf m b
        · rw [if_pos hr]
          rw [roomOf] at hr
          rw [if_pos hr]
        · rw [if_neg hr]
          rw [roomOf] at hr
          rw [if_neg hr, ← hclosed]
      · intro c hcm
        rcases List.mem_cons.1 hcm with rfl | hcm
        · rw [← hend]
          exact default_inv h5 h4 (Heap.writes_around grow him.cl _).next
        · rw [← hend]; exact g3 c hcm
      · intro w hw
        rcases List.mem_cons.1 hw with rfl | hw
        · rw [hcl]; exact hclosed
        · exact g4 w hw

theorem overwritten_length {α : Type} (xs : List α) (yss : List (List α)) : (overwritten xs yss).length = xs.length := by
  induction yss generalizing xs with
  | nil => rfl
  | cons ys yss ih => rw [overwritten, ih]; simp; omega

theorem overwritten_one {α : Type} (xs : List α) (yss : List (List α)) (hx : xs.length = 1) (hy : ∀ ys ∈ yss, ys.length = 1) :
    overwritten xs yss = yss.getLast?.getD xs := by
  induction yss generalizing xs with
  | nil => rfl
  | cons ys yss ih =>
    have h1 := hy ys (by simp)
    rw [overwritten, List.take_of_length_le (by omega), List.drop_eq_nil_of_le (by omega), List.append_nil, ih ys h1 fun z hz => hy z (by simp [hz])]
    cases yss with
    | nil => rfl
    | cons z zs => simp [List.getLast?_cons_cons, List.getLast?_eq_some_getLast (l := z :: zs) (by simp)]

theorem inTheEnd_full (x : Base) (vs : List Base) (h : ∀ v ∈ vs, v.elems = x.elems ++ closedBy x v) : inTheEnd 0 x vs = vs.map .base := by
  induction vs with
  | nil => rfl
  | cons v vs ih =>
    rw [inTheEnd, ih fun w hw => h w (by simp [hw]), List.map_cons]
    congr 1
    split
    · rename_i h0
      have hn : closedBy x v = [] := List.length_eq_zero_iff.1 (Nat.le_zero.1 h0)
      have he := h v (by simp)
      have ho : overwritten (closedBy x v) (vs.map (closedBy x)) = [] := by
        apply List.length_eq_zero_iff.1; rw [overwritten_length, hn]; rfl
      rw [ho, ← hn, ← he]
    · rfl

theorem inTheEnd_one (room : Nat) (hr : room ≠ 0) (x : Base) (vs : List Base) (h1 : ∀ v ∈ vs, (closedBy x v).length = 1) (w : Base) (hw : vs.getLast? = some w) :
    inTheEnd room x vs = vs.map fun v => .base { v with elems := x.elems ++ closedBy x w } := by
  induction vs with
  | nil => rfl
  | cons v vs ih =>
    rw [inTheEnd, List.map_cons, if_pos (by have := h1 v (by simp); omega), overwritten_one _ _ (h1 v (by simp)) (by
      intro ys hys
      obtain ⟨z, hz, rfl⟩ := List.mem_map.1 hys
      exact h1 z (by simp [hz]))]
    cases vs with
    | nil => simp at hw; subst hw; rfl
    | cons z zs =>
      rw [List.getLast?_cons_cons] at hw
      rw [ih (fun v hv => h1 v (by simp [hv])) hw, List.getLast?_map, hw]
      rfl

/-! ### The property -/

/-- C82: let a builder `b` with the value `x` be continued several times, by any calls of MATCH, WHERE, AND, OR, CREATE, MERGE, DELETE and
CALL {…} without errors, before anything is built; `vs` is what the continuations are if builders are values.  In Go's memory they are
`inTheEnd`: a continuation that closed more clauses than there was room for in the array of `b` is what it should be; in any other the
clauses that it has closed are overwritten by those of all later continuations, place by place.  The builder itself stays as it is. -/
theorem C82_uses (m : Mem) (b : HB) (hd : isDefault b) (hi : HB.Inv m b) (x : Base) (hx : b.read m = .base x) (css : List (List Call))
    (hc : ∀ cs ∈ css, ∀ c ∈ cs, addsClause c = true) (vs : List Base) (hv : css.map (execAll u (.base x)) = vs.map fun v => .ok (.base v))
    (he : ∀ v ∈ vs, v.err = none) :
    ∃ m' bs, goOns u grow m b css = .ok (m', bs) ∧ bs.map (HB.read m') = inTheEnd (roomOf m b) x vs ∧ b.read m' = .base x := by
  obtain ⟨bs, h1, h2, -, -⟩ := continuations (grow := grow) hc hd hi hx hv he
  refine ⟨_, bs, h1, h2, ?_⟩
  have hx1 := (default_baseOf (u := u) (grow := grow) hd m).1
  have hxe : (b.baseOf m).read m = x := by rw [hx] at hx1; simpa using hx1.symm
  rw [(default_cl hd m _).1, (Heap.writes_around grow hi.cl _).read hi.cl, hxe, show m.cl.read (b.baseOf m).elems = x.elems by rw [← hxe]; rfl]

/-- C82: whichever of the continuations the program then goes on with, depth first, the statements are those of the value given by
`inTheEnd`. -/
theorem C82_then (m : Mem) (b : HB) (hd : isDefault b) (hi : HB.Inv m b) (x : Base) (hx : b.read m = .base x) (css : List (List Call))
    (hc : ∀ cs ∈ css, ∀ c ∈ cs, addsClause c = true) (vs : List Base) (hv : css.map (execAll u (.base x)) = vs.map fun v => .ok (.base v))
    (he : ∀ v ∈ vs, v.err = none) (m' : Mem) (bs : List HB) (hg : goOns u grow m b css = .ok (m', bs)) (i : Nat) (b' : HB) (w : B)
    (hb : bs[i]? = some b') (hw : (inTheEnd (roomOf m b) x vs)[i]? = some w) (p : Use) (hp : p.Forks u w) :
    atOnce (p.run u grow m' b') = p.value u w := by
  obtain ⟨cs, h1, h2, h3, -⟩ := continuations (grow := grow) hc hd hi hx hv he
  rw [hg] at h1
  simp only [Outcome.ok.injEq, Prod.mk.injEq] at h1
  obtain ⟨hm, rfl⟩ := h1
  rw [← hm] at h2 h3
  have hr : b'.read m' = w := by
    rw [← h2, List.getElem?_map, hb] at hw
    simpa using hw
  have hn : ∀ (n : Nat) (vs : List Base) (j : Nat) (w : B), (inTheEnd n x vs)[j]? = some w → w.norm = w := by
    intro n vs
    induction vs with
    | nil => intro j w h; simp [inTheEnd] at h
    | cons v vs ih =>
      intro j w h
      cases j with
      | zero => simp only [inTheEnd, List.getElem?_cons_zero, Option.some.injEq] at h; rw [← h]; rfl
      | succ j => simp only [inTheEnd, List.getElem?_cons_succ] at h; exact ih j w h
  exact (HB.run_atOnce u grow (h3 b' (List.mem_of_getElem? hb)) (by rw [hn _ _ _ _ hw]; exact hr) p hp).2

/-- C82: if the array of clauses is full, all continuations are what they should be. -/
theorem C82_full (m : Mem) (b : HB) (hd : isDefault b) (hi : HB.Inv m b) (x : Base) (hx : b.read m = .base x) (css : List (List Call))
    (hc : ∀ cs ∈ css, ∀ c ∈ cs, addsClause c = true) (vs : List Base) (hv : css.map (execAll u (.base x)) = vs.map fun v => .ok (.base v))
    (he : ∀ v ∈ vs, v.err = none) (hr : roomOf m b = 0) :
    ∃ m' bs, goOns u grow m b css = .ok (m', bs) ∧ bs.map (HB.read m') = vs.map .base := by
  obtain ⟨bs, h1, h2, -, h4⟩ := continuations (grow := grow) hc hd hi hx hv he
  exact ⟨_, bs, h1, by rw [h2, hr, inTheEnd_full x vs h4]⟩

/-- C82: continuations that close one clause each, as `Where(c).Match(p)` does.  They are all what they should be if and only if the array
of clauses is full, or all of them close the same clause as the last one; otherwise all of them have the clause of the last one. -/
theorem C82_one (m : Mem) (b : HB) (hd : isDefault b) (hi : HB.Inv m b) (x : Base) (hx : b.read m = .base x) (css : List (List Call))
    (hc : ∀ cs ∈ css, ∀ c ∈ cs, addsClause c = true) (vs : List Base) (hv : css.map (execAll u (.base x)) = vs.map fun v => .ok (.base v))
    (he : ∀ v ∈ vs, v.err = none) (w : Base) (hw : vs.getLast? = some w) (h1 : ∀ v ∈ vs, (closedBy x v).length = 1) :
    ∃ m' bs, goOns u grow m b css = .ok (m', bs) ∧
      (bs.map (HB.read m') = vs.map .base ↔ roomOf m b = 0 ∨ ∀ v ∈ vs, closedBy x v = closedBy x w) ∧
      (roomOf m b ≠ 0 → bs.map (HB.read m') = vs.map fun v => .base { v with elems := x.elems ++ closedBy x w }) := by
  obtain ⟨bs, g1, g2, -, g4⟩ := continuations (grow := grow) hc hd hi hx hv he
  refine ⟨_, bs, g1, ?_, fun hr => by rw [g2, inTheEnd_one _ hr x vs h1 w hw]⟩
  by_cases hr : roomOf m b = 0
  · simp only [hr, true_or, iff_true]
    rw [g2, hr, inTheEnd_full x vs g4]
  · simp only [hr, false_or]
    rw [g2, inTheEnd_one _ hr x vs h1 w hw, List.map_inj_left]
    constructor
    · intro h v hv
      have := h v hv
      simp only [B.base.injEq] at this
      have he := congrArg Base.elems this
      simp only at he
      rw [g4 v hv] at he
      exact (List.append_cancel_left he).symm
    · intro h v hv
      rw [← h v hv, ← g4 v hv]

/-- C82: how much room there is.  A builder that was made by such calls from a new one, with the growth of slices that Go has, has a full
array if and only if the number of its closed clauses is 0 or a power of two. -/
theorem C82_room (cs : List Call) (hc : ∀ c ∈ cs, addsClause c = true) (x : Base) (hx : execAll u start cs = .ok (.base x)) (he : x.err = none) :
    ∃ m b, goOn u goGrow {} (.base {}) cs = .ok (m, b) ∧ isDefault b ∧ HB.Inv m b ∧ b.read m = .base x ∧
      (roomOf m b = 0 ↔ x.elems.length = 0 ∨ ∃ j, x.elems.length = 2 ^ j) := by
  obtain ⟨m, b, xs, h1, h2, h3, h4, h5⟩ := continuation (grow := goGrow) (m := {}) (b := .base {}) hc trivial (HB.inv_new {}) rfl hx he
  refine ⟨m, b, h1, h5, h4, h3, ?_⟩
  have hlen : (b.baseOf m).elems.len = x.elems.length := by
    have := (default_baseOf (u := u) (grow := goGrow) h5 m).1
    rw [h3] at this
    simp only [B.base.injEq] at this
    rw [this]
    exact (Heap.read_length m.cl (b.baseOf m).elems).symm
  have key : ∀ (xs : List Clause), xs = [] ∨ ((Heap.initial : Heap Clause).appendAll goGrow {} xs).2.Doubled := by
    intro xs
    induction xs using snoc_induction with
    | nil => exact .inl rfl
    | append_singleton xs y ih =>
      right
      rw [Heap.appendAll_append, Heap.appendAll_one]
      rcases ih with rfl | ih
      · exact Slice.Doubled.first _ _
      · exact Slice.Doubled.append _ _ _ ih
  have hel : (b.baseOf m).elems = ((Heap.initial : Heap Clause).appendAll goGrow {} xs).2 := h2.elems
  unfold roomOf
  rcases key xs with rfl | hd
  · rw [hel] at hlen ⊢
    simp [Heap.appendAll] at hlen ⊢
    exact .inl (by rw [← List.length_eq_zero_iff]; exact hlen.symm)
  · rw [← hel] at hd
    have hf := hd.full
    obtain ⟨j, d1, d2, d3⟩ := hd
    rw [← hlen]
    constructor
    · intro h; exact .inr (hf.1 (by omega))
    · rintro (h | h)
      · omega
      · have := hf.2 h; omega

/-! ### Examples -/

namespace SampleContinuations
open SampleBuilder SampleUse

/-- `Match(p)`, `n` times. -/
def first (n : Nat) : List Call := (List.range n).map mat

/-- The value of a builder. -/
def val (cs : List Call) : Base :=
  match execAll .ascii start cs with
  | .ok (.base x) => x
  | _ => {}

/-- `Where(a).Match(q)`; `Where(b).Match(q).Match(q)`; `Where(c).Match(q)`. -/
def three : List (List Call) := [[wh 104 c!"a", mat2 0], [wh 105 c!"b", mat2 1, mat2 2], [wh 106 c!"c", mat2 3]]

/-- The builder of `n` MATCHes is continued three times, and then the `i`-th continuation is completed by `RETURN x` and built. -/
def built (n i : Nat) : List Str :=
  match goOn .ascii goGrow {} (.base {}) (first n) with
  | .ok (m, b) =>
    match goOns .ascii goGrow m b three with
    | .ok (m', bs) => (bs[i]?.map fun b' => (atOnce (Use.run .ascii goGrow m' b' (.call (ret 0 x) .build))).map shows).getD []
    | .panic => []
  | .panic => []

end SampleContinuations
open SampleContinuations SampleUse SampleBuilder

/-- The hypotheses are met by four MATCHes and the three continuations; there are three closed clauses, so there is room. -/
example : (∀ c ∈ first 4, addsClause c = true) ∧ (∀ cs ∈ three, ∀ c ∈ cs, addsClause c = true) ∧ (val (first 4)).elems.length = 3 ∧
    (three.map fun cs => (closedBy (val (first 4)) (val (first 4 ++ cs))).length) = [1, 2, 1] ∧
    (three.map fun cs => (val (first 4 ++ cs)).err.isNone) = [true, true, true] := by decide +kernel

/-- With three closed clauses the first continuation gets the condition of the last one; the second one found no room for its two clauses
and is as it should be. -/
example : (List.range 3).map (built 4) =
    [[c!"MATCH (p) MATCH (p) MATCH (p) MATCH (p) WHERE c MATCH (q) RETURN x"],
      [c!"MATCH (p) MATCH (p) MATCH (p) MATCH (p) WHERE b MATCH (q) MATCH (q) RETURN x"],
      [c!"MATCH (p) MATCH (p) MATCH (p) MATCH (p) WHERE c MATCH (q) RETURN x"]] := by decide +kernel

/-- With two closed clauses, all are as they should be. -/
example : (List.range 3).map (built 3) =
    [[c!"MATCH (p) MATCH (p) MATCH (p) WHERE a MATCH (q) RETURN x"],
      [c!"MATCH (p) MATCH (p) MATCH (p) WHERE b MATCH (q) MATCH (q) RETURN x"],
      [c!"MATCH (p) MATCH (p) MATCH (p) WHERE c MATCH (q) RETURN x"]] := by decide +kernel

end Verif
