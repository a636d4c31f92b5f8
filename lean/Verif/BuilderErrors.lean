import Verif.BuilderSteps

/-
Errors in the fluent builder: which calls are given something erroneous, which of them the builder does not check, and the states
that cannot lead to a statement without error any more.
-/

namespace Verif
namespace Spec

/-- Some expression, node, ... carries an error. -/
def BadArgs : Args → Prop
  | .exprs xs => ∃ x ∈ xs, x.err ≠ none
  | .strings _ => False
  | .nameds xs => ∃ n ∈ xs, n.err ≠ none

/-- Some part given to a call carries an error. -/
def BadCall : Call → Prop
  | .match_ _ _ _ xs | .create _ xs | .merge _ xs | .set _ xs | .remove _ xs | .actionSet _ _ _ _ xs | .args xs | .yield _ xs => ∃ x ∈ xs, x.err ≠ none
  | .where_ c | .and _ c | .or _ c => c.toVal.err ≠ none
  | .with_ _ _ a | .returning _ _ _ a | .delete _ _ a => BadArgs a
  | .setNamed _ n x => n.err ≠ none ∨ x.err ≠ none
  | .setLabels _ _ _ _ _ n _ | .removeLabels _ _ _ _ _ n _ => n.err ≠ none
  | .unwind x | .orderBy _ x | .andBy _ x => x.err ≠ none
  | .callStmt _ s => s.err ≠ none
  | .orderItems xs => ∃ x ∈ xs, x.err ≠ none
  | .asc _ | .desc | .skip .. | .limit .. | .on _ | .as .. | .callProc .. => False

/-- The errors of what is named are not looked at, except that the name given may carry the error itself. -/
def Forgets : Args → Prop
  | .nameds xs => ∀ n ∈ xs, n.sym.err = none
  | _ => False

/-- The calls whose errors are not looked at. -/
def Unchecked : B → Call → Prop
  | .base _, .and .. => True
  | .with_ _, .where_ _ | .with_ _, .and .. | .with_ _, .or .. => True
  | .inCall _, .where_ _ | .standalone .., .where_ _ => True
  | .upd _, .returning .. => True
  | .with_ _, .with_ _ _ a | .with_ _, .returning _ _ _ a | .with_ _, .delete _ _ a => Forgets a
  | .upd _, .with_ _ _ a | .upd _, .delete _ _ a => Forgets a
  | .inCall _, .with_ _ _ a | .inCall _, .returning _ _ _ a => Forgets a
  | .standalone .., .with_ _ _ a | .standalone .., .returning _ _ _ a => Forgets a
  | .with_ _, .setNamed _ n x => n.req.err = none ∧ x.err = none
  | .upd _, .setNamed _ n x => n.sym.err = none ∧ x.err = none
  | _, .orderItems _ | _, .orderBy .. | _, .andBy .. => True
  | _, .args _ | _, .yield .. => True
  | _, _ => False

/-- Nothing usable came out: a panic, an error returned by `Build`, or a statement that carries an error. -/
def Refused : Outcome (Except Err Stmt) → Prop
  | .panic => True
  | .ok (.error _) => True
  | .ok (.ok s) => s.err ≠ none

end Spec
open Spec

/-! ### Tainted states -/

variable {u : Unicode}

/-- Something erroneous is already among the clauses. -/
def Base.Spoiled (b : Base) : Prop :=
  b.err ≠ none ∨ ((∀ c, b.ocall = some c → c.standalone = false) ∧
    ((∃ c ∈ b.elems, c.val.err ≠ none) ∨ (∃ p ∈ b.parts, p.err ≠ none) ∨ ∃ c, b.oupdate = some (.done c) ∧ c.val.err ≠ none))

/-- A procedure call in the middle of a query has erroneous arguments. -/
def CallB.Bad (c : CallB) : Prop := c.standalone = false ∧ errOf c.arguments ≠ none

/-- No statement without error can come out of the builder any more. -/
def Base.Tainted (b : Base) : Prop := b.Spoiled ∨ ∃ c, b.ocall = some c ∧ c.Bad

def BaseTainted (b : Option Base) : Prop := ∀ x, b = some x → x.Tainted

def B.Tainted : B → Prop
  | .base b => b.Tainted
  | .with_ w => BaseTainted w.base
  | .ret r => r.err ≠ none ∨ ∃ b, r.base = some b ∧ b.err = none ∧ b.Tainted
  | .upd x => (x.err ≠ none ∧ x.base = none) ∨ ∃ b, x.base = some b ∧ b.err = none ∧ b.Tainted
  | .unwind x => BaseTainted x.base
  | .inCall i => (∀ b, i.base = some b → b.Spoiled) ∧ ∀ c, i.call = some c → c.standalone = false
  | .standalone .. => False
  | .action a => a.err ≠ none ∨ ∃ b, a.base = some b ∧ b.Tainted ∧ ∃ k kp ps as, b.oupdate = some (.merge k kp ps as)

namespace Base

/-- The same for clauses that are closed. -/
def Core (b : Base) : Prop :=
  b.err ≠ none ∨ ((∀ c, b.ocall = some c → c.standalone = false) ∧ ((∃ c ∈ b.elems, c.val.err ≠ none) ∨ ∃ p ∈ b.parts, p.err ≠ none))

theorem Core.spoiled {b : Base} (h : b.Core) : b.Spoiled := by
  rcases h with h | ⟨h1, h | h⟩
  · exact Or.inl h
  · exact Or.inr ⟨h1, Or.inl h⟩
  · exact Or.inr ⟨h1, Or.inr (Or.inl h)⟩

theorem Core.tainted {b : Base} (h : b.Core) : b.Tainted := Or.inl h.spoiled

theorem dead_tainted (e : Err) : (dead e).Tainted := Or.inl (Or.inl (by simp [dead]))

theorem Core.update {b : Base} (h : b.Core) (x : Option UpdBuilder) : Core { b with oupdate := x } := h

theorem Tainted.omatch {b : Base} (h : b.Tainted) (m : MatchB) : Tainted { b with omatch := m } := h

theorem Spoiled.add {b : Base} (h : b.Spoiled) (cs : List Clause) : Spoiled { b with elems := b.elems ++ cs } := by
  rcases h with h | ⟨h1, ⟨c, hc, he⟩ | h | h⟩
  · exact Or.inl h
  · exact Or.inr ⟨h1, Or.inl ⟨c, by simp [hc], he⟩⟩
  · exact Or.inr ⟨h1, Or.inr (Or.inl h)⟩
  · exact Or.inr ⟨h1, Or.inr (Or.inr h)⟩

theorem Tainted.add {b : Base} (h : b.Tainted) (cs : List Clause) : Tainted { b with elems := b.elems ++ cs } := by
  rcases h with h | h
  · exact Or.inl (h.add cs)
  · exact Or.inr h

theorem Tainted.closeMatch {b : Base} (h : b.Tainted) : b.closeMatch.Tainted := by
  rw [Base.closeMatch]
  split
  · exact (h.add _).omatch _
  · exact h

theorem Spoiled.closeMatch {b : Base} (h : b.Spoiled) : b.closeMatch.Spoiled := by
  rw [Base.closeMatch]
  split
  · exact h.add _
  · exact h

theorem Spoiled.call {b : Base} (h : b.Spoiled) (c : Option CallB) (hc : ∀ x, c = some x → x.standalone = false) : Spoiled { b with ocall := c } := by
  rcases h with h | ⟨h1, h⟩
  · exact Or.inl h
  · exact Or.inr ⟨hc, h⟩

theorem _root_.Verif.CallB.Bad.build {c : CallB} (h : c.Bad) : ∃ v, c.build = .ok v ∧ v.val.err ≠ none := by
  simp only [CallB.build, h.1, Bool.false_eq_true, if_false]
  refine ⟨_, rfl, ?_⟩
  simp only [procedureCall]
  split
  · simp [Val.bad]
  · rename_i hn
    exact (h.2 ((firstErr_none_iff _).1 hn _ (by simp))).elim

theorem Tainted.closeCall {b : Base} (h : b.Tainted) : b.closeCall.Spoiled := by
  rw [Base.closeCall.eq_def]
  split
  · rename_i hn
    rcases h with h | ⟨c, hc, -⟩
    · exact h
    · rw [hn] at hc; cases hc
  · rename_i c hc
    split
    · exact Or.inl (by simp)
    · rename_i v hv
      rcases h with h | ⟨c', hc', hb⟩
      · exact (h.add _).call none (by simp)
      · rw [hc] at hc'
        cases hc'
        obtain ⟨v', hv', he⟩ := hb.build
        rw [hv] at hv'
        cases hv'
        exact Or.inr ⟨by simp, Or.inl ⟨v, by simp, he⟩⟩

theorem Spoiled.closeUpdate {b : Base} (h : b.Spoiled) : b.closeUpdate.Core := by
  rw [Base.closeUpdate]
  split
  · rename_i hn
    rcases h with h | ⟨h1, h | h | ⟨c, hc, he⟩⟩
    · exact Or.inl h
    · exact Or.inr ⟨h1, Or.inl h⟩
    · exact Or.inr ⟨h1, Or.inr h⟩
    · rw [hn] at hc; cases hc
  · rename_i x hx
    rcases h with h | ⟨h1, ⟨c, hc, he⟩ | h | ⟨c, hc, he⟩⟩
    · exact Or.inl h
    · exact Or.inr ⟨h1, Or.inl ⟨c, by simp [hc], he⟩⟩
    · exact Or.inr ⟨h1, Or.inr h⟩
    · rw [hx] at hc
      cases hc
      exact Or.inr ⟨h1, Or.inl ⟨c, by simp [UpdBuilder.build], he⟩⟩

theorem Tainted.closeUpdate {b : Base} (h : b.Tainted) : b.closeUpdate.Tainted := by
  rcases h with h | ⟨c, hc, hb⟩
  · exact h.closeUpdate.tainted
  · refine Or.inr ⟨c, ?_, hb⟩
    rw [Base.closeUpdate]
    split <;> exact hc

/-- What is in the list then. -/
theorem Tainted.list {b : Base} (h : b.Tainted) (he : b.err = none) :
    ∃ cs, b.list = .ok cs ∧ ((∃ c ∈ cs, c.val.err ≠ none) ∨ ∃ p ∈ b.parts, p.err ≠ none) := by
  rcases h with (h | ⟨h1, h⟩) | ⟨c, hc, hb⟩
  · exact absurd he h
  · have hl : ∃ cs, b.list = .ok cs ∧ (∀ c ∈ b.elems, c ∈ cs) ∧ ∀ c, b.oupdate = some (.done c) → c ∈ cs := by
      unfold Base.list
      cases hc : b.ocall with
      | none =>
        refine ⟨_, rfl, fun c hc => by simp [hc], fun c hc => by simp [hc, UpdBuilder.build]⟩
      | some c =>
        have : ∃ v, c.build = .ok v := by
          simp only [CallB.build, h1 c hc, Bool.false_eq_true, if_false]
          exact ⟨_, rfl⟩
        obtain ⟨v, hv⟩ := this
        simp only [hv]
        exact ⟨_, rfl, fun c hc => by simp [hc], fun c hc => by simp [hc, UpdBuilder.build]⟩
    obtain ⟨cs, h2, h3, h4⟩ := hl
    refine ⟨cs, h2, ?_⟩
    rcases h with ⟨c, hc, he⟩ | h | ⟨c, hc, he⟩
    · exact Or.inl ⟨c, h3 c hc, he⟩
    · exact Or.inr h
    · exact Or.inl ⟨c, h4 c hc, he⟩
  · obtain ⟨v, hv, he⟩ := hb.build
    unfold Base.list
    simp only [hc, hv]
    exact ⟨_, rfl, Or.inl ⟨v, by simp, he⟩⟩

theorem firstErr_some {xs : List (Option Err)} {x : Option Err} (hx : x ∈ xs) (he : x ≠ none) : ∃ e, firstErr xs = some e := by
  cases h : firstErr xs with
  | some e => exact ⟨e, rfl⟩
  | none => exact absurd ((firstErr_none_iff xs).1 h x hx) he

theorem errsOf_some {xs : List Val} {x : Val} (hx : x ∈ xs) (he : x.err ≠ none) : errsOf xs ≠ none := by
  obtain ⟨e, h⟩ := firstErr_some (xs := xs.map (·.err)) (List.mem_map_of_mem hx) he
  simp [errsOf, h]

theorem singlePart_err {cs : List Clause} {c : Clause} (hc : c ∈ cs) (he : c.val.err ≠ none) (ret : Option Val) : (singlePart cs ret).err ≠ none := by
  obtain ⟨e, h⟩ := firstErr_some (xs := cs.map (·.val.err) ++ [errOf ret]) (List.mem_append_left _ (List.mem_map_of_mem hc)) he
  unfold singlePart
  split
  · simp [Stmt.err]
  · split
    · simp [Stmt.err]
    · simp [h, Stmt.err]

theorem Tainted.buildImpl {b : Base} (h : b.Tainted) (he : b.err = none) (ret : Option Val) : Refused ((b.buildImpl ret).map .ok) := by
  obtain ⟨cs, hl, h⟩ := h.list he
  simp only [Base.buildImpl, hl]
  by_cases hp : b.parts = []
  · simp only [hp, if_true, Outcome.map, Refused]
    rcases h with ⟨c, hc, hce⟩ | ⟨p, hm, -⟩
    · exact singlePart_err hc hce ret
    · rw [hp] at hm; cases hm
  · simp only [hp, if_false]
    have : ∃ e, firstErr (b.parts.map (·.err) ++ [(singlePart cs ret).err]) = some e := by
      rcases h with ⟨c, hc, hce⟩ | ⟨p, hm, hpe⟩
      · exact firstErr_some (List.mem_append_right _ (by simp)) (singlePart_err hc hce ret)
      · exact firstErr_some (List.mem_append_left _ (List.mem_map_of_mem hm)) hpe
    obtain ⟨e, h⟩ := this
    simp [multiPart, h, Outcome.map, Refused]

theorem Tainted.build {b : Base} (h : b.Tainted) : Refused b.build := by
  rw [Base.build]
  split
  · trivial
  · rename_i he
    exact h.buildImpl he none

theorem Tainted.addWith {b : Base} (h : b.Tainted) (kp : Key) (w : Option Val) : (b.addWith kp w).Tainted := by
  rw [Base.addWith.eq_def]
  split
  · exact dead_tainted _
  · rename_i he
    split
    · exact h
    · rename_i v
      obtain ⟨cs, hl, h⟩ := h.list he
      simp only [hl]
      refine Or.inl (Or.inr ⟨by simp, Or.inr (Or.inl ?_)⟩)
      rcases h with ⟨c, hc, hce⟩ | ⟨p, hm, hpe⟩
      · obtain ⟨e, hx⟩ := firstErr_some (xs := cs.map (·.val.err) ++ [v.err]) (List.mem_append_left _ (List.mem_map_of_mem hc)) hce
        exact ⟨partCreate kp cs v, by simp, by simp [partCreate, hx]⟩
      · exact ⟨p, by simp [hm], hpe⟩

theorem Tainted.update {b : Base} (h : b.Tainted) (t : UpdType) (ks : UpdKeys) (xs : List Val) : (b.update t ks xs).Tainted := by
  simp only [Base.update]
  split
  · exact (h.closeMatch.closeCall.closeUpdate.update _).tainted
  · exact (h.closeMatch.closeCall.closeUpdate.update _).tainted

theorem Tainted.withB {b : Base} (h : b.Tainted) (ks : WithKeys) (d : Bool) (a : Args) : B.Tainted (.with_ (b.with_ u ks d a)) := by
  rw [Base.with_]
  split
  · intro x hx; cases hx
  · intro x hx; cases hx; exact h

theorem Tainted.returning {b : Base} (h : b.Tainted) (k ko : Key) (d : Bool) (a : Args) : B.Tainted (.ret (b.returning u k ko d a)) := by
  rw [Base.returning]
  split
  · exact Or.inl (by simp)
  · rename_i he
    exact Or.inr ⟨b, rfl, (firstErr_none_iff _).1 he _ (by simp), h⟩

theorem Tainted.openUpdate {b : Base} (h : b.Tainted) (t : UpdType) (ks : UpdKeys) (a : Args) : (b.openUpdate u t ks a).Tainted := by
  rw [Base.openUpdate]
  split
  · exact dead_tainted _
  · exact h.update ..

theorem Tainted.updB {b : Base} (h : b.Tainted) (t : UpdType) (ks : UpdKeys) (xs : List Val) : B.Tainted (.upd (b.updB t ks xs)) := by
  rw [Base.updB]
  split
  · exact Or.inl ⟨by simp, rfl⟩
  · rename_i he
    split
    · exact Or.inl ⟨by simp, rfl⟩
    · exact Or.inr ⟨b, rfl, (firstErr_none_iff _).1 he _ (by simp), h⟩

theorem Tainted.set {b : Base} (h : b.Tainted) (ks : UpdKeys) (xs : List Val) : B.Tainted (b.set ks xs) := by
  rw [Base.set]
  split
  · exact dead_tainted _
  · exact h.closeUpdate.updB _ _ _

theorem Tainted.update2 {b : Base} (h : b.Tainted) (t : UpdType) (ks : UpdKeys) (c : Option Err) (xs : List Val) : B.Tainted (b.update2 t ks c xs) := by
  rw [Base.update2]
  split
  · exact dead_tainted _
  · exact h.updB ..

/-- A call on a tainted builder gives a tainted builder. -/
theorem Tainted.exec {b : Base} (h : b.Tainted) (c : Call) {b' : B} (hc : execBase u b c = .ok b') : b'.Tainted := by
  cases c with
  | match_ k kw o ps =>
    cases hc
    simp only [B.Tainted, Base.match_]
    split
    · exact dead_tainted _
    · exact Or.inl h.closeMatch.closeCall
  | where_ c =>
    cases hc
    simp only [B.Tainted, Base.where_]
    split
    · exact dead_tainted _
    · exact h.omatch _
  | and ks c =>
    simp only [execBase, Base.and] at hc
    split at hc
    · cases hc; exact dead_tainted _
    · cases hx : combineOfGet ks b.omatch.cond .and c with
      | panic => rw [hx] at hc; cases hc
      | ok y => rw [hx] at hc; cases hc; exact h.omatch _
  | or ks c =>
    simp only [execBase, Base.or] at hc
    split at hc
    · cases hc; exact dead_tainted _
    · cases hx : combineOfGet ks b.omatch.cond .or c with
      | panic => rw [hx] at hc; cases hc
      | ok y => rw [hx] at hc; cases hc; exact h.omatch _
  | with_ ks d a => cases hc; exact h.withB _ _ _
  | returning k ko d a => cases hc; exact h.returning ..
  | delete ks d a => cases hc; exact h.openUpdate ..
  | create ks ps => cases hc; exact h.openUpdate ..
  | merge ks ps => cases hc; exact h.openUpdate ..
  | set ks xs => cases hc; exact h.set ..
  | setNamed ks n x =>
    cases hc
    rw [Base.setNamed]
    split
    · exact dead_tainted _
    · exact h.set ..
  | setLabels ks g ko kl kls n ls => cases hc; exact h.update2 ..
  | removeLabels ks g ko kl kls n ls => cases hc; exact h.update2 ..
  | remove ks xs => cases hc; exact h.update2 ..
  | on t =>
    cases hc
    simp only [B.Tainted, Base.on]
    split
    · exact Or.inl (by simp)
    · split
      · rename_i h1; exact Or.inr ⟨b, rfl, h, _, _, _, _, h1⟩
      · exact Or.inl (by simp)
  | unwind x =>
    cases hc
    simp only [B.Tainted, Base.unwind]
    split
    · intro y hy; cases hy
    · intro y hy; cases hy; exact h.closeMatch
  | callStmt k s =>
    cases hc
    simp only [B.Tainted, Base.callStmt]
    split
    · exact dead_tainted _
    · split
      · exact Or.inl (Or.inl (by simp))
      · exact (h.closeCall.closeMatch.closeUpdate.tainted).add _
  | callProc kc ka kw k kn name =>
    simp only [execBase, Base.callProc] at hc
    split at hc
    · cases hc
      exact ⟨(fun y hy => by cases hy), (fun y hy => by cases hy)⟩
    · cases hp : procName k kn name with
      | panic => rw [hp] at hc; cases hc
      | ok p =>
        rw [hp] at hc
        cases hc
        refine ⟨fun y hy => ?_, fun y hy => by cases hy; rfl⟩
        cases hy
        exact h.closeMatch.closeCall.call _ (fun x hx => by cases hx; rfl)
  | _ => cases hc

end Base

theorem Outcome.bind_ok {α β : Type} {o : Outcome α} {f : α → Outcome β} {y : β} (h : o.bind f = .ok y) : ∃ x, o = .ok x ∧ f x = .ok y := by
  cases o with
  | panic => cases h
  | ok x => exact ⟨x, rfl, h⟩

theorem Outcome.map_ok {α β : Type} {o : Outcome α} {f : α → β} {y : β} (h : o.map f = .ok y) : ∃ x, o = .ok x ∧ f x = y := by
  cases o with
  | panic => cases h
  | ok x => cases h; exact ⟨x, rfl, rfl⟩

theorem WithB.next_tainted {w : WithB} (h : BaseTainted w.base) {b : Base} (hb : w.next = .ok b) : b.Tainted := by
  simp only [WithB.next] at hb
  split at hb
  · cases hb
  · rename_i b' hw
    cases hb
    exact (h b' hw).addWith ..

theorem UpdB.next_tainted {x : UpdB} (h : B.Tainted (.upd x)) {b : Base} (hb : x.next = .ok b) : b.Tainted := by
  simp only [UpdB.next] at hb
  split at hb
  · rename_i b' c h1 h2
    cases hb
    rcases h with ⟨-, h⟩ | ⟨b1, h3, -, h⟩
    · rw [h] at h1; cases h1
    · rw [h1] at h3
      cases h3
      exact h.closeMatch.add _
  · cases hb

theorem InCallB.next_tainted {i : InCallB} (h : B.Tainted (.inCall i)) {b : Base} (hb : i.next = .ok b) : b.Tainted := by
  simp only [InCallB.next] at hb
  split at hb
  · rename_i b' c h1 h2
    cases hb
    exact Or.inl ((h.1 b' h1).call _ (fun x hx => by cases hx; exact h.2 c h2))
  · cases hb

/-- Tainted builders stay tainted. -/
theorem tainted_step {b : B} (h : b.Tainted) (c : Call) {b' : B} (hc : exec u b c = .ok b') : b'.Tainted := by
  cases b with
  | base b => exact Base.Tainted.exec h c hc
  | with_ w =>
    cases c <;> simp only [exec, execWith] at hc <;> first
      | (obtain ⟨b1, h1, h2⟩ := Outcome.bind_ok hc; exact (WithB.next_tainted h h1).exec _ h2)
      | (cases hc; exact h)
      | (obtain ⟨b1, h1, rfl⟩ := Outcome.map_ok hc; exact h)
      | cases hc
  | ret r => cases c <;> simp only [exec, execRet] at hc <;> first | (cases hc; exact h) | cases hc
  | upd x =>
    cases c with
    | returning k ko d a =>
      simp only [exec, execUpd] at hc
      cases hc
      split <;> exact h
    | removeLabels ks g ko kl kls n ls =>
      simp only [exec, execUpd] at hc
      split at hc
      · cases hc; exact h
      · obtain ⟨b1, h1, rfl⟩ := Outcome.map_ok hc
        exact (UpdB.next_tainted h h1).updB ..
    | with_ ks d a =>
      obtain ⟨b1, h1, rfl⟩ := Outcome.map_ok hc
      exact (UpdB.next_tainted h h1).withB _ _ _
    | delete ks d a =>
      obtain ⟨b1, h1, rfl⟩ := Outcome.map_ok hc
      exact (UpdB.next_tainted h h1).update ..
    | merge ks ps =>
      obtain ⟨b1, h1, rfl⟩ := Outcome.map_ok hc
      exact (UpdB.next_tainted h h1).openUpdate ..
    | create ks ps =>
      obtain ⟨b1, h1, rfl⟩ := Outcome.map_ok hc
      exact (UpdB.next_tainted h h1).openUpdate ..
    | _ =>
      simp only [exec, execUpd] at hc
      first
        | (cases hc; exact h)
        | (obtain ⟨b1, h1, rfl⟩ := Outcome.map_ok hc; exact (UpdB.next_tainted h h1).updB ..)
        | cases hc
  | unwind x =>
    cases c with
    | as k kn name =>
      simp only [exec, execUnwind] at hc
      split at hc
      · rename_i b1 v h1 h2
        cases hc
        exact (h b1 h1).add _
      · cases hc
    | _ => cases hc
  | inCall i =>
    cases c with
    | args xs =>
      cases hc
      refine ⟨h.1, fun c hc => ?_⟩
      cases hi : i.call with
      | none => simp [hi] at hc
      | some d => simp [hi] at hc; subst hc; exact h.2 d hi
    | yield ky xs =>
      cases hc
      refine ⟨h.1, fun c hc => ?_⟩
      cases hi : i.call with
      | none => simp [hi] at hc
      | some d => simp [hi] at hc; subst hc; exact h.2 d hi
    | where_ x =>
      obtain ⟨b1, h1, rfl⟩ := Outcome.map_ok hc
      refine InCallB.next_tainted (i := { i with call := i.call.map fun y => { y with cond := some x } }) ⟨h.1, fun c hc => ?_⟩ h1
      cases hi : i.call with
      | none => simp [hi] at hc
      | some d => simp [hi] at hc; subst hc; exact h.2 d hi
    | returning k ko d a =>
      obtain ⟨b1, h1, h2⟩ := Outcome.bind_ok hc
      exact (InCallB.next_tainted h h1).exec _ h2
    | with_ ks d a =>
      obtain ⟨b1, h1, h2⟩ := Outcome.bind_ok hc
      exact (InCallB.next_tainted h h1).exec _ h2
    | callStmt k s =>
      obtain ⟨b1, h1, h2⟩ := Outcome.bind_ok hc
      exact (InCallB.next_tainted h h1).exec _ h2
    | _ => cases hc
  | standalone c n => exact h.elim
  | action a =>
    cases c with
    | actionSet k kset kl ks xs =>
      obtain ⟨b1, h1, rfl⟩ := Outcome.map_ok hc
      simp only [ActionB.set] at h1
      split at h1
      · cases h1; exact Base.dead_tainted _
      · rename_i he
        rcases h with h | ⟨b2, h2, ht, k', kp, ps, as, hm⟩
        · obtain ⟨e, hx⟩ := Base.firstErr_some (xs := [a.err, errsOf xs]) (by simp) h
          rw [hx] at he; cases he
        · simp only [h2, hm] at h1
          split at h1
          · cases h1; exact Or.inl (Or.inl (by simp))
          · cases h1
            rcases ht with (ht | ⟨h3, ht | ht | ⟨c, hc, -⟩⟩) | ht
            · exact Or.inl (Or.inl ht)
            · exact Or.inl (Or.inr ⟨h3, Or.inl ht⟩)
            · exact Or.inl (Or.inr ⟨h3, Or.inr (Or.inl ht)⟩)
            · rw [hm] at hc; cases hc
            · exact Or.inr ht
    | _ => cases hc

theorem tainted_build {b : B} (h : b.Tainted) : Refused b.build := by
  cases b with
  | base b => exact Base.Tainted.build h
  | ret r =>
    simp only [B.build, RetB.build]
    split
    · trivial
    · rename_i b he hb
      rcases h with h | ⟨b1, h1, hbe, h⟩
      · exact absurd he h
      · rw [hb] at h1
        cases h1
        exact h.buildImpl hbe _
    · trivial
  | upd x =>
    simp only [B.build, UpdB.build]
    split
    · trivial
    · rename_i he
      rcases h with ⟨h, -⟩ | ⟨b, h1, hbe, h⟩
      · exact absurd he h
      · cases hx : x.next with
        | panic => trivial
        | ok b1 =>
          refine (UpdB.next_tainted (Or.inr ⟨b, h1, hbe, h⟩) hx).buildImpl ?_ _
          simp only [UpdB.next, h1] at hx
          split at hx
          · rename_i h2 h3
            cases h2
            cases hx
            simp only [Base.addClause, Base.closeMatch]
            split <;> exact hbe
          · cases hx
  | standalone c n => exact h.elim
  | _ => trivial

theorem tainted_all {b : B} (h : b.Tainted) (cs : List Call) : Refused ((execAll u b cs).bind B.build) := by
  induction cs generalizing b with
  | nil => exact tainted_build h
  | cons c cs ih =>
    simp only [execAll]
    cases hx : exec u b c with
    | panic => trivial
    | ok b' => exact ih (tainted_step h c hx)

/-! ### Calls that are given something erroneous -/

theorem args_err {a : Args} (h : BadArgs a) : firstErr [a.namedErr, errsOf (a.vals u)] ≠ none := by
  intro hn
  rw [firstErr_none_iff] at hn
  cases a with
  | exprs xs =>
    obtain ⟨x, hx, he⟩ := h
    exact Base.errsOf_some hx he (hn _ (by simp [Args.vals]))
  | strings xs => exact h
  | nameds xs =>
    obtain ⟨n, hx, he⟩ := h
    obtain ⟨e, h1⟩ := Base.firstErr_some (xs := xs.map (·.err)) (List.mem_map_of_mem hx) he
    have := hn (Args.namedErr (.nameds xs)) (by simp)
    simp [Args.namedErr, h1] at this

/-- The names carry errors if they are not forgotten. -/
theorem vals_err {a : Args} (h : BadArgs a) (hf : ¬ Forgets a) : errsOf (a.vals u) ≠ none := by
  cases a with
  | exprs xs =>
    obtain ⟨x, hx, he⟩ := h
    exact Base.errsOf_some hx he
  | strings xs => exact h.elim
  | nameds xs =>
    intro hn
    rw [errsOf_none_iff] at hn
    exact hf fun n hx => hn n.sym (by simp only [Args.vals]; exact List.mem_map_of_mem hx)

namespace Base

theorem with_bad {b : Base} (ks : WithKeys) (d : Bool) {a : Args} (h : firstErr [a.namedErr, errsOf (a.vals u)] ≠ none) : B.Tainted (.with_ (b.with_ u ks d a)) := by
  rw [Base.with_]
  split
  · intro x hx; cases hx
  · rename_i he
    exact (h ((firstErr_none_iff _).2 fun x hx => (firstErr_none_iff _).1 he x (by simp at hx ⊢; exact Or.inr hx))).elim

theorem returning_bad {b : Base} (k ko : Key) (d : Bool) {a : Args} (h : firstErr [a.namedErr, errsOf (a.vals u)] ≠ none) : B.Tainted (.ret (b.returning u k ko d a)) := by
  rw [Base.returning]
  split
  · exact Or.inl (by simp)
  · rename_i he
    exact (h ((firstErr_none_iff _).2 fun x hx => (firstErr_none_iff _).1 he x (by simp at hx ⊢; exact Or.inr hx))).elim

theorem openUpdate_bad {b : Base} (t : UpdType) (ks : UpdKeys) {a : Args} (h : firstErr [a.namedErr, errsOf (a.vals u)] ≠ none) : (b.openUpdate u t ks a).Tainted := by
  rw [Base.openUpdate]
  split
  · exact dead_tainted _
  · rename_i he
    exact (h ((firstErr_none_iff _).2 fun x hx => (firstErr_none_iff _).1 he x (by simp at hx ⊢; exact Or.inr hx))).elim

theorem updB_bad {b : Base} (t : UpdType) (ks : UpdKeys) {xs : List Val} (h : errsOf xs ≠ none) : B.Tainted (.upd (b.updB t ks xs)) := by
  rw [Base.updB]
  split
  · exact Or.inl ⟨by simp, rfl⟩
  · rename_i he
    exact (h ((firstErr_none_iff _).1 he _ (by simp))).elim

theorem set_bad {b : Base} (ks : UpdKeys) {xs : List Val} (h : errsOf xs ≠ none) : B.Tainted (b.set ks xs) := by
  rw [Base.set]
  split
  · exact dead_tainted _
  · rename_i he
    exact (h ((firstErr_none_iff _).1 he _ (by simp))).elim

theorem update2_bad {b : Base} (t : UpdType) (ks : UpdKeys) {c : Option Err} (xs : List Val) (h : c ≠ none) : B.Tainted (b.update2 t ks c xs) := by
  rw [Base.update2]
  split
  · exact dead_tainted _
  · rename_i he
    exact (h ((firstErr_none_iff _).1 he _ (by simp))).elim

theorem exec_bad {b : Base} {c : Call} (h : BadCall c) (hu : ¬ Unchecked (.base b) c) {b' : B} (hc : execBase u b c = .ok b') : b'.Tainted := by
  cases c with
  | match_ k kw o ps =>
    obtain ⟨x, hx, he⟩ := h
    cases hc
    simp only [B.Tainted, Base.match_]
    split
    · exact dead_tainted _
    · rename_i hn
      exact (errsOf_some hx he ((firstErr_none_iff _).1 hn _ (by simp))).elim
  | where_ c =>
    cases hc
    simp only [B.Tainted, Base.where_]
    split
    · exact dead_tainted _
    · rename_i hn
      exact (h ((firstErr_none_iff _).1 hn _ (by simp))).elim
  | and ks c => exact (hu trivial).elim
  | or ks c =>
    simp only [execBase, Base.or] at hc
    split at hc
    · cases hc; exact dead_tainted _
    · rename_i hn
      exact (h ((firstErr_none_iff _).1 hn _ (by simp))).elim
  | with_ ks d a => cases hc; exact with_bad _ _ (args_err h)
  | returning k ko d a => cases hc; exact returning_bad _ _ _ (args_err h)
  | delete ks d a => cases hc; exact openUpdate_bad _ _ (args_err h)
  | create ks ps => cases hc; exact openUpdate_bad _ _ (args_err h)
  | merge ks ps => cases hc; exact openUpdate_bad _ _ (args_err h)
  | set ks xs =>
    obtain ⟨x, hx, he⟩ := h
    cases hc
    exact set_bad _ (errsOf_some hx he)
  | setNamed ks n x =>
    cases hc
    rw [Base.setNamed]
    split
    · exact dead_tainted _
    · rename_i hn
      rw [firstErr_none_iff] at hn
      rcases h with h | h
      · exact (h (hn _ (by simp))).elim
      · exact (h (hn _ (by simp))).elim
  | setLabels ks g ko kl kls n ls => cases hc; exact update2_bad _ _ _ h
  | removeLabels ks g ko kl kls n ls => cases hc; exact update2_bad _ _ _ h
  | remove ks xs =>
    obtain ⟨x, hx, he⟩ := h
    cases hc
    exact update2_bad _ _ _ (errsOf_some hx he)
  | unwind x =>
    cases hc
    simp only [B.Tainted, Base.unwind]
    split
    · intro y hy; cases hy
    · rename_i hn
      exact (h ((firstErr_none_iff _).1 hn _ (by simp))).elim
  | callStmt k s =>
    cases hc
    simp only [B.Tainted, Base.callStmt]
    split
    · exact dead_tainted _
    · rename_i hn
      exact (h ((firstErr_none_iff _).1 hn _ (by simp))).elim
  | on t => exact h.elim
  | callProc kc ka kw k kn name => exact h.elim
  | _ => cases hc

/-- A DELETE of something erroneous, without check. -/
theorem update_bad {b : Base} (d : Bool) (ks : UpdKeys) {xs : List Val} (h : errsOf xs ≠ none) : (b.update (.delete d) ks xs).Tainted := by
  have hc : ∀ b : Base, b.closeCall.err ≠ none ∨ b.closeCall.ocall = none := by
    intro b
    rw [Base.closeCall.eq_def]
    split
    · rename_i hn; exact Or.inr hn
    · split
      · exact Or.inl (by simp)
      · exact Or.inr rfl
  have hu : ∀ b : Base, b.closeUpdate.err = b.err ∧ b.closeUpdate.ocall = b.ocall := by
    intro b
    rw [Base.closeUpdate.eq_def]
    split <;> exact ⟨rfl, rfl⟩
  simp only [Base.update, updBuilder]
  rcases hc b.closeMatch with h1 | h1
  · exact Or.inl (Or.inl (by rw [(hu _).1]; exact h1))
  · refine Or.inl (Or.inr ⟨(fun c hc => by rw [(hu _).2, h1] at hc; cases hc), Or.inr (Or.inr ⟨_, rfl, ?_⟩)⟩)
    simp only [updateClause, expressionList]
    cases he : errsOf xs with
    | none => exact (h he).elim
    | some e => simp [Val.bad]

end Base

/-- Builders that calls lead to: a `DefaultStatementWithUpdateBuilder` with an error has nothing else
(default_statement_with_update.go:13-18), and a call in the middle of a query is no standalone call. -/
def B.Wf : B → Prop
  | .upd x => x.err ≠ none → x.base = none
  | .inCall i => ∀ c, i.call = some c → c.standalone = false
  | _ => True

theorem Base.updB_wf (b : Base) (t : UpdType) (ks : UpdKeys) (xs : List Val) : B.Wf (.upd (b.updB t ks xs)) := by
  rw [Base.updB]
  split
  · exact fun _ => rfl
  · split
    · exact fun _ => rfl
    · exact fun h => absurd rfl h

theorem Base.set_wf (b : Base) (ks : UpdKeys) (xs : List Val) : B.Wf (b.set ks xs) := by
  rw [Base.set]
  split
  · trivial
  · exact Base.updB_wf _ _ _ _

theorem Base.update2_wf (b : Base) (t : UpdType) (ks : UpdKeys) (c : Option Err) (xs : List Val) : B.Wf (b.update2 t ks c xs) := by
  rw [Base.update2]
  split
  · trivial
  · exact Base.updB_wf _ _ _ _

theorem Base.exec_wf {b : Base} {c : Call} {b' : B} (hc : execBase u b c = .ok b') : b'.Wf := by
  cases c with
  | set => cases hc; exact Base.set_wf ..
  | setNamed =>
    cases hc
    rw [Base.setNamed]
    split
    · trivial
    · exact Base.set_wf ..
  | setLabels => cases hc; exact Base.update2_wf ..
  | removeLabels => cases hc; exact Base.update2_wf ..
  | remove => cases hc; exact Base.update2_wf ..
  | and => obtain ⟨_, -, rfl⟩ := Outcome.map_ok hc; trivial
  | or => obtain ⟨_, -, rfl⟩ := Outcome.map_ok hc; trivial
  | callProc =>
    obtain ⟨i, hi, rfl⟩ := Outcome.map_ok hc
    simp only [Base.callProc] at hi
    split at hi
    · cases hi; exact fun c hc => by cases hc
    · obtain ⟨p, -, rfl⟩ := Outcome.map_ok hi
      exact fun c hc => by cases hc; rfl
  | _ => first | (cases hc; trivial) | cases hc

theorem wf_step {b : B} (h : b.Wf) {c : Call} {b' : B} (hc : exec u b c = .ok b') : b'.Wf := by
  cases b with
  | base b => exact Base.exec_wf hc
  | with_ w =>
    cases c <;> simp only [exec, execWith] at hc <;> first
      | (obtain ⟨b1, h1, h2⟩ := Outcome.bind_ok hc; exact Base.exec_wf h2)
      | (cases hc; trivial)
      | (obtain ⟨b1, h1, rfl⟩ := Outcome.map_ok hc; trivial)
      | cases hc
  | ret r => cases c <;> simp only [exec, execRet] at hc <;> first | (cases hc; trivial) | cases hc
  | upd x =>
    cases c with
    | returning k ko d a =>
      simp only [exec, execUpd] at hc
      cases hc
      split <;> exact h
    | removeLabels ks g ko kl kls n ls =>
      simp only [exec, execUpd] at hc
      split at hc
      · cases hc; exact h
      · obtain ⟨b1, h1, rfl⟩ := Outcome.map_ok hc
        exact Base.updB_wf _ _ _ _
    | with_ ks d a => obtain ⟨b1, h1, rfl⟩ := Outcome.map_ok hc; trivial
    | delete ks d a => obtain ⟨b1, h1, rfl⟩ := Outcome.map_ok hc; trivial
    | merge ks ps => obtain ⟨b1, h1, rfl⟩ := Outcome.map_ok hc; trivial
    | create ks ps => obtain ⟨b1, h1, rfl⟩ := Outcome.map_ok hc; trivial
    | _ =>
      simp only [exec, execUpd] at hc
      first
        | (cases hc; exact h)
        | (obtain ⟨b1, h1, rfl⟩ := Outcome.map_ok hc; exact Base.updB_wf _ _ _ _)
        | cases hc
  | unwind x =>
    cases c with
    | as k kn name =>
      simp only [exec, execUnwind] at hc
      split at hc
      · cases hc; trivial
      · cases hc
    | _ => cases hc
  | inCall i =>
    cases c with
    | where_ x => obtain ⟨b1, h1, rfl⟩ := Outcome.map_ok hc; trivial
    | returning k ko d a => obtain ⟨b1, h1, h2⟩ := Outcome.bind_ok hc; exact Base.exec_wf h2
    | with_ ks d a => obtain ⟨b1, h1, h2⟩ := Outcome.bind_ok hc; exact Base.exec_wf h2
    | callStmt k s => obtain ⟨b1, h1, h2⟩ := Outcome.bind_ok hc; exact Base.exec_wf h2
    | args xs =>
      cases hc
      intro c hc
      cases hi : i.call with
      | none => simp [hi] at hc
      | some d => simp [hi] at hc; subst hc; exact h d hi
    | yield ky xs =>
      cases hc
      intro c hc
      cases hi : i.call with
      | none => simp [hi] at hc
      | some d => simp [hi] at hc; subst hc; exact h d hi
    | _ => cases hc
  | standalone i n =>
    cases c with
    | returning k ko d a => simp only [exec, execStandalone] at hc; exact Base.exec_wf hc
    | with_ ks d a => simp only [exec, execStandalone] at hc; exact Base.exec_wf hc
    | callStmt k s => simp only [exec, execStandalone] at hc; exact Base.exec_wf hc
    | _ => first | (cases hc; trivial) | cases hc
  | action a =>
    cases c with
    | actionSet k kset kl ks xs => obtain ⟨b1, h1, rfl⟩ := Outcome.map_ok hc; trivial
    | _ => cases hc

theorem wf_all (cs : List Call) {b : B} (h : b.Wf) {b' : B} (hc : execAll u b cs = .ok b') : b'.Wf := by
  induction cs generalizing b with
  | nil => cases hc; exact h
  | cons c cs ih =>
    obtain ⟨b1, h1, h2⟩ := Outcome.bind_ok hc
    exact ih (wf_step h h1) h2

/-- A call that is given something erroneous, and is checked, gives a tainted builder. -/
theorem bad_step {b : B} (hw : b.Wf) {c : Call} (h : BadCall c) (hu : ¬ Unchecked b c) {b' : B} (hc : exec u b c = .ok b') : b'.Tainted := by
  have hvals : ∀ {a : Args}, BadArgs a → ¬ Forgets a → firstErr [Args.namedErr (.exprs (a.vals u)), errsOf (Args.vals u (.exprs (a.vals u)))] ≠ none := by
    intro a h hf
    refine args_err (u := u) ?_
    have := vals_err (u := u) h hf
    rw [ne_eq, errsOf_none_iff] at this
    simpa [BadArgs] using this
  cases b with
  | base b => exact Base.exec_bad h hu hc
  | with_ w =>
    cases c with
    | with_ ks d a => obtain ⟨b1, -, h2⟩ := Outcome.bind_ok hc; cases h2; exact Base.with_bad _ _ (hvals h hu)
    | returning k ko d a => obtain ⟨b1, -, h2⟩ := Outcome.bind_ok hc; cases h2; exact Base.returning_bad _ _ _ (hvals h hu)
    | delete ks d a => obtain ⟨b1, -, h2⟩ := Outcome.bind_ok hc; cases h2; exact Base.openUpdate_bad _ _ (hvals h hu)
    | setNamed ks n x =>
      obtain ⟨b1, -, h2⟩ := Outcome.bind_ok hc
      cases h2
      refine Base.set_bad _ ?_
      rw [ne_eq, errsOf_none_iff]
      intro hn
      exact hu ⟨hn _ (by simp), hn _ (by simp)⟩
    | where_ c => exact (hu trivial).elim
    | and ks c => exact (hu trivial).elim
    | or ks c => exact (hu trivial).elim
    | orderItems xs => exact (hu trivial).elim
    | orderBy k x => exact (hu trivial).elim
    | andBy k x => exact (hu trivial).elim
    | args xs => exact (hu trivial).elim
    | yield ky xs => exact (hu trivial).elim
    | asc k => exact h.elim
    | desc => exact h.elim
    | skip => exact h.elim
    | limit => exact h.elim
    | on t => cases hc
    | as => exact h.elim
    | callProc => exact h.elim
    | actionSet => obtain ⟨b1, -, h2⟩ := Outcome.bind_ok hc; cases h2
    | _ => obtain ⟨b1, -, h2⟩ := Outcome.bind_ok hc; exact Base.exec_bad h (by simp [Unchecked]) h2
  | ret r =>
    cases c with
    | orderItems xs => exact (hu trivial).elim
    | orderBy k x => exact (hu trivial).elim
    | andBy k x => exact (hu trivial).elim
    | asc k => exact h.elim
    | desc => exact h.elim
    | skip => exact h.elim
    | limit => exact h.elim
    | _ => cases hc
  | upd x =>
    cases c with
    | orderItems xs => exact (hu trivial).elim
    | orderBy k x => exact (hu trivial).elim
    | andBy k x => exact (hu trivial).elim
    | asc k => exact h.elim
    | desc => exact h.elim
    | skip => exact h.elim
    | limit => exact h.elim
    | returning => exact (hu trivial).elim
    | with_ ks d a => obtain ⟨b1, -, rfl⟩ := Outcome.map_ok hc; exact Base.with_bad _ _ (hvals h hu)
    | delete ks d a => obtain ⟨b1, -, rfl⟩ := Outcome.map_ok hc; exact Base.update_bad _ _ (vals_err h hu)
    | merge ks ps => obtain ⟨b1, -, rfl⟩ := Outcome.map_ok hc; exact Base.openUpdate_bad _ _ (args_err h)
    | create ks ps => obtain ⟨b1, -, rfl⟩ := Outcome.map_ok hc; exact Base.openUpdate_bad _ _ (args_err h)
    | set ks xs =>
      obtain ⟨y, hy, he⟩ := h
      obtain ⟨b1, -, rfl⟩ := Outcome.map_ok hc
      exact Base.updB_bad _ _ (Base.errsOf_some hy he)
    | remove ks xs =>
      obtain ⟨y, hy, he⟩ := h
      obtain ⟨b1, -, rfl⟩ := Outcome.map_ok hc
      exact Base.updB_bad _ _ (Base.errsOf_some hy he)
    | setNamed ks n v =>
      obtain ⟨b1, -, rfl⟩ := Outcome.map_ok hc
      refine Base.updB_bad _ _ ?_
      rw [ne_eq, errsOf_none_iff]
      intro hn
      exact hu ⟨hn _ (by simp), hn _ (by simp)⟩
    | setLabels ks g ko kl kls n ls =>
      obtain ⟨b1, -, rfl⟩ := Outcome.map_ok hc
      refine Base.updB_bad _ _ ?_
      cases he : n.err with
      | none => exact (h he).elim
      | some e => simp [labelOperation, he, errsOf, firstErr, Val.bad]
    | removeLabels ks g ko kl kls n ls =>
      simp only [exec, execUpd] at hc
      split at hc
      · rename_i e he
        cases hc
        exact Or.inl ⟨by simp [he], hw (by simp [he])⟩
      · obtain ⟨b1, -, rfl⟩ := Outcome.map_ok hc
        refine Base.updB_bad _ _ ?_
        cases he : n.err with
        | none => exact (h he).elim
        | some e => simp [labelOperation, he, errsOf, firstErr, Val.bad]
    | _ => cases hc
  | unwind x => cases c <;> first | exact h.elim | cases hc
  | inCall i =>
    cases c with
    | with_ ks d a => obtain ⟨b1, -, h2⟩ := Outcome.bind_ok hc; cases h2; exact Base.with_bad _ _ (hvals h hu)
    | returning k ko d a => obtain ⟨b1, -, h2⟩ := Outcome.bind_ok hc; cases h2; exact Base.returning_bad _ _ _ (hvals h hu)
    | callStmt k s => obtain ⟨b1, -, h2⟩ := Outcome.bind_ok hc; exact Base.exec_bad h (by simp [Unchecked]) h2
    | where_ c => exact (hu trivial).elim
    | args xs => exact (hu trivial).elim
    | yield ky xs => exact (hu trivial).elim
    | _ => cases hc
  | standalone i n =>
    cases c with
    | with_ ks d a => cases hc; exact Base.with_bad _ _ (hvals h hu)
    | returning k ko d a => cases hc; exact Base.returning_bad _ _ _ (hvals h hu)
    | callStmt k s => exact Base.exec_bad (u := u) h (by simp [Unchecked]) hc
    | where_ c => exact (hu trivial).elim
    | args xs => exact (hu trivial).elim
    | yield ky xs => exact (hu trivial).elim
    | _ => cases hc
  | action a =>
    cases c with
    | actionSet k kset kl ks xs =>
      obtain ⟨x, hx, he⟩ := h
      obtain ⟨b1, h1, rfl⟩ := Outcome.map_ok hc
      simp only [ActionB.set] at h1
      split at h1
      · cases h1; exact Base.dead_tainted _
      · rename_i hn
        exact (Base.errsOf_some hx he ((firstErr_none_iff _).1 hn _ (by simp))).elim
    | _ => cases hc

/-- A call in the middle of a query with erroneous arguments, once something follows it. -/
theorem args_step {i : InCallB} (hw : B.Wf (.inCall i)) {xs : List Val} {x : Val} (hx : x ∈ xs) (he : x.err ≠ none)
    (hi : ∀ c, i.call = some c → c.args = some xs) {d : Call} (hd : (∀ ys, d ≠ .args ys) ∧ ∀ ky ys, d ≠ .yield ky ys) {b' : B} (hc : exec u (.inCall i) d = .ok b') :
    b'.Tainted := by
  have hbad : ∀ c, i.call = some c → c.Bad := by
    intro c hc
    refine ⟨hw c hc, ?_⟩
    have hn : xs ≠ [] := by intro h; rw [h] at hx; cases hx
    simp only [CallB.arguments, hi c hc]
    simp only [errOf, argumentsCreate]
    split
    · simp [Val.bad]
    · rename_i hn; exact (Base.errsOf_some hx he hn).elim
  have hnext : ∀ b, i.next = .ok b → b.Tainted := by
    intro b hb
    simp only [InCallB.next] at hb
    split at hb
    · rename_i b1 c h1 h2
      cases hb
      exact Or.inr ⟨c, rfl, hbad c h2⟩
    · cases hb
  cases d with
  | args ys => exact (hd.1 ys rfl).elim
  | yield ky ys => exact (hd.2 ky ys rfl).elim
  | where_ y =>
    obtain ⟨b1, h1, rfl⟩ := Outcome.map_ok hc
    cases hb : i.base with
    | none => simp [InCallB.next, hb] at h1
    | some b =>
      cases hj : i.call with
      | none => simp [InCallB.next, hb, hj] at h1
      | some c =>
        simp only [InCallB.next, hb, hj, Option.map_some] at h1
        cases h1
        exact Or.inr ⟨_, rfl, (hbad c hj).1, (hbad c hj).2⟩
  | returning k ko e a => obtain ⟨b1, h1, h2⟩ := Outcome.bind_ok hc; exact (hnext b1 h1).exec _ h2
  | with_ ks e a => obtain ⟨b1, h1, h2⟩ := Outcome.bind_ok hc; exact (hnext b1 h1).exec _ h2
  | callStmt k s => obtain ⟨b1, h1, h2⟩ := Outcome.bind_ok hc; exact (hnext b1 h1).exec _ h2
  | _ => cases hc

end Verif
