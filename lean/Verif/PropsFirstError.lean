import Verif.PropsErrorsExact

/-
C71: of several errors, the first is reported.
-/

namespace Verif
namespace Spec

variable (u : Unicode)

/-- `e` is the first error of a sequence of parts, each of which may have one. -/
def First (xs : List (Option Err)) (e : Err) : Prop := ∃ a b, xs = a ++ some e :: b ∧ ∀ x ∈ a, x = none

/-- The errors of what is given by name itself, as opposed to its name. -/
def nodeErrs : Args → List (Option Err)
  | .nameds ns => ns.map (·.err)
  | _ => []

/-- The errors of expressions, names, or things given by name. -/
def itemErrs (i : Iface) (a : Args) : List (Option Err) := (if i.isPlain then nodeErrs a else []) ++ (a.vals u).map (·.err)

/-- The errors that a call looks at, in the order of its arguments, where `i` is the type of the receiver.  `WithArgs`, and `Delete` after
SET or REMOVE, look at them later. -/
def looked (i : Iface) : Call → List (Option Err)
  | .match_ _ _ _ xs | .create _ xs | .merge _ xs | .set _ xs | .remove _ xs | .actionSet _ _ _ _ xs => xs.map (·.err)
  | .where_ c => if i = .readingNoWhere then [c.toVal.err] else []
  | .or _ c => if i = .readingWhere then [c.toVal.err] else []
  | .with_ _ _ a => itemErrs u i a
  | .delete _ _ a | .returning _ _ _ a => if i = .updated then [] else itemErrs u i a
  | .setNamed _ n x => if i.isWith then [n.req.err, x.err] else if i = .updated then [n.sym.err, x.err] else [n.err, x.err, n.sym.err]
  | .setLabels _ _ _ _ _ n _ | .removeLabels _ _ _ _ _ n _ => [n.err]
  | .unwind x => [x.err]
  | .callStmt _ s => [s.err]
  | _ => []

/-- After these calls, the next clause needs a builder that an error leaves out. -/
def opens : Call → Bool
  | .with_ .. | .unwind .. | .callProc .. => true
  | _ => false

/-- SET and REMOVE. -/
def sets : Call → Bool
  | .set .. | .setNamed .. | .setLabels .. | .removeLabels .. | .remove .. => true
  | _ => false

/-- The clauses that follow SET or REMOVE, except for `RemoveByNode`. -/
def follows : Call → Bool
  | .delete .. | .merge .. | .create .. | .set .. | .setNamed .. | .setLabels .. | .remove .. => true
  | _ => false

/-- Does the chain crash if the call, whose receiver has type `i`, is the first with an error? -/
def crashes (i : Iface) (c : Call) (rest : List Call) : Bool :=
  (c :: rest).any opens || (i == .updated && sets c && rest.any follows)

end Spec
open Spec

variable {u : Unicode}

theorem firstErr_iff (xs : List (Option Err)) (e : Err) : firstErr xs = some e ↔ First xs e := by
  induction xs with
  | nil => simp [firstErr, First]
  | cons x xs ih =>
    cases x with
    | some d =>
      constructor
      · rintro h
        cases h
        exact ⟨[], xs, rfl, by simp⟩
      · rintro ⟨a, b, h, ha⟩
        cases a with
        | nil => cases h; rfl
        | cons y a => cases h; cases ha _ (List.mem_cons_self ..)
    | none =>
      rw [firstErr, ih]
      constructor
      · rintro ⟨a, b, rfl, ha⟩
        exact ⟨none :: a, b, rfl, by simpa using ha⟩
      · rintro ⟨a, b, h, ha⟩
        cases a with
        | nil => cases h
        | cons y a => cases h; exact ⟨a, b, rfl, fun x hx => ha x (List.mem_cons_of_mem _ hx)⟩

theorem firstErr_append (xs ys : List (Option Err)) : firstErr (xs ++ ys) = firstErr [firstErr xs, firstErr ys] := by
  induction xs with
  | nil => cases h : firstErr ys <;> simp [firstErr, h]
  | cons x xs ih => cases x <;> simp [firstErr, ih]

theorem firstErr_prefix {xs : List (Option Err)} {e : Err} (h : firstErr xs = some e) (ys : List (Option Err)) : firstErr (xs ++ ys) = some e := by
  rw [firstErr_append, h]
  rfl

theorem firstErr_one (x : Option Err) : firstErr [x] = x := by cases x <;> rfl

theorem namedErr_eq (a : Args) : a.namedErr = firstErr (nodeErrs a) := by cases a <;> rfl

theorem items_first {i : Iface} (hi : i.isPlain = true) {a : Args} {e : Err} (h : First (itemErrs u i a) e) :
    firstErr [none, a.namedErr, errsOf (a.vals u)] = some e := by
  rw [← firstErr_iff, itemErrs, if_pos hi, firstErr_append] at h
  simpa [firstErr, namedErr_eq, errsOf] using h

theorem items_exprs (i : Iface) (hi : i.isPlain = false) (a : Args) : itemErrs u i a = itemErrs u .reading (.exprs (a.vals u)) := by
  rw [itemErrs, hi]
  simp [itemErrs, Args.vals, nodeErrs]

/-! ### After the error -/

/-- The builder has lost what the next clause needs. -/
def B.Gone : B → Prop
  | .with_ w => w.base = none
  | .unwind x => x.base = none
  | .inCall x => x.base = none
  | _ => False

theorem gone_step {b : B} (h : b.Gone) (c : Call) : exec u b c = .panic ∨ ∃ b', exec u b c = .ok b' ∧ b'.Gone := by
  cases b with
  | with_ w =>
    have hn : w.next = .panic := by rw [WithB.next, show w.base = none from h]
    have hc : ∀ ks o x, (combineOfGet ks w.cond o x).map (fun x => B.with_ { w with cond := some x }) = .panic ∨
        ∃ b', (combineOfGet ks w.cond o x).map (fun x => B.with_ { w with cond := some x }) = .ok b' ∧ b'.Gone := by
      intro ks o x
      cases combineOfGet ks w.cond o x with
      | panic => exact Or.inl rfl
      | ok y => exact Or.inr ⟨_, rfl, h⟩
    cases c <;> simp only [exec, execWith, hn, Outcome.bind, true_or] <;> first | exact hc _ _ _ | exact Or.inr ⟨_, rfl, h⟩
  | unwind x =>
    have hb : x.base = none := h
    cases c <;> simp [exec, execUnwind, hb]
  | inCall x =>
    have hn : ∀ y : InCallB, y.base = x.base → y.next = .panic := by
      intro y hy
      rw [InCallB.next, hy, show x.base = none from h]
    cases c <;> simp only [exec, execInCall, hn x rfl, Outcome.bind, true_or] <;> first | exact Or.inr ⟨_, rfl, h⟩ | skip
    refine Or.inl ?_
    have := fun y => hn { x with call := y } rfl
    simp only [this, Outcome.map]
  | _ => cases h

theorem gone_all (cs : List Call) {b : B} (h : b.Gone) : (execAll u b cs).bind B.build = .panic := by
  induction cs generalizing b with
  | nil => cases b <;> first | rfl | cases h
  | cons c cs ih =>
    rcases gone_step (u := u) h c with hp | ⟨b', hp, hg⟩
    · simp [execAll, hp, Outcome.bind]
    · simp only [execAll, hp, Outcome.bind]
      exact ih hg

/-- The types of a builder that holds a RETURN. -/
def Iface.isRet (i : Iface) : Prop := i = .ret ∨ i = .retOrder ∨ i = .retSort ∨ i = .retSkip ∨ i = .buildable

/-- The builder remembers the error. -/
def DeadAt (e : Err) (i : Iface) : B → Prop
  | .base b => b.err = some e ∧ (i.isPlain = true ∨ i = .updated)
  | .ret r => r.err = some e ∧ i.isRet
  | .action a => a.err = some e ∧ i = .mergeAction
  | _ => False

/-- A SET or REMOVE that remembers the error. -/
def DeadSet (e : Err) (i : Iface) : B → Prop
  | .upd x => x.err = some e ∧ x.base = none ∧ (i = .updated ∨ i.isRet)
  | _ => False

theorem retSig_step {i j : Iface} (hi : i.isRet) {c : Call} (hs : i.sig c = some j) :
    j.isRet ∧ match c with | .orderItems _ | .orderBy .. | .andBy .. | .asc _ | .desc | .skip .. | .limit .. => True | _ => False := by
  rcases hi with rfl | rfl | rfl | rfl | rfl <;> cases c <;> simp [Iface.sig, Iface.retNumSig] at hs <;> subst hs <;> simp [Iface.isRet]

theorem dead_exec (b : Base) {e : Err} (hb : b.err = some e) {c : Call} {i j : Iface} (hi : i.isPlain = true ∨ i = .updated) (hs : i.sig c = some j) :
    ∃ b', execBase u b c = .ok b' ∧ if opens c then b'.Gone else DeadAt e j b' := by
  have hj : ∀ k, clauseType c = some k → j = k := fun k hk => sig_clause hs hk
  cases c with
  | match_ => cases hj _ rfl; simp [execBase, Base.match_, hb, firstErr, opens, DeadAt, Base.dead, Iface.isPlain]
  | where_ x =>
    have : j = .readingWhere := by
      rcases hi with hi | rfl
      · cases i <;> simp_all [Iface.isPlain, Iface.sig, Iface.readingSig, Iface.resultSig, Iface.updateSig, Iface.setSig, Iface.matchSig]
      · simp [Iface.sig, Iface.resultSig, Iface.updateSig, Iface.setSig] at hs
    subst this
    simp [execBase, Base.where_, hb, firstErr, opens, DeadAt, Base.dead, Iface.isPlain]
  | and ks x =>
    have : j = .readingWhere := by
      rcases hi with hi | rfl
      · cases i <;> simp_all [Iface.isPlain, Iface.sig, Iface.readingSig, Iface.resultSig, Iface.updateSig, Iface.setSig, Iface.matchSig]
      · simp [Iface.sig, Iface.resultSig, Iface.updateSig, Iface.setSig] at hs
    subst this
    simp [execBase, Base.and, hb, opens, DeadAt, Base.dead, Iface.isPlain, Outcome.map]
  | or ks x =>
    have : j = .readingWhere := by
      rcases hi with hi | rfl
      · cases i <;> simp_all [Iface.isPlain, Iface.sig, Iface.readingSig, Iface.resultSig, Iface.updateSig, Iface.setSig, Iface.matchSig]
      · simp [Iface.sig, Iface.resultSig, Iface.updateSig, Iface.setSig] at hs
    subst this
    simp [execBase, Base.or, hb, firstErr, opens, DeadAt, Base.dead, Iface.isPlain, Outcome.map]
  | with_ => cases hj _ rfl; simp [execBase, Base.with_, hb, firstErr, opens, B.Gone]
  | returning => cases hj _ rfl; simp [execBase, Base.returning, hb, firstErr, opens, DeadAt, Iface.isRet]
  | delete => cases hj _ rfl; simp [execBase, Base.openUpdate, hb, firstErr, opens, DeadAt, Base.dead, Iface.isPlain]
  | create => cases hj _ rfl; simp [execBase, Base.openUpdate, hb, firstErr, opens, DeadAt, Base.dead, Iface.isPlain]
  | merge => cases hj _ rfl; simp [execBase, Base.openUpdate, hb, firstErr, opens, DeadAt, Base.dead, Iface.isPlain]
  | set => cases hj _ rfl; simp [execBase, Base.set, hb, firstErr, opens, DeadAt, Base.dead]
  | setNamed => cases hj _ rfl; simp [execBase, Base.setNamed, hb, firstErr, opens, DeadAt, Base.dead]
  | setLabels => cases hj _ rfl; simp [execBase, Base.update2, hb, firstErr, opens, DeadAt, Base.dead]
  | removeLabels => cases hj _ rfl; simp [execBase, Base.update2, hb, firstErr, opens, DeadAt, Base.dead]
  | remove => cases hj _ rfl; simp [execBase, Base.update2, hb, firstErr, opens, DeadAt, Base.dead]
  | on => cases hj _ rfl; simp [execBase, Base.on, hb, opens, DeadAt]
  | unwind => cases hj _ rfl; simp [execBase, Base.unwind, hb, firstErr, opens, B.Gone]
  | callStmt => cases hj _ rfl; simp [execBase, Base.callStmt, hb, firstErr, opens, DeadAt, Base.dead, Iface.isPlain]
  | callProc => cases hj _ rfl; simp [execBase, Base.callProc, hb, opens, B.Gone, Outcome.map]
  | _ =>
    exfalso
    rcases hi with hi | rfl
    · cases i <;> simp_all [Iface.isPlain, Iface.sig, Iface.readingSig, Iface.resultSig, Iface.updateSig, Iface.setSig, Iface.matchSig]
    · simp [Iface.sig, Iface.resultSig, Iface.updateSig, Iface.setSig] at hs

theorem dead_step {b : B} {e : Err} {i j : Iface} (h : DeadAt e i b) {c : Call} (hs : i.sig c = some j) :
    ∃ b', exec u b c = .ok b' ∧ if opens c then b'.Gone else DeadAt e j b' := by
  cases b with
  | base b => exact dead_exec b h.1 h.2 hs
  | ret r =>
    obtain ⟨h1, h2⟩ := retSig_step h.2 hs
    cases c <;> simp only at h2 <;> exact ⟨_, rfl, by simpa [opens, DeadAt] using ⟨h.1, h1⟩⟩
  | action a =>
    obtain ⟨h1, rfl⟩ := h
    cases c <;> simp [Iface.sig] at hs
    subst hs
    simp [exec, execAction, ActionB.set, h1, firstErr, Outcome.map, opens, DeadAt, Base.dead, Iface.isPlain]
  | _ => cases h

theorem dead_all (cs : List Call) {b : B} {e : Err} {i j : Iface} (h : DeadAt e i b) (ht : i.typed cs = some j) (hb : j.builds = true) :
    (execAll u b cs).bind B.build = if cs.any opens then .panic else .ok (.error e) := by
  induction cs generalizing i b with
  | nil =>
    cases ht
    cases b with
    | base b => simp [execAll, Outcome.bind, B.build, Base.build, h.1]
    | ret r => simp [execAll, Outcome.bind, B.build, RetB.build, h.1]
    | action a => cases h.2; cases hb
    | _ => cases h
  | cons c cs ih =>
    simp only [Iface.typed, Option.bind_eq_some_iff] at ht
    obtain ⟨k, hk, ht⟩ := ht
    obtain ⟨b', h1, h2⟩ := dead_step (u := u) h hk
    have hx : (execAll u b (c :: cs)).bind B.build = (execAll u b' cs).bind B.build := by simp only [execAll, h1, Outcome.bind]
    rw [hx, List.any_cons]
    by_cases ho : opens c = true
    · rw [if_pos ho] at h2
      simpa [ho] using gone_all cs h2
    · rw [if_neg ho] at h2
      simpa [ho] using ih h2 ht

theorem deadSet_all (cs : List Call) {b : B} {e : Err} {i j : Iface} (h : DeadSet e i b) (ht : i.typed cs = some j) :
    (execAll u b cs).bind B.build = if cs.any opens || cs.any follows then .panic else .ok (.error e) := by
  induction cs generalizing i b with
  | nil =>
    cases b with
    | upd x => simp [execAll, Outcome.bind, B.build, UpdB.build, h.1]
    | _ => cases h
  | cons c cs ih =>
    simp only [Iface.typed, Option.bind_eq_some_iff] at ht
    obtain ⟨k, hk, ht⟩ := ht
    cases b with
    | upd x =>
      obtain ⟨h1, h2, h3⟩ := h
      have hn : x.next = .panic := by simp [UpdB.next, h2]
      simp only [execAll]
      rcases h3 with rfl | h3
      · cases c <;> simp [Iface.sig, Iface.resultSig, Iface.updateSig, Iface.setSig] at hk <;>
          first
          | simp [exec, execUpd, hn, Outcome.map, Outcome.bind, opens, follows]; done
          | skip
        case returning k' ko d a =>
          subst hk
          simp only [exec, execUpd, Outcome.bind, List.any_cons, opens, follows, Bool.false_or]
          cases d <;> exact ih (show DeadSet e .ret (.upd _) from ⟨h1, h2, Or.inr (Or.inl rfl)⟩) ht
        case removeLabels ks g ko kl kls n ls =>
          subst hk
          simp only [exec, execUpd, h1, Outcome.bind, List.any_cons, opens, follows, Bool.false_or]
          exact ih (show DeadSet e .updated (.upd x) from ⟨h1, h2, Or.inl rfl⟩) ht
      · obtain ⟨h4, h5⟩ := retSig_step h3 hk
        cases c <;> simp only at h5 <;>
          (simp only [exec, execUpd, Outcome.bind, List.any_cons, opens, follows, Bool.false_or]
           exact ih (show DeadSet e k (.upd _) from ⟨h1, h2, Or.inr h4⟩) ht)
    | _ => cases h

/-! ### At the error -/

theorem base_first {b : Base} (hb : b.err = none) {e : Err} {c : Call} {k i : Iface} (hi : i.isPlain = true) (hk : clauseType c = some k) (h : First (looked u i c) e) :
    ∃ b', execBase u b c = .ok b' ∧ if opens c then b'.Gone else DeadAt e k b' := by
  have hn : ∀ {P : Prop}, First [] e → P := by
    rintro P ⟨a, b, h, -⟩
    cases a <;> cases h
  have hu : i ≠ .updated := by rintro rfl; cases hi
  have hw : i.isWith = false := by cases i <;> simp_all [Iface.isPlain, Iface.isWith]
  cases c with
  | match_ k' kw o xs => cases hk; rw [looked, ← firstErr_iff] at h; simp [execBase, Base.match_, hb, firstErr, errsOf, h, opens, DeadAt, Base.dead, Iface.isPlain]
  | with_ ks d a => cases hk; have := items_first hi (show First (itemErrs u i a) e from h); simp [execBase, Base.with_, hb, this, opens, B.Gone]
  | returning k' ko d a =>
    cases hk; rw [looked, if_neg hu] at h
    have := items_first hi h; simp [execBase, Base.returning, hb, this, opens, DeadAt, Iface.isRet]
  | delete ks d a =>
    cases hk; rw [looked, if_neg hu] at h
    have := items_first hi h; simp [execBase, Base.openUpdate, hb, this, opens, DeadAt, Base.dead, Iface.isPlain]
  | create ks xs => cases hk; rw [looked, ← firstErr_iff] at h; simp [execBase, Base.openUpdate, hb, firstErr, Args.namedErr, Args.vals, errsOf, h, opens, DeadAt, Base.dead, Iface.isPlain]
  | merge ks xs => cases hk; rw [looked, ← firstErr_iff] at h; simp [execBase, Base.openUpdate, hb, firstErr, Args.namedErr, Args.vals, errsOf, h, opens, DeadAt, Base.dead, Iface.isPlain]
  | set ks xs => cases hk; rw [looked, ← firstErr_iff] at h; simp [execBase, Base.set, hb, firstErr, errsOf, h, opens, DeadAt, Base.dead]
  | setNamed ks n x =>
    cases hk
    simp only [looked, hw, Bool.false_eq_true, if_false, if_neg hu, ← firstErr_iff] at h
    cases h1 : n.err with
    | some d => rw [h1] at h; cases h; simp [execBase, Base.setNamed, hb, firstErr, h1, opens, DeadAt, Base.dead]
    | none =>
      cases h2 : x.err with
      | some d => rw [h1, h2] at h; cases h; simp [execBase, Base.setNamed, hb, firstErr, h1, h2, opens, DeadAt, Base.dead]
      | none =>
        rw [h1, h2] at h
        simp only [firstErr] at h
        have h : n.sym.err = some e := by cases h3 : n.sym.err <;> simp_all [firstErr]
        simp [execBase, Base.setNamed, Base.set, hb, firstErr, errsOf, h1, h2, h, opens, DeadAt, Base.dead]
  | setLabels ks g ko kl kls n ls => cases hk; rw [looked, ← firstErr_iff, firstErr_one] at h; simp [execBase, Base.update2, hb, firstErr, h, opens, DeadAt, Base.dead]
  | removeLabels ks g ko kl kls n ls => cases hk; rw [looked, ← firstErr_iff, firstErr_one] at h; simp [execBase, Base.update2, hb, firstErr, h, opens, DeadAt, Base.dead]
  | remove ks xs => cases hk; rw [looked, ← firstErr_iff] at h; simp [execBase, Base.update2, hb, firstErr, errsOf, h, opens, DeadAt, Base.dead]
  | unwind x => cases hk; rw [looked, ← firstErr_iff, firstErr_one] at h; simp [execBase, Base.unwind, hb, firstErr, h, opens, B.Gone]
  | callStmt k' s => cases hk; rw [looked, ← firstErr_iff, firstErr_one] at h; simp [execBase, Base.callStmt, hb, firstErr, h, opens, DeadAt, Base.dead, Iface.isPlain]
  | on | callProc => exact hn h
  | _ => cases hk

theorem upd_bad {b : Base} (hb : b.err = none) (t : UpdType) (ks : UpdKeys) {xs : List Val} {e : Err} (h : errsOf xs = some e) :
    DeadSet e .updated (.upd (b.updB t ks xs)) := by
  simp [Base.updB, hb, firstErr, h, DeadSet]

/-- What is left after a call with an error. -/
def Left (e : Err) (i : Iface) (c : Call) (j : Iface) (b' : B) : Prop :=
  if opens c then b'.Gone else if i = .updated ∧ sets c = true then DeadSet e j b' else DeadAt e j b'

theorem first_nil {e : Err} {P : Prop} (h : First [] e) : P := by
  obtain ⟨a, b, h, -⟩ := h
  cases a <;> cases h

theorem left_of {e : Err} {i j : Iface} {c : Call} {b' : B} (hu : i ≠ .updated) (h : if opens c then b'.Gone else DeadAt e j b') : Left e i c j b' := by
  simpa [Left, hu] using h

/-- A plain builder and a call `d` that is made for `c`. -/
theorem first_plain {b : Base} (hb : b.err = none) {i j : Iface} {e : Err} (hu : i ≠ .updated) {c d : Call} (hs : i.sig c = some j) {i' : Iface} (hi' : i'.isPlain = true)
    (hd : clauseType d = clauseType c) (ho : opens d = opens c) (hc : (clauseType c).isSome = true) (hf : First (looked u i' d) e) :
    ∃ b', execBase u b d = .ok b' ∧ Left e i c j b' := by
  obtain ⟨k, hk⟩ := Option.isSome_iff_exists.1 hc
  obtain ⟨b', h1, h2⟩ := base_first hb hi' (hd.trans hk) hf
  rw [ho] at h2
  rw [sig_clause hs hk]
  exact ⟨b', h1, left_of hu h2⟩

theorem first_where {e : Err} {x : Cond} {b : Base} (hb : b.err = none) (hf : x.toVal.err = some e) :
    execBase u b (.where_ x) = .ok (.base (.dead e)) := by simp [execBase, Base.where_, hb, firstErr, hf]

theorem first_or {e : Err} {x : Cond} {b : Base} (hb : b.err = none) (hf : x.toVal.err = some e) (ks : Cond.Keys) :
    execBase u b (.or ks x) = .ok (.base (.dead e)) := by simp [execBase, Base.or, hb, firstErr, hf, Outcome.map]

theorem first_base {i j : Iface} {r : Pending} {b : Base} (h : i.Holds r (.base b)) {c : Call} {e : Err} (hf : First (looked u i c) e) (hs : i.sig c = some j) :
    ∃ b', exec u (.base b) c = .ok b' ∧ Left e i c j b' := by
  have hb : b.err = none ∧ i.isPlain = true := by
    rcases h with ⟨h1, h2, -⟩ | ⟨h1, h2, -⟩
    · refine ⟨h2.err, ?_⟩
      revert h1
      cases i <;> simp [Iface.isReading, Iface.isPlain]
    · refine ⟨h2.fine.err, ?_⟩
      rcases h1 with rfl | rfl | rfl <;> rfl
  have hu : i ≠ .updated := by rintro rfl; cases hb.2
  by_cases hc : (clauseType c).isSome = true
  · exact first_plain hb.1 hu hs hb.2 rfl rfl hc hf
  · cases c <;> simp [clauseType] at hc <;> first | exact first_nil hf | skip
    case where_ x =>
      simp only [looked] at hf
      split at hf
      · rename_i hi
        subst hi
        rw [← firstErr_iff, firstErr_one] at hf
        cases hs
        exact ⟨_, first_where (u := u) hb.1 hf, left_of hu (by simp [opens, DeadAt, Base.dead, Iface.isPlain])⟩
      · exact first_nil hf
    case or ks x =>
      simp only [looked] at hf
      split at hf
      · rename_i hi
        subst hi
        rw [← firstErr_iff, firstErr_one] at hf
        cases hs
        exact ⟨_, first_or (u := u) hb.1 hf ks, left_of hu (by simp [opens, DeadAt, Base.dead, Iface.isPlain])⟩
      · exact first_nil hf
    case actionSet =>
      have hi := hb.2
      clear h hf hb
      cases i <;> first | cases hi; done | cases hs

theorem first_with {i j : Iface} {r : Pending} {w : WithB} (h : i.Holds r (.with_ w)) {c : Call} {e : Err} (hf : First (looked u i c) e) (hs : i.sig c = some j) :
    ∃ b', exec u (.with_ w) c = .ok b' ∧ Left e i c j b' := by
  obtain ⟨hi, hw, -⟩ := h
  obtain ⟨b, hb, hb'⟩ := hw.next
  have hu : i ≠ .updated := by rintro rfl; cases hi
  have hp : i.isPlain = false := by revert hi; cases i <;> simp [Iface.isPlain, Iface.isWith]
  have hplain : ∀ {d : Call}, clauseType d = clauseType c → opens d = opens c → (clauseType c).isSome = true → First (looked u .reading d) e →
      exec u (.with_ w) c = execBase u b d → ∃ b', exec u (.with_ w) c = .ok b' ∧ Left e i c j b' := by
    intro d h1 h2 h3 h4 h5
    obtain ⟨b', h6, h7⟩ := first_plain hb'.err hu hs (i' := .reading) rfl h1 h2 h3 h4
    exact ⟨b', h5.trans h6, h7⟩
  cases c with
  | with_ ks d a => exact hplain (d := .with_ ks d (.exprs (a.vals u))) rfl rfl rfl (by rwa [looked, items_exprs i hp] at hf) (by simp only [exec, execWith, hb, Outcome.bind])
  | returning k ko d a =>
    rw [looked, if_neg hu, items_exprs i hp] at hf
    exact hplain (d := .returning k ko d (.exprs (a.vals u))) rfl rfl rfl hf (by simp only [exec, execWith, hb, Outcome.bind])
  | delete ks d a =>
    rw [looked, if_neg hu, items_exprs i hp] at hf
    exact hplain (d := .delete ks d (.exprs (a.vals u))) rfl rfl rfl hf (by simp only [exec, execWith, hb, Outcome.bind])
  | setNamed ks n x =>
    rw [looked, if_pos hi] at hf
    exact hplain (d := .set ks [n.req, x]) rfl rfl rfl hf (by simp only [exec, execWith, hb, Outcome.bind])
  | where_ => rw [looked, if_neg (by rintro rfl; cases hi)] at hf; exact first_nil hf
  | or => rw [looked, if_neg (by rintro rfl; cases hi)] at hf; exact first_nil hf
  | actionSet => clear hf hplain hp hu; cases i <;> first | cases hi; done | cases hs
  | match_ | create | merge | set | setLabels | removeLabels | remove | unwind | callStmt =>
    exact hplain rfl rfl rfl hf (by simp only [exec, execWith, hb, Outcome.bind])
  | _ => exact first_nil hf

theorem first_set {i j : Iface} {r : Pending} {x : UpdB} (h : i.Holds r (.upd x)) {c : Call} {e : Err} (hf : First (looked u i c) e) (hs : i.sig c = some j) :
    ∃ b', exec u (.upd x) c = .ok b' ∧ Left e i c j b' := by
  have hj : ∀ k, clauseType c = some k → j = k := fun k hk => sig_clause hs hk
  rcases h with ⟨rfl | h, hx⟩
  · obtain ⟨b, -, hb, hb', -⟩ := hx.next
    have upd : ∀ t ks {xs : List Val}, errsOf xs = some e → opens c = false → sets c = true → j = .updated → exec u (.upd x) c = x.next.map (fun b => .upd (b.updB t ks xs)) →
        ∃ b', exec u (.upd x) c = .ok b' ∧ Left e .updated c j b' := by
      intro t ks xs h1 h2 h3 h4 h5
      rw [hb] at h5
      refine ⟨_, h5, ?_⟩
      rw [Left, h2, h3, h4]
      exact upd_bad hb'.err t ks h1
    have create : ∀ t ks {xs : List Val}, errsOf xs = some e → opens c = false → sets c = false → j = .updateSet → exec u (.upd x) c = x.next.map (fun b => .base (b.openUpdate u t ks (.exprs xs))) →
        ∃ b', exec u (.upd x) c = .ok b' ∧ Left e .updated c j b' := by
      intro t ks xs h1 h2 h3 h4 h5
      rw [hb] at h5
      refine ⟨_, h5, ?_⟩
      rw [Left, h2, h3, h4]
      simp [Base.openUpdate, hb'.err, Args.namedErr, Args.vals, firstErr, h1, DeadAt, Base.dead, Iface.isPlain]
    have label : ∀ {g : Str} {ko kl : Key} {kls : Nat → Key} {n : NodeV} {ls : List Str}, First [n.err] e →
        errsOf [labelOperation u g ko kl kls .setLabel n ls] = some e := by
      intro g ko kl kls n ls h
      rw [← firstErr_iff, firstErr_one] at h
      simp [errsOf, labelOperation, h, Val.bad, firstErr]
    cases c with
    | with_ ks d a =>
      rw [looked, items_exprs _ rfl] at hf
      have := items_first rfl hf
      refine ⟨.with_ (b.with_ u ks d (.exprs (a.vals u))), by simp only [exec, execUpd, hb, Outcome.map], ?_⟩
      simp [Base.with_, hb'.err, this, Left, opens, B.Gone]
    | returning => exact first_nil hf
    | delete => exact first_nil hf
    | create ks xs => exact create _ ks ((firstErr_iff _ _).2 hf) rfl rfl (hj _ rfl) rfl
    | merge ks xs => exact create _ ks ((firstErr_iff _ _).2 hf) rfl rfl (hj _ rfl) rfl
    | set ks xs => exact upd _ ks ((firstErr_iff _ _).2 hf) rfl rfl (hj _ rfl) rfl
    | setNamed ks n x => exact upd _ ks (xs := [n.sym, x]) ((firstErr_iff _ _).2 hf) rfl rfl (hj _ rfl) rfl
    | setLabels ks g ko kl kls n ls => exact upd _ ks (label hf) rfl rfl (hj _ rfl) rfl
    | removeLabels ks g ko kl kls n ls => exact upd .remove ks (xs := [labelOperation u g ko kl kls .setLabel n ls]) (label hf) rfl rfl (hj _ rfl) (by simp only [exec, execUpd, hx.err])
    | remove ks xs => exact upd _ ks ((firstErr_iff _ _).2 hf) rfl rfl (hj _ rfl) rfl
    | _ => cases hs
  · have := (retSig_step h hs).2
    cases c <;> first | exact first_nil hf | cases this

theorem first_call {i j : Iface} (hi : i = .callNoArgs ∨ i = .callArgs ∨ i = .callYield ∨ i = .firstNoYield ∨ i = .firstYield) {b : Base} (hb : b.err = none) {bb : B}
    {c : Call} {e : Err} (hf : First (looked u i c) e) (hs : i.sig c = some j)
    (h1 : ∀ ks d a, exec u bb (.with_ ks d a) = execBase u b (.with_ ks d (.exprs (a.vals u))))
    (h2 : ∀ k ko d a, exec u bb (.returning k ko d a) = execBase u b (.returning k ko d (.exprs (a.vals u))))
    (h3 : ∀ k s, exec u bb (.callStmt k s) = execBase u b (.callStmt k s)) :
    ∃ b', exec u bb c = .ok b' ∧ Left e i c j b' := by
  have hp : i.isPlain = false ∧ i ≠ .updated := by rcases hi with rfl | rfl | rfl | rfl | rfl <;> exact ⟨rfl, by simp⟩
  cases c with
  | with_ ks d a =>
    rw [looked, items_exprs i hp.1] at hf
    rw [h1]
    exact first_plain (d := .with_ ks d (.exprs (a.vals u))) hb hp.2 hs (i' := .reading) rfl rfl rfl rfl hf
  | returning k ko d a =>
    rw [looked, if_neg hp.2, items_exprs i hp.1] at hf
    rw [h2]
    exact first_plain (d := .returning k ko d (.exprs (a.vals u))) hb hp.2 hs (i' := .reading) rfl rfl rfl rfl hf
  | callStmt =>
    rw [h3]
    exact first_plain hb hp.2 hs (i' := .reading) rfl rfl rfl rfl hf
  | where_ => rcases hi with rfl | rfl | rfl | rfl | rfl <;> exact first_nil hf
  | args | yield => exact first_nil hf
  | _ => rcases hi with rfl | rfl | rfl | rfl | rfl <;> cases hs

theorem first_step {i j : Iface} {r : Pending} {b : B} (h : i.Holds r b) {c : Call} {e : Err} (hf : First (looked u i c) e) (hs : i.sig c = some j) :
    ∃ b', exec u b c = .ok b' ∧ Left e i c j b' := by
  cases b with
  | base b => exact first_base h hf hs
  | with_ w => exact first_with h hf hs
  | ret x =>
    have := (retSig_step h.1 hs).2
    cases c <;> first | exact first_nil hf | cases this
  | upd x => exact first_set h hf hs
  | unwind x =>
    obtain ⟨rfl, -⟩ := h
    cases c <;> first | exact first_nil hf | cases hs
  | inCall x =>
    obtain ⟨hi, b, y, hb, hy, hb', -⟩ := h
    have hnext : x.next = .ok { b with ocall := some y } := by simp [InCallB.next, hb, hy]
    exact first_call (b := { b with ocall := some y }) (by rcases hi with rfl | rfl | rfl <;> simp) hb'.err hf hs
      (by simp only [exec, execInCall, hnext, Outcome.bind, implies_true]) (by simp only [exec, execInCall, hnext, Outcome.bind, implies_true])
      (by simp only [exec, execInCall, hnext, Outcome.bind, implies_true])
  | standalone y n =>
    obtain ⟨hi, rfl, -⟩ := h
    exact first_call (b := startWithCall y true) (by rcases hi with rfl | rfl <;> simp) rfl hf hs (fun _ _ _ => rfl) (fun _ _ _ _ => rfl) (fun _ _ => rfl)
  | action a =>
    obtain ⟨rfl, ha, -⟩ := h
    cases c <;> first | cases hs; done | skip
    cases hs
    rw [looked, ← firstErr_iff] at hf
    simp [exec, execAction, ActionB.set, ha, firstErr, errsOf, hf, Outcome.map, Left, opens, DeadAt, Base.dead, Iface.isPlain]

theorem first_all {i j k : Iface} {b : B} {r : Pending} (h : i.Holds r b) {before after : List Call} {c : Call} {e : Err}
    (ht : i.typed before = some k) (hu : i.Each (Taken u) before) (ha : r.all i before = true)
    (hf : First (looked u k c) e) (ht' : k.typed (c :: after) = some j) (hb : j.builds = true) :
    (execAll u b (before ++ c :: after)).bind B.build = if crashes k c after then .panic else .ok (.error e) := by
  obtain ⟨b1, r1, h1, h2⟩ := fine_calls before h hu ha ht
  simp only [Iface.typed, Option.bind_eq_some_iff] at ht'
  obtain ⟨l, hl, ht'⟩ := ht'
  obtain ⟨b2, h3, h4⟩ := first_step (u := u) h2 hf hl
  have happ : ∀ (cs : List Call) (b b' : B), execAll u b cs = .ok b' → execAll u b (cs ++ c :: after) = execAll u b' (c :: after) := by
    intro cs
    induction cs with
    | nil => rintro b b' h; cases h; rfl
    | cons d ds ih =>
      intro b b' h
      simp only [execAll] at h
      obtain ⟨b'', hb, h⟩ := Outcome.bind_ok h
      rw [List.cons_append, execAll, hb]
      exact ih b'' b' h
  rw [happ before b b1 h1]
  have hx : (execAll u b1 (c :: after)).bind B.build = (execAll u b2 after).bind B.build := by simp only [execAll, h3, Outcome.bind]
  rw [hx, crashes, List.any_cons]
  rw [Left] at h4
  by_cases ho : opens c = true
  · rw [if_pos ho] at h4
    simpa [ho] using gone_all after h4
  · rw [if_neg ho] at h4
    by_cases hk : k = .updated ∧ sets c = true
    · rw [if_pos hk] at h4
      simpa [ho, hk] using deadSet_all after h4 ht'
    · rw [if_neg hk] at h4
      have hk' : (k == .updated && sets c && after.any follows) = false := by
        rw [Bool.and_eq_false_iff]
        left
        rw [Bool.and_eq_false_iff]
        by_cases h : k = .updated
        · right; simpa [h] using hk
        · left; simpa using h
      simpa [ho, hk'] using dead_all after h4 ht' hb

/-! ### C71 -/

/-- C71: the first error is what `Build` reports.  In a chain of calls that Go's type checker admits, if no call before `c` is given an error
that is looked at, and `e` is the first error that `c` looks at, then `Build` returns `e`, whatever comes after - or there is a nil
pointer, exactly if there is a WITH, UNWIND or procedure call from `c` on, or if `c` is a SET or REMOVE after another one and
another updating clause follows. -/
theorem C71_first_partial (before after : List Call) (c : Call) (e : Err) (i j : Iface) (ht : Iface.entry.typed before = some i)
    (hu : Iface.entry.Each (Usable u) before) (hr : Iface.entry.Each (fun i c => ¬ Reported u i c) before)
    (ha : Pending.all ⟨false, false⟩ .entry before = true) (he : First (looked u i c) e)
    (hj : i.typed (c :: after) = some j) (hb : j.builds = true) :
    (execAll u start (before ++ c :: after)).bind B.build = if crashes i c after then .panic else .ok (.error e) :=
  first_all (b := start) (r := ⟨false, false⟩) (Or.inl ⟨rfl, Base.Fine.start, by simp⟩) ht (each_imp (fun _ _ h => usable_taken h.1 h.2) (each_and hu hr)) ha he hj hb

/-- C71: the same for a chain that begins with a procedure call. -/
theorem C71_call_first_partial (kc ka kw k kn : Key) (name : List Str) (hn : name ≠ []) (before after : List Call) (c : Call) (e : Err) (i j : Iface)
    (ht : Iface.firstNoYield.typed before = some i) (hu : Iface.firstNoYield.Each (Usable u) before)
    (hr : Iface.firstNoYield.Each (fun i c => ¬ Reported u i c) before) (ha : Pending.all ⟨false, false⟩ .firstNoYield before = true)
    (he : First (looked u i c) e) (hj : i.typed (c :: after) = some j) (hb : j.builds = true) :
    ((startCall kc ka kw k kn name).bind fun b => (execAll u b (before ++ c :: after)).bind B.build) =
      if crashes i c after then .panic else .ok (.error e) := by
  obtain ⟨p, hp⟩ : ∃ p, procName k kn name = .ok p := by
    match name, hn with
    | [p], _ => exact ⟨_, rfl⟩
    | p :: q :: ps, _ => exact ⟨_, rfl⟩
    | [], hc => exact absurd rfl hc
  simp only [startCall, hp, Outcome.map, Outcome.bind]
  exact first_all (b := .standalone { kc := kc, ka := ka, kw := kw, standalone := true, name := p } true) (r := ⟨false, false⟩)
    ⟨Or.inl rfl, rfl, ⟨by simp, rfl, by simp⟩⟩ ht (each_imp (fun _ _ h => usable_taken h.1 h.2) (each_and hu hr)) ha he hj hb

/-- C71: nothing that is reported is left out, except what `WithArgs`, and `Delete` after SET or REMOVE, are given. -/
theorem C71_covers (i : Iface) (c : Call) : Reported u i c ↔ (∃ e, First (looked u i c) e) ∨
    (∃ xs, c = .args xs ∧ i = .callNoArgs ∧ ∃ x ∈ xs, x.err ≠ none) ∨ (∃ ks d a, c = .delete ks d a ∧ i = .updated ∧ BadItems u i a) := by
  have ex : ∀ xs : List (Option Err), (∃ e, First xs e) ↔ ∃ x ∈ xs, x ≠ none := by
    intro xs
    constructor
    · rintro ⟨e, a, b, rfl, -⟩
      exact ⟨some e, by simp, by simp⟩
    · rintro ⟨x, hx, hn⟩
      obtain ⟨e, he⟩ := Base.firstErr_some hx hn
      exact ⟨e, (firstErr_iff _ _).1 he⟩
  have map : ∀ xs : List Val, (∃ e, First (xs.map (·.err)) e) ↔ ∃ x ∈ xs, x.err ≠ none := by
    intro xs
    rw [ex]
    constructor
    · rintro ⟨x, hx, hn⟩
      obtain ⟨y, hy, rfl⟩ := List.mem_map.1 hx
      exact ⟨y, hy, hn⟩
    · rintro ⟨y, hy, hn⟩
      exact ⟨_, List.mem_map_of_mem hy, hn⟩
  have items : ∀ a, (∃ e, First (itemErrs u i a) e) ↔ BadItems u i a := by
    intro a
    cases hi : i.isPlain with
    | false =>
      rw [BadItems, itemErrs, hi]
      simpa using map (a.vals u)
    | true =>
      rw [ex, BadItems, itemErrs, hi]
      simp only [if_true, List.mem_append, List.mem_map]
      cases a with
      | nameds ns =>
        simp only [nodeErrs, List.mem_map, BadArgs, true_and]
        constructor
        · rintro ⟨x, ⟨n, h1, rfl⟩ | ⟨y, h1, rfl⟩, h2⟩
          · exact Or.inr ⟨n, h1, h2⟩
          · exact Or.inl ⟨y, h1, h2⟩
        · rintro (⟨y, h1, h2⟩ | ⟨n, h1, h2⟩)
          · exact ⟨_, Or.inr ⟨y, h1, rfl⟩, h2⟩
          · exact ⟨_, Or.inl ⟨n, h1, rfl⟩, h2⟩
      | exprs xs =>
        simp only [nodeErrs, List.not_mem_nil, false_or, BadArgs, true_and, Args.vals]
        constructor
        · rintro ⟨x, ⟨y, h1, rfl⟩, h2⟩
          exact Or.inl ⟨y, h1, h2⟩
        · rintro (⟨y, h1, h2⟩ | ⟨y, h1, h2⟩) <;> exact ⟨_, ⟨y, h1, rfl⟩, h2⟩
      | strings xs =>
        simp only [nodeErrs, List.not_mem_nil, false_or, BadArgs, and_false, or_false]
        constructor
        · rintro ⟨x, ⟨y, h1, rfl⟩, h2⟩
          exact ⟨y, h1, h2⟩
        · rintro ⟨y, h1, h2⟩
          exact ⟨_, ⟨y, h1, rfl⟩, h2⟩
  have none : ¬ ∃ e, First [] e := by simp [ex]
  cases c with
  | match_ | create | merge | set | remove | actionSet => simpa [Reported, looked] using (map _).symm
  | where_ x =>
    by_cases hi : i = .readingNoWhere
    · simp [Reported, looked, hi, ex]
    · simp [Reported, looked, hi, none]
  | or ks x =>
    by_cases hi : i = .readingWhere
    · simp [Reported, looked, hi, ex]
    · simp [Reported, looked, hi, none]
  | with_ ks d a => simpa [Reported, looked] using (items a).symm
  | delete ks d a =>
    by_cases hi : i = .updated
    · subst hi
      constructor
      · intro h
        exact Or.inr (Or.inr ⟨ks, d, a, rfl, rfl, h⟩)
      · rintro (h | ⟨xs, h, -⟩ | ⟨ks', d', a', h, -, h'⟩)
        · exact absurd h (by simpa [looked] using none)
        · cases h
        · cases h; exact h'
    · simpa [Reported, looked, hi] using (items a).symm
  | returning k ko d a =>
    by_cases hi : i = .updated
    · simp [Reported, looked, hi, none]
    · simpa [Reported, looked, hi] using (items a).symm
  | setNamed ks n x =>
    by_cases hw : i.isWith = true
    · simp only [Reported, looked, hw, if_true, ex]
      simp [or_comm]
    · by_cases hi : i = .updated
      · subst hi
        simp only [Reported, looked, hw, if_true, ex]
        simp [or_comm]
      · simp only [Reported, looked, hw, hi, if_false, ex]
        simp
        constructor
        · rintro (h | h | ⟨-, h⟩) <;> simp [h]
        · rintro (h | h | h)
          · exact Or.inr (Or.inr ⟨hi, h⟩)
          · exact Or.inl h
          · exact Or.inr (Or.inl h)
  | args xs => simp [Reported, looked, none]
  | _ => simp [Reported, looked, ex]

/-! ### Expressions, patterns and unions -/

/-- C71: operators report the error of the first operand that has one. -/
theorem C71_operators (m : CompareMethod) (a : ArithMethod) (k kl kr : Key) (l r : Option Val) (e : Err) (h : First [errOf l, errOf r] e) :
    (compare m k kl kr l r).err = some e ∧ (arith a k l r).err = some e ∧ (valueAt k kl l r).err = some e ∧
    (subListFrom k kl l r).err = some e ∧ (subListUntil k kl l r).err = some e := by
  rw [← firstErr_iff] at h
  have h' : ∀ xs, firstErr (errOf l :: errOf r :: xs) = some e := firstErr_prefix h
  simp [compare, comparisonCreate, arith, operationCreate, valueAt, subListFrom, subListUntil, h', Val.bad]

/-- C71: so does `SubList`. -/
theorem C71_subList (k kl : Key) (t x y : Option Val) (e : Err) (h : First [errOf t, errOf x, errOf y] e) : (subList k kl t x y).err = some e := by
  rw [← firstErr_iff] at h
  have h' : ∀ xs, firstErr (errOf t :: errOf x :: errOf y :: xs) = some e := firstErr_prefix h
  simp [subList, h', Val.bad]

/-- C71: connecting two conditions reports the error of the first that has one. -/
theorem C71_conditions (ks : Cond.Keys) (l r : Cond) (o : Op) (e : Err) (h : First [l.toVal.err, r.toVal.err] e) :
    (Cond.compoundCreate ks l o r).toVal.err = some e := by
  rw [← firstErr_iff] at h
  have h' : ∀ xs, firstErr (l.toVal.err :: r.toVal.err :: xs) = some e := firstErr_prefix h
  simp [Cond.compoundCreate, h', Cond.toVal, Cond.bad]

/-- C71: lists and patterns report the error of the first element that has one. -/
theorem C71_lists (k kl : Key) (xs : List Val) (e : Err) (h : First (xs.map (·.err)) e) :
    (listLiteral k xs).err = some e ∧ (expressionList k xs).err = some e ∧ (listExpression k kl xs).err = some e ∧ (patternCreate k xs).err = some e := by
  rw [← firstErr_iff] at h
  simp [listLiteral, expressionList, listExpression, patternCreate, errsOf, h, Val.bad]

theorem scan_first (xs : List Val) (e : Err) (h : First (xs.map (·.err)) e) : scanArgs (xs.map some) = .ok (.error e) := by
  rw [← firstErr_iff] at h
  induction xs with
  | nil => cases h
  | cons x xs ih =>
    cases hx : x.err with
    | some d => simpa [scanArgs, firstErr, hx] using h
    | none =>
      simp only [List.map_cons, hx, firstErr] at h
      simp [scanArgs, hx, ih h, Outcome.map, Except.map]

/-- C71: function calls report the error of the first argument that has one. -/
theorem C71_functions (k ka : Key) (d : FnDef) (xs : List Val) (e : Err) (h : First (xs.map (·.err)) e) :
    functionInvocation k ka d (xs.map some) = .ok (.bad e) ∧ functionInvocationDistinct k ka d (xs.map some) = .ok (.bad e) := by
  simp [functionInvocation, functionInvocationDistinct, scan_first xs e h, Outcome.map]

/-- C71: so do `Distance` and `Range`. -/
theorem C71_distance (k ka : Key) (a b : Option Val) (e : Err) (h : First [errOf a, errOf b] e) : distance k ka a b = .ok (.bad e) := by
  rw [← firstErr_iff] at h
  have h' : ∀ xs, firstErr (errOf a :: errOf b :: xs) = some e := firstErr_prefix h
  simp [distance, h']

/-- C71: so do `Distance` and `Range`. -/
theorem C71_range (k ka : Key) (a b c : Option Val) (e : Err) (h : First [errOf a, errOf b, errOf c] e) : rangeWithStep k ka a b c = .ok (.bad e) := by
  rw [← firstErr_iff] at h
  have h' : ∀ xs, firstErr (errOf a :: errOf b :: errOf c :: xs) = some e := firstErr_prefix h
  simp [rangeWithStep, h']

/-- C71: a relationship reports the error of the left node, or else of what is between them, or else of the right node. -/
theorem C71_relationships (k : Key) (l r : NodeV) (d : DetailsV) (e : Err) (h : First [l.err, d.err, r.err] e) : (RelV.create3 k l d r).err = some e := by
  rw [← firstErr_iff] at h
  simp [RelV.create3, h, RelV.bad]

/-- C71: a union reports the error of the first query that has one. -/
theorem C71_unions (k : Key) (ks : Nat → Key) (all : Bool) (v : List Tree) (d : Option Err) (r : Bool) (q : Stmt) (qs : List Stmt) (e : Err)
    (h : First (d :: q.err :: qs.map Stmt.err) e) : (unionImpl k ks all (.query v d r :: q :: qs)).err = some e := by
  rw [← firstErr_iff] at h
  have h' : firstErr ((.query v d r :: q :: qs).map Stmt.err) = some e := h
  have hl : ¬ (Stmt.query v d r :: q :: qs).length < 2 := by simp
  rw [unionImpl, if_neg hl]
  · simp only [unionQuery, h']
    rfl
  · simp

/-- C71: a procedure call reports the error of the first faulty argument, or else of its condition: `Build` of a call that is a statement
returns it, and a call in a query has it. -/
theorem C71_procedures (c : CallB) (hy : errOf c.yields = none) (e : Err)
    (h : First ((c.args.getD []).map (·.err) ++ [errOf ((builtCondition c.cond).map Cond.toVal)]) e) :
    (c.standalone = true → c.build = .error e) ∧ (c.standalone = false → ∃ v, c.build = .ok v ∧ v.val.err = some e) := by
  rw [← firstErr_iff] at h
  have ha : errOf c.arguments = errsOf (c.args.getD []) := by
    unfold CallB.arguments
    cases c.args with
    | none => rfl
    | some xs =>
      cases xs with
      | nil => rfl
      | cons x xs =>
        simp only [Option.getD, errOf, argumentsCreate]
        cases errsOf (x :: xs) <;> rfl
  have hw : ∀ k, errOf ((builtCondition c.cond).map fun x => whereCreate k x.toVal) = errOf ((builtCondition c.cond).map Cond.toVal) := by
    intro k
    cases builtCondition c.cond with
    | none => rfl
    | some x =>
      simp only [Option.map, errOf, whereCreate]
      cases x.toVal.err <;> rfl
  have h3 : firstErr [errOf c.yields, errOf c.arguments, errOf ((builtCondition c.cond).map Cond.toVal)] = some e := by
    rw [hy, ha]
    rw [firstErr_append, firstErr_one] at h
    rw [← h, errsOf]
    generalize firstErr ((c.args.getD []).map (·.err)) = d
    cases d <;> rfl
  have h4 : ∀ k, firstErr [errOf c.arguments, errOf c.yields, errOf ((builtCondition c.cond).map fun x => whereCreate k x.toVal)] = some e := by
    intro k
    rw [hw, hy, ha]
    rw [firstErr_append, firstErr_one] at h
    rw [← h, errsOf]
    generalize firstErr ((c.args.getD []).map (·.err)) = d
    cases d <;> rfl
  constructor
  · intro hs
    simp only [CallB.build, hs, if_true, h3]
  · intro hs
    refine ⟨_, by simp only [CallB.build, hs]; rfl, ?_⟩
    simp only [procedureCall, h4]
    rfl

open SampleBuilder SampleErrors

/-! ### Where C71 fails -/

namespace SampleFirst
def e1 : Err := .site "first" 1
def e2 : Err := .site "second" 2
/-- What `Build` reports. -/
def reported (cs : List Call) : Option Err :=
  match (execAll .ascii start cs).bind B.build with
  | .ok (.error e) => some e
  | .ok (.ok s) => s.err
  | .panic => none
end SampleFirst
open SampleFirst

/-- C71 fails: the error of an argument of a procedure call is hidden by a later one.
`Match(p).Call1("f").WithArgs(bad1).Yield(y).Returning(bad2)` -/
theorem C71_args_hidden :
    reported [m, .callProc 3 4 5 6 7 [c!"f"], .args [.bad e1], .yield 8 [y], ret x] = some e1 ∧
    reported [m, .callProc 3 4 5 6 7 [c!"f"], .args [.bad e1], .yield 8 [y], ret (.bad e2)] = some e2 := by decide +kernel

/-- C71 fails: so is the error of what is deleted after a SET.  `Match(p).Set(x, y).Delete(bad1).Returning(bad2)` -/
theorem C71_delete_hidden :
    reported [m, .set (uk 0) [x, y], .delete (uk 1) false (.exprs [.bad e1]), ret x] = some e1 ∧
    reported [m, .set (uk 0) [x, y], .delete (uk 1) false (.exprs [.bad e1]), ret (.bad e2)] = some e2 := by decide +kernel

/-- C71 fails: no error is reported, but there is a nil pointer.  `Match(bad).With(x).Returning(x)`,
`Match(p).Set(x, y).Set(bad, y).Set(x, y)` -/
theorem C71_crashes :
    shown (.ok start) [.match_ 1 2 false [bad], ret x] = c!"error" ∧
    shown (.ok start) [.match_ 1 2 false [bad], .with_ (wk 0) false (.exprs [x]), ret x] = c!"panic" ∧
    shown (.ok start) [m, .set (uk 0) [x, y], .set (uk 1) [bad, y]] = c!"error" ∧
    shown (.ok start) [m, .set (uk 0) [x, y], .set (uk 1) [bad, y], .set (uk 2) [x, y]] = c!"panic" := by decide +kernel

/-! ### Samples -/

open SampleExact in
/-- `Match(p).Where(a).And(bad).Set(x, y).Merge(p, bad1, bad2).OnCreate().Set(bad, x).Returning(bad).OrderBy(bad)`: `bad1` is reported.  The
condition given to `And` is not looked at. -/
example :
    let after : List Call := [.on .onCreate, .actionSet 1 2 3 (fun i => 10 + i) [bad, x], ret bad, .orderBy 9 bad]
    (execAll .ascii start ([m, .where_ ca.build, .and (ck 0) badCond, .set (uk 0) [x, y]] ++ .merge (uk 1) [p, .bad e1, .bad e2] :: after)).bind B.build =
      .ok (.error e1) := by
  intro after
  refine (C71_first_partial _ after _ e1 .updated .retSort rfl ?_ ?_ (by decide +kernel) ⟨[none], [some e2], rfl, by simp⟩ rfl rfl).trans rfl
  · exact each_cons rfl trivial <| each_cons rfl (fun h => absurd rfl h) <| each_cons rfl trivial <|
      each_cons rfl (set_usable rfl rfl rfl rfl) trivial
  · refine each_cons rfl ?_ <| each_cons rfl (fun h => h.2 rfl) <| each_cons rfl id <| each_cons rfl ?_ trivial
    · rintro ⟨v, hv, he⟩; simp at hv; subst hv; exact he rfl
    · rintro ⟨v, hv, he⟩; simp at hv; rcases hv with rfl | rfl <;> exact he rfl

example : (compare .lt 1 2 3 (some (.bad e1)) (some (.bad e2))).err = some e1 :=
  (C71_operators .lt .add 1 2 3 _ _ e1 ⟨[], [some e2], rfl, by simp⟩).1
example : functionInvocation 1 2 fnCoalesce [some x, some (.bad e1), some (.bad e2)] = .ok (.bad e1) :=
  (C71_functions 1 2 fnCoalesce [x, .bad e1, .bad e2] e1 ⟨[none], [some e2], rfl, by simp⟩).1
example : (unionImpl 1 id false [.query [] none true, .query [] (some e1) true, .query [] (some e2) true]).err = some e1 :=
  C71_unions 1 id false [] none true _ _ e1 ⟨[none], [some e2], rfl, by simp⟩

example : (subList 1 2 (some x) (some (.bad e1)) (some (.bad e2))).err = some e1 := C71_subList 1 2 _ _ _ e1 ⟨[none], [some e2], rfl, by simp⟩
example : (listLiteral 1 [x, .bad e1, y, .bad e2]).err = some e1 ∧ (listExpression 1 2 [x, .bad e1, y, .bad e2]).err = some e1 :=
  have h := C71_lists 1 2 [x, .bad e1, y, .bad e2] e1 ⟨[none], [none, some e2], rfl, by simp⟩
  ⟨h.1, h.2.2.1⟩
example : distance 1 2 (some (.bad e1)) (some (.bad e2)) = .ok (.bad e1) := C71_distance 1 2 _ _ e1 ⟨[], [some e2], rfl, by simp⟩
example : rangeWithStep 1 2 (some x) (some (.bad e1)) (some (.bad e2)) = .ok (.bad e1) := C71_range 1 2 _ _ _ e1 ⟨[none], [some e2], rfl, by simp⟩

-- `Call1("f").WithArgs(x, bad1).Yield(y).Where(bad2).Build()`, and the same call in a query
example : (CallB.mk 1 2 3 true ⟨4, 5, none, c!"f"⟩ (some [x, .bad e1]) (yieldItems 6 [y]) (some (.atom { key := 7, visit := [], err := some e2 }))).build = .error e1 :=
  (C71_procedures (CallB.mk 1 2 3 true ⟨4, 5, none, c!"f"⟩ (some [x, .bad e1]) (yieldItems 6 [y]) (some (.atom { key := 7, visit := [], err := some e2 })))
    rfl e1 ⟨[none], [some e2], rfl, by simp⟩).1 rfl
example : ∃ v, (CallB.mk 1 2 3 false ⟨4, 5, none, c!"f"⟩ (some [x]) none (some (.atom { key := 7, visit := [], err := some e2 }))).build = .ok v ∧
    v.val.err = some e2 :=
  (C71_procedures (CallB.mk 1 2 3 false ⟨4, 5, none, c!"f"⟩ (some [x]) none (some (.atom { key := 7, visit := [], err := some e2 }))) rfl e2
    ⟨[none], [], rfl, by simp⟩).2 rfl

-- `bad1.And(bad2)`; a relationship whose left node is fine, with a faulty name and a faulty right node
example (ks : Cond.Keys) : (Cond.compoundCreate ks (.atom (.bad e1)) .and (.atom (.bad e2))).toVal.err = some e1 :=
  C71_conditions ks _ _ _ e1 ⟨[], [some e2], rfl, by simp⟩
example : (RelV.create3 1 ({ } : NodeV) { err := some e1 } { err := some e2 }).err = some e1 :=
  C71_relationships 1 _ _ _ e1 ⟨[none], [some e2], rfl, by simp⟩

open SampleExact in
/-- `Call1("f").WithArgs(x).Yield(y).Where(c).Returning(x, bad1, bad2).OrderBy(bad)`: `bad1` is reported. -/
example (kc ka kw k kn : Key) :
    ((startCall kc ka kw k kn [c!"f"]).bind fun b => (execAll .ascii b ([.args [x], .yield 8 [y], .where_ ca.build] ++
      .returning 9 10 false (.exprs [x, .bad e1, .bad e2]) :: [.orderBy 9 bad])).bind B.build) = .ok (.error e1) := by
  refine (C71_call_first_partial kc ka kw k kn [c!"f"] (by simp) [.args [x], .yield 8 [y], .where_ ca.build] [.orderBy 9 bad]
    (.returning 9 10 false (.exprs [x, .bad e1, .bad e2])) e1 .readingWhere .retSort rfl ?_ ?_ (by decide +kernel) ⟨[none], [some e2], rfl, by simp⟩ rfl rfl).trans rfl
  · exact each_cons rfl (.inr fun _ h => by simp at h; subst h; rfl) <| each_cons rfl trivial <| each_cons rfl (fun h => absurd rfl h) trivial
  · exact each_cons rfl (fun h => nomatch h.1) <| each_cons rfl id <| each_cons rfl (fun h => nomatch h.1) trivial

end Verif
