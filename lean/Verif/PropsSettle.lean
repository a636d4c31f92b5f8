import Verif.PropsBuilder

/-
C64: where every clause ends up, for all queries that Go's type checker admits.
-/

namespace Verif
namespace Spec

/-- Clauses that wait: a procedure call with a condition and a MERGE with actions are only put down when a later call asks for it. -/
def Req.waits : Req → Bool
  | .proc r => r.cond.isSome
  | .merge _ _ as => !as.isEmpty
  | _ => false

/-- Is the clause put down before the clause `d` that waits?  `again`: after a clause that was. -/
def Req.passes (d : Req) (again : Bool) : Req → Bool
  | .unwind .. => match d with | .proc _ => true | _ => false
  | .set .. | .setNamed .. => match d with | .proc _ => true | _ => again
  | .setLabels .. | .removeLabels .. | .remove .. => true
  | _ => false

/-- The clauses in the order in which they are put down, if `d` waits. -/
def settle : Option Req → Bool → List Req → List Req
  | d, _, [] => d.toList
  | none, _, r :: rs => if r.waits then settle (some r) false rs else r :: settle none false rs
  | some d, again, r :: rs =>
    if d.passes again r then r :: settle (some d) true rs
    else d :: if r.waits then settle (some r) false rs else r :: settle none false rs

/-- SET and REMOVE. -/
def Req.sets : Req → Bool
  | .set .. | .setNamed .. | .setLabels .. | .removeLabels .. | .remove .. => true
  | _ => false

/-- The query as it is built: the clauses in the order in which they are put down, without a RETURN DISTINCT that follows SET or REMOVE. -/
def Query.settled (q : Query) : Query where
  reqs := settle none false ((q.call.map Req.proc).toList ++ q.reqs)
  ret := q.ret.filter fun r => !(r.distinct && q.reqs.getLast?.any Req.sets)

end Spec
open Spec

section
variable {u : Unicode}

/-! ### A clause that waits -/

/-- The state between two calls, default_statement_builder.go:503-532: the builder has put down `C` and holds a clause that will be `v`. -/
def Waits (s : Stage) (b : Base) (P : List PartV) (C : List Clause) (v : Clause) : Prop :=
  match s with
  | .callWhere => ∃ c, b = { elems := C, parts := P, ocall := some c } ∧ c.build = .ok v
  | .merged => ∃ x, b = { elems := C, parts := P, oupdate := some x } ∧ x.build = v
  | _ => False

def Late (s : Stage) (again : Bool) (b : B) (P : List PartV) (C : List Clause) (v : Clause) : Prop :=
  match b with
  | .base b => again = false ∧ Waits s b P C v
  | .upd x => again = true ∧ ∃ b c C', x = { base := some b, builder := some c } ∧ Waits s b P C' v ∧ C = C' ++ [c.build]
  | _ => False

theorem Waits.has {s : Stage} {b : Base} {P : List PartV} {C : List Clause} {v : Clause} (h : Waits s b P C v) : Has s b P (C ++ [v]) := by
  cases s <;> simp only [Waits] at h
  case callWhere => obtain ⟨c, rfl, hv⟩ := h; exact ⟨c, v, C, rfl, hv, rfl⟩
  case merged => obtain ⟨x, rfl, rfl⟩ := h; exact ⟨x, C, rfl, rfl⟩

theorem Waits.stage {s : Stage} {b : Base} {P : List PartV} {C : List Clause} {v : Clause} (h : Waits s b P C v) : s = .callWhere ∨ s = .merged := by
  cases s <;> simp only [Waits] at h <;> simp

theorem Has.waits {s : Stage} {b : Base} {P : List PartV} {D : List Clause} (h : Has s b P D) (hs : s = .callWhere ∨ s = .merged) :
    ∃ C v, D = C ++ [v] ∧ Waits s b P C v := by
  rcases hs with rfl | rfl
  · obtain ⟨c, v, es, rfl, hv, rfl⟩ := h
    exact ⟨es, v, rfl, c, rfl, hv⟩
  · obtain ⟨x, es, rfl, rfl⟩ := h
    exact ⟨es, x.build, rfl, x, rfl, rfl⟩

theorem Holds.late {s : Stage} {b : B} {P : List PartV} {D : List Clause} (h : Holds s b P D) (hs : s = .callWhere ∨ s = .merged) :
    ∃ C v, D = C ++ [v] ∧ Late s false b P C v := by
  cases b with
  | base b => obtain ⟨C, v, h1, h2⟩ := Has.waits h hs; exact ⟨C, v, h1, rfl, h2⟩
  | ret r => exact h.elim
  | unwind r => exact h.elim
  | action r => exact h.elim
  | with_ w => obtain rfl := h.1; simp at hs
  | upd w => obtain rfl := h.1; simp at hs
  | inCall w => obtain rfl := h.1; simp at hs
  | standalone w => obtain rfl := h.1; simp at hs

theorem Waits.add {s : Stage} {b : Base} {P : List PartV} {C : List Clause} {v : Clause} (h : Waits s b P C v) (c : Clause) :
    Waits s (b.addClause c) P (C ++ [c]) v := by
  cases s <;> simp only [Waits] at h
  case callWhere => obtain ⟨x, rfl, hv⟩ := h; exact ⟨x, by simp [Base.addClause, Base.closeMatch], hv⟩
  case merged => obtain ⟨x, rfl, rfl⟩ := h; exact ⟨x, by simp [Base.addClause, Base.closeMatch], rfl⟩

theorem Late.next {s : Stage} {again : Bool} {x : UpdB} {P : List PartV} {C : List Clause} {v : Clause} (h : Late s again (.upd x) P C v) :
    ∃ b, x.next = .ok b ∧ Waits s b P C v ∧ x.err = none := by
  obtain ⟨-, b, c, C', rfl, hw, rfl⟩ := h
  exact ⟨b.addClause c.build, rfl, hw.add _, rfl⟩

theorem Waits.updB {s : Stage} {b : Base} {P : List PartV} {C : List Clause} {v : Clause} (h : Waits s b P C v) (t : UpdType) (ks : UpdKeys) (xs : List Val)
    (hx : errsOf xs = none) (c : Clause) (hc : updBuilder t ks xs = .ok (.done c)) : Late s true (.upd (b.updB t ks xs)) P (C ++ [c]) v := by
  refine ⟨rfl, b, .done c, C, ?_, h, rfl⟩
  simp only [Base.updB, firstErr2 h.has.err.1 hx, hc]

/-! ### One request while a clause waits -/

/-- What is put down before the waiting clause. -/
def over (s : Stage) (again : Bool) : Req → Bool
  | .unwind .. => s == .callWhere && !again
  | .set .. | .setNamed .. => s == .callWhere || again
  | .setLabels .. | .removeLabels .. | .remove .. => true
  | _ => false

/-- What is put down after it. -/
def flushes (s : Stage) (again : Bool) (r : Req) : Bool :=
  if again then Stage.updated.allows r && Stage.created.allows r && !r.sets else s.allows r

theorem Late.over {s : Stage} {again : Bool} {b : B} {P : List PartV} {C : List Clause} {v : Clause} (h : Late s again b P C v) (r : Req) (ho : over s again r = true)
    (hr : r.Ok u) : ∃ b' c, execAll u b r.calls = .ok b' ∧ Late s (r.stage == .updated) b' P (C ++ [c]) v ∧ ClauseFor u r c := by
  cases b with
  | base b =>
    obtain ⟨rfl, hw⟩ := h
    have he := hw.has.err.1
    cases r <;> simp only [Verif.over, Bool.false_eq_true, Bool.or_false, Bool.not_false, Bool.and_true, beq_iff_eq] at ho
    case unwind k kn x name =>
      subst ho
      have hc : ClauseFor u (.unwind k kn x name) (unwindCreate u k kn x name) := by
        have h := fun e => C47_unwind_partial (e := e) (u := u) k kn x hr.1 hr.2 name
        exact clauseFor (fun e => (h e).1) rfl rfl (fun e => (h e).2) (by simp only [unwindCreate]; split <;> rfl)
      obtain ⟨c, rfl, hv⟩ := hw
      refine ⟨.base { elems := C ++ [unwindCreate u k kn x name], parts := P, ocall := some c }, _, ?_, ⟨rfl, c, rfl, hv⟩, hc⟩
      simp only [Req.calls, execAll, exec, execBase, Base.unwind, firstErr2 he hr.1, Outcome.bind, execUnwind]
      rfl
    case set ks as =>
      subst ho
      obtain ⟨c, hc, hcl⟩ := set_clause (u := u) ks as hr
      refine ⟨.upd (b.updB .set ks (as.flatMap SetArg.args)), c, ?_, hw.updB _ _ _ (set_errs as hr) _ hc, hcl⟩
      have hcu : b.closeUpdate = b := by obtain ⟨c, rfl, -⟩ := hw; rfl
      simp only [Req.calls, execAll_one, exec, execBase, Base.set, firstErr2 he (set_errs as hr), hcu]
    case setNamed ks n x =>
      subst ho
      obtain ⟨c, hc, hcl⟩ := set_clause (u := u) ks [.pair n.sym x] (by simpa using hr.2.2)
      have hse := set_errs [.pair n.sym x] (by simpa using hr.2.2)
      refine ⟨.upd (b.updB .set ks [n.sym, x]), c, ?_, hw.updB _ _ _ hse _ hc, setNamed_clause hcl⟩
      have hcu : b.closeUpdate = b := by obtain ⟨c, rfl, -⟩ := hw; rfl
      simp only [Req.calls, execAll_one, exec, execBase, Base.setNamed, firstErr3 he hr.1 hr.2.2.2.1.1, Base.set,
        firstErr2 he (show errsOf [n.sym, x] = none from hse), hcu]
    case setLabels ks g ko kl kls n ls =>
      obtain ⟨hle, hc⟩ := labels_clause (u := u) ks g ko kl kls n ls false false hr _ rfl
      refine ⟨.upd (b.updB .set ks [labelOperation u g ko kl kls .setLabel n ls]), _, ?_, hw.updB _ _ _ (by simpa [errsOf_none_iff] using hle) _ ?_, hc⟩
      · simp only [Req.calls, execAll_one, exec, execBase, Base.update2, firstErr2 he hr.1.1]
      · have ho : (labelOperation u g ko kl kls .setLabel n ls).isOperation = true := by
          simp [labelOperation, hr.1.1, hr.1.2.1, hr.2.1, Val.isOperation, Val.mk']
        simp [updBuilder, prepareSet, ho, pairUp]
    case removeLabels ks g ko kl kls n ls =>
      obtain ⟨hle, hc⟩ := labels_clause (u := u) ks g ko kl kls n ls true true hr _ rfl
      refine ⟨.upd (b.updB .remove ks [labelOperation u g ko kl kls .removeLabel n ls]), _, ?_, hw.updB _ _ _ (by simpa [errsOf_none_iff] using hle) _ rfl, hc⟩
      simp only [Req.calls, execAll_one, exec, execBase, Base.update2, firstErr2 he hr.1.1]
    case remove ks xs =>
      have hxe : errsOf xs = none := (errsOf_none_iff _).mpr fun x hx => (hr x hx).1
      refine ⟨.upd (b.updB .remove ks xs), _, ?_, hw.updB _ _ _ hxe _ rfl, remove_clause ks xs hr⟩
      simp only [Req.calls, execAll_one, exec, execBase, Base.update2, firstErr2 he hxe]
  | upd x =>
    obtain rfl := h.1
    obtain ⟨b, hb, hw, hxe⟩ := h.next
    cases r <;> simp only [Verif.over, Bool.false_eq_true, Bool.not_true, Bool.and_false] at ho
    case set ks as =>
      obtain ⟨c, hc, hcl⟩ := set_clause (u := u) ks as hr
      refine ⟨.upd (b.updB .set ks (as.flatMap SetArg.args)), c, ?_, hw.updB _ _ _ (set_errs as hr) _ hc, hcl⟩
      simp only [Req.calls, execAll_one, exec, execUpd, hb, Outcome.map]
    case setNamed ks n x =>
      obtain ⟨c, hc, hcl⟩ := set_clause (u := u) ks [.pair n.sym x] (by simpa using hr.2.2)
      have hse := set_errs [.pair n.sym x] (by simpa using hr.2.2)
      refine ⟨.upd (b.updB .set ks [n.sym, x]), c, ?_, hw.updB _ _ _ hse _ hc, setNamed_clause hcl⟩
      simp only [Req.calls, execAll_one, exec, execUpd, hb, Outcome.map]
    case setLabels ks g ko kl kls n ls =>
      obtain ⟨hle, hc⟩ := labels_clause (u := u) ks g ko kl kls n ls false false hr _ rfl
      refine ⟨.upd (b.updB .set ks [labelOperation u g ko kl kls .setLabel n ls]), _, ?_, hw.updB _ _ _ (by simpa [errsOf_none_iff] using hle) _ ?_, hc⟩
      · simp only [Req.calls, execAll_one, exec, execUpd, hb, Outcome.map]
      · have ho : (labelOperation u g ko kl kls .setLabel n ls).isOperation = true := by
          simp [labelOperation, hr.1.1, hr.1.2.1, hr.2.1, Val.isOperation, Val.mk']
        simp [updBuilder, prepareSet, ho, pairUp]
    case removeLabels ks g ko kl kls n ls =>
      obtain ⟨hle, hc⟩ := labels_clause (u := u) ks g ko kl kls n ls true false hr _ rfl
      refine ⟨.upd (b.updB .remove ks [labelOperation u g ko kl kls .setLabel n ls]), _, ?_, hw.updB _ _ _ (by simpa [errsOf_none_iff] using hle) _ rfl, hc⟩
      simp only [Req.calls, execAll_one, exec, execUpd, hb, hxe, Outcome.map]
    case remove ks xs =>
      have hxe : errsOf xs = none := (errsOf_none_iff _).mpr fun x hx => (hr x hx).1
      refine ⟨.upd (b.updB .remove ks xs), _, ?_, hw.updB _ _ _ hxe _ rfl, remove_clause ks xs hr⟩
      simp only [Req.calls, execAll_one, exec, execUpd, hb, Outcome.map]
  | ret r => exact h.elim
  | unwind r => exact h.elim
  | action r => exact h.elim
  | with_ w => exact h.elim
  | inCall w => exact h.elim
  | standalone w => exact h.elim

theorem Late.flush {s : Stage} {again : Bool} {b : B} {P : List PartV} {C : List Clause} {v : Clause} (h : Late s again b P C v) (r : Req)
    (hf : flushes s again r = true) (hr : r.Ok u) :
    ∃ b' P' C', execAll u b r.calls = .ok b' ∧ Holds r.stage b' P' C' ∧ Adds u r P (C ++ [v]) P' C' := by
  cases b with
  | base b =>
    obtain ⟨rfl, hw⟩ := h
    exact step_base hw.has r hf hr
  | upd x =>
    obtain rfl := h.1
    obtain ⟨b, hb, hw, hxe⟩ := h.next
    have hh := hw.has
    have ha : s.allows r = true := by
      rcases hw.stage with rfl | rfl <;> cases r <;> simp [flushes, Stage.allows, Req.sets] at hf ⊢
    obtain ⟨b', P', C', h1, h2⟩ := step_base (u := u) hh r ha hr
    refine ⟨b', P', C', ?_, h2⟩
    rw [← h1]
    cases r <;> simp only [flushes, Stage.allows, Req.sets, if_true, Bool.and_true, Bool.true_and, Bool.not_true, Bool.and_false, Bool.false_and,
      Bool.false_eq_true] at hf <;> simp only [Req.calls, WithReq.calls, List.cons_append] <;> refine execAll_first _ ?_ <;>
      simp only [exec, execUpd, hb, Outcome.map] <;> simp only [execBase]
    case with_ r => rw [with_exprs _ _ _ hr.args]
    case delete ks d a => rw [Base.openUpdate, firstErr3 hh.err.1 hr.1 (args_vals hr).2]
  | ret r => exact h.elim
  | unwind r => exact h.elim
  | action r => exact h.elim
  | with_ w => exact h.elim
  | inCall w => exact h.elim
  | standalone w => exact h.elim

/-! ### Types -/

/-- The types a builder can have while a clause waits. -/
def LateType : Stage → Bool → Iface → Prop
  | _, true, i => i = .updated
  | .callWhere, false, i => i = .readingWhere ∨ i = .entry ∨ i = .readingNoWhere ∨ i = .reading
  | .merged, false, i => i = .merged
  | _, false, _ => False

theorem late_sig {s : Stage} {again : Bool} {i : Iface} (h : LateType s again i) (r : Req) (c : Call) (cs : List Call) (hr : r.calls = c :: cs)
    (ht : (i.sig c).isSome = true) : over s again r = true ∨ over s again r = false ∧ flushes s again r = true := by
  cases r <;> simp only [Req.calls, WithReq.calls, List.cons_append, List.cons.injEq] at hr <;> obtain ⟨rfl, -⟩ := hr <;>
    cases again <;> cases s <;> simp only [LateType] at h <;> (try rcases h with rfl | rfl | rfl | rfl) <;> (try subst h) <;>
    simp [Iface.sig, Iface.readingSig, Iface.resultSig, Iface.updateSig, Iface.setSig, Iface.matchSig] at ht <;>
    simp [over, flushes, Stage.allows, Req.sets]

theorem late_compat {s : Stage} {again : Bool} {i : Iface} (h : LateType s again i) : ∃ s', Iface.Compat s' i := by
  cases again <;> cases s <;> simp only [LateType] at h <;> (try rcases h with rfl | rfl | rfl | rfl) <;> (try subst h)
  all_goals first
    | exact ⟨.callWhere, rfl⟩
    | exact ⟨.merged, rfl⟩
    | exact ⟨.updated, rfl⟩
    | exact ⟨.plain, by simp [Iface.Compat]⟩

/-! ### The state between requests -/

variable (u) in
/-- The state of the builder, what it shows so far, and its type.  `d`: the clause that waits. -/
def Settles (d : Option Req) (again : Bool) (b : B) (ks : List Key) (ps : List Part) (i : Iface) : Prop :=
  match d with
  | none => ∃ s P C, Holds s b P C ∧ Told s P C ks ps ∧ Iface.Compat s i ∧ s ≠ .callWhere ∧ s ≠ .merged
  | some d => ∃ s P C v, Late d.stage again b P C v ∧ Told s P C ks ps ∧ ClauseFor u d v ∧ LateType d.stage again i ∧ d.waits = true

theorem waits_stage {d : Req} (h : d.waits = true) : d.stage = .callWhere ∨ d.stage = .merged := by
  cases d <;> simp only [Req.waits, Bool.false_eq_true] at h <;> simp only [Req.stage]
  case merge ks p as => cases as <;> simp at h ⊢
  case proc r => cases hc : r.cond <;> simp [hc] at h ⊢

theorem stage_waits {d : Req} (h : d.stage = .callWhere ∨ d.stage = .merged) : d.waits = true := by
  cases d <;> simp only [Req.stage, reduceCtorEq, or_self] at h <;> simp only [Req.waits]
  case merge ks p as => cases as <;> simp at h ⊢
  case proc r => cases hc : r.cond <;> simp [hc] at h ⊢

theorem over_passes {d : Req} (hd : d.waits = true) (again : Bool) (r : Req) (h : over d.stage again r = true) : d.passes again r = true := by
  cases d <;> simp only [Req.waits, Bool.false_eq_true] at hd
  case merge ks p as =>
    have : as ≠ [] := by cases as <;> simp at hd ⊢
    cases r <;> simp [over, Req.stage, this] at h <;> simp [Req.passes, h]
  case proc q =>
    cases r <;> simp [over] at h <;> simp [Req.passes]

theorem flushes_passes {d : Req} (hd : d.waits = true) (again : Bool) (r : Req) (h : over d.stage again r = false) (hf : flushes d.stage again r = true) :
    d.passes again r = false := by
  cases d <;> simp only [Req.waits, Bool.false_eq_true] at hd
  case merge ks p as =>
    have : as ≠ [] := by cases as <;> simp at hd ⊢
    cases r <;> simp [over, Req.stage, this] at h <;> simp [Req.passes, h]
  case proc q =>
    have : q.cond ≠ none := by intro h; simp [h] at hd
    cases r <;> simp [over, Req.stage, this] at h <;> simp only [Req.passes]
    cases again
    · simp at h
    · simp [flushes, Stage.allows] at hf

theorem typed_first {i j : Iface} {r : Req} {c : Call} {cs : List Call} (hc : r.calls = c :: cs) (ht : i.typed r.calls = some j) : (i.sig c).isSome = true := by
  rw [hc, Iface.typed, Option.bind_eq_some_iff] at ht
  obtain ⟨k, hk, -⟩ := ht
  simp [hk]

/-- A request after all clauses are put down. -/
theorem settles_fresh {b' : B} {P P' : List PartV} {C C' : List Clause} {s : Stage} {ks : List Key} {ps : List Part} {r : Req} {j : Iface}
    (hh : Holds r.stage b' P' C') (ha : Adds u r P C P' C') (ht : Told s P C ks ps) (hj : Iface.Compat r.stage j) :
    if r.waits then Settles u (some r) false b' ks ps j else Settles u none false b' (ks ++ r.keys u) (ps ++ r.parts u) j := by
  by_cases hw : r.waits = true
  · rw [if_pos hw]
    have hs := waits_stage hw
    obtain ⟨D, v, hD, hl⟩ := hh.late hs
    have hadd : ∃ c, ClauseFor u r c ∧ P' = P ∧ C' = C ++ [c] := by
      cases r <;> simp only [Req.waits, Bool.false_eq_true] at hw <;> exact ha
    obtain ⟨c, hc, rfl, rfl⟩ := hadd
    have hDv := List.append_inj' hD rfl
    obtain ⟨rfl, hv⟩ := hDv
    simp only [List.cons.injEq, and_true] at hv
    subst hv
    refine ⟨s, P', C, c, hl, ht, hc, ?_, hw⟩
    rcases hs with hs | hs <;> rw [hs] at hj ⊢
    · exact Or.inl hj
    · exact hj
  · rw [if_neg hw]
    refine ⟨r.stage, P', C', hh, ht.adds ha, hj, ?_, ?_⟩
    · exact fun h => hw (stage_waits (Or.inl h))
    · exact fun h => hw (stage_waits (Or.inr h))

/-- After a procedure call it does not matter whether a clause was put down before it already. -/
theorem settle_proc (d : ProcReq) (a : Bool) (rs : List Req) : settle (some (.proc d)) a rs = settle (some (.proc d)) true rs := by
  cases rs with
  | nil => rfl
  | cons r rs =>
    have : (Req.proc d).passes a r = (Req.proc d).passes true r := by cases r <;> rfl
    rw [settle, settle, this]

/-- All requests. -/
theorem settle_steps (rs : List Req) (hr : ∀ r ∈ rs, r.Ok u) {d : Option Req} {again : Bool} {b : B} {ks : List Key} {ps : List Part} {i j : Iface}
    (h : Settles u d again b ks ps i) (ht : i.typed (rs.flatMap Req.calls) = some j) :
    ∃ b' d' again' ks' ps', execAll u b (rs.flatMap Req.calls) = .ok b' ∧ Settles u d' again' b' ks' ps' j ∧
      ks' ++ d'.toList.flatMap (Req.keys u) = ks ++ (settle d again rs).flatMap (Req.keys u) ∧
      ps' ++ d'.toList.flatMap (Req.parts u) = ps ++ (settle d again rs).flatMap (Req.parts u) := by
  induction rs generalizing d again b ks ps i with
  | nil =>
    simp only [List.flatMap_nil, Iface.typed, Option.some.injEq] at ht
    subst ht
    exact ⟨b, d, again, ks, ps, rfl, h, by cases d <;> simp [settle], by cases d <;> simp [settle]⟩
  | cons r rs ih =>
    rw [List.flatMap_cons, Iface.typed_append, Option.bind_eq_some_iff] at ht
    obtain ⟨k, hk, hj⟩ := ht
    obtain ⟨c, cs, hc⟩ := calls_cons r
    have hsig := typed_first hc hk
    have hok := hr r (by simp)
    -- continue from a state after the request
    have go : ∀ {b1 : B} {ks1 : List Key} {ps1 : List Part}, execAll u b r.calls = .ok b1 →
        (if r.waits then Settles u (some r) false b1 ks1 ps1 k else Settles u none false b1 (ks1 ++ r.keys u) (ps1 ++ r.parts u) k) →
        ∃ b' d' again' ks' ps', execAll u b ((r :: rs).flatMap Req.calls) = .ok b' ∧ Settles u d' again' b' ks' ps' j ∧
          ks' ++ d'.toList.flatMap (Req.keys u) = ks1 ++ (if r.waits then settle (some r) false rs else r :: settle none false rs).flatMap (Req.keys u) ∧
          ps' ++ d'.toList.flatMap (Req.parts u) = ps1 ++ (if r.waits then settle (some r) false rs else r :: settle none false rs).flatMap (Req.parts u) := by
      intro b1 ks1 ps1 he hs
      by_cases hw : r.waits = true
      · rw [if_pos hw] at hs ⊢
        obtain ⟨b', d', again', ks', ps', h1, h2, h3, h4⟩ := ih (fun x hx => hr x (by simp [hx])) hs hj
        exact ⟨b', d', again', ks', ps', by simp only [List.flatMap_cons, execAll_append, he, Outcome.bind, h1], h2, h3, h4⟩
      · rw [if_neg hw] at hs ⊢
        obtain ⟨b', d', again', ks', ps', h1, h2, h3, h4⟩ := ih (fun x hx => hr x (by simp [hx])) hs hj
        exact ⟨b', d', again', ks', ps', by simp only [List.flatMap_cons, execAll_append, he, Outcome.bind, h1], h2, by simpa using h3, by simpa using h4⟩
    cases d with
    | none =>
      obtain ⟨s, P, C, hh, htold, hcomp, hs1, hs2⟩ := h
      have ha : s.allows r = true := by
        rcases Iface.first_ok hcomp r c cs hc hsig with h | h
        · exact h
        · cases s <;> cases r <;> simp [Gap] at h hs1 hs2
      obtain ⟨b1, P1, C1, h1, h2, h3⟩ := step hh r ha hok
      exact go h1 (settles_fresh h2 h3 htold (Iface.stage_ok hcomp r hk))
    | some d =>
      obtain ⟨s, P, C, v, hl, htold, hcl, hty, hw⟩ := h
      obtain ⟨s', hs'⟩ := late_compat hty
      have hjc := Iface.stage_ok hs' r hk
      rcases late_sig hty r c cs hc hsig with ho | ⟨ho, hf⟩
      · obtain ⟨b1, c1, h1, h2, h3⟩ := hl.over r ho hok
        have hs2 : Settles u (some d) (r.stage == .updated) b1 (ks ++ r.keys u) (ps ++ r.parts u) k := by
          refine ⟨r.stage, P, C ++ [c1], v, h2, htold.clause h3.1 h3.2.1 h3.2.2, hcl, ?_, hw⟩
          cases r <;> simp only [over, Bool.false_eq_true] at ho
          case unwind =>
            simp only [Bool.and_eq_true, beq_iff_eq] at ho
            rw [ho.1]
            exact Or.inr hjc
          all_goals exact hjc
        obtain ⟨b', d', again', ks', ps', h4, h5, h6, h7⟩ := ih (fun x hx => hr x (by simp [hx])) hs2 hj
        have hsettle : settle (some d) (r.stage == .updated) rs = settle (some d) true rs := by
          cases r <;> simp only [over, Bool.false_eq_true] at ho
          case unwind =>
            simp only [Bool.and_eq_true, beq_iff_eq] at ho
            cases d <;> simp only [Req.waits, Bool.false_eq_true] at hw
            case merge ks p as =>
              have : as ≠ [] := by cases as <;> simp at hw ⊢
              simp [Req.stage, this] at ho
            case proc q => exact settle_proc q _ rs
          all_goals rfl
        refine ⟨b', d', again', ks', ps', by simp only [List.flatMap_cons, execAll_append, h1, Outcome.bind, h4], h5, ?_, ?_⟩
        · rw [settle, if_pos (over_passes hw again r ho), h6, hsettle]; simp
        · rw [settle, if_pos (over_passes hw again r ho), h7, hsettle]; simp
      · obtain ⟨b1, P1, C1, h1, h2, h3⟩ := hl.flush r hf hok
        have ht2 := htold.clause (s' := d.stage) hcl.1 hcl.2.1 hcl.2.2
        obtain ⟨b', d', again', ks', ps', h4, h5, h6, h7⟩ := go h1 (settles_fresh h2 h3 ht2 hjc)
        refine ⟨b', d', again', ks', ps', h4, h5, ?_, ?_⟩
        · rw [settle, if_neg (by rw [flushes_passes hw again r ho hf]; simp), h6]; simp
        · rw [settle, if_neg (by rw [flushes_passes hw again r ho hf]; simp), h7]; simp

/-! ### The end -/

/-- RETURN after SET or REMOVE. -/
theorem upd_return {x : UpdB} {b : Base} {s : Stage} {P : List PartV} {C : List Clause} (hx : ∃ b0 c, x = { base := some b0, builder := some c }) (hb : x.next = .ok b)
    (hh : Has s b P C) (r : RetReq) (hr : r.Ok u) :
    (execAll u (.upd x) r.calls).bind B.build =
      (finish P C (if r.distinct then none else returnCreate r.k r.ko r.distinct (items u r.args) (r.result u).orderB)).map .ok := by
  obtain ⟨b0, c, rfl⟩ := hx
  have hb' : ∀ k ko d items order, UpdB.next { k := k, ko := ko, base := some b0, distinct := d, items := items, order := order, builder := some c } = .ok b :=
    fun _ _ _ _ _ => hb
  cases hd : r.distinct
  · simp only [RetReq.calls, execAll, exec, execUpd, hd, Outcome.bind, Bool.false_eq_true, if_false]
    rw [upd_calls r _ rfl]
    simp only [B.build, UpdB.build]
    rw [hb']
    simp only [Outcome.bind, build_finish hh, (args_vals hr.1).1, List.nil_append]
  · simp only [RetReq.calls, execAll, exec, execUpd, hd, Outcome.bind, if_true]
    rw [upd_calls r _ rfl]
    simp only [B.build, UpdB.build]
    rw [hb']
    simp only [Outcome.bind, build_finish hh]
    rfl

/-- The RETURN that a query is built with. -/
def lastReturn (i : Iface) (ret : Option RetReq) : Option RetReq := ret.filter fun r => !(r.distinct && i == .updated)

variable (u) in
def retVal (ret : Option RetReq) : Option Val := ret.bind fun r => returnCreate r.k r.ko r.distinct (items u r.args) (r.result u).orderB

/-- Parts and clauses, including one that waits, and what `Build` makes of them. -/
theorem settles_end {d : Option Req} {again : Bool} {b : B} {ks : List Key} {ps : List Part} {i j : Iface} (h : Settles u d again b ks ps i) (ret : Option RetReq)
    (hr : ∀ r, ret = some r → r.Ok u) (ht : i.typed (ret.toList.flatMap RetReq.calls) = some j) (hb : j.builds = true) (hf : i = .firstYield → ret ≠ none) :
    ∃ s P C, Told s P C (ks ++ d.toList.flatMap (Req.keys u)) (ps ++ d.toList.flatMap (Req.parts u)) ∧
      (execAll u b (ret.toList.flatMap RetReq.calls)).bind B.build = (finish P C (retVal u (lastReturn i ret))).map .ok ∧
      (lastReturn i ret = none → s ≠ .plain ∧ s ≠ .with_ ∧ s ≠ .match_) := by
  cases d with
  | none =>
    obtain ⟨s, P, C, hh, htold, hcomp, hs1, hs2⟩ := h
    refine ⟨s, P, C, by simpa using htold, ?_, ?_⟩
    · cases ret with
      | none =>
        simp only [Option.toList_none, List.flatMap_nil, Iface.typed, Option.some.injEq] at ht
        subst ht
        simp only [Option.toList_none, List.flatMap_nil, execAll, Outcome.bind, lastReturn, Option.filter_none, retVal, Option.bind_none]
        refine no_return hh ?_
        cases s <;> simp only [Iface.Compat] at hcomp <;> (try rcases hcomp with rfl | rfl | rfl | rfl | rfl | rfl) <;> (try rcases hcomp with rfl | rfl | rfl) <;>
          (try rcases hcomp with rfl | rfl) <;> (try subst hcomp) <;> first | (simp; done) | (simp [Iface.builds] at hb; done) | simp at hf
      | some r =>
        simp only [Option.toList_some, List.flatMap_cons, List.flatMap_nil, List.append_nil]
        by_cases hu : s = .updated
        · subst hu
          have hi : i = .updated := hcomp
          subst hi
          cases b with
          | upd x =>
            obtain ⟨b2, hb2, hh2, -⟩ := upd_next hh
            obtain ⟨-, s', b0, c, C', hs0, rfl, -, -⟩ := hh
            rw [upd_return ⟨b0, c, rfl⟩ hb2 hh2 r (hr r rfl)]
            cases hd : r.distinct <;> simp [lastReturn, retVal, Option.filter_some, hd]
          | base b => exact hh.elim
          | ret r => exact hh.elim
          | unwind r => exact hh.elim
          | action r => exact hh.elim
          | with_ w => exact absurd hh.1 (by simp)
          | inCall w => exact absurd hh.1 (by simp)
          | standalone w => exact absurd hh.1 (by simp)
        · rw [return_step hh r (hr r rfl) (fun h => absurd h hu)]
          have hi : i ≠ .updated := by
            rintro rfl
            cases s <;> simp [Iface.Compat] at hcomp hu
          simp [lastReturn, retVal, Option.filter_some, show (i == Iface.updated) = false from beq_eq_false_iff_ne.mpr hi]
    · intro hn
      cases ret with
      | none =>
        simp only [Option.toList_none, List.flatMap_nil, Iface.typed, Option.some.injEq] at ht
        subst ht
        cases s <;> simp only [Iface.Compat] at hcomp <;> (try rcases hcomp with rfl | rfl | rfl | rfl | rfl | rfl) <;> (try rcases hcomp with rfl | rfl | rfl) <;>
          (try rcases hcomp with rfl | rfl) <;> (try subst hcomp) <;> first | (simp; done) | (simp [Iface.builds] at hb; done)
      | some r =>
        simp only [lastReturn, Option.filter_eq_none_iff, Option.some.injEq, Bool.not_eq_true, Bool.not_eq_false', Bool.and_eq_true, beq_iff_eq, forall_eq'] at hn
        obtain ⟨-, rfl⟩ := hn
        cases s <;> simp [Iface.Compat] at hcomp ⊢
  | some d =>
    obtain ⟨s, P, C, v, hl, htold, hcl, hty, hw⟩ := h
    refine ⟨d.stage, P, C ++ [v], by simpa using htold.clause (s' := d.stage) hcl.1 hcl.2.1 hcl.2.2, ?_, ?_⟩
    · cases b with
      | base b =>
        obtain ⟨rfl, hwt⟩ := hl
        cases ret with
        | none =>
          simp only [Option.toList_none, List.flatMap_nil, execAll, Outcome.bind, lastReturn, Option.filter_none, retVal, Option.bind_none]
          rw [B.build, Base.build, hwt.has.err.1]
          simp only [build_finish hwt.has]
        | some r =>
          have hi : i ≠ .updated := by
            rintro rfl
            rcases waits_stage hw with h | h <;> rw [h] at hty <;> simp [LateType] at hty
          simp only [Option.toList_some, List.flatMap_cons, List.flatMap_nil, List.append_nil]
          rw [return_base hwt.has r (hr r rfl)]
          simp [lastReturn, retVal, Option.filter_some, show (i == Iface.updated) = false from beq_eq_false_iff_ne.mpr hi]
      | upd x =>
        obtain rfl := hl.1
        obtain ⟨b2, hb2, hw2, hx⟩ := hl.next
        have hx' : ∃ b0 c, x = { base := some b0, builder := some c } := by
          obtain ⟨-, b0, c, C', rfl, -⟩ := hl
          exact ⟨b0, c, rfl⟩
        have hi : i = .updated := by
          cases hs : d.stage <;> rw [hs] at hty <;> exact hty
        subst hi
        cases ret with
        | none =>
          obtain ⟨b0, c, rfl⟩ := hx'
          simp only [Option.toList_none, List.flatMap_nil, execAll, Outcome.bind, lastReturn, Option.filter_none, retVal, Option.bind_none]
          simp only [B.build, UpdB.build, hb2, Outcome.bind, build_finish hw2.has]
          rfl
        | some r =>
          simp only [Option.toList_some, List.flatMap_cons, List.flatMap_nil, List.append_nil]
          rw [upd_return hx' hb2 hw2.has r (hr r rfl)]
          cases hd : r.distinct <;> simp [lastReturn, retVal, Option.filter_some, hd]
      | ret r => exact hl.elim
      | unwind r => exact hl.elim
      | action r => exact hl.elim
      | with_ w => exact hl.elim
      | inCall w => exact hl.elim
      | standalone w => exact hl.elim
    · intro _
      rcases waits_stage hw with h | h <;> rw [h] <;> simp

/-- The type in the end is that of SET or REMOVE if one of them is last. -/
theorem ends_updated (rs : List Req) {s : Stage} {i j : Iface} (hi : Iface.Compat s i) (h : i.typed (rs.flatMap Req.calls) = some j) (hu : i ≠ .updated) :
    (j == .updated) = rs.getLast?.any Req.sets := by
  have key : ∀ (rs : List Req) (s : Stage) (i : Iface), Iface.Compat s i → i.typed (rs.flatMap Req.calls) = some j →
      (j == .updated) = if rs = [] then i == .updated else rs.getLast?.any Req.sets := by
    intro rs
    induction rs with
    | nil =>
      intro s i _ h
      simp only [List.flatMap_nil, Iface.typed, Option.some.injEq] at h
      subst h
      rfl
    | cons r rs ih =>
      intro s i hi h
      rw [List.flatMap_cons, Iface.typed_append, Option.bind_eq_some_iff] at h
      obtain ⟨k, hk, hj⟩ := h
      have hc := Iface.stage_ok hi r hk
      rw [ih _ _ hc hj]
      by_cases hrs : rs = []
      · subst hrs
        simp only [if_true, reduceCtorEq, if_false, List.getLast?_singleton, Option.any_some]
        generalize hst : r.stage = st at hc
        have h2 : r.sets = (st == .updated) := by
          rw [← hst]
          cases r <;> simp only [Req.sets, Req.stage] <;> first | rfl | (split <;> rfl)
        rw [h2]
        cases st <;> simp only [Iface.Compat] at hc <;> (try rcases hc with rfl | rfl | rfl | rfl | rfl | rfl) <;> (try rcases hc with rfl | rfl | rfl) <;>
          (try rcases hc with rfl | rfl) <;> (try subst hc) <;> rfl
      · rw [if_neg hrs, if_neg (by simp)]
        obtain ⟨x, xs, rfl⟩ := List.exists_cons_of_ne_nil hrs
        rw [List.getLast?_cons_cons]
  rw [key rs s i hi h]
  by_cases hrs : rs = []
  · simp [hrs, hu]
  · rw [if_neg hrs]

/-! ### C64 -/

/-- C64: the text of every query that Go's type checker admits and that ends with a `Build`, if no part has an error.  `Build` gives a
statement without error; its text is that of the query with the clauses in the order in which they are put down, and without a RETURN DISTINCT
after SET or REMOVE. -/
theorem C64_statement (q : Query) (i : Iface) (ht : q.type = some i) (hb : i.builds = true) (hc : ∀ c, q.call = some c → c.Ok) (hq : ∀ r ∈ q.reqs, r.Ok u)
    (hr : ∀ r, q.ret = some r → r.Ok u) :
    ∃ s, q.run u = .ok (.ok s) ∧ s.err = none ∧ (q.settled.ret ≠ none → s.returns = true) ∧
      ∀ e, NoAlias e (q.settled.keys u) s.visit → shownAs e s.visit = layout e (q.settled.parts u) := by
  by_cases hone : q.ret = none ∧ q.reqs = [] ∧ ∃ c, q.call = some c ∧ c.cond = none
  · obtain ⟨h1, h2, c, h3, h4⟩ := hone
    have hok : q.Ok u := ⟨hc, hq, hr, .first, by simp [Query.start, h2, h3, h4, Query.walk], by simp [h1, Query.mayEnd]⟩
    obtain ⟨s, h5, h6, -, h7⟩ := C30_statement_partial q hok
    have hs : settle none false [Req.proc c] = [.proc c] := by simp [settle, Req.waits, h4]
    refine ⟨s, h5, h6, by simp [Query.settled, h1], fun e ha => ?_⟩
    have hk : q.settled.keys u = q.keys u := by simp [Query.settled, Query.keys, h1, h2, h3, hs, Req.keys]
    have hp : q.settled.parts u = q.parts u := by simp [Query.settled, Query.parts, h1, h2, h3, hs, Req.parts]
    rw [hp]
    exact h7 e (by rw [← hk]; exact ha)
  rw [Query.type, Iface.typed_append, Iface.typed_append, Option.bind_eq_some_iff] at ht
  obtain ⟨j, hj, hret⟩ := ht
  rw [Option.bind_eq_some_iff] at hj
  obtain ⟨k, hk, hj⟩ := hj
  -- after the first calls
  have hfirst : ∃ b d ks ps, q.first u = .ok b ∧ Settles u d false b ks ps k ∧ (∃ s, Iface.Compat s k) ∧ k ≠ .updated ∧ (k = .firstYield → ∃ c, q.call = some c ∧ c.cond = none) ∧
      ks ++ (settle d false q.reqs).flatMap (Req.keys u) = (settle none false ((q.call.map Req.proc).toList ++ q.reqs)).flatMap (Req.keys u) ∧
      ps ++ (settle d false q.reqs).flatMap (Req.parts u) = (settle none false ((q.call.map Req.proc).toList ++ q.reqs)).flatMap (Req.parts u) := by
    cases hcall : q.call with
    | none =>
      simp only [hcall, Option.isSome_none, Bool.false_eq_true, if_false, Option.toList_none, List.flatMap_nil, Iface.typed, Option.some.injEq] at hk
      subst hk
      refine ⟨start, none, [], [], by simp [Query.first, hcall], ⟨.plain, [], [], rfl, Told.start, Or.inl rfl, by simp, by simp⟩, ⟨.plain, Or.inl rfl⟩, by simp, by simp, by simp, by simp⟩
    | some c =>
      obtain ⟨b, v, h1, h2, h3, h4, h5⟩ := start_call (u := u) c (hc c hcall)
      simp only [hcall, Option.isSome_some, if_true, Option.toList_some, List.flatMap_cons, List.flatMap_nil, List.append_nil] at hk
      have hk2 := Iface.first_typed c hk
      have hcl : ClauseFor u (.proc c) v := ⟨h2, h3, by simp [h4]⟩
      cases hcond : c.cond with
      | none =>
        simp only [hcond, if_true] at hk2 h5
        subst hk2
        refine ⟨b, none, Req.keys u (.proc c), Req.parts u (.proc c), by simp only [Query.first, hcall]; exact h1, ⟨.first, [], [v], h5, ?_, rfl, by simp, by simp⟩, ⟨.first, rfl⟩, by simp,
          fun _ => ⟨c, rfl, hcond⟩, ?_, ?_⟩
        · simpa using Told.start.clause (s' := .first) hcl.1 hcl.2.1 (by simp [h4])
        · simp [settle, Req.waits, hcond]
        · simp [settle, Req.waits, hcond]
      | some p =>
        simp only [hcond, reduceCtorEq, if_false] at hk2 h5
        subst hk2
        have hw : (Req.proc c).waits = true := by simp [Req.waits, hcond]
        obtain ⟨C, w, hC, hl⟩ := h5.late (Or.inl rfl)
        have hC' : C = [] ∧ w = v := by
          cases C with
          | nil => simpa using hC.symm
          | cons x xs => simp at hC
        obtain ⟨rfl, rfl⟩ := hC'
        have hst : (Req.proc c).stage = .callWhere := by simp [Req.stage, hcond]
        refine ⟨b, some (.proc c), [], [], by simp only [Query.first, hcall]; exact h1, ⟨.plain, [], [], w, by rw [hst]; exact hl, Told.start, hcl, by rw [hst]; exact Or.inl rfl, hw⟩,
          ⟨.callWhere, rfl⟩, by simp, by simp, ?_, ?_⟩
        · simp [settle, hw]
        · simp [settle, hw]
  obtain ⟨b, d, ks, ps, h1, h2, ⟨s0, hs0⟩, hku, hkf, hks, hps⟩ := hfirst
  obtain ⟨b', d', again', ks', ps', h3, h4, h5, h6⟩ := settle_steps q.reqs hq h2 hj
  have hju := ends_updated q.reqs hs0 hj hku
  have hlast : q.settled.ret = lastReturn j q.ret := by simp only [Query.settled, lastReturn, hju]
  have hfy : j = .firstYield → q.ret ≠ none := by
    intro hjf hn
    apply hone
    refine ⟨hn, ?_⟩
    by_cases hrs : q.reqs = []
    · rw [hrs] at hj
      simp only [List.flatMap_nil, Iface.typed, Option.some.injEq] at hj
      subst hj
      exact ⟨hrs, hkf hjf⟩
    · exfalso
      have key : ∀ (rs : List Req) (s : Stage) (i : Iface), rs ≠ [] → Iface.Compat s i → i.typed (rs.flatMap Req.calls) = some j → ∃ r ∈ rs, Iface.Compat r.stage j := by
        intro rs
        induction rs with
        | nil => intro _ _ h; exact absurd rfl h
        | cons r rs ih =>
          intro s i _ hi h
          rw [List.flatMap_cons, Iface.typed_append, Option.bind_eq_some_iff] at h
          obtain ⟨k, hk, hj⟩ := h
          have hc := Iface.stage_ok hi r hk
          by_cases hrs : rs = []
          · subst hrs
            simp only [List.flatMap_nil, Iface.typed, Option.some.injEq] at hj
            subst hj
            exact ⟨r, by simp, hc⟩
          · obtain ⟨r', hr', h'⟩ := ih _ _ hrs hc hj
            exact ⟨r', by simp [hr'], h'⟩
      obtain ⟨r, -, hc⟩ := key _ _ _ hrs hs0 hj
      subst hjf
      cases r <;> simp only [Req.stage] at hc <;> (try split at hc) <;> simp [Iface.Compat] at hc
  obtain ⟨s, P, C, h7, h8, h9⟩ := settles_end h4 q.ret hr hret hb hfy
  have hrun : q.run u = (finish P C (retVal u (lastReturn j q.ret))).map .ok := by
    rw [Query.run, h1]
    simp only [Outcome.bind]
    rw [execAll_append, h3]
    exact h8
  rw [hrun, hlast]
  have hkeys : q.settled.keys u = (ks' ++ d'.toList.flatMap (Req.keys u)) ++ (lastReturn j q.ret).toList.flatMap (RetReq.keys u) := by
    simp only [Query.keys, hlast]
    rw [h5, hks]
    simp [Query.settled]
  have hparts : q.settled.parts u = (ps' ++ d'.toList.flatMap (Req.parts u)) ++ (lastReturn j q.ret).toList.flatMap (RetReq.parts u) := by
    simp only [Query.parts, hlast]
    rw [h6, hps]
    simp [Query.settled]
  rw [hkeys, hparts]
  have hlr : ∀ r, lastReturn j q.ret = some r → r.Ok u := by
    intro r h
    simp only [lastReturn, Option.filter_eq_some_iff] at h
    exact hr r h.1
  generalize lastReturn j q.ret = ret at h9 hlr
  cases ret with
  | some r =>
    have hok := hlr r rfl
    obtain ⟨v, hv, hg, -⟩ := C25_return (e := ⟨fun _ => none, fun _ => false⟩) r.k r.ko (r.result u) hok.2
    have hs : Shows (r.keys u) v.visit (r.parts u) := by
      intro e ha
      obtain ⟨v', hv', -, hs'⟩ := C25_return (e := e) r.k r.ko (r.result u) hok.2
      rw [hv] at hv'
      cases hv'
      exact hs' ha
    obtain ⟨st, hf, he, hret, hsh⟩ := finish_ok h7 (some v) (r.keys u) (r.parts u) (fun x hx => by cases hx; exact hg) hs (by simp)
    refine ⟨st, ?_, he, fun _ => by simpa using hret, fun e ha => ?_⟩
    · have hv2 : returnCreate r.k r.ko r.distinct (items u r.args) (r.result u).orderB = some v := hv
      simp only [retVal, Option.bind_some, hv2, hf]
      rfl
    · rw [hsh e (by simpa using ha)]
      simp
  | none =>
    obtain ⟨st, hf, he, hret, hsh⟩ := finish_ok h7 none [] [] (by simp) .nil (fun _ => h9 rfl)
    refine ⟨st, ?_, he, by simp, fun e ha => ?_⟩
    · simp only [retVal, Option.bind_none, hf]
      rfl
    · rw [hsh e (by simpa using ha)]
      simp

end

/-! ### The order -/

theorem settle_some (d r : Req) (rs : List Req) (again : Bool) (h : d.passes again r = false) : settle (some d) again (r :: rs) = d :: settle none false (r :: rs) := by
  simp only [settle, h, Bool.false_eq_true, if_false]

theorem settle_perm (rs : List Req) (d : Option Req) (again : Bool) : (settle d again rs).Perm (d.toList ++ rs) := by
  induction rs generalizing d again with
  | nil => simp [settle]
  | cons r rs ih =>
    have h0 : (if r.waits then settle (some r) false rs else r :: settle none false rs).Perm (r :: rs) := by
      split
      · simpa using ih (some r) false
      · simpa using (ih none false).cons r
    cases d with
    | none => rw [settle]; exact h0
    | some d =>
      rw [settle]
      split
      · have := (ih (some d) true).cons r
        simp only [Option.toList_some, List.cons_append, List.nil_append] at this ⊢
        exact this.trans (List.Perm.swap ..)
      · simpa using h0.cons d

/-- C64: in whatever order, every clause that was requested is put down exactly once. -/
theorem C64_permutation (q : Query) : q.settled.reqs.Perm ((q.call.map Req.proc).toList ++ q.reqs) := by
  simpa [Query.settled] using settle_perm ((q.call.map Req.proc).toList ++ q.reqs) none false

theorem passes_waits {d : Req} {again : Bool} {r : Req} (h : d.passes again r = true) : r.waits = false := by
  cases r <;> simp only [Req.passes, Bool.false_eq_true] at h <;> rfl

/-- C64: the clauses are put down in the order in which they were requested if and only if no clause that waits is directly followed by one that is
put down before it. -/
theorem C64_order (rs : List Req) : settle none false rs = rs ↔ ∀ pre d r post, rs = pre ++ d :: r :: post → d.waits = true → d.passes false r = false := by
  induction rs with
  | nil => simp [settle]
  | cons d rs ih =>
    have hall : (∀ pre d' r post, d :: rs = pre ++ d' :: r :: post → d'.waits = true → d'.passes false r = false) ↔
        (∀ r post, rs = r :: post → d.waits = true → d.passes false r = false) ∧
          ∀ pre d' r post, rs = pre ++ d' :: r :: post → d'.waits = true → d'.passes false r = false := by
      constructor
      · intro h
        refine ⟨fun r post he hw => h [] d r post (by simp [he]) hw, fun pre d' r post he hw => h (d :: pre) d' r post (by simp [he]) hw⟩
      · rintro ⟨h1, h2⟩ pre d' r post he hw
        cases pre with
        | nil =>
          simp only [List.nil_append, List.cons.injEq] at he
          obtain ⟨rfl, he⟩ := he
          exact h1 r post he hw
        | cons x xs =>
          simp only [List.cons_append, List.cons.injEq] at he
          exact h2 xs d' r post he.2 hw
    rw [hall, ← ih]
    cases hw : d.waits with
    | false =>
      rw [settle, if_neg (by simp [hw])]
      simp
    | true =>
      rw [settle, if_pos hw]
      cases rs with
      | nil => simp [settle]
      | cons r rs =>
        by_cases hp : d.passes false r = true
        · constructor
          · intro h
            rw [settle, if_pos hp] at h
            simp only [List.cons.injEq] at h
            obtain ⟨rfl, -⟩ := h
            rw [passes_waits hp] at hw
            cases hw
          · rintro ⟨h, -⟩
            rw [h r rs rfl rfl] at hp
            cases hp
        · rw [settle_some _ _ _ _ (by simpa using hp)]
          simp only [List.cons.injEq, true_and, and_imp]
          constructor
          · intro h
            refine ⟨?_, h⟩
            rintro r' post rfl rfl
            simpa using hp
          · exact fun h => h.2

/-! ### A query in which clauses change places -/

namespace SampleBuilder

/-- `Call("f").Yield(y).Where(a).Unwind(y).As("z").SetWithNamed(n, z).Merge(q).OnCreate().Set(x, y).RemoveByNode(n, "L").Set(x, z).Create(p)` -/
def late : Query where
  call := some { kc := 1, ka := 2, kw := 3, k := 4, kn := 5, ky := 6, name := c!"f", args := [], yields := [y], cond := some ca }
  reqs := [.unwind 7 8 y c!"z",
    .setNamed (uk 1) { sym := w 130 c!"n", req := w 130 c!"n" } z,
    .merge (uk 0) q [⟨117, 118, 119, fun i => 120 + i, .onCreate, [.pair x y]⟩],
    .removeLabels (uk 2) [] 131 132 (fun i => 133 + i) node [c!"L"],
    .set (uk 3) [.pair x z],
    .create (uk 4) p]

end SampleBuilder
open SampleBuilder

-- the hypotheses of C64 hold for it
example : late.type = some .updateSet ∧ (∀ c, late.call = some c → c.Ok) ∧ (∀ r ∈ late.reqs, r.Ok .ascii) ∧ ∀ r, late.ret = some r → r.Ok .ascii := by
  refine ⟨by decide +kernel, ?_, ?_, by simp [late]⟩
  · intro c hc
    cases hc
    refine ⟨by simp, ?_, ?_⟩
    · simp only [List.mem_cons, List.not_mem_nil, or_false, forall_eq]; exact ⟨rfl, ⟨_, _, rfl⟩⟩
    · intro c hc; cases hc; exact ⟨rfl, rfl, rfl⟩
  · simp only [late, List.mem_cons, List.not_mem_nil, or_false, forall_eq_or_imp, forall_eq]
    refine ⟨?_, ?_, ?_, ?_, ?_, ?_⟩
    · exact ⟨rfl, by simp [y, w, Val.mk']⟩
    · exact ⟨rfl, rfl, w_good .., w_good .., rfl, rfl⟩
    · refine ⟨⟨rfl, ⟨_, _, rfl⟩⟩, ?_⟩
      simp only [List.mem_cons, List.not_mem_nil, or_false, forall_eq]
      exact ⟨w_good .., w_good .., rfl, rfl⟩
    · exact ⟨⟨rfl, rfl, by simp [node]⟩, by simp, by simp⟩
    · simp only [Req.Ok, List.mem_cons, List.not_mem_nil, or_false, forall_eq]
      exact ⟨w_good .., w_good .., rfl, rfl⟩
    · exact ⟨rfl, ⟨_, _, rfl⟩⟩

/-- C64: clauses do change places: the call and MERGE are rendered after what was requested after them, and a RETURN DISTINCT after SET is lost. -/
theorem C64_changed :
    (match late.run .ascii with | .ok (.ok s) => text s.visit | _ => c!"bad") =
      c!"UNWIND y AS z SET n = z CALL f() YIELD y WHERE a REMOVE n:`L` SET x = z MERGE (q) ON CREATE SET x = y CREATE (p) " ∧
    Iface.entry.typed [.match_ 1 2 false [p], .set (uk 0) [x, y], .returning 50 51 true (.exprs [x])] = some .ret ∧
    shown (.ok start) [.match_ 1 2 false [p], .set (uk 0) [x, y], .returning 50 51 true (.exprs [x])] = c!"MATCH (p) SET x = y " := by decide +kernel

end Verif
