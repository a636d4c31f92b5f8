import Verif.BuilderSpec

/-
The interfaces of the fluent builder: which calls Go's type checker admits after which, statement_builder.go, exposes_create.go,
exposes_match.go, exposes_merge.go, exposes_returning.go, exposes_subquery_call.go, exposes_unwind.go, exposes_where.go, and the
interfaces in procedure_call.go.  `AsCondition`, `AsFunction` and `GetErr` are left out, since no further call can follow them.
-/

namespace Verif
open Spec

/-- The interface types that calls return; `entry`: the functions of cypher.go that start a statement. -/
inductive Iface where
  | entry
  | reading               -- OngoingReading
  | readingNoWhere        -- OngoingReadingWithoutWhere
  | readingWhere          -- OngoingReadingWithWhere
  | unwind                -- OngoingUnwind
  | withNoWhere           -- OrderableOngoingReadingAndWithWithoutWhere
  | withWhere             -- OrderableOngoingReadingAndWithWithWhere
  | withOrder             -- OngoingReadingAndWithWithWhereAndOrder
  | withSort              -- OngoingOrderDefinition
  | withEnd               -- OngoingReadingAndWith
  | withSkip              -- ExposesLimitAndOngoingReadingAndWith, which has no method
  | update                -- OngoingUpdate
  | updateSet             -- OngoingUpdateAndExposesSet
  | updated               -- BuildableStatementAndOngoingMatchAndUpdate
  | merged                -- OngoingMatchAndUpdateAndBuildableStatementAndExposesMergeAction
  | mergeAction           -- OngoingMergeAction
  | ret                   -- OngoingReadingAndReturn
  | retOrder              -- OngoingMatchAndReturnWithOrder
  | retSort               -- TerminalOngoingOrderDefinition
  | retSkip               -- TerminalExposesLimitAndBuildableStatement
  | buildable             -- BuildableStatement
  | callNoArgs            -- OngoingInQueryCallWithoutArguments
  | callArgs              -- OngoingInQueryCallWithArguments
  | callYield             -- OngoingInQueryCallWithReturnFields
  | firstNoYield          -- OngoingStandaloneCallWithoutArguments
  | firstYield            -- OngoingStandaloneCallWithReturnFields
  deriving DecidableEq, Repr

namespace Iface

/-- exposes_returning.go:3-10 `ExposesReturning`, statement_builder.go:143-150 `ExposesWith`. -/
def resultSig : Call → Option Iface
  | .returning .. => some ret
  | .with_ .. => some withNoWhere
  | _ => none

/-- statement_builder.go:134-141 `ExposesDelete`, exposes_merge.go:3-5 `ExposesMerge`, exposes_create.go:3-5 `ExposesCreate`. -/
def updateSig : Call → Option Iface
  | .delete .. => some update
  | .merge .. | .create .. => some updateSet
  | _ => none

/-- statement_builder.go:152-162 `ExposesSet`, `ExposesSetAndRemove`. -/
def setSig : Call → Option Iface
  | .set .. | .setNamed .. | .setLabels .. | .removeLabels .. | .remove .. => some updated
  | _ => none

/-- statement_builder.go:24-33 `OngoingReading`, exposes_unwind.go:3-7, exposes_subquery_call.go:3-5. -/
def readingSig (c : Call) : Option Iface :=
  (resultSig c).or <| (updateSig c).or <| (setSig c).or <|
    match c with
    | .unwind .. => some unwind
    | .callStmt .. => some readingNoWhere
    | .callProc .. => some callNoArgs
    | _ => none

/-- exposes_match.go:3-7 `ExposesMatch`. -/
def matchSig : Call → Option Iface
  | .match_ .. => some readingNoWhere
  | _ => none

/-- statement_builder.go:118-126 `ExposesSkip`, `ExposesLimit`. -/
def withNumSig : Call → Option Iface
  | .skip .. => some withSkip
  | .limit .. => some withEnd
  | _ => none

/-- statement_builder.go:113-116 `ExposesOrderBy`. -/
def withOrderSig : Call → Option Iface
  | .orderItems .. => some withWhere
  | .orderBy .. => some withSort
  | _ => none

/-- statement_builder.go:195-218: `TerminalExposesSkip`, `TerminalExposesLimit`. -/
def retNumSig : Call → Option Iface
  | .skip .. => some retSkip
  | .limit .. => some buildable
  | _ => none

/-- The type that a call returns, if the receiver's type has it. -/
def sig : Iface → Call → Option Iface
  | entry, c => (matchSig c).or <|
      match c with
      | .create .. | .merge .. => some updateSet
      | .with_ .. => some withNoWhere
      | .unwind .. => some unwind
      | .returning .. => some ret
      | .callStmt .. => some readingNoWhere
      | _ => none
  | reading, c => readingSig c
  | readingNoWhere, c => (readingSig c).or <| (matchSig c).or <| match c with | .where_ _ => some readingWhere | _ => none
  | readingWhere, c => (readingSig c).or <| (matchSig c).or <| match c with | .and .. | .or .. => some readingWhere | _ => none
  | unwind, .as .. => some reading
  | withNoWhere, c => (readingSig c).or <| (matchSig c).or <| (withNumSig c).or <| (withOrderSig c).or <| match c with | .where_ _ => some withWhere | _ => none
  | withWhere, c => (readingSig c).or <| (matchSig c).or <| (withNumSig c).or <| (withOrderSig c).or <| match c with | .and .. | .or .. => some withWhere | _ => none
  | withOrder, c => (readingSig c).or <| (matchSig c).or <| (withNumSig c).or <| match c with | .andBy .. => some withSort | _ => none
  | withSort, c => (withNumSig c).or <| match c with | .asc _ | .desc => some withOrder | _ => none
  | withEnd, c => (readingSig c).or (matchSig c)
  | update, c => (resultSig c).or <| (updateSig c).or <| match c with | .on _ => some mergeAction | _ => none
  | updateSet, c => (resultSig c).or <| (updateSig c).or <| match c with | .on _ => some mergeAction | .set .. | .setNamed .. => some updated | _ => none
  | updated, c => (resultSig c).or <| (updateSig c).or (setSig c)
  | merged, c => (resultSig c).or <| (updateSig c).or <| (setSig c).or <| match c with | .on _ => some mergeAction | _ => none
  | mergeAction, .actionSet .. => some merged
  | ret, c => (retNumSig c).or <| match c with | .orderItems .. => some retOrder | .orderBy .. => some retSort | _ => none
  | retOrder, c => (retNumSig c).or <| match c with | .andBy .. => some retSort | _ => none
  | retSort, c => (retNumSig c).or <| match c with | .asc _ | .desc => some retOrder | _ => none
  | retSkip, .limit .. => some buildable
  | callNoArgs, .args .. => some callArgs
  | callNoArgs, .yield .. => some callYield
  | callArgs, .yield .. => some callYield
  | callYield, c => (resultSig c).or <| match c with | .where_ _ => some readingWhere | .callStmt .. => some readingNoWhere | _ => none
  | firstNoYield, .args .. => some firstNoYield
  | firstNoYield, .yield .. => some firstYield
  | firstYield, c => (resultSig c).or <| match c with | .where_ _ => some readingWhere | .callStmt .. => some readingNoWhere | _ => none
  | _, _ => none

/-- Does the type have `Build`? -/
def builds : Iface → Bool
  | update | updateSet | updated | merged | ret | retOrder | retSort | retSkip | buildable | firstNoYield | firstYield => true
  | _ => false

/-- The type after calls, if every one is admitted. -/
def typed (i : Iface) : List Call → Option Iface
  | [] => some i
  | c :: cs => (sig i c).bind fun i => typed i cs

end Iface

namespace Spec

/-- The type that the calls of a query have in the end, if they are admitted. -/
def Query.type (q : Query) : Option Iface :=
  Iface.typed (if q.call.isSome then .firstNoYield else .entry)
    (q.call.toList.flatMap ProcReq.calls ++ q.reqs.flatMap Req.calls ++ q.ret.toList.flatMap RetReq.calls)

/-- Clauses that the interfaces allow at a stage and that end up in the wrong place. -/
def Gap : Stage → Req → Bool
  | .callWhere, .unwind .. | .callWhere, .set .. | .callWhere, .setNamed .. | .callWhere, .setLabels .. | .callWhere, .removeLabels ..
  | .callWhere, .remove .. => true
  | .merged, .setLabels .. | .merged, .removeLabels .. | .merged, .remove .. => true
  | _, _ => false

end Spec

/-! ### Lemmas -/

namespace Iface

theorem typed_append (i : Iface) (cs ds : List Call) : typed i (cs ++ ds) = (typed i cs).bind fun i => typed i ds := by
  induction cs generalizing i with
  | nil => rfl
  | cons c cs ih =>
    simp only [List.cons_append, typed]
    cases sig i c with
    | none => rfl
    | some j => simp only [Option.bind_some]; exact ih j

/-- The types a builder can have at a stage. -/
def Compat : Stage → Iface → Prop
  | .plain, i => i = .entry ∨ i = .readingNoWhere ∨ i = .reading
  | .match_, i => i = .readingNoWhere ∨ i = .readingWhere
  | .created, i => i = .updateSet ∨ i = .update
  | .merged, i => i = .merged
  | .updated, i => i = .updated
  | .with_, i => i = .withNoWhere ∨ i = .withWhere ∨ i = .withOrder ∨ i = .withSort ∨ i = .withEnd ∨ i = .withSkip
  | .call, i => i = .callYield
  | .callWhere, i => i = .readingWhere
  | .first, i => i = .firstYield

theorem first_ok {s : Stage} {i : Iface} (h : Compat s i) (r : Req) (c : Call) (cs : List Call) (hr : r.calls = c :: cs) (ht : (sig i c).isSome = true) :
    s.allows r = true ∨ Gap s r = true := by
  cases r <;> simp only [Req.calls, WithReq.calls, List.cons_append, List.cons.injEq] at hr <;> obtain ⟨rfl, -⟩ := hr <;>
    cases s <;> simp only [Stage.allows, Gap, Bool.false_eq_true, or_true, true_or, or_false] <;> simp only [Compat] at h <;>
    (try rcases h with rfl | rfl) <;> (try subst h) <;>
    simp [sig, readingSig, resultSig, updateSig, setSig, matchSig] at ht

theorem more_typed (i : Iface) (hi : i = .readingWhere ∨ i = .withWhere) (m : Cond.Keys × BOp × Calls) : sig i (moreCall m) = some i := by
  rcases hi with rfl | rfl <;> simp only [moreCall] <;> split <;>
    simp [sig, readingSig, resultSig, updateSig, setSig, matchSig, withNumSig, withOrderSig]

theorem mores_typed (i : Iface) (hi : i = .readingWhere ∨ i = .withWhere) (ms : List (Cond.Keys × BOp × Calls)) : typed i (ms.map moreCall) = some i := by
  induction ms with
  | nil => rfl
  | cons m ms ih => simp only [List.map_cons, typed, more_typed i hi, Option.bind_some, ih]

/-- The calls that modify a WITH. -/
def modifies : Call → Bool
  | .and .. | .or .. | .orderItems .. | .orderBy .. | .andBy .. | .asc _ | .desc | .skip .. | .limit .. | .where_ _ => true
  | _ => false

theorem with_modified {i j : Iface} (hi : Compat .with_ i) (c : Call) (hc : modifies c = true) (hs : sig i c = some j) : Compat .with_ j := by
  cases c <;> simp only [modifies, Bool.false_eq_true] at hc <;> rcases hi with rfl | rfl | rfl | rfl | rfl | rfl <;>
    simp [sig, readingSig, resultSig, updateSig, setSig, matchSig, withNumSig, withOrderSig] at hs <;> subst hs <;> simp [Compat]

theorem withs_modified (cs : List Call) {i j : Iface} (hi : Compat .with_ i) (hc : ∀ c ∈ cs, modifies c = true) (hs : typed i cs = some j) : Compat .with_ j := by
  induction cs generalizing i with
  | nil => simp only [typed, Option.some.injEq] at hs; subst hs; exact hi
  | cons c cs ih =>
    simp only [typed, Option.bind_eq_some_iff] at hs
    obtain ⟨k, h1, h2⟩ := hs
    exact ih (with_modified hi c (hc c (by simp)) h1) (fun x hx => hc x (by simp [hx])) h2

theorem mods_modify (ms : List WithMod) : ∀ c ∈ ms.flatMap WithReq.modCalls, modifies c = true := by
  intro c hc
  simp only [List.mem_flatMap] at hc
  obtain ⟨m, -, hc⟩ := hc
  cases m with
  | more m =>
    simp only [WithReq.modCalls, List.mem_singleton, moreCall] at hc
    subst hc
    split <;> rfl
  | order again o =>
    cases o with
    | items ds => simp only [WithReq.modCalls, orderCalls, List.mem_singleton] at hc; subst hc; rfl
    | sort d =>
      cases again <;> cases hd : d.dir <;> simp only [WithReq.modCalls, orderCalls, hd, List.mem_cons, List.not_mem_nil, or_false, if_true, Bool.false_eq_true, if_false] at hc <;>
        (try rcases hc with rfl | rfl) <;> (try subst hc) <;> rfl

theorem actions_typed (as : List ActionReq) {i j : Iface} (hi : i = .updateSet ∨ i = .merged)
    (h : typed i (as.flatMap fun a => [.on a.type, .actionSet a.k a.kset a.kl a.ks (a.args.flatMap SetArg.args)]) = some j) : j = if as = [] then i else .merged := by
  induction as generalizing i with
  | nil => simpa [typed] using h.symm
  | cons a as ih =>
    have h1 : typed i [.on a.type, .actionSet a.k a.kset a.kl a.ks (a.args.flatMap SetArg.args)] = some .merged := by
      rcases hi with rfl | rfl <;> simp [typed, sig, resultSig, updateSig, setSig]
    rw [List.flatMap_cons, typed_append, h1, Option.bind_some] at h
    rw [ih (Or.inr rfl) h]
    simp

theorem proc_typed (r : ProcReq) {j : Iface} (h : typed .callNoArgs r.calls = some j) : j = if r.cond = none then .callYield else .readingWhere := by
  by_cases ha : r.args = [] <;> cases hc : r.cond <;> simp [ProcReq.calls, ha, hc, typed, sig, resultSig] at h <;> simp [h]

theorem first_typed (r : ProcReq) {j : Iface} (h : typed .firstNoYield r.calls = some j) : j = if r.cond = none then .firstYield else .readingWhere := by
  by_cases ha : r.args = [] <;> cases hc : r.cond <;> simp [ProcReq.calls, ha, hc, typed, sig, resultSig] at h <;> simp [h]

theorem stage_ok {s : Stage} {i j : Iface} (hi : Compat s i) (r : Req) (ht : typed i r.calls = some j) : Compat r.stage j := by
  have hne : i ≠ .mergeAction ∧ i ≠ .unwind ∧ i ≠ .callNoArgs ∧ i ≠ .callArgs ∧ i ≠ .firstNoYield := by
    cases s <;> simp only [Compat] at hi <;> (try rcases hi with rfl | rfl | rfl | rfl | rfl | rfl) <;> (try rcases hi with rfl | rfl | rfl) <;>
      (try rcases hi with rfl | rfl) <;> (try subst hi) <;> simp
  cases r with
  | match_ k kw o ps w =>
    simp only [Req.calls, typed, Option.bind_eq_some_iff] at ht
    obtain ⟨k1, h1, h2⟩ := ht
    have hk : k1 = .readingNoWhere := by
      cases i <;> simp [sig, readingSig, resultSig, updateSig, setSig, matchSig, withNumSig, withOrderSig, retNumSig] at h1 <;> exact h1.symm
    subst hk
    cases w with
    | none => simp only [Option.toList_none, List.flatMap_nil, typed, Option.some.injEq] at h2; subst h2; exact Or.inl rfl
    | some w =>
      simp only [Option.toList_some, List.flatMap_cons, List.flatMap_nil, List.append_nil, WhereReq.calls, typed] at h2
      rw [show sig .readingNoWhere (.where_ w.first.build) = some .readingWhere from rfl, Option.bind_some, mores_typed _ (Or.inl rfl)] at h2
      simp only [Option.some.injEq] at h2
      subst h2
      exact Or.inr rfl
  | with_ r =>
    simp only [Req.calls, WithReq.calls, List.cons_append, typed, Option.bind_eq_some_iff] at ht
    obtain ⟨k1, h1, h2⟩ := ht
    have hk : k1 = .withNoWhere := by
      cases i <;> simp [sig, readingSig, resultSig, updateSig, setSig, matchSig, withNumSig, withOrderSig, retNumSig] at h1 <;> exact h1.symm
    subst hk
    refine withs_modified _ (Or.inl rfl) ?_ h2
    intro c hc
    simp only [List.mem_append, List.mem_map] at hc
    rcases hc with ((⟨_, _, rfl⟩ | hc) | ⟨_, _, rfl⟩) | ⟨_, _, rfl⟩
    · rfl
    · exact mods_modify _ c hc
    · rfl
    · rfl
  | unwind k kn x name =>
    simp only [Req.calls, typed, Option.bind_eq_some_iff] at ht
    obtain ⟨k1, h1, k2, h2, h3⟩ := ht
    have hk : k1 = .unwind := by
      cases i <;> simp [sig, readingSig, resultSig, updateSig, setSig, matchSig, withNumSig, withOrderSig, retNumSig] at h1 <;> exact h1.symm
    subst hk
    simp only [sig, Option.some.injEq] at h2 h3
    subst h2 h3
    exact Or.inr (Or.inr rfl)
  | create ks p =>
    simp only [Req.calls, typed, Option.bind_eq_some_iff] at ht
    obtain ⟨k1, h1, h2⟩ := ht
    cases h2
    left
    cases i <;> simp [sig, readingSig, resultSig, updateSig, setSig, matchSig, withNumSig, withOrderSig, retNumSig] at h1 <;> exact h1.symm
  | merge ks p as =>
    simp only [Req.calls, typed, Option.bind_eq_some_iff] at ht
    obtain ⟨k1, h1, h2⟩ := ht
    have hk : k1 = .updateSet := by
      cases i <;> simp [sig, readingSig, resultSig, updateSig, setSig, matchSig, withNumSig, withOrderSig, retNumSig] at h1 <;> exact h1.symm
    subst hk
    have := actions_typed as (Or.inl rfl) h2
    subst this
    simp only [Req.stage]
    split
    · exact Or.inl rfl
    · rfl
  | delete ks d a =>
    simp only [Req.calls, typed, Option.bind_eq_some_iff] at ht
    obtain ⟨k1, h1, h2⟩ := ht
    cases h2
    right
    cases i <;> simp [sig, readingSig, resultSig, updateSig, setSig, matchSig, withNumSig, withOrderSig, retNumSig] at h1 <;> exact h1.symm
  | sub k s =>
    simp only [Req.calls, typed, Option.bind_eq_some_iff] at ht
    obtain ⟨k1, h1, h2⟩ := ht
    cases h2
    right
    left
    cases i <;> simp [sig, readingSig, resultSig, updateSig, setSig, matchSig, withNumSig, withOrderSig, retNumSig] at h1 <;> exact h1.symm
  | proc r =>
    simp only [Req.calls, typed, Option.bind_eq_some_iff] at ht
    obtain ⟨k1, h1, h2⟩ := ht
    have hk : k1 = .callNoArgs := by
      cases i <;> simp [sig, readingSig, resultSig, updateSig, setSig, matchSig, withNumSig, withOrderSig, retNumSig] at h1 <;> exact h1.symm
    subst hk
    have := proc_typed r h2
    subst this
    simp only [Req.stage]
    split <;> rfl
  | _ =>
    simp only [Req.calls, typed, Option.bind_eq_some_iff] at ht
    obtain ⟨k1, h1, h2⟩ := ht
    cases h2
    cases i <;> simp [sig, readingSig, resultSig, updateSig, setSig, matchSig, withNumSig, withOrderSig, retNumSig] at h1 <;> exact h1.symm

theorem walk_ok (rs : List Req) {s : Stage} {i j : Iface} (hi : Compat s i) (ht : typed i (rs.flatMap Req.calls) = some j) :
    (∃ s', Query.walk s rs = some s' ∧ Compat s' j) ∨
      ∃ pre r post s', rs = pre ++ r :: post ∧ Query.walk s pre = some s' ∧ Gap s' r = true := by
  induction rs generalizing s i with
  | nil => simp only [List.flatMap_nil, typed, Option.some.injEq] at ht; subst ht; exact Or.inl ⟨s, rfl, hi⟩
  | cons r rs ih =>
    rw [List.flatMap_cons, typed_append, Option.bind_eq_some_iff] at ht
    obtain ⟨k, h1, h2⟩ := ht
    have hst := stage_ok hi r h1
    obtain ⟨c, cs, hc⟩ : ∃ c cs, r.calls = c :: cs := by cases r <;> simp [Req.calls, WithReq.calls]
    have hsig : (sig i c).isSome = true := by
      rw [hc, typed, Option.bind_eq_some_iff] at h1
      obtain ⟨_, h, _⟩ := h1
      simp [h]
    rcases first_ok hi r c cs hc hsig with ha | hg
    · rcases ih hst h2 with ⟨s', h3, h4⟩ | ⟨pre, r', post, s', rfl, h4, h5⟩
      · exact Or.inl ⟨s', by simp [Query.walk, ha, h3], h4⟩
      · exact Or.inr ⟨r :: pre, r', post, s', rfl, by simp [Query.walk, ha, h4], h5⟩
    · exact Or.inr ⟨[], r, rs, s, rfl, rfl, hg⟩

end Iface

end Verif
