import Verif.BuilderLemmas

/-
Each request leads the builder from one stage to the next.
-/

namespace Verif
open Spec

section
variable {u : Unicode}

theorem execAll_append (b : B) (cs ds : List Call) : execAll u b (cs ++ ds) = (execAll u b cs).bind fun b => execAll u b ds := by
  induction cs generalizing b with
  | nil => rfl
  | cons c cs ih =>
    simp only [List.cons_append, execAll]
    cases exec u b c with
    | panic => rfl
    | ok b' => simp only [Outcome.bind]; exact ih b'

theorem execAll_one (b : B) (c : Call) : execAll u b [c] = exec u b c := by
  simp only [execAll]
  cases exec u b c <;> rfl

theorem firstErr2 {a b : Option Err} (ha : a = none) (hb : b = none) : firstErr [a, b] = none := by simp [ha, hb, firstErr]

theorem firstErr3 {a b c : Option Err} (ha : a = none) (hb : b = none) (hc : c = none) : firstErr [a, b, c] = none := by simp [ha, hb, hc, firstErr]

theorem args_vals {a : Args} (h : ArgsOk u a) : a.vals u = items u a ∧ errsOf (a.vals u) = none := by
  have hv : a.vals u = items u a := by
    cases a with
    | exprs xs => rfl
    | nameds xs => rfl
    | strings xs =>
      have := h.2.2 xs rfl
      simp only [Args.vals, items]
      congr 1
      simpa [List.filter_eq_self] using this
  exact ⟨hv, by rw [hv, errsOf_none_iff]; exact fun x hx => (h.2.1 x hx).1⟩

/-! ### Conditions -/

theorem more_base (b : Base) (hb : b.err = none) (ms : List (Cond.Keys × BOp × Calls)) (hm : ∀ m ∈ ms, m.2.1 ≠ .xor ∧ m.2.2.Usable) (c : Cond) (p : Calls)
    (h : Ready c p) : ∃ c', execAll u (.base { b with omatch := { b.omatch with cond := some c } }) (ms.map moreCall) =
      .ok (.base { b with omatch := { b.omatch with cond := some c' } }) ∧ Ready c' (ms.foldl (fun p m => .bin m.1 m.2.1 p m.2.2) p) := by
  obtain ⟨err, elems, parts, om, ou, oc⟩ := b
  simp only at hb
  subst hb
  induction ms generalizing c p with
  | nil => exact ⟨c, rfl, h⟩
  | cons m ms ih =>
    obtain ⟨c1, h1, hr⟩ := ready_more h m
    obtain ⟨c', h2, hr'⟩ := ih (fun x hx => hm x (by simp [hx])) c1 _ hr
    refine ⟨c', ?_, hr'⟩
    have hm1 := hm m (by simp)
    have he : m.2.2.build.toVal.err = none := (build_ok _ hm1.2).val.1
    obtain ⟨ks, o, q⟩ := m
    cases o with
    | xor => exact absurd rfl hm1.1
    | and =>
      simp only [List.map_cons, moreCall, execAll, exec, if_true, execBase, Base.and]
      simp only [BOp.op] at h1
      rw [h1]
      exact h2
    | or =>
      simp only [List.map_cons, moreCall, execAll, exec, reduceCtorEq, if_false, execBase, Base.or, firstErr2 rfl he]
      simp only [BOp.op] at h1
      rw [h1]
      exact h2

theorem where_base (b : Base) (hb : b.err = none) (w : WhereReq) (hw : w.Ok) :
    ∃ c, execAll u (.base b) w.calls = .ok (.base { b with omatch := { b.omatch with cond := some c } }) ∧ c.Same w.whole.build := by
  obtain ⟨c, h1, h2⟩ := more_base (u := u) b hb w.more hw.2.2 _ _ (ready_first hw.1 hw.2.1)
  refine ⟨c, ?_, h2.1⟩
  have he : w.first.build.toVal.err = none := (build_ok _ hw.1).val.1
  simp only [WhereReq.calls, execAll, exec, execBase, Base.where_, firstErr2 hb he]
  exact h1

/-! ### The clause that a request adds -/

variable (u) in
/-- The clause shows the request. -/
def ClauseFor (r : Req) (c : Clause) : Prop := c.val.err = none ∧ Shows (r.keys u) c.val.visit (r.parts u) ∧ (c.isMatch = true → r.stage = .match_)

variable (u) in
/-- What the builder holds after the request, given what it held before. -/
def Adds (r : Req) (P : List PartV) (C : List Clause) (P' : List PartV) (C' : List Clause) : Prop :=
  match r with
  | .with_ w => ∃ v : Val, v.err = none ∧ Shows ([w.ks.k, w.ks.kl, w.ks.ko, w.ks.kw] ++ (w.result u).keys) v.visit (Req.parts u (.with_ w)) ∧
      P' = P ++ [partCreate w.ks.kp C v] ∧ C' = []
  | r => ∃ c, ClauseFor u r c ∧ P' = P ∧ C' = C ++ [c]

theorem stands_match (k kw : Key) (o : Bool) (ps : List Val) {c : Option Cond} {p : Option Calls} (h : Stands c p) :
    matchCreate k kw o ps c = matchCreate k kw o ps (p.map Calls.build) := by
  simp only [matchCreate, stands_built kw h]

theorem stands_with (k kl ko kw : Key) (d : Bool) (xs : List Val) (o : OrderB) {c : Option Cond} {p : Option Calls} (h : Stands c p) :
    withCreate k kl ko kw d xs o c = withCreate k kl ko kw d xs o (p.map Calls.build) := by
  simp only [withCreate, stands_built kw h]

theorem step_match {s : Stage} {b : Base} {P : List PartV} {C : List Clause} (h : Has s b P C) (hs : s ≠ .created ∧ s ≠ .merged) (k kw : Key) (o : Bool)
    (ps : List Val) (w : Option WhereReq) (hr : Req.Ok u (.match_ k kw o ps w)) :
    ∃ b' P' C', execAll u (.base b) (Req.calls (.match_ k kw o ps w)) = .ok b' ∧ Holds .match_ b' P' C' ∧ Adds u (.match_ k kw o ps w) P C P' C' := by
  obtain ⟨hp, hw⟩ := hr
  have he : errsOf ps = none := (errsOf_none_iff _).mpr fun x hx => (hp x hx).1
  have h0 : execBase u b (.match_ k kw o ps) = .ok (.base { elems := C, parts := P, omatch := { k := k, kw := kw, patterns := ps, optional := o, notNil := true } }) := by
    simp only [execBase, Base.match_, firstErr2 h.err.1 he, h.closeReading hs]
  have hfin : ∀ c : Option Cond, Stands c (w.map WhereReq.whole) → ClauseFor u (.match_ k kw o ps w) (matchCreate k kw o ps c) := by
    intro c hc
    rw [stands_match _ _ _ _ hc]
    have hu : ∀ x, w.map WhereReq.whole = some x → x.Usable := by
      intro x hx
      cases w with
      | none => simp at hx
      | some w => simp only [Option.map_some, Option.some.injEq] at hx; subst hx; exact whole_usable (hw w rfl)
    refine ⟨(C47_match (e := ⟨fun _ => none, fun _ => false⟩) k kw o ps (fun x hx => (hp x hx).2) _ hu).1, fun e => ?_, fun _ => rfl⟩
    exact (C47_match (e := e) k kw o ps (fun x hx => (hp x hx).2) _ hu).2
  cases w with
  | none =>
    refine ⟨.base { elems := C, parts := P, omatch := { k := k, kw := kw, patterns := ps, optional := o, notNil := true } }, P,
      C ++ [matchCreate k kw o ps none], ?_, ⟨_, C, ?_, rfl, rfl⟩, ⟨_, hfin none trivial, rfl, rfl⟩⟩
    · simp only [Req.calls, Option.toList, List.flatMap_nil, execAll_one, exec]
      exact h0
    · rfl
  | some w =>
    obtain ⟨c, h1, hs⟩ := where_base (u := u) { elems := C, parts := P, omatch := { k := k, kw := kw, patterns := ps, optional := o, notNil := true } } rfl w (hw w rfl)
    refine ⟨.base { elems := C, parts := P, omatch := { k := k, kw := kw, patterns := ps, cond := some c, optional := o, notNil := true } }, P,
      C ++ [matchCreate k kw o ps (some c)], ?_, ⟨_, C, ?_, rfl, rfl⟩, ⟨_, hfin (some c) hs, rfl, rfl⟩⟩
    · simp only [Req.calls, Option.toList, List.flatMap_cons, List.flatMap_nil, List.append_nil]
      rw [execAll, exec, h0]
      exact h1
    · rfl

/-! ### WITH -/

theorem with_order (w : WithB) (again : Bool) (o : OrderCall) :
    execAll u (.with_ w) (orderCalls again o) = .ok (.with_ { w with order := OrderCall.run w.order o }) := by
  cases o with
  | items ds => rfl
  | sort d => cases again <;> cases hd : d.dir <;> simp [orderCalls, hd, execAll, exec, execWith, Outcome.bind, OrderCall.run]

theorem with_mods (mods : List WithMod) (w : WithB) (p : Option Calls)
    (hc : (w.cond = none ∧ p = none ∧ WithReq.mores mods = []) ∨ ∃ c q, w.cond = some c ∧ p = some q ∧ Ready c q)
    (hm : ∀ m ∈ WithReq.mores mods, m.2.1 ≠ .xor ∧ m.2.2.Usable) :
    ∃ c', execAll u (.with_ w) (mods.flatMap WithReq.modCalls) = .ok (.with_ { w with cond := c', order := (WithReq.orders mods).foldl OrderCall.run w.order }) ∧
      Stands c' (p.map fun q => (WithReq.mores mods).foldl (fun p m => .bin m.1 m.2.1 p m.2.2) q) := by
  induction mods generalizing w p with
  | nil =>
    refine ⟨w.cond, rfl, ?_⟩
    rcases hc with ⟨h1, h2, -⟩ | ⟨c, q, h1, h2, hr⟩
    · rw [h1, h2]; trivial
    · rw [h1, h2]; exact hr.1
  | cons m mods ih =>
    cases m with
    | order again o =>
      obtain ⟨c', h1, h2⟩ := ih { w with order := OrderCall.run w.order o } p hc hm
      refine ⟨c', ?_, h2⟩
      simp only [List.flatMap_cons, WithReq.modCalls, execAll_append, with_order, Outcome.bind]
      exact h1
    | more m =>
      rcases hc with ⟨-, -, h⟩ | ⟨c, q, h1, rfl, hr⟩
      · simp [WithReq.mores] at h
      · obtain ⟨c1, hq, hr1⟩ := ready_more hr m
        obtain ⟨c', h3, h4⟩ := ih { w with cond := some c1 } (some (.bin m.1 m.2.1 q m.2.2)) (Or.inr ⟨c1, _, rfl, rfl, hr1⟩)
          fun x hx => hm x (by simp only [WithReq.mores, List.filterMap_cons, List.mem_cons]; exact Or.inr hx)
        refine ⟨c', ?_, h4⟩
        have hm1 := (hm m (by simp [WithReq.mores])).1
        have h5 : execAll u (.with_ w) [moreCall m] = .ok (.with_ { w with cond := some c1 }) := by
          rw [execAll_one]
          obtain ⟨ks, o, x⟩ := m
          cases o with
          | xor => exact absurd rfl hm1
          | and => simp only [BOp.op] at hq; simp only [moreCall, if_true, exec, execWith, h1, hq, Outcome.map]
          | or => simp only [BOp.op] at hq; simp only [moreCall, reduceCtorEq, if_false, exec, execWith, h1, hq, Outcome.map]
        simp only [List.flatMap_cons, WithReq.modCalls, execAll_append, h5, Outcome.bind]
        exact h3

theorem with_calls (w : WithB) (r : WithReq) (hr : r.Ok u) (hc : w.cond = none) (ho : w.order = {}) :
    ∃ c', execAll u (.with_ w) ((r.first.toList.map fun c => .where_ c.build) ++ r.mods.flatMap WithReq.modCalls ++ (r.skip.toList.map fun s => .skip s.k s.kl s.n) ++ r.limit.toList.map fun s => .limit s.k s.kl s.n) =
      .ok (.with_ { w with cond := c', order := (r.result u).orderB }) ∧ Stands c' r.cond := by
  have hlim : ∀ w : WithB, w.order = (WithReq.orders r.mods).foldl OrderCall.run {} → execAll u (.with_ w) ((r.skip.toList.map fun s => .skip s.k s.kl s.n) ++ r.limit.toList.map fun s => .limit s.k s.kl s.n) =
      .ok (.with_ { w with order := (r.result u).orderB }) := by
    intro w hw
    cases hs : r.skip <;> cases hl : r.limit <;> simp [execAll, exec, execWith, Outcome.bind, ResultReq.orderB, WithReq.result, hs, hl, ← hw]
  cases hf : r.first with
  | none =>
    obtain ⟨c', h1, h2⟩ := with_mods (u := u) r.mods w none (Or.inl ⟨hc, rfl, hr.first hf⟩) (by rw [hr.first hf]; simp)
    refine ⟨c', ?_, ?_⟩
    · rw [List.append_assoc, execAll_append]
      simp only [Option.toList_none, List.map_nil, List.nil_append, h1, Outcome.bind]
      exact hlim _ (by simp only [ho])
    · simpa [WithReq.cond, WithReq.where_, hf] using h2
  | some p =>
    have hw := hr.where_ ⟨p, WithReq.mores r.mods⟩ (by simp [WithReq.where_, hf])
    obtain ⟨c', h1, h2⟩ := with_mods (u := u) r.mods { w with cond := some p.build } (some p) (Or.inr ⟨_, _, rfl, rfl, ready_first hw.1 hw.2.1⟩) hw.2.2
    refine ⟨c', ?_, ?_⟩
    · simp only [Option.toList_some, List.map_cons, List.map_nil, List.cons_append, List.nil_append, execAll, exec, execWith, Outcome.bind]
      rw [List.append_assoc, execAll_append, h1]
      simp only [Outcome.bind]
      exact hlim _ (by simp only [ho])
    · simpa [WithReq.cond, WithReq.where_, hf, WhereReq.whole] using h2

theorem step_with {s : Stage} {b : Base} {P : List PartV} {C : List Clause} (h : Has s b P C) (r : WithReq) (hr : r.Ok u) :
    ∃ b' P' C', execAll u (.base b) (Req.calls (.with_ r)) = .ok b' ∧ Holds .with_ b' P' C' ∧ Adds u (.with_ r) P C P' C' := by
  obtain ⟨hv, he⟩ := args_vals hr.args
  obtain ⟨c', h1, h2⟩ := with_calls (u := u) { k := r.ks.k, kl := r.ks.kl, ko := r.ks.ko, kw := r.ks.kw, kp := r.ks.kp, base := some b, distinct := r.distinct, items := r.args.vals u } r hr rfl rfl
  have hu : ∀ x, r.cond = some x → x.Usable := by
    intro x hx
    rw [WithReq.cond] at hx
    cases hw : r.where_ with
    | none => simp [hw] at hx
    | some w => simp only [hw, Option.map_some, Option.some.injEq] at hx; subst hx; exact whole_usable (hr.where_ w hw)
  obtain ⟨v, hv1, hg, -⟩ := C25_with (e := ⟨fun _ => none, fun _ => false⟩) r.ks.k r.ks.kl r.ks.ko r.ks.kw (r.result u) r.cond hr.result hu
  refine ⟨.with_ { k := r.ks.k, kl := r.ks.kl, ko := r.ks.ko, kw := r.ks.kw, kp := r.ks.kp, base := some b, cond := c', items := (r.args.vals u), order := (r.result u).orderB, distinct := r.distinct }, P ++ [partCreate r.ks.kp C v], [], ?_, ⟨rfl, s, b, v, C, P, rfl, h, ?_, rfl, rfl⟩, v, hg.1, fun e ha => ?_, rfl, rfl⟩
  · simp only [Req.calls, WithReq.calls, List.cons_append, execAll, exec, execBase, Base.with_, firstErr3 h.err.1 hr.args.1 he, Outcome.bind]
    exact h1
  · rw [stands_with _ _ _ _ _ _ _ h2, hv]
    exact hv1
  · obtain ⟨v', hv', -, hs⟩ := C25_with (e := e) r.ks.k r.ks.kl r.ks.ko r.ks.kw (r.result u) r.cond hr.result hu
    rw [hv1] at hv'
    cases hv'
    exact hs ha

/-! ### The other clauses -/

theorem clauseFor {r : Req} {c : Clause} {ks : List Key} {ps : List Part} (he : ∀ _ : Env, c.val.err = none) (hk : r.keys u = ks) (hp : r.parts u = ps)
    (h : ∀ e : Env, NoAlias e ks c.val.visit → shownAs e c.val.visit = layout e ps) (hm : c.isMatch = false) : ClauseFor u r c :=
  ⟨he ⟨fun _ => none, fun _ => false⟩, fun e ha => by rw [hp]; exact h e (by rwa [hk] at ha), fun h => by simp [hm] at h⟩

theorem openUpdate_ok {s : Stage} {b : Base} {P : List PartV} {C : List Clause} (h : Has s b P C) (t : UpdType) (ks : UpdKeys) (a : Args) (ha : ArgsOk u a)
    (x : UpdBuilder) (hx : updBuilder t ks (items u a) = .ok x) : b.openUpdate u t ks a = { elems := C, parts := P, oupdate := some x } := by
  obtain ⟨hv, he⟩ := args_vals ha
  rw [Base.openUpdate, firstErr3 h.err.1 ha.1 he]
  simp only [Base.update, h.closeAll.1, hv, hx]

theorem exprs_ok {xs : List Val} (h : ∀ x ∈ xs, x.err = none ∧ Spec.One x.visit) : ArgsOk u (.exprs xs) := ⟨rfl, h, fun _ h => by simp at h⟩

theorem create_clause (ks : UpdKeys) (p : Val) (hp : p.err = none ∧ Spec.One p.visit) : ClauseFor u (.create ks p) (createClause ks.k ks.kl [p]) := by
  have h := fun e => C47_create (e := e) ks.k ks.kl [p] (by simpa using hp)
  exact clauseFor (fun e => (h e).1) rfl rfl (fun e => (h e).2) (by simp only [createClause]; split <;> rfl)

theorem delete_clause (ks : UpdKeys) (d : Bool) (a : Args) (ha : ArgsOk u a) :
    ClauseFor u (.delete ks d a) (updateClause ks.k ks.kl (deleteKeyword d) (items u a)) := by
  have h := fun e => C47_update (e := e) ks.k ks.kl (deleteKeyword d) (items u a) ha.2.1
  exact clauseFor (fun e => (h e).1) rfl (by cases d <;> rfl) (fun e => (h e).2) (by simp only [updateClause]; split <;> rfl)

theorem update_match (k kl : Key) (kw : Str) (xs : List Val) : (updateClause k kl kw xs).isMatch = false := by
  simp only [updateClause]; split <;> rfl

theorem step_create {s : Stage} {b : Base} {P : List PartV} {C : List Clause} (h : Has s b P C) (ks : UpdKeys) (p : Val) (hr : Req.Ok u (.create ks p)) :
    ∃ b' P' C', execAll u (.base b) (Req.calls (.create ks p)) = .ok b' ∧ Holds .created b' P' C' ∧ Adds u (.create ks p) P C P' C' := by
  refine ⟨.base { elems := C, parts := P, oupdate := some (.create ks.k ks.kl [p]) }, P, C ++ [createClause ks.k ks.kl [p]], ?_, ⟨_, C, rfl, rfl⟩,
    ⟨_, create_clause ks p hr, rfl, rfl⟩⟩
  simp only [Req.calls, execAll_one, exec, execBase]
  rw [openUpdate_ok h _ _ _ (exprs_ok (by simpa [Req.Ok] using hr)) _ rfl]

theorem step_delete {s : Stage} {b : Base} {P : List PartV} {C : List Clause} (h : Has s b P C) (ks : UpdKeys) (d : Bool) (a : Args) (hr : ArgsOk u a) :
    ∃ b' P' C', execAll u (.base b) (Req.calls (.delete ks d a)) = .ok b' ∧ Holds .created b' P' C' ∧ Adds u (.delete ks d a) P C P' C' := by
  refine ⟨.base { elems := C, parts := P, oupdate := some (.done (updateClause ks.k ks.kl (deleteKeyword d) (items u a))) }, P, C ++ [_], ?_, ⟨_, C, rfl, rfl⟩,
    ⟨_, delete_clause ks d a hr, rfl, rfl⟩⟩
  simp only [Req.calls, execAll_one, exec, execBase]
  rw [openUpdate_ok h _ _ _ hr _ rfl]

/-- The calls for merge actions. -/
theorem merge_actions (b : Base) (hb : b.err = none) (km kp : Key) (ps : List Val) (as : List ActionReq) (pre vs : List Val)
    (hu : b.oupdate = some (.merge km kp ps pre)) (h : ∀ a ∈ as, ∀ x ∈ a.args, x.Ok) (hv : buildActions as = .ok vs) :
    execAll u (.base b) (as.flatMap fun a => [.on a.type, .actionSet a.k a.kset a.kl a.ks (a.args.flatMap SetArg.args)]) =
      .ok (.base { b with oupdate := some (.merge km kp ps (pre ++ vs)) }) := by
  induction as generalizing b pre vs with
  | nil =>
    cases hv
    obtain ⟨err, elems, parts, om, ou, oc⟩ := b
    simp only at hu
    simp [execAll, hu]
  | cons a as ih =>
    rw [buildActions] at hv
    split at hv
    · rename_i v hva
      cases hvs : buildActions as with
      | error er => simp [hvs, Except.map] at hv
      | ok ws =>
        simp only [hvs, Except.map, Except.ok.injEq] at hv
        subst hv
        obtain ⟨err, elems, parts, om, ou, oc⟩ := b
        simp only at hb hu
        subst hb hu
        have he : errsOf (a.args.flatMap SetArg.args) = none := by
          rw [errsOf_none_iff]
          intro x hx
          simp only [List.mem_flatMap] at hx
          obtain ⟨y, hy, hxy⟩ := hx
          have hok := h a (by simp) y hy
          cases y with
          | pair p q =>
            simp only [SetArg.args, List.mem_cons, List.not_mem_nil, or_false] at hxy
            rcases hxy with rfl | rfl
            · exact hok.1.1
            · exact hok.2.1.1
          | built o => simp only [SetArg.args, List.mem_cons, List.not_mem_nil, or_false] at hxy; subst hxy; exact hok.1
        simp only [List.flatMap_cons, List.cons_append, List.nil_append, execAll, exec, execBase, Base.on, Outcome.bind, execAction, ActionB.set,
          firstErr2 rfl he, hva, Outcome.map]
        rw [ih ⟨none, elems, parts, om, some (.merge km kp ps (pre ++ [v])), oc⟩ rfl (pre ++ [v]) ws rfl (fun x hx => h x (by simp [hx])) hvs]
        simp
    · simp at hv

theorem step_merge {s : Stage} {b : Base} {P : List PartV} {C : List Clause} (h : Has s b P C) (ks : UpdKeys) (p : Val) (as : List ActionReq)
    (hr : Req.Ok u (.merge ks p as)) :
    ∃ b' P' C', execAll u (.base b) (Req.calls (.merge ks p as)) = .ok b' ∧ Holds (Req.stage (.merge ks p as)) b' P' C' ∧ Adds u (.merge ks p as) P C P' C' := by
  obtain ⟨vs, hv, -⟩ := C42_merge (e := ⟨fun _ => none, fun _ => false⟩) ks.k ks.kl [p] (by simpa using hr.1) as hr.2
  have hc : ∀ e : Env, (mergeClause ks.k ks.kl [p] vs).val.err = none ∧ (NoAlias e ([ks.k, ks.kl, 41] ++ as.flatMap ActionReq.keys) (mergeClause ks.k ks.kl [p] vs).val.visit →
      shownAs e (mergeClause ks.k ks.kl [p] vs).val.visit = layout e ([.lit c!"MERGE "] ++ commas ([p].map (·.visit)) ++ [.lit c!" "] ++ as.flatMap ActionReq.parts)) := by
    intro e
    obtain ⟨vs', hv', h2⟩ := C42_merge (e := e) ks.k ks.kl [p] (by simpa using hr.1) as hr.2
    rw [hv] at hv'
    cases hv'
    exact h2
  have hcl : ClauseFor u (.merge ks p as) (mergeClause ks.k ks.kl [p] vs) :=
    clauseFor (fun e => (hc e).1) rfl (by simp [Req.parts, commas, sepParts]) (fun e => (hc e).2) (by simp only [mergeClause]; split <;> rfl)
  refine ⟨.base { elems := C, parts := P, oupdate := some (.merge ks.k ks.kl [p] vs) }, P, C ++ [mergeClause ks.k ks.kl [p] vs], ?_, ?_, ⟨_, hcl, rfl, rfl⟩⟩
  · simp only [Req.calls, execAll, exec, execBase]
    rw [openUpdate_ok h _ _ _ (exprs_ok (by simpa using hr.1)) _ rfl]
    simp only [Outcome.bind]
    rw [merge_actions _ rfl ks.k ks.kl [p] as [] vs rfl hr.2 hv]
    simp
  · simp only [Req.stage]
    split <;> exact ⟨_, C, rfl, rfl⟩

/-! ### SET and REMOVE -/

theorem updB_ok {s : Stage} {b : Base} {P : List PartV} {C : List Clause} (hs : s = .plain ∨ s = .match_) (h : Has s b P C) (t : UpdType) (ks : UpdKeys) (xs : List Val)
    (hx : errsOf xs = none) (c : Clause) (hc : updBuilder t ks xs = .ok (.done c)) :
    Holds .updated (.upd (b.updB t ks xs)) P (C ++ [c]) := by
  refine ⟨rfl, s, b, .done c, C, hs, ?_, h, rfl⟩
  simp only [Base.updB, firstErr2 h.err.1 hx, hc]

theorem set_errs (as : List SetArg) (h : ∀ a ∈ as, a.Ok) : errsOf (as.flatMap SetArg.args) = none := by
  rw [errsOf_none_iff]
  intro x hx
  simp only [List.mem_flatMap] at hx
  obtain ⟨y, hy, hxy⟩ := hx
  have hok := h y hy
  cases y with
  | pair p q =>
    simp only [SetArg.args, List.mem_cons, List.not_mem_nil, or_false] at hxy
    rcases hxy with rfl | rfl
    · exact hok.1.1
    · exact hok.2.1.1
  | built o => simp only [SetArg.args, List.mem_cons, List.not_mem_nil, or_false] at hxy; subst hxy; exact hok.1

theorem set_clause (ks : UpdKeys) (as : List SetArg) (h : ∀ a ∈ as, a.Ok) :
    ∃ c, updBuilder .set ks (as.flatMap SetArg.args) = .ok (.done c) ∧ ClauseFor u (.set ks as) c := by
  obtain ⟨vs, hv, -⟩ := C37_set_partial (e := ⟨fun _ => none, fun _ => false⟩) ks.k ks.kl ks.ks as h
  refine ⟨updateClause ks.k ks.kl setKeyword vs, by simp [updBuilder, hv], ?_⟩
  have hc : ∀ e : Env, (updateClause ks.k ks.kl setKeyword vs).val.err = none ∧
      (NoAlias e ([ks.k, ks.kl, Op.set.key] ++ (List.range as.length).map ks.ks) (updateClause ks.k ks.kl setKeyword vs).val.visit →
        shownAs e (updateClause ks.k ks.kl setKeyword vs).val.visit = layout e (setParts (builtFirst as))) := by
    intro e
    obtain ⟨vs', hv', h2⟩ := C37_set_partial (e := e) ks.k ks.kl ks.ks as h
    rw [hv] at hv'
    cases hv'
    exact h2
  exact clauseFor (fun e => (hc e).1) rfl rfl (fun e => (hc e).2) (update_match ..)

theorem step_set {s : Stage} {b : Base} {P : List PartV} {C : List Clause} (h : Has s b P C) (hs : s ≠ .callWhere) (ks : UpdKeys) (as : List SetArg)
    (hr : ∀ a ∈ as, a.Ok) :
    ∃ b' P' C', execAll u (.base b) (Req.calls (.set ks as)) = .ok b' ∧ Holds .updated b' P' C' ∧ Adds u (.set ks as) P C P' C' := by
  obtain ⟨c, hc, hcl⟩ := set_clause (u := u) ks as hr
  obtain ⟨s', hs', h'⟩ := h.closeUpdate hs
  refine ⟨.upd (b.closeUpdate.updB .set ks (as.flatMap SetArg.args)), P, C ++ [c], ?_, updB_ok hs' h' _ _ _ (set_errs as hr) _ hc, ⟨c, hcl, rfl, rfl⟩⟩
  simp only [Req.calls, execAll_one, exec, execBase, Base.set, firstErr2 h.err.1 (set_errs as hr)]

theorem setNamed_clause {ks : UpdKeys} {n : NamedV} {x : Val} {c : Clause} (h : ClauseFor u (.set ks [.pair n.sym x]) c) : ClauseFor u (.setNamed ks n x) c := h

theorem step_setNamed {s : Stage} {b : Base} {P : List PartV} {C : List Clause} (h : Has s b P C) (hs : s ≠ .callWhere) (ks : UpdKeys) (n : NamedV) (x : Val)
    (hr : Req.Ok u (.setNamed ks n x)) :
    ∃ b' P' C', execAll u (.base b) (Req.calls (.setNamed ks n x)) = .ok b' ∧ Holds .updated b' P' C' ∧ Adds u (.setNamed ks n x) P C P' C' := by
  obtain ⟨b', P', C', h1, h2, c, h3, h4⟩ := step_set (u := u) h hs ks [.pair n.sym x] (by simpa using hr.2.2)
  refine ⟨b', P', C', ?_, h2, c, h3, h4⟩
  simp only [Req.calls, execAll_one, exec, execBase, Base.setNamed, firstErr3 h.err.1 hr.1 hr.2.2.2.1.1] at h1 ⊢
  exact h1

theorem labels_clause (ks : UpdKeys) (g : Str) (ko kl : Key) (kls : Nat → Key) (n : NodeV) (ls : List Str) (remove op : Bool)
    (hr : Req.Ok u (.setLabels ks g ko kl kls n ls)) (v : Val) (hv : labelOperation u g ko kl kls (if op then .removeLabel else .setLabel) n ls = v) :
    v.err = none ∧ ClauseFor u (if remove then .removeLabels ks g ko kl kls n ls else .setLabels ks g ko kl kls n ls)
      (updateClause ks.k ks.kl (if remove then removeKeyword else setKeyword) [v]) := by
  obtain ⟨⟨h1, h2, h3⟩, h4, h5⟩ := hr
  obtain ⟨⟨kn, name⟩, hn⟩ := Option.ne_none_iff_exists'.mp h3
  have hl : ∀ e : Env, v.err = none ∧
      (NoAlias e ([ko, kl, kn, Op.setLabel.key, Op.removeLabel.key] ++ (List.range ls.length).map kls) v.visit →
        shownAs e v.visit = layout e [.lit (escapeIfNecessary u name ++ ls.flatMap fun l => ':' :: escapeName l)]) := by
    intro e
    obtain ⟨v', hv', h6⟩ := C47_labels (e := e) (u := u) g ko kl kn kls op n ⟨h1, h2⟩ name hn ls h4 h5
    rw [hv] at hv'
    subst hv'
    exact h6
  have hve := (hl ⟨fun _ => none, fun _ => false⟩).1
  have hone : Spec.One v.visit := by
    rw [← hv, labelOperation]
    cases op <;> simp [h1, h2, h4, Val.mk', operationVisit, Spec.One, nd] <;> split <;> exact ⟨_, _, rfl⟩
  refine ⟨hve, ?_⟩
  have hvis : ∀ kw, (updateClause ks.k ks.kl kw [v]).val.visit = [nd ks.k kw c!" " false [nd ks.kl [] [] true v.visit]] := by
    intro kw
    simp [updateClause, expressionList, errsOf, firstErr, hve, Val.mk', visitsOf]
  have hc : ∀ (kw : Str) (e : Env), (updateClause ks.k ks.kl kw [v]).val.err = none ∧
      (NoAlias e ([ks.k, ks.kl, ko, kl, kn, Op.setLabel.key, Op.removeLabel.key] ++ (List.range ls.length).map kls) (updateClause ks.k ks.kl kw [v]).val.visit →
        shownAs e (updateClause ks.k ks.kl kw [v]).val.visit =
          layout e [.lit kw, .lit (escapeIfNecessary u name ++ ls.flatMap fun l => ':' :: escapeName l), .lit c!" "]) := by
    intro kw e
    have h7 := C47_update (e := e) ks.k ks.kl kw [v] (by simpa using ⟨hve, hone⟩)
    refine ⟨h7.1, fun ha => ?_⟩
    rw [h7.2 (ha.mono (by simp +contextual))]
    have h8 := (hl e).2 (fun k hk => by
      have := ha k (by simp only [List.cons_append, List.mem_cons, List.nil_append] at hk ⊢; exact Or.inr (Or.inr hk))
      rw [hvis, dkeysL_nd, dkeysL_nd] at this
      exact this)
    simp only [shownAs] at h8
    simp [layout, commas, sepParts, h8]
  cases remove
  · exact clauseFor (fun e => (hc setKeyword e).1) (by simp [Req.keys, Req.nodeNameKey, hn]) (by simp [Req.parts, Req.labelsText, Req.nodeName, hn]; rfl) (fun e => (hc setKeyword e).2)
      (update_match ..)
  · exact clauseFor (fun e => (hc removeKeyword e).1) (by simp [Req.keys, Req.nodeNameKey, hn]) (by simp [Req.parts, Req.labelsText, Req.nodeName, hn]; rfl)
      (fun e => (hc removeKeyword e).2) (update_match ..)

theorem step_setLabels {s : Stage} {b : Base} {P : List PartV} {C : List Clause} (h : Has s b P C) (hs : s = .plain ∨ s = .match_) (ks : UpdKeys) (g : Str)
    (ko kl : Key) (kls : Nat → Key) (n : NodeV) (ls : List Str) (hr : Req.Ok u (.setLabels ks g ko kl kls n ls)) :
    ∃ b' P' C', execAll u (.base b) (Req.calls (.setLabels ks g ko kl kls n ls)) = .ok b' ∧ Holds .updated b' P' C' ∧
      Adds u (.setLabels ks g ko kl kls n ls) P C P' C' := by
  obtain ⟨he, hc⟩ := labels_clause (u := u) ks g ko kl kls n ls false false hr _ rfl
  refine ⟨.upd (b.updB .set ks [labelOperation u g ko kl kls .setLabel n ls]), P, C ++ [_], ?_, updB_ok hs h _ _ _ ?_ _ ?_, ⟨_, hc, rfl, rfl⟩⟩
  · simp only [Req.calls, execAll_one, exec, execBase, Base.update2, firstErr2 h.err.1 hr.1.1]
  · simpa [errsOf_none_iff] using he
  · have ho : (labelOperation u g ko kl kls .setLabel n ls).isOperation = true := by
      simp [labelOperation, hr.1.1, hr.1.2.1, hr.2.1, Val.isOperation, Val.mk']
    simp [updBuilder, prepareSet, ho, pairUp]

theorem step_removeLabels {s : Stage} {b : Base} {P : List PartV} {C : List Clause} (h : Has s b P C) (hs : s = .plain ∨ s = .match_) (ks : UpdKeys) (g : Str)
    (ko kl : Key) (kls : Nat → Key) (n : NodeV) (ls : List Str) (hr : Req.Ok u (.removeLabels ks g ko kl kls n ls)) :
    ∃ b' P' C', execAll u (.base b) (Req.calls (.removeLabels ks g ko kl kls n ls)) = .ok b' ∧ Holds .updated b' P' C' ∧
      Adds u (.removeLabels ks g ko kl kls n ls) P C P' C' := by
  obtain ⟨he, hc⟩ := labels_clause (u := u) ks g ko kl kls n ls true true hr _ rfl
  refine ⟨.upd (b.updB .remove ks [labelOperation u g ko kl kls .removeLabel n ls]), P, C ++ [_], ?_, updB_ok hs h _ _ _ ?_ _ rfl, ⟨_, hc, rfl, rfl⟩⟩
  · simp only [Req.calls, execAll_one, exec, execBase, Base.update2, firstErr2 h.err.1 hr.1.1]
  · simpa [errsOf_none_iff] using he

theorem remove_clause (ks : UpdKeys) (xs : List Val) (hr : ∀ x ∈ xs, x.err = none ∧ Spec.One x.visit) :
    ClauseFor u (.remove ks xs) (updateClause ks.k ks.kl removeKeyword xs) := by
  have h := fun e => C47_update (e := e) ks.k ks.kl removeKeyword xs hr
  exact clauseFor (fun e => (h e).1) rfl rfl (fun e => (h e).2) (update_match ..)

theorem step_remove {s : Stage} {b : Base} {P : List PartV} {C : List Clause} (h : Has s b P C) (hs : s = .plain ∨ s = .match_) (ks : UpdKeys) (xs : List Val)
    (hr : ∀ x ∈ xs, x.err = none ∧ Spec.One x.visit) :
    ∃ b' P' C', execAll u (.base b) (Req.calls (.remove ks xs)) = .ok b' ∧ Holds .updated b' P' C' ∧ Adds u (.remove ks xs) P C P' C' := by
  have he : errsOf xs = none := (errsOf_none_iff _).mpr fun x hx => (hr x hx).1
  refine ⟨.upd (b.updB .remove ks xs), P, C ++ [_], ?_, updB_ok hs h _ _ _ he _ rfl, ⟨_, remove_clause ks xs hr, rfl, rfl⟩⟩
  simp only [Req.calls, execAll_one, exec, execBase, Base.update2, firstErr2 h.err.1 he]

/-! ### UNWIND and CALL -/

theorem step_unwind {s : Stage} {b : Base} {P : List PartV} {C : List Clause} (h : Has s b P C) (hs : s = .plain ∨ s = .match_) (k kn : Key) (x : Val) (name : Str)
    (hr : Req.Ok u (.unwind k kn x name)) :
    ∃ b' P' C', execAll u (.base b) (Req.calls (.unwind k kn x name)) = .ok b' ∧ Holds .plain b' P' C' ∧ Adds u (.unwind k kn x name) P C P' C' := by
  have hc : ClauseFor u (.unwind k kn x name) (unwindCreate u k kn x name) := by
    have h := fun e => C47_unwind_partial (e := e) (u := u) k kn x hr.1 hr.2 name
    exact clauseFor (fun e => (h e).1) rfl rfl (fun e => (h e).2) (by simp only [unwindCreate]; split <;> rfl)
  refine ⟨.base { elems := C ++ [unwindCreate u k kn x name], parts := P }, P, C ++ [unwindCreate u k kn x name], ?_, rfl, ⟨_, hc, rfl, rfl⟩⟩
  simp only [Req.calls, execAll, exec, execBase, Base.unwind, firstErr2 h.err.1 hr.1, h.closeMatch hs, Outcome.bind, execUnwind]

theorem step_sub {s : Stage} {b : Base} {P : List PartV} {C : List Clause} (h : Has s b P C) (k : Key) (st : Stmt) (hr : Req.Ok u (.sub k st)) :
    ∃ b' P' C', execAll u (.base b) (Req.calls (.sub k st)) = .ok b' ∧ Holds .plain b' P' C' ∧ Adds u (.sub k st) P C P' C' := by
  have he : (subqueryCall k st).val.err = none := by simp [subqueryCall, hr.1, hr.2]
  have hc : ClauseFor u (.sub k st) (subqueryCall k st) :=
    clauseFor (fun _ => he) rfl rfl (fun e => (C36_layout (e := e) k st he).2) (by simp [subqueryCall, hr.1, hr.2])
  refine ⟨.base { elems := C ++ [subqueryCall k st], parts := P }, P, C ++ [subqueryCall k st], ?_, rfl, ⟨_, hc, rfl, rfl⟩⟩
  simp only [Req.calls, execAll_one, exec, execBase, Base.callStmt, firstErr2 h.err.1 hr.1, h.closeAll.2, he]

/-- The call that a request describes. -/
def ProcReq.callB (r : ProcReq) (standalone : Bool) : CallB :=
  ⟨r.kc, r.ka, r.kw, standalone, ⟨r.k, r.kn, none, r.name⟩, if r.args = [] then none else some r.args, yieldItems r.ky r.yields, r.cond.map Calls.build⟩

theorem proc_clause (r : ProcReq) (hr : r.Ok) (standalone : Bool) :
    ∃ v, (ProcReq.callB r standalone).build = .ok v ∧ v.val.err = none ∧ Shows r.keys v.val.visit r.parts ∧ v.isMatch = false := by
  have h := fun e => C47_call (e := e) r.k r.kn r.ka r.kw r.kc r.ky r.name r.args hr.args r.yields hr.yields r.cond hr.cond standalone
  obtain ⟨v, hv, he, -⟩ := h ⟨fun _ => none, fun _ => false⟩
  refine ⟨v, hv, he, fun e ha => ?_, ?_⟩
  · obtain ⟨v', hv', -, hs⟩ := h e
    rw [hv] at hv'
    cases hv'
    exact hs ha
  · rw [CallB.build] at hv
    have hm : ∀ k n a y w, (procedureCall k n a y w).isMatch = false := by
      intro k n a y w
      simp only [procedureCall]
      split <;> rfl
    dsimp only at hv
    split at hv
    · split at hv
      · cases hv
      · cases hv; exact hm ..
    · cases hv; exact hm ..

theorem proc_for {r : ProcReq} {v : Clause} (he : v.val.err = none) (hs : Shows r.keys v.val.visit r.parts) (hm : v.isMatch = false) : ClauseFor u (.proc r) v :=
  ⟨he, hs, fun h => by simp [hm] at h⟩

theorem step_proc {s : Stage} {b : Base} {P : List PartV} {C : List Clause} (h : Has s b P C) (hs : s ≠ .created ∧ s ≠ .merged) (r : ProcReq) (hr : r.Ok) :
    ∃ b' P' C', execAll u (.base b) (Req.calls (.proc r)) = .ok b' ∧ Holds (Req.stage (.proc r)) b' P' C' ∧ Adds u (.proc r) P C P' C' := by
  obtain ⟨v, hv, he, hsh, hm⟩ := proc_clause r hr false
  let c0 : CallB := ⟨r.kc, r.ka, r.kw, false, ⟨r.k, r.kn, none, r.name⟩, none, none, none⟩
  let c1 : CallB := { c0 with args := if r.args = [] then none else some r.args, yields := yieldItems r.ky r.yields }
  have h1 : execAll u (.base b) (.callProc r.kc r.ka r.kw r.k r.kn [r.name] :: ((if r.args = [] then [] else [.args r.args]) ++ [.yield r.ky r.yields])) =
      .ok (.inCall { base := some { elems := C, parts := P, ocall := some c0 }, call := some c1 }) := by
    simp only [execAll, exec, execBase, Base.callProc, h.err.1, procName, h.closeReading hs, Outcome.map, Outcome.bind]
    by_cases ha : r.args = []
    · simp [ha, execAll, exec, execInCall, Outcome.bind, c1, c0]
    · simp [ha, execAll, exec, execInCall, Outcome.bind, c1, c0]
  have hcalls : Req.calls (.proc r) = (.callProc r.kc r.ka r.kw r.k r.kn [r.name] :: ((if r.args = [] then [] else [.args r.args]) ++ [.yield r.ky r.yields])) ++
      r.cond.toList.map fun c => .where_ c.build := by simp [Req.calls, ProcReq.calls]
  rw [hcalls]
  cases hc : r.cond with
  | none =>
    refine ⟨.inCall { base := some { elems := C, parts := P, ocall := some c0 }, call := some c1 }, P, C ++ [v], ?_, ?_, ⟨_, proc_for he hsh hm, rfl, rfl⟩⟩
    · simp only [Option.toList_none, List.map_nil, List.append_nil, h1]
    · simp only [Req.stage, hc, if_true]
      refine ⟨rfl, _, c1, v, C, rfl, rfl, ?_, rfl⟩
      rw [← hv, ProcReq.callB, hc]
      rfl
  | some p =>
    refine ⟨.base { elems := C, parts := P, ocall := some { c1 with cond := some p.build } }, P, C ++ [v], ?_, ?_, ⟨_, proc_for he hsh hm, rfl, rfl⟩⟩
    · rw [execAll_append, h1]
      simp [execAll, exec, execInCall, Outcome.bind, Outcome.map, InCallB.next]
    · simp only [Req.stage, hc, reduceCtorEq, if_false]
      refine ⟨_, v, C, rfl, ?_, rfl⟩
      rw [← hv, ProcReq.callB, hc]
      rfl

/-! ### All requests, all stages -/

theorem step_base {s : Stage} {b : Base} {P : List PartV} {C : List Clause} (h : Has s b P C) (r : Req) (ha : s.allows r = true) (hr : r.Ok u) :
    ∃ b' P' C', execAll u (.base b) r.calls = .ok b' ∧ Holds r.stage b' P' C' ∧ Adds u r P C P' C' := by
  have hx : ¬ (s = .updated ∨ s = .with_ ∨ s = .call ∨ s = .first) := by
    rintro (rfl | rfl | rfl | rfl) <;> exact h
  cases r with
  | match_ k kw o ps w => exact step_match h (by cases s <;> simp_all [Stage.allows]) k kw o ps w hr
  | with_ r => exact step_with h r hr
  | unwind k kn x name => exact step_unwind h (by cases s <;> simp_all [Stage.allows]) k kn x name hr
  | create ks p => exact step_create h ks p hr
  | merge ks p as => exact step_merge h ks p as hr
  | delete ks d a => exact step_delete h ks d a hr
  | set ks as => exact step_set h (by cases s <;> simp_all [Stage.allows]) ks as hr
  | setNamed ks n x => exact step_setNamed h (by cases s <;> simp_all [Stage.allows]) ks n x hr
  | setLabels ks g ko kl kls n ls => exact step_setLabels h (by cases s <;> simp_all [Stage.allows]) ks g ko kl kls n ls hr
  | removeLabels ks g ko kl kls n ls => exact step_removeLabels h (by cases s <;> simp_all [Stage.allows]) ks g ko kl kls n ls hr
  | remove ks xs => exact step_remove h (by cases s <;> simp_all [Stage.allows]) ks xs hr
  | sub k st => exact step_sub h k st hr
  | proc r => exact step_proc h (by cases s <;> simp_all [Stage.allows]) r hr

/-- The first call of a request. -/
theorem calls_cons (r : Req) : ∃ c cs, r.calls = c :: cs := by
  cases r <;> simp [Req.calls, WithReq.calls]

theorem with_exprs (b : Base) (ks : WithKeys) (d : Bool) {a : Args} (h : ArgsOk u a) : b.with_ u ks d (.exprs (a.vals u)) = b.with_ u ks d a := by
  simp only [Base.with_, h.1]
  rfl

theorem delete_exprs (b : Base) (t : UpdType) (ks : UpdKeys) {a : Args} (h : ArgsOk u a) : b.openUpdate u t ks (.exprs (a.vals u)) = b.openUpdate u t ks a := by
  simp only [Base.openUpdate, h.1]
  rfl

theorem returning_exprs (b : Base) (k ko : Key) (d : Bool) {a : Args} (h : ArgsOk u a) : b.returning u k ko d (.exprs (a.vals u)) = b.returning u k ko d a := by
  simp only [Base.returning, h.1]
  rfl

theorem execAll_first {b b' : B} {c : Call} (cs : List Call) (h : exec u b c = exec u b' c) : execAll u b (c :: cs) = execAll u b' (c :: cs) := by
  simp only [execAll, h]

theorem with_next {w : WithB} {P : List PartV} {C : List Clause} (h : Holds .with_ (.with_ w) P C) : ∃ b, w.next = .ok b ∧ Has .plain b P C := by
  obtain ⟨-, s', b, v, C', P', hb, hh, hw, rfl, rfl⟩ := h
  refine ⟨{ parts := P' ++ [partCreate w.kp C' v] }, ?_, rfl⟩
  simp only [WithB.next, hb, hw, Base.addWith, hh.err.1, hh.list, hh.err.2]

theorem upd_next {x : UpdB} {P : List PartV} {C : List Clause} (h : Holds .updated (.upd x) P C) : ∃ b, x.next = .ok b ∧ Has .plain b P C ∧ x.err = none := by
  obtain ⟨-, s', b, c, C', hs, rfl, hh, rfl⟩ := h
  refine ⟨{ elems := C' ++ [c.build], parts := P }, ?_, rfl, rfl⟩
  simp only [UpdB.next, Base.addClause, hh.closeMatch hs]

theorem call_next {i : InCallB} {P : List PartV} {C : List Clause} (h : Holds .call (.inCall i) P C) : ∃ b, i.next = .ok b ∧ Has .callWhere b P C := by
  obtain ⟨-, b, c, v, es, rfl, hb, hv, rfl⟩ := h
  refine ⟨{ elems := es, parts := P, ocall := some c }, ?_, c, v, es, rfl, hv, rfl⟩
  obtain ⟨err, elems, parts, om, ou, oc⟩ := b
  simp only [Base.mk.injEq] at hb
  simp [InCallB.next, hb]

theorem first_next {c : CallB} {n : Bool} {P : List PartV} {C : List Clause} (h : Holds .first (.standalone c n) P C) : Has .callWhere (startWithCall c n) P C := by
  obtain ⟨-, rfl, rfl, v, hv, rfl⟩ := h
  exact ⟨c, v, [], rfl, hv, rfl⟩

theorem step {s : Stage} {b : B} {P : List PartV} {C : List Clause} (h : Holds s b P C) (r : Req) (ha : s.allows r = true) (hr : r.Ok u) :
    ∃ b' P' C', execAll u b r.calls = .ok b' ∧ Holds r.stage b' P' C' ∧ Adds u r P C P' C' := by
  cases b with
  | base b => exact step_base h r ha hr
  | ret r => exact h.elim
  | unwind r => exact h.elim
  | action r => exact h.elim
  | with_ w =>
    obtain rfl := h.1
    obtain ⟨b, hb, hh⟩ := with_next h
    obtain ⟨b', P', C', h1, h2⟩ := step_base (u := u) hh r (by rfl) hr
    refine ⟨b', P', C', ?_, h2⟩
    rw [← h1]
    cases r <;> simp only [Req.calls, WithReq.calls, List.cons_append] <;> refine execAll_first _ ?_ <;>
      simp only [exec, execWith, hb, Outcome.bind] <;> simp only [execBase]
    case with_ r => rw [with_exprs _ _ _ hr.args]
    case delete ks d a => rw [delete_exprs _ _ _ hr]
    case setNamed ks n x =>
      rw [hr.2.1, Base.setNamed, firstErr3 hh.err.1 hr.1 hr.2.2.2.1.1]
  | upd x =>
    obtain rfl := h.1
    obtain ⟨b, hb, hh, hxe⟩ := upd_next h
    by_cases hrem : ∃ ks g ko kl kls n ls, r = .removeLabels ks g ko kl kls n ls
    · obtain ⟨ks, g, ko, kl, kls, n, ls, rfl⟩ := hrem
      obtain ⟨he, hc⟩ := labels_clause (u := u) ks g ko kl kls n ls true false hr _ rfl
      refine ⟨.upd (b.updB .remove ks [labelOperation u g ko kl kls .setLabel n ls]), P, C ++ [_], ?_,
        updB_ok (Or.inl rfl) hh _ _ _ (by simpa [errsOf_none_iff] using he) _ rfl, ⟨_, hc, rfl, rfl⟩⟩
      simp only [Req.calls, execAll_one, exec, execUpd, hb, hxe, Outcome.map]
    · obtain ⟨b', P', C', h1, h2⟩ := step_base (u := u) hh r (by rfl) hr
      refine ⟨b', P', C', ?_, h2⟩
      rw [← h1]
      have hcu : b.closeUpdate = b := by rw [show b = _ from hh]; rfl
      cases r <;> simp only [Stage.allows, reduceCtorEq] at ha <;> simp only [Req.calls, WithReq.calls, List.cons_append] <;> refine execAll_first _ ?_ <;>
        simp only [exec, execUpd, hb, Outcome.map] <;> simp only [execBase]
      case with_ r => rw [with_exprs _ _ _ hr.args]
      case delete ks d a => rw [Base.openUpdate, firstErr3 hh.err.1 hr.1 (args_vals hr).2]
      case set ks as => rw [Base.set, firstErr2 hh.err.1 (set_errs as hr), hcu]
      case setNamed ks n x =>
        rw [Base.setNamed, firstErr3 hh.err.1 hr.1 hr.2.2.2.1.1]
        simp only
        rw [Base.set, firstErr2 hh.err.1 (by simp [errsOf_none_iff, hr.2.2.1.1, hr.2.2.2.1.1]), hcu]
      case setLabels ks g ko kl kls n ls => rw [Base.update2, firstErr2 hh.err.1 hr.1.1]
      case removeLabels ks g ko kl kls n ls => exact absurd ⟨_, _, _, _, _, _, _, rfl⟩ hrem
      case remove ks xs => rw [Base.update2, firstErr2 hh.err.1 ((errsOf_none_iff _).mpr fun x hx => (hr x hx).1)]
  | inCall i =>
    obtain rfl := h.1
    obtain ⟨b, hb, hh⟩ := call_next h
    cases r <;> simp only [Stage.allows, Bool.false_eq_true] at ha
    case with_ r =>
      obtain ⟨b', P', C', h1, h2⟩ := step_base (u := u) hh (.with_ r) rfl hr
      refine ⟨b', P', C', ?_, h2⟩
      rw [← h1]
      simp only [Req.calls, WithReq.calls, List.cons_append]
      refine execAll_first _ ?_
      simp only [exec, execInCall, hb, Outcome.bind, execBase, with_exprs _ _ _ hr.args]
    case sub k st =>
      obtain ⟨b', P', C', h1, h2⟩ := step_base (u := u) hh (.sub k st) rfl hr
      refine ⟨b', P', C', ?_, h2⟩
      rw [← h1]
      simp only [Req.calls, execAll_one, exec, execInCall, hb, Outcome.bind]
  | standalone c n =>
    obtain rfl := h.1
    have hh := first_next h
    cases r <;> simp only [Stage.allows, Bool.false_eq_true] at ha
    case with_ r =>
      obtain ⟨b', P', C', h1, h2⟩ := step_base (u := u) hh (.with_ r) rfl hr
      refine ⟨b', P', C', ?_, h2⟩
      rw [← h1]
      simp only [Req.calls, WithReq.calls, List.cons_append]
      refine execAll_first _ ?_
      simp only [exec, execStandalone, execBase, with_exprs _ _ _ hr.args]
    case sub k st =>
      obtain ⟨b', P', C', h1, h2⟩ := step_base (u := u) hh (.sub k st) rfl hr
      refine ⟨b', P', C', ?_, h2⟩
      rw [← h1]
      simp only [Req.calls, execAll_one, exec, execStandalone]

end

end Verif
