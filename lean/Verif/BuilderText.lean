import Verif.BuilderSteps

/-
The text of what the builder holds, and the last step.
-/

namespace Verif
open Spec

section
variable {u : Unicode}

/-- The parts and clauses have no error and show as `ps`. -/
structure Told (s : Stage) (P : List PartV) (C : List Clause) (ks : List Key) (ps : List Part) : Prop where
  parts : ∀ p ∈ P, p.err = none
  clauses : ∀ c ∈ C, c.val.err = none
  shows : ∃ kP kC pP pC, Shows kP (P.flatMap (·.visit)) pP ∧ Shows kC (C.flatMap (·.val.visit)) pC ∧ (∀ e, layout e (pP ++ pC) = layout e ps) ∧
    ∀ k, k ∈ kP ∨ k ∈ kC → k ∈ ks
  last : ∀ h : C ≠ [], (C.getLast h).isMatch = true → s = .match_
  nonempty : C = [] → s = .plain ∨ s = .with_

theorem Told.start : Told .plain [] [] [] [] :=
  ⟨by simp, by simp, ⟨[], [], [], [], .nil, .nil, by simp, by simp⟩, fun h => absurd rfl h, fun _ => Or.inl rfl⟩

theorem Told.clause {s s' : Stage} {P : List PartV} {C : List Clause} {ks : List Key} {ps : List Part} (h : Told s P C ks ps) {c : Clause} {ks' : List Key} {ps' : List Part}
    (he : c.val.err = none) (hs : Shows ks' c.val.visit ps') (hm : c.isMatch = true → s' = .match_) : Told s' P (C ++ [c]) (ks ++ ks') (ps ++ ps') := by
  obtain ⟨kP, kC, pP, pC, h1, h2, h3, h4⟩ := h.shows
  refine ⟨h.parts, ?_, ⟨kP, kC ++ ks', pP, pC ++ ps', h1, ?_, ?_, ?_⟩, ?_, by simp⟩
  · intro x hx
    simp only [List.mem_append, List.mem_singleton] at hx
    rcases hx with hx | rfl
    · exact h.clauses x hx
    · exact he
  · simpa using h2.append hs
  · intro e
    rw [← List.append_assoc, layout_append, layout_append e ps, h3]
  · intro k hk
    simp only [List.mem_append] at hk ⊢
    rcases hk with hk | hk | hk
    · exact Or.inl (h4 k (Or.inl hk))
    · exact Or.inl (h4 k (Or.inr hk))
    · exact Or.inr hk
  · simpa using hm

theorem part_ok {C : List Clause} {v : Val} (hC : ∀ c ∈ C, c.val.err = none) (hv : v.err = none) (k : Key) :
    partCreate k C v = ⟨k, [nd k [] [] false (C.flatMap (·.val.visit) ++ v.visit)], none⟩ := by
  have : firstErr (C.map (·.val.err) ++ [v.err]) = none := by
    rw [firstErr_none_iff]
    intro x hx
    simp only [List.mem_append, List.mem_map, List.mem_singleton] at hx
    rcases hx with ⟨c, hc, rfl⟩ | rfl
    · exact hC c hc
    · exact hv
  simp only [partCreate, this]

theorem Told.with_ {s : Stage} {P : List PartV} {C : List Clause} {ks : List Key} {ps : List Part} (h : Told s P C ks ps) {v : Val} {k : Key} {ks' : List Key}
    {ps' : List Part} (he : v.err = none) (hs : Shows ks' v.visit ps') : Told .with_ (P ++ [partCreate k C v]) [] (ks ++ (k :: ks')) (ps ++ ps') := by
  obtain ⟨kP, kC, pP, pC, h1, h2, h3, h4⟩ := h.shows
  rw [part_ok h.clauses he]
  refine ⟨?_, by simp, ⟨kP ++ k :: (kC ++ ks'), [], pP ++ (.lit [] :: (pC ++ ps') ++ [.lit []]), [], ?_, .nil, ?_, ?_⟩, fun h => absurd rfl h, fun _ => Or.inr rfl⟩
  · intro x hx
    simp only [List.mem_append, List.mem_singleton] at hx
    rcases hx with hx | rfl
    · exact h.parts x hx
    · rfl
  · simpa using h1.append ((h2.append hs).wrap k [] [])
  · intro e
    have : ∀ e', layout e' (.lit [] :: (pC ++ ps') ++ [.lit []]) = layout e' (pC ++ ps') := by
      intro e'
      simp [layout, layout_append]
    rw [List.append_nil, layout_append, layout_append e ps, ← h3, this]
    simp only [layout_append]
    simp
  · intro x hx
    simp only [List.mem_append, List.mem_cons, List.not_mem_nil, or_false] at hx ⊢
    rcases hx with hx | hx | hx | hx
    · exact Or.inl (h4 x (Or.inl hx))
    · exact Or.inr (Or.inl hx)
    · exact Or.inl (h4 x (Or.inr hx))
    · exact Or.inr (Or.inr hx)

theorem Told.adds {s : Stage} {P P' : List PartV} {C C' : List Clause} {ks : List Key} {ps : List Part} (h : Told s P C ks ps) {r : Req} (ha : Adds u r P C P' C') :
    Told r.stage P' C' (ks ++ r.keys u) (ps ++ r.parts u) := by
  cases r
  case with_ w =>
    obtain ⟨v, he, hs, rfl, rfl⟩ := ha
    exact h.with_ he hs
  all_goals
    obtain ⟨c, ⟨he, hs, hm⟩, rfl, rfl⟩ := ha
    exact h.clause he hs hm

/-- All requests. -/
theorem steps (rs : List Req) (hr : ∀ r ∈ rs, r.Ok u) {s s' : Stage} {b : B} {P : List PartV} {C : List Clause} {ks : List Key} {ps : List Part}
    (hw : Query.walk s rs = some s') (h : Holds s b P C) (ht : Told s P C ks ps) :
    ∃ b' P' C', execAll u b (rs.flatMap Req.calls) = .ok b' ∧ Holds s' b' P' C' ∧ Told s' P' C' (ks ++ rs.flatMap (Req.keys u)) (ps ++ rs.flatMap (Req.parts u)) := by
  induction rs generalizing s b P C ks ps with
  | nil =>
    simp only [Query.walk, Option.some.injEq] at hw
    subst hw
    exact ⟨b, P, C, rfl, h, by simpa using ht⟩
  | cons r rs ih =>
    rw [Query.walk] at hw
    split at hw
    · rename_i ha
      obtain ⟨b1, P1, C1, h1, h2, h3⟩ := step h r ha (hr r (by simp))
      obtain ⟨b', P', C', h4, h5, h6⟩ := ih (fun x hx => hr x (by simp [hx])) hw h2 (ht.adds h3)
      refine ⟨b', P', C', ?_, h5, ?_⟩
      · simp only [List.flatMap_cons, execAll_append, h1, Outcome.bind, h4]
      · simpa using h6
    · simp at hw

/-! ### The end -/

/-- What `BuildImpl` makes of parts, clauses and a RETURN. -/
def finish (P : List PartV) (C : List Clause) (ret : Option Val) : Outcome Stmt :=
  if P = [] then .ok (singlePart C ret) else multiPart P (singlePart C ret)

theorem build_finish {s : Stage} {b : Base} {P : List PartV} {C : List Clause} (h : Has s b P C) (ret : Option Val) : b.buildImpl ret = finish P C ret := by
  simp only [Base.buildImpl, h.list, h.err.2, finish]

theorem finish_ok {s : Stage} {P : List PartV} {C : List Clause} {ks : List Key} {ps : List Part} (ht : Told s P C ks ps) (ret : Option Val) (ks' : List Key)
    (ps' : List Part) (hr : ∀ r, ret = some r → Good r) (hs : Shows ks' (ret.elim [] (·.visit)) ps')
    (hend : ret = none → s ≠ .plain ∧ s ≠ .with_ ∧ s ≠ .match_) :
    ∃ q, finish P C ret = .ok q ∧ q.err = none ∧ q.returns = ret.isSome ∧ Shows (ks ++ ks') q.visit (ps ++ ps') := by
  obtain ⟨kP, kC, pP, pC, h1, h2, h3, h4⟩ := ht.shows
  have hsingle : singlePart C ret = .query (C.flatMap (·.val.visit) ++ ret.elim [] (·.visit)) none ret.isSome := by
    have hf : firstErr (C.map (·.val.err) ++ [errOf ret]) = none := by
      rw [firstErr_none_iff]
      intro x hx
      simp only [List.mem_append, List.mem_map, List.mem_singleton] at hx
      rcases hx with ⟨c, hc, rfl⟩ | rfl
      · exact ht.clauses c hc
      · cases ret with
        | none => rfl
        | some r => exact (hr r rfl).1
    rw [singlePart, if_neg, if_neg, hf]
    · cases ret with
      | none => simp [visitIfNotNull]
      | some r => simp [visitIfNotNull, (hr r rfl).2]
    · rintro ⟨h5, h6⟩
      by_cases hC : C = []
      · simp [hC] at h5
      · rw [List.getLast?_eq_some_getLast hC] at h5
        simp only [Option.map_some, Option.some.injEq] at h5
        exact (hend h6).2.2 (ht.last hC h5)
    · rintro ⟨h5, h6⟩
      rcases ht.nonempty h5 with h7 | h7
      · exact (hend h6).1 h7
      · exact (hend h6).2.1 h7
  have hshow : Shows (ks ++ ks') (P.flatMap (·.visit) ++ (C.flatMap (·.val.visit) ++ ret.elim [] (·.visit))) (ps ++ ps') := by
    refine ((h1.append (h2.append hs)).mono ?_).congr ?_
    · intro k hk
      simp only [List.mem_append] at hk ⊢
      rcases hk with hk | hk | hk
      · exact Or.inl (h4 k (Or.inl hk))
      · exact Or.inl (h4 k (Or.inr hk))
      · exact Or.inr hk
    · intro e
      rw [← List.append_assoc, layout_append, layout_append e ps, h3]
  rw [finish, hsingle]
  by_cases hP : P = []
  · refine ⟨_, if_pos hP, rfl, rfl, ?_⟩
    simpa [hP, Stmt.visit] using hshow
  · have hf : firstErr (P.map (·.err) ++ [none]) = none := by
      rw [firstErr_none_iff]
      intro x hx
      simp only [List.mem_append, List.mem_map, List.mem_singleton] at hx
      rcases hx with ⟨c, hc, rfl⟩ | rfl
      · exact ht.parts c hc
      · rfl
    refine ⟨.query (P.flatMap (·.visit) ++ (C.flatMap (·.val.visit) ++ ret.elim [] (·.visit))) none ret.isSome, ?_, rfl, rfl, ?_⟩
    · rw [if_neg hP]
      simp only [multiPart, Stmt.err, hf, Stmt.visit, Stmt.returns]
    · simpa only [Stmt.visit] using hshow

/-! ### RETURN -/

theorem ret_order (os : List (Bool × OrderCall)) (r : RetB) :
    execAll u (.ret r) (os.flatMap fun o => orderCalls o.1 o.2) = .ok (.ret { r with order := (os.map (·.2)).foldl OrderCall.run r.order }) := by
  induction os generalizing r with
  | nil => rfl
  | cons o os ih =>
    have h1 : execAll u (.ret r) (orderCalls o.1 o.2) = .ok (.ret { r with order := OrderCall.run r.order o.2 }) := by
      obtain ⟨again, o⟩ := o
      cases o with
      | items ds => rfl
      | sort d => cases again <;> cases hd : d.dir <;> simp [orderCalls, hd, execAll, exec, execRet, Outcome.bind, OrderCall.run]
    simp only [List.flatMap_cons, execAll_append, h1, Outcome.bind, ih, List.map_cons, List.foldl_cons]

theorem upd_order (os : List (Bool × OrderCall)) (r : UpdB) :
    execAll u (.upd r) (os.flatMap fun o => orderCalls o.1 o.2) = .ok (.upd { r with order := (os.map (·.2)).foldl OrderCall.run r.order }) := by
  induction os generalizing r with
  | nil => rfl
  | cons o os ih =>
    have h1 : execAll u (.upd r) (orderCalls o.1 o.2) = .ok (.upd { r with order := OrderCall.run r.order o.2 }) := by
      obtain ⟨again, o⟩ := o
      cases o with
      | items ds => rfl
      | sort d => cases again <;> cases hd : d.dir <;> simp [orderCalls, hd, execAll, exec, execUpd, Outcome.bind, OrderCall.run]
    simp only [List.flatMap_cons, execAll_append, h1, Outcome.bind, ih, List.map_cons, List.foldl_cons]

theorem ret_calls (r : RetReq) (b : RetB) (hb : b.order = {}) :
    execAll u (.ret b) (r.order.flatMap (fun o => orderCalls o.1 o.2) ++ (r.skip.toList.map fun s => .skip s.k s.kl s.n) ++ r.limit.toList.map fun s => .limit s.k s.kl s.n) =
      .ok (.ret { b with order := (r.result u).orderB }) := by
  rw [execAll_append, execAll_append, ret_order, hb]
  cases hs : r.skip <;> cases hl : r.limit <;> simp [execAll, exec, execRet, Outcome.bind, ResultReq.orderB, RetReq.result, hs, hl]

theorem upd_calls (r : RetReq) (b : UpdB) (hb : b.order = {}) :
    execAll u (.upd b) (r.order.flatMap (fun o => orderCalls o.1 o.2) ++ (r.skip.toList.map fun s => .skip s.k s.kl s.n) ++ r.limit.toList.map fun s => .limit s.k s.kl s.n) =
      .ok (.upd { b with order := (r.result u).orderB }) := by
  rw [execAll_append, execAll_append, upd_order, hb]
  cases hs : r.skip <;> cases hl : r.limit <;> simp [execAll, exec, execUpd, Outcome.bind, ResultReq.orderB, RetReq.result, hs, hl]

theorem return_base {s : Stage} {b : Base} {P : List PartV} {C : List Clause} (h : Has s b P C) (r : RetReq) (hr : r.Ok u) :
    (execAll u (.base b) r.calls).bind B.build = (finish P C (returnCreate r.k r.ko r.distinct (items u r.args) (r.result u).orderB)).map .ok := by
  obtain ⟨hv, he⟩ := args_vals hr.1
  simp only [RetReq.calls, execAll, exec, execBase, Base.returning, firstErr3 h.err.1 hr.1.1 he, Outcome.bind]
  rw [ret_calls r _ rfl]
  simp only [B.build, RetB.build, build_finish h, hv]

/-- The RETURN at any stage. -/
theorem return_step {s : Stage} {b : B} {P : List PartV} {C : List Clause} (h : Holds s b P C) (r : RetReq) (hr : r.Ok u) (hs : s = .updated → r.distinct = false) :
    (execAll u b r.calls).bind B.build = (finish P C (returnCreate r.k r.ko r.distinct (items u r.args) (r.result u).orderB)).map .ok := by
  cases b with
  | base b => exact return_base h r hr
  | ret r => exact h.elim
  | unwind r => exact h.elim
  | action r => exact h.elim
  | with_ w =>
    obtain rfl := h.1
    obtain ⟨b, hb, hh⟩ := with_next h
    rw [← return_base hh r hr]
    congr 1
    simp only [RetReq.calls]
    refine execAll_first _ ?_
    simp only [exec, execWith, hb, Outcome.bind]
    simp only [execBase, returning_exprs _ _ _ _ hr.1]
  | upd x =>
    obtain rfl := h.1
    obtain ⟨b, hb, hh, -⟩ := upd_next h
    obtain ⟨-, s', b0, c, C', hs0, rfl, -, -⟩ := h
    have hd := hs rfl
    simp only [RetReq.calls, execAll, exec, execUpd, hd, Outcome.bind, Bool.false_eq_true, if_false]
    rw [upd_calls r _ rfl]
    simp only [B.build, UpdB.build]
    have hb' : ∀ k ko items order, UpdB.next { k := k, ko := ko, base := some b0, items := items, order := order, builder := some c } = .ok b := fun _ _ _ _ => hb
    rw [hb']
    simp only [Outcome.bind, build_finish hh, (args_vals hr.1).1, List.nil_append]
  | inCall i =>
    obtain rfl := h.1
    obtain ⟨b, hb, hh⟩ := call_next h
    rw [← return_base hh r hr]
    congr 1
    simp only [RetReq.calls]
    refine execAll_first _ ?_
    simp only [exec, execInCall, hb, Outcome.bind]
    simp only [execBase, returning_exprs _ _ _ _ hr.1]
  | standalone c n =>
    obtain rfl := h.1
    rw [← return_base (first_next h) r hr]
    congr 1
    simp only [RetReq.calls]
    refine execAll_first _ ?_
    simp only [exec, execStandalone]
    simp only [execBase, returning_exprs _ _ _ _ hr.1]

/-- The end without RETURN. -/
theorem no_return {s : Stage} {b : B} {P : List PartV} {C : List Clause} (h : Holds s b P C) (hs : s = .created ∨ s = .merged ∨ s = .updated) :
    b.build = (finish P C none).map .ok := by
  cases b with
  | base b => rw [B.build, Base.build, Has.err h |>.1]; simp only [build_finish h]
  | ret r => exact h.elim
  | unwind r => exact h.elim
  | action r => exact h.elim
  | with_ w => obtain rfl := h.1; simp at hs
  | inCall i => obtain rfl := h.1; simp at hs
  | standalone c n => obtain rfl := h.1; simp at hs
  | upd x =>
    obtain rfl := h.1
    obtain ⟨b, hb, hh, hx⟩ := upd_next h
    obtain ⟨-, s', b0, c, C', hs0, rfl, -, -⟩ := h
    simp only [B.build, UpdB.build, hb, Outcome.bind, build_finish hh]
    rfl

/-! ### The start -/

theorem start_call (r : ProcReq) (hr : r.Ok) :
    ∃ b v, (startCall r.kc r.ka r.kw r.k r.kn [r.name]).bind (fun b => execAll u b r.calls) = .ok b ∧ v.val.err = none ∧ Shows r.keys v.val.visit r.parts ∧
      v.isMatch = false ∧ Holds (if r.cond = none then .first else .callWhere) b [] [v] := by
  obtain ⟨v, hv, he, hsh, hm⟩ := proc_clause r hr true
  let c1 : CallB := ⟨r.kc, r.ka, r.kw, true, ⟨r.k, r.kn, none, r.name⟩, if r.args = [] then none else some r.args, yieldItems r.ky r.yields, none⟩
  have h1 : (startCall r.kc r.ka r.kw r.k r.kn [r.name]).bind (fun b => execAll u b ((if r.args = [] then [] else [.args r.args]) ++ [.yield r.ky r.yields])) =
      .ok (.standalone c1 true) := by
    by_cases ha : r.args = [] <;> simp [startCall, procName, Outcome.map, ha, execAll, exec, execStandalone, Outcome.bind, c1]
  have hcalls : r.calls = ((if r.args = [] then [] else [.args r.args]) ++ [.yield r.ky r.yields]) ++ r.cond.toList.map fun c => .where_ c.build := by
    simp [ProcReq.calls]
  have h2 : (startCall r.kc r.ka r.kw r.k r.kn [r.name]).bind (fun b => execAll u b r.calls) =
      execAll u (.standalone c1 true) (r.cond.toList.map fun c => .where_ c.build) := by
    rw [hcalls]
    simp only [startCall, procName, Outcome.map, Outcome.bind] at h1 ⊢
    rw [execAll_append, h1]
    rfl
  rw [h2]
  cases hc : r.cond with
  | none =>
    refine ⟨_, v, rfl, he, hsh, hm, ?_⟩
    rw [if_pos rfl]
    refine ⟨rfl, rfl, rfl, v, ?_, rfl⟩
    rw [← hv, ProcReq.callB, hc]
    rfl
  | some p =>
    refine ⟨.base (startWithCall { c1 with cond := some p.build } true), v, rfl, he, hsh, hm, ?_⟩
    rw [if_neg (by simp)]
    refine ⟨_, v, [], rfl, ?_, rfl⟩
    rw [← hv, ProcReq.callB, hc]
    rfl

end

end Verif
