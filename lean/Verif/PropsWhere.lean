import Verif.PropsErrors

/-
C31 (conditions), C32 (patterns of CREATE and MERGE), C33 (RETURN DISTINCT after an update).
-/

namespace Verif
open Spec SampleBuilder SampleErrors

section
variable {u : Unicode}

/-! ### C31 WHERE belongs to the clause it follows -/

/-- The texts before and after a clause of a query. -/
theorem Spec.Query.parts_split (q : Query) (pre post : List Req) (r : Req) (hq : q.reqs = pre ++ r :: post) :
    q.parts u = (q.call.toList.flatMap ProcReq.parts ++ pre.flatMap (Req.parts u)) ++ r.parts u ++ (post.flatMap (Req.parts u) ++ q.ret.toList.flatMap (RetReq.parts u)) := by
  simp [Query.parts, hq, List.flatMap_append, List.append_assoc]

/-- C31: in a query, the conditions given after a MATCH stand at its end, in parentheses as they were combined, and are given to no
other clause: the texts of all others are those of their own requests.  `a` is the text before, `z` after, without these conditions. -/
theorem C31_match_partial (q : Query) (h : q.Ok u) (pre post : List Req) (k kw : Key) (o : Bool) (ps : List Val) (w : Option WhereReq)
    (hq : q.reqs = pre ++ .match_ k kw o ps w :: post) :
    ∃ s, q.run u = .ok (.ok s) ∧ s.err = none ∧ ∀ e, NoAlias e (q.keys u) s.visit →
      shownAs e s.visit = layout e ((q.call.toList.flatMap ProcReq.parts ++ pre.flatMap (Req.parts u)) ++
        ([.lit (if o then c!"OPTIONAL MATCH " else c!"MATCH ")] ++ commas (ps.map (·.visit)) ++
          (match w with | none => [] | some w => whereParts (some w.whole)) ++ [.lit c!" "]) ++
        (post.flatMap (Req.parts u) ++ q.ret.toList.flatMap (RetReq.parts u))) := by
  obtain ⟨s, h1, h2, -, h3⟩ := C30_statement_partial q h
  refine ⟨s, h1, h2, fun e ha => ?_⟩
  rw [h3 e ha, q.parts_split pre post _ hq]
  cases w <;> simp [Req.parts, whereParts]

/-- C31 for WITH. -/
theorem C31_with_partial (q : Query) (h : q.Ok u) (pre post : List Req) (r : WithReq) (hq : q.reqs = pre ++ .with_ r :: post) :
    ∃ s, q.run u = .ok (.ok s) ∧ s.err = none ∧ ∀ e, NoAlias e (q.keys u) s.visit →
      shownAs e s.visit = layout e ((q.call.toList.flatMap ProcReq.parts ++ pre.flatMap (Req.parts u)) ++
        ([.lit c!"WITH "] ++ (r.result u).parts ++
          (match r.first with | none => [] | some c => whereParts (some (WhereReq.whole ⟨c, WithReq.mores r.mods⟩))) ++ [.lit c!" "]) ++
        (post.flatMap (Req.parts u) ++ q.ret.toList.flatMap (RetReq.parts u))) := by
  obtain ⟨s, h1, h2, -, h3⟩ := C30_statement_partial q h
  refine ⟨s, h1, h2, fun e ha => ?_⟩
  rw [h3 e ha, q.parts_split pre post _ hq]
  cases hf : r.first <;> simp [Req.parts, whereParts, WithReq.cond, WithReq.where_, hf]

/-- C31 for a procedure call. -/
theorem C31_call_partial (q : Query) (h : q.Ok u) (pre post : List Req) (r : ProcReq) (hq : q.reqs = pre ++ .proc r :: post) :
    ∃ s, q.run u = .ok (.ok s) ∧ s.err = none ∧ ∀ e, NoAlias e (q.keys u) s.visit →
      shownAs e s.visit = layout e ((q.call.toList.flatMap ProcReq.parts ++ pre.flatMap (Req.parts u)) ++
        ([.lit c!"CALL ", .lit r.name, .lit c!"("] ++ commas (r.args.map (·.visit)) ++ [.lit c!")"] ++
          (if r.yields = [] then [] else .lit c!" YIELD " :: commas (r.yields.map (·.visit))) ++
          (match r.cond with | none => [] | some c => whereParts (some c)) ++ [.lit c!" "]) ++
        (post.flatMap (Req.parts u) ++ q.ret.toList.flatMap (RetReq.parts u))) := by
  obtain ⟨s, h1, h2, -, h3⟩ := C30_statement_partial q h
  refine ⟨s, h1, h2, fun e ha => ?_⟩
  rw [h3 e ha, q.parts_split pre post _ hq]
  cases hf : r.cond <;> simp [Req.parts, ProcReq.parts, whereParts, hf]

/-- Not vacuous: MATCH and WITH with conditions, UNWIND in between. -/
example : ∃ pre post, query.reqs = pre ++ .match_ 1 2 true [p, q] (some ⟨ca, [(ck 0, .and, cb), (ck 1, .or, cc)]⟩) :: post := ⟨[], _, rfl⟩
example : ∃ pre r post, query.reqs = pre ++ .with_ r :: post ∧ r.first ≠ none := ⟨[_], _, _, rfl, by simp⟩

/-- C31 fails: a condition given after a subquery call is accepted, and belongs to no clause. -/
theorem C31_subquery_where_lost (b : Base) (hb : b.err = none) (hm : b.omatch.notNil = false) (c : Cond) (hc : c.toVal.err = none) (ret : Option Val) :
    ∃ b', exec u (.base b) (.where_ c) = .ok (.base b') ∧ b'.list = b.list ∧ b'.buildImpl ret = b.buildImpl ret := by
  refine ⟨_, rfl, ?_, ?_⟩ <;> simp [Base.where_, hb, hc, firstErr, Base.buildImpl, Base.list, hm]

example : Iface.typed .entry [m, .callStmt 3 (.query [leaf 8 c!"RETURN x"] none true), .where_ ca.build, ret x] = some .ret ∧
    shown (.ok start) [m, .callStmt 3 (.query [leaf 8 c!"RETURN x"] none true), .where_ ca.build, ret x] = c!"MATCH (p) CALL {RETURN x} RETURN x" := by decide +kernel

/-- C31 fails: `And` after `Where` of a procedure call panics instead of extending the condition. -/
theorem C31_call_and_panics :
    Iface.typed .entry [m, .callProc 3 4 5 6 7 [c!"f"], .yield 8 [y], .where_ ca.build, .and (ck 0) cb.build, ret x] = some .ret ∧
    shown (.ok start) [m, .callProc 3 4 5 6 7 [c!"f"], .yield 8 [y], .where_ ca.build, .and (ck 0) cb.build, ret x] = c!"panic" := by decide +kernel

/-- C31 fails: after a subquery call and its lost condition, it is the lost condition that `And` extends. -/
theorem C31_call_and_elsewhere :
    Iface.typed .entry [.callStmt 3 (.query [leaf 8 c!"RETURN x"] none true), .where_ ca.build, .callProc 3 4 5 6 7 [c!"f"], .yield 8 [y], .where_ cb.build, .and (ck 0) cc.build, ret x] = some .ret ∧
    shown (.ok start) [.callStmt 3 (.query [leaf 8 c!"RETURN x"] none true), .where_ ca.build, .callProc 3 4 5 6 7 [c!"f"], .yield 8 [y], .where_ cb.build, .and (ck 0) cc.build, ret x] =
      c!"CALL {RETURN x} CALL f() YIELD y WHERE b RETURN x" := by decide +kernel

/-- C31: the interface of a sorted WITH allows `And` without `Where`, which panics. -/
theorem C31_with_and_panics :
    Iface.typed .entry [.with_ (wk 0) false (.exprs [x]), .orderItems [.create 3 (some x) .undefined], .and (ck 0) ca.build, ret x] = some .ret ∧
    shown (.ok start) [.with_ (wk 0) false (.exprs [x]), .orderItems [.create 3 (some x) .undefined], .and (ck 0) ca.build, ret x] = c!"panic" := by decide +kernel

/-! ### C32 CREATE and MERGE keep every pattern -/

/-- C32 is false for every list of two or more patterns: only the first one is kept, whatever was called before. -/
theorem C32_only_first (b : B) (ks : UpdKeys) (p : Val) (ps : List Val) (h : ∀ x ∈ p :: ps, x.err = none) :
    exec u b (.create ks (p :: ps)) = exec u b (.create ks [p]) ∧ exec u b (.merge ks (p :: ps)) = exec u b (.merge ks [p]) := by
  have he : errsOf (p :: ps) = none := (errsOf_none_iff _).2 h
  have he' : errsOf [p] = none := (errsOf_none_iff _).2 fun x hx => h x (by simp at hx; simp [hx])
  have hc : ∀ (b : Base) t, t = .create ∨ t = .merge → b.openUpdate u t ks (.exprs (p :: ps)) = b.openUpdate u t ks (.exprs [p]) := by
    intro b t ht
    simp only [Base.openUpdate, Args.namedErr, Args.vals, he, he']
    split
    · rfl
    · rcases ht with rfl | rfl <;> rfl
  cases b <;> simp only [exec, execBase, execWith, execUpd, execRet, execUnwind, execInCall, execStandalone, execAction, hc _ _ (Or.inl rfl), hc _ _ (Or.inr rfl), and_self]

example : shown (.ok start) [m, .create (uk 0) [p, q]] = c!"MATCH (p) CREATE (p) " ∧ shown (.ok start) [.merge (uk 0) [q, p], ret x] = c!"MERGE (q) RETURN x" := by decide +kernel

/-- C32 for one pattern: it is in the clause.  Missing: more than one (`C32_only_first`). -/
theorem C32_one_partial (q : Query) (h : q.Ok u) (pre post : List Req) (ks : UpdKeys) (p : Val) (r : Req) (word : Str)
    (hr : r = .create ks p ∧ word = c!"CREATE " ∨ r = .merge ks p [] ∧ word = c!"MERGE ") (hq : q.reqs = pre ++ r :: post) :
    ∃ s, q.run u = .ok (.ok s) ∧ s.err = none ∧ ∀ e, NoAlias e (q.keys u) s.visit →
      shownAs e s.visit = layout e ((q.call.toList.flatMap ProcReq.parts ++ pre.flatMap (Req.parts u)) ++ [.lit word, .hole p.visit, .lit c!" "] ++
        (post.flatMap (Req.parts u) ++ q.ret.toList.flatMap (RetReq.parts u))) := by
  obtain ⟨s, h1, h2, -, h3⟩ := C30_statement_partial q h
  refine ⟨s, h1, h2, fun e ha => ?_⟩
  rw [h3 e ha, q.parts_split pre post _ hq]
  rcases hr with ⟨rfl, rfl⟩ | ⟨rfl, rfl⟩ <;> simp [Req.parts]

/-- C32: without any pattern, the clause vanishes, and no error is reported. -/
theorem C32_none (b : Base) (hb : b.err = none) (ks : UpdKeys) :
    exec u (.base b) (.create ks []) = .ok (.base { b.closeMatch.closeCall.closeUpdate with oupdate := none }) ∧
    exec u (.base b) (.merge ks []) = .ok (.base { b.closeMatch.closeCall.closeUpdate with oupdate := none }) := by
  simp [exec, execBase, Base.openUpdate, hb, Args.namedErr, Args.vals, errsOf, firstErr, Base.update, updBuilder]

example : shown (.ok start) [m, .create (uk 0) [], ret x] = c!"MATCH (p) RETURN x" := by decide +kernel

/-! ### C33 RETURN DISTINCT after an update returns -/

/-- C33 is false for every list of expressions after SET and REMOVE: `Build` gives what it gives without the call, which returns
nothing. -/
theorem C33_distinct_dropped (x : UpdB) (hx : x.items = []) (k ko : Key) (a : Args) :
    ∃ x', exec u (.upd x) (.returning k ko true a) = .ok (.upd x') ∧ x'.build = x.build ∧ ∀ s, x'.build = .ok (.ok s) → s.returns = false := by
  refine ⟨_, rfl, ?_, ?_⟩
  · simp only [if_true, UpdB.build, UpdB.next, hx, returnCreate]
  · intro s hs
    simp only [if_true, UpdB.build, UpdB.next, hx, returnCreate] at hs
    cases he : x.err with
    | some e => simp [he] at hs
    | none =>
      simp only [he] at hs
      obtain ⟨b, -, hb⟩ := Outcome.bind_ok hs
      obtain ⟨s', hs', h⟩ := Outcome.map_ok hb
      cases h
      have hsp : ∀ cs, (singlePart cs none).returns = false := by
        intro cs
        unfold singlePart
        split
        · rfl
        · split
          · rfl
          · split <;> rfl
      simp only [Base.buildImpl] at hs'
      split at hs'
      · cases hs'; exact hsp _
      · simp only [multiPart] at hs'
        split at hs'
        · cases hs'
        · cases hs'; exact hsp _

example : shown (.ok start) [m, .set (uk 0) [x, y], .returning 50 51 true (.exprs [x])] = c!"MATCH (p) SET x = y " := by decide +kernel

/-- C33 after CREATE, MERGE and DELETE.  Missing: SET and REMOVE (`C33_distinct_dropped`). -/
theorem C33_distinct_partial (q : Query) (h : q.Ok u) (r : RetReq) (hr : q.ret = some r) (hd : r.distinct = true) :
    ∃ s, q.run u = .ok (.ok s) ∧ s.err = none ∧ s.returns = true ∧ ∀ e, NoAlias e (q.keys u) s.visit →
      shownAs e s.visit = layout e ((q.call.toList.flatMap ProcReq.parts ++ q.reqs.flatMap (Req.parts u)) ++
        ([.lit c!"RETURN ", .lit c!"DISTINCT "] ++ commas ((items u r.args).map (·.visit)) ++
          (if (r.result u).sorts = [] then [] else .lit c!" ORDER BY " :: sepParts c!", " ((r.result u).sorts.map SortReq.parts)) ++
          (match r.skip with | some s => [.lit c!" SKIP ", .lit (itoa s.n)] | none => []) ++
          (match r.limit with | some s => [.lit c!" LIMIT ", .lit (itoa s.n)] | none => []))) := by
  obtain ⟨s, h1, h2, h4, h3⟩ := C30_statement_partial q h
  refine ⟨s, h1, h2, h4 (by simp [hr]), fun e ha => ?_⟩
  rw [h3 e ha]
  simp only [Query.parts, hr, Option.toList_some, List.flatMap_cons, List.flatMap_nil, List.append_nil, RetReq.parts, ResultReq.parts, List.append_assoc]
  have : (r.result u).distinct = true := hd
  simp only [this, if_true]
  rfl

example : shown (.ok start) [m, .create (uk 0) [p], .returning 50 51 true (.exprs [x]), .limit 52 53 3] = c!"MATCH (p) CREATE (p) RETURN DISTINCT x LIMIT 3" := by decide +kernel
example : ∃ s, Query.walk .plain [.match_ 1 2 false [p] none, .create (uk 0) p] = some s ∧ Query.mayEnd s (some { k := 50, ko := 51, distinct := true, args := .exprs [x] }) :=
  ⟨.created, by decide +kernel, fun h => by cases h⟩

end
end Verif
