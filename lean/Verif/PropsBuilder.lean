import Verif.BuilderText
import Verif.Interfaces

/-
C30-C34: the fluent builder.  Property theorems and concrete cases; the lemmas are in BuilderLemmas, BuilderSteps and BuilderText.
-/

namespace Verif
open Spec

namespace SampleBuilder

def w (k : Key) (s : Str) : Val := .mk' k [leaf k s]
def x : Val := w 101 c!"x"
def y : Val := w 102 c!"y"
def z : Val := w 103 c!"z"
def ca : Calls := .atom (.mk' 104 [leaf 104 c!"a"] true)
def cb : Calls := .atom (.mk' 105 [leaf 105 c!"b"] true)
def cc : Calls := .atom (.mk' 106 [leaf 106 c!"c"] true)
/-- A pattern. -/
def p : Val := w 107 c!"(p)"
def q : Val := w 108 c!"(q)"
def ck (n : Nat) : Cond.Keys := ⟨1000 + 3 * n, 1001 + 3 * n, 1002 + 3 * n⟩
def uk (n : Nat) : UpdKeys := ⟨2000 + 10 * n, 2001 + 10 * n, fun i => 2002 + 10 * n + i⟩
def wk (n : Nat) : WithKeys := ⟨3000 + 5 * n, 3001 + 5 * n, 3002 + 5 * n, 3003 + 5 * n, 3004 + 5 * n⟩
/-- A node named "n". -/
def node : NodeV := { name := some (109, c!"n"), key := 110, notNil := true }

/-- What happens when the calls are made on a new builder, and then `Build()`. -/
def shown (b : Outcome B) (cs : List Call) : Str :=
  match (b.bind fun b => execAll .ascii b cs).bind B.build with
  | .panic => c!"panic"
  | .ok (.error _) => c!"error"
  | .ok (.ok s) => if s.err.isSome then c!"error" else text s.visit

/-- `OptionalMatch(p, q).Where(a).And(b).Or(c).WithDistinctByString("v", "w").Where(a).And(b).OrderBy(x).Descending().Limit(7).Unwind(y).As("z").Merge(q).OnCreate().Set(x, y)
.SetWithNamed(n, z).RemoveByNode(n, "L").Returning(x).OrderBy(y).Skip(2)` -/
def query : Query where
  reqs := [.match_ 1 2 true [p, q] (some ⟨ca, [(ck 0, .and, cb), (ck 1, .or, cc)]⟩),
    .with_ ⟨wk 0, true, .strings [(111, c!"v"), (112, c!"w")], some ca, [.more (ck 2, .and, cb), .order false (.sort ⟨113, 114, x, .desc⟩)], none, some ⟨115, 116, 7⟩⟩,
    .unwind 3 4 y c!"z",
    .merge (uk 0) q [⟨117, 118, 119, fun i => 120 + i, .onCreate, [.pair x y]⟩],
    .setNamed (uk 1) { sym := w 130 c!"n", req := w 130 c!"n" } z,
    .removeLabels (uk 2) [] 131 132 (fun i => 133 + i) node [c!"L"]]
  ret := some { k := 140, ko := 141, args := .exprs [x], order := [(false, .sort ⟨142, 143, y, .undefined⟩)], skip := some ⟨144, 145, 2⟩ }

/-- `Call("db.labels").WithArgs(x).Yield(y).Where(a).Call(statement).Returning(x)` -/
def callQuery : Query where
  call := some { kc := 1, ka := 2, kw := 3, k := 4, kn := 5, ky := 6, name := c!"db.labels", args := [x], yields := [y], cond := some ca }
  reqs := [.sub 7 (.query [leaf 8 c!"RETURN x"] none true)]
  ret := some { k := 9, ko := 10, distinct := true, args := .exprs [x] }

/-- What `AsCondition()` gives after clauses, on a new builder. -/
def existsOf (rs : List Req) : Str :=
  match execAll .ascii start (rs.flatMap Req.calls) with
  | .ok (.base b) => match b.asCondition 500 with | .ok v => text v.visit | .panic => c!"panic"
  | _ => []

end SampleBuilder
open SampleBuilder

section
variable {u : Unicode}

/-! ### C30 Clauses appear in call order -/

/-- C30: a query that is requested clause by clause is built, has no error, and consists of exactly the clauses requested, in the
order of the calls.  Missing: `q.Ok` excludes the call sequences of `C30_call_where_unwind`, `C30_call_where_set`, `C30_merge_remove`,
for which this is false. -/
theorem C30_statement_partial (q : Query) (h : q.Ok u) :
    ∃ s, q.run u = .ok (.ok s) ∧ s.err = none ∧ (q.ret ≠ none → s.returns = true) ∧
      ∀ e, NoAlias e (q.keys u) s.visit → shownAs e s.visit = layout e (q.parts u) := by
  obtain ⟨s, hw, hend⟩ := h.order
  have hfirst : ∃ b P C, q.first u = .ok b ∧ Holds q.start b P C ∧ Told q.start P C (q.call.toList.flatMap ProcReq.keys) (q.call.toList.flatMap ProcReq.parts) := by
    cases hc : q.call with
    | none => exact ⟨start, [], [], by simp [Query.first, hc], by simp only [Query.start, hc]; rfl, by simpa [Query.start, hc] using Told.start⟩
    | some c =>
      obtain ⟨b, v, h1, h2, h3, h4, h5⟩ := start_call (u := u) c (h.call c hc)
      refine ⟨b, [], [v], by simp only [Query.first, hc]; exact h1, by simpa only [Query.start, hc] using h5, ?_⟩
      have := Told.start.clause (s' := q.start) h2 h3 (by simp [h4])
      simpa using this
  obtain ⟨b, P, C, h1, h2, h3⟩ := hfirst
  obtain ⟨b', P', C', h4, h5, h6⟩ := steps q.reqs h.reqs hw h2 h3
  have hrun : q.run u = (execAll u b' (q.ret.toList.flatMap RetReq.calls)).bind B.build := by
    rw [Query.run, h1]
    simp only [Outcome.bind]
    rw [execAll_append, h4]
    rfl
  rw [hrun]
  cases hr : q.ret with
  | some r =>
    have hok := h.ret r hr
    rw [hr] at hend
    obtain ⟨v, hv, hg, -⟩ := C25_return (e := ⟨fun _ => none, fun _ => false⟩) r.k r.ko (r.result u) hok.2
    have hs : Shows (r.keys u) v.visit (r.parts u) := by
      intro e ha
      obtain ⟨v', hv', -, hs'⟩ := C25_return (e := e) r.k r.ko (r.result u) hok.2
      rw [hv] at hv'
      cases hv'
      exact hs' ha
    obtain ⟨st, hf, he, hret, hsh⟩ := finish_ok h6 (some v) (r.keys u) (r.parts u) (fun x hx => by cases hx; exact hg) hs (by simp)
    refine ⟨st, ?_, he, fun _ => by simpa using hret, fun e ha => ?_⟩
    · simp only [Option.toList_some, List.flatMap_cons, List.flatMap_nil, List.append_nil]
      rw [return_step h5 r hok hend]
      have hv2 : returnCreate r.k r.ko r.distinct (items u r.args) (r.result u).orderB = some v := hv
      rw [hv2, hf]
      rfl
    · rw [hsh e (by simpa [Query.keys, hr] using ha)]
      simp [Query.parts, hr]
  | none =>
    rw [hr] at hend
    by_cases hs : s = .first
    · subst hs
      cases b' with
      | standalone c n =>
        obtain ⟨-, -, rfl, v, hv, rfl⟩ := h5
        obtain ⟨kP, kC, pP, pC, t1, t2, t3, t4⟩ := h6.shows
        refine ⟨c.stmt v, ?_, ?_, by simp, fun e ha => ?_⟩
        · simp [execAll, Outcome.bind, B.build, hv, Except.map]
        · exact h6.clauses v (by simp)
        · have := (t1.append t2).mono (ks' := q.keys u) (fun k hk => by
            have := t4 k (by simpa using hk)
            simpa [Query.keys, hr] using this)
          have hv2 := this e (by simpa [CallB.stmt, Stmt.visit] using ha)
          rw [t3] at hv2
          simpa [CallB.stmt, Stmt.visit, Query.parts, hr] using hv2
      | base b => exact (show False from h5).elim
      | with_ b => exact absurd h5.1 (by simp)
      | upd b => exact absurd h5.1 (by simp)
      | inCall b => exact absurd h5.1 (by simp)
      | ret b => exact h5.elim
      | unwind b => exact h5.elim
      | action b => exact h5.elim
    · have hs' : s = .created ∨ s = .merged ∨ s = .updated := by
        simp only [Query.mayEnd] at hend
        rcases hend with h | h | h | h
        · exact Or.inl h
        · exact Or.inr (Or.inl h)
        · exact Or.inr (Or.inr h)
        · exact absurd h hs
      obtain ⟨st, hf, he, -, hsh⟩ := finish_ok h6 none [] [] (by simp) .nil (fun _ => by rcases hs' with rfl | rfl | rfl <;> simp)
      refine ⟨st, ?_, he, by simp, fun e ha => ?_⟩
      · simp only [Option.toList_none, List.flatMap_nil, execAll, Outcome.bind]
        rw [no_return h5 hs', hf]
        rfl
      · rw [hsh e (by simpa [Query.keys, hr] using ha)]
        simp [Query.parts, hr]

example : shown (.ok start) (query.reqs.flatMap Req.calls ++ query.ret.toList.flatMap RetReq.calls) =
    c!"OPTIONAL MATCH (p), (q) WHERE ((a AND b) OR c) WITH DISTINCT v, w ORDER BY x DESC LIMIT 7 WHERE (a AND b) UNWIND y AS z MERGE (q) ON CREATE SET x = y SET n = z REMOVE n:`L` RETURN x ORDER BY y SKIP 2" := by
  decide +kernel
example : shown (callQuery.first .ascii) (callQuery.reqs.flatMap Req.calls ++ callQuery.ret.toList.flatMap RetReq.calls) =
    c!"CALL db.labels(x) YIELD y WHERE a CALL {RETURN x} RETURN DISTINCT x" := by
  decide +kernel

theorem SampleBuilder.w_good (k : Key) (s : Str) : Good (w k s) := ⟨rfl, rfl⟩

/-- Not vacuous. -/
example : query.Ok .ascii where
  call := by simp [query]
  reqs := by
    have hw : ∀ k s, (w k s).err = none ∧ Spec.One (w k s).visit := fun k s => ⟨rfl, ⟨_, _, rfl⟩⟩
    intro r hr
    simp only [query, List.mem_cons, List.not_mem_nil, or_false] at hr
    rcases hr with rfl | rfl | rfl | rfl | rfl | rfl
    · refine ⟨by simp only [List.mem_cons, List.not_mem_nil, or_false, forall_eq_or_imp, forall_eq]; exact ⟨hw .., hw ..⟩, fun x hx => ?_⟩
      cases hx
      refine ⟨⟨rfl, rfl, rfl⟩, rfl, ?_⟩
      simp only [List.mem_cons, List.not_mem_nil, or_false, forall_eq_or_imp, forall_eq]
      exact ⟨⟨by decide, rfl, rfl, rfl⟩, ⟨by decide, rfl, rfl, rfl⟩⟩
    · refine ⟨⟨rfl, ?_, ?_⟩, ⟨by decide +kernel, ?_, ?_, ?_, ?_, ?_⟩, ?_, by simp⟩
      · simp only [items, List.map_cons, List.map_nil, List.mem_cons, List.not_mem_nil, or_false, forall_eq_or_imp, forall_eq]
        exact ⟨⟨rfl, ⟨_, _, rfl⟩⟩, ⟨rfl, ⟨_, _, rfl⟩⟩⟩
      · intro xs hx
        cases hx
        simp
      · simp only [WithReq.result, items, List.map_cons, List.map_nil, List.mem_cons, List.not_mem_nil, or_false, forall_eq_or_imp, forall_eq]
        exact ⟨⟨rfl, ⟨_, _, rfl⟩⟩, ⟨rfl, ⟨_, _, rfl⟩⟩⟩
      · intro d hd
        simp [WithReq.result, ResultReq.sorts, WithReq.orders, OrderCall.sorts] at hd
        subst hd
        rfl
      · intro s hs; cases hs
      · intro s hs; cases hs; decide
      · intro pre d post hp hd
        simp [WithReq.result, WithReq.orders] at hp
        cases pre with
        | nil => simp at hp; exact hp.2
        | cons a as => simp at hp
      · intro x hx
        cases hx
        refine ⟨⟨rfl, rfl, rfl⟩, rfl, ?_⟩
        simp only [WithReq.mores, List.filterMap_cons, List.filterMap_nil, List.mem_cons, List.not_mem_nil, or_false, forall_eq]
        exact ⟨by decide, rfl, rfl, rfl⟩
    · exact ⟨rfl, by simp [y, w, Val.mk']⟩
    · refine ⟨hw .., ?_⟩
      simp only [List.mem_cons, List.not_mem_nil, or_false, forall_eq]
      exact ⟨w_good .., w_good .., rfl, rfl⟩
    · exact ⟨rfl, rfl, w_good .., w_good .., rfl, rfl⟩
    · exact ⟨⟨rfl, rfl, by simp [node]⟩, by simp, by simp⟩
  ret := by
    intro r hr
    cases hr
    refine ⟨⟨rfl, ?_, by simp⟩, ⟨by simp [RetReq.result, items], ?_, ?_, ?_, ?_, ?_⟩⟩
    · simp only [items, List.mem_cons, List.not_mem_nil, or_false, forall_eq]
      exact ⟨rfl, ⟨_, _, rfl⟩⟩
    · simp only [RetReq.result, items, List.mem_cons, List.not_mem_nil, or_false, forall_eq]
      exact ⟨rfl, ⟨_, _, rfl⟩⟩
    · intro d hd
      simp [RetReq.result, ResultReq.sorts, OrderCall.sorts] at hd
      subst hd
      rfl
    · intro s hs; cases hs; decide
    · intro s hs; cases hs
    · intro pre d post hp hd
      simp [RetReq.result] at hp
      cases pre with
      | nil => simp at hp; exact hp.2
      | cons a as => simp at hp
  order := ⟨.updated, by decide +kernel, fun _ => rfl⟩

example : callQuery.Ok .ascii where
  call := by
    intro c hc
    cases hc
    refine ⟨?_, ?_, ?_⟩
    · simp only [List.mem_cons, List.not_mem_nil, or_false, forall_eq]; exact ⟨rfl, ⟨_, _, rfl⟩⟩
    · simp only [List.mem_cons, List.not_mem_nil, or_false, forall_eq]; exact ⟨rfl, ⟨_, _, rfl⟩⟩
    · intro c hc; cases hc; exact ⟨rfl, rfl, rfl⟩
  reqs := by
    simp only [callQuery, List.mem_cons, List.not_mem_nil, or_false, forall_eq]
    exact ⟨rfl, rfl⟩
  ret := by
    intro r hr
    cases hr
    refine ⟨⟨rfl, ?_, by simp⟩, ⟨by simp [RetReq.result, items], ?_, by simp [RetReq.result, ResultReq.sorts], by simp [RetReq.result], by simp [RetReq.result], ?_⟩⟩
    · simp only [items, List.mem_cons, List.not_mem_nil, or_false, forall_eq]
      exact ⟨rfl, ⟨_, _, rfl⟩⟩
    · simp only [RetReq.result, items, List.mem_cons, List.not_mem_nil, or_false, forall_eq]
      exact ⟨rfl, ⟨_, _, rfl⟩⟩
    · intro pre d post hp hd
      simp [RetReq.result] at hp
  order := ⟨.plain, by decide +kernel, fun h => by cases h⟩

/-- C30: what the interfaces of the builder allow beyond `C30_statement_partial`: if Go's type checker admits the calls of a query,
its clauses may follow each other, or one of them makes a `Gap`; and if the last value has `Build`, the query may end there, or it
is `ReturningDistinct` after SET or REMOVE. -/
theorem C30_only_gaps (q : Query) (i : Iface) (h : q.type = some i) :
    (∃ s, Query.walk q.start q.reqs = some s ∧ (i.builds = true → Query.mayEnd s q.ret ∨ s = .updated ∧ ∃ r, q.ret = some r ∧ r.distinct = true)) ∨
      ∃ pre r post s, q.reqs = pre ++ r :: post ∧ Query.walk q.start pre = some s ∧ Gap s r = true := by
  rw [Query.type, Iface.typed_append, Iface.typed_append, Option.bind_eq_some_iff] at h
  obtain ⟨j, hj, hr⟩ := h
  rw [Option.bind_eq_some_iff] at hj
  obtain ⟨k, hk, hj⟩ := hj
  have hc : Iface.Compat q.start k := by
    cases hq : q.call with
    | none => simp [hq, Iface.typed] at hk; subst hk; simp [Query.start, hq, Iface.Compat]
    | some c =>
      simp only [hq, Option.isSome_some, if_true, Option.toList_some, List.flatMap_cons, List.flatMap_nil, List.append_nil] at hk
      have := Iface.first_typed c hk
      subst this
      simp only [Query.start, hq]
      split <;> rfl
  rcases Iface.walk_ok q.reqs hc hj with ⟨s, h1, h2⟩ | h1
  · refine Or.inl ⟨s, h1, fun hb => ?_⟩
    cases hq : q.ret with
    | none =>
      left
      simp [hq, Iface.typed] at hr
      subst hr
      simp only [Query.mayEnd]
      cases s <;> simp only [Iface.Compat] at h2 <;> (try rcases h2 with rfl | rfl | rfl | rfl | rfl | rfl) <;> (try rcases h2 with rfl | rfl | rfl) <;>
        (try rcases h2 with rfl | rfl) <;> (try subst h2) <;> first | (simp; done) | (simp [Iface.builds] at hb)
    | some r =>
      simp only [Query.mayEnd]
      by_cases hs : s = .updated
      · cases hd : r.distinct
        · left; simp
        · right; exact ⟨hs, r, rfl, hd⟩
      · left; simp [hs]
  · exact Or.inr h1

example : query.type = some .retSkip := by decide +kernel
example : callQuery.type = some .ret := by decide +kernel

/-- C30 fails: `Match(p)….Call1("f").Yield(y).Where(a).Unwind(x).As("z")` puts UNWIND before CALL. -/
theorem C30_call_where_unwind :
    let r : Query := { reqs := [.match_ 1 2 false [p] none, .proc ⟨3, 4, 5, 6, 7, 8, c!"f", [x], [y], some ca⟩, .unwind 9 10 x c!"z"], ret := some { k := 11, ko := 12, args := .exprs [z] } }
    r.type = some .ret ∧ shown (.ok start) (r.reqs.flatMap Req.calls ++ r.ret.toList.flatMap RetReq.calls) =
      c!"MATCH (p) UNWIND x AS z CALL f(x) YIELD y WHERE a RETURN z" := by decide +kernel

/-- C30 fails: SET after `Where` of a procedure call comes before CALL. -/
theorem C30_call_where_set :
    let r : Query := { call := some ⟨3, 4, 5, 6, 7, 8, c!"f", [], [y], some ca⟩, reqs := [.set (uk 0) [.pair x z]] }
    r.type = some .updated ∧ shown (r.first .ascii) (r.reqs.flatMap Req.calls) = c!"SET x = z CALL f() YIELD y WHERE a " := by decide +kernel

/-- `With(x).OrderBy(y).Skip(2)`, converted back to the builder, `.Limit(7).Returning(x)`. -/
def SampleBuilder.withSkip : Query where
  reqs := [.with_ { ks := wk 0, args := .exprs [x], mods := [.order false (.sort ⟨113, 114, y, .desc⟩)], skip := some ⟨115, 116, 2⟩, limit := some ⟨117, 118, 7⟩ }]
  ret := some { k := 140, ko := 141, args := .exprs [x] }

/-- C25 and C30 fail for SKIP of a WITH: the interface that `Skip` returns has no method, no call and no `Build()` can follow it. -/
theorem C25_with_skip (i : Iface) (hi : i = .withNoWhere ∨ i = .withWhere ∨ i = .withOrder ∨ i = .withSort) (k kl : Key) (n : Int) (cs : List Call) :
    (Iface.typed i [.skip k kl n]).map Iface.builds = some false ∧ (cs ≠ [] → Iface.typed i (.skip k kl n :: cs) = none) := by
  have h : Iface.sig i (.skip k kl n) = some .withSkip := by rcases hi with rfl | rfl | rfl | rfl <;> rfl
  refine ⟨by simp [Iface.typed, h, Iface.builds], fun hc => ?_⟩
  cases cs with
  | nil => exact absurd rfl hc
  | cons c cs =>
    rw [Iface.typed, h, Option.bind_some, Iface.typed, show Iface.sig .withSkip c = none from rfl]
    rfl

/-- C25: converted back to the builder, SKIP has its place (this query is `Ok`, so C25, C30 and C54 hold for it). -/
example : withSkip.type = none ∧ shown (.ok start) (withSkip.reqs.flatMap Req.calls ++ withSkip.ret.toList.flatMap RetReq.calls) =
    c!"WITH x ORDER BY y DESC SKIP 2 LIMIT 7 RETURN x" := by decide +kernel

/-- C30 fails: REMOVE after actions of a MERGE comes before MERGE. -/
theorem C30_merge_remove :
    let r : Query := { reqs := [.merge (uk 0) p [⟨1, 2, 3, fun i => 4 + i, .onMatch, [.pair x y]⟩], .remove (uk 1) [z]] }
    r.type = some .updated ∧ shown (.ok start) (r.reqs.flatMap Req.calls) = c!"REMOVE z MERGE (p) ON MATCH SET x = y " := by decide +kernel

/-! ### C45 Existential subqueries -/

theorem walk_snoc {s s' : Stage} {r : Req} : ∀ {rs : List Req}, Query.walk s (rs ++ [r]) = some s' → ∃ t, Query.walk s rs = some t ∧ t.allows r = true ∧ s' = r.stage
  | [], h => by
    simp only [List.nil_append, Query.walk] at h
    split at h
    · next ha => exact ⟨s, rfl, ha, by simpa [eq_comm] using h⟩
    · cases h
  | q :: rs, h => by
    simp only [List.cons_append, Query.walk] at h ⊢
    split at h
    · next ha =>
      obtain ⟨t, h1, h2, h3⟩ := walk_snoc h
      exact ⟨t, by rw [if_pos ha]; exact h1, h2, h3⟩
    · cases h

/-- What the builder holds after clauses. -/
theorem steps_hold (pre : List Req) (hr : ∀ r ∈ pre, r.Ok u) {t : Stage} (hw : Query.walk .plain pre = some t) :
    ∃ b P C, execAll u start (pre.flatMap Req.calls) = .ok b ∧ Holds t b P C ∧ (pre = [] → C = []) ∧ ∀ r, pre.getLast? = some r → r.stage ≠ .with_ → C ≠ [] := by
  rcases List.eq_nil_or_concat pre with rfl | ⟨init, r, rfl⟩
  · simp only [Query.walk, Option.some.injEq] at hw
    subst hw
    exact ⟨start, [], [], rfl, rfl, fun _ => rfl, by simp⟩
  · rw [List.concat_eq_append] at hw hr ⊢
    obtain ⟨s, h1, h2, rfl⟩ := walk_snoc hw
    obtain ⟨b, P, C, h3, h4, -⟩ := steps init (fun x hx => hr x (by simp [hx])) h1 (show Holds .plain start [] [] from rfl) Told.start
    obtain ⟨b', P', C', h5, h6, h7⟩ := step h4 r h2 (hr r (by simp))
    refine ⟨b', P', C', ?_, h6, by simp, fun q hq hn => ?_⟩
    · rw [List.flatMap_append, execAll_append, h3]
      simpa [Outcome.bind] using h5
    · simp only [List.getLast?_append, List.getLast?_singleton, Option.some_or, Option.some.injEq] at hq
      subst hq
      have : ∃ c, C' = C ++ [c] := by
        cases r <;> first | exact absurd rfl hn | exact ⟨_, h7.choose_spec.2.2⟩
      obtain ⟨c, rfl⟩ := this
      simp

/-- C45: `Match(…).Where(…)….AsCondition()` is an EXISTS with this MATCH, its patterns and the whole condition; after other clauses of
the same part of the query, `AsCondition` panics instead of dropping them.  Missing: clauses before a WITH are dropped
(`C45_as_condition_after_with`). -/
theorem C45_as_condition_partial (k : Key) (pre : List Req) (km kw : Key) (o : Bool) (ps : List Val) (w : Option WhereReq)
    (hr : ∀ r ∈ pre ++ [.match_ km kw o ps w], r.Ok u) (hw : Query.walk .plain (pre ++ [.match_ km kw o ps w]) = some .match_) :
    ∃ b, execAll u start ((pre ++ [Req.match_ km kw o ps w]).flatMap Req.calls) = .ok (.base b) ∧
      (pre = [] → ∃ v, b.asCondition k = .ok v ∧ v.err = none ∧ ∀ e, NoAlias e [k, km, kw, 0] v.visit →
        shownAs e v.visit = layout e ([.lit c!"EXISTS {", .lit (if o then c!"OPTIONAL MATCH " else c!"MATCH ")] ++ commas (ps.map (·.visit)) ++
          (match w with | none => [] | some w => whereParts (some w.whole)) ++ [.lit c!" ", .lit c!"}"])) ∧
      ∀ r, pre.getLast? = some r → r.stage ≠ .with_ → b.asCondition k = .panic := by
  obtain ⟨t, h1, h2, -⟩ := walk_snoc hw
  obtain ⟨b, P, C, h3, h4, h5, h6⟩ := steps_hold pre (fun r h => hr r (by simp [h])) h1
  obtain ⟨b', P', C', h7, h8, h9⟩ := step h4 (.match_ km kw o ps w) h2 (hr _ (by simp))
  obtain ⟨c, ⟨hc1, hc2, -⟩, rfl, rfl⟩ := h9
  have hrun : execAll u start ((pre ++ [Req.match_ km kw o ps w]).flatMap Req.calls) = .ok b' := by
    rw [List.flatMap_append, execAll_append, h3]
    simpa [Outcome.bind] using h7
  cases b' with
  | base b' =>
    obtain ⟨m, es, hm, rfl, hC⟩ := h8
    obtain ⟨rfl, hcm⟩ := List.append_inj' hC rfl
    simp only [List.cons.injEq, and_true] at hcm
    refine ⟨_, hrun, fun hp => ?_, fun r hl hn => ?_⟩
    · subst hcm
      have hC0 := h5 hp
      subst hC0
      refine ⟨existentialSubquery k m.build.val, by simp [Base.asCondition, hm], by simp [existentialSubquery, hc1, Val.mk'], fun e ha => ?_⟩
      simp only [existentialSubquery, hc1, Val.mk'] at ha ⊢
      rw [(hc2.wrap k c!"EXISTS {" c!"}") e ha]
      cases w <;> simp [Req.parts, layout, layout_append, whereParts]
    · have := h6 r hl hn
      simp [Base.asCondition, this]
  | with_ | upd | inCall | standalone => cases h8.1
  | _ => exact h8.elim

/-- The hypotheses hold for `Match(p).Where(a).And(b)`, alone and after UNWIND. -/
example : let m : Req := .match_ 1 2 false [p] (some ⟨ca, [(ck 0, .and, cb)]⟩)
    Query.walk .plain [m] = some .match_ ∧ Query.walk .plain [.unwind 3 4 x c!"z", m] = some .match_ ∧ existsOf [m] = c!"EXISTS {MATCH (p) WHERE (a AND b) }" ∧
    existsOf [.unwind 3 4 x c!"z", m] = c!"panic" := by decide +kernel

/-- C45 fails: `Match(p).With(x).Match(q).AsCondition()` drops everything up to the WITH. -/
theorem C45_as_condition_after_with : existsOf [.match_ 1 2 false [p] none, .with_ { ks := wk 0, args := .exprs [x] }, .match_ 3 4 false [q] none] = c!"EXISTS {MATCH (q) }" := by
  decide +kernel
end
end Verif
