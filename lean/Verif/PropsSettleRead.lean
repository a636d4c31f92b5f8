import Verif.PropsSettle
import Verif.PropsStatements

/-
C64 and C54 together: what the text of a query says whose clauses changed places.
-/

namespace Verif
open Spec

section
variable {u : Unicode} {I : Meaning} {tight : Bool}

/-- C64: the text of every query that Go's type checker admits reads as the clauses of the query in the order in which they are put down, and nothing else.
`ds` and `es` are what these clauses and RETURN mean there. -/
theorem C64_reads (q : Query) (i : Iface) (ht : q.type = some i) (hb : i.builds = true) (hc : ∀ c, q.call = some c → c.Ok) (hq : ∀ r ∈ q.reqs, r.Ok u)
    (hr : ∀ r, q.ret = some r → r.Ok u) (hn : ∀ s, q.run u = .ok (.ok s) → NoAlias Env.empty (q.settled.keys u) s.visit) {e e' : Env} {ds es : List (Spec.Clause I.D)}
    (hd : Means u I tight Env.empty (.reqs q.settled.reqs) (.clauses ds) e)
    (he : Thread (fun e (r : RetReq) c e' => ∃ b, BodyMeans u I tight e (r.result u) b e' ∧ c = .return_ b) e q.settled.ret.toList es e') :
    ∃ s, q.run u = .ok (.ok s) ∧ s.err = none ∧ ReadsAsStatement u tight I (text s.visit) ⟨ds ++ es, []⟩ := by
  obtain ⟨s, h1, h2, -, h3⟩ := C64_statement q i ht hb hc hq hr
  refine ⟨s, h1, h2, ?_⟩
  have hok : ∀ r ∈ q.settled.reqs, r.Ok u := by
    intro r hr
    have := (C64_permutation q).mem_iff.1 hr
    simp only [List.mem_append, Option.mem_toList, Option.map_eq_some_iff] at this
    rcases this with ⟨c, h, rfl⟩ | h
    · exact hc c h
    · exact hq r h
  have hret : ∀ r, q.settled.ret = some r → r.Ok u := fun r h => hr r (Option.filter_eq_some_iff.1 h).1
  obtain ⟨ts, ⟨t, t1, t2⟩, t3⟩ := Rd.query_reads (q := q.settled) (e := Env.empty) (cs := []) hok hret .nil (Rd.means_reads hd) he
  refine ⟨ts ++ [], ?_, Rd.RClauses.queries (t3 [] (.inl rfl)).2 (Rd.Border.noUnion (.inl rfl))⟩
  have hx := t2 [] [] Rd.Follow.nil (.blank rfl)
  rw [List.append_nil] at hx
  have hs : text s.visit = t := by
    unfold text
    exact congrArg Prod.fst ((h3 Env.empty (hn s h1)).trans t1)
  rw [hs]
  exact hx

end

/-! ### A concrete case -/

namespace SampleStatements

/-- `Merge(n).OnCreate().Set(n.age, m).RemoveByNode(n, "L").Returning(m)` -/
def moved : Query where
  reqs := [.merge ⟨332, 333, fun i => 340 + i⟩ (n.toVal .ascii) [⟨360, 361, 362, fun i => 370 + i, .onCreate, [.pair age msym]⟩],
    .removeLabels ⟨380, 381, fun i => 390 + i⟩ [] 382 383 (fun i => 400 + i) n [c!"L"]]
  ret := some { k := 350, ko := 351, args := .exprs [msym] }

def movedStmt : Stmt := match moved.run .ascii with | .ok (.ok s) => s | _ => .query [] none false

end SampleStatements
open SampleStatements

/-- C64: a label is removed after the node is merged, but the text says that it is removed before. -/
theorem C64_reads_moved (I : Meaning) (tight : Bool) : ∃ s, moved.run .ascii = .ok (.ok s) ∧ s.err = none ∧ ReadsAsStatement .ascii tight I (text s.visit)
    ⟨[.remove [.labels c!"n" [c!"L"]],
      .merge ⟨none, none, ⟨⟨some c!"n", [c!"Person"], none⟩, []⟩⟩ [(true, [.assign (I.prop (I.name c!"n") c!"age") (I.name c!"m")])],
      .return_ ⟨false, [.expr (I.name c!"m") none], [], none, none⟩], []⟩ := by
  have hn : VarName .ascii c!"n" := name_ok (by decide +kernel)
  have hm : VarName .ascii c!"m" := name_ok (by decide +kernel)
  have vm : ∀ e : Env, e.al 305 = none → ExprMeans (Denotes .ascii I tight) e msym (I.name c!"m") .atom := fun e he =>
    ⟨settled (by decide +kernel), by simp [msym, symbolicName, Val.mk', leaf, nd, shownAs, denL, den, shown, described, defined, Vis.asAlias, he],
      msym, .var 305 hm, by simp [msym, symbolicName, Val.mk', leaf, nd, frozenL, frozen, shown, Kind.isSub, he]⟩
  have vage : ExprMeans (Denotes .ascii I tight) (mark Env.empty 300 (some c!"n")) age (I.prop (I.name c!"n") c!"age") .atom :=
    ⟨settled (by decide +kernel), rfl, age, .nodeProperty 310 311 rfl rfl hn ⟨'a', by simp, rfl⟩ (by decide), rfl⟩
  have mn : NodeMeans .ascii (Denotes .ascii I tight) Env.empty n ⟨some c!"n", [c!"Person"], none⟩ (mark Env.empty 300 (some c!"n")) :=
    .described (d := nd') (p := none) ⟨⟨by decide, fun _ h => by cases h⟩, by simp only [nd', List.mem_singleton, forall_eq]; exact hn.1⟩ (by intro x hx; cases hx; exact hn) trivial (fun _ _ => rfl) (.inr rfl)
  have hr : BodyMeans .ascii I tight (mark Env.empty 300 (some c!"n")) (RetReq.result .ascii { k := 350, ko := 351, args := .exprs [msym] })
      ⟨false, [.expr (I.name c!"m") none], [], none, none⟩ (mark Env.empty 300 (some c!"n")) :=
    ⟨rfl, ⟨_, .cons (.expr (vm _ rfl)) .nil, .nil⟩, rfl, rfl⟩
  refine C64_reads moved .ret (by decide +kernel) rfl (by simp [moved]) ?_ ?_ ?_
    (.clause (.removeLabels rfl hn) (.clause (.merge (.path (.node mn)) (by simp) (.cons ⟨rfl, .cons (.pair vage (vm _ rfl)) .nil⟩ .nil)) .nil)) (.cons ⟨_, hr, rfl⟩ .nil)
  · simp only [moved, List.mem_cons, List.not_mem_nil, or_false, forall_eq_or_imp, forall_eq]
    refine ⟨⟨⟨rfl, _, _, rfl⟩, ?_⟩, ⟨rfl, rfl, by decide⟩, by decide, by decide⟩
    simp only [List.mem_singleton, forall_eq]
    exact ⟨⟨rfl, rfl⟩, ⟨rfl, rfl⟩, rfl, rfl⟩
  · rintro r ⟨⟩
    have : ∀ x ∈ [msym], x.err = none ∧ Spec.One x.visit := by
      simp only [List.mem_singleton, forall_eq]
      exact ⟨rfl, _, _, rfl⟩
    exact ⟨⟨rfl, this, by simp⟩, ⟨by simp [RetReq.result, items], this, by simp [RetReq.result, ResultReq.sorts], by simp [RetReq.result], by simp [RetReq.result], by intro pre d post hp; simp [RetReq.result] at hp⟩⟩
  · intro s hs
    have h : s = movedStmt := by
      have : moved.run .ascii = .ok (.ok movedStmt) := rfl
      rw [this] at hs
      cases hs
      rfl
    subst h
    have hk : ∀ k ∈ moved.settled.keys .ascii, k ∉ dkeysL movedStmt.visit := by decide +kernel
    exact fun k h => ⟨rfl, hk k h⟩

end Verif
