import Verif.PropsStatements
import Verif.PropsReuse
import Verif.PropsUnion

/-
C69: parts of a statement that have a scope of their own (the queries of a union, subqueries, what comes after a WITH) and what
the renderer remembers of the parts before.
-/

namespace Verif.Spec

/-- A layout in which every part is shown as if it were alone. -/
def alone : List Part → Str
  | [] => []
  | .lit s :: ps => s ++ alone ps
  | .hole ts :: ps => text ts ++ alone ps

/-- `us` has no named node and no expression with an alias in common with `ts`. -/
def Apart (ts us : List Tree) : Prop := ∀ k ∈ marks ts, k ∉ keysL us

/-- The parts of a layout, in order. -/
def holeList : List Part → List (List Tree)
  | [] => []
  | .lit _ :: ps => holeList ps
  | .hole ts :: ps => ts :: holeList ps

end Verif.Spec

namespace Verif
open Spec

/-- Nothing is remembered of these keys. -/
def Unmarked (e : Env) (ts : List Tree) : Prop := ∀ k ∈ keysL ts, e.al k = none ∧ e.vis k = false

theorem unmarked_text {e : Env} {ts : List Tree} (h : Unmarked e ts) : (denL false true e ts).1 = text ts :=
  (denL_agree (K := fun k => k ∈ keysL ts) false true e Env.empty ts (fun _ h => h) (fun k hk => h k hk)).1

theorem unmarked_after {e : Env} {ts us : List Tree} (h : Unmarked e us) (ha : Apart ts us) :
    Unmarked (denL false true e ts).2 us := by
  intro k hk
  have := envL_marks e ts k (fun hm => ha k hm hk)
  unfold envL at this
  exact ⟨this.1.trans (h k hk).1, this.2.trans (h k hk).2⟩

theorem layout_alone (ps : List Part) (e : Env) (hp : (holeList ps).Pairwise Apart) (he : ∀ ts ∈ holeList ps, Unmarked e ts) :
    (layout e ps).1 = alone ps := by
  induction ps generalizing e with
  | nil => rfl
  | cons p ps ih =>
    cases p with
    | lit s => simp only [layout, alone]; rw [ih e hp he]
    | hole ts =>
      simp only [holeList, List.pairwise_cons, List.mem_cons, forall_eq_or_imp] at hp he
      simp only [layout, alone]
      rw [unmarked_text he.1, ih _ hp.2 fun us hu => unmarked_after (he.2 us hu) (hp.1 us hu)]

theorem layout_holes (tss : List (List Tree)) (e : Env) : layout e (tss.map Part.hole) = denL false true e tss.flatten := by
  induction tss generalizing e with
  | nil => simp [layout, denL]
  | cons ts tss ih =>
    simp only [List.map_cons, layout, List.flatten_cons, ih]
    rw [denL_append]

theorem holeList_holes (tss : List (List Tree)) : holeList (tss.map Part.hole) = tss := by
  induction tss with
  | nil => rfl
  | cons ts tss ih => simp [holeList, ih]

theorem alone_holes (tss : List (List Tree)) : alone (tss.map Part.hole) = (tss.map text).flatten := by
  induction tss with
  | nil => rfl
  | cons ts tss ih => simp [alone, ih]

theorem unmarked_empty (ts : List Tree) : Unmarked Env.empty ts := fun _ _ => ⟨rfl, rfl⟩

/-! ### C69 -/

/-- Full claim: pieces of a statement with scopes of their own are shown as they are shown alone.  False, see below.  It holds if no
piece has a named node or an expression with an alias in common with an earlier one. -/
theorem C69_pieces_partial (tss : List (List Tree)) (h : tss.Pairwise Apart) : text tss.flatten = (tss.map text).flatten := by
  have := layout_alone (tss.map Part.hole) Env.empty (by rw [holeList_holes]; exact h) (fun ts _ => unmarked_empty ts)
  rw [layout_holes, alone_holes] at this
  exact this

/-- Full claim: every query of a union is shown as it is shown alone.  False, see below.  It holds for all nestings of unions whose
queries have nothing in common. -/
theorem C69_union_partial (r : Ask) (h : r.accepted = true) (hfree : ∀ k, r.Owns k → ∀ q ∈ r.queries, k ∉ dkeysL q)
    (hp : (holeList r.parts).Pairwise Apart) : text r.make.visit = alone r.parts := by
  have h1 := C68_text r h Env.empty fun k hk => ⟨rfl, hfree k hk⟩
  unfold shownAs at h1
  have h2 := layout_alone r.parts Env.empty hp fun ts _ => unmarked_empty ts
  rw [← h2, ← h1]
  rfl

/-- Full claim: a subquery is shown as it is shown alone.  False, see below.  It holds if it has nothing in common with what was shown
before. -/
theorem C69_subquery_partial (k : Key) (s : Stmt) (he : s.err = none) (hr : s.returns = true) (e : Env)
    (ha : e.al k = none) (hm : Unmarked e s.visit) :
    (shownAs e (subqueryCall k s).val.visit).1 = c!"CALL {" ++ text s.visit ++ c!"} " := by
  have hv : (subqueryCall k s).val.visit = [nd k c!"CALL {" c!"} " false s.visit] := by simp [subqueryCall, he, hr]
  rw [hv]
  unfold shownAs
  simp only [nd, denL, den, Spec.shown, ha, described, Kind.isSub, sepText]
  simp [unmarked_text hm]

namespace SampleScope
open SampleStatements

def built (q : Query) : Stmt := match q.run .ascii with | .ok (.ok s) => s | _ => .query [] none false
def nsym : Val := symbolicName .ascii 302 c!"n"
/-- `Match(n).Returning(n)`, at two places of a program; `n` is one node. -/
def q1 : Query := { reqs := [.match_ 320 321 false [n.toVal .ascii] none], ret := some { k := 350, ko := 351, args := .exprs [nsym] } }
def q2 : Query := { reqs := [.match_ 420 421 false [n.toVal .ascii] none], ret := some { k := 450, ko := 451, args := .exprs [nsym] } }
/-- `1 AS one`. -/
def one : Val := aliasedCreate .ascii 600 (some (intLiteral 317 1)) c!"one"
def w (k : Key) (xs : List Val) : Req := .with_ { ks := ⟨k, k + 1, k + 2, k + 3, k + 4⟩, args := .exprs xs }

end SampleScope

section
open SampleStatements SampleScope

/-- C69 fails: the second query of a union loses the label, so that it returns all nodes. -/
theorem C69_union_label_lost :
    text (built q1).visit = c!"MATCH (n:`Person`) RETURN n" ∧ text (built q2).visit = c!"MATCH (n:`Person`) RETURN n" ∧
    (unionImpl 500 (fun i => 501 + i) false [built q1, built q2]).err = none ∧
    text (unionImpl 500 (fun i => 501 + i) false [built q1, built q2]).visit =
      c!"MATCH (n:`Person`) RETURN n UNION MATCH (n) RETURN n" := by decide +kernel

/-- C69 fails: the second query of a union returns a variable that does not exist in it. -/
theorem C69_union_alias_undefined :
    let a : Query := { reqs := [.match_ 320 321 false [n.toVal .ascii] none], ret := some { k := 350, ko := 351, args := .exprs [one] } }
    let b : Query := { reqs := [.match_ 420 421 false [m.toVal .ascii] none], ret := some { k := 450, ko := 451, args := .exprs [one] } }
    text (built b).visit = c!"MATCH (m:`City`) RETURN 1 AS one" ∧
    text (unionImpl 500 (fun i => 501 + i) false [built a, built b]).visit =
      c!"MATCH (n:`Person`) RETURN 1 AS one UNION MATCH (m:`City`) RETURN one" := by decide +kernel

/-- C69 fails: a subquery does not see `n` of the query around it, and loses the label. -/
theorem C69_subquery_label_lost :
    text (built { reqs := [.match_ 320 321 false [n.toVal .ascii] none, w 330 [one], .sub 700 (built q2)], ret := some { k := 350, ko := 351, args := .exprs [nsym] } }).visit =
      c!"MATCH (n:`Person`) WITH 1 AS one CALL {MATCH (n) RETURN n} RETURN n" := by decide +kernel

/-- C69 fails: after a WITH that does not pass `n` on, a new `n` is matched without the label. -/
theorem C69_with_label_lost :
    text (built { reqs := [.match_ 320 321 false [n.toVal .ascii] none, w 330 [one], .match_ 420 421 false [n.toVal .ascii] none], ret := some { k := 350, ko := 351, args := .exprs [nsym] } }).visit =
      c!"MATCH (n:`Person`) WITH 1 AS one MATCH (n) RETURN n" := by decide +kernel

/-- C69 fails: an alias is used after a WITH that does not pass it on. -/
theorem C69_with_alias_undefined :
    text (built { reqs := [.match_ 320 321 false [n.toVal .ascii] none, w 330 [one, nsym], w 340 [nsym]], ret := some { k := 350, ko := 351, args := .exprs [intLiteral 317 1] } }).visit =
      c!"MATCH (n:`Person`) WITH 1 AS one, n WITH n RETURN one" := by decide +kernel

/-- C69 fails: an alias is used in the clause that defines it, where it is not visible yet: `age` is one expression,
`Returning(age.As("a"), age.Add(1))`. -/
theorem C69_same_clause :
    text (built { reqs := [.match_ 320 321 false [n.toVal .ascii] none], ret := some { k := 350, ko := 351, args := .exprs [aliasedCreate .ascii 600 (some age) c!"a", arith .add 601 (some age) (some (intLiteral 317 1))] } }).visit =
      c!"MATCH (n:`Person`) RETURN n.age AS a, (a + 1)" := by decide +kernel

/-- C69 fails even if nothing is used twice by the program: all calls of `LiteralTrue` return one object (bool_literal.go:11,
cypher.go:330-332; `t` is its key).  `Returning(LiteralTrue().As("b"), age.IsEqualTo(LiteralTrue()))`. -/
theorem C69_shared_true :
    let t : Key := 35
    text (built { reqs := [.match_ 320 321 false [n.toVal .ascii] none], ret := some { k := 350, ko := 351, args := .exprs [aliasedCreate .ascii 600 (some (boolLiteral t true)) c!"b", compare .isEqualTo 601 602 603 (some age) (some (boolLiteral t true))] } }).visit =
      c!"MATCH (n:`Person`) RETURN true AS b, n.age = b" := by decide +kernel

end

namespace SampleScope
open SampleStatements

/-- The same query with a node and names of its own. -/
def q3 : Query := { reqs := [.match_ 420 421 false [m.toVal .ascii] none], ret := some { k := 450, ko := 451, args := .exprs [msym] } }

/-- A union of two queries with different nodes, with an alias. -/
def two : Ask := .union true 500 (fun i => 501 + i)
  [.query (built q1).visit none true, .query (built q3).visit none true]

example : text two.make.visit = alone two.parts := by
  refine C69_union_partial two (by decide +kernel) ?_ ?_
  · intro k _ q hq
    have : ∀ q ∈ two.queries, dkeysL q = [] := by decide +kernel
    rw [this q hq]
    simp
  · simp only [two, Ask.parts, partsKept, Ask.lost, Ask.isUnion, Bool.false_and, Bool.false_eq_true, if_false, partsMore, unionWord,
      List.cons_append, List.nil_append, holeList, List.pairwise_cons, List.mem_cons, List.not_mem_nil, or_false, forall_eq,
      false_imp_iff, implies_true, List.Pairwise.nil, and_true, and_self]
    unfold Apart
    decide +kernel

example : alone two.parts = c!"MATCH (n:`Person`) RETURN n UNION ALL MATCH (m:`City`) RETURN m" := by decide +kernel

example : (shownAs (denL false true Env.empty (built q1).visit).2 (subqueryCall 700 (built q3)).val.visit).1 =
    c!"CALL {" ++ text (built q3).visit ++ c!"} " :=
  C69_subquery_partial 700 _ rfl rfl _ rfl
    (unmarked_after (unmarked_empty _) (by unfold Apart; decide +kernel))

end SampleScope

end Verif
