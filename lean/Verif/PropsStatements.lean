import Verif.StatementReadLemmas

/-
C53, C54: patterns and statements read back.  Property theorems and concrete cases; the lemmas are in PatternReadLemmas, RelReadLemmas,
ClauseReadLemmas, ChangeReadLemmas and StatementReadLemmas.
-/

namespace Verif
open Spec

section
variable {u : Unicode} {I : Meaning} {tight : Bool}

/-! ### C53 Patterns -/

/-- C53: the text of every pattern reads as the pattern that was built: its nodes and relationships in this order, each with its name, its labels or types,
its direction, its length and its properties.  Missing: properties of nodes whose values are patterns or subqueries. -/
theorem C53_reads_partial {e e' : Env} {v : Val} {p : Element I.D} (h : ElementMeans u (Denotes u I tight) e v p e') : ReadsAsElement u tight I (shownAs e v.visit).1 p := by
  obtain ⟨s, ts, h1, h2, h3, _⟩ := Rd.element_reads Rd.denotes_good h
  rw [h1]
  have ht := h2 [] [] (.blank rfl)
  rw [List.append_nil] at ht
  exact ⟨ts ++ [], ht, h3 [] (by simp [Rd.NoArrow])⟩

/-- A text reads as at most one pattern. -/
theorem C53_unambiguous {s : Str} {p p' : Element I.D} (h : ReadsAsElement u tight I s p) (h' : ReadsAsElement u tight I s p') : p = p' := by
  obtain ⟨ts, h1, n, h2⟩ := h
  obtain ⟨ts', h1', n', h2'⟩ := h'
  obtain rfl := h1.unique h1'
  have := h2 (n + n') (by omega)
  rw [h2' (n + n') (by omega)] at this
  simpa using this.symm

/-- Patterns with the same text are the same, wherever they stand. -/
theorem C53_same_text {e1 e1' e2 e2' : Env} {v v' : Val} {p p' : Element I.D} (h : ElementMeans u (Denotes u I tight) e1 v p e1') (h' : ElementMeans u (Denotes u I tight) e2 v' p' e2')
    (ht : (shownAs e1 v.visit).1 = (shownAs e2 v'.visit).1) : p = p' :=
  C53_unambiguous (C53_reads_partial h) (ht ▸ C53_reads_partial h')

/-! ### C54 Statements -/

/-- C54: the text of every statement reads as the statement that was built: its clauses in the order of the calls, each with its patterns, conditions, results,
assignments and so on, its subqueries and the parts of its union.  Missing: the clauses that `Query.Ok` and `Means` do not allow for. -/
theorem C54_reads_partial {s : Stmt} {st : Stat I.D} {e' : Env} (h : Means u I tight Env.empty (.stmt s) (.stat st) e') :
    s.err = none ∧ ReadsAsStatement u tight I (text s.visit) st := by
  obtain ⟨h1, ts, ⟨t, h2, h3⟩, h4, _⟩ := Rd.means_reads h
  refine ⟨h1, ts ++ [], ?_, h4 [] (.inl rfl)⟩
  have ht := h3 [] [] Rd.Follow.nil (.blank rfl)
  rw [List.append_nil] at ht
  simp only [layout, Prod.mk.injEq, List.append_nil] at h2
  unfold text
  rw [h2.1]
  exact ht

/-- A text reads as at most one statement. -/
theorem C54_unambiguous {s : Str} {q q' : Stat I.D} (h : ReadsAsStatement u tight I s q) (h' : ReadsAsStatement u tight I s q') : q = q' := by
  obtain ⟨ts, h1, n, h2⟩ := h
  obtain ⟨ts', h1', n', h2'⟩ := h'
  obtain rfl := h1.unique h1'
  have := h2 (n + n') (by omega)
  rw [h2' (n + n') (by omega)] at this
  simpa using this.symm

/-- Statements with the same text are the same. -/
theorem C54_same_text {s s' : Stmt} {q q' : Stat I.D} {e e' : Env} (h : Means u I tight Env.empty (.stmt s) (.stat q) e) (h' : Means u I tight Env.empty (.stmt s') (.stat q') e')
    (ht : text s.visit = text s'.visit) : q = q' :=
  C54_unambiguous (C54_reads_partial h).2 (ht ▸ (C54_reads_partial h').2)

end

/-! ### A concrete case -/

namespace SampleStatements

def nd' : NodeDesc := ⟨.aNode 300 301 c!"Person", [.named 302 c!"n"]⟩
def md : NodeDesc := ⟨.aNode 303 304 c!"City", [.named 305 c!"m"]⟩
def n : NodeV := nd'.run
def m : NodeV := md.run
def step : Step := ⟨306, 307, 308, .ltr, m, [c!"IN"], []⟩
def pattern : Val := (step.first n).toVal .ascii
def age : Val := n.property .ascii 310 311 c!"age"
def size : Val := m.property .ascii 312 313 c!"size"
def old : Val := compare .gt 314 315 316 (some age) (some (intLiteral 317 1))
def msym : Val := symbolicName .ascii 305 c!"m"

def query : Query where
  reqs := [.match_ 320 321 false [pattern] (some ⟨.atom old, []⟩),
    .with_ { ks := ⟨322, 323, 324, 325, 326⟩, args := .exprs [aliasedCreate .ascii 327 (some age) c!"a", msym], mods := [.order false (.sort ⟨328, 329, age, .desc⟩)], limit := some ⟨330, 331, 3⟩ },
    .set ⟨332, 333, fun i => 340 + i⟩ [.pair size age]]
  ret := some { k := 350, ko := 351, args := .exprs [age, msym] }

/-- After the first clause. -/
def e1 : Env := mark (mark Env.empty 300 (some c!"n")) 303 (some c!"m")
/-- After `n.age AS a`. -/
def e2 : Env := { e1 with al := fun k => if k = 310 then some ⟨327, 310, c!"a"⟩ else e1.al k }

theorem e1_al (k : Key) : e1.al k = none := rfl

theorem settled {e : Env} {ts : List Tree} (h : ∀ v ∈ vissL ts, v.asAlias = none) : Settled e ts := fun v hv a ha => by rw [h v hv] at ha; cases ha

theorem name_ok {s : Str} (h : (∃ c ∈ s, Unicode.ascii.isSpace c = false) ∧ lower s ∉ reserved ∧ lower s ∉ keywords) : VarName .ascii s := h

/-- `UNWIND`-free sample: what `Build()` returns. -/
def stmt : Stmt := match query.run .ascii with | .ok (.ok s) => s | _ => .query [] none false

theorem run_stmt : query.run .ascii = .ok (.ok stmt) := rfl

example : text stmt.visit = c!"MATCH (n:`Person`)-[:`IN`]->(m:`City`) WHERE n.age > 1 WITH n.age AS a, m ORDER BY a DESC LIMIT 3 SET m.size = a RETURN a, m" := by
  decide +kernel

theorem query_ok : query.Ok .ascii where
  call := by simp [query]
  reqs := by
    intro r hr
    simp only [query, List.mem_cons, List.not_mem_nil, or_false] at hr
    rcases hr with rfl | rfl | rfl
    · refine ⟨by simp only [List.mem_singleton, forall_eq]; exact ⟨rfl, _, _, rfl⟩, fun x hx => ?_⟩
      cases hx
      exact ⟨⟨rfl, rfl, rfl⟩, rfl, by simp⟩
    · refine ⟨⟨rfl, ?_, by simp⟩, ⟨by simp [WithReq.result, items], ?_, ?_, ?_, ?_, ?_⟩, by simp [WithReq.where_], by simp [WithReq.mores]⟩
      · simp only [items, List.mem_cons, List.not_mem_nil, or_false, forall_eq_or_imp, forall_eq]
        exact ⟨⟨rfl, _, _, rfl⟩, ⟨rfl, _, _, rfl⟩⟩
      · simp only [WithReq.result, items, List.mem_cons, List.not_mem_nil, or_false, forall_eq_or_imp, forall_eq]
        exact ⟨⟨rfl, _, _, rfl⟩, ⟨rfl, _, _, rfl⟩⟩
      · intro d hd
        simp [WithReq.result, ResultReq.sorts, WithReq.orders, OrderCall.sorts] at hd
        subst hd
        rfl
      · intro s hs; cases hs
      · intro s hs; cases hs; decide
      · intro pre d post hp hd
        simp only [WithReq.result, WithReq.orders] at hp
        cases pre with
        | nil => simp at hp; exact hp.2
        | cons a pre => simp at hp
    · simp only [Req.Ok, List.mem_singleton, forall_eq]
      exact ⟨⟨rfl, rfl⟩, ⟨rfl, rfl⟩, rfl, rfl⟩
  ret := by
    intro r hr
    cases hr
    have : ∀ x ∈ [age, msym], x.err = none ∧ Spec.One x.visit := by
      simp only [List.mem_cons, List.not_mem_nil, or_false, forall_eq_or_imp, forall_eq]
      exact ⟨⟨rfl, _, _, rfl⟩, ⟨rfl, _, _, rfl⟩⟩
    exact ⟨⟨rfl, this, by simp⟩, ⟨by simp [RetReq.result, items], this, by simp [RetReq.result, ResultReq.sorts], by simp [RetReq.result], by simp [RetReq.result], by intro pre d post hp; simp [RetReq.result] at hp⟩⟩
  order := ⟨.updated, rfl, by simp [Query.mayEnd, query]⟩

example (I : Meaning) (tight : Bool) :
    Means .ascii I tight Env.empty (.stmt stmt) (.stat ⟨[
      .match_ false [⟨none, none, ⟨⟨some c!"n", [c!"Person"], none⟩, [(⟨.right, none, [c!"IN"], .one, none⟩, ⟨some c!"m", [c!"City"], none⟩)]⟩⟩]
        (some (I.bin .gt (I.prop (I.name c!"n") c!"age") (I.num 1))),
      .with_ ⟨false, [.expr (I.prop (I.name c!"n") c!"age") (some c!"a"), .expr (I.name c!"m") none], [(I.name c!"a", true)], none, some (I.num 3)⟩ none,
      .set [.assign (I.prop (I.name c!"m") c!"size") (I.name c!"a")],
      .return_ ⟨false, [.expr (I.name c!"a") none, .expr (I.name c!"m") none], [], none, none⟩], []⟩) e2 := by
  have hn : VarName .ascii c!"n" := name_ok (by decide +kernel)
  have hm : VarName .ascii c!"m" := name_ok (by decide +kernel)
  have ha : VarName .ascii c!"a" := name_ok (by decide +kernel)
  have vm : ∀ e : Env, e.al 305 = none → ExprMeans (Denotes .ascii I tight) e msym (I.name c!"m") .atom := fun e he =>
    ⟨settled (by decide +kernel), by simp [msym, symbolicName, Val.mk', leaf, nd, shownAs, denL, den, shown, described, defined, Vis.asAlias, he],
      msym, .var 305 hm, by simp [msym, symbolicName, Val.mk', leaf, nd, frozenL, frozen, shown, Kind.isSub, he]⟩
  have va : ExprMeans (Denotes .ascii I tight) e2 age (I.name c!"a") .atom :=
    ⟨settled (by decide +kernel), rfl, symbolicName .ascii 310 c!"a", .var 310 ha, rfl⟩
  have vage : ExprMeans (Denotes .ascii I tight) e1 age (I.prop (I.name c!"n") c!"age") .atom :=
    ⟨settled (by decide +kernel), rfl, age, .nodeProperty 310 311 rfl rfl hn ⟨'a', by simp, rfl⟩ (by decide), rfl⟩
  have vsize : ExprMeans (Denotes .ascii I tight) e2 size (I.prop (I.name c!"m") c!"size") .atom :=
    ⟨settled (by decide +kernel), rfl, size, .nodeProperty 312 313 rfl rfl hm ⟨'s', by simp, rfl⟩ (by decide), rfl⟩
  have vold : ExprMeans (Denotes .ascii I tight) e1 old (I.bin .gt (I.prop (I.name c!"n") c!"age") (I.num 1)) .condition := by
    refine ⟨settled (by decide +kernel), rfl, old, ?_, rfl⟩
    exact .compare (m := .gt) 314 315 316 (.nodeProperty 310 311 rfl rfl hn ⟨'a', by simp, rfl⟩ (by decide))
      (by simpa using Denotes.int (u := .ascii) (I := I) (tight := tight) 317 1 ⟨1, 0, by decide, by simp⟩) rfl rfl (by simp [textual])
  have mn : NodeMeans .ascii (Denotes .ascii I tight) Env.empty n ⟨some c!"n", [c!"Person"], none⟩ (mark Env.empty 300 (some c!"n")) :=
    .described (d := nd') (p := none) ⟨⟨by decide, fun _ h => by cases h⟩, by simp only [nd', List.mem_singleton, forall_eq]; exact hn.1⟩ (by intro x hx; cases hx; exact hn) trivial (fun _ _ => rfl) (.inr rfl)
  have mm : NodeMeans .ascii (Denotes .ascii I tight) (mark Env.empty 300 (some c!"n")) m ⟨some c!"m", [c!"City"], none⟩ e1 :=
    .described (d := md) (p := none) ⟨⟨by decide, fun _ h => by cases h⟩, by simp only [md, List.mem_singleton, forall_eq]; exact hm.1⟩ (by intro x hx; cases hx; exact hm) trivial (fun _ _ => rfl) (.inr (by decide))
  have mp : ElementMeans .ascii (Denotes .ascii I tight) Env.empty pattern ⟨none, none, ⟨⟨some c!"n", [c!"Person"], none⟩, [(⟨.right, none, [c!"IN"], .one, none⟩, ⟨some c!"m", [c!"City"], none⟩)]⟩⟩ e1 :=
    .path (.rel mn (.cons (s := step) (p := none) ⟨rfl, by decide, by simp [TypesOk, step], by simp [step]⟩ rfl (by intro x hx; cases hx) trivial mm .nil) (fun _ _ => rfl))
  have hc : CondMeans .ascii I tight e1 (some (.atom old)) (some (I.bin .gt (I.prop (I.name c!"n") c!"age") (I.num 1))) e1 := ⟨rfl, .condition, vold⟩
  have hal : ItemMeans .ascii I tight e1 (aliasedCreate .ascii 327 (some age) c!"a") (.expr (I.prop (I.name c!"n") c!"age") (some c!"a")) e2 :=
    .alias (v := age) (k := 327) (a := c!"a") vage rfl rfl ha rfl rfl
  have hw : BodyMeans .ascii I tight e1 (WithReq.result .ascii { ks := ⟨322, 323, 324, 325, 326⟩, args := .exprs [aliasedCreate .ascii 327 (some age) c!"a", msym], mods := [.order false (.sort ⟨328, 329, age, .desc⟩)], limit := some ⟨330, 331, 3⟩ })
      ⟨false, [.expr (I.prop (I.name c!"n") c!"age") (some c!"a"), .expr (I.name c!"m") none], [(I.name c!"a", true)], none, some (I.num 3)⟩ e2 :=
    ⟨rfl, ⟨_, .cons hal (.cons (.expr (vm _ rfl)) .nil), .cons ⟨⟨_, va⟩, rfl⟩ .nil⟩, rfl, by simp [WithReq.result]⟩
  have hr : BodyMeans .ascii I tight e2 (RetReq.result .ascii { k := 350, ko := 351, args := .exprs [age, msym] })
      ⟨false, [.expr (I.name c!"a") none, .expr (I.name c!"m") none], [], none, none⟩ e2 :=
    ⟨rfl, ⟨_, .cons (.expr va) (.cons (.expr (vm _ rfl)) .nil), .nil⟩, rfl, rfl⟩
  refine .query query_ok run_stmt ?_ .nil (.clause (.match_ (.cons mp .nil) hc) (.clause (.with_ (c := none) hw rfl)
    (.clause (.set (by simp) (.cons (.pair vsize va) .nil)) .nil))) (.cons ⟨_, hr, rfl⟩ .nil)
  have hk : ∀ k ∈ query.keys .ascii, k ∉ dkeysL stmt.visit := by decide +kernel
  exact fun k h => ⟨rfl, hk k h⟩

/-! A union as a subquery. -/

/-- `Unwind(x).As(name).Returning(name)` -/
def part (k : Key) (x : Str) : Query where
  reqs := [.unwind k (k + 1) (symbolicName .ascii (k + 2) c!"x") x]
  ret := some { k := k + 3, ko := k + 4, args := .exprs [symbolicName .ascii (k + 5) x] }

def partStmt (k : Key) (x : Str) : Stmt := match (part k x).run .ascii with | .ok (.ok s) => s | _ => .query [] none false

/-- `Call(Union(...)).Returning(b)` -/
def outer : Query where
  reqs := [.sub 420 (unionImpl 421 (fun i => 430 + i) true [partStmt 400 c!"a", partStmt 410 c!"b"])]
  ret := some { k := 440, ko := 441, args := .exprs [symbolicName .ascii 442 c!"b"] }

def outerStmt : Stmt := match outer.run .ascii with | .ok (.ok s) => s | _ => .query [] none false

example : text outerStmt.visit = c!"CALL {UNWIND x AS a RETURN a UNION ALL UNWIND x AS b RETURN b} RETURN b" := by decide +kernel

theorem symOk (k : Key) (x : Char) : ∀ v ∈ [symbolicName .ascii k [x]], v.err = none ∧ Spec.One v.visit := by
  simp only [List.mem_singleton, forall_eq]
  exact ⟨rfl, _, _, rfl⟩

theorem retOk {r : RetReq} {k : Key} {x : Char} (h : r.args = .exprs [symbolicName .ascii k [x]]) (ho : r.order = []) (hs : r.skip = none) (hl : r.limit = none) : r.Ok .ascii := by
  obtain ⟨_, _, _, _, _, _, _⟩ := r
  cases h; cases ho; cases hs; cases hl
  exact ⟨⟨rfl, symOk k x, by simp⟩, ⟨by simp [RetReq.result, items], symOk k x, by simp [RetReq.result, ResultReq.sorts], by simp [RetReq.result], by simp [RetReq.result], by intro pre d post hp; simp [RetReq.result] at hp⟩⟩

theorem part_ok (k : Key) (x : Char) : (part k [x]).Ok .ascii where
  call := by simp [part]
  reqs := by
    intro r hr
    simp only [part, List.mem_singleton] at hr
    subst hr
    exact ⟨rfl, fun d a h => by cases h⟩
  ret := by rintro r ⟨⟩; exact retOk rfl rfl rfl rfl
  order := ⟨.plain, rfl, by simp [Query.mayEnd, part]⟩

theorem outer_ok : outer.Ok .ascii where
  call := by simp [outer]
  reqs := by
    intro r hr
    simp only [outer, List.mem_singleton] at hr
    subst hr
    exact ⟨rfl, rfl⟩
  ret := by rintro r ⟨⟩; exact retOk rfl rfl rfl rfl
  order := ⟨.plain, rfl, by simp [Query.mayEnd, outer]⟩

example (I : Meaning) (tight : Bool) : Means .ascii I tight Env.empty (.stmt outerStmt) (.stat ⟨[
    .sub [.unwind (I.name c!"x") c!"a", .return_ ⟨false, [.expr (I.name c!"a") none], [], none, none⟩]
      [(true, [.unwind (I.name c!"x") c!"b", .return_ ⟨false, [.expr (I.name c!"b") none], [], none, none⟩])],
    .return_ ⟨false, [.expr (I.name c!"b") none], [], none, none⟩], []⟩) Env.empty := by
  have hx : VarName .ascii c!"x" := name_ok (by decide +kernel)
  have ha : VarName .ascii c!"a" := name_ok (by decide +kernel)
  have hb : VarName .ascii c!"b" := name_ok (by decide +kernel)
  have sym : ∀ k (x : Char), VarName .ascii [x] → ExprMeans (Denotes .ascii I tight) Env.empty (symbolicName .ascii k [x]) (I.name [x]) .atom := fun k x h =>
    ⟨settled (by simp [symbolicName, Val.mk', leaf, nd, vissL, viss, Vis.asAlias]), by simp [symbolicName, Val.mk', leaf, nd, shownAs, denL, den, shown, described, defined, Vis.asAlias, Env.empty],
      _, .var k h, by simp [symbolicName, Val.mk', leaf, nd, frozenL, frozen, shown, Kind.isSub, Env.empty]⟩
  have ret : ∀ (r : RetReq) k (x : Char), VarName .ascii [x] → r.args = .exprs [symbolicName .ascii k [x]] → r.order = [] → r.skip = none → r.limit = none → r.distinct = false →
      BodyMeans .ascii I tight Env.empty (r.result .ascii) ⟨false, [.expr (I.name [x]) none], [], none, none⟩ Env.empty := by
    intro r k x h ha ho hs hl hd
    obtain ⟨_, _, _, _, _, _, _⟩ := r
    cases ha; cases ho; cases hs; cases hl; cases hd
    exact ⟨rfl, ⟨_, .cons (.expr (sym k x h)) .nil, .nil⟩, rfl, rfl⟩
  have one : ∀ k (x : Char), VarName .ascii [x] → isIdentifier .ascii [x] = true → NoAlias Env.empty ((part k [x]).keys .ascii) (partStmt k [x]).visit →
      Means .ascii I tight Env.empty (.stmt (partStmt k [x])) (.stat ⟨[.unwind (I.name c!"x") [x], .return_ ⟨false, [.expr (I.name [x]) none], [], none, none⟩], []⟩) Env.empty :=
    fun k x h hi hk => .query (part_ok k x) rfl hk .nil (.clause (.unwind (sym _ _ hx) h hi) .nil) (.cons ⟨_, ret _ _ x h rfl rfl rfl rfl rfl, rfl⟩ .nil)
  have k1 : ∀ k ∈ (part 400 c!"a").keys .ascii, k ∉ dkeysL (partStmt 400 c!"a").visit := by decide +kernel
  have k2 : ∀ k ∈ (part 410 c!"b").keys .ascii, k ∉ dkeysL (partStmt 410 c!"b").visit := by decide +kernel
  have k3 : ∀ k ∈ [421] ++ (List.range 2).map (fun i => 430 + i), k ∉ dkeysL (unionImpl 421 (fun i => 430 + i) true [partStmt 400 c!"a", partStmt 410 c!"b"]).visit := by
    decide +kernel
  have k4 : ∀ k ∈ outer.keys .ascii, k ∉ dkeysL outerStmt.visit := by decide +kernel
  exact .query outer_ok rfl (fun k h => ⟨rfl, k4 k h⟩) .nil
    (.sub (.union (css := [_]) (by decide) (by simp only [List.mem_cons, List.not_mem_nil, or_false, forall_eq_or_imp, forall_eq]; exact ⟨trivial, trivial⟩) (fun k h => ⟨rfl, k3 k h⟩)
      (.more (one 400 _ ha rfl fun k h => ⟨rfl, k1 k h⟩) (.more (one 410 _ hb rfl fun k h => ⟨rfl, k2 k h⟩) .last))) .nil)
    (.cons ⟨_, ret _ _ _ hb rfl rfl rfl rfl rfl, rfl⟩ .nil)

/-! Texts that read as something else. -/

def xsym : Val := symbolicName .ascii 305 c!"x"

/-- `Unwind(x).As("a DELETE b").Returning(x)` -/
def unwound : Query where
  reqs := [.unwind 320 321 xsym c!"a DELETE b"]
  ret := some { k := 350, ko := 351, args := .exprs [xsym] }

/-- A node called `a:City`. -/
def oddly : NodeDesc := ⟨.aNode 300 301 c!"Person", [.named 302 c!"a:City"]⟩

/-- `Match(oddly, oddly).Returning(x)` -/
def twice : Query where
  reqs := [.match_ 320 321 false [oddly.run.toVal .ascii, oddly.run.toVal .ascii] none]
  ret := some { k := 350, ko := 351, args := .exprs [xsym] }

end SampleStatements
open SampleStatements

/-- The variable of UNWIND is not escaped: a name can bring in another clause. -/
theorem C54_unwind_injected (I : Meaning) (tight : Bool) : ∃ s, unwound.run .ascii = .ok (.ok s) ∧ s.err = none ∧ ReadsAsStatement .ascii tight I (text s.visit)
    ⟨[.unwind (I.name c!"x") c!"a", .delete false [I.name c!"b"], .return_ ⟨false, [.expr (I.name c!"x") none], [], none, none⟩], []⟩ := by
  refine ⟨_, rfl, rfl, ?_⟩
  have h : text (match unwound.run .ascii with | .ok (.ok s) => s | _ => .query [] none false).visit = c!"UNWIND x AS a DELETE b RETURN x" := by decide +kernel
  refine (congrArg (ReadsAsStatement .ascii tight I · _) h).mpr ?_
  refine ⟨_, lex_tokens (n := 40) rfl, 90, fun m hm => ?_⟩
  obtain ⟨k, rfl⟩ := Nat.exists_eq_add_of_le' hm
  cases tight <;> rfl

/-- The name of a node that was described before is not escaped: part of the name becomes a label. -/
theorem C53_known_node_misread (I : Meaning) (tight : Bool) : ∃ s, twice.run .ascii = .ok (.ok s) ∧ s.err = none ∧ ReadsAsStatement .ascii tight I (text s.visit)
    ⟨[.match_ false [⟨none, none, ⟨⟨some c!"a:City", [c!"Person"], none⟩, []⟩⟩, ⟨none, none, ⟨⟨some c!"a", [c!"City"], none⟩, []⟩⟩] none,
      .return_ ⟨false, [.expr (I.name c!"x") none], [], none, none⟩], []⟩ := by
  refine ⟨_, rfl, rfl, ?_⟩
  have h : text (match twice.run .ascii with | .ok (.ok s) => s | _ => .query [] none false).visit = c!"MATCH (`a:City`:`Person`), (a:City) RETURN x" := by decide +kernel
  refine (congrArg (ReadsAsStatement .ascii tight I · _) h).mpr ?_
  refine ⟨_, lex_tokens (n := 40) rfl, 90, fun m hm => ?_⟩
  obtain ⟨k, rfl⟩ := Nat.exists_eq_add_of_le' hm
  cases tight <;> rfl

end Verif
