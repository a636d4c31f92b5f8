import Verif.OccLemmas

/-
Property theorems C07 - C15: how the renderer turns a statement into text.

Throughout, `alOf` says which alias object lives at which key, `AlOk alOf` that these are proper objects, and `WFL alOf ts`
that keys behave like object identities in `ts` (RenderSpec.lean).
-/

namespace Verif
open Spec

/-! ### Sample statements used in the examples -/

namespace Sample

/-- A text without parts. -/
def word (k : Key) (s : Str) : Tree := .node ⟨k, .plain s [] false⟩ []

/-- The node `n` with label `Person`. -/
def person : Tree := .node ⟨1, .node (some c!"n")⟩ [word 2 c!"n", word 3 c!":`Person`"]

/-- `CREATE (n:Person), (n)`, as one would not write it, but with two occurrences of a node. -/
def twice : List Tree := [.node ⟨10, .plain c!"CREATE " c!" " false⟩ [.node ⟨11, .plain [] [] true⟩ [person, person]]]

/-- `n.age` as `a`. -/
def ageAs : Al := ⟨20, 21, c!"a"⟩
def age : Tree := word 21 c!"n.age"
def aged : Tree := .node ageAs.vis [age]

/-- `RETURN n.age AS a ORDER BY n.age`. -/
def ret : List Tree :=
  [.node ⟨22, .plain c!"RETURN" [] false⟩ [.node ⟨23, .plain c!" " [] true⟩ [aged, word 24 c!"n"],
    .node ⟨25, .plain c!" ORDER BY " [] true⟩ [age, aged]]]

/-- A list literal with two elements, with the comma that its `accept` prints directly. -/
def listLit : Tree := .node ⟨30, .plain c!"[" c!"]" false⟩ [word 31 c!"1", .raw c!", ", word 32 c!"2"]

end Sample

open Sample

theorem aliases_ok (as : List Al) (h : ∀ a ∈ as, a.key ≠ 0 ∧ a.dkey ≠ 0 ∧ a.dkey ≠ a.key) : AlOk (aliases as) := by
  intro k a ha
  have h1 := List.mem_of_find?_eq_some ha
  have h2 := List.find?_some ha
  simp only [decide_eq_true_eq] at h2
  subst h2
  exact ⟨rfl, h a h1⟩

/-! ### C07 Rendering is compositional -/

/-- A new renderer prints exactly the compositional text. -/
theorem C07_compositional (alOf : Key → Option Al) (hok : AlOk alOf) (ts : List Tree) (hw : WFL alOf ts) :
    renderOut RState.new ts = text ts :=
  refine_idle hok ⟨rfl, fun k a h => by simp [RState.new] at h, rfl, fun _ => rfl, rfl, rfl⟩ ts hw

/-- The same for a renderer with any history: the only thing that matters is which aliases are defined and which nodes
are described. -/
theorem C07_compositional_history (u : Unicode) (alOf : Key → Option Al) (hok : AlOk alOf) (r : RState)
    (hr : History u alOf r) (ts : List Tree) (hw : WFL alOf ts) :
    renderOut r ts = (denL false true ⟨r.al, r.vis⟩ ts).1 :=
  refine_idle hok (History.idle hok hr) ts hw

/-- Without named nodes and aliases the text does not depend on any memory. -/
theorem C07_plain (alOf : Key → Option Al) (hok : AlOk alOf) (ts : List Tree) (hw : WFL alOf ts) (hp : PlainL ts) :
    renderOut RState.new ts = flatL false true ts := by
  rw [C07_compositional alOf hok ts hw, text, denL_plain _ _ _ _ hp (fun _ _ => rfl)]

theorem wf_twice : WFL (aliases []) twice := by
  simp [WFL, WF, twice, person, word, aliases, Vis.asAlias, Special, keysL, keys]

theorem wf_ret : WFL (aliases [ageAs]) ret := by
  simp [WFL, WF, ret, aged, age, word, ageAs, Al.vis, aliases, Vis.asAlias, Special, keysL, keys, DelegateOk]

example : renderOut RState.new twice = c!"CREATE (n:`Person`), (n) " := by decide
example : renderOut RState.new twice = text twice := C07_compositional _ (aliases_ok [] (by simp)) _ wf_twice
example : renderOut RState.new ret = c!"RETURN n.age AS a, n ORDER BY a, a" := by decide
example : renderOut RState.new ret = text ret := C07_compositional _ (aliases_ok [ageAs] (by simp [ageAs])) _ wf_ret

-- the same statement again, in the renderer that has rendered it once: the alias is defined already
example : renderOut (render .ascii RState.new (some ⟨none, ret⟩)).2 ret = c!"RETURN a, n ORDER BY a, a" := by decide +kernel
example : renderOut (render .ascii RState.new (some ⟨none, ret⟩)).2 ret =
    (denL false true ⟨(render .ascii RState.new (some ⟨none, ret⟩)).2.al, (render .ascii RState.new (some ⟨none, ret⟩)).2.vis⟩ ret).1 :=
  C07_compositional_history .ascii (aliases [ageAs]) (aliases_ok [ageAs] (by simp [ageAs])) _
    (.render _ _ .new fun s h => by cases h; exact wf_ret) _ wf_ret

/-! ### C08 Lists are comma separated -/

/-- Wherever a construct is shown in a statement: a list construct shows its parts with `, ` between them, any other
construct shows them without anything between them; and that text is a segment of the rendered text. -/
theorem C08_lists (alOf : Key → Option Al) (hok : AlOk alOf) (ts : List Tree) (hw : WFL alOf ts)
    (p : Piece) (hp : p ∈ piecesL Env.empty ts) (hs : p.short = false) (op cl : Str) (sub : Bool)
    (hk : p.v.kind = .plain op cl sub) (hn : AllNodes p.kids) :
    ∃ e : Env, p.text = op ++ (if sub then join c!", " (texts e p.kids) else (texts e p.kids).flatten) ++ cl ∧
      (texts e p.kids).length = p.kids.length ∧ Segment p.text (renderOut RState.new ts) := by
  obtain ⟨e, he, hsh⟩ := piece_denL _ ts p hp
  obtain ⟨op', cl', hf⟩ := hsh.1 hs
  have hshown : shown e p.v = .full op cl := by
    unfold shown at hf ⊢
    cases ha : e.al p.v.key with
    | some a => rw [ha] at hf; cases hf
    | none => rw [hk]
  refine ⟨described e p.v, ?_, ?_, ?_⟩
  · rw [he, den_full hshown, hk]
    cases sub with
    | true => simp only [Kind.isSub, if_true]; rw [denL_join _ _ hn]
    | false => simp only [Kind.isSub]; rw [denL_flatten]; rfl
  · generalize described e p.v = e'
    clear he hsh hf hshown hn
    induction p.kids generalizing e' with
    | nil => rfl
    | cons t ts ih => simp [texts, ih]
  · rw [C07_compositional alOf hok ts hw]
    exact piece_infixL false true Env.empty ts p hp

-- a list inside a list: each has its own separators
example : renderOut RState.new
    [.node ⟨1, .plain c!"f(" c!")" true⟩ [word 2 c!"a", .node ⟨3, .plain c!"g(" c!")" true⟩ [word 4 c!"x", word 5 c!"y"], word 6 c!"b"]]
    = c!"f(a, g(x, y), b)" := by decide

/-! ### C09, C12 Repeated nodes -/

/-- Full claim: the first occurrence of a named node shows its content, and all later ones only `(name)`.  Missing here:
statements with list literals of two or more elements (`NoRawL`), for which the claim is false, see
`C12_list_property_leaks`; and `name` is the name as stored, which is printed unescaped, see `C12_name_not_escaped`. -/
theorem C09_named_node_partial (alOf : Key → Option Al) (hok : AlOk alOf) (ts : List Tree) (hw : WFL alOf ts)
    (hr : NoRawL ts) (k : Key) (name : Str)
    (hno : ∀ j b, alOf j = some b → b.dkey ≠ k)                       -- nodes cannot be given an alias
    (hn : ∀ v ∈ vissL ts, v.key = k → v.kind = .node (some name))     -- `k` is the key of a node called `name`
    (xs : List Piece) (p : Piece) (ys : List Piece)
    (hsplit : piecesL Env.empty ts = xs ++ p :: ys) (hfirst : ∀ q ∈ xs, q.v.key ≠ k) (hp : p.v.key = k) :
    (∃ e : Env, p.text = c!"(" ++ (texts e p.kids).flatten ++ c!")") ∧
    (∀ q ∈ ys, q.v.key = k → q.text = c!"(" ++ name ++ c!")") ∧
    (∀ q ∈ p :: ys, Segment q.text (renderOut RState.new ts)) := by
  have hi : AlInv alOf Env.empty.al := fun k a h => by simp [Env.empty] at h
  refine ⟨?_, ?_, ?_⟩
  · obtain ⟨e, he⟩ := piecesL_named_first hno Env.empty ts hw hi hn rfl xs p ys hsplit hfirst hp
    exact ⟨e, by rw [he, denL_flatten]⟩
  · exact fun q hq hqk => piecesL_named_after hno Env.empty ts hw hr hi hn xs p ys hsplit hp q hq hqk
  · intro q hq
    rw [C07_compositional alOf hok ts hw]
    exact piece_infixL false true Env.empty ts q (by rw [hsplit]; exact List.mem_append_right _ hq)

example : (piecesL Env.empty twice).map (fun p => (p.v.key, p.text)) =
    [(2, c!"n"), (3, c!":`Person`"), (1, c!"(n:`Person`)"), (1, c!"(n)"),
     (11, c!"(n:`Person`), (n)"), (10, c!"CREATE (n:`Person`), (n) ")] := by decide
example : NoRawL twice ∧ (∀ v ∈ vissL twice, v.key = 1 → v.kind = .node (some c!"n")) := by
  refine ⟨by simp [NoRawL, NoRaw, twice, person, word], ?_⟩
  decide

/-- The claim of C12 is false: a node with a list-valued property is shown as `(n, )` the second time. -/
theorem C12_list_property_leaks :
    let n : Tree := .node ⟨1, .node (some c!"n")⟩ [word 2 c!"n", word 3 c!" ", .node ⟨4, .plain c!"{" c!"}" true⟩
      [.node ⟨5, .plain c!"k: " [] false⟩ [listLit]]]
    let ts : List Tree := [.node ⟨10, .plain c!"CREATE " c!" " false⟩ [.node ⟨11, .plain [] [] true⟩ [n, n]]]
    WFL (aliases []) ts ∧ renderOut RState.new ts = c!"CREATE (n {k: [1, 2]}), (n, ) " := by
  refine ⟨?_, by decide +kernel⟩
  simp [WFL, WF, listLit, word, aliases, Vis.asAlias, Special, keysL, keys]

/-- The claim of C12 is false: the name of a repeated node is not escaped (node.go:148 prints the stored name). -/
theorem C12_name_not_escaped :
    let n : Tree := .node ⟨1, .node (some c!"my node")⟩ [word 2 (escapeIfNecessary Unicode.ascii c!"my node")]
    let ts : List Tree := [.node ⟨10, .plain c!"CREATE " c!" " false⟩ [.node ⟨11, .plain [] [] true⟩ [n, n]]]
    WFL (aliases []) ts ∧ renderOut RState.new ts = c!"CREATE (`my node`), (my node) " := by
  refine ⟨?_, by decide⟩
  simp [WFL, WF, word, aliases, Vis.asAlias, Special, keysL, keys]

/-- What remains true of C12: without list literals, and if the name needs no escape, all later occurrences of a node
print its escaped name in parentheses. -/
theorem C12_repeated_node_partial (u : Unicode) (alOf : Key → Option Al) (ts : List Tree)
    (hw : WFL alOf ts) (hr : NoRawL ts) (k : Key) (name : Str) (hid : isIdentifier u name = true)
    (hno : ∀ j b, alOf j = some b → b.dkey ≠ k)
    (hn : ∀ v ∈ vissL ts, v.key = k → v.kind = .node (some name))
    (xs : List Piece) (p : Piece) (ys : List Piece)
    (hsplit : piecesL Env.empty ts = xs ++ p :: ys) (hp : p.v.key = k) :
    ∀ q ∈ ys, q.v.key = k → q.text = c!"(" ++ escapeIfNecessary u name ++ c!")" := by
  have hi : AlInv alOf Env.empty.al := fun k a h => by simp [Env.empty] at h
  have he : escapeIfNecessary u name = name := by simp [escapeIfNecessary, hid]
  rw [he]
  exact fun q hq hqk => piecesL_named_after hno Env.empty ts hw hr hi hn xs p ys hsplit hp q hq hqk

example : ∀ q ∈ (piecesL Env.empty twice).drop 3, q.v.key = 1 → q.text = c!"(n)" :=
  C12_repeated_node_partial .ascii (aliases []) twice wf_twice (by simp [NoRawL, NoRaw, twice, person, word]) 1 c!"n" (by decide)
    (fun j b h => by simp [aliases] at h) (by decide) ((piecesL Env.empty twice).take 2) ((piecesL Env.empty twice)[2]'(by decide)) _ rfl (by decide)

/-! ### C10 An alias is defined once and then referred to -/

/-- Full claim: the first occurrence of an alias shows the expression, `AS` and the alias; later occurrences of the alias
or of its expression show the alias.  Missing: statements with list literals of two or more elements, for which it is false
(`C10_list_literal_leaks`), and expressions with two aliases (`C11_two_aliases`). -/
theorem C10_alias_partial (alOf : Key → Option Al) (hok : AlOk alOf) (ts : List Tree) (hw : WFL alOf ts)
    (hr : NoRawL ts) (hone : OneAlias alOf) (a : Al) (ha : alOf a.key = some a)
    (xs : List Piece) (p : Piece) (ys : List Piece)
    (hsplit : piecesL Env.empty ts = xs ++ p :: ys) (hp : p.v.key = a.key) :
    (∀ q ∈ ys, q.v.key = a.key ∨ q.v.key = a.dkey → q.text = a.text) ∧
    (∀ q ∈ p :: ys, Segment q.text (renderOut RState.new ts)) := by
  have hi : AlInv alOf Env.empty.al := fun k a h => by simp [Env.empty] at h
  refine ⟨?_, ?_⟩
  · exact fun q hq hqk => piecesL_alias_after (fun k b hb hbd => ((hone k b a.key a hb ha).1 hbd))
      (fun k b hb => (hone k b a.key a hb ha).2) ha Env.empty ts hw hr hi xs p ys hsplit hp q hq hqk
  · intro q hq
    rw [C07_compositional alOf hok ts hw]
    exact piece_infixL false true Env.empty ts q (by rw [hsplit]; exact List.mem_append_right _ hq)

/-- The first occurrence of an alias is shown in full (see `C10_alias_definition` for what that means).  Missing: aliases
inside something that is abbreviated, see `C11_hidden_alias`. -/
theorem C10_alias_first_partial (alOf : Key → Option Al) (ts : List Tree) (hw : WFL alOf ts)
    (hone : OneAlias alOf) (hout : AliasesOutsideL alOf ts) (a : Al) (ha : alOf a.key = some a)
    (xs : List Piece) (p : Piece) (ys : List Piece)
    (hsplit : piecesL Env.empty ts = xs ++ p :: ys) (hfirst : ∀ q ∈ xs, q.v.key ≠ a.key) (hp : p.v.key = a.key) :
    p.short = false :=
  piecesL_alias_first Env.empty ts hw hout ha (fun k b hb hbd => ((hone k b a.key a hb ha).1 hbd))
    (fun k b hb => (hone k b a.key a hb ha).2) (fun k a h => by simp [Env.empty] at h) rfl xs p ys hsplit hfirst hp

/-- Any occurrence of an alias that is shown in full is the expression followed by `AS` and the alias. -/
theorem C10_alias_definition (alOf : Key → Option Al) (ts : List Tree) (hw : WFL alOf ts) (a : Al)
    (ha : alOf a.key = some a) (p : Piece) (hp : p ∈ piecesL Env.empty ts) (hk : p.v.key = a.key) (hs : p.short = false) :
    ∃ e : Env, p.text = (texts e p.kids).flatten ++ c!" AS " ++ a.text := by
  obtain ⟨e, he, hsh⟩ := piece_denL _ ts p hp
  obtain ⟨op', cl', hf⟩ := hsh.1 hs
  have hva : p.v.asAlias = some a := by rw [← WFL_viss ts hw _ (piece_vissL _ ts p hp), hk, ha]
  have hshown : shown e p.v = .full [] (c!" AS " ++ a.text) := by
    obtain ⟨_, hvv⟩ := asAlias_key hva
    rw [hvv] at hf ⊢
    unfold shown at hf ⊢
    simp only [Al.vis] at hf ⊢
    split at hf
    · cases hf
    · split at hf
      · cases hf
      · rename_i h
        rw [if_neg h]
  refine ⟨described e p.v, ?_⟩
  have hkind : p.v.kind.isSub = false := by
    rw [(asAlias_key hva).2]; rfl
  rw [he, den_full hshown, hkind, denL_flatten]
  simp

example : (piecesL Env.empty ret).map (fun p => (p.v.key, p.text)) =
    [(21, c!"n.age"), (20, c!"n.age AS a"), (24, c!"n"), (23, c!" n.age AS a, n"), (21, c!"a"), (20, c!"a"),
     (25, c!" ORDER BY a, a"), (22, c!"RETURN n.age AS a, n ORDER BY a, a")] := by decide
theorem one_ret : OneAlias (aliases [ageAs]) := by
  intro k a l b ha hb
  have h1 := List.mem_of_find?_eq_some ha
  have h2 := List.mem_of_find?_eq_some hb
  have h3 := List.find?_some hb
  simp only [List.mem_singleton] at h1 h2
  subst h1 h2
  simp only [decide_eq_true_eq] at h3
  subst h3
  exact ⟨fun _ => rfl, by decide⟩
example : NoRawL ret ∧ OneAlias (aliases [ageAs]) ∧ aliases [ageAs] ageAs.key = some ageAs :=
  ⟨by simp [NoRawL, NoRaw, ret, aged, age, word, Al.vis], one_ret, by decide⟩

/-- C10 is false with list literals: the second occurrence of `[1, 2] AS x` is shown as `x, `. -/
theorem C10_list_literal_leaks :
    let a : Al := ⟨20, 30, c!"x"⟩
    let t : Tree := .node a.vis [listLit]
    let ts : List Tree := [.node ⟨10, .plain c!"RETURN " [] false⟩ [.node ⟨11, .plain [] [] true⟩ [t, t]]]
    WFL (aliases [a]) ts ∧ renderOut RState.new ts = c!"RETURN [1, 2] AS x, x, " := by
  refine ⟨?_, by decide⟩
  simp [WFL, WF, listLit, word, aliases, Al.vis, Vis.asAlias, Special, keysL, keys, DelegateOk]

/-! ### C11 Every alias used in a query is defined in it -/

/-- Full claim: whenever something is shown as an alias, the text contains the definition of that alias.  Missing:
expressions with two aliases (false, `C11_two_aliases`) and aliases inside something that is abbreviated (false,
`C11_hidden_alias`). -/
theorem C11_alias_defined_partial (alOf : Key → Option Al) (hok : AlOk alOf) (ts : List Tree) (hw : WFL alOf ts)
    (hone : OneAlias alOf) (hout : AliasesOutsideL alOf ts) (a : Al) (ha : alOf a.key = some a)
    (hnode : ∀ v ∈ vissL ts, v.key = a.dkey → ∀ n, v.kind ≠ .node (some n))   -- nodes cannot be given an alias
    (p : Piece) (hp : p ∈ piecesL Env.empty ts)
    (href : p.v.key = a.key ∨ (p.v.key = a.dkey ∧ p.short = true)) :
    ∃ expression, Segment (expression ++ c!" AS " ++ a.text) (renderOut RState.new ts) := by
  have hi : AlInv alOf Env.empty.al := fun k a h => by simp [Env.empty] at h
  have hda : alOf a.dkey = none := by
    cases hx : alOf a.dkey with
    | none => rfl
    | some b => exact absurd rfl (hone a.key a a.dkey b ha hx).2
  obtain ⟨q, hq, x, hx⟩ := piecesL_refer Env.empty ts hw hout ha (fun k b hb hbd => ((hone k b a.key a hb ha).1 hbd))
    (fun k b hb => (hone k b a.key a hb ha).2) hi hnode hda rfl ⟨p, hp, href⟩
  refine ⟨x, ?_⟩
  rw [← hx, C07_compositional alOf hok ts hw]
  exact piece_infixL false true Env.empty ts q hq

example : AliasesOutsideL (aliases [ageAs]) ret := by
  simp [AliasesOutsideL, AliasesOutside, ret, aged, age, word, dkeysL, dkeys, Vis.asAlias, ageAs, Al.vis, Special, aliases]

/-- C11 is false if one expression has two aliases: `RETURN n.age AS a, b`. -/
theorem C11_two_aliases :
    let a : Al := ⟨20, 21, c!"a"⟩
    let b : Al := ⟨19, 21, c!"b"⟩
    let ts : List Tree := [.node ⟨10, .plain c!"RETURN " [] false⟩
      [.node ⟨11, .plain [] [] true⟩ [.node a.vis [age], .node b.vis [age]]]]
    WFL (aliases [a, b]) ts ∧ renderOut RState.new ts = c!"RETURN n.age AS a, b" := by
  refine ⟨?_, by decide⟩
  simp [WFL, WF, age, word, aliases, Al.vis, Vis.asAlias, Special, keysL, keys, DelegateOk]

/-! ### C13 A renderer can be reused -/

/-- Full claim: a used renderer gives the same result as a new one.  It is false (`C13_reuse_node`, `C13_reuse_alias`);
this theorem covers statements without named nodes and aliases whose parts were never given an alias. -/
theorem C13_reuse_partial (u : Unicode) (alOf : Key → Option Al) (hok : AlOk alOf) (r : RState) (hr : History u alOf r)
    (st : Statement) (hw : WFL alOf st.visit) (hp : PlainL st.visit)
    (hno : ∀ k a, alOf k = some a → a.dkey ∉ keysL st.visit) :
    (render u r (some st)).1 = (render u RState.new (some st)).1 := by
  have h1 : renderOut r st.visit = flatL false true st.visit := by
    have hi := History.idle hok hr
    rw [refine_idle hok hi _ hw, denL_plain _ _ _ _ hp]
    intro k hk
    cases hx : r.al k with
    | none => exact hx
    | some a =>
      have := hi.al k a hx
      exact absurd hk (by rw [← this.1]; exact hno _ _ this.2)
  have h2 := C07_plain alOf hok st.visit hw hp
  unfold renderOut at h1 h2
  unfold render
  simp only [h1, h2]
  cases st.err with
  | some e => rfl
  | none => rfl

/-- C13 is false: the same statement rendered twice loses the label the second time. -/
theorem C13_reuse_node :
    let st : Statement := ⟨none, [.node ⟨10, .plain c!"MATCH " [] false⟩ [person]]⟩
    let r := render Unicode.ascii RState.new (some st)
    r.1 = .ok c!"MATCH (n:`Person`)" ∧ (render Unicode.ascii r.2 (some st)).1 = .ok c!"MATCH (n)" := by decide

theorem C13_reuse_alias :
    let st : Statement := ⟨none, ret⟩
    let r := render Unicode.ascii RState.new (some st)
    r.1 = .ok c!"RETURN n.age AS a, n ORDER BY a, a" ∧
    (render Unicode.ascii r.2 (some st)).1 = .ok c!"RETURN a, n ORDER BY a, a" := by decide

-- the theorem applies to a renderer that has rendered statements with names and aliases
example : (render Unicode.ascii (render Unicode.ascii RState.new (some ⟨none, ret⟩)).2 (some ⟨none, [word 5 c!"RETURN 1"]⟩)).1
    = (render Unicode.ascii RState.new (some ⟨none, [word 5 c!"RETURN 1"]⟩)).1 := by
  refine C13_reuse_partial _ (aliases [ageAs]) (aliases_ok _ (by simp [ageAs])) _ (.render _ _ .new ?_) _ ?_ ?_ ?_
  · rintro s ⟨⟩; exact wf_ret
  · simp [WFL, WF, word, aliases, ageAs, Vis.asAlias, keysL]
  · simp [PlainL, Plain, word]
  · intro k a ha
    have := List.mem_of_find?_eq_some ha
    simp only [List.mem_singleton] at this
    subst this
    decide

/-! ### C14 Rendered queries are trimmed and nothing else is lost -/

theorem C14_trimmed (u : Unicode) (r : RState) (st : Statement) (q : Str) (h : (render u r (some st)).1 = .ok q) :
    (∀ c, q.head? = some c → u.isSpace c = false) ∧ (∀ c, q.getLast? = some c → u.isSpace c = false) ∧
    ∃ w w', renderOut r st.visit = w ++ q ++ w' ∧ (∀ c ∈ w, u.isSpace c = true) ∧ (∀ c ∈ w', u.isSpace c = true) := by
  unfold render at h
  cases he : st.err with
  | some e => simp [he] at h
  | none =>
    simp only [he, Except.ok.injEq] at h
    obtain ⟨h1, h2, h3⟩ := trimSpace_spec u (renderOut r st.visit)
    unfold renderOut at h1 h2 h3 ⊢
    rw [h] at h1 h2 h3
    exact ⟨h2, h3, h1⟩

example : (render Unicode.ascii RState.new (some ⟨none, twice⟩)).1 = .ok c!"CREATE (n:`Person`), (n)" := by decide

/-! ### C15 Errors are returned instead of text -/

theorem C15_nil (u : Unicode) (r : RState) : (render u r none).1 = .error .nilStatement := rfl

theorem C15_error (u : Unicode) (r : RState) (st : Statement) :
    (∀ e, st.err = some e → (render u r (some st)).1 = .error e) ∧
    (st.err = none → ∃ q, (render u r (some st)).1 = .ok q) := by
  unfold render
  constructor
  · intro e he; simp only [he]
  · intro he; simp only [he]; exact ⟨_, rfl⟩

/-- A failed call leaves the renderer as it was. -/
theorem C15_error_no_effect (u : Unicode) (r : RState) (st : Option Statement) (e : Err)
    (h : (render u r st).1 = .error e) : (render u r st).2 = r := by
  unfold render at h ⊢
  cases st with
  | none => rfl
  | some st =>
    cases he : st.err with
    | some e => simp only [he]
    | none => simp [he] at h

example : (render Unicode.ascii RState.new (some ⟨some .emptyName, ret⟩)).1 = .error .emptyName := by decide

end Verif
