import Verif.PatternLemmas
import Verif.PropsExprs2

/-
Property theorems C26 - C29 and the part of C41 about nodes, relationships and paths.
-/

namespace Verif
open Spec

namespace SamplePat

/-- `ANode("Person").NamedByString("p")` -/
def np : NodeDesc := ⟨.aNode 301 302 c!"Person", [.named 303 c!"p"]⟩
/-- `AnyNodeNamed("m")` -/
def nm : NodeDesc := ⟨.anyNode, [.named 304 c!"m"]⟩
/-- `ANode("A")` -/
def na : NodeDesc := ⟨.aNode 305 306 c!"A", []⟩
/-- `ANode("B")` -/
def nb : NodeDesc := ⟨.aNode 307 308 c!"B", []⟩
/-- `MapOf("x", a)` as rendered -/
def mp : Val := .mk' 310 [nd 310 c!"{" c!"}" true [nd 311 c!"x: " [] false SampleExpr.wa.visit]]

end SamplePat
open SamplePat

section
variable {e : Env} {u : Unicode}

/-! ### C29 Labels and types -/

/-- C29, nodes: a node made by any constructor from labels that are not empty, and then named or given properties any number of
times, is shown with the name given last, all its labels in order, and the properties given last; what stands in the parentheses
can be read in this way only.  `hv`: the node has no name, or was not described before. -/
theorem C29_node (d : NodeDesc) (hd : d.Ok u) (ha : NoAlias e (nodeKeys d.run) (d.run.visit u))
    (hv : d.head.name = none ∨ e.vis d.run.key = false) :
    d.run.err = none ∧ ∃ ps, NodeParts u d.head d.props ps ∧ shownAs e (d.run.visit u) = layout (mark e d.run.key d.head.name) ps := by
  have h := nodeInv_desc hd
  refine ⟨h.err, _, ⟨nameTextOf u d.head.name ++ d.head.labels.flatMap fun t => ':' :: escapeName t, ?_, rfl⟩, ?_⟩
  · intro rest hr
    exact readNodeHead_text u d.head.name d.head.labels h.nameOk rest hr
  · have hv' : d.run.name = none ∨ e.vis d.run.key = false := by
      rcases hv with h0 | h0
      · have := h.name
        rw [show (d.calls.filterMap NodeCall.name).getLast? = none from h0] at this
        left
        simpa using this
      · exact Or.inr h0
    rw [node_shown ha hv']
    have hl : (d.run.labels.map (·.2)).filter (· ≠ []) = d.ctor.labels := by
      rw [h.labels, List.filter_eq_self]
      intro l hl
      have := hd.1.1
      simp only [ne_eq, decide_not, Bool.not_eq_eq_eq_not, Bool.not_true, decide_eq_false_iff_not]
      rintro rfl
      exact this hl
    rw [hl, h.name, h.props]
    rfl

example : text ((⟨.withProperties 1 2 (fun i => 10 + i) c!"A" SamplePat.mp [c!"B `x`", c!"C"], [.named 3 c!"old", .named 4 c!"my node"]⟩ : NodeDesc).run.visit .ascii)
    = c!"(`my node`:`A`:`B ``x```:`C` {x: a})" := by decide +kernel

example : (⟨.withProperties 1 2 (fun i => 10 + i) c!"A" SamplePat.mp [c!"B", c!"C"], [.named 3 c!"n"]⟩ : NodeDesc).Ok .ascii := by
  refine ⟨⟨by decide, ?_⟩, ?_⟩
  · intro m hm
    simp only [NodeCtor.props, Option.some.injEq] at hm
    subst hm
    rfl
  · intro c hc
    simp only [List.mem_singleton] at hc
    subst hc
    exact ⟨'n', by simp, by decide⟩

/-- C29: the second of two different nodes without key loses its labels, because the renderer takes it for the first one:
`NewNodeWithLabels("A").NamedByString("a")`, then `NewNodeWithLabels("B").NamedByString("b")`. -/
theorem C29_labels_lost :
    text (((⟨.withLabels c!"A" [], [.named 3 c!"a"]⟩ : NodeDesc).run.visit .ascii) ++ ((⟨.withLabels c!"B" [], [.named 4 c!"b"]⟩ : NodeDesc).run.visit .ascii))
      = c!"(a:`A`)(b)" := by decide +kernel

/-- C29: so does the second of two nodes made from one unnamed node, since naming a node keeps its key: `n := ANode("A")`, then
`n.NamedByString("a")` and `n.NamedByString("b")`. -/
theorem C29_renamed_labels_lost :
    text (((⟨.aNode 1 2 c!"A", [.named 3 c!"a"]⟩ : NodeDesc).run.visit .ascii) ++ ((⟨.aNode 1 2 c!"A", [.named 4 c!"b"]⟩ : NodeDesc).run.visit .ascii))
      = c!"(a:`A`)(b)" := by decide +kernel

/-- C29: empty labels are refused, except by `NewNodeWithLabels`, which shows the other labels. -/
theorem C29_empty_label (k kp : Key) (ks : Nat → Key) (kl : Key) (primary : Str) (m : Val) (more : List Str) :
    ((NodeV.create2 k kl primary).err.isSome ↔ primary = []) ∧
    ((NodeV.create3 k ks primary more).err.isSome ↔ [] ∈ primary :: more) ∧
    ((NodeV.create5 k kp ks primary m more).err.isSome ↔ [] ∈ primary :: more) ∧
    (NodeV.newWithLabels primary more).err = none := by
  refine ⟨?_, ?_, ?_, rfl⟩
  · simp only [NodeV.create2]
    split <;> simp_all [NodeV.bad]
  · simp only [NodeV.create3, List.mem_cons]
    split
    · simp_all [NodeV.bad]
    · split
      · simp_all [NodeV.bad]
      · rename_i h1 h2
        simp [h2, Ne.symm h1]
  · simp only [NodeV.create5, NodeV.create1, List.mem_cons]
    split
    · simp_all [NodeV.bad]
    · split
      · simp_all [NodeV.bad]
      · rename_i h1 h2
        simp only [Option.isSome_none, Bool.false_eq_true, false_iff, not_or]
        exact ⟨fun h => h1 h.symm, h2⟩

/-- C29: errors of the properties, and of the node itself, are lost: `WithProperties` gives a node without error and without
properties; `NamedByString("")` a node without name. -/
theorem C29_node_errors_lost (k kp kn : Key) (m : Val) (hm : m.err.isSome) (er : Err) :
    ((NodeV.bad er).withProperties k kp m).err = none ∧ ((NodeV.bad er).withProperties k kp m).props = none ∧
    ((NodeV.create2 1 2 c!"A").namedByString kn []).err = none ∧ ((NodeV.create2 1 2 c!"A").namedByString kn []).name = none := by
  refine ⟨rfl, ?_, rfl, rfl⟩
  simp [NodeV.withProperties, NodeV.propsOf, hm]

example : ((NodeV.bad (.other 1)).withProperties 1 2 SampleExpr.wx).err = none := (C29_node_errors_lost 1 2 3 SampleExpr.wx rfl (.other 1)).1

/-- C29, relationship types: what is rendered for the types of a relationship reads back as its types that are not empty, in order.
Full claim: for all types; false if all of them are empty, see `C29_empty_types`. -/
theorem C29_types_partial (ts : List Str) (h : TypesOk ts) (rest : Str) (hr : rest.head? = some ']' ∨ rest.head? = some ' ' ∨ rest.head? = some '*') :
    readTypes (typesText ts ++ rest) = some (ts.filter (· ≠ []), rest) := by
  apply readTypes_text ts h <;> (rcases hr with h | h | h <;> rw [h] <;> decide)

example : typesText [c!"KNOWS", [], c!"LIKES|`"] = c!":`KNOWS`|`LIKES|```" := by decide
example : TypesOk [c!"KNOWS", [], c!"LIKES|`"] := Or.inr ⟨c!"KNOWS", by decide, by decide⟩

/-- C29: a relationship whose types are all empty is not Cypher: `a.RelationshipTo(b, "")`. -/
theorem C29_empty_types : text ((RelV.create 1 2 3 na.run .ltr nb.run [[]]).visit .ascii) = c!"(:`A`)-[:]->(:`B`)" := by decide +kernel

/-! ### C26 Relationships -/

/-- C26: a relationship from `n` along a step, changed by any number of calls, is shown as the first node, the relationship with
its direction, name, types, length and properties, and the second node. -/
theorem C26_relationship (n : NodeV) (s : Step) (hn : n.err = none) (hs : s.Ok u) :
    (s.first n).err = none ∧ (s.first n).notNil = true ∧
      (NoAlias e (relKeys (s.first n)) ((s.first n).visit u) →
        ∃ ps, Between u s.dir s.head (propsOf s.calls) ps ∧
          shownAs e ((s.first n).visit u) = layout e ([.hole (n.visit u)] ++ ps ++ [.hole (s.node.visit u)])) := by
  have h := first_inv hn hs
  refine ⟨h.err, h.notNil, fun ha => ?_⟩
  obtain ⟨ps, hb, hl⟩ := details_between hs.2.1 hs.2.2.1 h
  refine ⟨ps, hb, ?_⟩
  rw [rel_shown ha hl, h.left, h.right]

example : text ((Step.first ⟨1, 2, 3, .rtl, nb.run, [c!"T", c!"U"], [.min 4 5 2, .named 6 7 c!"r", .max 8 9 3, .withProperties 10 11 SamplePat.mp]⟩ np.run).visit .ascii)
    = c!"(p:`Person`)<-[r:`T`|`U`*2..3 {x: a}]-(:`B`)" := by decide +kernel

example : (⟨1, 2, 3, .rtl, nb.run, [c!"T", c!"U"], [.min 4 5 2, .named 6 7 c!"r", .max 8 9 3]⟩ : Step).Ok .ascii := by
  refine ⟨by decide, by decide, Or.inr ⟨c!"T", by decide, by decide⟩, ?_⟩
  intro c hc
  simp only [List.mem_cons, List.mem_nil_iff, or_false] at hc
  rcases hc with rfl | rfl | rfl
  · trivial
  · exact ⟨'r', by simp, by decide⟩
  · trivial

/-- C26: the direction can be told from the text between the nodes: it begins with '<' exactly for a relationship from the second
node to the first, and ends with '>' exactly for one from the first to the second. -/
theorem C26_direction (dir : Direction) (hd : dir ≠ .none) (h : RelHead) (props : Option Val) (ps : List Part) (hb : Between u dir h props ps) (e : Env) :
    ((layout e ps).1.head? = some '<' ↔ dir = .rtl) ∧ ((layout e ps).1.getLast? = some '>' ↔ dir = .ltr) := by
  obtain ⟨d, _, rfl⟩ := hb
  have key : ∀ qs : List Part, ((layout e ([.lit (beforeRel dir)] ++ qs ++ [.lit (afterRel dir)])).1.head? = some '<' ↔ dir = .rtl) ∧
      ((layout e ([.lit (beforeRel dir)] ++ qs ++ [.lit (afterRel dir)])).1.getLast? = some '>' ↔ dir = .ltr) := by
    intro qs
    rw [layout_append, layout_append]
    simp only [layout, List.append_nil]
    cases dir with
    | none => exact absurd rfl hd
    | ltr =>
      refine ⟨by simp [beforeRel], ?_⟩
      rw [show afterRel .ltr = c!"-" ++ c!">" from rfl, ← List.append_assoc, List.getLast?_append]
      simp
    | rtl =>
      refine ⟨by simp [beforeRel], ?_⟩
      rw [show afterRel .rtl = c!"-" from rfl, List.getLast?_append]
      simp
    | uni =>
      refine ⟨by simp [beforeRel], ?_⟩
      rw [show afterRel .uni = c!"-" from rfl, List.getLast?_append]
      simp
  exact key _

/-- C26: errors of the nodes are errors of the relationship. -/
theorem C26_error (k kd kt : Key) (a b : NodeV) (dir : Direction) (types : List Str) :
    (RelV.create k kd kt a dir b types).err.isSome ↔ a.err.isSome ∨ b.err.isSome := by
  simp only [RelV.create, RelV.create3]
  rcases a.err with _ | x <;> rcases b.err with _ | y <;> simp [RelV.bad, firstErr]

example : (RelV.create 1 2 3 na.run .ltr (NodeV.create2 1 2 []) []).err = some (.site "node.go" 48) := by decide +kernel

/-- C26: the error is lost if the relationship is named, and empty nodes are shown: `ANode("").RelationshipTo(ANode("B"), "T").NamedByString("r")`. -/
theorem C26_error_lost : let r := (RelV.create 1 2 3 (NodeV.create2 1 2 []) .ltr nb.run [c!"T"]).named 4 5 c!"r"
    r.err = none ∧ r.notNil = true ∧ text (r.visit .ascii) = c!"()[r]()" := by decide +kernel

/-! ### C28 Lengths -/

/-- C28: the text of a length reads back as the length that was stored. -/
theorem C28_length_text (l : LengthV) (h : l.unbounded = true ∨ l.min ≠ none ∨ l.max ≠ none) (rest : Str)
    (hr : rest.head? = some ']' ∨ rest.head? = some ' ') :
    readHops (lengthText l ++ rest) = some (if l.unbounded then .any else .range l.min l.max, rest) := by
  have := readHops_text (some l) (by intro l' hl; injection hl with hl; subst hl; exact h) rest hr
  simpa [hopsTextOf, hopsV] using this

example : lengthText { key := 1, min := some (-12), max := some 2147483648 } = c!"*-12..2147483648" := by decide +kernel

/-- C28: `Length`, `Min`, `Max`, `Unbounded` on a relationship without length; the text is followed by the end of the brackets or
by the properties. -/
theorem C28_length (n : NodeV) (s : Step) (hn : n.err = none) (hs : s.Ok u) (k kl kl' : Key) (i j : Int) (rest : Str)
    (hr : rest.head? = some ']' ∨ rest.head? = some ' ') (h0 : ∀ c ∈ s.calls, c.isLength = false) :
    (∃ l, ((s.first n).length k kl kl' i j).details.length = some l ∧ readHops (lengthText l ++ rest) = some (.range (some i) (some j), rest)) ∧
    (∃ l, ((s.first n).min k kl i).details.length = some l ∧ readHops (lengthText l ++ rest) = some (.range (some i) none, rest)) ∧
    (∃ l, ((s.first n).max k kl j).details.length = some l ∧ readHops (lengthText l ++ rest) = some (.range none (some j), rest)) ∧
    (∃ l, ((s.first n).unbounded k kl).details.length = some l ∧ readHops (lengthText l ++ rest) = some (.any, rest)) ∧
    (s.first n).details.length = none := by
  have h := first_inv hn hs
  have hl : (s.first n).details.length = none := by
    have h1 := h.hops
    have h2 : s.calls.filter RelCall.isLength = [] := by
      rw [List.filter_eq_nil_iff]
      intro c hc
      simp [h0 c hc]
    rw [hopsOf, h2] at h1
    rcases hd : (s.first n).details.length with _ | l
    · rfl
    · rw [hd] at h1
      simp only [hopsV] at h1
      split at h1 <;> simp at h1
  have hle := h.left
  have hri := h.right
  refine ⟨⟨{ key := kl', min := some i, max := some j }, ?_, ?_⟩, ⟨{ key := kl, min := some i }, ?_, ?_⟩, ⟨{ key := kl, max := some j }, ?_, ?_⟩,
    ⟨{ key := kl, unbounded := true }, ?_, ?_⟩, hl⟩
  · simp only [RelV.length, DetailsV.min, DetailsV.max, DetailsV.create, hle, hri]
    rw [create3_ok hn rfl hs.1]
    rfl
  · rw [C28_length_text _ (by simp) rest hr]; rfl
  · simp only [RelV.min, DetailsV.min, DetailsV.create, hle, hri]
    rw [create3_ok hn rfl hs.1, hl]
    rfl
  · rw [C28_length_text _ (by simp) rest hr]; rfl
  · simp only [RelV.max, DetailsV.max, DetailsV.create, hle, hri]
    rw [create3_ok hn rfl hs.1, hl]
    rfl
  · rw [C28_length_text _ (by simp) rest hr]; rfl
  · simp only [RelV.unbounded, DetailsV.unbounded, DetailsV.create, hle, hri]
    rw [create3_ok hn rfl hs.1]
  · rw [C28_length_text _ (by simp) rest hr]; rfl

example : text (((RelV.create 1 2 3 na.run .ltr nb.run []).length 4 5 6 1 3).visit .ascii) = c!"(:`A`)-[*1..3]->(:`B`)" := by decide +kernel

/-- C28: the length after any calls of `Length`, `Min`, `Max` and `Unbounded` is the one described by these calls: the bounds given
last since the last `Unbounded`, or no bounds if `Unbounded` came last. -/
theorem C28_last (n : NodeV) (s : Step) (hn : n.err = none) (hs : s.Ok u) (rest : Str) (hr : rest.head? = some ']' ∨ rest.head? = some ' ') :
    readHops ((match (s.first n).details.length with | some l => lengthText l | none => []) ++ rest) = some (hopsOf s.calls, rest) := by
  have h := first_inv hn hs
  rw [← h.hops]
  have := readHops_text _ h.hopsOk rest hr
  rcases hl : (s.first n).details.length with _ | l <;> rw [hl] at this <;> exact this

example : hopsOf [.min 1 2 1, .unbounded 3 4, .max 5 6 7, .named 8 9 c!"r", .max 10 11 8] = .range none (some 8) := by decide +kernel
example : text ((Step.first ⟨1, 2, 3, .uni, nb.run, [], [.min 1 2 1, .unbounded 3 4, .max 5 6 7, .named 8 9 c!"r", .max 10 11 8]⟩ na.run).visit .ascii)
    = c!"(:`A`)-[r*..8]-(:`B`)" := by decide +kernel

/-! ### C27 Chains -/

/-- C27: a chain of two or more relationships is shown as the nodes with the relationships between them, each once, in the order of
the calls, and each as it was described by its own calls.
Full claim: for all nodes.  Missing: a last node that counts as nil (see `C27_last_node_lost`) and nodes with errors (see
`C27_error_lost`). -/
theorem C27_chain_partial (n : NodeV) (s t : Step) (more : List Step) (hn : n.err = none) (hs : ∀ x ∈ s :: t :: more, x.Ok u)
    (hl : ((s :: t :: more).getLast (by simp)).node.notNil = true) :
    ∃ c, chainRun n s t more = .ok c ∧ c.err = none ∧ c.notNil = true ∧
      (NoAlias e (chainKeys c) (c.visit u) →
        ∃ ps, ChainParts u (s :: t :: more) ps ∧ shownAs e (c.visit u) = layout e (.hole (n.visit u) :: ps)) := by
  obtain ⟨c, hc, he, hnn, hr⟩ := chainRun_ok (u := u) hn more (hs s (by simp)) (hs t (by simp)) (fun x hx => hs x (by simp [hx]))
  refine ⟨c, hc, he, hnn, fun ha => ?_⟩
  refine chain_shown hr (by simp) hs ?_ ha
  have : lastNode n (s :: t :: more) = ((s :: t :: more).getLast (by simp)).node := by
    have h := List.dropLast_concat_getLast (l := s :: t :: more) (by simp)
    have h2 := lastNode_snoc n (s :: t :: more).dropLast ((s :: t :: more).getLast (by simp))
    rw [h] at h2
    exact h2
  rw [this]
  exact hl

example : (match chainRun np.run ⟨1, 2, 3, .ltr, nb.run, [c!"T"], [.named 4 5 c!"r"]⟩ ⟨6, 7, 8, .rtl, nm.run, [], [.unbounded 9 10]⟩
      [⟨11, 12, 13, .uni, na.run, [], []⟩] with
    | .ok c => text (c.visit .ascii) | .panic => []) = c!"(p:`Person`)-[r:`T`]->(:`B`)<-[*]-(m)--(:`A`)" := by decide +kernel

/-- C27: a last node made by `NewNodeWithLabels` is not shown. -/
theorem C27_last_node_lost : (match chainRun na.run ⟨1, 2, 3, .ltr, nb.run, [], []⟩ ⟨6, 7, 8, .ltr, (NodeV.newWithLabels c!"C" []), [], []⟩ [] with
    | .ok c => text (c.visit .ascii) | .panic => []) = c!"(:`A`)-->(:`B`)-->" := by decide +kernel

/-- C27: a node with an error gives a chain without error, and its text lacks the relationship. -/
theorem C27_error_lost : (match chainRun na.run ⟨1, 2, 3, .ltr, nb.run, [], []⟩ ⟨6, 7, 8, .ltr, NodeV.create2 1 2 [], [c!"T"], []⟩ [] with
    | .ok c => (c.err, text (c.visit .ascii)) | .panic => (none, [])) = (none, c!"(:`A`)-->()") := by decide +kernel

/-- C27: extending a chain that carries an error (made by `NamedC` of a relationship) panics. -/
theorem C27_empty (k kd kt : Key) (dir : Direction) (n : NodeV) (ts : List Str) (er : Err) :
    ({ err := some er } : ChainV).extend k kd kt dir n ts = .panic := rfl

/-! ### C41 Functions of nodes, relationships and paths -/

/-- The name of the Cypher function, and whether its argument is DISTINCT. -/
def Spec.fnNodeName : FnNode → Str × Bool
  | .id => (c!"id", false)
  | .labels => (c!"labels", false)
  | .properties => (c!"properties", false)
  | .count => (c!"count", false)
  | .countDistinct => (c!"count", true)

def Spec.fnRelName : FnRel → Str
  | .id => c!"id"
  | .type => c!"type"
  | .properties => c!"properties"
  | .startNode => c!"startNode"
  | .endNode => c!"endNode"

theorem nameArg_good {k : Key} {s : Str} (hs : s ≠ []) : Good (nameArg u (some (k, s))) ∧
    (nameArg u (some (k, s))).visit = [leaf k (escapeIfNecessary u s)] := by
  simp [nameArg, symbolicName, hs, Val.mk', Good]

theorem call_name {k ka kn : Key} {name s : Str} (ha : NoAlias e [k, ka, kn] (invocation k ka name [leaf kn s]).visit) :
    shownAs e (invocation k ka name [leaf kn s]).visit = layout e [.lit name, .lit c!"(", .lit s, .lit c!")"] := by
  refine shown_self (.node k (name ++ c!"(") c!")" false [.node ka [] [] true [.node kn s [] false []]]) ?_ ?_ ?_ ?_
  · simp [invocation, Val.mk', Tm.trees, Tm.treesL, leaf]
  · simp [Tm.Ok, Tm.OkL, Tm.trees, Spec.One, nd]
  · intro k' hk'
    apply ha
    simpa [Tm.keys, Tm.keysL] using hk'
  · simp [Tm.parts, Tm.partsL, layout, sepText]

theorem call_name_distinct {k ka kn : Key} {name s : Str}
    (ha : NoAlias e [k, ka, kn, 0] (invocation k ka name [nd 0 [] [] false [leaf 0 c!"DISTINCT ", leaf kn s]]).visit) :
    shownAs e (invocation k ka name [nd 0 [] [] false [leaf 0 c!"DISTINCT ", leaf kn s]]).visit =
      layout e [.lit name, .lit c!"(", .lit c!"DISTINCT ", .lit s, .lit c!")"] := by
  refine shown_self (.node k (name ++ c!"(") c!")" false [.node ka [] [] true [.node 0 [] [] false [.node 0 c!"DISTINCT " [] false [],
    .node kn s [] false []]]]) ?_ ?_ ?_ ?_
  · simp [invocation, Val.mk', Tm.trees, Tm.treesL, leaf]
  · simp [Tm.Ok, Tm.OkL, Tm.trees, Spec.One, nd]
  · intro k' hk'
    apply ha
    simp [Tm.keys, Tm.keysL] at hk' ⊢
    rcases hk' with h | h | h | h <;> simp [h]
  · simp [Tm.parts, Tm.partsL, layout, sepText]

/-- C41: the functions of a node that has a name call the function with that name.  `hn`: the node was not made by
`NewNodeWithLabels`. -/
theorem C41_node_partial (f : FnNode) (k ka kn : Key) (n : NodeV) (s : Str) (he : n.err = none) (hn : n.notNil = true) (hs : s ≠ []) (h : n.name = some (kn, s)) :
    ∃ v, fnNode u f k ka n = .ok v ∧ v.err = none ∧ (NoAlias e [k, ka, kn, 0] v.visit → shownAs e v.visit =
      layout e ([.lit (fnNodeName f).1, .lit c!"("] ++ (if (fnNodeName f).2 then [.lit c!"DISTINCT "] else []) ++ [.lit (escapeIfNecessary u s), .lit c!")"])) := by
  obtain ⟨⟨hg1, hg2⟩, hv⟩ := nameArg_good (u := u) (k := kn) hs
  have hc : ∀ d, functionInvocation k ka d [some (nameArg u (some (kn, s)))] = .ok (invocation k ka d.name [leaf kn (escapeIfNecessary u s)]) := by
    intro d
    simp [functionInvocation, scanArgs, hg1, hg2, Outcome.map, Except.map, visitsOf, hv]
  have hd : ∀ d : FnDef, d.aggregate = true → functionInvocationDistinct k ka d [some (nameArg u (some (kn, s)))] =
      .ok (invocation k ka d.name [nd 0 [] [] false [leaf 0 c!"DISTINCT ", leaf kn (escapeIfNecessary u s)]]) := by
    intro d hd
    simp [functionInvocationDistinct, scanArgs, hg1, hg2, Outcome.map, Except.map, visitsOf, hd, hv]
  cases f with
  | countDistinct =>
    refine ⟨_, by simp only [fnNode, h]; exact hd fnCount rfl, rfl, fun ha => ?_⟩
    exact call_name_distinct ha
  | count =>
    refine ⟨_, by simp only [fnNode, h]; exact hc fnCount, rfl, fun ha => ?_⟩
    exact call_name (ha.mono (by simp +contextual))
  | id =>
    refine ⟨_, by simp only [fnNode, h, he, hn, Bool.not_true, Bool.false_eq_true, if_false]; exact hc fnId, rfl, fun ha => ?_⟩
    exact call_name (ha.mono (by simp +contextual))
  | labels =>
    refine ⟨_, by simp only [fnNode, h, he, hn, Bool.not_true, Bool.false_eq_true, if_false]; exact hc fnLabels, rfl, fun ha => ?_⟩
    exact call_name (ha.mono (by simp +contextual))
  | properties =>
    refine ⟨_, by simp only [fnNode, h, he, hn, Bool.not_true, Bool.false_eq_true, if_false]; exact hc fnProperties, rfl, fun ha => ?_⟩
    exact call_name (ha.mono (by simp +contextual))

example : (match fnNode .ascii .countDistinct 200 201 np.run with | .ok v => text v.visit | .panic => []) = c!"count(DISTINCT p)" ∧
    np.run.err = none ∧ np.run.notNil = true := by decide +kernel

/-- C41: for a node made by `NewNodeWithLabels`, `id`, `labels` and `properties` are errors. -/
theorem C41_node_not_nil :
    (match fnNode .ascii .id 200 201 ((NodeV.newWithLabels c!"A" []).namedByString 1 c!"a") with | .ok v => v.err | .panic => none)
      = some (.site "functions.go" 13) := by decide +kernel

/-- C41: a node without name, or with an error, is an error for every function of nodes. -/
theorem C41_node_error (f : FnNode) (k ka : Key) (n : NodeV) (h : n.name = none ∨ (n.err.isSome ∧ f ≠ .count ∧ f ≠ .countDistinct)) :
    ∃ v er, fnNode u f k ka n = .ok v ∧ v.err = some er := by
  have hc : ∀ d, functionInvocation k ka d [some (nameArg u none)] = .ok (.bad (.site "function_invocation.go" 51)) := by
    intro d; rfl
  rcases h with h | ⟨h, h1, h2⟩
  · cases f with
    | count => exact ⟨_, _, by simp only [fnNode, h]; exact hc fnCount, rfl⟩
    | countDistinct => exact ⟨_, _, by simp only [fnNode, h]; rfl, rfl⟩
    | _ =>
      simp only [fnNode, h]
      rcases he : n.err with _ | er
      · simp only
        split
        · exact ⟨_, _, rfl, rfl⟩
        · exact ⟨_, _, hc _, rfl⟩
      · exact ⟨_, _, rfl, rfl⟩
  · obtain ⟨er, her⟩ := Option.isSome_iff_exists.mp h
    cases f <;> first
      | exact absurd rfl h1
      | exact absurd rfl h2
      | exact ⟨.bad er, er, by simp only [fnNode, her], rfl⟩

example : ∃ v er, fnNode .ascii .id 1 2 SamplePat.na.run = .ok v ∧ v.err = some er := C41_node_error .id 1 2 _ (.inl rfl)

/-- C41: the functions of a relationship that has a name. -/
theorem C41_relationship (f : FnRel) (k ka kn : Key) (r : RelV) (s : Str) (he : r.err = none) (hn : r.notNil = true) (hs : s ≠ [])
    (h : r.details.name = some (kn, s)) :
    ∃ v, fnRel u f k ka r = .ok v ∧ v.err = none ∧ (NoAlias e [k, ka, kn] v.visit → shownAs e v.visit =
      layout e [.lit (fnRelName f), .lit c!"(", .lit (escapeIfNecessary u s), .lit c!")"]) := by
  obtain ⟨⟨hg1, hg2⟩, hv⟩ := nameArg_good (u := u) (k := kn) hs
  have hc : ∀ d, functionInvocation k ka d [some (nameArg u (some (kn, s)))] = .ok (invocation k ka d.name [leaf kn (escapeIfNecessary u s)]) := by
    intro d
    simp [functionInvocation, scanArgs, hg1, hg2, Outcome.map, Except.map, visitsOf, hv]
  refine ⟨_, by simp only [fnRel, h, he, hn, Bool.not_true, Bool.false_eq_true, if_false, reduceCtorEq, and_false]; exact hc f.fn, rfl, fun ha => ?_⟩
  have : f.fn.name = fnRelName f := by cases f <;> rfl
  rw [← this]
  exact call_name ha

example : (match fnRel .ascii .startNode 200 201 ((RelV.create 1 2 3 na.run .ltr nb.run []).named 4 5 c!"my rel") with
    | .ok v => text v.visit | .panic => []) = c!"startNode(`my rel`)" := by decide +kernel

/-- C41: a relationship without name or with an error is an error. -/
theorem C41_relationship_error (f : FnRel) (k ka : Key) (r : RelV) (h : r.details.name = none ∨ r.err.isSome) :
    ∃ v er, fnRel u f k ka r = .ok v ∧ v.err = some er := by
  rcases he : r.err with _ | er
  · have h : r.details.name = none := by simpa [he] using h
    simp only [fnRel, he, h]
    split
    · exact ⟨_, _, rfl, rfl⟩
    · split
      · exact ⟨_, _, rfl, rfl⟩
      · exact ⟨_, _, rfl, rfl⟩
  · exact ⟨.bad er, er, by simp only [fnRel, he], rfl⟩

/-- C41: `nodes` and `relationships` of a path. -/
theorem C41_path (nodes : Bool) (k ka kn : Key) (path : Val) (s : Str) (hp : Good path) (hs : s ≠ []) :
    ∃ v, fnPath u nodes k ka (some (kn, s)) path = .ok v ∧ v.err = none ∧ (NoAlias e [k, ka, kn] v.visit → shownAs e v.visit =
      layout e [.lit (if nodes then c!"nodes" else c!"relationships"), .lit c!"(", .lit (escapeIfNecessary u s), .lit c!")"]) := by
  obtain ⟨⟨hg1, hg2⟩, hv⟩ := nameArg_good (u := u) (k := kn) hs
  have hc : ∀ d, functionInvocation k ka d [some (nameArg u (some (kn, s)))] = .ok (invocation k ka d.name [leaf kn (escapeIfNecessary u s)]) := by
    intro d
    simp [functionInvocation, scanArgs, hg1, hg2, Outcome.map, Except.map, visitsOf, hv]
  refine ⟨_, by simp only [fnPath, hp.1, hp.2, Bool.not_true, Bool.false_eq_true, if_false, reduceCtorEq]; exact hc _, rfl, fun ha => ?_⟩
  cases nodes <;> exact call_name ha

example : ∃ v, fnPath .ascii true 1 2 (some (3, c!"my path")) SampleExpr.wa = .ok v ∧ v.err = none ∧ text v.visit = c!"nodes(`my path`)" :=
  ⟨_, rfl, rfl, by decide +kernel⟩

/-- C41: `size` of a pattern. -/
theorem C41_pattern (k ka : Key) (p : Val) (hp : Good p) (h1 : Spec.One p.visit) (ha : NoAlias e [k, ka] p.visit) :
    (sizeByPattern k ka (some p)).err = none ∧
    shownAs e (sizeByPattern k ka (some p)).visit = layout e [.lit c!"size(", .hole p.visit, .lit c!")"] := by
  have : sizeByPattern k ka (some p) = invocation k ka c!"size" [p.visit].flatten := by
    simp [sizeByPattern, functionInvocationPattern, firstErr, errOf, nilErr, missing, hp.1, hp.2, fnSize]
  rw [this]
  refine ⟨rfl, ?_⟩
  rw [call_layout (by simpa using h1)]
  · simp [callParts, commas, sepParts, layout]
  · intro k' hk'
    have := ha k' hk'
    simpa [invocation, Val.mk', dkeysL_nd] using this

example : text (sizeByPattern 200 201 (some ((RelV.create 1 2 3 na.run .ltr nb.run []).toVal .ascii))).visit = c!"size((:`A`)-->(:`B`))" := by decide +kernel

/-- C41: `shortestPath` of a relationship; an error of the relationship is an error of the function. -/
theorem C41_shortestPath (k ka : Key) (r : RelV) :
    (r.err ≠ none → (shortestPath u k ka r).err = r.err) ∧
    (r.err = none → r.notNil = true → (shortestPath u k ka r).err = none ∧ (NoAlias e [k, ka] (r.visit u) →
      shownAs e (shortestPath u k ka r).visit = layout e [.lit c!"shortestPath(", .hole (r.visit u), .lit c!")"])) := by
  constructor
  · intro h
    cases he : r.err with
    | none => exact absurd he h
    | some er => simp [shortestPath, he, Val.bad]
  · intro h hn
    have hs : shortestPath u k ka r = invocation k ka c!"shortestPath" [r.visit u].flatten := by
      simp [shortestPath, h, functionInvocationPattern, firstErr, errOf, nilErr, missing, hn, RelV.toVal, fnShortestPath]
    rw [hs]
    refine ⟨rfl, fun ha => ?_⟩
    rw [call_layout (by simp [Spec.One, RelV.visit, nd])]
    · simp [callParts, commas, sepParts, layout]
    · intro k' hk'
      have := ha k' hk'
      simpa [invocation, Val.mk', dkeysL_nd] using this

example : text (shortestPath .ascii 200 201 (RelV.create 1 2 3 na.run .ltr nb.run [])).visit = c!"shortestPath((:`A`)-->(:`B`))" := by decide +kernel

/-! ### C46 Named paths, conditions on labels -/

/-- C46: a path is shown as its name, an equality sign and its pattern. -/
theorem C46_path (guid : Str) (k kn : Key) (name : Str) (p : Val) (hn : name ≠ []) (hp : p.err = none) :
    (aPath u guid k kn name p).err = none ∧
    (NoAlias e [k, kn, Op.assignment.key] (aPath u guid k kn name p).visit → shownAs e (aPath u guid k kn name p).visit =
      layout e [.lit (escapeIfNecessary u name), .lit c!" = ", .hole p.visit]) := by
  have h : aPath u guid k kn name p = .mk' k [nd k [] [] false ([leaf kn (escapeIfNecessary u name)] ++ [Op.assignment.visit] ++ p.visit)] := by
    simp [aPath, namedPath, hn, hp, pathName, nameVisit]
  rw [h]
  refine ⟨rfl, fun ha => ?_⟩
  refine shown_self (.node k [] [] false [.node kn (escapeIfNecessary u name) [] false [], .node Op.assignment.key Op.assignment.text [] false [],
    .hole p.visit]) ?_ ?_ ?_ ?_
  · simp [Val.mk', Tm.trees, Tm.treesL, leaf, Op.visit]
  · simp [Tm.Ok, Tm.OkL]
  · intro k' hk'
    apply ha
    simp [Tm.keys, Tm.keysL] at hk' ⊢
    rcases hk' with h | h | h <;> simp [h]
  · simp [Tm.parts, Tm.partsL, layout, sepText, Op.text, Op.type, Op.repr]

example : text (aPath .ascii [] 200 201 c!"p" ((RelV.create 1 2 3 na.run .ltr nb.run []).toVal .ascii)).visit = c!"p = (:`A`)-->(:`B`)" := by decide +kernel

/-- C46: the error of a pattern is an error of the path; but the error of an empty name is lost, and whatever the renderer draws as
a random name is shown. -/
theorem C46_path_error (guid : Str) (k kn : Key) (name : Str) (p : Val) (h : p.err.isSome) : (aPath u guid k kn name p).err = p.err := by
  obtain ⟨er, he⟩ := Option.isSome_iff_exists.mp h
  simp [aPath, namedPath, he, Val.bad]

example : (aPath .ascii [] 1 2 c!"p" SampleExpr.wx).err = some (.other 7) := C46_path_error [] 1 2 _ _ rfl

theorem C46_path_name_lost (guid : Str) : let v := aPath .ascii guid 200 201 [] ((RelV.create 1 2 3 na.run .ltr nb.run []).toVal .ascii)
    v.err = none ∧ text v.visit = guid ++ c!" = (:`A`)-->(:`B`)" := by
  refine ⟨rfl, ?_⟩
  simp [aPath, namedPath, pathName, text, Val.mk', RelV.toVal, RelV.visit, nd, leaf, denL, den, shown, described, defined, Vis.asAlias, sepText, Op.visit, Kind.isSub,
    Env.empty, RelV.create, RelV.create3, firstErr, NodeDesc.run, na, nb, NodeCtor.run, NodeV.create2, NodeV.visit, labelVisit, labelText, nameVisit, propsVisit,
    DetailsV.visit, DetailsV.hasContent, typesVisit, lengthVisit, Direction.left, Direction.right, Op.text, Op.type, Op.repr, escapeName, replaceChar]

/-- C46: a shortest path: `name = shortestPath(pattern)`; a missing name and an error of the relationship are errors. -/
theorem C46_shortestPath (k kn kf ka : Key) (name : Str) (r : RelV) :
    (name = [] ∨ r.err.isSome → (aShortestPath u k kn kf ka name r).err.isSome) ∧
    (name ≠ [] → r.err = none → r.notNil = true → (aShortestPath u k kn kf ka name r).err = none ∧
      (NoAlias e [k, kn, kf, ka, Op.assignment.key] (aShortestPath u k kn kf ka name r).visit → shownAs e (aShortestPath u k kn kf ka name r).visit =
        layout e [.lit (escapeIfNecessary u name), .lit c!" = shortestPath(", .hole (r.visit u), .lit c!")"])) := by
  refine ⟨?_, ?_⟩
  · rintro (h | h)
    · simp [aShortestPath, h, Val.bad]
    · obtain ⟨er, he⟩ := Option.isSome_iff_exists.mp h
      simp only [aShortestPath, he]
      split <;> rfl
  · intro hn he hnn
    have hi : functionInvocationPattern kf ka fnShortestPath (some (r.toVal u)) = invocation kf ka c!"shortestPath" (r.visit u) := by
      simp [functionInvocationPattern, firstErr, errOf, nilErr, missing, RelV.toVal, he, hnn, fnShortestPath]
    have h : aShortestPath u k kn kf ka name r = .mk' k [nd k [] [] false ([leaf kn (escapeIfNecessary u name)] ++ [Op.assignment.visit] ++
        (invocation kf ka c!"shortestPath" (r.visit u)).visit)] := by
      simp only [aShortestPath, hn, he, if_false, namedPath, hi]
      rfl
    rw [h]
    refine ⟨rfl, fun ha => ?_⟩
    refine shown_self (.node k [] [] false [.node kn (escapeIfNecessary u name) [] false [], .node Op.assignment.key Op.assignment.text [] false [],
      .node kf c!"shortestPath(" c!")" false [.node ka [] [] true [.hole (r.visit u)]]]) ?_ ?_ ?_ ?_
    · simp [Val.mk', Tm.trees, Tm.treesL, leaf, Op.visit, invocation]
    · simp [Tm.Ok, Tm.OkL, Tm.trees, Spec.One, RelV.visit, nd]
    · intro k' hk'
      apply ha
      simp [Tm.keys, Tm.keysL] at hk' ⊢
      rcases hk' with h | h | h | h | h <;> simp [h]
    · simp [Tm.parts, Tm.partsL, layout, sepText, Op.text, Op.type, Op.repr]

example : text (aShortestPath .ascii 200 201 202 203 c!"p" (RelV.create 1 2 3 na.run .ltr nb.run [])).visit = c!"p = shortestPath((:`A`)-->(:`B`))" := by decide +kernel

theorem hasLabels_text (n : NodeV) (k kn : Key) (ks : Nat → Key) (s : Str) (labels : List Str) (h : n.name = some (kn, s)) (hl : labels ≠ [])
    (hne : [] ∉ labels) (ha : NoAlias e (k :: kn :: (List.range labels.length).map ks) (n.hasLabels u k ks labels).visit) :
    shownAs e (n.hasLabels u k ks labels).visit = layout e [.lit (escapeIfNecessary u s), .lit (labels.flatMap fun t => ':' :: escapeName t)] := by
  have hv : n.hasLabels u k ks labels = .mk' k [nd k [] [] false (nameVisit u (some (kn, s)) ++ (labels.zipIdx.map fun l => labelVisit (ks l.2, l.1)))] true := by
    simp [NodeV.hasLabels, h, hl]
  rw [hv] at ha ⊢
  have hz : (labels.zipIdx.map fun l => labelVisit (ks l.2, l.1)) = Tm.treesL (labelTms (labels.zipIdx.map fun l => (ks l.2, l.1))) := by
    rw [labelTms_trees, List.map_map]
    rfl
  refine shown_self (.node k [] [] false (.node kn (escapeIfNecessary u s) [] false [] :: labelTms (labels.zipIdx.map fun l => (ks l.2, l.1)))) ?_ ?_ ?_ ?_
  · simp only [Val.mk', Tm.trees, Tm.treesL, hz, nameVisit, leaf]
  · simp [Tm.Ok, Tm.OkL, labelTms_ok]
  · intro k' hk'
    apply ha
    simp only [Tm.keys, Tm.keysL, labelTms_keys, List.mem_cons, List.map_map, List.mem_map, List.mem_append, List.mem_nil_iff, or_false, false_or] at hk' ⊢
    rcases hk' with h | h | ⟨l, hl, h⟩
    · simp [h]
    · simp [h]
    · right; right
      refine ⟨l.2, ?_, h⟩
      have := List.mem_zipIdx hl
      simp only [List.mem_range]
      omega
  · simp only [Tm.parts, Tm.partsL]
    have := labelTms_parts (labels.zipIdx.map fun l => (ks l.2, l.1)) false e [.lit []]
    simp only [List.cons_append, List.nil_append, layout, sepText, Bool.false_and, Bool.false_eq_true, if_false] at this ⊢
    rw [this]
    have hf : labels.filter (fun x => decide (x ≠ [])) = labels := by
      rw [List.filter_eq_self]
      intro l hl'
      simp only [ne_eq, decide_not, Bool.not_eq_eq_eq_not, Bool.not_true, decide_eq_false_iff_not]
      rintro rfl
      exact hne hl'
    have hm : (labels.zipIdx.map fun l => (ks l.2, l.1)).map (·.2) = labels := by
      rw [List.map_map]
      exact (List.map_congr_left fun _ _ => rfl).trans (by simp : labels.zipIdx.map Prod.fst = labels)
    rw [hm, hf]

/-- C46: `HasLabels` renders the name of the node and all labels, which read back. -/
theorem C46_hasLabels (n : NodeV) (k kn : Key) (ks : Nat → Key) (s : Str) (labels : List Str) (h : n.name = some (kn, s)) (hl : labels ≠ [])
    (hne : [] ∉ labels) :
    (n.hasLabels u k ks labels).err = none ∧
    (NoAlias e (k :: kn :: (List.range labels.length).map ks) (n.hasLabels u k ks labels).visit → ∃ t,
      shownAs e (n.hasLabels u k ks labels).visit = layout e [.lit (escapeIfNecessary u s), .lit t] ∧
      ∀ rest : Str, rest.head? ≠ some '`' → rest.head? ≠ some ':' → readLabels (t ++ rest) = some (labels, rest)) :=
  ⟨by simp [NodeV.hasLabels, h, hl, Val.mk'], fun ha =>
    ⟨_, hasLabels_text n k kn ks s labels h hl hne ha, fun rest h1 h2 => readLabels_flat labels rest h1 h2⟩⟩

example : text (np.run.hasLabels .ascii 200 (fun i => 210 + i) [c!"A", c!"B `x`"]).visit = c!"p:`A`:`B ``x```" := by decide +kernel

/-- C46: without a name, or without labels, `HasLabels` is an error. -/
theorem C46_hasLabels_error (n : NodeV) (k : Key) (ks : Nat → Key) (labels : List Str) (h : n.name = none ∨ labels = []) :
    (n.hasLabels u k ks labels).err.isSome := by
  simp only [NodeV.hasLabels]
  rcases hn : n.name with _ | ⟨kn, s⟩
  · rfl
  · simp [hn] at h
    simp [h, Val.bad]

example : (SamplePat.na.run.hasLabels .ascii 1 (fun i => 10 + i) [c!"A"]).err.isSome ∧ (SamplePat.np.run.hasLabels .ascii 1 (fun i => 10 + i) []).err.isSome ∧
    (SamplePat.np.run.hasLabels .ascii 1 (fun i => 10 + i) [c!"A"]).err = none := by decide

/-- C46: a property of a named node is `name.property`; it is an error if the node has an error or no name, or the property name is
empty. -/
theorem C46_node_property (n : NodeV) (k kl : Key) (name : Str) :
    ((n.property u k kl name).err.isSome ↔ n.err.isSome ∨ n.name = none ∨ (∃ kn, n.name = some (kn, [])) ∨ name = []) ∧
    ∀ kn s, n.err = none → n.name = some (kn, s) → s ≠ [] → name ≠ [] → NoAlias e [k, kl, kn] (n.property u k kl name).visit →
      shownAs e (n.property u k kl name).visit = layout e [.lit (escapeIfNecessary u s), .lit c!".", .lit (if name = c!"*" then name else escapeIfNecessary u name)] := by
  have hp : ∀ er, (propertyError u er).err.isSome = true := fun er => rfl
  refine ⟨?_, ?_⟩
  · rcases he : n.err with _ | er
    · rcases hn : n.name with _ | ⟨kn, s⟩
      · simp [NodeV.property, he, NodeV.requiredName, hn, Val.bad, hp]
      · by_cases hs : s = []
        · subst hs; simp [NodeV.property, he, NodeV.requiredName, hn, symbolicName, Val.bad, hp]
        · by_cases hnm : name = []
          · simp [NodeV.property, he, NodeV.requiredName, hn, symbolicName, hs, Val.mk', hnm, hp]
          · simp [NodeV.property, he, NodeV.requiredName, hn, symbolicName, hs, Val.mk', hnm, propertyCreate1]
    · simp [NodeV.property, he, hp]
  · intro kn s he hn hs hnm ha
    have hv : n.property u k kl name = propertyCreate1 u k kl (symbolicName u kn s) name := by
      simp [NodeV.property, he, NodeV.requiredName, hn, symbolicName, hs, Val.mk', hnm]
    rw [hv] at ha ⊢
    refine shown_self (.node k [] [] false [.node kn (escapeIfNecessary u s) [] false [], .node kl (lookupText u name) [] false []]) ?_ ?_ ?_ ?_
    · simp [propertyCreate1, symbolicName, hs, Val.mk', Tm.trees, Tm.treesL, propertyLookup, leaf]
    · simp [Tm.Ok, Tm.OkL]
    · intro k' hk'
      apply ha
      simp [Tm.keys, Tm.keysL] at hk' ⊢
      rcases hk' with h | h | h <;> simp [h]
    · simp [Tm.parts, Tm.partsL, layout, sepText, lookupText]

example : text (np.run.property .ascii 200 201 c!"first name").visit = c!"p.`first name`" := by decide +kernel

end

end Verif
