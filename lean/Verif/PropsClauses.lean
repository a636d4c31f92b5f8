import Verif.ClauseLemmas
import Verif.PropsExprs2
import Verif.PropsPatterns

/-
Property theorems about clauses and statements: C25, C35 - C38, C42, C47.
-/

namespace Verif
open Spec

namespace SampleClause

/-- A word. -/
def w (k : Key) (s : Str) : Val := .mk' k [leaf k s]
def x : Val := w 101 c!"x"
def y : Val := w 102 c!"y"
def z : Val := w 103 c!"z"
/-- `a.IsNull()` as one condition. -/
def c : Calls := .atom (.mk' 104 [leaf 104 c!"c"] true)
/-- `x + 1` -/
def plus : Val := operationCreate 105 (some x) .addition (some (intLiteral 106 1))
/-- `RETURN DISTINCT x, y ORDER BY x DESC, y ASC, z SKIP 3 LIMIT 10` -/
def req : ResultReq :=
  { distinct := true, items := [x, y], order := [.items [⟨201, 202, x, .desc⟩, ⟨203, 204, y, .asc⟩], .sort ⟨205, 206, z, .undefined⟩],
    skip := some ⟨207, 208, 3⟩, limit := some ⟨209, 210, 10⟩ }

end SampleClause
open SampleClause

section
variable {e : Env} {u : Unicode}

/-! ### C25 RETURN and WITH -/

/-- C25, RETURN. -/
theorem C25_return (k ko : Key) (r : ResultReq) (h : r.Ok) :
    ∃ v, returnCreate k ko r.distinct r.items r.orderB = some v ∧ Good v ∧
      (NoAlias e ([k, ko] ++ r.keys) v.visit → shownAs e v.visit = layout e (.lit c!"RETURN " :: r.parts)) := by
  refine ⟨{ key := k, visit := [nd k c!"RETURN " [] false (Tm.treesL (bodyTms 0 ko r))] }, ?_, ⟨rfl, rfl⟩, ?_⟩
  · rw [returnCreate, if_neg h.items, body_trees 0 ko r h]
    rfl
  · intro ha
    refine shown_self (.node k c!"RETURN " [] false (bodyTms 0 ko r)) ?_ ?_ ?_ ?_
    · simp [Tm.trees]
    · simpa [Tm.Ok] using body_ok 0 ko r h
    · intro k' hk'
      apply ha
      simp only [Tm.keys, List.mem_cons] at hk'
      rcases hk' with h | h
      · simp [h]
      · rcases body_keys 0 ko r k' h with h | h | h
        · simp [h, ResultReq.keys]
        · simp [h]
        · simp [h]
    · simp [Tm.parts, layout, layout_append, body_parts]

/-- C25, WITH: in addition there is the condition. -/
theorem C25_with (k kl ko kw : Key) (r : ResultReq) (c : Option Calls) (h : r.Ok) (hc : ∀ x, c = some x → x.Usable) :
    ∃ v, withCreate k kl ko kw r.distinct r.items r.orderB (c.map Calls.build) = some v ∧ Good v ∧
      (NoAlias e ([k, kl, ko, kw] ++ r.keys) v.visit → shownAs e v.visit = layout e (.lit c!"WITH " :: (r.parts ++ whereParts c ++ [.lit c!" "]))) := by
  obtain ⟨_, hw⟩ := where_trees kw c hc
  have hl : listVisit kl r.items = [nd kl [] [] true (visitsOf r.items)] := by
    have : errsOf r.items = none := (errsOf_none_iff _).mpr fun x hx => (h.itemsOk x hx).1
    simp [listVisit, expressionList, this, Val.mk']
  refine ⟨{ key := k, visit := [nd k c!"WITH " c!" " false (Tm.treesL (bodyTms kl ko r ++ whereTms' kw c))] }, ?_, ⟨rfl, rfl⟩, ?_⟩
  · rw [withCreate, if_neg h.items, treesL_append, body_trees kl ko r h, hw, hl]
  · intro ha
    refine shown_self (.node k c!"WITH " c!" " false (bodyTms kl ko r ++ whereTms' kw c)) ?_ ?_ ?_ ?_
    · simp [Tm.trees]
    · simpa [Tm.Ok, okL_append] using ⟨body_ok kl ko r h, where_ok kw c⟩
    · intro k' hk'
      apply ha
      simp only [Tm.keys, List.mem_cons, keysL_append, List.mem_append] at hk'
      rcases hk' with h | h | h
      · simp [h]
      · rcases body_keys kl ko r k' h with h | h | h <;> simp [h]
      · simp [where_keys kw c k' h]
    · simp [Tm.parts, layout, layout_append, partsL_append, body_parts, where_parts]

example : req.Ok := by
  constructor
  · simp [req]
  · simp [req, x, y, w, Val.mk', Spec.One, leaf, nd]
  · simp [req, ResultReq.sorts, OrderCall.sorts, x, y, z, w, Val.mk']
  · simp [req]
  · simp [req]
  · intro pre d post heq hd
    simp only [req] at heq
    match pre, heq with
    | [_], heq => simp at heq; exact heq.2.2
    | _ :: _ :: _, heq => simp at heq

example : (returnCreate 1 2 req.distinct req.items req.orderB).map (fun v => text v.visit) =
    some c!"RETURN DISTINCT x, y ORDER BY x DESC, y ASC, z SKIP 3 LIMIT 10" := by decide +kernel

example : (withCreate 1 2 3 4 false [x] { } (some c.build)).map (fun v => text v.visit) = some c!"WITH x WHERE c " := by decide +kernel

/-- C25 fails for `Limit(0)`, which is dropped without an error. -/
theorem C25_limit_zero : (returnCreate 1 2 false [x] (ResultReq.orderB { distinct := false, items := [x], limit := some ⟨3, 4, 0⟩ })).map
    (fun v => (v.err, text v.visit)) = some (none, c!"RETURN x") := by decide +kernel

/-- C25 fails for large numbers: `Limit(12345678901)`. -/
theorem C25_limit_large : (returnCreate 1 2 false [x] (ResultReq.orderB { distinct := false, items := [x], limit := some ⟨3, 4, 12345678901⟩ })).map
    (fun v => text v.visit) = some c!"RETURN x LIMIT 1.23456789e+10" := by decide +kernel

/-- C25 and C34: errors of sortings are lost: the ORDER BY is dropped. -/
theorem C25_sort_error_lost (er : Err) : (returnCreate 1 2 false [x] (ResultReq.orderB { distinct := false, items := [x], order := [.items [⟨3, 4, .bad er, .undefined⟩]] })).map
    (fun v => (v.err, text v.visit)) = some (none, c!"RETURN x") ∧
    (returnCreate 1 2 false [x] (ResultReq.orderB { distinct := false, items := [x], order := [.sort ⟨3, 4, .bad er, .undefined⟩] })).map
    (fun v => (v.err, text v.visit)) = some (none, c!"RETURN x") := by
  constructor <;> rfl

/-- C25 and C34: `Ascending()` and `Descending()` of a sorting with an error give one without error and without expression, which
panics when it is rendered. -/
theorem C25_sort_direction_error_lost (k kd : Key) (er : Err) (dir : SortDir) (h : dir ≠ .undefined) :
    (SortReq.build ⟨k, kd, .bad er, dir⟩).err = none ∧ (SortReq.build ⟨k, kd, .bad er, dir⟩).expr = none := by
  cases dir with
  | undefined => exact absurd rfl h
  | asc => exact ⟨rfl, rfl⟩
  | desc => exact ⟨rfl, rfl⟩

/-- C25 and C34: errors of the items of a WITH are lost, and all items with them. -/
theorem C25_with_error_lost (er : Err) : (withCreate 1 2 3 4 false [x, .bad er] {} none).map (fun v => (v.err, text v.visit)) = some (none, c!"WITH  ") := rfl

/-- C25 and C34: so are errors of the condition. -/
theorem C25_with_where_error_lost (er : Err) : (withCreate 1 2 3 4 false [x] {} (some (.atom { Val.bad er true with notNil := true }))).map (fun v => (v.err, text v.visit)) =
    some (none, c!"WITH x ") := rfl

/-- C25: a WITH without items is dropped together with its condition. -/
theorem C25_empty_with (k kl ko kw : Key) (distinct : Bool) (o : OrderB) (c : Option Cond) : withCreate k kl ko kw distinct [] o c = none := rfl

/-! ### C37 SET -/

/-- C37, assignments: `Set` given pairs of plain expressions and assignments built before, in any order, gives one assignment for
each of them, those built before first.  Full claim: in the order given; false for mixed arguments (`C37_reordered`) and if a value
is itself an operation (`C37_computed_value`). -/
theorem C37_set_partial (k kl : Key) (ks : Nat → Key) (as : List SetArg) (h : ∀ a ∈ as, a.Ok) :
    ∃ vs, prepareSet ks (as.flatMap SetArg.args) = .ok vs ∧ (updateClause k kl setKeyword vs).val.err = none ∧
      (NoAlias e ([k, kl, Op.set.key] ++ (List.range as.length).map ks) (updateClause k kl setKeyword vs).val.visit →
        shownAs e (updateClause k kl setKeyword vs).val.visit = layout e (setParts (builtFirst as))) := by
  obtain ⟨h1, h2⟩ := prepareSet_ok ks as h
  have he : errsOf (setVals ks as) = none := (errsOf_none_iff _).mpr h2
  refine ⟨_, h1, by simp [updateClause, expressionList, he, Val.mk'], fun ha => ?_⟩
  refine shown_self (.node k setKeyword c!" " false [.node kl [] [] true (setTms ks as)]) ?_ ?_ ?_ ?_
  · simp [updateClause, expressionList, he, Val.mk', Tm.trees, Tm.treesL, setTms_trees]
  · simpa [Tm.Ok, Tm.OkL] using setTms_ok ks as h
  · intro k' hk'
    apply ha
    simp only [Tm.keys, Tm.keysL, List.mem_cons, List.append_nil] at hk'
    rcases hk' with h | h | h
    · simp [h]
    · simp [h]
    · rcases setTms_keys ks as k' h with h | h
      · simp [h]
      · simp only [List.mem_append]; exact Or.inr h
  · have := sepParts_congr c!", " (setTms_parts ks as)
    simp only [Tm.parts, Tm.partsL, layout, layout_append, sepText, partsL_sep, this, setParts, setKeyword]
    simp

/-- C37, pairs only: then the order is the one given. -/
theorem C37_pairs (as : List (Val × Val)) : builtFirst (as.map fun p => .pair p.1 p.2) = as.map fun p => .pair p.1 p.2 := by
  have h1 : (as.map fun p => SetArg.pair p.1 p.2).filter (·.isBuilt) = [] := by
    rw [List.filter_eq_nil_iff]; intro a ha; obtain ⟨p, _, rfl⟩ := List.mem_map.mp ha; simp [SetArg.isBuilt]
  have h2 : (as.map fun p => SetArg.pair p.1 p.2).filter (fun a => !a.isBuilt) = as.map fun p => .pair p.1 p.2 := by
    rw [List.filter_eq_self]; intro a ha; obtain ⟨p, _, rfl⟩ := List.mem_map.mp ha; simp [SetArg.isBuilt]
  rw [builtFirst, h1, h2, List.nil_append]

/-- C37, built assignments only: they are kept as given. -/
theorem C37_built (os : List Val) : builtFirst (os.map .built) = os.map .built := by
  have h1 : (os.map SetArg.built).filter (·.isBuilt) = os.map .built := by simp [List.filter_eq_self, SetArg.isBuilt]
  have h2 : (os.map SetArg.built).filter (fun a => !a.isBuilt) = [] := by simp [List.filter_eq_nil_iff, SetArg.isBuilt]
  rw [builtFirst, h1, h2, List.append_nil]

/-- C37, odd numbers: an error exactly if the number of plain expressions is odd. -/
theorem C37_odd (ks : Nat → Key) (xs : List Val) :
    (∃ er, prepareSet ks xs = .error er) ↔ (xs.filter (fun x => !x.isOperation)).length % 2 = 1 := by
  rw [prepareSet]
  by_cases h : (xs.filter (fun x => !x.isOperation)).length % 2 = 0
  · simp [h]
  · have : (xs.filter (fun x => !x.isOperation)).length % 2 = 1 := by omega
    simp [this]

/-- The text of the SET clause for given arguments. -/
def SampleClause.setText (xs : List Val) : Option Str :=
  match prepareSet (fun i => 300 + i) xs with
  | .ok vs => some (text (updateClause 1 2 setKeyword vs).val.visit)
  | .error _ => none

example : setText [x, y, z, x] = some c!"SET x = y, z = x " := by decide +kernel
example : ∀ a ∈ [SetArg.pair x y, .built (operationCreate 7 (some x) .mutate (some y))], a.Ok := by
  simp [SetArg.Ok, Good, x, y, w, Val.mk', Val.isOperation, operationCreate, firstErr, errOf, nilErr, missing, operationVisit, needsGrouping, Op.type, Spec.One, nd]

/-- C37 fails: `Set(x, y, a.Mutate(b))` sets the last one first. -/
theorem C37_reordered : setText [x, y, operationCreate 7 (some z) .mutate (some y)] = some c!"SET z += y, x = y " := by decide +kernel

/-- C37 fails: `Set(x, x.Add(1))` is refused, since the sum is taken for an assignment. -/
theorem C37_computed_value : setText [x, plus] = none := by decide +kernel

/-- C37 fails: `Set(x, x.Add(1), y, x.Add(1))` is accepted, and assigns `y` to `x`. -/
theorem C37_computed_values : setText [x, plus, y, plus] = some c!"SET (x + 1), (x + 1), x = y " := by decide +kernel

/-! ### C42 MERGE -/

/-- C42: the actions are rendered after the pattern, in the order given, each with its own assignments. -/
theorem C42_merge (k kp : Key) (patterns : List Val) (hp : ∀ x ∈ patterns, x.err = none ∧ Spec.One x.visit) (as : List ActionReq)
    (h : ∀ a ∈ as, ∀ x ∈ a.args, x.Ok) :
    ∃ vs, buildActions as = .ok vs ∧ (mergeClause k kp patterns vs).val.err = none ∧
      (NoAlias e ([k, kp, 41] ++ as.flatMap ActionReq.keys) (mergeClause k kp patterns vs).val.visit →
        shownAs e (mergeClause k kp patterns vs).val.visit =
          layout e ([.lit c!"MERGE "] ++ commas (patterns.map (·.visit)) ++ [.lit c!" "] ++ as.flatMap ActionReq.parts)) := by
  obtain ⟨vs, hv, ht⟩ := actions_built as h
  have hpe : errsOf patterns = none := (errsOf_none_iff _).mpr fun x hx => (hp x hx).1
  have hpo : Tm.OkL true (listTm (patterns.map (·.visit))) := by
    apply listTm_ok
    simp only [List.mem_map, forall_exists_index, and_imp]
    rintro _ x hx rfl
    exact (hp x hx).2
  have hpt : Tm.treesL (listTm (patterns.map (·.visit))) = visitsOf patterns := by rw [listTm_trees, visitsOf, List.flatMap]
  refine ⟨vs, hv, by simp [mergeClause, patternCreate, hpe], fun ha => ?_⟩
  refine shown_self (.node k c!"MERGE " [] false (.node kp [] [] true (listTm (patterns.map (·.visit))) :: .node 41 c!" " [] false [] :: as.map actionTm)) ?_ ?_ ?_ ?_
  · simp [mergeClause, patternCreate, hpe, Tm.trees, Tm.treesL, hpt, ht, leaf]
  · simpa [Tm.Ok, Tm.OkL] using ⟨hpo, actions_ok as h⟩
  · intro k' hk'
    apply ha
    simp only [Tm.keys, Tm.keysL, List.mem_cons, listTm_keys, List.cons_append, List.nil_append] at hk'
    rcases hk' with h | h | h | h
    · simp [h]
    · simp [h]
    · simp [h]
    · exact List.mem_append_right _ (actions_keys as _ h)
  · simp [Tm.parts, Tm.partsL, layout, layout_append, sepText, partsL_commas, actions_parts]

/-- `Merge(n).OnCreate().Set(x, y).OnMatch().Set(x, z, y, z)` -/
example : (match buildActions [⟨11, 12, 13, fun i => 20 + i, .onCreate, [.pair x y]⟩, ⟨31, 32, 33, fun i => 40 + i, .onMatch, [.pair x z, .pair y z]⟩] with
    | .ok vs => text (mergeClause 1 2 [SamplePat.np.run.toVal .ascii] vs).val.visit | .error _ => [])
    = c!"MERGE (p:`Person`) ON CREATE SET x = y ON MATCH SET x = z, y = z " := by decide +kernel

/-- C42 and C34: the error of an assignment of an action is lost. -/
theorem C42_error_lost :
    (match buildActions [⟨11, 12, 13, fun i => 20 + i, .onCreate, [.pair x (.bad (.other 1))]⟩] with
    | .ok vs => some ((mergeClause 1 2 [SamplePat.np.run.toVal .ascii] vs).val.err, text (mergeClause 1 2 [SamplePat.np.run.toVal .ascii] vs).val.visit)
    | .error _ => none) = some (none, c!"MERGE (p:`Person`) ON CREATE SET  ") := by decide +kernel

/-! ### C47 The other clauses -/

/-- C47: MATCH. -/
theorem C47_match (k kw : Key) (optional : Bool) (patterns : List Val) (hp : ∀ x ∈ patterns, Spec.One x.visit) (c : Option Calls)
    (hc : ∀ x, c = some x → x.Usable) :
    (matchCreate k kw optional patterns (c.map Calls.build)).val.err = none ∧
    (NoAlias e [k, kw, 0] (matchCreate k kw optional patterns (c.map Calls.build)).val.visit →
      shownAs e (matchCreate k kw optional patterns (c.map Calls.build)).val.visit =
        layout e ([.lit (if optional then c!"OPTIONAL MATCH " else c!"MATCH ")] ++ commas (patterns.map (·.visit)) ++ whereParts c ++ [.lit c!" "])) := by
  obtain ⟨h1, h2⟩ := where_trees kw c hc
  refine ⟨by simp [matchCreate, h1], fun ha => ?_⟩
  refine shown_self (.node k ((if optional then c!"OPTIONAL " else []) ++ c!"MATCH ") c!" " false
    (.node 0 [] [] true (listTm (patterns.map (·.visit))) :: whereTms' kw c)) ?_ ?_ ?_ ?_
  · have hpt : Tm.treesL (listTm (patterns.map (·.visit))) = visitsOf patterns := by rw [listTm_trees, visitsOf, List.flatMap]
    simp [matchCreate, h1, h2, Tm.trees, Tm.treesL, hpt]
  · have hpo : Tm.OkL true (listTm (patterns.map (·.visit))) := by
      apply listTm_ok
      simp only [List.mem_map, forall_exists_index, and_imp]
      rintro _ x hx rfl
      exact hp x hx
    simpa [Tm.Ok, Tm.OkL] using ⟨hpo, where_ok kw c⟩
  · intro k' hk'
    apply ha
    simp only [Tm.keys, Tm.keysL, List.mem_cons, listTm_keys, List.cons_append, List.nil_append] at hk'
    rcases hk' with h | h | h
    · simp [h]
    · simp [h]
    · simp [where_keys kw c k' h]
  · cases optional <;> simp [Tm.parts, Tm.partsL, layout, layout_append, sepText, partsL_commas, where_parts]

example : (matchCreate 1 2 true [SamplePat.np.run.toVal .ascii, SamplePat.np.run.toVal .ascii] (some c.build)).val.err = none ∧
    text (matchCreate 1 2 true [SamplePat.np.run.toVal .ascii, SamplePat.np.run.toVal .ascii] (some c.build)).val.visit =
      c!"OPTIONAL MATCH (p:`Person`), (p) WHERE c " :=
  ⟨(C47_match (e := Env.empty) 1 2 true [SamplePat.np.run.toVal .ascii, SamplePat.np.run.toVal .ascii] (by intro x hx; simp at hx; subst hx; exact ⟨_, _, rfl⟩) (some c)
    (by simp [c, Calls.Usable, Calls.UsableAtom, Val.mk'])).1, by decide +kernel⟩

/-- C47: CREATE. -/
theorem C47_create (k kp : Key) (patterns : List Val) (hp : ∀ x ∈ patterns, x.err = none ∧ Spec.One x.visit) :
    (createClause k kp patterns).val.err = none ∧
    (NoAlias e [k, kp] (createClause k kp patterns).val.visit →
      shownAs e (createClause k kp patterns).val.visit = layout e ([.lit c!"CREATE "] ++ commas (patterns.map (·.visit)) ++ [.lit c!" "])) := by
  have hpe : errsOf patterns = none := (errsOf_none_iff _).mpr fun x hx => (hp x hx).1
  refine ⟨by simp [createClause, patternCreate, hpe], fun ha => ?_⟩
  refine shown_self (.node k c!"CREATE " c!" " false [.node kp [] [] true (listTm (patterns.map (·.visit)))]) ?_ ?_ ?_ ?_
  · have hpt : Tm.treesL (listTm (patterns.map (·.visit))) = visitsOf patterns := by rw [listTm_trees, visitsOf, List.flatMap]
    simp [createClause, patternCreate, hpe, Tm.trees, Tm.treesL, hpt]
  · have hpo : Tm.OkL true (listTm (patterns.map (·.visit))) := by
      apply listTm_ok
      simp only [List.mem_map, forall_exists_index, and_imp]
      rintro _ x hx rfl
      exact (hp x hx).2
    simpa [Tm.Ok, Tm.OkL] using hpo
  · intro k' hk'
    apply ha
    simp only [Tm.keys, Tm.keysL, listTm_keys, List.append_nil] at hk'
    exact hk'
  · simp [Tm.parts, Tm.partsL, layout, layout_append, sepText, partsL_commas]

example : (createClause 1 2 [SamplePat.np.run.toVal .ascii, SamplePat.np.run.toVal .ascii]).val.err = none ∧
    text (createClause 1 2 [SamplePat.np.run.toVal .ascii, SamplePat.np.run.toVal .ascii]).val.visit = c!"CREATE (p:`Person`), (p) " := by decide +kernel

/-- C47: SET, REMOVE, DELETE and DETACH DELETE of given items. -/
theorem C47_update (k kl : Key) (keyword : Str) (xs : List Val) (hx : ∀ x ∈ xs, x.err = none ∧ Spec.One x.visit) :
    (updateClause k kl keyword xs).val.err = none ∧
    (NoAlias e [k, kl] (updateClause k kl keyword xs).val.visit →
      shownAs e (updateClause k kl keyword xs).val.visit = layout e ([.lit keyword] ++ commas (xs.map (·.visit)) ++ [.lit c!" "])) := by
  have hpe : errsOf xs = none := (errsOf_none_iff _).mpr fun x h => (hx x h).1
  refine ⟨by simp [updateClause, expressionList, hpe, Val.mk'], fun ha => ?_⟩
  refine shown_self (.node k keyword c!" " false [.node kl [] [] true (listTm (xs.map (·.visit)))]) ?_ ?_ ?_ ?_
  · have hpt : Tm.treesL (listTm (xs.map (·.visit))) = visitsOf xs := by rw [listTm_trees, visitsOf, List.flatMap]
    simp [updateClause, expressionList, hpe, Val.mk', Tm.trees, Tm.treesL, hpt]
  · have hpo : Tm.OkL true (listTm (xs.map (·.visit))) := by
      apply listTm_ok
      simp only [List.mem_map, forall_exists_index, and_imp]
      rintro _ x h rfl
      exact (hx x h).2
    simpa [Tm.Ok, Tm.OkL] using hpo
  · intro k' hk'
    apply ha
    simp only [Tm.keys, Tm.keysL, listTm_keys, List.append_nil] at hk'
    exact hk'
  · simp [Tm.parts, Tm.partsL, layout, layout_append, sepText, partsL_commas]

example : shownAs Env.empty (updateClause 1 2 c!"DETACH DELETE " [x, y]).val.visit =
    layout Env.empty ([.lit c!"DETACH DELETE "] ++ commas [x.visit, y.visit] ++ [.lit c!" "]) ∧
    text (updateClause 1 2 c!"DETACH DELETE " [x, y]).val.visit = c!"DETACH DELETE x, y " :=
  ⟨(C47_update 1 2 c!"DETACH DELETE " [x, y] (by simp [x, y, w, Val.mk', Spec.One, leaf, nd])).2 (by unfold NoAlias; decide), by decide +kernel⟩

/-- C47: the keywords. -/
theorem C47_keywords : setKeyword = c!"SET " ∧ removeKeyword = c!"REMOVE " ∧ deleteKeyword false = c!"DELETE " ∧ deleteKeyword true = c!"DETACH DELETE " := by
  decide

/-- C47: labels set on or removed from a named node. -/
theorem C47_labels (guid : Str) (k kl kn : Key) (ks : Nat → Key) (remove : Bool) (n : NodeV) (h : n.err = none ∧ n.notNil = true) (name : Str)
    (hn : n.name = some (kn, name)) (labels : List Str) (hl : labels ≠ []) (hle : ∀ l ∈ labels, l ≠ []) :
    ∃ v, labelOperation u guid k kl ks (if remove then .removeLabel else .setLabel) n labels = v ∧ v.err = none ∧
      (NoAlias e ([k, kl, kn, Op.setLabel.key, Op.removeLabel.key] ++ (List.range labels.length).map ks) v.visit →
        shownAs e v.visit = layout e [.lit (escapeIfNecessary u name ++ labels.flatMap fun l => ':' :: escapeName l)]) := by
  have hv : labelOperation u guid k kl ks (if remove then .removeLabel else .setLabel) n labels =
      .mk' k [nd k [] [] false [leaf kn (escapeIfNecessary u name), (if remove then Op.removeLabel else .setLabel).visit,
        nd kl [] [] false (labels.zipIdx.map fun l => labelVisit (ks l.2, l.1))]] false .operation := by
    simp only [labelOperation, h, hl, hn, pathName, nameVisit, labelsVisit, operationVisit]
    cases remove <;> rfl
  refine ⟨_, rfl, by rw [hv]; rfl, fun ha => ?_⟩
  rw [hv] at ha ⊢
  refine shown_self (.node k [] [] false [.node kn (escapeIfNecessary u name) [] false [], .node (if remove then Op.removeLabel else .setLabel).key [] [] false [],
    .node kl [] [] false (labelTms (labels.zipIdx.map fun l => (ks l.2, l.1)))]) ?_ ?_ ?_ ?_
  · cases remove <;> simp [Tm.trees, Tm.treesL, labelTms_trees, leaf, Val.mk', Op.visit, Op.key, Op.text, Op.type] <;> rfl
  · simp [Tm.Ok, Tm.OkL, labelTms_ok]
  · intro k' hk'
    apply ha
    have hz : (labels.zipIdx.map fun l => (ks l.2, l.1)).map (·.1) = (List.range labels.length).map ks := by
      rw [List.range_eq_range', ← List.zipIdx_map_snd 0 labels, List.map_map, List.map_map]; rfl
    rw [← hz]
    cases remove <;> simp only [Tm.keys, Tm.keysL, labelTms_keys] at hk' <;> simp at hk' ⊢ <;> grind
  · have := labelTms_parts (labels.zipIdx.map fun l => (ks l.2, l.1)) true e [.lit [], .lit []]
    have hm : (labels.zipIdx.map fun l => (ks l.2, l.1)).map (·.2) = labels := by simp [Function.comp_def]
    rw [hm] at this
    have hf : labels.filter (· ≠ []) = labels := by
      rw [List.filter_eq_self]; simpa using hle
    rw [hf] at this
    simp [Tm.parts, Tm.partsL, layout, sepText, this]

example : text (labelOperation .ascii [] 1 2 (fun i => 10 + i) .removeLabel SamplePat.np.run [c!"A", c!"B"]).visit = c!"p:`A`:`B`" := by decide +kernel

/-- C47: a node without name is not refused: the random identifier of the renderer is printed. -/
theorem C47_labels_unnamed : (labelOperation .ascii c!"0c3f" 100 101 (fun i => 200 + i) .setLabel .any [c!"A"]).err = none ∧
    text (labelOperation .ascii c!"0c3f" 100 101 (fun i => 200 + i) .setLabel .any [c!"A"]).visit = c!"0c3f:`A`" := by decide +kernel

/-- C47: UNWIND of an expression that has no alias.  The name is not escaped, see `C47_unwind_unescaped`. -/
theorem C47_unwind_partial (k kn : Key) (x : Val) (hx : x.err = none) (ht : ∀ d a, x.tag ≠ .aliased d a) (name : Str) :
    (unwindCreate u k kn x name).val.err = none ∧
    (NoAlias e [k] (unwindCreate u k kn x name).val.visit →
      shownAs e (unwindCreate u k kn x name).val.visit = layout e [.lit c!"UNWIND ", .hole x.visit, .lit c!" AS ", .lit name, .lit c!" "]) := by
  have hv : (unwindCreate u k kn x name).val.visit = [nd k c!"UNWIND " (c!" AS " ++ name ++ c!" ") false x.visit] := by
    simp only [unwindCreate, hx]
  refine ⟨by simp [unwindCreate, hx], fun ha => ?_⟩
  rw [hv] at ha ⊢
  refine shown_self (.node k c!"UNWIND " (c!" AS " ++ name ++ c!" ") false [.hole x.visit]) ?_ ?_ ?_ ?_
  · simp [Tm.trees, Tm.treesL]
  · simp [Tm.Ok, Tm.OkL]
  · intro k' hk'
    apply ha
    simpa [Tm.keys, Tm.keysL] using hk'
  · simp [Tm.parts, Tm.partsL, layout, sepText]

example : text (unwindCreate .ascii 1 2 x c!"v").val.visit = c!"UNWIND x AS v " ∧
    shownAs Env.empty (unwindCreate .ascii 1 2 x c!"v").val.visit = layout Env.empty [.lit c!"UNWIND ", .hole x.visit, .lit c!" AS ", .lit c!"v", .lit c!" "] :=
  ⟨by decide +kernel, (C47_unwind_partial 1 2 x rfl (by intro d a h; cases h) c!"v").2 (by unfold NoAlias; decide)⟩

/-- C47: of an expression that has an alias, the alias is unwound. -/
theorem C47_unwind_alias (k kn : Key) (x : Val) (hx : x.err = none) (d : List Tree) (a : Str) (ht : x.tag = .aliased d a) (hne : a ≠ [])
    (name : Str) (ha : NoAlias e [k, kn] (unwindCreate u k kn x name).val.visit) :
    shownAs e (unwindCreate u k kn x name).val.visit = layout e [.lit c!"UNWIND ", .lit (escapeIfNecessary u a), .lit c!" AS ", .lit name, .lit c!" "] := by
  have hs : (symbolicName u kn a).visit = [leaf kn (escapeIfNecessary u a)] := by
    rw [symbolicName, if_neg hne]; rfl
  have hv : (unwindCreate u k kn x name).val.visit = [nd k c!"UNWIND " (c!" AS " ++ name ++ c!" ") false [leaf kn (escapeIfNecessary u a)]] := by
    simp only [unwindCreate, hx, ht, hs]
  rw [hv] at ha ⊢
  refine shown_self (.node k c!"UNWIND " (c!" AS " ++ name ++ c!" ") false [.node kn (escapeIfNecessary u a) [] false []]) ?_ ?_ ?_ ?_
  · simp [Tm.trees, Tm.treesL, leaf]
  · simp [Tm.Ok, Tm.OkL]
  · intro k' hk'
    apply ha
    simpa [Tm.keys, Tm.keysL] using hk'
  · simp [Tm.parts, Tm.partsL, layout, sepText]

/-- C47 and C01 fail: the name given to `Unwind(x).As(name)` can be anything. -/
theorem C47_unwind_unescaped : text (unwindCreate .ascii 1 2 x c!"a DELETE b").val.visit = c!"UNWIND x AS a DELETE b " := by decide +kernel

/-- C47: a procedure call, for a name given as one part. -/
theorem C47_call (k kn ka kw kc ky : Key) (name : Str) (args : List Val) (ha : ∀ x ∈ args, x.err = none ∧ Spec.One x.visit) (yields : List Val)
    (hy : ∀ x ∈ yields, x.err = none ∧ Spec.One x.visit) (c : Option Calls) (hc : ∀ x, c = some x → x.Usable) (standalone : Bool) :
    ∃ v, (CallB.mk kc ka kw standalone ⟨k, kn, none, name⟩ (if args = [] then none else some args) (yieldItems ky yields) (c.map Calls.build)).build = .ok v ∧
      v.val.err = none ∧ (NoAlias e [k, ka, kw, kc, ky] v.val.visit →
        shownAs e v.val.visit = layout e ([.lit c!"CALL ", .lit name, .lit c!"("] ++ commas (args.map (·.visit)) ++ [.lit c!")"] ++
          (if yields = [] then [] else .lit c!" YIELD " :: commas (yields.map (·.visit))) ++ whereParts c ++ [.lit c!" "])) := by
  obtain ⟨h1, h2⟩ := where_trees kw c hc
  have hae : errsOf args = none := (errsOf_none_iff _).mpr fun x h => (ha x h).1
  have hye : errsOf yields = none := (errsOf_none_iff _).mpr fun x h => (hy x h).1
  have hat : Tm.treesL (listTm (args.map (·.visit))) = visitsOf args := by rw [listTm_trees, visitsOf, List.flatMap]
  have hyt : Tm.treesL (listTm (yields.map (·.visit))) = visitsOf yields := by rw [listTm_trees, visitsOf, List.flatMap]
  have hcv : errOf ((builtCondition (c.map Calls.build)).map Cond.toVal) = none := by
    cases c with
    | none => simp [builtCondition, errOf]
    | some c =>
      have h1 := (build_ok c (hc c rfl)).val
      cases hb : builtCondition (some c.build) with
      | none => simp [hb, errOf]
      | some d =>
        have : d = c.build := by
          simp only [builtCondition] at hb
          split at hb <;> simp_all
        simp [hb, this, errOf, h1]
  let C := CallB.mk kc ka kw standalone ⟨k, kn, none, name⟩ (if args = [] then none else some args) (yieldItems ky yields) (c.map Calls.build)
  have hA : C.arguments = some { key := ka, visit := [nd ka c!"(" c!")" true (visitsOf args)] } := by
    cases args with
    | nil => simp [C, CallB.arguments, argumentsCreate, hae]
    | cons a as => simp [C, CallB.arguments, argumentsCreate, hae]
  have hY : yieldItems ky yields = if yields = [] then none else some { key := ky, visit := [nd ky c!" YIELD " [] true (visitsOf yields)] } := by
    simp [yieldItems, hye]
  have hb : C.build = .ok ⟨{ key := kc, visit := [nd kc c!"CALL " c!" " false (nd k [] name false [] ::
      nd ka c!"(" c!")" true (visitsOf args) :: ((if yields = [] then [] else [nd ky c!" YIELD " [] true (visitsOf yields)]) ++ Tm.treesL (whereTms' kw c)))] }, false⟩ := by
    have hYe : errOf (yieldItems ky yields) = none := by rw [hY]; split <;> simp [errOf]
    have hYv : visitIfNotNull (yieldItems ky yields) = if yields = [] then [] else [nd ky c!" YIELD " [] true (visitsOf yields)] := by
      rw [hY]; split <;> simp [visitIfNotNull]
    have hAe : errOf (some { key := ka, visit := [nd ka c!"(" c!")" true (visitsOf args)] : Val }) = none := rfl
    have hAv : visitIfNotNull (some { key := ka, visit := [nd ka c!"(" c!")" true (visitsOf args)] : Val }) = [nd ka c!"(" c!")" true (visitsOf args)] := rfl
    simp only [CallB.build, procedureCall, hA]
    simp only [C, hYe, hYv, h1, h2, hcv, hAe, hAv, firstErr, ProcName.visit]
    cases standalone <;> simp
  refine ⟨_, hb, rfl, fun hal => ?_⟩
  refine shown_self (.node kc c!"CALL " c!" " false (.node k [] name false [] :: .node ka c!"(" c!")" true (listTm (args.map (·.visit))) ::
    ((if yields = [] then [] else [.node ky c!" YIELD " [] true (listTm (yields.map (·.visit)))]) ++ whereTms' kw c))) ?_ ?_ ?_ ?_
  · split <;> simp [Tm.trees, Tm.treesL, hat, hyt]
  · have hao : Tm.OkL true (listTm (args.map (·.visit))) := by
      apply listTm_ok
      simp only [List.mem_map, forall_exists_index, and_imp]
      rintro _ x h rfl
      exact (ha x h).2
    have hyo : Tm.OkL true (listTm (yields.map (·.visit))) := by
      apply listTm_ok
      simp only [List.mem_map, forall_exists_index, and_imp]
      rintro _ x h rfl
      exact (hy x h).2
    split <;> simp [Tm.Ok, Tm.OkL, hao, hyo, where_ok kw c]
  · intro k' hk'
    apply hal
    have hw := where_keys kw c k'
    split at hk' <;> simp [Tm.keys, Tm.keysL, listTm_keys] at hk' <;> grind
  · split <;> simp [Tm.parts, Tm.partsL, layout, layout_append, sepText, partsL_commas, where_parts, *]

example : ∃ v, (CallB.mk 1 2 3 true ⟨4, 5, none, c!"labels"⟩ (some [x, y]) (yieldItems 6 [z]) (some c.build)).build = .ok v ∧
    text v.val.visit = c!"CALL labels(x, y) YIELD z WHERE c " := ⟨_, rfl, by decide +kernel⟩

/-- C47 and C34: an erroneous item of YIELD loses all items and the error. -/
theorem C47_yield_error_lost (er : Err) : yieldItems 1 [x, .bad er] = none := rfl

/-- C47: explicit empty arguments are not rendered, unlike no arguments at all. -/
theorem C47_empty_arguments :
    (CallB.mk 1 2 3 true ⟨4, 5, none, c!"labels"⟩ (some []) none none).build.toOption.map (fun v => text v.val.visit) = some c!"CALL labels " ∧
    (CallB.mk 1 2 3 true ⟨4, 5, none, c!"labels"⟩ none none none).build.toOption.map (fun v => text v.val.visit) = some c!"CALL labels() " := by
  decide +kernel

/-! ### C38 Procedure names -/

/-- C38: what `procedureCall("…")` prints for its name.  A name given as one part is printed unchanged, including any dots; see
`C38_parts` for more parts. -/
theorem C38_one_part_partial (k kn : Key) (name : Str) (p : ProcName) (h : procName k kn [name] = .ok p) (ha : NoAlias e [k] p.visit) :
    shownAs e p.visit = layout e [.lit name] := by
  cases h
  refine shown_self (.node k [] name false []) ?_ ?_ ?_ ?_
  · simp [Tm.trees, Tm.treesL, ProcName.visit]
  · simp [Tm.Ok, Tm.OkL]
  · intro k' hk'
    apply ha
    simpa [Tm.keys, Tm.keysL] using hk'
  · simp [Tm.parts, Tm.partsL, layout]

/-- C38 is false: of two parts or more only the last is printed. -/
theorem C38_parts (k kn : Key) (parts : List Str) (h2 : 2 ≤ parts.length) :
    ∃ p, procName k kn parts = .ok p ∧ (NoAlias e [k, kn] p.visit → shownAs e p.visit = layout e [.lit (parts.getLast (by rintro rfl; simp at h2))]) := by
  match parts, h2 with
  | a :: b :: rest, _ =>
    refine ⟨_, rfl, fun ha => ?_⟩
    refine shown_self (.node k [] ((a :: b :: rest).getLast (by simp)) false [.node kn [] [] false []]) ?_ ?_ ?_ ?_
    · simp [Tm.trees, Tm.treesL, ProcName.visit, leaf, join]
    · simp [Tm.Ok, Tm.OkL]
    · intro k' hk'
      apply ha
      simpa [Tm.keys, Tm.keysL] using hk'
    · simp [Tm.parts, Tm.partsL, layout, sepText]

/-- C38 is false: `Call("apoc", "create", "uuid")` calls `uuid`. -/
theorem C38_namespace_lost : (match procName 1 2 [c!"apoc", c!"create", c!"uuid"] with | .ok p => some (text p.visit) | .panic => none) = some c!"uuid" := by
  decide +kernel

/-- C38: a name without parts panics. -/
theorem C38_no_part (k kn : Key) : procName k kn [] = .panic := rfl

/-- C38: `ACallSimple("db.labels")` keeps the dots: the separator is a backslash followed by a dot. -/
theorem C38_simple (k kn : Key) (name : Str) (hne : name ≠ []) (hb : '\\' ∉ name) : callSimple k kn name = procName k kn [name] := by
  have : ∀ s : Str, '\\' ∉ s → splitBackslashDot s = [s] := by
    intro s
    induction s with
    | nil => intro _; rfl
    | cons a r ih =>
      intro h
      simp only [List.mem_cons, not_or] at h
      rw [splitBackslashDot.eq_def]
      split
      · rename_i heq; simp only [List.cons.injEq] at heq; exact absurd heq.1.symm h.1
      · rename_i heq; simp only [List.cons.injEq] at heq; obtain ⟨rfl, rfl⟩ := heq; simp [ih h.2]
      · rename_i heq; simp at heq
  rw [callSimple, if_neg hne, this name hb]

/-- Splitting undoes joining with a backslash and a dot, for parts without a backslash. -/
theorem split_join (parts : List Str) (hne : parts ≠ []) (hb : ∀ p ∈ parts, '\\' ∉ p) :
    splitBackslashDot (join c!"\\." parts) = parts := by
  have key : ∀ (s t : Str), '\\' ∉ s → splitBackslashDot (s ++ '\\' :: '.' :: t) = s :: splitBackslashDot t := by
    intro s t
    induction s with
    | nil => intro _; simp [splitBackslashDot]
    | cons a r ih =>
      intro h
      simp only [List.mem_cons, not_or] at h
      rw [List.cons_append, splitBackslashDot.eq_def]
      split
      · rename_i heq; simp only [List.cons.injEq] at heq; exact absurd heq.1.symm h.1
      · rename_i heq; simp only [List.cons.injEq] at heq; obtain ⟨rfl, rfl⟩ := heq; simp [ih h.2]
      · rename_i heq; simp at heq
  have last : ∀ s : Str, '\\' ∉ s → splitBackslashDot s = [s] := by
    intro s
    induction s with
    | nil => intro _; rfl
    | cons a r ih =>
      intro h
      simp only [List.mem_cons, not_or] at h
      rw [splitBackslashDot.eq_def]
      split
      · rename_i heq; simp only [List.cons.injEq] at heq; exact absurd heq.1.symm h.1
      · rename_i heq; simp only [List.cons.injEq] at heq; obtain ⟨rfl, rfl⟩ := heq; simp [ih h.2]
      · rename_i heq; simp at heq
  induction parts with
  | nil => exact absurd rfl hne
  | cons p rest ih =>
    cases rest with
    | nil => exact last p (hb p (by simp))
    | cons q rest =>
      have e : join c!"\\." (p :: q :: rest) = p ++ '\\' :: '.' :: join c!"\\." (q :: rest) := by simp [join]
      rw [e, key p _ (hb p (by simp)), ih (by simp) (fun x hx => hb x (List.mem_cons_of_mem _ hx))]

/-- C38: the separator of `ACallSimple` is a backslash and a dot: a name joined from parts with it is the name of these parts, and so only the last
part of it is printed (`C38_parts`). -/
theorem C38_simple_parts (k kn : Key) (parts : List Str) (hne : join c!"\\." parts ≠ []) (hb : ∀ p ∈ parts, '\\' ∉ p) :
    callSimple k kn (join c!"\\." parts) = procName k kn parts := by
  rw [callSimple, if_neg hne, split_join parts (by rintro rfl; exact hne rfl) hb]

-- the parts of `apoc\.create\.uuid`
example : callSimple 1 2 c!"apoc\\.create\\.uuid" = procName 1 2 [c!"apoc", c!"create", c!"uuid"] :=
  C38_simple_parts 1 2 [c!"apoc", c!"create", c!"uuid"] (by decide) (by decide)

-- a name that `CallSimple` takes, shown as it is; and one of three parts
example : ∃ p, callSimple 1 2 c!"db.labels" = .ok p ∧ shownAs Env.empty p.visit = layout Env.empty [.lit c!"db.labels"] :=
  ⟨_, C38_simple 1 2 c!"db.labels" (by decide) (by decide), C38_one_part_partial 1 2 c!"db.labels" _ rfl (by unfold NoAlias; decide)⟩
example : ∃ p, procName 1 2 [c!"apoc", c!"create", c!"uuid"] = .ok p ∧ shownAs Env.empty p.visit = layout Env.empty [.lit c!"uuid"] := by
  obtain ⟨p, h, g⟩ := C38_parts (e := Env.empty) 1 2 [c!"apoc", c!"create", c!"uuid"] (by decide)
  cases h
  exact ⟨_, rfl, g (by unfold NoAlias; decide)⟩

/-- C38: as a function a procedure has a dot in front of its name. -/
theorem C38_as_function :
    (match (CallB.mk 1 2 3 true ⟨4, 5, none, c!"f"⟩ (some [x]) none none).asFunction 6 7 with | .ok v => some (text v.visit) | .panic => none) = some c!".f(x)" := by
  decide +kernel

/-- C38 and C34: an empty name is not an error. -/
theorem C38_empty_name :
    (match callSimple 1 2 [] with
    | .ok p => (CallB.mk 1 2 3 true p none none none).build.toOption.map (fun v => (v.val.err, text v.val.visit))
    | .panic => none) = some (none, c!"CALL () ") := by decide +kernel

/-! ### C35 UNION -/

/-- C35: two queries or more. -/
theorem C35_union (k : Key) (ks : Nat → Key) (all : Bool) (qs : List Stmt) (h2 : 2 ≤ qs.length) (hq : ∀ q ∈ qs, q.err = none ∧ q.single) :
    ∃ v, unionImpl k ks all qs = .union v none all true qs ∧
      (NoAlias e (k :: (List.range (qs.length - 1)).map ks) v → shownAs e v = layout e (unionParts all (qs.map Stmt.visit))) := by
  match qs, h2, hq with
  | .union v er a n l :: _ :: _, _, hq => exact absurd (hq (.union v er a n l) (by simp)).2 (by simp [Stmt.single])
  | .query a b c :: r :: rest, h2, hq => exact union_query k ks all _ h2 fun q h => (hq q h).1

/-- C35: adding queries to a union of the same kind gives the union of all queries. -/
theorem C35_extend (k k' : Key) (ks ks' : Nat → Key) (all : Bool) (qs rs : List Stmt) (h2 : 2 ≤ qs.length) (hr : rs ≠ [])
    (hq : ∀ q ∈ qs ++ rs, q.err = none ∧ q.single) :
    ∃ v, unionImpl k' ks' all (unionImpl k ks all qs :: rs) = .union v none all true (qs ++ rs) ∧
      (NoAlias e (k' :: (List.range ((qs ++ rs).length - 1)).map ks') v → shownAs e v = layout e (unionParts all ((qs ++ rs).map Stmt.visit))) := by
  obtain ⟨v, hv, -⟩ := C35_union (e := e) k ks all qs h2 fun q h => hq q (by simp [h])
  have hl : ¬ (Stmt.union v none all true qs :: rs).length < 2 := by
    cases rs with
    | nil => exact absurd rfl hr
    | cons => simp
  rw [hv, unionImpl, if_neg hl]
  simp only [ne_eq, not_true_eq_false, if_false, if_true]
  exact union_query k' ks' all (qs ++ rs) (by simp; omega) fun q h => (hq q h).1

example : text (unionImpl 1 (fun i => 10 + i) false [unionImpl 2 (fun i => 20 + i) false [.query x.visit none true, .query y.visit none true],
    .query z.visit none true]).visit = c!"x UNION y UNION z" := by decide +kernel

/-- C35: fewer than two statements are an error. -/
theorem C35_few (k : Key) (ks : Nat → Key) (all : Bool) (qs : List Stmt) (h : qs.length < 2) : (unionImpl k ks all qs).err ≠ none := by
  simp [unionImpl, h, Stmt.err]

example : (unionImpl 1 (fun i => 10 + i) false [.query x.visit none true]).err ≠ none := C35_few 1 _ false _ (by decide)

/-- C35: extending a union by a union of the other kind is an error. -/
theorem C35_mixed (k k' : Key) (ks ks' : Nat → Key) (all : Bool) (qs rs : List Stmt) (h2 : 2 ≤ qs.length) (hq : ∀ q ∈ qs, q.err = none ∧ q.single) :
    (unionImpl k' ks' (!all) (unionImpl k ks all qs :: rs)).err ≠ none := by
  obtain ⟨v, hv, -⟩ := C35_union (e := ⟨fun _ => none, fun _ => false⟩) k ks all qs h2 hq
  rw [hv, unionImpl]
  split
  · simp [Stmt.err]
  · simp [Stmt.err]

example : (unionImpl 1 (fun i => 10 + i) true [unionImpl 2 (fun i => 20 + i) false [.query x.visit none true, .query y.visit none true],
    .query z.visit none true]).err ≠ none := C35_mixed 2 1 _ _ false _ _ (by decide) (by simp [Stmt.err, Stmt.single])

/-- C35 and C34: an error of a statement is kept, if the first statement is not a union that has an error, see
`C35_erroneous_union_dropped`. -/
theorem C35_errors_partial (k : Key) (ks : Nat → Key) (all : Bool) (qs : List Stmt) (h1 : ∀ q ∈ qs.head?, q.single) (q : Stmt) (hq : q ∈ qs) (he : q.err ≠ none) :
    (unionImpl k ks all qs).err ≠ none := by
  have hf : firstErr (qs.map Stmt.err) ≠ none := by
    rw [ne_eq, firstErr_none_iff]
    intro h
    exact he (h q.err (List.mem_map_of_mem hq))
  match qs, h1, hf with
  | [], _, _ => simp at hq
  | [a], _, _ => simp [unionImpl, Stmt.err]
  | .union v er a n l :: _ :: _, h1, _ => exact absurd (h1 (.union v er a n l) (by simp)) (by simp [Stmt.single])
  | .query v er r :: b :: rest, _, hf =>
    have hu : unionImpl k ks all (.query v er r :: b :: rest) = unionQuery k ks all (.query v er r :: b :: rest) := by
      rw [unionImpl, if_neg (by simp)]
      exact fun _ _ _ _ _ _ h => by simp at h
    rw [hu, unionQuery]
    split
    · simp [Stmt.err]
    · rename_i h; exact absurd h hf

example : (unionImpl 1 (fun i => 10 + i) true [.query x.visit none true, .query [] (some (.other 1)) false]).err ≠ none :=
  C35_errors_partial 1 _ true _ (by simp [Stmt.single]) (.query [] (some (.other 1)) false) (by simp) (by simp [Stmt.err])

/-- C35 is false: a union given as a statement other than the first may be of the other kind. -/
theorem C35_nested_mixed :
    (unionImpl 1 (fun i => 10 + i) false [.query x.visit none true, unionImpl 2 (fun i => 20 + i) true [.query y.visit none true, .query z.visit none true]]).err = none ∧
    text (unionImpl 1 (fun i => 10 + i) false [.query x.visit none true, unionImpl 2 (fun i => 20 + i) true [.query y.visit none true, .query z.visit none true]]).visit =
      c!"x UNION y UNION ALL z" := by decide +kernel

/-- C35 and C34 are false: a union with an error as first statement is dropped and its error is lost. -/
theorem C35_erroneous_union_dropped :
    (unionImpl 2 (fun i => 20 + i) false [.query y.visit none true]).err ≠ none ∧
    (unionImpl 1 (fun i => 10 + i) false [unionImpl 2 (fun i => 20 + i) false [.query y.visit none true], .query x.visit none true, .query z.visit none true]).err = none ∧
    text (unionImpl 1 (fun i => 10 + i) false [unionImpl 2 (fun i => 20 + i) false [.query y.visit none true], .query x.visit none true, .query z.visit none true]).visit =
      c!"x UNION z" := by decide +kernel

example : (∀ q ∈ [Stmt.query x.visit none true, .query y.visit none true, .query z.visit none true], q.err = none ∧ q.single) ∧
    text (unionImpl 1 (fun i => 10 + i) true [.query x.visit none true, .query y.visit none true, .query z.visit none true]).visit =
      c!"x UNION ALL y UNION ALL z" := by
  constructor
  · simp [Stmt.err, Stmt.single]
  · decide +kernel

/-! ### C36 Subqueries -/

/-- C36: a query without WITH is accepted if and only if it has a RETURN, provided that it can be built at all. -/
theorem C36_single (k : Key) (clauses : List Clause) (ret : Option Val) (hr : ∀ r, ret = some r → r.notNil = true) (h : (singlePart clauses ret).err = none) :
    (subqueryCall k (singlePart clauses ret)).val.err = none ↔ ret.isSome := by
  have : (singlePart clauses ret).returns = ret.isSome := by
    cases hret : ret with
    | none =>
      simp only [singlePart]
      split
      · rfl
      · split
        · rfl
        · split <;> rfl
    | some r =>
      have hn := hr r hret
      subst hret
      simp only [singlePart] at h ⊢
      simp only [reduceCtorEq, and_false, if_false] at h ⊢
      split at h
      · simp [Stmt.err] at h
      · rename_i hf
        simp only [Stmt.returns]
        simp [hn]
  simp only [subqueryCall, h, this]
  cases ret.isSome <;> simp [Val.bad]

example : (subqueryCall 1 (singlePart [updateClause 2 3 c!"DELETE " [x]] none)).val.err ≠ none ∧
    (subqueryCall 1 (singlePart [updateClause 2 3 c!"DELETE " [x]] (returnCreate 4 5 false [y] {}))).val.err = none := by decide +kernel

/-- C36: a query of several parts is accepted if and only if its last part is. -/
theorem C36_multi (k : Key) (parts : List PartV) (remainder s : Stmt) (h : multiPart parts remainder = .ok s) :
    (subqueryCall k s).val.err = none ↔ (subqueryCall k remainder).val.err = none := by
  rw [multiPart] at h
  split at h
  · cases h
  · rename_i hf
    rw [firstErr_none_iff] at hf
    have hr := hf remainder.err (by simp)
    cases h
    have he : ∀ v r, (Stmt.query v none r).err = none ∧ (Stmt.query v none r).returns = r := fun _ _ => ⟨rfl, rfl⟩
    simp only [subqueryCall, hr, he]
    cases remainder.returns <;> simp [Val.bad]

/-- C36: a procedure call is accepted if and only if it yields something. -/
theorem C36_call (k ky : Key) (b : CallB) (yields : List Val) (hy : ∀ x ∈ yields, x.err = none) (hb : b.yields = yieldItems ky yields)
    (v : Clause) (hv : v.val.err = none) : (subqueryCall k (b.stmt v)).val.err = none ↔ yields ≠ [] := by
  have hye : errsOf yields = none := (errsOf_none_iff _).mpr hy
  simp only [subqueryCall, CallB.stmt, Stmt.err, hv, Stmt.returns, hb, yieldItems, hye]
  cases yields <;> simp [Val.bad]

/-- C36: an accepted statement is rendered in braces; a statement with an error is not accepted. -/
theorem C36_layout (k : Key) (s : Stmt) (h : (subqueryCall k s).val.err = none) :
    s.err = none ∧ (NoAlias e [k] (subqueryCall k s).val.visit → shownAs e (subqueryCall k s).val.visit = layout e [.lit c!"CALL {", .hole s.visit, .lit c!"} "]) := by
  cases hs : s.err with
  | some er => simp [subqueryCall, hs, Val.bad] at h
  | none =>
    cases hr : s.returns with
    | false => simp [subqueryCall, hs, hr, Val.bad] at h
    | true =>
      refine ⟨rfl, fun ha => ?_⟩
      refine shown_self (.node k c!"CALL {" c!"} " false [.hole s.visit]) ?_ ?_ ?_ ?_
      · simp [subqueryCall, hs, hr, Tm.trees, Tm.treesL]
      · simp [Tm.Ok, Tm.OkL]
      · intro k' hk'
        apply ha
        simpa [Tm.keys, Tm.keysL] using hk'
      · simp [Tm.parts, Tm.partsL, layout, sepText]

example : text (subqueryCall 1 (singlePart [updateClause 2 3 c!"DELETE " [x]] (returnCreate 4 5 false [y] {}))).val.visit = c!"CALL {DELETE x RETURN y} " := by
  decide +kernel

/-- C36 is false: a union of queries that return nothing is accepted. -/
theorem C36_union (k k' : Key) (ks : Nat → Key) (all : Bool) (qs : List Stmt) (h2 : 2 ≤ qs.length) (hq : ∀ q ∈ qs, q.err = none ∧ q.single) :
    (subqueryCall k (unionImpl k' ks all qs)).val.err = none := by
  obtain ⟨v, hv, -⟩ := C35_union (e := ⟨fun _ => none, fun _ => false⟩) k' ks all qs h2 hq
  simp [subqueryCall, hv, Stmt.err, Stmt.returns]

example : (∀ q ∈ [Stmt.query x.visit none false, .query y.visit none false], q.err = none ∧ q.single ∧ q.returns = false) ∧
    text (subqueryCall 1 (unionImpl 2 (fun i => 10 + i) false [.query x.visit none false, .query y.visit none false])).val.visit = c!"CALL {x UNION y} " := by
  constructor
  · simp [Stmt.err, Stmt.single, Stmt.returns]
  · decide +kernel

/-! ### C47 Whole queries -/

/-- C47: a query without WITH is the sequence of its clauses and the RETURN; it cannot end in a MATCH. -/
theorem C47_single (clauses : List Clause) (ret : Option Val) (hc : ∀ c ∈ clauses, c.val.err = none) (hr : ∀ r, ret = some r → Good r) :
    ((singlePart clauses ret).err = none ↔ ret.isSome ∨ ∃ h : clauses ≠ [], (clauses.getLast h).isMatch = false) ∧
    ((singlePart clauses ret).err = none → (singlePart clauses ret).visit = clauses.flatMap (·.val.visit) ++ ret.elim [] (·.visit)) := by
  have hf : firstErr (clauses.map (·.val.err) ++ [errOf ret]) = none := by
    rw [firstErr_none_iff]
    intro x hx
    simp only [List.mem_append, List.mem_map, List.mem_singleton] at hx
    rcases hx with ⟨c, hc', rfl⟩ | rfl
    · exact hc c hc'
    · cases hret : ret with
      | none => rfl
      | some r => exact (hr r hret).1
  have hv : visitIfNotNull ret = ret.elim [] (·.visit) := by
    cases hret : ret with
    | none => rfl
    | some r => simp [visitIfNotNull, (hr r hret).2]
  cases hret : ret with
  | some r =>
    subst hret
    simp [singlePart, hf, Stmt.err, Stmt.visit, hv]
  | none =>
    subst hret
    rcases List.eq_nil_or_concat clauses with rfl | ⟨l, a, rfl⟩
    · simp [singlePart, Stmt.err]
    · simp only [List.concat_eq_append] at hf ⊢
      have hf' : firstErr (l.map (·.val.err) ++ [a.val.err, errOf none]) = none := by simpa using hf
      cases hm : a.isMatch <;> simp [singlePart, hm, hf', Stmt.err, Stmt.visit, visitIfNotNull]

/-- C47 and C34: an error of a clause or of the RETURN is an error of the query. -/
theorem C47_single_error (clauses : List Clause) (ret : Option Val) (h : (∃ c ∈ clauses, c.val.err ≠ none) ∨ ∃ r, ret = some r ∧ r.err ≠ none) :
    (singlePart clauses ret).err ≠ none := by
  have hf : firstErr (clauses.map (·.val.err) ++ [errOf ret]) ≠ none := by
    rw [ne_eq, firstErr_none_iff]
    intro hh
    rcases h with ⟨c, hc, he⟩ | ⟨r, rfl, he⟩
    · exact he (hh _ (by simp only [List.mem_append, List.mem_map]; exact .inl ⟨c, hc, rfl⟩))
    · exact he (hh _ (by simp [errOf]))
  rw [singlePart]
  split
  · simp [Stmt.err]
  · split
    · simp [Stmt.err]
    · split
      · simp [Stmt.err]
      · rename_i h; exact absurd h hf

example : (singlePart [matchCreate 1 2 false [SamplePat.np.run.toVal .ascii] (some c.build)] (returnCreate 3 4 false [x] {})).err = none ∧
    text (singlePart [matchCreate 1 2 false [SamplePat.np.run.toVal .ascii] (some c.build)] (returnCreate 3 4 false [x] {})).visit =
      c!"MATCH (p:`Person`) WHERE c RETURN x" := by decide +kernel

end

end Verif
