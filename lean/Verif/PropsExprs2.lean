import Verif.PropsExprs

/-
The rest of C43, C44 and C45: tests, comprehensions, list predicates, lists, property access, conditions on patterns.
-/

namespace Verif
open Spec SampleExpr

section
variable {e : Env}

/-! ### C43 -/

/-- C43: `IsEmpty` compares the size with 0. -/
theorem C43_isEmpty (kf ka kn k kl kr : Key) (x : Val) (hx : Good x) (h1 : Spec.One x.visit) :
    ∃ v, isEmpty kf ka kn k kl kr (some x) = .ok v ∧ v.err = none ∧ v.isCond = true ∧
      (NoAlias e [kf, ka, kn, k, Op.equality.key] v.visit → shownAs e v.visit = layout e [.lit c!"size(", .hole x.visit, .lit c!") = 0"]) := by
  have hf : fn1 .size kf ka (some x) = .ok (invocation kf ka c!"size" x.visit) := by
    simp [fn1, Fn1.def', functionInvocation, scanArgs, hx.1, hx.2, Outcome.map, Except.map, visitsOf, fnSize]
  refine ⟨_, by rw [isEmpty, hf]; rfl, rfl, rfl, ?_⟩
  intro ha
  refine shown_self (.node k [] [] false [.node kf c!"size(" c!")" false [.node ka [] [] true [.hole x.visit]],
    .node Op.equality.key Op.equality.text [] false [], .node kn c!"0" [] false []]) ?_ ?_ ?_ ?_
  · show (comparisonCreate k kl kr _ _ _).visit = _
    rw [comparisonCreate_ok ⟨rfl, rfl⟩ ⟨rfl, rfl⟩]
    have : intLiteralText 0 = c!"0" := by decide +kernel
    simp [Val.mk', Tm.trees, Tm.treesL, operandTm, invocation, intLiteral, leaf, this, CompareMethod.op]
  · simpa [Tm.Ok, Tm.OkL, Tm.trees] using h1
  · intro k' hk'
    apply ha
    simp [Tm.keys, Tm.keysL] at hk' ⊢
    rcases hk' with h | h | h | h | h <;> simp [h]
  · simp [Tm.parts, Tm.partsL, layout, sepText, layout_append, Op.text, Op.type, Op.repr]

example : (match isEmpty 200 201 202 203 204 205 (some wa) with | .ok v => text v.visit | .panic => []) = c!"size(a) = 0" := by decide +kernel

/-- C43: `IsTrue`, `IsFalse`. -/
theorem C43_isTrue (b : Bool) (kb k kl kr : Key) (x : Val) (hx : Good x) (hc : x.isCond = false)
    (ha : NoAlias e [kb, k, Op.equality.key] x.visit) :
    shownAs e (isTrue b kb k kl kr (some x)).visit = layout e [.hole x.visit, .lit c!" = ", .lit (if b then c!"true" else c!"false")] := by
  have hv : (isTrue b kb k kl kr (some x)).visit = (Tm.node k [] [] false [.hole x.visit,
    .node Op.equality.key Op.equality.text [] false [], .node kb (if b then c!"true" else c!"false") [] false []]).trees := by
    rw [isTrue, compare, comparisonCreate_ok hx ⟨rfl, rfl⟩]
    simp [Val.mk', Tm.trees, Tm.treesL, operandTm, hc, boolLiteral, leaf, CompareMethod.op, boolText]
  refine shown_self _ hv (by simp [Tm.Ok, Tm.OkL]) ?_ ?_
  · intro k' hk'
    have := ha k' (by simp [Tm.keys, Tm.keysL] at hk' ⊢; rcases hk' with h | h | h <;> simp [h])
    rw [hv, Tm.dkeys_holes]
    simpa [Tm.holes, Tm.holesL] using this
  · simp [Tm.parts, Tm.partsL, layout, sepText, Op.text, Op.type, Op.repr]

example : text (isTrue false 200 203 204 205 (some wa)).visit = c!"a = false" := by decide +kernel

/-- C43: `MatchesPattern`, with the pattern as a string literal. -/
theorem C43_matchesPattern (ks k kl kr : Key) (x : Val) (p : Str) (hx : Good x) (hc : x.isCond = false)
    (ha : NoAlias e [ks, k, Op.matches.key] x.visit) :
    shownAs e (matchesPattern ks k kl kr (some x) p).visit = layout e [.hole x.visit, .lit c!" =~ ", .lit (stringLiteralText p)] := by
  have hv : (matchesPattern ks k kl kr (some x) p).visit = (Tm.node k [] [] false [.hole x.visit,
    .node Op.matches.key Op.matches.text [] false [], .node ks (stringLiteralText p) [] false []]).trees := by
    rw [matchesPattern, compare, comparisonCreate_ok hx ⟨rfl, rfl⟩]
    simp [Val.mk', Tm.trees, Tm.treesL, operandTm, hc, stringLiteral, leaf, CompareMethod.op]
  refine shown_self _ hv (by simp [Tm.Ok, Tm.OkL]) ?_ ?_
  · intro k' hk'
    have := ha k' (by simp [Tm.keys, Tm.keysL] at hk' ⊢; rcases hk' with h | h | h <;> simp [h])
    rw [hv, Tm.dkeys_holes]
    simpa [Tm.holes, Tm.holesL] using this
  · simp [Tm.parts, Tm.partsL, layout, sepText, Op.text, Op.type, Op.repr]

example : text (matchesPattern 200 203 204 205 (some wa) c!"it's.*").visit = c!"a =~ 'it\\'s.*'" := by decide +kernel

/-! ### C44 -/

/-- C44: `all`, `any`, `none`, `single`, for parts without errors. -/
theorem C44_quantified_partial (guid : Str) (q : Quantifier) (k kf ka kp kw : Key) (x list c : Val) (hx : Good x) (hl : Good list) (hc : Good c) :
    ∃ v, quantified guid q k kf ka kp kw (some x) (some list) (some c) = .ok v ∧ v.err = none ∧
      (NoAlias e [kf, ka, kp, kw, Op.in_.key] v.visit → shownAs e v.visit =
        layout e [.lit (quantifierName q), .lit c!"(", .hole x.visit, .lit c!" IN ", .hole list.visit, .lit c!" WHERE ", .hole c.visit, .lit c!")"]) := by
  have hp : listPredicate kp x list (whereCreate kw c) =
      .mk' kp [nd kp [] [] false (x.visit ++ [Op.in_.visit] ++ list.visit ++ [nd kw c!" WHERE " [] false c.visit])] := by
    simp [listPredicate, whereCreate, hx.1, hl.1, hc.1]
  refine ⟨.mk' k (invocation kf ka (quantifierName q) [nd kp [] [] false (x.visit ++ [Op.in_.visit] ++ list.visit ++
    [nd kw c!" WHERE " [] false c.visit])]).visit true, ?_, rfl, ?_⟩
  · have hd : q.def'.name = quantifierName q := by cases q <;> rfl
    simp only [quantified, hc.2, hl.2, hx.2, missing, hp, functionInvocation, scanArgs, Val.mk', Outcome.map, Except.map, visitsOf,
      booleanFunction, Bool.not_true, if_true, Bool.false_eq_true, if_false, List.flatMap_cons, List.flatMap_nil, List.append_nil, hd]
    rfl
  · intro ha
    refine shown_self (.node kf (quantifierName q ++ c!"(") c!")" false [.node ka [] [] true [.node kp [] [] false
      [.hole x.visit, .node Op.in_.key Op.in_.text [] false [], .hole list.visit, .node kw c!" WHERE " [] false [.hole c.visit]]]]) ?_ ?_ ?_ ?_
    · simp [invocation, Val.mk', Tm.trees, Tm.treesL, Op.visit, leaf]
    · simp [Tm.Ok, Tm.OkL, Tm.trees, Spec.One, nd]
    · intro k' hk'
      apply ha
      simp [Tm.keys, Tm.keysL] at hk' ⊢
      rcases hk' with h | h | h | h | h <;> simp [h]
    · simp [Tm.parts, Tm.partsL, layout, sepText, layout_append, Op.text, Op.type, Op.repr]

example : (match quantified c!"#" .single 200 201 202 203 204 (some wa) (some wb) (some (isNull 300 301 (some wc))) with
    | .ok v => text v.visit | .panic => []) = c!"single(a IN b WHERE c IS NULL)" := by decide +kernel

/-- The error of a list or of a condition of a list predicate is lost: no error, and nothing between the parentheses. -/
theorem C44_quantified_error_lost :
    (∃ v, quantified c!"#" .all 200 201 202 203 204 (some wa) (some { wb with err := some (.other 7) }) (some wc) = .ok v ∧ v.err = none ∧ text v.visit = c!"()") ∧
    (∃ v, quantified c!"#" .all 200 201 202 203 204 (some wa) (some wb) (some { wc with err := some (.other 7) }) = .ok v ∧ v.err = none ∧ text v.visit = c!"()") :=
  ⟨⟨_, rfl, rfl, by decide +kernel⟩, ⟨_, rfl, rfl, by decide +kernel⟩⟩

/-- The missing variable of a list predicate is not an error: the name of the predicate is lost, and the random identifier of the
renderer stands for the variable. -/
theorem C44_quantified_no_variable :
    ∃ v, quantified c!"#" .all 200 201 202 203 204 none (some wb) (some wc) = .ok v ∧ v.err = none ∧ text v.visit = c!"(# IN b WHERE c)" :=
  ⟨_, rfl, rfl, by decide +kernel⟩

/-- A missing list makes rendering panic; a missing condition is an error.  Missing is a nil pointer as well as an empty value. -/
theorem C44_quantified_missing (guid : Str) (q : Quantifier) (k kf ka kp kw : Key) (x list c : Option Val) :
    (missing list = true → missing c = false → quantified guid q k kf ka kp kw x list c = .panic) ∧
    (missing c = true → ∃ v er, quantified guid q k kf ka kp kw x list c = .ok v ∧ v.err = some er) := by
  constructor
  · intro h1 h2
    cases c with
    | none => simp [missing] at h2
    | some c =>
      cases list with
      | none => simp [missing] at h2; simp [quantified, h2]
      | some l => simp [missing] at h1 h2; simp [quantified, h1, h2]
  · intro h
    cases c with
    | none => exact ⟨_, _, rfl, rfl⟩
    | some c => simp [missing] at h; simp [quantified, h, Val.bad]

example : missing (some wc) = false ∧ missing (some { wc with notNil := false }) = true := by decide +kernel

/-- The definition of a comprehension: one expression as it is, none or several as a list. -/
def Spec.definitionParts : List Val → List Part
  | [d] => [.hole d.visit]
  | ds => [.lit c!"["] ++ commas (ds.map (·.visit)) ++ [.lit c!"]"]

/-- The term of a definition. -/
def definitionTm (kl kc : Key) : List Val → Tm
  | [d] => .hole d.visit
  | ds => .node kl c!"[" c!"]" false [.node kc [] [] true (listTm (ds.map (·.visit)))]

theorem definitionTm_facts {kl kc : Key} {ds : List Val} (hd : ∀ d ∈ ds, d.err = none) (h1 : ∀ d ∈ ds, Spec.One d.visit) :
    (listOrSingle kl kc ds).visit = (definitionTm kl kc ds).trees ∧ (listOrSingle kl kc ds).err = none ∧ (definitionTm kl kc ds).Ok ∧
    (∀ k ∈ (definitionTm kl kc ds).keys, k = kl ∨ k = kc) ∧ ∀ e, layout e (definitionTm kl kc ds).parts = layout e (definitionParts ds) := by
  have many : ∀ ds : List Val, (∀ d ∈ ds, d.err = none) → (∀ d ∈ ds, Spec.One d.visit) →
      (listExpression kl kc ds).visit = (Tm.node kl c!"[" c!"]" false [.node kc [] [] true (listTm (ds.map (·.visit)))]).trees ∧
      (listExpression kl kc ds).err = none ∧ (Tm.node kl c!"[" c!"]" false [.node kc [] [] true (listTm (ds.map (·.visit)))]).Ok ∧
      (∀ k ∈ (Tm.node kl c!"[" c!"]" false [.node kc [] [] true (listTm (ds.map (·.visit)))]).keys, k = kl ∨ k = kc) ∧
      ∀ e, layout e (Tm.node kl c!"[" c!"]" false [.node kc [] [] true (listTm (ds.map (·.visit)))]).parts =
        layout e ([.lit c!"["] ++ commas (ds.map (·.visit)) ++ [.lit c!"]"]) := by
    intro ds hd h1
    have he : errsOf ds = none := (errsOf_none_iff _).mpr hd
    have hl : listExpression kl kc ds = .mk' kl [nd kl c!"[" c!"]" false [nd kc [] [] true (visitsOf ds)]] := by
      simp [listExpression, expressionList, he, Val.mk']
    refine ⟨?_, by rw [hl]; rfl, ?_, ?_, ?_⟩
    · rw [hl]
      simp [Val.mk', Tm.trees, Tm.treesL, listTm_trees, visitsOf_flatten]
    · simp only [Tm.Ok, Tm.OkL, true_and, and_true, Bool.false_eq_true, false_implies]
      exact listTm_ok (by simpa using h1)
    · simp [Tm.keys, Tm.keysL, listTm_keys]
    · intro e
      simp [Tm.parts, Tm.partsL, layout, layout_append, partsL_commas, sepText]
  match ds with
  | [d] => exact ⟨by simp [listOrSingle, definitionTm, Tm.trees], hd d (by simp), by simp [definitionTm, Tm.Ok],
      by simp [definitionTm, Tm.keys], fun e => by simp [definitionTm, definitionParts, Tm.parts]⟩
  | [] => exact many [] hd h1
  | d :: d' :: ds => exact many (d :: d' :: ds) hd h1

/-- The term of WHERE. -/
def whereTms (kw : Key) : Option (List Tree) → List Tm
  | some ts => [.node kw c!" WHERE " [] false [.hole ts]]
  | none => []

/-- The term of the part after `|`. -/
def pipeTms (kl kc : Key) : Option (List Val) → List Tm
  | some ds => [.node Op.pipe.key Op.pipe.text [] false [], definitionTm kl kc ds]
  | none => []

/-- C44: list comprehensions, for parts without errors.  Missing: a condition with an error, for which it is false
(`C44_condition_lost`). -/
theorem C44_listWith_partial (k kw kl kc : Key) (x list : Val) (c : Option Val) (definition : Option (List Val)) (hx : x.err = none) (_hl : list.err = none)
    (hc : ∀ c', c = some c' → c'.err = none) (hd : ∀ ds, definition = some ds → ∀ d ∈ ds, d.err = none ∧ Spec.One d.visit) :
    (listWith k kw kl kc x list c definition).err = none ∧
    (NoAlias e [k, kw, kl, kc, Op.in_.key, Op.pipe.key] (listWith k kw kl kc x list c definition).visit →
      shownAs e (listWith k kw kl kc x list c definition).visit =
        layout e ([.lit c!"[", .hole x.visit, .lit c!" IN ", .hole list.visit] ++
          (match c with | some c => [.lit c!" WHERE ", .hole c.visit] | none => []) ++
          (match definition with | some ds => .lit c!" | " :: definitionParts ds | none => []) ++ [.lit c!"]"])) := by
  have hw : visitIfNotNull (c.map (whereCreate kw)) = Tm.treesL (whereTms kw (c.map (·.visit))) := by
    cases c with
    | none => simp [visitIfNotNull, Tm.treesL, whereTms]
    | some c => simp [visitIfNotNull, whereCreate, hc c rfl, Tm.treesL, Tm.trees, whereTms]
  constructor
  · simp [listWith, listComprehensionCreate, hx, Val.mk']
  · intro ha
    refine shown_self (.node k c!"[" c!"]" false ([.hole x.visit, .node Op.in_.key Op.in_.text [] false [], .hole list.visit] ++
      (whereTms kw (c.map (·.visit)) ++
      pipeTms kl kc definition))) ?_ ?_ ?_ ?_
    · cases definition with
      | none => simp [listWith, listComprehensionCreate, hx, Val.mk', Tm.trees, Tm.treesL, hw, pipeTms, Op.visit, leaf]
      | some ds =>
        have := (definitionTm_facts (kl := kl) (kc := kc) (fun d hd' => (hd ds rfl d hd').1) (fun d hd' => (hd ds rfl d hd').2)).1
        simp [listWith, listComprehensionCreate, hx, Val.mk', Tm.trees, Tm.treesL, treesL_append, hw, pipeTms, Op.visit, leaf, this]
    · cases definition with
      | none => cases c <;> simp [whereTms, pipeTms, Tm.Ok, Tm.OkL]
      | some ds =>
        have := (definitionTm_facts (kl := kl) (kc := kc) (fun d hd' => (hd ds rfl d hd').1) (fun d hd' => (hd ds rfl d hd').2)).2.2.1
        cases c <;> simp [whereTms, pipeTms, Tm.Ok, Tm.OkL, this]
    · intro k' hk'
      apply ha
      cases definition with
      | none =>
        cases c with
        | none => simp [whereTms, pipeTms, Tm.keys, Tm.keysL] at hk' ⊢; rcases hk' with h | h <;> simp [h]
        | some c => simp [whereTms, pipeTms, Tm.keys, Tm.keysL] at hk' ⊢; rcases hk' with h | h | h <;> simp [h]
      | some ds =>
        have := (definitionTm_facts (kl := kl) (kc := kc) (fun d hd' => (hd ds rfl d hd').1) (fun d hd' => (hd ds rfl d hd').2)).2.2.2.1 k'
        cases c with
        | none =>
          simp [whereTms, pipeTms, Tm.keys, Tm.keysL] at hk' ⊢
          rcases hk' with h | h | h | h
          · simp [h]
          · simp [h]
          · simp [h]
          · rcases this h with h | h <;> simp [h]
        | some c =>
          simp [whereTms, pipeTms, Tm.keys, Tm.keysL] at hk' ⊢
          rcases hk' with h | h | h | h | h
          · simp [h]
          · simp [h]
          · simp [h]
          · simp [h]
          · rcases this h with h | h <;> simp [h]
    · cases definition with
      | none => cases c <;> simp [whereTms, pipeTms, Tm.parts, Tm.partsL, layout, sepText, layout_append, Op.text, Op.type, Op.repr]
      | some ds =>
        have := (definitionTm_facts (kl := kl) (kc := kc) (fun d hd' => (hd ds rfl d hd').1) (fun d hd' => (hd ds rfl d hd').2)).2.2.2.2
        cases c <;> simp [whereTms, pipeTms, Tm.parts, Tm.partsL, layout, sepText, layout_append, Op.text, Op.type, Op.repr, this]

example : text (listWith 200 201 202 203 wa wb (some (isNull 300 301 (some wc))) (some [wa, wd])).visit =
    c!"[a IN b WHERE c IS NULL | [a, d]]" ∧ text (listWith 200 201 202 203 wa wb none none).visit = c!"[a IN b]" := by decide +kernel

/-- C44 fails for comprehensions: a condition with an error is dropped without error, and elements without condition are taken.
The error of a definition is lost as well, and a missing variable is printed as the random identifier of the renderer. -/
theorem C44_condition_lost :
    ((listWith 200 201 202 203 wa wb (some (.bad (.other 7) true)) none).err = none ∧
      text (listWith 200 201 202 203 wa wb (some (.bad (.other 7) true)) none).visit = c!"[a IN b]") ∧
    ((listWith 200 201 202 203 wa wb none (some [.bad (.other 7), wd])).err = none ∧
      text (listWith 200 201 202 203 wa wb none (some [.bad (.other 7), wd])).visit = c!"[a IN b | []]") ∧
    ((listComprehensionWith c!"#" 200 201 202 203 { wa with notNil := false } wb none none).err = none ∧
      text (listComprehensionWith c!"#" 200 201 202 203 { wa with notNil := false } wb none none).visit = c!"[# IN b]") := by
  refine ⟨⟨rfl, ?_⟩, ⟨rfl, ?_⟩, rfl, ?_⟩ <;> decide +kernel

/-- C44: pattern comprehensions, for parts without errors and conditions that were not taken out by `Get()`. -/
theorem C44_pattern_partial (k kw kl kc : Key) (pattern : Val) (c : Option Cond) (ds : List Val) (hp : pattern.notNil = true) (_he : pattern.err = none)
    (hc : ∀ c', builtCondition c = some c' → c'.toVal.err = none) (hd : ∀ d ∈ ds, d.err = none ∧ Spec.One d.visit) :
    ∃ v, patternComprehension k kw kl kc pattern c ds = .ok v ∧ v.err = none ∧
      (NoAlias e [k, kw, kl, kc, Op.pipe.key] v.visit → shownAs e v.visit =
        layout e ([.lit c!"[", .hole pattern.visit] ++
          (match builtCondition c with | some c => [.lit c!" WHERE ", .hole c.toVal.visit] | none => []) ++
          .lit c!" | " :: definitionParts ds ++ [.lit c!"]"])) := by
  have hf := definitionTm_facts (kl := kl) (kc := kc) (fun d hd' => (hd d hd').1) (fun d hd' => (hd d hd').2)
  refine ⟨_, by simp only [patternComprehension, hp, Bool.not_true, Bool.false_eq_true, if_false]; rfl, rfl, ?_⟩
  intro ha
  generalize hb : builtCondition c = b at *
  have hw : visitIfNotNull (b.map fun c => whereCreate kw c.toVal) =
      Tm.treesL (whereTms kw (b.map (·.toVal.visit))) := by
    cases b with
    | none => simp [visitIfNotNull, Tm.treesL, whereTms]
    | some c => simp [visitIfNotNull, whereCreate, hc c rfl, Tm.treesL, Tm.trees, whereTms]
  refine shown_self (.node k c!"[" c!"]" false (.hole pattern.visit ::
      (whereTms kw (b.map (·.toVal.visit)) ++
      [.node Op.pipe.key Op.pipe.text [] false [], definitionTm kl kc ds]))) ?_ ?_ ?_ ?_
  · simp [patternComprehensionCreate, Val.mk', Tm.trees, Tm.treesL, treesL_append, hw, pipeTms, Op.visit, leaf, hf.1]
  · cases b <;> simp [whereTms, pipeTms, Tm.Ok, Tm.OkL, hf.2.2.1]
  · intro k' hk'
    apply ha
    cases b with
    | none =>
      simp [whereTms, pipeTms, Tm.keys, Tm.keysL] at hk' ⊢
      rcases hk' with h | h | h
      · simp [h]
      · simp [h]
      · rcases hf.2.2.2.1 k' h with h | h <;> simp [h]
    | some c =>
      simp [whereTms, pipeTms, Tm.keys, Tm.keysL] at hk' ⊢
      rcases hk' with h | h | h | h
      · simp [h]
      · simp [h]
      · simp [h]
      · rcases hf.2.2.2.1 k' h with h | h <;> simp [h]
  · cases b <;> simp [whereTms, pipeTms, Tm.parts, Tm.partsL, layout, sepText, layout_append, Op.text, Op.type, Op.repr, hf.2.2.2.2]

example : ∃ v, patternComprehension 1 2 3 4 wa none [wb, wc] = .ok v ∧ v.err = none ∧ text v.visit = c!"[a | [b, c]]" := ⟨_, rfl, rfl, by decide +kernel⟩

/-! ### C45 -/

/-- C45: lists of expressions (`ListOf`) and list literals. -/
theorem C45_lists (k kl : Key) (xs : List Val) (hx : ∀ x ∈ xs, x.err = none) :
    ((listExpression k kl xs).err = none ∧ ((∀ x ∈ xs, Spec.One x.visit) → NoAlias e [k, kl] (listExpression k kl xs).visit →
      shownAs e (listExpression k kl xs).visit = layout e ([.lit c!"["] ++ commas (xs.map (·.visit)) ++ [.lit c!"]"]))) ∧
    ((listLiteral k xs).err = none ∧ (NoAlias e [k] (listLiteral k xs).visit →
      shownAs e (listLiteral k xs).visit = layout e ([.lit c!"["] ++ commas (xs.map (·.visit)) ++ [.lit c!"]"]))) := by
  have he : errsOf xs = none := (errsOf_none_iff _).mpr hx
  refine ⟨⟨by simp [listExpression, expressionList, he, Val.mk'], fun h1 ha => ?_⟩, by simp [listLiteral, he], fun ha => ?_⟩
  · have hl : listExpression k kl xs = .mk' k [nd k c!"[" c!"]" false [nd kl [] [] true (visitsOf xs)]] := by
      simp [listExpression, expressionList, he, Val.mk']
    refine shown_self (.node k c!"[" c!"]" false [.node kl [] [] true (listTm (xs.map (·.visit)))]) ?_ ?_ ?_ ?_
    · rw [hl]
      simp [Val.mk', Tm.trees, Tm.treesL, listTm_trees, visitsOf_flatten]
    · simp only [Tm.Ok, Tm.OkL, true_and, and_true, Bool.false_eq_true, false_implies]
      exact listTm_ok (by simpa using h1)
    · intro k' hk'
      apply ha
      simpa [Tm.keys, Tm.keysL, listTm_keys] using hk'
    · simp [Tm.parts, Tm.partsL, layout, layout_append, partsL_commas, sepText]
  · refine shown_self (listLiteralTm k xs) ?_ ?_ ?_ (listLiteral_parts k xs e)
    · simp [listLiteral, he, listLiteral_trees]
    · simp [listLiteralTm, Tm.Ok, rawTms_ok]
    · intro k' hk'
      apply ha
      simpa [listLiteralTm, Tm.keys, rawTms_keys] using hk'

example : text (listExpression 200 201 [wa, wb, wc]).visit = c!"[a, b, c]" ∧ text (listLiteral 200 [intLiteral 201 1, stringLiteral 202 c!"x"]).visit =
    c!"[1, 'x']" ∧ text (listLiteral 200 []).visit = c!"[]" := by decide +kernel

/-- C45: an element with an error is an error. -/
theorem C45_lists_error (k kl : Key) (xs : List Val) (h : ∃ x ∈ xs, x.err ≠ none) :
    (listExpression k kl xs).err ≠ none ∧ (listLiteral k xs).err ≠ none := by
  have he : errsOf xs ≠ none := by
    intro h0
    obtain ⟨x, hx, h1⟩ := h
    exact h1 ((errsOf_none_iff _).mp h0 x hx)
  cases h1 : errsOf xs with
  | none => exact absurd h1 he
  | some er => simp [listExpression, expressionList, listLiteral, h1, Val.bad]

example : (listExpression 1 2 [wa, wx, wb]).err ≠ none ∧ (listLiteral 1 [wa, wx, wb]).err ≠ none := C45_lists_error 1 2 _ ⟨wx, by simp, by simp [wx, Val.bad]⟩

/-- C45: property access. -/
theorem C45_property (u : Unicode) (k kl : Key) (container : Val) (name : Str) (hc : container.err = none) (hn : name ≠ []) :
    (propertyCreate2 u k kl (some container) name).err = none ∧
    (NoAlias e [k, kl] (propertyCreate2 u k kl (some container) name).visit → shownAs e (propertyCreate2 u k kl (some container) name).visit =
      layout e [.hole container.visit, .lit c!".", .lit (if name = c!"*" then name else escapeIfNecessary u name)]) := by
  have h : propertyCreate2 u k kl (some container) name = propertyCreate1 u k kl container name := by simp [propertyCreate2, hc, hn]
  rw [h]
  refine ⟨by simp [propertyCreate1, hc, Val.mk'], fun ha => ?_⟩
  refine shown_self (.node k [] [] false [.hole container.visit, .node kl (lookupText u name) [] false []]) ?_ ?_ ?_ ?_
  · simp [propertyCreate1, hc, Val.mk', Tm.trees, Tm.treesL, propertyLookup, leaf]
  · simp [Tm.Ok, Tm.OkL]
  · intro k' hk'
    apply ha
    simpa [Tm.keys, Tm.keysL] using hk'
  · by_cases hs : name = c!"*" <;> simp [Tm.parts, Tm.partsL, layout, sepText, lookupText, hs]

example : text (propertyCreate2 .ascii 200 201 (some (propertyCreate2 .ascii 202 203 (some wa) c!"x y")) c!"z").visit = c!"a.`x y`.z" := by decide +kernel

/-- C45: a missing or faulty container, or an empty name, is an error. -/
theorem C45_property_error (u : Unicode) (k kl : Key) (container : Option Val) (name : Str)
    (h : container = none ∨ (∃ c, container = some c ∧ c.err ≠ none) ∨ name = []) : (propertyCreate2 u k kl container name).err ≠ none := by
  rcases h with h | ⟨c, h, h1⟩ | h <;> subst h
  · simp [propertyCreate2, propertyError, Val.bad]
  · cases he : c.err with
    | none => exact absurd he h1
    | some er => simp [propertyCreate2, propertyError, he, Val.bad]
  · cases container with
    | none => simp [propertyCreate2, propertyError, Val.bad]
    | some c => cases he : c.err <;> simp [propertyCreate2, propertyError, he, Val.bad]

example : (propertyCreate2 .ascii 1 2 (some wx) c!"name").err ≠ none ∧ (propertyCreate2 .ascii 1 2 (some wa) []).err ≠ none ∧
    (propertyCreate2 .ascii 1 2 (some wa) c!"name").err = none := by decide

/-- C45: conditions on patterns and existential subqueries. -/
theorem C45_patterns (k : Key) (p : Val) (hp : p.err = none) :
    ((excludedPattern k p).err = none ∧ (NoAlias e [k, Op.not.key] (excludedPattern k p).visit →
      shownAs e (excludedPattern k p).visit = layout e [.lit c!"NOT ", .hole p.visit])) ∧
    ((patternCondition k p).err = none ∧ (NoAlias e [k] (patternCondition k p).visit →
      shownAs e (patternCondition k p).visit = layout e [.hole p.visit])) ∧
    ((existentialSubquery k p).err = none ∧ (NoAlias e [k] (existentialSubquery k p).visit →
      shownAs e (existentialSubquery k p).visit = layout e [.lit c!"EXISTS {", .hole p.visit, .lit c!"}"])) := by
  refine ⟨⟨by simp [excludedPattern, hp, Val.mk'], fun ha => ?_⟩, ⟨by simp [patternCondition, hp, Val.mk'], fun ha => ?_⟩,
    by simp [existentialSubquery, hp, Val.mk'], fun ha => ?_⟩
  · refine shown_self (.node k [] [] false [.node Op.not.key Op.not.text [] false [], .hole p.visit]) ?_ ?_ ?_ ?_
    · simp [excludedPattern, hp, Val.mk', Tm.trees, Tm.treesL, Op.visit, leaf]
    · simp [Tm.Ok, Tm.OkL]
    · intro k' hk'
      apply ha
      simpa [Tm.keys, Tm.keysL] using hk'
    · simp [Tm.parts, Tm.partsL, layout, sepText, Op.text, Op.type, Op.repr]
  · refine shown_self (.node k [] [] false [.hole p.visit]) ?_ ?_ ?_ ?_
    · simp [patternCondition, hp, Val.mk', Tm.trees, Tm.treesL]
    · simp [Tm.Ok, Tm.OkL]
    · intro k' hk'
      apply ha
      simpa [Tm.keys, Tm.keysL] using hk'
    · simp [Tm.parts, Tm.partsL, layout, sepText]
  · refine shown_self (.node k c!"EXISTS {" c!"}" false [.hole p.visit]) ?_ ?_ ?_ ?_
    · simp [existentialSubquery, hp, Val.mk', Tm.trees, Tm.treesL]
    · simp [Tm.Ok, Tm.OkL]
    · intro k' hk'
      apply ha
      simpa [Tm.keys, Tm.keysL] using hk'
    · simp [Tm.parts, Tm.partsL, layout, sepText]

example : text (excludedPattern 200 wa).visit = c!"NOT a" ∧ text (existentialSubquery 200 wa).visit = c!"EXISTS {a}" := by decide +kernel

/-- C45: an error of the pattern is an error of the condition. -/
theorem C45_patterns_error (k : Key) (p : Val) (hp : p.err ≠ none) :
    (excludedPattern k p).err = p.err ∧ (patternCondition k p).err = p.err ∧ (existentialSubquery k p).err = p.err := by
  cases h : p.err with
  | none => exact absurd h hp
  | some er => simp [excludedPattern, patternCondition, existentialSubquery, h, Val.bad]

example : (excludedPattern 1 wx).err = some (.other 7) ∧ (patternCondition 1 wx).err = some (.other 7) := by decide

/-- C45: `exists(...)` for a property without error.  An error of the property is lost (`C45_exists_error_lost`). -/
theorem C45_exists_partial (k kf ka : Key) (p : Val) (hp : Good p) (h1 : Spec.One p.visit) :
    ∃ v, predicateExists k kf ka p = .ok v ∧ v.err = none ∧
      (NoAlias e [kf, ka] v.visit → shownAs e v.visit = layout e [.lit c!"exists(", .hole p.visit, .lit c!")"]) := by
  have hf : functionInvocation kf ka fnExists [some p] = .ok (invocation kf ka c!"exists" [p.visit].flatten) := by
    simp [functionInvocation, scanArgs, hp.1, hp.2, Outcome.map, Except.map, visitsOf, fnExists]
  refine ⟨_, by rw [predicateExists, hf]; rfl, rfl, fun ha => ?_⟩
  have := call_layout (e := e) (k := kf) (ka := ka) (name := c!"exists") (xs := [p.visit]) (by simpa using h1) ha
  exact this.trans (by simp [callParts, commas, sepParts, layout])

example : ∃ v, predicateExists 1 2 3 wa = .ok v ∧ v.err = none ∧ text v.visit = c!"exists(a)" := ⟨_, rfl, rfl, by decide +kernel⟩

theorem C45_exists_error_lost :
    ∃ v, predicateExists 200 201 202 (propertyError .ascii (.other 7)) = .ok v ∧ v.err = none ∧ text v.visit = c!"()" := ⟨_, rfl, rfl, by decide +kernel⟩

end

/-- C45 fails for list literals as operands: what their methods (`As`, `IsEqualTo`, ...) see as the receiver counts as nil, and the result is
always an error. -/
theorem C45_list_literal_operand (k : Key) (xs : List Val) (hx : ∀ x ∈ xs, x.err = none) (m : CompareMethod) (k' kl kr : Key) (r : Option Val) (u : Unicode) (a : Str) :
    (listLiteral k xs).copy.map (·.1) = some false ∧
    ∀ v : Val, (listLiteral k xs).copy = some (v.notNil, v.visit) → v.err = none →
      (compare m k' kl kr (some v) r).err ≠ none ∧ (aliasedCreate u k' (some v) a).err ≠ none := by
  have he : errsOf xs = none := (errsOf_none_iff _).mpr hx
  refine ⟨by simp [listLiteral, he], ?_⟩
  intro v hv hve
  have hn : v.notNil = false := by simp [listLiteral, he] at hv; exact hv.1
  refine ⟨?_, by simp [aliasedCreate, hn, Val.bad]⟩
  cases r with
  | none => simp [compare, comparisonCreate, firstErr, errOf, nilErr, missing, hn, hve, Val.bad]
  | some w => cases hw : w.err <;> simp [compare, comparisonCreate, firstErr, errOf, nilErr, missing, hn, hve, hw, Val.bad]

example : (listLiteral 1 [wa, wb]).recv.map (fun v => ((compare .isEqualTo 2 3 4 (some v) (some wa)).err.isSome, (aliasedCreate .ascii 5 (some v) c!"x").err.isSome)) =
    some (true, true) := by decide

section
open Spec

/-- C10, C15: `As` accepts exactly a usable expression and an alias that is not empty; -/
theorem C10_as_accepted (u : Unicode) (k : Key) (d : Option Val) (a : Str) :
    (aliasedCreate u k d a).err = none ↔ ∃ v, d = some v ∧ v.notNil = true ∧ v.err = none ∧ a ≠ [] := by
  unfold aliasedCreate
  cases d with
  | none => simp [Val.bad]
  | some v =>
    cases hn : v.notNil <;> cases he : v.err <;> by_cases ha : a = [] <;> simp [Val.bad, Val.mk', hn, he, ha]

/-- and where neither the expression nor the alias was used before, the result is shown as the expression, `AS` and the alias, after which
the alias counts as defined. -/
theorem C10_as_text (u : Unicode) (k : Key) {v : Val} (hv : v.err = none ∧ v.notNil = true) {a : Str} (ha : a ≠ []) {e : Env}
    (h1 : e.al k = none) (h2 : e.al v.key = none) :
    (shownAs e (aliasedCreate u k (some v) a).visit).1 = (shownAs e v.visit).1 ++ c!" AS " ++ escapeIfNecessary u a ∧
    (shownAs e (aliasedCreate u k (some v) a).visit).2.al v.key = some ⟨k, v.key, escapeIfNecessary u a⟩ := by
  simp [aliasedCreate, hv.1, hv.2, ha, Val.mk', shownAs, denL, den, shown, h1, h2, described, Kind.isSub, defined, Vis.asAlias, sepText]

example : (aliasedCreate .ascii 9 (some (stringLiteral 1 c!"x")) c!"the name").err = none ∧
    text (aliasedCreate .ascii 9 (some (stringLiteral 1 c!"x")) c!"the name").visit = c!"'x' AS `the name`" := by decide +kernel
example : (aliasedCreate .ascii 9 (some (stringLiteral 1 c!"x")) []).err ≠ none := by decide +kernel

end

end Verif
