import Verif.ProjLemmas
import Verif.ArithLemmas

/-
C21-C24, C41, C44, C45 and the rest of C43: expressions.

In all theorems the hypothesis `NoAlias` says that nobody has given an alias to the objects the constructors create.
-/

namespace Verif
open Spec

namespace SampleExpr
/-- An expression that is printed as the given word. -/
def word (k : Key) (s : Str) : Val := .mk' k [leaf k s]
def wa : Val := word 101 c!"a"
def wb : Val := word 102 c!"b"
def wc : Val := word 103 c!"c"
def wd : Val := word 104 c!"d"
def wx : Val := .bad (.other 7)
theorem word_good (k : Key) (s : Str) : Good (word k s) := ⟨rfl, rfl⟩
end SampleExpr
open SampleExpr

/-! ### C21 -/

/-- How a CASE expression begins: with or without subject. -/
def Spec.caseStart (k : Key) : Option Val → CaseV
  | none => CaseV.start k
  | some s => CaseV.simple k (some s)

/-- C21, for calls of `When`/`Then` and after them any calls of `ElseDefault`, with arguments without errors: the text is CASE, the
subject, the branches in the order of the calls, the last default, END.  Missing: calls of `When` after `ElseDefault`, for which
it is false (`C21_else_lost`). -/
theorem C21_case_partial (k : Key) (subject : Option Val) (hs : ∀ s, subject = some s → Good s) (bs : List Branch)
    (hb : ∀ b ∈ bs, b.w.err = none ∧ b.t.err = none) (ds : List (Key × Val)) (hd : ∀ d ∈ ds, d.2.err = none) :
    ∃ c, runCase (caseStart k subject) (bs.map Branch.call ++ ds.map fun d => .els d.1 d.2) = .ok c ∧ c.err = none ∧
      ∀ e, NoAlias e (k :: bs.flatMap (fun b => [b.k, b.kw]) ++ ds.map (·.1)) c.visit →
        shownAs e c.visit = layout e (caseParts subject bs (ds.getLast?.map (·.2))) := by
  have h0 : caseStart k subject = caseVal k subject [] none := by
    cases subject with
    | none => rfl
    | some s => simp [caseStart, CaseV.simple, errOf, (hs s rfl).1, caseVal]
  refine ⟨caseVal (lastKey k bs) subject bs ds.getLast?, ?_, rfl, ?_⟩
  · rw [h0, run_whens k subject hs [] bs none hb, run_els _ _ _ _ _ hd]
    simp
  · intro e ha
    have hdk : dkeysL (caseVal (lastKey k bs) subject bs ds.getLast?).visit =
        dkeysL (visitIfNotNull subject ++ (bs.map fun b => (b.kw, b.w, b.t)).flatMap CaseV.branchVisit ++ CaseV.elseVisit ds.getLast?) := by
      simp only [CaseV.visit, dkeysL_nd, caseVal]
    refine case_layout hs ha ?_ ?_ ?_ ?_ ?_ ?_
    · rcases List.mem_cons.mp (lastKey_mem k bs) with h | h
      · rw [h]; simp
      · obtain ⟨b, hb', h⟩ := List.mem_map.mp h
        rw [← h]
        simp only [List.cons_append, List.mem_cons, List.mem_append, List.mem_flatMap]
        exact Or.inr (Or.inl ⟨b, hb', by simp⟩)
    · intro b hb'
      simp only [List.cons_append, List.mem_cons, List.mem_append, List.mem_flatMap]
      exact Or.inr (Or.inl ⟨b, hb', by simp⟩)
    · intro d hd'
      simp only [List.mem_append, List.mem_map]
      exact Or.inr ⟨d, List.mem_of_getLast? hd', rfl⟩
    · intro s hs' k' hk'
      rw [hdk]
      simp [visitIfNotNull, hs', (hs s hs').2, dkeysL_append, hk']
    · intro k' hk'
      rw [hdk]
      have : ∀ bs : List Branch, dkeysL ((bs.map fun b => (b.kw, b.w, b.t)).flatMap CaseV.branchVisit) =
          dkeysL (bs.flatMap fun b => b.w.visit ++ b.t.visit) := by
        intro bs
        induction bs with
        | nil => rfl
        | cons b bs ih => simp [List.flatMap_cons, dkeysL_append, ih, CaseV.branchVisit, dkeysL, dkeys_nd]
      simp [dkeysL_append, this, hk']
    · intro d hd' k' hk'
      rw [hdk]
      simp [dkeysL_append, hd', CaseV.elseVisit, dkeysL_nd, hk']

/-- `CASE a WHEN b THEN c WHEN c THEN d ELSE a END` -/
example : (do
    let c ← match runCase (caseStart 200 (some wa)) [.when 201 202 wb wc, .when 203 204 wc wd, .els 205 wa] with
      | .ok c => some c | .panic => none
    some (text c.visit)) = some c!"CASE a WHEN b THEN c WHEN c THEN d ELSE a END" := by decide +kernel
example : (do
    let c ← match runCase (caseStart 200 none) [.when 201 202 wb wc] with
      | .ok c => some c | .panic => none
    some (text c.visit)) = some c!"CASE WHEN b THEN c END" := by decide +kernel

/-- C21 fails if `When` is called after `ElseDefault`: whatever the default was and whatever was called before and is called
after it, the default is lost. -/
theorem C21_else_lost (c : CaseV) (ke : Key) (d : Val) (hd : d.err = none) (k kw : Key) (w t : Val) (cs : List CaseCall) :
    runCase c (.els ke d :: .when k kw w t :: cs) = runCase c (.when k kw w t :: cs) := by
  simp [runCase, CaseV.elseDefault, hd, CaseV.whenThen]

/-- An argument with an error makes the CASE expression carry that error. -/
theorem C21_error (c : CaseV) (k kw : Key) (w x : Val) (hw : w.err = none) (er : Err) (hx : x.err = some er) :
    (∃ c', c.whenThen k kw w x = .ok c' ∧ c'.err = if (∃ s, c.subject = some s ∧ s.notNil = true ∧ s.err ≠ none) then errOf c.subject else some er) ∧
    (c.elseDefault k x).err = some er ∧ (CaseV.simple k (some x)).err = some er := by
  refine ⟨?_, by simp [CaseV.elseDefault, hx, CaseV.bad], by simp [CaseV.simple, errOf, hx, CaseV.bad]⟩
  simp only [CaseV.whenThen, hw, CaseV.ending]
  refine ⟨_, rfl, ?_⟩
  cases hsub : c.subject with
  | none => simp [hx, CaseV.bad]
  | some s =>
    cases hn : s.notNil with
    | false => simp [hx, CaseV.bad, hn]
    | true =>
      cases he : s.err with
      | none => simp [hx, CaseV.bad, hn, he]
      | some e => simp [CaseV.bad, hn, he, errOf]

example : ∃ c', (CaseV.simple 1 (some wa)).whenThen 2 3 wb wx = .ok c' ∧ c'.err = some (.other 7) := ⟨_, rfl, by decide⟩

/-- But the error, and all branches before, are forgotten by the next `When`/`Then`: `CaseExpression(a).When(b).Then(x).When(c).Then(d)`
where `x` has an error is rendered without any error as `CASE WHEN c THEN d END`. -/
theorem C21_error_lost :
    ∃ c, runCase (caseStart 200 (some wa)) [.when 201 202 wb wx, .when 203 204 wc wd] = .ok c ∧ c.err = none ∧
      text c.visit = c!"CASE WHEN c THEN d END" := ⟨_, rfl, rfl, by decide +kernel⟩

/-- `When` of an expression with an error makes `Then` panic. -/
theorem C21_when_panics (c : CaseV) (k kw : Key) (w t : Val) (er : Err) (hw : w.err = some er) : c.whenThen k kw w t = .panic := by
  simp [CaseV.whenThen, hw]

/-! ### C22 -/

section
variable {e : Env} {k kd : Key}

theorem access_layout {t : Val} {a b : Option Val} {d : Bool} (ha : NoAlias e [k, kd, 35] (listOperatorCreate k kd t a d b).visit)
    (hga : ∀ v, a = some v → v.notNil = true) (hgb : ∀ v, b = some v → v.notNil = true) :
    shownAs e (listOperatorCreate k kd t a d b).visit =
      layout e ([.hole t.visit, .lit c!"["] ++ (match a with | some v => [.hole v.visit] | none => []) ++
        (if d then [.lit c!".."] else []) ++ (match b with | some v => [.hole v.visit] | none => []) ++ [.lit c!"]"]) := by
  let o : Option Val → List Tm := fun x => match x with | some v => [.hole v.visit] | none => []
  have ho : ∀ x : Option Val, (∀ v, x = some v → v.notNil = true) → Tm.treesL (o x) = visitIfNotNull x := by
    intro x hx
    cases x with
    | none => rfl
    | some v => simp [o, Tm.treesL, Tm.trees, visitIfNotNull, hx v rfl]
  refine shown_self (.node k [] [] false [.hole t.visit, .node kd c!"[" c!"]" false
    (o a ++ (if d then [.node 35 c!".." [] false []] else []) ++ o b)]) ?_ ?_ ?_ ?_
  · cases d <;> simp [listOperatorCreate, Val.mk', Tm.trees, Tm.treesL, treesL_append, ho a hga, ho b hgb, dots, leaf]
  · cases a <;> cases b <;> cases d <;> simp [o, Tm.Ok, Tm.OkL]
  · intro k' hk'
    apply ha
    revert hk'
    cases a <;> cases b <;> cases d <;> simp [o, Tm.keys, Tm.keysL] <;> (intro h; rcases h with h | h <;> simp [h])
  · cases a <;> cases b <;> cases d <;> simp [o, Tm.parts, Tm.partsL, layout, sepText, layout_append]

/-- C22: the four forms of list access. -/
theorem C22_access {t a b : Val} (ht : Good t) (hga : Good a) (hgb : Good b) :
    (NoAlias e [k, kd, 35] (valueAt k kd (some t) (some a)).visit → (valueAt k kd (some t) (some a)).err = none ∧
      shownAs e (valueAt k kd (some t) (some a)).visit = layout e [.hole t.visit, .lit c!"[", .hole a.visit, .lit c!"]"]) ∧
    (NoAlias e [k, kd, 35] (subList k kd (some t) (some a) (some b)).visit → (subList k kd (some t) (some a) (some b)).err = none ∧
      shownAs e (subList k kd (some t) (some a) (some b)).visit =
        layout e [.hole t.visit, .lit c!"[", .hole a.visit, .lit c!"..", .hole b.visit, .lit c!"]"]) ∧
    (NoAlias e [k, kd, 35] (subListFrom k kd (some t) (some a)).visit → (subListFrom k kd (some t) (some a)).err = none ∧
      shownAs e (subListFrom k kd (some t) (some a)).visit =
        layout e [.hole t.visit, .lit c!"[", .hole a.visit, .lit c!"..", .lit c!"]"]) ∧
    (NoAlias e [k, kd, 35] (subListUntil k kd (some t) (some b)).visit → (subListUntil k kd (some t) (some b)).err = none ∧
      shownAs e (subListUntil k kd (some t) (some b)).visit =
        layout e [.hole t.visit, .lit c!"[", .lit c!"..", .hole b.visit, .lit c!"]"]) := by
  have h1 : valueAt k kd (some t) (some a) = listOperatorCreate k kd t (some a) false none := by
    simp [valueAt, firstErr, errOf, nilErr, missing, ht.1, ht.2, hga.1, hga.2]
  have h2 : subList k kd (some t) (some a) (some b) = listOperatorCreate k kd t (some a) true (some b) := by
    simp [subList, firstErr, errOf, nilErr, missing, ht.1, ht.2, hga.1, hga.2, hgb.1, hgb.2]
  have h3 : subListFrom k kd (some t) (some a) = listOperatorCreate k kd t (some a) true none := by
    simp [subListFrom, firstErr, errOf, nilErr, missing, ht.1, ht.2, hga.1, hga.2]
  have h4 : subListUntil k kd (some t) (some b) = listOperatorCreate k kd t none true (some b) := by
    simp [subListUntil, firstErr, errOf, nilErr, missing, ht.1, ht.2, hgb.1, hgb.2]
  rw [h1, h2, h3, h4]
  refine ⟨fun h => ⟨rfl, ?_⟩, fun h => ⟨rfl, ?_⟩, fun h => ⟨rfl, ?_⟩, fun h => ⟨rfl, ?_⟩⟩ <;>
    rw [access_layout h (by simp [hga.2]) (by simp [hgb.2])] <;> simp

example : text (subListFrom 200 201 (some wa) (some wb)).visit = c!"a[b..]" ∧
    text (subListUntil 200 201 (some wa) (some wb)).visit = c!"a[..b]" ∧
    text (subList 200 201 (some wa) (some wb) (some wc)).visit = c!"a[b..c]" ∧
    text (valueAt 200 201 (some wa) (some wb)).visit = c!"a[b]" := by decide +kernel

/-- C22: a missing argument or one with an error is an error. -/
theorem C22_errors (t a b : Option Val) :
    ((valueAt k kd t a).err = none ↔ (∃ v, t = some v ∧ Good v) ∧ ∃ v, a = some v ∧ Good v) ∧
    ((subList k kd t a b).err = none ↔ (∃ v, t = some v ∧ Good v) ∧ (∃ v, a = some v ∧ Good v) ∧ ∃ v, b = some v ∧ Good v) ∧
    ((subListFrom k kd t a).err = none ↔ (∃ v, t = some v ∧ Good v) ∧ ∃ v, a = some v ∧ Good v) ∧
    ((subListUntil k kd t b).err = none ↔ (∃ v, t = some v ∧ Good v) ∧ ∃ v, b = some v ∧ Good v) := by
  refine ⟨?_, ?_, ?_, ?_⟩
  · rcases t with _ | ⟨_, _, _ | _, _ | _, _, _, _⟩ <;> rcases a with _ | ⟨_, _, _ | _, _ | _, _, _, _⟩ <;>
      simp [valueAt, firstErr, errOf, nilErr, missing, Good, Val.bad, listOperatorCreate, Val.mk']
  · rcases t with _ | ⟨_, _, _ | _, _ | _, _, _, _⟩ <;> rcases a with _ | ⟨_, _, _ | _, _ | _, _, _, _⟩ <;>
      rcases b with _ | ⟨_, _, _ | _, _ | _, _, _, _⟩ <;>
      simp [subList, firstErr, errOf, nilErr, missing, Good, Val.bad, listOperatorCreate, Val.mk']
  · rcases t with _ | ⟨_, _, _ | _, _ | _, _, _, _⟩ <;> rcases a with _ | ⟨_, _, _ | _, _ | _, _, _, _⟩ <;>
      simp [subListFrom, firstErr, errOf, nilErr, missing, Good, Val.bad, listOperatorCreate, Val.mk']
  · rcases t with _ | ⟨_, _, _ | _, _ | _, _, _, _⟩ <;> rcases b with _ | ⟨_, _, _ | _, _ | _, _, _, _⟩ <;>
      simp [subListUntil, firstErr, errOf, nilErr, missing, Good, Val.bad, listOperatorCreate, Val.mk']

end

/-! ### C23 -/

section
variable (u : Unicode)

/-- C23: a map literal is accepted exactly if its arguments are keys and values in turn, no key twice, and all values are of a
supported type and without errors. -/
theorem C23_accepted (k : Key) (ks : Nat → Key) (objects : List Obj) :
    (∃ v, newMapExpression u k ks objects = .ok v ∧ v.err = none) ↔
      ∃ es, objects = entryArgs es ∧ (es.map (·.key)).Nodup ∧ ∀ x ∈ es, Supported x.value := by
  constructor
  · rintro ⟨v, h, hv⟩
    unfold newMapExpression at h
    split at h
    · cases h; simp [Val.bad] at hv
    · rename_i hlen
      cases hm : mapEntries u ks [] 0 objects with
      | panic => rw [hm] at h; simp [Outcome.map] at h
      | ok r =>
        rw [hm] at h
        simp only [Outcome.map, Outcome.ok.injEq] at h
        cases r with
        | error er => subst h; simp [Val.bad] at hv
        | ok vs =>
          simp only at h
          subst h
          have hvs : ∀ v ∈ vs, v.err = none := by
            apply (errsOf_none_iff vs).mp
            unfold mapExpression at hv
            split at hv
            · simp [Val.bad] at hv
            · assumption
          obtain ⟨es, h1, h2, -, h4⟩ := mapEntries_conv u ks [] 0 objects (by omega) vs hm hvs
          exact ⟨es, h1, h2, h4⟩
  · rintro ⟨es, rfl, hn, hs⟩
    have hlen : (entryArgs es).length % 2 = 0 := by
      clear hn hs
      induction es with
      | nil => rfl
      | cons x es ih => simp only [entryArgs, List.flatMap_cons, List.length_append, List.length_cons, List.length_nil] at ih ⊢; omega
    refine ⟨mapExpression k (entryVals u ks 0 es), ?_, ?_⟩
    · rw [newMapExpression, if_neg (by omega), mapEntries_ok u ks [] 0 es hs hn (by simp)]
      rfl
    · simp [mapExpression, (errsOf_none_iff _).mpr (entryTms_facts u ks 0 es hs).2.2.2, Val.mk']

/-- C23: the text of a map literal has all its entries in order. -/
theorem C23_text {e : Env} (k : Key) (ks : Nat → Key) (es : List Entry) (hn : (es.map (·.key)).Nodup) (hs : ∀ x ∈ es, Supported x.value)
    (v : Val) (hv : newMapExpression u k ks (entryArgs es) = .ok v)
    (ha : ∀ k', (k' = k ∨ k' = 33 ∨ ∃ j, k' = ks j) → e.al k' = none ∧ k' ∉ dkeysL v.visit) :
    shownAs e v.visit = layout e ([.lit c!"{"] ++
      sepParts c!", " (es.map fun x => [.lit (escapeIfNecessary u x.key), .lit c!": "] ++ objParts x.value) ++ [.lit c!"}"]) := by
  have hlen : (entryArgs es).length % 2 = 0 := by
    clear hn hs hv
    induction es with
    | nil => rfl
    | cons x es ih => simp only [entryArgs, List.flatMap_cons, List.length_append, List.length_cons, List.length_nil] at ih ⊢; omega
  rw [newMapExpression, if_neg (by omega), mapEntries_ok u ks [] 0 es hs hn (by simp)] at hv
  simp only [Outcome.map, Outcome.ok.injEq] at hv
  obtain ⟨h1, h2, h3, h4⟩ := entryTms_facts u ks 0 es hs
  subst hv
  have he := (errsOf_none_iff _).mpr h4
  refine shown_self (.node k c!"{" c!"}" true (entryTms u ks 0 es)) ?_ ?_ ?_ ?_
  · simp [mapExpression, he, Val.mk', Tm.trees, h1]
  · simpa [Tm.Ok] using h2
  · intro k' hk'
    apply ha
    simp only [Tm.keys, List.mem_cons] at hk'
    rcases hk' with h | h
    · exact Or.inl h
    · exact Or.inr (h3 k' h)
  · simp only [Tm.parts, List.cons_append, List.nil_append, layout, layout_append, partsL_sep,
      sepParts_congr c!", " (entryTms_parts u ks 0 es hs)]

/-- `{name: 'x', age: 3, tags: ['a', 'b']}` -/
example : (match newMapExpression .ascii 200 (fun i => 300 + i)
      [.str c!"name", .str c!"x", .str c!"age", .int 3, .str c!"tags", .literals [stringLiteral 105 c!"a", stringLiteral 106 c!"b"]] with
    | .ok v => text v.visit | .panic => []) = c!"{name: 'x', age: 3, tags: ['a', 'b']}" := by decide +kernel

/-- A value of any other type makes `MapOf` run for ever. -/
theorem C23_unsupported (k : Key) (ks : Nat → Key) (key : Str) : newMapExpression u k ks [.str key, .unsupported] = .panic := by
  simp [newMapExpression, mapEntries, mapValue, literalOf, Outcome.bind, Outcome.map]

end

/-! ### C24 -/

section
variable (u : Unicode)

/-- C24: a map projection made by `Project` and any number of calls of `And` renders the name and all items in order. -/
theorem C24_text (name : Val) (hname : name.err = none) (g : Group) (gs : List Group) (hg : ∀ g' ∈ g :: gs, g'.Ok) :
    ∃ p, projectRun u name g gs = .ok p ∧ p.val.err = none ∧
      ∀ e, (∀ k', (∃ g' ∈ g :: gs, k' = g'.k ∨ k' = g'.km ∨ (∃ j, k' = g'.ks j) ∨ k' ∈ g'.items.flatMap Item.keys) →
          e.al k' = none ∧ k' ∉ dkeysL p.val.visit) →
        shownAs e p.val.visit = layout e ([.hole name.visit, .lit c!"{"] ++
          sepParts c!", " (((g :: gs).flatMap (·.items)).map (Item.parts u)) ++ [.lit c!"}"]) := by
  obtain ⟨k, km, hk, hkm, hp⟩ := projectRun_ok u name hname g gs hg
  obtain ⟨h1, h2, h3, h4, h5⟩ := groupTms_facts u (g :: gs) hg
  have he := (errsOf_none_iff _).mpr h4
  refine ⟨_, hp, rfl, ?_⟩
  intro e ha
  refine shown_self (projectionTm k km name (groupTms u (g :: gs))) ?_ ?_ ?_ ?_
  · simp [projectionVal, projectionTm, mapExpression, he, Val.mk', Tm.trees, Tm.treesL, h1]
  · simpa [projectionTm, Tm.Ok, Tm.OkL] using h2
  · intro k' hk'
    apply ha
    simp only [projectionTm, Tm.keys, Tm.keysL, List.nil_append, List.append_nil, List.mem_cons] at hk'
    rcases hk' with rfl | rfl | h
    · obtain ⟨g', hg', rfl⟩ := List.mem_map.mp hk; exact ⟨g', hg', Or.inl rfl⟩
    · obtain ⟨g', hg', rfl⟩ := List.mem_map.mp hkm; exact ⟨g', hg', Or.inr (Or.inl rfl)⟩
    · obtain ⟨g', hg', h⟩ := h3 k' h
      exact ⟨g', hg', Or.inr (Or.inr h)⟩
  · simp only [projectionTm, Tm.parts, Tm.partsL, List.cons_append, List.nil_append, layout, layout_append, partsL_sep, sepText,
      sepParts_congr c!", " h5]
    simp

/-- `n{.name, .*, m, age: a}` and then `And(..)` with `total: b` -/
example : (match projectRun .ascii (symbolicName .ascii 110 c!"n")
      ⟨200, 201, fun i => 300 + i, [.prop c!"name", .pair c!"k" wa, .all, .var 111 c!"m", .property 112 113 wa c!"age", .named 114 c!"r"]⟩
      [⟨202, 203, fun i => 400 + i, [.aliased 115 wb c!"total"]⟩] with
    | .ok p => text p.val.visit | .panic => []) = c!"n{.name, k: a, .*, m, .age, r, total: b}" := by decide +kernel

/-- C24, for one call of `Project` or `And`: two pairs with the same key are an error. -/
theorem C24_duplicate_partial (name : Val) (hname : name.err = none) (g : Group) (hx : ∀ x ∈ g.items, x.Ok) (hs : Separate g.items)
    (hd : ¬ (g.items.filterMap Item.pairKey).Nodup) (p : Projection) :
    (∃ p er, mapProjectionCreate u g.k g.km g.ks name (g.content u) = .ok p ∧ p.val.err = some er) ∧
    ∃ p' er, mapProjectionAnd u p g.k g.km g.ks (g.content u) = .ok p' ∧ p'.val.err = some er := by
  obtain ⟨er, her⟩ := contentLoop_duplicate u g.ks [] 0 g.items hx hs hd
  have hc : createNewContent u g.ks (g.content u) = .ok (.error er) := her
  refine ⟨⟨⟨name, [], .bad er⟩, er, by simp [mapProjectionCreate, hname, hc, Outcome.map], rfl⟩, ?_⟩
  cases hp : p.val.err with
  | some e => exact ⟨p, e, by simp [mapProjectionAnd, hp], hp⟩
  | none => exact ⟨⟨p.name, [], .bad er⟩, er, by simp [mapProjectionAnd, hp, hc, Outcome.map], rfl⟩

/-- C24 fails for equal keys in different calls, for equal aliases, and for an alias that is also a key: no error. -/
theorem C24_duplicate_missed :
    (∃ p, projectRun .ascii wa ⟨200, 201, fun i => 300 + i, [.pair c!"k" wb]⟩ [⟨202, 203, fun i => 400 + i, [.pair c!"k" wc]⟩] = .ok p ∧
      p.val.err = none ∧ text p.val.visit = c!"a{k: b, k: c}") ∧
    (∃ p, projectRun .ascii wa ⟨200, 201, fun i => 300 + i, [.pair c!"k" wb, .aliased 210 wc c!"k", .aliased 211 wd c!"k"]⟩ [] = .ok p ∧
      p.val.err = none ∧ text p.val.visit = c!"a{k: b, k: c, k: d}") :=
  ⟨⟨_, rfl, by decide +kernel, by decide +kernel⟩, ⟨_, rfl, by decide +kernel, by decide +kernel⟩⟩

/-- The error of a property given as an item is lost: it is rendered as a dot without name. -/
theorem C24_error_lost (er : Err) : ∃ p, mapProjectionCreate .ascii 200 201 (fun i => 300 + i) wa [.expr (propertyError .ascii er)] = .ok p ∧
    p.val.err = none ∧ text p.val.visit = c!"a{.}" := ⟨_, rfl, rfl, by decide +kernel⟩

/-- C24: a lookup is good for a projection only: it cannot be given an alias, and functions do not accept it as their first argument. -/
theorem C24_lookup_alone (k ka kl : Key) (name alias : Str) (d : FnDef) (xs : List (Option Val)) :
    (aliasedCreate u k (some (propertyLookup u kl name)) alias).err ≠ none ∧
    (∀ v, functionInvocation k ka d (some (propertyLookup u kl name) :: xs) = .ok v → v.err ≠ none) ∧
    ∀ v, functionInvocationDistinct k ka d (some (propertyLookup u kl name) :: xs) = .ok v → v.err ≠ none := by
  refine ⟨(fun h => by cases h), ?_, ?_⟩
  · intro v h
    simp only [functionInvocation, scanArgs, show (propertyLookup u kl name).err = none from rfl] at h
    cases hs : scanArgs xs with
    | panic => rw [hs] at h; cases h
    | ok r => rw [hs] at h; cases r <;> (cases h; intro h; cases h)
  · intro v h
    simp only [functionInvocationDistinct, scanArgs, show (propertyLookup u kl name).err = none from rfl] at h
    cases hs : scanArgs xs with
    | panic => rw [hs] at h; cases h
    | ok r =>
      rw [hs] at h
      cases r with
      | error e => cases h; intro h; cases h
      | ok vs =>
        cases hd : d.aggregate <;> simp [Outcome.map, Except.map, hd, propertyLookup] at h <;> (subst h; intro h; cases h)

example : (match functionInvocation 1 2 ⟨c!"count", true⟩ [some (propertyLookup .ascii 3 c!"age")] with | .ok v => v.err.isSome | .panic => false) = true := by
  decide +kernel

/-- An argument that is neither a string nor an expression is an error, wherever it stands. -/
theorem C24_junk (name : Val) (hname : name.err = none) (k km : Key) (ks : Nat → Key) (is : List Item) (hx : ∀ x ∈ is, x.Ok)
    (hs : Separate is) (rest : List Content) :
    ∃ p er, mapProjectionCreate u k km ks name (is.flatMap (Item.args u) ++ .other :: rest) = .ok p ∧ p.val.err = some er := by
  have key : ∀ (is : List Item) (known : List Str) (i : Nat), (∀ x ∈ is, x.Ok) → Separate is →
      ∃ er, contentLoop u ks known i ((is.flatMap (Item.args u) ++ .other :: rest).map contentAt) = .ok (.error er) := by
    intro is
    induction is with
    | nil => intro known i _ _; exact ⟨_, rfl⟩
    | cons x is ih =>
      intro known i hx hs
      by_cases hp : ∃ key, x.pairKey = some key ∧ key ∈ known
      · obtain ⟨key, h1, h2⟩ := hp
        cases x with
        | pair key' v =>
          simp only [Item.pairKey, Option.some.injEq] at h1
          subst h1
          obtain ⟨hn, hv, ht⟩ := hx _ (List.mem_cons_self ..)
          refine ⟨.site "map_projection.go" 146, ?_⟩
          simp only [List.flatMap_cons, Item.args, List.map_append, List.map_cons, List.map_nil, contentAt, List.cons_append, List.nil_append,
            contentLoop, addEntry, projectionEntry, if_pos hn, if_pos h2, Outcome.bind]
        | _ => simp [Item.pairKey] at h1
      · rw [List.flatMap_cons, List.append_assoc, contentLoop_step' u ks known i x _ (hx x (by simp)) ?_ fun key h1 h2 => hp ⟨key, h1, h2⟩]
        · obtain ⟨er, her⟩ := ih (x.pairKey.toList ++ known) (i + 1) (fun y hy => hx y (by simp [hy])) (Separate_tail hs)
          exact ⟨er, by rw [her]; rfl⟩
        · intro s hxs v r he
          subst hxs
          cases is with
          | nil => simp [contentAt] at he
          | cons y is =>
            simp only [Separate] at hs
            obtain ⟨c, cs, h1, h2, -⟩ := args_shape u y
            obtain ⟨s', rfl⟩ := h2 hs.1
            simp [List.flatMap_cons, List.map_append, h1] at he
  obtain ⟨er, her⟩ := key is [] 0 hx hs
  have hc : createNewContent u ks (is.flatMap (Item.args u) ++ .other :: rest) = .ok (.error er) := her
  exact ⟨⟨name, [], .bad er⟩, er, by simp [mapProjectionCreate, hname, hc, Outcome.map], rfl⟩

example : ∃ p er, mapProjectionCreate .ascii 1 2 (fun i => 10 + i) wa [.str c!"k", .expr wb, .other] = .ok p ∧ p.val.err = some er :=
  ⟨_, _, rfl, rfl⟩

end

/-! ### C41 -/

section
variable {e : Env} {k ka : Key}

theorem call_layout {name : Str} {xs : List (List Tree)} (hx : ∀ x ∈ xs, Spec.One x) (ha : NoAlias e [k, ka] (invocation k ka name xs.flatten).visit) :
    shownAs e (invocation k ka name xs.flatten).visit = layout e (callParts name false xs) := by
  refine shown_self (.node k (name ++ c!"(") c!")" false [.node ka [] [] true (listTm xs)]) ?_ ?_ ?_ ?_
  · simp [invocation, Val.mk', Tm.trees, Tm.treesL, listTm_trees]
  · simpa [Tm.Ok, Tm.OkL] using listTm_ok hx
  · intro k' hk'
    apply ha
    simpa [Tm.keys, Tm.keysL, listTm_keys] using hk'
  · simp [Tm.parts, Tm.partsL, layout, layout_append, partsL_commas, callParts, sepText]

theorem call_layout_distinct {name : Str} {x : List Tree} {xs : List (List Tree)} (hx : ∀ x ∈ xs, Spec.One x)
    (ha : NoAlias e [k, ka, 0] (invocation k ka name (nd 0 [] [] false (leaf 0 c!"DISTINCT " :: x) :: xs.flatten)).visit) :
    shownAs e (invocation k ka name (nd 0 [] [] false (leaf 0 c!"DISTINCT " :: x) :: xs.flatten)).visit =
      layout e (callParts name true (x :: xs)) := by
  refine shown_self (.node k (name ++ c!"(") c!")" false [.node ka [] [] true
    (.node 0 [] [] false [.node 0 c!"DISTINCT " [] false [], .hole x] :: listTm xs)]) ?_ ?_ ?_ ?_
  · simp [invocation, Val.mk', Tm.trees, Tm.treesL, listTm_trees, leaf]
  · simp only [Tm.Ok, Tm.OkL, listTm_ok hx, Tm.trees, and_true, true_and]
    simp [Spec.One, nd]
  · intro k' hk'
    apply ha
    simpa [Tm.keys, Tm.keysL, listTm_keys] using hk'
  · have hp : ∀ e', layout e' (Tm.partsL true true (.node 0 [] [] false [.node 0 c!"DISTINCT " [] false [], .hole x] :: listTm xs)) =
        layout e' (.lit c!"DISTINCT " :: commas (x :: xs)) := by
      intro e'
      rw [partsL_sep]
      cases xs with
      | nil => simp [listTm, sepParts, Tm.parts, Tm.partsL, layout, sepText, commas]
      | cons y ys => simp [listTm, sepParts, Tm.parts, Tm.partsL, layout, sepText, commas, Function.comp_def]
    rw [Tm.parts, Tm.partsL, Tm.partsL, Tm.parts]
    simp [layout, layout_append, sepText, hp, callParts]

theorem scanArgs_ok {xs : List Val} (h : ∀ x ∈ xs, x.err = none) : scanArgs (xs.map some) = .ok (.ok xs) := by
  induction xs with
  | nil => rfl
  | cons x xs ih => simp [scanArgs, h x (by simp), ih fun y hy => h y (by simp [hy]), Outcome.map, Except.map]

theorem visitsOf_flatten (xs : List Val) : visitsOf xs = (xs.map (·.visit)).flatten := by simp [visitsOf, List.flatMap_def]

/-- C41, for all functions with one argument except `CollectDistinct`: the documented name, DISTINCT exactly in the distinct
variants, the argument.  Missing: `CollectDistinct`, for which it is false (`C41_collectDistinct`). -/
theorem C41_function_partial (f : Fn1) (hf : f ≠ .collectDistinct) (x : Val) (hx : Good x) (h1 : Spec.One x.visit) :
    ∃ v, fn1 f k ka (some x) = .ok v ∧ v.err = none ∧
      (NoAlias e [k, ka, 0] v.visit → shownAs e v.visit = layout e (callParts (fn1Name f).1 (fn1Name f).2 [x.visit])) := by
  have hc : ∀ d, functionInvocation k ka d [some x] = .ok (invocation k ka d.name [x.visit].flatten) := by
    intro d
    simp [functionInvocation, scanArgs, hx.1, hx.2, Outcome.map, Except.map, visitsOf]
  have hd : ∀ d : FnDef, d.aggregate = true → functionInvocationDistinct k ka d [some x] =
      .ok (invocation k ka d.name (nd 0 [] [] false (leaf 0 c!"DISTINCT " :: x.visit) :: ([] : List (List Tree)).flatten)) := by
    intro d hd
    simp [functionInvocationDistinct, scanArgs, hx.1, hx.2, Outcome.map, Except.map, visitsOf, hd]
  cases f <;> first
    | exact absurd rfl hf
    | exact ⟨_, hc _, rfl, fun ha => call_layout (by simpa using h1) (ha.mono (by simp +contextual))⟩
    | exact ⟨_, hd _ rfl, rfl, fun ha => call_layout_distinct (by simp) ha⟩

example : (match fn1 .countDistinctByExpression 200 201 (some wa) with | .ok v => text v.visit | .panic => []) = c!"count(DISTINCT a)" ∧
    Good wa ∧ Spec.One wa.visit := ⟨by decide +kernel, word_good _ _, ⟨_, _, rfl⟩⟩

/-- C41 fails for `CollectDistinct`, which calls `avg`. -/
theorem C41_collectDistinct :
    ∃ v, fn1 .collectDistinct 200 201 (some wa) = .ok v ∧ v.err = none ∧ text v.visit = c!"avg(DISTINCT a)" := ⟨_, rfl, rfl, by decide +kernel⟩

/-- C41 fails for the functions without arguments: none of them can be called. -/
theorem C41_temporal (f : Fn0) : ¬ ∃ v, fn0 f k ka = .ok v ∧ v.err = none := by
  rintro ⟨v, h, hv⟩
  cases f <;> simp only [fn0, functionInvocation0, functionInvocation, scanArgs, Outcome.map, Outcome.ok.injEq, reduceCtorEq] at h <;>
    (subst h; simp [Val.bad] at hv)

/-- C41: an argument that counts as nil or has an error is an error. -/
theorem C41_errors (f : Fn1) (x : Val) (hx : ¬ Good x) : ∃ v er, fn1 f k ka (some x) = .ok v ∧ v.err = some er := by
  have : (∃ er, x.err = some er) ∨ (x.err = none ∧ x.notNil = false) := by
    cases he : x.err with
    | some er => exact Or.inl ⟨er, rfl⟩
    | none => exact Or.inr ⟨rfl, by cases hn : x.notNil with | false => rfl | true => exact absurd ⟨he, hn⟩ hx⟩
  have h1 : ∀ d, ∃ v er, functionInvocation k ka d [some x] = .ok v ∧ v.err = some er := by
    intro d
    rcases this with ⟨er, he⟩ | ⟨he, hn⟩
    · exact ⟨.bad er, er, by simp [functionInvocation, scanArgs, he, Outcome.map], rfl⟩
    · exact ⟨_, .site "function_invocation.go" 51, by simp only [functionInvocation, scanArgs, he, hn, Outcome.map, Except.map]; rfl, rfl⟩
  have h2 : ∀ d : FnDef, ∃ v er, functionInvocationDistinct k ka d [some x] = .ok v ∧ v.err = some er := by
    intro d
    rcases this with ⟨er, he⟩ | ⟨he, hn⟩
    · exact ⟨.bad er, er, by simp [functionInvocationDistinct, scanArgs, he, Outcome.map], rfl⟩
    · cases hd : d.aggregate with
      | false => exact ⟨_, .site "function_invocation.go" 116, by simp only [functionInvocationDistinct, scanArgs, he, Outcome.map, Except.map, hd]; rfl, rfl⟩
      | true => exact ⟨_, .site "function_invocation.go" 119, by simp only [functionInvocationDistinct, scanArgs, he, hn, Outcome.map, Except.map, hd]; rfl, rfl⟩
  unfold fn1
  split
  · exact h2 _
  · exact h1 _

example : ∃ v er, fn1 .size 1 2 (some wx) = .ok v ∧ v.err = some er := C41_errors .size wx (by simp [Good, wx, Val.bad])

/-- C41, functions with several arguments: `coalesce`, `distance`, `range`, `percentileCont`, `percentileDisc`. -/
theorem C41_several (x y z : Val) (xs : List Val) (hx : Good x) (hy : Good y) (hz : Good z) (hxs : ∀ w ∈ xs, w.err = none)
    (h1 : Spec.One x.visit) (h2 : Spec.One y.visit) (h3 : Spec.One z.visit) (h4 : ∀ w ∈ xs, Spec.One w.visit) :
    (∃ v, coalesce k ka ((x :: xs).map some) = .ok v ∧ v.err = none ∧ (NoAlias e [k, ka] v.visit →
      shownAs e v.visit = layout e (callParts c!"coalesce" false ((x :: xs).map (·.visit))))) ∧
    (∃ v, distance k ka (some x) (some y) = .ok v ∧ v.err = none ∧ (NoAlias e [k, ka] v.visit →
      shownAs e v.visit = layout e (callParts c!"distance" false [x.visit, y.visit]))) ∧
    (∃ v, rangeWithStep k ka (some x) (some y) none = .ok v ∧ v.err = none ∧ (NoAlias e [k, ka] v.visit →
      shownAs e v.visit = layout e (callParts c!"range" false [x.visit, y.visit]))) ∧
    (∃ v, rangeWithStep k ka (some x) (some y) (some z) = .ok v ∧ v.err = none ∧ (NoAlias e [k, ka] v.visit →
      shownAs e v.visit = layout e (callParts c!"range" false [x.visit, y.visit, z.visit]))) ∧
    (∀ disc distinct kl f t, floatText f = some t → f.negative = false → f.aboveOne = false → ∃ v, percentile disc distinct k ka kl (some x) f = .ok v ∧
      v.err = none ∧ (NoAlias e [k, ka, 0] v.visit → shownAs e v.visit =
        layout e (callParts (if disc then c!"percentileDisc" else c!"percentileCont") distinct [x.visit, [leaf kl t]]))) := by
  have hc : ∀ (d : FnDef) (ys : List Val), (∀ w ∈ ys, w.err = none) →
      functionInvocation k ka d ((x :: ys).map some) = .ok (invocation k ka d.name ((x :: ys).map (·.visit)).flatten) := by
    intro d ys hys
    have : scanArgs ((x :: ys).map some) = .ok (.ok (x :: ys)) := scanArgs_ok (by
      intro w hw
      rcases List.mem_cons.mp hw with rfl | h
      · exact hx.1
      · exact hys w h)
    rw [functionInvocation, this]
    simp only [Outcome.map, hx.2, visitsOf_flatten, if_true]
  have hd : ∀ (d : FnDef), d.aggregate = true →
      functionInvocationDistinct k ka d [some x, some y] = .ok (invocation k ka d.name
        (nd 0 [] [] false (leaf 0 c!"DISTINCT " :: x.visit) :: ([y.visit] : List (List Tree)).flatten)) := by
    intro d hd
    simp [functionInvocationDistinct, scanArgs, hx.1, hx.2, hy.1, Outcome.map, Except.map, visitsOf, hd]
  have hlist : ∀ (d : FnDef) (ys : List Val), (∀ w ∈ ys, w.err = none ∧ Spec.One w.visit) →
      ∃ v, functionInvocation k ka d ((x :: ys).map some) = .ok v ∧ v.err = none ∧ (NoAlias e [k, ka] v.visit →
        shownAs e v.visit = layout e (callParts d.name false ((x :: ys).map (·.visit)))) := by
    intro d ys hys
    refine ⟨_, hc d ys fun w hw => (hys w hw).1, rfl, fun ha => call_layout ?_ ha⟩
    intro t ht
    simp only [List.map_cons, List.mem_cons, List.mem_map] at ht
    rcases ht with rfl | ⟨w, hw, rfl⟩
    · exact h1
    · exact (hys w hw).2
  refine ⟨hlist fnCoalesce xs fun w hw => ⟨hxs w hw, h4 w hw⟩, ?_, ?_, ?_, ?_⟩
  · have h0 := hlist fnDistance [y] (by simp [hy.1, h2])
    have heq : distance k ka (some x) (some y) = functionInvocation k ka fnDistance [some x, some y] := by
      simp [distance, firstErr, errOf, nilErr, missing, hx.1, hx.2, hy.1, hy.2]
    rw [heq]
    exact h0
  · have h0 := hlist fnRange [y] (by simp [hy.1, h2])
    have heq : rangeWithStep k ka (some x) (some y) none = functionInvocation k ka fnRange [some x, some y] := by
      simp [rangeWithStep, firstErr, errOf, nilErr, missing, hx.1, hx.2, hy.1, hy.2]
    rw [heq]
    exact h0
  · have h0 := hlist fnRange [y, z] (by simp [hy.1, h2, hz.1, h3])
    have heq : rangeWithStep k ka (some x) (some y) (some z) = functionInvocation k ka fnRange [some x, some y, some z] := by
      simp [rangeWithStep, firstErr, errOf, nilErr, missing, hx.1, hx.2, hy.1, hy.2, hz.1, hz.2]
    rw [heq]
    exact h0
  · intro disc distinct kl f t ht hneg hone
    have hlit : floatLiteral kl f = .ok (.mk' kl [leaf kl t]) := by simp [floatLiteral, ht]
    clear hd
    generalize hy' : Val.mk' kl [leaf kl t] = w at hlit
    have hw : Good w ∧ w.visit = [leaf kl t] := by subst hy'; exact ⟨⟨rfl, rfl⟩, rfl⟩
    rw [← hw.2]
    have hw1 : Spec.One w.visit := by rw [hw.2]; exact ⟨_, _, rfl⟩
    have hd : ∀ (d : FnDef), d.aggregate = true →
        functionInvocationDistinct k ka d [some x, some w] = .ok (invocation k ka d.name
          (nd 0 [] [] false (leaf 0 c!"DISTINCT " :: x.visit) :: ([w.visit] : List (List Tree)).flatten)) := by
      intro d hd
      simp [functionInvocationDistinct, scanArgs, hx.1, hx.2, hw.1.1, Outcome.map, Except.map, visitsOf, hd]
    cases distinct with
    | false =>
      cases disc with
      | false =>
        obtain ⟨v, p1, p2, p3⟩ := hlist fnPercentileCont [w] (by simp [hw.1.1, hw1])
        exact ⟨v, by simpa [percentile, firstErr, errOf, nilErr, missing, hx.1, hx.2, hneg, hone, hlit, Outcome.bind] using p1, p2,
          fun ha => p3 (ha.mono (by simp +contextual))⟩
      | true =>
        obtain ⟨v, p1, p2, p3⟩ := hlist fnPercentileDisc [w] (by simp [hw.1.1, hw1])
        exact ⟨v, by simpa [percentile, firstErr, errOf, nilErr, missing, hx.1, hx.2, hneg, hone, hlit, Outcome.bind] using p1, p2,
          fun ha => p3 (ha.mono (by simp +contextual))⟩
    | true =>
      cases disc with
      | false =>
        have heq : percentile false true k ka kl (some x) f = functionInvocationDistinct k ka fnPercentileCont [some x, some w] := by
          simp [percentile, firstErr, errOf, nilErr, missing, hx.1, hx.2, hneg, hone, hlit, Outcome.bind]
        exact ⟨_, heq.trans (hd fnPercentileCont rfl), rfl,
          fun ha => call_layout_distinct (by simpa using hw1) ha⟩
      | true =>
        have heq : percentile true true k ka kl (some x) f = functionInvocationDistinct k ka fnPercentileDisc [some x, some w] := by
          simp [percentile, firstErr, errOf, nilErr, missing, hx.1, hx.2, hneg, hone, hlit, Outcome.bind]
        exact ⟨_, heq.trans (hd fnPercentileDisc rfl), rfl,
          fun ha => call_layout_distinct (by simpa using hw1) ha⟩

example : (match coalesce 200 201 ([wa, wb, wc].map some) with | .ok v => text v.visit | .panic => []) = c!"coalesce(a, b, c)" ∧
    (match percentile true true 200 201 202 (some wa) (.fin false 3 (-2)) with | .ok v => text v.visit | .panic => []) =
      c!"percentileDisc(DISTINCT a, 0.75)" := by decide +kernel

end

end Verif
