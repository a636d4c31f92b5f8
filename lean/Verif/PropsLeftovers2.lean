import Verif.Leftovers
import Verif.PropsPatterns

/-
C79: further exported functions that no method of the package, or only one, uses: adding entries to a map, changing an alias, the name of an
alias, functions of several pattern elements.
-/

namespace Verif
open Spec

section
variable {u : Unicode} {e : Env}

/-! ### AddEntries -/

/-- C79: `AddEntries` on a map without error is refused exactly if one of the new entries has an error, and with the first such error; -/
theorem C79_entries_errors (k : Key) (xs ys : List Val) (hx : ∀ x ∈ xs, x.err = none) :
    ((MapV.create xs).addEntries ys |>.toVal k).err = errsOf ys ∧
    (((MapV.create xs).addEntries ys |>.toVal k).err = none ↔ ∀ y ∈ ys, y.err = none) := by
  have h0 : errsOf xs = none := (errsOf_none_iff _).mpr hx
  have h1 : errsOf (xs ++ ys) = errsOf ys := by
    clear h0
    induction xs with
    | nil => rfl
    | cons x xs ih =>
      have hh := hx x (by simp)
      have := ih fun y hy => hx y (by simp [hy])
      simp only [errsOf, List.cons_append, List.map_cons, hh, firstErr] at this ⊢
      exact this
  have h2 : ((MapV.create xs).addEntries ys |>.toVal k).err = errsOf ys := by
    simp only [MapV.create, h0, MapV.addEntries, h1]
    cases h : errsOf ys <;> simp [MapV.toVal, Val.bad, Val.mk']
  exact ⟨h2, h2 ▸ errsOf_none_iff ys⟩

/-- otherwise it renders all entries of the map and then the new ones; -/
theorem C79_entries_text (k : Key) (xs ys : List Val) (h : ∀ x ∈ xs ++ ys, x.err = none ∧ Spec.One x.visit)
    (ha : NoAlias e [k] ((MapV.create xs).addEntries ys |>.toVal k).visit) :
    shownAs e ((MapV.create xs).addEntries ys |>.toVal k).visit =
      layout e ([.lit c!"{"] ++ commas (xs.map (·.visit) ++ ys.map (·.visit)) ++ [.lit c!"}"]) := by
  have h0 : errsOf xs = none := (errsOf_none_iff _).mpr fun x hx => (h x (by simp [hx])).1
  have h1 : errsOf (xs ++ ys) = none := (errsOf_none_iff _).mpr fun x hx => (h x hx).1
  simp only [MapV.create, h0, MapV.addEntries, h1] at ha ⊢
  refine shown_self (.node k c!"{" c!"}" true (listTm (xs.map (·.visit) ++ ys.map (·.visit)))) ?_ ?_ ?_ ?_
  · simp [MapV.toVal, Val.mk', Tm.trees, listTm_trees, visitsOf, List.flatMap_def]
  · refine listTm_ok ?_
    intro x hx
    simp only [List.mem_append, List.mem_map] at hx
    rcases hx with ⟨y, hy, rfl⟩ | ⟨y, hy, rfl⟩
    · exact (h y (by simp [hy])).2
    · exact (h y (by simp [hy])).2
  · intro k' hk'
    apply ha
    simpa [Tm.keys, listTm_keys] using hk'
  · simp only [Tm.parts, List.cons_append, List.nil_append, layout, layout_append, partsL_commas]

/-- and adding nothing, or adding in two steps, changes nothing. -/
theorem C79_entries_steps (xs ys zs : List Val) (hx : ∀ x ∈ xs, x.err = none) (hy : ∀ y ∈ ys, y.err = none) :
    (MapV.create xs).addEntries [] = MapV.create xs ∧
    ((MapV.create xs).addEntries ys).addEntries zs = (MapV.create xs).addEntries (ys ++ zs) := by
  have h0 : errsOf xs = none := (errsOf_none_iff _).mpr hx
  have h1 : errsOf (xs ++ ys) = none := (errsOf_none_iff _).mpr fun x h => (List.mem_append.mp h).elim (hx x) (hy x)
  refine ⟨by simp [MapV.create, h0, MapV.addEntries], ?_⟩
  simp [MapV.create, h0, h1, MapV.addEntries]

/-- C79 is not what a user relies on: the error of a map is lost by adding entries, together with its entries, -/
theorem C79_entries_error_lost (k : Key) (er : Err) (ys : List Val) (hy : ∀ y ∈ ys, y.err = none) :
    (MapV.toVal k (.error er)).err = some er ∧ ((MapV.addEntries (.error er) ys).toVal k).err = none ∧
    (MapV.addEntries (.error er) ys) = MapV.create ys := by
  have h1 : errsOf ys = none := (errsOf_none_iff _).mpr hy
  simp [MapV.toVal, MapV.addEntries, MapV.create, h1, Val.bad, Val.mk']

/-- and a key may come twice, which `MapOf` refuses. -/
theorem C79_entries_twice :
    (MapV.create [entryExpression .ascii 201 c!"a" (intLiteral 202 1)]).addEntries [entryExpression .ascii 203 c!"a" (intLiteral 204 2)]
      |>.toVal 200 |>.visit |> text |> (· = c!"{a: 1, a: 2}") := by decide +kernel

example : (MapV.create [entryExpression .ascii 201 c!"a" (intLiteral 202 1)]).addEntries
    [entryExpression .ascii 203 c!"b b" (intLiteral 204 2), entryExpression .ascii 205 c!"c" (stringLiteral 206 c!"x")]
      |>.toVal 200 |>.visit |> text |> (· = c!"{a: 1, `b b`: 2, c: 'x'}") := by decide +kernel

/-! ### Aliases of aliases -/

/-- The record and the value of Exprs.lean agree. -/
theorem AliasedV.create_toVal (k : Key) (d : Option Val) (a : Str) : (AliasedV.create d a).toVal u k = aliasedCreate u k d a := by
  unfold AliasedV.create aliasedCreate
  cases d with
  | none => rfl
  | some x => cases hn : x.notNil <;> cases he : x.err <;> by_cases ha : a = [] <;> simp [hn, he, ha, AliasedV.toVal]

/-- C79: `Aliased` on `x.As(a)` is accepted exactly if `x.As(a)` is without error and the new alias is not empty; -/
theorem C79_aliased_accepted (k : Key) (d : Option Val) (a b : Str) :
    (((AliasedV.create d a).aliased b).toVal u k).err = none ↔ ((AliasedV.create d a).toVal u k).err = none ∧ b ≠ [] := by
  unfold AliasedV.aliased AliasedV.create
  cases d with
  | none => by_cases hb : b = [] <;> simp [hb, AliasedV.toVal, Val.bad]
  | some x =>
    cases hn : x.notNil <;> cases he : x.err <;> by_cases ha : a = [] <;> by_cases hb : b = [] <;>
      simp [hn, he, ha, hb, AliasedV.toVal, Val.bad, Val.mk']

/-- otherwise its error is that of an empty alias or, whatever the error of `x.As(a)` was, that of a missing expression; -/
theorem C79_aliased_error (k : Key) (d : Option Val) (a b : Str) (h : ((AliasedV.create d a).toVal u k).err ≠ none ∨ b = []) :
    (((AliasedV.create d a).aliased b).toVal u k).err = some (if b = [] then .site "alias_expression.go" 56 else .site "alias_expression.go" 18) := by
  by_cases hb : b = []
  · simp [AliasedV.aliased, hb, AliasedV.toVal, Val.bad]
  · have h' := h.resolve_right hb
    have hd : (AliasedV.create d a).delegate = none := by
      revert h'
      unfold AliasedV.create
      cases d with
      | none => simp
      | some x =>
        cases hn : x.notNil <;> cases he : x.err <;> by_cases ha : a = [] <;> simp [hn, he, ha, AliasedV.toVal, Val.mk']
    rw [AliasedV.aliased, if_neg hb, hd]
    simp [hb, AliasedV.create, AliasedV.toVal, Val.bad]

example : (((AliasedV.create (some (stringLiteral 1 c!"x")) []).aliased c!"b").toVal .ascii 9).err = some (.site "alias_expression.go" 18) ∧
    ((AliasedV.create (some (stringLiteral 1 c!"x")) []).toVal .ascii 9).err = some (.site "alias_expression.go" 24) := ⟨rfl, rfl⟩

/-- then, where neither was used before, it is shown as the expression, `AS` and the new alias alone, and the expression is known by the new
alias; -/
theorem C79_aliased_text (k : Key) {v : Val} (hv : v.err = none ∧ v.notNil = true) {a b : Str} (ha : a ≠ []) (hb : b ≠ [])
    (h1 : e.al k = none) (h2 : e.al v.key = none) :
    (shownAs e (((AliasedV.create (some v) a).aliased b).toVal u k).visit).1 = (shownAs e v.visit).1 ++ c!" AS " ++ escapeIfNecessary u b ∧
    (shownAs e (((AliasedV.create (some v) a).aliased b).toVal u k).visit).2.al v.key = some ⟨k, v.key, escapeIfNecessary u b⟩ := by
  have h : (AliasedV.create (some v) a).aliased b = AliasedV.create (some v) b := by
    simp [AliasedV.aliased, AliasedV.create, hv.1, hv.2, ha, hb]
  rw [h, AliasedV.create_toVal]
  simp [aliasedCreate, hv.1, hv.2, hb, Val.mk', shownAs, denL, den, shown, h1, h2, described, Kind.isSub, defined, Vis.asAlias, sepText]

/-- and `AsName` is shown as the alias is shown after `AS`: in any state the text of the name is the end of the text of the definition. -/
theorem C79_name_text (k k' : Key) {v : Val} (hv : v.err = none ∧ v.notNil = true) {a : Str} (ha : a ≠ []) {e e' : Env}
    (h1 : e.al k = none) (h2 : e.al v.key = none) (h3 : e'.al k' = none) :
    ((AliasedV.create (some v) a).asName u k').err = none ∧
    (shownAs e ((AliasedV.create (some v) a).toVal u k).visit).1 =
      (shownAs e v.visit).1 ++ c!" AS " ++ (shownAs e' ((AliasedV.create (some v) a).asName u k').visit).1 := by
  constructor
  · simp [AliasedV.create, hv.1, hv.2, ha, AliasedV.asName, symbolicName, Val.mk']
  · rw [AliasedV.create_toVal]
    simp [AliasedV.create, aliasedCreate, AliasedV.asName, symbolicName, hv.1, hv.2, ha, Val.mk', leaf, nd, shownAs, denL, den, shown, h1, h2, h3, described, Kind.isSub,
      defined, Vis.asAlias, sepText]

example : text (((AliasedV.create (some (stringLiteral 1 c!"x")) c!"old").aliased c!"the name").toVal .ascii 9).visit = c!"'x' AS `the name`" ∧
    text ((AliasedV.create (some (stringLiteral 1 c!"x")) c!"the name").asName .ascii 10).visit = c!"`the name`" := by decide +kernel

/-! ### Functions of several pattern elements -/

/-- C79: `FunctionInvocationCreateWithPattern` is refused exactly without a pattern, or if one of its elements has an error; -/
theorem C79_patterns_accepted (k ka : Key) (d : FnDef) (p : Option (List Val)) :
    (functionInvocationPatterns k ka d p).err = none ↔ ∃ xs, p = some xs ∧ ∀ x ∈ xs, x.err = none := by
  cases p with
  | none => simp [functionInvocationPatterns, Val.bad]
  | some xs =>
    have := errsOf_none_iff xs
    cases h : errsOf xs with
    | none => simpa [functionInvocationPatterns, h, invocation, Val.mk'] using this.mp h
    | some er =>
      rw [h] at this
      simpa [functionInvocationPatterns, h, Val.bad] using this

/-- otherwise it renders the name of the function and all elements, in order, separated by commas, in parentheses. -/
theorem C79_patterns_text (k ka : Key) (d : FnDef) (xs : List Val) (h : ∀ x ∈ xs, x.err = none ∧ Spec.One x.visit)
    (ha : NoAlias e [k, ka] (functionInvocationPatterns k ka d (some xs)).visit) :
    shownAs e (functionInvocationPatterns k ka d (some xs)).visit = layout e (callParts d.name false (xs.map (·.visit))) := by
  have h0 : errsOf xs = none := (errsOf_none_iff _).mpr fun x hx => (h x hx).1
  have h1 : visitsOf xs = (xs.map (·.visit)).flatten := by simp [visitsOf, List.flatMap_def]
  simp only [functionInvocationPatterns, h0, h1] at ha ⊢
  refine call_layout ?_ ha
  intro x hx
  obtain ⟨y, hy, rfl⟩ := List.mem_map.mp hx
  exact (h y hy).2

/-- `exists((p:Person), (m))` -/
example : (∀ x ∈ [SamplePat.np.run.toVal .ascii, SamplePat.nm.run.toVal .ascii], x.err = none ∧ ∃ v kids, x.visit = [.node v kids]) ∧
    text (functionInvocationPatterns 401 402 fnExists (some [SamplePat.np.run.toVal .ascii, SamplePat.nm.run.toVal .ascii])).visit =
      c!"exists((p:`Person`), (m))" := by
  refine ⟨?_, by decide +kernel⟩
  intro x hx
  simp only [List.mem_cons, List.not_mem_nil, or_false] at hx
  rcases hx with rfl | rfl <;> exact ⟨by decide +kernel, _, _, rfl⟩

end

end Verif
