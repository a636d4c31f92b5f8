import Verif.NilArgs
import Verif.PropsErrors

/-
C72: arguments that are nil.
-/

namespace Verif
open Spec SampleBuilder SampleErrors

section
variable {u : Unicode}

/-! ### Lemmas -/

/-- A list of arguments contains nil, or is a list of values. -/
theorem nil_or_not : ∀ xs : List Arg, none ∈ xs ∨ ∃ vs : List Val, xs = vs.map some
  | [] => .inr ⟨[], rfl⟩
  | none :: _ => .inl (by simp)
  | some v :: xs => by
    rcases nil_or_not xs with h | ⟨vs, rfl⟩
    · exact .inl (by simp [h])
    · exact .inr ⟨v :: vs, rfl⟩

theorem asserted_nil : ∀ xs : List Arg, none ∈ xs → asserted xs = .panic
  | none :: _, _ => rfl
  | some v :: xs, h => by
    rw [asserted, asserted_nil xs (by simpa using h)]
    rfl

theorem asserted_some (vs : List Val) : asserted (vs.map some) = .ok vs := by
  induction vs with
  | nil => rfl
  | cons v vs ih => rw [List.map_cons, asserted, ih]; rfl

theorem accepted_nil : ∀ xs : List Arg, none ∈ xs → acceptedAll xs = .panic
  | none :: _, _ => rfl
  | some v :: xs, h => by
    rw [acceptedAll, accepted_nil xs (by simpa using h)]
    rfl

theorem accepted_some (vs : List Val) : acceptedAll (vs.map some) = .ok (visitsOf vs) := by
  induction vs with
  | nil => rfl
  | cons v vs ih => rw [List.map_cons, acceptedAll, ih]; rfl

theorem guarded_some (vs : List Val) : guardedErr (vs.map some) = errsOf vs := by
  simp [guardedErr, errsOf, errOf, Function.comp_def]

theorem scan_nil : ∀ xs : List Arg, guardedErr xs = none → none ∈ xs → scanArgs xs = .panic
  | none :: _, _, _ => rfl
  | some v :: xs, h, hn => by
    cases hv : v.err with
    | some e => simp [guardedErr, errOf, hv, firstErr] at h
    | none =>
      have hx : guardedErr xs = none := by simpa [guardedErr, errOf, hv, firstErr] using h
      rw [scanArgs, hv]
      simp only
      rw [scan_nil xs hx (by simpa using hn)]
      rfl

theorem scan_some (vs : List Val) (h : errsOf vs = none) : scanArgs (vs.map some) = .ok (.ok vs) := by
  induction vs with
  | nil => rfl
  | cons v vs ih =>
    have h' := (errsOf_none_iff _).mp h
    rw [List.map_cons, scanArgs, h' v (by simp)]
    simp only
    rw [ih ((errsOf_none_iff _).mpr fun x hx => h' x (by simp [hx]))]
    rfl

/-! ### Where nil is reported -/

/-- C72: operators, comparisons, list access, aliases, properties of expressions, patterns as arguments of functions, `Distance`,
percentiles, `Range`, the condition of a quantifier, subqueries and unions report nil.  Full claim: so does every other function and
method; it is false, see below. -/
theorem C72_reported_partial (k kl kr kd ka kp kw : Key) (guid name : Str) (o : Op) (x : Arg) (d : FnDef) (disc distinct : Bool) (f : GoFloat) (q : Quantifier) :
    (operationCreate k none o x).err ≠ none ∧ (operationCreate k x o none).err ≠ none ∧
    (comparisonCreate k kl kr none o x).err ≠ none ∧ (comparisonCreate k kl kr x o none).err ≠ none ∧
    (comparisonCreate1 k kl o none).err ≠ none ∧
    (valueAt k kd none x).err ≠ none ∧ (valueAt k kd x none).err ≠ none ∧
    (subListFrom k kd none x).err ≠ none ∧ (subListFrom k kd x none).err ≠ none ∧
    (subListUntil k kd none x).err ≠ none ∧ (subListUntil k kd x none).err ≠ none ∧
    (aliasedCreate u k none name).err ≠ none ∧ (propertyCreate2 u k kl none name).err ≠ none ∧
    (functionInvocationPattern k ka d none).err ≠ none ∧
    (∃ v, distance k ka none x = .ok v ∧ v.err ≠ none) ∧ (∃ v, distance k ka x none = .ok v ∧ v.err ≠ none) ∧
    (∃ v, percentile disc distinct k ka kl none f = .ok v ∧ v.err ≠ none) ∧
    (∃ v, quantified guid q k kl ka kp kw x x none = .ok v ∧ v.err ≠ none) := by
  refine ⟨?_, ?_, ?_, ?_, ?_, ?_, ?_, ?_, ?_, ?_, ?_, ?_, ?_, ?_, ?_, ?_, ?_, ?_⟩ <;>
    cases ho : o.isUnary <;> cases x with
    | none =>
      simp [operationCreate, comparisonCreate, comparisonCreate1, valueAt, subListFrom, subListUntil, aliasedCreate, propertyCreate2, propertyError,
          functionInvocationPattern, distance, percentile, quantified, firstErr, errOf, nilErr, missing, Val.bad, ho]
    | some v =>
      cases hv : v.err <;> cases hn : v.notNil <;>
          simp [operationCreate, comparisonCreate, comparisonCreate1, valueAt, subListFrom, subListUntil, aliasedCreate, propertyCreate2, propertyError,
          functionInvocationPattern, distance, percentile, quantified, firstErr, errOf, nilErr, missing, Val.bad, hv, hn, ho]

/-- C72: subqueries and unions report nil. -/
theorem C72_statements (b : Base) (k : Key) (ks : Nat → Key) (all : Bool) (ss : List (Option Stmt)) (h : none ∈ ss) :
    (b.callNil).err ≠ none ∧ ∃ v e al n qs, unionNil k ks all ss = .union v (some e) al n qs := by
  constructor
  · unfold Base.callNil
    cases hb : b.err <;> simp [Base.dead]
  · unfold unionNil
    split
    · exact ⟨_, _, _, _, _, rfl⟩
    · have ha : ss.all Option.isSome = false := by
        simpa using h
      split
      · rename_i rest _
        split
        · exact ⟨_, _, _, _, _, rfl⟩
        · rw [if_neg]
          · exact ⟨_, _, _, _, _, rfl⟩
          · have : none ∈ rest := by simpa using h
            simpa using this
      · rw [if_neg (by simp [ha])]
        exact ⟨_, _, _, _, _, rfl⟩

-- `Union(q, nil, q)`
example : ∃ v e al n qs, unionNil 1 (fun i => 10 + i) true [some (.query [] none true), none, some (.query [] none true)] = .union v (some e) al n qs :=
  (C72_statements {} 1 _ true _ (by simp)).2

/-! ### Without nil, this is the model of the other files -/

/-- C72: without nil among the arguments, CREATE, MERGE and DELETE do what the other properties say. -/
theorem C72_same_updates (b : Base) (t : UpdType) (ks : UpdKeys) (vs : List Val) :
    b.openUpdateN t ks (vs.map some) = .ok (b.openUpdate u t ks (.exprs vs)) := by
  unfold Base.openUpdateN Base.openUpdate
  rw [guarded_some]
  have hx : updBuilderN t ks (vs.map some) = .ok (updBuilder t ks vs) := by
    cases t <;> simp only [updBuilderN, asserted_some] <;> first | rfl | (cases vs <;> rfl)
  cases hb : b.err with
  | some e => simp [firstErr]
  | none =>
    cases hv : errsOf vs with
    | some e => simp [firstErr, Args.namedErr, Args.vals, hv]
    | none =>
      simp only [firstErr, Args.namedErr, Args.vals, hv, hx, Outcome.map]
      unfold Base.update
      cases updBuilder t ks vs <;> rfl

/-- C72: so does SET. -/
theorem C72_same_set (b : Base) (ks : UpdKeys) (vs : List Val) : b.setN ks (vs.map some) = .ok (b.set ks vs) := by
  unfold Base.setN Base.set
  rw [guarded_some]
  cases hb : b.err with
  | some e => simp [firstErr]
  | none =>
    cases hv : errsOf vs with
    | some e => simp [firstErr]
    | none =>
      have hc : b.closeUpdate.err = none := by unfold Base.closeUpdate; split <;> simp [hb]
      simp only [firstErr, updBuilderN, asserted_some, Outcome.map, Base.updB, hc, hv]
      cases updBuilder .set ks vs <;> rfl

theorem scan_all (vs : List Val) : scanArgs (vs.map some) = .ok (match errsOf vs with | some e => .error e | none => .ok vs) := by
  induction vs with
  | nil => rfl
  | cons v vs ih =>
    cases hv : v.err with
    | some e => simp [scanArgs, errsOf, firstErr, hv]
    | none =>
      have h : errsOf (v :: vs) = errsOf vs := by simp [errsOf, firstErr, hv]
      rw [h, List.map_cons, scanArgs, ih]
      simp only [hv, Outcome.map]
      cases errsOf vs <;> rfl

/-- C72: without nil, lists are the lists of Exprs.lean, which the other properties are about. -/
theorem C72_same_lists (k kl : Key) (vs : List Val) :
    expressionListN k (vs.map some) = .ok (expressionList k vs) ∧ listOfN k kl (vs.map some) = .ok (listExpression k kl vs) := by
  unfold expressionListN listOfN
  rw [scan_all]
  cases h : errsOf vs <;> simp [Outcome.map, listExpression, expressionList, h, Val.bad, Val.mk']

example : (match listOfN 1 2 [some (stringLiteral 3 c!"a"), some (stringLiteral 4 c!"b")] with | .ok v => text v.visit | .panic => []) = c!"['a', 'b']" := by
  decide +kernel

/-- C72: without nil, WITH, UNWIND and unions are those of Builder.lean and Clauses.lean. -/
theorem C72_same_others (b : Base) (wks : WithKeys) (d : Bool) (vs : List Val) (k kn : Key) (v : Val) (x : Str) (ks : Nat → Key) (all : Bool) (ss : List Stmt) :
    b.withNextN wks d (vs.map some) = (b.with_ u wks d (.exprs vs)).next ∧
    (∀ ts, unwindAccept u k kn (some v) x = .ok ts → ts = .ok (unwindCreate u k kn v x).val.visit ∧ (unwindCreate u k kn v x).val.err = none) ∧
    (∀ e, unwindAccept u k kn (some v) x = .error e → (unwindCreate u k kn v x).val.err = some e) ∧
    unionNil k ks all (ss.map some) = unionImpl k ks all ss := by
  refine ⟨?_, ?_, ?_, ?_⟩
  · unfold Base.withNextN Base.with_ WithB.next
    rw [guarded_some]
    cases hb : b.err with
    | some e => simp [firstErr]
    | none =>
      cases hv : errsOf vs with
      | some e => simp [firstErr, Args.namedErr, Args.vals, hv]
      | none =>
        cases vs with
        | nil => simp [firstErr, Args.namedErr, Args.vals, hv, withCreate]
        | cons w ws =>
          have hs : scanArgs (some w :: ws.map some) = .ok (.ok (w :: ws)) := scan_some (w :: ws) hv
          simp [firstErr, Args.namedErr, Args.vals, hv, hs, Outcome.bind]
  · intro ts h
    unfold unwindAccept at h
    simp only at h
    split at h
    · cases h
    · rename_i hn; cases h; exact ⟨rfl, hn⟩
  · intro e h
    unfold unwindAccept at h
    simp only at h
    split at h
    · rename_i hn; cases h; exact hn
    · cases h
  · have h1 : ∀ l : List Stmt, (l.map some).all Option.isSome = true := fun l => by simp
    have h2 : ∀ l : List Stmt, (l.map some).reduceOption = l := fun l => by induction l <;> simp_all [List.reduceOption]
    unfold unionNil
    split
    · rename_i hl; simp at hl; simp [unionImpl, hl]
    · rename_i hl
      simp at hl
      cases ss with
      | nil => simp at hl
      | cons s rest =>
        cases s with
        | query a b c => simp only [List.map_cons]; rw [← List.map_cons, h1, h2]; simp
        | union v e all' nn qs =>
          simp only [List.map_cons, h1, h2, if_true]
          split
          · rename_i hne
            simp at hl
            simp [unionImpl, hne, show ¬ (rest.length + 1 < 2) by omega]
          · rfl

example : (match ({} : Base).withNextN ⟨1, 2, 3, 4, 5⟩ true [some (stringLiteral 6 c!"a")] with
    | .ok b => b.parts.length
    | .panic => 0) = 1 ∧
    text (unionNil 1 (fun i => 10 + i) true [some (.query [leaf 2 c!"A"] none true), some (.query [leaf 3 c!"B"] none true)]).visit = c!"A UNION ALL B" := by
  constructor
  · rfl
  · decide +kernel

/-- C72: so do RETURN, MATCH and the arguments of procedures. -/
theorem C72_same_clauses (k ko kw : Key) (d : Bool) (vs : List Val) (o : OrderB) (c : Option Cond) :
    returnAccept k ko d (vs.map some) o = .ok (visitIfNotNull (returnCreate k ko d vs o)) ∧
    (∀ ts, matchAccept k kw d (vs.map some) c = .ok ts → ts = .ok (matchCreate k kw d vs c).val.visit ∧ (matchCreate k kw d vs c).val.err = none) ∧
    (∀ e, matchAccept k kw d (vs.map some) c = .error e → (matchCreate k kw d vs c).val.err = some e) ∧
    (∀ ts, argumentsAccept k (vs.map some) = .ok ts → ts = .ok (argumentsCreate k vs).visit ∧ (argumentsCreate k vs).err = none) ∧
    (∀ e, argumentsAccept k (vs.map some) = .error e → (argumentsCreate k vs).err = some e) := by
  refine ⟨?_, ?_, ?_, ?_, ?_⟩
  · unfold returnAccept returnCreate
    cases vs with
    | nil => rfl
    | cons v vs => rw [accepted_some]; simp [Outcome.map, returnItems, visitIfNotNull]
  · intro ts h
    unfold matchAccept at h
    unfold matchCreate
    simp only at h ⊢
    split at h <;> rename_i hw
    · cases h
    · rw [accepted_some] at h
      cases h
      simp [hw, Outcome.map]
  · intro e h
    unfold matchAccept at h
    unfold matchCreate
    simp only at h ⊢
    split at h <;> rename_i hw
    · cases h; simp [hw, Val.bad]
    · cases h
  · intro ts h
    unfold argumentsAccept at h
    unfold argumentsCreate
    rw [guarded_some] at h
    split at h <;> rename_i hw
    · cases h
    · rw [accepted_some] at h; cases h; simp [hw, Outcome.map]
  · intro e h
    unfold argumentsAccept at h
    unfold argumentsCreate
    rw [guarded_some] at h
    split at h <;> rename_i hw
    · cases h; simp [hw, Val.bad]
    · cases h

/-! ### Where it is not -/

/-- No argument has an error. -/
def NoErrors (xs : List Arg) : Prop := ∀ v, some v ∈ xs → v.err = none

theorem NoErrors.guarded {xs : List Arg} (h : NoErrors xs) : guardedErr xs = none := by
  induction xs with
  | nil => rfl
  | cons x xs ih =>
    have ih' : firstErr (xs.map errOf) = none := ih fun v hv => h v (by simp [hv])
    cases x with
    | none => simpa [guardedErr, errOf, firstErr] using ih'
    | some v => simpa [guardedErr, errOf, firstErr, h v (by simp)] using ih'

/-- C72: DELETE, SET, WITH, lists and functions panic when they are given nil. -/
theorem C72_call_panics (b : Base) (hb : b.err = none) (xs : List Arg) (hx : NoErrors xs) (hn : none ∈ xs) (ks : UpdKeys) (wks : WithKeys)
    (k kl : Key) (d : Bool) (f : FnDef) :
    b.openUpdateN (.delete d) ks xs = .panic ∧ b.setN ks xs = .panic ∧ b.withNextN wks d xs = .panic ∧
    expressionListN k xs = .panic ∧ listOfN k kl xs = .panic ∧ functionInvocation k kl f xs = .panic := by
  have hg := hx.guarded
  have hs := scan_nil xs hg hn
  have ha := asserted_nil xs hn
  have hne : xs ≠ [] := by rintro rfl; simp at hn
  refine ⟨?_, ?_, ?_, ?_, ?_, ?_⟩
  · simp [Base.openUpdateN, hb, hg, firstErr, updBuilderN, ha, Outcome.map]
  · simp [Base.setN, hb, hg, firstErr, updBuilderN, ha, Outcome.map]
  · simp [Base.withNextN, hb, hg, firstErr, hs, hne, Outcome.bind]
  · simp [expressionListN, hs, Outcome.map]
  · simp [listOfN, hs, Outcome.map]
  · simp [functionInvocation, hs, Outcome.map]

/-- C72: CREATE and MERGE panic when the first pattern is nil, and forget a nil that comes later, like every pattern but the first. -/
theorem C72_patterns (b : Base) (hb : b.err = none) (p : Val) (hp : p.err = none) (xs : List Arg) (hx : NoErrors xs) (ks : UpdKeys) :
    b.openUpdateN .create ks (none :: xs) = .panic ∧ b.openUpdateN .merge ks (none :: xs) = .panic ∧
    b.openUpdateN .create ks (some p :: xs) = b.openUpdateN .create ks [some p] ∧
    b.openUpdateN .merge ks (some p :: xs) = b.openUpdateN .merge ks [some p] := by
  have h1 : guardedErr (none :: xs) = none := NoErrors.guarded fun v hv => hx v (by simpa using hv)
  have h2 : guardedErr (some p :: xs) = none := NoErrors.guarded fun v hv => by
    rcases List.mem_cons.mp hv with h | h
    · cases h; exact hp
    · exact hx v h
  have h3 : guardedErr [some p] = none := by simp [guardedErr, errOf, firstErr, hp]
  refine ⟨?_, ?_, ?_, ?_⟩ <;> simp [Base.openUpdateN, hb, h1, h2, h3, firstErr, updBuilderN, Outcome.map]

/-- C72: RETURN, MATCH, UNWIND, ORDER BY and the arguments of a procedure take nil without error, and panic when the statement is
rendered. -/
theorem C72_render_panics (k ko kw : Key) (d : Bool) (xs : List Arg) (hx : NoErrors xs) (hn : none ∈ xs) (o : OrderB) (c : Option Cond)
    (hc : ∀ c', c = some c' → c'.toVal.err = none) (name : Str) :
    returnAccept k ko d xs o = .panic ∧ matchAccept k kw d xs c = .ok .panic ∧ unwindAccept u k ko none name = .ok .panic ∧
    argumentsAccept k xs = .ok .panic ∧ sortAccept (.create k none .undefined) = .panic := by
  have hg := hx.guarded
  have ha := accepted_nil xs hn
  have hne : xs ≠ [] := by rintro rfl; simp at hn
  have hw : errOf ((builtCondition c).map fun c => whereCreate kw c.toVal) = none := by
    cases c with
    | none => rfl
    | some c' =>
      have := hc c' rfl
      simp only [builtCondition]
      split <;> simp [errOf, whereCreate, this]
  refine ⟨?_, ?_, rfl, ?_, rfl⟩
  · simp [returnAccept, hne, ha, Outcome.map]
  · simp [matchAccept, hw, ha, Outcome.map]
  · simp [argumentsAccept, hg, ha, Outcome.map]

/-- C72: `Where(nil)` is taken without error, and there is no condition. -/
theorem C72_where_nil (b : Base) (hb : b.err = none) :
    b.whereNil.err = none ∧ b.whereNil.omatch.build = matchCreate b.omatch.k b.omatch.kw b.omatch.optional b.omatch.patterns none := by
  simp [Base.whereNil, hb, MatchB.build]

/-- C72: after `And(nil)` or `Or(nil)` there is no error; the condition is gone as a whole. -/
theorem C72_where_vanishes (b b' : Base) (hb : b.err = none) (op : Op) (h : b.combineNil op = .ok (some b')) :
    b'.err = none ∧ b'.omatch.build = matchCreate b.omatch.k b.omatch.kw b.omatch.optional b.omatch.patterns none := by
  have hbad : ∀ e, builtCondition (some (.bad e)) = none := fun e => rfl
  have hm : ∀ c x, Verif.combineNil c op = .ok x → builtCondition (some x) = none := by
    intro c x hx
    unfold Verif.combineNil at hx
    split at hx
    · split at hx
      · cases hx
      · cases hx; rfl
    · cases hx; rfl
  have hk : ∀ x, builtCondition (some x) = none →
      ({ b with omatch := { b.omatch with cond := some x } } : Base).omatch.build = matchCreate b.omatch.k b.omatch.kw b.omatch.optional b.omatch.patterns none := by
    intro x hx
    simp only [MatchB.build, matchCreate, hx]
    rfl
  unfold Base.combineNil at h
  rw [hb] at h
  simp only at h
  split at h
  · cases h
  · rename_i c _
    split at h
    · cases hc : Verif.combineNil c op with
      | ok x => rw [hc] at h; cases h; exact ⟨rfl, hk x (hm _ _ hc)⟩
      | holdsNil => rw [hc] at h; cases h
    · split at h
      · rename_i c' _
        cases hc : Verif.combineNil c' op with
        | ok x => rw [hc] at h; cases h; exact ⟨rfl, hk x (hm _ _ hc)⟩
        | holdsNil => rw [hc] at h; cases h
      · cases h

/-- C72: `And(nil)` or `Or(nil)` leaves a condition that contains nil, so that rendering panics, exactly if the condition is a combination with the same
operator, or the empty condition; without a condition, or with one that cannot be extended, the call itself panics. -/
theorem C72_nil_inside (b : Base) (hb : b.err = none) (op : Op) :
    (b.combineNil op = .ok none ↔ ∃ k op' cs isEmpty err nn hasCopy cp, b.omatch.cond = some (.compound k op' cs isEmpty err nn hasCopy cp) ∧
      (isEmpty = true ∨ op' = some op)) ∧
    (b.combineNil op = .panic ↔ ∀ c, b.omatch.cond = some c → c.isCompound = false ∧ c.recv = none) := by
  unfold Base.combineNil
  rw [hb]
  cases hc : b.omatch.cond with
  | none => simp
  | some c =>
    cases c with
    | compound k op' cs isEmpty err nn hasCopy cp =>
      by_cases h : isEmpty = true ∨ op' = some op
      · simp only [Cond.isCompound, if_true, combineNil, h]
        refine ⟨⟨fun _ => ⟨k, op', cs, isEmpty, err, nn, hasCopy, cp, rfl, h⟩, fun _ => trivial⟩, by simp⟩
      · simp only [Cond.isCompound, if_true, combineNil, h, if_false]
        refine ⟨⟨fun hh => by simp at hh, ?_⟩, by simp⟩
        rintro ⟨_, _, _, _, _, _, _, _, he, hh⟩
        cases he
        exact absurd hh h
    | atom v =>
      cases hr : (Cond.atom v).recv with
      | none => simp [Cond.isCompound, hr]
      | some c' =>
        have : ∃ w, c' = .atom w := by
          cases hv : v.recv <;> simp [Cond.recv, hv] at hr
          exact ⟨_, hr.symm⟩
        obtain ⟨w, rfl⟩ := this
        simp [Cond.isCompound, hr, combineNil]
    | neg k kn c0 =>
      cases hr : (Cond.neg k kn c0).recv with
      | none => simp [Cond.isCompound, hr]
      | some c' =>
        have : c' = .neg k kn c0 := by
          simp only [Cond.recv] at hr
          split at hr <;> simp at hr
          exact hr.symm
        subst this
        simp [Cond.isCompound, hr, combineNil]

/-- What `Delete(x)` and `Build()` give on a builder. -/
def SampleNil.deleted (b : Outcome (Option Base)) : Str :=
  match b with
  | .ok (some b) => match (Base.openUpdate .ascii b (.delete false) (uk 9) (.exprs [x])).build with | .ok (.ok s) => text s.visit | .ok (.error _) => c!"error" | .panic => c!"panic"
  | .ok none => c!"nil inside"
  | .panic => c!"panic"

def SampleNil.matched (c : Option Cond) : Base := { omatch := { k := 1, kw := 2, patterns := [p], cond := c, notNil := true } }

open SampleNil in
/-- C72: `Match(p).Where(a).And(nil).Delete(x)` deletes what `Match(p).Delete(x)` deletes, and so do `Match(p).Where(nil).Delete(x)` and
`Match(p).Where(a.And(b)).Or(nil).Delete(x)`; after `Where(a.And(b)).And(nil)` rendering panics, after `Match(p).And(nil)` the call. -/
theorem C72_deletes_everything :
    deleted (.ok (some (matched (some ca.build)))) = c!"MATCH (p) WHERE a DELETE x " ∧
    deleted ((matched (some ca.build)).combineNil .and) = c!"MATCH (p) DELETE x " ∧
    deleted (.ok (some (matched none).whereNil)) = c!"MATCH (p) DELETE x " ∧
    deleted ((matched (some (Calls.bin (ck 0) .and ca cb).build)).combineNil .or) = c!"MATCH (p) DELETE x " ∧
    deleted ((matched (some (Calls.bin (ck 0) .and ca cb).build)).combineNil .and) = c!"nil inside" ∧
    deleted ((matched none).combineNil .and) = c!"panic" := by decide +kernel

-- nil is put into the empty condition, too
example : (SampleNil.matched (some Cond.empty)).combineNil .or = .ok none := rfl
example : (SampleNil.matched (some Cond.empty)).combineNil .or = .ok none ↔ ∃ k op' cs isEmpty err nn hasCopy cp,
    (SampleNil.matched (some Cond.empty)).omatch.cond = some (.compound k op' cs isEmpty err nn hasCopy cp) ∧ (isEmpty = true ∨ op' = some .or) :=
  (C72_nil_inside _ rfl .or).1

-- the hypotheses hold for `Delete(x, nil)`, `Create(p, nil)`, and a builder that was just made
example : (({} : Base).err = none) ∧ NoErrors [some x, none] ∧ (none : Arg) ∈ [some x, none] ∧ p.err = none := by
  refine ⟨rfl, ?_, by simp, rfl⟩
  intro v hv
  simp only [List.mem_cons, Option.some.injEq, List.not_mem_nil, or_false, reduceCtorEq] at hv
  subst hv; rfl

-- `Create(p, nil)` does open a clause
example : ∃ b, ({} : Base).openUpdateN .create (uk 0) [some p, none] = .ok b ∧ b.oupdate.isSome = true := ⟨_, rfl, rfl⟩

-- operators with nil: `a = nil`
example : (comparisonCreate 1 2 3 (some x) .equality none).err ≠ none := by decide +kernel

end

end Verif
