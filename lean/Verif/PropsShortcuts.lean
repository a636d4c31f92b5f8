import Verif.Shortcuts
import Verif.PropsPatterns
import Verif.PropsClauses

/-
C48 temporal functions, C49 lists and sort items of raw values, C50 shortcut methods.
-/

namespace Verif
open Spec

/-- An identifier of ASCII letters is printed as it is. -/
theorem word_plain (u : Unicode) (s : Str) (h : s ≠ []) (ha : ∀ c ∈ s, c.toNat < 128 ∧ c.isAlpha = true) : escapeIfNecessary u s = s := by
  have hl : ∀ c ∈ s, u.isLetter c = true := fun c hc => by rw [u.letter_ascii c (ha c hc).1]; exact (ha c hc).2
  have : isIdentifier u s = true := by
    cases s with
    | nil => exact absurd rfl h
    | cons c cs =>
      simp only [isIdentifier, Bool.and_eq_true, List.all_eq_true]
      refine ⟨by simp [identStart, hl c (by simp)], fun x hx => ?_⟩
      simp [identRest, hl x (by simp [hx])]
  simp [escapeIfNecessary, this]

section
variable {e : Env} (u : Unicode)

/-! ### C48 Temporal functions -/

/-- The term of an entry of a map of numbers. -/
def componentTms (ks kl : Nat → Key) : Nat → List (Str × Int) → List Tm
  | _, [] => []
  | i, (name, value) :: rest =>
    .node (ks (2 * i)) (name ++ c!": ") [] false [.node (kl i) (intLiteralText value) [] false []] :: componentTms ks kl (i + 1) rest

theorem components_ok (ks kl : Nat → Key) (known : List Str) (i : Nat) (ps : List (Str × Int))
    (hw : ∀ p ∈ ps, escapeIfNecessary u p.1 = p.1) (hn : (ps.map (·.1)).Nodup) (hk : ∀ p ∈ ps, p.1 ∉ known) :
    ∃ vs, mapEntries u ks known i (componentArgs kl i ps) = .ok (.ok vs) ∧ errsOf vs = none ∧
      visitsOf vs = Tm.treesL (componentTms ks kl i ps) := by
  induction ps generalizing known i with
  | nil => exact ⟨[], rfl, rfl, rfl⟩
  | cons p ps ih =>
    obtain ⟨name, value⟩ := p
    simp only [List.map_cons, List.nodup_cons] at hn
    obtain ⟨vs, h1, h2, h3⟩ := ih (name :: known) (i + 1) (fun p hp => hw p (by simp [hp])) hn.2 (by
      intro p hp
      simp only [List.mem_cons, not_or]
      exact ⟨fun h => hn.1 (h ▸ List.mem_map_of_mem hp), hk p (by simp [hp])⟩)
    have hx := hw (name, value) (by simp)
    have hkn := hk (name, value) (by simp)
    simp only at hx hkn
    refine ⟨entryExpression u (ks (2 * i)) name (intLiteral (kl i) value) :: vs, ?_, ?_, ?_⟩
    · rw [componentArgs, mapEntries]
      simp only [mapValue, Outcome.bind, hkn, if_false, h1, Outcome.map, Except.map]
    · simp only [errsOf, List.map_cons] at h2 ⊢
      simpa [firstErr, entryExpression, intLiteral, Val.mk'] using h2
    · simp only [visitsOf, List.flatMap_cons, componentTms, Tm.treesL, Tm.trees] at h3 ⊢
      rw [h3]
      simp [entryExpression, intLiteral, Val.mk', leaf, hx, nd]

theorem componentArgs_even (kl : Nat → Key) (i : Nat) (ps : List (Str × Int)) : (componentArgs kl i ps).length % 2 = 0 := by
  induction ps generalizing i with
  | nil => rfl
  | cons p ps ih => have := ih (i + 1); simp only [componentArgs, List.length_cons]; omega

theorem componentTms_ok (ks kl : Nat → Key) (i : Nat) (ps : List (Str × Int)) : Tm.OkL true (componentTms ks kl i ps) := by
  induction ps generalizing i with
  | nil => simp [componentTms, Tm.OkL]
  | cons p ps ih => simp [componentTms, Tm.OkL, Tm.Ok, ih, Tm.trees, Spec.One, nd]

theorem componentTms_keys (ks kl : Nat → Key) (i : Nat) (ps : List (Str × Int)) :
    ∀ k ∈ Tm.keysL (componentTms ks kl i ps), ∃ j, k = ks j ∨ k = kl j := by
  induction ps generalizing i with
  | nil => simp [componentTms, Tm.keysL]
  | cons p ps ih =>
    intro k hk
    simp only [componentTms, Tm.keysL, Tm.keys, List.append_nil, List.mem_append, List.mem_cons, List.not_mem_nil, or_false] at hk
    rcases hk with (h | h) | h
    · exact ⟨_, Or.inl h⟩
    · exact ⟨_, Or.inr h⟩
    · exact ih _ _ h

theorem componentTms_dkeys (ks kl : Nat → Key) (i : Nat) (ps : List (Str × Int)) : dkeysL (Tm.treesL (componentTms ks kl i ps)) = [] := by
  induction ps generalizing i with
  | nil => simp [componentTms, Tm.treesL, dkeysL]
  | cons p ps ih => simp [componentTms, Tm.treesL, Tm.trees, dkeysL, dkeys, nd, Vis.asAlias, ih]

/-- The text of the components. -/
def Spec.componentsText (first : Bool) : List (Str × Int) → Str
  | [] => []
  | (name, value) :: rest => (if first then [] else c!", ") ++ name ++ c!": " ++ intLiteralText value ++ componentsText false rest

theorem componentTms_parts (ks kl : Nat → Key) (i : Nat) (first : Bool) (ps : List (Str × Int)) (e : Env) :
    layout e (Tm.partsL true first (componentTms ks kl i ps)) = (componentsText first ps, e) := by
  induction ps generalizing i first with
  | nil => simp [componentTms, Tm.partsL, layout, componentsText]
  | cons p ps ih =>
    cases first <;> simp [componentTms, Tm.partsL, Tm.parts, layout, componentsText, ih, sepText]

theorem dateOf_text (k ka km : Key) (ks kl : Nat → Key) (ps : List (Str × Int)) (hw : ∀ p ∈ ps, escapeIfNecessary u p.1 = p.1)
    (hn : (ps.map (·.1)).Nodup) :
    ∃ v, dateOf u k ka km ks kl ps = .ok v ∧ v.err = none ∧
      dkeysL v.visit = [] ∧ ((∀ k', (k' = k ∨ k' = ka ∨ k' = km ∨ ∃ j, k' = ks j ∨ k' = kl j) → e.al k' = none ∧ k' ∉ dkeysL v.visit) →
        shownAs e v.visit = (c!"date({" ++ componentsText true ps ++ c!"})", e)) := by
  obtain ⟨vs, h1, h2, h3⟩ := components_ok u ks kl [] 0 ps hw hn (by simp)
  have hm : newMapExpression u km ks (componentArgs kl 0 ps) = .ok (.mk' km [nd km c!"{" c!"}" true (visitsOf vs)]) := by
    rw [newMapExpression, if_neg (by simp [componentArgs_even]), h1]
    simp [Outcome.map, mapExpression, h2]
  refine ⟨invocation k ka c!"date" [nd km c!"{" c!"}" true (visitsOf vs)], ?_, rfl, ?_, ?_⟩
  · rw [dateOf, hm]
    simp [Outcome.bind, functionInvocation, scanArgs, Outcome.map, Except.map, Val.mk', fnDate, visitsOf]
  · simp [invocation, Val.mk', dkeysL, dkeys, nd, Vis.asAlias, h3, componentTms_dkeys]
  · intro ha
    have := shown_self (e := e) (vis := (invocation k ka c!"date" [nd km c!"{" c!"}" true (visitsOf vs)]).visit)
      (.node k c!"date(" c!")" false [.node ka [] [] true [.node km c!"{" c!"}" true (componentTms ks kl 0 ps)]])
      (ps := [.lit (c!"date({" ++ componentsText true ps ++ c!"})")]) ?_ ?_ ?_ ?_
    · rw [this]; simp [layout]
    · simp [invocation, Val.mk', Tm.trees, Tm.treesL, h3]
    · simp [Tm.Ok, Tm.OkL, componentTms_ok, Tm.trees, Spec.One, nd]
    · intro k' hk'
      apply ha
      simp only [Tm.keys, Tm.keysL, List.append_nil, List.mem_cons] at hk'
      rcases hk' with h | h | h | h
      · simp [h]
      · simp [h]
      · simp [h]
      · exact Or.inr (Or.inr (Or.inr (componentTms_keys _ _ _ _ _ h)))
    · simp [Tm.parts, Tm.partsL, layout, layout_append, sepText, componentTms_parts]

/-- Numbers below 10^10 are printed as numerals of their value. -/
theorem numeral_small (i : Int) (h : i.natAbs < 10 ^ 10) : readInt (intLiteralText i) = some i := by
  rw [C06_int_literal_partial, if_pos h]

/-- C48: the four ways to give the parts of a date, for numbers below 10^10.  Missing: larger numbers, for which C06 fails. -/
theorem C48_dates_partial (k ka km : Key) (ks kl : Nat → Key) (y m d : Int) (hy : y.natAbs < 10 ^ 10) (hm : m.natAbs < 10 ^ 10)
    (hd : d.natAbs < 10 ^ 10) (ha : ∀ k', (k' = k ∨ k' = ka ∨ k' = km ∨ ∃ j, k' = ks j ∨ k' = kl j) → e.al k' = none) :
    ∃ ty tm td, readInt ty = some y ∧ readInt tm = some m ∧ readInt td = some d ∧
      (∃ v, calendarDate u k ka km ks kl y m d = .ok v ∧ v.err = none ∧
        shownAs e v.visit = (c!"date({year: " ++ ty ++ c!", month: " ++ tm ++ c!", day: " ++ td ++ c!"})", e)) ∧
      (∃ v, weekDate u k ka km ks kl y m d = .ok v ∧ v.err = none ∧
        shownAs e v.visit = (c!"date({year: " ++ ty ++ c!", week: " ++ tm ++ c!", dayOfWeek: " ++ td ++ c!"})", e)) ∧
      (∃ v, quarterDate u k ka km ks kl y m d = .ok v ∧ v.err = none ∧
        shownAs e v.visit = (c!"date({year: " ++ ty ++ c!", quarter: " ++ tm ++ c!", dayOfQuarter: " ++ td ++ c!"})", e)) ∧
      (∃ v, ordinalDate u k ka km ks kl y d = .ok v ∧ v.err = none ∧
        shownAs e v.visit = (c!"date({year: " ++ ty ++ c!", ordinalDay: " ++ td ++ c!"})", e)) := by
  have key : ∀ ps : List (Str × Int), (∀ p ∈ ps, escapeIfNecessary u p.1 = p.1) → (ps.map (·.1)).Nodup →
      ∃ v, dateOf u k ka km ks kl ps = .ok v ∧ v.err = none ∧ shownAs e v.visit = (c!"date({" ++ componentsText true ps ++ c!"})", e) := by
    intro ps hw hn
    obtain ⟨v, h1, h2, h3, h4⟩ := dateOf_text (e := e) u k ka km ks kl ps hw hn
    exact ⟨v, h1, h2, h4 fun k' hk' => ⟨ha k' hk', by rw [h3]; simp⟩⟩
  have w : ∀ s : Str, s ≠ [] → (s.all fun c => c.toNat < 128 && c.isAlpha) = true → escapeIfNecessary u s = s := by
    intro s h1 h2
    exact word_plain u s h1 fun c hc => by simpa using List.all_eq_true.mp h2 c hc
  refine ⟨intLiteralText y, intLiteralText m, intLiteralText d, numeral_small y hy, numeral_small m hm, numeral_small d hd, ?_, ?_, ?_, ?_⟩
  · obtain ⟨v, h1, h2, h3⟩ := key [(c!"year", y), (c!"month", m), (c!"day", d)] (by
      intro p hp
      simp only [List.mem_cons, List.not_mem_nil, or_false] at hp
      rcases hp with rfl | rfl | rfl <;> exact w _ (by simp) (by dsimp only; decide)) (by simp)
    exact ⟨v, h1, h2, by rw [h3]; simp [componentsText]⟩
  · obtain ⟨v, h1, h2, h3⟩ := key [(c!"year", y), (c!"week", m), (c!"dayOfWeek", d)] (by
      intro p hp
      simp only [List.mem_cons, List.not_mem_nil, or_false] at hp
      rcases hp with rfl | rfl | rfl <;> exact w _ (by simp) (by dsimp only; decide)) (by simp)
    exact ⟨v, h1, h2, by rw [h3]; simp [componentsText]⟩
  · obtain ⟨v, h1, h2, h3⟩ := key [(c!"year", y), (c!"quarter", m), (c!"dayOfQuarter", d)] (by
      intro p hp
      simp only [List.mem_cons, List.not_mem_nil, or_false] at hp
      rcases hp with rfl | rfl | rfl <;> exact w _ (by simp) (by dsimp only; decide)) (by simp)
    exact ⟨v, h1, h2, by rw [h3]; simp [componentsText]⟩
  · obtain ⟨v, h1, h2, h3⟩ := key [(c!"year", y), (c!"ordinalDay", d)] (by
      intro p hp
      simp only [List.mem_cons, List.not_mem_nil, or_false] at hp
      rcases hp with rfl | rfl <;> exact w _ (by simp) (by dsimp only; decide)) (by simp)
    exact ⟨v, h1, h2, by rw [h3]; simp [componentsText]⟩

example : (match quarterDate .ascii 200 201 202 (300 + ·) (400 + ·) 2020 3 (-7) with | .ok v => text v.visit | .panic => []) =
    c!"date({year: 2020, quarter: 3, dayOfQuarter: -7})" := by decide +kernel

/-- The documented names of the functions that take a string. -/
def Spec.temporalName : TemporalFn → Str
  | .date => c!"date"
  | .dateTime => c!"datetime"
  | .localDateTime => c!"localdatetime"
  | .localTime => c!"localtime"
  | .time => c!"time"
  | .duration => c!"duration"

/-- C48: the functions that take a string: one string literal that reads back as the given string; the empty string is an error. -/
theorem C48_strings (f : TemporalFn) (k ka kl : Key) (s : Str) :
    (s = [] → ∃ v er, withTemporal f k ka kl s = .ok v ∧ v.err = some er) ∧
    (s ≠ [] → ∃ v t, withTemporal f k ka kl s = .ok v ∧ v.err = none ∧ (∀ rest, readString (t ++ rest) = some (s, rest)) ∧
      (NoAlias e [k, ka, kl] [] → shownAs e v.visit = (temporalName f ++ c!"(" ++ t ++ c!")", e))) := by
  refine ⟨fun h => ⟨_, _, by rw [withTemporal, if_pos h], rfl⟩, fun h => ?_⟩
  have hf : f.fn.name = temporalName f := by cases f <;> rfl
  refine ⟨invocation k ka (temporalName f) [leaf kl (stringLiteralText s)], stringLiteralText s, ?_, rfl, C01_string_round_trip s, ?_⟩
  · rw [withTemporal, if_neg h]
    simp [functionInvocation, scanArgs, stringLiteral, Val.mk', Outcome.map, Except.map, visitsOf, hf]
  · intro ha
    have := shown_self (e := e) (vis := (invocation k ka (temporalName f) [leaf kl (stringLiteralText s)]).visit)
      (.node k (temporalName f ++ c!"(") c!")" false [.node ka [] [] true [.node kl (stringLiteralText s) [] false []]])
      (ps := [.lit (temporalName f ++ c!"(" ++ stringLiteralText s ++ c!")")]) ?_ ?_ ?_ ?_
    · rw [this]; simp [layout]
    · simp [invocation, Val.mk', Tm.trees, Tm.treesL, leaf]
    · simp [Tm.Ok, Tm.OkL, Tm.trees, Spec.One, nd]
    · intro k' hk'
      refine ⟨(ha k' (by simpa [Tm.keys, Tm.keysL] using hk')).1, ?_⟩
      simp [invocation, Val.mk', dkeysL, dkeys, nd, leaf, Vis.asAlias]
    · simp [Tm.parts, Tm.partsL, layout, sepText]

example : (match withTemporal .duration 200 201 202 c!"it's" with | .ok v => text v.visit | .panic => []) = c!"duration('it\\'s')" := by decide +kernel

/-- The documented names of the functions that take a time zone. -/
def Spec.zoneName : ZoneFn → Str
  | .localDateTime => c!"localdatetime"
  | .localTime => c!"localtime"
  | .time => c!"time"

/-- C48: the functions that take a time zone: a map with the name of the zone; no zone is an error. -/
theorem C48_zones (f : ZoneFn) (k ka km kl : Key) (ks : Nat → Key) :
    (∃ v er, withTimezone u f k ka km ks kl none = .ok v ∧ v.err = some er) ∧
    ∀ z, ∃ v t, withTimezone u f k ka km ks kl (some z) = .ok v ∧ v.err = none ∧ (∀ rest, readString (t ++ rest) = some (z, rest)) ∧
      (NoAlias e [k, ka, km, ks 0, kl] [] → shownAs e v.visit = (zoneName f ++ c!"({timezone: " ++ t ++ c!"})", e)) := by
  refine ⟨⟨_, _, rfl, rfl⟩, fun z => ?_⟩
  have hf : f.fn.name = zoneName f := by cases f <;> rfl
  have hw : escapeIfNecessary u c!"timezone" = c!"timezone" :=
    word_plain u _ (by simp) fun c hc => by simpa using List.all_eq_true.mp (show (c!"timezone".all fun c => c.toNat < 128 && c.isAlpha) = true by decide) c hc
  refine ⟨invocation k ka (zoneName f) [nd km c!"{" c!"}" true [nd (ks 0) c!"timezone: " [] false [leaf kl (stringLiteralText z)]]],
    stringLiteralText z, ?_, rfl, C01_string_round_trip z, ?_⟩
  · simp [withTimezone, newMapExpression, mapEntries, mapValue, Outcome.bind, Outcome.map, Except.map, mapExpression, errsOf, entryExpression,
      stringLiteral, Val.mk', firstErr, visitsOf, hw, functionInvocation, scanArgs, hf]
  · intro ha
    have := shown_self (e := e)
      (vis := (invocation k ka (zoneName f) [nd km c!"{" c!"}" true [nd (ks 0) c!"timezone: " [] false [leaf kl (stringLiteralText z)]]]).visit)
      (.node k (zoneName f ++ c!"(") c!")" false [.node ka [] [] true [.node km c!"{" c!"}" true [.node (ks 0) c!"timezone: " [] false [.node kl (stringLiteralText z) [] false []]]]])
      (ps := [.lit (zoneName f ++ c!"({timezone: " ++ stringLiteralText z ++ c!"})")]) ?_ ?_ ?_ ?_
    · rw [this]; simp [layout]
    · simp [invocation, Val.mk', Tm.trees, Tm.treesL, leaf]
    · simp [Tm.Ok, Tm.OkL, Tm.trees, Spec.One, nd]
    · intro k' hk'
      refine ⟨(ha k' (by simpa [Tm.keys, Tm.keysL] using hk')).1, ?_⟩
      simp [invocation, Val.mk', dkeysL, dkeys, nd, leaf, Vis.asAlias]
    · simp [Tm.parts, Tm.partsL, layout, sepText]

example : (match withTimezone .ascii .localTime 200 201 202 (300 + ·) 203 (some c!"Europe/Berlin") with | .ok v => text v.visit | .panic => []) =
    c!"localtime({timezone: 'Europe/Berlin'})" := by decide +kernel

/-- C48 fails for numbers from 10^10 on: `CalendarDate(20000000001, 1, 1)`. -/
theorem C48_large_number : (match calendarDate .ascii 200 201 202 (300 + ·) (400 + ·) 20000000001 1 1 with | .ok v => text v.visit | .panic => []) =
    c!"date({year: 2e+10, month: 1, day: 1})" := by decide +kernel

/-! ### C49 Lists and sort items of raw values -/

/-- The literals `ListOfRaw` accepts. -/
def Spec.RawOk : Obj → Prop
  | .expr _ => False
  | o => Supported o

theorem Spec.RawOk.supported {o : Obj} (h : RawOk o) : Supported o := by cases o <;> simp_all [RawOk]

theorem literalOf_raw {k : Key} {o : Obj} (h : RawOk o) : literalOf k o = .ok (objVal k o) := by
  cases o with
  | expr v => exact absurd h id
  | unsupported => exact absurd h id
  | float f => exact floatLiteral_ok h
  | _ => rfl

theorem objTm_one {k : Key} {o : Obj} (h : RawOk o) : Spec.One (objTm k o).trees := by
  cases o with
  | expr v => exact absurd h id
  | unsupported => exact absurd h id
  | _ => simp [objTm, listLiteralTm, Tm.trees, Spec.One, nd]

/-- The terms of raw elements. -/
def rawElemTms (ks : Nat → Key) : Nat → List Obj → List Tm
  | _, [] => []
  | i, o :: os => objTm (ks i) o :: rawElemTms ks (i + 1) os

theorem rawLiterals_ok (ks : Nat → Key) (i : Nat) (os : List Obj) (h : ∀ o ∈ os, RawOk o) :
    ∃ vs, rawLiterals ks i os = .ok (.ok vs) ∧ errsOf vs = none ∧ visitsOf vs = Tm.treesL (rawElemTms ks i os) ∧
      Tm.OkL true (rawElemTms ks i os) ∧ (∀ k ∈ Tm.keysL (rawElemTms ks i os), k = 33 ∨ ∃ j, k = ks j) ∧
      SameParts ((rawElemTms ks i os).map Tm.parts) (os.map objParts) := by
  induction os generalizing i with
  | nil => exact ⟨[], rfl, rfl, rfl, by simp [rawElemTms, Tm.OkL], by simp [rawElemTms, Tm.keysL], .nil⟩
  | cons o os ih =>
    obtain ⟨vs, h1, h2, h3, h4, h5, h6⟩ := ih (i + 1) fun o ho => h o (by simp [ho])
    have ho := h o (by simp)
    obtain ⟨-, g1, g2, g3, g4, g5⟩ := mapValue_ok (k := ks i) ho.supported
    refine ⟨objVal (ks i) o :: vs, ?_, ?_, ?_, ?_, ?_, ?_⟩
    · simp [rawLiterals, literalOf_raw ho, Outcome.bind, g1, h1, Outcome.map, Except.map]
    · rw [errsOf_none_iff] at h2 ⊢
      intro v hv
      rcases List.mem_cons.mp hv with rfl | hv
      · exact g1
      · exact h2 v hv
    · simp only [visitsOf] at h3 ⊢
      simp [rawElemTms, Tm.treesL, h3, g2]
    · simp [rawElemTms, Tm.OkL, g3, objTm_one ho, h4]
    · intro k hk
      simp only [rawElemTms, Tm.keysL, List.mem_append] at hk
      rcases hk with hk | hk
      · rcases g4 k hk with h | h
        · exact Or.inr ⟨_, h⟩
        · exact Or.inl h
      · exact h5 k hk
    · exact .cons g5 h6

/-- C49: `ListOfRaw` prints the literals of its elements in order. -/
theorem C49_list (k kl : Key) (ks : Nat → Key) (os : List Obj) (hs : ∀ o ∈ os, RawOk o) :
    ∃ v, listOfRaw k kl ks os = .ok v ∧ v.err = none ∧
      ((∀ k', (k' = k ∨ k' = kl ∨ k' = 33 ∨ ∃ j, k' = ks j) → e.al k' = none ∧ k' ∉ dkeysL v.visit) →
        shownAs e v.visit = layout e ([.lit c!"["] ++ sepParts c!", " (os.map objParts) ++ [.lit c!"]"])) := by
  obtain ⟨vs, h1, h2, h3, h4, h5, h6⟩ := rawLiterals_ok ks 0 os hs
  refine ⟨.mk' k [nd k c!"[" c!"]" false [nd kl [] [] true (visitsOf vs)]], ?_, rfl, fun ha => ?_⟩
  · simp [listOfRaw, h1, Outcome.map, listExpression, expressionList, h2, Val.mk']
  · refine shown_self (.node k c!"[" c!"]" false [.node kl [] [] true (rawElemTms ks 0 os)]) ?_ ?_ ?_ ?_
    · simp [Val.mk', Tm.trees, Tm.treesL, h3]
    · simpa [Tm.Ok, Tm.OkL] using h4
    · intro k' hk'
      apply ha
      simp only [Tm.keys, Tm.keysL, List.append_nil, List.mem_cons] at hk'
      rcases hk' with h | h | h
      · exact Or.inl h
      · exact Or.inr (Or.inl h)
      · exact Or.inr (Or.inr (h5 k' h))
    · simp [Tm.parts, Tm.partsL, layout, layout_append, partsL_sep, sepParts_congr c!", " h6, sepText]

example : (match listOfRaw 200 201 (300 + ·) [.int 1, .str c!"a'b", .nil, .bool true] with | .ok v => text v.visit | .panic => []) =
    c!"[1, 'a\\'b', NULL, true]" ∧ ∀ o ∈ [Obj.int 1, .str c!"a'b", .nil, .bool true], RawOk o :=
  ⟨by decide +kernel, by simp [RawOk, Supported]⟩

/-- C49: other elements never give a list. -/
theorem C49_list_rejects (k kl : Key) (ks : Nat → Key) (os : List Obj) (v : Val) (h : listOfRaw k kl ks os = .ok v) (hv : v.err = none) :
    ∀ o ∈ os, RawOk o := by
  have key : ∀ i vs, rawLiterals ks i os = .ok (.ok vs) → ∀ o ∈ os, RawOk o := by
    clear h
    induction os with
    | nil => simp
    | cons o os ih =>
      intro i vs h
      simp only [rawLiterals] at h
      cases hl : literalOf (ks i) o with
      | panic => rw [hl] at h; simp [Outcome.bind] at h
      | ok w =>
        rw [hl] at h
        simp only [Outcome.bind] at h
        cases he : w.err with
        | some er => rw [he] at h; simp at h
        | none =>
          rw [he] at h
          simp only at h
          have ho : RawOk o := by
            cases o with
            | expr x => simp [literalOf] at hl
            | unsupported => simp [literalOf] at hl
            | literals xs =>
              simp only [literalOf, Outcome.ok.injEq] at hl
              subst hl
              simp only [RawOk, Supported]
              rw [← errsOf_none_iff]
              cases hx : errsOf xs with
              | none => rfl
              | some er => simp [listLiteral, hx, Val.bad] at he
            | float f =>
              intro hn
              simp [literalOf, floatLiteral, (floatText_none f).mpr hn] at hl
            | _ => simp [RawOk, Supported]
          intro x hx
          rcases List.mem_cons.mp hx with rfl | hx
          · exact ho
          · cases hr : rawLiterals ks (i + 1) os with
            | panic => rw [hr] at h; simp [Outcome.map] at h
            | ok r =>
              cases r with
              | error er => rw [hr] at h; simp [Outcome.map, Except.map] at h
              | ok ws => exact ih (i + 1) ws hr x hx
  cases hr : rawLiterals ks 0 os with
  | panic => rw [listOfRaw, hr] at h; simp [Outcome.map] at h
  | ok r =>
    cases r with
    | error er =>
      rw [listOfRaw, hr] at h
      simp only [Outcome.map, Outcome.ok.injEq] at h
      subst h
      simp [Val.bad] at hv
    | ok vs => exact key 0 vs hr

example : (match listOfRaw 200 201 (300 + ·) [.literals [.bad (.other 7)]] with | .ok v => v.err | .panic => none) = some (.other 7) := by decide +kernel

theorem first_space {x : Str} (h : ' ' ∈ x) : ∃ w d, x = w ++ ' ' :: d ∧ ' ' ∉ w := by
  induction x with
  | nil => simp at h
  | cons c cs ih =>
    by_cases hc : c = ' '
    · exact ⟨[], cs, by simp [hc], by simp⟩
    · obtain ⟨w, d, h1, h2⟩ := ih (by simpa [Ne.symm hc] using h)
      exact ⟨c :: w, d, by simp [h1], by simp [Ne.symm hc, h2]⟩

theorem splitSpaces_ne (s : Str) : splitSpaces s ≠ [] := by
  cases s with
  | nil => simp [splitSpaces]
  | cons c cs => rw [splitSpaces]; split <;> (try split) <;> simp

theorem splitSpaces_word (w : Str) (h : ' ' ∉ w) : splitSpaces w = [w] := by
  induction w with
  | nil => rfl
  | cons c cs ih =>
    have hc : c ≠ ' ' := fun hc => h (by simp [hc])
    rw [splitSpaces, ih fun hm => h (by simp [hm])]
    simp [hc]

theorem splitSpaces_two (w d : Str) (h : ' ' ∉ w) : splitSpaces (w ++ ' ' :: d) = w :: splitSpaces d := by
  induction w with
  | nil =>
    rw [List.nil_append, splitSpaces]
    cases hd : splitSpaces d with
    | nil => exact absurd hd (splitSpaces_ne d)
    | cons x xs => simp
  | cons c cs ih =>
    have hc : c ≠ ' ' := fun hc => h (by simp [hc])
    rw [List.cons_append, splitSpaces, ih fun hm => h (by simp [hm])]
    simp [hc]

/-- C49: what `SortItemsOfRaw` makes of `"name ASC"` and `"name DESC"`: the direction is kept, and the name is a string literal.
Missing: that the name is the name of something to sort by, which is false (`C49_sort_by_text`). -/
theorem C49_sort_partial (k kl : Key) (w : Str) (hw : ' ' ∉ w) (asc : Bool) :
    ∃ s t, sortItemOfRaw k kl (w ++ ' ' :: (if asc then c!"ASC" else c!"DESC")) = .ok s ∧ s.err = none ∧
      (∀ rest, readString (t ++ rest) = some (w, rest)) ∧
      (NoAlias e [k, kl, 0] [] → shownAs e s.visit = (t ++ (if asc then c!" ASC" else c!" DESC"), e)) := by
  refine ⟨.create k (some (stringLiteral kl w)) (if asc then .asc else .desc), stringLiteralText w, ?_, ?_, C01_string_round_trip w, ?_⟩
  · rw [sortItemOfRaw, splitSpaces_two w _ hw]
    cases asc <;> (rw [splitSpaces_word _ (by decide)]; rfl)
  · simp [SortItemV.create, errOf, stringLiteral, Val.mk']
  · intro ha
    have := shown_self (e := e) (vis := (SortItemV.create k (some (stringLiteral kl w)) (if asc then .asc else .desc)).visit)
      (.node k [] [] false [.node kl (stringLiteralText w) [] false [], .node 0 (if asc then c!" ASC" else c!" DESC") [] false []])
      (ps := [.lit (stringLiteralText w ++ if asc then c!" ASC" else c!" DESC")]) ?_ ?_ ?_ ?_
    · rw [this]; simp [layout]
    · cases asc <;> simp [SortItemV.create, SortItemV.visit, errOf, stringLiteral, Val.mk', Tm.trees, Tm.treesL, leaf, SortDir.visit]
    · simp [Tm.Ok, Tm.OkL]
    · intro k' hk'
      refine ⟨(ha k' (by simpa [Tm.keys, Tm.keysL] using hk')).1, ?_⟩
      cases asc <;> simp [SortItemV.create, SortItemV.visit, errOf, stringLiteral, Val.mk', leaf, SortDir.visit, dkeysL, dkeys, nd, Vis.asAlias]
    · simp [Tm.parts, Tm.partsL, layout, sepText]

example : ∃ s, sortItemOfRaw 1 2 c!"n.name DESC" = .ok s ∧ text s.visit = c!"'n.name' DESC" := ⟨_, rfl, by decide +kernel⟩

/-- C49: `SortItemsOfRaw` makes one item of each text, in their order.  Missing as in `C49_sort_partial`. -/
theorem C49_sorts_partial (ks kl : Nat → Key) (i : Nat) (xs : List (Str × Bool)) (hw : ∀ x ∈ xs, ' ' ∉ x.1) (he : ∀ k, e.al k = none) :
    ∃ ss, sortItemsOfRaw ks kl i (xs.map fun x => x.1 ++ ' ' :: (if x.2 then c!"ASC" else c!"DESC")) = .ok ss ∧
      ss.length = xs.length ∧ ∀ (n : Nat) (x : Str × Bool) (s : SortItemV), xs[n]? = some x → ss[n]? = some s →
        s.err = none ∧ ∃ t, (∀ rest, readString (t ++ rest) = some (x.1, rest)) ∧ shownAs e s.visit = (t ++ (if x.2 then c!" ASC" else c!" DESC"), e) := by
  induction xs generalizing i with
  | nil => exact ⟨[], rfl, rfl, by simp⟩
  | cons x xs ih =>
    obtain ⟨s, t, h1, h2, h3, h4⟩ := C49_sort_partial (e := e) (ks i) (kl i) x.1 (hw x (by simp)) x.2
    obtain ⟨ss, g1, g2, g3⟩ := ih (i + 1) fun y hy => hw y (by simp [hy])
    refine ⟨s :: ss, ?_, by simp [g2], fun n y r hy hr => ?_⟩
    · rw [List.map_cons, sortItemsOfRaw, h1]
      simp only [Outcome.bind, g1, Outcome.map]
    · cases n with
      | zero =>
        simp only [List.getElem?_cons_zero, Option.some.injEq] at hy hr
        subst hy hr
        exact ⟨h2, t, h3, h4 fun k _ => ⟨he k, by simp [dkeysL]⟩⟩
      | succ n => exact g3 n y r (by simpa using hy) (by simpa using hr)

example : (match sortItemsOfRaw (200 + ·) (300 + ·) 0 [c!"a ASC", c!"b DESC"] with | .ok ss => ss.map fun s => text s.visit | .panic => []) =
    [c!"'a' ASC", c!"'b' DESC"] := by decide +kernel

/-- C49 fails: `SortItemsOfRaw("n.name DESC")` sorts by a constant text. -/
theorem C49_sort_by_text :
    (match sortItemsOfRaw (200 + ·) (300 + ·) 0 [c!"n.name DESC"] with | .ok ss => ss.map fun s => text s.visit | .panic => []) =
      [c!"'n.name' DESC"] := by decide +kernel

/-- C49 fails: `SortItemsOfRaw` panics exactly if some element has no space, that is no direction. -/
theorem C49_sort_panics (ks kl : Nat → Key) (i : Nat) (es : List Str) :
    sortItemsOfRaw ks kl i es = .panic ↔ ∃ x ∈ es, ' ' ∉ x := by
  have one : ∀ k kl x, sortItemOfRaw k kl x = .panic ↔ ' ' ∉ x := by
    intro k kl x
    constructor
    · intro h hm
      obtain ⟨w, d, rfl, hw⟩ : ∃ w d, x = w ++ ' ' :: d ∧ ' ' ∉ w := by
        obtain ⟨w, d, h1, h2⟩ := first_space hm
        exact ⟨w, d, h1, h2⟩
      rw [sortItemOfRaw, splitSpaces_two w d hw] at h
      cases hd : splitSpaces d with
      | nil => exact splitSpaces_ne d hd
      | cons y ys => rw [hd] at h; simp at h
    · intro h
      rw [sortItemOfRaw, splitSpaces_word x h]
  induction es generalizing i with
  | nil => simp [sortItemsOfRaw]
  | cons x es ih =>
    rw [sortItemsOfRaw]
    cases hx : sortItemOfRaw (ks i) (kl i) x with
    | panic => simp [Outcome.bind, (one _ _ _).mp hx]
    | ok s =>
      have hm : ' ' ∈ x := by
        apply Classical.byContradiction
        intro hn
        rw [(one _ _ _).mpr hn] at hx
        cases hx
      simp only [Outcome.bind, List.mem_cons, exists_eq_or_imp, hm, not_true, false_or, ← ih (i + 1)]
      cases sortItemsOfRaw ks kl (i + 1) es <;> simp [Outcome.map]

example : sortItemsOfRaw (200 + ·) (300 + ·) 0 [c!"a ASC", c!"b"] = .panic ∧ ∃ x ∈ [c!"a ASC", c!"b"], ' ' ∉ x := ⟨rfl, c!"b", by simp, by decide⟩

/-! ### C50 Shortcut methods -/

/-- C50: list access and `range` by numbers below 10^10.  Missing: larger numbers, for which C06 fails. -/
theorem C50_numbers_partial (k kd kn kn' kn'' : Key) (t : Val) (ht : Good t) (i j s : Int) (hi : i.natAbs < 10 ^ 10) (hj : j.natAbs < 10 ^ 10)
    (hs : s.natAbs < 10 ^ 10) (ha : NoAlias e [k, kd, kn, kn', kn'', 35] t.visit) :
    ∃ ti tj ts, readInt ti = some i ∧ readInt tj = some j ∧ readInt ts = some s ∧
      shownAs e (valueAtInt k kd kn (some t) i).visit = layout e [.hole t.visit, .lit (c!"[" ++ ti ++ c!"]")] ∧
      shownAs e (subListInt k kd kn kn' (some t) i j).visit = layout e [.hole t.visit, .lit (c!"[" ++ ti ++ c!".." ++ tj ++ c!"]")] ∧
      shownAs e (subListFromInt k kd kn (some t) i).visit = layout e [.hole t.visit, .lit (c!"[" ++ ti ++ c!"..]")] ∧
      shownAs e (subListUntilInt k kd kn (some t) j).visit = layout e [.hole t.visit, .lit (c!"[.." ++ tj ++ c!"]")] ∧
      (∃ v, rangeRaw k kd kn kn' kn'' i j none = .ok v ∧ v.err = none ∧ shownAs e v.visit = (c!"range(" ++ ti ++ c!", " ++ tj ++ c!")", e)) ∧
      (∃ v, rangeRaw k kd kn kn' kn'' i j (some s) = .ok v ∧ v.err = none ∧
        shownAs e v.visit = (c!"range(" ++ ti ++ c!", " ++ tj ++ c!", " ++ ts ++ c!")", e)) := by
  have hk : ∀ k', k' ∈ [k, kd, kn, kn', kn'', 35] → e.al k' = none := fun k' h => (ha k' h).1
  have acc : ∀ (tm : List Tm) (txt : Str), (∀ k' ∈ Tm.keysL tm, k' ∈ [k, kd, kn, kn', kn'', 35]) → Tm.OkL false tm → (∀ e', layout e' (Tm.partsL false true tm) = (txt, e')) →
      dkeysL (Tm.treesL tm) = [] →
      shownAs e [nd k [] [] false (t.visit ++ [nd kd c!"[" c!"]" false (Tm.treesL tm)])] = layout e [.hole t.visit, .lit (c!"[" ++ txt ++ c!"]")] := by
    intro tm txt h1 h2 h3 h4
    refine shown_self (.node k [] [] false [.hole t.visit, .node kd c!"[" c!"]" false tm]) ?_ ?_ ?_ ?_
    · simp [Tm.trees, Tm.treesL]
    · simpa [Tm.Ok, Tm.OkL] using h2
    · intro k' hk'
      have : k' ∈ [k, kd, kn, kn', kn'', 35] := by
        simp only [Tm.keys, Tm.keysL, List.nil_append, List.append_nil, List.mem_cons] at hk'
        rcases hk' with h | h | h
        · simp [h]
        · simp [h]
        · exact h1 k' h
      refine ⟨hk k' this, ?_⟩
      simp [dkeysL, dkeys, nd, Vis.asAlias, dkeysL_append, h4, (ha k' this).2]
    · simp [Tm.parts, Tm.partsL, layout, layout_append, sepText, h3]
  have call : ∀ (tm : List Tm) (txt : Str), (∀ k' ∈ Tm.keysL tm, k' ∈ [k, kd, kn, kn', kn'', 35]) → Tm.OkL true tm → (∀ e', layout e' (Tm.partsL true true tm) = (txt, e')) →
      dkeysL (Tm.treesL tm) = [] → shownAs e (invocation k kd c!"range" (Tm.treesL tm)).visit = (c!"range(" ++ txt ++ c!")", e) := by
    intro tm txt h1 h2 h3 h4
    have := shown_self (e := e) (vis := (invocation k kd c!"range" (Tm.treesL tm)).visit) (.node k c!"range(" c!")" false [.node kd [] [] true tm])
      (ps := [.lit (c!"range(" ++ txt ++ c!")")]) ?_ ?_ ?_ ?_
    · rw [this]; simp [layout]
    · simp [invocation, Val.mk', Tm.trees, Tm.treesL]
    · simpa [Tm.Ok, Tm.OkL] using h2
    · intro k' hk'
      have : k' ∈ [k, kd, kn, kn', kn'', 35] := by
        simp only [Tm.keys, Tm.keysL, List.append_nil, List.mem_cons] at hk'
        rcases hk' with h | h | h
        · simp [h]
        · simp [h]
        · exact h1 k' h
      refine ⟨hk k' this, ?_⟩
      simp [invocation, Val.mk', dkeysL, dkeys, nd, Vis.asAlias, h4]
    · simp [Tm.parts, Tm.partsL, layout, layout_append, sepText, h3]
  refine ⟨intLiteralText i, intLiteralText j, intLiteralText s, numeral_small i hi, numeral_small j hj, numeral_small s hs, ?_, ?_, ?_, ?_, ?_, ?_⟩
  · have h := acc [.node kn (intLiteralText i) [] false []] (intLiteralText i) (by simp [Tm.keysL, Tm.keys]) (by simp [Tm.OkL, Tm.Ok])
      (by simp [Tm.partsL, Tm.parts, layout, sepText]) (by simp [Tm.treesL, Tm.trees, dkeysL, dkeys, nd, Vis.asAlias])
    rw [← h]
    simp [valueAtInt, valueAt, firstErr, errOf, nilErr, missing, ht.1, ht.2, listOperatorCreate, visitIfNotNull, Val.mk',
      intLiteral, leaf, Tm.treesL, Tm.trees]
  · have h := acc [.node kn (intLiteralText i) [] false [], .node 35 c!".." [] false [], .node kn' (intLiteralText j) [] false []]
      (intLiteralText i ++ c!".." ++ intLiteralText j) (by simp [Tm.keysL, Tm.keys]) (by simp [Tm.OkL, Tm.Ok])
      (by simp [Tm.partsL, Tm.parts, layout, sepText]) (by simp [Tm.treesL, Tm.trees, dkeysL, dkeys, nd, Vis.asAlias])
    rw [show c!"[" ++ intLiteralText i ++ c!".." ++ intLiteralText j ++ c!"]" = c!"[" ++ (intLiteralText i ++ c!".." ++ intLiteralText j) ++ c!"]" by simp, ← h]
    simp [subListInt, subList, firstErr, errOf, nilErr, missing, ht.1, ht.2, listOperatorCreate, visitIfNotNull, Val.mk',
      intLiteral, leaf, Tm.treesL, Tm.trees, dots]
  · have h := acc [.node kn (intLiteralText i) [] false [], .node 35 c!".." [] false []]
      (intLiteralText i ++ c!"..") (by simp [Tm.keysL, Tm.keys]) (by simp [Tm.OkL, Tm.Ok])
      (by simp [Tm.partsL, Tm.parts, layout, sepText]) (by simp [Tm.treesL, Tm.trees, dkeysL, dkeys, nd, Vis.asAlias])
    rw [show c!"[" ++ intLiteralText i ++ c!"..]" = c!"[" ++ (intLiteralText i ++ c!"..") ++ c!"]" by simp, ← h]
    simp [subListFromInt, subListFrom, firstErr, errOf, nilErr, missing, ht.1, ht.2, listOperatorCreate, visitIfNotNull, Val.mk',
      intLiteral, leaf, Tm.treesL, Tm.trees, dots]
  · have h := acc [.node 35 c!".." [] false [], .node kn (intLiteralText j) [] false []]
      (c!".." ++ intLiteralText j) (by simp [Tm.keysL, Tm.keys]) (by simp [Tm.OkL, Tm.Ok])
      (by simp [Tm.partsL, Tm.parts, layout, sepText]) (by simp [Tm.treesL, Tm.trees, dkeysL, dkeys, nd, Vis.asAlias])
    rw [show c!"[.." ++ intLiteralText j ++ c!"]" = c!"[" ++ (c!".." ++ intLiteralText j) ++ c!"]" by simp, ← h]
    simp [subListUntilInt, subListUntil, firstErr, errOf, nilErr, missing, ht.1, ht.2, listOperatorCreate, visitIfNotNull, Val.mk',
      intLiteral, leaf, Tm.treesL, Tm.trees, dots]
  · refine ⟨invocation k kd c!"range" (Tm.treesL [.node kn (intLiteralText i) [] false [], .node kn' (intLiteralText j) [] false []]), ?_, rfl, ?_⟩
    · simp [rangeRaw, rangeWithStep, firstErr, errOf, nilErr, missing, intLiteral, Val.mk', functionInvocation, scanArgs, Outcome.map, Except.map,
        visitsOf, Tm.treesL, Tm.trees, leaf, fnRange]
    · rw [call _ (intLiteralText i ++ c!", " ++ intLiteralText j) (by simp [Tm.keysL, Tm.keys]) (by simp [Tm.OkL, Tm.Ok, Tm.trees, Spec.One, nd])
        (by simp [Tm.partsL, Tm.parts, layout, sepText]) (by simp [Tm.treesL, Tm.trees, dkeysL, dkeys, nd, Vis.asAlias])]
      simp
  · refine ⟨invocation k kd c!"range" (Tm.treesL [.node kn (intLiteralText i) [] false [], .node kn' (intLiteralText j) [] false [],
      .node kn'' (intLiteralText s) [] false []]), ?_, rfl, ?_⟩
    · simp [rangeRaw, rangeWithStep, firstErr, errOf, nilErr, missing, intLiteral, Val.mk', functionInvocation, scanArgs, Outcome.map, Except.map,
        visitsOf, Tm.treesL, Tm.trees, leaf, fnRange]
    · rw [call _ (intLiteralText i ++ c!", " ++ intLiteralText j ++ c!", " ++ intLiteralText s) (by simp [Tm.keysL, Tm.keys])
        (by simp [Tm.OkL, Tm.Ok, Tm.trees, Spec.One, nd]) (by simp [Tm.partsL, Tm.parts, layout, sepText])
        (by simp [Tm.treesL, Tm.trees, dkeysL, dkeys, nd, Vis.asAlias])]
      simp

example : text (subListInt 200 201 202 203 (some (SampleExpr.wa)) 2 (-3)).visit = c!"a[2..-3]" ∧
    (match rangeRaw 200 201 202 203 204 1 10 (some 2) with | .ok v => text v.visit | .panic => []) = c!"range(1, 10, 2)" := by decide +kernel

/-- C50: `As`, `InternalId`, `Labels` of a node with a name, and what happens without. -/
theorem C50_node (n : NodeV) (k ka kn : Key) (s alias : Str) (he : n.err = none) (hn : n.notNil = true) (hs : s ≠ []) (h : n.name = some (kn, s))
    (hal : alias ≠ []) (ha : NoAlias e [k, ka, kn, 0] []) :
    (n.as u k alias).err = none ∧ (shownAs e (n.as u k alias).visit).1 = escapeIfNecessary u s ++ c!" AS " ++ escapeIfNecessary u alias ∧
    (∃ v, n.internalId u k ka = .ok v ∧ v.err = none ∧ shownAs e v.visit = (c!"id(" ++ escapeIfNecessary u s ++ c!")", e)) ∧
    (∃ v, n.labelsOf u k ka = .ok v ∧ v.err = none ∧ shownAs e v.visit = (c!"labels(" ++ escapeIfNecessary u s ++ c!")", e)) := by
  have h0 : ∀ k' ∈ [k, ka, kn, 0], e.al k' = none := fun k' hk => (ha k' hk).1
  have hr : n.requiredName u = .mk' kn [leaf kn (escapeIfNecessary u s)] false (.symbolicName s) := by
    simp [NodeV.requiredName, h, symbolicName, hs]
  refine ⟨?_, ?_, ?_, ?_⟩
  · simp [NodeV.as, hr, Val.mk', aliasedCreate, hal]
  · simp [NodeV.as, hr, Val.mk', aliasedCreate, hal, shownAs, denL, den, shown, h0 k (by simp), h0 kn (by simp), described, defined, leaf, nd,
      Vis.asAlias, Kind.isSub, sepText]
  all_goals
    first
    | (obtain ⟨v, h1, h2, h3⟩ := C41_node_partial (e := e) (u := u) .id k ka kn n s he hn hs h
       refine ⟨v, h1, h2, ?_⟩
       have hv : v = invocation k ka c!"id" [leaf kn (escapeIfNecessary u s)] := by
         have : fnNode u .id k ka n = .ok (invocation k ka c!"id" [leaf kn (escapeIfNecessary u s)]) := by
           simp [fnNode, he, hn, h, nameArg, symbolicName, hs, functionInvocation, scanArgs, Val.mk', Outcome.map, Except.map, visitsOf, FnNode.fn, fnId]
         rw [this] at h1
         exact (Outcome.ok.inj h1).symm
       rw [h3 (fun k' hk' => ⟨h0 k' hk', by rw [hv]; simp [invocation, Val.mk', dkeysL, dkeys, nd, leaf, Vis.asAlias]⟩)]
       simp [layout, fnNodeName]
       done)
    | (obtain ⟨v, h1, h2, h3⟩ := C41_node_partial (e := e) (u := u) .labels k ka kn n s he hn hs h
       refine ⟨v, h1, h2, ?_⟩
       have hv : v = invocation k ka c!"labels" [leaf kn (escapeIfNecessary u s)] := by
         have : fnNode u .labels k ka n = .ok (invocation k ka c!"labels" [leaf kn (escapeIfNecessary u s)]) := by
           simp [fnNode, he, hn, h, nameArg, symbolicName, hs, functionInvocation, scanArgs, Val.mk', Outcome.map, Except.map, visitsOf, FnNode.fn, fnLabels]
         rw [this] at h1
         exact (Outcome.ok.inj h1).symm
       rw [h3 (fun k' hk' => ⟨h0 k' hk', by rw [hv]; simp [invocation, Val.mk', dkeysL, dkeys, nd, leaf, Vis.asAlias]⟩)]
       simp [layout, fnNodeName]
       done)

open SamplePat in
example : let n := np.run
    n.err = none ∧ n.notNil = true ∧ n.name = some (303, c!"p") ∧ text (n.as .ascii 200 c!"the person").visit = c!"p AS `the person`" ∧
    (match n.internalId .ascii 200 201 with | .ok v => text v.visit | .panic => []) = c!"id(p)" := by
  refine ⟨rfl, rfl, rfl, ?_⟩
  decide +kernel

/-- C50: without a name, `As`, `Project` and `Property` of nodes and relationships give errors. -/
theorem C50_nameless (n : NodeV) (r : RelV) (k kl : Key) (ks : Nat → Key) (s : Str) (content : List Content) (hn : n.name = none) (hr : r.details.name = none) :
    (n.as u k s).err.isSome ∧ (n.property u k kl s).err.isSome ∧ (r.property u k kl s).err.isSome ∧
    (∃ p, n.project u k kl ks content = .ok p ∧ p.val.err.isSome) ∧ (∃ p, r.project u k kl ks content = .ok p ∧ p.val.err.isSome) := by
  refine ⟨?_, ?_, ?_, ⟨_, by simp only [NodeV.project, mapProjectionCreate, NodeV.requiredName, hn, Val.bad]; rfl, rfl⟩,
    ⟨_, by simp only [RelV.project, mapProjectionCreate, RelV.requiredName, hr, Val.bad]; rfl, rfl⟩⟩
  · simp [NodeV.as, NodeV.requiredName, hn, Val.bad]
  · cases he : n.err <;> simp [NodeV.property, he, NodeV.requiredName, hn, Val.bad, propertyError]
  · cases he : r.err <;> simp [RelV.property, he, RelV.requiredName, hr, Val.bad, propertyError]

open SamplePat in
example : na.run.name = none ∧ (RelV.create 1 2 3 na.run .ltr nb.run []).details.name = none := by decide +kernel

/-- C50: a property of a named relationship is `name.property`; it is an error if the relationship has an error or no name, or the
property name is empty. -/
theorem C50_relationship (r : RelV) (k kl : Key) (name : Str) :
    ((r.property u k kl name).err.isSome ↔ r.err.isSome ∨ r.details.name = none ∨ (∃ kn, r.details.name = some (kn, [])) ∨ name = []) ∧
    ∀ kn s, r.err = none → r.details.name = some (kn, s) → s ≠ [] → name ≠ [] → NoAlias e [k, kl, kn] (r.property u k kl name).visit →
      shownAs e (r.property u k kl name).visit = layout e [.lit (escapeIfNecessary u s), .lit c!".", .lit (if name = c!"*" then name else escapeIfNecessary u name)] := by
  have h : r.property u k kl name = ({ name := r.details.name, err := r.err } : NodeV).property u k kl name ∨
      (r.err = none ∧ r.details.name = none) := by
    rcases he : r.err with _ | er
    · rcases hn : r.details.name with _ | ⟨kn, s⟩
      · exact Or.inr ⟨rfl, rfl⟩
      · exact Or.inl (by simp [RelV.property, NodeV.property, he, RelV.requiredName, NodeV.requiredName, hn]; rfl)
    · exact Or.inl (by simp [RelV.property, NodeV.property, he])
  rcases h with h | ⟨h1, h2⟩
  · rw [h]
    exact C46_node_property _ k kl name
  · refine ⟨?_, fun kn s _ h => by rw [h2] at h; cases h⟩
    simp [RelV.property, h1, RelV.requiredName, h2, Val.bad, propertyError]

open SamplePat in
example : let r := (RelV.create 1 2 3 na.run .ltr nb.run [c!"T"]).named 4 5 c!"r"
    r.err = none ∧ r.details.name = some (5, c!"r") ∧ text (r.property .ascii 200 201 c!"since").visit = c!"r.since" := by
  refine ⟨rfl, rfl, ?_⟩
  decide +kernel

/-- C50: `Project` of a named node or relationship starts with its name. -/
theorem C50_project (n : NodeV) (r : RelV) (kn : Key) (s : Str) (hs : s ≠ []) (hn : n.name = some (kn, s)) (hr : r.details.name = some (kn, s))
    (g : Group) (hg : g.Ok) :
    ∃ p, n.project u g.k g.km g.ks (g.content u) = .ok p ∧ r.project u g.k g.km g.ks (g.content u) = .ok p ∧ p.val.err = none ∧
      ∀ e, (∀ k', (k' = kn ∨ k' = g.k ∨ k' = g.km ∨ (∃ j, k' = g.ks j) ∨ k' ∈ g.items.flatMap Item.keys) → e.al k' = none ∧ k' ∉ dkeysL p.val.visit) →
        shownAs e p.val.visit = layout e ([.lit (escapeIfNecessary u s), .lit c!"{"] ++ sepParts c!", " (g.items.map (Item.parts u)) ++ [.lit c!"}"]) := by
  have hname : (symbolicName u kn s).err = none := by simp [symbolicName, hs, Val.mk']
  obtain ⟨p, h1, h2, h3⟩ := C24_text (u := u) (symbolicName u kn s) hname g [] (by simpa using hg)
  refine ⟨p, by simpa [NodeV.project, NodeV.requiredName, hn, projectRun] using h1, by simpa [RelV.project, RelV.requiredName, hr, projectRun] using h1, h2, ?_⟩
  intro e ha
  rw [h3 e (by simpa using fun k' h => ha k' (Or.inr h))]
  simp [layout, symbolicName, hs, Val.mk', leaf, nd, denL, den, shown, (ha kn (Or.inl rfl)).1, described, defined, Vis.asAlias, sepText]

/-- C50: `To` sets a property, `Ascending` and `Descending` sort by an expression. -/
theorem C50_to (k : Key) (p x : Val) (hp : Good p) (hx : Good x) (ha : NoAlias e [k, Op.set.key] (p.visit ++ x.visit)) :
    (propertyTo k p (some x)).err = none ∧
    shownAs e (propertyTo k p (some x)).visit = layout e [.hole p.visit, .lit c!" = ", .hole x.visit] := by
  refine ⟨by rw [propertyTo, operationCreate_ok hp hx]; rfl, ?_⟩
  rw [propertyTo, operationCreate_ok hp hx, shownAs, Val.mk', operation_layout ha]
  rfl

example : text (propertyTo 1 SampleExpr.wa (some SampleExpr.wb)).visit = c!"a = b" ∧
    shownAs Env.empty (propertyTo 1 SampleExpr.wa (some SampleExpr.wb)).visit =
      layout Env.empty [.hole SampleExpr.wa.visit, .lit c!" = ", .hole SampleExpr.wb.visit] :=
  ⟨by decide +kernel, (C50_to 1 _ _ ⟨rfl, rfl⟩ ⟨rfl, rfl⟩ (by unfold NoAlias; decide)).2⟩

theorem C50_to_error (k : Key) (p : Val) (x : Option Val) (h : p.err.isSome ∨ x = none ∨ ∃ y, x = some y ∧ y.err.isSome) :
    (propertyTo k p x).err.isSome := by
  rcases x with _ | x
  · cases hp : p.err <;> simp [propertyTo, operationCreate, firstErr, errOf, nilErr, missing, hp, Val.bad] <;> split <;> simp_all
  · cases hp : p.err <;> cases hx : x.err <;> simp_all [propertyTo, operationCreate, firstErr, errOf, Val.bad]

example : (propertyTo 1 SampleExpr.wx (some SampleExpr.wa)).err.isSome ∧ (propertyTo 1 SampleExpr.wa none).err.isSome ∧
    (propertyTo 1 SampleExpr.wa (some SampleExpr.wx)).err.isSome :=
  ⟨C50_to_error 1 _ _ (.inl rfl), C50_to_error 1 _ _ (.inr (.inl rfl)), C50_to_error 1 _ _ (.inr (.inr ⟨_, rfl, rfl⟩))⟩

/-- C50: `Ascending` and `Descending` of an expression. -/
theorem C50_sort (k : Key) (x : Val) (hx : x.err = none) (d : Bool) (ha : NoAlias e [k, 0] x.visit) :
    (sortBy k (some x) d).err = none ∧
    shownAs e (sortBy k (some x) d).visit = layout e [.hole x.visit, .lit (if d then c!" DESC" else c!" ASC")] := by
  have h : sortBy k (some x) d = { key := k, expr := some x, dir := if d then .desc else .asc, notNil := true } := by
    simp [sortBy, SortItemV.create, errOf, hx]
  rw [h]
  refine ⟨rfl, ?_⟩
  refine shown_self (.node k [] [] false [.hole x.visit, .node 0 (if d then c!" DESC" else c!" ASC") [] false []]) ?_ ?_ ?_ ?_
  · cases d <;> simp [SortItemV.visit, SortDir.visit, Tm.trees, Tm.treesL, leaf]
  · simp [Tm.Ok, Tm.OkL]
  · intro k' hk'
    have h' : k' ∈ [k, 0] := by simpa [Tm.keys, Tm.keysL] using hk'
    refine ⟨(ha k' h').1, ?_⟩
    cases d <;> simp [SortItemV.visit, SortDir.visit, dkeysL, dkeys, nd, leaf, Vis.asAlias, dkeysL_append, (ha k' h').2]
  · cases d <;> simp [Tm.parts, Tm.partsL, layout, sepText]

example : Good (propertyCreate1 .ascii 200 201 SampleExpr.wa c!"age") ∧
    text (propertyTo 202 (propertyCreate1 .ascii 200 201 SampleExpr.wa c!"age") (some SampleExpr.wb)).visit = c!"a.age = b" ∧
    text (sortBy 202 (some SampleExpr.wa) true).visit = c!"a DESC" := ⟨⟨rfl, rfl⟩, by decide +kernel⟩

/-- C50: `AProperty` is the property of the thing with that name. -/
theorem C50_property (k kl kn : Key) (c name : Str) (hc : c ≠ []) (hn : name ≠ []) :
    (aProperty u k kl kn c name).err = none ∧
    (NoAlias e [k, kl, kn] (aProperty u k kl kn c name).visit → shownAs e (aProperty u k kl kn c name).visit =
      layout e [.lit (escapeIfNecessary u c), .lit c!".", .lit (if name = c!"*" then name else escapeIfNecessary u name)]) := by
  have hs : symbolicName u kn c = .mk' kn [leaf kn (escapeIfNecessary u c)] false (.symbolicName c) := by simp [symbolicName, hc]
  obtain ⟨h1, h2⟩ := C45_property (e := e) u k kl (symbolicName u kn c) name (by rw [hs]; rfl) hn
  refine ⟨h1, fun ha => ?_⟩
  rw [aProperty, h2 fun k' hk' => ha k' (by simp at hk' ⊢; rcases hk' with h | h <;> simp [h])]
  simp [layout, hs, Val.mk', leaf, nd, denL, den, shown, (ha kn (by simp)).1, described, defined, Vis.asAlias, sepText]

example : text (aProperty .ascii 1 2 3 c!"my node" c!"x").visit = c!"`my node`.x" := by decide +kernel

/-- C50: the elements `UnwindMulti` is called with are unwound as a list, in order. -/
theorem C50_unwind (k kl : Key) (xs : List Val) (hx : ∀ x ∈ xs, x.err = none ∧ Spec.One x.visit) :
    (unwindMultiExpr k kl xs).err = none ∧ (NoAlias e [k, kl] (unwindMultiExpr k kl xs).visit →
      shownAs e (unwindMultiExpr k kl xs).visit = layout e ([.lit c!"["] ++ commas (xs.map (·.visit)) ++ [.lit c!"]"])) := by
  obtain ⟨⟨h1, h2⟩, _⟩ := C45_lists (e := e) k kl xs fun x h => (hx x h).1
  exact ⟨h1, h2 fun x h => (hx x h).2⟩

example : text (aProperty .ascii 200 201 202 c!"n" c!"name").visit = c!"n.name" ∧
    text (unwindMultiExpr 200 201 [SampleExpr.wa, SampleExpr.wb]).visit = c!"[a, b]" := by decide +kernel

end
end Verif
