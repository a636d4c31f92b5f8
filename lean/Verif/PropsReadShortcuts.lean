import Verif.PropsRead
import Verif.PropsShortcuts

/-
C52: the functions and methods that only combine others read back as the combination.
-/

namespace Verif
open Spec

variable {u : Unicode} {I : Meaning} {tight : Bool}

/-- A name that begins with an ASCII letter. -/
theorem word_named (u : Unicode) {c : Char} {w : Str} (h : c.toNat < 128 ∧ c.isAlpha = true) : Named u (c :: w) :=
  ⟨c, .head _, u.letter_not_space c (by rw [u.letter_ascii c h.1, h.2])⟩

/-! ### Temporal functions -/

/-- The entries of the map of a date, with their meanings. -/
def Spec.dateEntries (I : Meaning) (kl : Nat → Key) : Nat → List (Str × Int) → List (MeantEntry I)
  | _, [] => []
  | i, (name, value) :: rest => ⟨name, .expr (intLiteral (kl i) value), I.num value, if value < 0 then .negative else .atom⟩ :: dateEntries I kl (i + 1) rest

theorem dateEntries_args (kl : Nat → Key) (ps : List (Str × Int)) (i : Nat) :
    componentArgs kl i ps = entryArgs ((dateEntries I kl i ps).map fun x => ⟨x.key, x.value⟩) := by
  induction ps generalizing i with
  | nil => rfl
  | cons p ps ih => simp [componentArgs, dateEntries, entryArgs, ih]

theorem dateEntries_meaning (kl : Nat → Key) (ps : List (Str × Int)) (i : Nat) :
    (dateEntries I kl i ps).map (fun x => (x.key, x.d)) = ps.map fun p => (p.1, I.num (p.2 : ℚ)) := by
  induction ps generalizing i with
  | nil => rfl
  | cons p ps ih => simp [dateEntries, ih]

theorem dateEntries_ok {kl : Nat → Key} {ps : List (Str × Int)} {i : Nat} (hn : ∀ p ∈ ps, Named u p.1) (ht : ∀ p ∈ ps, TenDigits (p.2 : ℚ)) :
    ∀ x ∈ dateEntries I kl i ps, Named u x.key ∧ (∃ w, x.value = .expr w ∧ Denotes u I tight w x.d x.σ) := by
  induction ps generalizing i with
  | nil => simp [dateEntries]
  | cons p ps ih =>
    intro x hx
    rcases List.mem_cons.mp hx with rfl | hx
    · exact ⟨hn p (by simp), _, rfl, .int _ _ (ht p (by simp))⟩
    · exact ih (fun q hq => hn q (List.mem_cons_of_mem _ hq)) (fun q hq => ht q (List.mem_cons_of_mem _ hq)) x hx

/-- A function of one argument applied to the result of another call. -/
theorem mapCall_denotes {f : Fn1} {d : FnDef} {k ka km : Key} {ks : Nat → Key} {es : List (MeantEntry I)} {objects : List Obj} {v : Val}
    (hf : f.def' = (d, false)) (ho : objects = entryArgs (es.map fun x => ⟨x.key, x.value⟩))
    (he : ∀ x ∈ es, Named u x.key ∧ (∃ w, x.value = .expr w ∧ Denotes u I tight w x.d x.σ))
    (hv : (newMapExpression u km ks objects).bind (fun m => functionInvocation k ka d [some m]) = .ok v) (herr : v.err = none) :
    Denotes u I tight v (I.call (fn1Name f).1 (fn1Name f).2 [I.map (es.map fun x => (x.key, x.d))]) .atom := by
  cases hm : newMapExpression u km ks objects with
  | panic => rw [hm] at hv; cases hv
  | ok m =>
    rw [hm] at hv
    have hme : m.err = none := by
      cases hr : m.err with
      | none => rfl
      | some er =>
        simp [Outcome.bind, functionInvocation, scanArgs, hr, Outcome.map] at hv
        subst hv
        simp [Val.bad] at herr
    rw [ho] at hm
    have h1 : Denotes u I tight m (I.map (es.map fun x => (x.key, x.d))) .atom := by
      refine .map (fun x hx => (he x hx).1) (fun x hx w hw => ?_) (fun x hx hw => ?_) hm hme
      · obtain ⟨w', h1, h2⟩ := (he x hx).2
        rw [h1] at hw
        cases hw
        exact h2
      · obtain ⟨w', h1, h2⟩ := (he x hx).2
        exact absurd h1 (hw w')
    refine .call h1 (by rintro rfl; simp [Fn1.def'] at hf) (k := k) (ka := ka) ?_
    simpa [fn1, hf, Outcome.bind] using hv

/-- `CalendarDate`, `WeekDate`, `QuarterDate`, `OrdinalDate` denote the function `date` of a map with the numbers. -/
theorem C52_dates {k ka km : Key} {ks kl : Nat → Key} {parts : List (Str × Int)} {v : Val} (hn : ∀ p ∈ parts, Named u p.1) (ht : ∀ p ∈ parts, TenDigits (p.2 : ℚ))
    (hv : dateOf u k ka km ks kl parts = .ok v) (herr : v.err = none) :
    Denotes u I tight v (I.call c!"date" false [I.map (parts.map fun p => (p.1, I.num (p.2 : ℚ)))]) .atom := by
  rw [← dateEntries_meaning (I := I) kl parts 0]
  exact mapCall_denotes (f := .dateWithComponents) rfl (dateEntries_args kl parts 0) (dateEntries_ok hn ht) hv herr

/-- The texts of dates read as the dates. -/
theorem C52_dates_read (k ka km : Key) (ks kl : Nat → Key) {y m d : Int} (hy : y.natAbs < 10 ^ 10) (hm : m.natAbs < 10 ^ 10) (hd : d.natAbs < 10 ^ 10) :
    ∃ v, calendarDate u k ka km ks kl y m d = .ok v ∧ v.err = none ∧
      ReadsAs u tight I (text v.visit) (I.call c!"date" false [I.map [(c!"year", I.num (y : ℚ)), (c!"month", I.num (m : ℚ)), (c!"day", I.num (d : ℚ))]]) := by
  obtain ⟨_, _, _, _, _, _, ⟨v, h1, h2, _⟩, _⟩ := C48_dates_partial u k ka km ks kl y m d hy hm hd (e := Env.empty) fun _ _ => rfl
  have ten : ∀ i : Int, i.natAbs < 10 ^ 10 → TenDigits (i : ℚ) := fun i hi => ⟨i, 0, by rw [Int.abs_eq_natAbs]; omega, by simp⟩
  refine ⟨v, h1, h2, (C52_reads_partial (C52_dates (I := I) (tight := tight) ?_ ?_ h1 h2) (e := Env.empty) fun _ => rfl).2⟩
  · intro p hp
    simp at hp
    rcases hp with rfl | rfl | rfl <;> exact word_named u (by decide)
  · intro p hp
    simp at hp
    rcases hp with rfl | rfl | rfl
    · exact ten _ hy
    · exact ten _ hm
    · exact ten _ hd

/-- The functions of a string denote the function of that string. -/
theorem C52_temporal {f : TemporalFn} {k ka kl : Key} {s : Str} {v : Val} (hv : withTemporal f k ka kl s = .ok v) (herr : v.err = none) :
    Denotes u I tight v (I.call (temporalName f) false [I.str s]) .atom := by
  have hs : s ≠ [] := by
    rintro rfl
    simp [withTemporal] at hv
    subst hv
    simp [Val.bad] at herr
  simp only [withTemporal, if_neg hs] at hv
  have h := Denotes.str (u := u) (I := I) (tight := tight) kl s
  cases f with
  | date => exact .call (f := .dateWithExpression) (k := k) (ka := ka) h (by decide) hv
  | dateTime => exact .call (f := .dateTimeWithExpression) (k := k) (ka := ka) h (by decide) hv
  | localDateTime => exact .call (f := .localDateTimeWithExpression) (k := k) (ka := ka) h (by decide) hv
  | localTime => exact .call (f := .localTimeWithExpression) (k := k) (ka := ka) h (by decide) hv
  | time => exact .call (f := .timeWithExpression) (k := k) (ka := ka) h (by decide) hv
  | duration => exact .call (f := .durationWithExpression) (k := k) (ka := ka) h (by decide) hv

/-- The functions of a time zone denote the function of a map with the name of the zone. -/
theorem C52_timezone {f : ZoneFn} {k ka km kl : Key} {ks : Nat → Key} {z : Str} {v : Val} (hv : withTimezone u f k ka km ks kl (some z) = .ok v) (herr : v.err = none) :
    Denotes u I tight v (I.call (zoneName f) false [I.map [(c!"timezone", I.str z)]]) .atom := by
  have key : ∀ g : Fn1, g.def' = (f.fn, false) → Denotes u I tight v (I.call (fn1Name g).1 (fn1Name g).2 [I.map [(c!"timezone", I.str z)]]) .atom := fun g hg =>
    mapCall_denotes (es := [⟨c!"timezone", .expr (stringLiteral kl z), I.str z, .atom⟩]) hg rfl
      (fun x hx => by rw [List.mem_singleton.mp hx]; exact ⟨word_named u (by decide), _, rfl, .str _ _⟩) hv herr
  cases f with
  | localDateTime => exact key .localDateTimeWithComponents rfl
  | localTime => exact key .localTimeWithComponents rfl
  | time => exact key .timeWithComponents rfl

/-! ### Shortcuts -/

/-- A property of a relationship that has a name. -/
theorem C52_relationship_property {r : RelV} (k kl : Key) {kn : Key} {s p : Str} (he : r.err = none) (hn : r.details.name = some (kn, s)) (hs : VarName u s)
    (hp : Named u p) (hp' : p ≠ c!"*") : Denotes u I tight (r.property u k kl p) (I.prop (I.name s) p) .atom := by
  have hv : r.property u k kl p = propertyCreate1 u k kl (symbolicName u kn s) p := by
    simp [RelV.property, he, RelV.requiredName, hn, symbolicName, Rd.name_ne hs.1, Val.mk', Rd.name_ne hp]
  rw [hv]
  exact .property k kl (.var kn hs) hp hp'

/-- `AProperty`. -/
theorem C52_aProperty (k kl kn : Key) {s p : Str} (hs : VarName u s) (hp : Named u p) (hp' : p ≠ c!"*") :
    Denotes u I tight (aProperty u k kl kn s p) (I.prop (I.name s) p) .atom :=
  .property' k kl (.var kn hs) hp hp'

/-- Access to lists with numbers. -/
theorem C52_numbers (k kd kn kn' : Key) {x : Val} {d : I.D} {i j : Int} (hx : Denotes u I tight x d .atom) (hi : TenDigits (i : ℚ)) (hj : TenDigits (j : ℚ)) :
    Denotes u I tight (valueAtInt k kd kn (some x) i) (I.index d (I.num (i : ℚ))) .atom ∧
    Denotes u I tight (subListInt k kd kn kn' (some x) i j) (I.slice d (some (I.num (i : ℚ))) (some (I.num (j : ℚ)))) .atom ∧
    Denotes u I tight (subListFromInt k kd kn (some x) i) (I.slice d (some (I.num (i : ℚ))) none) .atom ∧
    Denotes u I tight (subListUntilInt k kd kn (some x) j) (I.slice d none (some (I.num (j : ℚ)))) .atom :=
  ⟨.valueAt _ _ hx (.int _ _ hi), .subList _ _ hx (.int _ _ hi) (.int _ _ hj), .subListFrom _ _ hx (.int _ _ hi), .subListUntil _ _ hx (.int _ _ hj)⟩

/-- `RangeRaw` and `RangeWithStepRaw`. -/
theorem C52_range_numbers {k ka kn kn' kn'' : Key} {i j : Int} {step : Option Int} {v : Val} (hi : TenDigits (i : ℚ)) (hj : TenDigits (j : ℚ))
    (hs : ∀ n, step = some n → TenDigits (n : ℚ)) (hv : rangeRaw k ka kn kn' kn'' i j step = .ok v) :
    Denotes u I tight v (I.call c!"range" false ([I.num (i : ℚ), I.num (j : ℚ)] ++ (step.map fun n => I.num (n : ℚ)).toList)) .atom := by
  cases step with
  | none => exact .range (.int kn i hi) (.int kn' j hj) hv
  | some n => exact .rangeWithStep (.int kn i hi) (.int kn' j hj) (.int kn'' n (hs n rfl)) hv

theorem literalOf_denotes (k : Key) {o : Obj} {d : I.D} (h : LiteralMeans I o d) :
    ∃ v σ, literalOf k o = .ok v ∧ Denotes u I tight v d σ ∧ σ.first = true := by
  cases h with
  | nil => exact ⟨_, _, rfl, .null, rfl⟩
  | str s => exact ⟨_, _, rfl, .str k s, rfl⟩
  | int i hi => exact ⟨_, _, rfl, .int k i hi, by split <;> rfl⟩
  | float neg m e ht =>
    have hv : floatLiteral k (.fin neg m e) = .ok (objVal k (.float (.fin neg m e))) := floatLiteral_ok (by simp)
    exact ⟨_, _, hv, .float hv ht, by split <;> rfl⟩
  | bool b => exact ⟨_, _, rfl, .bool k b, rfl⟩

theorem rawLiterals_denote (ks : Nat → Key) {os : List Obj} {ds : List I.D} (h : List.Forall₂ (LiteralMeans I) os ds) (i : Nat) :
    ∃ xs : List (Meant I), rawLiterals ks i os = .ok (.ok (xs.map (·.v))) ∧ xs.map (·.d) = ds ∧ ∀ x ∈ xs, Denotes u I tight x.v x.d x.σ ∧ x.σ.first = true := by
  induction h generalizing i with
  | nil => exact ⟨[], rfl, rfl, by simp⟩
  | @cons o d os ds h1 _ ih =>
    obtain ⟨v, σ, g1, g2, g3⟩ := literalOf_denotes (u := u) (tight := tight) (ks i) h1
    obtain ⟨xs, f1, f2, f3⟩ := ih (i + 1)
    refine ⟨⟨v, d, σ⟩ :: xs, by simp [rawLiterals, g1, g2.good.err, f1, Outcome.bind, Outcome.map, Except.map], by simp [f2], fun x hx => ?_⟩
    rcases List.mem_cons.mp hx with rfl | hx
    · exact ⟨g2, g3⟩
    · exact f3 x hx

/-- `ListOfRaw` denotes the list of the values. -/
theorem C52_raw_list (k kl : Key) (ks : Nat → Key) {os : List Obj} {ds : List I.D} (h : List.Forall₂ (LiteralMeans I) os ds) :
    ∃ v, listOfRaw k kl ks os = .ok v ∧ Denotes u I tight v (I.list ds) .atom := by
  obtain ⟨xs, h1, rfl, h3⟩ := rawLiterals_denote (u := u) (tight := tight) ks h 0
  exact ⟨_, by rw [listOfRaw, h1]; rfl, .list k kl (fun x hx => (h3 x hx).1) fun x hx => (h3 x (List.mem_of_head? hx)).2⟩

/-! ### Examples -/

namespace SampleRead
theorem small (i : Int) (h : i.natAbs < 10) : TenDigits (i : ℚ) := ⟨i, 0, by rw [Int.abs_eq_natAbs]; omega, by simp⟩
end SampleRead
open SampleRead

example : (match percentile true true 300 301 302 (some age) (.fin false 3 (-2)) with | .ok v => text v.visit | .panic => []) =
    c!"percentileDisc(DISTINCT a.age, 0.75)" := by decide +kernel

example (I : Meaning) (tight : Bool) : ∃ v, percentile true true 300 301 302 (some age) (.fin false 3 (-2)) = .ok v ∧
    ReadsAs .ascii tight I (text v.visit) (I.call c!"percentileDisc" true [I.prop (I.name c!"a") c!"age", I.num (floatValue false 3 (-2))]) := by
  have h : Denotes .ascii I tight age (I.prop (I.name c!"a") c!"age") .atom :=
    .property _ _ (.var _ ⟨⟨_, .head _, by decide⟩, by decide, by decide⟩) ⟨_, .head _, by decide⟩ (by decide)
  exact ⟨_, rfl, (C52_reads_partial (.percentile (k := 300) (ka := 301) (kl := 302) (disc := true) (distinct := true) (neg := false) (m := 3) (e := -2) h
    ⟨75, -2, by decide, by norm_num [floatValue]⟩ rfl rfl) (e := Env.empty) fun _ => rfl).2⟩

example (I : Meaning) (tight : Bool) : ∃ v, collectNode .ascii true 300 301 person = .ok v ∧ text v.visit = c!"collect(DISTINCT n)" ∧
    Denotes .ascii I tight v (I.call c!"collect" true [I.name c!"n"]) .atom :=
  ⟨_, rfl, by decide +kernel, .collectNode (k := 300) (ka := 301) (kn := 232) (s := c!"n") (n := person) rfl rfl rfl ⟨⟨_, .head _, by decide⟩, by decide, by decide⟩ rfl⟩

example : ∃ v, weekDate .ascii 300 301 302 (310 + ·) (320 + ·) 2020 7 (-1) = .ok v ∧
    text v.visit = c!"date({year: 2020, week: 7, dayOfWeek: -1})" ∧ v.err = none := ⟨_, rfl, by decide +kernel, rfl⟩

example (I : Meaning) (tight : Bool) : ∃ v, listOfRaw 300 301 (310 + ·) [.int 1, .nil, .bool true] = .ok v ∧ text v.visit = c!"[1, NULL, true]" ∧
    Denotes .ascii I tight v (I.list [I.num ((1 : Int) : ℚ), I.null, I.bool true]) .atom := by
  obtain ⟨v, h1, h2⟩ := C52_raw_list (u := .ascii) (I := I) (tight := tight) 300 301 (310 + ·) (os := [.int 1, .nil, .bool true])
    (.cons (.int 1 (small 1 (by decide))) (.cons .nil (.cons (.bool true) .nil)))
  exact ⟨v, h1, by cases h1; decide +kernel, h2⟩

-- a negative day is a number, too
example (I : Meaning) (tight : Bool) : ∃ v, calendarDate .ascii 300 301 302 (310 + ·) (320 + ·) 2020 7 (-1) = .ok v ∧ v.err = none ∧
    ReadsAs .ascii tight I (text v.visit)
      (I.call c!"date" false [I.map [(c!"year", I.num (2020 : Int)), (c!"month", I.num (7 : Int)), (c!"day", I.num ((-1 : Int)))]]) :=
  C52_dates_read 300 301 302 _ _ (by decide) (by decide) (by decide)

example (I : Meaning) (tight : Bool) : ∃ v, dateOf .ascii 300 301 302 (310 + ·) (320 + ·) [(c!"year", 7), (c!"quarter", 2)] = .ok v ∧
    text v.visit = c!"date({year: 7, quarter: 2})" ∧
    Denotes .ascii I tight v (I.call c!"date" false [I.map [(c!"year", I.num (7 : Int)), (c!"quarter", I.num (2 : Int))]]) .atom := by
  refine ⟨_, rfl, by decide +kernel, C52_dates (k := 300) (ka := 301) (km := 302) (ks := (310 + ·)) (kl := (320 + ·))
    (parts := [(c!"year", 7), (c!"quarter", 2)]) ?_ ?_ rfl rfl⟩
  · intro p hp
    simp only [List.mem_cons, List.not_mem_nil, or_false] at hp
    rcases hp with rfl | rfl <;> exact ⟨_, .head _, by decide⟩
  · intro p hp
    simp only [List.mem_cons, List.not_mem_nil, or_false] at hp
    rcases hp with rfl | rfl <;> exact small _ (by decide)

example (I : Meaning) (tight : Bool) : ∃ v, withTemporal .dateTime 300 301 302 c!"2020-07-01" = .ok v ∧ text v.visit = c!"datetime('2020-07-01')" ∧
    Denotes .ascii I tight v (I.call c!"datetime" false [I.str c!"2020-07-01"]) .atom :=
  ⟨_, rfl, by decide +kernel, C52_temporal (f := .dateTime) (k := 300) (ka := 301) (kl := 302) rfl rfl⟩

example (I : Meaning) (tight : Bool) : ∃ v, withTimezone .ascii .time 300 301 302 (310 + ·) 303 (some c!"Europe/Paris") = .ok v ∧
    text v.visit = c!"time({timezone: 'Europe/Paris'})" ∧
    Denotes .ascii I tight v (I.call c!"time" false [I.map [(c!"timezone", I.str c!"Europe/Paris")]]) .atom :=
  ⟨_, rfl, by decide +kernel, C52_timezone (f := .time) (k := 300) (ka := 301) (km := 302) (ks := (310 + ·)) (kl := 303) rfl rfl⟩

example (I : Meaning) (tight : Bool) : text (aProperty .ascii 300 301 302 c!"a" c!"age").visit = c!"a.age" ∧
    Denotes .ascii I tight (aProperty .ascii 300 301 302 c!"a" c!"age") (I.prop (I.name c!"a") c!"age") .atom :=
  ⟨by decide +kernel, C52_aProperty 300 301 302 ⟨⟨_, .head _, by decide⟩, by decide, by decide⟩ ⟨_, .head _, by decide⟩ (by decide)⟩

example (I : Meaning) (tight : Bool) : text (subListInt 303 304 305 306 (some (aProperty .ascii 300 301 302 c!"a" c!"age")) 1 (-2)).visit = c!"a.age[1..-2]" ∧
    Denotes .ascii I tight (subListInt 303 304 305 306 (some (aProperty .ascii 300 301 302 c!"a" c!"age")) 1 (-2))
      (I.slice (I.prop (I.name c!"a") c!"age") (some (I.num (1 : Int))) (some (I.num ((-2 : Int))))) .atom :=
  ⟨by decide +kernel, (C52_numbers 303 304 305 306
    (C52_aProperty 300 301 302 ⟨⟨_, .head _, by decide⟩, by decide, by decide⟩ ⟨_, .head _, by decide⟩ (by decide)) (small 1 (by decide)) (small (-2) (by decide))).2.1⟩

example (I : Meaning) (tight : Bool) : ∃ v, rangeRaw 300 301 302 303 304 1 9 (some 2) = .ok v ∧ text v.visit = c!"range(1, 9, 2)" ∧
    Denotes .ascii I tight v (I.call c!"range" false [I.num (1 : Int), I.num (9 : Int), I.num (2 : Int)]) .atom := by
  refine ⟨_, rfl, by decide +kernel, C52_range_numbers (step := some 2) (small 1 (by decide)) (small 9 (by decide)) ?_ rfl⟩
  intro n h
  cases h
  exact small 2 (by decide)

-- `r.Property("since")` of a relationship named `r`
example (I : Meaning) (tight : Bool) :
    Denotes .ascii I tight (RelV.property .ascii { details := { name := some (1, c!"r") } } 300 301 c!"since") (I.prop (I.name c!"r") c!"since") .atom :=
  C52_relationship_property 300 301 (kn := 1) rfl rfl ⟨⟨_, .head _, by decide⟩, by decide, by decide⟩ ⟨_, .head _, by decide⟩ (by decide)

end Verif
