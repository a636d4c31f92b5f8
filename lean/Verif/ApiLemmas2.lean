import Verif.ApiLemmas

/-
Lemmas for C40, continued: projections, functions, patterns, clauses, the builder.
-/

namespace Verif
open Spec

section
variable {u : Unicode}

/-! ### Projections -/

def Content.Neat : Content → Prop
  | .expr v => v.Neat
  | .named (some v) => v.Neat
  | _ => True

theorem neat_contentAt {c : Content} (h : c.Neat) : (contentAt c).Neat := by
  unfold contentAt
  split
  · exact h
  · exact h

theorem neat_projectionEntry_aux {k : Key} {known : List Str} {key : Str} {x v : Val} (hx : x.Neat)
    (h : (if key ≠ [] then
        if key ∈ known then Outcome.ok (Except.error (Err.site "map_projection.go" 146))
        else .ok (.ok (keyValueMapEntry u k key x))
      else
        match x.tag with
        | .symbolicName _ => .ok (.ok x)
        | .propertyLookup _ => .ok (.ok x)
        | .property lookup => .ok (.ok { key := 0, visit := lookup, notNil := false })
        | .aliased d a => .ok (.ok { key := k, visit := [nd k (escapeIfNecessary u a ++ c!": ") [] false d], notNil := false })
        | .badAliased => .panic
        | _ => .ok (.error (.site "map_projection.go" 161))) = .ok (.ok v)) : v.Neat := by
  have ht := hx.tag
  split at h
  · split at h
    · cases h
    · cases h; exact neat_keyValue hx
  · split at h
    · cases h; exact hx
    · cases h; exact hx
    · next lookup hl => cases h; rw [hl] at ht; exact neat_plain ht
    · next d a hl => cases h; rw [hl] at ht; exact neat_plain (tidy_one (tidy_nd fits_entry ht))
    · cases h
    · cases h

theorem neat_projectionEntry {k kl : Key} {known : List Str} {key : Str} {x v : Val} (hx : x.Neat)
    (h : projectionEntry u k kl known key x = .ok (.ok v)) : v.Neat := by
  unfold projectionEntry at h
  refine neat_projectionEntry_aux (u := u) ?_ h
  split
  · exact neat_propertyLookup
  · exact hx

theorem neat_addEntry {k kl : Key} {known : List Str} {key : Str} {x : Val} {rest : Outcome (Except Err (List Val))} {es : List Val}
    (hx : x.Neat) (hr : ∀ es, rest = .ok (.ok es) → AllNeat es) (h : addEntry u k kl known key x rest = .ok (.ok es)) : AllNeat es := by
  unfold addEntry at h
  obtain ⟨r, hr1, h⟩ := Outcome.bind_ok h
  cases r with
  | error e => cases h
  | ok v =>
    simp only at h
    split at h
    · cases h
    · obtain ⟨r, hr2, h⟩ := Outcome.map_ok h
      cases r with
      | error e => cases h
      | ok es' =>
        cases h
        intro y hy
        rcases List.mem_cons.1 hy with rfl | hy
        · exact neat_projectionEntry hx hr1
        · exact hr es' hr2 y hy

theorem neat_contentLoop {ks : Nat → Key} (n : Nat) : ∀ {known : List Str} {i : Nat} {cs : List Content} {es : List Val}, cs.length ≤ n →
    (∀ c ∈ cs, c.Neat) → contentLoop u ks known i cs = .ok (.ok es) → AllNeat es := by
  induction n with
  | zero =>
    intro known i cs es hn hc h
    cases cs with
    | nil => rw [contentLoop] at h; cases h; intro x hx; cases hx
    | cons c cs => simp at hn
  | succ n ih =>
    intro known i cs es hn hc h
    rw [contentLoop.eq_def] at h
    split at h
    · cases h; intro x hx; cases hx
    · next s v cs =>
      exact neat_addEntry (hc (.expr v) (by simp)) (fun es he => ih (by simp at hn; omega) (fun c h => hc c (by simp [h])) he) h
    · next s cs _ =>
      exact neat_addEntry neat_propertyLookup (fun es he => ih (by simp at hn; omega) (fun c h => hc c (by simp [h])) he) h
    · next v cs =>
      exact neat_addEntry (hc (.expr v) (by simp)) (fun es he => ih (by simp at hn; omega) (fun c h => hc c (by simp [h])) he) h
    · cases h

theorem neat_newContent {ks : Nat → Key} {cs : List Content} {es : List Val} (hc : ∀ c ∈ cs, c.Neat)
    (h : createNewContent u ks cs = .ok (.ok es)) : AllNeat es := by
  refine neat_contentLoop _ (Nat.le_refl _) (fun c hm => ?_) h
  obtain ⟨d, hd, rfl⟩ := List.mem_map.1 hm
  exact neat_contentAt (hc d hd)

theorem neat_projectionVal {k km : Key} {name : Val} {es : List Val} (hn : name.Neat) (he : AllNeat es) : (projectionVal k km name es).Neat := by
  refine neat_mk (tidy_plain ?_)
  rw [TidyL_append]
  exact ⟨hn.visit, (neat_map he).visit⟩

theorem allNeat_nil : AllNeat [] := by intro x hx; cases hx

theorem AllNeat.append {xs ys : List Val} (hx : AllNeat xs) (hy : AllNeat ys) : AllNeat (xs ++ ys) := by
  intro z hz
  rcases List.mem_append.1 hz with h | h
  · exact hx z h
  · exact hy z h

theorem neat_project {k km : Key} {ks : Nat → Key} {name : Val} {cs : List Content} {p : Projection} (hn : name.Neat)
    (hc : ∀ c ∈ cs, c.Neat) (h : mapProjectionCreate u k km ks name cs = .ok p) : p.Neat := by
  unfold mapProjectionCreate at h
  split at h
  · cases h; exact ⟨hn, allNeat_nil, neat_bad⟩
  · obtain ⟨r, hr, h⟩ := Outcome.map_ok h
    cases r with
    | error e => cases h; exact ⟨hn, allNeat_nil, neat_bad⟩
    | ok es => cases h; exact ⟨hn, neat_newContent hc hr, neat_projectionVal hn (neat_newContent hc hr)⟩

theorem neat_projectAnd {p q : Projection} {k km : Key} {ks : Nat → Key} {cs : List Content} (hp : p.Neat)
    (hc : ∀ c ∈ cs, c.Neat) (h : mapProjectionAnd u p k km ks cs = .ok q) : q.Neat := by
  unfold mapProjectionAnd at h
  split at h
  · cases h; exact hp
  · obtain ⟨r, hr, h⟩ := Outcome.map_ok h
    cases r with
    | error e => cases h; exact ⟨hp.name, allNeat_nil, neat_bad⟩
    | ok es =>
      have he := hp.entries.append (neat_newContent hc hr)
      simp only at h
      split at h
      · cases h; exact ⟨hp.name, allNeat_nil, neat_bad⟩
      · cases h; exact ⟨hp.name, he, neat_projectionVal hp.name he⟩

/-! ### List operators, CASE -/

theorem tidy_ifNotNull {x : Option Val} (h : OptNeat x) : TidyL (visitIfNotNull x) := by
  unfold visitIfNotNull
  split
  · next v =>
    split
    · exact (h v rfl).visit
    · trivial
  · trivial

theorem neat_listOperator {k kd : Key} {t : Val} {a b : Option Val} {d : Bool} (ht : t.Neat) (ha : OptNeat a) (hb : OptNeat b) :
    (listOperatorCreate k kd t a d b).Neat := by
  refine neat_mk (tidy_plain ?_)
  rw [TidyL_append]
  refine ⟨ht.visit, tidy_one (tidy_nd fits_square ?_)⟩
  simp only [TidyL_append]
  refine ⟨⟨tidy_ifNotNull ha, ?_⟩, tidy_ifNotNull hb⟩
  split
  · exact tidy_one (tidy_leaf rfl)
  · trivial

theorem neat_subList {k kd : Key} {x y z : Option Val} (hx : OptNeat x) (hy : OptNeat y) (hz : OptNeat z) : (subList k kd x y z).Neat := by
  unfold subList
  split
  · exact neat_bad
  · next t _ => exact neat_listOperator (hx t rfl) hy hz
  · exact neat_bad

theorem neat_subListFrom {k kd : Key} {x y : Option Val} (hx : OptNeat x) (hy : OptNeat y) : (subListFrom k kd x y).Neat := by
  unfold subListFrom
  split
  · exact neat_bad
  · next t _ => exact neat_listOperator (hx t rfl) hy optNeat_none
  · exact neat_bad

theorem neat_subListUntil {k kd : Key} {x y : Option Val} (hx : OptNeat x) (hy : OptNeat y) : (subListUntil k kd x y).Neat := by
  unfold subListUntil
  split
  · exact neat_bad
  · next t _ => exact neat_listOperator (hx t rfl) optNeat_none hy
  · exact neat_bad

theorem neat_valueAt {k kd : Key} {x y : Option Val} (hx : OptNeat x) (hy : OptNeat y) : (valueAt k kd x y).Neat := by
  unfold valueAt
  split
  · exact neat_bad
  · next t _ => exact neat_listOperator (hx t rfl) hy optNeat_none
  · exact neat_bad

theorem neat_caseBad {e : Err} : (CaseV.bad e).Neat := ⟨optNeat_none, fun _ hb => (by cases hb), fun _ _ h => (by cases h)⟩

theorem neat_caseSimple {k : Key} {x : Option Val} (hx : OptNeat x) : (CaseV.simple k x).Neat := by
  unfold CaseV.simple
  split
  · exact neat_caseBad
  · exact ⟨hx, fun _ hb => (by cases hb), fun _ _ h => (by cases h)⟩

theorem neat_caseStart {k : Key} : (CaseV.start k).Neat := ⟨optNeat_none, fun _ hb => (by cases hb), fun _ _ h => (by cases h)⟩

theorem neat_caseEnding {k : Key} {x : Option Val} {ws : List (Key × Val × Val)} {e : Option Err} (hx : OptNeat x)
    (hw : ∀ b ∈ ws, b.2.1.Neat ∧ b.2.2.Neat) : (CaseV.ending k x ws e).Neat := by
  unfold CaseV.ending
  split
  · split
    · split
      · exact neat_caseBad
      · split
        · exact neat_caseBad
        · exact ⟨hx, hw, fun _ _ h => (by cases h)⟩
    · split
      · exact neat_caseBad
      · exact ⟨optNeat_none, hw, fun _ _ h => (by cases h)⟩
  · split
    · exact neat_caseBad
    · exact ⟨optNeat_none, hw, fun _ _ h => (by cases h)⟩

theorem neat_whenThen {c d : CaseV} {k kw : Key} {w t : Val} (hc : c.Neat) (hw : w.Neat) (ht : t.Neat) (h : c.whenThen k kw w t = .ok d) :
    d.Neat := by
  unfold CaseV.whenThen at h
  split at h
  · cases h
  · cases h
    refine neat_caseEnding hc.subject fun b hb => ?_
    rcases List.mem_append.1 hb with hb | hb
    · exact hc.whens b hb
    · rw [List.mem_singleton] at hb; rw [hb]; exact ⟨hw, ht⟩

theorem neat_elseDefault {c : CaseV} {ke : Key} {d : Val} (hc : c.Neat) (hd : d.Neat) : (c.elseDefault ke d).Neat := by
  unfold CaseV.elseDefault
  split
  · exact neat_caseBad
  · exact ⟨hc.subject, hc.whens, fun k x h => by cases h; exact hd⟩

theorem tidy_case {c : CaseV} (hc : c.Neat) : TidyL c.visit := by
  unfold CaseV.visit
  refine tidy_one (tidy_nd ?_ ?_)
  · exact ⟨[], by split <;> rfl, rfl⟩
  · simp only [TidyL_append, TidyL_flatMap]
    refine ⟨⟨tidy_ifNotNull hc.subject, fun b hb => ?_⟩, ?_⟩
    · exact ⟨tidy_nd ⟨[], rfl, rfl⟩ (hc.whens b hb).1.visit, (hc.whens b hb).2.visit⟩
    · unfold CaseV.elseVisit
      split
      · next k d he => exact tidy_one (tidy_nd ⟨[], rfl, rfl⟩ (hc.els k d he).visit)
      · trivial

theorem neat_case {c : CaseV} (hc : c.Neat) : c.toVal.Neat := by
  refine ⟨tidy_case hc, fun p hp => ?_, trivial⟩
  simp only [CaseV.toVal] at hp
  split at hp
  · cases hp
  · cases hp; exact tidy_case hc

/-! ### Functions -/

theorem neat_invocation {k ka : Key} {name : Str} {args : List Tree} (hn : Balanced name) (ha : TidyL args) : (invocation k ka name args).Neat :=
  neat_mk (tidy_one (tidy_nd (fits_round.prepend hn) (tidy_plain ha)))

theorem neat_scanArgs : ∀ {xs : List (Option Val)} {vs : List Val}, (∀ x ∈ xs, OptNeat x) → scanArgs xs = .ok (.ok vs) → AllNeat vs
  | [], vs, _, h => by rw [scanArgs] at h; cases h; exact allNeat_nil
  | none :: xs, vs, _, h => by rw [scanArgs] at h; cases h
  | some v :: xs, vs, hx, h => by
    rw [scanArgs] at h
    split at h
    · cases h
    · obtain ⟨r, hr, h⟩ := Outcome.map_ok h
      cases r with
      | error e => cases h
      | ok ws =>
        cases h
        intro y hy
        rcases List.mem_cons.1 hy with rfl | hy
        · exact hx _ (by simp) _ rfl
        · exact neat_scanArgs (fun x h => hx x (by simp [h])) hr y hy

theorem neat_function {k ka : Key} {d : FnDef} {xs : List (Option Val)} {v : Val} (hd : Balanced d.name) (hx : ∀ x ∈ xs, OptNeat x)
    (h : functionInvocation k ka d xs = .ok v) : v.Neat := by
  unfold functionInvocation at h
  obtain ⟨r, hr, h⟩ := Outcome.map_ok h
  split at h
  · cases h; exact neat_bad
  · cases h; exact neat_bad
  · next w ws =>
    split at h
    · cases h; exact neat_invocation hd (allNeat_visits (neat_scanArgs hx hr))
    · cases h; exact neat_bad

theorem neat_functionDistinct {k ka : Key} {d : FnDef} {xs : List (Option Val)} {v : Val} (hd : Balanced d.name) (hx : ∀ x ∈ xs, OptNeat x)
    (h : functionInvocationDistinct k ka d xs = .ok v) : v.Neat := by
  unfold functionInvocationDistinct at h
  obtain ⟨r, hr, h⟩ := Outcome.map_ok h
  split at h
  · cases h; exact neat_bad
  · next vs =>
    have hv := neat_scanArgs hx hr
    split at h
    · cases h; exact neat_bad
    · split at h
      · cases h; exact neat_bad
      · next w ws =>
        split at h
        · cases h
          exact neat_invocation hd ⟨tidy_nd fits_nil ⟨tidy_leaf rfl, (hv w (by simp)).visit⟩, allNeat_visits fun x hx => hv x (by simp [hx])⟩
        · cases h; exact neat_bad

theorem neat_functionPattern {k ka : Key} {d : FnDef} {p : Option Val} (hd : Balanced d.name) (hp : OptNeat p) :
    (functionInvocationPattern k ka d p).Neat := by
  unfold functionInvocationPattern
  split
  · exact neat_bad
  · cases p with
    | none => exact neat_invocation hd trivial
    | some p => exact neat_invocation hd (hp p rfl).visit

theorem optNeat_one {x : Option Val} (hx : OptNeat x) : ∀ y ∈ [x], OptNeat y := by
  intro y hy; rw [List.mem_singleton] at hy; rw [hy]; exact hx

theorem neat_fn1 {f : Fn1} {k ka : Key} {x : Option Val} {v : Val} (hx : OptNeat x) (h : fn1 f k ka x = .ok v) : v.Neat := by
  have hd : Balanced f.def'.1.name := by cases f <;> rfl
  unfold fn1 at h
  split at h
  · exact neat_functionDistinct hd (optNeat_one hx) h
  · exact neat_function hd (optNeat_one hx) h

theorem optNeat_two {x y : Option Val} (hx : OptNeat x) (hy : OptNeat y) : ∀ z ∈ [x, y], OptNeat z := by
  intro z hz
  simp only [List.mem_cons, List.not_mem_nil, or_false] at hz
  rcases hz with rfl | rfl
  · exact hx
  · exact hy

theorem neat_distance {k ka : Key} {x y : Option Val} {v : Val} (hx : OptNeat x) (hy : OptNeat y) (h : distance k ka x y = .ok v) : v.Neat := by
  unfold distance at h
  split at h
  · cases h; exact neat_bad
  · exact neat_function (by rfl) (optNeat_two hx hy) h

theorem neat_percentile {disc distinct : Bool} {k ka kl : Key} {x : Option Val} {f : GoFloat} {v : Val} (hx : OptNeat x)
    (h : percentile disc distinct k ka kl x f = .ok v) : v.Neat := by
  unfold percentile at h
  split at h
  · cases h; exact neat_bad
  · have hd : Balanced (if disc then fnPercentileDisc else fnPercentileCont).name := by cases disc <;> rfl
    cases hf : floatLiteral kl f with
    | panic => rw [hf] at h; cases h
    | ok p =>
      have hp := neat_float hf
      rw [hf] at h
      simp only [Outcome.bind] at h
      split at h
      · exact neat_functionDistinct hd (optNeat_two hx (optNeat_some.2 hp)) h
      · exact neat_function hd (optNeat_two hx (optNeat_some.2 hp)) h

theorem neat_range {k ka : Key} {x y z : Option Val} {v : Val} (hx : OptNeat x) (hy : OptNeat y) (hz : OptNeat z)
    (h : rangeWithStep k ka x y z = .ok v) : v.Neat := by
  unfold rangeWithStep at h
  split at h
  · cases h; exact neat_bad
  · split at h
    · exact neat_function (by rfl) (optNeat_two hx hy) h
    · refine neat_function (by rfl) ?_ h
      intro w hw
      rcases List.mem_cons.1 hw with rfl | hw
      · exact hx
      · exact optNeat_two hy hz w hw

theorem neat_fn0 {f : Fn0} {k ka : Key} {v : Val} (h : fn0 f k ka = .ok v) : v.Neat := by
  cases f <;> simp only [fn0] at h
  · cases h
  all_goals exact neat_function (by rfl) (by simp) h

theorem neat_isEmpty {kf ka kn k kl kr : Key} {x : Option Val} {v : Val} (hx : OptNeat x) (h : isEmpty kf ka kn k kl kr x = .ok v) : v.Neat := by
  unfold isEmpty at h
  obtain ⟨w, hw, rfl⟩ := Outcome.map_ok h
  exact neat_comparison (optNeat_some.2 (neat_fn1 hx hw)) (optNeat_some.2 neat_int)

/-! ### Conditions around expressions and patterns -/

theorem neat_booleanFunction {k : Key} {d : Val} (hd : d.Neat) : (booleanFunction k d).Neat := by
  refine neat_mk ?_
  split
  · exact tidy_one (tidy_nd fits_round (tidy_plain trivial))
  · exact hd.visit

theorem neat_predicateExists {k kf ka : Key} {p v : Val} (hp : p.Neat) (h : predicateExists k kf ka p = .ok v) : v.Neat := by
  obtain ⟨w, hw, rfl⟩ := Outcome.map_ok h
  exact neat_booleanFunction (neat_function (by rfl) (optNeat_one (optNeat_some.2 hp)) hw)

theorem neat_where {k : Key} {c : Val} (hc : c.Neat) : (whereCreate k c).Neat := by
  unfold whereCreate
  split
  · exact neat_bad
  · exact neat_plain (tidy_one (tidy_nd ⟨[], rfl, rfl⟩ hc.visit))

theorem neat_zeroName {guid : Str} (h : Balanced guid) : (zeroName guid).Neat := neat_plain (tidy_one (tidy_leaf h))

theorem neat_listPredicate {k : Key} {x l w : Val} (hx : x.Neat) (hl : l.Neat) (hw : w.Neat) : (listPredicate k x l w).Neat := by
  unfold listPredicate
  split
  · exact neat_bad
  · split
    · exact neat_plain trivial
    · refine neat_mk (tidy_plain ?_)
      simp only [TidyL_append]
      exact ⟨⟨⟨hx.visit, tidy_opL _⟩, hl.visit⟩, hw.visit⟩

theorem neat_quantified {guid : Str} {q : Quantifier} {k kf ka kp kw : Key} {x l c : Option Val} {v : Val} (hg : Balanced guid)
    (hx : OptNeat x) (hl : OptNeat l) (hc : OptNeat c) (h : quantified guid q k kf ka kp kw x l c = .ok v) : v.Neat := by
  unfold quantified at h
  split at h
  · next c =>
    split at h
    · cases h; exact neat_bad
    · split at h
      · next l =>
        split at h
        · cases h
        · simp only at h
          obtain ⟨w, hw, rfl⟩ := Outcome.map_ok h
          refine neat_booleanFunction (neat_function ?_ (optNeat_one (optNeat_some.2 (neat_listPredicate ?_ (hl l rfl) (neat_where (hc c rfl))))) hw)
          · split
            · rfl
            · cases q <;> rfl
          · split
            · next v =>
              split
              · exact hx v rfl
              · exact neat_zeroName hg
            · exact neat_zeroName hg
      · cases h
  · cases h; exact neat_bad

theorem neat_listComprehension {k : Key} {x l : Val} {w d : Option Val} (hx : x.Neat) (hl : l.Neat) (hw : OptNeat w) (hd : OptNeat d) :
    (listComprehensionCreate k x l w d).Neat := by
  unfold listComprehensionCreate
  split
  · exact neat_bad
  · refine neat_mk (tidy_one (tidy_nd fits_square ?_))
    simp only [TidyL_append]
    refine ⟨⟨⟨⟨hx.visit, tidy_opL _⟩, hl.visit⟩, tidy_ifNotNull hw⟩, ?_⟩
    cases d with
    | none => trivial
    | some d => exact ⟨tidy_op _, (hd d rfl).visit⟩

theorem optNeat_map {x : Option Val} {f : Val → Val} (hx : OptNeat x) (hf : ∀ v, v.Neat → (f v).Neat) : OptNeat (x.map f) := by
  intro v h
  obtain ⟨w, hw, rfl⟩ := Option.map_eq_some_iff.1 h
  exact hf w (hx w hw)

theorem neat_listWith {k kw kl kc : Key} {x l : Val} {c : Option Val} {d : Option (List Val)} (hx : x.Neat) (hl : l.Neat) (hc : OptNeat c)
    (hd : ∀ l, d = some l → AllNeat l) : (listWith k kw kl kc x l c d).Neat := by
  refine neat_listComprehension hx hl (optNeat_map hc fun _ h => neat_where h) ?_
  intro v h
  obtain ⟨w, hw, rfl⟩ := Option.map_eq_some_iff.1 h
  exact neat_listOrSingle (hd w hw)

theorem neat_listComprehensionWith {guid : Str} {k kw kl kc : Key} {x l : Val} {c : Option Val} {d : Option (List Val)} (hg : Balanced guid)
    (hx : x.Neat) (hl : l.Neat) (hc : OptNeat c) (hd : ∀ l, d = some l → AllNeat l) : (listComprehensionWith guid k kw kl kc x l c d).Neat := by
  refine neat_listWith ?_ hl hc hd
  split
  · exact hx
  · exact neat_zeroName hg

def OptCond (c : Option Cond) : Prop := ∀ x, c = some x → x.Neat

theorem optNeat_built {c : Option Cond} {kw : Key} (hc : OptCond c) : OptNeat ((builtCondition c).map fun c => whereCreate kw c.toVal) := by
  intro v h
  obtain ⟨d, hd, rfl⟩ := Option.map_eq_some_iff.1 h
  refine neat_where (neat_toVal d ?_)
  unfold builtCondition at hd
  split at hd
  · next c =>
    split at hd
    · cases hd; exact hc _ rfl
    · cases hd
  · cases hd

theorem neat_patternComprehension {k kw kl kc : Key} {p v : Val} {c : Option Cond} {d : List Val} (hp : p.Neat) (hc : OptCond c)
    (hd : AllNeat d) (h : patternComprehension k kw kl kc p c d = .ok v) : v.Neat := by
  unfold patternComprehension at h
  split at h
  · cases h
  · cases h
    refine neat_mk (tidy_one (tidy_nd fits_square ?_))
    simp only [TidyL_append]
    exact ⟨⟨⟨hp.visit, tidy_ifNotNull (optNeat_built hc)⟩, tidy_opL _⟩, (neat_listOrSingle hd).visit⟩

theorem neat_excluded {k : Key} {p : Val} (hp : p.Neat) : (excludedPattern k p).Neat := by
  unfold excludedPattern
  split
  · exact neat_bad
  · exact neat_mk (tidy_plain ⟨tidy_op _, hp.visit⟩)

theorem neat_patternCondition {k : Key} {p : Val} (hp : p.Neat) : (patternCondition k p).Neat := by
  unfold patternCondition
  split
  · exact neat_bad
  · exact neat_mk (tidy_plain hp.visit)

theorem neat_constant {b : Bool} : (constantCondition b).Neat := by
  unfold constantCondition
  split
  · exact neat_mk (tidy_plain (tidy_one (tidy_leaf rfl)))
  · exact neat_mk (tidy_plain (tidy_one (tidy_leaf rfl)))

theorem neat_existential {k : Key} {p : Val} (hp : p.Neat) : (existentialSubquery k p).Neat := by
  unfold existentialSubquery
  split
  · exact neat_bad
  · exact neat_mk (tidy_one (tidy_nd ⟨['}'], rfl, rfl⟩ hp.visit))

/-! ### Nodes -/

theorem tidy_name {n : Option (Key × Str)} : TidyL (nameVisit u n) := by
  unfold nameVisit
  split
  · exact tidy_one (tidy_leaf (balanced_escapeIfNecessary u _))
  · trivial

theorem tidy_label {l : Key × Str} : Tidy (labelVisit l) := by
  refine tidy_leaf ?_
  unfold labelText
  split
  · exact Balanced.nil
  · exact balanced_cons rfl (balanced_escapeName _)

theorem tidy_labels {ls : List (Key × Str)} : TidyL (ls.map labelVisit) := TidyL_map.2 fun _ _ => tidy_label

theorem tidy_props {p : Option (Key × Val)} (hp : propsNeat p) : TidyL (propsVisit p) := by
  unfold propsVisit
  split
  · next k m => exact tidy_one (tidy_nd ⟨[], rfl, rfl⟩ (hp k m rfl).visit)
  · trivial

theorem tidy_node {n : NodeV} (hn : n.Neat) : TidyL (n.visit u) := by
  refine tidy_one ⟨?_, ?_⟩
  · cases h : n.name with
    | none => simp only [Option.map]; trivial
    | some p => simp only [Option.map]; exact hn.name p.1 p.2 h
  · simp only [TidyL_append]
    exact ⟨⟨tidy_name, tidy_labels⟩, tidy_props hn.props⟩

theorem propsNeat_none : propsNeat none := by intro k m h; cases h

theorem neat_nodeBad {e : Err} : (NodeV.bad e).Neat := ⟨fun _ _ h => (by cases h), propsNeat_none⟩

theorem neat_propsOf {kp : Key} {m : Val} (hm : m.Neat) : propsNeat (NodeV.propsOf kp m) := by
  intro k m' h
  unfold NodeV.propsOf at h
  split at h
  · cases h
  · cases h; exact hm

theorem neat_node1 {k : Key} {ks : Nat → Key} {l : Str} {p : Option (Key × Val)} {ls : List Str} (hp : propsNeat p) :
    (NodeV.create1 k ks l p ls).Neat := by
  unfold NodeV.create1
  split
  · exact neat_nodeBad
  · split
    · exact neat_nodeBad
    · exact ⟨fun _ _ h => (by cases h), hp⟩

theorem neat_node2 {k kl : Key} {l : Str} : (NodeV.create2 k kl l).Neat := by
  unfold NodeV.create2
  split
  · exact neat_nodeBad
  · exact ⟨fun _ _ h => (by cases h), propsNeat_none⟩

theorem neat_node3 {k : Key} {ks : Nat → Key} {l : Str} {ls : List Str} : (NodeV.create3 k ks l ls).Neat := by
  unfold NodeV.create3
  split
  · exact neat_nodeBad
  · split
    · exact neat_nodeBad
    · exact ⟨fun _ _ h => (by cases h), propsNeat_none⟩

theorem neat_nodeWith {n : NodeV} {k kp : Key} {m : Val} (hn : n.Neat) (hm : m.Neat) : (n.withProperties k kp m).Neat :=
  ⟨hn.name, neat_propsOf hm⟩

theorem neat_mapZero : mapZero.Neat := neat_plain (tidy_one (tidy_nd fits_curly trivial))

theorem neat_nodeRaw {n n' : NodeV} {k kp km : Key} {ks : Nat → Key} {os : List Obj} (hn : n.Neat) (ho : ∀ o ∈ os, o.Neat)
    (h : n.withRawProperties u k kp km ks os = .ok n') : n'.Neat := by
  unfold NodeV.withRawProperties at h
  split at h
  · cases h; exact neat_nodeWith hn neat_mapZero
  · obtain ⟨m, hm, rfl⟩ := Outcome.map_ok h
    split
    · exact neat_nodeBad
    · exact neat_nodeWith hn (neat_mapOf ho hm)

theorem neat_nodeNamedByString {n : NodeV} {k : Key} {name : Str} (hs : Balanced name) (hn : n.Neat) : (n.namedByString k name).Neat := by
  refine ⟨fun k' s h => ?_, hn.props⟩
  simp only [NodeV.namedByString] at h
  split at h
  · cases h
  · cases h; exact hs

theorem neat_nodeNamed {n : NodeV} {name : Except Err (Option (Key × Str))} (hs : ∀ k s, name = .ok (some (k, s)) → Balanced s) (hn : n.Neat) :
    (n.named name).Neat := by
  unfold NodeV.named
  split
  · exact neat_nodeBad
  · exact neat_nodeBad
  · next x => exact ⟨fun k s h => hs k s (by simp only at h; rw [h]), hn.props⟩

theorem neat_nodeName {n : NodeV} : (n.requiredName u).Neat := by
  unfold NodeV.requiredName
  split
  · exact neat_symbolicName
  · exact neat_bad

theorem neat_nodeProperty {n : NodeV} {k kl : Key} {name : Str} : (n.property u k kl name).Neat := by
  unfold NodeV.property
  split
  · exact neat_propertyError
  · split
    · exact neat_propertyError
    · split
      · exact neat_propertyError
      · exact neat_property1 neat_nodeName

theorem neat_hasLabels {n : NodeV} {k : Key} {ks : Nat → Key} {ls : List Str} : (n.hasLabels u k ks ls).Neat := by
  unfold NodeV.hasLabels
  split
  · exact neat_bad
  · split
    · exact neat_bad
    · refine neat_mk (tidy_plain ?_)
      rw [TidyL_append]
      exact ⟨tidy_name, TidyL_map.2 fun _ _ => tidy_label⟩

/-! ### Relationships and chains -/

theorem balanced_types {ts : List Str} : Balanced (typesText ts) := by
  unfold typesText
  split
  · exact Balanced.nil
  · refine balanced_cons rfl (balanced_join (by rfl) fun x hx => ?_)
    obtain ⟨y, -, rfl⟩ := List.mem_map.1 hx
    exact balanced_escapeName y

theorem balanced_length {l : LengthV} : Balanced (lengthText l) := by
  have hi : ∀ o : Option Int, Balanced (match o with | some i => itoa i | .none => []) := by
    intro o; cases o with
    | none => exact Balanced.nil
    | some i => exact balanced_itoa i
  unfold lengthText
  split
  · rfl
  · split
    · exact Balanced.nil
    · exact ((Balanced.append (s := c!"*") rfl (hi _)).append (t := c!"..") rfl).append (hi _)

theorem tidy_details {d : DetailsV} (hd : propsNeat d.props) : TidyL (d.visit u) := by
  refine tidy_one (tidy_nd ?_ ?_)
  · cases d.dir <;> cases d.hasContent <;> first | exact ⟨[], rfl, rfl⟩ | exact ⟨[']'], rfl, rfl⟩
  · simp only [TidyL_append]
    refine ⟨⟨⟨tidy_name, ?_⟩, ?_⟩, tidy_props hd⟩
    · unfold typesVisit
      split
      · exact tidy_one (tidy_leaf balanced_types)
      · trivial
    · unfold lengthVisit
      split
      · exact tidy_one (tidy_leaf balanced_length)
      · trivial

theorem neat_nodeZero : NodeV.Neat {} := ⟨fun _ _ h => (by cases h), propsNeat_none⟩

theorem neat_relBad {e : Err} : (RelV.bad e).Neat := ⟨neat_nodeZero, neat_nodeZero, propsNeat_none⟩

theorem neat_rel3 {k : Key} {l r : NodeV} {d : DetailsV} (hl : l.Neat) (hr : r.Neat) (hd : propsNeat d.props) : (RelV.create3 k l d r).Neat := by
  unfold RelV.create3
  split
  · exact neat_relBad
  · exact ⟨hl, hr, hd⟩

theorem neat_rel {k kd kt : Key} {l r : NodeV} {d : Direction} {ts : List Str} (hl : l.Neat) (hr : r.Neat) : (RelV.create k kd kt l d r ts).Neat :=
  neat_rel3 hl hr propsNeat_none

theorem tidy_rel {r : RelV} (hr : r.Neat) : TidyL (r.visit u) := by
  refine tidy_plain ?_
  simp only [TidyL_append]
  exact ⟨⟨tidy_node hr.left, tidy_details hr.props⟩, tidy_node hr.right⟩

theorem neat_relNamed {r : RelV} {k kn : Key} {name : Str} (hr : r.Neat) : (r.named k kn name).Neat := by
  refine neat_rel3 hr.left hr.right ?_
  unfold DetailsV.namedByString
  split
  · exact propsNeat_none
  · exact hr.props

theorem neat_relWith {r : RelV} {k kp : Key} {m : Val} (hr : r.Neat) (hm : m.Neat) : (r.withProperties k kp m).Neat := by
  unfold RelV.withProperties
  split
  · exact hr
  · refine neat_rel3 hr.left hr.right ?_
    unfold DetailsV.withProps DetailsV.create
    split
    · exact propsNeat_none
    · next p hp =>
      split at hp
      · split at hp
        · cases hp
        · cases hp; intro k' m' h; cases h; exact hm
      · cases hp; exact propsNeat_none

theorem neat_relRaw {r r' : RelV} {k kp km : Key} {ks : Nat → Key} {os : List Obj} (hr : r.Neat) (ho : ∀ o ∈ os, o.Neat)
    (h : r.withRawProperties u k kp km ks os = .ok r') : r'.Neat := by
  unfold RelV.withRawProperties at h
  split at h
  · cases h; exact neat_relWith hr neat_mapZero
  · obtain ⟨m, hm, rfl⟩ := Outcome.map_ok h
    split
    · exact neat_relBad
    · exact neat_relWith hr (neat_mapOf ho hm)

theorem neat_relName {r : RelV} : (r.requiredName u).Neat := by
  unfold RelV.requiredName
  split
  · exact neat_symbolicName
  · exact neat_bad

theorem neat_chainStart {r : RelV} {k kd kt : Key} {d : Direction} {n : NodeV} {ts : List Str} (hr : r.Neat) (hn : n.Neat) :
    (ChainV.start r k kd kt d n ts).Neat := by
  intro x hx
  simp only [ChainV.start, List.mem_cons, List.not_mem_nil, or_false] at hx
  rcases hx with rfl | rfl
  · exact hr
  · exact neat_rel hr.right hn

theorem neat_chainExtend {c c' : ChainV} {k kd kt : Key} {d : Direction} {n : NodeV} {ts : List Str} (hc : c.Neat) (hn : n.Neat)
    (h : c.extend k kd kt d n ts = .ok c') : c'.Neat := by
  unfold ChainV.extend at h
  split at h
  · next r hr =>
    cases h
    intro x hx
    rcases List.mem_append.1 hx with hx | hx
    · exact hc x hx
    · rw [List.mem_singleton] at hx; rw [hx]; exact neat_rel (hc r (List.mem_of_getLast? hr)).right hn
  · cases h

theorem neat_chainChange {c c' : ChainV} {f : RelV → Outcome RelV} (hc : c.Neat)
    (hf : ∀ r r', c.rels.getLast? = some r → f r = .ok r' → r'.Neat) (h : c.changeLast f = .ok c') : c'.Neat := by
  unfold ChainV.changeLast at h
  split at h
  · next r hr =>
    obtain ⟨r', hr', rfl⟩ := Outcome.map_ok h
    intro x hx
    rcases List.mem_append.1 hx with hx | hx
    · exact hc x (List.dropLast_subset _ hx)
    · rw [List.mem_singleton] at hx; rw [hx]; exact hf r r' hr hr'
  · cases h

theorem tidy_chain {c : ChainV} (hc : c.Neat) : TidyL (c.visit u) := by
  refine tidy_plain ?_
  simp only [TidyL_append, TidyL_flatMap]
  refine ⟨fun r hr => ⟨tidy_node (hc r hr).left, tidy_details (hc r hr).props⟩, ?_⟩
  unfold ChainV.lastVisit
  split
  · next r hr =>
    split
    · exact tidy_node (hc r (List.mem_of_getLast? hr)).right
    · trivial
  · trivial

theorem tidy_pathName {guid : Str} {n : Option (Key × Str)} (hg : Balanced guid) : TidyL (pathName u guid n) := by
  unfold pathName
  split
  · exact tidy_name
  · exact tidy_one (tidy_leaf hg)

theorem neat_namedPath {guid : Str} {k : Key} {n : Option (Key × Str)} {p : Val} (hg : Balanced guid) (hp : p.Neat) :
    (namedPath u guid k n p).Neat := by
  unfold namedPath
  split
  · exact neat_bad
  · refine neat_mk (tidy_plain ?_)
    simp only [TidyL_append]
    exact ⟨⟨tidy_pathName hg, tidy_opL _⟩, hp.visit⟩

theorem neat_aShortestPath {k kn kf ka : Key} {name : Str} {r : RelV} (hr : r.Neat) : (aShortestPath u k kn kf ka name r).Neat := by
  unfold aShortestPath
  split
  · exact neat_bad
  · split
    · exact neat_bad
    · exact neat_namedPath Balanced.nil (neat_functionPattern (by rfl) (optNeat_some.2 (neat_plain (tidy_rel hr))))

theorem neat_shortestPath {k ka : Key} {r : RelV} (hr : r.Neat) : (shortestPath u k ka r).Neat := by
  unfold shortestPath
  split
  · exact neat_bad
  · exact neat_functionPattern (by rfl) (optNeat_some.2 (neat_plain (tidy_rel hr)))

theorem neat_nameArg {n : Option (Key × Str)} : (nameArg u n).Neat := by
  unfold nameArg
  split
  · exact neat_symbolicName
  · exact neat_plain trivial

theorem neat_fnNode {f : FnNode} {k ka : Key} {n : NodeV} {v : Val} (h : fnNode u f k ka n = .ok v) : v.Neat := by
  unfold fnNode at h
  split at h
  · exact neat_function (by rfl) (optNeat_one (optNeat_some.2 neat_nameArg)) h
  · exact neat_functionDistinct (by rfl) (optNeat_one (optNeat_some.2 neat_nameArg)) h
  · split at h
    · cases h; exact neat_bad
    · split at h
      · cases h; exact neat_bad
      · exact neat_function (by cases f <;> rfl) (optNeat_one (optNeat_some.2 neat_nameArg)) h

theorem neat_fnRel {f : FnRel} {k ka : Key} {r : RelV} {v : Val} (h : fnRel u f k ka r = .ok v) : v.Neat := by
  unfold fnRel at h
  split at h
  · cases h; exact neat_bad
  · split at h
    · cases h; exact neat_bad
    · split at h
      · cases h; exact neat_bad
      · exact neat_function (by cases f <;> rfl) (optNeat_one (optNeat_some.2 neat_nameArg)) h

theorem neat_collectNode {d : Bool} {k ka : Key} {n : NodeV} {v : Val} (h : collectNode u d k ka n = .ok v) : v.Neat := by
  unfold collectNode at h
  split at h
  · cases h; exact neat_bad
  · split at h
    · cases h; exact neat_bad
    · split at h
      · exact neat_functionDistinct (by rfl) (optNeat_one (optNeat_some.2 neat_nodeName)) h
      · exact neat_function (by rfl) (optNeat_one (optNeat_some.2 neat_nodeName)) h

theorem neat_fnPath {nodes : Bool} {k ka : Key} {n : Option (Key × Str)} {p v : Val} (h : fnPath u nodes k ka n p = .ok v) : v.Neat := by
  unfold fnPath at h
  split at h
  · cases h; exact neat_bad
  · split at h
    · cases h; exact neat_bad
    · split at h
      · cases h; exact neat_bad
      · exact neat_function (by cases nodes <;> rfl) (optNeat_one (optNeat_some.2 neat_nameArg)) h

end
end Verif
