import Verif.SegLemmas

/-
Patterns in expressions are read with their meaning.
-/

namespace Verif.Rd

open Spec

variable {u : Unicode} {I : Meaning} {tight : Bool} {R : Val → I.D → CallKind → Prop}

/-! ### Reading -/

/-- What is an operand when no arrow follows is a condition. -/
theorem Prefix.noArrow {as : List Token} {a : I.D} (hn : as.head? = some (.sym '(')) (h : ∀ r, NoArrow r → RA I tight (as ++ r) a r) : Prefix I tight 3 as a := by
  intro r d' r' hr hc
  simp only [Cont, true_or, if_true] at hc
  obtain ⟨rfl, rfl⟩ := hc
  obtain ⟨as, rfl⟩ : ∃ as', as = .sym '(' :: as' := by
    cases as with
    | nil => cases hn
    | cons t as => simp at hn; exact ⟨as, by rw [hn]⟩
  have h11 : RE I tight 11 (.sym '(' :: (as ++ r')) d' r' := RE.atom (h r' ⟨hr.arrow.2, hr.arrow.1⟩) (RP.stop _ (hr.2.1 (by omega)))
  have hst : ∀ i, 4 ≤ i → i ≤ 10 → RM I tight i d' r' d' r' := fun i h1 h2 => RM.stop _ (hr.1 i h1 h2).1 (hr.1 i h1 h2).2
  have h10 := RE.loop (l := 10) ⟨by omega, by omega, by omega⟩ h11 (hst 10 (by omega) (by omega))
  have h9 := RE.nine (by simp) h10
  have h8 := RE.loop (l := 8) ⟨by omega, by omega, by omega⟩ h9 (hst 8 (by omega) (by omega))
  have h7 := RE.loop (l := 7) ⟨by omega, by omega, by omega⟩ h8 (hst 7 (by omega) (by omega))
  have h6 := RE.loop (l := 6) ⟨by omega, by omega, by omega⟩ h7 (hst 6 (by omega) (by omega))
  have h5 := RE.loop (l := 5) ⟨by omega, by omega, by omega⟩ h6 (hst 5 (by omega) (by omega))
  have h4 := RE.loop (l := 4) ⟨by omega, by omega, by omega⟩ h5 (hst 4 (by omega) (by omega))
  have := RE.three (by rfl) h4
  simpa using this

def RPattern (I : Meaning) (tight : Bool) (ts : List Token) (d : PathPat I.D) (r : List Token) : Prop :=
  ∃ N, ∀ n ≥ N, patternBy (readAtom I tight n) n ts = some (d, r)

theorem RPath.pattern {ts r : List Token} {p : PathPat I.D} (h : RPath I tight ts p r) (hp : p.steps ≠ []) : RPattern I tight ts p r := by
  obtain ⟨N, h⟩ := h
  refine ⟨N, fun n hn => ?_⟩
  have := h n hn
  simp only [readPath] at this
  rw [patternBy, this]
  simp only [Option.bind_some]
  split
  · rename_i he; exact absurd he hp
  · rfl

theorem RA.pattern {ts r : List Token} {p : PathPat I.D} (h : RPattern I tight (.sym '(' :: ts) p r) : RA I tight (.sym '(' :: ts) (I.pattern p) r := by
  obtain ⟨N, h⟩ := h
  refine ⟨N + 1, fun n hn => ?_⟩
  obtain ⟨m, rfl⟩ : ∃ m, n = m + 1 := ⟨n - 1, by omega⟩
  rw [readAtom.eq_def]
  simp [h m (by omega)]

def RPatternResult (I : Meaning) (tight : Bool) (p : PathPat I.D) (c : Option I.D) (ts : List Token) (d : I.D) (r : List Token) : Prop :=
  ∃ N, ∀ n ≥ N, readPatternResult I tight n p c ts = some (d, r)

theorem RPatternResult.pipe {p : PathPat I.D} (c : Option I.D) {ts r : List Token} {d : I.D} (h : RE I tight 0 ts d (.sym ']' :: r)) :
    RPatternResult I tight p c (.sym '|' :: ts) (I.patternList p c d) r := by
  obtain ⟨N, h⟩ := h
  refine ⟨N + 1, fun n hn => ?_⟩
  obtain ⟨m, rfl⟩ : ∃ m, n = m + 1 := ⟨n - 1, by omega⟩
  rw [readPatternResult.eq_def]
  simp [h m (by omega)]

theorem RA.patternList {ts r r1 r' : List Token} {p : PathPat I.D} {c : Option I.D} {d : I.D} (h : RPattern I tight (.sym '(' :: ts) p r) (hg : goesOn r = true)
    (h1 : ROpt I tight c!"where" r c r1) (h2 : RPatternResult I tight p c r1 d r') : RA I tight (.sym '[' :: .sym '(' :: ts) d r' := by
  obtain ⟨N, h⟩ := h
  obtain ⟨N1, h1⟩ := h1
  obtain ⟨N2, h2⟩ := h2
  refine ⟨N + N1 + N2 + 2, fun n hn => ?_⟩
  obtain ⟨m, rfl⟩ : ∃ m, n = m + 2 := ⟨n - 2, by omega⟩
  have hb : binder (.sym '(' :: ts) = none := rfl
  rw [readAtom.eq_def]
  simp only [hb, h (m + 1) (by omega), hg, if_true]
  rw [readPatternList.eq_def]
  have h1 := h1 m (by omega)
  have h2 := h2 m (by omega)
  simp only [readOpt] at h1
  change (match Spec.after c!"where" r with
    | some r => (readExpr I tight m 0 r).bind fun c => readPatternResult I tight m p (some c.1) c.2
    | none => readPatternResult I tight m p none r) = _
  cases ha : Spec.after c!"where" r with
  | none =>
    rw [ha] at h1
    simp only [Option.some.injEq, Prod.mk.injEq] at h1
    obtain ⟨rfl, rfl⟩ := h1
    exact h2
  | some r2 =>
    rw [ha] at h1
    simp only [Option.map_eq_some_iff, Prod.mk.injEq] at h1
    obtain ⟨q, hq, rfl, rfl⟩ := h1
    simp only [hq, Option.bind_some]
    exact h2

theorem RA.exists {w w' : Str} {ts r r' : List Token} {ps : List (Element I.D)} {c : Option I.D} (hw : lower w = c!"exists") (hw' : lower w' = c!"match")
    (h : RList (readElement I tight) ts ps r) (h1 : ROpt I tight c!"where" r c (.sym '}' :: r')) :
    RA I tight (.word w :: .sym '{' :: .word w' :: ts) (I.existsMatch ps c) r' := by
  obtain ⟨N, h⟩ := h
  obtain ⟨N1, h1⟩ := h1
  refine ⟨N + N1 + 3, fun n hn => ?_⟩
  obtain ⟨m, rfl⟩ : ∃ m, n = m + 3 := ⟨n - 3, by omega⟩
  have hr : lower w ∉ reserved := by rw [hw]; decide
  rw [readAtom.eq_def]
  simp only [hw]
  have e1 : (c!"exists" = c!"true") = False := by decide
  have e2 : (c!"exists" = c!"false") = False := by decide
  have e3 : (c!"exists" = c!"null") = False := by decide
  have e4 : (c!"exists" = c!"case") = False := by decide
  have e5 : (c!"exists" ∈ reserved) = False := by decide
  simp only [e1, e2, e3, e4, e5, if_false, if_true]
  rw [readExists.eq_def]
  have h := h (m + 1) (by omega) (m + 1) (by omega)
  have h1 := h1 (m + 1) (by omega)
  have he : commaList (elementBy (readAtom I tight (m + 1)) (m + 1)) (m + 1) ts = some (ps, r) := h
  simp only [Spec.after, Token.is, hw', decide_true, if_true, Option.bind_some, he]
  simp only [readOpt] at h1
  change (match Spec.after c!"where" r with
    | some r => (readExpr I tight (m + 1) 0 r).bind fun c => readExistsEnd I tight (m + 1) ps (some c.1) c.2
    | none => readExistsEnd I tight (m + 1) ps none r) = _
  cases ha : Spec.after c!"where" r with
  | none =>
    rw [ha] at h1
    simp only [Option.some.injEq, Prod.mk.injEq] at h1
    obtain ⟨rfl, rfl⟩ := h1
    simp [readExistsEnd]
  | some r2 =>
    rw [ha] at h1
    simp only [Option.map_eq_some_iff, Prod.mk.injEq] at h1
    obtain ⟨q, hq, rfl, h3⟩ := h1
    simp [hq, h3, readExistsEnd]

/-! ### Patterns -/

theorem frozenL_one {e : Env} {ts : List Tree} (h : Spec.One ts) : Spec.One (frozenL e ts) := by
  obtain ⟨v, kids, rfl⟩ := h
  simp only [frozenL, frozen]
  split <;> exact ⟨_, _, rfl⟩

theorem path_one {e e' : Env} {v : Val} {p : PathPat I.D} (h : PathMeans u R e v p e') : Spec.One v.visit := by
  cases h with
  | node h => exact ⟨_, _, rfl⟩
  | rel _ _ _ => exact ⟨_, _, rfl⟩
  | chain _ _ _ hc _ => exact ⟨_, _, rfl⟩

theorem element_one {e e' : Env} {v : Val} {p : Element I.D} (h : ElementMeans u R e v p e') : Spec.One v.visit := by
  cases h with
  | path h => exact path_one h
  | named _ he hx _ =>
    simp only [aPath, namedPath, he]
    exact ⟨_, _, rfl⟩
  | shortest _ he hn hx _ =>
    have hx0 := name_ne hx.1
    simp only [aShortestPath, hx0, if_false, he]
    simp only [functionInvocationPattern, firstErr, errOf, nilErr, missing, RelV.toVal, he, hn, namedPath]
    exact ⟨_, _, rfl⟩

theorem pattern_reads (hR : ∀ v d σ, R v d σ → Good' u I tight v d σ) {w : Val} {p : PathPat I.D} (h : PatternAs u R w p) :
    ∃ s ts, Text w s ∧ LexesAny u s (.sym '(' :: ts) ∧ (∀ r, NoArrow r → RPattern I tight (.sym '(' :: ts ++ r) p r) := by
  obtain ⟨_, _, hp, e, v, e', hv, hw⟩ := h
  obtain ⟨s, ts, h1, h2, h3, _⟩ := path_reads hR hv
  refine ⟨s, ts, fun e1 he1 => ?_, h2, fun r hr => (h3 r hr).pattern hp⟩
  rw [hw, frozen_text e _ he1, h1]

theorem _root_.Verif.Spec.PatternAs.one {w : Val} {p : PathPat I.D} (h : PatternAs u R w p) : Spec.One w.visit := by
  obtain ⟨_, _, _, e, v, e', hv, hw⟩ := h
  rw [hw]
  exact frozenL_one (path_one hv)

theorem _root_.Verif.Spec.PatternAs.dk {w : Val} {p : PathPat I.D} (h : PatternAs u R w p) : dkeysL w.visit = [] := by
  obtain ⟨_, _, _, e, v, e', hv, hw⟩ := h
  rw [hw, dkeysL_frozen]

/-- A pattern, taken as a condition. -/
theorem path_good (hR : ∀ v d σ, R v d σ → Good' u I tight v d σ) {w : Val} {p : PathPat I.D} (h : PatternAs u R w p) :
    Good' u I tight { w with isCond := true } (I.pattern p) .membership := by
  obtain ⟨s, ts, h1, h2, h3⟩ := pattern_reads hR h
  refine ⟨h.1, h.2.1, h.one, h.dk, fun _ => rfl, s, .sym '(' :: ts, h1, h2.lexes, Prefix.noArrow rfl fun r hr => RA.pattern (h3 r hr), Head.sym (by simp) _ _, ?_⟩
  exact (Never.sym (by simp) ts).extra (by simp [CallKind.first]) (by simp [CallKind.first])

/-- One tree around a good value. -/
theorem wrapped_good {k k' : Key} {v : Val} {d : I.D} {σ : CallKind} (h : Good' u I tight v d σ) (hc : v.isCond = true) :
    Good' u I tight (.mk' k [nd k' [] [] false v.visit] true) d σ := by
  obtain ⟨s, ts, h1, h2, h3, h4, h5⟩ := h.reads
  refine ⟨rfl, rfl, ⟨_, _, rfl⟩, by simp [Val.mk', dkeysL_nd, h.dk], fun _ => rfl, s, ts, fun e he => ?_, h2, h3, h4, by rw [hc] at h5; exact h5⟩
  have := h1 e he
  unfold shownAs at this
  simp [shownAs, Val.mk', nd, denL, den, shown, he k', sepText, described, defined, Vis.asAlias, this, Kind.isSub]

theorem pattern_good (hR : ∀ v d σ, R v d σ → Good' u I tight v d σ) (k : Key) {w : Val} {p : PathPat I.D} (h : PatternAs u R w p) :
    Good' u I tight (patternCondition k w) (I.pattern p) .membership := by
  have := wrapped_good (k := k) (k' := k) (path_good hR h) rfl
  simp only [patternCondition, h.1]
  exact this

theorem excludedPattern_good (hR : ∀ v d σ, R v d σ → Good' u I tight v d σ) (k : Key) {w : Val} {p : PathPat I.D} (h : PatternAs u R w p) :
    Good' u I tight (excludedPattern k w) (I.not (I.pattern p)) .condition := by
  obtain ⟨s, ts, h1, h2, h3, h4, h5⟩ := (path_good hR h).reads
  have hT := fun e => (C45_patterns (e := e) k w h.1).1
  have he : (excludedPattern k w).visit = [nd k [] [] false (Op.not.visit :: w.visit)] := by simp [excludedPattern, h.1, Val.mk']
  have hdk : dkeysL (excludedPattern k w).visit = [] := by simp [he, dkeysL_nd, dkeysL, Op.visit, dkeys_leaf, h.dk]
  refine ⟨(hT ⟨fun _ => none, fun _ => false⟩).1, by simp [excludedPattern, h.1, Val.mk'], by rw [he]; exact ⟨_, _, rfl⟩, hdk, fun _ => by simp [excludedPattern, h.1, Val.mk'],
    c!"NOT " ++ (s ++ []), .word c!"NOT" :: ts, Text.of hdk (fun e => (hT e).2) (Shows.lit _ (Shows.hole (v := w) h1 Shows.nil)), ?_, Prefix.not h3, ?_, ?_⟩
  · intro r rs hf hr
    have e1 : c!"NOT " = c!"NOT" ++ [' '] := rfl
    rw [e1]
    simp only [List.append_assoc, List.cons_append, List.nil_append]
    exact kw c!"NOT" (by decide) (h2 _ _ hf hr)
  · exact ⟨_, _, rfl, fun h => by simp [level] at h, fun h => by simp [level] at h, fun w h => by cases h; decide, fun c h => by cases h⟩
  · refine .word (.inl (by decide)) ?_
    obtain ⟨t, r', rfl, _, _, hword, _⟩ := h4
    intro _ _ _ h _
    cases h
    cases t with
    | word w => simpa [Token.is] using fun h => hword w rfl (by simp [h])
    | _ => rfl

theorem patternCall_good (hR : ∀ v d σ, R v d σ → Good' u I tight v d σ) (k ka : Key) {f : FnDef} (hf : f ∈ [fnSize, fnShortestPath, fnExists]) {w : Val} {p : PathPat I.D}
    (h : PatternAs u R w p) : Good' u I tight (functionInvocationPattern k ka f (some w)) (I.call f.name false [I.pattern p]) .atom := by
  have hn : FnName f.name := by
    simp only [List.mem_cons, List.not_mem_nil, or_false] at hf
    rcases hf with rfl | rfl | rfl <;> decide
  have := invoke_good k ka hn (xs := [⟨{ w with isCond := true }, I.pattern p, .membership⟩]) (by simp) (by simpa using path_good hR h)
  simpa [functionInvocationPattern, firstErr, errOf, nilErr, missing, h.1, h.2.1, visitsOf] using this

theorem existsPattern_good (hR : ∀ v d σ, R v d σ → Good' u I tight v d σ) (k kf ka : Key) {w : Val} {p : PathPat I.D} (h : PatternAs u R w p) :
    Good' u I tight (predicateExistsByPattern k kf ka w) (I.call c!"exists" false [I.pattern p]) .atom := by
  obtain ⟨hdk, s, ts, h1, h2, h3, h4, h5⟩ := invoke_reads (u := u) (tight := tight) kf ka (name := c!"exists")
    (xs := [⟨{ w with isCond := true }, I.pattern p, .membership⟩]) (by decide) (by simp) (by simpa using path_good hR h)
  have he : predicateExistsByPattern k kf ka w = .mk' k (invocation kf ka c!"exists" w.visit).visit true := by
    simp [predicateExistsByPattern, booleanFunction, functionInvocationPattern, firstErr, errOf, nilErr, missing, h.1, h.2.1, invocation, Val.mk', fnExists]
  rw [he]
  simp only [List.map_cons, List.map_nil, visitsOf, List.flatMap_cons, List.flatMap_nil, List.append_nil] at hdk h1
  exact ⟨rfl, rfl, ⟨_, _, rfl⟩, hdk, fun _ => rfl, s, ts, h1, h2, h3, h4, h5 _⟩

/-! ### Conditions after patterns -/

/-- A condition that may be missing. -/
def whereOf (m : Option (Meant I)) : List Part :=
  match m with
  | some x => [.lit c!" WHERE ", .hole x.v.visit]
  | none => []

theorem whereOf_reads {m : Option (Meant I)} (h : ∀ x, m = some x → Good' u I tight x.v x.d x.σ) :
    ∃ s ts, Shows (whereOf m) s ∧ Lexes u s ts ∧ (∀ r, Follow u r → Follow u (s ++ r)) ∧
      (∀ r, Stops tight 0 r → Spec.after c!"where" r = none → ROpt I tight c!"where" (ts ++ r) (m.map (·.d)) r) ∧ ((ts = [] ∧ m = none) ∨ ∃ ts', ts = .word c!"WHERE" :: ts') := by
  cases m with
  | none => exact ⟨[], [], Shows.nil, Lexes.nil, fun _ h => h, fun r _ h => ROpt.none h, .inl ⟨rfl, rfl⟩⟩
  | some x =>
    obtain ⟨sc, tc, c1, c2, c3, _, _⟩ := (h x rfl).below
    refine ⟨c!" WHERE " ++ (sc ++ []), .word c!"WHERE" :: tc, Shows.lit _ (Shows.hole c1 Shows.nil), ?_, fun r _ => Follow.mark (by decide) _, fun r hr _ => ?_, .inr ⟨tc, rfl⟩⟩
    · intro r rs hf hr
      have e2 : c!" WHERE " = ' ' :: (c!"WHERE" ++ [' ']) := rfl
      rw [e2]
      simp only [List.append_assoc, List.cons_append, List.nil_append]
      exact Tokens.sp (Rd.kw c!"WHERE" (by decide) (c2 _ _ hf hr))
    · exact ROpt.some (by decide) (c3.reads (by omega) hr)

theorem built_cases {c : Option Cond} {m : Option (Meant I)} (h : (builtCondition c).map Cond.toVal = m.map (·.v)) :
    (builtCondition c = none ∧ m = none) ∨ ∃ c' x, builtCondition c = some c' ∧ m = some x ∧ c'.toVal = x.v := by
  cases hb : builtCondition c with
  | none => cases m with | none => exact .inl ⟨rfl, rfl⟩ | some x => simp [hb] at h
  | some c' => cases m with | none => simp [hb] at h | some x => exact .inr ⟨c', x, rfl, rfl, by simpa [hb] using h⟩

/-! ### Pattern comprehensions -/

theorem patternComprehension_good (hR : ∀ v d σ, R v d σ → Good' u I tight v d σ) {k kw kl kc : Key} {w v : Val} {p : PathPat I.D} {c : Option Cond}
    {m : Option (Meant I)} {xs : List (Meant I)} (h : PatternAs u R w p) (hc : (builtCondition c).map Cond.toVal = m.map (·.v))
    (hm : ∀ x, m = some x → Good' u I tight x.v x.d x.σ) (hx : ∀ x ∈ xs, Good' u I tight x.v x.d x.σ)
    (hf : xs.length ≠ 1 → ∀ x, xs.head? = some x → x.σ.first = true) (hv : patternComprehension k kw kl kc w c (xs.map (·.v)) = .ok v) :
    Good' u I tight v (I.patternList p (m.map (·.d)) (if xs.length = 1 then (xs.head?.map (·.d)).getD I.null else I.list (xs.map (·.d)))) .atom := by
  have hb := built_cases hc
  have hT : ∀ e, NoAlias e [k, kw, kl, kc, Op.pipe.key] v.visit → shownAs e v.visit =
      layout e ([.lit c!"[", .hole w.visit] ++ whereOf m ++ .lit c!" | " :: definitionParts (xs.map (·.v)) ++ [.lit c!"]"]) := by
    intro e
    obtain ⟨v', h1, h2, h3⟩ := C44_pattern_partial (e := e) k kw kl kc w c (xs.map (·.v)) h.2.1 h.1
      (by
        intro c' hc'
        rcases hb with ⟨h1, h2⟩ | ⟨c'', x, h1, h2, h3⟩
        · rw [h1] at hc'; cases hc'
        · rw [h1] at hc'; cases hc'; rw [h3]; exact (hm x h2).err)
      (fun d hd => ⟨errs_none hx d hd, ones hx d hd⟩)
    rw [hv] at h1
    cases h1
    intro ha
    rw [h3 ha]
    rcases hb with ⟨b1, b2⟩ | ⟨c'', x, b1, b2, b3⟩
    · simp [b1, b2, whereOf]
    · simp [b1, b2, whereOf, b3]
  have he : v = .mk' k [nd k c!"[" c!"]" false (w.visit ++ visitIfNotNull ((m.map (·.v)).map (whereCreate kw)) ++ [Op.pipe.visit] ++
      (listOrSingle kl kc (xs.map (·.v))).visit)] := by
    simp only [patternComprehension, h.2.1, Bool.not_true, Bool.false_eq_true, if_false, patternComprehensionCreate] at hv
    cases hv
    rcases hb with ⟨h1, h2⟩ | ⟨c'', x, h1, h2, h3⟩
    · simp [h1, h2]
    · simp [h1, h2, h3]
  have hdk : dkeysL v.visit = [] := by
    rw [he]
    have h1 : dkeysL (visitIfNotNull ((m.map (·.v)).map (whereCreate kw))) = [] := by
      cases hmm : m with
      | none => rfl
      | some x => simp [visitIfNotNull, whereCreate, (hm x hmm).err, dkeysL, dkeys_nd, (hm x hmm).dk]
    simp [-Option.map_map, Val.mk', dkeysL_nd, dkeysL_append, h.dk, h1, dkeysL, Op.visit, dkeys_leaf, definition_dkeys hx]
  obtain ⟨s, ts, h1, h2, h3⟩ := pattern_reads hR h
  obtain ⟨sw, tw, w1, w2, w3, w4, w5⟩ := whereOf_reads hm
  obtain ⟨sd, td, d1, d2, d3⟩ := definition_reads hx hf
  refine ⟨by rw [he]; rfl, by rw [he]; rfl, by rw [he]; exact ⟨_, _, rfl⟩, hdk, by simp [CallKind.isCondition],
    c!"[" ++ (s ++ (sw ++ (c!" | " ++ (sd ++ (c!"]" ++ []))))), .sym '[' :: .sym '(' :: (ts ++ (tw ++ .sym '|' :: (td ++ [.sym ']']))),
    Text.of hdk hT ?_, ?_, ?_, Head.sym (by simp) _ _, Extra.sym (by simp) _⟩
  · have := Shows.lit c!"[" (Shows.hole h1 (w1.append (Shows.lit c!" | " (d1.append (Shows.lit c!"]" Shows.nil)))))
    simpa using this
  · intro r rs _ hr
    simp only [List.append_assoc, List.cons_append, List.nil_append]
    refine Tokens.sym (by simp [symbols]) (by simp) (h2 _ _ (w2 _ _ (Follow.mark (by decide) _) (Tokens.sp (Tokens.sym (by simp [symbols]) (by simp) (Tokens.sp
      (d2 _ _ (Follow.mark (by decide) _) (Tokens.sym (by simp [symbols]) (by simp) hr)))))))
  · refine Prefix.atom fun r _ _ => ?_
    simp only [List.append_assoc, List.cons_append, List.nil_append]
    have hstop : Stops tight 0 (.sym '|' :: (td ++ .sym ']' :: r)) := Stops.close (by simp) 0 _
    refine RA.patternList (r := tw ++ .sym '|' :: (td ++ .sym ']' :: r)) ?_ ?_ (w4 _ hstop (by simp [Spec.after, Token.is])) (RPatternResult.pipe _ (d3.reads (by omega) (Stops.close (.inr (.inl rfl)) 0 r)))
    · apply h3
      rcases w5 with ⟨rfl, _⟩ | ⟨tw', rfl⟩ <;> simp [NoArrow]
    · rcases w5 with ⟨rfl, _⟩ | ⟨tw', rfl⟩
      · rfl
      · simp [goesOn, Token.is]; decide

/-! ### EXISTS -/

theorem elementAs_reads (hR : ∀ v d σ, R v d σ → Good' u I tight v d σ) {w : Val} {p : Element I.D} (h : ElementAs u R w p) :
    ∃ s ts, Text w s ∧ LexesAny u s ts ∧ (∀ r, NoArrow r → RElement I tight (ts ++ r) p r) := by
  obtain ⟨e, v, e', hv, hw⟩ := h
  obtain ⟨s, ts, h1, h2, h3, _⟩ := element_reads hR hv
  refine ⟨s, ts, fun e1 he1 => ?_, h2, h3⟩
  rw [hw, frozen_text e _ he1, h1]

theorem elements_reads (hR : ∀ v d σ, R v d σ → Good' u I tight v d σ) {ws : List Val} {ps : List (Element I.D)} (h : List.Forall₂ (ElementAs u R) ws ps) (hne : ws ≠ []) :
    ∃ s ts, Shows (commas (ws.map (·.visit))) s ∧ LexesAny u s ts ∧ ∀ r, NoArrow r → r.head? ≠ some (.sym ',') → RList (readElement I tight) (ts ++ r) ps r := by
  induction h with
  | nil => exact absurd rfl hne
  | @cons w p ws ps h1 h2 ih =>
    obtain ⟨s, ts, e1, e2, e3⟩ := elementAs_reads hR h1
    cases h2 with
    | nil => exact ⟨s ++ [], ts, Shows.hole e1 Shows.nil, by simpa using e2, fun r hr hc => RList.last (e3 r hr) hc⟩
    | @cons w' p' ws ps h3 h4 =>
      obtain ⟨s', ts', i1, i2, i3⟩ := ih (by simp)
      refine ⟨s ++ (c!", " ++ s'), ts ++ .sym ',' :: ts', Shows.hole e1 (Shows.lit _ i1), ?_, fun r hr hc => ?_⟩
      · intro r rs hr
        simp only [List.append_assoc, List.cons_append, List.nil_append]
        exact e2 _ _ (Tokens.sym (by simp [symbols]) (by simp) (Tokens.sp (i2 _ _ hr)))
      · have := RList.more (r := ts' ++ r) (e3 (.sym ',' :: (ts' ++ r)) (by simp [NoArrow])) (i3 r hr hc)
        simpa using this

theorem elements_dkeys {ws : List Val} {ps : List (Element I.D)} (h : List.Forall₂ (ElementAs u R) ws ps) : dkeysL (visitsOf ws) = [] ∧ ∀ w ∈ ws, Spec.One w.visit := by
  induction h with
  | nil => exact ⟨rfl, by simp⟩
  | @cons w p ws ps h1 h2 ih =>
    obtain ⟨e, v, e', hv, hw⟩ := h1
    have i1 := ih.1
    simp only [visitsOf] at i1
    refine ⟨by simp [visitsOf, dkeysL_append, hw, dkeysL_frozen, i1], ?_⟩
    intro x hx
    rcases List.mem_cons.mp hx with rfl | hx
    · rw [hw]; exact frozenL_one (element_one hv)
    · exact ih.2 x hx

theorem existsMatch_good (hR : ∀ v d σ, R v d σ → Good' u I tight v d σ) (k km kw : Key) {ws : List Val} {ps : List (Element I.D)} {c : Option Cond} {m : Option (Meant I)}
    (hne : ws ≠ []) (h : List.Forall₂ (ElementAs u R) ws ps) (hc : (builtCondition c).map Cond.toVal = m.map (·.v))
    (hm : ∀ x, m = some x → Good' u I tight x.v x.d x.σ) :
    Good' u I tight (existentialSubquery k (matchCreate km kw false ws c).val) (I.existsMatch ps (m.map (·.d))) .atom := by
  have hb := built_cases hc
  generalize hv : existentialSubquery k (matchCreate km kw false ws c).val = v
  have hw : visitIfNotNull ((m.map (·.v)).map (whereCreate kw)) = Tm.treesL (whereTms kw (m.map (·.v.visit))) := by
    cases hmm : m with
    | none => rfl
    | some x => simp [visitIfNotNull, whereCreate, (hm x hmm).err, Tm.treesL, Tm.trees, whereTms]
  have he : v = .mk' k [nd k c!"EXISTS {" c!"}" false [nd km c!"MATCH " c!" " false (nd 0 [] [] true (visitsOf ws) ::
      visitIfNotNull ((m.map (·.v)).map (whereCreate kw)))]] true := by
    rw [← hv]
    rcases hb with ⟨h1, h2⟩ | ⟨c'', x, h1, h2, h3⟩
    · simp [matchCreate, h1, h2, existentialSubquery, errOf]
    · simp [matchCreate, h1, h2, h3, existentialSubquery, errOf, whereCreate, (hm x h2).err]
  obtain ⟨hdw, hone⟩ := elements_dkeys h
  have hdk : dkeysL v.visit = [] := by
    rw [he]
    have h1 : dkeysL (visitIfNotNull ((m.map (·.v)).map (whereCreate kw))) = [] := by
      cases hmm : m with
      | none => rfl
      | some x => simp [visitIfNotNull, whereCreate, (hm x hmm).err, dkeysL, dkeys_nd, (hm x hmm).dk]
    simp [-Option.map_map, Val.mk', dkeysL_nd, dkeysL, dkeys_nd, h1, hdw]
  have hT : ∀ e, NoAlias e [k, km, kw, 0] v.visit → shownAs e v.visit =
      layout e ([.lit c!"EXISTS {MATCH "] ++ commas (ws.map (·.visit)) ++ whereOf m ++ [.lit c!" }"]) := by
    intro e ha
    refine shown_self (.node k c!"EXISTS {" c!"}" false [.node km c!"MATCH " c!" " false
      (.node 0 [] [] true (listTm (ws.map (·.visit))) :: whereTms kw (m.map (·.v.visit)))]) ?_ ?_ ?_ ?_
    · have hpt : Tm.treesL (listTm (ws.map (·.visit))) = visitsOf ws := by rw [listTm_trees, visitsOf, List.flatMap]
      simp [-Option.map_map, he, Val.mk', hw, Tm.trees, Tm.treesL, hpt]
    · have hpo : Tm.OkL true (listTm (ws.map (·.visit))) := by
        apply listTm_ok
        simp only [List.mem_map, forall_exists_index, and_imp]
        rintro _ x hx rfl
        exact hone x hx
      cases m <;> simpa [Tm.Ok, Tm.OkL, whereTms] using hpo
    · intro k' hk'
      apply ha
      cases m <;> simp [Tm.keys, Tm.keysL, listTm_keys, whereTms] at hk' ⊢ <;> tauto
    · cases m <;> simp [Tm.parts, Tm.partsL, layout, layout_append, sepText, partsL_commas, whereTms, whereOf]
  obtain ⟨s, ts, h1, h2, h3⟩ := elements_reads hR h hne
  obtain ⟨sw, tw, w1, w2, w3, w4, w5⟩ := whereOf_reads hm
  refine ⟨by rw [he]; rfl, by rw [he]; rfl, by rw [he]; exact ⟨_, _, rfl⟩, hdk, by simp [CallKind.isCondition],
    c!"EXISTS {MATCH " ++ (s ++ (sw ++ (c!" }" ++ []))), .word c!"EXISTS" :: .sym '{' :: .word c!"MATCH" :: (ts ++ (tw ++ [.sym '}'])),
    Text.of hdk hT ?_, ?_, ?_, Head.word (by decide) _ _, ?_⟩
  · have := Shows.lit c!"EXISTS {MATCH " (h1.append (w1.append (Shows.lit c!" }" Shows.nil)))
    simpa using this
  · intro r rs _ hr
    have e1 : c!"EXISTS {MATCH " = c!"EXISTS" ++ (' ' :: '{' :: (c!"MATCH" ++ [' '])) := rfl
    rw [e1]
    have h5 := Rd.kw c!"MATCH" (by decide) (h2 _ _ (w2 _ _ (Follow.mark (c := ' ') (by decide) (c!"}" ++ r)) (Tokens.sp (Tokens.sym (c := '}') (by simp [symbols]) (by simp) hr))))
    have h6 := Rd.kw c!"EXISTS" (by decide) (Tokens.sym (c := '{') (by simp [symbols]) (by simp) h5)
    simpa using h6
  · refine Prefix.atom fun r _ _ => ?_
    simp only [List.append_assoc, List.cons_append, List.nil_append]
    refine RA.exists (w := c!"EXISTS") (w' := c!"MATCH") (r := tw ++ .sym '}' :: r) (by decide) (by decide) (h3 _ ?_ ?_) (w4 _ (Stops.close (by simp) 0 _) (by simp [Spec.after, Token.is]))
    · rcases w5 with ⟨rfl, _⟩ | ⟨tw', rfl⟩ <;> simp [NoArrow]
    · rcases w5 with ⟨rfl, _⟩ | ⟨tw', rfl⟩ <;> simp
  · exact .word (.inr (by decide)) (NoIn.sym _ _ _)

end Verif.Rd
