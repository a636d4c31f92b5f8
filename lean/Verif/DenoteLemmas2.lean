import Verif.DenoteLemmas

/-
Expressions built with the DSL are read back as what they mean: functions, lists, maps, CASE.
-/

namespace Verif.Rd
open Spec

variable {u : Unicode} {I : Meaning} {tight : Bool}

/-! ### Lists of arguments -/

theorem Good'.below {v : Val} {d : I.D} {σ : CallKind} (hv : Good' u I tight v d σ) :
    ∃ s ts, Text v s ∧ Lexes u s ts ∧ Prefix I tight 0 ts d ∧ Head 0 ts ∧ Extra I tight v.isCond σ ts := by
  obtain ⟨s, ts, h1, h2, h3, h4, h5⟩ := hv.reads
  exact ⟨s, ts, h1, h2, h3.below (level_le σ) (Nat.zero_le _) h4, h4.mono (Nat.zero_le _), h5⟩

theorem Head.sym_ne {j : Nat} {ts : List Token} (h : Head j ts) {c : Char} (hc : c ∉ ['(', '[', '{', '-']) (r : List Token) :
    (ts ++ r).head? ≠ some (.sym c) := by
  obtain ⟨t, r', rfl, _, _, _, h2⟩ := h
  simp only [List.cons_append, List.head?_cons, ne_eq, Option.some.injEq]
  rintro rfl
  exact hc (h2 c rfl)

theorem binder_none {ts : List Token} (h : NoIn ts) : binder ts = none := by
  unfold binder
  split
  · rename_i x t r
    rw [if_neg]
    rw [h _ _ _ rfl (by simp)]
    simp
  · rename_i x t r
    rw [if_neg]
    rw [h _ _ _ rfl (by simp)]
    simp
  · rfl

theorem NoPath.notPattern {ts : List Token} (h : NoPath I tight ts) : NotPattern I tight ts := by
  cases ts with
  | nil => exact .head (by simp)
  | cons t ts =>
    by_cases ht : t = .sym '('
    · subst ht
      have := h ts rfl []
      rw [List.append_nil] at this
      exact this.pattern
    · exact .head (by simp [ht])

theorem closing {c : Char} (hc : c ∈ [')', ']']) : (c = ')' ∨ c = ']' ∨ c = '}' ∨ c = ',' ∨ c = '|') ∧ c ≠ ',' ∧ c ∉ ['(', '[', '{', '-'] ∧ mark c = true ∧ c ∈ symbols ∧ c ≠ '/' := by
  simp only [List.mem_cons, List.not_mem_nil, or_false] at hc
  rcases hc with rfl | rfl <;> decide

theorem args_reads (x : Meant I) (xs : List (Meant I)) (hx : ∀ y ∈ x :: xs, Good' u I tight y.v y.d y.σ) :
    ∃ s ts, Shows (commas ((x :: xs).map (·.v.visit))) s ∧
      (∀ c ∈ [')', ']'], ∀ r rs, Tokens u r rs → Tokens u (s ++ c :: r) (ts ++ .sym c :: rs)) ∧
      (∀ c ∈ [')', ']'], ∀ r, RArgs1 I tight c (ts ++ .sym c :: r) ((x :: xs).map (·.d)) r) ∧
      Head 0 ts ∧ (x.σ.first = true → ∀ c ∈ [')', ']'], ∀ r, NoIn (ts ++ .sym c :: r) ∧ NoPath I tight (ts ++ .sym c :: r)) := by
  induction xs generalizing x with
  | nil =>
    obtain ⟨s, ts, h1, h2, h3, h4, h5⟩ := (hx x (by simp)).below
    refine ⟨s ++ [], ts, Shows.hole h1 Shows.nil, fun c hc r rs ht => ?_, fun c hc r => ?_, h4, fun hm c hc r => ?_⟩
    · rw [List.append_nil]
      exact h2 _ _ (Follow.mark (closing hc).2.2.2.1 _) (Tokens.sym (closing hc).2.2.2.2.1 (fun h => absurd h (closing hc).2.2.2.2.2) ht)
    · exact RArgs1.last (h3.reads (by omega) (Stops.close (closing hc).1 _ _))
    · exact ⟨(h5.noIn hm).append h4.ne (by intro t r h; cases h; rfl), (h5.noPath hm).append h4.ne⟩
  | cons y ys ih =>
    obtain ⟨s, ts, h1, h2, h3, h4, h5⟩ := (hx x (by simp)).below
    obtain ⟨s', ts', g1, g2, g3, g4, _⟩ := ih y (fun z hz => hx z (List.mem_cons_of_mem _ hz))
    refine ⟨s ++ (c!", " ++ s'), ts ++ .sym ',' :: ts', ?_, fun c hc r rs ht => ?_, fun c hc r => ?_, h4.append _, fun hm c hc r => ?_⟩
    · exact Shows.hole h1 (Shows.lit _ g1)
    · simp only [List.append_assoc, List.cons_append, List.nil_append]
      exact h2 _ _ (Follow.mark (by decide) _) (Tokens.sym (by simp [symbols]) (by simp) (Tokens.sp (g2 c hc r rs ht)))
    · simp only [List.append_assoc, List.cons_append]
      exact RArgs1.more (closing hc).2.1 (h3.reads (by omega) (Stops.close (by simp) _ _)) (g3 c hc r)
    · simp only [List.append_assoc, List.cons_append]
      exact ⟨(h5.noIn hm).append h4.ne (by intro t r h; cases h; rfl), (h5.noPath hm).append h4.ne⟩

theorem visitsOf_dkeys {vs : List (Meant I)} (h : ∀ y ∈ vs, Good' u I tight y.v y.d y.σ) : dkeysL (visitsOf (vs.map (·.v))) = [] := by
  induction vs with
  | nil => rfl
  | cons v vs ih =>
    have h1 := ih fun y hy => h y (List.mem_cons_of_mem _ hy)
    simp only [visitsOf] at h1
    simp [visitsOf, dkeysL_append, (h v (by simp)).dk, h1]

theorem errs_none {xs : List (Meant I)} (hx : ∀ y ∈ xs, Good' u I tight y.v y.d y.σ) : ∀ v ∈ xs.map (·.v), v.err = none := by
  intro v hv
  obtain ⟨m, hm, rfl⟩ := List.mem_map.mp hv
  exact (hx m hm).err

theorem ones {xs : List (Meant I)} (hx : ∀ y ∈ xs, Good' u I tight y.v y.d y.σ) : ∀ v ∈ xs.map (·.v), Spec.One v.visit := by
  intro v hv
  obtain ⟨m, hm, rfl⟩ := List.mem_map.mp hv
  exact (hx m hm).one

/-- Names of functions. -/
def FnName (w : Str) : Prop := (w != [] && w.all fun c => c.toNat < 128 && c.isAlpha) = true ∧ lower w ∉ reserved ∧ lower w ∉ quantifiers

theorem FnName.head {w : Str} (h : FnName w) (j : Nat) (r : List Token) : Head j (.word w :: r) := Head.reserved h.2.1 _ _

theorem invoke_reads (k ka : Key) {name : Str} (hn : FnName name) {xs : List (Meant I)} (h0 : xs ≠ []) (hx : ∀ y ∈ xs, Good' u I tight y.v y.d y.σ) :
    dkeysL (invocation k ka name (visitsOf (xs.map (·.v)))).visit = [] ∧
    ∃ s ts, Text (invocation k ka name (visitsOf (xs.map (·.v)))) s ∧ Lexes u s ts ∧ Prefix I tight 11 ts (I.call name false (xs.map (·.d))) ∧ Head 11 ts ∧
      ∀ b, Extra I tight b .atom ts := by
  cases xs with
  | nil => exact absurd rfl h0
  | cons x xs =>
  obtain ⟨s, ts, h1, h2, h3, h4, _⟩ := args_reads x xs hx
  have hone : ∀ y ∈ ((x :: xs).map (·.v)).map (·.visit), Spec.One y := by
    intro y hy
    simp only [List.map_map, List.mem_map, Function.comp] at hy
    obtain ⟨m, hm, rfl⟩ := hy
    exact (hx m hm).one
  have hdk : dkeysL (invocation k ka name (visitsOf ((x :: xs).map (·.v)))).visit = [] := by
    simp only [invocation, Val.mk', dkeysL_nd]
    exact visitsOf_dkeys hx
  refine ⟨hdk, name ++ (c!"(" ++ (s ++ (c!")" ++ []))), .word name :: .sym '(' :: (ts ++ [.sym ')']), ?_, ?_, ?_, hn.head _ _, fun _ => Extra.call (by simp) _⟩
  · refine Text.of (ks := [k, ka]) (ps := callParts name false (((x :: xs).map (·.v)).map (·.visit))) hdk (fun e he => ?_) ?_
    · rw [visitsOf_flatten] at he ⊢
      exact call_layout hone he
    · simp only [callParts, Bool.false_eq_true, if_false, List.append_nil, List.map_map]
      exact Shows.lit _ (Shows.lit _ (Shows.append h1 (Shows.lit _ Shows.nil)))
  · intro r rs hf ht
    simp only [List.append_assoc, List.cons_append, List.nil_append]
    exact Tokens.word (ascii_word hn.1) (Follow.mark (by decide) _).part (Tokens.sym (by simp [symbols]) (by simp) (h2 ')' (by simp) _ _ ht))
  · refine Prefix.atom fun r _ _ => ?_
    obtain ⟨t, ts', rfl, _, _, hw, hs⟩ := h4
    simp only [List.append_assoc, List.cons_append, List.nil_append]
    refine RA.call hn.2.1 hn.2.2 ?_ ?_ (RArgs.some ?_ (h3 ')' (by simp) r))
    · cases t with
      | word w => simpa [Token.is] using fun h => hw w rfl (by simp [h])
      | _ => rfl
    · rintro rfl
      have := hs _ rfl
      simp at this
    · simp only [List.cons_append, List.head?_cons, ne_eq, Option.some.injEq]
      rintro rfl
      have := hs _ rfl
      simp at this

theorem invoke_good (k ka : Key) {name : Str} (hn : FnName name) {xs : List (Meant I)} (h0 : xs ≠ []) (hx : ∀ y ∈ xs, Good' u I tight y.v y.d y.σ) :
    Good' u I tight (invocation k ka name (visitsOf (xs.map (·.v)))) (I.call name false (xs.map (·.d))) .atom := by
  obtain ⟨hdk, s, ts, h1, h2, h3, h4, h5⟩ := invoke_reads k ka hn h0 hx
  exact ⟨rfl, rfl, ⟨_, _, rfl⟩, hdk, by simp [CallKind.isCondition], s, ts, h1, h2, h3, h4, h5 _⟩

theorem invoke_distinct_all (k ka : Key) {name : Str} (hn : FnName name) (x : Meant I) {xs : List (Meant I)} (hx : ∀ y ∈ x :: xs, Good' u I tight y.v y.d y.σ) :
    Good' u I tight (invocation k ka name (nd 0 [] [] false (leaf 0 c!"DISTINCT " :: x.v.visit) :: visitsOf (xs.map (·.v)))) (I.call name true ((x :: xs).map (·.d))) .atom := by
  obtain ⟨s, ts, h1, h2, h3, h4, _⟩ := args_reads x xs hx
  have hdk : dkeysL (invocation k ka name (nd 0 [] [] false (leaf 0 c!"DISTINCT " :: x.v.visit) :: visitsOf (xs.map (·.v)))).visit = [] := by
    have := visitsOf_dkeys (vs := xs) fun y hy => hx y (List.mem_cons_of_mem _ hy)
    simp only [invocation, Val.mk', dkeysL_nd]
    simp [dkeysL, dkeys_nd, dkeys_leaf, (hx x (by simp)).dk, this]
  have hone : ∀ y ∈ (xs.map (·.v)).map (·.visit), Spec.One y := by
    intro y hy
    simp only [List.map_map, List.mem_map, Function.comp] at hy
    obtain ⟨m, hm, rfl⟩ := hy
    exact (hx m (List.mem_cons_of_mem _ hm)).one
  refine ⟨rfl, rfl, ⟨_, _, rfl⟩, hdk, by simp [CallKind.isCondition], name ++ (c!"(" ++ (c!"DISTINCT " ++ (s ++ (c!")" ++ [])))),
    .word name :: .sym '(' :: .word c!"DISTINCT" :: (ts ++ [.sym ')']), ?_, ?_, ?_, hn.head _ _, Extra.call (by simp) _⟩
  · refine Text.of (ks := [k, ka, 0]) (ps := callParts name true (x.v.visit :: (xs.map (·.v)).map (·.visit))) hdk (fun e he => ?_) ?_
    · rw [visitsOf_flatten] at he ⊢
      exact call_layout_distinct hone he
    · simp only [callParts, if_true, List.map_map]
      exact Shows.lit _ (Shows.lit _ (Shows.lit _ (Shows.append h1 (Shows.lit _ Shows.nil))))
  · intro r rs hf ht
    simp only [List.append_assoc, List.cons_append, List.nil_append]
    exact Tokens.word (ascii_word hn.1) (Follow.mark (by decide) _).part (Tokens.sym (by simp [symbols]) (by simp)
      (Tokens.word (w := c!"DISTINCT") (ascii_word (by decide)) (Follow.mark (c := ' ') (by decide) _).part (Tokens.sp (h2 ')' (by simp) _ _ ht))))
  · refine Prefix.atom fun r _ _ => ?_
    simp only [List.append_assoc, List.cons_append, List.nil_append]
    exact RA.callDistinct hn.2.1 (by decide) (RArgs.some (h4.sym_ne (by simp) _) (h3 ')' (by simp) r))

theorem invoke_distinct_good (k ka : Key) {name : Str} (hn : FnName name) {v : Val} {d : I.D} {σ : CallKind} (hv : Good' u I tight v d σ) :
    Good' u I tight (invocation k ka name [nd 0 [] [] false (leaf 0 c!"DISTINCT " :: v.visit)]) (I.call name true [d]) .atom :=
  invoke_distinct_all k ka hn ⟨v, d, σ⟩ (xs := []) (by simpa using hv)

/-! ### Functions -/

instance (w : Str) : Decidable (FnName w) := by unfold FnName; infer_instance

theorem fn1_name {f : Fn1} (hf : f ≠ .collectDistinct) : FnName (fn1Name f).1 ∧ f.def'.1.name = (fn1Name f).1 ∧ f.def'.2 = (fn1Name f).2 ∧
    (f.def'.2 = true → f.def'.1.aggregate = true) := by
  cases f <;> first | exact absurd rfl hf | (refine ⟨?_, ?_, ?_, ?_⟩ <;> decide)

theorem call_good {f : Fn1} {k ka : Key} {x v : Val} {d : I.D} {σ : CallKind} (hx : Good' u I tight x d σ) (hf : f ≠ .collectDistinct)
    (hv : fn1 f k ka (some x) = .ok v) : Good' u I tight v (I.call (fn1Name f).1 (fn1Name f).2 [d]) .atom := by
  obtain ⟨h1, h2, h3, h4⟩ := fn1_name hf
  unfold fn1 at hv
  cases hd : f.def'.2 with
  | true =>
    rw [hd] at hv h3 h4
    rw [if_pos rfl] at hv
    simp [functionInvocationDistinct, scanArgs, hx.err, Outcome.map, Except.map, h4 rfl, hx.nn, visitsOf] at hv
    subst hv
    rw [← h3, h2]
    exact invoke_distinct_good k ka h1 hx
  | false =>
    rw [hd] at hv h3 h4
    rw [if_neg (by simp)] at hv
    simp [functionInvocation, scanArgs, hx.err, Outcome.map, Except.map, hx.nn] at hv
    subst hv
    rw [← h3, h2]
    exact invoke_good k ka h1 (xs := [⟨x, d, σ⟩]) (by simp) (by simpa using hx)

theorem countAll_good {k ka : Key} {v : Val} (hv : fn1 .countByExpression k ka (some asterisk) = .ok v) :
    Good' u I tight v (I.call c!"count" false [I.star]) .atom := by
  have hv' : v = invocation k ka c!"count" (visitsOf [asterisk]) := by
    simp [fn1, functionInvocation, scanArgs, asterisk, Val.mk', Outcome.map, Except.map, Fn1.def', visitsOf] at hv ⊢
    exact hv.symm
  have hdk : dkeysL v.visit = [] := by simp [hv', invocation, Val.mk', dkeysL_nd, visitsOf, asterisk, dkeysL, dkeys_nd, dkeys_leaf]
  subst hv'
  refine ⟨rfl, rfl, ⟨_, _, rfl⟩, hdk, by simp [CallKind.isCondition], c!"count(*)", [.word c!"count", .sym '(', .sym '*', .sym ')'], ?_, ?_, ?_,
    FnName.head (by decide) _ _, Extra.call (by simp) _⟩
  · intro e he
    simp [shownAs, invocation, visitsOf, asterisk, Val.mk', leaf, nd, denL, den, shown, he _, sepText, described, defined, Vis.asAlias]
  · intro r rs hf ht
    exact Tokens.word (w := c!"count") (ascii_word (by decide)) (Follow.mark (c := '(') (by decide) _).part (Tokens.sym (by simp [symbols]) (by simp)
      (Tokens.sym (by simp [symbols]) (by simp) (Tokens.sym (by simp [symbols]) (by simp) ht)))
  · exact Prefix.atom fun r _ _ => RA.callStar (by decide)

theorem several_good {k ka : Key} {f : FnDef} {xs : List (Meant I)} {v : Val} (hn : FnName f.name) (hx : ∀ x ∈ xs, Good' u I tight x.v x.d x.σ) (h0 : xs ≠ [])
    (hv : functionInvocation k ka f (xs.map fun x => some x.v) = .ok v) : Good' u I tight v (I.call f.name false (xs.map (·.d))) .atom := by
  have hs : (xs.map fun x => some x.v) = (xs.map (·.v)).map some := by simp
  rw [functionInvocation, hs, scanArgs_ok] at hv
  · cases xs with
    | nil => exact absurd rfl h0
    | cons x xs =>
      simp [Outcome.map, (hx x (by simp)).nn] at hv
      subst hv
      exact invoke_good k ka hn (xs := x :: xs) (by simp) hx
  · intro y hy
    simp only [List.mem_map] at hy
    obtain ⟨m, hm, rfl⟩ := hy
    exact (hx m hm).err

theorem percentile_good {disc distinct : Bool} {k ka kl : Key} {x : Val} {neg : Bool} {m : Nat} {e : Int} {d : I.D} {σ : CallKind} {v : Val} (hx : Good' u I tight x d σ)
    (ht : TenDigits (floatValue neg m e)) (hv : percentile disc distinct k ka kl (some x) (.fin neg m e) = .ok v) (herr : v.err = none) :
    Good' u I tight v (I.call (if disc then c!"percentileDisc" else c!"percentileCont") distinct [d, I.num (floatValue neg m e)]) .atom := by
  have hn : (if disc then fnPercentileDisc else fnPercentileCont).name = (if disc then c!"percentileDisc" else c!"percentileCont") := by cases disc <;> rfl
  have hf : FnName (if disc then fnPercentileDisc else fnPercentileCont).name := by cases disc <;> decide
  have ha : (if disc then fnPercentileDisc else fnPercentileCont).aggregate = true := by cases disc <;> rfl
  rw [← hn]
  simp only [percentile] at hv
  generalize (if disc then fnPercentileDisc else fnPercentileCont) = f at *
  split at hv
  · cases hv
    exact absurd herr (by simp [Val.bad])
  · cases hp : floatLiteral kl (.fin neg m e) with
    | panic => rw [hp] at hv; cases hv
    | ok p =>
      have hg := float_good (u := u) (I := I) (tight := tight) hp ht
      have hall : ∀ y ∈ [(⟨x, d, σ⟩ : Meant I), ⟨p, I.num (floatValue neg m e), if neg then .negative else .atom⟩], Good' u I tight y.v y.d y.σ := by
        simpa using ⟨hx, hg⟩
      rw [hp] at hv
      simp only [Outcome.bind] at hv
      cases distinct with
      | true =>
        simp [functionInvocationDistinct, scanArgs, hx.err, hg.err, Outcome.map, Except.map, ha, hx.nn] at hv
        subst hv
        exact invoke_distinct_all k ka hf ⟨x, d, σ⟩ hall
      | false => exact several_good (f := f) hf hall (by simp) hv

theorem coalesce_good {k ka : Key} {xs : List (Meant I)} {v : Val} (hx : ∀ x ∈ xs, Good' u I tight x.v x.d x.σ) (h0 : xs ≠ [])
    (hv : coalesce k ka (xs.map fun x => some x.v) = .ok v) : Good' u I tight v (I.call c!"coalesce" false (xs.map (·.d))) .atom :=
  several_good (f := fnCoalesce) (by decide) hx h0 hv

theorem distance_good {k ka : Key} {x y v : Val} {a b : I.D} {σ τ : CallKind} (hx : Good' u I tight x a σ) (hy : Good' u I tight y b τ)
    (hv : distance k ka (some x) (some y) = .ok v) : Good' u I tight v (I.call c!"distance" false [a, b]) .atom := by
  simp only [distance, firstErr, errOf, nilErr, missing, hx.err, hy.err, hx.nn, hy.nn] at hv
  exact several_good (f := fnDistance) (xs := [⟨x, a, σ⟩, ⟨y, b, τ⟩]) (by decide) (by simp [hx, hy]) (by simp) hv

theorem range_good {k ka : Key} {x y v : Val} {a b : I.D} {σ τ : CallKind} (hx : Good' u I tight x a σ) (hy : Good' u I tight y b τ)
    (hv : rangeWithStep k ka (some x) (some y) none = .ok v) : Good' u I tight v (I.call c!"range" false [a, b]) .atom := by
  simp only [rangeWithStep, firstErr, errOf, nilErr, missing, hx.err, hy.err, hx.nn, hy.nn] at hv
  exact several_good (f := fnRange) (xs := [⟨x, a, σ⟩, ⟨y, b, τ⟩]) (by decide) (by simp [hx, hy]) (by simp) hv

theorem rangeWithStep_good {k ka : Key} {x y z v : Val} {a b c : I.D} {σ τ υ : CallKind} (hx : Good' u I tight x a σ) (hy : Good' u I tight y b τ)
    (hz : Good' u I tight z c υ) (hv : rangeWithStep k ka (some x) (some y) (some z) = .ok v) :
    Good' u I tight v (I.call c!"range" false [a, b, c]) .atom := by
  simp only [rangeWithStep, firstErr, errOf, nilErr, missing, hx.err, hy.err, hz.err, hx.nn, hy.nn, hz.nn] at hv
  exact several_good (f := fnRange) (xs := [⟨x, a, σ⟩, ⟨y, b, τ⟩, ⟨z, c, υ⟩]) (by decide) (by simp [hx, hy, hz]) (by simp) hv

theorem predicateExists_good {k kf ka : Key} {x v : Val} {d : I.D} {σ : CallKind} (hx : Good' u I tight x d σ)
    (hv : predicateExists k kf ka x = .ok v) : Good' u I tight v (I.call c!"exists" false [d]) .atom := by
  unfold predicateExists at hv
  cases hw : functionInvocation kf ka fnExists [some x] with
  | ok w =>
    rw [hw] at hv
    obtain ⟨hdk, s, ts, h1, h2, h3, h4, h5⟩ := invoke_reads (u := u) (tight := tight) kf ka (name := c!"exists") (xs := [⟨x, d, σ⟩]) (by decide) (by simp) (by simp [hx])
    simp [functionInvocation, scanArgs, hx.err, Outcome.map, Except.map, hx.nn] at hw
    subst hw
    simp [Outcome.map, booleanFunction, invocation, Val.mk'] at hv
    subst hv
    exact ⟨rfl, rfl, ⟨_, _, rfl⟩, hdk, fun _ => rfl, s, ts, h1, h2, h3, h4, h5 _⟩
  | panic => rw [hw] at hv; cases hv

/-! ### Lists -/

theorem list_reads {xs : List (Meant I)} (hx : ∀ y ∈ xs, Good' u I tight y.v y.d y.σ) (hm : ∀ x, xs.head? = some x → x.σ.first = true) :
    ∃ s ts, Shows ([.lit c!"["] ++ commas ((xs.map (·.v)).map (·.visit)) ++ [.lit c!"]"]) s ∧ Lexes u s ts ∧
      Prefix I tight 11 ts (I.list (xs.map (·.d))) ∧ Head 11 ts ∧ Extra I tight false .atom ts := by
  cases xs with
  | nil =>
    refine ⟨c!"[" ++ (c!"]" ++ []), [.sym '[', .sym ']'], Shows.lit _ (Shows.lit _ Shows.nil), ?_, ?_, Head.sym (by simp) _ _, Extra.sym (by simp) _⟩
    · intro r rs hf ht
      exact Tokens.sym (by simp [symbols]) (by simp) (Tokens.sym (by simp [symbols]) (by simp) ht)
    · exact Prefix.atom fun r _ _ => RA.list rfl (.head (by simp)) (RArgs.nil _ _)
  | cons x xs =>
    obtain ⟨s, ts, h1, h2, h3, h4, h5⟩ := args_reads x xs hx
    refine ⟨c!"[" ++ (s ++ (c!"]" ++ [])), .sym '[' :: (ts ++ [.sym ']']), ?_, ?_, ?_, Head.sym (by simp) _ _, Extra.sym (by simp) _⟩
    · rw [List.map_map]
      exact Shows.lit _ (Shows.append h1 (Shows.lit _ Shows.nil))
    · intro r rs hf ht
      simp only [List.append_assoc, List.cons_append, List.nil_append]
      exact Tokens.sym (by simp [symbols]) (by simp) (h2 ']' (by simp) _ _ ht)
    · refine Prefix.atom fun r _ _ => ?_
      simp only [List.append_assoc, List.cons_append, List.nil_append]
      have h6 := h5 (hm x rfl) ']' (by simp) r
      exact RA.list (binder_none h6.1) h6.2.notPattern (RArgs.some (h4.sym_ne (by simp) _) (h3 ']' (by simp) r))

theorem list_good (k kl : Key) {xs : List (Meant I)} (hx : ∀ y ∈ xs, Good' u I tight y.v y.d y.σ) (hm : ∀ x, xs.head? = some x → x.σ.first = true) :
    Good' u I tight (listExpression k kl (xs.map (·.v))) (I.list (xs.map (·.d))) .atom := by
  obtain ⟨s, ts, h1, h2, h3, h4, h5⟩ := list_reads hx hm
  have he : errsOf (xs.map (·.v)) = none := (errsOf_none_iff _).mpr (errs_none hx)
  have hv : listExpression k kl (xs.map (·.v)) = .mk' k [nd k c!"[" c!"]" false [nd kl [] [] true (visitsOf (xs.map (·.v)))]] := by
    simp [listExpression, expressionList, he, Val.mk']
  have hdk : dkeysL (listExpression k kl (xs.map (·.v))).visit = [] := by
    rw [hv]
    simp only [Val.mk', dkeysL_nd]
    exact visitsOf_dkeys hx
  refine ⟨by rw [hv]; rfl, by rw [hv]; rfl, by rw [hv]; exact ⟨_, _, rfl⟩, hdk, by simp [CallKind.isCondition], s, ts, ?_, h2, h3, h4, by rw [hv]; exact h5⟩
  exact Text.of hdk (fun e ha => (C45_lists k kl (xs.map (·.v)) (errs_none hx)).1.2 (ones hx) ha) h1

theorem listLiteralKids_dkeys : ∀ {vs : List (Meant I)}, (∀ y ∈ vs, Good' u I tight y.v y.d y.σ) → dkeysL (listLiteralKids (vs.map (·.v))) = []
  | [], _ => rfl
  | [v], h => by simp [listLiteralKids, (h v (by simp)).dk]
  | v :: w :: vs, h => by
    have := listLiteralKids_dkeys (vs := w :: vs) fun y hy => h y (List.mem_cons_of_mem _ hy)
    simp only [List.map_cons] at this
    simp [listLiteralKids, dkeysL_append, (h v (by simp)).dk, dkeysL, dkeys, this]

theorem listLiteral_good (k : Key) {xs : List (Meant I)} (hx : ∀ y ∈ xs, Good' u I tight y.v y.d y.σ) (hm : ∀ x, xs.head? = some x → x.σ.first = true) :
    Good' u I tight (listLiteral k (xs.map (·.v))) (I.list (xs.map (·.d))) .atom := by
  obtain ⟨s, ts, h1, h2, h3, h4, h5⟩ := list_reads hx hm
  have he : errsOf (xs.map (·.v)) = none := (errsOf_none_iff _).mpr (errs_none hx)
  have hdk : dkeysL (listLiteral k (xs.map (·.v))).visit = [] := by
    simp only [listLiteral, he, dkeysL_nd]
    exact listLiteralKids_dkeys hx
  refine ⟨by simp [listLiteral, he], by simp [listLiteral, he], by simp only [listLiteral, he]; exact ⟨_, _, rfl⟩, hdk, by simp [CallKind.isCondition], s, ts, ?_, h2, h3, h4, by simp only [listLiteral, he]; exact h5⟩
  exact Text.of hdk (fun e ha => (C45_lists k 0 (xs.map (·.v)) (errs_none hx)).2.2 ha) h1

/-! ### Elements of lists -/

theorem access_base {k kd : Key} {t : Val} {a b : Option Val} {w : Bool} (ht : dkeysL t.visit = []) (ha : ∀ x, a = some x → dkeysL x.visit = [])
    (hb : ∀ x, b = some x → dkeysL x.visit = []) : dkeysL (listOperatorCreate k kd t a w b).visit = [] := by
  have h : ∀ a : Option Val, (∀ x, a = some x → dkeysL x.visit = []) → dkeysL (visitIfNotNull a) = [] := by
    intro a ha
    unfold visitIfNotNull
    split
    · split
      · exact ha _ rfl
      · rfl
    · rfl
  cases w <;> simp [listOperatorCreate, Val.mk', dkeysL_nd, dkeysL_append, ht, dkeysL, dkeys_nd, h a ha, h b hb, dots, dkeys_leaf]

theorem valueAt_good (k kd : Key) {x y : Val} {a b : I.D} {τ : CallKind} (hx : Good' u I tight x a .atom) (hy : Good' u I tight y b τ) :
    Good' u I tight (valueAt k kd (some x) (some y)) (I.index a b) .atom := by
  obtain ⟨s, ts, h1, h2, h3, h4, h5⟩ := hx.reads
  obtain ⟨s', ts', g1, g2, g3, g4, _⟩ := hy.below
  have hv : valueAt k kd (some x) (some y) = listOperatorCreate k kd x (some y) false none := by
    simp [valueAt, firstErr, errOf, nilErr, missing, hx.err, hx.nn, hy.err, hy.nn]
  have hdk : dkeysL (valueAt k kd (some x) (some y)).visit = [] := by
    rw [hv]; exact access_base hx.dk (by simp [hy.dk]) (by simp)
  refine ⟨by rw [hv]; rfl, by rw [hv]; rfl, by rw [hv]; exact ⟨_, _, rfl⟩, hdk, by simp [CallKind.isCondition],
    s ++ (c!"[" ++ (s' ++ (c!"]" ++ []))), ts ++ .sym '[' :: (ts' ++ [.sym ']']), ?_, ?_, ?_, h4.append _, ?_⟩
  · exact Text.of hdk (fun e ha => ((C22_access hx.good hy.good hy.good).1 ha).2) (Shows.hole h1 (Shows.lit _ (Shows.hole g1 (Shows.lit _ Shows.nil))))
  · intro r rs hf ht
    simp only [List.append_assoc, List.cons_append, List.nil_append]
    exact h2 _ _ (Follow.mark (by decide) _) (Tokens.sym (by simp [symbols]) (by simp) (g2 _ _ (Follow.mark (by decide) _)
      (Tokens.sym (by simp [symbols]) (by simp) ht)))
  · refine Prefix.post h3 (fun r => Stops.post (by simp) (by simp) _) fun r d' r' h => ?_
    simp only [List.append_assoc, List.cons_append, List.nil_append]
    exact RP.index (g4.sym_ne (by simp) _) (g3.reads (by omega) (Stops.close (by simp) _ _)) h
  · exact (h5.soft rfl).extra_append h4.ne (fun _ => rfl) (by simp) (by simp) (by simp) (by simp)

theorem subList_good (k kd : Key) {x y z : Val} {a b c : I.D} {τ υ : CallKind} (hx : Good' u I tight x a .atom) (hy : Good' u I tight y b τ)
    (hz : Good' u I tight z c υ) : Good' u I tight (subList k kd (some x) (some y) (some z)) (I.slice a (some b) (some c)) .atom := by
  obtain ⟨s, ts, h1, h2, h3, h4, h5⟩ := hx.reads
  obtain ⟨s', ts', g1, g2, g3, g4, _⟩ := hy.below
  obtain ⟨s₂, ts₂, i1, i2, i3, i4, _⟩ := hz.below
  have hv : subList k kd (some x) (some y) (some z) = listOperatorCreate k kd x (some y) true (some z) := by
    simp [subList, firstErr, errOf, nilErr, missing, hx.err, hx.nn, hy.err, hy.nn, hz.err, hz.nn]
  have hdk : dkeysL (subList k kd (some x) (some y) (some z)).visit = [] := by
    rw [hv]; exact access_base hx.dk (by simp [hy.dk]) (by simp [hz.dk])
  refine ⟨by rw [hv]; rfl, by rw [hv]; rfl, by rw [hv]; exact ⟨_, _, rfl⟩, hdk, by simp [CallKind.isCondition],
    s ++ (c!"[" ++ (s' ++ (c!".." ++ (s₂ ++ (c!"]" ++ []))))), ts ++ .sym '[' :: (ts' ++ .sym '.' :: .sym '.' :: (ts₂ ++ [.sym ']'])), ?_, ?_, ?_, h4.append _, ?_⟩
  · exact Text.of hdk (fun e ha => ((C22_access hx.good hy.good hz.good).2.1 ha).2)
      (Shows.hole h1 (Shows.lit _ (Shows.hole g1 (Shows.lit _ (Shows.hole i1 (Shows.lit _ Shows.nil))))))
  · intro r rs hf ht
    simp only [List.append_assoc, List.cons_append, List.nil_append]
    exact h2 _ _ (Follow.mark (by decide) _) (Tokens.sym (by simp [symbols]) (by simp) (g2 _ _ (Follow.dot (by intro d r h; cases h; rfl))
      (Tokens.sym (by simp [symbols]) (by simp) (Tokens.sym (by simp [symbols]) (by simp) (i2 _ _ (Follow.mark (by decide) _)
        (Tokens.sym (by simp [symbols]) (by simp) ht))))))
  · refine Prefix.post h3 (fun r => Stops.post (by simp) (by simp) _) fun r d' r' h => ?_
    simp only [List.append_assoc, List.cons_append, List.nil_append]
    exact RP.range (g4.sym_ne (by simp) _) (g3.reads (by omega) (Stops.dots _ _)) (i4.sym_ne (by simp) _) (i3.reads (by omega) (Stops.close (by simp) _ _)) h
  · exact (h5.soft rfl).extra_append h4.ne (fun _ => rfl) (by simp) (by simp) (by simp) (by simp)

theorem subListFrom_good (k kd : Key) {x y : Val} {a b : I.D} {τ : CallKind} (hx : Good' u I tight x a .atom) (hy : Good' u I tight y b τ) :
    Good' u I tight (subListFrom k kd (some x) (some y)) (I.slice a (some b) none) .atom := by
  obtain ⟨s, ts, h1, h2, h3, h4, h5⟩ := hx.reads
  obtain ⟨s', ts', g1, g2, g3, g4, _⟩ := hy.below
  have hv : subListFrom k kd (some x) (some y) = listOperatorCreate k kd x (some y) true none := by
    simp [subListFrom, firstErr, errOf, nilErr, missing, hx.err, hx.nn, hy.err, hy.nn]
  have hdk : dkeysL (subListFrom k kd (some x) (some y)).visit = [] := by
    rw [hv]; exact access_base hx.dk (by simp [hy.dk]) (by simp)
  refine ⟨by rw [hv]; rfl, by rw [hv]; rfl, by rw [hv]; exact ⟨_, _, rfl⟩, hdk, by simp [CallKind.isCondition],
    s ++ (c!"[" ++ (s' ++ (c!".." ++ (c!"]" ++ [])))), ts ++ .sym '[' :: (ts' ++ [.sym '.', .sym '.', .sym ']']), ?_, ?_, ?_, h4.append _, ?_⟩
  · exact Text.of hdk (fun e ha => ((C22_access hx.good hy.good hy.good).2.2.1 ha).2)
      (Shows.hole h1 (Shows.lit _ (Shows.hole g1 (Shows.lit _ (Shows.lit _ Shows.nil)))))
  · intro r rs hf ht
    simp only [List.append_assoc, List.cons_append, List.nil_append]
    exact h2 _ _ (Follow.mark (by decide) _) (Tokens.sym (by simp [symbols]) (by simp) (g2 _ _ (Follow.dot (by intro d r h; cases h; rfl))
      (Tokens.sym (by simp [symbols]) (by simp) (Tokens.sym (by simp [symbols]) (by simp) (Tokens.sym (by simp [symbols]) (by simp) ht)))))
  · refine Prefix.post h3 (fun r => Stops.post (by simp) (by simp) _) fun r d' r' h => ?_
    simp only [List.append_assoc, List.cons_append, List.nil_append]
    exact RP.from (g4.sym_ne (by simp) _) (g3.reads (by omega) (Stops.dots _ _)) h
  · exact (h5.soft rfl).extra_append h4.ne (fun _ => rfl) (by simp) (by simp) (by simp) (by simp)

theorem subListUntil_good (k kd : Key) {x y : Val} {a b : I.D} {τ : CallKind} (hx : Good' u I tight x a .atom) (hy : Good' u I tight y b τ) :
    Good' u I tight (subListUntil k kd (some x) (some y)) (I.slice a none (some b)) .atom := by
  obtain ⟨s, ts, h1, h2, h3, h4, h5⟩ := hx.reads
  obtain ⟨s', ts', g1, g2, g3, g4, _⟩ := hy.below
  have hv : subListUntil k kd (some x) (some y) = listOperatorCreate k kd x none true (some y) := by
    simp [subListUntil, firstErr, errOf, nilErr, missing, hx.err, hx.nn, hy.err, hy.nn]
  have hdk : dkeysL (subListUntil k kd (some x) (some y)).visit = [] := by
    rw [hv]; exact access_base hx.dk (by simp) (by simp [hy.dk])
  refine ⟨by rw [hv]; rfl, by rw [hv]; rfl, by rw [hv]; exact ⟨_, _, rfl⟩, hdk, by simp [CallKind.isCondition],
    s ++ (c!"[" ++ (c!".." ++ (s' ++ (c!"]" ++ [])))), ts ++ .sym '[' :: .sym '.' :: .sym '.' :: (ts' ++ [.sym ']']), ?_, ?_, ?_, h4.append _, ?_⟩
  · exact Text.of hdk (fun e ha => ((C22_access hx.good hy.good hy.good).2.2.2 ha).2)
      (Shows.hole h1 (Shows.lit _ (Shows.lit _ (Shows.hole g1 (Shows.lit _ Shows.nil)))))
  · intro r rs hf ht
    simp only [List.append_assoc, List.cons_append, List.nil_append]
    exact h2 _ _ (Follow.mark (by decide) _) (Tokens.sym (by simp [symbols]) (by simp) (Tokens.sym (by simp [symbols]) (by simp)
      (Tokens.sym (by simp [symbols]) (by simp) (g2 _ _ (Follow.mark (by decide) _) (Tokens.sym (by simp [symbols]) (by simp) ht)))))
  · refine Prefix.post h3 (fun r => Stops.post (by simp) (by simp) _) fun r d' r' h => ?_
    simp only [List.append_assoc, List.cons_append, List.nil_append]
    exact RP.until (g3.reads (by omega) (Stops.close (by simp) _ _)) h
  · exact (h5.soft rfl).extra_append h4.ne (fun _ => rfl) (by simp) (by simp) (by simp) (by simp)

end Verif.Rd
