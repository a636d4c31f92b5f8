import Verif.DenoteLemmas3
import Verif.PropsExprs2
/-! The texts of quantified predicates and list comprehensions read back (C52). -/
namespace Verif.Rd
open Verif.Spec

variable {u : Unicode} {I : Meaning} {tight : Bool}

theorem var_text (I : Meaning) (k : Key) {n : Str} (h : VarName u n) : Text (symbolicName u k n) (escapeIfNecessary u n) := by
  obtain ⟨s, ts, h1, _⟩ := (var_good (I := I) (tight := true) k h).reads
  have h' := h1
  simp only [symbolicName, if_neg (name_ne h.1)] at h'
  rw [Text.leaf h'] at h1
  exact h1

theorem IsName.binder {t : Token} {n : Str} (ht : IsName t n) (h : VarName u n) (r : List Token) :
    binder (t :: .word c!"IN" :: r) = some (n, r) := by
  have : (Token.word c!"IN").is c!"in" = true := by decide
  rcases ht with rfl | rfl
  · simp [Spec.binder, this, h.2.1, h.2.2]
  · simp [Spec.binder, this]

theorem quantified_good {guid : Str} {q : Quantifier} {k kf ka kp kw kx : Key} {n : Str} {l c v : Val} {a b : I.D} {σ τ : CallKind} (hn : VarName u n)
    (hl : Good' u I tight l a σ) (hc : Good' u I tight c b τ)
    (hv : quantified guid q k kf ka kp kw (some (symbolicName u kx n)) (some l) (some c) = .ok v) :
    Good' u I tight v (I.quantified (quantifierName q) n a b) .atom := by
  have hx := (var_good (I := I) (tight := tight) kx hn)
  have hdef : q.def'.name = quantifierName q := by cases q <;> rfl
  have he : v = .mk' k (invocation kf ka (quantifierName q) [nd kp [] [] false ((symbolicName u kx n).visit ++ [Op.in_.visit] ++ l.visit ++
    [nd kw c!" WHERE " [] false c.visit])]).visit true := by
    have hp : listPredicate kp (symbolicName u kx n) l (whereCreate kw c) =
        .mk' kp [nd kp [] [] false ((symbolicName u kx n).visit ++ [Op.in_.visit] ++ l.visit ++ [nd kw c!" WHERE " [] false c.visit])] := by
      simp [listPredicate, whereCreate, hx.err, hl.err, hc.err]
    have h2 : quantified guid q k kf ka kp kw (some (symbolicName u kx n)) (some l) (some c) =
        .ok (.mk' k (invocation kf ka (quantifierName q) [nd kp [] [] false ((symbolicName u kx n).visit ++ [Op.in_.visit] ++ l.visit ++
          [nd kw c!" WHERE " [] false c.visit])]).visit true) := by
      simp only [quantified, hc.nn, hl.nn, hx.nn, missing, hp, functionInvocation, scanArgs, Val.mk', Outcome.map, Except.map, visitsOf,
        booleanFunction, Bool.not_true, if_true, Bool.false_eq_true, if_false, List.flatMap_cons, List.flatMap_nil, List.append_nil, hdef]
      rfl
    rw [hv] at h2
    exact Outcome.ok.inj h2
  have htext : ∀ e, NoAlias e [kf, ka, kp, kw, Op.in_.key] v.visit → shownAs e v.visit =
        layout e [.lit (quantifierName q), .lit c!"(", .hole (symbolicName u kx n).visit, .lit c!" IN ", .hole l.visit, .lit c!" WHERE ", .hole c.visit, .lit c!")"] := by
    intro e
    obtain ⟨v', h1, _, h2⟩ := C44_quantified_partial (e := e) guid q k kf ka kp kw _ l c hx.good hl.good hc.good
    rw [hv] at h1
    cases h1
    exact h2
  have hdk : dkeysL v.visit = [] := by
    rw [he]
    simp only [Val.mk', invocation, dkeysL_nd, dkeysL_append, hx.dk, hl.dk]
    simp [dkeysL, dkeys_nd, hc.dk, Op.visit, dkeys_leaf]
  obtain ⟨sl, tl, l1, l2, l3, _, _⟩ := hl.below
  obtain ⟨sc, tc, c1, c2, c3, _, _⟩ := hc.below
  obtain ⟨t, ht, ht2, _⟩ := Lexes.name hn.1
  have hq : (quantifierName q != [] && (quantifierName q).all fun c => c.toNat < 128 && c.isAlpha) = true ∧ lower (quantifierName q) ∉ reserved ∧
      lower (quantifierName q) ∈ quantifiers ∧ lower (quantifierName q) = quantifierName q := by cases q <;> decide
  refine ⟨by rw [he]; rfl, by rw [he]; rfl, by rw [he]; exact ⟨_, _, rfl⟩, hdk, fun _ => by rw [he]; rfl,
    quantifierName q ++ (c!"(" ++ (escapeIfNecessary u n ++ (c!" IN " ++ (sl ++ (c!" WHERE " ++ (sc ++ (c!")" ++ []))))))),
    .word (quantifierName q) :: .sym '(' :: t :: .word c!"IN" :: (tl ++ .word c!"WHERE" :: (tc ++ [.sym ')'])),
    Text.of hdk htext (Shows.lit _ (Shows.lit _ (Shows.hole (var_text I kx hn) (Shows.lit _ (Shows.hole l1 (Shows.lit _ (Shows.hole c1 (Shows.lit _ Shows.nil)))))))),
    ?_, ?_, Head.reserved hq.2.1 _ _, Extra.call (by simp) _⟩
  · intro r rs hf hr
    have e1 : c!" IN " = ' ' :: (c!"IN" ++ [' ']) := rfl
    have e2 : c!" WHERE " = ' ' :: (c!"WHERE" ++ [' ']) := rfl
    rw [e1, e2]
    simp only [List.append_assoc, List.cons_append, List.nil_append]
    exact Tokens.word (ascii_word hq.1) (Follow.mark (by decide) _).part (Tokens.sym (by simp [symbols]) (by simp)
      (ht2 _ _ (Follow.mark (by decide) _) (Tokens.sp (Rd.kw c!"IN" (by decide) (l2 _ _ (Follow.mark (by decide) _) (Tokens.sp (Rd.kw c!"WHERE" (by decide)
        (c2 _ _ (Follow.mark (by decide) _) (Tokens.sym (by simp [symbols]) (by simp) hr)))))))))
  · refine Prefix.atom fun r _ _ => ?_
    simp only [List.append_assoc, List.cons_append, List.nil_append]
    have h1 : t.is c!"distinct" = false := by
      rcases ht with rfl | rfl
      · simpa [Token.is] using fun h => hn.2.1 (by rw [h]; decide)
      · rfl
    have h2 : t ≠ .sym '*' := by rcases ht with rfl | rfl <;> simp
    have h3 := RQuantified.mk (w := quantifierName q) (w' := c!"WHERE") (x := n) (l := a) (by decide) (c3.reads (by omega) (Stops.close (.inl rfl) 0 r))
    rw [hq.2.2.2] at h3
    exact RA.quantified hq.2.1 hq.2.2.1 h1 h2 (IsName.binder ht hn _) (l3.reads (by omega) (Stops.word (by decide) _ _)) h3

/-! ### List comprehensions -/

theorem definition_reads {xs : List (Meant I)} (hx : ∀ y ∈ xs, Good' u I tight y.v y.d y.σ) (hm : xs.length ≠ 1 → ∀ x, xs.head? = some x → x.σ.first = true) :
    ∃ s ts, Shows (definitionParts (xs.map (·.v))) s ∧ Lexes u s ts ∧
      Prefix I tight 0 ts (if xs.length = 1 then (xs.head?.map (·.d)).getD I.null else I.list (xs.map (·.d))) := by
  match xs, hx, hm with
  | [], hx, hm =>
    obtain ⟨s, ts, h1, h2, h3, h4, _⟩ := list_reads hx (hm (by simp))
    exact ⟨s, ts, h1, h2, h3.below (by omega) (Nat.zero_le _) h4⟩
  | [x], hx, hm =>
    obtain ⟨s, ts, h1, h2, h3, _⟩ := (hx x (by simp)).below
    exact ⟨s ++ [], ts, Shows.hole h1 Shows.nil, by simpa using h2, h3⟩
  | x :: y :: xs, hx, hm =>
    obtain ⟨s, ts, h1, h2, h3, h4, _⟩ := list_reads hx (hm (by simp))
    exact ⟨s, ts, h1, h2, h3.below (by omega) (Nat.zero_le _) h4⟩

theorem result_reads (ds : Option (List (Meant I))) (hx : ∀ xs, ds = some xs → ∀ x ∈ xs, Good' u I tight x.v x.d x.σ)
    (hm : ∀ xs, ds = some xs → xs.length ≠ 1 → ∀ x, xs.head? = some x → x.σ.first = true) :
    ∃ c s c' ts, Shows ((match ds.map (fun xs => xs.map (·.v)) with | some ds => .lit c!" | " :: definitionParts ds | none => []) ++ [.lit c!"]"]) (c :: s) ∧
      c ∈ [' ', ']'] ∧ c' ∈ ['|', ']'] ∧ (∀ r rs, Tokens u r rs → Tokens u (c :: s ++ r) (.sym c' :: ts ++ rs)) ∧
      ∀ x l c r, RResult I tight x l c (.sym c' :: ts ++ r)
        (I.comprehension x l c (ds.map fun xs => if xs.length = 1 then (xs.head?.map (·.d)).getD I.null else I.list (xs.map (·.d)))) r := by
  cases ds with
  | none =>
    refine ⟨']', [], ']', [], by simpa using Shows.lit c!"]" Shows.nil, by simp, by simp, fun r rs h => Tokens.sym (by simp [symbols]) (by simp) h, fun x l c r => RResult.stop c⟩
  | some xs =>
    obtain ⟨s, ts, h1, h2, h3⟩ := definition_reads (hx xs rfl) (hm xs rfl)
    refine ⟨' ', c!"| " ++ (s ++ (c!"]" ++ [])), '|', ts ++ [.sym ']'], ?_, by simp, by simp, ?_, ?_⟩
    · have := Shows.lit c!" | " (h1.append (Shows.lit c!"]" Shows.nil))
      simpa using this
    · intro r rs hr
      simp only [List.append_assoc, List.cons_append, List.nil_append]
      exact Tokens.sp (Tokens.sym (by simp [symbols]) (by simp) (Tokens.sp (h2 _ _ (Follow.mark (by decide) _) (Tokens.sym (by simp [symbols]) (by simp) hr))))
    · intro x l c r
      simp only [List.append_assoc, List.cons_append, List.nil_append]
      exact RResult.pipe c (h3.reads (by omega) (Stops.close (.inr (.inl rfl)) 0 r))

theorem definition_dkeys {kl kc : Key} {xs : List (Meant I)} (hg : ∀ x ∈ xs, Good' u I tight x.v x.d x.σ) : dkeysL (listOrSingle kl kc (xs.map (·.v))).visit = [] := by
  match xs, hg with
  | [], _ => rfl
  | [x], hg => exact (hg x (by simp)).dk
  | x :: y :: xs, hg =>
    have he : errsOf ((x :: y :: xs).map (·.v)) = none := (errsOf_none_iff _).mpr (errs_none hg)
    have : listOrSingle kl kc ((x :: y :: xs).map (·.v)) = .mk' kl [nd kl c!"[" c!"]" false [nd kc [] [] true (visitsOf ((x :: y :: xs).map (·.v)))]] := by
      simp only [List.map_cons] at he
      simp [listOrSingle, listExpression, expressionList, he, Val.mk']
    rw [this]
    simp only [Val.mk', dkeysL_nd]
    exact visitsOf_dkeys hg

theorem comprehension_good {k kw kl kc kx : Key} {n : Str} {l : Val} {a : I.D} {σ : CallKind} {c : Option (Meant I)} {ds : Option (List (Meant I))}
    (hn : VarName u n) (hl : Good' u I tight l a σ) (hc : ∀ x, c = some x → Good' u I tight x.v x.d x.σ)
    (hx : ∀ xs, ds = some xs → ∀ x ∈ xs, Good' u I tight x.v x.d x.σ)
    (hm : ∀ xs, ds = some xs → xs.length ≠ 1 → ∀ x, xs.head? = some x → x.σ.first = true) :
    Good' u I tight (listWith k kw kl kc (symbolicName u kx n) l (c.map (·.v)) (ds.map fun xs => xs.map (·.v)))
        (I.comprehension n a (c.map (·.d)) (ds.map fun xs => if xs.length = 1 then (xs.head?.map (·.d)).getD I.null else I.list (xs.map (·.d)))) .atom := by
  have hv := (var_good (I := I) (tight := tight) kx hn)
  generalize hL : listWith k kw kl kc (symbolicName u kx n) l (c.map (·.v)) (ds.map fun xs => xs.map (·.v)) = v
  have hT := fun e =>
    C44_listWith_partial (e := e) k kw kl kc (symbolicName u kx n) l (c.map (·.v)) (ds.map fun xs => xs.map (·.v)) hv.err hl.err
      (by intro c' h; obtain ⟨m, hm, rfl⟩ := Option.map_eq_some_iff.mp h; exact (hc m hm).err)
      (by
        intro ds' h d hd
        obtain ⟨xs, hxs, rfl⟩ := Option.map_eq_some_iff.mp h
        obtain ⟨m, hm', rfl⟩ := List.mem_map.mp hd
        exact ⟨(hx xs hxs m hm').err, (hx xs hxs m hm').one⟩)
  rw [hL] at hT
  have he : v = .mk' k [nd k c!"[" c!"]" false ((symbolicName u kx n).visit ++ [Op.in_.visit] ++ l.visit ++ visitIfNotNull ((c.map (·.v)).map (whereCreate kw)) ++
      (match (ds.map fun xs => xs.map (·.v)).map (listOrSingle kl kc) with | some d => Op.pipe.visit :: d.visit | none => []))] := by
    rw [← hL]
    simp only [listWith, listComprehensionCreate, hv.err]
    cases ds <;> rfl
  have hdk : dkeysL v.visit = [] := by
    rw [he]
    simp only [Val.mk', dkeysL_nd, dkeysL_append, hv.dk, hl.dk]
    have h1 : dkeysL (visitIfNotNull ((c.map (·.v)).map (whereCreate kw))) = [] := by
      cases hcc : c with
      | none => rfl
      | some x => simp [visitIfNotNull, whereCreate, (hc x hcc).err, dkeysL, dkeys_nd, (hc x hcc).dk]
    have h2 : dkeysL (match (ds.map fun xs => xs.map (·.v)).map (listOrSingle kl kc) with | some d => Op.pipe.visit :: d.visit | none => []) = [] := by
      cases hd : ds with
      | none => rfl
      | some xs =>
        have hg := hx xs hd
        have hlist := definition_dkeys (kl := kl) (kc := kc) hg
        simp [dkeysL, Op.visit, dkeys_leaf, hlist]
    rw [h1, h2]
    simp [dkeysL, Op.visit, dkeys_leaf]
  obtain ⟨sl, tl, l1, l2, l3, _, _⟩ := hl.below
  obtain ⟨t, ht, ht2, _⟩ := Lexes.name hn.1
  obtain ⟨c₀, sr, c₁, tr, r1, r2, r3, r4, r5⟩ := result_reads ds hx hm
  have hfol : ∀ r, Follow u (c₀ :: sr ++ r) := fun r => Follow.mark (by simp at r2; rcases r2 with rfl | rfl <;> decide) _
  have hstop : ∀ r, Stops tight 0 (.sym c₁ :: tr ++ r) := fun r => Stops.close (by simp at r3; rcases r3 with rfl | rfl <;> simp) 0 _
  -- the condition and the result
  have hmid : ∃ s ts, Shows ((match c.map (·.v) with | some c => [.lit c!" WHERE ", .hole c.visit] | none => []) ++
        ((match ds.map (fun xs => xs.map (·.v)) with | some ds => .lit c!" | " :: definitionParts ds | none => []) ++ [.lit c!"]"])) s ∧
      (∀ r, Follow u (s ++ r)) ∧ (∀ r rs, Tokens u r rs → Tokens u (s ++ r) (ts ++ rs)) ∧ (∀ r, Stops tight 0 (ts ++ r)) ∧
      ∀ r, RComprehension I tight n a (ts ++ r) (I.comprehension n a (c.map (·.d))
        (ds.map fun xs => if xs.length = 1 then (xs.head?.map (·.d)).getD I.null else I.list (xs.map (·.d)))) r := by
    cases hcc : c with
    | none => exact ⟨c₀ :: sr, .sym c₁ :: tr, r1, hfol, r4, hstop, fun r => RComprehension.all (r5 _ _ none r)⟩
    | some x =>
      obtain ⟨sc, tc, c1, c2, c3, _, _⟩ := (hc x hcc).below
      refine ⟨c!" WHERE " ++ (sc ++ (c₀ :: sr)), .word c!"WHERE" :: (tc ++ .sym c₁ :: tr), ?_, fun r => Follow.mark (by decide) _, ?_,
        fun r => Stops.word (by decide) _ _, fun r => ?_⟩
      · have := Shows.lit c!" WHERE " (Shows.hole c1 r1)
        simpa using this
      · intro r rs hr
        have e2 : c!" WHERE " = ' ' :: (c!"WHERE" ++ [' ']) := rfl
        rw [e2]
        have h1 := r4 r rs hr
        have h2 := hfol r
        simp only [List.append_assoc, List.cons_append, List.nil_append] at h1 h2 ⊢
        exact Tokens.sp (Rd.kw c!"WHERE" (by decide) (c2 _ _ h2 h1))
      · have := r5 n a (some x.d) r
        have h2 := hstop r
        simp only [List.append_assoc, List.cons_append] at this h2 ⊢
        exact RComprehension.cond (by decide) (c3.reads (by omega) h2) this
  obtain ⟨sm, tm, m1, m2, m3, m4, m5⟩ := hmid
  refine ⟨by rw [he]; rfl, by rw [he]; rfl, by rw [he]; exact ⟨_, _, rfl⟩, hdk, by simp [CallKind.isCondition],
    c!"[" ++ (escapeIfNecessary u n ++ (c!" IN " ++ (sl ++ sm))), .sym '[' :: t :: .word c!"IN" :: (tl ++ tm),
    Text.of hdk (fun e => (hT e).2) ?_, ?_, ?_, Head.sym (by simp) _ _, Extra.sym (by simp) _⟩
  · have := Shows.lit c!"[" (Shows.hole (var_text I kx hn) (Shows.lit c!" IN " (Shows.hole l1 m1)))
    simp only [List.append_assoc, List.cons_append, List.nil_append] at this ⊢
    exact this
  · intro r rs hf hr
    have e1 : c!" IN " = ' ' :: (c!"IN" ++ [' ']) := rfl
    rw [e1]
    simp only [List.append_assoc, List.cons_append, List.nil_append]
    exact Tokens.sym (by simp [symbols]) (by simp) (ht2 _ _ (Follow.mark (by decide) _) (Tokens.sp (Rd.kw c!"IN" (by decide) (l2 _ _ (m2 r) (m3 r rs hr)))))
  · refine Prefix.atom fun r _ _ => ?_
    simp only [List.append_assoc, List.cons_append, List.nil_append]
    exact RA.comprehension (IsName.binder ht hn _) (l3.reads (by omega) (m4 r)) (m5 r)

end Verif.Rd
