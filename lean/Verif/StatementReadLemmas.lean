import Verif.ChangeReadLemmas

/-
Statements are read with their meaning.
-/

namespace Verif.Rd

open Spec

variable {u : Unicode} {I : Meaning} {tight : Bool}

def RSimple (I : Meaning) (tight : Bool) (ts : List Token) (c : Spec.Clause I.D) (r : List Token) : Prop := ∃ N, ∀ n ≥ N, readSimple I tight n ts = some (c, r)
def RClause (I : Meaning) (tight : Bool) (ts : List Token) (c : Spec.Clause I.D) (r : List Token) : Prop := ∃ N, ∀ n ≥ N, readClause I tight n ts = some (c, r)
def RClauses (I : Meaning) (tight : Bool) (ts : List Token) (cs : List (Spec.Clause I.D)) (r : List Token) : Prop := ∃ N, ∀ n ≥ N, readClauses I tight n ts = some (cs, r)
def RQueries (I : Meaning) (tight : Bool) (ts : List Token) (s : Stat I.D) (r : List Token) : Prop := ∃ N, ∀ n ≥ N, readQueries I tight n ts = some (s, r)
def RUnions (I : Meaning) (tight : Bool) (ts : List Token) (s : List (Bool × List (Spec.Clause I.D))) (r : List Token) : Prop :=
  ∃ N, ∀ n ≥ N, readUnions I tight n ts = some (s, r)

theorem matched_reads {ws : List Str} {e e' : Env} {vs : List Val} {ps : List (Element I.D)} (h : Thread (ElementMeans u (Denotes u I tight)) e vs ps e') (hne : vs ≠ []) :
    ∃ ts, Seg u e (commas (vs.map (·.visit))) e' ts ∧ ∀ r, Border ws r → RList (readElement I tight) (ts ++ r) ps r := by
  obtain ⟨ts, h1, h2, _⟩ := commaList_reads (u := u) (S := ItemEnd ws) (Q := fun _ => True) (f := fun v : Val => [.hole v.visit]) (p := readElement I tight)
    (fun r => .inr ⟨r, rfl⟩) (fun _ _ _ => trivial) (fun e1 a b e2 h => by
      obtain ⟨s, ts, t1, t2, t3, _⟩ := element_reads denotes_good h
      exact ⟨ts, Seg.hole t1 t2.lexes, fun r hr => t3 r hr.noArrow, trivial⟩) h hne
  rw [commas_eq]
  exact ⟨ts, h1, fun r hr => h2 r (.inl hr) (hr.sym (by decide))⟩

/-- The clause begins with the keyword `w`. -/
theorem RSimple.clause {w : Str} (hw : lower w ≠ c!"call") {ts r : List Token} {c : Spec.Clause I.D} (h : RSimple I tight (.word w :: ts) c r) : RClause I tight (.word w :: ts) c r := by
  obtain ⟨N, h⟩ := h
  refine ⟨N + 1, fun n hn => ?_⟩
  obtain ⟨n, rfl⟩ : ∃ k, n = k + 1 := ⟨n - 1, by omega⟩
  have : Spec.after c!"call" (.word w :: ts) = none := by simp [Spec.after, Token.is, hw]
  rw [readClause, this]
  exact h n (by omega)

/-- What a clause needs: a text and its tokens, which begin with a keyword, and the reading of it. -/
def ClauseReads (u : Unicode) (I : Meaning) (tight : Bool) (e : Env) (ps : List Part) (e' : Env) (c : Spec.Clause I.D) : Prop :=
  ∃ w ts, SegA u e ps e' (.word w :: ts) ∧ lower w ∈ starters ∧ lower w ≠ c!"union" ∧ ∀ r, Border starters r → RClause I tight (.word w :: ts ++ r) c r

theorem ClauseReads.simple {e e' : Env} {ps : List Part} {c : Spec.Clause I.D} {w : Str} {ts : List Token} (h1 : SegA u e ps e' (.word w :: ts)) (h2 : lower w ∈ starters)
    (h3 : lower w ≠ c!"union") (h4 : lower w ≠ c!"call") (h : ∀ r, Border starters r → RSimple I tight (.word w :: (ts ++ r)) c r) : ClauseReads u I tight e ps e' c :=
  ⟨w, ts, h1, h2, h3, fun r hr => (h r hr).clause h4⟩

theorem match_reads {e e' e'' : Env} {o : Bool} {vs : List Val} {ps : List (Element I.D)} {w : Option Calls} {c : Option I.D}
    (h : Thread (ElementMeans u (Denotes u I tight)) e vs ps e') (hne : vs ≠ []) (hc : CondMeans u I tight e' w c e'') :
    ClauseReads u I tight e ([.lit (if o then c!"OPTIONAL MATCH " else c!"MATCH ")] ++ commas (vs.map (·.visit)) ++ whereParts w ++ [.lit c!" "]) e'' (.match_ o ps c) := by
  obtain ⟨ts, t1, t2⟩ := matched_reads (ws := c!"where" :: starters) h hne
  obtain ⟨tc, c1, c2⟩ := cond_reads hc
  have hl : ∀ r, Border starters r → ∃ N, ∀ n ≥ N, ((commaList (readElement I tight n) n (ts ++ tc ++ r)).bind fun p => (readOpt I tight c!"where" n p.2).map fun c => (Spec.Clause.match_ o p.1 c.1, c.2)) = some (.match_ o ps c, r) := by
    intro r hr
    obtain ⟨⟨N1, r1⟩, r2⟩ := c2 r hr
    obtain ⟨N2, r3⟩ := t2 _ r2
    refine ⟨N1 + N2, fun n hn => ?_⟩
    rw [List.append_assoc, r3 n (by omega) n (by omega), Option.bind_some, r1 n (by omega)]
    rfl
  have hs := Seg.append t1 c1
  cases o with
  | false =>
    refine ClauseReads.simple (w := c!"MATCH") (ts := ts ++ tc) ?_ (by decide) (by decide) (by decide) fun r hr => ?_
    · simpa using (Seg.kw (w := c!"MATCH") (by decide) hs).close
    · obtain ⟨N, hN⟩ := hl r hr
      refine ⟨N, fun n hn => ?_⟩
      rw [readSimple, if_pos (by decide)]
      exact hN n hn
  | true =>
    refine ClauseReads.simple (w := c!"OPTIONAL") (ts := .word c!"MATCH" :: (ts ++ tc)) ?_ (by decide) (by decide) (by decide) fun r hr => ?_
    · obtain ⟨s, g1, g2⟩ := (Seg.kw (w := c!"OPTIONAL") (by decide) (Seg.kw (w := c!"MATCH") (by decide) hs)).close
      refine ⟨s, ?_, g2⟩
      rw [← g1]
      simp [layout]
    · obtain ⟨N, hN⟩ := hl r hr
      refine ⟨N, fun n hn => ?_⟩
      rw [readSimple, if_neg (by decide), if_pos (by decide), List.cons_append, after_word (by decide)]
      exact hN n hn

theorem create_reads {e e' : Env} {v : Val} {p : Element I.D} (h : ElementMeans u (Denotes u I tight) e v p e') :
    ClauseReads u I tight e [.lit c!"CREATE ", .hole v.visit, .lit c!" "] e' (.create [p]) := by
  obtain ⟨s, ts, t1, t2, t3, _⟩ := element_reads denotes_good h
  refine ClauseReads.simple (w := c!"CREATE") (ts := ts) ?_ (by decide) (by decide) (by decide) fun r hr => ?_
  · exact (Seg.kw (w := c!"CREATE") (by decide) (Seg.hole t1 t2.lexes)).close
  · obtain ⟨N, hN⟩ := RList.last (p := readElement I tight) (t3 r hr.noArrow) (hr.sym (by decide))
    refine ⟨N, fun n hn => ?_⟩
    simp only [readSimple]
    rw [if_neg (by decide), if_neg (by decide), if_neg (by decide), if_neg (by decide), if_neg (by decide), if_pos (by decide), hN n hn n hn]
    rfl

theorem unwind_reads {e e' : Env} {v : Val} {d : I.D} {σ : CallKind} {x : Str} (h : ExprTo (Denotes u I tight) e v d σ e') (hx : VarName u x) (hi : isIdentifier u x = true) :
    ClauseReads u I tight e [.lit c!"UNWIND ", .hole v.visit, .lit c!" AS ", .lit x, .lit c!" "] e' (.unwind d x) := by
  obtain ⟨s, ts, t1, t2, t3, _, _⟩ := h.expr
  have hn : Seg u e' [.lit x] e' [.word x] := ⟨x, by simp [layout], fun r rs hf hr => Tokens.ident hi hf.part hr⟩
  have hs := Seg.append (Seg.hole t1 t2) (SegS.kw (w := c!"AS") (by decide) hn)
  refine ClauseReads.simple (w := c!"UNWIND") (ts := ts ++ [.word c!"AS", .word x]) ?_ (by decide) (by decide) (by decide) fun r hr => ?_
  · exact (Seg.kw (w := c!"UNWIND") (by decide) hs).close
  · obtain ⟨N, hN⟩ := t3.reads (r := .word c!"AS" :: .word x :: r) (by omega) (Stops.word' (by decide) 0 _)
    refine ⟨N, fun n hn => ?_⟩
    have e1 : ts ++ [.word c!"AS", .word x] ++ r = ts ++ .word c!"AS" :: .word x :: r := by simp
    simp only [readSimple]
    rw [if_neg (by decide), if_neg (by decide), if_neg (by decide), if_neg (by decide), if_pos (by decide), e1, hN n hn]
    simp only [Option.bind_some]
    rw [after_word (by decide), Option.bind_some, varOf_name (x := x) (.inl rfl) hx]
    rfl

theorem merge_reads {e e' : Env} {v : Val} {p : Element I.D} {as : List ActionReq} {xs : List (Bool × List (SetItem I.D))} (h : ElementMeans u (Denotes u I tight) e v p e')
    (hne : ∀ a ∈ as, a.args ≠ []) (ha : List.Forall₂ (ActionMeans u I tight e') as xs) :
    ClauseReads u I tight e ([.lit c!"MERGE ", .hole v.visit, .lit c!" "] ++ as.flatMap ActionReq.parts) e' (.merge p xs) := by
  obtain ⟨s, ts, t1, t2, t3, _⟩ := element_reads denotes_good h
  obtain ⟨us, u1, u2⟩ := actions_reads ha hne
  refine ClauseReads.simple (w := c!"MERGE") (ts := ts ++ us) ?_ (by decide) (by decide) (by decide) fun r hr => ?_
  · exact SegA.append (Seg.kw (w := c!"MERGE") (by decide) (Seg.hole t1 t2.lexes)).close u1
  · obtain ⟨⟨N1, r1⟩, r2⟩ := u2 r hr
    obtain ⟨N2, r3⟩ := t3 _ r2.noArrow
    refine ⟨N1 + N2, fun n hn => ?_⟩
    simp only [readSimple]
    rw [if_neg (by decide), if_neg (by decide), if_neg (by decide), if_neg (by decide), if_neg (by decide), if_neg (by decide), if_pos (by decide),
      List.append_assoc, r3 n (by omega), Option.bind_some, r1 n (by omega)]
    rfl

theorem with_reads {e e' e'' : Env} {q : ResultReq} {b : Body I.D} {w : Option Calls} {c : Option I.D} (hq : q.items ≠ []) (hb : BodyMeans u I tight e q b e') (hc : CondMeans u I tight e' w c e'') :
    ClauseReads u I tight e (.lit c!"WITH " :: (q.parts ++ whereParts w ++ [.lit c!" "])) e'' (.with_ b c) := by
  obtain ⟨ts, t1, t2⟩ := body_reads hq hb
  obtain ⟨tc, c1, c2⟩ := cond_reads hc
  refine ClauseReads.simple (w := c!"WITH") (ts := ts ++ tc) ?_ (by decide) (by decide) (by decide) fun r hr => ?_
  · exact (Seg.kw (w := c!"WITH") (by decide) (Seg.append t1 c1)).close
  · obtain ⟨⟨N1, r1⟩, r2⟩ := c2 r hr
    obtain ⟨N2, r3⟩ := t2 _ r2
    refine ⟨N1 + N2, fun n hn => ?_⟩
    simp only [readSimple]
    rw [if_neg (by decide), if_neg (by decide), if_pos (by decide), List.append_assoc, r3 n (by omega), Option.bind_some, r1 n (by omega)]
    rfl

theorem return_reads {e e' : Env} {q : ResultReq} {b : Body I.D} (hq : q.items ≠ []) (hb : BodyMeans u I tight e q b e') :
    ∃ ts, Seg u e (.lit c!"RETURN " :: q.parts) e' (.word c!"RETURN" :: ts) ∧ ∀ r, Border starters r → RClause I tight (.word c!"RETURN" :: ts ++ r) (.return_ b) r := by
  obtain ⟨ts, t1, t2⟩ := body_reads hq hb
  refine ⟨ts, Seg.kw (w := c!"RETURN") (by decide) t1, fun r hr => RSimple.clause (by decide) ?_⟩
  obtain ⟨N, hN⟩ := t2 r (hr.mono (by decide))
  refine ⟨N, fun n hn => ?_⟩
  change readSimple I tight n (.word c!"RETURN" :: (ts ++ r)) = _
  simp only [readSimple]
  rw [if_neg (by decide), if_neg (by decide), if_neg (by decide), if_pos (by decide), hN n hn]
  rfl

theorem delete_reads {e : Env} {b : Bool} {vs : List Val} {ds : List I.D} (hne : vs ≠ []) (h : List.Forall₂ (fun v d => ∃ σ, ExprMeans (Denotes u I tight) e v d σ) vs ds) :
    ClauseReads u I tight e ([.lit (if b then c!"DETACH DELETE " else c!"DELETE ")] ++ commas (vs.map (·.visit)) ++ [.lit c!" "]) e (.delete b ds) := by
  obtain ⟨ts, t1, t2⟩ := exprs_reads (ws := starters) (by decide) h hne
  cases b with
  | false =>
    refine ClauseReads.simple (w := c!"DELETE") (ts := ts) ?_ (by decide) (by decide) (by decide) fun r hr => ?_
    · exact (Seg.kw (w := c!"DELETE") (by decide) t1).close
    · obtain ⟨N, hN⟩ := t2 r hr
      refine ⟨N, fun n hn => ?_⟩
      simp only [readSimple]
      rw [if_neg (by decide), if_neg (by decide), if_neg (by decide), if_neg (by decide), if_neg (by decide), if_neg (by decide), if_neg (by decide), if_pos (by decide), hN n hn n hn]
      rfl
  | true =>
    refine ClauseReads.simple (w := c!"DETACH") (ts := .word c!"DELETE" :: ts) ?_ (by decide) (by decide) (by decide) fun r hr => ?_
    · obtain ⟨s, g1, g2⟩ := (Seg.kw (w := c!"DETACH") (by decide) (Seg.kw (w := c!"DELETE") (by decide) t1)).close
      refine ⟨s, ?_, g2⟩
      rw [← g1]
      simp [layout]
    · obtain ⟨N, hN⟩ := t2 r hr
      refine ⟨N, fun n hn => ?_⟩
      simp only [readSimple, List.cons_append]
      rw [if_neg (by decide), if_neg (by decide), if_neg (by decide), if_neg (by decide), if_neg (by decide), if_neg (by decide), if_neg (by decide), if_neg (by decide), if_pos (by decide),
        after_word (by decide), Option.bind_some, hN n hn n hn]
      rfl

/-- SET: a list of assignments. -/
theorem RSimple.set {ts r : List Token} {xs : List (SetItem I.D)} (h : RList (readSet I tight) ts xs r) : RSimple I tight (.word c!"SET" :: ts) (.set xs) r := by
  obtain ⟨N, hN⟩ := h
  refine ⟨N, fun n hn => ?_⟩
  simp only [readSimple]
  rw [if_neg (by decide), if_neg (by decide), if_neg (by decide), if_neg (by decide), if_neg (by decide), if_neg (by decide), if_neg (by decide), if_neg (by decide), if_neg (by decide),
    if_pos (by decide), hN n hn n hn]
  rfl

theorem RSimple.remove {ts r : List Token} {xs : List (RemItem I.D)} (h : RList (readRem I tight) ts xs r) : RSimple I tight (.word c!"REMOVE" :: ts) (.remove xs) r := by
  obtain ⟨N, hN⟩ := h
  refine ⟨N, fun n hn => ?_⟩
  simp only [readSimple]
  rw [if_neg (by decide), if_neg (by decide), if_neg (by decide), if_neg (by decide), if_neg (by decide), if_neg (by decide), if_neg (by decide), if_neg (by decide), if_neg (by decide),
    if_neg (by decide), if_pos (by decide), hN n hn n hn]
  rfl

theorem sets_clause {e : Env} {as : List SetArg} {xs : List (SetItem I.D)} (hne : as ≠ []) (h : List.Forall₂ (SetMeans u I tight e) as xs) :
    ClauseReads u I tight e (setParts as) e (.set xs) := by
  obtain ⟨ts, t1, t2⟩ := sets_reads (ws := starters) (by decide) h hne
  exact ClauseReads.simple t1 (by decide) (by decide) (by decide) fun r hr => RSimple.set (t2 r hr)

theorem labels_clause {e : Env} {x : Str} {ls : List Str} (hx : VarName u x) (hl : ls ≠ []) :
    ClauseReads u I tight e [.lit c!"SET ", .lit (escapeIfNecessary u x ++ ls.flatMap fun l => ':' :: escapeName l), .lit c!" "] e (.set [.labels x ls]) ∧
    ClauseReads u I tight e [.lit c!"REMOVE ", .lit (escapeIfNecessary u x ++ ls.flatMap fun l => ':' :: escapeName l), .lit c!" "] e (.remove [.labels x ls]) := by
  obtain ⟨ts, t1, t2⟩ := labels_reads hx hl
  have hs : Seg u e [.lit (escapeIfNecessary u x ++ ls.flatMap fun l => ':' :: escapeName l)] e ts := ⟨_, by simp [layout], t1⟩
  constructor
  · refine ClauseReads.simple (w := c!"SET") (ts := ts) (Seg.kw (w := c!"SET") (by decide) hs).close (by decide) (by decide) (by decide) fun r hr => RSimple.set (RList.last ⟨0, fun n _ => ?_⟩ (hr.sym (by decide)))
    rw [readSet, t2 r (hr.sym (by decide))]
  · refine ClauseReads.simple (w := c!"REMOVE") (ts := ts) (Seg.kw (w := c!"REMOVE") (by decide) hs).close (by decide) (by decide) (by decide) fun r hr => RSimple.remove (RList.last ⟨0, fun n _ => ?_⟩ (hr.sym (by decide)))
    rw [readRem, t2 r (hr.sym (by decide))]

theorem remove_clause {e : Env} {vs : List Val} {ds : List I.D} (hne : vs ≠ []) (h : List.Forall₂ (fun v d => ExprMeans (Denotes u I tight) e v d .atom) vs ds) :
    ClauseReads u I tight e ([.lit c!"REMOVE "] ++ commas (vs.map (·.visit)) ++ [.lit c!" "]) e (.remove (ds.map .prop)) := by
  obtain ⟨ts, t1, t2⟩ := rem_reads (ws := starters) (by decide) h hne
  exact ClauseReads.simple (w := c!"REMOVE") (Seg.kw (w := c!"REMOVE") (by decide) t1).close (by decide) (by decide) (by decide) fun r hr => RSimple.remove (t2 r hr)

theorem proc_clause {e e' : Env} {q : ProcReq} {c : Spec.Clause I.D} (h : ProcMeans u I tight e q c e') : ClauseReads u I tight e q.parts e' c := by
  obtain ⟨ts, t1, ⟨w, ts', rfl⟩, t2⟩ := proc_reads h
  refine ⟨c!"CALL", _, t1, by decide, by decide, fun r hr => ?_⟩
  obtain ⟨N, hN⟩ := t2 r hr
  refine ⟨N + 1, fun n hn => ?_⟩
  obtain ⟨n, rfl⟩ : ∃ k, n = k + 1 := ⟨n - 1, by omega⟩
  have hN := hN n (by omega)
  simp only [List.cons_append] at hN ⊢
  rw [readClause, after_word (by decide)]
  simp only [readSimple]
  rw [if_neg (by decide), if_neg (by decide), if_neg (by decide), if_neg (by decide), if_neg (by decide), if_neg (by decide), if_neg (by decide), if_neg (by decide), if_neg (by decide),
    if_neg (by decide), if_neg (by decide), if_pos (by decide)]
  exact hN

theorem clause_reads {e e' : Env} {q : Req} {c : Spec.Clause I.D} (hq : q.Ok u) (h : ReqMeans u I tight e q c e') : ClauseReads u I tight e (q.parts u) e' c := by
  cases h with
  | match_ h hc => exact match_reads h (by simp) hc
  | with_ hb hc => exact with_reads (show WithReq.Ok u _ from hq).result.items hb hc
  | unwind h hx hi => exact unwind_reads h hx hi
  | create h => exact create_reads h
  | merge h hne ha => exact merge_reads h hne ha
  | delete hne h => exact delete_reads hne h
  | set hne h => exact sets_clause (builtFirst_ne hne) h
  | setNamed h => exact sets_clause (by simp) (.cons h .nil)
  | setLabels hn hx =>
    have := (labels_clause (u := u) (I := I) (tight := tight) (e := e) hx (ls := _) (show _ from hq.2.1)).1
    simpa [Req.parts, Req.labelsText, Req.nodeName, hn] using this
  | removeLabels hn hx =>
    have := (labels_clause (u := u) (I := I) (tight := tight) (e := e) hx (ls := _) (show _ from hq.2.1)).2
    simpa [Req.parts, Req.labelsText, Req.nodeName, hn] using this
  | remove hne h => exact remove_clause hne h
  | proc h => exact proc_clause h

/-! ### Statements -/

theorem RClauses.nil {r : List Token} (h : queryEnds r = true) : RClauses I tight r [] r :=
  ⟨1, fun n hn => by
    obtain ⟨n, rfl⟩ : ∃ k, n = k + 1 := ⟨n - 1, by omega⟩
    simp [readClauses, h]⟩

theorem RClauses.cons {w : Str} {ts r r' : List Token} {c : Spec.Clause I.D} {cs : List (Spec.Clause I.D)} (hw : lower w ≠ c!"union") (h : RClause I tight (.word w :: ts) c r)
    (h' : RClauses I tight r cs r') : RClauses I tight (.word w :: ts) (c :: cs) r' := by
  obtain ⟨N, h⟩ := h
  obtain ⟨N', h'⟩ := h'
  refine ⟨N + N' + 1, fun n hn => ?_⟩
  obtain ⟨n, rfl⟩ : ∃ k, n = k + 1 := ⟨n - 1, by omega⟩
  have : queryEnds (.word w :: ts) = false := by simp [queryEnds, Token.is, hw]
  rw [readClauses, this]
  simp [h n (by omega), h' n (by omega)]

theorem Border.ends {r : List Token} (h : Border [c!"union"] r) : queryEnds r = true := by
  rcases h with rfl | ⟨r', rfl⟩ | ⟨w, r', rfl, h⟩
  · rfl
  · simp [queryEnds]
  · simp only [List.mem_singleton] at h
    simp [queryEnds, Token.is, h]

theorem Border.noUnion {r : List Token} (h : Border [] r) : RUnions I tight r [] r :=
  ⟨1, fun n hn => by
    obtain ⟨n, rfl⟩ : ∃ k, n = k + 1 := ⟨n - 1, by omega⟩
    simp [readUnions, unionOf, h.after (k := c!"union") (by simp)]⟩

theorem RUnions.more {all : Bool} {ts r m r' : List Token} {cs : List (Spec.Clause I.D)} {css : List (Bool × List (Spec.Clause I.D))} (hu : unionOf ts = some (all, r))
    (h : RClauses I tight r cs m) (h' : RUnions I tight m css r') : RUnions I tight ts ((all, cs) :: css) r' := by
  obtain ⟨N, h⟩ := h
  obtain ⟨N', h'⟩ := h'
  refine ⟨N + N' + 1, fun n hn => ?_⟩
  obtain ⟨n, rfl⟩ : ∃ k, n = k + 1 := ⟨n - 1, by omega⟩
  rw [readUnions, hu]
  simp [h n (by omega), h' n (by omega)]

theorem RClauses.queries {ts m r : List Token} {cs : List (Spec.Clause I.D)} {css : List (Bool × List (Spec.Clause I.D))} (h : RClauses I tight ts cs m) (h' : RUnions I tight m css r) :
    RQueries I tight ts ⟨cs, css⟩ r := by
  obtain ⟨N, h⟩ := h
  obtain ⟨N', h'⟩ := h'
  refine ⟨N + N' + 1, fun n hn => ?_⟩
  obtain ⟨n, rfl⟩ : ∃ k, n = k + 1 := ⟨n - 1, by omega⟩
  simp [readQueries, h n (by omega), h' n (by omega)]

/-- `UNION` or `UNION ALL` -/
def unionToks (all : Bool) : List Token := .word c!"UNION" :: if all then [.word c!"ALL"] else []

/-- What is proved of parts of statements. -/
def PortionReads (u : Unicode) (I : Meaning) (tight : Bool) (e : Env) : Portion → Says I.D → Env → Prop
  | .reqs rs, .clauses cs, e' => (∀ r ∈ rs, r.Ok u) → ∃ ts, SegA u e (rs.flatMap (Req.parts u)) e' ts ∧
      ∀ r, Border starters r → Border starters (ts ++ r) ∧ ∀ ds r', RClauses I tight r ds r' → RClauses I tight (ts ++ r) (cs ++ ds) r'
  | .stmt s, .stat st, e' => s.err = none ∧ ∃ ts, Seg u e [.hole s.visit] e' ts ∧ (∀ r, Border [] r → RQueries I tight (ts ++ r) st r) ∧
      (st.more = [] → ∀ r, Border [c!"union"] r → Border starters (ts ++ r) ∧ RClauses I tight (ts ++ r) st.first r)
  | .queries qs, .queries css, e' => (∀ q ∈ qs, q.err = none) ∧ css.length = qs.length ∧ (qs = [] → css = [] ∧ e' = e) ∧ (qs ≠ [] → ∀ all, ∃ c cs, css = c :: cs ∧
      ∃ ts, Seg u e (sepParts (if all then c!" UNION ALL " else c!" UNION ") (qs.map fun q => [.hole q.visit])) e' ts ∧
        ∀ r, Border [] r → Border starters (ts ++ r) ∧ ∃ m, RClauses I tight (ts ++ r) c m ∧ RUnions I tight m (cs.map fun c => (all, c)) r)
  | _, _, _ => True

theorem clauses_cons {e e1 e' : Env} {ps qs : List Part} {c : Spec.Clause I.D} {cs : List (Spec.Clause I.D)} {ts : List Token} (h : ClauseReads u I tight e ps e1 c) (h' : SegA u e1 qs e' ts)
    (hr : ∀ r, Border starters r → Border starters (ts ++ r) ∧ ∀ ds r', RClauses I tight r ds r' → RClauses I tight (ts ++ r) (cs ++ ds) r') :
    ∃ ts, SegA u e (ps ++ qs) e' ts ∧ ∀ r, Border starters r → Border starters (ts ++ r) ∧ ∀ ds r', RClauses I tight r ds r' → RClauses I tight (ts ++ r) (c :: cs ++ ds) r' := by
  obtain ⟨w, tc, c1, c2, c3, c4⟩ := h
  refine ⟨.word w :: tc ++ ts, c1.append h', fun r hb => ⟨Border.word c2 _, fun ds r' hd => ?_⟩⟩
  obtain ⟨h1, h2⟩ := hr r hb
  have := RClauses.cons c3 (c4 _ h1) (h2 ds r' hd)
  simpa using this

theorem query_reads {e e1 e2 e3 : Env} {q : Query} {cs ds es : List (Spec.Clause I.D)} (hq : ∀ r ∈ q.reqs, r.Ok u) (hqr : ∀ r, q.ret = some r → r.Ok u)
    (hc : Thread (ProcMeans u I tight) e q.call.toList cs e1) (hr : PortionReads u I tight e1 (.reqs q.reqs) (.clauses ds) e2)
    (he : Thread (fun e (r : RetReq) c e' => ∃ b, BodyMeans u I tight e (r.result u) b e' ∧ c = .return_ b) e2 q.ret.toList es e3) :
    ∃ ts, Seg u e (q.parts u) e3 ts ∧ ∀ r, Border [c!"union"] r → Border starters (ts ++ r) ∧ RClauses I tight (ts ++ r) (cs ++ ds ++ es) r := by
  obtain ⟨ts, t1, t2⟩ := hr hq
  have hfirst : ∃ us, SegA u e (q.call.toList.flatMap ProcReq.parts ++ q.reqs.flatMap (Req.parts u)) e2 us ∧ ∀ r, Border starters r → Border starters (us ++ r) ∧ ∀ ds' r', RClauses I tight r ds' r' → RClauses I tight (us ++ r) (cs ++ ds ++ ds') r' := by
    cases hcall : q.call with
    | none =>
      rw [hcall] at hc
      cases hc
      exact ⟨ts, t1, t2⟩
    | some p =>
      rw [hcall] at hc
      cases hc with
      | cons h h' =>
        cases h'
        simpa using clauses_cons (proc_clause h) t1 t2
  obtain ⟨us, u1, u2⟩ := hfirst
  cases hret : q.ret with
  | none =>
    rw [hret] at he
    cases he
    refine ⟨us, ?_, fun r hb => ?_⟩
    · simpa [Query.parts, hret] using u1.seg
    · obtain ⟨h1, h2⟩ := u2 r (hb.mono (by decide))
      exact ⟨h1, h2 [] r (RClauses.nil hb.ends)⟩
  | some p =>
    rw [hret] at he
    cases he with
    | cons h h' =>
      cases h'
      obtain ⟨b, hb, rfl⟩ := h
      obtain ⟨tr, r1, r2⟩ := return_reads (hqr p hret).2.items hb
      refine ⟨us ++ .word c!"RETURN" :: tr, ?_, fun r hb => ?_⟩
      · have := u1.then r1
        simpa [Query.parts, hret, RetReq.parts] using this
      · obtain ⟨h1, h2⟩ := u2 (.word c!"RETURN" :: tr ++ r) (Border.word (by decide) _)
        have := h2 _ _ (RClauses.cons (by decide) (r2 r (hb.mono (by decide))) (RClauses.nil hb.ends))
        have e1 : us ++ .word c!"RETURN" :: tr ++ r = us ++ (.word c!"RETURN" :: tr ++ r) := by simp
        rw [e1]
        exact ⟨h1, this⟩

theorem sub_reads {e e' : Env} {s : Stmt} {st : Stat I.D} (h : PortionReads u I tight e (.stmt s) (.stat st) e') :
    ClauseReads u I tight e [.lit c!"CALL {", .hole s.visit, .lit c!"} "] e' (.sub st.first st.more) := by
  obtain ⟨_, ts, ⟨t, h1, h2⟩, h3, _⟩ := h
  refine ⟨c!"CALL", .sym '{' :: (ts ++ [.sym '}']), ?_, by decide, by decide, fun r hr => ?_⟩
  · refine ⟨c!"CALL {" ++ (t ++ c!"} "), ?_, fun r rs hr => ?_⟩
    · simp only [layout, Prod.mk.injEq, List.append_nil] at h1 ⊢
      exact ⟨by rw [h1.1], h1.2⟩
    · have g1 : Tokens u ('}' :: ' ' :: r) (.sym '}' :: rs) := Tokens.sym (by simp [symbols]) (by simp) (Tokens.sp hr)
      have g2 := h2 _ _ (Follow.mark (by decide) _) g1
      have g3 : Tokens u (' ' :: '{' :: (t ++ '}' :: ' ' :: r)) (.sym '{' :: (ts ++ .sym '}' :: rs)) := Tokens.sp (Tokens.sym (by simp [symbols]) (by simp) g2)
      have g4 := Tokens.word (u := u) (w := c!"CALL") (ascii_word (by decide)) (Follow.mark (by decide) _).part g3
      simpa using g4
  · obtain ⟨N, hN⟩ := h3 (.sym '}' :: r) (.inr (.inl ⟨r, rfl⟩))
    refine ⟨N + 1, fun n hn => ?_⟩
    obtain ⟨n, rfl⟩ : ∃ k, n = k + 1 := ⟨n - 1, by omega⟩
    have e1 : .word c!"CALL" :: .sym '{' :: (ts ++ [.sym '}']) ++ r = .word c!"CALL" :: .sym '{' :: (ts ++ .sym '}' :: r) := by simp
    rw [e1, readClause, after_word (by decide)]
    simp only
    rw [hN n (by omega)]
    rfl

theorem union_segs (e : Env) (all : Bool) {ps : List Part} {e' : Env} {ts : List Token} (h : Seg u e ps e' ts) :
    SegS u e (.lit (if all then c!" UNION ALL " else c!" UNION ") :: ps) e' (unionToks all ++ ts) := by
  cases all with
  | false => exact SegS.kw (w := c!"UNION") (by decide) h
  | true =>
    obtain ⟨s, h1, h2⟩ := SegS.kw (w := c!"UNION") (by decide) (Seg.kw (w := c!"ALL") (by decide) h)
    exact ⟨s, by rw [← h1]; simp [layout], h2⟩

theorem means_reads {e e' : Env} {p : Portion} {x : Says I.D} (h : Means u I tight e p x e') : PortionReads u I tight e p x e' := by
  induction h with
  | nil => exact fun _ => ⟨[], SegA.nil _, fun r hr => ⟨hr, fun _ _ h => h⟩⟩
  | clause h _ ih =>
    intro hok
    obtain ⟨ts, t1, t2⟩ := ih fun r hr => hok r (by simp [hr])
    exact clauses_cons (clause_reads (hok _ (by simp)) h) t1 t2
  | sub _ _ ih1 ih2 =>
    intro hok
    obtain ⟨ts, t1, t2⟩ := ih2 fun r hr => hok r (by simp [hr])
    exact clauses_cons (sub_reads ih1) t1 t2
  | @query e e1 e2 e3 q s cs ds es hq hs hn hc _ he ih =>
    obtain ⟨s', g1, g2, _, g4⟩ := C30_statement_partial q hq
    rw [hs] at g1
    simp only [Outcome.ok.injEq, Except.ok.injEq] at g1
    subst g1
    obtain ⟨ts, ⟨t, t1, t2⟩, t3⟩ := query_reads hq.reqs hq.ret hc ih he
    refine ⟨g2, ts, Seg.hole ((g4 e hn).trans t1) t2, fun r hr => ?_, fun _ r hr => t3 r hr⟩
    exact RClauses.queries (t3 r (hr.mono (by simp))).2 hr.noUnion
  | last => exact ⟨by simp, rfl, fun _ => ⟨rfl, rfl⟩, fun h => absurd rfl h⟩
  | @more e e1 e2 q qs cs css _ _ ih1 ih2 =>
    obtain ⟨h1, tq, q1, _, q3⟩ := ih1
    obtain ⟨i1, i4, i2, i3⟩ := ih2
    refine ⟨by simpa using ⟨h1, i1⟩, by simp [i4], by simp, fun _ all => ⟨cs, css, rfl, ?_⟩⟩
    cases qs with
    | nil =>
      obtain ⟨rfl, rfl⟩ := i2 rfl
      refine ⟨tq, q1, fun r hr => ?_⟩
      obtain ⟨r1, r2⟩ := q3 rfl r (hr.mono (by simp))
      exact ⟨r1, r, r2, hr.noUnion⟩
    | cons q' qs =>
      obtain ⟨c, cs', rfl, ts, t1, t2⟩ := i3 (by simp) all
      refine ⟨tq ++ (unionToks all ++ ts), Seg.append q1 (union_segs e1 all t1), fun r hr => ?_⟩
      obtain ⟨r1, m, r2, r3⟩ := t2 r hr
      obtain ⟨b1, b2⟩ := q3 rfl (unionToks all ++ (ts ++ r)) (Border.word (by decide) _)
      rw [List.append_assoc, List.append_assoc]
      refine ⟨b1, _, b2, RUnions.more ?_ r2 r3⟩
      cases all with
      | true => rw [unionOf, unionToks, List.cons_append, after_word (by decide)]; simp [after_word (w := c!"ALL") (k := c!"all") (by decide)]
      | false => rw [unionOf, unionToks, List.cons_append, after_word (by decide)]; simp [r1.after (k := c!"all") (by decide)]
  | @union e e' k ks all qs cs css h2 hs hn _ ih =>
    obtain ⟨i1, i2, _, i3⟩ := ih
    have hne : qs ≠ [] := by rintro rfl; simp at h2
    obtain ⟨c, cs', hc, ts, ⟨t, t1, t2⟩, t3⟩ := i3 hne all
    injection hc with hc1 hc2
    subst hc1 hc2
    obtain ⟨v, v1, v2⟩ := C35_union (e := e) k ks all qs h2 fun q hq => ⟨i1 q hq, hs q hq⟩
    have hv : (unionImpl k ks all qs).visit = v := by rw [v1]; rfl
    rw [hv] at hn
    have hl := v2 fun k' hk' => hn k' (by
      simp only [List.mem_cons, List.mem_map, List.mem_range, List.mem_append, List.not_mem_nil, or_false] at hk' ⊢
      rcases hk' with h | ⟨i, hi, h⟩
      · exact .inl h
      · exact .inr ⟨i, by omega, h⟩)
    refine ⟨by rw [v1]; rfl, ts, Seg.hole ?_ t2, fun r hr => ?_, ?_⟩
    · rw [hv, hl, ← t1, unionParts, List.map_map]
      rfl
    · obtain ⟨_, m, m1, m2⟩ := t3 r hr
      exact RClauses.queries m1 m2
    · intro hm
      simp only [List.map_eq_nil_iff] at hm
      subst hm
      simp only [List.length_cons, List.length_nil] at i2
      omega

end Verif.Rd
