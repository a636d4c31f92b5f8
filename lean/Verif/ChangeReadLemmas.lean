import Verif.ClauseReadLemmas

/-
SET, REMOVE, DELETE, the actions of MERGE, and procedure calls are read with their meaning.
-/

namespace Verif.Rd

open Spec

variable {u : Unicode} {I : Meaning} {tight : Bool}

/-! ### Targets -/

theorem labelsOf_rest (w : Str) : ∀ (n : Nat) (zs : List Token), zs.length ≤ n → (labelsOf (zs ++ [.sym '.', .word w])).2 ≠ [] := by
  intro n
  induction n with
  | zero =>
    intro zs hz
    obtain rfl : zs = [] := by simpa using hz
    simp [labelsOf]
  | succ n ih =>
    intro zs hz
    rcases zs with _ | ⟨z, _ | ⟨z', zs⟩⟩
    · simp [labelsOf]
    · cases z <;> simp [labelsOf]
    · have := ih zs (by simp at hz; omega)
      simp only [List.cons_append]
      unfold labelsOf
      split
      · next h =>
        simp only [List.cons.injEq] at h
        rw [← h.2.2]
        exact this
      · next h =>
        simp only [List.cons.injEq] at h
        rw [← h.2.2]
        exact this
      · simp

/-- A name at the beginning. -/
theorem readAtom_var {t : Token} {x : Str} {ts r : List Token} (h : varOf (t :: ts) = some (x, ts)) (ht : ts = .sym ':' :: r) (n : Nat) :
    readAtom I tight (n + 1) (t :: ts) = some (I.name x, ts) := by
  subst ht
  cases t with
  | quoted y =>
    simp only [varOf, Option.some.injEq, Prod.mk.injEq, and_true] at h
    subst h
    simp [readAtom]
  | word y =>
    simp only [varOf] at h
    split at h
    · cases h
    · next hy =>
      simp only [Option.some.injEq, Prod.mk.injEq, and_true] at h
      subst h
      simp only [not_or] at hy
      have g1 : lower y ≠ c!"true" := fun g => hy.1 (by rw [g]; decide)
      have g2 : lower y ≠ c!"false" := fun g => hy.1 (by rw [g]; decide)
      have g3 : lower y ≠ c!"null" := fun g => hy.1 (by rw [g]; decide)
      have g4 : lower y ≠ c!"case" := fun g => hy.1 (by rw [g]; decide)
      rw [readAtom.eq_def]
      simp [g1, g2, g3, g4, hy.1, hy.2]
  | _ => simp [varOf] at h

/-- What is read as an operand of the highest level is no variable with labels. -/
theorem labelled_none {ts : List Token} {d : I.D} (h : Prefix I tight 11 ts d) (hh : Head 11 ts) {r : List Token} (hr : r.head? ≠ some (.sym ':')) : labelled (ts ++ r) = none := by
  obtain ⟨t, ts', rfl, _⟩ := hh
  unfold labelled
  split
  · next x r' hv =>
    have hv' : varOf (t :: (ts' ++ r)) = some (x, ts' ++ r) ∧ ts' ++ r = .sym ':' :: r' := by
      cases t with
      | quoted y =>
        simp only [List.cons_append, varOf, Option.some.injEq, Prod.mk.injEq] at hv
        simp only [varOf, hv, and_self]
      | word y =>
        simp only [List.cons_append, varOf] at hv
        split at hv
        · cases hv
        · next hy =>
          simp only [Option.some.injEq, Prod.mk.injEq] at hv
          obtain ⟨rfl, hv⟩ := hv
          refine ⟨?_, hv⟩
          simp only [varOf]
          rw [if_neg hy]
      | _ => simp [varOf] at hv
    obtain ⟨hv, he⟩ := hv'
    cases ts' with
    | nil =>
      rw [List.nil_append] at he
      rw [he] at hr
      simp at hr
    | cons t' ts' =>
      simp only [List.cons_append, List.cons.injEq] at he
      obtain ⟨rfl, _⟩ := he
      exfalso
      have hd : RE I tight 11 ((t :: .sym ':' :: ts') ++ [.sym '.', .word c!"x"]) (I.prop d c!"x") [] := by
        refine h _ _ _ ⟨fun i _ _ => by omega, fun _ => by omega, by simp, by simp⟩ ?_
        exact ⟨2, fun n hn => by
          obtain ⟨n, rfl⟩ : ∃ k, n = k + 2 := ⟨n - 2, by omega⟩
          simp [readPostfix]⟩
      obtain ⟨N, hN⟩ := hd
      have hN := hN (N + 3) (by omega)
      rw [readExpr.eq_def] at hN
      have hv2 : varOf (t :: (.sym ':' :: ts' ++ [.sym '.', .word c!"x"])) = some (x, .sym ':' :: ts' ++ [.sym '.', .word c!"x"]) := by
        cases t with
        | quoted y => simpa [varOf] using hv
        | word y =>
          simp only [varOf] at hv ⊢
          split at hv
          · cases hv
          · next hy =>
            rw [if_neg hy]
            simpa using hv
        | _ => simp [varOf] at hv
      have ha := readAtom_var (I := I) (tight := tight) hv2 (r := ts' ++ [.sym '.', .word c!"x"]) rfl (N + 1)
      simp only [List.cons_append] at hN ha
      simp [ha] at hN
      rw [readPostfix.eq_def] at hN
      simp only at hN
      have hl := labelsOf_rest c!"x" (ts'.length + 1) (.sym ':' :: ts') (by simp)
      simp only [List.cons_append] at hl
      split at hN <;> simp_all
  · rfl

/-! ### Assignments -/


theorem readSet_assign {ta tb r : List Token} {x y : I.D} (h1 : Prefix I tight 11 ta x) (h2 : Head 11 ta) (h3 : RE I tight 0 (tb ++ r) y r) :
    ∃ N, ∀ n ≥ N, readSet I tight n (ta ++ (.sym '=' :: tb) ++ r) = some (.assign x y, r) := by
  obtain ⟨N1, h⟩ := h1.reads (r := .sym '=' :: (tb ++ r)) (by omega) ⟨fun i _ _ => by omega, fun _ => by simp [NoPostfix], by simp, by simp⟩
  obtain ⟨N2, h'⟩ := h3
  refine ⟨N1 + N2, fun n hn => ?_⟩
  have e1 : ta ++ (.sym '=' :: tb) ++ r = ta ++ .sym '=' :: (tb ++ r) := by simp
  rw [e1, readSet, labelled_none h1 h2 (by simp)]
  simp only
  rw [h n (by omega)]
  simp only [Option.bind_some]
  rw [h' n (by omega)]
  rfl

theorem readSet_add {ta tb r : List Token} {x y : I.D} (h1 : Prefix I tight 11 ta x) (h2 : Head 11 ta) (h3 : RE I tight 0 (tb ++ r) y r) :
    ∃ N, ∀ n ≥ N, readSet I tight n (ta ++ (.sym '+' :: .sym '=' :: tb) ++ r) = some (.add x y, r) := by
  obtain ⟨N1, h⟩ := h1.reads (r := .sym '+' :: .sym '=' :: (tb ++ r)) (by omega) ⟨fun i _ _ => by omega, fun _ => by simp [NoPostfix], by simp, by simp⟩
  obtain ⟨N2, h'⟩ := h3
  refine ⟨N1 + N2, fun n hn => ?_⟩
  have e1 : ta ++ (.sym '+' :: .sym '=' :: tb) ++ r = ta ++ .sym '+' :: .sym '=' :: (tb ++ r) := by simp
  rw [e1, readSet, labelled_none h1 h2 (by simp)]
  simp only
  rw [h n (by omega)]
  simp only [Option.bind_some]
  rw [h' n (by omega)]
  rfl

theorem SegS.symbol {e e' : Env} {ps : List Part} {ts us : List Token} {o : Str} (ho : ∀ s, Lexes u s ts → Lexes u (o ++ s) (us ++ ts)) (hm : ∃ c r, o = c :: r ∧ Rd.mark c = true)
    (h : Seg u e ps e' ts) : SegS u e (.lit o :: ps) e' (us ++ ts) := by
  obtain ⟨s, h1, h2⟩ := h
  obtain ⟨c, o', rfl, hc⟩ := hm
  refine ⟨(c :: o') ++ s, by simp [layout, h1], ho s h2, fun r _ => Follow.mark hc _⟩

theorem set_reads {ws : List Str} (hw : ∀ w ∈ ws, w ∉ opWords) {e : Env} {a : SetArg} {x : SetItem I.D} (h : SetMeans u I tight e a x) :
    ∃ ts, Seg u e a.parts e ts ∧ Item (ItemEnd ws) (readSet I tight) ts x := by
  have eqSeg : ∀ {ps : List Part} {ts : List Token}, Seg u e ps e ts → SegS u e (.lit c!" = " :: ps) e (.sym '=' :: ts) := fun h =>
    SegS.symbol (us := [.sym '=']) (fun s hs r rs hf hr => Tokens.sp (Tokens.sym (by simp [symbols]) (by simp) (Tokens.sp (hs r rs hf hr)))) ⟨' ', _, rfl, by decide⟩ h
  have addSeg : ∀ {ps : List Part} {ts : List Token}, Seg u e ps e ts → SegS u e (.lit c!" += " :: ps) e (.sym '+' :: .sym '=' :: ts) := fun h =>
    SegS.symbol (us := [.sym '+', .sym '=']) (fun s hs r rs hf hr => Tokens.sp (Tokens.sym (by simp [symbols]) (by simp) (Tokens.sym (by simp [symbols]) (by simp) (Tokens.sp (hs r rs hf hr))))) ⟨' ', _, rfl, by decide⟩ h
  have opSeg : ∀ {k : Key} {a b : Val} {o : Op} {ts : List Token}, needsGrouping o = false → Good a → Good b → Settled e a.visit → Settled e b.visit → Unaliased e [k, o.key] →
      Seg u e [.hole a.visit, .lit o.text, .hole b.visit] e ts → Seg u e [.hole (operationCreate k (some a) o (some b)).visit] e ts := by
    intro k a b o ts ho ha hb sa sb hu h
    obtain ⟨s, h1, h2⟩ := h
    refine Seg.hole ?_ h2
    rw [operationCreate_ok ha hb, shownAs, Val.mk', operation_layout ((Settled.append.mpr ⟨sa, sb⟩).noAlias hu)]
    simpa [ho] using h1
  cases h with
  | pair ha hb =>
    obtain ⟨s, ta, a1, a2, a3, a4⟩ := ExprMeans.reads ha
    obtain ⟨s', tb, b1, b2, b3, b4⟩ := ExprMeans.below hb
    exact ⟨ta ++ (.sym '=' :: tb), (Seg.hole a1 a2).append (eqSeg (Seg.hole b1 b2)), fun r hr => readSet_assign a3 a4 (b3.reads (by omega) (hr.stops hw))⟩
  | «to» ga gb ha hb hu =>
    obtain ⟨s, ta, a1, a2, a3, a4⟩ := ExprMeans.reads ha
    obtain ⟨s', tb, b1, b2, b3, b4⟩ := ExprMeans.below hb
    exact ⟨ta ++ (.sym '=' :: tb), opSeg rfl ga gb ha.1 hb.1 hu ((Seg.hole a1 a2).append (eqSeg (Seg.hole b1 b2))), fun r hr => readSet_assign a3 a4 (b3.reads (by omega) (hr.stops hw))⟩
  | mutate ga gb ha hb hu =>
    obtain ⟨s, ta, a1, a2, a3, a4⟩ := ExprMeans.reads ha
    obtain ⟨s', tb, b1, b2, b3, b4⟩ := ExprMeans.below hb
    exact ⟨ta ++ (.sym '+' :: .sym '=' :: tb), opSeg rfl ga gb ha.1 hb.1 hu ((Seg.hole a1 a2).append (addSeg (Seg.hole b1 b2))), fun r hr => readSet_add a3 a4 (b3.reads (by omega) (hr.stops hw))⟩

/-- Assignments before words of `ws`. -/
theorem sets_reads {ws : List Str} (hw : ∀ w ∈ ws, w ∉ opWords) {e : Env} {as : List SetArg} {xs : List (SetItem I.D)} (h : List.Forall₂ (SetMeans u I tight e) as xs) (hne : as ≠ []) :
    ∃ ts, SegA u e (setParts as) e (.word c!"SET" :: ts) ∧ ∀ r, Border ws r → RList (readSet I tight) (ts ++ r) xs r := by
  obtain ⟨ts, h1, h2, _⟩ := commaList_reads (u := u) (S := ItemEnd ws) (Q := fun _ => True) (f := SetArg.parts) (p := readSet I tight)
    (fun r => .inr ⟨r, rfl⟩) (fun _ _ _ => trivial) (fun e1 a b e2 h => by
      obtain ⟨rfl, rfl, h⟩ := h
      obtain ⟨ts, t1, t2⟩ := set_reads (ws := ws) hw h
      exact ⟨ts, t1, t2, trivial⟩) (thread_of_forall₂ (e := e) h) hne
  refine ⟨ts, ?_, fun r hr => h2 r (.inl hr) (hr.sym (by decide))⟩
  have := (Seg.kw (w := c!"SET") (by decide) h1).close
  simpa [setParts] using this

/-! ### Removed properties and deleted things -/

theorem rem_reads {ws : List Str} (hw : ∀ w ∈ ws, w ∉ opWords) {e : Env} {vs : List Val} {ds : List I.D} (h : List.Forall₂ (fun v d => ExprMeans (Denotes u I tight) e v d .atom) vs ds)
    (hne : vs ≠ []) : ∃ ts, Seg u e (commas (vs.map (·.visit))) e ts ∧ ∀ r, Border ws r → RList (readRem I tight) (ts ++ r) (ds.map .prop) r := by
  have h' : List.Forall₂ (fun v (x : RemItem I.D) => ∃ d, x = .prop d ∧ ExprMeans (Denotes u I tight) e v d .atom) vs (ds.map .prop) := by
    rw [List.forall₂_map_right_iff]
    exact h.imp fun _ d h => ⟨d, rfl, h⟩
  obtain ⟨ts, h1, h2, _⟩ := commaList_reads (u := u) (S := ItemEnd ws) (Q := fun _ => True) (f := fun v : Val => [.hole v.visit]) (p := readRem I tight)
    (fun r => .inr ⟨r, rfl⟩) (fun _ _ _ => trivial) (fun e1 a b e2 h => by
      obtain ⟨rfl, rfl, d, rfl, h⟩ := h
      obtain ⟨s, ta, a1, a2, a3, a4⟩ := ExprMeans.reads h
      refine ⟨ta, Seg.hole a1 a2, fun r hr => ?_, trivial⟩
      obtain ⟨N, hN⟩ := a3.reads (by simp [level]) ((hr.stops (tight := tight) hw).mono (by simp))
      refine ⟨N, fun n hn => ?_⟩
      have hr' : r.head? ≠ some (.sym ':') := by
        rcases hr with hr | ⟨r', rfl⟩
        · exact hr.sym (by decide)
        · simp
      rw [readRem, labelled_none a3 a4 hr']
      simp only
      have hN := hN n hn
      simp only [level] at hN
      rw [hN]
      rfl) (thread_of_forall₂ (e := e) h') hne
  rw [commas_eq]
  exact ⟨ts, h1, fun r hr => h2 r (.inl hr) (hr.sym (by decide))⟩

theorem exprs_reads {ws : List Str} (hw : ∀ w ∈ ws, w ∉ opWords) {e : Env} {vs : List Val} {ds : List I.D} (h : List.Forall₂ (fun v d => ∃ σ, ExprMeans (Denotes u I tight) e v d σ) vs ds)
    (hne : vs ≠ []) : ∃ ts, Seg u e (commas (vs.map (·.visit))) e ts ∧ ∀ r, Border ws r → RList (fun n => readExpr I tight n 0) (ts ++ r) ds r := by
  obtain ⟨ts, h1, h2, _⟩ := commaList_reads (u := u) (S := ItemEnd ws) (Q := fun _ => True) (f := fun v : Val => [.hole v.visit]) (p := fun n => readExpr I tight n 0)
    (fun r => .inr ⟨r, rfl⟩) (fun _ _ _ => trivial) (fun e1 a b e2 h => by
      obtain ⟨rfl, rfl, σ, h⟩ := h
      obtain ⟨s, ta, a1, a2, a3, a4⟩ := ExprMeans.below h
      exact ⟨ta, Seg.hole a1 a2, fun r hr => a3.reads (by omega) (hr.stops hw), trivial⟩) (thread_of_forall₂ (e := e) h) hne
  rw [commas_eq]
  exact ⟨ts, h1, fun r hr => h2 r (.inl hr) (hr.sym (by decide))⟩

/-- Arguments in parentheses. -/
theorem arguments_reads {e : Env} {vs : List Val} {ds : List I.D} (h : List.Forall₂ (fun v d => ∃ σ, ExprMeans (Denotes u I tight) e v d σ) vs ds) (hne : vs ≠ []) :
    ∃ ts, Seg u e (commas (vs.map (·.visit))) e ts ∧ (∀ r, RArgs1 I tight ')' (ts ++ .sym ')' :: r) ds r) ∧ Head 0 ts := by
  induction h with
  | nil => exact absurd rfl hne
  | @cons v d vs ds h1 h2 ih =>
    obtain ⟨σ, h1⟩ := h1
    obtain ⟨s, ts, s1, s2, s3, s4⟩ := ExprMeans.below h1
    cases h2 with
    | nil => exact ⟨ts, Seg.hole s1 s2, fun r => RArgs1.last (s3.reads (by omega) (Stops.close (by simp) 0 r)), s4⟩
    | @cons v' d' vs ds h3 h4 =>
      obtain ⟨us, i1, i2, _⟩ := ih (by simp)
      refine ⟨ts ++ (.sym ',' :: us), ?_, fun r => ?_, s4.append _⟩
      · rw [commas_eq] at i1 ⊢
        simp only [List.map_cons, sepParts] at i1 ⊢
        refine Seg.append (Seg.hole s1 s2) ?_
        obtain ⟨s', t1, t2⟩ := i1
        refine ⟨',' :: ' ' :: s', by simp [layout, t1], ?_, fun r _ => Follow.mark (by decide) _⟩
        intro r rs hf hr
        exact Tokens.sym (by simp [symbols]) (by simp) (Tokens.sp (t2 r rs hf hr))
      · have := RArgs1.more (close := ')') (by decide) (s3.reads (r := .sym ',' :: (us ++ .sym ')' :: r)) (by omega) (Stops.close (c := ',') (by simp) 0 _)) (i2 r)
        simpa using this

/-! ### Labels -/

theorem labels_reads {x : Str} (hx : VarName u x) {ls : List Str} (hl : ls ≠ []) :
    ∃ ts, Lexes u (escapeIfNecessary u x ++ ls.flatMap fun l => ':' :: escapeName l) ts ∧ ∀ r, r.head? ≠ some (.sym ':') → labelled (ts ++ r) = some ((x, ls), r) := by
  obtain ⟨t, t1, t2, _⟩ := Lexes.name hx.1
  cases ls with
  | nil => exact absurd rfl hl
  | cons l ls =>
    refine ⟨t :: ((l :: ls).flatMap fun l => [.sym ':', .quoted l]), fun r rs hf hr => ?_, fun r hr => ?_⟩
    · have := t2 _ _ (by simpa using Follow.mark (by decide) _) (labels_lexes (l :: ls) hf hr)
      simpa using this
    · have h := labelsOf_quoted (l :: ls) hr
      have hv := varOf_name t1 hx (((l :: ls).flatMap fun l => [.sym ':', .quoted l]) ++ r)
      simp only [List.flatMap_cons, List.cons_append, List.append_assoc, List.nil_append] at h hv ⊢
      unfold labelled
      rw [hv]
      simp only [h]

/-! ### The actions of MERGE -/

def RActions (I : Meaning) (tight : Bool) (ts : List Token) (xs : List (Bool × List (SetItem I.D))) (r : List Token) : Prop := ∃ N, ∀ n ≥ N, readActions I tight n ts = some (xs, r)

theorem builtFirst_ne {as : List SetArg} (h : as ≠ []) : builtFirst as ≠ [] := by
  cases as with
  | nil => exact absurd rfl h
  | cons a as => cases ha : a.isBuilt <;> simp [builtFirst, List.filter_cons, ha]

theorem actions_reads {e : Env} {as : List ActionReq} {xs : List (Bool × List (SetItem I.D))} (h : List.Forall₂ (ActionMeans u I tight e) as xs) (hne : ∀ a ∈ as, a.args ≠ []) :
    ∃ ts, SegA u e (as.flatMap ActionReq.parts) e ts ∧ ∀ r, Border starters r → RActions I tight (ts ++ r) xs r ∧ Border (c!"on" :: starters) (ts ++ r) := by
  induction h with
  | nil =>
    refine ⟨[], SegA.nil e, fun r hr => ⟨⟨1, fun n hn => ?_⟩, hr.mono (by decide)⟩⟩
    obtain ⟨n, rfl⟩ : ∃ k, n = k + 1 := ⟨n - 1, by omega⟩
    simp [readActions, hr.after (k := c!"on") (by decide)]
  | @cons a x as xs h1 h2 ih =>
    obtain ⟨ts, t1, t2⟩ := ih fun a ha => hne a (by simp [ha])
    obtain ⟨us, u1, u2⟩ := sets_reads (ws := c!"on" :: starters) (by decide) h1.2 (builtFirst_ne (hne a (by simp)))
    rcases x with ⟨b, xs'⟩
    have hb := h1.1
    simp only at hb u2
    cases hty : a.type with
    | onCreate =>
      have hb : b = true := by simpa [hty] using hb
      subst hb
      refine ⟨.word c!"ON" :: .word c!"CREATE" :: .word c!"SET" :: us ++ ts, ?_, fun r hr => ⟨?_, Border.word (by decide) _⟩⟩
      · have g := (SegA.append (SegA.append (SegA.kw e (w := c!"ON") (by decide)) (SegA.kw e (w := c!"CREATE") (by decide))) u1).append t1
        obtain ⟨s, g1, g2⟩ := g
        refine ⟨s, ?_, by simpa using g2⟩
        rw [← g1]
        simp [ActionReq.parts, hty, layout_append, layout]
      · obtain ⟨r1, r2⟩ := t2 r hr
        obtain ⟨N1, n1⟩ := r1
        obtain ⟨N2, n2⟩ := u2 _ r2
        refine ⟨N1 + N2 + 1, fun n hn => ?_⟩
        obtain ⟨n, rfl⟩ : ∃ k, n = k + 1 := ⟨n - 1, by omega⟩
        have e1 : .word c!"ON" :: .word c!"CREATE" :: .word c!"SET" :: us ++ ts ++ r = .word c!"ON" :: .word c!"CREATE" :: .word c!"SET" :: (us ++ (ts ++ r)) := by simp
        rw [e1, readActions, after_word (by decide)]
        simp only
        rw [after_word (w := c!"CREATE") (k := c!"create") (by decide), Option.bind_some, after_word (w := c!"SET") (by decide)]
        simp only
        rw [n2 n (by omega) n (by omega), Option.bind_some, n1 n (by omega)]
        rfl
    | onMatch =>
      have hb : b = false := by simpa [hty] using hb
      subst hb
      refine ⟨.word c!"ON" :: .word c!"MATCH" :: .word c!"SET" :: us ++ ts, ?_, fun r hr => ⟨?_, Border.word (by decide) _⟩⟩
      · have g := (SegA.append (SegA.append (SegA.kw e (w := c!"ON") (by decide)) (SegA.kw e (w := c!"MATCH") (by decide))) u1).append t1
        obtain ⟨s, g1, g2⟩ := g
        refine ⟨s, ?_, by simpa using g2⟩
        rw [← g1]
        simp [ActionReq.parts, hty, layout_append, layout]
      · obtain ⟨r1, r2⟩ := t2 r hr
        obtain ⟨N1, n1⟩ := r1
        obtain ⟨N2, n2⟩ := u2 _ r2
        refine ⟨N1 + N2 + 1, fun n hn => ?_⟩
        obtain ⟨n, rfl⟩ : ∃ k, n = k + 1 := ⟨n - 1, by omega⟩
        have e1 : .word c!"ON" :: .word c!"MATCH" :: .word c!"SET" :: us ++ ts ++ r = .word c!"ON" :: .word c!"MATCH" :: .word c!"SET" :: (us ++ (ts ++ r)) := by simp
        have g : Spec.after c!"create" (.word c!"MATCH" :: .word c!"SET" :: (us ++ (ts ++ r))) = none := by simp [Spec.after, Token.is]; decide
        rw [e1, readActions, after_word (by decide)]
        simp only
        rw [g, after_word (w := c!"MATCH") (k := c!"match") (by decide), Option.bind_some, Option.bind_none, after_word (w := c!"SET") (by decide)]
        simp only
        rw [n2 n (by omega) n (by omega), Option.bind_some, n1 n (by omega)]
        rfl

/-! ### Procedure calls -/

theorem procName_reads {ws : List Str} (hne : ws ≠ []) (hw : ∀ w ∈ ws, isIdentifier u w = true) :
    ∃ ts, (∃ w ts', ts = .word w :: ts') ∧ (∀ r rs, Tokens u ('(' :: r) rs → Tokens u (join c!"." ws ++ '(' :: r) (ts ++ rs)) ∧ ∀ r, Spec.procName (ts ++ .sym '(' :: r) = some (ws, .sym '(' :: r) := by
  induction ws with
  | nil => exact absurd rfl hne
  | cons w ws ih =>
    cases ws with
    | nil =>
      refine ⟨[.word w], ⟨w, [], rfl⟩, fun r rs h => ?_, fun r => by simp [Spec.procName]⟩
      have := Tokens.ident (hw w (by simp)) (s := '(' :: r) (fun c r' h => by injection h with h1; subst h1; exact (Follow.mark (u := u) (c := '(') (by decide) r).part '(' r rfl) h
      simpa [join] using this
    | cons w' ws =>
      obtain ⟨ts, ⟨v, ts', rfl⟩, i1, i2⟩ := ih (by simp) fun x hx => hw x (by simp [hx])
      refine ⟨.word w :: .sym '.' :: .word v :: ts', ⟨w, _, rfl⟩, fun r rs h => ?_, fun r => ?_⟩
      · have g := Tokens.sym (u := u) (c := '.') (by simp [symbols]) (by simp) (i1 r rs h)
        have := Tokens.ident (hw w (by simp)) (s := '.' :: (join c!"." (w' :: ws) ++ '(' :: r)) (fun c r' h => by injection h with h1; subst h1; exact mark_not_part (by decide)) g
        simpa [join] using this
      · have := i2 r
        simp only [List.cons_append] at this ⊢
        rw [Spec.procName, this]
        rfl

theorem yield_shown {e : Env} {k ka : Key} {x a : Str} (hx : x ≠ []) (ha : a ≠ []) (h1 : e.al k = none) (h2 : e.al ka = none) :
    shownAs e (aliasedCreate u ka (some (symbolicName u k x)) a).visit = (escapeIfNecessary u x ++ (c!" AS " ++ escapeIfNecessary u a),
      { e with al := fun k' => if k' = k then some ⟨ka, k, escapeIfNecessary u a⟩ else e.al k' }) := by
  have h := alias_shown (u := u) (e := e) (e' := e) (v := symbolicName u k x) (k := ka) (a := a) (s := escapeIfNecessary u x) (by simp [symbolicName, hx, Val.mk']) (by simp [symbolicName, hx, Val.mk']) ha h2
    (by simpa [symbolicName, hx, Val.mk'] using h1) (by simp [symbolicName, hx, Val.mk', shownAs, leaf, nd, denL, den, shown, h1, described, defined, Vis.asAlias, sepText]) rfl
  rw [h]
  simp [symbolicName, hx, Val.mk']

theorem yield_reads {ws : List Str} (h1 : c!"as" ∉ ws) {e e' : Env} {v : Val} {x : Str × Option Str} (h : YieldMeans u e v x e') :
    ∃ ts, Seg u e [.hole v.visit] e' ts ∧ Item (ItemEnd ws) (fun _ => yieldOf) ts x := by
  cases h with
  | @name k x hx hk =>
    obtain ⟨t, t1, t2, _⟩ := Lexes.name hx.1
    have hx' := name_ne hx.1
    refine ⟨[t], Seg.hole (s := escapeIfNecessary u x) (by simp [symbolicName, hx', Val.mk', shownAs, leaf, nd, denL, den, shown, hk, described, defined, Vis.asAlias, sepText]) t2, fun r hr => ⟨0, fun n _ => ?_⟩⟩
    change yieldOf ([t] ++ r) = _
    rw [List.singleton_append, yieldOf, varOf_name t1 hx]
    simp [hr.after h1]
  | @«alias» k ka x a hx ha hk hka =>
    obtain ⟨t, t1, t2, _⟩ := Lexes.name hx.1
    obtain ⟨t', t3, t4, _⟩ := Lexes.name ha.1
    refine ⟨[t] ++ [.word c!"AS", t'], Seg.hole (yield_shown (name_ne hx.1) (name_ne ha.1) hk hka) (t2.as t4), fun r hr => ⟨0, fun n _ => ?_⟩⟩
    have e1 : [t] ++ [.word c!"AS", t'] ++ r = t :: .word c!"AS" :: t' :: r := rfl
    change yieldOf _ = _
    rw [e1, yieldOf, varOf_name t1 hx]
    simp only [Option.bind_some, after_word (w := c!"AS") (k := c!"as") (by decide), varOf_name t3 ha]
    rfl

theorem yields_reads {e e' : Env} {vs : List Val} {ys : List (Str × Option Str)} (h : Thread (YieldMeans u) e vs ys e') :
    ∃ ts, SegS u e (if vs = [] then [] else .lit c!" YIELD " :: commas (vs.map (·.visit))) e' ts ∧
      ∀ r, Border (c!"where" :: starters) r → (∃ N, ∀ n ≥ N, readYield n (ts ++ r) = some (ys, r)) := by
  by_cases hs : vs = []
  · subst hs
    cases h
    refine ⟨[], SegS.nil e, fun r hr => ⟨0, fun n _ => ?_⟩⟩
    simp [readYield, hr.after (k := c!"yield") (by decide)]
  · rw [if_neg hs]
    obtain ⟨ts, h1, h2, _⟩ := commaList_reads (u := u) (S := ItemEnd (c!"where" :: starters)) (Q := fun _ => True) (f := fun v : Val => [.hole v.visit]) (p := fun _ => yieldOf)
      (fun r => .inr ⟨r, rfl⟩) (fun _ _ _ => trivial) (fun e1 a b e2 h => by
        obtain ⟨ts, t1, t2⟩ := yield_reads (ws := c!"where" :: starters) (by decide) h
        exact ⟨ts, t1, t2, trivial⟩) h hs
    refine ⟨.word c!"YIELD" :: ts, SegS.kw (w := c!"YIELD") (by decide) (by rw [commas_eq]; exact h1), fun r hr => ?_⟩
    obtain ⟨N, hN⟩ := h2 r (.inl hr) (hr.sym (by decide))
    refine ⟨N, fun n hn => ?_⟩
    rw [List.cons_append, readYield, after_word (by decide)]
    exact hN n hn n hn

theorem proc_reads {e e' : Env} {q : ProcReq} {c : Spec.Clause I.D} (h : ProcMeans u I tight e q c e') :
    ∃ ts, SegA u e q.parts e' (.word c!"CALL" :: ts) ∧ (∃ w ts', ts = .word w :: ts') ∧ ∀ r, Border starters r → ∃ N, ∀ n ≥ N, readCall I tight n (ts ++ r) = some (c, r) := by
  cases h with
  | @mk _ _ _ ws ds ys c hn ha hy hc =>
    obtain ⟨tn, n1, n2, n3⟩ := procName_reads (u := u) hn.1 hn.2.1
    obtain ⟨ty, y1, y2⟩ := yields_reads hy
    obtain ⟨tc, c1, c2⟩ := cond_reads hc
    have harg : ∃ ts, Seg u e (commas (q.args.map (·.visit))) e ts ∧ ∀ r, RArgs I tight ')' (ts ++ .sym ')' :: r) ds r := by
      by_cases hq : q.args = []
      · rw [hq] at ha ⊢
        cases ha
        exact ⟨[], (SegS.nil e).seg, fun r => RArgs.nil ')' r⟩
      · obtain ⟨ts, a1, a2, a3⟩ := arguments_reads ha hq
        exact ⟨ts, a1, fun r => RArgs.some (a3.sym_ne (by decide) _) (a2 r)⟩
    obtain ⟨ta, a1, a2⟩ := harg
    have h1 : SegS u e ([.lit c!")"] ++ ((if q.yields = [] then [] else .lit c!" YIELD " :: commas (q.yields.map (·.visit))) ++ whereParts q.cond)) e' ([.sym ')'] ++ (ty ++ tc)) :=
      SegS.symbol (us := [.sym ')']) (fun s hs r rs hf hr => Tokens.sym (by simp [symbols]) (by simp) (hs r rs hf hr)) ⟨')', _, rfl, by decide⟩ (y1.append c1).seg
    obtain ⟨s, l1, l2⟩ := a1.append h1
    have h2 : Seg u e (.lit q.name :: .lit c!"(" :: (commas (q.args.map (·.visit)) ++ ([.lit c!")"] ++
        ((if q.yields = [] then [] else .lit c!" YIELD " :: commas (q.yields.map (·.visit))) ++ whereParts q.cond)))) e' (tn ++ .sym '(' :: (ta ++ .sym ')' :: (ty ++ tc))) := by
      refine ⟨q.name ++ '(' :: s, by simp only [layout, l1]; rfl, fun r rs hf hr => ?_⟩
      have := n2 (s ++ r) _ (Tokens.sym (by simp [symbols]) (by simp) (l2 r rs hf hr))
      rw [hn.2.2]
      simpa using this
    refine ⟨tn ++ .sym '(' :: (ta ++ .sym ')' :: (ty ++ tc)), ?_, ?_, ?_⟩
    · have := (Seg.kw (w := c!"CALL") (by decide) h2).close
      simpa [ProcReq.parts] using this
    · obtain ⟨w, ts', rfl⟩ := n1
      exact ⟨w, _, rfl⟩
    · intro r hr
      obtain ⟨⟨N1, r1⟩, r2⟩ := c2 r hr
      obtain ⟨N2, r3⟩ := y2 _ r2
      obtain ⟨N3, r4⟩ := a2 (ty ++ (tc ++ r))
      refine ⟨N1 + N2 + N3, fun n hn => ?_⟩
      have e1 : tn ++ .sym '(' :: (ta ++ .sym ')' :: (ty ++ tc)) ++ r = tn ++ .sym '(' :: (ta ++ .sym ')' :: (ty ++ (tc ++ r))) := by simp
      rw [e1, readCall, n3]
      simp only [Option.bind_some]
      rw [r4 n (by omega)]
      simp only [Option.bind_some]
      rw [r3 n (by omega)]
      simp only [Option.bind_some]
      rw [r1 n (by omega)]
      rfl

end Verif.Rd
