import Verif.DenoteLemmas2

/-
Expressions built with the DSL are read back as what they mean: maps, CASE, quantifiers, comprehensions.
-/

namespace Verif.Rd
open Spec

variable {u : Unicode} {I : Meaning} {tight : Bool}

/-! ### Maps -/

theorem Text.leaf {k : Key} {t s : Str} {c : Bool} {tag : Tag} (h : Text (.mk' k [leaf k t] c tag) s) : s = t := by
  have := h Env.empty (fun _ => rfl)
  simp [shownAs, Val.mk', Verif.leaf, nd, denL, den, shown, Env.empty, sepText, described, defined, Vis.asAlias] at this
  exact this.symm

/-- What is known of the value of an entry. -/
def ValueReads (u : Unicode) (I : Meaning) (tight : Bool) (o : Obj) (d : I.D) : Prop :=
  ∃ s ts, Shows (objParts o) s ∧ Lexes u s ts ∧ Prefix I tight 0 ts d ∧ Head 0 ts

theorem ValueReads.leaf {o : Obj} {k : Key} {t : Str} {d : I.D} {σ : CallKind} {c : Bool} {tag : Tag} (h : Good' u I tight (.mk' k [leaf k t] c tag) d σ)
    (ho : objParts o = [.lit t]) : ValueReads u I tight o d := by
  obtain ⟨s, ts, h1, h2, h3, h4, _⟩ := h.below
  have := h1.leaf
  subst this
  refine ⟨s ++ [], ts, ?_, by simpa using h2, h3, h4⟩
  rw [ho]
  exact Shows.lit _ Shows.nil

theorem literal_reads {o : Obj} {d : I.D} (h : LiteralMeans I o d) : ValueReads u I tight o d := by
  cases h with
  | nil => exact ValueReads.leaf null_good rfl
  | str s => exact ValueReads.leaf (str_good 1 s) rfl
  | int i hi => exact ValueReads.leaf (int_good 1 i hi) rfl
  | bool b => exact ValueReads.leaf (bool_good 1 b) (by cases b <;> rfl)
  | float neg m e hf =>
    obtain ⟨t, ht, _⟩ := (C51_exact neg m e).mpr hf
    have hv : floatLiteral 1 (.fin neg m e) = .ok (.mk' 1 [Verif.leaf 1 t]) := by simp [floatLiteral, ht]
    exact ValueReads.leaf (float_good hv hf) (by simp [objParts, ht])

theorem literal_supported {k : Key} {o : Obj} {d : I.D} (h : LiteralMeans I o d) : dkeysL (objTm k o).trees = [] := by
  cases h <;> simp [objTm, Tm.trees, Tm.treesL, dkeysL, dkeys_nd]

theorem entries_reads (x : MeantEntry I) (es : List (MeantEntry I)) (hk : ∀ y ∈ x :: es, Named u y.key)
    (hx : ∀ y ∈ x :: es, ValueReads u I tight y.value y.d) :
    ∃ s ts, Shows (sepParts c!", " ((x :: es).map fun x => [.lit (escapeIfNecessary u x.key), .lit c!": "] ++ objParts x.value)) s ∧
      (∀ r rs, Tokens u r rs → Tokens u (s ++ '}' :: r) (ts ++ .sym '}' :: rs)) ∧
      (∀ r, REntries I tight (ts ++ .sym '}' :: r) ((x :: es).map fun x => (x.key, x.d)) r) ∧
      ∃ t r, ts = t :: .sym ':' :: r ∧ IsName t x.key := by
  induction es generalizing x with
  | nil =>
    obtain ⟨s, ts, h1, h2, h3, h4⟩ := hx x (by simp)
    obtain ⟨t, ht, hl, _⟩ := Lexes.name (hk x (by simp))
    refine ⟨escapeIfNecessary u x.key ++ (c!": " ++ s), t :: .sym ':' :: ts, ?_, fun r rs hr => ?_, fun r => ?_, t, ts, rfl, ht⟩
    · exact Shows.lit _ (Shows.lit _ h1)
    · simp only [List.append_assoc, List.cons_append, List.nil_append]
      exact hl _ _ (Follow.mark (by decide) _) (Tokens.sym (by simp [symbols]) (by simp) (Tokens.sp (h2 _ _ (Follow.mark (by decide) _)
        (Tokens.sym (by simp [symbols]) (by simp) hr))))
    · exact REntries.last ht (h3.reads (by omega) (Stops.close (by simp) _ _))
  | cons y ys ih =>
    obtain ⟨s, ts, h1, h2, h3, h4⟩ := hx x (by simp)
    obtain ⟨t, ht, hl, _⟩ := Lexes.name (hk x (by simp))
    obtain ⟨s', ts', g1, g2, g3, _⟩ := ih y (fun z hz => hk z (List.mem_cons_of_mem _ hz)) (fun z hz => hx z (List.mem_cons_of_mem _ hz))
    refine ⟨escapeIfNecessary u x.key ++ (c!": " ++ s) ++ (c!", " ++ s'), t :: .sym ':' :: (ts ++ .sym ',' :: ts'), ?_, fun r rs hr => ?_, fun r => ?_, t, _, rfl, ht⟩
    · exact Shows.append (Shows.lit _ (Shows.lit _ h1)) (Shows.lit _ g1)
    · simp only [List.append_assoc, List.cons_append, List.nil_append]
      exact hl _ _ (Follow.mark (by decide) _) (Tokens.sym (by simp [symbols]) (by simp) (Tokens.sp (h2 _ _ (Follow.mark (by decide) _)
        (Tokens.sym (by simp [symbols]) (by simp) (Tokens.sp (g2 r rs hr))))))
    · simp only [List.append_assoc, List.cons_append, List.nil_append]
      exact REntries.more ht (h3.reads (by omega) (Stops.close (by simp) _ _)) (g3 r)

theorem entryArgs_inj {as bs : List Entry} (h : entryArgs as = entryArgs bs) : as = bs := by
  induction as generalizing bs with
  | nil => cases bs with
    | nil => rfl
    | cons b bs => simp [entryArgs] at h
  | cons a as ih => cases bs with
    | nil => simp [entryArgs] at h
    | cons b bs =>
      simp only [entryArgs, List.flatMap_cons, List.cons_append, List.nil_append, List.cons.injEq, Obj.str.injEq] at h
      obtain ⟨h1, h2, h3⟩ := h
      have := ih h3
      cases a; cases b
      simp_all

theorem map_reads {k : Key} {ks : Nat → Key} {es : List (MeantEntry I)} {v : Val} (hk : ∀ x ∈ es, Named u x.key)
    (he : ∀ x ∈ es, ∀ w, x.value = .expr w → Good' u I tight w x.d x.σ) (hl : ∀ x ∈ es, (∀ w, x.value ≠ .expr w) → LiteralMeans I x.value x.d)
    (hv : newMapExpression u k ks (entryArgs (es.map fun x => ⟨x.key, x.value⟩)) = .ok v) (herr : v.err = none) :
    v.notNil = true ∧ v.isCond = false ∧ Spec.One v.visit ∧ dkeysL v.visit = [] ∧ ∃ s ts, Text v s ∧ Lexes u s (.sym '{' :: ts) ∧
      ∀ r, RA I tight (.sym '{' :: ts ++ r) (I.map (es.map fun x => (x.key, x.d))) r := by
  obtain ⟨es', h1, hn, hs⟩ := (C23_accepted u k ks _).mp ⟨v, hv, herr⟩
  have := entryArgs_inj h1
  subst this
  have hvr : ∀ x ∈ es, ValueReads u I tight x.value x.d := by
    intro x hx
    by_cases h : ∃ w, x.value = .expr w
    · obtain ⟨w, hw⟩ := h
      obtain ⟨s, ts, g1, g2, g3, g4, _⟩ := (he x hx w hw).below
      refine ⟨s ++ [], ts, ?_, by simpa using g2, g3, g4⟩
      rw [hw]
      exact Shows.hole g1 Shows.nil
    · exact literal_reads (hl x hx (fun w hw => h ⟨w, hw⟩))
  have hobj : ∀ x ∈ es, ∀ k, dkeysL (objTm k x.value).trees = [] := by
    intro x hx k
    by_cases h : ∃ w, x.value = .expr w
    · obtain ⟨w, hw⟩ := h
      rw [hw]
      simp [objTm, Tm.trees, (he x hx w hw).dk]
    · exact literal_supported (hl x hx (fun w hw => h ⟨w, hw⟩))
  obtain ⟨f1, f2, f3, f4⟩ := entryTms_facts u ks 0 (es.map fun x => ⟨x.key, x.value⟩) hs
  have hdkt : ∀ i, dkeysL (Tm.treesL (entryTms u ks i (es.map fun x => ⟨x.key, x.value⟩))) = [] := by
    clear hv herr hn hs hk he hl hvr f1 f2 f3 f4 h1
    induction es with
    | nil => intro i; rfl
    | cons x es ih =>
      intro i
      simp only [List.map_cons, entryTms, Tm.treesL, Tm.trees, List.append_nil]
      rw [dkeysL_append, ih (fun y hy => hobj y (List.mem_cons_of_mem _ hy)) (i + 1)]
      simp [dkeysL, dkeys_nd, dkeys, hobj x (by simp)]
  have hlen : (entryArgs (es.map fun x => (⟨x.key, x.value⟩ : Entry))).length % 2 = 0 := by
    rw [newMapExpression] at hv
    split at hv
    · cases hv
      simp [Val.bad] at herr
    · omega
  have hv' : v = .mk' k [nd k c!"{" c!"}" true (visitsOf (entryVals u ks 0 (es.map fun x => ⟨x.key, x.value⟩)))] := by
    have hv2 := hv
    rw [newMapExpression, if_neg (by omega), mapEntries_ok u ks [] 0 _ hs hn (by simp)] at hv2
    simp only [Outcome.map, Outcome.ok.injEq] at hv2
    rw [← hv2]
    simp [mapExpression, (errsOf_none_iff _).mpr f4, Val.mk']
  have hdk : dkeysL v.visit = [] := by
    rw [hv']
    simp only [Val.mk', dkeysL_nd]
    rw [f1]
    exact hdkt 0
  have htext := fun (e : Env) (h : Free e) => C23_text (e := e) u k ks (es.map fun x => ⟨x.key, x.value⟩) hn hs v hv (fun k' _ => ⟨h k', by simp [hdk]⟩)
  have hsum : ∃ s ts, Shows ([.lit c!"{"] ++ sepParts c!", " ((es.map fun x => (⟨x.key, x.value⟩ : Entry)).map fun x => [.lit (escapeIfNecessary u x.key), .lit c!": "] ++
      objParts x.value) ++ [.lit c!"}"]) s ∧ Lexes u s (.sym '{' :: ts) ∧ ∀ r, RA I tight (.sym '{' :: ts ++ r) (I.map (es.map fun x => (x.key, x.d))) r := by
    rw [List.map_map]
    cases es with
    | nil =>
      refine ⟨c!"{" ++ (c!"}" ++ []), [.sym '}'], Shows.lit _ (Shows.lit _ Shows.nil), ?_, ?_⟩
      · intro r rs hf ht
        exact Tokens.sym (by simp [symbols]) (by simp) (Tokens.sym (by simp [symbols]) (by simp) ht)
      · refine fun r => ⟨1, fun n hn => ?_⟩
        obtain ⟨n, rfl⟩ := Nat.exists_eq_add_of_le' hn
        rw [readAtom.eq_def]
        rfl
    | cons x es =>
      obtain ⟨s, ts, g1, g2, g3, t, r', rfl, g5⟩ := entries_reads x es hk hvr
      refine ⟨c!"{" ++ (s ++ (c!"}" ++ [])), t :: .sym ':' :: r' ++ [.sym '}'], ?_, ?_, ?_⟩
      · exact Shows.lit _ (Shows.append g1 (Shows.lit _ Shows.nil))
      · intro r rs hf ht
        simp only [List.append_assoc, List.cons_append, List.nil_append]
        exact Tokens.sym (by simp [symbols]) (by simp) (g2 _ _ ht)
      · intro r
        simp only [List.append_assoc, List.cons_append, List.nil_append]
        refine RA.map (g3 r) ?_
        rcases g5 with rfl | rfl <;> simp
  obtain ⟨s, ts, h1, h2, h3⟩ := hsum
  exact ⟨by rw [hv']; rfl, by rw [hv']; rfl, by rw [hv']; exact ⟨_, _, rfl⟩, hdk, s, ts, fun e he => (htext e he).trans (h1 e he), h2, h3⟩

theorem map_good {k : Key} {ks : Nat → Key} {es : List (MeantEntry I)} {v : Val} (hk : ∀ x ∈ es, Named u x.key)
    (he : ∀ x ∈ es, ∀ w, x.value = .expr w → Good' u I tight w x.d x.σ) (hl : ∀ x ∈ es, (∀ w, x.value ≠ .expr w) → LiteralMeans I x.value x.d)
    (hv : newMapExpression u k ks (entryArgs (es.map fun x => ⟨x.key, x.value⟩)) = .ok v) (herr : v.err = none) :
    Good' u I tight v (I.map (es.map fun x => (x.key, x.d))) .atom := by
  obtain ⟨h1, h0, h2, h3, s, ts, h4, h5, h6⟩ := map_reads hk he hl hv herr
  refine ⟨herr, h1, h2, h3, by simp [CallKind.isCondition], s, _, h4, h5, Prefix.atom fun r _ _ => h6 r, Head.sym (by simp) _ _, ?_⟩
  rw [h0]
  refine Soft.extra ⟨NoIn.after _ _, NoPath.head (by simp), fun t r ht _ _ _ => ?_⟩
  exact NotNode.map (h6 (t :: r)) (by simp [ht])

/-! ### CASE -/

theorem kw (w : Str) {r : Str} {rs : List Token} (h : (w != [] && w.all fun c => c.toNat < 128 && c.isAlpha) = true) (ht : Tokens u r rs) :
    Tokens u (w ++ ' ' :: r) (.word w :: rs) :=
  Tokens.word (ascii_word h) (Follow.mark (by decide) _).part (Tokens.sp ht)

/-- The next word ends an expression. -/
def Ends (r : List Token) : Prop := ∃ w x, r = .word w :: x ∧ lower w ∈ [c!"when", c!"then", c!"else", c!"end", c!"where"]

theorem Ends.stops {r : List Token} (h : Ends r) (j : Nat) : Stops tight j r := by
  obtain ⟨w, x, rfl, h⟩ := h
  exact Stops.word h _ _

theorem branches_reads (bs : List (MeantBranch I)) (hw : ∀ b ∈ bs, Good' u I tight b.branch.w b.w b.σw) (ht : ∀ b ∈ bs, Good' u I tight b.branch.t b.t b.σt) :
    ∃ s ts, Shows (bs.flatMap fun b => [.lit c!" WHEN ", .hole b.branch.w.visit, .lit c!" THEN ", .hole b.branch.t.visit]) s ∧
      (∀ r rs, Tokens u (' ' :: r) rs → Tokens u (s ++ ' ' :: r) (ts ++ rs)) ∧
      (∀ subject pre d r r', Ends r → RBranches I tight subject (pre ++ bs.map fun b => (b.w, b.t)) r d r' → RBranches I tight subject pre (ts ++ r) d r') ∧
      (bs ≠ [] → ∃ x, ts = .word c!"WHEN" :: x) ∧ (∀ r, ∃ x, s ++ ' ' :: r = ' ' :: x) ∧ ∀ r, Ends r → Ends (ts ++ r) := by
  induction bs with
  | nil => exact ⟨[], [], Shows.nil, fun r rs h => h, fun subject pre d r r' _ h => by simpa using h, fun h => absurd rfl h, fun r => ⟨r, rfl⟩, fun r h => h⟩
  | cons b bs ih =>
    obtain ⟨s, ts, h1, h2, h3, _, h5, h6⟩ := ih (fun z hz => hw z (List.mem_cons_of_mem _ hz)) (fun z hz => ht z (List.mem_cons_of_mem _ hz))
    obtain ⟨sw, tw, w1, w2, w3, w4, _⟩ := (hw b (by simp)).below
    obtain ⟨st, tt, t1, t2, t3, t4, _⟩ := (ht b (by simp)).below
    refine ⟨c!" WHEN " ++ (sw ++ (c!" THEN " ++ (st ++ s))), .word c!"WHEN" :: (tw ++ .word c!"THEN" :: (tt ++ ts)), ?_, ?_, ?_, fun _ => ⟨_, rfl⟩, fun r => ⟨_, rfl⟩,
      fun r _ => ⟨_, _, rfl, by decide⟩⟩
    · exact Shows.lit _ (Shows.hole w1 (Shows.lit _ (Shows.hole t1 h1)))
    · intro r rs hr
      have e1 : c!" WHEN " = ' ' :: (c!"WHEN" ++ [' ']) := rfl
      have e2 : c!" THEN " = ' ' :: (c!"THEN" ++ [' ']) := rfl
      obtain ⟨x, hx⟩ := h5 r
      have hn := h2 r rs hr
      rw [e1, e2]
      simp only [List.append_assoc, List.cons_append, List.nil_append]
      rw [hx] at hn ⊢
      exact Tokens.sp (kw c!"WHEN" (by decide) (w2 _ _ (Follow.mark (by decide) _) (Tokens.sp (kw c!"THEN" (by decide) (t2 _ _ (Follow.mark (by decide) _) hn)))))
    · intro subject pre d r r' hr h
      simp only [List.append_assoc, List.cons_append]
      refine RBranches.when (by decide) (by decide) (w3.reads (by omega) (Stops.word (by decide) _ _)) (t3.reads (by omega) ((h6 r hr).stops _)) ?_
      refine h3 subject (pre ++ [(b.w, b.t)]) d r r' hr ?_
      simpa using h

theorem case_tail (els : Option (Meant I)) (he : ∀ x, els = some x → Good' u I tight x.v x.d x.σ) :
    ∃ s ts, Shows ((match els.map (·.v) with | some d => [.lit c!" ELSE ", .hole d.visit] | none => []) ++ [.lit c!" END"]) (' ' :: s) ∧
      Lexes u (' ' :: s) ts ∧ (∀ subject bs r, RBranches I tight subject bs (ts ++ r) (I.case subject bs (els.map (·.d))) r) ∧ ∀ r, Ends (ts ++ r) := by
  cases els with
  | none =>
    refine ⟨c!"END" ++ [], [.word c!"END"], by simpa using Shows.lit c!" END" Shows.nil, ?_, fun subject bs r => RBranches.stop (by decide), fun r => ⟨_, _, rfl, by decide⟩⟩
    intro r rs hf ht
    exact Tokens.sp (Tokens.word (w := c!"END") (ascii_word (by decide)) hf.part ht)
  | some x =>
    obtain ⟨s, ts, h1, h2, h3, h4, _⟩ := (he x rfl).below
    refine ⟨c!"ELSE " ++ (s ++ (c!" END" ++ [])), .word c!"ELSE" :: (ts ++ [.word c!"END"]), by simpa using Shows.lit c!" ELSE " (Shows.hole h1 (Shows.lit c!" END" Shows.nil)), ?_, ?_,
      fun r => ⟨_, _, rfl, by decide⟩⟩
    · intro r rs hf ht
      have e1 : c!"ELSE " = c!"ELSE" ++ [' '] := rfl
      have e2 : c!" END" = ' ' :: c!"END" := rfl
      rw [e1, e2]
      simp only [List.append_assoc, List.cons_append, List.nil_append]
      exact Tokens.sp (kw c!"ELSE" (by decide) (h2 _ _ (Follow.mark (by decide) _) (Tokens.sp (Tokens.word (w := c!"END") (ascii_word (by decide)) hf.part ht))))
    · intro subject bs r
      simp only [List.append_assoc, List.cons_append, List.nil_append]
      exact RBranches.els (by decide) (by decide) (h3.reads (by omega) (Stops.word (by decide) _ _))

theorem case_good {k : Key} {subject : Option (Meant I)} {bs : List (MeantBranch I)} {ds : List (Key × Meant I)} {c : CaseV}
    (hs : ∀ s, subject = some s → Good' u I tight s.v s.d s.σ) (hw : ∀ b ∈ bs, Good' u I tight b.branch.w b.w b.σw)
    (ht : ∀ b ∈ bs, Good' u I tight b.branch.t b.t b.σt) (h0 : bs ≠ []) (hd : ∀ x ∈ ds, Good' u I tight x.2.v x.2.d x.2.σ)
    (hr : runCase (caseStart k (subject.map (·.v))) (bs.map (·.branch.call) ++ ds.map fun x => .els x.1 x.2.v) = .ok c) :
    Good' u I tight c.toVal (I.case (subject.map (·.d)) (bs.map fun b => (b.w, b.t)) (ds.getLast?.map (·.2.d))) .atom := by
  have hs' : ∀ s, subject.map (·.v) = some s → Good s := by
    intro s h
    obtain ⟨m, hm, rfl⟩ := Option.map_eq_some_iff.mp h
    exact (hs m hm).good
  have hb' : ∀ b ∈ bs.map (·.branch), b.w.err = none ∧ b.t.err = none := by
    intro b h
    obtain ⟨m, hm, rfl⟩ := List.mem_map.mp h
    exact ⟨(hw m hm).err, (ht m hm).err⟩
  have hd' : ∀ d ∈ ds.map (fun x => (x.1, x.2.v)), d.2.err = none := by
    intro d h
    obtain ⟨m, hm, rfl⟩ := List.mem_map.mp h
    exact (hd m hm).err
  have e1 : bs.map (·.branch.call) = (bs.map (·.branch)).map Branch.call := by simp
  have e2 : (ds.map fun x => CaseCall.els x.1 x.2.v) = (ds.map (fun x => (x.1, x.2.v))).map fun d => .els d.1 d.2 := by simp
  rw [e1, e2] at hr
  obtain ⟨c', hc, herr, htext⟩ := C21_case_partial k (subject.map (·.v)) hs' (bs.map (·.branch)) hb' _ hd'
  rw [hc] at hr
  cases hr
  have hc' : c = caseVal (lastKey k (bs.map (·.branch))) (subject.map (·.v)) (bs.map (·.branch)) (ds.map (fun x => (x.1, x.2.v))).getLast? := by
    have h0 : caseStart k (subject.map (·.v)) = caseVal k (subject.map (·.v)) [] none := by
      cases hsub : subject with
      | none => rfl
      | some s => simp [caseStart, CaseV.simple, errOf, (hs s hsub).err, caseVal]
    rw [h0, run_whens k _ hs' [] _ none hb', run_els _ _ _ _ _ hd'] at hc
    simp at hc
    simpa using hc.symm
  have hdk : dkeysL c.toVal.visit = [] := by
    rw [hc']
    simp only [CaseV.toVal, CaseV.visit, caseVal, dkeysL_nd, dkeysL_append]
    refine List.append_eq_nil_iff.mpr ⟨List.append_eq_nil_iff.mpr ⟨?_, ?_⟩, ?_⟩
    · cases hsub : subject with
      | none => rfl
      | some s => simp [visitIfNotNull, (hs s hsub).nn, (hs s hsub).dk]
    · clear hc hc' htext herr hb' h0 e1
      induction bs with
      | nil => rfl
      | cons b bs ih =>
        have := ih (fun z hz => hw z (List.mem_cons_of_mem _ hz)) (fun z hz => ht z (List.mem_cons_of_mem _ hz))
        simp only [List.map_cons, List.flatMap_cons, dkeysL_append, this, CaseV.branchVisit]
        simp [dkeysL, dkeys_nd, (hw b (by simp)).dk, (ht b (by simp)).dk]
    · rw [List.getLast?_map]
      cases hl : ds.getLast? with
      | none => rfl
      | some x => simp [CaseV.elseVisit, dkeysL_nd, (hd x (List.mem_of_getLast? hl)).dk]
  have hone : Spec.One c.toVal.visit := ⟨_, _, rfl⟩
  have hnn : c.toVal.notNil = true := by rw [hc']; rfl
  obtain ⟨s, ts, b1, b2, b3, b4, b5, b6⟩ := branches_reads bs hw ht
  obtain ⟨s', ts', t1, t2, t3, t4⟩ := case_tail (u := u) (tight := tight) (ds.getLast?.map (·.2)) (by
    intro x hx
    obtain ⟨m, hm, rfl⟩ := Option.map_eq_some_iff.mp hx
    exact hd m (List.mem_of_getLast? hm))
  obtain ⟨x, hx⟩ := b4 h0
  obtain ⟨y, hy⟩ := b5 s'
  have hsum : ∃ s ts, Shows (caseParts (subject.map (·.v)) (bs.map (·.branch)) ((ds.map (fun x => (x.1, x.2.v))).getLast?.map (·.2))) s ∧ Lexes u s ts ∧
      Prefix I tight 11 ts (I.case (subject.map (·.d)) (bs.map fun b => (b.w, b.t)) (ds.getLast?.map (·.2.d))) ∧ Head 11 ts ∧ Extra I tight c.toVal.isCond .atom ts := by
    have hp : caseParts (subject.map (·.v)) (bs.map (·.branch)) ((ds.map (fun x => (x.1, x.2.v))).getLast?.map (·.2)) =
        (match subject.map (·.v) with | some s => [.lit c!"CASE ", .hole s.visit] | none => [.lit c!"CASE"]) ++
        ((bs.flatMap fun b => [.lit c!" WHEN ", .hole b.branch.w.visit, .lit c!" THEN ", .hole b.branch.t.visit]) ++
        ((match (ds.getLast?.map (·.2)).map (·.v) with | some d => [.lit c!" ELSE ", .hole d.visit] | none => []) ++ [.lit c!" END"])) := by
      simp [caseParts, List.getLast?_map, List.flatMap_map, Option.map_map, Function.comp_def]
      rfl
    rw [hp]
    have ht3 : ∀ subject bs r, RBranches I tight subject bs (ts' ++ r) (I.case subject bs (ds.getLast?.map (·.2.d))) r := by
      intro a b r
      have := t3 a b r
      rw [Option.map_map] at this
      exact this
    cases hsub : subject with
    | none =>
      refine ⟨c!"CASE" ++ [] ++ (s ++ ' ' :: s'), .word c!"CASE" :: (ts ++ ts'), (Shows.lit _ Shows.nil).append (b1.append t1), ?_, ?_, Head.word (by decide) _ _, ?_⟩
      · intro r rs hf hr
        have := b2 (s' ++ r) (ts' ++ rs) (t2 r rs hf hr)
        simp only [List.append_assoc, List.cons_append, List.nil_append] at this ⊢
        obtain ⟨z, hz⟩ := b5 (s' ++ r)
        rw [hz] at this ⊢
        exact Tokens.word (w := c!"CASE") (ascii_word (by decide)) (Follow.mark (by decide) _).part this
      · refine Prefix.atom fun r _ _ => ?_
        rw [hx]
        simp only [List.append_assoc, List.cons_append]
        refine RA.caseGeneric (by decide) (by decide) ?_
        have := b3 none [] _ (ts' ++ r) r (t4 r) (ht3 none _ r)
        rw [hx] at this
        simpa using this
      · refine .word (.inl (by decide)) ?_
        rw [hx]
        intro _ _ _ h _; cases h; decide
    | some sub =>
      obtain ⟨s₀, ts₀, g1, g2, g3, g4, g5⟩ := (hs sub hsub).below
      refine ⟨c!"CASE " ++ (s₀ ++ []) ++ (s ++ ' ' :: s'), .word c!"CASE" :: (ts₀ ++ (ts ++ ts')), (Shows.lit _ (Shows.hole g1 Shows.nil)).append (b1.append t1), ?_, ?_,
        Head.word (by decide) _ _, ?_⟩
      · intro r rs hf hr
        have := b2 (s' ++ r) (ts' ++ rs) (t2 r rs hf hr)
        obtain ⟨z, hz⟩ := b5 (s' ++ r)
        have e : c!"CASE " = c!"CASE" ++ [' '] := rfl
        rw [e]
        simp only [List.append_assoc, List.cons_append, List.nil_append] at this ⊢
        refine kw c!"CASE" (by decide) (g2 _ _ ?_ this)
        rw [hz]
        exact Follow.mark (by decide) _
      · refine Prefix.atom fun r _ _ => ?_
        obtain ⟨t, r', hts, _, _, hword, _⟩ := g4
        have hw' : t.is c!"when" = false := by
          cases t with
          | word w => simpa [Token.is] using fun h => hword w rfl (by simp [h])
          | _ => rfl
        have h1 := g3.reads (r := ts ++ (ts' ++ r)) (by omega) ((b6 _ (t4 r)).stops _)
        have h2 := b3 (some sub.d) [] _ (ts' ++ r) r (t4 r) (ht3 _ _ r)
        rw [hts] at h1 ⊢
        simp only [List.append_assoc, List.cons_append, List.nil_append] at h1 h2 ⊢
        exact RA.caseSimple (by decide) hw' h1 h2
      · refine .word (.inl (by decide)) ?_
        obtain ⟨t, r', rfl, _, _, hword, _⟩ := g4
        intro _ _ _ h _
        cases h
        cases t with
        | word w => simpa [Token.is] using fun h => hword w rfl (by simp [h])
        | _ => rfl
  obtain ⟨s, ts, h1, h2, h3, h4, h5⟩ := hsum
  exact ⟨by rw [hc']; rfl, hnn, hone, hdk, fun _ => rfl, s, ts, Text.of (v := c.toVal) hdk htext h1, h2, h3, h4, h5⟩

end Verif.Rd
