import Verif.SegLemmas
import Verif.MeansLemmas
import Verif.PropsBuilder

/-
Clauses are read with their meaning.
-/

namespace Verif.Rd

open Spec

variable {u : Unicode} {I : Meaning} {tight : Bool}

/-! ### Conditions -/

theorem cond_reads {e e' : Env} {c : Option Calls} {d : Option I.D} (h : CondMeans u I tight e c d e') :
    ∃ ts, SegS u e (whereParts c) e' ts ∧ ∀ r, Border starters r → ROpt I tight c!"where" (ts ++ r) d r ∧ Border (c!"where" :: starters) (ts ++ r) := by
  have none : ∀ r, Border starters r → ROpt I tight c!"where" ([] ++ r) none r ∧ Border (c!"where" :: starters) ([] ++ r) :=
    fun r hr => ⟨ROpt.none (hr.after (by decide)), hr.mono (by decide)⟩
  cases c with
  | none =>
    cases d with
    | none =>
      obtain rfl : e' = e := h
      exact ⟨[], SegS.nil _, none⟩
    | some _ => exact h.elim
  | some c =>
    cases d with
    | none =>
      obtain ⟨hv, rfl⟩ := h
      refine ⟨[], ?_, none⟩
      simp only [whereParts, hv, if_true]
      exact SegS.nil _
    | some d =>
      obtain ⟨hv, σ, h⟩ := h
      obtain ⟨s, ts, h1, h2, h3, h4, _⟩ := h.expr
      refine ⟨.word c!"WHERE" :: ts, ?_, fun r hr => ⟨ROpt.some (by decide) (h3.reads (by omega) (hr.stops (by decide))), Border.word (by decide) _⟩⟩
      simp only [whereParts, hv]
      exact SegS.kw (w := c!"WHERE") (by decide) (Seg.hole h1 h2)

/-! ### Results -/

theorem readRet_expr {n : Nat} {ts : List Token} (h : ts.head? ≠ some (.sym '*')) : readRet I tight n ts =
    (readExpr I tight n 0 ts).bind fun p =>
      match Spec.after c!"as" p.2 with
      | some r => (varOf r).map fun x => (.expr p.1 (some x.1), x.2)
      | none => some (.expr p.1 none, p.2) := by
  cases ts with
  | nil => rfl
  | cons t ts =>
    rw [readRet]
    · rfl
    · intro r hr
      injection hr with h1 h2
      subst h1
      simp at h

/-- No DISTINCT. -/
def NotDistinct (ts : List Token) : Prop := ∃ t r, ts = t :: r ∧ t.is c!"distinct" = false

theorem NotDistinct.append (ts r : List Token) (h : NotDistinct ts) : NotDistinct (ts ++ r) := by
  obtain ⟨t, r', rfl, h⟩ := h
  exact ⟨t, r' ++ r, rfl, h⟩

theorem Head.notDistinct {j : Nat} {ts : List Token} (h : Head j ts) : NotDistinct ts := by
  obtain ⟨t, r, rfl, _, _, h, _⟩ := h
  refine ⟨t, r, rfl, ?_⟩
  cases t with
  | word w =>
    have := h w rfl
    simp only [List.mem_cons, List.not_mem_nil, or_false, not_or] at this
    simp only [Token.is, decide_eq_false_iff_not]
    exact this.2.1
  | _ => rfl

theorem alias_shown {e e' : Env} {v : Val} {k : Key} {a : Str} {s : Str} (hv : v.err = none) (hn : v.notNil = true) (ha : a ≠ []) (h1 : e.al k = none) (h2 : e.al v.key = none)
    (hs : shownAs e v.visit = (s, e')) (hal : e'.al = e.al) : shownAs e (aliasedCreate u k (some v) a).visit = (s ++ (c!" AS " ++ escapeIfNecessary u a),
      { e' with al := fun k' => if k' = v.key then some ⟨k, v.key, escapeIfNecessary u a⟩ else e'.al k' }) := by
  unfold shownAs at hs
  simp [aliasedCreate, hv, hn, ha, Val.mk', shownAs, denL, den, shown, h1, h2, described, Kind.isSub, defined, Vis.asAlias, sepText, hs, hal]

theorem Lexes.as {s a : Str} {ts : List Token} {t : Token} (h : Lexes u s ts) (h' : Lexes u a [t]) : Lexes u (s ++ (c!" AS " ++ a)) (ts ++ [.word c!"AS", t]) := by
  refine Lexes.append h ?_ fun r _ => Follow.mark (by decide) _
  exact Lexes.sp (LexesAny.then (LexesAny.word (w := c!"AS") (by decide)) h')

theorem ret_reads {ws : List Str} (h1 : c!"as" ∉ ws) (h2 : ∀ w ∈ ws, w ∉ opWords) {e e' : Env} {v : Val} {x : RetItem I.D} (h : ItemMeans u I tight e v x e') :
    ∃ ts, Seg u e [.hole v.visit] e' ts ∧ Item (ItemEnd ws) (readRet I tight) ts x ∧ NotDistinct ts := by
  cases h with
  | expr h =>
    obtain ⟨s, ts, s1, s2, s3, s4, _⟩ := h.expr
    refine ⟨ts, Seg.hole s1 s2, fun r hr => ?_, s4.notDistinct⟩
    obtain ⟨N, hN⟩ := s3.reads (by omega) (hr.stops h2)
    refine ⟨N, fun n hn => ?_⟩
    rw [readRet_expr (s4.sym_ne (by decide) r), hN n hn]
    simp [hr.after h1]
  | all h =>
    refine ⟨[.sym '*'], Seg.hole (s := c!"*") ?_ (LexesAny.sym (by simp [symbols]) (by decide)).lexes, fun r _ => ⟨0, fun n _ => rfl⟩, _, _, rfl, rfl⟩
    simp [shownAs, asterisk, Val.mk', leaf, nd, denL, den, shown, h, sepText, described, defined, Vis.asAlias]
  | @«alias» e' v d σ k a h he hn ha hk hv =>
    obtain ⟨s, ts, s1, s2, s3, s4, s5⟩ := h.expr
    obtain ⟨t, t1, t2, _⟩ := Lexes.name ha.1
    refine ⟨ts ++ [.word c!"AS", t], Seg.hole (alias_shown he hn (name_ne ha.1) hk hv s1 s5) (s2.as t2), fun r hr => ?_, NotDistinct.append _ _ s4.notDistinct⟩
    obtain ⟨N, hN⟩ := s3.reads (r := .word c!"AS" :: t :: r) (by omega) (Stops.word' (by decide) 0 _)
    refine ⟨N, fun n hn => ?_⟩
    have e1 : ts ++ [.word c!"AS", t] ++ r = ts ++ .word c!"AS" :: t :: r := by simp
    rw [e1, readRet_expr (s4.sym_ne (by decide) _), hN n hn]
    simp only [Option.bind_some, after_word (w := c!"AS") (k := c!"as") (by decide), varOf_name t1 ha]
    rfl

theorem sort_reads {ws : List Str} (h1 : c!"asc" ∉ ws ∧ c!"ascending" ∉ ws ∧ c!"desc" ∉ ws ∧ c!"descending" ∉ ws) (h2 : ∀ w ∈ ws, w ∉ opWords) {e e' : Env} {q : SortReq} {x : I.D × Bool}
    (h : SortMeans u I tight e q x e') : ∃ ts, Seg u e q.parts e' ts ∧ Item (ItemEnd ws) (readSort I tight) ts x := by
  obtain ⟨⟨σ, h⟩, hx⟩ := h
  obtain ⟨s, ts, s1, s2, s3, s4, _⟩ := h.expr
  rcases q with ⟨k, kd, v, dir⟩
  rcases x with ⟨d, b⟩
  have dirSeg : ∀ w : Str, (w != [] && w.all fun c => c.toNat < 128 && c.isAlpha) = true → SegS u e' [.lit (' ' :: w)] e' [.word w] := by
    intro w hw
    refine ⟨' ' :: w, by simp [layout], fun r rs hf hr => Tokens.sp (Tokens.word (ascii_word hw) hf.part hr), fun r _ => Follow.mark (by decide) _⟩
  simp only at s1 s3 hx
  cases dir with
  | undefined =>
    refine ⟨ts, Seg.hole s1 s2, fun r hr => ?_⟩
    obtain ⟨N, hN⟩ := s3.reads (by omega) (hr.stops h2)
    refine ⟨N, fun n hn => ?_⟩
    subst hx
    rw [readSort, hN n hn]
    simp [hr.after h1.1, hr.after h1.2.1, hr.after h1.2.2.1, hr.after h1.2.2.2]
  | asc =>
    refine ⟨ts ++ [.word c!"ASC"], (Seg.hole s1 s2).append (dirSeg c!"ASC" (by decide)), fun r hr => ?_⟩
    obtain ⟨N, hN⟩ := s3.reads (r := .word c!"ASC" :: r) (by omega) (Stops.word' (by decide) 0 _)
    refine ⟨N, fun n hn => ?_⟩
    subst hx
    have e1 : ts ++ [.word c!"ASC"] ++ r = ts ++ .word c!"ASC" :: r := by simp
    rw [readSort, e1, hN n hn]
    simp [after_word (w := c!"ASC") (k := c!"asc") (by decide)]
  | desc =>
    refine ⟨ts ++ [.word c!"DESC"], (Seg.hole s1 s2).append (dirSeg c!"DESC" (by decide)), fun r hr => ?_⟩
    obtain ⟨N, hN⟩ := s3.reads (r := .word c!"DESC" :: r) (by omega) (Stops.word' (by decide) 0 _)
    refine ⟨N, fun n hn => ?_⟩
    subst hx
    have e1 : ts ++ [.word c!"DESC"] ++ r = ts ++ .word c!"DESC" :: r := by simp
    have g1 : Spec.after c!"asc" (.word c!"DESC" :: r) = none := by simp [Spec.after, Token.is]; decide
    have g2 : Spec.after c!"ascending" (.word c!"DESC" :: r) = none := by simp [Spec.after, Token.is]; decide
    rw [readSort, e1, hN n hn]
    simp [g1, g2, after_word (w := c!"DESC") (k := c!"desc") (by decide)]

theorem natDigits_value (n : Nat) : readUnsigned (natDigits n) = some (n : ℚ) := by
  have h := digits_natDigits n
  have h2 := readNatAux_value _ h 0
  have h3 := readNat_natDigits n
  have h4 : digitsVal (natDigits n) = n := by
    cases hn : natDigits n with
    | nil => exact absurd hn (natDigits_ne_nil n)
    | cons c cs =>
      rw [hn] at h2 h3
      simp only [readNat] at h3
      rw [h3] at h2
      simpa using h2.symm
  refine (readUnsigned_plain (fun c hc => ?_)).trans ((readMantissa_whole h (natDigits_ne_nil n)).trans (by rw [h4]))
  obtain ⟨m, hm⟩ := h c hc
  rintro rfl
  simp [digitVal] at hm

theorem int_reads (i : Int) : ∃ ts, Lexes u (itoa i) ts ∧ Prefix I tight 0 ts (I.num i) := by
  cases i with
  | ofNat n =>
    refine ⟨[.num (natDigits n)], fun r rs hf hr => Tokens.num (natDigits_value n) hf hr, ?_⟩
    have h : Prefix I tight 11 [.num (natDigits n)] (I.num (n : ℚ)) := Prefix.one fun m r => by rw [readAtom.eq_def]; simp [natDigits_value]
    have := h.below (k := 0) (by omega) (by omega) ⟨_, _, rfl, fun _ => rfl, fun _ => by simp, by simp, by simp⟩
    simpa using this
  | negSucc n =>
    refine ⟨[.sym '-', .num (natDigits (n + 1))], fun r rs hf hr => Tokens.sym (by simp [symbols]) (by simp) (Tokens.num (natDigits_value _) hf hr), ?_⟩
    have h : Prefix I tight 11 [.num (natDigits (n + 1))] (I.num ((n + 1 : Nat) : ℚ)) := Prefix.one fun m r => by rw [readAtom.eq_def]; simp [natDigits_value]
    have h2 := Prefix.neg (h.below (k := 9) (by omega) (by omega) ⟨_, _, rfl, fun _ => rfl, fun _ => by simp, by simp, by simp⟩)
    have h3 := h2.below (k := 0) (by omega) (by omega) ⟨_, _, rfl, fun _ => rfl, fun h => by omega, by simp, by simp⟩
    have e1 : I.neg (I.num ((n + 1 : Nat) : ℚ)) = I.num ((Int.negSucc n : Int) : ℚ) := by
      rw [I.neg_num]
      congr 1
    rw [← e1]
    exact h3

theorem num_reads {k w : Str} {ws : List Str} (hw : (w != [] && w.all fun c => c.toNat < 128 && c.isAlpha) = true) (hk : lower w = k) (hk' : k ∉ ws) (h2 : ∀ w ∈ ws, w ∉ opWords)
    (e : Env) (q : Option NumReq) (P : Option NumReq → List Part) (hn : P none = []) (hs : ∀ s, P (some s) = [.lit (' ' :: (w ++ c!" ")), .lit (itoa s.n)]) :
    ∃ ts, SegS u e (P q) e ts ∧
      ∀ r, Border ws r → ROpt I tight k (ts ++ r) (q.map fun s => I.num s.n) r ∧ Border (k :: ws) (ts ++ r) := by
  cases q with
  | none => exact ⟨[], hn ▸ SegS.nil e, fun r hr => ⟨ROpt.none (hr.after hk'), hr.mono (by simp)⟩⟩
  | some q =>
    obtain ⟨ts, h1, h3⟩ := int_reads (u := u) (I := I) (tight := tight) q.n
    refine ⟨.word w :: ts, hs q ▸ SegS.kw hw ⟨itoa q.n, by simp [layout], h1⟩, fun r hr => ⟨ROpt.some hk (h3.reads (by omega) (hr.stops h2)), Border.word (by simp [hk]) _⟩⟩

def RBody (I : Meaning) (tight : Bool) (ts : List Token) (d : Body I.D) (r : List Token) : Prop := ∃ N, ∀ n ≥ N, readBody I tight n ts = some (d, r)

theorem commas_eq (vs : List Val) : commas (vs.map (·.visit)) = sepParts c!", " (vs.map fun v => [.hole v.visit]) := by
  simp [commas, List.map_map, Function.comp_def]

theorem body_reads {e e' : Env} {q : ResultReq} {b : Body I.D} (hq : q.items ≠ []) (h : BodyMeans u I tight e q b e') :
    ∃ ts, Seg u e q.parts e' ts ∧ ∀ r, Border (c!"where" :: starters) r → RBody I tight (ts ++ r) b r := by
  obtain ⟨e₁, hitems, hord⟩ := h.parts
  obtain ⟨ti, i1, i2, i3⟩ := commaList_reads (u := u) (S := ItemEnd (c!"order" :: c!"skip" :: c!"limit" :: c!"where" :: starters)) (f := fun v : Val => [.hole v.visit])
    (fun r => .inr ⟨r, rfl⟩) NotDistinct.append (fun _ _ _ _ h => ret_reads (by decide) (by decide) h) hitems hq
  obtain ⟨tk, k1, k2⟩ := num_reads (u := u) (I := I) (tight := tight) (k := c!"skip") (w := c!"SKIP") (ws := c!"limit" :: c!"where" :: starters) (by decide) (by decide) (by decide) (by decide) e' q.skip (fun q => match q with | some s => [.lit c!" SKIP ", .lit (itoa s.n)] | none => []) rfl (fun _ => rfl)
  obtain ⟨tl, l1, l2⟩ := num_reads (u := u) (I := I) (tight := tight) (k := c!"limit") (w := c!"LIMIT") (ws := c!"where" :: starters) (by decide) (by decide) (by decide) (by decide) e' q.limit (fun q => match q with | some s => [.lit c!" LIMIT ", .lit (itoa s.n)] | none => []) rfl (fun _ => rfl)
  have ho : ∃ ts, SegS u e₁ (if q.sorts = [] then [] else .lit c!" ORDER BY " :: sepParts c!", " (q.sorts.map SortReq.parts)) e' ts ∧
      ∀ r, Border (c!"skip" :: c!"limit" :: c!"where" :: starters) r → (∃ N, ∀ n ≥ N, readOrder I tight n (ts ++ r) = some (b.order, r)) ∧
        Border (c!"order" :: c!"skip" :: c!"limit" :: c!"where" :: starters) (ts ++ r) := by
    by_cases hs : q.sorts = []
    · rw [if_pos hs]
      rw [hs] at hord
      cases hb : b.order with
      | cons _ _ => rw [hb] at hord; cases hord
      | nil =>
        rw [hb] at hord
        cases hord
        refine ⟨[], SegS.nil _, fun r hr => ⟨⟨0, fun n _ => ?_⟩, hr.mono (by decide)⟩⟩
        simp [readOrder, hr.after (k := c!"order") (by decide)]
    · rw [if_neg hs]
      obtain ⟨ts, o1, o2, _⟩ := commaList_reads (u := u) (S := ItemEnd (c!"skip" :: c!"limit" :: c!"where" :: starters)) (Q := fun _ => True) (f := SortReq.parts)
        (p := readSort I tight)
        (fun r => .inr ⟨r, rfl⟩) (fun _ _ _ => trivial) (fun e1 a b e2 h => by
          obtain ⟨ts, t1, t2⟩ := sort_reads (ws := c!"skip" :: c!"limit" :: c!"where" :: starters) (by decide) (by decide) h
          exact ⟨ts, t1, t2, trivial⟩) hord hs
      refine ⟨.word c!"ORDER" :: .word c!"BY" :: ts, ?_, fun r hr => ⟨?_, Border.word (by decide) _⟩⟩
      · have := SegS.kw (w := c!"ORDER") (by decide) (Seg.kw (w := c!"BY") (by decide) o1)
        obtain ⟨s, t1, t2⟩ := this
        exact ⟨s, by simpa [layout] using t1, t2⟩
      · obtain ⟨N, hN⟩ := o2 r (.inl hr) (hr.sym (by decide))
        refine ⟨N, fun n hn => ?_⟩
        simp only [List.cons_append, readOrder, after_word (w := c!"ORDER") (k := c!"order") (by decide), Option.bind_some,
          after_word (w := c!"BY") (k := c!"by") (by decide)]
        exact hN n hn n hn
  obtain ⟨tord, o1, o2⟩ := ho
  have hd : ∃ td, SegA u e (if q.distinct then [.lit c!"DISTINCT "] else []) e td ∧ ∀ r, distinctOf (td ++ (ti ++ r)) = (b.distinct, ti ++ r) := by
    rw [h.distinct]
    cases q.distinct with
    | true =>
      refine ⟨[.word c!"DISTINCT"], SegA.kw e (w := c!"DISTINCT") (by decide), fun r => ?_⟩
      simp [distinctOf, after_word (w := c!"DISTINCT") (k := c!"distinct") (by decide)]
    | false =>
      refine ⟨[], SegA.nil e, fun r => ?_⟩
      obtain ⟨t, r', rfl, h⟩ := i3
      simp [distinctOf, Spec.after, h]
  obtain ⟨td, d1, d2⟩ := hd
  refine ⟨td ++ (ti ++ tord ++ tk ++ tl), ?_, fun r hr => ?_⟩
  · have := SegA.then d1 (((i1.append o1).append k1).append l1)
    have e1 : q.parts = (if q.distinct then [.lit c!"DISTINCT "] else []) ++
        (sepParts c!", " (q.items.map fun v => [.hole v.visit]) ++ (if q.sorts = [] then [] else .lit c!" ORDER BY " :: sepParts c!", " (q.sorts.map SortReq.parts)) ++
          (match q.skip with | some s => [.lit c!" SKIP ", .lit (itoa s.n)] | none => []) ++ (match q.limit with | some s => [.lit c!" LIMIT ", .lit (itoa s.n)] | none => [])) := by
      rw [← commas_eq]
      simp only [ResultReq.parts, List.append_assoc]
      rfl
    rw [e1]
    exact this
  · obtain ⟨hl1, hl2⟩ := l2 r hr
    obtain ⟨hk1, hk2⟩ := k2 _ hl2
    obtain ⟨ho1, ho2⟩ := o2 _ hk2
    obtain ⟨N1, h1⟩ := i2 _ (.inl ho2) (ho2.sym (by decide))
    obtain ⟨N2, h2⟩ := ho1
    obtain ⟨N3, h3⟩ := hk1
    obtain ⟨N4, h4⟩ := hl1
    refine ⟨N1 + N2 + N3 + N4, fun n hn => ?_⟩
    have e1 : td ++ (ti ++ tord ++ tk ++ tl) ++ r = td ++ (ti ++ (tord ++ (tk ++ (tl ++ r)))) := by simp
    rw [readBody, e1, d2]
    simp only
    rw [h1 n (by omega) n (by omega)]
    simp only [Option.bind_some]
    rw [h2 n (by omega)]
    simp only [Option.bind_some]
    rw [h3 n (by omega)]
    simp only [Option.bind_some]
    rw [h4 n (by omega)]
    simp only [Option.map_some, ← h.skip, ← h.limit]

end Verif.Rd
