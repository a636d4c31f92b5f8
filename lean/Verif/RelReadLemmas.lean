import Verif.PatternReadLemmas

/-
Relationships, chains and elements of patterns are read with their meaning.
-/

namespace Verif.Rd

open Spec

variable {u : Unicode} {I : Meaning} {tight : Bool} {R : Val → I.D → CallKind → Prop}

/-! ### Types -/

def typeToks : List Str → List Token
  | [] => []
  | t :: ts => .sym ':' :: .quoted t :: ts.flatMap fun l => [.sym '|', .quoted l]

theorem bars_lexes (ls : List Str) {r : Str} {rs : List Token} (hr : Follow u r) (ht : Tokens u r rs) :
    Tokens u ((ls.flatMap fun t => '|' :: escapeName t) ++ r) ((ls.flatMap fun l => [.sym '|', .quoted l]) ++ rs) ∧
      ((ls.flatMap fun t => '|' :: escapeName t) ++ r).head? ≠ some '`' := by
  induction ls with
  | nil => exact ⟨ht, hr.quote⟩
  | cons l ls ih =>
    simp only [List.flatMap_cons, List.append_assoc, List.cons_append, List.nil_append]
    exact ⟨Tokens.sym (by simp [symbols]) (by simp) (Tokens.quoted ih.2 ih.1), by simp⟩

theorem types_lexes {ts : List Str} (ht : TypesOk ts) {r : Str} {rs : List Token} (hr : Follow u r) (h : Tokens u r rs) :
    Tokens u (typesText ts ++ r) (typeToks (ts.filter (· ≠ [])) ++ rs) ∧ Follow u (typesText ts ++ r) := by
  unfold typesText
  by_cases h0 : ts = []
  · subst h0
    exact ⟨h, hr⟩
  · rw [if_neg h0]
    cases hf : ts.filter (· ≠ []) with
    | nil => exact absurd hf (filter_ne_nil ht h0)
    | cons x xs =>
      rw [List.map_cons, join_cons]
      have := bars_lexes xs hr h
      simp only [typeToks, List.cons_append, List.append_assoc]
      refine ⟨Tokens.sym (by simp [symbols]) (by simp) ?_, Follow.mark (by decide) _⟩
      have e1 : (xs.map escapeName).flatMap (fun y => '|' :: ([] ++ y)) = xs.flatMap fun t => '|' :: escapeName t := by
        rw [List.flatMap_map]; rfl
      rw [e1]
      exact Tokens.quoted this.2 this.1

theorem moreTypes_toks (ls : List Str) {r : List Token} (hr : r.head? ≠ some (.sym '|')) :
    moreTypes ((ls.flatMap fun l => [.sym '|', .quoted l]) ++ r) = (ls, r) := by
  induction ls with
  | nil =>
    simp only [List.flatMap_nil, List.nil_append]
    unfold moreTypes
    split <;> simp_all
  | cons l ls ih => simp only [List.flatMap_cons, List.cons_append, List.nil_append, moreTypes, ih]

theorem typesOf_toks (ts : List Str) {r : List Token} (hr : r.head? ≠ some (.sym '|')) (hr' : r.head? ≠ some (.sym ':')) :
    typesOf (typeToks ts ++ r) = (ts, r) := by
  cases ts with
  | nil =>
    simp only [typeToks, List.nil_append]
    unfold typesOf
    split <;> simp_all
  | cons t ts => simp only [typeToks, List.cons_append, typesOf, moreTypes_toks ts hr]

/-! ### Lengths -/

def boundToks : Option Int → List Token
  | none => []
  | some (.ofNat n) => [.num (natDigits n)]
  | some (.negSucc n) => [.sym '-', .num (natDigits (n + 1))]

def hopsToks : Hops → List Token
  | .one => []
  | .any => [.sym '*']
  | .range a b => .sym '*' :: (boundToks a ++ .sym '.' :: .sym '.' :: boundToks b)

theorem natDigits_number (n : Nat) : ∃ q, readUnsigned (natDigits n) = some q := by
  have h := digits_natDigits n
  refine ⟨_, (readUnsigned_plain (fun c hc => ?_)).trans (readMantissa_whole h (natDigits_ne_nil n))⟩
  obtain ⟨m, hm⟩ := h c hc
  rintro rfl
  simp [digitVal] at hm

theorem bound_lexes (o : Option Int) {r : Str} {rs : List Token} (hr : Follow u r) (h : Tokens u r rs) : Tokens u (optItoa o ++ r) (boundToks o ++ rs) := by
  rcases o with _ | (n | n)
  · exact h
  · obtain ⟨q, hq⟩ := natDigits_number n
    exact Tokens.num hq hr h
  · obtain ⟨q, hq⟩ := natDigits_number (n + 1)
    exact Tokens.sym (by simp [symbols]) (by simp) (Tokens.num hq hr h)

theorem boundOf_toks (o : Option Int) {c : Char} (hc : c ≠ '-') (r : List Token) : boundOf (boundToks o ++ .sym c :: r) = (o, .sym c :: r) := by
  rcases o with _ | (n | n)
  · simp only [boundToks, List.nil_append]
    unfold boundOf
    split <;> simp_all
  · simp [boundToks, boundOf, readNat_natDigits]
  · simp only [boundToks, List.cons_append, List.nil_append, boundOf, readNat_natDigits]
    rfl

theorem hops_lexes {o : Option LengthV} (ho : ∀ l, o = some l → l.unbounded = true ∨ l.min ≠ none ∨ l.max ≠ none) {r : Str} {rs : List Token} (hr : Follow u r)
    (h : Tokens u r rs) : Tokens u (hopsTextOf o ++ r) (hopsToks (hopsV o) ++ rs) ∧ Follow u (hopsTextOf o ++ r) := by
  cases o with
  | none => exact ⟨h, hr⟩
  | some l =>
    simp only [hopsTextOf, hopsV, lengthText_eq]
    by_cases hu : l.unbounded = true
    · simp only [hu, if_true]
      exact ⟨Tokens.sym (by simp [symbols]) (by simp) h, Follow.mark (by decide) _⟩
    · have hb : ¬ (l.min = none ∧ l.max = none) := by
        rintro ⟨h1, h2⟩
        rcases ho l rfl with h | h | h
        · exact hu h
        · exact h h1
        · exact h h2
      rw [if_neg hu, if_neg hb, if_neg hu]
      simp only [hopsToks, List.cons_append, List.append_assoc]
      refine ⟨Tokens.sym (by simp [symbols]) (by simp) (bound_lexes _ (Follow.dot ?_) (Tokens.sym (by simp [symbols]) (by simp)
        (Tokens.sym (by simp [symbols]) (by simp) (bound_lexes _ hr h)))), Follow.mark (by decide) _⟩
      intro d r he
      cases he
      decide

theorem lengthOf_toks (h : Hops) {c : Char} (h1 : c ≠ '-') (h2 : c ≠ '.') (h3 : c ≠ '*') (r : List Token) :
    lengthOf (hopsToks h ++ .sym c :: r) = (h, .sym c :: r) := by
  cases h with
  | one =>
    simp only [hopsToks, List.nil_append]
    unfold lengthOf
    split <;> simp_all
  | any =>
    simp only [hopsToks, List.cons_append, List.nil_append, lengthOf]
    have := boundOf_toks none h1 r
    simp only [boundToks, List.nil_append] at this
    rw [this]
    split
    · next heq => cases heq; exact absurd rfl h2
    · next heq => cases heq
    · next heq => cases heq; rfl
  | range a b =>
    simp only [hopsToks, List.cons_append, List.append_assoc, lengthOf]
    rw [boundOf_toks a (by decide)]
    simp only [boundOf_toks b h1]

theorem typeToks_head (ts : List Str) (c : Char) (r : List Token) : ∃ c' r', typeToks ts ++ .sym c :: r = .sym c' :: r' := by
  cases ts <;> exact ⟨_, _, rfl⟩

theorem hopsToks_head (h : Hops) (c : Char) (r : List Token) : ∃ c' r', hopsToks h ++ .sym c :: r = .sym c' :: r' ∧ (c' = '*' ∨ c' = c) := by
  cases h
  · exact ⟨_, _, rfl, .inr rfl⟩
  · exact ⟨_, _, rfl, .inl rfl⟩
  · exact ⟨_, _, rfl, .inl rfl⟩

/-! ### Relationships -/

def RDetail (I : Meaning) (tight : Bool) (a : Arrow) (ts : List Token) (d : RelPat I.D) (r : List Token) : Prop :=
  ∃ N, ∀ n ≥ N, detailBy (readAtom I tight n) a ts = some (d, r)

def RRel (I : Meaning) (tight : Bool) (ts : List Token) (d : RelPat I.D) (r : List Token) : Prop := ∃ N, ∀ n ≥ N, readRel I tight n ts = some (d, r)

/-- What stands between the signs of a relationship. -/
theorem detail_reads (hR : ∀ v d σ, R v d σ → Good' u I tight v d σ) {e : Env} {name : Option Str} {types : List Str} {len : Option LengthV} {m : Option Val} {p : Option I.D}
    (hname : ∀ x, name = some x → VarName u x) (ht : TypesOk types) (hl : ∀ l, len = some l → l.unbounded = true ∨ l.min ≠ none ∨ l.max ≠ none)
    (hp : PropsMean u R e m p) :
    ∃ s ts, (∀ ps, layout e ([.lit c!"[", .lit (nameTextOf u name ++ typesText types ++ hopsTextOf len)] ++ propParts m ++ [.lit c!"]"] ++ ps) =
        (s ++ (layout e ps).1, (layout e ps).2)) ∧ LexesAny u s ts ∧
      ∀ a r, RDetail I tight a (ts ++ r) ⟨a, name, types.filter (· ≠ []), hopsV len, p⟩ r := by
  obtain ⟨s, ts, p1, p2, p3, p4, p5⟩ := props_reads hR hp
  obtain ⟨nt, n1, n2⟩ := optName_reads hname
  refine ⟨c!"[" ++ (nameTextOf u name ++ typesText types ++ hopsTextOf len) ++ (s ++ c!"]"),
    .sym '[' :: (nt ++ (typeToks (types.filter (· ≠ [])) ++ (hopsToks (hopsV len) ++ (ts ++ [.sym ']'])))), fun ps => ?_, ?_, ?_⟩
  · have := p1 (.lit c!"]" :: ps)
    simp only [List.cons_append, List.nil_append, List.append_assoc, layout, this]
  · intro r rs hr
    simp only [List.append_assoc, List.cons_append, List.nil_append]
    have h0 : Tokens u (']' :: r) (.sym ']' :: rs) := Tokens.sym (by simp [symbols]) (by simp) hr
    have f0 : Follow u (s ++ ']' :: r) := by
      rcases p4 with rfl | ⟨x, rfl⟩
      · exact Follow.mark (by decide) _
      · exact Follow.mark (by decide) _
    have h1 := hops_lexes hl f0 (p2 ']' r _ (by decide) h0)
    have h2 := types_lexes ht h1.2 h1.1
    exact Tokens.sym (by simp [symbols]) (by simp) (n1 _ _ h2.2 h2.1)
  · intro a r
    obtain ⟨N, hN⟩ := p3 ']' r (by decide)
    refine ⟨N, fun n hn => ?_⟩
    simp only [List.append_assoc, List.cons_append, List.nil_append, detailBy]
    have g1 : ∃ c r', ts ++ .sym ']' :: r = .sym c :: r' ∧ (c = '{' ∨ c = ']') := by
      rcases p5 with rfl | ⟨x, rfl⟩
      · exact ⟨_, _, rfl, .inr rfl⟩
      · exact ⟨_, _, rfl, .inl rfl⟩
    obtain ⟨c, r', hc, hcc⟩ := g1
    obtain ⟨c2, r2, hc2, hcc2⟩ := hopsToks_head (hopsV len) c r'
    obtain ⟨c3, r3, hc3⟩ := typeToks_head (types.filter (· ≠ [])) c2 r2
    have hx : optVar (nt ++ (typeToks (types.filter (· ≠ [])) ++ (hopsToks (hopsV len) ++ (ts ++ .sym ']' :: r)))) =
        (name, typeToks (types.filter (· ≠ [])) ++ (hopsToks (hopsV len) ++ (ts ++ .sym ']' :: r))) := by
      rw [hc, hc2, hc3, n2]
    rw [hx]
    have hy : typesOf (typeToks (types.filter (· ≠ [])) ++ (hopsToks (hopsV len) ++ (ts ++ .sym ']' :: r))) =
        (types.filter (· ≠ []), hopsToks (hopsV len) ++ (ts ++ .sym ']' :: r)) := by
      rw [hc, hc2]
      apply typesOf_toks
      · rcases hcc2 with rfl | rfl
        · simp
        · rcases hcc with rfl | rfl <;> simp
      · rcases hcc2 with rfl | rfl
        · simp
        · rcases hcc with rfl | rfl <;> simp
    rw [hy]
    have hz : lengthOf (hopsToks (hopsV len) ++ (ts ++ .sym ']' :: r)) = (hopsV len, ts ++ .sym ']' :: r) := by
      rw [hc]
      rcases hcc with rfl | rfl
      · exact lengthOf_toks _ (by decide) (by decide) (by decide) _
      · exact lengthOf_toks _ (by decide) (by decide) (by decide) _
    rw [hz]
    have := hN n hn
    simp only [readProps] at this
    simp only [this, Option.bind_some]

/-- The exact text of the details of a relationship. -/
theorem details_parts {a b : NodeV} {s : Step} {r : RelV} (hs : s.Ok u) (h : RelInv u a b s.dir (typesV s) s.calls r) (e : Env) :
    layout e (detailsTm u r.details).parts = layout e ([.lit (beforeRel s.dir)] ++
      (if s.head = ⟨none, [], .one⟩ ∧ (propsOf s.calls).isNone then [] else
        [.lit c!"[", .lit (nameTextOf u (nameOf s.calls) ++ typesText s.types ++ hopsTextOf r.details.length)] ++ propParts (propsOf s.calls) ++ [.lit c!"]"]) ++
      [.lit (afterRel s.dir)]) := by
  rcases s with ⟨k, kd, kt, dir, node, types, cs⟩
  obtain ⟨_, hd, ht, _⟩ := hs
  simp only [typesV] at h hd ht ⊢
  rw [detailsTm_parts]
  have h1 : beforeRel dir = r.details.dir.left := by rw [h.dir]; cases dir <;> first | rfl | exact absurd rfl hd
  have h2 : afterRel dir = r.details.dir.right := by rw [h.dir]; cases dir <;> first | rfl | exact absurd rfl hd
  have h3 : typesTextO r.details.types = typesText types := by
    rw [h.types]
    by_cases h0 : types = []
    · simp [h0, typesTextO, typesText]
    · simp [h0, typesTextO]
  have h4 : ((⟨nameOf cs, types.filter (· ≠ []), hopsOf cs⟩ : RelHead) = ⟨none, [], .one⟩ ∧ (propsOf cs).isNone = true) ↔
      r.details.hasContent = false := by
    rw [DetailsV.hasContent, ← h.name, ← h.props, ← h.hops, h.types]
    have h5 : types.filter (· ≠ []) = [] ↔ types = [] := by
      refine ⟨fun h0 => Classical.byContradiction fun hn => filter_ne_nil ht hn h0, ?_⟩
      rintro rfl
      rfl
    have h6 : hopsV r.details.length = .one ↔ r.details.length = none := by
      rcases r.details.length with _ | l
      · simp [hopsV]
      · simp only [hopsV, reduceCtorEq, iff_false]
        split <;> simp
    simp only [RelHead.mk.injEq, h5, h6]
    by_cases h0 : types = [] <;> rcases r.details.name with _ | ⟨kn, s⟩ <;> rcases r.details.props with _ | ⟨kp, m⟩ <;>
      rcases r.details.length with _ | l <;> simp [h0]
  rw [← h1, ← h2, h3, h.name, h.props]
  change Step.head ⟨k, kd, kt, dir, node, types, cs⟩ = _ ∧ _ ↔ _ at h4
  by_cases hc : r.details.hasContent = true
  · rw [if_pos hc, if_neg (by rw [h4]; simp [hc])]
  · rw [if_neg hc, if_pos (by rw [h4]; simpa using hc)]

theorem details_reads (hR : ∀ v d σ, R v d σ → Good' u I tight v d σ) {e : Env} {n : NodeV} {s : Step} {r : RelV} {a : Arrow} {p : Option I.D} (hs : s.Ok u) (h : RelInv u n s.node s.dir (typesV s) s.calls r)
    (ha : arrowOf s.dir = some a) (hname : ∀ x, nameOf s.calls = some x → VarName u x) (hp : PropsMean u R e (propsOf s.calls) p) :
    ∃ t ts, layout e (detailsTm u r.details).parts = (t, e) ∧ LexesAny u t ts ∧
      (∀ rest, RRel I tight (ts ++ .sym '(' :: rest) ⟨a, nameOf s.calls, s.types.filter (· ≠ []), hopsOf s.calls, p⟩ (.sym '(' :: rest)) ∧
      (∃ r, ts = .sym '<' :: r ∨ ts = .sym '-' :: r) ∧ t.head? ≠ some '.' := by
  have key : ∃ t ts, (∀ ps, layout e ((if s.head = ⟨none, [], .one⟩ ∧ (propsOf s.calls).isNone then [] else
        [.lit c!"[", .lit (nameTextOf u (nameOf s.calls) ++ typesText s.types ++ hopsTextOf r.details.length)] ++ propParts (propsOf s.calls) ++ [.lit c!"]"]) ++ ps) =
        (t ++ (layout e ps).1, (layout e ps).2)) ∧ LexesAny u t ts ∧
      ∀ a rest, RDetail I tight a (ts ++ .sym '-' :: rest) ⟨a, nameOf s.calls, s.types.filter (· ≠ []), hopsOf s.calls, p⟩ (.sym '-' :: rest) := by
    by_cases hc : s.head = ⟨none, [], .one⟩ ∧ (propsOf s.calls).isNone = true
    · obtain ⟨h1, h2⟩ := hc
      have h0 := h1
      have hm : propsOf s.calls = none := by simpa using h2
      have hp' : p = none := by
        rw [hm] at hp
        cases p with
        | none => rfl
        | some _ => exact hp.elim
      simp only [Step.head, RelHead.mk.injEq] at h1
      refine ⟨[], [], fun ps => by rw [if_pos ⟨h0, h2⟩]; rfl, LexesAny.nil, fun a rest => ⟨0, fun n _ => ?_⟩⟩
      rw [h1.1, h1.2.1, h1.2.2, hp']
      simp [detailBy]
    · obtain ⟨t, ts, h1, h2, h3⟩ := detail_reads hR hname hs.2.2.1 h.hopsOk hp
      refine ⟨t, ts, fun ps => by rw [if_neg hc]; exact h1 ps, h2, fun a rest => ?_⟩
      rw [← h.hops]
      exact h3 a _
  obtain ⟨t, ts, h1, h2, h3⟩ := key
  have hlay := details_parts hs h e
  have hl2 := h1 [.lit (afterRel s.dir)]
  have hdir : s.dir = .ltr ∧ a = .right ∨ s.dir = .rtl ∧ a = .left ∨ s.dir = .uni ∧ a = .either := by
    revert ha
    cases s.dir <;> simp [arrowOf, eq_comm]
  rcases hdir with ⟨hd, rfl⟩ | ⟨hd, rfl⟩ | ⟨hd, rfl⟩
  · rw [hd] at hlay hl2
    simp only [beforeRel, afterRel] at hlay hl2
    refine ⟨c!"-" ++ (t ++ c!"->"), .sym '-' :: (ts ++ [.sym '-', .sym '>']), ?_, ?_, fun rest => ?_, ⟨_, .inr rfl⟩, by simp⟩
    · rw [hlay]
      simp only [List.append_assoc, List.cons_append, List.nil_append, layout] at hl2 ⊢
      rw [hl2]
    · exact (LexesAny.sym (by simp [symbols]) (by decide)).append (h2.append (LexesAny.append (s := ['-']) (ts := [.sym '-']) (LexesAny.sym (by simp [symbols]) (by decide)) (LexesAny.sym (c := '>') (by simp [symbols]) (by decide))))
    · obtain ⟨N, hN⟩ := h3 .right (.sym '>' :: .sym '(' :: rest)
      refine ⟨N, fun n hn => ?_⟩
      simp only [List.append_assoc, List.cons_append, List.nil_append, readRel, relBy, hN n hn, Option.bind_some]
  · rw [hd] at hlay hl2
    simp only [beforeRel, afterRel] at hlay hl2
    refine ⟨c!"<-" ++ (t ++ c!"-"), .sym '<' :: .sym '-' :: (ts ++ [.sym '-']), ?_, ?_, fun rest => ?_, ⟨_, .inl rfl⟩, by simp⟩
    · rw [hlay]
      simp only [List.append_assoc, List.cons_append, List.nil_append, layout] at hl2 ⊢
      rw [hl2]
    · exact (LexesAny.sym (by simp [symbols]) (by decide)).append ((LexesAny.sym (by simp [symbols]) (by decide)).append (h2.append (LexesAny.sym (by simp [symbols]) (by decide))))
    · obtain ⟨N, hN⟩ := h3 .left (.sym '(' :: rest)
      refine ⟨N, fun n hn => ?_⟩
      simp only [List.append_assoc, List.cons_append, List.nil_append, readRel, relBy, hN n hn, Option.bind_some]
      rfl
  · rw [hd] at hlay hl2
    simp only [beforeRel, afterRel] at hlay hl2
    refine ⟨c!"-" ++ (t ++ c!"-"), .sym '-' :: (ts ++ [.sym '-']), ?_, ?_, fun rest => ?_, ⟨_, .inr rfl⟩, by simp⟩
    · rw [hlay]
      simp only [List.append_assoc, List.cons_append, List.nil_append, layout] at hl2 ⊢
      rw [hl2]
    · exact (LexesAny.sym (by simp [symbols]) (by decide)).append (h2.append (LexesAny.sym (by simp [symbols]) (by decide)))
    · obtain ⟨N, hN⟩ := h3 .right (.sym '(' :: rest)
      refine ⟨N, fun n hn => ?_⟩
      simp only [List.append_assoc, List.cons_append, List.nil_append, readRel, relBy, hN n hn, Option.bind_some]
      rfl

/-! ### Chains -/

def RSteps (I : Meaning) (tight : Bool) (ts : List Token) (d : List (RelPat I.D × NodePat I.D)) (r : List Token) : Prop :=
  ∃ N, ∀ n ≥ N, ∀ m ≥ N, stepsBy (readAtom I tight n) m ts = some (d, r)

def RPath (I : Meaning) (tight : Bool) (ts : List Token) (d : PathPat I.D) (r : List Token) : Prop := ∃ N, ∀ n ≥ N, readPath I tight n ts = some (d, r)

/-- No relationship follows. -/
def NoArrow (r : List Token) : Prop := r.head? ≠ some (.sym '<') ∧ r.head? ≠ some (.sym '-')

theorem RSteps.nil {r : List Token} (h : NoArrow r) : RSteps I tight r [] r := by
  refine ⟨1, fun n _ m hm => ?_⟩
  obtain ⟨m, rfl⟩ : ∃ m', m = m' + 1 := ⟨m - 1, by omega⟩
  have : relBy (readAtom I tight n) r = none := by
    unfold relBy
    split
    · exact absurd rfl h.1
    · exact absurd rfl h.2
    · rfl
  simp [stepsBy, stepBy, this]

theorem RSteps.cons {ts r r' r'' : List Token} {d : RelPat I.D} {p : NodePat I.D} {ps : List (RelPat I.D × NodePat I.D)}
    (h1 : RRel I tight ts d r) (h2 : RNode I tight r p r') (h3 : RSteps I tight r' ps r'') :
    RSteps I tight ts ((d, p) :: ps) r'' := by
  obtain ⟨N1, h1⟩ := h1
  obtain ⟨N2, h2⟩ := h2
  obtain ⟨N3, h3⟩ := h3
  refine ⟨N1 + N2 + N3 + 1, fun n hn m hm => ?_⟩
  obtain ⟨m, rfl⟩ : ∃ m', m = m' + 1 := ⟨m - 1, by omega⟩
  have g1 := h1 n (by omega)
  have g2 := h2 n (by omega)
  simp only [readRel, readNode] at g1 g2
  simp [stepsBy, stepBy, g1, g2, h3 n (by omega) m (by omega)]

/-- The text of relationships after the first node. -/
def chainPs (u : Unicode) (rs : List RelV) : List Part := rs.flatMap fun r => (detailsTm u r.details).parts ++ [.hole (r.right.visit u)]

theorem chainTms_exact {n : NodeV} {ss : List Step} {rs : List RelV} (h : RelsOk u n ss rs) (b : Bool) (e : Env) :
    layout e (Tm.partsL false b (chainTms u rs ++ [.hole ((lastNode n ss).visit u)])) = layout e (.hole (n.visit u) :: chainPs u rs) := by
  induction ss generalizing n rs b e with
  | nil =>
    cases rs with
    | cons _ _ => exact h.elim
    | nil => simp [chainTms, Tm.partsL, Tm.parts, layout, sepText, lastNode, chainPs]
  | cons s ss ih =>
    cases rs with
    | nil => exact h.elim
    | cons r rs =>
      obtain ⟨hr, hrest⟩ := h
      have : chainTms u (r :: rs) ++ [Tm.hole ((lastNode n (s :: ss)).visit u)] =
          .hole (n.visit u) :: detailsTm u r.details :: (chainTms u rs ++ [.hole ((lastNode s.node ss).visit u)]) := by
        simp [chainTms, hr.left, lastNode]
      rw [this]
      simp [Tm.partsL, Tm.parts, layout, sepText, layout_append, ih hrest, chainPs, hr.right]

theorem details_settled {e : Env} {n : NodeV} {s : Step} {r : RelV} {p : Option I.D} (h : RelInv u n s.node s.dir (typesV s) s.calls r)
    (hp : PropsMean u R e (propsOf s.calls) p) : Settled e (r.details.visit u) := by
  refine Settled.cons rfl ?_ Settled.nil
  refine Settled.append.mpr ⟨Settled.append.mpr ⟨Settled.append.mpr ⟨name_settled _ _, ?_⟩, ?_⟩, propsVisit_settled hp h.props⟩
  · rcases r.details.types with _ | ⟨k, ts⟩
    · exact Settled.nil
    · exact Settled.cons rfl Settled.nil Settled.nil
  · rcases r.details.length with _ | l
    · exact Settled.nil
    · exact Settled.cons rfl Settled.nil Settled.nil

/-- Relationships and nodes after a node. -/
theorem steps_reads (hR : ∀ v d σ, R v d σ → Good' u I tight v d σ) {e e' : Env} {n : NodeV} {ss : List Step} {ps : List (RelPat I.D × NodePat I.D)} {rs : List RelV} (h : StepsMean u R e ss ps e')
    (hr : RelsOk u n ss rs) :
    ∃ t ts, layout e (chainPs u rs) = (t, e') ∧ LexesAny u t ts ∧ (∀ r, NoArrow r → RSteps I tight (ts ++ r) ps r) ∧ e'.al = e.al ∧
      (∀ r ∈ rs, Settled e (r.details.visit u) ∧ Settled e (r.right.visit u)) ∧ (ss ≠ [] → Settled e (n.visit u) → ∀ r ∈ rs, Settled e (r.left.visit u)) := by
  induction h generalizing n rs with
  | nil =>
    cases rs with
    | cons _ _ => exact hr.elim
    | nil => exact ⟨[], [], rfl, LexesAny.nil, fun r h => RSteps.nil h, rfl, by simp, by simp⟩
  | @cons e e1 e2 s ss a p np ps h1 h2 h3 h4 h5 h6 ih =>
    cases rs with
    | nil => exact hr.elim
    | cons r rs =>
      obtain ⟨hr, hrest⟩ := hr
      obtain ⟨t, ts, i1, i2, i3, i4, i5, i6⟩ := ih hrest
      obtain ⟨dt, dts, d1, d2, d3, d4, _⟩ := details_reads hR h1 hr h2 h3 h4
      obtain ⟨st, sts, s1, s2, s3, s4, s5, _, _⟩ := node_reads hR h5
      refine ⟨dt ++ (st ++ t), dts ++ (.sym '(' :: sts ++ ts), ?_, d2.append (s2.append i2), fun r' hr' => ?_, i4.trans s4, ?_, ?_⟩
      · have : chainPs u (r :: rs) = (detailsTm u r.details).parts ++ (.hole (s.node.visit u) :: chainPs u rs) := by simp [chainPs, hr.right]
        rw [this, layout_append, d1]
        simp only [layout]
        unfold shownAs at s1
        rw [s1, i1]
      · have := RSteps.cons (I := I) (tight := tight) (ts := dts ++ .sym '(' :: (sts ++ (ts ++ r'))) (d3 _) (s3 _) (i3 r' hr')
        simpa using this
      · intro x hx
        rcases List.mem_cons.mp hx with rfl | hx
        · exact ⟨details_settled hr h4, by rw [hr.right]; exact s5⟩
        · exact ⟨(i5 x hx).1.congr s4, (i5 x hx).2.congr s4⟩
      · intro _ hn x hx
        rcases List.mem_cons.mp hx with rfl | hx
        · rw [hr.left]; exact hn
        · cases ss with
          | nil =>
            cases rs with
            | nil => simp at hx
            | cons _ _ => exact hrest.elim
          | cons t ss => exact (i6 (by simp) (s5.congr s4.symm) x hx).congr s4

theorem Settled_flatMap {α : Type} {e : Env} {f : α → List Tree} {xs : List α} (h : ∀ x ∈ xs, Settled e (f x)) : Settled e (xs.flatMap f) := by
  induction xs with
  | nil => exact Settled.nil
  | cons x xs ih =>
    rw [List.flatMap_cons]
    exact Settled.append.mpr ⟨h x (by simp), ih fun y hy => h y (by simp [hy])⟩

theorem stepsMean_ok {e e' : Env} {ss : List Step} {ps : List (RelPat I.D × NodePat I.D)} (h : StepsMean u R e ss ps e') : ∀ s ∈ ss, s.Ok u := by
  induction h with
  | nil => simp
  | cons h1 _ _ _ _ _ ih =>
    intro s hs
    rcases List.mem_cons.mp hs with rfl | hs
    · exact h1
    · exact ih s hs

theorem lastNode_getLast (n : NodeV) (ss : List Step) (h : ss ≠ []) : lastNode n ss = (ss.getLast h).node := by
  induction ss generalizing n with
  | nil => exact absurd rfl h
  | cons s ss ih =>
    cases ss with
    | nil => rfl
    | cons t ss => exact ih s.node (by simp)

theorem path_reads (hR : ∀ v d σ, R v d σ → Good' u I tight v d σ) {e e' : Env} {v : Val} {p : PathPat I.D} (h : PathMeans u R e v p e') :
    ∃ s ts, shownAs e v.visit = (s, e') ∧ LexesAny u s (.sym '(' :: ts) ∧ (∀ r, NoArrow r → RPath I tight (.sym '(' :: ts ++ r) p r) ∧ e'.al = e.al ∧
      Settled e v.visit ∧ v.err = none := by
  have join : ∀ {ts1 ts2 : List Token} {np : NodePat I.D} {ps : List (RelPat I.D × NodePat I.D)},
      (∀ r, RNode I tight (.sym '(' :: ts1 ++ r) np r) → (∀ r, NoArrow r → RSteps I tight (ts2 ++ r) ps r) → ∀ r, NoArrow r →
      RPath I tight (.sym '(' :: (ts1 ++ ts2) ++ r) ⟨np, ps⟩ r := by
    intro ts1 ts2 np ps h1 h2 r hr
    obtain ⟨N1, h1⟩ := h1 (ts2 ++ r)
    obtain ⟨N2, h2⟩ := h2 r hr
    refine ⟨N1 + N2, fun n hn => ?_⟩
    have e1 : Token.sym '(' :: (ts1 ++ ts2) ++ r = .sym '(' :: ts1 ++ (ts2 ++ r) := by simp
    have g1 := h1 n (by omega)
    simp only [readNode] at g1
    rw [readPath, e1, pathBy, g1, Option.bind_some, h2 n (by omega) n (by omega)]
    rfl
  cases h with
  | @node _ n np hn =>
    obtain ⟨s, ts, s1, s2, s3, s4, s5, s6, _⟩ := node_reads hR hn
    refine ⟨s, ts, s1, s2, fun r hr => ?_, s4, s5, s6⟩
    have := join (ts2 := []) s3 (fun r hr => RSteps.nil hr) r hr
    simpa using this
  | @rel e1 _ n s np ps hn hs hk =>
    obtain ⟨t, ts, s1, s2, s3, s4, s5, s6, _⟩ := node_reads hR hn
    have hok := stepsMean_ok hs s (by simp)
    have inv := first_inv s6 hok
    obtain ⟨ct, cts, c1, c2, c3, c4, c5, c6⟩ := steps_reads hR (n := n) (rs := [s.first n]) hs ⟨inv, trivial⟩
    have hset : Settled e ((s.first n).visit u) := by
      refine Settled.cons rfl ?_ Settled.nil
      have g := c5 (s.first n) (by simp)
      rw [inv.left]
      exact Settled.append.mpr ⟨Settled.append.mpr ⟨s5, g.1.congr s4⟩, g.2.congr s4⟩
    refine ⟨t ++ ct, ts ++ cts, ?_, ?_, join s3 c3, c4.trans s4, hset, inv.err⟩
    · have := rel_shown (ps := (detailsTm u (s.first n).details).parts) (hset.noAlias hk) fun _ => rfl
      refine this.trans ?_
      rw [inv.left]
      simp only [chainPs, List.flatMap_cons, List.flatMap_nil, List.append_nil] at c1
      unfold shownAs at s1
      simp only [List.cons_append, List.nil_append, layout, s1]
      rw [c1]
    · exact s2.append c2
  | @chain e1 _ n s t more c np ps hn hs hl hc hk =>
    obtain ⟨tx, ts, s1, s2, s3, s4, s5, s6, _⟩ := node_reads hR hn
    have hok := stepsMean_ok hs
    obtain ⟨c', hc', he, hnn, hr⟩ := chainRun_ok s6 more (hok s (by simp)) (hok t (by simp)) (fun x hx => hok x (by simp [hx]))
    obtain rfl : c = c' := by rw [hc] at hc'; injection hc'
    obtain ⟨ct, cts, c1, c2, c3, c4, c5, c6⟩ := steps_reads hR hs hr
    obtain ⟨r, hr1, hr2⟩ := relsOk_last hr (by simp)
    have hlast : (lastNode n (s :: t :: more)).notNil = true := by rw [lastNode_getLast _ _ (by simp)]; exact hl
    have hset : Settled e (c.visit u) := by
      refine Settled.cons rfl ?_ Settled.nil
      refine Settled.append.mpr ⟨Settled_flatMap fun x hx => Settled.append.mpr ⟨?_, (c5 x hx).1.congr s4⟩, ?_⟩
      · exact (c6 (by simp) (s5.congr s4.symm) x hx).congr s4
      · rw [hr1]
        simp only [ChainV.lastVisit]
        split
        · exact ((c5 r (List.mem_of_getLast? hr1)).2).congr s4
        · exact Settled.nil
    refine ⟨tx ++ ct, ts ++ cts, ?_, s2.append c2, join s3 c3, c4.trans s4, hset, he⟩
    have hlay : layout e (.hole (n.visit u) :: chainPs u c.rels) = (tx ++ ct, e') := by
      unfold shownAs at s1
      simp only [layout, s1, c1]
    rw [← hlay]
    refine shown_self (.node 0 [] [] false (chainTms u c.rels ++ [.hole ((lastNode n (s :: t :: more)).visit u)])) ?_ ?_ ?_ ?_
    · simp [Tm.trees, treesL_append, chainTms_trees, Tm.treesL, ChainV.toVal, ChainV.visit, hr1, ChainV.lastVisit, hr2, hlast]
    · simp [Tm.Ok, okL_append, chainTms_ok, Tm.OkL]
    · intro k hk'
      apply hset.noAlias hk
      simpa [Tm.keys, keysL_append, chainTms_keys, chainKeys, Tm.keysL] using hk'
    · simp [Tm.parts, layout, layout_append, chainTms_exact hr]

/-! ### Elements of patterns -/

def RElement (I : Meaning) (tight : Bool) (ts : List Token) (d : Element I.D) (r : List Token) : Prop := ∃ N, ∀ n ≥ N, readElement I tight n ts = some (d, r)

theorem RElement.path {ts r : List Token} {p : PathPat I.D} (h : RPath I tight (.sym '(' :: ts) p r) : RElement I tight (.sym '(' :: ts) ⟨none, none, p⟩ r := by
  obtain ⟨N, h⟩ := h
  refine ⟨N, fun n hn => ?_⟩
  have := h n hn
  simp only [readPath] at this
  simp [readElement, elementBy, varOf, anonymousBy, this]

theorem RElement.named {t : Token} {x : Str} {ts r : List Token} {p : PathPat I.D} (hx : VarName u x) (ht : IsName t x) (h : RPath I tight (.sym '(' :: ts) p r) :
    RElement I tight (t :: .sym '=' :: .sym '(' :: ts) ⟨some x, none, p⟩ r := by
  obtain ⟨N, h⟩ := h
  refine ⟨N, fun n hn => ?_⟩
  have := h n hn
  simp only [readPath] at this
  simp [readElement, elementBy, varOf_name ht hx, anonymousBy, this]

theorem RElement.shortest {t : Token} {x : Str} {ts r : List Token} {p : PathPat I.D} (hx : VarName u x) (ht : IsName t x)
    (h : RPath I tight (.sym '(' :: ts) p (.sym ')' :: r)) :
    RElement I tight (t :: .sym '=' :: .word c!"shortestPath" :: .sym '(' :: .sym '(' :: ts) ⟨some x, some c!"shortestPath", p⟩ r := by
  obtain ⟨N, h⟩ := h
  refine ⟨N, fun n hn => ?_⟩
  have hl : lower c!"shortestPath" = c!"shortestpath" := by decide
  have := h n hn
  simp only [readPath] at this
  simp [readElement, elementBy, varOf_name ht hx, anonymousBy, this, hl]

theorem element_reads (hR : ∀ v d σ, R v d σ → Good' u I tight v d σ) {e e' : Env} {v : Val} {p : Element I.D} (h : ElementMeans u R e v p e') :
    ∃ s ts, shownAs e v.visit = (s, e') ∧ LexesAny u s ts ∧ (∀ r, NoArrow r → RElement I tight (ts ++ r) p r) ∧ e'.al = e.al := by
  cases h with
  | path hp =>
    obtain ⟨s, ts, h1, h2, h3, h4, _⟩ := path_reads hR hp
    exact ⟨s, _, h1, h2, fun r hr => RElement.path (h3 r hr), h4⟩
  | @named _ v p guid k kn x hp he hx hk =>
    obtain ⟨s, ts, h1, h2, h3, h4, h5, _⟩ := path_reads hR hp
    have hne : x ≠ [] := name_ne hx.1
    obtain ⟨t, t1, t2, _⟩ := Lexes.name hx.1
    have hset : Settled e (aPath u guid k kn x v).visit := by
      have : aPath u guid k kn x v = .mk' k [nd k [] [] false ([leaf kn (escapeIfNecessary u x)] ++ [Op.assignment.visit] ++ v.visit)] := by
        simp [aPath, namedPath, hne, he, pathName, nameVisit]
      rw [this]
      exact Settled.cons rfl (Settled.append.mpr ⟨Settled.append.mpr ⟨Settled.cons rfl Settled.nil Settled.nil, Settled.cons rfl Settled.nil Settled.nil⟩, h5⟩) Settled.nil
    have hshow := (C46_path (u := u) (e := e) guid k kn x v hne he).2 (hset.noAlias hk)
    refine ⟨escapeIfNecessary u x ++ (' ' :: '=' :: ' ' :: s), [t] ++ (.sym '=' :: .sym '(' :: ts), ?_, ?_, fun r hr => RElement.named hx t1 (h3 r hr), h4⟩
    · rw [hshow]
      unfold shownAs at h1
      simp [layout, h1]
    · exact Lexes.mark t2 (by decide) (LexesAny.sp (LexesAny.append (s := ['=']) (ts := [.sym '=']) (LexesAny.sym (by simp [symbols]) (by decide)) h2.sp))
  | @shortest _ r p k kn kf ka x hp he hnn hx hk =>
    obtain ⟨s, ts, h1, h2, h3, h4, h5, _⟩ := path_reads hR hp
    have hne : x ≠ [] := name_ne hx.1
    obtain ⟨t, t1, t2, _⟩ := Lexes.name hx.1
    have hset : Settled e (aShortestPath u k kn kf ka x r).visit := by
      have hi : functionInvocationPattern kf ka fnShortestPath (some (r.toVal u)) = invocation kf ka c!"shortestPath" (r.visit u) := by
        simp [functionInvocationPattern, firstErr, errOf, nilErr, missing, RelV.toVal, he, hnn, fnShortestPath]
      have h : aShortestPath u k kn kf ka x r = .mk' k [nd k [] [] false ([leaf kn (escapeIfNecessary u x)] ++ [Op.assignment.visit] ++
          (invocation kf ka c!"shortestPath" (r.visit u)).visit)] := by
        simp only [aShortestPath, hne, he, if_false, namedPath, hi]
        rfl
      rw [h]
      refine Settled.cons rfl (Settled.append.mpr ⟨Settled.append.mpr ⟨Settled.cons rfl Settled.nil Settled.nil, Settled.cons rfl Settled.nil Settled.nil⟩, ?_⟩) Settled.nil
      exact Settled.cons rfl (Settled.cons rfl h5 Settled.nil) Settled.nil
    have hshow := ((C46_shortestPath (u := u) (e := e) k kn kf ka x r).2 hne he hnn).2 (hset.noAlias hk)
    refine ⟨escapeIfNecessary u x ++ (' ' :: '=' :: ' ' :: (c!"shortestPath" ++ '(' :: (s ++ c!")"))),
      [t] ++ (.sym '=' :: ([.word c!"shortestPath"] ++ .sym '(' :: (.sym '(' :: ts ++ [.sym ')']))), ?_, ?_, fun r' hr => ?_, h4⟩
    · rw [hshow]
      unfold shownAs at h1
      simp only [RelV.toVal] at h1
      simp [layout, h1]
    · refine Lexes.mark t2 (by decide) (LexesAny.sp (LexesAny.append (s := ['=']) (ts := [.sym '=']) (LexesAny.sym (by simp [symbols]) (by decide)) (LexesAny.sp ?_)))
      refine Lexes.mark (s := c!"shortestPath") (ts := [.word c!"shortestPath"]) (c := '(') (fun r rs hf hr => Tokens.word (ascii_word (by decide)) hf.part hr) (by decide) ?_
      exact LexesAny.append (s := ['(']) (ts := [.sym '(']) (LexesAny.sym (by simp [symbols]) (by decide)) (h2.append (LexesAny.sym (by simp [symbols]) (by decide)))
    · have := RElement.shortest (I := I) (tight := tight) hx t1 (h3 (.sym ')' :: r') ⟨by simp, by simp⟩)
      simpa using this

end Verif.Rd
