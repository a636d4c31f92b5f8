import Verif.DenoteSpec
import Verif.ReadLemmas2
import Verif.PropsLexical
import Verif.PropsArith
import Verif.PropsExprs2

/-
Expressions built with the DSL are read back as what they mean: one lemma for each call.
-/

namespace Verif.Rd
open Spec

variable {u : Unicode} {I : Meaning} {tight : Bool}

/-- No alias is defined. -/
def Free (e : Env) : Prop := ∀ k, e.al k = none

theorem Free.noAlias {e : Env} (h : Free e) {ts : List Tree} (hd : dkeysL ts = []) (ks : List Key) : NoAlias e ks ts :=
  fun k _ => ⟨h k, by simp [hd]⟩

/-- The text of a list of parts. -/
def Shows (ps : List Part) (s : Str) : Prop := ∀ e, Free e → layout e ps = (s, e)

theorem Shows.nil : Shows [] [] := fun _ _ => rfl

theorem Shows.lit (x : Str) {ps : List Part} {s : Str} (h : Shows ps s) : Shows (.lit x :: ps) (x ++ s) := by
  intro e he
  simp [layout, h e he]

/-- The text of a value. -/
def Text (v : Val) (s : Str) : Prop := ∀ e, Free e → shownAs e v.visit = (s, e)

theorem Shows.hole {v : Val} {x : Str} (hv : Text v x) {ps : List Part} {s : Str} (h : Shows ps s) : Shows (.hole v.visit :: ps) (x ++ s) := by
  intro e he
  have := hv e he
  simp only [shownAs] at this
  simp [layout, this, h e he]

theorem Shows.append {ps qs : List Part} {s t : Str} (h : Shows ps s) (h' : Shows qs t) : Shows (ps ++ qs) (s ++ t) := by
  intro e he
  simp [layout_append, h e he, h' e he]

def level : CallKind → Nat
  | .membership => 3
  | .label => 3
  | .mixed => 3
  | .condition => 3
  | .power => 8
  | .negative => 9
  | .atom => 11

/-- After a name as the first token, the second one is not IN. -/
def NoIn (ts : List Token) : Prop := ∀ t t' r, ts = t :: t' :: r → (∀ c, t ≠ .sym c) → t'.is c!"in" = false

theorem NoIn.one (t : Token) : NoIn [t] := by intro _ _ _ h; cases h
theorem NoIn.sym (t : Token) (c : Char) (r : List Token) : NoIn (t :: .sym c :: r) := by
  intro _ _ _ h _; cases h; rfl
theorem NoIn.after (c : Char) (ts : List Token) : NoIn (.sym c :: ts) := by
  intro _ _ _ h h'; cases h; exact absurd rfl (h' c)
theorem NoIn.append {as bs : List Token} (ha : NoIn as) (hn : as ≠ []) (hb : ∀ t r, bs = t :: r → t.is c!"in" = false) : NoIn (as ++ bs) := by
  intro t t' r h hs
  rcases as with _ | ⟨a, _ | ⟨a', as⟩⟩
  · exact absurd rfl hn
  · simp only [List.cons_append, List.nil_append, List.cons.injEq] at h
    exact hb t' r h.2
  · simp only [List.cons_append, List.cons.injEq] at h
    rw [← h.2.1]
    exact ha a a' as rfl (by rw [h.1]; exact hs)

theorem Head.ne {j : Nat} {ts : List Token} (h : Head j ts) : ts ≠ [] := by
  obtain ⟨t, r, rfl, _⟩ := h; simp

theorem Head.append {j : Nat} {ts : List Token} (h : Head j ts) (r : List Token) : Head j (ts ++ r) := by
  obtain ⟨t, r', rfl, h'⟩ := h
  exact ⟨t, r' ++ r, rfl, h'⟩

theorem Head.sym {c : Char} (hc : c ∈ ['(', '[', '{']) (j : Nat) (r : List Token) : Head j (.sym c :: r) := by
  refine ⟨_, _, rfl, fun _ => rfl, fun _ h => ?_, fun w h => (by cases h), fun c' h => ?_⟩
  · cases h; simp at hc
  · cases h; simp at hc; rcases hc with h | h | h <;> simp [h]

theorem Head.word {w : Str} (h1 : lower w ∉ [c!"not", c!"when", c!"distinct", c!"in"]) (j : Nat) (r : List Token) : Head j (.word w :: r) := by
  simp only [List.mem_cons, not_or] at h1
  exact ⟨_, _, rfl, fun _ => by simp [Token.is, h1], fun _ h => (by cases h), fun w h => by cases h; simp [h1], fun c h => by cases h⟩

theorem Head.reserved {w : Str} (h : lower w ∉ reserved) (j : Nat) (r : List Token) : Head j (.word w :: r) := by
  apply Head.word
  simp only [Spec.reserved, List.mem_cons, not_or] at h ⊢
  simp [h]

/-- Whatever follows, these tokens after an opening parenthesis are no node. -/
def Never (I : Meaning) (tight : Bool) (ts : List Token) : Prop := ∀ r, NotNode I tight (ts ++ r)

/-- The tokens do not begin with a pattern. -/
def NoPath (I : Meaning) (tight : Bool) (ts : List Token) : Prop := ∀ ts', ts = .sym '(' :: ts' → Never I tight ts'

/-- When an operator follows, these tokens after an opening parenthesis are no node. -/
def Apart (I : Meaning) (tight : Bool) (ts : List Token) : Prop :=
  ∀ t r, t ≠ .sym ')' → t ≠ .sym ':' → t ≠ .sym '{' → t ≠ .sym '(' → NotNode I tight (ts ++ t :: r)

/-- The tokens are not mistaken for a pattern or a bound variable. -/
structure Soft (I : Meaning) (tight : Bool) (ts : List Token) : Prop where
  noIn : NoIn ts
  noPath : NoPath I tight ts
  apart : Apart I tight ts

/-- The same, as far as it is true of a call of the kind; `c` says whether the value is a condition. -/
structure Extra (I : Meaning) (tight : Bool) (c : Bool) (σ : CallKind) (ts : List Token) : Prop where
  noIn : σ.first = true → NoIn ts
  noPath : σ.first = true → NoPath I tight ts
  apart : Apart I tight ts
  never : c = true → σ.operand = true → Never I tight ts
  whole : c = true → Whole I tight ts

theorem CallKind.first_operand {σ : CallKind} (h : σ.first = true) : σ.operand = true := by cases σ <;> simp_all [CallKind.first, CallKind.operand]

theorem Extra.soft {c : Bool} {σ : CallKind} {ts : List Token} (h : Extra I tight c σ ts) (hσ : σ.first = true) : Soft I tight ts :=
  ⟨h.noIn hσ, h.noPath hσ, h.apart⟩

theorem Soft.extra {σ : CallKind} {ts : List Token} (h : Soft I tight ts) : Extra I tight false σ ts :=
  ⟨fun _ => h.noIn, fun _ => h.noPath, h.apart, fun h => (by cases h), fun h => (by cases h)⟩

theorem Never.apart {ts : List Token} (h : Never I tight ts) : Apart I tight ts := fun t r _ _ _ _ => h (t :: r)
theorem Never.whole {ts : List Token} (h : Never I tight ts) : Whole I tight ts := fun r => .inl (h _)
theorem Never.append {ts : List Token} (h : Never I tight ts) (us : List Token) : Never I tight (ts ++ us) := fun r => by
  rw [List.append_assoc]; exact h _

theorem Never.extra {c : Bool} {σ : CallKind} {ts : List Token} (hn : Never I tight ts) (hi : σ.first = true → NoIn ts)
    (hp : σ.first = true → NoPath I tight ts) : Extra I tight c σ ts :=
  ⟨hi, hp, hn.apart, fun _ _ => hn, fun _ => hn.whole⟩

theorem Apart.never {ts us : List Token} {t : Token} (h : Apart I tight ts) (h1 : t ≠ .sym ')') (h2 : t ≠ .sym ':') (h3 : t ≠ .sym '{') (h4 : t ≠ .sym '(') :
    Never I tight (ts ++ t :: us) := fun r => by
  rw [List.append_assoc]; exact h t (us ++ r) h1 h2 h3 h4

theorem NoPath.head {t : Token} {ts : List Token} (h : t ≠ .sym '(') : NoPath I tight (t :: ts) := by
  intro ts' he
  cases he
  exact absurd rfl h

theorem NoPath.append {as bs : List Token} (h : NoPath I tight as) (hn : as ≠ []) : NoPath I tight (as ++ bs) := by
  intro ts' he
  cases as with
  | nil => exact absurd rfl hn
  | cons a as =>
    cases he
    exact (h as rfl).append bs

theorem Never.head {t : Token} {ts : List Token} (h : ∀ r, varOf (t :: r) = none) (h1 : t ≠ .sym ':') (h2 : t ≠ .sym '{') (h3 : t ≠ .sym ')') :
    Never I tight (t :: ts) := fun _ => NotNode.of_head (h _) h1 h2 h3

theorem Never.sym {c : Char} (hc : c ∈ ['(', '[', '-']) (ts : List Token) : Never I tight (.sym c :: ts) := by
  simp only [List.mem_cons, List.not_mem_nil, or_false] at hc
  rcases hc with rfl | rfl | rfl <;> exact Never.head (fun _ => rfl) (by simp) (by simp) (by simp)

/-- Tokens that begin with a symbol other than a brace. -/
theorem Extra.sym {b : Bool} {σ : CallKind} {c : Char} (hc : c ∈ ['[', '-']) (ts : List Token) : Extra I tight b σ (.sym c :: ts) := by
  refine (Never.sym ?_ ts).extra (fun _ => NoIn.after _ _) fun _ => NoPath.head ?_
  · simp only [List.mem_cons, List.not_mem_nil, or_false] at hc ⊢
    exact .inr hc
  · simp only [List.mem_cons, List.not_mem_nil, or_false] at hc
    rcases hc with rfl | rfl <;> simp

/-- A token that is no name. -/
theorem Extra.token {b : Bool} {σ : CallKind} {t : Token} (h : ∀ r, varOf (t :: r) = none) (h1 : ∀ c, t ≠ .sym c) : Extra I tight b σ [t] :=
  (Never.head h (h1 _) (h1 _) (h1 _)).extra (fun _ => NoIn.one _) fun _ => NoPath.head (h1 _)

/-- A function. -/
theorem Extra.call {b : Bool} {σ : CallKind} {t : Token} (h1 : ∀ c, t ≠ .sym c) (ts : List Token) : Extra I tight b σ (t :: .sym '(' :: ts) := by
  refine Never.extra (fun r => ?_) (fun _ => NoIn.sym _ _ _) fun _ => NoPath.head (h1 _)
  exact NotNode.of_second (by simp) (by simp) (by simp) (h1 _) (h1 _) (h1 _)

/-- A keyword. -/
theorem Extra.word {b : Bool} {σ : CallKind} {w : Str} (hw : lower w ∈ reserved ∨ lower w ∈ keywords) {ts : List Token} (hi : NoIn (.word w :: ts)) :
    Extra I tight b σ (.word w :: ts) :=
  (Never.head (fun r => by simp [varOf, hw]) (by simp) (by simp) (by simp)).extra (fun _ => hi) fun _ => NoPath.head (by simp)

/-- A name. -/
theorem IsName.soft {t : Token} {x : Str} (h : IsName t x) : Soft I tight [t] := by
  have ht : ∀ c, t ≠ .sym c := by rintro c rfl; rcases h with h | h <;> cases h
  exact ⟨.one _, NoPath.head (ht _), fun _ r h1 h2 h3 _ => NotNode.of_second h2 h3 h1 (ht _) (ht _) (ht _)⟩

/-- An operator after an operand. -/
theorem Soft.extra_append {b : Bool} {σ : CallKind} {ts us : List Token} {t : Token} (h : Soft I tight ts) (hn : ts ≠ []) (hi : σ.first = true → t.is c!"in" = false)
    (h1 : t ≠ .sym ')') (h2 : t ≠ .sym ':') (h3 : t ≠ .sym '{') (h4 : t ≠ .sym '(') : Extra I tight b σ (ts ++ t :: us) :=
  (h.apart.never h1 h2 h3 h4).extra (fun hσ => h.noIn.append hn (by rintro _ _ ⟨⟩; exact hi hσ)) fun _ => h.noPath.append hn

theorem Soft.append {ts us : List Token} {t : Token} (h : Soft I tight ts) (hn : ts ≠ []) (hi : t.is c!"in" = false)
    (h1 : t ≠ .sym ')') (h2 : t ≠ .sym ':') (h3 : t ≠ .sym '{') (h4 : t ≠ .sym '(') : Soft I tight (ts ++ t :: us) :=
  (Soft.extra_append (b := false) (σ := .atom) h hn (fun _ => hi) h1 h2 h3 h4).soft rfl

/-- What is shown of every value: it can be used, and its text reads as its meaning. -/
structure Good' (u : Unicode) (I : Meaning) (tight : Bool) (v : Val) (d : I.D) (σ : CallKind) : Prop where
  err : v.err = none
  nn : v.notNil = true
  one : Spec.One v.visit
  dk : dkeysL v.visit = []
  cond : σ.isCondition = true → v.isCond = true
  reads : ∃ s ts, Text v s ∧ Lexes u s ts ∧ Prefix I tight (level σ) ts d ∧ Head (level σ) ts ∧ Extra I tight v.isCond σ ts

theorem Good'.good {v : Val} {d : I.D} {σ : CallKind} (h : Good' u I tight v d σ) : Good v := ⟨h.err, h.nn⟩
theorem Good'.ok {v : Val} {d : I.D} {σ : CallKind} (h : Good' u I tight v d σ) : v.err = none ∧ v.notNil = true := ⟨h.err, h.nn⟩

/-- A value that reads as an operand of the level `j`. -/
def ReadsAt' (u : Unicode) (I : Meaning) (tight : Bool) (j : Nat) (s : Str) (d : I.D) : Prop :=
  ∃ ts, Lexes u s ts ∧ Prefix I tight j ts d ∧ Head j ts

/-- A leaf. -/
theorem leaf_good {k : Key} {s : Str} {d : I.D} {σ : CallKind} {c : Bool} {tag : Tag} {ts : List Token} (hc : σ.isCondition = true → c = true)
    (hl : Lexes u s ts) (hp : Prefix I tight (level σ) ts d) (hh : Head (level σ) ts) (hi : Extra I tight c σ ts) :
    Good' u I tight (.mk' k [leaf k s] c tag) d σ := by
  refine ⟨rfl, rfl, ⟨_, _, rfl⟩, by simp [Val.mk', dkeysL, dkeys_leaf], hc, s, ts, fun e he => ?_, hl, hp, hh, hi⟩
  simp [shownAs, Val.mk', leaf, nd, denL, den, shown, he k, sepText, described, defined, Vis.asAlias]

theorem Prefix.one {t : Token} {d : I.D} (h : ∀ n r, readAtom I tight (n + 1) (t :: r) = some (d, r)) : Prefix I tight 11 [t] d :=
  Prefix.atom fun r _ _ => RA.one fun n => h n r

theorem str_good (k : Key) (s : Str) : Good' u I tight (stringLiteral k s) (I.str s) .atom :=
  leaf_good (by simp [CallKind.isCondition]) (ts := [.str s]) (fun r rs _ h => Tokens.str s h)
    (Prefix.one fun n r => by rw [readAtom.eq_def]) ⟨_, _, rfl, fun _ => rfl, fun _ h => (by cases h), fun w h => (by cases h), fun c h => by cases h⟩ (.token (fun _ => rfl) (by simp))

theorem number_good {k : Key} {s : Str} {q : ℚ} (h : readUnsigned s = some q) : Good' u I tight (.mk' k [leaf k s]) (I.num q) .atom :=
  leaf_good (by simp [CallKind.isCondition]) (ts := [.num s]) (fun r rs hf ht => Tokens.num h hf ht)
    (Prefix.one fun n r => by rw [readAtom.eq_def]; simp [h])
    ⟨_, _, rfl, fun _ => rfl, fun _ h => (by cases h), fun w h => (by cases h), fun c h => by cases h⟩ (.token (fun _ => rfl) (by simp))

theorem negative_good {k : Key} {s : Str} {q : ℚ} (h : readUnsigned s = some q) :
    Good' u I tight (.mk' k [leaf k ('-' :: s)]) (I.num (-q)) .negative := by
  refine leaf_good (by simp [CallKind.isCondition]) (ts := [.sym '-', .num s]) (fun r rs hf ht => ?_) ?_
    ⟨_, _, rfl, fun _ => rfl, fun h => by simp [level] at h, fun w h => (by cases h), fun c h => by cases h; simp⟩ ?_
  · exact Tokens.sym (by simp [symbols]) (by simp) (Tokens.num h hf ht)
  · rw [← I.neg_num]
    refine Prefix.neg (Prefix.below (j := 11) (by omega) (by omega) ?_ (Prefix.one fun n r => by rw [readAtom.eq_def]; simp [h]))
    exact ⟨_, _, rfl, fun _ => rfl, fun _ h => (by cases h), fun w h => (by cases h), fun c h => by cases h⟩
  · exact Extra.sym (by simp) _

theorem unsigned_of_ten {t : Str} {q x : ℚ} (h : readNumber t = some q) (hx : TenDigits x) (hc : ∀ r, TenDigits r → |q - x| ≤ |r - x|) :
    readNumber t = some x := by
  have := hc x hx
  rw [sub_self, abs_zero] at this
  rw [h, sub_eq_zero.mp (abs_nonpos_iff.mp this)]

theorem float_good {k : Key} {neg : Bool} {m : Nat} {e : Int} {v : Val} (hv : floatLiteral k (.fin neg m e) = .ok v)
    (h : TenDigits (floatValue neg m e)) : Good' u I tight v (I.num (floatValue neg m e)) (if neg then .negative else .atom) := by
  obtain ⟨t, ht, hr⟩ := (C51_exact neg m e).mpr h
  simp only [floatLiteral, ht] at hv
  cases hv
  cases neg with
  | false =>
    simp only [floatText, Bool.false_eq_true, if_false, List.nil_append, Option.some.injEq] at ht
    rw [← ht, readNumber_plain (decimalText_head _ _)] at hr
    rw [← ht]
    exact number_good hr
  | true =>
    simp only [floatText, if_true, List.cons_append, List.nil_append, Option.some.injEq] at ht
    rw [← ht, readNumber, Option.map_eq_some_iff] at hr
    obtain ⟨q, h1, h2⟩ := hr
    rw [← ht, ← h2]
    exact negative_good h1

theorem int_good (k : Key) (i : Int) (h : TenDigits (i : ℚ)) : Good' u I tight (intLiteral k i) (I.num i) (if i < 0 then .negative else .atom) := by
  obtain ⟨q, hq, _, hc⟩ := C06_closest i
  have hr := unsigned_of_ten hq h hc
  cases i with
  | ofNat n =>
    rw [if_neg (by simp)]
    have : intLiteralText (Int.ofNat n) = bigFloatNatText n := by simp [intLiteralText]
    rw [this, ← decimalText_nat, readNumber_plain (decimalText_head _ _)] at hr
    unfold intLiteral
    rw [this, ← decimalText_nat]
    exact number_good hr
  | negSucc n =>
    rw [if_pos (by simp)]
    have : intLiteralText (Int.negSucc n) = '-' :: bigFloatNatText (n + 1) := by simp [intLiteralText]
    rw [this, readNumber, Option.map_eq_some_iff] at hr
    obtain ⟨q, h1, h2⟩ := hr
    unfold intLiteral
    rw [this, ← h2]
    exact negative_good h1

theorem ascii_word {w : Str} (h : (w != [] && w.all fun c => c.toNat < 128 && c.isAlpha) = true) : w ≠ [] ∧ ∀ c ∈ w, c.toNat < 128 ∧ c.isAlpha = true := by
  simp only [Bool.and_eq_true, bne_iff_ne, ne_eq, List.all_eq_true, decide_eq_true_eq] at h
  exact h

theorem bool_reads (b : Bool) : Lexes u (boolText b) [.word (boolText b)] ∧ Prefix I tight 11 [.word (boolText b)] (I.bool b) ∧
    Head 11 [.word (boolText b)] := by
  refine ⟨fun r rs hf h => Tokens.word (ascii_word (by cases b <;> decide)) hf.part h, Prefix.one fun n r => ?_, Head.word (by cases b <;> decide) _ _⟩
  rw [readAtom.eq_def]
  cases b <;> simp [boolText, show lower c!"true" = c!"true" by decide, show lower c!"false" = c!"false" by decide]

theorem bool_good (k : Key) (b : Bool) : Good' u I tight (boolLiteral k b) (I.bool b) .atom := by
  obtain ⟨h1, h2, h3⟩ := bool_reads (u := u) (I := I) (tight := tight) b
  exact leaf_good (by simp [CallKind.isCondition]) h1 h2 h3 (.word (.inl (by cases b <;> decide)) (.one _))

theorem constant_good (b : Bool) : Good' u I tight (constantCondition b) (I.bool b) .atom := by
  have key : ∀ k k', Good' u I tight (.mk' k [nd k [] [] false [leaf k' (boolText b)]] true) (I.bool b) .atom := by
    intro k k'
    obtain ⟨h1, h2, h3⟩ := bool_reads (u := u) (I := I) (tight := tight) b
    refine ⟨rfl, rfl, ⟨_, _, rfl⟩, by simp [Val.mk', dkeysL, dkeys_nd, dkeys_leaf], fun _ => rfl, boolText b, _, fun e he => ?_, h1,
      h2, h3, .word (.inl (by cases b <;> decide)) (.one _)⟩
    simp [shownAs, Val.mk', leaf, nd, denL, den, shown, he k, he k', sepText, described, defined, Vis.asAlias]
  cases b
  · exact key 37 39
  · exact key 36 38

theorem null_good : Good' u I tight nilLiteral I.null .atom :=
  leaf_good (by simp [CallKind.isCondition]) (ts := [.word nullText]) (fun r rs hf h => Tokens.word (ascii_word (by decide)) hf.part h)
    (Prefix.one fun n r => by rw [readAtom.eq_def]; simp [show lower nullText = c!"null" by decide]) (Head.word (by decide) _ _) (.word (.inl (by decide)) (.one _))


/-! ### Names -/

theorem Text.of {v : Val} {ks : List Key} {ts : List Tree} {ps : List Part} {s : Str} (dk : dkeysL ts = [])
    (h : ∀ e, NoAlias e ks ts → shownAs e v.visit = layout e ps) (hs : Shows ps s) : Text v s :=
  fun e he => (h e (he.noAlias dk ks)).trans (hs e he)

theorem readQuotedBody_length : ∀ {s b r : Str}, readQuotedBody s = some (b, r) → b.length < s.length := by
  intro s
  fun_induction readQuotedBody s with
  | case1 => intro b r h; cases h
  | case2 rest ih =>
    intro b r h
    cases hr : readQuotedBody rest with
    | none => simp [hr] at h
    | some p =>
      simp [hr] at h
      have := ih (b := p.1) (r := p.2) (by rw [hr])
      rw [← h.1]
      simp
      omega
  | case3 => intro b r h; cases h; simp
  | case4 c rest h1 h2 ih =>
    intro b r h
    cases hr : readQuotedBody rest with
    | none => simp [hr] at h
    | some p =>
      simp [hr] at h
      have := ih (b := p.1) (r := p.2) (by rw [hr])
      rw [← h.1]
      simp
      omega

theorem readNameParts_self {n : Str} (h : readNameParts u n = (n, [])) : n.all (identRest u) = true := by
  induction n with
  | nil => rfl
  | cons c n ih =>
    simp only [readNameParts] at h
    split at h
    · rename_i hc
      simp only [Prod.mk.injEq, List.cons.injEq, true_and] at h
      simp only [List.all_cons, Bool.and_eq_true]
      refine ⟨?_, ih (Prod.ext h.1 h.2)⟩
      rcases hc with hc | hc | hc <;> simp [identRest, hc]
    · simp at h

theorem readName_self {n : Str} (h : readName u n = some (n, [])) : isIdentifier u n = true := by
  cases n with
  | nil => simp [readName] at h
  | cons c n =>
    have hq : c ≠ '`' := by
      rintro rfl
      simp only [readName, if_true] at h
      have := readQuotedBody_length h
      simp at this
    simp only [readName, if_neg hq] at h
    split at h
    · rename_i hc
      simp only [Option.some.injEq, Prod.mk.injEq, List.cons.injEq, true_and] at h
      simp only [isIdentifier, Bool.and_eq_true]
      refine ⟨?_, readNameParts_self (Prod.ext h.1 h.2)⟩
      rcases hc with hc | hc <;> simp [identStart, hc]
    · cases h

theorem param_good (k : Key) (dollars : Nat) {n : Str} (h : readName u n = some (n, [])) :
    Good' u I tight (parameter k (List.replicate dollars '$' ++ n)) (I.param n) .atom := by
  have hi := readName_self h
  have hp : parameterCreate n = .ok n := by
    cases n with
    | nil => cases hi
    | cons c n =>
      simp only [isIdentifier, Bool.and_eq_true] at hi
      have : c ≠ '$' := by
        rintro rfl
        have := hi.1
        simp [identStart, u.letter_ascii] at this
      simp [parameterCreate, this]
  simp only [parameter, C05_parameter_dollars, hp]
  refine leaf_good (by simp [CallKind.isCondition]) (ts := [.param n]) (fun r rs hf ht => ?_) (Prefix.one fun n r => by rw [readAtom.eq_def])
    ⟨_, _, rfl, fun _ => rfl, fun _ h => (by cases h), fun w h => (by cases h), fun c h => by cases h⟩ (.token (fun _ => rfl) (by simp))
  refine Tokens.more (r := r) ?_ ht
  have := (C05_parameter_token_partial u n n r hp hi (fun c hc => by
    cases r with
    | nil => simp at hc
    | cons x xs => simp at hc; subst hc; exact hf.part x xs rfl)).1
  simp only [parameterText, List.cons_append, readParameter] at this ⊢
  have hsp : u.isSpace '$' = false := by rw [u.space_ascii _ (by decide)]; decide
  simp [nextToken, hsp, this]

theorem IsName.head {t : Token} {x : Str} (h : IsName t x) (hr : lower x ∉ reserved) (j : Nat) (r : List Token) : Head j (t :: r) := by
  rcases h with rfl | rfl
  · exact Head.reserved hr j r
  · exact ⟨_, _, rfl, fun _ => rfl, fun _ h => (by cases h), fun w h => (by cases h), fun c h => by cases h⟩

theorem name_ne {n : Str} (h : Named u n) : n ≠ [] := by
  rintro rfl
  obtain ⟨c, hc, _⟩ := h
  cases hc

theorem RA.quotedName {x : Str} {r : List Token} (hr : r.head? ≠ some (.sym '{')) : RA I tight (.quoted x :: r) (I.name x) r := by
  refine RA.one fun n => ?_
  rw [readAtom.eq_def]
  cases r with
  | nil => rfl
  | cons t r =>
    simp only [List.head?_cons, ne_eq, Option.some.injEq] at hr
    simp only
    split <;> simp_all

theorem var_good (k : Key) {n : Str} (h : VarName u n) : Good' u I tight (symbolicName u k n) (I.name n) .atom := by
  obtain ⟨h1, h2, h3⟩ := h
  obtain ⟨t, ht, hl, _⟩ := Lexes.name h1
  simp only [symbolicName, if_neg (name_ne h1)]
  refine leaf_good (σ := .atom) (by simp [CallKind.isCondition]) hl ?_ (ht.head h2 _ _) ht.soft.extra
  rcases ht with rfl | rfl
  · exact Prefix.atom fun r hr hr' => RA.name h2 h3 hr hr'
  · exact Prefix.atom fun r _ hr => RA.quotedName hr

theorem property_good (k kl : Key) {v : Val} {d : I.D} {n : Str} (hv : Good' u I tight v d .atom) (hn : Named u n) (hs : n ≠ c!"*") :
    Good' u I tight (propertyCreate2 u k kl (some v) n) (I.prop d n) .atom := by
  obtain ⟨s, ts, h1, h2, h3, h4, h5⟩ := hv.reads
  obtain ⟨t, ht, hl, _⟩ := Lexes.name hn
  have hne := name_ne hn
  have hdk : dkeysL (propertyCreate2 u k kl (some v) n).visit = [] := by
    simp [propertyCreate2, propertyCreate1, hv.err, hne, Val.mk', dkeysL_nd, dkeysL_append, hv.dk, propertyLookup, dkeysL, dkeys_leaf]
  refine ⟨?_, ?_, ?_, hdk, by simp [CallKind.isCondition], s ++ (c!"." ++ (escapeIfNecessary u n ++ [])), ts ++ [.sym '.', t], ?_, ?_, ?_, ?_, ?_⟩
  · simp [propertyCreate2, propertyCreate1, hv.err, hne, Val.mk']
  · simp [propertyCreate2, propertyCreate1, hv.err, hne, Val.mk']
  · simp [propertyCreate2, propertyCreate1, hv.err, hne, Val.mk']
    exact ⟨_, _, rfl⟩
  · refine Text.of hdk (fun e he => (C45_property u k kl v n hv.err hne).2 he) (Shows.hole h1 (Shows.lit _ ?_))
    rw [if_neg hs]
    exact Shows.lit _ Shows.nil
  · intro r rs hf hr
    simp only [List.append_assoc, List.nil_append, List.cons_append]
    refine h2 _ _ (Follow.dot fun d r' he => ?_) (Tokens.sym (by simp [symbols]) (by simp) (hl r rs hf hr))
    cases hx : escapeIfNecessary u n with
    | nil =>
      have := hl [] [] .nil (.blank rfl)
      rw [hx] at this
      cases this
      rename_i h _
      simp [nextToken] at h
    | cons c cs =>
      rw [hx] at he
      cases he
      exact name_head hn _ _ hx
  · exact Prefix.post h3 (fun r => Stops.post (by simp) (by simp) _) fun r d' r' h => RP.prop ht h
  · exact h4.append _
  · exact (h5.soft rfl).extra_append h4.ne (fun _ => rfl) (by simp) (by simp) (by simp) (by simp)

theorem property1_good (k kl : Key) {v : Val} {d : I.D} {n : Str} (hv : Good' u I tight v d .atom) (hn : Named u n) (hs : n ≠ c!"*") :
    Good' u I tight (propertyCreate1 u k kl v n) (I.prop d n) .atom := by
  have := property_good k kl hv hn hs
  simpa [propertyCreate2, hv.err, name_ne hn] using this

theorem receiver_good {v w : Val} {d : I.D} {σ : CallKind} (h : Good' u I tight v d σ) (hc : v.copy = some (true, v.visit)) (hw : v.recv = some w) :
    Good' u I tight w d σ := by
  simp only [Val.recv, hc, Option.some.injEq] at hw
  subst hw
  exact ⟨h.err, rfl, h.one, h.dk, h.cond, h.reads⟩

/-! ### Calculations, comparisons -/

theorem level_calc {σ : CallKind} (h : σ.isCondition = false) : 8 ≤ level σ ∧ level σ ≤ 11 ∧ (σ ≠ .power → 9 ≤ level σ) ∧ σ.first = true := by
  cases σ <;> simp [CallKind.isCondition, level, CallKind.first] at h ⊢
theorem level_le (σ : CallKind) : level σ ≤ 11 := by cases σ <;> simp [level]

theorem arithSymbol_mem (m : ArithMethod) : arithSymbol m ∈ arithChars := by cases m <;> simp [arithSymbol, arithChars]
theorem arithSymbol_sym (m : ArithMethod) : arithSymbol m ∈ symbols := by cases m <;> simp [arithSymbol, symbols]
theorem arithSymbol_bin (m : ArithMethod) : arithBin (arithSymbol m) = arithMeaning m := by cases m <;> rfl
theorem arithSymbol_level {m : ArithMethod} (h : m ≠ .pow) : arithLevel (arithSymbol m) ≤ 7 := by
  cases m <;> simp [arithSymbol, arithLevel] at h ⊢

theorem arith_base (m : ArithMethod) (k : Key) {l r : Val} {a b : I.D} {σ τ : CallKind} (hl : Good' u I tight l a σ) (hr : Good' u I tight r b τ) :
    (arith m k (some l) (some r)).err = none ∧ (arith m k (some l) (some r)).notNil = true ∧ Spec.One (arith m k (some l) (some r)).visit ∧
      dkeysL (arith m k (some l) (some r)).visit = [] := by
  have hv : arith m k (some l) (some r) = .mk' k (operationVisit k l.visit m.op r.visit) false .operation := by
    simp [arith, operationCreate, firstErr, errOf, nilErr, missing, hl.err, hr.err, hl.nn, hr.nn]
  rw [hv]
  refine ⟨rfl, rfl, ?_, ?_⟩
  · simp only [Val.mk', operationVisit]
    split <;> exact ⟨_, _, rfl⟩
  · simp [Val.mk', operationVisit_dkeys, hl.dk, hr.dk]

theorem arith_good {m : ArithMethod} (k : Key) {l r : Val} {a b : I.D} {σ τ : CallKind} (hm : m ≠ .pow) (hl : Good' u I tight l a σ)
    (hr : Good' u I tight r b τ) (hσ : σ.isCondition = false) (hτ : τ.isCondition = false) :
    Good' u I tight (arith m k (some l) (some r)) (I.bin (arithMeaning m) a b) .atom := by
  obtain ⟨b1, b2, b3, b4⟩ := arith_base m k hl hr
  obtain ⟨s, ts, h1, h2, h3, h4, h5⟩ := hl.reads
  obtain ⟨s', ts', g1, g2, g3, g4, g5⟩ := hr.reads
  have hσl := level_calc hσ
  have hτl := level_calc hτ
  have hal := arithSymbol_level hm
  have hnev : Never I tight (ts ++ [.sym (arithSymbol m)] ++ ts') := by
    rw [List.append_assoc]
    exact h5.apart.never (by cases m <;> simp [arithSymbol]) (by cases m <;> simp [arithSymbol]) (by cases m <;> simp [arithSymbol])
      (by cases m <;> simp [arithSymbol])
  refine ⟨b1, b2, b3, b4, by simp [CallKind.isCondition], c!"(" ++ (s ++ ([' ', arithSymbol m, ' '] ++ (s' ++ (c!")" ++ [])))),
    .sym '(' :: (ts ++ [.sym (arithSymbol m)] ++ ts') ++ [.sym ')'], ?_, ?_, ?_, Head.sym (by simp) _ _, ?_⟩
  · refine Text.of (ts := l.visit ++ r.visit) (by simp [dkeysL_append, hl.dk, hr.dk]) (fun e he => C43_arith m k l r hl.ok hr.ok e he) ?_
    rw [if_neg hm]
    exact Shows.lit _ (Shows.hole h1 (Shows.lit _ (Shows.hole g1 (Shows.lit _ Shows.nil))))
  · intro r rs hf ht
    simp only [List.append_assoc, List.nil_append, List.cons_append]
    refine Tokens.sym (by simp [symbols]) (by simp) (h2 _ _ (Follow.mark (by decide) _) (Tokens.sp (Tokens.sym (arithSymbol_sym m) (by simp) (Tokens.sp ?_))))
    exact g2 _ _ (Follow.mark (by decide) _) (Tokens.sym (by simp [symbols]) (by simp) ht)
  · refine Prefix.paren hnev (Prefix.below (j := arithLevel (arithSymbol m)) (by omega) (by omega) ((h4.mono (by omega)).append _ |>.append _) ?_)
    rw [← arithSymbol_bin]
    exact Prefix.arith (arithSymbol_mem m) (h3.below (by omega) (by omega) h4) (g3.below (by omega) (by omega) g4)
  · refine (Never.sym (by simp) _).extra (fun _ => NoIn.after _ _) fun _ ts' he => ?_
    cases he
    exact hnev.append _

theorem pow_good (k : Key) {l r : Val} {a b : I.D} {σ τ : CallKind} (hl : Good' u I tight l a σ)
    (hr : Good' u I tight r b τ) (hσ : σ.isCondition = false) (hτ : τ.isCondition = false) (hp : τ ≠ .power) :
    Good' u I tight (arith .pow k (some l) (some r)) (I.bin .pow a b) .power := by
  obtain ⟨b1, b2, b3, b4⟩ := arith_base .pow k hl hr
  obtain ⟨s, ts, h1, h2, h3, h4, h5⟩ := hl.reads
  obtain ⟨s', ts', g1, g2, g3, g4, g5⟩ := hr.reads
  have hσl := level_calc hσ
  have hτl := level_calc hτ
  have hal := hτl.2.2.1 hp
  refine ⟨b1, b2, b3, b4, by simp [CallKind.isCondition], s ++ (c!"^" ++ (s' ++ [])),
    ts ++ [.sym '^'] ++ ts', ?_, ?_, ?_, (h4.mono hσl.1).append _ |>.append _, ?_⟩
  · refine Text.of (ts := l.visit ++ r.visit) (by simp [dkeysL_append, hl.dk, hr.dk]) (fun e he => C43_arith .pow k l r hl.ok hr.ok e he) ?_
    rw [if_pos rfl]
    exact (Shows.hole h1 (Shows.lit _ (Shows.hole g1 Shows.nil)))
  · intro r rs hf ht
    simp only [List.append_assoc, List.nil_append, List.cons_append]
    refine (h2 _ _ (Follow.mark (by decide) _) (Tokens.sym (by simp [symbols]) (by simp) ?_))
    exact g2 _ _ hf ht
  · exact Prefix.arith (c := '^') (by simp [arithChars]) (h3.below (by omega) (by simp [arithLevel]; omega) h4) (g3.below (by omega) (by simp [arithLevel]; omega) g4)
  · rw [List.append_assoc]
    exact (h5.soft hσl.2.2.2).extra_append h4.ne (fun _ => rfl) (by simp) (by simp) (by simp) (by simp)

/-- An operand of a comparison: conditions are in parentheses. -/
theorem operand {v : Val} {d : I.D} {σ : CallKind} (hv : Good' u I tight v d σ) (hop : σ.operand = true) :
    ∃ s ts j, Shows (if v.isCond then [.lit c!"(", .hole v.visit, .lit c!")"] else [.hole v.visit]) s ∧ Lexes u s ts ∧
      Prefix I tight j ts d ∧ Head j ts ∧ Soft I tight ts ∧ 8 ≤ j ∧ j ≤ 11 ∧ (v.isCond = true ∨ σ = .atom → j = 11) := by
  obtain ⟨s, ts, h1, h2, h3, h4, h5⟩ := hv.reads
  cases hc : v.isCond with
  | true =>
    have hnev := h5.never hc hop
    refine ⟨c!"(" ++ (s ++ (c!")" ++ [])), .sym '(' :: ts ++ [.sym ')'], 11, ?_, ?_, Prefix.paren hnev (h3.below (level_le σ) (by omega) h4), Head.sym (by simp) _ _,
      ⟨NoIn.after _ _, (by rintro _ ⟨⟩; exact hnev.append _), (Never.sym (by simp) _).apart⟩, by omega, by omega, fun _ => rfl⟩
    · exact Shows.lit _ (Shows.hole h1 (Shows.lit _ Shows.nil))
    · intro r rs hf ht
      simp only [List.append_assoc, List.nil_append, List.cons_append]
      exact Tokens.sym (by simp [symbols]) (by simp) (h2 _ _ (Follow.mark (by decide) _) (Tokens.sym (by simp [symbols]) (by simp) ht))
  | false =>
    have hσ : σ.isCondition = false := by
      cases h : σ.isCondition with
      | false => rfl
      | true => rw [hv.cond h] at hc; cases hc
    have hl := level_calc hσ
    refine ⟨s ++ [], ts, level σ, Shows.hole h1 Shows.nil, by simpa using h2, h3, h4, h5.soft hl.2.2.2, hl.1, hl.2.1, ?_⟩
    rintro (h | rfl)
    · cases h
    · rfl

/-- The tokens of the operator of a comparison. -/
def compareToks : CompareMethod → List Token
  | .isEqualTo => [.sym '=']
  | .isNotEqualTo => [.sym '<', .sym '>']
  | .lt => [.sym '<']
  | .lte => [.sym '<', .sym '=']
  | .gt => [.sym '>']
  | .gte => [.sym '>', .sym '=']
  | .matches => [.sym '=', .sym '~']
  | .startWiths => [.word c!"STARTS", .word c!"WITH"]
  | .contains => [.word c!"CONTAINS"]
  | .endsWith => [.word c!"ENDS", .word c!"WITH"]
  | .in_ => [.word c!"IN"]

theorem compareToks_lex (m : CompareMethod) {r : Str} {rs : List Token} (h : Tokens u r rs) :
    Tokens u (compareSymbol m ++ ' ' :: r) (compareToks m ++ rs) := by
  have hf : Follow u (' ' :: r) := Follow.mark (by decide) _
  have w : ∀ x : Str, (x != [] && x.all fun c => c.toNat < 128 && c.isAlpha) = true → Tokens u (x ++ ' ' :: r) (.word x :: rs) :=
    fun x hx => Tokens.word (ascii_word hx) hf.part (Tokens.sp h)
  have w2 : ∀ x y : Str, (x != [] && x.all fun c => c.toNat < 128 && c.isAlpha) = true → (y != [] && y.all fun c => c.toNat < 128 && c.isAlpha) = true →
      Tokens u (x ++ ' ' :: (y ++ ' ' :: r)) (.word x :: .word y :: rs) :=
    fun x y hx hy => Tokens.word (ascii_word hx) (Follow.mark (by decide) _).part (Tokens.sp (w y hy))
  have s1 : ∀ c ∈ symbols, c ≠ '/' → Tokens u (c :: ' ' :: r) (.sym c :: rs) := fun c hc hd => Tokens.sym hc (fun h => absurd h hd) (Tokens.sp h)
  have s2 : ∀ c ∈ symbols, ∀ d ∈ symbols, c ≠ '/' → d ≠ '/' → Tokens u (c :: d :: ' ' :: r) (.sym c :: .sym d :: rs) :=
    fun c hc d hd h1 h2 => Tokens.sym hc (fun h => absurd h h1) (s1 d hd h2)
  cases m
  case startWiths => exact w2 c!"STARTS" c!"WITH" (by decide) (by decide)
  case endsWith => exact w2 c!"ENDS" c!"WITH" (by decide) (by decide)
  case contains => exact w c!"CONTAINS" (by decide)
  case in_ => exact w c!"IN" (by decide)
  case isEqualTo => exact s1 '=' (by simp [symbols]) (by decide)
  case lt => exact s1 '<' (by simp [symbols]) (by decide)
  case gt => exact s1 '>' (by simp [symbols]) (by decide)
  case isNotEqualTo => exact s2 '<' (by simp [symbols]) '>' (by simp [symbols]) (by decide) (by decide)
  case lte => exact s2 '<' (by simp [symbols]) '=' (by simp [symbols]) (by decide) (by decide)
  case gte => exact s2 '>' (by simp [symbols]) '=' (by simp [symbols]) (by decide) (by decide)
  all_goals exact s2 '=' (by simp [symbols]) '~' (by simp [symbols]) (by decide) (by decide)

theorem compare_base (m : CompareMethod) (k kl kr : Key) {l r : Val} (hl : l.err = none ∧ l.notNil = true) (hr : r.err = none ∧ r.notNil = true)
    (hld : dkeysL l.visit = []) (hrd : dkeysL r.visit = []) :
    (compare m k kl kr (some l) (some r)).err = none ∧ (compare m k kl kr (some l) (some r)).notNil = true ∧
      (compare m k kl kr (some l) (some r)).isCond = true ∧
      Spec.One (compare m k kl kr (some l) (some r)).visit ∧ dkeysL (compare m k kl kr (some l) (some r)).visit = [] := by
  have hn : ∀ k (v : Val), v.err = none ∧ v.notNil = true → dkeysL v.visit = [] → dkeysL (visitIfNotNil (nestedIfCondition k v)) = [] := by
    intro k v hv hd
    unfold nestedIfCondition nestedCreate visitIfNotNil
    cases hc : v.isCond <;> simp [hv.1, hv.2, hd, Val.mk', dkeysL_nd]
  have hv : compare m k kl kr (some l) (some r) =
      .mk' k [nd k [] [] false (visitIfNotNil (nestedIfCondition kl l) ++ [m.op.visit] ++ visitIfNotNil (nestedIfCondition kr r))] true := by
    simp [compare, comparisonCreate, firstErr, errOf, nilErr, missing, hl.1, hr.1, hl.2, hr.2]
  rw [hv]
  refine ⟨rfl, rfl, rfl, ⟨_, _, rfl⟩, ?_⟩
  simp [Val.mk', dkeysL_nd, dkeysL_append, hn _ _ hl hld, hn _ _ hr hrd, Op.visit, dkeysL, dkeys_leaf]

theorem compare_good {m : CompareMethod} (k kl kr : Key) {l r : Val} {a b : I.D} {σ τ : CallKind} (hl : Good' u I tight l a σ)
    (hr : Good' u I tight r b τ) (hlo : σ.operand = true) (hro : τ.operand = true)
    (ht : textual m = true → tight = true → (l.isCond = true ∨ σ = .atom) ∧ (r.isCond = true ∨ τ = .atom)) :
    Good' u I tight (compare m k kl kr (some l) (some r)) (I.bin (compareMeaning m) a b) (if m = .in_ then .membership else .condition) := by
  obtain ⟨b1, b2, b3, b4, b5⟩ := compare_base m k kl kr hl.ok hr.ok hl.dk hr.dk
  obtain ⟨s, ts, j, h1, h2, h3, h4, h5, h6, h7, h8⟩ := operand hl hlo
  obtain ⟨s', ts', j', g1, g2, g3, g4, g5, g6, g7, g8⟩ := operand hr hro
  have hlev : level (if m = .in_ then .membership else .condition) = 3 := by split <;> rfl
  refine ⟨b1, b2, b4, b5, fun _ => b3, s ++ (c!" " ++ (compareSymbol m ++ (c!" " ++ []))) ++ s', ts ++ compareToks m ++ ts', ?_, ?_, ?_, ?_, ?_⟩
  · refine Text.of (ts := l.visit ++ r.visit) (by simp [dkeysL_append, hl.dk, hr.dk]) (fun e he => C20_compare m k kl kr l r hl.ok hr.ok e he) ?_
    exact (h1.append (Shows.lit _ (Shows.lit _ (Shows.lit _ Shows.nil)))).append g1
  · intro r rs hf ht
    simp only [List.append_assoc, List.nil_append, List.cons_append]
    exact h2 _ _ (Follow.mark (by decide) _) (Tokens.sp (compareToks_lex m (g2 _ _ hf ht)))
  · rw [hlev]
    cases hm : textual m with
    | false =>
      refine Prefix.cmp ?_ (h4.mono (by omega)) (g4.mono (by omega)) (h3.below (by omega) (by omega) h4) (g3.below (by omega) (by omega) g4)
      cases m <;> simp [textual] at hm <;> simp [compareToks, compareMeaning, cmpToks]
    | true =>
      have hlt : textLevel tight ≤ j ∧ textLevel tight + 1 ≤ j' ∧ 3 ≤ textLevel tight ∧ textLevel tight ≤ 11 := by
        unfold textLevel
        cases htt : tight with
        | false => simp; omega
        | true =>
          have := ht hm htt
          rw [h8 this.1, g8 this.2]
          simp
      refine Prefix.below (j := textLevel tight) (by omega) (by omega) ((h4.mono hlt.1).append _ |>.append _) ?_
      refine Prefix.text ?_ (h3.below (by omega) (by omega) h4) (g3.below (by omega) (by omega) g4)
      cases m <;> simp [textual] at hm <;> simp [compareToks, compareMeaning, textToks]
  · rw [hlev]
    exact ((h4.mono (by omega)).append _).append _
  · rw [List.append_assoc]
    cases m <;> refine h5.extra_append h4.ne ?_ (by simp) (by simp) (by simp) (by simp) <;> intro hm <;>
      first | rfl | (simp [CallKind.first] at hm) | decide

theorem null_base (k kn : Key) (b : Bool) {v : Val} (hv : v.err = none ∧ v.notNil = true) (hd : dkeysL v.visit = []) :
    let w := if b then isNull k kn (some v) else isNotNull k kn (some v)
    w.err = none ∧ w.notNil = true ∧ w.isCond = true ∧ Spec.One w.visit ∧ dkeysL w.visit = [] := by
  have hn : dkeysL (visitIfNotNil (nestedIfCondition kn v)) = [] := by
    unfold nestedIfCondition nestedCreate visitIfNotNil
    cases hc : v.isCond <;> simp [hv.1, hv.2, hd, Val.mk', dkeysL_nd]
  cases b <;> simp [isNull, isNotNull, comparisonCreate1, firstErr, errOf, nilErr, missing, hv.1, hv.2, Op.isUnary, Op.type, Val.mk', dkeysL_nd,
    dkeysL_append, hn, Op.visit, dkeysL, dkeys_leaf] <;> exact ⟨_, _, rfl⟩

theorem null_ops_good (k kn : Key) (b : Bool) {v : Val} {d : I.D} {σ : CallKind} (hv : Good' u I tight v d σ)
    (ho : σ.operand = true) (ht : tight = true → v.isCond = true ∨ σ = .atom) :
    Good' u I tight (if b then isNull k kn (some v) else isNotNull k kn (some v)) (if b then I.isNull d else I.isNotNull d) .condition := by
  obtain ⟨b1, b2, b3, b4, b5⟩ := null_base k kn b hv.ok hv.dk
  obtain ⟨s, ts, j, h1, h2, h3, h4, h5, h6, h7, h8⟩ := operand hv ho
  refine ⟨b1, b2, b4, b5, fun _ => b3, s ++ ((if b then c!" IS NULL" else c!" IS NOT NULL") ++ []), ts ++ nullToks b, ?_, ?_, ?_, ?_, ?_⟩
  · cases b
    · exact Text.of hv.dk (fun e he => (C20_null k kn v hv.ok e he).2) (h1.append (Shows.lit _ Shows.nil))
    · exact Text.of hv.dk (fun e he => (C20_null k kn v hv.ok e he).1) (h1.append (Shows.lit _ Shows.nil))
  · intro r rs hf ht
    have w : ∀ {x : Str} (_ : (x != [] && x.all fun c => c.toNat < 128 && c.isAlpha) = true) {r rs} (_ : Tokens u r rs), Tokens u (x ++ ' ' :: r) (.word x :: rs) :=
      fun hx _ _ h => Tokens.word (ascii_word hx) (Follow.mark (by decide) _).part (Tokens.sp h)
    simp only [List.append_assoc, List.nil_append]
    refine h2 _ _ (by cases b <;> exact Follow.mark (by decide) _) ?_
    have hn : Tokens u (c!"NULL" ++ r) (.word c!"NULL" :: rs) := Tokens.word (ascii_word (by decide)) hf.part ht
    cases b
    · exact Tokens.sp (w (x := c!"IS") (by decide) (w (x := c!"NOT") (by decide) hn))
    · exact Tokens.sp (w (x := c!"IS") (by decide) hn)
  · have hlt : textLevel tight ≤ j ∧ 3 ≤ textLevel tight ∧ textLevel tight ≤ 11 := by
      unfold textLevel
      cases htt : tight with
      | false => simp; omega
      | true => rw [h8 (ht htt)]; simp
    exact Prefix.below (j := textLevel tight) (by omega) (by simp [level]; omega) ((h4.mono hlt.1).append _) (Prefix.null b (h3.below (by omega) (by omega) h4))
  · exact (h4.mono (by simp [level]; omega)).append _
  · cases b <;> exact h5.extra_append h4.ne (fun _ => rfl) (by simp) (by simp) (by simp) (by simp)

end Verif.Rd
