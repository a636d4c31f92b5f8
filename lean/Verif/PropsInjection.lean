import Verif.PropsOpaque
import Verif.PropsRead
import Verif.OccLemmas
import Verif.Builder

/-
C81: what is inside quotation marks never becomes part of the query.

A statement with places to be filled in is a statement in which special characters stand inside string literals, labels or relationship
types.  `C70_texts` tells what the renderer makes of the statement when these places are filled; here the words (tokens) of both
texts are compared, with the reader of `ReadSpec.lean`.
-/

namespace Verif.Spec

/-- What is filled in: the contents of (part of) a string literal, or of (part of) a quoted name. -/
inductive Filling where
  | text (x : Str)
  | name (x : Str)

/-- Which characters mark places, and what is filled in there. -/
abbrev Fillings := Char → Option Filling

/-- A character that can mark a place: not in ASCII, no letter, digit or space. -/
def Marks (u : Unicode) (f : Fillings) : Prop :=
  ∀ c, (f c).isSome = true → 128 ≤ c.toNat ∧ u.isLetter c = false ∧ u.isDigit c = false ∧ u.isSpace c = false

/-- Filling a string literal's contents. -/
def Fillings.inText (f : Fillings) (s : Str) : Str :=
  s.flatMap fun c => match f c with
    | some (.text x) => x
    | _ => [c]

/-- Filling a quoted name's contents. -/
def Fillings.inName (f : Fillings) (s : Str) : Str :=
  s.flatMap fun c => match f c with
    | some (.name x) => x
    | _ => [c]

/-- The same token, filled. -/
def Fillings.token (f : Fillings) : Token → Token
  | .str s => .str (f.inText s)
  | .quoted s => .quoted (f.inName s)
  | t => t

/-- The places for texts are inside string literals, the places for names inside quoted names, and there are no other places. -/
def Fillings.Within (f : Fillings) : Token → Prop
  | .str s => ∀ c ∈ s, ∀ x, f c ≠ some (.name x)
  | .quoted s => ∀ c ∈ s, ∀ x, f c ≠ some (.text x)
  | .word s => ∀ c ∈ s, f c = none
  | .num s => ∀ c ∈ s, f c = none
  | .param s => ∀ c ∈ s, f c = none
  | .sym c => f c = none

end Verif.Spec

namespace Verif
open Spec

/-- What the library writes for a filling: the escaped text (string_literal.go:46-53), or the name with its back-quotes doubled
(cypher_renderer.go:193). -/
def Spec.Filling.written : Filling → Str
  | .text x => escapeStringLiteral x
  | .name x => replaceChar '`' ['`', '`'] x

/-- A text with its places filled. -/
def Spec.Fillings.fill (f : Fillings) (s : Str) : Str :=
  s.flatMap fun c => match f c with
    | some x => x.written
    | none => [c]

namespace Inj

variable {u : Unicode} {f : Fillings}

theorem fill_nil : f.fill [] = [] := rfl

theorem fill_append (a b : Str) : f.fill (a ++ b) = f.fill a ++ f.fill b := by simp [Fillings.fill]

theorem fill_plain {c : Char} {s : Str} (h : f c = none) : f.fill (c :: s) = c :: f.fill s := by simp [Fillings.fill, h]

theorem fill_mark {c : Char} {s : Str} {x : Filling} (h : f c = some x) : f.fill (c :: s) = x.written ++ f.fill s := by
  simp [Fillings.fill, h]

theorem fill_id {s : Str} (h : ∀ c ∈ s, f c = none) : f.fill s = s := by
  induction s with
  | nil => rfl
  | cons c s ih => rw [fill_plain (h c (by simp)), ih fun d hd => h d (by simp [hd])]

theorem plain_ascii (hm : Marks u f) {c : Char} (h : c.toNat < 128) : f c = none := by
  cases hc : f c with
  | none => rfl
  | some x => have := (hm c (by simp [hc])).1; omega

theorem plain_space (hm : Marks u f) {c : Char} (h : u.isSpace c = true) : f c = none := by
  cases hc : f c with
  | none => rfl
  | some x => have := (hm c (by simp [hc])).2.2.2; simp [h] at this

/-- the first character is no mark -/
def Start (f : Fillings) (s : Str) : Prop := ∀ c, s.head? = some c → f c = none

theorem fill_head {s : Str} (h : Start f s) : (f.fill s).head? = s.head? := by
  cases s with
  | nil => rfl
  | cons c s => rw [fill_plain (h c rfl)]; rfl

/-! ### Quoted text -/

theorem stringBody_written (x : Str) (r : Str) :
    readStringBody (escapeStringLiteral x ++ r) = (readStringBody r).map fun p => (x ++ p.1, p.2) := by
  induction x with
  | nil => cases h : readStringBody r <;> simp [escapeStringLiteral, h]
  | cons c cs ih =>
    have hstep : escapeStringLiteral (c :: cs) = (if isReservedChar c then ['\\', c] else [c]) ++ escapeStringLiteral cs := by
      simp [escapeStringLiteral]
    rw [hstep]
    cases hc : isReservedChar c with
    | true =>
      simp only [if_true, List.cons_append, List.nil_append]
      rw [readStringBody_esc c c _ (unescape_reserved c hc), ih]
      cases readStringBody r <;> rfl
    | false =>
      simp only [Bool.false_eq_true, if_false, List.cons_append, List.nil_append]
      rw [readStringBody_plain c _ hc, ih]
      cases readStringBody r <;> rfl

theorem quotedBody_written (x : Str) (r : Str) :
    readQuotedBody (replaceChar '`' ['`', '`'] x ++ r) = (readQuotedBody r).map fun p => (x ++ p.1, p.2) := by
  induction x with
  | nil => cases h : readQuotedBody r <;> simp [replaceChar, h]
  | cons c cs ih =>
    have hstep : replaceChar '`' ['`', '`'] (c :: cs) = (if c = '`' then ['`', '`'] else [c]) ++ replaceChar '`' ['`', '`'] cs := by
      simp [replaceChar]
    rw [hstep]
    by_cases hc : c = '`'
    · subst hc
      simp only [if_true, List.cons_append, List.nil_append]
      rw [readQuotedBody_two, ih]
      cases readQuotedBody r <;> rfl
    · simp only [hc, if_false, List.cons_append, List.nil_append]
      rw [readQuotedBody_plain c _ hc, ih]
      cases readQuotedBody r <;> rfl

theorem mark_unescape (hm : Marks u f) {c : Char} (h : (f c).isSome = true) : unescape c = none := by
  have h1 := (hm c h).1
  unfold unescape
  split
  all_goals first
    | rfl
    | (exfalso; revert h1; decide)

theorem mark_not (hm : Marks u f) {c : Char} (h : (f c).isSome = true) {d : Char} (hd : d.toNat < 128) : c ≠ d := by
  rintro rfl
  have := (hm c h).1
  omega

/-- A string literal, filled. -/
theorem stringBody_fill (hm : Marks u f) : ∀ (n : Nat) {s b r : Str}, s.length ≤ n → readStringBody s = some (b, r) →
    (∀ c ∈ b, ∀ x, f c ≠ some (.name x)) → readStringBody (f.fill s) = some (f.inText b, f.fill r)
  | _, [], _, _, _, h, _ => by simp [readStringBody] at h
  | 0, c :: s, _, _, hl, _, _ => by simp at hl
  | n + 1, c :: s, b, r, hl, h, hb => by
    simp only [List.length_cons, Nat.add_le_add_iff_right] at hl
    by_cases h1 : c = '\''
    · subst h1
      rw [readStringBody_quote] at h
      cases h
      rw [fill_plain (plain_ascii hm (by decide)), readStringBody_quote]
      rfl
    by_cases h2 : c = '\\'
    · subst h2
      cases s with
      | nil => simp [readStringBody] at h
      | cons d s =>
        rw [readStringBody] at h
        cases hu : unescape d with
        | none => simp [hu] at h
        | some d' =>
          cases hr : readStringBody s with
          | none => simp [hu, hr] at h
          | some p =>
            obtain ⟨b', r'⟩ := p
            simp only [hu, hr, Option.bind_eq_bind, Option.bind_some, Option.some.injEq, Prod.mk.injEq] at h
            obtain ⟨rfl, rfl⟩ := h
            have hd : f d = none := by
              cases hf : f d with
              | none => rfl
              | some x => rw [mark_unescape hm (by simp [hf])] at hu; cases hu
            have hd' : f d' = none := by
              cases hf : f d' with
              | none => rfl
              | some x =>
                exfalso
                have h3 := (hm d' (by simp [hf])).1
                unfold unescape at hu
                split at hu
                all_goals first
                  | (cases hu; done)
                  | (cases hu; revert h3; decide)
            rw [fill_plain (plain_ascii hm (by decide)), fill_plain hd, readStringBody_esc d d' _ hu,
              stringBody_fill hm n (by simp only [List.length_cons] at hl; omega) hr (fun c hc => hb c (by simp [hc]))]
            simp [Fillings.inText, hd']
    · have hp : readStringBody (c :: s) = (readStringBody s).map fun p => (c :: p.1, p.2) := by
        rw [readStringBody.eq_def]
        split
        · simp_all
        · simp_all
        · simp_all
        · simp_all
        · rename_i heq
          cases heq
          simp only [Option.bind_eq_bind]
          cases readStringBody s <;> rfl
      rw [hp] at h
      cases hr : readStringBody s with
      | none => simp [hr] at h
      | some p =>
        obtain ⟨b', r'⟩ := p
        simp only [hr, Option.map_some, Option.some.injEq, Prod.mk.injEq] at h
        obtain ⟨rfl, rfl⟩ := h
        have ih := stringBody_fill hm n hl hr (fun c hc => hb c (by simp [hc]))
        cases hf : f c with
        | some x =>
          rw [fill_mark hf]
          cases x with
          | name x => exact absurd hf (hb c (by simp) x)
          | text x =>
            simp only [Filling.written, stringBody_written, ih]
            simp [Fillings.inText, hf]
        | none =>
          rw [fill_plain hf]
          have hp' : readStringBody (c :: f.fill s) = (readStringBody (f.fill s)).map fun p => (c :: p.1, p.2) := by
            rw [readStringBody.eq_def]
            split
            · simp_all
            · simp_all
            · simp_all
            · simp_all
            · rename_i heq
              cases heq
              simp only [Option.bind_eq_bind]
              cases readStringBody (f.fill s) <;> rfl
          rw [hp', ih]
          simp [Fillings.inText, hf]

/-- A quoted name, filled. -/
theorem quotedBody_fill (hm : Marks u f) : ∀ (n : Nat) {s b r : Str}, s.length ≤ n → readQuotedBody s = some (b, r) →
    (∀ c ∈ b, ∀ x, f c ≠ some (.text x)) → Start f r → readQuotedBody (f.fill s) = some (f.inName b, f.fill r)
  | _, [], _, _, _, h, _, _ => by simp [readQuotedBody] at h
  | 0, c :: s, _, _, hl, _, _, _ => by simp at hl
  | n + 1, c :: s, b, r, hl, h, hb, hr => by
    simp only [List.length_cons, Nat.add_le_add_iff_right] at hl
    by_cases h1 : c = '`'
    · subst h1
      rw [fill_plain (plain_ascii hm (by decide))]
      by_cases h2 : s.head? = some '`'
      · cases s with
        | nil => simp at h2
        | cons d s =>
          simp only [List.head?_cons, Option.some.injEq] at h2
          subst h2
          rw [readQuotedBody_two] at h
          cases hq : readQuotedBody s with
          | none => simp [hq] at h
          | some p =>
            obtain ⟨b', r'⟩ := p
            simp only [hq, Option.map_some, Option.some.injEq, Prod.mk.injEq] at h
            obtain ⟨rfl, rfl⟩ := h
            rw [fill_plain (plain_ascii hm (by decide)), readQuotedBody_two,
              quotedBody_fill hm n (by simp only [List.length_cons] at hl; omega) hq (fun c hc => hb c (by simp [hc])) hr]
            simp [Fillings.inName, plain_ascii hm (c := '`') (by decide)]
      · rw [readQuotedBody_end s h2] at h
        cases h
        rw [readQuotedBody_end _ (by rw [fill_head hr]; exact h2)]
        rfl
    · rw [readQuotedBody_plain c _ h1] at h
      cases hq : readQuotedBody s with
      | none => simp [hq] at h
      | some p =>
        obtain ⟨b', r'⟩ := p
        simp only [hq, Option.map_some, Option.some.injEq, Prod.mk.injEq] at h
        obtain ⟨rfl, rfl⟩ := h
        have ih := quotedBody_fill hm n hl hq (fun c hc => hb c (by simp [hc])) hr
        cases hf : f c with
        | some x =>
          rw [fill_mark hf]
          cases x with
          | text x => exact absurd hf (hb c (by simp) x)
          | name x =>
            simp only [Filling.written, quotedBody_written, ih]
            simp [Fillings.inName, hf]
        | none =>
          rw [fill_plain hf, readQuotedBody_plain c _ h1, ih]
          simp [Fillings.inName, hf]

/-! ### Names and numbers -/

theorem nameParts_fill {s w r : Str} (h : readNameParts u s = (w, r)) (hw : ∀ c ∈ w, f c = none) (hr : Start f r) :
    readNameParts u (f.fill s) = (w, f.fill r) := by
  induction s generalizing w with
  | nil => cases h; rfl
  | cons c s ih =>
    rw [readNameParts] at h
    split at h
    · rename_i hc
      cases h
      rw [fill_plain (hw c (by simp)), readNameParts]
      simp only [hc, if_true, ih rfl fun d hd => hw d (by simp [hd])]
    · rename_i hc
      cases h
      have := hr c rfl
      rw [fill_plain this, readNameParts]
      simp [hc]

theorem digits_fill (hm : Marks u f) {s w r : Str} (h : takeDigits s = (w, r)) (hr : Start f r) : takeDigits (f.fill s) = (w, f.fill r) := by
  induction s generalizing w with
  | nil => cases h; rfl
  | cons c s ih =>
    rw [takeDigits] at h
    split at h
    · rename_i hc
      cases h
      have hp : f c = none := by
        refine plain_ascii hm ?_
        unfold digitVal at hc
        split at hc
        · omega
        · simp at hc
      rw [fill_plain hp, takeDigits]
      simp only [hc, if_true, ih rfl]
    · rename_i hc
      cases h
      have := hr c rfl
      rw [fill_plain this, takeDigits]
      simp [hc]

/-- the text has tokens, and the places are where they should be -/
def Safe (u : Unicode) (f : Fillings) (s : Str) : Prop := ∃ ts, Tokens u s ts ∧ ∀ t ∈ ts, f.Within t

theorem mark_token (hm : Marks u f) {c : Char} {s : Str} (h : (f c).isSome = true) : nextToken u (c :: s) = some (.sym c, s) := by
  obtain ⟨h1, h2, h3, h4⟩ := hm c h
  have hn : ∀ d : Char, d.toNat < 128 → c ≠ d := fun d hd => mark_not hm h hd
  have hs : ¬ isNameStart u c := by
    rintro (h | h)
    · rw [h2] at h; cases h
    · exact hn '_' (by decide) h
  have hd : digitVal c = none := by
    unfold digitVal
    rw [if_neg (by omega)]
  rw [nextToken]
  simp [h4, hn '\'' (by decide), hn '`' (by decide), hn '$' (by decide), hd, hs, hn '/' (by decide)]

theorem Safe.start (hm : Marks u f) {s : Str} (h : Safe u f s) : Start f s := by
  intro c hc
  obtain ⟨ts, ht, hw⟩ := h
  cases hf : f c with
  | none => rfl
  | some x =>
    exfalso
    cases s with
    | nil => simp at hc
    | cons d s =>
      simp only [List.head?_cons, Option.some.injEq] at hc
      subst hc
      cases ht with
      | blank hb =>
        simp only [List.all_cons, Bool.and_eq_true] at hb
        rw [plain_space hm hb.1] at hf; cases hf
      | more hn _ =>
        rw [mark_token hm (by simp [hf])] at hn
        cases hn
        have := hw (.sym d) (by simp)
        simp only [Fillings.Within] at this
        rw [this] at hf; cases hf

theorem Safe.rest {s r : Str} {t : Token} (h : Safe u f s) (hn : nextToken u s = some (t, r)) : f.Within t ∧ Safe u f r := by
  obtain ⟨ts, ht, hw⟩ := h
  cases ht with
  | blank hb => rw [nextToken_space hb] at hn; cases hn
  | more hn' ht =>
    rw [hn] at hn'
    cases hn'
    exact ⟨hw _ (by simp), _, ht, fun t h => hw t (by simp [h])⟩

theorem Safe.sym {c : Char} {s : Str} (hc : c = '.' ∨ c = '+' ∨ c = '-') (h : Safe u f (c :: s)) : Safe u f s := by
  refine (h.rest (t := .sym c) (r := s) ?_).2
  have key : c.toNat < 128 ∧ c.isAlpha = false ∧ c ≠ '_' ∧ c ≠ '\'' ∧ c ≠ '`' ∧ c ≠ '$' ∧ digitVal c = none ∧ c ≠ '/' ∧
      (c = ' ' || c = '\t' || c = '\n' || c = '\r' || c = Char.ofNat 11 || c = Char.ofNat 12) = false := by
    rcases hc with rfl | rfl | rfl <;> decide
  obtain ⟨h1, h2, h3, h4, h5, h6, h7, h8, h9⟩ := key
  have hs : ¬ isNameStart u c := by
    unfold isNameStart
    rw [u.letter_ascii c h1]
    simp [h2, h3]
  rw [nextToken]
  simp [u.space_ascii c h1, h9, h4, h5, h6, h7, hs, h8]

theorem e_token (s : Str) : nextToken u ('e' :: s) = some (.word ('e' :: (readNameParts u s).1), (readNameParts u s).2) := by
  have h1 : u.isSpace 'e' = false := by rw [u.space_ascii _ (by decide)]; decide
  have h2 : digitVal 'e' = none := by decide
  have h3 : isNameStart u 'e' := Or.inl (by rw [u.letter_ascii _ (by decide)]; decide)
  rw [nextToken]
  simp [h1, h2, h3]

theorem Safe.e (hm : Marks u f) {c : Char} {s : Str} (h : Safe u f ('e' :: c :: s)) :
    f c = none ∧ (c = '+' ∨ c = '-' → Safe u f s) := by
  have hr := h.rest (e_token (c :: s))
  constructor
  · cases hf : f c with
    | none => rfl
    | some x =>
      exfalso
      obtain ⟨h1, h2, h3, h4⟩ := hm c (by simp [hf])
      have hp : ¬ isNamePart u c := by
        rintro (h | h | h)
        · rw [h2] at h; cases h
        · exact mark_not hm (by simp [hf]) (by decide) h
        · rw [h3] at h; cases h
      simp only [readNameParts, hp, if_false] at hr
      have := hr.2.start hm c rfl
      rw [this] at hf; cases hf
  · intro hc
    have hp : ¬ isNamePart u c := by
      have key : c.toNat < 128 ∧ c.isAlpha = false ∧ c.isDigit = false ∧ c ≠ '_' := by rcases hc with rfl | rfl <;> decide
      obtain ⟨h1, h2, h3, h4⟩ := key
      unfold isNamePart
      rw [u.letter_ascii c h1, u.digit_ascii c h1]
      simp [h2, h3, h4]
    simp only [readNameParts, hp, if_false] at hr
    exact hr.2.sym (Or.inr hc)

theorem plain_digit (hm : Marks u f) {c : Char} (h : (digitVal c).isSome = true) : f c = none := by
  refine plain_ascii hm ?_
  unfold digitVal at h
  split at h
  · omega
  · simp at h

theorem takeExponent_other {s : Str} (h : ∀ r, s ≠ 'e' :: r) : takeExponent s = ([], s) := by
  unfold takeExponent
  split
  · exact absurd rfl (h _)
  · exact absurd rfl (h _)
  · exact absurd rfl (h _)
  · rfl

theorem takeFraction_other {s : Str} (h : ∀ r, s ≠ '.' :: r) : takeFraction s = ([], s) := by
  unfold takeFraction
  split
  · exact absurd rfl (h _)
  · rfl

theorem fill_starts {s : Str} (hs : Start f s) {d : Char} (h : ∀ r, s ≠ d :: r) : ∀ r, f.fill s ≠ d :: r := by
  intro r he
  have := fill_head hs
  rw [he] at this
  cases s with
  | nil => cases this
  | cons c s =>
    simp only [List.head?_cons, Option.some.injEq] at this
    exact h s (by rw [this])

theorem takeExponent_e {c : Char} {s : Str} (h : ¬ ((c = '+' ∨ c = '-') ∧ s ≠ [])) : takeExponent ('e' :: c :: s) =
    if (digitVal c).isSome then ('e' :: c :: (takeDigits s).1, (takeDigits s).2) else ([], 'e' :: c :: s) := by
  rw [takeExponent.eq_def]
  split
  · rename_i heq; cases heq; exact absurd ⟨Or.inl rfl, by simp⟩ h
  · rename_i heq; cases heq; exact absurd ⟨Or.inr rfl, by simp⟩ h
  · rename_i heq; cases heq; rfl
  · rename_i h3; exact absurd rfl (h3 _ _)

/-- An exponent, filled. -/
theorem exponent_fill (hm : Marks u f) {s w r : Str} (h : takeExponent s = (w, r)) (hr : Safe u f r) :
    takeExponent (f.fill s) = (w, f.fill r) ∧ Start f s := by
  have he : f 'e' = none := plain_ascii hm (by decide)
  have hp : f '+' = none := plain_ascii hm (by decide)
  have hmi : f '-' = none := plain_ascii hm (by decide)
  match s with
  | [] => cases h; exact ⟨rfl, fun c hc => by cases hc⟩
  | [c] =>
    have h' : takeExponent [c] = ([], [c]) := by
      unfold takeExponent
      split <;> simp_all
    rw [h'] at h
    cases h
    have hs := hr.start hm
    refine ⟨?_, hs⟩
    rw [fill_plain (hs c rfl), fill_nil]
    exact h'
  | d :: c :: s =>
    by_cases hd : d = 'e'
    · subst hd
      refine ⟨?_, fun d hd => by cases hd; exact he⟩
      by_cases hsig : (c = '+' ∨ c = '-') ∧ s ≠ []
      · obtain ⟨hsign, hne⟩ := hsig
        cases s with
        | nil => exact absurd rfl hne
        | cons c' s =>
          have hcs : f c = none := by rcases hsign with rfl | rfl <;> assumption
          have hx : ∀ (x : Char) (t : Str), takeExponent ('e' :: c :: x :: t) =
              if (digitVal x).isSome then ('e' :: c :: x :: (takeDigits t).1, (takeDigits t).2) else ([], 'e' :: c :: x :: t) := by
            intro x t
            rcases hsign with rfl | rfl <;> rw [takeExponent]
          rw [hx] at h
          rw [fill_plain he, fill_plain hcs]
          split at h
          · rename_i hd
            cases h
            rw [fill_plain (plain_digit hm hd), hx, if_pos hd, digits_fill hm rfl (hr.start hm)]
          · rename_i hd
            cases h
            have hc' := ((hr.e hm).2 hsign).start hm c' rfl
            rw [fill_plain hc', hx, if_neg hd, fill_plain he, fill_plain hcs, fill_plain hc']
      · rw [takeExponent_e hsig] at h
        rw [fill_plain he]
        split at h
        · rename_i hd
          cases h
          rw [fill_plain (plain_digit hm hd), takeExponent_e, if_pos hd, digits_fill hm rfl (hr.start hm)]
          rintro ⟨rfl | rfl, _⟩ <;> revert hd <;> decide
        · rename_i hd
          cases h
          have hc := (hr.e hm).1
          rw [fill_plain hc, takeExponent_e, if_neg hd]
          · rw [fill_plain he, fill_plain hc]
          · rintro ⟨h1, h2⟩
            refine hsig ⟨h1, ?_⟩
            rintro rfl
            exact h2 rfl
    · have h' : takeExponent (d :: c :: s) = ([], d :: c :: s) := takeExponent_other fun r h => hd (by cases h; rfl)
      rw [h'] at h
      cases h
      have hs := hr.start hm
      exact ⟨takeExponent_other (fill_starts hs fun r h => hd (by cases h; rfl)), hs⟩

/-- A fraction, filled. -/
theorem fraction_fill (hm : Marks u f) {s w r w' r' : Str} (h : takeFraction s = (w, r)) (h' : takeExponent r = (w', r')) (hr : Safe u f r') :
    takeFraction (f.fill s) = (w, f.fill r) ∧ Start f s := by
  have hp : f '.' = none := plain_ascii hm (by decide)
  have hs := (exponent_fill hm h' hr).2
  match s with
  | [] => cases h; exact ⟨rfl, fun c hc => by cases hc⟩
  | d :: s =>
    by_cases hd : d = '.'
    · subst hd
      refine ⟨?_, fun d hd => by cases hd; exact hp⟩
      cases s with
      | nil =>
        have h1 : takeFraction c!"." = ([], c!".") := by rw [takeFraction.eq_def]; rfl
        rw [h1] at h
        cases h
        rw [fill_plain hp, fill_nil]; exact h1
      | cons c s =>
        rw [takeFraction] at h
        split at h
        · rename_i hc
          cases h
          rw [fill_plain hp, fill_plain (plain_digit hm hc), takeFraction, if_pos hc, digits_fill hm rfl hs]
        · rename_i hc
          cases h
          rw [takeExponent_other (by intro r h; cases h)] at h'
          cases h'
          have hc' := (hr.sym (Or.inl rfl)).start hm c rfl
          rw [fill_plain hp, fill_plain hc', takeFraction, if_neg hc]
    · have h1 : takeFraction (d :: s) = ([], d :: s) := takeFraction_other fun r h => hd (by cases h; rfl)
      rw [h1] at h
      cases h
      exact ⟨takeFraction_other (fill_starts hs fun r h => hd (by cases h; rfl)), hs⟩

theorem number_fill (hm : Marks u f) {s : Str} (hr : Safe u f (takeNumber s).2) :
    takeNumber (f.fill s) = ((takeNumber s).1, f.fill (takeNumber s).2) := by
  simp only [takeNumber] at hr ⊢
  have h1 := exponent_fill hm (Prod.mk.eta (p := takeExponent (takeFraction (takeDigits s).2).2)).symm hr
  have h2 := fraction_fill hm (Prod.mk.eta (p := takeFraction (takeDigits s).2)).symm (Prod.mk.eta (p := takeExponent _)).symm hr
  have h3 := digits_fill hm (Prod.mk.eta (p := takeDigits s)).symm h2.2
  rw [h3]
  simp only [h2.1, h1.1]

theorem inText_id {s : Str} (h : ∀ c ∈ s, f c = none) : f.inText s = s := by
  induction s with
  | nil => rfl
  | cons c s ih =>
    have := ih fun d hd => h d (by simp [hd])
    simp only [Fillings.inText, List.flatMap_cons, h c (by simp)] at this ⊢
    rw [this]; rfl

theorem inName_id {s : Str} (h : ∀ c ∈ s, f c = none) : f.inName s = s := by
  induction s with
  | nil => rfl
  | cons c s ih =>
    have := ih fun d hd => h d (by simp [hd])
    simp only [Fillings.inName, List.flatMap_cons, h c (by simp)] at this ⊢
    rw [this]; rfl

/-- The first token, filled. -/
theorem next_fill (hm : Marks u f) {s : Str} {t : Token} {r : Str} (h : nextToken u s = some (t, r)) (hw : f.Within t) (hr : Safe u f r) :
    nextToken u (f.fill s) = some (f.token t, f.fill r) := by
  induction s with
  | nil => simp [nextToken] at h
  | cons c s ih =>
    by_cases hsp : u.isSpace c = true
    · rw [Rd.nextToken_space hsp] at h
      rw [fill_plain (plain_space hm hsp), Rd.nextToken_space hsp]
      exact ih h
    replace hsp := Bool.eq_false_iff.mpr hsp
    have hst := hr.start hm
    rw [nextToken] at h
    simp only [hsp, Bool.false_eq_true, if_false] at h
    split at h
    · rename_i hc
      subst hc
      obtain ⟨p, hp, he⟩ := Option.map_eq_some_iff.mp h
      cases he
      rw [fill_plain (plain_ascii hm (by decide)), nextToken]
      simp only [hsp, Bool.false_eq_true, if_false, if_true]
      rw [stringBody_fill hm _ (Nat.le_refl _) hp hw]
      rfl
    rename_i h1
    split at h
    · rename_i hc
      subst hc
      obtain ⟨p, hp, he⟩ := Option.map_eq_some_iff.mp h
      cases he
      rw [fill_plain (plain_ascii hm (by decide)), nextToken]
      simp only [hsp, Bool.false_eq_true, h1, if_false, if_true]
      rw [quotedBody_fill hm _ (Nat.le_refl _) hp hw hst]
      rfl
    rename_i h2
    split at h
    · rename_i hc
      subst hc
      obtain ⟨p, hp, he⟩ := Option.map_eq_some_iff.mp h
      cases he
      rw [fill_plain (plain_ascii hm (by decide)), nextToken]
      simp only [hsp, Bool.false_eq_true, h1, h2, if_false, if_true]
      have : readName u (f.fill s) = some (p.1, f.fill p.2) := by
        cases s with
        | nil => simp [readName] at hp
        | cons d s =>
          rw [readName] at hp
          split at hp
          · rename_i hd
            subst hd
            rw [fill_plain (plain_ascii hm (by decide)), readName, if_pos rfl, quotedBody_fill hm _ (Nat.le_refl _) hp (fun c hc x hx => by
              rw [hw c hc] at hx; cases hx) hst]
            rw [inName_id hw]
          · rename_i hd
            split at hp
            · rename_i hn
              cases hp
              rw [fill_plain (hw d (by simp)), readName, if_neg hd, if_pos hn, nameParts_fill rfl (fun c hc => hw c (by simp [hc])) hst]
            · cases hp
      rw [this]
      rfl
    rename_i h3
    split at h
    · rename_i hd
      cases h
      have := number_fill hm hr
      rw [fill_plain (plain_digit hm hd)] at this ⊢
      rw [nextToken]
      simp only [hsp, Bool.false_eq_true, h1, h2, h3, hd, if_false, if_true, this]
      rfl
    rename_i h4
    split at h
    · rename_i hn
      cases h
      have hc := hw c (by simp)
      rw [fill_plain hc, nextToken]
      simp only [hsp, Bool.false_eq_true, h1, h2, h3, h4, hn, if_false, if_true, nameParts_fill rfl (fun d hd => hw d (by simp [hd])) hst]
      rfl
    rename_i h5
    split at h
    · cases h
    · rename_i h6
      cases h
      rw [fill_plain hw, nextToken]
      simp only [hsp, Bool.false_eq_true, h1, h2, h3, h4, h5, fill_head hst, h6, if_false]
      rfl

theorem tokens_fill (hm : Marks u f) {s : Str} {ts : List Token} (h : Tokens u s ts) (hw : ∀ t ∈ ts, f.Within t) :
    Tokens u (f.fill s) (ts.map f.token) := by
  induction h with
  | blank hs =>
    refine .blank ?_
    rw [fill_id fun c hc => plain_space hm (List.all_eq_true.mp hs c hc)]
    exact hs
  | more hn ht ih =>
    exact .more (next_fill hm hn (hw _ (by simp)) ⟨_, ht, fun t h => hw t (by simp [h])⟩) (ih fun t h => hw t (by simp [h]))

/-! ### The end of the text -/

theorem stringBody_end : ∀ (n : Nat) {s b r : Str}, s.length ≤ n → readStringBody s = some (b, r) → ∃ p, s = p ++ '\'' :: r
  | _, [], _, _, _, h => by simp [readStringBody] at h
  | 0, c :: s, _, _, hl, _ => by simp at hl
  | n + 1, c :: s, b, r, hl, h => by
    simp only [List.length_cons, Nat.add_le_add_iff_right] at hl
    rw [readStringBody.eq_def] at h
    split at h
    · simp_all
    · rename_i heq; cases heq; cases h; exact ⟨[], rfl⟩
    · rename_i d s' heq
      cases heq
      cases hu : unescape d with
      | none => simp [hu] at h
      | some d' =>
        cases hr : readStringBody s' with
        | none => simp [hu, hr] at h
        | some p =>
          simp only [hu, hr, Option.bind_eq_bind, Option.bind_some, Option.some.injEq, Prod.mk.injEq] at h
          obtain ⟨_, rfl⟩ := h
          obtain ⟨q, hq⟩ := stringBody_end n (b := p.1) (r := p.2) (by simp only [List.length_cons] at hl; omega) hr
          exact ⟨'\\' :: d :: q, by rw [hq]; simp⟩
    · cases h
    · rename_i heq
      cases heq
      cases hr : readStringBody s with
      | none => simp [hr] at h
      | some p =>
        simp only [hr, Option.bind_eq_bind, Option.bind_some, Option.some.injEq, Prod.mk.injEq] at h
        obtain ⟨_, rfl⟩ := h
        obtain ⟨q, hq⟩ := stringBody_end n (b := p.1) (r := p.2) hl hr
        exact ⟨c :: q, by rw [hq]; simp⟩

theorem quotedBody_end : ∀ (n : Nat) {s b r : Str}, s.length ≤ n → readQuotedBody s = some (b, r) → ∃ p, s = p ++ '`' :: r
  | _, [], _, _, _, h => by simp [readQuotedBody] at h
  | 0, c :: s, _, _, hl, _ => by simp at hl
  | n + 1, c :: s, b, r, hl, h => by
    simp only [List.length_cons, Nat.add_le_add_iff_right] at hl
    rw [readQuotedBody.eq_def] at h
    split at h
    · simp_all
    · rename_i s' heq
      cases heq
      cases hr : readQuotedBody s' with
      | none => simp [hr] at h
      | some p =>
        simp only [hr, Option.bind_eq_bind, Option.bind_some, Option.some.injEq, Prod.mk.injEq] at h
        obtain ⟨_, rfl⟩ := h
        obtain ⟨q, hq⟩ := quotedBody_end n (b := p.1) (r := p.2) (by simp only [List.length_cons] at hl; omega) hr
        exact ⟨'`' :: '`' :: q, by rw [hq]; simp⟩
    · rename_i heq; cases heq; cases h; exact ⟨[], rfl⟩
    · rename_i heq
      cases heq
      cases hr : readQuotedBody s with
      | none => simp [hr] at h
      | some p =>
        simp only [hr, Option.bind_eq_bind, Option.bind_some, Option.some.injEq, Prod.mk.injEq] at h
        obtain ⟨_, rfl⟩ := h
        obtain ⟨q, hq⟩ := quotedBody_end n (b := p.1) (r := p.2) hl hr
        exact ⟨c :: q, by rw [hq]; simp⟩

theorem nameParts_append (s : Str) : s = (readNameParts u s).1 ++ (readNameParts u s).2 := by
  induction s with
  | nil => rfl
  | cons c s ih =>
    rw [readNameParts]
    split
    · simp only [List.cons_append]; rw [← ih]
    · rfl

theorem takeDigits_append (s : Str) : s = (takeDigits s).1 ++ (takeDigits s).2 := by
  induction s with
  | nil => rfl
  | cons c s ih =>
    rw [takeDigits]
    split
    · simp only [List.cons_append]; rw [← ih]
    · rfl

theorem takeFraction_append (s : Str) : s = (takeFraction s).1 ++ (takeFraction s).2 := by
  unfold takeFraction
  split
  · split
    · simp only [List.cons_append]; rw [← takeDigits_append]
    · rfl
  · rfl

theorem takeExponent_append (s : Str) : s = (takeExponent s).1 ++ (takeExponent s).2 := by
  unfold takeExponent
  split
  iterate 3
    split
    · simp only [List.cons_append]; rw [← takeDigits_append]
    · rfl
  · rfl

theorem takeNumber_append (s : Str) : s = (takeNumber s).1 ++ (takeNumber s).2 := by
  simp only [takeNumber]
  rw [List.append_assoc, ← takeExponent_append, List.append_assoc, ← takeFraction_append, ← takeDigits_append]

/-- the last character is no mark -/
def End (f : Fillings) (s : Str) : Prop := ∀ c, s.getLast? = some c → f c = none

theorem End.append {a b : Str} (ha : ∀ c ∈ a, f c = none) (hb : End f b) : End f (a ++ b) := by
  intro c hc
  rw [List.getLast?_append] at hc
  cases h : b.getLast? with
  | none =>
    rw [h] at hc
    exact ha c (List.mem_of_getLast? hc)
  | some d => rw [h] at hc; cases hc; exact hb _ h

theorem End.after {a b : Str} {d : Char} (hd : f d = none) (hb : End f b) : End f (a ++ d :: b) := by
  intro c hc
  rw [List.getLast?_append, List.getLast?_cons] at hc
  cases h : b.getLast? with
  | none => rw [h] at hc; cases hc; exact hd
  | some e => rw [h] at hc; cases hc; exact hb e h

theorem next_end (hm : Marks u f) {s : Str} {t : Token} {r : Str} (h : nextToken u s = some (t, r)) (hw : f.Within t) (hr : End f r) : End f s := by
  induction s with
  | nil => simp [nextToken] at h
  | cons c s ih =>
    by_cases hsp : u.isSpace c = true
    · rw [Rd.nextToken_space hsp] at h
      exact End.append (a := [c]) (by simp [plain_space hm hsp]) (ih h)
    replace hsp := Bool.eq_false_iff.mpr hsp
    rw [nextToken] at h
    simp only [hsp, Bool.false_eq_true, if_false] at h
    split at h
    · obtain ⟨p, hp, he⟩ := Option.map_eq_some_iff.mp h
      cases he
      obtain ⟨q, rfl⟩ := stringBody_end _ (Nat.le_refl _) hp
      exact End.after (a := c :: q) (plain_ascii hm (by decide)) hr
    split at h
    · obtain ⟨p, hp, he⟩ := Option.map_eq_some_iff.mp h
      cases he
      obtain ⟨q, rfl⟩ := quotedBody_end _ (Nat.le_refl _) hp
      exact End.after (a := c :: q) (plain_ascii hm (by decide)) hr
    split at h
    · rename_i hc
      obtain ⟨p, hp, he⟩ := Option.map_eq_some_iff.mp h
      cases he
      cases s with
      | nil => simp [readName] at hp
      | cons d s =>
        rw [readName] at hp
        split at hp
        · obtain ⟨q, rfl⟩ := quotedBody_end _ (Nat.le_refl _) hp
          exact End.after (a := c :: d :: q) (plain_ascii hm (by decide)) hr
        · split at hp
          · cases hp
            have : c :: d :: s = (c :: d :: (readNameParts u s).1) ++ (readNameParts u s).2 := by
              simp only [List.cons_append]; rw [← nameParts_append]
            rw [this]
            refine End.append ?_ hr
            intro x hx
            rcases List.mem_cons.1 hx with rfl | hx
            · rw [hc]; exact plain_ascii hm (by decide)
            · exact hw x hx
          · cases hp
    split at h
    · cases h
      rw [takeNumber_append (c :: s)]
      exact End.append hw hr
    split at h
    · cases h
      have : c :: s = (c :: (readNameParts u s).1) ++ (readNameParts u s).2 := by
        simp only [List.cons_append]; rw [← nameParts_append]
      rw [this]
      exact End.append hw hr
    split at h
    · cases h
    · cases h
      exact End.append (a := [c]) (by intro d hd; cases List.mem_singleton.1 hd; exact hw) hr

theorem tokens_end (hm : Marks u f) {s : Str} {ts : List Token} (h : Tokens u s ts) (hw : ∀ t ∈ ts, f.Within t) : End f s := by
  induction h with
  | blank hs => exact fun c hc => plain_space hm (List.all_eq_true.mp hs c (List.mem_of_getLast? hc))
  | more hn ht ih => exact next_end hm hn (hw _ (by simp)) (ih fun t h => hw t (by simp [h]))

theorem trim_around (u : Unicode) {w q w' : Str} (hw : ∀ c ∈ w, u.isSpace c = true) (hw' : ∀ c ∈ w', u.isSpace c = true)
    (h1 : ∀ c, q.head? = some c → u.isSpace c = false) (h2 : ∀ c, q.getLast? = some c → u.isSpace c = false) (hq : q ≠ []) :
    trimSpace u (w ++ q ++ w') = q := by
  have key : ∀ (a b : Str), (∀ c ∈ a, u.isSpace c = true) → (∀ c, b.head? = some c → u.isSpace c = false) → trimLeft u (a ++ b) = b := by
    intro a b ha hb
    induction a with
    | nil =>
      cases b with
      | nil => rfl
      | cons c b => simp [trimLeft, hb c rfl]
    | cons c a ih =>
      have := ih fun d hd => ha d (by simp [hd])
      simp only [trimLeft] at this ⊢
      simp [ha c (by simp), this]
  unfold trimSpace
  rw [List.append_assoc, key w _ hw, List.reverse_append, key w'.reverse _ (fun c hc => hw' c (List.mem_reverse.1 hc)), List.reverse_reverse]
  · intro c hc; rw [List.head?_reverse] at hc; exact h2 c hc
  · intro c hc
    cases q with
    | nil => exact absurd rfl hq
    | cons d q => exact h1 c hc

theorem fill_last {s : Str} (h : End f s) : (f.fill s).getLast? = s.getLast? := by
  rcases List.eq_nil_or_concat s with rfl | ⟨s', c, rfl⟩
  · rfl
  · have := h c (by simp)
    simp [List.concat_eq_append, fill_append, fill_plain this, fill_nil]

theorem trim_fill (hm : Marks u f) {s : Str} (h1 : Start f (trimSpace u s)) (h2 : End f (trimSpace u s)) :
    trimSpace u (f.fill s) = f.fill (trimSpace u s) := by
  obtain ⟨⟨w, w', hs, hw, hw'⟩, hh, hl⟩ := trimSpace_spec u s
  by_cases hq : trimSpace u s = []
  · rw [hq] at hs
    have : f.fill s = s := by
      refine fill_id fun c hc => plain_space hm ?_
      rw [hs] at hc
      simp only [List.append_nil, List.mem_append] at hc
      rcases hc with hc | hc
      · exact hw c hc
      · exact hw' c hc
    rw [this, hq]; rfl
  · generalize trimSpace u s = q at *
    rw [hs, fill_append, fill_append, fill_id fun c hc => plain_space hm (hw c hc), fill_id fun c hc => plain_space hm (hw' c hc)]
    refine trim_around u hw hw' ?_ ?_ ?_
    · intro c hc; rw [fill_head h1] at hc; exact hh c hc
    · intro c hc; rw [fill_last h2] at hc; exact hl c hc
    · intro he
      have := fill_head h1
      rw [he] at this
      cases q with
      | nil => exact hq rfl
      | cons c q => cases this

theorem fill_rewrites (hm : Marks u f) : Rewrites f.fill where
  append := fill_append
  open_ := fill_id fun c hc => plain_ascii hm (by revert c; decide)
  close := fill_id fun c hc => plain_ascii hm (by revert c; decide)
  comma := fill_id fun c hc => plain_ascii hm (by revert c; decide)
  as := fill_id fun c hc => plain_ascii hm (by revert c; decide)

theorem fill_escape (hm : Marks u f) {s : Str} (hs : ∀ c ∈ s, ∀ x, f c ≠ some (.name x)) :
    f.fill (escapeStringLiteral s) = escapeStringLiteral (f.inText s) := by
  induction s with
  | nil => rfl
  | cons c s ih =>
    have ih := ih fun d hd => hs d (by simp [hd])
    have h1 : ∀ a b, escapeStringLiteral (a ++ b) = escapeStringLiteral a ++ escapeStringLiteral b := by simp [escapeStringLiteral]
    have h2 : f.inText (c :: s) = f.inText [c] ++ f.inText s := by simp [Fillings.inText]
    rw [h2, h1, ← ih, show c :: s = [c] ++ s from rfl, h1, fill_append]
    congr 1
    cases hf : f c with
    | none =>
      rw [inText_id (by simpa using hf)]
      refine fill_id fun d hd => ?_
      simp only [escapeStringLiteral, List.flatMap_cons, List.flatMap_nil, List.append_nil] at hd
      split at hd
      · simp only [List.mem_cons, List.not_mem_nil, or_false] at hd
        rcases hd with rfl | rfl
        · exact plain_ascii hm (by decide)
        · exact hf
      · simp only [List.mem_cons, List.not_mem_nil, or_false] at hd
        subst hd; exact hf
    | some y =>
      cases y with
      | name x => exact absurd hf (hs c (by simp) x)
      | text x =>
        have hr : isReservedChar c = false := by
          simp [isReservedChar, mark_not hm (f := f) (c := c) (by simp [hf]) (d := '\\') (by decide),
            mark_not hm (f := f) (c := c) (by simp [hf]) (d := '\'') (by decide), mark_not hm (f := f) (c := c) (by simp [hf]) (d := '"') (by decide)]
        have : escapeStringLiteral [c] = [c] := by simp [escapeStringLiteral, hr]
        rw [this, fill_mark hf]
        simp [Filling.written, Fillings.inText, hf, fill_nil]

theorem fill_quote (hm : Marks u f) {s : Str} (hs : ∀ c ∈ s, ∀ x, f c ≠ some (.text x)) :
    f.fill (replaceChar '`' ['`', '`'] s) = replaceChar '`' ['`', '`'] (f.inName s) := by
  induction s with
  | nil => rfl
  | cons c s ih =>
    have ih := ih fun d hd => hs d (by simp [hd])
    have h1 : ∀ a b, replaceChar '`' ['`', '`'] (a ++ b) = replaceChar '`' ['`', '`'] a ++ replaceChar '`' ['`', '`'] b := by simp [replaceChar]
    have h2 : f.inName (c :: s) = f.inName [c] ++ f.inName s := by simp [Fillings.inName]
    rw [h2, h1, ← ih, show c :: s = [c] ++ s from rfl, h1, fill_append]
    congr 1
    cases hf : f c with
    | none =>
      rw [inName_id (by simpa using hf)]
      refine fill_id fun d hd => ?_
      simp only [replaceChar, List.flatMap_cons, List.flatMap_nil, List.append_nil] at hd
      split at hd
      · simp only [List.mem_cons, List.not_mem_nil, or_false] at hd
        rcases hd with rfl | rfl <;> exact plain_ascii hm (by decide)
      · simp only [List.mem_cons, List.not_mem_nil, or_false] at hd
        subst hd; exact hf
    | some y =>
      cases y with
      | text x => exact absurd hf (hs c (by simp) x)
      | name x =>
        have : replaceChar '`' ['`', '`'] [c] = [c] := by
          simp [replaceChar, mark_not hm (f := f) (c := c) (by simp [hf]) (d := '`') (by decide)]
        rw [this, fill_mark hf]
        simp [Filling.written, Fillings.inName, hf, fill_nil]

theorem fill_escapeName (hm : Marks u f) {s : Str} (hs : ∀ c ∈ s, ∀ x, f c ≠ some (.text x)) : f.fill (escapeName s) = escapeName (f.inName s) := by
  rw [escapeName, fill_plain (plain_ascii hm (by decide)), fill_append, fill_quote hm hs, fill_id (s := ['`']) fun c hc => plain_ascii hm (by
    simp only [List.mem_singleton] at hc; subst hc; decide)]
  rfl

end Inj
open Inj

/-! ### C81 -/

/-- C81: let a statement have places inside string literals and quoted names.  Whatever is filled in there, its text consists of the same
words: a string literal is filled with exactly what was put in, a quoted name as well, and every other word stays as it is. -/
theorem C81_words {u : Unicode} {f : Fillings} (hm : Marks u f) {st : Statement} {q : Str} (h : (render u RState.new (some st)).1 = .ok q)
    {ts : List Token} (ht : Tokens u q ts) (hw : ∀ t ∈ ts, f.Within t) :
    ∃ q', (render u RState.new (some { st with visit := Tree.textsL f.fill st.visit })).1 = .ok q' ∧ Tokens u q' (ts.map f.token) := by
  have hs : Inj.Safe u f q := ⟨ts, ht, hw⟩
  simp only [render] at h ⊢
  cases he : st.err with
  | some e => rw [he] at h; cases h
  | none =>
    rw [he] at h
    cases h
    refine ⟨_, rfl, ?_⟩
    have h70 := C70_texts f.fill (Inj.fill_rewrites hm) st.visit
    unfold renderOut at h70
    rw [h70, trim_fill hm (hs.start hm) (tokens_end hm ht hw)]
    exact tokens_fill hm ht hw

/-- C81: the words of a text are unique, so no other reading is possible. -/
theorem C81_unique {u : Unicode} {f : Fillings} (hm : Marks u f) {st : Statement} {q : Str} (h : (render u RState.new (some st)).1 = .ok q)
    {ts : List Token} (ht : Tokens u q ts) (hw : ∀ t ∈ ts, f.Within t) {q' : Str} {ts' : List Token}
    (h' : (render u RState.new (some { st with visit := Tree.textsL f.fill st.visit })).1 = .ok q') (ht' : Tokens u q' ts') :
    ts' = ts.map f.token := by
  obtain ⟨q2, h2, h3⟩ := C81_words hm h ht hw
  rw [h2] at h'
  cases h'
  exact ht'.unique h3

/-- C81: a string literal with places is, filled, the string literal with the contents put in. -/
theorem C81_string {u : Unicode} {f : Fillings} (hm : Marks u f) (k : Key) {s : Str} (hs : ∀ c ∈ s, ∀ x, f c ≠ some (.name x)) :
    Tree.textsL f.fill (stringLiteral k s).visit = (stringLiteral k (f.inText s)).visit := by
  have hq : f '\'' = none := plain_ascii hm (by decide)
  have : f.fill (stringLiteralText s) = stringLiteralText (f.inText s) := by
    rw [stringLiteralText, fill_plain hq, fill_append, fill_escape hm hs, fill_plain hq, fill_nil]
    rfl
  simp [stringLiteral, Val.mk', leaf, nd, Tree.textsL, Tree.texts, Vis.texts, Kind.texts, this, fill_nil]

/-- C81: the same for labels, unless nothing is put in. -/
theorem C81_label {u : Unicode} {f : Fillings} (hm : Marks u f) (k : Key) {s : Str} (hs : ∀ c ∈ s, ∀ x, f c ≠ some (.text x)) (hn : f.inName s ≠ []) :
    (labelVisit (k, s)).texts f.fill = labelVisit (k, f.inName s) := by
  have hne : s ≠ [] := by rintro rfl; exact hn rfl
  have : f.fill (labelText s) = labelText (f.inName s) := by
    rw [labelText, if_neg hne, labelText, if_neg hn, fill_plain (plain_ascii hm (by decide)), fill_escapeName hm hs]
  simp [labelVisit, leaf, nd, Tree.textsL, Tree.texts, Vis.texts, Kind.texts, this, fill_nil]

/-- C81: the same for relationship types. -/
theorem C81_types {u : Unicode} {f : Fillings} (hm : Marks u f) (k : Key) {ts : List Str} (hs : ∀ s ∈ ts, ∀ c ∈ s, ∀ x, f c ≠ some (.text x))
    (hn : ∀ s ∈ ts, f.inName s ≠ []) :
    Tree.textsL f.fill (typesVisit (some (k, ts))) = typesVisit (some (k, ts.map f.inName)) := by
  have hne : ∀ s ∈ ts, s ≠ [] := by rintro _ h rfl; exact hn _ h rfl
  have hj : ∀ l : List Str, f.fill (join c!"|" l) = join c!"|" (l.map f.fill) := by
    intro l
    induction l with
    | nil => rfl
    | cons a l ih =>
      cases l with
      | nil => rfl
      | cons b l =>
        rw [join, fill_append, fill_append, ih, fill_id (s := c!"|") fun c hc => plain_ascii hm (by simp only [List.mem_singleton] at hc; subst hc; decide)]
        rfl
  have hf1 : ts.filter (· ≠ []) = ts := List.filter_eq_self.2 (by simpa using hne)
  have hf2 : (ts.map f.inName).filter (· ≠ []) = ts.map f.inName := List.filter_eq_self.2 (by simpa using hn)
  have : f.fill (typesText ts) = typesText (ts.map f.inName) := by
    cases ts with
    | nil => rfl
    | cons a l =>
      rw [typesText, if_neg (by simp), typesText, if_neg (by simp), hf1, hf2, fill_plain (plain_ascii hm (by decide)), hj]
      simp only [List.map_map]
      congr 2
      exact List.map_congr_left fun s hs' => fill_escapeName hm (hs s hs')
  simp [typesVisit, leaf, nd, Tree.textsL, Tree.texts, Vis.texts, Kind.texts, this, fill_nil]

namespace SampleInjection

/-- `Match(ANode(label).NamedByString("n")).Where(n.Property("p").IsEqualTo(LiteralOf(text))).Returning(n, LiteralOf(text)).Build()` -/
def calls (label text : Str) : List Call :=
  [.match_ 10 11 false [(NodeV.namedByString (.create2 12 13 label) 14 c!"n").toVal .ascii],
   .where_ (.atom (compare .isEqualTo 15 16 17 (some ((NodeV.namedByString (.create2 12 13 label) 14 c!"n").property .ascii 18 19 c!"p"))
     (some (stringLiteral 20 text)))),
   .returning 21 22 false (.exprs [symbolicName .ascii 23 c!"n", aliasedCreate .ascii 24 (some (stringLiteral 20 text)) c!"t"])]

/-- The statement built by calls on a new builder. -/
def stmt (label text : Str) : Statement :=
  match (execAll .ascii start (calls label text)).bind B.build with
  | .ok (.ok s) => ⟨s.err, s.visit⟩
  | _ => ⟨none, []⟩

/-- what a program makes of its input -/
def input : Fillings := fun c =>
  if c = '€' then some (.name c!"L`) DETACH DELETE n //")
  else if c = '£' then some (.text c!"' OR 1 = 1 //")
  else none

def out (s : Statement) : Str := match (render .ascii RState.new (some s)).1 with | .ok q => q | .error _ => []

def words : List Token :=
  [.word c!"MATCH", .sym '(', .word c!"n", .sym ':', .quoted c!"€", .sym ')', .word c!"WHERE", .word c!"n", .sym '.', .word c!"p", .sym '=',
   .str c!"it is £", .word c!"RETURN", .word c!"n", .sym ',', .str c!"it is £", .word c!"AS", .word c!"t"]

theorem marks : Marks .ascii input := by
  intro c hc
  unfold input at hc
  split at hc
  · subst c; decide
  · split at hc
    · subst c; decide
    · cases hc

example : out (stmt c!"€" c!"it is £") = c!"MATCH (n:`€`) WHERE n.p = 'it is £' RETURN n, 'it is £' AS t" := by decide +kernel

theorem tokens : Tokens .ascii (out (stmt c!"€" c!"it is £")) words :=
  lex_tokens (n := 20) (by decide +kernel)

theorem within : ∀ t ∈ words, input.Within t := by
  intro t ht
  simp only [words, List.mem_cons, List.not_mem_nil, or_false] at ht
  rcases ht with rfl | rfl | rfl | rfl | rfl | rfl | rfl | rfl | rfl | rfl | rfl | rfl | rfl | rfl | rfl | rfl | rfl | rfl
  all_goals first
    | (simp only [Fillings.Within]; decide)
    | (simp only [Fillings.Within, List.mem_cons, List.not_mem_nil, or_false]
       intro c hc x
       rcases hc with rfl | rfl | rfl | rfl | rfl | rfl | rfl <;> (intro h; revert h; simp [input]))

/-- the hypotheses of `C81_words` hold, and the statement with the places filled is the one that the program builds with its input -/
example : out { stmt c!"€" c!"it is £" with visit := Tree.textsL input.fill (stmt c!"€" c!"it is £").visit } =
    out (stmt c!"L`) DETACH DELETE n //" c!"it is ' OR 1 = 1 //") := by decide +kernel

example : out (stmt c!"L`) DETACH DELETE n //" c!"it is ' OR 1 = 1 //") =
    c!"MATCH (n:`L``) DETACH DELETE n //`) WHERE n.p = 'it is \\' OR 1 = 1 //' RETURN n, 'it is \\' OR 1 = 1 //' AS t" := by decide +kernel

example : Tokens .ascii (out (stmt c!"L`) DETACH DELETE n //" c!"it is ' OR 1 = 1 //")) (words.map input.token) := by
  refine lex_tokens (n := 20) ?_
  decide +kernel

end SampleInjection

end Verif
