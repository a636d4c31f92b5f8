import Verif.PropsInjection
import Verif.PatternLemmas

/-
C86: names put into a statement never become part of the query.

As in C81 a statement has places to be filled in.  Here a place is a letter that stands for a whole variable, alias, property key,
map key or parameter name; the words (tokens) of the texts with and without the names are compared, with the reader of `ReadSpec.lean`.
-/

namespace Verif.Spec

/-- Which letters stand for names, and for which. -/
abbrev Names := Char → Option Str

/-- A letter that can stand for a name: not in ASCII; and the names are not blank. -/
def NameMarks (u : Unicode) (n : Names) : Prop :=
  ∀ c x, n c = some x → 128 ≤ c.toNat ∧ u.isLetter c = true ∧ ∃ d ∈ x, u.isSpace d = false

/-- The token of a name: a plain word if Cypher reads the name as it is, otherwise a quoted name. -/
def nameToken (u : Unicode) (x : Str) : Token := if readName u x = some (x, []) then .word x else .quoted x

/-- The same token, with the name in its place. -/
def Names.token (u : Unicode) (n : Names) : Token → Token
  | .word [c] => match n c with
    | some x => nameToken u x
    | none => .word [c]
  | .param [c] => .param ((n c).getD [c])
  | t => t

/-- The places for names are whole words or whole names of parameters, and there are no other places. -/
def Names.Within (n : Names) : Token → Prop
  | .word s => ∀ c ∈ s, (n c).isSome = true → s = [c]
  | .str s => ∀ c ∈ s, n c = none
  | .quoted s => ∀ c ∈ s, n c = none
  | .num s => ∀ c ∈ s, n c = none
  | .param s => ∀ c ∈ s, (n c).isSome = true → s = [c]
  | .sym c => n c = none

/-- No place stands directly after a digit, or directly before or after a back-quote. -/
def Names.Apart (n : Names) (q : Str) : Prop :=
  ∀ a c d b, q = a ++ c :: d :: b →
    ((n d).isSome = true → c ≠ '`' ∧ digitVal c = none) ∧ ((n c).isSome = true → d ≠ '`')

end Verif.Spec

namespace Verif
open Spec

/-- A text with the names in their places, as the library writes them (cypher_renderer.go:196-201). -/
def Spec.Names.fill (u : Unicode) (n : Names) (s : Str) : Str :=
  s.flatMap fun c => match n c with
    | some x => escapeIfNecessary u x
    | none => [c]

namespace NameInj

variable {u : Unicode} {n : Names}

theorem fill_nil : n.fill u [] = [] := rfl

theorem fill_append (a b : Str) : n.fill u (a ++ b) = n.fill u a ++ n.fill u b := by simp [Names.fill]

theorem fill_plain {c : Char} {s : Str} (h : n c = none) : n.fill u (c :: s) = c :: n.fill u s := by simp [Names.fill, h]

theorem fill_mark {c : Char} {s : Str} {x : Str} (h : n c = some x) : n.fill u (c :: s) = escapeIfNecessary u x ++ n.fill u s := by
  simp [Names.fill, h]

theorem fill_id {s : Str} (h : ∀ c ∈ s, n c = none) : n.fill u s = s := by
  induction s with
  | nil => rfl
  | cons c s ih => rw [fill_plain (h c (by simp)), ih fun d hd => h d (by simp [hd])]

theorem plain_ascii (hm : NameMarks u n) {c : Char} (h : c.toNat < 128) : n c = none := by
  cases hc : n c with
  | none => rfl
  | some x => have := (hm c x hc).1; omega

theorem plain_part (hm : NameMarks u n) {c : Char} (h : ¬ isNamePart u c) : n c = none := by
  cases hc : n c with
  | none => rfl
  | some x => exact absurd (Or.inl (hm c x hc).2.1) h

theorem plain_space (hm : NameMarks u n) {c : Char} (h : u.isSpace c = true) : n c = none := by
  cases hc : n c with
  | none => rfl
  | some x => have := u.letter_not_space _ (hm c x hc).2.1; simp [h] at this

theorem plain_digit (hm : NameMarks u n) {c : Char} (h : (digitVal c).isSome = true) : n c = none := by
  refine plain_ascii hm ?_
  unfold digitVal at h
  split at h
  · omega
  · simp at h

/-- the first character of a filled text -/
theorem fill_head (hm : NameMarks u n) (s : Str) : (s = [] ∧ n.fill u s = []) ∨ (∃ c r, s = c :: r ∧ n c = none ∧ n.fill u s = c :: n.fill u r) ∨
    ∃ c r x d r', s = c :: r ∧ n c = some x ∧ n.fill u s = d :: r' ∧ (d = '`' ∨ isNameStart u d) := by
  cases s with
  | nil => exact .inl ⟨rfl, rfl⟩
  | cons c r =>
    cases hc : n c with
    | none => exact .inr (.inl ⟨c, r, rfl, hc, fill_plain hc⟩)
    | some x =>
      obtain ⟨d, r', he, hd⟩ := nameText_start u x (hm c x hc).2.2
      exact .inr (.inr ⟨c, r, x, d, r' ++ n.fill u r, rfl, hc, by rw [fill_mark hc, he]; rfl, hd⟩)

theorem start_ascii {d : Char} (h : d.toNat < 128) (h1 : d.isAlpha = false) (h2 : d ≠ '_') : ¬ isNameStart u d := by
  rintro (h' | h')
  · rw [u.letter_ascii d h, h1] at h'; cases h'
  · exact h2 h'

theorem digit_start {d : Char} (h : (digitVal d).isSome = true) : d ≠ '`' ∧ ¬ isNameStart u d := by
  unfold digitVal at h
  split at h
  · rename_i hr
    refine ⟨by rintro rfl; revert hr; decide, start_ascii (by omega) ?_ (by rintro rfl; revert hr; decide)⟩
    simp only [Char.isAlpha, Char.isUpper, Char.isLower, Bool.or_eq_false_iff, Bool.and_eq_false_iff, decide_eq_false_iff_not, ge_iff_le, UInt32.le_iff_toNat_le]
    have e1 : 'A'.val.toNat = 65 := rfl
    have e3 : 'a'.val.toNat = 97 := rfl
    have e4 : d.toNat = d.val.toNat := rfl
    omega
  · simp at h

/-- a character with which no name begins begins a filled text only if it began the text -/
theorem fill_starts (hm : NameMarks u n) {s r' : Str} {d : Char} (hd : d ≠ '`' ∧ ¬ isNameStart u d) (h : n.fill u s = d :: r') :
    ∃ r, s = d :: r := by
  rcases fill_head hm s with ⟨rfl, he⟩ | ⟨c, r, rfl, hc, he⟩ | ⟨c, r, x, d', r'', rfl, hc, he, h'⟩
  · rw [he] at h; cases h
  · rw [he] at h; cases h; exact ⟨_, rfl⟩
  · rw [he] at h; cases h
    rcases h' with rfl | h'
    · exact absurd rfl hd.1
    · exact absurd h' hd.2

/-! ### Quoted text -/

theorem stringBody_fill (hm : NameMarks u n) : ∀ (k : Nat) {s b r : Str}, s.length ≤ k → readStringBody s = some (b, r) →
    (∀ c ∈ b, n c = none) → readStringBody (n.fill u s) = some (b, n.fill u r)
  | _, [], _, _, _, h, _ => by simp [readStringBody] at h
  | 0, c :: s, _, _, hl, _, _ => by simp at hl
  | k + 1, c :: s, b, r, hl, h, hb => by
    simp only [List.length_cons, Nat.add_le_add_iff_right] at hl
    by_cases h1 : c = '\''
    · subst h1
      rw [readStringBody_quote] at h
      cases h
      rw [fill_plain (plain_ascii hm (by decide)), readStringBody_quote]
    by_cases h2 : c = '\\'
    · subst h2
      cases s with
      | nil => simp [readStringBody] at h
      | cons d s =>
        rw [readStringBody] at h
        cases hu : unescape d with
        | none => simp [hu] at h
        | some d' =>
          cases hr : readStringBody s with
          | none => simp [hu, hr] at h
          | some p =>
            obtain ⟨b', r'⟩ := p
            simp only [hu, hr, Option.bind_eq_bind, Option.bind_some, Option.some.injEq, Prod.mk.injEq] at h
            obtain ⟨rfl, rfl⟩ := h
            have hd : n d = none := by
              refine plain_ascii hm ?_
              unfold unescape at hu
              split at hu
              all_goals first
                | (cases hu; done)
                | decide
            rw [fill_plain (plain_ascii hm (by decide)), fill_plain hd, readStringBody_esc d d' _ hu,
              stringBody_fill hm k (by simp only [List.length_cons] at hl; omega) hr (fun c hc => hb c (by simp [hc]))]
            simp
    · have hp : ∀ t, readStringBody (c :: t) = (readStringBody t).map fun p => (c :: p.1, p.2) := by
        intro t
        rw [readStringBody.eq_def]
        split
        · simp_all
        · simp_all
        · simp_all
        · simp_all
        · rename_i heq
          cases heq
          simp only [Option.bind_eq_bind]
          cases readStringBody t <;> rfl
      rw [hp] at h
      cases hr : readStringBody s with
      | none => simp [hr] at h
      | some p =>
        obtain ⟨b', r'⟩ := p
        simp only [hr, Option.map_some, Option.some.injEq, Prod.mk.injEq] at h
        obtain ⟨rfl, rfl⟩ := h
        rw [fill_plain (hb c (by simp)), hp, stringBody_fill hm k hl hr (fun c hc => hb c (by simp [hc]))]
        rfl

theorem apart_tail {c : Char} {s : Str} (h : n.Apart (c :: s)) : n.Apart s := by
  intro a x y b he
  exact h (c :: a) x y b (by rw [he]; rfl)

theorem apart_suffix {p s : Str} (h : n.Apart (p ++ s)) : n.Apart s := by
  induction p with
  | nil => exact h
  | cons c p ih => exact ih (apart_tail h)

theorem apart_two {c d : Char} {s : Str} (h : n.Apart (c :: d :: s)) :
    ((n d).isSome = true → c ≠ '`' ∧ digitVal c = none) ∧ ((n c).isSome = true → d ≠ '`') := h [] c d s rfl

/-- after a back-quote the filled text does not go on with one -/
theorem quote_fill (hm : NameMarks u n) {s : Str} (ha : n.Apart ('`' :: s)) (h : s.head? ≠ some '`') : (n.fill u s).head? ≠ some '`' := by
  rcases fill_head hm s with ⟨rfl, he⟩ | ⟨c, r, rfl, hc, he⟩ | ⟨c, r, x, d', r'', rfl, hc, he, h'⟩
  · rw [he]; simp
  · rw [he]; simpa using h
  · exact absurd rfl ((apart_two ha).1 (by simp [hc])).1

theorem quotedBody_fill (hm : NameMarks u n) : ∀ (k : Nat) {s b r : Str}, s.length ≤ k → readQuotedBody s = some (b, r) →
    (∀ c ∈ b, n c = none) → n.Apart s → readQuotedBody (n.fill u s) = some (b, n.fill u r)
  | _, [], _, _, _, h, _, _ => by simp [readQuotedBody] at h
  | 0, c :: s, _, _, hl, _, _, _ => by simp at hl
  | k + 1, c :: s, b, r, hl, h, hb, ha => by
    simp only [List.length_cons, Nat.add_le_add_iff_right] at hl
    by_cases h1 : c = '`'
    · subst h1
      rw [fill_plain (plain_ascii hm (by decide))]
      by_cases h2 : s.head? = some '`'
      · cases s with
        | nil => simp at h2
        | cons d s =>
          simp only [List.head?_cons, Option.some.injEq] at h2
          subst h2
          rw [readQuotedBody_two] at h
          cases hq : readQuotedBody s with
          | none => simp [hq] at h
          | some p =>
            obtain ⟨b', r'⟩ := p
            simp only [hq, Option.map_some, Option.some.injEq, Prod.mk.injEq] at h
            obtain ⟨rfl, rfl⟩ := h
            rw [fill_plain (plain_ascii hm (by decide)), readQuotedBody_two,
              quotedBody_fill hm k (by simp only [List.length_cons] at hl; omega) hq (fun c hc => hb c (by simp [hc])) (apart_tail (apart_tail ha))]
            rfl
      · rw [readQuotedBody_end s h2] at h
        cases h
        rw [readQuotedBody_end _ (quote_fill hm ha h2)]
    · rw [readQuotedBody_plain c _ h1] at h
      cases hq : readQuotedBody s with
      | none => simp [hq] at h
      | some p =>
        obtain ⟨b', r'⟩ := p
        simp only [hq, Option.map_some, Option.some.injEq, Prod.mk.injEq] at h
        obtain ⟨rfl, rfl⟩ := h
        rw [fill_plain (hb c (by simp)), readQuotedBody_plain c _ h1, quotedBody_fill hm k hl hq (fun c hc => hb c (by simp [hc])) (apart_tail ha)]
        rfl

/-! ### Names and numbers -/

theorem nameParts_fill (hm : NameMarks u n) {s w r : Str} (h : readNameParts u s = (w, r)) (hw : ∀ c ∈ w, n c = none) :
    readNameParts u (n.fill u s) = (w, n.fill u r) := by
  induction s generalizing w with
  | nil => cases h; rfl
  | cons c s ih =>
    rw [readNameParts] at h
    split at h
    · rename_i hc
      cases h
      rw [fill_plain (hw c (by simp)), readNameParts]
      simp only [hc, if_true, ih rfl fun d hd => hw d (by simp [hd])]
    · rename_i hc
      cases h
      rw [fill_plain (plain_part hm hc), readNameParts]
      simp [hc]

theorem digits_fill (hm : NameMarks u n) (s : Str) : takeDigits (n.fill u s) = ((takeDigits s).1, n.fill u (takeDigits s).2) := by
  induction s with
  | nil => rfl
  | cons c s ih =>
    by_cases hc : (digitVal c).isSome = true
    · rw [fill_plain (plain_digit hm hc), takeDigits, takeDigits]
      simp only [hc, if_true, ih]
    · have h1 : takeDigits (c :: s) = ([], c :: s) := by rw [takeDigits]; simp [hc]
      rw [h1]
      cases hf : n.fill u (c :: s) with
      | nil => rfl
      | cons d r' =>
        rw [takeDigits]
        by_cases hd : (digitVal d).isSome = true
        · obtain ⟨r, hr⟩ := fill_starts hm (digit_start hd) hf
          cases hr
          exact absurd hd hc
        · simp [hd]

/-- the next character is a digit in the filled text exactly if it is in the text -/
theorem digit_next (hm : NameMarks u n) {c : Char} {s : Str} (hc : ¬ (digitVal c).isSome = true) :
    ∃ d r', n.fill u (c :: s) = d :: r' ∧ ¬ (digitVal d).isSome = true := by
  rcases fill_head hm (c :: s) with ⟨h, _⟩ | ⟨c, r, h, _, he⟩ | ⟨c', r, x, d, r', h, _, he, h'⟩
  · cases h
  · cases h; exact ⟨_, _, he, hc⟩
  · refine ⟨_, _, he, fun hd => ?_⟩
    rcases h' with rfl | h'
    · exact (digit_start (u := u) hd).1 rfl
    · exact (digit_start hd).2 h'

theorem fraction_fill (hm : NameMarks u n) (s : Str) : takeFraction (n.fill u s) = ((takeFraction s).1, n.fill u (takeFraction s).2) := by
  have hp : n '.' = none := plain_ascii hm (by decide)
  by_cases hs : ∃ r, s = '.' :: r
  · obtain ⟨r, rfl⟩ := hs
    cases r with
    | nil =>
      have h1 : takeFraction c!"." = ([], c!".") := by rw [takeFraction.eq_def]; rfl
      rw [fill_plain hp, fill_nil, h1, fill_plain hp, fill_nil]
    | cons c s =>
      by_cases hc : (digitVal c).isSome = true
      · rw [fill_plain hp, fill_plain (plain_digit hm hc), takeFraction, takeFraction, if_pos hc, if_pos hc, digits_fill hm]
      · obtain ⟨d, r', hf, hd⟩ := digit_next hm (s := s) hc
        have h1 : takeFraction ('.' :: c :: s) = ([], '.' :: c :: s) := by rw [takeFraction, if_neg hc]
        rw [h1]
        simp only
        rw [fill_plain hp, hf, takeFraction, if_neg hd]
  · rw [Inj.takeFraction_other fun r h => hs ⟨r, h⟩, Inj.takeFraction_other fun r' h =>
      hs (fill_starts hm ⟨by decide, start_ascii (by decide) (by decide) (by decide)⟩ h)]

theorem exponent_fill (hm : NameMarks u n) {s : Str} (hs : ∀ c, s.head? = some c → n c = none) :
    takeExponent (n.fill u s) = ((takeExponent s).1, n.fill u (takeExponent s).2) := by
  have he : n 'e' = none := plain_ascii hm (by decide)
  by_cases hse : ∃ r, s = 'e' :: r
  · obtain ⟨r, rfl⟩ := hse
    cases r with
    | nil =>
      have h' : takeExponent c!"e" = ([], c!"e") := by
        unfold takeExponent
        split <;> simp_all
      rw [fill_plain he, fill_nil, h', fill_plain he, fill_nil]
    | cons c s =>
      by_cases hsig : (c = '+' ∨ c = '-') ∧ s ≠ []
      · obtain ⟨hsign, hne⟩ := hsig
        cases s with
        | nil => exact absurd rfl hne
        | cons c' s =>
          have hcs : n c = none := plain_ascii hm (by rcases hsign with rfl | rfl <;> decide)
          have hx : ∀ (x : Char) (t : Str), takeExponent ('e' :: c :: x :: t) =
              if (digitVal x).isSome then ('e' :: c :: x :: (takeDigits t).1, (takeDigits t).2) else ([], 'e' :: c :: x :: t) := by
            intro x t
            rcases hsign with rfl | rfl <;> rw [takeExponent]
          by_cases hd : (digitVal c').isSome = true
          · rw [fill_plain he, fill_plain hcs, fill_plain (plain_digit hm hd), hx, hx, if_pos hd, if_pos hd, digits_fill hm]
          · obtain ⟨d, r', hf, hd'⟩ := digit_next hm (s := s) hd
            rw [hx, if_neg hd]
            simp only
            rw [fill_plain he, fill_plain hcs, hf, hx, if_neg hd']
      · rw [Inj.takeExponent_e hsig]
        by_cases hd : (digitVal c).isSome = true
        · rw [if_pos hd, fill_plain he, fill_plain (plain_digit hm hd), Inj.takeExponent_e, if_pos hd, digits_fill hm]
          rintro ⟨rfl | rfl, _⟩ <;> revert hd <;> decide
        · rw [if_neg hd]
          obtain ⟨d, r', hf, hd'⟩ := digit_next hm (s := s) hd
          simp only
          rw [fill_plain he, hf, Inj.takeExponent_e, if_neg hd']
          rintro ⟨h1, h2⟩
          have h3 : d ≠ '`' ∧ ¬ isNameStart u d := by
            rcases h1 with rfl | rfl <;> exact ⟨by decide, start_ascii (by decide) (by decide) (by decide)⟩
          obtain ⟨r, hr⟩ := fill_starts hm h3 hf
          cases hr
          refine hsig ⟨h1, ?_⟩
          rintro rfl
          rw [fill_plain (plain_ascii hm (by rcases h1 with rfl | rfl <;> decide)), fill_nil] at hf
          cases hf
          exact h2 rfl
  · rw [Inj.takeExponent_other fun r h => hse ⟨r, h⟩]
    refine Inj.takeExponent_other fun r' h => ?_
    rcases fill_head hm s with ⟨_, hf⟩ | ⟨c, r, hc, _, hf⟩ | ⟨c, r, x, d, r'', hc, hx, _, _⟩
    · rw [hf] at h; cases h
    · rw [hf] at h; cases h; exact hse ⟨r, hc⟩
    · subst hc
      rw [hs c rfl] at hx; cases hx

/-- after digits no place -/
theorem digits_apart {c : Char} (hc : (digitVal c).isSome = true) {s : Str} (ha : n.Apart (c :: s)) :
    (∀ d, (takeDigits s).2.head? = some d → n d = none) ∧ ∃ e, (digitVal e).isSome = true ∧ n.Apart (e :: (takeDigits s).2) := by
  induction s generalizing c with
  | nil => exact ⟨fun d hd => (by cases hd), ⟨c, hc, ha⟩⟩
  | cons d s ih =>
    rw [takeDigits]
    by_cases hd : (digitVal d).isSome = true
    · rw [if_pos hd]
      exact ih hd (apart_tail ha)
    · rw [if_neg hd]
      refine ⟨fun d' hd' => ?_, c, hc, ha⟩
      cases hd'
      cases hx : n d with
      | none => rfl
      | some x =>
        have := ((apart_two ha).1 (by simp [hx])).2
        simp [this] at hc

theorem number_fill (hm : NameMarks u n) {c : Char} (hc : (digitVal c).isSome = true) {s : Str} (ha : n.Apart (c :: s)) :
    takeNumber (n.fill u (c :: s)) = ((takeNumber (c :: s)).1, n.fill u (takeNumber (c :: s)).2) := by
  simp only [takeNumber, digits_fill hm, fraction_fill hm]
  rw [exponent_fill hm]
  have h1 : (takeDigits (c :: s)).2 = (takeDigits s).2 := by rw [takeDigits, if_pos hc]
  rw [h1]
  obtain ⟨h2, e, he, ha'⟩ := digits_apart hc ha
  generalize (takeDigits s).2 = r at h2 ha'
  intro d hd
  rw [takeFraction.eq_def] at hd
  split at hd
  · rename_i c' s'
    split at hd
    · rename_i hc'
      exact (digits_apart hc' (apart_tail (apart_tail ha'))).1 d hd
    · exact h2 d hd
  · exact h2 d hd

/-! ### Tokens -/

theorem word_name {x r : Str} (hx : NotBlank u x) (h1 : r.head? ≠ some '`') (h2 : ∀ c, r.head? = some c → ¬ isNamePart u c) :
    nextToken u (escapeIfNecessary u x ++ r) = some (nameToken u x, r) := by
  have hr := C03_name_round_trip_partial u x r hx h1 h2
  unfold escapeIfNecessary at hr ⊢
  split
  · rename_i hc
    rw [if_pos hc] at hr
    have hid : isIdentifier u x = true := by
      rcases hc with h0 | h0
      · rw [trimSpace_length_zero, List.all_eq_true] at h0
        obtain ⟨c, hc, hs⟩ := hx
        have := h0 c hc
        simp_all
      · exact h0
    have hn := C03_name_round_trip_partial u x [] hx (by simp) (by simp)
    have he : escapeIfNecessary u x = x := by unfold escapeIfNecessary; rw [if_pos hc]
    rw [he, List.append_nil] at hn
    rw [nameToken, if_pos hn]
    cases x with
    | nil => simp [isIdentifier] at hid
    | cons c x =>
      simp only [isIdentifier, Bool.and_eq_true] at hid
      have hst : isNameStart u c := by simpa [identStart, isNameStart] using hid.1
      have hsp : u.isSpace c = false := by
        rcases hst with h | rfl
        · exact u.letter_not_space _ h
        · rw [u.space_ascii _ (by decide)]; decide
      have hne : ∀ d : Char, d.toNat < 128 → d.isAlpha = false → d ≠ '_' → c ≠ d := by
        rintro d h1 h2 h3 rfl
        exact start_ascii h1 h2 h3 hst
      have hdig : ¬ (digitVal c).isSome = true := fun h => (digit_start h).2 hst
      rw [List.cons_append, nextToken]
      simp only [hsp, Bool.false_eq_true, if_false, hne '\'' (by decide) (by decide) (by decide), hne '`' (by decide) (by decide) (by decide),
        hne '$' (by decide) (by decide) (by decide), hdig, hst, if_true, readNameParts_all u x r hid.2 h2]
  · rename_i hc
    have hnr : readName u x ≠ some (x, []) := by
      intro h
      refine hc (Or.inr ?_)
      cases x with
      | nil => simp [readName] at h
      | cons c x =>
        rw [readName] at h
        split at h
        · rename_i hq
          have hlen := Inj.quotedBody_end _ (Nat.le_refl _) h
          obtain ⟨p, hp⟩ := hlen
          subst hq
          have : ∀ (k : Nat) {s b r : Str}, s.length ≤ k → readQuotedBody s = some (b, r) → b.length < s.length := by
            intro k
            induction k with
            | zero => intro s b r hl h; cases s with
              | nil => simp [readQuotedBody] at h
              | cons _ _ => simp at hl
            | succ k ih =>
              intro s b r hl h
              cases s with
              | nil => simp [readQuotedBody] at h
              | cons c s =>
                simp only [List.length_cons, Nat.add_le_add_iff_right] at hl
                by_cases h1 : c = '`'
                · subst h1
                  by_cases h2 : s.head? = some '`'
                  · cases s with
                    | nil => simp at h2
                    | cons d s =>
                      simp only [List.head?_cons, Option.some.injEq] at h2
                      subst h2
                      rw [readQuotedBody_two] at h
                      cases hq : readQuotedBody s with
                      | none => simp [hq] at h
                      | some p =>
                        simp only [hq, Option.map_some, Option.some.injEq, Prod.mk.injEq] at h
                        have := ih (by simp only [List.length_cons] at hl; omega) hq
                        rw [← h.1]
                        simp only [List.length_cons]
                        omega
                  · rw [readQuotedBody_end s h2] at h
                    cases h
                    simp
                · rw [readQuotedBody_plain c _ h1] at h
                  cases hq : readQuotedBody s with
                  | none => simp [hq] at h
                  | some p =>
                    simp only [hq, Option.map_some, Option.some.injEq, Prod.mk.injEq] at h
                    have := ih hl hq
                    rw [← h.1]
                    simp only [List.length_cons]
                    omega
          have := this _ (Nat.le_refl _) h
          simp at this
        · split at h
          · rename_i hst
            simp only [Option.some.injEq, Prod.mk.injEq, List.cons.injEq, true_and] at h
            simp only [isIdentifier, Bool.and_eq_true]
            refine ⟨by simpa [identStart, isNameStart] using hst, ?_⟩
            have hall : ∀ s : Str, (readNameParts u s).1 = s → s.all (identRest u) = true := by
              intro s
              induction s with
              | nil => intro _; rfl
              | cons d s ih =>
                intro h
                rw [readNameParts] at h
                split at h
                · rename_i hd
                  simp only [List.cons.injEq, true_and] at h
                  simp only [List.all_cons, Bool.and_eq_true]
                  exact ⟨by simpa [identRest, isNamePart, or_assoc] using hd, ih h⟩
                · cases h
            exact hall x h.1
          · cases h
    rw [nameToken, if_neg hnr]
    rw [escapeName, List.cons_append, nextToken, List.append_assoc]
    have hsp : u.isSpace '`' = false := by rw [u.space_ascii _ (by decide)]; decide
    have hq : readQuotedBody (replaceChar '`' ['`', '`'] x ++ (['`'] ++ r)) = some (x, r) := readQuotedBody_escape x r h1
    simp only [hsp, Bool.false_eq_true, if_false, if_true, show ('`' : Char) ≠ '\'' by decide, hq, Option.map_some]

/-- The first token, filled. -/
theorem next_fill (hm : NameMarks u n) {s : Str} {t : Token} {r : Str} (h : nextToken u s = some (t, r)) (hw : n.Within t) (ha : n.Apart s) :
    nextToken u (n.fill u s) = some (n.token u t, n.fill u r) ∧ n.Apart r := by
  induction s with
  | nil => simp [nextToken] at h
  | cons c s ih =>
    by_cases hsp : u.isSpace c = true
    · rw [Rd.nextToken_space hsp] at h
      rw [fill_plain (plain_space hm hsp), Rd.nextToken_space hsp]
      exact ih h (apart_tail ha)
    replace hsp := Bool.eq_false_iff.mpr hsp
    rw [nextToken] at h
    simp only [hsp, Bool.false_eq_true, if_false] at h
    split at h
    · rename_i hc
      subst hc
      obtain ⟨p, hp, he⟩ := Option.map_eq_some_iff.mp h
      cases he
      obtain ⟨p', hp'⟩ := Inj.stringBody_end _ (Nat.le_refl _) hp
      refine ⟨?_, apart_suffix (p := '\'' :: (p' ++ ['\''])) (by simpa [← hp'] using ha)⟩
      rw [fill_plain (plain_ascii hm (by decide)), nextToken]
      simp only [hsp, Bool.false_eq_true, if_false, if_true]
      rw [stringBody_fill hm _ (Nat.le_refl _) hp hw]
      rfl
    rename_i h1
    split at h
    · rename_i hc
      subst hc
      obtain ⟨p, hp, he⟩ := Option.map_eq_some_iff.mp h
      cases he
      obtain ⟨p', hp'⟩ := Inj.quotedBody_end _ (Nat.le_refl _) hp
      refine ⟨?_, apart_suffix (p := '`' :: (p' ++ ['`'])) (by simpa [← hp'] using ha)⟩
      rw [fill_plain (plain_ascii hm (by decide)), nextToken]
      simp only [hsp, Bool.false_eq_true, h1, if_false, if_true]
      rw [quotedBody_fill hm _ (Nat.le_refl _) hp hw (apart_tail ha)]
      rfl
    rename_i h2
    split at h
    · rename_i hc
      subst hc
      obtain ⟨p, hp, he⟩ := Option.map_eq_some_iff.mp h
      cases he
      have : readName u (n.fill u s) = some (match p.1 with | [c] => (n c).getD [c] | x => x, n.fill u p.2) ∧ n.Apart p.2 := by
        by_cases hmk : ∀ d ∈ p.1, n d = none
        · have hsame : (match p.1 with | [c] => (n c).getD [c] | x => x) = p.1 := by
            split
            · rename_i c hc
              rw [hmk c (by rw [hc]; simp), hc]; rfl
            · rfl
          rw [hsame]
          cases s with
          | nil => simp [readName] at hp
          | cons d s =>
            rw [readName] at hp
            split at hp
            · rename_i hd
              subst hd
              obtain ⟨p', hp'⟩ := Inj.quotedBody_end _ (Nat.le_refl _) hp
              refine ⟨?_, apart_suffix (p := '$' :: '`' :: (p' ++ ['`'])) (by simpa [← hp'] using ha)⟩
              rw [fill_plain (plain_ascii hm (by decide)), readName, if_pos rfl, quotedBody_fill hm _ (Nat.le_refl _) hp hmk (apart_tail (apart_tail ha))]
            · rename_i hd
              split at hp
              · rename_i hn
                cases hp
                refine ⟨?_, apart_suffix (p := '$' :: d :: (readNameParts u s).1) (by
                  have := Inj.nameParts_append (u := u) s
                  simpa [← this] using ha)⟩
                rw [fill_plain (hmk d (by simp)), readName, if_neg hd, if_pos hn, nameParts_fill hm rfl (fun c hc => hmk c (by simp [hc]))]
              · cases hp
        · have : ∃ d ∈ p.1, n d ≠ none := Classical.byContradiction fun h => hmk fun d hd => Classical.byContradiction fun h' => h ⟨d, hd, h'⟩
          obtain ⟨d, hd, hdn⟩ := this
          obtain ⟨x, hx⟩ := Option.ne_none_iff_exists'.mp hdn
          have hone : p.1 = [d] := hw d hd (by simp [hx])
          cases s with
          | nil => simp [readName] at hp
          | cons e s =>
            rw [readName] at hp
            split at hp
            · rename_i he
              subst he
              -- a place inside back-quotes is not apart
              exfalso
              cases s with
              | nil => simp [readQuotedBody] at hp
              | cons e' s =>
                by_cases h' : e' = '`'
                · subst h'
                  cases s with
                  | nil =>
                    rw [readQuotedBody_end _ (by simp)] at hp
                    cases hp
                    simp at hd
                  | cons e'' s =>
                    by_cases h'' : e'' = '`'
                    · subst h''
                      rw [readQuotedBody_two] at hp
                      cases hq : readQuotedBody s with
                      | none => simp [hq] at hp
                      | some q =>
                        simp only [hq, Option.map_some, Option.some.injEq] at hp
                        rw [← hp] at hone
                        simp only [List.cons.injEq] at hone
                        have := plain_ascii hm (c := '`') (by decide)
                        rw [hone.1] at this
                        exact hdn this
                    · rw [readQuotedBody_end _ (by simpa using h'')] at hp
                      cases hp
                      simp at hd
                · rw [readQuotedBody_plain e' _ h'] at hp
                  cases hq : readQuotedBody s with
                  | none => simp [hq] at hp
                  | some q =>
                    simp only [hq, Option.map_some, Option.some.injEq] at hp
                    rw [← hp] at hone
                    simp only [List.cons.injEq] at hone
                    exact absurd rfl ((apart_two (apart_tail ha)).1 (by rw [hone.1, hx]; rfl)).1
            · split at hp
              · cases hp
                simp only [List.cons.injEq] at hone
                obtain ⟨rfl, hnil⟩ := hone
                simp only [hnil, hx, Option.getD_some]
                have hs : (readNameParts u s).2 = s := by
                  have := Inj.nameParts_append (u := u) s
                  rw [hnil] at this
                  exact this.symm
                have hend : ∀ d, s.head? = some d → ¬ isNamePart u d := by
                  intro d hd' hp
                  cases s with
                  | nil => cases hd'
                  | cons e s =>
                    cases hd'
                    rw [readNameParts, if_pos hp] at hnil
                    cases hnil
                have hfh : (n.fill u s).head? = s.head? := by
                  cases s with
                  | nil => rfl
                  | cons e s => rw [fill_plain (plain_part hm (hend e rfl))]; rfl
                rw [hs]
                refine ⟨?_, apart_tail (apart_tail ha)⟩
                rw [fill_mark hx]
                refine C03_name_round_trip_partial u x _ (hm e x hx).2.2 ?_ (by rw [hfh]; exact hend)
                rw [hfh]
                intro hq
                cases s with
                | nil => cases hq
                | cons e' s => cases hq; exact (apart_two (apart_tail ha)).2 (by simp [hx]) rfl
              · cases hp
      refine ⟨?_, this.2⟩
      rw [fill_plain (plain_ascii hm (by decide)), nextToken]
      simp only [hsp, Bool.false_eq_true, h1, h2, if_false, if_true]
      rw [this.1]
      simp only [Option.map_some, Option.some.injEq, Prod.mk.injEq, and_true]
      generalize p.1 = w
      unfold Names.token
      rcases w with _ | ⟨c, _ | _⟩ <;> rfl
    rename_i h3
    split at h
    · rename_i hd
      cases h
      have := number_fill hm hd ha
      refine ⟨?_, apart_suffix (p := (takeNumber (c :: s)).1) (by rw [← Inj.takeNumber_append]; exact ha)⟩
      rw [fill_plain (plain_digit hm hd)] at this ⊢
      rw [nextToken]
      simp only [hsp, Bool.false_eq_true, h1, h2, h3, hd, if_false, if_true, this]
      rfl
    rename_i h4
    split at h
    · rename_i hn
      cases h
      have hap : n.Apart (readNameParts u s).2 := apart_suffix (p := c :: (readNameParts u s).1) (by
        have := Inj.nameParts_append (u := u) s
        simpa [← this] using ha)
      refine ⟨?_, hap⟩
      by_cases hmk : ∀ d ∈ c :: (readNameParts u s).1, n d = none
      · rw [fill_plain (hmk c (by simp)), nextToken]
        have hnp : readNameParts u (n.fill u s) = ((readNameParts u s).1, n.fill u (readNameParts u s).2) :=
          nameParts_fill hm rfl (fun d hd => hmk d (by simp [hd]))
        simp only [hsp, Bool.false_eq_true, h1, h2, h3, h4, hn, if_false, if_true, hnp]
        generalize (readNameParts u s).1 = w at hmk
        cases w with
        | nil => simp [Names.token, hmk c (by simp)]
        | cons _ _ => rfl
      · have hall := hw
        simp only [Names.Within] at hall
        have : ∃ d ∈ c :: (readNameParts u s).1, n d ≠ none := Classical.byContradiction fun h => hmk fun d hd => Classical.byContradiction fun h' => h ⟨d, hd, h'⟩
        obtain ⟨d, hd, hdn⟩ := this
        have hone := hall d hd (by cases hx : n d <;> simp_all)
        simp only [List.cons.injEq] at hone
        obtain ⟨rfl, hnil⟩ := hone
        have hs : (readNameParts u s).2 = s := by
          have := Inj.nameParts_append (u := u) s
          rw [hnil] at this
          exact this.symm
        obtain ⟨x, hx⟩ := Option.ne_none_iff_exists'.mp hdn
        have hend : ∀ d, s.head? = some d → ¬ isNamePart u d := by
          intro d hd' hp
          cases s with
          | nil => cases hd'
          | cons e s =>
            cases hd'
            rw [readNameParts, if_pos hp] at hnil
            cases hnil
        have hfh : (n.fill u s).head? = s.head? := by
          cases s with
          | nil => rfl
          | cons e s => rw [fill_plain (plain_part hm (hend e rfl))]; rfl
        rw [fill_mark hx, hnil, hs, word_name (hm c x hx).2.2]
        · simp [Names.token, hx]
        · rw [hfh]
          intro hq
          cases s with
          | nil => cases hq
          | cons e s => cases hq; exact (apart_two ha).2 (by simp [hx]) rfl
        · rw [hfh]; exact hend
    rename_i h5
    split at h
    · cases h
    · rename_i h6
      simp only [Option.some.injEq, Prod.mk.injEq] at h
      obtain ⟨rfl, rfl⟩ := h
      refine ⟨?_, apart_tail ha⟩
      rw [fill_plain hw, nextToken]
      have h6' : ¬ (c = '/' ∧ ((n.fill u s).head? = some '/' ∨ (n.fill u s).head? = some '*')) := by
        rintro ⟨hc, hor⟩
        refine h6 ⟨hc, ?_⟩
        rcases hor with hq | hq <;>
          (cases hf : n.fill u s with
           | nil => rw [hf] at hq; cases hq
           | cons e r' =>
             rw [hf] at hq
             cases hq
             obtain ⟨r, rfl⟩ := fill_starts hm ⟨by decide, start_ascii (by decide) (by decide) (by decide)⟩ hf
             simp)
      simp only [hsp, Bool.false_eq_true, h1, h2, h3, h4, h5, h6', if_false]
      rfl

theorem tokens_fill (hm : NameMarks u n) {s : Str} {ts : List Token} (h : Tokens u s ts) (hw : ∀ t ∈ ts, n.Within t) (ha : n.Apart s) :
    Tokens u (n.fill u s) (ts.map (n.token u)) := by
  induction h with
  | blank hs =>
    refine .blank ?_
    rw [fill_id fun c hc => plain_space hm (List.all_eq_true.mp hs c hc)]
    exact hs
  | more hn ht ih =>
    have := next_fill hm hn (hw _ (by simp)) ha
    exact .more this.1 (ih (fun t h => hw t (by simp [h])) this.2)

/-! ### White space around the text -/

theorem name_last {x : Str} (hx : NotBlank u x) : ∃ r c, escapeIfNecessary u x = r ++ [c] ∧ u.isSpace c = false := by
  unfold escapeIfNecessary
  split
  · rename_i hc
    have hid : isIdentifier u x = true := by
      rcases hc with h0 | h0
      · rw [trimSpace_length_zero, List.all_eq_true] at h0
        obtain ⟨c, hc, hs⟩ := hx
        have := h0 c hc
        simp_all
      · exact h0
    have hall : ∀ c ∈ x, u.isSpace c = false := by
      cases x with
      | nil => simp
      | cons c x =>
        simp only [isIdentifier, identStart, Bool.and_eq_true, List.all_eq_true] at hid
        intro d hd
        have hd' : identRest u d = true := by
          simp only [List.mem_cons] at hd
          rcases hd with rfl | hd
          · have := hid.1
            simp only [Bool.or_eq_true, decide_eq_true_eq] at this
            rcases this with h | h <;> simp [identRest, h]
          · exact hid.2 d hd
        simp only [identRest, Bool.or_eq_true, decide_eq_true_eq] at hd'
        rcases hd' with (h | rfl) | h
        · exact u.letter_not_space _ h
        · rw [u.space_ascii _ (by decide)]; decide
        · exact u.digit_not_space _ h
    rcases List.eq_nil_or_concat x with rfl | ⟨r, c, rfl⟩
    · simp [isIdentifier] at hid
    · exact ⟨r, c, by simp [List.concat_eq_append], hall c (by simp [List.concat_eq_append])⟩
  · exact ⟨'`' :: replaceChar '`' ['`', '`'] x, '`', rfl, by rw [u.space_ascii _ (by decide)]; decide⟩

theorem trim_fill (hm : NameMarks u n) (s : Str) : trimSpace u (n.fill u s) = n.fill u (trimSpace u s) := by
  obtain ⟨⟨w, w', hs, hw, hw'⟩, hh, hl⟩ := trimSpace_spec u s
  by_cases hq : trimSpace u s = []
  · rw [hq] at hs
    have : n.fill u s = s := by
      refine fill_id fun c hc => plain_space hm ?_
      rw [hs] at hc
      simp only [List.append_nil, List.mem_append] at hc
      rcases hc with hc | hc
      · exact hw c hc
      · exact hw' c hc
    rw [this, hq]; rfl
  · generalize trimSpace u s = q at *
    rw [hs, fill_append, fill_append, fill_id fun c hc => plain_space hm (hw c hc), fill_id fun c hc => plain_space hm (hw' c hc)]
    refine Inj.trim_around u hw hw' ?_ ?_ ?_
    · intro c hc
      rcases fill_head hm q with ⟨_, he⟩ | ⟨d, r, hd, _, he⟩ | ⟨d, r, x, e, r', hd, _, he, h'⟩
      · rw [he] at hc; cases hc
      · rw [he] at hc; cases hc; exact hh c (by rw [hd]; rfl)
      · rw [he] at hc; cases hc
        rcases h' with rfl | h | rfl
        · rw [u.space_ascii _ (by decide)]; decide
        · exact u.letter_not_space _ h
        · rw [u.space_ascii _ (by decide)]; decide
    · intro c hc
      rcases List.eq_nil_or_concat q with rfl | ⟨q', d, rfl⟩
      · exact absurd rfl hq
      · simp only [List.concat_eq_append, fill_append] at hc
        cases hd : n d with
        | none =>
          rw [fill_plain hd, fill_nil] at hc
          simp at hc
          exact hl c (by simp [hc])
        | some x =>
          obtain ⟨r, e, he, hsp⟩ := name_last (hm d x hd).2.2
          rw [fill_mark hd, fill_nil, List.append_nil, he, ← List.append_assoc] at hc
          simp only [List.getLast?_append, List.getLast?_singleton, Option.some_or, Option.some.injEq] at hc
          rw [← hc]; exact hsp
    · intro he
      rcases fill_head hm q with ⟨h, _⟩ | ⟨d, r, _, _, h⟩ | ⟨d, r, x, e, r', _, _, h, _⟩
      · exact hq h
      · rw [he] at h; cases h
      · rw [he] at h; cases h

theorem fill_rewrites (hm : NameMarks u n) : Rewrites (n.fill u) where
  append := fill_append
  open_ := fill_id fun c hc => plain_ascii hm (by revert c; decide)
  close := fill_id fun c hc => plain_ascii hm (by revert c; decide)
  comma := fill_id fun c hc => plain_ascii hm (by revert c; decide)
  as := fill_id fun c hc => plain_ascii hm (by revert c; decide)

end NameInj
open NameInj

/-- C86: let a statement have letters that stand for names.  Whatever names that are not blank are put there, the text consists of the same
words: a place becomes exactly the name put in, quoted if it must be, and every other word stays as it is. -/
theorem C86_words {u : Unicode} {n : Names} (hm : NameMarks u n) {st : Statement} {q : Str} (h : (render u RState.new (some st)).1 = .ok q)
    {ts : List Token} (ht : Tokens u q ts) (hw : ∀ t ∈ ts, n.Within t) (ha : n.Apart q) :
    ∃ q', (render u RState.new (some { st with visit := Tree.textsL (n.fill u) st.visit })).1 = .ok q' ∧ Tokens u q' (ts.map (n.token u)) := by
  simp only [render] at h ⊢
  cases he : st.err with
  | some e => rw [he] at h; cases h
  | none =>
    rw [he] at h
    cases h
    refine ⟨_, rfl, ?_⟩
    have h70 := C70_texts (n.fill u) (NameInj.fill_rewrites hm) st.visit
    unfold renderOut at h70
    rw [h70, NameInj.trim_fill hm]
    exact NameInj.tokens_fill hm ht hw ha

/-- C86: the words of a text are unique, so no other reading is possible. -/
theorem C86_unique {u : Unicode} {n : Names} (hm : NameMarks u n) {st : Statement} {q : Str} (h : (render u RState.new (some st)).1 = .ok q)
    {ts : List Token} (ht : Tokens u q ts) (hw : ∀ t ∈ ts, n.Within t) (ha : n.Apart q) {q' : Str} {ts' : List Token}
    (h' : (render u RState.new (some { st with visit := Tree.textsL (n.fill u) st.visit })).1 = .ok q') (ht' : Tokens u q' ts') :
    ts' = ts.map (n.token u) := by
  obtain ⟨q2, h2, h3⟩ := C86_words hm h ht hw ha
  rw [h2] at h'
  cases h'
  exact ht'.unique h3

/-- C86 and C81 together: names, contents of string literals, labels and relationship types put into one statement. -/
theorem C86_all {u : Unicode} {n : Names} {f : Fillings} (hn : NameMarks u n) (hf : Marks u f) (hnf : ∀ c x, n c = some x → ∀ d ∈ x, f d = none)
    {st : Statement} {q : Str} (h : (render u RState.new (some st)).1 = .ok q) {ts : List Token} (ht : Tokens u q ts)
    (hw : ∀ t ∈ ts, n.Within t) (hw' : ∀ t ∈ ts, f.Within t) (ha : n.Apart q) :
    ∃ q', (render u RState.new (some { st with visit := Tree.textsL f.fill (Tree.textsL (n.fill u) st.visit) })).1 = .ok q' ∧
      Tokens u q' (ts.map fun t => f.token (n.token u t)) := by
  obtain ⟨q1, h1, ht1⟩ := C86_words hn h ht hw ha
  obtain ⟨q2, h2, ht2⟩ := C81_words hf h1 ht1 (fun t hmem => by
    obtain ⟨t0, h0, rfl⟩ := List.mem_map.mp hmem
    have hb := hw' t0 h0
    unfold Names.token
    split
    · rename_i c
      cases hx : n c with
      | none => exact hb
      | some x =>
        have hd := hnf c x hx
        simp only [nameToken]
        split
        · exact fun d hd' => hd d hd'
        · exact fun d hd' y => by rw [hd d hd']; simp
    · rename_i c
      cases hx : n c with
      | none => exact hb
      | some x => exact fun d hd' => hnf c x hx d hd'
    · exact hb)
  exact ⟨q2, h2, by simpa [List.map_map, Function.comp_def] using ht2⟩

namespace NameInj

variable {u : Unicode} {n : Names}

theorem letter_plain (hm : NameMarks u n) {c : Char} {x : Str} (h : n c = some x) : escapeIfNecessary u [c] = [c] := by
  unfold escapeIfNecessary
  rw [if_pos (Or.inr (by simp [isIdentifier, identStart, (hm c x h).2.1]))]

theorem fill_name (hm : NameMarks u n) {c : Char} {x : Str} (h : n c = some x) : n.fill u (escapeIfNecessary u [c]) = escapeIfNecessary u x := by
  rw [letter_plain hm h, fill_mark h, fill_nil, List.append_nil]

theorem name_ne (hm : NameMarks u n) {c : Char} {x : Str} (h : n c = some x) : x ≠ [] := by
  rintro rfl
  obtain ⟨d, hd, _⟩ := (hm c _ h).2.2
  cases hd

theorem textsL_append (h : Str → Str) (a b : List Tree) : Tree.textsL h (a ++ b) = Tree.textsL h a ++ Tree.textsL h b := by
  induction a with
  | nil => rfl
  | cons t a ih => simp [Tree.textsL, ih]

theorem fill_ascii (hm : NameMarks u n) {s : Str} (h : ∀ c ∈ s, c.toNat < 128) : n.fill u s = s := fill_id fun c hc => plain_ascii hm (h c hc)

end NameInj
open NameInj

/-- C86: a variable that is a place is, filled, the variable with the name put in. -/
theorem C86_variable {u : Unicode} {n : Names} (hm : NameMarks u n) {c : Char} {x : Str} (h : n c = some x) (k : Key) :
    Tree.textsL (n.fill u) (symbolicName u k [c]).visit = (symbolicName u k x).visit := by
  simp [symbolicName, Val.mk', name_ne hm h, leaf, nd, Tree.textsL, Tree.texts, Vis.texts, Kind.texts, fill_name hm h, NameInj.fill_nil]

/-- C86: the same for aliases; `v'` is the expression with its own places filled. -/
theorem C86_alias {u : Unicode} {n : Names} (hm : NameMarks u n) {c : Char} {x : Str} (h : n c = some x) (k : Key) {v v' : Val}
    (hv : v.err = none ∧ v.notNil = true) (hv' : v'.err = none ∧ v'.notNil = true) (hk : v'.key = v.key)
    (hvis : v'.visit = Tree.textsL (n.fill u) v.visit) :
    Tree.textsL (n.fill u) (aliasedCreate u k (some v) [c]).visit = (aliasedCreate u k (some v') x).visit := by
  simp [aliasedCreate, hv.1, hv.2, hv'.1, hv'.2, hk, hvis, Val.mk', name_ne hm h, Tree.textsL, Tree.texts, Vis.texts, Kind.texts, fill_name hm h]

/-- C86: the same for property keys, but for the name `*`, which asks for all properties. -/
theorem C86_property {u : Unicode} {n : Names} (hm : NameMarks u n) {c : Char} {x : Str} (h : n c = some x) (hx : x ≠ c!"*") (k kl : Key) {v v' : Val}
    (hv : v.err = none) (hv' : v'.err = none) (hvis : v'.visit = Tree.textsL (n.fill u) v.visit) :
    Tree.textsL (n.fill u) (propertyCreate2 u k kl (some v) [c]).visit = (propertyCreate2 u k kl (some v') x).visit := by
  have hc : [c] ≠ c!"*" := by
    intro he
    cases he
    have := (hm _ _ h).1
    revert this; decide
  have hl : n.fill u (lookupText u [c]) = lookupText u x := by
    rw [lookupText, if_neg hc, lookupText, if_neg hx, NameInj.fill_plain (NameInj.plain_ascii hm (by decide)), fill_name hm h]
  simp [propertyCreate2, propertyCreate1, hv, hv', hvis, Val.mk', name_ne hm h, propertyLookup, leaf, nd, Tree.textsL, Tree.texts, Vis.texts, Kind.texts,
    textsL_append, hl, NameInj.fill_nil]

/-- C86: the same for the keys of maps. -/
theorem C86_entry {u : Unicode} {n : Names} (hm : NameMarks u n) {c : Char} {x : Str} (h : n c = some x) (k : Key) {v v' : Val}
    (hv : v.err = none) (hv' : v'.err = none) (hvis : v'.visit = Tree.textsL (n.fill u) v.visit) :
    Tree.textsL (n.fill u) (entryExpression u k [c] v).visit = (entryExpression u k x v').visit ∧
    Tree.textsL (n.fill u) (keyValueMapEntry u k [c] v).visit = (keyValueMapEntry u k x v').visit := by
  have hl : n.fill u (escapeIfNecessary u [c] ++ c!": ") = escapeIfNecessary u x ++ c!": " := by
    rw [NameInj.fill_append, fill_name hm h, fill_ascii hm (by decide)]
  constructor
  · simp [entryExpression, hv, hv', hvis, Val.mk', nd, Tree.textsL, Tree.texts, Vis.texts, Kind.texts, hl, NameInj.fill_nil]
  · simp [keyValueMapEntry, hv, hv', hvis, nd, Tree.textsL, Tree.texts, Vis.texts, Kind.texts, hl, NameInj.fill_nil]

/-- C86: the same for names of parameters that need no back-quotes; the others are printed as they are (C05). -/
theorem C86_parameter {u : Unicode} {n : Names} (hm : NameMarks u n) {c : Char} {x : Str} (h : n c = some x) (hx : escapeIfNecessary u x = x)
    (hd : x.head? ≠ some '$') (k : Key) :
    Tree.textsL (n.fill u) (parameter k [c]).visit = (parameter k x).visit := by
  have hc : c ≠ '$' := by
    rintro rfl
    have := (hm _ _ h).1
    revert this; decide
  have h1 : parameterCreate [c] = .ok [c] := by rw [parameterCreate, if_neg hc]
  have h2 : parameterCreate x = .ok x := by
    cases x with
    | nil => exact absurd rfl (name_ne hm h)
    | cons d x => rw [parameterCreate, if_neg (by rintro rfl; exact hd rfl)]
  have h3 : n.fill u (parameterText [c]) = parameterText x := by
    rw [parameterText, NameInj.fill_plain (NameInj.plain_ascii hm (by decide)), NameInj.fill_mark h, hx, NameInj.fill_nil, List.append_nil]; rfl
  simp [parameter, h1, h2, Val.mk', leaf, nd, Tree.textsL, Tree.texts, Vis.texts, Kind.texts, h3, NameInj.fill_nil]

/-- C86: the same for names of nodes that need no back-quotes; the others are lost when the node is shown again (C12). -/
theorem C86_node {u : Unicode} {n : Names} (hm : NameMarks u n) {c : Char} {x : Str} (h : n c = some x) (hx : escapeIfNecessary u x = x) (k kn : Key)
    (labels : List (Key × Str)) (hl : ∀ l ∈ labels, ∀ d ∈ l.2, n d = none) :
    Tree.textsL (n.fill u) (NodeV.visit u { name := some (kn, [c]), labels := labels, key := k, notNil := true }) =
      NodeV.visit u { name := some (kn, x), labels := labels, key := k, notNil := true } := by
  have h1 : ∀ s : Str, (∀ d ∈ s, n d = none) → n.fill u (labelText s) = labelText s := by
    intro s hs
    refine NameInj.fill_id fun d hd => ?_
    unfold labelText at hd
    split at hd
    · cases hd
    · simp only [escapeName, List.mem_cons, List.mem_append, List.not_mem_nil, or_false] at hd
      rcases hd with rfl | rfl | hd | rfl
      · exact NameInj.plain_ascii hm (by decide)
      · exact NameInj.plain_ascii hm (by decide)
      · simp only [replaceChar, List.mem_flatMap] at hd
        obtain ⟨e, he, hd⟩ := hd
        split at hd
        · simp only [List.mem_cons, List.not_mem_nil, or_false, or_self] at hd
          subst hd; exact NameInj.plain_ascii hm (by decide)
        · simp only [List.mem_cons, List.not_mem_nil, or_false] at hd
          subst hd; exact hs _ he
      · exact NameInj.plain_ascii hm (by decide)
  have h2 : Tree.textsL (n.fill u) (labels.map labelVisit) = labels.map labelVisit := by
    induction labels with
    | nil => rfl
    | cons l ls ih =>
      simp only [List.map_cons, Tree.textsL, ih fun l' hl' => hl l' (by simp [hl'])]
      congr 1
      simp [labelVisit, leaf, nd, Tree.texts, Tree.textsL, Vis.texts, Kind.texts, h1 _ (hl l (by simp)), NameInj.fill_nil]
  have h3 : n.fill u [c] = x := by rw [NameInj.fill_mark h, NameInj.fill_nil, List.append_nil, hx]
  simp [NodeV.visit, nameVisit, propsVisit, leaf, nd, Tree.textsL, Tree.texts, Vis.texts, Kind.texts, fill_name hm h, h2, h3, NameInj.fill_nil]

/-! ### A sample -/

namespace SampleNames

/-- package `unicode` with three more letters -/
def greek : Unicode where
  isLetter c := c.isAlpha || c = 'λ' || c = 'μ' || c = 'ν'
  isDigit := Char.isDigit
  isSpace := Unicode.ascii.isSpace
  letter_not_space := by
    intro c h
    simp only [Bool.or_eq_true, decide_eq_true_eq] at h
    rcases h with ((h | rfl) | rfl) | rfl
    · exact Unicode.ascii.letter_not_space c h
    all_goals decide
  digit_not_space := Unicode.ascii.digit_not_space
  letter_not_digit := by
    intro c h
    simp only [Bool.or_eq_true, decide_eq_true_eq] at h
    rcases h with ((h | rfl) | rfl) | rfl
    · exact Unicode.ascii.letter_not_digit c h
    all_goals decide
  letter_ascii := by
    intro c h
    have : c ≠ 'λ' ∧ c ≠ 'μ' ∧ c ≠ 'ν' := by
      refine ⟨?_, ?_, ?_⟩ <;> (rintro rfl; revert h; decide)
    simp [this.1, this.2.1, this.2.2]
  digit_ascii _ _ := rfl
  space_ascii := Unicode.ascii.space_ascii

/-- `Match(ANode("L").NamedByString(v)).Where(n.Property(p).IsEqualTo(LiteralOf(text))).Returning(ASymbolic(v).As(a)).Build()` -/
def calls (v p a text : Str) : List Call :=
  [.match_ 10 11 false [(NodeV.namedByString (.create2 12 13 c!"L") 14 v).toVal greek],
   .where_ (.atom (compare .isEqualTo 15 16 17 (some ((NodeV.namedByString (.create2 12 13 c!"L") 14 v).property greek 18 19 p))
     (some (stringLiteral 20 text)))),
   .returning 21 22 false (.exprs [aliasedCreate greek 24 (some (symbolicName greek 23 v)) a])]

def stmt (v p a text : Str) : Statement :=
  match (execAll greek start (calls v p a text)).bind B.build with
  | .ok (.ok s) => ⟨s.err, s.visit⟩
  | _ => ⟨none, []⟩

/-- what a program makes of its input -/
def input : Names := fun c =>
  if c = 'λ' then some c!"email"
  else if c = 'μ' then some c!"p` = 1 DETACH DELETE n //"
  else if c = 'ν' then some c!"my result"
  else none

def out (s : Statement) : Str := match (render greek RState.new (some s)).1 with | .ok q => q | .error _ => []

def words : List Token :=
  [.word c!"MATCH", .sym '(', .word c!"λ", .sym ':', .quoted c!"L", .sym ')', .word c!"WHERE", .word c!"λ", .sym '.', .word c!"μ", .sym '=',
   .str c!"x", .word c!"RETURN", .word c!"λ", .word c!"AS", .word c!"ν"]

theorem marks : NameMarks greek input := by
  intro c x hc
  unfold input at hc
  split at hc
  · subst c; cases hc; exact ⟨by decide, by decide, 'e', by decide, by decide⟩
  · split at hc
    · subst c; cases hc; exact ⟨by decide, by decide, 'p', by decide, by decide⟩
    · split at hc
      · subst c; cases hc; exact ⟨by decide, by decide, 'm', by decide, by decide⟩
      · cases hc

example : out (stmt c!"λ" c!"μ" c!"ν" c!"x") = c!"MATCH (λ:`L`) WHERE λ.μ = 'x' RETURN λ AS ν" := by decide +kernel

theorem tokens : Tokens greek (out (stmt c!"λ" c!"μ" c!"ν" c!"x")) words := lex_tokens (n := 20) (by decide +kernel)

/-- computes whether the places are apart -/
def apart (n : Names) : Str → Bool
  | c :: d :: s => (!(n d).isSome || (c ≠ '`' && (digitVal c).isNone)) && (!(n c).isSome || d ≠ '`') && apart n (d :: s)
  | _ => true

theorem apart_of {n : Names} : ∀ {s : Str}, apart n s = true → n.Apart s
  | [], _, a, c, d, b, h => by simp at h
  | [x], _, a, c, d, b, h => by
    have := congrArg List.length h
    simp at this
    omega
  | x :: y :: s, hs, a, c, d, b, h => by
    simp only [apart, Bool.and_eq_true] at hs
    cases a with
    | nil =>
      cases h
      refine ⟨fun hd => ?_, fun hc => ?_⟩
      · simpa [hd, Option.isNone_iff_eq_none] using hs.1.1
      · simpa [hc] using hs.1.2
    | cons a0 a =>
      simp only [List.cons_append, List.cons.injEq] at h
      exact apart_of hs.2 a c d b h.2

theorem within : ∀ t ∈ words, input.Within t := by
  intro t ht
  simp only [words, List.mem_cons, List.not_mem_nil, or_false] at ht
  rcases ht with rfl | rfl | rfl | rfl | rfl | rfl | rfl | rfl | rfl | rfl | rfl | rfl | rfl | rfl | rfl | rfl
  all_goals (simp only [Names.Within]; decide)

theorem apart_sample : input.Apart (out (stmt c!"λ" c!"μ" c!"ν" c!"x")) := apart_of (by decide +kernel)

/-- the hypotheses of `C86_words` hold, and the statement with the places filled is the one that the program builds with its input -/
example : out { stmt c!"λ" c!"μ" c!"ν" c!"x" with visit := Tree.textsL (input.fill greek) (stmt c!"λ" c!"μ" c!"ν" c!"x").visit } =
    out (stmt c!"email" c!"p` = 1 DETACH DELETE n //" c!"my result" c!"x") := by decide +kernel

example : out (stmt c!"email" c!"p` = 1 DETACH DELETE n //" c!"my result" c!"x") =
    c!"MATCH (email:`L`) WHERE email.`p`` = 1 DETACH DELETE n //` = 'x' RETURN email AS `my result`" := by decide +kernel

example : Tokens greek (out (stmt c!"email" c!"p` = 1 DETACH DELETE n //" c!"my result" c!"x")) (words.map (input.token greek)) :=
  lex_tokens (n := 20) (by decide +kernel)

/-- `C86_all`: names and the contents of a string literal at once -/
theorem marks2 : Marks greek SampleInjection.input := by
  intro c hc
  unfold SampleInjection.input at hc
  split at hc
  · subst c; decide
  · split at hc
    · subst c; decide
    · cases hc

def words2 : List Token :=
  [.word c!"MATCH", .sym '(', .word c!"λ", .sym ':', .quoted c!"L", .sym ')', .word c!"WHERE", .word c!"λ", .sym '.', .word c!"μ", .sym '=',
   .str c!"£", .word c!"RETURN", .word c!"λ", .word c!"AS", .word c!"ν"]

example : ∃ q', (render greek RState.new (some { stmt c!"λ" c!"μ" c!"ν" c!"£" with
    visit := Tree.textsL SampleInjection.input.fill (Tree.textsL (input.fill greek) (stmt c!"λ" c!"μ" c!"ν" c!"£").visit) })).1 = .ok q' ∧
    Tokens greek q' [.word c!"MATCH", .sym '(', .word c!"email", .sym ':', .quoted c!"L", .sym ')', .word c!"WHERE", .word c!"email", .sym '.',
      .quoted c!"p` = 1 DETACH DELETE n //", .sym '=', .str c!"' OR 1 = 1 //", .word c!"RETURN", .word c!"email", .word c!"AS",
      .quoted c!"my result"] := by
  refine C86_all marks marks2 ?_ (q := c!"MATCH (λ:`L`) WHERE λ.μ = '£' RETURN λ AS ν") ?_ (ts := words2) (lex_tokens (n := 20) (by decide +kernel)) ?_ ?_ (apart_of (by decide +kernel))
  · intro c x hc
    unfold input at hc
    split at hc
    · cases hc; decide
    · split at hc
      · cases hc; decide
      · split at hc
        · cases hc; decide
        · cases hc
  · decide +kernel
  · intro t ht
    simp only [words2, List.mem_cons, List.not_mem_nil, or_false] at ht
    rcases ht with rfl | rfl | rfl | rfl | rfl | rfl | rfl | rfl | rfl | rfl | rfl | rfl | rfl | rfl | rfl | rfl
    all_goals (simp only [Names.Within]; decide)
  · intro t ht
    simp only [words2, List.mem_cons, List.not_mem_nil, or_false] at ht
    rcases ht with rfl | rfl | rfl | rfl | rfl | rfl | rfl | rfl | rfl | rfl | rfl | rfl | rfl | rfl | rfl | rfl
    all_goals first
      | (simp only [Fillings.Within]; decide)
      | (simp only [Fillings.Within, List.mem_cons, List.not_mem_nil, or_false]
         rintro c rfl x h
         revert h; simp [SampleInjection.input])

/-- a parameter -/
example : Tree.textsL (input.fill greek) (parameter 7 c!"λ").visit = (parameter 7 c!"email").visit :=
  C86_parameter marks rfl (by decide) (by decide) 7

end SampleNames

end Verif
