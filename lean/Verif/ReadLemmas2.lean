import Verif.ReadLemmas
import Verif.LexLemmas
import Verif.FloatLemmas

/-
Lemmas about tokens.
-/

namespace Verif.Rd
open Spec

variable {u : Unicode}

/-- What may follow a name, a number, or a parameter. -/
def Follow (u : Unicode) (s : Str) : Prop :=
  ∀ c r, s = c :: r → ¬ isNamePart u c ∧ c ≠ '`' ∧ (c = '.' → ∀ d r', r = d :: r' → digitVal d = none)

/-- The tokens of a text that may be followed by anything that does not continue it. -/
def Lexes (u : Unicode) (s : Str) (ts : List Token) : Prop :=
  ∀ r rs, Follow u r → Tokens u r rs → Tokens u (s ++ r) (ts ++ rs)

theorem Follow.nil : Follow u [] := by intro c r h; cases h

/-- ASCII characters that are neither letters, digits, underscores, back-quotes, points. -/
def mark (c : Char) : Bool := c.toNat < 128 && !c.isAlpha && !c.isDigit && c != '_' && c != '`' && c != '.'

theorem mark_not_part {c : Char} (h : c.toNat < 128 ∧ c.isAlpha = false ∧ c.isDigit = false ∧ c ≠ '_') : ¬ isNamePart u c := by
  unfold isNamePart
  rw [u.letter_ascii c h.1, u.digit_ascii c h.1]
  simp [h]

theorem Follow.mark {c : Char} (h : mark c = true) (r : Str) : Follow u (c :: r) := by
  intro c' r' he
  cases he
  simp only [Rd.mark, Bool.and_eq_true, decide_eq_true_eq, Bool.not_eq_true', bne_iff_ne, ne_eq] at h
  exact ⟨mark_not_part ⟨h.1.1.1.1.1, h.1.1.1.1.2, h.1.1.1.2, h.1.1.2⟩, h.1.2, fun he => absurd he h.2⟩

theorem Follow.dot {s : Str} (h : ∀ d r, s = d :: r → digitVal d = none) : Follow u ('.' :: s) := by
  intro c r he
  cases he
  exact ⟨mark_not_part (by decide), by decide, fun _ => h⟩

theorem nextToken_space {c : Char} {s : Str} (h : u.isSpace c = true) : nextToken u (c :: s) = nextToken u s := by
  rw [nextToken]; simp [h]

theorem Tokens.space {c : Char} {s : Str} {ts : List Token} (hc : u.isSpace c = true) (h : Tokens u s ts) : Tokens u (c :: s) ts := by
  cases h with
  | blank h => exact .blank (by simp [hc, h])
  | more h h' => exact .more (by rw [nextToken_space hc]; exact h) h'

theorem Tokens.sp {s : Str} {ts : List Token} (h : Tokens u s ts) : Tokens u (' ' :: s) ts :=
  Tokens.space (by rw [u.space_ascii ' ' (by decide)]; decide) h

/-- The symbols of the grammar. -/
def symbols : List Char := ['(', ')', '[', ']', '{', '}', ',', ':', '.', '+', '-', '*', '%', '^', '=', '<', '>', '~', '|', '/']

theorem Tokens.sym {c : Char} {s : Str} {ts : List Token} (hc : c ∈ symbols) (hd : c = '/' → s.head? ≠ some '/' ∧ s.head? ≠ some '*')
    (h : Tokens u s ts) : Tokens u (c :: s) (.sym c :: ts) := by
  refine .more ?_ h
  have key : c.toNat < 128 ∧ c.isAlpha = false ∧ c.isDigit = false ∧ c ≠ '_' ∧ c ≠ '\'' ∧ c ≠ '`' ∧ c ≠ '$' ∧ digitVal c = none ∧
      (c = ' ' || c = '\t' || c = '\n' || c = '\r' || c = Char.ofNat 11 || c = Char.ofNat 12) = false := by
    simp only [symbols, List.mem_cons, List.not_mem_nil, or_false] at hc
    rcases hc with rfl | rfl | rfl | rfl | rfl | rfl | rfl | rfl | rfl | rfl | rfl | rfl | rfl | rfl | rfl | rfl | rfl | rfl | rfl | rfl <;> decide
  obtain ⟨h1, h2, h3, h4, h5, h6, h7, h8, h9⟩ := key
  have hs : ¬ isNameStart u c := by
    unfold isNameStart
    rw [u.letter_ascii c h1]
    simp [h2, h4]
  have hsp : u.isSpace c = false := by rw [u.space_ascii c h1]; exact h9
  have hd' : ¬ (c = '/' ∧ (s.head? = some '/' ∨ s.head? = some '*')) := by
    rintro ⟨he, h⟩
    rcases h with h | h
    · exact (hd he).1 h
    · exact (hd he).2 h
  rw [nextToken]
  simp only [hsp, h5, h6, h7, h8, hs, hd', Bool.false_eq_true, Option.isSome_none, if_false]

theorem Tokens.str (x : Str) {s : Str} {ts : List Token} (h : Tokens u s ts) : Tokens u (stringLiteralText x ++ s) (.str x :: ts) := by
  refine .more ?_ h
  have hsp : u.isSpace '\'' = false := by rw [u.space_ascii _ (by decide)]; decide
  simp only [stringLiteralText, List.cons_append, List.append_assoc, nextToken, hsp, Bool.false_eq_true, if_false, if_true]
  rw [List.nil_append, readStringBody_escape x s]
  rfl

/-- An ASCII word is a name. -/
theorem word_ident {w : Str} (hw : w ≠ []) (h : ∀ c ∈ w, c.toNat < 128 ∧ c.isAlpha = true) : isIdentifier u w = true := by
  cases w with
  | nil => exact absurd rfl hw
  | cons c cs =>
    simp only [isIdentifier, Bool.and_eq_true, List.all_eq_true]
    refine ⟨by simp [identStart, u.letter_ascii c (h c (by simp)).1, (h c (by simp)).2], fun x hx => ?_⟩
    simp [identRest, u.letter_ascii x (h x (by simp [hx])).1, (h x (by simp [hx])).2]

theorem start_not_digit {c : Char} (hstart : isNameStart u c) : digitVal c = none := by
  by_cases hd : 48 ≤ c.toNat ∧ c.toNat ≤ 57
  · exfalso
    rcases hstart with h | rfl
    · rw [u.letter_ascii c (by omega)] at h
      simp only [Char.isAlpha, Char.isUpper, Char.isLower, Bool.or_eq_true, decide_eq_true_eq, Bool.and_eq_true] at h
      have hv : c.val.toNat = c.toNat := rfl
      rcases h with ⟨h, _⟩ | ⟨h, _⟩ <;> (have := UInt32.le_iff_toNat_le.mp h; simp at this; omega)
    · simp at hd
  · simp [digitVal, hd]

theorem Tokens.ident {w s : Str} {ts : List Token} (hw : isIdentifier u w = true) (hs : ∀ c r, s = c :: r → ¬ isNamePart u c) (h : Tokens u s ts) :
    Tokens u (w ++ s) (.word w :: ts) := by
  refine .more ?_ h
  cases w with
  | nil => simp [isIdentifier] at hw
  | cons c cs =>
    simp only [isIdentifier, Bool.and_eq_true] at hw
    have hstart : isNameStart u c := by simpa [identStart, isNameStart] using hw.1
    have hsp : u.isSpace c = false := by
      rcases hstart with h | rfl
      · exact u.letter_not_space c h
      · rw [u.space_ascii _ (by decide)]; decide
    have hq : ∀ x : Char, x.toNat < 128 → x.isAlpha = false → x ≠ '_' → c ≠ x := by
      rintro x h1 h2 h3 rfl
      rcases hstart with h | h
      · rw [u.letter_ascii c h1, h2] at h; cases h
      · exact h3 h
    have hdg : digitVal c = none := start_not_digit hstart
    have hr := readNameParts_all u cs s hw.2 (by
      intro x hx
      cases s with
      | nil => simp at hx
      | cons y ys => simp at hx; subst hx; exact hs y ys rfl)
    simp only [List.cons_append, nextToken, hsp, hq '\'' (by decide) (by decide) (by decide), hq '`' (by decide) (by decide) (by decide),
      hq '$' (by decide) (by decide) (by decide), hdg, hstart, Bool.false_eq_true, Option.isSome_none, if_false, if_true, hr]

theorem Tokens.word {w s : Str} {ts : List Token} (hw : w ≠ [] ∧ ∀ c ∈ w, c.toNat < 128 ∧ c.isAlpha = true)
    (hs : ∀ c r, s = c :: r → ¬ isNamePart u c) (h : Tokens u s ts) : Tokens u (w ++ s) (.word w :: ts) :=
  Tokens.ident (word_ident hw.1 hw.2) hs h

theorem Follow.part {s : Str} (h : Follow u s) : ∀ c r, s = c :: r → ¬ isNamePart u c := fun c r he => (h c r he).1

theorem Tokens.quoted {x s : Str} {ts : List Token} (hs : s.head? ≠ some '`') (h : Tokens u s ts) :
    Tokens u (escapeName x ++ s) (.quoted x :: ts) := by
  refine .more ?_ h
  have hsp : u.isSpace '`' = false := by rw [u.space_ascii _ (by decide)]; decide
  simp only [escapeName, List.cons_append, List.append_assoc, nextToken, hsp, Bool.false_eq_true, if_false, if_true,
    show ¬ ('`' = '\'') by decide]
  rw [List.nil_append, readQuotedBody_escape x s hs]
  rfl

theorem Follow.quote {s : Str} (h : Follow u s) : s.head? ≠ some '`' := by
  cases s with
  | nil => simp
  | cons c r => simpa using (h c r rfl).2.1

/-- A name is a word or quoted. -/
theorem Lexes.name {x : Str} (hx : ∃ c ∈ x, u.isSpace c = false) :
    ∃ t, IsName t x ∧ Lexes u (escapeIfNecessary u x) [t] ∧ (t = .word x → isIdentifier u x = true) := by
  have hblank : ¬ (trimSpace u x).length = 0 := by
    rw [trimSpace_length_zero, List.all_eq_true]
    obtain ⟨c, hc, hcs⟩ := hx
    intro h
    have := h c hc
    simp_all
  unfold escapeIfNecessary
  by_cases hid : isIdentifier u x = true
  · refine ⟨.word x, .inl rfl, ?_, fun _ => hid⟩
    rw [if_pos (.inr hid)]
    intro r rs hf h
    exact Tokens.ident hid hf.part h
  · refine ⟨.quoted x, .inr rfl, ?_, fun h => by cases h⟩
    rw [if_neg (fun h => h.elim hblank hid)]
    intro r rs hf h
    exact Tokens.quoted hf.quote h

/-- The text of a name does not begin with a digit. -/
theorem name_head {x : Str} (hx : ∃ c ∈ x, u.isSpace c = false) (d : Char) (r : Str) (h : escapeIfNecessary u x = d :: r) : digitVal d = none := by
  have hblank : ¬ (trimSpace u x).length = 0 := by
    rw [trimSpace_length_zero, List.all_eq_true]
    obtain ⟨c, hc, hcs⟩ := hx
    intro h
    have := h c hc
    simp_all
  unfold escapeIfNecessary at h
  by_cases hid : isIdentifier u x = true
  · rw [if_pos (.inr hid)] at h
    subst h
    simp only [isIdentifier, Bool.and_eq_true] at hid
    exact start_not_digit (u := u) (by simpa [identStart, isNameStart] using hid.1)
  · rw [if_neg (fun h => h.elim hblank hid)] at h
    simp only [escapeName, List.cons.injEq] at h
    rw [← h.1]
    decide

/-! ### Numbers -/

theorem digit_part {c : Char} (h : (digitVal c).isSome = true) : isNamePart u c := by
  unfold digitVal at h
  split at h
  · rename_i hc
    refine .inr (.inr ?_)
    rw [u.digit_ascii c (by omega)]
    simp only [Char.isDigit, Bool.and_eq_true, decide_eq_true_eq]
    exact ⟨UInt32.le_iff_toNat_le.mpr hc.1, UInt32.le_iff_toNat_le.mpr hc.2⟩
  · simp at h

theorem takeDigits_append {a r : Str} (ha : Digits a) (hr : ∀ c s, r = c :: s → digitVal c = none) : takeDigits (a ++ r) = (a, r) := by
  induction a with
  | nil =>
    cases r with
    | nil => rfl
    | cons c s => simp [takeDigits, hr c s rfl]
  | cons c a ih =>
    obtain ⟨n, hn⟩ := ha c (by simp)
    simp [takeDigits, hn, ih fun x hx => ha x (by simp [hx])]

theorem digits_of_readNat {s : Str} {n : Nat} (h : readNat s = some n) : Digits s ∧ s ≠ [] := by
  refine ⟨fun c hc => ?_, by rintro rfl; simp [readNat] at h⟩
  by_cases hd : digitVal c = none
  · rw [readNat_none_of_mem s c hc hd] at h; cases h
  · exact ⟨_, (Option.ne_none_iff_exists'.mp hd).choose_spec⟩

theorem Follow.digit {s : Str} (h : Follow u s) : ∀ c r, s = c :: r → digitVal c = none := by
  intro c r he
  by_cases hd : (digitVal c).isSome = true
  · exact absurd (digit_part hd) (h c r he).1
  · simpa using hd

theorem letter_e : isNamePart u 'e' := .inl (by rw [u.letter_ascii _ (by decide)]; decide)

theorem takeFraction_none {s : Str} (h : ∀ r d r', s = '.' :: r → r = d :: r' → digitVal d = none) : takeFraction s = ([], s) := by
  unfold takeFraction
  split
  · rename_i c r
    simp [h _ _ _ rfl rfl]
  · rfl

theorem takeExponent_none {s : Str} (h : ∀ r, s ≠ 'e' :: r) : takeExponent s = ([], s) := by
  unfold takeExponent
  split
  · exact absurd rfl (h _)
  · exact absurd rfl (h _)
  · exact absurd rfl (h _)
  · rfl

/-- The exponent is read as far as it goes. -/
theorem takeExponent_some {x r : Str} {z : Int} (hx : readExponent x = some z) (hr : ∀ c s, r = c :: s → digitVal c = none) :
    takeExponent ('e' :: x ++ r) = ('e' :: x, r) := by
  unfold readExponent at hx
  split at hx
  · rename_i s
    simp only [Option.map_eq_some_iff] at hx
    obtain ⟨n, hn, _⟩ := hx
    obtain ⟨h1, h2⟩ := digits_of_readNat hn
    cases s with
    | nil => exact absurd rfl h2
    | cons c s =>
      obtain ⟨m, hm⟩ := h1 c (by simp)
      have := takeDigits_append (a := s) (r := r) (fun x hx => h1 x (by simp [hx])) hr
      simp [takeExponent, hm, this]
  · rename_i s
    simp only [Option.map_eq_some_iff] at hx
    obtain ⟨n, hn, _⟩ := hx
    obtain ⟨h1, h2⟩ := digits_of_readNat hn
    cases s with
    | nil => exact absurd rfl h2
    | cons c s =>
      obtain ⟨m, hm⟩ := h1 c (by simp)
      have := takeDigits_append (a := s) (r := r) (fun x hx => h1 x (by simp [hx])) hr
      simp [takeExponent, hm, this]
  · rename_i h1' h2'
    simp only [Option.map_eq_some_iff] at hx
    obtain ⟨n, hn, _⟩ := hx
    obtain ⟨h1, h2⟩ := digits_of_readNat hn
    cases x with
    | nil => exact absurd rfl h2
    | cons c s =>
      obtain ⟨m, hm⟩ := h1 c (by simp)
      have := takeDigits_append (a := s) (r := r) (fun x hx => h1 x (by simp [hx])) hr
      have hne := digit_ne hm
      simp only [List.cons_append]
      rw [takeExponent.eq_def]
      split
      · rename_i heq; simp at heq; exact absurd heq.1 hne.2.2.2
      · rename_i heq; simp at heq; exact absurd heq.1 hne.2.2.1
      · rename_i heq
        simp only [List.cons.injEq, true_and] at heq
        obtain ⟨rfl, rfl⟩ := heq
        simp [hm, this]
      · rename_i h3; exact absurd rfl (h3 _ _)

theorem span_spec (p : Char → Bool) (s : Str) : (s.span p).1 ++ (s.span p).2 = s ∧ (∀ c ∈ (s.span p).1, p c = true) ∧
    ∀ c r, (s.span p).2 = c :: r → p c = false := by
  rw [List.span_eq_takeWhile_dropWhile]
  refine ⟨List.takeWhile_append_dropWhile, fun c hc => List.all_eq_true.mp (List.all_takeWhile (l := s) (p := p)) c hc, fun c r h => ?_⟩
  have := head_dropWhile_false p s (by simp only at h; rw [h]; simp)
  simpa [show s.dropWhile p = c :: r from h] using this

/-- A mantissa is read as far as it goes. -/
theorem take_mantissa {a r : Str} {q : ℚ} (h : readMantissa a = some q) (hr : ∀ c s, r = c :: s → digitVal c = none ∧ (c = '.' → ∀ d s', s = d :: s' → digitVal d = none)) :
    ∃ x y, a = x ++ y ∧ takeDigits (a ++ r) = (x, y ++ r) ∧ takeFraction (y ++ r) = (y, r) ∧ x ≠ [] := by
  unfold readMantissa at h
  obtain ⟨h1, h2, h3⟩ := span_spec (· ≠ '.') a
  generalize hsp : a.span (· ≠ '.') = sp at h h1 h2 h3
  obtain ⟨x, y⟩ := sp
  cases y with
  | nil =>
    simp only [Option.map_eq_some_iff] at h
    obtain ⟨n, hn, _⟩ := h
    obtain ⟨hd, hne⟩ := digits_of_readNat hn
    simp only [List.append_nil] at h1
    subst h1
    refine ⟨x, [], by simp, takeDigits_append hd fun c s hc => (hr c s hc).1, ?_, hne⟩
    exact takeFraction_none fun s d s' h1 h2 => (hr '.' s h1).2 rfl d s' h2
  | cons c y =>
    have hc : c = '.' := by simpa using h3 c y rfl
    subst hc
    simp only [Option.bind_eq_some_iff, Option.map_eq_some_iff] at h
    obtain ⟨n, hn, m, hm, _⟩ := h
    obtain ⟨hd, hne⟩ := digits_of_readNat hn
    obtain ⟨hd', hne'⟩ := digits_of_readNat hm
    simp only at h1
    subst h1
    refine ⟨x, '.' :: y, rfl, ?_, ?_, hne⟩
    · have := takeDigits_append (a := x) (r := '.' :: y ++ r) hd (by intro c s h; simp at h; rw [← h.1]; decide)
      simpa using this
    · cases y with
      | nil => exact absurd rfl hne'
      | cons c y =>
        obtain ⟨m, hm⟩ := hd' c (by simp)
        have := takeDigits_append (a := y) (r := r) (fun x hx => hd' x (by simp [hx])) fun c s hc => (hr c s hc).1
        simp [takeFraction, hm, this]

/-- A number is read as far as it goes. -/
theorem takeNumber_append {s r : Str} {q : ℚ} (h : readUnsigned s = some q) (hr : Follow u r) : takeNumber (s ++ r) = (s, r) := by
  unfold readUnsigned at h
  obtain ⟨h1, h2, h3⟩ := span_spec (· ≠ 'e') s
  generalize hsp : s.span (· ≠ 'e') = sp at h h1 h2 h3
  obtain ⟨a, x⟩ := sp
  cases x with
  | nil =>
    simp only [List.append_nil] at h1
    subst h1
    obtain ⟨x, y, h4, h5, h6, _⟩ := take_mantissa (r := r) h fun c s hc => ⟨hr.digit c s hc, fun he => (hr c s hc).2.2 he⟩
    have h7 := takeExponent_none (s := r) fun r' he => (hr 'e' r' he).1 letter_e
    simp only [takeNumber, h5, h6, h7]
    simp [h4]
  | cons c x =>
    have hc : c = 'e' := by simpa using h3 c x rfl
    subst hc
    simp only [Option.bind_eq_some_iff, Option.map_eq_some_iff] at h
    obtain ⟨m, hm, z, hz, _⟩ := h
    simp only at h1
    subst h1
    obtain ⟨b, y, h4, h5, h6, _⟩ := take_mantissa (r := 'e' :: x ++ r) hm (by intro c s h; simp at h; rw [← h.1]; exact ⟨by decide, fun h => absurd h (by decide)⟩)
    have h7 := takeExponent_some hz hr.digit
    have h8 : a ++ 'e' :: x ++ r = a ++ ('e' :: x ++ r) := by simp
    rw [h8]
    simp only [takeNumber, h5, h6, h7]
    simp [h4]

theorem Tokens.num {s r : Str} {ts : List Token} {q : ℚ} (hs : readUnsigned s = some q) (hr : Follow u r) (h : Tokens u r ts) :
    Tokens u (s ++ r) (.num s :: ts) := by
  refine .more ?_ h
  have h0 := takeNumber_append hs hr
  have hh : ∃ c s', s = c :: s' ∧ (digitVal c).isSome = true := by
    have : ∃ a, readMantissa a ≠ none ∧ ∃ b, s = a ++ b := by
      unfold readUnsigned at hs
      obtain ⟨h1, h2, h3⟩ := span_spec (· ≠ 'e') s
      generalize hsp : s.span (· ≠ 'e') = sp at hs h1 h2 h3
      obtain ⟨a, x⟩ := sp
      cases x with
      | nil => exact ⟨a, by simp at hs; simp [hs], [], h1.symm⟩
      | cons c x =>
        simp only [Option.bind_eq_some_iff] at hs
        obtain ⟨m, hm, _⟩ := hs
        exact ⟨a, by simp [hm], _, h1.symm⟩
    obtain ⟨a, ha, b, rfl⟩ := this
    obtain ⟨q, hq⟩ := Option.ne_none_iff_exists'.mp ha
    obtain ⟨x, y, h4, h5, h6, h7⟩ := take_mantissa (r := []) hq (by simp)
    cases x with
    | nil => exact absurd rfl h7
    | cons c x =>
      refine ⟨c, x ++ y ++ b, by simp [h4], ?_⟩
      subst h4
      simp only [List.cons_append, List.append_nil, takeDigits] at h5
      split at h5
      · assumption
      · simp at h5
  obtain ⟨c, s', rfl, hc⟩ := hh
  have hlt : c.toNat < 128 ∧ 48 ≤ c.toNat ∧ c.toNat ≤ 57 := by
    unfold digitVal at hc
    split at hc
    · rename_i h; exact ⟨by omega, h⟩
    · simp at hc
  have hsp : u.isSpace c = false := by
    rcases digit_part (u := u) hc with h | h | h
    · exact u.letter_not_space c h
    · subst h; simp at hlt
    · exact u.digit_not_space c h
  have hne : ∀ x : Char, ¬ (48 ≤ x.toNat ∧ x.toNat ≤ 57) → c ≠ x := by rintro x hx rfl; exact hx hlt.2
  simp only [List.cons_append] at h0 ⊢
  simp only [nextToken, hsp, hne '\'' (by decide), hne '`' (by decide), hne '$' (by decide), hc, Bool.false_eq_true, if_false, if_true, h0]

end Verif.Rd
