import Verif.LexLemmas

/-
Property theorems C01 - C06: strings, names, parameters and integers as tokens of the query text.
-/

namespace Verif
open Spec

/-! ### C01 String literals cannot be broken out of -/

/-- Whatever string `s` is rendered and whatever text `rest` follows, Cypher's reader gets back `s` and stops at `rest`. -/
theorem C01_string_round_trip (s rest : Str) :
    readString (stringLiteralText s ++ rest) = some (s, rest) := by
  simp only [stringLiteralText, readString, List.cons_append, List.append_assoc, List.nil_append]
  exact readStringBody_escape s rest

/-- Different strings have different texts, even when followed by arbitrary texts. -/
theorem C01_string_injective (s t r r' : Str) (h : stringLiteralText s ++ r = stringLiteralText t ++ r') :
    s = t ∧ r = r' := by
  have h1 := C01_string_round_trip s r
  rw [h, C01_string_round_trip t r'] at h1
  simp only [Option.some.injEq, Prod.mk.injEq] at h1
  exact ⟨h1.1.symm, h1.2.symm⟩

-- an attempted break-out stays inside the literal
example : readString (stringLiteralText c!"' OR 1=1 // \\'" ++ c!" RETURN n")
    = some (c!"' OR 1=1 // \\'", c!" RETURN n") := by decide
example : stringLiteralText c!"it's" = c!"'it\\'s'" := by decide

/-! ### C02 Labels and relationship types are always safely back-quoted -/

theorem C02_quoted_round_trip (s rest : Str) (hrest : rest.head? ≠ some '`') :
    readQuoted (escapeName s ++ rest) = some (s, rest) := by
  simp only [escapeName, readQuoted, List.cons_append, List.append_assoc, List.nil_append]
  exact readQuotedBody_escape s rest hrest

example : readQuoted (escapeName c!"a`) DETACH DELETE (n" ++ c!")") = some (c!"a`) DETACH DELETE (n", c!")") := by
  decide

/-! ### C03 Names are escaped whenever needed -/

/-- Full claim: every non-empty name reads back.  It is false, see `C03_blank_name_not_readable`; this theorem covers
every name that contains at least one character that is not white space. -/
theorem C03_name_round_trip_partial (u : Unicode) (s rest : Str)
    (hs : ∃ c ∈ s, u.isSpace c = false)
    (hq : rest.head? ≠ some '`') (hrest : ∀ c, rest.head? = some c → ¬ isNamePart u c) :
    readName u (escapeIfNecessary u s ++ rest) = some (s, rest) := by
  have hblank : ¬ (trimSpace u s).length = 0 := by
    rw [trimSpace_length_zero, List.all_eq_true]
    obtain ⟨c, hc, hcs⟩ := hs
    intro h
    have := h c hc
    simp_all
  unfold escapeIfNecessary
  by_cases hid : isIdentifier u s = true
  · simp only [hid, or_true, if_true]
    cases s with
    | nil => simp [isIdentifier] at hid
    | cons c cs =>
      simp only [isIdentifier, Bool.and_eq_true] at hid
      have hc : c ≠ '`' := by
        rintro rfl
        rw [backquote_not_start] at hid
        simp at hid
      have hstart : isNameStart u c := by
        have := hid.1
        simpa [identStart, isNameStart] using this
      simp only [List.cons_append, readName, hc, if_false, hstart, if_true]
      rw [readNameParts_all u cs rest hid.2 hrest]
  · rw [if_neg (fun h => h.elim hblank hid)]
    simp only [escapeName, List.cons_append, List.append_assoc, List.nil_append, readName, if_true]
    exact readQuotedBody_escape s rest hq

/-- The excluded case is real: a name of one blank is a legal argument of the API but its text is not a Cypher name. -/
theorem C03_blank_name_not_readable (u : Unicode) :
    escapeIfNecessary u c!" " = c!" " ∧ readName u (escapeIfNecessary u c!" ") = none := by
  have hsp : u.isSpace ' ' = true := by rw [u.space_ascii ' ' (by decide)]; decide
  have h0 : (trimSpace u c!" ").length = 0 := by
    rw [trimSpace_length_zero]; simp [hsp]
  have he : escapeIfNecessary u c!" " = c!" " := by
    unfold escapeIfNecessary
    rw [if_pos (Or.inl h0)]
  refine ⟨he, ?_⟩
  rw [he]
  have hst : ¬ isNameStart u ' ' := by
    unfold isNameStart
    rintro (h | h)
    · have := u.letter_not_space _ h
      rw [hsp] at this
      cases this
    · exact absurd h (by decide)
  simp [readName, hst]

-- the hypotheses are met by a name that needs quoting, followed by a property access
example : readName Unicode.ascii (escapeIfNecessary Unicode.ascii c!"my name`" ++ c!".age")
    = some (c!"my name`", c!".age") :=
  C03_name_round_trip_partial Unicode.ascii _ _ ⟨'m', by decide, by decide⟩ (by decide)
    (by intro c h; simp at h; subst h; decide)

/-! ### C04 Different names never collide -/

theorem C04_escapeName_injective (s t : Str) (h : escapeName s = escapeName t) : s = t := by
  have h1 := C02_quoted_round_trip s [] (by simp)
  have h2 := C02_quoted_round_trip t [] (by simp)
  rw [h] at h1
  rw [h1] at h2
  simpa using h2

/-- Holds for all names, blank ones included. -/
theorem C04_escapeIfNecessary_injective (u : Unicode) (s t : Str)
    (h : escapeIfNecessary u s = escapeIfNecessary u t) : s = t := by
  -- a text left unchanged never starts with a back-quote
  have key : ∀ x : Str, ((trimSpace u x).length = 0 ∨ isIdentifier u x = true) → x.head? ≠ some '`' := by
    intro x hx hh
    cases x with
    | nil => simp at hh
    | cons c cs =>
      simp only [List.head?_cons, Option.some.injEq] at hh
      subst hh
      rcases hx with hx | hx
      · rw [trimSpace_length_zero] at hx
        simp only [List.all_cons, Bool.and_eq_true] at hx
        have := u.space_ascii '`' (by decide)
        rw [this] at hx
        exact absurd hx.1 (by decide)
      · simp only [isIdentifier, Bool.and_eq_true] at hx
        rw [backquote_not_start] at hx
        simp at hx
  unfold escapeIfNecessary at h
  split at h <;> split at h
  · exact h
  · rename_i hs _
    exact absurd (by rw [h]; simp [escapeName]) (key s hs)
  · rename_i _ ht
    exact absurd (by rw [← h]; simp [escapeName]) (key t ht)
  · exact C04_escapeName_injective s t h

-- "a" and "`a`" are different names and stay different
example : escapeIfNecessary Unicode.ascii c!"a" = c!"a" ∧ escapeIfNecessary Unicode.ascii c!"`a`" = c!"```a```" := by
  decide

/-! ### C05 Parameter names -/

/-- Exactly the leading dollar signs are removed, and it is an error exactly if nothing is left. -/
theorem C05_parameter_name (s : Str) :
    parameterCreate s = (match s.dropWhile (· = '$') with
      | [] => .error .parameterName
      | c :: cs => .ok (c :: cs)) := by
  induction s with
  | nil => rfl
  | cons c cs ih =>
    simp only [parameterCreate, List.dropWhile_cons]
    by_cases hc : c = '$'
    · simp only [hc, if_true, decide_true]
      exact ih
    · simp [hc]

/-- More leading dollar signs change nothing. -/
theorem C05_parameter_dollars (n : Nat) (s : Str) : parameterCreate (List.replicate n '$' ++ s) = parameterCreate s := by
  induction n with
  | zero => rfl
  | succ n ih => simp only [List.replicate_succ, List.cons_append, parameterCreate, if_true, ih]

/-- Full claim: the rendered parameter is a legal token for every name.  False (`C05_parameter_not_escaped`); proved for
names that are plain identifiers. -/
theorem C05_parameter_token_partial (u : Unicode) (s name rest : Str) (h : parameterCreate s = .ok name)
    (hid : isIdentifier u name = true) (hrest : ∀ c, rest.head? = some c → ¬ isNamePart u c) :
    readParameter u (parameterText name ++ rest) = some (name, rest)
      ∧ ∃ n, s = List.replicate n '$' ++ name := by
  constructor
  · cases name with
    | nil => simp [isIdentifier] at hid
    | cons c cs =>
      simp only [isIdentifier, Bool.and_eq_true] at hid
      have hc : c ≠ '`' := by
        rintro rfl
        rw [backquote_not_start] at hid
        simp at hid
      have hstart : isNameStart u c := by
        have := hid.1
        simpa [identStart, isNameStart] using this
      simp only [parameterText, List.cons_append, readParameter, readName, hc, if_false, hstart, if_true]
      rw [readNameParts_all u cs rest hid.2 hrest]
  · induction s with
    | nil => simp [parameterCreate] at h
    | cons c cs ih =>
      simp only [parameterCreate] at h
      split at h
      · rename_i hc
        obtain ⟨n, hn⟩ := ih h
        exact ⟨n + 1, by rw [hc, hn]; rfl⟩
      · simp only [Except.ok.injEq] at h
        exact ⟨0, by simpa using h⟩

-- `Param("$$age")` in front of `, x`
example : readParameter .ascii (parameterText c!"age" ++ c!", x") = some (c!"age", c!", x") :=
  (C05_parameter_token_partial .ascii c!"$$age" c!"age" c!", x" (by decide) (by decide) (by intro c h; cases h; decide)).1

/-- A parameter name that is not an identifier is put into the query unescaped: text after its first part is live. -/
theorem C05_parameter_not_escaped :
    parameterCreate c!"p}) DETACH DELETE (n" = .ok c!"p}) DETACH DELETE (n" ∧
    readParameter Unicode.ascii (parameterText c!"p}) DETACH DELETE (n") = some (c!"p", c!"}) DETACH DELETE (n") := by
  decide

example : parameterCreate c!"$$id" = .ok c!"id" ∧ parameterText c!"id" = c!"$id" := by decide

/-! ### C06 Integer literals keep their value -/

/-- The exact range in which an integer literal is rendered as an integer numeral (and then with the right value).
The full claim asks for `some i` for all 64-bit integers. -/
theorem C06_int_literal_partial (i : Int) :
    readInt (intLiteralText i) = if i.natAbs < 10 ^ 10 then some i else none := by
  cases i with
  | ofNat n =>
    show readInt (bigFloatNatText n) = if n < 10 ^ 10 then _ else _
    by_cases h : n < 10 ^ 10
    · rw [if_pos h]
      have hk := (natDigits_length_le_ten n).mpr h
      simp only [bigFloatNatText, hk, if_true]
      exact readInt_natDigits n
    · rw [if_neg h]
      rcases bigFloatNatText_big n h with h1 | h1
      · rw [h1]; rfl
      · exact readInt_none_of_e _ h1
  | negSucc n =>
    show readInt ('-' :: bigFloatNatText (n + 1)) = if n + 1 < 10 ^ 10 then _ else _
    by_cases h : n + 1 < 10 ^ 10
    · rw [if_pos h]
      have hk := (natDigits_length_le_ten (n + 1)).mpr h
      simp only [bigFloatNatText, hk, if_true]
      rw [readInt, readNat_natDigits]
      rfl
    · rw [if_neg h]
      rcases bigFloatNatText_big (n + 1) h with h1 | h1
      · rw [h1]; rfl
      · exact readInt_none_of_e _ (List.mem_cons_of_mem _ h1)

/-- Two different 64-bit integers can render to the same text. -/
theorem C06_int_literal_lossy : intLiteralText 12345678901 = intLiteralText 12345678902
    ∧ intLiteralText 12345678901 = c!"1.23456789e+10" := by
  decide +kernel

example : intLiteralText (-42) = c!"-42" := by decide

end Verif
