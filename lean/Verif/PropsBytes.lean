import Verif.BytesTrim
import Verif.PropsLexical

/-
C85 Strings of any bytes.
-/

namespace Verif
open Spec

namespace Spec

/-- The meaning of a backslash escape inside a Cypher string literal, for bytes: `\`, `'`, `"`, b, f, n, r, t. -/
def unescapeByte (b : UInt8) : Option UInt8 :=
  if b = 92 ∨ b = 39 ∨ b = 34 then some b
  else if b = 98 then some 8
  else if b = 102 then some 12
  else if b = 110 then some 10
  else if b = 114 then some 13
  else if b = 116 then some 9
  else none

/-- The bytes of a single-quoted string up to and including its closing quote. -/
def readStringBodyBytes : Bytes → Option (Bytes × Bytes)
  | [] => none
  | [b] => if b = 39 then some ([], []) else none
  | b :: c :: rest =>
    if b = 39 then some ([], c :: rest)
    else if b = 92 then do
      let c' ← unescapeByte c
      let (s, r) ← readStringBodyBytes rest
      some (c' :: s, r)
    else do
      let (s, r) ← readStringBodyBytes (c :: rest)
      some (b :: s, r)

/-- A single-quoted Cypher string literal, read byte by byte. -/
def readStringBytes : Bytes → Option (Bytes × Bytes)
  | [] => none
  | b :: rest => if b = 39 then readStringBodyBytes rest else none

/-- The bytes of a back-quoted name up to and including its closing back-quote; two back-quotes stand for one. -/
def readQuotedBodyBytes : Bytes → Option (Bytes × Bytes)
  | [] => none
  | [b] => if b = 96 then some ([], []) else none
  | b :: c :: rest =>
    if b = 96 then
      if c = 96 then do
        let (s, r) ← readQuotedBodyBytes rest
        some (96 :: s, r)
      else some ([], c :: rest)
    else do
      let (s, r) ← readQuotedBodyBytes (c :: rest)
      some (b :: s, r)

/-- A back-quoted Cypher name, read byte by byte. -/
def readQuotedBytes : Bytes → Option (Bytes × Bytes)
  | [] => none
  | b :: rest => if b = 96 then readQuotedBodyBytes rest else none

/-- The text of a list of characters in UTF-8, as Lean's library has it. -/
def utf8 (s : Str) : Bytes := s.flatMap String.utf8EncodeChar

/-- A name that Cypher reads without back-quotes. -/
def IsName (u : Unicode) (s : Str) : Prop := ∃ c cs, s = c :: cs ∧ isNameStart u c ∧ ∀ d ∈ cs, isNamePart u d

end Spec

theorem readStringBodyBytes_escape (s rest : Bytes) : readStringBodyBytes (Bytes.escapeStringLiteral s ++ (39 :: rest)) = some (s, rest) := by
  induction s with
  | nil =>
    simp only [Bytes.escapeStringLiteral, List.flatMap_nil, List.nil_append]
    cases rest <;> simp [readStringBodyBytes]
  | cons b s ih =>
    simp only [Bytes.escapeStringLiteral, List.flatMap_cons] at ih ⊢
    split
    · rename_i h
      have hb : unescapeByte b = some b := by
        simp only [Bool.or_eq_true, decide_eq_true_eq] at h
        rcases h with (rfl | rfl) | rfl <;> rfl
      rw [List.append_assoc]
      rw [List.cons_append, List.cons_append, List.nil_append, readStringBodyBytes, if_neg (by decide), if_pos (by decide), hb, ih]
      rfl
    · rename_i h
      simp only [Bool.or_eq_true, decide_eq_true_eq, not_or] at h
      have h1 : b ≠ 92 := h.1.1
      have h2 : b ≠ 39 := h.1.2
      rw [List.append_assoc, List.cons_append, List.nil_append]
      generalize hg : List.flatMap (fun b => if (decide (b = Bytes.byte '\\') || decide (b = Bytes.byte '\'') || decide (b = Bytes.byte '"')) = true then [Bytes.byte '\\', b] else [b]) s ++ 39 :: rest = g at ih ⊢
      cases g with
      | nil => simp [readStringBodyBytes] at ih
      | cons c g => rw [readStringBodyBytes, if_neg h2, if_neg h1, ih]; rfl

theorem readQuotedBodyBytes_escape (s rest : Bytes) (h : rest.head? ≠ some 96) :
    readQuotedBodyBytes (Bytes.replaceByte 96 [96, 96] s ++ (96 :: rest)) = some (s, rest) := by
  induction s with
  | nil =>
    simp only [Bytes.replaceByte, List.flatMap_nil, List.nil_append]
    cases rest with
    | nil => rfl
    | cons c rest =>
      have : c ≠ 96 := by simpa using h
      simp [readQuotedBodyBytes, this]
  | cons b s ih =>
    simp only [Bytes.replaceByte, List.flatMap_cons] at ih ⊢
    split
    · rename_i hb
      subst hb
      simp only [List.cons_append, List.nil_append, readQuotedBodyBytes, if_true]
      rw [ih]; rfl
    · rename_i hb
      rw [List.append_assoc, List.cons_append, List.nil_append]
      generalize hg : List.flatMap (fun x => if x = 96 then [96, 96] else [x]) s ++ 96 :: rest = g at ih ⊢
      cases g with
      | nil => simp [readQuotedBodyBytes] at ih
      | cons c g => rw [readQuotedBodyBytes, if_neg hb, ih]; rfl

theorem isIdentifier_iff (u : Unicode) (s : Str) : isIdentifier u s = true ↔ IsName u s := by
  cases s with
  | nil => simp [isIdentifier, IsName]
  | cons c cs =>
    simp only [isIdentifier, identStart, identRest, IsName, isNameStart, isNamePart, Bool.and_eq_true, Bool.or_eq_true, decide_eq_true_eq, List.all_eq_true]
    constructor
    · rintro ⟨h1, h2⟩
      exact ⟨c, cs, rfl, h1, fun d hd => by rcases h2 d hd with (h | h) | h <;> simp [h]⟩
    · rintro ⟨c', cs', he, h1, h2⟩
      cases he
      exact ⟨h1, fun d hd => by rcases h2 d hd with h | h | h <;> simp [h]⟩

theorem bytes_isIdentifier (u : Unicode) (hE : u.isLetter Bytes.runeError = false) (hD : u.isDigit Bytes.runeError = false) (s : Bytes) :
    Bytes.isIdentifier u s = true ↔ ∃ cs, s = utf8 cs ∧ IsName u cs := by
  have hsame : Bytes.isIdentifier u s = isIdentifier u (Bytes.runes s) := by
    unfold Bytes.isIdentifier isIdentifier
    cases Bytes.runes s <;> rfl
  rw [hsame, isIdentifier_iff]
  constructor
  · intro h
    refine ⟨_, Bytes.encode_runes _ s (Nat.le_refl _) ?_, h⟩
    have h' := (isIdentifier_iff u _).2 h
    have hus : ¬ Bytes.runeError = '_' := by decide
    intro c hc he
    subst he
    obtain ⟨d, ds, hr, h1, h2⟩ := h
    rw [hr] at hc
    rcases List.mem_cons.1 hc with rfl | hc
    · rcases h1 with h1 | h1
      · rw [hE] at h1; cases h1
      · exact hus h1
    · rcases h2 _ hc with h1 | h1 | h1
      · rw [hE] at h1; cases h1
      · exact hus h1
      · rw [hD] at h1; cases h1
  · rintro ⟨cs, rfl, h⟩
    rw [show Bytes.runes (utf8 cs) = cs from Bytes.runes_encode cs]
    exact h

theorem utf8_flatMap {f : Char → Str} {g : UInt8 → Bytes} (hlow : ∀ c, c.toNat < 0x80 → g (Bytes.byte c) = utf8 (f c))
    (hhigh : ∀ c, 0x80 ≤ c.toNat → f c = [c]) (hbyte : ∀ b : UInt8, 0x80 ≤ b.toNat → g b = [b]) (s : Str) :
    (utf8 s).flatMap g = utf8 (s.flatMap f) := by
  have hid : ∀ l : Bytes, (∀ b ∈ l, 0x80 ≤ b.toNat) → l.flatMap g = l := by
    intro l
    induction l with
    | nil => intro _; rfl
    | cons b l ih => intro h; rw [List.flatMap_cons, hbyte b (h b (by simp)), ih fun x hx => h x (by simp [hx])]; rfl
  induction s with
  | nil => rfl
  | cons c s ih =>
    simp only [utf8, List.flatMap_cons, List.flatMap_append] at ih ⊢
    rw [ih]
    congr 1
    by_cases h : c.toNat < 0x80
    · rw [Bytes.encodeChar_ascii h]
      have := hlow c h
      simp only [utf8] at this
      simp [this]
    · rw [hid _ (Bytes.encodeChar_bytes (by omega)), hhigh c (by omega)]
      simp

theorem byte_inj {c d : Char} (hc : c.toNat < 0x80) (hd : d.toNat < 0x80) : Bytes.byte c = Bytes.byte d ↔ c = d := by
  constructor
  · intro h
    have := congrArg UInt8.toNat h
    rw [Bytes.byte_toNat hc, Bytes.byte_toNat hd] at this
    rw [← Char.ofNat_toNat c, this, Char.ofNat_toNat]
  · rintro rfl; rfl

theorem utf8_low {c : Char} (h : c.toNat < 0x80) : utf8 [c] = [Bytes.byte c] := by simp [utf8, Bytes.encodeChar_ascii h]

theorem ne_of_high {c d : Char} (hc : 0x80 ≤ c.toNat) (hd : d.toNat < 0x80) : c ≠ d := by rintro rfl; omega
theorem byte_ne_of_high {b : UInt8} {d : Char} (hb : 0x80 ≤ b.toNat) (hd : d.toNat < 0x80) : b ≠ Bytes.byte d := by
  rintro rfl; rw [Bytes.byte_toNat hd] at hb; omega

theorem utf8_escapeStringLiteral (s : Str) : Bytes.escapeStringLiteral (utf8 s) = utf8 (escapeStringLiteral s) := by
  refine utf8_flatMap (fun c hc => ?_) (fun c hc => ?_) (fun b hb => ?_) s
  · have he : (decide (Bytes.byte c = Bytes.byte '\\') || decide (Bytes.byte c = Bytes.byte '\'') || decide (Bytes.byte c = Bytes.byte '"')) = isReservedChar c := by
      simp only [byte_inj hc (show '\\'.toNat < 0x80 by decide), byte_inj hc (show '\''.toNat < 0x80 by decide), byte_inj hc (show '"'.toNat < 0x80 by decide), isReservedChar]
    simp only [he]
    split
    · rw [show ['\\', c] = ['\\'] ++ [c] from rfl, utf8, List.flatMap_append]
      rw [show List.flatMap String.utf8EncodeChar [c] = utf8 [c] from rfl, utf8_low hc]; rfl
    · rw [utf8_low hc]
  · simp [isReservedChar, ne_of_high hc (show '\\'.toNat < 0x80 by decide), ne_of_high hc (show '\''.toNat < 0x80 by decide), ne_of_high hc (show '"'.toNat < 0x80 by decide)]
  · simp [byte_ne_of_high hb (show '\\'.toNat < 0x80 by decide), byte_ne_of_high hb (show '\''.toNat < 0x80 by decide), byte_ne_of_high hb (show '"'.toNat < 0x80 by decide)]

theorem utf8_replaceByte (s : Str) : Bytes.replaceByte (Bytes.byte '`') [Bytes.byte '`', Bytes.byte '`'] (utf8 s) = utf8 (replaceChar '`' ['`', '`'] s) := by
  refine utf8_flatMap (fun c hc => ?_) (fun c hc => ?_) (fun b hb => ?_) s
  · simp only [byte_inj hc (show '`'.toNat < 0x80 by decide)]
    split
    · rfl
    · rw [utf8_low hc]
  · simp [ne_of_high hc (show '`'.toNat < 0x80 by decide)]
  · simp [byte_ne_of_high hb (show '`'.toNat < 0x80 by decide)]

theorem utf8_append (s t : Str) : utf8 (s ++ t) = utf8 s ++ utf8 t := by simp [utf8]

theorem utf8_escapeName (s : Str) : Bytes.escapeName (utf8 s) = utf8 (escapeName s) := by
  rw [Bytes.escapeName, utf8_replaceByte, escapeName, show ('`' :: (replaceChar '`' ['`', '`'] s ++ ['`'])) = ['`'] ++ (replaceChar '`' ['`', '`'] s ++ ['`']) from rfl,
    utf8_append, utf8_append]
  rfl

/-! ### C85 Strings of any bytes -/

/-- C85: a string literal is read back as the same bytes, whatever the bytes are and whatever follows. -/
theorem C85_string (s rest : Bytes) : readStringBytes (Bytes.stringLiteralText s ++ rest) = some (s, rest) := by
  simp only [Bytes.stringLiteralText, List.cons_append, List.append_assoc, List.nil_append]
  rw [show Bytes.byte '\'' = 39 from rfl, readStringBytes, if_pos rfl]
  exact readStringBodyBytes_escape s rest

-- bytes that are no UTF-8, with a quotation mark and a backslash between them
example : Bytes.stringLiteralText [0xFF, 39, 0xC3, 92] = [39, 0xFF, 92, 39, 0xC3, 92, 92, 39] ∧
    readStringBytes [39, 0xFF, 92, 39, 0xC3, 92, 92, 39, 41] = some ([0xFF, 39, 0xC3, 92], [41]) := by decide +kernel

/-- C85: a quoted name is read back as the same bytes. -/
theorem C85_quoted (s rest : Bytes) (h : rest.head? ≠ some 96) : readQuotedBytes (Bytes.escapeName s ++ rest) = some (s, rest) := by
  simp only [Bytes.escapeName, List.cons_append, List.append_assoc, List.nil_append]
  rw [show Bytes.byte '`' = 96 from rfl, readQuotedBytes, if_pos rfl]
  exact readQuotedBodyBytes_escape s rest h

example : readQuotedBytes (Bytes.escapeName [0xFF, 96, 0xC3] ++ [41]) = some ([0xFF, 96, 0xC3], [41]) ∧
    Bytes.escapeName [0xFF, 96, 0xC3] = [96, 0xFF, 96, 96, 0xC3, 96] := ⟨C85_quoted _ _ (by decide), by decide +kernel⟩

/-- C85: a name stays without quotes exactly if it is, in UTF-8, white space or a name that Cypher reads without quotes. -/
theorem C85_names (u : Unicode) (hL : u.isLetter Bytes.runeError = false) (hD : u.isDigit Bytes.runeError = false)
    (hS : u.isSpace Bytes.runeError = false) (s : Bytes) :
    (Bytes.escapeIfNecessary u s = s ∧ ∃ cs, s = utf8 cs ∧ ((∀ c ∈ cs, u.isSpace c = true) ∨ IsName u cs)) ∨
    (Bytes.escapeIfNecessary u s = Bytes.escapeName s ∧ ∀ cs, s = utf8 cs → (∃ c ∈ cs, u.isSpace c = false) ∧ ¬ IsName u cs) := by
  have hiff := Bytes.trimSpace_nil u hS s
  have hid := bytes_isIdentifier u hL hD s
  unfold Bytes.escapeIfNecessary
  split
  · rename_i h
    rw [List.length_eq_zero_iff, hiff, hid] at h
    refine .inl ⟨rfl, ?_⟩
    rcases h with ⟨cs, h1, h2⟩ | ⟨cs, h1, h2⟩
    · exact ⟨cs, h1, .inl h2⟩
    · exact ⟨cs, h1, .inr h2⟩
  · rename_i h
    rw [List.length_eq_zero_iff, hiff, hid] at h
    refine .inr ⟨rfl, fun cs hcs => ⟨?_, fun hn => h (.inr ⟨cs, hcs, hn⟩)⟩⟩
    by_cases hx : ∃ c ∈ cs, u.isSpace c = false
    · exact hx
    · refine absurd (.inl ⟨cs, hcs, fun c hc => ?_⟩) h
      cases hsp : u.isSpace c with
      | true => rfl
      | false => exact absurd ⟨c, hc, hsp⟩ hx

/-- C85: a name that is no valid UTF-8 is always quoted, and read back as the same bytes. -/
theorem C85_invalid (u : Unicode) (hL : u.isLetter Bytes.runeError = false) (hD : u.isDigit Bytes.runeError = false)
    (hS : u.isSpace Bytes.runeError = false) (s rest : Bytes) (hs : ∀ cs, s ≠ utf8 cs) (h : rest.head? ≠ some 96) :
    readQuotedBytes (Bytes.escapeIfNecessary u s ++ rest) = some (s, rest) := by
  rcases C85_names u hL hD hS s with ⟨_, cs, h1, _⟩ | ⟨h1, _⟩
  · exact absurd h1 (hs cs)
  · rw [h1]; exact C85_quoted s rest h

-- the name `a` followed by a byte that begins a character of two bytes; white space followed by a byte that continues a character
example : Bytes.escapeIfNecessary .ascii [97, 0xC3] = [96, 97, 0xC3, 96] ∧ Bytes.escapeIfNecessary .ascii [32, 0x85] = [96, 32, 0x85, 96] ∧
    Unicode.ascii.isLetter Bytes.runeError = false ∧ Unicode.ascii.isDigit Bytes.runeError = false ∧ Unicode.ascii.isSpace Bytes.runeError = false := by
  decide +kernel
theorem bytes_odd (cs : Str) : ([97, 0xC3] : Bytes) ≠ utf8 cs := by
  intro h
  have h1 := Bytes.runes_encode cs
  rw [show Bytes.encode cs = utf8 cs from rfl, ← h] at h1
  have h2 : Bytes.runes [97, 0xC3] = ['a', Bytes.runeError] := by decide +kernel
  rw [h2] at h1
  subst h1
  revert h
  decide +kernel
example : readQuotedBytes (Bytes.escapeIfNecessary .ascii [97, 0xC3] ++ [41]) = some ([97, 0xC3], [41]) :=
  C85_invalid .ascii (by decide) (by decide) (by decide) _ _ bytes_odd (by decide)

/-- C85: on valid UTF-8 all of this is the same as on characters, and so is what Render cuts off at the ends of its result. -/
theorem C85_agree (u : Unicode) (s : Str) :
    Bytes.stringLiteralText (utf8 s) = utf8 (stringLiteralText s) ∧ Bytes.escapeName (utf8 s) = utf8 (escapeName s) ∧
    Bytes.escapeIfNecessary u (utf8 s) = utf8 (escapeIfNecessary u s) ∧ Bytes.trimSpace u (utf8 s) = utf8 (trimSpace u s) := by
  refine ⟨?_, utf8_escapeName s, ?_, Bytes.trimSpace_encode u s⟩
  · rw [Bytes.stringLiteralText, utf8_escapeStringLiteral, stringLiteralText,
      show ('\'' :: (escapeStringLiteral s ++ ['\''])) = ['\''] ++ (escapeStringLiteral s ++ ['\'']) from rfl, utf8_append, utf8_append]
    rfl
  · have h1 : Bytes.isIdentifier u (utf8 s) = isIdentifier u s := by
      unfold Bytes.isIdentifier
      rw [show Bytes.runes (utf8 s) = s from Bytes.runes_encode s]
      cases s <;> rfl
    have h2 : (Bytes.trimSpace u (utf8 s)).length = 0 ↔ (trimSpace u s).length = 0 := by
      rw [show Bytes.trimSpace u (utf8 s) = utf8 (trimSpace u s) from Bytes.trimSpace_encode u s, List.length_eq_zero_iff, List.length_eq_zero_iff]
      constructor
      · intro h
        cases hx : trimSpace u s with
        | nil => rfl
        | cons c t =>
          rw [hx] at h
          simp only [utf8, List.flatMap_cons, List.append_eq_nil_iff] at h
          exact absurd h.1 (Bytes.encodeChar_ne_nil c)
      · intro h; rw [h]; rfl
    unfold Bytes.escapeIfNecessary escapeIfNecessary
    rw [h1]
    simp only [h2]
    split
    · rfl
    · exact utf8_escapeName s

-- a letter outside ASCII, which takes two bytes, beside a back-quote and a quotation mark
example : utf8 c!"é`'" = [0xC3, 0xA9, 96, 39] ∧ Bytes.escapeName [0xC3, 0xA9, 96, 39] = [96, 0xC3, 0xA9, 96, 96, 39, 96] ∧
    Bytes.stringLiteralText [0xC3, 0xA9, 96, 39] = [39, 0xC3, 0xA9, 96, 92, 39, 39] := by decide +kernel

/-- C85: so are the names of parameters. -/
theorem C85_parameters (s : Str) : Bytes.parameterCreate (utf8 s) = (parameterCreate s).map utf8 := by
  induction s with
  | nil => rfl
  | cons c s ih =>
    have hu : utf8 (c :: s) = String.utf8EncodeChar c ++ utf8 s := rfl
    rw [hu]
    by_cases h : c.toNat < 0x80
    · rw [Bytes.encodeChar_ascii h, List.cons_append, List.nil_append, Bytes.parameterCreate, parameterCreate]
      by_cases hd : c = '$'
      · subst hd; simpa using ih
      · rw [if_neg (fun hb => hd ((byte_inj h (by decide)).1 hb)), if_neg hd]
        simp [Except.map, hu, Bytes.encodeChar_ascii h]
    · rw [parameterCreate, if_neg (ne_of_high (by omega) (by decide))]
      have hb := Bytes.encodeChar_bytes (c := c) (by omega)
      cases hx : String.utf8EncodeChar c with
      | nil => exact absurd hx (Bytes.encodeChar_ne_nil c)
      | cons b t =>
        rw [hx] at hb
        rw [List.cons_append, Bytes.parameterCreate, if_neg (byte_ne_of_high (hb b (by simp)) (by decide))]
        simp [Except.map, hu, hx]

/-- C85: different texts are different as bytes. -/
theorem C85_faithful (s t : Str) (h : utf8 s = utf8 t) : s = t := by
  rw [← Bytes.runes_encode s, ← Bytes.runes_encode t]
  exact congrArg Bytes.runes h

end Verif
