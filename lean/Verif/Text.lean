/-
Text: Go strings and the few library functions on them that the Cypher DSL uses.

A Go string is modelled as its list of Unicode scalar values (`List Char`); invalid UTF-8 is not modelled here (see Bytes.lean).
-/

namespace Verif

/-- A Go `string` (valid UTF-8 only), as the list of its runes. -/
abbrev Str := List Char

/-- `c!"text"` is the explicit list of characters of a string literal, so that the kernel can compute with it. -/
macro:max "c!" s:str : term => do
  let cs : List (Lean.TSyntax `term) := s.getString.toList.map fun c => ⟨Lean.Syntax.mkCharLit c⟩
  let arr := cs.toArray
  `(([ $[$arr],* ] : List Char))

/-- The parts of Go's package `unicode` used by the code (`IsLetter`, `IsDigit`, `IsSpace`), kept abstract: only their
values on the ASCII characters that matter for Cypher's syntax are fixed. -/
structure Unicode where
  isLetter : Char → Bool
  isDigit : Char → Bool
  isSpace : Char → Bool
  /-- no letter or digit is white space (Unicode categories L and Nd are disjoint from White_Space) -/
  letter_not_space : ∀ c, isLetter c = true → isSpace c = false
  digit_not_space : ∀ c, isDigit c = true → isSpace c = false
  /-- no letter is a digit (Unicode categories L and Nd are disjoint) -/
  letter_not_digit : ∀ c, isLetter c = true → isDigit c = false
  /-- values on ASCII -/
  letter_ascii : ∀ c, c.toNat < 128 → isLetter c = c.isAlpha
  digit_ascii : ∀ c, c.toNat < 128 → isDigit c = Char.isDigit c
  space_ascii : ∀ c, c.toNat < 128 → isSpace c = (c = ' ' || c = '\t' || c = '\n' || c = '\r' || c = Char.ofNat 11 || c = Char.ofNat 12)

/-- The ASCII restriction of package `unicode`; shows that `Unicode` is inhabited and makes the model executable. -/
def Unicode.ascii : Unicode where
  isLetter := Char.isAlpha
  isDigit := Char.isDigit
  isSpace c := (c = ' ' || c = '\t' || c = '\n' || c = '\r' || c = Char.ofNat 11 || c = Char.ofNat 12)
  letter_not_space := by
    intro c h
    simp only [Bool.or_eq_false_iff, decide_eq_false_iff_not]
    refine ⟨⟨⟨⟨⟨?_, ?_⟩, ?_⟩, ?_⟩, ?_⟩, ?_⟩ <;> (rintro rfl; revert h; decide)
  digit_not_space := by
    intro c h
    simp only [Bool.or_eq_false_iff, decide_eq_false_iff_not]
    refine ⟨⟨⟨⟨⟨?_, ?_⟩, ?_⟩, ?_⟩, ?_⟩, ?_⟩ <;> (rintro rfl; revert h; decide)
  letter_not_digit := by
    intro c h
    simp only [Char.isAlpha, Char.isUpper, Char.isLower, Char.isDigit, Bool.or_eq_true, Bool.and_eq_true,
      decide_eq_true_eq, Bool.and_eq_false_iff, decide_eq_false_iff_not, ge_iff_le, UInt32.le_iff_toNat_le] at h ⊢
    have e1 : 'A'.val.toNat = 65 := rfl
    have e2 : 'Z'.val.toNat = 90 := rfl
    have e3 : 'a'.val.toNat = 97 := rfl
    have e4 : 'z'.val.toNat = 122 := rfl
    have e5 : '0'.val.toNat = 48 := rfl
    have e6 : '9'.val.toNat = 57 := rfl
    omega
  letter_ascii _ _ := rfl
  digit_ascii _ _ := rfl
  space_ascii _ _ := rfl

/-- `strings.TrimLeftFunc(s, IsSpace)`. -/
def trimLeft (u : Unicode) (s : Str) : Str := s.dropWhile u.isSpace

/-- `strings.TrimSpace`: removes leading and trailing white space. -/
def trimSpace (u : Unicode) (s : Str) : Str := (trimLeft u (trimLeft u s).reverse).reverse

/-- `strings.ReplaceAll(s, "c", r)` for a one-character pattern. -/
def replaceChar (c : Char) (r : Str) (s : Str) : Str := s.flatMap fun x => if x = c then r else [x]

/-- `strings.Join`. -/
def join (sep : Str) : List Str → Str
  | [] => []
  | [x] => x
  | x :: y :: xs => x ++ sep ++ join sep (y :: xs)

/-- One decimal digit. -/
def digitChar (n : Nat) : Char := Char.ofNat (48 + n % 10)

/-- Decimal digits of a natural number, most significant first; `fuel` bounds the number of digits. -/
def natDigitsAux : Nat → Nat → Str
  | 0, _ => []
  | fuel + 1, n => if n < 10 then [digitChar n] else natDigitsAux fuel (n / 10) ++ [digitChar n]

/-- Decimal digits of a natural number, most significant first. -/
def natDigits (n : Nat) : Str := natDigitsAux (n + 1) n

/-- `strconv.Itoa`. -/
def itoa (i : Int) : Str :=
  match i with
  | Int.ofNat n => natDigits n
  | Int.negSucc n => '-' :: natDigits (n + 1)

end Verif
