import Verif.Lexical

/-
Strings as Go has them: lists of bytes, valid UTF-8 or not.  The functions of `Lexical.lean` once more, on bytes, with the functions of
Go's packages `unicode/utf8` and `strings` that they call.
-/

namespace Verif

/-- A Go `string`. -/
abbrev Bytes := List UInt8

namespace Bytes

/-- `utf8.RuneError`. -/
def runeError : Char := Char.ofNat 0xFFFD

/-- `utf8.first` and `utf8.acceptRanges`: for the first byte of a character that is longer than one byte, its length and the range of
its second byte. -/
def first (p : Nat) : Option (Nat × Nat × Nat) :=
  if p < 0xC2 then none
  else if p < 0xE0 then some (2, 0x80, 0xBF)
  else if p < 0xE1 then some (3, 0xA0, 0xBF)
  else if p < 0xED then some (3, 0x80, 0xBF)
  else if p < 0xEE then some (3, 0x80, 0x9F)
  else if p < 0xF0 then some (3, 0x80, 0xBF)
  else if p < 0xF1 then some (4, 0x90, 0xBF)
  else if p < 0xF4 then some (4, 0x80, 0xBF)
  else if p < 0xF5 then some (4, 0x80, 0x8F)
  else none

/-- A byte that continues a character (`locb` to `hicb`). -/
def continues (b : UInt8) : Bool := 0x80 ≤ b.toNat && b.toNat ≤ 0xBF

/-- `utf8.DecodeRuneInString`: the first character and its width. -/
def decode : Bytes → Char × Nat
  | [] => (runeError, 0)
  | p :: t =>
    if p.toNat < 0x80 then (Char.ofNat p.toNat, 1)
    else match first p.toNat with
    | none => (runeError, 1)
    | some (n, lo, hi) =>
      if t.length + 1 < n then (runeError, 1)
      else match t with
      | [] => (runeError, 1)
      | b :: t =>
        if b.toNat < lo || hi < b.toNat then (runeError, 1)
        else if n ≤ 2 then (Char.ofNat (p.toNat % 32 * 64 + b.toNat % 64), 2)
        else match t with
        | [] => (runeError, 1)
        | c :: t =>
          if !continues c then (runeError, 1)
          else if n ≤ 3 then (Char.ofNat (p.toNat % 16 * 4096 + b.toNat % 64 * 64 + c.toNat % 64), 3)
          else match t with
          | [] => (runeError, 1)
          | d :: _ =>
            if !continues d then (runeError, 1)
            else (Char.ofNat (p.toNat % 8 * 262144 + b.toNat % 64 * 4096 + c.toNat % 64 * 64 + d.toNat % 64), 4)

/-- `utf8.RuneStart`. -/
def runeStart (b : UInt8) : Bool := !(b.toNat / 64 = 2)

/-- `utf8.DecodeLastRuneInString`, the search for the beginning of the last character: how many bytes are tried, for a string of `n`
bytes that are `t` from the last but one backwards. -/
def tried (n : Nat) (t : Bytes) : Nat :=
  match (t.take 3).findIdx? runeStart with
  | some j => j + 2
  | none => min n 5

/-- `utf8.DecodeLastRuneInString`: the last character and its width.  It looks for a first byte among the last four bytes. -/
def decodeLast (s : Bytes) : Char × Nat :=
  match s.reverse with
  | [] => (runeError, 0)
  | b :: t =>
    if b.toNat < 0x80 then (Char.ofNat b.toNat, 1)
    else
      let d := decode (s.drop (s.length - tried s.length t))
      if d.2 = tried s.length t then d else (runeError, 1)

/-- The characters that `range s` goes through, at most `fuel` of them. -/
def runesAux : Nat → Bytes → List Char
  | 0, _ => []
  | _ + 1, [] => []
  | fuel + 1, b :: t => (decode (b :: t)).1 :: runesAux fuel ((b :: t).drop (decode (b :: t)).2)

/-- The characters that `range s` goes through. -/
def runes (s : Bytes) : List Char := runesAux s.length s

/-- `strings.TrimLeftFunc(s, unicode.IsSpace)`; `fuel` is at least the length. -/
def trimLeftAux (u : Unicode) : Nat → Bytes → Bytes
  | 0, s => s
  | _ + 1, [] => []
  | fuel + 1, b :: t => if u.isSpace (decode (b :: t)).1 then trimLeftAux u fuel ((b :: t).drop (decode (b :: t)).2) else b :: t

def trimLeftFunc (u : Unicode) (s : Bytes) : Bytes := trimLeftAux u s.length s

/-- `strings.lastIndexFunc(s[:i], unicode.IsSpace, false)`: where the last character that is no white space begins. -/
def lastIndexAux (u : Unicode) (s : Bytes) : Nat → Nat → Option Nat
  | 0, _ => none
  | _ + 1, 0 => none
  | fuel + 1, i =>
    let d := decodeLast (s.take i)
    if u.isSpace d.1 then lastIndexAux u s fuel (i - d.2) else some (i - d.2)

/-- `strings.TrimRightFunc(s, unicode.IsSpace)`. -/
def trimRightFunc (u : Unicode) (s : Bytes) : Bytes :=
  match lastIndexAux u s s.length s.length with
  | none => []
  | some i =>
    match s.drop i with
    | [] => s
    | b :: t => if 0x80 ≤ b.toNat then s.take (i + (decode (b :: t)).2) else s.take (i + 1)

/-- `strings.asciiSpace`. -/
def asciiSpace (b : UInt8) : Bool :=
  b.toNat = 32 || b.toNat = 9 || b.toNat = 10 || b.toNat = 13 || b.toNat = 11 || b.toNat = 12

/-- `strings.TrimSpace`, with its fast way for ASCII. -/
def trimSpace (u : Unicode) (s : Bytes) : Bytes :=
  match s.dropWhile asciiSpace with
  | [] => []
  | b :: t =>
    if 0x80 ≤ b.toNat then trimRightFunc u (trimLeftFunc u (b :: t))
    else
      match (b :: t).reverse.dropWhile asciiSpace with
      | [] => []
      | c :: r => if 0x80 ≤ c.toNat then trimRightFunc u (c :: r).reverse else (c :: r).reverse

/-- An ASCII character as a byte. -/
def byte (c : Char) : UInt8 := UInt8.ofNat c.toNat

/-- `strings.ReplaceAll` for a pattern of one byte. -/
def replaceByte (b : UInt8) (r : Bytes) (s : Bytes) : Bytes := s.flatMap fun x => if x = b then r else [x]

/-- string_literal.go:16-21, 46-53 `escapeStringLiteral`: what the regular expression does not match is copied byte by byte. -/
def escapeStringLiteral (s : Bytes) : Bytes :=
  s.flatMap fun b => if b = byte '\\' || b = byte '\'' || b = byte '"' then [byte '\\', b] else [b]

/-- string_literal.go:67-69 `StringLiteral.AsString`. -/
def stringLiteralText (s : Bytes) : Bytes := byte '\'' :: (escapeStringLiteral s ++ [byte '\''])

/-- cypher_renderer.go:192-194 `escapeName`. -/
def escapeName (s : Bytes) : Bytes := byte '`' :: (replaceByte (byte '`') [byte '`', byte '`'] s ++ [byte '`'])

/-- cypher_renderer.go:203-211 `isIdentifier`: the loop goes through the characters, with the byte position 0 for the first one. -/
def isIdentifier (u : Unicode) (s : Bytes) : Bool :=
  match runes s with
  | [] => false
  | c :: cs => (u.isLetter c || c = '_') && cs.all fun c => u.isLetter c || c = '_' || u.isDigit c

/-- cypher_renderer.go:196-201 `EscapeIfNecessary`. -/
def escapeIfNecessary (u : Unicode) (s : Bytes) : Bytes :=
  if (trimSpace u s).length = 0 ∨ isIdentifier u s then s else escapeName s

/-- parameter.go:16-30 `ParameterCreate`. -/
def parameterCreate : Bytes → Except Err Bytes
  | [] => .error .parameterName
  | b :: t => if b = byte '$' then parameterCreate t else .ok (b :: t)

end Bytes
end Verif
