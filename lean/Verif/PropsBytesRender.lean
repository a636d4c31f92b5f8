import Verif.PropsBytes
import Verif.PropsOpaque

/-
C85: rendering as it is done on bytes.
-/

namespace Verif.Spec

/-- A byte as a character of the model, and back. -/
def byteChar (b : UInt8) : Char := Char.ofNat b.toNat
def byteChars (s : Bytes) : Str := s.map byteChar
def charBytes (s : Str) : Bytes := s.map Bytes.byte

/-- A text as Go has it: one character of the model for every byte of its UTF-8 encoding. -/
def inBytes (s : Str) : Str := byteChars (utf8 s)

end Verif.Spec

namespace Verif
open Spec

/-- cypher_renderer.go:42-51 `Render` with a new renderer, for constructs whose texts consist of bytes (each a character of the model): the renderer
appends and compares nothing but whole texts, and `strings.TrimSpace` works on the bytes. -/
def Bytes.render (u : Unicode) (ts : List Tree) : Bytes := Bytes.trimSpace u (charBytes (renderOut RState.new ts))

theorem byte_byteChar (b : UInt8) : Bytes.byte (byteChar b) = b := by
  unfold Bytes.byte byteChar
  have h : b.toNat < 256 := b.toNat_lt
  have hv : b.toNat.isValidChar := .inl (by omega)
  simp [Char.ofNat, hv, Char.toNat, Char.ofNatAux]

theorem charBytes_byteChars (s : Bytes) : charBytes (byteChars s) = s := by
  induction s with
  | nil => rfl
  | cons b s ih =>
    simp only [charBytes, byteChars, List.map_cons, byte_byteChar] at ih ⊢
    rw [ih]

theorem inBytes_rewrites : Rewrites inBytes where
  append a b := by simp [inBytes, byteChars, utf8]
  open_ := by decide
  close := by decide
  comma := by decide
  as := by decide

/-- C85: rendered as bytes, a statement is the UTF-8 encoding of its text; so everything that is said about texts elsewhere holds for the bytes. -/
theorem C85_render (u : Unicode) (ts : List Tree) : Bytes.render u (Tree.textsL inBytes ts) = utf8 (trimSpace u (renderOut RState.new ts)) := by
  unfold Bytes.render
  rw [C70_texts inBytes inBytes_rewrites, inBytes, charBytes_byteChars]
  exact Bytes.trimSpace_encode u _

/-- C85: whatever bytes are put into a place of a statement - also bytes that are not UTF-8 - come out at exactly the places where the mark of the place comes
out.  `c`: the mark, one character (byte) that is used for nothing else. -/
theorem C85_filled (c : Char) (hc : c ∉ c!"(), AS") (x : Bytes) (ts : List Tree) :
    charBytes (renderOut RState.new (Tree.textsL (fill c (byteChars x)) ts)) =
      (renderOut RState.new ts).flatMap fun d => if d = c then x else [Bytes.byte d] := by
  rw [C70_filled c hc]
  simp only [fill, charBytes, List.map_flatMap]
  congr 1
  funext d
  split
  · exact charBytes_byteChars x
  · rfl

namespace SampleBytes

/-- `RETURN 'é' AS a `. -/
def statement : List Tree := [.node ⟨1, .plain c!"RETURN " c!" " false⟩ [.node ⟨2, .aliased 3 c!"a"⟩ [.node ⟨3, .plain c!"'é'" [] false⟩ []]]]

example : Bytes.render .ascii (Tree.textsL inBytes statement) =
    [82, 69, 84, 85, 82, 78, 32, 39, 0xC3, 0xA9, 39, 32, 65, 83, 32, 97] := by decide +kernel

-- a byte that is no UTF-8, put for `é`
example : charBytes (renderOut RState.new (Tree.textsL (fill 'é' (byteChars [0xFF])) statement)) =
    [82, 69, 84, 85, 82, 78, 32, 39, 0xFF, 39, 32, 65, 83, 32, 97, 32] := by decide +kernel

end SampleBytes

end Verif
