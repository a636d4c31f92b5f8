import Verif.LexSpec
import Mathlib.Algebra.Order.Field.Rat
import Mathlib.Algebra.Order.AbsoluteValue.Basic

/-
How a number of a Cypher query is read: digits, possibly a point and more digits, possibly an exponent.
-/

namespace Verif.Spec

/-- The exponent of a number, after the letter `e`. -/
def readExponent : Str → Option Int
  | '+' :: s => (readNat s).map fun n : Nat => (n : Int)
  | '-' :: s => (readNat s).map fun n : Nat => -(n : Int)
  | s => (readNat s).map fun n : Nat => (n : Int)

/-- Digits, or digits, a point and digits. -/
def readMantissa (s : Str) : Option ℚ :=
  match s.span (· ≠ '.') with
  | (a, []) => (readNat a).map fun n : Nat => (n : ℚ)
  | (a, _ :: b) => (readNat a).bind fun n : Nat => (readNat b).map fun f : Nat => (n : ℚ) + f / 10 ^ b.length

/-- A number without sign. -/
def readUnsigned (s : Str) : Option ℚ :=
  match s.span (· ≠ 'e') with
  | (a, []) => readMantissa a
  | (a, _ :: x) => (readMantissa a).bind fun n => (readExponent x).map fun z => n * 10 ^ z

/-- A number; the whole text must be a number. -/
def readNumber : Str → Option ℚ
  | '-' :: s => (readUnsigned s).map fun q => -q
  | s => readUnsigned s

/-- A number with at most ten significant digits. -/
def TenDigits (q : ℚ) : Prop := ∃ d z : ℤ, |d| < 10 ^ 10 ∧ q = d * 10 ^ z

end Verif.Spec
