import Verif.Lexical

/-
Numbers with a fraction: what number_literal.go prints for a Go `float64`.  The printing itself is `String` of `big.Float`, from the
standard library of Go (`math/big`, files decimal.go and ftoa.go), which is not in /repo.
-/

namespace Verif

/-- A Go `float64`: `fin neg m e` is the number `± m * 2^e`. -/
inductive GoFloat where
  | nan
  | inf (neg : Bool)
  | fin (neg : Bool) (m : Nat) (e : Int)
  deriving DecidableEq, Repr

/-- `math/big` `decimal.init`: `m * 2^e` in decimal, as a pair of `D` and `s` standing for `D / 10^s`. -/
def exactDecimal (m : Nat) (e : Int) : Nat × Nat := if 0 ≤ e then (m * 2 ^ e.toNat, 0) else (m * 5 ^ (-e).toNat, (-e).toNat)

/-- `math/big` `decimal.round(10)`: ten significant digits, nearest, ties to even.  The scale can become negative. -/
def roundTen (D s : Nat) : Nat × Int :=
  let k := (natDigits D).length
  if k ≤ 10 then (D, s) else (roundDiv D (k - 10), (s : Int) - ((k - 10 : Nat) : Int))

/-- `math/big` `fmtE`, with all digits: the number `0.mant * 10^exp`. -/
def fmtE (mant : Str) (exp : Int) : Str :=
  match mant with
  | [] => []
  | d :: ds =>
    let x := exp - 1
    d :: (if ds = [] then [] else '.' :: ds) ++ ('e' :: (if x < 0 then '-' else '+') ::
      (if x.natAbs < 10 then '0' :: natDigits x.natAbs else natDigits x.natAbs))

/-- `math/big` `decimal.at`. -/
def digitAt (mant : Str) (i : Int) : Char := if 0 ≤ i then mant.getD i.toNat '0' else '0'

/-- `math/big` `fmtF` with `prec` digits after the point. -/
def fmtF (mant : Str) (exp : Int) (prec : Nat) : Str :=
  (if 0 < exp then mant.take exp.toNat ++ List.replicate (exp.toNat - mant.length) '0' else ['0']) ++
    (if 0 < prec then '.' :: (List.range prec).map (fun i : Nat => digitAt mant (exp + i)) else [])

/-- `math/big` `Float.Append` for the format `g` with ten digits, after rounding. -/
def fmtG (mant : Str) (exp : Int) : Str :=
  let eprec : Int := if mant.length < 10 ∧ exp ≤ mant.length then mant.length else 10
  if exp - 1 < -4 ∨ eprec ≤ exp - 1 then fmtE mant exp
  else fmtF mant exp ((if exp < 10 then (mant.length : Int) else 10) - exp).toNat

/-- The text of `D / 10^s`. -/
def decimalText (D s : Nat) : Str :=
  if D = 0 then fmtG [] 0
  else
    let r := roundTen D s
    fmtG (trimZeros (natDigits r.1)) ((natDigits r.1).length - r.2)

/-- number_literal.go:25-33 `NumberLiteralCreate2`, 65-67 `AsString`: `big.NewFloat` panics if there is no number. -/
def floatText : GoFloat → Option Str
  | .nan => none
  | .inf neg => some (if neg then c!"-Inf" else c!"+Inf")
  | .fin neg m e => some ((if neg then ['-'] else []) ++ decimalText (exactDecimal m e).1 (exactDecimal m e).2)

/-- `f < 0.0` -/
def GoFloat.negative : GoFloat → Bool
  | .nan => false
  | .inf neg => neg
  | .fin neg m _ => neg && m != 0

/-- `f > 1.0` -/
def GoFloat.aboveOne : GoFloat → Bool
  | .nan => false
  | .inf neg => !neg
  | .fin neg m e => !neg && (if 0 ≤ e then m * 2 ^ e.toNat > 1 else m > 2 ^ (-e).toNat)

end Verif
