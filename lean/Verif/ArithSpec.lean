import Verif.Methods
import Verif.LayoutSpec

/-
Specification of arithmetic: how Cypher reads a text made of arithmetic operators, parentheses and operands.
-/

namespace Verif.Spec

/-- The symbols of the calculating methods in Cypher. -/
def arithSymbol : ArithMethod → Char
  | .concat => '+'
  | .add => '+'
  | .subtract => '-'
  | .multiply => '*'
  | .divide => '/'
  | .remainder => '%'
  | .pow => '^'

/-- The symbols of the comparing methods in Cypher. -/
def compareSymbol : CompareMethod → Str
  | .isEqualTo => c!"="
  | .isNotEqualTo => c!"<>"
  | .lt => c!"<"
  | .lte => c!"<="
  | .gt => c!">"
  | .gte => c!">="
  | .matches => c!"=~"
  | .startWiths => c!"STARTS WITH"
  | .contains => c!"CONTAINS"
  | .endsWith => c!"ENDS WITH"
  | .in_ => c!"IN"

/-- The words of the text of an arithmetic expression; an operand counts as one word. -/
inductive ATok where
  | lp | rp
  | sym (c : Char)
  | operand (v : Val)

/-- The text of a word: all symbols but `^` have spaces around them. -/
def ATok.part : ATok → Part
  | .lp => .lit c!"("
  | .rp => .lit c!")"
  | .sym c => if c = '^' then .lit [c] else .lit [' ', c, ' ']
  | .operand v => .hole v.visit

/-- An arithmetic expression as it is meant: operands and operator symbols. -/
inductive ATree where
  | operand (v : Val)
  | bin (c : Char) (l r : ATree)

/-! Cypher's grammar: `+` and `-` bind weakest, then `*`, `/` and `%`, then `^`; all associate to the left. -/
mutual
inductive ReadsAtom : List ATok → ATree → Prop
  | operand (v : Val) : ReadsAtom [.operand v] (.operand v)
  | paren {ts t} : ReadsSum ts t → ReadsAtom (.lp :: ts ++ [.rp]) t
inductive ReadsPower : List ATok → ATree → Prop
  | one {ts t} : ReadsAtom ts t → ReadsPower ts t
  | more {ts us t u} : ReadsPower ts t → ReadsAtom us u → ReadsPower (ts ++ .sym '^' :: us) (.bin '^' t u)
inductive ReadsProduct : List ATok → ATree → Prop
  | one {ts t} : ReadsPower ts t → ReadsProduct ts t
  | more {ts us t u} (c : Char) (hc : c = '*' ∨ c = '/' ∨ c = '%') :
      ReadsProduct ts t → ReadsPower us u → ReadsProduct (ts ++ .sym c :: us) (.bin c t u)
inductive ReadsSum : List ATok → ATree → Prop
  | one {ts t} : ReadsProduct ts t → ReadsSum ts t
  | more {ts us t u} (c : Char) (hc : c = '+' ∨ c = '-') :
      ReadsSum ts t → ReadsProduct us u → ReadsSum (ts ++ .sym c :: us) (.bin c t u)
end

/-- Calls that build an arithmetic expression: an operand, or one of the calculating methods. -/
inductive ACalls where
  | operand (v : Val)
  | bin (k : Key) (m : ArithMethod) (l r : ACalls)

namespace ACalls

/-- The expression the calls build. -/
def build : ACalls → Val
  | .operand v => v
  | .bin k m l r => arith m k (some l.build) (some r.build)

/-- The expression that is meant. -/
def meant : ACalls → ATree
  | .operand v => .operand v
  | .bin _ m l r => .bin (arithSymbol m) l.meant r.meant

/-- The operands have no errors. -/
def Usable : ACalls → Prop
  | .operand v => v.err = none ∧ v.notNil = true
  | .bin _ _ l r => l.Usable ∧ r.Usable

/-- Keys of the objects created by the calls, and of the operators. -/
def keys : ACalls → List Key
  | .operand _ => []
  | .bin k m l r => k :: m.op.key :: (l.keys ++ r.keys)

/-- Is the last call made `Pow`? -/
def isPow : ACalls → Bool
  | .bin _ .pow _ _ => true
  | _ => false

/-- No power is the exponent of a power. -/
def PowersLeft : ACalls → Prop
  | .operand _ => True
  | .bin _ m l r => l.PowersLeft ∧ r.PowersLeft ∧ (m = .pow → r.isPow = false)

end ACalls

end Verif.Spec
