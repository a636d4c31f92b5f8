import Verif.Cond

/-
The methods every expression has (expression_container.go).  They act on the expression stored in the container: `none` is an
empty container.
-/

namespace Verif

/-- The methods of expression_container.go that compare. -/
inductive CompareMethod where
  | isEqualTo | isNotEqualTo | lt | lte | gt | gte | matches | startWiths | contains | endsWith | in_
  deriving DecidableEq, Repr

/-- expression_container.go:22-50, 60-83, 130-133: the operator each method uses. -/
def CompareMethod.op : CompareMethod → Op
  | .isEqualTo => .equality          -- 22-25
  | .isNotEqualTo => .inequality     -- 27-30
  | .lt => .lessThan                 -- 32-35
  | .lte => .lessThanOrEqual         -- 37-40
  | .gt => .greaterThan              -- 42-45
  | .gte => .greaterThanOrEqual      -- 47-50
  | .matches => .matches             -- 60-63
  | .startWiths => .startsWith       -- 70-73
  | .contains => .contains           -- 75-78
  | .endsWith => .endsWith           -- 80-83
  | .in_ => .in_                     -- 130-133

/-- expression_container.go:22-83, 130-133: the body of these methods. -/
def compare (m : CompareMethod) (k kl kr : Key) (e : Option Val) (rhs : Option Val) : Val := comparisonCreate k kl kr e m.op rhs

/-- The methods of expression_container.go that calculate. -/
inductive ArithMethod where
  | concat | add | subtract | multiply | divide | remainder | pow
  deriving DecidableEq, Repr

/-- expression_container.go:85-118 with operations.go:3-29. -/
def ArithMethod.op : ArithMethod → Op
  | .concat => .concat               -- 85-88, operations.go:3-5
  | .add => .addition                -- 90-93, operations.go:7-9
  | .subtract => .subtraction        -- 95-98, operations.go:11-13
  | .multiply => .multiplication     -- 100-103, operations.go:15-17
  | .divide => .division             -- 105-108, operations.go:19-21
  | .remainder => .modulo            -- 110-113, operations.go:23-25
  | .pow => .exponentiation          -- 115-118, operations.go:27-29

/-- expression_container.go:85-118: the body of these methods. -/
def arith (m : ArithMethod) (k : Key) (e : Option Val) (rhs : Option Val) : Val := operationCreate k e m.op rhs

/-- expression_container.go:120-123 `IsNull`. -/
def isNull (k kn : Key) (e : Option Val) : Val := comparisonCreate1 k kn .isNull e

/-- expression_container.go:125-128 `IsNotNull`. -/
def isNotNull (k kn : Key) (e : Option Val) : Val := comparisonCreate1 k kn .isNotNull e

end Verif
