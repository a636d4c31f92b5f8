import Verif.PatMeansSpec
import Verif.CondSpec
import Verif.ArithSpec
import Verif.PropsExprs
import Verif.PropsFloats
import Verif.Clauses

/-
What the expressions built with the DSL are meant to be.

`Denotes u I tight v d σ`: the value `v` was built by calls that mean `d`.  There is one rule for each call; a rule says nothing about
texts.  `σ` records which kind of call was the last one, because some results cannot be used as operands of some calls: the library
does not add the parentheses that would be necessary (see `C52_condition_operand` etc. in PropsRead.lean).
-/

namespace Verif.Spec

/-- What the calculating methods mean; `Concat` is the sum. -/
def arithMeaning : ArithMethod → BinOp
  | .concat => .add
  | .add => .add
  | .subtract => .sub
  | .multiply => .mul
  | .divide => .div
  | .remainder => .mod
  | .pow => .pow

/-- What the comparing methods mean. -/
def compareMeaning : CompareMethod → BinOp
  | .isEqualTo => .eq
  | .isNotEqualTo => .ne
  | .lt => .lt
  | .lte => .le
  | .gt => .gt
  | .gte => .ge
  | .matches => .regex
  | .startWiths => .startsWith
  | .contains => .contains
  | .endsWith => .endsWith
  | .in_ => .in_

/-- The comparisons whose binding strength depends on the version of Cypher. -/
def textual : CompareMethod → Bool
  | .matches | .startWiths | .contains | .endsWith | .in_ => true
  | _ => false

/-- The atomic conditions in a combination. -/
def Calls.atoms : Calls → List Val
  | .atom v => [v]
  | .empty => []
  | .bin _ _ p q => p.atoms ++ q.atoms
  | .pattern _ _ p v => p.atoms ++ [v]
  | .not _ _ p => p.atoms

/-- The logic of a meaning, with the given values of the atomic conditions. -/
def Meaning.logic (I : Meaning) (val : Val → I.D) : Logic :=
  ⟨I.D, val, I.not, I.bin .and, I.bin .or, I.bin .xor, I.assoc .and (by simp), I.assoc .or (by simp), I.assoc .xor (by simp)⟩

/-- A value with its meaning. -/
structure Meant (I : Meaning) where
  v : Val
  d : I.D
  σ : CallKind

/-- A branch of CASE with its meaning. -/
structure MeantBranch (I : Meaning) where
  branch : Branch
  w : I.D
  σw : CallKind
  t : I.D
  σt : CallKind

/-- An item of a map projection; if it has a value, with the meaning of that. -/
structure MeantItem (I : Meaning) where
  item : Item
  d : I.D
  σ : CallKind

/-- The value of an item. -/
def Item.value : Item → Option Val
  | .aliased _ d _ => some d
  | .pair _ v => some v
  | _ => none

/-- The names in an item can be used. -/
def Item.NameOk (u : Unicode) : Item → Prop
  | .prop s => s = c!"*" ∨ Named u s
  | .all => True
  | .var _ n => VarName u n
  | .property _ _ _ n => n = c!"*" ∨ Named u n
  | .aliased _ _ a => Named u a
  | .pair key _ => Named u key
  | .named _ n => VarName u n

/-- What an item means. -/
def MeantItem.meaning {I : Meaning} (x : MeantItem I) : ProjItem I.D :=
  match x.item with
  | .prop s => if s = c!"*" then .all else .prop s
  | .all => .all
  | .var _ n => .var n
  | .property _ _ _ n => if n = c!"*" then .all else .prop n
  | .aliased _ _ a => .entry a x.d
  | .pair key _ => .entry key x.d
  | .named _ n => .var n

variable (u : Unicode) (I : Meaning) (tight : Bool)

inductive Denotes : Val → I.D → CallKind → Prop
  -- literals, names
  | str (k : Key) (s : Str) : Denotes (stringLiteral k s) (I.str s) .atom
  | int (k : Key) (i : Int) : TenDigits (i : ℚ) → Denotes (intLiteral k i) (I.num i) (if i < 0 then .negative else .atom)
  | float {k : Key} {neg : Bool} {m : Nat} {e : Int} {v : Val} : floatLiteral k (.fin neg m e) = .ok v → TenDigits (floatValue neg m e) →
      Denotes v (I.num (floatValue neg m e)) (if neg then .negative else .atom)
  | bool (k : Key) (b : Bool) : Denotes (boolLiteral k b) (I.bool b) .atom
  | constant (b : Bool) : Denotes (constantCondition b) (I.bool b) .atom
  | null : Denotes nilLiteral I.null .atom
  | param (k : Key) (dollars : Nat) {n : Str} : n ≠ [] → readName u n = some (n, []) →
      Denotes (parameter k (List.replicate dollars '$' ++ n)) (I.param n) .atom
  | var (k : Key) {n : Str} : VarName u n → Denotes (symbolicName u k n) (I.name n) .atom
  | property (k kl : Key) {v : Val} {d : I.D} {n : Str} : Denotes v d .atom → Named u n → n ≠ c!"*" →
      Denotes (propertyCreate1 u k kl v n) (I.prop d n) .atom
  | property' (k kl : Key) {v : Val} {d : I.D} {n : Str} : Denotes v d .atom → Named u n → n ≠ c!"*" →
      Denotes (propertyCreate2 u k kl (some v) n) (I.prop d n) .atom
  -- nodes, relationships and paths that have a name
  | nodeProperty {n : NodeV} (k kl : Key) {kn : Key} {s p : Str} : n.err = none → n.name = some (kn, s) → VarName u s → Named u p → p ≠ c!"*" →
      Denotes (n.property u k kl p) (I.prop (I.name s) p) .atom
  | hasLabels {n : NodeV} (k : Key) (ks : Nat → Key) {kn : Key} {s : Str} {labels : List Str} : n.name = some (kn, s) → VarName u s → labels ≠ [] →
      [] ∉ labels → Denotes (n.hasLabels u k ks labels) (I.labels (I.name s) labels) .label
  | nodeCall {f : FnNode} {k ka kn : Key} {n : NodeV} {s : Str} {v : Val} : n.err = none → n.notNil = true → n.name = some (kn, s) → VarName u s →
      fnNode u f k ka n = .ok v → Denotes v (I.call (fnNodeName f).1 (fnNodeName f).2 [I.name s]) .atom
  | relCall {f : FnRel} {k ka kn : Key} {r : RelV} {s : Str} {v : Val} : r.err = none → r.notNil = true → r.details.name = some (kn, s) → VarName u s →
      fnRel u f k ka r = .ok v → Denotes v (I.call (fnRelName f) false [I.name s]) .atom
  | pathCall {nodes : Bool} {k ka kn : Key} {p : Val} {s : Str} {v : Val} : Good p → VarName u s → fnPath u nodes k ka (some (kn, s)) p = .ok v →
      Denotes v (I.call (if nodes then c!"nodes" else c!"relationships") false [I.name s]) .atom
  | collectNode {distinct : Bool} {k ka kn : Key} {n : NodeV} {s : Str} {v : Val} : n.err = none → n.notNil = true → n.name = some (kn, s) → VarName u s →
      collectNode u distinct k ka n = .ok v → Denotes v (I.call c!"collect" distinct [I.name s]) .atom
  -- methods act on the expression in the container
  | receiver {v w : Val} {d : I.D} {σ : CallKind} : Denotes v d σ → v.copy = some (true, v.visit) → v.recv = some w → Denotes w d σ
  -- calculations, comparisons
  | arith {m : ArithMethod} (k : Key) {l r : Val} {a b : I.D} {σ τ : CallKind} : m ≠ .pow → Denotes l a σ → Denotes r b τ →
      σ.isCondition = false → τ.isCondition = false → Denotes (arith m k (some l) (some r)) (I.bin (arithMeaning m) a b) .atom
  | pow (k : Key) {l r : Val} {a b : I.D} {σ τ : CallKind} : Denotes l a σ → Denotes r b τ → σ.isCondition = false →
      τ.isCondition = false → τ ≠ .power → Denotes (Verif.arith .pow k (some l) (some r)) (I.bin .pow a b) .power
  | compare {m : CompareMethod} (k kl kr : Key) {l r : Val} {a b : I.D} {σ τ : CallKind} : Denotes l a σ → Denotes r b τ →
      σ.operand = true → τ.operand = true →
      (textual m = true → tight = true → (l.isCond = true ∨ σ = .atom) ∧ (r.isCond = true ∨ τ = .atom)) →
      Denotes (compare m k kl kr (some l) (some r)) (I.bin (compareMeaning m) a b) (if m = .in_ then .membership else .condition)
  | isNull (k kn : Key) {v : Val} {d : I.D} {σ : CallKind} : Denotes v d σ → σ.operand = true → (tight = true → v.isCond = true ∨ σ = .atom) →
      Denotes (isNull k kn (some v)) (I.isNull d) .condition
  | isNotNull (k kn : Key) {v : Val} {d : I.D} {σ : CallKind} : Denotes v d σ → σ.operand = true → (tight = true → v.isCond = true ∨ σ = .atom) →
      Denotes (isNotNull k kn (some v)) (I.isNotNull d) .condition
  -- combinations of conditions
  | combination {p : Calls} {val : Val → I.D} {kind : Val → CallKind} {d : I.D} {σ : CallKind} : p.Usable → p.Faithful →
      (∀ v ∈ p.atoms, Denotes v (val v) (kind v)) → p.meaning (I.logic val) = some d →
      σ.isCondition = true → (σ.first = true → ∀ v ∈ p.atoms, (kind v).first = true) → (σ.operand = true → ∀ v ∈ p.atoms, (kind v).operand = true) →
      Denotes p.build.toVal d σ
  -- functions
  | call {f : Fn1} {k ka : Key} {x v : Val} {d : I.D} {σ : CallKind} : Denotes x d σ → f ≠ .collectDistinct → fn1 f k ka (some x) = .ok v →
      Denotes v (I.call (fn1Name f).1 (fn1Name f).2 [d]) .atom
  | countAll {k ka : Key} {v : Val} : fn1 .countByExpression k ka (some asterisk) = .ok v → Denotes v (I.call c!"count" false [I.star]) .atom
  | coalesce {k ka : Key} {xs : List (Meant I)} {v : Val} : (∀ x ∈ xs, Denotes x.v x.d x.σ) → xs ≠ [] →
      coalesce k ka (xs.map fun x => some x.v) = .ok v → Denotes v (I.call c!"coalesce" false (xs.map (·.d))) .atom
  | distance {k ka : Key} {x y v : Val} {a b : I.D} {σ τ : CallKind} : Denotes x a σ → Denotes y b τ → distance k ka (some x) (some y) = .ok v →
      Denotes v (I.call c!"distance" false [a, b]) .atom
  | range {k ka : Key} {x y v : Val} {a b : I.D} {σ τ : CallKind} : Denotes x a σ → Denotes y b τ → rangeWithStep k ka (some x) (some y) none = .ok v →
      Denotes v (I.call c!"range" false [a, b]) .atom
  | rangeWithStep {k ka : Key} {x y z v : Val} {a b c : I.D} {σ τ υ : CallKind} : Denotes x a σ → Denotes y b τ → Denotes z c υ →
      rangeWithStep k ka (some x) (some y) (some z) = .ok v → Denotes v (I.call c!"range" false [a, b, c]) .atom
  | percentile {disc distinct : Bool} {k ka kl : Key} {x v : Val} {neg : Bool} {m : Nat} {e : Int} {d : I.D} {σ : CallKind} : Denotes x d σ →
      TenDigits (floatValue neg m e) → percentile disc distinct k ka kl (some x) (.fin neg m e) = .ok v → v.err = none →
      Denotes v (I.call (if disc then c!"percentileDisc" else c!"percentileCont") distinct [d, I.num (floatValue neg m e)]) .atom
  | predicateExists {k kf ka : Key} {x v : Val} {d : I.D} {σ : CallKind} : Denotes x d σ → predicateExists k kf ka x = .ok v →
      Denotes v (I.call c!"exists" false [d]) .atom
  -- lists, maps
  | list (k kl : Key) {xs : List (Meant I)} : (∀ x ∈ xs, Denotes x.v x.d x.σ) → (∀ x, xs.head? = some x → x.σ.first = true) →
      Denotes (listExpression k kl (xs.map (·.v))) (I.list (xs.map (·.d))) .atom
  | listLiteral (k : Key) {xs : List (Meant I)} : (∀ x ∈ xs, Denotes x.v x.d x.σ) → (∀ x, xs.head? = some x → x.σ.first = true) →
      Denotes (listLiteral k (xs.map (·.v))) (I.list (xs.map (·.d))) .atom
  | map {k : Key} {ks : Nat → Key} {es : List (MeantEntry I)} {v : Val} : (∀ x ∈ es, Named u x.key) →
      (∀ x ∈ es, ∀ w, x.value = .expr w → Denotes w x.d x.σ) → (∀ x ∈ es, (∀ w, x.value ≠ .expr w) → LiteralMeans I x.value x.d) →
      newMapExpression u k ks (entryArgs (es.map fun x => ⟨x.key, x.value⟩)) = .ok v → v.err = none →
      Denotes v (I.map (es.map fun x => (x.key, x.d))) .atom
  | projection {kn : Key} {n : Str} {g : Group} {gs : List Group} {xs : List (MeantItem I)} {p : Projection} : VarName u n → (∀ g' ∈ g :: gs, g'.Ok) →
      ((g :: gs).flatMap fun g' => g'.items) = xs.map (fun x => x.item) → (∀ x ∈ xs, x.item.NameOk u) → (∀ x ∈ xs, ∀ v, x.item.value = some v → Denotes v x.d x.σ) →
      projectRun u (symbolicName u kn n) g gs = .ok p → Denotes p.val (I.projection n (xs.map MeantItem.meaning)) .atom
  | valueAt (k kd : Key) {x y : Val} {a b : I.D} {τ : CallKind} : Denotes x a .atom → Denotes y b τ →
      Denotes (valueAt k kd (some x) (some y)) (I.index a b) .atom
  | subList (k kd : Key) {x y z : Val} {a b c : I.D} {τ υ : CallKind} : Denotes x a .atom → Denotes y b τ → Denotes z c υ →
      Denotes (subList k kd (some x) (some y) (some z)) (I.slice a (some b) (some c)) .atom
  | subListFrom (k kd : Key) {x y : Val} {a b : I.D} {τ : CallKind} : Denotes x a .atom → Denotes y b τ →
      Denotes (subListFrom k kd (some x) (some y)) (I.slice a (some b) none) .atom
  | subListUntil (k kd : Key) {x y : Val} {a b : I.D} {τ : CallKind} : Denotes x a .atom → Denotes y b τ →
      Denotes (subListUntil k kd (some x) (some y)) (I.slice a none (some b)) .atom
  -- CASE
  | case {k : Key} {subject : Option (Meant I)} {bs : List (MeantBranch I)} {ds : List (Key × Meant I)} {c : CaseV} :
      (∀ s, subject = some s → Denotes s.v s.d s.σ) → (∀ b ∈ bs, Denotes b.branch.w b.w b.σw) → (∀ b ∈ bs, Denotes b.branch.t b.t b.σt) →
      bs ≠ [] → (∀ x ∈ ds, Denotes x.2.v x.2.d x.2.σ) →
      runCase (caseStart k (subject.map (·.v))) (bs.map (·.branch.call) ++ ds.map fun x => .els x.1 x.2.v) = .ok c →
      Denotes c.toVal (I.case (subject.map (·.d)) (bs.map fun b => (b.w, b.t)) (ds.getLast?.map (·.2.d))) .atom
  -- variables bound to the elements of a list
  | quantified {guid : Str} {q : Quantifier} {k kf ka kp kw kx : Key} {n : Str} {l c v : Val} {a b : I.D} {σ τ : CallKind} : VarName u n → Denotes l a σ →
      Denotes c b τ → quantified guid q k kf ka kp kw (some (symbolicName u kx n)) (some l) (some c) = .ok v →
      Denotes v (I.quantified (quantifierName q) n a b) .atom
  | comprehension {k kw kl kc kx : Key} {n : Str} {l : Val} {a : I.D} {σ : CallKind} {c : Option (Meant I)} {ds : Option (List (Meant I))} :
      VarName u n → Denotes l a σ → (∀ x, c = some x → Denotes x.v x.d x.σ) → (∀ xs, ds = some xs → ∀ x ∈ xs, Denotes x.v x.d x.σ) →
      (∀ xs, ds = some xs → xs.length ≠ 1 → ∀ x, xs.head? = some x → x.σ.first = true) →
      Denotes (listWith k kw kl kc (symbolicName u kx n) l (c.map (·.v)) (ds.map fun xs => xs.map (·.v)))
        (I.comprehension n a (c.map (·.d)) (ds.map fun xs => if xs.length = 1 then (xs.head?.map (·.d)).getD I.null else I.list (xs.map (·.d)))) .atom
  -- patterns; `R` says what the expressions in them mean
  | pattern {R : Val → I.D → CallKind → Prop} (k : Key) {w : Val} {p : PathPat I.D} : (∀ v d σ, R v d σ → Denotes v d σ) → PatternAs u R w p →
      Denotes (patternCondition k w) (I.pattern p) .membership
  | excludedPattern {R : Val → I.D → CallKind → Prop} (k : Key) {w : Val} {p : PathPat I.D} : (∀ v d σ, R v d σ → Denotes v d σ) → PatternAs u R w p →
      Denotes (excludedPattern k w) (I.not (I.pattern p)) .condition
  | patternCall {R : Val → I.D → CallKind → Prop} (k ka : Key) {f : FnDef} {n : Str} {w : Val} {p : PathPat I.D} : (f, n) ∈ [(fnSize, c!"size"), (fnShortestPath, c!"shortestPath")] →
      (∀ v d σ, R v d σ → Denotes v d σ) → PatternAs u R w p → Denotes (functionInvocationPattern k ka f (some w)) (I.call n false [I.pattern p]) .atom
  | existsPattern {R : Val → I.D → CallKind → Prop} (k kf ka : Key) {w : Val} {p : PathPat I.D} : (∀ v d σ, R v d σ → Denotes v d σ) → PatternAs u R w p →
      Denotes (predicateExistsByPattern k kf ka w) (I.call c!"exists" false [I.pattern p]) .atom
  | patternComprehension {R : Val → I.D → CallKind → Prop} {k kw kl kc : Key} {w v : Val} {p : PathPat I.D} {c : Option Cond} {m : Option (Meant I)}
      {xs : List (Meant I)} : (∀ v d σ, R v d σ → Denotes v d σ) → PatternAs u R w p → (builtCondition c).map Cond.toVal = m.map (·.v) →
      (∀ x, m = some x → Denotes x.v x.d x.σ) → (∀ x ∈ xs, Denotes x.v x.d x.σ) → (xs.length ≠ 1 → ∀ x, xs.head? = some x → x.σ.first = true) →
      Verif.patternComprehension k kw kl kc w c (xs.map (·.v)) = .ok v →
      Denotes v (I.patternList p (m.map (·.d)) (if xs.length = 1 then (xs.head?.map (·.d)).getD I.null else I.list (xs.map (·.d)))) .atom
  | existsMatch {R : Val → I.D → CallKind → Prop} (k km kw : Key) {ws : List Val} {ps : List (Element I.D)} {c : Option Cond} {m : Option (Meant I)} :
      (∀ v d σ, R v d σ → Denotes v d σ) → ws ≠ [] → List.Forall₂ (ElementAs u R) ws ps → (builtCondition c).map Cond.toVal = m.map (·.v) →
      (∀ x, m = some x → Denotes x.v x.d x.σ) → Denotes (existentialSubquery k (matchCreate km kw false ws c).val) (I.existsMatch ps (m.map (·.d))) .atom

end Verif.Spec
