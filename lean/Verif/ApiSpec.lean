import Verif.Builder
import Verif.BracketSpec

/-
What a user of the library can make: everything that the modelled constructors and methods return when they are given names, numbers,
strings, and things made in this way.  Values with errors are among them, except where the code prints such a value without looking at
its error: what it prints then is not modelled.

Names that the code prints without escaping them are asked to be balanced here, that is, to contain no unmatched bracket or quotation
mark: names of nodes (printed unescaped from the second time on), parameters, procedures, and the names that UNWIND gives.
-/

namespace Verif.Spec

/-- The things that exist beside each other in a program that uses the library. -/
inductive Thing where
  | val (v : Val)
  | cond (c : Cond)
  | node (n : NodeV)
  | rel (r : RelV)
  | chain (c : ChainV)
  | case (c : CaseV)
  | projection (p : Projection)
  | sortItem (s : SortItemV)
  | builder (b : B)
  | stmt (s : Stmt)

/-- The things inside an argument of `MapOf`, `LiteralOf`, ... -/
def objThings : Obj → List Thing
  | .literals xs => xs.map .val
  | .expr v => [.val v]
  | _ => []

/-- The things inside an argument of `Project`. -/
def contentThings : Content → List Thing
  | .expr v => [.val v]
  | .named (some v) => [.val v]
  | _ => []

/-- The things inside the arguments of the three variants of a method. -/
def argThings : Args → List Thing
  | .exprs xs => xs.map .val
  | .strings _ => []
  | .nameds xs => xs.flatMap fun n => [.val n.sym, .val n.req]

/-- The things given to a call on a builder. -/
def callThings : Call → List Thing
  | .match_ _ _ _ ps => ps.map .val
  | .where_ c => [.cond c]
  | .and _ c => [.cond c]
  | .or _ c => [.cond c]
  | .with_ _ _ a => argThings a
  | .returning _ _ _ a => argThings a
  | .orderItems xs => xs.map .sortItem
  | .orderBy _ x => [.val x]
  | .andBy _ x => [.val x]
  | .asc _ => []
  | .desc => []
  | .skip _ _ _ => []
  | .limit _ _ _ => []
  | .delete _ _ a => argThings a
  | .create _ ps => ps.map .val
  | .merge _ ps => ps.map .val
  | .set _ xs => xs.map .val
  | .setNamed _ n x => [.val n.sym, .val n.req, .val x]
  | .setLabels _ _ _ _ _ n _ => [.node n]
  | .removeLabels _ _ _ _ _ n _ => [.node n]
  | .remove _ xs => xs.map .val
  | .on _ => []
  | .actionSet _ _ _ _ xs => xs.map .val
  | .unwind x => [.val x]
  | .as _ _ _ => []
  | .callStmt _ s => [.stmt s]
  | .callProc _ _ _ _ _ _ => []
  | .args xs => xs.map .val
  | .yield _ xs => xs.map .val

/-- The texts given to a call on a builder that are printed as they are; `guid` is the random identifier of the renderer. -/
def callNames : Call → List Str
  | .as _ _ name => [name]
  | .callProc _ _ _ _ _ name => name
  | .setLabels _ guid _ _ _ _ _ => [guid]
  | .removeLabels _ guid _ _ _ _ _ => [guid]
  | _ => []

/-- The values given to a call that are printed without a check of their errors: those of RETURN after an updating clause
(default_statement_with_update.go:129-132).  They are asked to be without errors. -/
def unchecked (u : Unicode) : B → Call → List Val
  | .upd _, .returning _ _ _ a => a.vals u
  | _, _ => []

/-- A value that may be nil. -/
def optThings (x : Option Val) : List Thing := (x.map Thing.val).toList

/-- What can be made with the library. -/
inductive Api (u : Unicode) : Thing → Prop
  -- names, literals, parameters
  | symbolicName (k : Key) (name : Str) : Api u (.val (symbolicName u k name))
  | propertyLookup (k : Key) (name : Str) : Api u (.val (propertyLookup u k name))
  | intLiteral (k : Key) (i : Int) : Api u (.val (intLiteral k i))
  | stringLiteral (k : Key) (s : Str) : Api u (.val (stringLiteral k s))
  | boolLiteral (k : Key) (b : Bool) : Api u (.val (boolLiteral k b))
  | nilLiteral : Api u (.val nilLiteral)
  | asterisk : Api u (.val asterisk)
  | parameter (k : Key) (name : Str) : Balanced name → Api u (.val (parameter k name))
  | listLiteral (k : Key) (xs : List Val) : (∀ x ∈ xs, Api u (.val x)) → Api u (.val (listLiteral k xs))
  | literalOf (k : Key) (o : Obj) (v : Val) : (∀ t ∈ objThings o, Api u t) → literalOf k o = .ok v → Api u (.val v)
  -- what the methods of an expression act on
  | recv (v w : Val) : Api u (.val v) → v.recv = some w → Api u (.val w)
  | property (k kl : Key) (c : Option Val) (name : Str) : (∀ t ∈ optThings c, Api u t) → Api u (.val (propertyCreate2 u k kl c name))
  | as (k : Key) (d : Option Val) (alias : Str) : (∀ t ∈ optThings d, Api u t) → Api u (.val (aliasedCreate u k d alias))
  | compare (m : CompareMethod) (k kl kr : Key) (x y : Option Val) : (∀ t ∈ optThings x, Api u t) → (∀ t ∈ optThings y, Api u t) →
      Api u (.val (compare m k kl kr x y))
  | arith (m : ArithMethod) (k : Key) (x y : Option Val) : (∀ t ∈ optThings x, Api u t) → (∀ t ∈ optThings y, Api u t) →
      Api u (.val (arith m k x y))
  | operation (k : Key) (o : Op) (x y : Option Val) : (∀ t ∈ optThings x, Api u t) → (∀ t ∈ optThings y, Api u t) →
      Api u (.val (operationCreate k x o y))
  | isNull (k kn : Key) (x : Option Val) : (∀ t ∈ optThings x, Api u t) → Api u (.val (isNull k kn x))
  | isNotNull (k kn : Key) (x : Option Val) : (∀ t ∈ optThings x, Api u t) → Api u (.val (isNotNull k kn x))
  | isTrue (b : Bool) (kb k kl kr : Key) (x : Option Val) : (∀ t ∈ optThings x, Api u t) → Api u (.val (isTrue b kb k kl kr x))
  | isEmpty (kf ka kn k kl kr : Key) (x : Option Val) (v : Val) : (∀ t ∈ optThings x, Api u t) → isEmpty kf ka kn k kl kr x = .ok v →
      Api u (.val v)
  | matchesPattern (ks k kl kr : Key) (x : Option Val) (p : Str) : (∀ t ∈ optThings x, Api u t) →
      Api u (.val (matchesPattern ks k kl kr x p))
  -- lists and maps
  | expressionList (k : Key) (xs : List Val) : (∀ x ∈ xs, Api u (.val x)) → Api u (.val (expressionList k xs))
  | listExpression (k kl : Key) (xs : List Val) : (∀ x ∈ xs, Api u (.val x)) → Api u (.val (listExpression k kl xs))
  | listOrSingle (k kl : Key) (xs : List Val) : (∀ x ∈ xs, Api u (.val x)) → Api u (.val (listOrSingle k kl xs))
  | mapOf (k : Key) (ks : Nat → Key) (os : List Obj) (v : Val) : (∀ o ∈ os, ∀ t ∈ objThings o, Api u t) →
      newMapExpression u k ks os = .ok v → Api u (.val v)
  | project (k km : Key) (ks : Nat → Key) (name : Val) (cs : List Content) (p : Projection) : Api u (.val name) →
      (∀ c ∈ cs, ∀ t ∈ contentThings c, Api u t) → mapProjectionCreate u k km ks name cs = .ok p → Api u (.projection p)
  | projectAnd (p : Projection) (k km : Key) (ks : Nat → Key) (cs : List Content) (q : Projection) : Api u (.projection p) →
      (∀ c ∈ cs, ∀ t ∈ contentThings c, Api u t) → mapProjectionAnd u p k km ks cs = .ok q → Api u (.projection q)
  | projection (p : Projection) : Api u (.projection p) → Api u (.val p.val)
  | subList (k kd : Key) (x y z : Option Val) : (∀ t ∈ optThings x, Api u t) → (∀ t ∈ optThings y, Api u t) →
      (∀ t ∈ optThings z, Api u t) → Api u (.val (subList k kd x y z))
  | subListFrom (k kd : Key) (x y : Option Val) : (∀ t ∈ optThings x, Api u t) → (∀ t ∈ optThings y, Api u t) →
      Api u (.val (subListFrom k kd x y))
  | subListUntil (k kd : Key) (x y : Option Val) : (∀ t ∈ optThings x, Api u t) → (∀ t ∈ optThings y, Api u t) →
      Api u (.val (subListUntil k kd x y))
  | valueAt (k kd : Key) (x y : Option Val) : (∀ t ∈ optThings x, Api u t) → (∀ t ∈ optThings y, Api u t) →
      Api u (.val (valueAt k kd x y))
  -- CASE
  | caseSimple (k : Key) (x : Option Val) : (∀ t ∈ optThings x, Api u t) → Api u (.case (CaseV.simple k x))
  | caseStart (k : Key) : Api u (.case (CaseV.start k))
  | whenThen (c : CaseV) (k kw : Key) (w t : Val) (d : CaseV) : Api u (.case c) → Api u (.val w) → Api u (.val t) →
      c.whenThen k kw w t = .ok d → Api u (.case d)
  | elseDefault (c : CaseV) (ke : Key) (d : Val) : Api u (.case c) → Api u (.val d) → Api u (.case (c.elseDefault ke d))
  | case (c : CaseV) : Api u (.case c) → Api u (.val c.toVal)
  -- functions
  | fn1 (f : Fn1) (k ka : Key) (x : Option Val) (v : Val) : (∀ t ∈ optThings x, Api u t) → fn1 f k ka x = .ok v → Api u (.val v)
  | coalesce (k ka : Key) (xs : List (Option Val)) (v : Val) : (∀ x ∈ xs, ∀ t ∈ optThings x, Api u t) → coalesce k ka xs = .ok v →
      Api u (.val v)
  | distance (k ka : Key) (x y : Option Val) (v : Val) : (∀ t ∈ optThings x, Api u t) → (∀ t ∈ optThings y, Api u t) →
      distance k ka x y = .ok v → Api u (.val v)
  | percentile (disc distinct : Bool) (k ka kl : Key) (x : Option Val) (f : GoFloat) (v : Val) :
      (∀ t ∈ optThings x, Api u t) → percentile disc distinct k ka kl x f = .ok v → Api u (.val v)
  | floatLiteral (k : Key) (f : GoFloat) (v : Val) : floatLiteral k f = .ok v → Api u (.val v)
  | range (k ka : Key) (x y z : Option Val) (v : Val) : (∀ t ∈ optThings x, Api u t) → (∀ t ∈ optThings y, Api u t) →
      (∀ t ∈ optThings z, Api u t) → rangeWithStep k ka x y z = .ok v → Api u (.val v)
  | fn0 (f : Fn0) (k ka : Key) (v : Val) : fn0 f k ka = .ok v → Api u (.val v)
  | fnNode (f : FnNode) (k ka : Key) (n : NodeV) (v : Val) : Api u (.node n) → fnNode u f k ka n = .ok v → Api u (.val v)
  | fnRel (f : FnRel) (k ka : Key) (r : RelV) (v : Val) : Api u (.rel r) → fnRel u f k ka r = .ok v → Api u (.val v)
  | collectNode (distinct : Bool) (k ka : Key) (n : NodeV) (v : Val) : Api u (.node n) → collectNode u distinct k ka n = .ok v →
      Api u (.val v)
  | fnPath (nodes : Bool) (k ka : Key) (name : Option (Key × Str)) (path v : Val) : Api u (.val path) →
      fnPath u nodes k ka name path = .ok v → Api u (.val v)
  | sizeByPattern (k ka : Key) (p : Option Val) : (∀ t ∈ optThings p, Api u t) → Api u (.val (sizeByPattern k ka p))
  | shortestPath (k ka : Key) (r : RelV) : Api u (.rel r) → Api u (.val (shortestPath u k ka r))
  -- conditions
  | predicateExists (k kf ka : Key) (p v : Val) : Api u (.val p) → predicateExists k kf ka p = .ok v → Api u (.val v)
  | predicateExistsByPattern (k kf ka : Key) (p : Val) : Api u (.val p) → Api u (.val (predicateExistsByPattern k kf ka p))
  | quantified (guid : Str) (q : Quantifier) (k kf ka kp kw : Key) (x list c : Option Val) (v : Val) : Balanced guid →
      (∀ t ∈ optThings x, Api u t) → (∀ t ∈ optThings list, Api u t) → (∀ t ∈ optThings c, Api u t) →
      quantified guid q k kf ka kp kw x list c = .ok v → Api u (.val v)
  -- comprehensions do not check their list, pattern and definitions: these are asked to be without errors
  | listWith (k kw kl kc : Key) (x list : Val) (c : Option Val) (d : Option (List Val)) : Api u (.val x) → Api u (.val list) →
      list.err = none → (∀ t ∈ optThings c, Api u t) → (∀ l, d = some l → ∀ y ∈ l, Api u (.val y)) → (∀ l, d = some l → ∀ y ∈ l, y.err = none) →
      Api u (.val (listWith k kw kl kc x list c d))
  | listComprehensionWith (guid : Str) (k kw kl kc : Key) (x list : Val) (c : Option Val) (d : Option (List Val)) : Balanced guid →
      Api u (.val x) → Api u (.val list) → list.err = none → (∀ t ∈ optThings c, Api u t) →
      (∀ l, d = some l → ∀ y ∈ l, Api u (.val y)) → (∀ l, d = some l → ∀ y ∈ l, y.err = none) →
      Api u (.val (listComprehensionWith guid k kw kl kc x list c d))
  | patternComprehension (k kw kl kc : Key) (p : Val) (c : Option Cond) (d : List Val) (v : Val) : Api u (.val p) → p.err = none →
      (∀ x, c = some x → Api u (.cond x)) → (∀ y ∈ d, Api u (.val y)) → (∀ y ∈ d, y.err = none) →
      patternComprehension k kw kl kc p c d = .ok v → Api u (.val v)
  | excludedPattern (k : Key) (p : Val) : Api u (.val p) → Api u (.val (excludedPattern k p))
  | patternCondition (k : Key) (p : Val) : Api u (.val p) → Api u (.val (patternCondition k p))
  | constantCondition (b : Bool) : Api u (.val (constantCondition b))
  | asCondition (b : Base) (k : Key) (v : Val) : Api u (.builder (.base b)) → b.asCondition k = .ok v → Api u (.val v)
  | atom (v : Val) : Api u (.val v) → Api u (.cond (.atom v))
  | empty : Api u (.cond .empty)
  | combine (ks : Cond.Keys) (c : Cond) (h : Op) (d : Cond) : Api u (.cond c) → Api u (.cond d) → Api u (.cond (Cond.combine ks c h d))
  | combinePattern (ks : Cond.Keys) (c : Cond) (h : Op) (x : Val) : Api u (.cond c) → Api u (.val x) →
      Api u (.cond (Cond.combinePattern ks c h x))
  | not (k kn : Key) (c : Cond) : Api u (.cond c) → Api u (.cond (Cond.not k kn c))
  | condRecv (c d : Cond) : Api u (.cond c) → c.recv = some d → Api u (.cond d)
  | conditionsNot (k kn : Key) (c : Cond) : Api u (.cond c) → Api u (.cond (Cond.conditionsNot k kn c))
  | condition (c : Cond) : Api u (.cond c) → Api u (.val c.toVal)
  -- nodes
  | anyNode : Api u (.node .any)
  | nodeLabels (l : Str) (ls : List Str) : Api u (.node (.newWithLabels l ls))
  | node (k kl : Key) (l : Str) : Api u (.node (.create2 k kl l))
  | node3 (k : Key) (ks : Nat → Key) (l : Str) (ls : List Str) : Api u (.node (.create3 k ks l ls))
  | nodeProperties (k kp : Key) (ks : Nat → Key) (l : Str) (m : Val) (ls : List Str) : Api u (.val m) →
      Api u (.node (.create5 k kp ks l m ls))
  | nodeWithProperties (n : NodeV) (k kp : Key) (m : Val) : Api u (.node n) → Api u (.val m) → Api u (.node (n.withProperties k kp m))
  | nodeWithRaw (n : NodeV) (k kp km : Key) (ks : Nat → Key) (os : List Obj) (n' : NodeV) : Api u (.node n) →
      (∀ o ∈ os, ∀ t ∈ objThings o, Api u t) → n.withRawProperties u k kp km ks os = .ok n' → Api u (.node n')
  | nodeNamedByString (n : NodeV) (k : Key) (name : Str) : Balanced name → Api u (.node n) → Api u (.node (n.namedByString k name))
  | nodeNamed (n : NodeV) (name : Except Err (Option (Key × Str))) : (∀ k s, name = .ok (some (k, s)) → Balanced s) → Api u (.node n) →
      Api u (.node (n.named name))
  | nodeName (n : NodeV) : Api u (.node n) → Api u (.val (n.requiredName u))
  | nodeProperty (n : NodeV) (k kl : Key) (name : Str) : Api u (.node n) → Api u (.val (n.property u k kl name))
  | hasLabels (n : NodeV) (k : Key) (ks : Nat → Key) (ls : List Str) : Api u (.node n) → Api u (.val (n.hasLabels u k ks ls))
  | nodeVal (n : NodeV) : Api u (.node n) → Api u (.val (n.toVal u))
  -- relationships and chains
  | rel (k kd kt : Key) (l : NodeV) (d : Direction) (r : NodeV) (ts : List Str) : Api u (.node l) → Api u (.node r) →
      Api u (.rel (.create k kd kt l d r ts))
  | relNamed (r : RelV) (k kn : Key) (name : Str) : Api u (.rel r) → Api u (.rel (r.named k kn name))
  | relUnbounded (r : RelV) (k kl : Key) : Api u (.rel r) → Api u (.rel (r.unbounded k kl))
  | relMin (r : RelV) (k kl : Key) (i : Int) : Api u (.rel r) → Api u (.rel (r.min k kl i))
  | relMax (r : RelV) (k kl : Key) (i : Int) : Api u (.rel r) → Api u (.rel (r.max k kl i))
  | relLength (r : RelV) (k kl kl' : Key) (i j : Int) : Api u (.rel r) → Api u (.rel (r.length k kl kl' i j))
  | relWithProperties (r : RelV) (k kp : Key) (m : Val) : Api u (.rel r) → Api u (.val m) → Api u (.rel (r.withProperties k kp m))
  | relWithRaw (r : RelV) (k kp km : Key) (ks : Nat → Key) (os : List Obj) (r' : RelV) : Api u (.rel r) →
      (∀ o ∈ os, ∀ t ∈ objThings o, Api u t) → r.withRawProperties u k kp km ks os = .ok r' → Api u (.rel r')
  | relName (r : RelV) : Api u (.rel r) → Api u (.val (r.requiredName u))
  | relVal (r : RelV) : Api u (.rel r) → Api u (.val (r.toVal u))
  | chainStart (r : RelV) (k kd kt : Key) (d : Direction) (n : NodeV) (ts : List Str) : Api u (.rel r) → Api u (.node n) →
      Api u (.chain (.start r k kd kt d n ts))
  | chainExtend (c : ChainV) (k kd kt : Key) (d : Direction) (n : NodeV) (ts : List Str) (c' : ChainV) : Api u (.chain c) →
      Api u (.node n) → c.extend k kd kt d n ts = .ok c' → Api u (.chain c')
  /-- the last relationship is replaced by what one of the methods of relationships made of it -/
  | chainChange (c : ChainV) (f : RelV → Outcome RelV) (c' : ChainV) : Api u (.chain c) →
      (∀ r r', c.rels.getLast? = some r → f r = .ok r' → Api u (.rel r')) → c.changeLast f = .ok c' → Api u (.chain c')
  | chainLast (c : ChainV) (r : RelV) : Api u (.chain c) → c.rels.getLast? = some r → Api u (.rel r)
  | chainVal (c : ChainV) : Api u (.chain c) → Api u (.val (c.toVal u))
  | aPath (guid : Str) (k kn : Key) (name : Str) (p : Val) : Balanced guid → Api u (.val p) → Api u (.val (aPath u guid k kn name p))
  | aShortestPath (k kn kf ka : Key) (name : Str) (r : RelV) : Api u (.rel r) → Api u (.val (aShortestPath u k kn kf ka name r))
  -- sorting
  | sortItem (k : Key) (x : Option Val) (d : SortDir) : (∀ t ∈ optThings x, Api u t) → Api u (.sortItem (.create k x d))
  | ascending (s : SortItemV) (k : Key) : Api u (.sortItem s) → Api u (.sortItem (s.ascending k))
  | descending (s : SortItemV) : Api u (.sortItem s) → Api u (.sortItem s.descending)
  -- the builder and statements
  | start : Api u (.builder start)
  | startCall (kc ka kw k kn : Key) (name : List Str) (b : B) : (∀ s ∈ name, Balanced s) → startCall kc ka kw k kn name = .ok b →
      Api u (.builder b)
  | startCallError : Api u (.builder startCallError)
  | call (b : B) (c : Call) (b' : B) : Api u (.builder b) → (∀ t ∈ callThings c, Api u t) → (∀ s ∈ callNames c, Balanced s) →
      (∀ v ∈ unchecked u b c, v.err = none) → exec u b c = .ok b' → Api u (.builder b')
  | asFunction (c : CallB) (notNil : Bool) (k kl : Key) (v : Val) : Api u (.builder (.standalone c notNil)) → c.asFunction k kl = .ok v →
      Api u (.val v)
  | build (b : B) (s : Stmt) : Api u (.builder b) → b.build = .ok (.ok s) → Api u (.stmt s)
  | union (k : Key) (ks : Nat → Key) (all : Bool) (ss : List Stmt) : (∀ s ∈ ss, Api u (.stmt s)) → Api u (.stmt (unionImpl k ks all ss))

end Verif.Spec
