import Verif.LexSpec
import Verif.ExprSpec
import Verif.Patterns

/-
Specification of patterns: readers for what stands in the brackets of a node or of a relationship, and the meaning of a sequence
of calls that describe a node or a relationship.
-/

namespace Verif.Spec

/-! ### Readers -/

/-- A name if there is one. -/
def readOptName (u : Unicode) : Str → Option (Option Str × Str)
  | [] => some (none, [])
  | c :: s =>
    if c = '`' ∨ isNameStart u c then (readName u (c :: s)).map fun x => (some x.1, x.2)
    else some (none, c :: s)

/-- Back-quoted names, each with the character `c` before it; `fuel` bounds their number. -/
def readSeq (c : Char) : Nat → Str → Option (List Str × Str)
  | 0, s => some ([], s)
  | _ + 1, [] => some ([], [])
  | n + 1, d :: s =>
    if d = c then do
      let (x, r) ← readQuoted s
      let (xs, r') ← readSeq c n r
      some (x :: xs, r')
    else some ([], d :: s)

/-- The labels of a node: `` :`a`:`b` ``. -/
def readLabels (s : Str) : Option (List Str × Str) := readSeq ':' s.length s

/-- The types of a relationship: `` :`a`|`b` ``. -/
def readTypes : Str → Option (List Str × Str)
  | [] => some ([], [])
  | c :: s =>
    if c = ':' then do
      let (t, r) ← readQuoted s
      let (ts, r') ← readSeq '|' r.length r
      some (t :: ts, r')
    else some ([], c :: s)

/-- How many relationships a pattern stands for. -/
inductive Hops where
  | one                                  -- exactly one
  | any                                  -- any number
  | range (lower upper : Option Int)     -- between the bounds
  deriving DecidableEq, Repr

/-- The characters of the bounds. -/
def isBoundChar (c : Char) : Bool := (digitVal c).isSome || c = '-' || c = '.'

/-- The text before and after two dots. -/
def splitDots : Str → Option (Str × Str)
  | [] => none
  | '.' :: '.' :: s => some ([], s)
  | c :: s => (splitDots s).map fun x => (c :: x.1, x.2)

/-- One bound; no text: no bound. -/
def readBound (s : Str) : Option (Option Int) := if s = [] then some none else (readInt s).map some

/-- The bounds after the asterisk: none, one number, or two bounds with two dots between them. -/
def readBounds (s : Str) : Option Hops :=
  if s = [] then some .any
  else
    match splitDots s with
    | none => (readInt s).map fun i => .range (some i) (some i)
    | some (a, b) => do
      let l ← readBound a
      let h ← readBound b
      some (.range l h)

/-- The length of a relationship: nothing, or an asterisk and bounds. -/
def readHops : Str → Option (Hops × Str)
  | [] => some (.one, [])
  | c :: s =>
    if c = '*' then (readBounds (s.takeWhile isBoundChar)).map fun h => (h, s.dropWhile isBoundChar)
    else some (.one, c :: s)

/-- What a node pattern says of the node, apart from its properties. -/
structure NodeHead where
  name : Option Str
  labels : List Str
  deriving DecidableEq, Repr

/-- Reads name and labels of a node. -/
def readNodeHead (u : Unicode) (s : Str) : Option (NodeHead × Str) := do
  let (n, r) ← readOptName u s
  let (ls, r) ← readLabels r
  some (⟨n, ls⟩, r)

/-- What a relationship pattern says of the relationship, apart from direction and properties. -/
structure RelHead where
  name : Option Str
  types : List Str
  hops : Hops
  deriving DecidableEq, Repr

/-- Reads name, types and length of a relationship. -/
def readRelHead (u : Unicode) (s : Str) : Option (RelHead × Str) := do
  let (n, r) ← readOptName u s
  let (ts, r) ← readTypes r
  let (h, r) ← readHops r
  some (⟨n, ts, h⟩, r)

/-- A name that can be read: it has a character that is not white space (see C03). -/
def NotBlank (u : Unicode) (s : Str) : Prop := ∃ c ∈ s, u.isSpace c = false

/-! ### What a sequence of calls says -/

/-- A call that changes a relationship; the keys are those of the objects it creates. -/
inductive RelCall where
  | named (k kn : Key) (name : Str)
  | unbounded (k kl : Key)
  | min (k kl : Key) (i : Int)
  | max (k kl : Key) (i : Int)
  | length (k kl kl' : Key) (i j : Int)
  | withProperties (k kp : Key) (m : Val)

/-- The call itself. -/
def RelCall.run (c : RelCall) (r : RelV) : RelV :=
  match c with
  | .named k kn s => r.named k kn s
  | .unbounded k kl => r.unbounded k kl
  | .min k kl i => r.min k kl i
  | .max k kl i => r.max k kl i
  | .length k kl kl' i j => r.length k kl kl' i j
  | .withProperties k kp m => r.withProperties k kp m

/-- The call has usable arguments. -/
def RelCall.Ok (u : Unicode) : RelCall → Prop
  | .named _ _ s => NotBlank u s
  | .withProperties _ _ m => Good m
  | _ => True

def RelCall.name : RelCall → Option Str
  | .named _ _ s => some s
  | _ => none

def RelCall.props : RelCall → Option Val
  | .withProperties _ _ m => some m
  | _ => none

def RelCall.isUnbounded : RelCall → Bool
  | .unbounded _ _ => true
  | _ => false

def RelCall.isLength : RelCall → Bool
  | .named .. => false
  | .withProperties .. => false
  | _ => true

def RelCall.lower : RelCall → Option Int
  | .min _ _ i => some i
  | .length _ _ _ i _ => some i
  | _ => none

def RelCall.upper : RelCall → Option Int
  | .max _ _ i => some i
  | .length _ _ _ _ j => some j
  | _ => none

/-- The name is the one given last. -/
def nameOf (cs : List RelCall) : Option Str := (cs.filterMap RelCall.name).getLast?

/-- The properties are those given last. -/
def propsOf (cs : List RelCall) : Option Val := (cs.filterMap RelCall.props).getLast?

/-- The calls after the last call of `Unbounded`. -/
def since (cs : List RelCall) : List RelCall := (cs.reverse.takeWhile fun c => !c.isUnbounded).reverse

/-- The lower bound is the one given last, since the last call of `Unbounded`. -/
def lowerOf (cs : List RelCall) : Option Int := ((since cs).filterMap RelCall.lower).getLast?

/-- The upper bound is the one given last, since the last call of `Unbounded`. -/
def upperOf (cs : List RelCall) : Option Int := ((since cs).filterMap RelCall.upper).getLast?

/-- The length a relationship was given. -/
def hopsOf (cs : List RelCall) : Hops :=
  match (cs.filter RelCall.isLength).getLast? with
  | none => .one
  | some c => if c.isUnbounded then .any else .range (lowerOf cs) (upperOf cs)

/-- The functions that make nodes. -/
inductive NodeCtor where
  | anyNode
  | aNode (k kl : Key) (label : Str)
  | withLabels (primary : Str) (more : List Str)
  | create3 (k : Key) (ks : Nat → Key) (primary : Str) (more : List Str)
  | withProperties (k kp : Key) (ks : Nat → Key) (primary : Str) (m : Val) (more : List Str)

/-- The call itself. -/
def NodeCtor.run : NodeCtor → NodeV
  | .anyNode => .any
  | .aNode k kl l => .create2 k kl l
  | .withLabels l ls => .newWithLabels l ls
  | .create3 k ks l ls => .create3 k ks l ls
  | .withProperties k kp ks l m ls => .create5 k kp ks l m ls

/-- The labels given. -/
def NodeCtor.labels : NodeCtor → List Str
  | .anyNode => []
  | .aNode _ _ l => [l]
  | .withLabels l ls => l :: ls
  | .create3 _ _ l ls => l :: ls
  | .withProperties _ _ _ l _ ls => l :: ls

/-- The properties given. -/
def NodeCtor.props : NodeCtor → Option Val
  | .withProperties _ _ _ _ m _ => some m
  | _ => none

/-- The labels are not empty, the properties have no error. -/
def NodeCtor.Ok (c : NodeCtor) : Prop := [] ∉ c.labels ∧ ∀ m, c.props = some m → m.err = none

/-- A call that changes a node. -/
inductive NodeCall where
  | named (k : Key) (name : Str)
  | withProperties (k kp : Key) (m : Val)

/-- The call itself. -/
def NodeCall.run (c : NodeCall) (n : NodeV) : NodeV :=
  match c with
  | .named k s => n.namedByString k s
  | .withProperties k kp m => n.withProperties k kp m

/-- The call has usable arguments. -/
def NodeCall.Ok (u : Unicode) : NodeCall → Prop
  | .named _ s => NotBlank u s
  | .withProperties _ _ m => m.err = none

def NodeCall.name : NodeCall → Option Str
  | .named _ s => some s
  | _ => none

def NodeCall.props : NodeCall → Option Val
  | .withProperties _ _ m => some m
  | _ => none

/-- A node made by a constructor and calls. -/
structure NodeDesc where
  ctor : NodeCtor
  calls : List NodeCall

def NodeDesc.run (d : NodeDesc) : NodeV := d.calls.foldl (fun n c => c.run n) d.ctor.run

def NodeDesc.Ok (u : Unicode) (d : NodeDesc) : Prop := d.ctor.Ok ∧ ∀ c ∈ d.calls, c.Ok u

/-- What was said of the node: the labels of the constructor and the name given last. -/
def NodeDesc.head (d : NodeDesc) : NodeHead := ⟨(d.calls.filterMap NodeCall.name).getLast?, d.ctor.labels⟩

/-- The properties given last. -/
def NodeDesc.props (d : NodeDesc) : Option Val := (d.ctor.props.toList ++ d.calls.filterMap NodeCall.props).getLast?

/-! ### Layouts -/

/-- Properties in a node or relationship: a blank and the map. -/
def propParts : Option Val → List Part
  | some m => [.lit c!" ", .hole m.visit]
  | none => []

/-- What Cypher writes before the brackets of a relationship: the arrow head if the relationship points to the left. -/
def beforeRel : Direction → Str
  | .rtl => c!"<-"
  | _ => c!"-"

/-- What Cypher writes after the brackets of a relationship: the arrow head if the relationship points to the right. -/
def afterRel : Direction → Str
  | .ltr => c!"->"
  | _ => c!"-"

/-- `ps` is a correct text of a relationship between two nodes, with this direction, head and properties: brackets around a text
that reads as the head, and the properties; no brackets if there is nothing to say. -/
def Between (u : Unicode) (dir : Direction) (h : RelHead) (props : Option Val) (ps : List Part) : Prop :=
  ∃ d : Str, (∀ rest : Str, (rest.head? = some ']' ∨ rest.head? = some ' ') → readRelHead u (d ++ rest) = some (h, rest)) ∧
    ps = [.lit (beforeRel dir)] ++
      (if h = ⟨none, [], .one⟩ ∧ props.isNone then [] else [.lit c!"[", .lit d] ++ propParts props ++ [.lit c!"]"]) ++
      [.lit (afterRel dir)]

/-- `ps` is a correct text of a node with this head and properties. -/
def NodeParts (u : Unicode) (h : NodeHead) (props : Option Val) (ps : List Part) : Prop :=
  ∃ d : Str, (∀ rest : Str, (rest.head? = some ')' ∨ rest.head? = some ' ') → readNodeHead u (d ++ rest) = some (h, rest)) ∧
    ps = [.lit c!"(", .lit d] ++ propParts props ++ [.lit c!")"]

/-- One relationship of a chain with the node it leads to: `RelationshipTo(node, types...)` (or `From`, `Between`) and the calls
that change it. -/
structure Step where
  k : Key
  kd : Key
  kt : Key
  dir : Direction
  node : NodeV
  types : List Str
  calls : List RelCall

/-- The types given to a relationship are none, or some of them are not empty. -/
def TypesOk (ts : List Str) : Prop := ts = [] ∨ ∃ t ∈ ts, t ≠ []

/-- The step has usable arguments. -/
def Step.Ok (u : Unicode) (s : Step) : Prop :=
  s.node.err = none ∧ s.dir ≠ .none ∧ TypesOk s.types ∧ ∀ c ∈ s.calls, c.Ok u

/-- What was said of the relationship. -/
def Step.head (s : Step) : RelHead := ⟨nameOf s.calls, s.types.filter (· ≠ []), hopsOf s.calls⟩

/-- The relationship from a node. -/
def Step.first (s : Step) (n : NodeV) : RelV := s.calls.foldl (fun r c => c.run r) (RelV.create s.k s.kd s.kt n s.dir s.node s.types)

/-- The calls of a step on a chain. -/
def Step.change (s : Step) (c : Outcome ChainV) : Outcome ChainV :=
  s.calls.foldl (fun c call => c.bind fun c => c.changeLast fun r => .ok (call.run r)) c

/-- A chain: the first relationship, the second one, and so on. -/
def chainRun (n : NodeV) (s t : Step) (more : List Step) : Outcome ChainV :=
  more.foldl (fun c s => s.change (c.bind fun c => c.extend s.k s.kd s.kt s.dir s.node s.types))
    (t.change (.ok (ChainV.start (s.first n) t.k t.kd t.kt t.dir t.node t.types)))

/-- `ps` is a correct text of the relationships and nodes of some steps. -/
inductive ChainParts (u : Unicode) : List Step → List Part → Prop
  | nil : ChainParts u [] []
  | cons {s : Step} {ss : List Step} {ps qs : List Part} : Between u s.dir s.head (propsOf s.calls) ps → ChainParts u ss qs →
      ChainParts u (s :: ss) (ps ++ [.hole (s.node.visit u)] ++ qs)

/-- The objects a relationship consists of, without its nodes and its map. -/
def relKeys (r : RelV) : List Key :=
  [r.key, r.details.key] ++ (r.details.name.map (·.1)).toList ++ (r.details.types.map (·.1)).toList ++
    (r.details.length.map (·.key)).toList ++ (r.details.props.map (·.1)).toList

/-- The objects a chain consists of, without its nodes and its maps; the chain itself has no key. -/
def chainKeys (c : ChainV) : List Key := 0 :: c.rels.flatMap fun r => (relKeys r).tail

/-- The objects a node consists of, without its map. -/
def nodeKeys (n : NodeV) : List Key :=
  n.key :: ((n.name.map (·.1)).toList ++ n.labels.map (·.1) ++ (n.props.map (·.1)).toList)

/-- The memories after a node was described: a named node is remembered. -/
def mark (e : Env) (key : Key) (name : Option Str) : Env :=
  if name.isSome then { e with vis := fun k => if k = key then true else e.vis k } else e

end Verif.Spec
