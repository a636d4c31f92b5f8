import Verif.Exprs

/-
Nodes, relationships, chains, named paths: the constructors, and what their `accept` methods send to the renderer.

Symbolic names of nodes and relationships are names that are not empty; `SymbolicNameUnResolve` (symbolic_name.go:28-36), which
nothing calls, is not modelled.  `append` on the slice of a chain is modelled as making a new list; sharing of the slices is the
subject of Slices.lean.
-/

namespace Verif

section
variable (u : Unicode)

/-! ### Nodes -/

/-- node.go:7-14 `Node`.  `name`, `props`: `none` if `isNotNil()` is false; `props` are the key and the map of the `Properties`. -/
structure NodeV where
  name : Option (Key × Str) := none
  labels : List (Key × Str) := []
  props : Option (Key × Val) := none
  key : Key := 0
  notNil : Bool := false
  err : Option Err := none

/-- symbolic_name.go:60-67. -/
def nameVisit : Option (Key × Str) → List Tree
  | some (k, s) => [leaf k (escapeIfNecessary u s)]
  | none => []

/-- node.go:267-273 `NodeLabel.enter`. -/
def labelText (s : Str) : Str := if s = [] then [] else ':' :: escapeName s

/-- node.go:262-265 `NodeLabel.accept`. -/
def labelVisit (l : Key × Str) : Tree := leaf l.1 (labelText l.2)

/-- properties.go:10-17 `PropertiesCreate`, 37-44, for a map without error. -/
def propsVisit : Option (Key × Val) → List Tree
  | some (k, m) => [nd k c!" " [] false m.visit]
  | none => []

/-- The zero `MapExpression` (node.go:172, relationship.go:143). -/
def mapZero : Val := { key := 0, visit := [nd 0 c!"{" c!"}" true []], notNil := false }

namespace NodeV

/-- node.go:132-140 `accept`. -/
def visit (n : NodeV) : List Tree :=
  [.node ⟨n.key, .node (n.name.map (·.2))⟩ (nameVisit u n.name ++ n.labels.map labelVisit ++ propsVisit n.props)]

/-- The node as a value. -/
def toVal (n : NodeV) : Val := { key := n.key, visit := n.visit u, err := n.err, notNil := n.notNil }

/-- node.go:95-99 `NodeError`. -/
def bad (e : Err) : NodeV := { err := some e }

/-- node.go:16-21 `NodeCreate` (cypher.go:52-54 `AnyNode`): no key. -/
def any : NodeV := { notNil := true }

/-- cypher.go:16-25 `NewNodeWithLabels`: no key, and `notNil` is not set. -/
def newWithLabels (primary : Str) (more : List Str) : NodeV := { labels := (primary :: more).map fun l => (0, l) }

/-- node.go:23-44 `NodeCreate1`; `props` are the properties, whose error is not looked at. -/
def create1 (k : Key) (ks : Nat → Key) (primary : Str) (props : Option (Key × Val)) (more : List Str) : NodeV :=
  if primary = [] then bad (.site "node.go" 25)
  else if [] ∈ more then bad (.site "node.go" 29)
  else { labels := (0, primary) :: more.zipIdx.map (fun l => (ks l.2, l.1)), props := props, key := k, notNil := true }

/-- node.go:46-58 `NodeCreate2` (cypher.go:45-47 `ANode`). -/
def create2 (k kl : Key) (label : Str) : NodeV :=
  if label = [] then bad (.site "node.go" 48) else { labels := [(kl, label)], key := k, notNil := true }

/-- node.go:60-79 `NodeCreate3`: `notNil` is not set. -/
def create3 (k : Key) (ks : Nat → Key) (primary : Str) (more : List Str) : NodeV :=
  if primary = [] then bad (.site "node.go" 62)
  else if [] ∈ more then bad (.site "node.go" 66)
  else { labels := (0, primary) :: more.zipIdx.map (fun l => (ks l.2, l.1)), key := k }

/-- `PropertiesCreate(m)` as it is stored in a node: an error is not looked at. -/
def propsOf (kp : Key) (m : Val) : Option (Key × Val) := if m.err.isSome then none else some (kp, m)

/-- node.go:87-89 `NodeCreate5` (cypher.go:37-39 `NewNodeWithProperties`). -/
def create5 (k kp : Key) (ks : Nat → Key) (primary : Str) (m : Val) (more : List Str) : NodeV :=
  create1 k ks primary (propsOf kp m) more

/-- node.go:81-85 `NodeCreate4`, 182-184 `WithProperties`: neither the error of the map nor the one of the node is looked at. -/
def withProperties (n : NodeV) (k kp : Key) (m : Val) : NodeV :=
  { name := n.name, labels := n.labels, props := propsOf kp m, key := k, notNil := true }

/-- node.go:171-180 `WithRawProperties`. -/
def withRawProperties (n : NodeV) (k kp km : Key) (ks : Nat → Key) (args : List Obj) : Outcome NodeV :=
  if args = [] then .ok (n.withProperties k kp mapZero)
  else (newMapExpression u km ks args).map fun m =>
    match m.err with
    | some e => bad e
    | none => n.withProperties k kp m

/-- node.go:190-193 `NamedByString`: the empty name gives a symbolic name with an error, which counts as nil. -/
def namedByString (n : NodeV) (k : Key) (name : Str) : NodeV := { n with name := if name = [] then none else some (k, name) }

/-- node.go:101-106 `GetRequiredSymbolicName`. -/
def requiredName (n : NodeV) : Val :=
  match n.name with
  | some (k, s) => symbolicName u k s
  | none => .bad (.site "node.go" 105)

end NodeV

/-- node.go:195-204 `Named`; the argument is a symbolic name, or nothing if it counts as nil. -/
def NodeV.named (n : NodeV) (name : Except Err (Option (Key × Str))) : NodeV :=
  match name with
  | .error e => .bad e
  | .ok none => .bad (.site "node.go" 200)
  | .ok (some x) => { n with name := some x }

/-- property.go:14-29 `PropertyCreate` for a node (node.go:186-188 `Property`). -/
def NodeV.property (n : NodeV) (k kl : Key) (name : Str) : Val :=
  match n.err with
  | some e => propertyError u e
  | none =>
    match (n.requiredName u).err with
    | some e => propertyError u e
    | none => if name = [] then propertyError u (.site "property.go" 26) else propertyCreate1 u k kl (n.requiredName u) name

/-- has_label_condition.go:14-36 `HasLabelConditionCreate`, 68-75; node.go:218-220 `HasLabels`. -/
def NodeV.hasLabels (n : NodeV) (k : Key) (ks : Nat → Key) (labels : List Str) : Val :=
  match n.name with
  | none => .bad (.site "node.go" 105) true
  | some (kn, s) =>
    if labels = [] then .bad (.site "has_label_condition.go" 22) true
    else .mk' k [nd k [] [] false (nameVisit u (some (kn, s)) ++ (labels.zipIdx.map fun l => labelVisit (ks l.2, l.1)))] true

/-! ### Relationships -/

/-- relationship_pattern.go:12-32 `Direction`; `none`: the zero value. -/
inductive Direction where
  | ltr | rtl | uni | none
  deriving DecidableEq, Repr

/-- relationship_pattern.go:22-32: the left symbols. -/
def Direction.left : Direction → Str
  | .ltr => c!"-"
  | .rtl => c!"<-"
  | .uni => c!"-"
  | .none => []

/-- relationship_pattern.go:22-32: the right symbols. -/
def Direction.right : Direction → Str
  | .ltr => c!"->"
  | .rtl => c!"-"
  | .uni => c!"-"
  | .none => []

/-- relationship_type.go:44-55 `enter`. -/
def typesText (ts : List Str) : Str :=
  if ts = [] then [] else ':' :: join c!"|" ((ts.filter (· ≠ [])).map escapeName)

/-- relationship_length.go:5-12 `RelationshipLength`. -/
structure LengthV where
  key : Key
  min : Option Int := .none
  max : Option Int := .none
  unbounded : Bool := false

/-- relationship_length.go:43-61 `enter`. -/
def lengthText (l : LengthV) : Str :=
  if l.unbounded then c!"*"
  else if l.min = .none ∧ l.max = .none then []
  else c!"*" ++ (match l.min with | some i => itoa i | .none => []) ++ c!".." ++ (match l.max with | some i => itoa i | .none => [])

/-- relationship_type.go:39-42 `accept`. -/
def typesVisit : Option (Key × List Str) → List Tree
  | some (k, ts) => [leaf k (typesText ts)]
  | none => []

/-- relationship_length.go:38-41 `accept`. -/
def lengthVisit : Option LengthV → List Tree
  | some l => [leaf l.key (lengthText l)]
  | none => []

/-- relationship_details.go:5-14 `RelationshipDetails`. -/
structure DetailsV where
  dir : Direction := .none
  name : Option (Key × Str) := .none
  types : Option (Key × List Str) := .none
  length : Option LengthV := .none
  props : Option (Key × Val) := .none
  key : Key := 0
  err : Option Err := .none

namespace DetailsV

/-- relationship_details.go:128-133 `hasContent`. -/
def hasContent (d : DetailsV) : Bool := d.name.isSome || d.types.isSome || d.length.isSome || d.props.isSome

/-- relationship_details.go:135-158 `accept`, `enter`, `leave`. -/
def visit (d : DetailsV) : List Tree :=
  [nd d.key (d.dir.left ++ (if d.hasContent then c!"[" else [])) ((if d.hasContent then c!"]" else []) ++ d.dir.right) false
    (nameVisit u d.name ++ typesVisit d.types ++ lengthVisit d.length ++ propsVisit d.props)]

/-- relationship_details.go:46-68 `RelationshipDetailsCreate`: no key.  The parts of existing details never have an error. -/
def create (dir : Direction) (name : Option (Key × Str)) (types : Option (Key × List Str)) (length : Option LengthV)
    (props : Except Err (Option (Key × Val))) : DetailsV :=
  match props with
  | .error e => { err := some e }
  | .ok p => { dir := dir, name := name, types := types, length := length, props := p }

/-- relationship_details.go:90-102 `namedByString`, `named`. -/
def namedByString (d : DetailsV) (k : Key) (name : Str) : DetailsV :=
  if name = [] then { err := some (.site "relationship_details.go" 92) }
  else create d.dir (some (k, name)) d.types d.length (.ok d.props)

/-- relationship_details.go:104-106 `with`. -/
def withProps (d : DetailsV) (props : Except Err (Option (Key × Val))) : DetailsV := create d.dir d.name d.types d.length props

/-- relationship_details.go:108-110 `unbounded`. -/
def unbounded (d : DetailsV) (k : Key) : DetailsV := create d.dir d.name d.types (some { key := k, unbounded := true }) (.ok d.props)

/-- relationship_details.go:112-118 `min`. -/
def min (d : DetailsV) (k : Key) (i : Int) : DetailsV :=
  create d.dir d.name d.types (some { key := k, min := some i, max := d.length.bind (·.max) }) (.ok d.props)

/-- relationship_details.go:120-126 `max`. -/
def max (d : DetailsV) (k : Key) (i : Int) : DetailsV :=
  create d.dir d.name d.types (some { key := k, min := d.length.bind (·.min), max := some i }) (.ok d.props)

end DetailsV

/-- relationship.go:5-12 `Relationship`. -/
structure RelV where
  left : NodeV := {}
  details : DetailsV := {}
  right : NodeV := {}
  key : Key := 0
  notNil : Bool := false
  err : Option Err := .none

namespace RelV

/-- relationship.go:51-55 `RelationshipError`. -/
def bad (e : Err) : RelV := { err := some e }

/-- relationship.go:31-49 `RelationshipCreate3`. -/
def create3 (k : Key) (left : NodeV) (details : DetailsV) (right : NodeV) : RelV :=
  match firstErr [left.err, details.err, right.err] with
  | some e => bad e
  | .none => { left := left, details := details, right := right, key := k, notNil := true }

/-- relationship.go:14-29 `RelationshipCreate`, relationship_details.go:16-27 `RelationshipDetailsCreate1`; node.go:159-169
`RelationshipTo`, `RelationshipFrom`, `RelationshipBetween`. -/
def create (k kd kt : Key) (left : NodeV) (dir : Direction) (right : NodeV) (types : List Str) : RelV :=
  create3 k left { dir := dir, types := if types = [] then .none else some (kt, types), key := kd } right

/-- relationship.go:100-106 `accept`. -/
def visit (r : RelV) : List Tree := [nd r.key [] [] false (r.left.visit u ++ r.details.visit u ++ r.right.visit u)]

/-- The relationship as a value. -/
def toVal (r : RelV) : Val := { key := r.key, visit := r.visit u, err := r.err, notNil := r.notNil }

/-- relationship.go:80-82 `NamedByString`, 130-132 `Named`. -/
def named (r : RelV) (k kn : Key) (name : Str) : RelV := create3 k r.left (r.details.namedByString kn name) r.right

/-- relationship.go:84-86 `Unbounded`. -/
def unbounded (r : RelV) (k kl : Key) : RelV := create3 k r.left (r.details.unbounded kl) r.right

/-- relationship.go:88-90 `Min`. -/
def min (r : RelV) (k kl : Key) (i : Int) : RelV := create3 k r.left (r.details.min kl i) r.right

/-- relationship.go:96-98 `Max`. -/
def max (r : RelV) (k kl : Key) (i : Int) : RelV := create3 k r.left (r.details.max kl i) r.right

/-- relationship.go:92-94 `Length`. -/
def length (r : RelV) (k kl kl' : Key) (i j : Int) : RelV := create3 k r.left ((r.details.min kl i).max kl' j) r.right

/-- relationship.go:153-162 `WithProperties`. -/
def withProperties (r : RelV) (k kp : Key) (m : Val) : RelV :=
  if !m.notNil && r.details.props.isNone then r
  else
    create3 k r.left (r.details.withProps (if m.notNil then
      match m.err with
      | some e => .error e
      | .none => .ok (some (kp, m)) else .ok .none)) r.right

/-- relationship.go:142-151 `WithRawProperties`. -/
def withRawProperties (r : RelV) (k kp km : Key) (ks : Nat → Key) (args : List Obj) : Outcome RelV :=
  if args = [] then .ok (r.withProperties k kp mapZero)
  else (newMapExpression u km ks args).map fun m =>
    match m.err with
    | some e => bad e
    | .none => r.withProperties k kp m

/-- relationship.go:65-70 `GetRequiredSymbolicName`. -/
def requiredName (r : RelV) : Val :=
  match r.details.name with
  | some (k, s) => symbolicName u k s
  | .none => .bad (.site "relationship.go" 69)

end RelV

/-! ### Chains -/

/-- relationship_chain.go:5-10 `RelationshipChain`. -/
structure ChainV where
  rels : List RelV := []
  notNil : Bool := false
  err : Option Err := .none

namespace ChainV

/-- relationship_chain.go:12-16 `RelationshipChainCreate`, 116-119 `Add`; relationship.go:118-128: the relationship and one from
its right node. -/
def start (r : RelV) (k kd kt : Key) (dir : Direction) (node : NodeV) (types : List Str) : ChainV :=
  { rels := [r, RelV.create k kd kt r.right dir node types], notNil := true }

/-- relationship_chain.go:34-50 `RelationshipTo`, `RelationshipFrom`, `RelationshipBetween`: index -1 of an empty slice panics. -/
def extend (c : ChainV) (k kd kt : Key) (dir : Direction) (node : NodeV) (types : List Str) : Outcome ChainV :=
  match c.rels.getLast? with
  | some r => .ok { c with rels := c.rels ++ [RelV.create k kd kt r.right dir node types] }
  | .none => .panic

/-- relationship_chain.go:56-96 `NamedC`, `Unbounded`, `Min`, `Length`, `Max`, `Properties`, `PropertiesRaw`: the last relationship
is changed. -/
def changeLast (c : ChainV) (f : RelV → Outcome RelV) : Outcome ChainV :=
  match c.rels.getLast? with
  | some r => (f r).map fun r' => { c with rels := c.rels.dropLast ++ [r'] }
  | .none => .panic

/-- relationship_chain.go:98-108 `accept`, the last node. -/
def lastVisit : Option RelV → List Tree
  | some r => if r.right.notNil then r.right.visit u else []
  | none => []

/-- relationship_chain.go:98-108 `accept`: the nodes and relationships in turn, and the last node if it is not nil. -/
def visit (c : ChainV) : List Tree :=
  [nd 0 [] [] false (c.rels.flatMap (fun r => r.left.visit u ++ r.details.visit u) ++
    lastVisit u c.rels.getLast?)]

/-- The chain as a value. -/
def toVal (c : ChainV) : Val := { key := 0, visit := c.visit u, err := c.err, notNil := c.notNil }

end ChainV

/-! ### Named paths, patterns, functions of patterns -/

/-- name_path.go:101: the name of a path. -/
def pathName (guid : Str) : Option (Key × Str) → List Tree
  | some n => nameVisit u (some n)
  | none => [leaf 0 guid]

/-- name_path.go:13-35 `NamedPathCreate`, `NamedPathCreate1`, 99-105, for a pattern that is not nil; `name`: `none` if it counts
as nil, and then the random identifier of the renderer is printed. -/
def namedPath (guid : Str) (k : Key) (name : Option (Key × Str)) (pattern : Val) : Val :=
  match pattern.err with
  | some e => .bad e
  | .none => .mk' k [nd k [] [] false (pathName u guid name ++ [Op.assignment.visit] ++ pattern.visit)]

/-- `APath(name).DefinedBy(pattern)`: cypher.go:96-98, name_path.go:41-57, 141-143.  The error of a missing name is in the builder
only. -/
def aPath (guid : Str) (k kn : Key) (name : Str) (pattern : Val) : Val :=
  namedPath u guid k (if name = [] then .none else some (kn, name)) pattern

/-- `AShortestPath(name).DefinedBy(relationship)`: cypher.go:118-120, name_path.go:59-78, 162-170. -/
def aShortestPath (k kn kf ka : Key) (name : Str) (r : RelV) : Val :=
  if name = [] then .bad (.site "name_path.go" 62)
  else
    match r.err with
    | some e => .bad e
    | .none => namedPath u [] k (some (kn, name)) (functionInvocationPattern kf ka fnShortestPath (some (r.toVal u)))

/-- pattern.go:10-22 `PatternCreate`, 40-46 (a list construct); a nil element would panic. -/
def patternCreate (k : Key) (xs : List Val) : Val :=
  match errsOf xs with
  | some e => .bad e
  | .none => { key := k, visit := [nd k [] [] true (visitsOf xs)] }

/-- functions.go: the functions of nodes. -/
inductive FnNode where
  | id | labels | properties | count | countDistinct
  deriving DecidableEq, Repr

/-- The symbolic name of a node as an argument: node.go:108-110 `GetSymbolicName`; the zero name counts as nil. -/
def nameArg : Option (Key × Str) → Val
  | some (k, s) => symbolicName u k s
  | .none => { key := 0, visit := [], notNil := false }

/-- functions.go:15, 35, 49, 57, 71: the function definitions used. -/
def FnNode.fn : FnNode → FnDef
  | .id => fnId
  | .labels => fnLabels
  | .properties => fnProperties
  | .count => fnCount
  | .countDistinct => fnCount

/-- functions.go:8-16, 28-36, 48-50, 56-58, 64-72. -/
def fnNode (f : FnNode) (k ka : Key) (n : NodeV) : Outcome Val :=
  match f with
  | .count => functionInvocation k ka fnCount [some (nameArg u n.name)]
  | .countDistinct => functionInvocationDistinct k ka fnCount [some (nameArg u n.name)]
  | _ =>
    match n.err with
    | some e => .ok (.bad e)
    | .none =>
      if !n.notNil then .ok (.bad (.site "functions.go" 13))
      else functionInvocation k ka f.fn [some (nameArg u n.name)]

/-- functions.go: the functions of relationships. -/
inductive FnRel where
  | id | type | properties | startNode | endNode
  deriving DecidableEq, Repr

/-- functions.go:20, 40, 76, 578, 600: the function definitions used. -/
def FnRel.fn : FnRel → FnDef
  | .id => fnId
  | .type => fnType
  | .properties => fnProperties
  | .startNode => fnStartNode
  | .endNode => fnEndNode

/-- functions.go:18-26, 38-46, 74-82, 570-608. -/
def fnRel (f : FnRel) (k ka : Key) (r : RelV) : Outcome Val :=
  match r.err with
  | some e => .ok (.bad e)
  | .none =>
    if !r.notNil then .ok (.bad (.site "functions.go" 23))
    else if (f = .startNode ∨ f = .endNode) ∧ r.details.name = .none then .ok (.bad (.site "functions.go" 579))
    else functionInvocation k ka f.fn [some (nameArg u r.details.name)]

/-- functions.go:152-170 `CollectByNamed`, `CollectDistinctByNamed` for a node. -/
def collectNode (distinct : Bool) (k ka : Key) (n : NodeV) : Outcome Val :=
  match n.err with
  | some e => .ok (.bad e)
  | .none =>
    if !n.notNil then .ok (.bad (.site "functions.go" 157))
    else if distinct then functionInvocationDistinct k ka fnCollect [some (n.requiredName u)]
    else functionInvocation k ka fnCollect [some (n.requiredName u)]

/-- functions.go:526-538 `Nodes`, 548-560 `Relationships`; `name`: the name of the path. -/
def fnPath (nodes : Bool) (k ka : Key) (name : Option (Key × Str)) (path : Val) : Outcome Val :=
  match path.err with
  | some e => .ok (.bad e)
  | .none =>
    if !path.notNil then .ok (.bad (.site "functions.go" 531))
    else if name = .none then .ok (.bad (.site "functions.go" 535))
    else functionInvocation k ka (if nodes then fnNodes else fnRelationships) [some (nameArg u name)]

/-- functions.go:100-102 `SizeByPattern`, 1092-1097 `ShortestPath`. -/
def sizeByPattern (k ka : Key) (p : Option Val) : Val := functionInvocationPattern k ka fnSize p

/-- functions.go:1092-1097 `ShortestPath`. -/
def shortestPath (k ka : Key) (r : RelV) : Val :=
  match r.err with
  | some e => .bad e
  | .none => functionInvocationPattern k ka fnShortestPath (some (r.toVal u))

end

end Verif
