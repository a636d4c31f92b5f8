import Verif.Lexical

/-
The renderer: a state machine driven by the `enter`/`leave` calls that the `accept` methods make.

Every `accept` method of the package calls `visitor.enter`, visits its parts and calls `visitor.leave` without looking at
the renderer's state, so a value is modelled as the tree of those calls.  The only other effect an `accept` method has on the
renderer is the direct `visitor.append(", ")` of list_literal.go:42, modelled as a `raw` leaf.
-/

namespace Verif

/-- `getKey()`: the printed address of the object (support.go:26-28), kept abstract.  `0` stands for the empty string that
values built without `injectKey`/`getAddress` carry. -/
abbrev Key := Nat

/-- What `enter` and `leave` of a value do to the renderer. -/
inductive Kind where
  /-- Types whose `enter`/`leave` only append fixed texts; `sub` tells if the type has a `PrepareVisit` method, that is,
  implements `SubVisitable` (visitable.go:23-26). -/
  | plain (op cl : Str) (sub : Bool)
  /-- `Node` (node.go:142-157); `name` is its symbolic name if it has one. -/
  | node (name : Option Str)
  /-- `AliasedExpression` (alias_expression.go:71-82): key of the delegate, and the alias as it is printed. -/
  | aliased (dkey : Key) (text : Str)
  deriving DecidableEq, Repr

/-- A `Visitable`, as far as the renderer looks at it. -/
structure Vis where
  key : Key
  kind : Kind
  deriving DecidableEq, Repr

/-- An `AliasedExpression` stored in the renderer. -/
structure Al where
  key : Key
  dkey : Key
  text : Str
  deriving DecidableEq, Repr

def Kind.isSub : Kind → Bool
  | .plain _ _ sub => sub
  | _ => false

/-- Type assertion `.(AliasedExpression)`. -/
def Vis.asAlias (v : Vis) : Option Al :=
  match v.kind with
  | .aliased dk tx => some ⟨v.key, dk, tx⟩
  | _ => none

def Al.vis (a : Al) : Vis := ⟨a.key, .aliased a.dkey a.text⟩

/-- The calls one `accept` makes: `enter v`, the parts, `leave v`; or a direct `append`. -/
inductive Tree where
  | node (v : Vis) (kids : List Tree)
  | raw (s : Str)

/-- A call to the renderer. -/
inductive Event where
  | enter (v : Vis)
  | leave (v : Vis)
  | raw (s : Str)

mutual
/-- The calls made by `accept`, in order. -/
def accept : Tree → List Event
  | .node v kids => .enter v :: (acceptL kids ++ [.leave v])
  | .raw s => [.raw s]
def acceptL : List Tree → List Event
  | [] => []
  | t :: ts => accept t ++ acceptL ts
end

/-- cypher_renderer.go:10-21 `CypherRenderer`.  Maps are functions; stacks have their top first. -/
structure RState where
  al : Key → Option Al            -- visitableToAliased
  seps : Int → Option Str         -- separatorOnLevel
  vis : Key → Bool                -- visitedNamed
  stack : List Key                -- currentVisitedElements
  astack : List Al                -- currentAliasedElements
  level : Int                     -- currentLevel
  skip : Bool                     -- skipNodeContent
  out : Str                       -- builder

/-- cypher_renderer.go:28-40 `NewRenderer`. -/
def RState.new : RState where
  al _ := none
  seps _ := none
  vis _ := false
  stack := []
  astack := []
  level := 0
  skip := false
  out := []

namespace RState

/-- cypher_renderer.go:23-26 `append`. -/
def append (s : RState) (t : Str) : RState := { s with out := s.out ++ t }

/-- cypher_renderer.go:53-59 `enableSeparator` and map assignment. -/
def setSep (s : RState) (l : Int) (x : Option Str) : RState :=
  { s with seps := fun l' => if l' = l then x else s.seps l' }

/-- cypher_renderer.go:166-171 `peek`: the empty string (key 0) on an empty stack. -/
def peek (s : RState) : Key := s.stack.headD 0

/-- cypher_renderer.go:143-148 `getAliasedIfSeen`. -/
def getAliasedIfSeen (s : RState) (v : Vis) : Vis :=
  match s.al v.key with
  | some a => a.vis
  | none => v

/-- cypher_renderer.go:104-108: is the innermost open alias one that was seen before? -/
def lastAliasSeen (s : RState) : Bool :=
  match s.astack with
  | [] => false
  | a :: _ => (s.al a.dkey).isSome

/-- cypher_renderer.go:112-115: remember an alias that is being entered. -/
def pushAlias (s : RState) (v : Vis) : RState :=
  match v.asAlias with
  | some a => { s with astack := a :: s.astack }
  | none => s

/-- cypher_renderer.go:116 `currentLevel++`. -/
def descend (s : RState) : RState := { s with level := s.level + 1 }

/-- cypher_renderer.go:117-120: a list construct enables the separator one level below. -/
def openSub (s : RState) (v : Vis) : RState :=
  if v.kind.isSub then s.setSep (s.level + 1) (some []) else s

/-- cypher_renderer.go:121-124: print the separator of this level and reset it. -/
def flushSep (s : RState) : RState :=
  match s.seps s.level with
  | some x => (s.append x).setSep s.level (some [])
  | none => s

/-- cypher_renderer.go:103-126 `PreEnter`. -/
def preEnter (s : RState) (v : Vis) : Bool × RState :=
  if s.skip || s.lastAliasSeen then (false, s)
  else
    let s1 := (((s.pushAlias v).descend).openSub v).flushSep
    (!s1.skip, s1)

/-- The `enter` methods of the types. -/
def enterOf (s : RState) (v : Vis) : RState :=
  match v.kind with
  | .plain op _ _ => s.append op
  | .node none => s.append c!"("
  | .node (some name) =>
    -- node.go:143-151
    let s1 := s.append c!"("
    let seen := s1.vis v.key
    let s2 := { s1 with skip := seen, vis := fun k => if k = v.key then true else s1.vis k }
    if seen then s2.append name else s2
  | .aliased dk tx =>
    -- alias_expression.go:71-75
    if (s.al dk).isSome then s.append tx else s

/-- The `leave` methods of the types. -/
def leaveOf (s : RState) (v : Vis) : RState :=
  match v.kind with
  | .plain _ cl _ => s.append cl
  | .node _ => { s.append c!")" with skip := false }      -- node.go:154-157
  | .aliased dk tx =>
    -- alias_expression.go:77-82
    if (s.al dk).isSome then s else (s.append c!" AS ").append tx

/-- cypher_renderer.go:130-132: a separator is due before the next construct on this level. -/
def armSep (s : RState) : RState :=
  if (s.seps s.level).isSome then s.setSep s.level (some c!", ") else s

/-- cypher_renderer.go:133-135: a list construct disables the separator one level below. -/
def closeSub (s : RState) (v : Vis) : RState :=
  if v.kind.isSub then s.setSep (s.level + 1) none else s

/-- cypher_renderer.go:136-139: forget the innermost open alias if it is the one being left. -/
def popAlias (s : RState) (v : Vis) : RState :=
  match s.astack with
  | [] => s
  | a :: rest => if a.key = v.key then { s with astack := rest } else s

/-- cypher_renderer.go:128-141 `postLeave`. -/
def postLeave (s : RState) (v : Vis) : RState :=
  let s1 := ((s.armSep).closeSub v).popAlias v
  { s1 with level := s1.level - 1 }

/-- cypher_renderer.go:81-87 `enter`. -/
def enter (s : RState) (v : Vis) : RState :=
  let u := s.getAliasedIfSeen v
  let (ok, s1) := s.preEnter u
  if ok then enterOf { s1 with stack := u.key :: s1.stack } u else s1

/-- cypher_renderer.go:97-100: an alias becomes known when it is left. -/
def register (s : RState) (v : Vis) : RState :=
  match v.asAlias with
  | some a => { s with al := fun k => if k = a.dkey then some a else s.al k }
  | none => s

/-- cypher_renderer.go:89-101 `leave`. -/
def leave (s : RState) (v : Vis) : RState :=
  let u := s.getAliasedIfSeen v
  let s1 :=
    if s.peek = u.key then
      let s2 := (s.leaveOf u).postLeave u
      { s2 with stack := s2.stack.tail }       -- pop, cypher_renderer.go:159-164
    else s
  s1.register v

def step (s : RState) : Event → RState
  | .enter v => s.enter v
  | .leave v => s.leave v
  | .raw t => s.append t

def run (s : RState) (es : List Event) : RState := es.foldl step s

end RState

/-- cypher_renderer.go:49-50: visiting a statement with the given renderer and reading its output; the statement's `accept`
makes the calls of a list of trees. -/
def renderOut (s : RState) (ts : List Tree) : Str := (s.run (acceptL ts)).out

/-- What `Render` sees of a `Statement` (statement.go): `GetError` and `accept`. -/
structure Statement where
  err : Option Err
  visit : List Tree

/-- cypher_renderer.go:42-51 `Render`; `none` is a nil statement.  The receiver is passed by value, so the caller's renderer
keeps its stacks, level, flag and (empty) builder; but the maps are references, so what was put into them stays.  The second
component is the caller's renderer after the call. -/
def render (u : Unicode) (r : RState) (st : Option Statement) : Except Err Str × RState :=
  match st with
  | none => (.error .nilStatement, r)
  | some st =>
    match st.err with
    | some e => (.error e, r)
    | none =>
      let r' := r.run (acceptL st.visit)
      (.ok (trimSpace u r'.out), { r with al := r'.al, seps := r'.seps, vis := r'.vis })

end Verif
