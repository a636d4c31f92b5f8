import Verif.ReadSpec
import Verif.PropsFloats
import Verif.PropsPatterns

/-
What the patterns built with the DSL are meant to be.

The memories of `Env` (RenderSpec.lean) are part of the meaning: after `x AS a`, an expression that contains `x` means the expression
with the variable `a` in its place; a named node that was described before is only referred to by its name.

`R` says what the expressions mean; see DenoteSpec.lean, where patterns are expressions themselves.
-/

namespace Verif.Spec

/-- The last call. -/
inductive CallKind where
  | membership    -- `In`, patterns
  | label         -- `HasLabels`
  | mixed         -- combinations of these
  | condition     -- other comparisons and combinations of conditions
  | power         -- `Pow`
  | negative      -- a negative number
  | atom          -- everything else
  deriving DecidableEq

def CallKind.isCondition : CallKind → Bool
  | .membership | .label | .mixed | .condition => true
  | _ => false

/-- May it be the first in a list?  `[x IN xs, …` and `[(a)-->(b), …` would be read as the beginnings of list comprehensions.  (The first
in a list may in fact be `n:Label`.) -/
def CallKind.first : CallKind → Bool
  | .membership | .label | .mixed => false
  | _ => true

/-- May it be an operand of a comparison?  In parentheses, `n:Label` would be read as a node. -/
def CallKind.operand : CallKind → Bool
  | .label | .mixed => false
  | _ => true

/-- A name that is not blank. -/
def Named (u : Unicode) (n : Str) : Prop := ∃ c ∈ n, u.isSpace c = false

/-- A name that can be used for a variable. -/
def VarName (u : Unicode) (n : Str) : Prop := Named u n ∧ lower n ∉ reserved ∧ lower n ∉ keywords

/-- The literals that `MapOf` and `LiteralOf` make. -/
inductive LiteralMeans (I : Meaning) : Obj → I.D → Prop
  | nil : LiteralMeans I .nil I.null
  | str (s : Str) : LiteralMeans I (.str s) (I.str s)
  | int (i : Int) : TenDigits (i : ℚ) → LiteralMeans I (.int i) (I.num i)
  | float (neg : Bool) (m : Nat) (e : Int) : TenDigits (floatValue neg m e) → LiteralMeans I (.float (.fin neg m e)) (I.num (floatValue neg m e))
  | bool (b : Bool) : LiteralMeans I (.bool b) (I.bool b)

/-- An entry of a map with its meaning: the value is an expression or something a literal is made of. -/
structure MeantEntry (I : Meaning) where
  key : Str
  value : Obj
  d : I.D
  σ : CallKind

/-! ### Memories -/

/-- What the parts of an abbreviated construct still print. -/
def rest (e : Env) (kids : List Tree) : List Tree := if (muteL e kids).1 = [] then [] else [.raw (muteL e kids).1]

mutual
/-- The tree as it is shown with the given memories: with the names of aliases in place of the constructs that have them, and without the
descriptions of the nodes that were described before. -/
def frozen (e : Env) : Tree → Tree
  | .raw s => .raw s
  | .node v kids =>
    match shown e v with
    | .short op cl => .node ⟨v.key, .plain op cl false⟩ (rest e kids)
    | .full op cl => .node ⟨v.key, .plain op cl v.kind.isSub⟩ (frozenL (described e v) kids)
def frozenL (e : Env) : List Tree → List Tree
  | [] => []
  | t :: ts => frozen e t :: frozenL (den e t).2 ts
end

/-- The aliases in a tree are defined already. -/
def Settled (e : Env) (ts : List Tree) : Prop := ∀ v ∈ vissL ts, ∀ a, v.asAlias = some a → e.al a.dkey = some a

/-- None of these objects has an alias. -/
def Unaliased (e : Env) (ks : List Key) : Prop := ∀ k ∈ ks, e.al k = none

variable (u : Unicode) {I : Meaning} (R : Val → I.D → CallKind → Prop)

/-- An expression means what the expression as it is shown means; `e'` are the memories afterwards. -/
def ExprTo (e : Env) (v : Val) (d : I.D) (σ : CallKind) (e' : Env) : Prop :=
  Settled e v.visit ∧ (shownAs e v.visit).2 = e' ∧ ∃ v', R v' d σ ∧ v'.visit = frozenL e v.visit

/-- The same if no node is described. -/
def ExprMeans (e : Env) (v : Val) (d : I.D) (σ : CallKind) : Prop := ExprTo R e v d σ e

/-- Properties of nodes and relationships are maps. -/
def MapMeans (e : Env) (m : Val) (d : I.D) : Prop :=
  Settled e m.visit ∧ (shownAs e m.visit).2 = e ∧ ∃ k ks m', ∃ es : List (MeantEntry I), (∀ x ∈ es, Named u x.key) ∧ (∀ x ∈ es, ∀ w, x.value = .expr w → R w x.d x.σ) ∧
    (∀ x ∈ es, (∀ w, x.value ≠ .expr w) → LiteralMeans I x.value x.d) ∧
    newMapExpression u k ks (entryArgs (es.map fun x => ⟨x.key, x.value⟩)) = .ok m' ∧ m'.err = none ∧ m'.visit = frozenL e m.visit ∧
    d = I.map (es.map fun x => (x.key, x.d))

def PropsMean (e : Env) : Option Val → Option I.D → Prop
  | none, none => True
  | some m, some d => MapMeans u R e m d
  | _, _ => False

/-! ### Patterns -/

/-- A node: the first time a named one is described, later its name stands for it. -/
inductive NodeMeans : Env → NodeV → NodePat I.D → Env → Prop
  | described {e : Env} {d : NodeDesc} {p : Option I.D} : d.Ok u → (∀ s, d.head.name = some s → VarName u s) → PropsMean u R (mark e d.run.key d.head.name) d.props p →
      Unaliased e (nodeKeys d.run) → (d.head.name = none ∨ e.vis d.run.key = false) →
      NodeMeans e d.run ⟨d.head.name, d.head.labels, p⟩ (mark e d.run.key d.head.name)
  | known {e : Env} {n : NodeV} {kn : Key} {s : Str} : n.err = none → n.name = some (kn, s) → VarName u s → isIdentifier u s = true → e.al n.key = none →
      e.vis n.key = true → Settled e (n.visit u) → NoRawL (n.visit u) → NodeMeans e n ⟨some s, [], none⟩ e

def arrowOf : Direction → Option Arrow
  | .ltr => some .right
  | .rtl => some .left
  | .uni => some .either
  | .none => none

/-- Relationships, each with the node it leads to. -/
inductive StepsMean : Env → List Step → List (RelPat I.D × NodePat I.D) → Env → Prop
  | nil {e : Env} : StepsMean e [] [] e
  | cons {e e' e'' : Env} {s : Step} {ss : List Step} {a : Arrow} {p : Option I.D} {np : NodePat I.D} {ps : List (RelPat I.D × NodePat I.D)} :
      s.Ok u → arrowOf s.dir = some a → (∀ x, nameOf s.calls = some x → VarName u x) → PropsMean u R e (propsOf s.calls) p →
      NodeMeans u R e s.node np e' → StepsMean e' ss ps e'' →
      StepsMean e (s :: ss) ((⟨a, nameOf s.calls, s.types.filter (· ≠ []), hopsOf s.calls, p⟩, np) :: ps) e''

/-- Nodes, relationships and chains. -/
inductive PathMeans : Env → Val → PathPat I.D → Env → Prop
  | node {e e' : Env} {n : NodeV} {np : NodePat I.D} : NodeMeans u R e n np e' → PathMeans e (n.toVal u) ⟨np, []⟩ e'
  | rel {e e' e'' : Env} {n : NodeV} {s : Step} {np : NodePat I.D} {ps : List (RelPat I.D × NodePat I.D)} : NodeMeans u R e n np e' →
      StepsMean u R e' [s] ps e'' → Unaliased e (relKeys (s.first n)) → PathMeans e ((s.first n).toVal u) ⟨np, ps⟩ e''
  | chain {e e' e'' : Env} {n : NodeV} {s t : Step} {more : List Step} {c : ChainV} {np : NodePat I.D} {ps : List (RelPat I.D × NodePat I.D)} :
      NodeMeans u R e n np e' → StepsMean u R e' (s :: t :: more) ps e'' → ((s :: t :: more).getLast (by simp)).node.notNil = true →
      chainRun n s t more = .ok c → Unaliased e (chainKeys c) → PathMeans e (c.toVal u) ⟨np, ps⟩ e''

/-- Paths, named paths and shortest paths. -/
inductive ElementMeans : Env → Val → Element I.D → Env → Prop
  | path {e e' : Env} {v : Val} {p : PathPat I.D} : PathMeans u R e v p e' → ElementMeans e v ⟨none, none, p⟩ e'
  | named {e e' : Env} {v : Val} {p : PathPat I.D} {guid : Str} {k kn : Key} {x : Str} : PathMeans u R e v p e' → v.err = none → VarName u x →
      Unaliased e [k, kn, Op.assignment.key] → ElementMeans e (aPath u guid k kn x v) ⟨some x, none, p⟩ e'
  | shortest {e e' : Env} {r : RelV} {p : PathPat I.D} {k kn kf ka : Key} {x : Str} : PathMeans u R e (r.toVal u) p e' → r.err = none → r.notNil = true →
      VarName u x → Unaliased e [k, kn, kf, ka, Op.assignment.key] → ElementMeans e (aShortestPath u k kn kf ka x r) ⟨some x, some c!"shortestPath", p⟩ e'

/-- One after the other. -/
inductive Thread {α β : Type} (R : Env → α → β → Env → Prop) : Env → List α → List β → Env → Prop
  | nil {e : Env} : Thread R e [] [] e
  | cons {e e' e'' : Env} {a : α} {b : β} {as : List α} {bs : List β} : R e a b e' → Thread R e' as bs e'' → Thread R e (a :: as) (b :: bs) e''

/-! ### Patterns in expressions -/

/-- The value is shown as this pattern, which has a relationship; with some memories it is the value of the pattern as it is shown then. -/
def PatternAs (w : Val) (p : PathPat I.D) : Prop :=
  w.err = none ∧ w.notNil = true ∧ p.steps ≠ [] ∧ ∃ e v e', PathMeans u R e v p e' ∧ w.visit = frozenL e v.visit

/-- The value is shown as this element of MATCH. -/
def ElementAs (w : Val) (p : Element I.D) : Prop := ∃ e v e', ElementMeans u R e v p e' ∧ w.visit = frozenL e v.visit

end Verif.Spec
