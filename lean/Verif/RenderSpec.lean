import Verif.Renderer

/-
Specification of rendering: a compositional reading of a tree.

The text of a construct is its opening text, the texts of its parts and its closing text.  Two memories are threaded through:
which aliases are already defined, and which named nodes were already described.
-/

namespace Verif.Spec

/-- The two memories. -/
structure Env where
  al : Key → Option Al      -- for the key of an expression: its alias, if one was defined
  vis : Key → Bool          -- named nodes already described

/-- How a construct is shown. -/
inductive Shown where
  /-- abbreviated: only this text (before and after whatever the parts still print on their own) -/
  | short (op cl : Str)
  /-- in full: opening text, parts, closing text -/
  | full (op cl : Str)

/-- An expression with a defined alias is abbreviated to the alias; so is an alias whose expression has a defined alias; so
is a named node that was described before.  Everything else is shown in full. -/
def shown (e : Env) (v : Vis) : Shown :=
  match e.al v.key with
  | some a => .short a.text []
  | none =>
    match v.kind with
    | .plain op cl _ => .full op cl
    | .node none => .full c!"(" c!")"
    | .node (some name) => if e.vis v.key then .short (c!"(" ++ name) c!")" else .full c!"(" c!")"
    | .aliased dk tx => if (e.al dk).isSome then .short tx [] else .full [] (c!" AS " ++ tx)

/-- Showing a named node in full marks it as described. -/
def described (e : Env) (v : Vis) : Env :=
  match v.kind with
  | .node (some _) => { e with vis := fun k => if k = v.key then true else e.vis k }
  | _ => e

/-- After an alias was shown it is defined. -/
def defined (e : Env) (v : Vis) : Env :=
  match v.asAlias with
  | some a => { e with al := fun k => if k = a.dkey then some a else e.al k }
  | none => e

mutual
/-- Effect of the parts of an abbreviated construct: they print nothing (except raw texts), but their aliases count as
defined afterwards. -/
def mute (e : Env) : Tree → Str × Env
  | .raw s => (s, e)
  | .node v kids => ((muteL e kids).1, defined (muteL e kids).2 v)
def muteL (e : Env) : List Tree → Str × Env
  | [] => ([], e)
  | t :: ts => ((mute e t).1 ++ (muteL (mute e t).2 ts).1, (muteL (mute e t).2 ts).2)
end

/-- Text put before a part of a construct: in a list construct, a comma before every part but the first. -/
def sepText (sub first : Bool) : Str := if sub && !first then c!", " else []

mutual
/-- Text of a tree, and the memories after it. -/
def den (e : Env) : Tree → Str × Env
  | .raw s => (s, e)
  | .node v kids =>
    match shown e v with
    | .short op cl => (op ++ (muteL e kids).1 ++ cl, defined (muteL e kids).2 v)
    | .full op cl =>
      let r := denL v.kind.isSub true (described e v) kids
      (op ++ r.1 ++ cl, defined r.2 v)
/-- Texts of the parts of a construct; `sub`: it is a list construct; `first`: no part was printed yet. -/
def denL (sub first : Bool) (e : Env) : List Tree → Str × Env
  | [] => ([], e)
  | .raw s :: ts => (s ++ (denL sub first e ts).1, (denL sub first e ts).2)
  | .node v kids :: ts =>
    let r := den e (.node v kids)
    (sepText sub first ++ r.1 ++ (denL sub false r.2 ts).1, (denL sub false r.2 ts).2)
end

/-- Empty memories. -/
def Env.empty : Env := ⟨fun _ => none, fun _ => false⟩

/-- The text of a whole statement. -/
def text (ts : List Tree) : Str := (denL false true Env.empty ts).1

/-- A construct as it was shown: itself, its parts, its text, and whether it was abbreviated. -/
structure Piece where
  v : Vis
  kids : List Tree
  text : Str
  short : Bool

mutual
/-- The constructs that are shown, with their texts, in the order in which they are completed (so the parts of a construct
come before the construct itself). -/
def pieces (e : Env) : Tree → List Piece
  | .raw _ => []
  | .node v kids =>
    match shown e v with
    | .short _ _ => [⟨v, kids, (den e (.node v kids)).1, true⟩]
    | .full _ _ => piecesL (described e v) kids ++ [⟨v, kids, (den e (.node v kids)).1, false⟩]
def piecesL (e : Env) : List Tree → List Piece
  | [] => []
  | t :: ts => pieces e t ++ piecesL (den e t).2 ts
end

/-- Texts of the parts of a construct, one by one. -/
def texts (e : Env) : List Tree → List Str
  | [] => []
  | t :: ts => (den e t).1 :: texts (den e t).2 ts

mutual
/-- Text of a tree without named nodes and aliases: no memory is needed. -/
def flat : Tree → Str
  | .raw s => s
  | .node v kids =>
    match v.kind with
    | .plain op cl sub => op ++ flatL sub true kids ++ cl
    | _ => c!"(" ++ flatL false true kids ++ c!")"
def flatL (sub first : Bool) : List Tree → Str
  | [] => []
  | .raw s :: ts => s ++ flatL sub first ts
  | .node v kids :: ts => sepText sub first ++ flat (.node v kids) ++ flatL sub false ts
end

mutual
/-- A tree without named nodes and aliases. -/
def Plain : Tree → Prop
  | .raw _ => True
  | .node v kids => (v.kind = .node none ∨ ∃ op cl sub, v.kind = .plain op cl sub) ∧ PlainL kids
def PlainL : List Tree → Prop
  | [] => True
  | t :: ts => Plain t ∧ PlainL ts
end

mutual
/-- A tree without direct appends, that is, without list literals of two or more elements. -/
def NoRaw : Tree → Prop
  | .raw _ => False
  | .node _ kids => NoRawL kids
def NoRawL : List Tree → Prop
  | [] => True
  | t :: ts => NoRaw t ∧ NoRawL ts
end

/-! ### Which trees the reading applies to -/

mutual
/-- All constructs of a tree. -/
def viss : Tree → List Vis
  | .raw _ => []
  | .node v kids => v :: vissL kids
def vissL : List Tree → List Vis
  | [] => []
  | t :: ts => viss t ++ vissL ts
end

mutual
/-- All keys that occur in a tree, with the keys of the delegates of its aliases. -/
def keys : Tree → List Key
  | .raw _ => []
  | .node v kids => v.key :: (match v.asAlias with | some a => [a.dkey] | none => []) ++ keysL kids
def keysL : List Tree → List Key
  | [] => []
  | t :: ts => keys t ++ keysL ts
end

mutual
/-- Keys of the delegates of the aliases in a tree. -/
def dkeys : Tree → List Key
  | .raw _ => []
  | .node v kids => (match v.asAlias with | some a => [a.dkey] | none => []) ++ dkeysL kids
def dkeysL : List Tree → List Key
  | [] => []
  | t :: ts => dkeys t ++ dkeysL ts
end

/-- `alOf` says which alias object lives at a key: one object per key, and no empty keys among them. -/
def AlOk (alOf : Key → Option Al) : Prop :=
  ∀ k a, alOf k = some a → a.key = k ∧ k ≠ 0 ∧ a.dkey ≠ 0 ∧ a.dkey ≠ k

/-- The first part of an alias is its delegate: either it is the only part, or (types that send no call of their own)
the delegate's key does not occur at all. -/
def DelegateOk (dk : Key) (kids : List Tree) : Prop :=
  (∃ d ks, kids = [.node d ks] ∧ d.key = dk) ∨ dk ∉ keysL kids

/-- Constructs that can be abbreviated somewhere: expressions that get an alias, named nodes, aliases. -/
def Special (alOf : Key → Option Al) (v : Vis) : Prop :=
  (∃ k a, alOf k = some a ∧ a.dkey = v.key) ∨ (∃ n, v.kind = .node (some n)) ∨ (alOf v.key).isSome

mutual
/-- Keys behave like object identities: an alias key always stands for the same alias, and nothing that can be abbreviated
contains itself. -/
def WF (alOf : Key → Option Al) : Tree → Prop
  | .raw _ => True
  | .node v kids =>
      alOf v.key = v.asAlias
    ∧ (Special alOf v → v.key ∉ keysL kids)
    ∧ (∀ a, v.asAlias = some a → DelegateOk a.dkey kids)
    ∧ WFL alOf kids
def WFL (alOf : Key → Option Al) : List Tree → Prop
  | [] => True
  | t :: ts => WF alOf t ∧ WFL alOf ts
end

mutual
/-- No alias is hidden inside something that can be abbreviated. -/
def AliasesOutside (alOf : Key → Option Al) : Tree → Prop
  | .raw _ => True
  | .node v kids => (Special alOf v → dkeysL kids = []) ∧ AliasesOutsideL alOf kids
def AliasesOutsideL (alOf : Key → Option Al) : List Tree → Prop
  | [] => True
  | t :: ts => AliasesOutside alOf t ∧ AliasesOutsideL alOf ts
end

/-- Every expression has at most one alias, and aliases are not aliased again. -/
def OneAlias (alOf : Key → Option Al) : Prop :=
  ∀ k a l b, alOf k = some a → alOf l = some b → (a.dkey = b.dkey → a = b) ∧ a.dkey ≠ l

/-- `t` occurs in `s`. -/
def Segment (t s : Str) : Prop := ∃ x y, s = x ++ t ++ y

/-- All parts are constructs (no direct appends between them). -/
def AllNodes (ts : List Tree) : Prop := ∀ t ∈ ts, ∃ v kids, t = .node v kids

/-- The renderers a user can have: a new one, or one that has rendered any number of statements. -/
inductive History (u : Unicode) (alOf : Key → Option Al) : RState → Prop
  | new : History u alOf RState.new
  | render (r : RState) (st : Option Statement) :
      History u alOf r → (∀ s, st = some s → WFL alOf s.visit) → History u alOf (Verif.render u r st).2

/-- The alias at a key, for a finite list of aliases. -/
def aliases (as : List Al) (k : Key) : Option Al := as.find? (fun a => a.key = k)

end Verif.Spec
