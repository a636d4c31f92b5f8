import Verif.Cond
import Verif.LayoutSpec

/-
Specification of conditions: how Cypher reads a text made of AND, OR, XOR, NOT, parentheses and atomic conditions, and what a
combination of conditions means.
-/

namespace Verif.Spec

/-- The words of the text of a condition; an atomic condition counts as one word. -/
inductive Tok where
  | lp | rp | and | or | xor | not
  | atom (v : Val)

/-- The text of a word. -/
def Tok.part : Tok → Part
  | .lp => .lit c!"("
  | .rp => .lit c!")"
  | .and => .lit c!" AND "
  | .or => .lit c!" OR "
  | .xor => .lit c!" XOR "
  | .not => .lit c!"NOT "
  | .atom v => .hole v.visit

/-- A Boolean formula. -/
inductive Formula where
  | atom (v : Val)
  | not (f : Formula)
  | and (f g : Formula)
  | or (f g : Formula)
  | xor (f g : Formula)

/-! Cypher's grammar of Boolean expressions: OR binds weakest, then XOR, then AND, then NOT; AND, OR, XOR associate to the
left. -/
mutual
/-- A word or a parenthesised expression. -/
inductive ReadsPrim : List Tok → Formula → Prop
  | atom (v : Val) : ReadsPrim [.atom v] (.atom v)
  | paren {ts f} : ReadsOr ts f → ReadsPrim (.lp :: ts ++ [.rp]) f
inductive ReadsNot : List Tok → Formula → Prop
  | prim {ts f} : ReadsPrim ts f → ReadsNot ts f
  | not {ts f} : ReadsNot ts f → ReadsNot (.not :: ts) (.not f)
inductive ReadsAnd : List Tok → Formula → Prop
  | one {ts f} : ReadsNot ts f → ReadsAnd ts f
  | and {ts us f g} : ReadsAnd ts f → ReadsNot us g → ReadsAnd (ts ++ .and :: us) (.and f g)
inductive ReadsXor : List Tok → Formula → Prop
  | one {ts f} : ReadsAnd ts f → ReadsXor ts f
  | xor {ts us f g} : ReadsXor ts f → ReadsAnd us g → ReadsXor (ts ++ .xor :: us) (.xor f g)
inductive ReadsOr : List Tok → Formula → Prop
  | one {ts f} : ReadsXor ts f → ReadsOr ts f
  | or {ts us f g} : ReadsOr ts f → ReadsXor us g → ReadsOr (ts ++ .or :: us) (.or f g)
end

/-- Cypher reads the words `ts` as the formula `f`. -/
abbrev Reads (ts : List Tok) (f : Formula) : Prop := ReadsOr ts f

/-- Cypher's truth values: true, false, and null (`none`). -/
abbrev Truth := Option Bool

namespace Truth
def not : Truth → Truth
  | some b => some (!b)
  | none => none
def and : Truth → Truth → Truth
  | some false, _ => some false
  | _, some false => some false
  | some true, some true => some true
  | _, _ => none
def or : Truth → Truth → Truth
  | some true, _ => some true
  | _, some true => some true
  | some false, some false => some false
  | _, _ => none
def xor : Truth → Truth → Truth
  | some a, some b => some (a != b)
  | _, _ => none
end Truth

theorem Truth.and_assoc (a b c : Truth) : Truth.and (Truth.and a b) c = Truth.and a (Truth.and b c) := by
  rcases a with _ | _ | _ <;> rcases b with _ | _ | _ <;> rcases c with _ | _ | _ <;> rfl
theorem Truth.or_assoc (a b c : Truth) : Truth.or (Truth.or a b) c = Truth.or a (Truth.or b c) := by
  rcases a with _ | _ | _ <;> rcases b with _ | _ | _ <;> rcases c with _ | _ | _ <;> rfl
theorem Truth.xor_assoc (a b c : Truth) : Truth.xor (Truth.xor a b) c = Truth.xor a (Truth.xor b c) := by
  rcases a with _ | _ | _ <;> rcases b with _ | _ | _ <;> rcases c with _ | _ | _ <;> rfl

/-- What conditions mean: values, the values of the atomic conditions, and connectives of which only associativity is known. -/
structure Logic where
  D : Type
  val : Val → D
  not : D → D
  and : D → D → D
  or : D → D → D
  xor : D → D → D
  and_assoc : ∀ a b c, and (and a b) c = and a (and b c)
  or_assoc : ∀ a b c, or (or a b) c = or a (or b c)
  xor_assoc : ∀ a b c, xor (xor a b) c = xor a (xor b c)

/-- Cypher's logic of true, false and null. -/
def truths (val : Val → Truth) : Logic := ⟨Truth, val, Truth.not, Truth.and, Truth.or, Truth.xor, Truth.and_assoc, Truth.or_assoc, Truth.xor_assoc⟩

/-- The value of a formula. -/
def Formula.eval (L : Logic) : Formula → L.D
  | .atom v => L.val v
  | .not f => L.not (f.eval L)
  | .and f g => L.and (f.eval L) (g.eval L)
  | .or f g => L.or (f.eval L) (g.eval L)
  | .xor f g => L.xor (f.eval L) (g.eval L)

/-- The three ways to combine. -/
inductive BOp where
  | and | or | xor
  deriving DecidableEq

def BOp.op : BOp → Op
  | .and => .and
  | .or => .or
  | .xor => .xor

def BOp.apply (L : Logic) : BOp → L.D → L.D → L.D
  | .and => L.and
  | .or => L.or
  | .xor => L.xor

/-- A combination of conditions, as the calls a user writes: an atomic condition, the empty condition, `p.And(q)`, `p.Or(q)`,
`p.Xor(q)`, `p.AndPattern(v)` etc., and `p.Not()`.  The keys are those of the objects the calls create. -/
inductive Calls where
  | atom (v : Val)
  | empty
  | bin (ks : Cond.Keys) (h : BOp) (p q : Calls)
  | pattern (ks : Cond.Keys) (h : BOp) (p : Calls) (v : Val)
  | not (k kn : Key) (p : Calls)

namespace Calls

/-- The condition the calls build. -/
def build : Calls → Cond
  | .atom v => .atom v
  | .empty => .empty
  | .bin ks h p q => Cond.combine ks p.build h.op q.build
  | .pattern ks h p v => Cond.combinePattern ks p.build h.op v
  | .not k kn p => Cond.not k kn p.build

/-- Neutral combination: what is empty does not count. -/
def neutral {D : Type} (f : D → D → D) : Option D → Option D → Option D
  | none, b => b
  | a, none => a
  | some a, some b => some (f a b)

/-- The value of a combination as it was written; `none` if nothing but empty conditions was combined. -/
def meaning (L : Logic) : Calls → Option L.D
  | .atom v => some (L.val v)
  | .empty => none
  | .bin _ h p q => neutral (h.apply L) (p.meaning L) (q.meaning L)
  | .pattern _ h p v => neutral (h.apply L) (p.meaning L) (some (L.val v))
  | .not _ _ p => (p.meaning L).map L.not

/-- Nothing but empty conditions. -/
def vacuous : Calls → Bool
  | .atom _ => false
  | .empty => true
  | .bin _ _ p q => p.vacuous && q.vacuous
  | .pattern .. => false
  | .not .. => false

/-- Not a combination. -/
def single : Calls → Bool
  | .atom _ => true
  | .not .. => true
  | _ => false

/-- A condition without error. -/
def UsableAtom (v : Val) : Prop := v.err = none ∧ v.notNil = true ∧ v.isCond = true

/-- All conditions given are usable, and nothing vacuous is negated. -/
def Usable : Calls → Prop
  | .atom v => UsableAtom v
  | .empty => True
  | .bin _ _ p q => p.Usable ∧ q.Usable
  | .pattern _ _ p v => p.Usable ∧ UsableAtom v
  | .not _ _ p => p.Usable ∧ p.vacuous = false

/-- The operator that was used last to combine something, on the outermost level. -/
def lastOp : Calls → Option BOp
  | .atom _ => none
  | .empty => none
  | .bin _ h p q => if q.single then some h else (p.lastOp).or (some h)
  | .pattern _ h _ _ => some h
  | .not .. => none

/-- The combinations that are rendered faithfully: a combination is never the argument of a call on a combination that was made
with a different operator. -/
def Faithful : Calls → Prop
  | .atom _ => True
  | .empty => True
  | .bin _ h p q => p.Faithful ∧ q.Faithful ∧
      (q.single ∨ q.vacuous ∨ p.vacuous ∨ p.lastOp = none ∨ p.lastOp = some h)
  | .pattern _ _ p _ => p.Faithful
  | .not _ _ p => p.Faithful

end Calls

/-! The words of a condition. -/

def opTok : Option Op → List Tok
  | some .and => [.and]
  | some .or => [.or]
  | some .xor => [.xor]
  | _ => []

mutual
/-- The words of the text of a condition, in order. -/
def toks : Cond → List Tok
  | .atom v => [.atom v]
  | .neg _ _ c => [.not, .lp] ++ toks c ++ [.rp]
  | .compound _ op conds _ _ _ _ _ => if conds.length > 1 then [.lp] ++ toksL op true conds ++ [.rp] else toksL op true conds
def toksL (op : Option Op) (first : Bool) : List Cond → List Tok
  | [] => []
  | c :: cs => (if first then [] else opTok (c.actualOp op)) ++ toks c ++ toksL op false cs
end

mutual
/-- Keys of the objects that the combination itself consists of (not those inside the atomic conditions). -/
def ownKeys : Cond → List Key
  | .atom _ => []
  | .neg k kn c => [k, kn, Op.not.key] ++ ownKeys c
  | .compound k _ conds _ _ _ _ _ => k :: [Op.and.key, Op.or.key, Op.xor.key] ++ ownKeysL conds
def ownKeysL : List Cond → List Key
  | [] => []
  | c :: cs => ownKeys c ++ ownKeysL cs
end

end Verif.Spec
