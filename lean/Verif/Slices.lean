import Verif.Builder

/-
Slices with shared backing arrays, and the parts of the code that append to or write into slices of values that the caller may still
hold: compound_condition.go (conditions), relationship_chain.go (relationships).  The rest of the model treats these as values.

`append` follows the Go specification: it writes into the backing array if the capacity suffices, and otherwise copies into a new
array.  The capacity of a new array is left to the implementation by the specification, so it is a parameter here; `goGrow` is what
the implementation does for slices of interface values with up to 16 elements (runtime/slice.go `growslice`: the capacity is doubled,
or is the length needed if that is more; multiples of 16 bytes up to 256 bytes are size classes, so it is not rounded up).
-/

namespace Verif

/-- A slice: the number of its backing array, length and capacity.  All slices start at the beginning of the array. -/
structure Slice where
  arr : Nat := 0
  len : Nat := 0
  cap : Nat := 0
  deriving DecidableEq, Repr

/-- Backing arrays.  `next`: number of the next array to be allocated. -/
structure Heap (α : Type) where
  next : Nat := 0
  mem : Nat → Nat → α

namespace Heap

variable {α : Type} [Inhabited α]

/-- No array has been allocated. -/
def initial : Heap α := { mem := fun _ _ => default }

/-- The elements of a slice. -/
def read (h : Heap α) (s : Slice) : List α := (List.range s.len).map (h.mem s.arr)

/-- The built-in function `append`. -/
def append (grow : Nat → Nat → Nat) (h : Heap α) (s : Slice) (xs : List α) : Heap α × Slice :=
  if s.len + xs.length ≤ s.cap then
    ({ h with mem := fun a i => if a = s.arr ∧ s.len ≤ i then (xs[i - s.len]?).getD (h.mem a i) else h.mem a i },
      { s with len := s.len + xs.length })
  else
    ({ next := h.next + 1, mem := fun a i => if a = h.next then ((h.read s ++ xs)[i]?).getD default else h.mem a i },
      { arr := h.next, len := s.len + xs.length, cap := max (grow s.cap (s.len + xs.length)) (s.len + xs.length) })

/-- The assignment `s[len(s)-1] = x`. -/
def setLast (h : Heap α) (s : Slice) (x : α) : Heap α :=
  { h with mem := fun a i => if a = s.arr ∧ i + 1 = s.len then x else h.mem a i }

end Heap

/-- runtime/slice.go `growslice`, for at most 16 interface values. -/
def goGrow (cap need : Nat) : Nat := if need > 2 * cap then need else 2 * cap

/-! ### Conditions -/

/-- A value of type `Condition`, as in `Cond`, with the slices that hold the conditions of a compound. -/
inductive HCond where
  | atom (v : Val)
  | neg (k kn : Key) (c : HCond)
  | compound (k : Key) (op : Option Op) (conds : Slice) (isEmpty : Bool) (err : Option Err) (notNil : Bool)
      (hasCopy : Bool) (copy : Slice)

instance : Inhabited HCond := ⟨.compound 0 none {} false none false false {}⟩

namespace HCond

variable (grow : Nat → Nat → Nat)

/-- Type assertion `.(CompoundCondition)`. -/
def isCompound : HCond → Bool
  | .compound .. => true
  | _ => false

/-- compound_condition.go:140-144 `EMPTY_CONDITION`. -/
def empty : HCond := .compound 0 none {} true none true false {}

/-- compound_condition.go:65-69 `CompoundConditionError`. -/
def bad (e : Err) : HCond := .compound 0 none {} false (some e) false false {}

/-- A condition without the conditions in its slices, which are not needed for `GetError()` and `isNotNil()`. -/
def shallow : HCond → Cond
  | .atom v => .atom v
  | .neg k kn c => .neg k kn c.shallow
  | .compound k op _ isEmpty err nn hasCopy _ => .compound k op [] isEmpty err nn hasCopy []

/-- compound_condition.go:178-181 `hasCondition`. -/
def hasCondition : HCond → Bool
  | .compound _ _ conds isEmpty .. => !(isEmpty || conds.len == 0)
  | _ => true

/-- compound_condition.go:183-190 `canBeFlattenedWith`. -/
def canBeFlattenedWith (h : Op) (conds : List HCond) : Bool :=
  conds.all fun c =>
    match c with
    | .compound _ op .. => op == some h
    | _ => true

/-- compound_condition.go:153-173, except for the last line. -/
def addConds (m : Heap HCond) (op : Option Op) (conds : Slice) (ki : Key) (h : Op) (x : HCond) : Heap HCond × Slice :=
  match x with
  | .compound _ op' conds' .. =>
    if !x.hasCondition then (m, conds)
    else if op = some h ∧ op' = some h then
      if canBeFlattenedWith h (m.read conds') then m.append grow conds (m.read conds') else m.append grow conds [x]
    else
      let inner := m.append grow {} [x]
      inner.1.append grow conds [.compound ki (some h) inner.2 false none true true {}]
  | _ => m.append grow conds [x]

/-- compound_condition.go:18-52 `CompoundConditionCreate`, for one of the valid operators. -/
def compoundCreate (m : Heap HCond) (ks : Cond.Keys) (left : HCond) (h : Op) (right : HCond) : Heap HCond × HCond :=
  match firstErr [left.shallow.toVal.err, right.shallow.toVal.err,
      nilErr (some left.shallow.toVal) (.site "compound_condition.go" 29),
      nilErr (some right.shallow.toVal) (.site "compound_condition.go" 44)] with
  | some e => (m, bad e)
  | none =>
    let m1 := addConds grow m (some h) {} ks.inner1 h left
    let m2 := addConds grow m1.1 (some h) m1.2 ks.inner2 h right
    (m2.1, .compound ks.new (some h) m2.2 false none true true m2.2)

/-- condition_container.go:13-35 `And`, `Or`, `Xor` of a `ConditionContainer` that holds `c`, and
compound_condition.go:124-176 of a `CompoundCondition`. -/
def combine (m : Heap HCond) (ks : Cond.Keys) (c : HCond) (h : Op) (x : HCond) : Heap HCond × HCond :=
  match c with
  | .compound k op conds isEmpty err nn hasCopy cp =>
    if isEmpty then
      let m1 := addConds grow m (some h) {} ks.inner1 h x
      (m1.1, .compound ks.new (some h) m1.2 false none true true {})
    else if x.isCompound ∨ op = some h then
      let m1 := addConds grow m op conds ks.inner1 h x
      (m1.1, .compound k op m1.2 isEmpty err nn hasCopy cp)
    else compoundCreate grow m ks c h x
  | _ => compoundCreate grow m ks c h x

end HCond

/-- What a program does with conditions: `v_n := ...` in the n-th line, where the operands are numbers of lines. -/
inductive CondInstr where
  | atom (v : Val)
  | empty
  /-- `And`, `Or`, `Xor` -/
  | combine (ks : Cond.Keys) (receiver : Nat) (h : Op) (argument : Nat)
  | not (k kn : Key) (receiver : Nat)

/-- One line of the program, in Go's memory. -/
def CondInstr.run (grow : Nat → Nat → Nat) (st : Heap HCond × List HCond) : CondInstr → Heap HCond × List HCond
  | .atom v => (st.1, st.2 ++ [.atom v])
  | .empty => (st.1, st.2 ++ [.empty])
  | .combine ks i h j =>
    let r := HCond.combine grow st.1 ks (st.2[i]?.getD default) h (st.2[j]?.getD default)
    (r.1, st.2 ++ [r.2])
  | .not k kn i => (st.1, st.2 ++ [.neg k kn (st.2[i]?.getD default)])

/-- One line of the program, with conditions as values. -/
def CondInstr.value (vs : List Cond) : CondInstr → List Cond
  | .atom v => vs ++ [.atom v]
  | .empty => vs ++ [.empty]
  | .combine ks i h j =>
    vs ++ [Cond.combine ks (vs[i]?.getD (.compound 0 none [] false none false false [])) h
      (vs[j]?.getD (.compound 0 none [] false none false false []))]
  | .not k kn i => vs ++ [.neg k kn (vs[i]?.getD (.compound 0 none [] false none false false []))]

/-- The lines used as receivers of `And`, `Or`, `Xor`. -/
def CondInstr.receivers : List CondInstr → List Nat
  | [] => []
  | .combine _ i _ _ :: is => i :: receivers is
  | _ :: is => receivers is

/-- The conditions that one reads, now, from a list of conditions in memory: what `accept` sees. -/
inductive MemReads (m : Heap HCond) : List HCond → List Cond → Prop
  | nil : MemReads m [] []
  | atom (v : Val) {cs : List HCond} {as : List Cond} : MemReads m cs as → MemReads m (.atom v :: cs) (.atom v :: as)
  | neg (k kn : Key) {c : HCond} {a : Cond} {cs : List HCond} {as : List Cond} :
      MemReads m [c] [a] → MemReads m cs as → MemReads m (.neg k kn c :: cs) (.neg k kn a :: as)
  | compound (k : Key) (op : Option Op) (conds : Slice) (isEmpty : Bool) (err : Option Err) (nn hasCopy : Bool) (cp : Slice)
      {xs ys : List Cond} {cs : List HCond} {as : List Cond} :
      MemReads m (m.read conds) xs → MemReads m (m.read cp) ys → MemReads m cs as →
      MemReads m (.compound k op conds isEmpty err nn hasCopy cp :: cs) (.compound k op xs isEmpty err nn hasCopy ys :: as)

/-! ### Chains of relationships -/

instance : Inhabited RelV := ⟨{}⟩

/-- relationship_chain.go:5-10 `RelationshipChain`, as in `ChainV`, with the slice that holds the relationships. -/
structure HChain where
  rels : Slice := {}
  notNil : Bool := false
  err : Option Err := none

namespace HChain

variable (grow : Nat → Nat → Nat)

/-- The chain that one reads, now. -/
def read (m : Heap RelV) (c : HChain) : ChainV := { rels := m.read c.rels, notNil := c.notNil, err := c.err }

/-- relationship_chain.go:12-16 `RelationshipChainCreate` (a slice of length and capacity 1), 116-119 `Add`; relationship.go:118-128. -/
def start (m : Heap RelV) (r : RelV) (k kd kt : Key) (dir : Direction) (node : NodeV) (types : List Str) : Heap RelV × HChain :=
  let one := m.append (fun _ need => need) {} [r]
  let two := one.1.append grow one.2 [RelV.create k kd kt r.right dir node types]
  (two.1, { rels := two.2, notNil := true })

/-- relationship_chain.go:34-50 `RelationshipTo`, `RelationshipFrom`, `RelationshipBetween`. -/
def extend (m : Heap RelV) (c : HChain) (k kd kt : Key) (dir : Direction) (node : NodeV) (types : List Str) :
    Outcome (Heap RelV × HChain) :=
  match (m.read c.rels).getLast? with
  | some r =>
    let s := m.append grow c.rels [RelV.create k kd kt r.right dir node types]
    .ok (s.1, { c with rels := s.2 })
  | none => .panic

/-- relationship_chain.go:56-96 `NamedC`, `Unbounded`, `Min`, `Length`, `Max`, `Properties`, `PropertiesRaw`: the last element of the
slice is overwritten. -/
def changeLast (m : Heap RelV) (c : HChain) (f : RelV → Outcome RelV) : Outcome (Heap RelV × HChain) :=
  match (m.read c.rels).getLast? with
  | some r => (f r).map fun r' => (m.setLast c.rels r', c)
  | none => .panic

end HChain

/-- What a program does with chains: `c_n := ...` in the n-th line, where the receiver is the number of a line. -/
inductive ChainInstr where
  | start (r : RelV) (k kd kt : Key) (dir : Direction) (node : NodeV) (types : List Str)
  | extend (receiver : Nat) (k kd kt : Key) (dir : Direction) (node : NodeV) (types : List Str)
  | changeLast (receiver : Nat) (f : RelV → Outcome RelV)

/-- One line of the program, in Go's memory. -/
def ChainInstr.run (grow : Nat → Nat → Nat) (st : Heap RelV × List HChain) : ChainInstr → Outcome (Heap RelV × List HChain)
  | .start r k kd kt dir node types =>
    let c := HChain.start grow st.1 r k kd kt dir node types
    .ok (c.1, st.2 ++ [c.2])
  | .extend i k kd kt dir node types =>
    (HChain.extend grow st.1 (st.2[i]?.getD {}) k kd kt dir node types).map fun c => (c.1, st.2 ++ [c.2])
  | .changeLast i f => (HChain.changeLast st.1 (st.2[i]?.getD {}) f).map fun c => (c.1, st.2 ++ [c.2])

/-- One line of the program, with chains as values. -/
def ChainInstr.value (vs : List ChainV) : ChainInstr → Outcome (List ChainV)
  | .start r k kd kt dir node types => .ok (vs ++ [ChainV.start r k kd kt dir node types])
  | .extend i k kd kt dir node types => (ChainV.extend (vs[i]?.getD {}) k kd kt dir node types).map fun c => vs ++ [c]
  | .changeLast i f => (ChainV.changeLast (vs[i]?.getD {}) f).map fun c => vs ++ [c]

/-- The lines used as receivers. -/
def ChainInstr.receivers : List ChainInstr → List Nat
  | [] => []
  | .start .. :: is => receivers is
  | .extend i .. :: is => i :: receivers is
  | .changeLast i _ :: is => i :: receivers is

/-- A whole program, in Go's memory. -/
def runChains (grow : Nat → Nat → Nat) : List ChainInstr → Heap RelV × List HChain → Outcome (Heap RelV × List HChain)
  | [], st => .ok st
  | i :: is, st => (i.run grow st).bind (runChains grow is)

/-- A whole program, with chains as values. -/
def valueChains : List ChainInstr → List ChainV → Outcome (List ChainV)
  | [], vs => .ok vs
  | i :: is, vs => (i.value vs).bind (valueChains is)

end Verif
