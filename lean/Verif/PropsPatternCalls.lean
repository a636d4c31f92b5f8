import Verif.PropsPatterns

/-
C73: what nodes, relationships and chains contain, for every sequence of calls, with or without errors.
-/

namespace Verif
namespace Spec

/-! ### Relationships -/

/-- The error a call puts into a relationship: an empty name, properties with an error. -/
def RelCall.fails : RelCall → Option Err
  | .named _ _ s => if s = [] then some (.site "relationship_details.go" 92) else none
  | .withProperties _ _ m => if m.notNil then m.err else none
  | _ => none

/-- `WithProperties` of a map that counts as nil. -/
def RelCall.idle : RelCall → Bool
  | .withProperties _ _ m => !m.notNil
  | _ => false

/-- A call that changes a relationship: one of `RelCall`, or `WithRawProperties` with arguments that make no map. -/
inductive RelCallX where
  | call (c : RelCall)
  | rawError (e : Err)

namespace RelCallX

def run (c : RelCallX) (r : RelV) : RelV :=
  match c with
  | .call c => c.run r
  | .rawError e => .bad e

def fails : RelCallX → Option Err
  | .call c => c.fails
  | .rawError e => some e

def plain : RelCallX → Option RelCall
  | .call c => some c
  | .rawError _ => none

end RelCallX

/-- The calls since the last one that failed. -/
def sinceFail (cs : List RelCallX) : List RelCall := (cs.reverse.takeWhile fun c => c.fails.isNone).reverse.filterMap RelCallX.plain

/-- The error of the last call that failed; `er`: the error before the calls. -/
def lastFail (er : Option Err) (cs : List RelCallX) : Option Err := (cs.filterMap RelCallX.fails).getLast?.or er

/-- The properties given last, unless they count as nil. -/
def propsLeft (cs : List RelCall) : Option Val := (propsOf cs).filter (·.notNil)

/-- `a`, or `z` if there was an error. -/
def unlessFailed {α : Type} (er : Option Err) (a z : α) : α :=
  match er with
  | none => a
  | some _ => z

/-- A relationship with the node it leads to, and any calls that change it. -/
structure StepX where
  k : Key
  kd : Key
  kt : Key
  dir : Direction
  node : NodeV
  types : List Str
  calls : List RelCallX

/-- `n.RelationshipTo(node, types...)` (or `From`, `Between`) and the calls. -/
def StepX.first (s : StepX) (n : NodeV) : RelV := s.calls.foldl (fun r c => c.run r) (RelV.create s.k s.kd s.kt n s.dir s.node s.types)

/-- What Cypher writes before and after the brackets of a relationship; nothing if there is no direction. -/
def arrow : Direction → Str × Str
  | .none => ([], [])
  | d => (beforeRel d, afterRel d)

/-- Like `Between`, for a relationship that may have lost its direction. -/
def BetweenX (u : Unicode) (dir : Direction) (h : RelHead) (props : Option Val) (ps : List Part) : Prop :=
  ∃ d : Str, (∀ rest : Str, (rest.head? = some ']' ∨ rest.head? = some ' ') → readRelHead u (d ++ rest) = some (h, rest)) ∧
    ps = [.lit (arrow dir).1] ++
      (if h = ⟨none, [], .one⟩ ∧ props.isNone then [] else [.lit c!"[", .lit d] ++ propParts props ++ [.lit c!"]"]) ++
      [.lit (arrow dir).2]

/-- The last error of the step. -/
def StepX.lastError (s : StepX) (n : NodeV) : Option Err := lastFail (firstErr [n.err, s.node.err]) s.calls

end Spec
open Spec

section
variable {u : Unicode} {e : Env}

/-- The stored content is what the calls say. -/
structure RelContent (a b : NodeV) (dir : Direction) (types : Option (Key × List Str)) (cs : List RelCall) (r : RelV) : Prop where
  left : r.left = a
  right : r.right = b
  derr : r.details.err = none
  dir : r.details.dir = dir
  types : r.details.types = types
  name : r.details.name.map (·.2) = nameOf cs
  props : r.details.props.map (·.2) = propsLeft cs
  lower : r.details.length.bind (·.min) = lowerOf cs
  upper : r.details.length.bind (·.max) = upperOf cs
  hops : hopsV r.details.length = hopsOf cs
  hopsOk : ∀ l, r.details.length = some l → l.unbounded = true ∨ l.min ≠ none ∨ l.max ≠ none

theorem content_bad (er : Err) : RelContent {} {} .none none [] (.bad er) := by
  constructor <;> simp [RelV.bad, nameOf, propsLeft, propsOf, lowerOf, upperOf, since, hopsV, hopsOf]

theorem propsLeft_snoc (cs : List RelCall) (k kp : Key) (m : Val) :
    propsLeft (cs ++ [.withProperties k kp m]) = if m.notNil then some m else none := by
  simp [propsLeft, propsOf, List.filterMap_append, RelCall.props, Option.filter]

theorem content_run {a b : NodeV} {dir : Direction} {types : Option (Key × List Str)} {cs : List RelCall} {r : RelV}
    (ha : a.err = none) (hb : b.err = none) (h : RelContent a b dir types cs r) (c : RelCall) (hc : c.fails = none) :
    RelContent a b dir types (cs ++ [c]) (c.run r) ∧ (c.run r).err = if c.idle ∧ propsLeft cs = none then r.err else none := by
  have hl := h.lower
  have hu := h.upper
  have hn := h.name
  have hp := h.props
  cases c with
  | named k kn s =>
    have hs : s ≠ [] := by simpa [RelCall.fails] using hc
    have : (RelCall.named k kn s).run r = { left := a, details := { dir := dir, name := some (kn, s), types := types, length := r.details.length, props := r.details.props }, right := b, key := k, notNil := true } := by
      simp only [RelCall.run, RelV.named, DetailsV.namedByString, hs, if_false, DetailsV.create, h.left, h.right]
      rw [create3_ok ha rfl hb, h.dir, h.types]
    rw [this]
    refine ⟨?_, by simp [RelCall.idle]⟩
    constructor <;> simp_all [nameOf, propsOf, propsLeft, lowerOf, upperOf, since_snoc, hopsOf_snoc, RelCall.isLength, RelCall.isUnbounded, RelCall.name, RelCall.props, RelCall.lower, RelCall.upper, List.filterMap_append, h.hops]
    exact h.hopsOk
  | unbounded k kl =>
    have : (RelCall.unbounded k kl).run r = { left := a, details := { dir := dir, name := r.details.name, types := types, length := some { key := kl, unbounded := true }, props := r.details.props }, right := b, key := k, notNil := true } := by
      simp only [RelCall.run, RelV.unbounded, DetailsV.unbounded, DetailsV.create, h.left, h.right]
      rw [create3_ok ha rfl hb, h.dir, h.types]
    rw [this]
    refine ⟨?_, by simp [RelCall.idle]⟩
    constructor <;> simp_all [nameOf, propsOf, propsLeft, lowerOf, upperOf, since_snoc, hopsOf_snoc, RelCall.isLength, RelCall.isUnbounded, RelCall.name, RelCall.props, RelCall.lower, RelCall.upper, List.filterMap_append, hopsV]
  | min k kl i =>
    have : (RelCall.min k kl i).run r = { left := a, details := { dir := dir, name := r.details.name, types := types, length := some { key := kl, min := some i, max := r.details.length.bind (·.max) }, props := r.details.props }, right := b, key := k, notNil := true } := by
      simp only [RelCall.run, RelV.min, DetailsV.min, DetailsV.create, h.left, h.right]
      rw [create3_ok ha rfl hb, h.dir, h.types]
    rw [this]
    refine ⟨?_, by simp [RelCall.idle]⟩
    constructor <;> simp_all [nameOf, propsOf, propsLeft, lowerOf, upperOf, since_snoc, hopsOf_snoc, RelCall.isLength, RelCall.isUnbounded, RelCall.name, RelCall.props, RelCall.lower, RelCall.upper, List.filterMap_append, hopsV]
  | max k kl i =>
    have : (RelCall.max k kl i).run r = { left := a, details := { dir := dir, name := r.details.name, types := types, length := some { key := kl, min := r.details.length.bind (·.min), max := some i }, props := r.details.props }, right := b, key := k, notNil := true } := by
      simp only [RelCall.run, RelV.max, DetailsV.max, DetailsV.create, h.left, h.right]
      rw [create3_ok ha rfl hb, h.dir, h.types]
    rw [this]
    refine ⟨?_, by simp [RelCall.idle]⟩
    constructor <;> simp_all [nameOf, propsOf, propsLeft, lowerOf, upperOf, since_snoc, hopsOf_snoc, RelCall.isLength, RelCall.isUnbounded, RelCall.name, RelCall.props, RelCall.lower, RelCall.upper, List.filterMap_append, hopsV]
  | length k kl kl' i j =>
    have : (RelCall.length k kl kl' i j).run r = { left := a, details := { dir := dir, name := r.details.name, types := types, length := some { key := kl', min := some i, max := some j }, props := r.details.props }, right := b, key := k, notNil := true } := by
      simp only [RelCall.run, RelV.length, DetailsV.min, DetailsV.max, DetailsV.create, h.left, h.right]
      rw [create3_ok ha rfl hb, h.dir, h.types]
      rfl
    rw [this]
    refine ⟨?_, by simp [RelCall.idle]⟩
    constructor <;> simp_all [nameOf, propsOf, propsLeft, lowerOf, upperOf, since_snoc, hopsOf_snoc, RelCall.isLength, RelCall.isUnbounded, RelCall.name, RelCall.props, RelCall.lower, RelCall.upper, List.filterMap_append, hopsV]
  | withProperties k kp m =>
    cases hm : m.notNil with
    | true =>
      have hme : m.err = none := by simpa [RelCall.fails, hm] using hc
      have : (RelCall.withProperties k kp m).run r = { left := a, details := { dir := dir, name := r.details.name, types := types, length := r.details.length, props := some (kp, m) }, right := b, key := k, notNil := true } := by
        simp only [RelCall.run, RelV.withProperties, hm, hme, DetailsV.withProps, DetailsV.create, h.left, h.right]
        simp only [Bool.not_true, Bool.false_and, Bool.false_eq_true, if_false, if_true]
        rw [create3_ok ha rfl hb, h.dir, h.types]
      rw [this]
      refine ⟨?_, by simp [RelCall.idle, hm]⟩
      constructor <;> (try rw [propsLeft_snoc]) <;> simp_all [nameOf, lowerOf, upperOf, since_snoc, hopsOf_snoc, RelCall.isLength, RelCall.isUnbounded, RelCall.name, RelCall.props, RelCall.lower, RelCall.upper, List.filterMap_append, h.hops]
      exact h.hopsOk
    | false =>
      cases hd : r.details.props with
      | none =>
        have : (RelCall.withProperties k kp m).run r = r := by
          simp [RelCall.run, RelV.withProperties, hm, hd]
        rw [this]
        have hpl : propsLeft cs = none := by rw [← hp, hd]; rfl
        refine ⟨?_, by simp [RelCall.idle, hm, hpl]⟩
        constructor <;> (try rw [propsLeft_snoc]) <;> simp_all [nameOf, lowerOf, upperOf, since_snoc, hopsOf_snoc, RelCall.isLength, RelCall.isUnbounded, RelCall.name, RelCall.props, RelCall.lower, RelCall.upper, List.filterMap_append, h.hops, h.left, h.right, h.derr, h.dir, h.types]
        exact h.hopsOk
      | some x =>
        have : (RelCall.withProperties k kp m).run r = { left := a, details := { dir := dir, name := r.details.name, types := types, length := r.details.length, props := none }, right := b, key := k, notNil := true } := by
          simp only [RelCall.run, RelV.withProperties, hm, hd, DetailsV.withProps, DetailsV.create, h.left, h.right]
          simp only [Bool.not_false, Option.isNone_some, Bool.and_false, Bool.false_eq_true, if_false]
          rw [create3_ok ha rfl hb, h.dir, h.types]
        rw [this]
        have hpl : propsLeft cs ≠ none := by rw [← hp, hd]; simp
        refine ⟨?_, by simp [hpl]⟩
        constructor <;> (try rw [propsLeft_snoc]) <;> simp_all [nameOf, lowerOf, upperOf, since_snoc, hopsOf_snoc, RelCall.isLength, RelCall.isUnbounded, RelCall.name, RelCall.props, RelCall.lower, RelCall.upper, List.filterMap_append, h.hops]
        exact h.hopsOk

theorem run_fails (r : RelV) (hl : r.left.err = none) (c : RelCallX) (er : Err) (hc : c.fails = some er) :
    c.run r = .bad er := by
  cases c with
  | rawError e' => cases hc; rfl
  | call c =>
    cases c with
    | named k kn s =>
      have hs : s = [] ∧ Err.site "relationship_details.go" 92 = er := by
        simpa [RelCallX.fails, RelCall.fails] using hc
      obtain ⟨rfl, rfl⟩ := hs
      simp [RelCallX.run, RelCall.run, RelV.named, DetailsV.namedByString, RelV.create3, firstErr, hl]
    | withProperties k kp m =>
      have hs : m.notNil = true ∧ m.err = some er := by
        have := hc
        simp only [RelCallX.fails, RelCall.fails] at this
        split at this
        · exact ⟨‹_›, this⟩
        · cases this
      simp [RelCallX.run, RelCall.run, RelV.withProperties, DetailsV.withProps, DetailsV.create, RelV.create3, firstErr, hl, hs.1, hs.2]
    | _ => simp [RelCallX.fails, RelCall.fails] at hc

theorem sinceFail_ok (cs : List RelCallX) (c : RelCall) (h : c.fails = none) : sinceFail (cs ++ [.call c]) = sinceFail cs ++ [c] := by
  simp [sinceFail, RelCallX.fails, h, RelCallX.plain]

theorem sinceFail_fail (cs : List RelCallX) (c : RelCallX) (h : c.fails ≠ none) : sinceFail (cs ++ [c]) = [] := by
  cases hc : c.fails with
  | none => exact absurd hc h
  | some e => simp [sinceFail, hc]

theorem lastFail_snoc (er : Option Err) (cs : List RelCallX) (c : RelCallX) : lastFail er (cs ++ [c]) = c.fails.or (lastFail er cs) := by
  cases h : c.fails <;> simp [lastFail, List.filterMap_append, h]

theorem idle_props (cs : List RelCall) (h : cs.all RelCall.idle = true) : propsLeft cs = none := by
  rw [propsLeft, propsOf]
  cases hp : (cs.filterMap RelCall.props).getLast? with
  | none => rfl
  | some m =>
    obtain ⟨c, hc, hcm⟩ := List.mem_filterMap.mp (List.mem_of_getLast? hp)
    have := List.all_eq_true.mp h c hc
    cases c <;> simp_all [RelCall.props, RelCall.idle, Option.filter]

theorem snoc_induction {α : Type} {p : List α → Prop} (nil : p []) (snoc : ∀ xs x, p xs → p (xs ++ [x])) (xs : List α) : p xs := by
  have h : ∀ ys : List α, p ys.reverse := by
    intro ys
    induction ys with
    | nil => exact nil
    | cons y ys ih => rw [List.reverse_cons]; exact snoc _ _ ih
  simpa using h xs.reverse

/-- What a relationship is between, its direction and types, after the last error `er`. -/
theorem step_content (n : NodeV) (s : StepX) :
    (s.first n).err = (if (sinceFail s.calls).all RelCall.idle then s.lastError n else none) ∧
    RelContent (unlessFailed (s.lastError n) n {}) (unlessFailed (s.lastError n) s.node {}) (unlessFailed (s.lastError n) s.dir .none)
      (unlessFailed (s.lastError n) (if s.types = [] then none else some (s.kt, s.types)) none) (sinceFail s.calls) (s.first n) := by
  obtain ⟨k, kd, kt, dir, node, types, calls⟩ := s
  simp only [StepX.first, StepX.lastError]
  induction calls using snoc_induction with
  | nil =>
    cases h1 : n.err with
    | some e1 =>
      have : RelV.create k kd kt n dir node types = .bad e1 := by simp [RelV.create, RelV.create3, firstErr, h1]
      simpa [lastFail, firstErr, sinceFail, this, RelV.bad, unlessFailed, h1] using content_bad e1
    | none =>
      cases h2 : node.err with
      | some e2 =>
        have : RelV.create k kd kt n dir node types = .bad e2 := by simp [RelV.create, RelV.create3, firstErr, h1, h2]
        simpa [lastFail, firstErr, sinceFail, this, RelV.bad, unlessFailed, h1] using content_bad e2
      | none =>
        have : RelV.create k kd kt n dir node types = { left := n, details := { dir := dir, types := if types = [] then none else some (kt, types), key := kd }, right := node, key := k, notNil := true } := by
          simp [RelV.create, RelV.create3, firstErr, h1, h2]
        simp only [lastFail, firstErr, sinceFail, this, List.foldl_nil, List.filterMap_nil, List.getLast?_nil, Option.or, List.reverse_nil, List.takeWhile_nil, List.all_nil, if_true, unlessFailed]
        refine ⟨by trivial, ?_⟩
        constructor <;> simp [nameOf, propsLeft, propsOf, lowerOf, upperOf, since, hopsV, hopsOf]
  | snoc cs c ih =>
    obtain ⟨he, hc⟩ := ih
    rw [List.foldl_append]
    simp only [List.foldl_cons, List.foldl_nil]
    have hab : ∀ er : Option Err, lastFail (firstErr [n.err, node.err]) cs = er →
        (unlessFailed er n {}).err = none ∧ (unlessFailed er node {}).err = none := by
      intro er her
      cases er with
      | some x => exact ⟨rfl, rfl⟩
      | none =>
        have h0 : firstErr [n.err, node.err] = none := by
          cases hf : firstErr [n.err, node.err] with
          | none => rfl
          | some x => simp [lastFail, hf] at her
        cases h1 : n.err <;> cases h2 : node.err <;> simp [firstErr, h1, h2] at h0
        exact ⟨h1, h2⟩
    obtain ⟨ha, hb⟩ := hab _ rfl
    rw [lastFail_snoc]
    cases hf : c.fails with
    | some er =>
      rw [run_fails _ (by rw [hc.left]; exact ha) c er hf, sinceFail_fail _ _ (by simp [hf])]
      simpa [RelV.bad, unlessFailed] using content_bad er
    | none =>
      cases c with
      | rawError x => cases hf
      | call c =>
        rw [sinceFail_ok _ _ hf]
        simp only [Option.none_or]
        obtain ⟨hc', he'⟩ := content_run ha hb hc c hf
        refine ⟨?_, hc'⟩
        show (c.run _).err = _
        rw [he', he]
        cases hi : c.idle with
        | false => simp [hi]
        | true =>
          by_cases hal : (sinceFail cs).all RelCall.idle = true
          · have hpl := idle_props _ hal
            have hal' : (sinceFail cs ++ [c]).all RelCall.idle = true := by simp only [List.all_append, hal, List.all_cons, hi, List.all_nil, Bool.and_self]
            rw [if_pos ⟨rfl, hpl⟩, if_pos hal, if_pos hal']
          · have hal' : ¬ (sinceFail cs ++ [c]).all RelCall.idle = true := by
              simp only [List.all_append, Bool.and_eq_true]; exact fun h => hal h.1
            rw [if_neg hal, if_neg hal']
            simp

theorem content_between {a b : NodeV} {dir : Direction} {kt : Key} {types : List Str} {cs : List RelCall} {r : RelV} (ht : TypesOk types)
    (hnm : ∀ s, nameOf cs = some s → NotBlank u s) (h : RelContent a b dir (if types = [] then none else some (kt, types)) cs r) :
    ∃ ps, BetweenX u dir ⟨nameOf cs, types.filter (· ≠ []), hopsOf cs⟩ (propsLeft cs) ps ∧
      ∀ e, layout e (detailsTm u r.details).parts = layout e ps := by
  refine ⟨_, ⟨nameTextOf u (nameOf cs) ++ typesText types ++ hopsTextOf r.details.length, ?_, rfl⟩, ?_⟩
  · intro rest hr
    rw [readRelHead_text u _ types _ hnm ht h.hopsOk rest hr, h.hops]
  · intro e
    rw [detailsTm_parts]
    have h1 : (arrow dir).1 = r.details.dir.left := by rw [h.dir]; cases dir <;> rfl
    have h2 : (arrow dir).2 = r.details.dir.right := by rw [h.dir]; cases dir <;> rfl
    have h3 : typesTextO r.details.types = typesText types := by
      rw [h.types]
      by_cases h0 : types = []
      · simp [h0, typesTextO, typesText]
      · simp [h0, typesTextO]
    have h4 : ((⟨nameOf cs, types.filter (· ≠ []), hopsOf cs⟩ : RelHead) = ⟨none, [], .one⟩ ∧ (propsLeft cs).isNone = true) ↔
        r.details.hasContent = false := by
      rw [DetailsV.hasContent, ← h.name, ← h.props, ← h.hops, h.types]
      have h5 : types.filter (· ≠ []) = [] ↔ types = [] := by
        refine ⟨fun h0 => Classical.byContradiction fun hn => filter_ne_nil ht hn h0, ?_⟩
        rintro rfl
        rfl
      have h6 : hopsV r.details.length = .one ↔ r.details.length = none := by
        rcases r.details.length with _ | l
        · simp [hopsV]
        · simp only [hopsV, reduceCtorEq, iff_false]
          split <;> simp
      simp only [RelHead.mk.injEq, h5, h6]
      by_cases h0 : types = [] <;> rcases r.details.name with _ | ⟨kn, s⟩ <;> rcases r.details.props with _ | ⟨kp, m⟩ <;>
        rcases r.details.length with _ | l <;> simp [h0]
    rw [h1, h2, h3, h.name, h.props]
    by_cases hc : r.details.hasContent = true
    · rw [if_pos hc, if_neg (by rw [h4]; simp [hc])]
    · rw [if_neg hc, if_pos (by rw [h4]; simpa using hc)]

/-- What a step says of its relationship. -/
def Spec.StepX.head (s : StepX) (n : NodeV) : RelHead :=
  ⟨nameOf (sinceFail s.calls), unlessFailed (s.lastError n) (s.types.filter (· ≠ [])) [], hopsOf (sinceFail s.calls)⟩

theorem step_between (n : NodeV) (s : StepX) (ht : TypesOk s.types) (hnm : ∀ t, nameOf (sinceFail s.calls) = some t → NotBlank u t) :
    ∃ ps, BetweenX u (unlessFailed (s.lastError n) s.dir .none) (s.head n) (propsLeft (sinceFail s.calls)) ps ∧
      ∀ e, layout e (detailsTm u (s.first n).details).parts = layout e ps := by
  have h := (step_content n s).2
  have hh : s.head n = ⟨nameOf (sinceFail s.calls), (unlessFailed (s.lastError n) s.types []).filter (· ≠ []), hopsOf (sinceFail s.calls)⟩ := by
    simp only [StepX.head, unlessFailed]
    cases s.lastError n <;> rfl
  rw [hh]
  refine content_between (kt := s.kt) (a := unlessFailed (s.lastError n) n {}) (b := unlessFailed (s.lastError n) s.node {}) ?_ hnm ?_
  · cases s.lastError n with
    | none => exact ht
    | some _ => exact Or.inl rfl
  · cases hl : s.lastError n <;> rw [hl] at h <;> exact h

/-- C73: a relationship after any calls, with any arguments.  It has an error exactly if something failed (a node, an empty name,
properties with an error) and only calls without effect came after it; it is then the last error.  Otherwise the text is that of the
calls since the last failure; if there was one, the nodes are empty, and direction and types are gone. -/
theorem C73_relationship (n : NodeV) (s : StepX) :
    (s.first n).err = (if (sinceFail s.calls).all RelCall.idle then s.lastError n else none) ∧
    (TypesOk s.types → (∀ t, nameOf (sinceFail s.calls) = some t → NotBlank u t) → NoAlias e (relKeys (s.first n)) ((s.first n).visit u) →
      ∃ ps, BetweenX u (unlessFailed (s.lastError n) s.dir .none) (s.head n) (propsLeft (sinceFail s.calls)) ps ∧
        shownAs e ((s.first n).visit u) =
          layout e ([.hole ((unlessFailed (s.lastError n) n {}).visit u)] ++ ps ++ [.hole ((unlessFailed (s.lastError n) s.node {}).visit u)])) := by
  have h := step_content n s
  refine ⟨h.1, fun ht hnm ha => ?_⟩
  obtain ⟨ps, hb, hl⟩ := step_between (u := u) n s ht hnm
  refine ⟨ps, hb, ?_⟩
  rw [rel_shown ha hl, h.2.left, h.2.right]

/-! ### Chains -/

namespace Spec

/-- The calls of a step on a chain. -/
def StepX.change (s : StepX) (c : Outcome ChainV) : Outcome ChainV :=
  s.calls.foldl (fun c call => c.bind fun c => c.changeLast fun r => .ok (call.run r)) c

/-- A chain: the first relationship, the second one, and so on. -/
def chainRunX (n : NodeV) (s t : StepX) (more : List StepX) : Outcome ChainV :=
  more.foldl (fun c s => s.change (c.bind fun c => c.extend s.k s.kd s.kt s.dir s.node s.types))
    (t.change (.ok (ChainV.start (s.first n) t.k t.kd t.kt t.dir t.node t.types)))

/-- The node a relationship ends with: the one that was given, or an empty one if there was an error. -/
def StepX.endNode (s : StepX) (n : NodeV) : NodeV := unlessFailed (s.lastError n) s.node {}

/-- The text of the steps of a chain, beginning with the node `n`: for each step the node it begins with and its relationship, and the last
node unless it counts as nil.  If a step failed, both its nodes are empty, and so is the first node of the next one. -/
inductive ChainPartsX (u : Unicode) : NodeV → List StepX → List Part → Prop
  | nil {n : NodeV} : ChainPartsX u n [] (if n.notNil then [.hole (n.visit u)] else [])
  | cons {n : NodeV} {s : StepX} {ss : List StepX} {ps qs : List Part} :
      BetweenX u (unlessFailed (s.lastError n) s.dir .none) (s.head n) (propsLeft (sinceFail s.calls)) ps → ChainPartsX u (s.endNode n) ss qs →
      ChainPartsX u n (s :: ss) (.hole ((unlessFailed (s.lastError n) n {}).visit u) :: (ps ++ qs))

end Spec

/-- The relationships of a chain. -/
def relsX : NodeV → List StepX → List RelV
  | _, [] => []
  | n, s :: ss => s.first n :: relsX (s.endNode n) ss

def lastNodeX : NodeV → List StepX → NodeV
  | n, [] => n
  | n, s :: ss => lastNodeX (s.endNode n) ss

theorem first_right (n : NodeV) (s : StepX) : (s.first n).right = s.endNode n := (step_content n s).2.right

theorem relsX_snoc (n : NodeV) (ss : List StepX) (s : StepX) : relsX n (ss ++ [s]) = relsX n ss ++ [s.first (lastNodeX n ss)] := by
  induction ss generalizing n with
  | nil => rfl
  | cons t ss ih => simp [relsX, lastNodeX, ih]

theorem lastNodeX_snoc (n : NodeV) (ss : List StepX) (s : StepX) : lastNodeX n (ss ++ [s]) = s.endNode (lastNodeX n ss) := by
  induction ss generalizing n with
  | nil => rfl
  | cons t ss ih => simp [lastNodeX, ih]

theorem relsX_last (n : NodeV) (ss : List StepX) (h : ss ≠ []) : ∃ r, (relsX n ss).getLast? = some r ∧ r.right = lastNodeX n ss := by
  obtain ⟨ss', s, rfl⟩ : ∃ ss' s, ss = ss' ++ [s] := ⟨ss.dropLast, ss.getLast h, (List.dropLast_concat_getLast h).symm⟩
  exact ⟨s.first (lastNodeX n ss'), by rw [relsX_snoc]; simp, by rw [lastNodeX_snoc, first_right]⟩

theorem change_okX (cs : List RelCallX) (c : ChainV) (rs : List RelV) (r : RelV) (h : c.rels = rs ++ [r]) :
    cs.foldl (fun c call => c.bind fun c => c.changeLast fun r => .ok (call.run r)) (Outcome.ok c) =
      .ok { c with rels := rs ++ [cs.foldl (fun r c => c.run r) r] } := by
  induction cs generalizing c r with
  | nil => simp [← h]
  | cons x cs ih =>
    have h1 : (Outcome.ok c).bind (fun c => c.changeLast fun r => .ok (x.run r)) = .ok { c with rels := rs ++ [x.run r] } := by
      simp [Outcome.bind, ChainV.changeLast, h, Outcome.map]
    rw [List.foldl_cons, h1, ih { c with rels := rs ++ [x.run r] } (x.run r) rfl]
    rfl

theorem chainRunX_eq (n : NodeV) (s t : StepX) (more : List StepX) :
    chainRunX n s t more = .ok { rels := relsX n (s :: t :: more), notNil := true } := by
  have h0 : t.change (.ok (ChainV.start (s.first n) t.k t.kd t.kt t.dir t.node t.types)) = .ok { rels := relsX n [s, t], notNil := true } := by
    rw [StepX.change, change_okX _ _ [s.first n] _ rfl, first_right]
    rfl
  have hstep : ∀ (ss : List StepX) (x : StepX), ss ≠ [] →
      x.change ((Outcome.ok { rels := relsX n ss, notNil := true : ChainV }).bind fun c => c.extend x.k x.kd x.kt x.dir x.node x.types) =
        .ok { rels := relsX n (ss ++ [x]), notNil := true } := by
    intro ss x hss
    obtain ⟨r, hr1, hr2⟩ := relsX_last n ss hss
    have h1 : ((Outcome.ok { rels := relsX n ss, notNil := true : ChainV }).bind fun c => c.extend x.k x.kd x.kt x.dir x.node x.types) =
        .ok { rels := relsX n ss ++ [RelV.create x.k x.kd x.kt (lastNodeX n ss) x.dir x.node x.types], notNil := true } := by
      simp [Outcome.bind, ChainV.extend, hr1, hr2]
    rw [h1, StepX.change, change_okX _ _ (relsX n ss) _ rfl, relsX_snoc]
    rfl
  have hall : ∀ (more ss : List StepX), ss ≠ [] →
      more.foldl (fun c s => s.change (c.bind fun c => c.extend s.k s.kd s.kt s.dir s.node s.types))
        (Outcome.ok { rels := relsX n ss, notNil := true : ChainV }) = .ok { rels := relsX n (ss ++ more), notNil := true } := by
    intro more
    induction more with
    | nil => intro ss _; simp
    | cons x more ih =>
      intro ss hss
      rw [List.foldl_cons, hstep ss x hss, ih (ss ++ [x]) (by simp)]
      simp
  rw [chainRunX, h0, hall more [s, t] (by simp)]
  rfl

def lastTms (u : Unicode) (n : NodeV) : List Tm := if n.notNil then [.hole (n.visit u)] else []

theorem chainTms_partsX {n : NodeV} {ss : List StepX}
    (hs : ∀ s ∈ ss, TypesOk s.types ∧ ∀ t, nameOf (sinceFail s.calls) = some t → NotBlank u t) :
    ∃ ps, ChainPartsX u n ss ps ∧ ∀ (b : Bool) (e : Env),
      layout e (Tm.partsL false b (chainTms u (relsX n ss) ++ lastTms u (lastNodeX n ss))) = layout e ps := by
  induction ss generalizing n with
  | nil =>
    refine ⟨_, .nil, fun b e => ?_⟩
    cases hn : n.notNil <;> simp [relsX, lastNodeX, chainTms, lastTms, hn, Tm.partsL, Tm.parts, layout, sepText]
  | cons s ss ih =>
    obtain ⟨ht, hnm⟩ := hs s (by simp)
    obtain ⟨ps, hb, hl⟩ := step_between (u := u) n s ht hnm
    obtain ⟨qs, hq, hl'⟩ := ih (n := s.endNode n) (fun x hx => hs x (by simp [hx]))
    refine ⟨_, .cons hb hq, fun b e => ?_⟩
    have : chainTms u (relsX n (s :: ss)) = .hole ((unlessFailed (s.lastError n) n {}).visit u) :: detailsTm u (s.first n).details :: chainTms u (relsX (s.endNode n) ss) := by
      simp [chainTms, relsX, (step_content n s).2.left]
    rw [this]
    simp only [List.cons_append, lastNodeX]
    simp [Tm.partsL, Tm.parts, layout, sepText, layout_append, hl, hl']

/-- C73: a chain after any calls, with any arguments: it never has an error, and shows every step, as described by `ChainPartsX`. -/
theorem C73_chain (n : NodeV) (s t : StepX) (more : List StepX) :
    ∃ c, chainRunX n s t more = .ok c ∧ c.err = none ∧ c.notNil = true ∧
      ((∀ x ∈ s :: t :: more, TypesOk x.types ∧ ∀ t, nameOf (sinceFail x.calls) = some t → NotBlank u t) → NoAlias e (chainKeys c) (c.visit u) →
        ∃ ps, ChainPartsX u n (s :: t :: more) ps ∧ shownAs e (c.visit u) = layout e ps) := by
  refine ⟨_, chainRunX_eq n s t more, rfl, rfl, fun hs ha => ?_⟩
  obtain ⟨ps, hp, hlay⟩ := chainTms_partsX (u := u) (n := n) hs
  obtain ⟨r, hr1, hr2⟩ := relsX_last n (s :: t :: more) (by simp)
  refine ⟨ps, hp, ?_⟩
  refine shown_self (.node 0 [] [] false (chainTms u (relsX n (s :: t :: more)) ++ lastTms u (lastNodeX n (s :: t :: more)))) ?_ ?_ ?_ ?_
  · simp only [Tm.trees, treesL_append, chainTms_trees, ChainV.visit, hr1, ChainV.lastVisit, hr2, lastTms]
    split <;> simp [Tm.treesL, Tm.trees]
  · simp only [Tm.Ok, okL_append, chainTms_ok, lastTms]
    split <;> simp [Tm.OkL, Tm.Ok]
  · intro k hk
    apply ha
    simp only [Tm.keys, keysL_append, chainTms_keys, chainKeys, lastTms] at hk ⊢
    split at hk <;> simpa [Tm.keysL, Tm.keys] using hk
  · simp [Tm.parts, layout, layout_append, hlay]

/-! ### Nodes -/

namespace Spec

/-- A call that changes a node: `Named(name)`, where the name may have an error or count as nil, `NamedByString`, `WithProperties`, or
`WithRawProperties` with arguments that make no map. -/
inductive NodeCallX where
  | named (name : Except Err (Option (Key × Str)))
  | namedByString (k : Key) (name : Str)
  | withProperties (k kp : Key) (m : Val)
  | rawError (e : Err)

namespace NodeCallX

def run (c : NodeCallX) (n : NodeV) : NodeV :=
  match c with
  | .named x => n.named x
  | .namedByString k s => n.namedByString k s
  | .withProperties k kp m => n.withProperties k kp m
  | .rawError e => .bad e

/-- The error a call puts into a node. -/
def fails : NodeCallX → Option Err
  | .named (.error e) => some e
  | .named (.ok none) => some (.site "node.go" 200)
  | .rawError e => some e
  | _ => none

/-- The name a call gives; `NamedByString("")` takes it away. -/
def name : NodeCallX → Option (Option Str)
  | .named (.ok (some x)) => some (some x.2)
  | .namedByString _ s => some (if s = [] then none else some s)
  | _ => none

/-- The properties a call gives; a map with an error takes them away. -/
def props : NodeCallX → Option (Option Val)
  | .withProperties _ _ m => some (if m.err.isSome then none else some m)
  | _ => none

end NodeCallX

/-- A node made by a constructor and any calls. -/
structure NodeDescX where
  ctor : NodeCtor
  calls : List NodeCallX

def NodeDescX.run (d : NodeDescX) : NodeV := d.calls.foldl (fun n c => c.run n) d.ctor.run

/-- The error of a constructor: an empty label, but for `NewNodeWithLabels`. -/
def NodeCtor.fails : NodeCtor → Option Err
  | .anyNode => none
  | .aNode _ _ l => if l = [] then some (.site "node.go" 48) else none
  | .withLabels .. => none
  | .create3 _ _ l ls => if l = [] then some (.site "node.go" 62) else if [] ∈ ls then some (.site "node.go" 66) else none
  | .withProperties _ _ _ l _ ls => if l = [] then some (.site "node.go" 25) else if [] ∈ ls then some (.site "node.go" 29) else none

/-- The properties of the constructor, unless they have an error. -/
def NodeCtor.propsLeft (c : NodeCtor) : Option Val := c.props.filter (·.err.isNone)

namespace NodeDescX

/-- The calls since the last one that failed. -/
def since (d : NodeDescX) : List NodeCallX := (d.calls.reverse.takeWhile fun c => c.fails.isNone).reverse

/-- The last error. -/
def lastError (d : NodeDescX) : Option Err := (d.calls.filterMap NodeCallX.fails).getLast?.or d.ctor.fails

/-- What is left of what was said of the node: the labels unless something failed, and the name given last since. -/
def head (d : NodeDescX) : NodeHead :=
  ⟨(d.since.filterMap NodeCallX.name).getLast?.join, unlessFailed d.lastError (d.ctor.labels.filter (· ≠ [])) []⟩

/-- The properties given last since something failed. -/
def props (d : NodeDescX) : Option Val :=
  ((d.since.filterMap NodeCallX.props).getLast?.getD (unlessFailed d.lastError d.ctor.propsLeft none))

end NodeDescX
end Spec

/-- The stored content is what the calls say. -/
structure NodeContent (d : NodeDescX) (n : NodeV) : Prop where
  err : n.err = if d.since.any (fun c => c.props.isSome) then none else d.lastError
  labels : n.labels.map (·.2) = unlessFailed d.lastError d.ctor.labels []
  name : n.name.map (·.2) = (d.since.filterMap NodeCallX.name).getLast?.join
  props : n.props.map (·.2) = d.props

theorem node_content (d : NodeDescX) : NodeContent d d.run := by
  obtain ⟨ctor, calls⟩ := d
  induction calls using snoc_induction with
  | nil =>
    cases ctor with
    | anyNode => constructor <;> simp [NodeDescX.run, NodeCtor.run, NodeV.any, NodeDescX.since, NodeDescX.lastError, NodeDescX.props, NodeCtor.fails, NodeCtor.labels, NodeCtor.props, NodeCtor.propsLeft, unlessFailed]
    | aNode k kl l =>
      by_cases hl : l = [] <;>
      constructor <;> simp [NodeDescX.run, NodeCtor.run, NodeV.create2, NodeV.bad, hl, NodeDescX.since, NodeDescX.lastError, NodeDescX.props, NodeCtor.fails, NodeCtor.labels, NodeCtor.props, NodeCtor.propsLeft, unlessFailed]
    | withLabels l ls =>
      constructor <;> simp [NodeDescX.run, NodeCtor.run, NodeV.newWithLabels, NodeDescX.since, NodeDescX.lastError, NodeDescX.props, NodeCtor.fails, NodeCtor.labels, NodeCtor.props, NodeCtor.propsLeft, unlessFailed, Function.comp_def]
    | create3 k ks l ls =>
      by_cases hl : l = []
      · constructor <;> simp [NodeDescX.run, NodeCtor.run, NodeV.create3, NodeV.bad, hl, NodeDescX.since, NodeDescX.lastError, NodeDescX.props, NodeCtor.fails, unlessFailed]
      · by_cases hls : [] ∈ ls
        · constructor <;> simp [NodeDescX.run, NodeCtor.run, NodeV.create3, NodeV.bad, hl, hls, NodeDescX.since, NodeDescX.lastError, NodeDescX.props, NodeCtor.fails, unlessFailed]
        · have : ∀ n, (ls.zipIdx n).map Prod.fst = ls := fun n => by simp
          constructor <;> simp [NodeDescX.run, NodeCtor.run, NodeV.create3, hl, hls, NodeDescX.since, NodeDescX.lastError, NodeDescX.props, NodeCtor.fails, NodeCtor.labels, NodeCtor.props, NodeCtor.propsLeft, unlessFailed, Function.comp_def]
    | withProperties k kp ks l m ls =>
      by_cases hl : l = []
      · constructor <;> simp [NodeDescX.run, NodeCtor.run, NodeV.create5, NodeV.create1, NodeV.bad, hl, NodeDescX.since, NodeDescX.lastError, NodeDescX.props, NodeCtor.fails, unlessFailed]
      · by_cases hls : [] ∈ ls
        · constructor <;> simp [NodeDescX.run, NodeCtor.run, NodeV.create5, NodeV.create1, NodeV.bad, hl, hls, NodeDescX.since, NodeDescX.lastError, NodeDescX.props, NodeCtor.fails, unlessFailed]
        · have : ∀ n, (ls.zipIdx n).map Prod.fst = ls := fun n => by simp
          cases hm : m.err <;>
          constructor <;> simp [NodeDescX.run, NodeCtor.run, NodeV.create5, NodeV.create1, NodeV.propsOf, hl, hls, hm, NodeDescX.since, NodeDescX.lastError, NodeDescX.props, NodeCtor.fails, NodeCtor.labels, NodeCtor.props, NodeCtor.propsLeft, unlessFailed, Function.comp_def, Option.filter]
  | snoc cs c ih =>
    obtain ⟨h1, h2, h3, h4⟩ := ih
    have hrun : (⟨ctor, cs ++ [c]⟩ : NodeDescX).run = c.run (⟨ctor, cs⟩ : NodeDescX).run := by simp [NodeDescX.run, List.foldl_append]
    rw [hrun]
    have hlast : (⟨ctor, cs ++ [c]⟩ : NodeDescX).lastError = c.fails.or (⟨ctor, cs⟩ : NodeDescX).lastError := by
      cases h : c.fails <;> simp [NodeDescX.lastError, List.filterMap_append, h]
    cases hf : c.fails with
    | some er =>
      have hb : c.run (⟨ctor, cs⟩ : NodeDescX).run = .bad er := by
        cases c with
        | named x =>
          rcases x with e' | o
          · cases hf; rfl
          · cases o with
            | none => cases hf; rfl
            | some _ => cases hf
        | rawError e' => cases hf; rfl
        | _ => cases hf
      have hs : (⟨ctor, cs ++ [c]⟩ : NodeDescX).since = [] := by simp [NodeDescX.since, hf]
      rw [hf] at hlast
      rw [hb]
      constructor <;> simp [hs, hlast, NodeDescX.props, NodeV.bad, unlessFailed]
    | none =>
      have hs : (⟨ctor, cs ++ [c]⟩ : NodeDescX).since = (⟨ctor, cs⟩ : NodeDescX).since ++ [c] := by simp [NodeDescX.since, hf]
      rw [hf, Option.none_or] at hlast
      cases c with
      | named x =>
        rcases x with e' | o
        · cases hf
        · cases o with
          | none => cases hf
          | some x =>
            constructor <;> simp_all [NodeCallX.run, NodeV.named, NodeDescX.props, List.filterMap_append, NodeCallX.name, NodeCallX.props]
      | rawError e' => cases hf
      | namedByString k s =>
        by_cases hz : s = [] <;>
        constructor <;> simp_all [NodeCallX.run, NodeV.namedByString, NodeDescX.props, List.filterMap_append, NodeCallX.name, NodeCallX.props]
      | withProperties k kp m =>
        cases hm : m.err <;>
        constructor <;> simp_all [NodeCallX.run, NodeV.withProperties, NodeV.propsOf, NodeDescX.props, List.filterMap_append, NodeCallX.name, NodeCallX.props]

/-- C73: a node after any calls, with any arguments.  It has an error exactly if something failed and no `WithProperties` came after it; it
is then the last error.  Its text has the labels of the constructor unless something failed, the name given last since then, and the
properties given last since then. -/
theorem C73_node (d : NodeDescX) :
    d.run.err = (if d.since.any (fun c => c.props.isSome) then none else d.lastError) ∧
    ((∀ s, d.head.name = some s → NotBlank u s) → NoAlias e (nodeKeys d.run) (d.run.visit u) → (d.head.name = none ∨ e.vis d.run.key = false) →
      ∃ ps, NodeParts u d.head d.props ps ∧ shownAs e (d.run.visit u) = layout (mark e d.run.key d.head.name) ps) := by
  have h := node_content d
  refine ⟨h.err, fun hnm ha hv => ?_⟩
  have hname : d.run.name.map (·.2) = d.head.name := h.name
  have hv' : d.run.name = none ∨ e.vis d.run.key = false := by
    rcases hv with hv | hv
    · left
      rw [hv] at hname
      simpa using hname
    · exact Or.inr hv
  have hlab : (d.run.labels.map (·.2)).filter (· ≠ []) = d.head.labels := by
    rw [h.labels]
    simp only [NodeDescX.head, unlessFailed]
    cases d.lastError <;> rfl
  refine ⟨_, ⟨nameTextOf u d.head.name ++ d.head.labels.flatMap (fun t => ':' :: escapeName t), ?_, rfl⟩, ?_⟩
  · intro rest hr
    exact readNodeHead_text u _ _ hnm rest hr
  · rw [node_shown ha hv', hname, hlab, h.props]

/-- C73: `WithRawProperties` is one of the calls above. -/
theorem C73_raw (k kp km : Key) (ks : Nat → Key) (args : List Obj) :
    (∀ n n' : NodeV, n.withRawProperties u k kp km ks args = .ok n' →
      (∃ er, n' = (NodeCallX.rawError er).run n) ∨ ∃ m, n' = (NodeCallX.withProperties k kp m).run n) ∧
    ∀ r r' : RelV, r.withRawProperties u k kp km ks args = .ok r' →
      (∃ er, r' = (RelCallX.rawError er).run r) ∨ ∃ m, r' = (RelCallX.call (.withProperties k kp m)).run r := by
  constructor
  · intro n n' h
    unfold NodeV.withRawProperties at h
    split at h
    · cases h; exact .inr ⟨_, rfl⟩
    · cases hm : newMapExpression u km ks args with
      | panic => rw [hm] at h; cases h
      | ok m =>
        rw [hm] at h
        cases hme : m.err with
        | some er => simp only [Outcome.map, hme] at h; cases h; exact .inl ⟨er, rfl⟩
        | none => simp only [Outcome.map, hme] at h; cases h; exact .inr ⟨m, rfl⟩
  · intro r r' h
    unfold RelV.withRawProperties at h
    split at h
    · cases h; exact .inr ⟨_, rfl⟩
    · cases hm : newMapExpression u km ks args with
      | panic => rw [hm] at h; cases h
      | ok m =>
        rw [hm] at h
        cases hme : m.err with
        | some er => simp only [Outcome.map, hme] at h; cases h; exact .inl ⟨er, rfl⟩
        | none => simp only [Outcome.map, hme] at h; cases h; exact .inr ⟨m, rfl⟩

/-- Calls that do not fail and give no properties keep the identity of a node, and its properties. -/
theorem naming_keeps (cs : List NodeCallX) (n : NodeV) (hf : ∀ c ∈ cs, c.fails = none) (hp : ∀ c ∈ cs, c.props = none) :
    (cs.foldl (fun n c => c.run n) n).key = n.key ∧ (cs.foldl (fun n c => c.run n) n).props = n.props := by
  induction cs generalizing n with
  | nil => exact ⟨rfl, rfl⟩
  | cons c cs ih =>
    have h := ih (c.run n) (fun x hx => hf x (by simp [hx])) (fun x hx => hp x (by simp [hx]))
    have hc : (c.run n).key = n.key ∧ (c.run n).props = n.props := by
      cases c with
      | named x =>
        rcases x with er | o
        · exact absurd (hf _ List.mem_cons_self) (by simp [NodeCallX.fails])
        · cases o with
          | none => exact absurd (hf _ List.mem_cons_self) (by simp [NodeCallX.fails])
          | some x => exact ⟨rfl, rfl⟩
      | namedByString k s => exact ⟨rfl, rfl⟩
      | withProperties k kp m => exact absurd (hp _ List.mem_cons_self) (by simp [NodeCallX.props])
      | rawError er => exact absurd (hf _ List.mem_cons_self) (by simp [NodeCallX.fails])
    exact ⟨h.1.trans hc.1, h.2.trans hc.2⟩

/-- C73: a node and what is made of it with further calls, in one statement.  If the calls only give names, the renderer takes both for the same
node: where the first has been described, the other is shown as its name in parentheses, without labels and properties.  `WithProperties`
makes another node, which is described in full. -/
theorem C73_node_again (d : NodeDescX) (more : List NodeCallX) (hf : ∀ c ∈ more, c.fails = none) (s : Str)
    (hs : (NodeDescX.mk d.ctor (d.calls ++ more)).head.name = some s) :
    ((∀ c ∈ more, c.props = none) → e.vis d.run.key = true → e.al d.run.key = none → (∀ x, d.run.props = some x → NoRawL x.2.visit) →
      (shownAs e ((NodeDescX.mk d.ctor (d.calls ++ more)).run.visit u)).1 = c!"(" ++ s ++ c!")") ∧
    ∀ pre k kp m post, more = pre ++ .withProperties k kp m :: post → (∀ c ∈ post, c.props = none) → e.vis k = false → NotBlank u s →
      NoAlias e (nodeKeys (NodeDescX.mk d.ctor (d.calls ++ more)).run) ((NodeDescX.mk d.ctor (d.calls ++ more)).run.visit u) →
      ∃ ps, NodeParts u (NodeDescX.mk d.ctor (d.calls ++ more)).head (NodeDescX.mk d.ctor (d.calls ++ more)).props ps ∧
        shownAs e ((NodeDescX.mk d.ctor (d.calls ++ more)).run.visit u) = layout (mark e k (some s)) ps := by
  have hrun : (NodeDescX.mk d.ctor (d.calls ++ more)).run = more.foldl (fun n c => c.run n) d.run := by simp [NodeDescX.run, List.foldl_append]
  constructor
  · intro hp hv hal hr
    obtain ⟨hk, hpr⟩ := naming_keeps more d.run hf hp
    have hn : (NodeDescX.mk d.ctor (d.calls ++ more)).run.name.map (·.2) = some s := (node_content _).name.trans hs
    rw [← hrun] at hk hpr
    generalize (NodeDescX.mk d.ctor (d.calls ++ more)).run = n at *
    have hsh : shown e ⟨n.key, .node (n.name.map (·.2))⟩ = .short (c!"(" ++ s) c!")" := by
      simp [shown, hk, hal, hn, hv]
    have hraw : NoRawL (nameVisit u n.name ++ n.labels.map labelVisit ++ propsVisit n.props) := by
      have happ : ∀ xs ys : List Tree, NoRawL xs → NoRawL ys → NoRawL (xs ++ ys) := by
        intro xs ys hx hy
        induction xs with
        | nil => exact hy
        | cons t ts ih => exact ⟨hx.1, ih hx.2⟩
      refine happ _ _ (happ _ _ ?_ ?_) ?_
      · rcases n.name with _ | ⟨kn, t⟩ <;> simp [nameVisit, NoRawL, NoRaw, leaf, nd]
      · induction n.labels with
        | nil => trivial
        | cons l ls ih => exact ⟨by simp [labelVisit, NoRaw, NoRawL, leaf, nd], ih⟩
      · rw [hpr]
        cases hx : d.run.props with
        | none => trivial
        | some x => exact ⟨hr x hx, trivial⟩
    simp only [shownAs, NodeV.visit, denL]
    rw [den_short hsh, muteL_noRaw _ _ hraw]
    simp [sepText]
  · rintro pre k kp m post rfl hp hv hb ha
    have hk : (NodeDescX.mk d.ctor (d.calls ++ (pre ++ .withProperties k kp m :: post))).run.key = k := by
      rw [hrun, List.foldl_append, List.foldl_cons]
      exact (naming_keeps post _ (fun c hc => hf c (by simp [hc])) hp).1
    obtain ⟨ps, h1, h2⟩ := (C73_node (u := u) (e := e) ⟨d.ctor, d.calls ++ (pre ++ .withProperties k kp m :: post)⟩).2
      (fun t ht => by rw [hs] at ht; cases ht; exact hb) ha (.inr (by rw [hk]; exact hv))
    exact ⟨ps, h1, by rw [h2, hk, hs]⟩

open SamplePat

/-- C73: failures do matter: after an empty name a relationship has lost nodes, direction and types; in a chain the nodes around it are
lost, too; a node has lost its labels. -/
theorem C73_lost :
    text ((StepX.first ⟨1, 2, 3, .rtl, nb.run, [c!"T"], [.call (.min 4 5 2), .call (.named 6 7 []), .call (.named 6 7 c!"r"), .call (.max 8 9 3)]⟩ np.run).visit .ascii)
      = c!"()[r*..3]()" ∧
    (match chainRunX na.run ⟨1, 2, 3, .ltr, NodeV.create2 1 2 [], [c!"T"], []⟩ ⟨6, 7, 8, .ltr, nb.run, [c!"U"], [.call (.named 9 10 c!"r")]⟩
        [⟨16, 17, 18, .rtl, np.run, [], [.call (.named 19 20 []), .call (.unbounded 21 22)]⟩] with
      | .ok c => text (c.visit .ascii) | .panic => c!"panic") = c!"()()-[r:`U`]->()[*]" ∧
    text ((NodeDescX.run ⟨.aNode 1 2 c!"A", [.namedByString 3 c!"a", .rawError (.other 1), .namedByString 3 c!"b", .withProperties 4 5 SamplePat.mp]⟩).visit .ascii)
      = c!"(b {x: a})" := by decide +kernel

-- the hypotheses about names and types hold for the first of them
example : TypesOk [c!"T"] ∧ ∀ t, nameOf (sinceFail [.call (.min 4 5 2), .call (.named 6 7 []), .call (.named 6 7 c!"r"), .call (.max 8 9 3)]) = some t → NotBlank .ascii t := by
  refine ⟨.inr ⟨c!"T", by decide, by decide⟩, ?_⟩
  intro t ht
  have : t = c!"r" := by
    have h : nameOf (sinceFail [.call (.min 4 5 2), .call (.named 6 7 []), .call (.named 6 7 c!"r"), .call (.max 8 9 3)]) = some c!"r" := by decide +kernel
    rw [h] at ht
    cases ht; rfl
  subst this
  exact ⟨'r', by simp, by decide⟩

-- an error that stays, and one that goes
example : (StepX.first ⟨1, 2, 3, .rtl, nb.run, [c!"T"], [.call (.min 4 5 2), .call (.named 6 7 [])]⟩ np.run).err = some (.site "relationship_details.go" 92) := by decide +kernel
example : (StepX.first ⟨1, 2, 3, .rtl, nb.run, [c!"T"], [.call (.named 6 7 []), .call (.unbounded 8 9)]⟩ np.run).err = none := by decide +kernel

-- the two cases: a second name, and further properties, after `(a:A)`
example : text ((NodeDescX.run ⟨.aNode 1 2 c!"A", [.namedByString 3 c!"a"]⟩).visit .ascii ++
    (NodeDescX.run ⟨.aNode 1 2 c!"A", [.namedByString 3 c!"a", .namedByString 4 c!"b"]⟩).visit .ascii) = c!"(a:`A`)(b)" := by decide +kernel
example : text ((NodeDescX.run ⟨.aNode 1 2 c!"A", [.namedByString 3 c!"a"]⟩).visit .ascii ++
    (NodeDescX.run ⟨.aNode 1 2 c!"A", [.namedByString 3 c!"a", .withProperties 5 6 SamplePat.mp]⟩).visit .ascii) = c!"(a:`A`)(a:`A` {x: a})" := by decide +kernel
example : (shownAs (mark Env.empty 1 (some c!"a")) ((NodeDescX.run ⟨.aNode 1 2 c!"A", [.namedByString 3 c!"a"] ++ [.namedByString 4 c!"b"]⟩).visit .ascii)).1 = c!"(b)" :=
  (C73_node_again ⟨.aNode 1 2 c!"A", [.namedByString 3 c!"a"]⟩ [.namedByString 4 c!"b"] (by simp [NodeCallX.fails]) c!"b" (by decide)).1
    (by simp [NodeCallX.props]) (by decide) (by decide) (by intro x h; simp [NodeDescX.run, NodeCtor.run, NodeV.create2, NodeCallX.run, NodeV.namedByString] at h)

end

end Verif
