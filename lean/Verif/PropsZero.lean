import Verif.ZeroValues
import Verif.PropsClauses

/-
Property theorems: zero values, and values that consist of an error only, where they are printed (C75).
-/

namespace Verif.Spec

/-- What a zero value of a type of expressions leaves behind; `none`: `Render` panics. -/
def residue (guid : Str) : ZeroType → Option Str
  | .asterisk | .expressionList | .dot | .namespace_ | .rawString | .compound => some []
  | .boolean | .constant => some c!"false"
  | .booleanFunction | .function => some c!"()"
  | .case_ => some c!"CASE  END"
  | .comparison => some c!"  "
  | .existential => some c!"EXISTS {MATCH  }"
  | .hasLabel | .symbolic => some guid
  | .listExpression | .listLiteral => some c!"[]"
  | .map => some c!"{}"
  | .mapProjection => some (guid ++ c!"{}")
  | .null => some c!"NULL"
  | .parameter => some c!"$"
  | .lookup => some c!"."
  | .string => some c!"''"
  | .aliased | .distinct | .entry | .excludedPattern | .mapEntry | .listComprehension | .listOperator | .listPredicate | .nested | .number
  | .operation | .patternComprehension | .property | .relationshipPattern => none

/-- A zero value `Render` panics for. -/
def Explodes (guid : Str) : ExprArg → Prop
  | .made _ => False
  | .zero t _ => residue guid t = none

/-- A zero compound condition is not there at all, not even a comma next to it. -/
def silent : ExprArg → Bool
  | .made _ => false
  | .zero t _ => t == .compound

/-- The text of an argument in a list. -/
def argParts (guid : Str) : ExprArg → List Part
  | .made v => [.hole v.visit]
  | .zero t _ => match residue guid t with
    | some s => [.lit s]
    | none => []

/-- The arguments that show, separated by commas. -/
def listed (guid : Str) (ps : List ExprArg) : List Part := sepParts c!", " ((ps.filter fun p => !silent p).map (argParts guid))

/-- The expressions made by the library are single constructs (empty conditions are not). -/
def SingleArg : ExprArg → Prop
  | .made v => Spec.One v.visit
  | .zero _ _ => True

end Verif.Spec

namespace Verif
open Spec

variable (u : Unicode)

/-! ### Lemmas -/

def zeroTm (guid : Str) : ZeroType → Tm
  | .asterisk | .dot | .namespace_ | .rawString => .node 0 [] [] false []
  | .expressionList => .node 0 [] [] true []
  | .boolean => .node 0 c!"false" [] false []
  | .booleanFunction | .function => .node 0 c!"(" c!")" false [.node 0 [] [] true []]
  | .case_ => .node 0 c!"CASE " c!" END" false []
  | .comparison => .node 0 [] [] false [.node 0 c!"  " [] false []]
  | .constant => .node 0 [] [] false [.node 0 c!"false" [] false []]
  | .existential => .node 0 c!"EXISTS {" c!"}" false [.node 0 c!"MATCH " c!" " false [.node 0 [] [] true []]]
  | .hasLabel => .node 0 [] [] false [.node 0 guid [] false []]
  | .symbolic => .node 0 guid [] false []
  | .listExpression => .node 0 c!"[" c!"]" false [.node 0 [] [] true []]
  | .listLiteral => .node 0 c!"[" c!"]" false []
  | .map => .node 0 c!"{" c!"}" true []
  | .mapProjection => .node 0 [] [] false [.node 0 guid [] false [], .node 0 c!"{" c!"}" true []]
  | .null => .node 0 c!"NULL" [] false []
  | .parameter => .node 0 c!"$" [] false []
  | .lookup => .node 0 c!"." [] false []
  | .string => .node 0 c!"''" [] false []
  | _ => .hole []

def argTm (guid : Str) : ExprArg → Tm
  | .made v => .hole v.visit
  | .zero t _ => zeroTm guid t

theorem zero_accept (guid : Str) (t : ZeroType) :
    t.accept u guid = if residue guid t = none then .panic else if t = .compound then .ok [] else .ok (zeroTm guid t).trees := by
  cases t <;> first | rfl | simp [ZeroType.accept, residue, zeroTm, Tm.trees, Tm.treesL, leaf, nd]

theorem zero_parts (guid : Str) (e : Env) (t : ZeroType) (h : residue guid t ≠ none) :
    layout e (zeroTm guid t).parts = layout e (argParts guid (.zero t none)) ∨ t = .compound := by
  cases t <;> first | exact absurd rfl h | exact .inr rfl | (left; simp [zeroTm, Tm.parts, Tm.partsL, layout, argParts, residue, sepText])

/-- The part of the arguments that shows. -/
abbrev shownArgs (ps : List ExprArg) : List ExprArg := ps.filter fun p => !silent p

theorem args_panic (guid : Str) (ps : List ExprArg) : acceptArgs u guid ps = .panic ↔ ∃ p ∈ ps, Explodes guid p := by
  induction ps with
  | nil => simp [acceptArgs]
  | cons p ps ih =>
    rw [acceptArgs]
    have hhead : p.accept u guid = .panic ↔ Explodes guid p := by
      cases p with
      | made v => simp [ExprArg.accept, Explodes]
      | zero t er =>
        rw [ExprArg.accept, zero_accept, Explodes]
        by_cases h : residue guid t = none
        · simp [h]
        · by_cases h' : t = .compound <;> simp [h, h']
    cases hp : p.accept u guid with
    | panic => simp only [Outcome.bind, true_iff]; exact ⟨p, by simp, hhead.mp hp⟩
    | ok ts =>
      have hn : ¬ Explodes guid p := fun h => by rw [hhead.mpr h] at hp; cases hp
      simp only [Outcome.bind]
      cases hs : acceptArgs u guid ps with
      | panic =>
        obtain ⟨q, hq, h⟩ := ih.mp hs
        simp only [Outcome.map, true_iff]
        exact ⟨q, by simp [hq], h⟩
      | ok us =>
        simp only [Outcome.map, reduceCtorEq, false_iff, not_exists, not_and]
        intro q hq h
        rcases List.mem_cons.mp hq with rfl | hq
        · exact hn h
        · rw [ih.mpr ⟨q, hq, h⟩] at hs; cases hs

theorem args_ok (guid : Str) (ps : List ExprArg) (h : ∀ p ∈ ps, ¬ Explodes guid p) :
    acceptArgs u guid ps = .ok (Tm.treesL ((shownArgs ps).map (argTm guid))) := by
  induction ps with
  | nil => simp [acceptArgs, Tm.treesL]
  | cons p ps ih =>
    rw [acceptArgs, ih fun q hq => h q (by simp [hq])]
    have hp := h p (by simp)
    cases p with
    | made v =>
      have : silent (.made v) = false := rfl
      simp [ExprArg.accept, Outcome.bind, Outcome.map, this, argTm, Tm.treesL, Tm.trees]
    | zero t er =>
      have hp : ¬ residue guid t = none := hp
      rw [ExprArg.accept, zero_accept, if_neg hp]
      by_cases h' : t = .compound
      · have : silent (.zero t er) = true := by simp [silent, h']
        simp [h', Outcome.bind, Outcome.map, h' ▸ this]
      · have : silent (.zero t er) = false := by simp [silent, h']
        simp [h', Outcome.bind, Outcome.map, this, argTm, Tm.treesL]

theorem zeroTm_ok (guid : Str) (t : ZeroType) (h : t ≠ .compound) (h' : residue guid t ≠ none) : (zeroTm guid t).Ok ∧ Spec.One (zeroTm guid t).trees ∧
    ∀ k ∈ (zeroTm guid t).keys, k = 0 := by
  cases t <;> first
    | exact absurd rfl h
    | exact absurd rfl h'
    | (refine ⟨?_, ⟨_, _, rfl⟩, ?_⟩ <;> simp [zeroTm, Tm.Ok, Tm.OkL, Tm.keys, Tm.keysL])
    | (refine ⟨?_, ?_, ?_⟩ <;> simp [zeroTm, Tm.Ok, Tm.OkL, Tm.keys, Tm.keysL, Tm.trees, Tm.treesL, Spec.One, nd])

theorem args_tms (guid : Str) (e : Env) (ps : List ExprArg) (h : ∀ p ∈ ps, ¬ Explodes guid p) (hs : ∀ p ∈ ps, SingleArg p) :
    Tm.OkL true ((shownArgs ps).map (argTm guid)) ∧ (∀ k ∈ Tm.keysL ((shownArgs ps).map (argTm guid)), k = 0) ∧
    layout e (Tm.partsL true true ((shownArgs ps).map (argTm guid))) = layout e (listed guid ps) := by
  have hall : ∀ p ∈ shownArgs ps, silent p = false ∧ ¬ Explodes guid p ∧ SingleArg p := by
    intro p hp
    obtain ⟨h1, h2⟩ := List.mem_filter.mp hp
    exact ⟨by simpa using h2, h p h1, hs p h1⟩
  have key : ∀ qs : List ExprArg, (∀ p ∈ qs, silent p = false ∧ ¬ Explodes guid p ∧ SingleArg p) →
      Tm.OkL true (qs.map (argTm guid)) ∧ (∀ k ∈ Tm.keysL (qs.map (argTm guid)), k = 0) ∧
      SameParts ((qs.map (argTm guid)).map Tm.parts) (qs.map (argParts guid)) := by
    intro qs
    induction qs with
    | nil => intro _; exact ⟨trivial, by simp [Tm.keysL], .nil⟩
    | cons p qs ih =>
      intro hq
      obtain ⟨i1, i2, i3⟩ := ih fun q h => hq q (by simp [h])
      obtain ⟨g1, g2, g3⟩ := hq p (by simp)
      cases p with
      | made v =>
        refine ⟨⟨trivial, fun _ => g3, i1⟩, by simpa [Tm.keysL, argTm, Tm.keys] using i2, .cons (fun _ => rfl) i3⟩
      | zero t er =>
        have hc : t ≠ .compound := by simpa [silent] using g1
        obtain ⟨z1, z2, z3⟩ := zeroTm_ok guid t hc g2
        refine ⟨⟨z1, fun _ => z2, i1⟩, ?_, .cons (fun e => (zero_parts guid e t g2).resolve_right hc) i3⟩
        intro k hk
        simp only [List.map_cons, Tm.keysL, List.mem_append] at hk
        exact hk.elim (z3 k) (i2 k)
  obtain ⟨h1, h2, h3⟩ := key _ hall
  exact ⟨h1, h2, by rw [partsL_sep, listed]; exact sepParts_congr _ h3 e⟩

theorem firstErr_args (ps : List ExprArg) :
    (∀ er, firstErr (ps.map ExprArg.err) = some er ↔ ∃ pre p post, ps = pre ++ p :: post ∧ p.err = some er ∧ ∀ q ∈ pre, q.err = none) ∧
    ((∀ p ∈ ps, p.err = none) → firstErr (ps.map ExprArg.err) = none) := by
  refine ⟨fun er => ?_, fun h => by rw [firstErr_none_iff]; simpa using h⟩
  induction ps with
  | nil => simp [firstErr]
  | cons p ps ih =>
    cases hp : p.err with
    | some e' =>
      simp only [List.map_cons, hp, firstErr, Option.some.injEq]
      constructor
      · rintro rfl; exact ⟨[], p, ps, rfl, hp, by simp⟩
      · rintro ⟨pre, q, post, h, hq, hall⟩
        cases pre with
        | nil => cases h; rw [hp] at hq; cases hq; rfl
        | cons a pre => cases h; rw [hall p (by simp)] at hp; cases hp
    | none =>
      simp only [List.map_cons, hp, firstErr, ih]
      constructor
      · rintro ⟨pre, q, post, h, hq, hall⟩
        exact ⟨p :: pre, q, post, by simp [h], hq, by simpa [hp] using hall⟩
      · rintro ⟨pre, q, post, h, hq, hall⟩
        cases pre with
        | nil => cases h; rw [hp] at hq; cases hq
        | cons a pre => cases h; exact ⟨pre, q, post, rfl, hq, fun r hr => hall r (by simp [hr])⟩

/-! ### C75 -/

/-- C75, single values: a zero value of any of the types either makes `Render` panic or prints a fixed text, which is the text of an
expression of the language only for some of the types. -/
theorem C75_residue (guid : Str) (t : ZeroType) :
    (residue guid t = none → t.accept u guid = .panic) ∧
    (∀ s, residue guid t = some s → ∃ ts, t.accept u guid = .ok ts ∧ ∀ e : Env, NoAlias e [0] ts → shownAs e ts = layout e [.lit s]) := by
  refine ⟨fun h => by rw [zero_accept, if_pos h], ?_⟩
  intro s hs
  have hn : ¬ residue guid t = none := by rw [hs]; simp
  by_cases hc : t = .compound
  · subst hc
    cases hs
    exact ⟨[], rfl, fun e _ => rfl⟩
  · refine ⟨(zeroTm guid t).trees, by rw [zero_accept, if_neg hn, if_neg hc], ?_⟩
    intro e ha
    obtain ⟨z1, z2, z3⟩ := zeroTm_ok guid t hc hn
    refine shown_self _ rfl z1 (fun k hk => ha k (by simp [z3 k hk])) ?_
    have := (zero_parts guid e t hn).resolve_right hc
    simpa [argParts, hs] using this

/-- C75, RETURN after an updating clause: errors are not looked at.  With an argument that is a zero value, or the failed attempt at a value,
of one of fourteen types, `Render` panics. -/
theorem C75_panics (guid : Str) (k ko : Key) (distinct : Bool) (ps : List ExprArg) (o : OrderB) :
    returnArgs u guid k ko distinct ps o = .panic ↔ ∃ p ∈ ps, Explodes guid p := by
  rw [returnArgs, ← args_panic u]
  cases ps with
  | nil => simp [acceptArgs]
  | cons p ps => cases acceptArgs u guid (p :: ps) <;> simp [Outcome.map]

/-- C75, RETURN after an updating clause, with arguments that do not make `Render` panic: they are listed with what they leave behind. -/
theorem C75_return (e : Env) (guid : Str) (k ko : Key) (distinct : Bool) (ps : List ExprArg) (o : OrderB) (hne : ps ≠ [])
    (h : ∀ p ∈ ps, ¬ Explodes guid p) (hs : ∀ p ∈ ps, SingleArg p) :
    ∃ ts, returnArgs u guid k ko distinct ps o = .ok ts ∧ (NoAlias e [k, 0, 40] ts → shownAs e ts =
      layout e (.lit c!"RETURN " :: ((if distinct then [.lit c!"DISTINCT "] else []) ++ listed guid ps ++
        [.hole (visitIfNotNull (o.build ko)), .hole (visitIfNotNull o.skip), .hole (visitIfNotNull o.limit)]))) := by
  let body := distinctTms distinct ++ [.node 0 [] [] true ((shownArgs ps).map (argTm guid)), .hole (visitIfNotNull (o.build ko)), .hole (visitIfNotNull o.skip),
    .hole (visitIfNotNull o.limit)]
  refine ⟨(Tm.node k c!"RETURN " [] false body).trees, ?_, ?_⟩
  · rw [returnArgs, if_neg hne, args_ok u guid ps h]
    simp [Outcome.map, body, Tm.trees, treesL_append, distinctTms_trees, Tm.treesL, bodyVisit]
  · intro ha
    obtain ⟨h1, h2, _⟩ := args_tms guid e ps h hs
    have h3 := fun e => (args_tms guid e ps h hs).2.2
    refine shown_self _ rfl ?_ ?_ ?_
    · cases distinct <;> simp [Tm.Ok, body, distinctTms, Tm.OkL, h1]
    · intro k' hk'
      apply ha
      simp only [Tm.keys, body, keysL_append, Tm.keysL, List.append_nil, List.mem_cons, List.mem_append] at hk'
      rcases hk' with h | h | h | h
      · simp [h]
      · cases distinct <;> simp [distinctTms, Tm.keysL, Tm.keys] at h
        simp [h]
      · simp [h]
      · simp [h2 k' h]
    · cases distinct <;> simp [Tm.parts, body, distinctTms, Tm.partsL, layout, layout_append, sepText, h3]

/-- C75, RETURN after a reading clause: the first error is reported; else it is as after an updating clause. -/
theorem C75_reading (guid : Str) (k ko : Key) (distinct : Bool) (ps : List ExprArg) (o : OrderB) :
    (∀ er, returnBase u guid k ko distinct ps o = .error er ↔ ∃ pre p post, ps = pre ++ p :: post ∧ p.err = some er ∧ ∀ q ∈ pre, q.err = none) ∧
    ((∀ p ∈ ps, p.err = none) → returnBase u guid k ko distinct ps o = .ok (returnArgs u guid k ko distinct ps o)) := by
  rw [returnBase]
  refine ⟨fun er => ?_, fun h => by rw [(firstErr_args ps).2 h]⟩
  rw [← (firstErr_args ps).1 er]
  cases firstErr (ps.map ExprArg.err) <;> simp

/-- C75, `ListOf`: the first error is reported; else `Render` panics or the arguments are listed with what they leave behind. -/
theorem C75_list (e : Env) (guid : Str) (k kl : Key) (ps : List ExprArg) :
    (∀ er, listOfArgs u guid k kl ps = .error er ↔ ∃ pre p post, ps = pre ++ p :: post ∧ p.err = some er ∧ ∀ q ∈ pre, q.err = none) ∧
    ((∀ p ∈ ps, p.err = none) → (∃ p ∈ ps, Explodes guid p) → listOfArgs u guid k kl ps = .ok .panic) ∧
    ((∀ p ∈ ps, p.err = none) → (∀ p ∈ ps, ¬ Explodes guid p) → (∀ p ∈ ps, SingleArg p) →
      ∃ ts, listOfArgs u guid k kl ps = .ok (.ok ts) ∧ (NoAlias e [k, kl, 0] ts → shownAs e ts =
        layout e (.lit c!"[" :: (listed guid ps ++ [.lit c!"]"])))) := by
  rw [listOfArgs]
  refine ⟨fun er => ?_, fun h hp => ?_, fun h hp hs => ?_⟩
  · rw [← (firstErr_args ps).1 er]
    cases firstErr (ps.map ExprArg.err) <;> simp
  · rw [(firstErr_args ps).2 h]
    simp [(args_panic u guid ps).mpr hp, Outcome.map]
  · obtain ⟨h1, h2, h3⟩ := args_tms guid e ps hp hs
    refine ⟨(Tm.node k c!"[" c!"]" false [.node kl [] [] true ((shownArgs ps).map (argTm guid))]).trees, ?_, ?_⟩
    · rw [(firstErr_args ps).2 h]
      simp [args_ok u guid ps hp, Outcome.map, Tm.trees, Tm.treesL]
    · intro ha
      refine shown_self _ rfl (by simp [Tm.Ok, Tm.OkL, h1]) ?_ ?_
      · intro k' hk'
        apply ha
        simp only [Tm.keys, Tm.keysL, List.append_nil, List.mem_cons] at hk'
        rcases hk' with h | h | h
        · simp [h]
        · simp [h]
        · simp [h2 k' h]
      · simp [Tm.parts, Tm.partsL, layout, layout_append, sepText, h3]

namespace SampleZero

/-- The error of `AParam("")`. -/
def why : Err := .site "parameter.go" 18
/-- `Returning(x, AParam(""), CompoundCondition{}, y)` -/
def args : List ExprArg := [.made SampleClause.x, .zero .parameter (some why), .zero .compound none, .made SampleClause.y]
/-- `ListOf(CompoundCondition{}, MapProjection{}, x)` -/
def zeros : List ExprArg := [.zero .compound none, .zero .mapProjection none, .made SampleClause.x]

def textOf : Outcome (List Tree) → Option Str
  | .ok ts => some (text ts)
  | .panic => none

end SampleZero
open SampleZero

example : textOf (returnArgs .ascii c!"g" 1 2 false args {}) = some c!"RETURN x, $, y" := by decide +kernel
example : (match listOfArgs .ascii c!"g" 1 2 zeros with | .ok o => textOf o | .error _ => none) = some c!"[g{}, x]" := by decide +kernel
example : (∀ p ∈ args, ¬ Explodes c!"g" p) ∧ (∀ p ∈ args, SingleArg p) ∧ args ≠ [] := by
  refine ⟨?_, ?_, by simp [args]⟩
  · simp [args, Explodes, residue]
  · simp [args, SingleArg, Spec.One, SampleClause.x, SampleClause.y, SampleClause.w, Val.mk', leaf, nd]
example : ∃ p ∈ [ExprArg.made SampleClause.x, .zero .property none], Explodes c!"g" p := ⟨.zero .property none, by simp, rfl⟩

/-- C75 and C34, consequences: after an updating clause a failed parameter is printed as `$`, and a failed property makes `Render` panic; after a
reading clause both are reported. -/
theorem C75_lost (u : Unicode) (guid : Str) (er : Err) :
    textOf (returnArgs u guid 1 2 false [.zero .parameter (some er)] {}) = some c!"RETURN $" ∧
    returnArgs u guid 1 2 false [.zero .property (some er)] {} = .panic ∧
    returnBase u guid 1 2 false [.zero .parameter (some er)] {} = .error er ∧
    returnBase u guid 1 2 false [.zero .property (some er)] {} = .error er := ⟨rfl, rfl, rfl, rfl⟩

end Verif
