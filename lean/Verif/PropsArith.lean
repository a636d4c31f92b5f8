import Verif.ArithLemmas

/-
C19, C20, C43: arithmetic, comparisons, and the methods that make them.
-/

namespace Verif
open Spec

namespace SampleArith
/-- An expression that is printed as the given word. -/
def word (k : Key) (s : Str) : Val := .mk' k [leaf k s]
def wa : ACalls := .operand (word 101 c!"a")
def wb : ACalls := .operand (word 102 c!"b")
def wc : ACalls := .operand (word 103 c!"c")
/-- `a.Pow(b).Subtract(b.Subtract(c)).Multiply(c)` -/
def poly : ACalls := .bin 200 .multiply (.bin 201 .subtract (.bin 202 .pow wa wb) (.bin 203 .subtract wb wc)) wc
end SampleArith
open SampleArith

/-! ### C19 -/

/-- C19, for expressions in which no power is the exponent of a power: the text consists of words that Cypher reads, in exactly
one way, as the expression that was built.  Missing: powers of powers, for which this is false (`C19_power`). -/
theorem C19_arithmetic_partial (p : ACalls) (hu : p.Usable) (hp : p.PowersLeft) (e : Env) (ha : NoAlias e p.keys p.build.visit) :
    ∃ ts, shownAs e p.build.visit = layout e (ts.map ATok.part) ∧ ReadsSum ts p.meant ∧ ∀ t, ReadsSum ts t → t = p.meant :=
  ⟨atoks p, atoks_layout e p hu ha, areads_sum p hp, fun _ ht => areads_unique ht (areads_sum p hp)⟩

example : poly.Usable ∧ poly.PowersLeft ∧ NoAlias Env.empty poly.keys poly.build.visit ∧
    text poly.build.visit = c!"((a^b - (b - c)) * c)" := by
  refine ⟨?_, ?_, ?_, by decide +kernel⟩
  · simp [poly, ACalls.Usable, wa, wb, wc, word, Val.mk']
  · simp [poly, ACalls.PowersLeft, wa, wb, wc, ACalls.isPow]
  · intro k _
    refine ⟨rfl, ?_⟩
    have : dkeysL poly.build.visit = [] := by decide +kernel
    simp [this]

/-- C19 fails for powers of powers: `a.Pow(b.Pow(c))` and `a.Pow(b).Pow(c)` have the same text `a^b^c`, which Cypher reads as the
second. -/
theorem C19_power :
    text (ACalls.bin 200 .pow wa (.bin 201 .pow wb wc)).build.visit = c!"a^b^c" ∧
    text (ACalls.bin 200 .pow (.bin 201 .pow wa wb) wc).build.visit = c!"a^b^c" ∧
    ∃ ts, shownAs Env.empty (ACalls.bin 200 .pow wa (.bin 201 .pow wb wc)).build.visit = layout Env.empty (ts.map ATok.part) ∧
      ReadsSum ts (ACalls.bin 200 .pow (.bin 201 .pow wa wb) wc).meant ∧
      ¬ ReadsSum ts (ACalls.bin 200 .pow wa (.bin 201 .pow wb wc)).meant := by
  refine ⟨by decide +kernel, by decide +kernel, atoks (ACalls.bin 200 .pow wa (.bin 201 .pow wb wc)), ?_, ?_, ?_⟩
  · apply atoks_layout
    · simp [ACalls.Usable, wa, wb, wc, word, Val.mk']
    · intro k _
      refine ⟨rfl, ?_⟩
      have : dkeysL (ACalls.bin 200 .pow wa (.bin 201 .pow wb wc)).build.visit = [] := by decide +kernel
      simp [this]
  · exact areads_sum (ACalls.bin 200 .pow (.bin 201 .pow wa wb) wc) (by simp [ACalls.PowersLeft, wa, wb, wc, ACalls.isPow])
  · intro h
    have := areads_unique h (areads_sum (ACalls.bin 200 .pow (.bin 201 .pow wa wb) wc)
      (by simp [ACalls.PowersLeft, wa, wb, wc, ACalls.isPow]))
    simp [ACalls.meant, wa, wb, wc] at this

/-- The reading of an arithmetic text is unique, whatever the text. -/
theorem C19_unambiguous {ts : List ATok} {t u : ATree} (ht : ReadsSum ts t) (hu : ReadsSum ts u) : t = u := areads_unique ht hu

example : ∃ ts t, ReadsSum ts t ∧ ∀ u, ReadsSum ts u → u = t :=
  ⟨atoks poly, poly.meant, areads_sum poly (by simp [poly, ACalls.PowersLeft, wa, wb, wc, ACalls.isPow]), fun _ hu =>
    C19_unambiguous hu (areads_sum poly (by simp [poly, ACalls.PowersLeft, wa, wb, wc, ACalls.isPow]))⟩

/-! ### C20 and C43 -/

/-- C20, C43: a comparing method on `l` with argument `r` renders the operands in order with the symbol of the method between
them; an operand that is a condition is rendered in parentheses, any other operand as it is. -/
theorem C20_compare (m : CompareMethod) (k kl kr : Key) (l r : Val) (hl : l.err = none ∧ l.notNil = true)
    (hr : r.err = none ∧ r.notNil = true) (e : Env) (ha : NoAlias e [k, kl, kr, m.op.key] (l.visit ++ r.visit)) :
    shownAs e (compare m k kl kr (some l) (some r)).visit =
      layout e ((if l.isCond then [.lit c!"(", .hole l.visit, .lit c!")"] else [.hole l.visit]) ++
        [.lit c!" ", .lit (compareSymbol m), .lit c!" "] ++
        (if r.isCond then [.lit c!"(", .hole r.visit, .lit c!")"] else [.hole r.visit])) := by
  rw [compare, comparisonCreate_ok hl hr, shownAs, Val.mk', comparison_layout ha, operandTm_parts, operandTm_parts]
  have : m.op.text = c!" " ++ compareSymbol m ++ c!" " := by cases m <;> rfl
  rw [this]
  generalize l.isCond = bl, r.isCond = br
  cases bl <;> cases br <;> simp [layout]

example : shownAs Env.empty (compare .isEqualTo 300 301 302 (some (isNull 400 401 (some (word 101 c!"a")))) (some (word 102 c!"b"))).visit =
    layout Env.empty [.lit c!"(", .hole (isNull 400 401 (some (word 101 c!"a"))).visit, .lit c!")", .lit c!" ", .lit c!"=", .lit c!" ",
      .hole (word 102 c!"b").visit] :=
  C20_compare .isEqualTo 300 301 302 _ _ (by decide) (by decide) Env.empty (by unfold NoAlias; decide)

/-- C20: the results of comparing methods are conditions, so that a comparison of a comparison has parentheses. -/
theorem C20_nested (m : CompareMethod) (k kl kr : Key) (l r : Option Val) : (compare m k kl kr l r).isCond = true := by
  unfold compare comparisonCreate
  split <;> rfl

/-- C20: so have the results of `IsNull`, `IsNotNull`. -/
theorem C20_nested_null (k kn : Key) (l : Option Val) : (isNull k kn l).isCond = true ∧ (isNotNull k kn l).isCond = true := by
  unfold isNull isNotNull comparisonCreate1
  constructor <;> split <;> rfl

/-- C20 for the postfix operators. -/
theorem C20_null (k kn : Key) (v : Val) (hv : v.err = none ∧ v.notNil = true) (e : Env)
    (ha : NoAlias e [k, kn, Op.isNull.key, Op.isNotNull.key] v.visit) :
    shownAs e (isNull k kn (some v)).visit =
      layout e ((if v.isCond then [.lit c!"(", .hole v.visit, .lit c!")"] else [.hole v.visit]) ++ [.lit c!" IS NULL"]) ∧
    shownAs e (isNotNull k kn (some v)).visit =
      layout e ((if v.isCond then [.lit c!"(", .hole v.visit, .lit c!")"] else [.hole v.visit]) ++ [.lit c!" IS NOT NULL"]) := by
  have key : ∀ o, (o = Op.isNull ∨ o = Op.isNotNull) →
      denL false true e (comparisonCreate1 k kn o (some v)).visit = layout e ((operandTm kn v).parts ++ [.lit o.text]) := by
    intro o ho
    rw [comparisonCreate1_ok ho hv, Val.mk']
    simp only
    rw [Tm.shown _ (by simp [Tm.Ok, Tm.OkL, operandTm_ok]) ha (by
      intro k' hk'
      simp only [Tm.keys, Tm.keysL, List.mem_cons, List.mem_append, List.append_nil, List.not_mem_nil, or_false] at hk'
      rcases hk' with h | h | h
      · simp [h]
      · simp [operandTm_keys _ _ _ h]
      · rcases ho with rfl | rfl <;> simp [h]) (by simp [Tm.holes, Tm.holesL, operandTm_holes])]
    simp [Tm.parts, Tm.partsL, layout, sepText, layout_append]
  constructor
  · rw [shownAs, isNull, key _ (.inl rfl), operandTm_parts]
    generalize v.isCond = b
    cases b <;> simp [layout, Op.text, Op.type, Op.repr]
  · rw [shownAs, isNotNull, key _ (.inr rfl), operandTm_parts]
    generalize v.isCond = b
    cases b <;> simp [layout, Op.text, Op.type, Op.repr]

/-- `a.Lt(b).IsEqualTo(c.IsNull())` -/
example : text (compare .isEqualTo 300 301 302 (some (compare .lt 200 201 202 (some (word 101 c!"a")) (some (word 102 c!"b"))))
    (some (isNull 400 401 (some (word 103 c!"c"))))).visit = c!"(a < b) = (c IS NULL)" := by
  decide +kernel

/-- C43: each calculating method renders its operands in order, with its symbol between them. -/
theorem C43_arith (m : ArithMethod) (k : Key) (l r : Val) (hl : l.err = none ∧ l.notNil = true)
    (hr : r.err = none ∧ r.notNil = true) (e : Env) (ha : NoAlias e [k, m.op.key] (l.visit ++ r.visit)) :
    shownAs e (arith m k (some l) (some r)).visit =
      layout e (if m = .pow then [.hole l.visit, .lit [arithSymbol m], .hole r.visit]
        else [.lit c!"(", .hole l.visit, .lit [' ', arithSymbol m, ' '], .hole r.visit, .lit c!")"]) := by
  rw [arith, operationCreate_ok hl hr, shownAs, Val.mk', operation_layout ha, arith_group, arith_text]
  by_cases h : m = .pow <;> simp [h]

example : shownAs Env.empty (arith .subtract 200 (some (word 101 c!"a")) (some (word 102 c!"b"))).visit =
      layout Env.empty [.lit c!"(", .hole (word 101 c!"a").visit, .lit c!" - ", .hole (word 102 c!"b").visit, .lit c!")"] ∧
    text (arith .subtract 200 (some (word 101 c!"a")) (some (word 102 c!"b"))).visit = c!"(a - b)" :=
  ⟨C43_arith .subtract 200 _ _ (by decide) (by decide) Env.empty (by unfold NoAlias; decide), by decide +kernel⟩

/-- C43: each comparing method renders its operands, which are not conditions, in order, with its symbol between them. -/
theorem C43_compare (m : CompareMethod) (k kl kr : Key) (l r : Val) (hl : l.err = none ∧ l.notNil = true ∧ l.isCond = false)
    (hr : r.err = none ∧ r.notNil = true ∧ r.isCond = false) (e : Env) (ha : NoAlias e [k, kl, kr, m.op.key] (l.visit ++ r.visit)) :
    shownAs e (compare m k kl kr (some l) (some r)).visit =
      layout e [.hole l.visit, .lit (c!" " ++ compareSymbol m ++ c!" "), .hole r.visit] := by
  rw [C20_compare m k kl kr l r ⟨hl.1, hl.2.1⟩ ⟨hr.1, hr.2.1⟩ e ha]
  simp [hl, hr, layout]

example : shownAs Env.empty (compare .matches 200 201 202 (some (word 101 c!"a")) (some (word 102 c!"b"))).visit =
      layout Env.empty [.hole (word 101 c!"a").visit, .lit c!" =~ ", .hole (word 102 c!"b").visit] ∧
    text (compare .matches 200 201 202 (some (word 101 c!"a")) (some (word 102 c!"b"))).visit = c!"a =~ b" :=
  ⟨C43_compare .matches 200 201 202 _ _ (by decide) (by decide) Env.empty (by unfold NoAlias; decide), by decide +kernel⟩

/-- A method call with an operand that has an error, or is missing, gives an error. -/
theorem C43_errors (m : CompareMethod) (a : ArithMethod) (k kl kr : Key) (l r : Option Val)
    (h : (∃ v e, (l = some v ∨ r = some v) ∧ v.err = some e) ∨ l = none ∨ r = none ∨ (∃ v, l = some v ∧ v.notNil = false)) :
    (compare m k kl kr l r).err ≠ none ∧ (arith a k l r).err ≠ none := by
  cases l with
  | none => 
    cases r with
    | none => simp [compare, arith, comparisonCreate, operationCreate, firstErr, errOf, nilErr, missing, Val.bad]
    | some w => 
      cases hw : w.err <;> simp [compare, arith, comparisonCreate, operationCreate, firstErr, errOf, nilErr, missing, Val.bad, hw]
  | some v =>
    cases hv : v.err with
    | some e => simp [compare, arith, comparisonCreate, operationCreate, firstErr, errOf, nilErr, missing, Val.bad, hv]
    | none =>
      cases r with
      | none => 
        cases hn : v.notNil <;>
        simp [compare, arith, comparisonCreate, operationCreate, firstErr, errOf, nilErr, missing, Val.bad, hv, hn]
      | some w =>
        cases hw : w.err with
        | some e => simp [compare, arith, comparisonCreate, operationCreate, firstErr, errOf, nilErr, missing, Val.bad, hv, hw]
        | none =>
          have hn : v.notNil = false := by
            rcases h with ⟨u, e, h1, h2⟩ | h | h | ⟨u, h1, h2⟩
            · rcases h1 with h1 | h1 <;> cases h1
              · rw [hv] at h2; cases h2
              · rw [hw] at h2; cases h2
            · cases h
            · cases h
            · cases h1; exact h2
          simp [compare, arith, comparisonCreate, operationCreate, firstErr, errOf, nilErr, missing, Val.bad, hv, hw, hn]

/-- C43 fails for comparisons with an argument whose `isNotNil()` is false (for example a `PropertyLookup`): there is no error,
and the argument is not in the text, whereas the same argument of an arithmetic method is an error. -/
theorem C43_argument_dropped : ∃ v : Val, v.err = none ∧ text v.visit = c!"b" ∧
    (compare .isEqualTo 300 301 302 (some (word 101 c!"a")) (some v)).err = none ∧
    text (compare .isEqualTo 300 301 302 (some (word 101 c!"a")) (some v)).visit = c!"a = " ∧
    (arith .add 300 (some (word 101 c!"a")) (some v)).err ≠ none := by
  refine ⟨{ word 102 c!"b" with notNil := false }, rfl, ?_, rfl, ?_, ?_⟩ <;> decide +kernel

end Verif
