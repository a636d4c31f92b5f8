import Verif.Leftovers
import Verif.PropsPatterns

/-
C66: exported constructors that no method of the package uses.
-/

namespace Verif
open Spec

section
variable {u : Unicode} {e : Env}

/-- C66: `DistinctExpressionCreate` is refused exactly if its operand has an error; otherwise it renders `DISTINCT` and the operand. -/
theorem C66_distinct (k : Key) (x : Val) :
    (distinctExpression k x).err = x.err ∧
    (x.err = none → NoAlias e [k, 0] (distinctExpression k x).visit → shownAs e (distinctExpression k x).visit = layout e [.lit c!"DISTINCT ", .hole x.visit]) := by
  refine ⟨?_, fun hx ha => ?_⟩
  · cases hx : x.err <;> simp [distinctExpression, hx, Val.bad, Val.mk']
  · refine shown_self (.node k [] [] false [.node 0 c!"DISTINCT " [] false [], .hole x.visit]) ?_ ?_ ?_ ?_
    · simp [distinctExpression, hx, Val.mk', Tm.trees, Tm.treesL, leaf]
    · simp [Tm.Ok, Tm.OkL]
    · intro k' hk'
      apply ha
      simpa [Tm.keys, Tm.keysL] using hk'
    · simp [Tm.parts, Tm.partsL, layout, sepText]

example : text (distinctExpression 200 SampleExpr.wa).visit = c!"DISTINCT a" := by decide +kernel

/-- C66: `RawStringLiteralCreate` renders its text as it is. -/
theorem C66_raw (k : Key) (s : Str) :
    (rawStringLiteral k s).err = none ∧ (NoAlias e [k] (rawStringLiteral k s).visit → shownAs e (rawStringLiteral k s).visit = (s, e)) := by
  refine ⟨rfl, fun ha => ?_⟩
  have : shownAs e (rawStringLiteral k s).visit = layout e [.lit s] := by
    refine shown_self (.node k s [] false []) rfl ?_ ?_ ?_
    · simp [Tm.Ok, Tm.OkL]
    · intro k' hk'
      apply ha
      simpa [Tm.keys, Tm.keysL] using hk'
    · simp [Tm.parts, Tm.partsL, layout]
  rw [this]
  simp [layout]

/-- C66: `HasLabelConditionCreate1` is refused exactly if the name has an error or is missing, or if there are no labels. -/
theorem C66_labels_refused (k : Key) (name : Val) (labels : List (Key × Str)) :
    (hasLabelCondition1 k name labels).err.isSome ↔ name.err.isSome ∨ name.notNil = false ∨ labels = [] := by
  unfold hasLabelCondition1
  cases hn : name.err with
  | some er => simp [Val.bad]
  | none => cases hm : name.notNil <;> by_cases hl : labels = [] <;> simp [hl, Val.bad, Val.mk']

/-- C66: it renders the name and the labels, which read back. -/
theorem C66_labels (k kn : Key) (s : Str) (labels : List (Key × Str)) (hs : s ≠ []) (hl : labels ≠ []) (hne : [] ∉ labels.map (·.2)) :
    (hasLabelCondition1 k (symbolicName u kn s) labels).err = none ∧
    (NoAlias e (k :: kn :: labels.map (·.1)) (hasLabelCondition1 k (symbolicName u kn s) labels).visit → ∃ t,
      shownAs e (hasLabelCondition1 k (symbolicName u kn s) labels).visit = layout e [.lit (escapeIfNecessary u s), .lit t] ∧
      ∀ rest : Str, rest.head? ≠ some '`' → rest.head? ≠ some ':' → readLabels (t ++ rest) = some (labels.map (·.2), rest)) := by
  have hv : hasLabelCondition1 k (symbolicName u kn s) labels = .mk' k [nd k [] [] false (leaf kn (escapeIfNecessary u s) :: labels.map labelVisit)] true := by
    simp [hasLabelCondition1, symbolicName, Val.mk', hl, hs]
  rw [hv]
  refine ⟨rfl, fun ha => ⟨(labels.map (·.2)).flatMap fun t => ':' :: escapeName t, ?_, fun rest h1 h2 => readLabels_flat _ rest h1 h2⟩⟩
  refine shown_self (.node k [] [] false (.node kn (escapeIfNecessary u s) [] false [] :: labelTms labels)) ?_ ?_ ?_ ?_
  · simp [Val.mk', Tm.trees, Tm.treesL, labelTms_trees, leaf]
  · simp [Tm.Ok, Tm.OkL, labelTms_ok]
  · intro k' hk'
    apply ha
    simpa [Tm.keys, Tm.keysL, labelTms_keys] using hk'
  · simp only [Tm.parts, Tm.partsL]
    have := labelTms_parts labels false e [.lit []]
    simp only [List.cons_append, List.nil_append, layout, sepText, Bool.false_and, Bool.false_eq_true, if_false] at this ⊢
    rw [this]
    have hf : (labels.map (·.2)).filter (fun x => decide (x ≠ [])) = labels.map (·.2) := by
      rw [List.filter_eq_self]
      intro l hl'
      simp only [ne_eq, decide_not, Bool.not_eq_eq_eq_not, Bool.not_true, decide_eq_false_iff_not]
      rintro rfl
      exact hne hl'
    rw [hf]

example : text (hasLabelCondition1 200 (symbolicName .ascii 201 c!"n") [(202, c!"A"), (203, c!"B")]).visit = c!"n:`A`:`B`" := by decide +kernel

/-- C66 fails for `OperationCreate1`: it refuses every operand that is there, every operator and every label. -/
theorem C66_operation_refused (k : Key) (left : Option Val) (o : Option Op) (right : LabelArg)
    (h : (∃ l, left = some l ∧ l.notNil = true) ∨ o ≠ none ∨ right ≠ none) : (operationCreate1 k left o right).err.isSome := by
  unfold operationCreate1
  cases left with
  | none => simp [Val.bad]
  | some l =>
    cases hl : l.err with
    | some er => simp [hl, Val.bad]
    | none =>
      cases hn : l.notNil with
      | true => simp [hl, hn, Val.bad]
      | false =>
        cases o with
        | some o => simp [hl, hn, Val.bad]
        | none =>
          cases right with
          | some r => simp [hl, hn, Val.bad]
          | none => simp [hn] at h

example : (operationCreate1 1 (some (stringLiteral 2 c!"x")) none none).err.isSome := C66_operation_refused 1 _ _ _ (.inl ⟨_, rfl, rfl⟩)

/-- C66 fails for `OperationCreate1`: what it accepts is two blanks in parentheses, after an operand that counts as nil. -/
theorem C66_operation_accepted : (operationCreate1 200 (some { key := 0, visit := [], notNil := false }) none none).err = none ∧
    text (operationCreate1 200 (some { key := 0, visit := [], notNil := false }) none none).visit = c!"(  )" := by decide +kernel

end
end Verif
