import Verif.PropsStatements

/-
C52 for expressions inside statements, among them patterns, pattern comprehensions and EXISTS.
-/

namespace Verif
open Spec

section
variable {u : Unicode} {I : Meaning} {tight : Bool}

/-- C52 wherever the expression stands, with the aliases defined before and the nodes described before: the text reads as what was meant. -/
theorem C52_reads_inside_partial {e e' : Env} {v : Val} {d : I.D} {σ : CallKind} (h : ExprTo (Denotes u I tight) e v d σ e') :
    ReadsAs u tight I (shownAs e v.visit).1 d := by
  obtain ⟨s, ts, h1, h2, h3, _⟩ := h.expr
  rw [h1]
  have ht := h2 [] [] Rd.Follow.nil (.blank rfl)
  have hr := h3.reads (r := []) (by omega) (Rd.Stops.nil 0)
  rw [List.append_nil] at ht hr
  exact ⟨ts ++ [], ht, by rw [List.append_nil]; exact hr⟩

/-- Expressions with the same text mean the same, wherever they stand. -/
theorem C52_same_text_inside {e1 e1' e2 e2' : Env} {v v' : Val} {d d' : I.D} {σ σ' : CallKind} (h : ExprTo (Denotes u I tight) e1 v d σ e1')
    (h' : ExprTo (Denotes u I tight) e2 v' d' σ' e2') (ht : (shownAs e1 v.visit).1 = (shownAs e2 v'.visit).1) : d = d' :=
  C52_unambiguous (C52_reads_inside_partial h) (ht ▸ C52_reads_inside_partial h')

end

/-! ### Concrete cases -/

namespace SamplePatterns
open SampleStatements

/-- After `MATCH (n:Person)`. -/
def e0 : Env := mark Env.empty 300 (some c!"n")
/-- The pattern as it is shown then. -/
def shownPattern : Val := { pattern with visit := frozenL e0 pattern.visit }
def isBig : Val := compare .gt 501 502 503 (some size) (some (intLiteral 504 1))

variable (I : Meaning) (tight : Bool)

def path : PathPat I.D := ⟨⟨some c!"n", [], none⟩, [(⟨.right, none, [c!"IN"], .one, none⟩, ⟨some c!"m", [c!"City"], none⟩)]⟩

theorem pathMeans : PathMeans .ascii (Denotes .ascii I tight) e0 pattern (path I) e1 := by
  have hn : VarName .ascii c!"n" := name_ok (by decide +kernel)
  have hm : VarName .ascii c!"m" := name_ok (by decide +kernel)
  have mn : NodeMeans .ascii (Denotes .ascii I tight) e0 n ⟨some c!"n", [], none⟩ e0 :=
    .known (kn := 302) rfl rfl hn rfl rfl rfl (settled (by decide +kernel)) ⟨⟨trivial, trivial, trivial⟩, trivial⟩
  have mm : NodeMeans .ascii (Denotes .ascii I tight) e0 m ⟨some c!"m", [c!"City"], none⟩ e1 :=
    .described (d := md) (p := none) ⟨⟨by decide, fun _ h => by cases h⟩, by simp only [md, List.mem_singleton, forall_eq]; exact hm.1⟩ (by intro x hx; cases hx; exact hm) trivial (fun _ _ => rfl) (.inr (by decide))
  exact .rel mn (.cons (s := SampleStatements.step) (p := none) ⟨rfl, by decide, by simp [TypesOk, SampleStatements.step], by simp [SampleStatements.step]⟩ rfl (by intro x hx; cases hx) trivial mm .nil) (fun _ _ => rfl)

theorem patternAs : PatternAs .ascii (Denotes .ascii I tight) shownPattern (path I) := ⟨rfl, rfl, by simp [path], e0, pattern, e1, pathMeans I tight, rfl⟩

theorem sizeMeans : Denotes .ascii I tight size (I.prop (I.name c!"m") c!"size") .atom :=
  .nodeProperty 312 313 rfl rfl (name_ok (by decide +kernel)) ⟨'s', by simp, rfl⟩ (by decide)

theorem bigMeans : Denotes .ascii I tight isBig (I.bin .gt (I.prop (I.name c!"m") c!"size") (I.num 1)) .condition :=
  .compare (m := .gt) 501 502 503 (sizeMeans I tight) (by simpa using Denotes.int (u := .ascii) (I := I) (tight := tight) 504 1 ⟨1, 0, by decide, by simp⟩) rfl rfl (by simp [textual])

/-! `NOT (n)-[:IN]->(m:City)` -/
example : (shownAs e0 (excludedPattern 510 pattern).visit).1 = c!"NOT (n)-[:`IN`]->(m:`City`)" := by decide +kernel
example : ExprTo (Denotes .ascii I tight) e0 (excludedPattern 510 pattern) (I.not (I.pattern (path I))) .condition e1 :=
  ⟨settled (by decide +kernel), rfl, excludedPattern 510 shownPattern, .excludedPattern 510 (fun _ _ _ h => h) (patternAs I tight), rfl⟩

/-! `size((n)-[:IN]->(m:City)) > 1` -/
def sizeOf : Val := functionInvocationPattern 511 512 fnSize (some pattern)
def many : Val := compare .gt 513 514 515 (some sizeOf) (some (intLiteral 516 1))
example : (shownAs e0 many.visit).1 = c!"size((n)-[:`IN`]->(m:`City`)) > 1" := by decide +kernel
example : ExprTo (Denotes .ascii I tight) e0 many (I.bin .gt (I.call c!"size" false [I.pattern (path I)]) (I.num 1)) .condition e1 :=
  ⟨settled (by decide +kernel), rfl, compare .gt 513 514 515 (some (functionInvocationPattern 511 512 fnSize (some shownPattern))) (some (intLiteral 516 1)),
    .compare (m := .gt) 513 514 515 (.patternCall 511 512 (by simp) (fun _ _ _ h => h) (patternAs I tight))
      (by simpa using Denotes.int (u := .ascii) (I := I) (tight := tight) 516 1 ⟨1, 0, by decide, by simp⟩) rfl rfl (by simp [textual]), rfl⟩

/-! `[(n)-[:IN]->(m:City) WHERE m.size > 1 | m.size]` -/
def sizes (w : Val) : Val := match patternComprehension 520 521 522 523 w (some (.atom isBig)) [size] with | .ok v => v | .panic => pattern
example : (shownAs e0 (sizes pattern).visit).1 = c!"[(n)-[:`IN`]->(m:`City`) WHERE m.size > 1 | m.size]" := by decide +kernel
example : ExprTo (Denotes .ascii I tight) e0 (sizes pattern)
    (I.patternList (path I) (some (I.bin .gt (I.prop (I.name c!"m") c!"size") (I.num 1))) (I.prop (I.name c!"m") c!"size")) .atom e1 :=
  ⟨settled (by decide +kernel), rfl, sizes shownPattern,
    .patternComprehension (k := 520) (kw := 521) (kl := 522) (kc := 523) (c := some (.atom isBig))
      (m := some ⟨isBig, _, _⟩) (xs := [⟨size, _, _⟩]) (fun _ _ _ h => h) (patternAs I tight) rfl (by rintro x ⟨⟩; exact bigMeans I tight)
      (by simp only [List.mem_singleton, forall_eq]; exact sizeMeans I tight) (by simp) rfl, rfl⟩

/-! `EXISTS {MATCH (n)-[:IN]->(m:City) WHERE m.size > 1 }` -/
example : (shownAs e0 (existentialSubquery 530 (matchCreate 531 532 false [pattern] (some (.atom isBig))).val).visit).1 =
    c!"EXISTS {MATCH (n)-[:`IN`]->(m:`City`) WHERE m.size > 1 }" := by decide +kernel
example : ExprTo (Denotes .ascii I tight) e0 (existentialSubquery 530 (matchCreate 531 532 false [pattern] (some (.atom isBig))).val)
    (I.existsMatch [⟨none, none, path I⟩] (some (I.bin .gt (I.prop (I.name c!"m") c!"size") (I.num 1)))) .atom e1 :=
  ⟨settled (by decide +kernel), rfl, existentialSubquery 530 (matchCreate 531 532 false [shownPattern] (some (.atom isBig))).val,
    .existsMatch 530 531 532 (m := some ⟨isBig, _, _⟩) (fun _ _ _ h => h) (by simp) (.cons ⟨e0, pattern, e1, .path (pathMeans I tight), rfl⟩ .nil) rfl
      (by rintro x ⟨⟩; exact bigMeans I tight), rfl⟩

end SamplePatterns
end Verif
