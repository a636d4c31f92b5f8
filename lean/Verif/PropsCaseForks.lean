import Verif.CaseMem

/-
C39 for CASE expressions, case.go.
-/

namespace Verif
namespace SampleCase

def x : Val := symbolicName .ascii 100 c!"x"
def lit (n : Nat) : Val := intLiteral (200 + n) n
def broken : Val := { symbolicName .ascii 0 [] with err := some (.other 0) }

/-- `c.When(n).Then(m)` in the lines `l` and `l + 1`, where `c` is in line `i`. -/
def branch (l i n m : Nat) : List CaseInstr := [.when_ i (lit n), .then_ l (300 + 10 * n) (301 + 10 * n) (lit m)]

/-- `v0 := CaseExpression(x)` and three branches: the case is in line 6. -/
def three : List CaseInstr := .simple 300 (some x) :: (branch 1 0 1 11 ++ branch 3 2 2 12 ++ branch 5 4 3 13)

/-- What a new renderer writes. -/
def text (ts : List Tree) : Str := match (render .ascii RState.new (some ⟨none, ts⟩)).1 with | .ok s => s | .error _ => []

/-- The case of line `i` in memory, as it is rendered. -/
def shown (st : Outcome (Heap Branch × List (CaseVar HCase))) (i : Nat) : Str :=
  match st with
  | .ok (m, xs) =>
    match xs[i]? with
    | some (.case_ c) =>
      text (CaseV.visit ⟨c.key, c.subject, (m.read c.whens).filterMap (fun b => match b with | .ok b => some b | .error _ => none), c.els, c.generic, c.err, c.notNil⟩)
    | _ => []
  | .panic => []

/-- The case of line `i` as a value, as it is rendered. -/
def shownV (st : Outcome (List (CaseVar CaseV))) (i : Nat) : Str :=
  match st with
  | .ok vs =>
    match vs[i]? with
    | some (.case_ c) => text c.visit
    | _ => []
  | .panic => []

/-- The error of the case of line `i`. -/
def errAt (st : Outcome (Heap Branch × List (CaseVar HCase))) (i : Nat) : Option Err :=
  match st with
  | .ok (_, xs) =>
    match xs[i]? with
    | some (.case_ c) => c.err
    | _ => none
  | .panic => none

end SampleCase

open SampleCase CaseLemmas

/-- C39 for CASE: in a program that uses every `Case` and every `OngoingWhenThen` at most once as a receiver, both kinds of values
behave as if nothing was shared, however the capacities of slices grow: the same programs panic, and at the end every case variable, also
one that was a receiver, reads as the value it was given. -/
theorem C39_case_partial (grow : Nat → Nat → Nat) (p : List CaseInstr) (hn : (p.filterMap (·.receiver)).Nodup) :
    (runCases grow p (Heap.initial, []) = .panic ∧ valueCases p [] = .panic) ∨
    ∃ m xs vs, runCases grow p (Heap.initial, []) = .ok (m, xs) ∧ valueCases p [] = .ok vs ∧ xs.length = p.length ∧ vs.length = p.length ∧
      ∀ (i : Nat) (v : CaseV), vs[i]? = some (.case_ v) → ∃ c, xs[i]? = some (.case_ c) ∧ c.Reads m v := by
  obtain ⟨used, ha⟩ := runs_agree grow p (used := []) (m := Heap.initial) (xs := []) (vs := [])
    ⟨rfl, by simp, by simp, by simp, by simp⟩ hn (by simp)
  have hl := values_length p []
  generalize runCases grow p (Heap.initial, []) = a at ha
  generalize valueCases p [] = b at ha hl
  cases ha with
  | panic => exact .inl ⟨rfl, rfl⟩
  | @ok m xs vs hg =>
    have hl : vs.length = p.length := by simpa using hl vs rfl
    refine .inr ⟨m, xs, vs, rfl, rfl, hg.len.trans hl, hl, fun i v hv => ?_⟩
    have hlt : i < xs.length := by rw [hg.len]; exact lt_of_get hv
    have hx : xs[i]? = some xs[i] := List.getElem?_eq_getElem hlt
    obtain ⟨c, hc⟩ := (hg.kind i _ _ hx hv).mpr ⟨v, rfl⟩
    refine ⟨c, by rw [hx, hc], ?_⟩
    have := hg.rel i _ _ hx hv (.inl ⟨c, hc⟩)
    rw [hc] at this
    cases this with
    | case_ h => exact h

/-- The hypothesis holds for a case with three branches and an ELSE. -/
example : let p := three ++ [.else_ 6 390 (lit 9)]
    (p.filterMap (·.receiver)).Nodup ∧ shown (runCases goGrow p (Heap.initial, [])) 7 = c!"CASE x WHEN 1 THEN 11 WHEN 2 THEN 12 WHEN 3 THEN 13 ELSE 9 END" := by decide +kernel

/-- C39 is false for cases that are forked: with `c` as in `three`, `d := c.When(4).Then(14)` becomes what `c.When(5).Then(15)` is, once
that is made. -/
theorem C39_case_overwritten : let p := three ++ branch 7 6 4 14 ++ branch 9 6 5 15
    shown (runCases goGrow (three ++ branch 7 6 4 14) (Heap.initial, [])) 8 = c!"CASE x WHEN 1 THEN 11 WHEN 2 THEN 12 WHEN 3 THEN 13 WHEN 4 THEN 14 END" ∧
    shownV (valueCases p []) 8 = c!"CASE x WHEN 1 THEN 11 WHEN 2 THEN 12 WHEN 3 THEN 13 WHEN 4 THEN 14 END" ∧
    shown (runCases goGrow p (Heap.initial, [])) 8 = c!"CASE x WHEN 1 THEN 11 WHEN 2 THEN 12 WHEN 3 THEN 13 WHEN 5 THEN 15 END" := by decide +kernel

/-- C39 is false for `OngoingWhenThen`: after `o := CaseExpression(x).When(1)`, `o.Then(11)` and `o.Then(12)`, the second case has both
branches. -/
theorem C39_case_then_twice : let p := [.simple 300 (some x), .when_ 0 (lit 1), .then_ 1 310 311 (lit 11), .then_ 1 320 321 (lit 12)]
    shownV (valueCases p []) 3 = c!"CASE x WHEN 1 THEN 12 END" ∧
    shown (runCases goGrow p (Heap.initial, [])) 3 = c!"CASE x WHEN 1 THEN 11 WHEN 1 THEN 12 END" := by decide +kernel

/-- C39 is false for errors of `OngoingWhenThen`: an expression with an error makes every later `Then` an error. -/
theorem C39_case_error_stays : let p := [.simple 300 (some x), .when_ 0 (lit 1), .then_ 1 310 311 broken, .then_ 1 320 321 (lit 12)]
    shownV (valueCases p []) 3 = c!"CASE x WHEN 1 THEN 12 END" ∧
    errAt (runCases goGrow p (Heap.initial, [])) 3 = some (.other 0) := by decide +kernel

end Verif
