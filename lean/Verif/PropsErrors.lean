import Verif.PropsBuilder
import Verif.BuilderErrors

/-
C34: errors of what is given to the builder.  Property theorems and concrete cases; the lemmas are in BuilderErrors.
-/

namespace Verif
open Spec SampleBuilder

namespace SampleErrors

def er : Err := .site "x" 1
/-- An expression, pattern, ... with an error. -/
def bad : Val := .bad er
/-- A condition with an error. -/
def badCond : Cond := .bad er
/-- A node with an error; its name is fine. -/
def badNamed : NamedV := { err := some er, sym := x, req := x }
def ret (v : Val) : Call := .returning 50 51 false (.exprs [v])
def m : Call := .match_ 1 2 false [p]

end SampleErrors
open SampleErrors

section
variable {u : Unicode}

/-- The values that a chain of calls can begin with: cypher.go's functions for clauses, and those for procedure calls. -/
def Initial (b : B) : Prop := b = start ∨ (∃ kc ka kw k kn name, startCall kc ka kw k kn name = .ok b) ∨ b = startCallError

theorem Initial.wf {b : B} (h : Initial b) : b.Wf := by
  rcases h with rfl | ⟨kc, ka, kw, k, kn, name, h⟩ | rfl
  · trivial
  · obtain ⟨p, -, rfl⟩ := Outcome.map_ok h; trivial
  · trivial

/-- C34: if a call is given something that carries an error, no statement without error comes out of `Build()`, whatever is called
before and after.  Missing: the calls that are `Unchecked`, for which this is false, see `C34_lost_conditions`,
`C34_lost_items`, `C34_lost_named`, and the arguments of calls, for which see `C34_arguments` and `C34_standalone_arguments_lost`. -/
theorem C34_errors_partial (b₀ b : B) (h₀ : Initial b₀) (pre post : List Call) (hb : execAll u b₀ pre = .ok b) (c : Call) (hc : BadCall c)
    (hu : ¬ Unchecked b c) : Refused ((execAll u b₀ (pre ++ c :: post)).bind B.build) := by
  have hw := wf_all pre h₀.wf hb
  rw [execAll_append, hb]
  simp only [Outcome.bind, execAll]
  cases hx : exec u b c with
  | panic => trivial
  | ok b' => exact tainted_all (bad_step hw hc hu hx) post

example : ¬ Unchecked (.base {}) (.match_ 1 2 false [p, bad]) ∧ BadCall (.match_ 1 2 false [p, bad]) := ⟨by simp [Unchecked], ⟨bad, by simp, by simp [bad, Val.bad]⟩⟩
example : shown (.ok start) [m, .where_ badCond, .with_ (wk 0) false (.exprs [x]), .with_ (wk 1) false (.exprs [x]), ret x] = c!"panic" := by decide +kernel
example : shown (.ok start) [m, .where_ badCond, .delete (uk 0) true (.exprs [x]), ret x] = c!"error" := by decide +kernel
example : shown (.ok start) [m, .set (uk 0) [x, y], .delete (uk 1) false (.exprs [bad]), .create (uk 2) [p], ret x] = c!"error" := by decide +kernel
/-- Without error in between, a statement comes out. -/
example : shown (.ok start) [m, .set (uk 0) [x, y], .delete (uk 1) false (.exprs [x]), .create (uk 2) [p], ret x] =
    c!"MATCH (p) SET x = y DELETE x CREATE (p) RETURN x" := by decide +kernel

theorem callProc_inCall {b b' : B} {kc ka kw k kn : Key} {name : List Str} (h : exec u b (.callProc kc ka kw k kn name) = .ok b') : ∃ i, b' = .inCall i := by
  cases b with
  | base b => obtain ⟨i, -, rfl⟩ := Outcome.map_ok h; exact ⟨i, rfl⟩
  | with_ w =>
    obtain ⟨b1, -, h2⟩ := Outcome.bind_ok h
    obtain ⟨i, -, rfl⟩ := Outcome.map_ok h2
    exact ⟨i, rfl⟩
  | _ => cases h

/-- C34 for the arguments of a procedure call in the middle of a query. -/
theorem C34_arguments (b₀ b : B) (h₀ : Initial b₀) (pre post : List Call) (hb : execAll u b₀ pre = .ok b) (kc ka kw k kn ky : Key) (name : List Str)
    (xs ys : List Val) (x : Val) (hx : x ∈ xs) (he : x.err ≠ none) (d : Call) (hd : (∀ zs, d ≠ .args zs) ∧ ∀ ky zs, d ≠ .yield ky zs) :
    Refused ((execAll u b₀ (pre ++ [.callProc kc ka kw k kn name, .args xs, .yield ky ys] ++ d :: post)).bind B.build) := by
  have hw := wf_all pre h₀.wf hb
  rw [List.append_assoc, execAll_append, hb]
  simp only [Outcome.bind, execAll, List.cons_append, List.nil_append]
  cases h1 : exec u b (.callProc kc ka kw k kn name) with
  | panic => trivial
  | ok b1 =>
    simp only []
    have hw1 := wf_step hw h1
    cases h2 : exec u b1 (.args xs) with
    | panic => trivial
    | ok b2 =>
      simp only []
      have hw2 := wf_step hw1 h2
      cases h3 : exec u b2 (.yield ky ys) with
      | panic => trivial
      | ok b3 =>
        simp only []
        have hw3 := wf_step hw2 h3
        cases h4 : exec u b3 d with
        | panic => trivial
        | ok b4 =>
          obtain ⟨i, rfl⟩ := callProc_inCall h1
          cases h2
          cases h3
          refine tainted_all (args_step hw3 hx he (fun c hc => ?_) hd h4) post
          cases hi : i.call with
          | none => simp [hi] at hc
          | some c' => simp [hi] at hc; subst hc; rfl

example : shown (.ok start) [m, .callProc 3 4 5 6 7 [c!"f"], .args [x, bad], .yield 8 [y], ret x] = c!"error" ∧
    shown (.ok start) [m, .callProc 3 4 5 6 7 [c!"f"], .args [x, z], .yield 8 [y], ret x] = c!"MATCH (p) CALL f(x, z) YIELD y RETURN x" := by decide +kernel

/-- C34 fails for conditions given to `And` after MATCH, to `Where`, `And` and `Or` after WITH, and to `Where` after a procedure call:
the condition, and with `And` and `Or` everything given before, vanishes without error. -/
theorem C34_lost_conditions :
    shown (.ok start) [m, .where_ ca.build, .and (ck 0) badCond, ret x] = c!"MATCH (p) RETURN x" ∧
    shown (.ok start) [m, .with_ (wk 0) false (.exprs [x]), .where_ badCond, ret x] = c!"MATCH (p) WITH x RETURN x" ∧
    shown (.ok start) [m, .with_ (wk 0) false (.exprs [x]), .where_ ca.build, .and (ck 0) badCond, ret x] = c!"MATCH (p) WITH x RETURN x" ∧
    shown (.ok start) [m, .with_ (wk 0) false (.exprs [x]), .where_ ca.build, .or (ck 0) badCond, ret x] = c!"MATCH (p) WITH x RETURN x" ∧
    shown (.ok start) [m, .callProc 3 4 5 6 7 [c!"f"], .yield 8 [y], .where_ badCond, ret x] = c!"MATCH (p) CALL f() YIELD y RETURN x" ∧
    shown (startCall 3 4 5 6 7 [c!"f"]) [.yield 8 [y], .where_ badCond, ret x] = c!"CALL f() YIELD y RETURN x" := by decide +kernel

/-- C34 fails for what is returned after SET or REMOVE, for sortings, and for what a procedure call yields. -/
theorem C34_lost_items :
    shown (.ok start) [m, .set (uk 0) [x, y], ret bad] = c!"MATCH (p) SET x = y RETURN " ∧
    shown (.ok start) [m, ret x, .orderBy 3 bad] = c!"MATCH (p) RETURN x" ∧
    shown (.ok start) [m, ret x, .orderItems [.create 3 (some bad) .undefined]] = c!"MATCH (p) RETURN x" ∧
    shown (.ok start) [m, .with_ (wk 0) false (.exprs [x]), .orderBy 3 bad, ret x] = c!"MATCH (p) WITH x RETURN x" ∧
    shown (.ok start) [m, .callProc 3 4 5 6 7 [c!"f"], .yield 8 [bad], ret x] = c!"MATCH (p) CALL f() RETURN x" := by decide +kernel

/-- C34 fails for erroneous nodes and relationships given by name after WITH, SET, REMOVE or a procedure call. -/
theorem C34_lost_named :
    shown (.ok start) [m, .with_ (wk 0) false (.exprs [x]), .returning 50 51 false (.nameds [badNamed])] = c!"MATCH (p) WITH x RETURN x" ∧
    shown (.ok start) [m, .with_ (wk 0) false (.exprs [x]), .with_ (wk 1) false (.nameds [badNamed]), ret x] = c!"MATCH (p) WITH x WITH x RETURN x" ∧
    shown (.ok start) [m, .with_ (wk 0) false (.exprs [x]), .delete (uk 0) false (.nameds [badNamed])] = c!"MATCH (p) WITH x DELETE x " ∧
    shown (.ok start) [m, .with_ (wk 0) false (.exprs [x]), .setNamed (uk 0) badNamed y] = c!"MATCH (p) WITH x SET x = y " ∧
    shown (.ok start) [m, .set (uk 0) [x, y], .setNamed (uk 1) badNamed y] = c!"MATCH (p) SET x = y SET x = y " ∧
    shown (.ok start) [m, .set (uk 0) [x, y], .delete (uk 1) false (.nameds [badNamed])] = c!"MATCH (p) SET x = y DELETE x " ∧
    shown (.ok start) [m, .set (uk 0) [x, y], .with_ (wk 0) false (.nameds [badNamed]), ret x] = c!"MATCH (p) SET x = y WITH x RETURN x" ∧
    shown (.ok start) [m, .callProc 3 4 5 6 7 [c!"f"], .yield 8 [y], .returning 50 51 false (.nameds [badNamed])] = c!"MATCH (p) CALL f() YIELD y RETURN x" ∧
    shown (startCall 3 4 5 6 7 [c!"f"]) [.yield 8 [y], .returning 50 51 false (.nameds [badNamed])] = c!"CALL f() YIELD y RETURN x" := by decide +kernel

/-- C34 fails for the arguments of a procedure call that a query begins with: the call vanishes together with the error, unless the
call is the whole statement. -/
theorem C34_standalone_arguments_lost :
    shown (startCall 3 4 5 6 7 [c!"f"]) [.args [bad], .yield 8 [y], ret x] = c!"RETURN x" ∧
    shown (startCall 3 4 5 6 7 [c!"f"]) [.args [bad], .yield 8 [y]] = c!"error" := by decide +kernel

/-- C34 fails for a procedure call without name: it vanishes. -/
theorem C34_unnamed_call_lost : shown (.ok startCallError) [.yield 8 [y], ret x] = c!"RETURN x" := by decide +kernel

/-- C34: nothing checks that a WITH has something to pass on: it vanishes together with its condition, also when the only name given is
empty. -/
theorem C34_empty_with (b : Base) (hb : b.err = none) (ks : WithKeys) (d : Bool) (i : List (Key × Str)) (hi : ∀ p ∈ i, p.2 = []) (c : Cond) :
    ∀ b', execAll u (.base b) [.with_ ks d (.strings i), .where_ c] = .ok b' → ∃ w, b' = .with_ w ∧ w.next = .ok b := by
  intro b' h
  have hv : Args.vals u (.strings i) = [] := by
    simp only [Args.vals, List.map_eq_nil_iff, List.filter_eq_nil_iff]
    intro p hp
    simp [hi p hp]
  simp only [execAll, exec, execBase, Outcome.bind, Base.with_, hb, hv, Args.namedErr, errsOf, firstErr, List.map_nil, execWith] at h
  cases h
  exact ⟨_, rfl, by simp [WithB.next, withCreate, Base.addWith, hb]⟩

example : ∃ b', execAll .ascii (.base {}) [.with_ ⟨1, 2, 3, 4, 7⟩ false (.strings [(5, [])]), .where_ (.atom (.mk' 6 [leaf 6 c!"c"] true))] = .ok b' := ⟨_, rfl⟩

/-- C34: in a query with more than one part, an error is not returned by `Build`: the stack overflows (multi_part_query.go calls itself). -/
theorem C34_multipart_panics (b : Base) (hp : b.parts ≠ []) (cs : List Clause) (hl : b.list = .ok cs) (c : Clause) (hc : c ∈ cs) (he : c.val.err ≠ none)
    (ret : Option Val) : b.buildImpl ret = .panic := by
  simp only [Base.buildImpl, hl, hp, if_false]
  obtain ⟨e, h⟩ := Base.firstErr_some (xs := b.parts.map (·.err) ++ [(singlePart cs ret).err]) (List.mem_append_right _ (by simp)) (Base.singlePart_err hc he ret)
  simp [multiPart, h]

example : shown (.ok start) [m, .with_ (wk 0) false (.exprs [x]), m] = c!"panic" := by decide +kernel

end
end Verif
