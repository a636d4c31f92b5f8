import Verif.BuilderMemLines
import Verif.PropsBuilder

/-
C39 for the builders: what happens when a builder is used for two continuations.  The model of the builder in memory is in BuilderMem;
the lemmas are in BuilderMemLemmas, BuilderMemExec, BuilderMemCalls, BuilderMemBuild and BuilderMemLines.
-/

namespace Verif
open Spec SampleBuilder

variable (u : Unicode) (grow : Nat → Nat → Nat)

/-! ### Checking the hypotheses in examples -/

namespace SampleUse

/-- `Use.Forks`, computed. -/
def forksB : B → Use → Bool
  | _, .nothing => true
  | _, .build => true
  | b, .call c p => match exec .ascii b c with | .ok b' => forksB b' p | .panic => true
  | b, .both p q => b.again && forksB b p && forksB b q

theorem forks_of {b : B} {p : Use} (h : forksB b p = true) : p.Forks .ascii b := by
  induction p generalizing b with
  | nothing => trivial
  | build => trivial
  | call c p ih =>
    intro b' hb
    simp only [forksB, hb] at h
    exact ih h
  | both p q ihp ihq =>
    simp only [forksB, Bool.and_eq_true] at h
    exact ⟨h.1.1, ihp h.1.2, ihq h.2⟩

/-- `B.fresh` for builders that have clauses. -/
def freshB : B → Bool
  | .base b => b.parts.isEmpty
  | _ => false

/-- `Use.Late`, computed, for such builders. -/
def lateB : B → Use → Bool
  | _, .nothing => true
  | _, .build => true
  | b, .call c p => match exec .ascii b c with | .ok b' => lateB b' p | .panic => true
  | b, .both p q => (freshB b || (match p, b with | .build, .base _ => true | _, _ => false)) && lateB b p && lateB b q

theorem late_of {b : B} {p : Use} (h : lateB b p = true) : p.Late .ascii b := by
  induction p generalizing b with
  | nothing => trivial
  | build => trivial
  | call c p ih =>
    intro b' hb
    simp only [lateB, hb] at h
    exact ih h
  | both p q ihp ihq =>
    simp only [lateB, Bool.and_eq_true, Bool.or_eq_true] at h
    refine ⟨?_, ihp h.1.2, ihq h.2⟩
    rcases h.1.1 with h1 | h1
    · left
      cases b <;> simp only [freshB, List.isEmpty_iff, Bool.false_eq_true] at h1
      exact h1
    · right
      cases p <;> cases b <;> simp only [Bool.false_eq_true] at h1
      exact ⟨rfl, trivial⟩

/-- `B.clean` for builders that have clauses. -/
def cleanB : B → Bool
  | .base b => b.elems.isEmpty && b.parts.isEmpty && b.oupdate.isNone
  | _ => false

def baseB : B → Bool
  | .base _ => true
  | _ => false

/-- `Line.Sound`, computed. -/
def soundB (used : List Nat) (env : List B) : List Line → Bool
  | [] => true
  | .call i c :: ls => !used.contains i && match env[i]? with
    | some b => match exec .ascii b c with
      | .ok b' => soundB (if cleanB b then used else i :: used) (env ++ [b']) ls
      | .panic => true
    | none => true
  | .build i :: ls => !used.contains i && match env[i]? with
    | some b => soundB (if cleanB b || baseB b then used else i :: used) env ls
    | none => true

theorem clean_of {b : B} (h : cleanB b = true) : b.clean := by
  cases b <;> simp only [cleanB, Bool.false_eq_true, Bool.and_eq_true, List.isEmpty_iff, Option.isNone_iff_eq_none] at h
  exact ⟨h.1.1, h.1.2, fun _ _ _ _ hh => by rw [h.2] at hh; cases hh⟩

theorem base_of {b : B} (h : baseB b = true) : b.isBase := by
  cases b <;> simp only [baseB, Bool.false_eq_true] at h
  trivial

theorem sound_of {P : Nat → Prop} {used : List Nat} {env : List B} {ls : List Line} (hP : ∀ i, P i → i ∈ used)
    (h : soundB used env ls = true) : Line.Sound .ascii P env ls := by
  induction ls generalizing P used env with
  | nil => trivial
  | cons l ls ih =>
    cases l with
    | call i c =>
      simp only [soundB, Bool.and_eq_true, Bool.not_eq_true', List.contains_eq_mem, decide_eq_false_iff_not] at h
      refine ⟨fun hh => h.1 (hP i hh), fun b b' hb he => ?_⟩
      have h2 := h.2
      simp only [hb, he] at h2
      refine ih ?_ h2
      intro j hj
      rcases hj with hj | ⟨rfl, hj⟩
      · split
        · exact hP j hj
        · exact List.mem_cons_of_mem _ (hP j hj)
      · rw [if_neg (fun hh => hj (clean_of hh))]
        exact List.mem_cons_self ..
    | build i =>
      simp only [soundB, Bool.and_eq_true, Bool.not_eq_true', List.contains_eq_mem, decide_eq_false_iff_not] at h
      refine ⟨fun hh => h.1 (hP i hh), fun b hb => ?_⟩
      have h2 := h.2
      simp only [hb] at h2
      refine ih ?_ h2
      intro j hj
      rcases hj with hj | ⟨rfl, hj⟩
      · split
        · exact hP j hj
        · exact List.mem_cons_of_mem _ (hP j hj)
      · rw [if_neg]
        · exact List.mem_cons_self ..
        · intro hh
          rcases Bool.or_eq_true _ _ ▸ hh with hh | hh
          · exact hj (.inl (clean_of hh))
          · exact hj (.inr (base_of hh))

/-- What a result shows. -/
def shows : Built Stmt → Str
  | .panic => c!"panic"
  | .ok (.error _) => c!"error"
  | .ok (.ok s) => if s.err.isSome then c!"error" else text s.visit

def mat (n : Nat) : Call := .match_ (200 + 2 * n) (201 + 2 * n) false [p]
def mat2 (n : Nat) : Call := .match_ (300 + 2 * n) (301 + 2 * n) false [q]
def wh (k : Key) (t : Str) : Call := .where_ (.atom (.mk' k [leaf k t] true))
def wi (n : Nat) (v : Val) : Call := .with_ (wk n) false (.exprs [v])
def ret (n : Nat) (v : Val) : Call := .returning (500 + 2 * n) (501 + 2 * n) false (.exprs [v])

/-- `a := Match(p).Match(q).With(x)`; then from `a`: `Match(p).Returning(x)`, `Match(q).With(y).Match(p).Returning(y)`, of which the
builder before the RETURN is used twice, too. -/
def tree : Use :=
  .call (mat 0) <| .call (mat2 0) <| .call (wi 0 x) <|
    .both (.call (mat 1) (.call (ret 0 x) .build))
      (.call (mat2 1) (.call (wi 1 y) (.call (mat 2)
        (.both (.call (ret 1 y) .build) (.call (wh 104 c!"a") (.call (ret 2 z) .build))))))

/-- `a := Match(p)`; `Where(a).Returning(x)` and `Create(q)` from it, where `Build()` is called on the way. -/
def late : Use :=
  .call (mat 0) <|
    .both (.call (wh 104 c!"a") (.call (ret 0 x) .build))
      (.call (.create (uk 0) [q]) (.both .build (.call (.create (uk 1) [p]) .build)))

/-- `a := Match(p)`, `b := a.Where(…)`, `c := a.Where(…)`, `d := b.With(x)`, `e := c.Returning(y)`, `f := d.Returning(x)`; `e.Build()`,
`f.Build()`. -/
def vars : List Line :=
  [.call 0 (mat 0), .call 1 (wh 104 c!"a"), .call 1 (wh 105 c!"b"), .call 2 (wi 0 x), .call 3 (ret 0 y), .call 4 (ret 1 x), .build 5, .build 6]

/-- `a := Match(p).Match(p).Match(p).Match(p)`, `b := a.Where(a)`, `c := a.Where(b)`, and both are continued. -/
def wheres : List Line :=
  [.call 0 (mat 0), .call 1 (mat 1), .call 2 (mat 2), .call 3 (mat 3), .call 4 (wh 104 c!"a"), .call 4 (wh 105 c!"b"),
    .call 5 (mat2 0), .call 6 (mat2 1), .call 7 (ret 0 x), .call 8 (ret 1 x), .build 9, .build 10]

/-- `a := Match(p).With(x).With(x).With(x).Match(q)`; `s := a.With(y).Returning(x).Build()`, and then `t := a.With(z).Returning(x).Build()`. -/
def withs : Use :=
  .call (mat 0) <| .call (wi 0 x) <| .call (wi 1 x) <| .call (wi 2 x) <| .call (mat2 0) <|
    .both (.call (wi 3 y) (.call (ret 0 x) .build)) (.call (wi 4 z) (.call (ret 1 x) .build))

/-- `a := Match(p).Returning(x).OrderBy(x).Ascending().And(x).Ascending().And(x).Ascending()`; `s := a.And(y).Build()`, and then
`t := a.And(z).Build()`. -/
def orders : Use :=
  .call (mat 0) <| .call (ret 0 x) <| .call (.orderBy 402 x) <| .call (.asc 403) <| .call (.andBy 404 x) <| .call (.asc 405) <|
    .call (.andBy 406 x) <| .call (.asc 407) <| .both (.call (.andBy 408 y) .build) (.call (.andBy 409 z) .build)

/-- `a := Unwind(x)`; `a.As("v")`, and then `a.As("w")`. -/
def unwinds : Use :=
  .call (.unwind x) (.both (.call (.as 5 6 c!"v") (.call (ret 0 y) .build)) (.call (.as 7 8 c!"w") (.call (ret 1 y) .build)))

/-- `a := Match(p).Set(x, y)`; `a.Build()`, twice. -/
def sets : Use := .call (mat 0) (.call (.set (uk 0) [x, y]) (.both .build .build))

/-- `a := Merge(p).OnCreate()`; `a.Set(x, y)`, and then `a.Set(y, x)`. -/
def actions : Use :=
  .call (.merge (uk 0) [p]) (.call (.on .onCreate)
    (.both (.call (.actionSet 10 11 12 (fun i => 13 + i) [x, y]) .build) (.call (.actionSet 20 21 22 (fun i => 23 + i) [y, x]) .build)))

end SampleUse
open SampleUse

/-! ### Depth first -/

namespace HB

theorem inv_new (m : Mem) : Inv m (.base {}) where
  cell c hc := by cases hc
  cl := .empty _
  pt := .empty _
  ac := .empty _
  it := .empty _
  so := .empty _
  parts p hp := by simp [baseOf, Heap.read] at hp

theorem inv_standalone (m : Mem) (c : CallB) (n : Bool) : Inv m (.standalone c n) where
  cell c hc := by cases hc
  cl := .empty _
  pt := .empty _
  ac := .empty _
  it := .empty _
  so := .empty _
  parts p hp := by simp [baseOf, HB.cell, Heap.read] at hp

end HB

/-- C39 for the builders, for programs that go on with one continuation of a builder until its statement is built and looked at (rendered,
say), and then with the next one.  Every statement is what it would be if builders were values, whatever capacities `append` chooses.
Missing: builders of updates, of UNWIND and of actions of a MERGE that are used twice, for which this is false
(`C39_builders_unwind`, `C39_builders_update`, `C39_builders_merge`); continuations that are interleaved, or looked at later, see below. -/
theorem C39_builders_partial (p : Use) (h : p.Forks u (.base {})) : atOnce (p.run u grow {} (.base {})) = p.value u (.base {}) :=
  (HB.run_atOnce u grow (HB.inv_new _) rfl p h).2

/-- The same for a builder that starts with a standalone call. -/
theorem C39_builders_call_partial (c : CallB) (n : Bool) (p : Use) (h : p.Forks u (.standalone c n)) :
    atOnce (p.run u grow {} (.standalone c n)) = p.value u (.standalone c n) :=
  (HB.run_atOnce u grow (HB.inv_standalone _ c n) rfl p h).2

example : tree.Forks .ascii (.base {}) ∧ (tree.value .ascii (.base {})).map shows =
    [c!"MATCH (p) MATCH (q) WITH x MATCH (p) RETURN x", c!"MATCH (p) MATCH (q) WITH x MATCH (q) WITH y MATCH (p) RETURN y",
      c!"MATCH (p) MATCH (q) WITH x MATCH (q) WITH y MATCH (p) WHERE a RETURN z"] :=
  ⟨forks_of (by decide +kernel), by decide +kernel⟩

/-- C39 for statements that are looked at when the whole program has ended, for programs as above in which a builder that is used more
than once has no WITH and no sort items behind it, or is only used to go on after its `Build()`.  Missing: other builders, for which this
is false (`C39_builders_late`, `C39_builders_late_order`). -/
theorem C39_builders_late_partial (p : Use) (h : p.Late u (.base {})) : atEnd (p.run u grow {} (.base {})) = p.value u (.base {}) := by
  rw [← C39_builders_partial u grow p (HB.late_forks u h)]
  simp only [atEnd, atOnce]
  exact List.map_congr_left fun s hs => (HB.run_atEnd u grow (HB.inv_new _) rfl p h s hs).1

example : late.Late .ascii (.base {}) ∧ (late.value .ascii (.base {})).map shows =
    [c!"MATCH (p) WHERE a RETURN x", c!"MATCH (p) CREATE (q) ", c!"MATCH (p) CREATE (q) CREATE (p) "] :=
  ⟨late_of (by decide +kernel), by decide +kernel⟩

/-! ### In any order -/

/-- C39 for programs that keep builders in variables, starting with a new builder and any number of standalone calls, and use them in any
order, in which no builder is used after it was continued, or built together with its RETURN or its updates; only builders that have no
closed clauses, WITHs and sort items (`B.clean`: `Match(p)`, say) may be continued any number of times, and builders without RETURN may be
built at any time.  Every statement is what it would be if builders were values, when it is built and when the program has ended.
Missing: other builders that are used again; this is false (`C39_builders_clauses`). -/
theorem C39_builders_variables_partial (cs : List (CallB × Bool)) (ls : List Line)
    (h : Line.Sound u (fun _ => False) (.base {} :: cs.map fun c => .standalone c.1 c.2) ls) :
    atOnce (Line.run u grow {} (.base {} :: cs.map fun c => .standalone c.1 c.2) ls) =
        Line.value u (.base {} :: cs.map fun c => .standalone c.1 c.2) ls ∧
      atEnd (Line.run u grow {} (.base {} :: cs.map fun c => .standalone c.1 c.2) ls) =
        Line.value u (.base {} :: cs.map fun c => .standalone c.1 c.2) ls := by
  have hstart : ∀ a ∈ (HB.base {} :: cs.map fun c => HB.standalone c.1 c.2), a = .base {} ∨ ∃ c n, a = .standalone c n := by
    intro a ha
    rcases List.mem_cons.1 ha with rfl | ha
    · exact .inl rfl
    · obtain ⟨c, -, rfl⟩ := List.mem_map.1 ha
      exact .inr ⟨_, _, rfl⟩
  have hoff : ∀ a b, (a = .base {} ∨ ∃ c n, a = .standalone c n) → (b = .base {} ∨ ∃ c n, b = .standalone c n) → HB.Off {} a b := by
    have key : ∀ a b : HB, a.calls = (fun _ => False) → a.writes = (fun _ => False) → b.baseOf {} = {} → b.items = {} → b.sorts = {} →
        HB.Off {} a b := by
      intro a b h1 h2 h3 h4 h5
      have sep : ∀ {α : Type} {h : Heap α} {s : Slice}, HB.Sep h s {} := fun i hi => absurd hi (Nat.not_lt_zero _)
      refine ⟨by rw [h3]; exact sep, by rw [h3]; exact sep, by rw [h3]; exact sep, by rw [h4]; exact sep, by rw [h5]; exact sep, ?_, ?_⟩
      · intro p hp; rw [h3] at hp; simp [Heap.read] at hp
      · intro c hc; rw [h1, h2] at hc; exact (hc.elim id id).elim
    rintro a b (rfl | ⟨c, n, rfl⟩) (rfl | ⟨d, k, rfl⟩) <;> exact key _ _ rfl rfl rfl rfl rfl
  have fine : HB.Fine (fun _ => False) {} (.base {} :: cs.map fun c => .standalone c.1 c.2)
      (.base {} :: cs.map fun c => .standalone c.1 c.2) [] := by
    refine ⟨by simp, ?_, ?_, fun _ _ _ _ r hr => (by cases hr), fun r hr => (by cases hr)⟩
    · intro i a x _ ha hx
      cases i with
      | zero =>
        simp only [List.getElem?_cons_zero, Option.some.injEq] at ha hx
        subst ha hx
        exact ⟨HB.inv_new _, rfl⟩
      | succ i =>
        simp only [List.getElem?_cons_succ, List.getElem?_map] at ha hx
        cases hc : cs[i]? with
        | none => rw [hc] at ha; cases ha
        | some c =>
          rw [hc] at ha hx
          cases ha; cases hx
          exact ⟨HB.inv_standalone _ _ _, rfl⟩
    · intro i j a b _ _ _ ha hb
      exact hoff a b (hstart a (List.mem_of_getElem? ha)) (hstart b (List.mem_of_getElem? hb))
  obtain ⟨h1, h2, -⟩ := HB.lines u grow fine ls h
  refine ⟨h1, ?_⟩
  rw [← h1]
  simp only [atEnd, atOnce]
  exact List.map_congr_left h2

example : Line.Sound .ascii (fun _ => False) [.base {}] vars ∧ (Line.value .ascii [.base {}] vars).map shows =
    [c!"MATCH (p) WHERE b RETURN y", c!"MATCH (p) WHERE a WITH x RETURN x"] :=
  ⟨sound_of (used := []) (fun _ => False.elim) (by decide +kernel), by decide +kernel⟩

/-! ### Where it fails -/

/-- C39 fails: after `a := Match(p).Match(p).Match(p).Match(p)`, `b := a.Where(a).Match(q)` and `c := a.Where(b).Match(q)`, the statement
of `b` has the condition of `c`. -/
theorem C39_builders_clauses :
    (atOnce (Line.run .ascii goGrow {} [.base {}] wheres)).map shows =
        [c!"MATCH (p) MATCH (p) MATCH (p) MATCH (p) WHERE b MATCH (q) RETURN x",
          c!"MATCH (p) MATCH (p) MATCH (p) MATCH (p) WHERE b MATCH (q) RETURN x"] ∧
      (Line.value .ascii [.base {}] wheres).map shows =
        [c!"MATCH (p) MATCH (p) MATCH (p) MATCH (p) WHERE a MATCH (q) RETURN x",
          c!"MATCH (p) MATCH (p) MATCH (p) MATCH (p) WHERE b MATCH (q) RETURN x"] := by
  decide +kernel

/-- C39 fails: after a builder with three WITHs was used for a statement, and then for another one, the first statement has the fourth
WITH of the second one, although it was built before. -/
theorem C39_builders_late :
    (atEnd (withs.run .ascii goGrow {} (.base {}))).map shows =
        [c!"MATCH (p) WITH x WITH x WITH x MATCH (q) WITH z RETURN x", c!"MATCH (p) WITH x WITH x WITH x MATCH (q) WITH z RETURN x"] ∧
      (withs.value .ascii (.base {})).map shows =
        [c!"MATCH (p) WITH x WITH x WITH x MATCH (q) WITH y RETURN x", c!"MATCH (p) WITH x WITH x WITH x MATCH (q) WITH z RETURN x"] := by
  decide +kernel

/-- C39 fails: after a builder with three sort items was used for a statement, and then for another one, the first statement has the
fourth sort item of the second one. -/
theorem C39_builders_late_order :
    (atEnd (orders.run .ascii goGrow {} (.base {}))).map shows =
        [c!"MATCH (p) RETURN x ORDER BY x ASC, x ASC, x ASC, z", c!"MATCH (p) RETURN x ORDER BY x ASC, x ASC, x ASC, z"] ∧
      (orders.value .ascii (.base {})).map shows =
        [c!"MATCH (p) RETURN x ORDER BY x ASC, x ASC, x ASC, y", c!"MATCH (p) RETURN x ORDER BY x ASC, x ASC, x ASC, z"] := by
  decide +kernel

/-- C39 fails: `a := Unwind(x)`, `a.As("v")`, `a.As("w")`: the second one has both UNWINDs. -/
theorem C39_builders_unwind :
    (atOnce (unwinds.run .ascii goGrow {} (.base {}))).map shows = [c!"UNWIND x AS v RETURN y", c!"UNWIND x AS v UNWIND x AS w RETURN y"] ∧
      (unwinds.value .ascii (.base {})).map shows = [c!"UNWIND x AS v RETURN y", c!"UNWIND x AS w RETURN y"] := by
  decide +kernel

/-- C39 fails: `Build()` of a builder that ends with an update adds the update to the builder, so that the second `Build()` has it
twice. -/
theorem C39_builders_update :
    (atOnce (sets.run .ascii goGrow {} (.base {}))).map shows = [c!"MATCH (p) SET x = y ", c!"MATCH (p) SET x = y SET x = y "] ∧
      (sets.value .ascii (.base {})).map shows = [c!"MATCH (p) SET x = y ", c!"MATCH (p) SET x = y "] := by
  decide +kernel

/-- C39 fails: `a := Merge(p).OnCreate()`, `a.Set(x, y)`, `a.Set(y, x)`: the second one has both actions. -/
theorem C39_builders_merge :
    (atOnce (actions.run .ascii goGrow {} (.base {}))).map shows =
        [c!"MERGE (p) ON CREATE SET x = y ", c!"MERGE (p) ON CREATE SET x = y ON CREATE SET y = x "] ∧
      (actions.value .ascii (.base {})).map shows = [c!"MERGE (p) ON CREATE SET x = y ", c!"MERGE (p) ON CREATE SET y = x "] := by
  decide +kernel

end Verif
