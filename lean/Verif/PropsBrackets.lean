import Verif.ApiLemmas5
import Verif.PropsRender

/-
C40 Brackets are balanced.
-/

namespace Verif
open Spec

namespace SampleBrackets

/-- `NewNode("L)").NamedByString("n").WithRawProperties("k(", "v]'//;")` -/
def node : NodeV :=
  match (NodeV.namedByString (.create2 110 111 c!"L)") 112 c!"n").withRawProperties .ascii 113 114 115 (fun i => 116 + i) [.str c!"k(", .str c!"v]'//;"] with
  | .ok n => n
  | .panic => {}

/-- `Match(node).Where(Size(…).GreaterThan(1)).Match(node).ReturningByString("a}").Build()` -/
def calls : List Call :=
  [.match_ 120 121 false [node.toVal .ascii],
   .where_ (.atom (compare .gt 122 123 124 (some (listLiteral 125 [intLiteral 126 1, stringLiteral 127 c!"{"])) (some (intLiteral 128 1)))),
   .match_ 129 130 true [node.toVal .ascii],
   .returning 131 132 true (.strings [(133, c!"a}")])]

/-- The statement built by calls on a new builder. -/
def stmt (cs : List Call) : Stmt :=
  match (execAll .ascii start cs).bind B.build with
  | .ok (.ok s) => s
  | _ => .query [] none false

/-- What a new renderer makes of a statement. -/
def out (s : Stmt) : Except Err Str := (render .ascii RState.new (some ⟨s.err, s.visit⟩)).1

end SampleBrackets
open SampleBrackets


/-! ### C40 Brackets are balanced -/

/-- What one renderer makes of statements, one after the other. -/
def renderEach (u : Unicode) (r : RState) : List Stmt → List (Except Err Str)
  | [] => []
  | s :: ss =>
    let p := render u r (some ⟨s.err, s.visit⟩)
    p.1 :: renderEach u p.2 ss

theorem renderEach_balanced {u : Unicode} {alOf : Key → Option Al} (hok : AlOk alOf) {r : RState} (hr : Idle alOf r) (he : EnvOk (envOf r))
    (ss : List Stmt) (ha : ∀ s ∈ ss, Api u (.stmt s)) (hw : ∀ s ∈ ss, WFL alOf s.visit) (q : Str) (hq : Except.ok q ∈ renderEach u r ss) :
    Whole q := by
  induction ss generalizing r with
  | nil => cases hq
  | cons s ss ih =>
    rw [renderEach] at hq
    have ht : TidyL s.visit := Stmt.Neat.visit (api_neat (ha s (by simp)))
    have htop := refine_top hok r s.visit (hw s (by simp)) hr.skip hr.al hr.astack hr.seps hr.stack
    have hden := denL_ok false true (envOf r) he s.visit ht
    cases hs : s.err with
    | some e =>
      simp only [render, hs] at hq
      rcases List.mem_cons.1 hq with hq | hq
      · cases hq
      · exact ih hr he (fun t h => ha t (by simp [h])) (fun t h => hw t (by simp [h])) hq
    | none =>
      simp only [render, hs, htop] at hq
      rcases List.mem_cons.1 hq with hq | hq
      · cases hq
        refine whole_trimSpace u ?_
        simp only [RState.upd, hr.out, List.nil_append]
        exact hden.1
      · refine ih ?_ ?_ (fun t h => ha t (by simp [h])) (fun t h => hw t (by simp [h])) hq
        · refine ⟨hr.skip, ?_, hr.astack, ?_, hr.stack, hr.out⟩
          · simp only [RState.upd]
            exact denL_AlInv _ _ _ _ hr.al (hw s (by simp))
          · simp only [RState.upd]; exact hr.seps
        · exact hden.2

/-- C40: in the text of every statement that can be made with the library the brackets outside quoted text are properly nested, every
quotation mark is closed, no comment begins (`//` or `/*`) and there is no semicolon, so that it is one statement, for all names, labels, keys and string contents; also when the renderer has rendered other statements before.
Missing: names that are printed without escaping (`Api` asks that these be balanced themselves), for which this is false, see
`C40_node_name`, `C40_parameter`, `C40_procedure`, `C40_comment`, `C40_unwind`. -/
theorem C40_brackets_partial (u : Unicode) (alOf : Key → Option Al) (hok : AlOk alOf) (ss : List Stmt) (ha : ∀ s ∈ ss, Api u (.stmt s))
    (hw : ∀ s ∈ ss, WFL alOf s.visit) (q : Str) (hq : Except.ok q ∈ renderEach u RState.new ss) : Whole q :=
  renderEach_balanced hok ⟨rfl, fun k a h => by simp [RState.new] at h, rfl, fun _ => rfl, rfl, rfl⟩
    (fun k a h => by simp [RState.new, envOf] at h) ss ha hw q hq

/-- The same for one statement and a new renderer. -/
theorem C40_one_partial (u : Unicode) (alOf : Key → Option Al) (hok : AlOk alOf) (s : Stmt) (ha : Api u (.stmt s)) (hw : WFL alOf s.visit)
    (q : Str) (hq : (render u RState.new (some ⟨s.err, s.visit⟩)).1 = .ok q) : Whole q :=
  C40_brackets_partial u alOf hok [s] (by simpa using ha) (by simpa using hw) q (by simp [renderEach, hq])

theorem api_calls {u : Unicode} : ∀ (cs : List Call) {b b' : B}, Api u (.builder b) → (∀ c ∈ cs, ∀ t ∈ callThings c, Api u t) →
    (∀ c ∈ cs, ∀ s ∈ callNames c, Balanced s) → (∀ c ∈ cs, ∀ b, ∀ v ∈ unchecked u b c, v.err = none) → execAll u b cs = .ok b' →
    Api u (.builder b')
  | [], b, b', hb, _, _, _, h => by cases h; exact hb
  | c :: cs, b, b', hb, ht, hn, he, h => by
    obtain ⟨b1, h1, h2⟩ := Outcome.bind_ok h
    exact api_calls cs (.call b c b1 hb (ht c (by simp)) (hn c (by simp)) (he c (by simp) b) h1) (fun d hd => ht d (by simp [hd]))
      (fun d hd => hn d (by simp [hd])) (fun d hd => he d (by simp [hd])) h2

theorem api_node : Api .ascii (.node node) := by
  have h : ∃ n, (NodeV.namedByString (.create2 110 111 c!"L)") 112 c!"n").withRawProperties .ascii 113 114 115 (fun i => 116 + i)
      [.str c!"k(", .str c!"v]'//;"] = .ok n ∧ node = n := ⟨node, rfl, rfl⟩
  obtain ⟨n, h, hn⟩ := h
  rw [hn]
  refine .nodeWithRaw _ _ _ _ _ _ _ (.nodeNamedByString _ _ _ (by decide) (.node _ _ _)) ?_ h
  intro o ho t ht
  simp only [List.mem_cons, List.not_mem_nil, or_false] at ho
  rcases ho with rfl | rfl <;> cases ht

theorem api_stmt : Api .ascii (.stmt (stmt calls)) := by
  have h : ∃ b s, execAll .ascii start calls = .ok b ∧ b.build = .ok (.ok s) ∧ stmt calls = s := ⟨_, _, rfl, rfl, rfl⟩
  obtain ⟨b, s, h1, h2, h3⟩ := h
  rw [h3]
  refine .build b s (api_calls calls .start ?_ ?_ ?_ h1) h2
  · intro c hc t ht
    simp only [calls, List.mem_cons, List.not_mem_nil, or_false] at hc
    rcases hc with rfl | rfl | rfl | rfl
    · simp only [callThings, List.map, List.mem_singleton] at ht; subst ht; exact .nodeVal _ api_node
    · simp only [callThings, List.mem_singleton] at ht; subst ht
      refine .atom _ (.compare _ _ _ _ _ _ ?_ ?_)
      · intro t ht
        simp only [optThings, Option.map, Option.toList, List.mem_singleton] at ht; subst ht
        refine .listLiteral _ _ ?_
        intro x hx
        simp only [List.mem_cons, List.not_mem_nil, or_false] at hx
        rcases hx with rfl | rfl
        · exact .intLiteral _ _
        · exact .stringLiteral _ _
      · intro t ht
        simp only [optThings, Option.map, Option.toList, List.mem_singleton] at ht; subst ht
        exact .intLiteral _ _
    · simp only [callThings, List.map, List.mem_singleton] at ht; subst ht; exact .nodeVal _ api_node
    · cases ht
  · intro c hc s hs
    simp only [calls, List.mem_cons, List.not_mem_nil, or_false] at hc
    rcases hc with rfl | rfl | rfl | rfl <;> cases hs
  · intro c hc b v hv
    simp only [calls, List.mem_cons, List.not_mem_nil, or_false] at hc
    rcases hc with rfl | rfl | rfl | rfl <;> cases b <;> simp only [unchecked, List.not_mem_nil] at hv
    cases hv with
    | head => rfl
    | tail _ hv => cases hv

mutual
/-- A check for `WF` if there is no alias at all. -/
def wfCheck : Tree → Bool
  | .raw _ => true
  | .node v kids => v.asAlias.isNone && (match v.kind with | .node (some _) => !(keysL kids).elem v.key | _ => true) && wfCheckL kids
def wfCheckL : List Tree → Bool
  | [] => true
  | t :: ts => wfCheck t && wfCheckL ts
end

mutual
theorem wf_of_check : ∀ t, wfCheck t = true → WF (aliases []) t
  | .raw _, _ => by rw [WF]; trivial
  | .node v kids, h => by
    rw [wfCheck, Bool.and_eq_true, Bool.and_eq_true] at h
    have ha : v.asAlias = none := by simpa using h.1.1
    rw [WF, ha]
    refine ⟨rfl, fun hs => ?_, fun a h => (by cases h), wfL_of_check kids h.2⟩
    rcases hs with ⟨k, a, hk, _⟩ | ⟨n, hn⟩ | hk
    · cases hk
    · have := h.1.2
      rw [hn] at this
      simpa using this
    · cases hk
theorem wfL_of_check : ∀ ts, wfCheckL ts = true → WFL (aliases []) ts
  | [], _ => by rw [WFL]; trivial
  | t :: ts, h => by
    rw [wfCheckL, Bool.and_eq_true] at h
    rw [WFL]
    exact ⟨wf_of_check t h.1, wfL_of_check ts h.2⟩
end

theorem wf_stmt : WFL (aliases []) (stmt calls).visit := wfL_of_check _ (by decide +kernel)

-- brackets, quotation marks and the beginning of a comment and a semicolon in a label, a key, strings and a name
example : out (stmt calls) =
    .ok c!"MATCH (n:`L)` {`k(`: 'v]\\'//;'}) WHERE [1, '{'] > 1 OPTIONAL MATCH (n) RETURN DISTINCT `a}`" := by decide +kernel
example : Balanced c!"MATCH (n:`L)` {`k(`: 'v]\\'//;'}) WHERE [1, '{'] > 1 OPTIONAL MATCH (n) RETURN DISTINCT `a}`" := by decide +kernel
example (q : Str) (hq : out (stmt calls) = .ok q) : Whole q :=
  C40_one_partial .ascii (aliases []) (aliases_ok [] (by simp)) _ api_stmt wf_stmt q hq
/-- The claim is false for names of nodes: from the second time on the name is printed unescaped. -/
theorem C40_node_name :
    let n := (NodeV.create2 110 111 c!"L").namedByString 112 c!"a("
    let s := stmt [.match_ 120 121 false [n.toVal .ascii], .match_ 122 123 false [n.toVal .ascii], .returning 124 125 false (.strings [(126, c!"x")])]
    out s = .ok c!"MATCH (`a(`:`L`) MATCH (a() RETURN x" ∧ ¬ Whole c!"MATCH (`a(`:`L`) MATCH (a() RETURN x" := by decide +kernel

/-- ... for parameters, -/
theorem C40_parameter :
    let s := stmt [.returning 124 125 false (.exprs [parameter 126 c!"p)"])]
    out s = .ok c!"RETURN $p)" ∧ ¬ Whole c!"RETURN $p)" := by decide +kernel

/-- ... for procedures, -/
theorem C40_procedure :
    let s := stmt [.callProc 120 121 122 123 124 [c!"db{"], .args [intLiteral 125 1], .returning 126 127 false (.strings [(128, c!"x")])]
    out s = .ok c!"CALL db{(1) RETURN x" ∧ ¬ Whole c!"CALL db{(1) RETURN x" := by decide +kernel

/-- ... which can also begin a comment or end the statement, -/
theorem C40_comment :
    let s := stmt [.callProc 120 121 122 123 124 [c!"db//"], .args [intLiteral 125 1], .returning 126 127 false (.strings [(128, c!"x")])]
    let s' := stmt [.callProc 120 121 122 123 124 [c!"db;x"], .args [intLiteral 125 1], .returning 126 127 false (.strings [(128, c!"x")])]
    (out s = .ok c!"CALL db//(1) RETURN x" ∧ ¬ Whole c!"CALL db//(1) RETURN x") ∧
      out s' = .ok c!"CALL db;x(1) RETURN x" ∧ ¬ Whole c!"CALL db;x(1) RETURN x" := by decide +kernel

/-- ... and for the name that `Unwind(…).As(…)` gives. -/
theorem C40_unwind :
    let s := stmt [.unwind (listLiteral 120 [intLiteral 121 1]), .as 122 123 c!"a]", .returning 126 127 false (.strings [(128, c!"x")])]
    out s = .ok c!"UNWIND [1] AS a] RETURN x" ∧ ¬ Whole c!"UNWIND [1] AS a] RETURN x" := by decide +kernel

end Verif
