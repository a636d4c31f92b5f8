import Verif.CondLemmas2

/-
C16, C17, C18: combining and negating conditions.
-/

namespace Verif
open Spec

namespace SampleCond
/-- An atomic condition that is printed as the given word. -/
def condW (k : Key) (s : Str) : Val := .mk' k [leaf k s] true
def ca : Calls := .atom (condW 101 c!"a")
def cb : Calls := .atom (condW 102 c!"b")
def cc : Calls := .atom (condW 103 c!"c")
def cd : Calls := .atom (condW 104 c!"d")
def ks (n : Nat) : Cond.Keys := ⟨200 + 3 * n, 201 + 3 * n, 202 + 3 * n⟩
/-- `a.Or(b).And(c.Or(d))` -/
def mixed : Calls := .bin (ks 0) .and (.bin (ks 1) .or ca cb) (.bin (ks 2) .or cc cd)
/-- `a.Or(b).And(c).Xor(a.And(b).Not())`-/
def nested : Calls := .bin (ks 0) .xor (.bin (ks 1) .and (.bin (ks 2) .or ca cb) cc) (.not 300 301 (.bin (ks 3) .and ca cb))
end SampleCond
open SampleCond

/-! ### C16 -/

/-- C16, for combinations in which a combination is never the argument of a call on a combination made with a different
operator: the text consists of words that Cypher reads, in exactly one way, as a formula with the value of the combination as it was written, whatever the atomic conditions and the connectives
mean, as long as AND, OR and XOR are associative.  Missing: the other combinations, for which this is false (`C16_misread`). -/
theorem C16_combination_partial (p : Calls) (hu : p.Usable) (hf : p.Faithful) (hn : p.vacuous = false) (e : Env)
    (ha : NoAlias e (ownKeys p.build) p.build.toVal.visit) :
    ∃ ts f, shownAs e p.build.toVal.visit = layout e (ts.map Tok.part) ∧ Reads ts f ∧ (∀ g, Reads ts g → g = f) ∧
      ∀ val, p.meaning val = some (f.eval val) := by
  obtain ⟨h1, _, h3, _, h5⟩ := build_fine p hu hf
  obtain ⟨f, hr, hv⟩ := reads_cond p.build h1.1 h1.2 (by simp [h3, hn])
  have hr' : Reads (toks p.build) f := readsAt_or (readsAt_one (b := .and) hr)
  exact ⟨toks p.build, f, toks_layout e _ h1.1 ha, hr', fun g hg => reads_unique hg hr', fun val => by rw [← h5, hv]⟩

/-- A non-trivial combination that meets the hypotheses, and its text. -/
example : nested.Usable ∧ nested.Faithful ∧ nested.vacuous = false ∧
    NoAlias Env.empty (ownKeys nested.build) nested.build.toVal.visit ∧
    text nested.build.toVal.visit = c!"(((a OR b) AND c) XOR NOT ((a AND b)))" := by
  refine ⟨?_, ?_, rfl, ?_, by decide +kernel⟩
  · simp [nested, Calls.Usable, ca, cb, cc, Calls.UsableAtom, condW, Val.mk', Calls.vacuous]
  · simp [nested, Calls.Faithful, ca, cb, cc, Calls.single]
  · intro k _
    refine ⟨rfl, ?_⟩
    have : dkeysL nested.build.toVal.visit = [] := by decide +kernel
    simp [this]

/-- C16 fails in general: `a.Or(b).And(c.Or(d))` is rendered as `(a OR b AND (c OR d))`, which is true when `a` is true, although
`c` and `d` are false. -/
theorem C16_misread :
    ∃ p : Calls, p.Usable ∧ p.vacuous = false ∧ text p.build.toVal.visit = c!"(a OR b AND (c OR d))" ∧
      ∃ ts f, ∃ val : Val → Truth, shownAs Env.empty p.build.toVal.visit = layout Env.empty (ts.map Tok.part) ∧ Reads ts f ∧
        p.meaning (truths val) = some (some false) ∧ f.eval (truths val) = some true := by
  have hu : mixed.Usable := by
    simp [mixed, Calls.Usable, ca, cb, cc, cd, Calls.UsableAtom, condW, Val.mk']
  refine ⟨mixed, hu, rfl, by decide +kernel, toks mixed.build,
    .or (.atom (condW 101 c!"a")) (.and (.atom (condW 102 c!"b")) (.or (.atom (condW 103 c!"c")) (.atom (condW 104 c!"d")))),
    fun v => some (v.key = 101), ?_, ?_, rfl, rfl⟩
  · apply toks_layout _ _ (build_ok _ hu)
    intro k _
    refine ⟨rfl, ?_⟩
    have : dkeysL mixed.build.toVal.visit = [] := by decide +kernel
    simp [this]
  · have : toks mixed.build = .lp :: ([.atom (condW 101 c!"a")] ++ .or :: ([.atom (condW 102 c!"b")] ++ .and ::
        (.lp :: ([.atom (condW 103 c!"c")] ++ .or :: [.atom (condW 104 c!"d")]) ++ [.rp]))) ++ [.rp] := rfl
    rw [this]
    have atomN : ∀ v, ReadsNot [.atom v] (.atom v) := fun v => .prim (.atom v)
    have atomX : ∀ v, ReadsXor [.atom v] (.atom v) := fun v => .one (.one (atomN v))
    exact .one (.one (.one (.prim (.paren (.or (.one (atomX _)) (.one (.and (.one (atomN _))
      (.prim (.paren (.or (.one (atomX _)) (atomX _)))))))))))

/-- The reading of a text is unique, whatever the text. -/
theorem C16_unambiguous {ts : List Tok} {f g : Formula} (hf : Reads ts f) (hg : Reads ts g) : f = g := reads_unique hf hg

/-! ### C17 -/

/-- C17: combining an empty condition (or a combination of nothing but empty conditions) `p` with a condition `q` has exactly the
text of `q`. -/
theorem C17_empty_receiver (ks : Cond.Keys) (h : BOp) (p q : Calls) (hp : p.Usable) (hq : q.Usable) (hv : p.vacuous = true)
    (e : Env) (ha : NoAlias e (ownKeys (Calls.bin ks h p q).build) (Calls.bin ks h p q).build.toVal.visit)
    (ha' : NoAlias e (ownKeys q.build) q.build.toVal.visit) :
    shownAs e (Calls.bin ks h p q).build.toVal.visit = shownAs e q.build.toVal.visit := by
  have hok := build_ok (.bin ks h p q) ⟨hp, hq⟩
  rw [shownAs, shownAs, toks_layout e _ hok ha, toks_layout e _ (build_ok q hq) ha']
  rw [Calls.build, toks_none_combine ks h (build_ok p hp) (build_ok q hq) (by simp [build_hasCondition p hp, hv])]

example : shownAs Env.empty (Calls.bin (ks 0) .or .empty (.bin (ks 1) .and ca cb)).build.toVal.visit =
    shownAs Env.empty (Calls.bin (ks 1) .and ca cb).build.toVal.visit :=
  C17_empty_receiver (ks 0) .or .empty (.bin (ks 1) .and ca cb) trivial (by simp [ca, cb, Calls.Usable, Calls.UsableAtom, condW, Val.mk']) rfl Env.empty
    (by unfold NoAlias; decide +kernel) (by unfold NoAlias; decide +kernel)

/-- C17, the other side: combining a condition `p` with an empty condition has exactly the text of `p`. -/
theorem C17_empty_argument (ks : Cond.Keys) (h : BOp) (p q : Calls) (hp : p.Usable) (hq : q.Usable) (hv : q.vacuous = true)
    (e : Env) (ha : NoAlias e (ownKeys (Calls.bin ks h p q).build) (Calls.bin ks h p q).build.toVal.visit)
    (ha' : NoAlias e (ownKeys p.build) p.build.toVal.visit) :
    shownAs e (Calls.bin ks h p q).build.toVal.visit = shownAs e p.build.toVal.visit := by
  have hok := build_ok (.bin ks h p q) ⟨hp, hq⟩
  rw [shownAs, shownAs, toks_layout e _ hok ha, toks_layout e _ (build_ok p hp) ha']
  rw [Calls.build, toks_combine_none ks h (build_ok p hp) (build_ok q hq) (by simp [build_hasCondition q hq, hv])]

example : shownAs Env.empty (Calls.bin (ks 0) .or (.bin (ks 1) .and ca cb) .empty).build.toVal.visit =
    shownAs Env.empty (Calls.bin (ks 1) .and ca cb).build.toVal.visit :=
  C17_empty_argument (ks 0) .or (.bin (ks 1) .and ca cb) .empty (by simp [ca, cb, Calls.Usable, Calls.UsableAtom, condW, Val.mk']) trivial rfl Env.empty
    (by unfold NoAlias; decide +kernel) (by unfold NoAlias; decide +kernel)

/-- C17: nothing but empty conditions has no text at all. -/
theorem C17_vacuous (p : Calls) (hp : p.Usable) (hv : p.vacuous = true) (e : Env)
    (ha : NoAlias e (ownKeys p.build) p.build.toVal.visit) : shownAs e p.build.toVal.visit = ([], e) := by
  rw [shownAs, toks_layout e _ (build_ok p hp) ha, toks_none (build_ok p hp) (by simp [build_hasCondition p hp, hv])]
  rfl

example : text (Calls.bin (ks 0) .or .empty (.bin (ks 1) .and ca cb)).build.toVal.visit = c!"(a AND b)" ∧
    text (Calls.bin (ks 0) .or (.bin (ks 1) .and ca cb) .empty).build.toVal.visit = c!"(a AND b)" := by
  constructor <;> decide +kernel

/-! ### C18 -/

/-- C18, for `Not()` called on the result of a comparison or of `And`, `Or`, `Xor`, `Not`: NOT is applied to the whole text of
the condition, in parentheses.  Missing: `Not()` called on, or `ConditionsNot` of, a combination that was taken out by `Get()`,
for which this is false (`C18_stale`). -/
theorem C18_not_partial (k kn : Key) (p : Calls) (hu : p.Usable) (e : Env)
    (ha : NoAlias e [k, kn, Op.not.key] p.build.toVal.visit) :
    shownAs e (Cond.not k kn p.build).toVal.visit = layout e [.lit c!"NOT ", .lit c!"(", .hole p.build.toVal.visit, .lit c!")"] := by
  have hok := build_ok p hu
  rw [shownAs, Cond.not, Cond.toVal, not_ok hok.val]
  have := Tm.layout e (.node k [] [] false [.node Op.not.key Op.not.text [] false [], .node kn c!"(" c!")" false [.hole p.build.toVal.visit]])
    (by simp [Tm.Ok, Tm.OkL]) (by
      intro k' hk'
      have := ha k' (by simp [Tm.keys, Tm.keysL] at hk'; rcases hk' with h | h | h <;> simp [h])
      simpa [Tm.trees, Tm.treesL, dkeysL, nd, dkeys, Vis.asAlias] using this)
  simp only [Tm.trees, Tm.treesL, List.append_nil, Tm.parts, Tm.partsL] at this
  simp only [Val.mk', Op.visit, leaf]
  rw [List.cons_append, List.nil_append] at this
  rw [this]
  simp [layout, sepText, Op.text, Op.type, Op.repr]

/-- Concrete conditions that meet the hypotheses of the theorems of C17 and C18. -/
example : (Calls.bin (ks 0) .or (.bin (ks 1) .and .empty .empty) (.bin (ks 2) .and ca cb)).Usable ∧
    (Calls.bin (ks 1) .and .empty .empty).vacuous = true ∧ nested.Usable ∧
    NoAlias Env.empty [300, 301, Op.not.key] nested.build.toVal.visit ∧
    text (Cond.not 300 301 nested.build).toVal.visit = c!"NOT ((((a OR b) AND c) XOR NOT ((a AND b))))" := by
  refine ⟨?_, rfl, ?_, ?_, by decide +kernel⟩
  · simp [Calls.Usable, ca, cb, Calls.UsableAtom, condW, Val.mk']
  · simp [nested, Calls.Usable, ca, cb, cc, Calls.UsableAtom, condW, Val.mk', Calls.vacuous]
  · intro k _
    refine ⟨rfl, ?_⟩
    have : dkeysL nested.build.toVal.visit = [] := by decide +kernel
    simp [this]

/-- C18: if a text reads as `f`, NOT of the text in parentheses reads as the negation of `f`. -/
theorem C18_reads_negation {ts : List Tok} {f : Formula} (h : Reads ts f) :
    Reads (.not :: .lp :: ts ++ [.rp]) (.not f) :=
  .one (.one (.one (.not (.prim (.paren h)))))

example : ∃ ts f, Reads ts f ∧ Reads (.not :: .lp :: ts ++ [.rp]) (.not f) := by
  obtain ⟨ts, f, _, h, _⟩ := C16_combination_partial ca (by simp [ca, Calls.Usable, Calls.UsableAtom, condW, Val.mk']) trivial rfl Env.empty
    (by unfold NoAlias; decide)
  exact ⟨ts, f, h, C18_reads_negation h⟩

/-- C18 for `Not()` on a value taken out by `Get()`, and for `ConditionsNot`: it holds for a condition that is not a
combination, and for a combination made by a single call on such a condition. -/
theorem C18_not_of_get_partial (k kn : Key) (p : Calls) (hu : p.Usable)
    (hv : ∀ v, p = .atom v → v.copy = some (true, v.visit))
    (hp : p.single = true ∨ ∃ ks h q r, p = .bin ks h q r ∧ q.single = true) (e : Env) :
    shownAs e (Cond.conditionsNot k kn p.build).toVal.visit = shownAs e (Cond.not k kn p.build).toVal.visit := by
  have hok := build_ok p hu
  have hnn : missing (some p.build.toVal) = false := by simp [missing, hok.val.2.1]
  rw [Cond.conditionsNot, hnn]
  simp only [Bool.false_eq_true, if_false, Cond.notOfGet]
  cases p with
  | empty => simp [Calls.single] at hp
  | pattern ks h q v => simp [Calls.single] at hp
  | atom v =>
    have hv := hv v rfl
    simp only [Calls.Usable, Calls.UsableAtom] at hu
    simp only [Calls.build, Cond.recv, Val.recv, hv, Option.map, Cond.not, Cond.toVal]
    rw [not_ok (by simp [hu.1, hu.2.2]), not_ok ⟨hu.1, hu.2.1, hu.2.2⟩]
  | not k' kn' q =>
    have hq := (show CondOk q.build from build_ok q (by simp only [Calls.Usable] at hu; exact hu.1)).val
    simp only [Calls.build, Cond.not, Cond.recv, not_ok hq, Val.mk']
    simp
  | bin ks h q r =>
    have hq : q.single = true := by
      rcases hp with hp | ⟨_, _, _, _, heq, hs⟩
      · simp [Calls.single] at hp
      · cases heq; exact hs
    simp only [Calls.Usable] at hu
    have hc : q.build.isCompound = false := by
      cases q <;> simp [Calls.single] at hq <;> rfl
    have hr : Cond.compoundCreate ks q.build h.op r.build = _ := compoundCreate_eq ks h (build_ok q hu.1) (build_ok r hu.2)
    simp only [Calls.build, Cond.combine, hc, Bool.false_eq_true, if_false]
    rw [hr]
    simp only [Cond.recv, if_true, Cond.not]
    rw [Cond.toVal, Cond.toVal]
    congr 1

example : shownAs Env.empty (Cond.conditionsNot 300 301 (Calls.bin (ks 1) .and ca cb).build).toVal.visit =
      shownAs Env.empty (Cond.not 300 301 (Calls.bin (ks 1) .and ca cb).build).toVal.visit ∧
    text (Cond.conditionsNot 300 301 (Calls.bin (ks 1) .and ca cb).build).toVal.visit = c!"NOT ((a AND b))" :=
  ⟨C18_not_of_get_partial 300 301 _ (by simp [ca, cb, Calls.Usable, Calls.UsableAtom, condW, Val.mk']) (by intro v h; cases h)
    (.inr ⟨_, _, _, _, rfl, rfl⟩) Env.empty, by decide +kernel⟩

/-- `a.And(b).And(c).Get()`: its `Not()` forgets `c`; and `ConditionsNoCondition().And(a).And(b).Get()`: its `Not()` forgets
everything. -/
theorem C18_stale :
    text (Cond.not 300 301 (Calls.bin (ks 0) .and (.bin (ks 1) .and ca cb) cc).build).toVal.visit = c!"NOT ((a AND b AND c))" ∧
    text (Cond.conditionsNot 300 301 (Calls.bin (ks 0) .and (.bin (ks 1) .and ca cb) cc).build).toVal.visit = c!"NOT ((a AND b))" ∧
    text (Cond.conditionsNot 300 301 (Calls.bin (ks 0) .and (.bin (ks 1) .and .empty ca) cb).build).toVal.visit = c!"NOT ()" := by
  refine ⟨?_, ?_, ?_⟩ <;> decide +kernel

end Verif
