import Verif.SliceLemmas
import Verif.PropsCond
import Verif.PropsPatterns

/-
C39: what happens when a value is used for two continuations, for conditions and chains.
-/

namespace Verif
open Spec

namespace SampleFork
open SampleCond
def a : Val := condW 101 c!"a"
def b : Val := condW 102 c!"b"
def c : Val := condW 103 c!"c"
def d : Val := condW 104 c!"d"
def e : Val := condW 105 c!"e"
/-- v5 := a.And(b); v6 := v5.And(c); v7 := v6.And(d); v8 := v6.And(e) -/
def fork : List CondInstr :=
  [.atom a, .atom b, .atom c, .atom d, .atom e, .combine (ks 0) 0 .and 1, .combine (ks 1) 5 .and 2, .combine (ks 2) 6 .and 3,
    .combine (ks 3) 6 .and 4]
/-- v4 := a.And(b); v5 := v4.And(c); v6 := v5.And(d); v7 := v5.Or(v6) -/
def loop : List CondInstr :=
  [.atom a, .atom b, .atom c, .atom d, .combine (ks 0) 0 .and 1, .combine (ks 1) 4 .and 2, .combine (ks 2) 5 .and 3,
    .combine (ks 3) 5 .or 6]
/-- v3 := a.And(b); v4 := v3.Or(c); v5 := c.And(v4); v6 := v4.Not() -/
def straight : List CondInstr :=
  [.atom a, .atom b, .atom c, .combine (ks 0) 0 .and 1, .combine (ks 1) 3 .or 2, .combine (ks 2) 2 .and 4, .not 300 301 4]
open SamplePat in
/-- c0 := na-->nb-->nm; c1 := c0-->na; c2 := c1.NamedC("r"), c3 := c1.RelationshipTo(nb) -/
def chains : List ChainInstr :=
  [.start (RelV.create 401 402 403 na.run .ltr nb.run []) 404 405 406 .ltr nm.run [], .extend 0 407 408 409 .ltr na.run [],
    .changeLast 1 (fun r => .ok (r.named 410 411 c!"r")), .extend 1 412 413 414 .rtl nb.run []]
/-- The texts of all chains at the end. -/
def chainTexts (o : Outcome (Heap RelV × List HChain)) : List Str :=
  match o with
  | .ok (m, cs) => cs.map fun c => text ((c.read m).visit .ascii)
  | .panic => []
/-- The texts of all chains at the end, if chains were values. -/
def valueTexts (o : Outcome (List ChainV)) : List Str :=
  match o with
  | .ok vs => vs.map fun c => text (c.visit .ascii)
  | .panic => []
end SampleFork
open SampleFork

/-! ### Conditions -/

/-- C39 for conditions, for programs in which no condition is the receiver of two calls of `And`, `Or` or `Xor` (it may be an
argument any number of times): at the end every condition is what it would be if conditions were values, whatever capacities `append`
chooses.  Missing: conditions that are receivers twice, for which this is false. -/
theorem C39_conditions_partial (grow : Nat → Nat → Nat) (p : List CondInstr) (h : (CondInstr.receivers p).Nodup) :
    MemReads (p.foldl (CondInstr.run grow) (.initial, [])).1 (p.foldl (CondInstr.run grow) (.initial, [])).2
      (p.foldl CondInstr.value []) := by
  refine Good.program grow p (used := []) (f := fun _ => 0) ⟨?_, ?_, ?_, .nil, ?_, ?_⟩ h (by simp)
  · intro a i ha
    exact absurd ha (Nat.not_lt_zero _)
  · intro _ _; rfl
  · simp
  · intro i _; exact .inl rfl
  · intro i j _ _ _; exact .inl rfl

example : (CondInstr.receivers straight).Nodup ∧
    (straight.foldl CondInstr.value []).map (fun c => text c.toVal.visit) =
      [c!"a", c!"b", c!"c", c!"(a AND b)", c!"((a AND b) OR c)", c!"(c AND ((a AND b) OR c))", c!"NOT (((a AND b) OR c))"] := by
  decide +kernel

/-- C39 fails: after `x := a.And(b).And(c)`, `y := x.And(d)`, `z := x.And(e)`, both `y` and `z` are the condition
`(a AND b AND c AND e)`. -/
theorem C39_conditions_overwritten :
    ∃ c d : Cond, MemReads (fork.foldl (CondInstr.run goGrow) (.initial, [])).1
        (((fork.foldl (CondInstr.run goGrow) (.initial, [])).2.drop 7)) [c, d] ∧
      text c.toVal.visit = c!"(a AND b AND c AND e)" ∧ text d.toVal.visit = c!"(a AND b AND c AND e)" ∧
      ((fork.foldl CondInstr.value []).drop 7).map (fun c => text c.toVal.visit) =
        [c!"(a AND b AND c AND d)", c!"(a AND b AND c AND e)"] := by
  refine ⟨.compound 200 (some .and) [.atom a, .atom b, .atom c, .atom e] false none true true [.atom a, .atom b],
    .compound 200 (some .and) [.atom a, .atom b, .atom c, .atom e] false none true true [.atom a, .atom b], ?_,
    by decide +kernel, by decide +kernel, by decide +kernel⟩
  refine .compound _ _ _ _ _ _ _ _ (.atom _ (.atom _ (.atom _ (.atom _ .nil)))) (.atom _ (.atom _ .nil))
    (.compound _ _ _ _ _ _ _ _ (.atom _ (.atom _ (.atom _ (.atom _ .nil)))) (.atom _ (.atom _ .nil)) .nil)

/-- C39 fails: after `x := a.And(b).And(c)`, `y := x.And(d)`, `z := x.Or(y)`, the condition `y` contains `z`, which contains `y`:
rendering `z`, or `y`, does not end, because there is no tree of conditions that one could read from it. -/
theorem C39_conditions_cycle (x : HCond) (hx : x ∈ ((loop.foldl (CondInstr.run goGrow) (.initial, [])).2.drop 6)) :
    ¬ ∃ c : Cond, MemReads (loop.foldl (CondInstr.run goGrow) (.initial, [])).1 [x] [c] := by
  generalize hm : (loop.foldl (CondInstr.run goGrow) (.initial, [])).1 = m
  have hA : m.read ⟨2, 4, 4⟩ = [.atom a, .atom b, .atom c, .compound 210 (some .or) ⟨3, 1, 1⟩ false none true true {}] := by
    rw [← hm]; rfl
  have hB : m.read ⟨3, 1, 1⟩ = [.compound 200 (some .and) ⟨2, 4, 4⟩ false none true true ⟨1, 2, 2⟩] := by rw [← hm]; rfl
  have key : ∀ cs as, MemReads m cs as → ∀ y ∈ cs, y.slice ≠ ⟨2, 4, 4⟩ ∧ y.slice ≠ ⟨3, 1, 1⟩ := by
    intro cs as h
    induction h with
    | nil => simp
    | atom v _ ih =>
      intro y hy
      rcases List.mem_cons.mp hy with rfl | hy
      · exact ⟨by simp [HCond.slice], by simp [HCond.slice]⟩
      · exact ih y hy
    | neg k kn _ _ _ ih =>
      intro y hy
      rcases List.mem_cons.mp hy with rfl | hy
      · exact ⟨by simp [HCond.slice], by simp [HCond.slice]⟩
      · exact ih y hy
    | compound k op conds _ _ _ _ _ _ _ _ ih1 _ ih =>
      intro y hy
      rcases List.mem_cons.mp hy with rfl | hy
      · constructor
        · intro hc
          simp only [HCond.slice] at hc
          subst hc
          exact (ih1 (.compound 210 (some .or) ⟨3, 1, 1⟩ false none true true {}) (by rw [hA]; simp)).2 rfl
        · intro hc
          simp only [HCond.slice] at hc
          subst hc
          exact (ih1 (.compound 200 (some .and) ⟨2, 4, 4⟩ false none true true ⟨1, 2, 2⟩) (by rw [hB]; simp)).1 rfl
      · exact ih y hy
  rintro ⟨c, hc⟩
  have := key _ _ hc x (by simp)
  have hs : x.slice = ⟨2, 4, 4⟩ := by
    have he : (loop.foldl (CondInstr.run goGrow) (.initial, [])).2.drop 6 =
      [.compound 200 (some .and) ⟨2, 4, 4⟩ false none true true ⟨1, 2, 2⟩,
        .compound 200 (some .and) ⟨2, 4, 4⟩ false none true true ⟨1, 2, 2⟩] := rfl
    rw [he] at hx
    simp only [List.mem_cons, List.not_mem_nil, or_false, or_self] at hx
    rw [hx]; rfl
  exact this.1 hs

/-! ### Chains -/

/-- C39 for chains, for programs in which no chain is the receiver of two calls: at the end every chain that was not a receiver is
what it would be if chains were values; and the program panics exactly if it would then.  Missing: chains that are receivers, for
which this is false. -/
theorem C39_chains_partial (grow : Nat → Nat → Nat) (p : List ChainInstr) (h : (ChainInstr.receivers p).Nodup)
    (hs : ChainInstr.Scoped 0 p) :
    (∃ m cs vs, runChains grow p (.initial, []) = .ok (m, cs) ∧ valueChains p [] = .ok vs ∧ cs.length = vs.length ∧
      ∀ i, i ∉ ChainInstr.receivers p → cs[i]?.map (HChain.read m) = vs[i]?) ∨
    (runChains grow p (.initial, []) = .panic ∧ valueChains p [] = .panic) := by
  have h0 : GoodChains [] .initial [] [] := ⟨rfl, by simp, by simp, by simp⟩
  rcases h0.program grow p h (by simp) hs with ⟨st, vs, h1, h2, h3⟩ | h1
  · left
    refine ⟨st.1, st.2, vs, h1, h2, h3.length, fun i hi => ?_⟩
    cases hc : st.2[i]? with
    | none =>
      have : st.2.length ≤ i := by simpa using hc
      rw [h3.length] at this
      simp [List.getElem?_eq_none this]
    | some c => rw [h3.reads i (by simpa using hi) c hc]; rfl
  · exact .inr h1

/-- C39 fails: every call that changes the last relationship of a chain (`NamedC`, `Unbounded`, `Min`, `Max`, `Length`, `Properties`,
`PropertiesRaw`) changes the chain it is called on as well. -/
theorem C39_chains_receiver_changed (m m' : Heap RelV) (c c' : HChain) (f : RelV → Outcome RelV)
    (h : HChain.changeLast m c f = .ok (m', c')) :
    c.read m' = c'.read m' ∧ .ok (c.read m') = ChainV.changeLast (c.read m) f := by
  unfold HChain.changeLast at h
  unfold ChainV.changeLast
  cases hl : (m.read c.rels).getLast? with
  | none => rw [hl] at h; cases h
  | some r =>
    rw [hl] at h
    simp only at h
    simp only [HChain.read, hl]
    cases hf : f r with
    | panic => rw [hf] at h; cases h
    | ok r' =>
      rw [hf] at h
      cases h
      exact ⟨rfl, by simp only [Outcome.map, Heap.read_setLast m c.rels r' (getLast?_read_some hl)]⟩

/-- C39 fails: after `c := …; d := c.NamedC("r"); e := c.RelationshipFrom(…)`, the name `r` has appeared in `c` and in `e`. -/
theorem C39_chains_shared :
    chainTexts (runChains goGrow chains (.initial, [])) =
      [c!"(:`A`)-->(:`B`)-->(m)", c!"(:`A`)-->(:`B`)-->(m)-[r]->(:`A`)", c!"(:`A`)-->(:`B`)-->(m)-[r]->(:`A`)",
        c!"(:`A`)-->(:`B`)-->(m)-[r]->(:`A`)<--(:`B`)"] ∧
    valueTexts (valueChains chains []) =
      [c!"(:`A`)-->(:`B`)-->(m)", c!"(:`A`)-->(:`B`)-->(m)-->(:`A`)", c!"(:`A`)-->(:`B`)-->(m)-[r]->(:`A`)",
        c!"(:`A`)-->(:`B`)-->(m)-->(:`A`)<--(:`B`)"] := by
  decide +kernel

/-- A program that meets the hypotheses of `C39_chains_partial`: two relationships, of which the last is named, and another chain. -/
example : (ChainInstr.receivers (chains.take 3)).Nodup ∧ ChainInstr.Scoped 0 (chains.take 3) ∧
    valueTexts (valueChains (chains.take 3) []) =
      [c!"(:`A`)-->(:`B`)-->(m)", c!"(:`A`)-->(:`B`)-->(m)-->(:`A`)", c!"(:`A`)-->(:`B`)-->(m)-[r]->(:`A`)"] := by
  refine ⟨by decide +kernel, ?_, by decide +kernel⟩
  simp [chains, ChainInstr.Scoped, ChainInstr.receivers]

end Verif
