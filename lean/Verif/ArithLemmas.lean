import Verif.ArithSpec
import Verif.LayoutLemmas

namespace Verif
open Spec

def atoks : ACalls → List ATok
  | .operand v => [.operand v]
  | .bin _ m l r =>
    if m = .pow then atoks l ++ .sym '^' :: atoks r
    else .lp :: (atoks l ++ .sym (arithSymbol m) :: atoks r) ++ [.rp]

theorem operationCreate_ok {k : Key} {o : Op} {l r : Val} (hl : l.err = none ∧ l.notNil = true) (hr : r.err = none ∧ r.notNil = true) :
    operationCreate k (some l) o (some r) = .mk' k (operationVisit k l.visit o r.visit) false .operation := by
  simp [operationCreate, firstErr, errOf, nilErr, missing, hl, hr]

theorem abuild_ok (p : ACalls) (h : p.Usable) : p.build.err = none ∧ p.build.notNil = true := by
  induction p with
  | operand v => exact h
  | bin k m l r ihl ihr =>
    simp only [ACalls.Usable] at h
    rw [ACalls.build, arith, operationCreate_ok (ihl h.1) (ihr h.2)]
    simp [Val.mk']

theorem arith_text (m : ArithMethod) : m.op.text = (if m = .pow then [arithSymbol m] else [' ', arithSymbol m, ' ']) := by
  cases m <;> rfl

theorem arith_group (m : ArithMethod) : needsGrouping m.op = !(m == .pow) := by
  cases m <;> rfl

theorem atok_part (m : ArithMethod) : ATok.part (.sym (arithSymbol m)) = .lit m.op.text := by
  cases m <;> rfl

theorem operationVisit_dkeys (k : Key) (l : List Tree) (o : Op) (r : List Tree) :
    dkeysL (operationVisit k l o r) = dkeysL l ++ dkeysL r := by
  unfold operationVisit
  split <;> simp [dkeys_nd, dkeysL_append, dkeysL, Op.visit, dkeys_leaf]

/-- The layout of an operation. -/
theorem operation_layout {e : Env} {k : Key} {l : List Tree} {o : Op} {r : List Tree} (ha : NoAlias e [k, o.key] (l ++ r)) :
    denL false true e (operationVisit k l o r) =
      layout e ((if needsGrouping o then [Part.lit c!"("] else []) ++ [.hole l, .lit o.text, .hole r] ++
        (if needsGrouping o then [.lit c!")"] else [])) := by
  have := fun op cl => Tm.layout e (.node k op cl false [.hole l, .node o.key o.text [] false [], .hole r]) (by simp [Tm.Ok, Tm.OkL]) (by
    intro k' hk'
    have := ha k' (by simpa [Tm.keys, Tm.keysL] using hk')
    simpa [Tm.trees, Tm.treesL, dkeysL_nd, dkeysL_append, dkeysL, dkeys_nd] using this)
  unfold operationVisit
  split
  · have := this c!"(" c!")"
    simp only [Tm.trees, Tm.treesL, Tm.parts, Tm.partsL, List.append_nil] at this
    simp only [Op.visit, leaf, List.append_assoc]
    rw [this]
    simp [layout, sepText]
  · have := this [] []
    simp only [Tm.trees, Tm.treesL, Tm.parts, Tm.partsL, List.append_nil] at this
    simp only [Op.visit, leaf, List.append_assoc]
    rw [this]
    simp [layout, sepText]

theorem atoks_layout (e : Env) (p : ACalls) (h : p.Usable) (ha : NoAlias e p.keys p.build.visit) :
    denL false true e p.build.visit = layout e ((atoks p).map ATok.part) := by
  induction p generalizing e with
  | operand v => simp [ACalls.build, atoks, ATok.part, layout]
  | bin k m l r ihl ihr =>
    simp only [ACalls.Usable] at h
    have hb : (ACalls.bin k m l r).build.visit = operationVisit k l.build.visit m.op r.build.visit := by
      rw [ACalls.build, arith, operationCreate_ok (abuild_ok l h.1) (abuild_ok r h.2)]
      simp [Val.mk']
    rw [hb] at ha ⊢
    have ha' : NoAlias e (k :: m.op.key :: (l.keys ++ r.keys)) (l.build.visit ++ r.build.visit) := by
      intro k' hk'
      have := ha k' hk'
      rw [operationVisit_dkeys] at this
      rwa [dkeysL_append]
    have h1 := ihl e h.1 ((ha'.mono (by intro k' hk'; simp [hk'])).left)
    have h2 := ihr (denL false true e l.build.visit).2 h.2 ((ha'.mono (by intro k' hk'; simp [hk'])).right false true)
    rw [operation_layout (ha'.mono (by intro k' hk'; simp at hk'; rcases hk' with h | h <;> simp [h]))]
    rw [arith_group]
    by_cases hm : m = .pow
    · subst hm
      rw [h1] at h2
      simp [layout, ATok.part, Op.text, Op.type, ArithMethod.op, Op.repr, h1, h2, atoks, layout_append]
    · simp only [atoks, hm, if_false, List.map_append, List.map_cons, layout_append, List.cons_append, atok_part]
      rw [h1] at h2
      simp [hm, layout, h1, h2, layout_append, ATok.part]

/-! ### Reading -/

theorem areads (p : ACalls) (h : p.PowersLeft) :
    if p.isPow then ReadsPower (atoks p) p.meant else ReadsAtom (atoks p) p.meant := by
  induction p with
  | operand v => simp [ACalls.isPow, atoks, ACalls.meant]; exact .operand v
  | bin k m l r ihl ihr =>
    simp only [ACalls.PowersLeft] at h
    have hl := ihl h.1
    have hr := ihr h.2.1
    have hlp : ReadsPower (atoks l) l.meant := by
      split at hl
      · exact hl
      · exact .one hl
    have hrp : ReadsPower (atoks r) r.meant := by
      split at hr
      · exact hr
      · exact .one hr
    have prod : ∀ c, (c = '*' ∨ c = '/' ∨ c = '%') → ReadsSum (atoks l ++ .sym c :: atoks r) (.bin c l.meant r.meant) :=
      fun c hc => .one (.more c hc (.one hlp) hrp)
    have sum : ∀ c, (c = '+' ∨ c = '-') → ReadsSum (atoks l ++ .sym c :: atoks r) (.bin c l.meant r.meant) :=
      fun c hc => .more c hc (.one (.one hlp)) (.one hrp)
    cases m with
    | pow =>
      have hrf := h.2.2 rfl
      simp only [hrf, Bool.false_eq_true, if_false] at hr
      exact .more hlp hr
    | concat => exact .paren (sum _ (by simp [arithSymbol]))
    | add => exact .paren (sum _ (by simp [arithSymbol]))
    | subtract => exact .paren (sum _ (by simp [arithSymbol]))
    | multiply => exact .paren (prod _ (by simp [arithSymbol]))
    | divide => exact .paren (prod _ (by simp [arithSymbol]))
    | remainder => exact .paren (prod _ (by simp [arithSymbol]))

theorem areads_sum (p : ACalls) (h : p.PowersLeft) : ReadsSum (atoks p) p.meant := by
  have := areads p h
  split at this
  · exact .one (.one this)
  · exact .one (.one (.one this))

/-! ### The grammar is unambiguous -/

structure ALevel where
  sum : Option (ATree × Char)
  prod : Option (ATree × Char)
  pow : Option ATree

def pend : Option (ATree × Char) → ATree → ATree
  | none, t => t
  | some (a, c), t => .bin c a t

def ALevel.new : ALevel := ⟨none, none, none⟩
def ALevel.supply (l : ALevel) (t : ATree) : ALevel :=
  { l with pow := some (match l.pow with | none => t | some a => .bin '^' a t) }
def ALevel.symbol (l : ALevel) (c : Char) : ALevel :=
  match l.pow with
  | none => l
  | some a =>
    if c = '^' then l
    else if c = '*' ∨ c = '/' ∨ c = '%' then ⟨l.sum, some (pend l.prod a, c), none⟩
    else ⟨some (pend l.sum (pend l.prod a), c), none, none⟩
def ALevel.result (l : ALevel) : Option ATree := l.pow.map fun a => pend l.sum (pend l.prod a)

def astep (s : ALevel × List ALevel) : ATok → ALevel × List ALevel
  | .lp => (.new, s.1 :: s.2)
  | .rp =>
    match s.2, s.1.result with
    | l :: ls, some t => (l.supply t, ls)
    | _, _ => s
  | .sym c => (s.1.symbol c, s.2)
  | .operand v => (s.1.supply (.operand v), s.2)

def arun (s : ALevel × List ALevel) (ts : List ATok) : ALevel × List ALevel := ts.foldl astep s

theorem arun_append (s) (ts us : List ATok) : arun s (ts ++ us) = arun (arun s ts) us := by simp [arun, List.foldl_append]
theorem arun_cons (s) (t) (us : List ATok) : arun s (t :: us) = arun (astep s t) us := rfl

mutual
theorem arun_atom {ts t} (h : ReadsAtom ts t) (l : ALevel) (ls : List ALevel) : arun (l, ls) ts = (l.supply t, ls) := by
  match h with
  | .operand v => rfl
  | .paren h =>
    obtain ⟨l', h1, h2⟩ := arun_sum h (l :: ls)
    rw [List.cons_append, arun_cons, arun_append, astep, h1]
    simp [arun, astep, h2]
theorem arun_power {ts t} (h : ReadsPower ts t) (s p : Option (ATree × Char)) (ls : List ALevel) :
    arun (⟨s, p, none⟩, ls) ts = (⟨s, p, some t⟩, ls) := by
  match h with
  | .one h => rw [arun_atom h]; rfl
  | .more h h' =>
    rw [arun_append, arun_power h, arun_cons, astep]
    simp only [ALevel.symbol, if_true]
    rw [arun_atom h']; rfl
theorem arun_product {ts t} (h : ReadsProduct ts t) (s : Option (ATree × Char)) (ls : List ALevel) :
    ∃ p a, arun (⟨s, none, none⟩, ls) ts = (⟨s, p, some a⟩, ls) ∧ pend p a = t := by
  match h with
  | .one h => exact ⟨none, _, arun_power h s none ls, rfl⟩
  | @ReadsProduct.more _ _ _ u c hc h h' =>
    obtain ⟨p, a, h1, h2⟩ := arun_product h s ls
    have hne : c ≠ '^' := by rcases hc with rfl | rfl | rfl <;> decide
    refine ⟨some (pend p a, c), u, ?_, ?_⟩
    · rw [arun_append, h1, arun_cons, astep]
      simp only [ALevel.symbol, hne, hc, if_true, if_false]
      exact arun_power h' _ _ _
    · rw [← h2]
      rfl
theorem arun_sum {ts t} (h : ReadsSum ts t) (ls : List ALevel) :
    ∃ l, arun (.new, ls) ts = (l, ls) ∧ l.result = some t ∧ ∃ s p a, l = ⟨s, p, some a⟩ := by
  match h with
  | .one h =>
    obtain ⟨p, a, h1, h2⟩ := arun_product h none ls
    exact ⟨_, h1, congrArg some h2, _, _, _, rfl⟩
  | @ReadsSum.more _ _ _ _ c hc h h' =>
    obtain ⟨l, h1, h2, s, p, a, h3⟩ := arun_sum h ls
    have hne : c ≠ '^' := by rcases hc with rfl | rfl <;> decide
    have hne' : ¬ (c = '*' ∨ c = '/' ∨ c = '%') := by rcases hc with rfl | rfl <;> decide
    obtain ⟨p', a', h4, h5⟩ := arun_product h' (some (pend s (pend p a), c)) ls
    refine ⟨⟨some (pend s (pend p a), c), p', some a'⟩, ?_, ?_, _, _, _, rfl⟩
    · rw [arun_append, h1, arun_cons, astep, h3]
      simp only [ALevel.symbol, hne, hne', if_false]
      exact h4
    · rw [h3] at h2
      simp only [ALevel.result, Option.map_some, Option.some.injEq] at h2 ⊢
      rw [h5, h2]
      rfl
end

theorem areads_unique {ts : List ATok} {f g : ATree} (hf : ReadsSum ts f) (hg : ReadsSum ts g) : f = g := by
  obtain ⟨l, h1, h2, _⟩ := arun_sum hf []
  obtain ⟨l', h1', h2', _⟩ := arun_sum hg []
  rw [h1] at h1'
  cases h1'
  rw [h2] at h2'
  exact Option.some.inj h2'

/-! ### Comparisons -/

/-- An operand of a comparison as a term. -/
def operandTm (kn : Key) (v : Val) : Tm := if v.isCond then .node kn c!"(" c!")" false [.hole v.visit] else .hole v.visit

theorem nested_visit {kn : Key} {v : Val} (hv : v.err = none ∧ v.notNil = true) :
    visitIfNotNil (nestedIfCondition kn v) = (operandTm kn v).trees := by
  unfold nestedIfCondition operandTm
  split
  · simp [nestedCreate, hv.1, visitIfNotNil, Val.mk', Tm.trees, Tm.treesL]
  · simp [visitIfNotNil, hv.2, Tm.trees]

theorem operandTm_holes (kn : Key) (v : Val) : (operandTm kn v).holes = v.visit := by
  unfold operandTm
  split <;> simp [Tm.holes, Tm.holesL]

theorem operandTm_keys (kn : Key) (v : Val) : ∀ k ∈ (operandTm kn v).keys, k = kn := by
  unfold operandTm
  split <;> simp [Tm.keys, Tm.keysL]

theorem operandTm_ok (kn : Key) (v : Val) : (operandTm kn v).Ok := by
  unfold operandTm
  split <;> simp [Tm.Ok, Tm.OkL]

theorem comparisonCreate_ok {k kl kr : Key} {o : Op} {l r : Val} (hl : l.err = none ∧ l.notNil = true) (hr : r.err = none ∧ r.notNil = true) :
    comparisonCreate k kl kr (some l) o (some r) =
      .mk' k (Tm.node k [] [] false [operandTm kl l, .node o.key o.text [] false [], operandTm kr r]).trees true := by
  simp only [Tm.trees, Tm.treesL, ← nested_visit hl, ← nested_visit hr]
  simp [comparisonCreate, firstErr, errOf, nilErr, missing, hl, hr, Op.visit, leaf]

theorem comparison_layout {e : Env} {k kl kr : Key} {l : Val} {o : Op} {r : Val} (ha : NoAlias e [k, kl, kr, o.key] (l.visit ++ r.visit)) :
    denL false true e (Tm.node k [] [] false [operandTm kl l, .node o.key o.text [] false [], operandTm kr r]).trees =
      layout e ((operandTm kl l).parts ++ [.lit o.text] ++ (operandTm kr r).parts) := by
  rw [Tm.shown _ (by simp [Tm.Ok, Tm.OkL, operandTm_ok]) ha (by
      intro k' hk'
      simp only [Tm.keys, Tm.keysL, List.mem_cons, List.mem_append, List.append_nil, List.not_mem_nil, or_false] at hk'
      rcases hk' with h | h | h | h
      · simp [h]
      · simp [operandTm_keys _ _ _ h]
      · simp [h]
      · simp [operandTm_keys _ _ _ h]) (by simp [Tm.holes, Tm.holesL, operandTm_holes])]
  simp [Tm.parts, Tm.partsL, layout, sepText, layout_append]

theorem operandTm_parts (kn : Key) (v : Val) :
    (operandTm kn v).parts = if v.isCond then [.lit c!"(", .lit [], .hole v.visit, .lit c!")"] else [.hole v.visit] := by
  unfold operandTm
  split <;> simp [Tm.parts, Tm.partsL, sepText]

theorem comparisonCreate1_ok {k kn : Key} {o : Op} {v : Val} (ho : o = .isNull ∨ o = .isNotNull) (hv : v.err = none ∧ v.notNil = true) :
    comparisonCreate1 k kn o (some v) = .mk' k (Tm.node k [] [] false [operandTm kn v, .node o.key o.text [] false []]).trees true := by
  simp only [Tm.trees, Tm.treesL, ← nested_visit hv]
  rcases ho with rfl | rfl <;>
    simp [comparisonCreate1, firstErr, errOf, nilErr, missing, hv, Op.visit, leaf, Op.isUnary, Op.type]

end Verif
