import Verif.ApiLemmas2

/-
Lemmas for C40, continued: clauses and statements.
-/

namespace Verif
open Spec

section
variable {u : Unicode}

theorem neat_sort {k : Key} {x : Option Val} {d : SortDir} (hx : OptNeat x) : (SortItemV.create k x d).Neat := by
  unfold SortItemV.create
  split
  · exact optNeat_none
  · exact hx

def OrderB.Neat (o : OrderB) : Prop := (∀ s ∈ o.items, s.Neat) ∧ o.last.Neat ∧ OptNeat o.skip ∧ OptNeat o.limit

theorem neat_sortZero : SortItemV.Neat {} := optNeat_none

theorem neat_orderZero : OrderB.Neat {} := ⟨fun _ h => (by cases h), neat_sortZero, optNeat_none, optNeat_none⟩

theorem OrderB.Neat.addItems {o : OrderB} {xs : List SortItemV} (h : o.Neat) (hx : ∀ s ∈ xs, s.Neat) : (o.addItems xs).Neat := by
  refine ⟨fun s hs => ?_, h.2⟩
  rcases List.mem_append.1 hs with hs | hs
  · exact h.1 s hs
  · exact hx s hs

theorem OrderB.Neat.byExpression {o : OrderB} {k : Key} {x : Val} (h : o.Neat) (hx : x.Neat) : (o.byExpression k x).Neat :=
  ⟨h.1, neat_sort (optNeat_some.2 hx), h.2.2⟩

theorem OrderB.Neat.ascending {o : OrderB} {k : Key} (h : o.Neat) : (o.ascending k).Neat := by
  refine ⟨fun s hs => ?_, neat_sortZero, h.2.2⟩
  rcases List.mem_append.1 hs with hs | hs
  · exact h.1 s hs
  · rw [List.mem_singleton] at hs; rw [hs]; exact neat_sort h.2.1

theorem OrderB.Neat.descending {o : OrderB} (h : o.Neat) : o.descending.Neat := by
  refine ⟨fun s hs => ?_, neat_sortZero, h.2.2⟩
  rcases List.mem_append.1 hs with hs | hs
  · exact h.1 s hs
  · rw [List.mem_singleton] at hs; rw [hs]; exact h.2.1

theorem OrderB.Neat.setSkip {o : OrderB} {k kl : Key} {n : Int} (h : o.Neat) : (o.setSkip k kl n).Neat :=
  ⟨h.1, h.2.1, optNeat_some.2 (neat_plain (tidy_one (tidy_nd ⟨[], rfl, rfl⟩ neat_int.visit))), h.2.2.2⟩

theorem OrderB.Neat.setLimit {o : OrderB} {k kl : Key} {n : Int} (h : o.Neat) : (o.setLimit k kl n).Neat := by
  refine ⟨h.1, h.2.1, h.2.2.1, optNeat_some.2 ?_⟩
  unfold limitCreate
  split
  · exact neat_bad
  · exact neat_plain (tidy_one (tidy_nd ⟨[], rfl, rfl⟩ neat_int.visit))

theorem tidy_sort {s : SortItemV} (h : s.Neat) : TidyL s.visit := by
  refine tidy_plain ?_
  rw [TidyL_append]
  constructor
  · cases hx : s.expr with
    | none => trivial
    | some v => exact (h v hx).visit
  · cases s.dir
    · trivial
    · exact tidy_one (tidy_leaf rfl)
    · exact tidy_one (tidy_leaf rfl)

theorem optNeat_order {o : OrderB} {k : Key} (h : o.Neat) : OptNeat (o.build k) := by
  unfold OrderB.build
  split
  · exact optNeat_none
  · refine optNeat_some.2 ?_
    unfold orderCreate
    split
    · exact neat_bad
    · refine neat_plain (tidy_one (tidy_nd ⟨[], rfl, rfl⟩ (TidyL_flatMap.2 fun s hs => tidy_sort ?_)))
      rcases List.mem_append.1 hs with hs | hs
      · exact h.1 s hs
      · split at hs
        · rw [List.mem_singleton] at hs; rw [hs]; exact h.2.1
        · cases hs

theorem tidy_distinct {d : Bool} : TidyL (distinctVisit d) := by
  cases d
  · trivial
  · exact tidy_one (tidy_leaf rfl)

theorem tidy_body {ts : List Tree} {o : OrderB} {ko : Key} (ht : TidyL ts) (ho : o.Neat) : TidyL (bodyVisit ts (o.build ko) o.skip o.limit) := by
  unfold bodyVisit
  simp only [TidyL_append]
  exact ⟨⟨⟨ht, tidy_ifNotNull (optNeat_order ho)⟩, tidy_ifNotNull ho.2.2.1⟩, tidy_ifNotNull ho.2.2.2⟩

theorem optNeat_return {k ko : Key} {d : Bool} {xs : List Val} {o : OrderB} (hx : AllNeat xs) (ho : o.Neat) :
    OptNeat (returnCreate k ko d xs o) := by
  unfold returnCreate
  split
  · exact optNeat_none
  · refine optNeat_some.2 (neat_plain (tidy_one (tidy_nd ⟨[], rfl, rfl⟩ ?_)))
    rw [TidyL_append]
    exact ⟨tidy_distinct, tidy_body (tidy_plain (allNeat_visits hx)) ho⟩

theorem tidy_listVisit {k : Key} {xs : List Val} (hx : AllNeat xs) : TidyL (listVisit k xs) := by
  unfold listVisit
  split
  · exact tidy_plain trivial
  · exact (neat_expressionList hx).visit

theorem optNeat_with {k kl ko kw : Key} {d : Bool} {xs : List Val} {o : OrderB} {c : Option Cond} (hx : AllNeat xs) (ho : o.Neat)
    (hc : OptCond c) : OptNeat (withCreate k kl ko kw d xs o c) := by
  unfold withCreate
  split
  · exact optNeat_none
  · refine optNeat_some.2 (neat_plain (tidy_one (tidy_nd ⟨[], rfl, rfl⟩ ?_)))
    simp only [TidyL_append]
    exact ⟨⟨tidy_distinct, tidy_body (tidy_listVisit hx) ho⟩, tidy_ifNotNull (optNeat_built hc)⟩

def Clause.Neat (c : Clause) : Prop := c.val.Neat

theorem neat_match {k kw : Key} {o : Bool} {ps : List Val} {c : Option Cond} (hp : AllNeat ps) (hc : OptCond c) :
    (matchCreate k kw o ps c).Neat := by
  unfold matchCreate
  simp only
  split
  · exact neat_bad (e := _)
  · refine neat_plain (tidy_one (tidy_nd ⟨[], by cases o <;> rfl, rfl⟩ ?_))
    exact ⟨tidy_nd fits_nil (allNeat_visits hp), tidy_ifNotNull (optNeat_built hc)⟩

theorem neat_unwind {k kn : Key} {x : Val} {s : Str} (hx : x.Neat) (hs : Balanced s) : (unwindCreate u k kn x s).Neat := by
  unfold unwindCreate
  split
  · exact neat_bad (e := _)
  · refine neat_plain (tidy_one (tidy_nd ⟨[], rfl, ?_⟩ ?_))
    · exact ((Balanced.append (s := c!" AS ") rfl hs).append (t := c!" ") rfl)
    · split
      · exact neat_symbolicName.visit
      · exact hx.visit

theorem neat_patternCreate {k : Key} {xs : List Val} (hx : AllNeat xs) : (patternCreate k xs).Neat := by
  unfold patternCreate
  split
  · exact neat_bad
  · exact neat_plain (tidy_plain (allNeat_visits hx))

theorem neat_createClause {k kp : Key} {ps : List Val} (hp : AllNeat ps) : (createClause k kp ps).Neat := by
  unfold createClause
  split
  · exact neat_bad (e := _)
  · exact neat_plain (tidy_one (tidy_nd ⟨[], rfl, rfl⟩ (neat_patternCreate hp).visit))

theorem neat_updateClause {k kl : Key} {w : Str} {xs : List Val} (hw : Balanced w) (hx : AllNeat xs) : (updateClause k kl w xs).Neat := by
  unfold updateClause
  split
  · exact neat_bad (e := _)
  · exact neat_plain (tidy_one (tidy_nd ⟨[], hw, rfl⟩ (neat_expressionList hx).visit))

theorem allNeat_pairUp {ks : Nat → Key} (n : Nat) : ∀ {i : Nat} {xs : List Val}, xs.length ≤ n → AllNeat xs → AllNeat (pairUp ks i xs) := by
  induction n with
  | zero =>
    intro i xs hn _
    cases xs with
    | nil => rw [pairUp.eq_def]; exact allNeat_nil
    | cons => simp at hn
  | succ n ih =>
    intro i xs hn hx
    rw [pairUp.eq_def]
    split
    · next a b rest =>
      intro y hy
      rcases List.mem_cons.1 hy with rfl | hy
      · exact neat_operation (optNeat_some.2 (hx a (by simp))) (optNeat_some.2 (hx b (by simp)))
      · exact ih (by simp at hn; omega) (fun z hz => hx z (by simp [hz])) y hy
    · exact allNeat_nil

theorem allNeat_filter {xs : List Val} {p : Val → Bool} (hx : AllNeat xs) : AllNeat (xs.filter p) := fun x h => hx x (List.mem_filter.1 h).1

theorem allNeat_prepareSet {ks : Nat → Key} {xs ys : List Val} (hx : AllNeat xs) (h : prepareSet ks xs = .ok ys) : AllNeat ys := by
  unfold prepareSet at h
  simp only at h
  split at h
  · cases h
  · cases h; exact (allNeat_filter hx).append (allNeat_pairUp _ (Nat.le_refl _) (allNeat_filter hx))

theorem tidy_labelsVisit {kl : Key} {ks : Nat → Key} {ls : List Str} : TidyL (labelsVisit kl ks ls) :=
  tidy_plain (TidyL_map.2 fun _ _ => tidy_label)

theorem neat_labelOperation {guid : Str} {k kl : Key} {ks : Nat → Key} {o : Op} {n : NodeV} {ls : List Str} (hg : Balanced guid) :
    (labelOperation u guid k kl ks o n ls).Neat := by
  unfold labelOperation
  split
  · exact neat_bad
  · split
    · exact neat_bad
    · split
      · exact neat_bad
      · refine neat_mk' ?_ trivial
        have hk : TidyL (pathName u guid n.name ++ [o.visit] ++ labelsVisit kl ks ls) := by
          simp only [TidyL_append]
          exact ⟨⟨tidy_pathName hg, tidy_opL o⟩, tidy_labelsVisit⟩
        unfold operationVisit
        split
        · exact tidy_one (tidy_nd fits_round hk)
        · exact tidy_plain hk

theorem neat_mergeAction {k kset kl : Key} {ks : Nat → Key} {t : MergeType} {xs : List Val} {v : Val} (hx : AllNeat xs)
    (h : mergeAction k kset kl ks t xs = .ok v) : v.Neat := by
  unfold mergeAction at h
  split at h
  · cases h
  · next ys hy =>
    cases h
    have hys := allNeat_prepareSet hx hy
    refine neat_plain (tidy_one (tidy_nd ⟨[], by cases t <;> rfl, rfl⟩ ?_))
    split
    · exact tidy_one (tidy_nd ⟨[], rfl, rfl⟩ (tidy_listVisit hys))
    · exact Val.Neat.visit (neat_updateClause (w := setKeyword) rfl hys)

theorem neat_mergeClause {k kp : Key} {ps as : List Val} (hp : AllNeat ps) (ha : AllNeat as) : (mergeClause k kp ps as).Neat := by
  unfold mergeClause
  split
  · exact neat_bad (e := _)
  · refine neat_plain (tidy_one (tidy_nd ⟨[], rfl, rfl⟩ ?_))
    rw [TidyL_append]
    exact ⟨(neat_patternCreate hp).visit, tidy_leaf rfl, allNeat_visits ha⟩

/-! ### Procedure calls -/

structure ProcName.Neat (p : ProcName) : Prop where
  ns : ∀ c, p.ns = some c → ∀ s ∈ c, Balanced s
  value : Balanced p.value

theorem neat_procName {k kn : Key} {parts : List Str} {p : ProcName} (hp : ∀ s ∈ parts, Balanced s) (h : procName k kn parts = .ok p) : p.Neat := by
  cases parts with
  | nil => cases h
  | cons a as =>
    cases as with
    | nil => cases h; exact ⟨fun c h => (by cases h), hp a (by simp)⟩
    | cons b bs =>
      cases h
      exact ⟨fun c h => (by cases h; intro s hs; cases hs), hp _ (List.getLast_mem (by simp))⟩

theorem tidy_procName {p : ProcName} (hp : p.Neat) : TidyL p.visit := by
  refine tidy_one (tidy_nd ⟨[], rfl, hp.value⟩ ?_)
  split
  · next c hc => exact tidy_one (tidy_leaf (balanced_join (by rfl) (hp.ns c hc)))
  · trivial

theorem balanced_qualified {p : ProcName} (hp : p.Neat) : Balanced p.qualified := by
  unfold ProcName.qualified
  refine (Balanced.append ?_ (t := c!".") rfl).append hp.value
  split
  · next c hc => exact balanced_join (by rfl) (hp.ns c hc)
  · exact Balanced.nil

structure CallB.Neat (c : CallB) : Prop where
  name : c.name.Neat
  args : ∀ xs, c.args = some xs → AllNeat xs
  yields : OptNeat c.yields
  cond : OptCond c.cond

theorem neat_arguments {k : Key} {xs : List Val} (hx : AllNeat xs) : (argumentsCreate k xs).Neat := by
  unfold argumentsCreate
  split
  · exact neat_bad
  · exact neat_plain (tidy_one (tidy_nd fits_round (allNeat_visits hx)))

theorem optNeat_arguments {c : CallB} (hc : c.Neat) : OptNeat c.arguments := by
  unfold CallB.arguments
  split
  · exact optNeat_some.2 (neat_arguments allNeat_nil)
  · exact optNeat_none
  · next xs hx => exact optNeat_some.2 (neat_arguments (hc.args _ ‹_›))

theorem optNeat_yield {k : Key} {xs : List Val} (hx : AllNeat xs) : OptNeat (yieldItems k xs) := by
  unfold yieldItems
  split
  · exact optNeat_none
  · exact optNeat_some.2 (neat_plain (tidy_one (tidy_nd ⟨[], rfl, rfl⟩ (allNeat_visits hx))))

theorem neat_procedureCall {k : Key} {name : ProcName} {x y z : Option Val} (hn : name.Neat) (hx : OptNeat x) (hy : OptNeat y) (hz : OptNeat z) :
    (procedureCall k name x y z).Neat := by
  unfold procedureCall
  split
  · exact neat_bad (e := _)
  · refine neat_plain (tidy_one (tidy_nd ⟨[], rfl, rfl⟩ ?_))
    simp only [TidyL_append]
    exact ⟨⟨⟨tidy_procName hn, tidy_ifNotNull hx⟩, tidy_ifNotNull hy⟩, tidy_ifNotNull hz⟩

theorem neat_callBuild {c : CallB} {v : Clause} (hc : c.Neat) (h : c.build = .ok v) : v.Neat := by
  have := neat_procedureCall (k := c.kc) hc.name (optNeat_arguments hc) hc.yields (optNeat_built (kw := c.kw) hc.cond)
  unfold CallB.build at h
  simp only at h
  split at h
  · split at h
    · cases h
    · cases h; exact this
  · cases h; exact this

theorem neat_asFunction {c : CallB} {k kl : Key} {v : Val} (hc : c.Neat) (h : c.asFunction k kl = .ok v) : v.Neat := by
  refine neat_function (balanced_qualified hc.name) (fun x hx => ?_) h
  obtain ⟨y, hy, rfl⟩ := List.mem_map.1 hx
  refine optNeat_some.2 ?_
  cases ha : c.args with
  | none => rw [ha] at hy; cases hy
  | some xs => rw [ha] at hy; exact hc.args xs ha y hy

/-! ### Statements -/

def ClausesNeat (cs : List Clause) : Prop := ∀ c ∈ cs, c.Neat

theorem ClausesNeat.nil : ClausesNeat [] := fun _ h => by cases h

theorem ClausesNeat.append {cs ds : List Clause} (hc : ClausesNeat cs) (hd : ClausesNeat ds) : ClausesNeat (cs ++ ds) := by
  intro x hx
  rcases List.mem_append.1 hx with h | h
  · exact hc x h
  · exact hd x h

theorem ClausesNeat.one {c : Clause} (hc : c.Neat) : ClausesNeat [c] := by
  intro x hx; rw [List.mem_singleton] at hx; rw [hx]; exact hc

theorem ClausesNeat.visit {cs : List Clause} (hc : ClausesNeat cs) : TidyL (cs.flatMap (·.val.visit)) :=
  TidyL_flatMap.2 fun c h => Val.Neat.visit (hc c h)

theorem neat_singlePart {cs : List Clause} {r : Option Val} (hc : ClausesNeat cs) (hr : OptNeat r) : (singlePart cs r).Neat := by
  unfold singlePart
  split
  · rw [Stmt.Neat]; trivial
  · split
    · rw [Stmt.Neat]; trivial
    · split
      · rw [Stmt.Neat]; trivial
      · rw [Stmt.Neat, TidyL_append]; exact ⟨hc.visit, tidy_ifNotNull hr⟩

def PartV.Neat (p : PartV) : Prop := TidyL p.visit

theorem neat_part {k : Key} {cs : List Clause} {w : Val} (hc : ClausesNeat cs) (hw : w.Neat) : (partCreate k cs w).Neat := by
  unfold partCreate
  split
  · trivial
  · refine tidy_plain ?_
    rw [TidyL_append]
    exact ⟨hc.visit, hw.visit⟩

theorem neat_multiPart {ps : List PartV} {s s' : Stmt} (hp : ∀ p ∈ ps, p.Neat) (hs : s.Neat) (h : multiPart ps s = .ok s') : s'.Neat := by
  unfold multiPart at h
  split at h
  · cases h
  · cases h
    rw [Stmt.Neat, TidyL_append, TidyL_flatMap]
    exact ⟨hp, hs.visit⟩

theorem neat_subqueryCall {k : Key} {s : Stmt} (hs : s.Neat) : (subqueryCall k s).Neat := by
  unfold subqueryCall
  split
  · exact neat_bad (e := _)
  · split
    · exact neat_bad (e := _)
    · exact neat_plain (tidy_one (tidy_nd ⟨['}'], rfl, rfl⟩ hs.visit))

theorem neat_unionError {e : Option Err} {a n : Bool} : (Stmt.union [] e a n []).Neat := by
  rw [Stmt.Neat]; exact ⟨trivial, by rw [StmtsNeat]; trivial⟩

theorem neat_unionQuery {k : Key} {ks : Nat → Key} {all : Bool} {qs : List Stmt} (hq : ∀ q ∈ qs, q.Neat) : (unionQuery k ks all qs).Neat := by
  unfold unionQuery
  split
  · next q r rest =>
    split
    · exact neat_unionError
    · rw [Stmt.Neat]
      refine ⟨tidy_plain ?_, stmtsNeat_iff.2 hq⟩
      rw [TidyL_append, TidyL_map]
      refine ⟨(hq q (by simp)).visit, fun p hp => ?_⟩
      have hm : p.1 ∈ r :: rest := (List.mem_zipIdx' hp).2 ▸ List.getElem_mem _
      exact tidy_nd ⟨[], by cases all <;> rfl, rfl⟩ (hq p.1 (by simp only [List.mem_cons] at hm ⊢; exact .inr hm)).visit
  · exact neat_unionError

theorem neat_union {k : Key} {ks : Nat → Key} {all : Bool} {ss : List Stmt} (hs : ∀ s ∈ ss, s.Neat) : (unionImpl k ks all ss).Neat := by
  unfold unionImpl
  split
  · exact neat_unionError
  · split
    · next v e a n qs rest _ =>
      have hu := hs (.union v e a n qs) (by simp)
      rw [Stmt.Neat] at hu
      split
      · exact neat_unionError
      · split
        · refine neat_unionQuery fun q hq => ?_
          rcases List.mem_append.1 hq with hq | hq
          · exact stmtsNeat_iff.1 hu.2 q hq
          · exact hs q (by simp [hq])
        · exact neat_unionQuery fun q hq => hs q (by simp [hq])
    · exact neat_unionQuery hs

end
end Verif
