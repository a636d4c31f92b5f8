import Verif.ClauseSpec
import Verif.PatternLemmas
import Verif.CondLemmas2

/-
Lemmas for clauses.
-/

namespace Verif
open Spec

section
variable {e : Env}

/-! ### Sorting -/

theorem order_items (calls : List OrderCall) (o : OrderB) (ho : o.last = {})
    (ht : ∀ pre d post, calls = pre ++ .sort d :: post → d.dir = .undefined → post = [])
    (hx : ∀ d ∈ calls.flatMap OrderCall.sorts, d.x.err = none) :
    (calls.foldl OrderCall.run o).allItems = o.items ++ (calls.flatMap OrderCall.sorts).map SortReq.build ∧
    (calls.foldl OrderCall.run o).skip = o.skip ∧ (calls.foldl OrderCall.run o).limit = o.limit := by
  induction calls generalizing o with
  | nil => simp [OrderB.allItems, ho]
  | cons c cs ih =>
    have ht' : ∀ pre d post, cs = pre ++ .sort d :: post → d.dir = .undefined → post = [] :=
      fun pre d post h => ht (c :: pre) d post (by simp [h])
    have hx' : ∀ d ∈ cs.flatMap OrderCall.sorts, d.x.err = none := fun d hd => hx d (by simp only [List.flatMap_cons, List.mem_append]; exact Or.inr hd)
    cases c with
    | items ds =>
      have := ih (o.addItems (ds.map SortReq.build)) (by simpa [OrderB.addItems] using ho) ht' hx'
      simp only [List.foldl_cons, OrderCall.run, this]
      simp [OrderB.addItems, OrderCall.sorts]
    | sort d =>
      cases hd : d.dir with
      | undefined =>
        have hcs : cs = [] := ht [] d cs rfl hd
        subst hcs
        have he : d.x.err = none := hx d (by simp [OrderCall.sorts])
        simp [OrderCall.run, hd, OrderB.allItems, OrderB.byExpression, OrderCall.sorts, SortReq.build, SortItemV.create, errOf, he]
      | asc =>
        have := ih (OrderCall.run o (.sort d)) (by simp [OrderCall.run, hd, OrderB.ascending]) ht' hx'
        simp only [List.foldl_cons, this]
        simp [OrderCall.run, hd, OrderB.ascending, OrderB.byExpression, OrderCall.sorts, SortReq.build]
      | desc =>
        have := ih (OrderCall.run o (.sort d)) (by simp [OrderCall.run, hd, OrderB.descending]) ht' hx'
        simp only [List.foldl_cons, this]
        simp [OrderCall.run, hd, OrderB.descending, OrderB.byExpression, OrderCall.sorts, SortReq.build]

/-- The key of a built sorting. -/
def sortKey (d : SortReq) : Key := match d.dir with | .undefined => d.k | .asc => d.kd | .desc => 0

def dirTms : SortDir → List Tm
  | .undefined => []
  | .asc => [.node 0 c!" ASC" [] false []]
  | .desc => [.node 0 c!" DESC" [] false []]

def sortTm (d : SortReq) : Tm := .node (sortKey d) [] [] false (.hole d.x.visit :: dirTms d.dir)

theorem sort_built (d : SortReq) (h : d.x.err = none) : d.build.err = none ∧ d.build.visit = (sortTm d).trees := by
  cases hd : d.dir <;>
    simp [SortReq.build, hd, SortItemV.create, errOf, h, SortItemV.ascending, SortItemV.descending, SortItemV.visit, sortTm, sortKey, Tm.trees, Tm.treesL,
      dirTms, SortDir.visit, leaf, nd]

theorem sortTm_ok (d : SortReq) : (sortTm d).Ok := by cases hd : d.dir <;> simp [sortTm, Tm.Ok, Tm.OkL, dirTms, hd]

theorem sortTm_keys (d : SortReq) : ∀ k ∈ (sortTm d).keys, k = d.k ∨ k = d.kd ∨ k = 0 := by
  cases hd : d.dir <;> simp [sortTm, sortKey, Tm.keys, Tm.keysL, dirTms, hd]

theorem sortTm_parts (d : SortReq) (e : Env) : layout e (sortTm d).parts = layout e d.parts := by
  cases hd : d.dir <;> simp [sortTm, Tm.parts, Tm.partsL, dirTms, hd, SortReq.parts, layout, sepText]

theorem sorts_trees (ds : List SortReq) (h : ∀ d ∈ ds, d.x.err = none) :
    (ds.map SortReq.build).flatMap (·.visit) = Tm.treesL (ds.map sortTm) := by
  induction ds with
  | nil => simp [Tm.treesL]
  | cons d ds ih =>
    simp only [List.map_cons, List.flatMap_cons, Tm.treesL, ih (fun x hx => h x (by simp [hx])), (sort_built d (h d (by simp))).2]

/-! ### Bodies of result clauses -/

def distinctTms (d : Bool) : List Tm := if d then [.node 40 c!"DISTINCT " [] false []] else []

def orderTms (ko : Key) (ds : List SortReq) : List Tm := if ds = [] then [] else [.node ko c!" ORDER BY " [] true (ds.map sortTm)]

def numTms (keyword : Str) : Option NumReq → List Tm
  | some s => [.node s.k keyword [] false [.node s.kl (itoa s.n) [] false []]]
  | none => []

def whereTms' (kw : Key) : Option Calls → List Tm
  | some c => if c.vacuous then [] else [.node kw c!" WHERE " [] false [.hole c.build.toVal.visit]]
  | none => []

def bodyTms (kl ko : Key) (r : ResultReq) : List Tm :=
  distinctTms r.distinct ++ .node kl [] [] true (listTm (r.items.map (·.visit))) :: (orderTms ko r.sorts ++ numTms c!" SKIP " r.skip ++ numTms c!" LIMIT " r.limit)

theorem distinctTms_trees (d : Bool) : Tm.treesL (distinctTms d) = distinctVisit d := by
  cases d <;> simp [distinctTms, distinctVisit, Tm.treesL, Tm.trees, leaf, nd]

theorem sortTms_ok (ds : List SortReq) : Tm.OkL true (ds.map sortTm) := by
  induction ds with
  | nil => simp [Tm.OkL]
  | cons d ds ih => simp only [List.map_cons, Tm.OkL, sortTm_ok, true_and, ih, and_true]; intro _; simp [sortTm, Tm.trees, Spec.One, nd]

theorem sortTms_keys (ds : List SortReq) : ∀ k ∈ Tm.keysL (ds.map sortTm), k = 0 ∨ k ∈ ds.flatMap fun d => [d.k, d.kd] := by
  induction ds with
  | nil => simp [Tm.keysL]
  | cons d ds ih =>
    intro k hk
    simp only [List.map_cons, Tm.keysL, List.mem_append] at hk
    rcases hk with h | h
    · rcases sortTm_keys d k h with h | h | h <;> simp [h]
    · rcases ih k h with h | h
      · simp [h]
      · right; simp only [List.flatMap_cons, List.mem_append]; exact Or.inr h

theorem sortTms_parts (ds : List SortReq) : SameParts ((ds.map sortTm).map Tm.parts) (ds.map SortReq.parts) := by
  induction ds with
  | nil => simpa using SameParts.nil
  | cons d ds ih => simpa using SameParts.cons (sortTm_parts d) ih

theorem order_built (ko : Key) (r : ResultReq) (h : r.Ok) : visitIfNotNull (r.orderB.build ko) = Tm.treesL (orderTms ko r.sorts) ∧
    r.orderB.skip = r.skip.map (fun s => skipCreate s.k s.kl s.n) ∧ r.orderB.limit = r.limit.map (fun s => limitCreate s.k s.kl s.n) := by
  obtain ⟨h1, h2, h3⟩ := order_items r.order {} rfl h.typed h.sortsOk
  have hi : r.orderB.allItems = r.sorts.map SortReq.build := by
    simp only [List.nil_append] at h1
    rw [ResultReq.sorts, ← h1, ResultReq.orderB]
    cases r.skip <;> cases r.limit <;> rfl
  refine ⟨?_, ?_, ?_⟩
  · rw [OrderB.build, hi, orderTms]
    cases hs : r.sorts with
    | nil => simp [visitIfNotNull, Tm.treesL]
    | cons d ds =>
      rw [← hs, if_neg (by simp [hs]), if_neg (by simp [hs])]
      have he : firstErr ((r.sorts.map SortReq.build).map (·.err)) = none := by
        rw [firstErr_none_iff]
        simp only [List.map_map, List.mem_map, Function.comp_apply, forall_exists_index, and_imp]
        rintro _ d hd rfl
        exact (sort_built d (h.sortsOk d hd)).1
      simp only [orderCreate, he, visitIfNotNull, Tm.treesL, Tm.trees, sorts_trees _ h.sortsOk]
      simp
  · rw [ResultReq.orderB]
    cases hs : r.skip <;> cases hl : r.limit <;> simp [OrderB.setSkip, OrderB.setLimit, h2]
  · rw [ResultReq.orderB]
    cases hs : r.skip <;> cases hl : r.limit <;> simp [OrderB.setSkip, OrderB.setLimit, h3]

theorem intLiteralText_eq (i : Int) (h : i.natAbs < 10 ^ 10) : intLiteralText i = itoa i := by
  cases i with
  | ofNat n =>
    have hk := (natDigits_length_le_ten n).mpr h
    simp [intLiteralText, itoa, bigFloatNatText, hk]
  | negSucc n =>
    have hk := (natDigits_length_le_ten (n + 1)).mpr h
    simp [intLiteralText, itoa, bigFloatNatText, hk]

theorem body_trees (kl ko : Key) (r : ResultReq) (h : r.Ok) :
    Tm.treesL (bodyTms kl ko r) = distinctVisit r.distinct ++
      bodyVisit [nd kl [] [] true (visitsOf r.items)] (r.orderB.build ko) r.orderB.skip r.orderB.limit := by
  obtain ⟨h1, h2, h3⟩ := order_built ko r h
  rw [bodyVisit, h1, h2, h3]
  have hs : visitIfNotNull (r.skip.map fun s => skipCreate s.k s.kl s.n) = Tm.treesL (numTms c!" SKIP " r.skip) := by
    have := h.skipOk
    cases hs : r.skip with
    | none => simp [visitIfNotNull, numTms, Tm.treesL]
    | some s => simp [visitIfNotNull, numTms, Tm.treesL, Tm.trees, skipCreate, intLiteral, intLiteralText_eq _ (this s hs), Val.mk', leaf, nd]
  have hl : visitIfNotNull (r.limit.map fun s => limitCreate s.k s.kl s.n) = Tm.treesL (numTms c!" LIMIT " r.limit) := by
    have := h.limitOk
    cases hl : r.limit with
    | none => simp [visitIfNotNull, numTms, Tm.treesL]
    | some s => simp [visitIfNotNull, numTms, Tm.treesL, Tm.trees, limitCreate, (this s hl).1, intLiteral, intLiteralText_eq _ (this s hl).2, Val.mk', leaf, nd]
  rw [hs, hl]
  have hi : Tm.treesL (listTm (r.items.map (·.visit))) = visitsOf r.items := by rw [listTm_trees, visitsOf, List.flatMap]
  simp only [bodyTms, treesL_append, Tm.treesL, Tm.trees, distinctTms_trees, hi]
  simp

theorem body_ok (kl ko : Key) (r : ResultReq) (h : r.Ok) : Tm.OkL false (bodyTms kl ko r) := by
  have hi : Tm.OkL true (listTm (r.items.map (·.visit))) := by
    apply listTm_ok
    simp only [List.mem_map, forall_exists_index, and_imp]
    rintro _ x hx rfl
    exact (h.itemsOk x hx).2
  have h1 : Tm.OkL false (distinctTms r.distinct) := by cases r.distinct <;> simp [distinctTms, Tm.OkL, Tm.Ok]
  have h2 : Tm.OkL false (orderTms ko r.sorts) := by
    rw [orderTms]; split <;> simp [Tm.OkL, Tm.Ok, sortTms_ok]
  have h3 : ∀ s o, Tm.OkL false (numTms s o) := by intro s o; cases o <;> simp [numTms, Tm.OkL, Tm.Ok]
  simp [bodyTms, okL_append, Tm.OkL, Tm.Ok, hi, h1, h2, h3]

theorem body_keys (kl ko : Key) (r : ResultReq) : ∀ k ∈ Tm.keysL (bodyTms kl ko r), k = kl ∨ k = ko ∨ k ∈ r.keys := by
  intro k hk
  have h3 : ∀ s (o : Option NumReq), ∀ k ∈ Tm.keysL (numTms s o), k ∈ o.toList.flatMap fun s => [s.k, s.kl] := by
    intro s o; cases o <;> simp [numTms, Tm.keysL, Tm.keys]
  simp only [bodyTms, keysL_append, Tm.keysL, Tm.keys, listTm_keys, List.mem_append, List.mem_cons, List.not_mem_nil, or_false] at hk
  simp only [ResultReq.keys, List.mem_append, List.mem_cons, List.not_mem_nil, or_false]
  rcases hk with h | h | (h | h) | h
  · cases hd : r.distinct <;> simp [hd, distinctTms, Tm.keysL, Tm.keys] at h
    simp [h]
  · simp [h]
  · rw [orderTms] at h
    split at h
    · simp [Tm.keysL] at h
    · simp only [Tm.keysL, Tm.keys, List.append_nil, List.mem_cons] at h
      rcases h with h | h
      · simp [h]
      · rcases sortTms_keys _ _ h with h | h
        · simp [h]
        · exact Or.inr (Or.inr (Or.inl (Or.inl (Or.inr h))))
  · exact Or.inr (Or.inr (Or.inl (Or.inr (h3 _ _ _ h))))
  · exact Or.inr (Or.inr (Or.inr (h3 _ _ _ h)))

theorem body_parts (kl ko : Key) (r : ResultReq) (e : Env) (b : Bool) : layout e (Tm.partsL false b (bodyTms kl ko r)) = layout e r.parts := by
  have h3 : ∀ s (o : Option NumReq) e b, layout e (Tm.partsL false b (numTms s o)) =
      layout e (match o with | some n => [.lit s, .lit (itoa n.n)] | none => []) := by
    intro s o e b; cases o <;> simp [numTms, Tm.partsL, Tm.parts, layout, sepText]
  have h1 : ∀ e b, layout e (Tm.partsL false b (distinctTms r.distinct)) = layout e (if r.distinct then [.lit c!"DISTINCT "] else []) := by
    intro e b; cases r.distinct <;> simp [distinctTms, Tm.partsL, Tm.parts, layout, sepText]
  have h2 : ∀ e b, layout e (Tm.partsL false b (orderTms ko r.sorts)) =
      layout e (if r.sorts = [] then [] else .lit c!" ORDER BY " :: sepParts c!", " (r.sorts.map SortReq.parts)) := by
    intro e b
    rw [orderTms]
    split
    · simp [Tm.partsL]
    · have := sepParts_congr c!", " (sortTms_parts r.sorts)
      simp only [Tm.partsL, Tm.parts, layout, layout_append, sepText, partsL_sep, this]
      simp
  rw [bodyTms, ResultReq.parts, partsL_append, Tm.partsL, partsL_append, partsL_append]
  simp only [layout_append, h1, h2, h3, layout, Tm.parts, partsL_commas, sepText]
  cases r.skip <;> cases r.limit <;> simp [layout]

theorem where_trees (kw : Key) (c : Option Calls) (hc : ∀ x, c = some x → x.Usable) :
    errOf ((builtCondition (c.map Calls.build)).map fun c => whereCreate kw c.toVal) = none ∧
    visitIfNotNull ((builtCondition (c.map Calls.build)).map fun c => whereCreate kw c.toVal) = Tm.treesL (whereTms' kw c) := by
  cases c with
  | none => simp [builtCondition, visitIfNotNull, Tm.treesL, whereTms', errOf]
  | some c =>
    have h1 := (build_ok c (hc c rfl)).val
    have h2 := build_hasCondition c (hc c rfl)
    simp only [Option.map_some, builtCondition, h1.2.1, h2, Bool.true_and]
    cases hv : c.vacuous <;> simp [visitIfNotNull, Tm.treesL, whereTms', hv, whereCreate, h1.1, Tm.trees, errOf]

theorem where_ok (kw : Key) (c : Option Calls) : Tm.OkL false (whereTms' kw c) := by
  cases c with
  | none => simp [whereTms', Tm.OkL]
  | some c => cases hv : c.vacuous <;> simp [whereTms', hv, Tm.OkL, Tm.Ok]

theorem where_keys (kw : Key) (c : Option Calls) : ∀ k ∈ Tm.keysL (whereTms' kw c), k = kw := by
  cases c with
  | none => simp [whereTms', Tm.keysL]
  | some c => cases hv : c.vacuous <;> simp [whereTms', hv, Tm.keysL, Tm.keys]

theorem where_parts (kw : Key) (c : Option Calls) (e : Env) (b : Bool) : layout e (Tm.partsL false b (whereTms' kw c)) = layout e (whereParts c) := by
  cases c with
  | none => simp [whereTms', Tm.partsL, whereParts]
  | some c => cases hv : c.vacuous <;> simp [whereTms', hv, Tm.partsL, Tm.parts, whereParts, layout, sepText]

/-! ### SET -/

/-- The values of assignments built before. -/
def builts : List SetArg → List Val
  | [] => []
  | .built o :: as => o :: builts as
  | .pair .. :: as => builts as

/-- The pairs. -/
def pairs : List SetArg → List (Val × Val)
  | [] => []
  | .built _ :: as => pairs as
  | .pair a b :: as => (a, b) :: pairs as

theorem filter_ops (as : List SetArg) (h : ∀ a ∈ as, a.Ok) : (as.flatMap SetArg.args).filter (·.isOperation) = builts as ∧
    (as.flatMap SetArg.args).filter (fun x => !x.isOperation) = (pairs as).flatMap fun p => [p.1, p.2] := by
  induction as with
  | nil => simp [builts, pairs]
  | cons a as ih =>
    have ih := ih fun x hx => h x (by simp [hx])
    have ha := h a (by simp)
    cases a with
    | pair a b => obtain ⟨_, _, h1, h2⟩ := ha; simp [SetArg.args, h1, h2, ih, builts, pairs]
    | built o => obtain ⟨_, _, h1⟩ := ha; simp [SetArg.args, h1, ih, builts, pairs]

def pairVals (ks : Nat → Key) (i : Nat) : List (Val × Val) → List Val
  | [] => []
  | (a, b) :: ps => .mk' (ks i) (operationVisit (ks i) a.visit .set b.visit) false .operation :: pairVals ks (i + 1) ps

theorem pairUp_eq (ks : Nat → Key) (i : Nat) (ps : List (Val × Val)) (h : ∀ p ∈ ps, Good p.1 ∧ Good p.2) :
    pairUp ks i (ps.flatMap fun p => [p.1, p.2]) = pairVals ks i ps := by
  induction ps generalizing i with
  | nil => simp [pairUp, pairVals]
  | cons p ps ih =>
    obtain ⟨⟨h1, h2⟩, ⟨h3, h4⟩⟩ := h p (by simp)
    simp only [List.flatMap_cons, List.cons_append, List.nil_append, pairUp, pairVals, ih (i + 1) fun q hq => h q (by simp [hq])]
    simp [operationCreate, firstErr, errOf, h1, h3, nilErr, missing, h2, h4]

theorem pairs_good (as : List SetArg) (h : ∀ a ∈ as, a.Ok) : ∀ p ∈ pairs as, Good p.1 ∧ Good p.2 := by
  induction as with
  | nil => simp [pairs]
  | cons a as ih =>
    have ih := ih fun x hx => h x (by simp [hx])
    have ha := h a (by simp)
    cases a with
    | pair a b =>
      intro p hp
      simp only [pairs, List.mem_cons] at hp
      rcases hp with rfl | hp
      · exact ⟨ha.1, ha.2.1⟩
      · exact ih p hp
    | built o => exact ih

theorem builts_ok (as : List SetArg) (h : ∀ a ∈ as, a.Ok) : ∀ o ∈ builts as, o.err = none ∧ Spec.One o.visit := by
  induction as with
  | nil => simp [builts]
  | cons a as ih =>
    have ih := ih fun x hx => h x (by simp [hx])
    have ha := h a (by simp)
    cases a with
    | pair a b => exact ih
    | built o =>
      intro p hp
      simp only [builts, List.mem_cons] at hp
      rcases hp with rfl | hp
      · exact ⟨ha.1, ha.2.1⟩
      · exact ih p hp

theorem pairVals_err (ks : Nat → Key) (i : Nat) (ps : List (Val × Val)) : ∀ v ∈ pairVals ks i ps, v.err = none := by
  induction ps generalizing i with
  | nil => simp [pairVals]
  | cons p ps ih =>
    intro v hv
    simp only [pairVals, List.mem_cons] at hv
    rcases hv with rfl | hv
    · rfl
    · exact ih (i + 1) v hv

/-- The values of a SET clause. -/
def setVals (ks : Nat → Key) (as : List SetArg) : List Val := builts as ++ pairVals ks 0 (pairs as)

theorem prepareSet_ok (ks : Nat → Key) (as : List SetArg) (h : ∀ a ∈ as, a.Ok) :
    prepareSet ks (as.flatMap SetArg.args) = .ok (setVals ks as) ∧ ∀ v ∈ setVals ks as, v.err = none := by
  obtain ⟨h1, h2⟩ := filter_ops as h
  have hl : ((pairs as).flatMap fun p => [p.1, p.2]).length % 2 = 0 := by
    generalize pairs as = ps
    induction ps with
    | nil => rfl
    | cons p ps ih => simp only [List.flatMap_cons, List.length_append, List.length_cons, List.length_nil]; omega
  constructor
  · rw [prepareSet, h1, h2]
    simp only [hl, ne_eq, not_true_eq_false, if_false, pairUp_eq ks 0 _ (pairs_good as h)]
    rfl
  · intro v hv
    rcases List.mem_append.mp hv with hv | hv
    · exact (builts_ok as h v hv).1
    · exact pairVals_err _ _ _ v hv

def pairTms (ks : Nat → Key) (i : Nat) : List (Val × Val) → List Tm
  | [] => []
  | (a, b) :: ps => .node (ks i) [] [] false [.hole a.visit, .node Op.set.key Op.set.text [] false [], .hole b.visit] :: pairTms ks (i + 1) ps

def setTms (ks : Nat → Key) (as : List SetArg) : List Tm := listTm ((builts as).map (·.visit)) ++ pairTms ks 0 (pairs as)

theorem pairTms_trees (ks : Nat → Key) (i : Nat) (ps : List (Val × Val)) : Tm.treesL (pairTms ks i ps) = visitsOf (pairVals ks i ps) := by
  induction ps generalizing i with
  | nil => simp [pairTms, pairVals, visitsOf, Tm.treesL]
  | cons p ps ih =>
    have := ih (i + 1)
    simp only [visitsOf] at this
    simp [pairTms, pairVals, visitsOf, Tm.treesL, Tm.trees, this, Val.mk', operationVisit, needsGrouping, Op.type, Op.visit, leaf, nd]

theorem setTms_trees (ks : Nat → Key) (as : List SetArg) : Tm.treesL (setTms ks as) = visitsOf (setVals ks as) := by
  rw [setTms, treesL_append, pairTms_trees, listTm_trees, setVals]
  simp [visitsOf, List.flatMap]

theorem setTms_ok (ks : Nat → Key) (as : List SetArg) (h : ∀ a ∈ as, a.Ok) : Tm.OkL true (setTms ks as) := by
  rw [setTms, okL_append]
  constructor
  · apply listTm_ok
    simp only [List.mem_map, forall_exists_index, and_imp]
    rintro _ x hx rfl
    exact (builts_ok as h x hx).2
  · generalize 0 = i
    generalize pairs as = ps
    induction ps generalizing i with
    | nil => simp [pairTms, Tm.OkL]
    | cons p ps ih => simp [pairTms, Tm.OkL, Tm.Ok, ih, Spec.One, Tm.trees, nd]

theorem setTms_keys (ks : Nat → Key) (as : List SetArg) : ∀ k ∈ Tm.keysL (setTms ks as), k = Op.set.key ∨ k ∈ (List.range as.length).map ks := by
  have hl : (pairs as).length ≤ as.length := by
    induction as with
    | nil => simp [pairs]
    | cons a as ih => cases a <;> simp [pairs] <;> omega
  have : ∀ (ps : List (Val × Val)) i, ∀ k ∈ Tm.keysL (pairTms ks i ps), k = Op.set.key ∨ ∃ j, j < i + ps.length ∧ ks j = k := by
    intro ps
    induction ps with
    | nil => simp [pairTms, Tm.keysL]
    | cons p ps ih =>
      intro i k hk
      simp only [pairTms, Tm.keysL, Tm.keys, List.cons_append, List.nil_append, List.append_nil, List.mem_cons] at hk
      rcases hk with h | h | h
      · exact Or.inr ⟨i, by simp, h.symm⟩
      · exact Or.inl h
      · rcases ih (i + 1) k h with h | ⟨j, hj, h⟩
        · exact Or.inl h
        · exact Or.inr ⟨j, by simp only [List.length_cons]; omega, h⟩
  intro k hk
  rw [setTms, keysL_append, listTm_keys, List.nil_append] at hk
  rcases this _ _ k hk with h | ⟨j, hj, h⟩
  · exact Or.inl h
  · right
    simp only [List.mem_map, List.mem_range]
    exact ⟨j, by omega, h⟩

theorem sameParts_append {as bs cs ds : List (List Part)} (h1 : SameParts as bs) (h2 : SameParts cs ds) : SameParts (as ++ cs) (bs ++ ds) := by
  induction h1 with
  | nil => simpa using h2
  | cons h t ih => simpa using SameParts.cons h ih

theorem setTms_parts (ks : Nat → Key) (as : List SetArg) : SameParts ((setTms ks as).map Tm.parts) ((builtFirst as).map SetArg.parts) := by
  rw [setTms, builtFirst, List.map_append, List.map_append]
  apply sameParts_append
  · induction as with
    | nil => exact .nil
    | cons a as ih =>
      cases a with
      | pair a b => simpa [builts, SetArg.isBuilt] using ih
      | built o =>
        simp only [builts, listTm, List.map_cons, List.filter_cons, SetArg.isBuilt, if_true] at ih ⊢
        exact .cons (fun _ => rfl) ih
  · generalize 0 = i
    induction as generalizing i with
    | nil => exact .nil
    | cons a as ih =>
      cases a with
      | built o => simpa [pairs, SetArg.isBuilt] using ih i
      | pair a b =>
        simp only [pairs, pairTms, List.map_cons, List.filter_cons, SetArg.isBuilt, Bool.not_false, if_true]
        refine .cons (fun e => ?_) (ih (i + 1))
        simp [Tm.parts, Tm.partsL, SetArg.parts, layout, sepText, Op.text, Op.type, Op.repr]

/-! ### MERGE -/

def actionTm (a : ActionReq) : Tm := .node a.k a.type.text [] false [.node a.kset setKeyword c!" " false [.node a.kl [] [] true (setTms a.ks a.args)]]

theorem actions_built (as : List ActionReq) (h : ∀ a ∈ as, ∀ x ∈ a.args, x.Ok) :
    ∃ vs, buildActions as = .ok vs ∧ visitsOf vs = Tm.treesL (as.map actionTm) := by
  induction as with
  | nil => exact ⟨[], rfl, by simp [visitsOf, Tm.treesL]⟩
  | cons a as ih =>
    obtain ⟨vs, hv, ht⟩ := ih fun b hb => h b (by simp [hb])
    obtain ⟨h1, h2⟩ := prepareSet_ok a.ks a.args (h a (by simp))
    have he : errsOf (setVals a.ks a.args) = none := (errsOf_none_iff _).mpr h2
    refine ⟨_, by rw [buildActions, mergeAction, h1, hv]; rfl, ?_⟩
    simp only [visitsOf] at ht
    simp [visitsOf, ht, Tm.treesL, actionTm, Tm.trees, updateClause, expressionList, he, Val.mk', setTms_trees]

theorem actions_ok (as : List ActionReq) (h : ∀ a ∈ as, ∀ x ∈ a.args, x.Ok) : Tm.OkL false (as.map actionTm) := by
  induction as with
  | nil => simp [Tm.OkL]
  | cons a as ih =>
    have : (actionTm a).Ok := by simpa [actionTm, Tm.Ok, Tm.OkL] using setTms_ok a.ks a.args (h a (by simp))
    simp only [List.map_cons, Tm.OkL, this, true_and]
    exact ⟨by simp, ih fun b hb => h b (by simp [hb])⟩

theorem actions_keys (as : List ActionReq) : ∀ k ∈ Tm.keysL (as.map actionTm), k ∈ as.flatMap ActionReq.keys := by
  induction as with
  | nil => simp [Tm.keysL]
  | cons a as ih =>
    intro k hk
    simp only [List.map_cons, Tm.keysL, List.mem_append] at hk
    simp only [List.flatMap_cons, List.mem_append]
    rcases hk with h | h
    · left
      simp only [actionTm, Tm.keys, Tm.keysL, List.append_nil, List.mem_cons] at h
      simp only [ActionReq.keys, List.mem_append, List.mem_cons, List.not_mem_nil, or_false]
      rcases h with h | h | h | h
      · simp [h]
      · simp [h]
      · simp [h]
      · rcases setTms_keys _ _ _ h with h | h
        · simp [h]
        · exact Or.inr h
    · exact Or.inr (ih k h)

theorem actions_parts (as : List ActionReq) (e : Env) (b : Bool) : layout e (Tm.partsL false b (as.map actionTm)) = layout e (as.flatMap ActionReq.parts) := by
  induction as generalizing e b with
  | nil => simp [Tm.partsL]
  | cons a as ih =>
    have := sepParts_congr c!", " (setTms_parts a.ks a.args)
    have h1 : ∀ e, layout e (actionTm a).parts = layout e a.parts := by
      intro e
      simp only [actionTm, Tm.parts, Tm.partsL, layout_append, layout, sepText, partsL_sep, this, ActionReq.parts, setParts, setKeyword]
      cases a.type <;> simp [MergeType.text]
    simp only [List.map_cons, Tm.partsL, List.flatMap_cons, layout_append, ih, layout, sepText, h1, List.cons_append]
    simp

end

/-! ### UNION -/

def unionTms (ks : Nat → Key) (all : Bool) : Nat → List Stmt → List Tm
  | _, [] => []
  | i, q :: r => .node (ks i) (c!" UNION " ++ (if all then c!"ALL " else [])) [] false [.hole q.visit] :: unionTms ks all (i + 1) r

theorem unionTms_trees (ks : Nat → Key) (all : Bool) (i : Nat) (qs : List Stmt) :
    Tm.treesL (unionTms ks all i qs) = (qs.zipIdx i).map fun p => unionPart (ks p.2) all p.1 := by
  induction qs generalizing i with
  | nil => simp [unionTms, Tm.treesL]
  | cons q r ih => simp [unionTms, Tm.treesL, Tm.trees, ih, unionPart]

theorem unionTms_ok (ks : Nat → Key) (all : Bool) (i : Nat) (qs : List Stmt) : Tm.OkL false (unionTms ks all i qs) := by
  induction qs generalizing i with
  | nil => simp [unionTms, Tm.OkL]
  | cons q r ih => simp [unionTms, Tm.OkL, Tm.Ok, ih]

theorem unionTms_keys (ks : Nat → Key) (all : Bool) (i : Nat) (qs : List Stmt) :
    ∀ k ∈ Tm.keysL (unionTms ks all i qs), ∃ j < qs.length, k = ks (i + j) := by
  induction qs generalizing i with
  | nil => simp [unionTms, Tm.keysL]
  | cons q r ih =>
    intro k hk
    simp only [unionTms, Tm.keysL, Tm.keys, List.append_nil, List.cons_append, List.nil_append, List.mem_cons] at hk
    rcases hk with rfl | hk
    · exact ⟨0, by simp, rfl⟩
    · obtain ⟨j, hj, rfl⟩ := ih (i + 1) k hk
      exact ⟨j + 1, by simp; omega, by congr 1; omega⟩

theorem unionTms_parts (ks : Nat → Key) (all : Bool) (i : Nat) (qs : List Stmt) (e : Env) (b : Bool) (q : Stmt) :
    layout e (.hole q.visit :: Tm.partsL false b (unionTms ks all i qs)) = layout e (unionParts all ((q :: qs).map Stmt.visit)) := by
  induction qs generalizing e i b q with
  | nil => simp [unionTms, Tm.partsL, unionParts, sepParts]
  | cons r rest ih =>
    have := ih (i + 1) (denL false true e q.visit).2 false r
    cases all <;> simp [unionParts, layout] at this <;> simp [unionTms, Tm.partsL, Tm.parts, unionParts, sepParts, layout, sepText, ← this]

theorem union_query {e : Env} (k : Key) (ks : Nat → Key) (all : Bool) (qs : List Stmt) (h2 : 2 ≤ qs.length) (hq : ∀ q ∈ qs, q.err = none) :
    ∃ v, unionQuery k ks all qs = .union v none all true qs ∧
      (NoAlias e (k :: (List.range (qs.length - 1)).map ks) v → shownAs e v = layout e (unionParts all (qs.map Stmt.visit))) := by
  have hf : firstErr (qs.map Stmt.err) = none := by
    rw [firstErr_none_iff]
    simpa using hq
  match qs, h2, hf with
  | q :: r :: rest, _, hf =>
    refine ⟨[nd k [] [] false (q.visit ++ (r :: rest).zipIdx.map fun p => unionPart (ks p.2) all p.1)], by rw [unionQuery, hf], fun ha => ?_⟩
    refine shown_self (.node k [] [] false (.hole q.visit :: unionTms ks all 0 (r :: rest))) ?_ ?_ ?_ ?_
    · simp [Tm.trees, Tm.treesL, unionTms_trees]
    · simpa [Tm.Ok, Tm.OkL] using unionTms_ok ks all 0 (r :: rest)
    · intro k' hk'
      apply ha
      simp only [Tm.keys, Tm.keysL, List.mem_cons, List.nil_append] at hk'
      rcases hk' with h | h
      · simp [h]
      · obtain ⟨j, hj, rfl⟩ := unionTms_keys ks all 0 (r :: rest) k' h
        simp only [List.mem_cons, List.mem_map, List.mem_range]
        exact .inr ⟨j, by simpa using hj, by simp⟩
    · have := unionTms_parts ks all 0 (r :: rest) e false q
      rw [List.map_cons, ← List.map_cons, ← this]
      simp [Tm.parts, Tm.partsL, layout, layout_append, sepText]

end Verif
