import Verif.ResultAccept
import Verif.PropsClauses

/-
Property theorems: what RETURN and WITH show after any ordering calls, with errors in the arguments (C74).
-/

namespace Verif.Spec

/-- A value of type `SortItem`, by the calls that make it; `k`, `kd`: the addresses of the objects. -/
inductive SortTerm where
  | sort (k : Key) (x : Val)                       -- Sort(x)
  | created (k : Key) (x : Val) (dir : SortDir)    -- SortItemCreate(x, dir), CreateAscendingSortItem(x), CreateDescendingSortItem(x), x.Ascending(), x.Descending()
  | ascending (kd : Key) (t : SortTerm)            -- t.Ascending()
  | descending (t : SortTerm)                      -- t.Descending()

namespace SortTerm

def build : SortTerm → SortItemV
  | .sort k x => .create k (some x) .undefined
  | .created k x dir => .create k (some x) dir
  | .ascending kd t => t.build.ascending kd
  | .descending t => t.build.descending

/-- What is sorted by. -/
def expr : SortTerm → Val
  | .sort _ x => x
  | .created _ x _ => x
  | .ascending _ t => t.expr
  | .descending t => t.expr

/-- The direction asked for last. -/
def dir : SortTerm → SortDir
  | .sort _ _ => .undefined
  | .created _ _ d => d
  | .ascending _ _ => .asc
  | .descending _ => .desc

/-- A direction was asked for by a method of the sort item. -/
def redirected : SortTerm → Bool
  | .sort _ _ => false
  | .created _ _ _ => false
  | .ascending _ _ => true
  | .descending _ => true

/-- The addresses of the objects. -/
def keys : SortTerm → List Key
  | .sort k _ => [k]
  | .created k _ _ => [k]
  | .ascending kd t => kd :: t.keys
  | .descending t => t.keys

/-- The expression has an error. -/
def fails (t : SortTerm) : Bool := t.expr.err.isSome

/-- The text. -/
def parts (t : SortTerm) : List Part :=
  match t.dir with
  | .undefined => [.hole t.expr.visit]
  | .asc => [.hole t.expr.visit, .lit c!" ASC"]
  | .desc => [.hole t.expr.visit, .lit c!" DESC"]

end SortTerm

/-- The calls that ask for an order. -/
inductive SortCall where
  | items (ts : List SortTerm)     -- OrderBySortItem(ts...)
  | sorted (d : SortReq)               -- OrderBy(x), OrderByExpression(x), And(x), And1(x), and then Ascending() or Descending() or neither

namespace SortCall

def run (o : OrderB) : SortCall → OrderB
  | .items ts => o.addItems (ts.map SortTerm.build)
  | .sorted d => OrderCall.run o (.sort d)

/-- What a call asks to sort by. -/
def terms : SortCall → List SortTerm
  | .items ts => ts
  | .sorted d => match d.dir with
    | .undefined => [.sort d.k d.x]
    | .asc => [.ascending d.kd (.sort d.k d.x)]
    | .desc => [.descending (.sort d.k d.x)]

/-- A sort item given to `OrderBySortItem` has an error. -/
def Reports : SortCall → Prop
  | .items ts => ∃ t ∈ ts, t.fails ∧ ¬ t.redirected
  | .sorted _ => False

end SortCall

/-- A RETURN or WITH with everything asked for. -/
structure Asked where
  distinct : Bool
  items : List Val
  order : List SortCall := []
  skip : Option NumReq := none
  limit : Option NumReq := none

namespace Asked

def orderB (r : Asked) : OrderB :=
  let o := r.order.foldl SortCall.run {}
  let o := match r.skip with | some s => o.setSkip s.k s.kl s.n | none => o
  match r.limit with | some s => o.setLimit s.k s.kl s.n | none => o

def terms (r : Asked) : List SortTerm := r.order.flatMap SortCall.terms

/-- What the interfaces of the builders allow: a sorting without direction is not followed by another one. -/
def Typed (r : Asked) : Prop := ∀ pre d post, r.order = pre ++ .sorted d :: post → d.dir = .undefined → post = []

/-- An error in an argument of `OrderBySortItem` is noticed; then there is no ORDER BY at all. -/
def Unordered (r : Asked) : Prop := ∃ c ∈ r.order, c.Reports

/-- An error is forgotten because a direction was asked for; the sort item is without expression. -/
def Hollow (r : Asked) : Prop := ∃ t ∈ r.terms, t.fails ∧ t.redirected

/-- The sort items shown. -/
def sorts (r : Asked) : List SortTerm := r.terms.filter (fun t => !t.fails)

/-- The text of ORDER BY. -/
def orderParts (r : Asked) : List Part :=
  if r.sorts = [] then [] else .lit c!" ORDER BY " :: sepParts c!", " (r.sorts.map SortTerm.parts)

/-- The text of SKIP and LIMIT: the number as C59 has it; a limit of 0 does not count. -/
def numberParts (r : Asked) : List Part :=
  (match r.skip with | some s => [.lit c!" SKIP ", .lit (intLiteralText s.n)] | none => []) ++
  (match r.limit with | some s => if s.n = 0 then [] else [.lit c!" LIMIT ", .lit (intLiteralText s.n)] | none => [])

/-- DISTINCT -/
def distinctParts (r : Asked) : List Part := if r.distinct then [.lit c!"DISTINCT "] else []

def keys (r : Asked) : List Key :=
  [0, 40] ++ r.terms.flatMap (·.keys) ++ r.skip.toList.flatMap (fun s => [s.k, s.kl]) ++ r.limit.toList.flatMap (fun s => [s.k, s.kl])

end Asked
end Verif.Spec

namespace Verif
open Spec

/-! ### Lemmas -/

theorem term_dir_err (t : SortTerm) : (t.fails = true → t.redirected = true → t.build.err = none ∧ t.build.expr = none) ∧
    (t.fails = true → t.redirected = false → t.build.err.isSome ∧ t.build.expr = none) ∧
    (t.fails = false → t.build.err = none ∧ t.build.expr = some t.expr ∧ t.build.dir = t.dir ∧ (t.build.key = 0 ∨ t.build.key ∈ t.keys)) := by
  induction t with
  | sort k x => cases hx : x.err <;> simp [SortTerm.fails, SortTerm.redirected, SortTerm.expr, SortTerm.build, SortItemV.create, errOf, hx, SortTerm.dir, SortTerm.keys]
  | created k x d => cases hx : x.err <;> simp [SortTerm.fails, SortTerm.redirected, SortTerm.expr, SortTerm.build, SortItemV.create, errOf, hx, SortTerm.dir, SortTerm.keys]
  | ascending kd t ih =>
    obtain ⟨h1, h2, h3⟩ := ih
    have hf : (SortTerm.ascending kd t).fails = t.fails := rfl
    refine ⟨?_, ?_, ?_⟩
    · intro h _
      rw [hf] at h
      have : t.build.expr = none := by
        cases hr : t.redirected
        · exact (h2 h hr).2
        · exact (h1 h hr).2
      simp [SortTerm.build, SortItemV.ascending, SortItemV.create, errOf, this]
    · intro _ h; cases h
    · intro h
      rw [hf] at h
      have he : t.expr.err = none := by simpa [SortTerm.fails] using h
      simp [SortTerm.build, SortItemV.ascending, SortItemV.create, errOf, (h3 h).2.1, he, SortTerm.expr, SortTerm.dir, SortTerm.keys]
  | descending t ih =>
    obtain ⟨h1, h2, h3⟩ := ih
    have hf : (SortTerm.descending t).fails = t.fails := rfl
    refine ⟨?_, ?_, ?_⟩
    · intro h _
      rw [hf] at h
      have : t.build.expr = none := by
        cases hr : t.redirected
        · exact (h2 h hr).2
        · exact (h1 h hr).2
      simp [SortTerm.build, SortItemV.descending, this]
    · intro _ h; cases h
    · intro h
      rw [hf] at h
      simp [SortTerm.build, SortItemV.descending, (h3 h).2.1, SortTerm.expr, SortTerm.dir]

/-- The items in the builder: those of the calls; only a last sorting without direction that fails is left out. -/
theorem ordering_items (calls : List SortCall) (o : OrderB) (ho : o.last.notNil = false)
    (ht : ∀ pre d post, calls = pre ++ .sorted d :: post → d.dir = .undefined → post = []) :
    ∃ ts : List SortTerm, (calls.foldl SortCall.run o).allItems = o.items ++ ts.map SortTerm.build ∧
      ts.filter (fun t => !t.fails) = (calls.flatMap SortCall.terms).filter (fun t => !t.fails) ∧
      (∀ t ∈ ts, t ∈ calls.flatMap SortCall.terms) ∧
      ((∃ t ∈ ts, t.fails ∧ ¬ t.redirected) ↔ ∃ c ∈ calls, c.Reports) ∧
      ((∃ t ∈ ts, t.fails ∧ t.redirected) ↔ ∃ t ∈ calls.flatMap SortCall.terms, t.fails ∧ t.redirected) ∧
      (calls.foldl SortCall.run o).skip = o.skip ∧ (calls.foldl SortCall.run o).limit = o.limit := by
  induction calls generalizing o with
  | nil => exact ⟨[], by simp [OrderB.allItems, ho]⟩
  | cons c cs ih =>
    have ht' : ∀ pre d post, cs = pre ++ .sorted d :: post → d.dir = .undefined → post = [] :=
      fun pre d post h => ht (c :: pre) d post (by simp [h])
    -- a call that adds items `us`
    have hadd : ∀ (o' : OrderB) (us : List SortTerm), SortCall.run o c = o' → o'.last.notNil = false → o'.items = o.items ++ us.map SortTerm.build →
        o'.skip = o.skip → o'.limit = o.limit → c.terms = us → (c.Reports ↔ ∃ t ∈ us, t.fails ∧ ¬ t.redirected) →
        ∃ ts : List SortTerm, ((c :: cs).foldl SortCall.run o).allItems = o.items ++ ts.map SortTerm.build ∧
          ts.filter (fun t => !t.fails) = ((c :: cs).flatMap SortCall.terms).filter (fun t => !t.fails) ∧
          (∀ t ∈ ts, t ∈ (c :: cs).flatMap SortCall.terms) ∧
          ((∃ t ∈ ts, t.fails ∧ ¬ t.redirected) ↔ ∃ c' ∈ c :: cs, c'.Reports) ∧
          ((∃ t ∈ ts, t.fails ∧ t.redirected) ↔ ∃ t ∈ (c :: cs).flatMap SortCall.terms, t.fails ∧ t.redirected) ∧
          ((c :: cs).foldl SortCall.run o).skip = o.skip ∧ ((c :: cs).foldl SortCall.run o).limit = o.limit := by
      intro o' us h1 h2 h3 h4 h5 h6 h7
      obtain ⟨ts, g1, g2, g3, g4, g5, g6, g7⟩ := ih o' h2 ht'
      refine ⟨us ++ ts, ?_, ?_, ?_, ?_, ?_, ?_, ?_⟩
      · rw [List.foldl_cons, h1, g1, h3]; simp
      · rw [List.filter_append, g2, List.flatMap_cons, h6, List.filter_append]
      · intro t ht
        rw [List.flatMap_cons, h6]
        rcases List.mem_append.mp ht with h | h
        · exact List.mem_append.mpr (.inl h)
        · exact List.mem_append.mpr (.inr (g3 t h))
      · constructor
        · rintro ⟨t, ht, hf⟩
          rcases List.mem_append.mp ht with h | h
          · exact ⟨c, by simp, h7.mpr ⟨t, h, hf⟩⟩
          · obtain ⟨c', hc', hr⟩ := g4.mp ⟨t, h, hf⟩
            exact ⟨c', by simp [hc'], hr⟩
        · rintro ⟨c', hc', hr⟩
          rcases List.mem_cons.mp hc' with rfl | h
          · obtain ⟨t, ht, hf⟩ := h7.mp hr
            exact ⟨t, by simp [ht], hf⟩
          · obtain ⟨t, ht, hf⟩ := g4.mpr ⟨c', h, hr⟩
            exact ⟨t, by simp [ht], hf⟩
      · rw [List.flatMap_cons, h6]
        constructor
        · rintro ⟨t, ht, hf⟩
          rcases List.mem_append.mp ht with h | h
          · exact ⟨t, List.mem_append.mpr (.inl h), hf⟩
          · obtain ⟨t', ht', hf'⟩ := g5.mp ⟨t, h, hf⟩
            exact ⟨t', List.mem_append.mpr (.inr ht'), hf'⟩
        · rintro ⟨t, ht, hf⟩
          rcases List.mem_append.mp ht with h | h
          · exact ⟨t, List.mem_append.mpr (.inl h), hf⟩
          · obtain ⟨t', ht', hf'⟩ := g5.mpr ⟨t, h, hf⟩
            exact ⟨t', List.mem_append.mpr (.inr ht'), hf'⟩
      · rw [List.foldl_cons, h1, g6, h4]
      · rw [List.foldl_cons, h1, g7, h5]
    cases c with
    | items us => exact hadd _ us rfl ho rfl rfl rfl rfl Iff.rfl
    | sorted d =>
      cases hd : d.dir with
      | undefined =>
        have hcs : cs = [] := ht [] d cs rfl hd
        subst hcs
        cases he : d.x.err with
        | none =>
          refine ⟨[.sort d.k d.x], ?_⟩
          simp [SortCall.run, OrderCall.run, hd, OrderB.allItems, OrderB.byExpression, SortCall.terms, SortTerm.build, SortItemV.create, errOf, he,
            SortTerm.redirected, SortTerm.fails, SortTerm.expr, SortCall.Reports]
        | some er =>
          refine ⟨[], ?_⟩
          simp [SortCall.run, OrderCall.run, hd, OrderB.allItems, OrderB.byExpression, SortCall.terms, SortItemV.create, errOf, he,
            SortTerm.redirected, SortTerm.fails, SortTerm.expr, SortCall.Reports]
      | asc =>
        refine hadd _ [.ascending d.kd (.sort d.k d.x)] rfl ?_ ?_ ?_ ?_ ?_ ?_ <;>
          simp [SortCall.run, OrderCall.run, hd, OrderB.ascending, OrderB.byExpression, SortCall.terms, SortTerm.build, SortCall.Reports, SortTerm.redirected]
      | desc =>
        refine hadd _ [.descending (.sort d.k d.x)] rfl ?_ ?_ ?_ ?_ ?_ ?_ <;>
          simp [SortCall.run, OrderCall.run, hd, OrderB.descending, OrderB.byExpression, SortCall.terms, SortTerm.build, SortCall.Reports, SortTerm.redirected]

theorem asked_items (r : Asked) (ht : r.Typed) : ∃ ts : List SortTerm, r.orderB.allItems = ts.map SortTerm.build ∧ ts.filter (fun t => !t.fails) = r.sorts ∧
    (∀ t ∈ ts, t ∈ r.terms) ∧ ((∃ t ∈ ts, t.fails ∧ ¬ t.redirected) ↔ r.Unordered) ∧ ((∃ t ∈ ts, t.fails ∧ t.redirected) ↔ r.Hollow) ∧
    r.orderB.skip = r.skip.map (fun s => skipCreate s.k s.kl s.n) ∧ r.orderB.limit = r.limit.map (fun s => limitCreate s.k s.kl s.n) := by
  obtain ⟨ts, h1, h2, h3, h4, h5, h6, h7⟩ := ordering_items r.order {} rfl ht
  refine ⟨ts, ?_, h2, h3, h4, h5, ?_, ?_⟩
  · simp only [List.nil_append] at h1
    rw [← h1, Asked.orderB]
    cases r.skip <;> cases r.limit <;> rfl
  · rw [Asked.orderB]
    cases hs : r.skip <;> cases hl : r.limit <;> simp [OrderB.setSkip, OrderB.setLimit, h6]
  · rw [Asked.orderB]
    cases hs : r.skip <;> cases hl : r.limit <;> simp [OrderB.setSkip, OrderB.setLimit, h7]

def termTm (t : SortTerm) : Tm := .node t.build.key [] [] false (.hole t.expr.visit :: dirTms t.dir)

theorem termTm_trees (t : SortTerm) (h : t.fails = false) : t.build.visit = (termTm t).trees := by
  obtain ⟨_, _, h3⟩ := term_dir_err t
  obtain ⟨_, g2, g3, _⟩ := h3 h
  rw [SortItemV.visit, g2, g3]
  cases hd : t.dir <;> simp [termTm, hd, Tm.trees, Tm.treesL, dirTms, SortDir.visit, leaf, nd]

theorem sortsAccept_panic (ts : List SortTerm) : sortsAccept (ts.map SortTerm.build) = .panic ↔ ∃ t ∈ ts, t.fails := by
  induction ts with
  | nil => simp [sortsAccept]
  | cons t ts ih =>
    obtain ⟨h1, h2, h3⟩ := term_dir_err t
    rw [List.map_cons, sortsAccept]
    cases hf : t.fails with
    | true =>
      have : t.build.expr = none := by
        cases hr : t.redirected
        · exact (h2 hf hr).2
        · exact (h1 hf hr).2
      simp [sortAccept, this, hf]
    | false =>
      have := (h3 hf).2.1
      simp only [sortAccept, this]
      cases hs : sortsAccept (ts.map SortTerm.build) with
      | panic =>
        obtain ⟨t', ht', hf'⟩ := ih.mp hs
        simp only [Outcome.map, true_iff]
        exact ⟨t', by simp [ht'], hf'⟩
      | ok us =>
        simp only [Outcome.map, reduceCtorEq, false_iff, not_exists, not_and]
        intro t' ht' hf'
        rcases List.mem_cons.mp ht' with rfl | h
        · rw [hf] at hf'; cases hf'
        · rw [ih.mpr ⟨t', h, hf'⟩] at hs; cases hs

theorem sortsAccept_fine (ts : List SortTerm) (h : ∀ t ∈ ts, t.fails = false) :
    sortsAccept (ts.map SortTerm.build) = .ok (Tm.treesL (ts.map termTm)) := by
  induction ts with
  | nil => simp [sortsAccept, Tm.treesL]
  | cons t ts ih =>
    have hf := h t (by simp)
    obtain ⟨_, _, h3⟩ := term_dir_err t
    rw [List.map_cons, sortsAccept, ih fun t' ht' => h t' (by simp [ht'])]
    simp only [sortAccept, (h3 hf).2.1]
    simp [Outcome.map, Tm.treesL, termTm_trees t hf]

/-- ORDER BY in the builder: nothing, a panic, or the sort items. -/
def shownOrderTms (ko : Key) (ts : List SortTerm) : List Tm := if ts = [] then [] else [.node ko c!" ORDER BY " [] true (ts.map termTm)]

theorem asked_order (ko : Key) (r : Asked) (ht : r.Typed) :
    (r.Unordered → orderAccept ko r.orderB = .ok []) ∧ (¬ r.Unordered → r.Hollow → orderAccept ko r.orderB = .panic) ∧
    (¬ r.Unordered → ¬ r.Hollow → orderAccept ko r.orderB = .ok (Tm.treesL (shownOrderTms ko r.sorts))) := by
  obtain ⟨ts, h1, h2, h3, h4, h5, _, _⟩ := asked_items r ht
  have hfirst : firstErr ((ts.map SortTerm.build).map (·.err)) = none ↔ ¬ r.Unordered := by
    rw [firstErr_none_iff, ← h4]
    constructor
    · rintro h ⟨t, ht, hf, hr⟩
      have := ((term_dir_err t).2.1 hf (by simpa using hr)).1
      rw [h t.build.err (by simp only [List.map_map, List.mem_map, Function.comp_apply]; exact ⟨t, ht, rfl⟩)] at this
      cases this
    · intro h er her
      simp only [List.map_map, List.mem_map, Function.comp_apply] at her
      obtain ⟨t, ht, rfl⟩ := her
      obtain ⟨g1, g2, g3⟩ := term_dir_err t
      cases hf : t.fails with
      | false => exact (g3 hf).1
      | true =>
        cases hr : t.redirected with
        | true => exact (g1 hf hr).1
        | false => exact absurd ⟨t, ht, hf, by simp [hr]⟩ h
  rw [orderAccept, h1]
  refine ⟨?_, ?_, ?_⟩
  · intro hu
    split
    · rfl
    · cases hf : firstErr ((ts.map SortTerm.build).map (·.err)) with
      | none => exact absurd hu (hfirst.mp hf)
      | some er => rfl
  · intro hu hh
    obtain ⟨t, ht, hf, _⟩ := h5.mpr hh
    have hne : ts.map SortTerm.build ≠ [] := by
      intro h
      rw [List.map_eq_nil_iff] at h
      rw [h] at ht; cases ht
    rw [if_neg hne, hfirst.mpr hu]
    simp only [(sortsAccept_panic ts).mpr ⟨t, ht, hf⟩, Outcome.map]
  · intro hu hh
    have hall : ∀ t ∈ ts, t.fails = false := by
      intro t ht
      cases hf : t.fails with
      | false => rfl
      | true =>
        cases hr : t.redirected with
        | true => exact absurd (h5.mp ⟨t, ht, hf, hr⟩) hh
        | false => exact absurd (h4.mp ⟨t, ht, hf, by simp [hr]⟩) hu
    have hs : r.sorts = ts := by rw [← h2, List.filter_eq_self]; intro t ht; simp [hall t ht]
    rw [hs, shownOrderTms]
    cases hts : ts with
    | nil => simp [Tm.treesL]
    | cons t ts' =>
      rw [← hts, if_neg (by simp [hts]), if_neg (by simp [hts]), hfirst.mpr hu]
      simp only [sortsAccept_fine ts hall, Outcome.map, Tm.treesL, Tm.trees]
      rfl

def skipTms : Option NumReq → List Tm
  | some s => [.node s.k c!" SKIP " [] false [.node s.kl (intLiteralText s.n) [] false []]]
  | none => []

def limitTms : Option NumReq → List Tm
  | some s => if s.n = 0 then [] else [.node s.k c!" LIMIT " [] false [.node s.kl (intLiteralText s.n) [] false []]]
  | none => []

def itemsTm (kl : Key) (shown : Bool) (xs : List Val) : Tm := if shown then .node kl [] [] true (listTm (xs.map (·.visit))) else .node 0 [] [] true []

open Classical in
noncomputable def askedTms (kl ko : Key) (shown : Bool) (r : Asked) : List Tm :=
  distinctTms r.distinct ++ itemsTm kl shown r.items :: ((if r.Unordered then [] else shownOrderTms ko r.sorts) ++ skipTms r.skip ++ limitTms r.limit)

theorem skip_trees (s : Option NumReq) : visitIfNotNull (s.map fun s => skipCreate s.k s.kl s.n) = Tm.treesL (skipTms s) := by
  cases s <;> simp [skipTms, visitIfNotNull, Tm.treesL, Tm.trees, skipCreate, intLiteral, Val.mk', leaf, nd]

theorem limit_trees (s : Option NumReq) : visitIfNotNull (s.map fun s => limitCreate s.k s.kl s.n) = Tm.treesL (limitTms s) := by
  cases s with
  | none => simp [limitTms, visitIfNotNull, Tm.treesL]
  | some s =>
    by_cases h : s.n = 0
    · simp [limitTms, h, limitCreate, visitIfNotNull, Val.bad, Tm.treesL]
    · simp [limitTms, h, limitCreate, visitIfNotNull, Tm.treesL, Tm.trees, intLiteral, Val.mk', leaf, nd]

theorem termTms_ok (ts : List SortTerm) : Tm.OkL true (ts.map termTm) := by
  induction ts with
  | nil => simp [Tm.OkL]
  | cons t ts ih =>
    have : (termTm t).Ok := by cases hd : t.dir <;> simp [termTm, Tm.Ok, Tm.OkL, dirTms, hd]
    simp only [List.map_cons, Tm.OkL, this, true_and, ih, and_true]
    intro _; simp [termTm, Tm.trees, Spec.One, nd]

theorem termTms_parts (ts : List SortTerm) : SameParts ((ts.map termTm).map Tm.parts) (ts.map SortTerm.parts) := by
  induction ts with
  | nil => simpa using SameParts.nil
  | cons t ts ih =>
    have h : ∀ e, layout e (termTm t).parts = layout e t.parts := by
      intro e; cases hd : t.dir <;> simp [termTm, Tm.parts, Tm.partsL, dirTms, hd, SortTerm.parts, layout, sepText]
    simpa using SameParts.cons h ih

theorem termTms_keys (ts : List SortTerm) (h : ∀ t ∈ ts, t.fails = false) : ∀ k ∈ Tm.keysL (ts.map termTm), k = 0 ∨ k ∈ ts.flatMap (·.keys) := by
  induction ts with
  | nil => simp [Tm.keysL]
  | cons t ts ih =>
    intro k hk
    simp only [List.map_cons, Tm.keysL, List.mem_append] at hk
    rcases hk with hk | hk
    · have hk' : k = t.build.key ∨ k = 0 := by
        cases hd : t.dir <;> simp [termTm, Tm.keys, Tm.keysL, dirTms, hd] at hk <;> simp [hk]
      rcases hk' with rfl | rfl
      · rcases ((term_dir_err t).2.2 (h t (by simp))).2.2.2 with h0 | h0
        · exact .inl h0
        · right; rw [List.flatMap_cons, List.mem_append]; exact .inl h0
      · exact .inl rfl
    · rcases ih (fun t' ht' => h t' (by simp [ht'])) k hk with h0 | h0
      · exact .inl h0
      · right; rw [List.flatMap_cons, List.mem_append]; exact .inr h0

theorem sorts_fine (r : Asked) : ∀ t ∈ r.sorts, t.fails = false := by
  intro t ht
  have := (List.mem_filter.mp ht).2
  simpa using this

open Classical in
theorem asked_ok (kl ko : Key) (shown : Bool) (r : Asked) (h : shown = true → ∀ x ∈ r.items, Spec.One x.visit) : Tm.OkL false (askedTms kl ko shown r) := by
  have h1 : Tm.OkL false (distinctTms r.distinct) := by cases r.distinct <;> simp [distinctTms, Tm.OkL, Tm.Ok]
  have h2 : Tm.OkL false (if r.Unordered then [] else shownOrderTms ko r.sorts) := by
    split
    · simp [Tm.OkL]
    · rw [shownOrderTms]; split <;> simp [Tm.OkL, Tm.Ok, termTms_ok]
  have h3 : Tm.OkL false (skipTms r.skip) := by cases r.skip <;> simp [skipTms, Tm.OkL, Tm.Ok]
  have h4 : Tm.OkL false (limitTms r.limit) := by
    cases r.limit with
    | none => simp [limitTms, Tm.OkL]
    | some s => by_cases hn : s.n = 0 <;> simp [limitTms, hn, Tm.OkL, Tm.Ok]
  have h5 : (itemsTm kl shown r.items).Ok := by
    cases shown with
    | false => simp [itemsTm, Tm.Ok, Tm.OkL]
    | true =>
      simp only [itemsTm, if_true, Tm.Ok]
      apply listTm_ok
      simp only [List.mem_map, forall_exists_index, and_imp]
      rintro _ x hx rfl
      exact h rfl x hx
  simp [askedTms, okL_append, Tm.OkL, h1, h2, h3, h4, h5]

open Classical in
theorem asked_keys (kl ko : Key) (shown : Bool) (r : Asked) : ∀ k ∈ Tm.keysL (askedTms kl ko shown r), k = kl ∨ k = ko ∨ k ∈ r.keys := by
  intro k hk
  simp only [askedTms, keysL_append, Tm.keysL, List.mem_append] at hk
  simp only [Asked.keys, List.mem_append, List.mem_cons, List.not_mem_nil, or_false]
  rcases hk with h | h | (h | h) | h
  · cases hd : r.distinct <;> simp [hd, distinctTms, Tm.keysL, Tm.keys] at h
    simp [h]
  · cases shown <;> simp [itemsTm, Tm.keys, Tm.keysL, listTm_keys] at h <;> simp [h]
  · split at h
    · simp [Tm.keysL] at h
    · rw [shownOrderTms] at h
      split at h
      · simp [Tm.keysL] at h
      · simp only [Tm.keysL, Tm.keys, List.append_nil, List.mem_cons] at h
        rcases h with h | h
        · simp [h]
        · rcases termTms_keys _ (sorts_fine r) _ h with h | h
          · simp [h]
          · refine .inr (.inr (.inl (.inl (.inr ?_))))
            rw [List.mem_flatMap] at h ⊢
            obtain ⟨t, ht, hk⟩ := h
            exact ⟨t, (List.mem_filter.mp ht).1, hk⟩
  · refine .inr (.inr (.inl (.inr ?_)))
    cases hs : r.skip with
    | none => simp [hs, skipTms, Tm.keysL] at h
    | some s => simpa [hs, skipTms, Tm.keysL, Tm.keys] using h
  · refine .inr (.inr (.inr ?_))
    cases hs : r.limit with
    | none => simp [hs, limitTms, Tm.keysL] at h
    | some s => by_cases hn : s.n = 0 <;> simp [hs, limitTms, Tm.keysL, Tm.keys, hn] at h ⊢; exact h

open Classical in
theorem asked_parts (kl ko : Key) (shown : Bool) (r : Asked) (e : Env) (b : Bool) : layout e (Tm.partsL false b (askedTms kl ko shown r)) =
    layout e (r.distinctParts ++ (if shown then commas (r.items.map (·.visit)) else []) ++ (if r.Unordered then [] else r.orderParts) ++ r.numberParts) := by
  have h1 : ∀ e b, layout e (Tm.partsL false b (distinctTms r.distinct)) = layout e r.distinctParts := by
    intro e b; cases hd : r.distinct <;> simp [Asked.distinctParts, hd, distinctTms, Tm.partsL, Tm.parts, layout, sepText]
  have h2 : ∀ e b, layout e (Tm.partsL false b (if r.Unordered then [] else shownOrderTms ko r.sorts)) = layout e (if r.Unordered then [] else r.orderParts) := by
    intro e b
    split
    · simp [Tm.partsL]
    · rw [shownOrderTms, Asked.orderParts]
      split
      · simp [Tm.partsL]
      · have := sepParts_congr c!", " (termTms_parts r.sorts)
        simp only [Tm.partsL, Tm.parts, layout, layout_append, sepText, partsL_sep, this]
        simp
  have h3 : ∀ e b, layout e (Tm.partsL false b (skipTms r.skip)) =
      layout e (match r.skip with | some s => [.lit c!" SKIP ", .lit (intLiteralText s.n)] | none => []) := by
    intro e b; cases r.skip <;> simp [skipTms, Tm.partsL, Tm.parts, layout, sepText]
  have h4 : ∀ e b, layout e (Tm.partsL false b (limitTms r.limit)) =
      layout e (match r.limit with | some s => if s.n = 0 then [] else [.lit c!" LIMIT ", .lit (intLiteralText s.n)] | none => []) := by
    intro e b
    cases r.limit with
    | none => simp [limitTms, Tm.partsL]
    | some s => by_cases hn : s.n = 0 <;> simp [limitTms, hn, Tm.partsL, Tm.parts, layout, sepText]
  have h5 : ∀ e b, layout e (Tm.partsL false b [itemsTm kl shown r.items]) = layout e (if shown then commas (r.items.map (·.visit)) else []) := by
    intro e b
    cases shown <;> simp [itemsTm, Tm.partsL, Tm.parts, layout, layout_append, partsL_commas, sepText]
  have hc : ∀ (t : Tm) (ts : List Tm), t :: ts = [t] ++ ts := fun _ _ => rfl
  rw [askedTms, hc, partsL_append, partsL_append, partsL_append, partsL_append, Asked.numberParts]
  simp only [layout_append, h1, h2, h3, h4, h5, List.append_assoc]

/-! ### C74 -/

/-- C74, panics: RETURN and WITH with at least one item panic when they are rendered if and only if the error of a sort item was forgotten by
`Ascending()` or `Descending()` and no error of a sort item given to `OrderBySortItem` is noticed. -/
theorem C74_panics (k kl ko kw : Key) (r : Asked) (ht : r.Typed) (hi : r.items ≠ []) (c : Option Cond) :
    (returnShown k ko r.distinct r.items r.orderB = .panic ↔ ¬ r.Unordered ∧ r.Hollow) ∧
    (withShown k kl ko kw r.distinct r.items r.orderB c = .panic ↔ ¬ r.Unordered ∧ r.Hollow) := by
  obtain ⟨h1, h2, h3⟩ := asked_order ko r ht
  have : ∀ f : List Tree → List Tree, (orderAccept ko r.orderB).map f = .panic ↔ ¬ r.Unordered ∧ r.Hollow := by
    intro f
    by_cases hu : r.Unordered
    · simp [h1 hu, Outcome.map, hu]
    · by_cases hh : r.Hollow
      · simp [h2 hu hh, Outcome.map, hu, hh]
      · simp [h3 hu hh, Outcome.map, hh]
  rw [returnShown, withShown, if_neg hi, if_neg hi]
  exact ⟨this _, this _⟩

/-- What a clause shows of its order: nothing if an error is noticed, otherwise the sort items without error. -/
theorem asked_order_trees (ko : Key) (r : Asked) (ht : r.Typed) (hp : r.Hollow → r.Unordered) :
    open Classical in orderAccept ko r.orderB = .ok (Tm.treesL (if r.Unordered then [] else shownOrderTms ko r.sorts)) := by
  obtain ⟨h1, _, h3⟩ := asked_order ko r ht
  by_cases hu : r.Unordered
  · simp [hu, h1 hu, Tm.treesL]
  · simp [hu, h3 hu fun h => hu (hp h)]

open Classical in
/-- C74, RETURN: otherwise the text is RETURN, DISTINCT if asked for, the items, the order, SKIP and LIMIT: the order is left out if an error
of a sort item given to `OrderBySortItem` is noticed, and else consists of the sort items whose expression has no error, in the order of the
calls and with the direction asked for last; LIMIT is left out for 0; numbers are as in C59. -/
theorem C74_return (e : Env) (k ko : Key) (r : Asked) (ht : r.Typed) (hi : r.items ≠ []) (hx : ∀ x ∈ r.items, Spec.One x.visit)
    (hp : r.Hollow → r.Unordered) :
    ∃ ts, returnShown k ko r.distinct r.items r.orderB = .ok ts ∧ (NoAlias e ([k, ko] ++ r.keys) ts → shownAs e ts =
      layout e (.lit c!"RETURN " :: (r.distinctParts ++ commas (r.items.map (·.visit)) ++ (if r.Unordered then [] else r.orderParts) ++ r.numberParts))) := by
  obtain ⟨_, _, _, _, _, _, hs, hl⟩ := asked_items r ht
  refine ⟨[nd k c!"RETURN " [] false (Tm.treesL (askedTms 0 ko true r))], ?_, ?_⟩
  · rw [returnShown, if_neg hi, asked_order_trees ko r ht hp, hs, hl, skip_trees, limit_trees]
    simp only [Outcome.map, askedTms, treesL_append, distinctTms_trees, Tm.treesL, itemsTm, if_true, Tm.trees, listTm_trees, returnItems, visitsOf]
    simp [List.flatMap]
  · intro ha
    refine shown_self (.node k c!"RETURN " [] false (askedTms 0 ko true r)) ?_ ?_ ?_ ?_
    · simp [Tm.trees]
    · simpa [Tm.Ok] using asked_ok 0 ko true r fun _ => hx
    · intro k' hk'
      apply ha
      simp only [Tm.keys, List.mem_cons] at hk'
      rcases hk' with h | h
      · simp [h]
      · rcases asked_keys 0 ko true r k' h with h | h | h
        · simp [h, Asked.keys]
        · simp [h]
        · simp [h]
    · simp [Tm.parts, layout, layout_append, asked_parts]

open Classical in
/-- C74, WITH: the same, followed by the condition; if an item has an error no item is shown, and if the condition has an error it is not
shown. -/
theorem C74_with (e : Env) (k kl ko kw : Key) (r : Asked) (c : Option Calls) (ht : r.Typed) (hi : r.items ≠ [])
    (hx : (∀ x ∈ r.items, x.err = none) → ∀ x ∈ r.items, Spec.One x.visit) (hp : r.Hollow → r.Unordered)
    (hc : ∀ x, c = some x → x.Usable ∨ x.build.toVal.err ≠ none) :
    ∃ ts, withShown k kl ko kw r.distinct r.items r.orderB (c.map Calls.build) = .ok ts ∧ (NoAlias e ([k, kl, ko, kw] ++ r.keys) ts → shownAs e ts =
      layout e (.lit c!"WITH " :: (r.distinctParts ++ (if ∀ x ∈ r.items, x.err = none then commas (r.items.map (·.visit)) else []) ++
        (if r.Unordered then [] else r.orderParts) ++ r.numberParts ++
        (if ∀ x, c = some x → x.build.toVal.err = none then whereParts c else []) ++ [.lit c!" "]))) := by
  obtain ⟨_, _, _, _, _, _, hs, hl⟩ := asked_items r ht
  let shown : Bool := decide (∀ x ∈ r.items, x.err = none)
  let c' : Option Calls := if ∀ x, c = some x → x.build.toVal.err = none then c else none
  have hlist : listVisit kl r.items = (itemsTm kl shown r.items).trees := by
    by_cases hall : ∀ x ∈ r.items, x.err = none
    · have h1 : errsOf r.items = none := (errsOf_none_iff _).mpr hall
      have h2 : shown = true := by simpa [shown] using hall
      simp [listVisit, expressionList, h1, Val.mk', h2, itemsTm, Tm.trees, listTm_trees, visitsOf, List.flatMap]
    · have h2 : shown = false := by simpa [shown] using hall
      cases h1 : errsOf r.items with
      | none => exact absurd ((errsOf_none_iff _).mp h1) hall
      | some er => simp [listVisit, expressionList, h1, Val.bad, h2, itemsTm, Tm.trees, Tm.treesL]
  have hw : visitIfNotNull ((builtCondition (c.map Calls.build)).map fun c => whereCreate kw c.toVal) = Tm.treesL (whereTms' kw c') := by
    by_cases hg : ∀ x, c = some x → x.build.toVal.err = none
    · have : c' = c := by simp only [c', if_pos hg]
      rw [this]
      exact (where_trees kw c fun x h => (hc x h).resolve_right fun h' => h' (hg x h)).2
    · have h0 : c' = none := by simp only [c', if_neg hg]
      rw [h0]
      cases c with
      | none => exact absurd (fun x h => by cases h) hg
      | some x =>
        have : x.build.toVal.err ≠ none := fun h => hg fun y hy => by cases hy; exact h
        obtain ⟨er, her⟩ := Option.ne_none_iff_exists'.mp this
        simp only [Option.map_some, builtCondition]
        split <;> simp [visitIfNotNull, whereTms', Tm.treesL, whereCreate, her, Val.bad]
  have hwp : whereParts c' = if ∀ x, c = some x → x.build.toVal.err = none then whereParts c else [] := by
    by_cases hg : ∀ x, c = some x → x.build.toVal.err = none
    · simp only [c', if_pos hg]
    · simp only [c', if_neg hg]; rfl
  refine ⟨[nd k c!"WITH " c!" " false (Tm.treesL (askedTms kl ko shown r ++ whereTms' kw c'))], ?_, ?_⟩
  · rw [withShown, if_neg hi, asked_order_trees ko r ht hp, hs, hl, skip_trees, limit_trees, hlist, hw]
    simp only [Outcome.map, askedTms, treesL_append, distinctTms_trees, Tm.treesL]
    simp
  · intro ha
    refine shown_self (.node k c!"WITH " c!" " false (askedTms kl ko shown r ++ whereTms' kw c')) ?_ ?_ ?_ ?_
    · simp [Tm.trees]
    · simpa [Tm.Ok, okL_append] using ⟨asked_ok kl ko shown r fun h => hx (by simpa [shown] using h), where_ok kw c'⟩
    · intro k' hk'
      apply ha
      simp only [Tm.keys, List.mem_cons, keysL_append, List.mem_append] at hk'
      rcases hk' with h | h | h
      · simp [h]
      · rcases asked_keys kl ko shown r k' h with h | h | h <;> simp [h]
      · simp [where_keys kw c' k' h]
    · simp only [Tm.parts, layout, layout_append, partsL_append, asked_parts, where_parts, hwp, shown, decide_eq_true_eq]

namespace SampleResults

/-- An expression with an error. -/
def broken : Val := .bad (.site "expression.go" 1)
/-- `Returning(x, y).OrderBySortItem(CreateDescendingSortItem(x), Sort(y).Ascending().Descending()).And(bad).Skip(12345678901).Limit(0)` -/
def asked : Asked :=
  { distinct := true, items := [SampleClause.x, SampleClause.y],
    order := [.items [.created 201 SampleClause.x .desc, .descending (.ascending 202 (.sort 203 SampleClause.y))], .sorted ⟨204, 205, broken, .undefined⟩],
    skip := some ⟨206, 207, 12345678901⟩, limit := some ⟨208, 209, 0⟩ }
/-- A sort item with an error that is noticed. -/
def noticed : Asked := { distinct := false, items := [SampleClause.x], order := [.items [.sort 201 SampleClause.y, .created 202 broken .asc, .ascending 203 (.sort 204 broken)]] }
/-- `OrderBy(bad).Descending()` -/
def hollow : Asked := { distinct := false, items := [SampleClause.x], order := [.sorted ⟨201, 202, broken, .desc⟩] }

end SampleResults
open SampleResults

example : (match returnShown 1 2 asked.distinct asked.items asked.orderB with | .ok ts => some (text ts) | .panic => none) =
    some c!"RETURN DISTINCT x, y ORDER BY x DESC, y DESC SKIP 1.23456789e+10" := by decide +kernel
example : asked.Typed ∧ ¬ asked.Unordered ∧ ¬ asked.Hollow ∧ asked.sorts.length = 2 := by
  refine ⟨?_, ?_, ?_, by decide +kernel⟩
  · intro pre d post heq hd
    simp only [asked] at heq
    match pre, heq with
    | [_], heq => simp at heq; exact heq.2.2
    | _ :: _ :: _, heq => simp at heq
  · simp [Asked.Unordered, asked, SortCall.Reports, SortTerm.fails, SortTerm.expr, SampleClause.x, SampleClause.y, SampleClause.w, Val.mk']
  · simp [Asked.Hollow, Asked.terms, asked, SortCall.terms, SortTerm.fails, SortTerm.redirected, SortTerm.expr, SampleClause.x, SampleClause.y, SampleClause.w, Val.mk']

/-- C74 and C34, consequences: an error of a sort item makes the whole ORDER BY vanish, or only the sort item, or the query panics when it is
rendered; in no case is it reported. -/
theorem C74_lost :
    (match returnShown 1 2 noticed.distinct noticed.items noticed.orderB with | .ok ts => some (text ts) | .panic => none) = some c!"RETURN x" ∧
    returnShown 1 2 hollow.distinct hollow.items hollow.orderB = .panic ∧
    (returnCreate 1 2 hollow.distinct hollow.items hollow.orderB).map (·.err) = some none ∧
    (returnCreate 1 2 noticed.distinct noticed.items noticed.orderB).map (·.err) = some none := by
  refine ⟨by decide +kernel, rfl, rfl, rfl⟩

end Verif
