import Verif.NilArgs

/-
What `accept` does with RETURN and WITH when sort items are without an expression.
-/

namespace Verif

/-- order.go:35-41: the loop over the sort items; sort_item.go:51-58 panics for an item without expression. -/
def sortsAccept : List SortItemV → Outcome (List Tree)
  | [] => .ok []
  | s :: ss => match sortAccept s with
    | .panic => .panic
    | .ok ts => (sortsAccept ss).map (ts ++ ·)

/-- order_builder.go:47-55 `BuildOrder`, order.go:10-19 `OrderCreate`, 33-50; visitable.go:3-8: an `Order` with an error is not visited. -/
def orderAccept (k : Key) (o : OrderB) : Outcome (List Tree) :=
  if o.allItems = [] then .ok []
  else match firstErr (o.allItems.map (·.err)) with
    | some _ => .ok []
    | none => (sortsAccept o.allItems).map fun ts => [nd k c!" ORDER BY " [] true ts]

/-- return.go:57-62, return_body.go:61-66 `accept` of the RETURN that default_statement_with_return_builder.go:23-28 makes. -/
def returnShown (k ko : Key) (distinct : Bool) (xs : List Val) (o : OrderB) : Outcome (List Tree) :=
  if xs = [] then .ok []
  else (orderAccept ko o).map fun ts =>
    [nd k c!"RETURN " [] false (distinctVisit distinct ++ (returnItems xs ++ ts ++ visitIfNotNull o.skip ++ visitIfNotNull o.limit))]

/-- with.go:52-58 `accept` of the WITH that default_statement_with_with_builder.go:26-44 makes. -/
def withShown (k kl ko kw : Key) (distinct : Bool) (xs : List Val) (o : OrderB) (c : Option Cond) : Outcome (List Tree) :=
  if xs = [] then .ok []
  else (orderAccept ko o).map fun ts =>
    [nd k c!"WITH " c!" " false (distinctVisit distinct ++ (listVisit kl xs ++ ts ++ visitIfNotNull o.skip ++ visitIfNotNull o.limit) ++
      visitIfNotNull ((builtCondition c).map fun c => whereCreate kw c.toVal))]

/-! ### These agree with `returnCreate` and `withCreate`, which do not know about panics -/

theorem sortsAccept_ok {ss : List SortItemV} {ts : List Tree} (h : sortsAccept ss = .ok ts) : ts = ss.flatMap (·.visit) := by
  induction ss generalizing ts with
  | nil => cases h; rfl
  | cons s ss ih =>
    rw [sortsAccept] at h
    cases hs : s.expr with
    | none => simp [sortAccept, hs] at h
    | some x =>
      simp only [sortAccept, hs] at h
      cases hr : sortsAccept ss with
      | panic => rw [hr] at h; cases h
      | ok us =>
        rw [hr] at h
        cases h
        simp [ih hr]

theorem orderAccept_ok {k : Key} {o : OrderB} {ts : List Tree} (h : orderAccept k o = .ok ts) : ts = visitIfNotNull (o.build k) := by
  rw [orderAccept] at h
  rw [OrderB.build]
  split at h
  · rename_i hi; cases h; simp [hi, visitIfNotNull]
  · rename_i hi
    rw [if_neg hi, orderCreate]
    cases hf : firstErr (o.allItems.map (·.err)) with
    | some er => rw [hf] at h; cases h; rfl
    | none =>
      rw [hf] at h
      cases hs : sortsAccept o.allItems with
      | panic => simp [hs, Outcome.map] at h
      | ok us =>
        simp only [hs, Outcome.map, Outcome.ok.injEq] at h
        rw [← h, sortsAccept_ok hs]
        rfl

theorem returnShown_ok {k ko : Key} {distinct : Bool} {xs : List Val} {o : OrderB} {ts : List Tree} (h : returnShown k ko distinct xs o = .ok ts) :
    ts = visitIfNotNull (returnCreate k ko distinct xs o) := by
  rw [returnShown] at h
  rw [returnCreate]
  split at h
  · rename_i hx; cases h; simp [hx, visitIfNotNull]
  · rename_i hx
    rw [if_neg hx]
    cases hs : orderAccept ko o with
    | panic => simp [hs, Outcome.map] at h
    | ok us =>
      simp only [hs, Outcome.map, Outcome.ok.injEq] at h
      rw [← h, orderAccept_ok hs]
      rfl

theorem withShown_ok {k kl ko kw : Key} {distinct : Bool} {xs : List Val} {o : OrderB} {c : Option Cond} {ts : List Tree}
    (h : withShown k kl ko kw distinct xs o c = .ok ts) : ts = visitIfNotNull (withCreate k kl ko kw distinct xs o c) := by
  rw [withShown] at h
  rw [withCreate]
  split at h
  · rename_i hx; cases h; simp [hx, visitIfNotNull]
  · rename_i hx
    rw [if_neg hx]
    cases hs : orderAccept ko o with
    | panic => simp [hs, Outcome.map] at h
    | ok us =>
      simp only [hs, Outcome.map, Outcome.ok.injEq] at h
      rw [← h, orderAccept_ok hs]
      rfl

end Verif
