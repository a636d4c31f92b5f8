import Verif.Interfaces

/-
Which calls Go's type checker admits directly after which (C89).
-/

namespace Verif
open Spec

namespace Spec

/-- A call after which a reading part of a query may go on: MATCH, a subquery, the `As` of an UNWIND, conditions, WITH with what
belongs to it. -/
def mayGoOn : Call → Bool
  | .match_ .. | .callStmt .. | .as .. | .where_ .. | .and .. | .or .. | .with_ .. | .orderItems .. | .asc .. | .desc | .limit .. => true
  | _ => false

/-- SET and REMOVE, also those of MERGE's actions. -/
def assigns : Call → Bool
  | .set .. | .setNamed .. | .setLabels .. | .removeLabels .. | .remove .. | .actionSet .. => true
  | _ => false

/-- CREATE and MERGE. -/
def makes : Call → Bool
  | .create .. | .merge .. => true
  | _ => false

def isDelete : Call → Bool
  | .delete .. => true
  | _ => false

def isYield : Call → Bool
  | .yield .. => true
  | _ => false

/-- Something that can be ordered, or is ordered. -/
def ordered : Call → Bool
  | .with_ .. | .where_ .. | .and .. | .or .. | .orderItems .. | .returning .. => true
  | _ => false

/-- A sort item, with or without a direction. -/
def sorts : Call → Bool
  | .orderBy .. | .andBy .. | .asc .. | .desc => true
  | _ => false

/-- May `b` be called on what `a` returns? -/
def MayFollow (a b : Call) : Bool :=
  match b with
  | .where_ .. => (match a with | .match_ .. | .callStmt .. | .with_ .. | .yield .. => true | _ => false)
  | .and .. | .or .. => (match a with | .where_ .. | .and .. | .or .. | .orderItems .. => true | _ => false)
  | .orderBy .. | .orderItems .. => ordered a
  | .asc .. | .desc => (match a with | .orderBy .. | .andBy .. => true | _ => false)
  | .andBy .. => (match a with | .asc .. | .desc | .orderItems .. => true | _ => false)
  | .skip .. => ordered a || sorts a
  | .limit .. => ordered a || sorts a || (match a with | .skip .. => true | _ => false)
  | .as .. => (match a with | .unwind .. => true | _ => false)
  | .args .. => (match a with | .callProc .. | .args .. => true | _ => false)
  | .yield .. => (match a with | .callProc .. | .args .. => true | _ => false)
  | .on .. => isDelete a || makes a || (match a with | .actionSet .. => true | _ => false)
  | .actionSet .. => (match a with | .on .. => true | _ => false)
  | .match_ .. => mayGoOn a && (match a with | .as .. => false | _ => true)
  | .unwind .. | .callProc .. => mayGoOn a
  | .callStmt .. => mayGoOn a || isYield a
  | .with_ .. | .returning .. => mayGoOn a || isDelete a || makes a || assigns a || isYield a
  | .delete .. | .create .. | .merge .. => mayGoOn a || isDelete a || makes a || assigns a
  | .set .. | .setNamed .. => mayGoOn a || makes a || assigns a
  | .setLabels .. | .removeLabels .. | .remove .. => mayGoOn a || assigns a

/-- RETURN. -/
def returns : Call → Bool
  | .returning .. => true
  | _ => false

/-- The arguments or the YIELD of a procedure call. -/
def ofCall : Call → Bool
  | .args .. | .yield .. => true
  | _ => false

/-- What may come after RETURN. -/
def ofReturn : Call → Bool
  | .orderBy .. | .orderItems .. | .andBy .. | .asc .. | .desc | .skip .. | .limit .. => true
  | _ => false

/-- May a statement begin with this call?  Standalone calls of procedures begin with the name of the procedure. -/
def MayBegin (standalone : Bool) (c : Call) : Bool :=
  if standalone then ofCall c
  else match c with
    | .match_ .. | .create .. | .merge .. | .with_ .. | .unwind .. | .returning .. | .callStmt .. => true
    | _ => false

/-- The type on which the calls of a statement begin: the functions of cypher.go:159-265, 368, 456 count as the first call on
`entry`; cypher.go:430-453 `ACall`, `ACallSimple` return the builder of a standalone procedure call. -/
def begins (standalone : Bool) : Iface := if standalone then .firstNoYield else .entry

/-- Where in a statement a call stands: behind a standalone procedure call, WITH, RETURN, or another clause. -/
inductive Place where
  | standalone | with_ | return_ | other

/-- The place behind a call: clauses change it, what belongs to them does not. -/
def placeAfter (p : Place) : Call → Place
  | .with_ .. => .with_
  | .returning .. => .return_
  | .match_ .. | .callStmt .. | .callProc .. | .unwind .. | .delete .. | .create .. | .merge .. | .set .. | .setNamed .. | .setLabels ..
  | .removeLabels .. | .remove .. => .other
  | _ => p

/-- May `b` be called on what `a` returns, at a place?  Behind WITH: nothing after SKIP, and no further sort item after
`OrderBySortItem`.  Behind RETURN: one order, SKIP, LIMIT.  Elsewhere neither order nor SKIP nor LIMIT; the arguments of a procedure
call can be given twice only in a standalone call. -/
def MayFollowAt (p : Place) (a b : Call) : Bool :=
  MayFollow a b &&
  match p with
  | .with_ => (match a, b with | .skip .., _ => false | .orderItems .., .andBy .. => false | _, _ => true)
  | .return_ => ofReturn b && (match a, b with | .orderItems .., .orderBy .. | .orderItems .., .orderItems .. => false | _, _ => true)
  | .standalone => !ofReturn b
  | .other => !ofReturn b && (match a, b with | .args .., .args .. => false | _, _ => true)

/-- Calls, each of which may follow the one before, the first one `a`. -/
def admitsFrom (p : Place) (a : Call) : List Call → Bool
  | [] => true
  | b :: cs => MayFollowAt p a b && admitsFrom (placeAfter p b) b cs

/-- Calls that make a beginning of a statement. -/
def Admits (standalone : Bool) : List Call → Bool
  | [] => true
  | c :: cs => MayBegin standalone c && admitsFrom (placeAfter (if standalone then .standalone else .other) c) c cs

end Spec

/-- All interfaces. -/
def allIfaces : List Iface :=
  [.entry, .reading, .readingNoWhere, .readingWhere, .unwind, .withNoWhere, .withWhere, .withOrder, .withSort, .withEnd, .withSkip, .update, .updateSet,
    .updated, .merged, .mergeAction, .ret, .retOrder, .retSort, .retSkip, .buildable, .callNoArgs, .callArgs, .callYield, .firstNoYield, .firstYield]

theorem all_ifaces (i : Iface) : i ∈ allIfaces := by cases i <;> decide

set_option maxHeartbeats 4000000 in
theorem follow_table (a b : Call) :
    (allIfaces.any fun i => match Iface.sig i a with | some j => (Iface.sig j b).isSome | none => false) = MayFollow a b := by
  cases a <;> cases b <;> rfl

/-- Calls that lead to a type: whether they are those of a standalone procedure call, and the calls. -/
def reach : Iface → Bool × List Call
  | .entry => (false, [])
  | .reading => (false, [.unwind (symbolicName .ascii 0 []), .as 0 0 []])
  | .readingNoWhere => (false, [m])
  | .readingWhere => (false, [m, w])
  | .unwind => (false, [.unwind (symbolicName .ascii 0 [])])
  | .withNoWhere => (false, [wi])
  | .withWhere => (false, [wi, w])
  | .withOrder => (false, [wi, .orderBy 0 (symbolicName .ascii 0 []), .desc])
  | .withSort => (false, [wi, .orderBy 0 (symbolicName .ascii 0 [])])
  | .withEnd => (false, [wi, .limit 0 0 0])
  | .withSkip => (false, [wi, .skip 0 0 0])
  | .update => (false, [m, .delete u false (.exprs [])])
  | .updateSet => (false, [.create u []])
  | .updated => (false, [m, .set u []])
  | .merged => (false, [.create u [], .on .onCreate, .actionSet 0 0 0 (fun _ => 0) []])
  | .mergeAction => (false, [.create u [], .on .onCreate])
  | .ret => (false, [r])
  | .retOrder => (false, [r, .orderItems []])
  | .retSort => (false, [r, .orderBy 0 (symbolicName .ascii 0 [])])
  | .retSkip => (false, [r, .skip 0 0 0])
  | .buildable => (false, [r, .limit 0 0 0])
  | .callNoArgs => (false, [m, pr])
  | .callArgs => (false, [m, pr, .args []])
  | .callYield => (false, [m, pr, .yield 0 []])
  | .firstNoYield => (true, [])
  | .firstYield => (true, [.yield 0 []])
where
  m : Call := .match_ 0 0 false []
  w : Call := .where_ (.atom (symbolicName .ascii 0 []))
  wi : Call := .with_ ⟨0, 0, 0, 0, 0⟩ false (.exprs [])
  r : Call := .returning 0 0 false (.exprs [])
  u : UpdKeys := ⟨0, 0, fun _ => 0⟩
  pr : Call := .callProc 0 0 0 0 0 []

theorem reach_typed (i : Iface) : Iface.typed (begins (reach i).1) (reach i).2 = some i := by cases i <;> rfl

/-- C89: Go's type checker admits the call `b` directly after the call `a`, in some chain of calls, if and only if `MayFollow`. -/
theorem C89_follow (a b : Call) :
    (∃ standalone pre post i, Iface.typed (begins standalone) (pre ++ a :: b :: post) = some i) ↔ MayFollow a b = true := by
  rw [← follow_table, List.any_eq_true]
  constructor
  · rintro ⟨st, pre, post, i, h⟩
    rw [Iface.typed_append, Option.bind_eq_some_iff] at h
    obtain ⟨j, _, h⟩ := h
    rw [Iface.typed, Option.bind_eq_some_iff] at h
    obtain ⟨k, hk, h⟩ := h
    rw [Iface.typed, Option.bind_eq_some_iff] at h
    obtain ⟨l, hl, _⟩ := h
    exact ⟨j, all_ifaces j, by simp [hk, hl]⟩
  · rintro ⟨j, _, h⟩
    cases hk : Iface.sig j a with
    | none => simp [hk] at h
    | some k =>
      simp only [hk, Option.isSome_iff_exists] at h
      obtain ⟨l, hl⟩ := h
      exact ⟨(reach j).1, (reach j).2, [], l, by simp [Iface.typed_append, reach_typed, Iface.typed, hk, hl]⟩

/-- C89: the calls with which a statement may begin. -/
theorem C89_begin (standalone : Bool) (c : Call) :
    (∃ post i, Iface.typed (begins standalone) (c :: post) = some i) ↔ MayBegin standalone c = true := by
  have h : (Iface.sig (begins standalone) c).isSome = MayBegin standalone c := by cases standalone <;> cases c <;> rfl
  rw [← h, Option.isSome_iff_exists]
  constructor
  · rintro ⟨post, i, h⟩
    rw [Iface.typed, Option.bind_eq_some_iff] at h
    exact ⟨h.choose, h.choose_spec.1⟩
  · rintro ⟨i, h⟩
    exact ⟨[], i, by simp [Iface.typed, h]⟩

/-- The type of what a call returns, by its place. -/
def ifaceAt (p : Place) : Call → Iface
  | .match_ .. | .callStmt .. => .readingNoWhere
  | .where_ .. | .and .. | .or .. => match p with | .with_ => .withWhere | _ => .readingWhere
  | .with_ .. => .withNoWhere
  | .returning .. => .ret
  | .orderItems .. => match p with | .with_ => .withWhere | _ => .retOrder
  | .orderBy .. | .andBy .. => match p with | .with_ => .withSort | _ => .retSort
  | .asc .. | .desc => match p with | .with_ => .withOrder | _ => .retOrder
  | .skip .. => match p with | .with_ => .withSkip | _ => .retSkip
  | .limit .. => match p with | .with_ => .withEnd | _ => .buildable
  | .delete .. => .update
  | .create .. | .merge .. => .updateSet
  | .set .. | .setNamed .. | .setLabels .. | .removeLabels .. | .remove .. => .updated
  | .on .. => .mergeAction
  | .actionSet .. => .merged
  | .unwind .. => .unwind
  | .as .. => .reading
  | .callProc .. => .callNoArgs
  | .args .. => match p with | .standalone => .firstNoYield | _ => .callArgs
  | .yield .. => match p with | .standalone => .firstYield | _ => .callYield

/-- Calls that a place can be behind. -/
def fitsAt (p : Place) (a : Call) : Bool :=
  match p with
  | .with_ => ofReturn a || (match a with | .with_ .. | .where_ .. | .and .. | .or .. => true | _ => false)
  | .return_ => ofReturn a || returns a
  | .standalone => ofCall a || (match a with | .where_ .. | .and .. | .or .. => true | _ => false)
  | .other => !ofReturn a && !returns a && (match a with | .with_ .. => false | _ => true)

set_option maxHeartbeats 8000000 in
theorem sig_at (p : Place) (a b : Call) (h : fitsAt p a = true) :
    Iface.sig (ifaceAt p a) b = cond (MayFollowAt p a b) (some (ifaceAt (placeAfter p b) b)) none ∧
      (MayFollowAt p a b = true → fitsAt (placeAfter p b) b = true) := by
  cases p <;> cases a <;> first | (cases h; done) | (cases b <;> exact ⟨rfl, fun h => by first | rfl | cases h⟩)

theorem typed_at (p : Place) (a : Call) (cs : List Call) (h : fitsAt p a = true) :
    (Iface.typed (ifaceAt p a) cs).isSome = admitsFrom p a cs := by
  induction cs generalizing p a with
  | nil => rfl
  | cons b cs ih =>
    obtain ⟨h1, h2⟩ := sig_at p a b h
    rw [Iface.typed, h1, admitsFrom]
    cases hm : MayFollowAt p a b with
    | false => rfl
    | true => rw [cond_true, Option.bind_some, ih _ _ (h2 hm), Bool.true_and]

/-- C89: Go's type checker admits a chain of calls if and only if it begins well and each call may follow the one before at its
place. -/
theorem C89_admits (standalone : Bool) (cs : List Call) : (∃ i, Iface.typed (begins standalone) cs = some i) ↔ Admits standalone cs = true := by
  rw [← Option.isSome_iff_exists]
  cases cs with
  | nil => simp [Iface.typed, Admits]
  | cons c cs =>
    have h1 : Iface.sig (begins standalone) c = cond (MayBegin standalone c)
        (some (ifaceAt (placeAfter (if standalone then .standalone else .other) c) c)) none := by cases standalone <;> cases c <;> rfl
    have h2 : MayBegin standalone c = true → fitsAt (placeAfter (if standalone then .standalone else .other) c) c = true := by
      cases standalone <;> cases c <;> exact fun h => by first | rfl | cases h
    rw [Iface.typed, h1, Admits]
    cases hm : MayBegin standalone c with
    | false => simp
    | true => rw [cond_true, Option.bind_some, typed_at _ _ _ (h2 hm), Bool.true_and]

/-- Is it a type after RETURN? -/
def isRet : Iface → Bool
  | .ret | .retOrder | .retSort | .retSkip | .buildable => true
  | _ => false

/-- Is it a type of a standalone call? -/
def isFirst : Iface → Bool
  | .firstNoYield | .firstYield => true
  | _ => false

set_option maxHeartbeats 4000000 in
theorem sig_types (i j : Iface) (c : Call) (h : Iface.sig i c = some j) :
    isRet j = (isRet i || returns c) ∧ isFirst j = (isFirst i && ofCall c) ∧
      j.builds = (isRet j || (isDelete c || makes c || assigns c) || isFirst j) ∧ (isRet i = true → ofReturn c = true) := by
  cases i <;> cases c <;> first | (cases h; done) | (cases h; exact ⟨rfl, rfl, rfl, fun h => by first | rfl | cases h⟩)

theorem typed_types (i j : Iface) (cs : List Call) (h : Iface.typed i cs = some j) :
    isRet j = (isRet i || cs.any returns) ∧ isFirst j = (isFirst i && cs.all ofCall) := by
  induction cs generalizing i with
  | nil => cases h; simp
  | cons c cs ih =>
    rw [Iface.typed, Option.bind_eq_some_iff] at h
    obtain ⟨k, hk, h⟩ := h
    obtain ⟨h1, h2, _⟩ := sig_types i k c hk
    obtain ⟨h3, h4⟩ := ih k h
    simp [h3, h4, h1, h2, Bool.or_assoc, Bool.and_assoc]

/-- C89: after RETURN come only its order, SKIP and LIMIT; so there is one RETURN at most, and no clause behind it. -/
theorem C89_return_last (standalone : Bool) (pre post : List Call) (r : Call) (i : Iface)
    (h : Iface.typed (begins standalone) (pre ++ r :: post) = some i) (hr : returns r = true) :
    (∀ c ∈ post, ofReturn c = true) ∧ ∀ c ∈ pre, returns c = false := by
  have key : ∀ (post : List Call) (i j : Iface), isRet i = true → Iface.typed i post = some j → ∀ c ∈ post, ofReturn c = true := by
    intro post
    induction post with
    | nil => simp
    | cons d post ih =>
      intro i j hi h c hc
      rw [Iface.typed, Option.bind_eq_some_iff] at h
      obtain ⟨k, hk, h⟩ := h
      obtain ⟨h1, _, _, h4⟩ := sig_types i k d hk
      rcases List.mem_cons.1 hc with rfl | hc
      · exact h4 hi
      · exact ih k j (by rw [h1, hi]; rfl) h c hc
  rw [Iface.typed_append, Option.bind_eq_some_iff] at h
  obtain ⟨j, hj, h⟩ := h
  rw [Iface.typed, Option.bind_eq_some_iff] at h
  obtain ⟨k, hk, h⟩ := h
  obtain ⟨h1, _, _, h4⟩ := sig_types j k r hk
  refine ⟨key post k i (by rw [h1, hr, Bool.or_true]) h, fun c hc => ?_⟩
  cases hc' : returns c with
  | false => rfl
  | true =>
    have hj' : isRet j = true := by
      rw [(typed_types _ _ _ hj).1, Bool.or_eq_true]
      exact Or.inr (List.any_eq_true.2 ⟨c, hc, hc'⟩)
    have := h4 hj'
    cases r <;> simp_all [returns, ofReturn]

/-- C89: `Build` can be called on what the calls return if and only if there is a RETURN among them, or the last one is an updating
call, or they are those of a standalone procedure call alone. -/
theorem C89_build (standalone : Bool) (cs : List Call) (i : Iface) (h : Iface.typed (begins standalone) cs = some i) :
    i.builds = true ↔
      (∃ c ∈ cs, returns c = true) ∨ (∃ pre c, cs = pre ++ [c] ∧ (isDelete c || makes c || assigns c) = true) ∨
        standalone = true ∧ ∀ c ∈ cs, ofCall c = true := by
  rcases List.eq_nil_or_concat cs with rfl | ⟨pre, c, rfl⟩
  · cases h
    cases standalone <;> simp [begins, Iface.builds]
  · rw [List.concat_eq_append] at h ⊢
    obtain ⟨h1, h2⟩ := typed_types _ _ _ h
    rw [Iface.typed_append, Option.bind_eq_some_iff] at h
    obtain ⟨j, hj, h⟩ := h
    rw [Iface.typed, Option.bind_eq_some_iff] at h
    obtain ⟨k, hk, h⟩ := h
    cases h
    obtain ⟨_, _, h3, _⟩ := sig_types _ _ _ hk
    have e1 : isRet (begins standalone) = false := by cases standalone <;> rfl
    have e2 : isFirst (begins standalone) = standalone := by cases standalone <;> rfl
    have e3 : (∃ pre' c', pre ++ [c] = pre' ++ [c'] ∧ (isDelete c' || makes c' || assigns c') = true) ↔ (isDelete c || makes c || assigns c) = true := by
      constructor
      · rintro ⟨pre', c', h, hc⟩
        obtain ⟨_, h⟩ := List.append_inj' h rfl
        cases h
        exact hc
      · intro h; exact ⟨pre, c, rfl, h⟩
    rw [e3, h3, h1, h2, e1, e2, Bool.false_or, Bool.or_eq_true, Bool.or_eq_true, Bool.and_eq_true, List.any_eq_true, List.all_eq_true, or_assoc]

namespace SampleFollow

def m : Call := .match_ 1 2 false []
def w : Call := .where_ (.atom (symbolicName .ascii 0 []))
def r : Call := .returning 3 4 false (.exprs [])
def un : Call := .unwind (symbolicName .ascii 0 [])
def az : Call := .as 5 6 c!"z"
def cr : Call := .create ⟨7, 8, fun _ => 9⟩ []

end SampleFollow

open SampleFollow in
example : Iface.typed (begins false) [m, w, un, az, cr, r, .skip 1 2 3, .limit 1 2 3] = some .buildable := rfl

open SampleFollow in
/-- WHERE cannot be repeated, MATCH cannot follow UNWIND or CREATE, LIMIT is not repeated and SKIP does not follow it. -/
example : MayFollow m w = true ∧ MayFollow w w = false ∧ MayFollow az m = false ∧ MayFollow az un = true ∧ MayFollow cr m = false ∧
    MayFollow (.limit 1 2 3) (.limit 1 2 3) = false ∧ MayFollow (.limit 1 2 3) (.skip 1 2 3) = false ∧ MayFollow (.skip 1 2 3) (.limit 1 2 3) = true := by decide

open SampleFollow in
example : Iface.builds .readingWhere = false ∧ Iface.typed (begins false) [m, w] = some .readingWhere ∧
    Iface.typed (begins true) [.args [], .yield 1 []] = some .firstYield ∧ Iface.builds .firstYield = true := by decide

open SampleFollow in
example : Admits false [m, w, un, az, cr, r, .skip 1 2 3, .limit 1 2 3] = true ∧ Admits true [.args [], .args [], .yield 1 [], w, m, r] = true ∧
    Admits false [m, .callProc 1 2 3 4 5 [], .args [], .args []] = false ∧ Admits false [m, w, .skip 1 2 3] = false ∧
    Admits false [r, .orderItems [], m] = false := by decide

end Verif
