import Verif.PropsWhere

/-
C63: chains of calls that compile can be built.
-/

namespace Verif
namespace Spec

variable (u : Unicode)

/-- A condition that can be used: no error, not nil. -/
def CleanCond (c : Cond) : Prop := c.toVal.err = none ∧ c.toVal.notNil = true

/-- A condition whose `And` and `Or` have something to start from: it is compound, or its container is not empty. -/
def extensible (c : Cond) : Bool := c.isCompound || c.recv.isSome

/-- Expressions, names of nodes, ... without errors. -/
def CleanArgs : Args → Prop
  | .exprs xs => ∀ x ∈ xs, x.err = none
  | .strings _ => True
  | .nameds xs => ∀ n ∈ xs, n.err = none ∧ n.sym.err = none

/-- What can be given to SET: expressions without errors that are not nil, where those that are not assignments themselves come in pairs. -/
def CleanSet (xs : List Val) : Prop :=
  (∀ x ∈ xs, x.err = none ∧ x.notNil = true) ∧ (xs.filter fun x => !x.isOperation).length % 2 = 0

/-- The arguments of a call are as they should be. -/
def CleanCall : Call → Prop
  | .match_ _ _ _ xs | .remove _ xs | .args xs => ∀ x ∈ xs, x.err = none
  | .create _ xs | .merge _ xs => xs ≠ [] ∧ ∀ x ∈ xs, x.err = none
  | .where_ c | .and _ c | .or _ c => CleanCond c
  | .with_ _ _ a | .delete _ _ a => CleanArgs a
  | .returning _ _ _ a => CleanArgs a ∧ a.vals u ≠ []
  | .set _ xs | .actionSet _ _ _ _ xs => CleanSet xs
  | .setNamed _ n x => n.err = none ∧ CleanSet [n.sym, x] ∧ CleanSet [n.req, x]
  | .setLabels _ _ _ _ _ n ls | .removeLabels _ _ _ _ _ n ls => n.err = none ∧ n.notNil = true ∧ ls ≠ []
  | .unwind x => x.err = none
  | .callStmt _ s => s.err = none ∧ s.returns = true
  | .callProc _ _ _ _ _ name => name ≠ []
  | .orderItems _ | .orderBy .. | .andBy .. | .asc _ | .desc | .skip .. | .limit .. | .on _ | .as .. | .yield .. => True

/-- What `And`, `Or`, `OnCreate` and `OnMatch` refer to: is there a condition of a MATCH or WITH to be extended, is the last clause a MERGE? -/
structure Pending where
  cond : Bool
  merge : Bool

/-- `And` and `Or` extend a condition, `OnCreate` and `OnMatch` follow a MERGE. -/
def Pending.allows (r : Pending) : Call → Bool
  | .and .. | .or .. => r.cond
  | .on _ => r.merge
  | _ => true

/-- The same after a call on an interface.  The condition of a procedure call cannot be extended, and no condition with an empty
container. -/
def Pending.next (r : Pending) (i : Iface) : Call → Pending
  | .where_ c => ⟨!(i == .callYield || i == .firstYield) && extensible c, false⟩
  | .and .. | .or .. | .orderItems _ | .orderBy .. | .andBy .. | .asc _ | .desc | .skip .. | .limit .. => ⟨r.cond, false⟩
  | .merge .. => ⟨false, true⟩
  | .on _ | .actionSet .. => ⟨false, r.merge⟩
  | _ => ⟨false, false⟩

/-- Every `And`, `Or`, `OnCreate` and `OnMatch` has something to refer to. -/
def Pending.all (r : Pending) (i : Iface) : List Call → Bool
  | [] => true
  | c :: cs => r.allows c && match i.sig c with | some j => (r.next i c).all j cs | none => true

/-- Every call has the property on the type it is called on. -/
def _root_.Verif.Iface.Each (P : Iface → Call → Prop) (i : Iface) : List Call → Prop
  | [] => True
  | c :: cs => P i c ∧ ∀ j, i.sig c = some j → j.Each P cs

end Spec
open Spec

variable {u : Unicode}

/-! ### Conditions -/

/-- A condition that makes no trouble in a clause: an error is forgotten with the condition, since the condition counts as nil. -/
def Cond.Mild (c : Cond) : Prop := c.toVal.notNil = true → c.toVal.err = none

theorem compoundCreate_mild (ks : Cond.Keys) (l r : Cond) (h : Op) :
    (Cond.compoundCreate ks l h r).Mild ∧ (Cond.compoundCreate ks l h r).isCompound = true := by
  rw [Cond.compoundCreate]
  split
  · exact ⟨by simp [Cond.Mild, Cond.bad, Cond.toVal], rfl⟩
  · exact ⟨by simp [Cond.Mild, Cond.toVal], rfl⟩

theorem combine_mild (ks : Cond.Keys) {c : Cond} (h : Op) (x : Cond) (hc : c.isCompound = true → c.Mild) :
    (Cond.combine ks c h x).Mild ∧ (Cond.combine ks c h x).isCompound = true := by
  cases c with
  | atom v => exact compoundCreate_mild ..
  | neg k kn c => exact compoundCreate_mild ..
  | compound k op conds isEmpty err nn hasCopy cp =>
    rw [Cond.combine, if_pos (show Cond.isCompound (.compound k op conds isEmpty err nn hasCopy cp) = true from rfl), Cond.add]
    split
    · exact ⟨by simp [Cond.Mild, Cond.wrapped, Cond.toVal], rfl⟩
    · by_cases hb : x.isCompound = true ∨ op = some h
      · rw [if_pos hb]
        exact ⟨by simpa [Cond.Mild, Cond.toVal] using hc rfl, rfl⟩
      · rw [if_neg hb]
        exact compoundCreate_mild ..

theorem recv_compound {c c' : Cond} (h : c.recv = some c') (hi : c.isCompound = false) : c'.isCompound = false := by
  cases c with
  | atom v =>
    simp only [Cond.recv, Option.map_eq_some_iff] at h
    obtain ⟨w, -, rfl⟩ := h
    rfl
  | neg k kn c =>
    simp only [Cond.recv] at h
    split at h
    · cases h
    · cases h; rfl
  | compound => cases hi

theorem combineOfGet_mild (ks : Cond.Keys) {c : Cond} (h : Op) (x : Cond) (hc : c.Mild) (he : extensible c = true) :
    ∃ y, combineOfGet ks (some c) h x = .ok y ∧ y.Mild ∧ extensible y = true := by
  cases hi : c.isCompound with
  | true =>
    have := combine_mild ks h x (fun _ => hc)
    exact ⟨_, by simp [combineOfGet, hi], this.1, by simp [extensible, this.2]⟩
  | false =>
    simp only [extensible, hi, Bool.false_or, Option.isSome_iff_exists] at he
    obtain ⟨c', h1⟩ := he
    have h2 := recv_compound h1 hi
    have := combine_mild ks (c := c') h x (fun h3 => by simp [h2] at h3)
    exact ⟨_, by simp [combineOfGet, hi, h1], this.1, by simp [extensible, this.2]⟩

theorem where_mild (kw : Key) (c : Option Cond) (h : ∀ x, c = some x → x.Mild) : errOf ((builtCondition c).map fun c => whereCreate kw c.toVal) = none := by
  cases c with
  | none => rfl
  | some c =>
    simp only [builtCondition]
    split
    · rename_i hn
      simp only [Bool.and_eq_true] at hn
      simp [errOf, whereCreate, h c rfl hn.1]
    · rfl

/-! ### Arguments that lead to no error -/

/-- The types of the builder of a WITH. -/
def Iface.isWith : Iface → Bool
  | .withNoWhere | .withWhere | .withOrder | .withSort | .withEnd | .withSkip => true
  | _ => false

/-- The types of the plain builder. -/
def Iface.isPlain : Iface → Bool
  | .entry | .reading | .readingNoWhere | .readingWhere | .update | .updateSet | .merged => true
  | _ => false

variable (u) in
/-- No expression or name has an error, and nothing named has one if that is looked at. -/
def TakenItems (i : Iface) (a : Args) : Prop := (∀ x ∈ a.vals u, x.err = none) ∧ (i.isPlain = true → a.namedErr = none)

variable (u) in
/-- The call makes no trouble on a builder with the interface. -/
def Taken (i : Iface) : Call → Prop
  | .where_ c => c.Mild ∧ (i = .readingNoWhere → c.toVal.err = none)
  | .and .. => True
  | .or _ c => i = .readingWhere → c.toVal.err = none
  | .with_ _ _ a | .delete _ _ a => TakenItems u i a
  | .returning _ _ _ a => i = .updated ∨ TakenItems u i a ∧ a.vals u ≠ []
  | .setNamed _ n x => if i.isWith then CleanSet [n.req, x] else CleanSet [n.sym, x] ∧ (i = .updated ∨ n.err = none)
  | c => CleanCall u c

theorem Taken.plain {i : Iface} (hi : i.isPlain = true) {c : Call} (h : Taken u i c) : Taken u .reading c := by
  have h1 : i.isWith = false := by cases i <;> simp_all [Iface.isPlain, Iface.isWith]
  have h2 : i ≠ .updated := by rintro rfl; cases hi
  cases c <;> simp only [Taken] at h ⊢ <;> try exact h
  case where_ => exact ⟨h.1, by simp⟩
  case or => simp
  case with_ => exact ⟨h.1, fun _ => h.2 hi⟩
  case delete => exact ⟨h.1, fun _ => h.2 hi⟩
  case returning => exact Or.inr ⟨⟨(h.resolve_left h2).1.1, fun _ => (h.resolve_left h2).1.2 hi⟩, (h.resolve_left h2).2⟩
  case setNamed =>
    simp only [h1, Bool.false_eq_true, if_false] at h
    exact ⟨h.1, Or.inr (h.2.resolve_left h2)⟩

theorem CleanArgs.ok {a : Args} (h : CleanArgs a) : a.namedErr = none ∧ ∀ x ∈ a.vals u, x.err = none := by
  cases a with
  | exprs xs => exact ⟨rfl, h⟩
  | strings xs =>
    refine ⟨rfl, ?_⟩
    intro x hx
    simp only [Args.vals, List.mem_map, List.mem_filter, decide_eq_true_eq] at hx
    obtain ⟨p, ⟨-, hp⟩, rfl⟩ := hx
    simp [symbolicName, hp, Val.mk']
  | nameds xs =>
    constructor
    · rw [Args.namedErr, firstErr_none_iff]
      intro e he
      simp only [List.mem_map] at he
      obtain ⟨n, hn, rfl⟩ := he
      exact (h n hn).1
    · intro x hx
      simp only [Args.vals, List.mem_map] at hx
      obtain ⟨n, hn, rfl⟩ := hx
      exact (h n hn).2

theorem clean_taken {c : Call} (h : CleanCall u c) (i : Iface) : Taken u i c := by
  cases c <;> simp only [Taken] <;> simp only [CleanCall] at h <;> try exact h
  case where_ c => exact ⟨fun _ => h.1, fun _ => h.1⟩
  case or => exact fun _ => h.1
  case with_ => exact ⟨(CleanArgs.ok h).2, fun _ => (CleanArgs.ok (u := u) h).1⟩
  case delete => exact ⟨(CleanArgs.ok h).2, fun _ => (CleanArgs.ok (u := u) h).1⟩
  case returning => exact Or.inr ⟨⟨(CleanArgs.ok h.1).2, fun _ => (CleanArgs.ok (u := u) h.1).1⟩, h.2⟩
  case setNamed =>
    split
    · exact h.2.2
    · exact ⟨h.2.1, Or.inr h.1⟩

/-! ### Builders in good order -/

/-- The clause will have no error, and is no MATCH. -/
def UpdBuilder.Fine (x : UpdBuilder) : Prop :=
  x.build.val.err = none ∧ x.build.isMatch = false ∧ ∀ k kp ps as, x = .merge k kp ps as → (patternCreate kp ps).err = none

structure CallB.Fine (c : CallB) : Prop where
  args : ∀ xs, c.args = some xs → errsOf xs = none
  yields : errOf c.yields = none
  cond : ∀ x, c.cond = some x → x.Mild

structure Base.Fine (b : Base) : Prop where
  err : b.err = none
  elems : ∀ c ∈ b.elems, c.val.err = none
  parts : ∀ p ∈ b.parts, p.err = none
  cond : ∀ c, b.omatch.cond = some c → c.Mild
  update : ∀ x, b.oupdate = some x → x.Fine
  call : ∀ c, b.ocall = some c → c.Fine

/-- The last clause is an updating one that is still open. -/
structure Base.Open (b : Base) : Prop where
  fine : b.Fine
  omatch : b.omatch.notNil = false
  update : b.oupdate.isSome = true
  call : b.ocall = none

theorem CallB.Fine.arguments {c : CallB} (h : c.Fine) : errOf c.arguments = none := by
  unfold CallB.arguments
  split
  · rfl
  · rfl
  · rename_i xs hx he
    simp [errOf, argumentsCreate, h.args _ he]

theorem CallB.Fine.build {c : CallB} (h : c.Fine) : ∃ v, c.build = .ok v ∧ v.val.err = none ∧ v.isMatch = false := by
  have h1 := h.arguments
  have h2 := where_mild c.kw c.cond h.cond
  have h3 : errOf ((builtCondition c.cond).map Cond.toVal) = none := by
    cases hc : c.cond with
    | none => rfl
    | some x =>
      simp only [builtCondition]
      split
      · rename_i hn
        simp only [Bool.and_eq_true] at hn
        simp [errOf, h.cond x hc hn.1]
      · rfl
  refine ⟨procedureCall c.kc c.name c.arguments c.yields ((builtCondition c.cond).map fun x => whereCreate c.kw x.toVal), ?_, ?_, ?_⟩
  · simp only [CallB.build, h.yields, h1, h3, firstErr]
    split <;> rfl
  · simp [procedureCall, h1, h2, h.yields, firstErr]
  · simp [procedureCall, h1, h2, h.yields, firstErr]

theorem MatchB.build_fine (m : MatchB) (h : ∀ c, m.cond = some c → c.Mild) : m.build.val.err = none := by
  simp [MatchB.build, matchCreate, where_mild m.kw m.cond h]

namespace Base.Fine

theorem start : Base.Fine {} := ⟨rfl, by simp, by simp, by simp, by simp, by simp⟩

theorem closeMatch {b : Base} (h : b.Fine) : b.closeMatch.Fine ∧ b.closeMatch.omatch.notNil = false := by
  rw [Base.closeMatch]
  split
  · refine ⟨⟨h.err, ?_, h.parts, by simp, h.update, h.call⟩, rfl⟩
    intro c hc
    simp only [List.mem_append, List.mem_singleton] at hc
    rcases hc with hc | rfl
    · exact h.elems c hc
    · exact MatchB.build_fine _ h.cond
  · rename_i hn
    exact ⟨h, by simpa using hn⟩

theorem closeCall {b : Base} (h : b.Fine) : b.closeCall.Fine ∧ b.closeCall.ocall = none ∧ b.closeCall.omatch = b.omatch ∧ b.closeCall.oupdate = b.oupdate := by
  rw [Base.closeCall.eq_def]
  cases hc : b.ocall with
  | none => exact ⟨h, hc, rfl, rfl⟩
  | some c =>
    obtain ⟨v, hv, he, -⟩ := (h.call c hc).build
    simp only [hv]
    refine ⟨⟨h.err, ?_, h.parts, h.cond, h.update, by simp⟩, by simp⟩
    intro c hc
    simp only [List.mem_append, List.mem_singleton] at hc
    rcases hc with hc | rfl
    · exact h.elems c hc
    · exact he

theorem closeUpdate {b : Base} (h : b.Fine) : b.closeUpdate.Fine ∧ b.closeUpdate.oupdate = none ∧ b.closeUpdate.omatch = b.omatch ∧ b.closeUpdate.ocall = b.ocall := by
  rw [Base.closeUpdate]
  cases hx : b.oupdate with
  | none => exact ⟨h, hx, rfl, rfl⟩
  | some x =>
    refine ⟨⟨h.err, ?_, h.parts, h.cond, by simp, h.call⟩, rfl, rfl, rfl⟩
    intro c hc
    simp only [List.mem_append, List.mem_singleton] at hc
    rcases hc with hc | rfl
    · exact h.elems c hc
    · exact (h.update x hx).1

theorem add {b : Base} (h : b.Fine) (c : Clause) (hc : c.val.err = none) : Base.Fine { b with elems := b.elems ++ [c] } :=
  ⟨h.err, fun x hx => by
    simp only [List.mem_append, List.mem_singleton] at hx
    rcases hx with hx | rfl
    · exact h.elems x hx
    · exact hc, h.parts, h.cond, h.update, h.call⟩

theorem withCall {b : Base} (h : b.Fine) (c : CallB) (hc : c.Fine) : Base.Fine { b with ocall := some c } :=
  ⟨h.err, h.elems, h.parts, h.cond, h.update, by rintro x ⟨⟩; exact hc⟩

theorem withUpdate {b : Base} (h : b.Fine) (x : UpdBuilder) (hx : x.Fine) : Base.Fine { b with oupdate := some x } :=
  ⟨h.err, h.elems, h.parts, h.cond, by rintro y ⟨⟩; exact hx, h.call⟩

theorem list {b : Base} (h : b.Fine) : ∃ cs, b.list = .ok cs ∧ ∀ c ∈ cs, c.val.err = none := by
  have h1 : ∀ c ∈ b.elems ++ (if b.omatch.notNil then [b.omatch.build] else []) ++ (match b.oupdate with | some x => [x.build] | none => []),
      c.val.err = none := by
    intro c hc
    simp only [List.mem_append] at hc
    rcases hc with (hc | hc) | hc
    · exact h.elems c hc
    · split at hc
      · simp only [List.mem_singleton] at hc
        subst hc
        exact MatchB.build_fine _ h.cond
      · cases hc
    · split at hc
      · rename_i x hx
        simp only [List.mem_singleton] at hc
        subst hc
        exact (h.update x hx).1
      · cases hc
  unfold Base.list
  cases hc : b.ocall with
  | none => exact ⟨_, rfl, h1⟩
  | some c =>
    obtain ⟨v, hv, he, -⟩ := (h.call c hc).build
    simp only [hv]
    refine ⟨_, rfl, ?_⟩
    intro x hx
    rw [List.mem_append, List.mem_singleton] at hx
    rcases hx with hx | rfl
    · exact h1 x hx
    · exact he

theorem addWith {b : Base} (h : b.Fine) (kp : Key) (w : Option Val) (hw : ∀ v, w = some v → v.err = none) : (b.addWith kp w).Fine := by
  rw [Base.addWith.eq_def, h.err]
  cases w with
  | none => exact h
  | some v =>
    obtain ⟨cs, hl, hcs⟩ := h.list
    simp only [hl]
    refine ⟨rfl, by simp, ?_, by simp, by simp, by simp⟩
    intro p hp
    simp only [List.mem_append, List.mem_singleton] at hp
    rcases hp with hp | rfl
    · exact h.parts p hp
    · have : firstErr (cs.map (·.val.err) ++ [v.err]) = none := by
        rw [firstErr_none_iff]
        intro e he
        simp only [List.mem_append, List.mem_map, List.mem_singleton] at he
        rcases he with ⟨c, hc, rfl⟩ | rfl
        · exact hcs c hc
        · exact hw v rfl
      simp [partCreate, this]

/-- Building, if something is returned or the list does not end with MATCH. -/
theorem buildImpl {b : Base} (h : b.Fine) (ret : Option Val) (hr : errOf ret = none) (cs : List Clause) (hl : b.list = .ok cs)
    (hm : ret = none → cs ≠ [] ∧ cs.getLast?.map (·.isMatch) ≠ some true) : ∃ s, b.buildImpl ret = .ok s ∧ s.err = none := by
  obtain ⟨cs', hl', hcs⟩ := h.list
  rw [hl] at hl'
  cases hl'
  have hs : (singlePart cs ret).err = none := by
    unfold singlePart
    split
    · rename_i h0; exact absurd h0.1 (hm h0.2).1
    · split
      · rename_i h0; exact absurd h0.1 (hm h0.2).2
      · have : firstErr (cs.map (·.val.err) ++ [errOf ret]) = none := by
          rw [firstErr_none_iff]
          intro e he
          simp only [List.mem_append, List.mem_map, List.mem_singleton] at he
          rcases he with ⟨c, hc, rfl⟩ | rfl
          · exact hcs c hc
          · exact hr
        simp [this, Stmt.err]
  simp only [Base.buildImpl, hl]
  split
  · exact ⟨_, rfl, hs⟩
  · have : firstErr (b.parts.map (·.err) ++ [(singlePart cs ret).err]) = none := by
      rw [firstErr_none_iff]
      intro e he
      simp only [List.mem_append, List.mem_map, List.mem_singleton] at he
      rcases he with ⟨c, hc, rfl⟩ | rfl
      · exact h.parts c hc
      · exact hs
    exact ⟨_, by rw [multiPart, this], rfl⟩

end Base.Fine

/-! ### Updating clauses -/

theorem expressionList_fine (k : Key) {xs : List Val} (h : ∀ x ∈ xs, x.err = none) : (expressionList k xs).err = none := by
  simp [expressionList, (errsOf_none_iff xs).2 h, Val.mk']

theorem done_fine (k kl : Key) (kw : Str) {xs : List Val} (h : ∀ x ∈ xs, x.err = none) : (UpdBuilder.done (updateClause k kl kw xs)).Fine := by
  refine ⟨?_, ?_, by simp⟩ <;> simp [UpdBuilder.build, updateClause, expressionList_fine kl h]

theorem pairUp_fine (ks : Nat → Key) (i : Nat) (xs : List Val) (h : ∀ x ∈ xs, x.err = none ∧ x.notNil = true) : ∀ x ∈ pairUp ks i xs, x.err = none := by
  fun_induction pairUp ks i xs with
  | case1 i a b rest ih =>
    intro x hx
    simp only [List.mem_cons] at hx
    rcases hx with rfl | hx
    · have ha := h a (by simp)
      have hb := h b (by simp)
      simp [operationCreate, errOf, ha.1, hb.1, nilErr, missing, ha.2, hb.2, firstErr, Val.mk']
    · exact ih (fun x hx => h x (by simp [hx])) x hx
  | case2 => simp

theorem prepareSet_fine (ks : Nat → Key) {xs : List Val} (h : CleanSet xs) : ∃ ys, prepareSet ks xs = .ok ys ∧ ∀ y ∈ ys, y.err = none := by
  refine ⟨_, by simp [prepareSet, h.2]; rfl, ?_⟩
  intro y hy
  simp only [List.mem_append, List.mem_filter] at hy
  rcases hy with hy | hy
  · exact (h.1 y hy.1).1
  · exact pairUp_fine ks 0 _ (fun x hx => h.1 x (List.mem_filter.mp hx).1) y hy

/-- What the clause is given. -/
def CleanUpd : UpdType → List Val → Prop
  | .create, xs | .merge, xs => xs ≠ [] ∧ ∀ x ∈ xs, x.err = none
  | .delete _, xs | .remove, xs => ∀ x ∈ xs, x.err = none
  | .set, xs => CleanSet xs

theorem CleanUpd.errs {t : UpdType} {xs : List Val} (h : CleanUpd t xs) : errsOf xs = none := by
  rw [errsOf_none_iff]
  cases t with
  | set => exact fun x hx => (h.1 x hx).1
  | create | merge => exact h.2
  | delete _ | remove => exact h

theorem updBuilder_fine {t : UpdType} (ks : UpdKeys) {xs : List Val} (h : CleanUpd t xs) :
    ∃ x, updBuilder t ks xs = .ok x ∧ x.Fine ∧ (t = .merge → ∃ k kp ps as, x = .merge k kp ps as) := by
  cases t with
  | create =>
    cases xs with
    | nil => exact absurd rfl h.1
    | cons p ps =>
      have hp : errsOf [p] = none := (errsOf_none_iff _).2 fun x hx => by simp at hx; subst hx; exact h.2 x (by simp)
      refine ⟨_, rfl, ⟨?_, ?_, by simp⟩, by simp⟩ <;> simp [UpdBuilder.build, createClause, patternCreate, hp]
  | merge =>
    cases xs with
    | nil => exact absurd rfl h.1
    | cons p ps =>
      have hp : errsOf [p] = none := (errsOf_none_iff _).2 fun x hx => by simp at hx; subst hx; exact h.2 x (by simp)
      refine ⟨_, rfl, ⟨?_, ?_, ?_⟩, fun _ => ⟨_, _, _, _, rfl⟩⟩
      · simp [UpdBuilder.build, mergeClause, patternCreate, hp]
      · simp [UpdBuilder.build, mergeClause, patternCreate, hp]
      · rintro _ _ _ _ ⟨⟩; simp [patternCreate, hp]
  | delete d => exact ⟨_, rfl, done_fine _ _ _ h, by simp⟩
  | remove => exact ⟨_, rfl, done_fine _ _ _ h, by simp⟩
  | set =>
    obtain ⟨ys, h1, h2⟩ := prepareSet_fine ks.ks h
    exact ⟨_, by simp [updBuilder, h1]; rfl, done_fine _ _ _ h2, by simp⟩

theorem mergeClause_fine (k kp : Key) (ps as : List Val) (h : (patternCreate kp ps).err = none) : (UpdBuilder.merge k kp ps as).Fine := by
  refine ⟨?_, ?_, ?_⟩
  · simp [UpdBuilder.build, mergeClause, h]
  · simp [UpdBuilder.build, mergeClause, h]
  · rintro _ _ _ _ ⟨⟩; exact h

/-! ### The invariant -/

def Iface.isReading : Iface → Bool
  | .entry | .reading | .readingNoWhere | .readingWhere => true
  | _ => false

structure UpdB.Fine (x : UpdB) : Prop where
  err : x.err = none
  parts : ∃ b c, x.base = some b ∧ x.builder = some c ∧ b.Fine ∧ c.Fine

structure RetB.Fine (x : RetB) : Prop where
  err : x.err = none
  base : ∃ b, x.base = some b ∧ b.Fine
  items : x.items ≠ []

structure WithB.Fine (w : WithB) : Prop where
  base : ∃ b, w.base = some b ∧ b.Fine
  cond : ∀ c, w.cond = some c → c.Mild

/-- What a builder looks like if its type is the interface. -/
def Iface.Holds (i : Iface) (r : Pending) : B → Prop
  | .base b =>
    (i.isReading = true ∧ b.Fine ∧ (r.cond = true → ∃ c, b.omatch.cond = some c ∧ extensible c = true)) ∨
    ((i = .update ∨ i = .updateSet ∨ i = .merged) ∧ b.Open ∧ (r.merge = true → ∃ k kp ps as, b.oupdate = some (.merge k kp ps as)))
  | .with_ w => i.isWith = true ∧ w.Fine ∧ (r.cond = true → ∃ c, w.cond = some c ∧ extensible c = true)
  | .ret x => (i = .ret ∨ i = .retOrder ∨ i = .retSort ∨ i = .retSkip ∨ i = .buildable) ∧ x.Fine
  | .upd x => (i = .updated ∨ i = .ret ∨ i = .retOrder ∨ i = .retSort ∨ i = .retSkip ∨ i = .buildable) ∧ x.Fine
  | .unwind x => i = .unwind ∧ ∃ b v, x.base = some b ∧ x.x = some v ∧ b.Fine ∧ v.err = none
  | .inCall x => (i = .callNoArgs ∨ i = .callArgs ∨ i = .callYield) ∧ ∃ b c, x.base = some b ∧ x.call = some c ∧ b.Fine ∧ c.Fine
  | .standalone c n => (i = .firstNoYield ∨ i = .firstYield) ∧ n = true ∧ c.Fine
  | .action a => i = .mergeAction ∧ a.err = none ∧ ∃ b, a.base = some b ∧ b.Open ∧ ∃ k kp ps as, b.oupdate = some (.merge k kp ps as)

/-! ### Calls on the builder -/

namespace Base.Fine

theorem update' {b : Base} (h : b.Fine) {t : UpdType} (ks : UpdKeys) {xs : List Val} (hx : CleanUpd t xs) :
    (b.update t ks xs).Open ∧ (t = .merge → ∃ k kp ps as, (b.update t ks xs).oupdate = some (.merge k kp ps as)) := by
  obtain ⟨x, h1, h2, h3⟩ := updBuilder_fine ks hx
  have hf := h.closeMatch
  have hc := hf.1.closeCall
  have hu := hc.1.closeUpdate
  simp only [Base.update, h1]
  refine ⟨⟨hu.1.withUpdate x h2, ?_, rfl, ?_⟩, fun ht => ?_⟩
  · simp only [hu.2.2.1, hc.2.2.1, hf.2]
  · simp only [hu.2.2.2, hc.2.1]
  · obtain ⟨k, kp, ps, as, rfl⟩ := h3 ht
    exact ⟨_, _, _, _, rfl⟩

theorem openUpdate {b : Base} (h : b.Fine) {t : UpdType} (ks : UpdKeys) {a : Args} (ha : a.namedErr = none) (hx : CleanUpd t (a.vals u)) :
    (b.openUpdate u t ks a).Open ∧ (t = .merge → ∃ k kp ps as, (b.openUpdate u t ks a).oupdate = some (.merge k kp ps as)) := by
  simp only [Base.openUpdate, h.err, ha, hx.errs, firstErr]
  exact h.update' ks hx

theorem updB {b : Base} (h : b.Fine) {t : UpdType} (ks : UpdKeys) {xs : List Val} (hx : CleanUpd t xs) : (b.updB t ks xs).Fine := by
  obtain ⟨x, h1, h2, -⟩ := updBuilder_fine ks hx
  simp only [Base.updB, h.err, hx.errs, firstErr, h1]
  exact ⟨rfl, b, x, rfl, rfl, h, h2⟩

theorem with_ {b : Base} (h : b.Fine) (ks : WithKeys) (d : Bool) {a : Args} (ha : TakenItems u .reading a) : (b.with_ u ks d a).Fine := by
  have h1 := ha.2 rfl
  have h2 := ha.1
  simp only [Base.with_, h.err, h1, (errsOf_none_iff _).2 h2, firstErr]
  exact ⟨⟨b, rfl, h⟩, by simp⟩

theorem returning {b : Base} (h : b.Fine) (k ko : Key) (d : Bool) {a : Args} (ha : TakenItems u .reading a) (hn : a.vals u ≠ []) : (b.returning u k ko d a).Fine := by
  have h1 := ha.2 rfl
  have h2 := ha.1
  simp only [Base.returning, h.err, h1, (errsOf_none_iff _).2 h2, firstErr]
  exact ⟨rfl, ⟨b, rfl, h⟩, hn⟩

theorem set {b : Base} (h : b.Fine) (ks : UpdKeys) {xs : List Val} (hx : CleanSet xs) : ∃ x, b.set ks xs = .upd x ∧ x.Fine := by
  have : errsOf xs = none := CleanUpd.errs (t := .set) hx
  exact ⟨b.closeUpdate.updB .set ks xs, by simp only [Base.set, h.err, this, firstErr], h.closeUpdate.1.updB ks (t := .set) hx⟩

end Base.Fine

/-- The labels. -/
theorem labelOperation_fine (g : Str) (ko kl : Key) (kls : Nat → Key) (o : Op) {n : NodeV} {ls : List Str} (h1 : n.err = none) (h2 : n.notNil = true)
    (h3 : ls ≠ []) : let v := labelOperation u g ko kl kls o n ls; v.err = none ∧ v.notNil = true ∧ v.isOperation = true := by
  simp [labelOperation, h1, h2, h3, Val.mk', Val.isOperation]

theorem labels_clean {v : Val} (h : v.err = none ∧ v.notNil = true ∧ v.isOperation = true) : CleanSet [v] := by
  refine ⟨by simp [h.1, h.2.1], by simp [h.2.2]⟩

/-- Calls on a plain builder that give an updating clause or a result. -/
theorem common_step {b : Base} (h : b.Fine) (c : Call) (hc : Taken u .reading c) (i j : Iface) (r : Pending)
    (hs : (Iface.resultSig c).or ((Iface.updateSig c).or (Iface.setSig c)) = some j) :
    ∃ b', execBase u b c = .ok b' ∧ j.Holds (r.next i c) b' := by
  cases c <;> simp [Iface.resultSig, Iface.updateSig, Iface.setSig] at hs <;> subst hs
  case with_ ks d a => exact ⟨_, rfl, rfl, h.with_ ks d hc, by simp [Pending.next]⟩
  case returning k ko d a => exact ⟨_, rfl, Or.inl rfl, h.returning k ko d (hc.resolve_left (by simp)).1 (hc.resolve_left (by simp)).2⟩
  case delete ks d a =>
    exact ⟨_, rfl, Or.inr ⟨Or.inl rfl, (h.openUpdate ks (hc.2 rfl) (t := .delete d) hc.1).1, by simp [Pending.next]⟩⟩
  case create ks ps => exact ⟨_, rfl, Or.inr ⟨Or.inr (Or.inl rfl), (h.openUpdate (a := .exprs ps) ks rfl (t := .create) hc).1, by simp [Pending.next]⟩⟩
  case merge ks ps =>
    have := h.openUpdate (u := u) (a := .exprs ps) ks rfl (t := .merge) hc
    exact ⟨_, rfl, Or.inr ⟨Or.inr (Or.inl rfl), this.1, fun _ => this.2 rfl⟩⟩
  case set ks xs =>
    obtain ⟨x, h1, h2⟩ := h.set ks hc
    exact ⟨.upd x, by simp only [execBase, h1], Or.inl rfl, h2⟩
  case setNamed ks n x =>
    replace hc : CleanSet [n.sym, x] ∧ (Iface.reading = .updated ∨ n.err = none) := hc
    obtain ⟨y, h1, h2⟩ := h.set ks hc.1
    refine ⟨.upd y, ?_, Or.inl rfl, h2⟩
    have he : x.err = none := (hc.1.1 x (by simp)).1
    simp only [execBase, Base.setNamed, h.err, hc.2.resolve_left (by simp), he, firstErr, h1]
  case setLabels ks g ko kl kls n ls =>
    refine ⟨.upd (b.updB .set ks _), by simp only [execBase, Base.update2, h.err, hc.1, firstErr]; rfl, Or.inl rfl, h.updB ks (t := .set) ?_⟩
    exact labels_clean (labelOperation_fine g ko kl kls .setLabel hc.1 hc.2.1 hc.2.2)
  case removeLabels ks g ko kl kls n ls =>
    refine ⟨.upd (b.updB .remove ks _), by simp only [execBase, Base.update2, h.err, hc.1, firstErr]; rfl, Or.inl rfl, h.updB ks (t := .remove) ?_⟩
    intro x hx
    simp only [List.mem_singleton] at hx
    subst hx
    exact (labelOperation_fine g ko kl kls .removeLabel hc.1 hc.2.1 hc.2.2).1
  case remove ks xs =>
    exact ⟨.upd (b.updB .remove ks xs), by simp only [execBase, Base.update2, h.err, (errsOf_none_iff _).2 hc, firstErr], Or.inl rfl, h.updB ks (t := .remove) hc⟩

/-- Calls on a plain builder that are allowed for a reading. -/
theorem reading_step {b : Base} (h : b.Fine) (c : Call) (hc : Taken u .reading c) (i j : Iface) (r : Pending)
    (hs : (Iface.readingSig c).or (Iface.matchSig c) = some j) :
    ∃ b', execBase u b c = .ok b' ∧ j.Holds (r.next i c) b' := by
  by_cases h0 : ∃ j', (Iface.resultSig c).or ((Iface.updateSig c).or (Iface.setSig c)) = some j'
  · obtain ⟨j', hj⟩ := h0
    have : j = j' := by
      cases c <;> simp [Iface.resultSig, Iface.updateSig, Iface.setSig] at hj <;> subst hj <;>
        simp [Iface.readingSig, Iface.resultSig, Iface.updateSig, Iface.setSig] at hs <;> exact hs.symm
    subst this
    exact common_step h c hc i j r hj
  · cases c <;> simp [Iface.readingSig, Iface.matchSig, Iface.resultSig, Iface.updateSig, Iface.setSig] at hs h0 <;> subst hs
    case match_ k kw o ps =>
      refine ⟨_, rfl, Or.inl ⟨rfl, ?_, by simp [Pending.next]⟩⟩
      simp only [Base.match_, h.err, (errsOf_none_iff _).2 hc, firstErr]
      have hf := h.closeMatch.1.closeCall.1
      exact ⟨hf.err, hf.elems, hf.parts, by simp, hf.update, hf.call⟩
    case unwind x =>
      refine ⟨_, rfl, rfl, b.closeMatch, x, ?_, ?_, h.closeMatch.1, hc⟩ <;> simp [Base.unwind, h.err, show x.err = none from hc, firstErr]
    case callStmt k s =>
      refine ⟨_, rfl, Or.inl ⟨rfl, ?_, by simp [Pending.next]⟩⟩
      have hv : (subqueryCall k s).val.err = none := by simp [subqueryCall, hc.1, hc.2]
      simp only [Base.callStmt, h.err, hc.1, firstErr, hv]
      exact (h.closeCall.1.closeMatch.1.closeUpdate.1).add _ hv
    case callProc kc ka kw k kn name =>
      obtain ⟨p, hp⟩ : ∃ p, procName k kn name = .ok p := by
        match name, hc with
        | [p], _ => exact ⟨_, rfl⟩
        | p :: q :: ps, _ => exact ⟨_, rfl⟩
        | [], hc => exact absurd rfl hc
      have hcf : CallB.Fine { kc := kc, ka := ka, kw := kw, standalone := false, name := p } := ⟨by simp, rfl, by simp⟩
      refine ⟨.inCall _, by simp only [execBase, Base.callProc, h.err, hp, Outcome.map]; rfl, Or.inl rfl, _, _, rfl, rfl, ?_, hcf⟩
      exact h.closeMatch.1.closeCall.1.withCall _ hcf

/-- A call on any builder. -/
theorem WithB.Fine.next {w : WithB} (h : w.Fine) : ∃ b, w.next = .ok b ∧ b.Fine := by
  obtain ⟨b, hb, hf⟩ := h.base
  refine ⟨_, by simp only [WithB.next, hb]; rfl, hf.addWith _ _ ?_⟩
  intro v hv
  unfold withCreate at hv
  split at hv
  · cases hv
  · cases hv; rfl

theorem UpdB.Fine.next {x : UpdB} (h : x.Fine) : ∃ b c, x.next = .ok b ∧ b.Fine ∧ b.omatch.notNil = false ∧ c ∈ b.elems.getLast? ∧ c.isMatch = false := by
  obtain ⟨b, c, hb, hc, hf, hu⟩ := h.parts
  refine ⟨b.addClause c.build, c.build, by simp only [UpdB.next, hb, hc], hf.closeMatch.1.add _ hu.1, hf.closeMatch.2, by simp [Base.addClause], hu.2.1⟩

theorem exprs_taken {i : Iface} {a : Args} (h : TakenItems u i a) : TakenItems u .reading (.exprs (a.vals u)) := ⟨h.1, fun _ => rfl⟩

theorem fine_step {i j : Iface} {r : Pending} {b : B} (h : i.Holds r b) (c : Call) (hc : Taken u i c) (ha : r.allows c = true)
    (hs : i.sig c = some j) : ∃ b', exec u b c = .ok b' ∧ j.Holds (r.next i c) b' := by
  cases b with
  | base b =>
    rcases h with ⟨hi, hf, hg⟩ | ⟨hi, ho, hm⟩
    · by_cases hr : (Iface.readingSig c).or (Iface.matchSig c) = some j
      · exact reading_step hf c (hc.plain (by cases i <;> simp_all [Iface.isReading, Iface.isPlain])) i j r hr
      · cases i <;> simp only [Iface.isReading, Bool.false_eq_true] at hi <;> cases c <;>
          simp [Iface.sig, Iface.readingSig, Iface.matchSig, Iface.resultSig, Iface.updateSig, Iface.setSig] at hs hr <;> (try exact absurd hs hr) <;> subst hs
        case where_ c =>
          refine ⟨.base _, rfl, Or.inl ⟨rfl, ?_, ?_⟩⟩
          · simp only [Base.where_, hf.err, hc.2 rfl, firstErr]
            exact ⟨rfl, hf.elems, hf.parts, by rintro x ⟨⟩; exact hc.1, hf.update, hf.call⟩
          · simp only [Base.where_, hf.err, hc.2 rfl, firstErr, Pending.next, Bool.and_eq_true]
            exact fun h => ⟨c, rfl, h.2⟩
        case and ks c =>
          obtain ⟨x, hx, he⟩ := hg ha
          obtain ⟨y, h1, h2, h3⟩ := combineOfGet_mild ks .and c (hf.cond x hx) he
          refine ⟨.base _, by simp only [exec, execBase, Base.and, hf.err, hx, h1, Outcome.map]; rfl, Or.inl ⟨rfl, ?_, fun _ => ⟨y, rfl, h3⟩⟩⟩
          exact ⟨rfl, hf.elems, hf.parts, by rintro x ⟨⟩; exact h2, hf.update, hf.call⟩
        case or ks c =>
          obtain ⟨x, hx, he⟩ := hg ha
          obtain ⟨y, h1, h2, h3⟩ := combineOfGet_mild ks .or c (hf.cond x hx) he
          refine ⟨.base _, by simp only [exec, execBase, Base.or, hf.err, hx, h1, Outcome.map, hc rfl, firstErr]; rfl, Or.inl ⟨rfl, ?_, fun _ => ⟨y, rfl, h3⟩⟩⟩
          exact ⟨rfl, hf.elems, hf.parts, by rintro x ⟨⟩; exact h2, hf.update, hf.call⟩
    · by_cases hr : (Iface.resultSig c).or ((Iface.updateSig c).or (Iface.setSig c)) = some j
      · exact common_step ho.fine c (hc.plain (by rcases hi with rfl | rfl | rfl <;> rfl)) i j r hr
      · have : ∃ t, c = .on t ∧ j = .mergeAction := by
          rcases hi with rfl | rfl | rfl <;> cases c <;>
            simp [Iface.sig, Iface.resultSig, Iface.updateSig, Iface.setSig] at hs hr <;> first | exact absurd hs hr | simp [hs]
        obtain ⟨t, rfl, rfl⟩ := this
        obtain ⟨k, kp, ps, as, hu⟩ := hm ha
        refine ⟨.action _, by simp only [exec, execBase, Base.on, ho.fine.err, hu]; rfl, rfl, rfl, b, rfl, ho, k, kp, ps, as, hu⟩
  | with_ w =>
    obtain ⟨hi, hf, hg⟩ := h
    by_cases hr : (Iface.readingSig c).or (Iface.matchSig c) = some j
    · obtain ⟨b, hb, hbf⟩ := hf.next
      cases c
      case with_ ks d a =>
        have := reading_step (u := u) hbf (.with_ ks d (.exprs (a.vals u))) (exprs_taken hc) i j r hr
        simp only [exec, execWith, hb, Outcome.bind]; exact this
      case returning k ko d a =>
        have hc := hc.resolve_left (by rintro rfl; cases hi)
        have := reading_step (u := u) hbf (.returning k ko d (.exprs (a.vals u))) (Or.inr ⟨exprs_taken hc.1, hc.2⟩) i j r hr
        simp only [exec, execWith, hb, Outcome.bind]; exact this
      case delete ks d a =>
        have := reading_step (u := u) hbf (.delete ks d (.exprs (a.vals u))) (exprs_taken hc) i j r hr
        simp only [exec, execWith, hb, Outcome.bind]; exact this
      case setNamed ks n x =>
        simp only [Taken, hi, if_true] at hc
        have := reading_step (u := u) hbf (.set ks [n.req, x]) hc i j r hr
        simp only [exec, execWith, hb, Outcome.bind]; exact this
      all_goals first
        | (simp [Iface.readingSig, Iface.matchSig, Iface.resultSig, Iface.updateSig, Iface.setSig] at hr; done)
        | (have := reading_step hbf _ hc i j r hr
           simp only [exec, execWith, hb, Outcome.bind]; exact this)
    · have hj : j.isWith = true := by
        cases i <;> simp only [Iface.isWith, Bool.false_eq_true] at hi <;> cases c <;>
          simp [Iface.sig, Iface.readingSig, Iface.matchSig, Iface.resultSig, Iface.updateSig, Iface.setSig, Iface.withNumSig, Iface.withOrderSig] at hs hr <;>
          first | exact absurd hs hr | (subst hs; rfl)
      have hmod : Iface.modifies c = true := by
        cases i <;> simp only [Iface.isWith, Bool.false_eq_true] at hi <;> cases c <;>
          simp [Iface.sig, Iface.readingSig, Iface.matchSig, Iface.resultSig, Iface.updateSig, Iface.setSig, Iface.withNumSig, Iface.withOrderSig] at hs hr <;>
          first | exact absurd hs hr | rfl
      cases c <;> simp only [Iface.modifies, Bool.false_eq_true] at hmod
      case where_ c =>
        refine ⟨_, rfl, hj, ⟨hf.base, by rintro x ⟨⟩; exact hc.1⟩, ?_⟩
        simp only [Pending.next, Bool.and_eq_true]
        exact fun h => ⟨c, rfl, h.2⟩
      case and ks c =>
        obtain ⟨x, hx, he⟩ := hg ha
        obtain ⟨y, h1, h2, h3⟩ := combineOfGet_mild ks .and c (hf.cond x hx) he
        exact ⟨.with_ { w with cond := some y }, by simp only [exec, execWith, hx, h1, Outcome.map], hj, ⟨hf.base, by rintro x ⟨⟩; exact h2⟩, fun _ => ⟨y, rfl, h3⟩⟩
      case or ks c =>
        obtain ⟨x, hx, he⟩ := hg ha
        obtain ⟨y, h1, h2, h3⟩ := combineOfGet_mild ks .or c (hf.cond x hx) he
        exact ⟨.with_ { w with cond := some y }, by simp only [exec, execWith, hx, h1, Outcome.map], hj, ⟨hf.base, by rintro x ⟨⟩; exact h2⟩, fun _ => ⟨y, rfl, h3⟩⟩
      all_goals exact ⟨_, rfl, hj, ⟨hf.base, hf.cond⟩, hg⟩
  | ret x =>
    obtain ⟨hi, hf⟩ := h
    rcases hi with rfl | rfl | rfl | rfl | rfl <;> cases c <;> simp [Iface.sig, Iface.retNumSig] at hs <;> subst hs <;>
      exact ⟨_, rfl, by simp, ⟨hf.err, hf.base, hf.items⟩⟩
  | upd x =>
    obtain ⟨hi, hf⟩ := h
    by_cases hu : i = .updated
    · subst hu
      obtain ⟨b, -, hb, hbf, -, -, -⟩ := hf.next
      cases c <;> simp [Iface.sig, Iface.resultSig, Iface.updateSig, Iface.setSig] at hs <;> subst hs
      case with_ ks d a =>
        exact ⟨.with_ _, by simp only [exec, execUpd, hb, Outcome.map], rfl, hbf.with_ ks d (exprs_taken hc), by simp [Pending.next]⟩
      case returning k ko d a =>
        refine ⟨_, rfl, Or.inr (Or.inl rfl), ?_⟩
        split
        · exact ⟨hf.err, hf.parts⟩
        · exact ⟨hf.err, hf.parts⟩
      case delete ks d a =>
        exact ⟨.base _, by simp only [exec, execUpd, hb, Outcome.map], Or.inr ⟨Or.inl rfl, (hbf.update' ks (t := .delete d) hc.1).1, by simp [Pending.next]⟩⟩
      case create ks ps =>
        exact ⟨.base _, by simp only [exec, execUpd, hb, Outcome.map]; rfl, Or.inr ⟨Or.inr (Or.inl rfl), (hbf.openUpdate (a := .exprs ps) ks rfl (t := .create) hc).1, by simp [Pending.next]⟩⟩
      case merge ks ps =>
        have := hbf.openUpdate (u := u) (a := .exprs ps) ks rfl (t := .merge) hc
        exact ⟨.base _, by simp only [exec, execUpd, hb, Outcome.map], Or.inr ⟨Or.inr (Or.inl rfl), this.1, fun _ => this.2 rfl⟩⟩
      case set ks xs => exact ⟨.upd _, by simp only [exec, execUpd, hb, Outcome.map], Or.inl rfl, hbf.updB ks (t := .set) hc⟩
      case setNamed ks n x => exact ⟨.upd _, by simp only [exec, execUpd, hb, Outcome.map], Or.inl rfl, hbf.updB ks (t := .set) (show CleanSet [n.sym, x] ∧ _ from hc).1⟩
      case setLabels ks g ko kl kls n ls =>
        exact ⟨.upd _, by simp only [exec, execUpd, hb, Outcome.map]; rfl, Or.inl rfl, hbf.updB ks (t := .set)
          (labels_clean (labelOperation_fine g ko kl kls .setLabel hc.1 hc.2.1 hc.2.2))⟩
      case removeLabels ks g ko kl kls n ls =>
        refine ⟨.upd _, by simp only [exec, execUpd, hb, Outcome.map, hf.err]; rfl, Or.inl rfl, hbf.updB ks (t := .remove) ?_⟩
        intro x hx
        simp only [List.mem_singleton] at hx
        subst hx
        exact (labelOperation_fine g ko kl kls .setLabel hc.1 hc.2.1 hc.2.2).1
      case remove ks xs => exact ⟨.upd _, by simp only [exec, execUpd, hb, Outcome.map], Or.inl rfl, hbf.updB ks (t := .remove) hc⟩
    · rcases hi.resolve_left hu with rfl | rfl | rfl | rfl | rfl <;> cases c <;> simp [Iface.sig, Iface.retNumSig] at hs <;> subst hs <;>
        exact ⟨_, rfl, by simp, ⟨hf.err, hf.parts⟩⟩
  | unwind x =>
    obtain ⟨rfl, b, v, hb, hx, hf, hv⟩ := h
    cases c <;> simp [Iface.sig] at hs
    subst hs
    refine ⟨.base _, by simp only [exec, execUnwind, hb, hx]; rfl, Or.inl ⟨rfl, hf.add _ ?_, by simp [Pending.next]⟩⟩
    simp [unwindCreate, hv]
  | inCall x =>
    obtain ⟨hi, b, cb, hb, hx, hf, hcf⟩ := h
    have hn : x.next = .ok { b with ocall := some cb } := by simp only [InCallB.next, hb, hx]
    have hnf := hf.withCall cb hcf
    by_cases hr : (∃ xs, c = .args xs) ∨ (∃ ky xs, c = .yield ky xs) ∨ ∃ w, c = .where_ w
    · rcases hr with ⟨xs, rfl⟩ | ⟨ky, xs, rfl⟩ | ⟨w, rfl⟩
      · have : j = .callArgs := by
          rcases hi with rfl | rfl | rfl <;> simp [Iface.sig, Iface.resultSig] at hs
          exact hs.symm
        subst this
        refine ⟨_, rfl, Or.inr (Or.inl rfl), b, { cb with args := some xs }, hb, by simp only [hx, Option.map_some], hf, ?_⟩
        exact ⟨by rintro _ ⟨⟩; exact (errsOf_none_iff _).2 hc, hcf.yields, hcf.cond⟩
      · have : j = .callYield := by
          rcases hi with rfl | rfl | rfl <;> simp [Iface.sig, Iface.resultSig] at hs <;> exact hs.symm
        subst this
        refine ⟨_, rfl, Or.inr (Or.inr rfl), b, { cb with yields := yieldItems ky xs }, hb, by simp only [hx, Option.map_some], hf, ?_⟩
        refine ⟨hcf.args, ?_, hcf.cond⟩
        simp only [yieldItems]
        split <;> rfl
      · rcases hi with rfl | rfl | rfl <;> simp [Iface.sig, Iface.resultSig] at hs
        subst hs
        refine ⟨.base _, by simp only [exec, execInCall, InCallB.next, hb, hx, Option.map_some, Outcome.map]; rfl, Or.inl ⟨rfl, ?_, by simp [Pending.next]⟩⟩
        exact hf.withCall _ ⟨hcf.args, hcf.yields, by rintro _ ⟨⟩; exact hc.1⟩
    · have hr' : (Iface.readingSig c).or (Iface.matchSig c) = some j := by
        rcases hi with rfl | rfl | rfl <;> cases c <;> simp [Iface.sig, Iface.resultSig] at hs hr <;>
          simp [Iface.readingSig, Iface.resultSig, Iface.updateSig, Iface.setSig, hs]
      have hc' : (∃ k ko d a, c = .returning k ko d a) ∨ (∃ ks d a, c = .with_ ks d a) ∨ ∃ k s, c = .callStmt k s := by
        rcases hi with rfl | rfl | rfl <;> cases c <;> simp [Iface.sig, Iface.resultSig] at hs hr <;> simp
      rcases hc' with ⟨k, ko, d, a, rfl⟩ | ⟨ks, d, a, rfl⟩ | ⟨k, s, rfl⟩
      · have := reading_step (u := u) hnf (.returning k ko d (.exprs (a.vals u))) (Or.inr (by
          have hc := hc.resolve_left (by rintro rfl; simp at hi)
          exact ⟨exprs_taken hc.1, hc.2⟩)) i j r hr'
        simp only [exec, execInCall, hn, Outcome.bind]; exact this
      · have := reading_step (u := u) hnf (.with_ ks d (.exprs (a.vals u))) (exprs_taken hc) i j r hr'
        simp only [exec, execInCall, hn, Outcome.bind]; exact this
      · have := reading_step (u := u) hnf (.callStmt k s) hc i j r hr'
        simp only [exec, execInCall, hn, Outcome.bind]; exact this
  | standalone cb n =>
    obtain ⟨hi, rfl, hcf⟩ := h
    have hnf : (startWithCall cb true).Fine := Base.Fine.start.withCall cb hcf
    by_cases hr : (∃ xs, c = .args xs) ∨ (∃ ky xs, c = .yield ky xs) ∨ ∃ w, c = .where_ w
    · rcases hr with ⟨xs, rfl⟩ | ⟨ky, xs, rfl⟩ | ⟨w, rfl⟩
      · rcases hi with rfl | rfl <;> simp [Iface.sig, Iface.resultSig] at hs
        subst hs
        exact ⟨_, rfl, Or.inl rfl, rfl, ⟨by rintro _ ⟨⟩; exact (errsOf_none_iff _).2 hc, hcf.yields, hcf.cond⟩⟩
      · rcases hi with rfl | rfl <;> simp [Iface.sig, Iface.resultSig] at hs
        subst hs
        refine ⟨_, rfl, Or.inr rfl, rfl, ⟨hcf.args, ?_, hcf.cond⟩⟩
        simp only [yieldItems]
        split <;> rfl
      · rcases hi with rfl | rfl <;> simp [Iface.sig, Iface.resultSig] at hs
        subst hs
        exact ⟨.base _, rfl, Or.inl ⟨rfl, Base.Fine.start.withCall _ ⟨hcf.args, hcf.yields, by rintro _ ⟨⟩; exact hc.1⟩, by simp [Pending.next]⟩⟩
    · have hr' : (Iface.readingSig c).or (Iface.matchSig c) = some j := by
        rcases hi with rfl | rfl <;> cases c <;> simp [Iface.sig, Iface.resultSig] at hs hr <;>
          simp [Iface.readingSig, Iface.resultSig, Iface.updateSig, Iface.setSig, hs]
      have hc' : (∃ k ko d a, c = .returning k ko d a) ∨ (∃ ks d a, c = .with_ ks d a) ∨ ∃ k s, c = .callStmt k s := by
        rcases hi with rfl | rfl <;> cases c <;> simp [Iface.sig, Iface.resultSig] at hs hr <;> simp
      rcases hc' with ⟨k, ko, d, a, rfl⟩ | ⟨ks, d, a, rfl⟩ | ⟨k, s, rfl⟩
      · exact reading_step (u := u) hnf (.returning k ko d (.exprs (a.vals u))) (Or.inr (by
          have hc := hc.resolve_left (by rintro rfl; simp at hi)
          exact ⟨exprs_taken hc.1, hc.2⟩)) i j r hr'
      · exact reading_step (u := u) hnf (.with_ ks d (.exprs (a.vals u))) (exprs_taken hc) i j r hr'
      · exact reading_step (u := u) hnf (.callStmt k s) hc i j r hr'
  | action a =>
    obtain ⟨rfl, he, b, hb, ho, k, kp, ps, as, hu⟩ := h
    cases c <;> simp [Iface.sig] at hs
    case actionSet k' kset kl ks xs =>
    subst hs
    obtain ⟨ys, h1, h2⟩ := prepareSet_fine ks hc
    have hx : errsOf xs = none := CleanUpd.errs (t := .set) hc
    refine ⟨.base _, by simp only [exec, execAction, ActionB.set, he, hx, firstErr, hb, hu, mergeAction, h1, Outcome.map]; rfl,
      Or.inr ⟨Or.inr (Or.inr rfl), ⟨ho.fine.withUpdate _ (mergeClause_fine _ _ _ _ ((ho.fine.update _ hu).2.2 _ _ _ _ rfl)), ho.omatch, rfl, ho.call⟩, fun _ => ⟨_, _, _, _, rfl⟩⟩⟩

theorem clean_each (cs : List Call) (i : Iface) (h : ∀ c ∈ cs, CleanCall u c) : i.Each (Taken u) cs := by
  induction cs generalizing i with
  | nil => trivial
  | cons c cs ih => exact ⟨clean_taken (h c (by simp)) i, fun j _ => ih j fun x hx => h x (by simp [hx])⟩

/-- All calls. -/
theorem fine_calls (cs : List Call) {i j : Iface} {r : Pending} {b : B} (h : i.Holds r b) (hc : i.Each (Taken u) cs) (ha : r.all i cs = true)
    (ht : i.typed cs = some j) : ∃ b' r', execAll u b cs = .ok b' ∧ j.Holds r' b' := by
  induction cs generalizing i r b with
  | nil =>
    simp only [Iface.typed, Option.some.injEq] at ht
    subst ht
    exact ⟨b, r, rfl, h⟩
  | cons c cs ih =>
    simp only [Iface.typed, Option.bind_eq_some_iff] at ht
    obtain ⟨k, h1, h2⟩ := ht
    simp only [Pending.all, h1, Bool.and_eq_true] at ha
    obtain ⟨b1, hb1, hk⟩ := fine_step h c hc.1 ha.1 h1
    obtain ⟨b2, r', hb2, hj⟩ := ih hk (hc.2 k h1) ha.2 h2
    exact ⟨b2, r', by simp only [execAll, hb1, Outcome.bind, hb2], hj⟩

theorem fine_build {i : Iface} {r : Pending} {b : B} (h : i.Holds r b) (hb : i.builds = true) : ∃ s, b.build = .ok (.ok s) ∧ s.err = none := by
  cases b with
  | base b =>
    rcases h with ⟨hi, -⟩ | ⟨-, ho, -⟩
    · cases i <;> simp [Iface.isReading, Iface.builds] at hi hb
    · obtain ⟨x, hx⟩ := Option.isSome_iff_exists.mp ho.update
      have hl : b.list = .ok (b.elems ++ [x.build]) := by simp [Base.list, ho.omatch, hx, ho.call]
      obtain ⟨s, h1, h2⟩ := ho.fine.buildImpl none rfl _ hl (fun _ => ⟨by simp, by simp [(ho.fine.update x hx).2.1]⟩)
      exact ⟨s, by simp [B.build, Base.build, ho.fine.err, h1, Outcome.map], h2⟩
  | ret x =>
    obtain ⟨-, hf⟩ := h
    obtain ⟨b, hb, hbf⟩ := hf.base
    obtain ⟨cs, hl, -⟩ := hbf.list
    obtain ⟨s, h1, h2⟩ := hbf.buildImpl (returnCreate x.k x.ko x.distinct x.items x.order) (by simp [returnCreate, hf.items, errOf]) cs hl
      (by simp [returnCreate, hf.items])
    exact ⟨s, by simp only [B.build, RetB.build, hf.err, hb, h1, Outcome.map], h2⟩
  | upd x =>
    obtain ⟨-, hf⟩ := h
    obtain ⟨b, c, hn, hbf, hm, hc, hcm⟩ := hf.next
    obtain ⟨cs, hl, -⟩ := hbf.list
    have hr : errOf (returnCreate x.k x.ko x.distinct x.items x.order) = none := by
      unfold returnCreate
      split <;> rfl
    obtain ⟨s, h1, h2⟩ := hbf.buildImpl (returnCreate x.k x.ko x.distinct x.items x.order) hr cs hl (by
      intro _
      have hbu := hbf.update
      have hbc := hbf.call
      unfold Base.list at hl
      simp only [hm, Bool.false_eq_true, if_false, List.append_nil] at hl
      have h0 : ∀ ds : List Clause, (∀ d ∈ ds, d.isMatch = false) → b.elems ++ ds ≠ [] ∧ (b.elems ++ ds).getLast?.map (·.isMatch) ≠ some true := by
        intro ds hds
        obtain ⟨pre, hpre⟩ := List.getLast?_eq_some_iff.mp hc
        rw [hpre]
        refine ⟨by simp, ?_⟩
        cases hd : ds.getLast? with
        | none => simp [List.getLast?_eq_none_iff.mp hd, hcm]
        | some d =>
          rw [List.getLast?_append, hd]
          simp [hds d (List.mem_of_getLast? hd)]
      cases hoc : b.ocall with
      | none =>
        simp only [hoc, Except.ok.injEq] at hl
        subst hl
        apply h0
        intro d hd
        split at hd
        · rename_i y hy
          simp only [List.mem_singleton] at hd
          subst hd
          exact (hbu y hy).2.1
        · cases hd
      | some c' =>
        obtain ⟨v, hv, -, hvm⟩ := (hbc c' hoc).build
        simp only [hoc, hv, Except.ok.injEq] at hl
        subst hl
        rw [List.append_assoc]
        apply h0
        intro d hd
        rw [List.mem_append, List.mem_singleton] at hd
        rcases hd with hd | rfl
        · split at hd
          · rename_i y hy
            simp only [List.mem_singleton] at hd
            subst hd
            exact (hbu y hy).2.1
          · cases hd
        · exact hvm)
    exact ⟨s, by simp only [B.build, UpdB.build, hf.err, hn, Outcome.bind, h1, Outcome.map], h2⟩
  | standalone c n =>
    obtain ⟨-, -, hcf⟩ := h
    obtain ⟨v, hv, he, -⟩ := hcf.build
    exact ⟨c.stmt v, by simp only [B.build, hv]; rfl, he⟩
  | with_ w => obtain ⟨hi, -⟩ := h; cases i <;> simp [Iface.isWith, Iface.builds] at hi hb
  | unwind x => obtain ⟨rfl, -⟩ := h; cases hb
  | inCall x => obtain ⟨hi, -⟩ := h; rcases hi with rfl | rfl | rfl <;> cases hb
  | action a => obtain ⟨rfl, -⟩ := h; cases hb

/-! ### C63 -/

/-- C63: a chain of calls that Go's type checker admits, begun with a function of cypher.go, whose arguments are as they should be, does not
panic if every `And` and `Or` has a condition of a MATCH or WITH to extend and every `OnCreate` and `OnMatch` a MERGE to act on.  If the
type has `Build`, that gives a statement without error. -/
theorem C63_chain (cs : List Call) (j : Iface) (ht : Iface.entry.typed cs = some j) (hc : ∀ c ∈ cs, CleanCall u c)
    (ha : Pending.all ⟨false, false⟩ .entry cs = true) :
    ∃ b, execAll u start cs = .ok b ∧ (j.builds = true → ∃ s, b.build = .ok (.ok s) ∧ s.err = none) := by
  obtain ⟨b, r, h1, h2⟩ := fine_calls (u := u) cs (i := .entry) (r := ⟨false, false⟩) (b := start) (Or.inl ⟨rfl, Base.Fine.start, by simp⟩) (clean_each cs _ hc) ha ht
  exact ⟨b, h1, fine_build h2⟩

/-- C63: the same for a chain begun with a procedure call that has at least one part in its name. -/
theorem C63_call_chain (kc ka kw k kn : Key) (name : List Str) (hn : name ≠ []) (cs : List Call) (j : Iface) (ht : Iface.firstNoYield.typed cs = some j)
    (hc : ∀ c ∈ cs, CleanCall u c) (ha : Pending.all ⟨false, false⟩ .firstNoYield cs = true) :
    ∃ b b', startCall kc ka kw k kn name = .ok b ∧ execAll u b cs = .ok b' ∧ (j.builds = true → ∃ s, b'.build = .ok (.ok s) ∧ s.err = none) := by
  obtain ⟨p, hp⟩ : ∃ p, procName k kn name = .ok p := by
    match name, hn with
    | [p], _ => exact ⟨_, rfl⟩
    | p :: q :: ps, _ => exact ⟨_, rfl⟩
    | [], hc => exact absurd rfl hc
  obtain ⟨b, r, h1, h2⟩ := fine_calls (u := u) cs (i := .firstNoYield) (r := ⟨false, false⟩)
    (b := .standalone { kc := kc, ka := ka, kw := kw, standalone := true, name := p } true) ⟨Or.inl rfl, rfl, ⟨by simp, rfl, by simp⟩⟩ (clean_each cs _ hc) ha ht
  exact ⟨_, b, by simp only [startCall, hp, Outcome.map], h1, fine_build h2⟩

open SampleBuilder SampleErrors

namespace SampleTyped
/-- `OptionalMatch(p).Where(a).Or(b).With(x).Where(a).OrderBy(x).And(c).Merge(q).OnCreate().Set(x, y).OnMatch().Set(y, x).SetByNode(n, "L").Returning(x).OrderBy(y)` -/
def chain : List Call :=
  [.match_ 1 2 true [p], .where_ ca.build, .or (ck 0) cb.build, .with_ (wk 0) false (.exprs [x]), .where_ ca.build, .orderItems [.create 3 (some x) .undefined],
   .and (ck 1) cc.build, .merge (uk 0) [q], .on .onCreate, .actionSet 4 5 6 (fun i => 10 + i) [x, y], .on .onMatch, .actionSet 7 8 9 (fun i => 20 + i) [y, x],
   .setLabels (uk 1) c!"g" 30 31 (fun i => 32 + i) node [c!"L"], ret x, .orderBy 40 y]

theorem atom_clean (k : Key) (s : Str) : CleanCond (.atom (.mk' k [leaf k s] true)) := ⟨rfl, rfl⟩
theorem one_clean {v : Val} (h : v.err = none) : ∀ x ∈ [v], x.err = none := by simp [h]
theorem set_clean {v w : Val} (h1 : v.err = none) (h2 : v.notNil = true) (h3 : w.err = none) (h4 : w.notNil = true)
    (h5 : v.isOperation = false) (h6 : w.isOperation = false) : CleanSet [v, w] := ⟨by simp [h1, h2, h3, h4], by simp [h5, h6]⟩

theorem chain_clean : ∀ c ∈ chain, CleanCall u c := by
  intro c hc
  simp only [chain, List.mem_cons, List.not_mem_nil, or_false] at hc
  rcases hc with rfl | rfl | rfl | rfl | rfl | rfl | rfl | rfl | rfl | rfl | rfl | rfl | rfl | rfl | rfl
  · exact one_clean rfl
  · exact atom_clean ..
  · exact atom_clean ..
  · exact one_clean rfl
  · exact atom_clean ..
  · trivial
  · exact atom_clean ..
  · exact ⟨by simp, one_clean rfl⟩
  · trivial
  · exact set_clean rfl rfl rfl rfl rfl rfl
  · trivial
  · exact set_clean rfl rfl rfl rfl rfl rfl
  · exact ⟨rfl, rfl, by simp⟩
  · exact ⟨one_clean rfl, by simp [Args.vals]⟩
  · trivial
end SampleTyped
open SampleTyped

-- the hypotheses of C63 hold for a long chain; the type in the end has `Build`
example : Iface.entry.typed chain = some .retSort ∧ Pending.all ⟨false, false⟩ .entry chain = true ∧ (∀ c ∈ chain, CleanCall .ascii c) ∧ Iface.retSort.builds = true :=
  ⟨by decide +kernel, by decide +kernel, chain_clean, rfl⟩

/-- C63: without a condition to extend, or with a procedure call's, `And` panics: the calls compile and the arguments are clean. -/
theorem C63_and_needs_condition :
    Iface.entry.typed [.with_ (wk 0) false (.exprs [x]), .orderItems [.create 3 (some x) .undefined], .and (ck 0) ca.build, ret x] = some .ret ∧
    shown (.ok start) [.with_ (wk 0) false (.exprs [x]), .orderItems [.create 3 (some x) .undefined], .and (ck 0) ca.build, ret x] = c!"panic" ∧
    Iface.entry.typed [m, .callProc 3 4 5 6 7 [c!"f"], .yield 8 [y], .where_ ca.build, .or (ck 0) cb.build, ret x] = some .ret ∧
    shown (.ok start) [m, .callProc 3 4 5 6 7 [c!"f"], .yield 8 [y], .where_ ca.build, .or (ck 0) cb.build, ret x] = c!"panic" := by decide +kernel

/-- C63: `OnCreate` after CREATE compiles; the statement has an error, and a WITH after it panics. -/
theorem C63_on_needs_merge :
    Iface.entry.typed [.create (uk 0) [p], .on .onCreate, .actionSet 1 2 3 (fun i => 10 + i) [x, y]] = some .merged ∧
    shown (.ok start) [.create (uk 0) [p], .on .onCreate, .actionSet 1 2 3 (fun i => 10 + i) [x, y]] = c!"error" ∧
    shown (.ok start) [.create (uk 0) [p], .on .onCreate, .actionSet 1 2 3 (fun i => 10 + i) [x, y], .with_ (wk 0) false (.exprs [x]), ret x] = c!"panic" := by
  decide +kernel

/-- C63: what is asked of the arguments is needed.  An odd number of expressions for SET, no labels, no pattern for CREATE, nothing to return:
there is an error, or after a WITH a panic. -/
theorem C63_arguments :
    shown (.ok start) [m, .set (uk 0) [x]] = c!"error" ∧
    shown (.ok start) [m, .set (uk 0) [x], .with_ (wk 0) false (.exprs [x]), ret x] = c!"panic" ∧
    shown (.ok start) [m, .setLabels (uk 0) c!"g" 1 2 (fun i => 10 + i) node []] = c!"error" ∧
    shown (.ok start) [.create (uk 0) []] = c!"error" ∧
    shown (.ok start) [.with_ (wk 0) false (.exprs [x]), .create (uk 0) []] = c!"panic" ∧
    shown (.ok start) [m, .returning 50 51 false (.exprs [])] = c!"error" ∧
    shown (.ok start) [.with_ (wk 0) false (.exprs [x]), m, .returning 50 51 false (.exprs [])] = c!"panic" ∧
    shown (.ok start) [m, .callProc 3 4 5 6 7 [], .yield 8 [y], ret x] = c!"panic" ∧
    shown (.ok start) [m, .callStmt 3 (.query [leaf 8 c!"CREATE (n)"] none false), ret x] = c!"error" := by decide +kernel

end Verif
