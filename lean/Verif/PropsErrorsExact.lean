import Verif.PropsTyped

/-
C67: exactly which errors of what is given to the builder are reported by `Build`.
-/

namespace Verif
namespace Spec

variable (u : Unicode)

/-- Expressions, names, or nodes given by name of which one has an error.  The errors of nodes themselves, as opposed to those of their names,
are looked at by the plain builder only. -/
def BadItems (i : Iface) (a : Args) : Prop := (∃ x ∈ a.vals u, x.err ≠ none) ∨ (i.isPlain = true ∧ BadArgs a)

/-- The call is given something with an error and the error is looked at, where `i` is the type of the receiver. -/
def Reported (i : Iface) : Call → Prop
  | .match_ _ _ _ xs | .create _ xs | .merge _ xs | .set _ xs | .remove _ xs | .actionSet _ _ _ _ xs => ∃ x ∈ xs, x.err ≠ none
  | .args xs => i = .callNoArgs ∧ ∃ x ∈ xs, x.err ≠ none
  | .where_ c => i = .readingNoWhere ∧ c.toVal.err ≠ none
  | .or _ c => i = .readingWhere ∧ c.toVal.err ≠ none
  | .with_ _ _ a | .delete _ _ a => BadItems u i a
  | .returning _ _ _ a => i ≠ .updated ∧ BadItems u i a
  | .setNamed _ n x => x.err ≠ none ∨ if i.isWith then n.req.err ≠ none else n.sym.err ≠ none ∨ (i ≠ .updated ∧ n.err ≠ none)
  | .setLabels _ _ _ _ _ n _ | .removeLabels _ _ _ _ _ n _ => n.err ≠ none
  | .unwind x => x.err ≠ none
  | .callStmt _ s => s.err ≠ none
  | .and .. | .orderItems _ | .orderBy .. | .andBy .. | .asc _ | .desc | .skip .. | .limit .. | .on _ | .as .. | .callProc .. | .yield .. => False

/-- What can be given to SET, apart from errors. -/
def UsableSet (xs : List Val) : Prop :=
  (∀ x ∈ xs, x.err = none → x.notNil = true) ∧ (xs.filter fun x => !x.isOperation).length % 2 = 0

/-- The arguments are as they should be, apart from errors: CREATE and MERGE get a pattern, RETURN gets something, SET gets pairs, labels are
given, procedures have a name, subqueries return something.  A condition with an error counts as nil, and the arguments of a procedure call
that the query begins with have no error. -/
def Usable (i : Iface) : Call → Prop
  | .create _ xs | .merge _ xs => xs ≠ []
  | .where_ c => c.toVal.err ≠ none → c.toVal.notNil = false
  | .returning _ _ _ a => i = .updated ∨ a.vals u ≠ []
  | .set _ xs | .actionSet _ _ _ _ xs => UsableSet xs
  | .setNamed _ n x => UsableSet [n.sym, x] ∧ UsableSet [n.req, x]
  | .setLabels _ _ _ _ _ n ls | .removeLabels _ _ _ _ _ n ls => (n.err = none → n.notNil = true) ∧ ls ≠ []
  | .callStmt _ s => s.err = none → s.returns = true
  | .callProc _ _ _ _ _ name => name ≠ []
  | .args xs => i = .callNoArgs ∨ ∀ x ∈ xs, x.err = none
  | _ => True

end Spec
open Spec

variable {u : Unicode}

/-! ### What is not reported makes no trouble -/

theorem not_exists_err {xs : List Val} (h : ¬ ∃ x ∈ xs, x.err ≠ none) : ∀ x ∈ xs, x.err = none := by
  intro x hx
  rcases hv : x.err with _ | e
  · rfl
  · exact absurd ⟨x, hx, by simp [hv]⟩ h

theorem not_bad {a : Args} (h : ¬ BadArgs a) : a.namedErr = none := by
  cases a with
  | exprs xs => rfl
  | strings xs => rfl
  | nameds xs =>
    rw [Args.namedErr, firstErr_none_iff]
    intro e he
    simp only [List.mem_map] at he
    obtain ⟨n, hn, rfl⟩ := he
    rcases hv : n.err with _ | e
    · rfl
    · exact absurd ⟨n, hn, by simp [hv]⟩ h

theorem usable_clean {xs : List Val} (h : UsableSet xs) (he : ∀ x ∈ xs, x.err = none) : CleanSet xs :=
  ⟨fun x hx => ⟨he x hx, h.1 x hx (he x hx)⟩, h.2⟩

theorem items_taken {i : Iface} {a : Args} (h : ¬ BadItems u i a) : TakenItems u i a :=
  ⟨not_exists_err fun hx => h (Or.inl hx), fun hi => not_bad fun hx => h (Or.inr ⟨hi, hx⟩)⟩

theorem none_of_not {α : Type} {o : Option α} (h : ¬ o ≠ none) : o = none := Classical.not_not.mp h

theorem usable_taken {i : Iface} {c : Call} (hu : Usable u i c) (hr : ¬ Reported u i c) : Taken u i c := by
  cases c <;> simp only [Taken, CleanCall] <;> simp only [Reported] at hr <;> simp only [Usable] at hu <;> try trivial
  case match_ => exact not_exists_err hr
  case where_ c => exact ⟨fun hn => by by_cases he : c.toVal.err = none; exact he; simp [hu he] at hn, fun hi => none_of_not fun he => hr ⟨hi, he⟩⟩
  case or c => exact fun hi => none_of_not fun he => hr ⟨hi, he⟩
  case with_ => exact items_taken hr
  case returning =>
    by_cases hi : i = .updated
    · exact Or.inl hi
    · exact Or.inr ⟨items_taken fun hb => hr ⟨hi, hb⟩, hu.resolve_left hi⟩
  case delete => exact items_taken hr
  case create => exact ⟨hu, not_exists_err hr⟩
  case merge => exact ⟨hu, not_exists_err hr⟩
  case set => exact usable_clean hu (not_exists_err hr)
  case setNamed ks n x =>
    simp only [not_or] at hr
    have hx := none_of_not hr.1
    by_cases hw : i.isWith = true
    · simp only [hw, if_true] at hr ⊢
      exact usable_clean hu.2 (by simp [hx, none_of_not hr.2])
    · simp only [hw, if_false, not_or, Bool.false_eq_true] at hr ⊢
      refine ⟨usable_clean hu.1 (by simp [hx, none_of_not hr.2.1]), ?_⟩
      by_cases hi : i = .updated
      · exact Or.inl hi
      · exact Or.inr (none_of_not fun he => hr.2.2 ⟨hi, he⟩)
  case setLabels => exact ⟨none_of_not hr, hu.1 (none_of_not hr), hu.2⟩
  case removeLabels => exact ⟨none_of_not hr, hu.1 (none_of_not hr), hu.2⟩
  case remove => exact not_exists_err hr
  case actionSet => exact usable_clean hu (not_exists_err hr)
  case unwind => exact none_of_not hr
  case callStmt => exact ⟨none_of_not hr, hu (none_of_not hr)⟩
  case args => exact hu.elim (fun hi => not_exists_err fun he => hr ⟨hi, he⟩) id

theorem each_and {P Q : Iface → Call → Prop} {i : Iface} {cs : List Call} (h1 : i.Each P cs) (h2 : i.Each Q cs) :
    i.Each (fun i c => P i c ∧ Q i c) cs := by
  induction cs generalizing i with
  | nil => trivial
  | cons c cs ih => exact ⟨⟨h1.1, h2.1⟩, fun j hj => ih (h1.2 j hj) (h2.2 j hj)⟩

theorem each_imp {P Q : Iface → Call → Prop} (hpq : ∀ i c, P i c → Q i c) {i : Iface} {cs : List Call} (h : i.Each P cs) : i.Each Q cs := by
  induction cs generalizing i with
  | nil => trivial
  | cons c cs ih => exact ⟨hpq _ _ h.1, fun j hj => ih (h.2 j hj)⟩

/-! ### What is reported spoils the statement -/

/-- The builder that has the interface. -/
def Iface.Kind (i : Iface) : B → Prop
  | .base _ => i.isPlain = true
  | .with_ _ => i.isWith = true
  | .ret _ => i = .ret ∨ i = .retOrder ∨ i = .retSort ∨ i = .retSkip ∨ i = .buildable
  | .upd _ => i = .updated ∨ i = .ret ∨ i = .retOrder ∨ i = .retSort ∨ i = .retSkip ∨ i = .buildable
  | .unwind _ => i = .unwind
  | .inCall _ => i = .callNoArgs ∨ i = .callArgs ∨ i = .callYield
  | .standalone .. => i = .firstNoYield ∨ i = .firstYield
  | .action _ => i = .mergeAction

/-- The type a clause has, whatever it is called on. -/
def clauseType : Call → Option Iface
  | .match_ .. | .callStmt .. => some .readingNoWhere
  | .with_ .. => some .withNoWhere
  | .returning .. => some .ret
  | .delete .. => some .update
  | .create .. | .merge .. => some .updateSet
  | .set .. | .setNamed .. | .setLabels .. | .removeLabels .. | .remove .. => some .updated
  | .on _ => some .mergeAction
  | .unwind _ => some .unwind
  | .callProc .. => some .callNoArgs
  | _ => none

theorem sig_clause {i j k : Iface} {c : Call} (hs : i.sig c = some j) (hk : clauseType c = some k) : j = k := by
  cases c <;> simp only [clauseType, Option.some.injEq, reduceCtorEq] at hk <;> subst hk <;> cases i <;>
    simp [Iface.sig, Iface.readingSig, Iface.matchSig, Iface.resultSig, Iface.updateSig, Iface.setSig, Iface.withNumSig, Iface.withOrderSig, Iface.retNumSig] at hs <;>
    exact hs.symm

theorem dead_base (e : Err) : (B.base (.dead e)).Tainted := Base.dead_tainted e

theorem set_kind (b : Base) (ks : UpdKeys) (xs : List Val) : Iface.updated.Kind (b.set ks xs) ∨ (b.set ks xs).Tainted := by
  rw [Base.set]
  split
  · exact Or.inr (dead_base _)
  · exact Or.inl (Or.inl rfl)

theorem update2_kind (b : Base) (t : UpdType) (ks : UpdKeys) (e : Option Err) (xs : List Val) :
    Iface.updated.Kind (b.update2 t ks e xs) ∨ (b.update2 t ks e xs).Tainted := by
  rw [Base.update2]
  split
  · exact Or.inr (dead_base _)
  · exact Or.inl (Or.inl rfl)

/-- A clause on the plain builder. -/
theorem execBase_kind {b : Base} {c : Call} {b' : B} (h : execBase u b c = .ok b') {k : Iface} (hk : clauseType c = some k) : k.Kind b' ∨ b'.Tainted := by
  cases c <;> simp only [clauseType, Option.some.injEq, reduceCtorEq] at hk <;> subst hk <;> simp only [execBase] at h
  case set => cases h; exact set_kind ..
  case setNamed =>
    cases h
    rw [Base.setNamed]
    split
    · exact Or.inr (dead_base _)
    · exact set_kind ..
  case setLabels => cases h; exact update2_kind ..
  case removeLabels => cases h; exact update2_kind ..
  case remove => cases h; exact update2_kind ..
  case callProc => obtain ⟨i, -, rfl⟩ := Outcome.map_ok h; exact Or.inl (Or.inl rfl)
  case returning => cases h; exact Or.inl (Or.inl rfl)
  all_goals (cases h; exact Or.inl rfl)

theorem clause_kind {i j : Iface} {c : Call} (hs : i.sig c = some j) {b : Base} {d : Call} {b' : B} (h : execBase u b d = .ok b')
    (hd : clauseType d = clauseType c) {k : Iface} (hk : clauseType c = some k) : j.Kind b' ∨ b'.Tainted := by
  rw [sig_clause hs hk]
  exact execBase_kind h (hd.trans hk)

theorem kind_step {i j : Iface} {b : B} (h : i.Kind b) {c : Call} (hs : i.sig c = some j) {b' : B} (hx : exec u b c = .ok b') :
    j.Kind b' ∨ b'.Tainted := by
  cases b with
  | base b =>
    cases hk : clauseType c with
    | some k => exact clause_kind hs hx rfl hk
    | none =>
      cases c <;> simp only [clauseType, reduceCtorEq] at hk <;> simp only [exec, execBase, reduceCtorEq] at hx
      case where_ =>
        cases hx
        left
        cases i <;> simp only [Iface.Kind, Iface.isPlain, Bool.false_eq_true] at h <;>
          simp [Iface.sig, Iface.readingSig, Iface.matchSig, Iface.resultSig, Iface.updateSig, Iface.setSig] at hs <;> subst hs <;> rfl
      all_goals
        obtain ⟨y, -, rfl⟩ := Outcome.map_ok hx
        left
        cases i <;> simp only [Iface.Kind, Iface.isPlain, Bool.false_eq_true] at h <;>
          simp [Iface.sig, Iface.readingSig, Iface.matchSig, Iface.resultSig, Iface.updateSig, Iface.setSig] at hs <;> subst hs <;> rfl
  | with_ w =>
    cases hk : clauseType c with
    | some k =>
      cases c <;> simp only [clauseType, reduceCtorEq] at hk <;> simp only [exec, execWith, reduceCtorEq] at hx <;>
        (obtain ⟨b1, -, h2⟩ := Outcome.bind_ok hx; exact clause_kind hs h2 rfl hk)
    | none =>
      have hj : Iface.modifies c = true → j.isWith = true := by
        intro hm
        cases c <;> simp only [Iface.modifies, Bool.false_eq_true] at hm <;> cases i <;> simp only [Iface.Kind, Iface.isWith, Bool.false_eq_true] at h <;>
          simp [Iface.sig, Iface.readingSig, Iface.matchSig, Iface.resultSig, Iface.updateSig, Iface.setSig, Iface.withNumSig, Iface.withOrderSig] at hs <;>
          subst hs <;> rfl
      cases c <;> simp only [clauseType, reduceCtorEq] at hk <;> simp only [exec, execWith] at hx
      case and => obtain ⟨y, -, rfl⟩ := Outcome.map_ok hx; exact Or.inl (hj rfl)
      case or => obtain ⟨y, -, rfl⟩ := Outcome.map_ok hx; exact Or.inl (hj rfl)
      all_goals first
        | (cases hx; exact Or.inl (hj rfl))
        | (obtain ⟨b1, -, h2⟩ := Outcome.bind_ok hx; cases h2)
  | ret r =>
    rcases h with rfl | rfl | rfl | rfl | rfl <;> cases c <;> simp [Iface.sig, Iface.retNumSig] at hs <;> subst hs <;> cases hx <;> simp [Iface.Kind]
  | upd x =>
    rcases h with rfl | rfl | rfl | rfl | rfl | rfl <;> cases c <;> simp [Iface.sig, Iface.retNumSig, Iface.resultSig, Iface.updateSig, Iface.setSig] at hs <;> subst hs <;>
      simp only [exec, execUpd] at hx
    case removeLabels =>
      split at hx
      · cases hx; exact Or.inl (Or.inl rfl)
      · obtain ⟨y, -, rfl⟩ := Outcome.map_ok hx; exact Or.inl (Or.inl rfl)
    all_goals first
      | (cases hx; simp [Iface.Kind]; done)
      | (obtain ⟨y, -, rfl⟩ := Outcome.map_ok hx; simp [Iface.Kind, Iface.isWith, Iface.isPlain]; done)
  | unwind x =>
    cases h
    cases c <;> simp [Iface.sig] at hs
    subst hs
    simp only [exec, execUnwind] at hx
    split at hx
    · cases hx; exact Or.inl rfl
    · cases hx
  | inCall x =>
    cases c <;> simp only [exec, execInCall, reduceCtorEq] at hx
    case args => cases hx; rcases h with rfl | rfl | rfl <;> simp [Iface.sig, Iface.resultSig] at hs <;> subst hs <;> simp [Iface.Kind]
    case yield => cases hx; rcases h with rfl | rfl | rfl <;> simp [Iface.sig, Iface.resultSig] at hs <;> subst hs <;> simp [Iface.Kind]
    case where_ =>
      obtain ⟨y, -, rfl⟩ := Outcome.map_ok hx
      rcases h with rfl | rfl | rfl <;> simp [Iface.sig, Iface.resultSig] at hs
      subst hs
      exact Or.inl rfl
    all_goals (obtain ⟨b1, -, h2⟩ := Outcome.bind_ok hx; exact clause_kind hs h2 rfl rfl)
  | standalone x n =>
    cases c <;> simp only [exec, execStandalone, reduceCtorEq] at hx
    case args => cases hx; rcases h with rfl | rfl <;> simp [Iface.sig, Iface.resultSig] at hs <;> subst hs <;> simp [Iface.Kind]
    case yield => cases hx; rcases h with rfl | rfl <;> simp [Iface.sig, Iface.resultSig] at hs <;> subst hs <;> simp [Iface.Kind]
    case where_ => cases hx; rcases h with rfl | rfl <;> simp [Iface.sig, Iface.resultSig] at hs <;> subst hs <;> exact Or.inl rfl
    all_goals exact clause_kind hs hx rfl rfl
  | action a =>
    cases h
    cases c <;> simp [Iface.sig] at hs
    subst hs
    simp only [exec, execAction] at hx
    obtain ⟨y, -, rfl⟩ := Outcome.map_ok hx
    exact Or.inl rfl

/-- What is given by name can be given as expressions, if errors of what is named do not matter. -/
theorem by_values {i : Iface} {b : B} (h : i.Kind b) {a : Args} (ha : i.isPlain = true → ¬ BadArgs a) :
    (∀ ks d, exec u b (.with_ ks d a) = exec u b (.with_ ks d (.exprs (a.vals u)))) ∧
    (∀ k ko d, exec u b (.returning k ko d a) = exec u b (.returning k ko d (.exprs (a.vals u)))) ∧
    (∀ ks d, exec u b (.delete ks d a) = exec u b (.delete ks d (.exprs (a.vals u)))) := by
  cases b with
  | base b =>
    have := not_bad (ha h)
    have h1 : (Args.exprs (a.vals u)).namedErr = none := rfl
    have h2 : (Args.exprs (a.vals u)).vals u = a.vals u := rfl
    refine ⟨fun _ _ => ?_, fun _ _ _ => ?_, fun _ _ => ?_⟩ <;>
      simp only [exec, execBase, Base.with_, Base.returning, Base.openUpdate, this, h1, h2]
  | _ => exact ⟨fun _ _ => rfl, fun _ _ _ => rfl, fun _ _ => rfl⟩

/-- A call that is given something with an error which is looked at. -/
theorem reported_step {i j : Iface} {b : B} (hw : b.Wf) (h : i.Kind b) {c : Call} (hs : i.sig c = some j) (hr : Reported u i c) (hc : ∀ xs, c ≠ .args xs)
    {b' : B} (hx : exec u b c = .ok b') : b'.Tainted := by
  have plain : ∀ {a}, i.isPlain = true ∧ BadArgs a → ∃ x, b = .base x := by
    rintro a ⟨hi, -⟩
    cases b <;> simp only [Iface.Kind] at h <;> (try (rcases h with rfl | rfl | rfl | rfl | rfl | rfl)) <;> (try (rcases h with rfl | rfl | rfl | rfl | rfl)) <;>
      (try (rcases h with rfl | rfl | rfl)) <;> (try (rcases h with rfl | rfl)) <;> (try subst h) <;> (try cases hi; done) <;> (try exact ⟨_, rfl⟩)
    cases i <;> simp [Iface.isPlain, Iface.isWith] at h hi
  cases c
  case args xs => exact absurd rfl (hc xs)
  case with_ ks d a =>
    by_cases hb : i.isPlain = true ∧ BadArgs a
    · obtain ⟨x, rfl⟩ := plain hb
      exact bad_step hw (show BadCall (.with_ ks d a) from hb.2) (by simp [Unchecked]) hx
    · rw [(by_values h (fun hi hba => hb ⟨hi, hba⟩)).1] at hx
      exact bad_step hw (show BadCall (.with_ ks d (.exprs (a.vals u))) from hr.resolve_right hb) (by cases b <;> simp [Unchecked, Forgets]) hx
  case returning k ko d a =>
    have hu : ∀ y, b ≠ .upd y := by
      rintro y rfl
      have : i = .updated := by
        rcases h with rfl | rfl | rfl | rfl | rfl | rfl <;> simp [Iface.sig, Iface.retNumSig, Iface.resultSig] at hs
        rfl
      exact hr.1 this
    by_cases hb : i.isPlain = true ∧ BadArgs a
    · obtain ⟨x, rfl⟩ := plain hb
      exact bad_step hw (show BadCall (.returning k ko d a) from hb.2) (by simp [Unchecked]) hx
    · rw [(by_values h (fun hi hba => hb ⟨hi, hba⟩)).2.1] at hx
      exact bad_step hw (show BadCall (.returning k ko d (.exprs (a.vals u))) from hr.2.resolve_right hb)
        (by cases b <;> simp [Unchecked, Forgets]; exact absurd rfl (hu _)) hx
  case delete ks d a =>
    by_cases hb : i.isPlain = true ∧ BadArgs a
    · obtain ⟨x, rfl⟩ := plain hb
      exact bad_step hw (show BadCall (.delete ks d a) from hb.2) (by simp [Unchecked]) hx
    · rw [(by_values h (fun hi hba => hb ⟨hi, hba⟩)).2.2] at hx
      exact bad_step hw (show BadCall (.delete ks d (.exprs (a.vals u))) from hr.resolve_right hb) (by cases b <;> simp [Unchecked, Forgets]) hx
  case setNamed ks n x =>
    have set : ∀ m, m.err ≠ none ∨ x.err ≠ none → ∀ b'', exec u b (.set ks [m, x]) = .ok b'' → b''.Tainted := by
      intro m hm b'' hb
      refine bad_step hw (show BadCall (.set ks [m, x]) from ?_) (by cases b <;> simp [Unchecked]) hb
      rcases hm with hm | hm
      · exact ⟨m, by simp, hm⟩
      · exact ⟨x, by simp, hm⟩
    cases b with
    | with_ w =>
      refine set n.req ?_ b' hx
      simp only [Reported, show i.isWith = true from h, if_true] at hr
      exact hr.symm
    | upd y =>
      have : i = .updated := by
        rcases h with rfl | rfl | rfl | rfl | rfl | rfl <;> simp [Iface.sig, Iface.retNumSig, Iface.resultSig, Iface.updateSig, Iface.setSig] at hs
        rfl
      subst this
      refine set n.sym ?_ b' hx
      simp only [Reported, Iface.isWith, Bool.false_eq_true, if_false, ne_eq, not_true_eq_false, false_and, or_false] at hr
      exact hr.symm
    | base b =>
      by_cases hn : n.err ≠ none ∨ x.err ≠ none
      · exact bad_step hw (show BadCall (.setNamed ks n x) from hn) (by simp [Unchecked]) hx
      · simp only [not_or] at hn
        have h1 := none_of_not hn.1
        have h2 := none_of_not hn.2
        have hwi : i.isWith = false := by cases i <;> simp_all [Iface.Kind, Iface.isPlain, Iface.isWith]
        simp only [Reported, hwi, Bool.false_eq_true, if_false, h1, h2, ne_eq, not_true_eq_false, false_or, and_false, or_false] at hr
        cases hbe : b.err with
        | none =>
          refine set n.sym (Or.inl hr) b' ?_
          simpa [exec, execBase, Base.setNamed, hbe, h1, h2, firstErr] using hx
        | some e =>
          simp only [exec, execBase, Base.setNamed, hbe, firstErr, Outcome.ok.injEq] at hx
          subst hx
          exact dead_base e
    | _ => cases hx
  case where_ c =>
    obtain ⟨rfl, he⟩ := hr
    cases b <;> simp [Iface.Kind, Iface.isWith] at h
    exact bad_step hw (show BadCall (.where_ c) from he) (by simp [Unchecked]) hx
  case or ks c =>
    obtain ⟨rfl, he⟩ := hr
    cases b <;> simp [Iface.Kind, Iface.isWith] at h
    exact bad_step hw (show BadCall (.or ks c) from he) (by simp [Unchecked]) hx
  all_goals first
    | exact hr.elim
    | (refine bad_step hw ?_ ?_ hx
       · exact hr
       · cases b <;> simp [Unchecked])

/-- Erroneous arguments of a procedure call in the middle of a query. -/
theorem args_refused {x : Val} {xs : List Val} (hx : x ∈ xs) (he : x.err ≠ none) (cs : List Call) {i j : Iface} (hi : i = .callArgs ∨ i = .callYield)
    {y : InCallB} (hw : B.Wf (.inCall y)) (hy : ∀ c, y.call = some c → c.args = some xs) (ht : i.typed cs = some j) (hb : j.builds = true) :
    Refused ((execAll u (.inCall y) cs).bind B.build) := by
  induction cs generalizing i y with
  | nil =>
    simp only [Iface.typed, Option.some.injEq] at ht
    subst ht
    rcases hi with rfl | rfl <;> cases hb
  | cons c cs ih =>
    simp only [Iface.typed, Option.bind_eq_some_iff] at ht
    obtain ⟨k, h1, h2⟩ := ht
    simp only [execAll]
    cases hc : exec u (.inCall y) c with
    | panic => trivial
    | ok b' =>
      simp only [Outcome.bind]
      by_cases hd : (∀ ys, c ≠ .args ys) ∧ ∀ ky ys, c ≠ .yield ky ys
      · exact tainted_all (args_step hw hx he hy hd hc) cs
      · have : ∃ ky ys, c = .yield ky ys := by
          cases c <;> simp at hd
          · rcases hi with rfl | rfl <;> simp [Iface.sig, Iface.resultSig] at h1
          · exact ⟨_, _, rfl⟩
        obtain ⟨ky, ys, rfl⟩ := this
        have hk : k = .callYield := by rcases hi with rfl | rfl <;> simp [Iface.sig, Iface.resultSig] at h1; exact h1.symm
        have hw' := wf_step hw hc
        cases hc
        refine ih (Or.inr hk) hw' ?_ h2
        intro c hc
        simp only [Option.map_eq_some_iff] at hc
        obtain ⟨c', hc', rfl⟩ := hc
        exact hy c' hc'

theorem reported_all (cs : List Call) {i j : Iface} {b : B} (hw : b.Wf) (h : i.Kind b ∨ b.Tainted) (ht : i.typed cs = some j) (hb : j.builds = true)
    (hr : ¬ i.Each (fun i c => ¬ Reported u i c) cs) : Refused ((execAll u b cs).bind B.build) := by
  induction cs generalizing i b with
  | nil => exact absurd trivial hr
  | cons c cs ih =>
    rcases h with h | h
    · have ht' := ht
      simp only [Iface.typed, Option.bind_eq_some_iff] at ht
      obtain ⟨k, h1, h2⟩ := ht
      simp only [execAll]
      cases hc : exec u b c with
      | panic => trivial
      | ok b' =>
        simp only [Outcome.bind]
        by_cases hc' : Reported u i c
        · by_cases hargs : ∃ xs, c = .args xs
          · obtain ⟨xs, rfl⟩ := hargs
            obtain ⟨rfl, x, hx, he⟩ := hc'
            cases b <;> simp [Iface.Kind, Iface.isPlain, Iface.isWith] at h
            have hw' := wf_step hw hc
            cases hc
            cases h1
            refine args_refused hx he cs (Or.inl rfl) hw' ?_ h2 hb
            intro c hc
            simp only [Option.map_eq_some_iff] at hc
            obtain ⟨c', -, rfl⟩ := hc
            rfl
          · exact tainted_all (reported_step hw h h1 hc' (fun xs hx => hargs ⟨xs, hx⟩) hc) cs
        · refine ih (wf_step hw hc) (kind_step h h1 hc) h2 ?_
          intro he
          apply hr
          refine ⟨hc', fun j' hj => ?_⟩
          rw [h1] at hj
          cases hj
          exact he
    · exact tainted_all h (c :: cs)

/-! ### C67 -/

/-- C67: if some call of a chain that Go's type checker admits is given something with an error that is `Reported`, no statement without error
comes out. -/
theorem C67_reported (cs : List Call) (j : Iface) (ht : Iface.entry.typed cs = some j) (hb : j.builds = true)
    (hr : ¬ Iface.entry.Each (fun i c => ¬ Reported u i c) cs) : Refused ((execAll u start cs).bind B.build) :=
  reported_all cs trivial (Or.inl (show Iface.Kind .entry start from rfl)) ht hb hr

/-- C67: exactly the errors that are `Reported` are reported.  If the arguments are usable apart from errors, and every `And`, `Or`, `OnCreate`
and `OnMatch` has something to refer to, a statement without error comes out if and only if no call is given something with an error
that is `Reported`; all other errors are lost. -/
theorem C67_exactly (cs : List Call) (j : Iface) (ht : Iface.entry.typed cs = some j) (hb : j.builds = true) (hu : Iface.entry.Each (Usable u) cs)
    (ha : Pending.all ⟨false, false⟩ .entry cs = true) :
    (∃ s, (execAll u start cs).bind B.build = .ok (.ok s) ∧ s.err = none) ↔ Iface.entry.Each (fun i c => ¬ Reported u i c) cs := by
  constructor
  · rintro ⟨s, h1, h2⟩
    refine Classical.byContradiction fun hr => ?_
    have := C67_reported cs j ht hb hr
    rw [h1] at this
    exact this h2
  · intro hr
    obtain ⟨b, r, h1, h2⟩ := fine_calls (u := u) cs (i := .entry) (r := ⟨false, false⟩) (b := start) (Or.inl ⟨rfl, Base.Fine.start, by simp⟩)
      (each_imp (fun i c h => usable_taken h.1 h.2) (each_and hu hr)) ha ht
    obtain ⟨s, h3, h4⟩ := fine_build h2 hb
    exact ⟨s, by rw [h1]; exact h3, h4⟩

/-- C67: the same for a chain that begins with a procedure call. -/
theorem C67_call_exactly (kc ka kw k kn : Key) (name : List Str) (hn : name ≠ []) (cs : List Call) (j : Iface) (ht : Iface.firstNoYield.typed cs = some j)
    (hb : j.builds = true) (hu : Iface.firstNoYield.Each (Usable u) cs) (ha : Pending.all ⟨false, false⟩ .firstNoYield cs = true) :
    (∃ s, ((startCall kc ka kw k kn name).bind fun b => (execAll u b cs).bind B.build) = .ok (.ok s) ∧ s.err = none) ↔
      Iface.firstNoYield.Each (fun i c => ¬ Reported u i c) cs := by
  obtain ⟨p, hp⟩ : ∃ p, procName k kn name = .ok p := by
    match name, hn with
    | [p], _ => exact ⟨_, rfl⟩
    | p :: q :: ps, _ => exact ⟨_, rfl⟩
    | [], hc => exact absurd rfl hc
  simp only [startCall, hp, Outcome.map, Outcome.bind]
  constructor
  · rintro ⟨s, h1, h2⟩
    refine Classical.byContradiction fun hr => ?_
    have := reported_all (u := u) cs (b := .standalone { kc := kc, ka := ka, kw := kw, standalone := true, name := p } true) trivial (Or.inl (Or.inl rfl)) ht hb hr
    simp only [Outcome.bind] at this
    rw [h1] at this
    exact this h2
  · intro hr
    obtain ⟨b, r, h1, h2⟩ := fine_calls (u := u) cs (i := .firstNoYield) (r := ⟨false, false⟩)
      (b := .standalone { kc := kc, ka := ka, kw := kw, standalone := true, name := p } true) ⟨Or.inl rfl, rfl, ⟨by simp, rfl, by simp⟩⟩
      (each_imp (fun i c h => usable_taken h.1 h.2) (each_and hu hr)) ha ht
    obtain ⟨s, h3, h4⟩ := fine_build h2 hb
    exact ⟨s, by rw [h1]; exact h3, h4⟩

open SampleBuilder SampleErrors

namespace SampleExact
/-- `Match(p).Where(a).And(bad).With(x).Where(bad).OrderBySortItem(bad).Call1("f").WithArgs(x).Yield(bad).Where(bad).Set(x, y).SetWithNamed(badNamed, y).Returning(bad)` -/
def lost : List Call :=
  [m, .where_ ca.build, .and (ck 0) badCond, .with_ (wk 0) false (.exprs [x]), .where_ badCond, .orderItems [.create 3 (some bad) .undefined],
   .callProc 3 4 5 6 7 [c!"f"], .args [x], .yield 8 [bad], .where_ badCond, .set (uk 0) [x, y], .setNamed (uk 1) badNamed y, ret bad]
/-- The same with one more error, in the arguments of the procedure. -/
def kept : List Call :=
  [m, .where_ ca.build, .and (ck 0) badCond, .with_ (wk 0) false (.exprs [x]), .where_ badCond, .orderItems [.create 3 (some bad) .undefined],
   .callProc 3 4 5 6 7 [c!"f"], .args [bad], .yield 8 [bad], .where_ badCond, .set (uk 0) [x, y], .setNamed (uk 1) badNamed y, ret bad]

theorem set_usable {v w : Val} (h2 : v.notNil = true) (h4 : w.notNil = true) (h5 : v.isOperation = false) (h6 : w.isOperation = false) :
    UsableSet [v, w] := ⟨by simp [h2, h4], by simp [h5, h6]⟩

/-- Going along a chain. -/
theorem each_cons {P : Iface → Call → Prop} {i j : Iface} {c : Call} {cs : List Call} (hj : i.sig c = some j) (hc : P i c) (h : j.Each P cs) :
    i.Each P (c :: cs) := ⟨hc, fun k hk => by rw [hj] at hk; cases hk; exact h⟩

theorem lost_usable : Iface.entry.Each (Usable u) lost := by
  refine each_cons rfl trivial <| each_cons rfl (fun h => absurd rfl h) <| each_cons rfl trivial <| each_cons rfl trivial <|
    each_cons rfl (fun _ => rfl) <| each_cons rfl trivial <| each_cons rfl (by simp [Usable]) <| each_cons rfl (Or.inl rfl) <|
    each_cons rfl trivial <| each_cons rfl (fun _ => rfl) <| each_cons rfl (set_usable rfl rfl rfl rfl) <|
    each_cons rfl ⟨set_usable rfl rfl rfl rfl, set_usable rfl rfl rfl rfl⟩ <| each_cons rfl (Or.inl rfl) trivial

theorem lost_unreported : Iface.entry.Each (fun i c => ¬ Reported u i c) lost := by
  refine each_cons rfl ?_ <| each_cons rfl ?_ <| each_cons rfl ?_ <| each_cons rfl ?_ <| each_cons rfl ?_ <| each_cons rfl ?_ <|
    each_cons rfl ?_ <| each_cons rfl ?_ <| each_cons rfl ?_ <| each_cons rfl ?_ <| each_cons rfl ?_ <| each_cons rfl ?_ <| each_cons rfl ?_ trivial
  · rintro ⟨v, hv, he⟩; simp at hv; subst hv; exact he rfl
  · exact fun h => h.2 rfl
  · exact id
  · rintro (⟨v, hv, he⟩ | ⟨-, v, hv, he⟩) <;> simp [Args.vals] at hv <;> subst hv <;> exact he rfl
  · exact fun h => nomatch h.1
  · exact id
  · exact id
  · rintro ⟨-, v, hv, he⟩; simp at hv; subst hv; exact he rfl
  · exact id
  · exact fun h => nomatch h.1
  · rintro ⟨v, hv, he⟩; simp at hv; rcases hv with rfl | rfl <;> exact he rfl
  · rintro (h | h | h)
    · exact h rfl
    · exact h rfl
    · exact h.1 rfl
  · exact fun h => h.1 rfl
end SampleExact
open SampleExact

-- a chain full of errors, none of which is reported
example : Iface.entry.typed lost = some .ret ∧ Iface.ret.builds = true ∧ Iface.entry.Each (Usable .ascii) lost ∧ Pending.all ⟨false, false⟩ .entry lost = true ∧
    Iface.entry.Each (fun i c => ¬ Reported .ascii i c) lost := ⟨by decide +kernel, rfl, lost_usable, by decide +kernel, lost_unreported⟩
example : shown (.ok start) lost = c!"MATCH (p) WITH x SET x = y SET x = y CALL f(x) RETURN " := by decide +kernel
-- one error more
example : Iface.entry.typed kept = some .ret ∧ shown (.ok start) kept = c!"panic" := by decide +kernel
example : ¬ Iface.entry.Each (fun i c => ¬ Reported .ascii i c) kept := by
  intro h
  have h := (((((((h.2 _ rfl).2 _ rfl).2 _ rfl).2 _ rfl).2 _ rfl).2 _ rfl).2 _ rfl).1
  exact h ⟨rfl, bad, by simp, by simp [bad, Val.bad]⟩

end Verif
