import Verif.CondLemmas

namespace Verif
open Spec

theorem build_fine (p : Calls) (hu : p.Usable) (hf : p.Faithful) :
    Fine p.build ∧ p.build.isCompound = !p.single ∧ p.build.hasCondition = !p.vacuous ∧
    opOf p.build = p.lastOp.map BOp.op ∧ ∀ val, cval val p.build = p.meaning val := by
  induction p with
  | atom v =>
    refine ⟨⟨by simpa [Calls.build, CondOk, Calls.Usable] using hu, trivial⟩, rfl, rfl, rfl, fun val => by simp [Calls.build, cval, Calls.meaning]⟩
  | empty =>
    refine ⟨⟨?_, ?_⟩, rfl, rfl, rfl, fun val => by simp [Calls.build, Cond.empty, cval, cvalL, Calls.meaning]⟩
    · simp [Calls.build, Cond.empty, CondOk, CondOkL]
    · simp [Calls.build, Cond.empty, Uni, UniL]
  | bin ks h p q ihp ihq =>
    simp only [Calls.Usable, Calls.Faithful] at hu hf
    obtain ⟨p1, p2, p3, p4, p5⟩ := ihp hu.1 hf.1
    obtain ⟨q1, q2, q3, q4, q5⟩ := ihq hu.2 hf.2.1
    have hc := combine_fine ks h p1 q1 (by
      rcases hf.2.2 with h1 | h1 | h1 | h1 | h1
      · exact .inl (by simp [q2, h1])
      · exact .inr (.inl (by simp [q3, h1]))
      · exact .inr (.inr (.inl (by simp [p3, h1])))
      · exact .inr (.inr (.inr (.inl (by simp [p4, h1]))))
      · exact .inr (.inr (.inr (.inr (by simp [p4, h1])))))
    refine ⟨hc.1, by simpa [Calls.single, Calls.build] using hc.2.2.2.1, ?_, ?_, fun val => ?_⟩
    · simp only [Calls.build, hc.2.2.1, p3, q3, Calls.vacuous]
      cases p.vacuous <;> cases q.vacuous <;> rfl
    · simp only [Calls.build, hc.2.1, q2, p4, Calls.lastOp]
      cases q.single <;> cases p.lastOp <;> simp
    · simp only [Calls.build, hc.2.2.2.2, p5, q5, Calls.meaning]
  | pattern ks h p v ih =>
    simp only [Calls.Usable, Calls.Faithful] at hu hf
    obtain ⟨p1, p2, p3, p4, p5⟩ := ih hu.1 hf
    have hv : Fine (.atom v) := ⟨by simpa [CondOk] using hu.2, trivial⟩
    have hc := compoundCreate_fine ks h p1 hv
    refine ⟨hc.1, by simpa [Calls.single, Calls.build, Cond.combinePattern] using hc.2.2.2.1, ?_, ?_, fun val => ?_⟩
    · simp only [Calls.build, Cond.combinePattern, hc.2.2.1, Calls.vacuous]
      simp [Cond.hasCondition]
    · simp only [Calls.build, Cond.combinePattern, hc.2.1, Calls.lastOp]
      simp
    · simp only [Calls.build, Cond.combinePattern, hc.2.2.2.2, p5, Calls.meaning]
      simp [cval]
  | not k kn p ih =>
    simp only [Calls.Usable, Calls.Faithful] at hu hf
    obtain ⟨p1, p2, p3, p4, p5⟩ := ih hu.1 hf
    refine ⟨⟨by simpa [Calls.build, Cond.not, CondOk] using p1.1, ?_⟩, rfl, rfl, rfl, fun val => ?_⟩
    · simp [Calls.build, Cond.not, Uni, p1.2, p3, hu.2]
    · simp [Calls.build, Cond.not, cval, p5, Calls.meaning]

/-! ### The grammar is unambiguous

A machine that reads words from left to right computes the formula of every reading. -/

structure Level where
  or : Option Formula
  xor : Option Formula
  and : Option Formula
  nots : Nat

def notsOf : Nat → Formula → Formula
  | 0, f => f
  | n + 1, f => notsOf n (.not f)

def joinO (j : Formula → Formula → Formula) : Option Formula → Formula → Formula
  | none, f => f
  | some a, f => j a f

def joinOO (j : Formula → Formula → Formula) : Option Formula → Option Formula → Option Formula
  | a, none => a
  | a, some f => some (joinO j a f)

def Level.new : Level := ⟨none, none, none, 0⟩

def Level.supply (l : Level) (f : Formula) : Level := { l with and := some (joinO .and l.and (notsOf l.nots f)), nots := 0 }
def Level.closeXor (l : Level) : Level := { l with xor := joinOO .xor l.xor l.and, and := none }
def Level.closeOr (l : Level) : Level := { l with or := joinOO .or l.or (joinOO .xor l.xor l.and), xor := none, and := none }
def Level.result (l : Level) : Option Formula := joinOO .or l.or (joinOO .xor l.xor l.and)

def mstep (s : Level × List Level) : Tok → Level × List Level
  | .lp => (.new, s.1 :: s.2)
  | .rp =>
    match s.2, s.1.result with
    | l :: ls, some f => (l.supply f, ls)
    | _, _ => s
  | .and => s
  | .xor => (s.1.closeXor, s.2)
  | .or => (s.1.closeOr, s.2)
  | .not => ({ s.1 with nots := s.1.nots + 1 }, s.2)
  | .atom v => (s.1.supply (.atom v), s.2)

def mrun (s : Level × List Level) (ts : List Tok) : Level × List Level := ts.foldl mstep s

theorem mrun_append (s) (ts us : List Tok) : mrun s (ts ++ us) = mrun (mrun s ts) us := by simp [mrun, List.foldl_append]
theorem mrun_cons (s) (t) (us : List Tok) : mrun s (t :: us) = mrun (mstep s t) us := rfl
theorem mrun_nil (s) : mrun s [] = s := rfl

mutual
theorem mrun_prim {ts f} (h : ReadsPrim ts f) (l : Level) (ls : List Level) : mrun (l, ls) ts = (l.supply f, ls) := by
  match h with
  | .atom v => rfl
  | .paren h =>
    obtain ⟨l', h1, h2⟩ := mrun_or h (l :: ls)
    rw [List.cons_append, mrun_cons, mrun_append, mstep, h1]
    simp [mrun, mstep, h2]
theorem mrun_not {ts f} (h : ReadsNot ts f) (l : Level) (ls : List Level) : mrun (l, ls) ts = (l.supply f, ls) := by
  match h with
  | .prim h => exact mrun_prim h l ls
  | .not h =>
    rw [mrun_cons, mstep, mrun_not h]
    simp [Level.supply, notsOf]
theorem mrun_and {ts f} (h : ReadsAnd ts f) (o x : Option Formula) (ls : List Level) :
    mrun (⟨o, x, none, 0⟩, ls) ts = (⟨o, x, some f, 0⟩, ls) := by
  match h with
  | .one h => rw [mrun_not h]; simp [Level.supply, joinO, notsOf]
  | .and h h' =>
    rw [mrun_append, mrun_and h, mrun_cons, mstep, mrun_not h']
    simp [Level.supply, joinO, notsOf]
theorem mrun_xor {ts f} (h : ReadsXor ts f) (o : Option Formula) (ls : List Level) :
    ∃ x a, mrun (⟨o, none, none, 0⟩, ls) ts = (⟨o, x, some a, 0⟩, ls) ∧ joinO .xor x a = f := by
  match h with
  | .one h => exact ⟨none, _, mrun_and h o none ls, rfl⟩
  | @ReadsXor.xor _ _ _ g h h' =>
    obtain ⟨x, a, h1, h2⟩ := mrun_xor h o ls
    refine ⟨some (joinO .xor x a), g, ?_, ?_⟩
    · rw [mrun_append, h1, mrun_cons, mstep]
      simp only [Level.closeXor, joinOO]
      exact mrun_and h' _ _ _
    · rw [h2]; rfl
theorem mrun_or {ts f} (h : ReadsOr ts f) (ls : List Level) :
    ∃ l, mrun (.new, ls) ts = (l, ls) ∧ l.result = some f ∧ ∃ o x a, l = ⟨o, x, some a, 0⟩ := by
  match h with
  | .one h =>
    obtain ⟨x, a, h1, h2⟩ := mrun_xor h none ls
    exact ⟨_, h1, by simp [Level.result, joinOO, h2]; rfl, _, _, _, rfl⟩
  | .or h h' =>
    obtain ⟨l, h1, h2, o, x, a, h3⟩ := mrun_or h ls
    obtain ⟨x', a', h4, h5⟩ := mrun_xor h' (l.result) ls
    refine ⟨⟨l.result, x', some a', 0⟩, ?_, ?_, _, _, _, rfl⟩
    · rw [mrun_append, h1, mrun_cons, mstep, h3]
      rw [h3] at h4
      exact h4
    · rw [h2]
      simp [Level.result, joinOO, h5]
      rfl
end

/-- A text has at most one reading. -/
theorem reads_unique {ts : List Tok} {f g : Formula} (hf : Reads ts f) (hg : Reads ts g) : f = g := by
  obtain ⟨l, h1, h2, _⟩ := mrun_or hf []
  obtain ⟨l', h1', h2', _⟩ := mrun_or hg []
  rw [h1] at h1'
  cases h1'
  rw [h2] at h2'
  exact Option.some.inj h2'

/-! ### Conditions without a restriction on the operators -/

theorem addConds_ok {op : Option Op} {conds : List Cond} (ho : CondOkL conds) (ki : Key) (h : BOp) {x : Cond} (hx : CondOk x) :
    CondOkL (Cond.addConds op conds ki h.op x) := by
  have hsingle : ∀ y : Cond, CondOk y → y.hasCondition = true → CondOkL (conds ++ [y]) := fun y h1 h2 =>
    CondOkL_append ho ⟨h1, h2, trivial⟩
  cases x with
  | atom v => exact hsingle _ hx rfl
  | neg k kn c => exact hsingle _ hx rfl
  | compound k op' conds' em err nn hcp cp =>
    by_cases hh : (Cond.compound k op' conds' em err nn hcp cp).hasCondition = true
    · rw [Cond.addConds, if_neg (by simp [hh])]
      split
      · split
        · simp only [CondOk] at hx
          exact CondOkL_append ho hx.2.2.2
        · exact hsingle _ hx hh
      · refine hsingle _ ?_ rfl
        simp [Cond.wrapped, CondOk, CondOkL, bopOf_op]
        exact ⟨by simpa [CondOk] using hx, hh⟩
    · rw [Cond.addConds, if_pos (by simpa using hh)]
      exact ho

theorem compoundCreate_eq (ks : Cond.Keys) {l r : Cond} (h : BOp) (hl : CondOk l) (hr : CondOk r) :
    Cond.compoundCreate ks l h.op r = .compound ks.new (some h.op)
      (Cond.addConds (some h.op) (Cond.addConds (some h.op) [] ks.inner1 h.op l) ks.inner2 h.op r) false none true true
      (Cond.addConds (some h.op) (Cond.addConds (some h.op) [] ks.inner1 h.op l) ks.inner2 h.op r) := by
  have hlv := hl.val
  have hrv := hr.val
  simp [Cond.compoundCreate, firstErr, hlv.1, hrv.1, nilErr, missing, hlv.2.1, hrv.2.1]

theorem compoundCreate_ok (ks : Cond.Keys) {l r : Cond} (h : BOp) (hl : CondOk l) (hr : CondOk r) :
    CondOk (Cond.compoundCreate ks l h.op r) := by
  rw [compoundCreate_eq ks h hl hr]
  simp [CondOk, bopOf_op, addConds_ok (addConds_ok (conds := []) trivial ks.inner1 h hl) ks.inner2 h hr]

theorem combine_ok (ks : Cond.Keys) {c x : Cond} (h : BOp) (hc : CondOk c) (hx : CondOk x) :
    CondOk (Cond.combine ks c h.op x) := by
  cases c with
  | atom v => exact compoundCreate_ok ks h hc hx
  | neg k kn c => exact compoundCreate_ok ks h hc hx
  | compound k op conds em err nn hcp cp =>
    rw [show Cond.combine ks (.compound k op conds em err nn hcp cp) h.op x =
      Cond.add ks (.compound k op conds em err nn hcp cp) h.op x from rfl]
    have hc' := hc
    simp only [CondOk] at hc'
    simp only [Cond.add]
    split
    · simp [Cond.wrapped, CondOk, bopOf_op, addConds_ok (conds := []) trivial ks.inner1 h hx]
    · rename_i hem
      split
      · simp only [CondOk]
        refine ⟨?_, hc'.2.1, hc'.2.2.1, addConds_ok hc'.2.2.2 ks.inner1 h hx⟩
        rcases hc'.1 with h1 | h1
        · exact absurd h1.1 hem
        · exact .inr h1
      · exact compoundCreate_ok ks h hc hx

theorem build_ok (p : Calls) (hu : p.Usable) : CondOk p.build := by
  induction p with
  | atom v => simpa [Calls.build, CondOk, Calls.Usable] using hu
  | empty => simp [Calls.build, Cond.empty, CondOk, CondOkL]
  | bin ks h p q ihp ihq =>
    simp only [Calls.Usable] at hu
    exact combine_ok ks h (ihp hu.1) (ihq hu.2)
  | pattern ks h p v ih =>
    simp only [Calls.Usable] at hu
    exact compoundCreate_ok ks h (ih hu.1) (by simpa [CondOk] using hu.2)
  | not k kn p ih =>
    simp only [Calls.Usable] at hu
    simpa [Calls.build, Cond.not, CondOk] using ih hu.1

/-! ### Empty conditions -/

theorem combine_hasCondition (ks : Cond.Keys) {c x : Cond} (h : BOp) (hc : CondOk c) (hx : CondOk x) :
    (Cond.combine ks c h.op x).hasCondition = (c.hasCondition || x.hasCondition) := by
  have hcreate : ∀ {l r : Cond}, CondOk l → CondOk r →
      (Cond.compoundCreate ks l h.op r).hasCondition = (l.hasCondition || r.hasCondition) := by
    intro l r hl hr
    rw [compoundCreate_eq ks h hl hr, hasCondition_compound]
    have := addConds_isEmpty (op := some h.op) (conds := Cond.addConds (some h.op) [] ks.inner1 h.op l) (ki := ks.inner2)
      (h := h.op) hr
    rw [addConds_isEmpty hl, ← List.isEmpty_iff] at this
    generalize l.hasCondition = p at this ⊢
    generalize r.hasCondition = q at this ⊢
    generalize (Cond.addConds (some h.op) (Cond.addConds (some h.op) [] ks.inner1 h.op l) ks.inner2 h.op r).isEmpty = t at this ⊢
    revert this
    cases p <;> cases q <;> cases t <;> simp
  cases c with
  | atom v => exact hcreate hc hx
  | neg k kn c => exact hcreate hc hx
  | compound k op conds em err nn hcp cp =>
    rw [show Cond.combine ks (.compound k op conds em err nn hcp cp) h.op x =
      Cond.add ks (.compound k op conds em err nn hcp cp) h.op x from rfl]
    simp only [Cond.add]
    split
    · rename_i hem
      have := addConds_isEmpty (op := some h.op) (conds := []) (ki := ks.inner1) (h := h.op) hx
      rw [Cond.wrapped, hasCondition_compound, hasCondition_compound, hem]
      rw [← List.isEmpty_iff] at this
      generalize x.hasCondition = p at this ⊢
      generalize (Cond.addConds (some h.op) [] ks.inner1 h.op x).isEmpty = t at this ⊢
      revert this
      cases p <;> cases t <;> simp
    · rename_i hem
      have hem' : em = false := by simpa using hem
      split
      · have := addConds_isEmpty (op := op) (conds := conds) (ki := ks.inner1) (h := h.op) hx
        rw [hasCondition_compound, hasCondition_compound, hem']
        rw [← List.isEmpty_iff, ← List.isEmpty_iff] at this
        generalize x.hasCondition = p at this ⊢
        generalize conds.isEmpty = q at this ⊢
        generalize (Cond.addConds op conds ks.inner1 h.op x).isEmpty = t at this ⊢
        revert this
        cases p <;> cases q <;> cases t <;> simp
      · exact hcreate hc hx

theorem build_hasCondition (p : Calls) (hu : p.Usable) : p.build.hasCondition = !p.vacuous := by
  induction p with
  | atom v => rfl
  | empty => rfl
  | bin ks h p q ihp ihq =>
    simp only [Calls.Usable] at hu
    simp only [Calls.build, Calls.vacuous]
    rw [combine_hasCondition ks h (build_ok p hu.1) (build_ok q hu.2), ihp hu.1, ihq hu.2]
    cases p.vacuous <;> cases q.vacuous <;> rfl
  | pattern ks h p v ih =>
    simp only [Calls.Usable] at hu
    have hv : CondOk (.atom v) := by simpa [CondOk] using hu.2
    simp only [Calls.build, Cond.combinePattern]
    rw [compoundCreate_eq ks h (build_ok p hu.1) hv, hasCondition_compound, Calls.vacuous]
    have := addConds_isEmpty (op := some h.op) (conds := Cond.addConds (some h.op) [] ks.inner1 h.op p.build) (ki := ks.inner2)
      (h := h.op) hv
    cases hh : Cond.addConds (some h.op) (Cond.addConds (some h.op) [] ks.inner1 h.op p.build) ks.inner2 h.op (.atom v) with
    | nil => rw [hh] at this; simp [Cond.hasCondition] at this
    | cons _ _ => rfl
  | not k kn p ih => rfl

theorem toks_none {c : Cond} (hc : CondOk c) (h : c.hasCondition = false) : toks c = [] := by
  cases c with
  | atom v => simp [Cond.hasCondition] at h
  | neg k kn c => simp [Cond.hasCondition] at h
  | compound k op conds em err nn hcp cp =>
    have : conds = [] := by
      simp only [CondOk] at hc
      rcases hc.1 with h1 | h1
      · exact h1.2.1
      · simpa [Cond.hasCondition, h1.1] using h
    simp [this, toks, toksL]

theorem toks_one (k : Key) (op : Option Op) (c : Cond) (em : Bool) (err : Option Err) (nn hcp : Bool) (cp : List Cond) :
    toks (.compound k op [c] em err nn hcp cp) = toks c := by
  simp [toks, toksL]

theorem toks_wrapped (ki : Key) (h : Op) (x : Cond) : toks (Cond.wrapped ki h [x]) = toks x := by
  simp [Cond.wrapped, toks_one]

/-- Adding to a compound without conditions. -/
theorem toks_addConds_nil (k : Key) (op : Option Op) (ki : Key) (h : BOp) {x : Cond} (hx : CondOk x) (em : Bool) (err : Option Err)
    (nn hcp : Bool) (cp : List Cond) :
    toks (.compound k op (Cond.addConds op [] ki h.op x) em err nn hcp cp) = toks x := by
  cases x with
  | atom v => simp [Cond.addConds, toks_one]
  | neg k kn c => simp [Cond.addConds, toks_one]
  | compound k' op' conds' em' err' nn' hcp' cp' =>
    by_cases hh : (Cond.compound k' op' conds' em' err' nn' hcp' cp').hasCondition = true
    · rw [Cond.addConds, if_neg (by simp [hh])]
      by_cases h2 : op = some h.op ∧ op' = some h.op
      · rw [if_pos h2]
        split
        · simp [toks, h2.1, h2.2]
        · exact toks_one ..
      · rw [if_neg h2, List.nil_append, toks_one, toks_wrapped]
    · rw [Cond.addConds, if_pos (by simpa using hh), toks_none hx (by simpa using hh)]
      simp [toks, toksL]

theorem addConds_none {op : Option Op} {conds : List Cond} {ki : Key} {h : Op} {x : Cond} (hh : x.hasCondition = false) :
    Cond.addConds op conds ki h x = conds := by
  cases x with
  | atom v => simp [Cond.hasCondition] at hh
  | neg k kn c => simp [Cond.hasCondition] at hh
  | compound k' op' conds' em' err' nn' hcp' cp' => rw [Cond.addConds, if_pos (by simpa using hh)]

/-- An empty argument adds no words. -/
theorem toks_combine_none (ks : Cond.Keys) {c x : Cond} (h : BOp) (hc : CondOk c) (hx : CondOk x) (hh : x.hasCondition = false) :
    toks (Cond.combine ks c h.op x) = toks c := by
  have hcreate : toks (Cond.compoundCreate ks c h.op x) = toks c := by
    rw [compoundCreate_eq ks h hc hx]
    simp only [addConds_none hh]
    exact toks_addConds_nil _ _ _ h hc ..
  cases c with
  | atom v => exact hcreate
  | neg k kn c => exact hcreate
  | compound k op conds em err nn hcp cp =>
    rw [show Cond.combine ks (.compound k op conds em err nn hcp cp) h.op x =
      Cond.add ks (.compound k op conds em err nn hcp cp) h.op x from rfl]
    simp only [Cond.add, addConds_none hh]
    split
    · rename_i hem
      rw [toks_none hc (by simp [Cond.hasCondition, hem])]
      simp [Cond.wrapped, toks, toksL]
    · split
      · simp [toks]
      · exact hcreate

/-- An empty receiver adds no words. -/
theorem toks_none_combine (ks : Cond.Keys) {c x : Cond} (h : BOp) (hc : CondOk c) (hx : CondOk x) (hh : c.hasCondition = false) :
    toks (Cond.combine ks c h.op x) = toks x := by
  cases c with
  | atom v => simp [Cond.hasCondition] at hh
  | neg k kn c => simp [Cond.hasCondition] at hh
  | compound k op conds em err nn hcp cp =>
    rw [show Cond.combine ks (.compound k op conds em err nn hcp cp) h.op x =
      Cond.add ks (.compound k op conds em err nn hcp cp) h.op x from rfl]
    have hconds : conds = [] := by
      have hc' := hc
      simp only [CondOk] at hc'
      rcases hc'.1 with h1 | h1
      · exact h1.2.1
      · simpa [Cond.hasCondition, h1.1] using hh
    simp only [Cond.add]
    split
    · exact toks_addConds_nil _ _ _ h hx ..
    · split
      · rw [hconds]; exact toks_addConds_nil _ _ _ h hx ..
      · rw [compoundCreate_eq ks h hc hx, addConds_none hh]
        exact toks_addConds_nil _ _ _ h hx ..

end Verif
