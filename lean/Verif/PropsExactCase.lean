import Verif.PropsExprs

/-
C62: what a CASE expression contains, for every sequence of calls, with or without errors.
-/

namespace Verif
namespace Spec

/-- The error of what a call puts after THEN or ELSE. -/
def CaseCall.err : CaseCall → Option Err
  | .when _ _ _ t => t.err
  | .els _ d => d.err

/-- The error of what a call puts after WHEN. -/
def CaseCall.whenErr : CaseCall → Option Err
  | .when _ _ w _ => w.err
  | .els _ _ => none

/-- The branch that a call adds. -/
def CaseCall.branch : CaseCall → Option Branch
  | .when k kw w t => some ⟨k, kw, w, t⟩
  | .els _ _ => none

/-- The default that a call sets. -/
def CaseCall.default : CaseCall → Option (Key × Val)
  | .when _ _ _ _ => none
  | .els k d => some (k, d)

/-- The identifiers of the objects that a call creates. -/
def CaseCall.keys : CaseCall → List Key
  | .when k kw _ _ => [k, kw]
  | .els k _ => [k]

/-- The calls after the last one with an error. -/
def sinceError (cs : List CaseCall) : List CaseCall := (cs.reverse.takeWhile fun c => c.err.isNone).reverse

/-- The last of all errors: of the subject, of a THEN, of an ELSE. -/
def lastError (subject : Option Val) (cs : List CaseCall) : Option Err :=
  ((subject.bind (·.err)).toList ++ cs.filterMap CaseCall.err).getLast?

/-- The branches that are left: those added since the last error. -/
def branchesLeft (cs : List CaseCall) : List Branch := (sinceError cs).filterMap CaseCall.branch

/-- The default that is left: only the last call can have set it. -/
def defaultLeft (cs : List CaseCall) : Option (Key × Val) := (sinceError cs).getLast?.bind CaseCall.default

end Spec
open Spec

theorem sinceError_snoc (cs : List CaseCall) (x : CaseCall) : sinceError (cs ++ [x]) = if x.err.isNone then sinceError cs ++ [x] else [] := by
  unfold sinceError
  rw [List.reverse_append]
  simp only [List.reverse_cons, List.reverse_nil, List.nil_append, List.singleton_append, List.takeWhile_cons]
  split <;> simp

theorem lastError_snoc (s : Option Val) (cs : List CaseCall) (x : CaseCall) :
    lastError s (cs ++ [x]) = match x.err with | some e => some e | none => lastError s cs := by
  unfold lastError
  rw [List.filterMap_append, ← List.append_assoc]
  cases h : x.err with
  | none => simp [h]
  | some e => simp [h]

/-- The subject that is left. -/
def subjectLeft (s : Option Val) (cs : List CaseCall) : Option Val := if (lastError s cs).isNone then s else none

/-- The state after any calls. -/
def caseLeft (k : Key) (s : Option Val) (cs : List CaseCall) (c : CaseV) : Prop :=
  (branchesLeft cs = [] → ∀ er, lastError s cs = some er → c = { CaseV.bad er with els := defaultLeft cs }) ∧
  ((branchesLeft cs ≠ [] ∨ lastError s cs = none) →
    ∃ k', k' ∈ k :: cs.flatMap CaseCall.keys ∧ c = caseVal k' (subjectLeft s cs) (branchesLeft cs) (defaultLeft cs))

theorem runCase_snoc (c : CaseV) (cs : List CaseCall) (x : CaseCall) : runCase c (cs ++ [x]) = (runCase c cs).bind fun c => runCase c [x] := by
  induction cs generalizing c with
  | nil => rfl
  | cons y cs ih =>
    cases y with
    | els ke d => simp only [List.cons_append, runCase, ih]
    | when k kw w t =>
      simp only [List.cons_append, runCase]
      cases c.whenThen k kw w t with
      | panic => rfl
      | ok c' => exact ih c'

theorem caseLeft_start (k : Key) (s : Option Val) : caseLeft k s [] (caseStart k s) := by
  constructor
  · intro _ er he
    cases s with
    | none => cases he
    | some s =>
      have : s.err = some er := by
        cases h : s.err with
        | none => simp [lastError, h] at he
        | some e => simpa [lastError, h] using he
      simp [caseStart, CaseV.simple, errOf, this, CaseV.bad, defaultLeft, sinceError]
  · intro h
    have he : lastError s [] = none := by simpa [branchesLeft, sinceError] using h
    refine ⟨k, by simp, ?_⟩
    cases s with
    | none => rfl
    | some s =>
      have : s.err = none := by
        cases h : s.err with
        | none => rfl
        | some e => simp [lastError, h] at he
      simp [caseStart, CaseV.simple, errOf, this, caseVal, subjectLeft, he, branchesLeft, defaultLeft, sinceError]

theorem caseLeft_snoc (k : Key) (s : Option Val) (hs : ∀ v, s = some v → v.err = none → v.notNil = true) (cs : List CaseCall) (x : CaseCall) (c c' : CaseV)
    (h : caseLeft k s cs c) (hx : runCase c [x] = .ok c') : caseLeft k s (cs ++ [x]) c' := by
  -- what the state is, in both cases
  have hsub : ∀ v, c.subject = some v → Good v := by
    intro v hv
    by_cases hb : branchesLeft cs ≠ [] ∨ lastError s cs = none
    · obtain ⟨k', -, rfl⟩ := h.2 hb
      simp only [caseVal, subjectLeft] at hv
      split at hv
      · rename_i hn
        have : v.err = none := by
          cases hve : v.err with
          | none => rfl
          | some e =>
            simp only [Option.isNone_iff_eq_none, lastError, List.getLast?_eq_none_iff, List.append_eq_nil_iff] at hn
            simp [hv, hve] at hn
        exact ⟨this, hs v hv this⟩
      · cases hv
    · simp only [ne_eq, not_or, Classical.not_not] at hb
      obtain ⟨er, her⟩ := Option.ne_none_iff_exists'.mp hb.2
      rw [h.1 hb.1 er her] at hv
      cases hv
  have hwh : c.whens = (branchesLeft cs).map fun b => (b.kw, b.w, b.t) := by
    by_cases hb : branchesLeft cs ≠ [] ∨ lastError s cs = none
    · obtain ⟨k', -, rfl⟩ := h.2 hb
      rfl
    · simp only [ne_eq, not_or, Classical.not_not] at hb
      obtain ⟨er, her⟩ := Option.ne_none_iff_exists'.mp hb.2
      rw [h.1 hb.1 er her, hb.1]
      rfl
  have hsu : c.subject = subjectLeft s cs := by
    by_cases hb : branchesLeft cs ≠ [] ∨ lastError s cs = none
    · obtain ⟨k', -, rfl⟩ := h.2 hb
      rfl
    · simp only [ne_eq, not_or, Classical.not_not] at hb
      obtain ⟨er, her⟩ := Option.ne_none_iff_exists'.mp hb.2
      rw [h.1 hb.1 er her]
      simp [CaseV.bad, subjectLeft, her]
  cases he : x.err with
  | some er =>
    have hc' : c' = CaseV.bad er := by
      cases x with
      | els ke d =>
        simp only [CaseCall.err] at he
        simp only [runCase, CaseV.elseDefault, he, Outcome.ok.injEq] at hx
        exact hx.symm
      | when k2 kw w t =>
        simp only [CaseCall.err] at he
        simp only [runCase, CaseV.whenThen] at hx
        cases hw : w.err with
        | some _ => rw [hw] at hx; cases hx
        | none =>
          simp only [hw, he, Outcome.bind, Outcome.ok.injEq] at hx
          rw [← hx]
          cases hc : c.subject with
          | none => simp [CaseV.ending]
          | some v => simp [CaseV.ending, (hsub v hc).1, (hsub v hc).2]
    constructor
    · intro _ er' her'
      simp only [lastError_snoc, he, Option.some.injEq] at her'
      subst her'
      rw [hc']
      simp [defaultLeft, sinceError_snoc, he, CaseV.bad]
    · intro hb
      simp [branchesLeft, sinceError_snoc, lastError_snoc, he] at hb
  | none =>
    have hl : lastError s (cs ++ [x]) = lastError s cs := by rw [lastError_snoc, he]
    have hsl : subjectLeft s (cs ++ [x]) = subjectLeft s cs := by simp only [subjectLeft, hl]
    have hse : sinceError (cs ++ [x]) = sinceError cs ++ [x] := by simp [sinceError_snoc, he]
    have hdl : defaultLeft (cs ++ [x]) = x.default := by simp [defaultLeft, hse]
    cases x with
    | els ke d =>
      have hbl : branchesLeft (cs ++ [.els ke d]) = branchesLeft cs := by simp [branchesLeft, hse, CaseCall.branch]
      simp only [CaseCall.err] at he
      simp only [runCase, CaseV.elseDefault, he, Outcome.ok.injEq] at hx
      constructor
      · intro hb er her
        rw [hbl] at hb
        rw [hl] at her
        rw [← hx, h.1 hb er her, hdl]
        rfl
      · intro hb
        rw [hbl, hl] at hb
        obtain ⟨k', hk', rfl⟩ := h.2 hb
        refine ⟨k', ?_, ?_⟩
        · simp only [List.mem_cons, List.flatMap_append, List.mem_append] at hk' ⊢
          exact hk'.imp id .inl
        · rw [← hx, hbl, hdl, hsl]
          rfl
    | when k2 kw w t =>
      have hbl : branchesLeft (cs ++ [.when k2 kw w t]) = branchesLeft cs ++ [⟨k2, kw, w, t⟩] := by simp [branchesLeft, hse, CaseCall.branch]
      simp only [CaseCall.err] at he
      simp only [runCase, CaseV.whenThen] at hx
      cases hw : w.err with
      | some _ => rw [hw] at hx; cases hx
      | none =>
        simp only [hw, he, Outcome.bind, Outcome.ok.injEq] at hx
        constructor
        · intro hb
          simp [hbl] at hb
        · intro _
          refine ⟨k2, by simp [CaseCall.keys], ?_⟩
          rw [← hx, hbl, hdl, hsl, ← hsu, hwh]
          cases hc : c.subject with
          | none => simp [CaseV.ending, caseVal, CaseCall.default]
          | some v => simp [CaseV.ending, caseVal, CaseCall.default, (hsub v hc).1, (hsub v hc).2]

/-- Induction on the last element. -/
theorem list_snoc_induction {α : Type} {P : List α → Prop} (h0 : P []) (h1 : ∀ xs x, P xs → P (xs ++ [x])) (xs : List α) : P xs := by
  have : ∀ ys : List α, P ys.reverse := fun ys => by
    induction ys with
    | nil => exact h0
    | cons y ys ih => rw [List.reverse_cons]; exact h1 _ _ ih
  simpa using this xs.reverse

theorem caseLeft_run (k : Key) (s : Option Val) (hs : ∀ v, s = some v → v.err = none → v.notNil = true) (cs : List CaseCall) :
    (runCase (caseStart k s) cs = .panic ↔ ∃ x ∈ cs, x.whenErr ≠ none) ∧ ∀ c, runCase (caseStart k s) cs = .ok c → caseLeft k s cs c := by
  induction cs using list_snoc_induction with
  | h0 => exact ⟨by simp [runCase], fun c hc => by cases hc; exact caseLeft_start k s⟩
  | h1 cs x ih =>
    rw [runCase_snoc]
    cases hr : runCase (caseStart k s) cs with
    | panic =>
      obtain ⟨y, hy, hye⟩ := ih.1.mp hr
      exact ⟨⟨fun _ => ⟨y, by simp [hy], hye⟩, fun _ => rfl⟩, fun c hc => by cases hc⟩
    | ok c1 =>
      have hno : ¬ ∃ y ∈ cs, y.whenErr ≠ none := fun h => by rw [ih.1.mpr h] at hr; cases hr
      refine ⟨?_, fun c hc => caseLeft_snoc k s hs cs x c1 c (ih.2 c1 hr) hc⟩
      have : (∃ y ∈ cs ++ [x], y.whenErr ≠ none) ↔ x.whenErr ≠ none := by
        constructor
        · rintro ⟨y, hy, hye⟩
          rcases List.mem_append.mp hy with h | h
          · exact absurd ⟨y, h, hye⟩ hno
          · rw [List.mem_singleton.mp h] at hye; exact hye
        · exact fun h => ⟨x, by simp, h⟩
      rw [this]
      cases x with
      | els ke d => simp [Outcome.bind, runCase, CaseCall.whenErr]
      | when k2 kw w t =>
        cases hw : w.err with
        | none => simp [Outcome.bind, runCase, CaseV.whenThen, CaseCall.whenErr, hw]
        | some e => simp [Outcome.bind, runCase, CaseV.whenThen, CaseCall.whenErr, hw]

/-! ### C62 -/

/-- C62: for every sequence of calls of `When`/`Then` and `ElseDefault` after `CaseExpression(subject)` or `GenericCaseExpression()`, with
any arguments.  It panics exactly if the argument of a `When` has an error.  It has an error exactly if something had an error and no
`When` came after the last such error, and then this is the last error.  Otherwise the text is CASE, the subject, the branches, the default,
END, where the branches are those added since the last error, the subject is gone if there was an error, and the default is there exactly if
setting it was the last call.  (Every expression but a bare `PropertyLookup` satisfies `hs`.) -/
theorem C62_case (k : Key) (subject : Option Val) (hs : ∀ v, subject = some v → v.err = none → v.notNil = true) (cs : List CaseCall) :
    (runCase (caseStart k subject) cs = .panic ↔ ∃ x ∈ cs, x.whenErr ≠ none) ∧
    ∀ c, runCase (caseStart k subject) cs = .ok c →
      c.err = (if branchesLeft cs = [] then lastError subject cs else none) ∧
      (c.err = none → ∀ e, NoAlias e (k :: cs.flatMap CaseCall.keys) c.visit →
        shownAs e c.visit = layout e (caseParts (if (lastError subject cs).isNone then subject else none) (branchesLeft cs)
          ((defaultLeft cs).map (·.2)))) := by
  obtain ⟨h1, h2⟩ := caseLeft_run k subject hs cs
  refine ⟨h1, fun c hc => ?_⟩
  have h := h2 c hc
  by_cases hb : branchesLeft cs ≠ [] ∨ lastError subject cs = none
  · obtain ⟨k', hk', hc'⟩ := h.2 hb
    have hce : c.err = none := by rw [hc']; rfl
    refine ⟨?_, fun _ e ha => ?_⟩
    · rw [hce]
      split
      · rename_i h0
        exact (hb.resolve_left (by simp [h0])).symm
      · rfl
    · have hmem : ∀ x ∈ sinceError cs, x ∈ cs := by
        intro x hx
        have := List.mem_reverse.mp hx
        exact List.mem_reverse.mp ((List.takeWhile_sublist _).mem this)
      have hgood : ∀ v, subjectLeft subject cs = some v → Good v := by
        intro v hv
        unfold subjectLeft at hv
        split at hv
        · rename_i hn
          have : v.err = none := by
            cases hve : v.err with
            | none => rfl
            | some e =>
              simp only [Option.isNone_iff_eq_none, lastError, List.getLast?_eq_none_iff, List.append_eq_nil_iff] at hn
              simp [hv, hve] at hn
          exact ⟨this, hs v hv this⟩
        · cases hv
      have hdk : dkeysL c.visit = dkeysL (visitIfNotNull (subjectLeft subject cs) ++ ((branchesLeft cs).map fun b => (b.kw, b.w, b.t)).flatMap CaseV.branchVisit ++
          CaseV.elseVisit (defaultLeft cs)) := by
        rw [hc']
        simp only [CaseV.visit, dkeysL_nd, caseVal]
      have : shownAs e c.visit = layout e (caseParts (subjectLeft subject cs) (branchesLeft cs) ((defaultLeft cs).map (·.2))) := by
        rw [hc'] at ha ⊢
        rw [hc'] at hdk
        refine case_layout hgood ha hk' ?_ ?_ ?_ ?_ ?_
        · intro b hb'
          obtain ⟨x, hx, hxb⟩ := List.mem_filterMap.mp hb'
          cases x with
          | els _ _ => cases hxb
          | when k2 kw w t =>
            cases hxb
            exact List.mem_cons_of_mem _ (List.mem_flatMap.mpr ⟨_, hmem _ hx, by simp [CaseCall.keys]⟩)
        · intro d hd
          obtain ⟨x, hx, hxd⟩ := Option.bind_eq_some_iff.mp hd
          cases x with
          | when _ _ _ _ => cases hxd
          | els ke d' =>
            cases hxd
            exact List.mem_cons_of_mem _ (List.mem_flatMap.mpr ⟨_, hmem _ (List.mem_of_getLast? hx), by simp [CaseCall.keys]⟩)
        · intro s hs' k' hk'
          rw [hdk]
          simp [visitIfNotNull, hs', (hgood s hs').2, dkeysL_append, hk']
        · intro k' hk'
          rw [hdk]
          have : ∀ bs : List Branch, dkeysL ((bs.map fun b => (b.kw, b.w, b.t)).flatMap CaseV.branchVisit) =
              dkeysL (bs.flatMap fun b => b.w.visit ++ b.t.visit) := by
            intro bs
            induction bs with
            | nil => rfl
            | cons b bs ih => simp [List.flatMap_cons, dkeysL_append, ih, CaseV.branchVisit, dkeysL, dkeys_nd]
          simp [dkeysL_append, this, hk']
        · intro d hd' k' hk'
          rw [hdk]
          simp [dkeysL_append, hd', CaseV.elseVisit, dkeysL_nd, hk']
      exact this
  · simp only [ne_eq, not_or, Classical.not_not] at hb
    obtain ⟨er, her⟩ := Option.ne_none_iff_exists'.mp hb.2
    have hc' := h.1 hb.1 er her
    refine ⟨by rw [hc', if_pos hb.1, her]; rfl, fun h0 => ?_⟩
    rw [hc'] at h0
    cases h0

namespace SampleExpr
/-- The error and the text after calls on `CaseExpression(a)`; nothing if they panic. -/
def caseOf (cs : List CaseCall) : Option (Option Err × Str) :=
  match runCase (caseStart 200 (some wa)) cs with
  | .panic => none
  | .ok c => some (c.err, if c.err.isNone then text c.visit else [])
def w1 : CaseCall := .when 201 202 wb wc
def w2 : CaseCall := .when 203 204 wc wd
def bad1 : CaseCall := .when 205 206 wb wx
def e1 : CaseCall := .els 207 wd
end SampleExpr
open SampleExpr

-- the cases of the theorem: all good; a default in between; an error in between; an error at the end; an error followed by a default only
example : caseOf [w1, w2, e1] = some (none, c!"CASE a WHEN b THEN c WHEN c THEN d ELSE d END") := by decide +kernel
example : caseOf [w1, e1, w2] = some (none, c!"CASE a WHEN b THEN c WHEN c THEN d END") := by decide +kernel
example : caseOf [w1, bad1, w2, e1] = some (none, c!"CASE WHEN c THEN d ELSE d END") ∧ branchesLeft [w1, bad1, w2, e1] = [⟨203, 204, wc, wd⟩] :=
  ⟨by decide +kernel, rfl⟩
example : caseOf [w1, bad1] = some (some (.other 7), []) ∧ caseOf [w1, bad1, e1] = some (some (.other 7), []) := by decide +kernel
example : caseOf [.when 201 202 wx wc] = none := rfl

end Verif
