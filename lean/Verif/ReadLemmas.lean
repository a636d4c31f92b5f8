import Verif.ReadSpec
import Mathlib.Tactic.IntervalCases

/-
Lemmas about the reader of expressions.
-/

namespace Verif.Rd
open Spec

variable {I : Meaning} {tight : Bool}

/-! ### The reader as relations -/

def RE (I : Meaning) (tight : Bool) (l : Nat) (ts : List Token) (d : I.D) (r : List Token) : Prop :=
  ∃ N, ∀ n ≥ N, readExpr I tight n l ts = some (d, r)
def RM (I : Meaning) (tight : Bool) (l : Nat) (d : I.D) (ts : List Token) (d' : I.D) (r : List Token) : Prop :=
  ∃ N, ∀ n ≥ N, readMore I tight n l d ts = some (d', r)
def RP (I : Meaning) (tight : Bool) (d : I.D) (ts : List Token) (d' : I.D) (r : List Token) : Prop :=
  ∃ N, ∀ n ≥ N, readPostfix I tight n d ts = some (d', r)
def RA (I : Meaning) (tight : Bool) (ts : List Token) (d : I.D) (r : List Token) : Prop :=
  ∃ N, ∀ n ≥ N, readAtom I tight n ts = some (d, r)
def RArgs (I : Meaning) (tight : Bool) (c : Char) (ts : List Token) (ds : List I.D) (r : List Token) : Prop :=
  ∃ N, ∀ n ≥ N, readArgs I tight n c ts = some (ds, r)
def RArgs1 (I : Meaning) (tight : Bool) (c : Char) (ts : List Token) (ds : List I.D) (r : List Token) : Prop :=
  ∃ N, ∀ n ≥ N, readArgs1 I tight n c ts = some (ds, r)
def RQuantified (I : Meaning) (tight : Bool) (w x : Str) (l : I.D) (ts : List Token) (d : I.D) (r : List Token) : Prop :=
  ∃ N, ∀ n ≥ N, readQuantified I tight n w x l ts = some (d, r)
def RComprehension (I : Meaning) (tight : Bool) (x : Str) (l : I.D) (ts : List Token) (d : I.D) (r : List Token) : Prop :=
  ∃ N, ∀ n ≥ N, readComprehension I tight n x l ts = some (d, r)
def RResult (I : Meaning) (tight : Bool) (x : Str) (l : I.D) (c : Option I.D) (ts : List Token) (d : I.D) (r : List Token) : Prop :=
  ∃ N, ∀ n ≥ N, readResult I tight n x l c ts = some (d, r)
def REntries (I : Meaning) (tight : Bool) (ts : List Token) (ds : List (Str × I.D)) (r : List Token) : Prop :=
  ∃ N, ∀ n ≥ N, readEntries I tight n ts = some (ds, r)
def RBranches (I : Meaning) (tight : Bool) (s : Option I.D) (bs : List (I.D × I.D)) (ts : List Token) (d : I.D) (r : List Token) : Prop :=
  ∃ N, ∀ n ≥ N, readBranches I tight n s bs ts = some (d, r)

/-- The levels with operators between operands. -/
def loops (l : Nat) : Prop := l < 11 ∧ l ≠ 3 ∧ l ≠ 9

theorem RE.not {t : Token} {ts r : List Token} {d : I.D} (ht : t.is c!"not" = true) (h : RE I tight 3 ts d r) :
    RE I tight 3 (t :: ts) (I.not d) r := by
  obtain ⟨N, h⟩ := h
  refine ⟨N + 1, fun n hn => ?_⟩
  obtain ⟨m, rfl⟩ : ∃ m, n = m + 1 := ⟨n - 1, by omega⟩
  rw [readExpr.eq_def]
  simp [ht, h m (by omega)]

theorem RE.three {t : Token} {ts r : List Token} {d : I.D} (ht : t.is c!"not" = false) (h : RE I tight 4 (t :: ts) d r) :
    RE I tight 3 (t :: ts) d r := by
  obtain ⟨N, h⟩ := h
  refine ⟨N + 1, fun n hn => ?_⟩
  obtain ⟨m, rfl⟩ : ∃ m, n = m + 1 := ⟨n - 1, by omega⟩
  rw [readExpr.eq_def]
  simp [ht, h m (by omega)]

theorem RE.neg {ts r : List Token} {d : I.D} (h : RE I tight 9 ts d r) : RE I tight 9 (.sym '-' :: ts) (I.neg d) r := by
  obtain ⟨N, h⟩ := h
  refine ⟨N + 1, fun n hn => ?_⟩
  obtain ⟨m, rfl⟩ : ∃ m, n = m + 1 := ⟨n - 1, by omega⟩
  rw [readExpr.eq_def]
  simp [h m (by omega)]

theorem RE.nine {t : Token} {ts r : List Token} {d : I.D} (ht : t ≠ .sym '-') (h : RE I tight 10 (t :: ts) d r) :
    RE I tight 9 (t :: ts) d r := by
  obtain ⟨N, h⟩ := h
  refine ⟨N + 1, fun n hn => ?_⟩
  obtain ⟨m, rfl⟩ : ∃ m, n = m + 1 := ⟨n - 1, by omega⟩
  rw [readExpr.eq_def]
  simp [h m (by omega)]
  split
  · rename_i heq; simp at heq; exact absurd heq.1 ht
  · rename_i heq
    simp [h m (by omega)]

theorem RE.atom {ts r r' : List Token} {d d' : I.D} (h : RA I tight ts d r) (h' : RP I tight d r d' r') : RE I tight 11 ts d' r' := by
  obtain ⟨N, h⟩ := h
  obtain ⟨N', h'⟩ := h'
  refine ⟨N + N' + 1, fun n hn => ?_⟩
  obtain ⟨m, rfl⟩ : ∃ m, n = m + 1 := ⟨n - 1, by omega⟩
  rw [readExpr.eq_def]
  simp [h m (by omega), h' m (by omega)]

theorem RE.loop {l : Nat} (hl : loops l) {ts r r' : List Token} {d d' : I.D} (h : RE I tight (l + 1) ts d r) (h' : RM I tight l d r d' r') :
    RE I tight l ts d' r' := by
  obtain ⟨N, h⟩ := h
  obtain ⟨N', h'⟩ := h'
  refine ⟨N + N' + 1, fun n hn => ?_⟩
  obtain ⟨m, rfl⟩ : ∃ m, n = m + 1 := ⟨n - 1, by omega⟩
  rw [readExpr.eq_def]
  simp [hl.2.1, hl.2.2, show ¬ 11 ≤ l from by have := hl.1; omega, h m (by omega), h' m (by omega)]

theorem RM.stop {l : Nat} {ts : List Token} (d : I.D) (h : opAt tight l ts = none) (h' : nullAt tight l ts = none) : RM I tight l d ts d ts := by
  refine ⟨1, fun n hn => ?_⟩
  obtain ⟨m, rfl⟩ : ∃ m, n = m + 1 := ⟨n - 1, by omega⟩
  rw [readMore.eq_def]
  simp [h, h']

theorem RM.op {l : Nat} {o : BinOp} {ts r r' r'' : List Token} {d d' d'' : I.D} (hl : l ≠ 4) (h : opAt tight l ts = some (o, r))
    (h' : RE I tight (l + 1) r d' r') (h'' : RM I tight l (I.bin o d d') r' d'' r'') : RM I tight l d ts d'' r'' := by
  obtain ⟨N, h'⟩ := h'
  obtain ⟨N', h''⟩ := h''
  refine ⟨N + N' + 1, fun n hn => ?_⟩
  obtain ⟨m, rfl⟩ : ∃ m, n = m + 1 := ⟨n - 1, by omega⟩
  rw [readMore.eq_def]
  simp [h, h' m (by omega), h'' m (by omega), hl]

theorem RM.cmp {o : BinOp} {ts r r' : List Token} {d d' : I.D} (h : opAt tight 4 ts = some (o, r))
    (h' : RE I tight 5 r d' r') : RM I tight 4 d ts (I.bin o d d') r' := by
  obtain ⟨N, h'⟩ := h'
  refine ⟨N + 1, fun n hn => ?_⟩
  obtain ⟨m, rfl⟩ : ∃ m, n = m + 1 := ⟨n - 1, by omega⟩
  rw [readMore.eq_def]
  simp [h, h' m (by omega)]

theorem RM.null {l : Nat} {b : Bool} {ts r r' : List Token} {d d' : I.D} (h : opAt tight l ts = none) (h' : nullAt tight l ts = some (b, r))
    (h'' : RM I tight l (if b then I.isNull d else I.isNotNull d) r d' r') : RM I tight l d ts d' r' := by
  obtain ⟨N, h''⟩ := h''
  refine ⟨N + 1, fun n hn => ?_⟩
  obtain ⟨m, rfl⟩ : ∃ m, n = m + 1 := ⟨n - 1, by omega⟩
  rw [readMore.eq_def]
  simp [h, h', h'' m (by omega)]

/-! ### What may follow -/

/-- Nothing that would be taken for a property or an element. -/
def NoPostfix (r : List Token) : Prop :=
  r.head? ≠ some (.sym '[') ∧ (∀ s r', r ≠ .sym '.' :: .word s :: r') ∧ (∀ s r', r ≠ .sym '.' :: .quoted s :: r') ∧ r.head? ≠ some (.sym ':')

theorem RP.stop {ts : List Token} (d : I.D) (h : NoPostfix ts) : RP I tight d ts d ts := by
  refine ⟨1, fun n hn => ?_⟩
  obtain ⟨m, rfl⟩ : ∃ m, n = m + 1 := ⟨n - 1, by omega⟩
  rw [readPostfix.eq_def]
  obtain ⟨h1, h2, h3, h4⟩ := h
  simp only
  split
  · exact absurd rfl (h2 _ _)
  · exact absurd rfl (h3 _ _)
  · simp at h1
  · simp at h1
  · simp at h4
  · rfl

/-- The expression before `r` ends there, at any level from `j` on. -/
def Stops (tight : Bool) (j : Nat) (r : List Token) : Prop :=
  (∀ i, j ≤ i → i ≤ 10 → opAt tight i r = none ∧ nullAt tight i r = none) ∧ (j ≤ 11 → NoPostfix r) ∧ r.head? ≠ some (.sym '(') ∧ r.head? ≠ some (.sym '{')

theorem Stops.mono {j k : Nat} {r : List Token} (h : Stops tight j r) (hk : j ≤ k) : Stops tight k r :=
  ⟨fun i hi => h.1 i (by omega), fun hi => h.2.1 (by omega), h.2.2⟩

/-- How the reading goes on at level `j`. -/
def Cont (I : Meaning) (tight : Bool) (j : Nat) (d : I.D) (r : List Token) (d' : I.D) (r' : List Token) : Prop :=
  if j = 3 ∨ j = 9 then d' = d ∧ r' = r else if j = 11 then RP I tight d r d' r' else RM I tight j d r d' r'

theorem Cont.stop {j : Nat} {r : List Token} (hj : j ≤ 11) (h : Stops tight j r) (d : I.D) : Cont I tight j d r d r := by
  unfold Cont
  split
  · exact ⟨rfl, rfl⟩
  · split
    · exact RP.stop d (h.2.1 hj)
    · exact RM.stop d (h.1 j (by omega) (by omega)).1 (h.1 j (by omega) (by omega)).2

/-- The tokens are an operand of level `j`. -/
def Prefix (I : Meaning) (tight : Bool) (j : Nat) (ts : List Token) (d : I.D) : Prop :=
  ∀ r d' r', Stops tight (j + 1) r → Cont I tight j d r d' r' → RE I tight j (ts ++ r) d' r'

theorem Prefix.reads {j : Nat} {ts : List Token} {d : I.D} (hj : j ≤ 11) (h : Prefix I tight j ts d) {r : List Token} (hr : Stops tight j r) :
    RE I tight j (ts ++ r) d r := h r d r (hr.mono (by omega)) (Cont.stop hj hr d)

/-- How an expression may begin: operands of a level above 3 do not begin with NOT, those of a level above 9 not with a minus sign. -/
def Head (j : Nat) (ts : List Token) : Prop :=
  ∃ t r, ts = t :: r ∧ (4 ≤ j → t.is c!"not" = false) ∧ (10 ≤ j → t ≠ .sym '-') ∧
    (∀ w, t = .word w → lower w ∉ [c!"when", c!"distinct", c!"in"]) ∧
    (∀ c, t = .sym c → c ∈ ['(', '[', '{', '-'])

theorem Head.mono {j k : Nat} {ts : List Token} (h : Head j ts) (hk : k ≤ j) : Head k ts := by
  obtain ⟨t, r, h1, h2, h3, h4⟩ := h
  exact ⟨t, r, h1, fun h => h2 (by omega), fun h => h3 (by omega), h4⟩

theorem Prefix.down {j : Nat} {ts : List Token} {d : I.D} (hj : j < 11) (hh : Head (j + 1) ts) (h : Prefix I tight (j + 1) ts d) :
    Prefix I tight j ts d := by
  intro r d' r' hs hc
  have h0 := h.reads (by omega) hs
  obtain ⟨t, r0, rfl, h2, h3, _⟩ := hh
  by_cases h3' : j = 3
  · subst h3'
    simp only [Cont, true_or, if_true] at hc
    obtain ⟨rfl, rfl⟩ := hc
    exact RE.three (h2 (by omega)) h0
  · by_cases h9 : j = 9
    · subst h9
      simp only [Cont, or_true, if_true] at hc
      obtain ⟨rfl, rfl⟩ := hc
      exact RE.nine (h3 (by omega)) h0
    · simp only [Cont, h3', h9, or_self, if_false, show j ≠ 11 by omega] at hc
      exact RE.loop ⟨hj, h3', h9⟩ h0 hc

/-- An operand of a level is an operand of every weaker level. -/
theorem Prefix.below {j k : Nat} {ts : List Token} {d : I.D} (hj : j ≤ 11) (hk : k ≤ j) (hh : Head j ts) (h : Prefix I tight j ts d) :
    Prefix I tight k ts d := by
  induction j with
  | zero => simpa [show k = 0 by omega] using h
  | succ j ih =>
    by_cases hkj : k = j + 1
    · subst hkj; exact h
    · exact ih (by omega) (by omega) (hh.mono (by omega)) (h.down (by omega) hh)

/-! ### Operands -/

theorem RA.one {t : Token} {r : List Token} {d : I.D} (h : ∀ n, readAtom I tight (n + 1) (t :: r) = some (d, r)) : RA I tight (t :: r) d r := by
  refine ⟨1, fun n hn => ?_⟩
  obtain ⟨m, rfl⟩ : ∃ m, n = m + 1 := ⟨n - 1, by omega⟩
  exact h m

/-- These tokens, after an opening parenthesis, are no node. -/
def NotNode (I : Meaning) (tight : Bool) (ts : List Token) : Prop :=
  ∃ N, ∀ n ≥ N, nodeBy (readAtom I tight n) (.sym '(' :: ts) = none

/-- These tokens do not begin with a pattern. -/
def NotPattern (I : Meaning) (tight : Bool) (ts : List Token) : Prop :=
  ∃ N, ∀ n ≥ N, patternBy (readAtom I tight n) n ts = none

theorem NotNode.pattern {ts : List Token} (h : NotNode I tight ts) : NotPattern I tight (.sym '(' :: ts) := by
  obtain ⟨N, h⟩ := h
  exact ⟨N, fun n hn => by simp [patternBy, pathBy, h n hn]⟩

theorem NotPattern.head {ts : List Token} (h : ts.head? ≠ some (.sym '(')) : NotPattern I tight ts := by
  refine ⟨0, fun n _ => ?_⟩
  have : nodeBy (readAtom I tight n) ts = none := by
    unfold nodeBy
    split
    · simp at h
    · rfl
  simp [patternBy, pathBy, this]

/-- A node without a relationship is no pattern. -/
theorem NotPattern.node {ts r : List Token} (h : ∃ N, ∀ n ≥ N, ∃ p, nodeBy (readAtom I tight n) ts = some (p, r))
    (hr : r.head? ≠ some (.sym '-')) (hr' : r.head? ≠ some (.sym '<')) : NotPattern I tight ts := by
  obtain ⟨N, h⟩ := h
  refine ⟨N, fun n hn => ?_⟩
  obtain ⟨p, hp⟩ := h n hn
  have hs : stepBy (readAtom I tight n) r = none := by
    have : relBy (readAtom I tight n) r = none := by
      unfold relBy
      split <;> simp_all
    simp [stepBy, this]
  cases n with
  | zero => simp [patternBy, pathBy, stepsBy]
  | succ n => simp [patternBy, pathBy, hp, stepsBy, hs]

theorem labelsOf_head {ts : List Token} (h : ts.head? ≠ some (.sym ':')) : labelsOf ts = ([], ts) := by
  unfold labelsOf
  split <;> simp_all

theorem nodeBy_none {D : Type} {atom : List Token → Option (D × List Token)} {ts : List Token}
    (h1 : (optVar ts).2.head? ≠ some (.sym ':')) (h2 : (optVar ts).2.head? ≠ some (.sym '{')) (h3 : (optVar ts).2.head? ≠ some (.sym ')')) :
    nodeBy atom (.sym '(' :: ts) = none := by
  simp only [nodeBy, labelsOf_head h1, propsBy, h2, if_false, Option.bind_some]
  split <;> simp_all

theorem NotNode.of_head {t : Token} {ts : List Token} (h : varOf (t :: ts) = none) (h1 : t ≠ .sym ':') (h2 : t ≠ .sym '{') (h3 : t ≠ .sym ')') :
    NotNode I tight (t :: ts) :=
  ⟨0, fun n _ => nodeBy_none (by simp [optVar, h, h1]) (by simp [optVar, h, h2]) (by simp [optVar, h, h3])⟩

theorem NotNode.of_second {x t : Token} {ts : List Token} (h1 : t ≠ .sym ':') (h2 : t ≠ .sym '{') (h3 : t ≠ .sym ')')
    (h1' : x ≠ .sym ':') (h2' : x ≠ .sym '{') (h3' : x ≠ .sym ')') : NotNode I tight (x :: t :: ts) := by
  cases hv : varOf (x :: t :: ts) with
  | none => exact .of_head hv h1' h2' h3'
  | some p =>
    have hp : p.2 = t :: ts := by
      unfold varOf at hv
      split at hv
      · rename_i heq; simp at heq; rw [← heq.2] at hv; simp at hv; rw [← hv]
      · rename_i heq
        split at hv
        · cases hv
        · simp at heq; rw [← heq.2] at hv; simp at hv; rw [← hv]
      · cases hv
    exact ⟨0, fun n _ => nodeBy_none (by simp [optVar, hv, hp, h1]) (by simp [optVar, hv, hp, h2]) (by simp [optVar, hv, hp, h3])⟩

/-- A map is no node when something other than a closing parenthesis follows. -/
theorem NotNode.map {ts r : List Token} {d : I.D} (h : RA I tight (.sym '{' :: ts) d r) (hr : r.head? ≠ some (.sym ')')) :
    NotNode I tight (.sym '{' :: ts) := by
  obtain ⟨N, h⟩ := h
  refine ⟨N, fun n hn => ?_⟩
  simp only [nodeBy, optVar, varOf, labelsOf_head (ts := .sym '{' :: ts) (by simp), propsBy, List.head?_cons, if_true, h n hn]
  simp
  split <;> simp_all

theorem RA.paren {ts r : List Token} {d : I.D} (hp : NotPattern I tight (.sym '(' :: ts)) (h : RE I tight 0 ts d (.sym ')' :: r)) :
    RA I tight (.sym '(' :: ts) d r := by
  obtain ⟨N, h⟩ := h
  obtain ⟨N', hp⟩ := hp
  refine ⟨N + N' + 1, fun n hn => ?_⟩
  obtain ⟨m, rfl⟩ : ∃ m, n = m + 1 := ⟨n - 1, by omega⟩
  rw [readAtom.eq_def]
  simp [h m (by omega), hp m (by omega)]

theorem RA.list {ts r : List Token} {ds : List I.D} (hb : binder ts = none) (hp : NotPattern I tight ts) (h : RArgs I tight ']' ts ds r) :
    RA I tight (.sym '[' :: ts) (I.list ds) r := by
  obtain ⟨N, h⟩ := h
  obtain ⟨N', hp⟩ := hp
  refine ⟨N + N' + 1, fun n hn => ?_⟩
  obtain ⟨m, rfl⟩ : ∃ m, n = m + 1 := ⟨n - 1, by omega⟩
  rw [readAtom.eq_def]
  simp [hb, h m (by omega), hp m (by omega)]

theorem RA.comprehension {ts us r r' : List Token} {x : Str} {l d : I.D} (hb : binder ts = some (x, us)) (h : RE I tight 0 us l r)
    (h' : RComprehension I tight x l r d r') : RA I tight (.sym '[' :: ts) d r' := by
  obtain ⟨N, h⟩ := h
  obtain ⟨N', h'⟩ := h'
  refine ⟨N + N' + 1, fun n hn => ?_⟩
  obtain ⟨m, rfl⟩ : ∃ m, n = m + 1 := ⟨n - 1, by omega⟩
  rw [readAtom.eq_def]
  simp [hb, h m (by omega), h' m (by omega)]

theorem RComprehension.cond {w x : Str} {ts r r' : List Token} {l c d : I.D} (hw : lower w = c!"where") (h : RE I tight 0 ts c r)
    (h' : RResult I tight x l (some c) r d r') : RComprehension I tight x l (.word w :: ts) d r' := by
  obtain ⟨N, h⟩ := h
  obtain ⟨N', h'⟩ := h'
  refine ⟨N + N' + 1, fun n hn => ?_⟩
  obtain ⟨m, rfl⟩ : ∃ m, n = m + 1 := ⟨n - 1, by omega⟩
  rw [readComprehension.eq_def]
  simp [Token.is, hw, h m (by omega), h' m (by omega)]

theorem RComprehension.all {c : Char} {x : Str} {ts r' : List Token} {l d : I.D}
    (h' : RResult I tight x l none (.sym c :: ts) d r') : RComprehension I tight x l (.sym c :: ts) d r' := by
  obtain ⟨N', h'⟩ := h'
  refine ⟨N' + 1, fun n hn => ?_⟩
  obtain ⟨m, rfl⟩ : ∃ m, n = m + 1 := ⟨n - 1, by omega⟩
  rw [readComprehension.eq_def]
  simp [Token.is, h' m (by omega)]

theorem RResult.stop {x : Str} {r : List Token} {l : I.D} (c : Option I.D) :
    RResult I tight x l c (.sym ']' :: r) (I.comprehension x l c none) r := by
  refine ⟨1, fun n hn => ?_⟩
  obtain ⟨m, rfl⟩ : ∃ m, n = m + 1 := ⟨n - 1, by omega⟩
  rw [readResult.eq_def]
  simp

theorem RResult.pipe {x : Str} {ts r : List Token} {l d : I.D} (c : Option I.D) (h : RE I tight 0 ts d (.sym ']' :: r)) :
    RResult I tight x l c (.sym '|' :: ts) (I.comprehension x l c (some d)) r := by
  obtain ⟨N, h⟩ := h
  refine ⟨N + 1, fun n hn => ?_⟩
  obtain ⟨m, rfl⟩ : ∃ m, n = m + 1 := ⟨n - 1, by omega⟩
  rw [readResult.eq_def]
  simp [h m (by omega)]

theorem RA.map {ts r : List Token} {ds : List (Str × I.D)} (h : REntries I tight ts ds r) (ht : ts.head? ≠ some (.sym '}')) :
    RA I tight (.sym '{' :: ts) (I.map ds) r := by
  obtain ⟨N, h⟩ := h
  refine ⟨N + 1, fun n hn => ?_⟩
  obtain ⟨m, rfl⟩ : ∃ m, n = m + 1 := ⟨n - 1, by omega⟩
  rw [readAtom.eq_def]
  simp only
  split <;> simp_all

theorem RA.call {w : Str} {t : Token} {ts r : List Token} {ds : List I.D} (hw : lower w ∉ reserved) (hq : lower w ∉ quantifiers) (ht : t.is c!"distinct" = false)
    (hs : t ≠ .sym '*') (h : RArgs I tight ')' (t :: ts) ds r) : RA I tight (.word w :: .sym '(' :: t :: ts) (I.call w false ds) r := by
  obtain ⟨N, h⟩ := h
  refine ⟨N + 1, fun n hn => ?_⟩
  obtain ⟨m, rfl⟩ : ∃ m, n = m + 1 := ⟨n - 1, by omega⟩
  simp only [reserved, List.mem_cons, not_or] at hw
  rw [readAtom.eq_def]
  simp only [reserved, List.mem_cons, hw, if_false]
  simp_all

theorem RA.quantified {w x : Str} {t : Token} {ts us r r' : List Token} {l d : I.D} (hw : lower w ∉ reserved) (hq : lower w ∈ quantifiers)
    (ht : t.is c!"distinct" = false) (hs : t ≠ .sym '*') (hb : binder (t :: ts) = some (x, us)) (h : RE I tight 0 us l r)
    (h' : RQuantified I tight w x l r d r') : RA I tight (.word w :: .sym '(' :: t :: ts) d r' := by
  obtain ⟨N, h⟩ := h
  obtain ⟨N', h'⟩ := h'
  refine ⟨N + N' + 1, fun n hn => ?_⟩
  obtain ⟨m, rfl⟩ : ∃ m, n = m + 1 := ⟨n - 1, by omega⟩
  have h1 := h m (by omega)
  have h2 := h' m (by omega)
  simp only [reserved, List.mem_cons, not_or] at hw
  rw [readAtom.eq_def]
  simp only [reserved, List.mem_cons, hw, if_false]
  simp_all

theorem RQuantified.mk {w w' x : Str} {ts r : List Token} {l c : I.D} (hw : lower w' = c!"where") (h : RE I tight 0 ts c (.sym ')' :: r)) :
    RQuantified I tight w x l (.word w' :: ts) (I.quantified (lower w) x l c) r := by
  obtain ⟨N, h⟩ := h
  refine ⟨N + 1, fun n hn => ?_⟩
  obtain ⟨m, rfl⟩ : ∃ m, n = m + 1 := ⟨n - 1, by omega⟩
  rw [readQuantified.eq_def]
  simp [Token.is, hw, h m (by omega)]

theorem RA.callDistinct {w w' : Str} {ts r : List Token} {ds : List I.D} (hw : lower w ∉ reserved) (ht : lower w' = c!"distinct")
    (h : RArgs I tight ')' ts ds r) : RA I tight (.word w :: .sym '(' :: .word w' :: ts) (I.call w true ds) r := by
  obtain ⟨N, h⟩ := h
  refine ⟨N + 1, fun n hn => ?_⟩
  obtain ⟨m, rfl⟩ : ∃ m, n = m + 1 := ⟨n - 1, by omega⟩
  simp only [reserved, List.mem_cons, not_or] at hw
  rw [readAtom.eq_def]
  simp only [reserved, List.mem_cons, hw, if_false]
  simp_all [Token.is]

theorem RA.callStar {w : Str} {r : List Token} (hw : lower w ∉ reserved) :
    RA I tight (.word w :: .sym '(' :: .sym '*' :: .sym ')' :: r) (I.call w false [I.star]) r := by
  refine ⟨1, fun n hn => ?_⟩
  obtain ⟨m, rfl⟩ : ∃ m, n = m + 1 := ⟨n - 1, by omega⟩
  simp only [reserved, List.mem_cons, not_or] at hw
  rw [readAtom.eq_def]
  simp only [reserved, List.mem_cons, hw, if_false]
  simp_all

theorem RA.name {w : Str} {r : List Token} (hw : lower w ∉ reserved) (hk : lower w ∉ keywords) (hr : r.head? ≠ some (.sym '('))
    (hr' : r.head? ≠ some (.sym '{')) : RA I tight (.word w :: r) (I.name w) r := by
  refine ⟨1, fun n hn => ?_⟩
  obtain ⟨m, rfl⟩ : ∃ m, n = m + 1 := ⟨n - 1, by omega⟩
  simp only [reserved, List.mem_cons, not_or] at hw
  rw [readAtom.eq_def]
  simp only [reserved, List.mem_cons, hw, if_false]
  simp_all
  split <;> simp_all

theorem RA.caseGeneric {w w' : Str} {ts r : List Token} {d : I.D} (hw : lower w = c!"case") (hw' : lower w' = c!"when")
    (h : RBranches I tight none [] (.word w' :: ts) d r) : RA I tight (.word w :: .word w' :: ts) d r := by
  obtain ⟨N, h⟩ := h
  refine ⟨N + 1, fun n hn => ?_⟩
  obtain ⟨m, rfl⟩ : ∃ m, n = m + 1 := ⟨n - 1, by omega⟩
  rw [readAtom.eq_def]
  simp [hw, Token.is, hw', h m (by omega)]

theorem RA.caseSimple {w : Str} {t : Token} {ts r r' : List Token} {s d : I.D} (hw : lower w = c!"case") (ht : t.is c!"when" = false)
    (h : RE I tight 0 (t :: ts) s r) (h' : RBranches I tight (some s) [] r d r') : RA I tight (.word w :: t :: ts) d r' := by
  obtain ⟨N, h⟩ := h
  obtain ⟨N', h'⟩ := h'
  refine ⟨N + N' + 1, fun n hn => ?_⟩
  obtain ⟨m, rfl⟩ : ∃ m, n = m + 1 := ⟨n - 1, by omega⟩
  rw [readAtom.eq_def]
  simp [hw, ht, h m (by omega), h' m (by omega)]

theorem RBranches.when {w w' : Str} {subject : Option I.D} {bs : List (I.D × I.D)} {ts r r' r'' : List Token} {a b d : I.D}
    (hw : lower w = c!"when") (hw' : lower w' = c!"then") (h : RE I tight 0 ts a (.word w' :: r)) (h' : RE I tight 0 r b r')
    (h'' : RBranches I tight subject (bs ++ [(a, b)]) r' d r'') : RBranches I tight subject bs (.word w :: ts) d r'' := by
  obtain ⟨N, h⟩ := h
  obtain ⟨N', h'⟩ := h'
  obtain ⟨N'', h''⟩ := h''
  refine ⟨N + N' + N'' + 1, fun n hn => ?_⟩
  obtain ⟨m, rfl⟩ : ∃ m, n = m + 1 := ⟨n - 1, by omega⟩
  rw [readBranches.eq_def]
  simp [Token.is, hw, hw', h m (by omega), h' m (by omega), h'' m (by omega)]

theorem RBranches.els {w w' : Str} {subject : Option I.D} {bs : List (I.D × I.D)} {ts r : List Token} {a : I.D}
    (hw : lower w = c!"else") (hw' : lower w' = c!"end") (h : RE I tight 0 ts a (.word w' :: r)) :
    RBranches I tight subject bs (.word w :: ts) (I.case subject bs (some a)) r := by
  obtain ⟨N, h⟩ := h
  refine ⟨N + 1, fun n hn => ?_⟩
  obtain ⟨m, rfl⟩ : ∃ m, n = m + 1 := ⟨n - 1, by omega⟩
  rw [readBranches.eq_def]
  simp [Token.is, hw, hw', h m (by omega)]

theorem RBranches.stop {w : Str} {subject : Option I.D} {bs : List (I.D × I.D)} {r : List Token} (hw : lower w = c!"end") :
    RBranches I tight subject bs (.word w :: r) (I.case subject bs none) r := by
  refine ⟨1, fun n hn => ?_⟩
  obtain ⟨m, rfl⟩ : ∃ m, n = m + 1 := ⟨n - 1, by omega⟩
  rw [readBranches.eq_def]
  simp [Token.is, hw]

theorem RArgs.nil (close : Char) (r : List Token) : RArgs I tight close (.sym close :: r) [] r := by
  refine ⟨1, fun n hn => ?_⟩
  obtain ⟨m, rfl⟩ : ∃ m, n = m + 1 := ⟨n - 1, by omega⟩
  rw [readArgs.eq_def]
  simp

theorem RArgs.some {close : Char} {ts r : List Token} {ds : List I.D} (ht : ts.head? ≠ some (.sym close)) (h : RArgs1 I tight close ts ds r) :
    RArgs I tight close ts ds r := by
  obtain ⟨N, h⟩ := h
  refine ⟨N + 1, fun n hn => ?_⟩
  obtain ⟨m, rfl⟩ : ∃ m, n = m + 1 := ⟨n - 1, by omega⟩
  rw [readArgs.eq_def]
  simp [ht, h m (by omega)]

theorem RArgs1.last {close : Char} {ts r : List Token} {d : I.D} (h : RE I tight 0 ts d (.sym close :: r)) : RArgs1 I tight close ts [d] r := by
  obtain ⟨N, h⟩ := h
  refine ⟨N + 1, fun n hn => ?_⟩
  obtain ⟨m, rfl⟩ : ∃ m, n = m + 1 := ⟨n - 1, by omega⟩
  rw [readArgs1.eq_def]
  simp [h m (by omega)]

theorem RArgs1.more {close : Char} {ts r r' : List Token} {d : I.D} {ds : List I.D} (hc : close ≠ ',')
    (h : RE I tight 0 ts d (.sym ',' :: r)) (h' : RArgs1 I tight close r ds r') : RArgs1 I tight close ts (d :: ds) r' := by
  obtain ⟨N, h⟩ := h
  obtain ⟨N', h'⟩ := h'
  refine ⟨N + N' + 1, fun n hn => ?_⟩
  obtain ⟨m, rfl⟩ : ∃ m, n = m + 1 := ⟨n - 1, by omega⟩
  rw [readArgs1.eq_def]
  simp [h m (by omega), h' m (by omega), hc.symm]

/-- The tokens of a name. -/
def IsName (t : Token) (s : Str) : Prop := t = .word s ∨ t = .quoted s

theorem REntries.last {t : Token} {k : Str} {ts r : List Token} {d : I.D} (ht : IsName t k) (h : RE I tight 0 ts d (.sym '}' :: r)) :
    REntries I tight (t :: .sym ':' :: ts) [(k, d)] r := by
  obtain ⟨N, h⟩ := h
  refine ⟨N + 1, fun n hn => ?_⟩
  obtain ⟨m, rfl⟩ : ∃ m, n = m + 1 := ⟨n - 1, by omega⟩
  rw [readEntries.eq_def]
  rcases ht with rfl | rfl <;> simp [h m (by omega)]

theorem REntries.more {t : Token} {k : Str} {ts r r' : List Token} {d : I.D} {ds : List (Str × I.D)} (ht : IsName t k)
    (h : RE I tight 0 ts d (.sym ',' :: r)) (h' : REntries I tight r ds r') : REntries I tight (t :: .sym ':' :: ts) ((k, d) :: ds) r' := by
  obtain ⟨N, h⟩ := h
  obtain ⟨N', h'⟩ := h'
  refine ⟨N + N' + 1, fun n hn => ?_⟩
  obtain ⟨m, rfl⟩ : ∃ m, n = m + 1 := ⟨n - 1, by omega⟩
  rw [readEntries.eq_def]
  rcases ht with rfl | rfl <;> simp [h m (by omega), h' m (by omega)]

theorem RP.prop {t : Token} {s : Str} {ts r : List Token} {d d' : I.D} (ht : IsName t s) (h : RP I tight (I.prop d s) ts d' r) :
    RP I tight d (.sym '.' :: t :: ts) d' r := by
  obtain ⟨N, h⟩ := h
  refine ⟨N + 1, fun n hn => ?_⟩
  obtain ⟨m, rfl⟩ : ∃ m, n = m + 1 := ⟨n - 1, by omega⟩
  rw [readPostfix.eq_def]
  rcases ht with rfl | rfl <;> simp [h m (by omega)]

theorem RP.until {ts r r' : List Token} {d d' a : I.D} (h : RE I tight 0 ts a (.sym ']' :: r)) (h' : RP I tight (I.slice d none (some a)) r d' r') :
    RP I tight d (.sym '[' :: .sym '.' :: .sym '.' :: ts) d' r' := by
  obtain ⟨N, h⟩ := h
  obtain ⟨N', h'⟩ := h'
  refine ⟨N + N' + 1, fun n hn => ?_⟩
  obtain ⟨m, rfl⟩ : ∃ m, n = m + 1 := ⟨n - 1, by omega⟩
  rw [readPostfix.eq_def]
  simp [h m (by omega), h' m (by omega)]

theorem RP.index {ts r r' : List Token} {d d' a : I.D} (ht : ts.head? ≠ some (.sym '.')) (h : RE I tight 0 ts a (.sym ']' :: r))
    (h' : RP I tight (I.index d a) r d' r') : RP I tight d (.sym '[' :: ts) d' r' := by
  obtain ⟨N, h⟩ := h
  obtain ⟨N', h'⟩ := h'
  refine ⟨N + N' + 1, fun n hn => ?_⟩
  obtain ⟨m, rfl⟩ : ∃ m, n = m + 1 := ⟨n - 1, by omega⟩
  rw [readPostfix.eq_def]
  cases ts with
  | nil => simp [h m (by omega), h' m (by omega)]
  | cons t ts =>
    simp only [List.head?_cons, ne_eq, Option.some.injEq] at ht
    simp only
    split
    · simp_all
    · simp_all
    · simp_all
    · rename_i heq
      simp only [List.cons.injEq, true_and] at heq
      rw [← heq]
      simp [h m (by omega), h' m (by omega)]
    · simp_all
    · rename_i ha hb; exact (ha _ rfl).elim

theorem RP.from {ts r r' : List Token} {d d' a : I.D} (ht : ts.head? ≠ some (.sym '.')) (h : RE I tight 0 ts a (.sym '.' :: .sym '.' :: .sym ']' :: r))
    (h' : RP I tight (I.slice d (some a) none) r d' r') : RP I tight d (.sym '[' :: ts) d' r' := by
  obtain ⟨N, h⟩ := h
  obtain ⟨N', h'⟩ := h'
  refine ⟨N + N' + 1, fun n hn => ?_⟩
  obtain ⟨m, rfl⟩ : ∃ m, n = m + 1 := ⟨n - 1, by omega⟩
  rw [readPostfix.eq_def]
  cases ts with
  | nil => simp [h m (by omega), h' m (by omega)]
  | cons t ts =>
    simp only [List.head?_cons, ne_eq, Option.some.injEq] at ht
    simp only
    split
    · simp_all
    · simp_all
    · simp_all
    · rename_i heq
      simp only [List.cons.injEq, true_and] at heq
      rw [← heq]
      simp [h m (by omega), h' m (by omega)]
    · simp_all
    · rename_i ha hb; exact (ha _ rfl).elim

theorem RP.range {ts us r r' : List Token} {d d' a b : I.D} (ht : ts.head? ≠ some (.sym '.')) (h : RE I tight 0 ts a (.sym '.' :: .sym '.' :: us))
    (hu : us.head? ≠ some (.sym ']')) (h1 : RE I tight 0 us b (.sym ']' :: r))
    (h' : RP I tight (I.slice d (some a) (some b)) r d' r') : RP I tight d (.sym '[' :: ts) d' r' := by
  obtain ⟨N, h⟩ := h
  obtain ⟨N', h'⟩ := h'
  obtain ⟨N1, h1⟩ := h1
  refine ⟨N + N' + N1 + 1, fun n hn => ?_⟩
  obtain ⟨m, rfl⟩ : ∃ m, n = m + 1 := ⟨n - 1, by omega⟩
  have key : (match (some (a, Token.sym '.' :: Token.sym '.' :: us) : Option (I.D × List Token)) with
    | none => none
    | some p => some p) = some (a, Token.sym '.' :: Token.sym '.' :: us) := rfl
  rw [readPostfix.eq_def]
  cases ts with
  | nil =>
    simp [h m (by omega)]
    split <;> simp_all
    simp [h1 m (by omega), h' m (by omega)]
  | cons t ts =>
    simp only [List.head?_cons, ne_eq, Option.some.injEq] at ht
    simp only
    split
    · simp_all
    · simp_all
    · simp_all
    · rename_i heq
      simp only [List.cons.injEq, true_and] at heq
      rw [← heq]
      simp [h m (by omega)]
      split <;> simp_all
      rw [h1 m (by omega)]
      simp [h' m (by omega)]
    · simp_all
    · rename_i ha hb; exact (ha _ rfl).elim

theorem Stops.nil (j : Nat) : Stops tight j [] := by
  refine ⟨fun i hi hi' => ?_, fun _ => ?_, by simp, by simp⟩
  · interval_cases i <;> cases tight <;> simp [opAt, nullAt, nullOp, compareOp, textOp]
  · simp [NoPostfix]

theorem Stops.close {c : Char} (hc : c = ')' ∨ c = ']' ∨ c = '}' ∨ c = ',' ∨ c = '|') (j : Nat) (r : List Token) : Stops tight j (.sym c :: r) := by
  refine ⟨fun i hi hi' => ?_, fun _ => ?_, by rcases hc with rfl | rfl | rfl | rfl | rfl <;> simp, by rcases hc with rfl | rfl | rfl | rfl | rfl <;> simp⟩
  · rcases hc with rfl | rfl | rfl | rfl | rfl <;> interval_cases i <;> cases tight <;> rcases r with _ | ⟨t, _ | ⟨t', r⟩⟩ <;>
      simp [opAt, nullAt, nullOp, compareOp, textOp, Token.is]
  · rcases hc with rfl | rfl | rfl | rfl | rfl <;> simp [NoPostfix]

theorem Stops.dots (j : Nat) (r : List Token) : Stops tight j (.sym '.' :: .sym '.' :: r) := by
  refine ⟨fun i hi hi' => ?_, fun _ => ?_, by simp, by simp⟩
  · interval_cases i <;> cases tight <;> rcases r with _ | ⟨t, r⟩ <;> simp [opAt, nullAt, nullOp, compareOp, textOp, Token.is]
  · simp [NoPostfix]

/-- Before these words every expression ends. -/
theorem Stops.word {w : Str} (hw : lower w ∈ [c!"when", c!"then", c!"else", c!"end", c!"where"]) (j : Nat) (r : List Token) : Stops tight j (.word w :: r) := by
  have hne : ∀ s : Str, s ∉ [c!"when", c!"then", c!"else", c!"end", c!"where"] → (Token.word w).is s = false := by
    intro s hs
    simp only [Token.is, decide_eq_false_iff_not]
    rintro h
    exact hs (h ▸ hw)
  refine ⟨fun i hi hi' => ?_, fun _ => by simp [NoPostfix], by simp, by simp⟩
  interval_cases i <;> cases tight <;> rcases r with _ | ⟨t, _ | ⟨t', r⟩⟩ <;>
      simp [opAt, nullAt, nullOp, compareOp, textOp, hne]


theorem NoPostfix.sym {c : Char} (h1 : c ≠ '[') (h2 : c ≠ '.') (h3 : c ≠ ':') (r : List Token) : NoPostfix (.sym c :: r) := by
  refine ⟨by simp [h1], ?_, ?_, by simp [h3]⟩ <;> (intro s r' h; simp at h; exact h2 h.1)

theorem NoPostfix.word (w : Str) (r : List Token) : NoPostfix (.word w :: r) := by simp [NoPostfix]

/-- The level of an arithmetic symbol, and what it stands for. -/
def arithLevel : Char → Nat
  | '+' => 6 | '-' => 6 | '*' => 7 | '/' => 7 | '%' => 7 | _ => 8
def arithBin : Char → BinOp
  | '+' => .add | '-' => .sub | '*' => .mul | '/' => .div | '%' => .mod | _ => .pow
def arithChars : List Char := ['+', '-', '*', '/', '%', '^']

theorem opAt_arith {c : Char} (hc : c ∈ arithChars) (r : List Token) : opAt tight (arithLevel c) (.sym c :: r) = some (arithBin c, r) := by
  simp only [arithChars, List.mem_cons, List.not_mem_nil, or_false] at hc
  rcases hc with rfl | rfl | rfl | rfl | rfl | rfl <;> rfl

theorem Stops.arith {c : Char} (hc : c ∈ arithChars) (r : List Token) : Stops tight (arithLevel c + 1) (.sym c :: r) := by
  simp only [arithChars, List.mem_cons, List.not_mem_nil, or_false] at hc
  refine ⟨fun i hi hi' => ?_, fun _ => ?_, by rcases hc with rfl | rfl | rfl | rfl | rfl | rfl <;> simp,
    by rcases hc with rfl | rfl | rfl | rfl | rfl | rfl <;> simp⟩
  · rcases hc with rfl | rfl | rfl | rfl | rfl | rfl <;> simp [arithLevel] at hi <;> interval_cases i <;> cases tight <;>
      rcases r with _ | ⟨t, _ | ⟨t', r⟩⟩ <;> simp [opAt, nullAt, nullOp, compareOp, textOp, Token.is]
  · rcases hc with rfl | rfl | rfl | rfl | rfl | rfl <;> exact NoPostfix.sym (by decide) (by decide) (by decide) r

/-- An operand can begin with this token. -/
def Begins (t : Token) : Prop := (∀ w, t = .word w → lower w ∉ [c!"when", c!"distinct", c!"in"]) ∧ (∀ c, t = .sym c → c ∈ ['(', '[', '{', '-'])

/-- The tokens of the comparisons. -/
def cmpToks : List (List Token × BinOp) := [([.sym '='], .eq), ([.sym '<', .sym '>'], .ne), ([.sym '<', .sym '='], .le), ([.sym '<'], .lt),
  ([.sym '>', .sym '='], .ge), ([.sym '>'], .gt)]

theorem opAt_cmp {ot : List Token} {o : BinOp} (h : (ot, o) ∈ cmpToks) {t : Token} (ht : Begins t) (r : List Token) :
    opAt tight 4 (ot ++ t :: r) = some (o, t :: r) := by
  have h1 : ∀ c, c ∉ ['(', '[', '{', '-'] → t ≠ .sym c := fun c hc h => hc (ht.2 c h)
  simp only [cmpToks, List.mem_cons, List.not_mem_nil, or_false, Prod.mk.injEq] at h
  rcases h with ⟨rfl, rfl⟩ | ⟨rfl, rfl⟩ | ⟨rfl, rfl⟩ | ⟨rfl, rfl⟩ | ⟨rfl, rfl⟩ | ⟨rfl, rfl⟩ <;> simp only [opAt, List.cons_append, List.nil_append]
  · rw [compareOp]
    intro r' h
    simp at h
    exact absurd h.1 (h1 _ (by decide))
  · rfl
  · rfl
  · rw [compareOp]
    · intro r' h
      simp at h
      exact absurd h.1 (h1 _ (by decide))
    · intro r' h
      simp at h
      exact absurd h.1 (h1 _ (by decide))
  · rfl
  · rw [compareOp]
    intro r' h
    simp at h
    exact absurd h.1 (h1 _ (by decide))

theorem Stops.cmp {ot : List Token} {o : BinOp} (h : (ot, o) ∈ cmpToks) {t : Token} (ht : Begins t) (r : List Token) :
    Stops tight 5 (ot ++ t :: r) := by
  have h1 : ∀ c, c ∉ ['(', '[', '{', '-'] → t ≠ .sym c := fun c hc h => hc (ht.2 c h)
  have h2 := h1 '~' (by decide)
  simp only [cmpToks, List.mem_cons, List.not_mem_nil, or_false, Prod.mk.injEq] at h
  refine ⟨fun i hi hi' => ?_, fun _ => ?_, ?_, ?_⟩
  · rcases h with ⟨rfl, rfl⟩ | ⟨rfl, rfl⟩ | ⟨rfl, rfl⟩ | ⟨rfl, rfl⟩ | ⟨rfl, rfl⟩ | ⟨rfl, rfl⟩ <;> interval_cases i <;> cases tight <;>
      rcases r with _ | ⟨t', r⟩ <;> simp [opAt, nullAt, nullOp, textOp, Token.is, h2]
  · rcases h with ⟨rfl, rfl⟩ | ⟨rfl, rfl⟩ | ⟨rfl, rfl⟩ | ⟨rfl, rfl⟩ | ⟨rfl, rfl⟩ | ⟨rfl, rfl⟩ <;> exact NoPostfix.sym (by decide) (by decide) (by decide) _
  · rcases h with ⟨rfl, rfl⟩ | ⟨rfl, rfl⟩ | ⟨rfl, rfl⟩ | ⟨rfl, rfl⟩ | ⟨rfl, rfl⟩ | ⟨rfl, rfl⟩ <;> simp
  · rcases h with ⟨rfl, rfl⟩ | ⟨rfl, rfl⟩ | ⟨rfl, rfl⟩ | ⟨rfl, rfl⟩ | ⟨rfl, rfl⟩ | ⟨rfl, rfl⟩ <;> simp

/-- The tokens of `IN` etc. -/
def textToks : List (List Token × BinOp) := [([.sym '=', .sym '~'], .regex), ([.word c!"STARTS", .word c!"WITH"], .startsWith),
  ([.word c!"ENDS", .word c!"WITH"], .endsWith), ([.word c!"CONTAINS"], .contains), ([.word c!"IN"], .in_)]

/-- The level of `IN` etc. -/
def textLevel (tight : Bool) : Nat := if tight then 10 else 5

theorem opAt_text {ot : List Token} {o : BinOp} (h : (ot, o) ∈ textToks) (r : List Token) :
    opAt tight (textLevel tight) (ot ++ r) = some (o, r) := by
  simp only [textToks, List.mem_cons, List.not_mem_nil, or_false, Prod.mk.injEq] at h
  rcases h with ⟨rfl, rfl⟩ | ⟨rfl, rfl⟩ | ⟨rfl, rfl⟩ | ⟨rfl, rfl⟩ | ⟨rfl, rfl⟩ <;> cases tight <;> rfl

theorem Stops.text {ot : List Token} {o : BinOp} (h : (ot, o) ∈ textToks) (r : List Token) :
    Stops tight (textLevel tight + 1) (ot ++ r) := by
  simp only [textToks, List.mem_cons, List.not_mem_nil, or_false, Prod.mk.injEq] at h
  refine ⟨fun i hi hi' => ?_, fun _ => ?_, ?_, ?_⟩
  · cases tight
    · simp only [textLevel] at hi
      rcases h with ⟨rfl, rfl⟩ | ⟨rfl, rfl⟩ | ⟨rfl, rfl⟩ | ⟨rfl, rfl⟩ | ⟨rfl, rfl⟩ <;> simp at hi <;> interval_cases i <;> exact ⟨rfl, rfl⟩
    · simp only [textLevel] at hi
      simp at hi
      omega
  · rcases h with ⟨rfl, rfl⟩ | ⟨rfl, rfl⟩ | ⟨rfl, rfl⟩ | ⟨rfl, rfl⟩ | ⟨rfl, rfl⟩ <;> first | exact NoPostfix.word _ _ | exact NoPostfix.sym (by decide) (by decide) (by decide) _
  · rcases h with ⟨rfl, rfl⟩ | ⟨rfl, rfl⟩ | ⟨rfl, rfl⟩ | ⟨rfl, rfl⟩ | ⟨rfl, rfl⟩ <;> simp
  · rcases h with ⟨rfl, rfl⟩ | ⟨rfl, rfl⟩ | ⟨rfl, rfl⟩ | ⟨rfl, rfl⟩ | ⟨rfl, rfl⟩ <;> simp

/-- The tokens of `IS NULL` and `IS NOT NULL`. -/
def nullToks (b : Bool) : List Token := if b then [.word c!"IS", .word c!"NULL"] else [.word c!"IS", .word c!"NOT", .word c!"NULL"]

theorem opAt_null (b : Bool) (r : List Token) : opAt tight (textLevel tight) (nullToks b ++ r) = none ∧
    nullAt tight (textLevel tight) (nullToks b ++ r) = some (b, r) := by
  cases b <;> cases tight <;> exact ⟨rfl, rfl⟩

theorem Stops.null (b : Bool) (r : List Token) : Stops tight (textLevel tight + 1) (nullToks b ++ r) := by
  refine ⟨fun i hi hi' => ?_, fun _ => ?_, ?_, ?_⟩
  · cases tight
    · simp [textLevel] at hi
      cases b <;> interval_cases i <;> exact ⟨rfl, rfl⟩
    · simp [textLevel] at hi
      omega
  · cases b <;> exact NoPostfix.word _ _
  · cases b <;> simp [nullToks]
  · cases b <;> simp [nullToks]

/-- The tokens of AND, OR, XOR, and their levels. -/
def boolToks : List (Str × BinOp × Nat) := [(c!"OR", .or, 0), (c!"XOR", .xor, 1), (c!"AND", .and, 2)]

theorem opAt_bool {w : Str} {o : BinOp} {l : Nat} (h : (w, o, l) ∈ boolToks) (r : List Token) : opAt tight l (.word w :: r) = some (o, r) := by
  simp only [boolToks, List.mem_cons, List.not_mem_nil, or_false, Prod.mk.injEq] at h
  rcases h with ⟨rfl, rfl, rfl⟩ | ⟨rfl, rfl, rfl⟩ | ⟨rfl, rfl, rfl⟩ <;> rfl

theorem Stops.bool {w : Str} {o : BinOp} {l : Nat} (h : (w, o, l) ∈ boolToks) (r : List Token) : Stops tight (l + 1) (.word w :: r) := by
  simp only [boolToks, List.mem_cons, List.not_mem_nil, or_false, Prod.mk.injEq] at h
  refine ⟨fun i hi hi' => ?_, fun _ => NoPostfix.word _ _, by simp, by simp⟩
  have hne : ∀ w s : Str, lower w ≠ s → (Token.word w).is s = false := fun w s h => by simp [Token.is, h]
  rcases h with ⟨rfl, rfl, rfl⟩ | ⟨rfl, rfl, rfl⟩ | ⟨rfl, rfl, rfl⟩ <;> interval_cases i <;> cases tight <;>
    rcases r with _ | ⟨t, _ | ⟨t', r⟩⟩ <;> refine ⟨?_, ?_⟩ <;> first | rfl | simp [opAt, nullAt, nullOp, compareOp, textOp, hne, lower]

/-! ### Constructs -/

theorem Cont.loop {l : Nat} (hl : loops l) {d d' : I.D} {r r' : List Token} : Cont I tight l d r d' r' ↔ RM I tight l d r d' r' := by
  unfold Cont
  simp [hl.2.1, hl.2.2, show l ≠ 11 by have := hl.1; omega]

theorem Prefix.bin {l : Nat} (hl : loops l) (h4 : l ≠ 4) {as bs ot : List Token} {o : BinOp} {a b : I.D}
    (ho : ∀ r, opAt tight l (ot ++ (bs ++ r)) = some (o, bs ++ r)) (hs : ∀ r, Stops tight (l + 1) (ot ++ (bs ++ r)))
    (ha : Prefix I tight l as a) (hb : Prefix I tight (l + 1) bs b) : Prefix I tight l (as ++ ot ++ bs) (I.bin o a b) := by
  intro r d' r' hr hc
  rw [Cont.loop hl] at hc
  have := ha (ot ++ (bs ++ r)) d' r' (hs r) ((Cont.loop hl).mpr (RM.op h4 (ho r) (hb.reads (by have := hl.1; omega) hr) hc))
  simpa using this

theorem Prefix.cmp {as bs ot : List Token} {o : BinOp} {a b : I.D} (ho : (ot, o) ∈ cmpToks) (hha : Head 4 as) (hhb : Head 4 bs)
    (ha : Prefix I tight 4 as a) (hb : Prefix I tight 5 bs b) : Prefix I tight 3 (as ++ ot ++ bs) (I.bin o a b) := by
  intro r d' r' hr hc
  simp only [Cont, true_or, if_true] at hc
  obtain ⟨rfl, rfl⟩ := hc
  obtain ⟨t, bs', rfl, _, _, h1, h2⟩ := hhb
  have := ha (ot ++ (t :: bs' ++ r')) (I.bin o a b) r' (Stops.cmp ho ⟨h1, h2⟩ _)
    ((Cont.loop ⟨by omega, by omega, by omega⟩).mpr (RM.cmp (opAt_cmp ho ⟨h1, h2⟩ _) (hb.reads (by omega) (hr.mono (by omega)))))
  obtain ⟨t', as', rfl, h3, _⟩ := hha
  have h5 := RE.three (h3 (by omega)) this
  simpa using h5

theorem Prefix.text {as bs ot : List Token} {o : BinOp} {a b : I.D} (ho : (ot, o) ∈ textToks) (ha : Prefix I tight (textLevel tight) as a)
    (hb : Prefix I tight (textLevel tight + 1) bs b) : Prefix I tight (textLevel tight) (as ++ ot ++ bs) (I.bin o a b) :=
  Prefix.bin (by cases tight <;> simp [textLevel, loops]) (by cases tight <;> simp [textLevel]) (fun _ => opAt_text ho _)
    (fun _ => Stops.text ho _) ha hb

theorem Prefix.arith {as bs : List Token} {c : Char} {a b : I.D} (hc : c ∈ arithChars) (ha : Prefix I tight (arithLevel c) as a)
    (hb : Prefix I tight (arithLevel c + 1) bs b) : Prefix I tight (arithLevel c) (as ++ [.sym c] ++ bs) (I.bin (arithBin c) a b) := by
  have hl : arithLevel c = 6 ∨ arithLevel c = 7 ∨ arithLevel c = 8 := by
    simp only [arithChars, List.mem_cons, List.not_mem_nil, or_false] at hc
    rcases hc with rfl | rfl | rfl | rfl | rfl | rfl <;> simp [arithLevel]
  exact Prefix.bin (by rcases hl with h | h | h <;> simp [h, loops]) (by omega) (fun _ => opAt_arith hc _) (fun _ => Stops.arith hc _) ha hb

theorem Prefix.bool {as bs : List Token} {w : Str} {l : Nat} {o : BinOp} {a b : I.D} (ho : (w, o, l) ∈ boolToks) (ha : Prefix I tight l as a)
    (hb : Prefix I tight (l + 1) bs b) : Prefix I tight l (as ++ [.word w] ++ bs) (I.bin o a b) := by
  have hl : l = 0 ∨ l = 1 ∨ l = 2 := by
    simp only [boolToks, List.mem_cons, List.not_mem_nil, or_false, Prod.mk.injEq] at ho
    rcases ho with h | h | h <;> simp [h]
  exact Prefix.bin (by rcases hl with h | h | h <;> simp [h, loops]) (by omega) (fun _ => opAt_bool ho _) (fun _ => Stops.bool ho _) ha hb

theorem Prefix.null {as : List Token} {a : I.D} (b : Bool) (ha : Prefix I tight (textLevel tight) as a) :
    Prefix I tight (textLevel tight) (as ++ nullToks b) (if b then I.isNull a else I.isNotNull a) := by
  have hl : loops (textLevel tight) := by cases tight <;> simp [textLevel, loops]
  intro r d' r' hr hc
  rw [Cont.loop hl] at hc
  have := ha (nullToks b ++ r) d' r' (Stops.null b r) ((Cont.loop hl).mpr (RM.null (opAt_null b r).1 (opAt_null b r).2 hc))
  simpa using this

theorem Prefix.not {as : List Token} {a : I.D} (ha : Prefix I tight 3 as a) : Prefix I tight 3 (.word c!"NOT" :: as) (I.not a) := by
  intro r d' r' hr hc
  simp only [Cont, true_or, if_true] at hc
  obtain ⟨rfl, rfl⟩ := hc
  exact RE.not rfl (ha _ _ _ hr (by simp [Cont]))

theorem Prefix.neg {as : List Token} {a : I.D} (ha : Prefix I tight 9 as a) : Prefix I tight 9 (.sym '-' :: as) (I.neg a) := by
  intro r d' r' hr hc
  simp only [Cont, or_true, if_true] at hc
  obtain ⟨rfl, rfl⟩ := hc
  exact RE.neg (ha _ _ _ hr (by simp [Cont]))

/-- An operand of the strongest level. -/
theorem Prefix.atom {as : List Token} {a : I.D} (h : ∀ r, r.head? ≠ some (.sym '(') → r.head? ≠ some (.sym '{') → RA I tight (as ++ r) a r) : Prefix I tight 11 as a := by
  intro r d' r' hr hc
  simp only [Cont, reduceIte, show ¬ ((11 : Nat) = 3 ∨ (11 : Nat) = 9) by omega] at hc
  exact RE.atom (h r hr.2.2.1 hr.2.2.2) hc

theorem Prefix.post {as bs : List Token} {a b : I.D} (ha : Prefix I tight 11 as a) (hb : ∀ r, Stops tight 12 (bs ++ r))
    (h : ∀ r d' r', RP I tight b r d' r' → RP I tight a (bs ++ r) d' r') : Prefix I tight 11 (as ++ bs) b := by
  intro r d' r' hr hc
  simp only [Cont, reduceIte, show ¬ ((11 : Nat) = 3 ∨ (11 : Nat) = 9) by omega] at hc
  have := ha (bs ++ r) d' r' (hb r) (by simpa [Cont] using h r d' r' hc)
  simpa using this

theorem Stops.post {t : Token} (ht : t ≠ .sym '(') (ht' : t ≠ .sym '{') (r : List Token) : Stops tight 12 (t :: r) :=
  ⟨fun i hi hi' => by omega, fun h => by omega, by simpa using ht, by simpa using ht'⟩

theorem Prefix.paren {as : List Token} {a : I.D} (hn : ∀ r, NotNode I tight (as ++ r)) (ha : Prefix I tight 0 as a) :
    Prefix I tight 11 (.sym '(' :: as ++ [.sym ')']) a := by
  apply Prefix.atom
  intro r _ _
  have := RA.paren (hn _).pattern (ha.reads (by omega) (Stops.close (.inl rfl) 0 r))
  simpa using this

theorem Stops.arrow {r : List Token} (h : Stops tight 4 r) : r.head? ≠ some (.sym '-') ∧ r.head? ≠ some (.sym '<') := by
  obtain ⟨h, _⟩ := h
  constructor
  · intro hr
    cases r with
    | nil => cases hr
    | cons t r =>
      simp at hr
      subst hr
      have := (h 6 (by omega) (by omega)).1
      simp [opAt] at this
  · intro hr
    cases r with
    | nil => cases hr
    | cons t r =>
      simp at hr
      subst hr
      have := (h 4 (by omega) (by omega)).1
      simp only [opAt] at this
      unfold compareOp at this
      split at this <;> simp_all

/-- In parentheses stands no node, or nothing but a node. -/
def Whole (I : Meaning) (tight : Bool) (ts : List Token) : Prop :=
  ∀ r, NotNode I tight (ts ++ .sym ')' :: r) ∨ ∃ N, ∀ n ≥ N, ∃ p, nodeBy (readAtom I tight n) (.sym '(' :: ts ++ .sym ')' :: r) = some (p, r)

/-- As a condition, what stands in parentheses may look like a node: no relationship follows. -/
theorem Prefix.group {as : List Token} {a : I.D} (hn : Whole I tight as) (ha : Prefix I tight 0 as a) :
    Prefix I tight 3 (.sym '(' :: as ++ [.sym ')']) a := by
  intro r d' r' hr hc
  simp only [Cont, true_or, if_true] at hc
  obtain ⟨rfl, rfl⟩ := hc
  have hp : NotPattern I tight (.sym '(' :: (as ++ .sym ')' :: r')) := by
    rcases hn r' with h | h
    · exact h.pattern
    · exact .node h hr.arrow.1 hr.arrow.2
  have h11 : RE I tight 11 (.sym '(' :: (as ++ .sym ')' :: r')) d' r' :=
    RE.atom (RA.paren hp (ha.reads (by omega) (Stops.close (.inl rfl) 0 r'))) (RP.stop _ (hr.2.1 (by omega)))
  have hst : ∀ i, 4 ≤ i → i ≤ 10 → RM I tight i d' r' d' r' := fun i h1 h2 => RM.stop _ (hr.1 i h1 h2).1 (hr.1 i h1 h2).2
  have h10 := RE.loop (l := 10) ⟨by omega, by omega, by omega⟩ h11 (hst 10 (by omega) (by omega))
  have h9 := RE.nine (by simp) h10
  have h8 := RE.loop (l := 8) ⟨by omega, by omega, by omega⟩ h9 (hst 8 (by omega) (by omega))
  have h7 := RE.loop (l := 7) ⟨by omega, by omega, by omega⟩ h8 (hst 7 (by omega) (by omega))
  have h6 := RE.loop (l := 6) ⟨by omega, by omega, by omega⟩ h7 (hst 6 (by omega) (by omega))
  have h5 := RE.loop (l := 5) ⟨by omega, by omega, by omega⟩ h6 (hst 5 (by omega) (by omega))
  have h4 := RE.loop (l := 4) ⟨by omega, by omega, by omega⟩ h5 (hst 4 (by omega) (by omega))
  have := RE.three (by rfl) h4
  simpa using this

end Verif.Rd
