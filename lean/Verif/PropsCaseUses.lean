import Verif.PropsCaseForks
import Verif.PropsForksExact

/-
Property theorems: what several uses of one CASE expression make of each other (C78).
-/

namespace Verif.Spec

/-- The arguments of `c.When(w).Then(t)`, and the keys of the new case and the new branch. -/
structure CaseUse where
  k : Key
  kw : Key
  w : Val
  t : Val

/-- `c.When(w).Then(t)` in Go's memory. -/
def CaseUse.run (grow : Nat → Nat → Nat) (m : Heap Verif.Branch) (c : HCase) (x : CaseUse) : Outcome (Heap Verif.Branch × HCase) :=
  (runCases grow [.when_ 0 x.w, .then_ 1 x.k x.kw x.t] (m, [.case_ c])).bind fun (st : Heap Verif.Branch × List (CaseVar HCase)) =>
    match (st.2[2]? : Option (CaseVar HCase)) with
    | some (CaseVar.case_ r) => .ok (st.1, r)
    | _ => .panic

/-- What it gives if cases are values. -/
def CaseUse.value (c : CaseV) (x : CaseUse) : Outcome CaseV := c.whenThen x.k x.kw x.w x.t

/-- `c.When(w1).Then(t1)`, `c.When(w2).Then(t2)`, …, one after the other: the memory at the end, and the results. -/
def caseUses (grow : Nat → Nat → Nat) (m : Heap Verif.Branch) (c : HCase) (xs : List CaseUse) : Outcome (Heap Verif.Branch × List HCase) :=
  xs.foldl (fun st x => st.bind fun st => (x.run grow st.1 c).map fun r => (r.1, st.2 ++ [r.2])) (.ok (m, []))

/-- `o := c.When(w)`, `o.Then(t1)`, `o.Then(t2)`, …: the memory at the end, and all values, `c` and `o` first. -/
def thenUses (grow : Nat → Nat → Nat) (m : Heap Verif.Branch) (c : HCase) (w : Val) (ts : List (Key × Key × Val)) : Outcome (Heap Verif.Branch × List (CaseVar HCase)) :=
  runCases grow (.when_ 0 w :: ts.map fun t => .then_ 1 t.1 t.2.1 t.2.2) (m, [.case_ c])

/-- `c` is one of the cases that the program `p` makes, at its end. -/
def CaseMade (grow : Nat → Nat → Nat) (p : List CaseInstr) (m : Heap Verif.Branch) (c : HCase) : Prop :=
  ∃ xs, runCases grow p (Heap.initial, []) = .ok (m, xs) ∧ .case_ c ∈ xs

end Verif.Spec

namespace Verif
open Spec

namespace CaseLemmas

def branchOf (kw : Key) (w t : Val) : Branch := match t.err with | some e => .error e | none => .ok (kw, w, t)

/-- What `Then` returns, if the first error of the branches is `e`. -/
def endingWith (k : Key) (subject : Option Val) (s : Slice) (e : Option Err) : HCase :=
  match subject with
  | some x =>
    if x.notNil then
      match x.err with
      | some e => { err := some e }
      | none =>
        match e with
        | some e => { err := some e }
        | none => { key := k, subject := subject, whens := s, notNil := true }
    else
      match e with
      | some e => { err := some e }
      | none => { key := k, whens := s, generic := true, notNil := true }
  | none =>
    match e with
    | some e => { err := some e }
    | none => { key := k, whens := s, generic := true, notNil := true }

theorem ending_eq (m : Heap Branch) (k : Key) (subject : Option Val) (s : Slice) :
    HCase.ending m k subject s = endingWith k subject s (branchErr (m.read s)) := by
  unfold HCase.ending endingWith
  rfl

theorem use_run (grow : Nat → Nat → Nat) (m : Heap Branch) (c : HCase) (x : CaseUse) :
    x.run grow m c = match x.w.err with
      | some _ => .panic
      | none => .ok ((m.append grow c.whens [branchOf x.kw x.w x.t]).1,
          endingWith x.k c.subject (m.append grow c.whens [branchOf x.kw x.w x.t]).2 (branchErr (m.read c.whens ++ [branchOf x.kw x.w x.t]))) := by
  unfold CaseUse.run
  cases hw : x.w.err with
  | some e => simp [runCases, CaseInstr.run, hw, Outcome.bind]
  | none =>
    simp only [runCases, CaseInstr.run, hw, Outcome.bind, List.getElem?_cons_zero, List.cons_append, List.nil_append, List.getElem?_cons_succ, ending_eq, Heap.read_append,
      List.set_cons_succ, List.set_cons_zero]
    rfl

theorem caseUses_snoc (grow : Nat → Nat → Nat) (m : Heap Branch) (c : HCase) (xs : List CaseUse) (x : CaseUse) :
    caseUses grow m c (xs ++ [x]) = (caseUses grow m c xs).bind fun st => (x.run grow st.1 c).map fun r => (r.1, st.2 ++ [r.2]) := by
  simp [caseUses]

/-- What holds after the uses `xs` of the case `c`, whose branches are `old`. -/
structure AfterCases (old : List Branch) (c : HCase) (xs : List CaseUse) (m : Heap Branch) (rs : List HCase) : Prop where
  self : m.read c.whens = old
  arr : c.whens.arr < m.next ∨ c.whens.cap = 0
  length : rs.length = xs.length
  result : ∀ (i : Nat) (x : CaseUse) (r : HCase), xs[i]? = some x → rs[i]? = some r → ∃ s : Slice,
    r = endingWith x.k c.subject s (branchErr (old ++ [branchOf x.kw x.w x.t])) ∧
    (c.whens.len < c.whens.cap → ∀ last, xs.getLast? = some last → m.read s = old ++ [branchOf last.kw last.w last.t]) ∧
    (c.whens.len < c.whens.cap → s = { c.whens with len := c.whens.len + 1 }) ∧
    (c.whens.cap ≤ c.whens.len → m.read s = old ++ [branchOf x.kw x.w x.t] ∧ s.arr < m.next)

theorem append_shape' {α : Type} [Inhabited α] (grow : Nat → Nat → Nat) (m : Heap α) (s : Slice) (x : α) (h : s.arr < m.next ∨ s.cap = 0) :
    m.next ≤ (m.append grow s [x]).1.next ∧ (m.append grow s [x]).2.arr < (m.append grow s [x]).1.next ∧
    (m.append grow s [x]).2.len = s.len + 1 ∧ (m.append grow s [x]).2.len ≤ (m.append grow s [x]).2.cap := by
  unfold Heap.append
  split
  · rename_i hf
    rcases h with h | h
    · exact ⟨Nat.le_refl _, h, rfl, hf⟩
    · simp [h] at hf
  · exact ⟨Nat.le_succ _, Nat.lt_succ_self _, rfl, Nat.le_max_right _ _⟩

theorem append_keeps {α : Type} [Inhabited α] (grow : Nat → Nat → Nat) (m : Heap α) (s : Slice) (x : α) (h : s.arr < m.next ∨ s.cap = 0) (hf : s.len ≤ s.cap) :
    (m.append grow s [x]).1.read s = m.read s := by
  rcases h with h | h
  · exact Heap.read_congr fun i hi => Heap.append_old grow m s _ h (.inr (.inl hi))
  · rw [Heap.read_empty _ _ (by omega), Heap.read_empty _ _ (by omega)]

theorem AfterCases.use {grow : Nat → Nat → Nat} {old c xs m rs} (h : AfterCases old c xs m rs) (hf : c.whens.len ≤ c.whens.cap) (x : CaseUse) :
    let a := m.append grow c.whens [branchOf x.kw x.w x.t]
    AfterCases old c (xs ++ [x]) a.1 (rs ++ [endingWith x.k c.subject a.2 (branchErr (old ++ [branchOf x.kw x.w x.t]))]) := by
  intro a
  obtain ⟨n1, n2, n3, n4⟩ := append_shape' grow m c.whens (branchOf x.kw x.w x.t) h.arr
  have hself : a.1.read c.whens = old := (append_keeps grow m c.whens _ h.arr hf).trans h.self
  have hread : a.1.read a.2 = old ++ [branchOf x.kw x.w x.t] := by rw [← h.self]; exact Heap.read_append grow m c.whens _
  have hroomS : c.whens.len < c.whens.cap → a.2 = { c.whens with len := c.whens.len + 1 } := by
    intro hroom
    show (Heap.append grow m c.whens _).2 = _
    unfold Heap.append
    rw [if_pos (by simp; omega)]
    rfl
  refine ⟨hself, h.arr.imp_left fun h => Nat.lt_of_lt_of_le h n1, by simp [h.length], ?_⟩
  intro i y r hy hr
  rcases get_both h.length.symm hy hr with ⟨hy, hr⟩ | ⟨hi, rfl, rfl⟩
  · obtain ⟨s, g1, g2, g3, g4⟩ := h.result i y r hy hr
    refine ⟨s, g1, ?_, g3, ?_⟩
    · intro hroom last hl
      have : last = x := by simpa using hl.symm
      subst this
      rw [g3 hroom, ← hroomS hroom]
      exact hread
    · intro hfull
      obtain ⟨k1, k2⟩ := g4 hfull
      refine ⟨?_, Nat.lt_of_lt_of_le k2 n1⟩
      rw [← k1]
      exact Heap.read_congr fun l _ => Heap.append_old grow m c.whens _ k2 (.inr (.inr (by simp; omega)))
  · refine ⟨a.2, rfl, ?_, hroomS, fun _ => ⟨hread, n2⟩⟩
    intro _ last hl
    have : last = y := by simpa using hl.symm
    subst this
    exact hread

theorem cases_after (grow : Nat → Nat → Nat) (m : Heap Branch) (c : HCase) (ha : c.whens.arr < m.next ∨ c.whens.cap = 0) (hf : c.whens.len ≤ c.whens.cap)
    (xs : List CaseUse) :
    (caseUses grow m c xs = .panic ∧ ∃ x ∈ xs, x.w.err ≠ none) ∨
    ∃ m' rs, caseUses grow m c xs = .ok (m', rs) ∧ AfterCases (m.read c.whens) c xs m' rs ∧ ∀ x ∈ xs, x.w.err = none := by
  induction xs using snoc_induction with
  | nil => exact .inr ⟨m, [], rfl, ⟨rfl, ha, rfl, by simp⟩, by simp⟩
  | append_singleton xs x ih =>
    rw [caseUses_snoc]
    rcases ih with ⟨h1, y, hy, h2⟩ | ⟨m', rs, h1, h2, h3⟩
    · rw [h1]; exact .inl ⟨rfl, y, by simp [hy], h2⟩
    · rw [h1]
      simp only [Outcome.bind, use_run]
      cases hw : x.w.err with
      | some e => exact .inl ⟨rfl, x, by simp, by rw [hw]; simp⟩
      | none =>
        refine .inr ⟨_, _, rfl, ?_, ?_⟩
        · have := h2.use (grow := grow) hf x
          rw [h2.self]
          exact this
        · intro y hy
          rcases List.mem_append.mp hy with hy | hy
          · exact h3 y hy
          · rw [List.mem_singleton] at hy; rw [hy]; exact hw

/-- What `Then` returns, read. -/
theorem reads_endingWith {m : Heap Branch} {s : Slice} {l : List (Key × Val × Val)} (k : Key) (subject : Option Val) (e : Option Err) (b b' : Key × Val × Val)
    (hr : e = none → m.read s = l.map .ok ++ [.ok b]) (hb : e = none → b = b') :
    HCase.Reads m (endingWith k subject s e) (.ending k subject (l ++ [b']) e) := by
  unfold endingWith CaseV.ending
  have bad : ∀ e, HCase.Reads m { err := some e } (.bad e) := fun e => ⟨rfl, rfl, by simp [CaseV.bad, Heap.read], rfl, rfl, rfl, rfl⟩
  cases e with
  | some e =>
    cases subject with
    | none => exact bad e
    | some x =>
      simp only
      split
      · cases x.err <;> exact bad _
      · exact bad e
  | none =>
    have hr := hr rfl
    have hb := hb rfl
    subst hb
    cases subject with
    | none => exact ⟨rfl, rfl, by simp [hr], rfl, rfl, rfl, rfl⟩
    | some x =>
      simp only
      split
      · cases x.err with
        | some e => exact bad e
        | none => exact ⟨rfl, rfl, by simp [hr], rfl, rfl, rfl, rfl⟩
      · exact ⟨rfl, rfl, by simp [hr], rfl, rfl, rfl, rfl⟩

theorem branchErr_branchOf (l : List (Key × Val × Val)) (kw : Key) (w t : Val) : branchErr (l.map .ok ++ [branchOf kw w t]) = t.err := by
  rw [branchErr_ok]
  unfold branchOf
  cases t.err <;> rfl

theorem branchOf_ok {kw : Key} {w t : Val} (h : t.err = none) : branchOf kw w t = .ok (kw, w, t) := by simp [branchOf, h]

theorem branchOf_error {kw : Key} {w t : Val} {e : Err} (h : t.err = some e) : branchOf kw w t = .error e := by simp [branchOf, h]

def Placed (m : Heap Branch) (x : CaseVar HCase) : Prop := ((slice x).arr < m.next ∨ (slice x).cap = 0) ∧ (slice x).len ≤ (slice x).cap

theorem Placed.mono {m m' : Heap Branch} {x : CaseVar HCase} (h : Placed m x) (hm : m.next ≤ m'.next) : Placed m' x :=
  ⟨h.1.imp_left fun h => Nat.lt_of_lt_of_le h hm, h.2⟩

theorem placed_none (m : Heap Branch) {x : CaseVar HCase} (h : slice x = {}) : Placed m x := by
  rw [Placed, h]; simp

theorem placed_ending {m : Heap Branch} {s : Slice} (k : Key) (subject : Option Val) (h1 : s.arr < m.next) (h2 : s.len ≤ s.cap) :
    Placed m (.case_ (.ending m k subject s)) := by
  rcases ending_slice m k subject s with he | he
  · unfold Placed slice
    simp only
    rw [he]
    exact ⟨.inl h1, h2⟩
  · exact placed_none _ he

/-- The arrays of all cases of a program exist. -/
theorem cases_placed (grow : Nat → Nat → Nat) (p : List CaseInstr) (st st' : Heap Branch × List (CaseVar HCase)) (h : ∀ x ∈ st.2, Placed st.1 x)
    (hr : runCases grow p st = .ok st') : ∀ x ∈ st'.2, Placed st'.1 x := by
  induction p generalizing st with
  | nil => cases hr; exact h
  | cons i p ih =>
    simp only [runCases] at hr
    have snoc : ∀ y, Placed st.1 y → ∀ x ∈ st.2 ++ [y], Placed st.1 x := by
      intro y hy x hx
      rcases List.mem_append.mp hx with hx | hx
      · exact h x hx
      · rw [List.mem_singleton] at hx; subst hx; exact hy
    have one : ∀ st₁, i.run grow st = .ok st₁ → ∀ x ∈ st₁.2, Placed st₁.1 x := by
      intro st₁ h₁
      cases i with
      | generic k => cases h₁; exact snoc _ (placed_none _ rfl)
      | simple k s =>
        cases h₁
        refine snoc _ (placed_none _ ?_)
        simp only [slice]
        split <;> rfl
      | when_ i w =>
        simp only [CaseInstr.run] at h₁
        split at h₁
        · rename_i c hc
          cases h₁
          have := h _ (List.mem_of_getElem? hc)
          refine snoc _ ?_
          split
          · exact placed_none _ rfl
          · exact this
        · cases h₁
      | then_ i k kw t =>
        simp only [CaseInstr.run] at h₁
        split at h₁
        · rename_i c w hc
          cases h₁
          have hp := h _ (List.mem_of_getElem? hc)
          obtain ⟨n1, n2, n3, n4⟩ := append_shape' grow st.1 c.whens (match t.err with | some e => .error e | none => .ok (kw, w, t)) hp.1
          intro x hx
          rcases List.mem_append.mp hx with hx | hx
          · rcases List.mem_or_eq_of_mem_set hx with hx | hx
            · exact (h x hx).mono n1
            · subst hx; exact ⟨.inl n2, n4⟩
          · rw [List.mem_singleton] at hx
            subst hx
            exact placed_ending k c.subject n2 n4
        · cases h₁
      | else_ i ke d =>
        simp only [CaseInstr.run] at h₁
        split at h₁
        · rename_i c hc
          cases h₁
          have := h _ (List.mem_of_getElem? hc)
          refine snoc _ ?_
          split
          · exact placed_none _ rfl
          · exact this
        · cases h₁
    cases h₁ : i.run grow st with
    | panic => rw [h₁] at hr; cases hr
    | ok st₁ => rw [h₁] at hr; exact ih st₁ (one st₁ h₁) hr

theorem CaseMade.placed {grow : Nat → Nat → Nat} {p : List CaseInstr} {m : Heap Branch} {c : HCase} (h : CaseMade grow p m c) :
    (c.whens.arr < m.next ∨ c.whens.cap = 0) ∧ c.whens.len ≤ c.whens.cap := by
  obtain ⟨xs, h1, h2⟩ := h
  exact cases_placed grow p _ _ (by simp) h1 _ h2

theorem value_ok (v : CaseV) (x : CaseUse) (h : x.w.err = none) : x.value v = .ok (.ending x.k v.subject (v.whens ++ [(x.kw, x.w, x.t)]) x.t.err) := by
  simp [CaseUse.value, CaseV.whenThen, h]

theorem runCases_snoc (grow : Nat → Nat → Nat) (p : List CaseInstr) (i : CaseInstr) (st : Heap Branch × List (CaseVar HCase)) :
    runCases grow (p ++ [i]) st = (runCases grow p st).bind (i.run grow) := by
  induction p generalizing st with
  | nil =>
    simp only [List.nil_append, runCases, Outcome.bind]
    cases i.run grow st <;> rfl
  | cons j p ih =>
    simp only [List.cons_append, runCases]
    cases j.run grow st with
    | panic => rfl
    | ok st => exact ih st

theorem branchErr_append (l : List (Key × Val × Val)) (w : Val) (ts : List (Key × Key × Val)) :
    branchErr (l.map .ok ++ ts.map fun t => branchOf t.2.1 w t.2.2) = firstErr (ts.map (·.2.2.err)) := by
  induction l with
  | nil =>
    induction ts with
    | nil => rfl
    | cons t ts ih =>
      simp only [List.map_nil, List.nil_append, List.map_cons] at ih ⊢
      cases h : t.2.2.err with
      | some e => simp only [branchOf_error h, branchErr, firstErr]
      | none => simp only [branchOf_ok h, branchErr, firstErr, ih]
  | cons x l ih => exact ih

theorem firstErr_none {l : List (Option Err)} (h : firstErr l = none) : ∀ x ∈ l, x = none := by
  induction l with
  | nil => simp
  | cons x l ih =>
    cases x with
    | some e => cases h
    | none => simpa using ih h

/-- What holds after `Then` was called with `ts` on `o := c.When(w)`. -/
structure AfterThens (v : CaseV) (c : HCase) (w : Val) (ts : List (Key × Key × Val)) (m : Heap Branch) (xs : List (CaseVar HCase)) : Prop where
  vars : ∃ s rs, xs = .case_ c :: .ongoing { c with whens := s } w :: rs ∧ rs.length = ts.length ∧
    ((s.arr < m.next ∨ s.cap = 0) ∧ s.len ≤ s.cap) ∧ m.read s = v.whens.map .ok ++ ts.map (fun t => branchOf t.2.1 w t.2.2) ∧
    ∀ (i : Nat) (t : Key × Key × Val) (x : CaseVar HCase), ts[i]? = some t → rs[i]? = some x → ∃ s' : Slice,
      x = .case_ (endingWith t.1 v.subject s' (firstErr ((ts.take (i + 1)).map (·.2.2.err)))) ∧ s'.arr < m.next ∧ (s'.arr = s.arr → s'.len ≤ s.len) ∧
      m.read s' = v.whens.map .ok ++ (ts.take (i + 1)).map (fun t => branchOf t.2.1 w t.2.2)
  subject : v.subject = c.subject

theorem AfterThens.more {grow : Nat → Nat → Nat} {v c w ts m xs} (h : AfterThens v c w ts m xs) (t : Key × Key × Val) :
    ∃ m' xs', CaseInstr.run grow (m, xs) (.then_ 1 t.1 t.2.1 t.2.2) = .ok (m', xs') ∧ AfterThens v c w (ts ++ [t]) m' xs' := by
  obtain ⟨⟨s, rs, h1, h2, ⟨h3, h4⟩, h5, h6⟩, hsub⟩ := h
  subst h1
  refine ⟨_, _, rfl, ?_, hsub⟩
  change ∃ s₁ rs₁, _ :: _ :: (rs ++ [_]) = _ ∧ _
  obtain ⟨n1, n2, n3, n4⟩ := append_shape' grow m s (branchOf t.2.1 w t.2.2) h3
  have hread : (m.append grow s [branchOf t.2.1 w t.2.2]).1.read (m.append grow s [branchOf t.2.1 w t.2.2]).2 =
      v.whens.map .ok ++ (ts ++ [t]).map (fun t => branchOf t.2.1 w t.2.2) := by
    rw [Heap.read_append, h5]; simp
  refine ⟨(m.append grow s [branchOf t.2.1 w t.2.2]).2, _, rfl, by simp [h2], ⟨.inl n2, n4⟩, hread, ?_⟩
  intro i t' x ht hx
  rcases get_both h2.symm ht hx with ⟨ht, hx⟩ | ⟨hi, rfl, rfl⟩
  · obtain ⟨s', g1, g2, g3, g4⟩ := h6 i t' x ht hx
    have hlt : i + 1 ≤ ts.length := lt_of_get ht
    rw [List.take_append_of_le_length hlt]
    refine ⟨s', g1, Nat.lt_of_lt_of_le g2 n1, ?_, ?_⟩
    · show _ → _ ≤ (m.append grow s [branchOf t.2.1 w t.2.2]).2.len
      rw [n3]
      intro ha
      have : s'.arr = s.arr := by
        revert ha
        show s'.arr = (m.append grow s [branchOf t.2.1 w t.2.2]).2.arr → _
        unfold Heap.append
        split
        · exact id
        · intro hh; simp at hh; omega
      have := g3 this
      omega
    · rw [← g4]
      refine Heap.read_congr fun l hl => ?_
      refine Heap.append_old grow m s _ g2 ?_
      by_cases ha : s'.arr = s.arr
      · have := g3 ha
        exact .inr (.inl (by omega))
      · exact .inl ha
  · refine ⟨(m.append grow s [branchOf t'.2.1 w t'.2.2]).2, ?_, n2, fun _ => Nat.le_refl _, ?_⟩
    · have : (ts ++ [t']).take (i + 1) = ts ++ [t'] := List.take_of_length_le (by simp [hi])
      rw [this, hsub]
      show CaseVar.case_ (HCase.ending _ _ _ (m.append grow s [branchOf t'.2.1 w t'.2.2]).2) = _
      rw [ending_eq]
      have hb := branchErr_append v.whens w (ts ++ [t'])
      rw [← hread] at hb
      rw [← hb]
      rfl
    · have : (ts ++ [t']).take (i + 1) = ts ++ [t'] := List.take_of_length_le (by simp [hi])
      rw [this]
      exact hread

theorem thens_after (grow : Nat → Nat → Nat) (m : Heap Branch) (c : HCase) (v : CaseV) (hv : c.Reads m v) (w : Val) (hw : w.err = none)
    (hp : (c.whens.arr < m.next ∨ c.whens.cap = 0) ∧ c.whens.len ≤ c.whens.cap) (ts : List (Key × Key × Val)) :
    ∃ m' xs, thenUses grow m c w ts = .ok (m', xs) ∧ AfterThens v c w ts m' xs := by
  induction ts using snoc_induction with
  | nil =>
    refine ⟨m, [.case_ c, .ongoing c w], ?_, ⟨⟨c.whens, [], rfl, rfl, hp, by simp [hv.2.2.1], by simp⟩, hv.2.1⟩⟩
    simp [thenUses, runCases, CaseInstr.run, hw, Outcome.bind]
  | append_singleton ts t ih =>
    obtain ⟨m', xs, h1, h2⟩ := ih
    obtain ⟨m'', xs', g1, g2⟩ := h2.more (grow := grow) t
    refine ⟨m'', xs', ?_, g2⟩
    unfold thenUses at h1 ⊢
    rw [List.map_append, ← List.cons_append]
    show runCases grow (_ ++ [CaseInstr.then_ 1 t.1 t.2.1 t.2.2]) _ = _
    rw [runCases_snoc, h1]
    exact g1

end CaseLemmas

open CaseLemmas

/-! ### C78 -/

/-- C78, the case itself: any `When(…).Then(…)` on a case leave it as it is. -/
theorem C78_kept (grow : Nat → Nat → Nat) (p : List CaseInstr) (m : Heap Branch) (c : HCase) (hc : CaseMade grow p m c) (v : CaseV) (hv : c.Reads m v)
    (xs : List CaseUse) (m' : Heap Branch) (rs : List HCase) (hr : caseUses grow m c xs = .ok (m', rs)) : c.Reads m' v := by
  have hp := CaseMade.placed hc
  rcases cases_after grow m c hp.1 hp.2 xs with ⟨h, _⟩ | ⟨m'', rs', g1, g2, _⟩
  · rw [hr] at h; cases h
  · rw [hr] at g1
    cases g1
    obtain ⟨h1, h2, h3, h4⟩ := hv
    exact ⟨h1, h2, by rw [g2.self]; exact h3, h4⟩

/-- C78, panics: they panic exactly if a condition has an error. -/
theorem C78_panics (grow : Nat → Nat → Nat) (p : List CaseInstr) (m : Heap Branch) (c : HCase) (hc : CaseMade grow p m c) (xs : List CaseUse) :
    caseUses grow m c xs = .panic ↔ ∃ x ∈ xs, x.w.err ≠ none := by
  have hp := CaseMade.placed hc
  rcases cases_after grow m c hp.1 hp.2 xs with ⟨h, g⟩ | ⟨m', rs, g1, _, g3⟩
  · exact ⟨fun _ => g, fun _ => h⟩
  · rw [g1]
    refine ⟨fun h => (by cases h), fun ⟨x, hx, he⟩ => absurd (g3 x hx) he⟩

/-- C78, the slice of the case is full: every use gives what it gives if cases are values. -/
theorem C78_full (grow : Nat → Nat → Nat) (p : List CaseInstr) (m : Heap Branch) (c : HCase) (hc : CaseMade grow p m c) (v : CaseV) (hv : c.Reads m v)
    (xs : List CaseUse) (m' : Heap Branch) (rs : List HCase) (hr : caseUses grow m c xs = .ok (m', rs)) (hfull : c.whens.len = c.whens.cap)
    (i : Nat) (x : CaseUse) (hi : xs[i]? = some x) : ∃ r u, rs[i]? = some r ∧ x.value v = .ok u ∧ r.Reads m' u := by
  have hp := CaseMade.placed hc
  rcases cases_after grow m c hp.1 hp.2 xs with ⟨h, _⟩ | ⟨m'', rs', g1, g2, g3⟩
  · rw [hr] at h; cases h
  · rw [hr] at g1
    cases g1
    have hlt : i < rs.length := by rw [g2.length]; exact lt_of_get hi
    obtain ⟨s, k1, _, _, k4⟩ := g2.result i x _ hi (List.getElem?_eq_getElem hlt)
    refine ⟨rs[i], _, List.getElem?_eq_getElem hlt, value_ok v x (g3 x (List.mem_of_getElem? hi)), ?_⟩
    rw [k1, ← hv.2.2.1, branchErr_branchOf, hv.2.1]
    refine reads_endingWith _ _ _ (x.kw, x.w, x.t) _ (fun he => ?_) (fun _ => rfl)
    rw [(k4 (by omega)).1, ← hv.2.2.1, branchOf_ok he]

/-- C78, the slice has room: in the end every use gives the branch that the last use asked for.  (Uses whose own THEN has an error give this
error.) -/
theorem C78_room (grow : Nat → Nat → Nat) (p : List CaseInstr) (m : Heap Branch) (c : HCase) (hc : CaseMade grow p m c) (v : CaseV) (hv : c.Reads m v)
    (xs : List CaseUse) (m' : Heap Branch) (rs : List HCase) (hr : caseUses grow m c xs = .ok (m', rs)) (hroom : c.whens.len < c.whens.cap)
    (i : Nat) (x last : CaseUse) (hi : xs[i]? = some x) (hl : xs.getLast? = some last) :
    ∃ r, rs[i]? = some r ∧
      (x.t.err ≠ none → ∃ u, x.value v = .ok u ∧ r.Reads m' u) ∧
      (x.t.err = none → last.t.err = none → ∃ u, CaseUse.value v { last with k := x.k } = .ok u ∧ r.Reads m' u) := by
  have hp := CaseMade.placed hc
  rcases cases_after grow m c hp.1 hp.2 xs with ⟨h, _⟩ | ⟨m'', rs', g1, g2, g3⟩
  · rw [hr] at h; cases h
  · rw [hr] at g1
    cases g1
    have hlt : i < rs.length := by rw [g2.length]; exact lt_of_get hi
    obtain ⟨s, k1, k2, _, _⟩ := g2.result i x _ hi (List.getElem?_eq_getElem hlt)
    refine ⟨rs[i], List.getElem?_eq_getElem hlt, fun he => ?_, fun he hle => ?_⟩
    · refine ⟨_, value_ok v x (g3 x (List.mem_of_getElem? hi)), ?_⟩
      rw [k1, ← hv.2.2.1, branchErr_branchOf, hv.2.1]
      exact reads_endingWith _ _ _ (x.kw, x.w, x.t) _ (fun hn => absurd hn he) (fun _ => rfl)
    · refine ⟨_, value_ok v { last with k := x.k } (g3 last (List.mem_of_getLast? hl)), ?_⟩
      rw [k1, ← hv.2.2.1, branchErr_branchOf, he, hle, hv.2.1]
      refine reads_endingWith _ _ _ (last.kw, last.w, last.t) _ (fun _ => ?_) (fun _ => rfl)
      rw [k2 hroom last hl, ← hv.2.2.1, branchOf_ok hle]

/-- C78, the slice has room and the last use has a THEN with an error: every earlier result without an error is no case any more, since
its last branch has become an empty one (case.go:231, 253-256: it panics when it is rendered). -/
theorem C78_spoiled (grow : Nat → Nat → Nat) (p : List CaseInstr) (m : Heap Branch) (c : HCase) (hc : CaseMade grow p m c)
    (xs : List CaseUse) (m' : Heap Branch) (rs : List HCase) (hr : caseUses grow m c xs = .ok (m', rs)) (hroom : c.whens.len < c.whens.cap)
    (i : Nat) (x last : CaseUse) (hi : xs[i]? = some x) (hl : xs.getLast? = some last) (e : Err) (he : last.t.err = some e) :
    ∃ r, rs[i]? = some r ∧ (r.err = none → (m'.read r.whens).getLast? = some (.error e) ∧ ¬ ∃ u, r.Reads m' u) := by
  have hp := CaseMade.placed hc
  rcases cases_after grow m c hp.1 hp.2 xs with ⟨h, _⟩ | ⟨m'', rs', g1, g2, g3⟩
  · rw [hr] at h; cases h
  · rw [hr] at g1
    cases g1
    have hlt : i < rs.length := by rw [g2.length]; exact lt_of_get hi
    obtain ⟨s, k1, k2, _, _⟩ := g2.result i x _ hi (List.getElem?_eq_getElem hlt)
    refine ⟨rs[i], List.getElem?_eq_getElem hlt, fun hn => ?_⟩
    have hs : rs[i].whens = s := by
      rw [k1] at hn ⊢
      generalize branchErr (m.read c.whens ++ [branchOf x.kw x.w x.t]) = e' at hn ⊢
      unfold endingWith at hn ⊢
      repeat' split
      all_goals simp_all
    have hread : m'.read rs[i].whens = m.read c.whens ++ [.error e] := by rw [hs, k2 hroom last hl, branchOf_error he]
    refine ⟨by rw [hread]; simp, ?_⟩
    rintro ⟨u, hu⟩
    have h3 := hu.2.2.1
    rw [hread] at h3
    have : (.error e : Branch) ∈ u.whens.map .ok := by rw [h3]; simp
    simp at this

/-- The branch that a use asks for. -/
def Spec.CaseUse.asks (x : CaseUse) : Key × Val × Val := (x.kw, x.w, x.t)

/-- C78, exactly: for conditions and results without an error, and a case without subject, or with one that can be used, all uses give what
they give if cases are values if and only if the slice of the case is full, or all of them ask for the same branch as the last one. -/
theorem C78_exactly (grow : Nat → Nat → Nat) (p : List CaseInstr) (m : Heap Branch) (c : HCase) (hc : CaseMade grow p m c) (v : CaseV) (hv : c.Reads m v)
    (hs : ∀ s, v.subject = some s → s.err = none) (xs : List CaseUse) (hx : ∀ x ∈ xs, x.w.err = none ∧ x.t.err = none) :
    ∃ m' rs, caseUses grow m c xs = .ok (m', rs) ∧
      ((∀ (i : Nat) (x : CaseUse) (r : HCase), xs[i]? = some x → rs[i]? = some r → ∃ u, x.value v = .ok u ∧ r.Reads m' u) ↔
        c.whens.len = c.whens.cap ∨ ∀ x ∈ xs, ∀ last, xs.getLast? = some last → x.asks = last.asks) := by
  have hp := CaseMade.placed hc
  rcases cases_after grow m c hp.1 hp.2 xs with ⟨_, x, h1, h2⟩ | ⟨m', rs, g1, g2, g3⟩
  · exact absurd (hx x h1).1 h2
  · refine ⟨m', rs, g1, ?_⟩
    by_cases hfull : c.whens.len = c.whens.cap
    · refine ⟨fun _ => .inl hfull, fun _ i x r hi hri => ?_⟩
      obtain ⟨r', u, k1, k2, k3⟩ := C78_full grow p m c hc v hv xs m' rs g1 hfull i x hi
      rw [hri] at k1
      cases k1
      exact ⟨u, k2, k3⟩
    · have hroom : c.whens.len < c.whens.cap := by have := hp.2; omega
      constructor
      · intro h
        refine .inr fun x hxm last hl => ?_
        obtain ⟨i, hi⟩ := List.mem_iff_getElem?.mp hxm
        have hlt : i < rs.length := by rw [g2.length]; exact lt_of_get hi
        obtain ⟨u, hu1, hu2⟩ := h i x _ hi (List.getElem?_eq_getElem hlt)
        obtain ⟨r, k1, _, k3⟩ := C78_room grow p m c hc v hv xs m' rs g1 hroom i x last hi hl
        obtain ⟨u', hu1', hu2'⟩ := k3 (hx x hxm).2 (hx last (List.mem_of_getLast? hl)).2
        rw [List.getElem?_eq_getElem hlt] at k1
        cases k1
        have hw : u.whens = u'.whens := by
          have := hu2.2.2.1.trans hu2'.2.2.1.symm
          exact (List.map_inj_right (fun a b h => by simpa using h)).mp this
        simp only [CaseUse.value, CaseV.whenThen, (hx x hxm).1, (hx x hxm).2, (hx last (List.mem_of_getLast? hl)).1, (hx last (List.mem_of_getLast? hl)).2,
          Outcome.ok.injEq] at hu1 hu1'
        subst hu1 hu1'
        have hend : ∀ b, (CaseV.ending x.k v.subject (v.whens ++ [b]) none).whens = v.whens ++ [b] := by
          intro b
          unfold CaseV.ending
          cases hsub : v.subject with
          | none => rfl
          | some s =>
            simp only [hs s hsub]
            split <;> rfl
        rw [hend, hend] at hw
        simpa [CaseUse.asks] using hw
      · rintro (h | h) i x r hi hri
        · exact absurd h hfull
        · have hne : xs ≠ [] := by rintro rfl; simp at hi
          have hl := List.getLast?_eq_some_getLast hne
          obtain ⟨r', k1, _, k3⟩ := C78_room grow p m c hc v hv xs m' rs g1 hroom i x _ hi hl
          rw [hri] at k1
          cases k1
          obtain ⟨u, hu1, hu2⟩ := k3 (hx x (List.mem_of_getElem? hi)).2 (hx _ (List.getLast_mem hne)).2
          have := h x (List.mem_of_getElem? hi) _ hl
          simp only [CaseUse.asks, Prod.mk.injEq] at this
          refine ⟨u, ?_, hu2⟩
          rw [← hu1]
          simp only [CaseUse.value, this.1, this.2.1, this.2.2]

/-- C78, one `OngoingWhenThen`: after `o := c.When(w)`, each `o.Then(…)` gives a case with the branches of `c` and one branch for each
`Then` so far, all with the condition `w`; or with the error of the first of them that has one. -/
theorem C78_then (grow : Nat → Nat → Nat) (p : List CaseInstr) (m : Heap Branch) (c : HCase) (hc : CaseMade grow p m c) (v : CaseV) (hv : c.Reads m v)
    (w : Val) (hw : w.err = none) (ts : List (Key × Key × Val)) :
    ∃ m' xs, thenUses grow m c w ts = .ok (m', xs) ∧ xs.length = ts.length + 2 ∧
      ∀ (i : Nat) (t : Key × Key × Val), ts[i]? = some t → ∃ r : HCase, xs[i + 2]? = some (.case_ r) ∧
        r.Reads m' (.ending t.1 v.subject (v.whens ++ (ts.take (i + 1)).map fun t => (t.2.1, w, t.2.2)) (firstErr ((ts.take (i + 1)).map (·.2.2.err)))) := by
  obtain ⟨m', xs, h1, ⟨⟨s, rs, h2, h3, _, _, h6⟩, hsub⟩⟩ := thens_after grow m c v hv w hw (CaseMade.placed hc) ts
  refine ⟨m', xs, h1, by simp [h2, h3], fun i t ht => ?_⟩
  have hlt : i < rs.length := by rw [h3]; exact lt_of_get ht
  obtain ⟨s', g1, g2, _, g4⟩ := h6 i t _ ht (List.getElem?_eq_getElem hlt)
  refine ⟨endingWith t.1 v.subject s' (firstErr ((ts.take (i + 1)).map (·.2.2.err))), ?_, ?_⟩
  · rw [h2]
    exact (List.getElem?_eq_getElem hlt).trans (congrArg some g1)
  have htake : ts.take (i + 1) = ts.take i ++ [t] := by rw [List.take_add_one, ht]; rfl
  rw [htake] at g4 ⊢
  generalize hall : ts.take i ++ [t] = all at g4 ⊢
  have hl := reads_endingWith (m := m') (s := s') (l := v.whens ++ (ts.take i).map fun t => (t.2.1, w, t.2.2)) t.1 v.subject
    (firstErr (all.map (·.2.2.err))) (t.2.1, w, t.2.2) (t.2.1, w, t.2.2) ?_ fun _ => rfl
  · have he : v.whens ++ all.map (fun t => (t.2.1, w, t.2.2)) = (v.whens ++ (ts.take i).map fun t => (t.2.1, w, t.2.2)) ++ [(t.2.1, w, t.2.2)] := by
      rw [← hall]; simp
    rw [he]
    exact hl
  · intro hn
    rw [g4]
    have hb : all.map (fun t => branchOf t.2.1 w t.2.2) = all.map fun t => .ok (t.2.1, w, t.2.2) := by
      refine List.map_congr_left fun y hy => branchOf_ok ?_
      exact firstErr_none hn _ (List.mem_map.mpr ⟨y, hy, rfl⟩)
    rw [hb, ← hall]
    simp only [List.map_append, List.map_cons, List.map_nil, List.map_map, List.append_assoc]
    rfl

namespace SampleCaseUses
open SampleCase

/-- `.When(4).Then(14)`, `.When(5).Then(15)` -/
def uses : List CaseUse := [⟨340, 341, lit 4, lit 14⟩, ⟨350, 351, lit 5, lit 15⟩]

/-- The branches, if all can be visited. -/
def branches : List Verif.Branch → Option (List (Key × Val × Val))
  | [] => some []
  | .ok b :: bs => (branches bs).map (b :: ·)
  | .error _ :: _ => none

/-- What is seen of the results of uses of the case in line `i` of `three`: a text, or nothing if there is a branch that cannot be visited. -/
def usedTexts (i : Nat) (xs : List CaseUse) : List (Option Str) :=
  match runCases goGrow three (Heap.initial, []) with
  | .ok (m, vars) =>
    match vars[i]? with
    | some (.case_ c) =>
      match caseUses goGrow m c xs with
      | .ok (m', rs) => rs.map fun (r : HCase) =>
        (branches (m'.read r.whens)).map fun bs => SampleCase.text (CaseV.visit ⟨r.key, r.subject, bs, r.els, r.generic, r.err, r.notNil⟩)
      | .panic => []
    | _ => []
  | .panic => []

/-- `three` with the branches as a value. -/
def threeV : CaseV := ⟨330, some x, [(311, lit 1, lit 11), (321, lit 2, lit 12), (331, lit 3, lit 13)], none, false, none, true⟩

end SampleCaseUses
open SampleCase SampleCaseUses

/-- C78, seen in the text: two uses of the case with two branches, whose slice is full; of the case with three branches, whose slice has room
for four; and the same if the second use has a THEN with an error. -/
theorem C78_texts :
    usedTexts 4 uses = [some c!"CASE x WHEN 1 THEN 11 WHEN 2 THEN 12 WHEN 4 THEN 14 END", some c!"CASE x WHEN 1 THEN 11 WHEN 2 THEN 12 WHEN 5 THEN 15 END"] ∧
    usedTexts 6 uses = [some c!"CASE x WHEN 1 THEN 11 WHEN 2 THEN 12 WHEN 3 THEN 13 WHEN 5 THEN 15 END",
      some c!"CASE x WHEN 1 THEN 11 WHEN 2 THEN 12 WHEN 3 THEN 13 WHEN 5 THEN 15 END"] ∧
    (usedTexts 6 (uses.take 1 ++ [⟨350, 351, lit 5, broken⟩])).take 1 = [none] := by decide +kernel

/-- The hypotheses hold for the case with three branches. -/
example : ∃ m c, CaseMade goGrow three m c ∧ c.Reads m threeV ∧ c.whens.len < c.whens.cap ∧ (∀ s, threeV.subject = some s → s.err = none) ∧
    (∀ x ∈ uses, x.w.err = none ∧ x.t.err = none) ∧ uses[0]? = some ⟨340, 341, lit 4, lit 14⟩ := by
  refine ⟨_, _, ⟨_, rfl, List.mem_of_getElem? (i := 6) rfl⟩, ⟨rfl, rfl, rfl, rfl, rfl, rfl, rfl⟩, by decide +kernel, ?_, ?_, rfl⟩
  · intro s hs; cases hs; rfl
  · intro y hy
    simp only [uses, List.mem_cons, List.not_mem_nil, or_false] at hy
    rcases hy with rfl | rfl <;> exact ⟨rfl, rfl⟩

/-- And for the case with two branches, whose slice is full. -/
example : ∃ m c, CaseMade goGrow (three.take 5) m c ∧ c.Reads m { threeV with key := 320, whens := threeV.whens.take 2 } ∧ c.whens.len = c.whens.cap := by
  exact ⟨_, _, ⟨_, rfl, List.mem_of_getElem? (i := 4) rfl⟩, ⟨rfl, rfl, rfl, rfl, rfl, rfl, rfl⟩, by decide +kernel⟩

end Verif
