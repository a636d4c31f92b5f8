import Verif.SliceLemmas

/-
CASE expressions with the slices that hold their branches, case.go.  `When` keeps a pointer to a copy of its receiver, and `Then`
appends to the slice of that copy.
-/

namespace Verif

/-- case.go:220-243 `CaseWhenThen`: an error, or key and the two expressions. -/
abbrev Branch := Except Err (Key × Val × Val)

instance : Inhabited Branch := ⟨.error (.other 0)⟩

/-- case.go:3-12 `Case`, as in `CaseV`, with the slice that holds the branches. -/
structure HCase where
  key : Key := 0
  subject : Option Val := none
  whens : Slice := {}
  els : Option (Key × Val) := none
  generic : Bool := false
  err : Option Err := none
  notNil : Bool := false

/-- A value of type `Case`, or of type `OngoingWhenThen` (case.go:197-207): its case instance, which is referred to by a pointer, and
the condition of the branch; or one with an error, without case instance. -/
inductive CaseVar (α : Type) where
  | case_ (c : α)
  | ongoing (c : α) (w : Val)
  | broken

/-- What a program does with cases: `v_n := ...` in the n-th line, where the receiver is the number of a line. -/
inductive CaseInstr where
  | generic (k : Key)
  | simple (k : Key) (subject : Option Val)
  | when_ (receiver : Nat) (w : Val)
  | then_ (receiver : Nat) (k kw : Key) (t : Val)
  | else_ (receiver : Nat) (ke : Key) (d : Val)

/-- The first error of the branches, case.go:58-62, 102-106. -/
def branchErr : List Branch → Option Err
  | [] => none
  | .error e :: _ => some e
  | .ok _ :: bs => branchErr bs

/-- case.go:54-72 `EndingSimpleCaseCreate`, 101-115 `EndingGenericCaseCreate`, chosen as in 212-216. -/
def HCase.ending (m : Heap Branch) (k : Key) (subject : Option Val) (whens : Slice) : HCase :=
  match subject with
  | some s =>
    if s.notNil then
      match s.err with
      | some e => { err := some e }
      | none =>
        match branchErr (m.read whens) with
        | some e => { err := some e }
        | none => { key := k, subject := subject, whens := whens, notNil := true }
    else
      match branchErr (m.read whens) with
      | some e => { err := some e }
      | none => { key := k, whens := whens, generic := true, notNil := true }
  | none =>
    match branchErr (m.read whens) with
    | some e => { err := some e }
    | none => { key := k, whens := whens, generic := true, notNil := true }

/-- One line of the program, in Go's memory.  The type checker admits only receivers of the right type; other programs panic here. -/
def CaseInstr.run (grow : Nat → Nat → Nat) (st : Heap Branch × List (CaseVar HCase)) : CaseInstr → Outcome (Heap Branch × List (CaseVar HCase))
  | .generic k => .ok (st.1, st.2 ++ [.case_ { key := k, generic := true, notNil := true }])      -- 74-83
  | .simple k s =>                                                                                  -- 39-52
    .ok (st.1, st.2 ++ [.case_ (match errOf s with | some e => { err := some e } | none => { key := k, subject := s, notNil := true })])
  | .when_ i w =>                                                                                   -- 117-119, 202-207
    match st.2[i]? with
    | some (.case_ c) => .ok (st.1, st.2 ++ [match w.err with | some _ => .broken | none => .ongoing c w])
    | _ => .panic
  | .then_ i k kw t =>                                                                              -- 209-217, 229-243
    match st.2[i]? with
    | some (.ongoing c w) =>
      let r := st.1.append grow c.whens [match t.err with | some e => .error e | none => .ok (kw, w, t)]
      .ok (r.1, st.2.set i (.ongoing { c with whens := r.2 } w) ++ [.case_ (.ending r.1 k c.subject r.2)])
    | _ => .panic
  | .else_ i ke d =>                                                                                -- 167-175
    match st.2[i]? with
    | some (.case_ c) => .ok (st.1, st.2 ++ [.case_ (match d.err with | some e => { err := some e } | none => { c with els := some (ke, d) })])
    | _ => .panic

/-- One line of the program, with cases as values. -/
def CaseInstr.value (vs : List (CaseVar CaseV)) : CaseInstr → Outcome (List (CaseVar CaseV))
  | .generic k => .ok (vs ++ [.case_ (.start k)])
  | .simple k s => .ok (vs ++ [.case_ (.simple k s)])
  | .when_ i w =>
    match vs[i]? with
    | some (.case_ c) => .ok (vs ++ [match w.err with | some _ => .broken | none => .ongoing c w])
    | _ => .panic
  | .then_ i k kw t =>
    match vs[i]? with
    | some (.ongoing c w) => (c.whenThen k kw w t).map fun c => vs ++ [.case_ c]
    | _ => .panic
  | .else_ i ke d =>
    match vs[i]? with
    | some (.case_ c) => .ok (vs ++ [.case_ (c.elseDefault ke d)])
    | _ => .panic

/-- The lines used as receivers. -/
def CaseInstr.receiver : CaseInstr → Option Nat
  | .generic _ | .simple .. => none
  | .when_ i _ | .then_ i .. | .else_ i .. => some i

/-- A whole program, in Go's memory. -/
def runCases (grow : Nat → Nat → Nat) : List CaseInstr → Heap Branch × List (CaseVar HCase) → Outcome (Heap Branch × List (CaseVar HCase))
  | [], st => .ok st
  | i :: is, st => (i.run grow st).bind (runCases grow is)

/-- A whole program, with cases as values. -/
def valueCases : List CaseInstr → List (CaseVar CaseV) → Outcome (List (CaseVar CaseV))
  | [], vs => .ok vs
  | i :: is, vs => (i.value vs).bind (valueCases is)

/-- The case that one reads, now, is `v`. -/
def HCase.Reads (m : Heap Branch) (c : HCase) (v : CaseV) : Prop :=
  v.key = c.key ∧ v.subject = c.subject ∧ v.whens.map .ok = m.read c.whens ∧ v.els = c.els ∧ v.generic = c.generic ∧ v.err = c.err ∧ v.notNil = c.notNil

namespace CaseLemmas

def slice : CaseVar HCase → Slice
  | .case_ c | .ongoing c _ => c.whens
  | .broken => {}

/-- A variable in memory and its value. -/
inductive Matches (m : Heap Branch) : CaseVar HCase → CaseVar CaseV → Prop
  | case_ {c v} : HCase.Reads m c v → Matches m (.case_ c) (.case_ v)
  | ongoing {c v w} : HCase.Reads m c v → w.err = none → Matches m (.ongoing c w) (.ongoing v w)
  | broken : Matches m .broken .broken

/-- The variables before a line; `used`: those that were receivers. -/
structure CGood (used : List Nat) (m : Heap Branch) (xs : List (CaseVar HCase)) (vs : List (CaseVar CaseV)) : Prop where
  len : xs.length = vs.length
  rel : ∀ (i : Nat) (x : CaseVar HCase) (v : CaseVar CaseV), xs[i]? = some x → vs[i]? = some v → (∃ c, x = .case_ c) ∨ i ∉ used → Matches m x v
  kind : ∀ (i : Nat) (x : CaseVar HCase) (v : CaseVar CaseV), xs[i]? = some x → vs[i]? = some v → ((∃ c, x = .case_ c) ↔ ∃ c, v = .case_ c)
  arr : ∀ x ∈ xs, ((slice x).len = 0 → (slice x).cap = 0) ∧ (0 < (slice x).len → (slice x).arr < m.next)
  own : ∀ (i : Nat) (x : CaseVar HCase) (j : Nat) (y : CaseVar HCase), xs[i]? = some x → xs[j]? = some y → i ∉ used → i ≠ j → 0 < (slice x).len → 0 < (slice y).len → (slice x).arr = (slice y).arr →
    j ∈ used ∧ (slice y).len ≤ (slice x).len

variable {used : List Nat} {m : Heap Branch} {xs : List (CaseVar HCase)} {vs : List (CaseVar CaseV)}

theorem get_snoc {α : Type} {l : List α} {x : α} {n : Nat} {a : α} (h : (l ++ [x])[n]? = some a) : l[n]? = some a ∨ (n = l.length ∧ a = x) := by
  rcases Nat.lt_or_ge n l.length with hi | hi
  · rw [List.getElem?_append_left hi] at h; exact .inl h
  · rw [List.getElem?_append_right hi] at h
    cases hd : n - l.length with
    | zero => rw [hd] at h; simp at h; exact .inr ⟨by omega, h.symm⟩
    | succ n => rw [hd] at h; simp at h

theorem lt_of_get {α : Type} {l : List α} {n : Nat} {a : α} (h : l[n]? = some a) : n < l.length := (List.getElem?_eq_some_iff.mp h).1

/-- Both lists get one more element. -/
theorem get_both {α β : Type} {l : List α} {k : List β} (hl : l.length = k.length) {x : α} {y : β} {n : Nat} {a : α} {b : β} (ha : (l ++ [x])[n]? = some a) (hb : (k ++ [y])[n]? = some b) :
    (l[n]? = some a ∧ k[n]? = some b) ∨ (n = l.length ∧ a = x ∧ b = y) := by
  rcases get_snoc ha with h1 | ⟨h1, rfl⟩ <;> rcases get_snoc hb with h2 | ⟨h2, rfl⟩
  · exact .inl ⟨h1, h2⟩
  · exact absurd (lt_of_get h1) (by omega)
  · exact absurd (lt_of_get h2) (by omega)
  · exact .inr ⟨h1, rfl, rfl⟩

/-- A new variable that has no array of its own. -/
theorem CGood.fresh (h : CGood used m xs vs) {x : CaseVar HCase} {v : CaseVar CaseV} (hx : slice x = {}) (hm : Matches m x v) (hk : (∃ c, x = .case_ c) ↔ ∃ c, v = .case_ c) :
    CGood used m (xs ++ [x]) (vs ++ [v]) := by
  have hx0 : (slice x).len = 0 := by rw [hx]
  refine ⟨by simp [h.len], fun i y w h1 h2 h3 => ?_, fun i y w h1 h2 => ?_, fun y hy => ?_, fun i y j z h1 h2 h3 h4 h5 h6 h7 => ?_⟩
  · rcases get_both h.len h1 h2 with ⟨h1, h2⟩ | ⟨_, rfl, rfl⟩
    · exact h.rel i y w h1 h2 h3
    · exact hm
  · rcases get_both h.len h1 h2 with ⟨h1, h2⟩ | ⟨_, rfl, rfl⟩
    · exact h.kind i y w h1 h2
    · exact hk
  · simp only [List.mem_append, List.mem_singleton] at hy
    rcases hy with hy | rfl
    · exact h.arr y hy
    · rw [hx]; simp
  · have old : ∀ (n : Nat) (a : CaseVar HCase), (xs ++ [x])[n]? = some a → 0 < (slice a).len → xs[n]? = some a := by
      intro n a ha hl
      rcases get_snoc ha with ha | ⟨_, rfl⟩
      · exact ha
      · omega
    exact h.own i y j z (old i y h1 h5) (old j z h2 h6) h3 h4 h5 h6 h7

/-- A new variable with the array of a variable that is not used again. -/
theorem CGood.share (h : CGood used m xs vs) {i : Nat} {y : CaseVar HCase} (hi : xs[i]? = some y) (hu : i ∉ used) {x : CaseVar HCase} {v : CaseVar CaseV}
    (hx : slice x = slice y ∨ slice x = {}) (hm : Matches m x v) (hk : (∃ c, x = .case_ c) ↔ ∃ c, v = .case_ c) : CGood (i :: used) m (xs ++ [x]) (vs ++ [v]) := by
  refine ⟨by simp [h.len], fun j z w h1 h2 h3 => ?_, fun j z w h1 h2 => ?_, fun z hz => ?_, fun j z l t h1 h2 h3 h4 h5 h6 h7 => ?_⟩
  · rcases get_both h.len h1 h2 with ⟨h1, h2⟩ | ⟨_, rfl, rfl⟩
    · exact h.rel j z w h1 h2 (h3.imp_right fun h => fun hx => h (by simp [hx]))
    · exact hm
  · rcases get_both h.len h1 h2 with ⟨h1, h2⟩ | ⟨_, rfl, rfl⟩
    · exact h.kind j z w h1 h2
    · exact hk
  · simp only [List.mem_append, List.mem_singleton] at hz
    rcases hz with hz | rfl
    · exact h.arr z hz
    · rcases hx with hx | hx
      · rw [hx]; exact h.arr y (List.mem_of_getElem? hi)
      · rw [hx]; simp
  · simp only [List.mem_cons, not_or] at h3 ⊢
    have full : ∀ a, a = x → 0 < (slice a).len → slice a = slice y := by
      rintro a rfl h0
      rcases hx with hx | hx
      · exact hx
      · rw [hx] at h0; simp at h0
    rcases get_snoc h1 with h1 | ⟨hj, hz⟩ <;> rcases get_snoc h2 with h2 | ⟨hl, ht⟩
    · have := h.own j z l t h1 h2 h3.2 h4 h5 h6 h7
      exact ⟨.inr this.1, this.2⟩
    · have hh := full t ht h6
      rw [hh] at h6 h7 ⊢
      have := h.own j z i y h1 hi h3.2 h3.1 h5 h6 h7
      exact absurd this.1 hu
    · have hh := full z hz h5
      rw [hh] at h5 h7 ⊢
      by_cases hli : l = i
      · subst hli
        rw [hi] at h2
        cases h2
        exact ⟨.inl rfl, Nat.le_refl _⟩
      · have := h.own i y l t hi h2 hu (Ne.symm hli) h5 h6 h7
        exact ⟨.inr this.1, this.2⟩
    · exact absurd (hj.trans hl.symm) h4

theorem branchErr_ok (l : List (Key × Val × Val)) (b : Branch) :
    branchErr (l.map .ok ++ [b]) = match b with | .error e => some e | .ok _ => none := by
  induction l with
  | nil => cases b <;> rfl
  | cons x l ih => exact ih

/-- `Then`: the case that is returned. -/
theorem reads_ending {m : Heap Branch} {s : Slice} {l : List (Key × Val × Val)} {b : Key × Val × Val} {e : Option Err} (hr : m.read s = l.map .ok ++ [match e with | some e => .error e | none => .ok b])
    (k : Key) (subject : Option Val) : HCase.Reads m (.ending m k subject s) (.ending k subject (l ++ [b]) e) := by
  unfold HCase.ending CaseV.ending
  rw [hr, branchErr_ok]
  have bad : ∀ e, HCase.Reads m { err := some e } (.bad e) := fun e => ⟨rfl, rfl, by simp [CaseV.bad, Heap.read], rfl, rfl, rfl, rfl⟩
  cases e with
  | some e =>
    cases subject with
    | none => exact bad e
    | some x =>
      simp only
      split
      · cases x.err <;> exact bad _
      · exact bad e
  | none =>
    cases subject with
    | none => exact ⟨rfl, rfl, by simp [hr], rfl, rfl, rfl, rfl⟩
    | some x =>
      simp only
      split
      · cases x.err with
        | some e => exact bad e
        | none => exact ⟨rfl, rfl, by simp [hr], rfl, rfl, rfl, rfl⟩
      · exact ⟨rfl, rfl, by simp [hr], rfl, rfl, rfl, rfl⟩

theorem ending_slice (m : Heap Branch) (k : Key) (subject : Option Val) (s : Slice) : (HCase.ending m k subject s).whens = s ∨ (HCase.ending m k subject s).whens = {} := by
  unfold HCase.ending
  split
  · split
    · split
      · exact .inr rfl
      · split
        · exact .inr rfl
        · exact .inl rfl
    · split
      · exact .inr rfl
      · exact .inl rfl
  · split
    · exact .inr rfl
    · exact .inl rfl

theorem Reads.congr {m m' : Heap Branch} {c : HCase} {v : CaseV} (h : HCase.Reads m c v) (hs : m'.read c.whens = m.read c.whens) : HCase.Reads m' c v :=
  ⟨h.1, h.2.1, h.2.2.1.trans hs.symm, h.2.2.2⟩

theorem Matches.congr {m m' : Heap Branch} {x : CaseVar HCase} {v : CaseVar CaseV} (h : Matches m x v) (hs : m'.read (slice x) = m.read (slice x)) : Matches m' x v := by
  cases h with
  | case_ h => exact .case_ (Reads.congr h hs)
  | ongoing h hw => exact .ongoing (Reads.congr h hs) hw
  | broken => exact .broken

/-- `Then`: the memory and the variable `OngoingWhenThen` change. -/
theorem CGood.extend (grow : Nat → Nat → Nat) (h : CGood used m xs vs) {i : Nat} {c : HCase} {w : Val} (hi : xs[i]? = some (.ongoing c w)) (hu : i ∉ used) (b : Branch) {x : HCase} {v : CaseV}
    (hx : x.whens = (m.append grow c.whens [b]).2 ∨ x.whens = {}) (hm : HCase.Reads (m.append grow c.whens [b]).1 x v) :
    CGood (i :: used) (m.append grow c.whens [b]).1 (xs.set i (.ongoing { c with whens := (m.append grow c.whens [b]).2 } w) ++ [.case_ x]) (vs ++ [.case_ v]) := by
  have hlt := lt_of_get hi
  have hcarr := h.arr _ (List.mem_of_getElem? hi)
  simp only [slice] at hcarr
  -- the new slice
  have hnew : (m.append grow c.whens [b]).2.len = c.whens.len + 1 ∧ m.next ≤ (m.append grow c.whens [b]).1.next ∧
      (((m.append grow c.whens [b]).2.arr = c.whens.arr ∧ 0 < c.whens.len) ∨ (m.append grow c.whens [b]).2.arr = m.next ∧ (m.append grow c.whens [b]).1.next = m.next + 1) := by
    simp only [Heap.append, List.length_singleton]
    split
    · refine ⟨rfl, Nat.le_refl _, .inl ⟨rfl, ?_⟩⟩
      rcases Nat.eq_zero_or_pos c.whens.len with h0 | h0
      · have := hcarr.1 h0; omega
      · exact h0
    · exact ⟨rfl, Nat.le_succ _, .inr ⟨rfl, rfl⟩⟩
  -- what the other variables refer to
  have hread : ∀ (j : Nat) (y : CaseVar HCase), xs[j]? = some y → j ≠ i → (m.append grow c.whens [b]).1.read (slice y) = m.read (slice y) := by
    intro j y hj hne
    refine Heap.read_congr fun n hn => ?_
    have hy := h.arr y (List.mem_of_getElem? hj)
    refine Heap.append_old grow m c.whens [b] (hy.2 (by omega)) ?_
    rcases Nat.eq_zero_or_pos c.whens.len with h0 | h0
    · have := hcarr.1 h0
      exact .inr (.inr (by simp; omega))
    · by_cases ha : (slice y).arr = c.whens.arr
      · have : (slice y).len ≤ c.whens.len := (h.own i _ j y hi hj hu (Ne.symm hne) h0 (by omega) ha.symm).2
        exact .inr (.inl (by omega))
      · exact .inl ha
  generalize m.append grow c.whens [b] = r at *
  have hs : ∀ (j : Nat) (y : CaseVar HCase), (xs.set i (.ongoing { c with whens := r.2 } w))[j]? = some y → (j = i ∧ y = .ongoing { c with whens := r.2 } w) ∨ (j ≠ i ∧ xs[j]? = some y) := by
    intro j y hj
    by_cases hji : j = i
    · subst hji
      rw [List.getElem?_set_self hlt] at hj
      exact .inl ⟨rfl, (Option.some.inj hj).symm⟩
    · rw [List.getElem?_set_ne (Ne.symm hji)] at hj
      exact .inr ⟨hji, hj⟩
  have hlen : (xs.set i (.ongoing { c with whens := r.2 } w)).length = vs.length := by simp [h.len]
  refine ⟨by simp [h.len], fun j y z h1 h2 h3 => ?_, fun j y z h1 h2 => ?_, fun y hy => ?_, fun j y l z h1 h2 h3 h4 h5 h6 h7 => ?_⟩
  · rcases get_both hlen h1 h2 with ⟨h1, h2⟩ | ⟨_, rfl, rfl⟩
    · rcases hs j y h1 with ⟨rfl, rfl⟩ | ⟨hji, h1⟩
      · rcases h3 with ⟨c, h3⟩ | h3
        · cases h3
        · exact absurd (List.mem_cons_self) h3
      · exact (h.rel j y z h1 h2 (h3.imp_right fun h => fun hx => h (by simp [hx]))).congr (hread j y h1 hji)
    · exact .case_ hm
  · rcases get_both hlen h1 h2 with ⟨h1, h2⟩ | ⟨_, rfl, rfl⟩
    · rcases hs j y h1 with ⟨rfl, rfl⟩ | ⟨hji, h1⟩
      · have := h.kind j _ z hi h2
        simpa using this
      · exact h.kind j y z h1 h2
    · simp
  · simp only [List.mem_append, List.mem_singleton] at hy
    rcases hy with hy | rfl
    · obtain ⟨j, hj⟩ := List.mem_iff_getElem?.mp hy
      rcases hs j y hj with ⟨rfl, rfl⟩ | ⟨hji, h1⟩
      · simp only [slice]
        refine ⟨fun h0 => by omega, fun _ => ?_⟩
        rcases hnew.2.2 with ⟨ha, h0⟩ | ⟨ha, hn⟩
        · have := hcarr.2 h0; omega
        · omega
      · have := h.arr y (List.mem_of_getElem? h1)
        exact ⟨this.1, fun h0 => Nat.lt_of_lt_of_le (this.2 h0) hnew.2.1⟩
    · simp only [slice]
      rcases hx with hx | hx
      · rw [hx]
        refine ⟨fun h0 => by omega, fun _ => ?_⟩
        rcases hnew.2.2 with ⟨ha, h0⟩ | ⟨ha, hn⟩
        · have := hcarr.2 h0; omega
        · omega
      · rw [hx]; simp
  · simp only [List.mem_cons, not_or] at h3 ⊢
    -- an old variable with the array of the new slice
    have old : ∀ (n : Nat) (t : CaseVar HCase), xs[n]? = some t → n ≠ i → 0 < (slice t).len → (slice t).arr = r.2.arr → 0 < c.whens.len ∧ (slice t).arr = c.whens.arr := by
      intro n t hn hne h0 ha
      rcases hnew.2.2 with ⟨hb, hc⟩ | ⟨hb, hc⟩
      · exact ⟨hc, ha.trans hb⟩
      · have := (h.arr t (List.mem_of_getElem? hn)).2 h0
        omega
    have full : ∀ a, a = CaseVar.case_ x → 0 < (slice a).len → slice a = r.2 := by
      rintro a rfl h0
      rcases hx with hx | hx
      · exact hx
      · simp only [slice] at h0; rw [hx] at h0; simp at h0
    rcases get_snoc h1 with h1 | ⟨hj, hz⟩ <;> rcases get_snoc h2 with h2 | ⟨hl, ht⟩
    · rcases hs j y h1 with ⟨hj, _⟩ | ⟨hji, h1⟩
      · exact absurd hj h3.1
      · rcases hs l z h2 with ⟨hl, rfl⟩ | ⟨hli, h2⟩
        · have := old j y h1 hji h5 h7
          exact absurd (h.own j y i _ h1 hi h3.2 hji h5 this.1 this.2).1 hu
        · have := h.own j y l z h1 h2 h3.2 h4 h5 h6 h7
          exact ⟨.inr this.1, this.2⟩
    · rcases hs j y h1 with ⟨hj, _⟩ | ⟨hji, h1⟩
      · exact absurd hj h3.1
      · rw [full z ht h6] at h7
        have := old j y h1 hji h5 h7
        exact absurd (h.own j y i _ h1 hi h3.2 hji h5 this.1 this.2).1 hu
    · have hy := full y hz h5
      rw [hy] at h5 h7 ⊢
      rcases hs l z h2 with ⟨rfl, rfl⟩ | ⟨hli, h2⟩
      · exact ⟨.inl rfl, Nat.le_refl _⟩
      · have ho := old l z h2 hli h6 h7.symm
        have := h.own i _ l z hi h2 hu (Ne.symm hli) ho.1 h6 ho.2.symm
        refine ⟨.inr this.1, ?_⟩
        have h8 : (slice z).len ≤ c.whens.len := this.2
        omega
    · exact absurd (hj.trans hl.symm) h4

/-- What two runs have in common. -/
inductive Agree (used : List Nat) : Outcome (Heap Branch × List (CaseVar HCase)) → Outcome (List (CaseVar CaseV)) → Prop
  | ok {m : Heap Branch} {xs : List (CaseVar HCase)} {vs : List (CaseVar CaseV)} : CGood used m xs vs → Agree used (.ok (m, xs)) (.ok vs)
  | panic : Agree used .panic .panic

theorem matched (h : CGood used m xs vs) {i : Nat} (hu : i ∉ used) : (xs[i]? = none ∧ vs[i]? = none) ∨ ∃ x v, xs[i]? = some x ∧ vs[i]? = some v ∧ Matches m x v := by
  cases hx : xs[i]? with
  | none =>
    refine .inl ⟨rfl, ?_⟩
    simp only [List.getElem?_eq_none_iff] at hx ⊢
    rw [← h.len]; exact hx
  | some x =>
    have hlt := h.len ▸ lt_of_get hx
    have hv : vs[i]? = some vs[i] := List.getElem?_eq_getElem hlt
    exact .inr ⟨x, _, rfl, hv, h.rel i x _ hx hv (.inr hu)⟩

theorem step_agree (grow : Nat → Nat → Nat) (h : CGood used m xs vs) (ins : CaseInstr) (hu : ∀ i, ins.receiver = some i → i ∉ used) :
    Agree (ins.receiver.toList ++ used) (ins.run grow (m, xs)) (ins.value vs) := by
  cases ins with
  | generic k => exact .ok (h.fresh rfl (.case_ ⟨rfl, rfl, by simp [CaseV.start, Heap.read], rfl, rfl, rfl, rfl⟩) (by simp))
  | simple k s =>
    refine .ok (h.fresh ?_ (.case_ ?_) (by simp)) <;> simp only [slice, CaseV.simple] <;> cases errOf s
    · rfl
    · rfl
    · exact ⟨rfl, rfl, by simp [Heap.read], rfl, rfl, rfl, rfl⟩
    · exact ⟨rfl, rfl, by simp [CaseV.bad, Heap.read], rfl, rfl, rfl, rfl⟩
  | when_ i w =>
    have hi := hu i rfl
    simp only [CaseInstr.run, CaseInstr.value]
    rcases matched h hi with ⟨hx, hv⟩ | ⟨x, v, hx, hv, hm⟩
    · rw [hx, hv]; exact .panic
    · rw [hx, hv]
      cases hm with
      | case_ hr =>
        simp only
        cases hw : w.err with
        | some e => exact .ok (h.share hx hi (.inr rfl) .broken (by simp))
        | none => exact .ok (h.share hx hi (.inl rfl) (.ongoing hr hw) (by simp))
      | ongoing _ _ => exact .panic
      | broken => exact .panic
  | then_ i k kw t =>
    have hi := hu i rfl
    simp only [CaseInstr.run, CaseInstr.value]
    rcases matched h hi with ⟨hx, hv⟩ | ⟨x, v, hx, hv, hm⟩
    · rw [hx, hv]; exact .panic
    · rw [hx, hv]
      cases hm with
      | case_ hr => exact .panic
      | broken => exact .panic
      | @ongoing c v w hr hw =>
        simp only [CaseV.whenThen, hw, Outcome.map]
        refine .ok (h.extend grow hx hi _ (ending_slice _ _ _ _) ?_)
        rw [hr.2.1]
        exact reads_ending (by rw [Heap.read_append, hr.2.2.1]) k c.subject
  | else_ i ke d =>
    have hi := hu i rfl
    simp only [CaseInstr.run, CaseInstr.value]
    rcases matched h hi with ⟨hx, hv⟩ | ⟨x, v, hx, hv, hm⟩
    · rw [hx, hv]; exact .panic
    · rw [hx, hv]
      cases hm with
      | case_ hr =>
        simp only [CaseV.elseDefault]
        cases hd : d.err with
        | some e => exact .ok (h.share hx hi (.inr rfl) (.case_ ⟨rfl, rfl, by simp [CaseV.bad, Heap.read], rfl, rfl, rfl, rfl⟩) (by simp))
        | none => exact .ok (h.share hx hi (.inl rfl) (.case_ ⟨hr.1, hr.2.1, hr.2.2.1, rfl, hr.2.2.2.2⟩) (by simp))
      | ongoing _ _ => exact .panic
      | broken => exact .panic

theorem runs_agree (grow : Nat → Nat → Nat) : ∀ (p : List CaseInstr) {used : List Nat} {m : Heap Branch} {xs : List (CaseVar HCase)} {vs : List (CaseVar CaseV)},
    CGood used m xs vs → (p.filterMap (·.receiver)).Nodup → (∀ i ∈ p.filterMap (·.receiver), i ∉ used) → ∃ used', Agree used' (runCases grow p (m, xs)) (valueCases p vs)
  | [], used, m, xs, vs, h, _, _ => ⟨used, .ok h⟩
  | ins :: p, used, m, xs, vs, h, hn, hu => by
    have hs := step_agree grow h ins fun i hi => hu i (by simp [hi])
    simp only [runCases, valueCases]
    generalize ins.run grow (m, xs) = a at hs
    generalize ins.value vs = b at hs
    cases hs with
    | panic => exact ⟨[], .panic⟩
    | ok hg =>
      refine runs_agree grow p hg ?_ fun i hi => ?_
      · cases hr : ins.receiver with
        | none => rwa [List.filterMap_cons_none hr] at hn
        | some j => rw [List.filterMap_cons_some hr] at hn; exact (List.nodup_cons.mp hn).2
      · cases hr : ins.receiver with
        | none => simpa using hu i (by simp only [List.filterMap_cons, hr]; exact hi)
        | some j =>
          rw [List.filterMap_cons_some hr] at hn hu
          simp only [Option.toList_some, List.mem_append, List.mem_singleton, not_or]
          exact ⟨fun hij => (List.nodup_cons.mp hn).1 (hij ▸ hi), hu i (List.mem_cons_of_mem _ hi)⟩

theorem value_length {ins : CaseInstr} {vs ws : List (CaseVar CaseV)} (h : ins.value vs = .ok ws) : ws.length = vs.length + 1 := by
  cases ins <;> simp only [CaseInstr.value] at h
  · cases h; simp
  · cases h; simp
  · split at h <;> cases h; simp
  · split at h
    · simp only [CaseV.whenThen] at h
      split at h <;> cases h; simp
    · cases h
  · split at h <;> cases h; simp

theorem values_length : ∀ (p : List CaseInstr) (vs ws : List (CaseVar CaseV)), valueCases p vs = .ok ws → ws.length = vs.length + p.length
  | [], vs, ws, h => by cases h; simp
  | ins :: p, vs, ws, h => by
    simp only [valueCases] at h
    cases hv : ins.value vs with
    | panic => rw [hv] at h; cases h
    | ok us =>
      rw [hv] at h
      have := values_length p us ws h
      rw [this, value_length hv, List.length_cons]
      omega

end CaseLemmas
end Verif
