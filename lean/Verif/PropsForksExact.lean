import Verif.PropsForks

/-
Property theorems: exactly when two uses of one condition interfere (C76).

`goGrow` (Slices.lean) is what Go does for appending interface values one by one up to 512 of them: runtime/slice.go `growslice` doubles
capacities below 256 (below 1024 before Go 1.18) and makes 512 of 256, and 16 times a power of two up to 8192 is a size class of the
allocator, so nothing is rounded up.
-/

namespace Verif.Spec

/-- `a.And(b)…`: a condition made with one operator from atomic conditions, in Go's memory.  Each call has its keys and its argument. -/
def chainUp (grow : Nat → Nat → Nat) (m : Heap HCond) (b : BOp) (a : Val) (as : List (Cond.Keys × Val)) : Heap HCond × HCond :=
  as.foldl (fun st x => HCond.combine grow st.1 x.1 st.2 b.op (.atom x.2)) (m, .atom a)

/-- The same if conditions were values. -/
def chainValue (b : BOp) (a : Val) (as : List (Cond.Keys × Val)) : Cond :=
  as.foldl (fun c x => Cond.combine x.1 c b.op (.atom x.2)) (.atom a)

/-- `x.And(d1)`, `x.And(d2)`, …, one after the other: the memory at the end, and the results. -/
def forksOf (grow : Nat → Nat → Nat) (m : Heap HCond) (b : BOp) (x : HCond) (ds : List (Cond.Keys × Val)) : Heap HCond × List HCond :=
  ds.foldl (fun st d => let r := HCond.combine grow st.1 d.1 x b.op (.atom d.2); (r.1, st.2 ++ [r.2])) (m, [])

end Verif.Spec

namespace Verif
open Spec

/-! ### Lemmas -/

theorem MemReads.unique {m : Heap HCond} {cs : List HCond} {as bs : List Cond} (h : MemReads m cs as) (h' : MemReads m cs bs) : as = bs := by
  induction h generalizing bs with
  | nil => cases h'; rfl
  | atom v _ ih => cases h' with | atom _ h => rw [ih h]
  | neg k kn _ _ ih1 ih2 => cases h' with | neg _ _ h1 h2 => have := ih1 h1; rw [ih2 h2]; simp_all
  | compound _ _ _ _ _ _ _ _ _ _ _ ih1 ih2 ih3 => cases h' with | compound _ _ _ _ _ _ _ _ h1 h2 h3 => rw [ih1 h1, ih2 h2, ih3 h3]

theorem memReads_atoms (m : Heap HCond) (vs : List Val) : MemReads m (vs.map .atom) (vs.map .atom) := by
  induction vs with
  | nil => exact .nil
  | cons v vs ih => exact .atom v ih

/-- What holds of a condition `k`, `s`, `cp` in memory after `n` atomic conditions `vs`. -/
structure Chained (m : Heap HCond) (s cp : Slice) (vs : List Val) : Prop where
  reads : m.read s = vs.map .atom
  copy : m.read cp = (vs.take 2).map .atom
  cplen : cp.len = 2
  long : 2 ≤ vs.length
  fits : s.len ≤ s.cap
  arr : s.arr < m.next
  carr : cp.arr < m.next

theorem Chained.len {m s cp vs} (h : Chained m s cp vs) : s.len = vs.length := by
  have := Heap.read_length m s
  rw [h.reads] at this
  simpa using this.symm

theorem append_shape {α : Type} [Inhabited α] (grow : Nat → Nat → Nat) (m : Heap α) (s : Slice) (xs : List α) (h : s.arr < m.next) :
    m.next ≤ (m.append grow s xs).1.next ∧ (m.append grow s xs).2.arr < (m.append grow s xs).1.next ∧
    (m.append grow s xs).2.len = s.len + xs.length ∧ (m.append grow s xs).2.len ≤ (m.append grow s xs).2.cap := by
  unfold Heap.append
  split
  · exact ⟨Nat.le_refl _, h, rfl, by assumption⟩
  · exact ⟨Nat.le_succ _, Nat.lt_succ_self _, rfl, Nat.le_max_right _ _⟩

/-- One more condition. -/
theorem Chained.add {grow : Nat → Nat → Nat} {m s cp vs} (h : Chained m s cp vs) (v : Val) :
    Chained (m.append grow s [.atom v]).1 (m.append grow s [.atom v]).2 cp (vs ++ [v]) := by
  obtain ⟨h1, h2, h3, h4⟩ := append_shape grow m s [.atom v] h.arr
  have hl := h.len
  have hlong := h.long
  refine ⟨?_, ?_, h.cplen, ?_, h4, h2, Nat.lt_of_lt_of_le h.carr h1⟩
  · rw [Heap.read_append, h.reads]; simp
  · rw [List.take_append_of_le_length hlong, ← h.copy]
    refine Heap.read_congr fun i hi => Heap.append_old grow m s _ h.carr (.inr (.inl ?_))
    have := h.cplen
    omega
  · simp; omega

theorem combine_chained (grow : Nat → Nat → Nat) (m : Heap HCond) (ks : Cond.Keys) (k : Key) (b : BOp) (s cp : Slice) (v : Val) :
    HCond.combine grow m ks (.compound k (some b.op) s false none true true cp) b.op (.atom v) =
      ((m.append grow s [.atom v]).1, .compound k (some b.op) (m.append grow s [.atom v]).2 false none true true cp) := by
  simp [HCond.combine, HCond.addConds]

theorem combine_value (ks : Cond.Keys) (k : Key) (b : BOp) (vs cp : List Cond) (v : Val) :
    Cond.combine ks (.compound k (some b.op) vs false none true true cp) b.op (.atom v) = .compound k (some b.op) (vs ++ [.atom v]) false none true true cp := by
  simp [Cond.combine, Cond.isCompound, Cond.add, Cond.addConds]

/-- The capacity is the next power of two. -/
def Slice.Doubled (s : Slice) : Prop := ∃ j, s.cap = 2 ^ j ∧ s.len ≤ 2 ^ j ∧ 2 ^ j < 2 * s.len

theorem Slice.Doubled.first {α : Type} [Inhabited α] (m : Heap α) (x : α) : (m.append goGrow {} [x]).2.Doubled := ⟨0, by simp [Heap.append, goGrow]⟩

theorem Slice.Doubled.append {α : Type} [Inhabited α] (m : Heap α) (s : Slice) (x : α) (h : s.Doubled) : (m.append goGrow s [x]).2.Doubled := by
  obtain ⟨j, h1, h2, h3⟩ := h
  unfold Heap.append
  split
  · rename_i hf
    exact ⟨j, h1, by simpa [h1] using hf, by simp; omega⟩
  · rename_i hf
    simp only [List.length_cons, List.length_nil] at hf
    refine ⟨j + 1, ?_, ?_, ?_⟩
    · simp only [goGrow, List.length_cons, List.length_nil]
      rw [if_neg (by omega)]
      omega
    · simp only [List.length_cons, List.length_nil]; omega
    · simp only [List.length_cons, List.length_nil]; omega

theorem Slice.Doubled.full {s : Slice} (h : s.Doubled) : s.len = s.cap ↔ ∃ j, s.len = 2 ^ j := by
  obtain ⟨j, h1, h2, h3⟩ := h
  constructor
  · intro h; exact ⟨j, by omega⟩
  · rintro ⟨i, hi⟩
    rw [h1, hi]
    rw [hi] at h2 h3
    have : i = j := by
      have a1 : i ≤ j := (Nat.pow_le_pow_iff_right (by decide)).mp h2
      have a2 : j < i + 1 := (Nat.pow_lt_pow_iff_right (a := 2) (by decide)).mp (by omega)
      omega
    rw [this]

/-- The first call of a chain. -/
theorem combine_first (grow : Nat → Nat → Nat) (m : Heap HCond) (ks : Cond.Keys) (b : BOp) (a v : Val) (ha : a.err = none ∧ a.notNil = true)
    (hv : v.err = none ∧ v.notNil = true) :
    (∃ m' s, HCond.combine grow m ks (.atom a) b.op (.atom v) = (m', .compound ks.new (some b.op) s false none true true s) ∧ Chained m' s s [a, v] ∧
      (grow = goGrow → s.Doubled)) ∧
    Cond.combine ks (.atom a) b.op (.atom v) = .compound ks.new (some b.op) [.atom a, .atom v] false none true true [.atom a, .atom v] := by
  have hf : firstErr [a.err, v.err, nilErr (some a) (.site "compound_condition.go" 29), nilErr (some v) (.site "compound_condition.go" 44)] = none := by
    simp [firstErr, nilErr, missing, ha.1, ha.2, hv.1, hv.2]
  refine ⟨?_, ?_⟩
  · have h1 : (m.append grow {} [HCond.atom a]).2.len = 1 ∧ (m.append grow {} [HCond.atom a]).2.arr < (m.append grow {} [HCond.atom a]).1.next ∧
        (m.append grow {} [HCond.atom a]).2.cap = max (grow 0 1) 1 := by
      simp [Heap.append]
    obtain ⟨l1, l2, l3⟩ := h1
    refine ⟨((m.append grow {} [HCond.atom a]).1.append grow (m.append grow {} [HCond.atom a]).2 [HCond.atom v]).1,
      ((m.append grow {} [HCond.atom a]).1.append grow (m.append grow {} [HCond.atom a]).2 [HCond.atom v]).2, ?_, ?_, ?_⟩
    · simp only [HCond.combine, HCond.compoundCreate, HCond.shallow, Cond.toVal, hf]
      rfl
    · obtain ⟨g1, g2, g3, g4⟩ := append_shape grow _ _ [HCond.atom v] l2
      have hr : ((m.append grow {} [HCond.atom a]).1.append grow (m.append grow {} [HCond.atom a]).2 [HCond.atom v]).1.read
          ((m.append grow {} [HCond.atom a]).1.append grow (m.append grow {} [HCond.atom a]).2 [HCond.atom v]).2 = [a, v].map .atom := by
        rw [Heap.read_append, Heap.read_append, Heap.read_empty _ _ rfl]; rfl
      exact ⟨hr, hr, by rw [g3, l1]; rfl, by simp, g4, g2, g2⟩
    · rintro rfl
      exact Slice.Doubled.append _ _ _ (Slice.Doubled.first m _)
  · simp only [Cond.combine, Cond.isCompound, Cond.compoundCreate, Cond.toVal, hf]
    rfl

/-- A chain of two conditions or more, in memory and as a value. -/
theorem chain_shape (grow : Nat → Nat → Nat) (m : Heap HCond) (b : BOp) (a : Val) (as : List (Cond.Keys × Val)) (ha : a.err = none ∧ a.notNil = true)
    (has : ∀ x ∈ as, x.2.err = none ∧ x.2.notNil = true) (hne : as ≠ []) :
    ∃ k s cp, (chainUp grow m b a as).2 = .compound k (some b.op) s false none true true cp ∧ Chained (chainUp grow m b a as).1 s cp (a :: as.map (·.2)) ∧ (grow = goGrow → s.Doubled) ∧
      chainValue b a as = .compound k (some b.op) ((a :: as.map (·.2)).map .atom) false none true true (((a :: as.map (·.2)).take 2).map .atom) := by
  have key : ∀ bs : List (Cond.Keys × Val), ∀ m' k s cp vs xs ys, Chained m' s cp vs → (grow = goGrow → s.Doubled) → xs = vs.map .atom → ys = (vs.take 2).map .atom →
      ∃ s', (bs.foldl (fun st x => HCond.combine grow st.1 x.1 st.2 b.op (.atom x.2)) (m', .compound k (some b.op) s false none true true cp)).2 =
          .compound k (some b.op) s' false none true true cp ∧
        Chained (bs.foldl (fun st x => HCond.combine grow st.1 x.1 st.2 b.op (.atom x.2)) (m', .compound k (some b.op) s false none true true cp)).1 s' cp
          (vs ++ bs.map (·.2)) ∧ (grow = goGrow → s'.Doubled) ∧
        bs.foldl (fun c x => Cond.combine x.1 c b.op (.atom x.2)) (.compound k (some b.op) xs false none true true ys) =
          .compound k (some b.op) ((vs ++ bs.map (·.2)).map .atom) false none true true (((vs ++ bs.map (·.2)).take 2).map .atom) := by
    intro bs
    induction bs with
    | nil => intro m' k s cp vs xs ys h hd hx hy; exact ⟨s, rfl, by simpa using h, hd, by simp [hx, hy]⟩
    | cons x bs ih =>
      intro m' k s cp vs xs ys h hd hx hy
      simp only [List.foldl_cons, combine_chained, combine_value, List.map_cons]
      have := ih _ k _ cp (vs ++ [x.2]) (xs ++ [.atom x.2]) ys (h.add (grow := grow) x.2)
        (fun he => by subst he; exact (hd rfl).append _ _ _) (by simp [hx])
        (by rw [List.take_append_of_le_length h.long]; exact hy)
      simpa using this
  cases as with
  | nil => exact absurd rfl hne
  | cons x as =>
    obtain ⟨⟨m', s, h1, h2, hd⟩, h3⟩ := combine_first grow m x.1 b a x.2 ha (has x (by simp))
    obtain ⟨s', g1, g2, g4, g3⟩ := key as m' x.1.new s s [a, x.2] _ _ h2 hd rfl rfl
    refine ⟨x.1.new, s', s, ?_, ?_, g4, ?_⟩
    · simpa [chainUp, h1] using g1
    · simpa [chainUp, h1] using g2
    · simpa [chainValue, h3] using g3

theorem snoc_induction {α : Type} {P : List α → Prop} (nil : P []) (append_singleton : ∀ xs x, P xs → P (xs ++ [x])) (xs : List α) : P xs := by
  rw [← List.reverse_reverse xs]
  induction xs.reverse with
  | nil => exact nil
  | cons x ys ih => rw [List.reverse_cons]; exact append_singleton _ _ ih

theorem forks_snoc (grow : Nat → Nat → Nat) (m : Heap HCond) (b : BOp) (k : Key) (s cp : Slice) (ds : List (Cond.Keys × Val)) (d : Cond.Keys × Val) :
    forksOf grow m b (.compound k (some b.op) s false none true true cp) (ds ++ [d]) =
      (let r := (forksOf grow m b (.compound k (some b.op) s false none true true cp) ds).1.append grow s [.atom d.2]
       (r.1, (forksOf grow m b (.compound k (some b.op) s false none true true cp) ds).2 ++ [.compound k (some b.op) r.2 false none true true cp])) := by
  simp [forksOf, combine_chained]

/-- The condition itself stays as it is. -/
theorem forks_self (grow : Nat → Nat → Nat) (b : BOp) (k : Key) (s cp : Slice) (vs : List Val) (m : Heap HCond) (h : Chained m s cp vs)
    (ds : List (Cond.Keys × Val)) : Chained (forksOf grow m b (.compound k (some b.op) s false none true true cp) ds).1 s cp vs := by
  induction ds using snoc_induction with
  | nil => exact h
  | append_singleton ds d ih =>
    rw [forks_snoc]
    obtain ⟨h1, h2, h3, h4⟩ := append_shape grow _ s [.atom d.2] ih.arr
    have hl := ih.len
    have hlong := ih.long
    have hc := ih.cplen
    refine ⟨?_, ?_, ih.cplen, ih.long, ih.fits, Nat.lt_of_lt_of_le ih.arr h1, Nat.lt_of_lt_of_le ih.carr h1⟩
    · rw [← ih.reads]
      exact Heap.read_congr fun i hi => Heap.append_old grow _ s _ ih.arr (.inr (.inl hi))
    · rw [← ih.copy]
      exact Heap.read_congr fun i hi => Heap.append_old grow _ s _ ih.carr (.inr (.inl (by omega)))

/-- There is room: all results are one. -/
theorem forks_room (grow : Nat → Nat → Nat) (b : BOp) (k : Key) (s cp : Slice) (vs : List Val) (m : Heap HCond) (h : Chained m s cp vs)
    (hr : s.len < s.cap) (ds : List (Cond.Keys × Val)) :
    (forksOf grow m b (.compound k (some b.op) s false none true true cp) ds).2 =
      ds.map (fun _ => .compound k (some b.op) { s with len := s.len + 1 } false none true true cp) ∧
    ∀ d, ds.getLast? = some d → (forksOf grow m b (.compound k (some b.op) s false none true true cp) ds).1.read { s with len := s.len + 1 } =
      (vs ++ [d.2]).map .atom := by
  induction ds using snoc_induction with
  | nil => exact ⟨rfl, by simp⟩
  | append_singleton ds d ih =>
    have hs := forks_self grow b k s cp vs m h ds
    have hsl : ∀ M : Heap HCond, (M.append grow s [.atom d.2]).2 = { s with len := s.len + 1 } := by
      intro M
      unfold Heap.append
      rw [if_pos (by simp; omega)]
      rfl
    rw [forks_snoc]
    refine ⟨?_, ?_⟩
    · simp only [ih.1, hsl]; simp
    · intro d' hd'
      have : d' = d := by simpa using hd'.symm
      subst this
      have := Heap.read_append grow (forksOf grow m b (.compound k (some b.op) s false none true true cp) ds).1 s [.atom d'.2]
      rw [hsl] at this
      simp only [this, hs.reads]
      simp

/-- There is no room: every result has its own array. -/
theorem forks_full (grow : Nat → Nat → Nat) (b : BOp) (k : Key) (s cp : Slice) (vs : List Val) (m : Heap HCond) (h : Chained m s cp vs)
    (hr : s.len = s.cap) (ds : List (Cond.Keys × Val)) :
    (forksOf grow m b (.compound k (some b.op) s false none true true cp) ds).2.length = ds.length ∧
    ∀ (i : Nat) (d : Cond.Keys × Val), ds[i]? = some d → ∃ s' : Slice, (forksOf grow m b (.compound k (some b.op) s false none true true cp) ds).2[i]? =
        some (HCond.compound k (some b.op) s' false none true true cp) ∧ s'.arr < (forksOf grow m b (.compound k (some b.op) s false none true true cp) ds).1.next ∧
      (forksOf grow m b (.compound k (some b.op) s false none true true cp) ds).1.read s' = (vs ++ [d.2]).map .atom := by
  induction ds using snoc_induction with
  | nil => exact ⟨rfl, by simp⟩
  | append_singleton ds d ih =>
    have hs := forks_self grow b k s cp vs m h ds
    obtain ⟨h1, h2, h3, h4⟩ := append_shape grow _ s [.atom d.2] hs.arr
    rw [forks_snoc]
    refine ⟨by simp [ih.1], ?_⟩
    intro i d' hd'
    by_cases hi : i < ds.length
    · rw [List.getElem?_append_left hi] at hd'
      obtain ⟨s', g1, g2, g3⟩ := ih.2 i d' hd'
      refine ⟨s', ?_, Nat.lt_of_lt_of_le g2 h1, ?_⟩
      · simp only
        rw [List.getElem?_append_left (by rw [ih.1]; exact hi)]
        exact g1
      · rw [← g3]
        exact Heap.read_congr fun i _ => Heap.append_old grow _ s _ g2 (.inr (.inr (by simp; omega)))
    · have hi' : i = ds.length := by
        have := (List.getElem?_eq_some_iff.mp hd').1
        simp at this
        omega
      subst hi'
      have : d' = d := by simpa using hd'.symm
      subst this
      refine ⟨_, by simp only [← ih.1]; simp, h2, ?_⟩
      rw [Heap.read_append, hs.reads]
      simp

theorem chain_reads {m : Heap HCond} {b : BOp} {k : Key} {s cp : Slice} {vs : List Val} (h : Chained m s cp vs) {s' : Slice} {ws : List Val}
    (hr : m.read s' = ws.map .atom) : MemReads m [.compound k (some b.op) s' false none true true cp]
      [.compound k (some b.op) (ws.map .atom) false none true true ((vs.take 2).map .atom)] := by
  refine .compound _ _ _ _ _ _ _ _ ?_ ?_ .nil
  · rw [hr]; exact memReads_atoms m ws
  · rw [h.copy]; exact memReads_atoms m _

/-! ### C76 -/

/-- Conditions that can be arguments. -/
def Spec.Usables (a : Val) (as : List (Cond.Keys × Val)) : Prop := (a.err = none ∧ a.notNil = true) ∧ ∀ x ∈ as, x.2.err = none ∧ x.2.notNil = true

/-- C76, whatever capacities `append` chooses: if the slice of `x` is full, every use of `x` gives what was asked for; else they all give
what the last use asked for. -/
theorem C76_memory (grow : Nat → Nat → Nat) (m : Heap HCond) (b : BOp) (a : Val) (as ds : List (Cond.Keys × Val)) (hu : Usables a as) (hne : as ≠ [])
    (i : Nat) (d last : Cond.Keys × Val) (hd : ds[i]? = some d) (hl : ds.getLast? = some last) :
    let x := chainUp grow m b a as
    let f := forksOf grow x.1 b x.2 ds
    ∃ y, f.2[i]? = some y ∧
      MemReads f.1 [y] [Cond.combine d.1 (chainValue b a as) b.op (.atom (if x.2.slice.len < x.2.slice.cap then last.2 else d.2))] := by
  obtain ⟨k, s, cp, h1, h2, _, h3⟩ := chain_shape grow m b a as hu.1 hu.2 hne
  simp only [h1, h3, combine_value, HCond.slice]
  have hs := forks_self grow b k s cp _ _ h2 ds
  by_cases hr : s.len < s.cap
  · obtain ⟨g1, g2⟩ := forks_room grow b k s cp _ _ h2 hr ds
    refine ⟨.compound k (some b.op) { s with len := s.len + 1 } false none true true cp, by rw [g1]; simp [hd], ?_⟩
    rw [if_pos hr]
    simpa using chain_reads (k := k) (b := b) hs (g2 last hl)
  · have hf := h2.fits
    obtain ⟨_, g⟩ := forks_full grow b k s cp _ _ h2 (by omega) ds
    obtain ⟨s', g1, _, g2⟩ := g i d hd
    refine ⟨_, g1, ?_⟩
    rw [if_neg hr]
    simpa using chain_reads (k := k) (b := b) hs g2

/-- C76, the condition that is used stays as it is. -/
theorem C76_kept (grow : Nat → Nat → Nat) (m : Heap HCond) (b : BOp) (a : Val) (as ds : List (Cond.Keys × Val)) (hu : Usables a as) (hne : as ≠ []) :
    let x := chainUp grow m b a as
    MemReads (forksOf grow x.1 b x.2 ds).1 [x.2] [chainValue b a as] := by
  obtain ⟨k, s, cp, h1, h2, _, h3⟩ := chain_shape grow m b a as hu.1 hu.2 hne
  simp only [h1, h3]
  have hs := forks_self grow b k s cp _ _ h2 ds
  exact chain_reads hs hs.reads

/-- C76: a condition `x` made with one operator from n atomic conditions, n at least 2, and then used several times with this operator, each
time with one more condition.  In Go's memory each use gives what was asked for if n is a power of two; else all of them give what the last
use asked for.  (`goGrow` is what Go does for up to 512 conditions.) -/
theorem C76_forks (m : Heap HCond) (b : BOp) (a : Val) (as ds : List (Cond.Keys × Val)) (hu : Usables a as) (hne : as ≠ [])
    (i : Nat) (d last : Cond.Keys × Val) (hd : ds[i]? = some d) (hl : ds.getLast? = some last) :
    let x := chainUp goGrow m b a as
    let f := forksOf goGrow x.1 b x.2 ds
    ∃ y, f.2[i]? = some y ∧
      ((∃ j, as.length + 1 = 2 ^ j) → MemReads f.1 [y] [Cond.combine d.1 (chainValue b a as) b.op (.atom d.2)]) ∧
      ((¬ ∃ j, as.length + 1 = 2 ^ j) → MemReads f.1 [y] [Cond.combine d.1 (chainValue b a as) b.op (.atom last.2)]) := by
  obtain ⟨y, h1, h2⟩ := C76_memory goGrow m b a as ds hu hne i d last hd hl
  obtain ⟨k, s, cp, g1, g2, g3, _⟩ := chain_shape goGrow m b a as hu.1 hu.2 hne
  have hfull := (g3 rfl).full
  have hlen : s.len = as.length + 1 := by rw [g2.len]; simp
  have hfit := g2.fits
  rw [hlen] at hfull
  refine ⟨y, h1, fun hp => ?_, fun hp => ?_⟩
  · rw [if_neg] at h2
    · exact h2
    · rw [g1]
      have := hfull.mpr hp
      simp only [HCond.slice]
      omega
  · rw [if_pos] at h2
    · exact h2
    · rw [g1]
      have : ¬ as.length + 1 = s.cap := fun h => hp (hfull.mp h)
      simp only [HCond.slice]
      omega

/-- C76, exactly: all uses give what was asked for if and only if n is a power of two, or all uses ask for the same as the last one. -/
theorem C76_exactly (m : Heap HCond) (b : BOp) (a : Val) (as ds : List (Cond.Keys × Val)) (hu : Usables a as) (hne : as ≠ []) :
    let x := chainUp goGrow m b a as
    let f := forksOf goGrow x.1 b x.2 ds
    (∀ (i : Nat) (d : Cond.Keys × Val) (y : HCond), ds[i]? = some d → f.2[i]? = some y → MemReads f.1 [y] [Cond.combine d.1 (chainValue b a as) b.op (.atom d.2)]) ↔
      (∃ j, as.length + 1 = 2 ^ j) ∨ ∀ d ∈ ds, ∀ last, ds.getLast? = some last → d.2 = last.2 := by
  intro x f
  have hlast : ∀ {i : Nat} {d : Cond.Keys × Val}, ds[i]? = some d → ∃ last, ds.getLast? = some last := by
    intro i d hd
    cases hds : ds with
    | nil => simp [hds] at hd
    | cons c cs => exact ⟨_, List.getLast?_eq_some_getLast (by simp)⟩
  constructor
  · intro h
    by_cases hp : ∃ j, as.length + 1 = 2 ^ j
    · exact .inl hp
    · refine .inr fun d hd last hl => ?_
      obtain ⟨i, hi⟩ := List.mem_iff_getElem?.mp hd
      obtain ⟨y, h1, _, h2⟩ := C76_forks m b a as ds hu hne i d last hi hl
      have := (h i d y hi h1).unique (h2 hp)
      obtain ⟨k, s, cp, _, _, _, h3⟩ := chain_shape goGrow m b a as hu.1 hu.2 hne
      rw [h3, combine_value, combine_value] at this
      simpa using this
  · intro h i d y hd hy
    obtain ⟨last, hl⟩ := hlast hd
    obtain ⟨y', h1, h2, h3⟩ := C76_forks m b a as ds hu hne i d last hd hl
    have : y' = y := Option.some.inj (h1.symm.trans hy)
    subst this
    by_cases hp : ∃ j, as.length + 1 = 2 ^ j
    · exact h2 hp
    · have := (h.resolve_left hp) d (List.mem_iff_getElem?.mpr ⟨i, hd⟩) last hl
      rw [this]
      exact h3 hp

namespace SampleForkExact
open SampleFork SampleCond

/-- `x := a.And(b).And(c)` -/
def three : List (Cond.Keys × Val) := [(ks 0, b), (ks 1, c)]
/-- `y := a.And(b)` -/
def two : List (Cond.Keys × Val) := [(ks 0, b)]
/-- `.And(d)`, `.And(e)` -/
def uses : List (Cond.Keys × Val) := [(ks 2, d), (ks 3, e)]

end SampleForkExact
open SampleForkExact

example : Usables SampleFork.a three ∧ Usables SampleFork.a two ∧ three ≠ [] ∧ two ≠ [] ∧ uses[0]? = some (SampleCond.ks 2, SampleFork.d) := by
  refine ⟨⟨⟨rfl, rfl⟩, ?_⟩, ⟨⟨rfl, rfl⟩, ?_⟩, by simp [three], by simp [two], rfl⟩
  · intro x hx
    simp only [three, List.mem_cons, List.not_mem_nil, or_false] at hx
    rcases hx with rfl | rfl <;> exact ⟨rfl, rfl⟩
  · intro x hx
    simp only [two, List.mem_cons, List.not_mem_nil, or_false] at hx
    rcases hx with rfl; exact ⟨rfl, rfl⟩
/-- What was asked for, with three conditions; what one gets is the second text twice. -/
example : uses.map (fun d => text (Cond.combine d.1 (chainValue .and SampleFork.a three) .and (.atom d.2)).toVal.visit) =
    [c!"(a AND b AND c AND d)", c!"(a AND b AND c AND e)"] := by decide +kernel
/-- With two conditions, one gets what was asked for. -/
example : uses.map (fun d => text (Cond.combine d.1 (chainValue .and SampleFork.a two) .and (.atom d.2)).toVal.visit) =
    [c!"(a AND b AND d)", c!"(a AND b AND e)"] := by decide +kernel

end Verif
