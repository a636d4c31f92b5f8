import Verif.PropsForksExact

/-
Property theorems: what several uses of one chain of relationships make of it and of each other (C77).
-/

namespace Verif.Spec

/-- A call on a chain: `RelationshipTo`, `RelationshipFrom`, `RelationshipBetween`, or one that changes the last relationship. -/
inductive ChainUse where
  | extend (k kd kt : Key) (dir : Direction) (node : NodeV) (types : List Str)
  | change (f : RelV → Outcome RelV)

namespace ChainUse

/-- The call in Go's memory. -/
def run (grow : Nat → Nat → Nat) (m : Heap RelV) (c : HChain) : ChainUse → Outcome (Heap RelV × HChain)
  | .extend k kd kt dir node types => HChain.extend grow m c k kd kt dir node types
  | .change f => HChain.changeLast m c f

/-- What the call gives if chains are values. -/
def value (c : ChainV) : ChainUse → Outcome ChainV
  | .extend k kd kt dir node types => c.extend k kd kt dir node types
  | .change f => c.changeLast f

/-- Is it one of the first three? -/
def extends_ : ChainUse → Bool
  | .extend .. => true
  | .change _ => false

/-- What such a call leaves of the chain it is called on: an extension leaves it as it is, a change is a change of this chain too. -/
def leaves (c : ChainV) (x : ChainUse) : Outcome ChainV := (x.value c).map fun v => if x.extends_ then c else v

end ChainUse

/-- `c.call1(…)`, `c.call2(…)`, …, one after the other: the memory at the end, and the results. -/
def usesOf (grow : Nat → Nat → Nat) (m : Heap RelV) (c : HChain) (xs : List ChainUse) : Outcome (Heap RelV × List HChain) :=
  xs.foldl (fun st x => st.bind fun st => (x.run grow st.1 c).map fun r => (r.1, st.2 ++ [r.2])) (.ok (m, []))

/-- The chain after all changes. -/
def leftOf (c : ChainV) (xs : List ChainUse) : Outcome ChainV := xs.foldl (fun c x => c.bind x.leaves) (.ok c)

/-- `x` is the last extension among the uses, and it is the one with number `j`. -/
def LastExtension (xs : List ChainUse) (j : Nat) (x : ChainUse) : Prop :=
  xs[j]? = some x ∧ x.extends_ = true ∧ ∀ l y, j < l → xs[l]? = some y → y.extends_ = false

end Verif.Spec

namespace Verif
open Spec

/-! ### Lemmas -/

theorem usesOf_snoc (grow : Nat → Nat → Nat) (m : Heap RelV) (c : HChain) (xs : List ChainUse) (x : ChainUse) :
    usesOf grow m c (xs ++ [x]) = (usesOf grow m c xs).bind fun st => (x.run grow st.1 c).map fun r => (r.1, st.2 ++ [r.2]) := by
  simp [usesOf]

theorem leftOf_snoc (c : ChainV) (xs : List ChainUse) (x : ChainUse) : leftOf c (xs ++ [x]) = (leftOf c xs).bind x.leaves := by simp [leftOf]

theorem lastExtension_snoc_change {xs : List ChainUse} {f j x} (h : LastExtension (xs ++ [.change f]) j x) : LastExtension xs j x ∧ j < xs.length := by
  obtain ⟨h1, h2, h3⟩ := h
  have hj : j < xs.length := by
    have hj := (List.getElem?_eq_some_iff.mp h1).1
    simp only [List.length_append, List.length_cons, List.length_nil] at hj
    by_cases he : j = xs.length
    · subst he
      simp at h1
      subst h1
      cases h2
    · omega
  refine ⟨⟨?_, h2, ?_⟩, hj⟩
  · rwa [List.getElem?_append_left hj] at h1
  · intro l y hl hy
    refine h3 l y hl ?_
    rw [List.getElem?_append_left (List.getElem?_eq_some_iff.mp hy).1]
    exact hy

theorem lastExtension_snoc_extend {xs : List ChainUse} {x j y} (hx : x.extends_ = true) (h : LastExtension (xs ++ [x]) j y) : j = xs.length ∧ y = x := by
  obtain ⟨h1, h2, h3⟩ := h
  have hj := (List.getElem?_eq_some_iff.mp h1).1
  simp only [List.length_append, List.length_cons, List.length_nil] at hj
  by_cases he : j = xs.length
  · subst he
    refine ⟨rfl, ?_⟩
    simpa using h1.symm
  · have := h3 xs.length x (by omega) (by simp)
    rw [hx] at this
    cases this

/-- What holds after the uses `xs` of the chain `c`, which was `v` before. -/
structure AfterUses (v : ChainV) (c : HChain) (xs : List ChainUse) (m : Heap RelV) (rs : List HChain) (final : ChainV) : Prop where
  left : leftOf v xs = .ok final
  self : c.read m = final
  arr : c.rels.arr < m.next
  length : rs.length = xs.length
  changed : ∀ (i : Nat) (x : ChainUse) (r : HChain), xs[i]? = some x → rs[i]? = some r → x.extends_ = false → r = c
  room : c.rels.len < c.rels.cap → (∀ (i : Nat) (x : ChainUse) (r : HChain), xs[i]? = some x → rs[i]? = some r → x.extends_ = true → r = { c with rels := { c.rels with len := c.rels.len + 1 } }) ∧
    ∀ j x before w y, LastExtension xs j x → leftOf v (xs.take j) = .ok before → x.value before = .ok w → w.rels.getLast? = some y →
      m.mem c.rels.arr c.rels.len = y
  full : c.rels.cap ≤ c.rels.len → ∀ (i : Nat) (x : ChainUse) (r : HChain), xs[i]? = some x → rs[i]? = some r → x.extends_ = true →
    r.rels.arr < m.next ∧ r.rels.arr ≠ c.rels.arr ∧ ∃ before, leftOf v (xs.take i) = .ok before ∧ x.value before = .ok (r.read m)

theorem Heap.read_succ {α : Type} [Inhabited α] (m : Heap α) (s : Slice) : m.read { s with len := s.len + 1 } = m.read s ++ [m.mem s.arr s.len] := by
  simp [Heap.read, List.range_succ]

theorem getElem?_snoc {α : Type} {xs : List α} {x y : α} {i : Nat} (h : (xs ++ [x])[i]? = some y) : (i < xs.length ∧ xs[i]? = some y) ∨ (i = xs.length ∧ y = x) := by
  have hi := (List.getElem?_eq_some_iff.mp h).1
  simp only [List.length_append, List.length_cons, List.length_nil] at hi
  by_cases he : i = xs.length
  · subst he
    exact .inr ⟨rfl, by simpa using h.symm⟩
  · have : i < xs.length := by omega
    rw [List.getElem?_append_left this] at h
    exact .inl ⟨this, h⟩

theorem AfterUses.change {v c xs m rs final} (h : AfterUses v c xs m rs final) (f : RelV → Outcome RelV) {r r' : RelV}
    (hl : final.rels.getLast? = some r) (hf : f r = .ok r') :
    AfterUses v c (xs ++ [.change f]) (m.setLast c.rels r') (rs ++ [c]) { final with rels := final.rels.dropLast ++ [r'] } := by
  have hrels : m.read c.rels = final.rels := by rw [← h.self]; rfl
  have hpos : 0 < c.rels.len := getLast?_read_some (m := m) (r := r) (by rw [hrels]; exact hl)
  refine ⟨?_, ?_, h.arr, by simp [h.length], ?_, ?_, ?_⟩
  · rw [leftOf_snoc, h.left]
    simp [Outcome.bind, ChainUse.leaves, ChainUse.value, ChainV.changeLast, hl, hf, Outcome.map, ChainUse.extends_]
  · rw [← h.self]
    simp [HChain.read, Heap.read_setLast m c.rels r' hpos]
  · intro i x r hx hr hext
    rcases getElem?_snoc hx with ⟨hi, hx⟩ | ⟨hi, hx⟩ <;> rcases getElem?_snoc hr with ⟨hi', hr⟩ | ⟨hi', hr⟩
    · exact h.changed i x r hx hr hext
    · have := h.length; omega
    · have := h.length; omega
    · exact hr
  · intro hroom
    obtain ⟨h1, h2⟩ := h.room hroom
    refine ⟨?_, ?_⟩
    · intro i x r hx hr hext
      rcases getElem?_snoc hx with ⟨hi, hx⟩ | ⟨hi, hx⟩
      · rcases getElem?_snoc hr with ⟨hi', hr⟩ | ⟨hi', hr⟩
        · exact h1 i x r hx hr hext
        · have := h.length; omega
      · subst hx; cases hext
    · intro j x before w y hlast hb hw hy
      obtain ⟨g1, g2⟩ := lastExtension_snoc_change hlast
      rw [List.take_append_of_le_length (by omega)] at hb
      rw [← h2 j x before w y g1 hb hw hy]
      simp only [Heap.setLast]
      rw [if_neg (by omega)]
  · intro hfull i x r hx hr hext
    rcases getElem?_snoc hx with ⟨hi, hx⟩ | ⟨hi, hx⟩
    · rcases getElem?_snoc hr with ⟨hi', hr⟩ | ⟨hi', hr⟩
      · obtain ⟨g1, g2, before, g3, g4⟩ := h.full hfull i x r hx hr hext
        refine ⟨g1, g2, before, by rw [List.take_append_of_le_length (by omega)]; exact g3, ?_⟩
        rw [g4]
        simp only [HChain.read]
        rw [Heap.read_congr (h := m) (h' := m.setLast c.rels r')]
        intro l _
        exact if_neg fun hh => g2 hh.1
      · have := h.length; omega
    · subst hx; cases hext

theorem AfterUses.extend {grow : Nat → Nat → Nat} {v c xs m rs final} (h : AfterUses v c xs m rs final) (k kd kt : Key) (dir : Direction) (node : NodeV) (types : List Str) {r : RelV}
    (hl : final.rels.getLast? = some r) :
    let a := m.append grow c.rels [RelV.create k kd kt r.right dir node types]
    AfterUses v c (xs ++ [.extend k kd kt dir node types]) a.1 (rs ++ [{ c with rels := a.2 }]) final := by
  intro a
  have hrels : m.read c.rels = final.rels := by rw [← h.self]; rfl
  obtain ⟨n1, n2, n3, n4⟩ := append_shape grow m c.rels [RelV.create k kd kt r.right dir node types] h.arr
  have hself : a.1.read c.rels = m.read c.rels := Heap.read_congr fun i hi => Heap.append_old grow m c.rels _ h.arr (.inr (.inl hi))
  refine ⟨?_, ?_, Nat.lt_of_lt_of_le h.arr n1, by simp [h.length], ?_, ?_, ?_⟩
  · rw [leftOf_snoc, h.left]
    simp [Outcome.bind, ChainUse.leaves, ChainUse.value, ChainV.extend, hl, Outcome.map, ChainUse.extends_]
  · rw [← h.self]
    simp [HChain.read, hself]
  · intro i x r hx hr hext
    rcases getElem?_snoc hx with ⟨hi, hx⟩ | ⟨hi, hx⟩
    · rcases getElem?_snoc hr with ⟨hi', hr⟩ | ⟨hi', hr⟩
      · exact h.changed i x r hx hr hext
      · have := h.length; omega
    · subst hx; cases hext
  · intro hroom
    obtain ⟨h1, h2⟩ := h.room hroom
    have ha : a.2 = { c.rels with len := c.rels.len + 1 } := by
      show (Heap.append grow m c.rels _).2 = _
      unfold Heap.append
      rw [if_pos (by simp; omega)]
      rfl
    refine ⟨?_, ?_⟩
    · intro i x r hx hr hext
      rcases getElem?_snoc hr with ⟨hi', hr⟩ | ⟨hi', hr⟩
      · rcases getElem?_snoc hx with ⟨hi, hx⟩ | ⟨hi, hx⟩
        · exact h1 i x r hx hr hext
        · have := h.length; omega
      · rw [hr, ha]
    · intro j x before w y hlast hb hw hy
      obtain ⟨g1, g2⟩ := lastExtension_snoc_extend rfl hlast
      subst g1 g2
      rw [List.take_append_of_le_length (Nat.le_refl _), List.take_length, h.left] at hb
      cases hb
      simp only [ChainUse.value, ChainV.extend, hl, Outcome.ok.injEq] at hw
      subst hw
      simp only [List.getLast?_append, List.getLast?_singleton, Option.some_or, Option.some.injEq] at hy
      subst hy
      have hread := Heap.read_append grow m c.rels [RelV.create k kd kt r.right dir node types]
      change a.1.read a.2 = _ at hread
      rw [ha, Heap.read_succ, hself] at hread
      simpa using hread
  · intro hfull i x r' hx hr hext
    rcases getElem?_snoc hr with ⟨hi', hr⟩ | ⟨hi', hr⟩
    · rcases getElem?_snoc hx with ⟨hi, hx⟩ | ⟨hi, hx⟩
      · obtain ⟨g1, g2, before, g3, g4⟩ := h.full hfull i x r' hx hr hext
        refine ⟨Nat.lt_of_lt_of_le g1 n1, g2, before, by rw [List.take_append_of_le_length (by omega)]; exact g3, ?_⟩
        rw [g4]
        simp only [HChain.read]
        rw [Heap.read_congr (h := m) (h' := a.1)]
        intro l _
        exact Heap.append_old grow m c.rels _ g1 (.inl g2)
      · have := h.length; omega
    · rcases getElem?_snoc hx with ⟨hi, hx⟩ | ⟨hi, hx⟩
      · have := h.length; omega
      · subst hr hx hi
        have hnew : a.2.arr = m.next := by
          show (Heap.append grow m c.rels _).2.arr = _
          unfold Heap.append
          rw [if_neg (by simp; omega)]
        refine ⟨n2, ?_, final, ?_, ?_⟩
        · show a.2.arr ≠ _
          rw [hnew]
          have := h.arr
          omega
        · rw [List.take_append_of_le_length (Nat.le_refl _), List.take_length, h.left]
        · have hread := Heap.read_append grow m c.rels [RelV.create k kd kt r.right dir node types]
          change a.1.read a.2 = _ at hread
          simp only [ChainUse.value, ChainV.extend, hl, HChain.read, hread]
          rw [← h.self]
          rfl

/-- The uses panic together, or have the results described. -/
theorem uses_after (grow : Nat → Nat → Nat) (m : Heap RelV) (c : HChain) (ha : c.rels.arr < m.next) (xs : List ChainUse) :
    (usesOf grow m c xs = .panic ∧ leftOf (c.read m) xs = .panic) ∨
    ∃ m' rs final, usesOf grow m c xs = .ok (m', rs) ∧ AfterUses (c.read m) c xs m' rs final := by
  induction xs using snoc_induction with
  | nil =>
    refine .inr ⟨m, [], c.read m, rfl, rfl, rfl, ha, rfl, by simp, ?_, by simp⟩
    exact fun _ => ⟨by simp, fun j x _ _ _ h => by simp [LastExtension] at h⟩
  | append_singleton xs x ih =>
    rw [usesOf_snoc, leftOf_snoc]
    rcases ih with ⟨h1, h2⟩ | ⟨m', rs, final, h1, h2⟩
    · rw [h1, h2]; exact .inl ⟨rfl, rfl⟩
    · rw [h1, h2.left]
      have hrels : m'.read c.rels = final.rels := by rw [← h2.self]; rfl
      simp only [Outcome.bind]
      cases hl : final.rels.getLast? with
      | none =>
        left
        cases x <;> simp [ChainUse.run, ChainUse.leaves, ChainUse.value, HChain.extend, HChain.changeLast, ChainV.extend, ChainV.changeLast, hrels, hl, Outcome.map]
      | some r =>
        cases x with
        | extend k kd kt dir node types =>
          refine .inr ⟨_, _, final, ?_, h2.extend (grow := grow) k kd kt dir node types hl⟩
          simp [ChainUse.run, HChain.extend, hrels, hl, Outcome.map]
        | change f =>
          cases hf : f r with
          | panic => left; simp [ChainUse.run, ChainUse.leaves, ChainUse.value, HChain.changeLast, ChainV.changeLast, hrels, hl, Outcome.map, hf]
          | ok r' =>
            refine .inr ⟨_, _, _, ?_, h2.change f hl hf⟩
            simp [ChainUse.run, HChain.changeLast, hrels, hl, Outcome.map, hf]

/-- The arrays of all chains of a program exist, and hold at least two relationships. -/
theorem chains_placed (grow : Nat → Nat → Nat) (p : List ChainInstr) (st : Heap RelV × List HChain) (h : ∀ c ∈ st.2, c.rels.arr < st.1.next ∧ 2 ≤ c.rels.len ∧ c.rels.len ≤ c.rels.cap)
    (st' : Heap RelV × List HChain) (hr : runChains grow p st = .ok st') : ∀ c ∈ st'.2, c.rels.arr < st'.1.next ∧ 2 ≤ c.rels.len ∧ c.rels.len ≤ c.rels.cap := by
  induction p generalizing st with
  | nil => cases hr; exact h
  | cons i p ih =>
    simp only [runChains] at hr
    have one : ∀ st₁, i.run grow st = .ok st₁ → ∀ c ∈ st₁.2, c.rels.arr < st₁.1.next ∧ 2 ≤ c.rels.len ∧ c.rels.len ≤ c.rels.cap := by
      intro st₁ h₁
      have old : ∀ (m : Heap RelV) (c₁ : HChain), st.1.next ≤ m.next → c₁.rels.arr < m.next ∧ 2 ≤ c₁.rels.len ∧ c₁.rels.len ≤ c₁.rels.cap →
          ∀ c ∈ st.2 ++ [c₁], c.rels.arr < m.next ∧ 2 ≤ c.rels.len ∧ c.rels.len ≤ c.rels.cap := by
        intro m c₁ hm hc c hcm
        rcases List.mem_append.mp hcm with hcm | hcm
        · exact ⟨Nat.lt_of_lt_of_le (h c hcm).1 hm, (h c hcm).2⟩
        · rw [List.mem_singleton] at hcm; subst hcm; exact hc
      cases i with
      | start r k kd kt dir node types =>
        cases h₁
        have h1 : (st.1.append (fun _ need => need) {} [r]).2.arr < (st.1.append (fun _ need => need) {} [r]).1.next ∧
            st.1.next ≤ (st.1.append (fun _ need => need) {} [r]).1.next ∧ (st.1.append (fun _ need => need) {} [r]).2.len = 1 := by
          simp [Heap.append]
        obtain ⟨g1, g2, g3, g4⟩ := append_shape grow (st.1.append (fun _ need => need) {} [r]).1 (st.1.append (fun _ need => need) {} [r]).2
          [RelV.create k kd kt r.right dir node types] h1.1
        refine old _ _ (Nat.le_trans h1.2.1 g1) ⟨g2, ?_, g4⟩
        show 2 ≤ (Heap.append grow _ _ _).2.len
        rw [g3, h1.2.2]
        simp
      | extend j k kd kt dir node types =>
        simp only [ChainInstr.run, HChain.extend] at h₁
        cases hj : st.2[j]? with
        | none => rw [hj, Heap.read_empty _ _ rfl] at h₁; cases h₁
        | some c =>
          rw [hj, Option.getD_some] at h₁
          obtain ⟨p1, p2, p3⟩ := h c (List.mem_of_getElem? hj)
          cases hl : (st.1.read c.rels).getLast? with
          | none => rw [hl] at h₁; cases h₁
          | some r =>
            rw [hl] at h₁
            cases h₁
            obtain ⟨g1, g2, g3, g4⟩ := append_shape grow st.1 c.rels [RelV.create k kd kt r.right dir node types] p1
            exact old _ _ g1 ⟨g2, by show 2 ≤ (Heap.append grow _ _ _).2.len; rw [g3]; omega, g4⟩
      | changeLast j f =>
        simp only [ChainInstr.run, HChain.changeLast] at h₁
        cases hj : st.2[j]? with
        | none => rw [hj, Heap.read_empty _ _ rfl] at h₁; cases h₁
        | some c =>
          rw [hj, Option.getD_some] at h₁
          cases hl : (st.1.read c.rels).getLast? with
          | none => rw [hl] at h₁; cases h₁
          | some r =>
            rw [hl] at h₁
            simp only at h₁
            cases hf : f r with
            | panic => rw [hf] at h₁; cases h₁
            | ok r' =>
              rw [hf] at h₁
              cases h₁
              exact old _ _ (Nat.le_refl _) (h c (List.mem_of_getElem? hj))
    cases h₁ : i.run grow st with
    | panic => rw [h₁] at hr; cases hr
    | ok st₁ => rw [h₁] at hr; exact ih st₁ (one st₁ h₁) hr

theorem leftOf_extensions (v : ChainV) (xs : List ChainUse) (he : ∀ x ∈ xs, x.extends_ = true) (hne : v.rels ≠ []) : leftOf v xs = .ok v := by
  induction xs using snoc_induction with
  | nil => rfl
  | append_singleton xs x ih =>
    rw [leftOf_snoc, ih fun y hy => he y (by simp [hy])]
    have hx := he x (by simp)
    cases x with
    | change f => cases hx
    | extend k kd kt dir node types =>
      cases hl : v.rels.getLast? with
      | none => exact absurd (List.getLast?_eq_none_iff.mp hl) hne
      | some r => simp [Outcome.bind, ChainUse.leaves, ChainUse.value, ChainV.extend, hl, Outcome.map, ChainUse.extends_]

/-! ### C77 -/

/-- The chains of a program: `c` is one of the chains that the program `p` makes, at its end. -/
def Spec.MadeBy (grow : Nat → Nat → Nat) (p : List ChainInstr) (m : Heap RelV) (c : HChain) : Prop :=
  ∃ cs, runChains grow p (.initial, []) = .ok (m, cs) ∧ c ∈ cs

/-- C77, the chain itself: after any calls on it, a chain is what the changes among these calls make of it, one after the other; the
extensions leave it alone.  The calls panic exactly if one of the changes would. -/
theorem C77_receiver (grow : Nat → Nat → Nat) (p : List ChainInstr) (m : Heap RelV) (c : HChain) (hc : MadeBy grow p m c) (xs : List ChainUse) :
    (usesOf grow m c xs = .panic ∧ leftOf (c.read m) xs = .panic) ∨
    ∃ m' rs, usesOf grow m c xs = .ok (m', rs) ∧ rs.length = xs.length ∧ leftOf (c.read m) xs = .ok (c.read m') := by
  obtain ⟨cs, h1, h2⟩ := hc
  have hp := chains_placed grow p (.initial, []) (by simp) _ h1 c h2
  rcases uses_after grow m c hp.1 xs with h | ⟨m', rs, final, g1, g2⟩
  · exact .inl h
  · exact .inr ⟨m', rs, g1, g2.length, by rw [g2.self]; exact g2.left⟩

/-- C77, the changes: every call that changes the last relationship gives the chain itself, with all changes, also those of later calls. -/
theorem C77_changes (grow : Nat → Nat → Nat) (p : List ChainInstr) (m : Heap RelV) (c : HChain) (hc : MadeBy grow p m c) (xs : List ChainUse)
    (m' : Heap RelV) (rs : List HChain) (hr : usesOf grow m c xs = .ok (m', rs)) (i : Nat) (f : RelV → Outcome RelV) (hi : xs[i]? = some (.change f)) :
    ∃ r, rs[i]? = some r ∧ .ok (r.read m') = leftOf (c.read m) xs := by
  obtain ⟨cs, h1, h2⟩ := hc
  have hp := chains_placed grow p (.initial, []) (by simp) _ h1 c h2
  rcases uses_after grow m c hp.1 xs with h | ⟨m'', rs', final, g1, g2⟩
  · rw [hr] at h; cases h.1
  · rw [hr] at g1
    cases g1
    have hlt : i < rs.length := by rw [g2.length]; exact (List.getElem?_eq_some_iff.mp hi).1
    refine ⟨rs[i], List.getElem?_eq_getElem hlt, ?_⟩
    rw [g2.changed i _ _ hi (List.getElem?_eq_getElem hlt) rfl, g2.self, g2.left]

/-- C77, extensions of a chain whose slice is full: each gives what it gives if chains are values, with the changes made before it and not
with those made after it. -/
theorem C77_full (grow : Nat → Nat → Nat) (p : List ChainInstr) (m : Heap RelV) (c : HChain) (hc : MadeBy grow p m c) (xs : List ChainUse)
    (m' : Heap RelV) (rs : List HChain) (hr : usesOf grow m c xs = .ok (m', rs)) (hfull : c.rels.len = c.rels.cap)
    (i : Nat) (x : ChainUse) (hi : xs[i]? = some x) (hx : x.extends_ = true) :
    ∃ r before, rs[i]? = some r ∧ leftOf (c.read m) (xs.take i) = .ok before ∧ x.value before = .ok (r.read m') := by
  obtain ⟨cs, h1, h2⟩ := hc
  have hp := chains_placed grow p (.initial, []) (by simp) _ h1 c h2
  rcases uses_after grow m c hp.1 xs with h | ⟨m'', rs', final, g1, g2⟩
  · rw [hr] at h; cases h.1
  · rw [hr] at g1
    cases g1
    have hlt : i < rs.length := by rw [g2.length]; exact (List.getElem?_eq_some_iff.mp hi).1
    obtain ⟨_, _, before, k1, k2⟩ := g2.full (by omega) i x _ hi (List.getElem?_eq_getElem hlt) hx
    exact ⟨rs[i], before, List.getElem?_eq_getElem hlt, k1, k2⟩

/-- C77, extensions of a chain whose slice has room: all of them give the same chain in the end, which has all changes and then the
relationship that the last extension added. -/
theorem C77_room (grow : Nat → Nat → Nat) (p : List ChainInstr) (m : Heap RelV) (c : HChain) (hc : MadeBy grow p m c) (xs : List ChainUse)
    (m' : Heap RelV) (rs : List HChain) (hr : usesOf grow m c xs = .ok (m', rs)) (hroom : c.rels.len < c.rels.cap)
    (i : Nat) (x : ChainUse) (hi : xs[i]? = some x) (hx : x.extends_ = true)
    (j : Nat) (y : ChainUse) (hj : LastExtension xs j y) (before after : ChainV) (new : RelV) (hb : leftOf (c.read m) (xs.take j) = .ok before)
    (ha : y.value before = .ok after) (hn : after.rels.getLast? = some new) :
    ∃ r, rs[i]? = some r ∧ r.read m' = { c.read m' with rels := (c.read m').rels ++ [new] } := by
  obtain ⟨cs, h1, h2⟩ := hc
  have hp := chains_placed grow p (.initial, []) (by simp) _ h1 c h2
  rcases uses_after grow m c hp.1 xs with h | ⟨m'', rs', final, g1, g2⟩
  · rw [hr] at h; cases h.1
  · rw [hr] at g1
    cases g1
    have hlt : i < rs.length := by rw [g2.length]; exact (List.getElem?_eq_some_iff.mp hi).1
    obtain ⟨k1, k2⟩ := g2.room hroom
    refine ⟨rs[i], List.getElem?_eq_getElem hlt, ?_⟩
    rw [k1 i x _ hi (List.getElem?_eq_getElem hlt) hx]
    simp only [HChain.read, Heap.read_succ, k2 j y before after new hj hb ha hn]

/-- C77, exactly: several extensions of one chain all give what they give if chains are values if and only if the slice of the chain is
full, or all of them ask for the same as the last one. -/
theorem C77_exactly (grow : Nat → Nat → Nat) (p : List ChainInstr) (m : Heap RelV) (c : HChain) (hc : MadeBy grow p m c) (xs : List ChainUse)
    (he : ∀ x ∈ xs, x.extends_ = true) :
    ∃ m' rs, usesOf grow m c xs = .ok (m', rs) ∧
      ((∀ (i : Nat) (x : ChainUse) (r : HChain), xs[i]? = some x → rs[i]? = some r → x.value (c.read m) = .ok (r.read m')) ↔
        c.rels.len = c.rels.cap ∨ ∀ x ∈ xs, ∀ last, xs.getLast? = some last → x.value (c.read m) = last.value (c.read m)) := by
  have hmade := hc
  obtain ⟨cs, h1, h2⟩ := hc
  have hp := chains_placed grow p (.initial, []) (by simp) _ h1 c h2
  have hne : (c.read m).rels ≠ [] := by
    intro h0
    have := Heap.read_length m c.rels
    simp only [HChain.read] at h0
    rw [h0] at this
    simp at this
    omega
  have hleft := leftOf_extensions (c.read m) xs he hne
  rcases uses_after grow m c hp.1 xs with h | ⟨m', rs, final, g1, g2⟩
  · rw [hleft] at h; cases h.2
  · refine ⟨m', rs, g1, ?_⟩
    have hself : c.read m' = c.read m := by
      have := g2.left
      rw [hleft] at this
      cases this
      exact g2.self
    by_cases hfull : c.rels.len = c.rels.cap
    · refine ⟨fun _ => .inl hfull, fun _ i x r hx hr => ?_⟩
      obtain ⟨_, _, before, k1, k2⟩ := g2.full (by omega) i x r hx hr (he x (List.mem_of_getElem? hx))
      rw [leftOf_extensions _ _ (fun y hy => he y (List.mem_of_mem_take hy)) hne] at k1
      cases k1
      exact k2
    · have hroom : c.rels.len < c.rels.cap := by have := hp.2.2; omega
      have hlast : ∀ last, xs.getLast? = some last → ∃ v, last.value (c.read m) = .ok v ∧
          ∀ (i : Nat) (x : ChainUse) (r : HChain), xs[i]? = some x → rs[i]? = some r → r.read m' = v := by
        intro last hl
        have hpos : 0 < xs.length := by
          cases xs with
          | nil => cases hl
          | cons _ _ => simp
        have hget : xs[xs.length - 1]? = some last := by rw [← hl, List.getLast?_eq_getElem?]
        have hle := he last (List.mem_of_getElem? hget)
        have hLE : LastExtension xs (xs.length - 1) last := by
          refine ⟨hget, hle, fun l y hl hy => ?_⟩
          have := (List.getElem?_eq_some_iff.mp hy).1
          omega
        cases hlv : (c.read m).rels.getLast? with
        | none => exact absurd (List.getLast?_eq_none_iff.mp hlv) hne
        | some r0 =>
          cases last with
          | change f => cases hle
          | extend k kd kt dir node types =>
            have hv : (ChainUse.extend k kd kt dir node types).value (c.read m) =
                .ok { c.read m with rels := (c.read m).rels ++ [RelV.create k kd kt r0.right dir node types] } := by
              simp [ChainUse.value, ChainV.extend, hlv]
            refine ⟨_, hv, fun i x r hx hr => ?_⟩
            obtain ⟨r', k1, k2⟩ := C77_room grow p m c hmade xs m' rs g1 hroom i x hx (he x (List.mem_of_getElem? hx)) _ _ hLE (c.read m) _
              (RelV.create k kd kt r0.right dir node types) (leftOf_extensions _ _ (fun y hy => he y (List.mem_of_mem_take hy)) hne) hv (by simp)
            rw [hr] at k1
            cases k1
            rw [k2, hself]
      constructor
      · intro h
        right
        intro x hx last hl
        obtain ⟨i, hi⟩ := List.mem_iff_getElem?.mp hx
        have hlt : i < rs.length := by rw [g2.length]; exact (List.getElem?_eq_some_iff.mp hi).1
        obtain ⟨v, hv, hall⟩ := hlast last hl
        rw [h i x _ hi (List.getElem?_eq_getElem hlt), hv, hall i x _ hi (List.getElem?_eq_getElem hlt)]
      · rintro (h | h) i x r hx hr
        · exact absurd h hfull
        · have : xs ≠ [] := by rintro rfl; simp at hx
          obtain ⟨v, hv, hall⟩ := hlast _ (List.getLast?_eq_some_getLast this)
          rw [h x (List.mem_of_getElem? hx) _ (List.getLast?_eq_some_getLast this), hv, hall i x r hx hr]

namespace SampleChainForks
open SamplePat SampleFork

/-- `c := na-->nb-->nm` and, of it, `d := c-->na`: two and three relationships. -/
def made : List ChainInstr := chains.take 2

/-- `.RelationshipTo(nb)`, `.NamedC("r")`, `.RelationshipFrom(nm)` -/
def uses : List ChainUse :=
  [.extend 420 421 422 .ltr nb.run [], .change (fun r => .ok (r.named 423 424 c!"r")), .extend 425 426 427 .rtl nm.run []]

/-- The texts of the chain with the number `i` and of the results, after the uses. -/
def usedTexts (i : Nat) (xs : List ChainUse) : List Str :=
  match runChains goGrow made (.initial, []) with
  | .ok (m, cs) =>
    match usesOf goGrow m (cs[i]?.getD {}) xs with
    | .ok (m', rs) => ((cs[i]?.getD {}) :: rs).map fun c => text ((c.read m').visit .ascii)
    | .panic => []
  | .panic => []

end SampleChainForks
open SampleChainForks SampleFork SamplePat

/-- C77, seen in the text: of the chain of two relationships, whose slice is full, the first extension keeps what it was; of the chain of
three, whose slice has room for four, both extensions end up as the second one, with the name given between the two. -/
theorem C77_texts :
    usedTexts 0 uses = [c!"(:`A`)-->(:`B`)-[r]->(m)", c!"(:`A`)-->(:`B`)-->(m)-->(:`B`)", c!"(:`A`)-->(:`B`)-[r]->(m)",
      c!"(:`A`)-->(:`B`)-[r]->(m)<--(m)"] ∧
    usedTexts 1 uses = [c!"(:`A`)-->(:`B`)-->(m)-[r]->(:`A`)", c!"(:`A`)-->(:`B`)-->(m)-[r]->(:`A`)<--(m)", c!"(:`A`)-->(:`B`)-->(m)-[r]->(:`A`)",
      c!"(:`A`)-->(:`B`)-->(m)-[r]->(:`A`)<--(m)"] := by decide +kernel

/-- The hypotheses hold for both chains: one is full, the other is not, and the uses do not panic. -/
example : ∃ m cs c d, runChains goGrow made (.initial, []) = .ok (m, cs) ∧ cs = [c, d] ∧ MadeBy goGrow made m c ∧ MadeBy goGrow made m d ∧
    c.rels.len = c.rels.cap ∧ d.rels.len < d.rels.cap ∧ (∃ m' rs, usesOf goGrow m d uses = .ok (m', rs)) ∧
    LastExtension uses 2 (.extend 425 426 427 .rtl nm.run []) := by
  refine ⟨_, _, _, _, rfl, rfl, ⟨_, rfl, by simp⟩, ⟨_, rfl, by simp⟩, by decide +kernel, by decide +kernel, ⟨_, _, rfl⟩, rfl, rfl, ?_⟩
  intro l y hl hy
  have := (List.getElem?_eq_some_iff.mp hy).1
  simp [uses] at this
  omega

end Verif
