import Verif.Slices

/-
Lemmas about slices and conditions in memory.
-/

namespace Verif

namespace Heap

variable {α : Type} (grow : Nat → Nat → Nat)

theorem read_length (h : Heap α) (s : Slice) : (h.read s).length = s.len := by simp [read]

theorem read_empty (h : Heap α) (s : Slice) (hs : s.len = 0) : h.read s = [] := by simp [read, hs]

theorem read_congr {h h' : Heap α} {s : Slice} (hh : ∀ i, i < s.len → h'.mem s.arr i = h.mem s.arr i) : h'.read s = h.read s := by
  simp only [read]
  apply List.map_congr_left
  intro i hi
  exact hh i (by simpa using hi)

variable [Inhabited α]

theorem read_append (h : Heap α) (s : Slice) (xs : List α) :
    (h.append grow s xs).1.read (h.append grow s xs).2 = h.read s ++ xs := by
  unfold append
  split
  · apply List.ext_getElem
    · simp [read]
    · intro i h1 h2
      simp only [read, List.getElem_map, List.getElem_range]
      by_cases hi : s.len ≤ i
      · simp only [hi, and_self, if_true]
        rw [List.getElem_append_right (by simpa [read] using hi)]
        simp only [read, List.length_map, List.length_range] at h1 ⊢
        have : i - s.len < xs.length := by omega
        rw [List.getElem?_eq_getElem this]
        simp
      · have hi' : i < s.len := by omega
        simp [hi, List.getElem_append_left, hi']
  · apply List.ext_getElem
    · simp [read]
    · intro i h1 h2
      simp only [read, List.getElem_map, List.getElem_range, if_true]
      simp only [read] at h2
      rw [List.getElem?_eq_getElem h2]
      simp

/-- An `append` changes only cells from the length of the slice on. -/
theorem append_old (h : Heap α) (s : Slice) (xs : List α) {a i : Nat} (ha : a < h.next)
    (hi : a ≠ s.arr ∨ i < s.len ∨ s.cap < s.len + xs.length) : (h.append grow s xs).1.mem a i = h.mem a i := by
  unfold append
  split
  · simp only
    rw [if_neg]
    rintro ⟨h1, h2⟩
    rcases hi with hi | hi | hi
    · exact hi h1
    · omega
    · omega
  · simp only
    rw [if_neg (by omega)]

end Heap

/-! ### The invariant: `f a` is the number of cells of array `a` that are in use -/

/-- The slice is well formed, and its elements are in use. -/
def Slice.Ok (n : Nat) (f : Nat → Nat) (s : Slice) : Prop :=
  s.len ≤ s.cap ∧ (s.cap = 0 ∨ s.arr < n) ∧ s.len ≤ f s.arr

/-- Appending to the slice does not overwrite a cell that is in use. -/
def Slice.Free (f : Nat → Nat) (s : Slice) : Prop := s.len = s.cap ∨ s.len = f s.arr

namespace HCond

def Ok (n : Nat) (f : Nat → Nat) : HCond → Prop
  | .atom _ => True
  | .neg _ _ c => c.Ok n f
  | .compound _ _ conds _ _ _ _ cp => conds.Ok n f ∧ cp.Ok n f

/-- The slice that `And`, `Or`, `Xor` of this condition append to. -/
def slice : HCond → Slice
  | .compound _ _ conds .. => conds
  | _ => {}

end HCond

def Inv (m : Heap HCond) (f : Nat → Nat) : Prop := ∀ a i, a < m.next → i < f a → (m.mem a i).Ok m.next f

/-- Later memory: what was in use is unchanged. -/
structure Ext (m : Heap HCond) (f : Nat → Nat) (m' : Heap HCond) (f' : Nat → Nat) : Prop where
  next : m.next ≤ m'.next
  front : ∀ a, f a ≤ f' a
  inv : Inv m' f'
  same : ∀ a i, a < m.next → i < f a → m'.mem a i = m.mem a i

theorem Ext.refl {m f} (h : Inv m f) : Ext m f m f := ⟨Nat.le_refl _, fun _ => Nat.le_refl _, h, fun _ _ _ _ => rfl⟩

theorem Ext.trans {m f m1 f1 m2 f2} (h1 : Ext m f m1 f1) (h2 : Ext m1 f1 m2 f2) : Ext m f m2 f2 where
  next := Nat.le_trans h1.next h2.next
  front a := Nat.le_trans (h1.front a) (h2.front a)
  inv := h2.inv
  same a i ha hi := by
    rw [h2.same a i (Nat.lt_of_lt_of_le ha h1.next) (Nat.lt_of_lt_of_le hi (h1.front a)), h1.same a i ha hi]

theorem Slice.Ok.mono {n n' : Nat} {f f' : Nat → Nat} {s : Slice} (h : s.Ok n f) (hn : n ≤ n') (hf : ∀ a, f a ≤ f' a) : s.Ok n' f' :=
  ⟨h.1, h.2.1.imp id (fun h => Nat.lt_of_lt_of_le h hn), Nat.le_trans h.2.2 (hf _)⟩

theorem HCond.Ok.mono {n n' : Nat} {f f' : Nat → Nat} (hn : n ≤ n') (hf : ∀ a, f a ≤ f' a) : ∀ {c : HCond}, c.Ok n f → c.Ok n' f'
  | .atom _, _ => trivial
  | .neg _ _ c, h => HCond.Ok.mono (c := c) hn hf h
  | .compound .., h => ⟨h.1.mono hn hf, h.2.mono hn hf⟩

theorem Ext.ok {m f m' f'} (h : Ext m f m' f') {c : HCond} (hc : c.Ok m.next f) : c.Ok m'.next f' := hc.mono h.next h.front

theorem Ext.sok {m f m' f'} (h : Ext m f m' f') {s : Slice} (hs : s.Ok m.next f) : s.Ok m'.next f' := hs.mono h.next h.front

theorem Ext.read {m f m' f'} (h : Ext m f m' f') {s : Slice} (hs : s.Ok m.next f) : m'.read s = m.read s := by
  apply Heap.read_congr
  intro i hi
  have h1 := hs.1
  have h2 := hs.2.2
  rcases hs.2.1 with h3 | h3
  · omega
  · exact h.same _ _ h3 (by omega)

theorem Inv.read {m f} (h : Inv m f) {s : Slice} (hs : s.Ok m.next f) : ∀ c ∈ m.read s, c.Ok m.next f := by
  intro c hc
  simp only [Heap.read, List.mem_map, List.mem_range] at hc
  obtain ⟨i, hi, rfl⟩ := hc
  have h1 := hs.1
  have h2 := hs.2.2
  rcases hs.2.1 with h3 | h3
  · omega
  · exact h _ _ h3 (by omega)

/-- What is read does not change. -/
theorem MemReads.ext {m f m' f'} (hm : Inv m f) (h : Ext m f m' f') {cs : List HCond} {as : List Cond} (hr : MemReads m cs as)
    (hok : ∀ c ∈ cs, c.Ok m.next f) : MemReads m' cs as := by
  induction hr with
  | nil => exact .nil
  | atom v _ ih => exact .atom v (ih fun c hc => hok c (List.mem_cons_of_mem _ hc))
  | neg k kn _ _ ih1 ih2 =>
    refine .neg k kn (ih1 ?_) (ih2 fun c hc => hok c (List.mem_cons_of_mem _ hc))
    intro c hc
    rw [List.mem_singleton] at hc
    subst hc
    exact hok (.neg k kn c) List.mem_cons_self
  | compound k op conds isEmpty err nn hasCopy cp _ _ _ ih1 ih2 ih3 =>
    have ho := hok _ List.mem_cons_self
    refine .compound k op conds isEmpty err nn hasCopy cp ?_ ?_ (ih3 fun c hc => hok c (List.mem_cons_of_mem _ hc))
    · rw [h.read ho.1]; exact ih1 (hm.read ho.1)
    · rw [h.read ho.2]; exact ih2 (hm.read ho.2)

theorem MemReads.append {m} {cs : List HCond} {as : List Cond} (h1 : MemReads m cs as) {ds : List HCond} {bs : List Cond}
    (h2 : MemReads m ds bs) : MemReads m (cs ++ ds) (as ++ bs) := by
  induction h1 with
  | nil => exact h2
  | atom v _ ih => exact .atom v ih
  | neg k kn h _ _ ih => exact .neg k kn h ih
  | compound k op conds isEmpty err nn hasCopy cp h h' _ _ _ ih => exact .compound k op conds isEmpty err nn hasCopy cp h h' ih

theorem MemReads.length {m} {cs : List HCond} {as : List Cond} (h : MemReads m cs as) : cs.length = as.length := by
  induction h with
  | nil => rfl
  | atom _ _ ih => simp [ih]
  | neg _ _ _ _ _ ih => simp [ih]
  | compound _ _ _ _ _ _ _ _ _ _ _ _ _ ih => simp [ih]

theorem MemReads.get {m} {cs : List HCond} {as : List Cond} (h : MemReads m cs as) (i : Nat) :
    MemReads m [cs[i]?.getD default] [as[i]?.getD (.compound 0 none [] false none false false [])] := by
  induction h generalizing i with
  | nil => exact MemReads.compound 0 none {} false none false false {} .nil .nil .nil
  | atom v _ ih =>
    cases i with
    | zero => exact .atom v .nil
    | succ i => simpa using ih i
  | neg k kn h _ _ ih =>
    cases i with
    | zero => exact .neg k kn h .nil
    | succ i => simpa using ih i
  | compound k op conds isEmpty err nn hasCopy cp h h' _ _ _ ih =>
    cases i with
    | zero => exact .compound k op conds isEmpty err nn hasCopy cp h h' .nil
    | succ i => simpa using ih i

/-! ### `append` -/

/-- The number of used cells after an `append`. -/
def frontAfter (grow : Nat → Nat → Nat) (m : Heap HCond) (f : Nat → Nat) (s : Slice) (xs : List HCond) : Nat → Nat :=
  fun a => if a = (m.append grow s xs).2.arr then (m.append grow s xs).2.len else f a

structure Appended (m : Heap HCond) (f : Nat → Nat) (s : Slice) (m' : Heap HCond) (f' : Nat → Nat) (s' : Slice) : Prop where
  ext : Ext m f m' f'
  ok : s'.Ok m'.next f'
  free : s'.Free f'
  others : ∀ a, a < m.next → (a ≠ s.arr ∨ s.len = s.cap) → f' a = f a
  place : (s'.arr = s.arr ∧ s'.cap = s.cap ∧ s.len ≤ s'.len) ∨ m.next ≤ s'.arr

theorem append_spec (grow : Nat → Nat → Nat) {m : Heap HCond} {f : Nat → Nat} (hm : Inv m f) (hf : ∀ a, m.next ≤ a → f a = 0)
    {s : Slice} (hs : s.Ok m.next f) (hfree : s.Free f) {xs : List HCond} (hx : ∀ x ∈ xs, x.Ok m.next f) (hne : xs ≠ []) :
    ∃ f', (∀ a, (m.append grow s xs).1.next ≤ a → f' a = 0) ∧ Appended m f s (m.append grow s xs).1 f' (m.append grow s xs).2 := by
  have hlen : 0 < xs.length := by cases xs with | nil => exact absurd rfl hne | cons => simp
  obtain ⟨h1, h2, h3⟩ := hs
  refine ⟨frontAfter grow m f s xs, ?_, ?_⟩
  · intro a ha
    unfold frontAfter
    unfold Heap.append at ha ⊢
    split at ha
    · rename_i hc
      simp only [if_pos hc] at ha ⊢
      rcases h2 with h2 | h2
      · omega
      · rw [if_neg (by omega)]; exact hf a ha
    · rename_i hc
      simp only [if_neg hc] at ha ⊢
      rw [if_neg (by omega)]
      exact hf a (by omega)
  · have hfront : ∀ a, f a ≤ frontAfter grow m f s xs a := by
      intro a
      unfold frontAfter Heap.append
      by_cases hc : s.len + xs.length ≤ s.cap
      · simp only [if_pos hc]
        split
        · rename_i ha
          subst ha
          rcases hfree with h | h <;> omega
        · exact Nat.le_refl _
      · simp only [if_neg hc]
        split
        · rename_i ha
          subst ha
          rw [hf _ (Nat.le_refl _)]
          exact Nat.zero_le _
        · exact Nat.le_refl _
    have hnext : m.next ≤ (m.append grow s xs).1.next := by
      unfold Heap.append
      split
      · exact Nat.le_refl _
      · exact Nat.le_succ _
    have hsame : ∀ a i, a < m.next → i < f a → (m.append grow s xs).1.mem a i = m.mem a i := by
      intro a i ha hi
      by_cases hc : s.len + xs.length ≤ s.cap
      · apply Heap.append_old grow m s xs ha
        by_cases hh : a = s.arr
        · right
          left
          subst hh
          rcases hfree with h | h <;> omega
        · exact .inl hh
      · unfold Heap.append
        simp only [if_neg hc]
        rw [if_neg (by omega)]
    refine ⟨⟨hnext, hfront, ?_, hsame⟩, ?_, ?_, ?_, ?_⟩
    · intro a i ha hi
      have key : ∀ c : HCond, c.Ok m.next f → c.Ok (m.append grow s xs).1.next (frontAfter grow m f s xs) :=
        fun c hc => hc.mono hnext hfront
      by_cases ha' : a = (m.append grow s xs).2.arr
      · have hi' : i < (m.append grow s xs).2.len := by
          unfold frontAfter at hi
          rwa [if_pos ha'] at hi
        have hmem : (m.append grow s xs).1.mem a i ∈ (m.append grow s xs).1.read (m.append grow s xs).2 := by
          rw [ha']
          simp only [Heap.read, List.mem_map, List.mem_range]
          exact ⟨i, hi', rfl⟩
        rw [Heap.read_append, List.mem_append] at hmem
        rcases hmem with hmem | hmem
        · exact key _ (hm.read ⟨h1, h2, h3⟩ _ hmem)
        · exact key _ (hx _ hmem)
      · have hi' : i < f a := by
          unfold frontAfter at hi
          rwa [if_neg ha'] at hi
        have ha2 : a < m.next := by
          apply Classical.byContradiction
          intro hh
          rw [hf a (by omega)] at hi'
          omega
        rw [hsame a i ha2 hi']
        exact key _ (hm a i ha2 hi')
    · refine ⟨?_, ?_, ?_⟩
      · unfold Heap.append
        split
        · simpa
        · simp only; omega
      · unfold Heap.append
        split
        · simpa using h2
        · right; simp
      · unfold frontAfter; rw [if_pos rfl]; exact Nat.le_refl _
    · right
      unfold frontAfter; rw [if_pos rfl]
    · intro a ha hor
      unfold frontAfter
      rw [if_neg]
      intro hh
      unfold Heap.append at hh
      by_cases hc : s.len + xs.length ≤ s.cap
      · rw [if_pos hc] at hh
        simp only at hh
        rcases hor with hor | hor
        · exact hor hh
        · omega
      · rw [if_neg hc] at hh
        simp only at hh
        omega
    · unfold Heap.append
      split
      · left; exact ⟨rfl, rfl, Nat.le_add_right ..⟩
      · right; exact Nat.le_refl _

/-! ### Combining conditions -/

namespace HCond

variable (grow : Nat → Nat → Nat)

theorem shallow_err {m : Heap HCond} : ∀ {c : HCond} {a : Cond}, MemReads m [c] [a] →
    c.shallow.toVal.err = a.toVal.err ∧ c.shallow.toVal.notNil = a.toVal.notNil
  | .atom v, a, h => by cases h; exact ⟨rfl, rfl⟩
  | .neg k kn c, a, h => by
    cases h with
    | neg _ _ h _ =>
      have ih := shallow_err h
      simp only [shallow, Cond.toVal, comparisonCreate1, errOf, nilErr, missing, ih.1, ih.2]
      split <;> simp_all [Val.bad, Val.mk', Op.type]
  | .compound .., a, h => by cases h; exact ⟨rfl, rfl⟩

theorem isCompound_reads {m : Heap HCond} {c : HCond} {a : Cond} (h : MemReads m [c] [a]) : c.isCompound = a.isCompound := by
  cases h <;> rfl

theorem hasCondition_reads {m : Heap HCond} {c : HCond} {a : Cond} (h : MemReads m [c] [a]) : c.hasCondition = a.hasCondition := by
  cases h with
  | atom => rfl
  | neg => rfl
  | compound k op conds isEmpty err nn hasCopy cp h1 _ _ =>
    have := h1.length
    rw [Heap.read_length] at this
    have hh : ∀ l : List Cond, (l.length == 0) = l.isEmpty := fun l => by cases l <;> rfl
    simp only [hasCondition, Cond.hasCondition, this, hh]

theorem canBeFlattened_reads {m : Heap HCond} {h : Op} {cs : List HCond} {as : List Cond} (hr : MemReads m cs as) :
    canBeFlattenedWith h cs = Cond.canBeFlattenedWith h as := by
  induction hr with
  | nil => rfl
  | atom v _ ih => simp only [canBeFlattenedWith, Cond.canBeFlattenedWith] at ih ⊢; simp [ih]
  | neg k kn _ _ _ ih => simp only [canBeFlattenedWith, Cond.canBeFlattenedWith] at ih ⊢; simp [ih]
  | compound _ _ _ _ _ _ _ _ _ _ _ _ _ ih => simp only [canBeFlattenedWith, Cond.canBeFlattenedWith] at ih ⊢; simp [ih]

end HCond

theorem Appended.trans {m f s m1 f1 s1 m2 f2 s2} (h1 : Appended m f s m1 f1 s1) (h2 : Appended m1 f1 s1 m2 f2 s2) :
    Appended m f s m2 f2 s2 where
  ext := h1.ext.trans h2.ext
  ok := h2.ok
  free := h2.free
  others a ha h := by
    rw [h2.others a (Nat.lt_of_lt_of_le ha h1.ext.next), h1.others a ha h]
    rcases h1.place with hp | hp
    · rcases h with h | h
      · left; rw [hp.1]; exact h
      · have hs := h1.ok.1
        right
        omega
    · left; omega
  place := by
    rcases h2.place with hp | hp
    · rcases h1.place with hq | hq
      · left; exact ⟨hp.1.trans hq.1, hp.2.1.trans hq.2.1, Nat.le_trans hq.2.2 hp.2.2⟩
      · right; omega
    · right; exact Nat.le_trans h1.ext.next hp

theorem Appended.refl {m f s} (hm : Inv m f) (hs : s.Ok m.next f) (hf : s.Free f) : Appended m f s m f s where
  ext := .refl hm
  ok := hs
  free := hf
  others _ _ _ := rfl
  place := .inl ⟨rfl, rfl, Nat.le_refl _⟩

theorem Slice.ok_nil (n : Nat) (f : Nat → Nat) : Slice.Ok n f {} := ⟨Nat.le_refl _, .inl rfl, Nat.zero_le _⟩

theorem Slice.free_nil (f : Nat → Nat) : Slice.Free f {} := .inl rfl

/-- A slice that is free stays so when another one is extended. -/
theorem Slice.Free.other {m f s m' f' s'} (h : Appended m f s m' f' s') {t : Slice} (ht : t.Ok m.next f) (hf : t.Free f)
    (hd : t.len = t.cap ∨ s.len = s.cap ∨ t.arr ≠ s.arr) : t.Free f' := by
  rcases hf with hf | hf
  · exact .inl hf
  · rcases hd with hd | hd
    · exact .inl hd
    · by_cases hz : t.len = t.cap
      · exact .inl hz
      · right
        have h1 := ht.1
        have h2 : t.arr < m.next := by rcases ht.2.1 with h2 | h2 <;> omega
        rw [h.others _ h2 (hd.elim .inr .inl), hf]

namespace HCond

variable (grow : Nat → Nat → Nat)

/-- The unused arrays have no cells in use. -/
def Fresh (m : Heap HCond) (f : Nat → Nat) : Prop := ∀ a, m.next ≤ a → f a = 0

theorem addConds_spec {m : Heap HCond} {f : Nat → Nat} (hm : Inv m f) (hf : Fresh m f) {s : Slice} (hs : s.Ok m.next f)
    (hfree : s.Free f) {as : List Cond} (hr : MemReads m (m.read s) as) {x : HCond} {b : Cond} (hx : x.Ok m.next f)
    (hb : MemReads m [x] [b]) (op : Option Op) (ki : Key) (h : Op) :
    ∃ f', Fresh (addConds grow m op s ki h x).1 f' ∧
      Appended m f s (addConds grow m op s ki h x).1 f' (addConds grow m op s ki h x).2 ∧
      MemReads (addConds grow m op s ki h x).1 ((addConds grow m op s ki h x).1.read (addConds grow m op s ki h x).2)
        (Cond.addConds op as ki h b) := by
  -- one `append`
  have one : ∀ (xs : List HCond) (bs : List Cond), (∀ c ∈ xs, c.Ok m.next f) → MemReads m xs bs → xs ≠ [] →
      ∃ f', Fresh (m.append grow s xs).1 f' ∧ Appended m f s (m.append grow s xs).1 f' (m.append grow s xs).2 ∧
        MemReads (m.append grow s xs).1 ((m.append grow s xs).1.read (m.append grow s xs).2) (as ++ bs) := by
    intro xs bs hxs hbs hne
    obtain ⟨f', hf', ha⟩ := append_spec grow hm hf hs hfree hxs hne
    refine ⟨f', hf', ha, ?_⟩
    rw [Heap.read_append]
    exact ((hr.append hbs).ext hm ha.ext (by
      intro c hc
      rw [List.mem_append] at hc
      exact hc.elim (hm.read hs c) (hxs c)))
  have hx1 : ∀ c ∈ [x], c.Ok m.next f := by simpa using hx
  have hhas := hasCondition_reads hb
  cases hb with
  | atom v _ => exact one _ _ hx1 (.atom v .nil) (by simp)
  | neg k kn h1 _ => exact one _ _ hx1 (.neg k kn h1 .nil) (by simp)
  | @compound k op' conds isEmpty err nn hasCopy cp xs ys _ _ h1 h2 _ =>
    have hb' : MemReads m [.compound k op' conds isEmpty err nn hasCopy cp] [.compound k op' xs isEmpty err nn hasCopy ys] :=
      .compound k op' conds isEmpty err nn hasCopy cp h1 h2 .nil
    simp only [addConds, Cond.addConds, ← hhas]
    split
    · exact ⟨f, hf, .refl hm hs hfree, hr⟩
    · rename_i hhc
      split
      · rw [canBeFlattened_reads h1]
        split
        · refine one _ _ (hm.read hx.1) h1 ?_
          intro hnil
          have : conds.len = 0 := by rw [← Heap.read_length m conds, hnil]; rfl
          simp [hasCondition, this] at hhc
        · exact one _ _ hx1 hb' (by simp)
      · -- the compound created in between
        obtain ⟨f1, hf1, ha1⟩ := append_spec grow hm hf (Slice.ok_nil _ f) (Slice.free_nil f) hx1 (by simp)
        have hin : (m.append grow {} [.compound k op' conds isEmpty err nn hasCopy cp]).1.read
            (m.append grow {} [.compound k op' conds isEmpty err nn hasCopy cp]).2 = [.compound k op' conds isEmpty err nn hasCopy cp] := by
          rw [Heap.read_append]; rfl
        have hs1 := ha1.ext.sok hs
        have hfree1 : s.Free f1 := hfree.other ha1 hs (.inr (.inl rfl))
        have hok : ∀ c ∈ [HCond.compound ki (some h) (m.append grow {} [.compound k op' conds isEmpty err nn hasCopy cp]).2 false none
            true true {}], c.Ok (m.append grow {} [.compound k op' conds isEmpty err nn hasCopy cp]).1.next f1 := by
          intro c hc
          rw [List.mem_singleton] at hc
          subst hc
          exact ⟨ha1.ok, Slice.ok_nil _ _⟩
        obtain ⟨f2, hf2, ha2⟩ := append_spec grow ha1.ext.inv hf1 hs1 hfree1 hok (by simp)
        refine ⟨f2, hf2, ?_, ?_⟩
        · refine ⟨ha1.ext.trans ha2.ext, ha2.ok, ha2.free, ?_, ?_⟩
          · intro a ha hor
            rw [ha2.others a (Nat.lt_of_lt_of_le ha ha1.ext.next) hor, ha1.others a ha (.inr rfl)]
          · rcases ha2.place with hp | hp
            · exact .inl hp
            · exact .inr (Nat.le_trans ha1.ext.next hp)
        · rw [Heap.read_append, ha1.ext.read hs]
          have hr1 := (hr.ext hm ha1.ext (hm.read hs))
          have hw : MemReads (m.append grow {} [.compound k op' conds isEmpty err nn hasCopy cp]).1
              [HCond.compound ki (some h) (m.append grow {} [.compound k op' conds isEmpty err nn hasCopy cp]).2 false none true true {}]
              [Cond.wrapped ki h [.compound k op' xs isEmpty err nn hasCopy ys]] := by
            refine .compound _ _ _ _ _ _ _ _ ?_ .nil .nil
            rw [hin]
            exact hb'.ext hm ha1.ext hx1
          refine (hr1.append hw).ext ha1.ext.inv ha2.ext ?_
          intro c hc
          rw [List.mem_append] at hc
          exact hc.elim (fun hc => ha1.ext.ok (hm.read hs c hc)) (hok c)

/-- The outcome of combining conditions in memory: nothing in use is overwritten, and the new condition may be extended in turn. -/
structure Combined (m : Heap HCond) (f : Nat → Nat) (s : Slice) (m' : Heap HCond) (f' : Nat → Nat) (c : HCond) (a : Cond) : Prop where
  ext : Ext m f m' f'
  fresh : Fresh m' f'
  ok : c.Ok m'.next f'
  free : c.slice.Free f'
  others : ∀ a, a < m.next → (a ≠ s.arr ∨ s.len = s.cap) → f' a = f a
  place : c.slice.len = c.slice.cap ∨ (c.slice.arr = s.arr ∧ c.slice.cap = s.cap ∧ s.len ≤ c.slice.len) ∨ m.next ≤ c.slice.arr
  reads : MemReads m' [c] [a]

theorem compoundCreate_spec {m : Heap HCond} {f : Nat → Nat} (hm : Inv m f) (hf : Fresh m f) (s : Slice) {c x : HCond} {a b : Cond}
    (hc : c.Ok m.next f) (ha : MemReads m [c] [a]) (hx : x.Ok m.next f) (hb : MemReads m [x] [b]) (ks : Cond.Keys) (h : Op) :
    ∃ f', Combined m f s (compoundCreate grow m ks c h x).1 f' (compoundCreate grow m ks c h x).2 (Cond.compoundCreate ks a h b) := by
  have e1 := shallow_err ha
  have e2 := shallow_err hb
  have n1 : ∀ e, nilErr (some c.shallow.toVal) e = nilErr (some a.toVal) e := fun e => by simp [nilErr, missing, e1.2]
  have n2 : ∀ e, nilErr (some x.shallow.toVal) e = nilErr (some b.toVal) e := fun e => by simp [nilErr, missing, e2.2]
  unfold compoundCreate Cond.compoundCreate
  rw [e1.1, e2.1, n1, n2]
  generalize firstErr _ = o
  cases o
  case some => exact ⟨f, .refl hm, hf, ⟨Slice.ok_nil _ _, Slice.ok_nil _ _⟩, .inl rfl, fun _ _ _ => rfl, .inl rfl,
      .compound _ _ _ _ _ _ _ _ .nil .nil .nil⟩
  case none =>
    obtain ⟨f1, hf1, ha1, hr1⟩ := addConds_spec grow hm hf (Slice.ok_nil _ f) (Slice.free_nil f) (as := []) .nil hc ha (some h) ks.inner1 h
    obtain ⟨f2, hf2, ha2, hr2⟩ := addConds_spec grow ha1.ext.inv hf1 ha1.ok ha1.free hr1 (ha1.ext.ok hx)
      (hb.ext hm ha1.ext (by simpa using hx)) (some h) ks.inner2 h
    have ha := ha1.trans ha2
    refine ⟨f2, ha.ext, hf2, ⟨ha.ok, ha.ok⟩, ha.free, fun a ha' _ => ha.others a ha' (.inr rfl), ?_, .compound _ _ _ _ _ _ _ _ hr2 hr2 .nil⟩
    rcases ha.place with hp | hp
    · left
      have h1 := ha.ok.1
      simp only [slice]
      have := hp.2.1
      simp only at this
      omega
    · exact .inr (.inr hp)

theorem combine_spec {m : Heap HCond} {f : Nat → Nat} (hm : Inv m f) (hf : Fresh m f) {c x : HCond} {a b : Cond}
    (hc : c.Ok m.next f) (hfree : c.slice.Free f) (ha : MemReads m [c] [a]) (hx : x.Ok m.next f) (hb : MemReads m [x] [b]) (ks : Cond.Keys) (h : Op) :
    ∃ f', Combined m f c.slice (combine grow m ks c h x).1 f' (combine grow m ks c h x).2 (Cond.combine ks a h b) := by
  have hcr := compoundCreate_spec grow hm hf c.slice hc ha hx hb ks h
  cases ha with
  | atom v _ => exact hcr
  | neg k kn _ _ => exact hcr
  | @compound k op conds isEmpty err nn hasCopy cp xs ys _ _ h1 h2 _ =>
    have hic := isCompound_reads hb
    have hv : Cond.combine ks (.compound k op xs isEmpty err nn hasCopy ys) h b =
        Cond.add ks (.compound k op xs isEmpty err nn hasCopy ys) h b := rfl
    rw [hv]
    cases isEmpty
    case true =>
      simp only [combine, Cond.add, if_true]
      obtain ⟨f1, hf1, ha1, hr1⟩ := addConds_spec grow hm hf (Slice.ok_nil _ f) (Slice.free_nil f) (as := []) .nil hx hb (some h) ks.inner1 h
      refine ⟨f1, ha1.ext, hf1, ⟨ha1.ok, Slice.ok_nil _ _⟩, ha1.free, fun a ha' _ => ha1.others a ha' (.inr rfl), ?_,
        .compound _ _ _ _ _ _ _ _ hr1 .nil .nil⟩
      rcases ha1.place with hp | hp
      · left
        have h1 := ha1.ok.1
        simp only [slice]
        have := hp.2.1
        simp only at this
        omega
      · exact .inr (.inr hp)
    case false =>
      by_cases hop : b.isCompound = true ∨ op = some h
      · simp only [combine, Cond.add, hic, hop, if_false, if_true, Bool.false_eq_true]
        obtain ⟨f1, hf1, ha1, hr1⟩ := addConds_spec grow hm hf hc.1 hfree h1 hx hb op ks.inner1 h
        refine ⟨f1, ha1.ext, hf1, ⟨ha1.ok, ha1.ext.sok hc.2⟩, ha1.free, ha1.others, .inr ha1.place,
          .compound _ _ _ _ _ _ _ _ hr1 ?_ .nil⟩
        rw [ha1.ext.read hc.2]
        exact h2.ext hm ha1.ext (hm.read hc.2)
      · simp only [combine, Cond.add, hic, hop, if_false, Bool.false_eq_true]
        exact hcr

end HCond

/-! ### Programs -/

/-- The conditions `env` in memory `m` are the conditions `vs`; those that were not yet receivers may be extended without overwriting
anything. -/
structure Good (used : List Nat) (m : Heap HCond) (env : List HCond) (vs : List Cond) (f : Nat → Nat) : Prop where
  inv : Inv m f
  fresh : HCond.Fresh m f
  ok : ∀ c ∈ env, c.Ok m.next f
  reads : MemReads m env vs
  free : ∀ i, i ∉ used → (env[i]?.getD default).slice.Free f
  apart : ∀ i j, i ∉ used → j ∉ used → i ≠ j →
    (env[i]?.getD default).slice.len = (env[i]?.getD default).slice.cap ∨
    (env[j]?.getD default).slice.len = (env[j]?.getD default).slice.cap ∨
    (env[i]?.getD default).slice.arr ≠ (env[j]?.getD default).slice.arr

theorem HCond.ok_default (n : Nat) (f : Nat → Nat) : (default : HCond).Ok n f := ⟨Slice.ok_nil _ _, Slice.ok_nil _ _⟩

theorem Good.ok_get {used m env vs f} (h : Good used m env vs f) (i : Nat) : (env[i]?.getD default).Ok m.next f := by
  cases hi : env[i]? with
  | none => exact HCond.ok_default _ _
  | some c => exact h.ok c (List.mem_of_getElem? hi)

theorem HCond.Ok.slice {n : Nat} {f : Nat → Nat} {c : HCond} (h : c.Ok n f) : c.slice.Ok n f := by
  cases c with
  | atom => exact Slice.ok_nil _ _
  | neg => exact Slice.ok_nil _ _
  | compound => exact h.1

theorem get_append_one {α : Type} (l : List α) (x d : α) (i : Nat) :
    ((l ++ [x])[i]?).getD d = if i < l.length then l[i]?.getD d else if i = l.length then x else d := by
  by_cases h : i < l.length
  · rw [List.getElem?_append_left h, if_pos h]
  · rw [if_neg h, List.getElem?_append_right (by omega)]
    by_cases h2 : i = l.length
    · simp [h2]
    · rw [if_neg h2]
      have : [x][i - l.length]? = none := by simp; omega
      rw [this]; rfl

theorem get_full {env : List HCond} {i : Nat} (h : ¬ i < env.length) : env[i]?.getD default = default := by
  rw [List.getElem?_eq_none (by omega)]; rfl

/-- A line that appends to no slice. -/
theorem Good.plain {used m env vs f} (h : Good used m env vs f) {c : HCond} {a : Cond} (hok : c.Ok m.next f)
    (hr : MemReads m [c] [a]) (hs : c.slice.len = c.slice.cap) : Good used m (env ++ [c]) (vs ++ [a]) f where
  inv := h.inv
  fresh := h.fresh
  ok := by
    intro d hd
    rw [List.mem_append, List.mem_singleton] at hd
    rcases hd with hd | rfl
    · exact h.ok d hd
    · exact hok
  reads := h.reads.append hr
  free i hi := by
    rw [get_append_one]
    split
    · exact h.free i hi
    · split
      · exact .inl hs
      · exact .inl rfl
  apart i j hi hj hij := by
    simp only [get_append_one]
    by_cases h1 : i < env.length
    · by_cases h2 : j < env.length
      · simp only [h1, h2, if_true]; exact h.apart i j hi hj hij
      · simp only [h1, h2, if_true, if_false]
        split
        · exact .inr (.inl hs)
        · exact .inr (.inl rfl)
    · simp only [h1, if_false]
      split
      · exact .inl hs
      · exact .inl rfl

theorem Good.step {used m env vs f} (grow : Nat → Nat → Nat) (h : Good used m env vs f) (ins : CondInstr)
    (hn : ∀ i ∈ CondInstr.receivers [ins], i ∉ used) :
    ∃ f', Good (CondInstr.receivers [ins] ++ used) (ins.run grow (m, env)).1 (ins.run grow (m, env)).2 (ins.value vs) f' := by
  cases ins with
  | atom v => exact ⟨f, h.plain (c := .atom v) trivial (.atom v .nil) rfl⟩
  | empty => exact ⟨f, h.plain (c := .empty) ⟨Slice.ok_nil _ _, Slice.ok_nil _ _⟩ (.compound _ _ _ _ _ _ _ _ .nil .nil .nil) rfl⟩
  | not k kn i => exact ⟨f, h.plain (c := .neg k kn _) (h.ok_get i) (.neg k kn (h.reads.get i) .nil) rfl⟩
  | combine ks i op j =>
    have hi : i ∉ used := hn i (by simp [CondInstr.receivers])
    obtain ⟨f', hc⟩ := HCond.combine_spec grow h.inv h.fresh (h.ok_get i) (h.free i hi) (h.reads.get i) (h.ok_get j) (h.reads.get j) ks op
    simp only [CondInstr.run, CondInstr.value, CondInstr.receivers]
    generalize hm' : (HCond.combine grow m ks (env[i]?.getD default) op (env[j]?.getD default)).1 = m' at hc
    generalize hd' : (HCond.combine grow m ks (env[i]?.getD default) op (env[j]?.getD default)).2 = d at hc
    -- the other conditions stay free
    have hfree : ∀ k, k ∉ i :: used → (env[k]?.getD default).slice.Free f' := by
      intro k hk
      rw [List.mem_cons, not_or] at hk
      have hk1 := h.free k hk.2
      rcases hk1 with hk1 | hk1
      · exact .inl hk1
      · by_cases hz : (env[k]?.getD default).slice.len = (env[k]?.getD default).slice.cap
        · exact .inl hz
        · right
          have hok := (h.ok_get k).slice
          have h1 := hok.1
          have h2 : (env[k]?.getD default).slice.arr < m.next := by rcases hok.2.1 with h2 | h2 <;> omega
          rw [hc.others _ h2, hk1]
          rcases h.apart k i hk.2 hi hk.1 with ha | ha | ha
          · exact absurd ha hz
          · exact .inr ha
          · exact .inl ha
    -- and apart from the new one
    have hap : ∀ k, k ∉ i :: used → (env[k]?.getD default).slice.len = (env[k]?.getD default).slice.cap ∨
        d.slice.len = d.slice.cap ∨ (env[k]?.getD default).slice.arr ≠ d.slice.arr := by
      intro k hk
      rw [List.mem_cons, not_or] at hk
      by_cases hz : (env[k]?.getD default).slice.len = (env[k]?.getD default).slice.cap
      · exact .inl hz
      · right
        have hok := (h.ok_get k).slice
        have h1 := hok.1
        have h2 : (env[k]?.getD default).slice.arr < m.next := by rcases hok.2.1 with h2 | h2 <;> omega
        rcases hc.place with hp | hp | hp
        · exact .inl hp
        · by_cases hz2 : d.slice.len = d.slice.cap
          · exact .inl hz2
          · right
            have hd1 := hc.ok.slice.1
            rw [hp.1]
            rcases h.apart k i hk.2 hi hk.1 with ha | ha | ha
            · exact absurd ha hz
            · omega
            · exact ha
        · right; omega
    refine ⟨f', hc.ext.inv, hc.fresh, ?_, ?_, ?_, ?_⟩
    · intro c hcm
      rw [List.mem_append, List.mem_singleton] at hcm
      rcases hcm with hcm | rfl
      · exact hc.ext.ok (h.ok c hcm)
      · exact hc.ok
    · exact (h.reads.ext h.inv hc.ext h.ok).append hc.reads
    · intro k hk
      simp only [get_append_one]
      split
      · exact hfree k (by simpa using hk)
      · split
        · exact hc.free
        · exact .inl rfl
    · intro k l hk hl hkl
      simp only [get_append_one]
      by_cases h1 : k < env.length
      · by_cases h2 : l < env.length
        · simp only [h1, h2, if_true]
          have hk' : k ∉ used := fun hh => hk (by simp [hh])
          have hl' : l ∉ used := fun hh => hl (by simp [hh])
          exact h.apart k l hk' hl' hkl
        · simp only [h1, h2, if_false, if_true]
          split
          · exact hap k (by simpa using hk)
          · exact .inr (.inl rfl)
      · simp only [h1, if_false]
        split
        · by_cases h2 : l < env.length
          · simp only [h2, if_true]
            rcases hap l (by simpa using hl) with h3 | h3 | h3
            · exact .inr (.inl h3)
            · exact .inl h3
            · exact .inr (.inr h3.symm)
          · rename_i hk3
            have : l ≠ env.length := by omega
            simp only [h2, if_false, this]
            exact .inr (.inl rfl)
        · exact .inl rfl

theorem receivers_cons (i : CondInstr) (p : List CondInstr) :
    CondInstr.receivers (i :: p) = CondInstr.receivers [i] ++ CondInstr.receivers p := by
  cases i <;> rfl

theorem Good.program (grow : Nat → Nat → Nat) (p : List CondInstr) : ∀ {used m env vs f}, Good used m env vs f →
    (CondInstr.receivers p).Nodup → (∀ i ∈ CondInstr.receivers p, i ∉ used) →
    MemReads (p.foldl (CondInstr.run grow) (m, env)).1 (p.foldl (CondInstr.run grow) (m, env)).2 (p.foldl CondInstr.value vs) := by
  induction p with
  | nil => intro used m env vs f h _ _; exact h.reads
  | cons i p ih =>
    intro used m env vs f h hnd hu
    rw [receivers_cons] at hnd hu
    obtain ⟨f', h'⟩ := h.step grow i (fun k hk => hu k (List.mem_append_left _ hk))
    rw [List.nodup_append] at hnd
    refine ih h' hnd.2.1 ?_
    intro k hk hk2
    rw [List.mem_append] at hk2
    rcases hk2 with hk2 | hk2
    · exact hnd.2.2 k hk2 k hk rfl
    · exact hu k (List.mem_append_right _ hk) hk2

/-! ### Chains -/

theorem Heap.read_setLast {α : Type} (m : Heap α) (s : Slice) (x : α) (hs : 0 < s.len) :
    (m.setLast s x).read s = (m.read s).dropLast ++ [x] := by
  apply List.ext_getElem
  · simp [Heap.read]; omega
  · intro i h1 h2
    simp only [Heap.read, Heap.setLast, List.getElem_map, List.getElem_range, true_and]
    simp only [Heap.read, List.length_map, List.length_range] at h1
    by_cases hi : i + 1 = s.len
    · rw [if_pos hi, List.getElem_append_right (by simp; omega)]
      simp
    · rw [if_neg hi, List.getElem_append_left (by simp; omega)]
      simp

/-- The arrays of the chains that were not yet receivers are all different, and hold the chains. -/
structure GoodChains (used : List Nat) (m : Heap RelV) (env : List HChain) (vs : List ChainV) : Prop where
  length : env.length = vs.length
  place : ∀ (i : Nat) c, env[i]? = some c → c.rels.arr < m.next
  reads : ∀ i, i ∉ used → ∀ c, env[i]? = some c → vs[i]? = some (c.read m)
  apart : ∀ i j, i ∉ used → j ∉ used → i ≠ j → ∀ c d, env[i]? = some c → env[j]? = some d → c.rels.arr ≠ d.rels.arr

theorem GoodChains.snoc {used m env vs m'} (h : GoodChains used m env vs) (r : List Nat) {c : HChain} {v : ChainV}
    (hn : m.next ≤ m'.next) (hc : c.rels.arr < m'.next) (hv : v = c.read m')
    (hsame : ∀ i, i ∉ r → i ∉ used → ∀ d, env[i]? = some d → m'.read d.rels = m.read d.rels)
    (hap : ∀ i, i ∉ r → i ∉ used → ∀ d, env[i]? = some d → d.rels.arr ≠ c.rels.arr) :
    GoodChains (r ++ used) m' (env ++ [c]) (vs ++ [v]) where
  length := by simp [h.length]
  place i d hd := by
    rw [List.getElem?_append] at hd
    split at hd
    · exact Nat.lt_of_lt_of_le (h.place i d hd) hn
    · rw [List.getElem?_singleton] at hd
      split at hd
      · cases hd; exact hc
      · cases hd
  reads i hi d hd := by
    rw [List.mem_append, not_or] at hi
    rw [List.getElem?_append] at hd ⊢
    rw [← h.length]
    split at hd
    · rename_i hlt
      rw [if_pos hlt, h.reads i hi.2 d hd]
      simp only [HChain.read, hsame i hi.1 hi.2 d hd]
    · rename_i hlt
      rw [if_neg hlt]
      rw [List.getElem?_singleton] at hd ⊢
      split at hd
      · rename_i hz
        cases hd
        rw [if_pos hz, hv]
      · cases hd
  apart i j hi hj hij d e hd he := by
    rw [List.mem_append, not_or] at hi hj
    rw [List.getElem?_append] at hd he
    split at hd
    · split at he
      · exact h.apart i j hi.2 hj.2 hij d e hd he
      · rw [List.getElem?_singleton] at he
        split at he
        · cases he; exact hap i hi.1 hi.2 d hd
        · cases he
    · rw [List.getElem?_singleton] at hd
      split at hd
      · cases hd
        split at he
        · exact (hap j hj.1 hj.2 e he).symm
        · rw [List.getElem?_singleton] at he
          split at he
          · omega
          · cases he
      · cases hd

theorem append_next {α : Type} [Inhabited α] (grow : Nat → Nat → Nat) (m : Heap α) (s : Slice) (xs : List α) :
    m.next ≤ (m.append grow s xs).1.next := by
  unfold Heap.append
  split
  · exact Nat.le_refl _
  · exact Nat.le_succ _

theorem append_arr {α : Type} [Inhabited α] (grow : Nat → Nat → Nat) (m : Heap α) (s : Slice) (xs : List α) :
    ((m.append grow s xs).2.arr = s.arr ∧ (m.append grow s xs).1.next = m.next) ∨
      ((m.append grow s xs).2.arr = m.next ∧ (m.append grow s xs).1.next = m.next + 1) := by
  unfold Heap.append
  split
  · exact .inl ⟨rfl, rfl⟩
  · exact .inr ⟨rfl, rfl⟩

theorem append_nil_arr {α : Type} [Inhabited α] (grow : Nat → Nat → Nat) (m : Heap α) (x : α) :
    (m.append grow {} [x]).2.arr = m.next ∧ (m.append grow {} [x]).1.next = m.next + 1 := ⟨rfl, rfl⟩

theorem getLast?_read_some {m : Heap RelV} {s : Slice} {r : RelV} (h : (m.read s).getLast? = some r) : 0 < s.len := by
  apply Nat.pos_of_ne_zero
  intro hz
  rw [Heap.read_empty m s hz] at h
  cases h

/-- A line of the program, in memory and with values. -/
theorem GoodChains.step {used m env vs} (grow : Nat → Nat → Nat) (h : GoodChains used m env vs) (ins : ChainInstr)
    (hn : ∀ i ∈ ChainInstr.receivers [ins], i ∉ used ∧ i < env.length) :
    (∃ st' vs', ins.run grow (m, env) = .ok st' ∧ ins.value vs = .ok vs' ∧
      GoodChains (ChainInstr.receivers [ins] ++ used) st'.1 st'.2 vs' ∧ st'.2.length = env.length + 1) ∨
    (ins.run grow (m, env) = .panic ∧ ins.value vs = .panic) := by
  cases ins with
  | start r k kd kt dir node types =>
    left
    refine ⟨_, _, rfl, rfl, ?_, by simp⟩
    have h1 := append_nil_arr (fun _ need => need) m r
    have r1 := Heap.read_append (fun _ need => need) m {} [r]
    have o1 : ∀ a l, a < m.next → (m.append (fun _ need => need) {} [r]).1.mem a l = m.mem a l := fun a l ha =>
      Heap.append_old _ m {} [r] ha (.inr (.inr (by simp)))
    simp only [HChain.start]
    generalize m.append (fun _ need => need) {} [r] = one at h1 r1 o1
    have h2 := append_arr grow one.1 one.2 [RelV.create k kd kt r.right dir node types]
    have r2 := Heap.read_append grow one.1 one.2 [RelV.create k kd kt r.right dir node types]
    have n2 := append_next grow one.1 one.2 [RelV.create k kd kt r.right dir node types]
    have o2 : ∀ a l, a < m.next → (one.1.append grow one.2 [RelV.create k kd kt r.right dir node types]).1.mem a l = one.1.mem a l :=
      fun a l ha => Heap.append_old _ _ _ _ (by omega) (.inl (by omega))
    refine h.snoc [] (by omega) (by simp only; omega) ?_ ?_ ?_
    · simp only [HChain.read, r2, r1, ChainV.start]
      rfl
    · intro i _ _ d hd
      have := h.place i d hd
      apply Heap.read_congr
      intro l _
      rw [o2 _ _ this, o1 _ _ this]
    · intro i _ _ d hd
      have := h.place i d hd
      simp only
      omega
  | extend i k kd kt dir node types =>
    have hi := hn i (by simp [ChainInstr.receivers])
    have hg := List.getElem?_eq_getElem hi.2
    generalize env[i] = c at hg
    have hv := h.reads i hi.1 c hg
    simp only [ChainInstr.run, ChainInstr.value, HChain.extend, ChainV.extend, hg, hv, Option.getD_some, HChain.read]
    cases hl : (m.read c.rels).getLast? with
    | none => exact .inr ⟨rfl, rfl⟩
    | some r =>
      left
      refine ⟨_, _, rfl, rfl, ?_, by simp⟩
      have h2 := append_arr grow m c.rels [RelV.create k kd kt r.right dir node types]
      have r2 := Heap.read_append grow m c.rels [RelV.create k kd kt r.right dir node types]
      have n2 := append_next grow m c.rels [RelV.create k kd kt r.right dir node types]
      have hp := h.place i c hg
      refine h.snoc [i] n2 (by simp only; omega) ?_ ?_ ?_
      · simp only [HChain.read, r2]
      · intro j hj hj2 d hd
        have := h.place j d hd
        have hne := h.apart j i hj2 hi.1 (by simpa using hj) d c hd hg
        exact Heap.read_congr fun l _ => Heap.append_old _ _ _ _ this (.inl hne)
      · intro j hj hj2 d hd
        have := h.place j d hd
        have hne := h.apart j i hj2 hi.1 (by simpa using hj) d c hd hg
        simp only
        omega
  | changeLast i f =>
    have hi := hn i (by simp [ChainInstr.receivers])
    have hg := List.getElem?_eq_getElem hi.2
    generalize env[i] = c at hg
    have hv := h.reads i hi.1 c hg
    simp only [ChainInstr.run, ChainInstr.value, HChain.changeLast, ChainV.changeLast, hg, hv, Option.getD_some, HChain.read]
    cases hl : (m.read c.rels).getLast? with
    | none => exact .inr ⟨rfl, rfl⟩
    | some r =>
      cases hfr : f r with
      | panic => exact .inr ⟨by simp only [hfr]; rfl, by simp only [hfr]; rfl⟩
      | ok r' =>
        simp only [hfr]
        left
        refine ⟨_, _, rfl, rfl, ?_, by simp⟩
        refine h.snoc [i] (Nat.le_refl _) (h.place i c hg) ?_ ?_ ?_
        · simp only [HChain.read, Heap.read_setLast m c.rels r' (getLast?_read_some hl)]
        · intro j hj hj2 d hd
          have hne := h.apart j i hj2 hi.1 (by simpa using hj) d c hd hg
          exact Heap.read_congr fun l _ => if_neg fun hh => hne hh.1
        · intro j hj hj2 d hd
          exact h.apart j i hj2 hi.1 (by simpa using hj) d c hd hg

theorem chain_receivers_cons (i : ChainInstr) (p : List ChainInstr) :
    ChainInstr.receivers (i :: p) = ChainInstr.receivers [i] ++ ChainInstr.receivers p := by
  cases i <;> rfl

/-- Receivers are lines above. -/
def ChainInstr.Scoped : Nat → List ChainInstr → Prop
  | _, [] => True
  | n, i :: p => (∀ r ∈ ChainInstr.receivers [i], r < n) ∧ ChainInstr.Scoped (n + 1) p

theorem GoodChains.program (grow : Nat → Nat → Nat) (p : List ChainInstr) : ∀ {used m env vs}, GoodChains used m env vs →
    (ChainInstr.receivers p).Nodup → (∀ i ∈ ChainInstr.receivers p, i ∉ used) → ChainInstr.Scoped env.length p →
    (∃ st' vs', runChains grow p (m, env) = .ok st' ∧ valueChains p vs = .ok vs' ∧
      GoodChains (ChainInstr.receivers p ++ used) st'.1 st'.2 vs') ∨
    (runChains grow p (m, env) = .panic ∧ valueChains p vs = .panic) := by
  induction p with
  | nil => intro used m env vs h _ _ _; exact .inl ⟨_, _, rfl, rfl, h⟩
  | cons i p ih =>
    intro used m env vs h hnd hu hsc
    rw [chain_receivers_cons] at hnd hu ⊢
    rw [List.nodup_append] at hnd
    rcases h.step grow i (fun k hk => ⟨hu k (List.mem_append_left _ hk), hsc.1 k hk⟩) with ⟨st', vs', h1, h2, h3, h4⟩ | ⟨h1, h2⟩
    · have := ih h3 hnd.2.1 (by
        intro k hk hk2
        rw [List.mem_append] at hk2
        rcases hk2 with hk2 | hk2
        · exact hnd.2.2 k hk2 k hk rfl
        · exact hu k (List.mem_append_right _ hk) hk2) (by rw [h4]; exact hsc.2)
      simp only [runChains, valueChains, h1, h2, Outcome.bind]
      rcases this with ⟨st2, vs2, h5, h6, h7⟩ | h5
      · refine .inl ⟨st2, vs2, h5, h6, ?_⟩
        refine ⟨h7.length, h7.place, fun k hk => h7.reads k ?_, fun k l hk hl => h7.apart k l ?_ ?_⟩
        all_goals
          intro hh
          simp only [List.mem_append] at *
          grind
      · exact .inr h5
    · right
      simp only [runChains, valueChains, h1, h2, Outcome.bind, and_self]

end Verif
