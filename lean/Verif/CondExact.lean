import Verif.CondLemmas2

/-
Exactly which combinations of conditions are read as they were built (C61).
-/

namespace Verif.Spec

/-- How weakly an operator binds. -/
def BOp.weakness : BOp → Nat
  | .and => 1
  | .xor => 2
  | .or => 3

/-- Words in which, between two matching parentheses and outside of those inside, no operator is followed by one that binds stronger.
The list has, for each parenthesis that is open, the weakness of the last operator seen (0: none yet). -/
def Orderly : List Nat → List Tok → Prop
  | _, [] => True
  | ms, .lp :: ts => Orderly (0 :: ms) ts
  | ms, .rp :: ts => Orderly ms.tail ts
  | ms, .and :: ts => ms.headD 0 ≤ BOp.and.weakness ∧ Orderly (BOp.and.weakness :: ms.tail) ts
  | ms, .xor :: ts => ms.headD 0 ≤ BOp.xor.weakness ∧ Orderly (BOp.xor.weakness :: ms.tail) ts
  | ms, .or :: ts => ms.headD 0 ≤ BOp.or.weakness ∧ Orderly (BOp.or.weakness :: ms.tail) ts
  | ms, .not :: ts => Orderly ms ts
  | ms, .atom _ :: ts => Orderly ms ts

end Verif.Spec

namespace Verif.CondExact
open Spec

/-! ### Formulas from conditions and operators in a row -/

theorem snocRec {α : Type} {P : List α → Prop} (nil : P []) (snoc : ∀ l a, P l → P (l ++ [a])) (l : List α) : P l := by
  have : ∀ l : List α, P l.reverse := fun l => by
    induction l with
    | nil => exact nil
    | cons a l ih => rw [List.reverse_cons]; exact snoc _ a ih
  rw [← List.reverse_reverse l]
  exact this _

abbrev Items := List (BOp × Formula)

/-- From left to right. -/
def lread : Formula → Items → Formula
  | f, [] => f
  | f, (o, g) :: is => lread (BOp.join o f g) is

def rstep (s : Option Formula × Option Formula × Formula) : BOp × Formula → Option Formula × Option Formula × Formula
  | (.and, g) => (s.1, s.2.1, .and s.2.2 g)
  | (.xor, g) => (s.1, some (joinO .xor s.2.1 s.2.2), g)
  | (.or, g) => (some (joinO .or s.1 (joinO .xor s.2.1 s.2.2)), none, g)

def rres (s : Option Formula × Option Formula × Formula) : Formula := joinO .or s.1 (joinO .xor s.2.1 s.2.2)

/-- By how strongly the operators bind. -/
def rread (f : Formula) (is : Items) : Formula := rres (is.foldl rstep (none, none, f))

theorem lread_snoc (f : Formula) (is : Items) (o : BOp) (g : Formula) : lread f (is ++ [(o, g)]) = BOp.join o (lread f is) g := by
  induction is generalizing f with
  | nil => rfl
  | cons i is ih => obtain ⟨o', g'⟩ := i; simp [lread, ih]

theorem foldl_snoc (f : Formula) (is : Items) (i : BOp × Formula) :
    (is ++ [i]).foldl rstep (none, none, f) = rstep (is.foldl rstep (none, none, f)) i := by simp

/-- What the state knows of the operators. -/
theorem state_or (f : Formula) (is : Items) : (is.foldl rstep (none, none, f)).1.isSome ↔ BOp.or ∈ is.map (·.1) := by
  induction is using snocRec with
  | nil => simp
  | snoc is i ih =>
    obtain ⟨o, g⟩ := i
    rw [foldl_snoc]
    cases o <;> simp_all [rstep]

theorem state_xor (f : Formula) (is : Items) (h : BOp.or ∉ is.map (·.1)) : (is.foldl rstep (none, none, f)).2.1.isSome ↔ BOp.xor ∈ is.map (·.1) := by
  induction is using snocRec with
  | nil => simp
  | snoc is i ih =>
    obtain ⟨o, g⟩ := i
    rw [foldl_snoc]
    cases o <;> simp_all [rstep]

/-- The last operator binds weakest. -/
theorem rread_snoc {f : Formula} {is : Items} {o : BOp} {g : Formula} (h : ∀ o' ∈ is.map (·.1), o'.weakness ≤ o.weakness) :
    rread f (is ++ [(o, g)]) = BOp.join o (rread f is) g := by
  rw [rread, foldl_snoc, rread]
  cases o with
  | or => simp [rstep, rres, joinO, BOp.join]
  | xor =>
    have h1 : BOp.or ∉ is.map (·.1) := fun hm => absurd (h _ hm) (by decide)
    have h2 : (is.foldl rstep (none, none, f)).1 = none := by
      rw [← Option.not_isSome_iff_eq_none, state_or]; exact h1
    simp [rstep, rres, h2, joinO, BOp.join]
  | and =>
    have h1 : BOp.or ∉ is.map (·.1) := fun hm => absurd (h _ hm) (by decide)
    have h1' : BOp.xor ∉ is.map (·.1) := fun hm => absurd (h _ hm) (by decide)
    have h2 : (is.foldl rstep (none, none, f)).1 = none := by
      rw [← Option.not_isSome_iff_eq_none, state_or]; exact h1
    have h3 : (is.foldl rstep (none, none, f)).2.1 = none := by
      rw [← Option.not_isSome_iff_eq_none, state_xor _ _ h1]; exact h1'
    simp [rstep, rres, h2, h3, joinO, BOp.join]

/-- It does not: the reading is made with another operator. -/
theorem rread_other {f : Formula} {is : Items} {o : BOp} {g : Formula} (h : ¬ ∀ o' ∈ is.map (·.1), o'.weakness ≤ o.weakness) :
    ∃ o' a b, o' ≠ o ∧ rread f (is ++ [(o, g)]) = BOp.join o' a b := by
  rw [rread, foldl_snoc]
  by_cases hor : BOp.or ∈ is.map (·.1)
  · have ho : o ≠ .or := by
      rintro rfl
      exact h fun o' _ => by cases o' <;> decide
    obtain ⟨a, ha⟩ := Option.isSome_iff_exists.mp ((state_or f is).mpr hor)
    cases o with
    | or => exact absurd rfl ho
    | and => exact ⟨.or, a, _, ho.symm, by simp only [rstep, rres, ha, joinO, BOp.join]; rfl⟩
    | xor => exact ⟨.or, a, _, ho.symm, by simp only [rstep, rres, ha, joinO, BOp.join]; rfl⟩
  · have hx : BOp.xor ∈ is.map (·.1) := by
      refine Classical.byContradiction fun hx => ?_
      refine h fun o' ho' => ?_
      cases o' with
      | and => cases o <;> decide
      | or => exact absurd ho' hor
      | xor => exact absurd ho' hx
    have ho : o = .and := by
      cases o with
      | and => rfl
      | or => exact absurd (fun o' _ => by cases o' <;> decide) h
      | xor =>
        refine absurd (fun o' ho' => ?_) h
        cases o' with
        | and => decide
        | or => exact absurd ho' hor
        | xor => decide
    subst ho
    obtain ⟨a, ha⟩ := Option.isSome_iff_exists.mp ((state_xor f is hor).mpr hx)
    have h2 : (is.foldl rstep (none, none, f)).1 = none := by
      rw [← Option.not_isSome_iff_eq_none, state_or]; exact hor
    exact ⟨.xor, a, _, by decide, by simp only [rstep, rres, ha, h2, joinO, BOp.join]; rfl⟩

/-- Words are read by how strongly the operators bind. -/
theorem rread_reads {is : List (BOp × List Tok × Formula)} (h : ∀ i ∈ is, ReadsNot i.2.1 i.2.2) {ts : List Tok} {f : Formula} (hf : ReadsNot ts f) :
    ReadsOr (ts ++ is.flatMap fun i => BOp.tok i.1 :: i.2.1) (rread f (is.map fun i => (i.1, i.2.2))) := by
  -- the state describes a part before the last OR, a part before the last XOR after it, and the rest
  suffices H : ∃ to tx ta : List Tok, ∃ s, (is.map fun i => (i.1, i.2.2)).foldl rstep (none, none, f) = s ∧
      (ts ++ is.flatMap fun i => BOp.tok i.1 :: i.2.1) = to ++ tx ++ ta ∧ ReadsAnd ta s.2.2 ∧
      (match s.2.1 with | none => tx = [] | some x => ∃ t, tx = t ++ [.xor] ∧ ReadsXor t x) ∧
      (match s.1 with | none => to = [] | some o => ∃ t, to = t ++ [.or] ∧ ReadsOr t o) by
    obtain ⟨to, tx, ta, ⟨o, x, a⟩, h1, h2, h3, h4, h5⟩ := H
    rw [rread, h1, h2, rres]
    have hx : ReadsXor (tx ++ ta) (joinO .xor x a) := by
      cases x with
      | none => simp only at h4; subst h4; exact .one h3
      | some x => obtain ⟨t, rfl, ht⟩ := h4; simpa [joinO] using ReadsXor.xor ht h3
    cases o with
    | none => simp only at h5; subst h5; exact .one hx
    | some o => obtain ⟨t, rfl, ht⟩ := h5; simpa [joinO] using ReadsOr.or ht hx
  induction is using snocRec with
  | nil => exact ⟨[], [], ts, _, rfl, by simp, .one hf, rfl, rfl⟩
  | snoc is i ih =>
    obtain ⟨to, tx, ta, s, h1, h2, h3, h4, h5⟩ := ih fun i hi => h i (by simp [hi])
    obtain ⟨b, us, g⟩ := i
    have hg : ReadsNot us g := h (b, us, g) (by simp)
    obtain ⟨o, x, a⟩ := s
    have hx : ReadsXor (tx ++ ta) (joinO .xor x a) := by
      cases x with
      | none => simp only at h4; subst h4; exact .one h3
      | some x => obtain ⟨t, rfl, ht⟩ := h4; simpa [joinO] using ReadsXor.xor ht h3
    have ho : ReadsOr (to ++ (tx ++ ta)) (joinO .or o (joinO .xor x a)) := by
      cases o with
      | none => simp only at h5; subst h5; exact .one hx
      | some o => obtain ⟨t, rfl, ht⟩ := h5; simpa [joinO] using ReadsOr.or ht hx
    simp only [List.map_append, List.map_cons, List.map_nil, List.foldl_append, List.foldl_cons, List.foldl_nil, h1, List.flatMap_append,
      List.flatMap_cons, List.flatMap_nil, List.append_nil]
    rw [← List.append_assoc, h2]
    cases b with
    | and => exact ⟨to, tx, ta ++ .and :: us, _, rfl, by simp [BOp.tok], .and h3 hg, h4, h5⟩
    | xor => exact ⟨to, tx ++ ta ++ [.xor], us, _, rfl, by simp [BOp.tok], .one hg, ⟨_, rfl, hx⟩, h5⟩
    | or => exact ⟨to ++ tx ++ ta ++ [.or], [], us, _, rfl, by simp [BOp.tok], .one hg, rfl, ⟨_, by simp, ho⟩⟩

/-! ### Formulas up to associativity -/

/-- Formulas in which what is joined by one operator is a list. -/
inductive Flat where
  | atom (v : Val)
  | not (f : Flat)
  | many (o : BOp) (fs : List Flat)

mutual
/-- Number of atomic conditions. -/
def Flat.size : Flat → Nat
  | .atom _ => 1
  | .not f => f.size
  | .many _ fs => Flat.sizes fs
def Flat.sizes : List Flat → Nat
  | [] => 0
  | f :: fs => f.size + Flat.sizes fs
end

/-- What is joined by an operator. -/
def Flat.parts (o : BOp) : Flat → List Flat
  | .many o' fs => if o' = o then fs else [.many o' fs]
  | f => [f]

def Flat.join (o : BOp) (f g : Flat) : Flat := .many o (f.parts o ++ g.parts o)

theorem Flat.parts_join (o : BOp) (f g : Flat) : (Flat.join o f g).parts o = f.parts o ++ g.parts o := by simp [Flat.join, Flat.parts]

theorem Flat.join_assoc (o : BOp) (f g h : Flat) : Flat.join o (Flat.join o f g) h = Flat.join o f (Flat.join o g h) := by
  rw [Flat.join, Flat.parts_join, Flat.join, Flat.parts_join, List.append_assoc]

/-- The connectives are nothing but associative. -/
def free : Logic := ⟨Flat, .atom, .not, .join .and, .join .or, .join .xor, Flat.join_assoc .and, Flat.join_assoc .or, Flat.join_assoc .xor⟩

def flat (f : Formula) : Flat := f.eval free

theorem flat_join (o : BOp) (f g : Formula) : flat (BOp.join o f g) = Flat.join o (flat f) (flat g) := by cases o <;> rfl

def leaves : Formula → Nat
  | .atom _ => 1
  | .not f => leaves f
  | .and f g => leaves f + leaves g
  | .or f g => leaves f + leaves g
  | .xor f g => leaves f + leaves g

theorem leaves_join (o : BOp) (f g : Formula) : leaves (BOp.join o f g) = leaves f + leaves g := by cases o <;> rfl

theorem leaves_pos (f : Formula) : 0 < leaves f := by
  induction f <;> simp_all [leaves] <;> omega

theorem sizes_append (as bs : List Flat) : Flat.sizes (as ++ bs) = Flat.sizes as + Flat.sizes bs := by
  induction as with
  | nil => simp [Flat.sizes]
  | cons a as ih => simp [Flat.sizes, ih]; omega

theorem sizes_parts (o : BOp) (f : Flat) : Flat.sizes (f.parts o) = f.size := by
  cases f with
  | atom v => simp [Flat.parts, Flat.sizes]
  | not f => simp [Flat.parts, Flat.sizes]
  | many o' fs =>
    simp only [Flat.parts]
    split <;> simp [Flat.sizes, Flat.size]

theorem flat_induct {P : Formula → Prop} (ha : ∀ v, P (.atom v)) (hn : ∀ f, P f → P (.not f)) (hj : ∀ o f g, P f → P g → P (BOp.join o f g)) (f : Formula) : P f := by
  induction f with
  | atom v => exact ha v
  | not f h => exact hn f h
  | and f g h1 h2 => exact hj .and f g h1 h2
  | or f g h1 h2 => exact hj .or f g h1 h2
  | xor f g h1 h2 => exact hj .xor f g h1 h2

theorem size_flat (f : Formula) : (flat f).size = leaves f := by
  induction f using flat_induct with
  | ha v => rfl
  | hn f h => exact h
  | hj o f g h1 h2 => rw [flat_join, leaves_join, Flat.join, Flat.size, sizes_append, sizes_parts, sizes_parts, h1, h2]

theorem parts_ne (o : BOp) (f : Formula) : (flat f).parts o ≠ [] := by
  intro h
  have := sizes_parts o (flat f)
  rw [h, size_flat] at this
  have h' := leaves_pos f
  simp [Flat.sizes] at this
  omega

/-- A formula is joined from at least two. -/
theorem many_two {f : Formula} {o : BOp} {fs : List Flat} (h : flat f = .many o fs) : 2 ≤ fs.length := by
  induction f using flat_induct with
  | ha v => cases h
  | hn f _ => cases h
  | hj o' f g _ _ =>
    rw [flat_join, Flat.join] at h
    injection h with h1 h2
    have := List.length_pos_iff.mpr (parts_ne o' f)
    have := List.length_pos_iff.mpr (parts_ne o' g)
    rw [← h2, List.length_append]
    omega

theorem parts_pos (o : BOp) (f : Formula) : ∀ y ∈ (flat f).parts o, 0 < y.size := by
  induction f using flat_induct with
  | ha v =>
    intro y hy
    simp only [flat, Formula.eval, free, Flat.parts, List.mem_singleton] at hy
    subst hy
    simp [Flat.size]
  | hn f h =>
    intro y hy
    have : (flat (.not f)).parts o = [flat (.not f)] := rfl
    rw [this, List.mem_singleton] at hy
    rw [hy, size_flat]
    exact leaves_pos _
  | hj o' f g h1 h2 =>
    intro y hy
    by_cases ho : o' = o
    · subst ho
      rw [flat_join, Flat.parts_join, List.mem_append] at hy
      exact hy.elim (h1 y) (h2 y)
    · have : (flat (BOp.join o' f g)).parts o = [flat (BOp.join o' f g)] := by rw [flat_join, Flat.join, Flat.parts, if_neg ho]
      rw [this, List.mem_singleton] at hy
      rw [hy, size_flat]
      exact leaves_pos _

theorem parts_inj {o : BOp} {f g : Formula} (h : (flat f).parts o = (flat g).parts o) : flat f = flat g := by
  have key : ∀ f g : Formula, ∀ fs, flat f = .many o fs → (∀ gs, flat g ≠ .many o gs) → (flat f).parts o ≠ (flat g).parts o := by
    intro f g fs hf hg h
    have h1 : (flat f).parts o = fs := by rw [hf, Flat.parts, if_pos rfl]
    have h2 : ((flat g).parts o).length = 1 := by
      cases hx : flat g with
      | atom v => rfl
      | not f => rfl
      | many o' gs =>
        have : o' ≠ o := by rintro rfl; exact hg gs hx
        rw [Flat.parts, if_neg this]; rfl
    have := many_two hf
    rw [← h, h1] at h2
    omega
  by_cases hf : ∃ fs, flat f = .many o fs
  · obtain ⟨fs, hf⟩ := hf
    by_cases hg : ∃ gs, flat g = .many o gs
    · obtain ⟨gs, hg⟩ := hg
      rw [hf, hg, Flat.parts, Flat.parts, if_pos rfl, if_pos rfl] at h
      rw [hf, hg, h]
    · exact absurd h (key f g fs hf fun gs hx => hg ⟨gs, hx⟩)
  · by_cases hg : ∃ gs, flat g = .many o gs
    · obtain ⟨gs, hg⟩ := hg
      exact absurd h.symm (key g f gs hg fun fs hx => hf ⟨fs, hx⟩)
    · have one : ∀ f : Formula, (¬ ∃ fs, flat f = .many o fs) → (flat f).parts o = [flat f] := by
        intro f hf
        cases hx : flat f with
        | atom v => rfl
        | not f => rfl
        | many o' gs =>
          have : o' ≠ o := by rintro rfl; exact hf ⟨gs, hx⟩
          rw [Flat.parts, if_neg this]
      rw [one f hf, one g hg] at h
      simpa using h

theorem split_sizes {as bs as' bs' : List Flat} (h : as ++ bs = as' ++ bs') (hs : Flat.sizes as = Flat.sizes as') (hp : ∀ y ∈ as, 0 < y.size)
    (hp' : ∀ y ∈ as', 0 < y.size) : as = as' ∧ bs = bs' := by
  induction as generalizing as' with
  | nil =>
    cases as' with
    | nil => exact ⟨rfl, h⟩
    | cons a as' =>
      have := hp' a List.mem_cons_self
      simp [Flat.sizes] at hs
      omega
  | cons a as ih =>
    cases as' with
    | nil =>
      have := hp a List.mem_cons_self
      simp [Flat.sizes] at hs
      omega
    | cons a' as' =>
      simp only [List.cons_append, List.cons.injEq] at h
      obtain ⟨rfl, h⟩ := h
      have := ih h (by simpa [Flat.sizes] using hs) (fun y hy => hp y (List.mem_cons_of_mem _ hy)) (fun y hy => hp' y (List.mem_cons_of_mem _ hy))
      exact ⟨by rw [this.1], this.2⟩

theorem join_inj {o : BOp} {f g f' g' : Formula} (h : flat (BOp.join o f g) = flat (BOp.join o f' g')) (hl : leaves f = leaves f') :
    flat f = flat f' ∧ flat g = flat g' := by
  rw [flat_join, flat_join, Flat.join, Flat.join] at h
  injection h with _ h
  obtain ⟨h1, h2⟩ := split_sizes h (by rw [sizes_parts, sizes_parts, size_flat, size_flat, hl]) (parts_pos o f) (parts_pos o f')
  exact ⟨parts_inj h1, parts_inj h2⟩

theorem join_op {o o' : BOp} {f g f' g' : Formula} (h : flat (BOp.join o f g) = flat (BOp.join o' f' g')) : o = o' := by
  rw [flat_join, flat_join, Flat.join, Flat.join] at h
  injection h

/-! ### Rows of conditions -/

theorem leaves_lread (f : Formula) (is : Items) : leaves (lread f is) = leaves f + (is.map fun i => leaves i.2).sum := by
  induction is generalizing f with
  | nil => simp [lread]
  | cons i is ih => obtain ⟨o, g⟩ := i; simp [lread, ih, leaves_join]; omega

theorem leaves_rres (s : Option Formula × Option Formula × Formula) (i : BOp × Formula) : leaves (rres (rstep s i)) = leaves (rres s) + leaves i.2 := by
  obtain ⟨o, x, a⟩ := s
  obtain ⟨b, g⟩ := i
  cases b <;> cases o <;> cases x <;> simp [rres, rstep, joinO, leaves] <;> omega

theorem leaves_rread (f : Formula) (is : Items) : leaves (rread f is) = leaves f + (is.map fun i => leaves i.2).sum := by
  induction is using snocRec with
  | nil => rfl
  | snoc is i ih =>
    rw [rread, foldl_snoc, leaves_rres]
    rw [rread] at ih
    rw [ih]
    simp
    omega

/-- The operators of a row bind weaker and weaker. -/
def Down (os : List BOp) : Prop := os.Pairwise fun a b => a.weakness ≤ b.weakness

theorem down_snoc {os : List BOp} {o : BOp} : Down (os ++ [o]) ↔ Down os ∧ ∀ o' ∈ os, o'.weakness ≤ o.weakness := by
  simp [Down, List.pairwise_append]

theorem down_reads {f : Formula} {is : Items} (h : Down (is.map (·.1))) : lread f is = rread f is := by
  induction is using snocRec with
  | nil => rfl
  | snoc is i ih =>
    obtain ⟨o, g⟩ := i
    rw [List.map_append, List.map_cons, List.map_nil, down_snoc] at h
    rw [lread_snoc, rread_snoc h.2, ih h.1]

/-- A row is read as it was made only if its operators bind weaker and weaker, and the conditions are read as they were made. -/
theorem row_exact {f f' : Formula} {ps : List (BOp × Formula × Formula)} (hf : leaves f = leaves f') (hp : ∀ p ∈ ps, leaves p.2.1 = leaves p.2.2)
    (h : flat (lread f (ps.map fun p => (p.1, p.2.1))) = flat (rread f' (ps.map fun p => (p.1, p.2.2)))) :
    Down (ps.map (·.1)) ∧ flat f = flat f' ∧ ∀ p ∈ ps, flat p.2.1 = flat p.2.2 := by
  induction ps using snocRec with
  | nil => exact ⟨by simp [Down], h, by simp⟩
  | snoc ps p ih =>
    obtain ⟨o, g, g'⟩ := p
    simp only [List.map_append, List.map_cons, List.map_nil] at h ⊢
    rw [lread_snoc] at h
    have hm : (ps.map fun p => (p.1, p.2.2)).map (·.1) = ps.map (·.1) := by simp
    by_cases hw : ∀ o' ∈ (ps.map fun p => (p.1, p.2.2)).map (·.1), o'.weakness ≤ o.weakness
    · rw [rread_snoc hw] at h
      have hl : leaves (lread f (ps.map fun p => (p.1, p.2.1))) = leaves (rread f' (ps.map fun p => (p.1, p.2.2))) := by
        rw [leaves_lread, leaves_rread, hf, List.map_map, List.map_map]
        congr 2
        exact List.map_congr_left fun p hp' => hp p (by simp [hp'])
      obtain ⟨h1, h2⟩ := join_inj h hl
      obtain ⟨i1, i2, i3⟩ := ih (fun p hp' => hp p (by simp [hp'])) h1
      rw [hm] at hw
      refine ⟨down_snoc.mpr ⟨i1, hw⟩, i2, fun p hp' => ?_⟩
      rcases List.mem_append.mp hp' with hp' | hp'
      · exact i3 p hp'
      · rw [List.mem_singleton] at hp'; subst hp'; exact h2
    · obtain ⟨o', a, b, ho, he⟩ := rread_other (f := f') (g := g') hw
      rw [he] at h
      exact absurd (join_op h).symm ho

/-! ### Conditions -/

def bop (op : Option Op) : BOp := (bopOf op).getD .and

section
variable (comb : Formula → Items → Formula)

mutual
/-- The formula of a condition, given how rows are read. -/
def form : Cond → Formula
  | .atom v => .atom v
  | .neg _ _ c => .not (form c)
  | .compound _ op conds _ _ _ _ _ =>
    match formL op conds with
    | [] => .atom (.mk' 0 [])
    | (_, f) :: is => comb f is
def formL (op : Option Op) : List Cond → Items
  | [] => []
  | c :: cs => (bop (c.actualOp op), form c) :: formL op cs
end

theorem formL_map (op : Option Op) (cs : List Cond) : formL comb op cs = cs.map fun c => (bop (c.actualOp op), form comb c) := by
  induction cs with
  | nil => rfl
  | cons c cs ih => simp [formL, ih]
end

mutual
/-- Nothing empty is negated. -/
def NegOk : Cond → Prop
  | .atom _ => True
  | .neg _ _ c => c.hasCondition = true ∧ NegOk c
  | .compound _ _ conds _ _ _ _ _ => NegOkL conds
def NegOkL : List Cond → Prop
  | [] => True
  | c :: cs => NegOk c ∧ NegOkL cs
end

mutual
/-- The rows in a condition. -/
def Tidy : Cond → Prop
  | .atom _ => True
  | .neg _ _ c => Tidy c
  | .compound _ op conds _ _ _ _ _ => Down ((conds.map fun c => bop (c.actualOp op)).tail) ∧ TidyL conds
def TidyL : List Cond → Prop
  | [] => True
  | c :: cs => Tidy c ∧ TidyL cs
end

theorem TidyL_iff (cs : List Cond) : TidyL cs ↔ ∀ c ∈ cs, Tidy c := by
  induction cs with
  | nil => simp [TidyL]
  | cons c cs ih => simp [TidyL, ih]

theorem NegOkL_iff (cs : List Cond) : NegOkL cs ↔ ∀ c ∈ cs, NegOk c := by
  induction cs with
  | nil => simp [NegOkL]
  | cons c cs ih => simp [NegOkL, ih]

theorem CondOkL_iff (cs : List Cond) : CondOkL cs ↔ ∀ c ∈ cs, CondOk c ∧ c.hasCondition = true := by
  induction cs with
  | nil => simp [CondOkL]
  | cons c cs ih => simp [CondOkL, ih, and_assoc]

theorem compound_some {k : Key} {op : Option Op} {conds : List Cond} {em : Bool} {err : Option Err} {nn hc : Bool} {cp : List Cond}
    (ho : CondOk (.compound k op conds em err nn hc cp)) (hh : (Cond.compound k op conds em err nn hc cp).hasCondition = true) :
    ∃ c cs, conds = c :: cs ∧ (bopOf op).isSome ∧ CondOkL conds := by
  simp only [CondOk] at ho
  cases conds with
  | nil => simp [Cond.hasCondition] at hh
  | cons c cs =>
    refine ⟨c, cs, rfl, ?_, ho.2.2.2⟩
    rcases ho.1 with h | h
    · exact absurd h.2.1 (by simp)
    · exact h.2

mutual
/-- A condition is read by how strongly its operators bind. -/
theorem form_reads (c : Cond) (ho : CondOk c) (hn : NegOk c) (hh : c.hasCondition = true) : ReadsNot (toks c) (form rread c) := by
  match c with
  | .atom v => rw [toks, form]; exact .prim (.atom v)
  | .neg k kn c =>
    simp only [NegOk] at hn
    have := form_reads c (by simpa [CondOk] using ho) hn.2 hn.1
    rw [toks, form]
    exact .not (.prim (.paren (readsAt_or (readsAt_one (b := .and) this))))
  | .compound k op [] em err nn hc cp => simp [Cond.hasCondition] at hh
  | .compound k op (c :: cs) em err nn hc cp =>
    obtain ⟨_, _, _, hop, hok⟩ := compound_some ho hh
    simp only [NegOk, NegOkL] at hn
    simp only [CondOkL] at hok
    have h1 := form_reads c hok.1 hn.1 hok.2.1
    obtain ⟨h2, h3⟩ := forms_read op hop cs hok.2.2 hn.2
    rw [toks, form, formL]
    simp only [toksL, if_true, List.nil_append, List.length_cons]
    rw [formL_map, h3]
    have := rread_reads (is := cs.map fun c => (bop (c.actualOp op), toks c, form rread c)) (by simpa using h2) h1
    simp only [List.map_map, List.flatMap_map] at this
    split
    · exact .prim (.paren this)
    · next hlen =>
      have : cs = [] := by cases cs with
        | nil => rfl
        | cons _ _ => simp at hlen
      subst this
      simpa [rread, rres, joinO] using h1
theorem forms_read (op : Option Op) (hop : (bopOf op).isSome) (cs : List Cond) (ho : CondOkL cs) (hn : NegOkL cs) :
    (∀ c ∈ cs, ReadsNot (toks c) (form rread c)) ∧ toksL op false cs = cs.flatMap fun c => BOp.tok (bop (c.actualOp op)) :: toks c := by
  match cs with
  | [] => exact ⟨by simp, rfl⟩
  | c :: cs =>
    simp only [CondOkL] at ho
    simp only [NegOkL] at hn
    have h1 := form_reads c ho.1 hn.1 ho.2.1
    obtain ⟨h2, h3⟩ := forms_read op hop cs ho.2.2 hn.2
    obtain ⟨b, hb⟩ := Option.isSome_iff_exists.mp (actualOp_ok hop ho.1 ho.2.1)
    refine ⟨by simpa using ⟨h1, h2⟩, ?_⟩
    rw [toksL, h3, opTok_of hb]
    simp [bop, hb]
end

theorem leaves_compound {op : Option Op} {cs : List Cond} (h : ∀ c ∈ cs, leaves (form lread c) = leaves (form rread c)) :
    ((formL lread op cs).map fun i => leaves i.2) = (formL rread op cs).map fun i => leaves i.2 := by
  rw [formL_map, formL_map, List.map_map, List.map_map]
  exact List.map_congr_left fun c hc => h c hc

mutual
theorem leaves_form (c : Cond) : leaves (form lread c) = leaves (form rread c) := by
  match c with
  | .atom v => rfl
  | .neg k kn c => simp only [form, leaves]; exact leaves_form c
  | .compound k op [] em err nn hc cp => rfl
  | .compound k op (c :: cs) em err nn hc cp =>
    simp only [form, formL]
    rw [leaves_lread, leaves_rread, leaves_form c, leaves_compound (leaves_forms cs)]
theorem leaves_forms (cs : List Cond) : ∀ c ∈ cs, leaves (form lread c) = leaves (form rread c) := by
  match cs with
  | [] => simp
  | c :: cs => simpa using ⟨leaves_form c, leaves_forms cs⟩
end

mutual
/-- A condition whose rows are in order is read as it was made. -/
theorem tidy_reads (c : Cond) (h : Tidy c) : form lread c = form rread c := by
  match c with
  | .atom v => rfl
  | .neg k kn c => simp only [form]; rw [tidy_reads c h]
  | .compound k op [] em err nn hc cp => rfl
  | .compound k op (c :: cs) em err nn hc cp =>
    simp only [Tidy, TidyL, List.map_cons, List.tail_cons] at h
    have h2 := tidys_read op cs h.2.2
    simp only [form, formL]
    rw [tidy_reads c h.2.1, h2, down_reads]
    rw [formL_map, List.map_map]
    exact h.1
theorem tidys_read (op : Option Op) (cs : List Cond) (h : TidyL cs) : formL lread op cs = formL rread op cs := by
  match cs with
  | [] => rfl
  | c :: cs =>
    simp only [TidyL] at h
    simp only [formL]
    rw [tidy_reads c h.1, tidys_read op cs h.2]
end

mutual
/-- And only those are. -/
theorem reads_tidy (c : Cond) (h : flat (form lread c) = flat (form rread c)) : Tidy c := by
  match c with
  | .atom v => trivial
  | .neg k kn c =>
    simp only [form, flat, Formula.eval] at h
    exact reads_tidy c (by injection h)
  | .compound k op [] em err nn hc cp => simp [Tidy, TidyL, Down]
  | .compound k op (c :: cs) em err nn hc cp =>
    simp only [form, formL] at h
    rw [formL_map, formL_map] at h
    have key := row_exact (ps := cs.map fun c => (bop (c.actualOp op), form lread c, form rread c)) (leaves_form c)
      (by simpa using leaves_forms cs) (by simpa [List.map_map, Function.comp_def] using h)
    simp only [Tidy, TidyL, List.map_cons, List.tail_cons]
    refine ⟨by simpa [Function.comp_def] using key.1, reads_tidy c key.2.1, reads_tidys cs ?_⟩
    simpa using key.2.2
theorem reads_tidys (cs : List Cond) (h : ∀ c ∈ cs, flat (form lread c) = flat (form rread c)) : TidyL cs := by
  match cs with
  | [] => trivial
  | c :: cs => exact ⟨reads_tidy c (h c (by simp)), reads_tidys cs fun c hc => h c (by simp [hc])⟩
end

/-! ### Words -/

theorem orderly_op (m : Nat) (ms : List Nat) (o : BOp) (ts : List Tok) :
    Orderly (m :: ms) (BOp.tok o :: ts) ↔ m ≤ o.weakness ∧ Orderly (o.weakness :: ms) ts := by
  cases o <;> simp [BOp.tok, Orderly]

mutual
theorem orderly_cond (c : Cond) (ho : CondOk c) (ms : List Nat) (ts : List Tok) : Orderly ms (toks c ++ ts) ↔ Tidy c ∧ Orderly ms ts := by
  match c with
  | .atom v => simp [toks, Orderly, Tidy]
  | .neg k kn c =>
    have := orderly_cond c (by simpa [CondOk] using ho) (0 :: ms) (.rp :: ts)
    simp only [toks, List.cons_append, List.nil_append, List.append_assoc, Orderly, Tidy]
    rw [this]
    simp [Orderly]
  | .compound k op [] em err nn hc cp => simp [toks, toksL, Tidy, TidyL, Down]
  | .compound k op (c :: cs) em err nn hc cp =>
    have ho' := ho
    simp only [CondOk, CondOkL] at ho'
    obtain ⟨ho1, -, -, ho2, ho3, ho4⟩ := ho'
    have hop : (bopOf op).isSome := by
      rcases ho1 with h | h
      · exact absurd h.2.1 (by simp)
      · exact h.2
    simp only [toks, toksL, if_true, List.nil_append, List.length_cons, Tidy, TidyL, List.map_cons, List.tail_cons]
    split
    · simp only [List.cons_append, List.nil_append, List.append_assoc, Orderly]
      rw [orderly_cond c ho2 _ _, orderly_conds op hop cs ho4 0 ms ts]
      simp only [Nat.zero_le, implies_true, true_and]
      constructor
      · rintro ⟨a, b, c, d⟩; exact ⟨⟨b, a, c⟩, d⟩
      · rintro ⟨⟨b, a, c⟩, d⟩; exact ⟨a, b, c, d⟩
    · next hlen =>
      have : cs = [] := by cases cs with
        | nil => rfl
        | cons _ _ => simp at hlen
      subst this
      simp only [toksL, List.append_nil]
      rw [orderly_cond c ho2 _ _]
      simp [Down, TidyL]
theorem orderly_conds (op : Option Op) (hop : (bopOf op).isSome) (cs : List Cond) (ho : CondOkL cs) (m : Nat) (ms : List Nat) (ts : List Tok) :
    Orderly (m :: ms) (toksL op false cs ++ .rp :: ts) ↔
      (∀ o ∈ cs.map fun c => bop (c.actualOp op), m ≤ o.weakness) ∧ Down (cs.map fun c => bop (c.actualOp op)) ∧ TidyL cs ∧ Orderly ms ts := by
  match cs with
  | [] => simp [toksL, Orderly, Down, TidyL]
  | c :: cs =>
    simp only [CondOkL] at ho
    obtain ⟨b, hb⟩ := Option.isSome_iff_exists.mp (actualOp_ok hop ho.1 ho.2.1)
    have hb' : bop (c.actualOp op) = b := by simp [bop, hb]
    simp only [toksL, Bool.false_eq_true, if_false, opTok_of hb, List.cons_append, List.nil_append, List.append_assoc]
    rw [orderly_op, orderly_cond c ho.1, orderly_conds op hop cs ho.2.2]
    simp only [List.map_cons, hb', Down, List.pairwise_cons, TidyL, List.mem_cons, forall_eq_or_imp]
    constructor
    · rintro ⟨h1, h2, h3, h4, h5, h6⟩
      exact ⟨⟨h1, fun o ho' => Nat.le_trans h1 (h3 o ho')⟩, ⟨h3, h4⟩, ⟨h2, h5⟩, h6⟩
    · rintro ⟨⟨h1, _⟩, ⟨h3, h4⟩, ⟨h2, h5⟩, h6⟩
      exact ⟨h1, h2, h3, h4, h5, h6⟩
end

/-! ### What was built is what was meant, if rows are read from left to right -/

theorem NegOkL_addConds {op : Option Op} {conds : List Cond} {ki : Key} {h : Op} {x : Cond} (hc : NegOkL conds) (hx : NegOk x) :
    NegOkL (Cond.addConds op conds ki h x) := by
  rw [NegOkL_iff] at hc ⊢
  have one : ∀ y, NegOk y → ∀ c ∈ conds ++ [y], NegOk c := by
    intro y hy c hm
    rcases List.mem_append.mp hm with hm | hm
    · exact hc c hm
    · rw [List.mem_singleton] at hm; subst hm; exact hy
  cases x with
  | atom v => exact one _ hx
  | neg k kn c => exact one _ hx
  | compound k op' conds' em err nn hcp cp =>
    simp only [Cond.addConds]
    split
    · exact hc
    · split
      · split
        · intro c hm
          rcases List.mem_append.mp hm with hm | hm
          · exact hc c hm
          · simp only [NegOk, NegOkL_iff] at hx
            exact hx c hm
        · exact one _ hx
      · exact one _ (by simp only [Cond.wrapped, NegOk, NegOkL]; exact ⟨hx, trivial⟩)

theorem NegOk_create (ks : Cond.Keys) {l r : Cond} (h : BOp) (hl : CondOk l) (hr : CondOk r) (nl : NegOk l) (nr : NegOk r) :
    NegOk (Cond.compoundCreate ks l h.op r) := by
  rw [compoundCreate_eq ks h hl hr, NegOk]
  exact NegOkL_addConds (NegOkL_addConds trivial nl) nr

theorem NegOk_combine (ks : Cond.Keys) {l r : Cond} (h : BOp) (hl : CondOk l) (hr : CondOk r) (nl : NegOk l) (nr : NegOk r) :
    NegOk (Cond.combine ks l h.op r) := by
  have hc := NegOk_create ks h hl hr nl nr
  cases l with
  | atom v => simpa [Cond.combine, Cond.isCompound] using hc
  | neg k kn c => simpa [Cond.combine, Cond.isCompound] using hc
  | compound k op conds em err nn hcp cp =>
    rw [show Cond.combine ks (.compound k op conds em err nn hcp cp) h.op r = Cond.add ks (.compound k op conds em err nn hcp cp) h.op r from rfl, Cond.add]
    split
    · simp only [Cond.wrapped, NegOk]; exact NegOkL_addConds trivial nr
    · split
      · simp only [NegOk] at nl ⊢; exact NegOkL_addConds nl nr
      · exact hc

theorem build_negOk (p : Calls) (hu : p.Usable) : NegOk p.build := by
  induction p with
  | atom v => trivial
  | empty => simp [Calls.build, Cond.empty, NegOk, NegOkL]
  | bin ks h p q ihp ihq =>
    simp only [Calls.Usable] at hu
    exact NegOk_combine ks h (build_ok p hu.1) (build_ok q hu.2) (ihp hu.1) (ihq hu.2)
  | pattern ks h p v ih =>
    simp only [Calls.Usable] at hu
    exact NegOk_create ks h (build_ok p hu.1) (by simpa [CondOk] using hu.2) (ih hu.1) trivial
  | not k kn p ih =>
    simp only [Calls.Usable] at hu
    simp only [Calls.build, Cond.not, NegOk]
    exact ⟨by rw [build_hasCondition p hu.1, hu.2]; rfl, ih hu.1⟩

section
variable (L : Logic)

/-- The value of a row. -/
def rowVal : Items → Option L.D
  | [] => none
  | (_, f) :: is => some ((lread f is).eval L)

theorem rowVal_snoc (is : Items) (o : BOp) (g : Formula) : rowVal L (is ++ [(o, g)]) = Calls.neutral (o.apply L) (rowVal L is) (some (g.eval L)) := by
  cases is with
  | nil => rfl
  | cons i is =>
    obtain ⟨o', f⟩ := i
    simp [rowVal, lread_snoc, eval_join, Calls.neutral]

theorem rowVal_append (is js : Items) (o : BOp) (h : ∀ j ∈ js, j.1 = o) :
    rowVal L (is ++ js) = Calls.neutral (o.apply L) (rowVal L is) (rowVal L js) := by
  induction js using snocRec with
  | nil => simp [rowVal, neutral_none]
  | snoc js j ih =>
    obtain ⟨o', g⟩ := j
    have : o' = o := h (o', g) (by simp)
    subst this
    rw [← List.append_assoc, rowVal_snoc, ih fun j hj => h j (by simp [hj]), rowVal_snoc, neutral_assoc]

/-- The value of a condition. -/
def condVal (c : Cond) : Option L.D := if c.hasCondition then some ((form lread c).eval L) else none

theorem condVal_compound {k : Key} {op : Option Op} {conds : List Cond} {em : Bool} {err : Option Err} {nn hc : Bool} {cp : List Cond}
    (ho : CondOk (.compound k op conds em err nn hc cp)) : condVal L (.compound k op conds em err nn hc cp) = rowVal L (formL lread op conds) := by
  cases conds with
  | nil => simp [condVal, Cond.hasCondition, formL, rowVal]
  | cons c cs =>
    simp only [CondOk] at ho
    have : em = false := by
      rcases ho.1 with h | h
      · exact absurd h.2.1 (by simp)
      · exact h.1
    simp [condVal, Cond.hasCondition, this, form, formL, rowVal]

theorem addConds_val {op : Option Op} {conds : List Cond} (ki : Key) (h : BOp) {x : Cond} (hx : CondOk x)
    (hc : x.isCompound = true ∨ op = some h.op) :
    rowVal L (formL lread op (Cond.addConds op conds ki h.op x)) = Calls.neutral (h.apply L) (rowVal L (formL lread op conds)) (condVal L x) := by
  have one : ∀ y : Cond, bop (y.actualOp op) = h → rowVal L (formL lread op (conds ++ [y])) =
      Calls.neutral (h.apply L) (rowVal L (formL lread op conds)) (some ((form lread y).eval L)) := by
    intro y hy
    rw [formL_map, List.map_append, ← formL_map, List.map_cons, List.map_nil, hy, rowVal_snoc]
  have hbop : bop (some h.op) = h := by simp [bop, bopOf_op]
  cases x with
  | atom v =>
    have hop : op = some h.op := by simpa [Cond.isCompound] using hc
    have := one (.atom v) (by simp [Cond.actualOp, hop, hbop])
    simpa [Cond.addConds, condVal, Cond.hasCondition] using this
  | neg k kn c =>
    have hop : op = some h.op := by simpa [Cond.isCompound] using hc
    have := one (.neg k kn c) (by simp [Cond.actualOp, hop, hbop])
    simpa [Cond.addConds, condVal, Cond.hasCondition] using this
  | compound k op' conds' em err nn hcp cp =>
    by_cases hh : (Cond.compound k op' conds' em err nn hcp cp).hasCondition = true
    · have hv : condVal L (.compound k op' conds' em err nn hcp cp) = some ((form lread (.compound k op' conds' em err nn hcp cp)).eval L) := by
        rw [condVal, if_pos hh]
      by_cases h2 : op = some h.op ∧ op' = some h.op
      · by_cases hf : Cond.canBeFlattenedWith h.op conds' = true
        · have key : Cond.addConds op conds ki h.op (.compound k op' conds' em err nn hcp cp) = conds ++ conds' := by
            rw [Cond.addConds, if_neg (by simp [hh]), if_pos h2, if_pos hf]
          rw [key, condVal_compound L hx, formL_map, List.map_append, ← formL_map, ← formL_map, h2.1, h2.2]
          refine rowVal_append L _ _ h fun j hj => ?_
          rw [formL_map, List.mem_map] at hj
          obtain ⟨c, hm, rfl⟩ := hj
          have := List.all_eq_true.mp hf c hm
          cases c with
          | atom v => exact hbop
          | neg k kn c => exact hbop
          | compound k o _ _ _ _ _ _ =>
            have : o = some h.op := by simpa using this
            simp [Cond.actualOp, this, hbop]
        · have key : Cond.addConds op conds ki h.op (.compound k op' conds' em err nn hcp cp) =
              conds ++ [.compound k op' conds' em err nn hcp cp] := by
            rw [Cond.addConds, if_neg (by simp [hh]), if_pos h2, if_neg hf]
          rw [key, hv]
          exact one _ (by simp [Cond.actualOp, h2.2, hbop])
      · have key : Cond.addConds op conds ki h.op (.compound k op' conds' em err nn hcp cp) =
            conds ++ [Cond.wrapped ki h.op [.compound k op' conds' em err nn hcp cp]] := by
          rw [Cond.addConds, if_neg (by simp [hh]), if_neg h2]
        rw [key, hv, one _ (by simp [Cond.wrapped, Cond.actualOp, hbop])]
        simp [Cond.wrapped, form, formL, lread]
    · have hh' : (Cond.compound k op' conds' em err nn hcp cp).hasCondition = false := by simpa using hh
      have key : Cond.addConds op conds ki h.op (.compound k op' conds' em err nn hcp cp) = conds := by
        rw [Cond.addConds, if_pos (by simp [hh'])]
      rw [key, condVal, if_neg hh, neutral_none]

theorem create_val (ks : Cond.Keys) {l r : Cond} (h : BOp) (hl : CondOk l) (hr : CondOk r) :
    condVal L (Cond.compoundCreate ks l h.op r) = Calls.neutral (h.apply L) (condVal L l) (condVal L r) := by
  have hok := compoundCreate_ok ks h hl hr
  rw [compoundCreate_eq ks h hl hr] at hok ⊢
  rw [condVal_compound L hok, addConds_val L _ h hr (.inr rfl), addConds_val L _ h hl (.inr rfl)]
  simp [formL, rowVal, none_neutral]

theorem combine_val (ks : Cond.Keys) {l r : Cond} (h : BOp) (hl : CondOk l) (hr : CondOk r) :
    condVal L (Cond.combine ks l h.op r) = Calls.neutral (h.apply L) (condVal L l) (condVal L r) := by
  have hc := create_val L ks h hl hr
  have hok := combine_ok ks h hl hr
  cases l with
  | atom v => simpa [Cond.combine, Cond.isCompound] using hc
  | neg k kn c => simpa [Cond.combine, Cond.isCompound] using hc
  | compound k op conds em err nn hcp cp =>
    rw [show Cond.combine ks (.compound k op conds em err nn hcp cp) h.op r = Cond.add ks (.compound k op conds em err nn hcp cp) h.op r from rfl, Cond.add] at hok ⊢
    by_cases hem : em = true
    · rw [if_pos hem] at hok ⊢
      have hconds : conds = [] := by
        simp only [CondOk] at hl
        rcases hl.1 with h1 | h1
        · exact h1.2.1
        · simp [hem] at h1
      rw [Cond.wrapped] at hok ⊢
      rw [condVal_compound L hok, addConds_val L _ h hr (.inr rfl), condVal_compound L hl, hconds]
      simp [formL, rowVal, none_neutral]
    · rw [if_neg hem] at hok ⊢
      by_cases hx : r.isCompound = true ∨ op = some h.op
      · rw [if_pos hx] at hok ⊢
        rw [condVal_compound L hok, addConds_val L _ h hr hx, condVal_compound L hl]
      · rw [if_neg hx]
        exact hc

theorem build_val (p : Calls) (hu : p.Usable) : condVal L p.build = p.meaning L := by
  induction p with
  | atom v => simp [Calls.build, condVal, Cond.hasCondition, form, Formula.eval, Calls.meaning]
  | empty => simp [Calls.build, Cond.empty, condVal, Cond.hasCondition, Calls.meaning]
  | bin ks h p q ihp ihq =>
    simp only [Calls.Usable] at hu
    rw [Calls.build, combine_val L ks h (build_ok p hu.1) (build_ok q hu.2), ihp hu.1, ihq hu.2, Calls.meaning]
  | pattern ks h p v ih =>
    simp only [Calls.Usable] at hu
    rw [Calls.build, Cond.combinePattern, create_val L ks h (build_ok p hu.1) (by simpa [CondOk] using hu.2), ih hu.1, Calls.meaning]
    simp [condVal, Cond.hasCondition, form, Formula.eval]
  | not k kn p ih =>
    simp only [Calls.Usable] at hu
    have := ih hu.1
    rw [condVal, if_pos (by rw [build_hasCondition p hu.1, hu.2]; rfl)] at this
    simp [Calls.build, Cond.not, condVal, Cond.hasCondition, form, Formula.eval, Calls.meaning, ← this]

end

end Verif.CondExact
