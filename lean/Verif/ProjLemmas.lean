import Verif.ExprLemmas

set_option linter.unusedSimpArgs false

namespace Verif
open Spec

section
variable (u : Unicode)

/-- The entry an item becomes. -/
def itemVal (k kl : Key) : Item → Val
  | .prop s => propertyLookup u kl s
  | .all => propertyLookup u kl c!"*"
  | .var k' n => symbolicName u k' n
  | .property _ kl' _ n => { key := 0, visit := (propertyLookup u kl' n).visit, notNil := false }
  | .aliased _ d a => { key := k, visit := [nd k (escapeIfNecessary u a ++ c!": ") [] false d.visit], notNil := false }
  | .pair key v => keyValueMapEntry u k key v
  | .named k' n => symbolicName u k' n

def itemVals (ks : Nat → Key) (i : Nat) : List Item → List Val
  | [] => []
  | x :: is => itemVal u (ks (2 * i)) (ks (2 * i + 1)) x :: itemVals ks (i + 1) is

/-- The term of an item. -/
def itemTm (k kl : Key) : Item → Tm
  | .prop s => .node kl (lookupText u s) [] false []
  | .all => .node kl (lookupText u c!"*") [] false []
  | .var k' n => .node k' (escapeIfNecessary u n) [] false []
  | .property _ kl' _ n => .node kl' (lookupText u n) [] false []
  | .aliased _ d a => .node k (escapeIfNecessary u a ++ c!": ") [] false [.hole d.visit]
  | .pair key v => .node k (escapeIfNecessary u key ++ c!": ") [] false [.hole v.visit]
  | .named k' n => .node k' (escapeIfNecessary u n) [] false []

theorem itemVal_facts (k kl : Key) (x : Item) (h : x.Ok) :
    (itemVal u k kl x).err = none ∧ (itemVal u k kl x).visit = (itemTm u k kl x).trees ∧ (itemTm u k kl x).Ok ∧
    Spec.One (itemTm u k kl x).trees ∧ (∀ k' ∈ (itemTm u k kl x).keys, k' = k ∨ k' = kl ∨ k' ∈ x.keys) ∧
    ∀ e, layout e (itemTm u k kl x).parts = layout e (x.parts u) := by
  cases x with
  | prop s =>
    simp [itemVal, itemTm, propertyLookup, leaf, Tm.trees, Tm.treesL, Tm.Ok, Tm.OkL, Spec.One, nd, Tm.keys, Tm.keysL, Tm.parts, Tm.partsL, layout, Item.parts, lookupText]
  | all =>
    simp [itemVal, itemTm, propertyLookup, leaf, Tm.trees, Tm.treesL, Tm.Ok, Tm.OkL, Spec.One, nd, Tm.keys, Tm.keysL, Tm.parts, Tm.partsL, layout, Item.parts, lookupText]
  | var k' n =>
    simp only [Item.Ok] at h
    simp [itemVal, itemTm, symbolicName, h, Val.mk', leaf, Tm.trees, Tm.treesL, Tm.Ok, Tm.OkL, Spec.One, nd, Tm.keys, Tm.keysL, Tm.parts, Tm.partsL, layout, Item.parts, Item.keys]
  | property _ kl' c n =>
    simp [itemVal, itemTm, propertyLookup, leaf, Tm.trees, Tm.treesL, Tm.Ok, Tm.OkL, Spec.One, nd, Tm.keys, Tm.keysL, Tm.parts, Tm.partsL, layout, Item.parts, lookupText, Item.keys]
  | aliased _ d a =>
    simp [itemVal, itemTm, Tm.trees, Tm.treesL, Tm.Ok, Tm.OkL, Spec.One, nd, Tm.keys, Tm.keysL, Tm.parts, Tm.partsL, layout, Item.parts, sepText]
  | pair key v =>
    have := h.2.1.1
    simp [itemVal, itemTm, keyValueMapEntry, this, Tm.trees, Tm.treesL, Tm.Ok, Tm.OkL, Spec.One, nd, Tm.keys, Tm.keysL, Tm.parts, Tm.partsL, layout, Item.parts, sepText]
  | named k' n =>
    simp only [Item.Ok] at h
    simp [itemVal, itemTm, symbolicName, h, Val.mk', leaf, Tm.trees, Tm.treesL, Tm.Ok, Tm.OkL, Spec.One, nd, Tm.keys, Tm.keysL, Tm.parts, Tm.partsL, layout, Item.parts, Item.keys]

/-- The contents an item consists of, as seen by the loop. -/
theorem args_shape (x : Item) : ∃ c cs, (x.args u).map contentAt = c :: cs ∧ (x.isString = true → ∃ s, c = .str s) ∧
    (x.isString = false → ∃ v, c = .expr v ∧ cs = []) := by
  cases x <;> simp [Item.args, contentAt, Item.isString]

/-- One round of the loop. -/
theorem contentLoop_step' (ks : Nat → Key) (known : List Str) (i : Nat) (x : Item) (rest : List Content) (hx : x.Ok)
    (hs : ∀ s, x = .prop s → ∀ v r, rest.map contentAt ≠ .expr v :: r)
    (hk : ∀ key, x.pairKey = some key → key ∉ known) :
    contentLoop u ks known i ((x.args u ++ rest).map contentAt) =
      (contentLoop u ks (x.pairKey.toList ++ known) (i + 1) (rest.map contentAt)).map
        fun r => r.map (itemVal u (ks (2 * i)) (ks (2 * i + 1)) x :: ·) := by
  have herr := (itemVal_facts u (ks (2 * i)) (ks (2 * i + 1)) x hx).1
  cases x with
  | prop s =>
    have key : ∀ rest : List Content, (∀ v r, rest ≠ .expr v :: r) → contentLoop u ks known i (.str s :: rest) =
        addEntry u (ks (2 * i)) (ks (2 * i + 1)) known [] (propertyLookup u (ks (2 * i + 1)) s) (contentLoop u ks known (i + 1) rest) := by
      intro rest hr
      cases rest with
      | nil => rfl
      | cons c rest => cases c with
        | expr v => exact absurd rfl (hr v rest)
        | _ => rfl
    simp only [Item.args, List.map_append, List.map_cons, List.map_nil, contentAt, List.cons_append, List.nil_append]
    rw [key]
    · simp only [addEntry, projectionEntry, propertyLookup, Outcome.bind, Item.pairKey, Option.toList, List.nil_append, itemVal]
      simp
    · exact hs s rfl
  | all =>
    simp only [Item.args, List.map_append, List.map_cons, List.map_nil, contentAt, List.cons_append, List.nil_append,
      contentLoop, addEntry, projectionEntry, asterisk, Val.mk', Outcome.bind, Item.pairKey, Option.toList, itemVal]
    simp [propertyLookup]
  | var k' n =>
    simp only [Item.Ok] at hx
    simp only [Item.args, List.map_append, List.map_cons, List.map_nil, contentAt, List.cons_append, List.nil_append,
      contentLoop, addEntry, projectionEntry, symbolicName, if_neg hx, Val.mk', Outcome.bind, Item.pairKey, Option.toList, itemVal]
    simp
  | property k' kl' c n =>
    simp only [Item.Ok] at hx
    simp only [Item.args, List.map_append, List.map_cons, List.map_nil, contentAt, List.cons_append, List.nil_append,
      contentLoop, addEntry, projectionEntry, propertyCreate1, hx, Val.mk', Outcome.bind, Item.pairKey, Option.toList, itemVal]
    simp
  | aliased k' d a =>
    obtain ⟨hd, hn⟩ := hx
    simp only [Item.args, List.map_append, List.map_cons, List.map_nil, contentAt, List.cons_append, List.nil_append,
      contentLoop, addEntry, projectionEntry, aliasedCreate, hd.1, hd.2, if_neg hn, Val.mk', Outcome.bind, Item.pairKey, Option.toList, itemVal]
    simp
  | pair key v =>
    obtain ⟨hn, hv, ht⟩ := hx
    have hk' := hk key rfl
    simp only [Item.args, List.map_append, List.map_cons, List.map_nil, contentAt, List.cons_append, List.nil_append,
      contentLoop, addEntry, Item.pairKey, Option.toList, if_neg hn]
    have hp : projectionEntry u (ks (2 * i)) (ks (2 * i + 1)) known key v =
        .ok (.ok (keyValueMapEntry u (ks (2 * i)) key v)) := by
      have : (match v.tag with | .asterisk => propertyLookup u (ks (2 * i + 1)) c!"*" | _ => v) = v := by
        split
        · rename_i h; exact absurd h ht
        · rfl
      simp only [projectionEntry, this]
      rw [if_pos hn, if_neg hk']
    rw [hp]
    simp only [Outcome.bind]
    simp only [itemVal] at herr ⊢
    rw [herr]
  | named k' n =>
    simp only [Item.Ok] at hx
    simp only [Item.args, List.map_append, List.map_cons, List.map_nil, contentAt, List.cons_append, List.nil_append,
      contentLoop, addEntry, projectionEntry, symbolicName, if_neg hx, Val.mk', Outcome.bind, Item.pairKey, Option.toList, itemVal]
    simp

theorem contentLoop_step (ks : Nat → Key) (known : List Str) (i : Nat) (x : Item) (is : List Item) (hx : x.Ok) (hs : Separate (x :: is))
    (hk : ∀ key, x.pairKey = some key → key ∉ known) :
    contentLoop u ks known i (((x :: is).flatMap (Item.args u)).map contentAt) =
      (contentLoop u ks (x.pairKey.toList ++ known) (i + 1) ((is.flatMap (Item.args u)).map contentAt)).map
        fun r => r.map (itemVal u (ks (2 * i)) (ks (2 * i + 1)) x :: ·) := by
  rw [List.flatMap_cons]
  refine contentLoop_step' u ks known i x _ hx ?_ hk
  intro s hxs v r he
  subst hxs
  cases is with
  | nil => simp at he
  | cons y is =>
    simp only [Separate] at hs
    obtain ⟨c, cs, h1, h2, -⟩ := args_shape u y
    obtain ⟨s', rfl⟩ := h2 hs.1
    simp [List.flatMap_cons, List.map_append, h1] at he

theorem Separate_tail {x : Item} {is : List Item} (h : Separate (x :: is)) : Separate is := by
  cases x with
  | prop s => cases is with
    | nil => trivial
    | cons y is => exact h.2
  | _ => exact h

theorem contentLoop_ok (ks : Nat → Key) (known : List Str) (i : Nat) (is : List Item) (hx : ∀ x ∈ is, x.Ok) (hs : Separate is)
    (hn : (is.filterMap Item.pairKey).Nodup) (hk : ∀ key ∈ is.filterMap Item.pairKey, key ∉ known) :
    contentLoop u ks known i ((is.flatMap (Item.args u)).map contentAt) = .ok (.ok (itemVals u ks i is)) := by
  induction is generalizing known i with
  | nil => simp [contentLoop, itemVals]
  | cons x is ih =>
    rw [contentLoop_step u ks known i x is (hx x (by simp)) hs (by
      intro key hkey
      exact hk key (by simp [List.filterMap_cons, hkey]))]
    rw [ih (x.pairKey.toList ++ known) (i + 1) (fun y hy => hx y (by simp [hy])) (Separate_tail hs)]
    · simp [Outcome.map, Except.map, itemVals]
    · cases hp : x.pairKey with
      | none => simpa [List.filterMap_cons, hp] using hn
      | some key => simp only [List.filterMap_cons, hp, List.nodup_cons] at hn; exact hn.2
    · intro key hkey
      cases hp : x.pairKey with
      | none => simp only [Option.toList, List.nil_append]; exact hk key (by simp only [List.filterMap_cons, hp]; exact hkey)
      | some key' =>
        simp only [List.filterMap_cons, hp, List.nodup_cons] at hn
        simp only [Option.toList, List.cons_append, List.nil_append, List.mem_cons, not_or]
        exact ⟨fun he => hn.1 (he ▸ hkey), hk key (by simp only [List.filterMap_cons, hp]; exact List.mem_cons_of_mem _ hkey)⟩

/-- A key that is known already makes the loop fail. -/
theorem contentLoop_known (ks : Nat → Key) (known : List Str) (i : Nat) (is : List Item) (hx : ∀ x ∈ is, x.Ok) (hs : Separate is)
    (hk : ∃ key ∈ is.filterMap Item.pairKey, key ∈ known) :
    ∃ er, contentLoop u ks known i ((is.flatMap (Item.args u)).map contentAt) = .ok (.error er) := by
  induction is generalizing known i with
  | nil => simp at hk
  | cons x is ih =>
    by_cases hp : ∃ key, x.pairKey = some key ∧ key ∈ known
    · obtain ⟨key, h1, h2⟩ := hp
      cases x with
      | pair key' v =>
        simp only [Item.pairKey, Option.some.injEq] at h1
        subst h1
        obtain ⟨hn, hv, ht⟩ := hx _ (List.mem_cons_self ..)
        refine ⟨.site "map_projection.go" 146, ?_⟩
        simp only [List.flatMap_cons, Item.args, List.map_append, List.map_cons, List.map_nil, contentAt, List.cons_append, List.nil_append,
          contentLoop, addEntry, projectionEntry, if_pos hn, if_pos h2, Outcome.bind]
      | _ => simp [Item.pairKey] at h1
    · have hpk : ∀ key, x.pairKey = some key → key ∉ known := fun key h1 h2 => hp ⟨key, h1, h2⟩
      rw [contentLoop_step u ks known i x is (hx x (by simp)) hs hpk]
      obtain ⟨key, h1, h2⟩ := hk
      have : key ∈ is.filterMap Item.pairKey := by
        cases hq : x.pairKey with
        | none => simpa only [List.filterMap_cons, hq] using h1
        | some key' =>
          simp only [List.filterMap_cons, hq, List.mem_cons] at h1
          rcases h1 with rfl | h1
          · exact absurd h2 (hpk _ hq)
          · exact h1
      obtain ⟨er, her⟩ := ih (x.pairKey.toList ++ known) (i + 1) (fun y hy => hx y (by simp [hy])) (Separate_tail hs)
        ⟨key, this, List.mem_append_right _ h2⟩
      exact ⟨er, by rw [her]; rfl⟩

theorem contentLoop_duplicate (ks : Nat → Key) (known : List Str) (i : Nat) (is : List Item) (hx : ∀ x ∈ is, x.Ok) (hs : Separate is)
    (hn : ¬ (is.filterMap Item.pairKey).Nodup) :
    ∃ er, contentLoop u ks known i ((is.flatMap (Item.args u)).map contentAt) = .ok (.error er) := by
  induction is generalizing known i with
  | nil => simp at hn
  | cons x is ih =>
    by_cases hp : ∃ key, x.pairKey = some key ∧ key ∈ known
    · obtain ⟨key, h1, h2⟩ := hp
      exact contentLoop_known u ks known i (x :: is) hx hs ⟨key, by simp [List.filterMap_cons, h1], h2⟩
    · rw [contentLoop_step u ks known i x is (hx x (by simp)) hs fun key h1 h2 => hp ⟨key, h1, h2⟩]
      have hx' := fun y hy => hx y (List.mem_cons_of_mem _ hy)
      cases hq : x.pairKey with
      | none =>
        obtain ⟨er, her⟩ := ih (Option.none.toList ++ known) (i + 1) hx' (Separate_tail hs) (by simpa only [List.filterMap_cons, hq] using hn)
        exact ⟨er, by rw [her]; rfl⟩
      | some key =>
        simp only [List.filterMap_cons, hq, List.nodup_cons] at hn
        by_cases hm : key ∈ is.filterMap Item.pairKey
        · obtain ⟨er, her⟩ := contentLoop_known u ks ((some key).toList ++ known) (i + 1) is hx' (Separate_tail hs) ⟨key, hm, by simp⟩
          exact ⟨er, by rw [her]; rfl⟩
        · obtain ⟨er, her⟩ := ih ((some key).toList ++ known) (i + 1) hx' (Separate_tail hs) fun h => hn ⟨hm, h⟩
          exact ⟨er, by rw [her]; rfl⟩

def itemTms (ks : Nat → Key) (i : Nat) : List Item → List Tm
  | [] => []
  | x :: is => itemTm u (ks (2 * i)) (ks (2 * i + 1)) x :: itemTms ks (i + 1) is

theorem itemTms_facts (ks : Nat → Key) (i : Nat) (is : List Item) (hx : ∀ x ∈ is, x.Ok) :
    visitsOf (itemVals u ks i is) = Tm.treesL (itemTms u ks i is) ∧ Tm.OkL true (itemTms u ks i is) ∧
    (∀ k ∈ Tm.keysL (itemTms u ks i is), (∃ j, k = ks j) ∨ k ∈ is.flatMap Item.keys) ∧ (∀ v ∈ itemVals u ks i is, v.err = none) ∧
    SameParts ((itemTms u ks i is).map Tm.parts) (is.map (Item.parts u)) := by
  induction is generalizing i with
  | nil => simpa [itemVals, itemTms, visitsOf, Tm.treesL, Tm.OkL, Tm.keysL] using SameParts.nil
  | cons x is ih =>
    obtain ⟨h1, h2, h3, h4, h5⟩ := ih (i + 1) fun y hy => hx y (by simp [hy])
    obtain ⟨g1, g2, g3, g4, g5, g6⟩ := itemVal_facts u (ks (2 * i)) (ks (2 * i + 1)) x (hx x (by simp))
    refine ⟨?_, ?_, ?_, ?_, .cons g6 h5⟩
    · simp only [visitsOf] at h1
      simp [itemVals, itemTms, visitsOf, Tm.treesL, h1, g2]
    · simp [itemTms, Tm.OkL, h2, g3, g4]
    · intro k hk
      simp only [itemTms, Tm.keysL, List.mem_append] at hk
      rcases hk with h | h
      · rcases g5 k h with h | h | h
        · exact Or.inl ⟨_, h⟩
        · exact Or.inl ⟨_, h⟩
        · exact Or.inr (by simp [h])
      · rcases h3 k h with h | h
        · exact Or.inl h
        · exact Or.inr (by simp only [List.flatMap_cons, List.mem_append]; exact Or.inr h)
    · intro v hv
      simp only [itemVals, List.mem_cons] at hv
      rcases hv with rfl | h
      · exact g1
      · exact h4 v h

/-! ### Several calls -/

omit u in
theorem outcome_bind_ok {α β : Type} (a : α) (f : α → Outcome β) : (Outcome.ok a).bind f = f a := rfl

/-- The entries of several groups. -/
def groupVals (gs : List Group) : List Val := gs.flatMap fun g => itemVals u g.ks 0 g.items
def groupTms (gs : List Group) : List Tm := gs.flatMap fun g => itemTms u g.ks 0 g.items

theorem SameParts.append {ps qs ps' qs' : List (List Part)} (h : SameParts ps qs) (h' : SameParts ps' qs') :
    SameParts (ps ++ ps') (qs ++ qs') := by
  induction h with
  | nil => exact h'
  | cons h _ ih => exact .cons h ih

theorem groupTms_facts (gs : List Group) (hg : ∀ g ∈ gs, g.Ok) :
    visitsOf (groupVals u gs) = Tm.treesL (groupTms u gs) ∧ Tm.OkL true (groupTms u gs) ∧
    (∀ k ∈ Tm.keysL (groupTms u gs), ∃ g ∈ gs, (∃ j, k = g.ks j) ∨ k ∈ g.items.flatMap Item.keys) ∧ (∀ v ∈ groupVals u gs, v.err = none) ∧
    SameParts ((groupTms u gs).map Tm.parts) ((gs.flatMap (·.items)).map (Item.parts u)) := by
  induction gs with
  | nil => simpa [groupVals, groupTms, visitsOf, Tm.treesL, Tm.OkL, Tm.keysL] using SameParts.nil
  | cons g gs ih =>
    obtain ⟨h1, h2, h3, h4, h5⟩ := ih fun y hy => hg y (by simp [hy])
    obtain ⟨g1, g2, g3, g4, g5⟩ := itemTms_facts u g.ks 0 g.items (hg g (by simp)).1
    simp only [groupVals, groupTms, List.flatMap_cons] at h1 h2 h3 h4 h5 ⊢
    refine ⟨?_, ?_, ?_, ?_, ?_⟩
    · simp only [visitsOf, List.flatMap_append, treesL_append] at h1 g1 ⊢
      rw [h1, g1]
    · exact (okL_append ..).mpr ⟨g2, h2⟩
    · intro k hk
      rw [keysL_append] at hk
      rcases List.mem_append.mp hk with h | h
      · exact ⟨g, by simp, g3 k h⟩
      · obtain ⟨g', hg', h⟩ := h3 k h
        exact ⟨g', by simp [hg'], h⟩
    · intro v hv
      rcases List.mem_append.mp hv with h | h
      · exact g4 v h
      · exact h4 v h
    · simp only [List.map_append]
      exact g5.append h5

theorem mapProjectionAnd_ok (name : Val) (k km : Key) (gs : List Group) (g : Group) (hg : ∀ g ∈ gs, g.Ok) (h : g.Ok) :
    mapProjectionAnd u ⟨name, groupVals u gs, projectionVal k km name (groupVals u gs)⟩ g.k g.km g.ks (g.content u) =
      .ok ⟨name, groupVals u (gs ++ [g]), projectionVal g.k g.km name (groupVals u (gs ++ [g]))⟩ := by
  have hc : createNewContent u g.ks (g.content u) = .ok (.ok (itemVals u g.ks 0 g.items)) :=
    contentLoop_ok u g.ks [] 0 g.items h.1 h.2.1 h.2.2 (by simp)
  have hv : groupVals u gs ++ itemVals u g.ks 0 g.items = groupVals u (gs ++ [g]) := by simp [groupVals]
  have he : errsOf (groupVals u (gs ++ [g])) = none :=
    (errsOf_none_iff _).mpr (groupTms_facts u (gs ++ [g]) (by
      intro g' hg'
      rcases List.mem_append.mp hg' with h' | h'
      · exact hg g' h'
      · simp at h'; exact h' ▸ h)).2.2.2.1
  simp only [mapProjectionAnd, hc, hv, mapExpression, he, projectionVal, Val.mk', Outcome.map]

theorem projectRun_ok (name : Val) (hname : name.err = none) (g : Group) (gs : List Group) (hg : ∀ g' ∈ g :: gs, g'.Ok) :
    ∃ k km, k ∈ (g :: gs).map (·.k) ∧ km ∈ (g :: gs).map (·.km) ∧
      projectRun u name g gs = .ok ⟨name, groupVals u (g :: gs), projectionVal k km name (groupVals u (g :: gs))⟩ := by
  have start : mapProjectionCreate u g.k g.km g.ks name (g.content u) =
      .ok ⟨name, groupVals u [g], projectionVal g.k g.km name (groupVals u [g])⟩ := by
    have h := hg g (by simp)
    have hc : createNewContent u g.ks (g.content u) = .ok (.ok (itemVals u g.ks 0 g.items)) :=
      contentLoop_ok u g.ks [] 0 g.items h.1 h.2.1 h.2.2 (by simp)
    simp [mapProjectionCreate, hname, hc, Outcome.map, groupVals]
  have loop : ∀ (gs : List Group) (done : List Group) (k km : Key), (∀ g' ∈ done ++ gs, g'.Ok) →
      ∃ k' km', k' ∈ k :: gs.map (·.k) ∧ km' ∈ km :: gs.map (·.km) ∧
        gs.foldl (fun (p : Outcome Projection) g => p.bind fun p => mapProjectionAnd u p g.k g.km g.ks (g.content u))
          (.ok ⟨name, groupVals u done, projectionVal k km name (groupVals u done)⟩) =
        .ok ⟨name, groupVals u (done ++ gs), projectionVal k' km' name (groupVals u (done ++ gs))⟩ := by
    intro gs
    induction gs with
    | nil => intro done k km _; exact ⟨k, km, by simp, by simp, by simp⟩
    | cons g gs ih =>
      intro done k km hall
      have hg := hall g (by simp)
      simp only [List.foldl_cons, outcome_bind_ok]
      rw [mapProjectionAnd_ok u name k km done g (fun g' hg' => hall g' (by simp [hg'])) hg]
      obtain ⟨k', km', h1, h2, h3⟩ := ih (done ++ [g]) g.k g.km (by simpa using hall)
      refine ⟨k', km', ?_, ?_, ?_⟩
      · simp only [List.map_cons, List.mem_cons] at h1 ⊢; exact Or.inr h1
      · simp only [List.map_cons, List.mem_cons] at h2 ⊢; exact Or.inr h2
      · rw [h3]; simp
  obtain ⟨k', km', h1, h2, h3⟩ := loop gs [g] g.k g.km (by simpa using hg)
  exact ⟨k', km', h1, h2, by rw [projectRun, start, h3]; simp⟩

def projectionTm (k km : Key) (name : Val) (ts : List Tm) : Tm :=
  .node k [] [] false [.hole name.visit, .node km c!"{" c!"}" true ts]

end

end Verif
