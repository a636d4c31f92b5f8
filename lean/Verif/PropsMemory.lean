import Verif.PropsScope

/-
C88: exactly when what was shown before changes how a part of a query, or a whole statement, is shown.
-/

namespace Verif.Spec

/-- Is it an abbreviation? -/
def Shown.isShort : Shown → Bool
  | .short _ _ => true
  | .full _ _ => false

mutual
/-- The constructs that are shown, in the order in which they begin, each with whether it is abbreviated. -/
def display (e : Env) : Tree → List (Vis × Bool)
  | .raw _ => []
  | .node v kids =>
    match shown e v with
    | .short _ _ => [(v, true)]
    | .full _ _ => (v, false) :: displayL (described e v) kids
def displayL (e : Env) : List Tree → List (Vis × Bool)
  | [] => []
  | t :: ts => display e t ++ displayL (den e t).2 ts
end

/-- The construct is an expression that has an alias, a named node that was described, or the alias of an expression that has an alias. -/
def Remembered (m : Env) (v : Vis) : Prop :=
  (m.al v.key).isSome = true ∨ (∃ n, v.kind = .node (some n) ∧ m.vis v.key = true) ∨ ∃ dk tx, v.kind = .aliased dk tx ∧ (m.al dk).isSome = true

/-- The memories after showing these from the start. -/
def memory (ts : List Tree) : Env := (denL false true Env.empty ts).2

/-- The same, said in terms of what was shown: the construct, or what it is the alias of, was given an alias somewhere in `ts`, or it is a node that was
shown in `ts` with its name, and in full. -/
def ShownIn (ts : List Tree) (v : Vis) : Prop :=
  v.key ∈ dkeysL ts ∨ (∃ n n', v.kind = .node (some n) ∧ (⟨v.key, .node (some n')⟩, false) ∈ displayL Env.empty ts) ∨
    ∃ dk tx, v.kind = .aliased dk tx ∧ dk ∈ dkeysL ts

end Verif.Spec

namespace Verif
open Spec

/-- `e` on top of the older memories `m`. -/
def Env.over (m e : Env) : Env := ⟨fun k => (e.al k).or (m.al k), fun k => e.vis k || m.vis k⟩

theorem over_empty (m : Env) : Env.over m Env.empty = m := by
  simp [Env.over, Env.empty]

theorem over_described (m e : Env) (v : Vis) : described (Env.over m e) v = Env.over m (described e v) := by
  unfold described
  split
  · simp only [Env.over, Env.mk.injEq, true_and]
    funext k
    split <;> simp
  · rfl

theorem over_defined (m e : Env) (v : Vis) : defined (Env.over m e) v = Env.over m (defined e v) := by
  unfold defined
  split
  · simp only [Env.over, Env.mk.injEq, and_true]
    funext k
    split <;> simp
  · rfl

mutual
theorem over_mute (m e : Env) : ∀ t : Tree, mute (Env.over m e) t = ((mute e t).1, Env.over m (mute e t).2)
  | .raw s => rfl
  | .node v kids => by simp only [mute, over_muteL m e kids, over_defined]
theorem over_muteL (m e : Env) : ∀ ts : List Tree, muteL (Env.over m e) ts = ((muteL e ts).1, Env.over m (muteL e ts).2)
  | [] => rfl
  | t :: ts => by simp only [muteL, over_mute m e t, over_muteL m (mute e t).2 ts]
end

/-- With older memories a construct is abbreviated if it is without, or if it is remembered. -/
theorem over_short (m e : Env) (v : Vis) : (shown (Env.over m e) v).isShort = true ↔ (shown e v).isShort = true ∨ Remembered m v := by
  unfold shown Remembered Env.over
  rcases v with ⟨k, kind⟩
  dsimp only
  cases h1 : e.al k with
  | some a => simp [Shown.isShort]
  | none =>
    cases h2 : m.al k with
    | some a => simp [Shown.isShort]
    | none =>
      cases kind with
      | plain op cl s => simp [Shown.isShort]
      | node n =>
        cases n with
        | none => simp [Shown.isShort]
        | some n => by_cases h3 : e.vis k = true <;> by_cases h4 : m.vis k = true <;> simp [Shown.isShort, h3, h4]
      | aliased dk tx => by_cases h3 : (e.al dk).isSome = true <;> by_cases h4 : (m.al dk).isSome = true <;> simp [Shown.isShort, h3, h4]

theorem shown_cases (e : Env) (v : Vis) : (∃ op cl, shown e v = .short op cl) ∨ ∃ op cl, shown e v = .full op cl := by
  cases h : shown e v
  · exact .inl ⟨_, _, rfl⟩
  · exact .inr ⟨_, _, rfl⟩

theorem display_short {e : Env} {v : Vis} {kids : List Tree} {op cl : Str} (h : shown e v = .short op cl) :
    display e (.node v kids) = [(v, true)] ∧ (den e (.node v kids)).2 = defined (muteL e kids).2 v := by
  constructor
  · rw [display, h]
  · rw [den, h]

theorem display_full {e : Env} {v : Vis} {kids : List Tree} {op cl : Str} (h : shown e v = .full op cl) :
    display e (.node v kids) = (v, false) :: displayL (described e v) kids ∧
      (den e (.node v kids)).2 = defined (denL v.kind.isSub true (described e v) kids).2 v := by
  constructor
  · rw [display, h]
  · rw [den, h]

/-- The memories do not depend on separators. -/
theorem mm_denL_env (sub first : Bool) (e : Env) (t : Tree) (ts : List Tree) :
    ∃ first', (denL sub first e (t :: ts)).2 = (denL sub first' (den e t).2 ts).2 := by
  cases t with
  | raw s => exact ⟨first, by simp [denL, den]⟩
  | node v kids => exact ⟨false, by simp [denL]⟩

/-- Two displays differ for the first time at a construct that is remembered. -/
def Splits (m : Env) (l l' : List (Vis × Bool)) : Prop := ∃ p v x y, l = p ++ (v, true) :: x ∧ l' = p ++ (v, false) :: y ∧ Remembered m v

theorem Splits.ne {m : Env} {l l' : List (Vis × Bool)} (h : Splits m l l') : l ≠ l' := by
  obtain ⟨p, v, x, y, rfl, rfl, _⟩ := h
  simp

theorem Splits.mem {m : Env} {l l' : List (Vis × Bool)} (h : Splits m l l') : ∃ v, (v, false) ∈ l' ∧ Remembered m v := by
  obtain ⟨p, v, x, y, _, rfl, hr⟩ := h
  exact ⟨v, by simp, hr⟩

theorem Splits.after {m : Env} {l l' : List (Vis × Bool)} (h : Splits m l l') (q r r' : List (Vis × Bool)) : Splits m (q ++ (l ++ r)) (q ++ (l' ++ r')) := by
  obtain ⟨p, v, x, y, rfl, rfl, hr⟩ := h
  exact ⟨q ++ p, v, x ++ r, y ++ r', by simp, by simp, hr⟩

mutual
theorem over_display (m e : Env) : ∀ t : Tree,
    (display (Env.over m e) t = display e t ∧ (den (Env.over m e) t).2 = Env.over m (den e t).2 ∧ ∀ v, (v, false) ∈ display e t → ¬ Remembered m v) ∨
    Splits m (display (Env.over m e) t) (display e t)
  | .raw s => .inl ⟨rfl, rfl, by simp [display]⟩
  | .node v kids => by
    have hs := over_short m e v
    rcases shown_cases e v with ⟨op, cl, h⟩ | ⟨op, cl, h⟩
    · rcases shown_cases (Env.over m e) v with ⟨op', cl', h'⟩ | ⟨op', cl', h'⟩
      · refine .inl ⟨by rw [(display_short h).1, (display_short h').1], ?_, by simp [(display_short h).1]⟩
        rw [(display_short h).2, (display_short h').2, over_muteL, over_defined]
      · simp [h, h', Shown.isShort] at hs
    · rcases shown_cases (Env.over m e) v with ⟨op', cl', h'⟩ | ⟨op', cl', h'⟩
      · refine .inr ⟨[], v, [], displayL (described e v) kids, by rw [(display_short h').1]; rfl, by rw [(display_full h).1]; rfl, ?_⟩
        simpa [h, h', Shown.isShort] using hs
      · have hr : ¬ Remembered m v := by simpa [h, h', Shown.isShort] using hs
        rw [(display_full h).1, (display_full h').1, (display_full h).2, (display_full h').2, over_described]
        rcases over_displayL m (described e v) v.kind.isSub true kids with ⟨h1, h2, h3⟩ | h1
        · refine .inl ⟨by rw [h1], by rw [h2, over_defined], fun w hw => ?_⟩
          rcases List.mem_cons.mp hw with hw | hw
          · simp only [Prod.mk.injEq, and_true] at hw
            exact hw ▸ hr
          · exact h3 w hw
        · refine .inr ?_
          simpa using h1.after [(v, false)] [] []
theorem over_displayL (m e : Env) (sub first : Bool) : ∀ ts : List Tree,
    (displayL (Env.over m e) ts = displayL e ts ∧ (denL sub first (Env.over m e) ts).2 = Env.over m (denL sub first e ts).2 ∧
      ∀ v, (v, false) ∈ displayL e ts → ¬ Remembered m v) ∨
    Splits m (displayL (Env.over m e) ts) (displayL e ts)
  | [] => .inl ⟨rfl, rfl, by simp [displayL]⟩
  | t :: ts => by
    simp only [displayL]
    rcases over_display m e t with ⟨h1, h2, h3⟩ | h1
    · obtain ⟨f, hf⟩ : ∃ f, ∀ e, (denL sub first e (t :: ts)).2 = (denL sub f (den e t).2 ts).2 := by
        cases t with
        | raw s => exact ⟨first, fun e => by simp [denL, den]⟩
        | node v kids => exact ⟨false, fun e => by simp [denL]⟩
      rw [hf, hf, h1, h2]
      rcases over_displayL m (den e t).2 sub f ts with ⟨h4, h5, h6⟩ | h4
      · refine .inl ⟨by rw [h4], h5, fun v hv => ?_⟩
        rcases List.mem_append.mp hv with hv | hv
        · exact h3 v hv
        · exact h6 v hv
      · refine .inr ?_
        simpa using h4.after (display e t) [] []
    · exact .inr (by simpa using h1.after [] _ _)
end

/-! ### The text -/

/-- No alias among these is itself known under an alias. -/
def Spec.NoAliasOfAlias (m : Env) (l : List (Vis × Bool)) : Prop := ∀ x ∈ l, ∀ dk tx, x.1.kind = .aliased dk tx → m.al x.1.key = none

theorem over_shown {m e : Env} {v : Vis} (h1 : (shown e v).isShort = false → ¬ Remembered m v) (h2 : ∀ k, e.vis k = true → m.al k = none)
    (h3 : ∀ dk tx, v.kind = .aliased dk tx → m.al v.key = none) : shown (Env.over m e) v = shown e v := by
  rcases v with ⟨k, kind⟩
  unfold shown Env.over Remembered at *
  dsimp only at *
  cases h4 : e.al k with
  | some a => simp
  | none =>
    simp only [h4] at h1
    cases kind with
    | plain op cl s => simp_all [Shown.isShort]
    | node n =>
      cases n with
      | none => simp_all [Shown.isShort]
      | some n =>
        by_cases h5 : e.vis k = true
        · simp [h2 k h5, h5]
        · simp_all [Shown.isShort]
    | aliased dk tx =>
      rw [h3 dk tx rfl]
      by_cases h5 : (e.al dk).isSome = true
      · simp [h5]
      · simp_all [Shown.isShort]

theorem described_vis {m e : Env} {v : Vis} (hr : ¬ Remembered m v) (h : ∀ k, e.vis k = true → m.al k = none) :
    ∀ k, (described e v).vis k = true → m.al k = none := by
  intro k hk
  unfold described at hk
  split at hk
  · dsimp only at hk
    split at hk
    · next hkv =>
      cases ha : m.al k with
      | none => rfl
      | some a => exact absurd (.inl (by rw [← hkv, ha]; rfl)) hr
    · exact h k hk
  · exact h k hk

theorem mm_defined_vis (e : Env) (v : Vis) : (defined e v).vis = e.vis := by
  unfold defined
  split <;> rfl

mutual
theorem mm_mute_vis (e : Env) : ∀ t : Tree, (mute e t).2.vis = e.vis
  | .raw s => rfl
  | .node v kids => by rw [mute, mm_defined_vis, mm_muteL_vis e kids]
theorem mm_muteL_vis (e : Env) : ∀ ts : List Tree, (muteL e ts).2.vis = e.vis
  | [] => rfl
  | t :: ts => by rw [muteL, mm_muteL_vis, mm_mute_vis]
end

mutual
theorem over_den (m e : Env) : ∀ t : Tree, (∀ v, (v, false) ∈ display e t → ¬ Remembered m v) → NoAliasOfAlias m (display e t) →
    (∀ k, e.vis k = true → m.al k = none) →
    den (Env.over m e) t = ((den e t).1, Env.over m (den e t).2) ∧ ∀ k, (den e t).2.vis k = true → m.al k = none
  | .raw s, _, _, h => ⟨rfl, h⟩
  | .node v kids, h1, h2, h3 => by
    have hsh : shown (Env.over m e) v = shown e v := by
      refine over_shown (fun h => h1 v ?_) h3 (h2 (v, (shown e v).isShort) ?_)
      · rcases shown_cases e v with ⟨op, cl, hs⟩ | ⟨op, cl, hs⟩
        · simp [hs, Shown.isShort] at h
        · simp [(display_full hs).1]
      · rcases shown_cases e v with ⟨op, cl, hs⟩ | ⟨op, cl, hs⟩
        · simp [(display_short hs).1, hs, Shown.isShort]
        · simp [(display_full hs).1, hs, Shown.isShort]
    rcases shown_cases e v with ⟨op, cl, hs⟩ | ⟨op, cl, hs⟩
    · simp only [den, hsh, hs, over_muteL, over_defined, true_and]
      rw [mm_defined_vis, mm_muteL_vis]
      exact h3
    · rw [(display_full hs).1] at h1 h2
      have ih := over_denL m (described e v) v.kind.isSub true kids (fun w hw => h1 w (by simp [hw])) (fun x hx => h2 x (by simp [hx]))
        (described_vis (h1 v (by simp)) h3)
      simp only [den, hsh, hs, over_described, ih.1, over_defined, true_and]
      rw [mm_defined_vis]
      exact ih.2
theorem over_denL (m e : Env) (sub first : Bool) : ∀ ts : List Tree, (∀ v, (v, false) ∈ displayL e ts → ¬ Remembered m v) →
    NoAliasOfAlias m (displayL e ts) → (∀ k, e.vis k = true → m.al k = none) →
    denL sub first (Env.over m e) ts = ((denL sub first e ts).1, Env.over m (denL sub first e ts).2) ∧ ∀ k, (denL sub first e ts).2.vis k = true → m.al k = none
  | [], _, _, h => ⟨rfl, h⟩
  | .raw s :: ts, h1, h2, h3 => by
    simp only [displayL, display, den, List.nil_append] at h1 h2
    have ih := over_denL m e sub first ts h1 h2 h3
    simp only [denL, ih.1, true_and]
    exact ih.2
  | .node v kids :: ts, h1, h2, h3 => by
    simp only [displayL] at h1 h2
    have ih := over_den m e (.node v kids) (fun w hw => h1 w (by simp [hw])) (fun x hx => h2 x (by simp [hx])) h3
    have ih' := over_denL m (den e (.node v kids)).2 sub false ts (fun w hw => h1 w (by simp [hw])) (fun x hx => h2 x (by simp [hx])) ih.2
    simp only [denL, ih.1, ih'.1, true_and]
    exact ih'.2
end

/-! ### C88 -/

/-- C88: whatever is remembered, constructs are shown as they are shown on their own - the same constructs in the same order, the same ones abbreviated - if
and only if none of those that are shown in full on their own is remembered. -/
theorem C88_display (m : Env) (ts : List Tree) :
    displayL m ts = displayL Env.empty ts ↔ ∀ v, (v, false) ∈ displayL Env.empty ts → ¬ Remembered m v := by
  have h := over_displayL m Env.empty false true ts
  rw [over_empty] at h
  rcases h with ⟨h1, _, h2⟩ | h
  · exact ⟨fun _ => h2, fun _ => h1⟩
  · refine ⟨fun h' => absurd h' h.ne, fun h' => ?_⟩
    obtain ⟨v, h1, h2⟩ := h.mem
    exact absurd h2 (h' v h1)

/-- C88: the first difference is a construct that is remembered: it is abbreviated, and on its own it is shown in full. -/
theorem C88_first_difference (m : Env) (ts : List Tree) (h : displayL m ts ≠ displayL Env.empty ts) :
    ∃ p v x y, displayL m ts = p ++ (v, true) :: x ∧ displayL Env.empty ts = p ++ (v, false) :: y ∧ Remembered m v := by
  have h' := over_displayL m Env.empty false true ts
  rw [over_empty] at h'
  rcases h' with ⟨h1, _⟩ | h'
  · exact absurd h1 h
  · exact h'

/-- C88: shown as on their own, the text is the text they have on their own. -/
theorem C88_text (m : Env) (ts : List Tree) (h : displayL m ts = displayL Env.empty ts) (ha : NoAliasOfAlias m (displayL Env.empty ts)) :
    (shownAs m ts).1 = text ts := by
  have := (over_denL m Env.empty false true ts ((C88_display m ts).mp h) ha (by simp [Env.empty])).1
  rw [over_empty] at this
  rw [shownAs, this, text]

mutual
theorem mute_al (e : Env) (k : Key) : ∀ t : Tree, ((mute e t).2.al k).isSome = true ↔ (e.al k).isSome = true ∨ k ∈ dkeys t
  | .raw s => by simp [mute, dkeys]
  | .node v kids => by
    have := muteL_al e k kids
    unfold mute defined
    simp only [dkeys, List.mem_append]
    cases hv : v.asAlias with
    | none => simp [this]
    | some a => by_cases hk : k = a.dkey <;> simp [hk, this]
theorem muteL_al (e : Env) (k : Key) : ∀ ts : List Tree, ((muteL e ts).2.al k).isSome = true ↔ (e.al k).isSome = true ∨ k ∈ dkeysL ts
  | [] => by simp [muteL, dkeysL]
  | t :: ts => by
    rw [muteL, muteL_al _ k ts, mute_al e k t, dkeysL, List.mem_append, or_assoc]
end

theorem mm_described_al (e : Env) (v : Vis) : (described e v).al = e.al := by
  unfold described
  split <;> rfl

mutual
theorem den_al (e : Env) (k : Key) : ∀ t : Tree, ((den e t).2.al k).isSome = true ↔ (e.al k).isSome = true ∨ k ∈ dkeys t
  | .raw s => by simp [den, dkeys]
  | .node v kids => by
    simp only [dkeys, List.mem_append]
    rcases shown_cases e v with ⟨op, cl, hs⟩ | ⟨op, cl, hs⟩
    · have := muteL_al e k kids
      rw [(display_short hs).2]
      unfold defined
      cases hv : v.asAlias with
      | none => simp [this]
      | some a => by_cases hk : k = a.dkey <;> simp [hk, this]
    · have := denL_al v.kind.isSub true (described e v) k kids
      rw [mm_described_al] at this
      rw [(display_full hs).2]
      unfold defined
      cases hv : v.asAlias with
      | none => simp [this]
      | some a => by_cases hk : k = a.dkey <;> simp [hk, this]
theorem denL_al (sub first : Bool) (e : Env) (k : Key) : ∀ ts : List Tree, ((denL sub first e ts).2.al k).isSome = true ↔ (e.al k).isSome = true ∨ k ∈ dkeysL ts
  | [] => by simp [denL, dkeysL]
  | t :: ts => by
    obtain ⟨f, hf⟩ := mm_denL_env sub first e t ts
    rw [hf, denL_al sub f _ k ts, den_al e k t, dkeysL, List.mem_append, or_assoc]
end

mutual
theorem den_vis (e : Env) (k : Key) : ∀ t : Tree, (den e t).2.vis k = true ↔ e.vis k = true ∨ ∃ n, (⟨k, .node (some n)⟩, false) ∈ display e t
  | .raw s => by simp [den, display]
  | .node v kids => by
    rcases shown_cases e v with ⟨op, cl, hs⟩ | ⟨op, cl, hs⟩
    · rw [(display_short hs).2, mm_defined_vis, mm_muteL_vis, (display_short hs).1]
      simp
    · rw [(display_full hs).2, mm_defined_vis, denL_vis, (display_full hs).1]
      rcases v with ⟨k', kind⟩
      simp only [List.mem_cons, Prod.mk.injEq, and_true, Vis.mk.injEq]
      constructor
      · rintro (h | ⟨n, h⟩)
        · unfold described at h
          split at h
          · next n hn =>
            dsimp only at h hn
            split at h
            · next hk => exact .inr ⟨n, .inl ⟨hk, hn.symm⟩⟩
            · exact .inl h
          · exact .inl h
        · exact .inr ⟨n, .inr h⟩
      · rintro (h | ⟨n, ⟨rfl, rfl⟩ | h⟩)
        · refine .inl ?_
          unfold described
          split
          · dsimp only; split
            · rfl
            · exact h
          · exact h
        · exact .inl (by simp [described])
        · exact .inr ⟨n, h⟩
theorem denL_vis (sub first : Bool) (e : Env) (k : Key) : ∀ ts : List Tree,
    (denL sub first e ts).2.vis k = true ↔ e.vis k = true ∨ ∃ n, (⟨k, .node (some n)⟩, false) ∈ displayL e ts
  | [] => by simp [denL, displayL]
  | t :: ts => by
    obtain ⟨f, hf⟩ := mm_denL_env sub first e t ts
    rw [hf, denL_vis sub f _ k ts, den_vis e k t, displayL, or_assoc, ← exists_or]
    simp only [List.mem_append]
end

/-- C88: what is remembered, in terms of what was shown. -/
theorem C88_memory (ts : List Tree) (v : Vis) : Remembered (memory ts) v ↔ ShownIn ts v := by
  have ha : ∀ k, ((memory ts).al k).isSome = true ↔ k ∈ dkeysL ts := fun k => by
    have := denL_al false true Env.empty k ts
    simpa [memory, Env.empty] using this
  have hv : ∀ k, (memory ts).vis k = true ↔ ∃ n, (⟨k, .node (some n)⟩, false) ∈ displayL Env.empty ts := fun k => by
    have := denL_vis false true Env.empty k ts
    simpa [memory, Env.empty] using this
  simp only [Remembered, ShownIn, ha, hv]
  constructor
  · rintro (h | ⟨n, h, n', h'⟩ | h)
    · exact .inl h
    · exact .inr (.inl ⟨n, n', h, h'⟩)
    · exact .inr (.inr h)
  · rintro (h | ⟨n, n', h, h'⟩ | h)
    · exact .inl h
    · exact .inr (.inl ⟨n, h, n', h'⟩)
    · exact .inr (.inr h)

/-- C88: one part of a query after another: it is shown as on its own if and only if nothing that it shows in full on its own was shown in the part before, in
the sense of `ShownIn`. -/
theorem C88_parts (ts us : List Tree) :
    displayL (memory ts) us = displayL Env.empty us ↔ ∀ v, (v, false) ∈ displayL Env.empty us → ¬ ShownIn ts v := by
  rw [C88_display]
  simp only [C88_memory]

/-- ... and then the text of both is the one after the other. -/
theorem C88_parts_text (ts us : List Tree) (h : ∀ v, (v, false) ∈ displayL Env.empty us → ¬ ShownIn ts v)
    (ha : ∀ v b, (v, b) ∈ displayL Env.empty us → ∀ dk tx, v.kind = .aliased dk tx → v.key ∉ dkeysL ts) :
    text (ts ++ us) = text ts ++ text us := by
  have h1 := C88_text (memory ts) us ((C88_parts ts us).mpr h) (fun x hx dk tx hk => by
    have := ha x.1 x.2 hx dk tx hk
    cases hm : (memory ts).al x.1.key with
    | none => rfl
    | some a =>
      have h2 := (denL_al false true Env.empty x.1.key ts).mp (by unfold memory at hm; rw [hm]; rfl)
      simp [Env.empty, this] at h2)
  unfold text
  rw [denL_append]
  unfold shownAs memory text at h1
  rw [h1]

/-! ### Renderers -/

/-- What was shown by a renderer that rendered these statements: those without errors, one after the other. -/
def Spec.renderedBefore (sts : List Statement) : List Tree := sts.flatMap fun s => if s.err.isSome then [] else s.visit

theorem used_env (u : Unicode) (alOf : Key → Option Al) (hok : AlOk alOf) (sts : List Statement) (r : RState) (hr : History u alOf r)
    (hws : ∀ s ∈ sts, WFL alOf s.visit) :
    envOf (sts.foldl (fun r s => (render u r (some s)).2) r) = (denL false true (envOf r) (renderedBefore sts)).2 := by
  induction sts generalizing r with
  | nil => rfl
  | cons s sts ih =>
    have hi := History.idle hok hr
    rw [List.foldl_cons, ih _ (.render _ _ hr (by rintro s' ⟨⟩; exact hws _ (by simp))) (fun s' h => hws s' (by simp [h]))]
    unfold renderedBefore
    rw [List.flatMap_cons, denL_append]
    have : envOf (render u r (some s)).2 = (denL false true (envOf r) (if s.err.isSome then [] else s.visit)).2 := by
      unfold render
      cases he : s.err with
      | some e => simp only [he, Option.isSome_some, if_true, denL]
      | none =>
        simp only [he, Option.isSome_none, Bool.false_eq_true, if_false]
        rw [refine_top hok r s.visit (hws s (by simp)) hi.skip hi.al hi.astack hi.seps hi.stack]
        rfl
    rw [this]

/-- C88: a renderer that was used for these statements gives the result of a new one if no construct that the statement shows in full was shown by an earlier
one, in the sense of `ShownIn`. -/
theorem C88_render (u : Unicode) (alOf : Key → Option Al) (hok : AlOk alOf) (sts : List Statement) (hws : ∀ s ∈ sts, WFL alOf s.visit)
    (st : Statement) (hw : WFL alOf st.visit) (h : ∀ v, (v, false) ∈ displayL Env.empty st.visit → ¬ ShownIn (renderedBefore sts) v)
    (ha : ∀ v b, (v, b) ∈ displayL Env.empty st.visit → ∀ dk tx, v.kind = .aliased dk tx → v.key ∉ dkeysL (renderedBefore sts)) :
    (render u (used u sts) (some st)).1 = (render u RState.new (some st)).1 := by
  have hi : Idle alOf (used u sts) := History.idle hok (used_history u alOf sts _ .new hws)
  have hn := History.idle hok (History.new (u := u) (alOf := alOf))
  have h1 := refine_idle hok hi _ hw
  have h2 := refine_idle hok hn _ hw
  have he : envOf (used u sts) = memory (renderedBefore sts) := used_env u alOf hok sts _ .new hws
  have h3 := C88_parts_text (renderedBefore sts) st.visit h ha
  unfold text at h3
  rw [denL_append] at h3
  have h4 := List.append_cancel_left h3
  rw [he, memory, h4] at h1
  have h5 : envOf RState.new = Env.empty := rfl
  rw [h5] at h2
  unfold renderOut at h1 h2
  unfold render
  simp only [h1, h2]
  cases st.err with
  | some e => rfl
  | none => rfl

namespace SampleMemory
open SampleStatements SampleScope SampleReuse

def first : List Tree := (built q1).visit
def second : List Tree := (built q2).visit
def third : List Tree := (built q3).visit

-- what is shown of `MATCH (n:Person) RETURN n`: the node is shown in full on its own, and abbreviated after the first query
example : (displayL Env.empty second).length = 8 ∧ (displayL (memory first) second).length = 6 := by decide +kernel

-- so the second query is not shown as on its own: there is something in it that was shown in the first
example : ∃ v, (v, false) ∈ displayL Env.empty second ∧ ShownIn first v := by
  have h := C88_parts first second
  have hd : displayL (memory first) second ≠ displayL Env.empty second := by decide +kernel
  simpa [hd] using h

-- the third one, with a node of its own, is
example : ∀ v, (v, false) ∈ displayL Env.empty third → ¬ ShownIn first v := (C88_parts first third).mp (by decide +kernel)
example : text (first ++ third) = text first ++ text third :=
  C88_parts_text first third ((C88_parts first third).mp (by decide +kernel)) fun v b h dk tx hk =>
    (by decide +kernel : ∀ x ∈ displayL Env.empty third, x.1.asAlias.isSome = true → x.1.key ∉ dkeysL first) (v, b) h (by simp [Vis.asAlias, hk])

/-- A statement that uses the node `n` of `Sample.twice`, but only in what is not shown: the properties of a node that is shown for the second time. -/
def hidden : List Tree :=
  let m : Tree := .node ⟨40, .node (some c!"m")⟩ [.node ⟨41, .plain c!"m" [] false⟩ []]
  let m' : Tree := .node ⟨40, .node (some c!"m")⟩ [Sample.person]
  [.node ⟨50, .plain c!"MATCH " [] false⟩ [.node ⟨51, .plain [] [] true⟩ [m, m']]]

-- then the earlier statement does not matter, although the node is in both
example : text hidden = c!"MATCH (m), (m)" ∧ displayL (memory Sample.twice) hidden = displayL Env.empty hidden ∧ ∃ k ∈ keysL hidden, k ∈ marks Sample.twice := by
  decide +kernel

-- a renderer that was used before
example (u : Unicode) : (render u (used u history) (some fresh)).1 = (render u RState.new (some fresh)).1 := by
  refine C88_render u (aliases [Sample.ageAs, ageAsB]) (aliases_ok _ (by simp [Sample.ageAs, ageAsB])) _ ?_ _ ?_ ?_ ?_
  · simp [history, fresh, other, ageAsB, WFL, WF, Sample.ret, Sample.twice, Sample.person, Sample.aged, Sample.age, Sample.word, Sample.ageAs, Al.vis, aliases,
      Vis.asAlias, Special, keysL, keys, DelegateOk]
  · simp [fresh, other, ageAsB, WFL, WF, Sample.word, Sample.ageAs, Al.vis, aliases, Vis.asAlias, Special, keysL, keys, DelegateOk]
  · exact (C88_parts (renderedBefore history) fresh.visit).mp (by decide +kernel)
  · intro v b h dk tx hk
    exact (by decide +kernel : ∀ x ∈ displayL Env.empty fresh.visit, x.1.asAlias.isSome = true → x.1.key ∉ dkeysL (renderedBefore history)) (v, b) h
      (by simp [Vis.asAlias, hk])

end SampleMemory

end Verif
