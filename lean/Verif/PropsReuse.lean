import Verif.PropsRender

/-
C13, second part: a renderer that was used before gives the same result as a new one for every statement that has no named
node and no expression with an alias in common with the statements rendered before.
-/

namespace Verif.Spec

/-- A renderer after it was used for these statements, one after another. -/
def used (u : Unicode) (sts : List Statement) : RState := sts.foldl (fun r s => (render u r (some s)).2) RState.new

/-- The key of a named node. -/
def named (v : Vis) : Option Key :=
  match v.kind with
  | .node (some _) => some v.key
  | _ => none

/-- What a renderer can remember of a statement: its expressions with an alias and its named nodes. -/
def marks (ts : List Tree) : List Key := dkeysL ts ++ (vissL ts).filterMap named

end Verif.Spec

namespace Verif
open Spec

/-! ### Memories that agree on the keys of a tree give the same text -/

/-- Two memories agree on some keys. -/
def Agree (K : Key → Prop) (e e' : Env) : Prop := ∀ k, K k → e.al k = e'.al k ∧ e.vis k = e'.vis k

theorem asAlias_kind {v : Vis} {a : Al} (h : v.asAlias = some a) : v.kind = .aliased a.dkey a.text := by
  unfold Vis.asAlias at h
  cases hk : v.kind <;> simp [hk] at h
  subst h; rfl

theorem kind_asAlias {v : Vis} {dk : Key} {tx : Str} (h : v.kind = .aliased dk tx) : ∃ a, v.asAlias = some a ∧ a.dkey = dk := by
  unfold Vis.asAlias
  simp [h]

/-- The keys of a tree lie in a set. -/
theorem keys_node {K : Key → Prop} {v : Vis} {kids : List Tree} (h : ∀ k ∈ keys (.node v kids), K k) :
    K v.key ∧ (∀ a, v.asAlias = some a → K a.dkey) ∧ ∀ k ∈ keysL kids, K k := by
  simp only [keys, List.cons_append, List.mem_cons, List.mem_append] at h
  refine ⟨h _ (Or.inl rfl), fun a ha => h _ (Or.inr (Or.inl ?_)), fun k hk => h k (Or.inr (Or.inr hk))⟩
  simp [ha]

theorem agree_shown {K : Key → Prop} {e e' : Env} (h : Agree K e e') {v : Vis} (hk : K v.key)
    (ha : ∀ a, v.asAlias = some a → K a.dkey) : shown e v = shown e' v := by
  unfold shown
  rw [(h _ hk).1, (h _ hk).2]
  cases hv : v.kind with
  | aliased dk tx =>
    obtain ⟨a, h1, h2⟩ := kind_asAlias hv
    have := (h _ (ha a h1)).1
    rw [h2] at this
    simp only [this]
  | node name => cases name <;> rfl
  | plain op cl sub => rfl

theorem agree_described {K : Key → Prop} {e e' : Env} (h : Agree K e e') (v : Vis) :
    Agree K (described e v) (described e' v) := by
  intro k hk
  unfold described
  split
  · simp only [(h k hk).1, (h k hk).2, and_self]
  · exact h k hk

theorem agree_defined {K : Key → Prop} {e e' : Env} (h : Agree K e e') (v : Vis) :
    Agree K (defined e v) (defined e' v) := by
  intro k hk
  unfold defined
  split
  · simp only [(h k hk).1, (h k hk).2, and_self]
  · exact h k hk

mutual
theorem mute_agree {K : Key → Prop} (e e' : Env) (t : Tree) (h : Agree K e e') :
    (mute e t).1 = (mute e' t).1 ∧ Agree K (mute e t).2 (mute e' t).2 := by
  match t with
  | .raw s => exact ⟨rfl, h⟩
  | .node v kids =>
    simp only [mute]
    have := muteL_agree e e' kids h
    exact ⟨this.1, agree_defined this.2 v⟩
theorem muteL_agree {K : Key → Prop} (e e' : Env) (ts : List Tree) (h : Agree K e e') :
    (muteL e ts).1 = (muteL e' ts).1 ∧ Agree K (muteL e ts).2 (muteL e' ts).2 := by
  match ts with
  | [] => exact ⟨rfl, h⟩
  | t :: ts =>
    simp only [muteL]
    have h1 := mute_agree e e' t h
    have h2 := muteL_agree _ _ ts h1.2
    exact ⟨by rw [h1.1, h2.1], h2.2⟩
end

mutual
theorem den_agree {K : Key → Prop} (e e' : Env) (t : Tree) (hk : ∀ k ∈ keys t, K k) (h : Agree K e e') :
    (den e t).1 = (den e' t).1 ∧ Agree K (den e t).2 (den e' t).2 := by
  match t with
  | .raw s => rw [den_raw, den_raw]; exact ⟨rfl, h⟩
  | .node v kids =>
    obtain ⟨k1, k2, k3⟩ := keys_node hk
    have hs' := agree_shown h k1 k2
    cases hs : shown e v with
    | short op cl =>
      rw [den_short hs, den_short (hs' ▸ hs)]
      have := muteL_agree e e' kids h
      exact ⟨by simp only [this.1], agree_defined this.2 v⟩
    | full op cl =>
      rw [den_full hs, den_full (hs' ▸ hs)]
      have := denL_agree v.kind.isSub true _ _ kids k3 (agree_described h v)
      rw [denL_envL, denL_envL] at this
      exact ⟨by simp only [this.1], agree_defined this.2 v⟩
theorem denL_agree {K : Key → Prop} (sub first : Bool) (e e' : Env) (ts : List Tree) (hk : ∀ k ∈ keysL ts, K k)
    (h : Agree K e e') :
    (denL sub first e ts).1 = (denL sub first e' ts).1 ∧ Agree K (denL sub first e ts).2 (denL sub first e' ts).2 := by
  match ts with
  | [] => simp only [denL]; exact ⟨trivial, h⟩
  | .raw s :: ts =>
    simp only [denL]
    have := denL_agree sub first e e' ts (fun k hk' => hk k (by simp [keysL, hk'])) h
    exact ⟨by rw [this.1], this.2⟩
  | .node v kids :: ts =>
    simp only [denL]
    have h1 := den_agree e e' (.node v kids) (fun k hk' => hk k (by simp only [keysL, List.mem_append]; exact Or.inl hk')) h
    have h2 := denL_agree sub false _ _ ts (fun k hk' => hk k (by simp [keysL, hk'])) h1.2
    exact ⟨by rw [h1.1, h2.1], h2.2⟩
end

/-! ### Nothing but marks is remembered -/

theorem defined_other {e : Env} {v : Vis} {k : Key} (h : ∀ a, v.asAlias = some a → a.dkey ≠ k) :
    (defined e v).al k = e.al k := by
  unfold defined
  cases hv : v.asAlias with
  | none => rfl
  | some a => simp only; rw [if_neg (fun hh => h a hv hh.symm)]

theorem described_other {e : Env} {v : Vis} {k : Key} (h : named v ≠ some k) : (described e v).vis k = e.vis k := by
  unfold described
  unfold named at h
  split
  · rename_i hv
    rw [hv] at h
    simp only [ne_eq, Option.some.injEq] at h
    simp only
    rw [if_neg (fun hh => h hh.symm)]
  · rfl

mutual
theorem mute_al_other (e : Env) (t : Tree) (k : Key) (h : k ∉ dkeys t) : (mute e t).2.al k = e.al k := by
  match t with
  | .raw s => rfl
  | .node v kids =>
    simp only [mute]
    simp only [dkeys, List.mem_append, not_or] at h
    rw [defined_other, muteL_al_other e kids k h.2]
    intro a ha hh
    exact h.1 (by simp [ha, hh])
theorem muteL_al_other (e : Env) (ts : List Tree) (k : Key) (h : k ∉ dkeysL ts) : (muteL e ts).2.al k = e.al k := by
  match ts with
  | [] => rfl
  | t :: ts =>
    simp only [dkeysL, List.mem_append, not_or] at h
    simp only [muteL]
    rw [muteL_al_other _ ts k h.2, mute_al_other e t k h.1]
end

mutual
theorem den_other (e : Env) (t : Tree) (k : Key) (h : k ∉ dkeys t) (hn : ∀ v ∈ viss t, named v ≠ some k) :
    (den e t).2.al k = e.al k ∧ (den e t).2.vis k = e.vis k := by
  match t with
  | .raw s => rw [den_raw]; exact ⟨rfl, rfl⟩
  | .node v kids =>
    simp only [dkeys, List.mem_append, not_or] at h
    have hd : ∀ a, v.asAlias = some a → a.dkey ≠ k := fun a ha hh => h.1 (by simp [ha, hh])
    cases hs : shown e v with
    | short op cl =>
      rw [den_short hs]
      simp only
      rw [defined_other hd, muteL_al_other e kids k h.2, defined_vis, muteL_vis]
      exact ⟨rfl, rfl⟩
    | full op cl =>
      rw [den_full hs]
      simp only
      have := envL_other (described e v) kids k h.2 (fun w hw => hn w (by simp [viss, hw]))
      rw [defined_other hd, defined_vis, this.1, this.2, described_al, described_other (hn v (by simp [viss]))]
      exact ⟨rfl, rfl⟩
theorem envL_other (e : Env) (ts : List Tree) (k : Key) (h : k ∉ dkeysL ts) (hn : ∀ v ∈ vissL ts, named v ≠ some k) :
    (envL e ts).al k = e.al k ∧ (envL e ts).vis k = e.vis k := by
  match ts with
  | [] => rw [envL_nil]; exact ⟨rfl, rfl⟩
  | t :: ts =>
    simp only [dkeysL, List.mem_append, not_or] at h
    rw [envL_cons]
    have h1 := den_other e t k h.1 (fun v hv => hn v (by simp [vissL, hv]))
    have h2 := envL_other (den e t).2 ts k h.2 (fun v hv => hn v (by simp [vissL, hv]))
    exact ⟨h2.1.trans h1.1, h2.2.trans h1.2⟩
end

theorem envL_marks (e : Env) (ts : List Tree) (k : Key) (h : k ∉ marks ts) :
    (envL e ts).al k = e.al k ∧ (envL e ts).vis k = e.vis k := by
  simp only [marks, List.mem_append, not_or, List.mem_filterMap, not_exists, not_and] at h
  exact envL_other e ts k h.1 (fun v hv => h.2 v hv)

/-! ### After a history -/

theorem used_history (u : Unicode) (alOf : Key → Option Al) (sts : List Statement) (r : RState) (hr : History u alOf r)
    (hws : ∀ s ∈ sts, WFL alOf s.visit) : History u alOf (sts.foldl (fun r s => (render u r (some s)).2) r) := by
  induction sts generalizing r with
  | nil => exact hr
  | cons s sts ih =>
    refine ih _ (.render _ _ hr ?_) (fun s' h => hws s' (by simp [h]))
    rintro s' ⟨⟩
    exact hws _ (by simp)

theorem used_other (u : Unicode) (alOf : Key → Option Al) (hok : AlOk alOf) (sts : List Statement) (r : RState)
    (hr : History u alOf r) (hws : ∀ s ∈ sts, WFL alOf s.visit) (k : Key)
    (h : ∀ s ∈ sts, s.err = none → k ∉ marks s.visit) :
    (envOf (sts.foldl (fun r s => (render u r (some s)).2) r)).al k = (envOf r).al k ∧
    (envOf (sts.foldl (fun r s => (render u r (some s)).2) r)).vis k = (envOf r).vis k := by
  induction sts generalizing r with
  | nil => exact ⟨rfl, rfl⟩
  | cons s sts ih =>
    have hi := History.idle hok hr
    have hs : (envOf (render u r (some s)).2).al k = (envOf r).al k ∧ (envOf (render u r (some s)).2).vis k = (envOf r).vis k := by
      unfold render
      cases he : s.err with
      | some e => simp only [he, and_self]
      | none =>
        simp only [he]
        have := refine_top hok r s.visit (hws s (by simp)) hi.skip hi.al hi.astack hi.seps hi.stack
        have h2 := envL_marks (envOf r) s.visit k (h s (by simp) he)
        rw [this]
        unfold envL at h2
        exact h2
    have ih := ih (render u r (some s)).2 (.render _ _ hr (by rintro s' ⟨⟩; exact hws _ (by simp)))
      (fun s' h => hws s' (by simp [h])) (fun s' h' => h s' (by simp [h']))
    exact ⟨ih.1.trans hs.1, ih.2.trans hs.2⟩

/-! ### C13 -/

/-- Full claim: a used renderer gives the same result as a new one.  It is false (`C13_reuse_node`, `C13_reuse_alias`).
This theorem covers every statement in which no named node and no expression with an alias of an earlier (successfully built)
statement occurs; names and aliases of its own are allowed. -/
theorem C13_disjoint_partial (u : Unicode) (alOf : Key → Option Al) (hok : AlOk alOf) (sts : List Statement)
    (hws : ∀ s ∈ sts, WFL alOf s.visit) (st : Statement) (hw : WFL alOf st.visit)
    (hd : ∀ s ∈ sts, s.err = none → ∀ k ∈ marks s.visit, k ∉ keysL st.visit) :
    (render u (used u sts) (some st)).1 = (render u RState.new (some st)).1 := by
  have hi : Idle alOf (used u sts) := History.idle hok (used_history u alOf sts _ .new hws)
  have hn := History.idle hok (History.new (u := u) (alOf := alOf))
  have h1 := refine_idle hok hi _ hw
  have h2 := refine_idle hok hn _ hw
  have h3 := (denL_agree (K := fun k => k ∈ keysL st.visit) false true (envOf (used u sts)) (envOf RState.new) st.visit
    (fun k h => h) (fun k hk => by
      have := used_other u alOf hok sts _ .new hws k (fun s hs he hm => hd s hs he k hm hk)
      exact this)).1
  unfold renderOut at h1 h2
  unfold render
  simp only [h1, h2, h3]
  cases st.err with
  | some e => rfl
  | none => rfl

namespace SampleReuse
open Sample

/-- `m.age` as `b`, and the node `m`. -/
def ageAsB : Al := ⟨60, 61, c!"b"⟩
def other : Tree := .node ⟨40, .node (some c!"m")⟩ [word 41 c!"m", word 42 c!":`Film`"]

/-- `MATCH (m:Film), (m) RETURN m.age AS b ORDER BY b`. -/
def fresh : Statement := ⟨none, [
  .node ⟨50, .plain c!"MATCH " c!" " false⟩ [.node ⟨51, .plain [] [] true⟩ [other, other]],
  .node ⟨52, .plain c!"RETURN" [] false⟩ [.node ⟨53, .plain c!" " [] true⟩ [.node ageAsB.vis [word 61 c!"m.age"]],
    .node ⟨54, .plain c!" ORDER BY " [] true⟩ [word 61 c!"m.age"]]]⟩

/-- What the renderer was used for: two statements with names and aliases, one that has an error, and the first again. -/
def history : List Statement := [⟨none, ret⟩, ⟨none, twice⟩, ⟨some .nilStatement, fresh.visit⟩, ⟨none, ret⟩]

-- the theorem applies, although the statement has a name and an alias of its own, both used twice
example (u : Unicode) : (render u (used u history) (some fresh)).1 = (render u RState.new (some fresh)).1 := by
  refine C13_disjoint_partial u (aliases [ageAs, ageAsB]) (aliases_ok _ (by simp [ageAs, ageAsB])) _ ?_ _ ?_ ?_
  · simp [history, fresh, other, ageAsB, WFL, WF, ret, twice, person, aged, age, word, ageAs, Al.vis, aliases, Vis.asAlias,
      Special, keysL, keys, DelegateOk]
  · simp [fresh, other, ageAsB, WFL, WF, word, ageAs, Al.vis, aliases, Vis.asAlias, Special, keysL, keys, DelegateOk]
  · decide +kernel

example : (render Unicode.ascii (used Unicode.ascii history) (some fresh)).1
    = .ok c!"MATCH (m:`Film`), (m) RETURN m.age AS b ORDER BY b" := by decide +kernel

end SampleReuse

end Verif
