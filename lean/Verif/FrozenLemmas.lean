import Verif.PatMeansSpec
import Verif.DenoteLemmas

/-
Lemmas about the memories: trees as they are shown.
-/

namespace Verif.Rd

open Spec

theorem _root_.Verif.Spec.Settled.node {e : Env} {v : Vis} {kids ts : List Tree} (h : Settled e (.node v kids :: ts)) :
    (∀ a, v.asAlias = some a → e.al a.dkey = some a) ∧ Settled e kids ∧ Settled e ts := by
  refine ⟨fun a => h v (by simp [vissL, viss]) a, fun x hx => h x ?_, fun x hx => h x ?_⟩ <;> simp [vissL, viss, hx]

theorem _root_.Verif.Spec.Settled.tail {e : Env} {t : Tree} {ts : List Tree} (h : Settled e (t :: ts)) : Settled e ts :=
  fun x hx => h x (by simp [vissL, hx])

theorem vissL_append (xs ys : List Tree) : vissL (xs ++ ys) = vissL xs ++ vissL ys := by
  induction xs with
  | nil => rfl
  | cons t ts ih => simp [vissL, ih]

theorem _root_.Verif.Spec.Settled.append {e : Env} {xs ys : List Tree} : Settled e (xs ++ ys) ↔ Settled e xs ∧ Settled e ys := by
  simp only [Settled, vissL_append, List.mem_append]
  exact ⟨fun h => ⟨fun x hx => h x (.inl hx), fun x hx => h x (.inr hx)⟩, fun h x hx => hx.elim (h.1 x) (h.2 x)⟩

theorem _root_.Verif.Spec.Settled.congr {e e' : Env} {ts : List Tree} (h : Settled e ts) (he : e.al = e'.al) : Settled e' ts :=
  fun x hx a ha => he ▸ h x hx a ha

theorem _root_.Verif.Spec.Settled.nil {e : Env} : Settled e [] := fun x hx => by simp [vissL] at hx

theorem _root_.Verif.Spec.Settled.cons {e : Env} {v : Vis} {kids ts : List Tree} (hv : v.asAlias = none) (hk : Settled e kids) (ht : Settled e ts) : Settled e (.node v kids :: ts) := by
  intro x hx a ha
  simp only [vissL, viss, List.mem_append, List.mem_cons] at hx
  rcases hx with (rfl | hx) | hx
  · rw [hv] at ha; cases ha
  · exact hk x hx a ha
  · exact ht x hx a ha

theorem defined_settled {e : Env} {v : Vis} (h : ∀ a, v.asAlias = some a → e.al a.dkey = some a) : defined e v = e := by
  unfold defined
  split
  · next a ha =>
    congr
    funext k
    split
    · next hk => rw [hk, h a ha]
    · rfl
  · rfl

mutual
theorem mute_settled {e : Env} : ∀ {t : Tree}, Settled e [t] → (mute e t).2 = e
  | .raw _, _ => rfl
  | .node v kids, h => by
    simp only [mute]
    rw [muteL_settled h.node.2.1]
    exact defined_settled h.node.1
theorem muteL_settled {e : Env} : ∀ {ts : List Tree}, Settled e ts → (muteL e ts).2 = e
  | [], _ => rfl
  | t :: ts, h => by
    have h1 : Settled e [t] := (Settled.append (xs := [t]) (ys := ts)).mp h |>.1
    simp only [muteL]
    rw [mute_settled h1]
    exact muteL_settled h.tail
end

theorem Env.ext' {e e' : Env} (h1 : e.al = e'.al) (h2 : e.vis = e'.vis) : e = e' := by
  cases e; cases e'; simp_all

theorem denL_rest (e e' : Env) (sub first : Bool) (kids : List Tree) : denL sub first e' (rest e kids) = ((muteL e kids).1, e') := by
  unfold rest
  split
  · next h => rw [h]; rfl
  · simp [denL]

mutual
theorem den_frozen (e : Env) {e1 : Env} (h1 : Free e1) : ∀ t : Tree, den e1 (frozen e t) = ((den e t).1, e1)
  | .raw s => rfl
  | .node v kids => by
    cases hs : shown e v with
    | short op cl =>
      simp only [frozen, den, hs]
      simp [shown, h1 v.key, described, defined, Vis.asAlias, denL_rest, Kind.isSub]
    | full op cl =>
      have ih := denL_frozen (described e v) h1 v.kind.isSub true kids
      simp only [frozen, den, hs]
      have h2 : shown e1 ⟨v.key, .plain op cl v.kind.isSub⟩ = .full op cl := by simp [shown, h1 v.key]
      have h3 : described e1 ⟨v.key, .plain op cl v.kind.isSub⟩ = e1 := rfl
      have h4 : ∀ e', defined e' ⟨v.key, .plain op cl v.kind.isSub⟩ = e' := fun _ => rfl
      have h5 : (Kind.plain op cl v.kind.isSub).isSub = v.kind.isSub := rfl
      simp only [h2, h3, h4, h5, ih]
theorem denL_frozen (e : Env) {e1 : Env} (h1 : Free e1) (sub first : Bool) : ∀ ts : List Tree, denL sub first e1 (frozenL e ts) = ((denL sub first e ts).1, e1)
  | [] => rfl
  | .raw s :: ts => by
    have := denL_frozen e h1 sub first ts
    simp [frozenL, frozen, denL, den, this]
  | .node v kids :: ts => by
    have ih := den_frozen e h1 (.node v kids)
    have ih' := denL_frozen (den e (.node v kids)).2 h1 sub false ts
    obtain ⟨v', kids', hv⟩ : ∃ v' kids', frozen e (.node v kids) = .node v' kids' := by
      simp only [frozen]
      split <;> exact ⟨_, _, rfl⟩
    simp only [frozenL]
    rw [hv] at ih ⊢
    simp [denL, ih, ih']
end

/-- What is shown without memories of the tree as it is shown. -/
theorem shown_frozen {e : Env} {ts : List Tree} {s : Str} (hs : ∀ e', Free e' → shownAs e' (frozenL e ts) = (s, e')) : (shownAs e ts).1 = s := by
  have h1 := denL_frozen e (e1 := Env.empty) (fun _ => rfl) false true ts
  have h2 := hs Env.empty (fun _ => rfl)
  unfold shownAs at h2 ⊢
  rw [h1] at h2
  exact congrArg Prod.fst h2

theorem frozen_text (e : Env) (ts : List Tree) {e1 : Env} (h1 : Free e1) : shownAs e1 (frozenL e ts) = ((shownAs e ts).1, e1) :=
  denL_frozen e h1 false true ts

mutual
theorem dkeys_frozen (e : Env) : ∀ t : Tree, dkeys (frozen e t) = []
  | .raw _ => rfl
  | .node v kids => by
    simp only [frozen]
    split
    · simp only [dkeys, Vis.asAlias, rest]
      split <;> rfl
    · simp only [dkeys, Vis.asAlias]
      simpa using dkeysL_frozen (described e v) kids
theorem dkeysL_frozen (e : Env) : ∀ ts : List Tree, dkeysL (frozenL e ts) = []
  | [] => rfl
  | t :: ts => by simp [frozenL, dkeysL, dkeys_frozen e t, dkeysL_frozen _ ts]
end

theorem described_al (e : Env) (v : Vis) : (described e v).al = e.al := by
  unfold described; split <;> rfl

mutual
theorem den_al {e : Env} : ∀ {t : Tree}, Settled e [t] → (den e t).2.al = e.al
  | .raw _, _ => rfl
  | .node v kids, h => by
    obtain ⟨ha, hk, _⟩ := h.node
    simp only [den]
    split
    · simp only [muteL_settled hk, defined_settled ha]
    · have := denL_al v.kind.isSub true (hk.congr (described_al e v).symm)
      rw [described_al] at this
      simp only
      rw [defined_settled (by rw [this]; exact ha), this]
theorem denL_al {e : Env} (sub first : Bool) : ∀ {ts : List Tree}, Settled e ts → (denL sub first e ts).2.al = e.al
  | [], _ => rfl
  | .raw s :: ts, h => by simpa [denL] using denL_al sub first h.tail
  | .node v kids :: ts, h => by
    have h1 : Settled e [.node v kids] := (Settled.append (xs := [.node v kids]) (ys := ts)).mp h |>.1
    have h2 := den_al h1
    have := denL_al sub false (h.tail.congr h2.symm)
    simp only [denL]
    rw [this, h2]
end

mutual
theorem mem_dkeys {k : Key} : ∀ {t : Tree}, k ∈ dkeys t → ∃ v ∈ viss t, ∃ a, v.asAlias = some a ∧ a.dkey = k
  | .raw s, h => by simp [dkeys] at h
  | .node v kids, h => by
    simp only [dkeys, List.mem_append] at h
    rcases h with h | h
    · cases ha : v.asAlias with
      | some a =>
        rw [ha] at h
        exact ⟨v, by simp [viss], a, ha, (by simpa using h : k = a.dkey).symm⟩
      | none => rw [ha] at h; simp at h
    · obtain ⟨w, hw, r⟩ := mem_dkeysL h
      exact ⟨w, by simp [viss, hw], r⟩
theorem mem_dkeysL {k : Key} : ∀ {ts : List Tree}, k ∈ dkeysL ts → ∃ v ∈ vissL ts, ∃ a, v.asAlias = some a ∧ a.dkey = k
  | [], h => by simp [dkeysL] at h
  | t :: ts, h => by
    simp only [dkeysL, List.mem_append] at h
    rcases h with h | h
    · obtain ⟨w, hw, r⟩ := mem_dkeys h
      exact ⟨w, by simp [vissL, hw], r⟩
    · obtain ⟨w, hw, r⟩ := mem_dkeysL h
      exact ⟨w, by simp [vissL, hw], r⟩
end

theorem _root_.Verif.Spec.Settled.noAlias {e : Env} {ks : List Key} {ts : List Tree} (h : Settled e ts) (hk : Unaliased e ks) : NoAlias e ks ts := by
  intro k hm
  refine ⟨hk k hm, fun hd => ?_⟩
  obtain ⟨v, hv, a, ha, rfl⟩ := mem_dkeysL hd
  have := h v hv a ha
  rw [hk _ hm] at this
  cases this

variable {u : Unicode} {I : Meaning} {tight : Bool} {R : Val → I.D → CallKind → Prop}

/-- Expressions are read with their meaning. -/
theorem _root_.Verif.Spec.ExprTo.reads (hR : ∀ v d σ, R v d σ → Good' u I tight v d σ) {e e' : Env} {v : Val} {d : I.D} {σ : CallKind} (h : ExprTo R e v d σ e') :
    ∃ s ts, shownAs e v.visit = (s, e') ∧ Lexes u s ts ∧ Prefix I tight (level σ) ts d ∧ Head (level σ) ts ∧ e'.al = e.al := by
  obtain ⟨hs, rfl, v', hd, hv⟩ := h
  obtain ⟨s, ts, h1, h2, h3, h4, _⟩ := (hR _ _ _ hd).reads
  refine ⟨s, ts, Prod.ext (shown_frozen (by rw [← hv]; exact h1)) rfl, h2, h3, h4, denL_al _ _ hs⟩

theorem _root_.Verif.Spec.ExprTo.below (hR : ∀ v d σ, R v d σ → Good' u I tight v d σ) {e e' : Env} {v : Val} {d : I.D} {σ : CallKind} (h : ExprTo R e v d σ e') :
    ∃ s ts, shownAs e v.visit = (s, e') ∧ Lexes u s ts ∧ Prefix I tight 0 ts d ∧ Head 0 ts ∧ e'.al = e.al := by
  obtain ⟨s, ts, h1, h2, h3, h4, h5⟩ := ExprTo.reads hR h
  exact ⟨s, ts, h1, h2, h3.below (level_le σ) (by omega) h4, h4.mono (by omega), h5⟩

end Verif.Rd
