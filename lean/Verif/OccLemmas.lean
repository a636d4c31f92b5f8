import Verif.RenderLemmas
import Verif.LexLemmas

/-
Lemmas about the occurrences of named nodes and aliases in the compositional reading.
-/

namespace Verif

open Spec

theorem denL_env (a b c d : Bool) (e : Env) (ts : List Tree) : (denL a b e ts).2 = (denL c d e ts).2 := by
  induction ts generalizing b d e with
  | nil => simp [denL]
  | cons t ts ih =>
    cases t with
    | raw s => simp only [denL]; exact ih _ _ _
    | node v kids => simp only [denL]; exact ih _ _ _

/-- Memories after a list of trees. -/
def envL (e : Env) (ts : List Tree) : Env := (denL false true e ts).2

theorem denL_envL (a b : Bool) (e : Env) (ts : List Tree) : (denL a b e ts).2 = envL e ts := denL_env _ _ _ _ _ _

theorem envL_cons (e : Env) (t : Tree) (ts : List Tree) : envL e (t :: ts) = envL (den e t).2 ts := by
  cases t with
  | raw s => simp [envL, denL, den]
  | node v kids => simp only [envL, denL]; exact denL_env _ _ _ _ _ _

theorem envL_nil (e : Env) : envL e [] = e := by simp [envL, denL]

theorem den_raw (e : Env) (s : Str) : den e (.raw s) = (s, e) := by simp [den]

theorem den_short {e : Env} {v : Vis} {kids : List Tree} {op cl : Str} (h : shown e v = .short op cl) :
    den e (.node v kids) = (op ++ (muteL e kids).1 ++ cl, defined (muteL e kids).2 v) := by
  simp [den, h]

theorem den_full {e : Env} {v : Vis} {kids : List Tree} {op cl : Str} (h : shown e v = .full op cl) :
    den e (.node v kids) = (op ++ (denL v.kind.isSub true (described e v) kids).1 ++ cl,
      defined (envL (described e v) kids) v) := by
  simp only [den, h, denL_envL]

mutual
theorem mute_noRaw (e : Env) (t : Tree) (h : NoRaw t) : (mute e t).1 = [] := by
  match t with
  | .raw s => exact absurd h (by simp [NoRaw])
  | .node v kids => simp only [mute]; exact muteL_noRaw e kids h
theorem muteL_noRaw (e : Env) (ts : List Tree) (h : NoRawL ts) : (muteL e ts).1 = [] := by
  match ts with
  | [] => rfl
  | t :: ts => simp only [muteL]; rw [mute_noRaw e t h.1, muteL_noRaw _ ts h.2]; rfl
end

mutual
theorem mute_noDkeys (e : Env) (t : Tree) (h : dkeys t = []) : (mute e t).2 = e := by
  match t with
  | .raw s => rfl
  | .node v kids =>
    simp only [dkeys, List.append_eq_nil_iff] at h
    simp only [mute]
    rw [muteL_noDkeys e kids h.2]
    unfold defined
    cases hv : v.asAlias with
    | none => rfl
    | some a => rw [hv] at h; simp at h
theorem muteL_noDkeys (e : Env) (ts : List Tree) (h : dkeysL ts = []) : (muteL e ts).2 = e := by
  match ts with
  | [] => rfl
  | t :: ts =>
    simp only [dkeysL, List.append_eq_nil_iff] at h
    simp only [muteL]
    rw [mute_noDkeys e t h.1, muteL_noDkeys e ts h.2]
end

/-! ### Every shown construct occurs in the text -/

theorem infix_trans {a b c : Str} (h1 : ∃ x y, b = x ++ a ++ y) (h2 : ∃ x y, c = x ++ b ++ y) :
    ∃ x y, c = x ++ a ++ y := by
  obtain ⟨x, y, rfl⟩ := h1
  obtain ⟨x', y', rfl⟩ := h2
  exact ⟨x' ++ x, y ++ y', by simp⟩

mutual
theorem piece_infix (e : Env) (t : Tree) : ∀ p ∈ pieces e t, ∃ x y, (den e t).1 = x ++ p.text ++ y := by
  match t with
  | .raw s => intro p hp; simp [pieces] at hp
  | .node v kids =>
    intro p hp
    simp only [pieces] at hp
    cases hs : shown e v with
    | short op cl =>
      rw [hs] at hp
      simp only [List.mem_singleton] at hp
      subst hp
      exact ⟨[], [], by simp⟩
    | full op cl =>
      rw [hs] at hp
      simp only [List.mem_append, List.mem_singleton] at hp
      rcases hp with hp | hp
      · refine infix_trans (piece_infixL v.kind.isSub true (described e v) kids p hp) ?_
        rw [den_full hs]
        exact ⟨_, _, rfl⟩
      · subst hp
        exact ⟨[], [], by simp⟩
theorem piece_infixL (sub first : Bool) (e : Env) (ts : List Tree) :
    ∀ p ∈ piecesL e ts, ∃ x y, (denL sub first e ts).1 = x ++ p.text ++ y := by
  match ts with
  | [] => intro p hp; simp [piecesL] at hp
  | .raw s :: ts =>
    intro p hp
    simp only [piecesL, pieces, List.nil_append, den_raw] at hp
    obtain ⟨x, y, h⟩ := piece_infixL sub first e ts p hp
    exact ⟨s ++ x, y, by simp only [denL]; rw [h]; simp⟩
  | .node v kids :: ts =>
    intro p hp
    simp only [piecesL, List.mem_append] at hp
    rcases hp with hp | hp
    · obtain ⟨x, y, h⟩ := piece_infix e (.node v kids) p hp
      exact ⟨sepText sub first ++ x, y ++ (denL sub false (den e (.node v kids)).2 ts).1, by
        simp only [denL]; rw [h]; simp⟩
    · obtain ⟨x, y, h⟩ := piece_infixL sub false _ ts p hp
      exact ⟨sepText sub first ++ (den e (.node v kids)).1 ++ x, y, by
        simp only [denL]; rw [h]; simp⟩
end

/-! ### Which constructs are shown -/

mutual
theorem piece_viss (e : Env) (t : Tree) : ∀ p ∈ pieces e t, p.v ∈ viss t := by
  match t with
  | .raw s => intro p hp; simp [pieces] at hp
  | .node v kids =>
    intro p hp
    simp only [pieces] at hp
    simp only [viss, List.mem_cons]
    split at hp
    · simp only [List.mem_singleton] at hp
      subst hp; exact Or.inl rfl
    · simp only [List.mem_append, List.mem_singleton] at hp
      rcases hp with hp | hp
      · exact Or.inr (piece_vissL _ kids p hp)
      · subst hp; exact Or.inl rfl
theorem piece_vissL (e : Env) (ts : List Tree) : ∀ p ∈ piecesL e ts, p.v ∈ vissL ts := by
  match ts with
  | [] => intro p hp; simp [piecesL] at hp
  | t :: ts =>
    intro p hp
    simp only [piecesL, List.mem_append] at hp
    simp only [vissL, List.mem_append]
    rcases hp with hp | hp
    · exact Or.inl (piece_viss e t p hp)
    · exact Or.inr (piece_vissL _ ts p hp)
end

mutual
theorem viss_keys (t : Tree) : ∀ v ∈ viss t, v.key ∈ keys t ∧ ∀ a, v.asAlias = some a → a.dkey ∈ keys t := by
  match t with
  | .raw s => intro p hp; simp [viss] at hp
  | .node v kids =>
    intro w hw
    simp only [viss, List.mem_cons] at hw
    simp only [keys, List.mem_append, List.mem_cons]
    rcases hw with hw | hw
    · subst hw
      refine ⟨Or.inl (Or.inl rfl), ?_⟩
      intro a ha
      rw [ha]; simp
    · have := viss_keysL kids w hw
      exact ⟨Or.inr this.1, fun a ha => Or.inr (this.2 a ha)⟩
theorem viss_keysL (ts : List Tree) : ∀ v ∈ vissL ts, v.key ∈ keysL ts ∧ ∀ a, v.asAlias = some a → a.dkey ∈ keysL ts := by
  match ts with
  | [] => intro p hp; simp [vissL] at hp
  | t :: ts =>
    intro w hw
    simp only [vissL, List.mem_append] at hw
    simp only [keysL, List.mem_append]
    rcases hw with hw | hw
    · have := viss_keys t w hw
      exact ⟨Or.inl this.1, fun a ha => Or.inl (this.2 a ha)⟩
    · have := viss_keysL ts w hw
      exact ⟨Or.inr this.1, fun a ha => Or.inr (this.2 a ha)⟩
end

mutual
theorem WF_viss {alOf} (t : Tree) (h : WF alOf t) : ∀ v ∈ viss t, alOf v.key = v.asAlias := by
  match t with
  | .raw s => intro p hp; simp [viss] at hp
  | .node v kids =>
    intro w hw
    simp only [viss, List.mem_cons] at hw
    rcases hw with hw | hw
    · subst hw; exact h.1
    · exact WFL_viss kids h.2.2.2 w hw
theorem WFL_viss {alOf} (ts : List Tree) (h : WFL alOf ts) : ∀ v ∈ vissL ts, alOf v.key = v.asAlias := by
  match ts with
  | [] => intro p hp; simp [vissL] at hp
  | t :: ts =>
    intro w hw
    simp only [vissL, List.mem_append] at hw
    rcases hw with hw | hw
    · exact WF_viss t h.1 w hw
    · exact WFL_viss ts h.2 w hw
end

/-! ### Aliases -/

section Alias

variable {alOf : Key → Option Al} {a : Al}

/-- Once defined, the alias stays. -/
theorem defined_keep (hone : ∀ k b, alOf k = some b → b.dkey = a.dkey → b = a) {e : Env} {v : Vis}
    (hv : alOf v.key = v.asAlias) (h : e.al a.dkey = some a) : (defined e v).al a.dkey = some a := by
  unfold defined
  cases hva : v.asAlias with
  | none => exact h
  | some b =>
    simp only
    split
    · rename_i heq
      rw [hone v.key b (hv.trans hva) heq.symm]
    · exact h

mutual
theorem mute_keep (hone : ∀ k b, alOf k = some b → b.dkey = a.dkey → b = a) (e : Env) (t : Tree) (hw : WF alOf t)
    (h : e.al a.dkey = some a) : (mute e t).2.al a.dkey = some a := by
  match t with
  | .raw s => exact h
  | .node v kids => exact defined_keep hone hw.1 (muteL_keep hone e kids hw.2.2.2 h)
theorem muteL_keep (hone : ∀ k b, alOf k = some b → b.dkey = a.dkey → b = a) (e : Env) (ts : List Tree) (hw : WFL alOf ts)
    (h : e.al a.dkey = some a) : (muteL e ts).2.al a.dkey = some a := by
  match ts with
  | [] => exact h
  | t :: ts => exact muteL_keep hone _ ts hw.2 (mute_keep hone e t hw.1 h)
end

mutual
theorem den_keep (hone : ∀ k b, alOf k = some b → b.dkey = a.dkey → b = a) (e : Env) (t : Tree) (hw : WF alOf t)
    (h : e.al a.dkey = some a) : (den e t).2.al a.dkey = some a := by
  match t with
  | .raw s => rw [den_raw]; exact h
  | .node v kids =>
    cases hs : shown e v with
    | short op cl => rw [den_short hs]; exact defined_keep hone hw.1 (muteL_keep hone e kids hw.2.2.2 h)
    | full op cl =>
      rw [den_full hs]
      exact defined_keep hone hw.1 (envL_keep hone _ kids hw.2.2.2 (by rw [described_al]; exact h))
theorem envL_keep (hone : ∀ k b, alOf k = some b → b.dkey = a.dkey → b = a) (e : Env) (ts : List Tree) (hw : WFL alOf ts)
    (h : e.al a.dkey = some a) : (envL e ts).al a.dkey = some a := by
  match ts with
  | [] => rw [envL_nil]; exact h
  | t :: ts => rw [envL_cons]; exact envL_keep hone _ ts hw.2 (den_keep hone e t hw.1 h)
end

mutual
/-- Once the alias is defined, the alias and its expression are shown as the alias. -/
theorem pieces_seen (hone : ∀ k b, alOf k = some b → b.dkey = a.dkey → b = a)
    (hno : ∀ k b, alOf k = some b → b.dkey ≠ a.key) (ha : alOf a.key = some a)
    (e : Env) (t : Tree) (hw : WF alOf t) (hr : NoRaw t) (hi : AlInv alOf e.al)
    (h : e.al a.dkey = some a) : ∀ p ∈ pieces e t, p.v.key = a.key ∨ p.v.key = a.dkey → p.text = a.text := by
  match t with
  | .raw s => intro p hp; simp [pieces] at hp
  | .node v kids =>
    intro p hp hk
    have self : ∀ q : Piece, q.v = v → q.text = (den e (.node v kids)).1 → (v.key = a.key ∨ v.key = a.dkey) → q.text = a.text := by
      intro q _ hq2 hvk
      rw [hq2]
      have : shown e v = .short a.text [] := by
        unfold shown
        rcases hvk with hvk | hvk
        · have hnone : e.al v.key = none := by
            cases hx : e.al v.key with
            | none => rfl
            | some b =>
              have := hi _ _ hx
              exact absurd (this.1.trans hvk) (hno _ _ this.2)
          have hva : v.asAlias = some a := by rw [← hw.1, hvk, ha]
          obtain ⟨_, hvv⟩ := asAlias_key hva
          rw [hnone]
          rw [hvv]
          simp [Al.vis, h]
        · rw [hvk, h]
      rw [den_short this, muteL_noRaw _ _ hr]
      simp
    simp only [pieces] at hp
    split at hp
    · simp only [List.mem_singleton] at hp
      subst hp
      exact self _ rfl rfl hk
    · simp only [List.mem_append, List.mem_singleton] at hp
      rcases hp with hp | hp
      · exact piecesL_seen hone hno ha _ kids hw.2.2.2 hr (by rw [described_al]; exact hi) (by rw [described_al]; exact h) p hp hk
      · subst hp
        exact self _ rfl rfl hk
theorem piecesL_seen (hone : ∀ k b, alOf k = some b → b.dkey = a.dkey → b = a)
    (hno : ∀ k b, alOf k = some b → b.dkey ≠ a.key) (ha : alOf a.key = some a)
    (e : Env) (ts : List Tree) (hw : WFL alOf ts) (hr : NoRawL ts) (hi : AlInv alOf e.al)
    (h : e.al a.dkey = some a) : ∀ p ∈ piecesL e ts, p.v.key = a.key ∨ p.v.key = a.dkey → p.text = a.text := by
  match ts with
  | [] => intro p hp; simp [piecesL] at hp
  | t :: ts =>
    intro p hp hk
    simp only [piecesL, List.mem_append] at hp
    rcases hp with hp | hp
    · exact pieces_seen hone hno ha e t hw.1 hr.1 hi h p hp hk
    · exact piecesL_seen hone hno ha _ ts hw.2 hr.2 (den_AlInv e t hi hw.1) (den_keep hone e t hw.1 h) p hp hk
end

mutual
/-- Where the alias was shown it is defined afterwards. -/
theorem pieces_define (hone : ∀ k b, alOf k = some b → b.dkey = a.dkey → b = a) (ha : alOf a.key = some a)
    (e : Env) (t : Tree) (hw : WF alOf t) : ∀ p ∈ pieces e t, p.v.key = a.key → (den e t).2.al a.dkey = some a := by
  match t with
  | .raw s => intro p hp; simp [pieces] at hp
  | .node v kids =>
    intro p hp hk
    have self : v.key = a.key → ∀ e' : Env, (defined e' v).al a.dkey = some a := by
      intro hvk e'
      have hva : v.asAlias = some a := by rw [← hw.1, hvk, ha]
      simp [defined, hva]
    cases hs : shown e v with
    | short op cl =>
      simp only [pieces, hs, List.mem_singleton] at hp
      subst hp
      rw [den_short hs]; exact self hk _
    | full op cl =>
      simp only [pieces, hs, List.mem_append, List.mem_singleton] at hp
      rw [den_full hs]
      rcases hp with hp | hp
      · exact defined_keep hone hw.1 (piecesL_define hone ha _ kids hw.2.2.2 p hp hk)
      · subst hp; exact self hk _
theorem piecesL_define (hone : ∀ k b, alOf k = some b → b.dkey = a.dkey → b = a) (ha : alOf a.key = some a)
    (e : Env) (ts : List Tree) (hw : WFL alOf ts) :
    ∀ p ∈ piecesL e ts, p.v.key = a.key → (envL e ts).al a.dkey = some a := by
  match ts with
  | [] => intro p hp; simp [piecesL] at hp
  | t :: ts =>
    intro p hp hk
    simp only [piecesL, List.mem_append] at hp
    rw [envL_cons]
    rcases hp with hp | hp
    · exact envL_keep hone _ ts hw.2 (pieces_define hone ha e t hw.1 p hp hk)
    · exact piecesL_define hone ha _ ts hw.2 p hp hk
end

end Alias

/-- In `l`, everything selected by `Q` that comes after something selected by `P` satisfies `R`. -/
def After {α : Type} (P Q R : α → Prop) (l : List α) : Prop :=
  ∀ xs x ys, l = xs ++ x :: ys → P x → ∀ y ∈ ys, Q y → R y

theorem After.append {α : Type} {P Q R : α → Prop} {l m : List α} (hl : After P Q R l) (hm : After P Q R m)
    (h : (∃ x ∈ l, P x) → ∀ y ∈ m, Q y → R y) : After P Q R (l ++ m) := by
  intro xs x ys heq hx y hy hq
  rcases List.append_eq_append_iff.1 heq with ⟨as, h1, h2⟩ | ⟨bs, h1, h2⟩
  · exact hm as x ys h2 hx y hy hq
  · cases bs with
    | nil =>
      simp only [List.nil_append] at h2
      exact hm [] x ys (by simpa using h2.symm) hx y hy hq
    | cons b bs =>
      simp only [List.cons_append, List.cons.injEq] at h2
      obtain ⟨rfl, rfl⟩ := h2
      rcases List.mem_append.1 hy with hy | hy
      · exact hl xs x bs h1 hx y hy hq
      · exact h ⟨x, by simp [h1], hx⟩ y hy hq

theorem After.nil {α : Type} {P Q R : α → Prop} : After P Q R ([] : List α) := by
  intro xs x ys h; simp at h

theorem After.single {α : Type} {P Q R : α → Prop} (a : α) : After P Q R [a] := by
  intro xs x ys h _ y hy
  cases xs with
  | nil => simp at h; obtain ⟨_, rfl⟩ := h; simp at hy
  | cons _ xs => simp at h

section Alias2

variable {alOf : Key → Option Al} {a : Al}

mutual
theorem pieces_alias_after (hone : ∀ k b, alOf k = some b → b.dkey = a.dkey → b = a)
    (hno : ∀ k b, alOf k = some b → b.dkey ≠ a.key) (ha : alOf a.key = some a)
    (e : Env) (t : Tree) (hw : WF alOf t) (hr : NoRaw t) (hi : AlInv alOf e.al) :
    After (fun p : Piece => p.v.key = a.key) (fun p => p.v.key = a.key ∨ p.v.key = a.dkey) (fun p => p.text = a.text)
      (pieces e t) := by
  match t with
  | .raw s => simp only [pieces]; exact After.nil
  | .node v kids =>
    cases hs : shown e v with
    | short op cl => simp only [pieces, hs]; exact After.single _
    | full op cl =>
      simp only [pieces, hs]
      refine After.append (piecesL_alias_after hone hno ha _ kids hw.2.2.2 hr (by rw [described_al]; exact hi))
        (After.single _) ?_
      rintro ⟨p, hp, hpk⟩ q hq hqk
      simp only [List.mem_singleton] at hq
      subst hq
      simp only at hqk
      exfalso
      have hpv := piece_vissL _ kids p hp
      have hkeys := viss_keysL kids _ hpv
      have hpa : p.v.asAlias = some a := by rw [← WFL_viss kids hw.2.2.2 _ hpv, hpk, ha]
      rcases hqk with hqk | hqk
      · exact hw.2.1 (Or.inr (Or.inr (by rw [hqk, ha]; rfl))) (by rw [hqk, ← hpk]; exact hkeys.1)
      · exact hw.2.1 (Or.inl ⟨_, _, ha, hqk.symm⟩) (by rw [hqk]; exact hkeys.2 a hpa)
theorem piecesL_alias_after (hone : ∀ k b, alOf k = some b → b.dkey = a.dkey → b = a)
    (hno : ∀ k b, alOf k = some b → b.dkey ≠ a.key) (ha : alOf a.key = some a)
    (e : Env) (ts : List Tree) (hw : WFL alOf ts) (hr : NoRawL ts) (hi : AlInv alOf e.al) :
    After (fun p : Piece => p.v.key = a.key) (fun p => p.v.key = a.key ∨ p.v.key = a.dkey) (fun p => p.text = a.text)
      (piecesL e ts) := by
  match ts with
  | [] => simp only [piecesL]; exact After.nil
  | t :: ts =>
    simp only [piecesL]
    refine After.append (pieces_alias_after hone hno ha e t hw.1 hr.1 hi)
      (piecesL_alias_after hone hno ha _ ts hw.2 hr.2 (den_AlInv e t hi hw.1)) ?_
    rintro ⟨p, hp, hpk⟩ q hq hqk
    exact piecesL_seen hone hno ha _ ts hw.2 hr.2 (den_AlInv e t hi hw.1) (pieces_define hone ha e t hw.1 p hp hpk) q hq hqk
end

/-! An alias that was not yet defined is shown in full the first time. -/

theorem shown_alias_first {e : Env} {v : Vis} (hno : e.al v.key = none) (hva : v.asAlias = some a)
    (h : e.al a.dkey = none) : shown e v = .full [] (c!" AS " ++ a.text) := by
  obtain ⟨_, hvv⟩ := asAlias_key hva
  have : e.al a.key = none := by rw [(asAlias_key hva).1]; exact hno
  rw [hvv]
  simp [shown, Al.vis, this, h]

mutual
/-- Under `AliasesOutside`, an alias becomes defined only where it is shown. -/
theorem den_defined_shown (e : Env) (t : Tree) (hw : WF alOf t) (ho : AliasesOutside alOf t) (ha : alOf a.key = some a)
    (hone : ∀ k b, alOf k = some b → b.dkey = a.dkey → b = a) (hi : AlInv alOf e.al)
    (h0 : e.al a.dkey = none) (h : (den e t).2.al a.dkey ≠ none) : ∃ p ∈ pieces e t, p.v.key = a.key := by
  match t with
  | .raw s => rw [den_raw] at h; exact absurd h0 h
  | .node v kids =>
    have self : ∀ e' : Env, e'.al a.dkey = none → (defined e' v).al a.dkey ≠ none → v.key = a.key := by
      intro e' h1 h2
      by_cases hd : ∀ b, v.asAlias = some b → b.dkey ≠ a.dkey
      · rw [defined_al_of_ne hd] at h2; exact absurd h1 h2
      · have hex : ∃ b, v.asAlias = some b ∧ b.dkey = a.dkey :=
          Classical.byContradiction fun hne => hd fun b hb hbd => hne ⟨b, hb, hbd⟩
        obtain ⟨b, hb, hbd⟩ := hex
        have := hone v.key b (hw.1.trans hb) hbd
        subst this
        exact (asAlias_key hb).1.symm
    cases hs : shown e v with
    | short op cl =>
      rw [den_short hs] at h
      refine ⟨⟨v, kids, (den e (.node v kids)).1, true⟩, by simp [pieces, hs], ?_⟩
      refine self (muteL e kids).2 ?_ h
      have hsp : Special alOf v := by
        unfold shown at hs
        cases hx : e.al v.key with
        | some b => exact Or.inl ⟨_, _, (hi _ _ hx).2, (hi _ _ hx).1⟩
        | none =>
          rw [hx] at hs
          cases hk : v.kind with
          | plain _ _ _ => rw [hk] at hs; cases hs
          | node n =>
            cases n with
            | none => rw [hk] at hs; cases hs
            | some n => exact Or.inr (Or.inl ⟨n, hk⟩)
          | aliased dk tx => exact Or.inr (Or.inr (by rw [hw.1]; simp [Vis.asAlias, hk]))
      rw [muteL_noDkeys e kids (ho.1 hsp)]
      exact h0
    | full op cl =>
      rw [den_full hs] at h
      cases hk : (envL (described e v) kids).al a.dkey with
      | none =>
        exact ⟨⟨v, kids, (den e (.node v kids)).1, false⟩, by simp [pieces, hs], self _ hk h⟩
      | some b =>
        obtain ⟨p, hp, hpk⟩ := envL_defined_shown (described e v) kids hw.2.2.2 ho.2 ha hone
          (by rw [described_al]; exact hi) (by rw [described_al]; exact h0) (by rw [hk]; simp)
        exact ⟨p, by simp [pieces, hs, hp], hpk⟩
theorem envL_defined_shown (e : Env) (ts : List Tree) (hw : WFL alOf ts) (ho : AliasesOutsideL alOf ts) (ha : alOf a.key = some a)
    (hone : ∀ k b, alOf k = some b → b.dkey = a.dkey → b = a) (hi : AlInv alOf e.al)
    (h0 : e.al a.dkey = none) (h : (envL e ts).al a.dkey ≠ none) : ∃ p ∈ piecesL e ts, p.v.key = a.key := by
  match ts with
  | [] => rw [envL_nil] at h; exact absurd h0 h
  | t :: ts =>
    rw [envL_cons] at h
    cases hk : (den e t).2.al a.dkey with
    | none =>
      obtain ⟨p, hp, hpk⟩ := envL_defined_shown _ ts hw.2 ho.2 ha hone (den_AlInv e t hi hw.1) hk h
      exact ⟨p, by simp [piecesL, hp], hpk⟩
    | some b =>
      obtain ⟨p, hp, hpk⟩ := den_defined_shown e t hw.1 ho.1 ha hone hi h0 (by rw [hk]; simp)
      exact ⟨p, by simp [piecesL, hp], hpk⟩
end

/-- What it means that a piece refers to alias `a`. -/
def Refers (a : Al) (p : Piece) : Prop := p.v.key = a.key ∨ (p.v.key = a.dkey ∧ p.short = true)

mutual
/-- Under `AliasesOutside`, where something refers to an alias, the alias was defined before, or its definition is shown. -/
theorem pieces_refer (e : Env) (t : Tree) (hw : WF alOf t) (ho : AliasesOutside alOf t) (ha : alOf a.key = some a)
    (hone : ∀ k b, alOf k = some b → b.dkey = a.dkey → b = a) (hno : ∀ k b, alOf k = some b → b.dkey ≠ a.key)
    (hi : AlInv alOf e.al) (hdn : ∀ v ∈ viss t, v.key = a.dkey → ∀ n, v.kind ≠ .node (some n)) (hda : alOf a.dkey = none)
    (h0 : e.al a.dkey = none) (h : ∃ p ∈ pieces e t, Refers a p) :
    ∃ p ∈ pieces e t, ∃ x, p.text = x ++ c!" AS " ++ a.text := by
  match t with
  | .raw s => obtain ⟨p, hp, _⟩ := h; simp [pieces] at hp
  | .node v kids =>
    obtain ⟨p, hp, hpr⟩ := h
    have hnv : v.key = a.key → e.al v.key = none ∧ v.asAlias = some a := by
      intro hvk
      refine ⟨?_, by rw [← hw.1, hvk, ha]⟩
      cases hx : e.al v.key with
      | none => rfl
      | some b => exact absurd ((hi _ _ hx).1.trans hvk) (hno _ _ (hi _ _ hx).2)
    cases hs : shown e v with
    | short op cl =>
      simp only [pieces, hs, List.mem_singleton] at hp
      subst hp
      exfalso
      rcases hpr with hvk | ⟨hvk, _⟩
      · simp only at hvk
        rw [shown_alias_first (hnv hvk).1 (hnv hvk).2 h0] at hs
        cases hs
      · simp only at hvk
        have hx : v.asAlias = none := by rw [← hw.1, hvk, hda]
        unfold shown at hs
        rw [hvk, h0] at hs
        cases hkk : v.kind with
        | plain _ _ _ => rw [hkk] at hs; cases hs
        | node n =>
          cases n with
          | none => rw [hkk] at hs; cases hs
          | some n => exact hdn v (by simp [viss]) hvk n hkk
        | aliased dk tx => simp [Vis.asAlias, hkk] at hx
    | full op cl =>
      simp only [pieces, hs, List.mem_append, List.mem_singleton] at hp ⊢
      rcases hp with hp | hp
      · obtain ⟨q, hq, hx⟩ := piecesL_refer (described e v) kids hw.2.2.2 ho.2 ha hone hno
          (by rw [described_al]; exact hi) (fun w hw' => hdn w (by simp [viss, hw'])) hda (by rw [described_al]; exact h0) ⟨p, hp, hpr⟩
        exact ⟨q, Or.inl hq, hx⟩
      · subst hp
        rcases hpr with hvk | ⟨_, hsh⟩
        · simp only at hvk
          refine ⟨_, Or.inr rfl, ?_⟩
          have hs' := shown_alias_first (hnv hvk).1 (hnv hvk).2 h0
          rw [den_full hs']
          exact ⟨(denL v.kind.isSub true (described e v) kids).1, by simp⟩
        · cases hsh
theorem piecesL_refer (e : Env) (ts : List Tree) (hw : WFL alOf ts) (ho : AliasesOutsideL alOf ts) (ha : alOf a.key = some a)
    (hone : ∀ k b, alOf k = some b → b.dkey = a.dkey → b = a) (hno : ∀ k b, alOf k = some b → b.dkey ≠ a.key)
    (hi : AlInv alOf e.al) (hdn : ∀ v ∈ vissL ts, v.key = a.dkey → ∀ n, v.kind ≠ .node (some n)) (hda : alOf a.dkey = none)
    (h0 : e.al a.dkey = none) (h : ∃ p ∈ piecesL e ts, Refers a p) :
    ∃ p ∈ piecesL e ts, ∃ x, p.text = x ++ c!" AS " ++ a.text := by
  match ts with
  | [] => obtain ⟨p, hp, _⟩ := h; simp [piecesL] at hp
  | t :: ts =>
    obtain ⟨p, hp, hpr⟩ := h
    simp only [piecesL, List.mem_append] at hp ⊢
    have first : (∃ p ∈ pieces e t, Refers a p) →
        ∃ p, (p ∈ pieces e t ∨ p ∈ piecesL (den e t).2 ts) ∧ ∃ x, p.text = x ++ c!" AS " ++ a.text := by
      intro hx
      obtain ⟨q, hq, hx⟩ := pieces_refer e t hw.1 ho.1 ha hone hno hi (fun w hw' => hdn w (by simp [vissL, hw'])) hda h0 hx
      exact ⟨q, Or.inl hq, hx⟩
    rcases hp with hp | hp
    · exact first ⟨p, hp, hpr⟩
    · cases hk : (den e t).2.al a.dkey with
      | none =>
        obtain ⟨q, hq, hx⟩ := piecesL_refer _ ts hw.2 ho.2 ha hone hno (den_AlInv e t hi hw.1)
          (fun w hw' => hdn w (by simp [vissL, hw'])) hda hk ⟨p, hp, hpr⟩
        exact ⟨q, Or.inr hq, hx⟩
      | some b =>
        obtain ⟨q, hq, hqk⟩ := den_defined_shown e t hw.1 ho.1 ha hone hi h0 (by rw [hk]; simp)
        exact first ⟨q, hq, Or.inl hqk⟩
end

mutual
/-- The first occurrence of an alias that was not defined before is shown in full. -/
theorem pieces_alias_first (e : Env) (t : Tree) (hw : WF alOf t) (ho : AliasesOutside alOf t) (ha : alOf a.key = some a)
    (hone : ∀ k b, alOf k = some b → b.dkey = a.dkey → b = a) (hno : ∀ k b, alOf k = some b → b.dkey ≠ a.key)
    (hi : AlInv alOf e.al) (h0 : e.al a.dkey = none) :
    ∀ xs p ys, pieces e t = xs ++ p :: ys → (∀ q ∈ xs, q.v.key ≠ a.key) → p.v.key = a.key → p.short = false := by
  match t with
  | .raw s => intro xs p ys hp; simp [pieces] at hp
  | .node v kids =>
    intro xs p ys heq hx hk
    have hnv : v.key = a.key → shown e v = .full [] (c!" AS " ++ a.text) := by
      intro hvk
      refine shown_alias_first ?_ (by rw [← hw.1, hvk, ha]) h0
      cases hx : e.al v.key with
      | none => rfl
      | some b => exact absurd ((hi _ _ hx).1.trans hvk) (hno _ _ (hi _ _ hx).2)
    cases hs : shown e v with
    | short op cl =>
      simp only [pieces, hs] at heq
      cases xs with
      | nil =>
        simp only [List.nil_append, List.cons.injEq] at heq
        obtain ⟨rfl, _⟩ := heq
        rw [hnv hk] at hs; cases hs
      | cons _ xs => simp at heq
    | full op cl =>
      simp only [pieces, hs] at heq
      rcases List.append_eq_append_iff.1 heq with ⟨as, h1, h2⟩ | ⟨bs, h1, h2⟩
      · cases as with
        | nil =>
          simp only [List.nil_append, List.cons.injEq] at h2
          obtain ⟨rfl, _⟩ := h2
          rfl
        | cons _ _ => simp at h2
      · cases bs with
        | nil =>
          simp only [List.nil_append, List.cons.injEq] at h2
          obtain ⟨rfl, _⟩ := h2
          rfl
        | cons b bs =>
          simp only [List.cons_append, List.cons.injEq] at h2
          obtain ⟨rfl, _⟩ := h2
          exact piecesL_alias_first _ kids hw.2.2.2 ho.2 ha hone hno (by rw [described_al]; exact hi)
            (by rw [described_al]; exact h0) xs p bs h1 hx hk
theorem piecesL_alias_first (e : Env) (ts : List Tree) (hw : WFL alOf ts) (ho : AliasesOutsideL alOf ts)
    (ha : alOf a.key = some a)
    (hone : ∀ k b, alOf k = some b → b.dkey = a.dkey → b = a) (hno : ∀ k b, alOf k = some b → b.dkey ≠ a.key)
    (hi : AlInv alOf e.al) (h0 : e.al a.dkey = none) :
    ∀ xs p ys, piecesL e ts = xs ++ p :: ys → (∀ q ∈ xs, q.v.key ≠ a.key) → p.v.key = a.key → p.short = false := by
  match ts with
  | [] => intro xs p ys hp; simp [piecesL] at hp
  | t :: ts =>
    intro xs p ys heq hx hk
    simp only [piecesL] at heq
    have keep : (∀ q ∈ pieces e t, q.v.key ≠ a.key) → (den e t).2.al a.dkey = none := by
      intro hq
      cases hk : (den e t).2.al a.dkey with
      | none => rfl
      | some b =>
        obtain ⟨q, hq', hqk⟩ := den_defined_shown e t hw.1 ho.1 ha hone hi h0 (by rw [hk]; simp)
        exact absurd hqk (hq q hq')
    rcases List.append_eq_append_iff.1 heq with ⟨as, h1, h2⟩ | ⟨bs, h1, h2⟩
    · exact piecesL_alias_first _ ts hw.2 ho.2 ha hone hno (den_AlInv e t hi hw.1)
        (keep (fun q hq => hx q (by rw [h1]; simp [hq]))) as p ys h2 (fun q hq => hx q (by rw [h1]; simp [hq])) hk
    · cases bs with
      | nil =>
        simp only [List.nil_append] at h2
        simp only [List.append_nil] at h1
        exact piecesL_alias_first _ ts hw.2 ho.2 ha hone hno (den_AlInv e t hi hw.1)
          (keep (fun q hq => hx q (by rw [← h1]; exact hq))) [] p ys (by simpa using h2.symm) (by simp) hk
      | cons b bs =>
        simp only [List.cons_append, List.cons.injEq] at h2
        obtain ⟨rfl, _⟩ := h2
        exact pieces_alias_first e t hw.1 ho.1 ha hone hno hi h0 xs p bs h1 hx hk
end

end Alias2

/-! ### Named nodes -/

section Named

variable {alOf : Key → Option Al} {k : Key} {name : Str}

theorem described_mono {e : Env} {v : Vis} (h : e.vis k = true) : (described e v).vis k = true := by
  unfold described
  split
  · simp only; split <;> simp [h]
  · exact h

mutual
theorem den_vis_mono (e : Env) (t : Tree) (h : e.vis k = true) : (den e t).2.vis k = true := by
  match t with
  | .raw s => rw [den_raw]; exact h
  | .node v kids =>
    cases hs : shown e v with
    | short op cl => rw [den_short hs, defined_vis, muteL_vis]; exact h
    | full op cl => rw [den_full hs, defined_vis]; exact envL_vis_mono _ kids (described_mono h)
theorem envL_vis_mono (e : Env) (ts : List Tree) (h : e.vis k = true) : (envL e ts).vis k = true := by
  match ts with
  | [] => rw [envL_nil]; exact h
  | t :: ts => rw [envL_cons]; exact envL_vis_mono _ ts (den_vis_mono e t h)
end

theorem al_none_of {e : Env} (hno : ∀ j b, alOf j = some b → b.dkey ≠ k) (hi : AlInv alOf e.al) : e.al k = none := by
  cases hx : e.al k with
  | none => rfl
  | some b => exact absurd (hi _ _ hx).1 (hno _ _ (hi _ _ hx).2)

mutual
theorem pieces_described (hno : ∀ j b, alOf j = some b → b.dkey ≠ k)
    (e : Env) (t : Tree) (hw : WF alOf t) (hr : NoRaw t) (hi : AlInv alOf e.al)
    (hn : ∀ v ∈ viss t, v.key = k → v.kind = .node (some name)) (h : e.vis k = true) :
    ∀ p ∈ pieces e t, p.v.key = k → p.text = c!"(" ++ name ++ c!")" := by
  match t with
  | .raw s => intro p hp; simp [pieces] at hp
  | .node v kids =>
    intro p hp hk
    have self : v.key = k → (den e (.node v kids)).1 = c!"(" ++ name ++ c!")" := by
      intro hvk
      have : shown e v = .short (c!"(" ++ name) c!")" := by
        unfold shown
        rw [hvk, al_none_of hno hi, hn v (by simp [viss]) hvk, h]
        rfl
      rw [den_short this, muteL_noRaw _ _ hr]
      simp
    cases hs : shown e v with
    | short op cl =>
      simp only [pieces, hs, List.mem_singleton] at hp
      subst hp; exact self hk
    | full op cl =>
      simp only [pieces, hs, List.mem_append, List.mem_singleton] at hp
      rcases hp with hp | hp
      · exact piecesL_described hno _ kids hw.2.2.2 hr (by rw [described_al]; exact hi)
          (fun w hw' => hn w (by simp [viss, hw'])) (described_mono h) p hp hk
      · subst hp; exact self hk
theorem piecesL_described (hno : ∀ j b, alOf j = some b → b.dkey ≠ k)
    (e : Env) (ts : List Tree) (hw : WFL alOf ts) (hr : NoRawL ts) (hi : AlInv alOf e.al)
    (hn : ∀ v ∈ vissL ts, v.key = k → v.kind = .node (some name)) (h : e.vis k = true) :
    ∀ p ∈ piecesL e ts, p.v.key = k → p.text = c!"(" ++ name ++ c!")" := by
  match ts with
  | [] => intro p hp; simp [piecesL] at hp
  | t :: ts =>
    intro p hp hk
    simp only [piecesL, List.mem_append] at hp
    rcases hp with hp | hp
    · exact pieces_described hno e t hw.1 hr.1 hi (fun w hw' => hn w (by simp [vissL, hw'])) h p hp hk
    · exact piecesL_described hno _ ts hw.2 hr.2 (den_AlInv e t hi hw.1) (fun w hw' => hn w (by simp [vissL, hw']))
        (den_vis_mono e t h) p hp hk
end

mutual
theorem pieces_describe (e : Env) (t : Tree) (hno : ∀ j b, alOf j = some b → b.dkey ≠ k) (hw : WF alOf t)
    (hi : AlInv alOf e.al)
    (hn : ∀ v ∈ viss t, v.key = k → v.kind = .node (some name)) :
    ∀ p ∈ pieces e t, p.v.key = k → (den e t).2.vis k = true := by
  match t with
  | .raw s => intro p hp; simp [pieces] at hp
  | .node v kids =>
    intro p hp hk
    cases hs : shown e v with
    | short op cl =>
      simp only [pieces, hs, List.mem_singleton] at hp
      subst hp
      simp only at hk
      rw [den_short hs, defined_vis, muteL_vis]
      unfold shown at hs
      rw [hk, al_none_of hno hi, hn v (by simp [viss]) hk] at hs
      simp only at hs
      split at hs
      · assumption
      · cases hs
    | full op cl =>
      simp only [pieces, hs, List.mem_append, List.mem_singleton] at hp
      rw [den_full hs, defined_vis]
      rcases hp with hp | hp
      · exact piecesL_describe _ kids hno hw.2.2.2 (by rw [described_al]; exact hi)
          (fun w hw' => hn w (by simp [viss, hw'])) p hp hk
      · subst hp
        simp only at hk
        refine envL_vis_mono _ kids ?_
        unfold described
        rw [hn v (by simp [viss]) hk]
        simp [hk]
theorem piecesL_describe (e : Env) (ts : List Tree) (hno : ∀ j b, alOf j = some b → b.dkey ≠ k) (hw : WFL alOf ts)
    (hi : AlInv alOf e.al)
    (hn : ∀ v ∈ vissL ts, v.key = k → v.kind = .node (some name)) :
    ∀ p ∈ piecesL e ts, p.v.key = k → (envL e ts).vis k = true := by
  match ts with
  | [] => intro p hp; simp [piecesL] at hp
  | t :: ts =>
    intro p hp hk
    simp only [piecesL, List.mem_append] at hp
    rw [envL_cons]
    rcases hp with hp | hp
    · exact envL_vis_mono _ ts (pieces_describe e t hno hw.1 hi (fun w hw' => hn w (by simp [vissL, hw'])) p hp hk)
    · exact piecesL_describe _ ts hno hw.2 (den_AlInv e t hi hw.1) (fun w hw' => hn w (by simp [vissL, hw'])) p hp hk
end

mutual
theorem pieces_named_after (hno : ∀ j b, alOf j = some b → b.dkey ≠ k)
    (e : Env) (t : Tree) (hw : WF alOf t) (hr : NoRaw t) (hi : AlInv alOf e.al)
    (hn : ∀ v ∈ viss t, v.key = k → v.kind = .node (some name)) :
    After (fun p : Piece => p.v.key = k) (fun p => p.v.key = k) (fun p => p.text = c!"(" ++ name ++ c!")") (pieces e t) := by
  match t with
  | .raw s => simp only [pieces]; exact After.nil
  | .node v kids =>
    cases hs : shown e v with
    | short op cl => simp only [pieces, hs]; exact After.single _
    | full op cl =>
      simp only [pieces, hs]
      refine After.append (piecesL_named_after hno _ kids hw.2.2.2 hr (by rw [described_al]; exact hi)
        (fun w hw' => hn w (by simp [viss, hw']))) (After.single _) ?_
      rintro ⟨p, hp, hpk⟩ q hq hqk
      simp only [List.mem_singleton] at hq
      subst hq
      simp only at hqk
      exfalso
      refine hw.2.1 (Or.inr (Or.inl ⟨name, hn v (by simp [viss]) hqk⟩)) ?_
      rw [hqk, ← hpk]
      exact (viss_keysL kids _ (piece_vissL _ kids p hp)).1
theorem piecesL_named_after (hno : ∀ j b, alOf j = some b → b.dkey ≠ k)
    (e : Env) (ts : List Tree) (hw : WFL alOf ts) (hr : NoRawL ts) (hi : AlInv alOf e.al)
    (hn : ∀ v ∈ vissL ts, v.key = k → v.kind = .node (some name)) :
    After (fun p : Piece => p.v.key = k) (fun p => p.v.key = k) (fun p => p.text = c!"(" ++ name ++ c!")")
      (piecesL e ts) := by
  match ts with
  | [] => simp only [piecesL]; exact After.nil
  | t :: ts =>
    simp only [piecesL]
    refine After.append (pieces_named_after hno e t hw.1 hr.1 hi (fun w hw' => hn w (by simp [vissL, hw'])))
      (piecesL_named_after hno _ ts hw.2 hr.2 (den_AlInv e t hi hw.1) (fun w hw' => hn w (by simp [vissL, hw']))) ?_
    rintro ⟨p, hp, hpk⟩ q hq hqk
    exact piecesL_described hno _ ts hw.2 hr.2 (den_AlInv e t hi hw.1) (fun w hw' => hn w (by simp [vissL, hw']))
      (pieces_describe e t hno hw.1 hi (fun w hw' => hn w (by simp [vissL, hw'])) p hp hpk) q hq hqk
end

/-- A piece that shows a named node in full. -/
def FullNode (p : Piece) : Prop := ∃ e : Env, p.text = c!"(" ++ (denL false true e p.kids).1 ++ c!")"

mutual
/-- The first piece for a named node that was not described yet shows it in full. -/
theorem pieces_named_first (hno : ∀ j b, alOf j = some b → b.dkey ≠ k)
    (e : Env) (t : Tree) (hw : WF alOf t) (hi : AlInv alOf e.al)
    (hn : ∀ v ∈ viss t, v.key = k → v.kind = .node (some name)) (h : e.vis k = false) :
    ∀ xs p ys, pieces e t = xs ++ p :: ys → (∀ q ∈ xs, q.v.key ≠ k) → p.v.key = k → FullNode p := by
  match t with
  | .raw s => intro xs p ys hp; simp [pieces] at hp
  | .node v kids =>
    intro xs p ys heq hx hk
    have self : v.key = k → shown e v = .full c!"(" c!")" := by
      intro hvk
      unfold shown
      rw [hvk, al_none_of hno hi, hn v (by simp [viss]) hvk, h]
      rfl
    cases hs : shown e v with
    | short op cl =>
      simp only [pieces, hs] at heq
      cases xs with
      | nil =>
        simp only [List.nil_append, List.cons.injEq] at heq
        obtain ⟨rfl, _⟩ := heq
        rw [self hk] at hs; cases hs
      | cons _ xs => simp at heq
    | full op cl =>
      simp only [pieces, hs] at heq
      have hfull : v.key = k → FullNode ⟨v, kids, (den e (.node v kids)).1, false⟩ := by
        intro hvk
        refine ⟨described e v, ?_⟩
        simp only
        rw [den_full (self hvk), hn v (by simp [viss]) hvk]
        rfl
      rcases List.append_eq_append_iff.1 heq with ⟨as, h1, h2⟩ | ⟨bs, h1, h2⟩
      · cases as with
        | nil =>
          simp only [List.nil_append, List.cons.injEq] at h2
          obtain ⟨rfl, _⟩ := h2
          exact hfull hk
        | cons _ _ => simp at h2
      · cases bs with
        | nil =>
          simp only [List.nil_append, List.cons.injEq] at h2
          obtain ⟨rfl, _⟩ := h2
          exact hfull hk
        | cons b bs =>
          simp only [List.cons_append, List.cons.injEq] at h2
          obtain ⟨rfl, _⟩ := h2
          by_cases hvk : v.key = k
          · exfalso
            refine hw.2.1 (Or.inr (Or.inl ⟨name, hn v (by simp [viss]) hvk⟩)) ?_
            rw [hvk, ← hk]
            exact (viss_keysL kids _ (piece_vissL (described e v) kids p (by rw [h1]; simp))).1
          · refine piecesL_named_first hno _ kids hw.2.2.2 (by rw [described_al]; exact hi)
              (fun w hw' => hn w (by simp [viss, hw'])) ?_ xs p bs h1 hx hk
            unfold described
            split
            · simp only; rw [if_neg (fun hh => hvk hh.symm)]; exact h
            · exact h
theorem piecesL_named_first (hno : ∀ j b, alOf j = some b → b.dkey ≠ k)
    (e : Env) (ts : List Tree) (hw : WFL alOf ts) (hi : AlInv alOf e.al)
    (hn : ∀ v ∈ vissL ts, v.key = k → v.kind = .node (some name)) (h : e.vis k = false) :
    ∀ xs p ys, piecesL e ts = xs ++ p :: ys → (∀ q ∈ xs, q.v.key ≠ k) → p.v.key = k → FullNode p := by
  match ts with
  | [] => intro xs p ys hp; simp [piecesL] at hp
  | t :: ts =>
    intro xs p ys heq hx hk
    simp only [piecesL] at heq
    rcases List.append_eq_append_iff.1 heq with ⟨as, h1, h2⟩ | ⟨bs, h1, h2⟩
    · refine piecesL_named_first hno _ ts hw.2 (den_AlInv e t hi hw.1) (fun w hw' => hn w (by simp [vissL, hw'])) ?_
        as p ys h2 (fun q hq => hx q (by rw [h1]; simp [hq])) hk
      exact den_vis_of_not hno e t hw.1 hi (fun w hw' => hn w (by simp [vissL, hw'])) h
        (fun q hq => hx q (by rw [h1]; simp [hq]))
    · cases bs with
      | nil =>
        simp only [List.nil_append] at h2
        simp only [List.append_nil] at h1
        refine piecesL_named_first hno _ ts hw.2 (den_AlInv e t hi hw.1) (fun w hw' => hn w (by simp [vissL, hw'])) ?_
          [] p ys (by simpa using h2.symm) (by simp) hk
        exact den_vis_of_not hno e t hw.1 hi (fun w hw' => hn w (by simp [vissL, hw'])) h
          (fun q hq => hx q (by rw [← h1]; exact hq))
      | cons b bs =>
        simp only [List.cons_append, List.cons.injEq] at h2
        obtain ⟨rfl, _⟩ := h2
        exact pieces_named_first hno e t hw.1 hi (fun w hw' => hn w (by simp [vissL, hw'])) h xs p bs h1 hx hk
/-- A node that was not shown is not described. -/
theorem den_vis_of_not (hno : ∀ j b, alOf j = some b → b.dkey ≠ k)
    (e : Env) (t : Tree) (hw : WF alOf t) (hi : AlInv alOf e.al)
    (hn : ∀ v ∈ viss t, v.key = k → v.kind = .node (some name)) (h : e.vis k = false)
    (hx : ∀ q ∈ pieces e t, q.v.key ≠ k) : (den e t).2.vis k = false := by
  match t with
  | .raw s => rw [den_raw]; exact h
  | .node v kids =>
    cases hs : shown e v with
    | short op cl => rw [den_short hs, defined_vis, muteL_vis]; exact h
    | full op cl =>
      simp only [pieces, hs, List.mem_append, List.mem_singleton] at hx
      have hvk : v.key ≠ k := hx ⟨v, kids, (den e (.node v kids)).1, false⟩ (Or.inr rfl)
      rw [den_full hs, defined_vis]
      refine envL_vis_of_not hno _ kids hw.2.2.2 (by rw [described_al]; exact hi)
        (fun w hw' => hn w (by simp [viss, hw'])) ?_ (fun q hq => hx q (Or.inl hq))
      unfold described
      split
      · simp only; rw [if_neg (fun hh => hvk hh.symm)]; exact h
      · exact h
theorem envL_vis_of_not (hno : ∀ j b, alOf j = some b → b.dkey ≠ k)
    (e : Env) (ts : List Tree) (hw : WFL alOf ts) (hi : AlInv alOf e.al)
    (hn : ∀ v ∈ vissL ts, v.key = k → v.kind = .node (some name)) (h : e.vis k = false)
    (hx : ∀ q ∈ piecesL e ts, q.v.key ≠ k) : (envL e ts).vis k = false := by
  match ts with
  | [] => rw [envL_nil]; exact h
  | t :: ts =>
    simp only [piecesL, List.mem_append] at hx
    rw [envL_cons]
    exact envL_vis_of_not hno _ ts hw.2 (den_AlInv e t hi hw.1) (fun w hw' => hn w (by simp [vissL, hw']))
      (den_vis_of_not hno e t hw.1 hi (fun w hw' => hn w (by simp [vissL, hw'])) h (fun q hq => hx q (Or.inl hq)))
      (fun q hq => hx q (Or.inr hq))
end

end Named

/-! ### A piece is the compositional text of its construct -/

mutual
theorem piece_den (e : Env) (t : Tree) : ∀ p ∈ pieces e t, ∃ e' : Env, p.text = (den e' (.node p.v p.kids)).1 ∧
    (p.short = false ↔ ∃ op cl, shown e' p.v = .full op cl) := by
  match t with
  | .raw s => intro p hp; simp [pieces] at hp
  | .node v kids =>
    intro p hp
    cases hs : shown e v with
    | short op cl =>
      simp only [pieces, hs, List.mem_singleton] at hp
      subst hp
      exact ⟨e, rfl, by simp [hs]⟩
    | full op cl =>
      simp only [pieces, hs, List.mem_append, List.mem_singleton] at hp
      rcases hp with hp | hp
      · exact piece_denL _ kids p hp
      · subst hp
        exact ⟨e, rfl, by simp [hs]⟩
theorem piece_denL (e : Env) (ts : List Tree) : ∀ p ∈ piecesL e ts, ∃ e' : Env, p.text = (den e' (.node p.v p.kids)).1 ∧
    (p.short = false ↔ ∃ op cl, shown e' p.v = .full op cl) := by
  match ts with
  | [] => intro p hp; simp [piecesL] at hp
  | t :: ts =>
    intro p hp
    simp only [piecesL, List.mem_append] at hp
    rcases hp with hp | hp
    · exact piece_den e t p hp
    · exact piece_denL _ ts p hp
end

theorem join_cons (sep x : Str) (xs : List Str) : join sep (x :: xs) = x ++ xs.flatMap (fun y => sep ++ y) := by
  induction xs generalizing x with
  | nil => simp [join]
  | cons y ys ih => simp only [join, ih, List.flatMap_cons, List.append_assoc]

theorem denL_rest (e : Env) (ts : List Tree) (h : AllNodes ts) :
    (denL true false e ts).1 = (texts e ts).flatMap (fun x => c!", " ++ x) := by
  induction ts generalizing e with
  | nil => simp [denL, texts]
  | cons t ts ih =>
    obtain ⟨v, kids, rfl⟩ := h t (by simp)
    simp only [denL, texts, ih _ (fun t ht => h t (by simp [ht]))]
    simp [sepText]

theorem denL_join (e : Env) (ts : List Tree) (h : AllNodes ts) :
    (denL true true e ts).1 = join c!", " (texts e ts) := by
  cases ts with
  | nil => simp [denL, texts, join]
  | cons t ts =>
    obtain ⟨v, kids, rfl⟩ := h t (by simp)
    simp only [denL, texts, join_cons, denL_rest _ ts (fun t ht => h t (by simp [ht]))]
    simp [sepText]

theorem denL_flatten (first : Bool) (e : Env) (ts : List Tree) : (denL false first e ts).1 = (texts e ts).flatten := by
  induction ts generalizing e first with
  | nil => simp [denL, texts]
  | cons t ts ih =>
    cases t with
    | raw s => simp [denL, texts, ih, den_raw]
    | node v kids => simp [denL, texts, ih, sepText]

mutual
theorem den_plain (e : Env) (t : Tree) (h : Plain t) (hk : ∀ k ∈ keys t, e.al k = none) : den e t = (flat t, e) := by
  match t with
  | .raw s => simp [den, flat]
  | .node v kids =>
    have hv : e.al v.key = none := hk _ (by simp [keys])
    have hkids := denL_plain v.kind.isSub true e kids h.2 (fun k hk' => hk k (by simp [keys, hk']))
    rcases h.1 with hkind | ⟨op, cl, sub, hkind⟩
    · have hs : shown e v = .full c!"(" c!")" := by simp [shown, hv, hkind]
      have hd : described e v = e := by simp [described, hkind]
      have ha : ∀ e', defined e' v = e' := fun e' => by simp [defined, Vis.asAlias, hkind]
      rw [hkind] at hkids
      simp only [den, hs, hd, ha, flat, hkind, hkids]
      rfl
    · have hs : shown e v = .full op cl := by simp [shown, hv, hkind]
      have hd : described e v = e := by simp [described, hkind]
      have ha : ∀ e', defined e' v = e' := fun e' => by simp [defined, Vis.asAlias, hkind]
      rw [hkind] at hkids
      simp only [den, hs, hd, ha, flat, hkind, hkids]
      rfl
theorem denL_plain (sub first : Bool) (e : Env) (ts : List Tree) (h : PlainL ts) (hk : ∀ k ∈ keysL ts, e.al k = none) :
    denL sub first e ts = (flatL sub first ts, e) := by
  match ts with
  | [] => simp [denL, flatL]
  | .raw s :: ts =>
    have := denL_plain sub first e ts h.2 (fun k hk' => hk k (by simp [keysL, hk']))
    simp [denL, flatL, this]
  | .node v kids :: ts =>
    have h1 := den_plain e (.node v kids) h.1 (fun k hk' => hk k (by simp [keysL, hk']))
    have := denL_plain sub false e ts h.2 (fun k hk' => hk k (by simp [keysL, hk']))
    simp [denL, flatL, this, h1]
end

/-! ### Starting states -/

theorem refine_top {alOf : Key → Option Al} (hok : AlOk alOf) (s : RState) (ts : List Tree) (hw : WFL alOf ts)
    (h1 : s.skip = false) (h2 : AlInv alOf s.al) (h3 : s.astack = []) (h4 : ∀ l, s.seps l = none) (h5 : s.stack = []) :
    s.run (acceptL ts) = s.upd (denL false true (envOf s) ts).2 (denL false true (envOf s) ts).1 := by
  have hc : Ctx alOf s (keysL ts) (dkeysL ts) := by
    refine ⟨h1, h2, by simp [h3], fun l _ => h4 l, Or.inl ?_⟩
    simp only [RState.peek, h5, List.headD_nil]
    cases h0 : alOf 0 with
    | none => rfl
    | some a => exact absurd rfl (hok 0 a h0).2.1
  obtain ⟨f, hf1, hf2, hf3⟩ := refine_list hok s ts false true hw hc (by simp [h4])
  rw [hf3]
  have : f = s.seps := by
    funext l
    by_cases hl : l = s.level + 1
    · rw [hl, hf2 rfl, h4]
    · exact hf1 l hl
  rw [this]
  rfl

/-- What is true of every renderer a user can have. -/
structure Idle (alOf : Key → Option Al) (s : RState) : Prop where
  skip : s.skip = false
  al : AlInv alOf s.al
  astack : s.astack = []
  seps : ∀ l, s.seps l = none
  stack : s.stack = []
  out : s.out = []

theorem History.idle {u : Unicode} {alOf : Key → Option Al} (hok : AlOk alOf) {r : RState} (h : History u alOf r) :
    Idle alOf r := by
  induction h with
  | new => exact ⟨rfl, fun k a h => by simp [RState.new] at h, rfl, fun _ => rfl, rfl, rfl⟩
  | render r st _ hw ih =>
    unfold render
    cases st with
    | none => exact ih
    | some st =>
      cases he : st.err with
      | some e => simp only [he]; exact ih
      | none =>
        simp only [he]
        have := refine_top hok r st.visit (hw st rfl) ih.skip ih.al ih.astack ih.seps ih.stack
        refine ⟨ih.skip, ?_, ih.astack, ?_, ih.stack, ih.out⟩
        · simp only [this, RState.upd]
          exact denL_AlInv _ _ _ _ ih.al (hw st rfl)
        · simp only [this, RState.upd]; exact ih.seps

theorem refine_idle {alOf : Key → Option Al} (hok : AlOk alOf) {r : RState} (h : Idle alOf r) (ts : List Tree)
    (hw : WFL alOf ts) : renderOut r ts = (denL false true (envOf r) ts).1 := by
  unfold renderOut
  rw [refine_top hok r ts hw h.skip h.al h.astack h.seps h.stack]
  simp [RState.upd, h.out]

theorem mem_takeWhile' {α} {p : α → Bool} {l : List α} {x : α} (h : x ∈ l.takeWhile p) : p x = true := by
  induction l with
  | nil => simp at h
  | cons a l ih =>
    rw [List.takeWhile_cons] at h
    split at h
    · rcases List.mem_cons.1 h with rfl | h
      · assumption
      · exact ih h
    · simp at h

theorem head?_dropWhile_false {α} (p : α → Bool) (l : List α) (c : α) (h : (l.dropWhile p).head? = some c) :
    p c = false := by
  have hne : l.dropWhile p ≠ [] := by intro h0; rw [h0] at h; cases h
  have := head_dropWhile_false p l hne
  rw [List.head?_eq_some_head hne] at h
  cases h
  exact this

theorem trimSpace_spec (u : Unicode) (s : Str) : (∃ w w', s = w ++ trimSpace u s ++ w' ∧
      (∀ c ∈ w, u.isSpace c = true) ∧ (∀ c ∈ w', u.isSpace c = true)) ∧
    (∀ c, (trimSpace u s).head? = some c → u.isSpace c = false) ∧
    (∀ c, (trimSpace u s).getLast? = some c → u.isSpace c = false) := by
  have h1 := List.takeWhile_append_dropWhile (p := u.isSpace) (l := s)
  have h2 := List.takeWhile_append_dropWhile (p := u.isSpace) (l := (trimLeft u s).reverse)
  have h2' : trimLeft u s = trimSpace u s ++ ((trimLeft u s).reverse.takeWhile u.isSpace).reverse := by
    have := congrArg List.reverse h2
    rw [List.reverse_append, List.reverse_reverse] at this
    exact this.symm
  refine ⟨⟨s.takeWhile u.isSpace, ((trimLeft u s).reverse.takeWhile u.isSpace).reverse, ?_, ?_, ?_⟩, ?_, ?_⟩
  · rw [List.append_assoc, ← h2']; exact h1.symm
  · intro c hc; exact mem_takeWhile' hc
  · intro c hc; exact mem_takeWhile' (List.mem_reverse.1 hc)
  · intro c hc
    refine head?_dropWhile_false u.isSpace s c ?_
    show (trimLeft u s).head? = some c
    rw [h2']
    cases ht : trimSpace u s with
    | nil => rw [ht] at hc; cases hc
    | cons x xs => rw [ht] at hc; exact hc
  · intro c hc
    refine head?_dropWhile_false u.isSpace (trimLeft u s).reverse c ?_
    rw [trimSpace, List.getLast?_reverse] at hc
    exact hc

end Verif
