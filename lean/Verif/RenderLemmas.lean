import Verif.RenderSpec

/-
The renderer refines the compositional reading: helper lemmas and the simulation proof.
-/

namespace Verif

open Spec

namespace RState

theorem run_append (s : RState) (xs ys : List Event) : s.run (xs ++ ys) = (s.run xs).run ys := by
  simp [run, List.foldl_append]

theorem run_cons (s : RState) (e : Event) (es : List Event) : s.run (e :: es) = (s.step e).run es := rfl

theorem run_nil (s : RState) : s.run [] = s := rfl

end RState

/-- Invariant of the alias memory. -/
def AlInv (alOf : Key → Option Al) (al : Key → Option Al) : Prop :=
  ∀ k a, al k = some a → a.dkey = k ∧ alOf a.key = some a

theorem asAlias_key {v : Vis} {a : Al} (h : v.asAlias = some a) : a.key = v.key ∧ v = a.vis := by
  obtain ⟨k, kd⟩ := v
  cases kd <;> simp [Vis.asAlias] at h
  subst h; simp [Al.vis]

theorem asAlias_vis (a : Al) : a.vis.asAlias = some a := rfl

theorem defined_al_of_ne {e : Env} {v : Vis} {k : Key} (h : ∀ a, v.asAlias = some a → a.dkey ≠ k) :
    (defined e v).al k = e.al k := by
  unfold defined
  cases hv : v.asAlias with
  | none => rfl
  | some a =>
    have := h a hv
    simp only
    rw [if_neg (fun h' => this h'.symm)]

theorem defined_vis (e : Env) (v : Vis) : (defined e v).vis = e.vis := by
  unfold defined; cases v.asAlias <;> rfl

theorem described_al (e : Env) (v : Vis) : (described e v).al = e.al := by
  unfold described; split <;> rfl

theorem defined_isSome {e : Env} {v : Vis} {k : Key} (h : (e.al k).isSome) : ((defined e v).al k).isSome := by
  unfold defined
  cases hv : v.asAlias with
  | none => exact h
  | some a => simp only; split <;> simp [h]

theorem AlInv_defined {alOf : Key → Option Al} {e : Env} {v : Vis} (hi : AlInv alOf e.al)
    (hv : alOf v.key = v.asAlias) : AlInv alOf (defined e v).al := by
  unfold defined
  cases h : v.asAlias with
  | none => exact hi
  | some a =>
    intro k b hb
    simp only at hb
    split at hb
    · cases hb
      subst_vars
      refine ⟨rfl, ?_⟩
      rw [(asAlias_key h).1, hv, h]
    · exact hi k b hb

mutual
theorem mute_al_of_not_mem (e : Env) (t : Tree) (k : Key) (h : k ∉ dkeys t) : (mute e t).2.al k = e.al k := by
  match t with
  | .raw s => rfl
  | .node v kids =>
    simp only [dkeys, List.mem_append, not_or] at h
    simp only [mute]
    rw [defined_al_of_ne, muteL_al_of_not_mem e kids k h.2]
    intro a ha
    have := h.1
    rw [ha] at this
    simp at this
    exact fun h' => this h'.symm
theorem muteL_al_of_not_mem (e : Env) (ts : List Tree) (k : Key) (h : k ∉ dkeysL ts) : (muteL e ts).2.al k = e.al k := by
  match ts with
  | [] => rfl
  | t :: ts =>
    simp only [dkeysL, List.mem_append, not_or] at h
    simp only [muteL]
    rw [muteL_al_of_not_mem _ ts k h.2, mute_al_of_not_mem e t k h.1]
end

mutual
theorem mute_isSome (e : Env) (t : Tree) (k : Key) (h : (e.al k).isSome) : ((mute e t).2.al k).isSome := by
  match t with
  | .raw s => exact h
  | .node v kids => exact defined_isSome (muteL_isSome e kids k h)
theorem muteL_isSome (e : Env) (ts : List Tree) (k : Key) (h : (e.al k).isSome) : ((muteL e ts).2.al k).isSome := by
  match ts with
  | [] => exact h
  | t :: ts => exact muteL_isSome _ ts k (mute_isSome e t k h)
end

mutual
theorem mute_vis (e : Env) (t : Tree) : (mute e t).2.vis = e.vis := by
  match t with
  | .raw s => rfl
  | .node v kids => simp only [mute, defined_vis]; exact muteL_vis e kids
theorem muteL_vis (e : Env) (ts : List Tree) : (muteL e ts).2.vis = e.vis := by
  match ts with
  | [] => rfl
  | t :: ts => simp only [muteL]; rw [muteL_vis _ ts, mute_vis e t]
end

mutual
theorem mute_AlInv {alOf} (e : Env) (t : Tree) (hi : AlInv alOf e.al) (hw : WF alOf t) : AlInv alOf (mute e t).2.al := by
  match t with
  | .raw s => exact hi
  | .node v kids => exact AlInv_defined (muteL_AlInv e kids hi hw.2.2.2) hw.1
theorem muteL_AlInv {alOf} (e : Env) (ts : List Tree) (hi : AlInv alOf e.al) (hw : WFL alOf ts) :
    AlInv alOf (muteL e ts).2.al := by
  match ts with
  | [] => exact hi
  | t :: ts => exact muteL_AlInv _ ts (mute_AlInv e t hi hw.1) hw.2
end

mutual
theorem den_al_of_not_mem (e : Env) (t : Tree) (k : Key) (h : k ∉ dkeys t) : (den e t).2.al k = e.al k := by
  match t with
  | .raw s => simp [den]
  | .node v kids =>
    simp only [dkeys, List.mem_append, not_or] at h
    have hd : ∀ a, v.asAlias = some a → a.dkey ≠ k := by
      intro a ha
      have := h.1
      rw [ha] at this
      simp at this
      exact fun h' => this h'.symm
    simp only [den]
    split
    · simp only; rw [defined_al_of_ne hd, muteL_al_of_not_mem e kids k h.2]
    · simp only; rw [defined_al_of_ne hd, denL_al_of_not_mem _ _ _ kids k h.2, described_al]
theorem denL_al_of_not_mem (sub first : Bool) (e : Env) (ts : List Tree) (k : Key) (h : k ∉ dkeysL ts) :
    (denL sub first e ts).2.al k = e.al k := by
  match ts with
  | [] => simp [denL]
  | .raw s :: ts =>
    simp only [dkeysL, List.mem_append, not_or] at h
    simp only [denL]
    exact denL_al_of_not_mem _ _ _ ts k h.2
  | .node v kids :: ts =>
    simp only [dkeysL, List.mem_append, not_or] at h
    simp only [denL]
    rw [denL_al_of_not_mem _ _ _ ts k h.2, den_al_of_not_mem e _ k h.1]
end

mutual
theorem den_AlInv {alOf} (e : Env) (t : Tree) (hi : AlInv alOf e.al) (hw : WF alOf t) : AlInv alOf (den e t).2.al := by
  match t with
  | .raw s => simpa [den] using hi
  | .node v kids =>
    simp only [den]
    split
    · exact AlInv_defined (muteL_AlInv e kids hi hw.2.2.2) hw.1
    · refine AlInv_defined (denL_AlInv _ _ _ kids ?_ hw.2.2.2) hw.1
      rw [described_al]; exact hi
theorem denL_AlInv {alOf} (sub first : Bool) (e : Env) (ts : List Tree) (hi : AlInv alOf e.al) (hw : WFL alOf ts) :
    AlInv alOf (denL sub first e ts).2.al := by
  match ts with
  | [] => simpa [denL] using hi
  | .raw s :: ts => simp only [denL]; exact denL_AlInv _ _ _ ts hi hw.2
  | .node v kids :: ts => simp only [denL]; exact denL_AlInv _ _ _ ts (den_AlInv e _ hi hw.1) hw.2
end

mutual
theorem dkeys_sub (t : Tree) : ∀ k ∈ dkeys t, k ∈ keys t := by
  match t with
  | .raw s => intro k h; exact absurd h (by simp [dkeys])
  | .node v kids =>
    intro k h
    simp only [dkeys, keys, List.mem_append, List.mem_cons] at h ⊢
    rcases h with h | h
    · exact Or.inl (Or.inr h)
    · exact Or.inr (dkeysL_sub kids k h)
theorem dkeysL_sub (ts : List Tree) : ∀ k ∈ dkeysL ts, k ∈ keysL ts := by
  match ts with
  | [] => intro k h; exact absurd h (by simp [dkeysL])
  | t :: ts =>
    intro k h
    simp only [dkeysL, keysL, List.mem_append] at h ⊢
    rcases h with h | h
    · exact Or.inl (dkeys_sub t k h)
    · exact Or.inr (dkeysL_sub ts k h)
end

/-! ### Muted parts -/

/-- The renderer refuses to enter anything. -/
def Muted (s : RState) : Prop := s.skip = true ∨ s.lastAliasSeen = true

/-- The open construct `top` cannot be left by anything in the tree. -/
def Safe (alOf : Key → Option Al) (top : Key) (ks : List Key) : Prop :=
  (∀ k ∈ ks, alOf k = alOf top → k ≠ top) ∧ ∀ a, alOf top = some a → a.dkey ∉ ks

def envOf (s : RState) : Env := ⟨s.al, s.vis⟩

/-- A state with other memories and more output. -/
def RState.upd (s : RState) (e : Env) (o : Str) : RState := { s with al := e.al, vis := e.vis, out := s.out ++ o }

theorem upd_envOf (s : RState) : s.upd (envOf s) [] = s := by simp [RState.upd, envOf]

theorem register_upd (s : RState) (e : Env) (o : Str) (v : Vis) :
    (s.upd e o).register v = s.upd (defined e v) o := by
  unfold RState.register defined RState.upd
  cases v.asAlias <;> rfl

theorem preEnter_muted {s : RState} (h : Muted s) (v : Vis) : s.preEnter v = (false, s) := by
  unfold RState.preEnter
  rw [if_pos]
  rcases h with h | h <;> simp [h]

theorem enter_muted {s : RState} (h : Muted s) (v : Vis) : s.enter v = s := by
  simp [RState.enter, preEnter_muted h]

theorem Muted_upd {s : RState} {e : Env} (o : Str) (h : Muted s) (he : ∀ k, (s.al k).isSome → (e.al k).isSome) :
    Muted (s.upd e o) := by
  rcases h with h | h
  · exact Or.inl h
  · refine Or.inr ?_
    unfold RState.lastAliasSeen RState.upd at *
    simp only at *
    split at h
    · exact h
    · exact he _ h

theorem leave_ne {s : RState} {v : Vis} (h : s.peek ≠ (s.getAliasedIfSeen v).key) : s.leave v = s.register v := by
  simp [RState.leave, h]

theorem upd_upd (s : RState) (e e' : Env) (o o' : Str) : (s.upd e o).upd e' o' = s.upd e' (o ++ o') := by
  simp [RState.upd]

mutual
/-- Nothing but raw texts is printed while muted. -/
theorem run_mute {alOf : Key → Option Al} (s : RState) (t : Tree) (top : Key)
    (hm : Muted s) (hi : AlInv alOf s.al) (hw : WF alOf t) (hp : s.peek = top)
    (hs : ∀ k ∈ keys t, k = top → (alOf top).isSome)
    (hs2 : ∀ a, alOf top = some a → a.dkey ∉ keys t) :
    s.run (accept t) = s.upd (mute (envOf s) t).2 (mute (envOf s) t).1 := by
  match t with
  | .raw x => simp [accept, RState.run_cons, RState.run_nil, RState.step, RState.append, mute, RState.upd, envOf]
  | .node v kids =>
    have hmem : v.key ∈ keys (.node v kids) := by simp [keys]
    have hksub : ∀ k ∈ keysL kids, k ∈ keys (.node v kids) := by
      intro k hk; simp only [keys, List.mem_append]; exact Or.inr hk
    simp only [accept, RState.run_cons, RState.run_append, RState.step, enter_muted hm, RState.run_nil]
    rw [run_muteL s kids top hm hi hw.2.2.2 hp (fun k hk => hs k (hksub k hk))
      (fun a ha hk => hs2 a ha (hksub _ hk))]
    rw [leave_ne, register_upd, mute]
    have hp' : (s.upd (muteL (envOf s) kids).2 (muteL (envOf s) kids).1).peek = top := by
      rw [← hp]; rfl
    rw [hp']
    have hi' := muteL_AlInv (envOf s) kids hi hw.2.2.2
    unfold RState.getAliasedIfSeen
    simp only [RState.upd]
    cases hal : (muteL (envOf s) kids).2.al v.key with
    | none =>
      simp only
      intro h
      obtain ⟨a, ha⟩ := Option.isSome_iff_exists.1 (hs _ hmem h.symm)
      have hva : v.asAlias = some a := by rw [← hw.1, ← h]; exact ha
      exact hs2 a ha (by simp [keys, hva])
    | some a =>
      simp only [Al.vis]
      intro h
      obtain ⟨h1, h2⟩ := hi' _ _ hal
      rw [← h] at h2
      exact hs2 a h2 (by rw [h1]; exact hmem)
theorem run_muteL {alOf : Key → Option Al} (s : RState) (ts : List Tree) (top : Key)
    (hm : Muted s) (hi : AlInv alOf s.al) (hw : WFL alOf ts) (hp : s.peek = top)
    (hs : ∀ k ∈ keysL ts, k = top → (alOf top).isSome)
    (hs2 : ∀ a, alOf top = some a → a.dkey ∉ keysL ts) :
    s.run (acceptL ts) = s.upd (muteL (envOf s) ts).2 (muteL (envOf s) ts).1 := by
  match ts with
  | [] => simp [acceptL, RState.run_nil, muteL, upd_envOf]
  | t :: ts =>
    simp only [keysL, List.mem_append] at hs hs2
    simp only [acceptL, RState.run_append]
    rw [run_mute s t top hm hi hw.1 hp (fun k hk => hs k (Or.inl hk)) (fun a ha hk => hs2 a ha (Or.inl hk))]
    rw [run_muteL (s.upd (mute (envOf s) t).2 (mute (envOf s) t).1) ts top
      (Muted_upd _ hm (fun k hk => mute_isSome (envOf s) t k hk)) (mute_AlInv (envOf s) t hi hw.1) hw.2 hp
      (fun k hk => hs k (Or.inr hk)) (fun a ha hk => hs2 a ha (Or.inr hk))]
    rw [upd_upd]
    simp only [muteL]
    rfl
end

/-! ### Entering and leaving -/

/-- Separator memory after entering a construct at level `l`. -/
def sepsIn (s : RState) (sub : Bool) : Int → Option Str := fun l =>
  if l = s.level + 1 then (s.seps l).map (fun _ => [])
  else if l = s.level + 2 ∧ sub = true then some [] else s.seps l

/-- Separator memory after a construct at level `l` was shown. -/
def sepsOut (s : RState) : Int → Option Str := fun l =>
  if l = s.level + 1 then (s.seps l).map (fun _ => c!", ") else s.seps l

/-- The separator waiting to be printed. -/
def pending (s : RState) : Str := (s.seps (s.level + 1)).getD []

/-- State after `PreEnter` let `u` pass. -/
def entered (s : RState) (u : Vis) : RState :=
  { s with astack := u.asAlias.toList ++ s.astack, level := s.level + 1, seps := sepsIn s u.kind.isSub,
           out := s.out ++ pending s, stack := u.key :: s.stack }

theorem flush_eq (s : RState) (u : Vis) :
    ((s.descend).openSub u).flushSep
      = { s with level := s.level + 1, seps := sepsIn s u.kind.isSub, out := s.out ++ pending s } := by
  have hne : ¬ (s.level + 1 = s.level + 1 + 1) := by omega
  unfold RState.descend RState.openSub
  cases hsub : u.kind.isSub with
  | true =>
    simp only [if_true, RState.setSep, RState.flushSep, if_neg hne]
    cases hsep : s.seps (s.level + 1) with
    | none =>
      simp only [pending, hsep, Option.getD_none, List.append_nil]
      congr 1
      funext l
      unfold sepsIn
      by_cases h1 : l = s.level + 1
      · subst h1; simp [hsep, hne]
      · by_cases h2 : l = s.level + 2
        · subst h2; rw [if_pos (by omega), if_neg h1, if_pos (by simp)]
        · rw [if_neg (by omega), if_neg h1, if_neg (by simp [h2])]
    | some x =>
      simp only [pending, hsep, Option.getD_some, RState.append]
      congr 1
      funext l
      unfold sepsIn
      by_cases h1 : l = s.level + 1
      · subst h1; simp [hsep]
      · by_cases h2 : l = s.level + 2
        · subst h2; rw [if_neg (by omega), if_pos (by omega), if_neg h1, if_pos (by simp)]
        · rw [if_neg h1, if_neg (by omega), if_neg h1, if_neg (by simp [h2])]
  | false =>
    simp only [Bool.false_eq_true, if_false, RState.flushSep]
    cases hsep : s.seps (s.level + 1) with
    | none =>
      simp only [pending, hsep, Option.getD_none, List.append_nil]
      congr 1
      funext l
      unfold sepsIn
      by_cases h1 : l = s.level + 1
      · subst h1; simp [hsep]
      · simp [h1]
    | some x =>
      simp only [pending, hsep, Option.getD_some, RState.append, RState.setSep]
      congr 1
      funext l
      unfold sepsIn
      by_cases h1 : l = s.level + 1
      · subst h1; simp [hsep]
      · simp [h1]

theorem enter_open {s : RState} {v u : Vis} (hu : s.getAliasedIfSeen v = u) (hk : s.skip = false)
    (hl : s.lastAliasSeen = false) : s.enter v = (entered s u).enterOf u := by
  unfold RState.enter RState.preEnter
  simp only [hu, hk, hl, Bool.or_self, Bool.false_eq_true, if_false]
  rw [flush_eq]
  unfold RState.pushAlias
  cases hua : u.asAlias with
  | none => simp [entered, hua, hk]
  | some a => simp [entered, hua, hk]; rfl

/-- Leaving the open construct `u`, when the memory of separators differs from the one at entering at most on the level of
its parts. -/
theorem postLeave_eq {s s' : RState} {u : Vis}
    (hl : s'.level = s.level + 1) (ha : s'.astack = u.asAlias.toList ++ s.astack)
    (hna : u.asAlias = none → ∀ a ∈ s.astack, a.key ≠ u.key)
    (hseps : ∀ l, l ≠ s.level + 2 → s'.seps l = sepsIn s u.kind.isSub l)
    (hsub : u.kind.isSub = false → s'.seps (s.level + 2) = none)
    (hn : s.seps (s.level + 2) = none) :
    s'.postLeave u = { s' with level := s.level, astack := s.astack, seps := sepsOut s } := by
  have h1 : (s'.armSep).closeSub u = { s' with seps := sepsOut s } := by
    have hlev : s'.seps (s.level + 1) = (s.seps (s.level + 1)).map (fun _ => []) := by
      rw [hseps _ (by omega)]; simp [sepsIn]
    have harm : s'.armSep = { s' with seps := fun l => if l = s.level + 1 then (s.seps l).map (fun _ => c!", ") else s'.seps l } := by
      unfold RState.armSep
      rw [hl, hlev]
      cases hs : s.seps (s.level + 1) with
      | none =>
        have : s'.seps = fun l => if l = s.level + 1 then (s.seps l).map (fun _ => c!", ") else s'.seps l := by
          funext l
          by_cases h : l = s.level + 1
          · subst h; simp [hs, hlev]
          · simp [h]
        simp [← this]
        rw [← hl]
      | some x =>
        simp only [Option.map_some, Option.isSome_some, if_true, RState.setSep]
        congr 1
        funext l
        by_cases h : l = s.level + 1
        · subst h; simp [hs]
        · simp [h]
    rw [harm]
    unfold RState.closeSub
    cases hu : u.kind.isSub with
    | true =>
      simp only [if_true, RState.setSep, hl]
      congr 1
      funext l
      unfold sepsOut
      by_cases h : l = s.level + 1
      · subst h; rw [if_neg (by omega)]; simp
      · by_cases h2 : l = s.level + 2
        · subst h2; rw [if_pos (by omega), if_neg h, hn]
        · rw [if_neg (by omega), if_neg h, if_neg h, hseps l h2]
          simp [sepsIn, h, h2]
    | false =>
      simp only [Bool.false_eq_true, if_false]
      congr 1
      funext l
      unfold sepsOut
      by_cases h : l = s.level + 1
      · simp [h]
      · rw [if_neg h, if_neg h]
        by_cases h2 : l = s.level + 2
        · subst h2; rw [hsub hu, hn]
        · rw [hseps l h2]; simp [sepsIn, h, hu]
  unfold RState.postLeave
  rw [h1]
  unfold RState.popAlias
  simp only [ha]
  cases hu : u.asAlias with
  | some a =>
    simp only [Option.toList_some, List.cons_append, List.nil_append, (asAlias_key hu).1, if_true, hl]
    congr 1; omega
  | none =>
    simp only [Option.toList_none, List.nil_append]
    rw [hu] at ha
    simp only [Option.toList_none, List.nil_append] at ha
    cases hst : s.astack with
    | nil => simp only [hl]; rw [← hst, ← ha]; congr 1; omega
    | cons a rest =>
      simp only
      rw [if_neg (hna hu a (by simp [hst]))]
      simp only [hl]
      rw [← hst, ← ha]; congr 1; omega

/-- The situation in which a tree with keys `ks` and delegate keys `dks` is visited. -/
structure Ctx (alOf : Key → Option Al) (s : RState) (ks dks : List Key) : Prop where
  skip : s.skip = false
  al : AlInv alOf s.al
  open_ : ∀ a ∈ s.astack, s.al a.dkey = none ∧ alOf a.key = some a ∧ a.dkey ∉ dks
  seps : ∀ l, s.level + 2 ≤ l → s.seps l = none
  top : alOf s.peek = none ∨ s.peek ∉ ks

theorem Ctx.notSeen {alOf s ks dks} (h : Ctx alOf s ks dks) : s.lastAliasSeen = false := by
  unfold RState.lastAliasSeen
  cases hs : s.astack with
  | nil => rfl
  | cons a r => simp [(h.open_ a (by simp [hs])).1]

/-- State after a tree was shown. -/
def after (s : RState) (e : Env) (o : Str) : RState := { s.upd e (pending s ++ o) with seps := sepsOut s }

theorem register_after (s : RState) (e : Env) (o : Str) (v : Vis) :
    (after s e o).register v = after s (defined e v) o := by
  unfold RState.register defined after RState.upd
  cases v.asAlias <;> rfl

/-- Leaving an open construct. -/
theorem leave_close {s s' : RState} {v u : Vis} {cl : Str}
    (hu : s'.getAliasedIfSeen v = u) (hst : s'.stack = u.key :: s.stack) (hk : s.skip = false)
    (hlo : s'.leaveOf u = { s' with out := s'.out ++ cl, skip := false })
    (hl : s'.level = s.level + 1) (ha : s'.astack = u.asAlias.toList ++ s.astack)
    (hna : u.asAlias = none → ∀ a ∈ s.astack, a.key ≠ u.key)
    (hseps : ∀ l, l ≠ s.level + 2 → s'.seps l = sepsIn s u.kind.isSub l)
    (hsub : u.kind.isSub = false → s'.seps (s.level + 2) = none)
    (hn : s.seps (s.level + 2) = none) (out : Str) (ho : s'.out ++ cl = s.out ++ (pending s ++ out)) :
    s'.leave v = after s (defined ⟨s'.al, s'.vis⟩ v) out := by
  unfold RState.leave
  simp only [hu]
  rw [if_pos (by simp [RState.peek, hst]), hlo,
    postLeave_eq (s := s) (s' := { s' with out := s'.out ++ cl, skip := false }) hl ha hna hseps hsub hn]
  simp only [hst, List.tail_cons]
  rw [← register_after]
  congr 1
  unfold after RState.upd
  simp [ho, hk]

theorem getAliasedIfSeen_none {s : RState} {v : Vis} (h : s.al v.key = none) : s.getAliasedIfSeen v = v := by
  simp [RState.getAliasedIfSeen, h]

theorem getAliasedIfSeen_some {s : RState} {v : Vis} {a : Al} (h : s.al v.key = some a) :
    s.getAliasedIfSeen v = a.vis := by
  simp [RState.getAliasedIfSeen, h]

theorem sepsIn_sub {s : RState} (hn : s.seps (s.level + 2) = none) : sepsIn s false (s.level + 2) = none := by
  unfold sepsIn
  rw [if_neg (by omega)]
  simp [hn]

mutual
theorem refine_node {alOf : Key → Option Al} (hok : AlOk alOf) (s : RState) (v : Vis) (kids : List Tree)
    (hw : WF alOf (.node v kids)) (hc : Ctx alOf s (keys (.node v kids)) (dkeys (.node v kids))) :
    s.run (accept (.node v kids))
      = after s (den (envOf s) (.node v kids)).2 (den (envOf s) (.node v kids)).1 := by
  have hn2 : s.seps (s.level + 2) = none := hc.seps _ (Int.le_refl _)
  simp only [accept, RState.run_cons, RState.run_append, RState.step, RState.run_nil]
  obtain ⟨hwa, hwk, hwd, hwl⟩ := hw
  have hdk : ∀ k ∈ dkeysL kids, k ∈ keysL kids := dkeysL_sub kids
  cases hal : s.al v.key with
  | some a =>
    -- the expression has a defined alias
    obtain ⟨had, haa⟩ := hc.al _ _ hal
    obtain ⟨_, ha0, hd0, hdne⟩ := hok _ _ haa
    have hv0 : v.key ≠ 0 := by rw [← had]; exact hd0
    have hvk := hwk (Or.inl ⟨_, _, haa, had⟩)
    rw [enter_open (getAliasedIfSeen_some hal) hc.skip hc.notSeen]
    have hentered : (entered s a.vis).enterOf a.vis
        = { entered s a.vis with out := s.out ++ pending s ++ a.text } := by
      simp [RState.enterOf, Al.vis, entered, had, hal, RState.append]
    rw [hentered]
    generalize hs1 : ({ entered s a.vis with out := s.out ++ pending s ++ a.text } : RState) = s1
    have hm : Muted s1 := by
      right; subst hs1
      simp [RState.lastAliasSeen, entered, asAlias_vis, had, hal]
    have hpk : s1.peek = a.key := by subst hs1; rfl
    rw [run_muteL (alOf := alOf) s1 kids a.key hm (by subst hs1; exact hc.al) hwl hpk
      (fun k hk h => by simp [haa])
      (fun b hb => by rw [haa] at hb; cases hb; rw [had]; exact hvk)]
    have henv : envOf s1 = envOf s := by subst hs1; rfl
    rw [henv]
    have hal' : (muteL (envOf s) kids).2.al v.key = some a := by
      rw [muteL_al_of_not_mem _ _ _ (fun h => hvk (hdk _ h))]; exact hal
    have hden : den (envOf s) (.node v kids)
        = (a.text ++ (muteL (envOf s) kids).1 ++ [], defined (muteL (envOf s) kids).2 v) := by
      simp [den, shown, envOf, hal]
    rw [hden]
    subst hs1
    refine leave_close (u := a.vis) (cl := []) ?_ rfl hc.skip ?_ rfl rfl ?_ ?_ ?_ hn2 _ ?_
    · exact getAliasedIfSeen_some hal'
    · simp [RState.leaveOf, Al.vis, RState.upd, had, hal', entered, hc.skip]
    · intro h; simp [asAlias_vis] at h
    · intro l _; rfl
    · intro _; exact sepsIn_sub hn2
    · simp [RState.upd, entered]
  | none =>
    have hu := getAliasedIfSeen_none hal
    rw [enter_open hu hc.skip hc.notSeen]
    cases hkd : v.kind with
    | aliased dk tx =>
      have hva : v.asAlias = some ⟨v.key, dk, tx⟩ := by simp [Vis.asAlias, hkd]
      have hao : alOf v.key = some ⟨v.key, dk, tx⟩ := by rw [hwa, hva]
      obtain ⟨_, hv0, hd0, hdne⟩ := hok _ _ hao
      simp only at hd0 hdne
      have hvk := hwk (Or.inr (Or.inr (by simp [hao])))
      have hdel := hwd _ hva
      simp only at hdel
      cases had : s.al dk with
      | some a0 =>
        -- an alias whose expression has a defined alias
        have hentered : (entered s v).enterOf v = { entered s v with out := s.out ++ pending s ++ tx } := by
          simp [RState.enterOf, hkd, entered, had, RState.append]
        rw [hentered]
        have hden : den (envOf s) (.node v kids)
            = (tx ++ (muteL (envOf s) kids).1 ++ [], defined (muteL (envOf s) kids).2 v) := by
          simp [den, shown, envOf, hal, hkd, had]
        rw [hden]
        generalize hs1 : ({ entered s v with out := s.out ++ pending s ++ tx } : RState) = s1
        have hm : Muted s1 := by
          right; subst hs1
          simp [RState.lastAliasSeen, entered, hva, had]
        have hpk : s1.peek = v.key := by subst hs1; rfl
        have henv : envOf s1 = envOf s := by subst hs1; rfl
        have halv : (muteL (envOf s) kids).2.al v.key = none := by
          rw [muteL_al_of_not_mem _ _ _ (fun h => hvk (hdk _ h))]; exact hal
        have hads : ((muteL (envOf s) kids).2.al dk).isSome := muteL_isSome _ _ _ (by simp [envOf, had])
        -- leaving at the end
        have hend : ∀ s2 : RState, s2 = s1.upd (muteL (envOf s) kids).2 (muteL (envOf s) kids).1 →
            s2.leave v = after s (defined (muteL (envOf s) kids).2 v) (tx ++ (muteL (envOf s) kids).1 ++ []) := by
          intro s2 hs2
          subst hs2; subst hs1
          refine leave_close (u := v) (cl := []) ?_ rfl hc.skip ?_ rfl rfl ?_ ?_ ?_ hn2 _ ?_
          · exact getAliasedIfSeen_none halv
          · have := Option.isSome_iff_ne_none.1 hads
            simp [RState.leaveOf, hkd, RState.upd, hads, entered, hc.skip]
          · intro h; simp [hva] at h
          · intro l _; rfl
          · intro _; simp only [RState.upd, entered, hkd, Kind.isSub]; exact sepsIn_sub hn2
          · simp [RState.upd, entered]
        rcases hdel with ⟨d, ks, hkids, hdk'⟩ | hdel
        · subst hkids
          subst hdk'
          obtain ⟨⟨hda, hdk2, _, hdl⟩, _⟩ := hwl
          have hdks := hdk2 (Or.inl ⟨_, _, hao, rfl⟩)
          simp only [acceptL, accept, List.append_nil, RState.run_cons, RState.run_append, RState.step, RState.run_nil,
            enter_muted hm]
          rw [run_muteL (alOf := alOf) s1 ks v.key hm (by subst hs1; exact hc.al) hdl hpk
            (fun k hk h => by simp [hao])
            (fun b hb => by rw [hao] at hb; cases hb; exact hdks)]
          rw [henv]
          have had' : (muteL (envOf s) ks).2.al d.key = some a0 := by
            rw [muteL_al_of_not_mem _ _ _ (fun h => hdks (dkeysL_sub ks _ h))]; exact had
          by_cases heq : a0.key = v.key
          · -- the delegate's own leave closes the alias
            have ha0 : a0 = ⟨v.key, d.key, tx⟩ := by
              have := (hc.al _ _ had).2
              rw [heq, hao] at this
              exact (Option.some.inj this).symm
            have hav : a0.vis = v := by rw [(asAlias_key hva).2, ha0]
            have hclose : (s1.upd (muteL (envOf s) ks).2 (muteL (envOf s) ks).1).leave d
                = after s (defined (muteL (envOf s) ks).2 d) (tx ++ (muteL (envOf s) ks).1) := by
              subst hs1
              refine leave_close (u := v) (cl := []) ?_ rfl hc.skip ?_ rfl rfl ?_ ?_ ?_ hn2 _ ?_
              · rw [← hav]; exact getAliasedIfSeen_some had'
              · simp [RState.leaveOf, hkd, RState.upd, had', entered, hc.skip]
              · intro h; simp [hva] at h
              · intro l _; rfl
              · intro _; simp only [RState.upd, entered, hkd, Kind.isSub]; exact sepsIn_sub hn2
              · simp [RState.upd, entered]
            rw [hclose]
            have hmu : muteL (envOf s) [.node d ks]
                = ((muteL (envOf s) ks).1 ++ [], defined (muteL (envOf s) ks).2 d) := by
              simp [muteL, mute]
            rw [hmu] at halv ⊢
            simp only at halv
            rw [leave_ne]
            · rw [register_after]
              simp only [List.append_nil]
            · rw [getAliasedIfSeen_none (show (after s _ _).al v.key = none from halv)]
              have : (after s (defined (muteL (envOf s) ks).2 d) (tx ++ (muteL (envOf s) ks).1)).peek = s.peek := rfl
              rw [this]
              rcases hc.top with h | h
              · intro h'; rw [h', hao] at h; cases h
              · intro h'; rw [h'] at h; exact h (by simp [keys])
          · -- another alias of the same expression was defined
            rw [leave_ne (v := d), register_upd]
            · rw [hend _ (by simp [muteL, mute]), List.append_nil]
            · rw [getAliasedIfSeen_some (a := a0) (by exact had')]
              have : (s1.upd (muteL (envOf s) ks).2 (muteL (envOf s) ks).1).peek = v.key := hpk
              rw [this]
              exact fun h => heq h.symm
        · rw [run_muteL (alOf := alOf) s1 kids v.key hm (by subst hs1; exact hc.al) hwl hpk
            (fun k hk h => by simp [hao])
            (fun b hb => by rw [hao] at hb; cases hb; exact hdel)]
          rw [henv]
          exact hend _ rfl
      | none =>
        -- first time
        have hentered : (entered s v).enterOf v = entered s v := by
          simp [RState.enterOf, hkd, entered, had]
        rw [hentered]
        have hnd : dk ∉ dkeysL kids := by
          rcases hdel with ⟨d, ks, hkids, hdk'⟩ | hdel
          · subst hkids; subst hdk'
            obtain ⟨⟨hda, hdk2, _, hdl⟩, _⟩ := hwl
            have hdks := hdk2 (Or.inl ⟨_, _, hao, rfl⟩)
            simp only [dkeysL, dkeys, List.append_nil, List.mem_append, not_or]
            refine ⟨?_, fun h => hdks (dkeysL_sub ks _ h)⟩
            cases hdal : d.asAlias with
            | none => simp
            | some b =>
              have := (hok _ _ (hda.trans hdal)).2.2.2
              simp; exact fun h => this h.symm
          · exact fun h => hdel (hdk _ h)
        have hden : den (envOf s) (.node v kids)
            = ([] ++ (denL false true (envOf s) kids).1 ++ (c!" AS " ++ tx), defined (denL false true (envOf s) kids).2 v) := by
          simp [den, shown, envOf, hal, hkd, had, described, Kind.isSub]
        rw [hden]
        have hcl : Ctx alOf (entered s v) (keysL kids) (dkeysL kids) := by
          refine ⟨hc.skip, hc.al, ?_, ?_, ?_⟩
          · intro b hb
            simp only [entered, hva, Option.toList_some, List.cons_append, List.nil_append, List.mem_cons] at hb
            rcases hb with hb | hb
            · subst hb; exact ⟨had, hao, hnd⟩
            · obtain ⟨h1, h2, h3⟩ := hc.open_ b hb
              exact ⟨h1, h2, fun h => h3 (by simp [dkeys, h])⟩
          · intro l hl
            simp only [entered] at hl ⊢
            unfold sepsIn
            rw [if_neg (by omega), if_neg (by simp [hkd, Kind.isSub])]
            exact hc.seps l (by omega)
          · right; exact hvk
        obtain ⟨f, hf1, hf2, hrun⟩ := refine_list hok (entered s v) kids false true hwl hcl
          (by simp only [entered, hkd, Kind.isSub, Bool.false_eq_true, if_false]
              rw [show s.level + 1 + 1 = s.level + 2 by omega]; exact sepsIn_sub hn2)
        rw [hrun]
        have henv : envOf (entered s v) = envOf s := rfl
        rw [henv]
        have halv : (denL false true (envOf s) kids).2.al v.key = none := by
          rw [denL_al_of_not_mem _ _ _ _ _ (fun h => hvk (hdk _ h))]; exact hal
        have hald : (denL false true (envOf s) kids).2.al dk = none := by
          rw [denL_al_of_not_mem _ _ _ _ _ hnd]; exact had
        refine leave_close (u := v) (cl := c!" AS " ++ tx) ?_ rfl hc.skip ?_ rfl rfl ?_ ?_ ?_ hn2 _ ?_
        · exact getAliasedIfSeen_none halv
        · simp [RState.leaveOf, hkd, RState.upd, hald, entered, hc.skip, RState.append]
        · intro h; simp [hva] at h
        · intro l hl
          exact hf1 l (by simp only [entered]; omega)
        · intro _
          have := hf2 rfl
          simp only [entered] at this
          rw [show s.level + 1 + 1 = s.level + 2 by omega] at this
          exact this
        · simp [RState.upd, entered]
    | plain op cl sub =>
      have hva : v.asAlias = none := by simp [Vis.asAlias, hkd]
      have hentered : (entered s v).enterOf v = { entered s v with out := s.out ++ pending s ++ op } := by
        simp [RState.enterOf, hkd, entered, RState.append]
      rw [hentered]
      have hden : den (envOf s) (.node v kids)
          = (op ++ (denL sub true (envOf s) kids).1 ++ cl, defined (denL sub true (envOf s) kids).2 v) := by
        simp [den, shown, envOf, hal, hkd, described, Kind.isSub]
      rw [hden]
      exact refine_full hok s v kids _ (envOf s) op cl hwl hc hva (by simp [hkd, Kind.isSub]) rfl rfl
        (fun h0 => hwk (Or.inl h0)) (hwa.trans hva) hal
        (fun s' hs' => by simp [RState.leaveOf, hkd, RState.append, hs'])
    | node name =>
      have hva : v.asAlias = none := by simp [Vis.asAlias, hkd]
      cases name with
      | none =>
        have hentered : (entered s v).enterOf v = { entered s v with out := s.out ++ pending s ++ c!"(" } := by
          simp [RState.enterOf, hkd, entered, RState.append]
        rw [hentered]
        have hden : den (envOf s) (.node v kids)
            = (c!"(" ++ (denL false true (envOf s) kids).1 ++ c!")", defined (denL false true (envOf s) kids).2 v) := by
          simp [den, shown, envOf, hal, hkd, described, Kind.isSub]
        rw [hden]
        exact refine_full hok s v kids _ (envOf s) _ _ hwl hc hva (by simp [hkd, Kind.isSub]) rfl rfl
          (fun h0 => hwk (Or.inl h0)) (hwa.trans hva) hal
          (fun s' hs' => by simp [RState.leaveOf, hkd, RState.append])
      | some name =>
        have hvk := hwk (Or.inr (Or.inl ⟨name, hkd⟩))
        cases hvis : s.vis v.key with
        | false =>
          have hentered : (entered s v).enterOf v
              = { entered s v with out := s.out ++ pending s ++ c!"(", vis := (described (envOf s) v).vis } := by
            simp [RState.enterOf, hkd, entered, RState.append, hvis, described, envOf, hc.skip]
          rw [hentered]
          have hden : den (envOf s) (.node v kids)
              = (c!"(" ++ (denL false true (described (envOf s) v) kids).1 ++ c!")",
                  defined (denL false true (described (envOf s) v) kids).2 v) := by
            simp [den, shown, envOf, hal, hkd, hvis, Kind.isSub]
          rw [hden]
          exact refine_full hok s v kids _ (described (envOf s) v) _ _ hwl hc hva (by simp [hkd, Kind.isSub])
            (by rw [described_al]; rfl) rfl
            (fun h0 => hwk (Or.inl h0)) (hwa.trans hva) hal
            (fun s' hs' => by simp [RState.leaveOf, hkd, RState.append])
        | true =>
          -- a named node described before
          have hentered : (entered s v).enterOf v
              = { entered s v with out := s.out ++ pending s ++ c!"(" ++ name, skip := true,
                                   vis := fun k => if k = v.key then true else s.vis k } := by
            simp [RState.enterOf, hkd, entered, RState.append, hvis]
          rw [hentered]
          have hvv : (fun k => if k = v.key then true else s.vis k) = s.vis := by
            funext k; by_cases h : k = v.key
            · subst h; simp [hvis]
            · simp [h]
          rw [hvv]
          generalize hs1 : ({ entered s v with out := s.out ++ pending s ++ c!"(" ++ name, skip := true,
                                               vis := s.vis } : RState) = s1
          have hm : Muted s1 := by left; subst hs1; rfl
          have hpk : s1.peek = v.key := by subst hs1; rfl
          have hnone : alOf v.key = none := hwa.trans hva
          rw [run_muteL (alOf := alOf) s1 kids v.key hm (by subst hs1; exact hc.al) hwl hpk
            (fun k hk h => absurd (by rw [← h]; exact hk) hvk)
            (fun b hb => by rw [hnone] at hb; cases hb)]
          have henv : envOf s1 = envOf s := by subst hs1; rfl
          rw [henv]
          have hden : den (envOf s) (.node v kids)
              = (c!"(" ++ name ++ (muteL (envOf s) kids).1 ++ c!")", defined (muteL (envOf s) kids).2 v) := by
            simp [den, shown, envOf, hal, hkd, hvis]
          rw [hden]
          have halv : (muteL (envOf s) kids).2.al v.key = none := by
            rw [muteL_al_of_not_mem _ _ _ (fun h => hvk (hdk _ h))]; exact hal
          subst hs1
          refine leave_close (u := v) (cl := c!")") ?_ rfl hc.skip ?_ rfl ?_ ?_ ?_ ?_ hn2 _ ?_
          · exact getAliasedIfSeen_none halv
          · simp [RState.leaveOf, hkd, RState.upd, entered, RState.append]
          · rfl
          · intro _ a ha h
            have := (hc.open_ a ha).2.1
            rw [h, hnone] at this; cases this
          · intro l _; rfl
          · intro _; simp only [RState.upd, entered, hkd, Kind.isSub]; exact sepsIn_sub hn2
          · simp [RState.upd, entered]
  termination_by (sizeOf kids, 2)

/-- The common part of the constructs shown in full that are not aliases. -/
theorem refine_full {alOf : Key → Option Al} (hok : AlOk alOf) (s : RState) (v : Vis) (kids : List Tree)
    (sub : Bool) (e : Env) (op cl : Str)
    (hwl : WFL alOf kids) (hc : Ctx alOf s (keys (.node v kids)) (dkeys (.node v kids)))
    (hva : v.asAlias = none) (hsub : v.kind.isSub = sub) (hea : e.al = s.al)
    {s1 : RState} (hs1 : s1 = { entered s v with out := s.out ++ pending s ++ op, vis := e.vis })
    (hvk : (∃ k a, alOf k = some a ∧ a.dkey = v.key) → v.key ∉ keysL kids) (hnone : alOf v.key = none) (hal : s.al v.key = none)
    (hlo : ∀ s' : RState, s'.skip = false → s'.leaveOf v = { s' with out := s'.out ++ cl, skip := false }) :
    (s1.run (acceptL kids)).leave v
      = after s (defined (denL sub true e kids).2 v) (op ++ (denL sub true e kids).1 ++ cl) := by
  have hn2 : s.seps (s.level + 2) = none := hc.seps _ (Int.le_refl _)
  have hcl : Ctx alOf s1 (keysL kids) (dkeysL kids) := by
    subst hs1
    refine ⟨hc.skip, hc.al, ?_, ?_, ?_⟩
    · intro b hb
      simp only [entered, hva, Option.toList_none, List.nil_append] at hb
      obtain ⟨h1, h2, h3⟩ := hc.open_ b hb
      exact ⟨h1, h2, fun h => h3 (by simp [dkeys, h])⟩
    · intro l hl
      simp only [entered] at hl ⊢
      unfold sepsIn
      rw [if_neg (by omega), if_neg (by omega)]
      exact hc.seps l (by omega)
    · left; exact hnone
  obtain ⟨f, hf1, hf2, hrun⟩ := refine_list hok s1 kids sub true hwl hcl (by
    subst hs1
    simp only [entered]
    rw [show s.level + 1 + 1 = s.level + 2 by omega]
    cases sub with
    | true => unfold sepsIn; rw [if_neg (by omega), if_pos ⟨rfl, hsub⟩]; rfl
    | false => rw [hsub]; exact sepsIn_sub hn2)
  rw [hrun]
  have henv : envOf s1 = e := by
    subst hs1
    cases e
    simp only at hea
    simp [envOf, entered, hea]
  rw [henv]
  have halv : (denL sub true e kids).2.al v.key = none := by
    cases h : (denL sub true e kids).2.al v.key with
    | none => rfl
    | some b =>
      have hi := denL_AlInv (alOf := alOf) sub true e kids (by rw [hea]; exact hc.al) hwl
      obtain ⟨h1, h2⟩ := hi _ _ h
      have hk := hvk ⟨_, _, h2, h1⟩
      rw [denL_al_of_not_mem _ _ _ _ _ (fun h => hk (dkeysL_sub kids _ h)), hea, hal] at h
      cases h
  subst hs1
  refine leave_close (u := v) (cl := cl) ?_ rfl hc.skip ?_ rfl rfl ?_ ?_ ?_ hn2 _ ?_
  · exact getAliasedIfSeen_none halv
  · exact hlo _ hc.skip
  · intro _ a ha h
    have := (hc.open_ a ha).2.1
    rw [h, hnone] at this; cases this
  · intro l hl
    exact hf1 l (by simp only [entered]; omega)
  · intro h
    have := hf2 (by rw [← hsub]; exact h)
    simp only [entered] at this
    rw [show s.level + 1 + 1 = s.level + 2 by omega] at this
    exact this
  · simp [RState.upd, entered]
  termination_by (sizeOf kids, 1)

theorem refine_list {alOf : Key → Option Al} (hok : AlOk alOf) (s : RState) (ts : List Tree) (sub first : Bool)
    (hw : WFL alOf ts) (hc : Ctx alOf s (keysL ts) (dkeysL ts))
    (hs : s.seps (s.level + 1) = if sub then some (if first then [] else c!", ") else none) :
    ∃ f : Int → Option Str, (∀ l, l ≠ s.level + 1 → f l = s.seps l) ∧ (sub = false → f (s.level + 1) = none) ∧
      s.run (acceptL ts)
        = { s.upd (denL sub first (envOf s) ts).2 (denL sub first (envOf s) ts).1 with seps := f } := by
  match ts with
  | [] =>
    refine ⟨s.seps, fun _ _ => rfl, fun h => by rw [hs, h]; rfl, ?_⟩
    simp [acceptL, RState.run_nil, denL, RState.upd, envOf]
  | .raw x :: ts =>
    have hc' : Ctx alOf (s.append x) (keysL ts) (dkeysL ts) := by
      refine ⟨hc.skip, hc.al, ?_, hc.seps, ?_⟩
      · intro b hb
        obtain ⟨h1, h2, h3⟩ := hc.open_ b hb
        exact ⟨h1, h2, fun h => h3 (by simp [dkeysL, h])⟩
      · rcases hc.top with h | h
        · left; exact h
        · right; exact fun h' => h (by simp only [keysL, List.mem_append]; exact Or.inr h')
    obtain ⟨f, h1, h2, h3⟩ := refine_list hok (s.append x) ts sub first hw.2 hc' hs
    refine ⟨f, h1, h2, ?_⟩
    simp only [acceptL, accept, RState.run_append, RState.run_cons, RState.run_nil, RState.step, denL]
    rw [h3]
    simp [RState.upd, RState.append, envOf]
  | .node v kids :: ts =>
    have hct : Ctx alOf s (keys (.node v kids)) (dkeys (.node v kids)) := by
      refine ⟨hc.skip, hc.al, ?_, hc.seps, ?_⟩
      · intro b hb
        obtain ⟨h1, h2, h3⟩ := hc.open_ b hb
        exact ⟨h1, h2, fun h => h3 (by simp only [dkeysL, List.mem_append]; exact Or.inl h)⟩
      · rcases hc.top with h | h
        · left; exact h
        · right; exact fun h' => h (by simp only [keysL, List.mem_append]; exact Or.inl h')
    have hnode := refine_node hok s v kids hw.1 hct
    have hpend : pending s = sepText sub first := by
      unfold pending sepText
      rw [hs]
      cases sub <;> cases first <;> rfl
    simp only [acceptL, RState.run_append]
    rw [hnode]
    generalize hs1 : after s (den (envOf s) (.node v kids)).2 (den (envOf s) (.node v kids)).1 = s1
    have hlev : s1.level = s.level := by subst hs1; rfl
    have hc' : Ctx alOf s1 (keysL ts) (dkeysL ts) := by
      subst hs1
      refine ⟨hc.skip, den_AlInv _ _ hc.al hw.1, ?_, ?_, ?_⟩
      · intro b hb
        obtain ⟨h1, h2, h3⟩ := hc.open_ b hb
        refine ⟨?_, h2, fun h => h3 (by simp only [dkeysL, List.mem_append]; exact Or.inr h)⟩
        simp only [after, RState.upd]
        rw [den_al_of_not_mem _ _ _ (fun h => h3 (by simp only [dkeysL, List.mem_append]; exact Or.inl h))]
        exact h1
      · intro l hl
        simp only [after, RState.upd] at hl ⊢
        unfold sepsOut
        rw [if_neg (by omega)]
        exact hc.seps l hl
      · rcases hc.top with h | h
        · left; exact h
        · right; exact fun h' => h (by simp only [keysL, List.mem_append]; exact Or.inr h')
    obtain ⟨f, h1, h2, h3⟩ := refine_list hok s1 ts sub false hw.2 hc' (by
      subst hs1
      simp only [after, RState.upd, sepsOut, if_true]
      rw [hs]
      cases sub <;> simp)
    refine ⟨f, ?_, ?_, ?_⟩
    · intro l hl
      rw [h1 l (by rw [hlev]; exact hl)]
      subst hs1
      simp only [after]
      unfold sepsOut
      rw [if_neg hl]
    · intro h; rw [← hlev]; exact h2 h
    · rw [h3]
      subst hs1
      have : envOf (after s (den (envOf s) (.node v kids)).2 (den (envOf s) (.node v kids)).1)
        = (den (envOf s) (.node v kids)).2 := rfl
      rw [this]
      simp only [denL]
      simp [RState.upd, after, hpend]
  termination_by (sizeOf ts, 0)
end

end Verif
