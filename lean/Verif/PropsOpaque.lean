import Verif.PropsKeys

/-
C70: the renderer puts texts together and never looks into them.
-/

namespace Verif.Spec

/-- A way to replace texts piece by piece that leaves alone the four texts that the renderer itself writes. -/
structure Rewrites (h : Str → Str) : Prop where
  append : ∀ a b, h (a ++ b) = h a ++ h b
  open_ : h c!"(" = c!"("
  close : h c!")" = c!")"
  comma : h c!", " = c!", "
  as : h c!" AS " = c!" AS "

end Verif.Spec

namespace Verif
open Spec

/-! ### The same statement with other texts -/

def Kind.texts (h : Str → Str) : Kind → Kind
  | .plain op cl sub => .plain (h op) (h cl) sub
  | .node name => .node (name.map h)
  | .aliased dk tx => .aliased dk (h tx)

def Vis.texts (h : Str → Str) (v : Vis) : Vis := ⟨v.key, v.kind.texts h⟩

mutual
/-- The same value with all texts replaced. -/
def Tree.texts (h : Str → Str) : Tree → Tree
  | .node v kids => .node (v.texts h) (Tree.textsL h kids)
  | .raw s => .raw (h s)
def Tree.textsL (h : Str → Str) : List Tree → List Tree
  | [] => []
  | t :: ts => t.texts h :: Tree.textsL h ts
end

namespace OpaqueLemmas

def Al.texts (h : Str → Str) (a : Al) : Al := ⟨a.key, a.dkey, h a.text⟩

def Event.texts (h : Str → Str) : Event → Event
  | .enter v => .enter (v.texts h)
  | .leave v => .leave (v.texts h)
  | .raw s => .raw (h s)

def RState.texts (h : Str → Str) (s : RState) : RState where
  al k := (s.al k).map (Al.texts h)
  seps l := (s.seps l).map h
  vis := s.vis
  stack := s.stack
  astack := s.astack.map (Al.texts h)
  level := s.level
  skip := s.skip
  out := h s.out

theorem nil_of {h : Str → Str} (hh : Rewrites h) : h [] = [] := by
  have := hh.append [] []
  simp only [List.append_nil] at this
  have h2 : (h []).length = (h []).length + (h []).length := by
    conv => lhs; rw [this]
    simp
  exact List.eq_nil_of_length_eq_zero (by omega)

variable {h : Str → Str}

theorem asAlias_texts (v : Vis) : (v.texts h).asAlias = v.asAlias.map (Al.texts h) := by
  cases hk : v.kind <;> simp [Vis.asAlias, Vis.texts, Kind.texts, hk, Al.texts]

theorem isSub_texts (k : Kind) : (k.texts h).isSub = k.isSub := by cases k <;> rfl

theorem key_texts (v : Vis) : (v.texts h).key = v.key := rfl

theorem append_texts (hh : Rewrites h) (s : RState) (t : Str) : (RState.texts h s).append (h t) = RState.texts h (s.append t) := by
  simp [RState.append, RState.texts, hh.append]

theorem setSep_texts (s : RState) (l : Int) (x : Option Str) :
    (RState.texts h s).setSep l (x.map h) = RState.texts h (s.setSep l x) := by
  simp only [RState.setSep, RState.texts, RState.mk.injEq, and_true, true_and]
  funext l'
  split <;> rfl

theorem seen_texts (s : RState) (v : Vis) :
    (RState.texts h s).getAliasedIfSeen (v.texts h) = (s.getAliasedIfSeen v).texts h := by
  simp only [RState.getAliasedIfSeen, key_texts, RState.texts]
  cases s.al v.key <;> rfl

theorem lastAliasSeen_texts (s : RState) : (RState.texts h s).lastAliasSeen = s.lastAliasSeen := by
  cases hs : s.astack <;> simp [RState.lastAliasSeen, RState.texts, hs, Al.texts]

theorem pushAlias_texts (s : RState) (v : Vis) : (RState.texts h s).pushAlias (v.texts h) = RState.texts h (s.pushAlias v) := by
  simp only [RState.pushAlias, asAlias_texts]
  cases v.asAlias <;> rfl

theorem descend_texts (s : RState) : (RState.texts h s).descend = RState.texts h s.descend := rfl

theorem openSub_texts (hh : Rewrites h) (s : RState) (v : Vis) :
    (RState.texts h s).openSub (v.texts h) = RState.texts h (s.openSub v) := by
  unfold RState.openSub
  have : (v.texts h).kind.isSub = v.kind.isSub := isSub_texts _
  rw [this]
  split
  · rw [← setSep_texts]
    simp only [Option.map_some, nil_of hh]
    rfl
  · rfl

theorem flushSep_texts (hh : Rewrites h) (s : RState) : (RState.texts h s).flushSep = RState.texts h s.flushSep := by
  unfold RState.flushSep
  have : (RState.texts h s).seps (RState.texts h s).level = (s.seps s.level).map h := rfl
  rw [this]
  cases s.seps s.level with
  | none => rfl
  | some x =>
    simp only [Option.map_some]
    rw [← setSep_texts, ← append_texts hh]
    simp only [Option.map_some, nil_of hh]
    rfl

theorem preEnter_texts (hh : Rewrites h) (s : RState) (v : Vis) :
    (RState.texts h s).preEnter (v.texts h) = ((s.preEnter v).1, RState.texts h (s.preEnter v).2) := by
  unfold RState.preEnter
  rw [lastAliasSeen_texts]
  have : (RState.texts h s).skip = s.skip := rfl
  rw [this]
  split
  · rfl
  · rw [pushAlias_texts, descend_texts, openSub_texts hh, flushSep_texts hh]
    rfl

theorem enterOf_texts (hh : Rewrites h) (s : RState) (v : Vis) :
    (RState.texts h s).enterOf (v.texts h) = RState.texts h (s.enterOf v) := by
  unfold RState.enterOf
  cases hk : v.kind with
  | plain op cl sub => simp only [Vis.texts, hk, Kind.texts]; exact append_texts hh s op
  | node name =>
    cases name with
    | none =>
      simp only [Vis.texts, hk, Kind.texts, Option.map_none]
      rw [← append_texts hh, hh.open_]
    | some name =>
      simp only [Vis.texts, hk, Kind.texts, Option.map_some]
      have h1 : (RState.texts h s).append c!"(" = RState.texts h (s.append c!"(") := by rw [← append_texts hh, hh.open_]
      rw [h1]
      have h2 : (RState.texts h (s.append c!"(")).vis v.key = (s.append c!"(").vis v.key := rfl
      rw [h2]
      split
      · exact append_texts hh { s.append c!"(" with skip := (s.append c!"(").vis v.key, vis := fun k => if k = v.key then true else (s.append c!"(").vis k } name
      · rfl
  | aliased dk tx =>
    simp only [Vis.texts, hk, Kind.texts]
    have h1 : ((RState.texts h s).al dk).isSome = (s.al dk).isSome := by simp [RState.texts]
    rw [h1]
    split
    · exact append_texts hh s tx
    · rfl

theorem leaveOf_texts (hh : Rewrites h) (s : RState) (v : Vis) :
    (RState.texts h s).leaveOf (v.texts h) = RState.texts h (s.leaveOf v) := by
  unfold RState.leaveOf
  cases hk : v.kind with
  | plain op cl sub => simp only [Vis.texts, hk, Kind.texts]; exact append_texts hh s cl
  | node name =>
    simp only [Vis.texts, hk, Kind.texts]
    have h1 : (RState.texts h s).append c!")" = RState.texts h (s.append c!")") := by rw [← append_texts hh, hh.close]
    rw [h1]
    rfl
  | aliased dk tx =>
    simp only [Vis.texts, hk, Kind.texts]
    have h1 : ((RState.texts h s).al dk).isSome = (s.al dk).isSome := by simp [RState.texts]
    rw [h1]
    split
    · rfl
    · have h2 : (RState.texts h s).append c!" AS " = RState.texts h (s.append c!" AS ") := by rw [← append_texts hh, hh.as]
      rw [h2]
      exact append_texts hh _ tx

theorem armSep_texts (hh : Rewrites h) (s : RState) : (RState.texts h s).armSep = RState.texts h s.armSep := by
  unfold RState.armSep
  have h1 : ((RState.texts h s).seps (RState.texts h s).level).isSome = (s.seps s.level).isSome := by simp [RState.texts]
  rw [h1]
  split
  · rw [← setSep_texts]
    simp only [Option.map_some, hh.comma]
    rfl
  · rfl

theorem closeSub_texts (s : RState) (v : Vis) : (RState.texts h s).closeSub (v.texts h) = RState.texts h (s.closeSub v) := by
  unfold RState.closeSub
  have : (v.texts h).kind.isSub = v.kind.isSub := isSub_texts _
  rw [this]
  split
  · rw [← setSep_texts]
    rfl
  · rfl

theorem popAlias_texts (s : RState) (v : Vis) : (RState.texts h s).popAlias (v.texts h) = RState.texts h (s.popAlias v) := by
  unfold RState.popAlias
  cases hs : s.astack with
  | nil => simp [RState.texts, hs]
  | cons a rest =>
    simp only [RState.texts, hs, List.map_cons, key_texts, Al.texts]
    split <;> simp [hs, Al.texts]

theorem postLeave_texts (hh : Rewrites h) (s : RState) (v : Vis) :
    (RState.texts h s).postLeave (v.texts h) = RState.texts h (s.postLeave v) := by
  unfold RState.postLeave
  rw [armSep_texts hh, closeSub_texts, popAlias_texts]
  rfl

theorem register_texts (s : RState) (v : Vis) : (RState.texts h s).register (v.texts h) = RState.texts h (s.register v) := by
  unfold RState.register
  rw [asAlias_texts]
  cases v.asAlias with
  | none => rfl
  | some a =>
    simp only [Option.map_some, RState.texts, RState.mk.injEq, and_true]
    funext k
    by_cases hk : k = a.dkey
    · simp [hk, Al.texts]
    · simp [hk, Al.texts]

theorem step_texts (hh : Rewrites h) (s : RState) (ev : Event) :
    (RState.texts h s).step (Event.texts h ev) = RState.texts h (s.step ev) := by
  cases ev with
  | raw t => exact append_texts hh s t
  | enter v =>
    simp only [RState.step, Event.texts, RState.enter, seen_texts, preEnter_texts hh]
    split
    · rw [← enterOf_texts hh]; rfl
    · rfl
  | leave v =>
    simp only [RState.step, Event.texts, RState.leave, seen_texts]
    rw [← register_texts]
    congr 1
    have h1 : (RState.texts h s).peek = s.peek := rfl
    rw [h1, key_texts]
    split
    · rw [leaveOf_texts hh, postLeave_texts hh]; rfl
    · rfl

theorem run_texts (hh : Rewrites h) (es : List Event) (s : RState) :
    (RState.texts h s).run (es.map (Event.texts h)) = RState.texts h (s.run es) := by
  induction es generalizing s with
  | nil => rfl
  | cons ev es ih =>
    simp only [RState.run, List.map_cons, List.foldl_cons] at ih ⊢
    rw [step_texts hh, ih]

mutual
theorem accept_texts (t : Tree) : accept (t.texts h) = (accept t).map (Event.texts h) := by
  match t with
  | .raw s => rfl
  | .node v kids => simp [Tree.texts, accept, acceptL_texts kids, Event.texts]
theorem acceptL_texts (ts : List Tree) : acceptL (Tree.textsL h ts) = (acceptL ts).map (Event.texts h) := by
  match ts with
  | [] => rfl
  | t :: ts => simp [Tree.textsL, acceptL, accept_texts t, acceptL_texts ts]
end

theorem new_texts (hh : Rewrites h) : RState.texts h RState.new = RState.new := by
  simp [RState.texts, RState.new, nil_of hh]

end OpaqueLemmas

open OpaqueLemmas

/-! ### C70 -/

/-- C70: if all texts of a statement are replaced, piece by piece, then exactly this happens to its text. -/
theorem C70_texts (h : Str → Str) (hh : Rewrites h) (ts : List Tree) :
    renderOut RState.new (Tree.textsL h ts) = h (renderOut RState.new ts) := by
  unfold renderOut
  rw [acceptL_texts, ← new_texts hh, run_texts hh, new_texts hh]
  rfl

/-- Put `x` for every `c`. -/
def fill (c : Char) (x : Str) (s : Str) : Str := s.flatMap fun d => if d = c then x else [d]

theorem fill_rewrites (c : Char) (x : Str) (hc : c ∉ c!"(), AS") : Rewrites (fill c x) := by
  simp only [List.mem_cons, List.not_mem_nil, or_false, not_or] at hc
  obtain ⟨h1, h2, h3, h4, h5, h6⟩ := hc
  constructor
  · intro a b; simp [fill]
  all_goals simp [fill, Ne.symm h1, Ne.symm h2, Ne.symm h3, Ne.symm h4, Ne.symm h5, Ne.symm h6]

/-- C70: what a program fills in at places of a statement, marked by a character that is used for nothing else, comes out at exactly
the places where this character comes out; everything else is the same, whatever is filled in. -/
theorem C70_filled (c : Char) (hc : c ∉ c!"(), AS") (x : Str) (ts : List Tree) :
    renderOut RState.new (Tree.textsL (fill c x) ts) = fill c x (renderOut RState.new ts) :=
  C70_texts _ (fill_rewrites c x hc) ts

/-- C70 for string literals: a literal with any contents is the literal with one marked character, filled with the escaped contents. -/
theorem C70_string (c : Char) (hc : c ∉ c!"'\\\"") (k : Key) (x : Str) :
    (stringLiteral k x).visit = Tree.textsL (fill c (escapeStringLiteral x)) (stringLiteral k [c]).visit := by
  simp only [List.mem_cons, List.not_mem_nil, or_false, not_or] at hc
  obtain ⟨h1, h2, h3⟩ := hc
  have hr : isReservedChar c = false := by simp [isReservedChar, h1, h2, h3]
  simp [stringLiteral, Val.mk', leaf, nd, Tree.textsL, Tree.texts, Vis.texts, Kind.texts, stringLiteralText,
    escapeStringLiteral, hr, fill, Ne.symm h1]

namespace SampleOpaque

/-- `RETURN '#' AS a, a`, where `#` marks a place. -/
def marked : List Tree := (SampleKeys.returned [aliasedCreate .ascii 1 (some (stringLiteral 2 c!"#")) c!"a", stringLiteral 2 c!"#", stringLiteral 3 c!"#"]).visit

example : renderOut RState.new (Tree.textsL (fill '#' (escapeStringLiteral c!"it's")) marked) = c!"RETURN 'it\\'s' AS a, a, 'it\\'s'" := by
  decide +kernel

end SampleOpaque

end Verif
