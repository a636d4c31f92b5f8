import Verif.PropsClauses

/-
C55: the text does not depend on where the objects of a statement are in memory, as long as different objects have different
addresses.  C56: an alias stands only for the expression that it was given to.
-/

namespace Verif
open Spec

/-! ### The same objects at other addresses -/

def Kind.at (f : Key → Key) : Kind → Kind
  | .aliased dk tx => .aliased (f dk) tx
  | k => k

def Vis.at (f : Key → Key) (v : Vis) : Vis := ⟨f v.key, v.kind.at f⟩

mutual
/-- The same value, where every object with address `k` is at `f k`. -/
def Tree.at (f : Key → Key) : Tree → Tree
  | .node v kids => .node (v.at f) (Tree.atL f kids)
  | .raw s => .raw s
def Tree.atL (f : Key → Key) : List Tree → List Tree
  | [] => []
  | t :: ts => t.at f :: Tree.atL f ts
end

mutual
/-- All addresses that occur: of the values visited, and of what aliases stand for. -/
def Tree.addrs : Tree → List Key
  | .node v kids => v.key :: ((v.asAlias.map Al.dkey).toList ++ Tree.addrsL kids)
  | .raw _ => []
def Tree.addrsL : List Tree → List Key
  | [] => []
  | t :: ts => t.addrs ++ Tree.addrsL ts
end

mutual
/-- All constructs of a value, with their parts. -/
def Tree.subs : Tree → List (Vis × List Tree)
  | .node v kids => (v, kids) :: Tree.subsL kids
  | .raw _ => []
def Tree.subsL : List Tree → List (Vis × List Tree)
  | [] => []
  | t :: ts => t.subs ++ Tree.subsL ts
end

namespace KeyLemmas

def Al.at (f : Key → Key) (a : Al) : Al := ⟨f a.key, f a.dkey, a.text⟩

def Event.at (f : Key → Key) : Event → Event
  | .enter v => .enter (v.at f)
  | .leave v => .leave (v.at f)
  | .raw s => .raw s

/-- The keys that matter. -/
structure Keeps (f : Key → Key) (K : Key → Prop) : Prop where
  inj : ∀ a b, K a → K b → f a = f b → a = b
  zero : K 0
  fix : f 0 = 0

def VisIn (K : Key → Prop) (v : Vis) : Prop := K v.key ∧ ∀ a, v.asAlias = some a → K a.dkey
def AlIn (K : Key → Prop) (a : Al) : Prop := K a.key ∧ K a.dkey

/-- The states of two runs. -/
structure Same (f : Key → Key) (K : Key → Prop) (s t : RState) : Prop where
  al : ∀ k, K k → t.al (f k) = (s.al k).map (Al.at f)
  alIn : ∀ k a, s.al k = some a → AlIn K a
  seps : t.seps = s.seps
  vis : ∀ k, K k → t.vis (f k) = s.vis k
  stack : t.stack = s.stack.map f
  stackIn : ∀ k ∈ s.stack, K k
  astack : t.astack = s.astack.map (Al.at f)
  astackIn : ∀ a ∈ s.astack, AlIn K a
  level : t.level = s.level
  skip : t.skip = s.skip
  out : t.out = s.out

variable {f : Key → Key} {K : Key → Prop} {s t : RState} {v : Vis}

theorem asAlias_at : (v.at f).asAlias = v.asAlias.map (Al.at f) := by
  obtain ⟨k, kind⟩ := v
  cases kind <;> rfl

theorem isSub_at : (v.at f).kind.isSub = v.kind.isSub := by
  obtain ⟨k, kind⟩ := v
  cases kind <;> rfl

theorem vis_at (a : Al) : (Al.at f a).vis = a.vis.at f := rfl

theorem asAlias_in (h : VisIn K v) {a : Al} (ha : v.asAlias = some a) : AlIn K a := by
  refine ⟨?_, h.2 a ha⟩
  obtain ⟨k, kind⟩ := v
  cases kind <;> simp [Vis.asAlias] at ha
  subst ha
  exact h.1

theorem Same.append (h : Same f K s t) (x : Str) : Same f K (s.append x) (t.append x) := by
  obtain ⟨a, b, c, d, e, g, i, j, k, l, m⟩ := h
  exact ⟨a, b, c, d, e, g, i, j, k, l, by simp [RState.append, m]⟩

theorem Same.setSep (h : Same f K s t) (n : Int) (x : Option Str) : Same f K (s.setSep n x) (t.setSep n x) := by
  obtain ⟨a, b, c, d, e, g, i, j, k, l, m⟩ := h
  exact ⟨a, b, by simp [RState.setSep, c], d, e, g, i, j, k, l, m⟩

theorem Same.peek (hk : Keeps f K) (h : Same f K s t) : t.peek = f s.peek ∧ K s.peek := by
  simp only [RState.peek, h.stack]
  cases hs : s.stack with
  | nil => exact ⟨hk.fix.symm, hk.zero⟩
  | cons a as => exact ⟨rfl, h.stackIn a (by simp [hs])⟩

theorem Same.seen (h : Same f K s t) (hv : VisIn K v) : t.getAliasedIfSeen (v.at f) = (s.getAliasedIfSeen v).at f ∧ VisIn K (s.getAliasedIfSeen v) := by
  simp only [RState.getAliasedIfSeen]
  rw [show (v.at f).key = f v.key from rfl, h.al _ hv.1]
  cases hs : s.al v.key with
  | none => exact ⟨rfl, hv⟩
  | some a =>
    have := h.alIn _ _ hs
    exact ⟨rfl, this.1, fun b hb => by cases hb; exact this.2⟩

theorem Same.lastAliasSeen (h : Same f K s t) : t.lastAliasSeen = s.lastAliasSeen := by
  simp only [RState.lastAliasSeen, h.astack]
  cases hs : s.astack with
  | nil => rfl
  | cons a as =>
    simp only [List.map_cons]
    rw [show (Al.at f a).dkey = f a.dkey from rfl, h.al _ (h.astackIn a (by simp [hs])).2]
    simp

theorem Same.pushAlias (h : Same f K s t) (hv : VisIn K v) : Same f K (s.pushAlias v) (t.pushAlias (v.at f)) := by
  simp only [RState.pushAlias, asAlias_at]
  cases ha : v.asAlias with
  | none => exact h
  | some a =>
    obtain ⟨x1, b, c, d, e, g, i, j, k, l, m⟩ := h
    exact ⟨x1, b, c, d, e, g, by simp [i], by
      intro y hy
      rcases List.mem_cons.mp hy with rfl | hy
      · exact asAlias_in hv ha
      · exact j y hy, k, l, m⟩

theorem Same.descend (h : Same f K s t) : Same f K s.descend t.descend := by
  obtain ⟨a, b, c, d, e, g, i, j, k, l, m⟩ := h
  exact ⟨a, b, c, d, e, g, i, j, by simp [RState.descend, k], l, m⟩

theorem Same.openSub (h : Same f K s t) : Same f K (s.openSub v) (t.openSub (v.at f)) := by
  simp only [RState.openSub, isSub_at, h.level]
  split
  · exact h.setSep ..
  · exact h

theorem Same.flushSep (h : Same f K s t) : Same f K s.flushSep t.flushSep := by
  simp only [RState.flushSep, h.level, h.seps]
  cases s.seps s.level with
  | none => exact h
  | some x => exact (h.append x).setSep ..

theorem Same.preEnter (h : Same f K s t) (hv : VisIn K v) : (t.preEnter (v.at f)).1 = (s.preEnter v).1 ∧ Same f K (s.preEnter v).2 (t.preEnter (v.at f)).2 := by
  simp only [RState.preEnter, h.skip, h.lastAliasSeen]
  have h1 := ((h.pushAlias hv).descend.openSub (v := v)).flushSep
  split
  · exact ⟨rfl, h⟩
  · exact ⟨by simp [h1.skip], h1⟩

theorem Same.push (h : Same f K s t) {k : Key} (hk : K k) : Same f K { s with stack := k :: s.stack } { t with stack := f k :: t.stack } := by
  obtain ⟨a, b, c, d, e, g, i, j, k1, l, m⟩ := h
  exact ⟨a, b, c, d, by simp [e], by
    intro x hx
    rcases List.mem_cons.mp hx with rfl | hx
    · exact hk
    · exact g x hx, i, j, k1, l, m⟩

theorem Same.mark (hf : Keeps f K) (h : Same f K s t) {k0 : Key} (hk : K k0) (b : Bool) :
    Same f K { s with skip := b, vis := fun k => if k = k0 then true else s.vis k } { t with skip := b, vis := fun k => if k = f k0 then true else t.vis k } := by
  obtain ⟨a, b, c, d, e, g, i, j, k1, l, m⟩ := h
  refine ⟨a, b, c, fun k hk' => ?_, e, g, i, j, k1, rfl, m⟩
  have : f k = f k0 ↔ k = k0 := ⟨hf.inj _ _ hk' hk, fun h => by rw [h]⟩
  simp only [this, d k hk']

theorem Same.enterOf (hf : Keeps f K) (h : Same f K s t) (hv : VisIn K v) : Same f K (s.enterOf v) (t.enterOf (v.at f)) := by
  obtain ⟨k, kind⟩ := v
  cases kind with
  | plain op cl sub => exact h.append _
  | node name =>
    cases name with
    | none => exact h.append _
    | some n =>
      simp only [RState.enterOf, Vis.at, Kind.at]
      have h1 := h.append c!"("
      have h2 := h1.vis k hv.1
      cases hx : (s.append c!"(").vis k <;> rw [hx] at h2 <;> simp only [h2, if_true, Bool.false_eq_true, if_false]
      · exact h1.mark hf hv.1 false
      · exact (h1.mark hf hv.1 true).append _
  | aliased dk tx =>
    simp only [RState.enterOf, Vis.at, Kind.at]
    rw [h.al dk (hv.2 _ rfl)]
    cases s.al dk with
    | none => exact h
    | some a => exact h.append _

theorem Same.leaveOf (h : Same f K s t) (hv : VisIn K v) : Same f K (s.leaveOf v) (t.leaveOf (v.at f)) := by
  obtain ⟨k, kind⟩ := v
  cases kind with
  | plain op cl sub => exact h.append _
  | node name =>
    obtain ⟨a, b, c, d, e, g, i, j, k1, l, m⟩ := h.append c!")"
    exact ⟨a, b, c, d, e, g, i, j, k1, rfl, m⟩
  | aliased dk tx =>
    simp only [RState.leaveOf, Vis.at, Kind.at]
    rw [h.al dk (hv.2 _ rfl)]
    cases s.al dk with
    | none => exact (h.append _).append _
    | some a => exact h

theorem Same.enter (hf : Keeps f K) (h : Same f K s t) (hv : VisIn K v) : Same f K (s.enter v) (t.enter (v.at f)) := by
  obtain ⟨h1, h2⟩ := h.seen hv
  simp only [RState.enter, h1]
  obtain ⟨h3, h4⟩ := h.preEnter h2
  rw [h3]
  split
  · exact (h4.push h2.1).enterOf hf h2
  · exact h4

theorem Same.armSep (h : Same f K s t) : Same f K s.armSep t.armSep := by
  simp only [RState.armSep, h.level, h.seps]
  split
  · exact h.setSep ..
  · exact h

theorem Same.closeSub (h : Same f K s t) : Same f K (s.closeSub v) (t.closeSub (v.at f)) := by
  simp only [RState.closeSub, isSub_at, h.level]
  split
  · exact h.setSep ..
  · exact h

theorem Same.popAlias (hf : Keeps f K) (h : Same f K s t) (hv : VisIn K v) : Same f K (s.popAlias v) (t.popAlias (v.at f)) := by
  simp only [RState.popAlias, h.astack]
  cases hs : s.astack with
  | nil => simpa using h
  | cons a as =>
    have ha := h.astackIn a (by simp [hs])
    have : f a.key = f v.key ↔ a.key = v.key := ⟨hf.inj _ _ ha.1 hv.1, fun h => by rw [h]⟩
    simp only [List.map_cons]
    rw [show (Al.at f a).key = f a.key from rfl, show (v.at f).key = f v.key from rfl]
    simp only [this]
    split
    · obtain ⟨a1, b, c, d, e, g, i, j, k1, l, m⟩ := h
      exact ⟨a1, b, c, d, e, g, rfl, fun x hx => j x (by simp [hs, hx]), k1, l, m⟩
    · exact h

theorem Same.postLeave (hf : Keeps f K) (h : Same f K s t) (hv : VisIn K v) : Same f K (s.postLeave v) (t.postLeave (v.at f)) := by
  obtain ⟨a1, b, c, d, e, g, i, j, k1, l, m⟩ := (h.armSep.closeSub (v := v)).popAlias hf hv
  exact ⟨a1, b, c, d, e, g, i, j, by simp [RState.postLeave, k1], l, m⟩

theorem Same.register (hf : Keeps f K) (h : Same f K s t) (hv : VisIn K v) : Same f K (s.register v) (t.register (v.at f)) := by
  simp only [RState.register, asAlias_at]
  cases ha : v.asAlias with
  | none => exact h
  | some a =>
    have hin := asAlias_in hv ha
    obtain ⟨a1, b, c, d, e, g, i, j, k1, l, m⟩ := h
    refine ⟨fun k hk => ?_, fun k x hx => ?_, c, d, e, g, i, j, k1, l, m⟩
    · have : f k = f a.dkey ↔ k = a.dkey := ⟨hf.inj _ _ hk hin.2, fun h => by rw [h]⟩
      simp only [Option.map_some]
      rw [show (Al.at f a).dkey = f a.dkey from rfl]
      simp only [this]
      split
      · rfl
      · exact a1 k hk
    · simp only at hx
      split at hx
      · cases hx; exact hin
      · exact b k x hx

theorem Same.leave (hf : Keeps f K) (h : Same f K s t) (hv : VisIn K v) : Same f K (s.leave v) (t.leave (v.at f)) := by
  obtain ⟨h1, h2⟩ := h.seen hv
  obtain ⟨h3, h4⟩ := h.peek hf
  simp only [RState.leave, h1]
  refine Same.register hf ?_ hv
  rw [h3, show ((s.getAliasedIfSeen v).at f).key = f (s.getAliasedIfSeen v).key from rfl]
  have : f s.peek = f (s.getAliasedIfSeen v).key ↔ s.peek = (s.getAliasedIfSeen v).key := ⟨hf.inj _ _ h4 h2.1, fun h => by rw [h]⟩
  simp only [this]
  split
  · obtain ⟨a1, b, c, d, e, g, i, j, k1, l, m⟩ := (h.leaveOf h2).postLeave hf h2
    exact ⟨a1, b, c, d, by simp [e], fun k hk => g k (List.mem_of_mem_tail hk), i, j, k1, l, m⟩
  · exact h

def EventIn (K : Key → Prop) : Event → Prop
  | .enter v | .leave v => VisIn K v
  | .raw _ => True

theorem Same.run (hf : Keeps f K) (es : List Event) (h : Same f K s t) (he : ∀ e ∈ es, EventIn K e) : Same f K (s.run es) (t.run (es.map (Event.at f))) := by
  induction es generalizing s t with
  | nil => exact h
  | cons e es ih =>
    simp only [RState.run, List.map_cons, List.foldl_cons]
    refine ih ?_ fun x hx => he x (by simp [hx])
    have := he e (by simp)
    cases e with
    | enter v => exact h.enter hf this
    | leave v => exact h.leave hf this
    | raw x => exact h.append x

mutual
theorem accept_at (f : Key → Key) : ∀ t : Tree, accept (t.at f) = (accept t).map (Event.at f)
  | .raw s => rfl
  | .node v kids => by simp [Tree.at, accept, Event.at, acceptL_at f kids]
theorem acceptL_at (f : Key → Key) : ∀ ts : List Tree, acceptL (Tree.atL f ts) = (acceptL ts).map (Event.at f)
  | [] => rfl
  | t :: ts => by simp [Tree.atL, acceptL, accept_at f t, acceptL_at f ts]
end

mutual
theorem accept_in (K : Key → Prop) : ∀ t : Tree, (∀ k ∈ t.addrs, K k) → ∀ e ∈ accept t, EventIn K e
  | .raw s, _, e, he => by simp [accept] at he; subst he; trivial
  | .node v kids, h, e, he => by
    have hv : VisIn K v := ⟨h _ (by simp [Tree.addrs]), fun a ha => h _ (by simp [Tree.addrs, ha])⟩
    simp only [accept, List.mem_cons, List.mem_append, List.not_mem_nil, or_false] at he
    rcases he with rfl | he | rfl
    · exact hv
    · exact acceptL_in K kids (fun k hk => h k (by simp [Tree.addrs, hk])) e he
    · exact hv
theorem acceptL_in (K : Key → Prop) : ∀ ts : List Tree, (∀ k ∈ Tree.addrsL ts, K k) → ∀ e ∈ acceptL ts, EventIn K e
  | [], _, e, he => by simp [acceptL] at he
  | t :: ts, h, e, he => by
    simp only [acceptL, List.mem_append] at he
    rcases he with he | he
    · exact accept_in K t (fun k hk => h k (by simp [Tree.addrsL, hk])) e he
    · exact acceptL_in K ts (fun k hk => h k (by simp [Tree.addrsL, hk])) e he
end

theorem same_new (f : Key → Key) (K : Key → Prop) : Same f K RState.new RState.new := by
  constructor <;> simp [RState.new]

/-- The aliases known in `e'` are those of `e` and those of the constructs `L`. -/
def From (L : List (Vis × List Tree)) (e e' : Env) : Prop :=
  ∀ k a, e'.al k = some a → e.al k = some a ∨ (a.dkey = k ∧ ∃ x ∈ L, x.1.asAlias = some a)

theorem From.refl (L) (e : Env) : From L e e := fun _ _ h => .inl h

theorem From.mono {L M : List (Vis × List Tree)} {e e' : Env} (h : From L e e') (hs : ∀ x ∈ L, x ∈ M) : From M e e' := fun k a ha =>
  (h k a ha).imp_right fun ⟨h1, x, hx, h2⟩ => ⟨h1, x, hs x hx, h2⟩

theorem From.trans {L : List (Vis × List Tree)} {e e' e'' : Env} (h : From L e e') (h' : From L e' e'') : From L e e'' := fun k a ha =>
  (h' k a ha).elim (h k a) .inr

theorem from_defined {L : List (Vis × List Tree)} {e e' : Env} {v : Vis} {kids : List Tree} (h : From L e e') (hv : (v, kids) ∈ L) : From L e (defined e' v) := by
  intro k a ha
  unfold defined at ha
  cases hx : v.asAlias with
  | none => rw [hx] at ha; exact h k a ha
  | some b =>
    rw [hx] at ha
    simp only at ha
    split at ha
    · cases ha
      rename_i hk
      exact .inr ⟨hk.symm, _, hv, hx⟩
    · exact h k a ha

theorem described_al (e : Env) (v : Vis) : (described e v).al = e.al := by
  unfold described
  split <;> rfl

theorem from_described {L : List (Vis × List Tree)} (e : Env) (v : Vis) : From L e (described e v) := fun k a ha => .inl (by rwa [described_al] at ha)

mutual
theorem mute_from : ∀ (t : Tree) (e : Env), From t.subs e (mute e t).2
  | .raw _, e => .refl _ e
  | .node v kids, e => from_defined (kids := kids) ((muteL_from kids e).mono fun x hx => by simp [Tree.subs, hx]) (by simp [Tree.subs])
theorem muteL_from : ∀ (ts : List Tree) (e : Env), From (Tree.subsL ts) e (muteL e ts).2
  | [], e => .refl _ e
  | t :: ts, e => ((mute_from t e).mono fun x hx => by simp [Tree.subsL, hx]).trans ((muteL_from ts _).mono fun x hx => by simp [Tree.subsL, hx])
end

mutual
theorem den_from : ∀ (t : Tree) (e : Env), From t.subs e (den e t).2
  | .raw _, e => .refl _ e
  | .node v kids, e => by
    rw [den]
    have hs : ∀ x ∈ Tree.subsL kids, x ∈ (Tree.node v kids).subs := fun x hx => by simp [Tree.subs, hx]
    cases shown e v with
    | short op cl => exact from_defined (kids := kids) ((muteL_from kids e).mono hs) (by simp [Tree.subs])
    | full op cl => exact from_defined (kids := kids) ((from_described e v).trans ((denL_from kids v.kind.isSub true _).mono hs)) (by simp [Tree.subs])
theorem denL_from : ∀ (ts : List Tree) (sub first : Bool) (e : Env), From (Tree.subsL ts) e (denL sub first e ts).2
  | [], _, _, e => .refl _ e
  | .raw s :: ts, sub, first, e => by rw [denL]; exact (denL_from ts sub first e).mono fun x hx => by simp [Tree.subsL, hx]
  | .node v kids :: ts, sub, first, e => by
    rw [denL]
    exact ((den_from (.node v kids) e).mono fun x hx => by simp [Tree.subsL, hx]).trans ((denL_from ts sub false _).mono fun x hx => by simp [Tree.subsL, hx])
end

mutual
theorem pieces_from : ∀ (t : Tree) (e : Env) (p : Piece), p ∈ pieces e t →
    (p.v, p.kids) ∈ t.subs ∧ ∃ e', From t.subs e e' ∧ p.text = (den e' (.node p.v p.kids)).1 ∧ (p.short = true → ∃ op cl, shown e' p.v = .short op cl)
  | .raw _, e, p, hp => by simp [pieces] at hp
  | .node v kids, e, p, hp => by
    rw [pieces] at hp
    cases hsh : shown e v with
    | short op cl =>
      rw [hsh] at hp
      simp only [List.mem_singleton] at hp
      subst hp
      exact ⟨by simp [Tree.subs], e, .refl _ e, rfl, fun _ => ⟨op, cl, hsh⟩⟩
    | full op cl =>
      rw [hsh] at hp
      simp only [List.mem_append, List.mem_singleton] at hp
      rcases hp with hp | rfl
      · obtain ⟨h1, e', h2, h3⟩ := piecesL_from kids _ p hp
        exact ⟨by simp [Tree.subs, h1], e', (from_described e v).trans (h2.mono fun x hx => by simp [Tree.subs, hx]), h3⟩
      · exact ⟨by simp [Tree.subs], e, .refl _ e, rfl, by simp⟩
theorem piecesL_from : ∀ (ts : List Tree) (e : Env) (p : Piece), p ∈ piecesL e ts →
    (p.v, p.kids) ∈ Tree.subsL ts ∧ ∃ e', From (Tree.subsL ts) e e' ∧ p.text = (den e' (.node p.v p.kids)).1 ∧ (p.short = true → ∃ op cl, shown e' p.v = .short op cl)
  | [], e, p, hp => by simp [piecesL] at hp
  | t :: ts, e, p, hp => by
    simp only [piecesL, List.mem_append] at hp
    rcases hp with hp | hp
    · obtain ⟨h1, e', h2, h3⟩ := pieces_from t e p hp
      exact ⟨by simp [Tree.subsL, h1], e', h2.mono fun x hx => by simp [Tree.subsL, hx], h3⟩
    · obtain ⟨h1, e', h2, h3⟩ := piecesL_from ts _ p hp
      exact ⟨by simp [Tree.subsL, h1], e', ((den_from t e).mono fun x hx => by simp [Tree.subsL, hx]).trans (h2.mono fun x hx => by simp [Tree.subsL, hx]), h3⟩
end

mutual
theorem subs_noRaw : ∀ t : Tree, NoRaw t → ∀ x ∈ t.subs, NoRawL x.2
  | .raw _, h, _, _ => h.elim
  | .node v kids, h, x, hx => by
    simp only [Tree.subs, List.mem_cons] at hx
    rcases hx with rfl | hx
    · exact h
    · exact subsL_noRaw kids h x hx
theorem subsL_noRaw : ∀ ts : List Tree, NoRawL ts → ∀ x ∈ Tree.subsL ts, NoRawL x.2
  | [], _, x, hx => by simp [Tree.subsL] at hx
  | t :: ts, h, x, hx => by
    simp only [Tree.subsL, List.mem_append] at hx
    rcases hx with hx | hx
    · exact subs_noRaw t h.1 x hx
    · exact subsL_noRaw ts h.2 x hx
end

mutual
theorem subs_kids : ∀ t : Tree, ∀ x ∈ t.subs, ∀ y ∈ Tree.subsL x.2, y ∈ t.subs
  | .raw _, x, hx, _, _ => by simp [Tree.subs] at hx
  | .node v kids, x, hx, y, hy => by
    simp only [Tree.subs, List.mem_cons] at hx ⊢
    rcases hx with rfl | hx
    · exact .inr hy
    · exact .inr (subsL_kids kids x hx y hy)
theorem subsL_kids : ∀ ts : List Tree, ∀ x ∈ Tree.subsL ts, ∀ y ∈ Tree.subsL x.2, y ∈ Tree.subsL ts
  | [], x, hx, _, _ => by simp [Tree.subsL] at hx
  | t :: ts, x, hx, y, hy => by
    simp only [Tree.subsL, List.mem_append] at hx ⊢
    rcases hx with hx | hx
    · exact .inl (subs_kids t x hx y hy)
    · exact .inr (subsL_kids ts x hx y hy)
end

end KeyLemmas
open KeyLemmas

namespace SampleKeys

def x : Val := symbolicName .ascii 100 c!"x"
def y : Val := symbolicName .ascii 101 c!"y"
def z : Val := symbolicName .ascii 102 c!"z"
def one : Val := intLiteral 103 1
def cx : Cond := .atom (comparisonCreate 104 0 0 (some x) .equality (some one))
def cy : Cond := .atom (comparisonCreate 105 0 0 (some y) .equality (some one))
def cz : Cond := .atom (comparisonCreate 106 0 0 (some z) .equality (some one))

/-- `Returning(xs)`. -/
def returned (xs : List Val) : Statement := ⟨none, (returnCreate 50 51 false xs {}).elim [] (·.visit)⟩

/-- A node `ANode(label).NamedByString(name)`, made at the address `k`. -/
def node (k kl kn : Key) (label name : Str) : Val := ((NodeV.create2 k kl label).namedByString kn name).toVal .ascii

/-- `Match(xs)`. -/
def matched (xs : List Val) : Statement := ⟨none, (matchCreate 50 51 false xs none).val.visit⟩

/-- `c := x.IsEqualTo(1).And(y.IsEqualTo(1))`. -/
def both : Cond := Cond.combine ⟨110, 111, 112⟩ cx .and cy

/-- `c := CaseExpression(x).When(1).Then(y)`. -/
def case_ : CaseV := match (CaseV.simple 120 (some x)).whenThen 121 122 one y with | .ok c => c | .panic => .bad (.other 0)

/-- What a new renderer makes of a statement. -/
def rendered (st : Statement) : Except Err Str := (render .ascii RState.new (some st)).1

end SampleKeys
open SampleKeys

/-! ### C55 The text does not depend on addresses -/

/-- Move a statement to other addresses. -/
def Statement.at (f : Key → Key) (st : Statement) : Statement := ⟨st.err, Tree.atL f st.visit⟩

/-- C55, the renderer: if different addresses of the objects of a statement are moved to different addresses (the empty key stays),
the result of rendering is the same, for all statements. -/
theorem C55_addresses_partial (u : Unicode) (f : Key → Key) (st : Statement) (h0 : f 0 = 0)
    (hf : ∀ a ∈ 0 :: Tree.addrsL st.visit, ∀ b ∈ 0 :: Tree.addrsL st.visit, f a = f b → a = b) :
    (render u RState.new (some (st.at f))).1 = (render u RState.new (some st)).1 := by
  have hk : Keeps f (· ∈ 0 :: Tree.addrsL st.visit) := ⟨fun a b ha hb h => hf a ha b hb h, by simp, h0⟩
  have := ((same_new f _).run hk (acceptL st.visit) (acceptL_in _ _ fun k hk => by simp [hk])).out
  simp only [render, Statement.at]
  cases st.err with
  | some e => rfl
  | none => simp only [acceptL_at, this]

/-- The hypotheses hold for `MATCH (a:A), (b:B), (a)`, moved to other addresses. -/
example : let st := matched [node 1 2 3 c!"A" c!"a", node 4 5 6 c!"B" c!"b", node 1 2 3 c!"A" c!"a"]
    let f : Key → Key := fun k => if k = 0 then 0 else 1000 - k
    (f 0 = 0 ∧ ∀ a ∈ 0 :: Tree.addrsL st.visit, ∀ b ∈ 0 :: Tree.addrsL st.visit, f a = f b → a = b) ∧
    Tree.addrsL (st.at f).visit ≠ Tree.addrsL st.visit ∧ rendered st = .ok c!"MATCH (a:`A`), (b:`B`), (a)" := by decide +kernel

/-- C55 fails if an address comes back: an object made by a constructor is copied when it is returned, and nothing refers to the
place where it was made (support.go:26-28, node.go:91-93), so that after a garbage collection the next object can be made there.  A
node made at the address of another one loses its labels. -/
theorem C55_address_reused :
    rendered (matched [node 1 2 3 c!"A" c!"a", node 4 5 6 c!"B" c!"b"]) = .ok c!"MATCH (a:`A`), (b:`B`)" ∧
    rendered (matched [node 1 2 3 c!"A" c!"a", node 1 5 6 c!"B" c!"b"]) = .ok c!"MATCH (a:`A`), (b)" := by decide +kernel

/-- C55 fails in the same way for aliases: `Returning(x.As("a"), 5)`, where the literal 5 is made where x was. -/
theorem C55_address_reused_alias :
    rendered (returned [aliasedCreate .ascii 1 (some (symbolicName .ascii 2 c!"x")) c!"a", intLiteral 3 5]) = .ok c!"RETURN x AS a, 5" ∧
    rendered (returned [aliasedCreate .ascii 1 (some (symbolicName .ascii 2 c!"x")) c!"a", intLiteral 2 5]) = .ok c!"RETURN x AS a, a" := by decide +kernel

/-! ### C56 An alias stands only for its own expression -/

/-- C56, for all statements in which one key belongs to one object: whatever is shown as an alias is this alias, or it is exactly
the expression that the alias was given to. -/
theorem C56_alias_partial (ts : List Tree) (hr : NoRawL ts)
    (hone : ∀ x ∈ Tree.subsL ts, ∀ y ∈ Tree.subsL ts, x.1.key = y.1.key → x = y)
    (hdel : ∀ x ∈ Tree.subsL ts, ∀ a, x.1.asAlias = some a → ∃ d ks, x.2 = [.node d ks] ∧ d.key = a.dkey)
    (p : Piece) (hp : p ∈ piecesL Env.empty ts) (hs : p.short = true) (hn : ∀ n, p.v.kind ≠ .node (some n)) :
    ∃ v d ks a, (v, [.node d ks]) ∈ Tree.subsL ts ∧ v.asAlias = some a ∧ p.text = a.text ∧
      ((p.v, p.kids) = (d, ks) ∨ (p.v, p.kids) = (v, [.node d ks])) := by
  obtain ⟨hin, e, hfrom, htext, hshort⟩ := piecesL_from ts _ p hp
  obtain ⟨op, cl, hsh⟩ := hshort hs
  have hmute := muteL_noRaw e p.kids (subsL_noRaw ts hr _ hin)
  rw [den, hsh] at htext
  simp only [hmute, List.append_nil] at htext
  unfold shown at hsh
  cases hal : e.al p.v.key with
  | some a =>
    rw [hal] at hsh
    simp only [Shown.short.injEq] at hsh
    obtain ⟨rfl, rfl⟩ := hsh
    rcases hfrom _ _ hal with h | ⟨hk, x, hx, hxa⟩
    · simp [Env.empty] at h
    · obtain ⟨d, ks, hd, hdk⟩ := hdel x hx a hxa
      refine ⟨x.1, d, ks, a, by rw [← hd]; exact hx, hxa, by simp [htext], .inl ?_⟩
      refine hone _ hin (d, ks) ?_ (by rw [hdk, hk])
      exact subsL_kids ts x hx (d, ks) (by rw [hd]; simp [Tree.subsL, Tree.subs])
  | none =>
    rw [hal] at hsh
    simp only at hsh
    cases hkind : p.v.kind with
    | plain op cl sub => rw [hkind] at hsh; cases hsh
    | node n =>
      cases n with
      | none => rw [hkind] at hsh; cases hsh
      | some n => exact absurd hkind (hn n)
    | aliased dk tx =>
      rw [hkind] at hsh
      simp only at hsh
      split at hsh
      · simp only [Shown.short.injEq] at hsh
        obtain ⟨rfl, rfl⟩ := hsh
        have hpa : p.v.asAlias = some ⟨p.v.key, dk, tx⟩ := by simp [Vis.asAlias, hkind]
        obtain ⟨d, ks, hd, hdk⟩ := hdel _ hin _ hpa
        exact ⟨p.v, d, ks, _, by rw [← hd]; exact hin, hpa, by simp [htext], .inr (by rw [← hd])⟩
      · cases hsh

/-- The hypotheses hold for `RETURN x AS a, y, a`. -/
example : let st := returned [aliasedCreate .ascii 1 (some x) c!"a", y, x]
    rendered st = .ok c!"RETURN x AS a, y, a" ∧ NoRawL st.visit ∧
    (∀ x ∈ Tree.subsL st.visit, ∀ y ∈ Tree.subsL st.visit, x.1.key = y.1.key → x = y) ∧
    (∀ x ∈ Tree.subsL st.visit, ∀ a, x.1.asAlias = some a → ∃ d ks, x.2 = [.node d ks] ∧ d.key = a.dkey) ∧
    (∃ p ∈ piecesL Env.empty st.visit, p.short = true ∧ ∀ n, p.v.kind ≠ .node (some n)) := by
  intro st
  have hst : st.visit = [nd 50 c!"RETURN " [] false [nd 0 [] [] true [.node ⟨1, .aliased 100 c!"a"⟩ [leaf 100 c!"x"], leaf 101 c!"y", leaf 100 c!"x"]]] := by rfl
  refine ⟨by decide +kernel, ?_, ?_, ?_, ?_⟩
  · rw [hst]; simp [NoRawL, NoRaw, nd, leaf]
  · rw [hst]; simp [Tree.subsL, Tree.subs, nd, leaf]
  · rw [hst]; simp [Tree.subsL, Tree.subs, nd, leaf, Vis.asAlias]
  · rw [hst]
    refine ⟨⟨⟨100, .plain c!"x" [] false⟩, [], c!"a", true⟩, ?_, rfl, by simp⟩
    simp [piecesL, pieces, shown, Env.empty, described, defined, den, denL, nd, leaf, Vis.asAlias, muteL, mute]

/-- C56 fails for conditions: `And` of a combination keeps the key of its receiver (compound_condition.go:148-176).  With
`c := x.IsEqualTo(1).And(y.IsEqualTo(1))`, `Returning(c.As("b"), c.And(z.IsEqualTo(1)))`. -/
theorem C56_condition : rendered (returned [aliasedCreate .ascii 1 (some both.toVal) c!"b", (Cond.combine ⟨113, 114, 115⟩ both .and cz).toVal]) =
      .ok c!"RETURN (x = 1 AND y = 1) AS b, b" ∧
    rendered (returned [(Cond.combine ⟨113, 114, 115⟩ both .and cz).toVal]) = .ok c!"RETURN (x = 1 AND y = 1 AND z = 1)" := by decide +kernel

/-- C56 fails for CASE: `ElseDefault` keeps the key of its receiver (case.go:167-175).  With `c := CaseExpression(x).When(1).Then(y)`,
`Returning(c.As("b"), c.ElseDefault(z))`. -/
theorem C56_case : rendered (returned [aliasedCreate .ascii 1 (some case_.toVal) c!"b", (case_.elseDefault 123 z).toVal]) =
      .ok c!"RETURN CASE x WHEN 1 THEN y END AS b, b" ∧
    rendered (returned [(case_.elseDefault 123 z).toVal]) = .ok c!"RETURN CASE x WHEN 1 THEN y ELSE z END" := by decide +kernel

/-- C11 is false if an alias only occurs inside something that is abbreviated: with `c` as in `C56_condition`,
`Returning(c.As("b"), c.And(one.As("a").IsEqualTo(z)), one)` never defines `a`. -/
theorem C11_hidden_alias : rendered (returned [aliasedCreate .ascii 1 (some both.toVal) c!"b",
      (Cond.combine ⟨113, 114, 115⟩ both .and (.atom (comparisonCreate 116 0 0 (some (aliasedCreate .ascii 2 (some one) c!"a")) .equality (some z)))).toVal, one]) =
    .ok c!"RETURN (x = 1 AND y = 1) AS b, b, a" := by decide +kernel

end Verif
