import Verif.BuilderSpec
import Verif.PropsClauses

/-
Lemmas for the fluent builder.
-/

namespace Verif
open Spec

/-! ### Conditions that differ only in the copies inside -/

inductive Cond.Same : Cond → Cond → Prop
  | refl (c : Cond) : Cond.Same c c
  | atom (v : Val) (c c' : Option (Bool × List Tree)) : Cond.Same (.atom { v with copy := c }) (.atom { v with copy := c' })
  | compound {a a' : Cond} (k : Key) (op : Option Op) (cs : List Cond) (em : Bool) (err : Option Err) (nn hc hc' : Bool) (cp cp' : List Cond)
      (h : Cond.Same a a') : Cond.Same (.compound k op (a :: cs) em err nn hc cp) (.compound k op (a' :: cs) em err nn hc' cp')

theorem Cond.Same.val {c c' : Cond} (h : c.Same c') : c.toVal.visit = c'.toVal.visit ∧ c.toVal.err = c'.toVal.err ∧ c.toVal.notNil = c'.toVal.notNil ∧
    c.hasCondition = c'.hasCondition ∧ c.isCompound = c'.isCompound ∧ ∀ op, c.actualOp op = c'.actualOp op := by
  induction h with
  | refl c => simp
  | atom v c c' => simp [Cond.toVal, Cond.hasCondition, Cond.isCompound, Cond.actualOp]
  | compound k op cs em err nn hc hc' cp cp' h ih =>
    simp [Cond.toVal, Cond.hasCondition, Cond.isCompound, Cond.actualOp, Cond.visits, ih]

/-- Lists of conditions that differ only in copies inside the first one. -/
def SameL (l l' : List Cond) : Prop := l = l' ∨ ∃ a a' cs, l = a :: cs ∧ l' = a' :: cs ∧ a.Same a'

theorem SameL.append {l l' : List Cond} (h : SameL l l') (m : List Cond) : SameL (l ++ m) (l' ++ m) := by
  rcases h with rfl | ⟨a, a', cs, rfl, rfl, h⟩
  · exact Or.inl rfl
  · exact Or.inr ⟨a, a', cs ++ m, rfl, rfl, h⟩

theorem addConds_append (op : Option Op) (ki : Key) (h : Op) (x : Cond) : ∃ m, ∀ l, Cond.addConds op l ki h x = l ++ m := by
  cases x with
  | atom v => exact ⟨[.atom v], fun l => rfl⟩
  | neg k kn c => exact ⟨[.neg k kn c], fun l => rfl⟩
  | compound k o cs em err nn hc cp =>
    simp only [Cond.addConds]
    split
    · exact ⟨[], fun l => by simp⟩
    · split
      · split
        · exact ⟨cs, fun l => rfl⟩
        · exact ⟨[.compound k o cs em err nn hc cp], fun l => rfl⟩
      · exact ⟨[.wrapped ki h [.compound k o cs em err nn hc cp]], fun l => rfl⟩

theorem addConds_same {l l' : List Cond} (h : SameL l l') (op : Option Op) (ki : Key) (o : Op) (x : Cond) :
    SameL (Cond.addConds op l ki o x) (Cond.addConds op l' ki o x) := by
  obtain ⟨m, hm⟩ := addConds_append op ki o x
  rw [hm, hm]
  exact h.append m

theorem addConds_first {c c' : Cond} (h : c.Same c') (op : Option Op) (ki : Key) (o : Op) :
    SameL (Cond.addConds op [] ki o c) (Cond.addConds op [] ki o c') := by
  cases h with
  | refl c => exact Or.inl rfl
  | atom v c c' => exact Or.inr ⟨_, _, [], rfl, rfl, .atom v c c'⟩
  | @compound a a' k op' cs em err nn hc hc' cp cp' ha =>
    have hs := Cond.Same.compound k op' cs em err nn hc hc' cp cp' ha
    have hh := hs.val.2.2.2.1
    have hf : Cond.canBeFlattenedWith o (a :: cs) = Cond.canBeFlattenedWith o (a' :: cs) := by
      cases ha <;> simp [Cond.canBeFlattenedWith]
    simp only [Cond.addConds, hh, hf, List.nil_append]
    split
    · exact Or.inl rfl
    · split
      · split
        · exact Or.inr ⟨_, _, cs, rfl, rfl, ha⟩
        · exact Or.inr ⟨_, _, [], rfl, rfl, hs⟩
      · exact Or.inr ⟨_, _, [], rfl, rfl, .compound ki (some o) [] false none true true true [] [] hs⟩

theorem same_compound {l l' : List Cond} (h : SameL l l') (k : Key) (op : Option Op) (em : Bool) (err : Option Err) (nn hc hc' : Bool) (cp cp' : List Cond)
    (hcp : l = l' → hc = hc' ∧ cp = cp') : Cond.Same (.compound k op l em err nn hc cp) (.compound k op l' em err nn hc' cp') := by
  by_cases hl : l = l'
  · obtain ⟨rfl, rfl⟩ := hcp hl
    rw [hl]
    exact .refl _
  · rcases h with h | ⟨a, a', cs, rfl, rfl, h⟩
    · exact absurd h hl
    · exact .compound k op cs em err nn hc hc' cp cp' h

theorem compoundCreate_same {c c' : Cond} (h : c.Same c') (ks : Cond.Keys) (o : Op) (x : Cond) :
    (Cond.compoundCreate ks c o x).Same (Cond.compoundCreate ks c' o x) := by
  obtain ⟨_, he, hn, _, _⟩ := h.val
  have hm : nilErr (some c.toVal) (.site "compound_condition.go" 29) = nilErr (some c'.toVal) (.site "compound_condition.go" 29) := by
    simp only [nilErr, missing, hn]; rfl
  rw [Cond.compoundCreate, Cond.compoundCreate, he, hm]
  split
  · exact .refl _
  · exact same_compound (addConds_same (addConds_first h _ _ _) _ _ _ _) _ _ _ _ _ _ _ _ _ fun hl => ⟨rfl, hl⟩

theorem combine_same {c c' : Cond} (h : c.Same c') (ks : Cond.Keys) (o : Op) (x : Cond) : (Cond.combine ks c o x).Same (Cond.combine ks c' o x) := by
  have hc := h.val.2.2.2.2.1
  rw [Cond.combine, Cond.combine, hc]
  split
  · have h2 := compoundCreate_same h ks o x
    cases h with
    | refl c => exact .refl _
    | atom v c c' => exact .atom v c c'
    | compound k op cs em err nn h1 h1' cp cp' ha =>
      simp only [Cond.add]
      split
      · exact .refl _
      · split
        · obtain ⟨m, hm⟩ := addConds_append op ks.inner1 o x
          rw [hm, hm]
          exact .compound k op (cs ++ m) _ err nn h1 h1' cp cp' ha
        · exact h2
  · exact compoundCreate_same h ks o x

theorem combine_compound (ks : Cond.Keys) (c : Cond) (o : Op) (x : Cond) : (Cond.combine ks c o x).isCompound = true := by
  have h : ∀ c, (Cond.compoundCreate ks c o x).isCompound = true := by
    intro c
    rw [Cond.compoundCreate]
    split <;> rfl
  rw [Cond.combine]
  split
  · rename_i hc
    cases c with
    | atom v => simp [Cond.isCompound] at hc
    | neg k kn c => simp [Cond.isCompound] at hc
    | compound k op cs em err nn hc cp =>
      rw [Cond.add]
      split
      · rfl
      · split
        · rfl
        · exact h _
  · exact h c

/-- The condition `c` of a builder stands for `p`, and can be combined further. -/
def Ready (c : Cond) (p : Calls) : Prop := c.Same p.build ∧ (c.isCompound = true ∨ ∃ c', c.recv = some c' ∧ c'.Same p.build)

theorem ready_first {p : Calls} (hu : p.Usable) (hs : SelfCopy p) : Ready p.build p := by
  refine ⟨.refl _, ?_⟩
  cases p with
  | atom v =>
    right
    simp only [Calls.Usable, Calls.UsableAtom] at hu
    refine ⟨.atom { v with copy := none }, ?_, ?_⟩
    · simp [Calls.build, Cond.recv, Val.recv, show v.copy = _ from hs, hu.2.1]
    · have := Cond.Same.atom v none v.copy
      exact this
  | empty => left; rfl
  | bin ks h p q => left; exact combine_compound ..
  | pattern ks h p v => left; simp only [Calls.build, Cond.combinePattern, Cond.compoundCreate]; split <;> rfl
  | not k kn p =>
    right
    have hq := (show CondOk p.build from build_ok p (by simp only [Calls.Usable] at hu; exact hu.1)).val
    exact ⟨.neg k kn p.build, by simp only [Calls.build, Cond.not, Cond.recv, not_ok hq, Val.mk']; simp, .refl _⟩

theorem ready_more {c : Cond} {p : Calls} (h : Ready c p) (m : Cond.Keys × BOp × Calls) :
    ∃ c', combineOfGet m.1 (some c) m.2.1.op m.2.2.build = .ok c' ∧ Ready c' (.bin m.1 m.2.1 p m.2.2) := by
  obtain ⟨hs, hc | ⟨c', hr, hs'⟩⟩ := h
  · refine ⟨Cond.combine m.1 c m.2.1.op m.2.2.build, by simp [combineOfGet, hc], ?_, Or.inl (combine_compound ..)⟩
    exact combine_same hs ..
  · by_cases hc : c.isCompound = true
    · refine ⟨Cond.combine m.1 c m.2.1.op m.2.2.build, by simp [combineOfGet, hc], ?_, Or.inl (combine_compound ..)⟩
      exact combine_same hs ..
    · refine ⟨Cond.combine m.1 c' m.2.1.op m.2.2.build, by simp [combineOfGet, hc, hr], ?_, Or.inl (combine_compound ..)⟩
      exact combine_same hs' ..

theorem same_built (kw : Key) {c c' : Cond} (h : c.Same c') :
    (builtCondition (some c)).map (fun c => whereCreate kw c.toVal) = (builtCondition (some c')).map (fun c => whereCreate kw c.toVal) := by
  obtain ⟨h1, h2, h3, h4, _⟩ := h.val
  simp only [builtCondition, h3, h4]
  split
  · simp [whereCreate, h1, h2]
  · rfl

/-- The condition held by a builder stands for an optional request. -/
def Stands : Option Cond → Option Calls → Prop
  | none, none => True
  | some c, some p => c.Same p.build
  | _, _ => False

theorem stands_built (kw : Key) {c : Option Cond} {p : Option Calls} (h : Stands c p) :
    (builtCondition c).map (fun c => whereCreate kw c.toVal) = (builtCondition (p.map Calls.build)).map (fun c => whereCreate kw c.toVal) := by
  match c, p, h with
  | none, none, _ => rfl
  | some c, some p, h => exact same_built kw h

theorem whole_usable {w : WhereReq} (h : w.Ok) : w.whole.Usable := by
  obtain ⟨h1, -, h3⟩ := h
  have : ∀ (l : List (Cond.Keys × BOp × Calls)) (p : Calls), p.Usable → (∀ m ∈ l, m.2.2.Usable) →
      (l.foldl (fun p m => Calls.bin m.1 m.2.1 p m.2.2) p).Usable := by
    intro l
    induction l with
    | nil => intro p hp _; exact hp
    | cons m l ih => intro p hp hm; exact ih _ ⟨hp, hm m (by simp)⟩ fun x hx => hm x (by simp [hx])
  exact this _ _ h1 fun m hm => (h3 m hm).2

/-! ### Texts one after the other -/

/-- The calls `ts` show as `ps`, unless one of the objects `ks` is given an alias. -/
def Shows (ks : List Key) (ts : List Tree) (ps : List Part) : Prop := ∀ e : Env, NoAlias e ks ts → shownAs e ts = layout e ps

theorem Shows.nil : Shows [] [] [] := fun e _ => by simp [shownAs, denL, layout]

theorem Shows.append {ks ks' : List Key} {ts ts' : List Tree} {ps ps' : List Part} (h : Shows ks ts ps) (h' : Shows ks' ts' ps') :
    Shows (ks ++ ks') (ts ++ ts') (ps ++ ps') := by
  intro e ha
  have h1 := h e (ha.mono (by simp +contextual)).left
  have h2 := h' (denL false true e ts).2 ((ha.mono (by simp +contextual)).right false true)
  simp only [shownAs] at h1 h2 ⊢
  rw [denL_append, h2, h1, layout_append]

theorem Shows.mono {ks ks' : List Key} {ts : List Tree} {ps : List Part} (h : Shows ks ts ps) (hk : ∀ k ∈ ks, k ∈ ks') : Shows ks' ts ps :=
  fun e ha => h e (ha.mono hk)

theorem Shows.wrap {ks : List Key} {ts : List Tree} {ps : List Part} (h : Shows ks ts ps) (k : Key) (op cl : Str) :
    Shows (k :: ks) [nd k op cl false ts] (.lit op :: ps ++ [.lit cl]) := by
  intro e ha
  have h1 := h e (fun k' hk' => by have := ha k' (by simp [hk']); rwa [dkeysL_nd] at this)
  have hk := (ha k (by simp)).1
  have hd : shownAs e [nd k op cl false ts] = den e (nd k op cl false ts) := by simp [shownAs, nd, denL, sepText]
  rw [hd, den_nd hk]
  simp only [shownAs] at h1
  rw [h1]
  simp [layout, layout_append]

theorem Shows.congr {ks : List Key} {ts : List Tree} {ps ps' : List Part} (h : Shows ks ts ps) (hp : ∀ e, layout e ps = layout e ps') : Shows ks ts ps' :=
  fun e ha => (h e ha).trans (hp e)

/-! ### The state of the builder -/

/-- The stages at which the builder is a `DefaultStatementBuilder`, with the parts and clauses that it holds. -/
def Has (s : Stage) (b : Base) (P : List PartV) (C : List Clause) : Prop :=
  match s with
  | .plain => b = { elems := C, parts := P }
  | .match_ => ∃ m es, m.notNil = true ∧ b = { elems := es, parts := P, omatch := m } ∧ C = es ++ [m.build]
  | .created => ∃ x es, b = { elems := es, parts := P, oupdate := some x } ∧ C = es ++ [x.build]
  | .merged => ∃ x es, b = { elems := es, parts := P, oupdate := some x } ∧ C = es ++ [x.build]
  | .callWhere => ∃ c v es, b = { elems := es, parts := P, ocall := some c } ∧ c.build = .ok v ∧ C = es ++ [v]
  | _ => False

theorem Has.err {s : Stage} {b : Base} {P : List PartV} {C : List Clause} (h : Has s b P C) : b.err = none ∧ b.parts = P := by
  cases s <;> simp only [Has] at h
  case plain => subst h; exact ⟨rfl, rfl⟩
  case match_ => obtain ⟨_, _, _, rfl, _⟩ := h; exact ⟨rfl, rfl⟩
  case created => obtain ⟨_, _, rfl, _⟩ := h; exact ⟨rfl, rfl⟩
  case merged => obtain ⟨_, _, rfl, _⟩ := h; exact ⟨rfl, rfl⟩
  case callWhere => obtain ⟨_, _, _, rfl, _⟩ := h; exact ⟨rfl, rfl⟩

theorem Has.list {s : Stage} {b : Base} {P : List PartV} {C : List Clause} (h : Has s b P C) : b.list = .ok C := by
  cases s <;> simp only [Has] at h
  case plain => subst h; simp [Base.list]
  case match_ => obtain ⟨_, _, hn, rfl, hc⟩ := h; simp [Base.list, hn, hc]
  case created => obtain ⟨_, _, rfl, hc⟩ := h; simp [Base.list, hc]
  case merged => obtain ⟨_, _, rfl, hc⟩ := h; simp [Base.list, hc]
  case callWhere => obtain ⟨_, _, _, rfl, hb, hc⟩ := h; simp [Base.list, hb, hc]

/-- What `Update` and `Call` close. -/
theorem Has.closeAll {s : Stage} {b : Base} {P : List PartV} {C : List Clause} (h : Has s b P C) :
    b.closeMatch.closeCall.closeUpdate = { elems := C, parts := P } ∧ b.closeCall.closeMatch.closeUpdate = { elems := C, parts := P } := by
  cases s <;> simp only [Has] at h
  case plain => subst h; simp [Base.closeMatch, Base.closeCall, Base.closeUpdate]
  case match_ => obtain ⟨_, _, hn, rfl, hc⟩ := h; simp [Base.closeMatch, Base.closeCall, Base.closeUpdate, hn, hc]
  case created => obtain ⟨_, _, rfl, hc⟩ := h; simp [Base.closeMatch, Base.closeCall, Base.closeUpdate, hc]
  case merged => obtain ⟨_, _, rfl, hc⟩ := h; simp [Base.closeMatch, Base.closeCall, Base.closeUpdate, hc]
  case callWhere => obtain ⟨_, _, _, rfl, hb, hc⟩ := h; simp [Base.closeMatch, Base.closeCall, Base.closeUpdate, hb, hc]

/-- What `Match` and `Call1` close. -/
theorem Has.closeReading {s : Stage} {b : Base} {P : List PartV} {C : List Clause} (h : Has s b P C) (hs : s ≠ .created ∧ s ≠ .merged) :
    b.closeMatch.closeCall = { elems := C, parts := P } := by
  cases s <;> simp only [Has] at h
  case plain => subst h; simp [Base.closeMatch, Base.closeCall]
  case match_ => obtain ⟨_, _, hn, rfl, hc⟩ := h; simp [Base.closeMatch, Base.closeCall, hn, hc]
  case created => simp at hs
  case merged => simp at hs
  case callWhere => obtain ⟨_, _, _, rfl, hb, hc⟩ := h; simp [Base.closeMatch, Base.closeCall, hb, hc]

/-- What `Unwind` closes. -/
theorem Has.closeMatch {s : Stage} {b : Base} {P : List PartV} {C : List Clause} (h : Has s b P C) (hs : s = .plain ∨ s = .match_) :
    b.closeMatch = { elems := C, parts := P } := by
  rcases hs with rfl | rfl <;> simp only [Has] at h
  · subst h; simp [Base.closeMatch]
  · obtain ⟨_, _, hn, rfl, hc⟩ := h; simp [Base.closeMatch, hn, hc]

/-- What `Set` closes. -/
theorem Has.closeUpdate {s : Stage} {b : Base} {P : List PartV} {C : List Clause} (h : Has s b P C) (hs : s ≠ .callWhere) :
    ∃ s', (s' = .plain ∨ s' = .match_) ∧ Has s' b.closeUpdate P C := by
  cases s <;> simp only [Has] at h
  case plain => subst h; exact ⟨.plain, Or.inl rfl, rfl⟩
  case match_ => obtain ⟨m, es, hn, rfl, hc⟩ := h; exact ⟨.match_, Or.inr rfl, m, es, hn, rfl, hc⟩
  case created => obtain ⟨_, _, rfl, hc⟩ := h; exact ⟨.plain, Or.inl rfl, by simp [Has, Base.closeUpdate, hc]⟩
  case merged => obtain ⟨_, _, rfl, hc⟩ := h; exact ⟨.plain, Or.inl rfl, by simp [Has, Base.closeUpdate, hc]⟩
  case callWhere => exact absurd rfl hs

/-- The state of any builder at a stage. -/
def Holds (s : Stage) (b : B) (P : List PartV) (C : List Clause) : Prop :=
  match b with
  | .base b => Has s b P C
  | .with_ w => s = .with_ ∧ ∃ s' b v C' P', w.base = some b ∧ Has s' b P' C' ∧
      withCreate w.k w.kl w.ko w.kw w.distinct w.items w.order w.cond = some v ∧ P = P' ++ [partCreate w.kp C' v] ∧ C = []
  | .upd x => s = .updated ∧ ∃ s' b c C', (s' = .plain ∨ s' = .match_) ∧ x = { base := some b, builder := some c } ∧ Has s' b P C' ∧ C = C' ++ [c.build]
  | .inCall i => s = .call ∧ ∃ b c v es, i = { base := some b, call := some c } ∧ { b with ocall := none } = ({ elems := es, parts := P } : Base) ∧
      c.build = .ok v ∧ C = es ++ [v]
  | .standalone c n => s = .first ∧ n = true ∧ P = [] ∧ ∃ v, c.build = .ok v ∧ C = [v]
  | _ => False

end Verif
