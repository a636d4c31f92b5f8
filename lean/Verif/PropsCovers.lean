import Verif.PropsSettle

/-
C64 for chains of calls: every chain that is admitted and can be built is a query in the sense of C64.
-/

namespace Verif
open Spec

variable (u : Unicode)

namespace Spec

/-- The arguments of a call are usable. -/
def UsableCall : Call → Prop
  | .match_ _ _ _ ps => ∀ x ∈ ps, x.err = none ∧ One x.visit
  | .where_ c => ∃ k : Calls, c = k.build ∧ k.Usable ∧ SelfCopy k
  | .and _ c | .or _ c => ∃ k : Calls, c = k.build ∧ k.Usable
  | .with_ _ _ a | .returning _ _ _ a => ArgsOk u a ∧ items u a ≠ []
  | .orderItems xs => ∃ ds : List SortReq, xs = ds.map SortReq.build ∧ ∀ d ∈ ds, d.x.err = none
  | .orderBy _ x | .andBy _ x => x.err = none
  | .skip _ _ n => n.natAbs < 10 ^ 10
  | .limit _ _ n => n ≠ 0 ∧ n.natAbs < 10 ^ 10
  | .delete _ _ a => ArgsOk u a
  | .create _ ps | .merge _ ps => ∃ p, ps = [p] ∧ p.err = none ∧ One p.visit
  | .set _ xs | .actionSet _ _ _ _ xs => ∃ as : List SetArg, xs = as.flatMap SetArg.args ∧ ∀ a ∈ as, a.Ok
  | .setNamed _ n x => n.err = none ∧ n.req = n.sym ∧ (SetArg.pair n.sym x).Ok
  | .setLabels _ _ _ _ _ n ls | .removeLabels _ _ _ _ _ n ls => (n.err = none ∧ n.notNil = true ∧ n.name ≠ none) ∧ ls ≠ [] ∧ ∀ l ∈ ls, l ≠ []
  | .remove _ xs => ∀ x ∈ xs, x.err = none ∧ One x.visit
  | .unwind x => x.err = none ∧ ∀ d a, x.tag ≠ .aliased d a
  | .callStmt _ s => s.err = none ∧ s.returns = true
  | .callProc _ _ _ _ _ name => ∃ n, name = [n]
  | .args xs => xs ≠ [] ∧ ∀ x ∈ xs, x.err = none ∧ One x.visit
  | .yield _ xs => ∀ x ∈ xs, x.err = none ∧ One x.visit
  | .asc _ | .desc | .on _ | .as .. => True

/-- What the calls before mean for `Where`, `And`, `Or`, `OnCreate` and `OnMatch`: is there a condition of a MATCH or WITH; is the
clause a MERGE; was the last call that of a subquery, or YIELD, or did it give arguments? -/
structure Uses where
  cond : Bool := false
  merge : Bool := false
  sub : Bool := false
  yielded : Bool := false
  given : Bool := false

/-- No WHERE for a subquery, `And` and `Or` extend a condition of a MATCH or WITH, `OnCreate` and `OnMatch` belong to a MERGE,
arguments are given once. -/
def Uses.ok (s : Uses) : Call → Bool
  | .where_ _ => !s.sub
  | .and .. | .or .. => s.cond
  | .on _ => s.merge
  | .args _ => !s.given
  | _ => true

def Uses.next (s : Uses) : Call → Uses
  | .where_ _ => { cond := !s.yielded }
  | .and .. | .or .. | .orderItems _ | .orderBy .. | .andBy .. | .asc _ | .desc | .skip .. | .limit .. => { cond := s.cond }
  | .merge .. => { merge := true }
  | .on _ | .actionSet .. => { merge := s.merge }
  | .callStmt .. => { sub := true }
  | .yield .. => { yielded := true }
  | .args _ => { given := true }
  | _ => {}

def Uses.all (s : Uses) : List Call → Bool
  | [] => true
  | c :: cs => s.ok c && (s.next c).all cs

/-- Pairs of calls that the builder does not show in their order: setting or removing labels or properties after an action of a MERGE, and
`ReturningDistinct` directly after SET or REMOVE, which is dropped. -/
def outOfOrder : Call → Call → Bool
  | .actionSet .., .setLabels .. | .actionSet .., .removeLabels .. | .actionSet .., .remove .. => true
  | .set .., .returning _ _ true _ | .setNamed .., .returning _ _ true _ | .setLabels .., .returning _ _ true _ | .removeLabels .., .returning _ _ true _
  | .remove .., .returning _ _ true _ => true
  | _, _ => false

/-- UNWIND, SET and REMOVE after the condition of a procedure call. -/
def outOfOrderCall : Call → Call → Call → Bool
  | .yield .., .where_ _, .unwind _ | .yield .., .where_ _, .set .. | .yield .., .where_ _, .setNamed .. | .yield .., .where_ _, .setLabels ..
  | .yield .., .where_ _, .removeLabels .. | .yield .., .where_ _, .remove .. => true
  | _, _, _ => false

end Spec

namespace Covers

def isClause : Call → Bool
  | .match_ .. | .with_ .. | .returning .. | .delete .. | .create .. | .merge .. | .set .. | .setNamed .. | .setLabels .. | .removeLabels ..
  | .remove .. | .unwind .. | .callStmt .. | .callProc .. => true
  | _ => false

def atClause : List Call → Bool
  | [] => true
  | c :: _ => isClause c

structure Going (i : Iface) (s : Uses) (j : Iface) (cs : List Call) : Prop where
  typed : Iface.typed i cs = some j
  uses : s.all cs = true
  ok : ∀ c ∈ cs, UsableCall u c

variable {u}

theorem Going.cons {i j : Iface} {s : Uses} {c : Call} {cs : List Call} (h : Going u i s j (c :: cs)) :
    ∃ k, Iface.sig i c = some k ∧ s.ok c = true ∧ UsableCall u c ∧ Going u k (s.next c) j cs := by
  obtain ⟨h1, h2, h3⟩ := h
  rw [Iface.typed, Option.bind_eq_some_iff] at h1
  obtain ⟨k, hk, h1⟩ := h1
  rw [Uses.all, Bool.and_eq_true] at h2
  exact ⟨k, hk, h2.1, h3 c List.mem_cons_self, h1, h2.2, fun d hd => h3 d (List.mem_cons_of_mem c hd)⟩

theorem Going.nil {i j : Iface} {s : Uses} (h : Going u i s j []) : j = i := by
  have := h.typed
  simp [Iface.typed] at this
  exact this.symm

/-- What is left after a clause. -/
def Left (u : Unicode) (j : Iface) (rest : List Call) : Prop := atClause rest = true ∧ ∃ i s, Going u i s j rest

theorem mores_of {s : Uses} {j : Iface} (cs : List Call) (h : Going u .readingWhere s j cs) :
    ∃ (ms : List (Cond.Keys × BOp × Calls)) (rest : List Call), cs = ms.map moreCall ++ rest ∧ (∀ m ∈ ms, m.2.1 ≠ .xor ∧ m.2.2.Usable) ∧
      (s.cond = false → ms = []) ∧ Left u j rest := by
  induction cs generalizing s with
  | nil => exact ⟨[], [], rfl, by simp, fun _ => rfl, rfl, _, _, h⟩
  | cons c cs ih =>
    obtain ⟨k, hk, ho, hc, hg⟩ := h.cons
    cases c <;> first | (cases hk; done) | (exact ⟨[], _, rfl, by simp, fun _ => rfl, rfl, _, _, h⟩) | skip
    case and ks c =>
      cases hk
      obtain ⟨q, rfl, hq⟩ := hc
      obtain ⟨ms, rest, rfl, hm, _, hl⟩ := ih hg
      refine ⟨(ks, .and, q) :: ms, rest, rfl, ?_, fun h => ?_, hl⟩
      · intro m hm'
        rcases List.mem_cons.1 hm' with rfl | hm'
        · exact ⟨by simp, hq⟩
        · exact hm m hm'
      · simp [Uses.ok, h] at ho
    case or ks c =>
      cases hk
      obtain ⟨q, rfl, hq⟩ := hc
      obtain ⟨ms, rest, rfl, hm, _, hl⟩ := ih hg
      refine ⟨(ks, .or, q) :: ms, rest, rfl, ?_, fun h => ?_, hl⟩
      · intro m hm'
        rcases List.mem_cons.1 hm' with rfl | hm'
        · exact ⟨by simp, hq⟩
        · exact hm m hm'
      · simp [Uses.ok, h] at ho

/-- A sorting without direction is the last one. -/
def OrdersOk (os : List OrderCall) : Prop :=
  (∀ pre d post, os = pre ++ .sort d :: post → d.dir = .undefined → post = []) ∧ ∀ d ∈ os.flatMap OrderCall.sorts, d.x.err = none

theorem OrdersOk.nil : OrdersOk [] := ⟨fun pre d post h => by simp at h, by simp⟩

theorem OrdersOk.last (d : SortReq) (h : d.x.err = none) : OrdersOk [.sort d] := by
  refine ⟨fun pre d' post hp _ => ?_, by simpa [OrderCall.sorts] using h⟩
  cases pre with
  | nil => simp at hp; exact hp.2
  | cons a pre => simp at hp

theorem OrdersOk.cons {o : OrderCall} {os : List OrderCall} (h : OrdersOk os) (ho : ∀ d ∈ o.sorts, d.x.err = none) (hd : ∀ d, o = .sort d → d.dir ≠ .undefined) :
    OrdersOk (o :: os) := by
  refine ⟨fun pre d post hp hu => ?_, fun d hd' => ?_⟩
  · cases pre with
    | nil => simp at hp; exact absurd hu (hd d hp.1)
    | cons a pre => simp at hp; exact h.1 pre d post hp.2 hu
  · rw [List.flatMap_cons, List.mem_append] at hd'
    rcases hd' with hd' | hd'
    · exact ho d hd'
    · exact h.2 d hd'

abbrev limitCalls (l : Option NumReq) : List Call := l.toList.map fun s => .limit s.k s.kl s.n
abbrev skipCalls (l : Option NumReq) : List Call := l.toList.map fun s => .skip s.k s.kl s.n

/-- What follows a WITH. -/
def WithRest (u : Unicode) (s : Uses) (j : Iface) (cs : List Call) : Prop :=
  ∃ (mods : List WithMod) (limit : Option NumReq) (rest : List Call), cs = mods.flatMap WithReq.modCalls ++ limitCalls limit ++ rest ∧
    (∀ m ∈ WithReq.mores mods, m.2.1 ≠ .xor ∧ m.2.2.Usable) ∧ OrdersOk (WithReq.orders mods) ∧ (s.cond = false → WithReq.mores mods = []) ∧
    (∀ l, limit = some l → l.n ≠ 0 ∧ l.n.natAbs < 10 ^ 10) ∧ Left u j rest

theorem WithRest.here {s : Uses} {j : Iface} {cs : List Call} (h : Left u j cs) : WithRest u s j cs :=
  ⟨[], none, cs, rfl, by simp [WithReq.mores], OrdersOk.nil, fun _ => rfl, by simp, h⟩

theorem left_withEnd {s : Uses} {j : Iface} {cs : List Call} (h : Going u .withEnd s j cs) : Left u j cs := by
  cases cs with
  | nil => exact ⟨rfl, _, _, h⟩
  | cons c cs =>
    obtain ⟨k, hk, -⟩ := h.cons
    cases c <;> first | (cases hk; done) | exact ⟨rfl, _, _, h⟩

theorem WithRest.limit {s : Uses} {j : Iface} {k kl : Key} {n : Int} {cs : List Call} (hc : UsableCall u (.limit k kl n)) (hg : Left u j cs) :
    WithRest u s j (.limit k kl n :: cs) :=
  ⟨[], some ⟨k, kl, n⟩, cs, rfl, by simp [WithReq.mores], OrdersOk.nil, fun _ => rfl, fun l hl => (by cases hl; exact hc), hg⟩

theorem WithRest.more {s s' : Uses} {j : Iface} {m : Cond.Keys × BOp × Calls} {cs : List Call} (hm : m.2.1 ≠ .xor ∧ m.2.2.Usable) (hs : s.cond = true)
    (h : WithRest u s' j cs) : WithRest u s j (moreCall m :: cs) := by
  obtain ⟨mods, limit, rest, rfl, h1, h2, _, h4, h5⟩ := h
  refine ⟨.more m :: mods, limit, rest, rfl, fun m' hm' => ?_, h2, fun h => absurd (hs.symm.trans h) (by decide), h4, h5⟩
  rcases List.mem_cons.1 hm' with rfl | hm'
  · exact hm
  · exact h1 m' hm'

theorem WithRest.order {s s' : Uses} {j : Iface} (again : Bool) {o : OrderCall} {cs : List Call} (ho : ∀ d ∈ o.sorts, d.x.err = none)
    (hd : ∀ d, o = .sort d → d.dir ≠ .undefined) (hs : s'.cond = s.cond) (h : WithRest u s' j cs) : WithRest u s j (orderCalls again o ++ cs) := by
  obtain ⟨mods, limit, rest, rfl, h1, h2, h3, h4, h5⟩ := h
  exact ⟨.order again o :: mods, limit, rest, by simp [WithReq.modCalls], h1, h2.cons ho hd, fun h => h3 (hs.trans h), h4, h5⟩

theorem withSkip_stuck {s : Uses} {j : Iface} {cs : List Call} (hb : j.builds = true) (h : Going u .withSkip s j cs) : False := by
  cases cs with
  | nil => rw [h.nil] at hb; cases hb
  | cons c cs => obtain ⟨k, hk, -⟩ := h.cons; cases c <;> cases hk

/-- A sort item of a WITH, what follows it known for shorter chains. -/
theorem sort_rest {s : Uses} {j : Iface} (hb : j.builds = true) (again : Bool) (k : Key) (x : Val) (hx : x.err = none) (cs : List Call)
    (h : Going u .withSort s j cs) (ih : ∀ (ds : List Call) (s' : Uses), s'.cond = s.cond → ds.length < cs.length → Going u .withOrder s' j ds → WithRest u s' j ds)
    {s0 : Uses} (hs : s.cond = s0.cond) : WithRest u s0 j ((if again then .andBy k x else .orderBy k x) :: cs) := by
  cases cs with
  | nil => have := h.nil; subst this; cases hb
  | cons c cs =>
    obtain ⟨i, hk, ho, hc, hg⟩ := h.cons
    cases c <;> first | (cases hk; done) | skip
    case asc kd =>
      cases hk
      have := ih cs (s.next (.asc kd)) rfl (by simp) hg
      exact WithRest.order again (o := .sort ⟨k, kd, x, .asc⟩) (by simpa [OrderCall.sorts] using hx) (fun d hd => by cases hd; simp) hs this
    case desc =>
      cases hk
      have := ih cs (s.next .desc) rfl (by simp) hg
      exact WithRest.order again (o := .sort ⟨k, 0, x, .desc⟩) (by simpa [OrderCall.sorts] using hx) (fun d hd => by cases hd; simp) hs this
    case skip =>
      cases hk
      exact (withSkip_stuck hb hg).elim
    case limit k' kl n =>
      cases hk
      exact ⟨[.order again (.sort ⟨k, 0, x, .undefined⟩)], some ⟨k', kl, n⟩, cs, rfl, by simp [WithReq.mores], OrdersOk.last _ hx, fun _ => rfl,
        fun l hl => (by cases hl; exact hc), left_withEnd hg⟩

/-- The types of a WITH. -/
def isWith : Iface → Bool
  | .withWhere | .withOrder => true
  | _ => false

theorem with_rest {j : Iface} (hb : j.builds = true) (n : Nat) :
    ∀ (cs : List Call) (i : Iface) (s : Uses), cs.length < n → i = .withWhere ∨ i = .withOrder → Going u i s j cs → WithRest u s j cs := by
  induction n with
  | zero => intro cs i s h; simp at h
  | succ n ih =>
    intro cs i s hn hi h
    cases cs with
    | nil => exact WithRest.here ⟨rfl, _, _, h⟩
    | cons c cs =>
      obtain ⟨k, hk, ho, hc, hg⟩ := h.cons
      simp only [List.length_cons] at hn
      rcases hi with rfl | rfl
      · cases c <;> first | (cases hk; done) | (exact WithRest.here ⟨rfl, _, _, h⟩) | skip
        case and ks c =>
          cases hk
          obtain ⟨q, rfl, hq⟩ := hc
          exact WithRest.more (m := (ks, .and, q)) ⟨by simp, hq⟩ ho (ih cs _ _ (by omega) (Or.inl rfl) hg)
        case or ks c =>
          cases hk
          obtain ⟨q, rfl, hq⟩ := hc
          exact WithRest.more (m := (ks, .or, q)) ⟨by simp, hq⟩ ho (ih cs _ _ (by omega) (Or.inl rfl) hg)
        case orderItems xs =>
          cases hk
          obtain ⟨ds, rfl, hd⟩ := hc
          exact WithRest.order false (o := .items ds) (by simpa [OrderCall.sorts] using hd) (fun d hd => by cases hd) (s' := s.next (.orderItems (ds.map SortReq.build))) rfl (ih cs _ _ (by omega) (Or.inl rfl) hg)
        case orderBy k x =>
          cases hk
          exact sort_rest hb false k x hc cs hg (fun ds s' _ hl hg' => ih ds _ _ (by omega) (Or.inr rfl) hg') rfl
        case skip =>
          cases hk
          exact (withSkip_stuck hb hg).elim
        case limit =>
          cases hk
          exact WithRest.limit hc (left_withEnd hg)
      · cases c <;> first | (cases hk; done) | (exact WithRest.here ⟨rfl, _, _, h⟩) | skip
        case andBy k x =>
          cases hk
          exact sort_rest hb true k x hc cs hg (fun ds s' _ hl hg' => ih ds _ _ (by omega) (Or.inr rfl) hg') rfl
        case skip =>
          cases hk
          exact (withSkip_stuck hb hg).elim
        case limit =>
          cases hk
          exact WithRest.limit hc (left_withEnd hg)

/-- What follows a RETURN. -/
def RetRest (cs : List Call) : Prop :=
  ∃ (os : List (Bool × OrderCall)) (skip limit : Option NumReq), cs = os.flatMap (fun o => orderCalls o.1 o.2) ++ skipCalls skip ++ limitCalls limit ∧
    OrdersOk (os.map (·.2)) ∧ (∀ l, skip = some l → l.n.natAbs < 10 ^ 10) ∧ ∀ l, limit = some l → l.n ≠ 0 ∧ l.n.natAbs < 10 ^ 10

theorem buildable_end {s : Uses} {j : Iface} {cs : List Call} (h : Going u .buildable s j cs) : cs = [] := by
  cases cs with
  | nil => rfl
  | cons c cs => obtain ⟨k, hk, -⟩ := h.cons; cases c <;> cases hk

theorem retSkip_end {s : Uses} {j : Iface} {cs : List Call} (h : Going u .retSkip s j cs) :
    ∃ limit : Option NumReq, cs = limitCalls limit ∧ ∀ l, limit = some l → l.n ≠ 0 ∧ l.n.natAbs < 10 ^ 10 := by
  cases cs with
  | nil => exact ⟨none, rfl, by simp⟩
  | cons c cs =>
    obtain ⟨k, hk, hoo, hc, hg⟩ := h.cons
    cases c <;> first | (cases hk; done) | skip
    case limit k' kl n =>
      cases hk
      rw [buildable_end hg]
      exact ⟨some ⟨k', kl, n⟩, rfl, fun l hl => by cases hl; exact hc⟩

/-- SKIP and LIMIT after the given orders. -/
theorem ret_tail {i : Iface} {s : Uses} {j : Iface} {cs : List Call} (os : List (Bool × OrderCall)) (ho : OrdersOk (os.map (·.2)))
    (hs : ∀ c cs', cs = c :: cs' → (∃ k kl n, c = .skip k kl n) ∨ ∃ k kl n, c = .limit k kl n) (hi : i = .ret ∨ i = .retOrder ∨ i = .retSort)
    (h : Going u i s j cs) : RetRest (os.flatMap (fun o => orderCalls o.1 o.2) ++ cs) := by
  cases cs with
  | nil => exact ⟨os, none, none, by simp, ho, by simp, by simp⟩
  | cons c cs =>
    obtain ⟨k, hk, hoo, hc, hg⟩ := h.cons
    rcases hs c cs rfl with ⟨k', kl, n, rfl⟩ | ⟨k', kl, n, rfl⟩
    · have : k = .retSkip := by rcases hi with rfl | rfl | rfl <;> cases hk <;> rfl
      subst this
      obtain ⟨limit, rfl, hl⟩ := retSkip_end hg
      exact ⟨os, some ⟨k', kl, n⟩, limit, by simp [skipCalls], ho, fun l hl => by cases hl; exact hc, hl⟩
    · have : k = .buildable := by rcases hi with rfl | rfl | rfl <;> cases hk <;> rfl
      subst this
      rw [buildable_end hg]
      exact ⟨os, none, some ⟨k', kl, n⟩, by simp [skipCalls, limitCalls], ho, by simp, fun l hl => by cases hl; exact hc⟩

theorem RetRest.order (again : Bool) {o : OrderCall} {cs : List Call} (ho : ∀ d ∈ o.sorts, d.x.err = none) (hd : ∀ d, o = .sort d → d.dir ≠ .undefined)
    (h : RetRest cs) : RetRest (orderCalls again o ++ cs) := by
  obtain ⟨os, skip, limit, rfl, h1, h2, h3⟩ := h
  exact ⟨(again, o) :: os, skip, limit, by simp, h1.cons ho hd, h2, h3⟩

theorem ret_sort {s : Uses} {j : Iface} (again : Bool) (k : Key) (x : Val) (hx : x.err = none) (cs : List Call) (h : Going u .retSort s j cs)
    (ih : ∀ (ds : List Call) (s' : Uses), ds.length < cs.length → Going u .retOrder s' j ds → RetRest ds) :
    RetRest ((if again then .andBy k x else .orderBy k x) :: cs) := by
  cases cs with
  | nil => exact ret_tail [(again, .sort ⟨k, 0, x, .undefined⟩)] (OrdersOk.last _ hx) (fun _ _ h => by cases h) (Or.inr (Or.inr rfl)) h
  | cons c cs =>
    obtain ⟨i, hk, hoo, hc, hg⟩ := h.cons
    cases c <;> first | (cases hk; done) | skip
    case asc kd =>
      cases hk
      exact RetRest.order again (o := .sort ⟨k, kd, x, .asc⟩) (by simpa [OrderCall.sorts] using hx) (fun d hd => by cases hd; simp) (ih cs _ (by simp) hg)
    case desc =>
      cases hk
      exact RetRest.order again (o := .sort ⟨k, 0, x, .desc⟩) (by simpa [OrderCall.sorts] using hx) (fun d hd => by cases hd; simp) (ih cs _ (by simp) hg)
    case skip k' kl n =>
      exact ret_tail [(again, .sort ⟨k, 0, x, .undefined⟩)] (OrdersOk.last _ hx) (fun _ _ h => by cases h; exact Or.inl ⟨_, _, _, rfl⟩) (Or.inr (Or.inr rfl)) h
    case limit k' kl n =>
      exact ret_tail [(again, .sort ⟨k, 0, x, .undefined⟩)] (OrdersOk.last _ hx) (fun _ _ h => by cases h; exact Or.inr ⟨_, _, _, rfl⟩) (Or.inr (Or.inr rfl)) h

theorem retOrder_rest {j : Iface} (n : Nat) : ∀ (cs : List Call) (s : Uses), cs.length < n → Going u .retOrder s j cs → RetRest cs := by
  induction n with
  | zero => intro cs s h; simp at h
  | succ n ih =>
    intro cs s hn h
    cases cs with
    | nil => exact ret_tail [] OrdersOk.nil (fun _ _ h => by cases h) (Or.inr (Or.inl rfl)) h
    | cons c cs =>
      obtain ⟨k, hk, hoo, hc, hg⟩ := h.cons
      simp only [List.length_cons] at hn
      cases c <;> first | (cases hk; done) | skip
      case andBy k x =>
        cases hk
        exact ret_sort true k x hc cs hg (fun ds s' hl hg' => ih ds s' (by omega) hg')
      case skip => exact ret_tail [] OrdersOk.nil (fun _ _ h => by cases h; exact Or.inl ⟨_, _, _, rfl⟩) (Or.inr (Or.inl rfl)) h
      case limit => exact ret_tail [] OrdersOk.nil (fun _ _ h => by cases h; exact Or.inr ⟨_, _, _, rfl⟩) (Or.inr (Or.inl rfl)) h

theorem ret_rest {j : Iface} {s : Uses} (cs : List Call) (h : Going u .ret s j cs) : RetRest cs := by
  cases cs with
  | nil => exact ret_tail [] OrdersOk.nil (fun _ _ h => by cases h) (Or.inl rfl) h
  | cons c cs =>
    obtain ⟨k, hk, hoo, hc, hg⟩ := h.cons
    cases c <;> first | (cases hk; done) | skip
    case orderItems xs =>
      cases hk
      obtain ⟨ds, rfl, hd⟩ := hc
      exact RetRest.order false (o := .items ds) (by simpa [OrderCall.sorts] using hd) (fun d hd => by cases hd) (retOrder_rest _ cs _ (Nat.lt_succ_self _) hg)
    case orderBy k x =>
      cases hk
      exact ret_sort false k x hc cs hg (fun ds s' hl hg' => retOrder_rest _ ds s' (Nat.lt_succ_self _) hg')
    case skip => exact ret_tail [] OrdersOk.nil (fun _ _ h => by cases h; exact Or.inl ⟨_, _, _, rfl⟩) (Or.inl rfl) h
    case limit => exact ret_tail [] OrdersOk.nil (fun _ _ h => by cases h; exact Or.inr ⟨_, _, _, rfl⟩) (Or.inl rfl) h

/-- After clauses that nothing belongs to. -/
theorem left_plain {i : Iface} {s : Uses} {j : Iface} {cs : List Call} (hi : i = .reading ∨ i = .updateSet ∨ i = .update ∨ i = .updated) (hs : s.merge = false)
    (h : Going u i s j cs) : Left u j cs := by
  cases cs with
  | nil => exact ⟨rfl, _, _, h⟩
  | cons c cs =>
    obtain ⟨k, hk, ho, -⟩ := h.cons
    have hc : isClause c = true := by
      rcases hi with rfl | rfl | rfl | rfl <;> cases c <;> first | rfl | (cases hk; done) | (simp [Uses.ok, hs] at ho)
    exact ⟨hc, _, _, h⟩

/-- After a subquery. -/
theorem left_sub {s : Uses} {j : Iface} {cs : List Call} (hs : s.sub = true) (h : Going u .readingNoWhere s j cs) : Left u j cs := by
  cases cs with
  | nil => exact ⟨rfl, _, _, h⟩
  | cons c cs =>
    obtain ⟨k, hk, ho, -⟩ := h.cons
    have hc : isClause c = true := by cases c <;> first | rfl | (cases hk; done) | (simp [Uses.ok, hs] at ho)
    exact ⟨hc, _, _, h⟩

/-- The condition of a MATCH. -/
theorem match_rest {s : Uses} {j : Iface} (cs : List Call) (h : Going u .readingNoWhere s j cs) :
    ∃ (w : Option WhereReq) (rest : List Call), cs = w.toList.flatMap WhereReq.calls ++ rest ∧ (∀ x, w = some x → x.Ok) ∧ Left u j rest := by
  cases cs with
  | nil => exact ⟨none, [], rfl, by simp, rfl, _, _, h⟩
  | cons c cs =>
    obtain ⟨k, hk, ho, hc, hg⟩ := h.cons
    cases c <;> first | (cases hk; done) | (exact ⟨none, _, rfl, by simp, rfl, _, _, h⟩) | skip
    case where_ c =>
      cases hk
      obtain ⟨q, rfl, h1, h2⟩ := hc
      obtain ⟨ms, rest, rfl, h3, _, hl⟩ := mores_of cs hg
      exact ⟨some ⟨q, ms⟩, rest, by simp [WhereReq.calls], fun x hx => by cases hx; exact ⟨h1, h2, h3⟩, hl⟩

/-- The actions of a MERGE. -/
theorem merge_rest {j : Iface} (hb : j.builds = true) (n : Nat) :
    ∀ (cs : List Call) (i : Iface) (s : Uses), cs.length < n → i = .updateSet ∨ i = .merged → Going u i s j cs →
      ∃ (as : List ActionReq) (rest : List Call),
        cs = (as.flatMap fun a => [.on a.type, .actionSet a.k a.kset a.kl a.ks (a.args.flatMap SetArg.args)]) ++ rest ∧
        (∀ a ∈ as, ∀ x ∈ a.args, x.Ok) ∧ Left u j rest := by
  induction n with
  | zero => intro cs i s h; simp at h
  | succ n ih =>
    intro cs i s hn hi h
    cases cs with
    | nil => exact ⟨[], [], rfl, by simp, rfl, _, _, h⟩
    | cons c cs =>
      obtain ⟨k, hk, ho, hc, hg⟩ := h.cons
      by_cases hcl : isClause c = true
      · exact ⟨[], _, rfl, by simp, hcl, _, _, h⟩
      have : ∃ t, c = .on t ∧ k = .mergeAction := by
        rcases hi with rfl | rfl <;> cases c <;> first | (cases hk; done) | (exact absurd rfl hcl) | (cases hk; exact ⟨_, rfl, rfl⟩)
      obtain ⟨t, rfl, rfl⟩ := this
      cases cs with
      | nil => have := hg.nil; subst this; cases hb
      | cons d cs =>
        obtain ⟨k', hk', hoo', hc', hg'⟩ := hg.cons
        cases d <;> first | (cases hk'; done) | skip
        case actionSet k1 k2 k3 ks xs =>
          cases hk'
          obtain ⟨args, rfl, ha⟩ := hc'
          obtain ⟨as, rest, rfl, h1, h2⟩ := ih cs _ _ (by simp at hn; omega) (Or.inr rfl) hg'
          refine ⟨⟨k1, k2, k3, ks, t, args⟩ :: as, rest, by simp, fun a ha' => ?_, h2⟩
          rcases List.mem_cons.1 ha' with rfl | ha'
          · exact ha
          · exact h1 a ha'

/-- What follows YIELD. -/
theorem yield_rest {i : Iface} {s : Uses} {j : Iface} (cs : List Call) (hi : i = .callYield ∨ i = .firstYield) (hs : s.yielded = true) (h : Going u i s j cs) :
    ∃ (w : Option Calls) (rest : List Call), cs = (w.toList.map fun c => .where_ c.build) ++ rest ∧ (∀ c, w = some c → c.Usable) ∧ Left u j rest := by
  cases cs with
  | nil => exact ⟨none, [], rfl, by simp, rfl, _, _, h⟩
  | cons c cs =>
    obtain ⟨k, hk, ho, hc, hg⟩ := h.cons
    by_cases hcl : isClause c = true
    · exact ⟨none, _, rfl, by simp, hcl, _, _, h⟩
    have : ∃ d, c = .where_ d ∧ k = .readingWhere := by
      rcases hi with rfl | rfl <;> cases c <;> first | (cases hk; done) | (exact absurd rfl hcl) | (cases hk; exact ⟨_, rfl, rfl⟩)
    obtain ⟨d, rfl, rfl⟩ := this
    obtain ⟨q, rfl, h1, _⟩ := hc
    obtain ⟨ms, rest, rfl, _, h3, hl⟩ := mores_of cs hg
    rw [h3 (by simp [Uses.next, hs])]
    exact ⟨some q, rest, rfl, fun c hc => by cases hc; exact h1, hl⟩

/-- What follows the name of a procedure. -/
def ProcRest (u : Unicode) (j : Iface) (cs : List Call) : Prop :=
  ∃ (args : List Val) (ky : Key) (ys : List Val) (w : Option Calls) (rest : List Call),
    cs = (if args = [] then [] else [.args args]) ++ .yield ky ys :: ((w.toList.map fun c => .where_ c.build) ++ rest) ∧
    (∀ x ∈ args, x.err = none ∧ One x.visit) ∧ (∀ x ∈ ys, x.err = none ∧ One x.visit) ∧ (∀ c, w = some c → c.Usable) ∧ Left u j rest

theorem proc_yield {i : Iface} {s : Uses} {j : Iface} {ky : Key} {ys : List Val} {cs : List Call} (args : List Val)
    (ha : ∀ x ∈ args, x.err = none ∧ One x.visit) (hi : i = .callYield ∨ i = .firstYield) (hy : UsableCall u (.yield ky ys)) (hs : s.yielded = true) (h : Going u i s j cs) :
    ProcRest u j ((if args = [] then [] else [.args args]) ++ .yield ky ys :: cs) := by
  obtain ⟨w, rest, rfl, h1, h2⟩ := yield_rest cs hi hs h
  exact ⟨args, ky, ys, w, rest, rfl, ha, hy, h1, h2⟩

theorem proc_rest {s : Uses} {j : Iface} (hb : j.builds = true) (cs : List Call) (h : Going u .callNoArgs s j cs) : ProcRest u j cs := by
  cases cs with
  | nil => have := h.nil; subst this; cases hb
  | cons c cs =>
    obtain ⟨k, hk, ho, hc, hg⟩ := h.cons
    cases c <;> first | (cases hk; done) | skip
    case args xs =>
      cases hk
      cases cs with
      | nil => have := hg.nil; subst this; cases hb
      | cons d cs =>
        obtain ⟨k', hk', hoo', hc', hg'⟩ := hg.cons
        cases d <;> first | (cases hk'; done) | skip
        case yield ky ys =>
          cases hk'
          have := proc_yield xs hc.2 (Or.inl rfl) hc' rfl hg'
          rw [if_neg hc.1] at this
          exact this
    case yield ky ys =>
      cases hk
      exact proc_yield [] (by simp) (Or.inl rfl) hc rfl hg

/-- The type of what a clause returns. -/
def headType : Call → Iface
  | .match_ .. | .callStmt .. => .readingNoWhere
  | .with_ .. => .withNoWhere
  | .returning .. => .ret
  | .delete .. => .update
  | .create .. | .merge .. => .updateSet
  | .unwind .. => .unwind
  | .callProc .. => .callNoArgs
  | _ => .updated

theorem head_type {i k : Iface} {c : Call} (hc : isClause c = true) (h : Iface.sig i c = some k) : k = headType c := by
  cases c <;> first | (cases hc; done) | (cases i <;> first | (cases h; done) | (cases h; rfl))

/-- The clauses of a chain. -/
def Parsed (u : Unicode) (cs : List Call) : Prop :=
  ∃ (reqs : List Req) (ret : Option RetReq), cs = reqs.flatMap Req.calls ++ ret.toList.flatMap RetReq.calls ∧
    (∀ r ∈ reqs, r.Ok u) ∧ ∀ r, ret = some r → r.Ok u

theorem Parsed.cons {r : Req} {cs : List Call} (hr : r.Ok u) (h : Parsed u cs) : Parsed u (r.calls ++ cs) := by
  obtain ⟨reqs, ret, rfl, h1, h2⟩ := h
  refine ⟨r :: reqs, ret, by simp, fun q hq => ?_, h2⟩
  rcases List.mem_cons.1 hq with rfl | hq
  · exact hr
  · exact h1 q hq

theorem with_req {ks : WithKeys} {d : Bool} {a : Args} {first : Option Calls} {s : Uses} {j : Iface} {cs : List Call} (ha : UsableCall u (.with_ ks d a))
    (hf : ∀ c, first = some c → c.Usable ∧ SelfCopy c) (hs : s.cond = first.isSome) (h : WithRest u s j cs) :
    ∃ (r : WithReq) (rest : List Call), .with_ ks d a :: (first.toList.map fun c => .where_ c.build) ++ cs = r.calls ++ rest ∧ r.Ok u ∧ Left u j rest := by
  obtain ⟨mods, limit, rest, rfl, h1, h2, h3, h4, h5⟩ := h
  refine ⟨⟨ks, d, a, first, mods, none, limit⟩, rest, by simp [WithReq.calls], ⟨ha.1, ⟨ha.2, ha.1.2.1, h2.2, by simp [WithReq.result], h4, h2.1⟩, ?_, ?_⟩, h5⟩
  · intro w hw
    cases first with
    | none => cases hw
    | some c => cases hw; exact ⟨(hf c rfl).1, (hf c rfl).2, h1⟩
  · intro hn
    rw [show first = none from hn] at hs
    exact h3 hs

theorem with_parsed {ks : WithKeys} {d : Bool} {a : Args} {j : Iface} (hb : j.builds = true) {s : Uses} {cs : List Call} (hs : s = {})
    (ha : UsableCall u (.with_ ks d a)) (hg : Going u .withNoWhere s j cs) :
    ∃ (r : WithReq) (rest : List Call), .with_ ks d a :: cs = r.calls ++ rest ∧ r.Ok u ∧ Left u j rest := by
  have plain : WithRest u s j cs → ∃ (r : WithReq) (rest : List Call), .with_ ks d a :: cs = r.calls ++ rest ∧ r.Ok u ∧ Left u j rest :=
    fun h => with_req (first := none) ha (by simp) (by rw [hs]; rfl) h
  cases cs with
  | nil => exact plain (WithRest.here ⟨rfl, _, _, hg⟩)
  | cons c cs =>
    obtain ⟨k, hk, ho, hc, hg'⟩ := hg.cons
    cases c <;> first | (cases hk; done) | (exact plain (WithRest.here ⟨rfl, _, _, hg⟩)) | skip
    case where_ c =>
      cases hk
      obtain ⟨q, rfl, hq⟩ := hc
      exact with_req (first := some q) ha (fun c hc => by cases hc; exact hq) (by rw [hs]; rfl) (with_rest hb _ cs _ _ (Nat.lt_succ_self _) (Or.inl rfl) hg')
    case orderItems xs =>
      cases hk
      obtain ⟨ds, rfl, hd⟩ := hc
      exact plain (WithRest.order false (o := .items ds) (by simpa [OrderCall.sorts] using hd) (fun d hd => by cases hd) (s' := s.next (.orderItems (ds.map SortReq.build))) rfl
        (with_rest hb _ cs _ _ (Nat.lt_succ_self _) (Or.inl rfl) hg'))
    case orderBy k x =>
      cases hk
      exact plain (sort_rest hb false k x hc cs hg' (fun ds s' _ hl hg'' => with_rest hb _ ds _ _ (Nat.lt_succ_self _) (Or.inr rfl) hg'') rfl)
    case skip =>
      cases hk
      exact (withSkip_stuck hb hg').elim
    case limit =>
      cases hk
      exact plain (WithRest.limit hc (left_withEnd hg'))

theorem parse {j : Iface} (hb : j.builds = true) (n : Nat) : ∀ cs : List Call, cs.length < n → Left u j cs → Parsed u cs := by
  induction n with
  | zero => intro cs h; simp at h
  | succ n ih =>
    intro cs hn hl
    obtain ⟨hat, i, s, h⟩ := hl
    cases cs with
    | nil => exact ⟨[], none, rfl, by simp, by simp⟩
    | cons c cs =>
      obtain ⟨k, hk, ho, hc, hg⟩ := h.cons
      have hkt := head_type hat hk
      subst hkt
      simp only [List.length_cons] at hn
      have go : ∀ (r : Req) (rest : List Call), c :: cs = r.calls ++ rest → r.calls ≠ [] → r.Ok u → Left u j rest → Parsed u (c :: cs) := by
        intro r rest he hne hr hl
        have : rest.length < n := by
          have h1 := congrArg List.length he
          have h2 := List.length_pos_iff.2 hne
          simp only [List.length_cons, List.length_append] at h1
          omega
        rw [he]
        exact (ih rest this hl).cons hr
      cases c <;> first | (cases hat; done) | skip
      case match_ k kw o ps =>
        obtain ⟨w, rest, rfl, hw, hl⟩ := match_rest cs hg
        exact go (.match_ k kw o ps w) rest rfl (by simp [Req.calls]) ⟨hc, hw⟩ hl
      case with_ ks d a =>
        obtain ⟨r, rest, he, hr, hl⟩ := with_parsed hb rfl hc hg
        exact go (.with_ r) rest he (by simp [Req.calls, WithReq.calls]) hr hl
      case returning k ko d a =>
        obtain ⟨os, skip, limit, rfl, h1, h2, h3⟩ := ret_rest cs hg
        exact ⟨[], some ⟨k, ko, d, a, os, skip, limit⟩, by simp [RetReq.calls, skipCalls, limitCalls], by simp, fun r hr => by
          cases hr; exact ⟨hc.1, hc.2, hc.1.2.1, h1.2, h2, h3, h1.1⟩⟩
      case delete ks d a => exact go (.delete ks d a) cs rfl (by simp [Req.calls]) hc (left_plain (by simp [headType]) rfl hg)
      case create ks ps =>
        obtain ⟨p, rfl, hp⟩ := hc
        exact go (.create ks p) cs rfl (by simp [Req.calls]) hp (left_plain (by simp [headType]) rfl hg)
      case merge ks ps =>
        obtain ⟨p, rfl, hp⟩ := hc
        obtain ⟨as, rest, rfl, h1, h2⟩ := merge_rest hb _ cs _ _ (Nat.lt_succ_self _) (Or.inl rfl) hg
        exact go (.merge ks p as) rest rfl (by simp [Req.calls]) ⟨hp, h1⟩ h2
      case set ks xs =>
        obtain ⟨as, rfl, ha⟩ := hc
        exact go (.set ks as) cs rfl (by simp [Req.calls]) ha (left_plain (by simp [headType]) rfl hg)
      case setNamed ks n x => exact go (.setNamed ks n x) cs rfl (by simp [Req.calls]) hc (left_plain (by simp [headType]) rfl hg)
      case setLabels ks g ko kl kls n ls => exact go (.setLabels ks g ko kl kls n ls) cs rfl (by simp [Req.calls]) hc (left_plain (by simp [headType]) rfl hg)
      case removeLabels ks g ko kl kls n ls => exact go (.removeLabels ks g ko kl kls n ls) cs rfl (by simp [Req.calls]) hc (left_plain (by simp [headType]) rfl hg)
      case remove ks xs => exact go (.remove ks xs) cs rfl (by simp [Req.calls]) hc (left_plain (by simp [headType]) rfl hg)
      case unwind x =>
        cases cs with
        | nil => have := hg.nil; subst this; cases hb
        | cons d cs =>
          obtain ⟨k', hk', hoo', hc', hg'⟩ := hg.cons
          cases d <;> first | (cases hk'; done) | skip
          case as k kn name =>
            cases hk'
            exact go (.unwind k kn x name) cs rfl (by simp [Req.calls]) hc (left_plain (Or.inl rfl) rfl hg')
      case callStmt k st => exact go (.sub k st) cs rfl (by simp [Req.calls]) hc (left_sub rfl hg)
      case callProc kc ka kw k kn name =>
        obtain ⟨n, rfl⟩ := hc
        obtain ⟨args, ky, ys, w, rest, rfl, h1, h2, h3, h4⟩ := proc_rest hb cs hg
        exact go (.proc ⟨kc, ka, kw, k, kn, ky, n, args, ys, w⟩) rest (by simp [Req.calls, ProcReq.calls]) (by simp [Req.calls]) ⟨h1, h2, h3⟩ h4

/-- The beginning of a standalone call with YIELD. -/
theorem first_rest {s : Uses} {j : Iface} (cs : List Call) (hy : ∃ ky ys, Call.yield ky ys ∈ cs) (h : Going u .firstNoYield s j cs) :
    ProcRest u j cs := by
  cases cs with
  | nil => obtain ⟨_, _, h⟩ := hy; cases h
  | cons c cs =>
    obtain ⟨k, hk, ho, hc, hg⟩ := h.cons
    cases c <;> first | (cases hk; done) | skip
    case args xs =>
      cases hk
      cases cs with
      | nil => obtain ⟨_, _, h⟩ := hy; simp at h
      | cons d cs =>
        obtain ⟨k', hk', ho', hc', hg'⟩ := hg.cons
        cases d <;> first | (cases hk'; done) | (cases ho'; done) | skip
        case yield ky ys =>
          cases hk'
          have := proc_yield xs hc.2 (Or.inr rfl) hc' rfl hg'
          rw [if_neg hc.1] at this
          exact this
    case yield ky ys =>
      cases hk
      exact proc_yield [] (by simp) (Or.inr rfl) hc rfl hg

theorem walk_last {s0 s : Stage} {d : Req} (pre : List Req) (h : Query.walk s0 (pre ++ [d]) = some s) : s = d.stage := by
  induction pre generalizing s0 with
  | nil => simp only [List.nil_append, Query.walk] at h; split at h <;> cases h; rfl
  | cons r pre ih => simp only [List.cons_append, Query.walk] at h; split at h <;> first | exact ih h | cases h

theorem ends_where {d : Req} (h : d.stage = .callWhere) : ∃ l ky ys c, d.calls = l ++ [.yield ky ys, .where_ c] := by
  cases d <;> simp only [Req.stage] at h <;> first | (cases h; done) | skip
  case merge => split at h <;> cases h
  case proc r =>
    split at h
    · cases h
    · cases hc : r.cond with
      | none => contradiction
      | some c => exact ⟨.callProc r.kc r.ka r.kw r.k r.kn [r.name] :: (if r.args = [] then [] else [.args r.args]), r.ky, r.yields, c.build, by simp [Req.calls, ProcReq.calls, hc]⟩

theorem ends_action {d : Req} (h : d.stage = .merged) : ∃ l k1 k2 k3 ks xs, d.calls = l ++ [.actionSet k1 k2 k3 ks xs] := by
  cases d <;> simp only [Req.stage] at h <;> first | (cases h; done) | skip
  case merge ks p as =>
    rcases List.eq_nil_or_concat as with rfl | ⟨as', a, rfl⟩
    · simp at h
    · exact ⟨.merge ks [p] :: (as'.flatMap fun a => [.on a.type, .actionSet a.k a.kset a.kl a.ks (a.args.flatMap SetArg.args)]) ++ [.on a.type],
        a.k, a.kset, a.kl, a.ks, a.args.flatMap SetArg.args, by simp [Req.calls]⟩
  case proc r => split at h <;> cases h

/-- Clauses whose calls are in the order of `C30_statement_partial`. -/
theorem in_order {cs : List Call} {i : Iface} {q : Query} (ht : q.type = some i) (hb : i.builds = true)
    (he : cs = q.call.toList.flatMap ProcReq.calls ++ (q.reqs.flatMap Req.calls ++ q.ret.toList.flatMap RetReq.calls))
    (h2 : ∀ pre a b post, cs = pre ++ a :: b :: post → outOfOrder a b = false)
    (h3 : ∀ pre a b c post, cs = pre ++ a :: b :: c :: post → outOfOrderCall a b c = false) :
    ∃ s, Query.walk q.start q.reqs = some s ∧ Query.mayEnd s q.ret := by
  rcases C30_only_gaps q i ht with ⟨s, hw, hm⟩ | ⟨pre, r, post, s, hr, hw, hg⟩
  · rcases hm hb with hm | ⟨rfl, r, hr, hd⟩
    · exact ⟨s, hw, hm⟩
    · exfalso
      rcases List.eq_nil_or_concat q.reqs with hq | ⟨pre, d, hq⟩
      · rw [hq] at hw
        cases hc : q.call with
        | none => simp [Query.start, hc, Query.walk] at hw
        | some c => simp only [Query.start, hc, Query.walk] at hw; split at hw <;> cases hw
      · rw [List.concat_eq_append] at hq
        rw [hq] at hw he
        have hs := walk_last pre hw
        have : ∃ c, d.calls = [c] ∧ outOfOrder c (.returning r.k r.ko r.distinct r.args) = true := by
          rw [hd]
          cases d <;> simp only [Req.stage] at hs <;> first | (cases hs; done) | (exact ⟨_, rfl, rfl⟩) | (split at hs <;> cases hs)
        obtain ⟨c, hc, ho⟩ := this
        have := h2 (q.call.toList.flatMap ProcReq.calls ++ pre.flatMap Req.calls) c (.returning r.k r.ko r.distinct r.args) _
          (by rw [he, hr]; simp [hc, RetReq.calls]; rfl)
        rw [this] at ho
        cases ho
  · exfalso
    rw [hr] at he
    rcases List.eq_nil_or_concat pre with rfl | ⟨pre, d, rfl⟩
    · cases hc : q.call with
      | none => simp [Query.start, hc, Query.walk] at hw; subst hw; cases r <;> cases hg
      | some c =>
        rw [hc] at he
        simp only [Query.start, hc, Query.walk] at hw
        cases hcc : c.cond with
        | none => rw [if_pos hcc] at hw; cases hw; cases r <;> cases hg
        | some k =>
          rw [if_neg (by rw [hcc]; simp)] at hw
          cases hw
          have : ∃ h t, r.calls = h :: t ∧ outOfOrderCall (.yield c.ky c.yields) (.where_ k.build) h = true := by
            cases r <;> first | (cases hg; done) | exact ⟨_, _, rfl, rfl⟩
          obtain ⟨h, t, hrc, ho⟩ := this
          have := h3 (if c.args = [] then [] else [.args c.args]) (.yield c.ky c.yields) (.where_ k.build) h
            (t ++ (post.flatMap Req.calls ++ q.ret.toList.flatMap RetReq.calls)) (by rw [he]; simp [ProcReq.calls, hcc, hrc])
          rw [this] at ho
          cases ho
    · rw [List.concat_eq_append] at hw he
      have hs := walk_last pre hw
      subst hs
      have hcases : d.stage = .callWhere ∨ d.stage = .merged := by
        cases hst : d.stage <;> rw [hst] at hg <;> cases r <;> simp [Gap] at hg ⊢
      rcases hcases with hst | hst
      · obtain ⟨l, ky, ys, c, hl⟩ := ends_where hst
        have : ∃ h t, r.calls = h :: t ∧ outOfOrderCall (.yield ky ys) (.where_ c) h = true := by
          rw [hst] at hg
          cases r <;> first | (cases hg; done) | exact ⟨_, _, rfl, rfl⟩
        obtain ⟨h, t, hrc, ho⟩ := this
        have := h3 (q.call.toList.flatMap ProcReq.calls ++ (pre.flatMap Req.calls ++ l)) (.yield ky ys) (.where_ c) h
          (t ++ (post.flatMap Req.calls ++ q.ret.toList.flatMap RetReq.calls)) (by rw [he]; simp [hl, hrc])
        rw [this] at ho
        cases ho
      · obtain ⟨l, k1, k2, k3, ks, xs, hl⟩ := ends_action hst
        have : ∃ h t, r.calls = h :: t ∧ outOfOrder (.actionSet k1 k2 k3 ks xs) h = true := by
          rw [hst] at hg
          cases r <;> first | (cases hg; done) | exact ⟨_, _, rfl, rfl⟩
        obtain ⟨h, t, hrc, ho⟩ := this
        have := h2 (q.call.toList.flatMap ProcReq.calls ++ (pre.flatMap Req.calls ++ l)) (.actionSet k1 k2 k3 ks xs) h
          (t ++ (post.flatMap Req.calls ++ q.ret.toList.flatMap RetReq.calls)) (by rw [he]; simp [hl, hrc])
        rw [this] at ho
        cases ho

end Covers

open Covers

/-- C64 for programs: if Go's type checker admits calls and `Build` after them, the arguments are usable, `Where` is not called for a
subquery, `And` and `Or` extend a condition of a MATCH or WITH, and `OnCreate` and `OnMatch` belong to a MERGE, then the calls are
those of clauses in their order, and the statement is built; its text is that of the clauses, settled as C64 says. -/
theorem C64_programs (cs : List Call) (i : Iface) (ht : Iface.typed .entry cs = some i) (hb : i.builds = true) (hu : Uses.all {} cs = true)
    (hc : ∀ c ∈ cs, UsableCall u c) :
    ∃ q : Query, q.call = none ∧ cs = q.reqs.flatMap Req.calls ++ q.ret.toList.flatMap RetReq.calls ∧
      ∃ s, (execAll u start cs).bind B.build = .ok (.ok s) ∧ s.err = none ∧
        ∀ e, NoAlias e (q.settled.keys u) s.visit → shownAs e s.visit = layout e (q.settled.parts u) := by
  have hat : atClause cs = true := by
    cases cs with
    | nil => rfl
    | cons c cs =>
      rw [Iface.typed, Option.bind_eq_some_iff] at ht
      obtain ⟨k, hk, _⟩ := ht
      cases c <;> first | rfl | (cases hk; done)
  obtain ⟨reqs, ret, he, h1, h2⟩ := parse (u := u) hb _ cs (Nat.lt_succ_self _) ⟨hat, _, _, ht, hu, hc⟩
  refine ⟨⟨none, reqs, ret⟩, rfl, he, ?_⟩
  obtain ⟨s, hs, h3, _, h4⟩ := C64_statement (u := u) ⟨none, reqs, ret⟩ i (by rw [← ht, he]; rfl) hb (by simp) h1 h2
  refine ⟨s, ?_, h3, h4⟩
  rw [← hs, he]
  rfl

/-- C30 for programs: if moreover no call is out of order, the text is that of the clauses in the order of the calls. -/
theorem C30_programs_partial (cs : List Call) (i : Iface) (ht : Iface.typed .entry cs = some i) (hb : i.builds = true) (hu : Uses.all {} cs = true)
    (hc : ∀ c ∈ cs, UsableCall u c) (h2 : ∀ pre a b post, cs = pre ++ a :: b :: post → outOfOrder a b = false)
    (h3 : ∀ pre a b c post, cs = pre ++ a :: b :: c :: post → outOfOrderCall a b c = false) :
    ∃ q : Query, q.call = none ∧ cs = q.reqs.flatMap Req.calls ++ q.ret.toList.flatMap RetReq.calls ∧
      ∃ s, (execAll u start cs).bind B.build = .ok (.ok s) ∧ s.err = none ∧ ∀ e, NoAlias e (q.keys u) s.visit → shownAs e s.visit = layout e (q.parts u) := by
  have hat : atClause cs = true := by
    cases cs with
    | nil => rfl
    | cons c cs =>
      rw [Iface.typed, Option.bind_eq_some_iff] at ht
      obtain ⟨k, hk, _⟩ := ht
      cases c <;> first | rfl | (cases hk; done)
  obtain ⟨reqs, ret, he, h4, h5⟩ := parse (u := u) hb _ cs (Nat.lt_succ_self _) ⟨hat, _, _, ht, hu, hc⟩
  refine ⟨⟨none, reqs, ret⟩, rfl, he, ?_⟩
  obtain ⟨s, hs, h6, _, h7⟩ := C30_statement_partial (u := u) ⟨none, reqs, ret⟩ ⟨by simp, h4, h5,
    in_order (q := ⟨none, reqs, ret⟩) (cs := cs) (by rw [← ht, he]; rfl) hb he h2 h3⟩
  refine ⟨s, ?_, h6, h7⟩
  rw [← hs, he]
  rfl

/-- C64 for programs that begin with a standalone procedure call with YIELD. -/
theorem C64_call_programs (kc ka kw k kn : Key) (name : Str) (cs : List Call) (i : Iface) (ht : Iface.typed .firstNoYield cs = some i) (hb : i.builds = true)
    (hu : Uses.all {} cs = true) (hc : ∀ c ∈ cs, UsableCall u c) (hy : ∃ ky ys, Call.yield ky ys ∈ cs) :
    ∃ (q : Query) (c : ProcReq), q.call = some c ∧ c.name = name ∧ cs = c.calls ++ (q.reqs.flatMap Req.calls ++ q.ret.toList.flatMap RetReq.calls) ∧
      ∃ s, ((startCall kc ka kw k kn [name]).bind fun b => (execAll u b cs).bind B.build) = .ok (.ok s) ∧ s.err = none ∧
        ∀ e, NoAlias e (q.settled.keys u) s.visit → shownAs e s.visit = layout e (q.settled.parts u) := by
  obtain ⟨args, ky, ys, w, rest, he, h1, h2, h3, h4⟩ := first_rest (u := u) (s := {}) cs hy ⟨ht, hu, hc⟩
  obtain ⟨reqs, ret, he', h5, h6⟩ := parse hb _ rest (Nat.lt_succ_self _) h4
  let c : ProcReq := ⟨kc, ka, kw, k, kn, ky, name, args, ys, w⟩
  have hcs : cs = c.calls ++ (reqs.flatMap Req.calls ++ ret.toList.flatMap RetReq.calls) := by
    rw [he, he']; simp [c, ProcReq.calls]
  refine ⟨⟨some c, reqs, ret⟩, c, rfl, rfl, hcs, ?_⟩
  obtain ⟨s, hs, h7, _, h8⟩ := C64_statement (u := u) ⟨some c, reqs, ret⟩ i (by rw [← ht, hcs]; simp [Query.type]) hb
    (fun d hd => by cases hd; exact ⟨h1, h2, h3⟩) h5 h6
  refine ⟨s, ?_, h7, h8⟩
  rw [← hs, hcs]
  simp only [Query.run, Query.first, c]
  cases startCall kc ka kw k kn [name] with
  | panic => rfl
  | ok b =>
    simp only [Outcome.bind, execAll_append]
    cases execAll u b (ProcReq.calls ⟨kc, ka, kw, k, kn, ky, name, args, ys, w⟩) <;> rfl

/-- C30 for programs that begin with a standalone procedure call with YIELD. -/
theorem C30_call_programs_partial (kc ka kw k kn : Key) (name : Str) (cs : List Call) (i : Iface) (ht : Iface.typed .firstNoYield cs = some i)
    (hb : i.builds = true) (hu : Uses.all {} cs = true) (hc : ∀ c ∈ cs, UsableCall u c) (hy : ∃ ky ys, Call.yield ky ys ∈ cs)
    (o2 : ∀ pre a b post, cs = pre ++ a :: b :: post → outOfOrder a b = false)
    (o3 : ∀ pre a b c post, cs = pre ++ a :: b :: c :: post → outOfOrderCall a b c = false) :
    ∃ (q : Query) (c : ProcReq), q.call = some c ∧ c.name = name ∧ cs = c.calls ++ (q.reqs.flatMap Req.calls ++ q.ret.toList.flatMap RetReq.calls) ∧
      ∃ s, ((startCall kc ka kw k kn [name]).bind fun b => (execAll u b cs).bind B.build) = .ok (.ok s) ∧ s.err = none ∧
        ∀ e, NoAlias e (q.keys u) s.visit → shownAs e s.visit = layout e (q.parts u) := by
  obtain ⟨args, ky, ys, w, rest, he, h1, h2, h3, h4⟩ := first_rest (u := u) (s := {}) cs hy ⟨ht, hu, hc⟩
  obtain ⟨reqs, ret, he', h5, h6⟩ := parse hb _ rest (Nat.lt_succ_self _) h4
  let c : ProcReq := ⟨kc, ka, kw, k, kn, ky, name, args, ys, w⟩
  have hcs : cs = c.calls ++ (reqs.flatMap Req.calls ++ ret.toList.flatMap RetReq.calls) := by
    rw [he, he']; simp [c, ProcReq.calls]
  refine ⟨⟨some c, reqs, ret⟩, c, rfl, rfl, hcs, ?_⟩
  obtain ⟨s, hs, h7, _, h8⟩ := C30_statement_partial (u := u) ⟨some c, reqs, ret⟩ ⟨fun d hd => by cases hd; exact ⟨h1, h2, h3⟩, h5, h6,
    in_order (q := ⟨some c, reqs, ret⟩) (cs := cs) (by rw [← ht, hcs]; simp [Query.type]) hb (by rw [hcs]; simp) o2 o3⟩
  refine ⟨s, ?_, h7, h8⟩
  rw [← hs, hcs]
  simp only [Query.run, Query.first, c]
  cases startCall kc ka kw k kn [name] with
  | panic => rfl
  | ok b =>
    simp only [Outcome.bind, execAll_append]
    cases execAll u b (ProcReq.calls ⟨kc, ka, kw, k, kn, ky, name, args, ys, w⟩) <;> rfl

open SampleBuilder

/-- `Match(p).Where(a).Or(b).With(x).OrderBy(y).Descending().Limit(7).Unwind(y).As("z").Merge(q).OnCreate().Set(x, y).Returning(x)` -/
def SampleBuilder.program : List Call :=
  [.match_ 1 2 false [p], .where_ ca.build, .or (ck 0) cb.build, .with_ (wk 0) false (.exprs [x]), .orderBy 3 y, .desc, .limit 4 5 7, .unwind y, .as 6 7 c!"z",
    .merge (uk 0) [q], .on .onCreate, .actionSet 10 11 12 (fun i => 13 + i) [x, y], .returning 8 9 false (.exprs [x])]

/-- Not vacuous. -/
example : Iface.typed .entry program = some .ret ∧ Uses.all {} program = true ∧ ∀ c ∈ program, UsableCall .ascii c := by
  have hw : ∀ k s, (w k s).err = none ∧ Spec.One (w k s).visit := fun k s => ⟨rfl, ⟨_, _, rfl⟩⟩
  have hx : ArgsOk .ascii (.exprs [x]) ∧ items .ascii (.exprs [x]) ≠ [] :=
    ⟨⟨rfl, by simp only [items, List.mem_cons, List.not_mem_nil, or_false, forall_eq]; exact hw .., by simp⟩, by simp [items]⟩
  refine ⟨by rfl, by rfl, ?_⟩
  simp only [program, List.mem_cons, List.not_mem_nil, or_false, forall_eq_or_imp, forall_eq]
  refine ⟨?_, ⟨ca, rfl, ⟨rfl, rfl, rfl⟩, rfl⟩, ⟨cb, rfl, ⟨rfl, rfl, rfl⟩⟩, hx, rfl, trivial, ⟨by decide, by decide⟩, ⟨rfl, fun _ _ h => by cases h⟩, trivial,
    ⟨q, rfl, hw ..⟩, trivial, ⟨[.pair x y], rfl, ?_⟩, hx⟩
  · simp only [UsableCall, List.mem_cons, List.not_mem_nil, or_false, forall_eq]; exact hw ..
  · simp only [List.mem_cons, List.not_mem_nil, or_false, forall_eq]
    exact ⟨w_good .., w_good .., rfl, rfl⟩

example : SampleBuilder.shown (.ok start) program =
    c!"MATCH (p) WHERE (a OR b) WITH x ORDER BY y DESC LIMIT 7 UNWIND y AS z MERGE (q) ON CREATE SET x = y RETURN x" := by decide +kernel

/-- Not vacuous: no call of the program is out of order. -/
example : (∀ pre a b post, program = pre ++ a :: b :: post → outOfOrder a b = false) ∧
    ∀ pre a b c post, program = pre ++ a :: b :: c :: post → outOfOrderCall a b c = false := by
  have h2 : ∀ cs : List Call, (cs.zip (cs.drop 1)).all (fun p => !outOfOrder p.1 p.2) = true → ∀ pre a b post, cs = pre ++ a :: b :: post → outOfOrder a b = false := by
    intro cs hc pre a b post he
    subst he
    rw [List.all_eq_true] at hc
    have : (a, b) ∈ (pre ++ a :: b :: post).zip ((pre ++ a :: b :: post).drop 1) := by
      rw [List.mem_iff_getElem]
      exact ⟨pre.length, by simp, by simp⟩
    simpa using hc _ this
  have h3 : ∀ cs : List Call, (cs.zip ((cs.drop 1).zip (cs.drop 2))).all (fun p => !outOfOrderCall p.1 p.2.1 p.2.2) = true →
      ∀ pre a b c post, cs = pre ++ a :: b :: c :: post → outOfOrderCall a b c = false := by
    intro cs hc pre a b c post he
    subst he
    rw [List.all_eq_true] at hc
    have : (a, b, c) ∈ (pre ++ a :: b :: c :: post).zip (((pre ++ a :: b :: c :: post).drop 1).zip ((pre ++ a :: b :: c :: post).drop 2)) := by
      rw [List.mem_iff_getElem]
      exact ⟨pre.length, by simp; omega, by simp⟩
    simpa using hc _ this
  exact ⟨h2 _ rfl, h3 _ rfl⟩

/-- `ACall("f").WithArgs(x).Yield(y).Where(a).Match(p).Returning(x)` -/
example : let cs : List Call := [.args [x], .yield 1 [y], .where_ ca.build, .match_ 2 3 false [p], .returning 4 5 false (.exprs [x])]
    Iface.typed .firstNoYield cs = some .ret ∧ Uses.all {} cs = true ∧ (∃ ky ys, Call.yield ky ys ∈ cs) ∧ ∀ c ∈ cs, UsableCall .ascii c := by
  have hw : ∀ k s, (w k s).err = none ∧ Spec.One (w k s).visit := fun k s => ⟨rfl, ⟨_, _, rfl⟩⟩
  refine ⟨rfl, rfl, ⟨1, [y], by simp⟩, ?_⟩
  simp only [List.mem_cons, List.not_mem_nil, or_false, forall_eq_or_imp, forall_eq]
  refine ⟨⟨by simp, ?_⟩, ?_, ⟨ca, rfl, ⟨rfl, rfl, rfl⟩, rfl⟩, ?_, ⟨⟨rfl, ?_, by simp⟩, by simp [items]⟩⟩ <;>
    simp only [UsableCall, items, List.mem_cons, List.not_mem_nil, or_false, forall_eq] <;> exact hw ..

/-- Its text. -/
example : SampleBuilder.shown ((startCall 6 7 8 9 10 [c!"f"]).bind fun b => execAll .ascii b
      [.args [x], .yield 1 [y], .where_ ca.build, .match_ 2 3 false [p], .returning 4 5 false (.exprs [x])]) [] =
    c!"CALL f(x) YIELD y WHERE a MATCH (p) RETURN x" := by decide +kernel

end Verif
