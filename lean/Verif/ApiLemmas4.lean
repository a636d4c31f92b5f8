import Verif.ApiLemmas3

/-
Lemmas for C40, continued: the builder, and everything that can be made.
-/

namespace Verif
open Spec

section
variable {u : Unicode}

def UpdBuilder.Neat : UpdBuilder → Prop
  | .merge _ _ ps as => AllNeat ps ∧ AllNeat as
  | .create _ _ ps => AllNeat ps
  | .done c => c.Neat

theorem neat_updBuild {x : UpdBuilder} (h : x.Neat) : x.build.Neat := by
  cases x with
  | merge k kp ps as => exact neat_mergeClause h.1 h.2
  | create k kp ps => exact neat_createClause h
  | done c => exact h

theorem neat_updBuilder {t : UpdType} {ks : UpdKeys} {xs : List Val} {x : UpdBuilder} (hx : AllNeat xs) (h : updBuilder t ks xs = .ok x) :
    x.Neat := by
  have one : ∀ p ps, AllNeat (p :: ps) → AllNeat [p] := fun p ps h y hy => h y (by simp at hy; simp [hy])
  unfold updBuilder at h
  split at h
  · split at h
    · cases h
    · next p ps => cases h; exact one p ps hx
  · split at h
    · cases h
    · next p ps => cases h; exact ⟨one p ps hx, allNeat_nil⟩
  · next d => cases h; exact neat_updateClause (by cases d <;> rfl) hx
  · split at h
    · cases h
    · next ys hy => cases h; exact neat_updateClause rfl (allNeat_prepareSet hx hy)
  · cases h; exact neat_updateClause rfl hx

structure MatchB.Neat (m : MatchB) : Prop where
  patterns : AllNeat m.patterns
  cond : OptCond m.cond

theorem neat_matchBuild {m : MatchB} (h : m.Neat) : m.build.Neat := neat_match h.patterns h.cond

theorem optCond_none : OptCond none := by intro c h; cases h

theorem optCond_some {c : Cond} (h : c.Neat) : OptCond (some c) := by intro d hd; cases hd; exact h

theorem neat_matchZero : MatchB.Neat {} := ⟨allNeat_nil, optCond_none⟩

structure Base.Neat (b : Base) : Prop where
  elems : ClausesNeat b.elems
  parts : ∀ p ∈ b.parts, p.Neat
  omatch : b.omatch.Neat
  oupdate : ∀ x, b.oupdate = some x → x.Neat
  ocall : ∀ c, b.ocall = some c → c.Neat

def OptBase (b : Option Base) : Prop := ∀ x, b = some x → x.Neat

def B.Neat : B → Prop
  | .base b => b.Neat
  | .with_ w => OptBase w.base ∧ OptCond w.cond ∧ AllNeat w.items ∧ w.order.Neat
  | .ret r => OptBase r.base ∧ AllNeat r.items ∧ r.order.Neat
  | .upd x => OptBase x.base ∧ AllNeat x.items ∧ x.order.Neat ∧ ∀ c, x.builder = some c → c.Neat
  | .unwind x => OptBase x.base ∧ OptNeat x.x
  | .inCall i => OptBase i.base ∧ ∀ c, i.call = some c → c.Neat
  | .standalone c _ => c.Neat
  | .action a => OptBase a.base

theorem optBase_none : OptBase none := by intro c h; cases h

theorem optBase_some {b : Base} (h : b.Neat) : OptBase (some b) := by intro d hd; cases hd; exact h

theorem neat_baseZero {e : Option Err} : Base.Neat { err := e } :=
  ⟨.nil, fun _ h => (by cases h), neat_matchZero, fun _ h => (by cases h), fun _ h => (by cases h)⟩

theorem neat_dead {e : Err} : (Base.dead e).Neat := neat_baseZero

theorem Base.Neat.withErr {b : Base} {e : Option Err} (h : b.Neat) : Base.Neat { b with err := e } := ⟨h.1, h.2, h.3, h.4, h.5⟩

theorem Base.Neat.add {b : Base} {c : Clause} (h : b.Neat) (hc : c.Neat) : Base.Neat { b with elems := b.elems ++ [c] } :=
  ⟨h.1.append (.one hc), h.2, h.3, h.4, h.5⟩

theorem Base.Neat.closeMatch {b : Base} (h : b.Neat) : b.closeMatch.Neat := by
  unfold Base.closeMatch
  split
  · exact ⟨h.1.append (.one (neat_matchBuild h.3)), h.2, neat_matchZero, h.4, h.5⟩
  · exact h

theorem Base.Neat.closeCall {b : Base} (h : b.Neat) : b.closeCall.Neat := by
  unfold Base.closeCall
  split
  · exact h
  · next c hc =>
    split
    · exact h.withErr
    · next v hv => exact ⟨h.1.append (.one (neat_callBuild (h.5 c hc) hv)), h.2, h.3, h.4, fun _ h => (by cases h)⟩

theorem Base.Neat.closeUpdate {b : Base} (h : b.Neat) : b.closeUpdate.Neat := by
  unfold Base.closeUpdate
  split
  · exact h
  · next x hx => exact ⟨h.1.append (.one (neat_updBuild (h.4 x hx))), h.2, h.3, fun _ h => (by cases h), h.5⟩

theorem Base.Neat.setCond {b : Base} {c : Cond} (h : b.Neat) (hc : c.Neat) :
    Base.Neat { b with omatch := { b.omatch with cond := some c } } := ⟨h.1, h.2, ⟨h.3.1, optCond_some hc⟩, h.4, h.5⟩

theorem Base.Neat.where_ {b : Base} {c : Cond} (h : b.Neat) (hc : c.Neat) : (b.where_ c).Neat := by
  unfold Base.where_
  split
  · exact neat_dead
  · exact h.setCond hc

theorem neat_combineOfGet {ks : Cond.Keys} {c : Option Cond} {o : Op} {x d : Cond} (hc : OptCond c) (hx : x.Neat)
    (h : combineOfGet ks c o x = .ok d) : d.Neat := by
  unfold combineOfGet at h
  split at h
  · cases h
  · next c =>
    split at h
    · cases h; exact neat_combine (hc c rfl) hx
    · split at h
      · next c' hr => cases h; exact neat_combine (neat_condRecv (hc c rfl) hr) hx
      · cases h

theorem Base.Neat.and {b b' : Base} {ks : Cond.Keys} {c : Cond} (h : b.Neat) (hc : c.Neat) (hb : b.and ks c = .ok b') : b'.Neat := by
  unfold Base.and at hb
  split at hb
  · cases hb; exact neat_dead
  · obtain ⟨x, hx, rfl⟩ := Outcome.map_ok hb
    exact h.setCond (neat_combineOfGet h.3.2 hc hx)

theorem Base.Neat.or {b b' : Base} {ks : Cond.Keys} {c : Cond} (h : b.Neat) (hc : c.Neat) (hb : b.or ks c = .ok b') : b'.Neat := by
  unfold Base.or at hb
  split at hb
  · cases hb; exact neat_dead
  · obtain ⟨x, hx, rfl⟩ := Outcome.map_ok hb
    exact h.setCond (neat_combineOfGet h.3.2 hc hx)

theorem Base.Neat.list {b : Base} {cs : List Clause} (h : b.Neat) (hl : b.list = .ok cs) : ClausesNeat cs := by
  have h1 : ClausesNeat (b.elems ++ (if b.omatch.notNil then [b.omatch.build] else []) ++ (match b.oupdate with | some x => [x.build] | none => [])) := by
    refine (h.1.append ?_).append ?_
    · split
      · exact .one (neat_matchBuild h.3)
      · exact .nil
    · split
      · next x hx => exact .one (neat_updBuild (h.4 x hx))
      · exact .nil
  unfold Base.list at hl
  simp only at hl
  split at hl
  · cases hl; exact h1
  · next c hc =>
    split at hl
    · cases hl
    · next v hv => cases hl; exact h1.append (.one (neat_callBuild (h.5 c hc) hv))

theorem Base.Neat.addWith {b : Base} {kp : Key} {w : Option Val} (h : b.Neat) (hw : OptNeat w) : (b.addWith kp w).Neat := by
  have parts : ∀ (p : PartV), p.Neat → ∀ q ∈ b.parts ++ [p], q.Neat := by
    intro p hp q hq
    rcases List.mem_append.1 hq with hq | hq
    · exact h.2 q hq
    · rw [List.mem_singleton] at hq; rw [hq]; exact hp
  unfold Base.addWith
  split
  · exact neat_dead
  · split
    · exact h
    · next v =>
      split
      · exact ⟨h.1, parts _ (neat_part .nil (hw v rfl)), h.3, h.4, h.5⟩
      · next cs hc =>
        exact ⟨.nil, parts _ (neat_part (h.list hc) (hw v rfl)), neat_matchZero, fun _ h => (by cases h), fun _ h => (by cases h)⟩

def ArgsNeat (a : Args) : Prop := AllNeat (a.vals u)

theorem Base.Neat.with_ {b : Base} {ks : WithKeys} {d : Bool} {a : Args} (h : b.Neat) (ha : AllNeat (a.vals u)) :
    B.Neat (.with_ (b.with_ u ks d a)) := by
  unfold Base.with_
  split
  · exact ⟨optBase_none, optCond_none, allNeat_nil, neat_orderZero⟩
  · exact ⟨optBase_some h, optCond_none, ha, neat_orderZero⟩

theorem Base.Neat.returning {b : Base} {k ko : Key} {d : Bool} {a : Args} (h : b.Neat) (ha : AllNeat (a.vals u)) :
    B.Neat (.ret (b.returning u k ko d a)) := by
  unfold Base.returning
  split
  · exact ⟨optBase_none, allNeat_nil, neat_orderZero⟩
  · exact ⟨optBase_some h, ha, neat_orderZero⟩

theorem Base.Neat.setUpdate {b : Base} {x : Option UpdBuilder} (h : b.Neat) (hx : ∀ y, x = some y → y.Neat) :
    Base.Neat { b with oupdate := x } := ⟨h.1, h.2, h.3, hx, h.5⟩

theorem Base.Neat.update {b : Base} {t : UpdType} {ks : UpdKeys} {xs : List Val} (h : b.Neat) (hx : AllNeat xs) : (b.update t ks xs).Neat := by
  unfold Base.update
  simp only
  have h := h.closeMatch.closeCall.closeUpdate
  split
  · exact h.setUpdate fun _ h => by cases h
  · next x hu => exact h.setUpdate fun y hy => by cases hy; exact neat_updBuilder hx hu

theorem Base.Neat.openUpdate {b : Base} {t : UpdType} {ks : UpdKeys} {a : Args} (h : b.Neat) (ha : AllNeat (a.vals u)) :
    (b.openUpdate u t ks a).Neat := by
  unfold Base.openUpdate
  split
  · exact neat_dead
  · exact h.update ha

theorem Base.Neat.addClause {b : Base} {c : Clause} (h : b.Neat) (hc : c.Neat) : (b.addClause c).Neat := h.closeMatch.add hc

theorem Base.Neat.updB {b : Base} {t : UpdType} {ks : UpdKeys} {xs : List Val} (h : b.Neat) (hx : AllNeat xs) :
    B.Neat (.upd (b.updB t ks xs)) := by
  unfold Base.updB
  split
  · exact ⟨optBase_none, allNeat_nil, neat_orderZero, fun _ h => (by cases h)⟩
  · split
    · exact ⟨optBase_none, allNeat_nil, neat_orderZero, fun _ h => (by cases h)⟩
    · next x hu => exact ⟨optBase_some h, allNeat_nil, neat_orderZero, fun y hy => by cases hy; exact neat_updBuilder hx hu⟩

theorem Base.Neat.set {b : Base} {ks : UpdKeys} {xs : List Val} (h : b.Neat) (hx : AllNeat xs) : (b.set ks xs).Neat := by
  unfold Base.set
  split
  · exact neat_dead (e := _)
  · exact h.closeUpdate.updB hx

theorem allNeat_one {x : Val} (h : x.Neat) : AllNeat [x] := by intro z hz; rw [List.mem_singleton] at hz; rw [hz]; exact h

theorem allNeat_two {x y : Val} (h : x.Neat) (hy : y.Neat) : AllNeat [x, y] := (allNeat_one h).append (allNeat_one hy)

theorem Base.Neat.setNamed {b : Base} {ks : UpdKeys} {n : NamedV} {x : Val} (h : b.Neat) (hn : n.sym.Neat) (hx : x.Neat) :
    (b.setNamed ks n x).Neat := by
  unfold Base.setNamed
  split
  · exact neat_dead (e := _)
  · exact h.set (allNeat_two hn hx)

theorem Base.Neat.update2 {b : Base} {t : UpdType} {ks : UpdKeys} {e : Option Err} {xs : List Val} (h : b.Neat) (hx : AllNeat xs) :
    (b.update2 t ks e xs).Neat := by
  unfold Base.update2
  split
  · exact neat_dead (e := _)
  · exact h.updB hx

theorem Base.Neat.unwind {b : Base} {x : Val} (h : b.Neat) (hx : x.Neat) : B.Neat (.unwind (b.unwind x)) := by
  unfold Base.unwind
  split
  · exact ⟨optBase_none, optNeat_none⟩
  · exact ⟨optBase_some h.closeMatch, optNeat_some.2 hx⟩

theorem Base.Neat.callStmt {b : Base} {k : Key} {s : Stmt} (h : b.Neat) (hs : s.Neat) : (b.callStmt k s).Neat := by
  unfold Base.callStmt
  split
  · exact neat_dead
  · simp only
    have h := h.closeCall.closeMatch.closeUpdate
    split
    · exact h.withErr
    · exact h.add (neat_subqueryCall hs)

theorem neat_callNew {kc ka kw : Key} {st : Bool} {p : ProcName} (hp : p.Neat) :
    CallB.Neat { kc := kc, ka := ka, kw := kw, standalone := st, name := p } := ⟨hp, fun _ h => (by cases h), optNeat_none, optCond_none⟩

theorem Base.Neat.callProc {b : Base} {kc ka kw k kn : Key} {name : List Str} {i : InCallB} (h : b.Neat) (hn : ∀ s ∈ name, Balanced s)
    (hi : b.callProc kc ka kw k kn name = .ok i) : B.Neat (.inCall i) := by
  unfold Base.callProc at hi
  split at hi
  · cases hi; exact ⟨optBase_none, fun _ h => (by cases h)⟩
  · obtain ⟨p, hp, rfl⟩ := Outcome.map_ok hi
    have hp := neat_procName hn hp
    have hb := h.closeMatch.closeCall
    exact ⟨optBase_some ⟨hb.1, hb.2, hb.3, hb.4, fun c hc => by cases hc; exact neat_callNew hp⟩, fun c hc => by cases hc; exact neat_callNew hp⟩

theorem Base.Neat.match_ {b : Base} {k kw : Key} {o : Bool} {ps : List Val} (h : b.Neat) (hp : AllNeat ps) : (b.match_ k kw o ps).Neat := by
  unfold Base.match_
  split
  · exact neat_dead
  · have hb := h.closeMatch.closeCall
    exact ⟨hb.1, hb.2, ⟨hp, optCond_none⟩, hb.4, hb.5⟩

theorem Base.Neat.on {b : Base} {t : MergeType} (h : b.Neat) : B.Neat (.action (b.on t)) := by
  unfold Base.on
  split
  · exact optBase_none
  · split
    · exact optBase_some h
    · exact optBase_none

theorem Base.Neat.buildImpl {b : Base} {r : Option Val} {s : Stmt} (h : b.Neat) (hr : OptNeat r) (hs : b.buildImpl r = .ok s) : s.Neat := by
  have h1 : (singlePart (match b.list with | .ok cs => cs | .error _ => []) r).Neat := by
    refine neat_singlePart ?_ hr
    split
    · next cs hc => exact h.list hc
    · exact .nil
  unfold Base.buildImpl at hs
  simp only at hs
  split at hs
  · cases hs; exact h1
  · exact neat_multiPart h.2 h1 hs

theorem Base.Neat.asCondition {b : Base} {k : Key} {v : Val} (h : b.Neat) (hv : b.asCondition k = .ok v) : v.Neat := by
  unfold Base.asCondition at hv
  split at hv
  · cases hv
  · cases hv; exact neat_existential (neat_matchBuild h.3)

/-! ### The other builders -/

theorem neat_withNext {w : WithB} {b : Base} (hw : B.Neat (.with_ w)) (h : w.next = .ok b) : b.Neat := by
  unfold WithB.next at h
  split at h
  · cases h
  · next b hb => cases h; exact (hw.1 b hb).addWith (optNeat_with hw.2.2.1 hw.2.2.2 hw.2.1)

theorem neat_updNext {x : UpdB} {b : Base} (hx : B.Neat (.upd x)) (h : x.next = .ok b) : b.Neat := by
  unfold UpdB.next at h
  split at h
  · next b c hb hc => cases h; exact (hx.1 b hb).addClause (neat_updBuild (hx.2.2.2 c hc))
  · cases h

theorem neat_inCallNext {i : InCallB} {b : Base} (hi : B.Neat (.inCall i)) (h : i.next = .ok b) : b.Neat := by
  unfold InCallB.next at h
  split at h
  · next b c hb hc =>
    cases h
    have := hi.1 b hb
    exact ⟨this.1, this.2, this.3, this.4, fun d hd => by cases hd; exact hi.2 _ hc⟩
  · cases h

theorem neat_startWithCall {c : CallB} {n : Bool} (hc : c.Neat) : (startWithCall c n).Neat := by
  refine ⟨.nil, fun _ h => (by cases h), neat_matchZero, fun _ h => (by cases h), fun d hd => ?_⟩
  simp only [startWithCall] at hd
  split at hd
  · cases hd; exact hc
  · cases hd

theorem neat_actionSet {a : ActionB} {k kset kl : Key} {ks : Nat → Key} {xs : List Val} {b : Base} (ha : B.Neat (.action a)) (hx : AllNeat xs)
    (h : a.set k kset kl ks xs = .ok b) : b.Neat := by
  unfold ActionB.set at h
  split at h
  · cases h; exact neat_dead
  · split at h
    · next b hb =>
      have hb := ha b hb
      split at h
      · next km kp ps as hu =>
        have hu := hb.4 _ hu
        split at h
        · cases h; exact hb.withErr
        · next v hv =>
          cases h
          exact hb.setUpdate fun y hy => by cases hy; exact ⟨hu.1, hu.2.append (allNeat_one (neat_mergeAction hx hv))⟩
      · cases h
    · cases h

/-! ### Things -/

def NeatThing : Thing → Prop
  | .val v => v.Neat
  | .cond c => c.Neat
  | .node n => n.Neat
  | .rel r => r.Neat
  | .chain c => c.Neat
  | .case c => c.Neat
  | .projection p => p.Neat
  | .sortItem s => s.Neat
  | .builder b => b.Neat
  | .stmt s => s.Neat

theorem allNeat_vals {xs : List Val} (h : ∀ t ∈ xs.map Thing.val, NeatThing t) : AllNeat xs := fun x hx => h (.val x) (List.mem_map_of_mem hx)

theorem allNeat_args {a : Args} (h : ∀ t ∈ argThings a, NeatThing t) : AllNeat (a.vals u) := by
  cases a with
  | exprs xs => exact allNeat_vals h
  | strings xs =>
    intro x hx
    obtain ⟨p, -, rfl⟩ := List.mem_map.1 hx
    exact neat_symbolicName
  | nameds xs =>
    intro x hx
    obtain ⟨n, hn, rfl⟩ := List.mem_map.1 hx
    exact h (.val n.sym) (List.mem_flatMap.2 ⟨n, hn, by simp⟩)

theorem optNeat_things {x : Option Val} (h : ∀ t ∈ optThings x, NeatThing t) : OptNeat x := by
  intro v hv; subst hv; exact h (.val v) (by simp [optThings])

theorem neat_obj {o : Obj} (h : ∀ t ∈ objThings o, NeatThing t) : o.Neat := by
  cases o with
  | literals xs => exact allNeat_vals h
  | expr v => exact h (.val v) (by simp [objThings])
  | _ => trivial

theorem neat_content {c : Content} (h : ∀ t ∈ contentThings c, NeatThing t) : c.Neat := by
  cases c with
  | expr v => exact h (.val v) (by simp [contentThings])
  | named v =>
    cases v with
    | none => trivial
    | some v => exact h (.val v) (by simp [contentThings])
  | _ => trivial

theorem execBase_neat {b : Base} {c : Call} {b' : B} (hb : b.Neat) (ht : ∀ t ∈ callThings c, NeatThing t) (hn : ∀ s ∈ callNames c, Balanced s)
    (h : execBase u b c = .ok b') : b'.Neat := by
  cases c with
  | match_ k kw o ps => cases h; exact hb.match_ (allNeat_vals ht)
  | where_ c => cases h; exact hb.where_ (ht (.cond c) (by simp [callThings]))
  | and ks c => obtain ⟨x, hx, rfl⟩ := Outcome.map_ok h; exact hb.and (ht (.cond c) (by simp [callThings])) hx
  | or ks c => obtain ⟨x, hx, rfl⟩ := Outcome.map_ok h; exact hb.or (ht (.cond c) (by simp [callThings])) hx
  | with_ ks d a => cases h; exact hb.with_ (allNeat_args ht)
  | returning k ko d a => cases h; exact hb.returning (allNeat_args ht)
  | delete ks d a => cases h; exact hb.openUpdate (allNeat_args ht)
  | create ks ps => cases h; exact hb.openUpdate (allNeat_vals ht)
  | merge ks ps => cases h; exact hb.openUpdate (allNeat_vals ht)
  | set ks xs => cases h; exact hb.set (allNeat_vals ht)
  | setNamed ks n x => cases h; exact hb.setNamed (ht (.val n.sym) (by simp [callThings])) (ht (.val x) (by simp [callThings]))
  | setLabels ks g ko kl kls n ls => cases h; exact hb.update2 (allNeat_one (neat_labelOperation (hn g (by simp [callNames]))))
  | removeLabels ks g ko kl kls n ls => cases h; exact hb.update2 (allNeat_one (neat_labelOperation (hn g (by simp [callNames]))))
  | remove ks xs => cases h; exact hb.update2 (allNeat_vals ht)
  | on t => cases h; exact hb.on
  | unwind x => cases h; exact hb.unwind (ht (.val x) (by simp [callThings]))
  | callStmt k s => cases h; exact hb.callStmt (ht (.stmt s) (by simp [callThings]))
  | callProc kc ka kw k kn name => obtain ⟨x, hx, rfl⟩ := Outcome.map_ok h; exact hb.callProc hn hx
  | _ => cases h

theorem things_vals {xs : List Val} (h : AllNeat xs) : ∀ t ∈ xs.map Thing.val, NeatThing t := by
  intro t ht
  obtain ⟨x, hx, rfl⟩ := List.mem_map.1 ht
  exact h x hx

theorem no_names : ∀ s ∈ ([] : List Str), Balanced s := fun _ h => by cases h

theorem execWith_neat {w : WithB} {c : Call} {b' : B} (hw : B.Neat (.with_ w)) (ht : ∀ t ∈ callThings c, NeatThing t)
    (hn : ∀ s ∈ callNames c, Balanced s) (h : execWith u w c = .ok b') : b'.Neat := by
  cases c with
  | where_ c => cases h; exact ⟨hw.1, optCond_some (ht (.cond c) (by simp [callThings])), hw.2.2⟩
  | and ks c =>
    obtain ⟨x, hx, rfl⟩ := Outcome.map_ok h
    exact ⟨hw.1, optCond_some (neat_combineOfGet hw.2.1 (ht (.cond c) (by simp [callThings])) hx), hw.2.2⟩
  | or ks c =>
    obtain ⟨x, hx, rfl⟩ := Outcome.map_ok h
    exact ⟨hw.1, optCond_some (neat_combineOfGet hw.2.1 (ht (.cond c) (by simp [callThings])) hx), hw.2.2⟩
  | orderItems xs => cases h; exact ⟨hw.1, hw.2.1, hw.2.2.1, hw.2.2.2.addItems fun s hs => ht (.sortItem s) (List.mem_map_of_mem hs)⟩
  | orderBy k x => cases h; exact ⟨hw.1, hw.2.1, hw.2.2.1, hw.2.2.2.byExpression (ht (.val x) (by simp [callThings]))⟩
  | andBy k x => cases h; exact ⟨hw.1, hw.2.1, hw.2.2.1, hw.2.2.2.byExpression (ht (.val x) (by simp [callThings]))⟩
  | asc k => cases h; exact ⟨hw.1, hw.2.1, hw.2.2.1, hw.2.2.2.ascending⟩
  | desc => cases h; exact ⟨hw.1, hw.2.1, hw.2.2.1, hw.2.2.2.descending⟩
  | skip k kl n => cases h; exact ⟨hw.1, hw.2.1, hw.2.2.1, hw.2.2.2.setSkip⟩
  | limit k kl n => cases h; exact ⟨hw.1, hw.2.1, hw.2.2.1, hw.2.2.2.setLimit⟩
  | with_ ks d a =>
    obtain ⟨b, hb, h⟩ := Outcome.bind_ok h
    exact execBase_neat (neat_withNext hw hb) (by exact things_vals (allNeat_args ht)) (by exact no_names) h
  | returning k ko d a =>
    obtain ⟨b, hb, h⟩ := Outcome.bind_ok h
    exact execBase_neat (neat_withNext hw hb) (by exact things_vals (allNeat_args ht)) (by exact no_names) h
  | delete ks d a =>
    obtain ⟨b, hb, h⟩ := Outcome.bind_ok h
    exact execBase_neat (neat_withNext hw hb) (by exact things_vals (allNeat_args ht)) (by exact no_names) h
  | setNamed ks n x =>
    obtain ⟨b, hb, h⟩ := Outcome.bind_ok h
    exact execBase_neat (neat_withNext hw hb)
      (by exact things_vals (allNeat_two (ht (.val n.req) (by simp [callThings])) (ht (.val x) (by simp [callThings])))) (by exact no_names) h
  | on t => cases h
  | _ =>
    obtain ⟨b, hb, h⟩ := Outcome.bind_ok h
    exact execBase_neat (neat_withNext hw hb) ht hn h

theorem execRet_neat {r : RetB} {c : Call} {b' : B} (hr : B.Neat (.ret r)) (ht : ∀ t ∈ callThings c, NeatThing t)
    (h : execRet r c = .ok b') : b'.Neat := by
  cases c with
  | orderItems xs => cases h; exact ⟨hr.1, hr.2.1, hr.2.2.addItems fun s hs => ht (.sortItem s) (List.mem_map_of_mem hs)⟩
  | orderBy k x => cases h; exact ⟨hr.1, hr.2.1, hr.2.2.byExpression (ht (.val x) (by simp [callThings]))⟩
  | andBy k x => cases h; exact ⟨hr.1, hr.2.1, hr.2.2.byExpression (ht (.val x) (by simp [callThings]))⟩
  | asc k => cases h; exact ⟨hr.1, hr.2.1, hr.2.2.ascending⟩
  | desc => cases h; exact ⟨hr.1, hr.2.1, hr.2.2.descending⟩
  | skip k kl n => cases h; exact ⟨hr.1, hr.2.1, hr.2.2.setSkip⟩
  | limit k kl n => cases h; exact ⟨hr.1, hr.2.1, hr.2.2.setLimit⟩
  | _ => cases h

theorem execUpd_neat {x : UpdB} {c : Call} {b' : B} (hx : B.Neat (.upd x)) (ht : ∀ t ∈ callThings c, NeatThing t)
    (hn : ∀ s ∈ callNames c, Balanced s) (h : execUpd u x c = .ok b') : b'.Neat := by
  cases c with
  | orderItems xs => cases h; exact ⟨hx.1, hx.2.1, hx.2.2.1.addItems fun s hs => ht (.sortItem s) (List.mem_map_of_mem hs), hx.2.2.2⟩
  | orderBy k x => cases h; exact ⟨hx.1, hx.2.1, hx.2.2.1.byExpression (ht (.val x) (by simp [callThings])), hx.2.2.2⟩
  | andBy k x => cases h; exact ⟨hx.1, hx.2.1, hx.2.2.1.byExpression (ht (.val x) (by simp [callThings])), hx.2.2.2⟩
  | asc k => cases h; exact ⟨hx.1, hx.2.1, hx.2.2.1.ascending, hx.2.2.2⟩
  | desc => cases h; exact ⟨hx.1, hx.2.1, hx.2.2.1.descending, hx.2.2.2⟩
  | skip k kl n => cases h; exact ⟨hx.1, hx.2.1, hx.2.2.1.setSkip, hx.2.2.2⟩
  | limit k kl n => cases h; exact ⟨hx.1, hx.2.1, hx.2.2.1.setLimit, hx.2.2.2⟩
  | returning k ko d a =>
    cases h
    split
    · exact hx
    · exact ⟨hx.1, hx.2.1.append (allNeat_args ht), hx.2.2⟩
  | with_ ks d a =>
    obtain ⟨b, hb, rfl⟩ := Outcome.map_ok h
    exact (neat_updNext hx hb).with_ (a := .exprs (a.vals u)) (allNeat_args (a := a) ht)
  | delete ks d a =>
    obtain ⟨b, hb, rfl⟩ := Outcome.map_ok h
    exact (neat_updNext hx hb).update (allNeat_args ht)
  | merge ks ps =>
    obtain ⟨b, hb, rfl⟩ := Outcome.map_ok h
    exact (neat_updNext hx hb).openUpdate (allNeat_vals ht)
  | create ks ps =>
    obtain ⟨b, hb, rfl⟩ := Outcome.map_ok h
    exact (neat_updNext hx hb).openUpdate (allNeat_vals ht)
  | set ks xs =>
    obtain ⟨b, hb, rfl⟩ := Outcome.map_ok h
    exact (neat_updNext hx hb).updB (allNeat_vals ht)
  | setNamed ks n v =>
    obtain ⟨b, hb, rfl⟩ := Outcome.map_ok h
    exact (neat_updNext hx hb).updB (allNeat_two (ht (.val n.sym) (by simp [callThings])) (ht (.val v) (by simp [callThings])))
  | setLabels ks g ko kl kls n ls =>
    obtain ⟨b, hb, rfl⟩ := Outcome.map_ok h
    exact (neat_updNext hx hb).updB (allNeat_one (neat_labelOperation (hn g (by simp [callNames]))))
  | removeLabels ks g ko kl kls n ls =>
    rw [execUpd.eq_def] at h
    simp only at h
    split at h
    · cases h; exact hx
    · obtain ⟨b, hb, rfl⟩ := Outcome.map_ok h
      exact (neat_updNext hx hb).updB (allNeat_one (neat_labelOperation (hn g (by simp [callNames]))))
  | remove ks xs =>
    obtain ⟨b, hb, rfl⟩ := Outcome.map_ok h
    exact (neat_updNext hx hb).updB (allNeat_vals ht)
  | _ => cases h

theorem execUnwind_neat {x : UnwindB} {c : Call} {b' : B} (hx : B.Neat (.unwind x)) (hn : ∀ s ∈ callNames c, Balanced s)
    (h : execUnwind u x c = .ok b') : b'.Neat := by
  cases c with
  | as k kn name =>
    rw [execUnwind.eq_def] at h
    simp only at h
    split at h
    · next b v hb hv => cases h; exact (hx.1 b hb).add (neat_unwind (hx.2 v hv) (hn name (by simp [callNames])))
    · cases h
  | _ => cases h

theorem execInCall_neat {i : InCallB} {c : Call} {b' : B} (hi : B.Neat (.inCall i)) (ht : ∀ t ∈ callThings c, NeatThing t)
    (h : execInCall u i c = .ok b') : b'.Neat := by
  have change : ∀ f : CallB → CallB, (∀ c, c.Neat → (f c).Neat) → ∀ c, i.call.map f = some c → c.Neat := by
    intro f hf c hc
    obtain ⟨d, hd, rfl⟩ := Option.map_eq_some_iff.1 hc
    exact hf d (hi.2 d hd)
  cases c with
  | args xs =>
    cases h
    exact ⟨hi.1, change _ fun c hc => ⟨hc.1, fun ys hy => by cases hy; exact allNeat_vals ht, hc.3, hc.4⟩⟩
  | yield ky xs =>
    cases h
    exact ⟨hi.1, change _ fun c hc => ⟨hc.1, hc.2, optNeat_yield (allNeat_vals ht), hc.4⟩⟩
  | where_ c =>
    obtain ⟨b, hb, rfl⟩ := Outcome.map_ok h
    exact neat_inCallNext (i := { i with call := i.call.map fun x => { x with cond := some c } })
      ⟨hi.1, change _ fun d hd => ⟨hd.1, hd.2, hd.3, optCond_some (ht (.cond c) (by simp [callThings]))⟩⟩ hb
  | returning k ko d a =>
    obtain ⟨b, hb, h⟩ := Outcome.bind_ok h
    exact execBase_neat (neat_inCallNext hi hb) (by exact things_vals (allNeat_args ht)) (by exact no_names) h
  | with_ ks d a =>
    obtain ⟨b, hb, h⟩ := Outcome.bind_ok h
    exact execBase_neat (neat_inCallNext hi hb) (by exact things_vals (allNeat_args ht)) (by exact no_names) h
  | callStmt k s =>
    obtain ⟨b, hb, h⟩ := Outcome.bind_ok h
    exact execBase_neat (neat_inCallNext hi hb) ht (by exact no_names) h
  | _ => cases h

theorem execStandalone_neat {s : CallB} {n : Bool} {c : Call} {b' : B} (hs : s.Neat) (ht : ∀ t ∈ callThings c, NeatThing t)
    (h : execStandalone u s n c = .ok b') : b'.Neat := by
  cases c with
  | args xs => cases h; exact ⟨hs.1, fun ys hy => (by cases hy; exact allNeat_vals ht), hs.3, hs.4⟩
  | yield ky xs => cases h; exact ⟨hs.1, hs.2, optNeat_yield (allNeat_vals ht), hs.4⟩
  | where_ c => cases h; exact neat_startWithCall ⟨hs.1, hs.2, hs.3, optCond_some (ht (.cond c) (by simp [callThings]))⟩
  | returning k ko d a => exact execBase_neat (c := .returning k ko d (.exprs (a.vals u))) (neat_startWithCall hs) (things_vals (allNeat_args ht)) no_names h
  | with_ ks d a => exact execBase_neat (c := .with_ ks d (.exprs (a.vals u))) (neat_startWithCall hs) (things_vals (allNeat_args ht)) no_names h
  | callStmt k s => exact execBase_neat (u := u) (neat_startWithCall hs) ht (by exact no_names) h
  | _ => cases h

theorem execAction_neat {a : ActionB} {c : Call} {b' : B} (ha : B.Neat (.action a)) (ht : ∀ t ∈ callThings c, NeatThing t)
    (h : execAction a c = .ok b') : b'.Neat := by
  cases c with
  | actionSet k kset kl ks xs => obtain ⟨b, hb, rfl⟩ := Outcome.map_ok h; exact neat_actionSet ha (allNeat_vals ht) hb
  | _ => cases h

theorem exec_neat {b : B} {c : Call} {b' : B} (hb : b.Neat) (ht : ∀ t ∈ callThings c, NeatThing t) (hn : ∀ s ∈ callNames c, Balanced s)
    (h : exec u b c = .ok b') : b'.Neat := by
  cases b with
  | base b => exact execBase_neat hb ht hn h
  | with_ w => exact execWith_neat hb ht hn h
  | ret r => exact execRet_neat hb ht h
  | upd x => exact execUpd_neat hb ht hn h
  | unwind x => exact execUnwind_neat hb hn h
  | inCall i => exact execInCall_neat hb ht h
  | standalone s n => exact execStandalone_neat hb ht h
  | action a => exact execAction_neat hb ht h

theorem build_neat {b : B} {s : Stmt} (hb : b.Neat) (h : b.build = .ok (.ok s)) : s.Neat := by
  cases b with
  | base b =>
    simp only [B.build, Base.build] at h
    split at h
    · cases h
    · obtain ⟨x, hx, hs⟩ := Outcome.map_ok h
      cases hs; exact Base.Neat.buildImpl hb optNeat_none hx
  | ret r =>
    simp only [B.build, RetB.build] at h
    split at h
    · cases h
    · next b _ hr =>
      obtain ⟨x, hx, hs⟩ := Outcome.map_ok h
      cases hs; exact (hb.1 b hr).buildImpl (optNeat_return hb.2.1 hb.2.2) hx
    · cases h
  | upd x =>
    simp only [B.build, UpdB.build] at h
    split at h
    · cases h
    · obtain ⟨b, hn, h⟩ := Outcome.bind_ok h
      obtain ⟨x, hx, hs⟩ := Outcome.map_ok h
      cases hs; exact (neat_updNext hb hn).buildImpl (optNeat_return hb.2.1 hb.2.2.1) hx
  | standalone c n =>
    simp only [B.build] at h
    cases hc : c.build with
    | error e => rw [hc] at h; cases h
    | ok v =>
      rw [hc] at h
      cases h
      unfold CallB.stmt
      rw [Stmt.Neat]
      exact Val.Neat.visit (neat_callBuild hb hc)
  | _ => cases h

end
end Verif
