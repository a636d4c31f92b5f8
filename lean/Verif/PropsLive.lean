import Verif.BuilderLive
import Verif.PropsBuilderForks

/-
C80: what programs yield that use builders more than once, among them builders of updates, of UNWIND and of actions of a MERGE.
-/

namespace Verif
open Spec SampleBuilder SampleUse

variable (u : Unicode) (grow : Nat → Nat → Nat)

namespace Spec

/-- Calls one after the other, and what is done with the last builder. -/
def chain : List Call → Use → Use
  | [], p => p
  | c :: cs, p => .call c (chain cs p)

/-- One thing after the other, with the same builder. -/
def inTurn : List Use → Use
  | [] => .nothing
  | p :: ps => .both p (inTurn ps)

/-- The statements of a program, each looked at when it was built. -/
def yields (p : Use) : List (Built Stmt) := atOnce (p.run u grow {} (.base {}))

/-- `Build()`, or a call that ends a SET or REMOVE: `With`, `Merge`, `Create`, and what is done with its result. -/
inductive Ends : Use → Prop
  | build : Ends .build
  | with_ (ks : WithKeys) (d : Bool) (a : Args) (p : Use) : Ends (.call (.with_ ks d a) p)
  | merge (ks : UpdKeys) (ps : List Val) (p : Use) : Ends (.call (.merge ks ps) p)
  | create (ks : UpdKeys) (ps : List Val) (p : Use) : Ends (.call (.create ks ps) p)

/-- `Set(…)` or `Remove(…)`. -/
inductive Sets : Call → Prop
  | set (ks : UpdKeys) (xs : List Val) : Sets (.set ks xs)
  | remove (ks : UpdKeys) (xs : List Val) : Sets (.remove ks xs)

/-- What is done with the results of calls on one builder, as if, for every one, all calls before it had been made on the way, each after
`o`. -/
def eachAfter (pre : List Call) (o : Call) : List (Call × Use) → List (Built Stmt)
  | [] => []
  | (c, p) :: us => yields u grow (chain (pre ++ [o, c]) p) ++ eachAfter (pre ++ [o, c]) o us

end Spec

/-! ### Lemmas -/

namespace LiveFacts

theorem yields_live (p : Use) : yields u grow p = (p.live u (.base {})).2 :=
  (HB.run_live u grow p (HB.inv_new _) rfl).2.2

theorem live_chain (cs : List Call) (p : Use) : ∀ x : B,
    ((chain cs p).live u x).2 = match execAll u x cs with | .panic => [.panic] | .ok y => (p.live u y).2 := by
  induction cs with
  | nil => intro x; rfl
  | cons c cs ih =>
    intro x
    simp only [chain, Use.live, execAll]
    cases exec u x c with
    | panic => rfl
    | ok y => exact ih y

theorem execAll_append (cs ds : List Call) : ∀ x : B, execAll u x (cs ++ ds) = (execAll u x cs).bind fun y => execAll u y ds := by
  induction cs with
  | nil => intro x; rfl
  | cons c cs ih =>
    intro x
    simp only [List.cons_append, execAll]
    cases exec u x c with
    | panic => rfl
    | ok y => exact ih y

/-- Builders that are not of updates, UNWIND and actions are as they were. -/
theorem live_again (p : Use) : ∀ x : B, x.again = true → (p.live u x).1 = x := by
  have hback : ∀ (x y : B) (c : Call), x.again = true → x.back c y = x := by
    intro x y c h
    cases x <;> first | rfl | (cases h)
  induction p with
  | nothing => intro x _; rfl
  | build => intro x h; cases x <;> first | rfl | (cases h)
  | call c p ih =>
    intro x h
    simp only [Use.live]
    cases exec u x c with
    | panic => rfl
    | ok y => exact hback _ _ _ h
  | both p q ihp ihq =>
    intro x h
    simp only [Use.live]
    rw [ihp x h, ihq x h]

/-- A builder to which a clause has been added `i` times. -/
def times (b : Base) (d : UpdBuilder) : Nat → Base
  | 0 => b
  | i + 1 => (times b d i).addClause d.build

def added (b : Base) (d : UpdBuilder) (i : Nat) : UpdB := { base := some (times b d i), builder := some d }

theorem added_next (b : Base) (d : UpdBuilder) (i : Nat) : (added b d i).next = .ok (times b d (i + 1)) := rfl

theorem times_err {b : Base} (d : UpdBuilder) (h : b.err = none) (i : Nat) : (times b d i).err = none := by
  induction i with
  | zero => exact h
  | succ i ih =>
    simp only [times, Base.addClause, Base.closeMatch]
    split <;> exact ih

/-- A use that ends a SET or REMOVE adds the clause once more. -/
theorem ends_live {p : Use} (hp : Ends p) (b : Base) (d : UpdBuilder) (i : Nat)
    (h : (added b d i).build ≠ .panic) : (p.live u (.upd (added b d i))).1 = .upd (added b d (i + 1)) := by
  have hadd : (added b d i).added = some (times b d (i + 1)) := rfl
  cases hp with
  | build =>
    simp only [Use.live]
    cases hb : (added b d i).build with
    | panic => exact absurd hb h
    | ok v => rw [HB.built_upd rfl hb, hadd]; rfl
  | with_ ks ds a p =>
    simp only [Use.live, exec, execUpd, added_next, Outcome.map]
    rw [live_again _ _ _ rfl]
    rfl
  | merge ks ps p =>
    simp only [Use.live, exec, execUpd, added_next, Outcome.map]
    rw [live_again _ _ _ rfl]
    rfl
  | create ks ps p =>
    simp only [Use.live, exec, execUpd, added_next, Outcome.map]
    rw [live_again _ _ _ rfl]
    rfl

theorem updB_ok {b : Base} {t : UpdType} {ks : UpdKeys} {xs : List Val} {x : UpdB} (h : b.updB t ks xs = x) (he : x.err = none) :
    b.err = none ∧ errsOf xs = none ∧ ∃ d, updBuilder t ks xs = .ok d ∧ x = { base := some b, builder := some d } := by
  unfold Base.updB at h
  cases hf : firstErr [b.err, errsOf xs] with
  | some e => rw [hf] at h; subst h; cases he
  | none =>
    rw [hf] at h
    simp only at h
    have h1 : b.err = none := by cases hb : b.err with | none => rfl | some e => simp [firstErr, hb] at hf
    have h2 : errsOf xs = none := by
      cases hx : errsOf xs with
      | none => rfl
      | some e => simp [firstErr, h1, hx] at hf
    cases hu : updBuilder t ks xs with
    | error e => rw [hu] at h; subst h; cases he
    | ok d => rw [hu] at h; exact ⟨h1, h2, d, rfl, h.symm⟩

theorem chain_build {b : B} {cs : List Call} {s : Stmt} (h : ((chain cs .build).live u b).2 = [.ok (.ok s)]) :
    ∃ y, execAll u b cs = .ok y ∧ y.build = .ok (.ok s) := by
  rw [live_chain] at h
  cases he : execAll u b cs with
  | panic => rw [he] at h; simp at h
  | ok y =>
    rw [he] at h
    simp only [Use.live, List.cons.injEq, and_true] at h
    exact ⟨y, rfl, h⟩

/-- What a SET or REMOVE yields. -/
theorem sets_exec {c : Call} (hc : Sets c) {x y : B} {s : Stmt} (h : exec u x c = .ok y) (hb : y.build = .ok (.ok s)) :
    ∃ b d, y = .upd (added b d 0) ∧ ∀ i, exec u (.upd (added b d i)) c = .ok (.upd (added b d (i + 1))) := by
  have upd : ∀ (b : Base) t ks xs, y = .upd (b.updB t ks xs) → (∀ x : UpdB, execUpd u x c = x.next.map fun b => .upd (b.updB t ks xs)) →
      ∃ b d, y = .upd (added b d 0) ∧ ∀ i, exec u (.upd (added b d i)) c = .ok (.upd (added b d (i + 1))) := by
    intro b t ks xs hy hex
    have he : (b.updB t ks xs).err = none := by
      subst hy
      simp only [B.build, UpdB.build] at hb
      cases hh : (b.updB t ks xs).err with
      | none => rfl
      | some e => rw [hh] at hb; cases hb
    obtain ⟨h1, h2, d, h3, h4⟩ := updB_ok rfl he
    refine ⟨b, d, by rw [hy, h4]; rfl, fun i => ?_⟩
    simp only [exec, hex, added_next, Outcome.map, Base.updB, times_err d h1, firstErr, h2, h3]
    rfl
  have base : ∀ b : Base, execBase u b c = .ok y →
      ∃ b d, y = .upd (added b d 0) ∧ ∀ i, exec u (.upd (added b d i)) c = .ok (.upd (added b d (i + 1))) := by
    intro b hy
    cases hc with
    | set ks xs =>
      simp only [execBase, Base.set, Outcome.ok.injEq] at hy
      split at hy
      · subst hy; cases hb
      · exact upd _ .set ks xs hy.symm fun _ => rfl
    | remove ks xs =>
      simp only [execBase, Base.update2, Outcome.ok.injEq] at hy
      split at hy
      · subst hy; cases hb
      · exact upd _ .remove ks xs hy.symm fun _ => rfl
  cases x with
  | base b => exact base b h
  | with_ w =>
    cases hn : w.next with
    | panic => cases hc <;> simp only [exec, execWith, hn, Outcome.bind, reduceCtorEq] at h
    | ok b => refine base b ?_; rw [← h]; cases hc <;> simp only [exec, execWith, hn, Outcome.bind]
  | upd x =>
    cases hn : x.next with
    | panic => cases hc <;> simp only [exec, execUpd, hn, Outcome.map, reduceCtorEq] at h
    | ok b =>
      cases hc with
      | set ks xs =>
        simp only [exec, execUpd, hn, Outcome.map, Outcome.ok.injEq] at h
        exact upd _ .set ks xs h.symm fun _ => rfl
      | remove ks xs =>
        simp only [exec, execUpd, hn, Outcome.map, Outcome.ok.injEq] at h
        exact upd _ .remove ks xs h.symm fun _ => rfl
  | ret r => cases hc <;> cases h
  | unwind r => cases hc <;> cases h
  | inCall r => cases hc <;> cases h
  | standalone r n => cases hc <;> cases h
  | action r => cases hc <;> cases h

/-- The uses of the builder of a SET or REMOVE, one after the other. -/
theorem sets_live {c : Call} (b : Base) (d : UpdBuilder) (x : B) (cs : List Call) 
    (hx : ∀ i, execAll u x (cs ++ List.replicate (i + 1) c) = .ok (.upd (added b d i))) (ps : List Use) (hps : ∀ p ∈ ps, Ends p) (k : Nat)
    (hb : ∀ i < ps.length, (added b d (k + i)).build ≠ .panic) :
    ((inTurn ps).live u (.upd (added b d k))).2 =
      (ps.zipIdx k).flatMap fun p => ((chain (cs ++ List.replicate (p.2 + 1) c) p.1).live u x).2 := by
  induction ps generalizing k with
  | nil => rfl
  | cons p ps ih =>
    simp only [inTurn, Use.live, List.zipIdx_cons, List.flatMap_cons]
    rw [ends_live u (hps p (by simp)) b d k (hb 0 (by simp)), live_chain, hx,
      ih (fun q hq => hps q (List.mem_cons_of_mem _ hq)) (k + 1) (fun i hi => by
        have := hb (i + 1) (by simpa using hi)
        rwa [show k + 1 + i = k + (i + 1) by omega])]

theorem unwind_live (v : Val) (us : List (Call × Use)) : ∀ (cs : List Call) (b : Base), b.err = none → v.err = none →
    b.omatch.notNil = false → execAll u (.base {}) (cs ++ [.unwind v]) = .ok (.unwind { base := some b, x := some v }) →
    execAll u (.base {}) (cs ++ us.flatMap fun w => [.unwind v, w.1]) ≠ .panic →
    ((inTurn (us.map fun w => .call w.1 w.2)).live u (.unwind { base := some b, x := some v })).2 = eachAfter u grow cs (.unwind v) us := by
  induction us with
  | nil => intro cs b _ _ _ _ _; rfl
  | cons w us ih =>
    intro cs b hb hv hm hz h
    obtain ⟨c, p⟩ := w
    have hsplit : cs ++ ((c, p) :: us).flatMap (fun w => [.unwind v, w.1]) = (cs ++ [.unwind v]) ++ (c :: us.flatMap fun w => [.unwind v, w.1]) := by
      simp
    have hc : ∃ b', exec u (.unwind { base := some b, x := some v }) c = .ok (.base b') ∧ b'.err = none ∧ b'.omatch.notNil = false := by
      rw [hsplit, execAll_append, hz] at h
      simp only [Outcome.bind, execAll] at h
      cases c
      case as k kn name => exact ⟨_, rfl, hb, hm⟩
      all_goals exact absurd rfl h
    obtain ⟨b', hc, hb', hm'⟩ := hc
    have hstep : execAll u (.base {}) (cs ++ [.unwind v, c]) = .ok (.base b') := by
      rw [show cs ++ [.unwind v, c] = (cs ++ [.unwind v]) ++ [c] by simp, execAll_append, hz]
      simp only [Outcome.bind, execAll, hc]
    have hz' : execAll u (.base {}) ((cs ++ [.unwind v, c]) ++ [.unwind v]) = .ok (.unwind { base := some b', x := some v }) := by
      rw [execAll_append, hstep]
      simp only [Outcome.bind, execAll, exec, execBase, Base.unwind, hb', hv, firstErr, Base.closeMatch, hm', Bool.false_eq_true, if_false]
    simp only [List.map_cons, inTurn, Use.live, hc, eachAfter]
    rw [live_again _ _ _ rfl, yields_live, live_chain, hstep]
    simp only [B.back]
    rw [ih (cs ++ [.unwind v, c]) b' hb' hv hm' hz' (by rw [hsplit] at h; simpa using h)]

/-- Once there is an error, actions do not take it away. -/
theorem actions_err (t : MergeType) (us : List (Call × Use)) : ∀ (b : Base) (e : Err), b.err = some e → ∀ y s,
    execAll u (.base b) (us.flatMap fun w => [.on t, w.1]) = .ok y → y.build ≠ .ok (.ok s) := by
  induction us with
  | nil =>
    intro b e he y s h
    simp only [List.flatMap_nil, execAll, Outcome.ok.injEq] at h
    subst h
    simp [B.build, Base.build, he]
  | cons w us ih =>
    intro b e he y s h
    obtain ⟨c, p⟩ := w
    simp only [List.flatMap_cons, List.cons_append, List.nil_append, execAll, exec, execBase, Base.on, he, Outcome.bind] at h
    cases c <;> simp only [execAction, ActionB.set, firstErr, Outcome.map, reduceCtorEq] at h
    case actionSet k kset kl ks xs => exact ih _ e rfl y s h

theorem action_live (t : MergeType) (us : List (Call × Use)) (s : Stmt) : ∀ (cs : List Call) (b : Base) (km kp : Key) (ps as : List Val),
    b.err = none → b.oupdate = some (.merge km kp ps as) → execAll u (.base {}) (cs ++ [.on t]) = .ok (.action { base := some b, type := t }) →
    ((chain (cs ++ us.flatMap fun w => [.on t, w.1]) .build).live u (.base {})).2 = [.ok (.ok s)] →
    ((inTurn (us.map fun w => .call w.1 w.2)).live u (.action { base := some b, type := t })).2 = eachAfter u grow cs (.on t) us := by
  induction us with
  | nil => intro cs b _ _ _ _ _ _ _ _; rfl
  | cons w us ih =>
    intro cs b km kp ps as hb ho hz h
    obtain ⟨c, p⟩ := w
    have hsplit : cs ++ ((c, p) :: us).flatMap (fun w => [.on t, w.1]) = (cs ++ [.on t]) ++ (c :: us.flatMap fun w => [.on t, w.1]) := by
      simp
    have hc : ∃ b' as', exec u (.action { base := some b, type := t }) c = .ok (.base b') ∧ b'.err = none ∧
        b'.oupdate = some (.merge km kp ps as') ∧
        (B.action { base := some b, type := t }).back c (.base b') = .action { base := some b', type := t } := by
      rw [hsplit] at h
      obtain ⟨y, h1, h2⟩ := chain_build u h
      rw [execAll_append, hz] at h1
      simp only [Outcome.bind, execAll] at h1
      cases c <;> simp only [exec, execAction, ActionB.set, reduceCtorEq] at h1
      case actionSet k kset kl ks xs =>
        simp only [exec, execAction, ActionB.set]
        cases hf : firstErr [none, errsOf xs] with
        | some e =>
          rw [hf] at h1
          exact absurd h2 (actions_err u t us _ e rfl y s h1)
        | none =>
          rw [hf] at h1
          simp only [ho] at h1 ⊢
          cases hm : mergeAction k kset kl ks t xs with
          | error e =>
            rw [hm] at h1
            exact absurd h2 (actions_err u t us _ e rfl y s h1)
          | ok v => exact ⟨_, _, rfl, hb, rfl, by simp [B.back, hf]⟩
    obtain ⟨b', as', hc, hb', ho', hback⟩ := hc
    have hstep : execAll u (.base {}) (cs ++ [.on t, c]) = .ok (.base b') := by
      rw [show cs ++ [.on t, c] = (cs ++ [.on t]) ++ [c] by simp, execAll_append, hz]
      simp only [Outcome.bind, execAll, hc]
    have hz' : execAll u (.base {}) ((cs ++ [.on t, c]) ++ [.on t]) = .ok (.action { base := some b', type := t }) := by
      rw [execAll_append, hstep]
      simp only [Outcome.bind, execAll, exec, execBase, Base.on, hb', ho']
    simp only [List.map_cons, inTurn, Use.live, hc, eachAfter]
    rw [live_again _ _ _ rfl, yields_live, live_chain, hstep, hback]
    simp only
    rw [ih (cs ++ [.on t, c]) b' km kp ps as' hb' ho' hz' (by rw [hsplit] at h; simpa using h)]

end LiveFacts
open LiveFacts

/-- The statements of any program that goes on with one continuation of a builder after the other, whatever builders it uses again and
whatever capacities `append` chooses: those of the program with builders as values in which a builder that was used is what `B.back` and
`B.built` say. -/
theorem C80_uses (p : Use) : yields u grow p = (p.live u (.base {})).2 := yields_live u grow p

/-- The same for programs that start with a standalone call. -/
theorem C80_call_uses (c : CallB) (n : Bool) (p : Use) :
    atOnce (p.run u grow {} (.standalone c n)) = (p.live u (.standalone c n)).2 :=
  (HB.run_live u grow p (HB.inv_standalone _ c n) rfl).2.2

/-- Capacities do not matter, for statements that are looked at when they are built. -/
theorem C80_growth (grow' : Nat → Nat → Nat) (p : Use) : yields u grow p = yields u grow' p := by rw [C80_uses, C80_uses]

/-- Builders of other kinds than of updates, UNWIND and actions are as they were after anything that is done with them. -/
theorem C80_others (x : B) (h : x.again = true) (p q : Use) : ((Use.both p q).live u x).2 = (p.live u x).2 ++ (q.live u x).2 := by
  simp only [Use.live]
  rw [live_again u p x h]

/-- A SET or REMOVE whose builder is used again and again, for `Build()` or for another clause: the first use has it once, the second use
twice, and so on. -/
theorem C80_sets (pre : List Call) (c : Call) (hc : Sets c) (ps : List Use) (hps : ∀ p ∈ ps, Ends p) (hne : ps ≠ [])
    (h : ∀ i < ps.length, ∃ s, yields u grow (chain (pre ++ List.replicate (i + 1) c) .build) = [.ok (.ok s)]) :
    yields u grow (chain (pre ++ [c]) (inTurn ps)) =
      ps.zipIdx.flatMap fun p => yields u grow (chain (pre ++ List.replicate (p.2 + 1) c) p.1) := by
  simp only [yields_live] at h ⊢
  have hlen : 0 < ps.length := List.length_pos_iff.2 hne
  obtain ⟨s, h0⟩ := h 0 hlen
  obtain ⟨y, h1, h2⟩ := chain_build u h0
  simp only [List.replicate] at h1
  rw [execAll_append] at h1
  cases hpre : execAll u (.base {}) pre with
  | panic => rw [hpre] at h1; cases h1
  | ok x =>
    rw [hpre] at h1
    simp only [Outcome.bind, execAll] at h1
    cases hx : exec u x c with
    | panic => rw [hx] at h1; cases h1
    | ok z =>
      rw [hx] at h1
      simp only [Outcome.ok.injEq] at h1
      subst h1
      obtain ⟨b, d, rfl, hd⟩ := sets_exec u hc hx h2
      have hrep : ∀ n i, execAll u (.upd (added b d i)) (List.replicate n c) = .ok (.upd (added b d (i + n))) := by
        intro n
        induction n with
        | zero => intro i; rfl
        | succ n ih =>
          intro i
          simp only [List.replicate, execAll, hd, Outcome.bind]
          rw [ih, show i + 1 + n = i + (n + 1) by omega]
      have hall : ∀ i, execAll u (.base {}) (pre ++ List.replicate (i + 1) c) = .ok (.upd (added b d i)) := by
        intro i
        rw [execAll_append, hpre]
        simp only [Outcome.bind, List.replicate, execAll, hx]
        rw [hrep, Nat.zero_add]
      rw [live_chain, show pre ++ [c] = pre ++ List.replicate (0 + 1) c from rfl, hall]
      refine sets_live u b d (.base {}) pre hall ps hps 0 ?_
      intro i hi hp
      obtain ⟨s', h3⟩ := h i hi
      obtain ⟨y', h4, h5⟩ := chain_build u h3
      rw [hall] at h4
      cases h4
      rw [Nat.zero_add] at hp
      simp only [B.build, hp, reduceCtorEq] at h5

/-- The builder of an UNWIND that is used again and again: every use has the UNWINDs of all uses before it, too. -/
theorem C80_unwinds (pre : List Call) (v : Val) (us : List (Call × Use)) (hne : us ≠ [])
    (h : yields u grow (chain (pre ++ us.flatMap fun w => [.unwind v, w.1]) .nothing) = []) :
    yields u grow (chain (pre ++ [.unwind v]) (inTurn (us.map fun w => .call w.1 w.2))) = eachAfter u grow pre (.unwind v) us := by
  rw [yields_live, live_chain] at h ⊢
  cases hu : us with
  | nil => exact absurd hu hne
  | cons w ws =>
    have hh : execAll u (.base {}) (pre ++ us.flatMap fun w => [.unwind v, w.1]) ≠ .panic := fun hp => by rw [hp] at h; cases h
    have hz : ∃ b, b.err = none ∧ v.err = none ∧ b.omatch.notNil = false ∧
        execAll u (.base {}) (pre ++ [.unwind v]) = .ok (.unwind { base := some b, x := some v }) := by
      rw [execAll_append] at hh ⊢
      cases hp : execAll u (.base {}) pre with
      | panic => rw [hp] at hh; exact absurd rfl hh
      | ok x =>
        rw [hp, hu] at hh
        simp only [Outcome.bind, List.flatMap_cons, List.cons_append, List.nil_append, execAll] at hh ⊢
        have base : ∀ b : Base, exec u x (.unwind v) = .ok (.unwind (b.unwind v)) → ∃ b, b.err = none ∧ v.err = none ∧ b.omatch.notNil = false ∧
            exec u x (.unwind v) = .ok (.unwind { base := some b, x := some v }) := by
          intro b hb
          rw [hb] at hh
          unfold Base.unwind at hb hh
          cases hf : firstErr [b.err, v.err] with
          | some e =>
            rw [hf] at hh
            obtain ⟨c, p⟩ := w
            refine absurd ?_ hh
            cases c <;> rfl
          | none =>
            rw [hf] at hb
            have h1 : b.err = none := by cases hb : b.err with | none => rfl | some e => simp [firstErr, hb] at hf
            have h2 : v.err = none := by
              cases hx : v.err with
              | none => rfl
              | some e => simp [firstErr, h1, hx] at hf
            refine ⟨b.closeMatch, ?_, h2, ?_, hb⟩
            · unfold Base.closeMatch; split <;> exact h1
            · unfold Base.closeMatch; split
              · rfl
              · rename_i hn; simpa using hn
        have := fun b hb => base b hb
        have key : ∃ b, exec u x (.unwind v) = .ok (.unwind (Base.unwind b v)) := by
          cases x <;> first
            | exact ⟨_, rfl⟩
            | exact absurd rfl hh
            | skip
          rename_i w
          cases hn : w.next with
          | ok b => exact ⟨b, by simp only [exec, execWith, hn, Outcome.bind, execBase]⟩
          | panic => exact absurd (by simp only [exec, execWith, hn, Outcome.bind]) hh
        obtain ⟨b, hb⟩ := key
        obtain ⟨b1, h1, h2, h3, h4⟩ := base b hb
        exact ⟨b1, h1, h2, h3, by rw [h4]⟩
    obtain ⟨b, h1, h2, h3, h4⟩ := hz
    rw [h4, ← hu]
    exact unwind_live u grow v us pre b h1 h2 h3 h4 hh

/-- The builder of an action of a MERGE that is used again and again: every use has the actions of all uses before it, too. -/
theorem C80_actions (pre : List Call) (t : MergeType) (us : List (Call × Use)) (hne : us ≠ []) (s : Stmt)
    (h : yields u grow (chain (pre ++ us.flatMap fun w => [.on t, w.1]) .build) = [.ok (.ok s)]) :
    yields u grow (chain (pre ++ [.on t]) (inTurn (us.map fun w => .call w.1 w.2))) = eachAfter u grow pre (.on t) us := by
  rw [yields_live] at h ⊢
  rw [live_chain]
  have hz : ∃ b km kp ps as, b.err = none ∧ b.oupdate = some (.merge km kp ps as) ∧
      execAll u (.base {}) (pre ++ [.on t]) = .ok (.action { base := some b, type := t }) := by
    obtain ⟨y, h1, h2⟩ := chain_build u h
    obtain ⟨w, ws, hu⟩ := List.exists_cons_of_ne_nil hne
    subst hu
    rw [execAll_append] at h1 ⊢
    cases hp : execAll u (.base {}) pre with
    | panic => rw [hp] at h1; cases h1
    | ok x =>
      rw [hp] at h1
      simp only [Outcome.bind] at h1 ⊢
      cases x with
      | base b =>
        cases he : b.err with
        | some e => exact absurd h2 (actions_err u t _ b e he y s h1)
        | none =>
          have bad : ∀ e, b.on t = { err := some e } → False := by
            intro e hh
            simp only [List.flatMap_cons, List.cons_append, List.nil_append, execAll, exec, execBase, hh, Outcome.bind] at h1
            obtain ⟨c, p⟩ := w
            cases c <;> simp only [execAction, ActionB.set, firstErr, Outcome.map, reduceCtorEq] at h1
            case actionSet k kset kl ks xs => exact actions_err u t ws _ e rfl y s h1 h2
          cases ho : b.oupdate with
          | none => exact (bad (.site "default_statement_builder.go" 466) (by simp only [Base.on, he, ho])).elim
          | some d =>
            cases d with
            | merge km kp ps as => exact ⟨b, km, kp, ps, as, he, ho, by simp only [execAll, exec, execBase, Base.on, he, ho, Outcome.bind]⟩
            | create => exact (bad (.site "default_statement_builder.go" 466) (by simp only [Base.on, he, ho])).elim
            | done => exact (bad (.site "default_statement_builder.go" 466) (by simp only [Base.on, he, ho])).elim
      | _ => cases h1
  obtain ⟨b, km, kp, ps, as, h1, h2, h3⟩ := hz
  rw [h3]
  exact action_live u grow t us s pre b km kp ps as h1 h2 h3 h

/-! ### Examples -/

namespace SampleLive

/-- `a := Match(p).Set(x, y)`; `a.Build()`; `a.With(x).Match(q).Returning(z).Build()`; `a.Create(q).Build()`; `a.Build()`. -/
def uses : List Use :=
  [.build, .call (wi 0 x) (.call (mat2 0) (.call (ret 0 z) .build)), .call (.create (uk 1) [q]) .build, .build]

def names : List (Call × Use) :=
  [(.as 5 6 c!"v", .call (ret 0 y) .build), (.as 7 8 c!"w", .both (.call (mat2 0) (.call (ret 1 y) .build)) (.call (ret 2 z) .build)),
    (.as 9 10 c!"z", .build)]

def ons : List (Call × Use) :=
  [(.actionSet 10 11 12 (fun i => 13 + i) [x, y], .build), (.actionSet 20 21 22 (fun i => 23 + i) [y, x], .call (ret 0 x) .build)]

/-- `a := Match(p).Set(x, y)`, `b := a.Remove(z)`, `b.Build()`, `a.Returning(x).Build()`, `a.Delete(y).Build()`, `a.Build()`. -/
def mixed : Use :=
  .call (mat 0) (.call (.set (uk 0) [x, y]) (inTurn
    [.call (.remove (uk 1) [z]) .build, .call (ret 0 x) .build, .call (.delete (uk 2) false (.exprs [y])) .build, .build]))

end SampleLive
open SampleLive

/-- One statement. -/
def isStmt : List (Built Stmt) → Bool
  | [.ok (.ok _)] => true
  | _ => false

theorem stmt_of {l : List (Built Stmt)} (h : isStmt l = true) : ∃ s, l = [.ok (.ok s)] := by
  unfold isStmt at h
  split at h
  · exact ⟨_, rfl⟩
  · cases h

example : (∀ p ∈ uses, Ends p) ∧
    (∀ i < uses.length, ∃ s, yields .ascii goGrow (chain ([mat 0] ++ List.replicate (i + 1) (.set (uk 0) [x, y])) .build) = [.ok (.ok s)]) ∧
    (yields .ascii goGrow (chain ([mat 0] ++ [.set (uk 0) [x, y]]) (inTurn uses))).map shows =
      [c!"MATCH (p) SET x = y ", c!"MATCH (p) SET x = y SET x = y WITH x MATCH (q) RETURN z",
        c!"MATCH (p) SET x = y SET x = y SET x = y CREATE (q) ", c!"MATCH (p) SET x = y SET x = y SET x = y SET x = y "] := by
  refine ⟨?_, ?_, by decide +kernel⟩
  · intro p hp
    simp only [uses, List.mem_cons, List.not_mem_nil, or_false] at hp
    rcases hp with rfl | rfl | rfl | rfl
    · exact .build
    · exact .with_ ..
    · exact .create ..
    · exact .build
  · have h : ∀ i < 4, isStmt (yields .ascii goGrow (chain ([mat 0] ++ List.replicate (i + 1) (.set (uk 0) [x, y])) .build)) = true := by
      decide +kernel
    exact fun i hi => stmt_of (h i hi)

example : yields .ascii goGrow (chain ([mat 0] ++ names.flatMap fun w => [.unwind x, w.1]) .nothing) = [] ∧
    (eachAfter .ascii goGrow [mat 0] (.unwind x) names).map shows =
      [c!"MATCH (p) UNWIND x AS v RETURN y", c!"MATCH (p) UNWIND x AS v UNWIND x AS w MATCH (q) RETURN y",
        c!"MATCH (p) UNWIND x AS v UNWIND x AS w RETURN z", c!"MATCH (p) UNWIND x AS v UNWIND x AS w UNWIND x AS z "] :=
  ⟨rfl, by decide +kernel⟩

example : (∃ s, yields .ascii goGrow (chain ([.merge (uk 0) [p]] ++ ons.flatMap fun w => [.on .onCreate, w.1]) .build) = [.ok (.ok s)]) ∧
    (eachAfter .ascii goGrow [.merge (uk 0) [p]] (.on .onCreate) ons).map shows =
      [c!"MERGE (p) ON CREATE SET x = y ", c!"MERGE (p) ON CREATE SET x = y ON CREATE SET y = x RETURN x"] :=
  ⟨stmt_of (by decide +kernel), by decide +kernel⟩

/-- What a SET and a REMOVE that follows it add is shared, and a DELETE that was added stays behind the SETs that are added later. -/
example : ((mixed.live .ascii (.base {})).2).map shows =
    [c!"MATCH (p) SET x = y REMOVE z ", c!"MATCH (p) SET x = y REMOVE z SET x = y RETURN x",
      c!"MATCH (p) SET x = y REMOVE z SET x = y SET x = y DELETE y ",
      c!"MATCH (p) SET x = y REMOVE z SET x = y SET x = y SET x = y DELETE y "] := by
  decide +kernel

example : (B.base {}).again = true ∧ ((Use.both tree late).live .ascii (.base {})).2.length = 6 := ⟨rfl, by decide +kernel⟩

end Verif
