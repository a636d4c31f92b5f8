import Verif.CondSpec
import Verif.LayoutLemmas

namespace Verif
open Spec

/-! ### Well-formed conditions -/

def bopOf : Option Op → Option BOp
  | some .and => some .and
  | some .or => some .or
  | some .xor => some .xor
  | _ => none

mutual
/-- Conditions without errors whose operators are AND, OR, XOR. -/
def CondOk : Cond → Prop
  | .atom v => Calls.UsableAtom v
  | .neg _ _ c => CondOk c
  | .compound _ op conds em err nn _ _ =>
    (em = true ∧ conds = [] ∧ op = none ∨ em = false ∧ (bopOf op).isSome) ∧ err = none ∧ nn = true ∧ CondOkL conds
def CondOkL : List Cond → Prop
  | [] => True
  | c :: cs => CondOk c ∧ c.hasCondition = true ∧ CondOkL cs
end

theorem not_ok {k kn : Key} {v : Val} (h : v.err = none ∧ v.notNil = true ∧ v.isCond = true) :
    comparisonCreate1 k kn .not (some v) =
      .mk' k [nd k [] [] false [Op.not.visit, nd kn c!"(" c!")" false v.visit]] true := by
  obtain ⟨h1, h2, h3⟩ := h
  simp [comparisonCreate1, firstErr, errOf, h1, nilErr, missing, h2, Op.isUnary, Op.type, nestedIfCondition, h3, nestedCreate,
    visitIfNotNil, Val.mk']

theorem CondOk.val {c : Cond} (h : CondOk c) : c.toVal.err = none ∧ c.toVal.notNil = true ∧ c.toVal.isCond = true := by
  match c with
  | .atom v => simpa [Cond.toVal, CondOk, Calls.UsableAtom] using h
  | .neg k kn c =>
    have ih := CondOk.val (c := c) (by simpa [CondOk] using h)
    rw [Cond.toVal, not_ok ih]
    simp [Val.mk']
  | .compound k op conds em err nn hc cp =>
    simp only [CondOk] at h
    simp [Cond.toVal, h.2.1, h.2.2.1]

theorem opVisit_den {e : Env} {op : Option Op} (h : (bopOf op).isSome)
    (hk : ∀ k ∈ [Op.and.key, Op.or.key, Op.xor.key], e.al k = none) :
    denL false true e (Cond.opVisit op) = layout e ((opTok op).map Tok.part) := by
  cases op with
  | none => simp [bopOf] at h
  | some o =>
    cases o <;> simp [bopOf] at h <;>
    · simp only [Cond.opVisit, opTok, List.map, Tok.part]
      simp only [Op.visit, leaf, layout]
      simp [nd, denL, sepText, den, shown, hk, described, defined, Vis.asAlias, Op.text, Op.type, Op.repr]

theorem denL_one (e : Env) (k : Key) (op cl : Str) (kids : List Tree) (h : e.al k = none) :
    denL false true e [nd k op cl false kids] =
      (op ++ (denL false true e kids).1 ++ cl, (denL false true e kids).2) := by
  have := den_nd h op cl false kids
  simp only [nd] at this ⊢
  simp [denL, sepText, this]

theorem actualOp_ok {op : Option Op} {c : Cond} (ho : (bopOf op).isSome) (h : CondOk c) (hh : c.hasCondition = true) :
    (bopOf (c.actualOp op)).isSome := by
  cases c with
  | atom v => exact ho
  | neg k kn c => exact ho
  | compound k o conds em err nn hc cp =>
    simp only [CondOk] at h
    simp only [Cond.hasCondition, Bool.not_eq_true', Bool.or_eq_false_iff] at hh
    rcases h.1 with h1 | h1
    · simp [h1.1] at hh
    · exact h1.2

theorem opVisit_dkeys (op : Option Op) : dkeysL (Cond.opVisit op) = [] := by
  cases op <;> simp [Cond.opVisit, dkeysL, Op.visit, leaf, nd, dkeys, Vis.asAlias]

theorem opVisit_env (e : Env) {op : Option Op} (h : (bopOf op).isSome)
    (hk : ∀ k ∈ [Op.and.key, Op.or.key, Op.xor.key], e.al k = none) : (denL false true e (Cond.opVisit op)).2 = e := by
  rw [opVisit_den h hk]
  cases op with
  | none => simp [bopOf] at h
  | some o => cases o <;> simp [bopOf] at h <;> simp [opTok, Tok.part, layout]

mutual
theorem toks_layout (e : Env) (c : Cond) (ho : CondOk c) (ha : NoAlias e (ownKeys c) c.toVal.visit) :
    denL false true e c.toVal.visit = layout e ((toks c).map Tok.part) := by
  match c with
  | .atom v => simp [Cond.toVal, toks, Tok.part, layout]
  | .neg k kn c =>
    have ho' : CondOk c := by simpa [CondOk] using ho
    have hv := ho'.val
    rw [Cond.toVal, not_ok hv] at ha ⊢
    simp only [Val.mk'] at ha ⊢
    have hk := (ha k (by simp [ownKeys])).1
    have hkn := (ha kn (by simp [ownKeys])).1
    have hnot := (ha Op.not.key (by simp [ownKeys])).1
    have ih := toks_layout e c ho' (by
      intro k' hk'
      have := ha k' (by simp [ownKeys, hk'])
      refine ⟨this.1, fun hm => this.2 ?_⟩
      simp [dkeysL, nd, dkeys, Vis.asAlias, Op.visit, leaf, hm])
    rw [denL_one _ _ _ _ _ hk]
    have : denL false true e [Op.not.visit, nd kn c!"(" c!")" false c.toVal.visit] =
        (c!"NOT " ++ (denL false true e [nd kn c!"(" c!")" false c.toVal.visit]).1,
          (denL false true e [nd kn c!"(" c!")" false c.toVal.visit]).2) := by
      have h2 := denL_append e [Op.not.visit] [nd kn c!"(" c!")" false c.toVal.visit]
      rw [List.singleton_append] at h2
      rw [h2]
      have h3 : denL false true e [Op.not.visit] = (c!"NOT ", e) := by
        rw [Op.visit, leaf, denL_one _ _ _ _ _ hnot]
        simp [denL, Op.text, Op.type, Op.repr]
      rw [h3]
    rw [this, denL_one _ _ _ _ _ hkn, ih]
    simp [toks, Tok.part, layout, layout_append]
  | .compound k op conds em err nn hc cp =>
    simp only [CondOk] at ho
    simp only [Cond.toVal, Cond.compoundVisit] at ha ⊢
    by_cases hm : conds.length > 1
    · have hop : (bopOf op).isSome := by
        rcases ho.1 with h1 | h1
        · simp [h1.2.1] at hm
        · exact h1.2
      simp only [hm, decide_true, if_true] at ha ⊢
      have hk := (ha k (by simp [ownKeys])).1
      have ih := toksL_layout e op true conds hop ho.2.2.2 (by
        intro k' hk'
        have := ha k' (by
          show k' ∈ k :: ([Op.and.key, Op.or.key, Op.xor.key] ++ ownKeysL conds)
          exact List.mem_cons_of_mem _ hk')
        rw [dkeysL_nd] at this
        exact this)
      rw [denL_one _ _ _ _ _ hk, ih]
      simp [toks, hm, Tok.part, layout, layout_append]
    · simp only [hm, decide_false, Bool.false_eq_true, if_false] at ha ⊢
      have hlen : conds = [] ∨ ∃ c, conds = [c] := by
        match conds with
        | [] => exact .inl rfl
        | [c] => exact .inr ⟨c, rfl⟩
        | a :: b :: cs => simp at hm
      rcases hlen with h | ⟨c, h⟩
      · subst h
        simp [Cond.visits, toks, toksL, denL, layout]
      · subst h
        simp only [CondOkL] at ho
        have ih := toks_layout e c ho.2.2.2.1 (by
          intro k' hk'
          have := ha k' (by simp [ownKeys, ownKeysL, hk'])
          simpa [Cond.visits] using this)
        simpa [Cond.visits, toks, toksL] using ih
theorem toksL_layout (e : Env) (op : Option Op) (first : Bool) (cs : List Cond) (hop : (bopOf op).isSome) (ho : CondOkL cs)
    (ha : NoAlias e ([Op.and.key, Op.or.key, Op.xor.key] ++ ownKeysL cs) (Cond.visits op first cs)) :
    denL false true e (Cond.visits op first cs) = layout e ((toksL op first cs).map Tok.part) := by
  match cs with
  | [] => simp [Cond.visits, toksL, denL, layout]
  | c :: cs =>
    simp only [CondOkL] at ho
    simp only [Cond.visits] at ha ⊢
    have ih1 := fun e h => toks_layout e c ho.1 h
    have hops : ∀ k ∈ [Op.and.key, Op.or.key, Op.xor.key], e.al k = none := fun k hk =>
      (ha k (List.mem_append_left _ hk)).1
    have hpre : denL false true e (if first then [] else Cond.opVisit (c.actualOp op)) =
        layout e (((if first then [] else opTok (c.actualOp op))).map Tok.part) ∧
        (denL false true e (if first then [] else Cond.opVisit (c.actualOp op))).2 = e := by
      cases first with
      | true => simp [denL, layout]
      | false =>
        have := actualOp_ok hop ho.1 ho.2.1
        simp only [Bool.false_eq_true, if_false]
        exact ⟨opVisit_den this hops, opVisit_env e this hops⟩
    have ha1 : NoAlias e (ownKeys c) c.toVal.visit := by
      intro k hk
      have := ha k (List.mem_append_right _ (by simp [ownKeysL, hk]))
      rw [dkeysL_append, dkeysL_append] at this
      exact ⟨this.1, fun hm => this.2 (by simp [hm])⟩
    have ha2 : NoAlias (denL false true e c.toVal.visit).2 ([Op.and.key, Op.or.key, Op.xor.key] ++ ownKeysL cs)
        (Cond.visits op false cs) := by
      have h3 : NoAlias e ([Op.and.key, Op.or.key, Op.xor.key] ++ ownKeysL cs) (c.toVal.visit ++ Cond.visits op false cs) := by
        intro k hk
        have := ha k (by
          rcases List.mem_append.1 hk with h | h
          · exact List.mem_append_left _ h
          · exact List.mem_append_right _ (by simp [ownKeysL, h]))
        rw [dkeysL_append, dkeysL_append] at this
        rw [dkeysL_append]
        exact ⟨this.1, fun hm => this.2 (by rcases List.mem_append.1 hm with h | h <;> simp [h])⟩
      exact h3.right false true
    have ih2 := toksL_layout _ op false cs hop ho.2.2 ha2
    rw [List.append_assoc, denL_append, hpre.2, denL_append, ih2, ih1 e ha1, hpre.1]
    simp only [toksL, List.map_append, layout_append]
    have : (layout e (((if first then [] else opTok (c.actualOp op))).map Tok.part)).2 = e := by
      rw [← hpre.1]; exact hpre.2
    simp only [this, List.append_assoc]
end

/-! ### Truth values -/

theorem apply_assoc (val : Logic) (h : BOp) (a b c : val.D) : h.apply val (h.apply val a b) c = h.apply val a (h.apply val b c) := by
  cases h
  · exact val.and_assoc a b c
  · exact val.or_assoc a b c
  · exact val.xor_assoc a b c

theorem neutral_assoc (val : Logic) (h : BOp) (a b c : Option val.D) :
    Calls.neutral (h.apply val) (Calls.neutral (h.apply val) a b) c = Calls.neutral (h.apply val) a (Calls.neutral (h.apply val) b c) := by
  cases a <;> cases b <;> cases c <;> simp [Calls.neutral, apply_assoc]

theorem neutral_none {D : Type} (f : D → D → D) (a : Option D) : Calls.neutral f a none = a := by
  cases a <;> rfl

theorem none_neutral {D : Type} (f : D → D → D) (a : Option D) : Calls.neutral f none a = a := by
  cases a <;> rfl

def applyOf (val : Logic) (op : Option Op) : val.D → val.D → val.D :=
  match bopOf op with
  | some b => b.apply val
  | none => val.and

section
variable (val : Logic)

mutual
/-- The truth value of a condition, all conditions of a compound being combined with its operator. -/
def cval : Cond → Option val.D
  | .atom v => some (val.val v)
  | .neg _ _ c => (cval c).map val.not
  | .compound _ op conds _ _ _ _ _ => cvalL (applyOf val op) conds
def cvalL (f : val.D → val.D → val.D) : List Cond → Option val.D
  | [] => none
  | c :: cs => Calls.neutral f (cval c) (cvalL f cs)
end

theorem cvalL_append (h : BOp) (as bs : List Cond) :
    cvalL val (h.apply val) (as ++ bs) = Calls.neutral (h.apply val) (cvalL val (h.apply val) as) (cvalL val (h.apply val) bs) := by
  induction as with
  | nil => simp [cvalL, none_neutral]
  | cons a as ih => simp [cvalL, ih, neutral_assoc]
end

/-- The operator of a compound. -/
def opOf : Cond → Option Op
  | .compound _ op .. => op
  | _ => none

mutual
/-- Conditions in which all conditions of a compound are joined by its operator. -/
def Uni : Cond → Prop
  | .atom _ => True
  | .neg _ _ c => c.hasCondition = true ∧ Uni c
  | .compound _ op conds _ _ _ _ _ => UniL op true conds
def UniL (op : Option Op) (first : Bool) : List Cond → Prop
  | [] => True
  | c :: cs => Uni c ∧ (first = false → c.isCompound = true → opOf c = op) ∧ UniL op false cs
end

theorem UniL.of_false {op : Option Op} {cs : List Cond} (h : UniL op false cs) : UniL op true cs := by
  cases cs with
  | nil => trivial
  | cons c cs => simp only [UniL] at h ⊢; exact ⟨h.1, by simp, h.2.2⟩

theorem UniL_append {op : Option Op} {first : Bool} {as bs : List Cond} (ha : UniL op first as)
    (hb : UniL op (as.isEmpty && first) bs) : UniL op first (as ++ bs) := by
  induction as generalizing first with
  | nil => simpa using hb
  | cons a as ih =>
    simp only [UniL, List.cons_append] at ha ⊢
    refine ⟨ha.1, ha.2.1, ih ha.2.2 ?_⟩
    simpa using hb

/-! ### Reading -/

def ReadsAt : BOp → List Tok → Formula → Prop
  | .and => ReadsAnd
  | .xor => ReadsXor
  | .or => ReadsOr

def BOp.tok : BOp → Tok
  | .and => .and
  | .xor => .xor
  | .or => .or

def BOp.join : BOp → Formula → Formula → Formula
  | .and => .and
  | .xor => .xor
  | .or => .or

theorem readsAt_one {b : BOp} {ts f} (h : ReadsNot ts f) : ReadsAt b ts f := by
  cases b
  · exact .one h
  · exact .one (.one (.one h))
  · exact .one (.one h)

theorem readsAt_or {b : BOp} {ts f} (h : ReadsAt b ts f) : ReadsOr ts f := by
  cases b
  · exact .one (.one h)
  · exact h
  · exact .one h

theorem readsAt_join {b : BOp} {ts us f g} (h : ReadsAt b ts f) (h' : ReadsNot us g) :
    ReadsAt b (ts ++ BOp.tok b :: us) (BOp.join b f g) := by
  cases b
  · exact .and h h'
  · exact .or h (.one (.one h'))
  · exact .xor h (.one h')

theorem eval_join (val : Logic) (b : BOp) (f g : Formula) :
    (BOp.join b f g).eval val = (b.apply val) (f.eval val) (g.eval val) := by
  cases b <;> rfl

theorem opTok_of {op : Option Op} {b : BOp} (h : bopOf op = some b) : opTok op = [BOp.tok b] := by
  cases op with
  | none => simp [bopOf] at h
  | some o => cases o <;> simp [bopOf] at h <;> subst h <;> rfl

theorem applyOf_of (val : Logic) {op : Option Op} {b : BOp} (h : bopOf op = some b) : applyOf val op = (b.apply val) := by
  simp [applyOf, h]

mutual
/-- Every usable condition with uniform compounds is read, as a single operand, as a formula with its truth value. -/
theorem reads_cond (c : Cond) (ho : CondOk c) (hu : Uni c) (hh : c.hasCondition = true) :
    ∃ f, ReadsNot (toks c) f ∧ ∀ val, cval val c = some (f.eval val) := by
  match c with
  | .atom v => exact ⟨.atom v, .prim (.atom v), fun val => by simp [cval, Formula.eval]⟩
  | .neg k kn c =>
    simp only [Uni] at hu
    obtain ⟨f, hf, hv⟩ := reads_cond c (by simpa [CondOk] using ho) hu.2 hu.1
    refine ⟨.not f, ?_, fun val => by simp [cval, hv, Formula.eval]⟩
    simp only [toks]
    exact .not (.prim (.paren (readsAt_or (readsAt_one (b := .and) hf))))
  | .compound k op conds em err nn hc cp =>
    simp only [CondOk] at ho
    simp only [Cond.hasCondition, Bool.not_eq_true', Bool.or_eq_false_iff] at hh
    simp only [Uni] at hu
    have hop : (bopOf op).isSome := by
      rcases ho.1 with h1 | h1
      · simp [h1.1] at hh
      · exact h1.2
    obtain ⟨b, hb⟩ := Option.isSome_iff_exists.1 hop
    match conds with
    | [] => simp at hh
    | [c] =>
      simp only [CondOkL, UniL] at ho hu
      obtain ⟨f, hf, hv⟩ := reads_cond c ho.2.2.2.1 hu.1 ho.2.2.2.2.1
      refine ⟨f, ?_, fun val => by simp [cval, cvalL, hv, neutral_none]⟩
      simpa [toks, toksL] using hf
    | c :: d :: cs =>
      simp only [CondOkL, UniL] at ho hu
      obtain ⟨f, hf, hv⟩ := reads_cond c ho.2.2.2.1 hu.1 ho.2.2.2.2.1
      obtain ⟨g, hg, hw⟩ := reads_conds op b hb (d :: cs) (by simpa [CondOkL] using ho.2.2.2.2.2) (by simpa [UniL] using hu.2.2)
        (toks c) f (readsAt_one hf)
      refine ⟨g, ?_, fun val => ?_⟩
      · have : toks (.compound k op (c :: d :: cs) em err nn hc cp) = .lp :: (toks c ++ toksL op false (d :: cs)) ++ [.rp] := by
          simp [toks, toksL]
        rw [this]
        exact .prim (.paren (readsAt_or hg))
      · have := hw val
        rw [cval, applyOf_of _ hb]
        rw [cvalL, hv, this]
theorem reads_conds (op : Option Op) (b : BOp) (hb : bopOf op = some b) (cs : List Cond) (ho : CondOkL cs) (hu : UniL op false cs)
    (ts : List Tok) (f : Formula) (h : ReadsAt b ts f) :
    ∃ g, ReadsAt b (ts ++ toksL op false cs) g ∧
      ∀ val, Calls.neutral (b.apply val) (some (f.eval val)) (cvalL val (b.apply val) cs) = some (g.eval val) := by
  match cs with
  | [] => exact ⟨f, by simpa [toksL] using h, fun val => by simp [cvalL, neutral_none]⟩
  | c :: cs =>
    simp only [CondOkL, UniL] at ho hu
    obtain ⟨g, hg, hv⟩ := reads_cond c ho.1 hu.1 ho.2.1
    have hact : c.actualOp op = op := by
      cases c with
      | atom v => rfl
      | neg k kn c => rfl
      | compound k o conds em err nn hc cp => exact hu.2.1 trivial rfl
    obtain ⟨g', hg', hv'⟩ := reads_conds op b hb cs ho.2.2 hu.2.2 _ _ (readsAt_join h hg)
    refine ⟨g', ?_, fun val => ?_⟩
    · simpa [toksL, hact, opTok_of hb] using hg'
    · rw [cvalL, hv, ← neutral_assoc, ← hv' val, eval_join]
      rfl
end

/-! ### Combining -/

theorem bopOf_op (h : BOp) : bopOf (some h.op) = some h := by cases h <;> rfl
theorem applyOf_op (val : Logic) (h : BOp) : applyOf val (some h.op) = (h.apply val) := applyOf_of val (bopOf_op h)

/-- A condition that is fine in all respects. -/
def Fine (c : Cond) : Prop := CondOk c ∧ Uni c

theorem CondOkL_append {as bs : List Cond} (ha : CondOkL as) (hb : CondOkL bs) : CondOkL (as ++ bs) := by
  induction as with
  | nil => simpa using hb
  | cons a as ih => simp only [CondOkL, List.cons_append] at ha ⊢; exact ⟨ha.1, ha.2.1, ih ha.2.2⟩

theorem flatten_uni {h : Op} {cs : List Cond} (hf : Cond.canBeFlattenedWith h cs = true) {op : Option Op} {first : Bool} (hu : UniL op first cs) :
    UniL (some h) false cs := by
  induction cs generalizing first with
  | nil => trivial
  | cons c cs ih =>
    simp only [Cond.canBeFlattenedWith, List.all_cons, Bool.and_eq_true] at hf
    simp only [UniL] at hu ⊢
    refine ⟨hu.1, fun _ hc => ?_, ih hf.2 hu.2.2⟩
    cases c with
    | atom v => simp [Cond.isCompound] at hc
    | neg k kn c => simp [Cond.isCompound] at hc
    | compound k o conds em err nn hc cp => simpa [opOf] using hf.1

theorem wrapped_fine {ki : Key} {h : BOp} {x : Cond} (hx : Fine x) (hh : x.hasCondition = true) :
    Fine (Cond.wrapped ki h.op [x]) ∧ (Cond.wrapped ki h.op [x]).hasCondition = true ∧
    ∀ val, cval val (Cond.wrapped ki h.op [x]) = cval val x := by
  refine ⟨⟨?_, ?_⟩, by simp [Cond.wrapped, Cond.hasCondition], fun val => ?_⟩
  · simp [Cond.wrapped, CondOk, CondOkL, bopOf_op, hx.1, hh]
  · simp [Cond.wrapped, Uni, UniL, hx.2]
  · simp [Cond.wrapped, cval, cvalL, neutral_none]

theorem hasCondition_compound (k : Key) (op : Option Op) (conds : List Cond) (em : Bool) (err : Option Err) (nn hc : Bool)
    (cp : List Cond) : (Cond.compound k op conds em err nn hc cp).hasCondition = !(em || conds.isEmpty) := rfl

theorem novalue {x : Cond} (hc : x.hasCondition = false) (ho : CondOk x) (val : Logic) : cval val x = none := by
  cases x with
  | atom v => simp [Cond.hasCondition] at hc
  | neg k kn c => simp [Cond.hasCondition] at hc
  | compound k o conds em err nn hcp cp =>
    simp only [CondOk] at ho
    have : conds = [] := by
      rcases ho.1 with h1 | h1
      · exact h1.2.1
      · simpa [Cond.hasCondition, h1.1] using hc
    simp [this, cval, cvalL]

theorem hasValue {c : Cond} (hf : Fine c) (hh : c.hasCondition = true) (val : Logic) : cval val c ≠ none := by
  obtain ⟨f, _, hv⟩ := reads_cond c hf.1 hf.2 hh
  simp [hv]

theorem addConds_fine {op : Option Op} {b : BOp} (hb : bopOf op = some b) {conds : List Cond} (ho : CondOkL conds)
    (hu : UniL op true conds) (ki : Key) (h : BOp) {x : Cond} (hx : Fine x)
    (hc : op = some h.op ∨ conds = [] ∨ x.hasCondition = false) :
    CondOkL (Cond.addConds op conds ki h.op x) ∧ UniL op true (Cond.addConds op conds ki h.op x) ∧
    ∀ val, cvalL val (b.apply val) (Cond.addConds op conds ki h.op x) =
      Calls.neutral (h.apply val) (cvalL val (b.apply val) conds) (cval val x) := by
  have single : ∀ y : Cond, Fine y → y.hasCondition = true → (y.isCompound = true → op = some h.op → opOf y = op) →
      (op = some h.op ∨ conds = []) →
      CondOkL (conds ++ [y]) ∧ UniL op true (conds ++ [y]) ∧
      ∀ val, cvalL val (b.apply val) (conds ++ [y]) = Calls.neutral (h.apply val) (cvalL val (b.apply val) conds) (cval val y) := by
    intro y hy hyc hyo hc
    refine ⟨CondOkL_append ho ⟨hy.1, hyc, trivial⟩, ?_, fun val => ?_⟩
    · apply UniL_append hu
      rcases hc with hc | hc
      · exact ⟨hy.2, fun _ h2 => hyo h2 hc, trivial⟩
      · subst hc; exact ⟨hy.2, by simp, trivial⟩
    · rw [cvalL_append]
      simp only [cvalL, neutral_none]
      rcases hc with hc | hc
      · subst hc; rw [bopOf_op] at hb; cases hb; rfl
      · subst hc; simp [cvalL, none_neutral]
  cases x with
  | atom v =>
    have hc' : op = some h.op ∨ conds = [] := by simpa [Cond.hasCondition] using hc
    exact single _ hx rfl (by simp [Cond.isCompound]) hc'
  | neg k kn c =>
    have hc' : op = some h.op ∨ conds = [] := by simpa [Cond.hasCondition] using hc
    exact single _ hx rfl (by simp [Cond.isCompound]) hc'
  | compound k op' conds' em err nn hcp cp =>
    by_cases hh : (Cond.compound k op' conds' em err nn hcp cp).hasCondition = true
    · have hc' : op = some h.op ∨ conds = [] := by simpa [hh] using hc
      have hxo := hx.1
      simp only [CondOk] at hxo
      by_cases h2 : op = some h.op ∧ op' = some h.op
      · by_cases hf : Cond.canBeFlattenedWith h.op conds' = true
        · have key : Cond.addConds op conds ki h.op (.compound k op' conds' em err nn hcp cp) = conds ++ conds' := by
            rw [Cond.addConds, if_neg (by simp [hh]), if_pos h2, if_pos hf]
          rw [key]
          obtain ⟨h2a, h2b⟩ := h2
          subst h2a; subst h2b
          rw [bopOf_op] at hb; cases hb
          have hxu := hx.2
          simp only [Uni] at hxu
          refine ⟨CondOkL_append ho hxo.2.2.2, ?_, fun val => ?_⟩
          · apply UniL_append hu
            have h3 := flatten_uni hf hxu
            cases conds.isEmpty
            · exact h3
            · exact h3.of_false
          · rw [cvalL_append, cval, applyOf_op]
        · have key : Cond.addConds op conds ki h.op (.compound k op' conds' em err nn hcp cp) =
              conds ++ [.compound k op' conds' em err nn hcp cp] := by
            rw [Cond.addConds, if_neg (by simp [hh]), if_pos h2, if_neg hf]
          rw [key]
          exact single _ hx hh (fun _ _ => by simp [opOf, h2.1, h2.2]) (.inl h2.1)
      · have key : Cond.addConds op conds ki h.op (.compound k op' conds' em err nn hcp cp) =
            conds ++ [Cond.wrapped ki h.op [.compound k op' conds' em err nn hcp cp]] := by
          rw [Cond.addConds, if_neg (by simp [hh]), if_neg h2]
        rw [key]
        obtain ⟨hw1, hw2, hw3⟩ := wrapped_fine (ki := ki) (h := h) hx hh
        obtain ⟨a1, a2, a3⟩ := single _ hw1 hw2 (fun _ h3 => by simp [Cond.wrapped, opOf, h3]) hc'
        exact ⟨a1, a2, fun val => by rw [a3, hw3]⟩
    · have hh' : (Cond.compound k op' conds' em err nn hcp cp).hasCondition = false := by simpa using hh
      have key : Cond.addConds op conds ki h.op (.compound k op' conds' em err nn hcp cp) = conds := by
        rw [Cond.addConds, if_pos (by simp [hh'])]
      rw [key]
      exact ⟨ho, hu, fun val => by rw [novalue hh' hx.1, neutral_none]⟩

theorem addConds_isEmpty {op : Option Op} {conds : List Cond} {ki : Key} {h : Op} {x : Cond} (hx : CondOk x) :
    Cond.addConds op conds ki h x = [] ↔ conds = [] ∧ x.hasCondition = false := by
  cases x with
  | atom v => simp [Cond.addConds, Cond.hasCondition]
  | neg k kn c => simp [Cond.addConds, Cond.hasCondition]
  | compound k op' conds' em err nn hcp cp =>
    by_cases hh : (Cond.compound k op' conds' em err nn hcp cp).hasCondition = true
    · have : conds' ≠ [] := by
        intro h0; simp [Cond.hasCondition, h0] at hh
      simp only [Cond.addConds, hh, Bool.not_true, Bool.false_eq_true, if_false]
      split
      · split <;> simp [this]
      · simp
    · have hh' : (Cond.compound k op' conds' em err nn hcp cp).hasCondition = false := by simpa using hh
      simp [Cond.addConds, hh']

theorem compoundCreate_fine (ks : Cond.Keys) {l r : Cond} (h : BOp) (hl : Fine l) (hr : Fine r) :
    Fine (Cond.compoundCreate ks l h.op r) ∧ opOf (Cond.compoundCreate ks l h.op r) = some h.op ∧
    ((Cond.compoundCreate ks l h.op r).hasCondition = (l.hasCondition || r.hasCondition)) ∧
    (Cond.compoundCreate ks l h.op r).isCompound = true ∧
    ∀ val, cval val (Cond.compoundCreate ks l h.op r) = Calls.neutral (h.apply val) (cval val l) (cval val r) := by
  have hlv := hl.1.val
  have hrv := hr.1.val
  have e1 := addConds_fine (op := some h.op) (bopOf_op h) (conds := []) trivial trivial ks.inner1 h hl (.inl rfl)
  have e2 := addConds_fine (op := some h.op) (bopOf_op h) e1.1 e1.2.1 ks.inner2 h hr (.inl rfl)
  have i1 := addConds_isEmpty (op := some h.op) (conds := []) (ki := ks.inner1) (h := h.op) hl.1
  have i2 := addConds_isEmpty (op := some h.op) (conds := Cond.addConds (some h.op) [] ks.inner1 h.op l) (ki := ks.inner2) (h := h.op) hr.1
  have heq : Cond.compoundCreate ks l h.op r = .compound ks.new (some h.op)
      (Cond.addConds (some h.op) (Cond.addConds (some h.op) [] ks.inner1 h.op l) ks.inner2 h.op r) false none true true
      (Cond.addConds (some h.op) (Cond.addConds (some h.op) [] ks.inner1 h.op l) ks.inner2 h.op r) := by
    simp [Cond.compoundCreate, firstErr, hlv.1, hrv.1, nilErr, missing, hlv.2.1, hrv.2.1]
  rw [heq]
  refine ⟨⟨?_, ?_⟩, rfl, ?_, rfl, fun val => ?_⟩
  · simp [CondOk, bopOf_op, e2.1]
  · simp [Uni, e2.2.1]
  · have : ((Cond.addConds (some h.op) (Cond.addConds (some h.op) [] ks.inner1 h.op l) ks.inner2 h.op r).isEmpty = true) ↔
        (l.hasCondition = false ∧ r.hasCondition = false) := by
      rw [List.isEmpty_iff, i2, i1]; simp
    rw [hasCondition_compound]
    generalize l.hasCondition = p at this ⊢
    generalize r.hasCondition = q at this ⊢
    generalize (Cond.addConds (some h.op) (Cond.addConds (some h.op) [] ks.inner1 h.op l) ks.inner2 h.op r).isEmpty = t at this ⊢
    revert this
    cases p <;> cases q <;> cases t <;> simp
  · rw [cval, applyOf_op, e2.2.2, e1.2.2]
    simp [cvalL, none_neutral]

theorem combine_fine (ks : Cond.Keys) {c x : Cond} (h : BOp) (hc : Fine c) (hx : Fine x)
    (hf : x.isCompound = false ∨ x.hasCondition = false ∨ c.hasCondition = false ∨ opOf c = none ∨ opOf c = some h.op) :
    Fine (Cond.combine ks c h.op x) ∧
    opOf (Cond.combine ks c h.op x) = (if x.isCompound then (opOf c).or (some h.op) else some h.op) ∧
    ((Cond.combine ks c h.op x).hasCondition = (c.hasCondition || x.hasCondition)) ∧
    (Cond.combine ks c h.op x).isCompound = true ∧
    ∀ val, cval val (Cond.combine ks c h.op x) = Calls.neutral (h.apply val) (cval val c) (cval val x) := by
  cases c with
  | atom v =>
    have := compoundCreate_fine ks h hc hx
    simp only [Cond.combine, Cond.isCompound, Bool.false_eq_true, if_false]
    refine ⟨this.1, ?_, this.2.2.1, this.2.2.2⟩
    rw [this.2.1]; simp [opOf]
  | neg k kn c =>
    have := compoundCreate_fine ks h hc hx
    simp only [Cond.combine, Cond.isCompound, Bool.false_eq_true, if_false]
    refine ⟨this.1, ?_, this.2.2.1, this.2.2.2⟩
    rw [this.2.1]; simp [opOf]
  | compound k op conds em err nn hcp cp =>
    have hco := hc.1
    have hcu := hc.2
    simp only [CondOk] at hco
    simp only [Uni] at hcu
    rw [show Cond.combine ks (.compound k op conds em err nn hcp cp) h.op x =
      Cond.add ks (.compound k op conds em err nn hcp cp) h.op x from rfl]
    simp only [Cond.add]
    by_cases hem : em = true
    · -- the empty condition
      have e1 := addConds_fine (op := some h.op) (bopOf_op h) (conds := []) trivial trivial ks.inner1 h hx (.inl rfl)
      have i1 := addConds_isEmpty (op := some h.op) (conds := []) (ki := ks.inner1) (h := h.op) hx.1
      have hconds : conds = [] := by
        rcases hco.1 with h1 | h1
        · exact h1.2.1
        · simp [hem] at h1
      have hop : op = none := by
        rcases hco.1 with h1 | h1
        · exact h1.2.2
        · simp [hem] at h1
      simp only [hem, if_true, Cond.wrapped]
      refine ⟨⟨?_, ?_⟩, ?_, ?_, by trivial, fun val => ?_⟩
      · simp [CondOk, bopOf_op, e1.1]
      · simp [Uni, e1.2.1]
      · simp [opOf, hop]
      · have : ((Cond.addConds (some h.op) [] ks.inner1 h.op x).isEmpty = true) ↔ x.hasCondition = false := by
          rw [List.isEmpty_iff, i1]; simp
        rw [hasCondition_compound, hasCondition_compound]
        generalize x.hasCondition = p at this ⊢
        generalize (Cond.addConds (some h.op) [] ks.inner1 h.op x).isEmpty = t at this ⊢
        revert this
        cases p <;> cases t <;> simp
      · rw [cval, applyOf_op, e1.2.2]
        simp [cval, hconds, cvalL, none_neutral]
    · have hem' : em = false := by simpa using hem
      have hop : (bopOf op).isSome := by
        rcases hco.1 with h1 | h1
        · simp [hem'] at h1
        · exact h1.2
      obtain ⟨b, hb⟩ := Option.isSome_iff_exists.1 hop
      have hopn : op ≠ none := by rintro rfl; simp [bopOf] at hb
      rw [if_neg hem]
      by_cases hx2 : x.isCompound = true ∨ op = some h.op
      · rw [if_pos hx2]
        have hcond : op = some h.op ∨ conds = [] ∨ x.hasCondition = false := by
          rcases hx2 with hx2 | hx2
          · rcases hf with hf | hf | hf | hf | hf
            · simp [hx2] at hf
            · exact .inr (.inr hf)
            · exact .inr (.inl (by simpa [Cond.hasCondition, hem'] using hf))
            · exact absurd hf hopn
            · exact .inl hf
          · exact .inl hx2
        have e1 := addConds_fine hb hco.2.2.2 hcu ks.inner1 h hx hcond
        have i1 := addConds_isEmpty (op := op) (conds := conds) (ki := ks.inner1) (h := h.op) hx.1
        refine ⟨⟨?_, ?_⟩, ?_, ?_, by trivial, fun val => ?_⟩
        · simp [CondOk, hem', hop, hco.2.1, hco.2.2.1, e1.1]
        · simp [Uni, e1.2.1]
        · simp only [opOf]
          cases op with
          | none => exact absurd rfl hopn
          | some o =>
            rcases hx2 with hx2 | hx2
            · simp [hx2]
            · rw [hx2]; simp
        · have : ((Cond.addConds op conds ks.inner1 h.op x).isEmpty = true) ↔ (conds.isEmpty = true ∧ x.hasCondition = false) := by
            rw [List.isEmpty_iff, i1]; simp
          rw [hasCondition_compound, hasCondition_compound, hem']
          generalize x.hasCondition = p at this ⊢
          generalize conds.isEmpty = q at this ⊢
          generalize (Cond.addConds op conds ks.inner1 h.op x).isEmpty = t at this ⊢
          revert this
          cases p <;> cases q <;> cases t <;> simp
        · rw [cval, applyOf_of _ hb, e1.2.2, cval, applyOf_of _ hb]
      · rw [if_neg hx2]
        have := compoundCreate_fine ks h hc hx
        refine ⟨this.1, ?_, this.2.2.1, this.2.2.2⟩
        rw [this.2.1]
        simp only [not_or] at hx2
        simp [hx2.1]

end Verif
