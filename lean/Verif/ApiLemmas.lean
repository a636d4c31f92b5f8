import Verif.ApiSpec
import Verif.BracketLemmas
import Verif.BuilderErrors

/-
Lemmas for C40: everything that can be made with the library has balanced texts only.
-/

namespace Verif
open Spec

/-! ### What is to be shown about each kind of thing -/

def Tag.Ok : Tag → Prop
  | .property lookup => TidyL lookup
  | .aliased delegate _ => TidyL delegate
  | _ => True

structure Val.Neat (v : Val) : Prop where
  visit : TidyL v.visit
  copy : ∀ p, v.copy = some p → TidyL p.2
  tag : v.tag.Ok

def OptNeat (x : Option Val) : Prop := ∀ v, x = some v → v.Neat

def AllNeat (xs : List Val) : Prop := ∀ x ∈ xs, x.Neat

mutual
def Cond.Neat : Cond → Prop
  | .atom v => v.Neat
  | .neg _ _ c => c.Neat
  | .compound _ _ conds _ _ _ _ copy => CondsNeat conds ∧ CondsNeat copy
def CondsNeat : List Cond → Prop
  | [] => True
  | c :: cs => c.Neat ∧ CondsNeat cs
end

def propsNeat (p : Option (Key × Val)) : Prop := ∀ k m, p = some (k, m) → m.Neat

structure NodeV.Neat (n : NodeV) : Prop where
  name : ∀ k s, n.name = some (k, s) → Balanced s
  props : propsNeat n.props

structure RelV.Neat (r : RelV) : Prop where
  left : r.left.Neat
  right : r.right.Neat
  props : propsNeat r.details.props

def ChainV.Neat (c : ChainV) : Prop := ∀ r ∈ c.rels, r.Neat

structure CaseV.Neat (c : CaseV) : Prop where
  subject : OptNeat c.subject
  whens : ∀ b ∈ c.whens, b.2.1.Neat ∧ b.2.2.Neat
  els : ∀ k d, c.els = some (k, d) → d.Neat

structure Projection.Neat (p : Projection) : Prop where
  name : p.name.Neat
  entries : AllNeat p.entries
  val : p.val.Neat

def SortItemV.Neat (s : SortItemV) : Prop := OptNeat s.expr

mutual
def Stmt.Neat : Stmt → Prop
  | .query v _ _ => TidyL v
  | .union v _ _ _ qs => TidyL v ∧ StmtsNeat qs
def StmtsNeat : List Stmt → Prop
  | [] => True
  | s :: ss => s.Neat ∧ StmtsNeat ss
end

theorem Stmt.Neat.visit {s : Stmt} (h : s.Neat) : TidyL s.visit := by
  cases s with
  | query v e r => rw [Stmt.Neat] at h; exact h
  | union v e a n qs => rw [Stmt.Neat] at h; exact h.1

theorem stmtsNeat_iff {ss : List Stmt} : StmtsNeat ss ↔ ∀ s ∈ ss, s.Neat := by
  induction ss with
  | nil => simp [StmtsNeat]
  | cons s ss ih => simp [StmtsNeat, ih]

theorem condsNeat_iff {cs : List Cond} : CondsNeat cs ↔ ∀ c ∈ cs, c.Neat := by
  induction cs with
  | nil => simp [CondsNeat]
  | cons s ss ih => simp [CondsNeat, ih]

/-! ### Values -/

theorem neat_mk' {k : Key} {ts : List Tree} {c : Bool} {t : Tag} (h : TidyL ts) (ht : t.Ok) : (Val.mk' k ts c t).Neat :=
  ⟨h, fun p hp => (by cases hp; exact h), ht⟩

theorem neat_mk {k : Key} {ts : List Tree} {c : Bool} (h : TidyL ts) : (Val.mk' k ts c).Neat := neat_mk' h trivial

theorem neat_bad {e : Err} {c : Bool} : (Val.bad e c).Neat := ⟨trivial, fun _ hp => (by cases hp), trivial⟩

theorem neat_plain {k : Key} {ts : List Tree} {e : Option Err} {nn c : Bool} (h : TidyL ts) :
    Val.Neat { key := k, visit := ts, err := e, notNil := nn, isCond := c } := ⟨h, fun _ hp => (by cases hp), trivial⟩

theorem neat_recv {v w : Val} (h : v.Neat) (hw : v.recv = some w) : w.Neat := by
  unfold Val.recv at hw
  split at hw
  · next nn vis hc => cases hw; exact ⟨h.copy _ hc, fun p hp => (by cases hp), h.tag⟩
  · cases hw

theorem optNeat_some {v : Val} : OptNeat (some v) ↔ v.Neat :=
  ⟨fun h => h v rfl, fun h w hw => by cases hw; exact h⟩

theorem optNeat_none : OptNeat none := by intro v h; cases h

theorem fits_nil : Fits [] [] := ⟨[], rfl, rfl⟩

theorem tidy_plain {k : Key} {sub : Bool} {kids : List Tree} (hk : TidyL kids) : TidyL [nd k [] [] sub kids] := tidy_one (tidy_nd fits_nil hk)

theorem allNeat_visits {xs : List Val} (h : AllNeat xs) : TidyL (visitsOf xs) := TidyL_flatMap.2 fun x hx => (h x hx).visit

theorem fits_round : Fits c!"(" c!")" := ⟨[')'], rfl, rfl⟩
theorem fits_square : Fits c!"[" c!"]" := ⟨[']'], rfl, rfl⟩
theorem fits_curly : Fits c!"{" c!"}" := ⟨['}'], rfl, rfl⟩

theorem tidy_op (o : Op) : Tidy o.visit := tidy_leaf (by cases o <;> rfl)

theorem tidy_opL (o : Op) : TidyL [o.visit] := tidy_one (tidy_op o)

theorem neat_operation {k : Key} {o : Op} {x y : Option Val} (hx : OptNeat x) (hy : OptNeat y) : (operationCreate k x o y).Neat := by
  unfold operationCreate
  split
  · exact neat_bad
  · next l r _ =>
    refine neat_mk' ?_ trivial
    have hk : TidyL (l.visit ++ [o.visit] ++ r.visit) := by
      simp only [TidyL_append]
      exact ⟨⟨(hx l rfl).visit, tidy_opL o⟩, (hy r rfl).visit⟩
    unfold operationVisit
    split
    · exact tidy_one (tidy_nd fits_round hk)
    · exact tidy_plain hk
  · exact neat_bad

theorem neat_nested {k : Key} {v : Val} (h : v.Neat) : (nestedCreate k v).Neat := by
  unfold nestedCreate
  split
  · exact neat_bad
  · exact neat_mk (tidy_one (tidy_nd fits_round h.visit))

theorem tidy_operand {k : Key} {v : Val} (h : v.Neat) : TidyL (visitIfNotNil (nestedIfCondition k v)) := by
  unfold visitIfNotNil nestedIfCondition
  by_cases hc : v.isCond
  · simp only [hc, if_true]
    split
    · exact (neat_nested h).visit
    · trivial
  · simp only [hc, Bool.false_eq_true, if_false]
    split
    · exact h.visit
    · trivial

theorem neat_comparison {k kl kr : Key} {o : Op} {x y : Option Val} (hx : OptNeat x) (hy : OptNeat y) : (comparisonCreate k kl kr x o y).Neat := by
  unfold comparisonCreate
  split
  · exact neat_bad
  · next l r _ =>
    refine neat_mk (tidy_plain ?_)
    simp only [TidyL_append]
    exact ⟨⟨tidy_operand (hx l rfl), tidy_opL o⟩, tidy_operand (hy r rfl)⟩
  · exact neat_bad

theorem neat_comparison1 {k kn : Key} {o : Op} {x : Option Val} (hx : OptNeat x) : (comparisonCreate1 k kn o x).Neat := by
  unfold comparisonCreate1
  split
  · exact neat_bad
  · next v _ =>
    split
    · refine neat_mk (tidy_plain ?_)
      simp only [TidyL_append]
      exact ⟨tidy_opL o, tidy_operand (hx v rfl)⟩
    · refine neat_mk (tidy_plain ?_)
      simp only [TidyL_append]
      exact ⟨tidy_operand (hx v rfl), tidy_opL o⟩
    · exact neat_plain (tidy_plain (tidy_one (tidy_leaf rfl)))
  · exact neat_bad

/-! ### Conditions -/

mutual
theorem neat_toVal (c : Cond) (h : c.Neat) : c.toVal.Neat := by
  cases c with
  | atom v => rw [Cond.toVal]; rw [Cond.Neat] at h; exact h
  | neg k kn c =>
    rw [Cond.toVal]
    rw [Cond.Neat] at h
    exact neat_comparison1 (optNeat_some.2 (neat_toVal c h))
  | compound k op conds ie err nn hc cp =>
    rw [Cond.toVal]
    rw [Cond.Neat] at h
    have hv : ∀ (b : Bool) (ts : List Tree), TidyL ts → TidyL (Cond.compoundVisit k b ts) := by
      intro b ts hts
      unfold Cond.compoundVisit
      split
      · exact tidy_one (tidy_nd fits_round hts)
      · exact hts
    refine ⟨hv _ _ (tidy_visits op true conds h.1), ?_, trivial⟩
    intro p hp
    simp only at hp
    split at hp
    · cases hp; exact hv _ _ (tidy_visits op true cp h.2)
    · cases hp
theorem tidy_visits (op : Option Op) (first : Bool) (cs : List Cond) (h : CondsNeat cs) : TidyL (Cond.visits op first cs) := by
  cases cs with
  | nil => rw [Cond.visits]; trivial
  | cons c cs =>
    rw [Cond.visits]
    rw [CondsNeat] at h
    simp only [TidyL_append]
    refine ⟨⟨?_, (neat_toVal c h.1).visit⟩, tidy_visits op false cs h.2⟩
    split
    · trivial
    · cases c.actualOp op with
      | none => trivial
      | some o => exact tidy_opL o
end

theorem neat_addConds {op : Option Op} {conds : List Cond} {ki : Key} {h : Op} {x : Cond} (hc : CondsNeat conds) (hx : x.Neat) :
    CondsNeat (Cond.addConds op conds ki h x) := by
  unfold Cond.addConds
  have hone : ∀ y : Cond, y.Neat → CondsNeat (conds ++ [y]) := by
    intro y hy
    rw [condsNeat_iff] at hc ⊢
    intro z hz
    rcases List.mem_append.1 hz with hz | hz
    · exact hc z hz
    · rw [List.mem_singleton] at hz; rw [hz]; exact hy
  split
  · next k' op' conds' ie er nn hcp cp =>
    split
    · exact hc
    · split
      · split
        · rw [Cond.Neat] at hx
          rw [condsNeat_iff] at hc hx ⊢
          intro z hz
          rcases List.mem_append.1 hz with hz | hz
          · exact hc z hz
          · exact hx.1 z hz
        · exact hone _ hx
      · refine hone _ ?_
        unfold Cond.wrapped
        rw [Cond.Neat]
        exact ⟨by rw [CondsNeat]; exact ⟨hx, by rw [CondsNeat]; trivial⟩, by rw [CondsNeat]; trivial⟩
  · exact hone _ hx

theorem condsNeat_nil : CondsNeat [] := by rw [CondsNeat]; trivial

theorem neat_compound {k : Key} {op : Option Op} {a b : List Cond} {ie nn hc : Bool} {e : Option Err} (ha : CondsNeat a) (hb : CondsNeat b) :
    Cond.Neat (.compound k op a ie e nn hc b) := by rw [Cond.Neat]; exact ⟨ha, hb⟩

theorem neat_condBad {e : Err} : (Cond.bad e).Neat := neat_compound condsNeat_nil condsNeat_nil

theorem neat_compoundCreate {ks : Cond.Keys} {c d : Cond} {h : Op} (hc : c.Neat) (hd : d.Neat) : (Cond.compoundCreate ks c h d).Neat := by
  unfold Cond.compoundCreate
  split
  · exact neat_condBad
  · have := neat_addConds (op := some h) (ki := ks.inner2) (h := h) (neat_addConds (op := some h) (ki := ks.inner1) (h := h) condsNeat_nil hc) hd
    exact neat_compound this this

theorem neat_add {ks : Cond.Keys} {c d : Cond} {h : Op} (hc : c.Neat) (hd : d.Neat) : (Cond.add ks c h d).Neat := by
  unfold Cond.add
  split
  · have hc' := hc
    rw [Cond.Neat] at hc'
    split
    · exact neat_compound (neat_addConds condsNeat_nil hd) condsNeat_nil
    · split
      · exact neat_compound (neat_addConds hc'.1 hd) hc'.2
      · exact neat_compoundCreate hc hd
  · exact hc

theorem neat_combine {ks : Cond.Keys} {c d : Cond} {h : Op} (hc : c.Neat) (hd : d.Neat) : (Cond.combine ks c h d).Neat := by
  unfold Cond.combine
  split
  · exact neat_add hc hd
  · exact neat_compoundCreate hc hd

theorem neat_condRecv {c d : Cond} (hc : c.Neat) (h : c.recv = some d) : d.Neat := by
  cases c with
  | atom v =>
    simp only [Cond.recv, Option.map_eq_some_iff] at h
    obtain ⟨w, hw, rfl⟩ := h
    rw [Cond.Neat] at hc ⊢
    exact neat_recv hc hw
  | neg k kn c =>
    simp only [Cond.recv] at h
    split at h
    · cases h
    · cases h; exact hc
  | compound k op conds ie err nn hcp cp =>
    simp only [Cond.recv] at h
    rw [Cond.Neat] at hc
    split at h
    · cases h; exact neat_compound hc.2 condsNeat_nil
    · cases h

theorem neat_neg {k kn : Key} {c : Cond} (hc : c.Neat) : (Cond.neg k kn c).Neat := by rw [Cond.Neat]; exact hc

theorem neat_atom {v : Val} (hv : v.Neat) : (Cond.atom v).Neat := by rw [Cond.Neat]; exact hv

theorem neat_conditionsNot {k kn : Key} {c : Cond} (hc : c.Neat) : (Cond.conditionsNot k kn c).Neat := by
  unfold Cond.conditionsNot
  split
  · exact neat_condBad
  · unfold Cond.notOfGet
    split
    · next d hd => exact neat_neg (neat_condRecv hc hd)
    · exact neat_atom (neat_comparison1 optNeat_none)

/-! ### Expressions -/

section
variable {u : Unicode}

theorem neat_symbolicName {k : Key} {name : Str} : (symbolicName u k name).Neat := by
  unfold symbolicName
  split
  · exact ⟨trivial, fun _ hp => (by cases hp), trivial⟩
  · exact neat_mk' (tidy_one (tidy_leaf (balanced_escapeIfNecessary u name))) trivial

theorem balanced_lookup {name : Str} : Balanced (lookupText u name) := by
  unfold lookupText
  refine balanced_cons rfl ?_
  split
  · next h => rw [h]; rfl
  · exact balanced_escapeIfNecessary u name

theorem tidy_lookup {k : Key} {name : Str} : TidyL [leaf k (lookupText u name)] := tidy_one (tidy_leaf balanced_lookup)

theorem neat_propertyLookup {k : Key} {name : Str} : (propertyLookup u k name).Neat :=
  ⟨tidy_lookup, fun p hp => by cases hp; exact tidy_lookup, trivial⟩

theorem neat_propertyError {e : Err} : (propertyError u e).Neat :=
  ⟨trivial, fun p hp => by cases hp; trivial, tidy_lookup⟩

theorem neat_property1 {k kl : Key} {c : Val} {name : Str} (hc : c.Neat) : (propertyCreate1 u k kl c name).Neat := by
  unfold propertyCreate1
  split
  · exact neat_propertyError
  · refine neat_mk' (tidy_plain ?_) tidy_lookup
    rw [TidyL_append]
    exact ⟨hc.visit, tidy_lookup⟩

theorem neat_property2 {k kl : Key} {c : Option Val} {name : Str} (hc : OptNeat c) : (propertyCreate2 u k kl c name).Neat := by
  unfold propertyCreate2
  split
  · exact neat_propertyError
  · next c =>
    split
    · exact neat_propertyError
    · split
      · exact neat_propertyError
      · exact neat_property1 (hc c rfl)

theorem neat_badAliased {e : Err} : Val.Neat { Val.bad e with tag := .badAliased } := ⟨trivial, fun _ hp => (by cases hp), trivial⟩

theorem neat_aliased {k : Key} {d : Option Val} {a : Str} (hd : OptNeat d) : (aliasedCreate u k d a).Neat := by
  unfold aliasedCreate
  split
  · exact neat_badAliased
  · next d =>
    split
    · exact neat_badAliased
    · split
      · exact neat_badAliased
      · split
        · exact neat_badAliased
        · exact neat_mk' (tidy_one ⟨balanced_escapeIfNecessary u a, (hd d rfl).visit⟩) (hd d rfl).visit

theorem neat_int {k : Key} {i : Int} : (intLiteral k i).Neat := neat_mk (tidy_one (tidy_leaf (balanced_int i)))
theorem neat_float {k : Key} {f : GoFloat} {v : Val} (h : floatLiteral k f = .ok v) : v.Neat := by
  unfold floatLiteral at h
  split at h
  · next t ht => cases h; exact neat_mk (tidy_one (tidy_leaf (balanced_float ht)))
  · cases h
theorem neat_string {k : Key} {s : Str} : (stringLiteral k s).Neat := neat_mk (tidy_one (tidy_leaf (balanced_stringLiteral s)))
theorem neat_bool {k : Key} {b : Bool} : (boolLiteral k b).Neat := neat_mk (tidy_one (tidy_leaf (balanced_bool b)))
theorem neat_nil : nilLiteral.Neat := neat_mk (tidy_one (tidy_leaf rfl))
theorem neat_asterisk : asterisk.Neat := neat_mk' (tidy_one (tidy_leaf rfl)) trivial

theorem neat_parameter {k : Key} {name : Str} (h : Balanced name) : (parameter k name).Neat := by
  unfold parameter
  split
  · exact neat_bad
  · next n hn => exact neat_mk (tidy_one (tidy_leaf (balanced_cons rfl (parameterCreate_balanced h hn))))

theorem tidy_listLiteral : ∀ {xs : List Val}, AllNeat xs → TidyL (listLiteralKids xs)
  | [], _ => by rw [listLiteralKids]; trivial
  | [x], h => by rw [listLiteralKids]; exact (h x (by simp)).visit
  | x :: y :: xs, h => by
    rw [listLiteralKids, TidyL_append]
    exact ⟨(h x (by simp)).visit, rfl, tidy_listLiteral fun z hz => h z (by simp [hz])⟩

theorem neat_listLiteral {k : Key} {xs : List Val} (h : AllNeat xs) : (listLiteral k xs).Neat := by
  unfold listLiteral
  split
  · exact neat_bad
  · have := tidy_one (tidy_nd (k := k) (sub := false) fits_square (tidy_listLiteral h))
    exact ⟨this, fun p hp => by cases hp; exact this, trivial⟩

def Obj.Neat : Obj → Prop
  | .literals xs => AllNeat xs
  | .expr v => v.Neat
  | _ => True

theorem neat_literalOf {k : Key} {o : Obj} {v : Val} (ho : o.Neat) (h : literalOf k o = .ok v) : v.Neat := by
  cases o with
  | nil => cases h; exact neat_nil
  | str s => cases h; exact neat_string
  | int i => cases h; exact neat_int
  | float f => exact neat_float h
  | bool b => cases h; exact neat_bool
  | literals xs => cases h; exact neat_listLiteral ho
  | expr v => cases h
  | unsupported => cases h

theorem neat_expressionList {k : Key} {xs : List Val} (h : AllNeat xs) : (expressionList k xs).Neat := by
  unfold expressionList
  split
  · exact neat_bad
  · exact neat_mk (tidy_plain (allNeat_visits h))

theorem neat_listExpression {k kl : Key} {xs : List Val} (h : AllNeat xs) : (listExpression k kl xs).Neat := by
  unfold listExpression
  split
  · exact ⟨tidy_one (tidy_nd fits_square (tidy_plain (by trivial))), fun _ hp => (by cases hp), trivial⟩
  · exact neat_mk (tidy_one (tidy_nd fits_square (neat_expressionList h).visit))

theorem neat_listOrSingle {k kl : Key} {xs : List Val} (h : AllNeat xs) : (listOrSingle k kl xs).Neat := by
  unfold listOrSingle
  split
  · exact h _ (by simp)
  · exact neat_listExpression h

theorem neat_map {k : Key} {xs : List Val} (h : AllNeat xs) : (mapExpression k xs).Neat := by
  unfold mapExpression
  split
  · exact neat_bad
  · exact neat_mk (tidy_one (tidy_nd fits_curly (allNeat_visits h)))

theorem fits_entry {s : Str} : Fits (escapeIfNecessary u s ++ c!": ") [] := ((balanced_escapeIfNecessary u s).append (t := c!": ") rfl).fits

theorem neat_entry {k : Key} {key : Str} {v : Val} (h : v.Neat) : (entryExpression u k key v).Neat := by
  unfold entryExpression
  split
  · exact neat_bad
  · exact neat_mk (tidy_one (tidy_nd fits_entry h.visit))

theorem neat_keyValue {k : Key} {key : Str} {v : Val} (h : v.Neat) : (keyValueMapEntry u k key v).Neat := by
  unfold keyValueMapEntry
  split
  · exact neat_bad
  · have := tidy_one (tidy_nd (k := k) (sub := false) (fits_entry (u := u) (s := key)) h.visit)
    exact ⟨this, fun p hp => by cases hp; exact this, trivial⟩

theorem neat_mapValue {k : Key} {o : Obj} {v : Val} (ho : o.Neat) (h : mapValue k o = .ok v) : v.Neat := by
  unfold mapValue at h
  split at h
  · cases h; exact ho
  · exact neat_literalOf ho h

theorem neat_mapEntries {ks : Nat → Key} : ∀ {known : List Str} {i : Nat} {os : List Obj} {es : List Val}, (∀ o ∈ os, o.Neat) →
    mapEntries u ks known i os = .ok (.ok es) → AllNeat es
  | _, _, [], _, _, h => by rw [mapEntries] at h; cases h; intro x hx; cases hx
  | _, _, [_], _, _, h => by rw [mapEntries.eq_def] at h; cases h; intro x hx; cases hx
  | known, i, .str key :: value :: rest, es, ho, h => by
    rw [mapEntries] at h
    obtain ⟨v, hv, h⟩ := Outcome.bind_ok h
    split at h
    · cases h
    · obtain ⟨r, hr, h⟩ := Outcome.map_ok h
      cases r with
      | error e => cases h
      | ok es' =>
        cases h
        intro x hx
        rcases List.mem_cons.1 hx with rfl | hx
        · exact neat_entry (neat_mapValue (ho value (by simp)) hv)
        · exact neat_mapEntries (fun o h => ho o (by simp [h])) hr x hx
  | _, _, .nil :: _ :: _, _, _, h => by rw [mapEntries.eq_def] at h; cases h
  | _, _, .int _ :: _ :: _, _, _, h => by rw [mapEntries.eq_def] at h; cases h
  | _, _, .bool _ :: _ :: _, _, _, h => by rw [mapEntries.eq_def] at h; cases h
  | _, _, .literals _ :: _ :: _, _, _, h => by rw [mapEntries.eq_def] at h; cases h
  | _, _, .expr _ :: _ :: _, _, _, h => by rw [mapEntries.eq_def] at h; cases h
  | _, _, .unsupported :: _ :: _, _, _, h => by rw [mapEntries.eq_def] at h; cases h

theorem neat_mapOf {k : Key} {ks : Nat → Key} {os : List Obj} {v : Val} (ho : ∀ o ∈ os, o.Neat) (h : newMapExpression u k ks os = .ok v) :
    v.Neat := by
  unfold newMapExpression at h
  split at h
  · cases h; exact neat_bad
  · obtain ⟨r, hr, h⟩ := Outcome.map_ok h
    cases r with
    | error e => cases h; exact neat_bad
    | ok es => cases h; exact neat_map (neat_mapEntries ho hr)

end
end Verif
