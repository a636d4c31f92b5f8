import Verif.ExprSpec
import Verif.LayoutLemmas

namespace Verif
open Spec

/-- The usual way to show a layout: by a term. -/
theorem shown_tm {e : Env} {vis : List Tree} {ps : List Part} (t : Tm) {ks : List Key} {ts : List Tree}
    (hv : vis = t.trees) (ho : t.Ok) (ha : NoAlias e ks ts) (hk : ∀ k ∈ t.keys, k ∈ ks)
    (hs : ∀ k, k ∈ dkeysL t.holes → k ∈ dkeysL ts) (hp : layout e t.parts = layout e ps) : shownAs e vis = layout e ps := by
  rw [shownAs, hv, Tm.shown t ho ha hk hs, hp]

/-- The same with the calls themselves as the parts. -/
theorem shown_self {e : Env} {vis : List Tree} {ps : List Part} (t : Tm)
    (hv : vis = t.trees) (ho : t.Ok) (ha : ∀ k ∈ t.keys, e.al k = none ∧ k ∉ dkeysL vis)
    (hp : layout e t.parts = layout e ps) : shownAs e vis = layout e ps := by
  subst hv
  rw [shownAs, Tm.layout e t ho ha, hp]

theorem layout_raw (e : Env) (s : Str) (ps : List Part) : layout e (.hole [.raw s] :: ps) = layout e (.lit s :: ps) := by
  simp [layout, denL]

theorem layout_lit_append (e : Env) (a b : Str) (ps : List Part) :
    layout e (.lit (a ++ b) :: ps) = layout e (.lit a :: .lit b :: ps) := by
  simp [layout, List.append_assoc]

/-- Layouts are compared piece by piece. -/
theorem layout_congr {ps qs rs : List Part} (h : ∀ e, layout e ps = layout e qs) (e : Env) : layout e (ps ++ rs) = layout e (qs ++ rs) := by
  rw [layout_append, layout_append, h]

theorem layout_congr' {ps qs : List Part} (p : Part) (h : ∀ e, layout e ps = layout e qs) (e : Env) :
    layout e (p :: ps) = layout e (p :: qs) := by
  cases p <;> simp [layout, h]

/-- The elements of a list construct. -/
def listTm (xs : List (List Tree)) : List Tm := xs.map .hole

theorem listTm_trees (xs : List (List Tree)) : Tm.treesL (listTm xs) = xs.flatten := by
  induction xs with
  | nil => simp [listTm, Tm.treesL]
  | cons x xs ih => simpa [listTm, Tm.treesL, Tm.trees] using ih

theorem listTm_holes (xs : List (List Tree)) : Tm.holesL (listTm xs) = xs.flatten := by
  induction xs with
  | nil => simp [listTm, Tm.holesL]
  | cons x xs ih => simpa [listTm, Tm.holesL, Tm.holes] using ih

theorem listTm_keys (xs : List (List Tree)) : Tm.keysL (listTm xs) = [] := by
  induction xs with
  | nil => simp [listTm, Tm.keysL]
  | cons x xs ih => simpa [listTm, Tm.keysL, Tm.keys] using ih

theorem listTm_ok {xs : List (List Tree)} (h : ∀ x ∈ xs, One x) : Tm.OkL true (listTm xs) := by
  induction xs with
  | nil => simp [listTm, Tm.OkL]
  | cons x xs ih =>
    have := ih fun y hy => h y (by simp [hy])
    simp only [listTm, List.map_cons, Tm.OkL, Tm.Ok, Tm.trees, true_and]
    exact ⟨fun _ => h x (by simp), this⟩

theorem partsL_false_sep (ts : List Tm) (e : Env) :
    layout e (Tm.partsL true false ts) = if ts = [] then layout e [] else layout e (.lit c!", " :: sepParts c!", " (ts.map Tm.parts)) := by
  induction ts generalizing e with
  | nil => simp [Tm.partsL]
  | cons t ts ih =>
    rw [if_neg (by simp), Tm.partsL]
    cases ts with
    | nil => simp [Tm.partsL, sepParts, sepText]
    | cons s ts =>
      simp only [List.map_cons, sepParts, sepText, List.cons_append]
      have : ∀ e, layout e (Tm.partsL true false (s :: ts)) = layout e (.lit c!", " :: sepParts c!", " ((s :: ts).map Tm.parts)) := by
        intro e; rw [ih, if_neg (by simp)]
      rw [layout, layout]
      simp only [layout_append, this]
      simp

theorem partsL_sep (ts : List Tm) (e : Env) :
    layout e (Tm.partsL true true ts) = layout e (sepParts c!", " (ts.map Tm.parts)) := by
  cases ts with
  | nil => simp [Tm.partsL, sepParts]
  | cons t ts =>
    rw [Tm.partsL]
    cases ts with
    | nil => simp [Tm.partsL, sepParts, sepText, layout]
    | cons s ts =>
      simp only [List.map_cons, sepParts, sepText]
      rw [List.cons_append]
      rw [show (if (true && !true) = true then c!", " else []) = ([] : Str) from rfl, layout_lit_nil]
      rw [layout_append, layout_append, partsL_false_sep, if_neg (by simp)]
      simp

theorem partsL_commas (xs : List (List Tree)) (e : Env) : layout e (Tm.partsL true true (listTm xs)) = layout e (commas xs) := by
  rw [partsL_sep]
  simp [commas, listTm, Function.comp_def, Tm.parts]

/-! ### CASE -/

def lastKey (k : Key) : List Branch → Key
  | [] => k
  | b :: bs => lastKey b.k bs

theorem lastKey_cons (k : Key) (b : Branch) (bs : List Branch) : lastKey k (b :: bs) = lastKey b.k bs := rfl

theorem lastKey_mem (k : Key) (bs : List Branch) : lastKey k bs ∈ k :: bs.map (·.k) := by
  induction bs generalizing k with
  | nil => simp [lastKey]
  | cons b bs ih =>
    rw [lastKey_cons]
    have := ih b.k
    simp only [List.map_cons, List.mem_cons] at this ⊢
    exact Or.inr this

/-- A CASE expression with a given list of branches. -/
def caseVal (k : Key) (subject : Option Val) (bs : List Branch) (els : Option (Key × Val)) : CaseV :=
  ⟨k, subject, bs.map fun b => (b.kw, b.w, b.t), els, subject.isNone, none, true⟩

theorem run_whens (k : Key) (subject : Option Val) (hs : ∀ s, subject = some s → Good s) (bs0 bs : List Branch) (els : Option (Key × Val))
    (hb : ∀ b ∈ bs, b.w.err = none ∧ b.t.err = none) (cs : List CaseCall) :
    runCase (caseVal k subject bs0 els) (bs.map Branch.call ++ cs) =
      runCase (caseVal (lastKey k bs) subject (bs0 ++ bs) (if bs = [] then els else none)) cs := by
  induction bs generalizing k bs0 els with
  | nil => simp [lastKey]
  | cons b bs ih =>
    have h := hb b (by simp)
    have step : CaseV.whenThen (caseVal k subject bs0 els) b.k b.kw b.w b.t = .ok (caseVal b.k subject (bs0 ++ [b]) none) := by
      cases subject with
      | none => simp [CaseV.whenThen, caseVal, h.1, h.2, CaseV.ending]
      | some s => simp [CaseV.whenThen, caseVal, h.1, h.2, CaseV.ending, (hs s rfl).1, (hs s rfl).2]
    simp only [List.map_cons, List.cons_append, Branch.call, runCase, step, Outcome.bind]
    have := ih b.k (bs0 ++ [b]) none (fun b hb' => hb b (by simp [hb']))
    rw [this, lastKey_cons]
    simp

theorem run_els (k : Key) (subject : Option Val) (bs : List Branch) (els : Option (Key × Val)) (ds : List (Key × Val))
    (hd : ∀ d ∈ ds, d.2.err = none) :
    runCase (caseVal k subject bs els) (ds.map fun d => .els d.1 d.2) = .ok (caseVal k subject bs (ds.getLast?.or els)) := by
  induction ds generalizing els with
  | nil => simp [runCase]
  | cons d ds ih =>
    have h := hd d (by simp)
    have step : CaseV.elseDefault (caseVal k subject bs els) d.1 d.2 = caseVal k subject bs (some d) := by
      simp [CaseV.elseDefault, caseVal, h]
    simp only [List.map_cons, runCase, step]
    rw [ih _ fun d hd' => hd d (by simp [hd'])]
    congr 2
    cases ds with
    | nil => simp
    | cons d' ds =>
      rw [List.getLast?_cons_cons]
      cases h : (d' :: ds).getLast? with
      | none => simp at h
      | some x => simp

def branchTms (bs : List Branch) : List Tm := bs.flatMap fun b => [.node b.kw c!" WHEN " c!" THEN " false [.hole b.w.visit], .hole b.t.visit]

def caseTm (k : Key) (subject : Option Val) (bs : List Branch) (els : Option (Key × Val)) : Tm :=
  .node k (if subject.isNone then c!"CASE" else c!"CASE ") c!" END" false
    ((match subject with | some s => [.hole s.visit] | none => []) ++ branchTms bs ++
     (match els with | some d => [.node d.1 c!" ELSE " [] false [.hole d.2.visit]] | none => []))

theorem treesL_append (ts us : List Tm) : Tm.treesL (ts ++ us) = Tm.treesL ts ++ Tm.treesL us := by
  induction ts with
  | nil => simp [Tm.treesL]
  | cons t ts ih => simp [Tm.treesL, ih]

theorem keysL_append (ts us : List Tm) : Tm.keysL (ts ++ us) = Tm.keysL ts ++ Tm.keysL us := by
  induction ts with
  | nil => simp [Tm.keysL]
  | cons t ts ih => simp [Tm.keysL, ih]

theorem holesL_append (ts us : List Tm) : Tm.holesL (ts ++ us) = Tm.holesL ts ++ Tm.holesL us := by
  induction ts with
  | nil => simp [Tm.holesL]
  | cons t ts ih => simp [Tm.holesL, ih]

theorem okL_append (sub : Bool) (ts us : List Tm) : Tm.OkL sub (ts ++ us) ↔ Tm.OkL sub ts ∧ Tm.OkL sub us := by
  induction ts with
  | nil => simp [Tm.OkL]
  | cons t ts ih => simp [Tm.OkL, ih, and_assoc]

theorem partsL_false (b b' : Bool) (ts : List Tm) : Tm.partsL false b ts = Tm.partsL false b' ts := by
  cases ts <;> simp [Tm.partsL, sepText]

theorem partsL_append (b : Bool) (ts us : List Tm) : Tm.partsL false b (ts ++ us) = Tm.partsL false b ts ++ Tm.partsL false b us := by
  induction ts generalizing b with
  | nil => simp [Tm.partsL]
  | cons t ts ih =>
    simp only [List.cons_append, Tm.partsL, ih]
    rw [partsL_false b false us]
    simp

theorem branchTms_trees (bs : List Branch) : Tm.treesL (branchTms bs) = (bs.map fun b => (b.kw, b.w, b.t)).flatMap CaseV.branchVisit := by
  induction bs with
  | nil => simp [branchTms, Tm.treesL]
  | cons b bs ih =>
    simp only [branchTms, List.flatMap_cons, treesL_append] at ih ⊢
    rw [ih]
    simp [Tm.treesL, Tm.trees, CaseV.branchVisit]

theorem branchTms_ok (bs : List Branch) : Tm.OkL false (branchTms bs) := by
  induction bs with
  | nil => simp [branchTms, Tm.OkL]
  | cons b bs ih =>
    simp only [branchTms, List.flatMap_cons, okL_append] at ih ⊢
    exact ⟨by simp [Tm.OkL, Tm.Ok], ih⟩

theorem branchTms_keys (bs : List Branch) : Tm.keysL (branchTms bs) = bs.map (·.kw) := by
  induction bs with
  | nil => simp [branchTms, Tm.keysL]
  | cons b bs ih =>
    simp only [branchTms, List.flatMap_cons, keysL_append] at ih ⊢
    rw [ih]
    simp [Tm.keysL, Tm.keys]

theorem branchTms_holes (bs : List Branch) : Tm.holesL (branchTms bs) = bs.flatMap fun b => b.w.visit ++ b.t.visit := by
  induction bs with
  | nil => simp [branchTms, Tm.holesL]
  | cons b bs ih =>
    simp only [branchTms, List.flatMap_cons, holesL_append] at ih ⊢
    rw [ih]
    simp [Tm.holesL, Tm.holes]

theorem branchTms_parts (b : Bool) (bs : List Branch) (e : Env) : layout e (Tm.partsL false b (branchTms bs)) =
    layout e (bs.flatMap fun b => [.lit c!" WHEN ", .hole b.w.visit, .lit c!" THEN ", .hole b.t.visit]) := by
  induction bs generalizing e b with
  | nil => simp [branchTms, Tm.partsL]
  | cons x bs ih =>
    simp only [branchTms, List.flatMap_cons, partsL_append] at ih ⊢
    rw [layout_append, layout_append, ih]
    have : ∀ e, layout e (Tm.partsL false b [.node x.kw c!" WHEN " c!" THEN " false [.hole x.w.visit], .hole x.t.visit]) =
      layout e [.lit c!" WHEN ", .hole x.w.visit, .lit c!" THEN ", .hole x.t.visit] := by
      intro e
      simp [Tm.partsL, Tm.parts, sepText, layout]
    rw [this]

theorem case_layout {e : Env} {k : Key} {subject : Option Val} {bs : List Branch} {els : Option (Key × Val)} {ks : List Key} {ts : List Tree}
    (hs : ∀ s, subject = some s → Good s) (ha : NoAlias e ks ts)
    (hk : k ∈ ks) (hkb : ∀ b ∈ bs, b.kw ∈ ks) (hke : ∀ d, els = some d → d.1 ∈ ks)
    (h1 : ∀ s, subject = some s → ∀ k, k ∈ dkeysL s.visit → k ∈ dkeysL ts)
    (h2 : ∀ k, k ∈ dkeysL (bs.flatMap fun b => b.w.visit ++ b.t.visit) → k ∈ dkeysL ts)
    (h3 : ∀ d, els = some d → ∀ k, k ∈ dkeysL d.2.visit → k ∈ dkeysL ts) :
    shownAs e (caseVal k subject bs els).visit = layout e (caseParts subject bs (els.map (·.2))) := by
  refine shown_tm (caseTm k subject bs els) ?_ ?_ ha ?_ ?_ ?_
  · cases subject with
    | none => cases els <;> simp [caseVal, CaseV.visit, caseTm, Tm.trees, treesL_append, Tm.treesL, branchTms_trees, visitIfNotNull, CaseV.elseVisit]
    | some s =>
      have := (hs s rfl).2
      cases els <;> simp [caseVal, CaseV.visit, caseTm, Tm.trees, treesL_append, Tm.treesL, branchTms_trees, visitIfNotNull, CaseV.elseVisit, this]
  · cases subject <;> cases els <;> simp [caseTm, Tm.Ok, okL_append, Tm.OkL, branchTms_ok]
  · intro k' hk'
    simp only [caseTm, Tm.keys, keysL_append, branchTms_keys, List.mem_cons, List.mem_append] at hk'
    rcases hk' with rfl | (h | h) | h
    · exact hk
    · cases subject <;> simp [Tm.keysL, Tm.keys] at h
    · obtain ⟨b, hb, rfl⟩ := List.mem_map.mp h; exact hkb b hb
    · cases els with
      | none => simp [Tm.keysL] at h
      | some d => simp [Tm.keysL, Tm.keys] at h; rw [h]; exact hke d rfl
  · intro k' hk'
    simp only [caseTm, Tm.holes, holesL_append, branchTms_holes, dkeysL_append, List.mem_append] at hk'
    rcases hk' with (h | h) | h
    · cases subject with
      | none => simp [Tm.holesL, dkeysL] at h
      | some s => simp [Tm.holesL, Tm.holes] at h; exact h1 s rfl k' h
    · exact h2 k' h
    · cases els with
      | none => simp [Tm.holesL, dkeysL] at h
      | some d => simp [Tm.holesL, Tm.holes] at h; exact h3 d rfl k' h
  · cases subject <;> cases els <;>
      simp [caseTm, caseParts, Tm.parts, partsL_append, layout, layout_append, branchTms_parts, Tm.partsL, sepText, List.append_assoc]

/-! ### Maps -/

theorem firstErr_none_iff (xs : List (Option Err)) : firstErr xs = none ↔ ∀ x ∈ xs, x = none := by
  induction xs with
  | nil => simp [firstErr]
  | cons x xs ih => cases x <;> simp [firstErr, ih]

theorem errsOf_none_iff (xs : List Val) : errsOf xs = none ↔ ∀ x ∈ xs, x.err = none := by
  simp [errsOf, firstErr_none_iff]

/-- The terms of list literals. -/
def rawTms : List (List Tree) → List Tm
  | [] => []
  | [x] => [.hole x]
  | x :: y :: xs => .hole x :: .hole [.raw c!", "] :: rawTms (y :: xs)

theorem rawTms_trees (xs : List Val) : Tm.treesL (rawTms (xs.map (·.visit))) = listLiteralKids xs := by
  induction xs with
  | nil => simp [rawTms, Tm.treesL, listLiteralKids]
  | cons x xs ih =>
    cases xs with
    | nil => simp [rawTms, Tm.treesL, listLiteralKids, Tm.trees]
    | cons y ys => simp only [List.map_cons, rawTms, Tm.treesL, listLiteralKids, Tm.trees] at ih ⊢; rw [ih]; simp

theorem rawTms_keys (xs : List (List Tree)) : Tm.keysL (rawTms xs) = [] := by
  induction xs with
  | nil => simp [rawTms, Tm.keysL]
  | cons x xs ih => cases xs with
    | nil => simp [rawTms, Tm.keysL, Tm.keys]
    | cons y ys => simp only [rawTms, Tm.keysL, Tm.keys] at ih ⊢; rw [ih]; simp

theorem rawTms_ok (xs : List (List Tree)) : Tm.OkL false (rawTms xs) := by
  induction xs with
  | nil => simp [rawTms, Tm.OkL]
  | cons x xs ih => cases xs with
    | nil => simp [rawTms, Tm.OkL, Tm.Ok]
    | cons y ys => simp only [rawTms, Tm.OkL, Tm.Ok] at ih ⊢; simp [ih]

theorem rawTms_parts (b : Bool) (xs : List (List Tree)) (e : Env) : layout e (Tm.partsL false b (rawTms xs)) = layout e (commas xs) := by
  induction xs generalizing e b with
  | nil => simp [rawTms, Tm.partsL, commas, sepParts]
  | cons x xs ih => cases xs with
    | nil => simp [rawTms, Tm.partsL, commas, sepParts, Tm.parts, sepText, layout]
    | cons y ys =>
      simp only [rawTms, Tm.partsL, Tm.parts, commas, List.map_cons, sepParts] at ih ⊢
      simp [layout, sepText, ih, denL]

def listLiteralTm (k : Key) (xs : List Val) : Tm := .node k c!"[" c!"]" false (rawTms (xs.map (·.visit)))

theorem listLiteral_trees (k : Key) (xs : List Val) : (listLiteralTm k xs).trees = [nd k c!"[" c!"]" false (listLiteralKids xs)] := by
  simp [listLiteralTm, Tm.trees, rawTms_trees]

theorem listLiteral_parts (k : Key) (xs : List Val) (e : Env) :
    layout e (listLiteralTm k xs).parts = layout e ([.lit c!"["] ++ commas (xs.map (·.visit)) ++ [.lit c!"]"]) := by
  simp [listLiteralTm, Tm.parts, layout, layout_append, rawTms_parts]

/-- The term of a value given to `MapOf`. -/
def objTm (k : Key) : Obj → Tm
  | .nil => .node 33 nullText [] false []
  | .str s => .node k (stringLiteralText s) [] false []
  | .int i => .node k (intLiteralText i) [] false []
  | .float f => .node k ((floatText f).getD []) [] false []
  | .bool b => .node k (boolText b) [] false []
  | .literals xs => listLiteralTm k xs
  | .expr v => .hole v.visit
  | .unsupported => .hole []

theorem floatText_none (f : GoFloat) : floatText f = none ↔ f = .nan := by cases f <;> simp [floatText]

theorem floatLiteral_ok {k : Key} {f : GoFloat} (h : f ≠ .nan) : floatLiteral k f = .ok (.mk' k [leaf k ((floatText f).getD [])]) := by
  cases hf : floatText f with
  | none => exact absurd ((floatText_none f).mp hf) h
  | some t => simp [floatLiteral, hf]

/-- The value of an entry. -/
def objVal (k : Key) : Obj → Val
  | .nil => nilLiteral
  | .str s => stringLiteral k s
  | .int i => intLiteral k i
  | .float f => .mk' k [leaf k ((floatText f).getD [])]
  | .bool b => boolLiteral k b
  | .literals xs => listLiteral k xs
  | .expr v => v
  | .unsupported => .bad (.other 0)

theorem mapValue_ok {k : Key} {o : Obj} (h : Supported o) : mapValue k o = .ok (objVal k o) ∧ (objVal k o).err = none ∧
    (objVal k o).visit = (objTm k o).trees ∧ (objTm k o).Ok ∧ (∀ k' ∈ (objTm k o).keys, k' = k ∨ k' = 33) ∧
    ∀ e, layout e (objTm k o).parts = layout e (objParts o) := by
  cases o with
  | nil => simp [mapValue, literalOf, objVal, nilLiteral, Val.mk', objTm, Tm.trees, Tm.treesL, leaf, Tm.Ok, Tm.OkL, Tm.keys, Tm.keysL, Tm.parts, Tm.partsL, objParts, layout, nullText]
  | str s => simp [mapValue, literalOf, objVal, stringLiteral, Val.mk', objTm, Tm.trees, Tm.treesL, leaf, Tm.Ok, Tm.OkL, Tm.keys, Tm.keysL, Tm.parts, Tm.partsL, objParts, layout]
  | int s => simp [mapValue, literalOf, objVal, intLiteral, Val.mk', objTm, Tm.trees, Tm.treesL, leaf, Tm.Ok, Tm.OkL, Tm.keys, Tm.keysL, Tm.parts, Tm.partsL, objParts, layout]
  | float f =>
    refine ⟨floatLiteral_ok h, ?_⟩
    simp [objVal, Val.mk', objTm, Tm.trees, Tm.treesL, leaf, Tm.Ok, Tm.OkL, Tm.keys, Tm.keysL, Tm.parts, Tm.partsL, objParts, layout]
  | bool s => simp [mapValue, literalOf, objVal, boolLiteral, Val.mk', objTm, Tm.trees, Tm.treesL, leaf, Tm.Ok, Tm.OkL, Tm.keys, Tm.keysL, Tm.parts, Tm.partsL, objParts, layout, boolText]
  | literals xs =>
    have he : errsOf xs = none := (errsOf_none_iff xs).mpr h
    refine ⟨rfl, by simp [objVal, listLiteral, he], by simp [objVal, listLiteral, he, objTm, listLiteral_trees],
      by simp [objTm, listLiteralTm, Tm.Ok, rawTms_ok], by simp [objTm, listLiteralTm, Tm.keys, rawTms_keys], ?_⟩
    intro e
    exact listLiteral_parts k xs e
  | expr v => simp [mapValue, objVal, objTm, Tm.trees, Tm.Ok, Tm.keys, Tm.parts, objParts]; exact h
  | unsupported => exact absurd h id

theorem mapValue_bad {k : Key} {o : Obj} (h : ¬ Supported o) : mapValue k o = .panic ∨ ∃ v er, mapValue k o = .ok v ∧ v.err = some er := by
  cases o with
  | literals xs =>
    right
    have : errsOf xs ≠ none := fun he => h ((errsOf_none_iff xs).mp he)
    obtain ⟨er, her⟩ := Option.ne_none_iff_exists'.mp this
    exact ⟨_, er, rfl, by simp [listLiteral, her, Val.bad]⟩
  | expr v =>
    right
    obtain ⟨er, her⟩ := Option.ne_none_iff_exists'.mp h
    exact ⟨v, er, rfl, her⟩
  | unsupported => exact Or.inl rfl
  | float f =>
    have : f = .nan := Decidable.not_not.mp h
    subst this
    exact Or.inl rfl
  | _ => exact absurd trivial h

section
variable (u : Unicode)

/-- The entries of a map literal. -/
def entryVals (ks : Nat → Key) (i : Nat) : List Entry → List Val
  | [] => []
  | x :: es => entryExpression u (ks (2 * i)) x.key (objVal (ks (2 * i + 1)) x.value) :: entryVals ks (i + 1) es

theorem mapEntries_ok (ks : Nat → Key) (known : List Str) (i : Nat) (es : List Entry) (hv : ∀ x ∈ es, Supported x.value)
    (hn : (es.map (·.key)).Nodup) (hk : ∀ x ∈ es, x.key ∉ known) :
    mapEntries u ks known i (entryArgs es) = .ok (.ok (entryVals u ks i es)) := by
  induction es generalizing known i with
  | nil => simp [entryArgs, mapEntries, entryVals]
  | cons x es ih =>
    have h1 := (mapValue_ok (k := ks (2 * i + 1)) (hv x (by simp))).1
    simp only [List.map_cons, List.nodup_cons] at hn
    have h2 := ih (x.key :: known) (i + 1) (fun y hy => hv y (by simp [hy])) hn.2 (by
      intro y hy
      simp only [List.mem_cons, not_or]
      refine ⟨fun he => hn.1 ?_, hk y (by simp [hy])⟩
      rw [← he]
      exact List.mem_map.mpr ⟨y, hy, rfl⟩)
    simp only [entryArgs, List.flatMap_cons, List.cons_append, List.nil_append] at h2 ⊢
    rw [mapEntries, h1]
    simp only [Outcome.bind, if_neg (hk x (by simp)), h2, Outcome.map, Except.map, entryVals]

theorem mapEntries_conv (ks : Nat → Key) (known : List Str) (i : Nat) (objects : List Obj) (hlen : objects.length % 2 = 0) (vs : List Val)
    (h : mapEntries u ks known i objects = .ok (.ok vs)) (hv : ∀ v ∈ vs, v.err = none) :
    ∃ es, objects = entryArgs es ∧ (es.map (·.key)).Nodup ∧ (∀ x ∈ es, x.key ∉ known) ∧ ∀ x ∈ es, Supported x.value := by
  match objects with
  | [] => exact ⟨[], by simp [entryArgs]⟩
  | [_] => simp at hlen
  | .str key :: value :: rest =>
    rw [mapEntries] at h
    have hs : Supported value := by
      refine Classical.byContradiction fun hs => ?_
      rcases mapValue_bad (k := ks (2 * i + 1)) hs with hp | ⟨v, er, hp, her⟩
      · rw [hp] at h; simp [Outcome.bind] at h
      · rw [hp] at h
        simp only [Outcome.bind] at h
        split at h
        · simp at h
        · cases hr : mapEntries u ks (key :: known) (i + 1) rest with
          | panic => rw [hr] at h; simp [Outcome.map] at h
          | ok r =>
            rw [hr] at h
            cases r with
            | error e => simp [Outcome.map, Except.map] at h
            | ok ws =>
              simp only [Outcome.map, Except.map, Outcome.ok.injEq, Except.ok.injEq] at h
              subst h
              have := hv _ (List.mem_cons_self ..)
              simp [entryExpression, her, Val.bad] at this
    rw [(mapValue_ok hs).1] at h
    simp only [Outcome.bind] at h
    split at h
    · simp at h
    · rename_i hkn
      cases hr : mapEntries u ks (key :: known) (i + 1) rest with
      | panic => rw [hr] at h; simp [Outcome.map] at h
      | ok r =>
        rw [hr] at h
        cases r with
        | error e => simp [Outcome.map, Except.map] at h
        | ok ws =>
          simp only [Outcome.map, Except.map, Outcome.ok.injEq, Except.ok.injEq] at h
          subst h
          obtain ⟨es, h1, h2, h3, h4⟩ := mapEntries_conv ks (key :: known) (i + 1) rest (by simp at hlen; omega) ws hr
            (fun v hv' => hv v (by simp [hv']))
          refine ⟨⟨key, value⟩ :: es, ?_, ?_, ?_, ?_⟩
          · simp [entryArgs, h1]
          · simp only [List.map_cons, List.nodup_cons, List.mem_map, not_exists, not_and]
            exact ⟨fun x hx he => h3 x hx (by simp [he]), h2⟩
          · intro x hx
            rcases List.mem_cons.mp hx with rfl | hx
            · exact hkn
            · exact fun hm => h3 x hx (by simp [hm])
          · intro x hx
            rcases List.mem_cons.mp hx with rfl | hx
            · exact hs
            · exact h4 x hx
  | .nil :: _ :: _ => simp [mapEntries] at h
  | .int _ :: _ :: _ => simp [mapEntries] at h
  | .bool _ :: _ :: _ => simp [mapEntries] at h
  | .literals _ :: _ :: _ => simp [mapEntries] at h
  | .expr _ :: _ :: _ => simp [mapEntries] at h
  | .unsupported :: _ :: _ => simp [mapEntries] at h

def entryTms (ks : Nat → Key) (i : Nat) : List Entry → List Tm
  | [] => []
  | x :: es => .node (ks (2 * i)) (escapeIfNecessary u x.key ++ c!": ") [] false [objTm (ks (2 * i + 1)) x.value] :: entryTms ks (i + 1) es

theorem entryTms_facts (ks : Nat → Key) (i : Nat) (es : List Entry) (hv : ∀ x ∈ es, Supported x.value) :
    visitsOf (entryVals u ks i es) = Tm.treesL (entryTms u ks i es) ∧ Tm.OkL true (entryTms u ks i es) ∧
    (∀ k ∈ Tm.keysL (entryTms u ks i es), k = 33 ∨ ∃ j, k = ks j) ∧ (∀ v ∈ entryVals u ks i es, v.err = none) := by
  induction es generalizing i with
  | nil => simp [entryVals, entryTms, visitsOf, Tm.treesL, Tm.OkL, Tm.keysL]
  | cons x es ih =>
    obtain ⟨h1, h2, h3, h4⟩ := ih (i + 1) fun y hy => hv y (by simp [hy])
    obtain ⟨-, g1, g2, g3, g4, -⟩ := mapValue_ok (k := ks (2 * i + 1)) (hv x (by simp))
    refine ⟨?_, ?_, ?_, ?_⟩
    · simp only [visitsOf] at h1
      simp [entryVals, entryTms, visitsOf, Tm.treesL, Tm.trees, h1, entryExpression, g1, g2, Val.mk']
    · simp [entryTms, Tm.OkL, Tm.Ok, h2, g3, Tm.trees, Spec.One, nd]
    · intro k hk
      simp only [entryTms, Tm.keysL, Tm.keys, List.append_nil, List.mem_append, List.mem_cons] at hk
      rcases hk with (h | h) | h
      · exact Or.inr ⟨_, h⟩
      · rcases g4 k h with h | h
        · exact Or.inr ⟨_, h⟩
        · exact Or.inl h
      · exact h3 k h
    · intro v hv'
      simp only [entryVals, List.mem_cons] at hv'
      rcases hv' with rfl | h
      · simp [entryExpression, g1, Val.mk']
      · exact h4 v h

/-- Pieces with the same texts. -/
inductive SameParts : List (List Part) → List (List Part) → Prop
  | nil : SameParts [] []
  | cons {p q ps qs} (h : ∀ e, layout e p = layout e q) (t : SameParts ps qs) : SameParts (p :: ps) (q :: qs)

/-- Lists of pieces with the same text give the same text. -/
theorem sepParts_congr (sep : Str) {ps qs : List (List Part)} (h : SameParts ps qs) (e : Env) :
    layout e (sepParts sep ps) = layout e (sepParts sep qs) := by
  induction h generalizing e with
  | nil => rfl
  | @cons p q ps qs hpq h ih =>
    cases h with
    | nil => simpa [sepParts] using hpq e
    | @cons p' q' ps qs hpq' h =>
      simp only [sepParts] at ih ⊢
      rw [layout_append, layout_append, hpq]
      simp only [layout, ih]

theorem entryTms_parts (ks : Nat → Key) (i : Nat) (es : List Entry) (hv : ∀ x ∈ es, Supported x.value) :
    SameParts ((entryTms u ks i es).map Tm.parts)
      (es.map fun x => [.lit (escapeIfNecessary u x.key), .lit c!": "] ++ objParts x.value) := by
  induction es generalizing i with
  | nil => simpa [entryTms] using SameParts.nil
  | cons x es ih =>
    simp only [entryTms, List.map_cons]
    refine .cons ?_ (ih (i + 1) fun y hy => hv y (by simp [hy]))
    intro e
    have := (mapValue_ok (k := ks (2 * i + 1)) (hv x (by simp))).2.2.2.2.2
    simp [Tm.parts, Tm.partsL, layout, layout_append, this, sepText]

end

end Verif
