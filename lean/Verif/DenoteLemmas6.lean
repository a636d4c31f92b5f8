import Verif.DenoteLemmas5
import Verif.ProjLemmas

/-
Expressions built with the DSL are read back as what they mean: nodes, relationships and paths that have a name, map projections.
-/

namespace Verif.Rd
open Spec

variable {u : Unicode} {I : Meaning} {tight : Bool}

theorem nodeProperty_good {n : NodeV} (k kl : Key) {kn : Key} {s p : Str} (he : n.err = none) (hn : n.name = some (kn, s)) (hs : VarName u s)
    (hp : Named u p) (hp' : p ≠ c!"*") : Good' u I tight (n.property u k kl p) (I.prop (I.name s) p) .atom := by
  have hv : n.property u k kl p = propertyCreate1 u k kl (symbolicName u kn s) p := by
    simp [NodeV.property, he, NodeV.requiredName, hn, symbolicName, name_ne hs.1, Val.mk', name_ne hp]
  rw [hv]
  exact property1_good k kl (var_good kn hs) hp hp'

/-! ### Labels -/

theorem labelsOf_quoted (ls : List Str) {r : List Token} (hr : r.head? ≠ some (.sym ':')) :
    labelsOf ((ls.flatMap fun l => [.sym ':', .quoted l]) ++ r) = (ls, r) := by
  induction ls with
  | nil =>
    simp only [List.flatMap_nil, List.nil_append]
    unfold labelsOf
    split <;> simp_all
  | cons l ls ih =>
    simp only [List.flatMap_cons, List.append_assoc, List.cons_append, List.nil_append, labelsOf, ih]

theorem RP.labels {d : I.D} {l : Str} {ls : List Str} {r : List Token} (hr : r.head? ≠ some (.sym ':')) :
    RP I tight d (((l :: ls).flatMap fun l => [.sym ':', .quoted l]) ++ r) (I.labels d (l :: ls)) r := by
  refine ⟨1, fun n hn => ?_⟩
  obtain ⟨m, rfl⟩ : ∃ m, n = m + 1 := ⟨n - 1, by omega⟩
  have := labelsOf_quoted (l :: ls) hr
  rw [readPostfix.eq_def]
  simp only [List.flatMap_cons, List.append_assoc, List.cons_append, List.nil_append] at this ⊢
  simp only [this]

theorem labels_lexes (ls : List Str) {r : Str} {rs : List Token} (hr : Follow u r) (ht : Tokens u r rs) :
    Tokens u ((ls.flatMap fun t => ':' :: escapeName t) ++ r) ((ls.flatMap fun l => [.sym ':', .quoted l]) ++ rs) := by
  induction ls with
  | nil => exact ht
  | cons l ls ih =>
    simp only [List.flatMap_cons, List.append_assoc, List.cons_append, List.nil_append]
    refine Tokens.sym (by simp [symbols]) (by simp) (Tokens.quoted ?_ ih)
    cases ls with
    | nil => exact hr.quote
    | cons l ls => simp

theorem IsName.optVar {t : Token} {x : Str} (h : IsName t x) (hx : VarName u x) (r : List Token) : Spec.optVar (t :: r) = (some x, r) := by
  have h1 := hx.2.1
  have h2 := hx.2.2
  rcases h with rfl | rfl <;> simp [Spec.optVar, varOf, h1, h2]

theorem hasLabels_good {n : NodeV} (k : Key) (ks : Nat → Key) {kn : Key} {s : Str} {labels : List Str} (hn : n.name = some (kn, s)) (hs : VarName u s)
    (hl : labels ≠ []) (hne : [] ∉ labels) : Good' u I tight (n.hasLabels u k ks labels) (I.labels (I.name s) labels) .label := by
  have hv : n.hasLabels u k ks labels = .mk' k [nd k [] [] false (nameVisit u (some (kn, s)) ++ (labels.zipIdx.map fun l => labelVisit (ks l.2, l.1)))] true := by
    simp [NodeV.hasLabels, hn, hl]
  have hdk : dkeysL (n.hasLabels u k ks labels).visit = [] := by
    rw [hv]
    simp only [Val.mk', dkeysL_nd, dkeysL_append, nameVisit, dkeysL, dkeys_leaf, List.nil_append]
    have : ∀ xs : List (Str × Nat), dkeysL (xs.map fun l => labelVisit (ks l.2, l.1)) = [] := by
      intro xs
      induction xs with
      | nil => rfl
      | cons x xs ih => rw [List.map_cons, dkeysL, ih]; simp [labelVisit, dkeys_leaf]
    exact this _
  obtain ⟨t, ht, hlx, _⟩ := Lexes.name hs.1
  refine ⟨by rw [hv]; rfl, by rw [hv]; rfl, by rw [hv]; exact ⟨_, _, rfl⟩, hdk, fun _ => by rw [hv]; rfl,
    escapeIfNecessary u s ++ ((labels.flatMap fun t => ':' :: escapeName t) ++ []), t :: (labels.flatMap fun l => [.sym ':', .quoted l]), ?_, ?_, ?_, ht.head hs.2.1 _ _, ?_⟩
  · exact Text.of hdk (fun e he => hasLabels_text n k kn ks s labels hn hl hne he) (Shows.lit _ (Shows.lit _ Shows.nil))
  · intro r rs hf htr
    simp only [List.append_assoc, List.nil_append, List.cons_append]
    have := labels_lexes labels hf htr
    cases labels with
    | nil => exact absurd rfl hl
    | cons l ls =>
      exact hlx _ _ (Follow.mark (by decide) _) this
  · have h10 : Prefix I tight 10 (t :: (labels.flatMap fun l => [.sym ':', .quoted l])) (I.labels (I.name s) labels) := by
      intro r d' r' hr hc
      rw [Cont.loop ⟨by omega, by omega, by omega⟩] at hc
      refine RE.loop ⟨by omega, by omega, by omega⟩ ?_ hc
      cases labels with
      | nil => exact absurd rfl hl
      | cons l ls =>
        refine RE.atom (d := I.name s) (r := (((l :: ls).flatMap fun l => [.sym ':', .quoted l]) ++ r)) ?_ (RP.labels (hr.2.1 (by omega)).2.2.2)
        rcases ht with rfl | rfl
        · exact RA.name hs.2.1 hs.2.2 (by simp) (by simp)
        · exact RA.quotedName (by simp)
    exact h10.below (by omega) (by simp [level]) (ht.head hs.2.1 _ _)
  · refine ⟨fun h => (by simp [CallKind.first] at h), fun h => (by simp [CallKind.first] at h), fun t' r h1 h2 h3 _ => ⟨0, fun n _ => ?_⟩,
      fun _ h => (by simp [CallKind.operand] at h), fun _ r => .inr ⟨0, fun n _ => ⟨⟨some s, labels, none⟩, ?_⟩⟩⟩
    · have hq := labelsOf_quoted labels (r := t' :: r) (by simpa using h2)
      simp only [nodeBy, List.cons_append, ht.optVar hs, hq, propsBy, List.head?_cons, Option.some.injEq, h3, if_false, Option.bind_some]
      split
      · rename_i heq; simp at heq; exact absurd heq.1 h1
      · rfl
    · have hq := labelsOf_quoted labels (r := .sym ')' :: r) (by simp)
      simp [nodeBy, ht.optVar hs, hq, propsBy]

/-! ### Functions -/

theorem nameArg_eq {kn : Key} {s : Str} (hs : VarName u s) : nameArg u (some (kn, s)) = symbolicName u kn s := by
  simp [nameArg]

theorem nameCall_good {k ka kn : Key} {f : FnDef} {s : Str} {v : Val} (hs : VarName u s) (hf : FnName f.name)
    (hv : functionInvocation k ka f [some (nameArg u (some (kn, s)))] = .ok v) : Good' u I tight v (I.call f.name false [I.name s]) .atom := by
  rw [nameArg_eq hs] at hv
  have h := var_good (I := I) (tight := tight) kn hs
  simp [functionInvocation, scanArgs, h.err, Outcome.map, Except.map, h.nn] at hv
  subst hv
  exact invoke_good k ka hf (xs := [⟨_, I.name s, .atom⟩]) (by simp) (fun y hy => by rw [List.mem_singleton.mp hy]; exact h)

theorem nameCallDistinct_good {k ka kn : Key} {f : FnDef} {s : Str} {v : Val} (hs : VarName u s) (hf : FnName f.name) (ha : f.aggregate = true)
    (hv : functionInvocationDistinct k ka f [some (nameArg u (some (kn, s)))] = .ok v) : Good' u I tight v (I.call f.name true [I.name s]) .atom := by
  rw [nameArg_eq hs] at hv
  have h := var_good (I := I) (tight := tight) kn hs
  simp [functionInvocationDistinct, scanArgs, h.err, Outcome.map, Except.map, h.nn, ha, visitsOf] at hv
  subst hv
  exact invoke_distinct_good k ka hf h

theorem collectNode_good {distinct : Bool} {k ka kn : Key} {n : NodeV} {s : Str} {v : Val} (he : n.err = none) (hn : n.notNil = true) (h : n.name = some (kn, s))
    (hs : VarName u s) (hv : collectNode u distinct k ka n = .ok v) : Good' u I tight v (I.call c!"collect" distinct [I.name s]) .atom := by
  have hr : n.requiredName u = nameArg u (some (kn, s)) := by simp [NodeV.requiredName, h, nameArg]
  simp only [collectNode, he, hn, hr, Bool.not_true, Bool.false_eq_true, if_false] at hv
  cases distinct with
  | true => exact nameCallDistinct_good (f := fnCollect) hs (by decide) rfl hv
  | false => exact nameCall_good (f := fnCollect) hs (by decide) hv

theorem nodeCall_good {f : FnNode} {k ka kn : Key} {n : NodeV} {s : Str} {v : Val} (he : n.err = none) (hn : n.notNil = true) (h : n.name = some (kn, s))
    (hs : VarName u s) (hv : fnNode u f k ka n = .ok v) : Good' u I tight v (I.call (fnNodeName f).1 (fnNodeName f).2 [I.name s]) .atom := by
  cases f with
  | countDistinct =>
    simp only [fnNode, h] at hv
    exact nameCallDistinct_good (f := fnCount) hs (by decide) rfl hv
  | count =>
    simp only [fnNode, h] at hv
    exact nameCall_good (f := fnCount) hs (by decide) hv
  | id =>
    simp only [fnNode, h, he, hn, Bool.not_true, Bool.false_eq_true, if_false] at hv
    exact nameCall_good (f := fnId) hs (by decide) hv
  | labels =>
    simp only [fnNode, h, he, hn, Bool.not_true, Bool.false_eq_true, if_false] at hv
    exact nameCall_good (f := fnLabels) hs (by decide) hv
  | properties =>
    simp only [fnNode, h, he, hn, Bool.not_true, Bool.false_eq_true, if_false] at hv
    exact nameCall_good (f := fnProperties) hs (by decide) hv

theorem relCall_good {f : FnRel} {k ka kn : Key} {r : RelV} {s : Str} {v : Val} (he : r.err = none) (hn : r.notNil = true) (h : r.details.name = some (kn, s))
    (hs : VarName u s) (hv : fnRel u f k ka r = .ok v) : Good' u I tight v (I.call (fnRelName f) false [I.name s]) .atom := by
  simp only [fnRel, h, he, hn, Bool.not_true, Bool.false_eq_true, if_false, reduceCtorEq, and_false] at hv
  have : f.fn.name = fnRelName f := by cases f <;> rfl
  rw [← this]
  exact nameCall_good hs (by cases f <;> decide) hv

theorem pathCall_good {nodes : Bool} {k ka kn : Key} {p : Val} {s : Str} {v : Val} (hp : Good p) (hs : VarName u s)
    (hv : fnPath u nodes k ka (some (kn, s)) p = .ok v) :
    Good' u I tight v (I.call (if nodes then c!"nodes" else c!"relationships") false [I.name s]) .atom := by
  simp only [fnPath, hp.1, hp.2, Bool.not_true, Bool.false_eq_true, if_false, reduceCtorEq] at hv
  cases nodes
  · exact nameCall_good (f := ⟨c!"relationships", false⟩) hs (by decide) hv
  · exact nameCall_good (f := ⟨c!"nodes", false⟩) hs (by decide) hv

/-! ### Map projections -/

def RItem (I : Meaning) (tight : Bool) (ts : List Token) (x : ProjItem I.D) (r : List Token) : Prop :=
  ∃ N, ∀ n ≥ N, readItem I tight n ts = some (x, r)
def RItems (I : Meaning) (tight : Bool) (ts : List Token) (xs : List (ProjItem I.D)) (r : List Token) : Prop :=
  ∃ N, ∀ n ≥ N, readItems I tight n ts = some (xs, r)
def RItems1 (I : Meaning) (tight : Bool) (ts : List Token) (xs : List (ProjItem I.D)) (r : List Token) : Prop :=
  ∃ N, ∀ n ≥ N, readItems1 I tight n ts = some (xs, r)

theorem RItem.all (r : List Token) : RItem I tight (.sym '.' :: .sym '*' :: r) .all r := by
  refine ⟨1, fun n hn => ?_⟩
  obtain ⟨m, rfl⟩ : ∃ m, n = m + 1 := ⟨n - 1, by omega⟩
  rw [readItem.eq_def]
  rfl

theorem RItem.prop {t : Token} {s : Str} (ht : IsName t s) (r : List Token) : RItem I tight (.sym '.' :: t :: r) (.prop s) r := by
  refine ⟨1, fun n hn => ?_⟩
  obtain ⟨m, rfl⟩ : ∃ m, n = m + 1 := ⟨n - 1, by omega⟩
  rw [readItem.eq_def]
  rcases ht with rfl | rfl <;> rfl

theorem RItem.entry {t : Token} {s : Str} (ht : IsName t s) {ts r : List Token} {d : I.D} (h : RE I tight 0 ts d r) :
    RItem I tight (t :: .sym ':' :: ts) (.entry s d) r := by
  obtain ⟨N, h⟩ := h
  refine ⟨N + 1, fun n hn => ?_⟩
  obtain ⟨m, rfl⟩ : ∃ m, n = m + 1 := ⟨n - 1, by omega⟩
  rw [readItem.eq_def]
  rcases ht with rfl | rfl <;> simp [h m (by omega)]

theorem RItem.var {t : Token} {s : Str} (ht : IsName t s) (hs : VarName u s) {r : List Token} (hr : r.head? ≠ some (.sym ':')) :
    RItem I tight (t :: r) (.var s) r := by
  refine ⟨1, fun n hn => ?_⟩
  obtain ⟨m, rfl⟩ : ∃ m, n = m + 1 := ⟨n - 1, by omega⟩
  rw [readItem.eq_def]
  have h1 := hs.2.1
  have h2 := hs.2.2
  rcases ht with rfl | rfl
  · simp only
    split <;> simp_all
  · simp only
    split <;> simp_all

theorem RItems1.last {ts r : List Token} {x : ProjItem I.D} (h : RItem I tight ts x (.sym '}' :: r)) : RItems1 I tight ts [x] r := by
  obtain ⟨N, h⟩ := h
  refine ⟨N + 1, fun n hn => ?_⟩
  obtain ⟨m, rfl⟩ : ∃ m, n = m + 1 := ⟨n - 1, by omega⟩
  rw [readItems1.eq_def]
  simp [h m (by omega)]

theorem RItems1.more {ts r r' : List Token} {x : ProjItem I.D} {xs : List (ProjItem I.D)} (h : RItem I tight ts x (.sym ',' :: r)) (h' : RItems1 I tight r xs r') :
    RItems1 I tight ts (x :: xs) r' := by
  obtain ⟨N, h⟩ := h
  obtain ⟨N', h'⟩ := h'
  refine ⟨N + N' + 1, fun n hn => ?_⟩
  obtain ⟨m, rfl⟩ : ∃ m, n = m + 1 := ⟨n - 1, by omega⟩
  rw [readItems1.eq_def]
  simp [h m (by omega), h' m (by omega)]

theorem RItems.nil (r : List Token) : RItems I tight (.sym '}' :: r) [] r := by
  refine ⟨1, fun n hn => ?_⟩
  obtain ⟨m, rfl⟩ : ∃ m, n = m + 1 := ⟨n - 1, by omega⟩
  rw [readItems.eq_def]
  simp

theorem RItems.some {ts r : List Token} {xs : List (ProjItem I.D)} (ht : ts.head? ≠ some (.sym '}')) (h : RItems1 I tight ts xs r) : RItems I tight ts xs r := by
  obtain ⟨N, h⟩ := h
  refine ⟨N + 1, fun n hn => ?_⟩
  obtain ⟨m, rfl⟩ : ∃ m, n = m + 1 := ⟨n - 1, by omega⟩
  rw [readItems.eq_def]
  simp [ht, h m (by omega)]

theorem RA.projection {t : Token} {w : Str} {ts r : List Token} {xs : List (ProjItem I.D)} (ht : IsName t w) (hw : lower w ∉ reserved) (hk : lower w ∉ keywords)
    (h : RItems I tight ts xs r) : RA I tight (t :: .sym '{' :: ts) (I.projection w xs) r := by
  obtain ⟨N, h⟩ := h
  refine ⟨N + 1, fun n hn => ?_⟩
  obtain ⟨m, rfl⟩ : ∃ m, n = m + 1 := ⟨n - 1, by omega⟩
  have hm := h m (by omega)
  rcases ht with rfl | rfl
  · have he : lower w ≠ c!"exists" := by rintro h; rw [h] at hk; exact hk (by decide)
    simp only [reserved, List.mem_cons, not_or] at hw
    rw [readAtom.eq_def]
    simp only [reserved, List.mem_cons, hw, if_false]
    simp_all
  · rw [readAtom.eq_def]
    simp [hm]

/-- These tokens are no entries of a map. -/
def NoEntries (I : Meaning) (tight : Bool) (ts : List Token) : Prop := ∃ N, ∀ n ≥ N, readEntries I tight n ts = none

theorem NoEntries.sym (c : Char) (r : List Token) : NoEntries I tight (.sym c :: r) := by
  refine ⟨0, fun n _ => ?_⟩
  cases n <;> rw [readEntries.eq_def]

theorem NoEntries.name {t : Token} {r : List Token} (hr : r.head? ≠ some (.sym ':')) : NoEntries I tight (t :: r) := by
  refine ⟨0, fun n _ => ?_⟩
  cases n <;> rw [readEntries.eq_def]
  simp only
  split
  · rfl
  · rename_i heq
    split at heq <;> simp_all

theorem NoEntries.more {t : Token} {k : Str} {ts r : List Token} {d : I.D} (ht : IsName t k) (h : RE I tight 0 ts d (.sym ',' :: r))
    (h' : NoEntries I tight r) : NoEntries I tight (t :: .sym ':' :: ts) := by
  obtain ⟨N, h⟩ := h
  obtain ⟨N', h'⟩ := h'
  refine ⟨N + N' + 1, fun n hn => ?_⟩
  obtain ⟨m, rfl⟩ : ∃ m, n = m + 1 := ⟨n - 1, by omega⟩
  rw [readEntries.eq_def]
  rcases ht with rfl | rfl <;> simp [h m (by omega), h' m (by omega)]

/-- An item is an entry of a map or no such thing. -/
def MaybeEntry (I : Meaning) (tight : Bool) (ts : List Token) : Prop :=
  (∃ t k us d, ts = t :: .sym ':' :: us ∧ IsName t k ∧ ∀ r, r.head? = some (.sym ',') ∨ r.head? = some (.sym '}') → RE I tight 0 (us ++ r) d r) ∨
    ∀ r, r.head? = some (.sym ',') ∨ r.head? = some (.sym '}') → NoEntries I tight (ts ++ r)

/-- Items are a map or no such thing. -/
theorem NotNode.projection {x : Token} {w : Str} {ts r : List Token} {t : Token} (hx : IsName x w) (hw : VarName u w) (ht : t ≠ .sym ')')
    (h : (∃ ds, RA I tight (.sym '{' :: ts) ds (t :: r)) ∨ (NoEntries I tight ts ∧ ts.head? ≠ some (.sym '}'))) : NotNode I tight (x :: .sym '{' :: ts) := by
  rcases h with ⟨ds, N, h⟩ | ⟨⟨N, h⟩, h'⟩
  · refine ⟨N, fun n hn => ?_⟩
    simp only [nodeBy, hx.optVar hw, labelsOf_head (ts := .sym '{' :: ts) (by simp), propsBy, List.head?_cons, if_true, h n hn]
    simp
    split <;> simp_all
  · refine ⟨N + 1, fun n hn => ?_⟩
    obtain ⟨m, rfl⟩ : ∃ m, n = m + 1 := ⟨n - 1, by omega⟩
    have : readAtom I tight (m + 1) (.sym '{' :: ts) = none := by
      have := h m (by omega)
      rw [readAtom.eq_def]
      simp only
      split <;> simp_all
    simp only [nodeBy, hx.optVar hw, labelsOf_head (ts := .sym '{' :: ts) (by simp), propsBy, List.head?_cons, if_true, this]
    simp

/-- What is known of an item. -/
theorem item_reads (x : MeantItem I) (hn : x.item.NameOk u) (hv : ∀ v, x.item.value = some v → Good' u I tight v x.d x.σ) :
    ∃ s ts, Shows (x.item.parts u) s ∧ Lexes u s ts ∧ (∀ r, r.head? = some (.sym ',') ∨ r.head? = some (.sym '}') → RItem I tight (ts ++ r) x.meaning r) ∧
      (∃ t r, ts = t :: r ∧ t ≠ .sym '}') ∧ MaybeEntry I tight ts := by
  have hprop : ∀ n : Str, n = c!"*" ∨ Named u n → ∃ s ts, Shows [.lit c!".", .lit (if n = c!"*" then n else escapeIfNecessary u n)] s ∧ Lexes u s ts ∧
      (∀ r, r.head? = some (.sym ',') ∨ r.head? = some (.sym '}') → RItem I tight (ts ++ r) (if n = c!"*" then .all else .prop n) r) ∧
      (∃ t r, ts = t :: r ∧ t ≠ .sym '}') ∧ MaybeEntry I tight ts := by
    intro n hn
    by_cases h : n = c!"*"
    · subst h
      refine ⟨c!"." ++ (c!"*" ++ []), [.sym '.', .sym '*'], ?_, ?_, fun r _ => ?_, ⟨_, _, rfl, by simp⟩, .inr fun r _ => NoEntries.sym _ _⟩
      · simpa using Shows.lit c!"." (Shows.lit c!"*" Shows.nil)
      · intro r rs hf ht
        exact Tokens.sym (by simp [symbols]) (by simp) (Tokens.sym (by simp [symbols]) (by simp) ht)
      · rw [if_pos rfl]; exact RItem.all r
    · have hn' := hn.resolve_left h
      obtain ⟨t, ht, hl, _⟩ := Lexes.name hn'
      refine ⟨c!"." ++ (escapeIfNecessary u n ++ []), [.sym '.', t], ?_, ?_, fun r _ => ?_, ⟨_, _, rfl, by simp⟩, .inr fun r _ => NoEntries.sym _ _⟩
      · simpa [h] using Shows.lit c!"." (Shows.lit (escapeIfNecessary u n) Shows.nil)
      · intro r rs hf htr
        simp only [List.append_assoc, List.nil_append, List.cons_append]
        exact Tokens.sym (by simp [symbols]) (by simp) (hl _ _ hf htr)
      · rw [if_neg h]; exact RItem.prop ht r
  have hvar : ∀ n : Str, VarName u n → ∃ s ts, Shows [.lit (escapeIfNecessary u n)] s ∧ Lexes u s ts ∧
      (∀ r, r.head? = some (.sym ',') ∨ r.head? = some (.sym '}') → RItem I tight (ts ++ r) (.var n) r) ∧ (∃ t r, ts = t :: r ∧ t ≠ .sym '}') ∧ MaybeEntry I tight ts := by
    intro n hn
    obtain ⟨t, ht, hl, _⟩ := Lexes.name hn.1
    refine ⟨escapeIfNecessary u n ++ [], [t], Shows.lit _ Shows.nil, by simpa using hl, fun r hr => RItem.var ht hn ?_, ⟨_, _, rfl, ?_⟩, .inr fun r hr => NoEntries.name ?_⟩
    · rcases hr with h | h <;> simp [h]
    · rcases ht with rfl | rfl <;> simp
    · rcases hr with h | h <;> simp [h]
  have hentry : ∀ (n : Str) (v : Val), Named u n → Good' u I tight v x.d x.σ → ∃ s ts, Shows [.lit (escapeIfNecessary u n), .lit c!": ", .hole v.visit] s ∧
      Lexes u s ts ∧ (∀ r, r.head? = some (.sym ',') ∨ r.head? = some (.sym '}') → RItem I tight (ts ++ r) (.entry n x.d) r) ∧
      (∃ t r, ts = t :: r ∧ t ≠ .sym '}') ∧ MaybeEntry I tight ts := by
    intro n v hn hv
    obtain ⟨t, ht, hl, _⟩ := Lexes.name hn
    obtain ⟨s, ts, h1, h2, h3, h4, _⟩ := hv.below
    have hre : ∀ r, r.head? = some (.sym ',') ∨ r.head? = some (.sym '}') → RE I tight 0 (ts ++ r) x.d r := by
      intro r hr
      cases r with
      | nil => simp at hr
      | cons t' r =>
        simp only [List.head?_cons, Option.some.injEq] at hr
        exact h3.reads (by omega) (by rcases hr with rfl | rfl <;> exact Stops.close (by simp) _ _)
    refine ⟨escapeIfNecessary u n ++ (c!": " ++ (s ++ [])), t :: .sym ':' :: ts, Shows.lit _ (Shows.lit _ (Shows.hole h1 Shows.nil)), ?_, fun r hr => RItem.entry ht (hre r hr), ⟨_, _, rfl, ?_⟩,
      .inl ⟨_, _, _, _, rfl, ht, hre⟩⟩
    · intro r rs hf htr
      simp only [List.append_assoc, List.nil_append, List.cons_append]
      exact hl _ _ (Follow.mark (by decide) _) (Tokens.sym (by simp [symbols]) (by simp) (Tokens.sp (h2 _ _ hf htr)))
    · rcases ht with rfl | rfl <;> simp
  obtain ⟨item, d, σ⟩ := x
  cases item with
  | prop s => exact hprop s hn
  | all => exact hprop c!"*" (.inl rfl)
  | var k n => exact hvar n hn
  | property k kl c n => exact hprop n hn
  | aliased k v a => exact hentry a v hn (hv v rfl)
  | pair key v => exact hentry key v hn (hv v rfl)
  | named k n => exact hvar n hn

theorem items_reads (x : MeantItem I) (xs : List (MeantItem I)) (hn : ∀ y ∈ x :: xs, y.item.NameOk u)
    (hv : ∀ y ∈ x :: xs, ∀ v, y.item.value = some v → Good' u I tight v y.d y.σ) :
    ∃ s ts, Shows (sepParts c!", " ((x :: xs).map fun x => x.item.parts u)) s ∧
      (∀ r rs, Tokens u r rs → Tokens u (s ++ '}' :: r) (ts ++ .sym '}' :: rs)) ∧
      (∀ r, RItems1 I tight (ts ++ .sym '}' :: r) ((x :: xs).map MeantItem.meaning) r) ∧ (∃ t r, ts = t :: r ∧ t ≠ .sym '}') ∧
      ((∃ ds, ∀ r, REntries I tight (ts ++ .sym '}' :: r) ds r) ∨ ∀ r, NoEntries I tight (ts ++ .sym '}' :: r)) := by
  induction xs generalizing x with
  | nil =>
    obtain ⟨s, ts, h1, h2, h3, h4, h5⟩ := item_reads x (hn x (by simp)) (hv x (by simp))
    refine ⟨s, ts, by simpa [sepParts] using h1, fun r rs hr => ?_, fun r => ?_, h4, ?_⟩
    · exact h2 _ _ (Follow.mark (by decide) _) (Tokens.sym (by simp [symbols]) (by simp) hr)
    · exact RItems1.last (h3 _ (.inr rfl))
    · rcases h5 with ⟨t, k, us, d, rfl, ht, h5⟩ | h5
      · exact .inl ⟨_, fun r => REntries.last ht (h5 _ (.inr rfl))⟩
      · exact .inr fun r => h5 _ (.inr rfl)
  | cons y ys ih =>
    obtain ⟨s, ts, h1, h2, h3, ⟨t, r', rfl, h4⟩, h5⟩ := item_reads x (hn x (by simp)) (hv x (by simp))
    obtain ⟨s', ts', g1, g2, g3, _, g5⟩ := ih y (fun z hz => hn z (List.mem_cons_of_mem _ hz)) (fun z hz => hv z (List.mem_cons_of_mem _ hz))
    refine ⟨s ++ (c!", " ++ s'), t :: r' ++ .sym ',' :: ts', Shows.append h1 (Shows.lit _ g1), fun r rs hr => ?_, fun r => ?_, ⟨t, _, rfl, h4⟩, ?_⟩
    · simp only [List.append_assoc, List.cons_append, List.nil_append]
      exact h2 _ _ (Follow.mark (by decide) _) (Tokens.sym (by simp [symbols]) (by simp) (Tokens.sp (g2 r rs hr)))
    · simp only [List.append_assoc, List.cons_append, List.nil_append]
      exact RItems1.more (h3 _ (.inl rfl)) (g3 r)
    · simp only [List.append_assoc, List.cons_append, List.nil_append]
      rcases h5 with ⟨t, k, us, d, he, ht, h5⟩ | h5
      · cases he
        rcases g5 with ⟨ds, g5⟩ | g5
        · exact .inl ⟨_, fun r => REntries.more ht (h5 _ (.inl rfl)) (g5 r)⟩
        · exact .inr fun r => NoEntries.more ht (h5 _ (.inl rfl)) (g5 r)
      · exact .inr fun r => h5 _ (.inl rfl)

theorem itemTm_dkeys {k kl : Key} {x : Item} (h : ∀ v, x.value = some v → dkeysL v.visit = []) : dkeysL (itemTm u k kl x).trees = [] := by
  cases x with
  | aliased k' d a => simp [itemTm, Tm.trees, Tm.treesL, dkeysL, dkeys_nd, h d rfl]
  | pair key v => simp [itemTm, Tm.trees, Tm.treesL, dkeysL, dkeys_nd, h v rfl]
  | _ => simp [itemTm, Tm.trees, Tm.treesL, dkeysL, dkeys_nd]

theorem projection_good {kn : Key} {n : Str} {g : Group} {gs : List Group} {xs : List (MeantItem I)} {p : Projection} (hn : VarName u n)
    (hg : ∀ g' ∈ g :: gs, g'.Ok) (hi : ((g :: gs).flatMap fun g' => g'.items) = xs.map (fun x => x.item)) (hx : ∀ x ∈ xs, x.item.NameOk u)
    (hv : ∀ x ∈ xs, ∀ v, x.item.value = some v → Good' u I tight v x.d x.σ) (hp : projectRun u (symbolicName u kn n) g gs = .ok p) :
    Good' u I tight p.val (I.projection n (xs.map MeantItem.meaning)) .atom := by
  have hne := name_ne hn.1
  have herr : (symbolicName u kn n).err = none := by simp [symbolicName, hne, Val.mk']
  obtain ⟨k, km, hk, hkm, hp'⟩ := projectRun_ok u _ herr g gs hg
  obtain ⟨f1, f2, f3, f4, f5⟩ := groupTms_facts u (g :: gs) hg
  have he := (errsOf_none_iff _).mpr f4
  have hpe : p = ⟨symbolicName u kn n, groupVals u (g :: gs), projectionVal k km (symbolicName u kn n) (groupVals u (g :: gs))⟩ := by
    rw [hp'] at hp; cases hp; rfl
  have hval : p.val.visit = [nd k [] [] false ((symbolicName u kn n).visit ++ [nd km c!"{" c!"}" true (visitsOf (groupVals u (g :: gs)))])] := by
    rw [hpe]
    simp [projectionVal, mapExpression, he, Val.mk']
  have hitem : ∀ y ∈ (g :: gs).flatMap (fun g' => g'.items), ∀ v, y.value = some v → dkeysL v.visit = [] := by
    intro y hy v hyv
    rw [hi] at hy
    obtain ⟨x, hx', rfl⟩ := List.mem_map.mp hy
    exact (hv x hx' v hyv).dk
  have hdkt : dkeysL (Tm.treesL (groupTms u (g :: gs))) = [] := by
    have key : ∀ (is : List Item) (ks : Nat → Key) (i : Nat), (∀ y ∈ is, ∀ v, y.value = some v → dkeysL v.visit = []) → dkeysL (Tm.treesL (itemTms u ks i is)) = [] := by
      intro is
      induction is with
      | nil => intros; rfl
      | cons y is ih =>
        intro ks i h
        simp only [itemTms, Tm.treesL, dkeysL_append, itemTm_dkeys (h y (by simp)), ih ks (i + 1) (fun z hz => h z (by simp [hz])), List.append_nil]
    generalize g :: gs = gg at hitem
    induction gg with
    | nil => rfl
    | cons g' gg ih =>
      simp only [groupTms, List.flatMap_cons, treesL_append, dkeysL_append] at ih ⊢
      rw [key g'.items _ _ (fun y hy => hitem y (by simp only [List.flatMap_cons, List.mem_append]; exact .inl hy)),
        ih (fun y hy => hitem y (by simp only [List.flatMap_cons, List.mem_append]; exact .inr hy))]
      rfl
  have hdk : dkeysL p.val.visit = [] := by
    rw [hval]
    simp only [dkeysL_nd, dkeysL_append, f1, hdkt, List.append_nil]
    simp [symbolicName, hne, Val.mk', dkeysL, dkeys_leaf]
  obtain ⟨p', hp'', _, htext⟩ := C24_text u (symbolicName u kn n) herr g gs hg
  have : p' = p := by rw [hp''] at hp; cases hp; rfl
  subst this
  obtain ⟨t, ht, hl, _⟩ := Lexes.name hn.1
  have hname : Text (symbolicName u kn n) (escapeIfNecessary u n) := by
    intro e he
    simp [symbolicName, hne, shownAs, Val.mk', leaf, nd, denL, den, shown, he kn, sepText, described, defined, Vis.asAlias]
  have hsum : ∃ s ts, Shows (sepParts c!", " (((g :: gs).flatMap (·.items)).map (Item.parts u))) s ∧
      (∀ r rs, Tokens u r rs → Tokens u (s ++ '}' :: r) (ts ++ .sym '}' :: rs)) ∧
      (∀ r, RItems I tight (ts ++ .sym '}' :: r) (xs.map MeantItem.meaning) r) ∧
      ((∃ d, ∀ r, RA I tight (.sym '{' :: (ts ++ .sym '}' :: r)) d r) ∨
        ∀ r, NoEntries I tight (ts ++ .sym '}' :: r) ∧ (ts ++ .sym '}' :: r).head? ≠ some (.sym '}')) := by
    rw [hi, List.map_map]
    cases xs with
    | nil => exact ⟨[], [], Shows.nil, fun r rs h => Tokens.sym (by simp [symbols]) (by simp) h, fun r => RItems.nil r,
        .inl ⟨I.map [], fun r => ⟨1, fun n hn => by obtain ⟨m, rfl⟩ : ∃ m, n = m + 1 := ⟨n - 1, by omega⟩; rw [readAtom.eq_def]; simp⟩⟩⟩
    | cons x xs =>
      obtain ⟨s, ts, h1, h2, h3, ⟨t, r', rfl, h4⟩, h5⟩ := items_reads x xs hx hv
      refine ⟨s, _, h1, h2, fun r => RItems.some (by simpa using h4) (h3 r), ?_⟩
      rcases h5 with ⟨ds, h5⟩ | h5
      · exact .inl ⟨_, fun r => RA.map (h5 r) (by simpa using h4)⟩
      · exact .inr fun r => ⟨h5 r, by simpa using h4⟩
  obtain ⟨s, ts, h1, h2, h3, h4⟩ := hsum
  have hsym : ∀ c, t ≠ .sym c := by rintro c rfl; rcases ht with h | h <;> cases h
  refine ⟨by rw [hpe]; rfl, by rw [hpe]; rfl, by rw [hval]; exact ⟨_, _, rfl⟩, hdk, by simp [CallKind.isCondition],
    escapeIfNecessary u n ++ (c!"{" ++ (s ++ (c!"}" ++ []))), t :: .sym '{' :: (ts ++ [.sym '}']), ?_, ?_, ?_, ht.head hn.2.1 _ _, ?_⟩
  · intro e hfree
    rw [htext e (fun k' _ => ⟨hfree k', by simp [hdk]⟩)]
    have := Shows.append (Shows.append (Shows.hole hname (Shows.lit c!"{" Shows.nil)) h1) (Shows.lit c!"}" Shows.nil)
    rw [this e hfree]
    simp
  · intro r rs hf htr
    simp only [List.append_assoc, List.cons_append, List.nil_append]
    exact hl _ _ (Follow.mark (by decide) _) (Tokens.sym (by simp [symbols]) (by simp) (h2 _ _ htr))
  · refine Prefix.atom fun r _ _ => ?_
    simp only [List.append_assoc, List.cons_append, List.nil_append]
    exact RA.projection ht hn.2.1 hn.2.2 (h3 r)
  · have : p'.val.isCond = false := by rw [hpe]; rfl
    rw [this]
    refine Soft.extra ⟨NoIn.sym _ _ _, NoPath.head (hsym _), fun t' r h1 _ _ _ => ?_⟩
    simp only [List.append_assoc, List.cons_append, List.nil_append]
    refine NotNode.projection (t := t') (r := r) ht hn h1 ?_
    rcases h4 with ⟨d, h4⟩ | h4
    · exact .inl ⟨d, h4 _⟩
    · exact .inr (h4 _)

end Verif.Rd
