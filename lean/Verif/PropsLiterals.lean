import Verif.Literals
import Verif.Shortcuts
import Verif.PropsRead

/-
C87: the text of a literal.
-/

namespace Verif.Spec

/-- What a literal stands for. -/
inductive Data where
  | null
  | bool (b : Bool)
  | num (q : ℚ)
  | str (s : Str)
  | list (xs : List Data)

/-- The literal stands for this: numbers with at most ten significant digits, lists of such. -/
inductive LitMeans : Lit → Data → Prop
  | null : LitMeans .null .null
  | bool (k : Key) (b : Bool) : LitMeans (.bool k b) (.bool b)
  | int (k : Key) (i : Int) : TenDigits (i : ℚ) → LitMeans (.int k i) (.num i)
  | float (k : Key) (neg : Bool) (m : Nat) (e : Int) : TenDigits (floatValue neg m e) → LitMeans (.float k (.fin neg m e)) (.num (floatValue neg m e))
  | str (k : Key) (s : Str) : LitMeans (.str k s) (.str s)
  | nil (k : Key) : LitMeans (.list k []) (.list [])
  | cons {k : Key} {x : Lit} {d : Data} {xs : List Lit} {ds : List Data} : LitMeans x d → LitMeans (.list k xs) (.list ds) →
      LitMeans (.list k (x :: xs)) (.list (d :: ds))

mutual
/-- Data in a given meaning of Cypher. -/
def Data.in (I : Meaning) : Data → I.D
  | .null => I.null
  | .bool b => I.bool b
  | .num q => I.num q
  | .str s => I.str s
  | .list xs => I.list (Data.inL I xs)
def Data.inL (I : Meaning) : List Data → List I.D
  | [] => []
  | x :: xs => x.in I :: Data.inL I xs
end

end Verif.Spec

namespace Verif
open Spec

theorem den_leaf {e : Env} {k : Key} (h : e.al k = none) (s : Str) : denL false true e [leaf k s] = (s, e) := by
  have := den_nd h s [] false []
  unfold nd at this
  simp [leaf, nd, denL, this, sepText]

mutual
theorem Lit.val_err : ∀ {l : Lit} {v : Val}, l.val = .ok v → v.err = none
  | .null, _, h | .asterisk, _, h | .bool _ _, _, h | .int _ _, _, h | .str _ _, _, h | .raw _ _, _, h | .namespace_ _ _, _, h => by
    simp only [Lit.val, Outcome.ok.injEq] at h
    subst h
    rfl
  | .float k f, v, h => by
    simp only [Lit.val, floatLiteral] at h
    split at h <;> cases h
    rfl
  | .list k xs, v, h => by
    simp only [Lit.val] at h
    cases hv : Lit.vals xs with
    | panic => simp [hv, Outcome.bind] at h
    | ok vs =>
      simp only [hv, Outcome.bind, Outcome.ok.injEq] at h
      subst h
      have : errsOf vs = none := (errsOf_none_iff _).mpr (Lit.vals_err hv)
      simp [listLiteral, this]
theorem Lit.vals_err : ∀ {xs : List Lit} {vs : List Val}, Lit.vals xs = .ok vs → ∀ v ∈ vs, v.err = none
  | [], _, h => by
    simp only [Lit.vals, Outcome.ok.injEq] at h
    subst h
    simp
  | x :: xs, _, h => by
    simp only [Lit.vals] at h
    cases hv : x.val with
    | panic => simp [hv, Outcome.bind] at h
    | ok v =>
      cases hs : Lit.vals xs with
      | panic => simp [hv, hs, Outcome.bind] at h
      | ok vs =>
        simp only [hv, hs, Outcome.bind, Outcome.ok.injEq] at h
        subst h
        intro w hw
        rcases List.mem_cons.mp hw with rfl | hw
        · exact Lit.val_err hv
        · exact Lit.vals_err hs w hw
end

mutual
theorem Lit.shown : ∀ {l : Lit} {v : Val} {e : Env}, l.val = .ok v → (∀ k ∈ l.keys, e.al k = none) → denL false true e v.visit = (l.asString, e)
  | .null, _, e, h, hk | .asterisk, _, e, h, hk | .bool _ _, _, e, h, hk | .int _ _, _, e, h, hk | .str _ _, _, e, h, hk | .raw _ _, _, e, h, hk
  | .namespace_ _ _, _, e, h, hk => by
    simp only [Lit.val, Outcome.ok.injEq] at h
    subst h
    exact den_leaf (hk _ (by simp [Lit.keys])) _
  | .float k f, v, e, h, hk => by
    simp only [Lit.val, floatLiteral] at h
    split at h
    · next t ht =>
      simp only [Outcome.ok.injEq] at h
      subst h
      simpa [Lit.asString, ht, Val.mk'] using den_leaf (hk k (by simp [Lit.keys])) t
    · cases h
  | .list k xs, v, e, h, hk => by
    simp only [Lit.val] at h
    cases hv : Lit.vals xs with
    | panic => simp [hv, Outcome.bind] at h
    | ok vs =>
      simp only [hv, Outcome.bind, Outcome.ok.injEq] at h
      subst h
      have he : errsOf vs = none := (errsOf_none_iff _).mpr (Lit.vals_err hv)
      have hn := den_nd (hk k (by simp [Lit.keys])) c!"[" c!"]" false (listLiteralKids vs)
      unfold nd at hn
      have := Lit.shownL hv (e := e) (fun k hk' => hk k (by simp [Lit.keys, hk']))
      simp [listLiteral, he, nd, denL, hn, this, sepText, Lit.asString]
theorem Lit.shownL : ∀ {xs : List Lit} {vs : List Val} {e : Env}, Lit.vals xs = .ok vs → (∀ k ∈ Lit.keysL xs, e.al k = none) →
    denL false true e (listLiteralKids vs) = (Lit.asStrings true xs, e)
  | [], _, e, h, _ => by
    simp only [Lit.vals, Outcome.ok.injEq] at h
    subst h
    simp [listLiteralKids, denL, Lit.asStrings]
  | x :: xs, _, e, h, hk => by
    simp only [Lit.vals] at h
    cases hv : x.val with
    | panic => simp [hv, Outcome.bind] at h
    | ok v =>
      cases hs : Lit.vals xs with
      | panic => simp [hv, hs, Outcome.bind] at h
      | ok vs =>
        simp only [hv, hs, Outcome.bind, Outcome.ok.injEq] at h
        subst h
        have h1 := Lit.shown hv (e := e) (fun k hk' => hk k (by simp [Lit.keysL, hk']))
        have h2 := Lit.shownL hs (e := e) (fun k hk' => hk k (by simp [Lit.keysL, hk']))
        cases vs with
        | nil =>
          cases xs with
          | nil => simp [listLiteralKids, h1, Lit.asStrings]
          | cons y ys =>
            simp only [Lit.vals] at hs
            cases hy : y.val <;> cases hys : Lit.vals ys <;> simp [hy, hys, Outcome.bind] at hs
        | cons w ws =>
          cases xs with
          | nil => simp [Lit.vals] at hs
          | cons y ys =>
            simp only [Lit.asStrings, if_true, List.nil_append, Bool.false_eq_true, if_false] at h2 ⊢
            rw [listLiteralKids, denL_append, h1]
            simp [denL, h2]
end

/-- C87: a literal, nested as it may be, is shown as its `AsString()` wherever it is not known under an alias, and changes nothing in the memories
of the renderer. -/
theorem C87_shown {l : Lit} {v : Val} {e : Env} (h : l.val = .ok v) (hk : ∀ k ∈ l.keys, e.al k = none) :
    v.err = none ∧ shownAs e v.visit = (l.asString, e) := ⟨Lit.val_err h, Lit.shown h hk⟩

/-- On its own. -/
theorem C87_text {l : Lit} {v : Val} (h : l.val = .ok v) : text v.visit = l.asString := by
  rw [text, Lit.shown h fun _ _ => rfl]

/-- `AQuote` yields what a literal of the string is shown as. -/
theorem C87_quote (k : Key) (s : Str) : aQuote s = text (stringLiteral k s).visit := (C87_text (l := .str k s) rfl).symm

mutual
/-- The constructors panic for NaN only. -/
def Spec.NaNIn : Lit → Prop
  | .float _ f => f = .nan
  | .list _ xs => Spec.NaNInL xs
  | _ => False
def Spec.NaNInL : List Lit → Prop
  | [] => False
  | x :: xs => Spec.NaNIn x ∨ Spec.NaNInL xs
end

mutual
theorem Lit.made : ∀ (l : Lit), ¬ NaNIn l → ∃ v, l.val = .ok v
  | .null, _ | .asterisk, _ | .bool _ _, _ | .int _ _, _ | .str _ _, _ | .raw _ _, _ | .namespace_ _ _, _ => ⟨_, rfl⟩
  | .float k f, h => by
    simp only [NaNIn] at h
    cases f with
    | nan => exact absurd rfl h
    | inf neg => exact ⟨_, rfl⟩
    | fin neg m e => exact ⟨_, rfl⟩
  | .list k xs, h => by
    obtain ⟨vs, hv⟩ := Lit.madeL xs (by simpa [NaNIn] using h)
    exact ⟨listLiteral k vs, by simp [Lit.val, hv, Outcome.bind]⟩
theorem Lit.madeL : ∀ (xs : List Lit), ¬ NaNInL xs → ∃ vs, Lit.vals xs = .ok vs
  | [], _ => ⟨[], rfl⟩
  | x :: xs, h => by
    simp only [NaNInL, not_or] at h
    obtain ⟨v, hv⟩ := Lit.made x h.1
    obtain ⟨vs, hs⟩ := Lit.madeL xs h.2
    exact ⟨v :: vs, by simp [Lit.vals, hv, hs, Outcome.bind]⟩
end

mutual
theorem Lit.unmade : ∀ (l : Lit), NaNIn l → l.val = .panic
  | .float k f, h => by
    simp only [NaNIn] at h
    subst h
    rfl
  | .list k xs, h => by
    simp only [NaNIn] at h
    simp [Lit.val, Lit.unmadeL xs h, Outcome.bind]
theorem Lit.unmadeL : ∀ (xs : List Lit), NaNInL xs → Lit.vals xs = .panic
  | x :: xs, h => by
    simp only [NaNInL] at h
    rcases h with h | h
    · simp [Lit.vals, Lit.unmade x h, Outcome.bind]
    · cases hv : x.val <;> simp [Lit.vals, hv, Lit.unmadeL xs h, Outcome.bind]
end

/-- A literal can be made unless there is a NaN in it; then making it panics. -/
theorem C87_made (l : Lit) : (∃ v, l.val = .ok v) ↔ ¬ NaNIn l := by
  refine ⟨fun ⟨v, hv⟩ h => ?_, Lit.made l⟩
  rw [Lit.unmade l h] at hv
  cases hv

/-! ### Reading -/

variable {u : Unicode} {I : Meaning} {tight : Bool}

/-- What the parts of a list stand for. -/
theorem Spec.LitMeans.parts {k : Key} {xs : List Lit} {d : Data} (h : LitMeans (.list k xs) d) :
    ∃ ds, d = .list ds ∧ List.Forall₂ LitMeans xs ds := by
  generalize hl : Lit.list k xs = l at h
  induction h generalizing xs with
  | nil =>
    simp only [Lit.list.injEq] at hl
    obtain ⟨rfl, rfl⟩ := hl
    exact ⟨_, rfl, .nil⟩
  | cons hx _ _ ih =>
    simp only [Lit.list.injEq] at hl
    obtain ⟨rfl, rfl⟩ := hl
    obtain ⟨ds, hd, hf⟩ := ih rfl
    simp only [Data.list.injEq] at hd
    subst hd
    exact ⟨_, rfl, .cons hx hf⟩
  | _ => cases hl

mutual
theorem Lit.denotes : ∀ {l : Lit} {d : Data}, LitMeans l d → ∃ v σ, l.val = .ok v ∧ σ.first = true ∧ Denotes u I tight v (d.in I) σ
  | .null, _, h => by cases h; exact ⟨_, _, rfl, rfl, .null⟩
  | .bool k b, _, h => by cases h; exact ⟨_, _, rfl, rfl, .bool k b⟩
  | .int k i, _, h => by
    cases h with
    | int _ _ h => exact ⟨_, _, rfl, by split <;> rfl, .int k i h⟩
  | .str k s, _, h => by cases h; exact ⟨_, _, rfl, rfl, .str k s⟩
  | .float k f, _, h => by
    cases h with
    | float _ neg m e h => exact ⟨_, _, rfl, by split <;> rfl, .float rfl h⟩
  | .list k xs, _, h => by
    obtain ⟨ds, rfl, hf⟩ := h.parts
    obtain ⟨ms, h1, h2, h3⟩ := Lit.denotesL hf
    refine ⟨listLiteral k (ms.map (·.v)), .atom, by simp [Lit.val, h1, Outcome.bind], rfl, ?_⟩
    rw [Data.in, ← h2]
    exact .listLiteral k (fun x hx => (h3 x hx).1) fun x hx => (h3 x (List.mem_of_mem_head? hx)).2
theorem Lit.denotesL : ∀ {xs : List Lit} {ds : List Data}, List.Forall₂ LitMeans xs ds →
    ∃ ms : List (Meant I), Lit.vals xs = .ok (ms.map (·.v)) ∧ ms.map (·.d) = Data.inL I ds ∧ ∀ x ∈ ms, Denotes u I tight x.v x.d x.σ ∧ x.σ.first = true
  | [], _, h => by cases h; exact ⟨[], rfl, rfl, by simp⟩
  | x :: xs, _, h => by
    cases h with
    | @cons _ d _ ds hx hs =>
      obtain ⟨v, σ, h1, h2, h3⟩ := Lit.denotes hx
      obtain ⟨ms, h4, h5, h6⟩ := Lit.denotesL hs
      refine ⟨⟨v, Data.in I d, σ⟩ :: ms, by simp [Lit.vals, h1, h4, Outcome.bind], by simp [Data.inL, h5], fun y hy => ?_⟩
      rcases List.mem_cons.mp hy with rfl | hy
      · exact ⟨h3, h2⟩
      · exact h6 y hy
end

/-- C87: `AsString()` reads as what the literal stands for, in every version of Cypher.  Numbers need at most ten significant digits (C06, C51). -/
theorem C87_reads {l : Lit} {d : Data} (h : LitMeans l d) : ReadsAs u tight I l.asString (d.in I) := by
  obtain ⟨v, σ, h1, _, h2⟩ := Lit.denotes (u := u) (I := I) (tight := tight) h
  have := (C52_reads_partial h2 (e := Env.empty) fun _ => rfl).2
  rwa [shownAs, Lit.shown h1 fun _ _ => rfl] at this

/-! ### Different data, different texts -/

/-- Data or nothing, as a meaning of Cypher. -/
def dataMeaning : Meaning where
  D := Option Data
  str s := some (.str s)
  num q := some (.num q)
  bool b := some (.bool b)
  null := some .null
  star := none
  param _ := none
  name _ := none
  prop _ _ := none
  labels _ _ := none
  bin _ _ _ := none
  neg d := match d with | some (.num q) => some (.num (-q)) | _ => none
  not _ := none
  isNull _ := none
  isNotNull _ := none
  call _ _ _ := none
  list ds := some (.list (ds.filterMap id))
  map _ := none
  projection _ _ := none
  index _ _ := none
  slice _ _ _ := none
  case _ _ _ := none
  quantified _ _ _ _ := none
  comprehension _ _ _ _ := none
  pattern _ := none
  patternList _ _ _ := none
  existsMatch _ _ := none
  assoc _ _ _ _ _ := rfl
  neg_num _ := rfl

mutual
theorem Data.in_data : ∀ d : Data, d.in dataMeaning = some d
  | .null | .bool _ | .num _ | .str _ => rfl
  | .list xs => by
    show some (Data.list ((Data.inL dataMeaning xs).filterMap id)) = _
    rw [Data.inL_data xs]
theorem Data.inL_data : ∀ ds : List Data, (Data.inL dataMeaning ds).filterMap id = ds
  | [] => rfl
  | d :: ds => by
    show List.filterMap id (Data.in dataMeaning d :: Data.inL dataMeaning ds) = _
    rw [Data.in_data d]
    show d :: List.filterMap id (Data.inL dataMeaning ds) = _
    rw [Data.inL_data ds]
end

/-- C87: literals with the same text stand for the same data. -/
theorem C87_same_text {l l' : Lit} {d d' : Data} (h : LitMeans l d) (h' : LitMeans l' d') (ht : l.asString = l'.asString) : d = d' := by
  have h1 := C87_reads (u := .ascii) (I := dataMeaning) (tight := false) h
  have h2 := C87_reads (u := .ascii) (I := dataMeaning) (tight := false) h'
  rw [ht] at h1
  have := C52_unambiguous h1 h2
  rw [Data.in_data, Data.in_data] at this
  exact Option.some.inj this

/-- A raw string, or a namespace, can have the text of anything. -/
theorem C87_raw (k : Key) (l : Lit) : (Lit.raw k l.asString).asString = l.asString := rfl

/-- Longer numbers can have the text of others, see C59. -/
theorem C87_number_collision : (Lit.int 1 12345678901).asString = (Lit.int 1 12345678902).asString := by decide +kernel

namespace SampleLiterals

/-- `['it\'s', [1, -2.5, true], NULL, []]` -/
def nested : Lit := .list 1 [.str 2 c!"it's", .list 3 [.int 4 1, .float 5 (.fin true 5 (-1)), .bool 6 true], .null, .list 7 []]

example : nested.asString = c!"['it\\'s', [1, -2.5, true], NULL, []]" := by decide +kernel

example : (match nested.val with | .ok v => text v.visit | .panic => []) = c!"['it\\'s', [1, -2.5, true], NULL, []]" := by decide +kernel

example : LitMeans nested (.list [.str c!"it's", .list [.num ((1 : Int) : ℚ), .num (floatValue true 5 (-1)), .bool true], .null, .list []]) :=
  .cons (.str _ _) (.cons (.cons (.int _ _ ⟨1, 0, by norm_num, by norm_num⟩)
    (.cons (.float _ _ _ _ ⟨-25, -1, by norm_num, by norm_num [floatValue]⟩) (.cons (.bool _ _) (.nil _)))) (.cons .null (.cons (.nil _) (.nil _))))

example : ¬ NaNIn nested ∧ NaNIn (.list 1 [.int 2 1, .list 3 [.float 4 .nan]]) := by
  constructor <;> simp [NaNIn, NaNInL, nested]

end SampleLiterals

end Verif
